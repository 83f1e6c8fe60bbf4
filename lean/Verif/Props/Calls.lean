import Verif.Lemmas.Tiny
import Verif.Lemmas.Calls
import Verif.Props.Variables
/-! # Properties C54-C56, C61-C63, C69, C71: calls and frames -/

namespace Clr

variable {cfg : Cfg} {ops : FloatOps} {tf fuel : Nat} {fr : Frame} {ip : Nat} {v v' : VM} {rest : List Value}

/-! ## C55, C71 -/

/-- **C55**: however the execution of a method ends, the locals-and-arguments memory has the size it had before. -/
theorem C55 (m : MethodRec) (params : Region) :
    (invoke cfg (loop cfg ops tf fuel) m params v).2.stack.slots.length = v.stack.slots.length ∧
    (invoke cfg (loop cfg ops tf fuel) m params v).2.allocated = v.allocated := by
  have h := invoke_whole (L := 0) (H := False) (cfg := cfg) (loop_free cfg ops tf fuel) m (params := params)
    (by cases params <;> simp [Region.free]) (v := v) (Nat.zero_le _)
  exact ⟨h.slots, h.same⟩

/-- **C55 for the host**: after running a program no memory is in use. -/
theorem C55_host (w : World) (m : MethodRec) (params : List Value) :
    (hostExecute cfg ops tf fuel w m params).2.stack.slots = [] := by
  unfold hostExecute
  split
  · exact List.length_eq_zero_iff.1 (C55 m .host).1
  · rfl

/-- `m0(int)` calls itself with its argument less one until it is zero, then divides by zero: the call is deep, and ends with
a panic. -/
example : (hostExecute .debug Ex.floats 9 40
    (Ex.tiny [Ex.meth [0x02, 0x2c, 0x09, 0x02, 0x17, 0x59, 0x28, 0x01, 0x00, 0x00, 0x06, 0x2a, 0x17, 0x16, 0x5b, 0x2a]
      (params := 1) (locals := 2)])
    (Ex.meth [0x02, 0x2c, 0x09, 0x02, 0x17, 0x59, 0x28, 0x01, 0x00, 0x00, 0x06, 0x2a, 0x17, 0x16, 0x5b, 0x2a]
      (params := 1) (locals := 2)) [.i32 3]).1 = .panic := by decide +kernel

/-- **C71 fails**: a call leaves the memory larger by the callee's parameters (and receiver); it is only given back when
the caller itself returns. -/
theorem C71_refuted (fr : Frame) (token : Token) (m : MethodRec) (v v' : VM)
    (hm : fr.assembly.resolveMethod cfg token = .ok (some m))
    (h : callMethod cfg (loop cfg ops tf fuel) fr token v = (.ok (), v')) :
    v'.stack.slots.length = v.stack.slots.length + (m.params.length + if m.isStatic then 0 else 1) := by
  unfold callMethod at h
  rw [X.liftM_bind_ok hm] at h
  simp only [Res.ofOption] at h
  rw [X.liftM_bind_ok rfl] at h
  simp only [← MethodRec.slots.eq_1] at h
  obtain ⟨r, v1, hal, h⟩ := X.bind_eq_ok.1 h
  obtain ⟨_, v2, hpop, h⟩ := X.bind_eq_ok.1 h
  obtain ⟨a, v3, hinv, h⟩ := X.bind_eq_ok.1 h
  obtain ⟨hr, -, h3, -⟩ := stackAlloc_ok hal
  have h4 := popInto_length r m.slots v1
  rw [hpop] at h4
  have h5 := (C55 (cfg := cfg) (ops := ops) (tf := tf) (fuel := fuel) (v := v2) m r).1
  rw [hinv] at h5
  have h6 : v'.stack.slots = v3.stack.slots := by
    cases a with
    | none => cases h; rfl
    | some a => cases h; rfl
  rw [h6, h5, h4, h3]
  simp only [List.length_append, List.length_replicate, MethodRec.slots]
  split <;> omega

/-- **C71 for methods without parameters.** -/
theorem C71_partial (fr : Frame) (token : Token) (m : MethodRec) (v v' : VM)
    (hm : fr.assembly.resolveMethod cfg token = .ok (some m)) (hs : m.isStatic) (hp : m.params = [])
    (h : callMethod cfg (loop cfg ops tf fuel) fr token v = (.ok (), v')) :
    v'.stack.slots.length = v.stack.slots.length := by
  rw [C71_refuted fr token m v v' hm h]
  simp [hs, hp]

/-! ## C54 -/

/-- **C54 when the memory for locals and arguments need not be moved**: `args` are the values pushed left to right, `rest`
is the evaluation stack below them. The method with a body runs in a frame with that body's code in which every way to
load argument `i` (except `ldarg` with a two-byte index, see C57) gives `args[i]`; it starts with the evaluation stack
`rest`; and if it returns, the caller continues with the callee's final evaluation stack and, if there is one, its result
on top. -/
theorem C54_partial (token : Token) (m : MethodRec) (body : MethodBody) (t : TypeRec) (asm : AssemblyRec)
    (args : List Value) (hm : fr.assembly.resolveMethod cfg token = .ok (some m)) (himpl : m.impl = .il body)
    (ht : v.world.types[m.declaringType]? = some t) (ha : v.world.assemblies.find? (·.id = t.assembly) = some asm)
    (hl : args.length = m.params.length + (if m.isStatic then 0 else 1)) (ho : v.operands = args.reverse ++ rest)
    (hfit : 16 * (v.stack.slots.length + args.length + body.locals.length) ≤ v.stack.cap) (hcap : v.stack.cap < 2 ^ 62) :
    ∃ fr' v1, fr'.code = body.code ∧ fr'.method = m ∧ fr'.assembly = asm ∧
      v1.operands = rest ∧ v1.heap = v.heap ∧ v1.world = v.world ∧ v1.host = v.host ∧
      (∀ i a, args[i]? = some a → ∀ l ∈ Var.arg.loads i, ¬ [0xfe, 0x09] <+: l → ∀ ip, HasAt body.code ip l →
        step cfg ops tf fr' ip v1 = (.ok (.next (ip + l.length)), { v1 with operands := a :: rest })) ∧
      (∀ r v2, loop cfg ops tf fuel fr' 0 v1 = (.ok r, v2) → ∃ v', callMethod cfg (loop cfg ops tf fuel) fr token v = (.ok (), v') ∧
        v'.operands = r.toList ++ v2.operands ∧ v'.heap = v2.heap ∧ v'.world = v2.world ∧ v'.host = v2.host) := by
  have hl' : args.length = m.slots := by rw [hl, MethodRec.slots]; split <;> omega
  obtain ⟨v1, h1, h2, h3, h4⟩ := callMethod_run (run := loop cfg ops tf fuel) hm (rest := rest)
    ⟨hcap, by rw [← hl']; omega⟩ hl' ho
  obtain ⟨hg, hcap1⟩ : v1.stack.gen = v.stack.gen ∧ v1.stack.cap = v.stack.cap := by
    rcases h3 with h | ⟨-, h⟩
    · exact ⟨h.1, h.2.1⟩
    · rw [← hl'] at h; omega
  have hw1 : v1.world = v.world := by rw [h1]
  obtain ⟨reg, v2, hal⟩ := stackAlloc_room (v := { v1 with allocated := 0 }) (n := body.locals.length) (by
    constructor
    · show v1.stack.cap < _; omega
    · show 16 * (v1.stack.slots.length + _) < _; rw [h2]; simp; omega)
  obtain ⟨-, hv2, hs2, hg2⟩ := stackAlloc_ok hal
  have hg2 : v2.stack.gen = v1.stack.gen := by
    rcases hg2 with ⟨h, -⟩ | ⟨-, h⟩
    · exact h
    · rw [hs2, h2] at h; simp at h; omega
  have hinv := invoke_run (cfg := cfg) (loop_free cfg ops tf fuel) (params := .slots v1.stack.gen v.stack.slots.length m.slots)
    himpl (by rw [hw1]; exact ht) (by rw [hw1]; exact ha) hal
  have hop2 : v2.operands = rest := by rw [hv2]; show v1.operands = _; rw [h1]
  refine ⟨⟨m, asm, body.code, reg, .slots v1.stack.gen v.stack.slots.length m.slots⟩, v2, rfl, rfl, rfl, hop2, ?_, ?_, ?_, ?_, fun r v3 hr => ?_⟩
  · rw [hv2]; show v1.heap = _; rw [h1]
  · rw [hv2]; exact hw1
  · rw [hv2]; show v1.host = _; rw [h1]
  · intro i a hi l hlm hn ip hc
    have hi' : i < args.length := (List.getElem?_eq_some_iff.1 hi).1
    have hu : Usable v2 (.slots v1.stack.gen v.stack.slots.length m.slots) i :=
      ⟨by omega, hg2.symm, by rw [hs2, h2]; simp; omega⟩
    refine (load_run hlm hn hc).trans ((loadSlot_ok hu ?_ _).trans (by rw [hop2]))
    show v2.stack.slots[v.stack.slots.length + i]? = _
    rw [hs2, h2, List.getElem?_append_left (by simp; omega), List.getElem?_append_right (by omega)]
    simpa using hi
  · rw [hr] at hinv
    rw [h4, X.bind_ok hinv]
    cases r with
    | none => exact ⟨_, rfl, rfl, rfl, rfl, rfl⟩
    | some a => exact ⟨_, rfl, rfl, rfl, rfl, rfl⟩

/-- The caller, `Ex.sub3` is called with 10, 4 on the stack. -/
example : (hostExecute .debug Ex.floats 9 40
    (Ex.tiny [Ex.meth [0x1f, 0x0a, 0x1a, 0x28, 0x02, 0x00, 0x00, 0x06, 0x2a] (ret := 8),
      Ex.meth [0x02, 0x03, 0x59, 0x2a] (ret := 8) (params := 2) (locals := 1)])
    (Ex.meth [0x1f, 0x0a, 0x1a, 0x28, 0x02, 0x00, 0x00, 0x06, 0x2a] (ret := 8)) []).1 = .ok (.number (.i32 6)) := by
  decide +kernel

/-- **C54: the result.** `ret` in a method that is not void ends it with the top of the evaluation stack as result. -/
theorem C54_ret (hv : IsValue v.world fr.method) (a : Value) (ho : v.operands = a :: rest)
    (hc : HasAt fr.code ip [0x2a]) :
    loop cfg ops tf (fuel + 1) fr ip v = (.ok (some a), { v with operands := rest }) := by
  refine loop_ret ((step_one hc (by decide) (op := .Ret) (by decide) v).trans ((doRet_value hv).trans ?_))
  rw [ho]; rfl

/-- **C54: no result.** A void method that returns has no result, whatever its code. -/
theorem C54_void (m : MethodRec) (params : Region) (r : Option Value) (body : MethodBody) (himpl : m.impl = .il body)
    (hv : IsVoid v.world m) (h : invoke cfg (loop cfg ops tf fuel) m params v = (.ok r, v')) : r = none := by
  unfold invoke at h
  rw [himpl] at h
  obtain ⟨t, v1, h1, h⟩ := X.bind_eq_ok.1 h
  obtain ⟨a, v2, h2, h⟩ := X.bind_eq_ok.1 h
  obtain ⟨o, v3, h3, h⟩ := X.bind_eq_ok.1 h
  have e1 : v1 = v := (congrArg Prod.snd h1).symm
  have e2 : v2 = v1 := (congrArg Prod.snd h2).symm
  have e3 : v3.world = v.world := by cases h3; rw [e2, e1]
  unfold X.finally' at h
  split at h <;> injection h with hr _ <;> try cases hr
  rcases hx : (do
    let locals ← stackAlloc body.locals.length
    loop cfg ops tf fuel { method := m, assembly := a, code := body.code, locals, params } 0 : X (Option Value)) v3
    with ⟨y, v4⟩
  rw [hx] at hr
  cases hr
  obtain ⟨reg, v5, hal, hlp⟩ := X.bind_eq_ok.1 hx
  obtain ⟨-, h5, -⟩ := stackAlloc_ok hal
  refine loop_void hlp ?_
  show IsVoid v5.world m
  rw [h5]
  show IsVoid v3.world m
  rw [e3]; exact hv

/-- **C54 fails when the memory has to be moved**: a callee with 64 locals cannot read its argument. -/
theorem C54_refuted :
    let callee (locals : Nat) := Ex.meth [0x02, 0x2a] (ret := 8) (params := 1) (locals := locals)
    let caller := Ex.meth [0x1b, 0x28, 0x02, 0x00, 0x00, 0x06, 0x2a] (ret := 8)
    (hostExecute .release Ex.floats 9 40 (Ex.tiny [caller, callee 63]) caller []).1 = .ok (.number (.i32 5)) ∧
    (hostExecute .release Ex.floats 9 40 (Ex.tiny [caller, callee 64]) caller []).1 = .ub := by
  decide +kernel

/-! ## C56 -/

/-- **C56 when the memory for locals and arguments was not moved**: whatever a nested call does and however it ends, the
caller's variables are as before. -/
theorem C56_partial (token : Token) (x : Var) (i : Nat) (l : Bytes) (hl : l ∈ x.loads i) (hn : ¬ [0xfe, 0x09] <+: l)
    (hc : HasAt fr.code ip l) (hu : Usable v (fr.slice x) i)
    (hg : (callMethod cfg (loop cfg ops tf fuel) fr token v).2.stack.gen = v.stack.gen) :
    ∃ a, step cfg ops tf fr ip v = (.ok (.next (ip + l.length)), { v with operands := a :: v.operands }) ∧
      let v' := (callMethod cfg (loop cfg ops tf fuel) fr token v).2
      step cfg ops tf fr ip v' = (.ok (.next (ip + l.length)), { v' with operands := a :: v'.operands }) := by
  have hk := (callMethod_keeps (L := v.stack.slots.length) (H := True) (cfg := cfg) (loop_free cfg ops tf fuel) fr token).run v
    (Nat.le_refl _)
  generalize (callMethod cfg (loop cfg ops tf fuel) fr token v).2 = v' at hg hk
  obtain ⟨a, ha, -⟩ := readSlot_ok hu
  refine ⟨a, (load_run hl hn hc).trans (loadSlot_ok hu ha _), ?_⟩
  have hlow := hk.low
  rw [List.take_length] at hlow
  have : Usable v' (fr.slice x) i ∧ (fr.slice x).at v' i = some a := by
    cases hx : fr.slice x with
    | host =>
      rw [hx] at hu ha
      simpa only [Usable, Region.at, hk.host trivial] using And.intro hu ha
    | slots g b c =>
      rw [hx] at hu ha
      obtain ⟨h1, h2, h3⟩ := hu
      refine ⟨⟨h1, by rw [hg]; exact h2, Nat.le_trans h3 hk.length⟩, ?_⟩
      simp only [Region.at] at ha ⊢
      rw [← hlow, List.getElem?_take, if_pos (by omega)] at ha
      exact ha
  exact (load_run hl hn hc).trans (loadSlot_ok this.1 this.2 _)

/-- **C56 fails when the memory has to be moved**: here by a callee with 64 locals. Loading the caller's local after the
call is undefined behaviour. -/
theorem C56_refuted :
    let callee (locals : Nat) := Ex.meth [0x2a] (locals := locals)
    let caller := Ex.meth [0x1b, 0x0a, 0x28, 0x02, 0x00, 0x00, 0x06, 0x06, 0x2a] (ret := 8) (locals := 1)
    (hostExecute .release Ex.floats 9 40 (Ex.tiny [caller, callee 63]) caller []).1 = .ok (.number (.i32 5)) ∧
    (hostExecute .release Ex.floats 9 40 (Ex.tiny [caller, callee 64]) caller []).1 = .ub := by
  decide +kernel

/-- **C56 fails** for small methods at some depth: `m0(int)` calls itself until its argument is zero and then adds the
argument to the result. -/
theorem C56_deep :
    let m := Ex.meth [0x02, 0x2d, 0x02, 0x16, 0x2a, 0x02, 0x17, 0x59, 0x28, 0x01, 0x00, 0x00, 0x06, 0x02, 0x58, 0x2a]
      (ret := 8) (params := 1)
    (hostExecute .release Ex.floats 9 800 (Ex.tiny [m]) m [.i32 64]).1 = .ok (.number (.i32 2080)) ∧
    (hostExecute .release Ex.floats 9 800 (Ex.tiny [m]) m [.i32 65]).1 = .ub := by
  decide +kernel

/-! ## C61 -/

/-- **C61: output only grows**, whatever method is run and however it ends. -/
theorem C61_grows (m : MethodRec) (params : Region) :
    v.world.output <+: (invoke cfg (loop cfg ops tf fuel) m params v).2.world.output :=
  (invoke_whole (L := 0) (H := False) (cfg := cfg) (loop_free cfg ops tf fuel) m (params := params)
    (by cases params <;> simp [Region.free]) (v := v) (Nat.zero_le _)).world.output

/-- **C61: instructions write nothing** themselves; only native methods do. -/
theorem C61_instructions (fr : Frame) (ip : Nat) : (step cfg ops tf fr ip v).2.world.output = v.world.output :=
  ((Keeps.step (cfg := cfg) (ops := ops) (tf := tf) (P := True) (frameFree_any fr) ip).run v (Nat.zero_le _)).output trivial

/-! ## C62 -/

/-- **C62**: running a method that is not static gives an error and changes nothing. -/
theorem C62 (w : World) (m : MethodRec) (params : List Value) (h : m.isStatic = false) :
    (∃ e, (hostExecute cfg ops tf fuel w m params).1 = .ok (.err e)) ∧
    (hostExecute cfg ops tf fuel w m params).2.world = w ∧
    (hostExecute cfg ops tf fuel w m params).2.host = params := by
  simp [hostExecute, h]

example : (Ex.meth [0x2a] (isStatic := false)).isStatic = false := rfl

/-! ## C63 -/

/-- **C63 fails**: a fresh local declared as `int` holds an 8-bit zero, and adding 1 to it panics. -/
theorem C63_refuted :
    let m := Ex.meth [0x06, 0x2a] (ret := 8) (locals := 1)
    let m' := Ex.meth [0x06, 0x17, 0x58, 0x2a] (ret := 8) (locals := 1)
    (hostExecute .debug Ex.floats 9 40 (Ex.tiny [m]) m []).1 = .ok (.number (.i8 0)) ∧
    (hostExecute .debug Ex.floats 9 40 (Ex.tiny [m']) m' []).1 = .panic := by
  decide +kernel

/-- **C63, the number only**: in the frame of any method, loading any local first gives a zero, on which `brfalse`
branches. -/
theorem C63_partial (m : MethodRec) (body : MethodBody) (params : Region) (t : TypeRec) (asm : AssemblyRec)
    (hm : m.impl = .il body) (ht : v.world.types[m.declaringType]? = some t)
    (ha : v.world.assemblies.find? (·.id = t.assembly) = some asm) (hroom : Roomy v body.locals.length)
    (hp : ∀ gen base count, params = .slots gen base count → base + count ≤ v.stack.slots.length) :
    ∃ fr v1, (invoke cfg (loop cfg ops tf fuel) m params v).1 = (loop cfg ops tf fuel fr 0 v1).1 ∧ fr.code = body.code ∧
      ∀ i, i < body.locals.length → ∀ l ∈ Var.loc.loads i, ∀ ip, HasAt body.code ip l → ∃ z,
        step cfg ops tf fr ip v1 = (.ok (.next (ip + l.length)), { v1 with operands := z :: v1.operands }) ∧
        z.isNullOrZero ops = .ok true := by
  obtain ⟨fr, v1, h1, h2, -, -, -, -, -, -, -, -, h3, -⟩ :=
    C57_frames (cfg := cfg) (ops := ops) (tf := tf) m body params t asm hm ht ha hroom hp
  refine ⟨fr, v1, h1 fuel, h2, fun i hi l hl ip hc => ⟨.i8 0, ?_, rfl⟩⟩
  obtain ⟨h4, h5⟩ := h3 i hi
  rw [← h2] at hc
  refine (load_run hl ?_ hc).trans (loadSlot_ok h4 h5 _)
  rintro ⟨t, rfl⟩
  simp only [Var.loads, List.mem_append] at hl
  rcases hl with (hl | hl) | hl <;> split at hl <;> simp at hl

/-! ## C69 -/

/-- **C69 fails** for every program: if a run ends with an object as result, reading its contents for the host is
undefined behaviour, because the heap has been freed by then. -/
theorem C69_refuted (w : World) (m : MethodRec) (params : List Value) (p : Ptr) (hs : m.isStatic)
    (h : (invoke cfg (loop cfg ops tf fuel) m .host { world := w, host := params }).1 = .ok (some (.object p))) :
    (hostExecute cfg ops tf fuel w m params).1 = .ub := by
  simp [hostExecute, hs, h, hostResult]

/-- A method that returns a new array. -/
example : (invoke .debug (loop .debug Ex.floats 9 40)
    (Ex.meth [0x17, 0x8d, 0x01, 0x00, 0x00, 0x01, 0x2a] (ret := 15)) .host { world := Ex.tiny [] }).1 =
    .ok (some (.object ⟨0, 0⟩)) := by decide +kernel

/-- **C69 for numbers**: a program that returns a 32-bit constant gives it to the host. -/
theorem C69_partial (w : World) (m : MethodRec) (body : MethodBody) (t : TypeRec) (asm : AssemblyRec) (params : List Value)
    (n : BitVec 32) (rest : Bytes) (hs : m.isStatic) (hm : m.impl = .il body) (hcode : body.code = 0x20 :: leBytes 4 n.toNat ++ 0x2a :: rest)
    (ht : w.types[m.declaringType]? = some t) (ha : w.assemblies.find? (·.id = t.assembly) = some asm)
    (hv : IsValue w m) (hl : body.locals.length < 2 ^ 32) :
    (hostExecute cfg ops tf (fuel + 2) w m params).1 = .ok (.number (.i32 n)) := by
  obtain ⟨r, v1, hal⟩ := stackAlloc_room (v := { world := w, host := params, allocated := 0 }) (n := body.locals.length)
    ⟨show 1024 < 2 ^ 62 by decide, by simp; omega⟩
  obtain ⟨-, h2, -⟩ := stackAlloc_ok hal
  have hc : HasAt body.code 0 (0x20 :: leBytes 4 n.toNat) := ⟨0x2a :: rest, by simp [hcode]⟩
  have hc' : HasAt body.code 5 [0x2a] := ⟨rest, by simp [hcode, leBytes]⟩
  unfold hostExecute
  rw [if_pos hs]
  dsimp only
  rw [invoke_run (v := { world := w, host := params }) (loop_free cfg ops tf (fuel + 2)) hm ht ha hal]
  dsimp only
  rw [loop_next ((step_one hc (by decide) (op := .Ldc_I4) (by decide) v1).trans
    (immediate_ok (hc.tail.fetch_leBytes (n := 3) n.isLt) v1)),
    C54_ret (rest := v1.operands) (by
      show IsValue v1.world m
      rw [h2]; exact hv) _ rfl hc']
  simp [hostResult]

/-! ## The theorems on one program

`Ex.calling` calls the method in row 2, and then loads its local. -/

/-- `ldc.i4.5; stloc.0; call 0x06000002; ldloc.0; ret`. -/
def Ex.calling : MethodRec := meth [0x1b, 0x0a, 0x28, 0x02, 0x00, 0x00, 0x06, 0x06, 0x2a] (ret := 8) (locals := 1)

/-- `ret`. -/
def Ex.called : MethodRec := meth [0x2a] (locals := 2)

def Ex.callWorld : World := tiny [calling, called]

def Ex.callAsm : AssemblyRec :=
  { id := 0, name := "A".toList, types := [1], entryPoint := none, userStringData := [], methodDefs := [calling, called], methodRefs := [],
    fields := [], typeRefs := [8, 15] }

/-- The state after the first two instructions, and the frame. -/
def Ex.calledFrom : VM := { world := callWorld, stack := { slots := [.i32 5] } }

def Ex.callFrame : Frame :=
  { method := calling, assembly := callAsm, code := [0x1b, 0x0a, 0x28, 0x02, 0x00, 0x00, 0x06, 0x06, 0x2a], locals := .slots 0 0 1, params := .host }

/-- C71: the call gives back all that it takes. -/
example : ∃ v', callMethod .debug (loop .debug Ex.floats 9 9) Ex.callFrame ⟨0x06000002⟩ Ex.calledFrom = (.ok (), v') ∧
    v'.stack.slots.length = Ex.calledFrom.stack.slots.length := by
  have h : (callMethod .debug (loop .debug Ex.floats 9 9) Ex.callFrame ⟨0x06000002⟩ Ex.calledFrom).1 = .ok () := by decide +kernel
  exact ⟨_, Prod.ext h rfl, C71_partial Ex.callFrame ⟨0x06000002⟩ Ex.called _ _ (by decide +kernel) rfl rfl (Prod.ext h rfl)⟩

/-- C54: the method that is called has no result, and the one that calls has the value that it leaves. -/
example : (∃ v', invoke .debug (loop .debug Ex.floats 9 9) Ex.called .host Ex.calledFrom = (.ok none, v')) ∧
    loop .debug Ex.floats 9 9 Ex.callFrame 8 { Ex.calledFrom with operands := [.i32 5, .i32 6] } =
      (.ok (some (.i32 5)), { Ex.calledFrom with operands := [.i32 6] }) := by
  constructor
  · have hr : ∃ r, (invoke .debug (loop .debug Ex.floats 9 9) Ex.called .host Ex.calledFrom).1 = .ok r := ⟨none, by decide +kernel⟩
    obtain ⟨r, hr⟩ := hr
    obtain rfl := C54_void Ex.called .host r _ rfl ⟨_, 0, _, rfl, by decide +kernel, rfl, rfl⟩ (Prod.ext hr rfl)
    exact ⟨_, Prod.ext hr rfl⟩
  · exact C54_ret (fuel := 8) ⟨_, 0, _, rfl, by decide +kernel, rfl, by decide +kernel⟩ (.i32 5) rfl (by decide)

/-- C56: the local of the caller is loaded as before. -/
example : ∃ a, step .debug Ex.floats 9 Ex.callFrame 7 Ex.calledFrom = (.ok (.next 8), { Ex.calledFrom with operands := a :: Ex.calledFrom.operands }) ∧
    let v' := (callMethod .debug (loop .debug Ex.floats 9 9) Ex.callFrame ⟨0x06000002⟩ Ex.calledFrom).2
    step .debug Ex.floats 9 Ex.callFrame 7 v' = (.ok (.next 8), { v' with operands := a :: v'.operands }) :=
  C56_partial ⟨0x06000002⟩ .loc 0 [0x06] (by decide) (by decide) (by decide) (by decide +kernel) (by decide +kernel)

/-- C57, C63: the frame of the method that is called has fresh locals. -/
example : ∃ fr v1, (∀ fuel, (invoke .debug (loop .debug Ex.floats 9 fuel) Ex.called .host Ex.calledFrom).1 = (loop .debug Ex.floats 9 fuel fr 0 v1).1) ∧
    fr.locals.at v1 1 = some (.i8 0) := by
  obtain ⟨fr, v1, h1, -, -, -, -, -, -, -, -, -, h, -⟩ := C57_frames (cfg := .debug) (ops := Ex.floats) (tf := 9) (v := Ex.calledFrom) Ex.called _ .host
    { Ex.tinyType 1 ("", "P") with methods := [Ex.calling, Ex.called], base := some 15 } Ex.callAsm rfl (by decide +kernel) (by decide +kernel) (by decide +kernel) nofun
  exact ⟨fr, v1, h1, (h 1 (by decide)).2⟩

example : ∃ fr v1, (invoke .debug (loop .debug Ex.floats 9 9) (Ex.meth [0x06, 0x2a] 8 0 1) .host { world := Ex.tiny [] }).1 =
    (loop .debug Ex.floats 9 9 fr 0 v1).1 ∧ ∃ z, step .debug Ex.floats 9 fr 0 v1 = (.ok (.next 1), { v1 with operands := z :: v1.operands }) ∧
      z.isNullOrZero Ex.floats = .ok true := by
  obtain ⟨fr, v1, h1, -, h⟩ := C63_partial (cfg := .debug) (ops := Ex.floats) (tf := 9) (fuel := 9) (v := { world := Ex.tiny [] }) (Ex.meth [0x06, 0x2a] 8 0 1) _
    .host { Ex.tinyType 1 ("", "P") with base := some 15 } { Ex.callAsm with methodDefs := [] } rfl (by decide +kernel) (by decide +kernel) (by decide +kernel) nofun
  exact ⟨fr, v1, h1, h 0 (by decide) [0x06] (by decide) 0 (by decide)⟩

/-- C69: the greatest constant. -/
example : (hostExecute .debug Ex.floats 9 9 (Ex.tiny []) (Ex.meth [0x20, 0xff, 0xff, 0xff, 0x7f, 0x2a] 8) []).1 = .ok (.number (.i32 0x7fffffff)) :=
  C69_partial (fuel := 7) (Ex.tiny []) (Ex.meth [0x20, 0xff, 0xff, 0xff, 0x7f, 0x2a] 8) _ { Ex.tinyType 1 ("", "P") with base := some 15 }
    { Ex.callAsm with methodDefs := [] } [] 0x7fffffff [] rfl rfl (by decide) (by decide +kernel) (by decide +kernel) ⟨_, 0, _, rfl, by decide +kernel, rfl, by decide +kernel⟩ (by decide)

end Clr
