import Verif.Lemmas.Harmless
import Verif.Props.Halts
/-! # C122: programs that only compute leave no trace -/

namespace Clr
open Spec

variable {cfg : Cfg} {ops : FloatOps} {tf fuel : Nat} {w : World} {m : MethodRec} {params : List Value}

/-- Full statement of C122: executing a method that only computes leaves the registry and the output as they were and makes no objects,
whatever the parameters, however it ends and how far it has come. -/
def C122_full (cfg : Cfg) : Prop :=
  ∀ (w : World) (m : MethodRec), Harmless cfg w m → ∀ (ops : FloatOps) (tf fuel : Nat) (params : List Value),
    (hostExecute cfg ops tf fuel w m params).2.world = w ∧ (hostExecute cfg ops tf fuel w m params).2.heap = {}

/-- **C122 (partial), programs that only compute.** Missing: methods with `ldarg` or `starg` with indices of two bytes, which are not executed as
the standard encodes them (`C53_refuted`, `C122_refuted`), and methods of 2^62 bytes. -/
theorem C122_partial (hm : Harmless cfg w m)
    (hsh : ∀ x body, Relation.ReflTransGen (MayCall cfg w) m x → x.impl = .il body → ShortArgs body.code ∧ body.code.length < 2 ^ 62) :
    (hostExecute cfg ops tf fuel w m params).2.world = w ∧ (hostExecute cfg ops tf fuel w m params).2.heap = {} := by
  unfold hostExecute
  split
  · refine invoke_leaves (hm.silent m .refl) (fun fr hfr => ?_) { world := w, host := params } rfl
    obtain ⟨body, hb, hc⟩ := hfr.il
    exact loop_leaves hm hsh fuel m body fr 0 .refl hb hc hfr (.inl .refl)
  · exact ⟨rfl, rfl⟩

/-! ## A program that meets the hypotheses, and one that does not -/

/-- A method that calls another, in a loaded registry. -/
theorem Ex.two_harmless : Harmless cfg (downWorld cfg) two where
  silent x hx h := by rcases two_reach hx with rfl | rfl <;> cases h
  computes x body hx hb ip hv := by
    rcases two_reach hx with rfl | rfl
    · cases hb
      rcases two_visits hv with rfl | rfl <;> decide
    · cases hb
      rw [one_visits hv]
      decide

example : ∀ x body, Relation.ReflTransGen (MayCall cfg (Ex.downWorld cfg)) Ex.two x → x.impl = .il body → ShortArgs body.code ∧ body.code.length < 2 ^ 62 := by
  intro x body hx hb
  refine ⟨Ex.two_short hx hb, ?_⟩
  rcases Ex.two_reach hx with rfl | rfl <;> cases hb <;> decide

/-- A method with `ldstr` does leave a trace. -/
example :
    let m := Ex.meth [0x72, 0, 0, 0, 0x70, 0x26, 0x2a]
    (hostExecute .debug Ex.floats 9 9 (Ex.tiny [m] [] [0x05, 0x48, 0x00, 0x69, 0x00, 0x00]) m []).2.heap ≠ {} := by decide +kernel

/-! ## The instructions left out -/

namespace Ex

/-- `ldarg 0; ret`, and bytes that are never executed: one, and `ldstr "Hi"`. -/
def slip : MethodRec := meth [0xfe, 0x09, 0, 0, 0x2a, 0, 0x72, 0, 0, 0, 0x70]
def slipWorld : World := tiny [slip] [] [0x05, 0x48, 0x00, 0x69, 0x00, 0x00]

theorem slip_at0 : (encodings.filter fun e => HasAt [0xfe, 0x09, 0, 0, 0x2a, 0, 0x72, 0, 0, 0, 0x70] 0 e.opcode) = [⟨"ldarg", [0xfe, 0x09], .uint16⟩] := by
  decide +kernel
theorem slip_at4 : (encodings.filter fun e => HasAt [0xfe, 0x09, 0, 0, 0x2a, 0, 0x72, 0, 0, 0, 0x70] 4 e.opcode) = [⟨"ret", [0x2a], .none⟩] := by decide +kernel

theorem slip_visits {ip : Nat} (h : Visits [0xfe, 0x09, 0, 0, 0x2a, 0, 0x72, 0, 0, 0, 0x70] ip) : ip = 0 ∨ ip = 4 := by
  induction h with
  | refl => exact .inl rfl
  | tail _ h ih =>
    rcases ih with rfl | rfl
    · rcases Passes.only h slip_at0 with h | h | h
      · exact .inr h.2
      · cases h
      · cases h
    · rcases Passes.only h slip_at4 with h | h | h
      · exact absurd rfl h.1
      · cases h
      · cases h

theorem slip_reach {x : MethodRec} (h : Relation.ReflTransGen (MayCall cfg slipWorld) slip x) : x = slip := by
  rcases Relation.ReflTransGen.cases_head h with h | ⟨y, ⟨a, body, ip, token, -, h2, h3, -, h5, -⟩, -⟩
  · exact h.symm
  · cases h2
    rcases slip_visits h3 with rfl | rfl <;> rcases h5 with ⟨t, h⟩ | ⟨t, h⟩ <;> (exfalso; injection h with h; revert h; decide)

theorem slip_harmless : Harmless cfg slipWorld slip where
  silent x hx h := by rw [slip_reach hx] at h; cases h
  computes x body hx hb ip hv := by
    rw [slip_reach hx] at hb
    cases hb
    rcases slip_visits hv with rfl | rfl <;> decide

/-- The assembly of the small registry. -/
def slipAssembly : AssemblyRec :=
  { id := 0, name := "A".toList, types := [1], entryPoint := none, userStringData := [0x05, 0x48, 0x00, 0x69, 0x00, 0x00],
    methodDefs := [slip], methodRefs := [], fields := [], typeRefs := [8, 15] }

def slipFrame : Frame :=
  { method := slip, assembly := slipAssembly, code := [0xfe, 0x09, 0, 0, 0x2a, 0, 0x72, 0, 0, 0, 0x70], locals := .slots 0 0 0, params := .host }

set_option maxHeartbeats 1000000 in
theorem slip_string (b : Bool) (v : VM) (hw : v.world = slipWorld) (hh : v.heap = {}) :
    (step ⟨b⟩ floats 9 slipFrame 6 v).1 = .ok (.next 11) ∧ (step ⟨b⟩ floats 9 slipFrame 6 v).2.heap.mem.length = 17 := by
  rcases v with ⟨w, heap, st, op, host, al⟩
  cases hw
  cases hh
  cases b <;> exact ⟨rfl, rfl⟩

/-- The index that the interpreter reads: the two bytes of the operand and the two bytes after it. -/
theorem slip_arg {b : Bool} {host : List Value} {a : Value} (ha : host[0x2a0000]? = some a) {v : VM} (hv : v.host = host) :
    step ⟨b⟩ floats 9 slipFrame 0 v = (.ok (.next 6), { v with operands := a :: v.operands }) := by
  have hc : slipFrame.code = [0xfe, 0x09, 0, 0, 0x2a, 0, 0x72, 0, 0, 0, 0x70] := rfl
  have hp : slipFrame.params = .host := rfl
  generalize slipFrame = fr at hc hp
  rw [step_of_fetch (op := .Ldarg) (ip := 0) (ip' := 2) (by rw [hc]; decide)]
  show loadFrom fr fr.params 4 2 v = _
  unfold loadFrom
  rw [X.liftM_bind_ok (a := 0x2a0000) (by rw [hc]; decide), hp]
  unfold loadAt' readSlot
  rw [X.view_bind_ok (a := a) (by dsimp only; rw [hv, ha]; rfl)]
  rfl

theorem slip_loop {b : Bool} {host : List Value} (ha : host[0x2a0000]? = some (.i8 0)) :
    (Clr.loop ⟨b⟩ floats 9 2 slipFrame 0 { world := slipWorld, host }).2.heap.mem.length = 17 := by
  have s0 := slip_arg (b := b) ha (v := { world := slipWorld, host }) rfl
  obtain ⟨s1, s2⟩ := slip_string b { world := slipWorld, host, operands := [.i8 0] } rfl rfl
  generalize slipWorld = w at s0 s1 s2
  generalize slipFrame = fr at s0 s1 s2
  unfold Clr.loop
  rw [X.bind_run, s0]
  dsimp only
  unfold Clr.loop
  rw [X.bind_run]
  generalize step ⟨b⟩ floats 9 fr 6 _ = out at s1 s2
  obtain ⟨r, v⟩ := out
  cases s1
  exact s2

theorem slip_invoke {b : Bool} {l : Frame → Nat → X (Option Value)} {v : VM} (hw : v.world = slipWorld) (hv : v.allocated = 0) (hs : v.stack = {}) :
    invoke ⟨b⟩ l slip .host v = X.finally' (l slipFrame 0) (release ⟨b⟩ 0) v := by
  rcases v with ⟨w, heap, st, op, host, al⟩
  cases hw
  cases hv
  cases hs
  rfl

theorem slip_heap {b : Bool} {host : List Value} (ha : host[0x2a0000]? = some (.i8 0)) :
    (hostExecute ⟨b⟩ floats 9 2 slipWorld slip host).2.heap.mem.length = 17 := by
  have hl := slip_loop (b := b) ha
  unfold hostExecute
  rw [if_pos (show slip.isStatic = true from rfl)]
  dsimp only
  rw [slip_invoke rfl rfl rfl]
  unfold X.finally'
  generalize Clr.loop ⟨b⟩ floats 9 2 slipFrame 0 { world := slipWorld, host } = out at hl
  obtain ⟨r, v⟩ := out
  dsimp only at hl ⊢
  cases hr : release ⟨b⟩ 0 v with
  | ok v' =>
    obtain ⟨n, -, hn⟩ := Res.bind_eq_ok.1 hr
    cases hn
    exact hl
  | _ => exact hl

end Ex

/-- **C122: refuted for `ldarg` and `starg` with indices of two bytes**, in debug and in release builds. A method that consists of `ldarg 0` and `ret`, and
bytes after it that are never executed, makes a string if the host gives it enough parameters: the interpreter takes four bytes for the index, so the
`ret` is part of it and the bytes after it are executed. -/
theorem C122_refuted : ¬ C122_full cfg := by
  intro h
  rcases cfg with ⟨b⟩
  obtain ⟨host, ha⟩ : ∃ host : List Value, host[0x2a0000]? = some (.i8 0) :=
    ⟨List.replicate (0x2a0000 + 1) (.i8 0), by rw [List.getElem?_replicate, if_pos (by decide)]⟩
  have hi := Ex.slip_heap (b := b) ha
  rw [(h Ex.slipWorld Ex.slip Ex.slip_harmless Ex.floats 9 2 host).2] at hi
  cases hi

end Clr
