import Verif.Lemmas.Objects
import Verif.Props.Calls
/-! # Property C59: construction of objects -/

namespace Clr

variable {cfg : Cfg} {ops : FloatOps} {tf fuel : Nat} {fr : Frame} {ip : Nat} {v v1 : VM} {rest : List Value}

/-- **C59, the instruction**: if `newobj` gets to the constructor, then a new object, zeroed and of the constructor's class, has
been put at the end of the heap, and it is on the evaluation stack as first argument, below the others. -/
theorem C59_new (t : Nat) (m : MethodRec) (s : Nat) (args : List Value) (a : Action) (ht : t < 2 ^ 32)
    (hc : HasAt fr.code ip (0x73 :: leBytes 4 t)) (hm : fr.assembly.resolveMethod cfg ⟨t⟩ = .ok (some m))
    (hsize : typeSize cfg v.world tf m.declaringType = .ok s) (hroom : v.heap.mem.length + (5 + s) < 2 ^ 64)
    (hl : args.length = m.params.length) (ho : v.operands = args.reverse ++ rest)
    (h : step cfg ops tf fr ip v = (.ok a, v1)) :
    ∃ p tr, a = .call ⟨t⟩ (some (.object p)) (ip + 5) ∧ v.world.types[m.declaringType]? = some tr ∧
      v1 = { v with heap := v1.heap, operands := (.object p :: args).reverse ++ rest } ∧
      v1.heap.mem = v.heap.mem ++ objectImage tr.id s ∧ p = ⟨v1.heap.gen, v.heap.mem.length⟩ := by
  rw [step_one hc (by decide) (op := .Newobj) (by decide)] at h
  have h : doNewobj cfg tf fr (ip + 1) v = (.ok a, v1) := h
  unfold doNewobj at h
  rw [X.liftM_bind_ok (hc.tail.fetch_leBytes (n := 3) ht), hm, X.liftM_bind_ok rfl] at h
  simp only [Res.unwrap] at h
  rw [X.liftM_bind_ok rfl] at h
  obtain ⟨p, v2, h1, h2⟩ := X.bind_eq_ok.1 h
  obtain ⟨u, v3, h3, h4⟩ := X.bind_eq_ok.1 h2
  cases h4
  obtain ⟨tr, a1, a2, a3, a4, -⟩ := allocObject_ok hsize hroom h1
  have ho2 : v2.operands = args.reverse ++ rest := by rw [a2]; exact ho
  have hu : usub cfg 64 v2.operands.length m.params.length = .ok rest.length := by
    unfold usub
    rw [if_pos (by rw [ho2]; simp; omega), ho2]
    simp [hl]
  unfold insertBelow X.update at h3
  dsimp only at h3
  rw [hu, Res.ok_bind, if_pos (by rw [ho2]; simp)] at h3
  simp only [Res.pure_eq] at h3
  injection h3 with _ h3
  subst h3
  refine ⟨p, tr, rfl, a1, ?_, a3, a4⟩
  have e : v2.operands.length - rest.length = args.reverse.length := by rw [ho2]; simp
  dsimp only
  rw [e, ho2, List.take_left, List.drop_left]
  have e2 : v2 = { v with heap := v2.heap } := a2
  rw [e2]
  simp

/-- **C59 when the memory for locals and arguments need not be moved**: the constructor's body runs in a frame in which
argument 0 is the new zeroed object and the others are `args` in order, and if it returns, execution goes on after the
instruction with that same object on top of what the constructor left on the evaluation stack. -/
theorem C59_partial (t : Nat) (m : MethodRec) (body : MethodBody) (tr : TypeRec) (asm : AssemblyRec) (s : Nat)
    (args : List Value) (a : Action) (ht : t < 2 ^ 32)
    (hc : HasAt fr.code ip (0x73 :: leBytes 4 t)) (hm : fr.assembly.resolveMethod cfg ⟨t⟩ = .ok (some m))
    (himpl : m.impl = .il body) (hst : m.isStatic = false)
    (htr : v.world.types[m.declaringType]? = some tr) (hasm : v.world.assemblies.find? (·.id = tr.assembly) = some asm)
    (hvoid : IsVoid v.world m)
    (hsize : typeSize cfg v.world tf m.declaringType = .ok s) (hroom : v.heap.mem.length + (5 + s) < 2 ^ 64)
    (hl : args.length = m.params.length) (ho : v.operands = args.reverse ++ rest)
    (hfit : 16 * (v.stack.slots.length + (1 + args.length) + body.locals.length) ≤ v.stack.cap) (hcap : v.stack.cap < 2 ^ 62)
    (h : step cfg ops tf fr ip v = (.ok a, v1)) :
    ∃ p fr' v2, v2.heap.mem = v.heap.mem ++ objectImage tr.id s ∧ p = ⟨v2.heap.gen, v.heap.mem.length⟩ ∧
      fr'.code = body.code ∧ fr'.method = m ∧ fr'.assembly = asm ∧
      v2.operands = rest ∧ v2.world = v.world ∧ v2.host = v.host ∧
      (∀ i b, (Value.object p :: args)[i]? = some b → ∀ l ∈ Var.arg.loads i, ¬ [0xfe, 0x09] <+: l → ∀ ip, HasAt body.code ip l →
        step cfg ops tf fr' ip v2 = (.ok (.next (ip + l.length)), { v2 with operands := b :: rest })) ∧
      (∀ r v3, loop cfg ops tf fuel fr' 0 v2 = (.ok r, v3) → ∃ v4, loop cfg ops tf (fuel + 1) fr ip v =
          loop cfg ops tf fuel fr (ip + 5) v4 ∧
        v4.operands = .object p :: v3.operands ∧ v4.heap = v3.heap ∧ v4.world = v3.world ∧ v4.host = v3.host) := by
  obtain ⟨p, tr', h1, h2, h3, h4, h5⟩ := C59_new t m s args a ht hc hm hsize hroom hl ho h
  rw [htr] at h2; cases h2
  have hw : v1.world = v.world := by rw [h3]
  have hs1 : v1.stack = v.stack := by rw [h3]
  obtain ⟨fr', v2, b1, b2, b3, b4, b5, b6, b7, b8, b9⟩ := C54_partial (v := v1) (ops := ops) (tf := tf) (fuel := fuel) (rest := rest)
    ⟨t⟩ m body tr asm (.object p :: args) hm himpl (by rw [hw]; exact htr) (by rw [hw]; exact hasm)
    (by simp [hst, hl]) (by rw [h3]) (by rw [hs1]; simp; omega) (by rw [hs1]; exact hcap)
  refine ⟨p, fr', v2, by rw [b5, h4], by rw [b5, h5], b1, b2, b3, b4, by rw [b6, hw], by rw [b7, h3], b8, ?_⟩
  intro r v3 hr
  obtain rfl : r = none := loop_void hr (by rw [b2, b6, hw]; exact hvoid)
  obtain ⟨v', c1, c2, c3, c4, c5⟩ := b9 none v3 hr
  refine ⟨{ v' with operands := .object p :: v'.operands }, ?_, by simp [c2], c3, c4, c5⟩
  rw [loop_succ, h, h1]
  dsimp only
  rw [X.bind_ok c1]
  rfl

/-- `class P { int x; P(int a, int b) { x = a - b; } }`, and `new P(10, 4).x`. -/
example :
    let ctor := Ex.meth [0x02, 0x03, 0x04, 0x59, 0x7d, 0x01, 0x00, 0x00, 0x04, 0x2a] (params := 2) (isStatic := false)
    let m := Ex.meth [0x1f, 0x0a, 0x1a, 0x73, 0x02, 0x00, 0x00, 0x06, 0x7b, 0x01, 0x00, 0x00, 0x04, 0x2a] (ret := 8)
    (hostExecute .debug Ex.floats 9 40 (Ex.tiny [m, ctor] [⟨"x".toList, 8, 1, false, 0⟩]) m []).1 = .ok (.number (.i32 6)) ∧
    IsVoid (Ex.tiny [m, ctor]) ctor := by
  refine ⟨by decide +kernel, ?_⟩
  exact ⟨_, _, _, rfl, rfl, rfl, rfl⟩

/-- **C59 fails when it has to be moved**: a constructor with 63 locals gets neither its receiver nor its argument. -/
theorem C59_refuted :
    let ctor (n : Nat) := Ex.meth [0x02, 0x03, 0x7d, 0x01, 0x00, 0x00, 0x04, 0x2a] (params := 1) (locals := n) (isStatic := false)
    let m := Ex.meth [0x1d, 0x73, 0x02, 0x00, 0x00, 0x06, 0x7b, 0x01, 0x00, 0x00, 0x04, 0x2a] (ret := 8)
    let fs : List FieldRec := [⟨"x".toList, 8, 1, false, 0⟩]
    (hostExecute .release Ex.floats 9 40 (Ex.tiny [m, ctor 62] fs) m []).1 = .ok (.number (.i32 7)) ∧
    (hostExecute .release Ex.floats 9 40 (Ex.tiny [m, ctor 63] fs) m []).1 = .ub := by
  decide +kernel

end Clr
