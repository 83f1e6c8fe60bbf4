import Verif.Props.Output
import Verif.Lemmas.Align
/-! # C121: equal literals are the same string -/

namespace Clr

variable {cfg : Cfg} {ops : FloatOps} {tf : Nat} {fr fr' : Frame} {ip ip' : Nat} {v v1 v2 : VM} {p q : Ptr} {rest : List Value}

/-- `ldstr` with token `t` is at address `ip`, and the text of the literal is `us`. -/
def LiteralAt (cfg : Cfg) (fr : Frame) (ip t : Nat) (us : List Nat) : Prop :=
  t < 2 ^ 32 ∧ HasAt fr.code ip (0x72 :: leBytes 4 t) ∧ getString cfg fr.assembly.userStringData ⟨t⟩ = .ok (some us)

/-- Full statement of C121 (ECMA-335 III.4.16): two `ldstr` of literals with the same text, in the same or in different methods, push the same
reference. -/
def C121_full (cfg : Cfg) : Prop :=
  ∀ (ops : FloatOps) (tf : Nat) (fr fr' : Frame) (ip ip' t t' : Nat) (us : List Nat) (v v1 v2 : VM) (a a' : Action) (p q : Ptr),
    LiteralAt cfg fr ip t us → LiteralAt cfg fr' ip' t' us →
    step cfg ops tf fr ip v = (.ok a, v1) → step cfg ops tf fr' ip' v1 = (.ok a', v2) →
    v2.operands = .object q :: .object p :: v.operands → p = q

theorem ldstr_new {t : Nat} {us : List Nat} {a : Action} (hc : LiteralAt cfg fr ip t us)
    (hroom : v.heap.mem.length + (13 + 2 * us.length) < 2 ^ 64) (h : step cfg ops tf fr ip v = (.ok a, v1)) :
    ∃ gen, v1.operands = .object ⟨gen, v.heap.mem.length⟩ :: v.operands ∧ v.heap.mem.length + (13 + 2 * us.length) = v1.heap.mem.length := by
  obtain ⟨ht, hc, hstr⟩ := hc
  rw [step_one hc (by decide) (op := .Ldstr) (by decide)] at h
  have h : doLdstr cfg fr (ip + 1) v = (.ok a, v1) := h
  unfold doLdstr at h
  rw [X.liftM_bind_ok (hc.tail.fetch_leBytes (n := 3) ht), hstr, X.liftM_bind_ok rfl] at h
  simp only [Res.ofOption] at h
  rw [X.liftM_bind_ok rfl] at h
  obtain ⟨p, w1, h1, h2⟩ := X.bind_eq_ok.1 h
  cases h2
  obtain ⟨ty, tr, -, -, a3, a4, a5, -⟩ := allocString_ok hroom h1
  refine ⟨w1.heap.gen, ?_, ?_⟩
  · show Value.object p :: w1.operands = _
    rw [a5, a3]
  · show _ = w1.heap.mem.length
    rw [a4, List.length_append, length_stringImage]

/-- **C121, the instruction that tells objects apart**: `ceq` of two references pushes 1 if they are the same and 0 otherwise. -/
theorem C121_partial (hc : HasAt fr.code ip [0xfe, 0x01]) (hs : v.operands = .object q :: .object p :: rest) :
    step cfg ops tf fr ip v = (.ok (.next (ip + 2)), { v with operands := .i32 (if p = q then 1 else 0) :: rest }) := by
  rw [step_two hc (by decide) (op := .Ceq) (by decide)]
  refine (compareOp_ok hs (c := decide (q = p)) rfl (ip + 2)).trans ?_
  simp [eq_comm]

/-- **C121, literals are always new objects**: if an `ldstr` is executed directly after another, in whatever methods and whatever the texts,
the references are different, and different from all references into the memory in use before. -/
theorem C121_distinct {t t' : Nat} {us us' : List Nat} {a a' : Action} (hc : LiteralAt cfg fr ip t us) (hc' : LiteralAt cfg fr' ip' t' us')
    (hroom : v.heap.mem.length + (13 + 2 * us.length) + (13 + 2 * us'.length) < 2 ^ 64)
    (h : step cfg ops tf fr ip v = (.ok a, v1)) (h' : step cfg ops tf fr' ip' v1 = (.ok a', v2)) :
    ∃ p q, v2.operands = .object q :: .object p :: v.operands ∧ p ≠ q ∧ ∀ r : Ptr, r.off < v.heap.mem.length → r ≠ p ∧ r ≠ q := by
  obtain ⟨g, h1, h2⟩ := ldstr_new hc (by omega) h
  obtain ⟨g', h3, h4⟩ := ldstr_new hc' (by omega) h'
  refine ⟨_, _, by rw [h3, h1], fun e => ?_, fun r hr => ⟨fun e => ?_, fun e => ?_⟩⟩
  · injection e; omega
  · rw [e] at hr; exact absurd hr (Nat.lt_irrefl _)
  · rw [e] at hr; have : v1.heap.mem.length < v.heap.mem.length := hr; omega

/-- A frame with `ldstr` of the same literal twice, then `ceq` and `ret`, and a state to execute it from. -/
def Ex.twice : MethodRec := meth [0x72, 0, 0, 0, 0x70, 0x72, 0, 0, 0, 0x70, 0xfe, 0x01, 0x2a] (ret := 8)
def Ex.twiceWorld : World := tiny [twice] [] [0x05, 0x48, 0x00, 0x69, 0x00, 0x00]
def Ex.twiceFrame : Frame :=
  { method := twice, assembly := twiceWorld.assemblies.headD { id := 0, name := [], types := [], entryPoint := none, userStringData := [], methodDefs := [], methodRefs := [], fields := [], typeRefs := [] }
    code := [0x72, 0, 0, 0, 0x70, 0x72, 0, 0, 0, 0x70, 0xfe, 0x01, 0x2a], locals := .host, params := .host }

theorem Ex.twice_literals (cfg : Cfg) : LiteralAt cfg twiceFrame 0 0x70000000 [0x48, 0x69] ∧ LiteralAt cfg twiceFrame 5 0x70000000 [0x48, 0x69] := by
  rcases cfg with ⟨b⟩
  have h : ∀ b : Bool, getString ⟨b⟩ twiceFrame.assembly.userStringData ⟨0x70000000⟩ = .ok (some [0x48, 0x69]) := by decide +kernel
  exact ⟨⟨by decide, by decide +kernel, h b⟩, by decide, by decide +kernel, h b⟩

/-- The program with two equal literals finds them different, in debug and release builds. -/
example : ∀ b : Bool, (hostExecute ⟨b⟩ Ex.floats 9 9 Ex.twiceWorld Ex.twice []).1 = .ok (.number (.i32 0)) := by decide +kernel

/-- **C121 fails**, in debug and release builds. -/
theorem C121_refuted : ¬ C121_full cfg := by
  intro h
  obtain ⟨hc, hc'⟩ := Ex.twice_literals cfg
  have hr : ∀ b : Bool, (step ⟨b⟩ Ex.floats 9 Ex.twiceFrame 0 { world := Ex.twiceWorld }).1 = .ok (.next 5) ∧
      (step ⟨b⟩ Ex.floats 9 Ex.twiceFrame 5 (step ⟨b⟩ Ex.floats 9 Ex.twiceFrame 0 { world := Ex.twiceWorld }).2).1 = .ok (.next 10) := by decide +kernel
  have hm : ({ world := Ex.twiceWorld } : VM).heap.mem.length = 0 := rfl
  rcases cfg with ⟨b⟩
  replace hr := hr b
  generalize ({ world := Ex.twiceWorld } : VM) = v at hr hm
  obtain ⟨h1, h2⟩ := hr
  obtain ⟨r1, v1, e1⟩ : ∃ r1 v1, step ⟨b⟩ Ex.floats 9 Ex.twiceFrame 0 v = (r1, v1) := ⟨_, _, rfl⟩
  rw [e1] at h1 h2
  obtain ⟨r2, v2, e2⟩ : ∃ r2 v2, step ⟨b⟩ Ex.floats 9 Ex.twiceFrame 5 v1 = (r2, v2) := ⟨_, _, rfl⟩
  rw [e2] at h2
  cases h1
  cases h2
  obtain ⟨p, q, h3, h4, -⟩ := C121_distinct hc hc' (by rw [hm]; decide) e1 e2
  exact h4 (h _ _ _ _ _ _ _ _ _ _ _ _ _ _ p q hc hc' e1 e2 h3)

/-- `C121_partial` and `C121_distinct` on this program. -/
example : LiteralAt .debug Ex.twiceFrame 0 0x70000000 [0x48, 0x69] ∧ LiteralAt .debug Ex.twiceFrame 5 0x70000000 [0x48, 0x69] ∧
    HasAt Ex.twiceFrame.code 10 [0xfe, 0x01] ∧
    (step .debug Ex.floats 9 Ex.twiceFrame 5 (step .debug Ex.floats 9 Ex.twiceFrame 0 { world := Ex.twiceWorld }).2).2.operands =
      [.object ⟨0, 17⟩, .object ⟨0, 0⟩] :=
  ⟨(Ex.twice_literals _).1, (Ex.twice_literals _).2, by decide +kernel⟩

end Clr
