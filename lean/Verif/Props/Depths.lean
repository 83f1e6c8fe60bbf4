import Verif.Lemmas.Depths
import Verif.Lemmas.Tiny
import Verif.Props.Arith
/-! # Property C64: callees and their callers' operands -/

namespace Clr

variable {cfg : Cfg} {ops : FloatOps} {tf fuel : Nat} {fr : Frame} {v v' : VM} {w : World} {rest : List Value}

/-- The claim C64: when a method has run, the values its caller had on the evaluation stack are still there. -/
def KeepsOperands : Prop :=
  ∀ (cfg : Cfg) (ops : FloatOps) (tf fuel : Nat) (m : MethodRec) (params : Region) (v v' : VM) (r : Option Value),
    invoke cfg (loop cfg ops tf fuel) m params v = (.ok r, v') → v.operands <:+ v'.operands

/-- **C64 fails**: a method that pops takes a value of its caller. -/
theorem C64_refuted : ¬ KeepsOperands := by
  intro h
  have := h .debug Ex.floats 9 9 (Ex.meth [0x26, 0x2a]) .host
    { world := Ex.tiny [Ex.meth [0x26, 0x2a]], operands := [.i32 7] }
    (invoke .debug (loop .debug Ex.floats 9 9) (Ex.meth [0x26, 0x2a]) .host
      { world := Ex.tiny [Ex.meth [0x26, 0x2a]], operands := [.i32 7] }).2 none (by decide +kernel)
  revert this; decide +kernel

/-- **C64 fails**, seen by the host: `m0` is `ldc.i4.7; call m1; ret` and returns an `int`, but `m1`, `pop; ret`, takes
the 7 away and the host gets nothing. -/
theorem C64_refuted_host :
    let m0 := Ex.meth [0x1d, 0x28, 0x02, 0x00, 0x00, 0x06, 0x2a] (ret := 8)
    (hostExecute .debug Ex.floats 9 9 (Ex.tiny [m0, Ex.meth [0x2a]]) m0 []).1 = .ok (.number (.i32 7)) ∧
    (hostExecute .debug Ex.floats 9 9 (Ex.tiny [m0, Ex.meth [0x26, 0x2a]]) m0 []).1 = .ok .void := by
  decide +kernel

/-- **C64 for balanced programs**: in a program whose methods call only each other and in which every instruction finds
the values it takes among those of its own method (and `ret` finds exactly the result), a method runs on any operands
`rest` of its caller as it does without them, and leaves them as they are; when it returns, its own operands are gone, and
there is a result if and only if its type is not void. `w` is the registry when the program starts. -/
theorem C64_partial (good : MethodRec → Prop) (hprog : Program cfg w good) (m : MethodRec) (hm : good m) (k : Nat)
    (hk : Returns w m k) (params : Region) (v : VM) (he : Evolves w v.world) (ho : v.operands = []) :
    (∀ rest, invoke cfg (loop cfg ops tf fuel) m params { v with operands := rest } =
      ((invoke cfg (loop cfg ops tf fuel) m params v).1,
       { (invoke cfg (loop cfg ops tf fuel) m params v).2 with
         operands := (invoke cfg (loop cfg ops tf fuel) m params v).2.operands ++ rest })) ∧
    ∀ r v', invoke cfg (loop cfg ops tf fuel) m params v = (.ok r, v') →
      v'.operands = [] ∧ r.isSome = decide (k = 1) := by
  have h := invoke_framed hprog (loop_framed hprog ops tf fuel) hm hk params
  constructor
  · intro rest
    have := h.run v rest he (by rw [ho]; rfl)
    simpa only [VM.on, ho, List.nil_append] using this
  · intro r v' hr
    obtain ⟨-, h1, h2⟩ := h.post v r v' he (by rw [ho]; rfl) hr
    exact ⟨List.eq_nil_of_length_eq_zero h1, h2⟩

/-- **C64, calls in balanced programs**: a call takes its arguments, puts its result and leaves the rest. -/
theorem C64_call (good : MethodRec → Prop) (hprog : Program cfg w good) (m : MethodRec) (hm : good m) (k : Nat)
    (hk : Returns w m k) (token : Token) (hres : fr.assembly.resolveMethod cfg token = .ok (some m))
    (args rest : List Value) (hl : args.length = m.params.length + (if m.isStatic then 0 else 1)) (v v' : VM)
    (he : Evolves w v.world) (ho : v.operands = args ++ rest)
    (h : callMethod cfg (loop cfg ops tf fuel) fr token v = (.ok (), v')) :
    ∃ r : Option Value, v'.operands = r.toList ++ rest ∧ r.isSome = decide (k = 1) := by
  have hl' : args.length = m.slots := by rw [hl, MethodRec.slots]; split <;> omega
  have hf := callMethod_framed hprog (loop_framed hprog ops tf fuel) hm hk hres 0
  rw [Nat.zero_add] at hf
  have hrun := hf.run { v with operands := args } rest he hl'
  have hv : ({ v with operands := args } : VM).on rest = v := by simp [VM.on, ← ho]
  rw [hv, h] at hrun
  rcases hx : callMethod cfg (loop cfg ops tf fuel) fr token { v with operands := args } with ⟨x, u⟩
  rw [hx] at hrun
  cases hrun
  obtain ⟨-, hp⟩ := hf.post { v with operands := args } () u he hl' hx
  have hk' : k = 0 ∨ k = 1 := by
    rcases hk with ⟨f, -, rfl⟩ | ⟨b, -, ⟨rfl, -⟩ | ⟨rfl, -⟩⟩ <;> simp
  rcases hk' with rfl | rfl
  · exact ⟨none, by simp [VM.on, List.eq_nil_of_length_eq_zero hp], rfl⟩
  · obtain ⟨a, ha⟩ := List.length_eq_one_iff.1 hp
    exact ⟨some a, by simp [VM.on, ha], rfl⟩

namespace Ex

/-- `ldc.i4.7; ldc.i4.5; call m1; add; ret`. -/
def balancedCaller : MethodRec := meth [0x1d, 0x1b, 0x28, 0x02, 0x00, 0x00, 0x06, 0x58, 0x2a] (ret := 8)

/-- `ldarg.0; ldc.i4.1; add; ret`. -/
def balancedCallee : MethodRec := meth [0x02, 0x17, 0x58, 0x2a] (ret := 8) (params := 1)

def balancedSig (t : Nat) : Option CallShape := if t = 0x06000002 then some ⟨1, false, 1⟩ else none

theorem balanced_value {m : MethodRec} (h : m.returnType = 8) : IsValue (tiny [balancedCaller, balancedCallee]) m := by
  have h1 : ∃ r t tr, (tiny [balancedCaller, balancedCallee]).types[8]? = some r ∧
      (tiny [balancedCaller, balancedCallee]).getType "System.Void".toList = some t ∧
      (tiny [balancedCaller, balancedCallee]).types[t]? = some tr ∧ r.fullName ≠ tr.fullName :=
    ⟨tinyType 8 ("System", "Int32"), 0, tinyType 0 ("System", "Void"), by decide +kernel, by decide +kernel,
      by decide +kernel, by decide +kernel⟩
  unfold IsValue
  rw [h]; exact h1

/-- The two methods are a balanced program. -/
theorem balanced_program : Program .debug (tiny [balancedCaller, balancedCallee])
    (fun m => m = balancedCaller ∨ m = balancedCallee) := by
  have hsig : Resolves .debug (tiny [balancedCaller, balancedCallee]) (fun m => m = balancedCaller ∨ m = balancedCallee)
      ((tiny [balancedCaller, balancedCallee]).assemblies[0]'(by decide)) balancedSig := by
    intro t s h
    unfold balancedSig at h
    split at h <;> cases h
    subst t
    exact ⟨balancedCallee, by decide +kernel, .inr rfl, rfl, rfl, .inr ⟨_, rfl, .inr ⟨rfl, balanced_value rfl⟩⟩⟩
  rintro m (rfl | rfl) body hb <;> cases hb
  · refine ⟨by decide, _, _, balancedSig, fun ip d => (ip, d) ∈ [(0, 0), (1, 1), (2, 2), (7, 2), (8, 1)], 1, rfl, rfl,
      .inr ⟨_, rfl, .inr ⟨rfl, balanced_value rfl⟩⟩, hsig, ?_, by decide⟩
    intro ip d h
    simp only [List.mem_cons, Prod.mk.injEq, List.not_mem_nil, or_false] at h
    rcases h with ⟨rfl, rfl⟩ | ⟨rfl, rfl⟩ | ⟨rfl, rfl⟩ | ⟨rfl, rfl⟩ | ⟨rfl, rfl⟩
    · exact ⟨⟨"ldc.i4.7", [0x1d], .none⟩, by decide +kernel, [], rfl, by decide, .inr (.inr (.inr
        ⟨0, 1, by decide +kernel, by decide, fun _ _ => by decide, fun h => by simp at h⟩))⟩
    · exact ⟨⟨"ldc.i4.5", [0x1b], .none⟩, by decide +kernel, [], rfl, by decide, .inr (.inr (.inr
        ⟨0, 1, by decide +kernel, by decide, fun _ _ => by decide, fun h => by simp at h⟩))⟩
    · exact ⟨⟨"call", [0x28], .token⟩, by decide +kernel, [2, 0, 0, 6], rfl, by decide, .inr (.inl
        ⟨rfl, 0x06000002, ⟨1, false, 1⟩, by decide, by decide, rfl, by decide, by decide⟩)⟩
    · exact ⟨⟨"add", [0x58], .none⟩, by decide +kernel, [], rfl, by decide, .inr (.inr (.inr
        ⟨2, 1, by decide +kernel, by decide, fun _ _ => by decide, fun h => by simp at h⟩))⟩
    · exact ⟨⟨"ret", [0x2a], .none⟩, by decide +kernel, [], rfl, by decide, .inl ⟨rfl, rfl⟩⟩
  · refine ⟨by decide, _, _, balancedSig, fun ip d => (ip, d) ∈ [(0, 0), (1, 1), (2, 2), (3, 1)], 1, rfl, rfl,
      .inr ⟨_, rfl, .inr ⟨rfl, balanced_value rfl⟩⟩, hsig, ?_, by decide⟩
    intro ip d h
    simp only [List.mem_cons, Prod.mk.injEq, List.not_mem_nil, or_false] at h
    rcases h with ⟨rfl, rfl⟩ | ⟨rfl, rfl⟩ | ⟨rfl, rfl⟩ | ⟨rfl, rfl⟩
    · exact ⟨⟨"ldarg.0", [0x02], .none⟩, by decide +kernel, [], rfl, by decide, .inr (.inr (.inr
        ⟨0, 1, by decide +kernel, by decide, fun _ _ => by decide, fun h => by simp at h⟩))⟩
    · exact ⟨⟨"ldc.i4.1", [0x17], .none⟩, by decide +kernel, [], rfl, by decide, .inr (.inr (.inr
        ⟨0, 1, by decide +kernel, by decide, fun _ _ => by decide, fun h => by simp at h⟩))⟩
    · exact ⟨⟨"add", [0x58], .none⟩, by decide +kernel, [], rfl, by decide, .inr (.inr (.inr
        ⟨2, 1, by decide +kernel, by decide, fun _ _ => by decide, fun h => by simp at h⟩))⟩
    · exact ⟨⟨"ret", [0x2a], .none⟩, by decide +kernel, [], rfl, by decide, .inl ⟨rfl, rfl⟩⟩

end Ex

/-- A case of `C64_partial`: both methods, and the result of running them. -/
example : Program .debug (Ex.tiny [Ex.balancedCaller, Ex.balancedCallee])
      (fun m => m = Ex.balancedCaller ∨ m = Ex.balancedCallee) ∧
    (hostExecute .debug Ex.floats 9 20 (Ex.tiny [Ex.balancedCaller, Ex.balancedCallee]) Ex.balancedCaller []).1 =
      .ok (.number (.i32 13)) :=
  ⟨Ex.balanced_program, by decide +kernel⟩

end Clr
