import Verif.Spec.Renamed
import Verif.Lemmas.Spelling
/-! # Programs with other names (for C118) -/

namespace Clr
open Spec

variable {cfg : Cfg} {ops : FloatOps} {tf : Nat} {φ : MethodRec → MethodRec}

/-- The same address of the same code. -/
def Spot (fr fr' : Frame) (n n' : Nat) : Prop := fr'.code = fr.code ∧ n = n'

theorem Spec.Renamed.matched {m m' : MethodRec} (h : Renamed m m') : Matched Spot m m' := by
  have hl : m'.params.length = m.params.length := by
    have := congrArg List.length h.2
    simpa using this
  have h1 := h.1
  refine ⟨⟨?_, ?_, hl, ?_⟩, .inl ⟨?_, fun _ _ e => ⟨e, rfl⟩⟩⟩ <;> rw [h1]

theorem loop_spot (hφ : ∀ m, Matched Spot m (φ m)) (fuel : Nat) :
    ∀ fr fr' n n', Twins φ fr fr' → Spot fr fr' n n' →
      Concur φ fuel (fun k => loop cfg ops tf k fr n) fun k => loop cfg ops tf k fr' n' := by
  induction fuel with
  | zero => exact fun _ _ _ _ _ _ _ hv => by rcases hv with hv | hv <;> exact absurd rfl hv
  | succ fuel ih =>
    rintro fr fr' n _ ht ⟨hc, rfl⟩
    exact step_concur ih (fun t => callMethod_concur hφ ih ht t) ht
      ((step_same hc (Matched.facade hφ) ht n).mono fun a b e => ⟨hc, e⟩)

end Clr
