import Verif.Base
/-! # Outcomes without undefined behaviour -/

namespace Clr

/-- Neither undefined behaviour nor divergence. -/
def Safe {α : Type} (x : Res α) : Prop := x ≠ .ub ∧ x ≠ .timeout

instance {α : Type} [DecidableEq α] (x : Res α) : Decidable (Safe x) := by unfold Safe; infer_instance

theorem Safe.ok {α : Type} (a : α) : Safe (Res.ok a) := ⟨by simp, by simp⟩
theorem Safe.err {α : Type} (m : String) : Safe (Res.err m : Res α) := ⟨by simp, by simp⟩
theorem Safe.panic {α : Type} : Safe (Res.panic : Res α) := ⟨by simp, by simp⟩

theorem Safe.of_returns {α : Type} {x : Res α} (h : x.Returns) : Safe x := by
  rcases h with ⟨a, rfl⟩ | ⟨m, rfl⟩
  · exact Safe.ok a
  · exact Safe.err m

theorem Safe.bind {α β : Type} {x : Res α} {f : α → Res β} (hx : Safe x) (hf : ∀ a, x = .ok a → Safe (f a)) :
    Safe (x >>= f) := by
  cases x with
  | ok a => exact hf a rfl
  | err m => exact Safe.err m
  | panic => exact Safe.panic
  | ub => exact absurd rfl hx.1
  | timeout => exact absurd rfl hx.2

theorem uadd_safe (cfg : Cfg) (w a b : Nat) : Safe (uadd cfg w a b) := by
  unfold uadd; split
  · exact Safe.ok _
  · split
    · exact Safe.panic
    · exact Safe.ok _
theorem usub_safe (cfg : Cfg) (w a b : Nat) : Safe (usub cfg w a b) := by
  unfold usub; split
  · exact Safe.ok _
  · split
    · exact Safe.panic
    · exact Safe.ok _
theorem slice_safe {α : Type} (d : List α) (a b : Nat) : Safe (slice d a b) := by
  unfold slice; split
  · exact Safe.ok _
  · exact Safe.panic
theorem sliceFrom_safe {α : Type} (d : List α) (a : Nat) : Safe (sliceFrom d a) := by
  unfold sliceFrom; split
  · exact Safe.ok _
  · exact Safe.panic
theorem unwrap_safe {α : Type} (x : Option α) : Safe (Res.unwrap x) := by
  cases x
  · exact Safe.panic
  · exact Safe.ok _
theorem ofOption_safe {α : Type} (m : String) (x : Option α) : Safe (Res.ofOption m x) := by
  cases x
  · exact Safe.err _
  · exact Safe.ok _
theorem mapErr_safe {α : Type} {x : Res α} (g : String → String) (h : Safe x) : Safe (Res.mapErr g x) := by
  cases x with
  | ok a => exact Safe.ok a
  | err m => exact Safe.err _
  | panic => exact Safe.panic
  | ub => exact absurd rfl h.1
  | timeout => exact absurd rfl h.2

/-- A panic is decidable for every result type. -/
instance decidablePanic {α : Type} (x : Res α) : Decidable (x = .panic) :=
  match x with
  | .panic => isTrue rfl
  | .ok _ => isFalse (by simp)
  | .err _ => isFalse (by simp)
  | .ub => isFalse (by simp)
  | .timeout => isFalse (by simp)

end Clr
