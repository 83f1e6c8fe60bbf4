import Verif.Lemmas.Fuel
import Verif.Lemmas.LoadFuel
/-! # More fuel for sizes does not change an outcome -/

namespace Clr

variable {cfg : Cfg} {ops : FloatOps} {tf tf' fuel : Nat} {fr : Frame} {ip : Nat}

namespace Refined

theorem size (h : tf ≤ tf') (t : Nat) :
    Refined (X.view fun v => typeSize cfg v.world tf t) (X.view fun v => typeSize cfg v.world tf' t) := by
  intro v hv
  have := Res.Refined.typeSize (cfg := cfg) (w := v.world) h t
  show (typeSize cfg v.world tf' t, v) = (typeSize cfg v.world tf t, v)
  rw [this hv]

theorem allocObject (h : tf ≤ tf') (t : Nat) : Refined (allocObject cfg tf t) (Clr.allocObject cfg tf' t) := by
  unfold Clr.allocObject
  exact .bind (.size h t) fun _ => .refl _

theorem allocArray (h : tf ≤ tf') (e n : Nat) : Refined (allocArray cfg tf e n) (Clr.allocArray cfg tf' e n) := by
  unfold Clr.allocArray
  exact .bind (.size h e) fun _ => .refl _

theorem newobj (h : tf ≤ tf') (fr : Frame) (ip : Nat) : Refined (doNewobj cfg tf fr ip) (doNewobj cfg tf' fr ip) := by
  unfold doNewobj
  refine .bind (.refl _) fun _ => .bind (.refl _) fun _ => .bind (.refl _) fun _ => ?_
  exact .bind (.allocObject h _) fun _ => .refl _

theorem newarr (h : tf ≤ tf') (fr : Frame) (ip : Nat) : Refined (doNewarr cfg tf fr ip) (doNewarr cfg tf' fr ip) := by
  unfold doNewarr
  refine .bind (.refl _) fun _ => .bind (.refl _) fun _ => .bind (.refl _) fun _ => .bind (.refl _) fun _ => ?_
  exact .bind (.allocArray h _ _) fun _ => .refl _

theorem step (h : tf ≤ tf') (fr : Frame) (ip : Nat) : Refined (step cfg ops tf fr ip) (Clr.step cfg ops tf' fr ip) := by
  unfold Clr.step
  refine .bind (.refl _) fun r => ?_
  obtain ⟨op, ip⟩ := r
  cases op
  case Newobj => exact .newobj h fr ip
  case Newarr => exact .newarr h fr ip
  all_goals exact .refl _

theorem loop_sizes (h : tf ≤ tf') (fuel : Nat) (fr : Frame) (ip : Nat) :
    Refined (Clr.loop cfg ops tf fuel fr ip) (Clr.loop cfg ops tf' fuel fr ip) := by
  induction fuel generalizing fr ip with
  | zero => exact .refl _
  | succ fuel ih =>
    unfold Clr.loop
    refine .bind (.step h fr ip) fun a => ?_
    cases a with
    | next n => exact ih fr n
    | ret r => exact .refl _
    | call token after n =>
      refine .bind (.callMethod ih (loop_free _ _ _ _) (loop_free _ _ _ _) fr token) fun _ => ?_
      cases after with
      | some a => exact .bind (.refl _) fun _ => ih fr n
      | none => exact ih fr n

end Refined

/-- A program that ends with some fuel for sizes ends in the same way with more. -/
theorem hostExecute_sizes {w : World} {m : MethodRec} {params : List Value} (h : tf ≤ tf')
    (hne : (hostExecute cfg ops tf fuel w m params).1 ≠ .timeout) :
    hostExecute cfg ops tf' fuel w m params = hostExecute cfg ops tf fuel w m params := by
  unfold hostExecute at hne ⊢
  split
  · rename_i hs
    rw [if_pos hs] at hne
    dsimp only at hne ⊢
    rw [Refined.invoke (Refined.loop_sizes h fuel) (loop_free _ _ _ _) (loop_free _ _ _ _) m .host _ fun ht => hne (by rw [ht]; rfl)]
  · rfl

end Clr
