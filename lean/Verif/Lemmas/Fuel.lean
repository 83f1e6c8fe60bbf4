import Verif.Lemmas.Vars
/-! # More fuel does not change an outcome -/

namespace Clr

variable {cfg : Cfg} {ops : FloatOps} {tf fuel : Nat} {fr : Frame} {ip : Nat} {v v' : VM}

/-- `y` does what `x` does, unless that is running out of fuel. -/
def Refined {α : Type} (x y : X α) : Prop := ∀ v, (x v).1 ≠ .timeout → y v = x v

namespace Refined

theorem refl {α : Type} (x : X α) : Refined x x := fun _ _ => rfl

theorem trans {α : Type} {x y z : X α} (h : Refined x y) (h' : Refined y z) : Refined x z := by
  intro v hv
  have := h v hv
  rw [h' v (by rw [this]; exact hv), this]

theorem bind {α β : Type} {x y : X α} {f g : α → X β} (h : Refined x y) (h' : ∀ a, Refined (f a) (g a)) :
    Refined (x >>= f) (y >>= g) := by
  intro v hv
  rw [X.bind_run] at hv ⊢
  rw [X.bind_run]
  rcases hx : x v with ⟨r, v1⟩
  rw [hx] at hv
  cases r with
  | ok a =>
    rw [h v (by rw [hx]; simp), hx]
    exact h' a v1 hv
  | timeout => exact absurd rfl hv
  | _ => rw [h v (by rw [hx]; simp), hx]

theorem invoke {run run' : Frame → Nat → X (Option Value)} (h : ∀ fr ip, Refined (run fr ip) (run' fr ip))
    (hf : RunsFree run) (hf' : RunsFree run') (m : MethodRec) (params : Region) :
    Refined (invoke cfg run m params) (Clr.invoke cfg run' m params) := by
  cases himpl : m.impl with
  | none => unfold Clr.invoke; rw [himpl]; exact .refl _
  | internal f => unfold Clr.invoke; rw [himpl]; exact .refl _
  | il body =>
    intro v hv
    cases ht : v.world.types[m.declaringType]? with
    | none => unfold Clr.invoke; rw [himpl]; simp [X.bind_run, World.typeAt, ht]
    | some t =>
    cases ha : v.world.assemblies.find? (·.id = t.assembly) with
    | none => unfold Clr.invoke; rw [himpl]; simp [X.bind_run, World.typeAt, ht, ha]
    | some asm =>
    rcases hal : stackAlloc body.locals.length { v with allocated := 0 } with ⟨r, v1⟩
    cases r with
    | ok reg =>
      rw [invoke_run hf himpl ht ha hal] at hv ⊢
      rw [invoke_run hf' himpl ht ha hal]
      dsimp only at hv ⊢
      rw [h _ _ v1 hv]
    | _ =>
      rw [invoke_il himpl ht ha, invoke_il himpl ht ha]
      simp [X.finally', X.bind_run, hal]

theorem callMethod {run run' : Frame → Nat → X (Option Value)} (h : ∀ fr ip, Refined (run fr ip) (run' fr ip))
    (hf : RunsFree run) (hf' : RunsFree run') (fr : Frame) (token : Token) :
    Refined (callMethod cfg run fr token) (Clr.callMethod cfg run' fr token) := by
  unfold Clr.callMethod
  refine .bind (.refl _) fun _ => .bind (.refl _) fun m => .bind (.refl _) fun r => .bind (.refl _) fun _ => ?_
  exact .bind (.invoke h hf hf' _ _) fun _ => .refl _

theorem loop_one (fuel : Nat) (fr : Frame) (ip : Nat) :
    Refined (loop cfg ops tf fuel fr ip) (loop cfg ops tf (fuel + 1) fr ip) := by
  induction fuel generalizing fr ip with
  | zero => exact fun v hv => absurd rfl hv
  | succ fuel ih =>
    show Refined (do
      match ← step cfg ops tf fr ip with
      | .next ip => loop cfg ops tf fuel fr ip
      | .ret a => pure a
      | .call token after ip => do
        Clr.callMethod cfg (loop cfg ops tf fuel) fr token
        match after with
        | some a => push a
        | none => pure ()
        loop cfg ops tf fuel fr ip) (do
      match ← step cfg ops tf fr ip with
      | .next ip => loop cfg ops tf (fuel + 1) fr ip
      | .ret a => pure a
      | .call token after ip => do
        Clr.callMethod cfg (loop cfg ops tf (fuel + 1)) fr token
        match after with
        | some a => push a
        | none => pure ()
        loop cfg ops tf (fuel + 1) fr ip)
    refine .bind (.refl _) fun a => ?_
    cases a with
    | next n => exact ih fr n
    | ret r => exact .refl _
    | call token after n =>
      refine .bind (.callMethod ih (loop_free _ _ _ _) (loop_free _ _ _ _) fr token) fun _ => ?_
      cases after with
      | some a => exact .bind (.refl _) fun _ => ih fr n
      | none => exact ih fr n

theorem loop {fuel fuel' : Nat} (h : fuel ≤ fuel') (fr : Frame) (ip : Nat) :
    Refined (loop cfg ops tf fuel fr ip) (Clr.loop cfg ops tf fuel' fr ip) := by
  induction h with
  | refl => exact .refl _
  | step _ ih => exact ih.trans (.loop_one _ fr ip)

end Refined

/-- A program that ends with some fuel ends in the same way with more. -/
theorem hostExecute_more {w : World} {m : MethodRec} {params : List Value} {fuel' : Nat} (h : fuel ≤ fuel')
    (hne : (hostExecute cfg ops tf fuel w m params).1 ≠ .timeout) :
    hostExecute cfg ops tf fuel' w m params = hostExecute cfg ops tf fuel w m params := by
  unfold hostExecute at hne ⊢
  split
  · rename_i hs
    rw [if_pos hs] at hne
    dsimp only at hne ⊢
    rw [Refined.invoke (Refined.loop h) (loop_free _ _ _ _) (loop_free _ _ _ _) m .host _ fun ht => hne (by rw [ht]; rfl)]
  · rfl

end Clr
