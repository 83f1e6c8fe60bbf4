import Verif.Lemmas.Deep
import Verif.Lemmas.TypeFuel
import Verif.Lemmas.Carry
/-! # How much fuel for sizes is enough to execute a method -/

namespace Clr

variable {cfg : Cfg} {ops : FloatOps} {tf tf' fuel : Nat} {α β : Type}

/-- `y` does what `x` does if that ends and `k` is enough for the types registered at the end. -/
structure Suffices (cfg : Cfg) (k : Nat) (x y : X α) : Prop where
  adds : Advances cfg x
  ends : ∀ v, (x v).1 ≠ .timeout → 2 * (x v).2.world.types.length + 1 ≤ k → y v = x v

namespace Suffices

theorem refl (x : X α) [h : Advances cfg x] : Suffices cfg tf' x x := ⟨h, fun _ _ _ => rfl⟩

theorem bind {x y : X α} {f g : α → X β} (h : Suffices cfg tf' x y) (h' : ∀ a, Suffices cfg tf' (f a) (g a)) :
    Suffices cfg tf' (x >>= f) (y >>= g) := by
  refine ⟨h.adds.bind fun a => (h' a).adds, fun v hv hk => ?_⟩
  rw [X.bind_run] at hv hk ⊢
  rw [X.bind_run]
  rcases hx : x v with ⟨r, v1⟩
  rw [hx] at hv hk
  cases r with
  | ok a =>
    have hr := Carries.Advanced_le ((h' a).adds.later v1)
    dsimp only at hk
    rw [h.ends v (by rw [hx]; simp) (by rw [hx]; dsimp only; omega), hx]
    exact (h' a).ends v1 hv hk
  | timeout => exact absurd rfl hv
  | _ => rw [h.ends v (by rw [hx]; simp) (by rw [hx]; exact hk), hx]

theorem size (t : Nat) :
    Suffices cfg tf' (X.view fun v => typeSize cfg v.world tf t) (X.view fun v => typeSize cfg v.world tf' t) := by
  refine ⟨inferInstance, fun v hv hk => ?_⟩
  show (typeSize cfg v.world tf' t, v) = (typeSize cfg v.world tf t, v)
  rw [Res.Refined.typeSize_enough (w := v.world) hk hv]

theorem allocObject (t : Nat) : Suffices cfg tf' (Clr.allocObject cfg tf t) (Clr.allocObject cfg tf' t) := by
  unfold Clr.allocObject
  exact .bind (.size t) fun _ => @Suffices.refl _ _ _ _ (by advances)

theorem allocArray (e n : Nat) : Suffices cfg tf' (Clr.allocArray cfg tf e n) (Clr.allocArray cfg tf' e n) := by
  unfold Clr.allocArray
  exact .bind (.size e) fun _ => @Suffices.refl _ _ _ _ (by advances)

theorem newobj (fr : Frame) (ip : Nat) : Suffices cfg tf' (doNewobj cfg tf fr ip) (doNewobj cfg tf' fr ip) := by
  unfold doNewobj
  refine .bind (.refl _) fun _ => .bind (.refl _) fun _ => .bind (.refl _) fun _ => ?_
  exact .bind (.allocObject _) fun _ => @Suffices.refl _ _ _ _ (by advances)

theorem newarr (fr : Frame) (ip : Nat) : Suffices cfg tf' (doNewarr cfg tf fr ip) (doNewarr cfg tf' fr ip) := by
  unfold doNewarr
  refine .bind (.refl _) fun _ => .bind (.refl _) fun _ => .bind (.refl _) fun _ => .bind (.refl _) fun _ => ?_
  exact .bind (.allocArray _ _) fun _ => @Suffices.refl _ _ _ _ (by advances)

theorem step (fr : Frame) (ip : Nat) : Suffices cfg tf' (Clr.step cfg ops tf fr ip) (Clr.step cfg ops tf' fr ip) := by
  unfold Clr.step
  refine .bind (.refl _) fun r => ?_
  obtain ⟨op, ip⟩ := r
  cases op
  case Newobj => exact .newobj fr ip
  case Newarr => exact .newarr fr ip
  all_goals exact .refl (exec cfg ops tf fr _ ip)

theorem invoke {run run' : Frame → Nat → X (Option Value)} (h : ∀ fr ip, Suffices cfg tf' (run fr ip) (run' fr ip))
    (hf : RunsFree run) (hf' : RunsFree run') (m : MethodRec) (params : Region) :
    Suffices cfg tf' (Clr.invoke cfg run m params) (Clr.invoke cfg run' m params) := by
  have : ∀ fr ip, Advances cfg (run fr ip) := fun fr ip => (h fr ip).adds
  refine ⟨inferInstance, fun v hv hk => ?_⟩
  cases himpl : m.impl with
  | none => unfold Clr.invoke; rw [himpl]
  | internal f => unfold Clr.invoke; rw [himpl]
  | il body =>
    cases ht : v.world.types[m.declaringType]? with
    | none => unfold Clr.invoke; rw [himpl]; simp [X.bind_run, World.typeAt, ht]
    | some t =>
    cases ha : v.world.assemblies.find? (·.id = t.assembly) with
    | none => unfold Clr.invoke; rw [himpl]; simp [X.bind_run, World.typeAt, ht, ha]
    | some asm =>
    rcases hal : stackAlloc body.locals.length { v with allocated := 0 } with ⟨r, v1⟩
    cases r with
    | ok reg =>
      rw [invoke_run hf himpl ht ha hal] at hv hk ⊢
      rw [invoke_run hf' himpl ht ha hal]
      dsimp only at hv hk ⊢
      rw [(h _ _).ends v1 hv hk]
    | _ =>
      rw [invoke_il himpl ht ha, invoke_il himpl ht ha]
      simp [X.finally', X.bind_run, hal]

theorem callMethod {run run' : Frame → Nat → X (Option Value)} (h : ∀ fr ip, Suffices cfg tf' (run fr ip) (run' fr ip))
    (hf : RunsFree run) (hf' : RunsFree run') (fr : Frame) (token : Token) :
    Suffices cfg tf' (Clr.callMethod cfg run fr token) (Clr.callMethod cfg run' fr token) := by
  unfold Clr.callMethod
  refine .bind (.refl _) fun _ => .bind (.refl _) fun m => .bind (.refl _) fun r => .bind (.refl _) fun _ => ?_
  exact .bind (.invoke h hf hf' _ _) fun _ => @Suffices.refl _ _ _ _ (by advances)

theorem loop (fuel : Nat) (fr : Frame) (ip : Nat) :
    Suffices cfg tf' (Clr.loop cfg ops tf fuel fr ip) (Clr.loop cfg ops tf' fuel fr ip) := by
  induction fuel generalizing fr ip with
  | zero => exact .refl (X.lift .timeout)
  | succ fuel ih =>
    unfold Clr.loop
    refine .bind (.step fr ip) fun a => ?_
    cases a with
    | next n => exact ih fr n
    | ret r => exact .refl (Pure.pure r)
    | call token after n =>
      refine .bind (.callMethod ih (loop_free _ _ _ _) (loop_free _ _ _ _) fr token) fun _ => ?_
      cases after with
      | some a => exact .bind (.refl _) fun _ => ih fr n
      | none => exact ih fr n

end Suffices

theorem hostExecute_suffices {w : World} {m : MethodRec} {params : List Value}
    (hne : (hostExecute cfg ops tf fuel w m params).1 ≠ .timeout)
    (hk : 2 * (hostExecute cfg ops tf fuel w m params).2.world.types.length + 1 ≤ tf') :
    hostExecute cfg ops tf' fuel w m params = hostExecute cfg ops tf fuel w m params := by
  unfold hostExecute at hne hk ⊢
  split
  · rename_i hs
    rw [if_pos hs] at hne hk
    dsimp only at hne hk ⊢
    rw [(Suffices.invoke (Suffices.loop fuel) (loop_free _ _ _ _) (loop_free _ _ _ _) m .host).ends _ (fun ht => hne (by rw [ht]; rfl)) hk]
  · rfl

end Clr
