import Verif.Model.World
/-! # Running registry code -/

namespace Clr

instance : LawfulMonad Res := LawfulMonad.mk' Res
  (id_map := fun x => by cases x <;> rfl)
  (pure_bind := fun _ _ => rfl)
  (bind_assoc := fun x _ _ => by cases x <;> rfl)

namespace M

@[simp] theorem pure_run {α : Type} (a : α) (w : World) : (pure a : M α) w = (.ok a, w) := rfl

theorem bind_run {α β : Type} (x : M α) (f : α → M β) (w : World) : (x >>= f) w =
    (match x w with
    | (.ok a, w') => f a w'
    | (.err m, w') => (.err m, w')
    | (.panic, w') => (.panic, w')
    | (.ub, w') => (.ub, w')
    | (.timeout, w') => (.timeout, w')) := rfl

theorem bind_ok {α β : Type} {x : M α} {f : α → M β} {w w' : World} {a : α} (h : x w = (.ok a, w')) :
    (x >>= f) w = f a w' := by rw [bind_run, h]

@[simp] theorem lift_run {α : Type} (x : Res α) (w : World) : (M.lift x) w = (x, w) := rfl
@[simp] theorem liftM_run {α : Type} (x : Res α) (w : World) : (liftM x : M α) w = (x, w) := rfl
@[simp] theorem view_run {α : Type} (f : World → Res α) (w : World) : (M.view f) w = (f w, w) := rfl
@[simp] theorem modify_run (f : World → World) (w : World) : (M.modify f) w = (.ok (), f w) := rfl

/-- Running a pure step first. -/
theorem liftM_bind_ok {α β : Type} {x : Res α} {a : α} (h : x = .ok a) (f : α → M β) (w : World) :
    ((liftM x : M α) >>= f) w = f a w := by rw [bind_run, liftM_run, h]

theorem view_bind_ok {α β : Type} {g : World → Res α} {a : α} {w : World} (h : g w = .ok a) (f : α → M β) :
    ((M.view g) >>= f) w = f a w := by rw [bind_run, view_run, h]

theorem get_bind {α β : Type} (g : World → α) (f : α → M β) (w : World) :
    ((M.view fun w => .ok (g w)) >>= f) w = f (g w) w := rfl

theorem modify_bind {β : Type} (g : World → World) (w : World) (f : Unit → M β) :
    ((M.modify g) >>= f) w = f () (g w) := rfl

/-- A successful sequence splits. -/
theorem bind_eq_ok {α β : Type} {x : M α} {f : α → M β} {w w' : World} {b : β} :
    (x >>= f) w = (.ok b, w') ↔ ∃ a w1, x w = (.ok a, w1) ∧ f a w1 = (.ok b, w') := by
  rw [bind_run]
  rcases h : x w with ⟨r, w1⟩
  cases r <;> simp [and_assoc]

theorem liftM_bind_eq_ok {α β : Type} {x : Res α} {f : α → M β} {w w' : World} {b : β} :
    ((liftM x : M α) >>= f) w = (.ok b, w') ↔ ∃ a, x = .ok a ∧ f a w = (.ok b, w') := by
  rw [bind_run, liftM_run]; cases x <;> simp

theorem view_bind_eq_ok {α β : Type} {g : World → Res α} {f : α → M β} {w w' : World} {b : β} :
    ((M.view g) >>= f) w = (.ok b, w') ↔ ∃ a, g w = .ok a ∧ f a w = (.ok b, w') := by
  rw [bind_run, view_run]; cases g w <;> simp

end M
end Clr
