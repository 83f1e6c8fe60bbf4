import Verif.Model.Main
import Verif.Lemmas.LoadFuel
import Verif.Lemmas.Silent
/-! # The command-line program -/

namespace Clr

variable {α β : Type} {cfg : Cfg}

theorem M.unwrap_ok {x : M α} {w w' : World} {a : α} (h : x w = (.ok a, w')) : M.unwrap x w = (.ok a, w') := by
  unfold M.unwrap; rw [h]

theorem M.unwrap_err {x : M α} {w w' : World} {e : String} (h : x w = (.err e, w')) : M.unwrap x w = (.panic, w') := by
  unfold M.unwrap; rw [h]

/-- The code writes nothing. -/
def Wordless (x : M α) : Prop := ∀ w, (x w).2.output = w.output

namespace Wordless

theorem of_silent {x : M α} (h : Silent x) : Wordless x := fun w => (h w).1

theorem bind {x : M α} {f : α → M β} (hx : Wordless x) (hf : ∀ a, Wordless (f a)) : Wordless (x >>= f) := by
  intro w
  rw [M.bind_run]
  have h := hx w
  rcases e : x w with ⟨r, w1⟩
  rw [e] at h
  cases r with
  | ok a => exact (hf a w1).trans h
  | _ => exact h

theorem unwrap {x : M α} (h : Wordless x) : Wordless (M.unwrap x) := by
  intro w
  have h := h w
  unfold M.unwrap
  rcases e : x w with ⟨r, w1⟩
  rw [e] at h
  cases r <;> exact h

theorem getType (n : String) : Wordless (getTypeUnwrap n) := fun _ => rfl
theorem lift (x : Res α) : Wordless (M.lift x) := fun _ => rfl
theorem liftM (x : Res α) : Wordless (_root_.liftM x : M α) := fun _ => rfl

theorem newRuntime (fs : Name → Option Bytes) (depth fuel : Nat) (a b : Bytes) : Wordless (newRuntime cfg fs depth fuel a b) := by
  unfold Clr.newRuntime loadPrimitives
  refine (of_silent (loadData_silent fs depth fuel a)).bind fun _ => (of_silent (loadData_silent fs depth fuel b)).bind fun _ => ?_
  repeat refine (getType _).bind fun _ => ?_
  exact fun _ => rfl

theorem mainLoads (runtime console : Bytes) (disk : Disk) (exeDir : Path) (depth fuel : Nat) (args : List Path) :
    Wordless (mainLoads cfg runtime console disk exeDir depth fuel args) := by
  unfold Clr.mainLoads
  refine (newRuntime _ _ _ _ _).unwrap.bind fun _ => (liftM _).bind fun _ => Wordless.bind ?_ fun _ => lift _
  unfold loadPath
  exact ((liftM _).bind fun _ => of_silent (loadData_silent _ _ _ _)).unwrap

end Wordless

end Clr
