import Verif.Lemmas.Unread
import Verif.Lemmas.Machine
import Verif.Model.Main
/-! # Parts of files that the command-line program does not look at -/

namespace Clr
open Spec

variable {cfg : Cfg} {α : Type}

theorem SameFiles.extended {fs fs' : Name → Option Bytes} (h : SameFiles (· <+: ·) fs fs') : Extended fs fs' := by
  intro n d hd
  rcases h n with ⟨h1, -⟩ | ⟨x, y, h1, h2, t, rfl⟩
  · rw [h1] at hd; cases hd
  · rw [h1] at hd; cases hd; exact ⟨t, h2⟩

section
variable {R : Bytes → Bytes → Prop} {disk disk' : Disk}

theorem present_same (h : SameDisk R disk disk') (p : Path) : disk'.present p = disk.present p := by
  unfold Disk.present
  rcases h p with ⟨h1, h2⟩ | ⟨h1, h2⟩ | ⟨d, d', h1, h2, -⟩ <;> rw [h1, h2] <;> rfl

theorem read_same (h : SameDisk R disk disk') (p : Path) :
    (disk.read p = none ∧ disk'.read p = none) ∨ ∃ d d', disk.read p = some d ∧ disk'.read p = some d' ∧ R d d' := by
  unfold Disk.read
  rcases h p with ⟨h1, h2⟩ | ⟨h1, h2⟩ | ⟨d, d', h1, h2, h3⟩
  · rw [h1, h2]; exact .inl ⟨rfl, rfl⟩
  · rw [h1, h2]; exact .inl ⟨rfl, rfl⟩
  · rw [h1, h2]; exact .inr ⟨d, d', rfl, rfl, h3⟩

theorem resolveAssemblyName_same (h : SameDisk R disk disk') (n : Name) : ∀ dirs,
    resolveAssemblyName disk' n dirs = resolveAssemblyName disk n dirs := by
  intro dirs
  induction dirs with
  | nil => rfl
  | cons dir dirs ih => simp only [resolveAssemblyName, present_same h, ih]

theorem foundFiles_same (h : SameDisk R disk disk') (dirs : List Path) : SameFiles R (foundFiles disk dirs) (foundFiles disk' dirs) := by
  intro n
  unfold foundFiles
  rw [resolveAssemblyName_same h]
  cases resolveAssemblyName disk n dirs with
  | none => exact .inl ⟨rfl, rfl⟩
  | some p => exact read_same h p

end

/-! ## Other headers -/

section
variable {disk disk' : Disk} {runtime runtime' console console' : Bytes}

theorem newRuntime_rehoused {fs fs' : Name → Option Bytes} (h : SameFiles Rehoused fs fs') (hr : Rehoused runtime runtime')
    (hc : Rehoused console console') (depth fuel : Nat) :
    newRuntime cfg fs' depth fuel runtime' console' = newRuntime cfg fs depth fuel runtime console := by
  unfold newRuntime
  rw [loadData_rehoused h fuel depth hr, loadData_rehoused h fuel depth hc]

theorem loadPath_rehoused {fs fs' : Name → Option Bytes} (h : SameFiles Rehoused fs fs') (hd : SameDisk Rehoused disk disk')
    (depth fuel : Nat) (p : Path) : loadPath cfg disk' fs' depth fuel p = loadPath cfg disk fs depth fuel p := by
  unfold loadPath
  funext w
  rw [M.bind_run, M.bind_run, M.liftM_run, M.liftM_run]
  rcases read_same hd p with ⟨h1, h2⟩ | ⟨d, d', h1, h2, h3⟩
  · rw [h1, h2]
    simp only [Res.ofOption]
  · rw [h1, h2]
    simp only [Res.ofOption_some]
    rw [loadData_rehoused h fuel depth h3]

theorem mainLoads_rehoused (hd : SameDisk Rehoused disk disk') (hr : Rehoused runtime runtime') (hc : Rehoused console console')
    (exeDir : Path) (depth fuel : Nat) (args : List Path) :
    mainLoads cfg runtime' console' disk' exeDir depth fuel args = mainLoads cfg runtime console disk exeDir depth fuel args := by
  have h := foundFiles_same hd (loadPaths exeDir)
  unfold mainLoads
  dsimp only
  rw [newRuntime_rehoused h hr hc]
  simp only [loadPath_rehoused h hd]

end

/-! ## Further bytes at the end -/

section
variable {disk disk' : Disk} {runtime runtime' console console' : Bytes}

theorem M.Follows.unwrap {x y : M α} (h : M.Follows false x y) : M.Follows false (M.unwrap x) (M.unwrap y) := by
  intro w hw
  unfold M.unwrap at hw ⊢
  rcases e : x w with ⟨r, w'⟩
  rw [e] at hw
  cases r with
  | ok a => rw [h w (by rw [e]; trivial), e]
  | _ => cases hw

theorem loadData_prefix {fs fs' : Name → Option Bytes} (h : SameFiles (· <+: ·) fs fs') (depth fuel : Nat) {d d' : Bytes} (hp : d <+: d') :
    M.Follows false (loadData cfg fs depth fuel d) (loadData cfg fs' depth fuel d') := by
  obtain ⟨t, rfl⟩ := hp
  exact loadData_more (SameFiles.extended h) fuel depth d t

theorem newRuntime_prefix {fs fs' : Name → Option Bytes} (h : SameFiles (· <+: ·) fs fs') (hr : runtime <+: runtime')
    (hc : console <+: console') (depth fuel : Nat) :
    M.Follows false (newRuntime cfg fs depth fuel runtime console) (newRuntime cfg fs' depth fuel runtime' console') := by
  unfold newRuntime
  exact .bind (loadData_prefix h depth fuel hr) fun _ => .bind (loadData_prefix h depth fuel hc) fun _ => .refl _

theorem loadPath_prefix {fs fs' : Name → Option Bytes} (h : SameFiles (· <+: ·) fs fs') (hd : SameDisk (· <+: ·) disk disk')
    (depth fuel : Nat) (p : Path) : M.Follows false (loadPath cfg disk fs depth fuel p) (loadPath cfg disk' fs' depth fuel p) := by
  unfold loadPath
  intro w hw
  rw [M.bind_run, M.liftM_run] at hw ⊢
  rw [M.bind_run, M.liftM_run]
  rcases read_same hd p with ⟨h1, h2⟩ | ⟨d, d', h1, h2, h3⟩
  · rw [h1] at hw; cases hw
  · rw [h1] at hw ⊢
    rw [h2]
    exact loadData_prefix h depth fuel h3 w hw

theorem mainLoads_prefix (hd : SameDisk (· <+: ·) disk disk') (hr : runtime <+: runtime') (hc : console <+: console')
    (exeDir : Path) (depth fuel : Nat) (args : List Path) :
    M.Follows false (mainLoads cfg runtime console disk exeDir depth fuel args)
      (mainLoads cfg runtime' console' disk' exeDir depth fuel args) := by
  have h := foundFiles_same hd (loadPaths exeDir)
  unfold mainLoads
  exact .bind (.unwrap (newRuntime_prefix h hr hc _ _)) fun _ => .bind (.refl _) fun _ => .bind (.unwrap (loadPath_prefix h hd _ _ _)) fun _ => .refl _

end

end Clr
