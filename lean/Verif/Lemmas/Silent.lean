import Verif.Lemmas.Grow
/-! # Loading writes nothing to the console -/

namespace Clr

/-- The code writes nothing and leaves the table of numeric types alone. -/
def Silent {α : Type} (x : M α) : Prop := ∀ w, (x w).2.output = w.output ∧ (x w).2.primitives = w.primitives

namespace Silent

variable {α β : Type}

theorem of_grow {x : M α} (h : Grow x) : Silent x := fun w => ⟨(h w).output, (h w).primitives⟩
theorem pure (a : α) : Silent (Pure.pure a : M α) := fun _ => ⟨rfl, rfl⟩
theorem lift (x : Res α) : Silent (M.lift x) := fun _ => ⟨rfl, rfl⟩
theorem view (f : World → Res α) : Silent (M.view f) := fun _ => ⟨rfl, rfl⟩
theorem modify {f : World → World} (h : ∀ w, (f w).output = w.output ∧ (f w).primitives = w.primitives) : Silent (M.modify f) := h

theorem bind {x : M α} {f : α → M β} (hx : Silent x) (hf : ∀ a, Silent (f a)) : Silent (x >>= f) := by
  intro w
  rw [M.bind_run]
  have h := hx w
  rcases e : x w with ⟨r, w1⟩
  rw [e] at h
  cases r with
  | ok a => exact ⟨((hf a w1).1).trans h.1, ((hf a w1).2).trans h.2⟩
  | _ => exact h

theorem liftM_bind {x : Res α} {f : α → M β} (hf : ∀ a, Silent (f a)) : Silent ((_root_.liftM x : M α) >>= f) :=
  bind (fun _ => ⟨rfl, rfl⟩) hf
theorem view_bind {g : World → Res α} {f : α → M β} (hf : ∀ a, Silent (f a)) : Silent (M.view g >>= f) := (view g).bind hf

end Silent

variable {cfg : Cfg} {m : Metadata}

theorem upd_silent (t : Nat) (f : TypeRec → TypeRec) : Silent (M.modify (·.updType t f)) := Silent.modify fun _ => ⟨rfl, rfl⟩

theorem nextTypeId_silent : Silent (nextTypeId cfg) := by
  unfold nextTypeId
  exact Silent.view_bind fun _ => Silent.liftM_bind fun _ => Silent.bind (Silent.modify fun _ => ⟨rfl, rfl⟩) fun _ => Silent.pure _

theorem loadTypes_silent (a k : Nat) : ∀ i, Silent (loadTypes cfg a m k i) := by
  induction k with
  | zero => intro i; exact Silent.pure _
  | succ k ih =>
    intro i
    unfold loadTypes
    refine Silent.bind ?_ fun _ => (ih _).bind fun _ => Silent.pure _
    unfold loadType
    exact Silent.liftM_bind fun _ => Silent.liftM_bind fun _ => Silent.liftM_bind fun _ => nextTypeId_silent.bind fun _ =>
      Silent.view_bind fun _ => Silent.bind (Silent.modify fun _ => ⟨rfl, rfl⟩) fun _ => Silent.pure _

theorem loadFields_silent (fuel t k : Nat) : ∀ i o, Silent (loadFields cfg fuel m t k i o) := by
  induction k with
  | zero => intro i o; exact Silent.pure _
  | succ k ih =>
    intro i o
    unfold loadFields
    exact (Silent.of_grow (loadField_grow _ _ _)).bind fun _ => (upd_silent _ _).bind fun _ => Silent.view_bind fun _ =>
      Silent.liftM_bind fun _ => (ih _ _).bind fun _ => Silent.pure _

theorem loadMethods_silent (t k : Nat) : ∀ i, Silent (loadMethods cfg m t k i) := by
  induction k with
  | zero => intro i; exact Silent.pure _
  | succ k ih =>
    intro i
    unfold loadMethods
    exact (Silent.of_grow (loadMethod_grow _ _)).bind fun _ => (upd_silent _ _).bind fun _ => ih _

theorem resolveType_silent (fuel t i : Nat) : Silent (resolveType cfg fuel m t i) := by
  unfold resolveType
  refine Silent.bind ?_ fun _ => Silent.bind ?_ fun _ => Silent.bind ?_ fun _ => Silent.bind ?_ fun _ => Silent.pure _
  · unfold resolveBase
    refine Silent.liftM_bind fun row => ?_
    split
    · exact Silent.pure _
    · exact Silent.liftM_bind fun _ => Silent.view_bind fun _ => upd_silent _ _
  · unfold resolveKind
    exact Silent.liftM_bind fun _ => Silent.view_bind fun _ => upd_silent _ _
  · unfold resolveFields
    exact Silent.liftM_bind fun ⟨_, _⟩ => Silent.liftM_bind fun _ => Silent.liftM_bind fun _ => Silent.view_bind fun _ =>
      loadFields_silent _ _ _ _ _
  · unfold resolveMethods
    exact Silent.liftM_bind fun ⟨_, _⟩ => Silent.liftM_bind fun _ => Silent.liftM_bind fun _ => loadMethods_silent _ _ _

theorem resolveTypes_silent (fuel : Nat) (ts : List Nat) : ∀ i, Silent (resolveTypes cfg fuel m ts i) := by
  induction ts with
  | nil => intro i; exact Silent.pure _
  | cons t ts ih =>
    intro i
    unfold resolveTypes
    exact (resolveType_silent _ _ _).bind fun _ => (ih _).bind fun _ => Silent.pure _

theorem lookupRow_silent (a b : Nat) : Silent (lookupRow m a b) := by
  unfold lookupRow
  exact Silent.liftM_bind fun _ => Silent.liftM_bind fun _ => Silent.view _

theorem loadInterfaces_silent (rows : List InterfaceImplRow) : Silent (loadInterfaces cfg m rows) := by
  induction rows with
  | nil => exact Silent.pure _
  | cons row rows ih =>
    unfold loadInterfaces
    refine Silent.bind ?_ fun _ => ih
    unfold loadInterface
    exact Silent.liftM_bind fun _ => (lookupRow_silent _ _).bind fun _ => Silent.liftM_bind fun _ => Silent.liftM_bind fun ⟨_, _⟩ =>
      (lookupRow_silent _ _).bind fun _ => Silent.liftM_bind fun _ => upd_silent _ _

theorem loadMemberRefs_silent (rows : List MemberRefRow) : Silent (loadMemberRefs cfg m rows) := by
  induction rows with
  | nil => exact Silent.pure _
  | cons row rows ih =>
    unfold loadMemberRefs
    refine Silent.bind ?_ fun _ => ih.bind fun _ => Silent.pure _
    unfold loadMemberRef
    split
    · exact Silent.liftM_bind fun _ => (lookupRow_silent _ _).bind fun _ => Silent.liftM_bind fun _ => Silent.liftM_bind fun _ =>
        Silent.liftM_bind fun _ => Silent.view_bind fun _ => Silent.liftM_bind fun _ => Silent.pure _
    · exact Silent.pure _

theorem loadTypeRefs_silent (rows : List TypeRefRow) : Silent (loadTypeRefs m rows) := by
  induction rows with
  | nil => exact Silent.pure _
  | cons row rows ih =>
    unfold loadTypeRefs
    exact (lookupRow_silent _ _).bind fun _ => Silent.liftM_bind fun _ => ih.bind fun _ => Silent.pure _

theorem loadSelf_silent (fuel : Nat) (name : Name) : Silent (loadSelf cfg fuel m name) := by
  unfold loadSelf
  exact (loadMemberRefs_silent _).bind fun _ => (loadTypeRefs_silent _).bind fun _ => Silent.view_bind fun _ =>
    Silent.bind (Silent.modify fun _ => ⟨rfl, rfl⟩) fun _ => (loadTypes_silent _ _ _).bind fun _ => (resolveTypes_silent _ _ _).bind fun _ =>
    (loadInterfaces_silent _).bind fun _ => Silent.view_bind fun _ => Silent.liftM_bind fun _ =>
    Silent.bind (Silent.modify fun _ => ⟨rfl, rfl⟩) fun _ => Silent.pure _

theorem loadRefs_silent {load : Name → M AssemblyRec} (hl : ∀ n, Silent (load n)) (rows : List AssemblyRefRow) :
    Silent (loadRefs load m rows) := by
  induction rows with
  | nil => exact Silent.pure _
  | cons row rows ih =>
    unfold loadRefs
    refine Silent.liftM_bind fun _ => Silent.liftM_bind fun _ => Silent.view_bind fun _ => ?_
    split
    · exact ih
    · exact (hl _).bind fun _ => ih

theorem loadData_silent (fs : Name → Option Bytes) (depth : Nat) : ∀ fuel data, Silent (loadData cfg fs depth fuel data) := by
  induction depth with
  | zero => intro fuel data; exact Silent.lift _
  | succ depth ih =>
    intro fuel data
    unfold loadData
    exact Silent.liftM_bind fun _ => Silent.liftM_bind fun _ => Silent.liftM_bind fun _ =>
      (loadRefs_silent (fun _ => Silent.liftM_bind fun _ => ih _ _) _).bind fun _ => loadSelf_silent _ _

end Clr
