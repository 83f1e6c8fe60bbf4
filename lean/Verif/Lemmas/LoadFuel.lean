import Verif.Lemmas.Run
/-! # More fuel does not change what loading does -/

namespace Clr

variable {cfg : Cfg} {α β : Type}

/-- `y` is `x`, unless that is running out of fuel. -/
def Res.Refined (x y : Res α) : Prop := x ≠ .timeout → y = x

namespace Res.Refined

theorem refl (x : Res α) : Refined x x := fun _ => rfl

theorem bind {x y : Res α} {f g : α → Res β} (h : Refined x y) (h' : ∀ a, Refined (f a) (g a)) : Refined (x >>= f) (y >>= g) := by
  intro hv
  cases x with
  | ok a => rw [h (by simp)]; exact h' a hv
  | timeout => exact absurd rfl hv
  | _ => rw [h (by simp)]; rfl

theorem instanceOf {w : World} {o : Nat} : ∀ {k k' : Nat}, k ≤ k' → ∀ t, Refined (instanceOf w o k t) (Clr.instanceOf w o k' t) := by
  intro k
  induction k with
  | zero => intro _ _ t h; exact absurd rfl h
  | succ k ih =>
    intro k' hk t
    obtain ⟨k', rfl⟩ : ∃ j, k' = j + 1 := ⟨k' - 1, by omega⟩
    unfold Clr.instanceOf
    refine .bind (.refl _) fun tr => .bind (.refl _) fun r => ?_
    split
    · exact .refl _
    · cases tr.base with
      | some b => exact ih (by omega) b
      | none => exact .refl _

theorem isReferenceType {w : World} {k k' : Nat} (h : k ≤ k') (t : Nat) :
    Refined (isReferenceType w k t) (Clr.isReferenceType w k' t) :=
  .bind (.refl _) fun _ => .bind (.instanceOf h _) fun _ => .refl _

theorem fieldsSize {r r' : Nat → Res Bool} {s s' : Nat → Res Nat} (hr : ∀ t, Refined (r t) (r' t)) (hs : ∀ t, Refined (s t) (s' t))
    (fs : List FieldRec) : ∀ a, Refined (fieldsSize cfg r s fs a) (Clr.fieldsSize cfg r' s' fs a) := by
  induction fs with
  | nil => exact fun _ => .refl _
  | cons f fs ih =>
    intro a
    refine .bind (.bind (hr _) fun b => ?_) fun _ => .bind (.refl _) fun _ => ih _
    cases b
    · exact hs _
    · exact .refl _

theorem typeSize {w : World} : ∀ {k k' : Nat}, k ≤ k' → ∀ t, Refined (typeSize cfg w k t) (Clr.typeSize cfg w k' t) := by
  intro k
  induction k with
  | zero => intro _ _ t h; exact absurd rfl h
  | succ k ih =>
    intro k' hk t
    obtain ⟨k', rfl⟩ : ∃ j, k' = j + 1 := ⟨k' - 1, by omega⟩
    unfold Clr.typeSize
    refine .bind (.refl _) fun tr => .bind (.refl _) fun p => ?_
    cases p with
    | some s => exact .refl _
    | none =>
      refine .bind (.fieldsSize (fun t => .isReferenceType (by omega) t) (ih (by omega)) _ _) fun _ => ?_
      cases tr.base with
      | some b => exact .bind (ih (by omega) b) fun _ => .refl _
      | none => exact .refl _

theorem baseSize {w : World} {k k' : Nat} (h : k ≤ k') (t : Nat) : Refined (baseSize cfg k w t) (Clr.baseSize cfg k' w t) := by
  unfold Clr.baseSize
  refine .bind (.refl _) fun tr => ?_
  cases tr.base with
  | some b => exact .typeSize h b
  | none => exact .refl _

end Res.Refined

/-- `y` does what `x` does, unless that is running out of fuel. -/
def M.Refined (x y : M α) : Prop := ∀ w, (x w).1 ≠ .timeout → y w = x w

namespace M.Refined

theorem refl (x : M α) : Refined x x := fun _ _ => rfl

theorem bind {x y : M α} {f g : α → M β} (h : Refined x y) (h' : ∀ a, Refined (f a) (g a)) : Refined (x >>= f) (y >>= g) := by
  intro v hv
  rw [M.bind_run] at hv ⊢
  rw [M.bind_run]
  rcases hx : x v with ⟨r, v1⟩
  rw [hx] at hv
  cases r with
  | ok a =>
    rw [h v (by rw [hx]; simp), hx]
    exact h' a v1 hv
  | timeout => exact absurd rfl hv
  | _ => rw [h v (by rw [hx]; simp), hx]

theorem view {f g : World → Res α} (h : ∀ w, Res.Refined (f w) (g w)) : Refined (M.view f) (M.view g) := by
  intro w hw
  show (g w, w) = (f w, w)
  rw [h w hw]

variable {m : Metadata} {k k' : Nat}

theorem loadFields (h : k ≤ k') (t n : Nat) : ∀ i o, Refined (loadFields cfg k m t n i o) (Clr.loadFields cfg k' m t n i o) := by
  induction n with
  | zero => exact fun _ _ => .refl _
  | succ n ih =>
    intro i o
    refine .bind (.refl _) fun f => .bind (.refl _) fun _ => .bind (.view fun w => .typeSize h _) fun s => .bind (.refl _) fun _ => ?_
    exact .bind (ih _ _) fun _ => .refl _

theorem resolveFields (h : k ≤ k') (t i : Nat) : Refined (resolveFields cfg k m t i) (Clr.resolveFields cfg k' m t i) := by
  unfold Clr.resolveFields
  refine .bind (.refl _) fun _ => .bind (.refl _) fun _ => .bind (.refl _) fun _ => ?_
  exact .bind (.view fun w => .baseSize h _) fun _ => .loadFields h _ _ _ _

theorem resolveType (h : k ≤ k') (t i : Nat) : Refined (resolveType cfg k m t i) (Clr.resolveType cfg k' m t i) := by
  unfold Clr.resolveType
  exact .bind (.refl _) fun _ => .bind (.refl _) fun _ => .bind (.resolveFields h _ _) fun _ => .refl _

theorem resolveTypes (h : k ≤ k') (ts : List Nat) : ∀ i, Refined (resolveTypes cfg k m ts i) (Clr.resolveTypes cfg k' m ts i) := by
  induction ts with
  | nil => exact fun _ => .refl _
  | cons t ts ih => exact fun i => .bind (.resolveType h t i) fun _ => .bind (ih _) fun _ => .refl _

theorem loadSelf (h : k ≤ k') (name : Name) : Refined (loadSelf cfg k m name) (Clr.loadSelf cfg k' m name) := by
  unfold Clr.loadSelf
  refine .bind (.refl _) fun _ => .bind (.refl _) fun _ => .bind (.refl _) fun _ => .bind (.refl _) fun _ => ?_
  exact .bind (.refl _) fun _ => .bind (.resolveTypes h _ _) fun _ => .refl _

theorem loadRefs {load load' : Name → M AssemblyRec} (h : ∀ n, Refined (load n) (load' n)) (rows : List AssemblyRefRow) :
    Refined (loadRefs load m rows) (Clr.loadRefs load' m rows) := by
  induction rows with
  | nil => exact .refl _
  | cons row rows ih =>
    unfold Clr.loadRefs
    refine .bind (.refl _) fun _ => .bind (.refl _) fun _ => .bind (.refl _) fun b => ?_
    split
    · exact ih
    · exact .bind (h _) fun _ => ih

theorem loadData (fs : Name → Option Bytes) {d : Nat} (h : k ≤ k') : ∀ {d' : Nat}, d ≤ d' → ∀ data,
    Refined (loadData cfg fs d k data) (Clr.loadData cfg fs d' k' data) := by
  induction d with
  | zero => intro _ _ data w hw; exact absurd rfl hw
  | succ d ih =>
    intro d' hd data
    obtain ⟨d', rfl⟩ : ∃ j, d' = j + 1 := ⟨d' - 1, by omega⟩
    refine .bind (.refl _) fun _ => .bind (.refl _) fun _ => .bind (.refl _) fun _ => ?_
    exact .bind (.loadRefs (fun n => .bind (.refl _) fun _ => ih (by omega) _) _) fun _ => .loadSelf h _

theorem loadAssembly (fs : Name → Option Bytes) {d d' : Nat} (h : k ≤ k') (hd : d ≤ d') (n : Name) :
    Refined (loadAssembly cfg fs d k n) (Clr.loadAssembly cfg fs d' k' n) :=
  .bind (.refl _) fun _ => .loadData fs h hd _

theorem newRuntime (fs : Name → Option Bytes) {d d' : Nat} (h : k ≤ k') (hd : d ≤ d') (a b : Bytes) :
    Refined (newRuntime cfg fs d k a b) (Clr.newRuntime cfg fs d' k' a b) :=
  .bind (.loadData fs h hd _) fun _ => .bind (.loadData fs h hd _) fun _ => .refl _

end M.Refined

end Clr
