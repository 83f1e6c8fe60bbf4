import Verif.Lemmas.Objects
/-! # Sizes of types while the registry grows -/

namespace Clr

variable {cfg : Cfg} {w w' : World}

theorem Evolves.typeAt_ok (h : Evolves w w') {t : Nat} {r : TypeRec} (ht : w.typeAt t = .ok r) : w'.typeAt t = .ok r := by
  obtain ⟨s, hs⟩ := h.types
  unfold World.typeAt at ht ⊢
  rcases Nat.lt_or_ge t w.types.length with hl | hl
  · rw [← hs, List.getElem?_append_left hl]; exact ht
  · rw [List.getElem?_eq_none hl] at ht; cases ht

theorem Evolves.getType_ok (h : Evolves w w') {n : Name} {t : Nat} (ht : Res.unwrap (w.getType n) = .ok t) :
    Res.unwrap (w'.getType n) = .ok t := by
  cases hg : w.getType n with
  | none => rw [hg] at ht; cases ht
  | some x => rw [hg] at ht; cases ht; rw [h.kept n _ hg]; rfl

theorem Evolves.mapM_ok (h : Evolves w w') {is : List Nat} {rs : List TypeRec} (hr : is.mapM w.typeAt = .ok rs) :
    is.mapM w'.typeAt = .ok rs := by
  induction is generalizing rs with
  | nil => exact hr
  | cons i is ih =>
    rw [List.mapM_cons] at hr ⊢
    obtain ⟨a, h1, hr⟩ := Res.bind_eq_ok.1 hr
    obtain ⟨b, h2, hr⟩ := Res.bind_eq_ok.1 hr
    rw [h.typeAt_ok h1, Res.ok_bind, ih h2, Res.ok_bind]
    exact hr

theorem instanceOf_evolves (h : Evolves w w') {o fuel t : Nat} {b : Bool} (hb : instanceOf w o fuel t = .ok b) :
    instanceOf w' o fuel t = .ok b := by
  induction fuel generalizing t with
  | zero => exact hb
  | succ fuel ih =>
    unfold instanceOf at hb ⊢
    obtain ⟨tr, h1, hb⟩ := Res.bind_eq_ok.1 hb
    obtain ⟨or, h2, hb⟩ := Res.bind_eq_ok.1 hb
    rw [h.typeAt_ok h1, Res.ok_bind, h.typeAt_ok h2, Res.ok_bind]
    split at hb
    · rw [if_pos ‹_›]; exact hb
    · rw [if_neg ‹_›]
      cases hbase : tr.base with
      | some c => simp only [hbase] at hb ⊢; exact ih hb
      | none =>
        simp only [hbase] at hb ⊢
        obtain ⟨is, h3, hb⟩ := Res.bind_eq_ok.1 hb
        rw [h.mapM_ok h3, Res.ok_bind]
        exact hb

theorem isReferenceType_evolves (h : Evolves w w') {fuel t : Nat} {b : Bool} (hb : isReferenceType w fuel t = .ok b) :
    isReferenceType w' fuel t = .ok b := by
  unfold isReferenceType at hb ⊢
  obtain ⟨x, h1, hb⟩ := Res.bind_eq_ok.1 hb
  obtain ⟨y, h2, hb⟩ := Res.bind_eq_ok.1 hb
  rw [h.getType_ok h1, Res.ok_bind, instanceOf_evolves h h2, Res.ok_bind]
  exact hb

theorem primitiveSize_evolves (h : Evolves w w') {full : Name} {l : List (Name × Nat)} {r : Option Nat}
    (hr : primitiveSize w full l = .ok r) : primitiveSize w' full l = .ok r := by
  induction l with
  | nil => exact hr
  | cons a l ih =>
    unfold primitiveSize at hr ⊢
    obtain ⟨x, h1, hr⟩ := Res.bind_eq_ok.1 hr
    obtain ⟨y, h2, hr⟩ := Res.bind_eq_ok.1 hr
    rw [h.getType_ok h1, Res.ok_bind, h.typeAt_ok h2, Res.ok_bind]
    split at hr
    · rw [if_pos ‹_›]; exact hr
    · rw [if_neg ‹_›]; exact ih hr

theorem fieldsSize_mono {isRef isRef' : Nat → Res Bool} {size size' : Nat → Res Nat}
    (h1 : ∀ t b, isRef t = .ok b → isRef' t = .ok b) (h2 : ∀ t s, size t = .ok s → size' t = .ok s)
    {fs : List FieldRec} {a s : Nat} (h : fieldsSize cfg isRef size fs a = .ok s) :
    fieldsSize cfg isRef' size' fs a = .ok s := by
  induction fs generalizing a with
  | nil => exact h
  | cons f fs ih =>
    unfold fieldsSize at h ⊢
    obtain ⟨x, hx, h⟩ := Res.bind_eq_ok.1 h
    obtain ⟨y, hy, h⟩ := Res.bind_eq_ok.1 h
    obtain ⟨b, hb, hx⟩ := Res.bind_eq_ok.1 hx
    have : (do if (← isRef' f.fieldType) then pure 8 else size' f.fieldType : Res Nat) = .ok x := by
      rw [h1 _ _ hb, Res.ok_bind]
      split at hx
      · rw [if_pos ‹_›]; exact hx
      · rw [if_neg ‹_›]; exact h2 _ _ hx
    rw [this, Res.ok_bind, hy, Res.ok_bind]
    exact ih h

/-- The size of a type does not change. -/
theorem typeSize_evolves (h : Evolves w w') {fuel t s : Nat} (hs : typeSize cfg w fuel t = .ok s) :
    typeSize cfg w' fuel t = .ok s := by
  induction fuel generalizing t s with
  | zero => exact hs
  | succ fuel ih =>
    unfold typeSize at hs ⊢
    obtain ⟨tr, h1, hs⟩ := Res.bind_eq_ok.1 hs
    obtain ⟨p, h2, hs⟩ := Res.bind_eq_ok.1 hs
    rw [h.typeAt_ok h1, Res.ok_bind, primitiveSize_evolves h h2, Res.ok_bind]
    cases p with
    | some p => exact hs
    | none =>
      dsimp only at hs ⊢
      obtain ⟨x, h3, hs⟩ := Res.bind_eq_ok.1 hs
      rw [fieldsSize_mono (fun _ _ => isReferenceType_evolves h) (fun _ _ => ih) h3, Res.ok_bind]
      cases hbase : tr.base with
      | none => simp only [hbase] at hs ⊢; exact hs
      | some b =>
        simp only [hbase] at hs ⊢
        obtain ⟨y, h4, hs⟩ := Res.bind_eq_ok.1 hs
        rw [ih h4, Res.ok_bind]
        exact hs

end Clr
