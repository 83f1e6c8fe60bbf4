import Verif.Lemmas.Sizes
import Verif.Lemmas.Loading
import Verif.Props.Names
import Verif.Props.Signature
import Verif.Spec.Valid
/-! # Loading a well-formed assembly, step by step -/

namespace Clr
open Spec

/-! ## Sums -/

theorem sumRun_front (f : Nat → Nat) (s n : Nat) : sumRun f s (n + 1) = f s + sumRun f (s + 1) n := by
  induction n with
  | zero => simp [sumRun]
  | succ n ih =>
    rw [sumRun, ih, sumRun, Nat.add_assoc, show s + 1 + n = s + (n + 1) by omega]

theorem sumRun_add (f : Nat → Nat) (s a b : Nat) : sumRun f s (a + b) = sumRun f s a + sumRun f (s + a) b := by
  induction b with
  | zero => simp [sumRun]
  | succ b ih => rw [show a + (b + 1) = a + b + 1 by omega, sumRun, ih, sumRun]; rw [Nat.add_assoc s a b]; omega

theorem sumRun_mono (f : Nat → Nat) (s : Nat) {a b : Nat} (h : a ≤ b) : sumRun f s a ≤ sumRun f s b := by
  obtain ⟨c, rfl⟩ := Nat.exists_eq_add_of_le h
  rw [sumRun_add]; omega

/-! ## Old types keep their sizes -/

/-- Records are kept and more may have been added. -/
structure WorldExt (w w' : World) : Prop where
  inv : Inv w
  inv' : Inv w'
  keep : ∀ (t : Nat) r, w.types[t]? = some r → w'.types[t]? = some r

theorem Inv.resolves {w : World} (h : Inv w) {n : Name} {t : Nat} {r : TypeRec} (ht : w.types[t]? = some r)
    (hn : r.fullName = n) : ∃ i ir, w.getType n = some i ∧ w.types[i]? = some ir ∧ ir.fullName = n := by
  cases hg : w.getType n with
  | none => exact absurd hn ((h.getType_none n).mp hg r (List.mem_of_getElem? ht))
  | some i =>
    obtain ⟨ir, h1, h2, -⟩ := (h.getType_iff n i).mp hg
    exact ⟨i, ir, rfl, h1, h2⟩

namespace WorldExt

variable {cfg : Cfg} {w w' : World}

theorem typeAt (h : WorldExt w w') {t : Nat} {r : TypeRec} (ht : w.typeAt t = .ok r) : w'.typeAt t = .ok r :=
  typeAt_eq_ok.mpr (h.keep t r (typeAt_eq_ok.mp ht))

theorem getType (h : WorldExt w w') {n : Name} {t : Nat} (ht : w.getType n = some t) :
    ∃ t' r r', w'.getType n = some t' ∧ w'.types[t']? = some r' ∧ r'.fullName = n ∧ w.types[t]? = some r ∧ r.fullName = n := by
  obtain ⟨r, h1, h2, -⟩ := (h.inv.getType_iff n t).mp ht
  obtain ⟨i, ir, g1, g2, g3⟩ := h.inv'.resolves (h.keep _ _ h1) h2
  exact ⟨i, r, ir, g1, g2, g3, h1, h2⟩

theorem mapM (h : WorldExt w w') {is : List Nat} {rs : List TypeRec} (hr : is.mapM w.typeAt = .ok rs) :
    is.mapM w'.typeAt = .ok rs := by
  induction is generalizing rs with
  | nil => exact hr
  | cons i is ih =>
    rw [List.mapM_cons] at hr ⊢
    obtain ⟨a, h1, hr⟩ := Res.bind_eq_ok.1 hr
    obtain ⟨b, h2, hr⟩ := Res.bind_eq_ok.1 hr
    rw [h.typeAt h1, Res.ok_bind, ih h2, Res.ok_bind]
    exact hr

theorem instanceOf (h : WorldExt w w') {o o' fuel t : Nat} {r r' : TypeRec} {b : Bool} (ho : w.types[o]? = some r)
    (ho' : w'.types[o']? = some r') (hn : r'.fullName = r.fullName) (hb : instanceOf w o fuel t = .ok b) :
    Clr.instanceOf w' o' fuel t = .ok b := by
  induction fuel generalizing t with
  | zero => cases hb
  | succ fuel ih =>
    unfold Clr.instanceOf at hb ⊢
    obtain ⟨tr, h1, hb⟩ := Res.bind_eq_ok.1 hb
    rw [typeAt_eq_ok.mpr ho, Res.ok_bind] at hb
    rw [h.typeAt h1, Res.ok_bind, typeAt_eq_ok.mpr ho', Res.ok_bind, hn]
    split at hb
    · rw [if_pos ‹_›]; exact hb
    · rw [if_neg ‹_›]
      cases hbase : tr.base with
      | some c => simp only [hbase] at hb ⊢; exact ih hb
      | none =>
        simp only [hbase] at hb ⊢
        obtain ⟨is, h3, hb⟩ := Res.bind_eq_ok.1 hb
        rw [h.mapM h3, Res.ok_bind]
        exact hb

theorem isReferenceType (h : WorldExt w w') {fuel t : Nat} {b : Bool} (hb : isReferenceType w fuel t = .ok b) :
    Clr.isReferenceType w' fuel t = .ok b := by
  unfold Clr.isReferenceType at hb ⊢
  obtain ⟨x, h1, hb⟩ := Res.bind_eq_ok.1 hb
  obtain ⟨y, h2, hb⟩ := Res.bind_eq_ok.1 hb
  obtain ⟨t', r, r', g1, g2, g3, g4, g5⟩ := h.getType (unwrap_eq_ok.mp h1)
  rw [unwrap_eq_ok.mpr g1, Res.ok_bind, h.instanceOf g4 g2 (g3.trans g5.symm) h2, Res.ok_bind]
  exact hb

theorem primitiveSize (h : WorldExt w w') {full : Name} {l : List (Name × Nat)} {r : Option Nat}
    (hr : primitiveSize w full l = .ok r) : Clr.primitiveSize w' full l = .ok r := by
  induction l with
  | nil => exact hr
  | cons a l ih =>
    unfold Clr.primitiveSize at hr ⊢
    obtain ⟨x, h1, hr⟩ := Res.bind_eq_ok.1 hr
    obtain ⟨y, h2, hr⟩ := Res.bind_eq_ok.1 hr
    obtain ⟨t', q, q', g1, g2, g3, g4, g5⟩ := h.getType (unwrap_eq_ok.mp h1)
    rw [typeAt_eq_ok, g4] at h2
    cases h2
    rw [unwrap_eq_ok.mpr g1, Res.ok_bind, typeAt_eq_ok.mpr g2, Res.ok_bind, g3]
    rw [g5] at hr
    split at hr
    · rw [if_pos ‹_›]; exact hr
    · rw [if_neg ‹_›]; exact ih hr

theorem typeSize (h : WorldExt w w') {fuel t s : Nat} (hs : typeSize cfg w fuel t = .ok s) : Clr.typeSize cfg w' fuel t = .ok s := by
  induction fuel generalizing t s with
  | zero => cases hs
  | succ fuel ih =>
    unfold Clr.typeSize at hs ⊢
    obtain ⟨tr, h1, hs⟩ := Res.bind_eq_ok.1 hs
    obtain ⟨p, h2, hs⟩ := Res.bind_eq_ok.1 hs
    rw [h.typeAt h1, Res.ok_bind, h.primitiveSize h2, Res.ok_bind]
    cases p with
    | some p => exact hs
    | none =>
      dsimp only at hs ⊢
      obtain ⟨x, h3, hs⟩ := Res.bind_eq_ok.1 hs
      rw [fieldsSize_mono (fun _ _ => h.isReferenceType) (fun _ _ => ih) h3, Res.ok_bind]
      cases hbase : tr.base with
      | none => simp only [hbase] at hs ⊢; exact hs
      | some b =>
        simp only [hbase] at hs ⊢
        obtain ⟨y, h4, hs⟩ := Res.bind_eq_ok.1 hs
        rw [ih h4, Res.ok_bind]
        exact hs

theorem depth (h : WorldExt w w') {t n : Nat} (hd : Depth w t n) : Depth w' t n := by
  induction hd with
  | root h1 h2 => exact .root (h.keep _ _ h1) h2
  | link h1 h2 _ ih => exact .link (h.keep _ _ h1) h2 ih

end WorldExt

/-! ## More fuel changes nothing -/

theorem instanceOf_fuel {w : World} {o fuel fuel' t : Nat} {b : Bool} (hf : fuel ≤ fuel') (h : instanceOf w o fuel t = .ok b) :
    instanceOf w o fuel' t = .ok b := by
  induction fuel generalizing t fuel' with
  | zero => cases h
  | succ fuel ih =>
    obtain ⟨k, rfl⟩ : ∃ k, fuel' = k + 1 := ⟨fuel' - 1, by omega⟩
    unfold instanceOf at h ⊢
    obtain ⟨tr, h1, h⟩ := Res.bind_eq_ok.1 h
    obtain ⟨r, h2, h⟩ := Res.bind_eq_ok.1 h
    rw [h1, Res.ok_bind, h2, Res.ok_bind]
    split at h
    · rw [if_pos ‹_›]; exact h
    · rw [if_neg ‹_›]
      cases hbase : tr.base with
      | some c => simp only [hbase] at h ⊢; exact ih (by omega) h
      | none => simp only [hbase] at h ⊢; exact h

theorem typeSize_fuel {cfg : Cfg} {w : World} {fuel fuel' t s : Nat} (hf : fuel ≤ fuel') (h : typeSize cfg w fuel t = .ok s) :
    typeSize cfg w fuel' t = .ok s := by
  induction fuel generalizing t s fuel' with
  | zero => cases h
  | succ fuel ih =>
    obtain ⟨k, rfl⟩ : ∃ k, fuel' = k + 1 := ⟨fuel' - 1, by omega⟩
    unfold typeSize at h ⊢
    obtain ⟨tr, h1, h⟩ := Res.bind_eq_ok.1 h
    obtain ⟨p, h2, h⟩ := Res.bind_eq_ok.1 h
    rw [h1, Res.ok_bind, h2, Res.ok_bind]
    cases p with
    | some p => exact h
    | none =>
      dsimp only at h ⊢
      obtain ⟨x, h3, h⟩ := Res.bind_eq_ok.1 h
      have href : ∀ t b, isReferenceType w fuel t = .ok b → isReferenceType w k t = .ok b := by
        intro t b hb
        unfold isReferenceType at hb ⊢
        obtain ⟨x, g1, hb⟩ := Res.bind_eq_ok.1 hb
        obtain ⟨y, g2, hb⟩ := Res.bind_eq_ok.1 hb
        rw [g1, Res.ok_bind, instanceOf_fuel (by omega) g2, Res.ok_bind]
        exact hb
      rw [fieldsSize_mono href (fun _ _ => ih (by omega)) h3, Res.ok_bind]
      cases hbase : tr.base with
      | none => simp only [hbase] at h ⊢; exact h
      | some b =>
        simp only [hbase] at h ⊢
        obtain ⟨y, h4, h⟩ := Res.bind_eq_ok.1 h
        rw [ih (by omega) h4, Res.ok_bind]
        exact h

end Clr
