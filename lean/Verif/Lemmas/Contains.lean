import Verif.Lemmas.Acyclic
import Verif.Spec.Contains
/-! # Loaded types are not inside themselves -/

namespace Clr
open Spec

variable {cfg : Cfg} {m : Metadata} {α β : Type}

/-! ## Code that leaves fields alone -/

def fieldsOf (w : World) (u : Nat) : List FieldRec :=
  match w.types[u]? with
  | some r => r.fields
  | none => []

theorem fieldsOf_eq {w : World} {u : Nat} {r : TypeRec} (h : w.types[u]? = some r) : fieldsOf w u = r.fields := by
  unfold fieldsOf; rw [h]

/-- Only the fields of types in `S` are changed, whatever the outcome. -/
def FieldsM (S : Nat → Prop) (x : M α) : Prop := ∀ w u, ¬ S u → fieldsOf (x w).2 u = fieldsOf w u

theorem Adds.fieldsOf {w w' : World} (h : Adds w w') (u : Nat) : fieldsOf w' u = Clr.fieldsOf w u := by
  obtain ⟨ts, h1, h2⟩ := h.types
  unfold Clr.fieldsOf
  rw [h1]
  rcases Nat.lt_or_ge u w.types.length with hl | hl
  · rw [List.getElem?_append_left hl]
  · rw [List.getElem?_append_right hl, List.getElem?_eq_none hl]
    split
    · next r hr => exact (h2 r (List.mem_of_getElem? hr)).1
    · rfl

namespace FieldsM

variable {S : Nat → Prop}

theorem of_grow {x : M α} (h : Grow x) : FieldsM S x := fun w u _ => (h w).fieldsOf u
theorem pure (a : α) : FieldsM S (Pure.pure a : M α) := of_grow (.pure a)
theorem view (f : World → Res α) : FieldsM S (M.view f) := of_grow (.view f)
theorem lift (x : Res α) : FieldsM S (M.lift x) := of_grow (.lift x)
theorem bind {x : M α} {f : α → M β} (hx : FieldsM S x) (hf : ∀ a, FieldsM S (f a)) : FieldsM S (x >>= f) := by
  intro w u hu
  rw [M.bind_run]
  have h := hx w u hu
  rcases e : x w with ⟨r, w1⟩
  rw [e] at h
  cases r with
  | ok a => exact (hf a w1 u hu).trans h
  | _ => exact h
theorem liftM_bind {x : Res α} {f : α → M β} (hf : ∀ a, FieldsM S (f a)) : FieldsM S ((_root_.liftM x : M α) >>= f) :=
  (of_grow (.liftM x)).bind hf
theorem view_bind {g : World → Res α} {f : α → M β} (hf : ∀ a, FieldsM S (f a)) : FieldsM S (M.view g >>= f) :=
  (of_grow (.view g)).bind hf
theorem updType (t : Nat) (f : TypeRec → TypeRec) (hb : S t ∨ ∀ r, (f r).fields = r.fields) :
    FieldsM S (M.modify (·.updType t f)) := by
  intro w u hu
  simp only [M.modify_run, fieldsOf, World.updType, getElem?_modify']
  cases w.types[u]? with
  | none => simp
  | some r =>
    split <;> rename_i e <;> split at e <;> simp at e
    · next e' => subst e'; rcases hb with hb | hb
                 · exact absurd hb hu
                 · rw [← e]; exact hb r
    · rw [e]

end FieldsM

theorem resolveBase_fields {S : Nat → Prop} (t i : Nat) : FieldsM S (resolveBase cfg m t i) := by
  unfold resolveBase
  refine FieldsM.liftM_bind fun row => ?_
  split
  · exact FieldsM.pure _
  · exact FieldsM.liftM_bind fun _ => FieldsM.view_bind fun _ => FieldsM.updType _ _ (.inr fun _ => rfl)

theorem resolveKind_fields {S : Nat → Prop} (t i : Nat) : FieldsM S (resolveKind cfg m t i) := by
  unfold resolveKind
  exact FieldsM.liftM_bind fun _ => FieldsM.view_bind fun _ => FieldsM.updType _ _ (.inr fun _ => rfl)

theorem loadFields_fields (fuel t n : Nat) : ∀ i o, FieldsM (· = t) (loadFields cfg fuel m t n i o) := by
  induction n with
  | zero => intro i o; exact FieldsM.pure _
  | succ n ih =>
    intro i o
    unfold loadFields
    refine (FieldsM.of_grow (loadField_grow _ _ _)).bind fun _ => FieldsM.bind ?_ fun _ =>
      FieldsM.view_bind fun _ => FieldsM.liftM_bind fun _ => (ih _ _).bind fun _ => FieldsM.pure _
    exact FieldsM.updType _ _ (.inl rfl)

theorem loadMethods_fields {S : Nat → Prop} (t n : Nat) : ∀ i, FieldsM S (loadMethods cfg m t n i) := by
  induction n with
  | zero => intro i; exact FieldsM.pure _
  | succ n ih =>
    intro i
    unfold loadMethods
    refine (FieldsM.of_grow (loadMethod_grow _ _)).bind fun _ => FieldsM.bind ?_ fun _ => ih _
    exact FieldsM.updType _ _ (.inr fun _ => rfl)

theorem resolveMethods_fields {S : Nat → Prop} (t i : Nat) : FieldsM S (resolveMethods cfg m t i) := by
  unfold resolveMethods
  exact FieldsM.liftM_bind fun ⟨_, _⟩ => FieldsM.liftM_bind fun _ => FieldsM.liftM_bind fun _ => loadMethods_fields _ _ _

theorem resolveType_fields (fuel t i : Nat) : FieldsM (· = t) (resolveType cfg fuel m t i) := by
  unfold resolveType
  refine (resolveBase_fields t i).bind fun _ => (resolveKind_fields t i).bind fun _ => FieldsM.bind ?_ fun _ =>
    (resolveMethods_fields t i).bind fun _ => FieldsM.pure _
  unfold resolveFields
  exact FieldsM.liftM_bind fun ⟨_, _⟩ => FieldsM.liftM_bind fun _ => FieldsM.liftM_bind fun _ => FieldsM.view_bind fun _ =>
    loadFields_fields _ _ _ _ _

theorem fieldsOf_types {w w' : World} (h : w'.types = w.types) (u : Nat) : fieldsOf w' u = fieldsOf w u := by
  unfold fieldsOf; rw [h]

theorem nextTypeId_fields {S : Nat → Prop} : FieldsM S (nextTypeId cfg) := by
  unfold nextTypeId
  exact FieldsM.view_bind fun _ => FieldsM.liftM_bind fun _ => FieldsM.bind (fun w u _ => fieldsOf_types rfl u) fun _ => FieldsM.pure _

theorem loadType_fields {S : Nat → Prop} (a i : Nat) : FieldsM S (loadType cfg a i m) := by
  unfold loadType
  refine FieldsM.liftM_bind fun row => FieldsM.liftM_bind fun _ => FieldsM.liftM_bind fun _ => nextTypeId_fields.bind fun id =>
    FieldsM.view_bind fun t => FieldsM.bind (fun w u _ => ?_) fun _ => FieldsM.pure _
  simp only [M.modify_run, World.addType, fieldsOf]
  rcases Nat.lt_or_ge u w.types.length with hl | hl
  · rw [List.getElem?_append_left hl]
  · rw [List.getElem?_append_right hl, List.getElem?_eq_none hl, List.getElem?_singleton]
    split
    · next e => split at e <;> cases e; rfl
    · rfl

theorem loadTypes_fields {S : Nat → Prop} (a n : Nat) : ∀ i, FieldsM S (loadTypes cfg a m n i) := by
  induction n with
  | zero => intro i; exact FieldsM.pure _
  | succ n ih =>
    intro i
    unfold loadTypes
    exact (loadType_fields _ _).bind fun _ => (ih _).bind fun _ => FieldsM.pure _

theorem lookupRow_fields {S : Nat → Prop} (n ns : Nat) : FieldsM S (lookupRow m n ns) := by
  unfold lookupRow
  exact FieldsM.liftM_bind fun _ => FieldsM.liftM_bind fun _ => FieldsM.view _

theorem loadInterface_fields {S : Nat → Prop} (row : InterfaceImplRow) : FieldsM S (loadInterface cfg m row) := by
  unfold loadInterface
  exact FieldsM.liftM_bind fun _ => (lookupRow_fields _ _).bind fun _ => FieldsM.liftM_bind fun _ => FieldsM.liftM_bind fun ⟨_, _⟩ =>
    (lookupRow_fields _ _).bind fun _ => FieldsM.liftM_bind fun _ => FieldsM.updType _ _ (.inr fun _ => rfl)

theorem loadInterfaces_fields {S : Nat → Prop} (rows : List InterfaceImplRow) : FieldsM S (loadInterfaces cfg m rows) := by
  induction rows with
  | nil => exact FieldsM.pure _
  | cons row rows ih => unfold loadInterfaces; exact (loadInterface_fields row).bind fun _ => ih

theorem loadMemberRef_fields {S : Nat → Prop} (row : MemberRefRow) : FieldsM S (loadMemberRef cfg m row) := by
  unfold loadMemberRef
  split
  · exact FieldsM.liftM_bind fun _ => (lookupRow_fields _ _).bind fun _ => FieldsM.liftM_bind fun _ => FieldsM.liftM_bind fun _ =>
      FieldsM.liftM_bind fun _ => FieldsM.view_bind fun _ => FieldsM.liftM_bind fun _ => FieldsM.pure _
  · exact FieldsM.pure _

theorem loadMemberRefs_fields {S : Nat → Prop} (rows : List MemberRefRow) : FieldsM S (loadMemberRefs cfg m rows) := by
  induction rows with
  | nil => exact FieldsM.pure _
  | cons row rows ih => unfold loadMemberRefs; exact (loadMemberRef_fields row).bind fun _ => ih.bind fun _ => FieldsM.pure _

theorem loadTypeRefs_fields {S : Nat → Prop} (rows : List TypeRefRow) : FieldsM S (loadTypeRefs m rows) := by
  induction rows with
  | nil => exact FieldsM.pure _
  | cons row rows ih =>
    unfold loadTypeRefs
    exact (lookupRow_fields _ _).bind fun _ => FieldsM.liftM_bind fun _ => ih.bind fun _ => FieldsM.pure _

/-! ## Parts -/

/-- Every type has finitely many types inside it. -/
def AllFinite (w : World) : Prop := ∀ t, t < w.types.length → Acc (Part w) t

/-- What later worlds keep: names, and base classes once they are set. -/
def HeadsKept (w w' : World) : Prop := ∀ (t : Nat) r, w.types[t]? = some r → ∃ r', w'.types[t]? = some r' ∧
  (∀ b, r.base = some b → r'.base = some b) ∧ r'.fullName = r.fullName

theorem HeadsKept.value {w w' : World} (h : HeadsKept w w') {t : Nat} (hv : OfValueType w t) : OfValueType w' t := by
  induction hv with
  | here h1 h2 =>
    obtain ⟨r', k1, -, k3⟩ := h _ _ h1
    exact .here k1 (k3.trans h2)
  | base h1 h2 _ ih =>
    obtain ⟨r', k1, k2, -⟩ := h _ _ h1
    exact .base k1 (k2 _ h2) ih

theorem HeadsKept.basesFirst {w w' : World} (h : HeadsKept w w') (hb : BasesFirst w') : BasesFirst w := by
  intro t b r ht hn hr hv
  obtain ⟨r', k1, k2, k3⟩ := h t r ht
  exact hb t b r' k1 (by rw [k3]; exact hn) (k2 b hr) (h.value hv)

/-- If base classes come first, finiteness is kept. -/
structure Solid (w w' : World) : Prop where
  keep : HeadsKept w w'
  ends : BasesFirst w' → AllFinite w → AllFinite w'

theorem Solid.refl (w : World) : Solid w w := ⟨fun _ r h => ⟨r, h, fun _ h => h, rfl⟩, fun _ h => h⟩

theorem Solid.trans {a b c : World} (h : Solid a b) (g : Solid b c) : Solid a c := by
  refine ⟨fun t r ht => ?_, fun hn ha => g.ends hn (h.ends (g.keep.basesFirst hn) ha)⟩
  obtain ⟨r1, h1, h2, h3⟩ := h.keep t r ht
  obtain ⟨r2, g1, g2, g3⟩ := g.keep t r1 h1
  exact ⟨r2, g1, fun b hb => g2 b (h2 b hb), g3.trans h3⟩

/-- Types derived from `System.ValueType` do not change when no bases do. -/
theorem BasesKept.value_back {w w' : World} (hi : Inv w) (h : BasesKept w w') {t : Nat} (ht : t < w.types.length)
    (hv : OfValueType w' t) : OfValueType w t := by
  induction hv with
  | @here t r' h1 h2 =>
    obtain ⟨r2, k1, -, k3⟩ := h.keep t _ (List.getElem?_eq_getElem ht)
    rw [h1] at k1; cases k1
    exact .here (List.getElem?_eq_getElem ht) (k3.symm.trans h2)
  | @base t b r' h1 h2 _ ih =>
    obtain ⟨r2, k1, k2, -⟩ := h.keep t _ (List.getElem?_eq_getElem ht)
    rw [h1] at k1; cases k1
    have hb := k2.symm.trans h2
    exact .base (List.getElem?_eq_getElem ht) hb (ih (hi.base t _ (List.getElem?_eq_getElem ht) b hb))

theorem BasesKept.solid {w w' : World} (hi : Inv w) (h : BasesKept w w') (hf : ∀ u, fieldsOf w' u = fieldsOf w u) : Solid w w' := by
  refine ⟨fun t r ht => ?_, fun _ ha => ?_⟩
  · obtain ⟨r', h1, h2, h3⟩ := h.keep t r ht
    exact ⟨r', h1, fun b hb => h2.trans hb, h3⟩
  · have old : ∀ t, Acc (Part w) t → t < w.types.length → Acc (Part w') t := by
      intro t hacc
      induction hacc with
      | intro t _ ih =>
        intro ht
        obtain ⟨r', k1, k2, k3⟩ := h.keep t _ (List.getElem?_eq_getElem ht)
        refine ⟨t, fun u hu => ?_⟩
        cases hu with
        | base g1 g2 g3 =>
          rw [k1] at g1; cases g1
          have hb := k2.symm.trans g3
          exact ih u (.base (List.getElem?_eq_getElem ht) (by rw [← k3]; exact g2) hb) (hi.base t _ (List.getElem?_eq_getElem ht) u hb)
        | @field _ r f g1 g2 g3 g4 g5 =>
          rw [k1] at g1; cases g1
          have he := hf t
          rw [fieldsOf_eq k1, fieldsOf_eq (List.getElem?_eq_getElem ht)] at he
          rw [he] at g3
          have hl := (hi.fields t _ (List.getElem?_eq_getElem ht) f g3).1
          exact ih _ (.field (List.getElem?_eq_getElem ht) (by rw [← k3]; exact g2) g3 g4 (h.value_back hi hl g5)) hl
    intro t
    induction t using Nat.strongRecOn with
    | _ t ih =>
      intro ht
      rcases Nat.lt_or_ge t w.types.length with hl | hl
      · exact old t (ha t hl) hl
      · have htr := List.getElem?_eq_getElem ht
        refine ⟨t, fun u hu => ?_⟩
        cases hu with
        | base g1 _ g3 =>
          rw [htr] at g1; cases g1
          have := (h.news (mapIn_of_inv hi)).2 t _ u hl htr g3
          exact ih u this (by omega)
        | @field _ r f g1 _ g3 =>
          rw [htr] at g1; cases g1
          have he := hf t
          rw [fieldsOf_eq htr, fieldsOf, List.getElem?_eq_none hl] at he
          simp only at he
          rw [he] at g3
          cases g3

/-- If the code returns, its effect is solid. -/
def Firm (w : World) (x : M α) : Prop := Inv w → Returned (x w).1 → Solid w (x w).2

namespace Firm

variable {w : World}

theorem of_kept {x : M α} (h : BasesKeptM x) (hf : FieldsM (fun _ => False) x) : Firm w x :=
  fun hi _ => (h w).solid hi fun u => hf w u id

theorem bind {x : M α} {f : α → M β} {Q : α → World → Prop} (hr : Run cfg w x Q) (hx : Firm w x)
    (hf : ∀ a w1, Inv w1 → Q a w1 → Firm w1 (f a)) : Firm w (x >>= f) := by
  intro hi
  have h1 := hr hi
  have h2 := hx hi
  rw [M.bind_run]
  rcases e : x w with ⟨r, w1⟩
  rw [e] at h1 h2
  cases r with
  | ok a =>
    intro hret
    have hi1 := hi.steps h1.1
    exact (h2 (.ok a)).trans (hf a w1 hi1 (h1.2 a rfl) hi1 hret)
  | err m => intro hret; exact h2 (.err m)
  | panic => intro hret; exact nomatch hret
  | ub => intro hret; exact nomatch hret
  | timeout => intro hret; exact nomatch hret

theorem liftM_bind {x : Res α} {f : α → M β} (hf : ∀ a, x = .ok a → Firm w (f a)) : Firm w ((_root_.liftM x : M α) >>= f) := by
  intro hi
  rw [M.bind_run, M.liftM_run]
  cases x with
  | ok a => exact hf a rfl hi
  | err m => intro _; exact .refl _
  | panic => intro hret; exact nomatch hret
  | ub => intro hret; exact nomatch hret
  | timeout => intro hret; exact nomatch hret

theorem view_bind {g : World → Res α} {f : α → M β} (hf : ∀ a, g w = .ok a → Firm w (f a)) : Firm w (M.view g >>= f) :=
  liftM_bind (x := g w) hf

theorem pure (a : α) : Firm w (Pure.pure a : M α) := fun _ _ => .refl _

end Firm

/-! ## A size that was computed shows finiteness -/

theorem instanceOf_value {w : World} (hi : Inv w) {v : Nat} (hv : w.getType "System.ValueType".toList = some v) {fuel t : Nat}
    {b : Bool} (hl : OfValueType w t) (h : instanceOf w v fuel t = .ok b) : b = true := by
  obtain ⟨vr, v1, v2, -⟩ := (hi.getType_iff _ v).1 hv
  induction fuel generalizing t with
  | zero => cases h
  | succ fuel ih =>
    unfold instanceOf at h
    obtain ⟨tr, h1, h⟩ := Res.bind_eq_ok.1 h
    obtain ⟨o, h2, h⟩ := Res.bind_eq_ok.1 h
    rw [typeAt_eq_ok] at h1 h2
    rw [v1] at h2; cases h2
    cases hl with
    | here g1 g2 =>
      rw [h1] at g1; cases g1
      rw [if_pos (g2.trans v2.symm)] at h
      cases h; rfl
    | base g1 g2 g4 =>
      rw [h1] at g1; cases g1
      split at h
      · cases h; rfl
      · simp only [g2] at h
        exact ih g4 h

theorem isReferenceType_value {w : World} (hi : Inv w) {fuel t : Nat} {b : Bool} (hl : OfValueType w t)
    (h : isReferenceType w fuel t = .ok b) : b = false := by
  unfold isReferenceType at h
  obtain ⟨v, h1, h⟩ := Res.bind_eq_ok.1 h
  obtain ⟨c, h2, h⟩ := Res.bind_eq_ok.1 h
  rw [instanceOf_value hi (unwrap_eq_ok.1 h1) hl h2] at h
  cases h; rfl

theorem fieldsSize_parts {isRef : Nat → Res Bool} {size : Nat → Res Nat} (fs : List FieldRec) : ∀ {a s : Nat},
    fieldsSize cfg isRef size fs a = .ok s → ∀ f ∈ fs, ∃ b, isRef f.fieldType = .ok b ∧ (b = false → ∃ k, size f.fieldType = .ok k) := by
  induction fs with
  | nil => intro a s _ f hf; cases hf
  | cons f fs ih =>
    intro a s h g hg
    unfold fieldsSize at h
    obtain ⟨x, h1, h⟩ := Res.bind_eq_ok.1 h
    obtain ⟨y, h2, h⟩ := Res.bind_eq_ok.1 h
    rcases List.mem_cons.1 hg with rfl | hg
    · obtain ⟨b, h3, h1⟩ := Res.bind_eq_ok.1 h1
      refine ⟨b, h3, fun hb => ?_⟩
      rw [hb] at h1
      exact ⟨x, h1⟩
    · exact ih h g hg

theorem typeSize_finite {w : World} (hi : Inv w) (fuel : Nat) : ∀ (t s : Nat), typeSize cfg w fuel t = .ok s → Acc (Part w) t := by
  induction fuel with
  | zero => intro t s h; simp [typeSize] at h
  | succ fuel ih =>
    intro t s h
    unfold typeSize at h
    obtain ⟨tr, h1, h⟩ := Res.bind_eq_ok.1 h
    rw [typeAt_eq_ok] at h1
    obtain ⟨o, h2, h⟩ := Res.bind_eq_ok.1 h
    refine ⟨t, fun u hu => ?_⟩
    cases o with
    | some s' =>
      have hm := numberNames_eq ▸ primitiveSize_number hi _ h2
      cases hu with
      | base g1 g2 => rw [h1] at g1; cases g1; exact absurd hm g2
      | field g1 g2 => rw [h1] at g1; cases g1; exact absurd hm g2
    | none =>
      obtain ⟨a, h3, h⟩ := Res.bind_eq_ok.1 h
      cases hu with
      | base g1 _ g3 =>
        rw [h1] at g1; cases g1
        simp only [g3] at h
        obtain ⟨s2, h4, -⟩ := Res.bind_eq_ok.1 h
        exact ih u s2 h4
      | @field _ r f g1 _ g3 g4 g5 =>
        rw [h1] at g1; cases g1
        obtain ⟨b, k1, k2⟩ := fieldsSize_parts _ h3 f (by simp [List.mem_filter, g3, g4])
        obtain ⟨k, k3⟩ := k2 (isReferenceType_value hi g5 k1)
        exact ih _ k k3

/-! ## Setting a base -/

abbrev setBase (w : World) (t b : Nat) : World := w.updType t fun tr => { tr with base := some b }

theorem setBase_get {w : World} {t b v : Nat} (hv : v ≠ t) : (setBase w t b).types[v]? = w.types[v]? := by
  simp only [World.updType, getElem?_modify']
  rw [if_neg (fun h => hv h.symm)]

theorem setBase_self {w : World} {t b : Nat} {tr : TypeRec} (ht : w.types[t]? = some tr) :
    (setBase w t b).types[t]? = some { tr with base := some b } := by
  simp [World.updType, ht]

/-- Types that become value types when the base of `t` is set come after `t` and have no fields. -/
theorem setBase_new {w : World} {t b : Nat} {tr : TypeRec} (ht : w.types[t]? = some tr)
    (hf : ∀ u, t ≤ u → fieldsOf w u = []) (ho : BasesFirst (setBase w t b)) (hacc : Acc (Part (setBase w t b)) b) {u : Nat}
    (hv : OfValueType (setBase w t b) u) : OfValueType w u ∨ t ≤ u ∧ Acc (Part (setBase w t b)) u := by
  have self : Acc (Part (setBase w t b)) t := by
    refine ⟨t, fun v hv => ?_⟩
    cases hv with
    | base g1 _ g3 =>
      rw [setBase_self ht] at g1; cases g1
      cases g3; exact hacc
    | field g1 _ g3 =>
      rw [setBase_self ht] at g1; cases g1
      have := hf t (Nat.le_refl t)
      rw [fieldsOf_eq ht] at this
      rw [show ({ tr with base := some b } : TypeRec).fields = [] from this] at g3
      cases g3
  induction hv with
  | @here u r h1 h2 =>
    by_cases hu : u = t
    · exact .inr ⟨by omega, hu ▸ self⟩
    · rw [setBase_get hu] at h1
      exact .inl (.here h1 h2)
  | @base u c r h1 h2 hc ih =>
    by_cases hu : u = t
    · exact .inr ⟨by omega, hu ▸ self⟩
    · have h1' := h1
      rw [setBase_get hu] at h1'
      rcases ih with ih | ⟨i1, i2⟩
      · exact .inl (.base h1' h2 ih)
      · by_cases hn : r.fullName = "System.ValueType".toList
        · exact .inl (.here h1' hn)
        · have hlt := ho u c r h1 hn h2 hc
          refine .inr ⟨by omega, u, fun v hv => ?_⟩
          cases hv with
          | base g1 _ g3 =>
            rw [h1] at g1; cases g1
            rw [h2] at g3; cases g3
            exact i2
          | field g1 _ g3 =>
            rw [h1] at g1; cases g1
            have := hf u (by omega)
            rw [fieldsOf_eq h1'] at this
            rw [this] at g3
            cases g3

theorem setBase_solid {w : World} {t b : Nat} {tr : TypeRec} (ht : w.types[t]? = some tr) (hb : tr.base = none)
    (hf : ∀ u, t ≤ u → fieldsOf w u = []) (hacc : Acc (Part (setBase w t b)) b) : Solid w (setBase w t b) := by
  refine ⟨fun u r hu => ?_, fun ho ha => ?_⟩
  · by_cases hut : u = t
    · subst hut
      rw [ht] at hu; cases hu
      exact ⟨_, setBase_self ht, fun c hc => (by rw [hb] at hc; cases hc), rfl⟩
    · exact ⟨r, by rw [setBase_get hut, hu], fun _ h => h, rfl⟩
  · have self : Acc (Part (setBase w t b)) t := by
      refine ⟨t, fun v hv => ?_⟩
      cases hv with
      | base g1 _ g3 =>
        rw [setBase_self ht] at g1; cases g1
        cases g3; exact hacc
      | field g1 _ g3 =>
        rw [setBase_self ht] at g1; cases g1
        have := hf t (Nat.le_refl t)
        rw [fieldsOf_eq ht] at this
        rw [show ({ tr with base := some b } : TypeRec).fields = [] from this] at g3
        cases g3
    intro s hs
    have hacc0 := ha s (by simpa [World.updType] using hs)
    clear hs
    induction hacc0 with
    | intro s _ ih =>
      by_cases hst : s = t
      · exact hst ▸ self
      · refine ⟨s, fun v hv => ?_⟩
        cases hv with
        | base g1 g2 g3 =>
          rw [setBase_get hst] at g1
          exact ih v (.base g1 g2 g3)
        | field g1 g2 g3 g4 g5 =>
          rw [setBase_get hst] at g1
          rcases setBase_new ht hf ho hacc g5 with h | h
          · exact ih _ (.field g1 g2 g3 g4 h)
          · exact h.2

/-! ## Adding a field -/

abbrev addField (w : World) (t : Nat) (f : FieldRec) : World := w.updType t fun tr => { tr with fields := tr.fields ++ [f] }

theorem addField_bases (w : World) (t : Nat) (f : FieldRec) : BasesKept w (addField w t f) :=
  .updType w t _ (fun _ => rfl) fun _ => rfl

theorem addField_solid {w : World} {t : Nat} {f : FieldRec} (hi : Inv w) (hacc : Acc (Part (addField w t f)) f.fieldType) :
    Solid w (addField w t f) := by
  have hk := addField_bases w t f
  refine ⟨(hk.sound hi).keep, fun _ ha s hs => ?_⟩
  have hsl : s < w.types.length := by simpa [World.updType] using hs
  have hacc0 := ha s hsl
  clear hs
  induction hacc0 with
  | intro s _ ih =>
    refine ⟨s, fun v hv => ?_⟩
    have hs := List.getElem?_eq_getElem hsl
    by_cases hst : s = t
    · have hs' : (addField w t f).types[s]? = some { w.types[s]'hsl with fields := (w.types[s]'hsl).fields ++ [f] } := by
        subst hst; simp [World.updType, hs]
      cases hv with
      | base g1 g2 g3 =>
        rw [hs'] at g1; cases g1
        exact ih v (.base hs g2 g3) (hi.base s _ hs v g3)
      | @field _ _ f' g1 g2 g3 g4 g5 =>
        rw [hs'] at g1; cases g1
        rcases List.mem_append.1 g3 with g3 | g3
        · have hl := (hi.fields s _ hs _ g3).1
          exact ih _ (.field hs g2 g3 g4 (hk.value_back hi hl g5)) hl
        · rw [List.mem_singleton] at g3
          rw [g3]; exact hacc
    · have hs' : (addField w t f).types[s]? = some (w.types[s]'hsl) := by
        simp only [World.updType, getElem?_modify']
        rw [if_neg (fun h => hst h.symm), hs]
      cases hv with
      | base g1 g2 g3 =>
        rw [hs'] at g1; cases g1
        exact ih v (.base hs g2 g3) (hi.base s _ hs v g3)
      | field g1 g2 g3 g4 g5 =>
        rw [hs'] at g1; cases g1
        have hl := (hi.fields s _ hs _ g3).1
        exact ih _ (.field hs g2 g3 g4 (hk.value_back hi hl g5)) hl

theorem loadFields_firm (fuel t n : Nat) : ∀ i o w, Firm w (loadFields cfg fuel m t n i o) := by
  induction n with
  | zero => intro i o w; exact Firm.pure _
  | succ n ih =>
    intro i o w
    unfold loadFields
    refine Firm.bind (cfg := cfg) (loadField_run t i o) (Firm.of_kept (.of_grow (loadField_grow _ _ _)) (.of_grow (loadField_grow _ _ _)))
      fun f w1 hi1 h => ?_
    intro _ hret
    rw [M.modify_bind] at hret ⊢
    have hinv : Inv (addField w1 t f) := hi1.steps (.single (cfg := cfg) (.field w1 t f h.1 h.2.2.declaring))
    obtain ⟨s, g1, -⟩ := returned_view (g := fun w => typeSize cfg w fuel f.fieldType) (NoErr.typeSize _ _ _) hret
    refine (addField_solid hi1 (typeSize_finite hinv _ _ _ g1)).trans ?_
    refine (Firm.view_bind (g := fun w => typeSize cfg w fuel f.fieldType) fun s _ => Firm.liftM_bind fun o' _ => ?_) hinv hret
    exact Firm.bind (cfg := cfg) (loadFields_run fuel t n _ _ _) (ih _ _ _) fun _ _ _ _ => Firm.pure _

theorem resolveFields_firm (fuel t i : Nat) (w : World) : Firm w (resolveFields cfg fuel m t i) := by
  unfold resolveFields
  exact Firm.liftM_bind fun ⟨_, _⟩ _ => Firm.liftM_bind fun _ _ => Firm.liftM_bind fun _ _ => Firm.view_bind fun _ _ =>
    loadFields_firm _ _ _ _ _ _

theorem rest_firm (fuel t i : Nat) (w : World) :
    Firm w (do resolveKind cfg m t i; let fs ← resolveFields cfg fuel m t i; resolveMethods cfg m t i; pure fs : M _) := by
  refine Firm.bind (cfg := cfg) (resolveKind_run t i) (Firm.of_kept (resolveKind_bases t i) (resolveKind_fields t i)) fun _ w1 _ _ => ?_
  refine Firm.bind (cfg := cfg) (resolveFields_run fuel t i) (resolveFields_firm fuel t i w1) fun _ w2 _ _ => ?_
  exact Firm.bind (cfg := cfg) (resolveMethods_run t i) (Firm.of_kept (resolveMethods_bases t i) (resolveMethods_fields t i))
    fun _ _ _ _ => Firm.pure _

/-- Finite types were finite before, when only kinds change. -/
theorem finite_back {w w' : World} (h : HeadsKept w w') (hf : ∀ u, fieldsOf w' u = fieldsOf w u) {t : Nat} (ha : Acc (Part w') t) :
    Acc (Part w) t := by
  induction ha with
  | intro t _ ih =>
    refine ⟨t, fun u hu => ?_⟩
    cases hu with
    | base g1 g2 g3 =>
      obtain ⟨r', k1, k2, k3⟩ := h _ _ g1
      exact ih u (.base k1 (by rw [k3]; exact g2) (k2 _ g3))
    | field g1 g2 g3 g4 g5 =>
      obtain ⟨r', k1, k2, k3⟩ := h _ _ g1
      have he := hf t
      rw [fieldsOf_eq g1, fieldsOf_eq k1] at he
      exact ih _ (.field k1 (by rw [k3]; exact g2) (by rw [he]; exact g3) g4 (h.value g5))

/-- What follows `resolveBase` computes the size of the base before it can return. -/
theorem afterBase_finite {w : World} {fuel t i b : Nat} {tr : TypeRec} (hi : Inv w) (ht : w.types[t]? = some tr)
    (hb : tr.base = some b)
    (h : Returned ((do resolveKind cfg m t i; let fs ← resolveFields cfg fuel m t i; resolveMethods cfg m t i; pure fs : M _) w).1) :
    Acc (Part w) b := by
  have hr' : Returned ((resolveKind cfg m t i >>= fun _ => resolveFields cfg fuel m t i >>= fun fs =>
      resolveMethods cfg m t i >>= fun _ => pure fs : M _) w).1 := h
  have kq : BasesKept w (resolveKind cfg m t i w).2 := resolveKind_bases t i w
  have step : Returned (resolveFields cfg fuel m t i (resolveKind cfg m t i w).2).1 := by
    rcases returned_bind hr' with ⟨_, _, h2⟩ | ⟨e, h1⟩
    · rcases returned_bind h2 with ⟨fs, h3, -⟩ | ⟨e, h3⟩
      · rw [h3]; exact .ok _
      · rw [h3]; exact .err _
    · exfalso
      unfold resolveKind at h1
      have : Returned ((resolveKind cfg m t i) w).1 := by unfold resolveKind; rw [h1]; exact .err _
      unfold resolveKind at this
      obtain ⟨row, g1, g2⟩ := returned_liftM (NoErr.tableIndex _ _) this
      have nb : NoErr (w.baseName t) := by
        unfold World.baseName
        refine (NoErr.unwrap _).bind fun tr => ?_
        split
        · exact .pure _
        · exact (NoErr.unwrap _).bind fun _ => .pure _
      obtain ⟨n, g3, -⟩ := returned_view (g := (·.baseName t)) nb g2
      rw [M.liftM_bind_ok g1, M.view_bind_ok g3] at h1
      simp at h1
  unfold resolveFields at step
  obtain ⟨⟨s, n⟩, g1, step⟩ := returned_liftM (NoErr.ownedRun _ _ _) step
  obtain ⟨_, g2, step⟩ := returned_liftM (fun e => by unfold reserveRun; split <;> simp) step
  obtain ⟨_, g3, step⟩ := returned_liftM (NoErr.uadd _ _ _) step
  obtain ⟨o, g4, -⟩ := returned_view (NoErr.baseSize _ _ _) step
  obtain ⟨r2, k1, k2, k3⟩ := kq.keep t tr ht
  have ki : Inv (resolveKind cfg m t i w).2 := hi.steps (resolveKind_run (cfg := cfg) (m := m) t i hi).1
  unfold baseSize at g4
  rw [typeAt_eq_ok.mpr k1, Res.ok_bind, k2, hb] at g4
  exact finite_back (kq.sound hi).keep (fun u => resolveKind_fields (S := fun _ => False) t i w u id) (typeSize_finite ki fuel b o g4)

theorem resolveType_firm {w : World} (fuel t i : Nat) {tr : TypeRec} (ht : w.types[t]? = some tr) (hb : tr.base = none)
    (hf : ∀ u, t ≤ u → fieldsOf w u = []) : Firm w (resolveType cfg fuel m t i) := by
  intro hi hret
  have hinv := (resolveBase_run (cfg := cfg) (m := m) t i hi).1
  have cases3 : (∃ e, resolveBase cfg m t i w = (.err e, w)) ∨ resolveBase cfg m t i w = (.ok (), w) ∨
      (∃ b, resolveBase cfg m t i w = (.ok (), w.updType t fun tr => { tr with base := some b })) ∨
      ¬ Returned (resolveBase cfg m t i w).1 := by
    unfold resolveBase
    rw [M.bind_run, M.liftM_run]
    cases tableIndex cfg m.tables.typeDef (i + 1) with
    | ok row =>
      dsimp only
      split
      · exact .inr (.inl rfl)
      · rw [M.bind_run, M.liftM_run]
        cases typeDefOrRefName cfg m row.baseType.typeDefOrRef with
        | ok n =>
          dsimp only
          rw [M.bind_run, M.view_run]
          cases Res.ofOption "Unable to find base type" (n.bind w.getType) with
          | ok b => exact .inr (.inr (.inl ⟨b, rfl⟩))
          | err e => exact .inl ⟨e, rfl⟩
          | _ => exact .inr (.inr (.inr fun h => nomatch h))
        | err e => exact .inl ⟨e, rfl⟩
        | _ => exact .inr (.inr (.inr fun h => nomatch h))
    | err e => exact .inl ⟨e, rfl⟩
    | _ => exact .inr (.inr (.inr fun h => nomatch h))
  unfold resolveType at hret ⊢
  rcases cases3 with ⟨e, h⟩ | h | ⟨b, h⟩ | h
  · rw [M.bind_run, h]; exact .refl w
  · rw [M.bind_ok h] at hret ⊢; exact rest_firm fuel t i w hi hret
  · rw [M.bind_ok h] at hret ⊢
    rw [h] at hinv
    have hi1 := hi.steps hinv
    have ha := afterBase_finite (cfg := cfg) (m := m) (fuel := fuel) (t := t) (i := i) (b := b) (tr := { tr with base := some b }) hi1
      (setBase_self ht) rfl hret
    exact (setBase_solid ht hb hf ha).trans (rest_firm fuel t i _ hi1 hret)
  · rcases returned_bind hret with ⟨a, h1, -⟩ | ⟨e, h1⟩
    · rw [h1] at h; exact absurd (.ok _) h
    · rw [h1] at h; exact absurd (.err _) h

theorem resolveTypes_firm (fuel n : Nat) : ∀ (s i : Nat) (w : World),
    (∀ t ∈ List.range' s n, ∃ tr, w.types[t]? = some tr ∧ tr.base = none) → (∀ u, s ≤ u → fieldsOf w u = []) →
    Firm w (resolveTypes cfg fuel m (List.range' s n) i) := by
  induction n with
  | zero => intro s i w _ _; exact Firm.pure _
  | succ n ih =>
    intro s i w hb hf
    rw [List.range'_succ] at hb ⊢
    obtain ⟨tr, t1, t2⟩ := hb s (by simp)
    have o1 := resolveType_touch (cfg := cfg) (m := m) fuel s i w
    unfold resolveTypes
    refine Firm.bind (cfg := cfg) (Q := fun _ w1 => w1 = (resolveType cfg fuel m s i w).2)
      (fun hi => ⟨(resolveType_run (cfg := cfg) (m := m) fuel s i hi).1, fun _ _ => rfl⟩) (resolveType_firm fuel s i t1 t2 hf) ?_
    rintro a w1 hi1 rfl
    refine Firm.bind (cfg := cfg) (resolveTypes_run fuel _ _ _) (ih _ _ _ (fun u hu => ?_) fun u hu => ?_) fun _ _ _ _ => Firm.pure _
    · obtain ⟨ur, u1, u2⟩ := hb u (by simp [hu])
      refine ⟨ur, ?_, u2⟩
      rw [o1.types u (List.getElem?_eq_some_iff.1 u1).1 (fun h => by simp [List.mem_range'_1] at hu; omega), u1]
    · rw [resolveType_fields (cfg := cfg) (m := m) fuel s i w u (by omega)]
      exact hf u (by omega)

theorem fieldsOf_beyond {w : World} {u : Nat} (h : w.types.length ≤ u) : fieldsOf w u = [] := by
  unfold fieldsOf; rw [List.getElem?_eq_none h]

theorem loadSelf_firm {w : World} (fuel : Nat) (name : Name) : Firm w (loadSelf cfg fuel m name) := by
  unfold loadSelf
  refine Firm.bind (cfg := cfg) (loadMemberRefs_run _) (Firm.of_kept (loadMemberRefs_bases _) (loadMemberRefs_fields _)) fun _ w1 _ _ => ?_
  refine Firm.bind (cfg := cfg) (loadTypeRefs_run _) (Firm.of_kept (loadTypeRefs_bases _) (loadTypeRefs_fields _)) fun _ w2 _ _ => ?_
  refine Firm.view_bind fun id _ => ?_
  refine Firm.bind (cfg := cfg) (Q := fun _ _ => True) (Run.modify (.assemblyId w2) True.intro)
    (Firm.of_kept (fun w => .of_types rfl rfl) fun w u _ => fieldsOf_types rfl u) fun _ w3 i3 _ => ?_
  refine Firm.bind (cfg := cfg) (Q := fun ts w4 => loadTypes cfg id m m.tables.typeDef.length 0 w3 = (.ok ts, w4))
    (fun hi => ⟨(loadTypes_run (cfg := cfg) (m := m) _ _ w3 _ hi).1, fun a ha => Prod.ext ha rfl⟩)
    (Firm.of_kept (loadTypes_bases _ _ _) (loadTypes_fields _ _ _)) fun ts w4 i4 h4 => ?_
  obtain ⟨n1, n2⟩ := loadTypes_bare _ _ _ _ _ _ i3 h4
  have hr := loadTypes_run (cfg := cfg) (m := m) id m.tables.typeDef.length w3 0 i3
  have hff : ∀ u, w3.types.length ≤ u → fieldsOf w4 u = [] := by
    intro u hu
    have := loadTypes_fields (cfg := cfg) (m := m) (S := fun _ => False) id m.tables.typeDef.length 0 w3 u _root_.id
    rw [h4] at this
    exact this.trans (fieldsOf_beyond hu)
  rw [h4] at hr
  obtain ⟨rfl, -⟩ := hr.2 ts rfl
  refine Firm.bind (cfg := cfg) (resolveTypes_run _ _ w4 _) (resolveTypes_firm _ _ _ _ _ n2 hff) fun _ w5 _ _ => ?_
  refine Firm.of_kept ?_ ?_
  · refine (loadInterfaces_bases _).bind fun _ => BasesKeptM.view_bind fun _ => BasesKeptM.liftM_bind fun _ => ?_
    exact BasesKeptM.bind (fun w => .of_types rfl rfl) fun _ => BasesKeptM.pure _
  · refine (loadInterfaces_fields _).bind fun _ => FieldsM.view_bind fun _ => FieldsM.liftM_bind fun _ => ?_
    exact FieldsM.bind (fun w u _ => fieldsOf_types rfl u) fun _ => FieldsM.pure _

theorem loadRefs_firm {load : Name → M AssemblyRec} (hr : ∀ n w, Run cfg w (load n) fun _ _ => True) (hl : ∀ n w, Firm w (load n))
    (rows : List AssemblyRefRow) : ∀ w, Firm w (loadRefs load m rows) := by
  induction rows with
  | nil => intro w; exact Firm.pure _
  | cons row rows ih =>
    intro w
    unfold loadRefs
    refine Firm.liftM_bind fun _ _ => Firm.liftM_bind fun n _ => Firm.view_bind fun b _ => ?_
    split
    · exact ih w
    · exact Firm.bind (cfg := cfg) (hr n w) (hl n w) fun _ w1 _ _ => ih w1

theorem loadData_firm (fs : Name → Option Bytes) (depth : Nat) : ∀ fuel data w, Firm w (loadData cfg fs depth fuel data) := by
  induction depth with
  | zero => intro fuel data w hi hret; exact nomatch hret
  | succ d ih =>
    intro fuel data w
    unfold loadData
    refine Firm.liftM_bind fun m _ => Firm.liftM_bind fun _ _ => Firm.liftM_bind fun _ _ => ?_
    refine Firm.bind (cfg := cfg) (loadRefs_run (fun n w => Run.liftM_bind fun d _ => loadData_run _ _ _ _ _) _ w)
      (loadRefs_firm (fun n w => Run.liftM_bind fun d _ => loadData_run _ _ _ _ _)
        (fun n w => Firm.liftM_bind fun d _ => ih _ _ _) _ w) fun _ _ _ _ => loadSelf_firm _ _

theorem loadAssembly_firm (fs : Name → Option Bytes) (depth fuel : Nat) (n : Name) (w : World) :
    Firm w (loadAssembly cfg fs depth fuel n) := by
  unfold loadAssembly
  exact Firm.liftM_bind fun d _ => loadData_firm _ _ _ _ _

theorem newRuntime_firm (fs : Name → Option Bytes) (depth fuel : Nat) (a b : Bytes) (w : World) :
    Firm w (newRuntime cfg fs depth fuel a b) := by
  unfold newRuntime
  refine Firm.bind (cfg := cfg) (loadData_run _ _ _ _ _) (loadData_firm _ _ _ _ _) fun _ w1 _ _ => ?_
  refine Firm.bind (cfg := cfg) (loadData_run _ _ _ _ _) (loadData_firm _ _ _ _ _) fun _ w2 _ _ => ?_
  unfold loadPrimitives getTypeUnwrap
  refine Firm.of_kept ?_ ?_
  · iterate 11 refine BasesKeptM.view_bind fun _ => ?_
    exact fun w => .of_types rfl rfl
  · iterate 11 refine FieldsM.view_bind fun _ => ?_
    exact fun w u _ => fieldsOf_types rfl u

end Clr
