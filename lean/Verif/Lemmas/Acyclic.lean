import Verif.Lemmas.Loading
import Verif.Spec.Returned
/-! # Base chains of loaded types end -/

namespace Clr
open Spec

variable {cfg : Cfg} {m : Metadata} {α β : Type}

/-! ## Code that leaves base classes alone -/

/-- Base classes and names are kept, new types have no base or an earlier one. -/
structure BasesKept (w w' : World) : Prop where
  keep : ∀ (t : Nat) r, w.types[t]? = some r → ∃ r', w'.types[t]? = some r' ∧ r'.base = r.base ∧ r'.fullName = r.fullName
  le : w.types.length ≤ w'.types.length
  news : (∀ p ∈ w.typeMap, p.2 < w.types.length) → (∀ p ∈ w'.typeMap, p.2 < w'.types.length) ∧
    ∀ (i : Nat) t c, w.types.length ≤ i → w'.types[i]? = some t → t.base = some c → c < i

theorem BasesKept.of_types {w w' : World} (h : w'.types = w.types) (g : w'.typeMap = w.typeMap) : BasesKept w w' :=
  ⟨fun t r ht => ⟨r, by rw [h, ht], rfl, rfl⟩, by rw [h]; exact Nat.le_refl _, fun hm => ⟨by rw [h, g]; exact hm, fun i t c hi ht => by
    rw [h] at ht; have := (List.getElem?_eq_some_iff.1 ht).1; omega⟩⟩

theorem BasesKept.refl (w : World) : BasesKept w w := .of_types rfl rfl

theorem BasesKept.trans {a b c : World} (h : BasesKept a b) (g : BasesKept b c) : BasesKept a c := by
  refine ⟨fun t r ht => ?_, Nat.le_trans h.le g.le, fun hm => ?_⟩
  · obtain ⟨r1, h1, h2, h3⟩ := h.keep t r ht
    obtain ⟨r2, g1, g2, g3⟩ := g.keep t r1 h1
    exact ⟨r2, g1, g2.trans h2, g3.trans h3⟩
  · obtain ⟨h1, h2⟩ := h.news hm
    obtain ⟨g1, g2⟩ := g.news h1
    refine ⟨g1, fun i t d hi ht hb => ?_⟩
    rcases Nat.lt_or_ge i b.types.length with hl | hl
    · obtain ⟨r', k1, k2, -⟩ := g.keep i _ (List.getElem?_eq_getElem hl)
      rw [ht] at k1; cases k1
      exact h2 i _ d hi (List.getElem?_eq_getElem hl) (k2.symm.trans hb)
    · exact g2 i t d hl ht hb

theorem Adds.basesKept {w w' : World} (h : Adds w w') : BasesKept w w' :=
  ⟨fun _ r ht => ⟨r, h.get ht, rfl, rfl⟩, h.le, h.bases⟩

theorem BasesKept.updType (w : World) (t : Nat) (f : TypeRec → TypeRec) (hb : ∀ r, (f r).base = r.base)
    (hn : ∀ r, (f r).fullName = r.fullName) : BasesKept w (w.updType t f) := by
  refine ⟨fun u r hu => ?_, by simp [World.updType], fun hm => ⟨by simpa [World.updType] using hm, fun i r c hi hr => ?_⟩⟩
  · simp only [World.updType, getElem?_modify', hu]
    split
    · exact ⟨f r, rfl, hb r, hn r⟩
    · exact ⟨r, rfl, rfl, rfl⟩
  · have := (List.getElem?_eq_some_iff.1 hr).1
    simp [World.updType] at this
    omega

/-- The code is quiet, whatever its outcome. -/
def BasesKeptM (x : M α) : Prop := ∀ w, BasesKept w (x w).2

namespace BasesKeptM

theorem of_grow {x : M α} (h : Grow x) : BasesKeptM x := fun w => (h w).basesKept
theorem pure (a : α) : BasesKeptM (Pure.pure a : M α) := of_grow (.pure a)
theorem view (f : World → Res α) : BasesKeptM (M.view f) := of_grow (.view f)
theorem lift (x : Res α) : BasesKeptM (M.lift x) := of_grow (.lift x)
theorem bind {x : M α} {f : α → M β} (hx : BasesKeptM x) (hf : ∀ a, BasesKeptM (f a)) : BasesKeptM (x >>= f) := by
  intro w
  rw [M.bind_run]
  have h := hx w
  rcases e : x w with ⟨r, w1⟩
  rw [e] at h
  cases r with
  | ok a => exact h.trans (hf a w1)
  | _ => exact h
theorem liftM_bind {x : Res α} {f : α → M β} (hf : ∀ a, BasesKeptM (f a)) : BasesKeptM ((_root_.liftM x : M α) >>= f) :=
  (of_grow (.liftM x)).bind hf
theorem view_bind {g : World → Res α} {f : α → M β} (hf : ∀ a, BasesKeptM (f a)) : BasesKeptM (M.view g >>= f) :=
  (of_grow (.view g)).bind hf
theorem updType (t : Nat) (f : TypeRec → TypeRec) (hb : ∀ r, (f r).base = r.base) (hn : ∀ r, (f r).fullName = r.fullName) :
    BasesKeptM (M.modify (·.updType t f)) := fun w => BasesKept.updType w t f hb hn

end BasesKeptM

theorem resolveKind_bases (t i : Nat) : BasesKeptM (resolveKind cfg m t i) := by
  unfold resolveKind
  exact BasesKeptM.liftM_bind fun _ => BasesKeptM.view_bind fun _ => BasesKeptM.updType _ _ (fun _ => rfl) fun _ => rfl

theorem loadFields_bases (fuel t n : Nat) : ∀ i o, BasesKeptM (loadFields cfg fuel m t n i o) := by
  induction n with
  | zero => intro i o; exact BasesKeptM.pure _
  | succ n ih =>
    intro i o
    unfold loadFields
    refine (BasesKeptM.of_grow (loadField_grow _ _ _)).bind fun _ => BasesKeptM.bind ?_ fun _ =>
      BasesKeptM.view_bind fun _ => BasesKeptM.liftM_bind fun _ => (ih _ _).bind fun _ => BasesKeptM.pure _
    exact BasesKeptM.updType _ _ (fun _ => rfl) fun _ => rfl

theorem loadMethods_bases (t n : Nat) : ∀ i, BasesKeptM (loadMethods cfg m t n i) := by
  induction n with
  | zero => intro i; exact BasesKeptM.pure _
  | succ n ih =>
    intro i
    unfold loadMethods
    refine (BasesKeptM.of_grow (loadMethod_grow _ _)).bind fun _ => BasesKeptM.bind ?_ fun _ => ih _
    exact BasesKeptM.updType _ _ (fun _ => rfl) fun _ => rfl

theorem resolveMethods_bases (t i : Nat) : BasesKeptM (resolveMethods cfg m t i) := by
  unfold resolveMethods
  exact BasesKeptM.liftM_bind fun ⟨_, _⟩ => BasesKeptM.liftM_bind fun _ => BasesKeptM.liftM_bind fun _ => loadMethods_bases _ _ _

theorem nextTypeId_bases : BasesKeptM (nextTypeId cfg) := by
  unfold nextTypeId
  exact BasesKeptM.view_bind fun _ => BasesKeptM.liftM_bind fun _ => BasesKeptM.bind (fun w => .of_types rfl rfl) fun _ => BasesKeptM.pure _

theorem loadType_bases (a i : Nat) : BasesKeptM (loadType cfg a i m) := by
  unfold loadType
  refine BasesKeptM.liftM_bind fun row => BasesKeptM.liftM_bind fun _ => BasesKeptM.liftM_bind fun _ => nextTypeId_bases.bind fun id =>
    BasesKeptM.view_bind fun t => BasesKeptM.bind (fun w => ?_) fun _ => BasesKeptM.pure _
  simp only [M.modify_run, World.addType]
  refine ⟨fun t r ht => ⟨r, ?_, rfl, rfl⟩, by simp, fun hm => ⟨fun p hp => ?_, fun i t c hi ht hb => ?_⟩⟩
  · rw [List.getElem?_append_left (List.getElem?_eq_some_iff.1 ht).1, ht]
  · simp only [List.mem_cons, List.length_append, List.length_singleton] at hp ⊢
    rcases hp with rfl | hp
    · simp
    · have := hm p hp; omega
  · rw [List.getElem?_append_right hi, List.getElem?_singleton] at ht
    split at ht
    · cases ht; cases hb
    · cases ht

theorem loadTypes_bases (a n : Nat) : ∀ i, BasesKeptM (loadTypes cfg a m n i) := by
  induction n with
  | zero => intro i; exact BasesKeptM.pure _
  | succ n ih =>
    intro i
    unfold loadTypes
    exact (loadType_bases _ _).bind fun _ => (ih _).bind fun _ => BasesKeptM.pure _

theorem lookupRow_bases (n ns : Nat) : BasesKeptM (lookupRow m n ns) := by
  unfold lookupRow
  exact BasesKeptM.liftM_bind fun _ => BasesKeptM.liftM_bind fun _ => BasesKeptM.view _

theorem loadInterface_bases (row : InterfaceImplRow) : BasesKeptM (loadInterface cfg m row) := by
  unfold loadInterface
  exact BasesKeptM.liftM_bind fun _ => (lookupRow_bases _ _).bind fun _ => BasesKeptM.liftM_bind fun _ => BasesKeptM.liftM_bind fun ⟨_, _⟩ =>
    (lookupRow_bases _ _).bind fun _ => BasesKeptM.liftM_bind fun _ => BasesKeptM.updType _ _ (fun _ => rfl) fun _ => rfl

theorem loadInterfaces_bases (rows : List InterfaceImplRow) : BasesKeptM (loadInterfaces cfg m rows) := by
  induction rows with
  | nil => exact BasesKeptM.pure _
  | cons row rows ih => unfold loadInterfaces; exact (loadInterface_bases row).bind fun _ => ih

theorem loadMemberRef_bases (row : MemberRefRow) : BasesKeptM (loadMemberRef cfg m row) := by
  unfold loadMemberRef
  split
  · exact BasesKeptM.liftM_bind fun _ => (lookupRow_bases _ _).bind fun _ => BasesKeptM.liftM_bind fun _ => BasesKeptM.liftM_bind fun _ =>
      BasesKeptM.liftM_bind fun _ => BasesKeptM.view_bind fun _ => BasesKeptM.liftM_bind fun _ => BasesKeptM.pure _
  · exact BasesKeptM.pure _

theorem loadMemberRefs_bases (rows : List MemberRefRow) : BasesKeptM (loadMemberRefs cfg m rows) := by
  induction rows with
  | nil => exact BasesKeptM.pure _
  | cons row rows ih => unfold loadMemberRefs; exact (loadMemberRef_bases row).bind fun _ => ih.bind fun _ => BasesKeptM.pure _

theorem loadTypeRefs_bases (rows : List TypeRefRow) : BasesKeptM (loadTypeRefs m rows) := by
  induction rows with
  | nil => exact BasesKeptM.pure _
  | cons row rows ih =>
    unfold loadTypeRefs
    exact (lookupRow_bases _ _).bind fun _ => BasesKeptM.liftM_bind fun _ => ih.bind fun _ => BasesKeptM.pure _

/-! ## Steps that keep base chains finite -/

def AllEnd (w : World) : Prop := ∀ t, t < w.types.length → ChainEnds w t

def NumbersEnd (w : World) : Prop := ∀ (t : Nat) r, w.types[t]? = some r → r.fullName ∈ numberNames → ChainEnds w t

/-- Base classes once set are kept, and if the chains of the number types end, so do all chains. -/
structure Sound (w w' : World) : Prop where
  keep : ∀ (t : Nat) r, w.types[t]? = some r → ∃ r', w'.types[t]? = some r' ∧ (∀ b, r.base = some b → r'.base = some b) ∧
    r'.fullName = r.fullName
  ends : NumbersEnd w' → AllEnd w → AllEnd w'

theorem Sound.refl (w : World) : Sound w w := ⟨fun _ r h => ⟨r, h, fun _ h => h, rfl⟩, fun _ h => h⟩

/-- Chains that end later end now. -/
theorem chainEnds_back {w w' : World} (hi : Inv w)
    (hk : ∀ (t : Nat) r, w.types[t]? = some r → ∃ r', w'.types[t]? = some r' ∧ (∀ b, r.base = some b → r'.base = some b) ∧
      r'.fullName = r.fullName) {t : Nat} (ht : t < w.types.length) (h : ChainEnds w' t) : ChainEnds w t := by
  obtain ⟨n, h⟩ := h
  have htr := List.getElem?_eq_getElem ht
  induction h with
  | @root t r' h1 h2 =>
    obtain ⟨r2, k1, k2, -⟩ := hk t _ htr
    rw [h1] at k1; cases k1
    cases hb : (w.types[t]'ht).base with
    | none => exact ⟨0, .root htr hb⟩
    | some b => rw [k2 b hb] at h2; cases h2
  | @link t b n r' h1 h2 _ ih =>
    obtain ⟨r2, k1, k2, -⟩ := hk t _ htr
    rw [h1] at k1; cases k1
    cases hb : (w.types[t]'ht).base with
    | none => exact ⟨0, .root htr hb⟩
    | some c =>
      rw [k2 c hb] at h2; cases h2
      have hc := hi.base t _ htr _ hb
      obtain ⟨n, h⟩ := ih hc (List.getElem?_eq_getElem hc)
      exact ⟨n + 1, .link htr hb h⟩

theorem Sound.trans {a b c : World} (hi : Inv b) (h : Sound a b) (g : Sound b c) : Sound a c := by
  refine ⟨fun t r ht => ?_, fun hn ha => ?_⟩
  · obtain ⟨r1, h1, h2, h3⟩ := h.keep t r ht
    obtain ⟨r2, g1, g2, g3⟩ := g.keep t r1 h1
    exact ⟨r2, g1, fun b hb => g2 b (h2 b hb), g3.trans h3⟩
  · refine g.ends hn (h.ends (fun t r ht hm => ?_) ha)
    obtain ⟨r1, g1, -, g3⟩ := g.keep t r ht
    exact chainEnds_back hi g.keep (List.getElem?_eq_some_iff.1 ht).1 (hn t r1 g1 (by rw [g3]; exact hm))

theorem mapIn_of_inv {w : World} (hi : Inv w) : ∀ p ∈ w.typeMap, p.2 < w.types.length := by
  have aux : ∀ (l : List TypeRec) k, ∀ p ∈ mapOf l k, p.2 < k + l.length := by
    intro l
    induction l with
    | nil => intro k p hp; simp [mapOf] at hp
    | cons t l ih =>
      intro k p hp
      rw [mapOf, List.mem_append, List.mem_singleton] at hp
      rcases hp with hp | rfl
      · have := ih (k + 1) p hp; simp; omega
      · simp
  intro p hp
  rw [hi.map] at hp
  simpa using aux _ _ p hp

theorem BasesKept.sound {w w' : World} (hi : Inv w) (h : BasesKept w w') : Sound w w' := by
  refine ⟨fun t r ht => ?_, fun _ ha => ?_⟩
  · obtain ⟨r', h1, h2, h3⟩ := h.keep t r ht
    exact ⟨r', h1, fun b hb => h2.trans hb, h3⟩
  · have old : ∀ t n, Depth w t n → Depth w' t n := by
      intro t n hd
      induction hd with
      | root h1 h2 =>
        obtain ⟨r', k1, k2, -⟩ := h.keep _ _ h1
        exact .root k1 (k2.trans h2)
      | link h1 h2 _ ih =>
        obtain ⟨r', k1, k2, -⟩ := h.keep _ _ h1
        exact .link k1 (k2.trans h2) ih
    intro t
    induction t using Nat.strongRecOn with
    | _ t ih =>
      intro ht
      rcases Nat.lt_or_ge t w.types.length with hl | hl
      · obtain ⟨n, hn⟩ := ha t hl
        exact ⟨n, old t n hn⟩
      · have htr := List.getElem?_eq_getElem ht
        cases hb : (w'.types[t]'ht).base with
        | none => exact ⟨0, .root htr hb⟩
        | some c =>
          have hc := (h.news (mapIn_of_inv hi)).2 t _ c hl htr hb
          obtain ⟨n, hn⟩ := ih c hc (by omega)
          exact ⟨n + 1, .link htr hb hn⟩

/-- If the code returns, its effect is sound. -/
def Act (w : World) (x : M α) : Prop := Inv w → Returned (x w).1 → Sound w (x w).2

namespace Act

variable {w : World}

theorem of_bases {x : M α} (h : BasesKeptM x) : Act w x := fun hi _ => (h w).sound hi

theorem bind {x : M α} {f : α → M β} {Q : α → World → Prop} (hr : Run cfg w x Q) (hx : Act w x)
    (hf : ∀ a w1, Inv w1 → Q a w1 → Act w1 (f a)) : Act w (x >>= f) := by
  intro hi
  have h1 := hr hi
  have h2 := hx hi
  rw [M.bind_run]
  rcases e : x w with ⟨r, w1⟩
  rw [e] at h1 h2
  cases r with
  | ok a =>
    intro hret
    have hi1 := hi.steps h1.1
    exact (h2 (.ok a)).trans hi1 (hf a w1 hi1 (h1.2 a rfl) hi1 hret)
  | err m => intro hret; exact h2 (.err m)
  | panic => intro hret; exact nomatch hret
  | ub => intro hret; exact nomatch hret
  | timeout => intro hret; exact nomatch hret

theorem liftM_bind {x : Res α} {f : α → M β} (hf : ∀ a, x = .ok a → Act w (f a)) : Act w ((_root_.liftM x : M α) >>= f) := by
  intro hi
  rw [M.bind_run, M.liftM_run]
  cases x with
  | ok a => exact hf a rfl hi
  | err m => intro _; exact .refl _
  | panic => intro hret; exact nomatch hret
  | ub => intro hret; exact nomatch hret
  | timeout => intro hret; exact nomatch hret

theorem view_bind {g : World → Res α} {f : α → M β} (hf : ∀ a, g w = .ok a → Act w (f a)) : Act w (M.view g >>= f) :=
  liftM_bind (x := g w) hf

end Act

/-! ## A size that was computed needs an end -/

theorem primitiveSize_number {w : World} (hi : Inv w) {full : Name} (l : List (Name × Nat)) {s : Nat}
    (h : primitiveSize w full l = .ok (some s)) : full ∈ l.map (·.1) := by
  induction l with
  | nil => simp [primitiveSize] at h
  | cons p l ih =>
    obtain ⟨n, k⟩ := p
    unfold primitiveSize at h
    obtain ⟨t, h1, h⟩ := Res.bind_eq_ok.1 h
    obtain ⟨tr, h2, h⟩ := Res.bind_eq_ok.1 h
    split at h
    · next e =>
      obtain ⟨r, g1, g2, -⟩ := (hi.getType_iff n t).1 (unwrap_eq_ok.1 h1)
      rw [typeAt_eq_ok.1 h2] at g1; cases g1
      rw [e, g2]; simp
    · simp only [List.map_cons, List.mem_cons]; exact .inr (ih h)

theorem numberNames_eq : primitiveSizes.map (·.1) = numberNames := rfl

theorem typeSize_ends {w : World} (hi : Inv w) (hn : NumbersEnd w) (fuel : Nat) : ∀ (t s : Nat), typeSize cfg w fuel t = .ok s →
    ChainEnds w t := by
  induction fuel with
  | zero => intro t s h; simp [typeSize] at h
  | succ fuel ih =>
    intro t s h
    unfold typeSize at h
    obtain ⟨tr, h1, h⟩ := Res.bind_eq_ok.1 h
    rw [typeAt_eq_ok] at h1
    obtain ⟨o, h2, h⟩ := Res.bind_eq_ok.1 h
    cases o with
    | some s' => exact hn t tr h1 (numberNames_eq ▸ primitiveSize_number hi _ h2)
    | none =>
      obtain ⟨a, h3, h⟩ := Res.bind_eq_ok.1 h
      cases hb : tr.base with
      | none => exact ⟨0, .root h1 hb⟩
      | some b =>
        simp only [hb] at h
        obtain ⟨s2, h4, -⟩ := Res.bind_eq_ok.1 h
        obtain ⟨n, hd⟩ := ih b s2 h4
        exact ⟨n + 1, .link h1 hb hd⟩

/-! ## Sizes never report errors -/

def NoErr (x : Res α) : Prop := ∀ e, x ≠ .err e

theorem NoErr.bind {x : Res α} {f : α → Res β} (hx : NoErr x) (hf : ∀ a, NoErr (f a)) : NoErr (x >>= f) := by
  intro e
  cases x with
  | ok a => exact hf a e
  | err m => exact absurd rfl (hx m)
  | _ => simp
theorem NoErr.pure (a : α) : NoErr (Pure.pure a : Res α) := fun e => by simp [Pure.pure]
theorem NoErr.unwrap (o : Option α) : NoErr (Res.unwrap o) := fun e => by cases o <;> simp [Res.unwrap]
theorem NoErr.uadd (b x y : Nat) : NoErr (uadd cfg b x y) := fun e => by unfold Clr.uadd; split <;> (try split) <;> simp
theorem NoErr.usub (b x y : Nat) : NoErr (usub cfg b x y) := fun e => by unfold Clr.usub; split <;> (try split) <;> simp
theorem NoErr.timeout : NoErr (.timeout : Res α) := fun e => by simp

theorem NoErr.tableIndex (rows : List α) (k : Nat) : NoErr (tableIndex cfg rows k) := by
  unfold Clr.tableIndex
  exact (NoErr.usub _ _ _).bind fun _ => .unwrap _

theorem NoErr.mapM {f : α → Res β} (hf : ∀ a, NoErr (f a)) (l : List α) : NoErr (l.mapM f) := by
  induction l with
  | nil => rw [List.mapM_nil]; exact .pure _
  | cons a l ih => rw [List.mapM_cons]; exact (hf a).bind fun _ => ih.bind fun _ => .pure _

theorem NoErr.instanceOf (w : World) (o fuel : Nat) : ∀ t, NoErr (instanceOf w o fuel t) := by
  induction fuel with
  | zero => intro t; exact .timeout
  | succ fuel ih =>
    intro t
    unfold Clr.instanceOf
    refine (NoErr.unwrap _).bind fun tr => (NoErr.unwrap _).bind fun o => ?_
    split
    · exact .pure _
    · split
      · exact ih _
      · exact (NoErr.mapM (fun _ => .unwrap _) _).bind fun _ => .pure _

theorem NoErr.isReferenceType (w : World) (fuel t : Nat) : NoErr (isReferenceType w fuel t) := by
  unfold Clr.isReferenceType
  exact (NoErr.unwrap _).bind fun _ => (NoErr.instanceOf _ _ _ _).bind fun _ => .pure _

theorem NoErr.primitiveSize (w : World) (full : Name) (l : List (Name × Nat)) : NoErr (primitiveSize w full l) := by
  induction l with
  | nil => intro e; simp [Clr.primitiveSize]
  | cons p l ih =>
    unfold Clr.primitiveSize
    refine (NoErr.unwrap _).bind fun _ => (NoErr.unwrap _).bind fun _ => ?_
    split
    · exact .pure _
    · exact ih

theorem NoErr.fieldsSize {isRef : Nat → Res Bool} {size : Nat → Res Nat} (h1 : ∀ t, NoErr (isRef t)) (h2 : ∀ t, NoErr (size t))
    (fs : List FieldRec) : ∀ a, NoErr (fieldsSize cfg isRef size fs a) := by
  induction fs with
  | nil => intro a e; simp [Clr.fieldsSize]
  | cons f fs ih =>
    intro a
    unfold Clr.fieldsSize
    refine NoErr.bind ((h1 _).bind fun b => ?_) fun s => (NoErr.uadd _ _ _).bind fun _ => ih _
    split
    · exact .pure _
    · exact h2 _

theorem NoErr.typeSize (w : World) (fuel : Nat) : ∀ t, NoErr (typeSize cfg w fuel t) := by
  induction fuel with
  | zero => intro t; exact .timeout
  | succ fuel ih =>
    intro t
    unfold Clr.typeSize
    refine (NoErr.unwrap _).bind fun tr => (NoErr.primitiveSize _ _ _).bind fun o => ?_
    cases o with
    | some s => exact .pure _
    | none =>
      refine (NoErr.fieldsSize (NoErr.isReferenceType w fuel) ih _ _).bind fun a => ?_
      split
      · exact (ih _).bind fun _ => .uadd _ _ _
      · exact .pure _

theorem NoErr.baseSize (fuel : Nat) (w : World) (t : Nat) : NoErr (baseSize cfg fuel w t) := by
  unfold Clr.baseSize
  refine (NoErr.unwrap _).bind fun tr => ?_
  split
  · exact .typeSize _ _ _
  · exact .pure _

theorem NoErr.ownedRun (list : TypeDefRow → Nat) (rows i : Nat) : NoErr (ownedRun cfg m list rows i) := by
  unfold Clr.ownedRun
  refine (NoErr.tableIndex _ _).bind fun _ => (NoErr.usub _ _ _).bind fun _ => ?_
  split
  · exact (NoErr.usub _ _ _).bind fun _ => (NoErr.usub _ _ _).bind fun _ => .pure _
  · exact (NoErr.tableIndex _ _).bind fun _ => (NoErr.usub _ _ _).bind fun _ => .pure _

/-! ## The loader -/

/-- After the base of a type has been set, all chains end if that of its base does. -/
theorem setBase_ends {w : World} {t b : Nat} (hn : ChainEnds (w.updType t fun tr => { tr with base := some b }) b)
    (ha : AllEnd w) : AllEnd (w.updType t fun tr => { tr with base := some b }) := by
  intro u hu
  have hu' : u < w.types.length := by simpa [World.updType] using hu
  obtain ⟨n, hd⟩ := ha u hu'
  have get : ∀ {v : Nat} {r : TypeRec}, v ≠ t → w.types[v]? = some r →
      (w.updType t fun tr => { tr with base := some b }).types[v]? = some r := by
    intro v r hv hr
    simp only [World.updType, getElem?_modify']
    rw [if_neg (fun h => hv h.symm), hr]
  have this : ∀ {v : Nat} {r : TypeRec}, v = t → w.types[v]? = some r →
      ChainEnds (w.updType t fun tr => { tr with base := some b }) v := by
    rintro v r rfl hr
    obtain ⟨k, hk⟩ := hn
    exact ⟨k + 1, .link (r := { r with base := some b }) (by simp [World.updType, hr]) rfl hk⟩
  clear hu hu'
  induction hd with
  | @root v r h1 h2 =>
    by_cases hv : v = t
    · exact this hv h1
    · exact ⟨0, .root (get hv h1) h2⟩
  | @link v c n r h1 h2 _ ih =>
    by_cases hv : v = t
    · exact this hv h1
    · obtain ⟨k, hk⟩ := ih
      exact ⟨k + 1, .link (get hv h1) h2 hk⟩

theorem returned_bind {x : M α} {f : α → M β} {w : World} (h : Returned ((x >>= f) w).1) :
    (∃ a, (x w).1 = .ok a ∧ Returned (f a (x w).2).1) ∨ ∃ e, (x w).1 = .err e := by
  rw [M.bind_run] at h
  rcases e : x w with ⟨r, w1⟩
  rw [e] at h
  cases r with
  | ok a => exact .inl ⟨a, rfl, h⟩
  | err m => exact .inr ⟨m, rfl⟩
  | _ => exact nomatch h

theorem returned_liftM {x : Res α} {f : α → M β} {w : World} (hx : NoErr x) (h : Returned (((_root_.liftM x : M α) >>= f) w).1) :
    ∃ a, x = .ok a ∧ Returned (f a w).1 := by
  rcases returned_bind h with ⟨a, h1, h2⟩ | ⟨e, h1⟩
  · exact ⟨a, h1, h2⟩
  · exact absurd h1 (hx e)

theorem returned_view {g : World → Res α} {f : α → M β} {w : World} (hx : NoErr (g w)) (h : Returned ((M.view g >>= f) w).1) :
    ∃ a, g w = .ok a ∧ Returned (f a w).1 := returned_liftM (x := g w) hx h

/-- What follows `resolveBase` computes the size of the base before it can return. -/
theorem afterBase_ends {w w' : World} {fuel t i b : Nat} {tr : TypeRec} (hi : Inv w) (ht : w.types[t]? = some tr)
    (hb : tr.base = some b) {r : Res (List FieldRec)}
    (h : (do resolveKind cfg m t i; let fs ← resolveFields cfg fuel m t i; resolveMethods cfg m t i; pure fs : M _) w = (r, w'))
    (hr : Returned r) : BasesKept w w' ∧ (NumbersEnd w → ChainEnds w b) := by
  have q : BasesKeptM (do resolveKind cfg m t i; let fs ← resolveFields cfg fuel m t i; resolveMethods cfg m t i; pure fs : M _) := by
    refine (resolveKind_bases t i).bind fun _ => BasesKeptM.bind ?_ fun _ => (resolveMethods_bases t i).bind fun _ => BasesKeptM.pure _
    unfold resolveFields
    exact BasesKeptM.liftM_bind fun ⟨_, _⟩ => BasesKeptM.liftM_bind fun _ => BasesKeptM.liftM_bind fun _ => BasesKeptM.view_bind fun _ =>
      loadFields_bases _ _ _ _ _
  have q' := q w
  rw [h] at q'
  refine ⟨q', fun hn => ?_⟩
  have hr' : Returned ((resolveKind cfg m t i >>= fun _ => resolveFields cfg fuel m t i >>= fun fs =>
      resolveMethods cfg m t i >>= fun _ => pure fs : M _) w).1 := by
    have := congrArg Prod.fst h
    rw [show ((resolveKind cfg m t i >>= fun _ => resolveFields cfg fuel m t i >>= fun fs =>
      resolveMethods cfg m t i >>= fun _ => pure fs : M _) w).1 = r from this]
    exact hr
  -- the kind
  have kq : BasesKept w (resolveKind cfg m t i w).2 := resolveKind_bases t i w
  have step : Returned (resolveFields cfg fuel m t i (resolveKind cfg m t i w).2).1 := by
    rcases returned_bind hr' with ⟨_, _, h2⟩ | ⟨e, h1⟩
    · rcases returned_bind h2 with ⟨fs, h3, -⟩ | ⟨e, h3⟩
      · rw [h3]; exact .ok _
      · rw [h3]; exact .err _
    · exfalso
      unfold resolveKind at h1
      have : Returned ((resolveKind cfg m t i) w).1 := by unfold resolveKind; rw [h1]; exact .err _
      unfold resolveKind at this
      obtain ⟨row, g1, g2⟩ := returned_liftM (NoErr.tableIndex _ _) this
      have nb : NoErr (w.baseName t) := by
        unfold World.baseName
        refine (NoErr.unwrap _).bind fun tr => ?_
        split
        · exact .pure _
        · exact (NoErr.unwrap _).bind fun _ => .pure _
      obtain ⟨n, g3, -⟩ := returned_view (g := (·.baseName t)) nb g2
      rw [M.liftM_bind_ok g1, M.view_bind_ok g3] at h1
      simp at h1
  unfold resolveFields at step
  obtain ⟨⟨s, n⟩, g1, step⟩ := returned_liftM (NoErr.ownedRun _ _ _) step
  obtain ⟨_, g2, step⟩ := returned_liftM (fun e => by unfold reserveRun; split <;> simp) step
  obtain ⟨_, g3, step⟩ := returned_liftM (NoErr.uadd _ _ _) step
  obtain ⟨o, g4, -⟩ := returned_view (NoErr.baseSize _ _ _) step
  obtain ⟨r2, k1, k2, k3⟩ := kq.keep t tr ht
  have ki : Inv (resolveKind cfg m t i w).2 := hi.steps (resolveKind_run (cfg := cfg) (m := m) t i hi).1
  unfold baseSize at g4
  rw [typeAt_eq_ok.mpr k1, Res.ok_bind, k2, hb] at g4
  have kback : ∀ u, ChainEnds (resolveKind cfg m t i w).2 u → u < w.types.length → ChainEnds w u := fun u hu hl =>
    chainEnds_back hi (kq.sound hi).keep hl hu
  have kforth : ∀ u k, Depth w u k → Depth (resolveKind cfg m t i w).2 u k := by
    intro u k hd
    induction hd with
    | root h1 h2 =>
      obtain ⟨r', q1, q2, -⟩ := kq.keep _ _ h1
      exact .root q1 (q2.trans h2)
    | link h1 h2 _ ih =>
      obtain ⟨r', q1, q2, -⟩ := kq.keep _ _ h1
      exact .link q1 (q2.trans h2) ih
  have klen : (resolveKind cfg m t i w).2.types.length = w.types.length := by
    unfold resolveKind
    rw [M.bind_run, M.liftM_run]
    cases tableIndex cfg m.tables.typeDef (i + 1) with
    | ok row =>
      dsimp only
      rw [M.bind_run, M.view_run]
      cases w.baseName t <;> simp [World.updType]
    | _ => rfl
  refine kback b (typeSize_ends ki (fun u r hu hm => ?_) fuel b o g4) (hi.base t tr ht b hb)
  have hul : u < w.types.length := by rw [← klen]; exact (List.getElem?_eq_some_iff.1 hu).1
  obtain ⟨r', q1, q2, q3⟩ := kq.keep u _ (List.getElem?_eq_getElem hul)
  rw [hu] at q1; cases q1
  obtain ⟨k, hk⟩ := hn u _ (List.getElem?_eq_getElem hul) (by rw [← q3]; exact hm)
  exact ⟨k, kforth u k hk⟩

theorem setBase_sound {w w' : World} {t b : Nat} {tr : TypeRec} (hi1 : Inv (w.updType t fun tr => { tr with base := some b }))
    (ht : w.types[t]? = some tr) (hb : tr.base = none)
    (q : BasesKept (w.updType t fun tr => { tr with base := some b }) w')
    (he : NumbersEnd (w.updType t fun tr => { tr with base := some b }) → ChainEnds (w.updType t fun tr => { tr with base := some b }) b) :
    Sound w w' := by
  have h1 : ∀ (u : Nat) r, w.types[u]? = some r → ∃ r', (w.updType t fun tr => { tr with base := some b }).types[u]? = some r' ∧
      (∀ c, r.base = some c → r'.base = some c) ∧ r'.fullName = r.fullName := by
    intro u r hu
    simp only [World.updType, getElem?_modify', hu]
    split
    · next e =>
      subst e
      rw [ht] at hu; cases hu
      refine ⟨_, rfl, ⟨fun c hc => ?_, rfl⟩⟩
      rw [hb] at hc; cases hc
    · exact ⟨r, rfl, fun _ h => h, rfl⟩
  refine Sound.trans hi1 ⟨h1, fun hn ha => setBase_ends (he hn) ha⟩ (q.sound hi1)

theorem resolveType_act {w : World} (fuel t i : Nat) {tr : TypeRec} (ht : w.types[t]? = some tr) (hb : tr.base = none) :
    Act w (resolveType cfg fuel m t i) := by
  intro hi hret
  have hinv := (resolveBase_run (cfg := cfg) (m := m) t i hi).1
  have quiet : BasesKeptM (do resolveKind cfg m t i; let fs ← resolveFields cfg fuel m t i; resolveMethods cfg m t i; pure fs : M _) := by
    refine (resolveKind_bases t i).bind fun _ => BasesKeptM.bind ?_ fun _ => (resolveMethods_bases t i).bind fun _ => BasesKeptM.pure _
    unfold resolveFields
    exact BasesKeptM.liftM_bind fun ⟨_, _⟩ => BasesKeptM.liftM_bind fun _ => BasesKeptM.liftM_bind fun _ => BasesKeptM.view_bind fun _ =>
      loadFields_bases _ _ _ _ _
  have cases3 : (∃ e, resolveBase cfg m t i w = (.err e, w)) ∨ resolveBase cfg m t i w = (.ok (), w) ∨
      (∃ b, resolveBase cfg m t i w = (.ok (), w.updType t fun tr => { tr with base := some b })) ∨
      ¬ Returned (resolveBase cfg m t i w).1 := by
    unfold resolveBase
    rw [M.bind_run, M.liftM_run]
    cases tableIndex cfg m.tables.typeDef (i + 1) with
    | ok row =>
      dsimp only
      split
      · exact .inr (.inl rfl)
      · rw [M.bind_run, M.liftM_run]
        cases typeDefOrRefName cfg m row.baseType.typeDefOrRef with
        | ok n =>
          dsimp only
          rw [M.bind_run, M.view_run]
          cases Res.ofOption "Unable to find base type" (n.bind w.getType) with
          | ok b => exact .inr (.inr (.inl ⟨b, rfl⟩))
          | err e => exact .inl ⟨e, rfl⟩
          | _ => exact .inr (.inr (.inr fun h => nomatch h))
        | err e => exact .inl ⟨e, rfl⟩
        | _ => exact .inr (.inr (.inr fun h => nomatch h))
    | err e => exact .inl ⟨e, rfl⟩
    | _ => exact .inr (.inr (.inr fun h => nomatch h))
  unfold resolveType at hret ⊢
  rcases cases3 with ⟨e, h⟩ | h | ⟨b, h⟩ | h
  · rw [M.bind_run, h]; exact .refl w
  · rw [M.bind_ok h]; exact (quiet w).sound hi
  · rw [M.bind_ok h] at hret ⊢
    rw [h] at hinv
    have hi1 := hi.steps hinv
    obtain ⟨q, he⟩ := afterBase_ends (cfg := cfg) (m := m) (fuel := fuel) (t := t) (i := i) (b := b) (tr := { tr with base := some b }) hi1
      (by simp [World.updType, ht]) rfl rfl hret
    exact setBase_sound hi1 ht hb q he
  · rcases returned_bind hret with ⟨a, h1, -⟩ | ⟨e, h1⟩
    · rw [h1] at h; exact absurd (.ok _) h
    · rw [h1] at h; exact absurd (.err _) h

theorem resolveTypes_act (fuel : Nat) (ts : List Nat) : ∀ (i : Nat) (w : World), ts.Nodup →
    (∀ t ∈ ts, ∃ tr, w.types[t]? = some tr ∧ tr.base = none) → Act w (resolveTypes cfg fuel m ts i) := by
  induction ts with
  | nil => intro i w _ _; exact Act.of_bases (BasesKeptM.pure _)
  | cons t ts ih =>
    intro i w hd hb
    rw [List.nodup_cons] at hd
    obtain ⟨tr, t1, t2⟩ := hb t (by simp)
    have o1 := resolveType_touch (cfg := cfg) (m := m) fuel t i w
    unfold resolveTypes
    refine Act.bind (cfg := cfg) (Q := fun _ w1 => w1 = (resolveType cfg fuel m t i w).2)
      (fun hi => ⟨(resolveType_run (cfg := cfg) (m := m) fuel t i hi).1, fun _ _ => rfl⟩) (resolveType_act fuel t i t1 t2) ?_
    rintro a w1 hi1 rfl
    refine Act.bind (cfg := cfg) (resolveTypes_run fuel ts _ _) (ih _ _ hd.2 fun u hu => ?_) fun _ _ _ _ => Act.of_bases (BasesKeptM.pure _)
    obtain ⟨ur, u1, u2⟩ := hb u (by simp [hu])
    refine ⟨ur, ?_, u2⟩
    rw [o1.types u (List.getElem?_eq_some_iff.1 u1).1 (fun h => hd.1 (by rw [← h]; exact hu)), u1]

theorem loadTypes_bare (a n : Nat) : ∀ (i : Nat) (w w' : World) (ts : List Nat), Inv w → loadTypes cfg a m n i w = (.ok ts, w') →
    ts.Nodup ∧ ∀ t ∈ ts, ∃ tr, w'.types[t]? = some tr ∧ tr.base = none := by
  intro i w w' ts hi h
  have hr := loadTypes_run (cfg := cfg) (m := m) a n w i hi
  rw [h] at hr
  obtain ⟨rfl, -⟩ := hr.2 ts rfl
  refine ⟨List.nodup_range', ?_⟩
  clear hr
  have gen : ∀ (n i : Nat) (w w' : World) (ts : List Nat), Inv w → loadTypes cfg a m n i w = (.ok ts, w') →
      ∀ t ∈ ts, ∃ tr, w'.types[t]? = some tr ∧ tr.base = none := by
    intro n
    induction n with
    | zero =>
      intro i w w' ts _ h t ht
      simp only [loadTypes, M.pure_run, Prod.mk.injEq, Res.ok.injEq] at h
      rw [← h.1] at ht; cases ht
    | succ n ih =>
      intro i w w' ts hi h t ht
      unfold loadTypes at h
      obtain ⟨t0, w1, h1, h⟩ := M.bind_eq_ok.mp h
      obtain ⟨ts0, w2, h2, h⟩ := M.bind_eq_ok.mp h
      simp only [M.pure_run, Prod.mk.injEq, Res.ok.injEq] at h
      obtain ⟨rfl, rfl⟩ := h
      have r1 := loadType_run (cfg := cfg) (m := m) a i hi
      rw [h1] at r1
      obtain ⟨s1, r1⟩ := r1
      obtain ⟨rfl, row, nm, ns, -, -, -, e⟩ := r1 t0 rfl
      rcases List.mem_cons.1 ht with rfl | ht
      · have := loadTypes_bases (cfg := cfg) (m := m) a n (i + 1) w1
        rw [h2] at this
        have hx : ∃ r, w1.types[w.types.length]? = some r ∧ r.base = none := by
          rw [show w1.types = _ from e]; simp
        obtain ⟨r, g0, gb⟩ := hx
        obtain ⟨r', g1, g2, -⟩ := this.keep w.types.length _ g0
        exact ⟨r', g1, g2.trans gb⟩
      · exact ih (i + 1) w1 _ _ (hi.steps s1) h2 t ht
  exact gen n i w w' _ hi h

theorem loadSelf_act {w : World} (fuel : Nat) (name : Name) : Act w (loadSelf cfg fuel m name) := by
  unfold loadSelf
  refine Act.bind (cfg := cfg) (loadMemberRefs_run _) (Act.of_bases (loadMemberRefs_bases _)) fun _ w1 _ _ => ?_
  refine Act.bind (cfg := cfg) (loadTypeRefs_run _) (Act.of_bases (loadTypeRefs_bases _)) fun _ w2 _ _ => ?_
  refine Act.view_bind fun id _ => ?_
  refine Act.bind (cfg := cfg) (Q := fun _ _ => True) (Run.modify (.assemblyId w2) True.intro)
    (Act.of_bases fun w => .of_types rfl rfl) fun _ w3 i3 _ => ?_
  refine Act.bind (cfg := cfg) (Q := fun ts w4 => loadTypes cfg id m m.tables.typeDef.length 0 w3 = (.ok ts, w4))
    (fun hi => ⟨(loadTypes_run (cfg := cfg) (m := m) _ _ w3 _ hi).1, fun a ha => Prod.ext ha rfl⟩)
    (Act.of_bases (loadTypes_bases _ _ _)) fun ts w4 i4 h4 => ?_
  obtain ⟨n1, n2⟩ := loadTypes_bare _ _ _ _ _ _ i3 h4
  refine Act.bind (cfg := cfg) (resolveTypes_run _ _ w4 _) (resolveTypes_act _ _ _ _ n1 n2) fun _ w5 _ _ => ?_
  refine Act.of_bases ?_
  refine (loadInterfaces_bases _).bind fun _ => BasesKeptM.view_bind fun _ => BasesKeptM.liftM_bind fun _ => ?_
  exact BasesKeptM.bind (fun w => .of_types rfl rfl) fun _ => BasesKeptM.pure _

theorem loadRefs_act {load : Name → M AssemblyRec} (hr : ∀ n w, Run cfg w (load n) fun _ _ => True) (hl : ∀ n w, Act w (load n))
    (rows : List AssemblyRefRow) : ∀ w, Act w (loadRefs load m rows) := by
  induction rows with
  | nil => intro w; exact Act.of_bases (BasesKeptM.pure _)
  | cons row rows ih =>
    intro w
    unfold loadRefs
    refine Act.liftM_bind fun _ _ => Act.liftM_bind fun n _ => Act.view_bind fun b _ => ?_
    split
    · exact ih w
    · exact Act.bind (cfg := cfg) (hr n w) (hl n w) fun _ w1 _ _ => ih w1

theorem loadData_act (fs : Name → Option Bytes) (depth : Nat) : ∀ fuel data w, Act w (loadData cfg fs depth fuel data) := by
  induction depth with
  | zero => intro fuel data w hi hret; exact nomatch hret
  | succ d ih =>
    intro fuel data w
    unfold loadData
    refine Act.liftM_bind fun m _ => Act.liftM_bind fun _ _ => Act.liftM_bind fun _ _ => ?_
    refine Act.bind (cfg := cfg) (loadRefs_run (fun n w => Run.liftM_bind fun d _ => loadData_run _ _ _ _ _) _ w)
      (loadRefs_act (fun n w => Run.liftM_bind fun d _ => loadData_run _ _ _ _ _)
        (fun n w => Act.liftM_bind fun d _ => ih _ _ _) _ w) fun _ _ _ _ => loadSelf_act _ _

theorem loadAssembly_act (fs : Name → Option Bytes) (depth fuel : Nat) (n : Name) (w : World) :
    Act w (loadAssembly cfg fs depth fuel n) := by
  unfold loadAssembly
  exact Act.liftM_bind fun d _ => loadData_act _ _ _ _ _

theorem newRuntime_act (fs : Name → Option Bytes) (depth fuel : Nat) (a b : Bytes) (w : World) :
    Act w (newRuntime cfg fs depth fuel a b) := by
  unfold newRuntime
  refine Act.bind (cfg := cfg) (loadData_run _ _ _ _ _) (loadData_act _ _ _ _ _) fun _ w1 _ _ => ?_
  refine Act.bind (cfg := cfg) (loadData_run _ _ _ _ _) (loadData_act _ _ _ _ _) fun _ w2 _ _ => ?_
  refine Act.of_bases ?_
  unfold loadPrimitives getTypeUnwrap
  iterate 11 refine BasesKeptM.view_bind fun _ => ?_
  exact fun w => .of_types rfl rfl

end Clr
