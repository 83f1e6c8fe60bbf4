import Verif.Lemmas.Loading
import Verif.Spec.Layout
/-! # Field offsets -/

namespace Clr
open Spec

/-! ## Sizes depend on earlier types only -/

/-- What sizes depend on. -/
def TypeRec.shape (r : TypeRec) : List FieldRec × Option Nat × Name := (r.fields, r.base, r.fullName)

/-- The types below `n` have the same fields, bases and names. -/
def Same (n : Nat) (w w' : World) : Prop :=
  ∀ i r, i < n → w.types[i]? = some r → ∃ r', w'.types[i]? = some r' ∧ r'.shape = r.shape

variable {w w' : World} {n : Nat}

theorem Same.get (h : Same n w w') {i : Nat} {r : TypeRec} (hi : i < n) (hr : w.types[i]? = some r) :
    ∃ r', w'.types[i]? = some r' ∧ r'.fields = r.fields ∧ r'.base = r.base ∧ r'.fullName = r.fullName := by
  obtain ⟨r', h1, h2⟩ := h i r hi hr
  simp only [TypeRec.shape, Prod.mk.injEq] at h2
  exact ⟨r', h1, h2⟩

theorem Spec.ValueLike.same (hs : Same n w w') {t : Nat} (h : ValueLike w t) (ht : t < n) : ValueLike w' t := by
  induction h with
  | here h1 h2 =>
    obtain ⟨r', g1, -, -, g4⟩ := hs.get ht h1
    exact .here g1 (g4.trans h2)
  | base h1 h2 h3 _ ih =>
    obtain ⟨r', g1, -, g3, -⟩ := hs.get ht h1
    exact .base g1 (g3.trans h2) h3 (ih (by omega))

mutual

theorem Spec.ClassSize.same (hs : Same n w w') {t s : Nat} : ClassSize w t s → t < n → ClassSize w' t s
  | .root h1 h2 h3 h4, ht => by
    obtain ⟨r', g1, g2, g3, g4⟩ := hs.get ht h1
    exact .root g1 (by rw [g4]; exact h2) (g3.trans h3) (by rw [g2]; exact FieldsSize.same hs h4 (Nat.le_of_lt ht))
  | .derived h1 h2 h3 h4 h5 h6, ht => by
    obtain ⟨r', g1, g2, g3, g4⟩ := hs.get ht h1
    exact .derived g1 (by rw [g4]; exact h2) (g3.trans h3) h4 (ClassSize.same hs h5 (by omega))
      (by rw [g2]; exact FieldsSize.same hs h6 (Nat.le_of_lt ht))

theorem Spec.FieldsSize.same (hs : Same n w w') {t k : Nat} {fs : List FieldRec} : FieldsSize w t fs k → t ≤ n → FieldsSize w' t fs k
  | .nil, _ => .nil
  | .primitive h1 h2 h3 h4 h5 h6, ht => by
    obtain ⟨r', g1, -, -, g4⟩ := hs.get (by omega) h4
    exact .primitive h1 h2 (h3.same hs (by omega)) g1 (by rw [g4]; exact h5) (FieldsSize.same hs h6 ht)
  | .struct h1 h2 h3 h4 h5, ht =>
    .struct h1 h2 (h3.same hs (by omega)) (ClassSize.same hs h4 (by omega)) (FieldsSize.same hs h5 ht)

end

theorem Spec.ValueWidth.same (hs : Same n w w') {t s : Nat} (h : ValueWidth w t s) (ht : t < n) : ValueWidth w' t s := by
  rcases h with ⟨p, h1, h2⟩ | h
  · obtain ⟨r', g1, -, -, g4⟩ := hs.get ht h1
    exact .inl ⟨r', g1, by rw [g4]; exact h2⟩
  · exact .inr (h.same hs ht)

theorem Spec.ClassSize.notPrimitive {t s : Nat} {p : TypeRec} (h : ClassSize w t s) (hp : w.types[t]? = some p) :
    primitiveWidth p.fullName = none := by
  cases h with
  | root h1 h2 => rw [h1] at hp; cases hp; exact h2
  | derived h1 h2 => rw [h1] at hp; cases hp; exact h2

mutual

theorem Spec.ClassSize.unique {t s s' : Nat} : ClassSize w t s → ClassSize w t s' → s = s'
  | .root h1 _ h3 h4, h => by
    cases h with
    | root g1 _ g3 g4 => rw [h1] at g1; cases g1; exact FieldsSize.unique h4 g4
    | derived g1 _ g3 => rw [h1] at g1; cases g1; rw [h3] at g3; cases g3
  | .derived h1 _ h3 _ h5 h6, h => by
    cases h with
    | root g1 _ g3 g4 => rw [h1] at g1; cases g1; rw [h3] at g3; cases g3
    | derived g1 _ g3 _ g5 g6 =>
      rw [h1] at g1; cases g1; rw [h3] at g3; cases g3
      rw [ClassSize.unique h5 g5, FieldsSize.unique h6 g6]

theorem Spec.FieldsSize.unique {t k k' : Nat} {fs : List FieldRec} : FieldsSize w t fs k → FieldsSize w t fs k' → k = k'
  | .nil, h => by cases h; rfl
  | .primitive _ _ _ h4 h5 h6, h => by
    cases h with
    | primitive _ _ _ g4 g5 g6 => rw [h4] at g4; cases g4; rw [h5] at g5; cases g5; rw [FieldsSize.unique h6 g6]
    | struct _ _ _ g4 g5 => have := g4.notPrimitive h4; rw [h5] at this; cases this
  | .struct _ _ _ h4 h5, h => by
    cases h with
    | primitive _ _ _ g4 g5 g6 => have := h4.notPrimitive g4; rw [g5] at this; cases this
    | struct _ _ _ g4 g5 => rw [ClassSize.unique h4 g4, FieldsSize.unique h5 g5]

end

theorem Spec.ValueWidth.unique {t s s' : Nat} (h : ValueWidth w t s) (g : ValueWidth w t s') : s = s' := by
  rcases h with ⟨p, h1, h2⟩ | h <;> rcases g with ⟨q, g1, g2⟩ | g
  · rw [h1] at g1; cases g1; rw [h2] at g2; cases g2; rfl
  · have := g.notPrimitive h1; rw [h2] at this; cases this
  · have := h.notPrimitive g1; rw [g2] at this; cases this
  · exact h.unique g

/-- A list of fields, one at a time. -/
theorem fieldsSize_cons {t k : Nat} {f : FieldRec} {fs : List FieldRec} : FieldsSize w t (f :: fs) k ↔
    ∃ n k', f.isStatic = false ∧ f.fieldType < t ∧ ValueLike w f.fieldType ∧ ValueWidth w f.fieldType n ∧
      FieldsSize w t fs k' ∧ k = n + k' := by
  constructor
  · intro h
    cases h with
    | primitive h1 h2 h3 h4 h5 h6 => exact ⟨_, _, h1, h2, h3, .inl ⟨_, h4, h5⟩, h6, rfl⟩
    | struct h1 h2 h3 h4 h5 => exact ⟨_, _, h1, h2, h3, .inr h4, h5, rfl⟩
  · rintro ⟨n, k', h1, h2, h3, ⟨p, h4, h5⟩ | h4, h6, rfl⟩
    · exact .primitive h1 h2 h3 h4 h5 h6
    · exact .struct h1 h2 h3 h4 h6

theorem fieldsSize_snoc {t : Nat} {f : FieldRec} {fs : List FieldRec} {k : Nat} (h : FieldsSize w t (fs ++ [f]) k) :
    ∃ n k', f.isStatic = false ∧ f.fieldType < t ∧ ValueLike w f.fieldType ∧ ValueWidth w f.fieldType n ∧
      FieldsSize w t fs k' ∧ k = k' + n := by
  induction fs generalizing k with
  | nil =>
    obtain ⟨n, k', h1, h2, h3, h4, h5, rfl⟩ := fieldsSize_cons.1 h
    cases h5
    exact ⟨n, 0, h1, h2, h3, h4, .nil, by omega⟩
  | cons g fs ih =>
    obtain ⟨n, k', h1, h2, h3, h4, h5, rfl⟩ := fieldsSize_cons.1 h
    obtain ⟨m, l, g1, g2, g3, g4, g5, rfl⟩ := ih h5
    exact ⟨m, n + l, g1, g2, g3, g4, fieldsSize_cons.2 ⟨n, l, h1, h2, h3, h4, g5, rfl⟩, by omega⟩

/-! ## What `Type::size` computes -/

theorem primitiveWidth_eq (n : Name) : primitiveWidth n = primitiveSizes.lookup n := by
  unfold primitiveWidth primitiveSizes
  simp only [List.find?, List.lookup]
  repeat' (split <;> rename_i h <;> (try simp at h) <;> (try subst h) <;> try simp_all)

theorem primitiveSize_lookup (hi : Inv w) {full : Name} {l : List (Name × Nat)} {o : Option Nat}
    (h : primitiveSize w full l = .ok o) : o = l.lookup full := by
  induction l with
  | nil => cases h; rfl
  | cons a l ih =>
    obtain ⟨nm, s⟩ := a
    unfold primitiveSize at h
    obtain ⟨t, h1, h⟩ := Res.bind_eq_ok.1 h
    obtain ⟨tr, h2, h⟩ := Res.bind_eq_ok.1 h
    obtain ⟨r, g1, g2, -⟩ := (hi.getType_iff nm t).1 (unwrap_eq_ok.1 h1)
    rw [typeAt_eq_ok] at h2
    rw [h2] at g1; cases g1
    by_cases e : full = tr.fullName
    · rw [if_pos e] at h
      cases h
      rw [List.lookup_cons, e, g2]; simp
    · rw [if_neg e] at h
      rw [List.lookup_cons, ih h]
      have : (full == nm) = false := by simpa [← g2] using e
      rw [this]

theorem instanceOf_valueLike (hi : Inv w) {v : Nat} (hv : w.getType "System.ValueType".toList = some v) {fuel t : Nat} {b : Bool}
    (hl : ValueLike w t) (h : instanceOf w v fuel t = .ok b) : b = true := by
  obtain ⟨vr, v1, v2, -⟩ := (hi.getType_iff _ v).1 hv
  induction fuel generalizing t with
  | zero => cases h
  | succ fuel ih =>
    unfold instanceOf at h
    obtain ⟨tr, h1, h⟩ := Res.bind_eq_ok.1 h
    obtain ⟨o, h2, h⟩ := Res.bind_eq_ok.1 h
    rw [typeAt_eq_ok] at h1 h2
    rw [v1] at h2; cases h2
    cases hl with
    | here g1 g2 =>
      rw [h1] at g1; cases g1
      rw [if_pos (g2.trans v2.symm)] at h
      cases h; rfl
    | base g1 g2 _ g4 =>
      rw [h1] at g1; cases g1
      split at h
      · cases h; rfl
      · simp only [g2] at h
        exact ih g4 h

theorem isReferenceType_valueLike (hi : Inv w) {fuel t : Nat} {b : Bool} (hl : ValueLike w t)
    (h : isReferenceType w fuel t = .ok b) : b = false := by
  unfold isReferenceType at h
  obtain ⟨v, h1, h⟩ := Res.bind_eq_ok.1 h
  obtain ⟨c, h2, h⟩ := Res.bind_eq_ok.1 h
  rw [instanceOf_valueLike hi (unwrap_eq_ok.1 h1) hl h2] at h
  cases h; rfl

theorem fieldsSize_ok {cfg : Cfg} {isRef : Nat → Res Bool} {size : Nat → Res Nat}
    (hr : ∀ t b, ValueLike w t → isRef t = .ok b → b = false)
    (hz : ∀ t n m, ValueWidth w t n → n < 2 ^ 64 → size t = .ok m → m = n) {t : Nat} {fs : List FieldRec} {a k r : Nat}
    (hf : FieldsSize w t fs k) (hk : a + k < 2 ^ 64) (h : fieldsSize cfg isRef size (fs.filter (!·.isStatic)) a = .ok r) :
    r = a + k := by
  induction fs generalizing a k with
  | nil => cases hf; cases h; rfl
  | cons f fs ih =>
    obtain ⟨n, k', h1, h2, h3, h4, h5, rfl⟩ := fieldsSize_cons.1 hf
    rw [List.filter_cons, if_pos (by simp [h1]), fieldsSize] at h
    obtain ⟨s, g1, h⟩ := Res.bind_eq_ok.1 h
    obtain ⟨b, g2, g1⟩ := Res.bind_eq_ok.1 g1
    rw [hr _ _ h3 g2] at g1
    simp only [Bool.false_eq_true, if_false] at g1
    obtain rfl := hz _ _ _ h4 (by omega) g1
    rw [uadd_ok (by omega), Res.ok_bind] at h
    rw [ih h5 (by omega) h]; omega

theorem typeSize_ok (hi : Inv w) {cfg : Cfg} : ∀ {fuel t s r : Nat}, ValueWidth w t s → s < 2 ^ 64 →
    typeSize cfg w fuel t = .ok r → r = s
  | 0, _, _, _, _, _, h => by cases h
  | fuel + 1, t, s, r, hw, hs, h => by
    unfold typeSize at h
    obtain ⟨tr, h1, h⟩ := Res.bind_eq_ok.1 h
    obtain ⟨o, h2, h⟩ := Res.bind_eq_ok.1 h
    have ho := primitiveSize_lookup hi h2
    rw [← primitiveWidth_eq] at ho
    rw [typeAt_eq_ok] at h1
    rcases hw with ⟨p, g1, g2⟩ | hc
    · rw [h1] at g1; cases g1
      rw [ho, g2] at h
      cases h; rfl
    · have hn := hc.notPrimitive h1
      rw [ho, hn] at h
      simp only at h
      obtain ⟨z, h3, h⟩ := Res.bind_eq_ok.1 h
      have hz : ∀ (t k : Nat), FieldsSize w t tr.fields k → k < 2 ^ 64 → z = k := fun t k g1 g2 => by
        have := fieldsSize_ok (fun _ _ a b => isReferenceType_valueLike hi a b) (fun _ _ _ a b c => typeSize_ok hi a b c) g1
          (a := 0) (by omega) h3
        omega
      cases hc with
      | root g1 _ g3 g4 =>
        rw [h1] at g1; cases g1
        rw [g3] at h
        cases h
        exact hz _ _ g4 hs
      | derived g1 _ g3 g4 g5 g6 =>
        rw [h1] at g1; cases g1
        rw [g3] at h
        obtain ⟨y, h4, h⟩ := Res.bind_eq_ok.1 h
        rw [hz _ _ g6 (by omega), typeSize_ok hi (.inr g5) (by omega) h4, uadd_ok (by omega)] at h
        cases h; omega

/-! ## Offsets -/

/-- Where the own fields of type `t` with base `b` start. -/
def StartsAt (w : World) (t : Nat) : Option Nat → Nat → Prop
  | none, s => s = 0
  | some b, s => b < t ∧ ClassSize w b s

/-- The fields lie one after the other from `s`. -/
def Laid (w : World) : Nat → List FieldRec → Prop
  | _, [] => True
  | s, f :: fs => f.offset = s ∧ ∃ n, ValueWidth w f.fieldType n ∧ Laid w (s + n) fs

/-- All types of known size are laid out without gaps. -/
def Settled (w : World) : Prop := ∀ (t : Nat) r s k, w.types[t]? = some r → StartsAt w t r.base s →
  FieldsSize w t r.fields k → s + k < 2 ^ 64 → Laid w s r.fields

theorem StartsAt.same (hs : Same n w w') {t s : Nat} {b : Option Nat} (h : StartsAt w t b s) (ht : t ≤ n) : StartsAt w' t b s := by
  cases b with
  | none => exact h
  | some b => exact ⟨h.1, h.2.same hs (by have := h.1; omega)⟩

theorem StartsAt.unique {t s s' : Nat} {b : Option Nat} (h : StartsAt w t b s) (g : StartsAt w t b s') : s = s' := by
  cases b with
  | none => exact h.trans g.symm
  | some b => exact h.2.unique g.2

theorem Laid.same (hs : Same n w w') {t : Nat} (ht : t ≤ n) {fs : List FieldRec} {s k : Nat} (hf : FieldsSize w t fs k)
    (h : Laid w s fs) : Laid w' s fs := by
  induction fs generalizing s k with
  | nil => trivial
  | cons f fs ih =>
    obtain ⟨m, k', _, h2, _, _, h5, _⟩ := fieldsSize_cons.1 hf
    obtain ⟨g1, n, g2, g3⟩ := h
    exact ⟨g1, n, g2.same hs (by omega), ih h5 g3⟩

theorem Laid.snoc {t : Nat} {f : FieldRec} {fs : List FieldRec} {s k m : Nat} (hf : FieldsSize w t fs k) (h : Laid w s fs)
    (ho : f.offset = s + k) (hw : ValueWidth w f.fieldType m) : Laid w s (fs ++ [f]) := by
  induction fs generalizing s k with
  | nil => cases hf; exact ⟨ho, m, hw, trivial⟩
  | cons g fs ih =>
    obtain ⟨l, k', _, _, _, h4, h5, rfl⟩ := fieldsSize_cons.1 hf
    obtain ⟨g1, n, g2, g3⟩ := h
    obtain rfl := h4.unique g2
    exact ⟨g1, _, g2, ih h5 g3 (by omega)⟩

/-- `w'` has the types of `w` below `n`, and no more fields from `n` on. -/
structure Keep (n : Nat) (w w' : World) : Prop where
  same : Same n w w'
  back : Same n w' w
  le : w.types.length ≤ w'.types.length
  bare : (∀ (i : Nat) r, n ≤ i → w.types[i]? = some r → r.fields = []) →
    ∀ (i : Nat) r, n ≤ i → w'.types[i]? = some r → r.fields = []

theorem Same.refl (n : Nat) (w : World) : Same n w w := fun _ r _ h => ⟨r, h, rfl⟩
theorem Same.trans {a b c : World} (h : Same n a b) (g : Same n b c) : Same n a c := fun i r hi hr => by
  obtain ⟨r1, h1, h2⟩ := h i r hi hr
  obtain ⟨r2, g1, g2⟩ := g i r1 hi h1
  exact ⟨r2, g1, g2.trans h2⟩
theorem Same.mono {m : Nat} (h : Same n w w') (hm : m ≤ n) : Same m w w' := fun i r hi => h i r (by omega)

theorem Keep.refl (n : Nat) (w : World) : Keep n w w := ⟨.refl n w, .refl n w, Nat.le_refl _, id⟩
theorem Keep.trans {a b c : World} (h : Keep n a b) (g : Keep n b c) : Keep n a c :=
  ⟨h.1.trans g.1, g.2.trans h.2, Nat.le_trans h.3 g.3, fun x => g.4 (h.4 x)⟩

theorem Keep.of_types {ts : List TypeRec} (h : w'.types = w.types ++ ts) (hn : n ≤ w.types.length)
    (hb : ∀ t ∈ ts, t.fields = []) : Keep n w w' := by
  have key : ∀ i < n, w'.types[i]? = w.types[i]? := fun i hi => by rw [h, List.getElem?_append_left (by omega)]
  refine ⟨fun i r hi hr => ⟨r, by rw [key i hi, hr], rfl⟩, fun i r hi hr => ⟨r, by rw [← key i hi, hr], rfl⟩, by rw [h]; simp,
    fun hw i r hi hr => ?_⟩
  rw [h] at hr
  rcases Nat.lt_or_ge i w.types.length with hl | hl
  · rw [List.getElem?_append_left hl] at hr
    exact hw i r hi hr
  · rw [List.getElem?_append_right hl] at hr
    exact hb r (List.mem_of_getElem? hr)

theorem Adds.keep (h : Adds w w') (hn : n ≤ w.types.length) : Keep n w w' := by
  obtain ⟨ts, h1, h2⟩ := h.types
  exact .of_types h1 hn fun t ht => (h2 t ht).1

theorem Keep.updType (w : World) (t : Nat) (f : TypeRec → TypeRec) (hf : ∀ r, (f r).fields = r.fields)
    (hs : t < n → ∀ r, (f r).shape = r.shape) : Keep n w (w.updType t f) := by
  have key : ∀ i, (w.updType t f).types[i]? = if t = i then w.types[i]?.map f else w.types[i]? := fun i => by
    simp only [World.updType, getElem?_modify']
  refine ⟨fun i r hi hr => ?_, fun i r hi hr => ?_, by simp [World.updType], fun hw i r hi hr => ?_⟩
  · rw [key]
    split
    · subst_vars; exact ⟨f r, by rw [hr]; rfl, hs hi r⟩
    · exact ⟨r, hr, rfl⟩
  · rw [key] at hr
    split at hr
    · subst_vars
      obtain ⟨q, hq, rfl⟩ := Option.map_eq_some_iff.1 hr
      exact ⟨q, hq, (hs hi q).symm⟩
    · exact ⟨r, hr, rfl⟩
  · rw [key] at hr
    split at hr
    · obtain ⟨q, hq, rfl⟩ := Option.map_eq_some_iff.1 hr
      rw [hf]; exact hw i q hi hq
    · exact hw i r hi hr

/-- The types below `n` are complete, those from `n` on have no fields yet. -/
structure Lay (n : Nat) (w : World) : Prop where
  le : n ≤ w.types.length
  bare : ∀ (i : Nat) r, n ≤ i → w.types[i]? = some r → r.fields = []
  settled : Settled w

theorem Lay.keep (h : Lay n w) (hk : Keep n w w') : Lay n w' := by
  refine ⟨Nat.le_trans h.le hk.le, hk.bare h.bare, fun t r s k hr hb hf hl => ?_⟩
  rcases Nat.lt_or_ge t n with ht | ht
  · obtain ⟨q, q1, q2, q3, -⟩ := hk.back.get ht hr
    have hf' := hf.same hk.back (Nat.le_of_lt ht)
    rw [← q2] at hf'
    have := h.settled t q s k q1 (by rw [q3]; exact hb.same hk.back (Nat.le_of_lt ht)) hf' hl
    rw [← q2]
    exact this.same hk.same (Nat.le_of_lt ht) hf'
  · rw [hk.bare h.bare t r ht hr]
    trivial

theorem Settled.lay (h : Settled w) : Lay w.types.length w :=
  ⟨Nat.le_refl _, fun i r hi hr => absurd (List.getElem?_eq_some_iff.1 hr).1 (by omega), h⟩

theorem Lay.mono {m : Nat} (h : Lay n w) (h1 : n ≤ m) (h2 : m ≤ w.types.length) : Lay m w :=
  ⟨h2, fun i r hi => h.bare i r (by omega), h.settled⟩

/-- The code keeps the types below `n` and adds no fields. -/
def Untouched (n : Nat) {α : Type} (x : M α) : Prop := ∀ w, n ≤ w.types.length → Keep n w (x w).2

namespace Untouched

variable {α β : Type}

theorem of_grow {x : M α} (h : Grow x) : Untouched n x := fun w hn => (h w).keep hn
theorem bind {x : M α} {f : α → M β} (hx : Untouched n x) (hf : ∀ a, Untouched n (f a)) : Untouched n (x >>= f) := by
  intro w hn
  rw [M.bind_run]
  have h := hx w hn
  rcases e : x w with ⟨r, w1⟩
  rw [e] at h
  cases r with
  | ok a => exact h.trans (hf a w1 (Nat.le_trans hn h.le))
  | _ => exact h
theorem pure (a : α) : Untouched n (Pure.pure a : M α) := of_grow (.pure a)
theorem liftM_bind {x : Res α} {f : α → M β} (hf : ∀ a, Untouched n (f a)) : Untouched n ((_root_.liftM x : M α) >>= f) :=
  (of_grow (.liftM x)).bind hf
theorem view_bind {g : World → Res α} {f : α → M β} (hf : ∀ a, Untouched n (f a)) : Untouched n (M.view g >>= f) :=
  (of_grow (.view g)).bind hf
theorem updType (t : Nat) (f : TypeRec → TypeRec) (hf : ∀ r, (f r).fields = r.fields)
    (hs : t < n → ∀ r, (f r).shape = r.shape) : Untouched n (M.modify (·.updType t f)) := fun w _ => .updType w t f hf hs
theorem types {f : World → World} (h : ∀ w, (f w).types = w.types) : Untouched n (M.modify f) := fun w hn =>
  .of_types (ts := []) (by rw [M.modify_run, h]; simp) hn (by simp)

end Untouched

variable {cfg : Cfg} {m : Metadata}

theorem resolveBase_untouched (t i : Nat) (h : n ≤ t) : Untouched n (resolveBase cfg m t i) := by
  unfold resolveBase
  refine Untouched.liftM_bind fun row => ?_
  split
  · exact Untouched.pure _
  · exact Untouched.liftM_bind fun _ => Untouched.view_bind fun b => Untouched.updType t _ (fun _ => rfl) fun h' => absurd h (by omega)

theorem resolveKind_untouched (t i : Nat) : Untouched n (resolveKind cfg m t i) := by
  unfold resolveKind
  exact Untouched.liftM_bind fun row => Untouched.view_bind fun b => Untouched.updType t _ (fun _ => rfl) fun _ _ => rfl

theorem resolveMethods_untouched (t i : Nat) : Untouched n (resolveMethods cfg m t i) := by
  unfold resolveMethods
  refine Untouched.liftM_bind fun ⟨s, k⟩ => Untouched.liftM_bind fun _ => Untouched.liftM_bind fun _ => ?_
  generalize s = j
  induction k generalizing j with
  | zero => exact Untouched.pure _
  | succ k ih =>
    unfold loadMethods
    refine (Untouched.of_grow (loadMethod_grow _ _)).bind fun _ => Untouched.bind ?_ fun _ => ih _
    exact Untouched.updType t _ (fun _ => rfl) fun _ _ => rfl

theorem nextTypeId_untouched : Untouched n (nextTypeId cfg) := by
  unfold nextTypeId
  refine Untouched.view_bind fun _ => Untouched.liftM_bind fun _ => Untouched.bind ?_ fun _ => Untouched.pure _
  exact Untouched.types fun _ => rfl

theorem loadTypes_untouched (a k : Nat) : ∀ i, Untouched n (loadTypes cfg a m k i) := by
  induction k with
  | zero => intro i; exact Untouched.pure _
  | succ k ih =>
    intro i
    unfold loadTypes
    refine Untouched.bind ?_ fun _ => (ih _).bind fun _ => Untouched.pure _
    unfold loadType
    refine Untouched.liftM_bind fun _ => Untouched.liftM_bind fun _ => Untouched.liftM_bind fun _ => nextTypeId_untouched.bind fun _ =>
      Untouched.view_bind fun _ => Untouched.bind (fun w hn => ?_) fun _ => Untouched.pure _
    exact .of_types (ts := [_]) rfl hn (by simp)

theorem loadInterfaces_untouched (rows : List InterfaceImplRow) : Untouched n (loadInterfaces cfg m rows) := by
  induction rows with
  | nil => exact Untouched.pure _
  | cons row rows ih =>
    unfold loadInterfaces
    refine Untouched.bind ?_ fun _ => ih
    have hl : ∀ a b, Untouched n (lookupRow m a b) := fun a b => by
      unfold lookupRow
      exact Untouched.liftM_bind fun _ => Untouched.liftM_bind fun _ => .of_grow (.view _)
    unfold loadInterface
    exact Untouched.liftM_bind fun _ => (hl _ _).bind fun _ => Untouched.liftM_bind fun _ => Untouched.liftM_bind fun ⟨_, _⟩ =>
      (hl _ _).bind fun _ => Untouched.liftM_bind fun _ => Untouched.updType _ _ (fun _ => rfl) fun _ _ => rfl

/-! ## Loading keeps the layout -/

/-- From a consistent registry: settled afterwards in any case, and after success `Q`. -/
def Sets (cfg : Cfg) {α : Type} (w : World) (x : M α) (Q : α → World → Prop) : Prop :=
  Inv w → Steps cfg w (x w).2 ∧ Settled (x w).2 ∧ ∀ a, (x w).1 = .ok a → Q a (x w).2

namespace Sets

variable {α β : Type}

theorem of_untouched {x : M α} {Q : α → World → Prop} (h : Untouched n x) (hr : Run cfg w x Q) (hw : Lay n w) :
    Sets cfg w x fun a w' => Lay n w' ∧ Q a w' := fun hi => by
  have := hw.keep (h w hw.le)
  exact ⟨(hr hi).1, this.settled, fun a ha => ⟨this, (hr hi).2 a ha⟩⟩

theorem bind {x : M α} {f : α → M β} {Q : α → World → Prop} {R : β → World → Prop} (hx : Sets cfg w x Q)
    (hf : ∀ a w1, Steps cfg w w1 → Q a w1 → Sets cfg w1 (f a) R) : Sets cfg w (x >>= f) R := by
  intro hi
  obtain ⟨hs, hl, hq⟩ := hx hi
  rw [M.bind_run]
  rcases e : x w with ⟨r, w1⟩
  rw [e] at hs hq hl
  cases r with
  | ok a =>
    have := hf a w1 hs (hq a rfl) (hi.steps hs)
    exact ⟨hs.trans this.1, this.2⟩
  | err m => exact ⟨hs, hl, fun _ h => by simp at h⟩
  | panic => exact ⟨hs, hl, fun _ h => by simp at h⟩
  | ub => exact ⟨hs, hl, fun _ h => by simp at h⟩
  | timeout => exact ⟨hs, hl, fun _ h => by simp at h⟩

theorem pure {a : α} {Q : α → World → Prop} (hl : Settled w) (h : Q a w) : Sets cfg w (Pure.pure a) Q :=
  fun _ => ⟨.refl w, hl, fun _ e => by cases e; exact h⟩

theorem conseq {x : M α} {Q R : α → World → Prop} (h : Sets cfg w x Q) (hq : ∀ a w1, Steps cfg w w1 → Q a w1 → R a w1) :
    Sets cfg w x R := by
  intro hi
  obtain ⟨h1, h2, h3⟩ := h hi
  exact ⟨h1, h2, fun a e => hq a _ h1 (h3 a e)⟩

theorem liftM_bind {x : Res α} {f : α → M β} {R : β → World → Prop} (hl : Settled w)
    (h : ∀ a, x = .ok a → Sets cfg w (f a) R) : Sets cfg w ((_root_.liftM x : M α) >>= f) R := by
  intro hi
  rw [M.bind_run, M.liftM_run]
  cases x with
  | ok a => exact h a rfl hi
  | err m => exact ⟨.refl w, hl, fun _ h => by simp at h⟩
  | panic => exact ⟨.refl w, hl, fun _ h => by simp at h⟩
  | ub => exact ⟨.refl w, hl, fun _ h => by simp at h⟩
  | timeout => exact ⟨.refl w, hl, fun _ h => by simp at h⟩

theorem view_bind {g : World → Res α} {f : α → M β} {R : β → World → Prop} (hl : Settled w)
    (h : ∀ a, g w = .ok a → Sets cfg w (f a) R) : Sets cfg w (M.view g >>= f) R := by
  intro hi
  rw [M.bind_run, M.view_run]
  cases hg : g w with
  | ok a => exact h a hg hi
  | err m => exact ⟨.refl w, hl, fun _ h => by simp at h⟩
  | panic => exact ⟨.refl w, hl, fun _ h => by simp at h⟩
  | ub => exact ⟨.refl w, hl, fun _ h => by simp at h⟩
  | timeout => exact ⟨.refl w, hl, fun _ h => by simp at h⟩

end Sets

/-- The offset for the next field of `t`. -/
def NextOffset (w : World) (t offset : Nat) : Prop := ∀ r s k, w.types[t]? = some r → StartsAt w t r.base s →
  FieldsSize w t r.fields k → s + k < 2 ^ 64 → offset = s + k

/-- Appending a field at the right offset. -/
theorem Lay.addField {t : Nat} (h : Lay (t + 1) w) {f : FieldRec} (ho : NextOffset w t f.offset) :
    Lay (t + 1) (w.updType t fun tr => { tr with fields := tr.fields ++ [f] }) := by
  have key : ∀ i, (w.updType t fun tr => { tr with fields := tr.fields ++ [f] }).types[i]? =
      if t = i then w.types[i]?.map fun tr => { tr with fields := tr.fields ++ [f] } else w.types[i]? := fun i => by
    simp only [World.updType, getElem?_modify']
  have h1 : Same t w (w.updType t fun tr => { tr with fields := tr.fields ++ [f] }) := fun i r hi hr =>
    ⟨r, by rw [key, if_neg (by omega), hr], rfl⟩
  have h2 : Same t (w.updType t fun tr => { tr with fields := tr.fields ++ [f] }) w := fun i r hi hr =>
    ⟨r, by rw [key, if_neg (by omega)] at hr; exact hr, rfl⟩
  refine ⟨by simpa [World.updType] using h.le, fun i r hi hr => ?_, fun i r s k hr hb hf hl => ?_⟩
  · rw [key, if_neg (by omega)] at hr
    exact h.bare i r hi hr
  · rcases Nat.lt_trichotomy t i with hti | rfl | hti
    · rw [key, if_neg (by omega)] at hr
      rw [h.bare i r hti hr]; trivial
    · rw [key, if_pos rfl] at hr
      obtain ⟨q, hq, rfl⟩ := Option.map_eq_some_iff.1 hr
      simp only at hb hf ⊢
      have hf' := hf.same h2 (Nat.le_refl _)
      obtain ⟨m, k', a1, a2, a3, a4, a5, rfl⟩ := fieldsSize_snoc hf'
      have hb' := hb.same h2 (Nat.le_refl _)
      have := h.settled t q s k' hq hb' a5 (by omega)
      exact (this.snoc a5 (ho q s k' hq hb' a5 (by omega)) a4).same h1 (Nat.le_refl _) hf'
    · rw [key, if_neg (by omega)] at hr
      have hf' := hf.same h2 (Nat.le_of_lt hti)
      exact (h.settled i r s k hr (hb.same h2 (Nat.le_of_lt hti)) hf' hl).same h1 (Nat.le_of_lt hti) hf'

theorem NextOffset.keep {t o : Nat} (h : NextOffset w t o) (hk : Keep (t + 1) w w') : NextOffset w' t o := by
  intro r s k hr hb hf hl
  obtain ⟨q, q1, q2, q3, -⟩ := hk.back.get (Nat.lt_succ_self t) hr
  have hs := hk.back.mono (Nat.le_succ t)
  exact h q s k q1 (by rw [q3]; exact hb.same hs (Nat.le_refl _)) (by rw [q2]; exact hf.same hs (Nat.le_refl _)) hl

theorem loadFields_sets (fuel t k : Nat) : ∀ w i o, Lay (t + 1) w → NextOffset w t o →
    Sets cfg w (loadFields cfg fuel m t k i o) fun _ w' => Lay (t + 1) w' := by
  induction k with
  | zero => intro w i o hl _; exact Sets.pure hl.settled hl
  | succ k ih =>
    intro w i o hl ho
    unfold loadFields
    have huntouched : Untouched (t + 1) (loadField cfg m t i o) := .of_grow (loadField_grow _ _ _)
    refine Sets.bind (Q := fun f w1 => Lay (t + 1) w1 ∧ NextOffset w1 t o ∧ f.fieldType < w1.types.length ∧ f.offset = o ∧
      f.declaringType = t) ?_ fun f w1 hs1 ⟨l1, o1, f1, f2, f3⟩ => ?_
    · intro hi
      have hk := huntouched w hl.le
      have hr := loadField_run (cfg := cfg) (m := m) (w := w) t i o hi
      exact ⟨hr.1, (hl.keep hk).settled, fun a ha => ⟨hl.keep hk, ho.keep hk, (hr.2 a ha).1, (hr.2 a ha).2.1,
        (hr.2 a ha).2.2.declaring⟩⟩
    · subst f2
      have l2 := l1.addField o1
      intro hi1
      rw [M.modify_bind]
      have hi2 := hi1.upd (.field (cfg := cfg) w1 t f f1 f3)
      have hstep : Steps cfg w1 _ := .single (.field (cfg := cfg) w1 t f f1 f3)
      generalize hw2 : (w1.updType t fun tr => { tr with fields := tr.fields ++ [f] }) = w2 at hi2 hstep l2
      have := Sets.view_bind (cfg := cfg) (w := w2) (g := fun w => typeSize cfg w fuel f.fieldType) (f := fun s => do
          let offset ← uadd cfg 64 f.offset s
          let fs ← loadFields cfg fuel m t k (i + 1) offset
          pure (f :: fs)) (R := fun _ w' => Lay (t + 1) w') l2.settled (fun s hs => ?_) hi2
      · exact ⟨hstep.trans this.1, this.2⟩
      · refine Sets.liftM_bind l2.settled fun o' ho' => ?_
        refine (ih w2 (i + 1) o' l2 ?_).bind fun fs w3 _ l3 => Sets.pure l3.settled l3
        intro r s0 k0 hr hb hf hlt
        have hr1 : ∃ q, w1.types[t]? = some q ∧ r = { q with fields := q.fields ++ [f] } := by
          rw [← hw2] at hr
          simp only [World.updType, getElem?_modify', if_true] at hr
          obtain ⟨q, hq, rfl⟩ := Option.map_eq_some_iff.1 hr
          exact ⟨q, hq, rfl⟩
        obtain ⟨q, q1, rfl⟩ := hr1
        have h2 : Same t w2 w1 := fun j r hj hr => ⟨r, by
          rw [← hw2] at hr
          simpa only [World.updType, getElem?_modify', if_neg (show ¬ t = j by omega)] using hr, rfl⟩
        obtain ⟨z, k', a1, a2, a3, a4, a5, rfl⟩ := fieldsSize_snoc hf
        have e1 := o1 q s0 k' q1 (hb.same h2 (Nat.le_refl _)) (a5.same h2 (Nat.le_refl _)) (by omega)
        have e2 := typeSize_ok hi2 a4 (by omega) hs
        rw [e1, e2, uadd_ok (by omega)] at ho'
        cases ho'; omega

theorem resolveFields_sets (fuel t i : Nat) (hl : Lay t w) (ht : t < w.types.length) :
    Sets cfg w (resolveFields cfg fuel m t i) fun _ w' => Lay (t + 1) w' := by
  intro hi
  revert hi
  unfold resolveFields
  show Sets cfg w _ _
  intro hi
  refine Sets.liftM_bind hl.settled (fun ⟨s, k⟩ _ => Sets.liftM_bind hl.settled fun _ _ => Sets.liftM_bind hl.settled fun _ _ =>
    Sets.view_bind hl.settled fun o ho => loadFields_sets _ _ _ _ _ _ (hl.mono (Nat.le_succ t) ht) ?_) hi
  intro r s k hr hb hf hlt
  unfold baseSize at ho
  obtain ⟨r', h1, ho⟩ := Res.bind_eq_ok.1 ho
  rw [typeAt_eq_ok, hr] at h1
  cases h1
  have := hl.bare t r (Nat.le_refl _) hr
  rw [this] at hf
  cases hf
  cases hbase : r.base with
  | none => rw [hbase] at ho hb; cases ho; exact hb.symm
  | some b =>
    rw [hbase] at ho hb
    exact typeSize_ok hi (.inr hb.2) (by omega) ho

theorem resolveType_sets (fuel t i : Nat) (hl : Lay t w) (ht : t < w.types.length) :
    Sets cfg w (resolveType cfg fuel m t i) fun _ w' => Lay (t + 1) w' := by
  unfold resolveType
  refine (Sets.of_untouched (resolveBase_untouched t i (Nat.le_refl t)) (resolveBase_run t i) hl).bind fun _ w1 s1 ⟨l1, _⟩ => ?_
  refine (Sets.of_untouched (resolveKind_untouched t i) (resolveKind_run t i) l1).bind fun _ w2 s2 ⟨l2, _⟩ => ?_
  refine (resolveFields_sets fuel t i l2 (Nat.lt_of_lt_of_le ht (Nat.le_trans s1.le s2.le))).bind fun _ w3 s3 l3 => ?_
  exact (Sets.of_untouched (resolveMethods_untouched t i) (resolveMethods_run t i) l3).bind fun _ w4 s4 ⟨l4, _⟩ =>
    Sets.pure l4.settled l4

theorem resolveTypes_sets (fuel k : Nat) : ∀ w t i, Lay t w → t + k ≤ w.types.length →
    Sets cfg w (resolveTypes cfg fuel m (List.range' t k) i) fun _ w' => Lay (t + k) w' := by
  induction k with
  | zero => intro w t i hl _; exact Sets.pure hl.settled hl
  | succ k ih =>
    intro w t i hl ht
    rw [List.range'_succ]
    unfold resolveTypes
    refine (resolveType_sets fuel t i hl (by omega)).bind fun _ w1 s1 l1 => ?_
    refine (ih w1 (t + 1) (i + 1) l1 (by have := s1.le; omega)).bind fun _ w2 _ l2 => ?_
    rw [show t + 1 + k = t + (k + 1) by omega] at l2
    exact Sets.pure l2.settled l2

theorem Settled.types (h : Settled w) (e : w'.types = w.types) : Settled w' :=
  (h.lay.keep (.of_types (ts := []) (by simp [e]) (Nat.le_refl _) (by simp))).settled

theorem loadSelf_sets (fuel : Nat) (name : Name) (h : Settled w) : Sets cfg w (loadSelf cfg fuel m name) fun _ _ => True := by
  unfold loadSelf
  have refs : ∀ (w : World) (α : Type) (x : M α) (Q : α → World → Prop), Settled w → (∀ v, (x v).2 = v) → Run cfg w x Q →
      Sets cfg w x (fun a w' => Q a w' ∧ Settled w') := fun w α x Q h1 h2 h3 hi =>
    ⟨(h3 hi).1, by rw [h2]; exact h1, fun a ha => ⟨(h3 hi).2 a ha, by rw [h2]; exact h1⟩⟩
  have hx : ∀ {α β : Type} (x : M α) (f : α → M β), (∀ v, (x v).2 = v) → (∀ a v, (f a v).2 = v) → ∀ v, ((x >>= f) v).2 = v := by
    intro α β x f h1 h2 v
    rw [M.bind_run]
    have := h1 v
    rcases e : x v with ⟨r, v1⟩
    rw [e] at this
    cases this
    cases r <;> first | rfl | exact h2 _ _
  have hlift : ∀ {α : Type} (x : Res α) (v : World), ((_root_.liftM x : M α) v).2 = v := fun _ _ => rfl
  have hlook : ∀ a b v, (lookupRow m a b v).2 = v := fun a b v => by
    unfold lookupRow
    exact hx _ _ (hlift _) (fun _ => hx _ _ (hlift _) fun _ _ => rfl) v
  have hmem : ∀ rows v, (loadMemberRefs cfg m rows v).2 = v := fun rows => by
    induction rows with
    | nil => exact fun _ => rfl
    | cons row rows ih =>
      unfold loadMemberRefs
      refine hx _ _ ?_ fun _ => hx _ _ ih fun _ _ => rfl
      unfold loadMemberRef
      split
      · exact hx _ _ (hlift _) fun _ => hx _ _ (hlook _ _) fun _ => hx _ _ (hlift _) fun _ => hx _ _ (hlift _) fun _ =>
          hx _ _ (hlift _) fun _ => hx _ _ (fun _ => rfl) fun _ => hx _ _ (hlift _) fun _ _ => rfl
      · exact fun _ => rfl
  have htyp : ∀ rows v, (loadTypeRefs m rows v).2 = v := fun rows => by
    induction rows with
    | nil => exact fun _ => rfl
    | cons row rows ih =>
      unfold loadTypeRefs
      exact hx _ _ (hlook _ _) fun _ => hx _ _ (hlift _) fun _ => hx _ _ ih fun _ _ => rfl
  refine (refs w _ _ _ h (hmem _) (loadMemberRefs_run _)).bind fun _ w1 _ ⟨_, h1⟩ => ?_
  refine (refs w1 _ _ _ h1 (htyp _) (loadTypeRefs_run _)).bind fun _ w2 _ ⟨_, h2⟩ => ?_
  refine Sets.view_bind h2 fun id hid => ?_
  refine Sets.bind (Q := fun _ w3 => Settled w3 ∧ id < w3.nextAssembly)
    (fun _ => ⟨.single (.assemblyId w2), h2.types rfl, fun _ _ => ⟨h2.types rfl, by cases hid; exact Nat.lt_succ_self _⟩⟩) fun _ w3 _ ⟨l3, h3⟩ => ?_
  refine (Sets.of_untouched (loadTypes_untouched _ _ _) (loadTypes_run _ _ w3 _) l3.lay).bind fun ts w4 s4 ⟨l4, h4, h5⟩ => ?_
  subst h4
  refine (resolveTypes_sets fuel _ w4 _ 0 l4 (by omega)).bind fun fs w5 s5 l5 => ?_
  refine (Sets.of_untouched (loadInterfaces_untouched _) (loadInterfaces_run _ w5) l5).bind fun _ w6 s6 ⟨l6, _⟩ => ?_
  refine Sets.view_bind l6.settled fun ms _ => Sets.liftM_bind l6.settled fun ep _ => ?_
  exact Sets.bind (Q := fun _ w7 => Settled w7)
    (fun _ => ⟨.single (.assembly w6 _ (Nat.lt_of_lt_of_le h3 ((s4.trans s5).trans s6).nextAssembly_le)), l6.settled.types rfl, fun _ _ => l6.settled.types rfl⟩)
    fun _ w7 _ l7 => Sets.pure l7 True.intro

theorem loadRefs_sets {load : Name → M AssemblyRec} (hl : ∀ n w, Settled w → Sets cfg w (load n) fun _ _ => True)
    (rows : List AssemblyRefRow) : ∀ w, Settled w → Sets cfg w (loadRefs load m rows) fun _ w' => Settled w' := by
  induction rows with
  | nil => intro w h; exact Sets.pure h h
  | cons row rows ih =>
    intro w h
    unfold loadRefs
    refine Sets.liftM_bind h fun _ _ => Sets.liftM_bind h fun n _ => Sets.view_bind h fun b _ => ?_
    split
    · exact ih w h
    · have : Sets cfg w (load n) fun _ w' => Settled w' := fun hi => by
        have := hl n w h hi
        exact ⟨this.1, this.2.1, fun _ _ => this.2.1⟩
      exact this.bind fun _ w1 _ h1 => ih w1 h1

theorem loadData_sets (fs : Name → Option Bytes) (depth : Nat) : ∀ fuel data w, Settled w →
    Sets cfg w (loadData cfg fs depth fuel data) fun _ _ => True := by
  induction depth with
  | zero => intro fuel data w h; exact fun _ => ⟨.refl w, h, fun _ e => by simp [loadData, M.lift] at e⟩
  | succ d ih =>
    intro fuel data w h
    unfold loadData
    refine Sets.liftM_bind h fun m _ => Sets.liftM_bind h fun _ _ => Sets.liftM_bind h fun _ _ => ?_
    refine (loadRefs_sets (fun n w h => ?_) _ w h).bind fun _ w1 _ h1 => loadSelf_sets _ _ h1
    exact Sets.liftM_bind h fun d _ => ih _ _ _ h

theorem Reached.settled {w : World} (h : Reached cfg w) : Settled w := by
  induction h with
  | start => exact fun t r s k hr => by simp at hr
  | @runtime v fs depth fuel a b h ih =>
    have : Sets cfg v (newRuntime cfg fs depth fuel a b) fun _ _ => True := by
      unfold newRuntime
      have hd : ∀ d w, Settled w → Sets cfg w (loadData cfg fs depth fuel d) fun _ w' => Settled w' := fun d w h hi => by
        have := loadData_sets (cfg := cfg) fs depth fuel d w h hi
        exact ⟨this.1, this.2.1, fun _ _ => this.2.1⟩
      refine (hd _ _ ih).bind fun _ w1 _ h1 => (hd _ _ h1).bind fun _ w2 _ h2 => ?_
      have hs : (loadPrimitives w2).2.types = w2.types := by
        have hv : ∀ {α β : Type} (g : World → Res α) (f : α → M β), (∀ a, ((f a) w2).2.types = w2.types) →
            ((M.view g >>= f) w2).2.types = w2.types := by
          intro α β g f hf
          rw [M.bind_run, M.view_run]
          cases g w2 with
          | ok a => exact hf a
          | _ => rfl
        unfold loadPrimitives getTypeUnwrap
        repeat refine hv _ _ fun _ => ?_
        rfl
      exact fun hi => ⟨(loadPrimitives_run w2 hi).1, h2.types hs, fun _ _ => True.intro⟩
    exact (this h.inv).2.1
  | loadFile fs depth fuel data h ih => exact (loadData_sets fs depth fuel data _ ih h.inv).2.1
  | @loadName v fs depth fuel n h ih =>
    have : Sets cfg v (loadAssembly cfg fs depth fuel n) fun _ _ => True := by
      unfold loadAssembly
      exact Sets.liftM_bind ih fun d _ => loadData_sets _ _ _ _ _ ih
    exact (this h.inv).2.1
  | arrayOf t h ih => exact (ih.lay.keep ((arrayType_grow t _).keep (Nat.le_refl _))).settled
  | write s h ih => exact ih.types rfl

/-! ## Reading the layout off -/

/-- Own fields starting at `o`. -/
theorem laid_apart {fs : List FieldRec} {t o k : Nat} (hf : FieldsSize w t fs k) (hl : Laid w o fs) :
    fs.Pairwise (Apart w) ∧ (∀ f ∈ fs, f.isStatic = false ∧ ValueLike w f.fieldType) ∧
      ∀ f ∈ fs, ∃ a, ValueWidth w f.fieldType a ∧ o ≤ f.offset ∧ f.offset + a ≤ o + k := by
  induction fs generalizing t o k with
  | nil => exact ⟨.nil, by simp, by simp⟩
  | cons f fs ih =>
    obtain ⟨n, k', h1, _, h3, h4, h5, rfl⟩ := fieldsSize_cons.1 hf
    obtain ⟨g1, n', g2, g3⟩ := hl
    obtain rfl := h4.unique g2
    obtain ⟨i1, i2, i3⟩ := ih h5 g3
    refine ⟨List.pairwise_cons.2 ⟨fun g hg a b ha hb => ?_, i1⟩, fun g hg => ?_, fun g hg => ?_⟩
    · obtain ⟨c, c1, c2, c3⟩ := i3 g hg
      rcases ha with ⟨_, ha⟩ | ⟨ha, _⟩
      · obtain rfl := h4.unique ha
        left; omega
      · exact absurd h3 ha
    · rcases List.mem_cons.1 hg with rfl | hg
      · exact ⟨h1, h3⟩
      · exact i2 g hg
    · rcases List.mem_cons.1 hg with rfl | hg
      · exact ⟨n, h4, by omega, by omega⟩
      · obtain ⟨c, c1, c2, c3⟩ := i3 g hg
        exact ⟨c, c1, by omega, by omega⟩

/-- The fields of a class and its bases. -/
theorem allFields_laid (hs : Settled w) {t s fuel : Nat} {fs : List FieldRec} (h : ClassSize w t s) (hlt : s < 2 ^ 64)
    (ha : allFields w fuel t = .ok fs) : fs.Pairwise (Apart w) ∧ (∀ f ∈ fs, f.isStatic = false ∧ ValueLike w f.fieldType) ∧
      ∀ f ∈ fs, ∃ a, ValueWidth w f.fieldType a ∧ f.offset + a ≤ s := by
  induction fuel generalizing t s fs with
  | zero => cases ha
  | succ fuel ih =>
    unfold allFields at ha
    cases h with
    | root g1 _ g3 g4 =>
      rw [typeAt_eq_ok.2 g1, Res.ok_bind, g3] at ha
      cases ha
      have := laid_apart g4 (hs t _ 0 _ g1 (by rw [g3]; rfl) g4 (by omega))
      exact ⟨this.1, this.2.1, fun f hf => by obtain ⟨a, a1, a2, a3⟩ := this.2.2 f hf; exact ⟨a, a1, by omega⟩⟩
    | derived g1 _ g3 g4 g5 g6 =>
      rw [typeAt_eq_ok.2 g1, Res.ok_bind, g3] at ha
      obtain ⟨bs, hb, ha⟩ := Res.bind_eq_ok.1 ha
      cases ha
      have := laid_apart g6 (hs t _ _ _ g1 (by rw [g3]; exact ⟨g4, g5⟩) g6 (by omega))
      obtain ⟨f1, f2, f3⟩ := ih g5 (by omega) hb
      refine ⟨List.pairwise_append.2 ⟨this.1, f1, fun f hf g hg a b ha hb => ?_⟩, fun f hf => ?_, fun f hf => ?_⟩
      · obtain ⟨c, c1, c2, c3⟩ := this.2.2 f hf
        obtain ⟨d, d1, d2⟩ := f3 g hg
        rcases hb with ⟨_, hb⟩ | ⟨hb, _⟩
        · obtain rfl := hb.unique d1
          right; omega
        · exact absurd (f2 g hg).2 hb
      · rcases List.mem_append.1 hf with hf | hf
        · exact this.2.1 f hf
        · exact f2 f hf
      · rcases List.mem_append.1 hf with hf | hf
        · obtain ⟨c, c1, c2, c3⟩ := this.2.2 f hf
          exact ⟨c, c1, by omega⟩
        · obtain ⟨d, d1, d2⟩ := f3 f hf
          exact ⟨d, d1, by omega⟩

theorem allFields_exists {t s fuel : Nat} (h : ClassSize w t s) (hf : t < fuel) : ∃ fs, allFields w fuel t = .ok fs := by
  induction fuel generalizing t s with
  | zero => omega
  | succ fuel ih =>
    unfold allFields
    cases h with
    | root g1 _ g3 g4 => rw [typeAt_eq_ok.2 g1, Res.ok_bind, g3]; exact ⟨_, rfl⟩
    | derived g1 _ g3 g4 g5 g6 =>
      rw [typeAt_eq_ok.2 g1, Res.ok_bind, g3]
      obtain ⟨fs, h⟩ := ih g5 (by omega)
      simp only [h, Res.ok_bind]
      exact ⟨_, rfl⟩

end Clr
