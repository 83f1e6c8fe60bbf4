import Verif.Spec.Program
import Verif.Lemmas.Silent
import Verif.Props.Whole
import Verif.Props.Arrays
import Verif.Props.Heaps
import Verif.Props.Objective
/-! # The records of a loaded program with objects -/

namespace Clr
open Spec

/-- A row is in one run only. -/
theorem owns_unique {starts : List Nat} {rows i i' j : Nat} (hp : Partition starts rows) (h : Owns starts rows i j)
    (h' : Owns starts rows i' j) : i = i' := by
  have key : ∀ {a b : Nat}, Owns starts rows a j → Owns starts rows b j → ¬ a < b := by
    rintro a b ⟨-, h2, -⟩ ⟨⟨s, h3, h4⟩, -, -⟩ hlt
    have hb := (List.getElem?_eq_some_iff.mp h3).1
    have he := h2 _ (List.getElem?_eq_getElem (show a + 1 < starts.length by omega))
    have hs : starts[b] = s := (List.getElem?_eq_some_iff.mp h3).2
    rcases Nat.lt_or_ge (a + 1) b with hl | hl
    · have := List.pairwise_iff_getElem.mp hp.2.2.1 (a + 1) b (by omega) hb hl
      omega
    · obtain rfl : b = a + 1 := by omega
      omega
  rcases Nat.lt_trichotomy i i' with hl | hl | hl
  · exact absurd hl (key h h')
  · exact hl
  · exact absurd hl (key h' h)

section
variable {cfg : Cfg} {m : Metadata} {w w' : World} {d : Decls} {entry : Nat → Prop} {name : Name} {a : AssemblyRec}

theorem self_types (hs : SelfIs cfg m name w w' a) {k t : Nat} (hk : a.types[k]? = some t) :
    t = w.types.length + k ∧ k < m.tables.typeDef.length := by
  rw [hs.types] at hk
  have hl := (List.getElem?_eq_some_iff.mp hk).1
  rw [List.length_range'] at hl
  rw [List.getElem?_range' hl, Nat.one_mul] at hk
  cases hk
  exact ⟨rfl, hl⟩

theorem self_type (hs : SelfIs cfg m name w w' a) {k : Nat} (hk : k < m.tables.typeDef.length) :
    a.types[k]? = some (w.types.length + k) := by
  rw [hs.types, List.getElem?_range' hk, Nat.one_mul]

/-- The fields of a loaded assembly: those of its types one after the other. -/
theorem loaded_fields (hwf : WellFormed entry m w d) (hs : SelfIs cfg m name w w' a) :
    a.fields.length = m.tables.field.length ∧
    ∀ (k : Nat) row, m.tables.typeDef[k]? = some row → ∃ tr, w'.types[w.types.length + k]? = some tr ∧
      tr.fields.length = runLength (m.tables.typeDef.map (·.fieldList)) m.tables.field.length k ∧
      ∀ (i : Nat) f, tr.fields[i]? = some f → 1 ≤ row.fieldList + i ∧ row.fieldList + i ≤ m.tables.field.length ∧
        a.fields[row.fieldList + i - 1]? = some f := by
  obtain ⟨fss, h1, h2, h3⟩ := hs.fields
  have htl : a.types.length = m.tables.typeDef.length := by rw [hs.types]; simp
  have hrun : ∀ (k : Nat) row, m.tables.typeDef[k]? = some row → ∃ tr, w'.types[w.types.length + k]? = some tr ∧
      fss[k]? = some tr.fields ∧ ownedRun cfg m (·.fieldList) m.tables.field.length k = .ok (row.fieldList, tr.fields.length) ∧
      tr.fields.length = runLength (m.tables.typeDef.map (·.fieldList)) m.tables.field.length k := by
    intro k row hrow
    have hk := (List.getElem?_eq_some_iff.mp hrow).1
    obtain ⟨tr, fs, h4, h5, rfl, s, n, h6, h7, -⟩ := h3 k _ (self_type hs hk)
    rw [ownedRun_partition hwf.fieldRuns hrow] at h6
    cases h6
    refine ⟨tr, h4, h5, ?_, ?_⟩
    · rw [ownedRun_partition hwf.fieldRuns hrow, h7]
    · rw [h7]
      exact runLength_eq (by simp [hrow])
  obtain ⟨g1, g2⟩ := runs_cover (cfg := cfg) (P := fun t r x => ∃ k row tr i, t = w.types.length + k ∧ m.tables.typeDef[k]? = some row ∧
      w'.types[t]? = some tr ∧ tr.fields[i]? = some x ∧ r = row.fieldList + i) hwf.fieldRuns h2 htl fun k t hk => by
    obtain ⟨rfl, hl⟩ := self_types hs hk
    obtain ⟨tr, h4, h5, h6, -⟩ := hrun k _ (List.getElem?_eq_getElem hl)
    exact ⟨_, h5, _, _, h6, rfl, fun i x hx => ⟨k, _, tr, i, rfl, List.getElem?_eq_getElem hl, h4, hx, rfl⟩⟩
  refine ⟨by rw [h1]; exact g1, fun k row hrow => ?_⟩
  obtain ⟨tr, h4, -, -, h7⟩ := hrun k row hrow
  refine ⟨tr, h4, h7, fun i f hf => ?_⟩
  have hi : i < runLength (m.tables.typeDef.map (·.fieldList)) m.tables.field.length k := by
    rw [← h7]; exact (List.getElem?_eq_some_iff.mp hf).1
  have hst : (m.tables.typeDef.map (·.fieldList))[k]? = some row.fieldList := by simp [hrow]
  have hown := run_owns hwf.fieldRuns hst hi
  have hge := (partition_start hwf.fieldRuns hst).1
  have hle := hown.2.2
  refine ⟨by omega, hle, ?_⟩
  have hlt : row.fieldList + i - 1 < fss.flatten.length := by omega
  obtain ⟨i2, t, ht, ho, k2, row2, tr2, i3, e1, e2, e3, e4, e5⟩ := g2 _ _ (List.getElem?_eq_getElem hlt)
  rw [show row.fieldList + i - 1 + 1 = row.fieldList + i by omega] at ho e5
  obtain rfl := owns_unique hwf.fieldRuns hown ho
  obtain rfl : k2 = k := by have := (self_types hs ht).1; omega
  rw [hrow] at e2; cases e2
  rw [e1, h4] at e3; cases e3
  obtain rfl : i3 = i := by omega
  rw [h1, List.getElem?_eq_getElem hlt, ← e4, hf]

theorem resolvable_kind {κ : Obj.Kind} {n : Name} (h : Resolvable m w κ.sig n) : n = κ.typeName := by
  obtain ⟨root, h, -⟩ := h
  cases κ <;> cases h with
  | builtin h => cases h; rfl

/-- A row of the field table is a field of its type. -/
theorem loaded_field (hwf : WellFormed entry m w d) (hs : SelfIs cfg m name w w' a) (hm : Mid m w d w') {j : Nat} {f : FieldRec}
    (h1 : 1 ≤ j) (h2 : j ≤ m.tables.field.length) (hf : a.fields[j - 1]? = some f) {κ : Obj.Kind}
    (hd : d.fieldType j = κ.sig) : ∃ tr, w'.types[f.fieldType]? = some tr ∧ tr.fullName = κ.typeName := by
  obtain ⟨fss, g1, g2, g3⟩ := hs.fields
  have htl : a.types.length = m.tables.typeDef.length := by rw [hs.types]; simp
  obtain ⟨-, c2⟩ := runs_cover (cfg := cfg) (P := fun _ r x => FieldIs m w d w' r x) hwf.fieldRuns g2 htl fun k t hk => by
    obtain ⟨rfl, hl⟩ := self_types hs hk
    obtain ⟨tr, fs, h4, h5, rfl, s, n, h6, h7, -⟩ := g3 k _ hk
    obtain ⟨tr', o1, o2⟩ := hm.own k hl
    rw [h4] at o1; cases o1
    have hrow : m.tables.typeDef[k]? = some m.tables.typeDef[k] := List.getElem?_eq_getElem hl
    refine ⟨_, h5, s, n, h6, h7, fun i x hx => ?_⟩
    rw [ownedRun_partition hwf.fieldRuns hrow] at h6
    cases h6
    exact (o2.fields _ hrow).2 i x hx
  obtain ⟨-, -, -, -, c3⟩ := c2 (j - 1) f (by rw [← g1]; exact hf)
  rw [show j - 1 + 1 = j by omega] at c3
  obtain ⟨fr, c4, c5⟩ := c3.type
  have hfo := hwf.fields (j - 1) _ (List.getElem?_eq_getElem (by omega))
  rw [show j - 1 + 1 = j by omega] at hfo
  have := hfo.type
  rw [hd] at this
  exact ⟨fr, c4, c5.trans (resolvable_kind this)⟩

/-- There is one type with that name, the old one. -/
theorem Mid.old_unique (hm : Mid m w d w') (hwf : WellFormed entry m w d) {n : Name} {i : Nat} (hd : ¬ Declared m n)
    (hk : Registered w n) (hu : ∀ (t : Nat) r, w.types[t]? = some r → r.fullName = n → t = i) {t : Nat} {r : TypeRec}
    (hr : w'.types[t]? = some r) (hn : r.fullName = n) : t = i := by
  rcases Nat.lt_or_ge t w.types.length with hl | hl
  · have h1 := hm.old t _ (List.getElem?_eq_getElem hl)
    rw [hr] at h1; cases h1
    exact hu t _ (List.getElem?_eq_getElem hl) hn
  · rcases Nat.lt_or_ge t (w.types.length + m.tables.typeDef.length) with hl' | hl'
    · obtain ⟨tr, h1, h2⟩ := hm.own (t - w.types.length) (by omega)
      rw [show w.types.length + (t - w.types.length) = t by omega, hr] at h1; cases h1
      exact absurd ⟨_, by rw [← hn, h2.name]; exact hwf.typeNames _ (by omega)⟩ hd
    · exact absurd (.inl (hn ▸ hk)) (hm.extra t r hl' hr).unknown

/-- There is one type with that name, the declared one. -/
theorem Mid.own_unique (hm : Mid m w d w') (hwf : WellFormed entry m w d) {k : Nat} (hk : k < m.tables.typeDef.length)
    (hr : ¬ Registered w (d.name k)) (hu : ∀ i < m.tables.typeDef.length, d.name i = d.name k → i = k) {t : Nat} {r : TypeRec}
    (ht : w'.types[t]? = some r) (hn : r.fullName = d.name k) : t = w.types.length + k := by
  rcases Nat.lt_or_ge t w.types.length with hl | hl
  · have h1 := hm.old t _ (List.getElem?_eq_getElem hl)
    rw [ht] at h1; cases h1
    exact absurd ⟨t, _, List.getElem?_eq_getElem hl, hn⟩ hr
  · rcases Nat.lt_or_ge t (w.types.length + m.tables.typeDef.length) with hl' | hl'
    · obtain ⟨tr, h1, h2⟩ := hm.own (t - w.types.length) (by omega)
      rw [show w.types.length + (t - w.types.length) = t by omega, ht] at h1; cases h1
      have := hu _ (by omega) (h2.name.symm.trans hn)
      omega
    · exact absurd (.inr ⟨_, by rw [hn]; exact hwf.typeNames _ hk⟩) (hm.extra t r hl' ht).unknown

theorem Mid.same (hm : Mid m w d w') (n : Nat) : Same n w w' := fun i r _ hr => ⟨r, hm.old i r hr, rfl⟩

/-- A declared base class is recorded. -/
theorem loaded_base (hwf : WellFormed entry m w d) (hs : SelfIs cfg m name w w' a) (hm : Mid m w d w') {k : Nat} {n : Name}
    {tr : TypeRec} (hk : k < m.tables.typeDef.length) (htr : w'.types[w.types.length + k]? = some tr) (hb : d.base k = some n) :
    ∃ b br, tr.base = some b ∧ w'.types[b]? = some br ∧ br.fullName = n := by
  obtain ⟨row, tr', h1, h2, h3⟩ := hs.kinds k _ (self_type hs hk)
  rw [htr] at h2; cases h2
  have hrow := tableIndex_inv (by omega) h1
  rw [show k + 1 - 1 = k by omega] at hrow
  have hbase := hwf.bases k row hrow
  rw [hb] at hbase
  cases ho : tr.base with
  | none =>
    have h4 := h3.base
    rw [ho] at h4
    cases h4 with
    | none hh =>
      rw [hh] at hbase
      cases hbase with
      | some hn _ => cases hn with | typeDef _ _ _ _ h0 => omega
  | some b =>
    obtain ⟨tr', g1, g2⟩ := hm.own k hk
    rw [htr] at g1; cases g1
    obtain ⟨-, br, g3, g4⟩ := g2.base b ho
    rw [hb] at g4; cases g4
    exact ⟨b, br, rfl, g3, rfl⟩

/-! ## Sizes and offsets -/

/-- The numeric types: each is registered once, and has no base class with fields. -/
structure Numbers (w w' : World) (ty : Obj.Kind → Nat) : Prop where
  like : ∀ κ, ValueLike w (ty κ)
  record : ∀ κ, ∃ r, w.types[ty κ]? = some r ∧ r.fullName = κ.typeName
  unique : ∀ κ (t : Nat) r, w'.types[t]? = some r → r.fullName = κ.typeName → t = ty κ

theorem kind_width (κ : Obj.Kind) : primitiveWidth κ.typeName = some κ.width := by cases κ <;> decide

theorem numFields_size {ty : Obj.Kind → Nat} (hl : ∀ κ, ValueLike w' (ty κ))
    (hr : ∀ κ, ∃ r, w'.types[ty κ]? = some r ∧ r.fullName = κ.typeName) {t : Nat} (ht : ∀ κ, ty κ < t) {fs : List FieldRec}
    {ks : List (Nat × Obj.Kind)} (hf : All2 (fun f k => f.isStatic = false ∧ f.fieldType = ty k.2) fs ks) :
    FieldsSize w' t fs (widths ks) := by
  induction hf with
  | nil => exact .nil
  | @cons f k fs ks h _ ih =>
    obtain ⟨h1, h2⟩ := h
    obtain ⟨r, h3, h4⟩ := hr k.2
    exact .primitive h1 (by rw [h2]; exact ht _) (by rw [h2]; exact hl _) (by rw [h2]; exact h3) (by rw [h4]; exact kind_width _) ih

theorem numFields_laid {ty : Obj.Kind → Nat} (hr : ∀ κ, ∃ r, w'.types[ty κ]? = some r ∧ r.fullName = κ.typeName) {s : Nat}
    {fs : List FieldRec} {ks : List (Nat × Obj.Kind)} (hf : All2 (fun f k => f.isStatic = false ∧ f.fieldType = ty k.2) fs ks)
    (h : Laid w' s fs) : ∀ (j : Nat) f, fs[j]? = some f → f.offset = s + widths (ks.take j) := by
  induction hf generalizing s with
  | nil => intro j f hf; simp at hf
  | @cons g k fs ks hg _ ih =>
    obtain ⟨h1, n, h2, h3⟩ := h
    obtain ⟨r, h4, h5⟩ := hr k.2
    have hw : ValueWidth w' g.fieldType k.2.width := .inl ⟨r, by rw [hg.2]; exact h4, by rw [h5]; exact kind_width _⟩
    rw [h2.unique hw] at h3
    intro j f hj
    cases j with
    | zero => simp only [List.getElem?_cons_zero, Option.some.injEq] at hj; subst hj; exact h1
    | succ j =>
      have := ih h3 j f (by simpa using hj)
      rw [this]
      simp [widths]
      omega

theorem widths_take {ks : List (Nat × Obj.Kind)} {q : Nat} {k : Nat × Obj.Kind} (h : ks[q]? = some k) {q' : Nat} (hq : q < q') :
    widths (ks.take q) + k.2.width ≤ widths (ks.take q') := by
  obtain ⟨h1, rfl⟩ := List.getElem?_eq_some_iff.mp h
  have : widths (ks.take q) + ks[q].2.width = widths (ks.take (q + 1)) := by
    simp only [widths]
    rw [List.take_add_one, List.getElem?_eq_getElem h1, List.map_append, List.sum_append]
    simp
  have h2 : ks.take q' = ks.take (q + 1) ++ (ks.drop (q + 1)).take (q' - (q + 1)) := by
    rw [← List.take_add]
    congr 1
    omega
  rw [this, h2]
  simp only [widths, List.map_append, List.sum_append]
  exact Nat.le_add_right ..

theorem widths_le {ks : List (Nat × Obj.Kind)} {q : Nat} {k : Nat × Obj.Kind} (h : ks[q]? = some k) :
    widths (ks.take q) + k.2.width ≤ widths ks := by
  have := widths_take h (q' := ks.length) (List.getElem?_eq_some_iff.mp h).1
  rwa [List.take_length] at this

theorem all2_index {α β : Type} {R : α → β → Prop} : ∀ {as : List α} {bs : List β}, as.length = bs.length →
    (∀ (i : Nat) a b, as[i]? = some a → bs[i]? = some b → R a b) → All2 R as bs
  | [], [], _, _ => .nil
  | a :: as, b :: bs, hl, h => .cons (h 0 a b rfl rfl) (all2_index (by simpa using hl) fun i x y hx hy => h (i + 1) x y hx hy)

/-- The records of the fields by rows. -/
def FieldsAre (m : Metadata) (a : AssemblyRec) (fld : Nat → FieldRec) : Prop :=
  ∀ j, 1 ≤ j → j ≤ m.tables.field.length → a.fields[j - 1]? = some (fld j)

/-- The own fields of a class whose fields are numbers. -/
theorem own_fields (hwf : WellFormed entry m w d) (hs : SelfIs cfg m name w w' a) (hm : Mid m w d w') (hset : Settled w')
    {fld : Nat → FieldRec} (hfld : FieldsAre m a fld) {ty : Obj.Kind → Nat} (hty : Numbers w w' ty) {k : Nat} {tr : TypeRec}
    {fs : List (Nat × Obj.Kind)} (hk : k < m.tables.typeDef.length) (htr : w'.types[w.types.length + k]? = some tr)
    (hf : NumFields m d k fs) {s : Nat} (hb : StartsAt w' (w.types.length + k) tr.base s) (hlt : s + widths fs < 2 ^ 64) :
    FieldsSize w' (w.types.length + k) tr.fields (widths fs) ∧
    ∀ f ∈ fs, ∃ q : Nat, fs[q]? = some f ∧ (fld f.1).offset = s + widths (fs.take q) := by
  have hrow : m.tables.typeDef[k]? = some m.tables.typeDef[k] := List.getElem?_eq_getElem hk
  obtain ⟨tr', h1, h2, h3⟩ := (loaded_fields hwf hs).2 k _ hrow
  rw [htr] at h1; cases h1
  obtain ⟨hf1, hf2⟩ := hf
  have hown : ownFields m k = List.range' m.tables.typeDef[k].fieldList tr.fields.length := by
    unfold ownFields
    rw [hrow, h2]
  rw [hown] at hf1
  have hlen : fs.length = tr.fields.length := by
    have := congrArg List.length hf1
    simpa using this
  have hat : ∀ (q : Nat) f, fs[q]? = some f → f.1 = m.tables.typeDef[k].fieldList + q := by
    intro q f hq
    have h1 : (fs.map (·.1))[q]? = some f.1 := by rw [List.getElem?_map, hq]; rfl
    have hl := (List.getElem?_eq_some_iff.mp hq).1
    rw [hf1, List.getElem?_range' (by omega), Nat.one_mul] at h1
    exact (Option.some.inj h1).symm
  obtain ⟨tr', g1, g2⟩ := hm.own k hk
  rw [htr] at g1; cases g1
  have hfs : All2 (fun f k => f.isStatic = false ∧ f.fieldType = ty k.2) tr.fields fs := by
    refine all2_index hlen.symm fun q x f hx hf => ?_
    have hfi := (g2.fields _ hrow).2 q x hx
    obtain ⟨e1, e2⟩ := hf2 f (List.mem_of_getElem? hf)
    obtain ⟨o1, o2, -⟩ := h3 q x hx
    rw [hat q f hf] at e1 e2
    refine ⟨by rw [hfi.static]; exact e2, ?_⟩
    obtain ⟨fr, f1, f2⟩ := hfi.type
    refine hty.unique _ _ fr f1 (f2.trans ?_)
    have hfo := hwf.fields (m.tables.typeDef[k].fieldList + q - 1) _ (List.getElem?_eq_getElem (by omega))
    rw [show m.tables.typeDef[k].fieldList + q - 1 + 1 = m.tables.typeDef[k].fieldList + q by omega] at hfo
    have := hfo.type
    rw [e1] at this
    exact resolvable_kind this
  have hless : ∀ κ, ty κ < w.types.length + k := fun κ => by
    obtain ⟨r, hr, -⟩ := hty.record κ
    have := (List.getElem?_eq_some_iff.mp hr).1
    omega
  have hl' : ∀ κ, ValueLike w' (ty κ) := fun κ => (hty.like κ).same (hm.same _) (Nat.lt_succ_self _)
  have hr' : ∀ κ, ∃ r, w'.types[ty κ]? = some r ∧ r.fullName = κ.typeName := fun κ => by
    obtain ⟨r, hr, hn⟩ := hty.record κ
    exact ⟨r, hm.old _ r hr, hn⟩
  have hsize := numFields_size hl' hr' hless hfs
  refine ⟨hsize, fun f hff => ?_⟩
  obtain ⟨q, hq, hqf⟩ := List.getElem_of_mem hff
  have hqf' : fs[q]? = some f := by rw [List.getElem?_eq_getElem hq, hqf]
  refine ⟨q, hqf', ?_⟩
  have hlaid := hset _ tr s _ htr hb hsize hlt
  have hq' : q < tr.fields.length := by omega
  obtain ⟨o1, o2, o3⟩ := h3 _ _ (List.getElem?_eq_getElem hq')
  rw [← hat q f hqf'] at o1 o2 o3
  rw [hfld _ o1 o2] at o3
  have := numFields_laid hr' hfs hlaid _ _ (List.getElem?_eq_getElem hq')
  rw [← Option.some.inj o3] at this
  exact this

/-- Fields at these places are apart. -/
theorem fields_apart {fs : List (Nat × Obj.Kind)} {off : Nat → Nat} {s : Nat}
    (h : ∀ f ∈ fs, ∃ q : Nat, fs[q]? = some f ∧ off f.1 = s + widths (fs.take q)) :
    (∀ f ∈ fs, s ≤ off f.1 ∧ off f.1 + f.2.width ≤ s + widths fs) ∧
    ∀ f ∈ fs, ∀ g ∈ fs, f ≠ g → off f.1 + f.2.width ≤ off g.1 ∨ off g.1 + g.2.width ≤ off f.1 := by
  refine ⟨fun f hf => ?_, fun f hf g hg hne => ?_⟩
  · obtain ⟨q, h1, h2⟩ := h f hf
    have := widths_le h1
    omega
  · obtain ⟨q, h1, h2⟩ := h f hf
    obtain ⟨q', h1', h2'⟩ := h g hg
    rcases Nat.lt_trichotomy q q' with hl | rfl | hl
    · have := widths_take h1 hl
      omega
    · rw [h1] at h1'; exact absurd (Option.some.inj h1') hne
    · have := widths_take h1' hl
      omega

/-- Size and layout of a class. -/
theorem class_laid (hwf : WellFormed entry m w d) (hs : SelfIs cfg m name w w' a) (hm : Mid m w d w') (hset : Settled w')
    {fld : Nat → FieldRec} (hfld : FieldsAre m a fld) {ty : Obj.Kind → Nat} (hty : Numbers w w' ty) {k : Nat} {cls : Obj.Class}
    (h : ClassIs m w d k cls) (hlt : cls.size < 2 ^ 64) :
    k < m.tables.typeDef.length ∧ ClassSize w' (w.types.length + k) cls.size ∧ cls.Fits (fun f => (fld f).offset) := by
  induction h with
  | @root k b s fs n br hk hp hf hb hd hbr hu hsize =>
    obtain ⟨tr, h1, h2⟩ := hm.own k hk
    obtain ⟨b', br', g1, g2, g3⟩ := loaded_base hwf hs hm hk h1 hb
    have hbl := (List.getElem?_eq_some_iff.mp hbr).1
    have hreg : Registered w n := by
      have hbase := hwf.bases k _ (List.getElem?_eq_getElem hk)
      rw [hb] at hbase
      cases hbase with
      | some _ hkn => exact hkn.resolve_right hd
    obtain rfl := hm.old_unique hwf hd hreg hu g2 g3
    have hsize' := hsize.same (hm.same _) (Nat.lt_succ_self b')
    have hstart : StartsAt w' (w.types.length + k) tr.base s := by rw [g1]; exact ⟨by omega, hsize'⟩
    obtain ⟨f1, f2⟩ := own_fields hwf hs hm hset hfld hty hk h1 hf hstart hlt
    obtain ⟨f3, f4⟩ := fields_apart (off := fun f => (fld f).offset) f2
    exact ⟨hk, .derived h1 (by rw [h2.name]; exact hp) g1 (by omega) hsize' f1, fun f hf' => (f3 f hf').2, f4⟩
  | @derived k k' fs cls hk hp hf hb hkk hreg hu _ ih =>
    dsimp only at hlt
    obtain ⟨i1, i2, i3, i4⟩ := ih (by omega)
    obtain ⟨tr, h1, h2⟩ := hm.own k hk
    obtain ⟨b', br', g1, g2, g3⟩ := loaded_base hwf hs hm hk h1 hb
    obtain rfl := hm.own_unique hwf i1 hreg hu g2 g3
    have hstart : StartsAt w' (w.types.length + k) tr.base cls.size := by rw [g1]; exact ⟨by omega, i2⟩
    obtain ⟨f1, f2⟩ := own_fields hwf hs hm hset hfld hty hk h1 hf hstart hlt
    obtain ⟨f3, f4⟩ := fields_apart (off := fun f => (fld f).offset) f2
    refine ⟨hk, .derived h1 (by rw [h2.name]; exact hp) g1 (by omega) i2 f1, fun f hf' => ?_, fun f hf' g hg hne => ?_⟩
    · dsimp only
      rcases List.mem_append.mp hf' with hf' | hf'
      · have := i3 f hf'; dsimp only at this; omega
      · exact (f3 f hf').2
    · dsimp only
      rcases List.mem_append.mp hf' with hf' | hf' <;> rcases List.mem_append.mp hg with hg | hg
      · exact i4 f hf' g hg hne
      · have := i3 f hf'; dsimp only at this
        have := (f3 g hg).1
        omega
      · have := i3 g hg; dsimp only at this
        have := (f3 f hf').1
        omega
      · exact f4 f hf' g hg hne

/-! ## Linking -/

/-- The table of numeric types has the right names in it. -/
theorem named_primitives {ps : Primitives} (hps : w.primitives = some ps) (hn : ps.Named w) : PrimitivesOk w := by
  refine ⟨ps, hps, ?_⟩
  have get : ∀ (t : Nat) (n : String), (t, n) ∈ [(ps.sbyte, "System.SByte"), (ps.byte, "System.Byte"), (ps.short, "System.Int16"),
      (ps.ushort, "System.UInt16"), (ps.int, "System.Int32"), (ps.uint, "System.UInt32"), (ps.long, "System.Int64"),
      (ps.ulong, "System.UInt64"), (ps.float, "System.Single"), (ps.double, "System.Double"), (ps.object, "System.Object")] →
      (w.types[t]?.map (·.fullName)) = some n.toList := by
    intro t n h
    obtain ⟨r, h1, h2⟩ := hn (t, n) h
    rw [h1, ← h2]; rfl
  simp only [List.map_cons, List.map_nil, numericWidths]
  rw [get _ "System.SByte" (by simp), get _ "System.Byte" (by simp), get _ "System.Int16" (by simp), get _ "System.UInt16" (by simp),
    get _ "System.Int32" (by simp), get _ "System.UInt32" (by simp), get _ "System.Int64" (by simp), get _ "System.UInt64" (by simp),
    get _ "System.Single" (by simp), get _ "System.Double" (by simp)]

/-- The common fuel for the sizes of all types. -/
theorem Spec.Sized.fuel (h : Sized cfg w) : ∃ T, ∀ tf ≥ T, ∀ (t : Nat) r, w.types[t]? = some r → ∃ s, typeSize cfg w tf t = .ok s := by
  obtain ⟨T, hT⟩ := exists_bound w.types.length (fun t fuel => ∃ s, typeSize cfg w fuel t = .ok s) fun t ht =>
    (h t _ (List.getElem?_eq_getElem ht)).2
  refine ⟨T, fun tf htf t r hr => ?_⟩
  obtain ⟨k, h1, s, h2⟩ := hT t (List.getElem?_eq_some_iff.mp hr).1
  exact ⟨s, typeSize_fuel (by omega) h2⟩

/-- The tokens of a loaded program. -/
theorem loaded_program (hwf : WellFormed entry m w d) (h0 : Inv w) (hs : SelfIs cfg m name w w' a) (hm : Mid m w d w')
    (hset : Settled w') (hf : FreshId w) (hid : a.id = w.nextAssembly) (hst : Started m w d) (hsz : Sized cfg w')
    (hcount : w'.types.length ≤ w.types.length + m.tables.typeDef.length +
      sumRun (fun j => brackets (d.fieldType j)) 1 m.tables.field.length + sumRun (methodBrackets d) 1 m.tables.methodDef.length)
    (hps : ∃ ps, w'.primitives = some ps ∧ ps.Named w') :
    PrimitivesOk w' ∧ Obj.ArraysReady w' ∧ ∃ (meth : Nat → MethodRec) (fld : Nat → FieldRec),
      (∀ j, 1 ≤ j → j ≤ m.tables.methodDef.length → a.resolveMethod cfg ⟨6 * 2 ^ 24 + j⟩ = .ok (some (meth j)) ∧
        ∃ row, m.tables.methodDef[j - 1]? = some row ∧ (meth j).isStatic = row.attributes.isStatic) ∧
      ∃ T, ∀ tf ≥ T, ∀ j p, ProcIs m w d j p → Obj.LinkedTo cfg tf w' meth fld (meth j) p := by
  obtain ⟨ps, hps1, hps2⟩ := hps
  have hprim := named_primitives hps1 hps2
  have hready : Obj.ArraysReady w' := by
    intro ps' er _ _
    split
    · next t ht =>
      obtain ⟨r, hr, -⟩ := (hm.inv.getType_iff _ t).mp ht
      exact ⟨r, hr⟩
    · rw [hm.inv.next]
      have := hst.room
      rw [Nat.mod_eq_of_lt (by omega)]
      omega
  refine ⟨hprim, hready, ?_⟩
  -- the numeric types
  obtain ⟨ty, hty⟩ := Classical.axiomOfChoice hst.numbers
  have hreg : ∀ κ : Obj.Kind, Registered w κ.typeName := fun κ =>
    (hwf.numbers _ (by cases κ <;> decide)).resolve_right (hst.own κ)
  have hnum : Numbers w w' ty := by
    refine ⟨fun κ => (hty κ).1, fun κ => ?_, fun κ t r h1 h2 => hm.old_unique hwf (hst.own κ) (hreg κ) (hty κ).2 h1 h2⟩
    obtain ⟨t, r, h1, h2⟩ := hreg κ
    rw [← (hty κ).2 t r h1 h2]
    exact ⟨r, h1, h2⟩
  generalize hi : ty .int = i
  have hiu : ∀ (t : Nat) r, w.types[t]? = some r → r.fullName = "System.Int32".toList → t = i := by rw [← hi]; exact (hty .int).2
  have hint : ∀ (t : Nat) r, w'.types[t]? = some r → r.fullName = "System.Int32".toList → t = i := by
    rw [← hi]; exact hnum.unique .int
  obtain ⟨ir, hir, hin⟩ : ∃ ir, w.types[i]? = some ir ∧ ir.fullName = "System.Int32".toList := by rw [← hi]; exact hnum.record .int
  have hpi : ps.int = i := by
    obtain ⟨r, h1, h2⟩ := hps2 (ps.int, "System.Int32") (by simp)
    exact hint _ r h1 h2
  -- methods
  have hall := loaded_methods hwf hs hm
  have hex : ∀ j, ∃ x : MethodRec, 1 ≤ j → j ≤ m.tables.methodDef.length → a.methodDefs[j - 1]? = some x := by
    intro j
    by_cases hj : 1 ≤ j ∧ j ≤ m.tables.methodDef.length
    · obtain ⟨x, k, h, -⟩ := hall j hj.1 hj.2
      exact ⟨x, fun _ _ => h⟩
    · exact ⟨⟨[], 0, 0, [], .none, false, false, false⟩, fun h1 h2 => absurd ⟨h1, h2⟩ hj⟩
  obtain ⟨meth, hmeth⟩ := Classical.axiomOfChoice hex
  have hres : ∀ j, 1 ≤ j → j ≤ m.tables.methodDef.length → a.resolveMethod cfg ⟨6 * 2 ^ 24 + j⟩ = .ok (some (meth j)) := by
    intro j h1 h2
    have := hwf.small.2
    rw [resolveMethod_def _ (by omega), usub_ok h1, Res.ok_bind, hmeth j h1 h2]
    rfl
  have hmi : ∀ j, 1 ≤ j → j ≤ m.tables.methodDef.length → ∃ k < m.tables.typeDef.length, MethodIs m w d w' k j (meth j) ∧
      Owns (m.tables.typeDef.map (·.methodList)) m.tables.methodDef.length k j := by
    intro j h1 h2
    obtain ⟨x, k, hx, hk, h3, h4⟩ := hall j h1 h2
    have := hmeth j h1 h2
    rw [hx] at this; cases this
    exact ⟨k, hk, h3, h4⟩
  -- fields
  have hflen := (loaded_fields hwf hs).1
  have hfex : ∀ j, ∃ f : FieldRec, 1 ≤ j → j ≤ m.tables.field.length → a.fields[j - 1]? = some f := by
    intro j
    by_cases hj : 1 ≤ j ∧ j ≤ m.tables.field.length
    · have hlt : j - 1 < a.fields.length := by omega
      exact ⟨_, fun _ _ => List.getElem?_eq_getElem hlt⟩
    · exact ⟨⟨[], 0, 0, false, 0⟩, fun h1 h2 => absurd ⟨h1, h2⟩ hj⟩
  obtain ⟨fld, hfld⟩ := Classical.axiomOfChoice hfex
  obtain ⟨T, hT⟩ := hsz.fuel
  refine ⟨meth, fld, fun j h1 h2 => ⟨hres j h1 h2, ?_⟩, T, fun tf htf j p hp => ?_⟩
  · obtain ⟨k, -, h3, -⟩ := hmi j h1 h2
    obtain ⟨row, h4, -, h5⟩ := h3.row
    exact ⟨row, h4, h5⟩
  obtain ⟨row, hj, hrow, hpar⟩ := hp.row
  have hj' : j ≤ m.tables.methodDef.length := by
    have := (List.getElem?_eq_some_iff.mp hrow).1
    omega
  obtain ⟨k, hk, hxi, howns⟩ := hmi j hj hj'
  obtain ⟨row', hrow', -, hstat⟩ := hxi.row
  rw [hrow] at hrow'; cases hrow'
  obtain ⟨tr, htr, hown⟩ := hm.own k hk
  have hmo := hwf.methods k (j - 1) row (by rwa [show j - 1 + 1 = j by omega]) hrow
  rw [show j - 1 + 1 = j by omega] at hmo
  obtain ⟨nm, -, himpl⟩ := hmo.impl
  have hcode : (∃ b, (meth j).impl = .il b ∧ b.code = p.code ∧ b.locals.length = p.locals) ∧ p.code.length < 2 ^ 62 := by
    have hxim := hxi.impl
    have hbody := hp.body
    generalize d.impl j = im at *
    cases himpl with
    | native => cases hbody
    | absent => cases hbody
    | tiny _ _ _ hl _ =>
      simp only [bodyOf, Option.some.injEq, Prod.mk.injEq] at hbody
      rw [← hbody.1, ← hbody.2]
      exact ⟨hxim, by omega⟩
    | fat _ _ _ hl =>
      simp only [bodyOf, Option.some.injEq, Prod.mk.injEq] at hbody
      rw [← hbody.1, ← hbody.2]
      exact ⟨hxim, by have := hl.2.1; omega⟩
  obtain ⟨⟨b, b1, b2, b3⟩, hsize⟩ := hcode
  obtain ⟨n, r, hn, hr, hrn⟩ := hxi.ret
  obtain ⟨vt, vr, v1, v2, v3⟩ := hm.void hwf hst.void
  refine ⟨⟨b, tr, a, b1, b2, b3, by rw [hxi.declaring]; exact htr, ?_, ?_⟩, hsize, ?_, fun hr' => ?_, fun hr' => ?_⟩
  · rw [hs.assemblies, hown.assembly, List.find?_append]
    have : w.assemblies.find? (·.id = w.nextAssembly) = none := by
      rw [List.find?_eq_none]
      intro a' ha'
      have := hf a' ha'
      simp only [decide_eq_true_eq]; omega
    rw [this]
    simp [hid]
  · refine ⟨fun tok i' hi' => ?_, fun tok ht => ?_, fun tok cls i' hi' => ?_, fun tok f hf' => ?_, fun tok text ht => ?_, fun tok ht => ?_⟩
    · obtain ⟨rfl, h1, h2⟩ := hp.procs tok i' hi'
      exact hres i' h1 h2
    · obtain ⟨hallm, q, qrow, rfl, h1, h2, h3, h4, h5, h6⟩ := hp.write tok ht
      obtain ⟨g1, g2⟩ := loadMemberRefs_all h0 _ hallm hs.methodRefs
      have hlt := (List.getElem?_eq_some_iff.mp h3).1
      have hx : a.methodRefs[q - 1]? = some (a.methodRefs[q - 1]'(by omega)) := List.getElem?_eq_getElem _
      obtain ⟨tr', n', ns', t', rec, k1, k2, k3, k4, k5, nm', k6, k7⟩ := g2 (q - 1) qrow _ h3 hx
      obtain ⟨hmem, hname⟩ := getMethod_some k7
      rw [h6] at k6
      obtain rfl : nm' = "Write".toList := by simpa using k6.symm
      obtain ⟨rec', q1, q2, -⟩ := (h0.getType_iff _ _).mp k4
      rw [k5] at q1; cases q1
      have hcn : rec.fullName = "System.Console".toList := by
        rw [q2, fullName_eq]
        generalize "System.Console".toList = cn at h5
        cases h5 with
        | typeRef _ row'' n'' ns'' p1 p2 p3 p4 =>
          have e1 := tableIndex_inv h4 k1
          rw [p2] at e1; cases e1
          rw [string!_inv k2] at p3
          rw [string!_inv k3] at p4
          cases p3; cases p4; rfl
      obtain ⟨w1, w2, w3⟩ := hst.write t' rec k5 hcn _ hmem hname
      refine ⟨_, ?_, w1, by simp [MethodRec.slots, w2, w3]⟩
      unfold AssemblyRec.resolveMethod
      rw [token_table 10 q h2 (by omega), token_index 10 q h2, usub_ok h1]
      simp [hx]
    · obtain ⟨rfl, h1, h2, mrow, k', h3, h4, h5, h6⟩ := hp.news tok cls i' hi'
      have h1' : i' ≤ m.tables.methodDef.length := by
        have := (List.getElem?_eq_some_iff.mp h3).1
        omega
      obtain ⟨k2, g1, g2, g3⟩ := hmi i' h1 h1'
      obtain rfl := owns_unique hwf.methodRuns h5 g3
      obtain ⟨c1, c2, c3⟩ := class_laid hwf hs hm hset hfld hnum h6 h2
      obtain ⟨mrow', g4, -, g5⟩ := g2.row
      rw [h3] at g4; cases g4
      refine ⟨hres i' h1 h1', by rw [g5]; exact h4, ?_, c3⟩
      obtain ⟨tr', t1, -⟩ := hm.own k' c1
      obtain ⟨s, hsz'⟩ := hT tf htf _ tr' t1
      rw [g2.declaring, hsz', typeSize_ok hm.inv (.inr c2) h2 hsz']
    · obtain ⟨rfl, h1, h2, h3, h4⟩ := hp.fields tok f hf'
      refine ⟨?_, ?_⟩
      · rw [resolveField_def _ h3, usub_ok h1, Res.ok_bind, hfld f.1 h1 h2]
        rfl
      · exact loaded_field hwf hs hm h1 h2 (hfld f.1 h1 h2) h4
    · obtain ⟨pre, post, last, h1, rfl, h2, h3, h4⟩ := hp.strings tok text ht
      refine ⟨?_, ?_⟩
      · rw [hs.userStrings, h1]
        exact C13_user_string cfg pre post _ last (utf16_lt text) h2 h3 h4
      · obtain ⟨t, r', h5, h6, -⟩ := hm.resolves hwf.typeNames hst.string
        exact ⟨t, r', h5, h6⟩
    · obtain ⟨q, rfl, h1, h2, h3⟩ := hp.ints tok ht
      have hir' := hm.old i ir hir
      refine ⟨ps, ir, hps1, ?_, by rw [hpi]; exact hir', ?_, ?_⟩
      · obtain ⟨g1, g2⟩ := loadTypeRefs_ok _ h0 hs.typeRefs
        generalize hcn : "System.Int32".toList = cn at h3
        cases h3 with
        | typeRef _ trow n' ns' p1 p2 p3 p4 =>
          obtain ⟨t, tr', n'', ns'', k1, k2, k3, k4, k5⟩ := g2 (q - 1) trow p2
          rw [p3] at k3; cases k3
          rw [p4] at k4; cases k4
          unfold AssemblyRec.resolveType
          rw [token_table 1 q h2 (by omega), token_index 1 q h2, usub_ok h1]
          simp only [Res.ok_bind, k1]
          rw [hpi, hiu t tr' k2 (k5.trans hcn.symm)]
          rfl
      · rw [hm.inv.ids i ir hir']
        exact Nat.mod_lt _ (by decide)
      · obtain ⟨s, hsz'⟩ := hT tf htf i ir hir'
        rw [hpi, hsz', typeSize_ok hm.inv (.inl ⟨ir, hir', by rw [hin]; rfl⟩) (by decide) hsz']
  · unfold MethodRec.slots
    rw [hstat, hpar, hxi.params]
    split <;> rfl
  · exact ⟨r, vt, vr, hr, v1, v2, by rw [hrn, v3]; exact hp.value hr' n hn⟩
  · refine ⟨r, vt, vr, hr, v1, v2, ?_⟩
    rw [hp.void hr'] at hn
    rw [hrn, v3, resolvable_void hn]

end
end Clr
