import Verif.Lemmas.Mid
import Verif.Lemmas.Layout
/-! # Sizes while a well-formed assembly is being loaded -/

namespace Clr
open Spec

/-! ## Runs of rows -/

theorem partition_start {starts : List Nat} {rows i s : Nat} (hp : Partition starts rows) (hs : starts[i]? = some s) :
    1 ≤ s ∧ s ≤ rows + 1 := by
  obtain ⟨hp0, hp1, hp2, hp3⟩ := hp
  have hlt := (List.getElem?_eq_some_iff.mp hs).1
  refine ⟨?_, hp3 s (List.mem_of_getElem? hs)⟩
  have h0 := hp1 _ (List.getElem?_eq_getElem (show 0 < starts.length by omega))
  have hsi : starts[i] = s := (List.getElem?_eq_some_iff.mp hs).2
  by_cases e : i = 0
  · subst e; omega
  · have := List.pairwise_iff_getElem.mp hp2 0 i (by omega) hlt (by omega)
    omega

theorem run_owns {starts : List Nat} {rows i s p : Nat} (hp : Partition starts rows) (hs : starts[i]? = some s)
    (hl : p < runLength starts rows i) : Owns starts rows i (s + p) := by
  have hl' : s + p < match starts[i + 1]? with
      | some e => e
      | none => rows + 1 := by
    unfold runLength at hl
    rw [hs] at hl
    exact Nat.add_lt_of_lt_sub' hl
  clear hl
  refine ⟨⟨s, hs, by omega⟩, fun e he => ?_, ?_⟩
  · rw [he] at hl'
    exact hl'
  · cases he : starts[i + 1]? with
    | none => rw [he] at hl'; exact Nat.le_of_lt_succ hl'
    | some e =>
      rw [he] at hl'
      exact Nat.le_of_lt_succ (Nat.lt_of_lt_of_le hl' (hp.2.2.2 e (List.mem_of_getElem? he)))

theorem runLength_eq {starts : List Nat} {rows i s : Nat} (hs : starts[i]? = some s) :
    runEnd starts rows i - s = runLength starts rows i := by
  unfold runEnd runLength
  rw [hs]
  rfl

/-! ## `Type::size` answers below `2^64` -/

theorem uadd_lt {cfg : Cfg} {bits a b c : Nat} (h : uadd cfg bits a b = .ok c) : c < 2 ^ bits := by
  unfold uadd at h
  split at h
  · cases h; assumption
  · split at h
    · cases h
    · cases h; exact Nat.mod_lt _ (Nat.pow_pos (by omega))

theorem fieldsSize_lt {cfg : Cfg} {isRef : Nat → Res Bool} {size : Nat → Res Nat} {fs : List FieldRec} {a r : Nat}
    (ha : a < 2 ^ 64) (h : fieldsSize cfg isRef size fs a = .ok r) : r < 2 ^ 64 := by
  induction fs generalizing a with
  | nil => cases h; exact ha
  | cons f fs ih =>
    unfold fieldsSize at h
    obtain ⟨s, -, h⟩ := Res.bind_eq_ok.1 h
    obtain ⟨c, h1, h⟩ := Res.bind_eq_ok.1 h
    exact ih (uadd_lt h1) h

theorem lookup_small {full : Name} {s : Nat} (h : primitiveSizes.lookup full = some s) : s ≤ 8 ∧ full ∈ numberNames := by
  have : ∀ (l : List (Name × Nat)), l.lookup full = some s → (full, s) ∈ l := by
    intro l
    induction l with
    | nil => intro h; cases h
    | cons a l ih =>
      intro h
      obtain ⟨x, y⟩ := a
      rw [List.lookup_cons] at h
      split at h
      · rename_i e
        have : full = x := by simpa using e
        cases h; subst this; exact List.mem_cons_self
      · exact List.mem_cons_of_mem _ (ih h)
  have hm := this _ h
  have hall : ∀ p ∈ primitiveSizes, p.2 ≤ 8 := by decide +kernel
  refine ⟨hall _ hm, ?_⟩
  rw [← show primitiveSizes.map (·.1) = numberNames from rfl]
  exact List.mem_map.mpr ⟨_, hm, rfl⟩

theorem lookup_number {full : Name} (h : full ∈ numberNames) : ∃ s, primitiveSizes.lookup full = some s ∧ s ≤ 8 := by
  cases hs : primitiveSizes.lookup full with
  | some s => exact ⟨s, rfl, (lookup_small hs).1⟩
  | none =>
    exfalso
    rw [List.lookup_eq_none_iff] at hs
    rw [← show primitiveSizes.map (·.1) = numberNames from rfl] at h
    obtain ⟨p, hp, rfl⟩ := List.mem_map.mp h
    simpa using hs p hp

theorem typeSize_lt {cfg : Cfg} {w : World} (hi : Inv w) {fuel t s : Nat} (h : typeSize cfg w fuel t = .ok s) : s < 2 ^ 64 := by
  cases fuel with
  | zero => cases h
  | succ fuel =>
    unfold typeSize at h
    obtain ⟨tr, h1, h⟩ := Res.bind_eq_ok.1 h
    obtain ⟨p, h2, h⟩ := Res.bind_eq_ok.1 h
    cases p with
    | some p =>
      cases h
      have := (lookup_small (primitiveSize_lookup hi h2).symm).1
      omega
    | none =>
      dsimp only at h
      obtain ⟨x, h3, h⟩ := Res.bind_eq_ok.1 h
      cases hbase : tr.base with
      | none => simp only [hbase] at h; cases h; exact fieldsSize_lt (by omega) h3
      | some b =>
        simp only [hbase] at h
        obtain ⟨y, h4, h⟩ := Res.bind_eq_ok.1 h
        exact uadd_lt h

section
variable {cfg : Cfg} {m : Metadata} {w0 wi : World} {d : Decls} {ref : Name → Prop} {rank size : Name → Nat} {entry : Nat → Prop}

theorem Mid.primitiveSize (hm : Mid m w0 d wi)
    (hw : ∀ k < m.tables.typeDef.length, RowNamed m (.typeDef (k + 1)) (d.name k))
    (hn : ∀ n ∈ numberNames, Known m w0 n) (full : Name) :
    primitiveSize wi full primitiveSizes = .ok (primitiveSizes.lookup full) := by
  have aux : ∀ l : List (Name × Nat), (∀ p ∈ l, Known m w0 p.1) → ∃ o, Clr.primitiveSize wi full l = .ok o := by
    intro l
    induction l with
    | nil => intro _; exact ⟨none, rfl⟩
    | cons a l ih =>
      intro hk
      obtain ⟨x, y⟩ := a
      obtain ⟨i, r, g1, g2, g3, -⟩ := hm.resolves hw (hk _ List.mem_cons_self)
      unfold Clr.primitiveSize
      rw [unwrap_eq_ok.mpr g1, Res.ok_bind, typeAt_eq_ok.mpr g2, Res.ok_bind]
      split
      · exact ⟨_, rfl⟩
      · exact ih fun p hp => hk p (List.mem_cons_of_mem _ hp)
  obtain ⟨o, ho⟩ := aux primitiveSizes fun p hp =>
    hn _ (by rw [← show primitiveSizes.map (·.1) = numberNames from rfl]; exact List.mem_map.mpr ⟨p, hp, rfl⟩)
  rw [ho, ← primitiveSize_lookup hm.inv ho]

/-- The sum over the fields of a type. -/
theorem fieldsSize_mid {isRef : Nat → Res Bool} {sz : Nat → Res Nat} {weight : Nat → Nat} {bound : Nat} {fs : List FieldRec} {start : Nat}
    (h : ∀ (i : Nat) f, fs[i]? = some f → (f.isStatic = false → ∃ s, (do if (← isRef f.fieldType) then pure 8 else sz f.fieldType) = Res.ok s ∧
      s ≤ weight (start + i)))
    {a : Nat} (hb : a + sumRun weight start fs.length ≤ bound) (hlt : bound < 2 ^ 64) :
    ∃ r, fieldsSize cfg isRef sz (fs.filter (!·.isStatic)) a = .ok r ∧ r ≤ a + sumRun weight start fs.length := by
  induction fs generalizing a start with
  | nil => exact ⟨a, rfl, by simp [sumRun]⟩
  | cons f fs ih =>
    rw [List.length_cons, sumRun_front] at hb ⊢
    have step : ∀ (i : Nat) g, fs[i]? = some g → (g.isStatic = false → ∃ s,
        (do if (← isRef g.fieldType) then pure 8 else sz g.fieldType) = Res.ok s ∧ s ≤ weight (start + 1 + i)) := by
      intro i g hg hs
      obtain ⟨s, h1, h2⟩ := h (i + 1) g (by simpa using hg) hs
      exact ⟨s, h1, by rw [show start + 1 + i = start + (i + 1) by omega]; exact h2⟩
    cases hst : f.isStatic with
    | true =>
      rw [List.filter_cons_of_neg (by simp [hst])]
      obtain ⟨r, h1, h2⟩ := ih step (a := a) (by omega)
      exact ⟨r, h1, by omega⟩
    | false =>
      rw [List.filter_cons_of_pos (by simp [hst])]
      obtain ⟨s, h1, h2⟩ := h 0 f rfl hst
      rw [Nat.add_zero] at h2
      unfold fieldsSize
      rw [h1, Res.ok_bind, uadd_ok (show a + s < 2 ^ 64 by omega), Res.ok_bind]
      obtain ⟨r, g1, g2⟩ := ih step (a := a + s) (by omega)
      exact ⟨r, g1, by omega⟩

theorem brackets_pos_ref {e : ElementType} (h : refElem e = false) : brackets e = 0 := by
  cases e <;> first | rfl | cases h

/-- All sizes are found, with a common bound for the depth of the recursion, and are bounded by `size`. -/
theorem mid_size (h0 : Inv w0) (hf : FiniteSizes cfg m w0 d ref rank size) (hwf : WellFormed entry m w0 d) :
    ∃ G, ∀ wi, Mid m w0 d wi → ∀ fuel ≥ G, ∀ (t : Nat) tr, wi.types[t]? = some tr → ∃ s, typeSize cfg wi fuel t = .ok s ∧
      (s ≤ size tr.fullName ∨ w0.types.length + m.tables.typeDef.length ≤ t ∧ s ≤ size "System.Array".toList) := by
  have hw := hwf.typeNames
  obtain ⟨C, hC⟩ := mid_depth h0 hf hw
  obtain ⟨D, hD⟩ := exists_bound w0.types.length (fun t fuel => ∃ r s, w0.types[t]? = some r ∧ typeSize cfg w0 fuel t = .ok s ∧
      s ≤ size r.fullName) fun t ht => by
    obtain ⟨fuel, s, h1, h2⟩ := (hf.sizeOld t _ (List.getElem?_eq_getElem ht)).2
    exact ⟨fuel, _, s, List.getElem?_eq_getElem ht, h1, h2⟩
  obtain ⟨K, hK⟩ := exists_bound m.tables.typeDef.length (fun k r => rank (d.name k) = r) fun k _ => ⟨_, rfl⟩
  refine ⟨C + D + K + 4, fun wi hm => ?_⟩
  have isRef : ∀ (t : Nat) tr fuel, wi.types[t]? = some tr → C < fuel →
      ∃ b, Clr.isReferenceType wi fuel t = .ok b ∧ (ref tr.fullName → b = true) := by
    intro t tr fuel ht hfu
    obtain ⟨n, n1, n2⟩ := hC wi hm t (List.getElem?_eq_some_iff.mp ht).1
    exact hm.isReferenceType h0 hf hw hwf.valueType ht n2 (by omega)
  have old : ∀ (t : Nat) tr fuel, t < w0.types.length → wi.types[t]? = some tr → D ≤ fuel →
      ∃ s, typeSize cfg wi fuel t = .ok s ∧ s ≤ size tr.fullName := by
    intro t tr fuel ht htr hfu
    obtain ⟨f, f1, r, s, h1, h2, h3⟩ := hD t ht
    have := hm.old t r h1
    rw [htr] at this; cases this
    exact ⟨s, typeSize_fuel (by omega) ((hm.ext h0).typeSize h2), h3⟩
  have num : ∀ (t : Nat) tr fuel, wi.types[t]? = some tr → tr.fullName ∈ numberNames → 0 < fuel →
      ∃ s, typeSize cfg wi fuel t = .ok s ∧ s ≤ size tr.fullName := by
    intro t tr fuel htr hn hfu
    obtain ⟨g, rfl⟩ : ∃ g, fuel = g + 1 := ⟨fuel - 1, by omega⟩
    obtain ⟨s, h1, h2⟩ := lookup_number hn
    refine ⟨s, ?_, Nat.le_trans h2 (hf.sizeNumber _ hn)⟩
    unfold typeSize
    rw [typeAt_eq_ok.mpr htr, Res.ok_bind, hm.primitiveSize hw hwf.numbers, Res.ok_bind, h1]
    rfl
  have own : ∀ r k, k < m.tables.typeDef.length → rank (d.name k) < r → ∀ tr fuel, wi.types[w0.types.length + k]? = some tr →
      C + D + r + 1 ≤ fuel → ∃ s, typeSize cfg wi fuel (w0.types.length + k) = .ok s ∧ s ≤ size tr.fullName := by
    intro r
    induction r with
    | zero => intro k _ h; omega
    | succ r ih =>
      intro k hk hr tr fuel htr hfu
      by_cases hnum : tr.fullName ∈ numberNames
      · exact num _ tr fuel htr hnum (by omega)
      obtain ⟨tr', h1, ho⟩ := hm.own k hk
      rw [htr] at h1; cases h1
      have hnum' : d.name k ∉ numberNames := ho.name ▸ hnum
      obtain ⟨g, rfl⟩ : ∃ g, fuel = g + 1 := ⟨fuel - 1, by omega⟩
      obtain ⟨row, hrow⟩ : ∃ row, m.tables.typeDef[k]? = some row := ⟨_, List.getElem?_eq_getElem hk⟩
      have hrow' : (m.tables.typeDef.map (·.fieldList))[k]? = some row.fieldList := by simp [hrow]
      -- a type below `N + n` that is either old, a number or of smaller rank
      have sub : ∀ (t : Nat) ur, t < w0.types.length + m.tables.typeDef.length → wi.types[t]? = some ur →
          (Declared m ur.fullName → ur.fullName ∉ numberNames → rank ur.fullName < rank (d.name k)) →
          ∃ s, typeSize cfg wi g t = .ok s ∧ s ≤ size ur.fullName := by
        intro t ur ht hur hrank
        rcases Nat.lt_or_ge t w0.types.length with hl | hl
        · exact old t ur g hl hur (by omega)
        · by_cases hn : ur.fullName ∈ numberNames
          · exact num t ur g hur hn (by omega)
          · obtain ⟨ur', q1, q2⟩ := hm.own (t - w0.types.length) (by omega)
            rw [show w0.types.length + (t - w0.types.length) = t by omega, hur] at q1; cases q1
            have := hrank (by rw [q2.name]; exact ⟨_, hw (t - w0.types.length) (by omega)⟩) hn
            rw [q2.name] at this
            have := ih (t - w0.types.length) (by omega) (by omega) ur g
            rw [show w0.types.length + (t - w0.types.length) = t by omega] at this
            exact this hur (by omega)
      have hsz := hf.sizeOwn k row hrow hnum'
      have hfit := hf.sizeFits k hk
      have hlen := (ho.fields row hrow).1
      have hsum := sumRun_mono (fieldWeight size d) row.fieldList hlen
      obtain ⟨x, x1, x2⟩ := fieldsSize_mid (cfg := cfg) (isRef := isReferenceType wi g) (sz := typeSize cfg wi g)
        (weight := fieldWeight size d) (bound := size (d.name k)) (fs := tr.fields) (start := row.fieldList) (a := 0)
        (fun i f hfi hst => by
          have hfis := (ho.fields row hrow).2 i f hfi
          obtain ⟨fr, e1, e2⟩ := hfis.type
          have hil := (List.getElem?_eq_some_iff.mp hfi).1
          have howns := run_owns hwf.fieldRuns hrow' (Nat.lt_of_lt_of_le hil hlen)
          have hstart := partition_start hwf.fieldRuns hrow'
          have hstat : d.static (row.fieldList + i) = false := by rw [← hfis.static]; exact hst
          obtain ⟨b, b1, b2⟩ := isRef f.fieldType fr g e1 (by omega)
          rw [b1, Res.ok_bind]
          have hwt : fieldWeight size d (row.fieldList + i) = if refElem (d.fieldType (row.fieldList + i)) then 8
              else 8 + size (d.fieldTypeName (row.fieldList + i)) := by simp [fieldWeight, hstat]
          cases b with
          | true =>
            refine ⟨8, rfl, ?_⟩
            rw [hwt]
            split <;> omega
          | false =>
            have hre : refElem (d.fieldType (row.fieldList + i)) = false := by
              cases hre : refElem (d.fieldType (row.fieldList + i)) with
              | false => rfl
              | true =>
                have := hf.fieldRef _ (by omega) howns.2.2 hstat hre
                rw [← e2] at this
                exact absurd (b2 this) (by simp)
            rw [hre, if_neg Bool.false_ne_true] at hwt
            obtain ⟨s, s1, s2⟩ := sub f.fieldType fr (hfis.below (brackets_pos_ref hre)) e1
              (fun hd hn => by rw [e2] at hd hn ⊢; exact hf.fieldValue k _ howns hstat hre hd hn)
            exact ⟨s, s1, by rw [hwt, ← e2]; omega⟩)
        (by omega) hfit
      unfold typeSize
      rw [typeAt_eq_ok.mpr htr, Res.ok_bind, hm.primitiveSize hw hwf.numbers, Res.ok_bind]
      have hnone : primitiveSizes.lookup tr.fullName = none := by
        cases hs : primitiveSizes.lookup tr.fullName with
        | none => rfl
        | some s => exact absurd (lookup_small hs).2 hnum
      rw [hnone]
      dsimp only
      rw [x1, Res.ok_bind, ho.name]
      cases hb : tr.base with
      | none => exact ⟨x, rfl, by omega⟩
      | some b =>
        obtain ⟨g1, br, g2, g3⟩ := ho.base b hb
        obtain ⟨s, s1, s2⟩ := sub b br g1 g2 fun hd _ => hf.rankBase k hk _ g3 hd
        have hbw : baseWeight size (d.base k) = size br.fullName := by rw [g3]; rfl
        simp only []
        rw [s1, Res.ok_bind, uadd_ok (show x + s < 2 ^ 64 by omega)]
        exact ⟨x + s, rfl, by omega⟩
  have low : ∀ (t : Nat) tr fuel, t < w0.types.length + m.tables.typeDef.length → wi.types[t]? = some tr →
      C + D + K + 2 ≤ fuel → ∃ s, typeSize cfg wi fuel t = .ok s ∧ s ≤ size tr.fullName := by
    intro t tr fuel ht htr hfu
    rcases Nat.lt_or_ge t w0.types.length with hl | hl
    · exact old t tr fuel hl htr (by omega)
    · obtain ⟨r, r1, r2⟩ := hK (t - w0.types.length) (by omega)
      have := own (K + 1) (t - w0.types.length) (by omega) (by omega) tr fuel
      rw [show w0.types.length + (t - w0.types.length) = t by omega] at this
      exact this htr (by omega)
  intro fuel hfu t tr htr
  rcases Nat.lt_or_ge t (w0.types.length + m.tables.typeDef.length) with hl | hl
  · obtain ⟨s, s1, s2⟩ := low t tr fuel hl htr (by omega)
    exact ⟨s, s1, .inl s2⟩
  · have hx := hm.extra t tr hl htr
    obtain ⟨g, rfl⟩ : ∃ g, fuel = g + 1 := ⟨fuel - 1, by omega⟩
    have hnone : primitiveSizes.lookup tr.fullName = none := by
      cases hs : primitiveSizes.lookup tr.fullName with
      | none => rfl
      | some s => exact absurd (hwf.numbers _ (lookup_small hs).2) hx.unknown
    unfold typeSize
    rw [typeAt_eq_ok.mpr htr, Res.ok_bind, hm.primitiveSize hw hwf.numbers, Res.ok_bind, hnone, hx.fields]
    dsimp only
    rw [List.filter_nil, show fieldsSize cfg (isReferenceType wi g) (typeSize cfg wi g) [] 0 = .ok 0 from rfl, Res.ok_bind]
    cases hb : tr.base with
    | none => exact ⟨0, rfl, .inr ⟨hl, by omega⟩⟩
    | some b =>
      obtain ⟨br, g1, g2⟩ := hx.base b hb
      have hbl : b < w0.types.length + m.tables.typeDef.length := by
        rcases Nat.lt_or_ge b (w0.types.length + m.tables.typeDef.length) with hl' | hl'
        · exact hl'
        · obtain ⟨e, hen⟩ := (hm.extra b br hl' g1).name
          exact absurd g2 (not_known_name hen)
      obtain ⟨s, s1, s2⟩ := low b br g hbl g1 (by omega)
      have := typeSize_lt hm.inv s1
      simp only []
      rw [s1, Res.ok_bind, uadd_ok (show 0 + s < 2 ^ 64 by omega)]
      exact ⟨0 + s, rfl, .inr ⟨hl, by rw [← g2]; omega⟩⟩

end
end Clr
