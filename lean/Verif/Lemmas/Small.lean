import Verif.Lemmas.Pe
import Verif.Model.Metadata
/-! # Tables have fewer than 2^32 rows -/

namespace Clr
variable {cfg : Cfg}

theorem chunks_small (w n : Nat) : ∀ bs : Bytes, ∀ x ∈ (chunks w n bs).map leNat, x < 256 ^ w := by
  induction n with
  | zero => intro bs x hx; simp [chunks] at hx
  | succ n ih =>
    intro bs x hx
    simp only [chunks, List.map_cons, List.mem_cons] at hx
    rcases hx with rfl | hx
    · exact leNat_take_lt bs w
    · exact ih _ x hx

theorem distributeRows_small {present b : Nat} (hb : 0 < b) (is : List Nat) : ∀ {raw counts : List Nat}, (∀ x ∈ raw, x < b) →
    distributeRows present is raw = .ok counts → ∀ x ∈ counts, x < b := by
  induction is with
  | nil => intro raw counts _ h x hx; cases h; cases hx
  | cons i is ih =>
    intro raw counts hr h x hx
    unfold distributeRows at h
    split at h
    · cases raw with
      | nil => cases h
      | cons n raw =>
        obtain ⟨rest, h1, h2⟩ := Res.bind_eq_ok.mp h
        cases h2
        rcases List.mem_cons.1 hx with rfl | hx
        · exact hr _ (by simp)
        · exact ih (fun y hy => hr y (by simp [hy])) h1 x hx
    · obtain ⟨rest, h1, h2⟩ := Res.bind_eq_ok.mp h
      cases h2
      rcases List.mem_cons.1 hx with rfl | hx
      · exact hb
      · exact ih hr h1 x hx

theorem readArray_small {r r' : Reader} {w n : Nat} {xs : List Bytes} (h : r.readArray cfg w n = .ok (some xs, r')) :
    ∀ x ∈ xs.map leNat, x < 256 ^ w := by
  unfold Reader.readArray at h
  obtain ⟨k, _, h⟩ := Res.bind_eq_ok.mp h
  obtain ⟨e, _, h⟩ := Res.bind_eq_ok.mp h
  split at h
  · cases h
  · obtain ⟨b, _, h⟩ := Res.bind_eq_ok.mp h
    obtain ⟨_, _, h⟩ := Res.bind_eq_ok.mp h
    obtain ⟨⟨_, _⟩, _, h⟩ := Res.bind_eq_ok.mp h
    cases h
    exact chunks_small w n b

theorem readTableHeader_small {data : Bytes} {t : TableCtx} {r : Reader} (h : readTableHeader cfg data = .ok (t, r)) :
    ∀ i, t.rowCount i < 2 ^ 32 := by
  unfold readTableHeader at h
  obtain ⟨⟨_, _⟩, _, h⟩ := Res.bind_eq_ok.mp h
  obtain ⟨⟨_, _⟩, _, h⟩ := Res.bind_eq_ok.mp h
  obtain ⟨_, _, h⟩ := Res.bind_eq_ok.mp h
  obtain ⟨⟨_, _⟩, _, h⟩ := Res.bind_eq_ok.mp h
  obtain ⟨⟨_, _⟩, _, h⟩ := Res.bind_eq_ok.mp h
  obtain ⟨_, _, h⟩ := Res.bind_eq_ok.mp h
  obtain ⟨⟨_, _⟩, _, h⟩ := Res.bind_eq_ok.mp h
  obtain ⟨_, _, h⟩ := Res.bind_eq_ok.mp h
  obtain ⟨⟨raw, _⟩, ha, h⟩ := Res.bind_eq_ok.mp h
  obtain ⟨raw', hr, h⟩ := Res.bind_eq_ok.mp h
  obtain ⟨counts, hc, h⟩ := Res.bind_eq_ok.mp h
  simp only [Res.pure_eq, Res.ok.injEq, Prod.mk.injEq] at h
  obtain ⟨rfl, rfl⟩ := h
  cases raw with
  | none => cases hr
  | some raw =>
    cases hr
    have := distributeRows_small (by omega) _ (readArray_small ha) hc
    intro i
    show (match counts[i]? with | some n => n | none => 0) < _
    cases e : counts[i]? with
    | none => simp
    | some n => exact this n (List.mem_of_getElem? e)

theorem readMany_length {α : Type} {f : Reader → Res (α × Reader)} (n : Nat) : ∀ {r r' : Reader} {xs : List α},
    readMany f n r = .ok (xs, r') → xs.length = n := by
  induction n with
  | zero => intro r r' xs h; cases h; rfl
  | succ n ih =>
    intro r r' xs h
    unfold readMany at h
    obtain ⟨⟨a, r1⟩, _, h⟩ := Res.bind_eq_ok.mp h
    obtain ⟨⟨as, r2⟩, h2, h⟩ := Res.bind_eq_ok.mp h
    cases h
    simp [ih h2]

/-- The tables the loader uses for lookups. -/
structure Tables.Small (t : Tables) : Prop where
  typeRef : t.typeRef.length < 2 ^ 32
  typeDef : t.typeDef.length < 2 ^ 32
  field : t.field.length < 2 ^ 32
  methodDef : t.methodDef.length < 2 ^ 32
  param : t.param.length < 2 ^ 32

theorem readTables_small {t : TableCtx} {r r' : Reader} {x : Tables} (ht : ∀ i, t.rowCount i < 2 ^ 32)
    (h : readTables cfg t r = .ok (x, r')) : x.Small := by
  unfold readTables at h
  obtain ⟨⟨_, _⟩, _, h⟩ := Res.bind_eq_ok.mp h
  obtain ⟨⟨_, _⟩, h1, h⟩ := Res.bind_eq_ok.mp h
  obtain ⟨⟨_, _⟩, h2, h⟩ := Res.bind_eq_ok.mp h
  obtain ⟨⟨_, _⟩, h3, h⟩ := Res.bind_eq_ok.mp h
  obtain ⟨⟨_, _⟩, h4, h⟩ := Res.bind_eq_ok.mp h
  obtain ⟨⟨_, _⟩, h5, h⟩ := Res.bind_eq_ok.mp h
  replace h1 := readMany_length _ h1
  replace h2 := readMany_length _ h2
  replace h3 := readMany_length _ h3
  replace h4 := readMany_length _ h4
  replace h5 := readMany_length _ h5
  iterate 32 (obtain ⟨⟨_, _⟩, _, h⟩ := Res.bind_eq_ok.mp h)
  simp only [Res.pure_eq, Res.ok.injEq, Prod.mk.injEq] at h
  obtain ⟨rfl, _⟩ := h
  exact ⟨h1 ▸ ht _, h2 ▸ ht _, h3 ▸ ht _, h4 ▸ ht _, h5 ▸ ht _⟩

/-- The metadata of a file has fewer than 2^32 rows in each of these tables. -/
theorem readMetadata_small {data : Bytes} {m : Metadata} (h : readMetadata cfg data = .ok m) : m.tables.Small := by
  unfold readMetadata at h
  iterate 13 (obtain ⟨_, _, h⟩ := Res.bind_eq_ok.mp h)
  obtain ⟨t, ht, h⟩ := Res.bind_eq_ok.mp h
  obtain ⟨_, _, h⟩ := Res.bind_eq_ok.mp h
  cases h
  unfold readTableStream at ht
  obtain ⟨⟨c, r⟩, h1, ht⟩ := Res.bind_eq_ok.mp ht
  obtain ⟨⟨x, r'⟩, h2, ht⟩ := Res.bind_eq_ok.mp ht
  cases ht
  exact readTables_small (readTableHeader_small h1) h2

end Clr
