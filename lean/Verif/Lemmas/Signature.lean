import Verif.Lemmas.Blob
/-! # Lemmas about signature decoding: totality and round trips -/

namespace Clr
open Reader Spec

/-! ### Totality -/

theorem readTypeDefOrRef_step (cfg : Cfg) {r : Reader} (hr : r.Ok) : Step (readTypeDefOrRef cfg r) r 1 := by
  unfold readTypeDefOrRef
  refine (readCompressed_step cfg hr).bind hr (lo' := 0) fun a k _ _ _ => ?_
  dsimp only
  split
  · exact Step.pure _ _
  · split
    · exact Step.pure _ _
    · split
      · exact Step.pure _ _
      · exact Step.err _ _ _

theorem readMany_step {α : Type} {f : Reader → Res (α × Reader)} {r0 : Reader} :
    ∀ (n : Nat) {r : Reader}, r.Ok → r.rest.length ≤ r0.rest.length →
      (∀ s : Reader, s.Ok → s.rest.length ≤ r0.rest.length → Step (f s) s 0) → Step (readMany f n r) r 0
  | 0, r, _, _, _ => Step.pure _ _
  | n + 1, r, hr, hl, hf => by
    unfold readMany
    refine (hf r hr hl).bind hr (lo' := 0) fun a k _ hk hok => ?_
    have hl' : (r.skip k).rest.length ≤ r0.rest.length := by rw [rest_skip, List.length_drop]; omega
    refine (readMany_step n hok hl' hf).bind hok (lo' := 0) fun as k' _ _ _ => Step.pure _ _

theorem readArrayShape_step (cfg : Cfg) {r : Reader} (hr : r.Ok) : Step (readArrayShape cfg r) r 0 := by
  unfold readArrayShape
  have hc : ∀ {r0 : Reader} (s : Reader), s.Ok → s.rest.length ≤ r0.rest.length → Step (readCompressed cfg s) s 0 :=
    fun s hs _ => (readCompressed_step cfg hs).mono (by omega)
  refine ((readCompressed_step cfg hr).mono (Nat.zero_le _)).bind hr (lo' := 0) fun _ k1 _ _ h1 => ?_
  refine ((readCompressed_step cfg h1).mono (Nat.zero_le _)).bind h1 (lo' := 0) fun n k2 _ _ h2 => ?_
  refine (readMany_step n h2 (Nat.le_refl _) hc).bind h2 (lo' := 0) fun _ k3 _ _ h3 => ?_
  refine ((readCompressed_step cfg h3).mono (Nat.zero_le _)).bind h3 (lo' := 0) fun m k4 _ _ h4 => ?_
  refine (readMany_step m h4 (Nat.le_refl _) hc).bind h4 (lo' := 0) fun _ k5 _ _ h5 => ?_
  exact Step.pure _ _

/-- The element-type decoder terminates with a value or an error as soon as the fuel exceeds the number of bytes
left, because every call consumes a byte. -/
theorem readElemF_step (cfg : Cfg) : ∀ (fuel : Nat) {r : Reader}, r.Ok → r.rest.length < fuel →
    Step (readElemF cfg fuel r) r 1
  | 0, _, _, h => absurd h (Nat.not_lt_zero _)
  | fuel + 1, r, hr, hf => by
    unfold readElemF
    refine (readByte_step cfg hr).bind hr (lo' := 0) fun b k hk hk' h1 => ?_
    have hlen : (r.skip k).rest.length < fuel := by rw [rest_skip, List.length_drop]; omega
    have hrec : ∀ s : Reader, s.Ok → s.rest.length ≤ (r.skip k).rest.length → Step (readElemF cfg fuel s) s 0 :=
      fun s hs hsl => (readElemF_step cfg fuel hs (by omega)).mono (Nat.zero_le _)
    have hself := hrec _ h1 (Nat.le_refl _)
    dsimp only
    split <;> first
      | exact Step.pure _ _
      | exact Step.err _ _ _
      | exact hself.bind h1 (lo' := 0) fun _ _ _ _ _ => Step.pure _ _
      | exact ((readTypeDefOrRef_step cfg h1).mono (Nat.zero_le _)).bind h1 (lo' := 0) fun _ _ _ _ _ => Step.pure _ _
      | exact ((readCompressed_step cfg h1).mono (Nat.zero_le _)).bind h1 (lo' := 0) fun _ _ _ _ _ => Step.pure _ _
      | exact hself.bind h1 (lo' := 0) fun _ _ _ _ h2 =>
          (readArrayShape_step cfg h2).bind h2 (lo' := 0) fun _ _ _ _ _ => Step.pure _ _
      | exact hself.bind h1 (lo' := 0) fun _ k2 _ _ h2 =>
          ((readCompressed_step cfg h2).mono (Nat.zero_le _)).bind h2 (lo' := 0) fun n k3 _ _ h3 =>
            (readMany_step n h3 (r0 := r.skip k)
              (by simp only [rest_skip, List.length_drop]; omega) hrec).bind h3 (lo' := 0)
              fun _ _ _ _ _ => Step.pure _ _

theorem readElem_step (cfg : Cfg) {r : Reader} (hr : r.Ok) : Step (readElem cfg r) r 1 := by
  unfold readElem
  exact readElemF_step cfg _ hr (by rw [length_rest]; omega)

theorem readElems_step (cfg : Cfg) (n : Nat) {r : Reader} (hr : r.Ok) : Step (readMany (readElem cfg) n r) r 0 :=
  readMany_step (r0 := r) n hr (Nat.le_refl _) fun _ hs _ => (readElem_step cfg hs).mono (Nat.zero_le _)

/-! ### Round trips -/

/-- `f` started at `enc ++ t` yields `a` and stops at `t`. -/
def Reads {α : Type} (f : Reader → Res (α × Reader)) (enc : Bytes) (a : α) : Prop :=
  ∀ (r : Reader) (t : Bytes), r.Ok → r.rest = enc ++ t → f r = .ok (a, r.skip enc.length)

theorem readCompressed_reads (cfg : Cfg) {n : Nat} (hn : n < 2 ^ 29) :
    Reads (readCompressed cfg) (encUnsigned n) n := fun _ _ hr h => readCompressed_at cfg hr hn h

theorem readMany_reads {α : Type} {f : Reader → Res (α × Reader)} :
    ∀ (items : List (Bytes × α)), (∀ p ∈ items, Reads f p.1 p.2) →
      Reads (readMany f items.length) (items.map Prod.fst).flatten (items.map Prod.snd)
  | [], _, r, t, _, _ => by simp [readMany]
  | p :: ps, hp, r, t, hr, h => by
    simp only [List.map_cons, List.flatten_cons, List.append_assoc] at h
    simp only [List.length_cons, readMany]
    rw [hp p (by simp) r _ hr h]
    simp only [Res.ok_bind]
    rw [readMany_reads ps (fun q hq => hp q (by simp [hq])) (r.skip p.1.length) t (ok_at hr h) (rest_at h)]
    simp

theorem readTypeDefOrRef_reads (cfg : Cfg) {h : TypeDefOrRef} (hh : rowOf h < 2 ^ 27) :
    Reads (readTypeDefOrRef cfg) (encTypeDefOrRef h) h := by
  intro r t hr hrest
  unfold readTypeDefOrRef
  cases h with
  | typeDef i =>
    simp only [rowOf, encTypeDefOrRef] at *
    rw [readCompressed_at cfg hr (by omega) hrest]
    have h1 : (4 * i + 0) % 4 = 0 := by omega
    have h2 : (4 * i + 0) / 4 = i := by omega
    simp only [Res.ok_bind, h1, h2]; rfl
  | typeRef i =>
    simp only [rowOf, encTypeDefOrRef] at *
    rw [readCompressed_at cfg hr (by omega) hrest]
    have h1 : (4 * i + 1) % 4 = 1 := by omega
    have h2 : (4 * i + 1) / 4 = i := by omega
    simp only [Res.ok_bind, h1, h2]; rfl
  | typeSpec i =>
    simp only [rowOf, encTypeDefOrRef] at *
    rw [readCompressed_at cfg hr (by omega) hrest]
    have h1 : (4 * i + 2) % 4 = 2 := by omega
    have h2 : (4 * i + 2) / 4 = i := by omega
    simp only [Res.ok_bind, h1, h2]; rfl

/-- A counted list of compressed integers. -/
theorem readCounted_at (cfg : Cfg) {r : Reader} {items : List (Bytes × Nat)} {t : Bytes} (hr : r.Ok)
    (hl : items.length < 2 ^ 29) (hi : ∀ p ∈ items, Reads (readCompressed cfg) p.1 p.2)
    (h : r.rest = encCounted (items.map Prod.fst) ++ t) {β : Type} (f : List Nat × Reader → Res β) :
    (do let (n, r) ← readCompressed cfg r
        let p ← readMany (readCompressed cfg) n r
        f p) = f (items.map Prod.snd, r.skip (encCounted (items.map Prod.fst)).length) := by
  unfold encCounted at h ⊢
  simp only [List.length_map] at h ⊢
  rw [List.append_assoc] at h
  rw [readCompressed_at cfg hr hl h]
  simp only [Res.ok_bind]
  rw [readMany_reads items hi _ t (ok_at hr h) (rest_at h)]
  simp

theorem readArrayShape_reads (cfg : Cfg) {s : Shape} (hs : s.Fits) (hz : ∀ b ∈ s.lowerBounds, b = 0) :
    Reads (readArrayShape cfg) s.enc ⟨s.rank, s.sizes, s.lowerBounds.map Int.toNat⟩ := by
  intro r t hr h
  obtain ⟨h1, h2, h3, h4, h5⟩ := hs
  unfold Shape.enc at h
  rw [List.append_assoc, List.append_assoc] at h
  unfold readArrayShape
  rw [readCompressed_at cfg hr h1 h]
  simp only [Res.ok_bind]
  have hr1 := ok_at hr h
  have hh1 := rest_at h
  have e1 : (s.sizes.map fun n => (encUnsigned n, n)).map Prod.fst = s.sizes.map encUnsigned := by simp
  have e2 : (s.sizes.map fun n => (encUnsigned n, n)).map Prod.snd = s.sizes := by
    simp [Function.comp_def]
  rw [← e1] at hh1
  have hr2 := ok_at hr1 hh1
  have hh2 := rest_at hh1
  have e3 : (s.lowerBounds.map fun b => (encSigned b, b.toNat)).map Prod.fst = s.lowerBounds.map encSigned := by simp
  have e4 : (s.lowerBounds.map fun b => (encSigned b, b.toNat)).map Prod.snd = s.lowerBounds.map Int.toNat := by simp
  rw [← e3] at hh2
  have hz0 : encSigned 0 = encUnsigned 0 := by decide
  have step1 := readCounted_at cfg (items := s.sizes.map fun n => (encUnsigned n, n)) hr1 (by simpa using h2)
    (by
      intro p hp
      simp only [List.mem_map] at hp
      obtain ⟨n, hn, rfl⟩ := hp
      exact readCompressed_reads cfg (h3 n hn)) hh1 (β := ArrayShape × Reader)
  have step2 := readCounted_at cfg (items := s.lowerBounds.map fun b => (encSigned b, b.toNat)) hr2 (by simpa using h4)
    (by
      intro p hp
      simp only [List.mem_map] at hp
      obtain ⟨b, hb, rfl⟩ := hp
      rw [hz b hb, hz0]
      exact readCompressed_reads cfg (n := 0) (by omega)) hh2 (β := ArrayShape × Reader)
  refine (step1 (fun p => do
    let (m, r) ← readCompressed cfg p.2
    let (lowerBounds, r) ← readMany (readCompressed cfg) m r
    .ok (⟨s.rank, p.1, lowerBounds⟩, r))).trans ?_
  refine (step2 (fun p => .ok (⟨s.rank, (s.sizes.map fun n => (encUnsigned n, n)).map Prod.snd, p.1⟩, p.2))).trans ?_
  rw [e1, e2, e3, e4]
  simp [Shape.enc, Nat.add_assoc]

theorem encElem_pos : ∀ t : ElementType, 0 < (encElem t).length := by
  intro t
  cases t <;> simp [encElem]

/-- Peels the type code off an encoded element type. -/
theorem cons_rest {r : Reader} {b : UInt8} {bs t : Bytes} (hr : r.Ok) (h : r.rest = (b :: bs) ++ t) :
    (r.skip 1).Ok ∧ (r.skip 1).rest = bs ++ t := by
  have h' : r.rest = [b] ++ (bs ++ t) := by rw [h]; simp
  exact ⟨by simpa using ok_at hr h', by simpa using rest_at h'⟩

set_option maxRecDepth 4000 in
set_option maxHeartbeats 1000000 in
mutual
theorem readElemF_reads (cfg : Cfg) : ∀ (e : ElementType), ElemFits e → ∀ fuel, (encElem e).length ≤ fuel →
    Reads (readElemF cfg fuel) (encElem e) e
  | e, hfit, fuel, hfuel => by
    intro r t hr h
    obtain ⟨fuel, rfl⟩ : ∃ f, fuel = f + 1 := ⟨fuel - 1, by have := encElem_pos e; omega⟩
    unfold readElemF
    cases e with
    | fnPtr => simp [ElemFits] at hfit
    | pointer e =>
      simp only [encElem, ElemFits, List.length_cons] at *
      rw [readByte_at cfg hr h]
      obtain ⟨h1, h2⟩ := cons_rest hr h
      simp only [Res.ok_bind]
      simp [readElemF_reads cfg e hfit fuel (by omega) _ t h1 h2, Nat.add_comm]
    | reference e =>
      simp only [encElem, ElemFits, List.length_cons] at *
      rw [readByte_at cfg hr h]
      obtain ⟨h1, h2⟩ := cons_rest hr h
      simp only [Res.ok_bind]
      simp [readElemF_reads cfg e hfit fuel (by omega) _ t h1 h2, Nat.add_comm]
    | szArray e =>
      simp only [encElem, ElemFits, List.length_cons] at *
      rw [readByte_at cfg hr h]
      obtain ⟨h1, h2⟩ := cons_rest hr h
      simp only [Res.ok_bind]
      simp [readElemF_reads cfg e hfit fuel (by omega) _ t h1 h2, Nat.add_comm]
    | valueType k =>
      simp only [encElem, ElemFits, List.length_cons] at *
      rw [readByte_at cfg hr h]
      obtain ⟨h1, h2⟩ := cons_rest hr h
      simp only [Res.ok_bind]
      simp [readTypeDefOrRef_reads cfg hfit _ t h1 h2, Nat.add_comm]
    | «class» k =>
      simp only [encElem, ElemFits, List.length_cons] at *
      rw [readByte_at cfg hr h]
      obtain ⟨h1, h2⟩ := cons_rest hr h
      simp only [Res.ok_bind]
      simp [readTypeDefOrRef_reads cfg hfit _ t h1 h2, Nat.add_comm]
    | typeGenericParam n =>
      simp only [encElem, ElemFits, List.length_cons] at *
      rw [readByte_at cfg hr h]
      obtain ⟨h1, h2⟩ := cons_rest hr h
      simp only [Res.ok_bind]
      simp [readCompressed_reads cfg hfit _ t h1 h2, Nat.add_comm]
    | methodGenericParam n =>
      simp only [encElem, ElemFits, List.length_cons] at *
      rw [readByte_at cfg hr h]
      obtain ⟨h1, h2⟩ := cons_rest hr h
      simp only [Res.ok_bind]
      simp [readCompressed_reads cfg hfit _ t h1 h2, Nat.add_comm]
    | array e s =>
      simp only [encElem, ElemFits, List.length_cons, List.length_append] at *
      obtain ⟨f1, f2, f3⟩ := hfit
      rw [readByte_at cfg hr h]
      obtain ⟨h1, h2⟩ := cons_rest hr h
      rw [List.append_assoc] at h2
      simp only [Res.ok_bind]
      have hs := readArrayShape_reads cfg f2 (by
        intro b hb
        simp only [List.mem_map] at hb
        obtain ⟨n, hn, rfl⟩ := hb
        simp [f3 n hn]) _ t (ok_at h1 h2) (rest_at h2)
      have e1 : (List.map Int.ofNat s.lowerBounds).map Int.toNat = s.lowerBounds := by
        simp [List.map_map, Function.comp_def]
      simp only [e1] at hs
      simp only [UInt8.reduceToNat]
      rw [readElemF_reads cfg e f1 fuel (by omega) _ _ h1 h2]
      simp only [Res.ok_bind]
      rw [hs]
      simp [Nat.add_comm, Nat.add_assoc]
    | generic e args =>
      simp only [encElem, ElemFits, List.length_cons, List.length_append] at *
      obtain ⟨f1, f2, f3⟩ := hfit
      rw [readByte_at cfg hr h]
      obtain ⟨h1, h2⟩ := cons_rest hr h
      rw [List.append_assoc, List.append_assoc] at h2
      simp only [Res.ok_bind, UInt8.reduceToNat]
      rw [readElemF_reads cfg e f1 fuel (by omega) _ _ h1 h2]
      simp only [Res.ok_bind]
      have h3 := ok_at h1 h2
      have h4 := rest_at h2
      rw [readCompressed_at cfg h3 f2 h4]
      simp only [Res.ok_bind]
      rw [readElemFs_reads cfg args f3 fuel (by omega) _ t (ok_at h3 h4) (rest_at h4)]
      simp [Nat.add_comm, Nat.add_left_comm, Nat.add_assoc]
    | _ =>
      simp only [encElem] at h ⊢
      rw [readByte_at cfg hr h]
      rfl
theorem readElemFs_reads (cfg : Cfg) : ∀ (es : List ElementType), ElemsFit es → ∀ fuel, (encElems es).length ≤ fuel →
    Reads (readMany (readElemF cfg fuel) es.length) (encElems es) es
  | [], _, _, _ => by
    intro r t hr h
    simp [readMany, encElems]
  | e :: es, hfit, fuel, hfuel => by
    intro r t hr h
    simp only [encElems, ElemsFit, List.length_append, List.length_cons, List.append_assoc, readMany] at *
    rw [readElemF_reads cfg e hfit.1 fuel (by omega) _ _ hr h]
    simp only [Res.ok_bind]
    rw [readElemFs_reads cfg es hfit.2 fuel (by omega) _ t (ok_at hr h) (rest_at h)]
    simp
end

theorem readElem_reads (cfg : Cfg) {e : ElementType} (he : ElemFits e) : Reads (readElem cfg) (encElem e) e := by
  intro r t hr h
  unfold readElem
  refine readElemF_reads cfg e he _ ?_ r t hr h
  have := length_rest r
  rw [h, List.length_append] at this
  omega

theorem readElems_reads (cfg : Cfg) : ∀ {es : List ElementType}, ElemsFit es →
    Reads (readMany (readElem cfg) es.length) (encElems es) es
  | [], _ => by
    intro r t hr h
    simp [readMany, encElems]
  | e :: es, hfit => by
    intro r t hr h
    simp only [encElems, ElemsFit, List.length_append, List.length_cons, List.append_assoc, readMany] at *
    rw [readElem_reads cfg hfit.1 _ _ hr h]
    simp only [Res.ok_bind]
    rw [readElems_reads cfg hfit.2 _ t (ok_at hr h) (rest_at h)]
    simp

end Clr
