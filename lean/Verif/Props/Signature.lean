import Verif.Lemmas.Signature
import Verif.Props.Heaps
/-! # C16–C24: blobs and signatures -/

namespace Clr
open Reader Spec

/-! ## C16 -/

/-- **C16.** An encoded integer decodes to itself and exactly its encoding is consumed, wherever it stands. -/
theorem C16_round_trip (cfg : Cfg) (pre post : Bytes) (n : Nat) (hn : n < 2 ^ 29)
    (hsize : (pre ++ encUnsigned n ++ post).length < 2 ^ 63) :
    readCompressed cfg ⟨pre ++ encUnsigned n ++ post, pre.length⟩ =
      .ok (n, ⟨pre ++ encUnsigned n ++ post, pre.length + (encUnsigned n).length⟩) := by
  have hr : (Reader.mk (pre ++ encUnsigned n ++ post) pre.length).Ok := ⟨by simp, hsize⟩
  rw [readCompressed_at cfg hr hn (t := post) (by simp [Reader.rest])]
  rfl

/-- **C16**, totality: at any position of any buffer the decoder returns a value below 2^30 after one to four bytes
inside the buffer, or an error. -/
theorem C16_total (cfg : Cfg) (data : Bytes) (p : Nat) (hp : p ≤ data.length) (hsize : data.length < 2 ^ 63) :
    (∃ m, readCompressed cfg ⟨data, p⟩ = .err m) ∨
    ∃ v k, readCompressed cfg ⟨data, p⟩ = .ok (v, ⟨data, p + k⟩) ∧ 1 ≤ k ∧ k ≤ 4 ∧ p + k ≤ data.length ∧ v < 2 ^ 30 := by
  have hr : (Reader.mk data p).Ok := ⟨hp, hsize⟩
  rw [readCompressed_eq cfg hr]
  cases h : declaredLength (Reader.mk data p).rest with
  | none => exact .inl ⟨_, rfl⟩
  | some q =>
    obtain ⟨w, n⟩ := q
    obtain ⟨h1, h2, h3, h4⟩ := declaredLength_bound h
    rw [length_rest] at h3
    simp only at h3
    exact .inr ⟨n, w, rfl, h1, h2, by omega, h4⟩

/-- C16, instance: a two-byte and a four-byte form. -/
example : readCompressed Cfg.debug ⟨[9] ++ encUnsigned 0x2e57 ++ [1], 1⟩ = .ok (0x2e57, ⟨[9, 0xae, 0x57, 1], 3⟩) ∧
    readCompressed Cfg.debug ⟨[0xdf, 0xff, 0xff, 0xff], 0⟩ = .ok (0x1fffffff, ⟨[0xdf, 0xff, 0xff, 0xff], 4⟩) ∧
    readCompressed Cfg.debug ⟨[0xdf, 0xff, 0xff], 0⟩ = .err "Unexpected EOF" := by decide

/-! ## C17, C18 -/

/-- **C17.** A reader opened on a blob is a reader over exactly the contents of that blob, whatever precedes and
follows it in the heap. -/
theorem C17_confined (cfg : Cfg) (pre content post : Bytes) (hl : content.length < 2 ^ 29) (hp : post.length < 2 ^ 62) :
    blobHeapReader cfg (pre ++ encBlob content ++ post) pre.length = .ok (Reader.new content) := by
  unfold blobHeapReader
  rw [sliceFrom_ok (by simp)]
  simp only [Res.ok_bind, List.append_assoc, List.drop_left]
  exact newBlobReader_enc cfg hl hp

/-- **C17**, as independence: any decoder gives the same result on the same blob in two different heaps. -/
theorem C17_independent (cfg : Cfg) {α : Type} (decode : Reader → Res (α × Reader)) (pre pre' content post post' : Bytes)
    (hl : content.length < 2 ^ 29) (hp : post.length < 2 ^ 62) (hp' : post'.length < 2 ^ 62) :
    (blobHeapReader cfg (pre ++ encBlob content ++ post) pre.length >>= decode) =
      (blobHeapReader cfg (pre' ++ encBlob content ++ post') pre'.length >>= decode) := by
  rw [C17_confined cfg pre content post hl hp, C17_confined cfg pre' content post' hl hp']

/-- C17, instance: a blob of two bytes in the middle of a heap; and an empty one. -/
example : blobHeapReader Cfg.debug ([0] ++ encBlob [6, 8] ++ [3, 1, 2, 3]) 1 = .ok (Reader.new [6, 8]) ∧
    blobHeapReader Cfg.debug ([0] ++ encBlob [6, 8] ++ [3, 1, 2, 3]) 0 = .ok (Reader.new []) := by decide

/-- **C18** is false of the code: a declared length that overruns the heap panics, and so does an offset behind the
end of the heap. -/
theorem C18_open_refuted : ∀ cfg : Cfg, ¬ (blobHeapReader cfg [5, 1, 2] 0).Returns ∧ ¬ (blobHeapReader cfg [0] 2).Returns := by
  rintro ⟨_ | _⟩ <;> decide

/-- C18, full characterisation: opening a blob returns a reader or an error exactly when the offset is in the heap and
the declared length, if there is one, stays in the heap. What is missing from C18 is the other cases, which panic. -/
theorem C18_open_partial (cfg : Cfg) (heap : Bytes) (o : Nat) (hsize : heap.length < 2 ^ 63) :
    (blobHeapReader cfg heap o).Returns ↔
      o ≤ heap.length ∧ ∀ w n, declaredLength (heap.drop o) = some (w, n) → o + w + n ≤ heap.length := by
  unfold blobHeapReader
  by_cases ho : o ≤ heap.length
  · rw [sliceFrom_ok ho]
    simp only [Res.ok_bind, ho, true_and]
    unfold newBlobReader
    have hr : (Reader.new (heap.drop o)).Ok := Ok.new (by simp; omega)
    rw [readCompressed_eq cfg hr, rest_new]
    cases h : declaredLength (heap.drop o) with
    | none => simp
    | some q =>
      obtain ⟨w, n⟩ := q
      obtain ⟨h1, h2, h3, h4⟩ := declaredLength_bound h
      simp only [List.length_drop] at h3
      have hp : ((Reader.new (heap.drop o)).skip w).pos = w := by simp [Reader.new]
      simp only [Res.mapErr_ok, Res.ok_bind, hp]
      rw [uadd_ok (by omega)]
      simp only [Res.ok_bind]
      by_cases hc : o + w + n ≤ heap.length
      · rw [slice_ok (by simp; omega)]
        simp only [Res.ok_bind, Res.pure_eq, Res.returns_ok, true_iff, Option.some.injEq, Prod.mk.injEq]
        rintro w' n' ⟨rfl, rfl⟩; exact hc
      · have : ¬ (w ≤ w + n ∧ w + n ≤ (heap.drop o).length) := by simp; omega
        simp only [slice, if_neg this, Res.panic_bind, Res.not_returns_panic, false_iff]
        intro hall
        exact hc (hall w n rfl)
  · simp [sliceFrom, ho]

/-- C18, instance of the good case, with a blob that ends exactly at the end of the heap. -/
example : (blobHeapReader Cfg.debug [9, 2, 1, 2] 1).Returns ∧ (blobHeapReader Cfg.debug [9, 0x80] 1).Returns := by decide

/-! ## C19, C20 -/

/-- **C19.** An encoded element type of any depth and width decodes to itself and exactly its encoding is consumed. -/
theorem C19_round_trip (cfg : Cfg) (pre post : Bytes) (t : ElementType) (ht : ElemFits t)
    (hsize : (pre ++ encElem t ++ post).length < 2 ^ 63) :
    readElem cfg ⟨pre ++ encElem t ++ post, pre.length⟩ =
      .ok (t, ⟨pre ++ encElem t ++ post, pre.length + (encElem t).length⟩) := by
  have hr : (Reader.mk (pre ++ encElem t ++ post) pre.length).Ok := ⟨by simp, hsize⟩
  rw [readElem_reads cfg ht _ post hr (by simp [Reader.rest])]
  rfl

/-- C19, instance: `Dictionary<string, int[,]*>[]`, with a generic parameter and a value type in it. -/
example : ElemFits (.szArray (.generic (.class (.typeRef 0x1234))
      [.string, .pointer (.array .int ⟨2, [3, 4], [0, 0]⟩), .valueType (.typeDef 7), .methodGenericParam 1])) ∧
    encElem (.szArray (.generic (.class (.typeRef 0x123)) [.string, .pointer (.array .int ⟨2, [], [0, 0]⟩)])) =
      [0x1d, 0x15, 0x12, 0x84, 0x8d, 2, 0x0e, 0x0f, 0x14, 0x08, 2, 0, 2, 0, 0] := by
  constructor
  · simp [ElemFits, ElemsFit, Shape.Fits, rowOf]
  · decide

/-- **C20.** At any position of any buffer the element-type decoder returns a type after at least one byte and inside
the buffer, or an error: no panic, no out-of-bounds access, no divergence. -/
theorem C20_total (cfg : Cfg) (data : Bytes) (p : Nat) (hp : p ≤ data.length) (hsize : data.length < 2 ^ 63) :
    (∃ m, readElem cfg ⟨data, p⟩ = .err m) ∨
    ∃ t k, readElem cfg ⟨data, p⟩ = .ok (t, ⟨data, p + k⟩) ∧ 1 ≤ k ∧ p + k ≤ data.length := by
  have hr : (Reader.mk data p).Ok := ⟨hp, hsize⟩
  rcases readElem_step cfg hr with h | ⟨a, k, h, h1, h2⟩
  · exact .inl h
  · rw [length_rest] at h2
    simp only at h2
    exact .inr ⟨a, k, h, h1, by omega⟩

/-- C20, instance: hostile nesting and a hostile count end in an error. -/
example : (readElem Cfg.debug ⟨[0x0f, 0x0f, 0x0f], 0⟩).Returns ∧
    (readElem Cfg.debug ⟨[0x15, 0x08, 0xdf, 0xff, 0xff, 0xff, 0x08], 0⟩).Returns := by
  decide +kernel

/-! ## C21 -/

/-- What C21 asks of one shape: rank, sizes and lower bounds come back as written. -/
def ShapeRoundTrips (cfg : Cfg) (s : Shape) : Prop :=
  ∀ pre post : Bytes, (pre ++ s.enc ++ post).length < 2 ^ 63 →
    ∃ d, readArrayShape cfg ⟨pre ++ s.enc ++ post, pre.length⟩ =
        .ok (d, ⟨pre ++ s.enc ++ post, pre.length + s.enc.length⟩) ∧
      d.rank = s.rank ∧ d.sizes = s.sizes ∧ d.lowerBounds.map Int.ofNat = s.lowerBounds

/-- **C21** is false of the code: the lower bound 1 (encoded 0x02) is read as 2, and −1 as 127. -/
theorem C21_lower_bounds_refuted :
    ∀ cfg : Cfg, ¬ ShapeRoundTrips cfg ⟨1, [], [1]⟩ ∧ ¬ ShapeRoundTrips cfg ⟨1, [], [-1]⟩ := by
  intro cfg
  constructor
  · intro h
    obtain ⟨d, hd, _, _, h3⟩ := h [] [] (by decide)
    have e : readArrayShape cfg ⟨[] ++ Shape.enc ⟨1, [], [1]⟩ ++ [], ([] : Bytes).length⟩ =
        .ok (⟨1, [], [2]⟩, ⟨[1, 0, 1, 2], 4⟩) := by rcases cfg with ⟨_ | _⟩ <;> decide
    rw [e] at hd
    cases hd
    revert h3; decide
  · intro h
    obtain ⟨d, hd, _, _, h3⟩ := h [] [] (by decide)
    have e : readArrayShape cfg ⟨[] ++ Shape.enc ⟨1, [], [-1]⟩ ++ [], ([] : Bytes).length⟩ =
        .ok (⟨1, [], [127]⟩, ⟨[1, 0, 1, 127], 4⟩) := by rcases cfg with ⟨_ | _⟩ <;> decide
    rw [e] at hd
    cases hd
    revert h3; decide

/-- C21 for shapes without non-zero lower bounds. Missing: shapes with a lower bound other than zero, for which the
property is false. -/
theorem C21_zero_based_partial (cfg : Cfg) (s : Shape) (hs : s.Fits) (hz : ∀ b ∈ s.lowerBounds, b = 0) :
    ShapeRoundTrips cfg s := by
  intro pre post hsize
  have hr : (Reader.mk (pre ++ s.enc ++ post) pre.length).Ok := ⟨by simp, hsize⟩
  refine ⟨_, readArrayShape_reads cfg hs hz _ post hr (by simp [Reader.rest]), rfl, rfl, ?_⟩
  simp only
  have : ∀ l : List Int, (∀ b ∈ l, b = 0) → (l.map Int.toNat).map Int.ofNat = l := by
    intro l hl
    induction l with
    | nil => rfl
    | cons b l ih =>
      simp only [List.map_cons, List.cons.injEq]
      exact ⟨by rw [hl b (by simp)]; rfl, ih fun c hc => hl c (by simp [hc])⟩
  exact this _ hz

/-- C21, instance of the partial theorem: a 2×300 zero-based array. -/
example : (Shape.mk 2 [2, 300] [0, 0]).Fits ∧ Shape.enc ⟨2, [2, 300], [0, 0]⟩ = [2, 2, 2, 0x81, 0x2c, 2, 0, 0] := by decide

/-! ## C22 -/

/-- `decode` applied to a blob that holds exactly `enc` (followed by anything inside the blob) yields `a`. -/
def Decodes {α : Type} (decode : Reader → Res (α × Reader)) (enc : Bytes) (a : α) : Prop :=
  ∀ pre post : Bytes, (pre ++ enc ++ post).length < 2 ^ 63 →
    decode ⟨pre ++ enc ++ post, pre.length⟩ = .ok (a, ⟨pre ++ enc ++ post, pre.length + enc.length⟩)

theorem Reads.decodes {α : Type} {decode : Reader → Res (α × Reader)} {enc : Bytes} {a : α} (h : Reads decode enc a) :
    Decodes decode enc a := by
  intro pre post hsize
  have hr : (Reader.mk (pre ++ enc ++ post) pre.length).Ok := ⟨by simp, hsize⟩
  rw [h _ post hr (by simp [Reader.rest])]
  rfl

private theorem method_flags : ∀ i e v g : Bool,
    let b := (if i then 0x20 else 0) + (if e then 0x40 else 0) + (if v then 5 else 0) + (if g then 0x10 else 0)
    b < 256 ∧ (b &&& 0x20 = 0x20 ↔ i) ∧ (b &&& 0x40 = 0x40 ↔ e) ∧ (b &&& 0x5 = 0x5 ↔ v) ∧ (b &&& 0x10 = 0x10 ↔ g) := by
  decide

/-- **C22**, method signatures. -/
theorem C22_method (cfg : Cfg) (s : MethodSig) (hs : MethodSigFits s) : Decodes (readMethodSig cfg) (encMethodSig s) s := by
  apply Reads.decodes
  intro r t hr h
  obtain ⟨h1, h2, h3, h4⟩ := hs
  have fl := method_flags s.instance s.explicitThis s.vararg (decide (0 < s.genericParamCount))
  simp only [decide_eq_true_eq] at fl
  obtain ⟨f0, f1, f2, f3, f4⟩ := fl
  unfold readMethodSig
  unfold encMethodSig at h ⊢
  rw [readByte_at cfg hr h, toNat_ofNat_lt f0]
  obtain ⟨hr1, hh1⟩ := cons_rest hr h
  simp only [Res.ok_bind, f1, f2, f3, f4, Bool.decide_eq_true]
  by_cases hg : 0 < s.genericParamCount
  · simp only [hg, if_true, decide_true] at hh1 ⊢
    simp only [List.append_assoc] at hh1
    rw [readCompressed_at cfg hr1 h1 hh1]
    simp only [Res.ok_bind]
    have hr2 := ok_at hr1 hh1
    have hh2 := rest_at hh1
    rw [readCompressed_at cfg hr2 h2 hh2]
    simp only [Res.ok_bind]
    have hr3 := ok_at hr2 hh2
    have hh3 := rest_at hh2
    rw [readElem_reads cfg h3 _ _ hr3 hh3]
    simp only [Res.ok_bind]
    rw [readElems_reads cfg h4 _ _ (ok_at hr3 hh3) (rest_at hh3)]
    simp [Nat.add_comm, Nat.add_left_comm, Nat.add_assoc]
  · have hz : s.genericParamCount = 0 := by omega
    simp only [hz, Nat.lt_irrefl, if_false, decide_false, List.nil_append, Bool.false_eq_true, Res.pure_eq, Res.ok_bind] at hh1 ⊢
    simp only [List.append_assoc] at hh1
    rw [readCompressed_at cfg hr1 h2 hh1]
    simp only [Res.ok_bind]
    have hr3 := ok_at hr1 hh1
    have hh3 := rest_at hh1
    rw [readElem_reads cfg h3 _ _ hr3 hh3]
    simp only [Res.ok_bind]
    rw [readElems_reads cfg h4 _ _ (ok_at hr3 hh3) (rest_at hh3)]
    simp [← hz, Nat.add_comm, Nat.add_left_comm, Nat.add_assoc]

/-- The first byte of an encoded element type. -/
theorem encElem_head (t : ElementType) : ∃ b bs, encElem t = b :: bs ∧ b ≠ 0x1f ∧ b ≠ 0x20 := by
  cases t <;> exact ⟨_, _, rfl, by decide, by decide⟩

/-- **C22**, field signatures. -/
theorem C22_field (cfg : Cfg) (t : ElementType) (ht : ElemFits t) : Decodes (readFieldSig cfg) (encFieldSig t) t := by
  apply Reads.decodes
  intro r tl hr h
  unfold readFieldSig
  unfold encFieldSig at h ⊢
  rw [readByte_at cfg hr h]
  obtain ⟨hr1, hh1⟩ := cons_rest hr h
  simp only [Res.ok_bind]
  rw [if_neg (by simp)]
  obtain ⟨b, bs, hb, n1, n2⟩ := encElem_head t
  have hh1' := hh1
  rw [hb] at hh1'
  rw [peekByte_at cfg hr1 hh1']
  simp only [Res.ok_bind]
  have m1 : b.toNat ≠ 0x1f := fun e => n1 (by rw [← byte_eq e]; rfl)
  have m2 : b.toNat ≠ 0x20 := fun e => n2 (by rw [← byte_eq e]; rfl)
  rw [if_neg (by omega), readElem_reads cfg ht _ _ hr1 hh1]
  simp [Nat.add_comm]

/-- **C22**, property signatures. -/
theorem C22_property (cfg : Cfg) (s : PropertySig) (hs : PropertySigFits s) :
    Decodes (readPropertySig cfg) (encPropertySig s) s := by
  apply Reads.decodes
  intro r t hr h
  obtain ⟨h2, h3, h4⟩ := hs
  unfold readPropertySig
  unfold encPropertySig at h ⊢
  rw [readByte_at cfg hr h]
  obtain ⟨hr1, hh1⟩ := cons_rest hr h
  simp only [Res.ok_bind]
  have f : ((if s.instance then (0x28 : UInt8) else 0x08).toNat &&& 0x8 = 0x8) ∧
      (((if s.instance then (0x28 : UInt8) else 0x08).toNat &&& 0x20 = 0x20) ↔ s.instance = true) := by
    cases s.instance <;> decide
  rw [if_neg (by simp [f.1])]
  simp only [f.2, Bool.decide_eq_true]
  simp only [List.append_assoc] at hh1
  rw [readCompressed_at cfg hr1 h2 hh1]
  simp only [Res.ok_bind]
  have hr3 := ok_at hr1 hh1
  have hh3 := rest_at hh1
  rw [readElem_reads cfg h3 _ _ hr3 hh3]
  simp only [Res.ok_bind]
  rw [readElems_reads cfg h4 _ _ (ok_at hr3 hh3) (rest_at hh3)]
  simp [Nat.add_comm, Nat.add_left_comm, Nat.add_assoc]

/-- **C22**, method instantiations. -/
theorem C22_method_spec (cfg : Cfg) (args : List ElementType) (hl : args.length < 2 ^ 29) (ha : ElemsFit args) :
    Decodes (readMethodSpec cfg) (encMethodSpec args) args := by
  apply Reads.decodes
  intro r t hr h
  unfold readMethodSpec
  unfold encMethodSpec at h ⊢
  rw [readByte_at cfg hr h]
  obtain ⟨hr1, hh1⟩ := cons_rest hr h
  simp only [Res.ok_bind]
  rw [if_neg (by simp)]
  simp only [List.append_assoc] at hh1
  rw [readCompressed_at cfg hr1 hl hh1]
  simp only [Res.ok_bind]
  rw [readElems_reads cfg ha _ _ (ok_at hr1 hh1) (rest_at hh1)]
  simp [Nat.add_comm, Nat.add_left_comm]

/-- **C22**, type specifications (II.23.2.14: an element type). -/
theorem C22_type_spec (cfg : Cfg) (t : ElementType) (ht : ElemFits t) : Decodes (readTypeSpec cfg) (encElem t) t :=
  (readElem_reads cfg ht).decodes

/-- C22, instances: `instance T M<T>(int, string[])`, and an indexer property. -/
example : MethodSigFits ⟨true, false, false, 1, .methodGenericParam 0, [.int, .szArray .string]⟩ ∧
    encMethodSig ⟨true, false, false, 1, .methodGenericParam 0, [.int, .szArray .string]⟩ =
      [0x30, 1, 2, 0x1e, 0, 8, 0x1d, 0x0e] ∧
    PropertySigFits ⟨true, .int, [.int]⟩ ∧ encPropertySig ⟨true, .int, [.int]⟩ = [0x28, 1, 8, 8] := by
  refine ⟨?_, by decide, ?_, by decide⟩ <;> simp [MethodSigFits, PropertySigFits, ElemFits, ElemsFit]

/-! ## C23 -/

/-- **C23** is false of the code: a custom modifier at the start of a field's type panics. -/
theorem C23_field_refuted :
    ∀ cfg : Cfg, ¬ (readFieldSig cfg (Reader.new [0x06, 0x1f, 0x05, 0x08])).Returns ∧
      ¬ (readFieldSig cfg (Reader.new [0x06, 0x20, 0x05, 0x08])).Returns := by
  rintro ⟨_ | _⟩ <;> decide

/-- C23 for method, property, TypeSpec and MethodSpec signatures, and for field signatures whose type does not start
with a custom modifier. Missing: exactly the field signatures `06 1f …` and `06 20 …`, which panic. -/
theorem C23_total_partial (cfg : Cfg) (blob : Bytes) (hsize : blob.length < 2 ^ 63) :
    (readMethodSig cfg (Reader.new blob)).Returns ∧ (readPropertySig cfg (Reader.new blob)).Returns ∧
    (readTypeSpec cfg (Reader.new blob)).Returns ∧ (readMethodSpec cfg (Reader.new blob)).Returns ∧
    ((readFieldSig cfg (Reader.new blob)).Returns ↔ ¬ (blob[0]? = some 0x06 ∧ (blob[1]? = some 0x1f ∨ blob[1]? = some 0x20))) := by
  have hr : (Reader.new blob).Ok := Ok.new hsize
  refine ⟨?_, ?_, ?_, ?_, ?_⟩
  · apply Step.returns (r := Reader.new blob) (lo := 0)
    unfold readMethodSig
    refine ((readByte_step cfg hr).mono (Nat.zero_le _)).bind hr (lo' := 0) fun b k _ _ h1 => ?_
    dsimp only
    split
    · refine ((readCompressed_step cfg h1).mono (Nat.zero_le _)).bind h1 (lo' := 0) fun _ _ _ _ h2 => ?_
      refine ((readCompressed_step cfg h2).mono (Nat.zero_le _)).bind h2 (lo' := 0) fun n _ _ _ h3 => ?_
      refine ((readElem_step cfg h3).mono (Nat.zero_le _)).bind h3 (lo' := 0) fun _ _ _ _ h4 => ?_
      exact (readElems_step cfg n h4).bind h4 (lo' := 0) fun _ _ _ _ _ => Step.pure _ _
    · refine (Step.pure (0, (Reader.new blob).skip k).1 _).bind h1 (lo' := 0) fun _ _ _ _ h2 => ?_
      refine ((readCompressed_step cfg h2).mono (Nat.zero_le _)).bind h2 (lo' := 0) fun n _ _ _ h3 => ?_
      refine ((readElem_step cfg h3).mono (Nat.zero_le _)).bind h3 (lo' := 0) fun _ _ _ _ h4 => ?_
      exact (readElems_step cfg n h4).bind h4 (lo' := 0) fun _ _ _ _ _ => Step.pure _ _
  · apply Step.returns (r := Reader.new blob) (lo := 0)
    unfold readPropertySig
    refine ((readByte_step cfg hr).mono (Nat.zero_le _)).bind hr (lo' := 0) fun b k _ _ h1 => ?_
    dsimp only
    split
    · exact Step.err _ _ _
    · refine ((readCompressed_step cfg h1).mono (Nat.zero_le _)).bind h1 (lo' := 0) fun n _ _ _ h3 => ?_
      refine ((readElem_step cfg h3).mono (Nat.zero_le _)).bind h3 (lo' := 0) fun _ _ _ _ h4 => ?_
      exact (readElems_step cfg n h4).bind h4 (lo' := 0) fun _ _ _ _ _ => Step.pure _ _
  · exact (readElem_step cfg hr).returns
  · apply Step.returns (r := Reader.new blob) (lo := 0)
    unfold readMethodSpec
    refine ((readByte_step cfg hr).mono (Nat.zero_le _)).bind hr (lo' := 0) fun b k _ _ h1 => ?_
    dsimp only
    split
    · exact Step.err _ _ _
    · refine ((readCompressed_step cfg h1).mono (Nat.zero_le _)).bind h1 (lo' := 0) fun n _ _ _ h3 => ?_
      exact readElems_step cfg n h3
  · unfold readFieldSig
    rcases blob with _ | ⟨a, blob⟩
    · have : readByte cfg (Reader.new []) = .err "Unexpected EOF" := by rcases cfg with ⟨_ | _⟩ <;> decide
      rw [this]; simp
    · have h0 : (Reader.new (a :: blob)).rest = a :: blob := by simp
      rw [readByte_at cfg hr h0]
      simp only [Res.ok_bind]
      by_cases ha : a.toNat = 6
      · have ha' : a = 6 := by rw [← byte_eq ha]; rfl
        rw [if_neg (by simp [ha])]
        obtain ⟨h1, h2⟩ := cons_rest (b := a) (bs := blob) (t := []) hr (by simp)
        rcases peekByte_cases cfg h1 with ⟨e1, e2⟩ | ⟨b, t, e1, e2⟩
        · rw [e2]
          have : blob = [] := by rw [e1] at h2; simpa using h2.symm
          simp [this]
        · rw [e2]
          have hbl : blob = b :: t := by rw [e1] at h2; simpa using h2.symm
          simp only [Res.ok_bind]
          have m1 : b.toNat = 0x1f ↔ b = 0x1f := ⟨fun e => by rw [← byte_eq e]; rfl, fun e => by rw [e]; rfl⟩
          have m2 : b.toNat = 0x20 ↔ b = 0x20 := ⟨fun e => by rw [← byte_eq e]; rfl, fun e => by rw [e]; rfl⟩
          by_cases hc : b.toNat = 0x1f ∨ b.toNat = 0x20
          · rw [if_pos hc]
            rw [m1, m2] at hc
            simp [ha', hbl, hc]
          · rw [if_neg hc]
            rw [m1, m2] at hc
            simp only [hbl, List.getElem?_cons_succ, List.getElem?_cons_zero, Option.some.injEq, hc, and_false,
              not_false_eq_true, iff_true]
            exact hbl ▸ (readElem_step cfg h1).returns
      · have ha' : a ≠ 6 := fun e => ha (by rw [e]; rfl)
        rw [if_pos ha]
        simp [ha']

/-- C23, instance: a truncated method signature and a field signature with a bad prefix are errors. -/
example : (readMethodSig Cfg.debug (Reader.new [0x20, 3, 1])).Returns ∧
    (readFieldSig Cfg.debug (Reader.new [0x07, 0x1f])).Returns := by
  decide +kernel

/-! ## C24 -/

theorem readMarshalScalar_at (cfg : Cfg) {r : Reader} {s : MarshalScalar} {t : Bytes} (hr : r.Ok)
    (h : r.rest = marshalCode s :: t) : readMarshalScalar cfg r = .ok (s, r.skip 1) := by
  unfold readMarshalScalar
  rw [readByte_at cfg hr h]
  cases s <;> rfl

theorem readOptCompressed_at (cfg : Cfg) {r : Reader} {n : Nat} {t : Bytes} (hr : r.Ok) (hn : n < 2 ^ 29)
    (h : r.rest = encUnsigned n ++ t) :
    readOptCompressed cfg r = .ok (if n = 0 then none else some n, r.skip (encUnsigned n).length) := by
  unfold readOptCompressed
  rw [readCompressed_at cfg hr hn h]

theorem readOptCompressed_nil (cfg : Cfg) {r : Reader} (hr : r.Ok) (h : r.rest = []) :
    readOptCompressed cfg r = .ok (none, r) := by
  unfold readOptCompressed
  rw [readCompressed_eq cfg hr, h]
  rfl

/-- **C24.** A blob holding an encoded marshalling descriptor decodes to that descriptor, whichever optional parts are
present. -/
theorem C24_round_trip (cfg : Cfg) (d : MarshalDesc) (hd : MarshalFits d) :
    ∃ r', readMarshalDesc cfg (Reader.new (encMarshal d)) = .ok (d, r') := by
  have hlen : ∀ n, (encUnsigned n).length ≤ 4 := by
    intro n; unfold encUnsigned; split <;> (try split) <;> simp
  unfold readMarshalDesc
  cases d with
  | scalar s =>
    have hr : (Reader.new (encMarshal (.scalar s))).Ok := Ok.new (by simp [encMarshal])
    have h : (Reader.new (encMarshal (.scalar s))).rest = marshalCode s :: [] := by simp [encMarshal]
    rw [peekByte_at cfg hr h, Res.ok_bind, if_neg (by cases s <;> decide), readMarshalScalar_at cfg hr h]
    exact ⟨_, rfl⟩
  | array e p n =>
    simp only [MarshalFits, Option.mem_def] at hd
    obtain ⟨hp, hn⟩ := hd
    have hr : (Reader.new (encMarshal (.array e p n))).Ok := Ok.new (by
      cases p <;> cases n <;> simp only [encMarshal, List.length_cons, List.length_append, List.length_nil]
      · omega
      · rename_i n; have := hlen (Option.getD none 0); have := hlen n; omega
      · rename_i n; have := hlen n; omega
      · rename_i p n; have := hlen ((some p).getD 0); have := hlen n; omega)
    obtain ⟨tail, ht⟩ : ∃ tail, encMarshal (.array e p n) = 0x2a :: marshalCode e :: tail := by
      cases p <;> cases n <;> exact ⟨_, rfl⟩
    have h : (Reader.new (encMarshal (.array e p n))).rest = (0x2a :: marshalCode e :: tail) ++ [] := by simp [ht]
    rw [peekByte_at cfg hr h, Res.ok_bind]
    rw [if_pos (by decide), advance_eq cfg _ 1 (hr.bound (by omega))]
    simp only [Res.ok_bind]
    obtain ⟨hr1, hh1⟩ := cons_rest hr h
    rw [readMarshalScalar_at cfg hr1 hh1]
    simp only [Res.ok_bind]
    obtain ⟨hr2, hh2⟩ := cons_rest hr1 hh1
    cases p with
    | none =>
      cases n with
      | none =>
        have : tail = [] := by simpa [encMarshal] using ht.symm
        subst this
        rw [readOptCompressed_nil cfg hr2 (by simpa using hh2)]
        simp only [Res.ok_bind]
        rw [readOptCompressed_nil cfg hr2 (by simpa using hh2)]
        exact ⟨_, rfl⟩
      | some n =>
        have : tail = encUnsigned 0 ++ encUnsigned n := by simpa [encMarshal] using ht.symm
        subst this
        obtain ⟨n0, n1⟩ := hn n rfl
        rw [List.append_assoc] at hh2
        rw [readOptCompressed_at cfg hr2 (n := 0) (by omega) hh2]
        simp only [Res.ok_bind]
        rw [readOptCompressed_at cfg (ok_at hr2 hh2) n1 (rest_at hh2)]
        rw [if_neg (by omega : n ≠ 0)]
        exact ⟨_, rfl⟩
    | some p =>
      obtain ⟨p0, p1⟩ := hp p rfl
      cases n with
      | none =>
        have : tail = encUnsigned p := by simpa [encMarshal] using ht.symm
        subst this
        rw [readOptCompressed_at cfg hr2 p1 hh2]
        simp only [Res.ok_bind]
        rw [readOptCompressed_nil cfg (ok_at hr2 hh2) (by have := rest_at hh2; simpa using this)]
        rw [if_neg (by omega : p ≠ 0)]
        exact ⟨_, rfl⟩
      | some n =>
        have : tail = encUnsigned p ++ encUnsigned n := by simpa [encMarshal] using ht.symm
        subst this
        obtain ⟨n0, n1⟩ := hn n rfl
        rw [List.append_assoc] at hh2
        rw [readOptCompressed_at cfg hr2 p1 hh2]
        simp only [Res.ok_bind]
        rw [readOptCompressed_at cfg (ok_at hr2 hh2) n1 (rest_at hh2)]
        rw [if_neg (by omega : p ≠ 0), if_neg (by omega : n ≠ 0)]
        exact ⟨_, rfl⟩

/-- C24, instance: an array of 4-byte integers with a fixed element count and no size parameter. -/
example : MarshalFits (.array .int none (some 200)) ∧
    encMarshal (.array .int none (some 200)) = [0x2a, 0x07, 0, 0x80, 0xc8] := by
  constructor
  · simp [MarshalFits]
  · decide

end Clr
