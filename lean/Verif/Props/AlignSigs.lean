import Verif.Lemmas.AlignSigs
/-! # C101: addresses of signatures -/

namespace Clr
open Spec Reader

theorem numAt_iff {n a : Nat} (hn : n < 2 ^ 29) : NumAt n a ↔ a % (encUnsigned n).length = 0 := by
  rw [encUnsigned_length]
  unfold NumAt
  split
  · omega
  · split <;> omega

/-- An entry of the blob heap that is opened and then read. -/
theorem entry_if {α : Type} (base : Nat) (cfg : Cfg) (pre post content : Bytes) (a : α) (P : Nat → Prop)
    (f : Nat → Reader → Res (α × Reader)) (hl : content.length < 2 ^ 29) (hpost : post.length < 2 ^ 62)
    (h : ∀ b, ReadsIf b (f b) content a P) :
    let x := Strict.blobHeapReader base cfg (pre ++ encBlob content ++ post) pre.length >>= fun p => f p.2 p.1
    (EntryAt content.length P (base + pre.length) → x = .ok (a, ⟨content, content.length⟩)) ∧
      (¬ EntryAt content.length P (base + pre.length) → x = .ub) := by
  dsimp only
  have e : Strict.blobHeapReader base cfg (pre ++ encBlob content ++ post) pre.length =
      if (base + pre.length) % (encUnsigned content.length).length = 0 then
        .ok (Reader.new content, base + pre.length + (encUnsigned content.length).length) else .ub := by
    unfold Strict.blobHeapReader
    rw [sliceFrom_ok (by simp), Res.ok_bind]
    rw [show List.drop pre.length (pre ++ encBlob content ++ post) = encBlob content ++ post by simp]
    exact snewBlobReader_enc hl hpost
  have hr := h (base + pre.length + (encUnsigned content.length).length) (Reader.new content) []
    (Ok.new (by omega)) (by simp)
  rw [show base + pre.length + (encUnsigned content.length).length + (Reader.new content).pos =
    base + pre.length + (encUnsigned content.length).length from rfl] at hr
  rw [e]
  refine ⟨fun hE => ?_, fun hE => ?_⟩
  · rw [if_pos ((numAt_iff hl).1 hE.1), Res.ok_bind]
    refine (hr.1 hE.2).trans ?_
    simp [Reader.skip, Reader.new]
  · by_cases hn : NumAt content.length (base + pre.length)
    · rw [if_pos ((numAt_iff hl).1 hn), Res.ok_bind]
      exact hr.2 fun hP => hE ⟨hn, hP⟩
    · rw [if_neg fun h => hn ((numAt_iff hl).2 h)]
      rfl

/-- **C101, signatures of fields.** In a blob heap at address `base`, the signature of a field is opened and read with aligned
accesses if all its numbers are at multiples of their sizes, and otherwise reading it is undefined behaviour. -/
theorem C101_fields (base : Nat) (cfg : Cfg) (pre post : Bytes) (t : ElementType) (ht : ElemFits t)
    (hl : (encFieldSig t).length < 2 ^ 29) (hpost : post.length < 2 ^ 62) :
    let x := Strict.blobHeapReader base cfg (pre ++ encBlob (encFieldSig t) ++ post) pre.length >>=
      fun p => Strict.readFieldSig p.2 cfg p.1
    (EntryAt (encFieldSig t).length (FieldSigAt t) (base + pre.length) →
        x = .ok (t, ⟨encFieldSig t, (encFieldSig t).length⟩)) ∧
      (¬ EntryAt (encFieldSig t).length (FieldSigAt t) (base + pre.length) → x = .ub) :=
  entry_if base cfg pre post _ t _ (fun b => Strict.readFieldSig b cfg) hl hpost fun _ => readFieldSig_if ht

/-- **C101, signatures of methods.** -/
theorem C101_methods (base : Nat) (cfg : Cfg) (pre post : Bytes) (s : MethodSig) (hs : MethodSigFits s)
    (hl : (encMethodSig s).length < 2 ^ 29) (hpost : post.length < 2 ^ 62) :
    let x := Strict.blobHeapReader base cfg (pre ++ encBlob (encMethodSig s) ++ post) pre.length >>=
      fun p => Strict.readMethodSig p.2 cfg p.1
    (EntryAt (encMethodSig s).length (MethodSigAt s) (base + pre.length) →
        x = .ok (s, ⟨encMethodSig s, (encMethodSig s).length⟩)) ∧
      (¬ EntryAt (encMethodSig s).length (MethodSigAt s) (base + pre.length) → x = .ub) :=
  entry_if base cfg pre post _ s _ (fun b => Strict.readMethodSig b cfg) hl hpost fun _ => readMethodSig_if hs

/-- **C101, signatures of properties.** -/
theorem C101_properties (base : Nat) (cfg : Cfg) (pre post : Bytes) (s : PropertySig) (hs : PropertySigFits s)
    (hl : (encPropertySig s).length < 2 ^ 29) (hpost : post.length < 2 ^ 62) :
    let x := Strict.blobHeapReader base cfg (pre ++ encBlob (encPropertySig s) ++ post) pre.length >>=
      fun p => Strict.readPropertySig p.2 cfg p.1
    (EntryAt (encPropertySig s).length (PropertySigAt s) (base + pre.length) →
        x = .ok (s, ⟨encPropertySig s, (encPropertySig s).length⟩)) ∧
      (¬ EntryAt (encPropertySig s).length (PropertySigAt s) (base + pre.length) → x = .ub) :=
  entry_if base cfg pre post _ s _ (fun b => Strict.readPropertySig b cfg) hl hpost fun _ => readPropertySig_if hs

/-- **C101, arguments of generic methods and types given by signatures.** -/
theorem C101_specs (base : Nat) (cfg : Cfg) (pre post : Bytes) (hpost : post.length < 2 ^ 62) :
    (∀ args : List ElementType, ElemsFit args → args.length < 2 ^ 29 → (encMethodSpec args).length < 2 ^ 29 →
      let x := Strict.blobHeapReader base cfg (pre ++ encBlob (encMethodSpec args) ++ post) pre.length >>=
        fun p => Strict.readMethodSpec p.2 cfg p.1
      (EntryAt (encMethodSpec args).length (MethodSpecAt args) (base + pre.length) →
          x = .ok (args, ⟨encMethodSpec args, (encMethodSpec args).length⟩)) ∧
        (¬ EntryAt (encMethodSpec args).length (MethodSpecAt args) (base + pre.length) → x = .ub)) ∧
    (∀ t : ElementType, ElemFits t → (encElem t).length < 2 ^ 29 →
      let x := Strict.blobHeapReader base cfg (pre ++ encBlob (encElem t) ++ post) pre.length >>=
        fun p => Strict.readTypeSpec p.2 cfg p.1
      (EntryAt (encElem t).length (ElemAt t) (base + pre.length) → x = .ok (t, ⟨encElem t, (encElem t).length⟩)) ∧
        (¬ EntryAt (encElem t).length (ElemAt t) (base + pre.length) → x = .ub)) :=
  ⟨fun args ha hn hl => entry_if base cfg pre post _ args _ (fun b => Strict.readMethodSpec b cfg) hl hpost
      fun _ => readMethodSpec_if hn ha,
    fun t ht hl => entry_if base cfg pre post _ t _ (fun b => Strict.readTypeSpec b cfg) hl hpost fun _ => readElem_if ht⟩

/-- Instances: a `List<C>[]` for a class `C` in row 40, with its number at offset 8 of the entry; the static method
`C M(int)` with its number at offset 4. The one is for even addresses, and so is the other. -/
example : ElemFits (.szArray (.generic (.class (.typeRef 1)) [.class (.typeDef 40)])) ∧
    encFieldSig (.szArray (.generic (.class (.typeRef 1)) [.class (.typeDef 40)])) = [6, 0x1d, 0x15, 0x12, 5, 1, 0x12, 0x80, 0xa0] ∧
    (∀ a, EntryAt 9 (FieldSigAt (.szArray (.generic (.class (.typeRef 1)) [.class (.typeDef 40)]))) a ↔ a % 2 = 0) ∧
    MethodSigFits ⟨false, false, false, 0, .class (.typeDef 40), [.int]⟩ ∧
    encMethodSig ⟨false, false, false, 0, .class (.typeDef 40), [.int]⟩ = [0, 1, 0x12, 0x80, 0xa0, 8] ∧
    (∀ a, EntryAt 6 (MethodSigAt ⟨false, false, false, 0, .class (.typeDef 40), [.int]⟩) a ↔ a % 2 = 0) := by
  refine ⟨by simp [ElemFits, ElemsFit, rowOf], by decide, fun a => ?_, by simp [MethodSigFits, ElemFits, ElemsFit, rowOf], by decide,
    fun a => ?_⟩
  · simp [EntryAt, FieldSigAt, ElemAt, ElemsAt, NumAt, handleNumber, encElem, encTypeDefOrRef, encUnsigned]; omega
  · simp [EntryAt, MethodSigAt, TypesAt, ElemAt, ElemsAt, NumAt, handleNumber, encUnsigned]; omega

/-- **C101, signatures.** Whatever the bytes and the address of a blob: a read that is not undefined behaviour gives what the reader
without addresses gives. -/
theorem C101_signatures_checked (base : Nat) (cfg : Cfg) (r : Reader) :
    (Strict.readFieldSig base cfg r ≠ .ub → Strict.readFieldSig base cfg r = readFieldSig cfg r) ∧
    (Strict.readMethodSig base cfg r ≠ .ub → Strict.readMethodSig base cfg r = readMethodSig cfg r) ∧
    (Strict.readPropertySig base cfg r ≠ .ub → Strict.readPropertySig base cfg r = readPropertySig cfg r) ∧
    (Strict.readMethodSpec base cfg r ≠ .ub → Strict.readMethodSpec base cfg r = readMethodSpec cfg r) ∧
    (Strict.readTypeSpec base cfg r ≠ .ub → Strict.readTypeSpec base cfg r = readTypeSpec cfg r) ∧
    (Strict.readMarshalDesc base cfg r ≠ .ub → Strict.readMarshalDesc base cfg r = readMarshalDesc cfg r) :=
  ⟨(readFieldSig_like rfl).checked, (readMethodSig_like rfl).checked, (readPropertySig_like rfl).checked,
    (readMethodSpec_like rfl).checked, (readElem_like rfl).checked, (readMarshalDesc_like rfl).checked⟩

/-- **C101, signatures.** A blob all of whose bytes are below 0x80 is read the same at every address. -/
theorem C101_signatures_low (base : Nat) (cfg : Cfg) (r : Reader) (h : ∀ b ∈ r.data, b.toNat < 0x80) :
    Strict.readFieldSig base cfg r = readFieldSig cfg r ∧ Strict.readMethodSig base cfg r = readMethodSig cfg r ∧
    Strict.readPropertySig base cfg r = readPropertySig cfg r ∧ Strict.readMethodSpec base cfg r = readMethodSpec cfg r ∧
    Strict.readTypeSpec base cfg r = readTypeSpec cfg r ∧ Strict.readMarshalDesc base cfg r = readMarshalDesc cfg r :=
  ⟨(readFieldSig_like rfl).low h, (readMethodSig_like rfl).low h, (readPropertySig_like rfl).low h,
    (readMethodSpec_like rfl).low h, (readElem_like rfl).low h, (readMarshalDesc_like rfl).low h⟩

/-- Instance: `instance T M<T>(int, string[])` at address 7. -/
example : (∀ b ∈ (Reader.new [0x30, 1, 2, 0x1e, 0, 8, 0x1d, 0x0e]).data, b.toNat < 0x80) ∧
    Strict.readMethodSig 7 .debug (Reader.new [0x30, 1, 2, 0x1e, 0, 8, 0x1d, 0x0e]) =
      .ok (⟨true, false, false, 1, .methodGenericParam 0, [.int, .szArray .string]⟩, ⟨[0x30, 1, 2, 0x1e, 0, 8, 0x1d, 0x0e], 8⟩) := by
  refine ⟨by decide, ?_⟩
  rw [(C101_signatures_low 7 .debug _ (by decide)).2.1]
  rfl

/-- **C101, signatures.** Two fields of classes in rows 32 to 4095, with their signatures one behind the other: wherever the
heap is, reading one of them is undefined behaviour. -/
theorem C101_signatures_never (base : Nat) (cfg : Cfg) (pre post : Bytes) (i j : Nat) (hi : 32 ≤ i ∧ i < 4096)
    (hj : 32 ≤ j ∧ j < 4096) (hpost : post.length < 2 ^ 61) :
    let first := encBlob (encFieldSig (.class (.typeDef i)))
    let second := encBlob (encFieldSig (.class (.typeDef j)))
    let heap := pre ++ first ++ second ++ post
    (Strict.blobHeapReader base cfg heap pre.length >>= fun p => Strict.readFieldSig p.2 cfg p.1) = .ub ∨
      (Strict.blobHeapReader base cfg heap (pre ++ first).length >>= fun p => Strict.readFieldSig p.2 cfg p.1) = .ub := by
  have len : ∀ k, 32 ≤ k ∧ k < 4096 → (encFieldSig (.class (.typeDef k))).length = 4 := fun k hk => by
    simp only [encFieldSig, encElem, List.length_cons, encTypeDefOrRef]
    rw [encUnsigned_length, if_neg (by omega), if_pos (by omega)]
  have blen : ∀ k, 32 ≤ k ∧ k < 4096 → (encBlob (encFieldSig (.class (.typeDef k)))).length = 5 := fun k hk => by
    unfold encBlob
    rw [List.length_append, len k hk]
    rfl
  have fits : ∀ k, 32 ≤ k ∧ k < 4096 → ElemFits (.class (.typeDef k)) := fun k hk => by
    show k < 2 ^ 27
    omega
  have at_iff : ∀ k, 32 ≤ k ∧ k < 4096 → ∀ a,
      EntryAt (encFieldSig (.class (.typeDef k))).length (FieldSigAt (.class (.typeDef k))) a → (a + 3) % 2 = 0 := by
    intro k hk a h
    rw [len k hk] at h
    have h2 := h.2
    simp only [FieldSigAt, ElemAt, NumAt, handleNumber] at h2
    rw [show (encUnsigned 4).length = 1 from rfl] at h2
    omega
  intro first second heap
  by_cases h : (base + pre.length) % 2 = 0
  · refine .inl ?_
    have e : heap = pre ++ first ++ (second ++ post) := by simp [heap]
    rw [e]
    refine (C101_fields base cfg pre (second ++ post) _ (fits i hi) (by rw [len i hi]; decide) ?_).2 fun hE => ?_
    · have : second.length = 5 := blen j hj
      rw [List.length_append]; omega
    · have := at_iff i hi _ hE
      omega
  · refine .inr ?_
    refine (C101_fields base cfg (pre ++ first) post _ (fits j hj) (by rw [len j hj]; decide) (by omega)).2 fun hE => ?_
    have := at_iff j hj _ hE
    have : first.length = 5 := blen i hi
    rw [List.length_append] at *
    omega

/-- Instance: the two entries for rows 40 and 41. -/
example : encBlob (encFieldSig (.class (.typeDef 40))) ++ encBlob (encFieldSig (.class (.typeDef 41))) =
    [4, 6, 0x12, 0x80, 0xa0, 4, 6, 0x12, 0x80, 0xa4] := by decide

end Clr
