import Verif.Model.Room
import Verif.Lemmas.TableRows
import Verif.Lemmas.Small
/-! # Memory requested while reading: bounds in terms of the bytes read -/

namespace Clr
open Reader
open Room (of reserve)

/-! ## Rows take at least a byte -/

theorem trRead_step1 (cfg : Cfg) {r : Reader} (hr : r.Ok) {w : Nat} (hw : w ≤ 8) (hp : 1 ≤ w := by omega) : Step (trRead cfg r w) r 1 := by
  unfold trRead
  have h1 := hr.1
  have h2 := hr.2
  rcases readU_cases cfg r w (by omega) with h | ⟨n, h, _, hl⟩
  · rw [h]; simp [Step]
  · rw [h]
    refine .inr ⟨n, w, by simp, hp, ?_⟩
    rw [length_rest]; omega

theorem trReadWith_step1 {α : Type} {f : Nat → Res α} (hf : ∀ x, (f x).Returns) (cfg : Cfg) {r : Reader} (hr : r.Ok)
    {w : Nat} (hw : w ≤ 8) (hp : 1 ≤ w := by omega) : Step (trReadWith f cfg r w) r 1 := by
  unfold trReadWith
  refine (trRead_step1 cfg hr hw hp).bind hr (lo' := 0) fun x _ _ _ _ => ?_
  rcases hf x with ⟨a, h⟩ | ⟨m, h⟩
  · simp only [h]; exact Step.pure _ _
  · simp only [h]; exact Step.err _ _ _

theorem readWide_step1 (cfg : Cfg) (wide : Bool) {r : Reader} (hr : r.Ok) : Step (readWide cfg wide r) r 1 := by
  unfold readWide
  split <;> exact trRead_step1 cfg hr (by omega)

theorem readHandle_step1 (cfg : Cfg) (t : TableCtx) (ty : TableType) {r : Reader} (hr : r.Ok) :
    Step (readHandle cfg t ty r) r 1 := readWide_step1 cfg _ hr
theorem readStringHandle_step1 (cfg : Cfg) (t : TableCtx) {r : Reader} (hr : r.Ok) :
    Step (readStringHandle cfg t r) r 1 := readWide_step1 cfg _ hr
theorem readBlobHandle_step1 (cfg : Cfg) (t : TableCtx) {r : Reader} (hr : r.Ok) :
    Step (readBlobHandle cfg t r) r 1 := readWide_step1 cfg _ hr

theorem readCoded_step1 (cfg : Cfg) (t : TableCtx) (k : CodedKind) {r : Reader} (hr : r.Ok) :
    Step (readCoded cfg t k r) r 1 := by
  unfold readCoded
  refine (readWide_step1 cfg _ hr).bind hr (lo' := 0) fun x _ _ _ _ => ?_
  simp only
  cases k.decodeTag (x &&& k.tagMask) with
  | none => exact Step.err _ _ _
  | some a => exact Step.pure _ _

theorem readModuleRow_step1 (cfg : Cfg) (t : TableCtx) {r : Reader} (hr : r.Ok) : Step (readModuleRow cfg t r) r 1 := by
  unfold readModuleRow
  refine (trReadIgnored_step cfg hr (by omega)).bind hr (lo' := 1) fun _ _ _ _ hr => ?_
  refine (readStringHandle_step1 cfg t hr).bind hr (lo' := 0) fun _ _ _ _ hr => ?_
  refine Step.andThen (readGuidHandle_step cfg t hr) hr fun _ r hr => ?_
  refine Step.andThen (readGuidHandle_step cfg t hr) hr fun _ r hr => ?_
  refine Step.andThen (readGuidHandle_step cfg t hr) hr fun _ r hr => ?_
  exact Step.pure _ _

theorem readTypeRefRow_step1 (cfg : Cfg) (t : TableCtx) {r : Reader} (hr : r.Ok) : Step (readTypeRefRow cfg t r) r 1 := by
  unfold readTypeRefRow
  refine (readCoded_step1 cfg t _ hr).bind hr (lo' := 0) fun _ _ _ _ hr => ?_
  refine Step.andThen (readStringHandle_step cfg t hr) hr fun _ r hr => ?_
  refine Step.andThen (readStringHandle_step cfg t hr) hr fun _ r hr => ?_
  exact Step.pure _ _

theorem readTypeDefRow_step1 (cfg : Cfg) (t : TableCtx) {r : Reader} (hr : r.Ok) : Step (readTypeDefRow cfg t r) r 1 := by
  unfold readTypeDefRow
  refine (trReadWith_step1 TypeAttributes.fromRaw_returns cfg hr (by omega)).bind hr (lo' := 0) fun _ _ _ _ hr => ?_
  refine Step.andThen (readStringHandle_step cfg t hr) hr fun _ r hr => ?_
  refine Step.andThen (readStringHandle_step cfg t hr) hr fun _ r hr => ?_
  refine Step.andThen (readCoded_step cfg t _ hr) hr fun _ r hr => ?_
  refine Step.andThen (readHandle_step cfg t _ hr) hr fun _ r hr => ?_
  refine Step.andThen (readHandle_step cfg t _ hr) hr fun _ r hr => ?_
  exact Step.pure _ _

theorem readFieldRow_step1 (cfg : Cfg) (t : TableCtx) {r : Reader} (hr : r.Ok) : Step (readFieldRow cfg t r) r 1 := by
  unfold readFieldRow
  refine (trReadWith_step1 FieldAttributes.fromRaw_returns cfg hr (by omega)).bind hr (lo' := 0) fun _ _ _ _ hr => ?_
  refine Step.andThen (readStringHandle_step cfg t hr) hr fun _ r hr => ?_
  refine Step.andThen (readBlobHandle_step cfg t hr) hr fun _ r hr => ?_
  exact Step.pure _ _

theorem readMethodDefRow_step1 (cfg : Cfg) (t : TableCtx) {r : Reader} (hr : r.Ok) : Step (readMethodDefRow cfg t r) r 1 := by
  unfold readMethodDefRow
  refine (trRead_step1 cfg hr (by omega)).bind hr (lo' := 0) fun _ _ _ _ hr => ?_
  refine Step.andThen (trReadWith_step MethodImplAttributes.fromRaw_returns cfg hr (by omega)) hr fun _ r hr => ?_
  refine Step.andThen (trReadWith_step MethodAttributes.fromRaw_returns cfg hr (by omega)) hr fun _ r hr => ?_
  refine Step.andThen (readStringHandle_step cfg t hr) hr fun _ r hr => ?_
  refine Step.andThen (readBlobHandle_step cfg t hr) hr fun _ r hr => ?_
  refine Step.andThen (readHandle_step cfg t _ hr) hr fun _ r hr => ?_
  exact Step.pure _ _

theorem readParamRow_step1 (cfg : Cfg) (t : TableCtx) {r : Reader} (hr : r.Ok) : Step (readParamRow cfg t r) r 1 := by
  unfold readParamRow
  refine (trReadWith_step1 ParamAttributes.fromRaw_returns cfg hr (by omega)).bind hr (lo' := 0) fun _ _ _ _ hr => ?_
  refine Step.andThen (trRead_step cfg hr (by omega)) hr fun _ r hr => ?_
  refine Step.andThen (readStringHandle_step cfg t hr) hr fun _ r hr => ?_
  exact Step.pure _ _

theorem readInterfaceImplRow_step1 (cfg : Cfg) (t : TableCtx) {r : Reader} (hr : r.Ok) : Step (readInterfaceImplRow cfg t r) r 1 := by
  unfold readInterfaceImplRow
  refine (readHandle_step1 cfg t _ hr).bind hr (lo' := 0) fun _ _ _ _ hr => ?_
  refine Step.andThen (readCoded_step cfg t _ hr) hr fun _ r hr => ?_
  exact Step.pure _ _

theorem readMemberRefRow_step1 (cfg : Cfg) (t : TableCtx) {r : Reader} (hr : r.Ok) : Step (readMemberRefRow cfg t r) r 1 := by
  unfold readMemberRefRow
  refine (readCoded_step1 cfg t _ hr).bind hr (lo' := 0) fun _ _ _ _ hr => ?_
  refine Step.andThen (readStringHandle_step cfg t hr) hr fun _ r hr => ?_
  refine Step.andThen (readBlobHandle_step cfg t hr) hr fun _ r hr => ?_
  exact Step.pure _ _

theorem readConstantRow_step1 (cfg : Cfg) (t : TableCtx) {r : Reader} (hr : r.Ok) :
    Step (readConstantRow cfg t r) r 1 := by
  unfold readConstantRow
  refine (trReadWith_step1 ConstantType.fromRaw_returns cfg hr (by omega)).bind hr (lo' := 0) fun ty k0 _ _ hr => ?_
  generalize r.skip k0 = r at hr ⊢
  have h1 := hr.1
  have h2 := hr.2
  simp only
  rw [advance_eq cfg r 1 (by omega)]
  simp only [Res.ok_bind]
  by_cases hl : 1 ≤ r.rest.length
  · have hok := hr.skip hl
    have : Step (do
        let (parent, r) ← readCoded cfg t .hasConstant (r.skip 1)
        let (value, r) ← readBlobHandle cfg t r
        pure ((⟨ty, parent, value⟩ : ConstantRow), r)) (r.skip 1) 0 := by
      refine Step.andThen (readCoded_step cfg t _ hok) hok fun _ r hr => ?_
      refine Step.andThen (readBlobHandle_step cfg t hr) hr fun _ r hr => ?_
      exact Step.pure _ _
    rcases this with ⟨m, h⟩ | ⟨a, k, h, _, hk⟩
    · exact .inl ⟨m, h⟩
    · refine .inr ⟨a, 1 + k, by rw [← skip_skip]; exact h, Nat.zero_le _, ?_⟩
      rw [rest_skip, List.length_drop] at hk
      omega
  · left
    rw [length_rest] at hl
    have he : ∀ wide, readWide cfg wide (r.skip 1) = .err "Unexpected EOF" := by
      intro wide
      unfold readWide trRead
      have hp : ∀ w, 2 ≤ w → w ≤ 4 → (r.skip 1).readU cfg w = .ok (none, r.skip 1) := by
        intro w hw hw'
        rw [readU_eq cfg _ w (by simp; omega), if_neg (by simp; omega)]
      cases wide
      · simp [hp 2 (by omega) (by omega)]
      · simp [hp 4 (by omega) (by omega)]
    refine ⟨"Unexpected EOF", ?_⟩
    unfold readCoded
    rw [he]
    rfl

theorem readCustomAttributeRow_step1 (cfg : Cfg) (t : TableCtx) {r : Reader} (hr : r.Ok) : Step (readCustomAttributeRow cfg t r) r 1 := by
  unfold readCustomAttributeRow
  refine (readCoded_step1 cfg t _ hr).bind hr (lo' := 0) fun _ _ _ _ hr => ?_
  refine Step.andThen (readCoded_step cfg t _ hr) hr fun _ r hr => ?_
  refine Step.andThen (readBlobHandle_step cfg t hr) hr fun _ r hr => ?_
  exact Step.pure _ _

theorem readFieldMarshalRow_step1 (cfg : Cfg) (t : TableCtx) {r : Reader} (hr : r.Ok) : Step (readFieldMarshalRow cfg t r) r 1 := by
  unfold readFieldMarshalRow
  refine (readCoded_step1 cfg t _ hr).bind hr (lo' := 0) fun _ _ _ _ hr => ?_
  refine Step.andThen (readBlobHandle_step cfg t hr) hr fun _ r hr => ?_
  exact Step.pure _ _

theorem readDeclSecurityRow_step1 (cfg : Cfg) (t : TableCtx) {r : Reader} (hr : r.Ok) : Step (readDeclSecurityRow cfg t r) r 1 := by
  unfold readDeclSecurityRow
  refine (trRead_step1 cfg hr (by omega)).bind hr (lo' := 0) fun _ _ _ _ hr => ?_
  refine Step.andThen (readCoded_step cfg t _ hr) hr fun _ r hr => ?_
  refine Step.andThen (readBlobHandle_step cfg t hr) hr fun _ r hr => ?_
  exact Step.pure _ _

theorem readClassLayoutRow_step1 (cfg : Cfg) (t : TableCtx) {r : Reader} (hr : r.Ok) : Step (readClassLayoutRow cfg t r) r 1 := by
  unfold readClassLayoutRow
  refine (trReadWith_step1 (fun _ => Res.returns_ok _) cfg hr (by omega)).bind hr (lo' := 0) fun _ _ _ _ hr => ?_
  refine Step.andThen (trReadWith_step (fun _ => Res.returns_ok _) cfg hr (by omega)) hr fun _ r hr => ?_
  refine Step.andThen (readHandle_step cfg t _ hr) hr fun _ r hr => ?_
  exact Step.pure _ _

theorem readFieldLayoutRow_step1 (cfg : Cfg) (t : TableCtx) {r : Reader} (hr : r.Ok) : Step (readFieldLayoutRow cfg t r) r 1 := by
  unfold readFieldLayoutRow
  refine (trRead_step1 cfg hr (by omega)).bind hr (lo' := 0) fun _ _ _ _ hr => ?_
  refine Step.andThen (readHandle_step cfg t _ hr) hr fun _ r hr => ?_
  exact Step.pure _ _

theorem readStandaloneSigRow_step1 (cfg : Cfg) (t : TableCtx) {r : Reader} (hr : r.Ok) : Step (readStandaloneSigRow cfg t r) r 1 := by
  unfold readStandaloneSigRow
  refine (readBlobHandle_step1 cfg t hr).bind hr (lo' := 0) fun _ _ _ _ hr => ?_
  exact Step.pure _ _

theorem readEventMapRow_step1 (cfg : Cfg) (t : TableCtx) {r : Reader} (hr : r.Ok) : Step (readEventMapRow cfg t r) r 1 := by
  unfold readEventMapRow
  refine (readHandle_step1 cfg t _ hr).bind hr (lo' := 0) fun _ _ _ _ hr => ?_
  refine Step.andThen (readHandle_step cfg t _ hr) hr fun _ r hr => ?_
  exact Step.pure _ _

theorem readEventRow_step1 (cfg : Cfg) (t : TableCtx) {r : Reader} (hr : r.Ok) : Step (readEventRow cfg t r) r 1 := by
  unfold readEventRow
  refine (trReadWith_step1 EventAttributes.fromRaw_returns cfg hr (by omega)).bind hr (lo' := 0) fun _ _ _ _ hr => ?_
  refine Step.andThen (readStringHandle_step cfg t hr) hr fun _ r hr => ?_
  refine Step.andThen (readCoded_step cfg t _ hr) hr fun _ r hr => ?_
  exact Step.pure _ _

theorem readPropertyMapRow_step1 (cfg : Cfg) (t : TableCtx) {r : Reader} (hr : r.Ok) : Step (readPropertyMapRow cfg t r) r 1 := by
  unfold readPropertyMapRow
  refine (readHandle_step1 cfg t _ hr).bind hr (lo' := 0) fun _ _ _ _ hr => ?_
  refine Step.andThen (readHandle_step cfg t _ hr) hr fun _ r hr => ?_
  exact Step.pure _ _

theorem readPropertyRow_step1 (cfg : Cfg) (t : TableCtx) {r : Reader} (hr : r.Ok) : Step (readPropertyRow cfg t r) r 1 := by
  unfold readPropertyRow
  refine (trReadWith_step1 PropertyAttributes.fromRaw_returns cfg hr (by omega)).bind hr (lo' := 0) fun _ _ _ _ hr => ?_
  refine Step.andThen (readStringHandle_step cfg t hr) hr fun _ r hr => ?_
  refine Step.andThen (readBlobHandle_step cfg t hr) hr fun _ r hr => ?_
  exact Step.pure _ _

theorem readMethodSemanticsRow_step1 (cfg : Cfg) (t : TableCtx) {r : Reader} (hr : r.Ok) : Step (readMethodSemanticsRow cfg t r) r 1 := by
  unfold readMethodSemanticsRow
  refine (trReadWith_step1 MethodSemanticsType.fromRaw_returns cfg hr (by omega)).bind hr (lo' := 0) fun _ _ _ _ hr => ?_
  refine Step.andThen (readHandle_step cfg t _ hr) hr fun _ r hr => ?_
  refine Step.andThen (readCoded_step cfg t _ hr) hr fun _ r hr => ?_
  exact Step.pure _ _

theorem readMethodImplRow_step1 (cfg : Cfg) (t : TableCtx) {r : Reader} (hr : r.Ok) : Step (readMethodImplRow cfg t r) r 1 := by
  unfold readMethodImplRow
  refine (readHandle_step1 cfg t _ hr).bind hr (lo' := 0) fun _ _ _ _ hr => ?_
  refine Step.andThen (readCoded_step cfg t _ hr) hr fun _ r hr => ?_
  refine Step.andThen (readCoded_step cfg t _ hr) hr fun _ r hr => ?_
  exact Step.pure _ _

theorem readModuleRefRow_step1 (cfg : Cfg) (t : TableCtx) {r : Reader} (hr : r.Ok) : Step (readModuleRefRow cfg t r) r 1 := by
  unfold readModuleRefRow
  refine (readStringHandle_step1 cfg t hr).bind hr (lo' := 0) fun _ _ _ _ hr => ?_
  exact Step.pure _ _

theorem readTypeSpecRow_step1 (cfg : Cfg) (t : TableCtx) {r : Reader} (hr : r.Ok) : Step (readTypeSpecRow cfg t r) r 1 := by
  unfold readTypeSpecRow
  refine (readBlobHandle_step1 cfg t hr).bind hr (lo' := 0) fun _ _ _ _ hr => ?_
  exact Step.pure _ _

theorem readImplMapRow_step1 (cfg : Cfg) (t : TableCtx) {r : Reader} (hr : r.Ok) : Step (readImplMapRow cfg t r) r 1 := by
  unfold readImplMapRow
  refine (trReadWith_step1 PInvokeAttributes.fromRaw_returns cfg hr (by omega)).bind hr (lo' := 0) fun _ _ _ _ hr => ?_
  refine Step.andThen (readCoded_step cfg t _ hr) hr fun _ r hr => ?_
  refine Step.andThen (readStringHandle_step cfg t hr) hr fun _ r hr => ?_
  refine Step.andThen (readHandle_step cfg t _ hr) hr fun _ r hr => ?_
  exact Step.pure _ _

theorem readFieldRvaRow_step1 (cfg : Cfg) (t : TableCtx) {r : Reader} (hr : r.Ok) : Step (readFieldRvaRow cfg t r) r 1 := by
  unfold readFieldRvaRow
  refine (trRead_step1 cfg hr (by omega)).bind hr (lo' := 0) fun _ _ _ _ hr => ?_
  refine Step.andThen (readHandle_step cfg t _ hr) hr fun _ r hr => ?_
  exact Step.pure _ _

theorem readAssemblyRow_step1 (cfg : Cfg) (t : TableCtx) {r : Reader} (hr : r.Ok) : Step (readAssemblyRow cfg t r) r 1 := by
  unfold readAssemblyRow
  refine (trReadWith_step1 AssemblyHashAlgorithm.fromRaw_returns cfg hr (by omega)).bind hr (lo' := 0) fun _ _ _ _ hr => ?_
  refine Step.andThen (trRead_step cfg hr (by omega)) hr fun _ r hr => ?_
  refine Step.andThen (trRead_step cfg hr (by omega)) hr fun _ r hr => ?_
  refine Step.andThen (trRead_step cfg hr (by omega)) hr fun _ r hr => ?_
  refine Step.andThen (trRead_step cfg hr (by omega)) hr fun _ r hr => ?_
  refine Step.andThen (trReadWith_step AssemblyFlags.fromRaw_returns cfg hr (by omega)) hr fun _ r hr => ?_
  refine Step.andThen (readBlobHandle_step cfg t hr) hr fun _ r hr => ?_
  refine Step.andThen (readStringHandle_step cfg t hr) hr fun _ r hr => ?_
  refine Step.andThen (readStringHandle_step cfg t hr) hr fun _ r hr => ?_
  exact Step.pure _ _

theorem readAssemblyProcessorRow_step1 (cfg : Cfg) (t : TableCtx) {r : Reader} (hr : r.Ok) : Step (readAssemblyProcessorRow cfg t r) r 1 := by
  unfold readAssemblyProcessorRow
  refine (trRead_step1 cfg hr (by omega)).bind hr (lo' := 0) fun _ _ _ _ hr => ?_
  exact Step.pure _ _

theorem readAssemblyOsRow_step1 (cfg : Cfg) (t : TableCtx) {r : Reader} (hr : r.Ok) : Step (readAssemblyOsRow cfg t r) r 1 := by
  unfold readAssemblyOsRow
  refine (trRead_step1 cfg hr (by omega)).bind hr (lo' := 0) fun _ _ _ _ hr => ?_
  refine Step.andThen (trRead_step cfg hr (by omega)) hr fun _ r hr => ?_
  refine Step.andThen (trRead_step cfg hr (by omega)) hr fun _ r hr => ?_
  exact Step.pure _ _

theorem readAssemblyRefRow_step1 (cfg : Cfg) (t : TableCtx) {r : Reader} (hr : r.Ok) : Step (readAssemblyRefRow cfg t r) r 1 := by
  unfold readAssemblyRefRow
  refine (trRead_step1 cfg hr (by omega)).bind hr (lo' := 0) fun _ _ _ _ hr => ?_
  refine Step.andThen (trRead_step cfg hr (by omega)) hr fun _ r hr => ?_
  refine Step.andThen (trRead_step cfg hr (by omega)) hr fun _ r hr => ?_
  refine Step.andThen (trRead_step cfg hr (by omega)) hr fun _ r hr => ?_
  refine Step.andThen (trReadWith_step AssemblyFlags.fromRaw_returns cfg hr (by omega)) hr fun _ r hr => ?_
  refine Step.andThen (readBlobHandle_step cfg t hr) hr fun _ r hr => ?_
  refine Step.andThen (readStringHandle_step cfg t hr) hr fun _ r hr => ?_
  refine Step.andThen (readStringHandle_step cfg t hr) hr fun _ r hr => ?_
  refine Step.andThen (readBlobHandle_step cfg t hr) hr fun _ r hr => ?_
  exact Step.pure _ _

theorem readAssemblyRefProcessorRow_step1 (cfg : Cfg) (t : TableCtx) {r : Reader} (hr : r.Ok) : Step (readAssemblyRefProcessorRow cfg t r) r 1 := by
  unfold readAssemblyRefProcessorRow
  refine (trRead_step1 cfg hr (by omega)).bind hr (lo' := 0) fun _ _ _ _ hr => ?_
  refine Step.andThen (readHandle_step cfg t _ hr) hr fun _ r hr => ?_
  exact Step.pure _ _

theorem readAssemblyRefOsRow_step1 (cfg : Cfg) (t : TableCtx) {r : Reader} (hr : r.Ok) : Step (readAssemblyRefOsRow cfg t r) r 1 := by
  unfold readAssemblyRefOsRow
  refine (trRead_step1 cfg hr (by omega)).bind hr (lo' := 0) fun _ _ _ _ hr => ?_
  refine Step.andThen (trRead_step cfg hr (by omega)) hr fun _ r hr => ?_
  refine Step.andThen (trRead_step cfg hr (by omega)) hr fun _ r hr => ?_
  refine Step.andThen (readHandle_step cfg t _ hr) hr fun _ r hr => ?_
  exact Step.pure _ _

theorem readFileRow_step1 (cfg : Cfg) (t : TableCtx) {r : Reader} (hr : r.Ok) : Step (readFileRow cfg t r) r 1 := by
  unfold readFileRow
  refine (trReadWith_step1 (fun _ => Res.returns_ok _) cfg hr (by omega)).bind hr (lo' := 0) fun _ _ _ _ hr => ?_
  refine Step.andThen (readStringHandle_step cfg t hr) hr fun _ r hr => ?_
  refine Step.andThen (readBlobHandle_step cfg t hr) hr fun _ r hr => ?_
  exact Step.pure _ _

theorem readExportedTypeRow_step1 (cfg : Cfg) (t : TableCtx) {r : Reader} (hr : r.Ok) : Step (readExportedTypeRow cfg t r) r 1 := by
  unfold readExportedTypeRow
  refine (trReadWith_step1 TypeAttributes.fromRaw_returns cfg hr (by omega)).bind hr (lo' := 0) fun _ _ _ _ hr => ?_
  refine Step.andThen (trRead_step cfg hr (by omega)) hr fun _ r hr => ?_
  refine Step.andThen (readStringHandle_step cfg t hr) hr fun _ r hr => ?_
  refine Step.andThen (readStringHandle_step cfg t hr) hr fun _ r hr => ?_
  refine Step.andThen (readCoded_step cfg t _ hr) hr fun _ r hr => ?_
  exact Step.pure _ _

theorem readManifestResourceRow_step1 (cfg : Cfg) (t : TableCtx) {r : Reader} (hr : r.Ok) : Step (readManifestResourceRow cfg t r) r 1 := by
  unfold readManifestResourceRow
  refine (trRead_step1 cfg hr (by omega)).bind hr (lo' := 0) fun _ _ _ _ hr => ?_
  refine Step.andThen (trReadWith_step (fun _ => Res.returns_ok _) cfg hr (by omega)) hr fun _ r hr => ?_
  refine Step.andThen (readStringHandle_step cfg t hr) hr fun _ r hr => ?_
  refine Step.andThen (readCoded_step cfg t _ hr) hr fun _ r hr => ?_
  exact Step.pure _ _

theorem readNestedClassRow_step1 (cfg : Cfg) (t : TableCtx) {r : Reader} (hr : r.Ok) : Step (readNestedClassRow cfg t r) r 1 := by
  unfold readNestedClassRow
  refine (readHandle_step1 cfg t _ hr).bind hr (lo' := 0) fun _ _ _ _ hr => ?_
  refine Step.andThen (readHandle_step cfg t _ hr) hr fun _ r hr => ?_
  exact Step.pure _ _

theorem readGenericParamRow_step1 (cfg : Cfg) (t : TableCtx) {r : Reader} (hr : r.Ok) : Step (readGenericParamRow cfg t r) r 1 := by
  unfold readGenericParamRow
  refine (trRead_step1 cfg hr (by omega)).bind hr (lo' := 0) fun _ _ _ _ hr => ?_
  refine Step.andThen (trReadWith_step GenericParamAttributes.fromRaw_returns cfg hr (by omega)) hr fun _ r hr => ?_
  refine Step.andThen (readCoded_step cfg t _ hr) hr fun _ r hr => ?_
  refine Step.andThen (readStringHandle_step cfg t hr) hr fun _ r hr => ?_
  exact Step.pure _ _

theorem readMethodSpecRow_step1 (cfg : Cfg) (t : TableCtx) {r : Reader} (hr : r.Ok) : Step (readMethodSpecRow cfg t r) r 1 := by
  unfold readMethodSpecRow
  refine (readCoded_step1 cfg t _ hr).bind hr (lo' := 0) fun _ _ _ _ hr => ?_
  refine Step.andThen (readBlobHandle_step cfg t hr) hr fun _ r hr => ?_
  exact Step.pure _ _

theorem readGenericParamConstraintRow_step1 (cfg : Cfg) (t : TableCtx) {r : Reader} (hr : r.Ok) : Step (readGenericParamConstraintRow cfg t r) r 1 := by
  unfold readGenericParamConstraintRow
  refine (readHandle_step1 cfg t _ hr).bind hr (lo' := 0) fun _ _ _ _ hr => ?_
  refine Step.andThen (readCoded_step cfg t _ hr) hr fun _ r hr => ?_
  exact Step.pure _ _

/-! ## Erasure -/

theorem Room.bind_fst {α β : Type} (x : Room α) (f : α → Room β) : (x >>= f).1 = (x.1 >>= fun a => (f a).1) := by
  show (Room.bind x f).1 = _
  obtain ⟨x, n⟩ := x
  unfold Room.bind
  cases x <;> rfl

theorem Room.pure_fst {α : Type} (a : α) : (Pure.pure a : Room α).1 = .ok a := rfl
theorem Room.of_fst {α : Type} (x : Res α) : (of x).1 = x := rfl
theorem Room.reserve_fst (n : Nat) : (reserve n).1 = .ok () := rfl

theorem Room.reserve_bind {α : Type} (n : Nat) (f : Unit → Room α) : (reserve n >>= f) = ((f ()).1, n + (f ()).2) := rfl

theorem readManyR_fst {α : Type} {f : Reader → Room (α × Reader)} {g : Reader → Res (α × Reader)} (h : ∀ r, (f r).1 = g r) (n : Nat) :
    ∀ r, (readManyR f n r).1 = readMany g n r := by
  induction n with
  | zero => intro r; rfl
  | succ n ih =>
    intro r
    unfold readManyR readMany
    simp only [Room.bind_fst, h, ih, Room.pure_fst]
    rfl

theorem readTableR_fst {α : Type} (f : Reader → Res (α × Reader)) (t : TableCtx) (ty : TableType) (r : Reader) :
    (readTableR f t ty r).1 = readTable f t ty r := rfl

theorem readTablesR_fst (cfg : Cfg) (t : TableCtx) (r : Reader) : (readTablesR cfg t r).1 = readTables cfg t r := by
  unfold readTablesR readTables
  simp only [Room.bind_fst, readTableR_fst, Room.pure_fst, Res.pure_eq]

theorem readTableStreamR_fst (cfg : Cfg) (data : Bytes) : (readTableStreamR cfg data).1 = readTableStream cfg data := by
  unfold readTableStreamR readTableStream
  simp only [Room.bind_fst, Room.of_fst, readTablesR_fst, Room.pure_fst, Res.pure_eq]

theorem readArrayShapeR_fst (cfg : Cfg) (r : Reader) : (readArrayShapeR cfg r).1 = readArrayShape cfg r := by
  unfold readArrayShapeR readArrayShape
  simp only [Room.bind_fst, Room.of_fst, Room.reserve_fst, Room.pure_fst, Res.pure_eq, Res.ok_bind]

theorem readElemR_fst (cfg : Cfg) (fuel : Nat) : ∀ r, (readElemR cfg fuel r).1 = readElemF cfg fuel r := by
  induction fuel with
  | zero => intro r; rfl
  | succ fuel ih =>
    intro r
    unfold readElemR
    rw [Room.bind_fst, Room.of_fst]
    unfold readElemF
    cases hb : readByte cfg r with
    | ok p =>
      obtain ⟨b, r1⟩ := p
      simp only [Res.ok_bind]
      split
      · simp only [Room.bind_fst, ih, Room.pure_fst, Res.pure_eq]
      · simp only [Room.bind_fst, ih, Room.pure_fst, Res.pure_eq]
      · simp only [Room.bind_fst, ih, readArrayShapeR_fst, Room.pure_fst, Res.pure_eq]
      · simp only [Room.bind_fst, ih, Room.of_fst, Room.reserve_fst, readManyR_fst ih, Room.pure_fst, Res.pure_eq, Res.ok_bind]
      · simp only [Room.bind_fst, ih, Room.pure_fst, Res.pure_eq]
      · rw [Room.of_fst]
    | err m => rfl
    | panic => rfl
    | ub => rfl
    | timeout => rfl

theorem readElemR_elem (cfg : Cfg) (r : Reader) : (readElemR cfg (r.data.length - r.pos + 1) r).1 = readElem cfg r := readElemR_fst _ _ _

theorem readMethodSigR_fst (cfg : Cfg) (r : Reader) : (readMethodSigR cfg r).1 = readMethodSig cfg r := by
  unfold readMethodSigR readMethodSig
  rw [Room.bind_fst, Room.of_fst]
  congr 1
  funext p
  dsimp only
  split <;> simp only [Room.bind_fst, Room.of_fst, Room.reserve_fst, readElemR_elem, readManyR_fst (readElemR_elem cfg), Room.pure_fst,
    Res.pure_eq, Res.ok_bind]

theorem readPropertySigR_fst (cfg : Cfg) (r : Reader) : (readPropertySigR cfg r).1 = readPropertySig cfg r := by
  unfold readPropertySigR readPropertySig
  rw [Room.bind_fst, Room.of_fst]
  congr 1
  funext p
  dsimp only
  split
  · rfl
  · simp only [Room.bind_fst, Room.of_fst, Room.reserve_fst, readElemR_elem, readManyR_fst (readElemR_elem cfg), Room.pure_fst, Res.pure_eq,
      Res.ok_bind]

theorem readMethodSpecR_fst (cfg : Cfg) (r : Reader) : (readMethodSpecR cfg r).1 = readMethodSpec cfg r := by
  unfold readMethodSpecR readMethodSpec
  rw [Room.bind_fst, Room.of_fst]
  congr 1
  funext p
  dsimp only
  split
  · rfl
  · simp only [Room.bind_fst, Room.of_fst, Room.reserve_fst, readManyR_fst (readElemR_elem cfg), Res.ok_bind]

/-! ## What is requested is read, or there is an error -/

/-- An error, or a value and a move of at least `lo` bytes more than elements were requested. -/
def RoomStep {α : Type} (x : Room (α × Reader)) (r : Reader) (lo : Nat) : Prop :=
  (∃ m, x.1 = .err m) ∨ ∃ a k, x.1 = .ok (a, r.skip k) ∧ lo + x.2 ≤ k ∧ k ≤ r.rest.length

theorem Step.room {α : Type} {x : Res (α × Reader)} {r : Reader} {lo : Nat} (h : Step x r lo) : RoomStep (of x) r lo := h

theorem RoomStep.mono {α : Type} {x : Room (α × Reader)} {r : Reader} {lo lo' : Nat} (h : RoomStep x r lo) (hl : lo' ≤ lo) : RoomStep x r lo' := by
  rcases h with h | ⟨a, k, h, h1, h2⟩
  · exact .inl h
  · exact .inr ⟨a, k, h, by omega, h2⟩

theorem RoomStep.bind {α β : Type} {x : Room (α × Reader)} {f : α × Reader → Room (β × Reader)} {r : Reader} {lo lo' : Nat}
    (hr : r.Ok) (hx : RoomStep x r lo)
    (hf : ∀ a k, lo ≤ k → k ≤ r.rest.length → (r.skip k).Ok → RoomStep (f (a, r.skip k)) (r.skip k) lo') :
    RoomStep (x >>= f) r (lo + lo') := by
  rcases hx with ⟨m, hm⟩ | ⟨a, k, he, h1, h2⟩
  · exact .inl ⟨m, by rw [Room.bind_fst, hm]; rfl⟩
  · have e2 : (x >>= f).2 = x.2 + (f (a, r.skip k)).2 := by
      show (Room.bind x f).2 = _
      unfold Room.bind
      rw [he]
    have e1 : (x >>= f).1 = (f (a, r.skip k)).1 := by rw [Room.bind_fst, he]; rfl
    rcases hf a k (by omega) h2 (hr.skip h2) with ⟨m, h⟩ | ⟨b, k', h, h3, h4⟩
    · exact .inl ⟨m, e1.trans h⟩
    · rw [rest_skip, List.length_drop] at h4
      exact .inr ⟨b, k + k', by rw [e1, h]; simp, by omega, by omega⟩

theorem RoomStep.pure {α : Type} (a : α) (r : Reader) : RoomStep (Pure.pure (a, r)) r 0 :=
  .inr ⟨a, 0, by simp [Room.pure_fst], Nat.le_refl _, Nat.zero_le _⟩

/-- A request of `n` elements is paid for by what follows. -/
theorem RoomStep.reserve {α : Type} {n lo : Nat} {f : Unit → Room (α × Reader)} {r : Reader} (h : RoomStep (f ()) r (n + lo)) :
    RoomStep (reserve n >>= f) r lo := by
  rw [Room.reserve_bind]
  rcases h with h | ⟨a, k, h, h1, h2⟩
  · exact .inl h
  · exact .inr ⟨a, k, h, by show lo + (n + _) ≤ k; omega, h2⟩

theorem readManyR_step {α : Type} {f : Reader → Room (α × Reader)} {r0 : Reader} :
    ∀ (n : Nat) {r : Reader}, r.Ok → r.rest.length ≤ r0.rest.length →
      (∀ s : Reader, s.Ok → s.rest.length ≤ r0.rest.length → RoomStep (f s) s 1) → RoomStep (readManyR f n r) r n
  | 0, r, _, _, _ => (Step.pure _ _).room
  | n + 1, r, hr, hl, hf => by
    unfold readManyR
    refine ((hf r hr hl).bind hr (lo' := n) fun a k _ hk hok => ?_).mono (by omega)
    have hl' : (r.skip k).rest.length ≤ r0.rest.length := by rw [rest_skip, List.length_drop]; omega
    exact (readManyR_step n hok hl' hf).bind hok (lo' := 0) fun as k' _ _ _ => RoomStep.pure _ _

theorem readMany_step1 {α : Type} {f : Reader → Res (α × Reader)} (n : Nat) {r : Reader} (hr : r.Ok)
    (hf : ∀ s : Reader, s.Ok → Step (f s) s 1) : Step (readMany f n r) r n := by
  induction n generalizing r with
  | zero => exact Step.pure _ _
  | succ n ih =>
    unfold readMany
    refine ((hf r hr).bind hr (lo' := n) fun a k _ hk hok => ?_).mono (by omega)
    exact (ih hok).bind hok (lo' := 0) fun as k' _ _ _ => Step.pure _ _

theorem readTableR_step {α : Type} {f : Reader → Res (α × Reader)} (t : TableCtx) (ty : TableType)
    (hf : ∀ s : Reader, s.Ok → Step (f s) s 1) {r : Reader} (hr : r.Ok) : RoomStep (readTableR f t ty r) r 0 :=
  .reserve (readMany_step1 _ hr hf).room

theorem RoomStep.andThen {α β : Type} {x : Room (α × Reader)} {f : α × Reader → Room (β × Reader)} {r : Reader}
    (hx : RoomStep x r 0) (hr : r.Ok) (hf : ∀ (a : α) (r' : Reader), r'.Ok → RoomStep (f (a, r')) r' 0) :
    RoomStep (x >>= f) r 0 := hx.bind hr (lo' := 0) fun a _ _ _ hok => hf a _ hok

theorem readTablesR_step (cfg : Cfg) (t : TableCtx) {r : Reader} (hr : r.Ok) : RoomStep (readTablesR cfg t r) r 0 := by
  unfold readTablesR
  refine RoomStep.andThen (readTableR_step t _ (fun _ hs => readModuleRow_step1 cfg t hs) hr) hr fun _ r hr => ?_
  refine RoomStep.andThen (readTableR_step t _ (fun _ hs => readTypeRefRow_step1 cfg t hs) hr) hr fun _ r hr => ?_
  refine RoomStep.andThen (readTableR_step t _ (fun _ hs => readTypeDefRow_step1 cfg t hs) hr) hr fun _ r hr => ?_
  refine RoomStep.andThen (readTableR_step t _ (fun _ hs => readFieldRow_step1 cfg t hs) hr) hr fun _ r hr => ?_
  refine RoomStep.andThen (readTableR_step t _ (fun _ hs => readMethodDefRow_step1 cfg t hs) hr) hr fun _ r hr => ?_
  refine RoomStep.andThen (readTableR_step t _ (fun _ hs => readParamRow_step1 cfg t hs) hr) hr fun _ r hr => ?_
  refine RoomStep.andThen (readTableR_step t _ (fun _ hs => readInterfaceImplRow_step1 cfg t hs) hr) hr fun _ r hr => ?_
  refine RoomStep.andThen (readTableR_step t _ (fun _ hs => readMemberRefRow_step1 cfg t hs) hr) hr fun _ r hr => ?_
  refine RoomStep.andThen (readTableR_step t _ (fun _ hs => readConstantRow_step1 cfg t hs) hr) hr fun _ r hr => ?_
  refine RoomStep.andThen (readTableR_step t _ (fun _ hs => readCustomAttributeRow_step1 cfg t hs) hr) hr fun _ r hr => ?_
  refine RoomStep.andThen (readTableR_step t _ (fun _ hs => readFieldMarshalRow_step1 cfg t hs) hr) hr fun _ r hr => ?_
  refine RoomStep.andThen (readTableR_step t _ (fun _ hs => readDeclSecurityRow_step1 cfg t hs) hr) hr fun _ r hr => ?_
  refine RoomStep.andThen (readTableR_step t _ (fun _ hs => readClassLayoutRow_step1 cfg t hs) hr) hr fun _ r hr => ?_
  refine RoomStep.andThen (readTableR_step t _ (fun _ hs => readFieldLayoutRow_step1 cfg t hs) hr) hr fun _ r hr => ?_
  refine RoomStep.andThen (readTableR_step t _ (fun _ hs => readStandaloneSigRow_step1 cfg t hs) hr) hr fun _ r hr => ?_
  refine RoomStep.andThen (readTableR_step t _ (fun _ hs => readEventMapRow_step1 cfg t hs) hr) hr fun _ r hr => ?_
  refine RoomStep.andThen (readTableR_step t _ (fun _ hs => readEventRow_step1 cfg t hs) hr) hr fun _ r hr => ?_
  refine RoomStep.andThen (readTableR_step t _ (fun _ hs => readPropertyMapRow_step1 cfg t hs) hr) hr fun _ r hr => ?_
  refine RoomStep.andThen (readTableR_step t _ (fun _ hs => readPropertyRow_step1 cfg t hs) hr) hr fun _ r hr => ?_
  refine RoomStep.andThen (readTableR_step t _ (fun _ hs => readMethodSemanticsRow_step1 cfg t hs) hr) hr fun _ r hr => ?_
  refine RoomStep.andThen (readTableR_step t _ (fun _ hs => readMethodImplRow_step1 cfg t hs) hr) hr fun _ r hr => ?_
  refine RoomStep.andThen (readTableR_step t _ (fun _ hs => readModuleRefRow_step1 cfg t hs) hr) hr fun _ r hr => ?_
  refine RoomStep.andThen (readTableR_step t _ (fun _ hs => readTypeSpecRow_step1 cfg t hs) hr) hr fun _ r hr => ?_
  refine RoomStep.andThen (readTableR_step t _ (fun _ hs => readImplMapRow_step1 cfg t hs) hr) hr fun _ r hr => ?_
  refine RoomStep.andThen (readTableR_step t _ (fun _ hs => readFieldRvaRow_step1 cfg t hs) hr) hr fun _ r hr => ?_
  refine RoomStep.andThen (readTableR_step t _ (fun _ hs => readAssemblyRow_step1 cfg t hs) hr) hr fun _ r hr => ?_
  refine RoomStep.andThen (readTableR_step t _ (fun _ hs => readAssemblyProcessorRow_step1 cfg t hs) hr) hr fun _ r hr => ?_
  refine RoomStep.andThen (readTableR_step t _ (fun _ hs => readAssemblyOsRow_step1 cfg t hs) hr) hr fun _ r hr => ?_
  refine RoomStep.andThen (readTableR_step t _ (fun _ hs => readAssemblyRefRow_step1 cfg t hs) hr) hr fun _ r hr => ?_
  refine RoomStep.andThen (readTableR_step t _ (fun _ hs => readAssemblyRefProcessorRow_step1 cfg t hs) hr) hr fun _ r hr => ?_
  refine RoomStep.andThen (readTableR_step t _ (fun _ hs => readAssemblyRefOsRow_step1 cfg t hs) hr) hr fun _ r hr => ?_
  refine RoomStep.andThen (readTableR_step t _ (fun _ hs => readFileRow_step1 cfg t hs) hr) hr fun _ r hr => ?_
  refine RoomStep.andThen (readTableR_step t _ (fun _ hs => readExportedTypeRow_step1 cfg t hs) hr) hr fun _ r hr => ?_
  refine RoomStep.andThen (readTableR_step t _ (fun _ hs => readManifestResourceRow_step1 cfg t hs) hr) hr fun _ r hr => ?_
  refine RoomStep.andThen (readTableR_step t _ (fun _ hs => readNestedClassRow_step1 cfg t hs) hr) hr fun _ r hr => ?_
  refine RoomStep.andThen (readTableR_step t _ (fun _ hs => readGenericParamRow_step1 cfg t hs) hr) hr fun _ r hr => ?_
  refine RoomStep.andThen (readTableR_step t _ (fun _ hs => readMethodSpecRow_step1 cfg t hs) hr) hr fun _ r hr => ?_
  refine RoomStep.andThen (readTableR_step t _ (fun _ hs => readGenericParamConstraintRow_step1 cfg t hs) hr) hr fun _ r hr => ?_
  exact RoomStep.pure _ _

theorem readArrayShapeR_step (cfg : Cfg) {r : Reader} (hr : r.Ok) : RoomStep (readArrayShapeR cfg r) r 0 := by
  unfold readArrayShapeR
  have hc : ∀ s : Reader, s.Ok → Step (readCompressed cfg s) s 1 := fun s hs => readCompressed_step cfg hs
  refine RoomStep.andThen ((hc _ hr).room.mono (Nat.zero_le _)) hr fun _ r hr => ?_
  refine RoomStep.andThen ((hc _ hr).room.mono (Nat.zero_le _)) hr fun n r hr => ?_
  refine .reserve ((readMany_step1 n hr hc).room.bind hr (lo' := 0) fun _ k _ _ hr => ?_)
  refine RoomStep.andThen ((hc _ hr).room.mono (Nat.zero_le _)) hr fun n r hr => ?_
  refine .reserve ((readMany_step1 n hr hc).room.bind hr (lo' := 0) fun _ k _ _ hr => ?_)
  exact RoomStep.pure _ _

theorem Room.of_ok_bind {α β : Type} (a : α) (f : α → Room β) : (of (.ok a) >>= f) = f a := by
  show ((f a).1, 0 + (f a).2) = f a
  rw [Nat.zero_add]
  rfl

theorem RoomStep.after {α : Type} {x : Room (α × Reader)} {r : Reader} {k lo : Nat} (hk : k ≤ r.rest.length)
    (h : RoomStep x (r.skip k) lo) : RoomStep x r (k + lo) := by
  rcases h with h | ⟨b, k', h, h3, h4⟩
  · exact .inl h
  · rw [rest_skip, List.length_drop] at h4
    exact .inr ⟨b, k + k', by rw [h]; simp, by omega, by omega⟩

theorem readElemR_step (cfg : Cfg) : ∀ (fuel : Nat) {r : Reader}, r.Ok → r.rest.length < fuel → RoomStep (readElemR cfg fuel r) r 1
  | 0, _, _, h => absurd h (Nat.not_lt_zero _)
  | fuel + 1, r, hr, hf => by
    have hplain := (readElemF_step cfg (fuel + 1) hr hf).room
    unfold readElemR
    rcases readByte_step cfg hr with ⟨m, hb⟩ | ⟨b, k, hb, hk, hk'⟩
    · rw [hb]
      exact .inl ⟨m, rfl⟩
    · rw [hb, Room.of_ok_bind]
      have h1 := hr.skip hk'
      have hlen : (r.skip k).rest.length < fuel := by rw [rest_skip, List.length_drop]; omega
      have hrec : ∀ s : Reader, s.Ok → s.rest.length ≤ (r.skip k).rest.length → RoomStep (readElemR cfg fuel s) s 1 :=
        fun s hs hsl => readElemR_step cfg fuel hs (by omega)
      have hone := hrec _ h1 (Nat.le_refl _)
      dsimp only
      split
      · refine ((hone.bind h1 (lo' := 0) fun _ _ _ _ _ => ?_).after hk').mono (by omega)
        exact RoomStep.pure _ _
      · refine ((hone.bind h1 (lo' := 0) fun _ _ _ _ _ => ?_).after hk').mono (by omega)
        exact RoomStep.pure _ _
      · refine ((hone.bind h1 (lo' := 0) fun _ _ _ _ h2 => ?_).after hk').mono (by omega)
        exact (readArrayShapeR_step cfg h2).bind h2 (lo' := 0) fun _ _ _ _ _ => RoomStep.pure _ _
      · refine ((hone.bind h1 (lo' := 1) fun _ j _ hj h2 => ?_).after hk').mono (by omega)
        refine ((readCompressed_step cfg h2).room.bind h2 (lo' := 0) fun n i _ hi h3 => ?_)
        refine .reserve ?_
        refine ((readManyR_step (r0 := r.skip k) n h3 ?_ hrec).bind h3 (lo' := 0) fun _ _ _ _ _ => RoomStep.pure _ _)
        rw [rest_skip, rest_skip, List.length_drop, List.length_drop]
        omega
      · refine ((hone.bind h1 (lo' := 0) fun _ _ _ _ _ => ?_).after hk').mono (by omega)
        exact RoomStep.pure _ _
      · exact hplain

theorem readElemR_step' (cfg : Cfg) {r : Reader} (hr : r.Ok) : RoomStep (readElemR cfg (r.data.length - r.pos + 1) r) r 1 :=
  readElemR_step cfg _ hr (by rw [length_rest]; omega)

theorem readManyR_step' (cfg : Cfg) (n : Nat) {r : Reader} (hr : r.Ok) :
    RoomStep (readManyR (fun r => readElemR cfg (r.data.length - r.pos + 1) r) n r) r n :=
  readManyR_step (r0 := r) n hr (Nat.le_refl _) fun _ hs _ => readElemR_step' cfg hs

theorem readMethodSigR_step (cfg : Cfg) {r : Reader} (hr : r.Ok) : RoomStep (readMethodSigR cfg r) r 1 := by
  unfold readMethodSigR
  refine (readByte_step cfg hr).room.bind hr (lo' := 0) fun b _ _ _ hr => ?_
  dsimp only
  refine RoomStep.bind (lo := 0) (lo' := 0) hr ?_ fun _ _ _ _ hr => ?_
  · split
    · exact (readCompressed_step cfg hr).room.mono (Nat.zero_le _)
    · exact (Step.pure _ _).room
  · refine ((readCompressed_step cfg hr).room.mono (Nat.zero_le _)).bind hr (lo' := 0) fun n _ _ _ hr => ?_
    refine ((readElemR_step' cfg hr).mono (Nat.zero_le _)).bind hr (lo' := 0) fun _ _ _ _ hr => ?_
    exact .reserve ((readManyR_step' cfg n hr).bind hr (lo' := 0) fun _ _ _ _ _ => RoomStep.pure _ _)

theorem readPropertySigR_step (cfg : Cfg) {r : Reader} (hr : r.Ok) : RoomStep (readPropertySigR cfg r) r 1 := by
  unfold readPropertySigR
  refine (readByte_step cfg hr).room.bind hr (lo' := 0) fun b _ _ _ hr => ?_
  dsimp only
  split
  · exact .inl ⟨_, rfl⟩
  · refine ((readCompressed_step cfg hr).room.mono (Nat.zero_le _)).bind hr (lo' := 0) fun n _ _ _ hr => ?_
    refine ((readElemR_step' cfg hr).mono (Nat.zero_le _)).bind hr (lo' := 0) fun _ _ _ _ hr => ?_
    exact .reserve ((readManyR_step' cfg n hr).bind hr (lo' := 0) fun _ _ _ _ _ => RoomStep.pure _ _)

theorem readMethodSpecR_step (cfg : Cfg) {r : Reader} (hr : r.Ok) : RoomStep (readMethodSpecR cfg r) r 1 := by
  unfold readMethodSpecR
  refine (readByte_step cfg hr).room.bind hr (lo' := 0) fun b _ _ _ hr => ?_
  dsimp only
  split
  · exact .inl ⟨_, rfl⟩
  · refine ((readCompressed_step cfg hr).room.mono (Nat.zero_le _)).bind hr (lo' := 0) fun n _ _ _ hr => ?_
    exact .reserve ((readManyR_step' cfg n hr).mono (by omega))

theorem readTableHeader_within (cfg : Cfg) (data : Bytes) (hsize : data.length < 2 ^ 63) :
    (∃ m, readTableHeader cfg data = .err m) ∨ ∃ t r, readTableHeader cfg data = .ok (t, r) ∧ r.Ok ∧ r.data = data := by
  unfold readTableHeader
  simp only
  rw [advance_eq cfg _ 6 (by simp [Reader.new])]
  simp only [Res.ok_bind]
  rcases readU_cases cfg ((Reader.new data).skip 6) 1 (by simp [Reader.new]) with h | ⟨b, h, _, hl⟩
  · rw [h]; exact .inl ⟨_, rfl⟩
  rw [h]
  simp only [Res.ok_bind, Option.bind_some]
  cases heapSizeFlags b with
  | none => exact .inl ⟨_, rfl⟩
  | some fl =>
    simp only [Res.ofOption_some, Res.ok_bind, skip_skip]
    rw [advance_eq cfg _ 1 (by simp [Reader.new])]
    simp only [Res.ok_bind, skip_skip]
    rcases readU_cases cfg ((Reader.new data).skip (6 + 1 + 1)) 8 (by simp [Reader.new]) with h | ⟨valid, h, _, hl2⟩
    · rw [h]; exact .inl ⟨_, rfl⟩
    rw [h]
    simp only [Res.ok_bind, Res.ofOption_some, skip_skip]
    rcases readU_cases cfg ((Reader.new data).skip (6 + 1 + 1 + 8)) 8 (by simp [Reader.new]) with h | ⟨sorted, h, _, hl3⟩
    · rw [h]; exact .inl ⟨_, rfl⟩
    rw [h]
    simp only [Res.ok_bind, Res.ofOption_some, skip_skip]
    have hc := countOnes_le valid
    rcases readArray_cases cfg ((Reader.new data).skip (6 + 1 + 1 + 8 + 8)) 4 (countOnes valid)
      (by simp [Reader.new]; omega) with h | ⟨raw, h, hraw, hl4⟩
    · rw [h]; exact .inl ⟨_, rfl⟩
    rw [h]
    simp only [Res.ok_bind, Res.ofOption_some, skip_skip]
    obtain ⟨l, hd⟩ := distributeRows_returns valid (List.range 64) (raw.map leNat) (by
      rw [List.length_map, hraw]; exact Nat.le_refl _)
    rw [hd]
    refine .inr ⟨_, _, rfl, ?_, rfl⟩
    constructor
    · simp only [skip_pos, skip_data, Reader.new] at hl4 ⊢
      omega
    · exact hsize

theorem readTableStreamR_room (cfg : Cfg) {data : Bytes} (hsize : data.length < 2 ^ 63) {t : Tables}
    (h : (readTableStreamR cfg data).1 = .ok t) : (readTableStreamR cfg data).2 ≤ data.length := by
  unfold readTableStreamR at h ⊢
  rcases readTableHeader_within cfg data hsize with ⟨m, e⟩ | ⟨c, r, e, hr, rfl⟩
  · rw [e] at h
    cases h
  · rw [e, Room.of_ok_bind] at h ⊢
    dsimp only at h ⊢
    rcases readTablesR_step cfg c hr with ⟨m, e1⟩ | ⟨a, k, e1, h1, h2⟩
    · rw [Room.bind_fst, e1] at h
      cases h
    · have e2 : ∀ f : Tables × Reader → Room Tables, (f (a, r.skip k)).2 = 0 →
          (readTablesR cfg c r >>= f).2 = (readTablesR cfg c r).2 := by
        intro f hf
        show (Room.bind _ f).2 = _
        unfold Room.bind
        rw [e1]
        show _ + (f (a, r.skip k)).2 = _
        rw [hf, Nat.add_zero]
      rw [e2 _ rfl]
      rw [length_rest] at h2
      omega

/-! ## Requests of at most so much, whatever happens -/

theorem Room.bind_le {α β : Type} {x : Room α} {f : α → Room β} {m n : Nat} (hx : x.2 ≤ m) (hf : ∀ a, x.1 = .ok a → (f a).2 ≤ n) :
    (x >>= f).2 ≤ m + n := by
  show (Room.bind x f).2 ≤ _
  unfold Room.bind
  cases h : x.1 with
  | ok a =>
    have := hf a h
    show x.2 + (f a).2 ≤ _
    omega
  | err => show x.2 ≤ _; omega
  | panic => show x.2 ≤ _; omega
  | ub => show x.2 ≤ _; omega
  | timeout => show x.2 ≤ _; omega

theorem readTableR_le {α : Type} (f : Reader → Res (α × Reader)) {t : TableCtx} (ht : ∀ i, t.rowCount i < 2 ^ 32) (ty : TableType) (r : Reader) :
    (readTableR f t ty r).2 ≤ 2 ^ 32 := Nat.le_of_lt (ht ty.code)

theorem readTablesR_le (cfg : Cfg) {t : TableCtx} (ht : ∀ i, t.rowCount i < 2 ^ 32) (r : Reader) : (readTablesR cfg t r).2 ≤ 38 * 2 ^ 32 := by
  unfold readTablesR
  refine Nat.le_trans (Room.bind_le (n := 37 * 2 ^ 32) (readTableR_le _ ht _ _) fun _ _ => ?_) (by omega)
  refine Nat.le_trans (Room.bind_le (n := 36 * 2 ^ 32) (readTableR_le _ ht _ _) fun _ _ => ?_) (by omega)
  refine Nat.le_trans (Room.bind_le (n := 35 * 2 ^ 32) (readTableR_le _ ht _ _) fun _ _ => ?_) (by omega)
  refine Nat.le_trans (Room.bind_le (n := 34 * 2 ^ 32) (readTableR_le _ ht _ _) fun _ _ => ?_) (by omega)
  refine Nat.le_trans (Room.bind_le (n := 33 * 2 ^ 32) (readTableR_le _ ht _ _) fun _ _ => ?_) (by omega)
  refine Nat.le_trans (Room.bind_le (n := 32 * 2 ^ 32) (readTableR_le _ ht _ _) fun _ _ => ?_) (by omega)
  refine Nat.le_trans (Room.bind_le (n := 31 * 2 ^ 32) (readTableR_le _ ht _ _) fun _ _ => ?_) (by omega)
  refine Nat.le_trans (Room.bind_le (n := 30 * 2 ^ 32) (readTableR_le _ ht _ _) fun _ _ => ?_) (by omega)
  refine Nat.le_trans (Room.bind_le (n := 29 * 2 ^ 32) (readTableR_le _ ht _ _) fun _ _ => ?_) (by omega)
  refine Nat.le_trans (Room.bind_le (n := 28 * 2 ^ 32) (readTableR_le _ ht _ _) fun _ _ => ?_) (by omega)
  refine Nat.le_trans (Room.bind_le (n := 27 * 2 ^ 32) (readTableR_le _ ht _ _) fun _ _ => ?_) (by omega)
  refine Nat.le_trans (Room.bind_le (n := 26 * 2 ^ 32) (readTableR_le _ ht _ _) fun _ _ => ?_) (by omega)
  refine Nat.le_trans (Room.bind_le (n := 25 * 2 ^ 32) (readTableR_le _ ht _ _) fun _ _ => ?_) (by omega)
  refine Nat.le_trans (Room.bind_le (n := 24 * 2 ^ 32) (readTableR_le _ ht _ _) fun _ _ => ?_) (by omega)
  refine Nat.le_trans (Room.bind_le (n := 23 * 2 ^ 32) (readTableR_le _ ht _ _) fun _ _ => ?_) (by omega)
  refine Nat.le_trans (Room.bind_le (n := 22 * 2 ^ 32) (readTableR_le _ ht _ _) fun _ _ => ?_) (by omega)
  refine Nat.le_trans (Room.bind_le (n := 21 * 2 ^ 32) (readTableR_le _ ht _ _) fun _ _ => ?_) (by omega)
  refine Nat.le_trans (Room.bind_le (n := 20 * 2 ^ 32) (readTableR_le _ ht _ _) fun _ _ => ?_) (by omega)
  refine Nat.le_trans (Room.bind_le (n := 19 * 2 ^ 32) (readTableR_le _ ht _ _) fun _ _ => ?_) (by omega)
  refine Nat.le_trans (Room.bind_le (n := 18 * 2 ^ 32) (readTableR_le _ ht _ _) fun _ _ => ?_) (by omega)
  refine Nat.le_trans (Room.bind_le (n := 17 * 2 ^ 32) (readTableR_le _ ht _ _) fun _ _ => ?_) (by omega)
  refine Nat.le_trans (Room.bind_le (n := 16 * 2 ^ 32) (readTableR_le _ ht _ _) fun _ _ => ?_) (by omega)
  refine Nat.le_trans (Room.bind_le (n := 15 * 2 ^ 32) (readTableR_le _ ht _ _) fun _ _ => ?_) (by omega)
  refine Nat.le_trans (Room.bind_le (n := 14 * 2 ^ 32) (readTableR_le _ ht _ _) fun _ _ => ?_) (by omega)
  refine Nat.le_trans (Room.bind_le (n := 13 * 2 ^ 32) (readTableR_le _ ht _ _) fun _ _ => ?_) (by omega)
  refine Nat.le_trans (Room.bind_le (n := 12 * 2 ^ 32) (readTableR_le _ ht _ _) fun _ _ => ?_) (by omega)
  refine Nat.le_trans (Room.bind_le (n := 11 * 2 ^ 32) (readTableR_le _ ht _ _) fun _ _ => ?_) (by omega)
  refine Nat.le_trans (Room.bind_le (n := 10 * 2 ^ 32) (readTableR_le _ ht _ _) fun _ _ => ?_) (by omega)
  refine Nat.le_trans (Room.bind_le (n := 9 * 2 ^ 32) (readTableR_le _ ht _ _) fun _ _ => ?_) (by omega)
  refine Nat.le_trans (Room.bind_le (n := 8 * 2 ^ 32) (readTableR_le _ ht _ _) fun _ _ => ?_) (by omega)
  refine Nat.le_trans (Room.bind_le (n := 7 * 2 ^ 32) (readTableR_le _ ht _ _) fun _ _ => ?_) (by omega)
  refine Nat.le_trans (Room.bind_le (n := 6 * 2 ^ 32) (readTableR_le _ ht _ _) fun _ _ => ?_) (by omega)
  refine Nat.le_trans (Room.bind_le (n := 5 * 2 ^ 32) (readTableR_le _ ht _ _) fun _ _ => ?_) (by omega)
  refine Nat.le_trans (Room.bind_le (n := 4 * 2 ^ 32) (readTableR_le _ ht _ _) fun _ _ => ?_) (by omega)
  refine Nat.le_trans (Room.bind_le (n := 3 * 2 ^ 32) (readTableR_le _ ht _ _) fun _ _ => ?_) (by omega)
  refine Nat.le_trans (Room.bind_le (n := 2 * 2 ^ 32) (readTableR_le _ ht _ _) fun _ _ => ?_) (by omega)
  refine Nat.le_trans (Room.bind_le (n := 1 * 2 ^ 32) (readTableR_le _ ht _ _) fun _ _ => ?_) (by omega)
  refine Nat.le_trans (Room.bind_le (n := 0 * 2 ^ 32) (readTableR_le _ ht _ _) fun _ _ => ?_) (by omega)
  exact Nat.zero_le _

theorem readTableStreamR_le (cfg : Cfg) (data : Bytes) : (readTableStreamR cfg data).2 ≤ 38 * 2 ^ 32 := by
  unfold readTableStreamR
  refine Nat.le_trans (Room.bind_le (m := 0) (n := 38 * 2 ^ 32) (Nat.le_refl _) fun p hp => ?_) (by omega)
  obtain ⟨t, r⟩ := p
  refine Nat.le_trans (Room.bind_le (n := 0) (readTablesR_le cfg (readTableHeader_small hp) r) fun _ _ => ?_) (by omega)
  exact Nat.le_refl _

/-- A signature that was decoded paid for what it requested. -/
theorem RoomStep.paid {α : Type} {x : Room (α × Reader)} {r : Reader} (h : RoomStep x r 1) {p : α × Reader} (e : x.1 = .ok p) :
    x.2 < r.rest.length := by
  rcases h with ⟨m, h⟩ | ⟨a, k, h, h1, h2⟩
  · rw [h] at e; cases e
  · omega

end Clr
