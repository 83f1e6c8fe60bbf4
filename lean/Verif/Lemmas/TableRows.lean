import Verif.Lemmas.Tables
import Verif.Spec.TableSchema
/-! # Round trip and totality of every row reader -/

namespace Clr
open Reader Spec

theorem readModuleRow_reads (cfg : Cfg) {t : TableCtx} {s : Sizes} (hw : WidthsAgree t s) {bs : Bytes} {x : ModuleRow}
    (hx : IsModule s bs x) : Reads (readModuleRow cfg t) bs x := by
  obtain ⟨b1, b2, b3, b4, b5, h1, h2, h3, h4, h5, rfl⟩ := hx
  intro r tl hr h
  simp only [List.flatten_cons, List.flatten_nil] at h ⊢
  unfold readModuleRow
  refine Reads.andThen (ColNum.reads_ignored cfg h1) hr h fun r hr h => ?_
  refine Reads.andThen (readStringHandle_reads cfg hw h2) hr h fun r hr h => ?_
  refine Reads.andThen (readGuidHandle_reads cfg hw h3) hr h fun r hr h => ?_
  refine Reads.andThen (readGuidHandle_reads cfg hw h4.choose_spec) hr h fun r hr h => ?_
  refine Reads.andThen (readGuidHandle_reads cfg hw h5.choose_spec) hr h fun r hr h => ?_
  exact Reads.finish _ _

theorem readModuleRow_step (cfg : Cfg) (t : TableCtx) {r : Reader} (hr : r.Ok) : Step (readModuleRow cfg t r) r 0 := by
  unfold readModuleRow
  refine Step.andThen (trReadIgnored_step cfg hr (by omega)) hr fun _ r hr => ?_
  refine Step.andThen (readStringHandle_step cfg t hr) hr fun _ r hr => ?_
  refine Step.andThen (readGuidHandle_step cfg t hr) hr fun _ r hr => ?_
  refine Step.andThen (readGuidHandle_step cfg t hr) hr fun _ r hr => ?_
  refine Step.andThen (readGuidHandle_step cfg t hr) hr fun _ r hr => ?_
  exact Step.pure _ _

theorem readTypeRefRow_reads (cfg : Cfg) {t : TableCtx} {s : Sizes} (hw : WidthsAgree t s) {bs : Bytes} {x : TypeRefRow}
    (hx : IsTypeRef s bs x) : Reads (readTypeRefRow cfg t) bs x := by
  obtain ⟨b1, b2, b3, h1, h2, h3, rfl⟩ := hx
  intro r tl hr h
  simp only [List.flatten_cons, List.flatten_nil] at h ⊢
  unfold readTypeRefRow
  refine Reads.andThen (readCoded_reads cfg hw (by simp) h1) hr h fun r hr h => ?_
  refine Reads.andThen (readStringHandle_reads cfg hw h2) hr h fun r hr h => ?_
  refine Reads.andThen (readStringHandle_reads cfg hw h3) hr h fun r hr h => ?_
  exact Reads.finish _ _

theorem readTypeRefRow_step (cfg : Cfg) (t : TableCtx) {r : Reader} (hr : r.Ok) : Step (readTypeRefRow cfg t r) r 0 := by
  unfold readTypeRefRow
  refine Step.andThen (readCoded_step cfg t _ hr) hr fun _ r hr => ?_
  refine Step.andThen (readStringHandle_step cfg t hr) hr fun _ r hr => ?_
  refine Step.andThen (readStringHandle_step cfg t hr) hr fun _ r hr => ?_
  exact Step.pure _ _

theorem readTypeDefRow_reads (cfg : Cfg) {t : TableCtx} {s : Sizes} (hw : WidthsAgree t s) {bs : Bytes} {x : TypeDefRow}
    (hx : IsTypeDef s bs x) : Reads (readTypeDefRow cfg t) bs x := by
  obtain ⟨b1, b2, b3, b4, b5, b6, h1, h2, h3, h4, h5, h6, rfl⟩ := hx
  intro r tl hr h
  simp only [List.flatten_cons, List.flatten_nil] at h ⊢
  unfold readTypeDefRow
  refine Reads.andThen (ColWord.reads cfg TypeAttributes.fromRaw_spec h1) hr h fun r hr h => ?_
  refine Reads.andThen (readStringHandle_reads cfg hw h2) hr h fun r hr h => ?_
  refine Reads.andThen (readStringHandle_reads cfg hw h3) hr h fun r hr h => ?_
  refine Reads.andThen (readCoded_reads cfg hw (by simp) h4) hr h fun r hr h => ?_
  refine Reads.andThen (readHandle_reads cfg hw h5) hr h fun r hr h => ?_
  refine Reads.andThen (readHandle_reads cfg hw h6) hr h fun r hr h => ?_
  exact Reads.finish _ _

theorem readTypeDefRow_step (cfg : Cfg) (t : TableCtx) {r : Reader} (hr : r.Ok) : Step (readTypeDefRow cfg t r) r 0 := by
  unfold readTypeDefRow
  refine Step.andThen (trReadWith_step TypeAttributes.fromRaw_returns cfg hr (by omega)) hr fun _ r hr => ?_
  refine Step.andThen (readStringHandle_step cfg t hr) hr fun _ r hr => ?_
  refine Step.andThen (readStringHandle_step cfg t hr) hr fun _ r hr => ?_
  refine Step.andThen (readCoded_step cfg t _ hr) hr fun _ r hr => ?_
  refine Step.andThen (readHandle_step cfg t _ hr) hr fun _ r hr => ?_
  refine Step.andThen (readHandle_step cfg t _ hr) hr fun _ r hr => ?_
  exact Step.pure _ _

theorem readFieldRow_reads (cfg : Cfg) {t : TableCtx} {s : Sizes} (hw : WidthsAgree t s) {bs : Bytes} {x : FieldRow}
    (hx : IsField s bs x) : Reads (readFieldRow cfg t) bs x := by
  obtain ⟨b1, b2, b3, h1, h2, h3, rfl⟩ := hx
  intro r tl hr h
  simp only [List.flatten_cons, List.flatten_nil] at h ⊢
  unfold readFieldRow
  refine Reads.andThen (ColWord.reads cfg FieldAttributes.fromRaw_spec h1) hr h fun r hr h => ?_
  refine Reads.andThen (readStringHandle_reads cfg hw h2) hr h fun r hr h => ?_
  refine Reads.andThen (readBlobHandle_reads cfg hw h3) hr h fun r hr h => ?_
  exact Reads.finish _ _

theorem readFieldRow_step (cfg : Cfg) (t : TableCtx) {r : Reader} (hr : r.Ok) : Step (readFieldRow cfg t r) r 0 := by
  unfold readFieldRow
  refine Step.andThen (trReadWith_step FieldAttributes.fromRaw_returns cfg hr (by omega)) hr fun _ r hr => ?_
  refine Step.andThen (readStringHandle_step cfg t hr) hr fun _ r hr => ?_
  refine Step.andThen (readBlobHandle_step cfg t hr) hr fun _ r hr => ?_
  exact Step.pure _ _

theorem readMethodDefRow_reads (cfg : Cfg) {t : TableCtx} {s : Sizes} (hw : WidthsAgree t s) {bs : Bytes} {x : MethodDefRow}
    (hx : IsMethodDef s bs x) : Reads (readMethodDefRow cfg t) bs x := by
  obtain ⟨b1, b2, b3, b4, b5, b6, h1, h2, h3, h4, h5, h6, rfl⟩ := hx
  intro r tl hr h
  simp only [List.flatten_cons, List.flatten_nil] at h ⊢
  unfold readMethodDefRow
  refine Reads.andThen (ColNum.reads cfg h1) hr h fun r hr h => ?_
  refine Reads.andThen (ColWord.reads cfg MethodImplAttributes.fromRaw_spec h2) hr h fun r hr h => ?_
  refine Reads.andThen (ColWord.reads cfg MethodAttributes.fromRaw_spec h3) hr h fun r hr h => ?_
  refine Reads.andThen (readStringHandle_reads cfg hw h4) hr h fun r hr h => ?_
  refine Reads.andThen (readBlobHandle_reads cfg hw h5) hr h fun r hr h => ?_
  refine Reads.andThen (readHandle_reads cfg hw h6) hr h fun r hr h => ?_
  exact Reads.finish _ _

theorem readMethodDefRow_step (cfg : Cfg) (t : TableCtx) {r : Reader} (hr : r.Ok) : Step (readMethodDefRow cfg t r) r 0 := by
  unfold readMethodDefRow
  refine Step.andThen (trRead_step cfg hr (by omega)) hr fun _ r hr => ?_
  refine Step.andThen (trReadWith_step MethodImplAttributes.fromRaw_returns cfg hr (by omega)) hr fun _ r hr => ?_
  refine Step.andThen (trReadWith_step MethodAttributes.fromRaw_returns cfg hr (by omega)) hr fun _ r hr => ?_
  refine Step.andThen (readStringHandle_step cfg t hr) hr fun _ r hr => ?_
  refine Step.andThen (readBlobHandle_step cfg t hr) hr fun _ r hr => ?_
  refine Step.andThen (readHandle_step cfg t _ hr) hr fun _ r hr => ?_
  exact Step.pure _ _

theorem readParamRow_reads (cfg : Cfg) {t : TableCtx} {s : Sizes} (hw : WidthsAgree t s) {bs : Bytes} {x : ParamRow}
    (hx : IsParam s bs x) : Reads (readParamRow cfg t) bs x := by
  obtain ⟨b1, b2, b3, h1, h2, h3, rfl⟩ := hx
  intro r tl hr h
  simp only [List.flatten_cons, List.flatten_nil] at h ⊢
  unfold readParamRow
  refine Reads.andThen (ColWord.reads cfg ParamAttributes.fromRaw_spec h1) hr h fun r hr h => ?_
  refine Reads.andThen (ColNum.reads cfg h2) hr h fun r hr h => ?_
  refine Reads.andThen (readStringHandle_reads cfg hw h3) hr h fun r hr h => ?_
  exact Reads.finish _ _

theorem readParamRow_step (cfg : Cfg) (t : TableCtx) {r : Reader} (hr : r.Ok) : Step (readParamRow cfg t r) r 0 := by
  unfold readParamRow
  refine Step.andThen (trReadWith_step ParamAttributes.fromRaw_returns cfg hr (by omega)) hr fun _ r hr => ?_
  refine Step.andThen (trRead_step cfg hr (by omega)) hr fun _ r hr => ?_
  refine Step.andThen (readStringHandle_step cfg t hr) hr fun _ r hr => ?_
  exact Step.pure _ _

theorem readInterfaceImplRow_reads (cfg : Cfg) {t : TableCtx} {s : Sizes} (hw : WidthsAgree t s) {bs : Bytes} {x : InterfaceImplRow}
    (hx : IsInterfaceImpl s bs x) : Reads (readInterfaceImplRow cfg t) bs x := by
  obtain ⟨b1, b2, h1, h2, rfl⟩ := hx
  intro r tl hr h
  simp only [List.flatten_cons, List.flatten_nil] at h ⊢
  unfold readInterfaceImplRow
  refine Reads.andThen (readHandle_reads cfg hw h1) hr h fun r hr h => ?_
  refine Reads.andThen (readCoded_reads cfg hw (by simp) h2) hr h fun r hr h => ?_
  exact Reads.finish _ _

theorem readInterfaceImplRow_step (cfg : Cfg) (t : TableCtx) {r : Reader} (hr : r.Ok) : Step (readInterfaceImplRow cfg t r) r 0 := by
  unfold readInterfaceImplRow
  refine Step.andThen (readHandle_step cfg t _ hr) hr fun _ r hr => ?_
  refine Step.andThen (readCoded_step cfg t _ hr) hr fun _ r hr => ?_
  exact Step.pure _ _

theorem readMemberRefRow_reads (cfg : Cfg) {t : TableCtx} {s : Sizes} (hw : WidthsAgree t s) {bs : Bytes} {x : MemberRefRow}
    (hx : IsMemberRef s bs x) : Reads (readMemberRefRow cfg t) bs x := by
  obtain ⟨b1, b2, b3, h1, h2, h3, rfl⟩ := hx
  intro r tl hr h
  simp only [List.flatten_cons, List.flatten_nil] at h ⊢
  unfold readMemberRefRow
  refine Reads.andThen (readCoded_reads cfg hw (by simp) h1) hr h fun r hr h => ?_
  refine Reads.andThen (readStringHandle_reads cfg hw h2) hr h fun r hr h => ?_
  refine Reads.andThen (readBlobHandle_reads cfg hw h3) hr h fun r hr h => ?_
  exact Reads.finish _ _

theorem readMemberRefRow_step (cfg : Cfg) (t : TableCtx) {r : Reader} (hr : r.Ok) : Step (readMemberRefRow cfg t r) r 0 := by
  unfold readMemberRefRow
  refine Step.andThen (readCoded_step cfg t _ hr) hr fun _ r hr => ?_
  refine Step.andThen (readStringHandle_step cfg t hr) hr fun _ r hr => ?_
  refine Step.andThen (readBlobHandle_step cfg t hr) hr fun _ r hr => ?_
  exact Step.pure _ _

theorem readConstantRow_reads (cfg : Cfg) {t : TableCtx} {s : Sizes} (hw : WidthsAgree t s) {bs : Bytes} {x : ConstantRow}
    (hx : IsConstant s bs x) : Reads (readConstantRow cfg t) bs x := by
  obtain ⟨b1, b2, b3, b4, h1, h2, h3, h4, rfl⟩ := hx
  intro r tl hr h
  simp only [List.flatten_cons, List.flatten_nil] at h ⊢
  unfold readConstantRow
  refine Reads.andThen (ColWord.reads cfg ConstantType.fromRaw_spec h1) hr h fun r hr h => ?_
  refine Reads.andThen (pad_reads cfg h2) hr h fun r hr h => ?_
  refine Reads.andThen (readCoded_reads cfg hw (by simp) h3) hr h fun r hr h => ?_
  refine Reads.andThen (readBlobHandle_reads cfg hw h4) hr h fun r hr h => ?_
  exact Reads.finish _ _

theorem readConstantRow_step (cfg : Cfg) (t : TableCtx) {r : Reader} (hr : r.Ok) : Step (readConstantRow cfg t r) r 0 := by
  exact readConstantRow_step' cfg t hr

theorem readCustomAttributeRow_reads (cfg : Cfg) {t : TableCtx} {s : Sizes} (hw : WidthsAgree t s) {bs : Bytes} {x : CustomAttributeRow}
    (hd : x.parent.table ≠ .declSecurity)
    (hx : IsCustomAttribute s bs x) : Reads (readCustomAttributeRow cfg t) bs x := by
  obtain ⟨b1, b2, b3, h1, h2, h3, rfl⟩ := hx
  intro r tl hr h
  simp only [List.flatten_cons, List.flatten_nil] at h ⊢
  unfold readCustomAttributeRow
  refine Reads.andThen (readCoded_reads cfg hw (fun _ => hd) h1) hr h fun r hr h => ?_
  refine Reads.andThen (readCoded_reads cfg hw (by simp) h2) hr h fun r hr h => ?_
  refine Reads.andThen (readBlobHandle_reads cfg hw h3) hr h fun r hr h => ?_
  exact Reads.finish _ _

theorem readCustomAttributeRow_step (cfg : Cfg) (t : TableCtx) {r : Reader} (hr : r.Ok) : Step (readCustomAttributeRow cfg t r) r 0 := by
  unfold readCustomAttributeRow
  refine Step.andThen (readCoded_step cfg t _ hr) hr fun _ r hr => ?_
  refine Step.andThen (readCoded_step cfg t _ hr) hr fun _ r hr => ?_
  refine Step.andThen (readBlobHandle_step cfg t hr) hr fun _ r hr => ?_
  exact Step.pure _ _

theorem readFieldMarshalRow_reads (cfg : Cfg) {t : TableCtx} {s : Sizes} (hw : WidthsAgree t s) {bs : Bytes} {x : FieldMarshalRow}
    (hx : IsFieldMarshal s bs x) : Reads (readFieldMarshalRow cfg t) bs x := by
  obtain ⟨b1, b2, h1, h2, rfl⟩ := hx
  intro r tl hr h
  simp only [List.flatten_cons, List.flatten_nil] at h ⊢
  unfold readFieldMarshalRow
  refine Reads.andThen (readCoded_reads cfg hw (by simp) h1) hr h fun r hr h => ?_
  refine Reads.andThen (readBlobHandle_reads cfg hw h2) hr h fun r hr h => ?_
  exact Reads.finish _ _

theorem readFieldMarshalRow_step (cfg : Cfg) (t : TableCtx) {r : Reader} (hr : r.Ok) : Step (readFieldMarshalRow cfg t r) r 0 := by
  unfold readFieldMarshalRow
  refine Step.andThen (readCoded_step cfg t _ hr) hr fun _ r hr => ?_
  refine Step.andThen (readBlobHandle_step cfg t hr) hr fun _ r hr => ?_
  exact Step.pure _ _

theorem readDeclSecurityRow_reads (cfg : Cfg) {t : TableCtx} {s : Sizes} (hw : WidthsAgree t s) {bs : Bytes} {x : DeclSecurityRow}
    (hx : IsDeclSecurity s bs x) : Reads (readDeclSecurityRow cfg t) bs x := by
  obtain ⟨b1, b2, b3, h1, h2, h3, rfl⟩ := hx
  intro r tl hr h
  simp only [List.flatten_cons, List.flatten_nil] at h ⊢
  unfold readDeclSecurityRow
  refine Reads.andThen (ColNum.reads cfg h1) hr h fun r hr h => ?_
  refine Reads.andThen (readCoded_reads cfg hw (by simp) h2) hr h fun r hr h => ?_
  refine Reads.andThen (readBlobHandle_reads cfg hw h3) hr h fun r hr h => ?_
  exact Reads.finish _ _

theorem readDeclSecurityRow_step (cfg : Cfg) (t : TableCtx) {r : Reader} (hr : r.Ok) : Step (readDeclSecurityRow cfg t r) r 0 := by
  unfold readDeclSecurityRow
  refine Step.andThen (trRead_step cfg hr (by omega)) hr fun _ r hr => ?_
  refine Step.andThen (readCoded_step cfg t _ hr) hr fun _ r hr => ?_
  refine Step.andThen (readBlobHandle_step cfg t hr) hr fun _ r hr => ?_
  exact Step.pure _ _

theorem readClassLayoutRow_reads (cfg : Cfg) {t : TableCtx} {s : Sizes} (hw : WidthsAgree t s) {bs : Bytes} {x : ClassLayoutRow}
    (hx : IsClassLayout s bs x) : Reads (readClassLayoutRow cfg t) bs x := by
  obtain ⟨b1, b2, b3, h1, h2, h3, rfl⟩ := hx
  intro r tl hr h
  simp only [List.flatten_cons, List.flatten_nil] at h ⊢
  unfold readClassLayoutRow
  refine Reads.andThen (ColOpt.reads cfg h1) hr h fun r hr h => ?_
  refine Reads.andThen (ColOpt.reads cfg h2) hr h fun r hr h => ?_
  refine Reads.andThen (readHandle_reads cfg hw h3) hr h fun r hr h => ?_
  exact Reads.finish _ _

theorem readClassLayoutRow_step (cfg : Cfg) (t : TableCtx) {r : Reader} (hr : r.Ok) : Step (readClassLayoutRow cfg t r) r 0 := by
  unfold readClassLayoutRow
  refine Step.andThen (trReadWith_step (fun _ => Res.returns_ok _) cfg hr (by omega)) hr fun _ r hr => ?_
  refine Step.andThen (trReadWith_step (fun _ => Res.returns_ok _) cfg hr (by omega)) hr fun _ r hr => ?_
  refine Step.andThen (readHandle_step cfg t _ hr) hr fun _ r hr => ?_
  exact Step.pure _ _

theorem readFieldLayoutRow_reads (cfg : Cfg) {t : TableCtx} {s : Sizes} (hw : WidthsAgree t s) {bs : Bytes} {x : FieldLayoutRow}
    (hx : IsFieldLayout s bs x) : Reads (readFieldLayoutRow cfg t) bs x := by
  obtain ⟨b1, b2, h1, h2, rfl⟩ := hx
  intro r tl hr h
  simp only [List.flatten_cons, List.flatten_nil] at h ⊢
  unfold readFieldLayoutRow
  refine Reads.andThen (ColNum.reads cfg h1) hr h fun r hr h => ?_
  refine Reads.andThen (readHandle_reads cfg hw h2) hr h fun r hr h => ?_
  exact Reads.finish _ _

theorem readFieldLayoutRow_step (cfg : Cfg) (t : TableCtx) {r : Reader} (hr : r.Ok) : Step (readFieldLayoutRow cfg t r) r 0 := by
  unfold readFieldLayoutRow
  refine Step.andThen (trRead_step cfg hr (by omega)) hr fun _ r hr => ?_
  refine Step.andThen (readHandle_step cfg t _ hr) hr fun _ r hr => ?_
  exact Step.pure _ _

theorem readStandaloneSigRow_reads (cfg : Cfg) {t : TableCtx} {s : Sizes} (hw : WidthsAgree t s) {bs : Bytes} {x : StandaloneSigRow}
    (hx : IsStandaloneSig s bs x) : Reads (readStandaloneSigRow cfg t) bs x := by
  obtain ⟨b1, h1, rfl⟩ := hx
  intro r tl hr h
  simp only [List.flatten_cons, List.flatten_nil] at h ⊢
  unfold readStandaloneSigRow
  refine Reads.andThen (readBlobHandle_reads cfg hw h1) hr h fun r hr h => ?_
  exact Reads.finish _ _

theorem readStandaloneSigRow_step (cfg : Cfg) (t : TableCtx) {r : Reader} (hr : r.Ok) : Step (readStandaloneSigRow cfg t r) r 0 := by
  unfold readStandaloneSigRow
  refine Step.andThen (readBlobHandle_step cfg t hr) hr fun _ r hr => ?_
  exact Step.pure _ _

theorem readEventMapRow_reads (cfg : Cfg) {t : TableCtx} {s : Sizes} (hw : WidthsAgree t s) {bs : Bytes} {x : EventMapRow}
    (hx : IsEventMap s bs x) : Reads (readEventMapRow cfg t) bs x := by
  obtain ⟨b1, b2, h1, h2, rfl⟩ := hx
  intro r tl hr h
  simp only [List.flatten_cons, List.flatten_nil] at h ⊢
  unfold readEventMapRow
  refine Reads.andThen (readHandle_reads cfg hw h1) hr h fun r hr h => ?_
  refine Reads.andThen (readHandle_reads cfg hw h2) hr h fun r hr h => ?_
  exact Reads.finish _ _

theorem readEventMapRow_step (cfg : Cfg) (t : TableCtx) {r : Reader} (hr : r.Ok) : Step (readEventMapRow cfg t r) r 0 := by
  unfold readEventMapRow
  refine Step.andThen (readHandle_step cfg t _ hr) hr fun _ r hr => ?_
  refine Step.andThen (readHandle_step cfg t _ hr) hr fun _ r hr => ?_
  exact Step.pure _ _

theorem readEventRow_reads (cfg : Cfg) {t : TableCtx} {s : Sizes} (hw : WidthsAgree t s) {bs : Bytes} {x : EventRow}
    (hx : IsEvent s bs x) : Reads (readEventRow cfg t) bs x := by
  obtain ⟨b1, b2, b3, h1, h2, h3, rfl⟩ := hx
  intro r tl hr h
  simp only [List.flatten_cons, List.flatten_nil] at h ⊢
  unfold readEventRow
  refine Reads.andThen (ColWord.reads cfg EventAttributes.fromRaw_spec h1) hr h fun r hr h => ?_
  refine Reads.andThen (readStringHandle_reads cfg hw h2) hr h fun r hr h => ?_
  refine Reads.andThen (readCoded_reads cfg hw (by simp) h3) hr h fun r hr h => ?_
  exact Reads.finish _ _

theorem readEventRow_step (cfg : Cfg) (t : TableCtx) {r : Reader} (hr : r.Ok) : Step (readEventRow cfg t r) r 0 := by
  unfold readEventRow
  refine Step.andThen (trReadWith_step EventAttributes.fromRaw_returns cfg hr (by omega)) hr fun _ r hr => ?_
  refine Step.andThen (readStringHandle_step cfg t hr) hr fun _ r hr => ?_
  refine Step.andThen (readCoded_step cfg t _ hr) hr fun _ r hr => ?_
  exact Step.pure _ _

theorem readPropertyMapRow_reads (cfg : Cfg) {t : TableCtx} {s : Sizes} (hw : WidthsAgree t s) {bs : Bytes} {x : PropertyMapRow}
    (hx : IsPropertyMap s bs x) : Reads (readPropertyMapRow cfg t) bs x := by
  obtain ⟨b1, b2, h1, h2, rfl⟩ := hx
  intro r tl hr h
  simp only [List.flatten_cons, List.flatten_nil] at h ⊢
  unfold readPropertyMapRow
  refine Reads.andThen (readHandle_reads cfg hw h1) hr h fun r hr h => ?_
  refine Reads.andThen (readHandle_reads cfg hw h2) hr h fun r hr h => ?_
  exact Reads.finish _ _

theorem readPropertyMapRow_step (cfg : Cfg) (t : TableCtx) {r : Reader} (hr : r.Ok) : Step (readPropertyMapRow cfg t r) r 0 := by
  unfold readPropertyMapRow
  refine Step.andThen (readHandle_step cfg t _ hr) hr fun _ r hr => ?_
  refine Step.andThen (readHandle_step cfg t _ hr) hr fun _ r hr => ?_
  exact Step.pure _ _

theorem readPropertyRow_reads (cfg : Cfg) {t : TableCtx} {s : Sizes} (hw : WidthsAgree t s) {bs : Bytes} {x : PropertyRow}
    (hx : IsProperty s bs x) : Reads (readPropertyRow cfg t) bs x := by
  obtain ⟨b1, b2, b3, h1, h2, h3, rfl⟩ := hx
  intro r tl hr h
  simp only [List.flatten_cons, List.flatten_nil] at h ⊢
  unfold readPropertyRow
  refine Reads.andThen (ColWord.reads cfg PropertyAttributes.fromRaw_spec h1) hr h fun r hr h => ?_
  refine Reads.andThen (readStringHandle_reads cfg hw h2) hr h fun r hr h => ?_
  refine Reads.andThen (readBlobHandle_reads cfg hw h3) hr h fun r hr h => ?_
  exact Reads.finish _ _

theorem readPropertyRow_step (cfg : Cfg) (t : TableCtx) {r : Reader} (hr : r.Ok) : Step (readPropertyRow cfg t r) r 0 := by
  unfold readPropertyRow
  refine Step.andThen (trReadWith_step PropertyAttributes.fromRaw_returns cfg hr (by omega)) hr fun _ r hr => ?_
  refine Step.andThen (readStringHandle_step cfg t hr) hr fun _ r hr => ?_
  refine Step.andThen (readBlobHandle_step cfg t hr) hr fun _ r hr => ?_
  exact Step.pure _ _

theorem readMethodSemanticsRow_reads (cfg : Cfg) {t : TableCtx} {s : Sizes} (hw : WidthsAgree t s) {bs : Bytes} {x : MethodSemanticsRow}
    (hx : IsMethodSemantics s bs x) : Reads (readMethodSemanticsRow cfg t) bs x := by
  obtain ⟨b1, b2, b3, h1, h2, h3, rfl⟩ := hx
  intro r tl hr h
  simp only [List.flatten_cons, List.flatten_nil] at h ⊢
  unfold readMethodSemanticsRow
  refine Reads.andThen (ColWord.reads cfg MethodSemanticsType.fromRaw_spec h1) hr h fun r hr h => ?_
  refine Reads.andThen (readHandle_reads cfg hw h2) hr h fun r hr h => ?_
  refine Reads.andThen (readCoded_reads cfg hw (by simp) h3) hr h fun r hr h => ?_
  exact Reads.finish _ _

theorem readMethodSemanticsRow_step (cfg : Cfg) (t : TableCtx) {r : Reader} (hr : r.Ok) : Step (readMethodSemanticsRow cfg t r) r 0 := by
  unfold readMethodSemanticsRow
  refine Step.andThen (trReadWith_step MethodSemanticsType.fromRaw_returns cfg hr (by omega)) hr fun _ r hr => ?_
  refine Step.andThen (readHandle_step cfg t _ hr) hr fun _ r hr => ?_
  refine Step.andThen (readCoded_step cfg t _ hr) hr fun _ r hr => ?_
  exact Step.pure _ _

theorem readMethodImplRow_reads (cfg : Cfg) {t : TableCtx} {s : Sizes} (hw : WidthsAgree t s) {bs : Bytes} {x : MethodImplRow}
    (hx : IsMethodImpl s bs x) : Reads (readMethodImplRow cfg t) bs x := by
  obtain ⟨b1, b2, b3, h1, h2, h3, rfl⟩ := hx
  intro r tl hr h
  simp only [List.flatten_cons, List.flatten_nil] at h ⊢
  unfold readMethodImplRow
  refine Reads.andThen (readHandle_reads cfg hw h1) hr h fun r hr h => ?_
  refine Reads.andThen (readCoded_reads cfg hw (by simp) h2) hr h fun r hr h => ?_
  refine Reads.andThen (readCoded_reads cfg hw (by simp) h3) hr h fun r hr h => ?_
  exact Reads.finish _ _

theorem readMethodImplRow_step (cfg : Cfg) (t : TableCtx) {r : Reader} (hr : r.Ok) : Step (readMethodImplRow cfg t r) r 0 := by
  unfold readMethodImplRow
  refine Step.andThen (readHandle_step cfg t _ hr) hr fun _ r hr => ?_
  refine Step.andThen (readCoded_step cfg t _ hr) hr fun _ r hr => ?_
  refine Step.andThen (readCoded_step cfg t _ hr) hr fun _ r hr => ?_
  exact Step.pure _ _

theorem readModuleRefRow_reads (cfg : Cfg) {t : TableCtx} {s : Sizes} (hw : WidthsAgree t s) {bs : Bytes} {x : ModuleRefRow}
    (hx : IsModuleRef s bs x) : Reads (readModuleRefRow cfg t) bs x := by
  obtain ⟨b1, h1, rfl⟩ := hx
  intro r tl hr h
  simp only [List.flatten_cons, List.flatten_nil] at h ⊢
  unfold readModuleRefRow
  refine Reads.andThen (readStringHandle_reads cfg hw h1) hr h fun r hr h => ?_
  exact Reads.finish _ _

theorem readModuleRefRow_step (cfg : Cfg) (t : TableCtx) {r : Reader} (hr : r.Ok) : Step (readModuleRefRow cfg t r) r 0 := by
  unfold readModuleRefRow
  refine Step.andThen (readStringHandle_step cfg t hr) hr fun _ r hr => ?_
  exact Step.pure _ _

theorem readTypeSpecRow_reads (cfg : Cfg) {t : TableCtx} {s : Sizes} (hw : WidthsAgree t s) {bs : Bytes} {x : TypeSpecRow}
    (hx : IsTypeSpec s bs x) : Reads (readTypeSpecRow cfg t) bs x := by
  obtain ⟨b1, h1, rfl⟩ := hx
  intro r tl hr h
  simp only [List.flatten_cons, List.flatten_nil] at h ⊢
  unfold readTypeSpecRow
  refine Reads.andThen (readBlobHandle_reads cfg hw h1) hr h fun r hr h => ?_
  exact Reads.finish _ _

theorem readTypeSpecRow_step (cfg : Cfg) (t : TableCtx) {r : Reader} (hr : r.Ok) : Step (readTypeSpecRow cfg t r) r 0 := by
  unfold readTypeSpecRow
  refine Step.andThen (readBlobHandle_step cfg t hr) hr fun _ r hr => ?_
  exact Step.pure _ _

theorem readImplMapRow_reads (cfg : Cfg) {t : TableCtx} {s : Sizes} (hw : WidthsAgree t s) {bs : Bytes} {x : ImplMapRow}
    (hx : IsImplMap s bs x) : Reads (readImplMapRow cfg t) bs x := by
  obtain ⟨b1, b2, b3, b4, h1, h2, h3, h4, rfl⟩ := hx
  intro r tl hr h
  simp only [List.flatten_cons, List.flatten_nil] at h ⊢
  unfold readImplMapRow
  refine Reads.andThen (ColWord.reads cfg PInvokeAttributes.fromRaw_spec h1) hr h fun r hr h => ?_
  refine Reads.andThen (readCoded_reads cfg hw (by simp) h2) hr h fun r hr h => ?_
  refine Reads.andThen (readStringHandle_reads cfg hw h3) hr h fun r hr h => ?_
  refine Reads.andThen (readHandle_reads cfg hw h4) hr h fun r hr h => ?_
  exact Reads.finish _ _

theorem readImplMapRow_step (cfg : Cfg) (t : TableCtx) {r : Reader} (hr : r.Ok) : Step (readImplMapRow cfg t r) r 0 := by
  unfold readImplMapRow
  refine Step.andThen (trReadWith_step PInvokeAttributes.fromRaw_returns cfg hr (by omega)) hr fun _ r hr => ?_
  refine Step.andThen (readCoded_step cfg t _ hr) hr fun _ r hr => ?_
  refine Step.andThen (readStringHandle_step cfg t hr) hr fun _ r hr => ?_
  refine Step.andThen (readHandle_step cfg t _ hr) hr fun _ r hr => ?_
  exact Step.pure _ _

theorem readFieldRvaRow_reads (cfg : Cfg) {t : TableCtx} {s : Sizes} (hw : WidthsAgree t s) {bs : Bytes} {x : FieldRvaRow}
    (hx : IsFieldRva s bs x) : Reads (readFieldRvaRow cfg t) bs x := by
  obtain ⟨b1, b2, h1, h2, rfl⟩ := hx
  intro r tl hr h
  simp only [List.flatten_cons, List.flatten_nil] at h ⊢
  unfold readFieldRvaRow
  refine Reads.andThen (ColNum.reads cfg h1) hr h fun r hr h => ?_
  refine Reads.andThen (readHandle_reads cfg hw h2) hr h fun r hr h => ?_
  exact Reads.finish _ _

theorem readFieldRvaRow_step (cfg : Cfg) (t : TableCtx) {r : Reader} (hr : r.Ok) : Step (readFieldRvaRow cfg t r) r 0 := by
  unfold readFieldRvaRow
  refine Step.andThen (trRead_step cfg hr (by omega)) hr fun _ r hr => ?_
  refine Step.andThen (readHandle_step cfg t _ hr) hr fun _ r hr => ?_
  exact Step.pure _ _

theorem readAssemblyRow_reads (cfg : Cfg) {t : TableCtx} {s : Sizes} (hw : WidthsAgree t s) {bs : Bytes} {x : AssemblyRow}
    (hx : IsAssembly s bs x) : Reads (readAssemblyRow cfg t) bs x := by
  obtain ⟨b1, b2, b3, b4, b5, b6, b7, b8, b9, h1, h2, h3, h4, h5, h6, h7, h8, h9, rfl⟩ := hx
  intro r tl hr h
  simp only [List.flatten_cons, List.flatten_nil] at h ⊢
  unfold readAssemblyRow
  refine Reads.andThen (ColWord.reads cfg AssemblyHashAlgorithm.fromRaw_spec h1) hr h fun r hr h => ?_
  refine Reads.andThen (ColNum.reads cfg h2) hr h fun r hr h => ?_
  refine Reads.andThen (ColNum.reads cfg h3) hr h fun r hr h => ?_
  refine Reads.andThen (ColNum.reads cfg h4) hr h fun r hr h => ?_
  refine Reads.andThen (ColNum.reads cfg h5) hr h fun r hr h => ?_
  refine Reads.andThen (ColWord.reads cfg AssemblyFlags.fromRaw_spec h6) hr h fun r hr h => ?_
  refine Reads.andThen (readBlobHandle_reads cfg hw h7) hr h fun r hr h => ?_
  refine Reads.andThen (readStringHandle_reads cfg hw h8) hr h fun r hr h => ?_
  refine Reads.andThen (readStringHandle_reads cfg hw h9) hr h fun r hr h => ?_
  exact Reads.finish _ _

theorem readAssemblyRow_step (cfg : Cfg) (t : TableCtx) {r : Reader} (hr : r.Ok) : Step (readAssemblyRow cfg t r) r 0 := by
  unfold readAssemblyRow
  refine Step.andThen (trReadWith_step AssemblyHashAlgorithm.fromRaw_returns cfg hr (by omega)) hr fun _ r hr => ?_
  refine Step.andThen (trRead_step cfg hr (by omega)) hr fun _ r hr => ?_
  refine Step.andThen (trRead_step cfg hr (by omega)) hr fun _ r hr => ?_
  refine Step.andThen (trRead_step cfg hr (by omega)) hr fun _ r hr => ?_
  refine Step.andThen (trRead_step cfg hr (by omega)) hr fun _ r hr => ?_
  refine Step.andThen (trReadWith_step AssemblyFlags.fromRaw_returns cfg hr (by omega)) hr fun _ r hr => ?_
  refine Step.andThen (readBlobHandle_step cfg t hr) hr fun _ r hr => ?_
  refine Step.andThen (readStringHandle_step cfg t hr) hr fun _ r hr => ?_
  refine Step.andThen (readStringHandle_step cfg t hr) hr fun _ r hr => ?_
  exact Step.pure _ _

theorem readAssemblyProcessorRow_reads (cfg : Cfg) {t : TableCtx} {s : Sizes} (_hw : WidthsAgree t s) {bs : Bytes} {x : AssemblyProcessorRow}
    (hx : IsAssemblyProcessor s bs x) : Reads (readAssemblyProcessorRow cfg t) bs x := by
  obtain ⟨b1, h1, rfl⟩ := hx
  intro r tl hr h
  simp only [List.flatten_cons, List.flatten_nil] at h ⊢
  unfold readAssemblyProcessorRow
  refine Reads.andThen (ColNum.reads cfg h1) hr h fun r hr h => ?_
  exact Reads.finish _ _

theorem readAssemblyProcessorRow_step (cfg : Cfg) (t : TableCtx) {r : Reader} (hr : r.Ok) : Step (readAssemblyProcessorRow cfg t r) r 0 := by
  unfold readAssemblyProcessorRow
  refine Step.andThen (trRead_step cfg hr (by omega)) hr fun _ r hr => ?_
  exact Step.pure _ _

theorem readAssemblyOsRow_reads (cfg : Cfg) {t : TableCtx} {s : Sizes} (_hw : WidthsAgree t s) {bs : Bytes} {x : AssemblyOsRow}
    (hx : IsAssemblyOs s bs x) : Reads (readAssemblyOsRow cfg t) bs x := by
  obtain ⟨b1, b2, b3, h1, h2, h3, rfl⟩ := hx
  intro r tl hr h
  simp only [List.flatten_cons, List.flatten_nil] at h ⊢
  unfold readAssemblyOsRow
  refine Reads.andThen (ColNum.reads cfg h1) hr h fun r hr h => ?_
  refine Reads.andThen (ColNum.reads cfg h2) hr h fun r hr h => ?_
  refine Reads.andThen (ColNum.reads cfg h3) hr h fun r hr h => ?_
  exact Reads.finish _ _

theorem readAssemblyOsRow_step (cfg : Cfg) (t : TableCtx) {r : Reader} (hr : r.Ok) : Step (readAssemblyOsRow cfg t r) r 0 := by
  unfold readAssemblyOsRow
  refine Step.andThen (trRead_step cfg hr (by omega)) hr fun _ r hr => ?_
  refine Step.andThen (trRead_step cfg hr (by omega)) hr fun _ r hr => ?_
  refine Step.andThen (trRead_step cfg hr (by omega)) hr fun _ r hr => ?_
  exact Step.pure _ _

theorem readAssemblyRefRow_reads (cfg : Cfg) {t : TableCtx} {s : Sizes} (hw : WidthsAgree t s) {bs : Bytes} {x : AssemblyRefRow}
    (hx : IsAssemblyRef s bs x) : Reads (readAssemblyRefRow cfg t) bs x := by
  obtain ⟨b1, b2, b3, b4, b5, b6, b7, b8, b9, h1, h2, h3, h4, h5, h6, h7, h8, h9, rfl⟩ := hx
  intro r tl hr h
  simp only [List.flatten_cons, List.flatten_nil] at h ⊢
  unfold readAssemblyRefRow
  refine Reads.andThen (ColNum.reads cfg h1) hr h fun r hr h => ?_
  refine Reads.andThen (ColNum.reads cfg h2) hr h fun r hr h => ?_
  refine Reads.andThen (ColNum.reads cfg h3) hr h fun r hr h => ?_
  refine Reads.andThen (ColNum.reads cfg h4) hr h fun r hr h => ?_
  refine Reads.andThen (ColWord.reads cfg AssemblyFlags.fromRaw_spec h5) hr h fun r hr h => ?_
  refine Reads.andThen (readBlobHandle_reads cfg hw h6) hr h fun r hr h => ?_
  refine Reads.andThen (readStringHandle_reads cfg hw h7) hr h fun r hr h => ?_
  refine Reads.andThen (readStringHandle_reads cfg hw h8) hr h fun r hr h => ?_
  refine Reads.andThen (readBlobHandle_reads cfg hw h9) hr h fun r hr h => ?_
  exact Reads.finish _ _

theorem readAssemblyRefRow_step (cfg : Cfg) (t : TableCtx) {r : Reader} (hr : r.Ok) : Step (readAssemblyRefRow cfg t r) r 0 := by
  unfold readAssemblyRefRow
  refine Step.andThen (trRead_step cfg hr (by omega)) hr fun _ r hr => ?_
  refine Step.andThen (trRead_step cfg hr (by omega)) hr fun _ r hr => ?_
  refine Step.andThen (trRead_step cfg hr (by omega)) hr fun _ r hr => ?_
  refine Step.andThen (trRead_step cfg hr (by omega)) hr fun _ r hr => ?_
  refine Step.andThen (trReadWith_step AssemblyFlags.fromRaw_returns cfg hr (by omega)) hr fun _ r hr => ?_
  refine Step.andThen (readBlobHandle_step cfg t hr) hr fun _ r hr => ?_
  refine Step.andThen (readStringHandle_step cfg t hr) hr fun _ r hr => ?_
  refine Step.andThen (readStringHandle_step cfg t hr) hr fun _ r hr => ?_
  refine Step.andThen (readBlobHandle_step cfg t hr) hr fun _ r hr => ?_
  exact Step.pure _ _

theorem readAssemblyRefProcessorRow_reads (cfg : Cfg) {t : TableCtx} {s : Sizes} (hw : WidthsAgree t s) {bs : Bytes} {x : AssemblyRefProcessorRow}
    (hx : IsAssemblyRefProcessor s bs x) : Reads (readAssemblyRefProcessorRow cfg t) bs x := by
  obtain ⟨b1, b2, h1, h2, rfl⟩ := hx
  intro r tl hr h
  simp only [List.flatten_cons, List.flatten_nil] at h ⊢
  unfold readAssemblyRefProcessorRow
  refine Reads.andThen (ColNum.reads cfg h1) hr h fun r hr h => ?_
  refine Reads.andThen (readHandle_reads cfg hw h2) hr h fun r hr h => ?_
  exact Reads.finish _ _

theorem readAssemblyRefProcessorRow_step (cfg : Cfg) (t : TableCtx) {r : Reader} (hr : r.Ok) : Step (readAssemblyRefProcessorRow cfg t r) r 0 := by
  unfold readAssemblyRefProcessorRow
  refine Step.andThen (trRead_step cfg hr (by omega)) hr fun _ r hr => ?_
  refine Step.andThen (readHandle_step cfg t _ hr) hr fun _ r hr => ?_
  exact Step.pure _ _

theorem readAssemblyRefOsRow_reads (cfg : Cfg) {t : TableCtx} {s : Sizes} (hw : WidthsAgree t s) {bs : Bytes} {x : AssemblyRefOsRow}
    (hx : IsAssemblyRefOs s bs x) : Reads (readAssemblyRefOsRow cfg t) bs x := by
  obtain ⟨b1, b2, b3, b4, h1, h2, h3, h4, rfl⟩ := hx
  intro r tl hr h
  simp only [List.flatten_cons, List.flatten_nil] at h ⊢
  unfold readAssemblyRefOsRow
  refine Reads.andThen (ColNum.reads cfg h1) hr h fun r hr h => ?_
  refine Reads.andThen (ColNum.reads cfg h2) hr h fun r hr h => ?_
  refine Reads.andThen (ColNum.reads cfg h3) hr h fun r hr h => ?_
  refine Reads.andThen (readHandle_reads cfg hw h4) hr h fun r hr h => ?_
  exact Reads.finish _ _

theorem readAssemblyRefOsRow_step (cfg : Cfg) (t : TableCtx) {r : Reader} (hr : r.Ok) : Step (readAssemblyRefOsRow cfg t r) r 0 := by
  unfold readAssemblyRefOsRow
  refine Step.andThen (trRead_step cfg hr (by omega)) hr fun _ r hr => ?_
  refine Step.andThen (trRead_step cfg hr (by omega)) hr fun _ r hr => ?_
  refine Step.andThen (trRead_step cfg hr (by omega)) hr fun _ r hr => ?_
  refine Step.andThen (readHandle_step cfg t _ hr) hr fun _ r hr => ?_
  exact Step.pure _ _

theorem readFileRow_reads (cfg : Cfg) {t : TableCtx} {s : Sizes} (hw : WidthsAgree t s) {bs : Bytes} {x : FileRow}
    (hx : IsFile s bs x) : Reads (readFileRow cfg t) bs x := by
  obtain ⟨b1, b2, b3, h1, h2, h3, rfl⟩ := hx
  intro r tl hr h
  simp only [List.flatten_cons, List.flatten_nil] at h ⊢
  unfold readFileRow
  refine Reads.andThen (ColFlag.reads cfg h1) hr h fun r hr h => ?_
  refine Reads.andThen (readStringHandle_reads cfg hw h2) hr h fun r hr h => ?_
  refine Reads.andThen (readBlobHandle_reads cfg hw h3) hr h fun r hr h => ?_
  exact Reads.finish _ _

theorem readFileRow_step (cfg : Cfg) (t : TableCtx) {r : Reader} (hr : r.Ok) : Step (readFileRow cfg t r) r 0 := by
  unfold readFileRow
  refine Step.andThen (trReadWith_step (fun _ => Res.returns_ok _) cfg hr (by omega)) hr fun _ r hr => ?_
  refine Step.andThen (readStringHandle_step cfg t hr) hr fun _ r hr => ?_
  refine Step.andThen (readBlobHandle_step cfg t hr) hr fun _ r hr => ?_
  exact Step.pure _ _

theorem readExportedTypeRow_reads (cfg : Cfg) {t : TableCtx} {s : Sizes} (hw : WidthsAgree t s) {bs : Bytes} {x : ExportedTypeRow}
    (hx : IsExportedType s bs x) : Reads (readExportedTypeRow cfg t) bs x := by
  obtain ⟨b1, b2, b3, b4, b5, h1, h2, h3, h4, h5, rfl⟩ := hx
  intro r tl hr h
  simp only [List.flatten_cons, List.flatten_nil] at h ⊢
  unfold readExportedTypeRow
  refine Reads.andThen (ColWord.reads cfg TypeAttributes.fromRaw_spec h1) hr h fun r hr h => ?_
  refine Reads.andThen (ColNum.reads cfg h2) hr h fun r hr h => ?_
  refine Reads.andThen (readStringHandle_reads cfg hw h3) hr h fun r hr h => ?_
  refine Reads.andThen (readStringHandle_reads cfg hw h4) hr h fun r hr h => ?_
  refine Reads.andThen (readCoded_reads cfg hw (by simp) h5) hr h fun r hr h => ?_
  exact Reads.finish _ _

theorem readExportedTypeRow_step (cfg : Cfg) (t : TableCtx) {r : Reader} (hr : r.Ok) : Step (readExportedTypeRow cfg t r) r 0 := by
  unfold readExportedTypeRow
  refine Step.andThen (trReadWith_step TypeAttributes.fromRaw_returns cfg hr (by omega)) hr fun _ r hr => ?_
  refine Step.andThen (trRead_step cfg hr (by omega)) hr fun _ r hr => ?_
  refine Step.andThen (readStringHandle_step cfg t hr) hr fun _ r hr => ?_
  refine Step.andThen (readStringHandle_step cfg t hr) hr fun _ r hr => ?_
  refine Step.andThen (readCoded_step cfg t _ hr) hr fun _ r hr => ?_
  exact Step.pure _ _

theorem readManifestResourceRow_reads (cfg : Cfg) {t : TableCtx} {s : Sizes} (hw : WidthsAgree t s) {bs : Bytes} {x : ManifestResourceRow}
    (hx : IsManifestResource s bs x) : Reads (readManifestResourceRow cfg t) bs x := by
  obtain ⟨b1, b2, b3, b4, h1, h2, h3, h4, rfl⟩ := hx
  intro r tl hr h
  simp only [List.flatten_cons, List.flatten_nil] at h ⊢
  unfold readManifestResourceRow
  refine Reads.andThen (ColNum.reads cfg h1) hr h fun r hr h => ?_
  refine Reads.andThen (ColFlag.reads cfg h2) hr h fun r hr h => ?_
  refine Reads.andThen (readStringHandle_reads cfg hw h3) hr h fun r hr h => ?_
  refine Reads.andThen (readCoded_reads cfg hw (by simp) h4) hr h fun r hr h => ?_
  exact Reads.finish _ _

theorem readManifestResourceRow_step (cfg : Cfg) (t : TableCtx) {r : Reader} (hr : r.Ok) : Step (readManifestResourceRow cfg t r) r 0 := by
  unfold readManifestResourceRow
  refine Step.andThen (trRead_step cfg hr (by omega)) hr fun _ r hr => ?_
  refine Step.andThen (trReadWith_step (fun _ => Res.returns_ok _) cfg hr (by omega)) hr fun _ r hr => ?_
  refine Step.andThen (readStringHandle_step cfg t hr) hr fun _ r hr => ?_
  refine Step.andThen (readCoded_step cfg t _ hr) hr fun _ r hr => ?_
  exact Step.pure _ _

theorem readNestedClassRow_reads (cfg : Cfg) {t : TableCtx} {s : Sizes} (hw : WidthsAgree t s) {bs : Bytes} {x : NestedClassRow}
    (hx : IsNestedClass s bs x) : Reads (readNestedClassRow cfg t) bs x := by
  obtain ⟨b1, b2, h1, h2, rfl⟩ := hx
  intro r tl hr h
  simp only [List.flatten_cons, List.flatten_nil] at h ⊢
  unfold readNestedClassRow
  refine Reads.andThen (readHandle_reads cfg hw h1) hr h fun r hr h => ?_
  refine Reads.andThen (readHandle_reads cfg hw h2) hr h fun r hr h => ?_
  exact Reads.finish _ _

theorem readNestedClassRow_step (cfg : Cfg) (t : TableCtx) {r : Reader} (hr : r.Ok) : Step (readNestedClassRow cfg t r) r 0 := by
  unfold readNestedClassRow
  refine Step.andThen (readHandle_step cfg t _ hr) hr fun _ r hr => ?_
  refine Step.andThen (readHandle_step cfg t _ hr) hr fun _ r hr => ?_
  exact Step.pure _ _

theorem readGenericParamRow_reads (cfg : Cfg) {t : TableCtx} {s : Sizes} (hw : WidthsAgree t s) {bs : Bytes} {x : GenericParamRow}
    (hx : IsGenericParam s bs x) : Reads (readGenericParamRow cfg t) bs x := by
  obtain ⟨b1, b2, b3, b4, h1, h2, h3, h4, rfl⟩ := hx
  intro r tl hr h
  simp only [List.flatten_cons, List.flatten_nil] at h ⊢
  unfold readGenericParamRow
  refine Reads.andThen (ColNum.reads cfg h1) hr h fun r hr h => ?_
  refine Reads.andThen (ColWord.reads cfg GenericParamAttributes.fromRaw_spec h2) hr h fun r hr h => ?_
  refine Reads.andThen (readCoded_reads cfg hw (by simp) h3) hr h fun r hr h => ?_
  refine Reads.andThen (readStringHandle_reads cfg hw h4) hr h fun r hr h => ?_
  exact Reads.finish _ _

theorem readGenericParamRow_step (cfg : Cfg) (t : TableCtx) {r : Reader} (hr : r.Ok) : Step (readGenericParamRow cfg t r) r 0 := by
  unfold readGenericParamRow
  refine Step.andThen (trRead_step cfg hr (by omega)) hr fun _ r hr => ?_
  refine Step.andThen (trReadWith_step GenericParamAttributes.fromRaw_returns cfg hr (by omega)) hr fun _ r hr => ?_
  refine Step.andThen (readCoded_step cfg t _ hr) hr fun _ r hr => ?_
  refine Step.andThen (readStringHandle_step cfg t hr) hr fun _ r hr => ?_
  exact Step.pure _ _

theorem readMethodSpecRow_reads (cfg : Cfg) {t : TableCtx} {s : Sizes} (hw : WidthsAgree t s) {bs : Bytes} {x : MethodSpecRow}
    (hx : IsMethodSpec s bs x) : Reads (readMethodSpecRow cfg t) bs x := by
  obtain ⟨b1, b2, h1, h2, rfl⟩ := hx
  intro r tl hr h
  simp only [List.flatten_cons, List.flatten_nil] at h ⊢
  unfold readMethodSpecRow
  refine Reads.andThen (readCoded_reads cfg hw (by simp) h1) hr h fun r hr h => ?_
  refine Reads.andThen (readBlobHandle_reads cfg hw h2) hr h fun r hr h => ?_
  exact Reads.finish _ _

theorem readMethodSpecRow_step (cfg : Cfg) (t : TableCtx) {r : Reader} (hr : r.Ok) : Step (readMethodSpecRow cfg t r) r 0 := by
  unfold readMethodSpecRow
  refine Step.andThen (readCoded_step cfg t _ hr) hr fun _ r hr => ?_
  refine Step.andThen (readBlobHandle_step cfg t hr) hr fun _ r hr => ?_
  exact Step.pure _ _

theorem readGenericParamConstraintRow_reads (cfg : Cfg) {t : TableCtx} {s : Sizes} (hw : WidthsAgree t s) {bs : Bytes} {x : GenericParamConstraintRow}
    (hx : IsGenericParamConstraint s bs x) : Reads (readGenericParamConstraintRow cfg t) bs x := by
  obtain ⟨b1, b2, h1, h2, rfl⟩ := hx
  intro r tl hr h
  simp only [List.flatten_cons, List.flatten_nil] at h ⊢
  unfold readGenericParamConstraintRow
  refine Reads.andThen (readHandle_reads cfg hw h1) hr h fun r hr h => ?_
  refine Reads.andThen (readCoded_reads cfg hw (by simp) h2) hr h fun r hr h => ?_
  exact Reads.finish _ _

theorem readGenericParamConstraintRow_step (cfg : Cfg) (t : TableCtx) {r : Reader} (hr : r.Ok) : Step (readGenericParamConstraintRow cfg t r) r 0 := by
  unfold readGenericParamConstraintRow
  refine Step.andThen (readHandle_step cfg t _ hr) hr fun _ r hr => ?_
  refine Step.andThen (readCoded_step cfg t _ hr) hr fun _ r hr => ?_
  exact Step.pure _ _

theorem readTables_reads (cfg : Cfg) {t : TableCtx} {s : Sizes} (hw : WidthsAgree t s) {bs : Bytes} {x : Tables}
    (hd : ∀ row ∈ x.customAttribute, row.parent.table ≠ .declSecurity) (hx : IsTables s bs x) : Reads (readTables cfg t) bs x := by
  obtain ⟨parts, h0, h1, h2, h3, h4, h5, h6, h7, h8, h9, h10, h11, h12, h13, h14, h15, h16, h17, h18, h19, h20, h21, h22, h23, h24, h25, h26, h27, h28, h29, h30, h31, h32, h33, h34, h35, h36, h37, rfl⟩ := hx
  intro r tl hr h
  simp only [List.flatten_cons, List.flatten_nil] at h ⊢
  unfold readTables
  refine Reads.andThen (readTable_reads hw (fun hx _ => readModuleRow_reads cfg hw hx) h0) hr h fun r hr h => ?_
  refine Reads.andThen (readTable_reads hw (fun hx _ => readTypeRefRow_reads cfg hw hx) h1) hr h fun r hr h => ?_
  refine Reads.andThen (readTable_reads hw (fun hx _ => readTypeDefRow_reads cfg hw hx) h2) hr h fun r hr h => ?_
  refine Reads.andThen (readTable_reads hw (fun hx _ => readFieldRow_reads cfg hw hx) h3) hr h fun r hr h => ?_
  refine Reads.andThen (readTable_reads hw (fun hx _ => readMethodDefRow_reads cfg hw hx) h4) hr h fun r hr h => ?_
  refine Reads.andThen (readTable_reads hw (fun hx _ => readParamRow_reads cfg hw hx) h5) hr h fun r hr h => ?_
  refine Reads.andThen (readTable_reads hw (fun hx _ => readInterfaceImplRow_reads cfg hw hx) h6) hr h fun r hr h => ?_
  refine Reads.andThen (readTable_reads hw (fun hx _ => readMemberRefRow_reads cfg hw hx) h7) hr h fun r hr h => ?_
  refine Reads.andThen (readTable_reads hw (fun hx _ => readConstantRow_reads cfg hw hx) h8) hr h fun r hr h => ?_
  refine Reads.andThen (readTable_reads hw (fun hx hm => readCustomAttributeRow_reads cfg hw (hd _ hm) hx) h9) hr h fun r hr h => ?_
  refine Reads.andThen (readTable_reads hw (fun hx _ => readFieldMarshalRow_reads cfg hw hx) h10) hr h fun r hr h => ?_
  refine Reads.andThen (readTable_reads hw (fun hx _ => readDeclSecurityRow_reads cfg hw hx) h11) hr h fun r hr h => ?_
  refine Reads.andThen (readTable_reads hw (fun hx _ => readClassLayoutRow_reads cfg hw hx) h12) hr h fun r hr h => ?_
  refine Reads.andThen (readTable_reads hw (fun hx _ => readFieldLayoutRow_reads cfg hw hx) h13) hr h fun r hr h => ?_
  refine Reads.andThen (readTable_reads hw (fun hx _ => readStandaloneSigRow_reads cfg hw hx) h14) hr h fun r hr h => ?_
  refine Reads.andThen (readTable_reads hw (fun hx _ => readEventMapRow_reads cfg hw hx) h15) hr h fun r hr h => ?_
  refine Reads.andThen (readTable_reads hw (fun hx _ => readEventRow_reads cfg hw hx) h16) hr h fun r hr h => ?_
  refine Reads.andThen (readTable_reads hw (fun hx _ => readPropertyMapRow_reads cfg hw hx) h17) hr h fun r hr h => ?_
  refine Reads.andThen (readTable_reads hw (fun hx _ => readPropertyRow_reads cfg hw hx) h18) hr h fun r hr h => ?_
  refine Reads.andThen (readTable_reads hw (fun hx _ => readMethodSemanticsRow_reads cfg hw hx) h19) hr h fun r hr h => ?_
  refine Reads.andThen (readTable_reads hw (fun hx _ => readMethodImplRow_reads cfg hw hx) h20) hr h fun r hr h => ?_
  refine Reads.andThen (readTable_reads hw (fun hx _ => readModuleRefRow_reads cfg hw hx) h21) hr h fun r hr h => ?_
  refine Reads.andThen (readTable_reads hw (fun hx _ => readTypeSpecRow_reads cfg hw hx) h22) hr h fun r hr h => ?_
  refine Reads.andThen (readTable_reads hw (fun hx _ => readImplMapRow_reads cfg hw hx) h23) hr h fun r hr h => ?_
  refine Reads.andThen (readTable_reads hw (fun hx _ => readFieldRvaRow_reads cfg hw hx) h24) hr h fun r hr h => ?_
  refine Reads.andThen (readTable_reads hw (fun hx _ => readAssemblyRow_reads cfg hw hx) h25) hr h fun r hr h => ?_
  refine Reads.andThen (readTable_reads hw (fun hx _ => readAssemblyProcessorRow_reads cfg hw hx) h26) hr h fun r hr h => ?_
  refine Reads.andThen (readTable_reads hw (fun hx _ => readAssemblyOsRow_reads cfg hw hx) h27) hr h fun r hr h => ?_
  refine Reads.andThen (readTable_reads hw (fun hx _ => readAssemblyRefRow_reads cfg hw hx) h28) hr h fun r hr h => ?_
  refine Reads.andThen (readTable_reads hw (fun hx _ => readAssemblyRefProcessorRow_reads cfg hw hx) h29) hr h fun r hr h => ?_
  refine Reads.andThen (readTable_reads hw (fun hx _ => readAssemblyRefOsRow_reads cfg hw hx) h30) hr h fun r hr h => ?_
  refine Reads.andThen (readTable_reads hw (fun hx _ => readFileRow_reads cfg hw hx) h31) hr h fun r hr h => ?_
  refine Reads.andThen (readTable_reads hw (fun hx _ => readExportedTypeRow_reads cfg hw hx) h32) hr h fun r hr h => ?_
  refine Reads.andThen (readTable_reads hw (fun hx _ => readManifestResourceRow_reads cfg hw hx) h33) hr h fun r hr h => ?_
  refine Reads.andThen (readTable_reads hw (fun hx _ => readNestedClassRow_reads cfg hw hx) h34) hr h fun r hr h => ?_
  refine Reads.andThen (readTable_reads hw (fun hx _ => readGenericParamRow_reads cfg hw hx) h35) hr h fun r hr h => ?_
  refine Reads.andThen (readTable_reads hw (fun hx _ => readMethodSpecRow_reads cfg hw hx) h36) hr h fun r hr h => ?_
  refine Reads.andThen (readTable_reads hw (fun hx _ => readGenericParamConstraintRow_reads cfg hw hx) h37) hr h fun r hr h => ?_
  exact Reads.finish _ _

theorem readTables_step (cfg : Cfg) (t : TableCtx) {r : Reader} (hr : r.Ok) : Step (readTables cfg t r) r 0 := by
  unfold readTables
  refine Step.andThen (readTable_step t _ (fun _ hs => readModuleRow_step cfg t hs) hr) hr fun _ r hr => ?_
  refine Step.andThen (readTable_step t _ (fun _ hs => readTypeRefRow_step cfg t hs) hr) hr fun _ r hr => ?_
  refine Step.andThen (readTable_step t _ (fun _ hs => readTypeDefRow_step cfg t hs) hr) hr fun _ r hr => ?_
  refine Step.andThen (readTable_step t _ (fun _ hs => readFieldRow_step cfg t hs) hr) hr fun _ r hr => ?_
  refine Step.andThen (readTable_step t _ (fun _ hs => readMethodDefRow_step cfg t hs) hr) hr fun _ r hr => ?_
  refine Step.andThen (readTable_step t _ (fun _ hs => readParamRow_step cfg t hs) hr) hr fun _ r hr => ?_
  refine Step.andThen (readTable_step t _ (fun _ hs => readInterfaceImplRow_step cfg t hs) hr) hr fun _ r hr => ?_
  refine Step.andThen (readTable_step t _ (fun _ hs => readMemberRefRow_step cfg t hs) hr) hr fun _ r hr => ?_
  refine Step.andThen (readTable_step t _ (fun _ hs => readConstantRow_step cfg t hs) hr) hr fun _ r hr => ?_
  refine Step.andThen (readTable_step t _ (fun _ hs => readCustomAttributeRow_step cfg t hs) hr) hr fun _ r hr => ?_
  refine Step.andThen (readTable_step t _ (fun _ hs => readFieldMarshalRow_step cfg t hs) hr) hr fun _ r hr => ?_
  refine Step.andThen (readTable_step t _ (fun _ hs => readDeclSecurityRow_step cfg t hs) hr) hr fun _ r hr => ?_
  refine Step.andThen (readTable_step t _ (fun _ hs => readClassLayoutRow_step cfg t hs) hr) hr fun _ r hr => ?_
  refine Step.andThen (readTable_step t _ (fun _ hs => readFieldLayoutRow_step cfg t hs) hr) hr fun _ r hr => ?_
  refine Step.andThen (readTable_step t _ (fun _ hs => readStandaloneSigRow_step cfg t hs) hr) hr fun _ r hr => ?_
  refine Step.andThen (readTable_step t _ (fun _ hs => readEventMapRow_step cfg t hs) hr) hr fun _ r hr => ?_
  refine Step.andThen (readTable_step t _ (fun _ hs => readEventRow_step cfg t hs) hr) hr fun _ r hr => ?_
  refine Step.andThen (readTable_step t _ (fun _ hs => readPropertyMapRow_step cfg t hs) hr) hr fun _ r hr => ?_
  refine Step.andThen (readTable_step t _ (fun _ hs => readPropertyRow_step cfg t hs) hr) hr fun _ r hr => ?_
  refine Step.andThen (readTable_step t _ (fun _ hs => readMethodSemanticsRow_step cfg t hs) hr) hr fun _ r hr => ?_
  refine Step.andThen (readTable_step t _ (fun _ hs => readMethodImplRow_step cfg t hs) hr) hr fun _ r hr => ?_
  refine Step.andThen (readTable_step t _ (fun _ hs => readModuleRefRow_step cfg t hs) hr) hr fun _ r hr => ?_
  refine Step.andThen (readTable_step t _ (fun _ hs => readTypeSpecRow_step cfg t hs) hr) hr fun _ r hr => ?_
  refine Step.andThen (readTable_step t _ (fun _ hs => readImplMapRow_step cfg t hs) hr) hr fun _ r hr => ?_
  refine Step.andThen (readTable_step t _ (fun _ hs => readFieldRvaRow_step cfg t hs) hr) hr fun _ r hr => ?_
  refine Step.andThen (readTable_step t _ (fun _ hs => readAssemblyRow_step cfg t hs) hr) hr fun _ r hr => ?_
  refine Step.andThen (readTable_step t _ (fun _ hs => readAssemblyProcessorRow_step cfg t hs) hr) hr fun _ r hr => ?_
  refine Step.andThen (readTable_step t _ (fun _ hs => readAssemblyOsRow_step cfg t hs) hr) hr fun _ r hr => ?_
  refine Step.andThen (readTable_step t _ (fun _ hs => readAssemblyRefRow_step cfg t hs) hr) hr fun _ r hr => ?_
  refine Step.andThen (readTable_step t _ (fun _ hs => readAssemblyRefProcessorRow_step cfg t hs) hr) hr fun _ r hr => ?_
  refine Step.andThen (readTable_step t _ (fun _ hs => readAssemblyRefOsRow_step cfg t hs) hr) hr fun _ r hr => ?_
  refine Step.andThen (readTable_step t _ (fun _ hs => readFileRow_step cfg t hs) hr) hr fun _ r hr => ?_
  refine Step.andThen (readTable_step t _ (fun _ hs => readExportedTypeRow_step cfg t hs) hr) hr fun _ r hr => ?_
  refine Step.andThen (readTable_step t _ (fun _ hs => readManifestResourceRow_step cfg t hs) hr) hr fun _ r hr => ?_
  refine Step.andThen (readTable_step t _ (fun _ hs => readNestedClassRow_step cfg t hs) hr) hr fun _ r hr => ?_
  refine Step.andThen (readTable_step t _ (fun _ hs => readGenericParamRow_step cfg t hs) hr) hr fun _ r hr => ?_
  refine Step.andThen (readTable_step t _ (fun _ hs => readMethodSpecRow_step cfg t hs) hr) hr fun _ r hr => ?_
  refine Step.andThen (readTable_step t _ (fun _ hs => readGenericParamConstraintRow_step cfg t hs) hr) hr fun _ r hr => ?_
  exact Step.pure _ _

end Clr
