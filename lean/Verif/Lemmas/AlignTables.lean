import Verif.Model.AlignTables
import Verif.Lemmas.AlignFiles
import Verif.Spec.Columns
/-! # Lemmas about checked reads of tables -/

namespace Clr
open Reader Spec

variable {cfg : Cfg} {base : Nat} {t : TableCtx} {α β : Type}

/-- A cursor that is at most one byte behind the end. -/
def Near (r : Reader) : Prop := r.data.length < 2 ^ 63 ∧ r.pos ≤ r.data.length + 1

theorem Reader.Ok.near {r : Reader} (h : r.Ok) : Near r := ⟨h.2, by have := h.1; omega⟩

theorem AllAligned.append {a : Nat} {xs ys : List Nat} :
    AllAligned a (xs ++ ys) ↔ AllAligned a xs ∧ AllAligned (a + xs.sum) ys := by
  induction xs generalizing a with
  | nil => simp [AllAligned]
  | cons x xs ih =>
    simp only [List.cons_append, AllAligned, ih, List.sum_cons, Nat.add_assoc, and_assoc]

/-- Whatever `f` reads are numbers of the given widths, and `g` is `f` with their addresses checked. -/
def Checked (base : Nat) (P : Reader → Prop) (f g : Reader → Res (α × Reader)) (ws : List Nat) : Prop :=
  ∀ r a r', P r → f r = .ok (a, r') →
    r' = r.skip ws.sum ∧ r'.Ok ∧ g r = if AllAligned (base + r.pos) ws then .ok (a, r') else .ub

theorem Checked.bind {P : Reader → Prop} {f g : Reader → Res (α × Reader)} {k k' : α × Reader → Res (β × Reader)} {w : Nat}
    {ws : List Nat} (h : Checked base P f g [w]) (hk : ∀ a, Checked base Reader.Ok (fun r => k (a, r)) (fun r => k' (a, r)) ws) :
    Checked base P (fun r => f r >>= k) (fun r => g r >>= k') (w :: ws) := by
  intro r b r'' hr e
  obtain ⟨⟨a, r'⟩, e1, e2⟩ := Res.bind_eq_ok.1 e
  obtain ⟨h1, h2, h3⟩ := h r a r' hr e1
  obtain ⟨k1, k2, k3⟩ := hk a r' b r'' h2 e2
  have hs : [w].sum = w := by simp
  rw [hs] at h1
  refine ⟨by rw [k1, h1, skip_skip, List.sum_cons], k2, ?_⟩
  show (g r >>= k') = _
  rw [h3, ite_bind_ub]
  refine ite_then (fun c => ?_) (fun e => ⟨e.1, trivial⟩)
  show k' (a, r') = _
  have k3' : k' (a, r') = _ := k3
  have hp : base + r'.pos = base + r.pos + w := by rw [h1, skip_pos]; omega
  rw [k3', hp]
  refine ite_congr (propext ⟨fun e => ⟨c.1, e⟩, fun e => e.2⟩) (fun _ => rfl) (fun _ => rfl)

/-- Columns one behind the other, for a list of them. -/
theorem Checked.both {P : Reader → Prop} {f g : Reader → Res (α × Reader)} {k k' : α × Reader → Res (β × Reader)} {ws' : List Nat}
    {ws : List Nat} (h : Checked base P f g ws') (hk : ∀ a, Checked base Reader.Ok (fun r => k (a, r)) (fun r => k' (a, r)) ws) :
    Checked base P (fun r => f r >>= k) (fun r => g r >>= k') (ws' ++ ws) := by
  intro r b r'' hr e
  obtain ⟨⟨a, r'⟩, e1, e2⟩ := Res.bind_eq_ok.1 e
  obtain ⟨h1, h2, h3⟩ := h r a r' hr e1
  obtain ⟨k1, k2, k3⟩ := hk a r' b r'' h2 e2
  refine ⟨by rw [k1, h1, skip_skip, List.sum_append], k2, ?_⟩
  show (g r >>= k') = _
  rw [h3, ite_bind_ub]
  refine ite_then (fun c => ?_) (fun e => (AllAligned.append.1 e).1)
  show k' (a, r') = _
  have k3' : k' (a, r') = _ := k3
  have hp : base + r'.pos = base + r.pos + ws'.sum := by rw [h1, skip_pos]; omega
  rw [k3', hp]
  refine ite_congr (propext ⟨fun e => AllAligned.append.2 ⟨c, e⟩, fun e => (AllAligned.append.1 e).2⟩) (fun _ => rfl) (fun _ => rfl)

theorem Checked.pure {a : α} : Checked base Reader.Ok (fun r => pure (a, r)) (fun r => pure (a, r)) [] := by
  intro r b r' hr e
  cases e
  exact ⟨rfl, hr, rfl⟩

theorem Checked.ok {P : Reader → Prop} {f g : Reader → Res (α × Reader)} {ws : List Nat} (hP : ∀ r : Reader, r.Ok → P r)
    (h : Checked base P f g ws) : Checked base Reader.Ok f g ws := fun r a r' hr e => h r a r' (hP r hr) e

theorem Checked.ofNear {f g : Reader → Res (α × Reader)} {ws : List Nat} (h : Checked base Near f g ws) :
    Checked base Reader.Ok f g ws := h.ok fun _ => Reader.Ok.near

/-! ## Columns -/

theorem Checked.trRead {w : Nat} (hw : w ≤ 8) :
    Checked base Near (fun r => Clr.trRead cfg r w) (fun r => StrictTables.trRead base cfg r w) [w] := by
  intro r a r' hr e
  have e' := e
  unfold Clr.trRead at e'
  obtain ⟨⟨o, r1⟩, h1, h⟩ := Res.bind_eq_ok.1 e'
  dsimp only at h
  obtain ⟨x, h2, h⟩ := Res.bind_eq_ok.1 h
  rw [ofOption_eq_ok] at h2
  rw [h2] at h1
  have hr1 := hr.1
  have hr2 := hr.2
  obtain ⟨s1, s2, s3⟩ := readNum_exact (base := base) (ok_of_readU hr.1 (by omega) h1) (by omega) h1
  cases h
  have hs : [w].sum = w := by simp
  refine ⟨by rw [hs]; exact s1, s2, ?_⟩
  show StrictTables.trRead base cfg r w = _
  unfold StrictTables.trRead
  rw [s3, ite_bind_ub]
  exact ite_congr (propext ⟨fun e => ⟨e, trivial⟩, fun e => e.1⟩) (fun _ => rfl) (fun _ => rfl)

theorem Checked.trReadWith {f : Nat → Res α} {w : Nat} (hw : w ≤ 8) :
    Checked base Near (fun r => Clr.trReadWith f cfg r w) (fun r => StrictTables.trReadWith f base cfg r w) [w] := by
  intro r a r' hr e
  unfold Clr.trReadWith at e
  obtain ⟨⟨x, r1⟩, h1, h⟩ := Res.bind_eq_ok.1 e
  dsimp only at h
  obtain ⟨y, h2, h⟩ := Res.bind_eq_ok.1 h
  obtain ⟨s1, s2, s3⟩ := Checked.trRead (base := base) hw r x r1 hr h1
  cases h
  refine ⟨s1, s2, ?_⟩
  have s3' : StrictTables.trRead base cfg r w = _ := s3
  show StrictTables.trReadWith f base cfg r w = _
  unfold StrictTables.trReadWith
  rw [s3', ite_bind_ub]
  refine ite_congr rfl (fun _ => ?_) (fun _ => rfl)
  dsimp only
  rw [h2]
  rfl

theorem Checked.readWide {wide : Bool} :
    Checked base Near (Clr.readWide cfg wide) (StrictTables.readWide base cfg wide) [width wide] := by
  cases wide
  · exact Checked.trRead (by decide)
  · exact Checked.trRead (by decide)

theorem Checked.readCoded {k : CodedKind} :
    Checked base Near (Clr.readCoded cfg t k) (StrictTables.readCoded base cfg t k) [width (t.wideCoded k)] := by
  intro r a r' hr e
  unfold Clr.readCoded at e
  obtain ⟨⟨x, r1⟩, h1, h⟩ := Res.bind_eq_ok.1 e
  dsimp only at h
  obtain ⟨y, h2, h⟩ := Res.bind_eq_ok.1 h
  obtain ⟨s1, s2, s3⟩ := Checked.readWide (base := base) r x r1 hr h1
  cases h
  refine ⟨s1, s2, ?_⟩
  unfold StrictTables.readCoded
  rw [s3, ite_bind_ub]
  refine ite_congr rfl (fun _ => ?_) (fun _ => rfl)
  dsimp only
  rw [h2]
  rfl

/-- A byte that is skipped. -/
theorem Checked.advance {k k' : Bool × Reader → Res (β × Reader)} {ws : List Nat}
    (hk : ∀ b, Checked base Near (fun r => k (b, r)) (fun r => k' (b, r)) ws) :
    Checked base Reader.Ok (fun r => r.advance cfg 1 >>= k) (fun r => r.advance cfg 1 >>= k') (1 :: ws) := by
  intro r b r'' hr e
  have hr1 := hr.1
  have hr2 := hr.2
  obtain ⟨⟨a, r'⟩, e1, e2⟩ := Res.bind_eq_ok.1 e
  have h1 := advance_skip (by omega) e1
  obtain ⟨k1, k2, k3⟩ := hk a r' b r'' ⟨by rw [h1]; exact hr2, by rw [h1]; show r.pos + 1 ≤ _; exact Nat.add_le_add_right hr1 1⟩ e2
  refine ⟨by rw [k1, h1, skip_skip, List.sum_cons], k2, ?_⟩
  show (r.advance cfg 1 >>= k') = _
  rw [e1]
  simp only [Res.ok_bind]
  have k3' : k' (a, r') = _ := k3
  have hp : base + r'.pos = base + r.pos + 1 := by rw [h1, skip_pos]; omega
  rw [k3', hp]
  refine ite_congr (propext ⟨fun e => ⟨Nat.mod_one _, e⟩, fun e => e.2⟩) (fun _ => rfl) (fun _ => rfl)

/-- A column that is read and dropped: if it is not there then the columns behind it are not there either. -/
theorem Checked.ignored {k k' : Unit × Reader → Res (β × Reader)} {ws : List Nat} (hs : 2 ≤ ws.sum)
    (hk : ∀ b, Checked base Near (fun r => k (b, r)) (fun r => k' (b, r)) ws) :
    Checked base Near (fun r => Clr.trReadIgnored cfg r 2 >>= k) (fun r => StrictTables.trReadIgnored base cfg r 2 >>= k') (2 :: ws) := by
  intro r b r'' hr e
  have hr1 := hr.1
  have hr2 := hr.2
  obtain ⟨⟨a, r'⟩, e1, e2⟩ := Res.bind_eq_ok.1 e
  unfold Clr.trReadIgnored at e1
  obtain ⟨⟨o, r1⟩, h1, h⟩ := Res.bind_eq_ok.1 e1
  dsimp only at h
  cases h
  cases o with
  | none =>
    obtain ⟨k1, k2, -⟩ := hk () r' b r'' (by
      rcases Reader.readU_cases cfg r 2 (by omega) with h3 | ⟨n, h3, -, h4⟩
      · rw [h3] at h1; cases h1; exact hr
      · rw [h3] at h1; cases h1) e2
    rw [Reader.readU_eq cfg r 2 (by omega)] at h1
    split at h1
    · cases h1
    · rename_i hn
      cases h1
      have := k2.1
      rw [k1, skip_pos, skip_data] at this
      omega
  | some n =>
    obtain ⟨s1, s2, s3⟩ := readNum_exact (base := base) (ok_of_readU hr.1 (by omega) h1) (by omega) h1
    obtain ⟨k1, k2, k3⟩ := hk () r' b r'' s2.near e2
    refine ⟨by rw [k1, s1, skip_skip, List.sum_cons], k2, ?_⟩
    show (StrictTables.trReadIgnored base cfg r 2 >>= k') = _
    unfold StrictTables.trReadIgnored
    rw [s3, ite_bind_ub]
    show ((if (base + r.pos) % 2 = 0 then Res.ok ((), r') else .ub : Res (Unit × Reader)) >>= k') = _
    rw [ite_bind_ub]
    refine ite_then (fun c => ?_) (fun e => e.1)
    have k3' : k' ((), r') = _ := k3
    have hp : base + r'.pos = base + r.pos + 2 := by rw [s1, skip_pos]; omega
    rw [k3', hp]
    refine ite_congr (propext ⟨fun e => ⟨c, e⟩, fun e => e.2⟩) (fun _ => rfl) (fun _ => rfl)

/-- One column after the other. -/
macro "columnwise" : tactic => `(tactic| repeat (first
  | exact Checked.pure
  | refine Checked.bind (Checked.trRead (by decide)) (fun _ => ?_)
  | refine Checked.bind (Checked.trReadWith (by decide)) (fun _ => ?_)
  | refine Checked.bind Checked.readCoded (fun _ => ?_)
  | refine Checked.bind Checked.readWide (fun _ => ?_)
  | refine Checked.bind (Checked.trRead (by decide)).ofNear (fun _ => ?_)
  | refine Checked.bind (Checked.trReadWith (by decide)).ofNear (fun _ => ?_)
  | refine Checked.bind Checked.readCoded.ofNear (fun _ => ?_)
  | refine Checked.bind Checked.readWide.ofNear (fun _ => ?_)
  | refine Checked.advance (fun _ => ?_)
  | refine Checked.ignored (by simp only [List.sum_cons]; unfold width; split <;> omega) (fun _ => ?_)))

/-! ## Rows -/

theorem Checked.readModuleRow : Checked base Near (Clr.readModuleRow cfg t) (StrictTables.readModuleRow base cfg t) (columns t .module) := by
  unfold Clr.readModuleRow StrictTables.readModuleRow
  columnwise

theorem Checked.readTypeRefRow : Checked base Near (Clr.readTypeRefRow cfg t) (StrictTables.readTypeRefRow base cfg t) (columns t .typeRef) := by
  unfold Clr.readTypeRefRow StrictTables.readTypeRefRow
  columnwise

theorem Checked.readTypeDefRow : Checked base Near (Clr.readTypeDefRow cfg t) (StrictTables.readTypeDefRow base cfg t) (columns t .typeDef) := by
  unfold Clr.readTypeDefRow StrictTables.readTypeDefRow
  columnwise

theorem Checked.readFieldRow : Checked base Near (Clr.readFieldRow cfg t) (StrictTables.readFieldRow base cfg t) (columns t .field) := by
  unfold Clr.readFieldRow StrictTables.readFieldRow
  columnwise

theorem Checked.readMethodDefRow : Checked base Near (Clr.readMethodDefRow cfg t) (StrictTables.readMethodDefRow base cfg t) (columns t .methodDef) := by
  unfold Clr.readMethodDefRow StrictTables.readMethodDefRow
  columnwise

theorem Checked.readParamRow : Checked base Near (Clr.readParamRow cfg t) (StrictTables.readParamRow base cfg t) (columns t .param) := by
  unfold Clr.readParamRow StrictTables.readParamRow
  columnwise

theorem Checked.readInterfaceImplRow : Checked base Near (Clr.readInterfaceImplRow cfg t) (StrictTables.readInterfaceImplRow base cfg t) (columns t .interfaceImpl) := by
  unfold Clr.readInterfaceImplRow StrictTables.readInterfaceImplRow
  columnwise

theorem Checked.readMemberRefRow : Checked base Near (Clr.readMemberRefRow cfg t) (StrictTables.readMemberRefRow base cfg t) (columns t .memberRef) := by
  unfold Clr.readMemberRefRow StrictTables.readMemberRefRow
  columnwise

theorem Checked.readConstantRow : Checked base Near (Clr.readConstantRow cfg t) (StrictTables.readConstantRow base cfg t) (columns t .constant) := by
  unfold Clr.readConstantRow StrictTables.readConstantRow
  columnwise

theorem Checked.readCustomAttributeRow : Checked base Near (Clr.readCustomAttributeRow cfg t) (StrictTables.readCustomAttributeRow base cfg t) (columns t .customAttribute) := by
  unfold Clr.readCustomAttributeRow StrictTables.readCustomAttributeRow
  columnwise

theorem Checked.readFieldMarshalRow : Checked base Near (Clr.readFieldMarshalRow cfg t) (StrictTables.readFieldMarshalRow base cfg t) (columns t .fieldMarshal) := by
  unfold Clr.readFieldMarshalRow StrictTables.readFieldMarshalRow
  columnwise

theorem Checked.readDeclSecurityRow : Checked base Near (Clr.readDeclSecurityRow cfg t) (StrictTables.readDeclSecurityRow base cfg t) (columns t .declSecurity) := by
  unfold Clr.readDeclSecurityRow StrictTables.readDeclSecurityRow
  columnwise

theorem Checked.readClassLayoutRow : Checked base Near (Clr.readClassLayoutRow cfg t) (StrictTables.readClassLayoutRow base cfg t) (columns t .classLayout) := by
  unfold Clr.readClassLayoutRow StrictTables.readClassLayoutRow
  columnwise

theorem Checked.readFieldLayoutRow : Checked base Near (Clr.readFieldLayoutRow cfg t) (StrictTables.readFieldLayoutRow base cfg t) (columns t .fieldLayout) := by
  unfold Clr.readFieldLayoutRow StrictTables.readFieldLayoutRow
  columnwise

theorem Checked.readStandaloneSigRow : Checked base Near (Clr.readStandaloneSigRow cfg t) (StrictTables.readStandaloneSigRow base cfg t) (columns t .standaloneSig) := by
  unfold Clr.readStandaloneSigRow StrictTables.readStandaloneSigRow
  columnwise

theorem Checked.readEventMapRow : Checked base Near (Clr.readEventMapRow cfg t) (StrictTables.readEventMapRow base cfg t) (columns t .eventMap) := by
  unfold Clr.readEventMapRow StrictTables.readEventMapRow
  columnwise

theorem Checked.readEventRow : Checked base Near (Clr.readEventRow cfg t) (StrictTables.readEventRow base cfg t) (columns t .event) := by
  unfold Clr.readEventRow StrictTables.readEventRow
  columnwise

theorem Checked.readPropertyMapRow : Checked base Near (Clr.readPropertyMapRow cfg t) (StrictTables.readPropertyMapRow base cfg t) (columns t .propertyMap) := by
  unfold Clr.readPropertyMapRow StrictTables.readPropertyMapRow
  columnwise

theorem Checked.readPropertyRow : Checked base Near (Clr.readPropertyRow cfg t) (StrictTables.readPropertyRow base cfg t) (columns t .property) := by
  unfold Clr.readPropertyRow StrictTables.readPropertyRow
  columnwise

theorem Checked.readMethodSemanticsRow : Checked base Near (Clr.readMethodSemanticsRow cfg t) (StrictTables.readMethodSemanticsRow base cfg t) (columns t .methodSemantics) := by
  unfold Clr.readMethodSemanticsRow StrictTables.readMethodSemanticsRow
  columnwise

theorem Checked.readMethodImplRow : Checked base Near (Clr.readMethodImplRow cfg t) (StrictTables.readMethodImplRow base cfg t) (columns t .methodImpl) := by
  unfold Clr.readMethodImplRow StrictTables.readMethodImplRow
  columnwise

theorem Checked.readModuleRefRow : Checked base Near (Clr.readModuleRefRow cfg t) (StrictTables.readModuleRefRow base cfg t) (columns t .moduleRef) := by
  unfold Clr.readModuleRefRow StrictTables.readModuleRefRow
  columnwise

theorem Checked.readTypeSpecRow : Checked base Near (Clr.readTypeSpecRow cfg t) (StrictTables.readTypeSpecRow base cfg t) (columns t .typeSpec) := by
  unfold Clr.readTypeSpecRow StrictTables.readTypeSpecRow
  columnwise

theorem Checked.readImplMapRow : Checked base Near (Clr.readImplMapRow cfg t) (StrictTables.readImplMapRow base cfg t) (columns t .implMap) := by
  unfold Clr.readImplMapRow StrictTables.readImplMapRow
  columnwise

theorem Checked.readFieldRvaRow : Checked base Near (Clr.readFieldRvaRow cfg t) (StrictTables.readFieldRvaRow base cfg t) (columns t .fieldRva) := by
  unfold Clr.readFieldRvaRow StrictTables.readFieldRvaRow
  columnwise

theorem Checked.readAssemblyRow : Checked base Near (Clr.readAssemblyRow cfg t) (StrictTables.readAssemblyRow base cfg t) (columns t .assembly) := by
  unfold Clr.readAssemblyRow StrictTables.readAssemblyRow
  columnwise

theorem Checked.readAssemblyProcessorRow : Checked base Near (Clr.readAssemblyProcessorRow cfg t) (StrictTables.readAssemblyProcessorRow base cfg t) (columns t .assemblyProcessor) := by
  unfold Clr.readAssemblyProcessorRow StrictTables.readAssemblyProcessorRow
  columnwise

theorem Checked.readAssemblyOsRow : Checked base Near (Clr.readAssemblyOsRow cfg t) (StrictTables.readAssemblyOsRow base cfg t) (columns t .assemblyOs) := by
  unfold Clr.readAssemblyOsRow StrictTables.readAssemblyOsRow
  columnwise

theorem Checked.readAssemblyRefRow : Checked base Near (Clr.readAssemblyRefRow cfg t) (StrictTables.readAssemblyRefRow base cfg t) (columns t .assemblyRef) := by
  unfold Clr.readAssemblyRefRow StrictTables.readAssemblyRefRow
  columnwise

theorem Checked.readAssemblyRefProcessorRow : Checked base Near (Clr.readAssemblyRefProcessorRow cfg t) (StrictTables.readAssemblyRefProcessorRow base cfg t) (columns t .assemblyRefProcessor) := by
  unfold Clr.readAssemblyRefProcessorRow StrictTables.readAssemblyRefProcessorRow
  columnwise

theorem Checked.readAssemblyRefOsRow : Checked base Near (Clr.readAssemblyRefOsRow cfg t) (StrictTables.readAssemblyRefOsRow base cfg t) (columns t .assemblyRefOs) := by
  unfold Clr.readAssemblyRefOsRow StrictTables.readAssemblyRefOsRow
  columnwise

theorem Checked.readFileRow : Checked base Near (Clr.readFileRow cfg t) (StrictTables.readFileRow base cfg t) (columns t .file) := by
  unfold Clr.readFileRow StrictTables.readFileRow
  columnwise

theorem Checked.readExportedTypeRow : Checked base Near (Clr.readExportedTypeRow cfg t) (StrictTables.readExportedTypeRow base cfg t) (columns t .exportedType) := by
  unfold Clr.readExportedTypeRow StrictTables.readExportedTypeRow
  columnwise

theorem Checked.readManifestResourceRow : Checked base Near (Clr.readManifestResourceRow cfg t) (StrictTables.readManifestResourceRow base cfg t) (columns t .manifestResource) := by
  unfold Clr.readManifestResourceRow StrictTables.readManifestResourceRow
  columnwise

theorem Checked.readNestedClassRow : Checked base Near (Clr.readNestedClassRow cfg t) (StrictTables.readNestedClassRow base cfg t) (columns t .nestedClass) := by
  unfold Clr.readNestedClassRow StrictTables.readNestedClassRow
  columnwise

theorem Checked.readGenericParamRow : Checked base Near (Clr.readGenericParamRow cfg t) (StrictTables.readGenericParamRow base cfg t) (columns t .genericParam) := by
  unfold Clr.readGenericParamRow StrictTables.readGenericParamRow
  columnwise

theorem Checked.readMethodSpecRow : Checked base Near (Clr.readMethodSpecRow cfg t) (StrictTables.readMethodSpecRow base cfg t) (columns t .methodSpec) := by
  unfold Clr.readMethodSpecRow StrictTables.readMethodSpecRow
  columnwise

theorem Checked.readGenericParamConstraintRow : Checked base Near (Clr.readGenericParamConstraintRow cfg t) (StrictTables.readGenericParamConstraintRow base cfg t) (columns t .genericParamConstraint) := by
  unfold Clr.readGenericParamConstraintRow StrictTables.readGenericParamConstraintRow
  columnwise

theorem Checked.readMany {f g : Reader → Res (α × Reader)} {ws : List Nat} (h : Checked base Reader.Ok f g ws) (n : Nat) :
    Checked base Reader.Ok (Clr.readMany f n) (Clr.readMany g n) (List.replicate n ws).flatten := by
  induction n with
  | zero => exact Checked.pure
  | succ n ih =>
    rw [List.replicate_succ, List.flatten_cons]
    refine Checked.both h (fun a => ?_)
    have := Checked.both (k := fun x => Pure.pure (a :: x.1, x.2)) (k' := fun x => Pure.pure (a :: x.1, x.2)) ih (ws := [])
      (fun as => Checked.pure (a := a :: as))
    rw [List.append_nil] at this
    exact this

theorem Checked.readTable {f g : Reader → Res (α × Reader)} {ty : TableType} (h : Checked base Near f g (columns t ty)) :
    Checked base Reader.Ok (Clr.readTable f t ty) (Clr.readTable g t ty) (List.replicate (t.rowCount ty.code) (columns t ty)).flatten :=
  Checked.readMany h.ofNear _

theorem Checked.readTables : Checked base Reader.Ok (Clr.readTables cfg t) (StrictTables.readTables base cfg t) (allColumns t) := by
  obtain ⟨ws, hws⟩ : ∃ ws, allColumns t = ws := ⟨_, rfl⟩
  rw [hws]
  unfold allColumns tableOrder at hws
  simp only [List.flatMap_cons, List.flatMap_nil] at hws
  rw [← hws]
  unfold Clr.readTables StrictTables.readTables
  refine Checked.both (Checked.readTable Checked.readModuleRow) (fun _ => ?_)
  refine Checked.both (Checked.readTable Checked.readTypeRefRow) (fun _ => ?_)
  refine Checked.both (Checked.readTable Checked.readTypeDefRow) (fun _ => ?_)
  refine Checked.both (Checked.readTable Checked.readFieldRow) (fun _ => ?_)
  refine Checked.both (Checked.readTable Checked.readMethodDefRow) (fun _ => ?_)
  refine Checked.both (Checked.readTable Checked.readParamRow) (fun _ => ?_)
  refine Checked.both (Checked.readTable Checked.readInterfaceImplRow) (fun _ => ?_)
  refine Checked.both (Checked.readTable Checked.readMemberRefRow) (fun _ => ?_)
  refine Checked.both (Checked.readTable Checked.readConstantRow) (fun _ => ?_)
  refine Checked.both (Checked.readTable Checked.readCustomAttributeRow) (fun _ => ?_)
  refine Checked.both (Checked.readTable Checked.readFieldMarshalRow) (fun _ => ?_)
  refine Checked.both (Checked.readTable Checked.readDeclSecurityRow) (fun _ => ?_)
  refine Checked.both (Checked.readTable Checked.readClassLayoutRow) (fun _ => ?_)
  refine Checked.both (Checked.readTable Checked.readFieldLayoutRow) (fun _ => ?_)
  refine Checked.both (Checked.readTable Checked.readStandaloneSigRow) (fun _ => ?_)
  refine Checked.both (Checked.readTable Checked.readEventMapRow) (fun _ => ?_)
  refine Checked.both (Checked.readTable Checked.readEventRow) (fun _ => ?_)
  refine Checked.both (Checked.readTable Checked.readPropertyMapRow) (fun _ => ?_)
  refine Checked.both (Checked.readTable Checked.readPropertyRow) (fun _ => ?_)
  refine Checked.both (Checked.readTable Checked.readMethodSemanticsRow) (fun _ => ?_)
  refine Checked.both (Checked.readTable Checked.readMethodImplRow) (fun _ => ?_)
  refine Checked.both (Checked.readTable Checked.readModuleRefRow) (fun _ => ?_)
  refine Checked.both (Checked.readTable Checked.readTypeSpecRow) (fun _ => ?_)
  refine Checked.both (Checked.readTable Checked.readImplMapRow) (fun _ => ?_)
  refine Checked.both (Checked.readTable Checked.readFieldRvaRow) (fun _ => ?_)
  refine Checked.both (Checked.readTable Checked.readAssemblyRow) (fun _ => ?_)
  refine Checked.both (Checked.readTable Checked.readAssemblyProcessorRow) (fun _ => ?_)
  refine Checked.both (Checked.readTable Checked.readAssemblyOsRow) (fun _ => ?_)
  refine Checked.both (Checked.readTable Checked.readAssemblyRefRow) (fun _ => ?_)
  refine Checked.both (Checked.readTable Checked.readAssemblyRefProcessorRow) (fun _ => ?_)
  refine Checked.both (Checked.readTable Checked.readAssemblyRefOsRow) (fun _ => ?_)
  refine Checked.both (Checked.readTable Checked.readFileRow) (fun _ => ?_)
  refine Checked.both (Checked.readTable Checked.readExportedTypeRow) (fun _ => ?_)
  refine Checked.both (Checked.readTable Checked.readManifestResourceRow) (fun _ => ?_)
  refine Checked.both (Checked.readTable Checked.readNestedClassRow) (fun _ => ?_)
  refine Checked.both (Checked.readTable Checked.readGenericParamRow) (fun _ => ?_)
  refine Checked.both (Checked.readTable Checked.readMethodSpecRow) (fun _ => ?_)
  refine Checked.both (Checked.readTable Checked.readGenericParamConstraintRow) (fun _ => ?_)
  exact Checked.pure

end Clr
