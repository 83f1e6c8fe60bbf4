import Verif.Spec.Declared
import Verif.Props.Layout
import Verif.Props.Loading
/-!
# C109: the declared layout of types

The specification is in `Verif/Spec/Declared.lean`.
-/

namespace Clr
open Spec

/-- **C109, sequential types**, for the given packing sizes: after a successful load, the fields of a type with a packing size, in
the order of their rows, lie where the packing size puts them. -/
def SequenceKept (cfg : Cfg) (packing : Nat → Prop) : Prop :=
  ∀ (w w' : World) (fs : Name → Option Bytes) (depth fuel : Nat) (data : Bytes) (m : Metadata) (a : AssemblyRec), Reached cfg w →
    readMetadata cfg data = .ok m → loadData cfg fs depth fuel data w = (.ok a, w') →
    Partition (m.tables.typeDef.map (·.fieldList)) m.tables.field.length →
    ∀ row ∈ m.tables.classLayout, ∀ pack, row.packingSize = some pack → packing pack → 1 ≤ row.parent → row.parent < 2 ^ 24 →
    ∀ (def' : TypeDefRow) (t : Nat) (r : TypeRec) (s k : Nat), m.tables.typeDef[row.parent - 1]? = some def' →
      a.resolveType cfg ⟨2 * 2 ^ 24 + row.parent⟩ = .ok (some t) → w'.types[t]? = some r → OwnFrom w' t r.base s →
      FieldsSize w' t r.fields k → s + k < 2 ^ 64 →
      (∃ e, InSequence w' pack s r.fields e) ∧ ∀ (j : Nat) f, r.fields[j]? = some f → DefinesField cfg m t (def'.fieldList + j) f

/-- **C109, explicit types**: a field with an offset is at that offset. -/
def OffsetsKept (cfg : Cfg) : Prop :=
  ∀ (w w' : World) (fs : Name → Option Bytes) (depth fuel : Nat) (data : Bytes) (m : Metadata) (a : AssemblyRec), Reached cfg w →
    readMetadata cfg data = .ok m → loadData cfg fs depth fuel data w = (.ok a, w') →
    ∀ row ∈ m.tables.fieldLayout, ∀ f, a.resolveField cfg ⟨4 * 2 ^ 24 + row.field⟩ = .ok (some f) → f.offset = row.offset

/-- **C109, sizes**: instances of a type with a size have at least that size. -/
def SizesKept (cfg : Cfg) : Prop :=
  ∀ (w w' : World) (fs : Name → Option Bytes) (depth fuel : Nat) (data : Bytes) (m : Metadata) (a : AssemblyRec), Reached cfg w →
    readMetadata cfg data = .ok m → loadData cfg fs depth fuel data w = (.ok a, w') →
    ∀ row ∈ m.tables.classLayout, ∀ n, row.classSize = some n →
    ∀ t size tf, a.resolveType cfg ⟨2 * 2 ^ 24 + row.parent⟩ = .ok (some t) → typeSize cfg w' tf t = .ok size → n ≤ size

/-- **C109 in full.** -/
def C109_full (cfg : Cfg) : Prop := SequenceKept cfg (fun _ => True) ∧ OffsetsKept cfg ∧ SizesKept cfg

theorem roundUp_one (o a : Nat) (h : 1 ≤ a) : roundUp o (min a 1) = o := by
  rw [show min a 1 = 1 by omega]
  unfold roundUp
  simp

theorem alignment_exists (w : World) (t : Nat) : ∃ a, Alignment w t a := by
  cases hp : w.types[t]? with
  | none => exact ⟨1, Nat.le_refl _, fun p n h => by rw [h] at hp; cases hp⟩
  | some p =>
    cases hn : primitiveWidth p.fullName with
    | none => exact ⟨1, Nat.le_refl _, fun p' n h h' => by rw [hp] at h; cases h; rw [hn] at h'; cases h'⟩
    | some n =>
      refine ⟨n, ?_, fun p' n' h h' => by rw [hp] at h; cases h; rw [hn] at h'; cases h'; rfl⟩
      unfold primitiveWidth at hn
      obtain ⟨x, hx, rfl⟩ := Option.map_eq_some_iff.1 hn
      exact (by decide : ∀ x ∈ [("System.Boolean", 1), ("System.SByte", 1), ("System.Byte", 1),
        ("System.Char", 2), ("System.Int16", 2), ("System.UInt16", 2), ("System.Int32", 4), ("System.UInt32", 4), ("System.Single", 4),
        ("System.Int64", 8), ("System.UInt64", 8), ("System.Double", 8)], 1 ≤ x.2) x (List.mem_of_find?_eq_some hx)

theorem Laid.sequence {w : World} : ∀ {fs : List FieldRec} {s : Nat}, Laid w s fs → ∃ e, InSequence w 1 s fs e := by
  intro fs
  induction fs with
  | nil => exact fun _ => ⟨_, .nil⟩
  | cons f fs ih =>
    intro s h
    obtain ⟨h1, n, h2, h3⟩ := h
    obtain ⟨e, he⟩ := ih h3
    obtain ⟨a, ha⟩ := alignment_exists w f.fieldType
    exact ⟨e, .cons h2 ha (by rw [roundUp_one _ _ ha.1, h1]) (by rw [h1]; exact he)⟩

/-- **C109 (partial).** Types with packing size 1 are laid out as declared.

Missing: other packing sizes, explicit offsets and declared sizes, which have no effect (below). What C38 leaves out is left out here
as well. -/
theorem C109_packed_partial (cfg : Cfg) : SequenceKept cfg (· = 1) := by
  rintro w w' fs depth fuel data m a hr hm h hp row hrow pack hpack rfl hk1 hk def' t r s k hdef ht hrt hs hf hlt
  have hr' : Reached cfg w' := by
    have := Reached.loadFile fs depth fuel data hr
    rw [h] at this
    exact this
  refine ⟨(hr'.settled t r s k hrt (by cases hb : r.base <;> rw [hb] at hs <;> exact hs) hf hlt).sequence, fun j f hj => ?_⟩
  obtain ⟨name, w1, hsf, -, -⟩ := loadData_selfIs hr.inv hm h
  obtain ⟨fss, -, -, h3⟩ := hsf.fields
  have hd : a.resolveType cfg ⟨2 * 2 ^ 24 + row.parent⟩ = .ok a.types[row.parent - 1]? := by
    unfold AssemblyRec.resolveType
    rw [token_table 2 _ hk (by omega), token_index 2 _ hk, usub_ok hk1]
    rfl
  rw [hd] at ht
  obtain ⟨tr, gs, g1, g2, g3, s', n, g4, g5, g6⟩ := h3 _ t (Res.ok.inj ht)
  rw [hrt] at g1
  cases g1
  rw [ownedRun_partition hp hdef] at g4
  cases g4
  refine (g6 j f (by rw [← g3]; exact hj)).defines ?_
  have h1 : 1 ≤ def'.fieldList := by
    obtain ⟨-, p1, p2, -⟩ := hp
    have hl := (List.getElem?_eq_some_iff.1 hdef).1
    have h0 := p1 _ (List.getElem?_eq_getElem (l := m.tables.typeDef.map (·.fieldList)) (i := 0) (by simp; omega))
    rcases Nat.eq_zero_or_pos (row.parent - 1) with e | e
    · rw [e] at hdef
      have := p1 def'.fieldList (by rw [List.getElem?_map, hdef]; rfl)
      omega
    · have := List.pairwise_iff_getElem.1 p2 0 (row.parent - 1) (by simp; omega) (by simpa using hl) e
      rw [h0] at this
      rw [(List.getElem?_eq_some_iff.1 hdef).2.symm]
      simpa using this
  omega

/-! ## Cases -/

namespace Ex

def declaredStrings : List String := ["lib", "System", "Object", "P", "Q", "E", "U", "x", "y"]

/-- `P { byte x; int y; }` with packing size 1, `Q { byte x; int y; }` with packing size 4, `E { int x; int y; }` with both fields at
byte 0, and `U { int x; }` of 16 bytes. -/
def declaredAsm : Asm where
  strings := declaredStrings
  blobs := [[0x06, 0x05], [0x06, 0x08]]
  tables :=
    [(0x01, [typeRefRow declaredStrings "System" "Object"]),
     (0x02, [typeRow declaredStrings 0x08 "" "P" (refRow 1) 1 1, typeRow declaredStrings 0x08 "" "Q" (refRow 1) 3 1,
             typeRow declaredStrings 0x10 "" "E" (refRow 1) 5 1, typeRow declaredStrings 0x08 "" "U" (refRow 1) 7 1]),
     (0x04, [fieldRow declaredStrings 0 "x" 1, fieldRow declaredStrings 0 "y" 4, fieldRow declaredStrings 0 "x" 1,
             fieldRow declaredStrings 0 "y" 4, fieldRow declaredStrings 0 "x" 4, fieldRow declaredStrings 0 "y" 4,
             fieldRow declaredStrings 0 "x" 4]),
     (0x0f, [[(2, 1), (4, 0), (2, 1)], [(2, 4), (4, 0), (2, 2)], [(2, 0), (4, 16), (2, 4)]]),
     (0x10, [[(4, 0), (2, 5)], [(4, 0), (2, 6)]]),
     (0x20, [assemblyRow declaredStrings "lib"])]

def declaredRows (m : Metadata) : Bool :=
  decide (m.tables.classLayout = [⟨some 1, none, 1⟩, ⟨some 4, none, 2⟩, ⟨none, some 16, 4⟩] ∧
    m.tables.fieldLayout = [⟨0, 5⟩, ⟨0, 6⟩] ∧ m.tables.typeDef.map (·.fieldList) = [1, 3, 5, 7] ∧ m.tables.field.length = 7)

def declaredWorld : World := (loadData Cfg.debug noFiles 1 100 declaredAsm.file coreWorld).2

theorem declared_facts : holds declaredRows (readMetadata Cfg.debug declaredAsm.file) = true ∧
    holds (fun a => decide (a.types = [19, 20, 21, 22] ∧
      a.fields.map (·.offset) = [0, 1, 0, 1, 0, 4, 0])) (loadData Cfg.debug noFiles 1 100 declaredAsm.file coreWorld).1 = true ∧
    [1, 2, 7, 10, 19, 20].map (shapeAt declaredWorld) =
      [some ([], none, none, false), some ([], some 1, none, true), some ([], some 2, some 1, false),
       some ([], some 2, some 4, false),
       some ([fieldOf 'x' 7 19 false 0, fieldOf 'y' 10 19 false 1], some 1, none, false),
       some ([fieldOf 'x' 7 20 false 0, fieldOf 'y' 10 20 false 1], some 1, none, false)] ∧
    typeSize Cfg.debug declaredWorld 24 22 = .ok 4 := by
  decide +kernel

theorem declared_metadata : ∃ m, readMetadata Cfg.debug declaredAsm.file = .ok m ∧
    m.tables.classLayout = [⟨some 1, none, 1⟩, ⟨some 4, none, 2⟩, ⟨none, some 16, 4⟩] ∧ m.tables.fieldLayout = [⟨0, 5⟩, ⟨0, 6⟩] ∧
    m.tables.typeDef.map (·.fieldList) = [1, 3, 5, 7] ∧ m.tables.field.length = 7 := by
  obtain ⟨m, h1, h2⟩ := holds_iff declared_facts.1
  exact ⟨m, h1, of_decide_eq_true h2⟩

theorem declared_loads : ∃ a, loadData Cfg.debug noFiles 1 100 declaredAsm.file coreWorld = (.ok a, declaredWorld) ∧
    a.types = [19, 20, 21, 22] ∧ a.fields.map (·.offset) = [0, 1, 0, 1, 0, 4, 0] := by
  obtain ⟨a, h1, h2⟩ := holds_iff declared_facts.2.1
  obtain ⟨h3, h4⟩ := of_decide_eq_true h2
  exact ⟨a, by rw [declaredWorld, ← h1], h3, h4⟩

theorem declared_at {t : Nat} {x : Option (List FieldRec × Option Nat × Option Nat × Bool)}
    (i : Nat) (h : [1, 2, 7, 10, 19, 20][i]? = some t)
    (hx : [some ([], none, none, false), some ([], some 1, none, true), some ([], some 2, some 1, false),
       some ([], some 2, some 4, false),
       some ([fieldOf 'x' 7 19 false 0, fieldOf 'y' 10 19 false 1], some 1, none, false),
       some ([fieldOf 'x' 7 20 false 0, fieldOf 'y' 10 20 false 1], some 1, none, false)][i]? = some x) : shapeAt declaredWorld t = x := by
  have := congrArg (·[i]?) declared_facts.2.2.1
  simp only [hx, List.getElem?_map, h, Option.map_some, Option.some.injEq] at this
  exact this

theorem declared_value : ValueLike declaredWorld 2 := valueLike_valueType (fs := []) (b := some 1) (p := none) (declared_at 1 rfl rfl)

/-- The fields of `P` and `Q` take five bytes. -/
theorem declared_fields {t o : Nat} (ht : 10 < t) : FieldsSize declaredWorld t [fieldOf 'x' 7 t false 0, fieldOf 'y' 10 t false o] 5 := by
  have h7 : shapeAt declaredWorld 7 = some ([], some 2, some 1, false) := declared_at 2 rfl rfl
  have h10 : shapeAt declaredWorld 10 = some ([], some 2, some 4, false) := declared_at 3 rfl rfl
  exact fieldsSize_cons.2 ⟨1, 4, rfl, by show 7 < t; omega, valueLike_base h7 (by show 2 < 7; decide) declared_value, valueWidth_primitive h7,
    fieldsSize_cons.2 ⟨4, 0, rfl, by show 10 < t; omega, valueLike_base h10 (by show 2 < 10; decide) declared_value, valueWidth_primitive h10, .nil, rfl⟩, rfl⟩

theorem declared_start {t : Nat} (ht : 1 < t) : OwnFrom declaredWorld t (some 1) 0 :=
  ⟨ht, classSize_root (fs := []) (v := false) (declared_at 0 rfl rfl) .nil⟩

theorem resolveType_of {a : AssemblyRec} {k t : Nat} (h1 : 1 ≤ k) (hk : k < 2 ^ 24) (h : a.types[k - 1]? = some t) :
    a.resolveType Cfg.debug ⟨2 * 2 ^ 24 + k⟩ = .ok (some t) := by
  unfold AssemblyRec.resolveType
  rw [token_table 2 _ hk (by omega), token_index 2 _ hk, usub_ok h1, ← h]
  rfl

theorem typeDef_of {m : Metadata} (h : m.tables.typeDef.map (·.fieldList) = [1, 3, 5, 7]) {i n : Nat} (hi : [1, 3, 5, 7][i]? = some n) :
    ∃ d, m.tables.typeDef[i]? = some d ∧ d.fieldList = n := by
  rw [← h, List.getElem?_map] at hi
  exact Option.map_eq_some_iff.1 hi

end Ex

/-- The hypotheses of `C109_packed_partial` can be met: `P` is laid out as declared, with `y` at byte 1. -/
example : ∃ r e, Ex.declaredWorld.types[19]? = some r ∧ InSequence Ex.declaredWorld 1 0 r.fields e ∧ r.fields.map (·.offset) = [0, 1] := by
  obtain ⟨m, hm, h1, -, h3, h4⟩ := Ex.declared_metadata
  obtain ⟨a, ha, h5, -⟩ := Ex.declared_loads
  obtain ⟨d, hd, -⟩ := Ex.typeDef_of h3 (i := 0) rfl
  obtain ⟨r, g1, g2, g3, -⟩ := Ex.shapeAt_some (Ex.declared_at 4 (t := 19) rfl rfl)
  obtain ⟨⟨e, he⟩, -⟩ := C109_packed_partial .debug _ _ _ _ _ _ m a Ex.coreReached hm ha (by rw [h3, h4]; decide) ⟨some 1, none, 1⟩
    (by rw [h1]; decide) 1 rfl rfl (by decide) (by decide) d 19 r 0 5 hd (Ex.resolveType_of (by decide) (by decide) (by rw [h5]; rfl)) g1
    (by rw [g3]; exact Ex.declared_start (by decide)) (by rw [g2]; exact Ex.declared_fields (by decide)) (by decide)
  exact ⟨r, e, g1, he, by rw [g2]; rfl⟩

/-- **C109 fails for packing size 4**: `y` of `Q` is at byte 1 instead of byte 4. -/
theorem C109_refuted_packing : ¬ SequenceKept .debug (· = 4) := by
  intro h
  obtain ⟨m, hm, h1, -, h3, h4⟩ := Ex.declared_metadata
  obtain ⟨a, ha, h5, -⟩ := Ex.declared_loads
  obtain ⟨d, hd, -⟩ := Ex.typeDef_of h3 (i := 1) rfl
  obtain ⟨r, g1, g2, g3, -⟩ := Ex.shapeAt_some (Ex.declared_at 5 (t := 20) rfl rfl)
  obtain ⟨⟨e, he⟩, -⟩ := h _ _ _ _ _ _ m a Ex.coreReached hm ha (by rw [h3, h4]; decide) ⟨some 4, none, 2⟩
    (by rw [h1]; decide) 4 rfl rfl (by decide) (by decide) d 20 r 0 5 hd (Ex.resolveType_of (by decide) (by decide) (by rw [h5]; rfl)) g1
    (by rw [g3]; exact Ex.declared_start (by decide)) (by rw [g2]; exact Ex.declared_fields (by decide)) (by decide)
  rw [g2] at he
  obtain ⟨p, q1, -, -, q2, -⟩ := Ex.shapeAt_some (Ex.declared_at 3 (t := 10) rfl rfl)
  cases he with
  | cons _ _ _ he =>
    cases he with
    | @cons _ n b _ _ _ _ hb ho _ =>
      obtain rfl := hb.2 p 4 q1 q2
      have hlt : ∀ x, (1 : Nat) ≠ roundUp x (min 4 4) := fun x => by
        rw [show min 4 4 = 4 from rfl]; unfold roundUp; omega
      exact hlt _ ho

/-- **C109 fails for explicit types**: `y` of `E` is at byte 4 instead of byte 0. -/
theorem C109_refuted_offsets : ¬ OffsetsKept .debug := by
  intro h
  obtain ⟨m, hm, -, h2, -, -⟩ := Ex.declared_metadata
  obtain ⟨a, ha, -, h5⟩ := Ex.declared_loads
  have hf : (a.fields.map (·.offset))[5]? = some 4 := by rw [h5]; rfl
  rw [List.getElem?_map] at hf
  obtain ⟨f, h6, h7⟩ := Option.map_eq_some_iff.1 hf
  have := h _ _ _ _ _ _ m a Ex.coreReached hm ha ⟨0, 6⟩ (by rw [h2]; decide) f (by
    rw [resolveField_def a (by decide), usub_ok (by decide)]
    simp only [Res.ok_bind]
    exact congrArg Res.ok h6)
  rw [h7] at this
  cases this

/-- **C109 fails for sizes**: an instance of `U` has 4 bytes instead of 16. -/
theorem C109_refuted_sizes : ¬ SizesKept .debug := by
  intro h
  obtain ⟨m, hm, h1, -, -, -⟩ := Ex.declared_metadata
  obtain ⟨a, ha, h5, -⟩ := Ex.declared_loads
  have := h _ _ _ _ _ _ m a Ex.coreReached hm ha ⟨none, some 16, 4⟩ (by rw [h1]; decide) 16 rfl 22 4 24
    (Ex.resolveType_of (by decide) (by decide) (by rw [h5]; rfl)) Ex.declared_facts.2.2.2
  exact absurd this (by decide)

theorem C109_full_refuted : ¬ C109_full .debug := fun h => C109_refuted_offsets h.2.1

end Clr
