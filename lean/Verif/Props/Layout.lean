import Verif.Lemmas.Layout
import Verif.Lemmas.Asm
import Verif.Props.Registry
/-!
# C38: instance fields do not overlap and lie inside the object
-/

namespace Clr
open Spec

/-- **C38, the full claim** for one class: its instance fields, inherited ones included, occupy separate byte ranges within
the size of the object. -/
def FieldsInside (cfg : Cfg) (w : World) (t : Nat) : Prop :=
  ∀ fuel fs s, allFields w fuel t = .ok fs → typeSize cfg w fuel t = .ok s → WellLaid w fs s

/-- **C38 (partial).** Whatever was loaded, successfully or not: every class whose fields, inherited ones included, are
instance fields of primitive or struct types, and which mentions only types registered before it, has separate fields within
its size. The size is the sum of the field sizes.

Missing: classes with a static field, with a field of reference type, or with a base registered later, where the claim fails
(below). Instances of 2^64 bytes and more are excluded. -/
theorem C38_partial {cfg : Cfg} {w : World} {t s : Nat} (hw : Reached cfg w) (hc : ClassSize w t s) (hs : s < 2 ^ 64) :
    FieldsInside cfg w t ∧ (∀ fuel r, typeSize cfg w fuel t = .ok r → r = s) ∧
    ∀ fuel, t < fuel → ∃ fs, allFields w fuel t = .ok fs := by
  refine ⟨fun fuel fs r ha hr => ?_, fun fuel r hr => typeSize_ok hw.inv (.inr hc) hs hr, fun fuel hf => allFields_exists hc hf⟩
  obtain rfl := typeSize_ok hw.inv (.inr hc) hs hr
  obtain ⟨h1, h2, h3⟩ := allFields_laid hw.settled hc hs ha
  refine ⟨h1.filter _, fun f hf _ a hw => ?_⟩
  obtain ⟨b, g1, g2⟩ := h3 f hf
  rcases hw with ⟨_, hw⟩ | ⟨hw, _⟩
  · obtain rfl := g1.unique hw
    exact g2
  · exact absurd (h2 f hf).2 hw

/-! ## Concrete classes -/

namespace Ex

def layoutStrings : List String := ["lib", "System", "Object", "ValueType", "S", "A", "B", "C", "D", "x", "y", "z"]

/-- `struct S { short x; byte y; }`, `class A { int x; S y; }`, `class B : A { long z; }`,
`class C { static int x; int y; }`, `class D { object x; int y; }`. -/
def layoutAsm : Asm where
  strings := layoutStrings
  blobs := [[0x06, 0x06], [0x06, 0x05], [0x06, 0x08], [0x06, 0x11, 0x04], [0x06, 0x0a], [0x06, 0x1c]]
  tables :=
    [(0x01, [typeRefRow layoutStrings "System" "Object", typeRefRow layoutStrings "System" "ValueType"]),
     (0x02, [typeRow layoutStrings 0 "" "S" (refRow 2) 1 1, typeRow layoutStrings 0 "" "A" (refRow 1) 3 1,
             typeRow layoutStrings 0 "" "B" (defRow 2) 5 1, typeRow layoutStrings 0 "" "C" (refRow 1) 6 1,
             typeRow layoutStrings 0 "" "D" (refRow 1) 8 1]),
     (0x04, [fieldRow layoutStrings 0 "x" 1, fieldRow layoutStrings 0 "y" 4, fieldRow layoutStrings 0 "x" 7,
             fieldRow layoutStrings 0 "y" 10, fieldRow layoutStrings 0 "z" 14, fieldRow layoutStrings 0x10 "x" 7,
             fieldRow layoutStrings 0 "y" 7, fieldRow layoutStrings 0 "x" 17, fieldRow layoutStrings 0 "y" 7]),
     (0x20, [assemblyRow layoutStrings "lib"])]

def layoutWorld : World := (loadData Cfg.debug noFiles 1 100 layoutAsm.file coreWorld).2
theorem layoutReached : Reached Cfg.debug layoutWorld := .loadFile _ _ _ _ coreReached

def shapeAt (w : World) (t : Nat) : Option (List FieldRec × Option Nat × Option Nat × Bool) :=
  w.types[t]?.map fun r => (r.fields, r.base, primitiveWidth r.fullName, decide (r.fullName = "System.ValueType".toList))

theorem shapeAt_some {w : World} {t : Nat} {fs : List FieldRec} {b p : Option Nat} {v : Bool}
    (h : shapeAt w t = some (fs, b, p, v)) : ∃ r, w.types[t]? = some r ∧ r.fields = fs ∧ r.base = b ∧
      primitiveWidth r.fullName = p ∧ (r.fullName = "System.ValueType".toList ↔ v = true) := by
  obtain ⟨r, h1, h2⟩ := Option.map_eq_some_iff.1 h
  simp only [Prod.mk.injEq] at h2
  obtain ⟨e1, e2, e3, rfl⟩ := h2
  exact ⟨r, h1, e1, e2, e3, decide_eq_true_iff.symm⟩

theorem classSize_root {w : World} {t k : Nat} {fs : List FieldRec} {v : Bool} (h : shapeAt w t = some (fs, none, none, v))
    (hf : FieldsSize w t fs k) : ClassSize w t k := by
  obtain ⟨r, h1, rfl, h3, h4, -⟩ := shapeAt_some h
  exact .root h1 h4 h3 hf

theorem classSize_derived {w : World} {t b s k : Nat} {fs : List FieldRec} {v : Bool}
    (h : shapeAt w t = some (fs, some b, none, v)) (hb : b < t) (hc : ClassSize w b s) (hf : FieldsSize w t fs k) :
    ClassSize w t (s + k) := by
  obtain ⟨r, h1, rfl, h3, h4, -⟩ := shapeAt_some h
  exact .derived h1 h4 h3 hb hc hf

theorem valueLike_base {w : World} {t b : Nat} {fs : List FieldRec} {p : Option Nat} {v : Bool}
    (h : shapeAt w t = some (fs, some b, p, v)) (hb : b < t) (hv : ValueLike w b) : ValueLike w t := by
  obtain ⟨r, h1, -, h3, -⟩ := shapeAt_some h
  exact .base h1 h3 hb hv

theorem valueWidth_primitive {w : World} {t n : Nat} {fs : List FieldRec} {b : Option Nat} {v : Bool}
    (h : shapeAt w t = some (fs, b, some n, v)) : ValueWidth w t n := by
  obtain ⟨r, h1, -, -, h4, -⟩ := shapeAt_some h
  exact .inl ⟨r, h1, h4⟩

theorem valueLike_valueType {w : World} {t : Nat} {fs : List FieldRec} {b p : Option Nat}
    (h : shapeAt w t = some (fs, b, p, true)) : ValueLike w t := by
  obtain ⟨r, h1, -, -, -, h5⟩ := shapeAt_some h
  exact .here h1 (h5.2 rfl)

theorem not_valueLike {w : World} {t : Nat} {fs : List FieldRec} {p : Option Nat} (h : shapeAt w t = some (fs, none, p, false)) :
    ¬ ValueLike w t := by
  obtain ⟨r, h1, -, h3, -, h5⟩ := shapeAt_some h
  rintro (⟨g1, g2⟩ | ⟨g1, g2, _⟩)
  · rw [h1] at g1; cases g1; exact absurd (h5.1 g2) (by simp)
  · rw [h1] at g1; cases g1; rw [h3] at g2; cases g2

def fieldOf (n : Char) (ty declaring : Nat) (isStatic : Bool) (offset : Nat) : FieldRec := ⟨[n], ty, declaring, isStatic, offset⟩

/-- Types of the loaded registry. -/
theorem layout_types : [1, 2, 7, 8, 10, 12, 19, 20, 21].map (shapeAt layoutWorld) =
      [some ([], none, none, false), some ([], some 1, none, true), some ([], some 2, some 1, false),
       some ([], some 2, some 2, false), some ([], some 2, some 4, false), some ([], some 2, some 8, false),
       some ([fieldOf 'x' 8 19 false 0, fieldOf 'y' 7 19 false 2], some 2, none, false),
       some ([fieldOf 'x' 10 20 false 0, fieldOf 'y' 19 20 false 4], some 1, none, false),
       some ([fieldOf 'z' 12 21 false 7], some 20, none, false)] ∧
    ([21, 22, 23].map fun t => (allFields layoutWorld 24 t, typeSize Cfg.debug layoutWorld 24 t)) =
      [(.ok [fieldOf 'z' 12 21 false 7, fieldOf 'x' 10 20 false 0, fieldOf 'y' 19 20 false 4], .ok 15),
       (.ok [fieldOf 'x' 10 22 true 0, fieldOf 'y' 10 22 false 4], .ok 4),
       (.ok [fieldOf 'x' 1 23 false 0, fieldOf 'y' 10 23 false 0], .ok 12)] := by
  decide +kernel

theorem layout_at {t : Nat} {x : Option (List FieldRec × Option Nat × Option Nat × Bool)}
    (i : Nat) (h : [1, 2, 7, 8, 10, 12, 19, 20, 21][i]? = some t)
    (hx : [some ([], none, none, false), some ([], some 1, none, true), some ([], some 2, some 1, false),
       some ([], some 2, some 2, false), some ([], some 2, some 4, false), some ([], some 2, some 8, false),
       some ([fieldOf 'x' 8 19 false 0, fieldOf 'y' 7 19 false 2], some 2, none, false),
       some ([fieldOf 'x' 10 20 false 0, fieldOf 'y' 19 20 false 4], some 1, none, false),
       some ([fieldOf 'z' 12 21 false 7], some 20, none, false)][i]? = some x) : shapeAt layoutWorld t = x := by
  have := congrArg (·[i]?) layout_types.1
  simp only [hx, List.getElem?_map, h, Option.map_some, Option.some.injEq] at this
  exact this

theorem layout_size {t : Nat} {x : Res (List FieldRec)} {y : Res Nat} (i : Nat) (h : [21, 22, 23][i]? = some t)
    (hx : [(.ok [fieldOf 'z' 12 21 false 7, fieldOf 'x' 10 20 false 0, fieldOf 'y' 19 20 false 4], .ok 15),
       (.ok [fieldOf 'x' 10 22 true 0, fieldOf 'y' 10 22 false 4], .ok 4),
       (.ok [fieldOf 'x' 1 23 false 0, fieldOf 'y' 10 23 false 0], .ok 12)][i]? = some (x, y)) :
    allFields layoutWorld 24 t = x ∧ typeSize Cfg.debug layoutWorld 24 t = y := by
  have := congrArg (·[i]?) layout_types.2
  simp only [hx, List.getElem?_map, h, Option.map_some, Option.some.injEq, Prod.mk.injEq] at this
  exact this

/-- `System.ValueType` in this registry. -/
theorem layout_value : ValueLike layoutWorld 2 := valueLike_valueType (fs := []) (b := some 1) (p := none) (layout_at 1 rfl rfl)

theorem layout_primitive {t n : Nat} (h : shapeAt layoutWorld t = some ([], some 2, some n, false)) (ht : 2 < t) :
    ValueLike layoutWorld t ∧ ValueWidth layoutWorld t n :=
  ⟨valueLike_base h ht layout_value, valueWidth_primitive h⟩

theorem layout_object : ClassSize layoutWorld 1 0 := classSize_root (fs := []) (v := false) (layout_at 0 rfl rfl) .nil

theorem layout_struct : ClassSize layoutWorld 19 3 := by
  refine classSize_derived (b := 2) (s := 0) (k := 3) (v := false)
    (fs := [fieldOf 'x' 8 19 false 0, fieldOf 'y' 7 19 false 2]) (layout_at 6 rfl rfl) (by decide)
    (classSize_derived (b := 1) (s := 0) (k := 0) (fs := []) (v := true) (layout_at 1 rfl rfl) (by decide) layout_object .nil) ?_
  have h8 := layout_primitive (t := 8) (n := 2) (layout_at 3 rfl rfl) (by decide)
  have h7 := layout_primitive (t := 7) (n := 1) (layout_at 2 rfl rfl) (by decide)
  exact fieldsSize_cons.2 ⟨2, 1, rfl, by decide, h8.1, h8.2, fieldsSize_cons.2 ⟨1, 0, rfl, by decide, h7.1, h7.2, .nil, rfl⟩, rfl⟩

/-- `B` holds an `int`, a three-byte struct and a `long`. -/
theorem layout_derived : ClassSize layoutWorld 21 15 := by
  have h10 := layout_primitive (t := 10) (n := 4) (Ex.layout_at 4 rfl rfl) (by decide)
  have h12 := layout_primitive (t := 12) (n := 8) (layout_at 5 rfl rfl) (by decide)
  refine classSize_derived (b := 20) (s := 7) (k := 8) (v := false) (fs := [fieldOf 'z' 12 21 false 7]) (layout_at 8 rfl rfl)
    (by decide) (classSize_derived (b := 1) (s := 0) (k := 7) (v := false)
      (fs := [fieldOf 'x' 10 20 false 0, fieldOf 'y' 19 20 false 4]) (layout_at 7 rfl rfl) (by decide) layout_object ?_)
    (fieldsSize_cons.2 ⟨8, 0, rfl, by decide, h12.1, h12.2, .nil, rfl⟩)
  exact fieldsSize_cons.2 ⟨4, 3, rfl, by decide, h10.1, h10.2, fieldsSize_cons.2 ⟨3, 0, rfl, by decide,
    valueLike_base (fs := [fieldOf 'x' 8 19 false 0, fieldOf 'y' 7 19 false 2]) (p := none) (v := false) (layout_at 6 rfl rfl)
      (by decide) layout_value, .inr layout_struct, .nil, rfl⟩, rfl⟩

/-- `class B : A { int x; }` declared before `class A { int y; }`. -/
def backwardsAsm : Asm where
  strings := layoutStrings
  blobs := [[0x06, 0x08]]
  tables :=
    [(0x01, [typeRefRow layoutStrings "System" "Object"]),
     (0x02, [typeRow layoutStrings 0 "" "B" (defRow 2) 1 1, typeRow layoutStrings 0 "" "A" (refRow 1) 2 1]),
     (0x04, [fieldRow layoutStrings 0 "x" 1, fieldRow layoutStrings 0 "y" 1]),
     (0x20, [assemblyRow layoutStrings "lib"])]

def backwardsWorld : World := (loadData Cfg.debug noFiles 1 100 backwardsAsm.file coreWorld).2
theorem backwardsReached : Reached Cfg.debug backwardsWorld := .loadFile _ _ _ _ coreReached

theorem backwards_types : shapeAt backwardsWorld 2 = some ([], some 1, none, true) ∧
    shapeAt backwardsWorld 10 = some ([], some 2, some 4, false) ∧
    allFields backwardsWorld 24 19 = .ok [fieldOf 'x' 10 19 false 0, fieldOf 'y' 10 20 false 0] ∧
    typeSize Cfg.debug backwardsWorld 24 19 = .ok 8 := by
  decide +kernel

end Ex

/-- `B : A` with a struct field meets the hypotheses; its fields are at 7, 0 and 4, and it takes 15 bytes. -/
example : ClassSize Ex.layoutWorld 21 15 ∧ FieldsInside Cfg.debug Ex.layoutWorld 21 ∧
    allFields Ex.layoutWorld 24 21 =
      .ok [Ex.fieldOf 'z' 12 21 false 7, Ex.fieldOf 'x' 10 20 false 0, Ex.fieldOf 'y' 19 20 false 4] ∧
    typeSize Cfg.debug Ex.layoutWorld 24 21 = .ok 15 :=
  ⟨Ex.layout_derived, (C38_partial Ex.layoutReached Ex.layout_derived (by decide)).1,
    (Ex.layout_size 0 rfl rfl).1, (Ex.layout_size 0 rfl rfl).2⟩

/-- **C38: refuted for classes with static fields.** `class C { static int x; int y; }` places `y` at byte 4 of a 4-byte
object. -/
theorem C38_refuted_static : ∃ w t, Reached Cfg.debug w ∧ ¬ FieldsInside Cfg.debug w t := by
  refine ⟨Ex.layoutWorld, 22, Ex.layoutReached, fun h => ?_⟩
  have h10 := Ex.layout_primitive (t := 10) (n := 4) (Ex.layout_at 4 rfl rfl) (by decide)
  have := (h 24 [Ex.fieldOf 'x' 10 22 true 0, Ex.fieldOf 'y' 10 22 false 4] 4
    ((Ex.layout_size 1 rfl rfl).1) ((Ex.layout_size 1 rfl rfl).2)).2
    (Ex.fieldOf 'y' 10 22 false 4) (by decide) rfl 4 (.inl h10)
  exact absurd this (by decide)

/-- **C38: refuted for classes with references.** `class D { object x; int y; }` places both fields at byte 0. -/
theorem C38_refuted_reference : ∃ w t, Reached Cfg.debug w ∧ ¬ FieldsInside Cfg.debug w t := by
  refine ⟨Ex.layoutWorld, 23, Ex.layoutReached, fun h => ?_⟩
  have h10 := Ex.layout_primitive (t := 10) (n := 4) (Ex.layout_at 4 rfl rfl) (by decide)
  have := (h 24 [Ex.fieldOf 'x' 1 23 false 0, Ex.fieldOf 'y' 10 23 false 0] 12
    ((Ex.layout_size 2 rfl rfl).1) ((Ex.layout_size 2 rfl rfl).2)).1
  have := (List.pairwise_cons.1 this).1 (Ex.fieldOf 'y' 10 23 false 0) (by decide) 8 4
    (.inr ⟨Ex.not_valueLike (fs := []) (p := none) (Ex.layout_at 0 rfl rfl), rfl⟩) (.inl h10)
  exact absurd this (by decide)

/-- **C38: refuted for classes declared before their base.** The base still has no fields when its size is taken, so own and
inherited fields share byte 0. -/
theorem C38_refuted_order : ∃ w t, Reached Cfg.debug w ∧ ¬ FieldsInside Cfg.debug w t := by
  refine ⟨Ex.backwardsWorld, 19, Ex.backwardsReached, fun h => ?_⟩
  obtain ⟨h1, h2, h3, h4⟩ := Ex.backwards_types
  have hv : ValueLike Ex.backwardsWorld 10 := Ex.valueLike_base h2 (by decide) (Ex.valueLike_valueType h1)
  have := (h 24 _ 8 h3 h4).1
  have := (List.pairwise_cons.1 this).1 (Ex.fieldOf 'y' 10 20 false 0) (by decide) 4 4 (.inl ⟨hv, Ex.valueWidth_primitive h2⟩)
    (.inl ⟨hv, Ex.valueWidth_primitive h2⟩)
  exact absurd this (by decide)

end Clr
