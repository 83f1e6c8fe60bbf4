import Verif.Lemmas.Contains
import Verif.Lemmas.LoadFuel
import Verif.Props.Acyclic
import Verif.Props.Layout
/-! # C93: no type is inside itself -/

namespace Clr
open Spec

theorem survived_solid {cfg : Cfg} {w : World} (h : Survived cfg w) : Solid {} w := by
  induction h with
  | start => exact .refl _
  | runtime fs d f a b h hr ih => exact ih.trans (newRuntime_firm _ _ _ _ _ _ (Survived.reached h).inv hr)
  | loadFile fs d f data h hr ih => exact ih.trans (loadData_firm _ _ _ _ _ (Survived.reached h).inv hr)
  | loadName fs d f n h hr ih => exact ih.trans (loadAssembly_firm _ _ _ _ _ (Survived.reached h).inv hr)
  | @arrayOf w t h ih =>
    exact ih.trans ((arrayType_grow t _).basesKept.solid (Survived.reached h).inv fun u => (arrayType_grow (cfg := cfg) t w).fieldsOf u)
  | write s h ih =>
    refine ih.trans (BasesKept.solid (Survived.reached h).inv ?_ fun u => fieldsOf_types rfl u)
    exact .of_types rfl rfl

theorem not_inside {w : World} {t : Nat} (h : Acc (Part w) t) : ¬ Contained w t t := by
  have key : ∀ t, Acc (Part w) t → ∀ u, Contained w u t → ¬ Contained w t u ∧ ¬ Contained w t t := by
    intro t h
    induction h with
    | intro t _ ih =>
      have trans : ∀ a b c, Contained w a b → Contained w b c → Contained w a c := by
        intro a b c h1 h2
        induction h2 with
        | part h => exact .deep h h1
        | deep h _ ih => exact .deep h (ih h1)
      have self : ¬ Contained w t t := by
        intro h
        cases h with
        | part h => exact (ih t h t (.part h)).2 (.part h)
        | deep h g => exact (ih _ h t g).1 (.part h)
      exact fun u hu => ⟨fun hv => self (trans _ _ _ hv hu), self⟩
  exact fun hs => (key t h t hs).2 hs

/-- **C93, partial.** As long as every call returns, with a result or an error, no registered type is inside itself, if among
value types the base classes are registered first.

Missing: a type whose base class turns out to be a value type only later can end up inside itself (`C93_refuted`). -/
theorem C93_partial (cfg : Cfg) (w : World) (h : Survived cfg w) (ho : BasesFirst w) (t : Nat) (ht : t < w.types.length) :
    ¬ Contained w t t :=
  not_inside ((survived_solid h).ends ho (fun t ht => absurd ht (Nat.not_lt_zero t)) t ht)

theorem primitiveSize_answers (w : World) (full : Name) (l : List (Name × Nat)) : primitiveSize w full l ≠ .timeout := by
  induction l with
  | nil => simp [primitiveSize]
  | cons p l ih =>
    obtain ⟨n, s⟩ := p
    unfold primitiveSize
    cases w.getType n with
    | none => simp [Res.unwrap]
    | some t =>
      simp only [Res.unwrap, Res.ok_bind]
      cases hx : w.typeAt t with
      | ok tr =>
        simp only [Res.ok_bind]
        split
        · simp [pure]
        · exact ih
      | timeout => unfold World.typeAt Res.unwrap at hx; split at hx <;> cases hx
      | _ => simp

theorem primitiveSize_none {w : World} (hi : Inv w) {full : Name} (l : List (Name × Nat))
    (h : primitiveSize w full l = .ok none) : full ∉ l.map (·.1) := by
  induction l with
  | nil => simp
  | cons p l ih =>
    obtain ⟨n, k⟩ := p
    unfold primitiveSize at h
    obtain ⟨t, h1, h⟩ := Res.bind_eq_ok.1 h
    obtain ⟨tr, h2, h⟩ := Res.bind_eq_ok.1 h
    split at h
    · cases h
    · next e =>
      obtain ⟨r, g1, g2, -⟩ := (hi.getType_iff n t).1 (unwrap_eq_ok.1 h1)
      rw [typeAt_eq_ok.1 h2] at g1; cases g1
      simp only [List.map_cons, List.mem_cons, not_or]
      exact ⟨fun he => e (he.trans g2.symm), ih h⟩

theorem uadd_answers {cfg : Cfg} (b x y : Nat) : uadd cfg b x y ≠ .timeout := by
  unfold uadd; split <;> (try split) <;> simp

theorem bind_answers {α β : Type} {x : Res α} {f : α → Res β} (hx : x ≠ .timeout) (hf : ∀ a, x = .ok a → f a ≠ .timeout) :
    (x >>= f) ≠ .timeout := by
  cases x with
  | ok a => exact hf a rfl
  | timeout => exact absurd rfl hx
  | _ => simp

theorem fieldsSize_answers {cfg : Cfg} {isRef : Nat → Res Bool} {size : Nat → Res Nat} (fs : List FieldRec)
    (h : ∀ f ∈ fs, isRef f.fieldType ≠ .timeout ∧ (isRef f.fieldType = .ok false → size f.fieldType ≠ .timeout)) :
    ∀ a, fieldsSize cfg isRef size fs a ≠ .timeout := by
  induction fs with
  | nil => intro a; simp [fieldsSize]
  | cons f fs ih =>
    intro a
    unfold fieldsSize
    obtain ⟨h1, h2⟩ := h f (by simp)
    refine bind_answers (bind_answers h1 fun b hb => ?_) fun s _ => bind_answers (uadd_answers _ _ _) fun _ _ =>
      ih (fun g hg => h g (by simp [hg])) _
    cases b with
    | true => simp [pure]
    | false => exact h2 hb

theorem ancestor_value {w : World} {t a : Nat} {r : TypeRec} (h : Ancestor w t a) (hr : w.types[a]? = some r)
    (hn : r.fullName = "System.ValueType".toList) : OfValueType w t := by
  induction h with
  | self t => exact .here hr hn
  | base h1 h2 _ ih => exact .base h1 h2 (ih hr)

theorem isReferenceType_answers {w : World} (hi : Inv w) (hni : NoInterface w) {t : Nat} (hc : ChainEnds w t) :
    ∃ n, ∀ fuel, n < fuel → isReferenceType w fuel t ≠ .timeout ∧ (isReferenceType w fuel t = .ok false → OfValueType w t) := by
  obtain ⟨n, hd⟩ := hc
  refine ⟨n, fun fuel hf => ?_⟩
  unfold isReferenceType
  cases hv : w.getType "System.ValueType".toList with
  | none => simp [Res.unwrap]
  | some v =>
    obtain ⟨vr, v1, v2, -⟩ := (hi.getType_iff _ v).1 hv
    obtain ⟨b, h1, h2⟩ := instanceOf_eq hi v1 hd fuel hf
    simp only [Res.unwrap, Res.ok_bind, h1]
    refine ⟨by simp [pure], fun hb => ?_⟩
    have hb' : b = true := by simpa [pure] using hb
    rcases h2.1 hb' with ⟨a, r, g1, g2, g3⟩ | ⟨a, r, j, i, g1, g2, g3, g4, g5⟩
    · exact ancestor_value g1 g2 (g3.trans v2)
    · exact absurd (g5.trans v2) (hni r (List.mem_of_getElem? g2) j g3 i g4)

theorem bound_all {α : Type} {P : α → Nat → Prop} (l : List α) (h : ∀ a ∈ l, ∃ n, ∀ k, n < k → P a k) :
    ∃ n, ∀ k, n < k → ∀ a ∈ l, P a k := by
  induction l with
  | nil => exact ⟨0, fun _ _ a ha => by cases ha⟩
  | cons x l ih =>
    obtain ⟨n1, h1⟩ := h x (by simp)
    obtain ⟨n2, h2⟩ := ih fun a ha => h a (by simp [ha])
    refine ⟨max n1 n2, fun k hk a ha => ?_⟩
    rcases List.mem_cons.1 ha with rfl | ha
    · exact h1 k (by omega)
    · exact h2 k (by omega) a ha

theorem typeSize_answers {cfg : Cfg} {w : World} (hi : Inv w) (hni : NoInterface w)
    (hc : ∀ t, t < w.types.length → ChainEnds w t) {t : Nat} (ha : Acc (Part w) t) (ht : t < w.types.length) :
    ∃ n, ∀ fuel, n < fuel → typeSize cfg w fuel t ≠ .timeout := by
  induction ha with
  | intro t _ ih =>
    have htr := List.getElem?_eq_getElem ht
    by_cases hnum : (w.types[t]'ht).fullName ∈ numberNames
    · refine ⟨0, fun fuel hf => ?_⟩
      obtain ⟨fuel, rfl⟩ : ∃ k, fuel = k + 1 := ⟨fuel - 1, by omega⟩
      unfold typeSize
      rw [typeAt_eq_ok.mpr htr, Res.ok_bind]
      refine bind_answers (primitiveSize_answers _ _ _) fun o ho => ?_
      cases o with
      | some s => simp [pure]
      | none => exact absurd (numberNames_eq ▸ hnum) (primitiveSize_none hi _ ho)
    · obtain ⟨n1, h1⟩ := bound_all (P := fun f k => isReferenceType w k f.fieldType ≠ .timeout ∧
          (isReferenceType w k f.fieldType = .ok false → typeSize cfg w k f.fieldType ≠ .timeout))
        ((w.types[t]'ht).fields.filter (!·.isStatic)) (fun f hf => by
          simp only [List.mem_filter, Bool.not_eq_true'] at hf
          have hl := (hi.fields t _ htr f hf.1).1
          obtain ⟨n, hn⟩ := isReferenceType_answers hi hni (hc _ hl)
          by_cases hv : OfValueType w f.fieldType
          · obtain ⟨k, hk⟩ := ih _ (.field htr hnum hf.1 hf.2 hv) hl
            exact ⟨max n k, fun j hj => ⟨(hn j (by omega)).1, fun _ => hk j (by omega)⟩⟩
          · exact ⟨n, fun j hj => ⟨(hn j hj).1, fun hb => absurd ((hn j hj).2 hb) hv⟩⟩)
      obtain ⟨n2, h2⟩ : ∃ n, ∀ k, n < k → ∀ b ∈ (w.types[t]'ht).base, typeSize cfg w k b ≠ .timeout := by
        cases hb : (w.types[t]'ht).base with
        | none => exact ⟨0, fun k _ b hb => by cases hb⟩
        | some b =>
          obtain ⟨n, hn⟩ := ih b (.base htr hnum hb) (hi.base t _ htr b hb)
          exact ⟨n, fun k hk c hc => by cases hc; exact hn k hk⟩
      refine ⟨max n1 n2 + 1, fun fuel hf => ?_⟩
      obtain ⟨fuel, rfl⟩ : ∃ k, fuel = k + 1 := ⟨fuel - 1, by omega⟩
      unfold typeSize
      rw [typeAt_eq_ok.mpr htr, Res.ok_bind]
      refine bind_answers (primitiveSize_answers _ _ _) fun o ho => ?_
      cases o with
      | some s => simp [pure]
      | none =>
        refine bind_answers (fieldsSize_answers _ (h1 fuel (by omega)) _) fun a _ => ?_
        cases hb : (w.types[t]'ht).base with
        | none => simp [pure]
        | some b => exact bind_answers (h2 fuel (by omega) b hb) fun _ _ => uadd_answers _ _ _

/-- **C93, sizes.** If, besides, the base chains of the built-in number types end and `System.ValueType` is not listed as an
interface, asking for the size of a registered type always ends, given enough stack, and always with the same answer. -/
theorem C93_answers (cfg : Cfg) (w : World) (h : Survived cfg w) (ho : BasesFirst w) (hni : NoInterface w)
    (hn : ∀ (t : Nat) r, w.types[t]? = some r → r.fullName ∈ numberNames → ChainEnds w t) (t : Nat) (ht : t < w.types.length) :
    ∃ n x, x ≠ .timeout ∧ ∀ fuel, n < fuel → typeSize cfg w fuel t = x := by
  obtain ⟨n, hs⟩ := typeSize_answers (cfg := cfg) (Survived.reached h).inv hni (C81_partial cfg w h hn)
    ((survived_solid h).ends ho (fun t ht => absurd ht (Nat.not_lt_zero t)) t ht) ht
  refine ⟨n, typeSize cfg w (n + 1) t, hs _ (by omega), fun fuel hf => ?_⟩
  exact Res.Refined.typeSize (by omega) t (hs _ (by omega))

/-! ## Concrete libraries -/

namespace Ex

theorem layoutReturned : holds (fun _ => true) (loadData Cfg.debug noFiles 1 100 layoutAsm.file coreWorld).1 = true := by
  decide +kernel

theorem layoutSurvived : Survived .debug layoutWorld := .loadFile _ _ _ _ coreSurvived (returned_of_holds layoutReturned)

def knotStrings : List String := ["lib", "System", "ValueType", "S", "T", "U", "f", "g"]

/-- `struct S { T f; }`, `struct T : U { S g; }`, `struct U`. -/
def knotAsm : Asm where
  strings := knotStrings
  blobs := [[0x06, 0x11, 0x08], [0x06, 0x11, 0x04]]
  tables :=
    [(0x01, [typeRefRow knotStrings "System" "ValueType"]),
     (0x02, [typeRow knotStrings 0 "" "S" (refRow 1) 1 1, typeRow knotStrings 0 "" "T" (defRow 3) 2 1,
             typeRow knotStrings 0 "" "U" (refRow 1) 3 1]),
     (0x04, [fieldRow knotStrings 0 "f" 1, fieldRow knotStrings 0 "g" 5]),
     (0x20, [assemblyRow knotStrings "lib"])]

def knotLoad : Res AssemblyRec × World := loadData .debug noFiles 1 100 knotAsm.file coreWorld

/-- `System.ValueType` is `n` bases up. -/
def valueUp (w : World) : Nat → Nat → Bool
  | 0, t => w.types[t]?.any (·.fullName = "System.ValueType".toList)
  | n + 1, t => w.types[t]?.any fun r => r.base.any (valueUp w n)

theorem ofValue {w : World} {n t : Nat} (h : valueUp w n t = true) : OfValueType w t := by
  induction n generalizing t with
  | zero =>
    unfold valueUp at h
    cases ht : w.types[t]? with
    | none => rw [ht] at h; cases h
    | some r => rw [ht] at h; exact .here ht (of_decide_eq_true h)
  | succ n ih =>
    unfold valueUp at h
    cases ht : w.types[t]? with
    | none => rw [ht] at h; cases h
    | some r =>
      rw [ht] at h
      simp only [Option.any_some] at h
      cases hb : r.base with
      | none => rw [hb] at h; cases h
      | some b => rw [hb] at h; exact .base ht hb (ih h)

end Ex

theorem Ex.layout_facts : (∀ t, t < Ex.layoutWorld.types.length → ∀ r ∈ Ex.layoutWorld.types[t]?, ∀ b ∈ r.base,
      b < Ex.layoutWorld.types.length ∧ b < t) ∧
    (∀ r ∈ Ex.layoutWorld.types, r.interfaces = []) ∧ Ex.valueUp Ex.layoutWorld 1 19 = true ∧
    (Ex.layoutWorld.types[21]?.map fun r => (r.base, decide (r.fullName ∈ numberNames))) = some (some 20, false) ∧
    (Ex.layoutWorld.types[20]?.map fun r => (r.fields[1]?.map fun f => (f.fieldType, f.isStatic), decide (r.fullName ∈ numberNames))) =
      some (some (19, false), false) := by
  decide +kernel

/-- The library of `Ex.layoutAsm`, where a class has a field of a value type, meets the assumptions; that value type is inside
a class derived from it. -/
example : Survived .debug Ex.layoutWorld ∧ BasesFirst Ex.layoutWorld ∧ NoInterface Ex.layoutWorld ∧
    (∀ (t : Nat) r, Ex.layoutWorld.types[t]? = some r → r.fullName ∈ numberNames → ChainEnds Ex.layoutWorld t) ∧
    Contained Ex.layoutWorld 19 21 := by
  obtain ⟨k1, k2, k3, k4, k5⟩ := Ex.layout_facts
  refine ⟨Ex.layoutSurvived, fun t b r h1 _ h2 _ => (k1 t (List.getElem?_eq_some_iff.1 h1).1 r h1 b h2).2, fun r hr i hi => ?_,
    fun t r ht _ => ends_of (fun t => t) k1 t (List.getElem?_eq_some_iff.1 ht).1, .deep (u := 20) ?_ (.part ?_)⟩
  · rw [k2 r hr] at hi; cases hi
  · obtain ⟨r, h1, h2⟩ := Option.map_eq_some_iff.1 k4
    simp only [Prod.mk.injEq, decide_eq_false_iff_not] at h2
    exact .base h1 h2.2 h2.1
  · obtain ⟨r, h1, h2⟩ := Option.map_eq_some_iff.1 k5
    simp only [Prod.mk.injEq, decide_eq_false_iff_not] at h2
    obtain ⟨f, f1, f2⟩ := Option.map_eq_some_iff.1 h2.1
    simp only [Prod.mk.injEq] at f2
    rw [← f2.1]
    refine .field h1 h2.2 (List.mem_of_getElem? f1) f2.2 ?_
    rw [f2.1]
    exact Ex.ofValue k3

theorem Ex.knot_facts :
    (Ex.knotLoad.2.types[19]?.map fun r => (r.fields.map fun f => (f.fieldType, f.isStatic), r.fullName)) =
      some ([(20, false)], "S".toList) ∧
    (Ex.knotLoad.2.types[20]?.map fun r => (r.fields.map fun f => (f.fieldType, f.isStatic), r.fullName)) =
      some ([(19, false)], "T".toList) ∧
    Ex.valueUp Ex.knotLoad.2 1 19 = true ∧ Ex.valueUp Ex.knotLoad.2 2 20 = true ∧
    Ex.holds (fun a => decide (a.types = [19, 20, 21])) Ex.knotLoad.1 = true ∧
    primitiveSize Ex.knotLoad.2 "S".toList primitiveSizes = .ok none ∧
    primitiveSize Ex.knotLoad.2 "T".toList primitiveSizes = .ok none ∧
    isReferenceType Ex.knotLoad.2 3 19 = .ok false ∧ isReferenceType Ex.knotLoad.2 3 20 = .ok false ∧
    typeSize .debug Ex.knotLoad.2 3 19 = .timeout ∧ typeSize .debug Ex.knotLoad.2 3 20 = .timeout := by
  decide +kernel

theorem knot_endless {cfg : Cfg} {w : World} {s t : TypeRec} {f g : FieldRec} {a b : Nat} (s1 : w.types[a]? = some s)
    (t1 : w.types[b]? = some t) (sf : s.fields = [f]) (tg : t.fields = [g]) (f1 : f.fieldType = b) (g1 : g.fieldType = a)
    (f2 : f.isStatic = false) (g2 : g.isStatic = false) (e1 : primitiveSize w s.fullName primitiveSizes = .ok none)
    (e2 : primitiveSize w t.fullName primitiveSizes = .ok none) (k1 : isReferenceType w 3 a = .ok false)
    (k2 : isReferenceType w 3 b = .ok false) (z1 : typeSize cfg w 3 a = .timeout) (z2 : typeSize cfg w 3 b = .timeout) (fuel : Nat) :
    typeSize cfg w fuel a = .timeout ∧ typeSize cfg w fuel b = .timeout := by
  rcases Nat.lt_or_ge fuel 3 with h | h
  · constructor
    · refine Classical.byContradiction fun hc => hc ?_
      rw [← Res.Refined.typeSize (Nat.le_of_lt h) a hc, z1]
    · refine Classical.byContradiction fun hc => hc ?_
      rw [← Res.Refined.typeSize (Nat.le_of_lt h) b hc, z2]
  · induction h with
    | refl => exact ⟨z1, z2⟩
    | @step k hk ih =>
      have ra : isReferenceType w k a = .ok false := (Res.Refined.isReferenceType hk a (by rw [k1]; exact fun h => by cases h)).trans k1
      have rb : isReferenceType w k b = .ok false := (Res.Refined.isReferenceType hk b (by rw [k2]; exact fun h => by cases h)).trans k2
      constructor
      · unfold typeSize
        rw [typeAt_eq_ok.mpr s1, Res.ok_bind, e1, Res.ok_bind, sf]
        simp only [List.filter_cons, f2, Bool.not_false, if_true, List.filter_nil]
        unfold fieldsSize
        simp only [f1, rb, Res.ok_bind, ih.2]
        rfl
      · unfold typeSize
        rw [typeAt_eq_ok.mpr t1, Res.ok_bind, e2, Res.ok_bind, tg]
        simp only [List.filter_cons, g2, Bool.not_false, if_true, List.filter_nil]
        unfold fieldsSize
        simp only [g1, ra, Res.ok_bind, ih.1]
        rfl

/-- **C93 fails when a base class comes later.** A library with `struct S { T f; }`, `struct T : U { S g; }` and, after them,
`struct U` loads; then `S` is inside itself, and asking for its size never ends. -/
theorem C93_refuted :
    Ex.holds (fun a => decide (a.types = [19, 20, 21])) Ex.knotLoad.1 = true ∧ Survived .debug Ex.knotLoad.2 ∧
    Contained Ex.knotLoad.2 19 19 ∧ ∀ fuel, typeSize .debug Ex.knotLoad.2 fuel 19 = .timeout := by
  obtain ⟨hS, hT, hsv, htv, hl, e1, e2, k1, k2, z1, z2⟩ := Ex.knot_facts
  have hsv := Ex.ofValue hsv
  have htv := Ex.ofValue htv
  have hsu : Survived .debug Ex.knotLoad.2 := .loadFile _ _ _ _ Ex.coreSurvived (returned_of_holds hl)
  generalize Ex.knotLoad = k at *
  obtain ⟨s, s1, s2⟩ := Option.map_eq_some_iff.1 hS
  obtain ⟨t, t1, t2⟩ := Option.map_eq_some_iff.1 hT
  simp only [Prod.mk.injEq, List.map_eq_singleton_iff] at s2 t2
  obtain ⟨⟨f, sf, f1, f2⟩, sn⟩ := s2
  obtain ⟨⟨g, tg, g1, g2⟩, tn⟩ := t2
  have p1 : Part k.2 20 19 := by
    have := Part.field (w := k.2) (f := f) s1 (by rw [sn]; decide) (by simp [sf]) f2 (by rw [f1]; exact htv)
    rwa [f1] at this
  have p2 : Part k.2 19 20 := by
    have := Part.field (w := k.2) (f := g) t1 (by rw [tn]; decide) (by simp [tg]) g2 (by rw [g1]; exact hsv)
    rwa [g1] at this
  exact ⟨hl, hsu, .deep p1 (.part p2), fun fuel =>
    (knot_endless s1 t1 sf tg f1 g1 f2 g2 (by rw [sn]; exact e1) (by rw [tn]; exact e2) k1 k2 z1 z2 fuel).1⟩

end Clr
