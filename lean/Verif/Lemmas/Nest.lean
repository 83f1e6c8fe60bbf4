import Verif.Lemmas.Cost
import Verif.Props.Valid
/-! # A small file with fifty structs, each of which contains two of the one before -/

namespace Clr
open Spec
namespace Ex

/-- The name of struct `k`: one character, from `A`. -/
def nestName (k : Nat) : Name := [Char.ofNat (65 + k)]

def nestStrings : List String := ["app", "core", "System", "ValueType"] ++ (List.range 51).map fun k => String.ofList (nestName k)

def nestBlobs : List Bytes := (List.range 50).map fun k => encFieldSig (.valueType (.typeDef (k + 1)))

/-- First field of struct `k`. -/
def nestFirst (k : Nat) : Nat := if k = 0 then 1 else 2 * k - 1

/-- `struct A { }`, `struct B { A A; A B; }`, `struct C { B A; B B; }` and so on, fifty structs above the first. -/
def nestAsm : Asm where
  strings := nestStrings
  blobs := nestBlobs
  tables :=
    [(0x01, [typeRefRow nestStrings "System" "ValueType"]),
     (0x02, (List.range 51).map fun k => typeRow nestStrings 0 "" (String.ofList (nestName k)) (refRow 1) (nestFirst k) 1),
     (0x04, (List.range 100).map fun j => fieldRow nestStrings 0 (if j % 2 = 0 then "A" else "B") (blobAt nestBlobs (j / 2))),
     (0x20, [assemblyRow nestStrings "app"]),
     (0x23, [assemblyRefRow nestStrings "core"])]
  entry := 0x06000000

/-- The reading of the tables of that file. Fields `2 k - 1` and `2 k` are those of struct `k`. -/
def nestDecls : Decls where
  name k := nestName k
  base _ := some "System.ValueType".toList
  static _ := false
  fieldType j := .valueType (.typeDef ((j - 1) / 2 + 1))
  fieldTypeName j := nestName ((j - 1) / 2)
  method _ := ⟨false, false, false, 0, .void, []⟩
  impl _ := .absent

/-- What is read from the file. -/
def NestFacts (m : Metadata) : Prop :=
  m.tables.typeDef.map (fun r => (r.baseType.typeDefOrRef, r.fieldList, r.methodList, m.string r.name, m.string r.nspace)) =
    (List.range 51).map (fun k => (.typeRef 1, nestFirst k, 1, .ok (some (nestName k)), .ok (some []))) ∧
  m.tables.typeRef.map (fun r => (m.string r.name, m.string r.nspace)) = [(.ok (some "ValueType".toList), .ok (some "System".toList))] ∧
  m.tables.field.map (fun r => (r.attributes.isStatic, r.signature, m.string r.name)) =
    (List.range 100).map (fun j => (false, blobAt nestBlobs (j / 2), .ok (some (nestName (j % 2))))) ∧
  m.tables.methodDef.length = 0 ∧ m.tables.interfaceImpl.length = 0 ∧ m.tables.memberRef.length = 0 ∧
  m.tables.assembly.map (fun r => m.string r.name) = [.ok (some "app".toList)] ∧
  m.tables.assemblyRef.map (fun r => m.string r.name) = [.ok (some "core".toList)] ∧
  m.blobHeap = nestAsm.blobHeap ∧ m.entryPoint = none ∧ m.cliHeader.entryPoint = ⟨6 * 2 ^ 24 + 0⟩

set_option synthInstance.maxHeartbeats 200000 in
set_option synthInstance.maxSize 1000 in
instance (m : Metadata) : Decidable (NestFacts m) := by
  unfold NestFacts
  repeat' apply instDecidableAnd

theorem nestFacts : holds (fun m => decide (NestFacts m)) (readMetadata .debug nestAsm.file) = true ∧
    nestAsm.file.length < 2500 := by
  decide +kernel

theorem nest_type {m : Metadata} (h : NestFacts m) {k : Nat} (hk : k < 51) : ∃ row, m.tables.typeDef[k]? = some row ∧
    row.baseType.typeDefOrRef = .typeRef 1 ∧ row.fieldList = nestFirst k ∧ row.methodList = 1 ∧
    m.string row.name = .ok (some (nestName k)) ∧ m.string row.nspace = .ok (some []) := by
  have e := congrArg (fun l => l[k]?) h.1
  simp only [List.getElem?_map, List.getElem?_range hk, Option.map_some] at e
  obtain ⟨row, h1, h2⟩ := Option.map_eq_some_iff.mp e
  simp only [Prod.mk.injEq] at h2
  exact ⟨row, h1, h2⟩

theorem nest_lengths {m : Metadata} (h : NestFacts m) : m.tables.typeDef.length = 51 ∧ m.tables.field.length = 100 ∧
    m.tables.typeRef.length = 1 := by
  refine ⟨?_, ?_, ?_⟩
  · have := congrArg List.length h.1; simpa using this
  · have := congrArg List.length h.2.2.1; simpa using this
  · have := congrArg List.length h.2.1; simpa using this

theorem nest_field {m : Metadata} (h : NestFacts m) {j : Nat} {row : FieldRow} (hr : m.tables.field[j]? = some row) :
    row.attributes.isStatic = false ∧ row.signature = blobAt nestBlobs (j / 2) ∧ m.string row.name = .ok (some (nestName (j % 2))) := by
  have hj := (List.getElem?_eq_some_iff.mp hr).1
  rw [(nest_lengths h).2.1] at hj
  have e := congrArg (fun l => l[j]?) h.2.2.1
  simp only [List.getElem?_map, List.getElem?_range hj, Option.map_some, hr, Option.some.injEq, Prod.mk.injEq] at e
  exact e

theorem nest_starts {m : Metadata} (h : NestFacts m) : m.tables.typeDef.map (·.fieldList) = (List.range 51).map nestFirst ∧
    m.tables.typeDef.map (·.methodList) = (List.range 51).map fun _ => 1 := by
  constructor
  · have := congrArg (List.map (fun x : TypeDefOrRef × Nat × Nat × Res (Option Name) × Res (Option Name) => x.2.1)) h.1
    simpa [List.map_map, Function.comp_def] using this
  · have := congrArg (List.map (fun x : TypeDefOrRef × Nat × Nat × Res (Option Name) × Res (Option Name) => x.2.2.1)) h.1
    simp only [List.map_map] at this
    exact this

theorem nest_named {m : Metadata} (h : NestFacts m) {k : Nat} (hk : k < 51) : RowNamed m (.typeDef (k + 1)) (nestName k) := by
  obtain ⟨row, h1, -, -, -, h2, h3⟩ := nest_type h hk
  exact .typeDef (k + 1) row _ _ (by omega) h1 h2 h3

theorem nest_base {m : Metadata} (h : NestFacts m) : RowNamed m (.typeRef 1) "System.ValueType".toList := by
  obtain ⟨b0, l, e2, k0, -⟩ := List.map_eq_cons_iff.mp h.2.1
  simp only [Prod.mk.injEq] at k0
  exact .typeRef 1 b0 _ _ (by decide) (by simp [e2]) k0.1 k0.2

theorem nest_blobs : ∀ k < 50, (encFieldSig (.valueType (.typeDef (k + 1)))).length < 2 ^ 29 ∧
    nestAsm.blobHeap = nestAsm.blobHeap.take (blobAt nestBlobs k) ++ encBlob (encFieldSig (.valueType (.typeDef (k + 1)))) ++
      nestAsm.blobHeap.drop (blobAt nestBlobs k + (encBlob (encFieldSig (.valueType (.typeDef (k + 1))))).length) ∧
    blobAt nestBlobs k ≤ nestAsm.blobHeap.length ∧ nestAsm.blobHeap.length < 2 ^ 20 := by
  decide +kernel

theorem nest_runs : Partition ((List.range 51).map nestFirst) 100 ∧ Partition ((List.range 51).map fun _ => 1) 0 ∧
    (∀ k < 51, runLength ((List.range 51).map nestFirst) 100 k = if k = 0 then 0 else 2) ∧
    ∀ k < 51, runEnd ((List.range 51).map nestFirst) 100 k - nestFirst k = if k = 0 then 0 else 2 := by
  decide +kernel

theorem sumRun_zero (s n : Nat) : sumRun (fun _ => 0) s n = 0 := by
  induction n with
  | zero => rfl
  | succ n ih => simp [sumRun, ih]

theorem nest_wellFormed {m : Metadata} (h : NestFacts m) : WellFormed (fun _ => True) m coreWorld nestDecls := by
  obtain ⟨k1, k2, -⟩ := coreKnown m
  obtain ⟨lt, lf, lr⟩ := nest_lengths h
  obtain ⟨sf, sm⟩ := nest_starts h
  obtain ⟨r1, r2, -⟩ := nest_runs
  have h' := h
  obtain ⟨-, -, -, l1, l2, l3, -, -, hb, he, -⟩ := h'
  refine ⟨k1, k2, ?_, ?_, ?_, ?_, ?_, ?_, ?_, ?_, ?_, ?_, ?_, ?_⟩
  · intro k hk
    exact nest_named h (by omega)
  · intro k row hrow
    have hk := (List.getElem?_eq_some_iff.mp hrow).1
    obtain ⟨row', h1, h2, -⟩ := nest_type h (k := k) (by omega)
    rw [hrow, Option.some.injEq] at h1
    subst h1
    rw [h2]
    exact .some (nest_base h) k2
  · rw [sf, lf]; exact r1
  · rw [sm, l1]; exact r2
  · intro j row hrow
    have hj := (List.getElem?_eq_some_iff.mp hrow).1
    obtain ⟨f1, f2, f3⟩ := nest_field h hrow
    have hn := nest_named h (k := j / 2) (by omega)
    refine ⟨⟨_, f3⟩, ?_, ?_, ⟨_, ?_, .inr ⟨_, hn⟩⟩, f1⟩
    · rw [f2]
      exact blobHolds_of hb (nest_blobs (j / 2) (by omega))
    · show ElemFits (.valueType (.typeDef (j / 2 + 1)))
      simp only [ElemFits, rowOf]; omega
    · exact .valueType hn
  · intro k j row _ hrow
    have := (List.getElem?_eq_some_iff.mp hrow).1
    omega
  · intro row hrow
    rw [List.eq_nil_of_length_eq_zero l2] at hrow
    cases hrow
  · intro k hk
    obtain rfl : k = 0 := by omega
    exact ⟨_, nest_base h, reg (coreNames _ (by simp))⟩
  · intro row hrow
    rw [List.eq_nil_of_length_eq_zero l3] at hrow
    cases hrow
  · intro e hee
    rw [he] at hee; cases hee
  · rw [lf, l1]; decide
  · rw [lf, l1, lt, coreConsole.2]
    show 19 + 51 + sumRun (fun _ => 0) 1 100 + 0 < _
    rw [sumRun_zero]; decide

/-- What the names of the structs say about them: the place, and a bound on the size. -/
def nestRank : Name → Nat
  | [c] => c.toNat - 64
  | _ => 0
def nestSize : Name → Nat
  | [c] => 32 * 2 ^ (c.toNat - 65) - 24
  | _ => 8

theorem nest_size (n : Name) : 8 ≤ nestSize n := by
  unfold nestSize
  split
  · have := Nat.one_le_two_pow (n := Char.toNat ‹Char› - 65); omega
  · exact Nat.le_refl _

theorem nest_numbers : ∀ k < 51, nestRank (nestName k) = k + 1 ∧ nestSize (nestName k) = 32 * 2 ^ k - 24 ∧
    nestName k ∉ numberNames ∧ ¬ validRef (nestName k) ∧ nestName k ∉ coreWorld.types.map (·.fullName) := by
  decide +kernel

theorem nest_finite {m : Metadata} (h : NestFacts m) : FiniteSizes .debug m coreWorld nestDecls validRef nestRank nestSize := by
  obtain ⟨lt, lf, lr⟩ := nest_lengths h
  obtain ⟨sf, sm⟩ := nest_starts h
  obtain ⟨r1, r2, r3, -⟩ := nest_runs
  have htypes : ∀ {t : Nat} {r : TypeRec}, coreWorld.types[t]? = some r → t < 19 := by
    intro t r hr
    have := (List.getElem?_eq_some_iff.mp hr).1
    rw [coreConsole.2] at this; exact this
  have first : ∀ {k : Nat} {row : TypeDefRow}, m.tables.typeDef[k]? = some row → k < 51 ∧ row.fieldList = nestFirst k := by
    intro k row hrow
    have hk := (List.getElem?_eq_some_iff.mp hrow).1
    obtain ⟨row', h1, -, h2, -⟩ := nest_type h (k := k) (by omega)
    rw [hrow, Option.some.injEq] at h1
    subst h1
    exact ⟨by omega, h2⟩
  have hv : nestSize "System.ValueType".toList = 8 := rfl
  have sums : ∀ k < 51, baseWeight nestSize (some "System.ValueType".toList) + (if k = 0 then 0 else 2 * (8 + nestSize (nestName (k - 1)))) ≤
      nestSize (nestName k) := by
    intro k hk
    show nestSize "System.ValueType".toList + _ ≤ _
    rw [hv, (nest_numbers k hk).2.1]
    split
    · rename_i h0; subst h0; decide
    · obtain ⟨i, rfl⟩ : ∃ i, k = i + 1 := ⟨k - 1, by omega⟩
      rw [show i + 1 - 1 = i from rfl, (nest_numbers i (by omega)).2.1, Nat.pow_succ]
      have := Nat.one_le_two_pow (n := i)
      omega
  refine ⟨by decide, by decide, ?_, ?_, ?_, ?_, ?_, ?_, fun n _ => nest_size n, ?_, ?_, ?_, ?_⟩
  · intro t r hr hv
    obtain ⟨h1, h2⟩ := coreRefs t (htypes hr) r hr hv
    refine ⟨fun b br hb hbr => h2 b hb br hbr, fun i hi => ?_⟩
    rw [h1] at hi
    exact absurd hi List.not_mem_nil
  · intro k hk hr
    exact absurd hr (nest_numbers k (by omega)).2.2.2.1
  · intro k hk b hb _
    cases hb
    rw [show nestDecls.name k = nestName k from rfl, (nest_numbers k (by omega)).1]
    exact Nat.succ_pos _
  · intro j _ _ _ hr
    cases hr
  · rw [lf, sf]
    rintro k j ⟨⟨s, h1, h2⟩, h3, h4⟩ - - - -
    have hk := (List.getElem?_eq_some_iff.mp h1).1
    simp only [List.length_map, List.length_range] at hk
    rw [List.getElem?_map, List.getElem?_range hk, Option.map_some, Option.some.injEq] at h1
    show nestRank (nestName ((j - 1) / 2)) < nestRank (nestName k)
    have hjk : (j - 1) / 2 < k := by
      by_cases hk' : k + 1 < 51
      · have := h3 (nestFirst (k + 1)) (by rw [List.getElem?_map, List.getElem?_range hk', Option.map_some])
        unfold nestFirst at this h1
        rw [if_neg (by omega)] at this
        split at h1 <;> omega
      · omega
    rw [(nest_numbers k hk).1, (nest_numbers _ (by omega)).1]
    omega
  · intro t r hr
    refine ⟨ends_of (fun t => if t = 1 then 0 else if t = 2 then 1 else 2) (by decide +kernel) t (List.getElem?_eq_some_iff.1 hr).1, ?_⟩
    obtain ⟨s, h1, h2⟩ := holds_iff (coreSizes t (htypes hr))
    exact ⟨100, s, h1, Nat.le_trans (of_decide_eq_true h2) (nest_size _)⟩
  · intro j _ _ _
    exact nest_size _
  · intro k row hrow _
    obtain ⟨hk, e⟩ := first hrow
    rw [e, lf, sf, r3 k hk]
    refine Nat.le_trans (Nat.add_le_add_left ?_ _) (sums k hk)
    split
    · exact Nat.le_refl _
    · rename_i h0
      simp only [sumRun, fieldWeight, nestDecls, refElem, nestFirst, if_neg h0]
      rw [show 2 * k - 1 + 0 - 1 = 2 * (k - 1) by omega, show 2 * k - 1 + 1 - 1 = 2 * (k - 1) + 1 by omega,
        show 2 * (k - 1) / 2 = k - 1 by omega, show (2 * (k - 1) + 1) / 2 = k - 1 by omega]
      simp
      omega
  · intro k hk
    rw [show nestDecls.name k = nestName k from rfl, (nest_numbers k (by omega)).2.1]
    have := Nat.pow_le_pow_right (n := 2) (by omega) (show k ≤ 50 by omega)
    omega
  · intro k row hrow
    obtain ⟨hk, e⟩ := first hrow
    rw [e, lf, sf, r3 k hk]
    refine Nat.lt_of_le_of_lt (Nat.le_trans (Nat.add_le_add_left ?_ _) (sums k hk)) ?_
    · split
      · exact Nat.le_refl _
      · rename_i h0
        simp only [sumRun, nestDecls, nestFirst, if_neg h0]
        rw [show 2 * k - 1 + 0 - 1 = 2 * (k - 1) by omega, show 2 * k - 1 + 1 - 1 = 2 * (k - 1) + 1 by omega,
          show 2 * (k - 1) / 2 = k - 1 by omega, show (2 * (k - 1) + 1) / 2 = k - 1 by omega]
        omega
    · rw [(nest_numbers k (by omega)).2.1]
      have := Nat.pow_le_pow_right (n := 2) (by omega) (show k ≤ 50 by omega)
      omega

theorem nest_self {m : Metadata} (h : NestFacts m) {w' : World} {a : AssemblyRec} {name : Name}
    (hs : SelfIs .debug m name coreWorld w' a) (hm : Mid m coreWorld nestDecls w') {k : Nat} (hk : k < 51) :
    ∃ tr, w'.types[19 + k]? = some tr ∧ tr.fullName = nestName k ∧ ValueBelow w' (19 + k) ∧ tr.interfaces = [] ∧
      tr.fields.length = (if k = 0 then 0 else 2) ∧
      ∀ f ∈ tr.fields, f.isStatic = false ∧ f.fieldType = 19 + (k - 1) := by
  obtain ⟨lt, lf, lr⟩ := nest_lengths h
  obtain ⟨sf, sm⟩ := nest_starts h
  obtain ⟨r1, r2, r3, r4⟩ := nest_runs
  have l19 := coreConsole.2
  obtain ⟨row, e1, e2, e3, -⟩ := nest_type h hk
  obtain ⟨tr, htr, hown⟩ := hm.own k (by omega)
  rw [l19] at htr
  have ha : a.types[k]? = some (19 + k) := by
    rw [hs.types, lt, l19, List.getElem?_range' hk]
    simp
  refine ⟨tr, htr, hown.name, ?_, ?_, ?_, ?_⟩
  · obtain ⟨row', tr', g1, g2, g3⟩ := hs.kinds k _ ha
    have : tableIndex Cfg.debug m.tables.typeDef (k + 1) = .ok row := by
      unfold tableIndex
      rw [usub_ok (by omega), Res.ok_bind]
      simp [e1]
    rw [this, Res.ok.injEq] at g1
    subst g1
    rw [htr, Option.some.injEq] at g2
    subst g2
    have hb := g3.base
    rw [e2] at hb
    generalize ho : tr.base = o at hb
    cases hb with
    | none hh => cases hh
    | some _ _ hb' _ =>
      obtain ⟨-, br, b1, b2⟩ := hown.base _ ho
      exact ⟨tr, _, br, htr, ho, b1, (Option.some.inj b2).symm⟩
  · obtain ⟨tr', g1, g2⟩ := hs.ifaces k _ ha
    rw [htr, Option.some.injEq] at g1
    subst g1
    rw [List.eq_nil_of_length_eq_zero h.2.2.2.2.1] at g2
    generalize tr.interfaces = l at g2
    cases g2
    rfl
  · obtain ⟨fss, -, -, g⟩ := hs.fields
    obtain ⟨tr', fs, g1, -, g2, s, n, g3, g4, -⟩ := g k _ ha
    rw [htr, Option.some.injEq] at g1
    subst g1
    rw [ownedRun_partition (by rw [sf, lf]; exact r1) e1, sf, lf, e3, r4 k hk, Res.ok.injEq, Prod.mk.injEq] at g3
    rw [g2, g4, ← g3.2]
  · intro f hf
    obtain ⟨i, hi⟩ := List.getElem?_of_mem hf
    obtain ⟨hl, hfi⟩ := hown.fields row e1
    obtain ⟨⟨fr, f1, f2⟩, f3, f4⟩ := hfi i f hi
    have hi' := (List.getElem?_eq_some_iff.mp hi).1
    rw [sf, lf, r3 k hk] at hl
    refine ⟨f3, ?_⟩
    have hk0 : k ≠ 0 := by intro h0; rw [if_pos h0] at hl; omega
    rw [if_neg hk0] at hl
    have hlt := f4 rfl
    rw [l19, lt] at hlt
    have hname : fr.fullName = nestName (k - 1) := by
      rw [f2]
      show nestName ((row.fieldList + i - 1) / 2) = _
      rw [e3, nestFirst, if_neg hk0, show (2 * k - 1 + i - 1) / 2 = k - 1 by omega]
    have hnum := nest_numbers (k - 1) (by omega)
    by_cases hold : f.fieldType < 19
    · exfalso
      have ho := hm.old f.fieldType _ (List.getElem?_eq_getElem (by rw [l19]; exact hold))
      rw [f1, Option.some.injEq] at ho
      apply hnum.2.2.2.2
      rw [← hname, ho]
      exact List.mem_map_of_mem (List.getElem_mem _)
    · obtain ⟨i', hi''⟩ : ∃ i', f.fieldType = 19 + i' := ⟨f.fieldType - 19, by omega⟩
      obtain ⟨tr', g1, g2⟩ := hm.own i' (by omega)
      rw [l19, ← hi'', f1, Option.some.injEq] at g1
      subst g1
      have e : nestName i' = nestName (k - 1) := g2.name.symm.trans hname
      have := congrArg nestRank e
      rw [(nest_numbers i' (by omega)).1, hnum.1] at this
      omega

theorem nest_doubled {m : Metadata} (h : NestFacts m) {w' : World} {a : AssemblyRec} {name : Name}
    (hs : SelfIs .debug m name coreWorld w' a) (hm : Mid m coreWorld nestDecls w') (k : Nat) (hk : k < 51) : Doubled w' k (19 + k) := by
  induction k with
  | zero => exact .zero
  | succ k ih =>
    obtain ⟨tr, h1, h2, -, -, h3, h4⟩ := nest_self h hs hm hk
    obtain ⟨-, -, -, h5, -⟩ := nest_self h hs hm (k := k) (by omega)
    rw [if_neg (by omega)] at h3
    match hf : tr.fields, h3 with
    | [f, g], _ =>
      rw [hf] at h4
      obtain ⟨a1, a2⟩ := h4 f (by simp)
      obtain ⟨b1, b2⟩ := h4 g (by simp)
      exact .succ (as := []) (bs := []) (cs := []) h1 (by rw [h2]; exact (nest_numbers _ hk).2.2.1) hf a1 b1 a2 b2 h5 (ih (by omega))

theorem core_amount : ((List.range 19).map (portion coreWorld)).sum ≤ 40 := by decide +kernel

theorem nest_amount {m : Metadata} (h : NestFacts m) {w' : World} {a : AssemblyRec} {name : Name}
    (hs : SelfIs .debug m name coreWorld w' a) (hm : Mid m coreWorld nestDecls w') (hl : w'.types.length = 70) : amount w' ≤ 200 := by
  rw [← amount_eq, hl, show (70 : Nat) = 19 + 51 from rfl, List.range_add, List.map_append, List.sum_append]
  have e1 : (List.range 19).map (portion w') = (List.range 19).map (portion coreWorld) := by
    apply List.map_congr_left
    intro t ht
    have ht' := List.mem_range.mp ht
    obtain ⟨r, hr⟩ : ∃ r, coreWorld.types[t]? = some r := ⟨_, List.getElem?_eq_getElem (by rw [coreConsole.2]; exact ht')⟩
    rw [portion_eq hr, portion_eq (hm.old t r hr)]
  have e2 : ∀ n ≤ 51, (((List.range n).map (19 + ·)).map (portion w')).sum ≤ 3 * n := by
    intro n
    induction n with
    | zero => intro _; simp
    | succ n ih =>
      intro hn
      have := ih (by omega)
      obtain ⟨tr, h1, -, -, h2, h3, -⟩ := nest_self h hs hm (k := n) (by omega)
      have hp := portion_eq h1
      rw [h2] at hp
      simp only [List.length_nil] at hp
      rw [List.range_succ, List.map_append, List.map_append, List.sum_append]
      simp only [List.map_cons, List.map_nil, List.sum_cons, List.sum_nil]
      split at h3 <;> omega
  have := e2 51 (by omega)
  have := core_amount
  rw [e1]
  omega

end Ex
end Clr
