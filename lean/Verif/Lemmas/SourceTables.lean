import Verif.Lemmas.SourceFile
import Verif.Props.Whole

namespace Clr.Source
open Spec

/-! ## Positions -/

theorem before_le (size : Proc → Nat) (P : Program) (f : Nat) : before size P f ≤ before size P P.length := by
  unfold before
  rw [List.take_length]
  conv => rhs; rw [← List.take_append_drop f P]
  rw [List.map_append, List.sum_append]
  omega

theorem before_next {size : Proc → Nat} {P : Program} {f : Nat} {p : Proc} (h : P[f]? = some p) :
    before size P f + size p ≤ before size P P.length := by
  obtain ⟨hf, rfl⟩ := List.getElem?_eq_some_iff.mp h
  have := before_le size P (f + 1)
  unfold before at this ⊢
  rw [← List.take_append_getElem hf, List.map_append, List.sum_append] at this
  simpa using this

theorem flatten_mapIdx_length {α : Type} (g : Nat → Proc → List α) (size : Proc → Nat) (P : Program) (h : ∀ i p, (g i p).length = size p) :
    ((P.mapIdx g).flatten).length = (P.map size).sum := by
  induction P generalizing g with
  | nil => rfl
  | cons p P ih =>
    rw [List.mapIdx_cons, List.flatten_cons, List.length_append, h, List.map_cons, List.sum_cons, ih (fun i => g (i + 1)) fun i p => h _ p]

/-- The item of procedure `f` in a concatenation. -/
theorem flatten_mapIdx_at {α : Type} (g : Nat → Proc → List α) (size : Proc → Nat) (P : Program) (h : ∀ i p, (g i p).length = size p) {f : Nat} {p : Proc}
    (hp : P[f]? = some p) : ∃ pre post, (P.mapIdx g).flatten = pre ++ (g f p ++ post) ∧ pre.length = before size P f := by
  obtain ⟨hf, rfl⟩ := List.getElem?_eq_some_iff.mp hp
  refine ⟨((P.take f).mapIdx g).flatten, ((P.drop (f + 1)).mapIdx fun i => g (i + (f + 1))).flatten, ?_, flatten_mapIdx_length g size _ h⟩
  have e : P = P.take f ++ (P[f] :: P.drop (f + 1)) := by rw [← List.drop_eq_getElem_cons hf, List.take_append_drop]
  have hl : (P.take f).length = f := by rw [List.length_take]; omega
  conv => lhs; rw [e]
  rw [List.mapIdx_append, List.flatten_append, List.mapIdx_cons, List.flatten_cons, hl]
  simp only [Nat.zero_add, Nat.add_assoc, Nat.add_comm 1 f]

theorem pad4_length (b : Bytes) : (pad4 b).length = b.length + (4 - b.length % 4) % 4 := by simp [pad4]

theorem body_length (f : Nat) (p : Proc) : (pad4 ((bodyOf f p).enc [])).length = bodySize p := by
  have : ∀ f, ((bodyOf f p).enc []).length = 12 + p.code.length := by
    intro f
    simp only [Fat.enc, bodyOf, List.length_cons, List.length_append, length_leBytes, List.length_nil, Sections.enc]; omega
  simp only [bodySize, pad4_length, this]

theorem bodies_length (P : Program) : (bodies P).length = before bodySize P P.length := by
  rw [bodies, flatten_mapIdx_length _ bodySize P fun f p => body_length f p, before, List.take_length]

theorem code_le {P : Program} {p : Proc} (h : p ∈ P) : p.code.length ≤ (bodies P).length := by
  obtain ⟨f, hf⟩ := List.getElem?_of_mem h
  have := before_next (size := bodySize) hf
  rw [bodies_length]
  have h2 : p.code.length ≤ bodySize p := by
    rw [bodySize, pad4_length]
    simp only [Fat.enc, bodyOf, List.length_cons, List.length_append, length_leBytes, List.length_nil, Sections.enc]; omega
  omega

theorem sigAt_le {P : Program} {f : Nat} {p : Proc} (h : P[f]? = some p) : sigAt P f + (sigBlob p).length + (localsBlob p).length ≤ (blobHeap P).length := by
  have := before_next (size := fun p => (sigBlob p ++ localsBlob p).length) h
  have h2 : (blobHeap P).length ≥ 1 + before (fun p => (sigBlob p ++ localsBlob p).length) P P.length := by
    rw [blobHeap, pad4_length, List.length_cons, List.length_flatten, List.map_map, before, List.take_length]
    show _ ≥ _
    have : ∀ a b c : Nat, a = b → a + 1 + c ≥ 1 + b := by intros; omega
    exact this _ _ _ rfl
  simp only [List.length_append] at this h2
  simp only [sigAt, List.length_append]
  omega

/-! ## The rows -/

def publicStatic : MethodAttributes := (methodAttributes 0x16).get (by decide)
def plainType : TypeAttributes := (typeAttributes 0).get (by decide)
def plainImpl : MethodImplAttributes := (methodImplAttributes 0).get (by decide)
def plainParam : ParamAttributes := (paramAttributes 0).get (by decide)
def plainFlags : AssemblyFlags := (assemblyFlags 0).get (by decide)
def plainHash : AssemblyHashAlgorithm := (assemblyHashAlgorithm 0).get (by decide)

/-- The rows that are read. -/
def typedMethod (P : Program) (f : Nat) : MethodDefRow := ⟨bodyAt P f, plainImpl, publicStatic, nameAt P.length f, sigAt P f, paramAt P f⟩
def typedParams (P : Program) : List ParamRow := (paramNumbers P).map fun i => ⟨plainParam, i + 1, 26⟩

def typed (P : Program) : Tables :=
  { module := [⟨1, 1⟩], typeRef := [⟨⟨.assemblyRef, 1⟩, 17, 10⟩]
    typeDef := [⟨plainType, 28, 0, ⟨.typeDef, 0⟩, 1, 1⟩, ⟨plainType, 24, 0, ⟨.typeRef, 1⟩, 1, 1⟩]
    field := [], methodDef := P.mapIdx fun f _ => typedMethod P f, param := typedParams P, interfaceImpl := [], memberRef := [], constant := []
    customAttribute := [], fieldMarshal := [], declSecurity := [], classLayout := [], fieldLayout := []
    standaloneSig := P.mapIdx fun f p => ⟨localsAt P f p⟩, eventMap := [], event := [], propertyMap := [], property := [], methodSemantics := []
    methodImpl := [], moduleRef := [], typeSpec := [], implMap := [], fieldRva := []
    assembly := [⟨plainHash, 1, 0, 0, 0, plainFlags, 0, 1, 0⟩], assemblyProcessor := [], assemblyOs := []
    assemblyRef := [⟨1, 0, 0, 0, plainFlags, 0, 5, 0, 0⟩], assemblyRefProcessor := [], assemblyRefOs := [], file := [], exportedType := []
    manifestResource := [], nestedClass := [], genericParam := [], methodSpec := [], genericParamConstraint := [] }

theorem table_of {α : Type} {isRow : Bytes → α → Prop} {count : Nat} {rows : List (List (Nat × Nat))} {xs : List α} (hc : rows.length = count)
    (hl : rows.length = xs.length) (h : ∀ (i : Nat) r x, rows[i]? = some r → xs[i]? = some x → isRow (encFields r) x) :
    IsTable isRow count (rows.map encFields).flatten xs := by
  have hl' : (rows.map encFields).length = xs.length := by rw [List.length_map, hl]
  refine ⟨List.zip (rows.map encFields) xs, ?_, ?_, ?_, ?_⟩
  · rw [List.length_zip, List.length_map]; omega
  · intro q hq
    obtain ⟨i, hi⟩ := List.getElem?_of_mem hq
    obtain ⟨b, x⟩ := q
    obtain ⟨h1, h2⟩ := List.getElem?_zip_eq_some.mp hi
    rw [List.getElem?_map, Option.map_eq_some_iff] at h1
    obtain ⟨r, hr, rfl⟩ := h1
    exact h i r x hr h2
  · rw [List.map_snd_zip (by omega)]
  · rw [List.map_fst_zip (by omega)]

theorem no_rows {α : Type} (isRow : Bytes → α → Prop) {count : Nat} (h : count = 0) : IsTable isRow count [] [] :=
  ⟨[], by rw [h]; rfl, (fun q hq => by cases hq), rfl, rfl⟩

theorem col (w v : Nat) (h : v < 256 ^ w) : ColNum w (leBytes w v) v := ⟨h, rfl⟩


theorem lookup_mem {β : Type} {i : Nat} {x : β} : ∀ {l : List (Nat × β)}, l.lookup i = some x → (i, x) ∈ l
  | [], h => by cases h
  | (j, y) :: l, h => by
    rw [List.lookup_cons] at h
    split at h
    · next hb => cases h; rw [beq_iff_eq] at hb; subst hb; exact List.mem_cons_self
    · exact List.mem_cons_of_mem _ (lookup_mem h)

theorem rowCounts_in {P : Program} {i : Nat} (h : rowCounts P i ≠ 0) : i ∈ [0x00, 0x01, 0x02, 0x06, 0x08, 0x11, 0x20, 0x23] := by
  unfold rowCounts at h
  split at h
  · next hl => exact List.mem_map_of_mem (f := Prod.fst) (lookup_mem hl)
  · exact absurd rfl h

theorem paramNumbers_length (P : Program) : (paramNumbers P).length = before (·.params) P P.length := by
  rw [paramNumbers, List.length_flatten, List.map_map, before, List.take_length]
  congr 1
  apply List.map_congr_left
  intro p _
  simp

theorem paramRows_length (P : Program) : (paramRows P).length = before (·.params) P P.length := by
  rw [paramRows, List.length_map, paramNumbers_length]

theorem typedParams_length (P : Program) : (typedParams P).length = before (·.params) P P.length := by
  rw [typedParams, List.length_map, paramNumbers_length]

theorem rowCounts_lt {P : Program} (hP : P.Legal) (i : Nat) : rowCounts P i < 2 ^ 11 := by
  by_cases h : rowCounts P i = 0
  · rw [h]; decide
  · have h1 := hP.count
    have h2 := hP.params
    have := rowCounts_in h
    simp only [List.mem_cons, List.not_mem_nil, or_false] at this
    rcases this with rfl | rfl | rfl | rfl | rfl | rfl | rfl | rfl
    · show 1 < _; decide
    · show 1 < _; decide
    · show 2 < _; decide
    · show (methodRows P).length < _; rw [methodRows, List.length_mapIdx]; exact h1
    · show (paramRows P).length < _; rw [paramRows_length]; exact h2
    · show (localsRows P).length < _; rw [localsRows, List.length_mapIdx]; exact h1
    · show 1 < _; decide
    · show 1 < _; decide

theorem index2 {P : Program} (hP : P.Legal) (t : TableType) : (assemble P).sizes.indexWidth t = 2 := by
  unfold Sizes.indexWidth
  rw [if_pos]
  exact Nat.lt_trans (rowCounts_lt hP _) (by decide)

theorem codedBits_le (k : CodedKind) : codedBits k ≤ 5 := by cases k <;> decide

theorem coded2 {P : Program} (hP : P.Legal) (k : CodedKind) : (assemble P).sizes.codedWidth k = 2 := by
  unfold Sizes.codedWidth
  rw [if_pos]
  intro t _ ty _
  exact Nat.lt_of_lt_of_le (rowCounts_lt hP _) (Nat.pow_le_pow_right (by decide) (by have := codedBits_le k; omega))

theorem bodyAt_lt {P : Program} (hP : P.Legal) (f : Nat) : bodyAt P f < 2 ^ 31 := by
  have h1 := hP.code
  have h2 := before_le bodySize P f
  rw [bodies_length] at h1
  unfold bodyAt; omega

theorem encFields_flatten (l : List (Nat × Nat)) : encFields l = (l.map fun c => leBytes c.1 c.2).flatten := by
  induction l with
  | nil => rfl
  | cons c l ih => obtain ⟨w, v⟩ := c; rw [encFields, List.map_cons, List.flatten_cons, ih]


theorem paramNumbers_le {P : Program} (hP : P.Legal) {i : Nat} (h : i ∈ paramNumbers P) : i < 100 := by
  rw [paramNumbers, List.mem_flatten] at h
  obtain ⟨l, hl, hi⟩ := h
  obtain ⟨p, hp, rfl⟩ := List.mem_map.mp hl
  have := (hP.procs p hp).1
  rw [List.mem_range] at hi
  omega

theorem isTables {P : Program} (hP : P.Legal) : IsTables (assemble P).sizes (assemble P).rows (typed P) := by
  have hi := index2 hP
  have hcoded := coded2 hP
  have hcount := hP.count
  have hparams := hP.params
  have hblob := hP.blob
  have hs : (assemble P).sizes.stringWidth = 2 := rfl
  have hb : (assemble P).sizes.blobWidth = 2 := rfl
  have hg : (assemble P).sizes.guidWidth = 2 := rfl
  refine ⟨fun i => match i.val with
    | 0 => (moduleRows.map encFields).flatten | 1 => (typeRefRows.map encFields).flatten | 2 => (typeDefRows.map encFields).flatten
    | 4 => ((methodRows P).map encFields).flatten | 5 => ((paramRows P).map encFields).flatten | 14 => ((localsRows P).map encFields).flatten
    | 25 => (assemblyRows.map encFields).flatten | 28 => (assemblyRefRows.map encFields).flatten | _ => [], ?_⟩
  refine ⟨?_, ?_, ?_, no_rows _ rfl, ?_, ?_, no_rows _ rfl, no_rows _ rfl, no_rows _ rfl, no_rows _ rfl, no_rows _ rfl, no_rows _ rfl, no_rows _ rfl,
    no_rows _ rfl, ?_, no_rows _ rfl, no_rows _ rfl, no_rows _ rfl, no_rows _ rfl, no_rows _ rfl, no_rows _ rfl, no_rows _ rfl, no_rows _ rfl,
    no_rows _ rfl, no_rows _ rfl, ?_, no_rows _ rfl, no_rows _ rfl, ?_, no_rows _ rfl, no_rows _ rfl, no_rows _ rfl, no_rows _ rfl, no_rows _ rfl,
    no_rows _ rfl, no_rows _ rfl, no_rows _ rfl, no_rows _ rfl, ?_⟩
  · refine table_of rfl rfl fun i r x hr hx => ?_
    obtain rfl : i = 0 := by have := (List.getElem?_eq_some_iff.mp hr).1; simp only [moduleRows, List.length_cons, List.length_nil] at this; omega
    cases hr; cases hx
    rw [encFields_flatten]
    refine ⟨_, _, _, _, _, ⟨0, col _ _ (by decide)⟩, ?_, ?_, ⟨0, ?_⟩, ⟨0, ?_⟩, rfl⟩
    · rw [hs]; exact col _ _ (by decide)
    · rw [hg]; exact col _ _ (by decide)
    · rw [hg]; exact col _ _ (by decide)
    · rw [hg]; exact col _ _ (by decide)
  · refine table_of rfl rfl fun i r x hr hx => ?_
    obtain rfl : i = 0 := by have := (List.getElem?_eq_some_iff.mp hr).1; simp only [typeRefRows, List.length_cons, List.length_nil] at this; omega
    cases hr; cases hx
    rw [encFields_flatten]
    refine ⟨_, _, _, ⟨2, rfl, ?_⟩, ?_, ?_, rfl⟩
    · rw [hcoded]; exact col _ _ (by decide)
    · rw [hs]; exact col _ _ (by decide)
    · rw [hs]; exact col _ _ (by decide)
  · refine table_of rfl rfl fun i r x hr hx => ?_
    have hlt := (List.getElem?_eq_some_iff.mp hr).1
    simp only [typeDefRows, List.length_cons, List.length_nil] at hlt
    obtain rfl | rfl : i = 0 ∨ i = 1 := by omega
    · cases hr; cases hx
      rw [encFields_flatten]
      refine ⟨_, _, _, _, _, _, ⟨0, col _ _ (by decide), rfl⟩, ?_, ?_, ⟨0, rfl, ?_⟩, ?_, ?_, rfl⟩
      · rw [hs]; exact col _ _ (by decide)
      · rw [hs]; exact col _ _ (by decide)
      · rw [hcoded]; exact col _ _ (by decide)
      · rw [hi]; exact col _ _ (by decide)
      · rw [hi]; exact col _ _ (by decide)
    · cases hr; cases hx
      rw [encFields_flatten]
      refine ⟨_, _, _, _, _, _, ⟨0, col _ _ (by decide), rfl⟩, ?_, ?_, ⟨1, rfl, ?_⟩, ?_, ?_, rfl⟩
      · rw [hs]; exact col _ _ (by decide)
      · rw [hs]; exact col _ _ (by decide)
      · rw [hcoded]; exact col _ _ (by decide)
      · rw [hi]; exact col _ _ (by decide)
      · rw [hi]; exact col _ _ (by decide)
  · refine table_of rfl (by simp [methodRows, typed]) fun i r x hr hx => ?_
    simp only [methodRows, typed, List.getElem?_mapIdx, Option.map_eq_some_iff] at hr hx
    obtain ⟨p, hp, rfl⟩ := hr
    obtain ⟨p', hp', rfl⟩ := hx
    have hlt := (List.getElem?_eq_some_iff.mp hp).1
    have h1 := bodyAt_lt hP i
    have h2 := sigAt_le hp
    have h3 := before_le (·.params) P i
    rw [encFields_flatten]
    refine ⟨_, _, _, _, _, _, ?_, ⟨0, col _ _ (by decide), rfl⟩, ⟨0x16, col _ _ (by decide), rfl⟩, ?_, ?_, ?_, rfl⟩
    · exact col 4 (bodyAt P i) (by omega)
    · rw [hs]; exact col 2 (nameAt P.length i) (by unfold nameAt; omega)
    · rw [hb]; exact col 2 (sigAt P i) (by omega)
    · rw [hi]; exact col 2 (paramAt P i) (by unfold paramAt; omega)
  · refine table_of rfl (by simp [paramRows, typed, typedParams]) fun i r x hr hx => ?_
    simp only [paramRows, typed, typedParams, List.getElem?_map, Option.map_eq_some_iff] at hr hx
    obtain ⟨j, hj, rfl⟩ := hr
    obtain ⟨j', hj', rfl⟩ := hx
    obtain rfl : j = j' := Option.some.inj (hj.symm.trans hj')
    have := paramNumbers_le hP (List.mem_of_getElem? hj)
    rw [encFields_flatten]
    refine ⟨_, _, _, ⟨0, col _ _ (by decide), rfl⟩, col 2 (j + 1) (by omega), ?_, rfl⟩
    rw [hs]; exact col _ _ (by decide)
  · refine table_of rfl (by simp [localsRows, typed]) fun i r x hr hx => ?_
    simp only [localsRows, typed, List.getElem?_mapIdx, Option.map_eq_some_iff] at hr hx
    obtain ⟨p, hp, rfl⟩ := hr
    obtain ⟨p', hp', rfl⟩ := hx
    obtain rfl : p = p' := Option.some.inj (hp.symm.trans hp')
    have h2 := sigAt_le hp
    rw [encFields_flatten]
    refine ⟨_, ?_, rfl⟩
    rw [hb]; exact col 2 (localsAt P i p) (by unfold localsAt; omega)
  · refine table_of rfl rfl fun i r x hr hx => ?_
    obtain rfl : i = 0 := by have := (List.getElem?_eq_some_iff.mp hr).1; simp only [assemblyRows, List.length_cons, List.length_nil] at this; omega
    cases hr; cases hx
    rw [encFields_flatten]
    refine ⟨_, _, _, _, _, _, _, _, _, ⟨0, col _ _ (by decide), rfl⟩, col _ _ (by decide), col _ _ (by decide), col _ _ (by decide), col _ _ (by decide),
      ⟨0, col _ _ (by decide), rfl⟩, ?_, ?_, ?_, rfl⟩
    · rw [hb]; exact col _ _ (by decide)
    · rw [hs]; exact col _ _ (by decide)
    · rw [hs]; exact col _ _ (by decide)
  · refine table_of rfl rfl fun i r x hr hx => ?_
    obtain rfl : i = 0 := by have := (List.getElem?_eq_some_iff.mp hr).1; simp only [assemblyRefRows, List.length_cons, List.length_nil] at this; omega
    cases hr; cases hx
    rw [encFields_flatten]
    refine ⟨_, _, _, _, _, _, _, _, _, col _ _ (by decide), col _ _ (by decide), col _ _ (by decide), col _ _ (by decide),
      ⟨0, col _ _ (by decide), rfl⟩, ?_, ?_, ?_, ?_, rfl⟩
    · rw [hb]; exact col _ _ (by decide)
    · rw [hs]; exact col _ _ (by decide)
    · rw [hs]; exact col _ _ (by decide)
    · rw [hb]; exact col _ _ (by decide)
  · simp only [assemble, tables, List.map_cons, List.map_nil, List.flatten_cons, List.flatten_nil, List.append_nil, List.nil_append]
    rfl

theorem valid_eq (P : Program) : (assemble P).valid = 2 ^ 0x00 + 2 ^ 0x01 + 2 ^ 0x02 + 2 ^ 0x06 + 2 ^ 0x08 + 2 ^ 0x11 + 2 ^ 0x20 + 2 ^ 0x23 := by
  simp only [assemble, tables, List.map_cons, List.map_nil, List.sum_cons, List.sum_nil]
  decide

theorem headerFits {P : Program} (hP : P.Legal) : HeaderFits (assemble P).sizes [0, 0, 0, 0, 2, 0] (assemble P).valid 0 := by
  have hv : (assemble P).valid = 2 ^ 0x00 + 2 ^ 0x01 + 2 ^ 0x02 + 2 ^ 0x06 + 2 ^ 0x08 + 2 ^ 0x11 + 2 ^ 0x20 + 2 ^ 0x23 := valid_eq P
  refine ⟨rfl, by rw [hv]; decide, by decide, ?_, ?_⟩
  · intro i; exact Nat.lt_trans (rowCounts_lt hP i) (by decide)
  · intro i _ h
    by_cases hr : rowCounts P i = 0
    · exact hr
    · have := rowCounts_in hr
      rw [hv] at h
      have key : ∀ i ∈ [0x00, 0x01, 0x02, 0x06, 0x08, 0x11, 0x20, 0x23], (2 ^ 0x00 + 2 ^ 0x01 + 2 ^ 0x02 + 2 ^ 0x06 + 2 ^ 0x08 + 2 ^ 0x11 + 2 ^ 0x20 + 2 ^ 0x23 : Nat).testBit i = true := by decide
      rw [key i this] at h; cases h

theorem handled {P : Program} (hP : P.Legal) (c : Contents) (hc : c = assemble P) : FileParts.Handled ⟨c.image, c.cli, c.strings, c.blob, c.guid, none, c.sizes, typed P⟩ := by
  subst hc
  refine ⟨?_, ⟨?_, ?_⟩, ?_⟩
  · intro i _ h
    by_cases hr : rowCounts P i = 0
    · exact hr
    · have := rowCounts_in hr
      have key : ∀ i ∈ [0x00, 0x01, 0x02, 0x06, 0x08, 0x11, 0x20, 0x23], i ∈ supportedTables := by decide
      exact absurd (key i this) h
  · intro k ty _ h
    have h1 := rowCounts_lt hP ty.code
    have h2 : 2 ^ 11 ≤ 2 ^ (16 - codedBits k) := Nat.pow_le_pow_right (by decide) (by have := codedBits_le k; omega)
    have h3 : rowCounts P ty.code = 2 ^ (16 - codedBits k) := h
    omega
  · exact rowCounts_lt hP (TableType.declSecurity.code)
  · intro row h; cases h

theorem rows_le {l : List (List (Nat × Nat))} {n : Nat} (h : ∀ r ∈ l, (r.map (·.1)).sum ≤ n) : ((l.map encFields).flatten).length ≤ n * l.length := by
  induction l with
  | nil => simp
  | cons r l ih =>
    have h1 := h r (by simp)
    have h2 := ih fun r hr => h r (List.mem_cons_of_mem _ hr)
    rw [List.map_cons, List.flatten_cons, List.length_append, encFields_length, List.length_cons, Nat.mul_add]
    omega

/-! ## Names and blobs -/

def fixedNames : Bytes := [0, 97, 112, 112, 0, 99, 111, 114, 101, 0, 83, 121, 115, 116, 101, 109, 0, 79, 98, 106, 101, 99, 116, 0, 80, 0, 120, 0,
  60, 77, 111, 100, 117, 108, 101, 62, 0]

theorem stringsHeap_eq (n : Nat) : ∃ post, stringsHeap n = fixedNames ++ (List.replicate n 0x66 ++ 0 :: post) := by
  have h : utf8 "\x00app\x00core\x00System\x00Object\x00P\x00x\x00<Module>\x00".toList = fixedNames := by decide
  unfold stringsHeap pad4
  rw [h, List.append_assoc, List.append_assoc, List.singleton_append]
  exact ⟨_, rfl⟩

theorem fixed_name (n : Nat) (i : Nat) (s : List Char) (h : fixedNames = fixedNames.take i ++ utf8 s ++ 0 :: fixedNames.drop (i + (utf8 s).length + 1))
    (hi : (fixedNames.take i).length = i) (h0 : (0 : UInt8) ∉ utf8 s) : HeapText (stringsHeap n) i s := by
  obtain ⟨post, hp⟩ := stringsHeap_eq n
  refine ⟨fixedNames.take i, fixedNames.drop (i + (utf8 s).length + 1) ++ (List.replicate n 0x66 ++ 0 :: post), ?_, hi, h0⟩
  rw [hp]
  conv => lhs; rw [h]
  simp only [List.append_assoc, List.cons_append]

theorem utf8_f (n : Nat) : utf8 (List.replicate n 'f') = List.replicate n 0x66 := by
  induction n with
  | zero => rfl
  | succ n ih => rw [List.replicate_succ, utf8, ih, List.replicate_succ]; rfl

theorem proc_name {n f : Nat} (h : f < n) : HeapText (stringsHeap n) (nameAt n f) (List.replicate (f + 1) 'f') := by
  obtain ⟨post, hp⟩ := stringsHeap_eq n
  refine ⟨fixedNames ++ List.replicate (n - (f + 1)) 0x66, post, ?_, ?_, ?_⟩
  · rw [hp, utf8_f, List.append_assoc, List.append_assoc, ← List.append_assoc (List.replicate _ _) (List.replicate _ _), List.replicate_append_replicate]
    congr 4; omega
  · rw [List.length_append, List.length_replicate]; rfl
  · rw [utf8_f]; intro h; have := (List.mem_replicate.mp h).2; exact absurd this (by decide)

theorem mapIdx_const {α β : Type} (g : α → β) (l : List α) : l.mapIdx (fun _ a => g a) = l.map g := by
  apply List.ext_getElem? ; intro i; simp

theorem blobs_at {P : Program} {f : Nat} {p : Proc} (hp : P[f]? = some p) :
    ∃ pre post, blobHeap P = pre ++ (sigBlob p ++ (localsBlob p ++ post)) ∧ pre.length = sigAt P f := by
  obtain ⟨pre, post, h1, h2⟩ := flatten_mapIdx_at (fun _ p => sigBlob p ++ localsBlob p) (fun p => (sigBlob p ++ localsBlob p).length) P (fun _ _ => rfl) hp
  rw [mapIdx_const] at h1
  refine ⟨0 :: pre, post ++ List.replicate ((4 - (0 :: (P.map fun p => sigBlob p ++ localsBlob p).flatten).length % 4) % 4) 0, ?_, ?_⟩
  · unfold blobHeap pad4
    rw [h1]
    simp only [List.cons_append, List.append_assoc]
  · rw [List.length_cons, h2, sigAt]; omega

theorem fits {P : Program} (hP : P.Legal) : (assemble P).Fits := by
  have hcount := hP.count
  have hparams := hP.params
  have hblob := hP.blob
  have hcode := hP.code
  refine ⟨?_, (by decide : 0x06000000 < 2 ^ 32), headerFits hP⟩
  rw [metadata_length]
  have hv : (assemble P).valid = 2 ^ 0x00 + 2 ^ 0x01 + 2 ^ 0x02 + 2 ^ 0x06 + 2 ^ 0x08 + 2 ^ 0x11 + 2 ^ 0x20 + 2 ^ 0x23 := valid_eq P
  have h1 : (assemble P).bodies = bodies P := rfl
  have h2 : (assemble P).blob = blobHeap P := rfl
  have h3 : (assemble P).guid.length = 16 := rfl
  have h4 : (assemble P).strings.length ≤ 50 + P.length := by
    obtain ⟨post, hp⟩ := stringsHeap_eq P.length
    have e : (assemble P).strings = stringsHeap P.length := rfl
    have hl : (utf8 "\x00app\x00core\x00System\x00Object\x00P\x00x\x00<Module>\x00".toList).length = 37 := by decide
    rw [e, stringsHeap, pad4_length, List.length_append, hl, List.length_append, List.length_replicate]
    simp only [List.length_cons, List.length_nil]
    omega
  have hm : (((methodRows P).map encFields).flatten).length ≤ 14 * P.length := by
    have := rows_le (l := methodRows P) (n := 14) (by
      intro r hr
      obtain ⟨i, hi, rfl⟩ := List.mem_iff_getElem.mp hr
      simp [methodRows, methodRow])
    simpa [methodRows] using this
  have hp : (((paramRows P).map encFields).flatten).length ≤ 6 * before (·.params) P P.length := by
    have := rows_le (l := paramRows P) (n := 6) (by
      intro r hr
      obtain ⟨i, _, rfl⟩ := List.mem_map.mp hr
      simp)
    rwa [paramRows_length] at this
  have hl : (((localsRows P).map encFields).flatten).length ≤ 2 * P.length := by
    have := rows_le (l := localsRows P) (n := 2) (by
      intro r hr
      obtain ⟨i, hi, rfl⟩ := List.mem_iff_getElem.mp hr
      simp [localsRows])
    simpa [localsRows] using this
  have h5 : (assemble P).tableStream.length ≤ 400 + 16 * P.length + 6 * before (·.params) P P.length := by
    have e1 : (encTableHeader (assemble P).sizes [0, 0, 0, 0, 2, 0] 1 (assemble P).valid 0).length = 56 := by
      rw [hv]
      have hp : presentTables (2 ^ 0x00 + 2 ^ 0x01 + 2 ^ 0x02 + 2 ^ 0x06 + 2 ^ 0x08 + 2 ^ 0x11 + 2 ^ 0x20 + 2 ^ 0x23) =
          [0x00, 0x01, 0x02, 0x06, 0x08, 0x11, 0x20, 0x23] := by decide
      simp only [encTableHeader, hp, List.map_cons, List.map_nil, List.flatten_cons, List.flatten_nil, List.length_append, length_leBytes, List.length_cons,
        List.length_nil]
    have e2 : (assemble P).rows = (tables P).flatMap fun t => (t.2.map encFields).flatten := by
      simp only [assemble, List.flatMap_def]
    have e3 : ((moduleRows.map encFields).flatten).length = 10 := by decide
    have e4 : ((typeRefRows.map encFields).flatten).length = 6 := by decide
    have e5 : ((typeDefRows.map encFields).flatten).length = 28 := by decide
    have e6 : ((assemblyRows.map encFields).flatten).length = 22 := by decide
    have e7 : ((assemblyRefRows.map encFields).flatten).length = 20 := by decide
    rw [Contents.tableStream, pad4_length, List.length_append, e1, e2]
    simp only [tables, List.flatMap_cons, List.flatMap_nil, List.append_nil, List.length_append, e3, e4, e5, e6, e7]
    omega
  rw [h1, h2, h3]
  omega

end Clr.Source
