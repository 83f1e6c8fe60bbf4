import Verif.Spec.Provided
import Verif.Lemmas.SourceTables
import Verif.Lemmas.SourceRun

/-! # Files of the assembler are well-formed -/

namespace Clr.Source
open Spec

/-- The reading of the tables of an assembled program. -/
def decls (P : Program) : Decls where
  name k := if k = 0 then "<Module>".toList else "P".toList
  base k := if k = 0 then none else some "System.Object".toList
  static _ := false
  fieldType _ := .int
  fieldTypeName _ := "System.Int32".toList
  method j := match P[j - 1]? with
    | some p => sigOf p
    | none => ⟨false, false, false, 0, .int, []⟩
  impl j := match P[j - 1]? with
    | some p => .fat (bodyOf (j - 1) p) [] (List.replicate p.locals .int)
    | none => .absent

section
variable {cfg : Cfg} {P : Program} {m : Metadata} {w : World}

theorem string_of {t : FileParts} {data : Bytes} (h : t.ReadAs cfg data m) {i : Nat} {s : List Char} (hs : HeapText t.strings i s) :
    m.string i = .ok (some s) := by
  obtain ⟨r, h1, h2⟩ := h.strings i
  rw [h1, (h2 s).mpr hs]

theorem encElems_ints (n : Nat) : encElems (List.replicate n .int) = List.replicate n 0x08 := by
  induction n with
  | zero => rfl
  | succ n ih => rw [List.replicate_succ, encElems, ih, List.replicate_succ]; rfl

theorem elemsFit_ints (n : Nat) : ElemsFit (List.replicate n .int) := by
  induction n with
  | zero => exact trivial
  | succ n ih => exact ⟨by simp [ElemFits], ih⟩

theorem bracketsAll_ints (n : Nat) : bracketsAll (List.replicate n .int) = 0 := by
  induction n with
  | zero => rfl
  | succ n ih => rw [List.replicate_succ, bracketsAll, ih]; rfl

theorem sumRun_zero {f : Nat → Nat} (h : ∀ j, f j = 0) (s n : Nat) : sumRun f s n = 0 := by
  induction n with
  | zero => rfl
  | succ n ih => rw [sumRun, ih, h]

/-- Where the body of a procedure is in the file. -/
theorem body_at {f : Nat} {p : Proc} (hp : P[f]? = some p) :
    ∃ tail, (assemble P).file.drop (0x200 + before bodySize P f) = (bodyOf f p).enc [] ++ tail ∧
      0x200 + before bodySize P f + 12 ≤ (assemble P).file.length := by
  obtain ⟨pre, post, h1, h2⟩ := flatten_mapIdx_at (fun f p => pad4 ((bodyOf f p).enc [])) bodySize P (fun f p => body_length f p) hp
  have e : (assemble P).file = ((assemble P).pre ++ pre) ++ ((bodyOf f p).enc [] ++
      (List.replicate ((4 - ((bodyOf f p).enc []).length % 4) % 4) 0 ++ (post ++ ((assemble P).cli.enc ++ (assemble P).metadata)))) := by
    rw [file_eq]
    have : (assemble P).bodies = bodies P := rfl
    rw [this, bodies, h1, pad4]
    simp only [List.append_assoc]
  have hl : ((assemble P).pre ++ pre).length = 0x200 + before bodySize P f := by rw [List.length_append, pre_length, h2]
  refine ⟨List.replicate ((4 - ((bodyOf f p).enc []).length % 4) % 4) 0 ++ (post ++ ((assemble P).cli.enc ++ (assemble P).metadata)), ?_, ?_⟩
  · rw [e, ← hl, List.drop_left]
  · rw [e, List.length_append, hl]
    have : 12 ≤ ((bodyOf f p).enc []).length := by
      simp only [Fat.enc, bodyOf, List.length_cons, List.length_append, length_leBytes]; omega
    rw [List.length_append]; omega

theorem region {x : Tables} (h : ((assemble P).parts x).ReadAs cfg (assemble P).file m) {f : Nat} {p : Proc} (hp : P[f]? = some p) :
    RegionAt m (bodyAt P f) ((bodyOf f p).enc []) := by
  obtain ⟨tail, h1, h2⟩ := body_at hp
  refine h.regions _ _ _ tail ⟨_, List.mem_singleton.mpr rfl, ?_, ?_⟩ (by omega) h1
  · have := file_length (assemble P)
    refine ⟨Nat.le_add_right _ _, ?_⟩
    show bodyAt P f < 0x2000 + ((assemble P).bodies.length + 72 + (assemble P).metadata.length)
    unfold bodyAt; omega
  · show _ = 0x200 + (bodyAt P f - 0x2000)
    unfold bodyAt; omega

theorem params_at {f : Nat} {p : Proc} (hp : P[f]? = some p) {i : Nat} (hi : i < p.params) : (typedParams P)[before (·.params) P f + i]? ≠ none := by
  have := before_next (size := (·.params)) hp
  rw [ne_eq, List.getElem?_eq_none_iff, typedParams_length]
  omega

theorem locals_of (hP : P.Legal) {x : Tables} (hx : x = typed P) (h : ((assemble P).parts x).ReadAs cfg (assemble P).file m) {f : Nat} {p : Proc}
    (hp : P[f]? = some p) : LocalsOf m (bodyOf f p).localToken (List.replicate p.locals .int) := by
  have hlocals := (hP.procs p (List.mem_of_getElem? hp)).2.1
  have hcount := hP.count
  have hf := (List.getElem?_eq_some_iff.mp hp).1
  show LocalsOf m (if p.locals = 0 then 0 else 0x11 * 2 ^ 24 + (f + 1)) _
  split
  · next h0 => rw [h0]; exact .none 0
  · next h0 =>
    obtain ⟨pre, post, h1, h2⟩ := blobs_at hp
    have hl : localTypes p = List.replicate p.locals .int := by unfold localTypes; rw [Nat.max_eq_left (by omega)]
    refine .row 0x11 (f + 1) ⟨localsAt P f p⟩ _ (pre ++ sigBlob p) post (by omega) (by omega) ?_ (elemsFit_ints _) (by rw [List.length_replicate]; omega) ?_ ?_ ?_ ?_
    · rw [h.tables, show ((assemble P).parts x).tables = x from rfl, hx]
      show (P.mapIdx _)[f + 1 - 1]? = _
      rw [Nat.add_sub_cancel, List.getElem?_mapIdx, hp]; rfl
    · rw [encElems_ints, List.length_replicate]; omega
    · rw [h.heap]
      have := hP.blob
      exact Nat.lt_trans this (by decide)
    · rw [h.heap]
      show blobHeap P = _
      rw [h1, localsBlob, hl]
      simp only [List.append_assoc]
    · rw [List.length_append, h2]; rfl

theorem methodOk (hP : P.Legal) (hw : Provided cfg w) {x : Tables} (hx : x = typed P) (h : ((assemble P).parts x).ReadAs cfg (assemble P).file m)
    {f : Nat} {p : Proc} (hp : P[f]? = some p) (declaring : Name) : MethodOk m w (decls P) declaring (f + 1) (typedMethod P f) := by
  have hproc := hP.procs p (List.mem_of_getElem? hp)
  have hf := (List.getElem?_eq_some_iff.mp hp).1
  have hint : Resolvable m w .int "System.Int32".toList :=
    ⟨_, .builtin (n := "System.Int32") rfl, .inl (hw.types _ (by simp [numberNames]))⟩
  have e1 : (decls P).method (f + 1) = sigOf p := by simp only [decls, Nat.add_sub_cancel, hp]
  have e2 : (decls P).impl (f + 1) = .fat (bodyOf f p) [] (List.replicate p.locals .int) := by simp only [decls, Nat.add_sub_cancel, hp]
  obtain ⟨pre, post, h1, h2⟩ := blobs_at hp
  have hb := hP.blob
  refine ⟨?_, ?_, ⟨_, by rw [e1]; exact hint⟩, ?_, ?_, ⟨_, string_of h (proc_name hf), ?_⟩⟩
  · rw [e1]
    refine ⟨?_, pre, localsBlob p ++ post, ?_, h2.symm, ?_⟩
    · have := sigAt_le hp
      have h3 : (encMethodSig (sigOf p)).length ≤ (sigBlob p).length := by simp [sigBlob, encBlob]
      omega
    · rw [h.heap]
      show blobHeap P = _
      rw [h1, sigBlob]; simp only [List.append_assoc]
    · have := congrArg List.length h1
      simp only [List.length_append] at this ⊢
      omega
  · rw [e1]
    exact ⟨by show 0 < 2 ^ 29; decide, by show (List.replicate p.params ElementType.int).length < _; rw [List.length_replicate]; omega, by simp [sigOf, ElemFits], elemsFit_ints _⟩
  · rw [e1]
    intro e he
    rw [(List.mem_replicate.mp he).2]
    exact ⟨_, hint⟩
  · rw [e1]
    intro i hi
    have hi' : i < p.params := by simpa [sigOf] using hi
    refine ⟨by show 1 ≤ paramAt P f; unfold paramAt; omega, ?_⟩
    have hq := params_at hp hi'
    cases hrow : (typedParams P)[before (·.params) P f + i]? with
    | none => exact absurd hrow hq
    | some prow =>
      refine ⟨prow, "x".toList, ?_, ?_⟩
      · rw [h.tables, show ((assemble P).parts x).tables = x from rfl, hx]
        show (typedParams P)[paramAt P f - 1 + i]? = _
        rw [← hrow]; congr 1; unfold paramAt; omega
      · obtain ⟨j, _, rfl⟩ := List.mem_map.mp (List.mem_of_getElem? hrow)
        exact string_of h (fixed_name P.length 26 "x".toList (by decide) (by decide) (by decide))
  · rw [e2]
    refine .fat (show plainImpl.internalCall = false by decide) (show publicStatic.pinvokeImpl = false by decide) (show publicStatic.isAbstract = false by decide) ⟨by show 0xffff < 2 ^ 16; decide, ?_, ?_, by simp [bodyOf, Sections.Fits]⟩ rfl (region h hp)
      (locals_of hP hx h hp) ?_ ?_
    · have := code_le (List.mem_of_getElem? hp)
      have := hP.code
      show p.code.length < _; omega
    · have := hP.count
      show (if p.locals = 0 then 0 else 0x11 * 2 ^ 24 + (f + 1)) < _
      split <;> omega
    · intro e he
      rw [(List.mem_replicate.mp he).2]
      exact ⟨_, hint⟩
    · intro c hc; cases hc

theorem wellFormed (hP : P.Legal) (hw : Provided cfg w) {x : Tables} (hx : x = typed P) (h : ((assemble P).parts x).ReadAs cfg (assemble P).file m)
    (he : m.entryPoint = none) : WellFormed (fun _ => True) m w (decls P) := by
  have hcount := hP.count
  have ht : m.tables = typed P := by rw [h.tables]; exact hx
  have e0 : m.string 0 = .ok (some []) := string_of h (fixed_name P.length 0 [] (by decide) (by decide) (by decide))
  have n0 : RowNamed m (.typeDef 1) "<Module>".toList :=
    .typeDef 1 ⟨plainType, 28, 0, ⟨.typeDef, 0⟩, 1, 1⟩ "<Module>".toList [] (by decide) (by rw [ht]; rfl)
      (string_of h (fixed_name P.length 28 "<Module>".toList (by decide) (by decide) (by decide))) e0
  have n1 : RowNamed m (.typeDef 2) "P".toList :=
    .typeDef 2 ⟨plainType, 24, 0, ⟨.typeRef, 1⟩, 1, 1⟩ "P".toList [] (by decide) (by rw [ht]; rfl)
      (string_of h (fixed_name P.length 24 "P".toList (by decide) (by decide) (by decide))) e0
  have n2 : RowNamed m (.typeRef 1) "System.Object".toList :=
    .typeRef 1 ⟨⟨.assemblyRef, 1⟩, 17, 10⟩ "Object".toList "System".toList (by decide) (by rw [ht]; rfl)
      (string_of h (fixed_name P.length 17 "Object".toList (by decide) (by decide) (by decide)))
      (string_of h (fixed_name P.length 10 "System".toList (by decide) (by decide) (by decide)))
  have ho : Registered w "System.Object".toList := hw.types _ (by simp)
  have lm : m.tables.methodDef.length = P.length := by rw [ht]; simp [typed]
  have lf : m.tables.field.length = 0 := by rw [ht]; rfl
  refine ⟨fun n hn => .inl (hw.types n (List.mem_append_left _ hn)), .inl (hw.types _ (by simp)), ?_, ?_, ?_, ?_, ?_, ?_, ?_, ?_, ?_, ?_, ?_, ?_⟩
  · intro k hk
    rw [ht] at hk
    obtain rfl | rfl : k = 0 ∨ k = 1 := by have : k < 2 := hk; omega
    · exact n0
    · exact n1
  · intro k row hrow
    rw [ht] at hrow
    have hk : k < 2 := (List.getElem?_eq_some_iff.mp hrow).1
    obtain rfl | rfl : k = 0 ∨ k = 1 := by omega
    · cases hrow; exact .none rfl
    · cases hrow; exact .some n2 (.inl ho)
  · rw [lf, ht]; show Partition [1, 1] 0; decide
  · rw [lm, ht]
    show Partition [1, 1] P.length
    refine ⟨by simp, by simp, by decide, ?_⟩
    intro s hs
    obtain rfl : s = 1 := by simpa using hs
    omega
  · intro j row hrow
    have hj := (List.getElem?_eq_some_iff.mp hrow).1
    rw [lf] at hj; omega
  · intro k j row hown hrow
    rw [ht] at hrow
    simp only [typed, List.getElem?_mapIdx, Option.map_eq_some_iff] at hrow
    obtain ⟨p, hp, rfl⟩ := hrow
    exact methodOk hP hw hx h hp _
  · intro row hrow
    rw [ht] at hrow; cases hrow
  · intro k hk
    rw [ht] at hk
    obtain rfl : k = 0 := by have : k < 1 := hk; omega
    exact ⟨_, n2, ho⟩
  · intro row hrow _
    rw [ht] at hrow; cases hrow
  · intro e hee
    rw [he] at hee; cases hee
  · rw [lf, lm]; exact ⟨by decide, by omega⟩
  · have hc := hw.count
    have e1 : m.tables.typeDef.length = 2 := by rw [ht]; rfl
    rw [lf, lm, e1, sumRun_zero, sumRun_zero]
    · omega
    · intro j
      unfold methodBrackets
      simp only [decls]
      cases P[j - 1]? with
      | none => rfl
      | some p => simp only [sigOf, bracketsAll_ints]; rfl
    · intro j; rfl

def isRef (n : Name) : Prop := n ∈ ["System.Object".toList, "System.Array".toList]
def rankOf (n : Name) : Nat := if n = "P".toList then 1 else 0
def sizeOf (n : Name) : Nat := if n = "P".toList then 2 ^ 33 else 2 ^ 32

theorem sizeOf_ge (n : Name) : 2 ^ 32 ≤ sizeOf n := by unfold sizeOf; split <;> decide
theorem sizeOf_lt (n : Name) : sizeOf n < 2 ^ 34 := by unfold sizeOf; split <;> decide

theorem finiteSizes (hw : Provided cfg w) (ht : m.tables = typed P) : FiniteSizes cfg m w (decls P) isRef rankOf sizeOf := by
  have lf : m.tables.field.length = 0 := by rw [ht]; rfl
  have ef : m.tables.typeDef.map (·.fieldList) = [1, 1] := by rw [ht]; rfl
  have hrun : ∀ k, runLength [1, 1] 0 k = 0 := by
    intro k
    match k with
    | 0 => rfl
    | 1 => rfl
    | k + 2 => unfold runLength; simp
  have hbase : ∀ k, baseWeight sizeOf ((decls P).base k) ≤ 2 ^ 32 := by
    intro k
    simp only [decls]
    split
    · exact Nat.zero_le _
    · show sizeOf "System.Object".toList ≤ _; decide
  refine ⟨by unfold isRef; decide, by unfold isRef; decide, ?_, ?_, ?_, ?_, ?_, ?_, ?_, ?_, ?_, ?_, ?_⟩
  · exact hw.references
  · intro k hk hr b hb
    simp only [decls] at hb
    split at hb
    · cases hb
    · cases hb; unfold isRef; decide
  · intro k hk b hb _
    simp only [decls] at hb ⊢
    split at hb
    · cases hb
    · next h0 => cases hb; rw [if_neg h0]; decide
  · rw [lf]; intro j h1 h2; omega
  · rw [lf]
    rintro k j ⟨⟨s, h1, h2⟩, h3, h4⟩
    rw [ef] at h1
    have := List.mem_of_getElem? h1
    simp at this
    omega
  · intro t r hr
    obtain ⟨h1, fuel, s, h2, h3⟩ := hw.sizes t r hr
    exact ⟨h1, fuel, s, h2, Nat.le_trans h3 (sizeOf_ge _)⟩
  · intro n _; exact Nat.le_trans (by decide) (sizeOf_ge n)
  · rw [lf]; intro j h1 h2; omega
  · intro k row hrow _
    rw [lf, ef, hrun, sumRun]
    have := hbase k
    have := sizeOf_ge ((decls P).name k)
    omega
  · intro k _; exact Nat.lt_trans (sizeOf_lt _) (by decide)
  · intro k row hrow
    rw [lf, ef, hrun, sumRun]
    have := hbase k
    omega

/-- The integer program in the file. -/
def absProc (P : Program) (p : Proc) : Abs.Proc := ⟨p.code, p.params, p.locals, true, methodRowOf P.length⟩

theorem intProg_of (ht : m.tables = typed P) {f : Nat} {p : Proc} (hp : P[f]? = some p) : intProg m (decls P) (f + 1) = some (absProc P p) := by
  have e1 : (decls P).method (f + 1) = sigOf p := by simp only [decls, Nat.add_sub_cancel, hp]
  have e2 : (decls P).impl (f + 1) = .fat (bodyOf f p) [] (List.replicate p.locals .int) := by simp only [decls, Nat.add_sub_cancel, hp]
  have hall : ∀ n, (List.replicate n ElementType.int).all isInt = true := by
    intro n; rw [List.all_eq_true]; intro e he; rw [(List.mem_replicate.mp he).2]; rfl
  unfold intProg
  rw [e1, e2, if_pos, if_pos (show (sigOf p).params.all isInt = true from hall p.params)]
  · have hl : m.tables.methodDef.length = P.length := by rw [ht]; simp [typed]
    simp only [sigOf, intResult, intBody, hall, if_true, List.length_replicate, hl]
    rfl
  · refine ⟨by omega, ?_⟩
    rw [ht, Nat.add_sub_cancel]
    show ((P.mapIdx fun f _ => typedMethod P f)[f]?).any _ = true
    rw [List.getElem?_mapIdx, hp]
    show publicStatic.isStatic = true
    decide

end

end Clr.Source
