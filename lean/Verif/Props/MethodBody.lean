import Verif.Lemmas.MethodBody
import Verif.Lemmas.Examples
/-! # C31, C32, C33: method bodies -/

namespace Clr
open Spec Reader

/-- **C31.** A tiny body yields exactly its code, a maximum stack of 8, no locals and no clauses, and leaves the registry
alone. `RegionAt` says only where the body starts; what follows it in the file is arbitrary. -/
theorem C31_tiny (cfg : Cfg) (m : Metadata) (rva : Nat) (code : Bytes) (hc : code.length < 64)
    (hat : RegionAt m rva (tinyBody code)) (w : World) :
    ∃ b, loadBody cfg m rva w = (.ok b, w) ∧ b.code = code ∧ b.maxStack = 8 ∧ b.locals = [] ∧ b.clauses = [] := by
  obtain ⟨flag, h⟩ := loadBody_tiny cfg hc hat w
  exact ⟨_, h, rfl, rfl, rfl, rfl⟩

/-- **C32.** A fat body without extra sections yields its code, maximum stack and init-locals flag, and as locals the
types of its local variable signature in order (`ResolveAll`: resolved one after the other). -/
theorem C32_fat (cfg : Cfg) (m : Metadata) (rva : Nat) (b : Fat) (hb : b.Fits) (hs : b.sections = .absent)
    (hat : RegionAt m rva (b.enc [])) (es : List ElementType) (hl : LocalsOf m b.localToken es) (w w' : World)
    (ts : List Nat) (hts : ResolveAll cfg m w es ts w') :
    loadBody cfg m rva w =
      (.ok { code := b.code, maxStack := b.maxStack, locals := ts, initLocals := b.initLocals, clauses := [] }, w') :=
  loadBody_fat cfg hb (by simp [Fat.padLength, hs, Sections.present]) hat hl hts (by rw [hs]; exact .nil)

/-- **C33.** The exception clauses of a fat body, in either section format and after any padding content, are decoded to
the same list in the same order, with everything else of C32. -/
theorem C33_clauses (cfg : Cfg) (m : Metadata) (rva : Nat) (b : Fat) (pad : Bytes) (hb : b.Fits)
    (hpad : pad.length = b.padLength) (hat : RegionAt m rva (b.enc pad)) (es : List ElementType)
    (hl : LocalsOf m b.localToken es) (w w' : World) (ts : List Nat) (hts : ResolveAll cfg m w es ts w')
    (xs : List ExceptionClause) (hxs : Each (ClauseMeans m w') b.sections.clauses xs) :
    loadBody cfg m rva w =
      (.ok { code := b.code, maxStack := b.maxStack, locals := ts, initLocals := b.initLocals, clauses := xs }, w') :=
  loadBody_fat cfg hb hpad hat hl hts hxs

/-! ## Instances -/

namespace Ex

/-- A file that is a body at address 0x2010 followed by `tail`. -/
def bodyFile (body tail : Bytes) : Bytes := List.replicate 16 0xcc ++ body ++ tail

theorem bodyAt (body tail strings blob : Bytes) (tables : Tables) (h : (bodyFile body tail).length < 2 ^ 63) :
    RegionAt (metadata (bodyFile body tail) strings blob tables) 0x2010 body where
  small := h
  place := by
    refine ⟨[sec], sec, tail, rfl, ?_, ?_, by simp, ?_, ?_, ?_⟩
    · intro s hs; simp at hs; subst hs; exact ⟨by decide, by decide⟩
    · intro s hs t ht _ _; simp at hs ht; rw [hs, ht]
    · exact ⟨by decide, by decide⟩
    · show 16 ≤ _
      simp only [metadata, bodyFile, List.length_append, List.length_replicate]; omega
    · show List.drop 16 _ = _
      simp [metadata, bodyFile]

/-- C31, instance: `ldc.i4.1; ret`. -/
example : RegionAt (metadata (bodyFile (tinyBody [0x17, 0x2a]) [9, 9]) [] [] noRows) 0x2010 (tinyBody [0x17, 0x2a]) :=
  bodyAt _ _ _ _ _ (by decide +kernel)
example : loadBody Cfg.debug (metadata (bodyFile (tinyBody [0x17, 0x2a]) [9, 9]) [] [] noRows) 0x2010 {} =
    (.ok ⟨[0x17, 0x2a], 8, [], false, []⟩, {}) := by decide +kernel

/-- A body with an `int` and a `string[]` local and three clauses: typed (class `N.E`), filter, finally. -/
def fatEx (s : List Clause → Sections) : Fat where
  initLocals := true
  size := 0x30
  maxStack := 3
  localToken := 0x11 * 2 ^ 24 + 1
  code := [0x00, 0x00, 0x00, 0x00, 0x2a]
  sections := s [⟨.typed, 0, 2, 2, 2, 1 * 2 ^ 24 + 1⟩, ⟨.filter, 0, 1, 2, 1, 3⟩, ⟨.finallyBlock, 0, 4, 4, 1, 0⟩]

def fatBlob : Bytes := [0] ++ encBlob (0x07 :: (encUnsigned 2 ++ encElems [.int, .szArray .string])) ++ []

def fatTables : Tables :=
  { noRows with
    standaloneSig := [⟨1⟩]
    typeRef := [⟨⟨.module, 1⟩, 3, 1⟩] }

/-- Strings heap: `N` at 1, `E` at 3. -/
def fatStrings : Bytes := [0, 0x4e, 0, 0x45, 0]

def fatMeta (s : List Clause → Sections) (pad : Bytes) : Metadata :=
  metadata (bodyFile ((fatEx s).enc pad) [7]) fatStrings fatBlob fatTables

/-- A registry with the four types the body needs. -/
def fatWorld : World :=
  (((World.addType {} { id := 0, name := "Int32".toList, nspace := "System".toList, fullName := "System.Int32".toList, assembly := 0, isAbstract := false }).addType
    { id := 1, name := "String".toList, nspace := "System".toList, fullName := "System.String".toList, assembly := 0, isAbstract := false }).addType
    { id := 2, name := "Array".toList, nspace := "System".toList, fullName := "System.Array".toList, assembly := 0, isAbstract := true }).addType
    { id := 3, name := "E".toList, nspace := "N".toList, fullName := "N.E".toList, assembly := 0, isAbstract := false }

def fatWorld' : World := (typeFor Cfg.debug (fatMeta .small [1, 2, 3]) (.szArray .string) fatWorld).2

def fatClauses : List ExceptionClause :=
  [⟨.catches, 0, 2, 2, 2, some 3, none⟩, ⟨.filters, 0, 1, 2, 1, none, some 3⟩, ⟨.finallys, 0, 4, 4, 1, none, none⟩]

/-- C33, instance: the hypotheses hold (three bytes of padding), and the result is the expected one, for both formats. -/
example : (fatEx .small).Fits ∧ ([1, 2, 3] : Bytes).length = (fatEx .small).padLength ∧
    RegionAt (fatMeta .small [1, 2, 3]) 0x2010 ((fatEx .small).enc [1, 2, 3]) ∧
    LocalsOf (fatMeta .small [1, 2, 3]) (fatEx .small).localToken [.int, .szArray .string] ∧
    ResolveAll Cfg.debug (fatMeta .small [1, 2, 3]) fatWorld [.int, .szArray .string] [0, 4] fatWorld' ∧
    Each (ClauseMeans (fatMeta .small [1, 2, 3]) fatWorld') (fatEx .small).sections.clauses fatClauses := by
  refine ⟨by decide +kernel, by decide, bodyAt _ _ _ _ _ (by decide +kernel), ?_, ?_, ?_⟩
  · exact .row 0x11 1 ⟨1⟩ _ [0] [] (by decide) (by decide) rfl (by simp [ElemsFit, ElemFits]) (by decide) (by decide)
      (by decide +kernel) rfl rfl
  · exact .cons (w1 := fatWorld) (by decide +kernel) (.cons (w1 := fatWorld') (by decide +kernel) (.nil _))
  · have hrow : RowName (fatMeta .small [1, 2, 3]) (1 * 2 ^ 24 + 1) "N.E".toList :=
      .typeRef 1 _ ['E'] ['N'] (by decide) (by decide) rfl (by decide +kernel) (by decide +kernel)
    refine .cons ⟨rfl, rfl, rfl, rfl, rfl, ?_, rfl⟩ (.cons ⟨rfl, rfl, rfl, rfl, rfl, rfl, rfl⟩
      (.cons ⟨rfl, rfl, rfl, rfl, rfl, rfl, rfl⟩ .nil))
    exact ⟨"N.E".toList, 3, hrow, by decide +kernel, rfl⟩
example : (loadBody Cfg.debug (fatMeta .small [1, 2, 3]) 0x2010 fatWorld).1 =
      .ok ⟨[0x00, 0x00, 0x00, 0x00, 0x2a], 3, [0, 4], true, fatClauses⟩ ∧
    (loadBody Cfg.release (fatMeta .fat [0, 0, 0]) 0x2010 fatWorld).1 =
      .ok ⟨[0x00, 0x00, 0x00, 0x00, 0x2a], 3, [0, 4], true, fatClauses⟩ := by decide +kernel

/-- C32, instance: the same body without sections. -/
example : (fatEx fun _ => .absent).Fits ∧ RegionAt (fatMeta (fun _ => .absent) []) 0x2010 ((fatEx fun _ => .absent).enc []) :=
  ⟨by decide +kernel, bodyAt _ _ _ _ _ (by decide +kernel)⟩

end Ex
end Clr
