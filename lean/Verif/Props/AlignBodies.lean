import Verif.Lemmas.AlignBodies
import Verif.Props.MethodBody
/-! # C101: addresses of method bodies and user strings -/

namespace Clr
open Spec Reader

/-- **C101, bodies.** A body with a fat header, in a file at address `base`, is loaded with aligned accesses if it is at a multiple
of four and has no small clauses; otherwise loading it is undefined behaviour. (The signature of the locals is read without
checks.) -/
theorem C101_bodies (base : Nat) (cfg : Cfg) (m : Metadata) (rva off : Nat) (b : Fat) (pad : Bytes) (hb : b.Fits)
    (hpad : pad.length = b.padLength) (hat : RegionAt m rva (b.enc pad))
    (hoff : resolveRva cfg rva m.peInfo.sections = .ok off) (es : List ElementType)
    (hl : LocalsOf m b.localToken es) (w w' : World) (ts : List Nat) (hts : ResolveAll cfg m w es ts w')
    (xs : List ExceptionClause) (hxs : Each (ClauseMeans m w') b.sections.clauses xs) :
    (b.FitsAt (base + off) → Strict.loadBody base cfg m rva w = loadBody cfg m rva w) ∧
      (¬ b.FitsAt (base + off) → (Strict.loadBody base cfg m rva w).1 = .ub) := by
  have h := sloadBody_fat (base := base) hb hpad hat hoff hl hts hxs
  exact ⟨fun hf => (h.1 hf).trans (loadBody_fat cfg hb hpad hat hl hts hxs).symm, h.2⟩

/-- **C101, bodies.** A body with a small clause is loaded with aligned accesses at no address. -/
theorem C101_bodies_never (base : Nat) (cfg : Cfg) (m : Metadata) (rva off : Nat) (b : Fat) (pad : Bytes) (hb : b.Fits)
    (hpad : pad.length = b.padLength) (hat : RegionAt m rva (b.enc pad))
    (hoff : resolveRva cfg rva m.peInfo.sections = .ok off) (es : List ElementType)
    (hl : LocalsOf m b.localToken es) (w w' : World) (ts : List Nat) (hts : ResolveAll cfg m w es ts w')
    (xs : List ExceptionClause) (hxs : Each (ClauseMeans m w') b.sections.clauses xs)
    (c : Clause) (cs : List Clause) (hs : b.sections = .small (c :: cs)) :
    (Strict.loadBody base cfg m rva w).1 = .ub :=
  (C101_bodies base cfg m rva off b pad hb hpad hat hoff es hl w w' ts hts xs hxs).2 fun h => by
    have := h.2
    rw [hs] at this
    cases this

/-- **C101, bodies.** A tiny body is loaded the same at every address. -/
theorem C101_bodies_tiny (base : Nat) (cfg : Cfg) (m : Metadata) (rva : Nat) (code : Bytes) (hc : code.length < 64)
    (hat : RegionAt m rva (tinyBody code)) (w : World) : Strict.loadBody base cfg m rva w = loadBody cfg m rva w :=
  sloadBody_tiny hc hat

theorem stringFitsAt_iff (n a : Nat) :
    StringFitsAt n a ↔ a % (encUnsigned (2 * n + 1)).length = 0 ∧ (a + (encUnsigned (2 * n + 1)).length) % 2 = 0 := by
  rw [encUnsigned_length]
  unfold StringFitsAt
  by_cases h1 : n < 64
  · rw [if_pos h1, if_pos (show 2 * n + 1 < 0x80 by omega)]; omega
  · rw [if_neg h1, if_neg (show ¬ 2 * n + 1 < 0x80 by omega)]
    by_cases h2 : n < 8192
    · rw [if_pos h2, if_pos (show 2 * n + 1 < 0x4000 by omega)]; omega
    · rw [if_neg h2, if_neg (show ¬ 2 * n + 1 < 0x4000 by omega)]; omega

/-- **C101, strings.** A user string is read with aligned accesses if it is at an address for a string of its length, and
otherwise reading it is undefined behaviour. -/
theorem C101_strings (base : Nat) (cfg : Cfg) (pre post : Bytes) (units : List Nat) (last : UInt8)
    (hu : ∀ u ∈ units, u < 2 ^ 16) (hl : 2 * units.length + 1 < 2 ^ 29) (hpre : pre.length < 2 ^ 24)
    (hpost : post.length < 2 ^ 62) :
    Strict.getString base cfg (pre ++ encUserString units last ++ post) ⟨0x70000000 + pre.length⟩ =
      if StringFitsAt units.length (base + pre.length) then .ok (some units) else .ub := by
  have ht := token_table 0x70 pre.length hpre (by decide)
  have hi := token_index 0x70 pre.length hpre
  have e : 0x70 * 2 ^ 24 + pre.length = 0x70000000 + pre.length := by omega
  rw [e] at ht hi
  have hd : (pre ++ encUserString units last ++ post).drop pre.length = encUserString units last ++ post := by simp
  have hlen : ((units.map (leBytes 2)).flatten ++ [last]).length = 2 * units.length + 1 := by
    simp only [List.length_append, units_length, List.length_singleton]
  unfold Strict.getString
  rw [if_pos ht, hi, sliceFrom_ok (by simp), hd]
  simp only [Res.ok_bind]
  unfold encUserString
  obtain ⟨k, hk⟩ : ∃ k, (encUnsigned (2 * units.length + 1)).length = k := ⟨_, rfl⟩
  rw [snewBlobReader_enc (by omega) hpost, hlen, hk]
  obtain ⟨r', hr⟩ := sreadUtf16Str_enc (base := base + pre.length + k) (cfg := cfg) units last hu (by omega)
  have key := stringFitsAt_iff units.length (base + pre.length)
  rw [hk] at key
  by_cases h : (base + pre.length) % k = 0
  · rw [if_pos h]
    simp only [Res.toOption, Res.ok_bind]
    rw [hr]
    by_cases h2 : (base + pre.length + k) % 2 = 0
    · rw [if_pos h2, if_pos (key.2 ⟨h, h2⟩)]
      rfl
    · rw [if_neg h2, if_neg fun x => h2 (key.1 x).2]
      rfl
  · rw [if_neg h, if_neg fun x => h (key.1 x).1]
    rfl

/-! ### A heap as compilers lay it out -/

/-- The heap of user strings: a zero byte, then the strings one behind the other. -/
def Spec.stringHeap (ss : List (List Nat × UInt8)) : Bytes := 0 :: (ss.map fun s => encUserString s.1 s.2).flatten

theorem encUserString_length (units : List Nat) (last : UInt8) :
    (encUserString units last).length = (encUnsigned (2 * units.length + 1)).length + 2 * units.length + 1 := by
  unfold encUserString encBlob
  simp only [List.length_append, units_length, List.length_singleton]
  omega

theorem shortStrings_odd : ∀ ss : List (List Nat × UInt8), (∀ s ∈ ss, s.1.length < 64) → (stringHeap ss).length % 2 = 1
  | [], _ => rfl
  | s :: ss, h => by
    have ih := shortStrings_odd ss fun t ht => h t (by simp [ht])
    have h1 := h s (by simp)
    have h2 := encUserString_length s.1 s.2
    rw [encUnsigned_length, if_pos (by omega)] at h2
    simp only [stringHeap, List.map_cons, List.flatten_cons, List.length_cons, List.length_append] at ih ⊢
    omega

/-- The string behind `before`, in a heap of strings. -/
theorem stringHeap_at (before after : List (List Nat × UInt8)) (s : List Nat × UInt8) :
    stringHeap (before ++ s :: after) =
      stringHeap before ++ encUserString s.1 s.2 ++ (after.map fun s => encUserString s.1 s.2).flatten := by
  simp [stringHeap]

/-- **C101, strings.** In a heap of strings of fewer than 64 units each, at an even address, all strings are read with aligned
accesses. -/
theorem C101_strings_short (base : Nat) (cfg : Cfg) (before after : List (List Nat × UInt8)) (s : List Nat × UInt8)
    (hs : ∀ t ∈ before ++ [s], t.1.length < 64) (hu : ∀ u ∈ s.1, u < 2 ^ 16)
    (hsize : (stringHeap (before ++ s :: after)).length < 2 ^ 24) (hb : base % 2 = 0) :
    Strict.getString base cfg (stringHeap (before ++ s :: after)) ⟨0x70000000 + (stringHeap before).length⟩ =
      .ok (some s.1) := by
  have h1 := hs s (by simp)
  have h2 := shortStrings_odd before fun t ht => hs t (by simp [ht])
  rw [stringHeap_at] at hsize ⊢
  simp only [List.length_append] at hsize
  rw [C101_strings base cfg _ _ s.1 s.2 hu (by omega) (by omega) (by omega), if_pos]
  unfold StringFitsAt
  rw [if_pos h1]
  omega

/-- **C101, strings, refuted.** If a string of 64 units or more comes behind shorter ones, no address of the heap lets both it and the
first of the shorter ones be read with aligned accesses. -/
theorem C101_strings_never (base : Nat) (cfg : Cfg) (s : List Nat × UInt8) (between after : List (List Nat × UInt8))
    (t : List Nat × UInt8) (hs : ∀ x ∈ s :: between, x.1.length < 64) (ht : 64 ≤ t.1.length)
    (hu : ∀ u ∈ s.1 ++ t.1, u < 2 ^ 16) (hsize : (stringHeap (s :: between ++ t :: after)).length < 2 ^ 24) :
    Strict.getString base cfg (stringHeap (s :: between ++ t :: after)) ⟨0x70000001⟩ = .ub ∨
    Strict.getString base cfg (stringHeap (s :: between ++ t :: after)) ⟨0x70000000 + (stringHeap (s :: between)).length⟩ = .ub := by
  have h1 := hs s (by simp)
  have h2 := shortStrings_odd (s :: between) hs
  by_cases hb : base % 2 = 0
  · right
    have hl := encUserString_length t.1 t.2
    rw [stringHeap_at] at hsize ⊢
    simp only [List.length_append] at hsize
    rw [C101_strings base cfg _ _ t.1 t.2 (fun u hu' => hu u (by simp [hu'])) (by omega) (by omega) (by omega), if_neg]
    unfold StringFitsAt
    rw [if_neg (by omega)]
    split <;> omega
  · left
    have e : s :: between ++ t :: after = [] ++ s :: (between ++ t :: after) := rfl
    rw [e, stringHeap_at] at hsize ⊢
    simp only [List.length_append] at hsize
    have := C101_strings base cfg (stringHeap []) _ s.1 s.2 (fun u hu' => hu u (by simp [hu'])) (by omega) (by decide)
      (by omega : ((between ++ t :: after).map fun s => encUserString s.1 s.2).flatten.length < 2 ^ 62)
    refine this.trans (if_neg ?_)
    unfold StringFitsAt
    rw [if_pos h1]
    show ¬ (base + 1) % 2 = 1
    omega

/-! ### Instances -/

namespace Ex

/-- The body of `Ex.fatEx`, with fat clauses: loaded at a multiple of four, not at other addresses; with small clauses at none. -/
example : (fatEx .fat).FitsAt (0x1000 + 16) ∧ ¬ (fatEx .fat).FitsAt (0x1002 + 16) ∧ ¬ (fatEx .small).FitsAt (0x1000 + 16) := by
  decide +kernel
example : resolveRva Cfg.debug 0x2010 (fatMeta .small [1, 2, 3]).peInfo.sections = .ok 16 := by decide +kernel
example : (Strict.loadBody 0x1000 Cfg.debug (fatMeta .fat [1, 2, 3]) 0x2010 fatWorld).1 =
      .ok ⟨[0x00, 0x00, 0x00, 0x00, 0x2a], 3, [0, 4], true, fatClauses⟩ ∧
    (Strict.loadBody 0x1002 Cfg.debug (fatMeta .fat [1, 2, 3]) 0x2010 fatWorld).1 = .ub ∧
    (Strict.loadBody 0x1000 Cfg.debug (fatMeta .small [1, 2, 3]) 0x2010 fatWorld).1 = .ub := by decide +kernel

/-- "ab", "c", and a string of 64 units. -/
example : (∀ t ∈ [([0x61, 0x62], (0 : UInt8)), ([0x63], 0)], t.1.length < 64) ∧
    Strict.getString 0x1000 Cfg.debug (stringHeap [([0x61, 0x62], 0), ([0x63], 0), (List.replicate 64 0x64, 0)]) ⟨0x70000001⟩ =
      .ok (some [0x61, 0x62]) ∧
    Strict.getString 0x1000 Cfg.debug (stringHeap [([0x61, 0x62], 0), ([0x63], 0), (List.replicate 64 0x64, 0)]) ⟨0x70000007⟩ =
      .ok (some [0x63]) ∧
    Strict.getString 0x1000 Cfg.debug (stringHeap [([0x61, 0x62], 0), ([0x63], 0), (List.replicate 64 0x64, 0)]) ⟨0x7000000b⟩ = .ub ∧
    Strict.getString 0x1001 Cfg.debug (stringHeap [([0x61, 0x62], 0), ([0x63], 0), (List.replicate 64 0x64, 0)]) ⟨0x70000001⟩ = .ub := by
  decide +kernel

end Ex
end Clr
