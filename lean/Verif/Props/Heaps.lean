import Verif.Lemmas.Heaps
import Verif.Lemmas.Blob
import Verif.Model.UserString
/-! # C12, C13, C15: heaps and tokens -/

namespace Clr
open Reader Spec

/-! ## C12 -/

/-- A client making a sequence of lookups and ignoring the answers. -/
def lookups (h : StringsHeap) : List Nat → Res StringsHeap
  | [] => .ok h
  | i :: is => do
    let (_, h) ← h.get i
    lookups h is

theorem lookups_ok : ∀ (is : List Nat) (h : StringsHeap), CacheOk h →
    ∃ h', lookups h is = .ok h' ∧ h'.data = h.data ∧ CacheOk h'
  | [], h, hc => ⟨h, rfl, rfl, hc⟩
  | i :: is, h, hc => by
    obtain ⟨res, h1, e, d, c, _⟩ := StringsHeap.get_spec hc i
    obtain ⟨h2, e2, d2, c2⟩ := lookups_ok is h1 c
    exact ⟨h2, by simp [lookups, e, e2], d2.trans d, c2⟩

/-- **C12.** After any sequence of earlier lookups, a lookup at `i` returns text `s` exactly when the heap stores `s`
at `i` (UTF-8 bytes, then a NUL); otherwise it returns nothing. It never panics. -/
theorem C12_lookup_exact (heap : Bytes) (history : List Nat) (i : Nat) :
    ∃ h' res h'', lookups (StringsHeap.new heap) history = .ok h' ∧ h'.get i = .ok (res, h'') ∧
      ∀ s, res = some s ↔ HeapText heap i s := by
  obtain ⟨h', e, d, c⟩ := lookups_ok history _ (CacheOk.new heap)
  obtain ⟨res, h'', e2, _, _, hs⟩ := StringsHeap.get_spec c i
  refine ⟨h', res, h'', e, e2, fun s => ?_⟩
  rw [hs s, d]; rfl

theorem utf8_append (a b : List Char) : utf8 (a ++ b) = utf8 a ++ utf8 b := by
  induction a with
  | nil => rfl
  | cons c a ih => simp [utf8, ih]

/-- **C12**, suffixes: if `a ++ b` is stored at `i`, a lookup at `i + |utf8 a|` returns `b`. -/
theorem C12_suffix (heap : Bytes) (history : List Nat) (i : Nat) (a b : List Char) (h : HeapText heap i (a ++ b)) :
    ∃ h' h'', lookups (StringsHeap.new heap) history = .ok h' ∧ h'.get (i + (utf8 a).length) = .ok (some b, h'') := by
  obtain ⟨h', res, h'', e1, e2, hs⟩ := C12_lookup_exact heap history (i + (utf8 a).length)
  have : HeapText heap (i + (utf8 a).length) b := by
    obtain ⟨p, q, e, l, n⟩ := h
    rw [utf8_append] at e n
    refine ⟨p ++ utf8 a, q, by simp [e], by simp [l], fun hm => n (by simp [hm])⟩
  have hb := (hs b).2 this
  subst hb
  exact ⟨h', h'', e1, e2⟩

/-- C12, instance: "ab" and its suffix "b" in a heap with other strings, after other lookups. -/
example : HeapText [0, 97, 98, 0, 0xc3, 0xa9, 0] 1 ['a', 'b'] ∧
    (do let h ← lookups (StringsHeap.new [0, 97, 98, 0, 0xc3, 0xa9, 0]) [4, 1, 9, 2]
        let (x, h) ← h.get 2
        let (y, h) ← h.get 5
        let (z, _) ← h.get 4
        pure (x, y, z)) = (.ok (some ['b'], none, some ['é']) : Res _) := by
  constructor
  · exact ⟨[0], [0xc3, 0xa9, 0], by decide, by decide, by decide⟩
  · decide

/-! ## C13 -/

theorem newBlobReader_enc (cfg : Cfg) {content t : Bytes} (hl : content.length < 2 ^ 29) (ht : t.length < 2 ^ 62) :
    newBlobReader cfg (encBlob content ++ t) = .ok (Reader.new content) := by
  have h4 : (encUnsigned content.length).length ≤ 4 := by unfold encUnsigned; split <;> (try split) <;> simp
  have hok : (Reader.new (encBlob content ++ t)).Ok := Ok.new (by simp [encBlob]; omega)
  unfold newBlobReader
  rw [readCompressed_at cfg (t := content ++ t) hok hl (by simp [encBlob])]
  simp only [Res.mapErr_ok, Res.ok_bind]
  have hp : (((Reader.new (encBlob content ++ t)).skip (encUnsigned content.length).length).pos) =
    (encUnsigned content.length).length := by simp [Reader.new]
  rw [hp, uadd_ok (by omega)]
  simp only [Res.ok_bind]
  rw [slice_ok (by simp [encBlob])]
  simp [encBlob]

theorem readUtf16Str_enc (cfg : Cfg) (units : List Nat) (last : UInt8) (hu : ∀ u ∈ units, u < 2 ^ 16)
    (hl : 2 * units.length < 2 ^ 29) :
    readUtf16Str cfg (Reader.new ((units.map (leBytes 2)).flatten ++ [last])) =
      .ok (units, (Reader.new ((units.map (leBytes 2)).flatten ++ [last])).skip (units.length * 2)) := by
  have hlen : (units.map (leBytes 2)).flatten.length = 2 * units.length := by
    clear hl hu
    induction units with
    | nil => rfl
    | cons u us ih => simp only [List.map_cons, List.flatten_cons, List.length_append, ih, length_leBytes, List.length_cons]; omega
  unfold readUtf16Str
  have hd : (Reader.new ((units.map (leBytes 2)).flatten ++ [last])).data.length / 2 = (units.map (leBytes 2)).length := by
    simp only [Reader.new, List.length_append, hlen, List.length_map, List.length_singleton]; omega
  rw [hd, readArray_at cfg (t := [last]) (Ok.new (by simp only [List.length_append, hlen, List.length_singleton]; omega))
    (by simp) (by simp)]
  have hm : ∀ us : List Nat, (∀ u ∈ us, u < 2 ^ 16) → (us.map (leBytes 2)).map leNat = us := by
    intro us hus
    induction us with
    | nil => rfl
    | cons u us ih =>
      simp only [List.map_cons, List.cons.injEq]
      exact ⟨leNat_leBytes 2 u (by have := hus u (by simp); omega), ih fun v hv => hus v (by simp [hv])⟩
  simp only [Res.ok_bind, Res.pure_eq, hm units hu, List.length_map]

/-- **C13.** A literal stored at offset `o` of the user-string heap is returned by the token `0x70 : o` as exactly its
code units, whatever stands before and after it. -/
theorem C13_user_string (cfg : Cfg) (pre post : Bytes) (units : List Nat) (last : UInt8)
    (hu : ∀ u ∈ units, u < 2 ^ 16) (hl : 2 * units.length + 1 < 2 ^ 29) (hpre : pre.length < 2 ^ 24)
    (hpost : post.length < 2 ^ 62) :
    getString cfg (pre ++ encUserString units last ++ post) ⟨0x70000000 + pre.length⟩ = .ok (some units) := by
  have ht : (Token.mk (0x70000000 + pre.length)).table = 0x70 := by
    simp only [Token.table]
    rw [Nat.shiftRight_and_distrib]
    have : (0x70000000 + pre.length) >>> 24 = 0x70 := by rw [Nat.shiftRight_eq_div_pow]; omega
    rw [this]; decide
  have hi : (Token.mk (0x70000000 + pre.length)).index = pre.length := by
    simp only [Token.index]
    have : (0xffffff : Nat) = 2 ^ 24 - 1 := by decide
    rw [this, Nat.and_two_pow_sub_one_eq_mod]; omega
  unfold getString
  rw [if_pos ht, hi, sliceFrom_ok (by simp)]
  have hd : (pre ++ encUserString units last ++ post).drop pre.length = encUserString units last ++ post := by simp
  simp only [Res.ok_bind]
  rw [hd]
  have hlen : ((units.map (leBytes 2)).flatten ++ [last]).length < 2 ^ 29 := by
    have : (units.map (leBytes 2)).flatten.length = 2 * units.length := by
      clear hl hu hd
      induction units with
      | nil => rfl
      | cons u us ih => simp only [List.map_cons, List.flatten_cons, List.length_append, ih, length_leBytes, List.length_cons]; omega
    simp only [List.length_append, this, List.length_singleton]; omega
  unfold encUserString
  rw [newBlobReader_enc cfg hlen hpost]
  simp only [Res.toOption, Res.ok_bind]
  rw [readUtf16Str_enc cfg units last hu (by omega)]
  rfl

/-- C13, instance: "Hé" between other heap contents. -/
example : getString Cfg.debug ([0, 3, 65, 0, 0] ++ encUserString [0x48, 0xe9] 1 ++ [7, 7]) ⟨0x70000005⟩ =
    .ok (some [0x48, 0xe9]) := by decide

/-! ## C15 -/

/-- **C15.** A token built from a table code and an index below 2^24 reports both. -/
theorem C15_unpack (index table : Nat) (hi : index < 2 ^ 24) (ht : table < 2 ^ 8) :
    (Token.new index table).table = table ∧ (Token.new index table).index = index ∧
      (Token.new index table).raw < 2 ^ 32 := by
  have e : (Token.new index table).raw = table * 2 ^ 24 + index := by
    simp only [Token.new]
    rw [Nat.mod_eq_of_lt (by omega), Nat.or_comm, ← Nat.shiftLeft_add_eq_or_of_lt hi, Nat.shiftLeft_eq]
  refine ⟨?_, ?_, by omega⟩
  · simp only [Token.table, e]
    rw [Nat.shiftRight_and_distrib]
    have h1 : (table * 2 ^ 24 + index) >>> 24 = table := by rw [Nat.shiftRight_eq_div_pow]; omega
    have h2 : (0xff000000 : Nat) >>> 24 = 2 ^ 8 - 1 := by decide
    rw [h1, h2, Nat.and_two_pow_sub_one_eq_mod]; omega
  · simp only [Token.index, e]
    have : (0xffffff : Nat) = 2 ^ 24 - 1 := by decide
    rw [this, Nat.and_two_pow_sub_one_eq_mod]; omega

/-- **C15**, injectivity: tokens of in-range parts are equal only if the parts are. -/
theorem C15_injective (i₁ t₁ i₂ t₂ : Nat) (h₁ : i₁ < 2 ^ 24) (h₂ : t₁ < 2 ^ 8) (h₃ : i₂ < 2 ^ 24) (h₄ : t₂ < 2 ^ 8)
    (h : Token.new i₁ t₁ = Token.new i₂ t₂) : i₁ = i₂ ∧ t₁ = t₂ := by
  have a := C15_unpack i₁ t₁ h₁ h₂
  have b := C15_unpack i₂ t₂ h₃ h₄
  rw [h] at a
  exact ⟨a.2.1.symm.trans b.2.1, a.1.symm.trans b.1⟩

/-- C15, instance: a MethodDef token. -/
example : Token.new 5 6 = ⟨0x06000005⟩ ∧ (Token.mk 0x0a00012c).table = 0xa ∧ (Token.mk 0x0a00012c).index = 300 := by
  decide

end Clr
