import Verif.Lemmas.Reader
/-! # C01–C04: the binary reader -/

namespace Clr
open Spec

/-! ## C01 -/

/-- Base-256 digit `i` of a little-endian byte string is its `i`-th byte. -/
theorem leNat_digit (bs : Bytes) (i : Nat) (b : UInt8) (h : bs[i]? = some b) :
    leNat bs / 256 ^ i % 256 = b.toNat := by
  induction bs generalizing i with
  | nil => simp at h
  | cons x bs ih =>
    have hx : x.toNat < 256 := x.toNat_lt
    cases i with
    | zero => simp at h; subst h; simp [leNat]
    | succ i =>
      simp at h
      have := ih i h
      rw [Nat.pow_succ, Nat.mul_comm, ← Nat.div_div_eq_div_mul]
      have h2 : leNat (x :: bs) / 256 = leNat bs := by simp [leNat]; omega
      rw [h2]; exact this

/-- **C01.** A `w`-byte read at `p` succeeds exactly when `p + w ≤ length`. The value is below `256 ^ w` and its
base-256 digits, least significant first, are the bytes `p, p+1, …`; the position becomes `p + w`. Otherwise
nothing is returned and the position stays. The outcome is never a panic or undefined behaviour. -/
theorem C01_read_exact (cfg : Cfg) (data : Bytes) (p w : Nat) (haddr : p + w < 2 ^ 64) :
    (p + w ≤ data.length →
      ∃ v, Reader.readU cfg ⟨data, p⟩ w = .ok (some v, ⟨data, p + w⟩) ∧ v < 256 ^ w ∧
        ∀ i, i < w → ∃ b : UInt8, data[p + i]? = some b ∧ v / 256 ^ i % 256 = b.toNat) ∧
    (data.length < p + w → Reader.readU cfg ⟨data, p⟩ w = .ok (none, ⟨data, p⟩)) := by
  rw [Reader.readU_eq cfg ⟨data, p⟩ w haddr]
  constructor
  · intro h
    have h' : (Reader.mk data p).pos + w ≤ (Reader.mk data p).data.length := h
    rw [if_pos h']
    refine ⟨_, rfl, ?_, ?_⟩
    · have := leNat_lt ((Reader.mk data p).rest.take w)
      have hl : ((Reader.mk data p).rest.take w).length = w := by
        simp [Reader.length_rest]; omega
      rwa [hl] at this
    · intro i hi
      have hlt : p + i < data.length := by omega
      refine ⟨data[p + i], by simp [hlt], ?_⟩
      apply leNat_digit
      simp [Reader.rest, hi, hlt]
  · intro h
    have h' : ¬ ((Reader.mk data p).pos + w ≤ (Reader.mk data p).data.length) := by
      simp only [Nat.not_le]; exact h
    rw [if_neg h']

/-- C01, instance: a two-byte read in the middle of a buffer, and one that does not fit. -/
example : Reader.readU Cfg.debug ⟨[9, 0x34, 0x12, 7], 1⟩ 2 = .ok (some 0x1234, ⟨[9, 0x34, 0x12, 7], 3⟩) ∧
    Reader.readU Cfg.release ⟨[9, 0x34, 0x12, 7], 3⟩ 2 = .ok (none, ⟨[9, 0x34, 0x12, 7], 3⟩) := by decide

/-- The address hypothesis of C01 is needed: a position near `2^64` (reachable with `goto`) makes a read
panic in both build modes instead of returning nothing. -/
theorem C01_address_limit_refuted :
    ∀ cfg : Cfg, Reader.readU cfg ((Reader.new [1, 2, 3, 4]).goto (2 ^ 64 - 1)).2 4 = .panic := by
  rintro ⟨b⟩; cases b <;> decide

/-! ## C02 -/

/-- `n` successive scalar reads of `w` bytes (specification of an array read). -/
def Spec.readTimes (cfg : Cfg) (w : Nat) : Nat → Reader → Res (List Bytes × Reader)
  | 0, r => .ok ([], r)
  | n + 1, r => do
    match ← r.read cfg w with
    | (some b, r') => do
      let (bs, r'') ← readTimes cfg w n r'
      pure (b :: bs, r'')
    | (none, _) => .err "end of data"

theorem readTimes_eq (cfg : Cfg) (w n : Nat) (r : Reader) (h : r.pos + n * w < 2 ^ 64)
    (hl : r.pos + n * w ≤ r.data.length) :
    readTimes cfg w n r = .ok (chunks w n (r.rest.take (n * w)), r.skip (n * w)) := by
  induction n generalizing r with
  | zero => simp [readTimes, chunks]
  | succ n ih =>
    rw [Nat.succ_mul] at h hl
    have hr := Reader.read_eq cfg r w (by omega)
    rw [if_pos (by omega)] at hr
    have ihr := ih (r.skip w) (by simp; omega) (by simp; omega)
    simp only [readTimes, hr, Res.ok_bind, ihr, Res.pure_eq, Reader.skip_skip, chunks, Res.ok.injEq,
      Prod.mk.injEq, List.cons.injEq]
    refine ⟨⟨?_, ?_⟩, ?_⟩
    · rw [Nat.succ_mul, List.take_take, Nat.min_eq_left (by omega)]
    · rw [Reader.rest_skip, Nat.succ_mul, List.drop_take]; congr 1; congr 1; omega
    · rw [Nat.succ_mul, Nat.add_comm]

/-- **C02.** An array read of `n` elements of `w` bytes succeeds exactly when `n * w` bytes remain; its elements
and final position are those of `n` successive scalar reads; on failure the position is unchanged. -/
theorem C02_read_array (cfg : Cfg) (data : Bytes) (p w n : Nat) (haddr : p + n * w < 2 ^ 64) :
    (p + n * w ≤ data.length →
      ∃ xs, Reader.readArray cfg ⟨data, p⟩ w n = .ok (some xs, ⟨data, p + n * w⟩) ∧ xs.length = n ∧
        Spec.readTimes cfg w n ⟨data, p⟩ = .ok (xs, ⟨data, p + n * w⟩)) ∧
    (data.length < p + n * w → Reader.readArray cfg ⟨data, p⟩ w n = .ok (none, ⟨data, p⟩)) := by
  have ha : (Reader.mk data p).pos + n * w < 2 ^ 64 := haddr
  rw [Reader.readArray_eq cfg ⟨data, p⟩ w n ha]
  constructor
  · intro h
    have h' : (Reader.mk data p).pos + n * w ≤ (Reader.mk data p).data.length := h
    rw [if_pos h']
    exact ⟨_, rfl, by simp, readTimes_eq cfg w n ⟨data, p⟩ ha h'⟩
  · intro h
    have h' : ¬ ((Reader.mk data p).pos + n * w ≤ (Reader.mk data p).data.length) := by
      simp only [Nat.not_le]; exact h
    rw [if_neg h']

example : Reader.readArray Cfg.debug ⟨[0, 1, 2, 3, 4], 1⟩ 2 2 = .ok (some [[1, 2], [3, 4]], ⟨[0, 1, 2, 3, 4], 5⟩) ∧
    Spec.readTimes Cfg.debug 2 2 ⟨[0, 1, 2, 3, 4], 1⟩ = .ok ([[1, 2], [3, 4]], ⟨[0, 1, 2, 3, 4], 5⟩) ∧
    Reader.readArray Cfg.debug ⟨[0, 1, 2, 3, 4], 2⟩ 2 2 = .ok (none, ⟨[0, 1, 2, 3, 4], 2⟩) := by decide

/-- The product of count and width matters: in release builds a count whose product with the width wraps
passes the bounds check and yields an out-of-range slice (undefined behaviour). -/
theorem C02_count_overflow_refuted :
    Reader.readArray Cfg.release (Reader.new [1, 2, 3, 4]) 2 (2 ^ 63) = .ub := by decide

/-! ## C03 -/

/-- **C03, scalars.** A peek gives what the read would give, for every reader state. -/
theorem C03_peek_scalar (cfg : Cfg) (r : Reader) (w : Nat) (haddr : r.pos + w < 2 ^ 64) :
    ∃ v r', r.read cfg w = .ok (v, r') ∧ r.peek cfg w = .ok v := by
  rw [Reader.read_eq cfg r w haddr, Reader.peek_eq cfg r w haddr]
  by_cases h : r.pos + w ≤ r.data.length
  · exact ⟨_, _, by rw [if_pos h], by rw [if_pos h]⟩
  · exact ⟨_, _, by rw [if_neg h], by rw [if_neg h]⟩

/-- **C03, arrays: refuted.** An array that ends exactly at the end of the buffer can be read but not peeked. -/
theorem C03_peek_array_refuted :
    ∃ (r : Reader) (w n : Nat), ∀ cfg,
      (∃ xs r', r.readArray cfg w n = .ok (some xs, r')) ∧ r.peekArray cfg w n = .ok none := by
  refine ⟨Reader.new [0x4d, 0x5a], 1, 2, ?_⟩
  rintro ⟨b⟩
  cases b
  · exact ⟨⟨[[0x4d], [0x5a]], ⟨[0x4d, 0x5a], 2⟩, by decide⟩, by decide⟩
  · exact ⟨⟨[[0x4d], [0x5a]], ⟨[0x4d, 0x5a], 2⟩, by decide⟩, by decide⟩

/-- **C03, arrays, partial.** Peek and read agree on arrays except when the array ends exactly at the end of the
buffer. Missing: that one boundary, where the code differs (`C03_peek_array_refuted`). -/
theorem C03_peek_array_partial (cfg : Cfg) (r : Reader) (w n : Nat) (haddr : r.pos + n * w < 2 ^ 64)
    (hne : r.pos + n * w ≠ r.data.length) :
    ∃ v r', r.readArray cfg w n = .ok (v, r') ∧ r.peekArray cfg w n = .ok v := by
  rw [Reader.readArray_eq cfg r w n haddr, Reader.peekArray_eq cfg r w n haddr]
  by_cases h : r.pos + n * w ≤ r.data.length
  · exact ⟨_, _, by rw [if_pos h], by rw [if_pos (by omega)]⟩
  · exact ⟨_, _, by rw [if_neg h], by rw [if_neg (by omega)]⟩

example : ∃ v r', (Reader.new [1, 2, 3]).readArray Cfg.debug 1 2 = .ok (some v, r') ∧
    (Reader.new [1, 2, 3]).peekArray Cfg.debug 1 2 = .ok (some v) :=
  ⟨[[1], [2]], ⟨[1, 2, 3], 2⟩, by decide, by decide⟩

/-! ## C04 -/

/-- **C04, fixed length.** Reading `n` bytes as a string: with too few bytes nothing is consumed; otherwise exactly
`n` bytes are consumed and the result is `cs` precisely when the bytes before the first NUL are the UTF-8
encoding of `cs`. -/
theorem C04_read_str (cfg : Cfg) (data : Bytes) (p n : Nat) (haddr : p + n < 2 ^ 64) :
    (data.length < p + n → Reader.readStr cfg ⟨data, p⟩ n = .ok (none, ⟨data, p⟩)) ∧
    (p + n ≤ data.length → ∃ res, Reader.readStr cfg ⟨data, p⟩ n = .ok (res, ⟨data, p + n⟩) ∧
      ∀ cs, res = some cs ↔ utf8 cs = ((data.drop p).take n).takeWhile (· ≠ 0)) := by
  have ha : (Reader.mk data p).pos + n < 2 ^ 64 := haddr
  rw [Reader.readStr_eq cfg ⟨data, p⟩ n ha]
  constructor
  · intro h
    have h' : ¬ ((Reader.mk data p).pos + n ≤ (Reader.mk data p).data.length) := by
      simp only [Nat.not_le]; exact h
    rw [if_neg h']
  · intro h
    have h' : (Reader.mk data p).pos + n ≤ (Reader.mk data p).data.length := h
    rw [if_pos h']
    refine ⟨_, rfl, fun cs => ?_⟩
    have hb : ∀ l : Bytes, Reader.beforeNul l = l.takeWhile (· ≠ 0) := by
      intro l
      induction l with
      | nil => rfl
      | cons b l ih =>
        by_cases hb : b = 0
        · simp [Reader.beforeNul, hb]
        · simp [Reader.beforeNul, hb, ih]
    rw [hb]
    constructor
    · exact utf8_of_fromUtf8 _ cs
    · intro e
      show fromUtf8 (List.takeWhile (· ≠ 0) (List.take n (data.drop p))) = some cs
      rw [← e]; exact fromUtf8_utf8 cs

/-- **C04, round trip of C strings.** Any text without NUL, stored UTF-8 encoded and NUL-terminated anywhere in a
buffer, is read back; the cursor stops on the terminator. -/
theorem C04_c_str_round_trip (cfg : Cfg) (pre post : Bytes) (cs : List Char) (hz : Char.ofNat 0 ∉ cs)
    (hlen : (pre ++ utf8 cs ++ 0 :: post).length < 2 ^ 63) :
    Reader.readCStr cfg ⟨pre ++ utf8 cs ++ 0 :: post, pre.length⟩ =
      .ok (some cs, ⟨pre ++ utf8 cs ++ 0 :: post, pre.length + (utf8 cs).length⟩) := by
  have hr : (Reader.mk (pre ++ utf8 cs ++ 0 :: post) pre.length).Ok := ⟨by simp, hlen⟩
  have hrest : (Reader.mk (pre ++ utf8 cs ++ 0 :: post) pre.length).rest = utf8 cs ++ 0 :: post := by
    simp [Reader.rest]
  rw [Reader.readCStr_at cfg hr (utf8_no_nul cs hz) hrest, fromUtf8_utf8]
  rfl

/-- **C04, round trip of padded fields.** Any text without NUL padded with NULs to a fixed length is read back. -/
theorem C04_padded_round_trip (cfg : Cfg) (pre post : Bytes) (cs : List Char) (pad : Nat)
    (hz : Char.ofNat 0 ∉ cs)
    (hlen : (pre ++ (utf8 cs ++ List.replicate pad 0) ++ post).length < 2 ^ 63) :
    Reader.readStr cfg ⟨pre ++ (utf8 cs ++ List.replicate pad 0) ++ post, pre.length⟩ ((utf8 cs).length + pad) =
      .ok (some cs, ⟨pre ++ (utf8 cs ++ List.replicate pad 0) ++ post,
        pre.length + ((utf8 cs).length + pad)⟩) := by
  have hr : (Reader.mk (pre ++ (utf8 cs ++ List.replicate pad 0) ++ post) pre.length).Ok := ⟨by simp, hlen⟩
  have hrest : (Reader.mk (pre ++ (utf8 cs ++ List.replicate pad 0) ++ post) pre.length).rest =
      (utf8 cs ++ List.replicate pad 0) ++ post := by
    simp [Reader.rest]
  have hl : (utf8 cs).length + pad = (utf8 cs ++ List.replicate pad 0).length := by simp
  rw [hl, Reader.readStr_at cfg hr hrest]
  have hb : Reader.beforeNul (utf8 cs ++ List.replicate pad 0) = utf8 cs := by
    cases pad with
    | zero => simp [beforeNul_of_not_mem _ (utf8_no_nul cs hz)]
    | succ k => rw [List.replicate_succ]; exact beforeNul_append_nul _ _ (utf8_no_nul cs hz)
  rw [hb, fromUtf8_utf8]
  rfl

example : Reader.readCStr Cfg.debug ⟨[9, 0xc3, 0xa9, 0x41, 0, 7], 1⟩ =
    .ok (some ['é', 'A'], ⟨[9, 0xc3, 0xa9, 0x41, 0, 7], 4⟩) := by decide
example : Reader.readStr Cfg.debug ⟨[0x76, 0x34, 0, 0, 5], 0⟩ 4 =
    .ok (some ['v', '4'], ⟨[0x76, 0x34, 0, 0, 5], 4⟩) := by decide

end Clr
