import Verif.Model.BinaryReader
import Verif.Lemmas.Utf8
/-! # Lemmas about the binary reader -/

namespace Clr
namespace Reader

/-- The bytes from the cursor to the end. -/
def rest (r : Reader) : Bytes := r.data.drop r.pos

/-- The reader moved forward by `n`. -/
def skip (r : Reader) (n : Nat) : Reader := { r with pos := r.pos + n }

/-- Cursor inside a buffer of possible size (Rust slices are shorter than 2^63 bytes). -/
def Ok (r : Reader) : Prop := r.pos ≤ r.data.length ∧ r.data.length < 2 ^ 63

@[simp] theorem skip_data (r : Reader) (n : Nat) : (r.skip n).data = r.data := rfl
@[simp] theorem skip_pos (r : Reader) (n : Nat) : (r.skip n).pos = r.pos + n := rfl
@[simp] theorem skip_skip (r : Reader) (m n : Nat) : (r.skip m).skip n = r.skip (m + n) := by
  simp [skip, Nat.add_assoc]
@[simp] theorem skip_zero (r : Reader) : r.skip 0 = r := by cases r; simp [skip]

theorem length_rest (r : Reader) : r.rest.length = r.data.length - r.pos := by simp [rest]

theorem rest_skip (r : Reader) (n : Nat) : (r.skip n).rest = r.rest.drop n := by
  simp [rest, skip, List.drop_drop]

theorem Ok.new {d : Bytes} (h : d.length < 2 ^ 63) : (Reader.new d).Ok := ⟨by simp [Reader.new], h⟩

@[simp] theorem rest_new (d : Bytes) : (Reader.new d).rest = d := by simp [Reader.new, rest]

theorem Ok.skip {r : Reader} (h : r.Ok) {n : Nat} (hn : n ≤ r.rest.length) : (r.skip n).Ok := by
  rw [length_rest] at hn
  have h1 := h.1
  have h2 := h.2
  constructor
  · show r.pos + n ≤ r.data.length
    omega
  · exact h2

/-- Complete description of `peek` for positions that do not overflow. -/
theorem peek_eq (cfg : Cfg) (r : Reader) (w : Nat) (h : r.pos + w < 2 ^ 64) :
    r.peek cfg w = .ok (if r.pos + w ≤ r.data.length then some (r.rest.take w) else none) := by
  unfold peek
  rw [uadd_ok h]
  by_cases hc : r.pos + w ≤ r.data.length
  · have hs : r.pos ≤ r.data.length := by omega
    have : w ≤ (r.data.drop r.pos).length := by simp; omega
    have hng : ¬ (r.pos + w > r.data.length) := by omega
    simp only [Res.ok_bind, if_neg hng, rawBytes, sliceFrom_ok hs, if_pos this, Res.pure_eq, if_pos hc]
    rfl
  · have : r.pos + w > r.data.length := by omega
    simp [this, hc]

/-- Complete description of `read` for positions that do not overflow. -/
theorem read_eq (cfg : Cfg) (r : Reader) (w : Nat) (h : r.pos + w < 2 ^ 64) :
    r.read cfg w = .ok (if r.pos + w ≤ r.data.length then (some (r.rest.take w), r.skip w) else (none, r)) := by
  unfold read
  rw [peek_eq cfg r w h]
  by_cases hc : r.pos + w ≤ r.data.length
  · simp [hc, advance, uadd_ok h, goto, skip]
  · simp [hc]

theorem readU_eq (cfg : Cfg) (r : Reader) (w : Nat) (h : r.pos + w < 2 ^ 64) :
    r.readU cfg w =
      .ok (if r.pos + w ≤ r.data.length then (some (leNat (r.rest.take w)), r.skip w) else (none, r)) := by
  unfold readU
  rw [read_eq cfg r w h]
  by_cases hc : r.pos + w ≤ r.data.length <;> simp [hc]

theorem peekU_eq (cfg : Cfg) (r : Reader) (w : Nat) (h : r.pos + w < 2 ^ 64) :
    r.peekU cfg w = .ok (if r.pos + w ≤ r.data.length then some (leNat (r.rest.take w)) else none) := by
  unfold peekU
  rw [peek_eq cfg r w h]
  by_cases hc : r.pos + w ≤ r.data.length <;> simp [hc]

theorem readArray_eq (cfg : Cfg) (r : Reader) (w n : Nat) (h : r.pos + n * w < 2 ^ 64) :
    r.readArray cfg w n =
      .ok (if r.pos + n * w ≤ r.data.length then
        (some (chunks w n (r.rest.take (n * w))), r.skip (n * w)) else (none, r)) := by
  unfold readArray
  rw [umul_ok (by omega)]
  simp only [Res.ok_bind]
  rw [uadd_ok h]
  by_cases hc : r.pos + n * w ≤ r.data.length
  · have hs : r.pos ≤ r.data.length := by omega
    have : n * w ≤ (r.data.drop r.pos).length := by simp; omega
    have hng : ¬ (r.pos + n * w > r.data.length) := by omega
    simp only [Res.ok_bind, if_neg hng, rawBytes, sliceFrom_ok hs, if_pos this, Res.pure_eq, if_pos hc,
      advance, uadd_ok h, goto]
    rfl
  · have : r.pos + n * w > r.data.length := by omega
    simp [this, hc]

theorem peekArray_eq (cfg : Cfg) (r : Reader) (w n : Nat) (h : r.pos + n * w < 2 ^ 64) :
    r.peekArray cfg w n =
      .ok (if r.pos + n * w < r.data.length then some (chunks w n (r.rest.take (n * w))) else none) := by
  unfold peekArray
  rw [umul_ok (by omega)]
  simp only [Res.ok_bind]
  rw [uadd_ok h]
  by_cases hc : r.pos + n * w < r.data.length
  · have hs : r.pos ≤ r.data.length := by omega
    have : n * w ≤ (r.data.drop r.pos).length := by simp; omega
    have hng : ¬ (r.pos + n * w ≥ r.data.length) := by omega
    simp only [Res.ok_bind, if_neg hng, rawBytes, sliceFrom_ok hs, if_pos this, Res.pure_eq, if_pos hc]
    rfl
  · have : r.pos + n * w ≥ r.data.length := by omega
    simp [this, hc]

theorem advance_eq (cfg : Cfg) (r : Reader) (x : Nat) (h : r.pos + x < 2 ^ 64) :
    r.advance cfg x = .ok (decide (r.pos + x ≤ r.data.length), r.skip x) := by
  simp [advance, uadd_ok h, goto, skip]

/-! ### Reading at a known prefix -/

theorem read_at (cfg : Cfg) {r : Reader} {bs t : Bytes} (hr : r.Ok) (h : r.rest = bs ++ t) :
    r.read cfg bs.length = .ok (some bs, r.skip bs.length) := by
  have hl := length_rest r
  have h1 := hr.1
  have h2 := hr.2
  rw [h, List.length_append] at hl
  rw [read_eq cfg r _ (by omega), if_pos (by omega), h]
  simp

theorem peek_at (cfg : Cfg) {r : Reader} {bs t : Bytes} (hr : r.Ok) (h : r.rest = bs ++ t) :
    r.peek cfg bs.length = .ok (some bs) := by
  have hl := length_rest r
  have h1 := hr.1
  have h2 := hr.2
  rw [h, List.length_append] at hl
  rw [peek_eq cfg r _ (by omega), if_pos (by omega), h]
  simp

theorem ok_at {r : Reader} {bs t : Bytes} (hr : r.Ok) (h : r.rest = bs ++ t) :
    (r.skip bs.length).Ok := hr.skip (by rw [h]; simp)

theorem rest_at {r : Reader} {bs t : Bytes} (h : r.rest = bs ++ t) :
    (r.skip bs.length).rest = t := by rw [rest_skip, h]; simp

/-- Reading an encoded little-endian integer. -/
theorem readU_at (cfg : Cfg) {r : Reader} {w n : Nat} {t : Bytes} (hr : r.Ok) (hn : n < 256 ^ w)
    (h : r.rest = leBytes w n ++ t) :
    r.readU cfg w = .ok (some n, r.skip w) := by
  have := read_at cfg hr h
  simp only [length_leBytes] at this
  unfold readU
  rw [this]
  simp [leNat_leBytes w n hn]

theorem peekU_at (cfg : Cfg) {r : Reader} {w n : Nat} {t : Bytes} (hr : r.Ok) (hn : n < 256 ^ w)
    (h : r.rest = leBytes w n ++ t) :
    r.peekU cfg w = .ok (some n) := by
  have := peek_at cfg hr h
  simp only [length_leBytes] at this
  unfold peekU
  rw [this]
  simp [leNat_leBytes w n hn]

theorem rest_le {r : Reader} {w n : Nat} {t : Bytes} (h : r.rest = leBytes w n ++ t) :
    (r.skip w).rest = t := by
  have := rest_at h
  simpa using this

theorem ok_le {r : Reader} {w n : Nat} {t : Bytes} (hr : r.Ok) (h : r.rest = leBytes w n ++ t) :
    (r.skip w).Ok := by
  have := ok_at hr h
  simpa using this

/-- Reading an array of elements laid out consecutively. -/
theorem readArray_at (cfg : Cfg) {r : Reader} {w : Nat} {xs : List Bytes} {t : Bytes} (hr : r.Ok)
    (hw : ∀ x ∈ xs, x.length = w) (h : r.rest = xs.flatten ++ t) :
    r.readArray cfg w xs.length = .ok (some xs, r.skip (xs.length * w)) := by
  have hl := length_rest r
  have h1 := hr.1
  have h2 := hr.2
  have hf : xs.flatten.length = xs.length * w := by
    clear h
    induction xs with
    | nil => simp
    | cons x xs ih =>
      simp only [List.flatten_cons, List.length_append, List.length_cons, Nat.succ_mul]
      rw [ih (fun y hy => hw y (by simp [hy])), hw x (by simp)]; omega
  rw [h, List.length_append, hf] at hl
  rw [readArray_eq cfg r _ _ (by omega), if_pos (by omega), h]
  have := chunks_flatten w xs [] hw
  simp at this
  simp [← hf, this]

end Reader

/-! ### Strings -/

open Reader

@[simp] theorem flatten_chunks_one (bs : Bytes) : (chunks 1 bs.length bs).flatten = bs := by
  induction bs with
  | nil => rfl
  | cons b bs ih => simp [chunks, ih]

theorem beforeNul_append_nul (a b : Bytes) (h : (0 : UInt8) ∉ a) : beforeNul (a ++ 0 :: b) = a := by
  induction a with
  | nil => simp [beforeNul]
  | cons x a ih =>
    simp only [List.mem_cons, not_or] at h
    have hx : x ≠ 0 := fun e => h.1 e.symm
    simp [beforeNul, hx, ih h.2]

theorem beforeNul_of_not_mem (a : Bytes) (h : (0 : UInt8) ∉ a) : beforeNul a = a := by
  induction a with
  | nil => rfl
  | cons x a ih =>
    simp only [List.mem_cons, not_or] at h
    have hx : x ≠ 0 := fun e => h.1 e.symm
    simp [beforeNul, hx, ih h.2]

theorem nulPos_append_nul (a b : Bytes) (h : (0 : UInt8) ∉ a) : nulPos (a ++ 0 :: b) = some a.length := by
  induction a with
  | nil => simp [nulPos]
  | cons x a ih =>
    simp only [List.mem_cons, not_or] at h
    have hx : x ≠ 0 := fun e => h.1 e.symm
    simp [nulPos, hx, ih h.2]

theorem nulPos_some {bs : Bytes} {n : Nat} (h : nulPos bs = some n) :
    n < bs.length ∧ bs = bs.take n ++ 0 :: bs.drop (n + 1) ∧ (0 : UInt8) ∉ bs.take n := by
  induction bs generalizing n with
  | nil => simp [nulPos] at h
  | cons b bs ih =>
    simp only [nulPos] at h
    split at h
    · simp at h; subst h; simp_all
    · rename_i hb
      simp only [Option.map_eq_some_iff] at h
      obtain ⟨m, hm, rfl⟩ := h
      obtain ⟨h1, h2, h3⟩ := ih hm
      refine ⟨by simp; omega, ?_, ?_⟩
      · simp; exact h2
      · simp [h3]; exact fun e => hb e.symm

theorem nulPos_none {bs : Bytes} : nulPos bs = none ↔ (0 : UInt8) ∉ bs := by
  induction bs with
  | nil => simp [nulPos]
  | cons b bs ih =>
    simp only [nulPos, List.mem_cons, not_or]
    split
    · simp_all
    · rename_i hb
      simp [ih]
      intro _
      exact fun e => hb e.symm

namespace Reader

theorem readStr_eq (cfg : Cfg) (r : Reader) (n : Nat) (h : r.pos + n < 2 ^ 64) :
    r.readStr cfg n =
      .ok (if r.pos + n ≤ r.data.length then (fromUtf8 (beforeNul (r.rest.take n)), r.skip n)
        else (none, r)) := by
  unfold readStr
  rw [readArray_eq cfg r 1 n (by omega)]
  by_cases hc : r.pos + n ≤ r.data.length
  · have hl : (r.rest.take n).length = n := by simp [length_rest]; omega
    have hf := flatten_chunks_one (r.rest.take n)
    rw [hl] at hf
    simp [hc, hf]
  · simp [hc]

/-- A NUL-padded or exact-length string field. -/
theorem readStr_at (cfg : Cfg) {r : Reader} {bs t : Bytes} (hr : r.Ok) (h : r.rest = bs ++ t) :
    r.readStr cfg bs.length = .ok (fromUtf8 (beforeNul bs), r.skip bs.length) := by
  have hl := length_rest r
  have h1 := hr.1
  have h2 := hr.2
  rw [h, List.length_append] at hl
  rw [readStr_eq cfg r _ (by omega), if_pos (by omega), h]
  simp

/-- A NUL-terminated string. -/
theorem readCStr_at (cfg : Cfg) {r : Reader} {bs t : Bytes} (hr : r.Ok) (hn : (0 : UInt8) ∉ bs)
    (h : r.rest = bs ++ 0 :: t) :
    r.readCStr cfg = .ok (fromUtf8 bs, r.skip bs.length) := by
  unfold readCStr
  rw [sliceFrom_ok hr.1]
  simp only [Res.ok_bind]
  have : List.drop r.pos r.data = bs ++ 0 :: t := h
  rw [this, nulPos_append_nul _ _ hn]
  simp only
  rw [readStr_at cfg hr h, beforeNul_of_not_mem _ hn]

end Reader
end Clr

namespace Clr.Reader

/-- Every non-overflowing read either fails in place or yields `w` bytes and moves on inside the buffer. -/
theorem read_cases (cfg : Cfg) (r : Reader) (w : Nat) (h : r.pos + w < 2 ^ 64) :
    r.read cfg w = .ok (none, r) ∨
    ∃ b, r.read cfg w = .ok (some b, r.skip w) ∧ b.length = w ∧ r.pos + w ≤ r.data.length := by
  rw [read_eq cfg r w h]
  by_cases hc : r.pos + w ≤ r.data.length
  · right
    refine ⟨_, by rw [if_pos hc], ?_, hc⟩
    simp [length_rest]; omega
  · left; rw [if_neg hc]

theorem readU_cases (cfg : Cfg) (r : Reader) (w : Nat) (h : r.pos + w < 2 ^ 64) :
    r.readU cfg w = .ok (none, r) ∨
    ∃ n, r.readU cfg w = .ok (some n, r.skip w) ∧ n < 256 ^ w ∧ r.pos + w ≤ r.data.length := by
  rcases read_cases cfg r w h with hn | ⟨b, hb, hl, hp⟩
  · left; simp [readU, hn]
  · right
    refine ⟨leNat b, by simp [readU, hb], ?_, hp⟩
    have := leNat_lt b
    rwa [hl] at this

theorem peekU_cases (cfg : Cfg) (r : Reader) (w : Nat) (h : r.pos + w < 2 ^ 64) :
    r.peekU cfg w = .ok none ∨
    ∃ n, r.peekU cfg w = .ok (some n) ∧ n < 256 ^ w ∧ r.pos + w ≤ r.data.length := by
  rw [peekU_eq cfg r w h]
  by_cases hc : r.pos + w ≤ r.data.length
  · right
    refine ⟨_, by rw [if_pos hc], ?_, hc⟩
    have := leNat_lt (r.rest.take w)
    have hl : (r.rest.take w).length = w := by simp [length_rest]; omega
    rwa [hl] at this
  · left; rw [if_neg hc]

theorem readArray_cases (cfg : Cfg) (r : Reader) (w n : Nat) (h : r.pos + n * w < 2 ^ 64) :
    r.readArray cfg w n = .ok (none, r) ∨
    ∃ xs, r.readArray cfg w n = .ok (some xs, r.skip (n * w)) ∧ xs.length = n ∧
      r.pos + n * w ≤ r.data.length := by
  rw [readArray_eq cfg r w n h]
  by_cases hc : r.pos + n * w ≤ r.data.length
  · right
    exact ⟨_, by rw [if_pos hc], by simp, hc⟩
  · left; rw [if_neg hc]

end Clr.Reader
