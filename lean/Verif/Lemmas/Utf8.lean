import Verif.Model.Utf8
import Verif.Spec.Utf8
/-! # The modelled validator inverts UTF-8 encoding, in both directions -/

namespace Clr
open Spec

theorem toNat_ofNat_lt {n : Nat} (h : n < 256) : (UInt8.ofNat n).toNat = n := by
  simp [UInt8.toNat_ofNat']; omega

theorem Char.range_cases (c : Char) : c.toNat < 0xd800 ∨ (0xdfff < c.toNat ∧ c.toNat < 0x110000) := by
  exact c.valid

theorem Char.ofNat_of_toNat {n : Nat} (c : Char) (h : n = c.toNat) : Char.ofNat n = c := by
  subst h; exact Char.ofNat_toNat c

theorem fromUtf8_utf8Char_append (c : Char) (rest : Bytes) :
    fromUtf8 (utf8Char c ++ rest) = (fromUtf8 rest).map (c :: ·) := by
  have hc := Char.range_cases c
  unfold utf8Char
  generalize hn : c.toNat = n at *
  simp only
  split
  · rename_i h
    have h1 : (UInt8.ofNat n).toNat = n := toNat_ofNat_lt (by omega)
    simp only [List.cons_append, List.nil_append]
    rw [fromUtf8.eq_def]
    simp only [h1, h, if_true]
    rw [Char.ofNat_of_toNat c hn.symm]
  split
  · rename_i h0 h
    have h1 : (UInt8.ofNat (0xc0 + n / 64)).toNat = 0xc0 + n / 64 := toNat_ofNat_lt (by omega)
    have h2 : (UInt8.ofNat (0x80 + n % 64)).toNat = 0x80 + n % 64 := toNat_ofNat_lt (by omega)
    simp only [List.cons_append, List.nil_append]
    rw [fromUtf8.eq_def]
    simp only [h1, h2, inRange]
    rw [if_neg (by omega), if_pos (by simp; omega), if_pos (by simp; omega)]
    rw [Char.ofNat_of_toNat c (by omega)]
  split
  · rename_i h0 h00 h
    have h1 : (UInt8.ofNat (0xe0 + n / 4096)).toNat = 0xe0 + n / 4096 := toNat_ofNat_lt (by omega)
    have h2 : (UInt8.ofNat (0x80 + n / 64 % 64)).toNat = 0x80 + n / 64 % 64 := toNat_ofNat_lt (by omega)
    have h3 : (UInt8.ofNat (0x80 + n % 64)).toNat = 0x80 + n % 64 := toNat_ofNat_lt (by omega)
    simp only [List.cons_append, List.nil_append]
    rw [fromUtf8.eq_def]
    simp only [h1, h2, h3, inRange, range3]
    rw [if_neg (by omega), if_neg (by simp; omega), if_pos (by simp; omega), if_pos ?_]
    · rw [Char.ofNat_of_toNat c (by omega)]
    · by_cases e0 : 0xe0 + n / 4096 = 0xe0
      · simp only [e0, if_true]; simp; omega
      · by_cases e1 : 0xe0 + n / 4096 = 0xed
        · simp only [e1]; simp; omega
        · simp only [e0, e1, if_false]; simp; omega
  · rename_i h0 h00 h000
    have h1 : (UInt8.ofNat (0xf0 + n / 262144)).toNat = 0xf0 + n / 262144 := toNat_ofNat_lt (by omega)
    have h2 : (UInt8.ofNat (0x80 + n / 4096 % 64)).toNat = 0x80 + n / 4096 % 64 := toNat_ofNat_lt (by omega)
    have h3 : (UInt8.ofNat (0x80 + n / 64 % 64)).toNat = 0x80 + n / 64 % 64 := toNat_ofNat_lt (by omega)
    have h4 : (UInt8.ofNat (0x80 + n % 64)).toNat = 0x80 + n % 64 := toNat_ofNat_lt (by omega)
    simp only [List.cons_append, List.nil_append]
    rw [fromUtf8.eq_def]
    simp only [h1, h2, h3, h4, inRange, range4]
    rw [if_neg (by omega), if_neg (by simp; omega), if_neg (by simp; omega), if_pos (by simp; omega), if_pos ?_]
    · rw [Char.ofNat_of_toNat c (by omega)]
    · by_cases e0 : 0xf0 + n / 262144 = 0xf0
      · simp only [e0, if_true]; simp; omega
      · by_cases e1 : 0xf0 + n / 262144 = 0xf4
        · simp only [e1]; simp; omega
        · simp only [e0, e1, if_false]; simp; omega

/-- Encoding then validating gives the text back. -/
theorem fromUtf8_utf8 (cs : List Char) : fromUtf8 (utf8 cs) = some cs := by
  induction cs with
  | nil => simp [utf8, fromUtf8]
  | cons c cs ih => simp [utf8, fromUtf8_utf8Char_append, ih]

theorem Char.toNat_ofNat_valid {n : Nat} (h : n < 0xd800 ∨ (0xdfff < n ∧ n < 0x110000)) :
    (Char.ofNat n).toNat = n := by
  rw [Char.ofNat, dif_pos (show n.isValidChar from h)]
  simp [Char.toNat, Char.ofNatAux]

theorem byte_eq {b : UInt8} {n : Nat} (h : b.toNat = n) : UInt8.ofNat n = b := by
  subst h; simp

/-- Whatever the validator accepts is the encoding of the text it returns. -/
theorem utf8_of_fromUtf8 (bs : Bytes) (cs : List Char) (h : fromUtf8 bs = some cs) : utf8 cs = bs := by
  induction bs using fromUtf8.induct generalizing cs with
  | case1 => simp [fromUtf8] at h; subst h; rfl
  | case2 b0 t0 h0 ih =>
    rw [fromUtf8.eq_def] at h
    simp only [h0, if_true, Option.map_eq_some_iff] at h
    obtain ⟨cs', hcs, rfl⟩ := h
    have hv := Char.toNat_ofNat_valid (n := b0.toNat) (by omega)
    simp [utf8, utf8Char, hv, ih _ hcs, h0]
  | case3 b0 h0 =>
    rw [fromUtf8.eq_def] at h
    simp [h0] at h
  | case4 b0 h0 b1 t1 h1 h2 ih =>
    rw [fromUtf8.eq_def] at h
    simp only [h0, if_false, h1, h2, if_true, Option.map_eq_some_iff] at h
    obtain ⟨cs', hcs, rfl⟩ := h
    simp [inRange] at h1 h2
    have hv := Char.toNat_ofNat_valid (n := (b0.toNat - 0xc0) * 64 + (b1.toNat - 0x80)) (by omega)
    simp only [utf8, utf8Char, hv]
    rw [if_neg (by omega), if_pos (by omega), ih _ hcs]
    simp only [List.cons_append, List.nil_append]
    rw [byte_eq (b := b0) (by omega), byte_eq (b := b1) (by omega)]
  | case5 b0 h0 b1 t1 h1 h2 =>
    rw [fromUtf8.eq_def] at h
    simp [h0, h1, h2] at h
  | case6 b0 h0 b1 h1 =>
    rw [fromUtf8.eq_def] at h
    simp [h0, h1] at h
  | case7 b0 h0 b1 h1 b2 t2 h2 h3 ih =>
    rw [fromUtf8.eq_def] at h
    simp only [h0, if_false, h1, h2, h3, if_true, Bool.false_eq_true, Option.map_eq_some_iff] at h
    obtain ⟨cs', hcs, rfl⟩ := h
    simp [inRange] at h1 h2 h3
    have hb : (0x80 ≤ b1.toNat ∧ b1.toNat ≤ 0xbf) ∧ (b0.toNat = 0xe0 → 0xa0 ≤ b1.toNat) ∧
        (b0.toNat = 0xed → b1.toNat ≤ 0x9f) := by
      obtain ⟨⟨ha, hb⟩, _⟩ := h3
      unfold range3 at ha hb
      split at ha
      · simp_all; omega
      · split at ha
        · simp_all; omega
        · simp_all
    have hv := Char.toNat_ofNat_valid
      (n := (b0.toNat - 0xe0) * 4096 + (b1.toNat - 0x80) * 64 + (b2.toNat - 0x80)) (by omega)
    simp only [utf8, utf8Char, hv]
    rw [if_neg (by omega), if_neg (by omega), if_pos (by omega), ih _ hcs]
    simp only [List.cons_append, List.nil_append]
    rw [byte_eq (b := b0) (by omega), byte_eq (b := b1) (by omega), byte_eq (b := b2) (by omega)]
  | case8 b0 h0 b1 h1 b2 t2 h2 h3 =>
    rw [fromUtf8.eq_def] at h
    simp [h0, h1, h2, h3] at h
  | case9 b0 h0 b1 h1 b2 h2 =>
    rw [fromUtf8.eq_def] at h
    simp [h0, h1, h2] at h
  | case10 b0 h0 b1 h1 b2 h2 b3 t3 h3 h4 ih =>
    rw [fromUtf8.eq_def] at h
    simp only [h0, if_false, h1, h2, h3, h4, if_true, Bool.false_eq_true, Option.map_eq_some_iff] at h
    obtain ⟨cs', hcs, rfl⟩ := h
    simp [inRange] at h1 h2 h3 h4
    have hb : (0x80 ≤ b1.toNat ∧ b1.toNat ≤ 0xbf) ∧ (b0.toNat = 0xf0 → 0x90 ≤ b1.toNat) ∧
        (b0.toNat = 0xf4 → b1.toNat ≤ 0x8f) := by
      obtain ⟨⟨⟨ha, hb⟩, _⟩, _⟩ := h4
      unfold range4 at ha hb
      split at ha
      · simp_all; omega
      · split at ha
        · simp_all; omega
        · simp_all
    have hv := Char.toNat_ofNat_valid
      (n := (b0.toNat - 0xf0) * 262144 + (b1.toNat - 0x80) * 4096 + (b2.toNat - 0x80) * 64
        + (b3.toNat - 0x80)) (by omega)
    simp only [utf8, utf8Char, hv]
    rw [if_neg (by omega), if_neg (by omega), if_neg (by omega), ih _ hcs]
    simp only [List.cons_append, List.nil_append]
    rw [byte_eq (b := b0) (by omega), byte_eq (b := b1) (by omega), byte_eq (b := b2) (by omega),
      byte_eq (b := b3) (by omega)]
  | case11 b0 h0 b1 h1 b2 h2 b3 t3 h3 h4 =>
    rw [fromUtf8.eq_def] at h
    simp [h0, h1, h2, h3, h4] at h
  | case12 b0 h0 b1 h1 b2 h2 b3 t3 h3 =>
    rw [fromUtf8.eq_def] at h
    simp [h0, h1, h2, h3] at h

theorem utf8Char_no_nul (c : Char) (h : c ≠ Char.ofNat 0) : (0 : UInt8) ∉ utf8Char c := by
  have hc := Char.range_cases c
  have hz : c.toNat ≠ 0 := by
    intro e
    apply h
    rw [← e]; exact (Char.ofNat_toNat c).symm
  have key : ∀ m, 0 < m → m < 256 → (0 : UInt8) ≠ UInt8.ofNat m := by
    intro m h0 h1 e
    have := congrArg UInt8.toNat e
    rw [toNat_ofNat_lt h1] at this
    simp at this; omega
  unfold utf8Char
  generalize c.toNat = n at *
  simp only
  split
  · simp only [List.mem_singleton]; exact key _ (by omega) (by omega)
  split
  · simp only [List.mem_cons, List.not_mem_nil, or_false, not_or]
    exact ⟨key _ (by omega) (by omega), key _ (by omega) (by omega)⟩
  split
  · simp only [List.mem_cons, List.not_mem_nil, or_false, not_or]
    exact ⟨key _ (by omega) (by omega), key _ (by omega) (by omega), key _ (by omega) (by omega)⟩
  · simp only [List.mem_cons, List.not_mem_nil, or_false, not_or]
    exact ⟨key _ (by omega) (by omega), key _ (by omega) (by omega), key _ (by omega) (by omega),
      key _ (by omega) (by omega)⟩

theorem utf8_no_nul (cs : List Char) (h : Char.ofNat 0 ∉ cs) : (0 : UInt8) ∉ utf8 cs := by
  induction cs with
  | nil => simp [utf8]
  | cons c cs ih =>
    simp only [List.mem_cons, not_or] at h
    simp only [utf8, List.mem_append, not_or]
    exact ⟨utf8Char_no_nul c (fun e => h.1 e.symm), ih h.2⟩

end Clr
