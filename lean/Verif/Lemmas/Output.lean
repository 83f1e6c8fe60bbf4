import Verif.Lemmas.Access
import Verif.Lemmas.Calls
import Verif.Spec.Output
/-! # Lemmas: text and output -/

namespace Clr

variable {v v' : VM} {p : Ptr}

theorem toNat_char {n : Nat} (h : n.isValidChar) : (Char.ofNat n).toNat = n := by
  simp [Char.ofNat, h, Char.toNat, Char.ofNatAux]

theorem utf16_small {u : Nat} (h : u < 0xd800 ∨ 0xdfff < u) (hu : u < 0x10000) : utf16 (Char.ofNat u) = [u] := by
  have hv : u.isValidChar := by unfold Nat.isValidChar; omega
  have : (Char.ofNat u).toNat = u := toNat_char hv
  simp [utf16, this, hu]

theorem utf16_large {u l : Nat} (hu : 0xd800 ≤ u) (hu' : u ≤ 0xdbff) (hl : 0xdc00 ≤ l) (hl' : l ≤ 0xdfff) :
    utf16 (Char.ofNat (0x10000 + (u - 0xd800) * 0x400 + (l - 0xdc00))) = [u, l] := by
  generalize hn : 0x10000 + (u - 0xd800) * 0x400 + (l - 0xdc00) = n
  have hv : n.isValidChar := by unfold Nat.isValidChar; omega
  have : (Char.ofNat n).toNat = n := toNat_char hv
  simp only [utf16, this, if_neg (show ¬ n < 0x10000 by omega), List.cons.injEq, and_true]
  omega

/-- What `String::from_utf16` gives encodes to its argument. -/
theorem fromUtf16_sound {us : List Nat} {s : List Char} (hu : ∀ u ∈ us, u < 0x10000) (h : fromUtf16 us = some s) :
    s.flatMap utf16 = us := by
  induction us using fromUtf16.induct generalizing s with
  | case1 => cases h; rfl
  | case2 u us hc ih =>
    rw [fromUtf16.eq_def] at h
    simp only [if_pos hc] at h
    cases hr : fromUtf16 us with
    | none => rw [hr] at h; cases h
    | some t =>
      rw [hr] at h; cases h
      simp [utf16_small hc (hu u (by simp)), ih (fun u hm => hu u (by simp [hm])) hr]
  | case3 u hc l us hd ih =>
    rw [fromUtf16.eq_def] at h
    simp only [if_neg hc, if_pos hd] at h
    cases hr : fromUtf16 us with
    | none => rw [hr] at h; cases h
    | some t =>
      rw [hr] at h; cases h
      simp only [List.flatMap_cons, utf16_large (u := u) (l := l) (by omega) hd.1 hd.2.1 hd.2.2,
        ih (fun u hm => hu u (by simp [hm])) hr]
      rfl
  | case4 u hc l us hd =>
    rw [fromUtf16.eq_def] at h
    simp only [if_neg hc, if_neg hd] at h
    cases h
  | case5 u hc =>
    rw [fromUtf16.eq_def] at h
    simp only [if_neg hc] at h
    cases h

theorem char_range (c : Char) : (c.toNat < 0xd800 ∨ 0xdfff < c.toNat) ∧ c.toNat < 0x110000 := by
  have := c.valid
  unfold UInt32.isValidChar Nat.isValidChar at this
  have e : c.toNat = c.val.toNat := rfl
  omega

/-- Every text can be decoded. -/
theorem fromUtf16_complete (s : List Char) : fromUtf16 (s.flatMap utf16) = some s := by
  induction s with
  | nil => rfl
  | cons c s ih =>
    obtain ⟨h1, h2⟩ := char_range c
    by_cases hc : c.toNat < 0x10000
    · rw [List.flatMap_cons, utf16, if_pos hc]
      rw [List.cons_append, List.nil_append, fromUtf16.eq_def]
      simp [h1, ih]
    · rw [List.flatMap_cons, utf16, if_neg hc, List.cons_append, List.cons_append, List.nil_append, fromUtf16.eq_def]
      simp only [ih]
      rw [if_neg (by omega), if_pos (by omega)]
      have e : 0x10000 + (0xd800 + (c.toNat - 0x10000) / 0x400 - 0xd800) * 0x400 +
          (0xdc00 + (c.toNat - 0x10000) % 0x400 - 0xdc00) = c.toNat := by omega
      rw [e]
      simp

theorem chunks_eq_map (w n : Nat) (bs : Bytes) :
    chunks w n bs = (List.range n).map fun i => (bs.drop (w * i)).take w := by
  induction n generalizing bs with
  | zero => rfl
  | succ n ih =>
    rw [chunks, ih, List.range_succ_eq_map]
    simp [List.drop_drop, Function.comp_def, Nat.mul_succ, Nat.add_comm]

theorem leNat_two_lt {bs : Bytes} (h : bs.length ≤ 2) : leNat bs < 0x10000 := by
  have := leNat_lt bs
  have h2 : 256 ^ bs.length ≤ 256 ^ 2 := Nat.pow_le_pow_right (by decide) h
  omega

/-- What `ManagedString::data` gives. -/
theorem stringData_ok {us : List Nat} (h : stringData p v = (.ok us, v')) :
    us = stringAt v.heap p ∧ v' = v ∧ ∀ u ∈ us, u < 0x10000 := by
  unfold stringData at h
  obtain ⟨hd, v1, h1, h'⟩ := X.bind_eq_ok.1 h
  clear h
  obtain ⟨bs, v2, h2, h⟩ := X.bind_eq_ok.1 h'
  clear h'
  obtain ⟨h1, rfl⟩ := view_eq_ok.1 h1
  obtain ⟨h2, rfl⟩ := view_eq_ok.1 h2
  simp only [X.pure_run, Prod.mk.injEq, Res.ok.injEq] at h
  obtain ⟨rfl, rfl⟩ := h
  obtain ⟨a1, a2, a3⟩ := read_inv h1
  obtain ⟨b1, b2, b3⟩ := read_inv h2
  refine ⟨?_, rfl, ?_⟩
  · unfold Heap.read at h1 h2
    rw [if_pos ⟨a1, a2⟩] at h1
    rw [if_pos ⟨b1, b2⟩] at h2
    cases h1
    simp only [Nat.add_zero, List.drop_take] at h2 ⊢
    cases h2
    unfold stringAt
    rw [chunks_eq_map, List.map_map]
    apply List.map_congr_left
    intro i hi
    simp only [List.mem_range] at hi
    simp only [Function.comp_def, List.drop_take, List.drop_drop, List.take_take] at hi ⊢
    rw [Nat.min_eq_left (by omega), Nat.add_assoc]
  · intro u hu
    rw [chunks_eq_map, List.map_map] at hu
    obtain ⟨i, -, rfl⟩ := List.mem_map.1 hu
    exact leNat_two_lt (by simp; omega)

/-- The units of a string object are the ones it was made from. -/
theorem stringAt_of_has {id : Nat} {us : List Nat} (h : v.heap.Has p (stringImage id us)) (hu : ∀ u ∈ us, u < 0x10000)
    (hl : us.length < 2 ^ 64) : stringAt v.heap p = us := by
  obtain ⟨-, t, ht⟩ := h
  unfold stringAt
  rw [← ht]
  have e1 : ((stringImage id us ++ t).drop 5).take 8 = leBytes 8 us.length := by
    have : stringImage id us ++ t = (4 :: leBytes 4 id) ++ (leBytes 8 us.length ++ (textBytes us ++ t)) := by
      simp [stringImage]
    rw [this, List.drop_left' (by simp), List.take_left' (by simp)]
  dsimp only
  rw [e1, leNat_leBytes _ _ (by simpa using hl)]
  have e2 : ∀ i, (stringImage id us ++ t).drop (13 + 2 * i) = (textBytes us ++ t).drop (2 * i) := by
    intro i
    have : stringImage id us ++ t = ((4 :: leBytes 4 id) ++ leBytes 8 us.length) ++ (textBytes us ++ t) := by
      simp [stringImage]
    rw [this, ← List.drop_drop, List.drop_left' (by simp)]
  simp only [e2]
  clear e1 e2 hl ht
  induction us with
  | nil => rfl
  | cons u us ih =>
    rw [List.length_cons, List.range_succ_eq_map, List.map_cons, List.map_map]
    have e3 : textBytes (u :: us) ++ t = leBytes 2 u ++ (textBytes us ++ t) := by simp [textBytes]
    rw [e3]
    congr 1
    · rw [Nat.mul_zero, List.drop_zero, List.take_left' (by simp), leNat_leBytes _ _ (hu u (by simp))]
    · refine Eq.trans ?_ (ih fun u hm => hu u (by simp [hm]))
      apply List.map_congr_left
      intro i _
      simp only [Function.comp_def]
      rw [show 2 * i.succ = 2 + 2 * i by omega, ← List.drop_drop, List.drop_left' (by simp)]

end Clr
