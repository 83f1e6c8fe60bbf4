import Verif.Spec.Operators
import Verif.Lemmas.Arith
import Mathlib.Tactic.Ring
/-! # Operators on machine integers as operations on integers -/

namespace Clr
open Spec

/-! ## Unsigned -/

theorem ofInt_sub' {n : Nat} (x y : Int) : BitVec.ofInt n x - BitVec.ofInt n y = BitVec.ofInt n (x - y) := by
  rw [Int.sub_eq_add_neg, BitVec.ofInt_add, BitVec.ofInt_neg, BitVec.sub_eq_add_neg]

theorem ofInt_congr {n : Nat} {x y : Int} (h : x % 2 ^ n = y % 2 ^ n) : BitVec.ofInt n x = BitVec.ofInt n y := by
  apply BitVec.eq_of_toNat_eq
  rw [BitVec.toNat_ofInt, BitVec.toNat_ofInt]
  push_cast
  rw [h]

theorem toNat_ofInt_of {n : Nat} {x : Int} (h0 : 0 ≤ x) (h1 : x < 2 ^ n) : ((BitVec.ofInt n x).toNat : Int) = x := by
  rw [BitVec.toNat_ofInt]
  push_cast
  rw [Int.emod_eq_of_lt h0 h1]
  omega

theorem toInt_ofInt_of {n : Nat} (hn : 0 < n) {x : Int} (h0 : -2 ^ (n - 1) ≤ x) (h1 : x < 2 ^ (n - 1)) : (BitVec.ofInt n x).toInt = x :=
  BitVec.toInt_ofInt_eq_self hn h0 h1

theorem ofInt_toNat {n : Nat} (a : BitVec n) : BitVec.ofInt n (a.toNat : Int) = a := by
  apply BitVec.eq_of_toNat_eq
  rw [BitVec.toNat_ofInt]
  have := a.isLt
  norm_cast
  exact Nat.mod_eq_of_lt this

/-- The numbers of a signed or unsigned type of a width. -/
def HasN (s : Bool) (n : Nat) (x : Int) : Prop := if s then Fits n x else 0 ≤ x ∧ x < 2 ^ n

/-- The number of a bit pattern. -/
def numOf (s : Bool) {n : Nat} (a : BitVec n) : Int := if s then a.toInt else a.toNat

theorem numOf_ofInt {s : Bool} {n : Nat} (hn : 0 < n) {x : Int} (h : HasN s n x) : numOf s (BitVec.ofInt n x) = x := by
  cases s with
  | true => exact toInt_ofInt_of hn h.1 h.2
  | false => exact toNat_ofInt_of h.1 h.2

theorem ofInt_numOf {s : Bool} {n : Nat} (a : BitVec n) : BitVec.ofInt n (numOf s a) = a := by
  cases s with
  | true => exact BitVec.ofInt_toInt
  | false => exact ofInt_toNat a

theorem hasN_numOf {s : Bool} {n : Nat} (a : BitVec n) : HasN s n (numOf s a) := by
  cases s with
  | true => exact ⟨BitVec.le_toInt a, BitVec.toInt_lt⟩
  | false => exact ⟨Int.natCast_nonneg _, by have := a.isLt; simp only [numOf, Bool.false_eq_true, if_false]; exact_mod_cast this⟩

/-- An operation with overflow check. -/
theorem checked_hasN {s : Bool} {n : Nat} (cfg : Cfg) {o : Bool} {z : Int} {r : BitVec n} (h : o = true ↔ ¬ HasN s n z) (hr : r = BitVec.ofInt n z)
    (hd : Decidable (HasN s n z)) :
    checked cfg o r = if HasN s n z then .ok (BitVec.ofInt n z) else if cfg.checks then .panic else .ok (BitVec.ofInt n z) := by
  unfold checked
  subst hr
  by_cases hf : HasN s n z <;> cases hc : cfg.checks <;> simp_all

/-! ## The operators on one type -/

variable {s : Bool} {n : Nat} {x y : Int} {cfg : Cfg} {ops : FloatOps}

instance (s : Bool) (n : Nat) (x : Int) : Decidable (HasN s n x) := by unfold HasN; infer_instance

/-- What an operation with overflow check gives. -/
def fittedN (cfg : Cfg) (s : Bool) (n : Nat) (z : Int) : Res (BitVec n) :=
  if HasN s n z then .ok (BitVec.ofInt n z) else if cfg.checks then .panic else .ok (BitVec.ofInt n z)

theorem add_num (hn : 0 < n) (hx : HasN s n x) (hy : HasN s n y) :
    (if s then addS cfg (BitVec.ofInt n x) (BitVec.ofInt n y) else addU cfg (BitVec.ofInt n x) (BitVec.ofInt n y)) = fittedN cfg s n (x + y) := by
  have h1 := numOf_ofInt hn hx
  have h2 := numOf_ofInt hn hy
  cases s with
  | true =>
    refine checked_hasN (s := true) cfg ?_ (BitVec.ofInt_add x y).symm _
    rw [sadd_iff]
    simp only [numOf, if_true] at h1 h2
    rw [h1, h2]; rfl
  | false =>
    refine checked_hasN (s := false) cfg ?_ (BitVec.ofInt_add x y).symm _
    simp only [numOf, Bool.false_eq_true, if_false] at h1 h2
    simp only [BitVec.uaddOverflow, HasN, Bool.false_eq_true, if_false, decide_eq_true_eq]
    rw [ge_iff_le, ← Int.ofNat_le]
    push_cast
    rw [h1, h2]
    have := hx.1; have := hy.1
    omega

theorem sub_num (hn : 0 < n) (hx : HasN s n x) (hy : HasN s n y) :
    (if s then subS cfg (BitVec.ofInt n x) (BitVec.ofInt n y) else subU cfg (BitVec.ofInt n x) (BitVec.ofInt n y)) = fittedN cfg s n (x - y) := by
  have h1 := numOf_ofInt hn hx
  have h2 := numOf_ofInt hn hy
  cases s with
  | true =>
    refine checked_hasN (s := true) cfg ?_ (ofInt_sub' x y) _
    rw [ssub_iff]
    simp only [numOf, if_true] at h1 h2
    rw [h1, h2]; rfl
  | false =>
    refine checked_hasN (s := false) cfg ?_ (ofInt_sub' x y) _
    simp only [numOf, Bool.false_eq_true, if_false] at h1 h2
    simp only [BitVec.usubOverflow, HasN, Bool.false_eq_true, if_false, decide_eq_true_eq]
    rw [← Int.ofNat_lt]
    rw [h1, h2]
    have := hx.2; have := hy.1
    omega

theorem mul_num (hn : 0 < n) (hx : HasN s n x) (hy : HasN s n y) :
    (if s then mulS cfg (BitVec.ofInt n x) (BitVec.ofInt n y) else mulU cfg (BitVec.ofInt n x) (BitVec.ofInt n y)) = fittedN cfg s n (x * y) := by
  have h1 := numOf_ofInt hn hx
  have h2 := numOf_ofInt hn hy
  cases s with
  | true =>
    refine checked_hasN (s := true) cfg ?_ (BitVec.ofInt_mul x y).symm _
    rw [smul_iff]
    simp only [numOf, if_true] at h1 h2
    rw [h1, h2]; rfl
  | false =>
    refine checked_hasN (s := false) cfg ?_ (BitVec.ofInt_mul x y).symm _
    simp only [numOf, Bool.false_eq_true, if_false] at h1 h2
    simp only [BitVec.umulOverflow, HasN, Bool.false_eq_true, if_false, decide_eq_true_eq]
    rw [ge_iff_le, ← Int.ofNat_le]
    push_cast
    rw [h1, h2]
    have := Int.mul_nonneg hx.1 hy.1
    omega

theorem neg_num (hn : 0 < n) (hx : HasN true n x) : negS cfg (BitVec.ofInt n x) = fittedN cfg true n (-x) := by
  have h1 := numOf_ofInt hn hx
  refine checked_hasN (s := true) cfg ?_ BitVec.ofInt_neg.symm _
  rw [sneg_iff hn]
  simp only [numOf, if_true] at h1
  rw [h1]; rfl

theorem quotient_num (hn : 1 < n) (hx : HasN s n x) (hy : HasN s n y) (h0 : y ≠ 0) :
    (if s then quotientOverflow (BitVec.ofInt n x) (BitVec.ofInt n y) else false) = true ↔ ¬ HasN s n (x.tdiv y) := by
  cases s with
  | true =>
    simp only [if_true]
    rw [overflow_iff hn, toInt_ofInt_of (by omega) hx.1 hx.2, toInt_ofInt_of (by omega) hy.1 hy.2]
    have e : HasN true n (x.tdiv y) ↔ Fits n (x.tdiv y) := Iff.rfl
    rw [e]
    have hx' : Fits n x := hx
    unfold Fits at hx' ⊢
    constructor
    · rintro ⟨rfl, rfl⟩
      rw [Int.tdiv_neg, Int.tdiv_one]
      omega
    · intro h
      have hle : (x.tdiv y).natAbs ≤ x.natAbs := by
        rw [Int.natAbs_tdiv]; exact Nat.div_le_self _ _
      have hab : (x.tdiv y).natAbs = x.natAbs / y.natAbs := Int.natAbs_tdiv x y
      have hq : x.tdiv y = 2 ^ (n - 1) ∧ x = -2 ^ (n - 1) := by omega
      refine ⟨hq.2, ?_⟩
      have h1 : x.natAbs / y.natAbs = x.natAbs := by omega
      have h2 : y.natAbs = 1 := by
        by_contra hne
        have : 1 < y.natAbs := by omega
        have hp : 0 < x.natAbs := by
          have : (0 : Int) < 2 ^ (n - 1) := Int.pow_pos (by decide)
          omega
        have := Nat.div_lt_self hp this
        omega
      rcases Int.natAbs_eq y with h3 | h3
      · rw [h2] at h3
        have : x.tdiv y = x := by rw [h3]; simp
        have : (0 : Int) < 2 ^ (n - 1) := Int.pow_pos (by decide)
        omega
      · omega
  | false =>
    simp only [Bool.false_eq_true, if_false, false_iff, Classical.not_not]
    have h1 := hx.1
    have h2 := hy.1
    refine ⟨Int.tdiv_nonneg h1 h2, ?_⟩
    have : x.tdiv y ≤ x := by rw [Int.tdiv_eq_ediv_of_nonneg h1]; exact Int.ediv_le_self _ h1
    have := hx.2
    omega

/-- Quotient and remainder. -/
def dividedN (s : Bool) (n : Nat) (x y z : Int) : Res (BitVec n) :=
  if y = 0 ∨ ¬ HasN s n (x.tdiv y) then .panic else .ok (BitVec.ofInt n z)

theorem dividedN_bad {z : Int} (h : y = 0 ∨ ¬ HasN s n (x.tdiv y)) : dividedN s n x y z = .panic := if_pos h

theorem dividedN_good {z : Int} (h0 : y ≠ 0) (h : HasN s n (x.tdiv y)) : dividedN s n x y z = .ok (BitVec.ofInt n z) :=
  if_neg (by rintro (h1 | h1); exacts [h0 h1, h1 h])

theorem ofInt_zero_iff (hn : 0 < n) (hy : HasN s n y) : BitVec.ofInt n y = 0#n ↔ y = 0 := by
  constructor
  · intro h
    have := numOf_ofInt hn hy
    rw [h] at this
    cases s <;> simpa [numOf] using this.symm
  · rintro rfl; simp

theorem div_num (hn : 1 < n) (hx : HasN s n x) (hy : HasN s n y) :
    (if s then divS (BitVec.ofInt n x) (BitVec.ofInt n y) else divU (BitVec.ofInt n x) (BitVec.ofInt n y)) =
      dividedN s n x y (x.tdiv y) := by
  have hz := ofInt_zero_iff (by omega) hy
  by_cases h0 : y = 0
  · rw [dividedN_bad (.inl h0)]
    have := hz.mpr h0
    cases s <;> simp [divS, divU, divided, this]
  have hne : (BitVec.ofInt n y == 0#n) = false := by rw [beq_eq_false_iff_ne]; exact fun h => h0 (hz.mp h)
  have hq := quotient_num hn hx hy h0
  by_cases hf : HasN s n (x.tdiv y)
  · rw [dividedN_good h0 hf]
    have hq' : (if s then quotientOverflow (BitVec.ofInt n x) (BitVec.ofInt n y) else false) = false := by
      rw [← Bool.not_eq_true]; exact fun h => (hq.mp h) hf
    cases s with
    | true =>
      simp only [if_true] at hq' ⊢
      simp only [divS, divided, hne, hq', Bool.or_self, Bool.false_eq_true, if_false]
      congr 1
      apply BitVec.eq_of_toInt_eq
      have hb : BitVec.ofInt n x ≠ BitVec.intMin n ∨ BitVec.ofInt n y ≠ -1#n := by
        simpa only [quotientOverflow, Bool.and_eq_false_iff, beq_eq_false_iff_ne] using hq'
      rw [BitVec.toInt_sdiv_of_ne_or_ne _ _ hb, toInt_ofInt_of (by omega) hx.1 hx.2, toInt_ofInt_of (by omega) hy.1 hy.2,
        toInt_ofInt_of (by omega) hf.1 hf.2]
    | false =>
      simp only [Bool.false_eq_true, if_false]
      simp only [divU, divided, hne, Bool.or_self, Bool.false_eq_true, if_false]
      congr 1
      apply BitVec.eq_of_toNat_eq
      apply Int.ofNat.inj
      show ((BitVec.toNat _ : Nat) : Int) = ((BitVec.toNat _ : Nat) : Int)
      rw [toNat_ofInt_of hf.1 hf.2]
      rw [BitVec.udiv_eq, BitVec.toNat_udiv]
      push_cast
      rw [toNat_ofInt_of hx.1 hx.2, toNat_ofInt_of hy.1 hy.2, Int.tdiv_eq_ediv_of_nonneg hx.1]
  · rw [dividedN_bad (.inr hf)]
    have hq' := hq.mpr hf
    cases s with
    | true => simp only [if_true] at hq' ⊢; simp [divS, divided, hq']
    | false => simp at hq'

theorem rem_num (hn : 1 < n) (hx : HasN s n x) (hy : HasN s n y) :
    (if s then remS (BitVec.ofInt n x) (BitVec.ofInt n y) else remU (BitVec.ofInt n x) (BitVec.ofInt n y)) =
      dividedN s n x y (x.tmod y) := by
  have hz := ofInt_zero_iff (by omega) hy
  by_cases h0 : y = 0
  · rw [dividedN_bad (.inl h0)]
    have := hz.mpr h0
    cases s <;> simp [remS, remU, divided, this]
  have hne : (BitVec.ofInt n y == 0#n) = false := by rw [beq_eq_false_iff_ne]; exact fun h => h0 (hz.mp h)
  have hq := quotient_num hn hx hy h0
  by_cases hf : HasN s n (x.tdiv y)
  · rw [dividedN_good h0 hf]
    have hq' : (if s then quotientOverflow (BitVec.ofInt n x) (BitVec.ofInt n y) else false) = false := by
      rw [← Bool.not_eq_true]; exact fun h => (hq.mp h) hf
    cases s with
    | true =>
      simp only [if_true] at hq' ⊢
      simp only [remS, divided, hne, hq', Bool.or_self, Bool.false_eq_true, if_false]
      congr 1
      rw [← BitVec.ofInt_toInt (x := BitVec.srem _ _), BitVec.toInt_srem, toInt_ofInt_of (by omega) hx.1 hx.2,
        toInt_ofInt_of (by omega) hy.1 hy.2]
    | false =>
      simp only [Bool.false_eq_true, if_false]
      simp only [remU, divided, hne, Bool.or_self, Bool.false_eq_true, if_false]
      congr 1
      rw [← ofInt_toNat (BitVec.umod _ _)]
      congr 1
      rw [BitVec.umod_eq, BitVec.toNat_umod]
      push_cast
      rw [toNat_ofInt_of hx.1 hx.2, toNat_ofInt_of hy.1 hy.2, Int.tmod_eq_emod_of_nonneg hx.1]
  · rw [dividedN_bad (.inr hf)]
    have hq' := hq.mpr hf
    cases s with
    | true => simp only [if_true] at hq' ⊢; simp [remS, divided, hq']
    | false => simp at hq'

/-! ## Bits -/

theorem bit_congr {i : Nat} (hi : i < n) (h : x % 2 ^ n = y % 2 ^ n) : bit x i ↔ bit y i := by
  have key : ∀ z : Int, z / 2 ^ i % 2 = z % 2 ^ n / 2 ^ i % 2 := by
    intro z
    have e : (2 : Int) ^ n = 2 ^ i * (2 * 2 ^ (n - i - 1)) := by
      rw [← Int.pow_succ', ← Int.pow_add]
      congr 1; omega
    have hz : z = z % 2 ^ n + 2 ^ i * (2 * (2 ^ (n - i - 1) * (z / 2 ^ n))) := by
      have := Int.emod_add_mul_ediv z (2 ^ n)
      calc z = z % 2 ^ n + 2 ^ n * (z / 2 ^ n) := this.symm
        _ = z % 2 ^ n + (2 ^ i * (2 * 2 ^ (n - i - 1))) * (z / 2 ^ n) := by rw [← e]
        _ = _ := by ring
    have hp : (2 : Int) ^ i ≠ 0 := Int.ne_of_gt (Int.pow_pos (by decide))
    generalize z % 2 ^ n = r at hz ⊢
    rw [hz, Int.add_mul_ediv_left _ _ hp, Int.add_mul_emod_self_left]
  unfold bit
  rw [key x, key y, h]

theorem toNat_ofInt_mod (x : Int) : ((BitVec.ofInt n x).toNat : Int) % 2 ^ n = x % 2 ^ n := by
  rw [BitVec.toNat_ofInt]
  push_cast
  have : (0 : Int) < 2 ^ n := Int.pow_pos (by decide)
  have := Int.emod_nonneg x (Int.ne_of_gt this)
  rw [Int.toNat_of_nonneg this, Int.emod_emod_of_dvd _ (Int.dvd_refl _)]

theorem bit_ofInt {i : Nat} (hi : i < n) (x : Int) : bit x i ↔ (BitVec.ofInt n x).getLsbD i = true := by
  rw [← bit_congr hi (toNat_ofInt_mod x), BitVec.getLsbD, Nat.testBit_eq_decide_div_mod_eq, decide_eq_true_eq]
  unfold bit
  norm_cast

theorem bit_numOf {i : Nat} (hi : i < n) (a : BitVec n) : bit (numOf s a) i ↔ a.getLsbD i = true := by
  rw [bit_ofInt hi, ofInt_numOf]

theorem not_num (hx : HasN s n x) : ~~~ BitVec.ofInt n x = BitVec.ofInt n (if s then -1 - x else 2 ^ n - 1 - x) := by
  have h : ~~~ BitVec.ofInt n x = BitVec.ofInt n (-1 - x) := by
    rw [BitVec.not_eq_neg_add, ← BitVec.ofInt_neg]
    have : (1#n : BitVec n) = BitVec.ofInt n 1 := by simp
    rw [this, ofInt_sub']
    congr 1
    omega
  rw [h]
  cases s with
  | true => rfl
  | false =>
    apply ofInt_congr
    simp only [Bool.false_eq_true, if_false]
    rw [show (2 : Int) ^ n - 1 - x = (-1 - x) + 2 ^ n by omega, Int.add_emod_right]

/-! ## Shifts -/

/-- The result of a shift by `y`, if shifting by `c` gives `f c`. -/
def shiftedN (cfg : Cfg) (n : Nat) (y : Int) (f : Nat → BitVec n) : Res (BitVec n) :=
  if 0 ≤ y ∧ y < n then .ok (f y.toNat) else if cfg.checks then .panic else .ok (f (y % n).toNat)

theorem count_num (hn : (n : Int) ∣ 2 ^ n) (hw : 2 * n ≤ 2 ^ n) (h0 : 0 < n) (hy : HasN s n y) (f : Nat → BitVec n) :
    checked cfg (decide (n ≤ (BitVec.ofInt n y).toNat)) (f ((BitVec.ofInt n y).toNat % n)) = shiftedN cfg n y f := by
  have hc : (BitVec.ofInt n y).toNat % n = (y % n).toNat := by
    have h := toNat_ofInt_mod (n := n) y
    have : ((BitVec.ofInt n y).toNat : Int) % n = y % n := by
      rw [← Int.emod_emod_of_dvd _ hn, h, Int.emod_emod_of_dvd _ hn]
    omega
  have ho : n ≤ (BitVec.ofInt n y).toNat ↔ ¬ (0 ≤ y ∧ y < n) := by
    by_cases hneg : 0 ≤ y
    · have hlt : y < 2 ^ n := by
        cases s with
        | true =>
          have := hy.2
          have h2 : (2 : Int) ^ n = 2 * 2 ^ (n - 1) := by rw [← Int.pow_succ']; congr 1; omega
          have : (0 : Int) < 2 ^ (n - 1) := Int.pow_pos (by decide)
          omega
        | false => exact hy.2
      have := toNat_ofInt_of hneg hlt
      omega
    · have : (BitVec.ofInt n y).toNat = y + 2 ^ n ∧ -2 ^ (n - 1) ≤ y := by
        cases s with
        | true =>
          have h2 : (2 : Int) ^ n = 2 * 2 ^ (n - 1) := by rw [← Int.pow_succ']; congr 1; omega
          have h1 : -2 ^ (n - 1) ≤ y := hy.1
          have hp : (0 : Int) < 2 ^ (n - 1) := Int.pow_pos (by decide)
          refine ⟨?_, h1⟩
          have e : BitVec.ofInt n y = BitVec.ofInt n (y + 2 ^ n) := ofInt_congr (by rw [Int.add_emod_right])
          rw [e]
          exact toNat_ofInt_of (by omega) (by omega)
        | false => exact absurd hy.1 hneg
      have h2 : (2 : Int) ^ n = 2 * 2 ^ (n - 1) := by rw [← Int.pow_succ']; congr 1; omega
      have hw' : 2 * (n : Int) ≤ 2 ^ n := by exact_mod_cast hw
      constructor
      · intro _ h; exact hneg h.1
      · intro _; omega
  unfold checked shiftedN
  rw [hc]
  by_cases h : 0 ≤ y ∧ y < n
  · rw [if_pos h]
    have : decide (n ≤ (BitVec.ofInt n y).toNat) = false := by simpa using fun h' => ho.mp h' h
    simp only [this, Bool.and_false, Bool.false_eq_true, if_false]
    rw [Int.emod_eq_of_lt h.1 h.2]
  · rw [if_neg h]
    have : decide (n ≤ (BitVec.ofInt n y).toNat) = true := by simpa using ho.mpr h
    simp only [this, Bool.and_true]

theorem shl_num (x : Int) (c : Nat) : BitVec.ofInt n x <<< c = BitVec.ofInt n (x * 2 ^ c) := by
  rw [BitVec.ofInt_mul, BitVec.shiftLeft_eq_mul_twoPow]
  congr 1
  apply BitVec.eq_of_toNat_eq
  rw [BitVec.toNat_twoPow, BitVec.toNat_ofInt]
  norm_cast

theorem shr_num (hn : 0 < n) (hx : HasN s n x) (c : Nat) :
    (if s then BitVec.sshiftRight (BitVec.ofInt n x) c else BitVec.ofInt n x >>> c) = BitVec.ofInt n (x / 2 ^ c) := by
  cases s with
  | true =>
    simp only [if_true]
    rw [exact_shr, toInt_ofInt_of hn hx.1 hx.2]
  | false =>
    simp only [Bool.false_eq_true, if_false]
    rw [← ofInt_toNat (BitVec.ofInt n x >>> c)]
    congr 1
    rw [BitVec.toNat_ushiftRight, Nat.shiftRight_eq_div_pow]
    push_cast
    rw [toNat_ofInt_of hx.1 hx.2]

theorem hasN_div (hx : HasN s n x) (c : Nat) : HasN s n (x / 2 ^ c) := by
  have hp : (0 : Int) < 2 ^ c := Int.pow_pos (by decide)
  have h1 : 0 ≤ x → x / 2 ^ c ≤ x := fun h => Int.ediv_le_self _ h
  have h2 : 0 ≤ x → 0 ≤ x / 2 ^ c := fun h => Int.ediv_nonneg h (by omega)
  have h3 : x < 0 → x ≤ x / 2 ^ c := by
    intro h
    rw [Int.le_ediv_iff_mul_le hp]
    have := Int.mul_le_mul_of_nonpos_left (show x ≤ 0 by omega) (show (1 : Int) ≤ 2 ^ c by omega)
    omega
  have h4 : x < 0 → x / 2 ^ c < 0 := fun h => Int.ediv_neg_of_neg_of_pos h hp
  cases s with
  | true =>
    have ha : -2 ^ (n - 1) ≤ x := hx.1
    have hb : x < 2 ^ (n - 1) := hx.2
    show -2 ^ (n - 1) ≤ x / 2 ^ c ∧ x / 2 ^ c < 2 ^ (n - 1)
    have : (0 : Int) < 2 ^ (n - 1) := Int.pow_pos (by decide)
    by_cases h : 0 ≤ x
    · have := h1 h; have := h2 h; constructor <;> omega
    · have := h3 (by omega); have := h4 (by omega); constructor <;> omega
  | false =>
    have ha : 0 ≤ x := hx.1
    have hb : x < 2 ^ n := hx.2
    show 0 ≤ x / 2 ^ c ∧ x / 2 ^ c < 2 ^ n
    have := h1 ha; have := h2 ha
    constructor <;> omega

/-! ## Comparison -/

theorem cmp_num (hn : 0 < n) (hx : HasN s n x) (hy : HasN s n y) :
    (if s then Value.cmpS (BitVec.ofInt n x) (BitVec.ofInt n y) else Value.cmpU (BitVec.ofInt n x) (BitVec.ofInt n y)) = some (compare x y) := by
  have h1 := numOf_ofInt hn hx
  have h2 := numOf_ofInt hn hy
  cases s with
  | true =>
    simp only [numOf, if_true] at h1 h2 ⊢
    rw [Value.cmpS, h1, h2]
  | false =>
    simp only [numOf, Bool.false_eq_true, if_false] at h1 h2 ⊢
    rw [Value.cmpU]
    congr 1
    generalize (BitVec.ofInt n x).toNat = a at h1 ⊢
    generalize (BitVec.ofInt n y).toNat = b at h2 ⊢
    subst h1 h2
    simp only [compare, compareOfLessAndEq]
    norm_cast

/-! ## The eight types -/

/-- The value of a type with given bits. -/
def IntType.mk (t : IntType) (a : BitVec t.bits) : Value :=
  match t, a with
  | .i8, a => .i8 a | .u8, a => .u8 a | .i16, a => .i16 a | .u16, a => .u16 a
  | .i32, a => .i32 a | .u32, a => .u32 a | .i64, a => .i64 a | .u64, a => .u64 a

variable {t : IntType}

theorem val_mk (t : IntType) (x : Int) : t.val x = IntType.mk t (.ofInt t.bits x) := by cases t <;> rfl

theorem mk_inj {a b : BitVec t.bits} (h : IntType.mk t a = IntType.mk t b) : a = b := by
  cases t <;> (injection h)

theorem bits_pos (t : IntType) : 1 < t.bits := by cases t <;> decide

theorem bits_dvd (t : IntType) : (t.bits : Int) ∣ 2 ^ t.bits := by cases t <;> decide

theorem bits_wide (t : IntType) : 2 * t.bits ≤ 2 ^ t.bits := by cases t <;> decide

theorem has_iff (t : IntType) (x : Int) : t.Has x ↔ HasN t.signed t.bits x := by
  unfold IntType.Has IntType.least IntType.greatest HasN Fits
  cases t.signed with
  | true => simp only [if_true]; omega
  | false => simp only [Bool.false_eq_true, if_false]; omega

theorem wrap_mod (t : IntType) (x : Int) : t.wrap x % 2 ^ t.bits = x % 2 ^ t.bits := by
  unfold IntType.wrap
  rw [Int.add_emod, Int.emod_emod_of_dvd _ (Int.dvd_refl _), ← Int.add_emod]
  congr 1
  omega

theorem val_wrap (t : IntType) (x : Int) : t.val (t.wrap x) = t.val x := by
  rw [val_mk, val_mk, ofInt_congr (wrap_mod t x)]

theorem wrap_has (t : IntType) (x : Int) : t.Has (t.wrap x) := by
  have hp : (0 : Int) < 2 ^ t.bits := Int.pow_pos (by decide)
  have h1 := Int.emod_nonneg (x - t.least) (Int.ne_of_gt hp)
  have h2 := Int.emod_lt_of_pos (x - t.least) hp
  have h3 : t.greatest = t.least + 2 ^ t.bits - 1 := by cases t <;> decide
  unfold IntType.Has IntType.wrap
  omega

theorem fitted_mk (z : Int) : fitted cfg t z = IntType.mk t <$> fittedN cfg t.signed t.bits z := by
  unfold fitted fittedN
  by_cases h : t.Has z
  · rw [if_pos h, if_pos ((has_iff t z).mp h), val_mk]; rfl
  · rw [if_neg h, if_neg (fun h' => h ((has_iff t z).mpr h'))]
    cases cfg.checks
    · simp only [Bool.false_eq_true, if_false]; rw [val_wrap, val_mk]; rfl
    · rfl

theorem divided_mk (z : Int) : (if y = 0 ∨ ¬ t.Has (x.tdiv y) then .panic else .ok (t.val z)) =
    IntType.mk t <$> dividedN t.signed t.bits x y z := by
  by_cases h : y = 0 ∨ ¬ t.Has (x.tdiv y)
  · rw [if_pos h, dividedN_bad (by rwa [has_iff] at h)]; rfl
  · rw [if_neg h]
    rw [not_or, Classical.not_not, has_iff] at h
    rw [dividedN_good h.1 h.2, val_mk]; rfl

theorem shifted_mk (f : Nat → Int) : shifted cfg t y f = IntType.mk t <$> shiftedN cfg t.bits y fun c => .ofInt t.bits (f c) := by
  unfold shifted shiftedN
  by_cases h : 0 ≤ y ∧ y < t.bits
  · rw [if_pos h, if_pos h, val_wrap, val_mk]; rfl
  · rw [if_neg h, if_neg h]
    cases cfg.checks
    · simp only [Bool.false_eq_true, if_false]; rw [val_wrap, val_mk]; rfl
    · rfl

theorem arith_mk (s u : {n : Nat} → BitVec n → BitVec n → Res (BitVec n)) (f d) (a b : BitVec t.bits) :
    Value.arith s u f d (IntType.mk t a) (IntType.mk t b) = IntType.mk t <$> (if t.signed then s a b else u a b) := by
  cases t <;> rfl

theorem bits_mk (s u : {n : Nat} → BitVec n → BitVec n → Res (BitVec n)) (a b : BitVec t.bits) :
    Value.bits s u (IntType.mk t a) (IntType.mk t b) = IntType.mk t <$> (if t.signed then s a b else u a b) := by
  cases t <;> rfl

theorem cmp_mk (a b : BitVec t.bits) : Value.partialCmp ops (IntType.mk t a) (IntType.mk t b) =
    .ok (if t.signed then Value.cmpS a b else Value.cmpU a b) := by
  cases t <;> rfl

theorem not_mk (a : BitVec t.bits) : Value.not (IntType.mk t a) = .ok (IntType.mk t (~~~ a)) := by cases t <;> rfl

theorem neg_mk (a : BitVec t.bits) : Value.neg cfg ops (IntType.mk t a) = if t.signed then IntType.mk t <$> negS cfg a else .panic := by
  cases t <;> rfl

theorem eq_mk (a b : BitVec t.bits) : Value.eq ops (IntType.mk t a) (IntType.mk t b) = (a == b) := by cases t <;> rfl

theorem zero_mk (a : BitVec t.bits) : Value.isNullOrZero ops (IntType.mk t a) = .ok (a == 0#t.bits) := by cases t <;> rfl

/-- A bitwise operator. -/
theorem bitwise_mk (o : {n : Nat} → BitVec n → BitVec n → BitVec n) (p : Prop → Prop → Prop)
    (ho : ∀ (a b : BitVec t.bits) (i : Nat), i < t.bits → ((o a b).getLsbD i = true ↔ p (a.getLsbD i = true) (b.getLsbD i = true))) (x y : Int) :
    ∃ r, t.Has r ∧ Value.bits (fun a b => .ok (o a b)) (fun a b => .ok (o a b)) (t.val x) (t.val y) = .ok (t.val r) ∧
      ∀ i < t.bits, (bit r i ↔ p (bit x i) (bit y i)) := by
  refine ⟨numOf t.signed (o (.ofInt t.bits x) (.ofInt t.bits y)), (has_iff t _).mpr (hasN_numOf _), ?_, fun i hi => ?_⟩
  · rw [val_mk, val_mk, val_mk, bits_mk, ofInt_numOf]
    cases t.signed <;> rfl
  · rw [bit_numOf hi, ho _ _ i hi, ← bit_ofInt hi, ← bit_ofInt hi]

end Clr
