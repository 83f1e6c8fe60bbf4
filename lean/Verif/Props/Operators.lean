import Verif.Lemmas.Operators
/-!
# C99: operators on values compute what the eight integer types promise

`Value` is public and implements the Rust operators; the interpreter uses them on operands of the stack, a host may use them on any
values. Integers are given by the numbers they stand for.
-/

namespace Clr
open Spec

variable {cfg : Cfg} {ops : FloatOps} {t : IntType} {x y : Int}

/-- **C99.** Every number of a type has a value, different numbers have different values, and these are all values of integer kind. -/
theorem C99_numbers (t : IntType) (v : Value) (h : valueKind v = .int t) : ∃ x, (t.Has x ∧ v = t.val x) ∧ ∀ y, t.Has y ∧ v = t.val y → y = x := by
  have hv : ∃ a, v = IntType.mk t a := by
    cases v <;> cases h <;> exact ⟨_, rfl⟩
  obtain ⟨a, rfl⟩ := hv
  refine ⟨numOf t.signed a, ⟨(has_iff t _).mpr (hasN_numOf a), by rw [val_mk, ofInt_numOf]⟩, ?_⟩
  rintro y ⟨hy, e⟩
  rw [val_mk] at e
  rw [mk_inj e, numOf_ofInt (by have := bits_pos t; omega) ((has_iff t y).mp hy)]

theorem C99_kind (t : IntType) (x : Int) : valueKind (t.val x) = .int t := by cases t <;> rfl

/-- **C99.** Addition, subtraction and multiplication. -/
theorem C99_arith (hx : t.Has x) (hy : t.Has y) :
    Value.add cfg ops (t.val x) (t.val y) = fitted cfg t (x + y) ∧ Value.sub cfg ops (t.val x) (t.val y) = fitted cfg t (x - y) ∧
      Value.mul cfg ops (t.val x) (t.val y) = fitted cfg t (x * y) := by
  rw [has_iff] at hx hy
  have hn : 0 < t.bits := by have := bits_pos t; omega
  simp only [fitted_mk, val_mk]
  unfold Value.add Value.sub Value.mul
  rw [arith_mk, arith_mk, arith_mk, add_num hn hx hy, sub_num hn hx hy, mul_num hn hx hy]
  exact ⟨rfl, rfl, rfl⟩

/-- **C99.** Quotient and remainder truncate toward zero; a zero divisor and a quotient that the type lacks panic in every build. -/
theorem C99_divide (hx : t.Has x) (hy : t.Has y) :
    Value.div ops (t.val x) (t.val y) = (if y = 0 ∨ ¬ t.Has (x.tdiv y) then .panic else .ok (t.val (x.tdiv y))) ∧
      Value.rem ops (t.val x) (t.val y) = (if y = 0 ∨ ¬ t.Has (x.tdiv y) then .panic else .ok (t.val (x.tmod y))) := by
  rw [divided_mk, divided_mk]
  rw [has_iff] at hx hy
  simp only [val_mk]
  unfold Value.div Value.rem
  rw [arith_mk, arith_mk, div_num (bits_pos t) hx hy, rem_num (bits_pos t) hx hy]
  exact ⟨rfl, rfl⟩

/-- **C99.** Negation exists for the signed types. -/
theorem C99_negate (hx : t.Has x) : Value.neg cfg ops (t.val x) = if t.signed then fitted cfg t (-x) else .panic := by
  rw [has_iff] at hx
  have hn : 0 < t.bits := by have := bits_pos t; omega
  rw [fitted_mk, val_mk, neg_mk]
  cases hs : t.signed with
  | true => rw [hs] at hx; simp only [if_true]; rw [neg_num hn hx]
  | false => rfl

/-- **C99.** The bitwise operators work bit by bit on the two's complement; complement is `-1 - x`, or what is missing to the greatest
number. -/
theorem C99_bitwise (t : IntType) (x y : Int) :
    (∃ r, t.Has r ∧ Value.and (t.val x) (t.val y) = .ok (t.val r) ∧ ∀ i < t.bits, (bit r i ↔ bit x i ∧ bit y i)) ∧
      (∃ r, t.Has r ∧ Value.or (t.val x) (t.val y) = .ok (t.val r) ∧ ∀ i < t.bits, (bit r i ↔ bit x i ∨ bit y i)) ∧
      (∃ r, t.Has r ∧ Value.xor (t.val x) (t.val y) = .ok (t.val r) ∧ ∀ i < t.bits, (bit r i ↔ ¬ (bit x i ↔ bit y i))) := by
  refine ⟨bitwise_mk (· &&& ·) And (fun a b i _ => ?_) x y, bitwise_mk (· ||| ·) Or (fun a b i _ => ?_) x y,
    bitwise_mk (· ^^^ ·) (fun p q => ¬ (p ↔ q)) (fun a b i _ => ?_) x y⟩
  · simp
  · simp
  · simp only [BitVec.getLsbD_xor]; cases a.getLsbD i <;> cases b.getLsbD i <;> simp

theorem C99_complement (hx : t.Has x) : Value.not (t.val x) = .ok (t.val (if t.signed then -1 - x else t.greatest - x)) ∧
    t.Has (if t.signed then -1 - x else t.greatest - x) := by
  constructor
  · have h := (has_iff t x).mp hx
    rw [val_mk, not_mk, not_num h, val_mk]
    cases hs : t.signed with
    | true => rfl
    | false => simp only [IntType.greatest, hs]; rfl
  · unfold IntType.Has IntType.least IntType.greatest at *
    cases hs : t.signed with
    | true => simp only [hs, if_true] at *; omega
    | false => simp only [hs, Bool.false_eq_true, if_false] at *; omega

/-- **C99.** A shift to the left multiplies by a power of two and drops what does not fit; a shift to the right divides by a power of two,
rounding down. -/
theorem C99_shift (hx : t.Has x) (hy : t.Has y) :
    Value.shl cfg (t.val x) (t.val y) = shifted cfg t y (fun c => x * 2 ^ c) ∧
      Value.shr cfg (t.val x) (t.val y) = shifted cfg t y (fun c => x / 2 ^ c) := by
  rw [has_iff] at hx hy
  have hn : 0 < t.bits := by have := bits_pos t; omega
  rw [shifted_mk, shifted_mk]
  simp only [val_mk]
  unfold Value.shl Value.shr
  rw [bits_mk, bits_mk]
  constructor
  · rw [ite_self]
    unfold Clr.shl
    rw [count_num (bits_dvd t) (bits_wide t) hn hy (fun c => BitVec.ofInt t.bits x <<< c)]
    simp only [shl_num]
  · have hr := fun c => shr_num hn hx c
    have e : (if t.signed = true then shrS cfg (BitVec.ofInt t.bits x) (.ofInt t.bits y) else shrU cfg (.ofInt t.bits x) (.ofInt t.bits y)) =
        checked cfg (decide (t.bits ≤ (BitVec.ofInt t.bits y).toNat)) (if t.signed = true then
          BitVec.sshiftRight (.ofInt t.bits x) ((BitVec.ofInt t.bits y).toNat % t.bits) else BitVec.ofInt t.bits x >>> ((BitVec.ofInt t.bits y).toNat % t.bits)) := by
      cases t.signed <;> rfl
    rw [e, hr]
    rw [count_num (bits_dvd t) (bits_wide t) hn hy (fun c => BitVec.ofInt t.bits (x / 2 ^ c))]

/-- What a right shift gives is already a number of the type. -/
theorem C99_shift_right (hx : t.Has x) (c : Nat) : t.wrap (x / 2 ^ c) = x / 2 ^ c := by
  have h := (has_iff t _).mpr (hasN_div ((has_iff t x).mp hx) c)
  have hp : (0 : Int) < 2 ^ t.bits := Int.pow_pos (by decide)
  have h3 : t.greatest = t.least + 2 ^ t.bits - 1 := by cases t <;> decide
  unfold IntType.Has at h
  unfold IntType.wrap
  rw [Int.emod_eq_of_lt (by omega) (by omega)]
  omega

/-- **C99.** The comparisons. -/
theorem C99_compare (hx : t.Has x) (hy : t.Has y) :
    Value.lt ops (t.val x) (t.val y) = .ok (decide (x < y)) ∧ Value.le ops (t.val x) (t.val y) = .ok (decide (x ≤ y)) ∧
      Value.gt ops (t.val x) (t.val y) = .ok (decide (x > y)) ∧ Value.ge ops (t.val x) (t.val y) = .ok (decide (x ≥ y)) ∧
      Value.eq ops (t.val x) (t.val y) = decide (x = y) ∧ Value.isNullOrZero ops (t.val x) = .ok (decide (x = 0)) := by
  rw [has_iff] at hx hy
  have hn : 0 < t.bits := by have := bits_pos t; omega
  have hc : Value.partialCmp ops (t.val x) (t.val y) = .ok (some (compare x y)) := by
    rw [val_mk, val_mk, cmp_mk, cmp_num hn hx hy]
  refine ⟨?_, ?_, ?_, ?_, ?_, ?_⟩
  · rw [Value.lt, hc]; simp only [Res.ok_bind, Res.pure_eq, compare_lt]
  · rw [Value.le, hc]
    simp only [Res.ok_bind, Res.pure_eq, compare_lt, compare_eq, ← Bool.decide_or]
    congr 2; apply propext; omega
  · rw [Value.gt, hc]; simp only [Res.ok_bind, Res.pure_eq, compare_gt]
  · rw [Value.ge, hc]
    simp only [Res.ok_bind, Res.pure_eq, compare_gt, compare_eq, ← Bool.decide_or]
    congr 2; apply propext; omega
  · rw [val_mk, val_mk, eq_mk, Bool.eq_iff_iff, beq_iff_eq, decide_eq_true_eq]
    constructor
    · intro h
      have := congrArg (numOf t.signed) h
      rwa [numOf_ofInt hn hx, numOf_ofInt hn hy] at this
    · rintro rfl; rfl
  · rw [val_mk, zero_mk]
    congr 1
    rw [Bool.eq_iff_iff, beq_iff_eq, decide_eq_true_eq]
    exact ofInt_zero_iff hn hx

/-- **C99.** Operands of different kinds: every operator and comparison panics, and `==` is false; references have no operator but `==`. -/
theorem C99_mixed {a b : Value} (h : valueKind a ≠ valueKind b ∨ valueKind a = .reference) :
    Value.add cfg ops a b = .panic ∧ Value.sub cfg ops a b = .panic ∧ Value.mul cfg ops a b = .panic ∧ Value.div ops a b = .panic ∧
      Value.rem ops a b = .panic ∧ Value.and a b = .panic ∧ Value.or a b = .panic ∧ Value.xor a b = .panic ∧ Value.shl cfg a b = .panic ∧
      Value.shr cfg a b = .panic ∧ Value.lt ops a b = .panic ∧ Value.le ops a b = .panic ∧ Value.gt ops a b = .panic ∧
      Value.ge ops a b = .panic ∧ (valueKind a ≠ valueKind b → Value.eq ops a b = false) := by
  cases a <;> cases b <;> first
    | exact ⟨rfl, rfl, rfl, rfl, rfl, rfl, rfl, rfl, rfl, rfl, rfl, rfl, rfl, rfl, fun _ => rfl⟩
    | exact ⟨rfl, rfl, rfl, rfl, rfl, rfl, rfl, rfl, rfl, rfl, rfl, rfl, rfl, rfl, fun h => absurd rfl h⟩
    | exact absurd h (by simp [valueKind])

/-- **C99.** Floating-point operands have no bitwise operators and no shifts. -/
theorem C99_float_bits {a b : Value} (h : valueKind a = .single ∨ valueKind a = .double) :
    Value.and a b = .panic ∧ Value.or a b = .panic ∧ Value.xor a b = .panic ∧ Value.shl cfg a b = .panic ∧ Value.shr cfg a b = .panic ∧
      Value.not a = .panic := by
  cases a <;> cases b <;> first
    | exact ⟨rfl, rfl, rfl, rfl, rfl, rfl⟩
    | exact absurd h (by simp [valueKind])

/-! ## Cases -/

example : Value.add .debug ops (IntType.u8.val 200) (IntType.u8.val 100) = .panic ∧
    Value.add .release ops (IntType.u8.val 200) (IntType.u8.val 100) = .ok (IntType.u8.val 44) := by
  rw [(C99_arith (by decide) (by decide)).1, (C99_arith (by decide) (by decide)).1]
  decide

example : Value.div ops (IntType.i16.val (-32768)) (IntType.i16.val (-1)) = .panic := by
  rw [(C99_divide (by decide) (by decide)).1]
  decide

example : Value.div ops (IntType.u16.val 65535) (IntType.u16.val 2) = .ok (IntType.u16.val 32767) := by
  rw [(C99_divide (by decide) (by decide)).1]
  decide

example : Value.shr .debug (IntType.i8.val (-3)) (IntType.i8.val 1) = .ok (IntType.i8.val (-2)) := by
  rw [(C99_shift (by decide) (by decide)).2]
  decide

example : Value.shl .release (IntType.u8.val 3) (IntType.u8.val 15) = .ok (IntType.u8.val 128) := by
  rw [(C99_shift (by decide) (by decide)).1]
  decide

example : Value.lt ops (IntType.u64.val 1) (IntType.u64.val 18446744073709551615) = .ok true := by
  rw [(C99_compare (by decide) (by decide)).1]
  decide

example : valueKind (IntType.i32.val 1) ≠ valueKind (IntType.u32.val 1) := by decide

end Clr
