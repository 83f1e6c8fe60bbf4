import Verif.Lemmas.Machine
/-! # Machine integers as integers -/

namespace Clr

/-- The integer the machine computes on. -/
theorem exact_add {n : Nat} (a b : BitVec n) : a + b = BitVec.ofInt n (a.toInt + b.toInt) := by
  rw [BitVec.ofInt_add, BitVec.ofInt_toInt, BitVec.ofInt_toInt]

theorem exact_mul {n : Nat} (a b : BitVec n) : a * b = BitVec.ofInt n (a.toInt * b.toInt) := by
  rw [BitVec.ofInt_mul, BitVec.ofInt_toInt, BitVec.ofInt_toInt]

theorem exact_neg {n : Nat} (a : BitVec n) : -a = BitVec.ofInt n (-a.toInt) := by
  rw [BitVec.ofInt_neg, BitVec.ofInt_toInt]

theorem exact_sub {n : Nat} (a b : BitVec n) : a - b = BitVec.ofInt n (a.toInt - b.toInt) := by
  rw [Int.sub_eq_add_neg, BitVec.ofInt_add, BitVec.ofInt_neg, BitVec.ofInt_toInt, BitVec.ofInt_toInt,
    BitVec.sub_eq_add_neg]

theorem sadd_iff {n : Nat} (a b : BitVec n) : BitVec.saddOverflow a b = true ↔ ¬ Fits n (a.toInt + b.toInt) := by
  simp only [BitVec.saddOverflow, Fits, Bool.or_eq_true, decide_eq_true_eq]; omega

theorem ssub_iff {n : Nat} (a b : BitVec n) : BitVec.ssubOverflow a b = true ↔ ¬ Fits n (a.toInt - b.toInt) := by
  simp only [BitVec.ssubOverflow, Fits, Bool.or_eq_true, decide_eq_true_eq]; omega

theorem smul_iff {n : Nat} (a b : BitVec n) : BitVec.smulOverflow a b = true ↔ ¬ Fits n (a.toInt * b.toInt) := by
  simp only [BitVec.smulOverflow, Fits, Bool.or_eq_true, decide_eq_true_eq]; omega

theorem sneg_iff {n : Nat} (hn : 0 < n) (a : BitVec n) : BitVec.negOverflow a = true ↔ ¬ Fits n (-a.toInt) := by
  simp only [BitVec.negOverflow, Fits, beq_iff_eq]
  have h1 := @BitVec.toInt_lt n a
  have h2 := @BitVec.le_toInt n a
  obtain ⟨k, rfl⟩ : ∃ k, n = k + 1 := ⟨n - 1, by omega⟩
  simp only [Nat.add_sub_cancel] at *
  omega

theorem checked_run {n : Nat} (cfg : Cfg) {o : Bool} {x : Int} (h : o = true ↔ ¬ Fits n x) (r : BitVec n) :
    checked cfg o r = if cfg.checks = true ∧ ¬ Fits n x then .panic else .ok r := by
  unfold checked
  by_cases hf : Fits n x <;> cases hc : cfg.checks <;> simp_all

theorem exact_shl {n : Nat} (a : BitVec n) (c : Nat) : a <<< c = BitVec.ofInt n (a.toInt * 2 ^ c) := by
  rw [BitVec.ofInt_mul, BitVec.ofInt_toInt, BitVec.shiftLeft_eq_mul_twoPow]
  congr 1
  apply BitVec.eq_of_toNat_eq
  rw [BitVec.toNat_twoPow, BitVec.toNat_ofInt]
  norm_cast

theorem exact_shr {n : Nat} (a : BitVec n) (c : Nat) :
    BitVec.sshiftRight a c = BitVec.ofInt n (a.toInt / 2 ^ c) := by
  have h : a.toInt / 2 ^ c = a.toInt >>> c := by
    rw [Int.shiftRight_eq_div_pow]; norm_cast
  rw [h, ← BitVec.toInt_sshiftRight, BitVec.ofInt_toInt]

/-- Truncated division of machine integers. -/
theorem sdiv_srem {n : Nat} (a b : BitVec n) (hb : b ≠ 0#n) (ho : quotientOverflow a b = false) :
    IsTruncated a.toInt b.toInt (BitVec.sdiv a b).toInt (BitVec.srem a b).toInt := by
  have hb' : b.toInt ≠ 0 := fun h => hb (BitVec.eq_of_toInt_eq (by simp [h]))
  have hq : (BitVec.sdiv a b).toInt = a.toInt.tdiv b.toInt := by
    apply BitVec.toInt_sdiv_of_ne_or_ne
    simp only [quotientOverflow, Bool.and_eq_false_iff, beq_eq_false_iff_ne] at ho
    exact ho
  have hr := BitVec.toInt_srem a b
  rw [hq, hr]
  refine ⟨by rw [Int.mul_comm]; exact (Int.mul_tdiv_add_tmod _ _).symm, ?_, ?_, ?_⟩
  · rw [Int.natAbs_tmod]
    exact Nat.mod_lt _ (by omega)
  · intro h; exact Int.tmod_nonneg _ h
  · intro h
    have := Int.tmod_nonneg (a := -a.toInt) b.toInt (by omega)
    rw [Int.neg_tmod] at this; omega

end Clr

namespace Clr

/-- The two integer sizes of the evaluation stack (III.1.1). -/
inductive Width where
  | int | long
deriving DecidableEq, Repr

abbrev Width.bits : Width → Nat
  | .int => 32 | .long => 64

abbrev Width.val : (w : Width) → BitVec w.bits → Value
  | .int, x => .i32 x
  | .long, x => .i64 x

theorem Width.bits_pos (w : Width) : 0 < w.bits := by cases w <;> decide

variable {cfg : Cfg} {ops : FloatOps} {tf : Nat} {fr : Frame} {ip : Nat} {v : VM} {rest : List Value}

/-- Where an instruction that pushes `x` continues. -/
def pushed (v : VM) (rest : List Value) (ip : Nat) (x : Value) : Res Action × VM :=
  (.ok (.next ip), { v with operands := x :: rest })

/-- A program that stops in a panic; what is left of the stack does not matter. -/
def stopped (v : VM) (rest : List Value) : Res Action × VM := (.panic, { v with operands := rest })

theorem binary_if {x y c : Value} {P : Prop} [Decidable P] {f : Value → Value → Res Value}
    (hs : v.operands = y :: x :: rest) (hf : f x y = if P then .panic else .ok c) :
    binary f ip v = if P then stopped v rest else pushed v rest ip c := by
  rw [binary_run hs, hf]; split <;> rfl

theorem unary_if {x c : Value} {P : Prop} [Decidable P] {f : Value → Res Value}
    (hs : v.operands = x :: rest) (hf : f x = if P then .panic else .ok c) :
    unary f ip v = if P then stopped v rest else pushed v rest ip c := by
  rw [unary_run hs, hf]; split <;> rfl

/-- Wrapping the result of a machine operation in a value. -/
theorem Width.wrap (w : Width) {P : Prop} [Decidable P] {s : {n : Nat} → BitVec n → BitVec n → Res (BitVec n)}
    {a b r : BitVec w.bits} (h : s a b = if P then .panic else .ok r) :
    (match w, a, b with
      | .int, a, b => Value.i32 <$> s a b
      | .long, a, b => Value.i64 <$> s a b) = if P then .panic else .ok (w.val r) := by
  cases w <;> (dsimp only; erw [h]; split <;> rfl)

theorem arith_step (w : Width) (op : Arith) (a b : BitVec w.bits) (hc : HasAt fr.code ip [op.opcode])
    (hs : v.operands = w.val b :: w.val a :: rest) :
    step cfg ops tf fr ip v =
      if cfg.checks = true ∧ ¬ Fits w.bits (op.exact a.toInt b.toInt) then stopped v rest
      else pushed v rest (ip + 1) (w.val (BitVec.ofInt w.bits (op.exact a.toInt b.toInt))) := by
  cases op
  all_goals simp only [Arith.opcode] at hc
  · rw [step_one hc (by decide) (op := .Add) (by decide)]
    refine binary_if hs ?_
    rw [← w.wrap (s := addS cfg) (by rw [addS, checked_run cfg (sadd_iff a b), exact_add]; rfl)]
    cases w <;> rfl
  · rw [step_one hc (by decide) (op := .Sub) (by decide)]
    refine binary_if hs ?_
    rw [← w.wrap (s := subS cfg) (by rw [subS, checked_run cfg (ssub_iff a b), exact_sub]; rfl)]
    cases w <;> rfl
  · rw [step_one hc (by decide) (op := .Mul) (by decide)]
    refine binary_if hs ?_
    rw [← w.wrap (s := mulS cfg) (by rw [mulS, checked_run cfg (smul_iff a b), exact_mul]; rfl)]
    cases w <;> rfl

theorem neg_step (w : Width) (a : BitVec w.bits) (hc : HasAt fr.code ip [0x65])
    (hs : v.operands = w.val a :: rest) :
    step cfg ops tf fr ip v =
      if cfg.checks = true ∧ ¬ Fits w.bits (-a.toInt) then stopped v rest
      else pushed v rest (ip + 1) (w.val (BitVec.ofInt w.bits (-a.toInt))) := by
  rw [step_one hc (by decide) (op := .Neg) (by decide)]
  refine unary_if hs ?_
  rw [← w.wrap (s := fun a _ => negS cfg a) (b := a)
    (by rw [negS, checked_run cfg (sneg_iff w.bits_pos a), exact_neg])]
  cases w <;> rfl

theorem bitwise_step (w : Width) (op : Bitwise) (a b : BitVec w.bits) (hc : HasAt fr.code ip [op.opcode])
    (hs : v.operands = w.val b :: w.val a :: rest) :
    ∃ r : BitVec w.bits, step cfg ops tf fr ip v = pushed v rest (ip + 1) (w.val r) ∧
      ∀ i, i < w.bits → r.getLsbD i = op.bit (a.getLsbD i) (b.getLsbD i) := by
  cases op
  all_goals simp only [Bitwise.opcode] at hc
  · refine ⟨a &&& b, ?_, fun i _ => by simp [Bitwise.bit]⟩
    rw [step_one hc (by decide) (op := .And) (by decide)]
    show binary Value.and (ip + 1) v = _
    rw [binary_run hs]
    cases w <;> rfl
  · refine ⟨a ||| b, ?_, fun i _ => by simp [Bitwise.bit]⟩
    rw [step_one hc (by decide) (op := .Or) (by decide)]
    show binary Value.or (ip + 1) v = _
    rw [binary_run hs]
    cases w <;> rfl
  · refine ⟨a ^^^ b, ?_, fun i _ => by simp [Bitwise.bit]⟩
    rw [step_one hc (by decide) (op := .Xor) (by decide)]
    show binary Value.xor (ip + 1) v = _
    rw [binary_run hs]
    cases w <;> rfl

theorem not_step (w : Width) (a : BitVec w.bits) (hc : HasAt fr.code ip [0x66])
    (hs : v.operands = w.val a :: rest) :
    ∃ r : BitVec w.bits, step cfg ops tf fr ip v = pushed v rest (ip + 1) (w.val r) ∧
      ∀ i, i < w.bits → r.getLsbD i = !(a.getLsbD i) := by
  refine ⟨~~~a, ?_, fun i hi => by simp [hi]⟩
  rw [step_one hc (by decide) (op := .Not) (by decide)]
  show unary Value.not (ip + 1) v = _
  rw [unary_run hs]
  cases w <;> rfl

/-- Both shifts, with a count of the same size as the value. -/
theorem shift_step (w : Width) (op : Shift) (a b : BitVec w.bits) (hc : HasAt fr.code ip [op.opcode])
    (hs : v.operands = w.val b :: w.val a :: rest) :
    step cfg ops tf fr ip v =
      if cfg.checks = true ∧ w.bits ≤ b.toNat then stopped v rest
      else pushed v rest (ip + 1) (w.val (BitVec.ofInt w.bits (op.exact a.toInt (b.toNat % w.bits)))) := by
  have hd : ∀ r : BitVec w.bits, checked cfg (decide (w.bits ≤ b.toNat)) r =
      if cfg.checks = true ∧ w.bits ≤ b.toNat then .panic else .ok r := by
    intro r; unfold checked
    by_cases h : w.bits ≤ b.toNat <;> cases hc : cfg.checks <;> simp_all
  cases op
  all_goals simp only [Shift.opcode] at hc
  · rw [step_one hc (by decide) (op := .Shl) (by decide)]
    refine binary_if hs ?_
    rw [← w.wrap (s := shl cfg) (by rw [shl, hd, exact_shl]; rfl)]
    cases w <;> rfl
  · rw [step_one hc (by decide) (op := .Shr) (by decide)]
    refine binary_if hs ?_
    rw [← w.wrap (s := shrS cfg) (by rw [shrS, hd, exact_shr]; rfl)]
    cases w <;> rfl

theorem divided_ok {n : Nat} {a b r : BitVec n} (hb : b ≠ 0#n) (ho : quotientOverflow a b = false) :
    divided (b == 0#n) (quotientOverflow a b) r = .ok r := by
  unfold divided; simp [hb, ho]

theorem overflow_iff {n : Nat} (hn : 1 < n) (a b : BitVec n) :
    quotientOverflow a b = true ↔ a.toInt = -2 ^ (n - 1) ∧ b.toInt = -1 := by
  have h1 : (-1#n).toInt = -1 := by rw [BitVec.neg_one_eq_allOnes]; simp; omega
  have h2 : (BitVec.intMin n).toInt = -2 ^ (n - 1) := by
    rw [BitVec.toInt_intMin_of_pos (by omega)]
  simp only [quotientOverflow, Bool.and_eq_true, beq_iff_eq]
  rw [← h1, ← h2]
  exact ⟨fun ⟨h, h'⟩ => ⟨by rw [h], by rw [h']⟩, fun ⟨h, h'⟩ => ⟨BitVec.eq_of_toInt_eq h, BitVec.eq_of_toInt_eq h'⟩⟩

theorem div_step (w : Width) (a b : BitVec w.bits) (hc : HasAt fr.code ip [0x5b])
    (hs : v.operands = w.val b :: w.val a :: rest) :
    step cfg ops tf fr ip v =
      if b.toInt = 0 ∨ a.toInt = -2 ^ (w.bits - 1) ∧ b.toInt = -1 then stopped v rest
      else pushed v rest (ip + 1) (w.val (BitVec.sdiv a b)) := by
  have hz : b.toInt = 0 ↔ b = 0#w.bits := ⟨fun h => BitVec.eq_of_toInt_eq (by simp [h]), fun h => by simp [h]⟩
  rw [step_one hc (by decide) (op := .Div) (by decide)]
  have hd : divS a b = if b.toInt = 0 ∨ a.toInt = -2 ^ (w.bits - 1) ∧ b.toInt = -1 then .panic
      else .ok (BitVec.sdiv a b) := by
    simp only [hz, ← overflow_iff (show 1 < w.bits by cases w <;> decide), divS, divided]
    simp
  refine binary_if hs ?_
  rw [← w.wrap (s := divS) hd]
  cases w <;> rfl

theorem rem_step (w : Width) (a b : BitVec w.bits) (hc : HasAt fr.code ip [0x5d])
    (hs : v.operands = w.val b :: w.val a :: rest) :
    step cfg ops tf fr ip v =
      if b.toInt = 0 ∨ a.toInt = -2 ^ (w.bits - 1) ∧ b.toInt = -1 then stopped v rest
      else pushed v rest (ip + 1) (w.val (BitVec.srem a b)) := by
  have hz : b.toInt = 0 ↔ b = 0#w.bits := ⟨fun h => BitVec.eq_of_toInt_eq (by simp [h]), fun h => by simp [h]⟩
  rw [step_one hc (by decide) (op := .Rem) (by decide)]
  have hd : remS a b = if b.toInt = 0 ∨ a.toInt = -2 ^ (w.bits - 1) ∧ b.toInt = -1 then .panic
      else .ok (BitVec.srem a b) := by
    simp only [hz, ← overflow_iff (show 1 < w.bits by cases w <;> decide), remS, divided]
    simp
  refine binary_if hs ?_
  rw [← w.wrap (s := remS) hd]
  cases w <;> rfl

theorem toInt_small {x : BitVec 32} (h : x.toNat < 2 ^ 31) : x.toInt = (x.toNat : Int) := by
  rw [BitVec.toInt_eq_toNat_cond, if_pos (by omega)]

theorem ordS (a b : BitVec 32) : Value.cmpS a b = some (compare a.toInt b.toInt) := rfl

theorem compare_lt (a b : Int) : (some (compare a b) == some Ordering.lt) = decide (a < b) := by
  rcases Int.lt_trichotomy a b with h | h | h
  · simp [Int.compare_eq_lt.2 h, h]
  · subst h; simp
  · simp [Int.compare_eq_gt.2 h, show ¬ a < b by omega]

theorem compare_gt (a b : Int) : (some (compare a b) == some Ordering.gt) = decide (a > b) := by
  rcases Int.lt_trichotomy a b with h | h | h
  · simp [Int.compare_eq_lt.2 h, show ¬ b < a by omega]
  · subst h; simp
  · simp [Int.compare_eq_gt.2 h, h]

theorem compare_eq (a b : Int) : (some (compare a b) == some Ordering.eq) = decide (a = b) := by
  rcases Int.lt_trichotomy a b with h | h | h
  · simp [Int.compare_eq_lt.2 h, show ¬ a = b by omega]
  · subst h; simp
  · simp [Int.compare_eq_gt.2 h, show ¬ a = b by omega]

theorem lt_i32 (a b : BitVec 32) : Value.lt ops (.i32 a) (.i32 b) = .ok (decide (a.toInt < b.toInt)) := by
  simp only [Value.lt, Value.partialCmp, ordS, Res.ok_bind, Res.pure_eq, compare_lt]

theorem gt_i32 (a b : BitVec 32) : Value.gt ops (.i32 a) (.i32 b) = .ok (decide (a.toInt > b.toInt)) := by
  simp only [Value.gt, Value.partialCmp, ordS, Res.ok_bind, Res.pure_eq, compare_gt]

theorem le_i32 (a b : BitVec 32) : Value.le ops (.i32 a) (.i32 b) = .ok (decide (a.toInt ≤ b.toInt)) := by
  simp only [Value.le, Value.partialCmp, ordS, Res.ok_bind, Res.pure_eq, compare_lt, compare_eq, ← Bool.decide_or]
  congr 2; apply propext; omega

theorem ge_i32 (a b : BitVec 32) : Value.ge ops (.i32 a) (.i32 b) = .ok (decide (a.toInt ≥ b.toInt)) := by
  simp only [Value.ge, Value.partialCmp, ordS, Res.ok_bind, Res.pure_eq, compare_gt, compare_eq, ← Bool.decide_or]
  congr 2; apply propext; omega

theorem eq_i32 (a b : BitVec 32) : eqTop ops (.i32 a) (.i32 b) = .ok (decide (a.toInt = b.toInt)) := by
  simp only [eqTop, Value.eq]
  congr 1
  by_cases h : a = b
  · subst h; simp
  · have : a.toInt ≠ b.toInt := fun h' => h (BitVec.eq_of_toInt_eq h')
    simp [this]; exact fun h' => h h'.symm

theorem step_outside {n : Nat} (h : fr.code.length ≤ n) (u : VM) : (step cfg ops tf fr n u).1 = .panic := by
  have : fr.code[n]? = none := List.getElem?_eq_none h
  simp [step, X.bind_run, fetchOp, this]

/-- The address arithmetic of taken branches. -/
theorem jump_spec {n : Nat} {d : Int} (hl : fr.code.length < 2 ^ 62) (hn : n ≤ fr.code.length) (f : Form)
    (hd : Fits (8 * f.size) d) :
    (0 ≤ (n : Int) + d → ((jump n d : Nat) : Int) = n + d) ∧
    ((n : Int) + d < 0 → fr.code.length ≤ jump n d) := by
  have hb : -2 ^ 31 ≤ d ∧ d < 2 ^ 31 := by
    cases f <;> simp only [Form.size, Fits] at hd <;> omega
  unfold jump
  constructor
  · intro h
    rw [Int.emod_eq_of_lt h (by omega), Int.toNat_of_nonneg h]
  · intro h
    have : ((n : Int) + d) % 2 ^ 64 = n + d + 2 ^ 64 := by
      rw [← Int.add_emod_right, Int.emod_eq_of_lt (by omega) (by omega)]
    rw [this]; omega

theorem HasAt.le {code : Bytes} {bs : Bytes} (h : HasAt code ip bs) (hb : bs ≠ []) : ip + bs.length ≤ code.length := by
  obtain ⟨t, ht⟩ := h
  have := congrArg List.length ht
  have : 0 < bs.length := List.length_pos_iff.2 hb
  simp only [List.length_append, List.length_drop] at *
  omega

theorem length_intBytes (n : Nat) (d : Int) : (intBytes n d).length = n := by simp [intBytes]

end Clr
