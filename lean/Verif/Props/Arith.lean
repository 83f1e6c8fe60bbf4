import Verif.Lemmas.Arith
/-!
# Properties C48–C52, C70: arithmetic, comparisons and branches

Every theorem is about one round of the interpreter's loop (`step`) on a frame whose code has the instruction at the
address `ip`, in any state of the machine with the operands on the evaluation stack (top first).
-/

namespace Clr

variable {cfg : Cfg} {ops : FloatOps} {tf : Nat} {fr : Frame} {ip : Nat} {v : VM} {rest : List Value}

namespace Ex

/-- A frame with the given code. -/
def frame (code : Bytes) : Frame :=
  { method := ⟨"M".toList, 0, 0, [], .none, true, false, false⟩, assembly := ⟨0, "A".toList, [], none, [], [], [], [], []⟩,
    code, locals := .slots 0 0 0, params := .host }

/-- A machine with the given operands. -/
def machine (operands : List Value) : VM := { world := {}, operands }

/-- Floating-point operations are irrelevant for the examples. -/
def floats : FloatOps :=
  ⟨⟨fun a _ => a, fun a _ => a, fun a _ => a, fun a _ => a, fun a _ => a, id, (· == ·), fun a b => if a = b then some .eq else none⟩,
   ⟨fun a _ => a, fun a _ => a, fun a _ => a, fun a _ => a, fun a _ => a, id, (· == ·), fun a b => if a = b then some .eq else none⟩⟩

end Ex

/-! ## C48 -/

/-- **C48, `add`, `sub`, `mul`**: the result is the exact result modulo 2^32, as a signed number; in a build with overflow
checks the program stops exactly when the exact result does not fit. -/
theorem C48_arith (op : Arith) (a b : BitVec 32) (hc : HasAt fr.code ip [op.opcode])
    (hs : v.operands = .i32 b :: .i32 a :: rest) :
    step cfg ops tf fr ip v =
      if cfg.checks = true ∧ ¬ Fits 32 (op.exact a.toInt b.toInt) then (.panic, { v with operands := rest })
      else (.ok (.next (ip + 1)),
        { v with operands := .i32 (BitVec.ofInt 32 (op.exact a.toInt b.toInt)) :: rest }) :=
  arith_step .int op a b hc hs

example : HasAt [0x00, 0x5a] 1 [Arith.mul.opcode] ∧
    ¬ Fits 32 (Arith.mul.exact (100000#32).toInt (100000#32).toInt) ∧
    BitVec.ofInt 32 (Arith.mul.exact (100000#32).toInt (100000#32).toInt) = 1410065408#32 := by decide +kernel

/-- **C48, `neg`**. -/
theorem C48_neg (a : BitVec 32) (hc : HasAt fr.code ip [0x65]) (hs : v.operands = .i32 a :: rest) :
    step cfg ops tf fr ip v =
      if cfg.checks = true ∧ ¬ Fits 32 (-a.toInt) then (.panic, { v with operands := rest })
      else (.ok (.next (ip + 1)), { v with operands := .i32 (BitVec.ofInt 32 (-a.toInt)) :: rest }) :=
  neg_step .int a hc hs

/-- **C48, `and`, `or`, `xor`**: bit by bit. -/
theorem C48_bitwise (op : Bitwise) (a b : BitVec 32) (hc : HasAt fr.code ip [op.opcode])
    (hs : v.operands = .i32 b :: .i32 a :: rest) :
    ∃ r : BitVec 32, step cfg ops tf fr ip v = (.ok (.next (ip + 1)), { v with operands := .i32 r :: rest }) ∧
      ∀ i, i < 32 → r.getLsbD i = op.bit (a.getLsbD i) (b.getLsbD i) :=
  bitwise_step .int op a b hc hs

/-- **C48, `not`**: bit by bit. -/
theorem C48_not (a : BitVec 32) (hc : HasAt fr.code ip [0x66]) (hs : v.operands = .i32 a :: rest) :
    ∃ r : BitVec 32, step cfg ops tf fr ip v = (.ok (.next (ip + 1)), { v with operands := .i32 r :: rest }) ∧
      ∀ i, i < 32 → r.getLsbD i = !(a.getLsbD i) :=
  not_step .int a hc hs

/-- **C48, `shl`, `shr`** with a count `b` in range: the exact result modulo 2^32. -/
theorem C48_shift (op : Shift) (a b : BitVec 32) (hc : HasAt fr.code ip [op.opcode])
    (hs : v.operands = .i32 b :: .i32 a :: rest) (hb : 0 ≤ b.toInt) (hb' : b.toInt < 32) :
    step cfg ops tf fr ip v = (.ok (.next (ip + 1)),
      { v with operands := .i32 (BitVec.ofInt 32 (op.exact a.toInt b.toInt.toNat)) :: rest }) := by
  have hn : b.toInt = (b.toNat : Int) := by
    rw [BitVec.toInt_eq_toNat_cond] at hb ⊢
    split <;> rename_i h
    · rfl
    · rw [if_neg h] at hb; have := b.isLt; omega
  have hlt : b.toNat < 32 := by omega
  rw [shift_step .int op a b hc hs, if_neg (by show ¬(_ ∧ 32 ≤ _); omega), hn, Int.toNat_natCast]
  show _ = pushed v rest (ip + 1) _
  rw [show b.toNat % Width.int.bits = b.toNat from Nat.mod_eq_of_lt hlt]

/-- **C48, `shl`, `shr`** with a count out of range, for which the standard leaves the result open: a build with overflow
checks stops, another one uses the count modulo 32. -/
theorem C48_shift_count (op : Shift) (a b : BitVec 32) (hc : HasAt fr.code ip [op.opcode])
    (hs : v.operands = .i32 b :: .i32 a :: rest) (hb : b.toInt < 0 ∨ 32 ≤ b.toInt) :
    step cfg ops tf fr ip v =
      if cfg.checks = true then (.panic, { v with operands := rest })
      else (.ok (.next (ip + 1)),
        { v with operands := .i32 (BitVec.ofInt 32 (op.exact a.toInt (b.toInt % 32).toNat)) :: rest }) := by
  have hlt : 32 ≤ b.toNat := by
    rw [BitVec.toInt_eq_toNat_cond] at hb
    split at hb <;> omega
  have hm : (b.toInt % 32).toNat = b.toNat % 32 := by
    rw [BitVec.toInt_eq_toNat_cond]
    split <;> omega
  rw [shift_step .int op a b hc hs, hm]
  by_cases h : cfg.checks = true
  · rw [if_pos ⟨h, hlt⟩, if_pos h]; rfl
  · rw [if_neg (fun x => h x.1), if_neg h]; rfl

example : HasAt [0x63] 0 [Shift.shr.opcode] ∧
    BitVec.ofInt 32 (Shift.shr.exact (BitVec.ofInt 32 (-7)).toInt 1) = BitVec.ofInt 32 (-4) := by decide +kernel

example : step .debug Ex.floats 9 (Ex.frame [0x58]) 0 (Ex.machine [.i32 1, .i32 0x7fffffff]) =
    (.panic, Ex.machine []) := by decide +kernel

/-! ## C49 -/

/-- **C49**: `div` and `rem` give quotient and remainder truncated toward zero, unless the divisor is zero or the quotient
is 2^31; then the program stops. -/
theorem C49 (a b : BitVec 32) (hs : v.operands = .i32 b :: .i32 a :: rest) :
    (b.toInt = 0 ∨ a.toInt = -2 ^ 31 ∧ b.toInt = -1 →
      (HasAt fr.code ip [0x5b] ∨ HasAt fr.code ip [0x5d] → (step cfg ops tf fr ip v).1 = .panic)) ∧
    (¬ (b.toInt = 0 ∨ a.toInt = -2 ^ 31 ∧ b.toInt = -1) →
      ∃ q r : BitVec 32, IsTruncated a.toInt b.toInt q.toInt r.toInt ∧
        (HasAt fr.code ip [0x5b] →
          step cfg ops tf fr ip v = (.ok (.next (ip + 1)), { v with operands := .i32 q :: rest })) ∧
        (HasAt fr.code ip [0x5d] →
          step cfg ops tf fr ip v = (.ok (.next (ip + 1)), { v with operands := .i32 r :: rest }))) := by
  constructor
  · rintro h (hc | hc)
    · exact congrArg Prod.fst ((div_step .int a b hc hs).trans (if_pos h))
    · exact congrArg Prod.fst ((rem_step .int a b hc hs).trans (if_pos h))
  · intro h
    refine ⟨BitVec.sdiv a b, BitVec.srem a b, sdiv_srem a b ?_ ?_, fun hc => ?_, fun hc => ?_⟩
    · rintro rfl; exact h (Or.inl (by simp))
    · rw [← Bool.not_eq_true, overflow_iff (by decide)]; exact fun h' => h (Or.inr h')
    · exact (div_step .int a b hc hs).trans (if_neg h)
    · exact (rem_step .int a b hc hs).trans (if_neg h)

example : IsTruncated (-7) 2 (-3) (-1) ∧ ¬ IsTruncated (-7) 2 (-4) 1 := by decide

example : (step .release Ex.floats 9 (Ex.frame [0x5d]) 0 (Ex.machine [.i32 (-1), .i32 (BitVec.intMin 32)])).1 = .panic :=
  by decide +kernel

/-! ## C50 -/

/-- The full claim C50 for `div.un`. It is false: see `C50_refuted`. -/
def C50_claim : Prop :=
  ∀ (cfg : Cfg) (ops : FloatOps) (tf : Nat) (fr : Frame) (ip : Nat) (v : VM) (a b : BitVec 32) (rest : List Value),
    HasAt fr.code ip [0x5c] → v.operands = .i32 b :: .i32 a :: rest → b.toNat ≠ 0 →
    step cfg ops tf fr ip v =
      (.ok (.next (ip + 1)), { v with operands := .i32 (BitVec.ofNat 32 (a.toNat / b.toNat)) :: rest })

/-- **C50 fails**: `div.un` divides 2^32-1 by 2 as if it were -1; `rem.un`, `cgt.un` and `clt.un` are signed as well. -/
theorem C50_refuted : ¬ C50_claim ∧
    (∃ v', step .release Ex.floats 9 (Ex.frame [0x5e]) 0 (Ex.machine [.i32 10, .i32 0xffffffff]) = (.ok (.next 1), v') ∧
      v'.operands = [.i32 (-1)]) ∧
    (∃ v', step .release Ex.floats 9 (Ex.frame [0xfe, 0x03]) 0 (Ex.machine [.i32 1, .i32 0xffffffff]) =
      (.ok (.next 2), v') ∧ v'.operands = [.i32 0]) ∧
    (∃ v', step .release Ex.floats 9 (Ex.frame [0xfe, 0x05]) 0 (Ex.machine [.i32 1, .i32 0xffffffff]) =
      (.ok (.next 2), v') ∧ v'.operands = [.i32 1]) := by
  refine ⟨fun h => ?_, ⟨Ex.machine [.i32 (-1)], by decide +kernel⟩, ⟨Ex.machine [.i32 0], by decide +kernel⟩,
    ⟨Ex.machine [.i32 1], by decide +kernel⟩⟩
  have := h .release Ex.floats 9 (Ex.frame [0x5c]) 0 (Ex.machine [.i32 2, .i32 0xffffffff]) 0xffffffff 2 []
    (by decide) rfl (by decide)
  revert this; decide +kernel

/-- **C50, the part that holds**: the unsigned instructions give the unsigned results for operands below 2^31. -/
theorem C50_partial (a b : BitVec 32) (hs : v.operands = .i32 b :: .i32 a :: rest) (ha : a.toNat < 2 ^ 31)
    (hb : b.toNat < 2 ^ 31) :
    (HasAt fr.code ip [0x5c] → b.toNat ≠ 0 → step cfg ops tf fr ip v =
      (.ok (.next (ip + 1)), { v with operands := .i32 (BitVec.ofNat 32 (a.toNat / b.toNat)) :: rest })) ∧
    (HasAt fr.code ip [0x5e] → b.toNat ≠ 0 → step cfg ops tf fr ip v =
      (.ok (.next (ip + 1)), { v with operands := .i32 (BitVec.ofNat 32 (a.toNat % b.toNat)) :: rest })) ∧
    (HasAt fr.code ip [0xfe, 0x03] → step cfg ops tf fr ip v =
      (.ok (.next (ip + 2)), { v with operands := .i32 (if a.toNat > b.toNat then 1 else 0) :: rest })) ∧
    (HasAt fr.code ip [0xfe, 0x05] → step cfg ops tf fr ip v =
      (.ok (.next (ip + 2)), { v with operands := .i32 (if a.toNat < b.toNat then 1 else 0) :: rest })) := by
  have ha' := toInt_small ha
  have hb' := toInt_small hb
  have hov : quotientOverflow a b = false := by
    rw [← Bool.not_eq_true, overflow_iff (by decide)]; omega
  refine ⟨fun hc h0 => ?_, fun hc h0 => ?_, fun hc => ?_, fun hc => ?_⟩
  · have hb0 : b ≠ 0#32 := by rintro rfl; simp at h0
    rw [step_one hc (by decide) (op := .Div_Un) (by decide)]
    show binary (Value.div ops) (ip + 1) v = _
    rw [binary_run hs]
    have hd : divS a b = .ok (BitVec.ofNat 32 (a.toNat / b.toNat)) := by
      rw [divS, divided_ok hb0 hov]
      congr 1
      apply BitVec.eq_of_toInt_eq
      have hle : a.toNat / b.toNat ≤ a.toNat := Nat.div_le_self ..
      rw [toInt_small (x := BitVec.ofNat 32 (a.toNat / b.toNat)) (by
          rw [BitVec.toNat_ofNat, Nat.mod_eq_of_lt (by omega)]; omega),
        BitVec.toNat_ofNat, Nat.mod_eq_of_lt (by omega), BitVec.toInt_sdiv_of_ne_or_ne, ha', hb']
      · norm_cast
      · simpa only [quotientOverflow, Bool.and_eq_false_iff, beq_eq_false_iff_ne] using hov
    simp [Value.div, Value.arith, hd]
  · have hb0 : b ≠ 0#32 := by rintro rfl; simp at h0
    rw [step_one hc (by decide) (op := .Rem_Un) (by decide)]
    show binary (Value.rem ops) (ip + 1) v = _
    rw [binary_run hs]
    have hd : remS a b = .ok (BitVec.ofNat 32 (a.toNat % b.toNat)) := by
      rw [remS, divided_ok hb0 hov]
      congr 1
      apply BitVec.eq_of_toInt_eq
      have hle : a.toNat % b.toNat ≤ a.toNat := Nat.mod_le ..
      rw [toInt_small (x := BitVec.ofNat 32 (a.toNat % b.toNat)) (by rw [BitVec.toNat_ofNat]; omega),
        BitVec.toNat_ofNat, Nat.mod_eq_of_lt (by omega), BitVec.toInt_srem, ha', hb']
      norm_cast
    simp [Value.rem, Value.arith, hd]
  · rw [step_two hc (by decide) (op := .Cgt_Un) (by decide)]
    refine (compareOp_ok hs (gt_i32 a b) (ip + 2)).trans ?_
    rw [ha', hb']
    simp
  · rw [step_two hc (by decide) (op := .Clt_Un) (by decide)]
    refine (compareOp_ok hs (lt_i32 a b) (ip + 2)).trans ?_
    rw [ha', hb']
    simp

/-! ## C51, C52 -/

/-- **C51, `ceq`, `cgt`, `clt`**: 1 or 0 according to the signed comparison. -/
theorem C51_compare (c : Compare) (a b : BitVec 32) (hc : HasAt fr.code ip c.opcode)
    (hs : v.operands = .i32 b :: .i32 a :: rest) :
    step cfg ops tf fr ip v = (.ok (.next (ip + 2)),
      { v with operands := .i32 (if c.holds a.toInt b.toInt then 1 else 0) :: rest }) := by
  cases c
  · rw [step_two hc (by decide) (op := .Ceq) (by decide)]
    refine (compareOp_ok hs (eq_i32 a b) (ip + 2)).trans ?_
    simp [Compare.holds]
  · rw [step_two hc (by decide) (op := .Cgt) (by decide)]
    refine (compareOp_ok hs (gt_i32 a b) (ip + 2)).trans ?_
    simp [Compare.holds]
  · rw [step_two hc (by decide) (op := .Clt) (by decide)]
    refine (compareOp_ok hs (lt_i32 a b) (ip + 2)).trans ?_
    simp [Compare.holds]

/-- Executing the instruction continues at the address `target` if `taken`, and otherwise at `next`; when the target is not
an address (before the first instruction, or beyond 2^63), the following round stops the program. -/
def Branches (cfg : Cfg) (ops : FloatOps) (tf : Nat) (fr : Frame) (ip : Nat) (v v' : VM) (taken : Prop)
    (target : Int) (next : Nat) : Prop :=
  (taken → ∃ n, step cfg ops tf fr ip v = (.ok (.next n), v') ∧
    (0 ≤ target → (n : Int) = target) ∧ (target < 0 → ∀ u, (step cfg ops tf fr n u).1 = .panic)) ∧
  (¬ taken → step cfg ops tf fr ip v = (.ok (.next next), v'))

/-- From the run of a branch to the statement about it. -/
theorem branches_of {f : Form} {d : Int} {b : UInt8} (hc : HasAt fr.code ip (b :: intBytes f.size d))
    (hd : Fits (8 * f.size) d) (hl : fr.code.length < 2 ^ 62) {v' : VM} {taken : Prop} [Decidable taken]
    (h : step cfg ops tf fr ip v =
      (.ok (.next (if taken then jump (ip + 1 + f.size) d else ip + 1 + f.size)), v')) :
    Branches cfg ops tf fr ip v v' taken (ip + (1 + f.size) + d) (ip + (1 + f.size)) := by
  have hle := hc.le (by simp)
  simp only [List.length_cons, length_intBytes] at hle
  obtain ⟨h1, h2⟩ := jump_spec (n := ip + 1 + f.size) hl (by omega) f hd
  refine ⟨fun ht => ⟨_, by rw [h, if_pos ht], fun h0 => ?_, fun h0 u => ?_⟩, fun ht => ?_⟩
  · rw [h1 (by omega)]; omega
  · exact step_outside (h2 (by omega)) u
  · rw [h, if_neg ht, Nat.add_assoc]

/-- **C51, C52 for `beq`, `bge`, `bgt`, `ble`, `blt`**, short and long: the branch is taken exactly when the signed
comparison holds; it goes to the address of the next instruction plus the signed displacement. -/
theorem C51_branch2 (c : Branch2) (f : Form) (d : Int) (a b : BitVec 32)
    (hc : HasAt fr.code ip (c.opcode f :: intBytes f.size d)) (hd : Fits (8 * f.size) d)
    (hl : fr.code.length < 2 ^ 62) (hs : v.operands = .i32 b :: .i32 a :: rest) :
    Branches cfg ops tf fr ip v { v with operands := rest } (c.holds a.toInt b.toInt)
      (ip + (1 + f.size) + d) (ip + (1 + f.size)) := by
  apply branches_of hc hd hl
  have hfi := fetchInt_ok (n := f.size) (by cases f <;> decide) hc.tail hd
  cases c <;> cases f
  · rw [step_one hc (by decide) (op := .Beq_S) (by decide)]
    exact (branchCmp_ok hs (eq_i32 a b) hfi).trans (by simp [Branch2.holds])
  · rw [step_one hc (by decide) (op := .Beq) (by decide)]
    exact (branchCmp_ok hs (eq_i32 a b) hfi).trans (by simp [Branch2.holds])
  · rw [step_one hc (by decide) (op := .Bge_S) (by decide)]
    exact (branchCmp_ok hs (ge_i32 a b) hfi).trans (by simp [Branch2.holds])
  · rw [step_one hc (by decide) (op := .Bge) (by decide)]
    exact (branchCmp_ok hs (ge_i32 a b) hfi).trans (by simp [Branch2.holds])
  · rw [step_one hc (by decide) (op := .Bgt_S) (by decide)]
    exact (branchCmp_ok hs (gt_i32 a b) hfi).trans (by simp [Branch2.holds])
  · rw [step_one hc (by decide) (op := .Bgt) (by decide)]
    exact (branchCmp_ok hs (gt_i32 a b) hfi).trans (by simp [Branch2.holds])
  · rw [step_one hc (by decide) (op := .Ble_S) (by decide)]
    exact (branchCmp_ok hs (le_i32 a b) hfi).trans (by simp [Branch2.holds])
  · rw [step_one hc (by decide) (op := .Ble) (by decide)]
    exact (branchCmp_ok hs (le_i32 a b) hfi).trans (by simp [Branch2.holds])
  · rw [step_one hc (by decide) (op := .Blt_S) (by decide)]
    exact (branchCmp_ok hs (lt_i32 a b) hfi).trans (by simp [Branch2.holds])
  · rw [step_one hc (by decide) (op := .Blt) (by decide)]
    exact (branchCmp_ok hs (lt_i32 a b) hfi).trans (by simp [Branch2.holds])

/-- **C51, C52 for `brfalse`, `brtrue`**, short and long. -/
theorem C51_branch1 (c : Branch1) (f : Form) (d : Int) (a : BitVec 32)
    (hc : HasAt fr.code ip (c.opcode f :: intBytes f.size d)) (hd : Fits (8 * f.size) d)
    (hl : fr.code.length < 2 ^ 62) (hs : v.operands = .i32 a :: rest) :
    Branches cfg ops tf fr ip v { v with operands := rest } (c.holds a.toInt)
      (ip + (1 + f.size) + d) (ip + (1 + f.size)) := by
  apply branches_of hc hd hl
  have hfi := fetchInt_ok (n := f.size) (by cases f <;> decide) hc.tail hd
  have hz : Value.isNullOrZero ops (.i32 a) = .ok (decide (a.toInt = 0)) := by
    simp only [Value.isNullOrZero]; congr 1
    by_cases h : a = 0#32
    · subst h; decide
    · have : a.toInt ≠ 0 := fun h' => h (BitVec.eq_of_toInt_eq (by simp [h']))
      simp [h, this]
  cases c <;> cases f
  · rw [step_one hc (by decide) (op := .Brfalse_S) (by decide)]
    exact (branchIf_ok hs hz hfi).trans (by simp [Branch1.holds])
  · rw [step_one hc (by decide) (op := .Brfalse) (by decide)]
    exact (branchIf_ok hs hz hfi).trans (by simp [Branch1.holds])
  · rw [step_one hc (by decide) (op := .Brtrue_S) (by decide)]
    exact (branchIf_ok hs hz hfi).trans (by simp [Branch1.holds])
  · rw [step_one hc (by decide) (op := .Brtrue) (by decide)]
    exact (branchIf_ok hs hz hfi).trans (by simp [Branch1.holds])

/-- **C52 for `br`**, short and long: always taken. -/
theorem C52_br (f : Form) (d : Int) (hc : HasAt fr.code ip (brOpcode f :: intBytes f.size d))
    (hd : Fits (8 * f.size) d) (hl : fr.code.length < 2 ^ 62) :
    Branches cfg ops tf fr ip v v True (ip + (1 + f.size) + d) (ip + (1 + f.size)) := by
  apply branches_of hc hd hl
  have hfi := fetchInt_ok (n := f.size) (by cases f <;> decide) hc.tail hd
  cases f
  · rw [step_one hc (by decide) (op := .Br_S) (by decide)]
    exact (branch_ok hfi v).trans (by simp)
  · rw [step_one hc (by decide) (op := .Br) (by decide)]
    exact (branch_ok hfi v).trans (by simp)

example : HasAt [0x00, 0x00, 0x2b, 0xfc] 2 (brOpcode .short :: intBytes Form.short.size (-4)) ∧
    Fits (8 * Form.short.size) (-4) := by decide

example : step .debug Ex.floats 9 (Ex.frame [0x00, 0x00, 0x32, 0xfc]) 2 (Ex.machine [.i32 5, .i32 (-3)]) =
    (.ok (.next 0), Ex.machine []) := by decide +kernel

/-! ## C70 -/

/-- **C70, arithmetic on 64-bit integers**, the part that holds: as C48 and C49 (`add`, `sub`, `mul`, `neg`, `and`, `or`,
`xor`, `not`, `div`, `rem`), without the shifts. -/
theorem C70_partial (a b : BitVec 64) :
    (v.operands = .i64 b :: .i64 a :: rest → ∀ op : Arith, HasAt fr.code ip [op.opcode] →
      step cfg ops tf fr ip v =
        if cfg.checks = true ∧ ¬ Fits 64 (op.exact a.toInt b.toInt) then (.panic, { v with operands := rest })
        else (.ok (.next (ip + 1)),
          { v with operands := .i64 (BitVec.ofInt 64 (op.exact a.toInt b.toInt)) :: rest })) ∧
    (v.operands = .i64 a :: rest → HasAt fr.code ip [0x65] →
      step cfg ops tf fr ip v =
        if cfg.checks = true ∧ ¬ Fits 64 (-a.toInt) then (.panic, { v with operands := rest })
        else (.ok (.next (ip + 1)), { v with operands := .i64 (BitVec.ofInt 64 (-a.toInt)) :: rest })) ∧
    (v.operands = .i64 b :: .i64 a :: rest → ∀ op : Bitwise, HasAt fr.code ip [op.opcode] →
      ∃ r : BitVec 64, step cfg ops tf fr ip v = (.ok (.next (ip + 1)), { v with operands := .i64 r :: rest }) ∧
        ∀ i, i < 64 → r.getLsbD i = op.bit (a.getLsbD i) (b.getLsbD i)) ∧
    (v.operands = .i64 a :: rest → HasAt fr.code ip [0x66] →
      ∃ r : BitVec 64, step cfg ops tf fr ip v = (.ok (.next (ip + 1)), { v with operands := .i64 r :: rest }) ∧
        ∀ i, i < 64 → r.getLsbD i = !(a.getLsbD i)) ∧
    (v.operands = .i64 b :: .i64 a :: rest → ¬ (b.toInt = 0 ∨ a.toInt = -2 ^ 63 ∧ b.toInt = -1) →
      ∃ q r : BitVec 64, IsTruncated a.toInt b.toInt q.toInt r.toInt ∧
        (HasAt fr.code ip [0x5b] →
          step cfg ops tf fr ip v = (.ok (.next (ip + 1)), { v with operands := .i64 q :: rest })) ∧
        (HasAt fr.code ip [0x5d] →
          step cfg ops tf fr ip v = (.ok (.next (ip + 1)), { v with operands := .i64 r :: rest }))) := by
  refine ⟨fun hs op hc => arith_step .long op a b hc hs, fun hs hc => neg_step .long a hc hs,
    fun hs op hc => bitwise_step .long op a b hc hs, fun hs hc => not_step .long a hc hs, fun hs h => ?_⟩
  refine ⟨BitVec.sdiv a b, BitVec.srem a b, sdiv_srem a b ?_ ?_, fun hc => ?_, fun hc => ?_⟩
  · rintro rfl; exact h (Or.inl (by simp))
  · rw [← Bool.not_eq_true, overflow_iff (by decide)]; exact fun h' => h (Or.inr h')
  · exact (div_step .long a b hc hs).trans (if_neg h)
  · exact (rem_step .long a b hc hs).trans (if_neg h)

/-- **C70 fails for the shifts**: the standard's shift count is a 32-bit integer (III.3.58, III.3.59), and shifting a
64-bit integer by it stops the program, whatever the operands. -/
theorem C70_refuted (op : Shift) (a : BitVec 64) (b : BitVec 32) (hc : HasAt fr.code ip [op.opcode])
    (hs : v.operands = .i32 b :: .i64 a :: rest) : (step cfg ops tf fr ip v).1 = .panic := by
  cases op
  · rw [step_one hc (by decide) (op := .Shl) (by decide)]
    show (binary (Value.shl cfg) (ip + 1) v).1 = _
    rw [binary_run hs]; rfl
  · rw [step_one hc (by decide) (op := .Shr) (by decide)]
    show (binary (Value.shr cfg) (ip + 1) v).1 = _
    rw [binary_run hs]; rfl

example : (step .release Ex.floats 9 (Ex.frame [0x62]) 0 (Ex.machine [.i32 1, .i64 1])).1 = .panic := by decide +kernel

example : step .release Ex.floats 9 (Ex.frame [0x5a]) 0 (Ex.machine [.i64 3000000000, .i64 3]) =
    (.ok (.next 1), Ex.machine [.i64 9000000000]) := by decide +kernel

end Clr
