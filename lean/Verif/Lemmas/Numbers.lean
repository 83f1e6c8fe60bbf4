import Verif.Lemmas.Cells
import Verif.Props.Floats
/-! # The interpreter computes with numbers as the abstract machine does -/

namespace Clr.Obj

variable {cfg : Cfg} {ops : FloatOps} {tf : Nat} {fr : Frame} {ip : Nat} {v : VM} {l : List Value}

/-- The step leaves the result on the stack. -/
def Leaves (cfg : Cfg) (ops : FloatOps) (tf : Nat) (fr : Frame) (ip : Nat) (v : VM) (l : List Value) (next : Nat) : Outcome Num → Prop
  | .done r => step cfg ops tf fr ip v = (.ok (.next next), { v with operands := r.value :: l })
  | .stops => (step cfg ops tf fr ip v).1 = .panic
  | _ => True

theorem fit_leaves {n : Int} {next : Nat} (h : step cfg ops tf fr ip v =
      if cfg.checks = true ∧ ¬ Fits 32 n then (.panic, { v with operands := l })
      else (.ok (.next next), { v with operands := .i32 (BitVec.ofInt 32 n) :: l })) :
    Leaves cfg ops tf fr ip v l next ((fit cfg.checks n).map .int) := by
  unfold fit
  split at h <;> rename_i hx
  · rw [if_pos hx]; exact congrArg Prod.fst h
  · rw [if_neg hx]; exact h

theorem fitLong_leaves {n : Int} {next : Nat} (h : step cfg ops tf fr ip v =
      if cfg.checks = true ∧ ¬ Fits 64 n then (.panic, { v with operands := l })
      else (.ok (.next next), { v with operands := .i64 (BitVec.ofInt 64 n) :: l })) :
    Leaves cfg ops tf fr ip v l next ((fitLong cfg.checks n).map .long) := by
  unfold fitLong
  split at h <;> rename_i hx
  · rw [if_pos hx]; exact congrArg Prod.fst h
  · rw [if_neg hx]; exact h

theorem neg_leaves (a : Num) (hc : HasAt fr.code ip [0x65]) (hs : v.operands = a.value :: l) :
    Leaves cfg ops tf fr ip v l (ip + 1) (a.neg ops cfg.checks) := by
  cases a with
  | int a => exact fit_leaves (C48_neg a hc hs)
  | long a => exact fitLong_leaves ((C70_partial a a).2.1 hs hc)
  | single a => exact (C87_neg hc).1 a hs
  | double a => exact (C87_neg hc).2 a hs

theorem not_leaves (a : Num) (hc : HasAt fr.code ip [0x66]) (hs : v.operands = a.value :: l) :
    Leaves cfg ops tf fr ip v l (ip + 1) a.not := by
  cases a with
  | int a => exact not_word a hc hs
  | long a =>
    obtain ⟨r, h1, h2⟩ := (C70_partial (cfg := cfg) (ops := ops) (tf := tf) a a).2.2.2.1 hs hc
    show step cfg ops tf fr ip v = _
    rw [h1, show Num.value (.long (~~~a)) = .i64 (~~~a) from rfl]
    congr 4
    apply BitVec.eq_of_getLsbD_eq
    intro i hi
    rw [h2 i hi]
    simp [hi]
  | single a => trivial
  | double a => trivial

theorem arith_leaves (op : Arith) (a b : Num) (hc : HasAt fr.code ip [op.opcode]) (hs : v.operands = b.value :: a.value :: l) :
    Leaves cfg ops tf fr ip v l (ip + 1) (Num.arith ops cfg.checks op a b) := by
  have hf : op.float.opcode = op.opcode := by cases op <;> rfl
  cases a <;> cases b <;> try trivial
  · exact fit_leaves (C48_arith op _ _ hc hs)
  · exact fitLong_leaves ((C70_partial _ _).1 hs op hc)
  · exact (C87_partial op.float (by rw [hf]; exact hc)).1 _ _ hs
  · exact (C87_partial op.float (by rw [hf]; exact hc)).2 _ _ hs

theorem bitwise_leaves (op : Bitwise) (a b : Num) (hc : HasAt fr.code ip [op.opcode]) (hs : v.operands = b.value :: a.value :: l) :
    Leaves cfg ops tf fr ip v l (ip + 1) (Num.bitwise op a b) := by
  cases a <;> cases b <;> try trivial
  · exact bitwise_word op _ _ hc hs
  · rename_i a b
    obtain ⟨r, h1, h2⟩ := (C70_partial (cfg := cfg) (ops := ops) (tf := tf) a b).2.2.1 hs op hc
    show step cfg ops tf fr ip v = _
    rw [h1, show ∀ x, Num.value (.long x) = .i64 x from fun _ => rfl]
    congr 4
    apply BitVec.eq_of_getLsbD_eq
    intro i hi
    rw [h2 i hi]
    cases op <;> simp [Bitwise.bit]

theorem shift_leaves (op : Shift) (a b : Num) (hc : HasAt fr.code ip [op.opcode]) (hs : v.operands = b.value :: a.value :: l) :
    Leaves cfg ops tf fr ip v l (ip + 1) (Num.shift cfg.checks op a b) := by
  cases a <;> cases b <;> try trivial
  rename_i a b
  have := shift_word (cfg := cfg) (ops := ops) (tf := tf) op a b hc hs
  simp only [Num.shift]
  cases hr : shiftResult cfg.checks op a b with
  | done r => rw [hr] at this; exact this
  | stops => rw [hr] at this; exact this
  | undefined => trivial
  | unfinished => trivial

theorem div_leaves (a b : Num) (hc : HasAt fr.code ip [0x5b]) (hs : v.operands = b.value :: a.value :: l) :
    Leaves cfg ops tf fr ip v l (ip + 1) (Num.div ops a b) := by
  cases a <;> cases b <;> try trivial
  · rename_i a b
    have := div_word (cfg := cfg) (ops := ops) (tf := tf) a b hc hs
    simp only [Num.div]
    by_cases hx : divides a b
    · rw [if_pos hx] at this ⊢; exact this
    · rw [if_neg hx] at this ⊢; exact congrArg Prod.fst this
  · rename_i a b
    have := div_step (cfg := cfg) (ops := ops) (tf := tf) .long a b hc hs
    simp only [Num.div]
    by_cases hx : dividesLong a b
    · rw [if_pos hx]
      refine (this.trans (if_neg hx)).trans ?_
      have : BitVec.sdiv a b = BitVec.ofInt 64 (a.toInt.tdiv b.toInt) := by
        apply BitVec.eq_of_toInt_eq
        rw [BitVec.toInt_sdiv, BitVec.toInt_ofInt]
      rw [this]; rfl
    · rw [if_neg hx]; exact congrArg Prod.fst (this.trans (if_pos (Classical.not_not.1 hx)))
  · exact (C87_partial .div hc).1 _ _ hs
  · exact (C87_partial .div hc).2 _ _ hs

theorem rem_leaves (a b : Num) (hc : HasAt fr.code ip [0x5d]) (hs : v.operands = b.value :: a.value :: l) :
    Leaves cfg ops tf fr ip v l (ip + 1) (Num.rem ops a b) := by
  cases a <;> cases b <;> try trivial
  · rename_i a b
    have := rem_word (cfg := cfg) (ops := ops) (tf := tf) a b hc hs
    simp only [Num.rem]
    by_cases hx : divides a b
    · rw [if_pos hx] at this ⊢; exact this
    · rw [if_neg hx] at this ⊢; exact congrArg Prod.fst this
  · rename_i a b
    have := rem_step (cfg := cfg) (ops := ops) (tf := tf) .long a b hc hs
    simp only [Num.rem]
    by_cases hx : dividesLong a b
    · rw [if_pos hx]
      refine (this.trans (if_neg hx)).trans ?_
      have : BitVec.srem a b = BitVec.ofInt 64 (a.toInt.tmod b.toInt) := by
        rw [← BitVec.toInt_srem, BitVec.ofInt_toInt]
      rw [this]; rfl
    · rw [if_neg hx]; exact congrArg Prod.fst (this.trans (if_pos (Classical.not_not.1 hx)))
  · exact (C87_partial .rem hc).1 _ _ hs
  · exact (C87_partial .rem hc).2 _ _ hs

/-! ## Comparisons -/

theorem compare_ordered (c : Compare) (a b : Int) : c.ordered (some (compare a b)) = decide (c.holds a b) := by
  cases c
  · exact compare_eq a b
  · exact compare_gt a b
  · exact compare_lt a b

theorem branch_ordered (c : Branch2) (a b : Int) : c.ordered (some (compare a b)) = decide (c.holds a b) := by
  cases c
  · exact compare_eq a b
  all_goals
    rcases Int.lt_trichotomy a b with h | h | h
    · simp [Branch2.ordered, Branch2.holds, Int.compare_eq_lt.2 h]; first | done | omega | exact decide_eq_true (by omega) | exact decide_eq_false (by omega)
    · subst h; simp [Branch2.ordered, Branch2.holds]
    · simp [Branch2.ordered, Branch2.holds, Int.compare_eq_gt.2 h]; first | done | omega | exact decide_eq_true (by omega) | exact decide_eq_false (by omega)

theorem compares_step (hl : LawfulEq ops) (c : Compare) (a b : Num) {r : Bool} (h : Num.compares ops c a b = some r)
    (hc : HasAt fr.code ip c.opcode) (hs : v.operands = b.value :: a.value :: l) :
    step cfg ops tf fr ip v = (.ok (.next (ip + 2)), { v with operands := .i32 (if r then 1 else 0) :: l }) := by
  cases a <;> cases b <;> simp only [Num.compares, Option.some.injEq, reduceCtorEq] at h
  · rw [← h, ← compare_ordered]; exact C86_compare_partial c _ _ _ hl (.int _ _) hc hs
  · rw [← h, ← compare_ordered]; exact C86_compare_partial c _ _ _ hl (.long _ _) hc hs
  · rw [← h]; exact C86_compare_partial c _ _ _ hl (.single _ _) hc hs
  · rw [← h]; exact C86_compare_partial c _ _ _ hl (.double _ _) hc hs

theorem branches_step (hl : LawfulEq ops) (c : Branch2) (f : Form) (d : Int) (a b : Num) {r : Bool}
    (h : Num.branches ops c a b = some r) (hc : HasAt fr.code ip (c.opcode f :: intBytes f.size d)) (hd : Fits (8 * f.size) d)
    (hlen : fr.code.length < 2 ^ 62) (hs : v.operands = b.value :: a.value :: l) :
    Branches cfg ops tf fr ip v { v with operands := l } (r = true) (ip + (1 + f.size) + d) (ip + (1 + f.size)) := by
  cases a <;> cases b <;> simp only [Num.branches, Option.some.injEq, reduceCtorEq] at h
  · rw [← h, ← branch_ordered]; exact C86_branch2_partial c f d _ _ _ hl (.int _ _) hc hd hlen hs
  · rw [← h, ← branch_ordered]; exact C86_branch2_partial c f d _ _ _ hl (.long _ _) hc hd hlen hs
  · rw [← h]; exact C86_branch2_partial c f d _ _ _ hl (.single _ _) hc hd hlen hs
  · rw [← h]; exact C86_branch2_partial c f d _ _ _ hl (.double _ _) hc hd hlen hs

theorem branch_step (c : Branch1) (f : Form) (d : Int) (a : Num) {r : Bool} (h : Num.branch c a = some r)
    (hc : HasAt fr.code ip (c.opcode f :: intBytes f.size d)) (hd : Fits (8 * f.size) d) (hlen : fr.code.length < 2 ^ 62)
    (hs : v.operands = a.value :: l) :
    Branches cfg ops tf fr ip v { v with operands := l } (r = true) (ip + (1 + f.size) + d) (ip + (1 + f.size)) := by
  cases a <;> simp only [Num.branch, Option.some.injEq, reduceCtorEq] at h <;> rw [← h, decide_eq_true_eq]
  · exact C51_branch1 c f d _ hc hd hlen hs
  · exact C86_branch1_partial c f d _ hc hd hlen hs

end Clr.Obj
