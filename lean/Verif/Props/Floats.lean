import Verif.Props.Arith
import Verif.Spec.Floats
/-! # Properties C86, C87: comparisons of all types, arithmetic on floating-point numbers -/

namespace Clr

variable {cfg : Cfg} {ops : FloatOps} {tf : Nat} {fr : Frame} {ip : Nat} {v : VM} {rest : List Value}

theorem cmp_ordered {a b : Value} {o : Option Ordering} (h : Ordered ops a b o) : Value.partialCmp ops a b = .ok o := by
  cases h <;> rfl

theorem eq_ordered {a b : Value} {o : Option Ordering} (hl : LawfulEq ops) (h : Ordered ops a b o) :
    eqTop ops a b = .ok (o == some .eq) := by
  have hb : ∀ {p q : Bool}, (p = true ↔ q = true) → p = q := fun {p q} h => by cases p <;> cases q <;> simp_all
  cases h with
  | int a b =>
    rw [eq_i32]
    congr 1
    exact hb (by simp)
  | long a b =>
    simp only [eqTop, Value.eq]
    congr 1
    refine hb ?_
    rw [beq_iff_eq, beq_iff_eq, Option.some.injEq, Int.compare_eq_eq]
    exact ⟨fun h => by rw [h], fun h => (BitVec.eq_of_toInt_eq h).symm⟩
  | single a b =>
    simp only [eqTop, Value.eq]
    congr 1
    refine hb ?_
    rw [(hl.1 b a).2, (hl.1 a b).1, beq_iff_eq]
  | double a b =>
    simp only [eqTop, Value.eq]
    congr 1
    refine hb ?_
    rw [(hl.2 b a).2, (hl.2 a b).1, beq_iff_eq]

/-! ## C86 -/

/-- The full statement of C86 for `cgt.un` and `clt.un` of floating-point numbers and for branches on references. -/
def C86_full (ops : FloatOps) : Prop :=
  (∀ (cfg : Cfg) (tf : Nat) (fr : Frame) (ip : Nat) (v : VM) (rest : List Value) (a b : BitVec 64),
    v.operands = .f64 b :: .f64 a :: rest →
    (HasAt fr.code ip [0xfe, 0x03] → step cfg ops tf fr ip v = (.ok (.next (ip + 2)),
      { v with operands := .i32 (if unorderedOr .gt (ops.double.cmp a b) then 1 else 0) :: rest })) ∧
    (HasAt fr.code ip [0xfe, 0x05] → step cfg ops tf fr ip v = (.ok (.next (ip + 2)),
      { v with operands := .i32 (if unorderedOr .lt (ops.double.cmp a b) then 1 else 0) :: rest }))) ∧
  ∀ (cfg : Cfg) (tf : Nat) (fr : Frame) (ip : Nat) (v : VM) (rest : List Value) (p : Ptr) (f : Form) (d : Int),
    HasAt fr.code ip (Branch1.brtrue.opcode f :: intBytes f.size d) → Fits (8 * f.size) d → fr.code.length < 2 ^ 62 →
    v.operands = .object p :: rest →
    Branches cfg ops tf fr ip v { v with operands := rest } True (ip + (1 + f.size) + d) (ip + (1 + f.size))

/-- **C86, `ceq`, `cgt`, `clt`** on integers of either width and floating-point numbers of the same width. -/
theorem C86_compare_partial (c : Compare) (a b : Value) (o : Option Ordering) (hl : LawfulEq ops) (h : Ordered ops a b o)
    (hc : HasAt fr.code ip c.opcode) (hs : v.operands = b :: a :: rest) :
    step cfg ops tf fr ip v = (.ok (.next (ip + 2)), { v with operands := .i32 (if c.ordered o then 1 else 0) :: rest }) := by
  have hcmp := cmp_ordered h
  cases c
  · rw [step_two hc (by decide) (op := .Ceq) (by decide)]
    exact compareOp_ok hs (eq_ordered hl h) (ip + 2)
  · rw [step_two hc (by decide) (op := .Cgt) (by decide)]
    exact compareOp_ok hs (c := Compare.ordered .gt o) (by rw [Value.gt, hcmp]; rfl) (ip + 2)
  · rw [step_two hc (by decide) (op := .Clt) (by decide)]
    exact compareOp_ok hs (c := Compare.ordered .lt o) (by rw [Value.lt, hcmp]; rfl) (ip + 2)

/-- **C86, `beq`, `bge`, `bgt`, `ble`, `blt`** on the same operands. -/
theorem C86_branch2_partial (c : Branch2) (f : Form) (d : Int) (a b : Value) (o : Option Ordering) (hl : LawfulEq ops)
    (h : Ordered ops a b o) (hc : HasAt fr.code ip (c.opcode f :: intBytes f.size d)) (hd : Fits (8 * f.size) d)
    (hlen : fr.code.length < 2 ^ 62) (hs : v.operands = b :: a :: rest) :
    Branches cfg ops tf fr ip v { v with operands := rest } (c.ordered o = true)
      (ip + (1 + f.size) + d) (ip + (1 + f.size)) := by
  apply branches_of hc hd hlen
  have hfi := fetchInt_ok (n := f.size) (by cases f <;> decide) hc.tail hd
  have hcmp := cmp_ordered h
  have hge : Value.ge ops a b = .ok (Branch2.ordered .bge o) := by rw [Value.ge, hcmp]; rfl
  have hgt : Value.gt ops a b = .ok (Branch2.ordered .bgt o) := by rw [Value.gt, hcmp]; rfl
  have hle : Value.le ops a b = .ok (Branch2.ordered .ble o) := by rw [Value.le, hcmp]; rfl
  have hlt : Value.lt ops a b = .ok (Branch2.ordered .blt o) := by rw [Value.lt, hcmp]; rfl
  cases c <;> cases f
  · rw [step_one hc (by decide) (op := .Beq_S) (by decide)]
    exact branchCmp_ok hs (eq_ordered hl h) hfi
  · rw [step_one hc (by decide) (op := .Beq) (by decide)]
    exact branchCmp_ok hs (eq_ordered hl h) hfi
  · rw [step_one hc (by decide) (op := .Bge_S) (by decide)]
    exact branchCmp_ok hs hge hfi
  · rw [step_one hc (by decide) (op := .Bge) (by decide)]
    exact branchCmp_ok hs hge hfi
  · rw [step_one hc (by decide) (op := .Bgt_S) (by decide)]
    exact branchCmp_ok hs hgt hfi
  · rw [step_one hc (by decide) (op := .Bgt) (by decide)]
    exact branchCmp_ok hs hgt hfi
  · rw [step_one hc (by decide) (op := .Ble_S) (by decide)]
    exact branchCmp_ok hs hle hfi
  · rw [step_one hc (by decide) (op := .Ble) (by decide)]
    exact branchCmp_ok hs hle hfi
  · rw [step_one hc (by decide) (op := .Blt_S) (by decide)]
    exact branchCmp_ok hs hlt hfi
  · rw [step_one hc (by decide) (op := .Blt) (by decide)]
    exact branchCmp_ok hs hlt hfi

/-- **C86, `brfalse`, `brtrue`** on 64-bit integers. Missing: on references (`C86_refuted`). -/
theorem C86_branch1_partial (c : Branch1) (f : Form) (d : Int) (a : BitVec 64)
    (hc : HasAt fr.code ip (c.opcode f :: intBytes f.size d)) (hd : Fits (8 * f.size) d)
    (hl : fr.code.length < 2 ^ 62) (hs : v.operands = .i64 a :: rest) :
    Branches cfg ops tf fr ip v { v with operands := rest } (c.holds a.toInt)
      (ip + (1 + f.size) + d) (ip + (1 + f.size)) := by
  apply branches_of hc hd hl
  have hfi := fetchInt_ok (n := f.size) (by cases f <;> decide) hc.tail hd
  have hz : Value.isNullOrZero ops (.i64 a) = .ok (decide (a.toInt = 0)) := by
    simp only [Value.isNullOrZero]; congr 1
    by_cases h : a = 0#64
    · subst h; decide
    · have : a.toInt ≠ 0 := fun h' => h (BitVec.eq_of_toInt_eq (by simp [h']))
      simp [h, this]
  cases c <;> cases f
  · rw [step_one hc (by decide) (op := .Brfalse_S) (by decide)]
    exact (branchIf_ok hs hz hfi).trans (by simp [Branch1.holds])
  · rw [step_one hc (by decide) (op := .Brfalse) (by decide)]
    exact (branchIf_ok hs hz hfi).trans (by simp [Branch1.holds])
  · rw [step_one hc (by decide) (op := .Brtrue_S) (by decide)]
    exact (branchIf_ok hs hz hfi).trans (by simp [Branch1.holds])
  · rw [step_one hc (by decide) (op := .Brtrue) (by decide)]
    exact (branchIf_ok hs hz hfi).trans (by simp [Branch1.holds])

theorem un_ordered {a b : Value} {o : Ordering} (h : Ordered ops a b (some o)) (hs : v.operands = b :: a :: rest) :
    (HasAt fr.code ip [0xfe, 0x03] → step cfg ops tf fr ip v = (.ok (.next (ip + 2)),
      { v with operands := .i32 (if unorderedOr .gt (some o) then 1 else 0) :: rest })) ∧
    (HasAt fr.code ip [0xfe, 0x05] → step cfg ops tf fr ip v = (.ok (.next (ip + 2)),
      { v with operands := .i32 (if unorderedOr .lt (some o) then 1 else 0) :: rest })) := by
  have hcmp := cmp_ordered h
  refine ⟨fun hc => ?_, fun hc => ?_⟩
  · rw [step_two hc (by decide) (op := .Cgt_Un) (by decide)]
    exact compareOp_ok hs (c := unorderedOr .gt (some o)) (by rw [Value.gt, hcmp]; cases o <;> rfl) (ip + 2)
  · rw [step_two hc (by decide) (op := .Clt_Un) (by decide)]
    exact compareOp_ok hs (c := unorderedOr .lt (some o)) (by rw [Value.lt, hcmp]; cases o <;> rfl) (ip + 2)

/-- **C86, `cgt.un`, `clt.un`** on ordered floating-point numbers. Missing: on unordered ones (`C86_refuted`). -/
theorem C86_un_partial (o : Ordering) (a b : Value)
    (hf : (∃ x y, a = .f32 x ∧ b = .f32 y ∧ ops.single.cmp x y = some o) ∨
      ∃ x y, a = .f64 x ∧ b = .f64 y ∧ ops.double.cmp x y = some o) (hs : v.operands = b :: a :: rest) :
    (HasAt fr.code ip [0xfe, 0x03] → step cfg ops tf fr ip v = (.ok (.next (ip + 2)),
      { v with operands := .i32 (if unorderedOr .gt (some o) then 1 else 0) :: rest })) ∧
    (HasAt fr.code ip [0xfe, 0x05] → step cfg ops tf fr ip v = (.ok (.next (ip + 2)),
      { v with operands := .i32 (if unorderedOr .lt (some o) then 1 else 0) :: rest })) := by
  refine un_ordered ?_ hs
  rcases hf with ⟨x, y, rfl, rfl, h⟩ | ⟨x, y, rfl, rfl, h⟩
  · exact h ▸ .single x y
  · exact h ▸ .double x y

/-- **C86 fails for unordered numbers and for references**: `cgt.un` of unordered numbers gives 0, and `brtrue` on a
reference stops the program. -/
theorem C86_refuted (a b : BitVec 64) (hn : ops.double.cmp a b = none) : ¬ C86_full ops ∧
    (∀ p d, (step .debug ops 9 (Ex.frame [0x2d, d]) 0 (Ex.machine [.object p])).1 = .panic) := by
  refine ⟨fun h => ?_, fun p d => rfl⟩
  have h1 := (h.1 .debug 9 (Ex.frame [0xfe, 0x03]) 0 (Ex.machine [.f64 b, .f64 a]) [] a b rfl).1 (by decide)
  rw [step_two (c := 3) (bs := []) (show HasAt (Ex.frame [0xfe, 0x03]).code 0 [0xfe, 0x03] by decide) (by decide) (op := .Cgt_Un) (by decide)] at h1
  have h2 := compareOp_ok (v := Ex.machine [.f64 b, .f64 a]) (rel := Value.gt ops) (c := false) (r := []) rfl
    (by rw [Value.gt, cmp_ordered (.double a b), hn]; rfl) 2
  have h3 := h1.symm.trans h2
  rw [hn] at h3
  simp [unorderedOr] at h3

/-- Numbers that are all unordered. -/
theorem Ex.floats_lawful : LawfulEq Ex.floats := by
  refine ⟨fun a b => ⟨?_, ?_⟩, fun a b => ⟨?_, ?_⟩⟩ <;> simp [Ex.floats, Bool.beq_comm]

def Ex.strange : FloatOps :=
  { single := { Ex.floats.single with eq := fun _ _ => false, cmp := fun _ _ => none }
    double := { Ex.floats.double with eq := fun _ _ => false, cmp := fun _ _ => none } }
example : LawfulEq Ex.strange ∧ Ex.strange.double.cmp 0 0 = none :=
  ⟨⟨fun _ _ => ⟨by simp [Ex.strange], rfl⟩, fun _ _ => ⟨by simp [Ex.strange], rfl⟩⟩, rfl⟩

example : step .debug Ex.strange 9 (Ex.frame [0xfe, 0x02]) 0 (Ex.machine [.i64 (-5), .i64 3]) =
    (.ok (.next 2), Ex.machine [.i32 1]) := by decide +kernel

/-! ## C87 -/

/-- The full statement of C87 for operands of different width. -/
def C87_full (ops : FloatOps) : Prop :=
  ∀ (cfg : Cfg) (tf : Nat) (fr : Frame) (ip : Nat) (v : VM) (rest : List Value) (op : FloatOp) (a : BitVec 32) (b : BitVec 64),
    HasAt fr.code ip [op.opcode] → v.operands = .f64 b :: .f32 a :: rest →
    ∃ c, step cfg ops tf fr ip v = (.ok (.next (ip + 1)), { v with operands := .f64 c :: rest })

/-- **C87**, operands of the same width: the operation of the hardware on the operands, in the order they were pushed.
Missing: operands of different width (`C87_refuted`). -/
theorem C87_partial (op : FloatOp) (hc : HasAt fr.code ip [op.opcode]) :
    (∀ a b : BitVec 32, v.operands = .f32 b :: .f32 a :: rest →
      step cfg ops tf fr ip v = (.ok (.next (ip + 1)), { v with operands := .f32 (op.of ops.single a b) :: rest })) ∧
    ∀ a b : BitVec 64, v.operands = .f64 b :: .f64 a :: rest →
      step cfg ops tf fr ip v = (.ok (.next (ip + 1)), { v with operands := .f64 (op.of ops.double a b) :: rest }) := by
  refine ⟨fun a b hs => ?_, fun a b hs => ?_⟩
  all_goals cases op
  · rw [step_one hc (by decide) (op := .Add) (by decide)]; exact binary_run hs (Value.add cfg ops) (ip + 1)
  · rw [step_one hc (by decide) (op := .Sub) (by decide)]; exact binary_run hs (Value.sub cfg ops) (ip + 1)
  · rw [step_one hc (by decide) (op := .Mul) (by decide)]; exact binary_run hs (Value.mul cfg ops) (ip + 1)
  · rw [step_one hc (by decide) (op := .Div) (by decide)]; exact binary_run hs (Value.div ops) (ip + 1)
  · rw [step_one hc (by decide) (op := .Rem) (by decide)]; exact binary_run hs (Value.rem ops) (ip + 1)
  · rw [step_one hc (by decide) (op := .Add) (by decide)]; exact binary_run hs (Value.add cfg ops) (ip + 1)
  · rw [step_one hc (by decide) (op := .Sub) (by decide)]; exact binary_run hs (Value.sub cfg ops) (ip + 1)
  · rw [step_one hc (by decide) (op := .Mul) (by decide)]; exact binary_run hs (Value.mul cfg ops) (ip + 1)
  · rw [step_one hc (by decide) (op := .Div) (by decide)]; exact binary_run hs (Value.div ops) (ip + 1)
  · rw [step_one hc (by decide) (op := .Rem) (by decide)]; exact binary_run hs (Value.rem ops) (ip + 1)

/-- **C87, `neg`**. -/
theorem C87_neg (hc : HasAt fr.code ip [0x65]) :
    (∀ a : BitVec 32, v.operands = .f32 a :: rest →
      step cfg ops tf fr ip v = (.ok (.next (ip + 1)), { v with operands := .f32 (ops.single.neg a) :: rest })) ∧
    ∀ a : BitVec 64, v.operands = .f64 a :: rest →
      step cfg ops tf fr ip v = (.ok (.next (ip + 1)), { v with operands := .f64 (ops.double.neg a) :: rest }) := by
  rw [step_one hc (by decide) (op := .Neg) (by decide)]
  exact ⟨fun a hs => unary_run hs (Value.neg cfg ops) (ip + 1), fun a hs => unary_run hs (Value.neg cfg ops) (ip + 1)⟩

/-- **C87 fails for operands of different width**: on the evaluation stack the standard knows one floating-point type only
(III.1.1.1), but adding a 32-bit and a 64-bit number stops the program. -/
theorem C87_refuted : ¬ C87_full ops := by
  intro h
  obtain ⟨c, hc⟩ := h .debug 9 (Ex.frame [0x58]) 0 (Ex.machine [.f64 0, .f32 0]) [] .add 0 0 (by decide) rfl
  have : (step .debug ops 9 (Ex.frame [0x58]) 0 (Ex.machine [.f64 0, .f32 0])).1 = .panic := rfl
  rw [hc] at this
  cases this

example : step .debug Ex.strange 9 (Ex.frame [0x59]) 0 (Ex.machine [.f64 2, .f64 7]) =
    (.ok (.next 1), Ex.machine [.f64 (Ex.strange.double.sub 7 2)]) := rfl

end Clr
