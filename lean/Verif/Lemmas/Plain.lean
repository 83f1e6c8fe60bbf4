import Verif.Lemmas.Alloc
import Verif.Lemmas.Depths
/-! # Typed instructions on numbers (for C73) -/

namespace Clr

variable {cfg : Cfg} {ops : FloatOps} {tf : Nat} {fr : Frame} {ip : Nat} {w : World} {v v' : VM} {bs : List Block} {T : Prop}

def Ty.nums : List Ty := [.i4, .i8, .r4, .r8]
def Ty.wholes : List Ty := [.i4, .i8]

/-- The types the model's instructions on numbers take and put. -/
def Op.rules : Op → List (List Ty × List Ty)
  | .Nop | .Br | .Br_S => [([], [])]
  | .Ldc_I4_M1 | .Ldc_I4_0 | .Ldc_I4_1 | .Ldc_I4_2 | .Ldc_I4_3 | .Ldc_I4_4 | .Ldc_I4_5 | .Ldc_I4_6 | .Ldc_I4_7
  | .Ldc_I4_8 | .Ldc_I4_S | .Ldc_I4 => [([], [.i4])]
  | .Ldc_I8 => [([], [.i8])]
  | .Ldc_R4 => [([], [.r4])]
  | .Ldc_R8 => [([], [.r8])]
  | .Add | .Sub | .Mul | .Div | .Rem => Ty.nums.map fun t => ([t, t], [t])
  | .And | .Or | .Xor | .Div_Un | .Rem_Un | .Shl | .Shr => Ty.wholes.map fun t => ([t, t], [t])
  | .Neg => Ty.nums.map fun t => ([t], [t])
  | .Not => Ty.wholes.map fun t => ([t], [t])
  | .Ceq | .Cgt | .Cgt_Un | .Clt | .Clt_Un => Ty.nums.map fun t => ([t, t], [.i4])
  | .Beq | .Bge | .Bgt | .Ble | .Blt | .Beq_S | .Bge_S | .Bgt_S | .Ble_S | .Blt_S => Ty.nums.map fun t => ([t, t], [])
  | .Brfalse | .Brtrue | .Brfalse_S | .Brtrue_S => Ty.wholes.map fun t => ([t], [])
  | _ => []

/-- The instructions that may panic. -/
def Op.traps (checks : Bool) : Op → Bool
  | .Div | .Div_Un | .Rem | .Rem_Un | .Newarr | .Ldelem_I4 | .Stelem_I4 => true
  | .Add | .Sub | .Mul | .Neg | .Shl | .Shr => checks
  | _ => false

/-- The operands of an instruction. -/
theorem All2.zero {R : Value → Ty → Prop} {l : List Value} (h : All2 R l []) : l = [] := by cases h; rfl

theorem All2.one {R : Value → Ty → Prop} {l : List Value} {t : Ty} {ts : List Ty} (h : All2 R l (t :: ts)) :
    ∃ a r, l = a :: r ∧ R a t ∧ All2 R r ts := by
  cases h with | cons h1 h2 => exact ⟨_, _, rfl, h1, h2⟩

/-- A result or, if `T`, a panic. -/
def Good {α : Type} (T : Prop) (P : α → Prop) (x : Res α) : Prop := (∃ a, x = .ok a ∧ P a) ∨ x = .panic ∧ T

theorem Good.map {α β : Type} {P : α → Prop} {Q : β → Prop} {f : α → β} {x : Res α} (h : Good T P x) (hf : ∀ a, P a → Q (f a)) :
    Good T Q (f <$> x) := by
  rcases h with ⟨a, rfl, h⟩ | ⟨rfl, h⟩
  · exact .inl ⟨f a, rfl, hf a h⟩
  · exact .inr ⟨rfl, h⟩

theorem Good.checked {n : Nat} {o : Bool} {r : BitVec n} (h : cfg.checks = true → T) : Good T (fun _ => True) (checked cfg o r) := by
  unfold Clr.checked
  split
  · rename_i hc; exact .inr ⟨rfl, h (by simp at hc; exact hc.1)⟩
  · exact .inl ⟨_, rfl, trivial⟩

theorem Good.divided {n : Nat} {z o : Bool} {r : BitVec n} (h : T) : Good T (fun _ => True) (divided z o r) := by
  unfold Clr.divided
  split
  · exact .inr ⟨rfl, h⟩
  · exact .inl ⟨_, rfl, trivial⟩

/-- Values of numeric types, whatever the heap. -/
def Num (a : Value) (t : Ty) : Prop := ∀ w bs, HasTy w bs a t

theorem HasTy.num {a : Value} {t : Ty} (ht : t.isNum = true) (h : HasTy w bs a t) : Num a t := by
  intro w' bs'
  cases t <;> simp only [Ty.isNum, Bool.false_eq_true] at ht
  · obtain ⟨x, rfl⟩ := h.i4; trivial
  · obtain ⟨x, rfl⟩ := h.i8; trivial
  · obtain ⟨x, rfl⟩ := h.r4; trivial
  · obtain ⟨x, rfl⟩ := h.r8; trivial

theorem arith_good {s u : {n : Nat} → BitVec n → BitVec n → Res (BitVec n)} {f : BitVec 32 → BitVec 32 → BitVec 32}
    {d : BitVec 64 → BitVec 64 → BitVec 64} (hs : ∀ {n : Nat} (x y : BitVec n), Good T (fun _ => True) (s x y)) {t : Ty}
    (ht : t ∈ Ty.nums) {a b : Value} (ha : HasTy w bs a t) (hb : HasTy w bs b t) :
    Good T (fun c => Num c t) (Value.arith s u f d a b) := by
  simp only [Ty.nums, List.mem_cons, List.not_mem_nil, or_false] at ht
  rcases ht with rfl | rfl | rfl | rfl
  · obtain ⟨x, rfl⟩ := ha.i4; obtain ⟨y, rfl⟩ := hb.i4
    exact (hs x y).map fun _ _ _ _ => trivial
  · obtain ⟨x, rfl⟩ := ha.i8; obtain ⟨y, rfl⟩ := hb.i8
    exact (hs x y).map fun _ _ _ _ => trivial
  · obtain ⟨x, rfl⟩ := ha.r4; obtain ⟨y, rfl⟩ := hb.r4
    exact .inl ⟨_, rfl, fun _ _ => trivial⟩
  · obtain ⟨x, rfl⟩ := ha.r8; obtain ⟨y, rfl⟩ := hb.r8
    exact .inl ⟨_, rfl, fun _ _ => trivial⟩

theorem Ty.wholes_nums {t : Ty} (h : t ∈ Ty.wholes) : t ∈ Ty.nums := by
  simp only [Ty.wholes, Ty.nums, List.mem_cons, List.not_mem_nil, or_false] at h ⊢
  rcases h with rfl | rfl <;> simp

theorem Ty.nums_isNum {t : Ty} (h : t ∈ Ty.nums) : t.isNum = true := by
  simp only [Ty.nums, List.mem_cons, List.not_mem_nil, or_false] at h
  rcases h with rfl | rfl | rfl | rfl <;> rfl

theorem bits_good {s u : {n : Nat} → BitVec n → BitVec n → Res (BitVec n)}
    (hs : ∀ {n : Nat} (x y : BitVec n), Good T (fun _ => True) (s x y)) {t : Ty}
    (ht : t ∈ Ty.wholes) {a b : Value} (ha : HasTy w bs a t) (hb : HasTy w bs b t) :
    Good T (fun c => Num c t) (Value.bits s u a b) := by
  simp only [Ty.wholes, List.mem_cons, List.not_mem_nil, or_false] at ht
  rcases ht with rfl | rfl
  · obtain ⟨x, rfl⟩ := ha.i4; obtain ⟨y, rfl⟩ := hb.i4
    exact (hs x y).map fun _ _ _ _ => trivial
  · obtain ⟨x, rfl⟩ := ha.i8; obtain ⟨y, rfl⟩ := hb.i8
    exact (hs x y).map fun _ _ _ _ => trivial

theorem neg_good (h : cfg.checks = true → T) {t : Ty} (ht : t ∈ Ty.nums) {a : Value} (ha : HasTy w bs a t) :
    Good T (fun c => Num c t) (Value.neg cfg ops a) := by
  simp only [Ty.nums, List.mem_cons, List.not_mem_nil, or_false] at ht
  rcases ht with rfl | rfl | rfl | rfl
  · obtain ⟨x, rfl⟩ := ha.i4
    exact (Good.checked (T := T) h).map fun _ _ _ _ => trivial
  · obtain ⟨x, rfl⟩ := ha.i8
    exact (Good.checked (T := T) h).map fun _ _ _ _ => trivial
  · obtain ⟨x, rfl⟩ := ha.r4
    exact .inl ⟨_, rfl, fun _ _ => trivial⟩
  · obtain ⟨x, rfl⟩ := ha.r8
    exact .inl ⟨_, rfl, fun _ _ => trivial⟩

theorem not_good {t : Ty} (ht : t ∈ Ty.wholes) {a : Value} (ha : HasTy w bs a t) :
    Good T (fun c => Num c t) (Value.not a) := by
  simp only [Ty.wholes, List.mem_cons, List.not_mem_nil, or_false] at ht
  rcases ht with rfl | rfl
  · obtain ⟨x, rfl⟩ := ha.i4
    exact .inl ⟨_, rfl, fun _ _ => trivial⟩
  · obtain ⟨x, rfl⟩ := ha.i8
    exact .inl ⟨_, rfl, fun _ _ => trivial⟩

theorem cmp_good {t : Ty} (ht : t ∈ Ty.nums) {a b : Value} (ha : HasTy w bs a t) (hb : HasTy w bs b t) :
    ∃ c, Value.partialCmp ops a b = .ok c := by
  simp only [Ty.nums, List.mem_cons, List.not_mem_nil, or_false] at ht
  rcases ht with rfl | rfl | rfl | rfl
  · obtain ⟨x, rfl⟩ := ha.i4; obtain ⟨y, rfl⟩ := hb.i4; exact ⟨_, rfl⟩
  · obtain ⟨x, rfl⟩ := ha.i8; obtain ⟨y, rfl⟩ := hb.i8; exact ⟨_, rfl⟩
  · obtain ⟨x, rfl⟩ := ha.r4; obtain ⟨y, rfl⟩ := hb.r4; exact ⟨_, rfl⟩
  · obtain ⟨x, rfl⟩ := ha.r8; obtain ⟨y, rfl⟩ := hb.r8; exact ⟨_, rfl⟩

theorem zero_good {t : Ty} (ht : t ∈ Ty.wholes) {a : Value} (ha : HasTy w bs a t) : ∃ c, a.isNullOrZero ops = .ok c := by
  simp only [Ty.wholes, List.mem_cons, List.not_mem_nil, or_false] at ht
  rcases ht with rfl | rfl
  · obtain ⟨x, rfl⟩ := ha.i4; exact ⟨_, rfl⟩
  · obtain ⟨x, rfl⟩ := ha.i8; exact ⟨_, rfl⟩

/-- A comparison that cannot panic on numbers of one type. -/
def Total (rel : Value → Value → Res Bool) : Prop :=
  ∀ w bs t, t ∈ Ty.nums → ∀ a b, HasTy w bs a t → HasTy w bs b t → ∃ c, rel a b = .ok c

theorem Total.eqTop : Total (eqTop ops) := fun _ _ _ _ _ _ _ _ => ⟨_, rfl⟩
theorem Total.lt : Total (Value.lt ops) := fun _ _ _ ht a b ha hb => by
  obtain ⟨c, hc⟩ := cmp_good (ops := ops) ht ha hb; exact ⟨_, by unfold Value.lt; rw [hc]; rfl⟩
theorem Total.le : Total (Value.le ops) := fun _ _ _ ht a b ha hb => by
  obtain ⟨c, hc⟩ := cmp_good (ops := ops) ht ha hb; exact ⟨_, by unfold Value.le; rw [hc]; rfl⟩
theorem Total.gt : Total (Value.gt ops) := fun _ _ _ ht a b ha hb => by
  obtain ⟨c, hc⟩ := cmp_good (ops := ops) ht ha hb; exact ⟨_, by unfold Value.gt; rw [hc]; rfl⟩
theorem Total.ge : Total (Value.ge ops) := fun _ _ _ ht a b ha hb => by
  obtain ⟨c, hc⟩ := cmp_good (ops := ops) ht ha hb; exact ⟨_, by unfold Value.ge; rw [hc]; rfl⟩

/-- What an instruction on numbers does: it replaces the operands above `rest`. -/
def Puts (v : VM) (rest : List Value) (outs : List Ty) (a : Action) (v' : VM) : Prop :=
  (∃ n, a = .next n) ∧ ∃ vals, v' = { v with operands := vals ++ rest } ∧ All2 Num vals outs

theorem Puts.zero {n : Nat} {rest : List Value} : Puts v rest [] (.next n) { v with operands := rest } :=
  ⟨⟨n, rfl⟩, [], rfl, .nil⟩

theorem Puts.one {n : Nat} {rest : List Value} {a : Value} {t : Ty} (h : Num a t) :
    Puts v rest [t] (.next n) { v with operands := a :: rest } := ⟨⟨n, rfl⟩, [a], rfl, .cons h .nil⟩

theorem binary_out {f : Value → Value → Res Value} {a b : Value} {rest : List Value} {t : Ty} (ho : v.operands = b :: a :: rest)
    (hf : Good T (fun c => Num c t) (f a b)) : Ending T (Puts v rest [t]) (binary f ip v) := by
  rw [binary_run ho]
  rcases hf with ⟨c, hc, h⟩ | ⟨hc, h⟩
  · rw [hc]; exact .ok (.one h)
  · rw [hc]; exact .inr h

theorem unary_out {f : Value → Res Value} {a : Value} {rest : List Value} {t : Ty} (ho : v.operands = a :: rest)
    (hf : Good T (fun c => Num c t) (f a)) : Ending T (Puts v rest [t]) (unary f ip v) := by
  rw [unary_run ho]
  rcases hf with ⟨c, hc, h⟩ | ⟨hc, h⟩
  · rw [hc]; exact .ok (.one h)
  · rw [hc]; exact .inr h

theorem exec_plain {op : Op} {n : Nat} {b : Bool} {ins outs : List Ty} (hr : (ins, outs) ∈ op.rules)
    (hsh : op.shape = some (n, b)) (hT : op.traps cfg.checks = true → T) (hf : n ≠ 0 → ∃ x, fetch fr.code ip n = .ok x)
    {vals rest : List Value} (hv : All2 (HasTy w bs) vals ins) (ho : v.operands = vals ++ rest) :
    Ending T (Puts v rest outs) (exec cfg ops tf fr op ip v) := by
  have hconst : ∀ x k, vals = [] → Ending T (Puts v rest [Ty.i4]) (constant (.i32 x) k v) := by
    rintro x k rfl
    refine Ending.ok ?_
    rw [ho]
    exact .one fun _ _ => trivial
  have himm : ∀ {mk : Nat → Value} {t : Ty}, (∀ x, Num (mk x) t) → vals = [] → n ≠ 0 →
      Ending T (Puts v rest [t]) (immediate fr n mk ip v) := by
    rintro mk t hmk rfl hn
    obtain ⟨x, hx⟩ := hf hn
    rw [immediate_ok hx, ho]
    exact .ok (.one (hmk x))
  have hbr : n ≠ 0 → vals = [] → Ending T (Puts v rest []) (branch fr n ip v) := by
    rintro hn rfl
    obtain ⟨x, hx⟩ := hf hn
    rw [branch_ok (d := _) (by unfold fetchInt; rw [hx]; rfl)]
    have e : v = { v with operands := rest } := by rw [← show v.operands = rest from ho]
    rw [e]
    exact .ok .zero
  have hcmp : ∀ rel k, Total rel → (∃ t ∈ Ty.nums, ([t, t], [Ty.i4]) = (ins, outs)) →
      Ending T (Puts v rest outs) (compareOp rel k v) := by
    rintro rel k hrel ⟨t, ht, h⟩
    cases h
    obtain ⟨b, r, rfl, hb, hv⟩ := hv.one
    obtain ⟨a, r, rfl, ha, hv⟩ := hv.one
    obtain rfl := hv.zero
    obtain ⟨c, hc⟩ := hrel _ _ t ht a b ha hb
    rw [compareOp_ok ho hc]
    exact .ok (.one fun _ _ => trivial)
  have hbcmp : ∀ rel, n ≠ 0 → Total rel → (∃ t ∈ Ty.nums, ([t, t], []) = (ins, outs)) →
      Ending T (Puts v rest outs) (branchCmp fr rel n ip v) := by
    rintro rel hn hrel ⟨t, ht, h⟩
    cases h
    obtain ⟨b, r, rfl, hb, hv⟩ := hv.one
    obtain ⟨a, r, rfl, ha, hv⟩ := hv.one
    obtain rfl := hv.zero
    obtain ⟨c, hc⟩ := hrel _ _ t ht a b ha hb
    obtain ⟨x, hx⟩ := hf hn
    rw [branchCmp_ok ho hc (d := _) (by unfold fetchInt; rw [hx]; rfl)]
    exact .ok .zero
  have hbif : ∀ want, n ≠ 0 → (∃ t ∈ Ty.wholes, ([t], []) = (ins, outs)) →
      Ending T (Puts v rest outs) (branchIf ops fr want n ip v) := by
    rintro want hn ⟨t, ht, h⟩
    cases h
    obtain ⟨a, r, rfl, ha, hv⟩ := hv.one
    obtain rfl := hv.zero
    obtain ⟨c, hc⟩ := zero_good (ops := ops) ht ha
    obtain ⟨x, hx⟩ := hf hn
    rw [branchIf_ok ho hc (d := _) (by unfold fetchInt; rw [hx]; rfl)]
    exact .ok .zero
  have hbin : ∀ (f : Value → Value → Res Value) k (ts : List Ty), (∀ t ∈ ts, ∀ a b, HasTy w bs a t → HasTy w bs b t →
      Good T (fun c => Num c t) (f a b)) → (∃ t ∈ ts, ([t, t], [t]) = (ins, outs)) →
      Ending T (Puts v rest outs) (binary f k v) := by
    rintro f k ts hf ⟨t, ht, h⟩
    cases h
    obtain ⟨b, r, rfl, hb, hv⟩ := hv.one
    obtain ⟨a, r, rfl, ha, hv⟩ := hv.one
    obtain rfl := hv.zero
    exact binary_out ho (hf t ht a b ha hb)
  have hun : ∀ (f : Value → Res Value) k (ts : List Ty), (∀ t ∈ ts, ∀ a, HasTy w bs a t →
      Good T (fun c => Num c t) (f a)) → (∃ t ∈ ts, ([t], [t]) = (ins, outs)) →
      Ending T (Puts v rest outs) (unary f k v) := by
    rintro f k ts hf ⟨t, ht, h⟩
    cases h
    obtain ⟨a, r, rfl, ha, hv⟩ := hv.one
    obtain rfl := hv.zero
    exact unary_out ho (hf t ht a ha)
  have hnil : ∀ {o : List Ty}, (ins, outs) ∈ [([], o)] → ins = [] ∧ outs = o := by
    intro o h
    simp only [List.mem_singleton, Prod.mk.injEq] at h
    exact h
  have hex : ∀ {ts : List Ty} {f : Ty → List Ty × List Ty}, (ins, outs) ∈ ts.map f → ∃ t ∈ ts, f t = (ins, outs) :=
    fun h => List.mem_map.mp h
  cases op
  case Nop =>
    obtain ⟨rfl, rfl⟩ := hnil hr
    obtain rfl := hv.zero
    have e : v = { v with operands := rest } := by rw [← show v.operands = rest from ho]
    show Ending T _ (Res.ok (Action.next ip), v)
    rw [e]
    exact .ok .zero
  case Br | Br_S => obtain ⟨rfl, rfl⟩ := hnil hr; cases hsh; exact hbr (by decide) hv.zero
  case Ldc_I4_M1 | Ldc_I4_0 | Ldc_I4_1 | Ldc_I4_2 | Ldc_I4_3 | Ldc_I4_4 | Ldc_I4_5 | Ldc_I4_6 | Ldc_I4_7 | Ldc_I4_8 =>
    obtain ⟨rfl, rfl⟩ := hnil hr; exact hconst _ _ hv.zero
  case Ldc_I4_S | Ldc_I4 | Ldc_I8 | Ldc_R4 | Ldc_R8 =>
    obtain ⟨rfl, rfl⟩ := hnil hr; cases hsh; exact himm (fun _ _ _ => trivial) hv.zero (by decide)
  case Add | Sub | Mul => exact hbin _ _ _ (fun t ht a b ha hb => arith_good (fun x y => .checked hT) ht ha hb) (hex hr)
  case Div | Rem => exact hbin _ _ _ (fun t ht a b ha hb => arith_good (fun x y => .divided (hT rfl)) ht ha hb) (hex hr)
  case Div_Un | Rem_Un =>
    exact hbin _ _ _ (fun t ht a b ha hb => arith_good (fun x y => .divided (hT rfl)) (Ty.wholes_nums ht) ha hb) (hex hr)
  case And | Or | Xor =>
    exact hbin _ _ _ (fun t ht a b ha hb => bits_good (fun x y => .inl ⟨_, rfl, trivial⟩) ht ha hb) (hex hr)
  case Shl | Shr => exact hbin _ _ _ (fun t ht a b ha hb => bits_good (fun x y => .checked hT) ht ha hb) (hex hr)
  case Neg => exact hun _ _ _ (fun t ht a ha => neg_good hT ht ha) (hex hr)
  case Not => exact hun _ _ _ (fun t ht a ha => not_good ht ha) (hex hr)
  case Ceq => exact hcmp _ _ .eqTop (hex hr)
  case Cgt | Cgt_Un => exact hcmp _ _ .gt (hex hr)
  case Clt | Clt_Un => exact hcmp _ _ .lt (hex hr)
  case Beq | Beq_S => cases hsh; exact hbcmp _ (by decide) .eqTop (hex hr)
  case Bge | Bge_S => cases hsh; exact hbcmp _ (by decide) .ge (hex hr)
  case Bgt | Bgt_S => cases hsh; exact hbcmp _ (by decide) .gt (hex hr)
  case Ble | Ble_S => cases hsh; exact hbcmp _ (by decide) .le (hex hr)
  case Blt | Blt_S => cases hsh; exact hbcmp _ (by decide) .lt (hex hr)
  case Brfalse | Brtrue | Brfalse_S | Brtrue_S => cases hsh; exact hbif _ (by decide) (hex hr)
  all_goals exact absurd hr List.not_mem_nil

/-- The table of types fits the model's instructions. -/
theorem rules_ok : (encodings.filter Encoding.isRight).all (fun e => match decodeBytes e.opcode with
    | some op => typeRules.all (fun r => r.1 ≠ e.mnemonic || op.rules.contains r.2) &&
        (op.traps true = decide (e.mnemonic ∈ trapping true)) && (op.traps false = decide (e.mnemonic ∈ trapping false)) &&
        (e.mnemonic ≠ "dup" || op = .Dup) && (e.mnemonic ≠ "pop" || op = .Pop) && (e.mnemonic ≠ "ldstr" || op = .Ldstr) &&
        (e.mnemonic ≠ "newarr" || op = .Newarr) && (e.mnemonic ≠ "ldelem.i4" || op = .Ldelem_I4) &&
        (e.mnemonic ≠ "stelem.i4" || op = .Stelem_I4) && (e.mnemonic ≠ "ldfld" || op = .Ldfld) &&
        (e.mnemonic ≠ "stfld" || op = .Stfld) && (e.mnemonic ≠ "call" || op = .Call) &&
        (e.mnemonic ≠ "newobj" || op = .Newobj)
    | none => false) = true := by decide +kernel

end Clr
