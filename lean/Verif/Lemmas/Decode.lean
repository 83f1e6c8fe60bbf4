import Verif.Lemmas.Arith
/-! # Decoding of instructions (for C53, C60, C65) -/

namespace Clr

variable {cfg : Cfg} {ops : FloatOps} {tf : Nat} {fr : Frame} {ip : Nat} {v : VM} {rest : List Value}

/-! ## C53 -/

/-- The frame with other code. -/
def Frame.withCode (fr : Frame) (code : Bytes) : Frame := { fr with code }

/-- The address where execution goes on after an instruction that is not a branch. -/
def Action.resumes : Action → Option Nat
  | .next ip => some ip
  | .call _ _ ip => some ip
  | .ret _ => none

/-- Encodings the interpreter reads as ECMA-335 defines them: all implemented ones except `ldarg` and `starg`. -/
def Encoding.isRight (e : Encoding) : Bool := e.mnemonic ≠ "ldarg" && e.mnemonic ≠ "starg"

/-- Is the operand a branch target? -/
def Operand.isTarget : Operand → Bool
  | .target8 | .target32 => true
  | _ => false

theorem fetch_at {code : Bytes} {arg : Bytes} {n : Nat} (h : HasAt code ip arg) (hl : arg.length = n) (hn : 0 < n) :
    fetch code ip n = .ok (leNat arg) := by
  subst hl; exact h.fetch hn

theorem HasAt.drop {code : Bytes} {a b : Bytes} (h : HasAt code ip (a ++ b)) : HasAt code (ip + a.length) b := by
  obtain ⟨t, ht⟩ := h
  refine ⟨t, ?_⟩
  have := congrArg (List.drop a.length) ht
  simpa [List.drop_drop] using this

theorem HasAt.left {code : Bytes} {a b : Bytes} (h : HasAt code ip (a ++ b)) : HasAt code ip a :=
  (List.prefix_append a b).trans h

/-- Every action `x` ends with satisfies `P`. -/
def Ends (x : X Action) (P : Action → Prop) : Prop := ∀ v a, (x v).1 = .ok a → P a

theorem Ends.pure {P : Action → Prop} {a : Action} (h : P a) : Ends (pure a) P := by
  intro v b hb; cases hb; exact h

theorem Ends.panic {P : Action → Prop} : Ends (liftM (Res.panic : Res Action)) P := by
  intro v b hb; cases hb

theorem Ends.err {P : Action → Prop} {m : String} : Ends (liftM (Res.err m : Res Action)) P := by
  intro v b hb; cases hb

theorem Ends.bind {α : Type} {P : Action → Prop} {x : X α} {f : α → X Action} (h : ∀ a, Ends (f a) P) :
    Ends (x >>= f) P := by
  intro v b hb
  rw [X.bind_run] at hb
  rcases hx : x v with ⟨r, v1⟩
  rw [hx] at hb
  cases r <;> first | exact h _ _ _ hb | cases hb

/-- Proves `Ends` for straight-line code. -/
macro "ends" : tactic => `(tactic| repeat (first
  | exact Ends.pure rfl | exact Ends.panic | exact Ends.err | (refine Ends.bind fun _ => ?_) | (split)))

/-- Operand size of the implemented instructions, as the interpreter reads them, and whether the operand is a branch
target. -/
def Op.shape : Op → Option (Nat × Bool)
  | .Nop | .Ret | .Ldc_I4_M1 | .Ldc_I4_0 | .Ldc_I4_1 | .Ldc_I4_2 | .Ldc_I4_3 | .Ldc_I4_4 | .Ldc_I4_5 | .Ldc_I4_6
  | .Ldc_I4_7 | .Ldc_I4_8 | .Ldloc_0 | .Ldloc_1 | .Ldloc_2 | .Ldloc_3 | .Stloc_0 | .Stloc_1 | .Stloc_2 | .Stloc_3
  | .Ldarg_0 | .Ldarg_1 | .Ldarg_2 | .Ldarg_3 | .Dup | .Pop | .Ceq | .Cgt | .Cgt_Un | .Clt | .Clt_Un | .Add | .Sub | .Mul
  | .Div | .Div_Un | .Rem | .Rem_Un | .Neg | .And | .Or | .Xor | .Not | .Shl | .Shr | .Stelem_I4 | .Ldelem_I4 =>
    some (0, false)
  | .Ldc_I4_S | .Ldloc_S | .Stloc_S | .Ldarg_S | .Starg_S => some (1, false)
  | .Ldloc | .Stloc => some (2, false)
  | .Ldc_I4 | .Ldc_R4 | .Ldarg | .Starg | .Call | .Newobj | .Stfld | .Ldfld | .Newarr | .Ldstr => some (4, false)
  | .Ldc_I8 | .Ldc_R8 => some (8, false)
  | .Br_S | .Brfalse_S | .Brtrue_S | .Beq_S | .Bge_S | .Bgt_S | .Ble_S | .Blt_S => some (1, true)
  | .Br | .Brfalse | .Brtrue | .Beq | .Bge | .Bgt | .Ble | .Blt => some (4, true)
  | _ => none

/-- What opcode bytes decode to. -/
def decodeBytes : Bytes → Option Op
  | [b] => if b.toNat ≤ 0xf8 then Op.ofCode b.toNat else none
  | [b, c] => if 0xf8 < b.toNat then Op.ofCode (c.toNat ||| (b.toNat <<< 8)) else none
  | _ => none

theorem fetchOp_of {code bs : Bytes} {op : Op} (h : decodeBytes bs = some op) (hc : HasAt code ip bs) :
    fetchOp code ip = .ok (op, ip + bs.length) := by
  unfold decodeBytes at h
  split at h
  · split at h
    · exact fetchOp_one hc.getElem ‹_› h
    · cases h
  · split at h
    · exact fetchOp_two hc.getElem hc.tail.getElem ‹_› h
    · cases h
  · cases h

/-- The encodings of the standard agree with the sizes the interpreter uses, except for `ldarg` and `starg`. -/
theorem rows_ok : (encodings.filter Encoding.isRight).all (fun e =>
    ((decodeBytes e.opcode).bind Op.shape) = some (e.operand.size, e.operand.isTarget)) = true := by decide +kernel

theorem row_ok {e : Encoding} (he : e ∈ encodings) (hr : e.isRight) :
    ∃ op, decodeBytes e.opcode = some op ∧ op.shape = some (e.operand.size, e.operand.isTarget) := by
  have := List.all_eq_true.1 rows_ok e (List.mem_filter.2 ⟨he, hr⟩)
  simpa [Option.bind_eq_some_iff] using this

theorem exec_ends {op : Op} {n : Nat} (h : op.shape = some (n, false)) :
    Ends (exec cfg ops tf fr op ip) (fun a => a.resumes = none ∨ a.resumes = some (ip + n)) := by
  cases op <;> simp only [Op.shape, reduceCtorEq, Option.some.injEq, Prod.mk.injEq, Bool.true_eq_false, and_false,
    and_true] at h <;> subst h <;>
    simp only [exec, constant, immediate, loadFrom, loadAt', storeTo, storeAt, compareOp, binary, unary, doRet, doDup, doPop,
      doCall, doNewobj, doStfld, doLdfld, doNewarr, doStelem, doLdelem, doLdstr] <;>
    repeat (first
      | exact Ends.pure (Or.inr rfl) | exact Ends.pure (Or.inl rfl) | exact Ends.panic | exact Ends.err
      | (refine Ends.bind fun _ => ?_) | (split))

theorem exec_congr {op : Op} {n : Nat} {b : Bool} (h : op.shape = some (n, b)) {code : Bytes}
    (hf : n ≠ 0 → fetch fr.code ip n = fetch code ip n) :
    exec cfg ops tf fr op ip = exec cfg ops tf (fr.withCode code) op ip := by
  cases op <;> simp only [Op.shape, reduceCtorEq, Option.some.injEq, Prod.mk.injEq] at h <;> obtain ⟨rfl, rfl⟩ := h <;>
    first
    | rfl
    | (have hf' := hf (by decide)
       simp only [exec, immediate, loadFrom, storeTo, branch, branchIf, branchCmp, fetchInt, doCall, doNewobj, doStfld,
        doLdfld, doNewarr, doLdstr, Frame.withCode, hf']; done)
    | (have hf' := hf (by decide)
       simp only [exec, immediate, loadFrom, storeTo, branch, branchIf, branchCmp, fetchInt, doCall, doNewobj, doStfld,
        doLdfld, doNewarr, doLdstr, Frame.withCode, hf']; rfl)

/-! ## Operands -/

theorem immediate_ok {n x : Nat} {mk : Nat → Value} (h : fetch fr.code ip n = .ok x) (v : VM) :
    immediate fr n mk ip v = (.ok (.next (ip + n)), { v with operands := mk x :: v.operands }) := by
  unfold immediate
  rw [X.liftM_bind_ok h]
  rfl

theorem HasAt.fetch_leBytes {code : Bytes} {n x : Nat} (h : HasAt code ip (leBytes (n + 1) x))
    (hx : x < 2 ^ (8 * (n + 1))) : Clr.fetch code ip (n + 1) = .ok x := by
  have hf := h.fetch (by simp)
  rw [length_leBytes, leNat_leBytes _ _ (by rwa [show 256 = 2 ^ 8 from rfl, ← Nat.pow_mul])] at hf
  exact hf

theorem HasAt.fetch_intBytes {code : Bytes} {n : Nat} {x : Int} (h : HasAt code ip (intBytes (n + 1) x)) :
    Clr.fetch code ip (n + 1) = .ok (x % 256 ^ (n + 1)).toNat := by
  have hf := h.fetch (by simp [intBytes])
  simp only [intBytes, length_leBytes] at hf
  have hpos : (0 : Int) < 256 ^ (n + 1) := Int.pow_pos (by decide)
  rw [leNat_leBytes _ _ (by
    have := Int.emod_lt_of_pos x hpos
    have h0 := Int.emod_nonneg x (by omega : (256 : Int) ^ (n + 1) ≠ 0)
    have h2 : ((256 ^ (n + 1) : Nat) : Int) = 256 ^ (n + 1) := Int.natCast_pow 256 (n + 1)
    omega)] at hf
  exact hf

theorem ofNat_emod (w n : Nat) (h : (256 : Int) ^ n = ((2 ^ w : Nat) : Int)) (x : Int) :
    BitVec.ofNat w (x % 256 ^ n).toNat = BitVec.ofInt w x := by
  rw [h]
  apply BitVec.eq_of_toNat_eq
  rw [BitVec.toNat_ofNat, BitVec.toNat_ofInt]
  apply Nat.mod_eq_of_lt
  have := Int.emod_lt_of_pos x (show (0 : Int) < ((2 ^ w : Nat) : Int) by exact_mod_cast Nat.two_pow_pos w)
  omega

theorem signExtend_ofInt {m n : Nat} {x : Int} (h : Fits m x) (hm : 0 < m) (hn : m ≤ n) :
    (BitVec.ofInt m x).signExtend n = BitVec.ofInt n x := by
  apply BitVec.eq_of_toInt_eq
  obtain ⟨k, rfl⟩ : ∃ k, m = k + 1 := ⟨m - 1, by omega⟩
  obtain ⟨h1, h2⟩ := h
  simp only [Nat.add_sub_cancel] at h1 h2
  have hmono : (2 : Int) ^ k ≤ 2 ^ (n - 1) := by
    have := Nat.pow_le_pow_right (n := 2) (by decide) (show k ≤ n - 1 by omega)
    exact_mod_cast this
  rw [BitVec.toInt_signExtend_of_le hn, BitVec.toInt_ofInt_eq_self hm (by simpa using h1) (by simpa using h2),
    BitVec.toInt_ofInt_eq_self (by omega) (by omega) (by omega)]

/-! ## Unimplemented instructions -/

theorem X.bind_congr' {α β : Type} {x : X α} {f g : α → X β} (h : ∀ a, f a = g a) : x >>= f = x >>= g := by
  rw [funext h]

theorem unimplemented_ok : unimplemented.all (fun r => r.1 = "no." ||
    ((decodeBytes r.2).map fun op => (op.shape.isNone, op.name.toList)) = some (true, identifier true r.1.toList)) =
      true := by decide +kernel

theorem unimplemented_row {m : String} {bs : Bytes} (h : (m, bs) ∈ unimplemented) (hm : m ≠ "no.") :
    ∃ op, decodeBytes bs = some op ∧ op.shape = none ∧ op.name.toList = identifier true m.toList := by
  have := List.all_eq_true.1 unimplemented_ok _ h
  simp only [Bool.or_eq_true, decide_eq_true_eq, hm, false_or, Option.map_eq_some_iff, Prod.mk.injEq,
    Option.isNone_iff_eq_none] at this
  exact this

theorem unimplemented_no {bs : Bytes} (h : ("no.", bs) ∈ unimplemented) : bs = [0xfe, 0x19] := by
  have : (unimplemented.all fun r => r.1 ≠ "no." || r.2 = [0xfe, 0x19]) = true := by decide +kernel
  simpa using List.all_eq_true.1 this _ h

theorem exec_unimplemented {op : Op} (h : op.shape = none) : exec cfg ops tf fr op ip =
    liftM (Res.err ("Use of unimplemented instruction " ++ op.name ++ " at IL_" ++ hex4 (ip - 1)) : Res Action) := by
  cases op <;> first | rfl | cases h

theorem step_unimplemented {op : Op} {bs : Bytes} (hop : decodeBytes bs = some op) (h : op.shape = none)
    (hc : HasAt fr.code ip bs) (v : VM) : step cfg ops tf fr ip v =
      (.err ("Use of unimplemented instruction " ++ op.name ++ " at IL_" ++ hex4 (ip + bs.length - 1)), v) := by
  rw [step_of_fetch (fetchOp_of hop hc), exec_unimplemented h]
  rfl

theorem loop_succ (fuel : Nat) (v : VM) : loop cfg ops tf (fuel + 1) fr ip v =
    match step cfg ops tf fr ip v with
    | (.ok (.next n), v') => loop cfg ops tf fuel fr n v'
    | (.ok (.ret a), v') => (.ok a, v')
    | (.ok (.call token after n), v') => (do
      callMethod cfg (loop cfg ops tf fuel) fr token
      match after with
      | some a => push a
      | none => pure ()
      loop cfg ops tf fuel fr n) v'
    | (.err m, v') => (.err m, v')
    | (.panic, v') => (.panic, v')
    | (.ub, v') => (.ub, v')
    | (.timeout, v') => (.timeout, v') := by
  rw [loop, X.bind_run]
  rcases step cfg ops tf fr ip v with ⟨r, v1⟩
  cases r with
  | ok a => cases a <;> rfl
  | _ => rfl

theorem loop_err {fuel : Nat} {v v' : VM} {m : String} (h : step cfg ops tf fr ip v = (.err m, v')) :
    loop cfg ops tf (fuel + 1) fr ip v = (.err m, v') := by
  rw [loop_succ, h]

theorem hexDigit_digitChar {d : Nat} (h : d < 16) : hexDigit d.digitChar = d := by
  have : ∀ d < 16, hexDigit (Nat.digitChar d) = d := by decide
  exact this d h

theorem hexValue_append_single (s : List Char) (c : Char) : hexValue (s ++ [c]) = 16 * hexValue s + hexDigit c := by
  simp [hexValue]

theorem hexValue_toDigits (n : Nat) : hexValue (Nat.toDigits 16 n) = n := by
  induction n using Nat.strongRecOn with
  | _ n ih =>
    by_cases h : n < 16
    · rw [Nat.toDigits_of_lt_base h]; simp [hexValue, hexDigit_digitChar h]
    · rw [Nat.toDigits_of_base_le (by decide) (by omega), hexValue_append_single, ih _ (by omega),
        hexDigit_digitChar (by omega)]
      omega

theorem hexValue_zeros (k : Nat) (s : List Char) : hexValue (List.replicate k '0' ++ s) = hexValue s := by
  induction k with
  | zero => rfl
  | succ k ih => rw [List.replicate_succ, List.cons_append]; exact ih

theorem toList_hex4 (n : Nat) :
    (hex4 n).toList = List.replicate (4 - (Nat.toDigits 16 n).length) '0' ++ Nat.toDigits 16 n := by
  simp [hex4]

theorem hexValue_hex4 (n : Nat) : hexValue (hex4 n).toList = n := by
  rw [toList_hex4, hexValue_zeros, hexValue_toDigits]

theorem length_hex4 (n : Nat) : 4 ≤ (hex4 n).toList.length := by
  rw [toList_hex4]; simp; omega

/-! ## Control flow -/

theorem Ends.lift_bind {α : Type} {P : Action → Prop} {x : Res α} {f : α → X Action} (h : ∀ a, x = .ok a → Ends (f a) P) :
    Ends ((liftM x : X α) >>= f) P := by
  intro v b hb
  rw [X.bind_run, X.liftM_run] at hb
  cases hx : x with
  | ok a => rw [hx] at hb; exact h a hx _ _ hb
  | _ => rw [hx] at hb; cases hb

theorem exec_branch {op : Op} {n : Nat} (h : op.shape = some (n, true)) :
    Ends (exec cfg ops tf fr op ip) (fun a => ∃ d, fetchInt fr.code ip n = .ok d ∧
      (a = .next (jump (ip + n) d) ∨ a = .next (ip + n) ∧ op ≠ .Br ∧ op ≠ .Br_S)) := by
  cases op <;> simp only [Op.shape, reduceCtorEq, Option.some.injEq, Prod.mk.injEq, Bool.false_eq_true, and_false,
    and_true] at h <;> subst h <;>
    simp only [exec, branch, branchIf, branchCmp] <;>
    repeat (first
      | exact Ends.pure ⟨_, ‹_›, Or.inl rfl⟩
      | (refine Ends.lift_bind fun _ _ => ?_) | (refine Ends.bind fun _ => ?_)
      | (split <;> first
          | exact Ends.pure ⟨_, ‹_›, Or.inl rfl⟩
          | exact Ends.pure ⟨_, ‹_›, Or.inr ⟨rfl, by simp, by simp⟩⟩))

theorem exec_ret : Ends (exec cfg ops tf fr .Ret ip) (fun a => a.resumes = none) := by
  simp only [exec, doRet]
  refine Ends.bind fun _ => ?_
  split
  · exact Ends.pure rfl
  · exact Ends.bind fun _ => Ends.pure rfl

theorem mnemonics_ok : (encodings.filter Encoding.isRight).all (fun e =>
    (e.mnemonic ≠ "ret" || decodeBytes e.opcode = some .Ret) && (e.mnemonic ≠ "br" || decodeBytes e.opcode = some .Br) &&
    (e.mnemonic ≠ "br.s" || decodeBytes e.opcode = some .Br_S)) = true := by decide +kernel

/-- One step inside closed code. -/
theorem closed_step {S : Nat → Prop}
    (hS : ClosedCode (encodings.filter fun e => e.mnemonic ≠ "ldarg" ∧ e.mnemonic ≠ "starg") fr.code S)
    (hl : fr.code.length < 2 ^ 62) (hip : S ip) (more : Bytes) :
    step cfg ops tf fr ip v = step cfg ops tf { fr with code := fr.code ++ more } ip v ∧
    ∀ a n, (step cfg ops tf fr ip v).1 = .ok a → a.resumes = some n → S n := by
  obtain ⟨e, he, arg, harg, hc, hnext, htgt⟩ := hS ip hip
  obtain ⟨he, hr⟩ := List.mem_filter.1 he
  have hr' : e.isRight = true := by simpa [Encoding.isRight] using hr
  obtain ⟨op, hop, hsh⟩ := row_ok he hr'
  have hmn := List.all_eq_true.1 mnemonics_ok e (List.mem_filter.2 ⟨he, hr'⟩)
  simp only [hop, Option.some.injEq, Bool.and_eq_true, Bool.or_eq_true, decide_eq_true_eq, ne_eq] at hmn
  have hc' : HasAt (fr.code ++ more) ip (e.opcode ++ arg) := by
    have hle : ip ≤ fr.code.length := by
      rcases Nat.lt_or_ge fr.code.length ip with h | h
      · have : fr.code.drop ip = [] := List.drop_eq_nil_of_le (by omega)
        rw [HasAt, this, List.prefix_nil] at hc
        have : e.opcode = [] := (List.append_eq_nil_iff.1 hc).1
        rw [this] at hop; cases hop
      · exact h
    rw [HasAt, List.drop_append_of_le_length hle]
    exact hc.trans (List.prefix_append _ _)
  constructor
  · rw [step_of_fetch (fetchOp_of hop hc.left),
      step_of_fetch (fr := { fr with code := fr.code ++ more }) (fetchOp_of hop hc'.left)]
    refine congrFun (exec_congr hsh fun hn => ?_) v
    rw [fetch_at hc.drop harg (by omega), fetch_at hc'.drop harg (by omega)]
  · intro a n ha hn
    rw [step_of_fetch (fetchOp_of hop hc.left)] at ha
    cases hb : e.operand.isTarget with
    | false =>
      rw [hb] at hsh
      by_cases hret : e.mnemonic = "ret"
      · obtain rfl : op = .Ret := by simpa [hret] using hmn.1.1
        rw [exec_ret v a ha] at hn; cases hn
      · have h1 : e.mnemonic ≠ "br" := by
          intro h
          obtain rfl : op = .Br := by simpa [h] using hmn.1.2
          simp [Op.shape] at hsh
        have h2 : e.mnemonic ≠ "br.s" := by
          intro h
          obtain rfl : op = .Br_S := by simpa [h] using hmn.2
          simp [Op.shape] at hsh
        have := hnext hret h1 h2
        rcases exec_ends (ops := ops) hsh v a ha with h | h
        · rw [h] at hn; cases hn
        · rw [h, Option.some.injEq] at hn
          subst hn
          simpa [harg, Nat.add_assoc] using this
    | true =>
      rw [hb] at hsh
      have ho : e.operand = .target8 ∨ e.operand = .target32 := by
        revert hb; cases e.operand <;> simp [Operand.isTarget]
      obtain ⟨d, t, rfl, hd, htd, hSt⟩ := htgt ho
      obtain ⟨d', hfi, h⟩ := exec_branch hsh v a ha
      have hpos : 0 < e.operand.size := by rcases ho with h | h <;> rw [h] <;> decide
      rw [fetchInt_ok hpos hc.drop hd] at hfi
      cases hfi
      have htl : t < 2 ^ 62 := by
        obtain ⟨e2, he2, arg2, -, hc2, -⟩ := hS t hSt
        have hne : e2.opcode ≠ [] := by
          intro h0
          obtain ⟨op2, hop2, -⟩ := row_ok (List.mem_filter.1 he2).1
            (by simpa [Encoding.isRight] using (List.mem_filter.1 he2).2)
          rw [h0] at hop2; cases hop2
        have := hc2.left.le hne
        omega
      rcases h with rfl | ⟨rfl, hbr, hbrs⟩
      · simp only [Action.resumes, Option.some.injEq] at hn
        subst hn
        have : jump (ip + e.opcode.length + e.operand.size) d = t := by
          unfold jump
          have : (((ip + e.opcode.length + e.operand.size : Nat) : Int) + d) = t := by
            rw [htd]; simp [length_intBytes]; omega
          rw [this, Int.emod_eq_of_lt (by omega) (by omega), Int.toNat_natCast]
        rwa [this]
      · simp only [Action.resumes, Option.some.injEq] at hn
        subst hn
        have := hnext (fun h => by
            obtain rfl : op = .Ret := by simpa [h] using hmn.1.1
            simp [Op.shape] at hsh)
          (fun h => hbr (by simpa [h] using hmn.1.2)) (fun h => hbrs (by simpa [h] using hmn.2))
        simpa [length_intBytes, Nat.add_assoc] using this

end Clr
