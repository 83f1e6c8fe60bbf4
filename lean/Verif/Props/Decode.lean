import Verif.Lemmas.Decode
import Verif.Props.Arith
/-! # Properties C53, C60, C65: instruction decoding -/

namespace Clr

variable {cfg : Cfg} {ops : FloatOps} {tf : Nat} {fr : Frame} {ip : Nat} {v : VM} {rest : List Value}

/-! ## C53 -/

/-- The claim C53 about one encoding: an instruction that is not a branch resumes directly after its operand, if at all;
and the bytes of the instruction are all the code it depends on. -/
def RunsAs (e : Encoding) : Prop :=
  ∀ (cfg : Cfg) (ops : FloatOps) (tf : Nat) (fr : Frame) (ip : Nat) (v : VM) (arg : Bytes),
    arg.length = e.operand.size → HasAt fr.code ip (e.opcode ++ arg) →
    (e.operand ≠ .target8 → e.operand ≠ .target32 → ∀ a, (step cfg ops tf fr ip v).1 = .ok a →
      (∃ r, a = .ret r) ∨ a.resumes = some (ip + (e.opcode ++ arg).length)) ∧
    (∀ code, HasAt code ip (e.opcode ++ arg) →
      step cfg ops tf fr ip v = step cfg ops tf { fr with code } ip v)

/-- **C53, instruction lengths**, for every implemented instruction except `ldarg` and `starg` with two-byte indices. -/
theorem C53_partial (e : Encoding) (he : e ∈ encodings) (h1 : e.mnemonic ≠ "ldarg") (h2 : e.mnemonic ≠ "starg") :
    RunsAs e := by
  intro cfg ops tf fr ip v arg harg hc
  obtain ⟨op, hop, hsh⟩ := row_ok he (by simp [Encoding.isRight, h1, h2])
  refine ⟨fun ht1 ht2 a ha => ?_, fun code hc' => ?_⟩
  · rw [step_of_fetch (fetchOp_of hop hc.left)] at ha
    have hb : e.operand.isTarget = false := by
      cases h : e.operand <;> simp_all [Operand.isTarget]
    rw [hb] at hsh
    have := exec_ends (ops := ops) hsh v a ha
    cases a with
    | ret r => exact .inl ⟨r, rfl⟩
    | next n => right; simpa [Action.resumes, harg, Nat.add_assoc] using this
    | call t r n => right; simpa [Action.resumes, harg, Nat.add_assoc] using this
  · rw [step_of_fetch (fetchOp_of hop hc.left), step_of_fetch (fr := { fr with code }) (fetchOp_of hop hc'.left)]
    refine congrFun (exec_congr hsh fun hn => ?_) v
    rw [fetch_at hc.drop harg (by omega), fetch_at hc'.drop harg (by omega)]

example : ⟨"ldc.i4", [0x20], .int32⟩ ∈ encodings ∧
    HasAt [0x00, 0x20, 1, 2, 3, 4, 0x2a] 1 ([0x20] ++ [1, 2, 3, 4]) := by decide

/-- **C53 fails for `ldarg` and `starg`**: the index is read as four bytes instead of two, so that
`ldarg 0; ret; ret` stops the program, and `starg 0; nop; nop` skips the following instructions. -/
theorem C53_refuted : ¬ RunsAs ⟨"ldarg", [0xfe, 0x09], .uint16⟩ ∧ ¬ RunsAs ⟨"starg", [0xfe, 0x0b], .uint16⟩ := by
  constructor
  · intro h
    have := (h .release Ex.floats 9 (Ex.frame [0xfe, 0x09, 0, 0, 0x2a, 0x2a]) 0 { world := {}, host := [.i32 7] } [0, 0]
      rfl (by decide)).2 [0xfe, 0x09, 0, 0, 0, 0] (by decide)
    revert this; decide +kernel
  · intro h
    have := (h .release Ex.floats 9 (Ex.frame [0xfe, 0x0b, 0, 0, 0x00, 0x00]) 0
      { world := {}, host := [.i32 7], operands := [.i32 1] } [0, 0] rfl (by decide)).1 (by decide) (by decide) (.next 6)
      (by decide +kernel)
    revert this; simp [Action.resumes]

/-- **C53, constants**: the operand of `ldc.i4.s`, `ldc.i4`, `ldc.i8` is a signed integer, that of `ldc.r4`, `ldc.r8` the
bits of a floating-point number. -/
theorem C53_constants :
    (∀ x : Int, Fits 8 x → HasAt fr.code ip (0x1f :: intBytes 1 x) → step cfg ops tf fr ip v =
      (.ok (.next (ip + 2)), { v with operands := .i32 (BitVec.ofInt 32 x) :: v.operands })) ∧
    (∀ x : Int, Fits 32 x → HasAt fr.code ip (0x20 :: intBytes 4 x) → step cfg ops tf fr ip v =
      (.ok (.next (ip + 5)), { v with operands := .i32 (BitVec.ofInt 32 x) :: v.operands })) ∧
    (∀ x : Int, Fits 64 x → HasAt fr.code ip (0x21 :: intBytes 8 x) → step cfg ops tf fr ip v =
      (.ok (.next (ip + 9)), { v with operands := .i64 (BitVec.ofInt 64 x) :: v.operands })) ∧
    (∀ x : BitVec 32, HasAt fr.code ip (0x22 :: leBytes 4 x.toNat) → step cfg ops tf fr ip v =
      (.ok (.next (ip + 5)), { v with operands := .f32 x :: v.operands })) ∧
    (∀ x : BitVec 64, HasAt fr.code ip (0x23 :: leBytes 8 x.toNat) → step cfg ops tf fr ip v =
      (.ok (.next (ip + 9)), { v with operands := .f64 x :: v.operands })) := by
  refine ⟨fun x hx hc => ?_, fun x hx hc => ?_, fun x hx hc => ?_, fun x hc => ?_, fun x hc => ?_⟩
  · rw [step_one hc (by decide) (op := .Ldc_I4_S) (by decide)]
    refine (immediate_ok hc.tail.fetch_intBytes v).trans ?_
    have := signExtend_ofInt (m := 8) (n := 32) hx (by decide) (by decide)
    rw [ofNat_emod 8 (0 + 1) (by decide) x, this]
  · rw [step_one hc (by decide) (op := .Ldc_I4) (by decide)]
    exact (immediate_ok hc.tail.fetch_intBytes v).trans (by rw [← ofNat_emod 32 4 (by decide) x]; rfl)
  · rw [step_one hc (by decide) (op := .Ldc_I8) (by decide)]
    exact (immediate_ok hc.tail.fetch_intBytes v).trans (by rw [← ofNat_emod 64 8 (by decide) x]; rfl)
  · rw [step_one hc (by decide) (op := .Ldc_R4) (by decide)]
    exact (immediate_ok (hc.tail.fetch_leBytes x.isLt) v).trans (by simp)
  · rw [step_one hc (by decide) (op := .Ldc_R8) (by decide)]
    exact (immediate_ok (hc.tail.fetch_leBytes x.isLt) v).trans (by simp)

example : HasAt [0x1f, 0xfe] 0 (0x1f :: intBytes 1 (-2)) ∧ Fits 8 (-2) := by decide

/-- **C53, `ldc.i4.m1` to `ldc.i4.8`**: the constant is in the opcode. -/
theorem C53_short_constants (n : Nat) (hn : n ≤ 9) (b : UInt8) (hb : b.toNat = 0x15 + n) (hc : HasAt fr.code ip [b]) :
    step cfg ops tf fr ip v =
      (.ok (.next (ip + 1)), { v with operands := .i32 (BitVec.ofInt 32 (n - 1)) :: v.operands }) := by
  obtain rfl : b = UInt8.ofNat (0x15 + n) := by
    apply UInt8.toNat_inj.1; rw [hb, UInt8.toNat_ofNat']; omega
  match n, hn with
  | 0, _ => exact step_one hc (by decide) (op := .Ldc_I4_M1) (by decide) v
  | 1, _ => exact step_one hc (by decide) (op := .Ldc_I4_0) (by decide) v
  | 2, _ => exact step_one hc (by decide) (op := .Ldc_I4_1) (by decide) v
  | 3, _ => exact step_one hc (by decide) (op := .Ldc_I4_2) (by decide) v
  | 4, _ => exact step_one hc (by decide) (op := .Ldc_I4_3) (by decide) v
  | 5, _ => exact step_one hc (by decide) (op := .Ldc_I4_4) (by decide) v
  | 6, _ => exact step_one hc (by decide) (op := .Ldc_I4_5) (by decide) v
  | 7, _ => exact step_one hc (by decide) (op := .Ldc_I4_6) (by decide) v
  | 8, _ => exact step_one hc (by decide) (op := .Ldc_I4_7) (by decide) v
  | 9, _ => exact step_one hc (by decide) (op := .Ldc_I4_8) (by decide) v

/-- **C53, `call`**: the operand is the token of the method to call. -/
theorem C53_call (t : Nat) (ht : t < 2 ^ 32) (hc : HasAt fr.code ip (0x28 :: leBytes 4 t)) :
    step cfg ops tf fr ip v = (.ok (.call ⟨t⟩ none (ip + 5)), v) := by
  rw [step_one hc (by decide) (op := .Call) (by decide)]
  show doCall fr (ip + 1) v = _
  unfold doCall
  rw [X.liftM_bind_ok (hc.tail.fetch_leBytes (n := 3) ht)]
  rfl

/-! ## C60 -/

/-- **C60, the part that holds**: an instruction of the standard that is not implemented and has a one-byte opcode ends
the call with an error with its name and its address in at least four hexadecimal digits, and changes nothing. -/
theorem C60_partial {m : String} {b : UInt8} (hm : (m, [b]) ∈ unimplemented) (hc : HasAt fr.code ip [b]) (fuel : Nat) :
    ∃ s : List Char, hexValue s = ip ∧ 4 ≤ s.length ∧
      loop cfg ops tf (fuel + 1) fr ip v = (.err (String.ofList ("Use of unimplemented instruction ".toList ++
        identifier true m.toList ++ " at IL_".toList ++ s)), v) := by
  obtain ⟨op, hop, hsh, hn⟩ := unimplemented_row hm (by
    rintro rfl; exact absurd (unimplemented_no hm) (by simp))
  refine ⟨_, hexValue_hex4 ip, length_hex4 ip, ?_⟩
  rw [loop_err (step_unimplemented hop hsh hc v), ← hn]
  congr 2
  apply String.toList_inj.1
  simp

/-- **C60 for two-byte opcodes**, which the table has except `no.`: the name is right and nothing changes, but the address
is that of the second byte. -/
theorem C60_two_bytes_partial {m : String} {b c : UInt8} (hm : (m, [b, c]) ∈ unimplemented) (hno : m ≠ "no.")
    (hc : HasAt fr.code ip [b, c]) (fuel : Nat) :
    ∃ s : List Char, hexValue s = ip + 1 ∧ 4 ≤ s.length ∧
      loop cfg ops tf (fuel + 1) fr ip v = (.err (String.ofList ("Use of unimplemented instruction ".toList ++
        identifier true m.toList ++ " at IL_".toList ++ s)), v) := by
  obtain ⟨op, hop, hsh, hn⟩ := unimplemented_row hm hno
  refine ⟨_, hexValue_hex4 (ip + 1), length_hex4 (ip + 1), ?_⟩
  rw [loop_err (step_unimplemented hop hsh hc v), ← hn]
  congr 2
  apply String.toList_inj.1
  simp

example : ("switch", [0x45]) ∈ unimplemented ∧ ("sizeof", [0xfe, 0x1c]) ∈ unimplemented := by decide

/-- **C60 fails** for `no.`, which stops the program, and for the reported address of two-byte opcodes. -/
theorem C60_refuted :
    (loop .release Ex.floats 9 1 (Ex.frame [0xfe, 0x19, 0x01]) 0 (Ex.machine [])).1 = .panic ∧
    (loop .release Ex.floats 9 1 (Ex.frame [0xfe, 0x1c]) 0 (Ex.machine [])).1 =
      .err "Use of unimplemented instruction Sizeof at IL_0001" := by
  decide +kernel

/-! ## C65 -/

/-- The full claim C65: if executing an instruction has undefined behaviour, that is not because of the end of the code.
It is false: see `C65_refuted`. -/
def C65_claim : Prop :=
  ∀ (cfg : Cfg) (ops : FloatOps) (tf : Nat) (fr : Frame) (ip : Nat) (v : VM), (step cfg ops tf fr ip v).1 = .ub →
    ∀ more : Bytes, (step cfg ops tf { fr with code := fr.code ++ more } ip v).1 = .ub

/-- **C65 fails** for code that ends inside an instruction, and for the complete method `ldarg 0; ret`. -/
theorem C65_refuted : ¬ C65_claim ∧
    (step .release Ex.floats 9 (Ex.frame [0xfe, 0x09, 0x00, 0x00, 0x2a]) 0 { world := {}, host := [.i32 7] }).1 = .ub := by
  refine ⟨fun h => ?_, by decide +kernel⟩
  have := h .release Ex.floats 9 (Ex.frame [0x20]) 0 (Ex.machine []) (by decide +kernel) [1, 2, 3, 4]
  revert this; decide +kernel

/-- **C65, the part that holds**: executing code whose control flow stays within complete instructions (other than `ldarg`
and `starg` with two-byte indices) does not depend on what follows the code: not the result, not the state, for any number
of instructions and calls. -/
theorem C65_partial {S : Nat → Prop}
    (hS : ClosedCode (encodings.filter fun e => e.mnemonic ≠ "ldarg" ∧ e.mnemonic ≠ "starg") fr.code S)
    (hl : fr.code.length < 2 ^ 62) (hip : S ip) (fuel : Nat) (more : Bytes) :
    loop cfg ops tf fuel fr ip v = loop cfg ops tf fuel { fr with code := fr.code ++ more } ip v := by
  induction fuel generalizing ip v with
  | zero => rfl
  | succ fuel ih =>
    obtain ⟨hstep, hsucc⟩ := closed_step (cfg := cfg) (ops := ops) (tf := tf) (v := v) hS hl hip more
    rw [loop_succ, loop_succ, ← hstep]
    rcases hr : step cfg ops tf fr ip v with ⟨r, v1⟩
    rw [hr] at hsucc
    cases r with
    | ok a =>
      cases a with
      | next n => exact ih (hsucc _ n rfl rfl)
      | ret x => rfl
      | call t after n =>
        have hn := hsucc _ n rfl rfl
        have hc : callMethod cfg (loop cfg ops tf fuel) fr t =
          callMethod cfg (loop cfg ops tf fuel) { fr with code := fr.code ++ more } t := rfl
        simp only [hc]
        refine congrFun (X.bind_congr' fun _ => ?_) v1
        have hl : loop cfg ops tf fuel fr n = loop cfg ops tf fuel { fr with code := fr.code ++ more } n :=
          funext fun _ => ih hn
        rw [hl]
    | _ => rfl

/-- `ldc.i4.2; br.s +0; pop; ret` -/
example : ClosedCode (encodings.filter fun e => e.mnemonic ≠ "ldarg" ∧ e.mnemonic ≠ "starg")
    [0x18, 0x2b, 0x00, 0x26, 0x2a] (· ∈ [0, 1, 3, 4]) := by
  intro ip hip
  simp only [List.mem_cons, List.not_mem_nil, or_false] at hip
  rcases hip with rfl | rfl | rfl | rfl
  · exact ⟨⟨"ldc.i4.2", [0x18], .none⟩, by decide, [], rfl, by decide, by decide, by simp⟩
  · exact ⟨⟨"br.s", [0x2b], .target8⟩, by decide, [0x00], rfl, by decide, by decide, fun _ => ⟨0, 3, by decide⟩⟩
  · exact ⟨⟨"pop", [0x26], .none⟩, by decide, [], rfl, by decide, by decide, by simp⟩
  · exact ⟨⟨"ret", [0x2a], .none⟩, by decide, [], rfl, by decide, by decide, by simp⟩

end Clr
