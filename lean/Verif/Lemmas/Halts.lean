import Mathlib.Data.List.Perm.Subperm
import Verif.Spec.Straight
import Verif.Lemmas.Answers
import Verif.Lemmas.Nesting
import Verif.Lemmas.Wider
/-! # Programs without loops and recursion (for C116) -/

namespace Clr
open Spec

variable {cfg : Cfg} {ops : FloatOps} {tf fuel : Nat} {w : World} {fr : Frame} {ip : Nat} {v v' : VM}

/-! ## Where an instruction leads -/

/-- The bytes of an opcode. -/
def Op.bytes (op : Op) : Bytes := if op.code < 256 then [UInt8.ofNat op.code] else [0xfe, UInt8.ofNat (op.code % 256)]

theorem ops_ok : Op.all.all (fun op => op.shape = none || op = .Ldarg || op = .Starg ||
    encodings.any fun e => e.isRight && decide (e.opcode = op.bytes) && decide (decodeBytes e.opcode = some op)) = true := by decide +kernel

theorem mem_all_of {n : Nat} {op : Op} (h : Op.ofCode n = some op) : op ∈ Op.all := List.mem_of_find?_eq_some h

theorem codes_ok : Op.all.all (fun op => decide (op.code < 256 ∨ op.code / 256 = 0xfe)) = true := by decide +kernel

theorem fetchOp_bytes {code : Bytes} {ip n : Nat} {op : Op} (h : fetchOp code ip = .ok (op, n)) :
    HasAt code ip op.bytes ∧ n = ip + op.bytes.length ∧ op ∈ Op.all := by
  have two : ∀ (b c : UInt8), code[ip]? = some b → code[ip + 1]? = some c → HasAt code ip [b, c] := by
    intro b c hb hc
    obtain ⟨h1, e1⟩ := List.getElem?_eq_some_iff.mp hb
    obtain ⟨h2, e2⟩ := List.getElem?_eq_some_iff.mp hc
    rw [HasAt, List.drop_eq_getElem_cons h1, List.drop_eq_getElem_cons h2, e1, e2]
    exact ⟨_, rfl⟩
  unfold fetchOp at h
  obtain ⟨b, hb, h⟩ := Res.bind_eq_ok.1 h
  rw [unwrap_eq_ok] at hb
  split at h
  · next hb8 =>
    obtain ⟨c, hc, h⟩ := Res.bind_eq_ok.1 h
    obtain ⟨op', ho, h⟩ := Res.bind_eq_ok.1 h
    cases h
    rw [unwrap_eq_ok] at ho hc
    have hcode := ofCode_code ho
    have hm := mem_all_of ho
    have hr := List.all_eq_true.1 codes_ok _ hm
    rw [decide_eq_true_eq] at hr
    have e : b.toNat <<< 8 = 2 ^ 8 * b.toNat := by rw [Nat.shiftLeft_eq, Nat.mul_comm]
    have hor : c.toNat ||| (b.toNat <<< 8) = 2 ^ 8 * b.toNat + c.toNat := by
      rw [e, Nat.or_comm, Nat.two_pow_add_eq_or_of_lt c.toNat_lt]
    rw [hor] at hcode
    have hc8 := c.toNat_lt
    have hb254 : b.toNat = 0xfe := by omega
    have hbytes : op.bytes = [b, c] := by
      unfold Op.bytes
      rw [if_neg (by omega)]
      have h1 : (0xfe : UInt8) = b := by
        apply UInt8.toNat_inj.1; rw [hb254]; rfl
      have h2 : UInt8.ofNat (op.code % 256) = c := by
        rw [show op.code % 256 = c.toNat by omega]; exact UInt8.ofNat_toNat
      rw [h1, h2]
    rw [hbytes]
    exact ⟨two b c hb hc, rfl, hm⟩
  · obtain ⟨op', ho, h⟩ := Res.bind_eq_ok.1 h
    cases h
    rw [unwrap_eq_ok] at ho
    have hcode := ofCode_code ho
    have hbytes : op.bytes = [b] := by
      unfold Op.bytes
      rw [if_pos (by rw [hcode]; exact b.toNat_lt), hcode, UInt8.ofNat_toNat]
    rw [hbytes]
    obtain ⟨h1, e1⟩ := List.getElem?_eq_some_iff.mp hb
    refine ⟨?_, rfl, mem_all_of ho⟩
    rw [HasAt, List.drop_eq_getElem_cons h1, e1]
    exact ⟨_, rfl⟩

theorem exec_nothing {op : Op} (h : op.shape = none) {P : Action → Prop} : Ends (exec cfg ops tf fr op ip) P := by
  cases op <;> first | (exfalso; revert h; decide) | exact Ends.err

theorem intBytes_toInt {arg : Bytes} {n : Nat} (hl : arg.length = n) (hn : 0 < n) :
    arg = intBytes n (BitVec.ofNat (8 * n) (leNat arg)).toInt ∧ Fits (8 * n) (BitVec.ofNat (8 * n) (leNat arg)).toInt := by
  have h256 : (256 : Int) ^ n = ((2 ^ (8 * n) : Nat) : Int) := by
    rw [Int.natCast_pow, Int.pow_mul]; rfl
  have hx : leNat arg < 2 ^ (8 * n) := by
    have := leNat_lt arg
    rw [hl] at this
    rwa [Nat.pow_mul]
  constructor
  · unfold intBytes
    rw [BitVec.toInt_ofNat', h256, Int.bmod_emod, ← Int.natCast_emod, Nat.mod_eq_of_lt hx, Int.toNat_natCast]
    subst hl
    exact (leBytes_leNat arg).symm
  · refine ⟨BitVec.le_toInt _, ?_⟩
    exact BitVec.toInt_lt

/-- An instruction leads to where its bytes say, or out of the code. -/
theorem step_passes {a : Action} {n : Nat} (hshort : ¬ HasAt fr.code ip [0xfe, 0x09] ∧ ¬ HasAt fr.code ip [0xfe, 0x0b])
    (hlen : fr.code.length < 2 ^ 62) (h : (step cfg ops tf fr ip v).1 = .ok a) (hn : a.resumes = some n) :
    Passes fr.code ip n ∨ fr.code.length ≤ n := by
  cases hf : fetchOp fr.code ip with
  | ok r =>
    obtain ⟨op, i1⟩ := r
    rw [step_of_fetch hf] at h
    obtain ⟨hb, rfl, hm⟩ := fetchOp_bytes hf
    have hrow := List.all_eq_true.1 ops_ok _ hm
    cases hsh : op.shape with
    | none => exact absurd h (fun h => exec_nothing (P := fun _ => False) hsh v a h)
    | some s =>
      obtain ⟨k, tgt⟩ := s
      have h1 : op ≠ .Ldarg := by rintro rfl; exact hshort.1 hb
      have h2 : op ≠ .Starg := by rintro rfl; exact hshort.2 hb
      simp only [hsh, h1, h2, reduceCtorEq, decide_false, Bool.false_or, List.any_eq_true, Bool.and_eq_true, decide_eq_true_eq] at hrow
      obtain ⟨e, he, ⟨hr, ho⟩, hd⟩ := hrow
      obtain ⟨op', hop', hsh'⟩ := row_ok he hr
      cases hd.symm.trans hop'
      cases hsh.symm.trans hsh'
      have hmn := List.all_eq_true.1 mnemonics_ok e (List.mem_filter.2 ⟨he, hr⟩)
      simp only [hd, Option.some.injEq, Bool.and_eq_true, Bool.or_eq_true, decide_eq_true_eq, ne_eq] at hmn
      have hfull : ip + op.bytes.length + e.operand.size ≤ fr.code.length →
          let arg := (fr.code.drop (ip + op.bytes.length)).take e.operand.size
          arg.length = e.operand.size ∧ HasAt fr.code ip (e.opcode ++ arg) := by
        intro hle
        refine ⟨by simp; omega, ?_⟩
        obtain ⟨t, ht⟩ := hb
        rw [ho, HasAt, ← ht, List.prefix_append_right_inj]
        have : fr.code.drop (ip + op.bytes.length) = t := by
          rw [← List.drop_drop, ← ht, List.drop_left]
        rw [this]
        exact List.take_prefix _ _
      cases hb : e.operand.isTarget with
      | false =>
        rw [hb] at hsh
        rcases exec_ends (ops := ops) hsh v a h with h' | h'
        · rw [h'] at hn; cases hn
        · rw [h', Option.some.injEq] at hn
          subst hn
          rcases Nat.lt_or_ge fr.code.length (ip + op.bytes.length + e.operand.size) with hlt | hge
          · exact .inr (by omega)
          · obtain ⟨g1, g2⟩ := hfull hge
            refine .inl ⟨e, he, _, g1, g2, .inl ⟨?_, ?_, ?_, ?_⟩⟩
            · intro hret
              obtain rfl : op = .Ret := by simpa [hret] using hmn.1.1
              rw [exec_ret v a h] at h'; cases h'
            · intro h
              obtain rfl : op = .Br := by simpa [h] using hmn.1.2
              simp [Op.shape] at hsh
            · intro h
              obtain rfl : op = .Br_S := by simpa [h] using hmn.2
              simp [Op.shape] at hsh
            · rw [List.length_append, g1, ho]; omega
      | true =>
        rw [hb] at hsh
        have hot : e.operand = .target8 ∨ e.operand = .target32 := by
          revert hb; cases e.operand <;> simp [Operand.isTarget]
        have hpos : 0 < e.operand.size := by rcases hot with h | h <;> rw [h] <;> decide
        obtain ⟨d, hfi, hact⟩ := exec_branch hsh v a h
        unfold fetchInt at hfi
        obtain ⟨x, hx, hfi⟩ := Res.bind_eq_ok.1 hfi
        unfold fetch at hx
        split at hx
        · next hle =>
          cases hx
          cases hfi
          obtain ⟨g1, g2⟩ := hfull hle
          obtain ⟨i1, i2⟩ := intBytes_toInt g1 hpos
          rcases hact with rfl | ⟨rfl, hbr, hbrs⟩
          · simp only [Action.resumes, Option.some.injEq] at hn
            subst hn
            generalize hD : (BitVec.ofNat (8 * e.operand.size) (leNat ((fr.code.drop (ip + op.bytes.length)).take e.operand.size))).toInt = D at *
            have hD1 : -2 ^ 31 ≤ D ∧ D < 2 ^ 31 := by
              rcases hot with h | h <;> rw [h] at i2 <;> (unfold Fits at i2; simp only [Operand.size] at i2; omega)
            unfold jump
            rcases Int.lt_or_le (((ip + op.bytes.length + e.operand.size : Nat) : Int) + D) 0 with hneg | hnn
            · right
              have : (((ip + op.bytes.length + e.operand.size : Nat) : Int) + D) % 2 ^ 64 = ((ip + op.bytes.length + e.operand.size : Nat) : Int) + D + 2 ^ 64 := by
                omega
              rw [this]
              omega
            · left
              refine ⟨e, he, _, g1, g2, .inr ⟨hot, D, i1, i2, ?_⟩⟩
              rw [Int.emod_eq_of_lt hnn (by omega), Int.toNat_of_nonneg hnn, List.length_append, g1, ho]
              omega
          · simp only [Action.resumes, Option.some.injEq] at hn
            subst hn
            refine .inl ⟨e, he, _, g1, g2, .inl ⟨?_, ?_, ?_, ?_⟩⟩
            · intro hret
              obtain rfl : op = .Ret := by simpa [hret] using hmn.1.1
              simp [Op.shape] at hsh
            · intro h; exact hbr (by simpa [h] using hmn.1.2)
            · intro h; exact hbrs (by simpa [h] using hmn.2)
            · rw [List.length_append, g1, ho]; omega
        · cases hx
  | _ =>
    unfold step at h
    rw [X.bind_run, hf] at h
    cases h

/-! ## Instructions come to an end -/

/-- The sizes of all types are found with `tf` nested calls. -/
def SizesIn (cfg : Cfg) (tf : Nat) (w : World) : Prop := ∀ t < w.types.length, ∃ s, typeSize cfg w tf t = .ok s

theorem chain_answers {α β : Type} {x : X α} {f : α → X β} {v : VM} (hx : (x v).1 ≠ .timeout)
    (hf : ∀ a v', x v = (.ok a, v') → (f a v').1 ≠ .timeout) : ((x >>= f) v).1 ≠ .timeout := by
  rw [X.bind_run]
  rcases hr : x v with ⟨r, v1⟩
  rw [hr] at hx
  cases r with
  | ok a => exact hf a v1 hr
  | timeout => exact absurd rfl hx
  | _ => exact nofun

theorem raise_answers {α β : Type} {x : Res α} {f : α → X β} {v : VM} (hx : x ≠ .timeout) (hf : ∀ a, x = .ok a → (f a v).1 ≠ .timeout) :
    (((liftM x : X α) >>= f) v).1 ≠ .timeout :=
  chain_answers hx fun a v' h => by
    have h1 : x = .ok a := congrArg Prod.fst h
    have h2 : v = v' := congrArg Prod.snd h
    subst h2
    exact hf a h1

theorem size_answers (hw : Reached cfg w) (hs : SizesIn cfg tf w) (hl : Later cfg w v.world) {t : Nat} (ht : t < w.types.length) :
    typeSize cfg v.world tf t ≠ .timeout := by
  obtain ⟨s, h⟩ := hs t ht
  rw [(hl.wider hw).typeSize_ok h]
  exact nofun

theorem step_answers (hw : Reached cfg w) (hs : SizesIn cfg tf w) (ha : fr.assembly ∈ w.assemblies) (hl : Later cfg w v.world) :
    (step cfg ops tf fr ip v).1 ≠ .timeout := by
  cases hf : fetchOp fr.code ip with
  | ok r =>
    obtain ⟨op, n⟩ := r
    rw [step_of_fetch hf]
    by_cases h1 : op = .Newobj
    · subst h1
      show (doNewobj cfg tf fr n v).1 ≠ _
      unfold doNewobj
      refine raise_answers (inferInstance : Res.Answers _).out fun t _ => ?_
      refine raise_answers (inferInstance : Res.Answers _).out fun o ho => ?_
      refine raise_answers (inferInstance : Res.Answers _).out fun m hm => ?_
      rw [unwrap_eq_ok] at hm
      subst hm
      obtain ⟨r, hr, -⟩ := resolveMethod_declared hw ha ho
      refine chain_answers ?_ fun p v' _ => ?_
      · unfold allocObject
        refine chain_answers (size_answers hw hs hl (List.getElem?_eq_some_iff.mp hr).1) fun s v' _ => ?_
        refine X.Answers.out (x := _) (self := ?_) _
        xanswered
      · refine X.Answers.out (x := _) (self := ?_) _
        xanswered
    · by_cases h2 : op = .Newarr
      · subst h2
        show (doNewarr cfg tf fr n v).1 ≠ _
        unfold doNewarr
        refine raise_answers (inferInstance : Res.Answers _).out fun t _ => ?_
        refine raise_answers (inferInstance : Res.Answers _).out fun o ho => ?_
        refine raise_answers (inferInstance : Res.Answers _).out fun e he => ?_
        rw [unwrap_eq_ok] at he
        subst he
        have hlt : e < w.types.length := by
          have whole := C98_assemblies hw _ ha
          unfold AssemblyRec.resolveType at ho
          split at ho
          · obtain ⟨i, -, ho⟩ := Res.bind_eq_ok.1 ho
            injection ho with ho
            obtain ⟨_, h, -⟩ := assemblyOf_ok (whole.types e (List.mem_of_getElem? ho))
            exact (List.getElem?_eq_some_iff.mp h).1
          · split at ho
            · obtain ⟨i, -, ho⟩ := Res.bind_eq_ok.1 ho
              injection ho with ho
              exact whole.typeRefs e (List.mem_of_getElem? ho)
            · cases ho
        refine chain_answers ((inferInstance : X.Answers popInt).out v) fun x v1 hx => ?_
        have hl1 : Later cfg w v1.world := by
          have := (inferInstance : Advances cfg popInt).later v
          rw [hx] at this
          exact hl.trans this.later
        refine chain_answers ?_ fun p v' _ => ?_
        · unfold allocArray
          refine chain_answers (size_answers hw hs hl1 hlt) fun s v' _ => ?_
          refine X.Answers.out (x := _) (self := ?_) _
          xanswered
        · refine X.Answers.out (x := _) (self := ?_) _
          xanswered
      · exact (exec_answers h1 h2).out v
  | timeout => exact absurd hf (inferInstance : Res.Answers _).out
  | _ =>
    unfold step
    rw [X.bind_run, hf]
    exact nofun

/-! ## Methods come to an end -/

theorem loop_beyond (h : fr.code.length ≤ ip) : (loop cfg ops tf (fuel + 1) fr ip v).1 ≠ .timeout := by
  unfold loop
  refine chain_answers ?_ fun a v' hs => ?_
  all_goals
    have hstep : step cfg ops tf fr ip v = (.panic, v) := by
      unfold step fetchOp
      rw [List.getElem?_eq_none h]
      rfl
  · rw [hstep]; exact nofun
  · rw [hstep] at hs; cases hs

theorem invoke_answers {run : Frame → Nat → X (Option Value)} {m : MethodRec} {r : Region}
    (hassembly : ∀ a, v.world.assemblyOf m.declaringType = .ok a → w.assemblyOf m.declaringType = .ok a) (hl : Later cfg w v.world)
    (hrun : ∀ fr v, FrameOf w m fr → Later cfg w v.world → (run fr 0 v).1 ≠ .timeout) : (invoke cfg run m r v).1 ≠ .timeout := by
  unfold invoke
  cases hb : m.impl with
  | il body =>
    refine chain_answers (X.Answers.out (self := inferInstance) v) fun t v1 ht => ?_
    refine chain_answers (X.Answers.out (self := inferInstance) v1) fun a v2 ha => ?_
    refine chain_answers nofun fun o v3 ho => ?_
    have e1 : v1 = v := (congrArg Prod.snd ht).symm
    subst e1
    have e2 : v2 = v1 := (congrArg Prod.snd ha).symm
    subst e2
    have hasm : v2.world.assemblyOf m.declaringType = .ok a := by
      unfold World.assemblyOf
      rw [show v2.world.typeAt m.declaringType = .ok t from congrArg Prod.fst ht]
      exact congrArg Prod.fst ha
    have hw3 : v3.world = v2.world := by
      have : v3 = { v2 with allocated := 0 } := (congrArg Prod.snd ho).symm
      rw [this]
    have hin : ((do
        let locals ← stackAlloc body.locals.length
        run { method := m, assembly := a, code := body.code, locals, params := r } 0 : X (Option Value)) v3).1 ≠ .timeout := by
      refine chain_answers (X.Answers.out (self := inferInstance) v3) fun loc v4 h4 => ?_
      refine hrun _ _ ⟨⟨body, hb, rfl⟩, hassembly a hasm⟩ ?_
      have := (inferInstance : Advances cfg (stackAlloc body.locals.length)).later v3
      rw [h4] at this
      exact hl.trans (hw3 ▸ this.later)
    unfold X.finally'
    split
    · exact hin
    · exact nofun
    · exact nofun
    · exact nofun
    · next h =>
      refine absurd h (Res.Answers.out (self := ?_))
      unfold release
      answered
  | internal f => exact (inferInstance : X.Answers (callNative f r)).out v
  | none => exact nofun

theorem callMethod_answers {run : Frame → Nat → X (Option Value)} {t : Token} (hl : Later cfg w v.world)
    (hrun : ∀ m', fr.assembly.resolveMethod cfg t = .ok (some m') → ∀ r v, Later cfg w v.world → (invoke cfg run m' r v).1 ≠ .timeout) :
    (callMethod cfg run fr t v).1 ≠ .timeout := by
  unfold callMethod
  refine raise_answers (inferInstance : Res.Answers _).out fun o ho => ?_
  refine raise_answers (inferInstance : Res.Answers _).out fun m' hm => ?_
  rw [ofOption_eq_ok] at hm
  subst hm
  refine chain_answers (X.Answers.out (self := inferInstance) v) fun r v1 h1 => ?_
  have hl1 : Later cfg w v1.world := by
    have := (inferInstance : Advances cfg (stackAlloc (if m'.isStatic then m'.params.length else m'.params.length + 1))).later v
    rw [h1] at this
    exact hl.trans this.later
  refine chain_answers (X.Answers.out (self := inferInstance) v1) fun _ v2 h2 => ?_
  have hl2 : Later cfg w v2.world := by
    have := (inferInstance : Advances cfg (popInto r (if m'.isStatic then m'.params.length else m'.params.length + 1))).later v1
    rw [h2] at this
    exact hl1.trans this.later
  refine chain_answers (hrun m' ho r v2 hl2) fun o v3 h3 => ?_
  refine X.Answers.out (x := _) (self := ?_) _
  xanswered

/-- One method without loops, if the methods that it calls come to an end. -/
theorem loop_answers (hw : Reached cfg w) (hs : SizesIn cfg tf w) {m : MethodRec} {body : MethodBody} (hfr : FrameOf w m fr)
    (hb : m.impl = .il body) (hc : fr.code = body.code) (hst : NoLoops body.code) (hsh : ShortArgs body.code) (hlen : body.code.length < 2 ^ 62) {F : Nat}
    (hcalls : ∀ m', MayCall cfg w m m' → ∀ r v k, Later cfg w v.world → F ≤ k → (invoke cfg (loop cfg ops tf k) m' r v).1 ≠ .timeout) :
    ∀ (k : Nat) (seen : List Nat) (ip : Nat) (v : VM) (fuel : Nat), seen.Nodup → (∀ x ∈ seen, x < body.code.length) →
      (∀ x ∈ seen, Visits body.code x ∧ Relation.TransGen (Passes body.code) x ip) → Visits body.code ip →
      body.code.length + 1 ≤ k + seen.length → Later cfg w v.world → F + k ≤ fuel → (loop cfg ops tf fuel fr ip v).1 ≠ .timeout := by
  have hcard : ∀ seen : List Nat, seen.Nodup → (∀ x ∈ seen, x < body.code.length) → seen.length ≤ body.code.length := by
    intro seen h1 h2
    have := (h1.subperm (l₂ := List.range body.code.length) fun x hx => List.mem_range.2 (h2 x hx)).length_le
    simpa using this
  have hasm : fr.assembly ∈ w.assemblies := by
    obtain ⟨_, _, h, _⟩ := assemblyOf_ok hfr.assembly
    exact h
  intro k
  induction k with
  | zero =>
    intro seen ip v fuel h1 h2 h3 h4 h5 _ _
    have := hcard seen h1 h2
    omega
  | succ k ih =>
    intro seen ip v fuel h1 h2 h3 h4 h5 hl hfuel
    obtain ⟨f, rfl⟩ : ∃ f, fuel = f + 1 := ⟨fuel - 1, by omega⟩
    rcases Nat.lt_or_ge ip body.code.length with hip | hip
    · have hn : (ip :: seen).Nodup := by
        refine List.nodup_cons.2 ⟨fun h => ?_, h1⟩
        exact hst ip (h3 ip h).1 (h3 ip h).2
      have hlt : ∀ x ∈ ip :: seen, x < body.code.length := by
        intro x hx
        rcases List.mem_cons.1 hx with rfl | hx
        · exact hip
        · exact h2 x hx
      have hk := hcard _ hn hlt
      rw [List.length_cons] at hk
      have go : ∀ n v', (Passes body.code ip n ∨ body.code.length ≤ n) → Later cfg w v'.world →
          (loop cfg ops tf f fr n v').1 ≠ .timeout := by
        intro n v' hp hl'
        rcases hp with hp | hp
        · refine ih (ip :: seen) n v' f hn hlt (fun x hx => ?_) (h4.tail hp) (by rw [List.length_cons]; omega) hl' (by omega)
          rcases List.mem_cons.1 hx with rfl | hx
          · exact ⟨h4, .single hp⟩
          · exact ⟨(h3 x hx).1, (h3 x hx).2.tail hp⟩
        · obtain ⟨g, rfl⟩ : ∃ g, f = g + 1 := ⟨f - 1, by omega⟩
          exact loop_beyond (by rw [hc]; exact hp)
      unfold loop
      refine chain_answers (step_answers hw hs hasm hl) fun a v1 ha => ?_
      have hl1 : Later cfg w v1.world := by
        have := (inferInstance : Advances cfg (step cfg ops tf fr ip)).later v
        rw [ha] at this
        exact hl.trans this.later
      have hpass : ∀ n, a.resumes = some n → Passes body.code ip n ∨ body.code.length ≤ n := by
        intro n hn
        have := step_passes (cfg := cfg) (ops := ops) (tf := tf) (fr := fr) (ip := ip) (v := v) (a := a) (n := n)
          (by rw [hc]; exact hsh ip h4) (by rw [hc]; exact hlen) (by rw [ha]) hn
        rwa [hc] at this
      cases a with
      | next n => exact go n v1 (hpass n rfl) hl1
      | ret r => exact nofun
      | call token after n =>
        refine chain_answers ?_ fun u v2 h2' => ?_
        · refine callMethod_answers hl1 fun m' hm r v' hv' => hcalls m' ?_ r v' f hv' (by omega)
          obtain ⟨g1, g2, g3⟩ := step_call_at ha
          rw [hc] at g1 g2 g3
          have hat : ∀ b, body.code[ip]? = some b → HasAt body.code ip (b :: (body.code.drop (ip + 1)).take 4) := by
            intro b hb
            obtain ⟨q1, q2⟩ := List.getElem?_eq_some_iff.mp hb
            rw [HasAt, List.drop_eq_getElem_cons q1, q2]
            exact (List.prefix_cons_inj b).2 (List.take_prefix _ _)
          refine ⟨fr.assembly, body, ip, _, hfr.assembly, hb, h4, ?_, g1.imp (hat _) (hat _), by rw [g3]; exact hm⟩
          simp; omega
        · have hl2 : Later cfg w v2.world := by
            have := (inferInstance : Advances cfg (callMethod cfg (loop cfg ops tf f) fr token)).later v1
            rw [h2'] at this
            exact hl1.trans this.later
          cases after with
          | some a =>
            refine chain_answers ((inferInstance : X.Answers (push a)).out v2) fun _ v3 h3' => ?_
            refine go n v3 (hpass n rfl) ?_
            have := (inferInstance : Advances cfg (push a)).later v2
            rw [h3'] at this
            exact hl2.trans this.later
          | none => exact go n v2 (hpass n rfl) hl2
    · exact loop_beyond (by rw [hc]; exact hip)

theorem MayCall.declared (hw : Reached cfg w) {m m' : MethodRec} (h : MayCall cfg w m m') :
    ∃ r, w.types[m'.declaringType]? = some r ∧ m' ∈ r.methods := by
  obtain ⟨a, _, _, _, ha, -, -, -, -, h⟩ := h
  obtain ⟨_, _, h2, _⟩ := assemblyOf_ok ha
  exact resolveMethod_declared hw h2 h

/-- A method without loops and recursion. -/
theorem invoke_terminating (hw : Reached cfg w) (hs : SizesIn cfg tf w) {L : Nat} {m : MethodRec} (hL : L < 2 ^ 62) (hm : Terminating cfg w L m)
    (hsh : ∀ x body, Relation.ReflTransGen (MayCall cfg w) m x → x.impl = .il body → ShortArgs body.code) :
    ∀ (j : Nat) (ms : List MethodRec) (x : MethodRec) (r : Region) (v : VM) (fuel : Nat), ms.Nodup → ms ⊆ w.types.flatMap (·.methods) →
      (∀ y ∈ ms, Relation.ReflTransGen (MayCall cfg w) y x) → Relation.ReflTransGen (MayCall cfg w) m x →
      (w.types.flatMap (·.methods)).length + 1 ≤ j + ms.length → Later cfg w v.world →
      (∀ a, v.world.assemblyOf x.declaringType = .ok a → w.assemblyOf x.declaringType = .ok a) →
      j * (L + 1) ≤ fuel → (invoke cfg (loop cfg ops tf fuel) x r v).1 ≠ .timeout := by
  intro j
  induction j with
  | zero =>
    intro ms x r v fuel h1 h2 _ _ h5 _ _ _
    have := (h1.subperm h2).length_le
    omega
  | succ j ih =>
    intro ms x r v fuel h1 h2 h3 h4 h5 hl hasm hfuel
    refine invoke_answers hasm hl fun fr v' hfr hl' => ?_
    obtain ⟨body, hb, hc⟩ := hfr.il
    have hlen := hm.length x body h4 hb
    rw [Nat.add_mul, Nat.one_mul] at hfuel
    refine loop_answers hw hs hfr hb hc (hm.loops x body h4 hb) (hsh x body h4 hb) (by omega) (F := j * (L + 1)) (fun m' hcall r v k hl hk => ?_) (body.code.length + 1) [] 0 v' fuel
      List.nodup_nil nofun nofun .refl (by simp) hl' (by omega)
    obtain ⟨rec, g1, g2⟩ := MayCall.declared hw hcall
    refine ih (m' :: ms) m' r v k (List.nodup_cons.2 ⟨fun h => ?_, h1⟩) ?_ ?_ (h4.tail hcall) (by rw [List.length_cons]; omega) hl ?_ hk
    · refine hm.recursion m' (h4.tail hcall) ?_
      exact Relation.TransGen.tail' (h3 m' h) hcall
    · intro y hy
      rcases List.mem_cons.1 hy with rfl | hy
      · exact List.mem_flatMap.2 ⟨rec, List.mem_of_getElem? g1, g2⟩
      · exact h2 hy
    · intro y hy
      rcases List.mem_cons.1 hy with rfl | hy
      · exact .refl
      · exact (h3 y hy).tail hcall
    · exact fun a ha => assemblyOf_before hw (List.getElem?_eq_some_iff.mp g1).1 hl ha

end Clr
