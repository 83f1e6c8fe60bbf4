import Verif.Lemmas.Framed
/-! # Programs checked by depths of the evaluation stack -/

namespace Clr

variable {cfg : Cfg} {ops : FloatOps} {tf fuel : Nat} {fr : Frame} {ip : Nat} {v v' : VM} {w : World}

/-- The number of results of a method: native functions have none. -/
def Returns (w : World) (m : MethodRec) (k : Nat) : Prop :=
  (∃ f, m.impl = .internal f ∧ k = 0) ∨ (∃ body, m.impl = .il body ∧ (k = 0 ∧ IsVoid w m ∨ k = 1 ∧ IsValue w m))

/-- The instructions whose encodings the interpreter follows. -/
def rightEncodings : List Encoding := encodings.filter fun e => e.mnemonic ≠ "ldarg" ∧ e.mnemonic ≠ "starg"

/-- The shapes in `sig` are those of methods of the program. -/
def Resolves (cfg : Cfg) (w : World) (good : MethodRec → Prop) (asm : AssemblyRec) (sig : Nat → Option CallShape) : Prop :=
  ∀ t s, sig t = some s → ∃ m, asm.resolveMethod cfg ⟨t⟩ = .ok (some m) ∧ good m ∧ m.params.length = s.params ∧
    m.isStatic = !s.this ∧ Returns w m s.results

/-- A program: a set of methods that call only each other, with stacks that are balanced. -/
def Program (cfg : Cfg) (w : World) (good : MethodRec → Prop) : Prop :=
  ∀ m, good m → ∀ body, m.impl = .il body → body.code.length < 2 ^ 62 ∧ ∃ t asm sig S k,
    w.types[m.declaringType]? = some t ∧ w.assemblies.find? (·.id = t.assembly) = some asm ∧ Returns w m k ∧
    Resolves cfg w good asm sig ∧ Balanced rightEncodings sig k body.code S ∧ S 0 0

theorem effects_ok : (encodings.filter Encoding.isRight).all (fun e =>
    stackMoves.all (fun r => r.1 ≠ e.mnemonic || (decodeBytes e.opcode).bind Op.effect = some r.2) &&
    (e.mnemonic ≠ "call" || e.opcode = [0x28]) && (e.mnemonic ≠ "newobj" || e.opcode = [0x73])) = true := by decide +kernel

/-- The state of a frame between instructions. -/
def GoodFrame (cfg : Cfg) (w : World) (good : MethodRec → Prop) (fr : Frame) (S : Nat → Nat → Prop) (k : Nat) : Prop :=
  fr.code.length < 2 ^ 62 ∧ (k = 0 ∧ IsVoid w fr.method ∨ k = 1 ∧ IsValue w fr.method) ∧
    ∃ sig, Resolves cfg w good fr.assembly sig ∧ Balanced rightEncodings sig k fr.code S

/-- What a step does to the depth. -/
inductive Follows (cfg : Cfg) (w : World) (good : MethodRec → Prop) (asm : AssemblyRec) (S : Nat → Nat → Prop) (k : Nat) :
    Action → Nat → Prop
  | next {n m} : S n m → Follows cfg w good asm S k (.next n) m
  | ret {r : Option Value} : r.isSome = decide (k = 1) → Follows cfg w good asm S k (.ret r) 0
  | call {t : Token} {m : MethodRec} {n d j : Nat} : asm.resolveMethod cfg t = .ok (some m) → good m → Returns w m j →
      S n (d + j) → Follows cfg w good asm S k (.call t none n) (d + m.slots)
  | new {t : Token} {m : MethodRec} {n d : Nat} {o : Value} : asm.resolveMethod cfg t = .ok (some m) → good m →
      Returns w m 0 → S n (d + 1) → Follows cfg w good asm S k (.call t (some o) n) (d + m.slots)

theorem arrayType_evolves (e : Nat) (w1 : World) (h : Evolves w w1) : Evolves w (arrayType cfg e w1).2 := by
  have := ((Keeps.arrayType (L := 0) (H := False) (P := False) cfg e).run ({ world := w1 } : VM) (Nat.zero_le _)).world
  exact h.trans this

theorem output_evolves (s : List Char) (w1 : World) (h : Evolves w w1) :
    Evolves w { w1 with output := w1.output ++ s } :=
  h.trans ⟨List.prefix_refl _, rfl, rfl, List.prefix_append _ _, fun _ _ => rfl, fun _ _ h => h⟩

theorem right_isRight {e : Encoding} (h : e ∈ rightEncodings) : e ∈ encodings ∧ e.isRight = true := by
  obtain ⟨h1, h2⟩ := List.mem_filter.1 h
  exact ⟨h1, by simpa [Encoding.isRight] using h2⟩

theorem Balanced.lt {sig : Nat → Option CallShape} {k : Nat} {code : Bytes} {S : Nat → Nat → Prop}
    (hS : Balanced rightEncodings sig k code S) {t d : Nat} (h : S t d) : t < code.length := by
  obtain ⟨e, he, arg, -, hc, -⟩ := hS t d h
  obtain ⟨h1, h2⟩ := right_isRight he
  have hne : e.opcode ≠ [] := by
    intro h0
    obtain ⟨op, hop, -⟩ := row_ok h1 h2
    rw [h0] at hop; cases hop
  have := hc.left.le hne
  have := List.length_pos_iff.2 hne
  omega

theorem step_framed {good : MethodRec → Prop} {S : Nat → Nat → Prop} {k : Nat} (hfr : GoodFrame cfg w good fr S k) {d : Nat}
    (hs : S ip d) : Framed (Evolves w) d (step cfg ops tf fr ip) (Follows cfg w good fr.assembly S k) := by
  obtain ⟨hl, hk, sig, hsig, hS⟩ := hfr
  obtain ⟨e, he, arg, harg, hc, hcase⟩ := hS ip d hs
  obtain ⟨he, hr'⟩ := right_isRight he
  obtain ⟨op, hop, hsh⟩ := row_ok he hr'
  have hmn := List.all_eq_true.1 mnemonics_ok e (List.mem_filter.2 ⟨he, hr'⟩)
  simp only [hop, Option.some.injEq, Bool.and_eq_true, Bool.or_eq_true, decide_eq_true_eq, ne_eq] at hmn
  have hef := List.all_eq_true.1 effects_ok e (List.mem_filter.2 ⟨he, hr'⟩)
  simp only [hop, Option.bind_some, Bool.and_eq_true, Bool.or_eq_true, decide_eq_true_eq, ne_eq, List.all_eq_true] at hef
  have hstep : step cfg ops tf fr ip = exec cfg ops tf fr op (ip + e.opcode.length) :=
    funext fun v => step_of_fetch (fetchOp_of hop hc.left) v
  rw [hstep]
  rcases hcase with ⟨hm, rfl⟩ | ⟨hm, t, s, ht, rfl, hst, hle, hn⟩ | ⟨hm, t, n, ht, rfl, hst, hle, hn⟩ |
    ⟨p, q, hpq, hle, hnext, htgt⟩
  · obtain rfl : op = .Ret := by simpa [hm] using hmn.1.1
    rcases hk with ⟨rfl, hv⟩ | ⟨rfl, hv⟩
    · exact (Framed.doRet_void fun w' h => hv.evolves h).weaken fun a m h => by
        obtain ⟨rfl, rfl⟩ := h; exact .ret rfl
    · exact (Framed.doRet_value (k := 0) fun w' h => hv.evolves h).weaken fun a m h => by
        obtain ⟨⟨x, rfl⟩, rfl⟩ := h; exact .ret rfl
  · have ho : e.opcode = [0x28] := by simpa [hm] using hef.1.2
    rw [ho] at hop hc ⊢
    obtain rfl : op = .Call := by
      have : decodeBytes [0x28] = some .Call := by decide +kernel
      rw [this] at hop; cases hop; rfl
    obtain ⟨m, hres, hg, hp, hst', hret⟩ := hsig t s hst
    have hsl : m.slots = s.taken := by
      unfold MethodRec.slots CallShape.taken
      rw [hst', hp]; cases s.this <;> rfl
    show Framed _ _ (doCall fr (ip + 1)) _
    unfold doCall
    refine Framed.lift_bind (hc.tail.fetch_leBytes (n := 3) ht) (Framed.pure ?_)
    have := Follows.call (k := k) hres hg hret hn
    rw [hsl, Nat.sub_add_cancel hle] at this
    exact this
  · have ho : e.opcode = [0x73] := by simpa [hm] using hef.2
    rw [ho] at hop hc ⊢
    obtain rfl : op = .Newobj := by
      have : decodeBytes [0x73] = some .Newobj := by decide +kernel
      rw [this] at hop; cases hop; rfl
    obtain ⟨m, hres, hg, hp, hst', hret⟩ := hsig t _ hst
    have hsl : m.slots = n + 1 := by
      unfold MethodRec.slots
      rw [hst', hp]; rfl
    simp only at hp
    show Framed _ _ (doNewobj cfg tf fr (ip + 1)) _
    unfold doNewobj
    refine Framed.lift_bind (hc.tail.fetch_leBytes (n := 3) ht) (Framed.lift_bind hres (Framed.lift_bind rfl ?_))
    refine Framed.bind (Framed.allocObject _) fun o _ h => ?_
    rw [h]
    obtain ⟨d', rfl⟩ : ∃ d', d = d' + n := ⟨d - n, by omega⟩
    rw [Nat.add_sub_cancel] at hn
    rw [hp]
    refine Framed.bind (Framed.insertBelow n _) fun _ _ h => ?_
    subst h
    have := Follows.new (k := k) (o := .object o) hres hg hret hn
    rw [hsl, ← Nat.add_assoc] at this
    exact Framed.pure this
  · have hpe : op.effect = some (p, q) := by
      rcases hef.1.1 _ hpq with h | h
      · exact absurd rfl h
      · exact h
    obtain ⟨d', rfl⟩ : ∃ d', d = d' + p := ⟨d - p, by omega⟩
    rw [Nat.add_sub_cancel] at hnext htgt
    have hf := exec_framed (cfg := cfg) (ops := ops) (tf := tf) (fr := fr) (ip := ip + e.opcode.length)
      (I := Evolves w) (fun e w1 h => arrayType_evolves e w1 h) hpe d'
    cases hb : e.operand.isTarget with
    | false =>
      rw [hb] at hsh
      refine (hf.ends (exec_ends hsh)).weaken fun a m h => ?_
      obtain ⟨⟨rfl, n, rfl⟩, h | h⟩ := h
      · cases h
      · cases h
        have h1 : e.mnemonic ≠ "br" := by
          intro h
          obtain rfl : op = .Br := by simpa [h] using hmn.1.2
          simp [Op.shape] at hsh
        have h2 : e.mnemonic ≠ "br.s" := by
          intro h
          obtain rfl : op = .Br_S := by simpa [h] using hmn.2
          simp [Op.shape] at hsh
        have := hnext h1 h2
        rw [List.length_append, harg, ← Nat.add_assoc] at this
        exact .next this
    | true =>
      rw [hb] at hsh
      have ho : e.operand = .target8 ∨ e.operand = .target32 := by
        revert hb; cases e.operand <;> simp [Operand.isTarget]
      obtain ⟨x, t, rfl, hx, htx, hSt⟩ := htgt ho
      have hpos : 0 < e.operand.size := by rcases ho with h | h <;> rw [h] <;> decide
      have htl := hS.lt hSt
      refine (hf.ends (exec_branch hsh)).weaken fun a m h => ?_
      obtain ⟨⟨rfl, n, rfl⟩, x', hfi, h⟩ := h
      rw [fetchInt_ok hpos hc.drop hx] at hfi
      cases hfi
      rcases h with h | ⟨h, hbr, hbrs⟩
      · have hj : jump (ip + e.opcode.length + e.operand.size) x = t := by
          unfold jump
          have : (((ip + e.opcode.length + e.operand.size : Nat) : Int) + x) = t := by
            rw [htx]; simp [length_intBytes]; omega
          rw [this, Int.emod_eq_of_lt (by omega) (by omega), Int.toNat_natCast]
        cases h
        rw [hj]
        exact .next hSt
      · cases h
        have := hnext (fun h => hbr (by simpa [h] using hmn.1.2)) (fun h => hbrs (by simpa [h] using hmn.2))
        rw [List.length_append, length_intBytes, ← Nat.add_assoc] at this
        exact .next this

/-- Code that runs frames of a program. -/
def RunsFramed (cfg : Cfg) (w : World) (good : MethodRec → Prop) (run : Frame → Nat → X (Option Value)) : Prop :=
  ∀ fr S k ip d, GoodFrame cfg w good fr S k → S ip d →
    Framed (Evolves w) d (run fr ip) fun r m => m = 0 ∧ r.isSome = decide (k = 1)

theorem invoke_framed {good : MethodRec → Prop} (hprog : Program cfg w good) {run : Frame → Nat → X (Option Value)}
    (hrun : RunsFramed cfg w good run) {m : MethodRec} (hm : good m) {j : Nat} (hj : Returns w m j) (params : Region) :
    Framed (Evolves w) 0 (invoke cfg run m params) fun r n => n = 0 ∧ r.isSome = decide (j = 1) := by
  unfold invoke
  rcases hj with ⟨f, hi, rfl⟩ | ⟨body, hi, hj⟩
  · rw [hi]
    exact (Framed.callNative (fun s w1 h => output_evolves s w1 h) f params).weaken fun a n h => by
      obtain ⟨rfl, rfl⟩ := h; exact ⟨rfl, rfl⟩
  · rw [hi]
    dsimp only
    obtain ⟨hl, t, asm, sig, S, k, ht, ha, hk, hsig, hS, h0⟩ := hprog m hm body hi
    obtain rfl : k = j := by
      rcases hk with ⟨f, hi', -⟩ | ⟨b, hi', hk⟩
      · rw [hi] at hi'; cases hi'
      · rcases hk with ⟨rfl, r, t, tr, h1, h2, h3, h4⟩ | ⟨rfl, r, t, tr, h1, h2, h3, h4⟩ <;>
        rcases hj with ⟨rfl, r', t', tr', h1', h2', h3', h4'⟩ | ⟨rfl, r', t', tr', h1', h2', h3', h4'⟩ <;>
        first
        | rfl
        | (rw [h1] at h1'; cases h1'; rw [h2] at h2'; cases h2'; rw [h3] at h3'; cases h3'; contradiction)
    refine Framed.view_bind (a := t) (fun v hI => ?_) ?_
    · simp only [World.typeAt, hI.typeAt ht]; rfl
    refine Framed.view_bind (a := asm) (fun v hI => ?_) ?_
    · rw [hI.assemblies, ha]; rfl
    refine Framed.bind (Framed.update_allocated fun _ => 0) fun outer _ h => ?_
    subst h
    refine Framed.finally' (Framed.bind (Framed.stackAlloc _) fun locals _ h => ?_) outer
    subst h
    exact hrun _ S k 0 0 ⟨hl, hj, sig, hsig, hS⟩ h0

theorem callMethod_framed {good : MethodRec → Prop} (hprog : Program cfg w good) {run : Frame → Nat → X (Option Value)}
    (hrun : RunsFramed cfg w good run) {m : MethodRec} (hm : good m) {j : Nat} (hj : Returns w m j) {t : Token}
    (hres : fr.assembly.resolveMethod cfg t = .ok (some m)) (d : Nat) :
    Framed (Evolves w) (d + m.slots) (callMethod cfg run fr t) fun _ n => n = d + j := by
  unfold callMethod
  refine Framed.lift_bind hres (Framed.lift_bind rfl ?_)
  simp only [← MethodRec.slots.eq_1]
  refine Framed.bind (Framed.stackAlloc _) fun r _ h => ?_
  rw [h]
  refine Framed.bind (Framed.popInto r _) fun _ _ h => ?_
  rw [h]
  have hinv := (invoke_framed hprog hrun hm hj r).up d
  rw [Nat.zero_add] at hinv
  refine Framed.bind hinv fun a n h => ?_
  obtain ⟨_, rfl, rfl, h⟩ := h
  rw [Nat.zero_add]
  have hj' : j = 0 ∨ j = 1 := by
    rcases hj with ⟨f, -, rfl⟩ | ⟨b, -, ⟨rfl, -⟩ | ⟨rfl, -⟩⟩ <;> simp
  rcases hj' with rfl | rfl
  · cases a with
    | none => exact Framed.pure rfl
    | some a => simp at h
  · cases a with
    | none => simp at h
    | some a => exact Framed.push a

theorem loop_framed {good : MethodRec → Prop} (hprog : Program cfg w good) (ops : FloatOps) (tf fuel : Nat) :
    RunsFramed cfg w good (loop cfg ops tf fuel) := by
  induction fuel with
  | zero => intro fr S k ip d _ _; exact Framed.failed fun _ h => by cases h
  | succ fuel ih =>
    intro fr S k ip d hfr hs
    rw [loop]
    refine Framed.bind (step_framed hfr hs) fun a m h => ?_
    cases h with
    | next h => exact ih fr S k _ _ hfr h
    | ret h => exact Framed.pure ⟨rfl, h⟩
    | call hres hg hj hn =>
      refine Framed.bind (callMethod_framed hprog ih hg hj hres _) fun _ _ h => ?_
      subst h
      exact ih fr S k _ _ hfr hn
    | new hres hg hj hn =>
      refine Framed.bind (callMethod_framed hprog ih hg hj hres _) fun _ _ h => ?_
      subst h
      refine Framed.bind (Framed.push _) fun _ _ h => ?_
      subst h
      exact ih fr S k _ _ hfr hn

end Clr
