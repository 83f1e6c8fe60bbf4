import Verif.Spec.Abstract
import Verif.Props.Lang
import Verif.Lemmas.Sound
/-! # The interpreter follows the abstract machine -/

namespace Clr.Abs

variable {cfg : Cfg} {ops : FloatOps} {tf fuel : Nat} {fr : Frame} {ip k : Nat} {v v' : VM} {rest : List Value}
  {ok : Bytes → Prop}

/-- The frame and the state of the interpreter represent an activation; `rest` is the part of the evaluation stack that
belongs to callers, and there is room for `k` more variables. -/
structure Sim (fr : Frame) (v : VM) (rest : List Value) (k : Nat) (σ : Act) : Prop where
  stack : v.operands = σ.stack.map .i32 ++ rest
  locals : Slots v fr.locals (fun a o => ∀ x, o = some x → a = .i32 x) σ.locals
  args : Slots v fr.params (fun a x => a = .i32 x) σ.args
  apart : Apart fr.locals fr.params
  room : 16 * (v.stack.slots.length + k) ≤ v.stack.cap
  cap : v.stack.cap < 2 ^ 62

/-- What the instructions of integer programs leave alone. -/
structure Same (v v' : VM) : Prop where
  world : v'.world = v.world
  gen : v'.stack.gen = v.stack.gen
  cap : v'.stack.cap = v.stack.cap

theorem Same.refl (v : VM) : Same v v := ⟨rfl, rfl, rfl⟩

theorem Same.trans {v1 : VM} (h : Same v v1) (h' : Same v1 v') : Same v v' :=
  ⟨h'.world.trans h.world, h'.gen.trans h.gen, h'.cap.trans h.cap⟩

/-- Instructions that change the evaluation stack only. -/
theorem Sim.operands {σ : Act} (h : Sim fr v rest k σ) (s : List (BitVec 32)) :
    Sim fr { v with operands := s.map .i32 ++ rest } rest k { σ with stack := s } :=
  ⟨rfl, h.locals.same rfl rfl fun _ _ h => h, h.args.same rfl rfl fun _ _ h => h, h.apart, h.room, h.cap⟩

theorem _root_.Clr.Slots.put_apart {β : Type} {r s : Region} {R : Value → β → Prop} {l : List β} {i : Nat} {a : Value}
    (h : Slots v s R l) (hi : Usable v r i) (hap : Apart r s) : Slots (r.put v a i) s R l := by
  refine ⟨fun j hj => (h.usable j hj).put, fun j t ht => ?_⟩
  obtain ⟨b, h1, h2⟩ := h.holds j t ht
  exact ⟨b, by rw [at_put_apart hi (h.usable j (List.getElem?_eq_some_iff.1 ht).1) hap]; exact h1, h2⟩

theorem _root_.Clr.Slots.put_same {β : Type} {r : Region} {R : Value → β → Prop} {l : List β} {i : Nat} {a : Value} {x : β}
    (h : Slots v r R l) (hi : i < l.length) (ha : R a x) : Slots (r.put v a i) r R (l.set i x) := by
  have hu := h.usable i hi
  refine ⟨fun j hj => (h.usable j (by simpa using hj)).put, fun j t ht => ?_⟩
  have hj : j < l.length := by simpa using (List.getElem?_eq_some_iff.1 ht).1
  rw [at_put_same hu (h.usable j hj)]
  rw [List.getElem?_set] at ht
  by_cases hij : i = j
  · rw [if_pos hij] at ht ⊢
    rw [if_pos hi] at ht
    cases ht
    exact ⟨a, rfl, ha⟩
  · rw [if_neg hij] at ht ⊢
    exact h.holds j t ht

theorem apart_symm {r s : Region} (h : Apart r s) : Apart s r := by
  cases r <;> cases s <;> simp only [Apart] at h ⊢
  exact h.symm

theorem same_put (r : Region) (i : Nat) (a : Value) : Same v (r.put v a i) := by
  cases r <;> exact ⟨rfl, rfl, rfl⟩

theorem put_length (r : Region) (i : Nat) (a : Value) : (r.put v a i).stack.slots.length = v.stack.slots.length := by
  cases r <;> simp [Region.put]

theorem put_operands (r : Region) (i : Nat) (a : Value) : (r.put v a i).operands = v.operands := by
  cases r <;> rfl

/-- A step of the interpreter as the machine makes it. -/
def Follows (cfg : Cfg) (ops : FloatOps) (tf : Nat) (fr : Frame) (ip : Nat) (v : VM) (rest : List Value) (k next : Nat) :
    Outcome (Act × Int) → Prop
  | .done (σ', d) => ∀ ip' : Nat, (ip' : Int) = next + d →
      ∃ v', step cfg ops tf fr ip v = (.ok (.next ip'), v') ∧ Same v v' ∧ Sim fr v' rest k σ'
  | .stops => (step cfg ops tf fr ip v).1 = .panic
  | _ => True

theorem Follows.pushes {σ : Act} {next : Nat} (h : Sim fr v rest k σ) {s : List (BitVec 32)}
    (hs : step cfg ops tf fr ip v = (.ok (.next next), { v with operands := s.map .i32 ++ rest })) :
    Follows cfg ops tf fr ip v rest k next (.done ({ σ with stack := s }, 0)) := by
  intro ip' hip
  obtain rfl : ip' = next := by omega
  exact ⟨_, hs, ⟨rfl, rfl, rfl⟩, h.operands s⟩

theorem binary_follows {σ : Act} {next : Nat} {f : BitVec 32 → BitVec 32 → Outcome (BitVec 32)} (h : Sim fr v rest k σ)
    (hf : ∀ (a b : BitVec 32) (s : List (BitVec 32)), v.operands = .i32 b :: .i32 a :: (s.map .i32 ++ rest) → match f a b with
      | .done r => step cfg ops tf fr ip v = (.ok (.next next), { v with operands := .i32 r :: (s.map .i32 ++ rest) })
      | .stops => (step cfg ops tf fr ip v).1 = .panic
      | _ => True) : Follows cfg ops tf fr ip v rest k next (σ.binary f) := by
  have hst := h.stack
  unfold Act.binary
  match hs : σ.stack with
  | [] => trivial
  | [_] => trivial
  | b :: a :: s =>
    rw [hs] at hst
    have := hf a b s (by rw [hst]; rfl)
    dsimp only
    cases hr : f a b with
    | done r => rw [hr] at this; exact .pushes h (s := r :: s) this
    | stops => rw [hr] at this; exact this
    | undefined => trivial
    | unfinished => trivial

theorem unary_follows {σ : Act} {next : Nat} {f : BitVec 32 → Outcome (BitVec 32)} (h : Sim fr v rest k σ)
    (hf : ∀ (a : BitVec 32) (s : List (BitVec 32)), v.operands = .i32 a :: (s.map .i32 ++ rest) → match f a with
      | .done r => step cfg ops tf fr ip v = (.ok (.next next), { v with operands := .i32 r :: (s.map .i32 ++ rest) })
      | .stops => (step cfg ops tf fr ip v).1 = .panic
      | _ => True) : Follows cfg ops tf fr ip v rest k next (σ.unary f) := by
  have hst := h.stack
  unfold Act.unary
  match hs : σ.stack with
  | [] => trivial
  | a :: s =>
    rw [hs] at hst
    have := hf a s (by rw [hst]; rfl)
    dsimp only
    cases hr : f a with
    | done r => rw [hr] at this; exact .pushes h (s := r :: s) this
    | stops => rw [hr] at this; exact this
    | undefined => trivial
    | unfinished => trivial

/-- One instruction. -/
theorem step_follows (hok : ∀ l, ok l → ¬ Wide l) (hl : fr.code.length < 2 ^ 62) {σ : Act} {i : Instr} {c : Bytes}
    (he : Enc ok i c) (hc : HasAt fr.code ip c) (h : Sim fr v rest k σ) :
    Follows cfg ops tf fr ip v rest k (ip + c.length) (i.effect cfg.checks σ) := by
  have hst := h.stack
  cases he with
  | nop =>
    refine .pushes h (s := σ.stack) ((step_one hc (by decide) (op := .Nop) (by decide) v).trans ?_)
    rw [← hst]; rfl
  | @const n _ hm =>
    refine .pushes h (s := BitVec.ofInt 32 n :: σ.stack) ((const_run hm hc).trans ?_)
    rw [hst]; rfl
  | @load x i _ hm ho =>
    simp only [Instr.effect]
    cases hg : σ.get x i with
    | none => trivial
    | some a =>
      refine .pushes h (s := a :: σ.stack) ((load_run hm (fun hx => hok _ ho (.inl hx)) hc).trans ?_)
      cases x with
      | loc =>
        have hg : σ.locals[i]?.join = some a := hg
        have hg : σ.locals[i]? = some (some a) := by
          cases hx : σ.locals[i]? with
          | none => rw [hx] at hg; cases hg
          | some y => rw [hx] at hg; simp only [Option.join_some] at hg; rw [hg]
        obtain ⟨b, h1, h2⟩ := h.locals.holds i _ hg
        cases h2 a rfl
        refine (loadSlot_ok (r := fr.locals) (h.locals.usable i (List.getElem?_eq_some_iff.1 hg).1) h1 _).trans ?_
        rw [hst]; rfl
      | arg =>
        have hg : σ.args[i]? = some a := hg
        obtain ⟨b, h1, h2⟩ := h.args.holds i _ hg
        cases h2
        refine (loadSlot_ok (r := fr.params) (h.args.usable i (List.getElem?_eq_some_iff.1 hg).1) h1 _).trans ?_
        rw [hst]; rfl
  | @store x i _ hm ho =>
    simp only [Instr.effect]
    match hs : σ.stack with
    | [] => trivial
    | a :: s =>
      rw [hs] at hst
      have hst : v.operands = .i32 a :: (s.map .i32 ++ rest) := hst
      have hrun := store_run (cfg := cfg) (ops := ops) (tf := tf) (v := v) hm (fun hx => hok _ ho (.inr hx)) hc
      dsimp only
      have h' := h.operands s
      cases x with
      | loc =>
        simp only [Act.set]
        by_cases hi : i < σ.locals.length
        · rw [if_pos hi]
          dsimp only
          intro ip' hip
          obtain rfl : ip' = ip + c.length := by omega
          have hu := h.locals.usable i hi
          have hu' := h'.locals.usable i hi
          refine ⟨_, hrun.trans (storeSlot_ok hst hu _), (⟨rfl, rfl, rfl⟩ : Same v { v with operands := s.map .i32 ++ rest }).trans (same_put _ _ _), ?_⟩
          exact ⟨put_operands .., h'.locals.put_same hi (fun x hx => by cases hx; rfl), h'.args.put_apart hu' h'.apart, h'.apart,
            by rw [put_length, (same_put ..).cap]; exact h'.room, by rw [(same_put ..).cap]; exact h'.cap⟩
        · rw [if_neg hi]; trivial
      | arg =>
        simp only [Act.set]
        by_cases hi : i < σ.args.length
        · rw [if_pos hi]
          dsimp only
          intro ip' hip
          obtain rfl : ip' = ip + c.length := by omega
          have hu := h.args.usable i hi
          have hu' := h'.args.usable i hi
          refine ⟨_, hrun.trans (storeSlot_ok hst hu _), (⟨rfl, rfl, rfl⟩ : Same v { v with operands := s.map .i32 ++ rest }).trans (same_put _ _ _), ?_⟩
          exact ⟨put_operands .., h'.locals.put_apart hu' (apart_symm h'.apart), h'.args.put_same hi rfl, h'.apart,
            by rw [put_length, (same_put ..).cap]; exact h'.room, by rw [(same_put ..).cap]; exact h'.cap⟩
        · rw [if_neg hi]; trivial
  | dup =>
    simp only [Instr.effect]
    match hs : σ.stack with
    | [] => trivial
    | a :: s =>
      rw [hs] at hst
      have hst : v.operands = .i32 a :: (s.map .i32 ++ rest) := hst
      refine .pushes h (s := a :: a :: s) ((step_one hc (by decide) (op := .Dup) (by decide) v).trans ?_)
      show doDup _ v = _
      unfold doDup peek
      rw [X.view_bind_ok (a := .i32 a) (by rw [hst]; rfl)]
      show (Res.ok _, { v with operands := .i32 a :: v.operands }) = _
      rw [hst]; rfl
  | pop =>
    simp only [Instr.effect]
    match hs : σ.stack with
    | [] => trivial
    | a :: s =>
      rw [hs] at hst
      have hst : v.operands = .i32 a :: (s.map .i32 ++ rest) := hst
      refine .pushes h (s := s) ((step_one hc (by decide) (op := .Pop) (by decide) v).trans ?_)
      show doPop _ v = _
      unfold doPop
      rw [X.bind_ok (pop_cons hst)]
      rfl
  | neg =>
    refine unary_follows h fun a s hv => ?_
    have := C48_neg (cfg := cfg) (ops := ops) (tf := tf) a hc hv
    unfold fit
    split at this <;> rename_i hx
    · rw [if_pos hx]; exact congrArg Prod.fst this
    · rw [if_neg hx]; exact this
  | not => exact unary_follows h fun a s hv => not_word a hc hv
  | @arith op =>
    refine binary_follows h fun a b s hv => ?_
    have := C48_arith (cfg := cfg) (ops := ops) (tf := tf) op a b hc hv
    unfold fit
    split at this <;> rename_i hx
    · rw [if_pos hx]; exact congrArg Prod.fst this
    · rw [if_neg hx]; exact this
  | @bitwise op => exact binary_follows h fun a b s hv => bitwise_word op a b hc hv
  | @shift op =>
    refine binary_follows h fun a b s hv => ?_
    have := shift_word (cfg := cfg) (ops := ops) (tf := tf) op a b hc hv
    cases hr : shiftResult cfg.checks op a b with
    | done r => rw [hr] at this; exact this
    | stops => rw [hr] at this; exact this
    | undefined => trivial
    | unfinished => trivial
  | div =>
    refine binary_follows h fun a b s hv => ?_
    have := div_word (cfg := cfg) (ops := ops) (tf := tf) a b hc hv
    by_cases hx : divides a b
    · rw [if_pos hx] at this ⊢; exact this
    · rw [if_neg hx] at this ⊢; exact congrArg Prod.fst this
  | rem =>
    refine binary_follows h fun a b s hv => ?_
    have := rem_word (cfg := cfg) (ops := ops) (tf := tf) a b hc hv
    by_cases hx : divides a b
    · rw [if_pos hx] at this ⊢; exact this
    · rw [if_neg hx] at this ⊢; exact congrArg Prod.fst this
  | @compare c =>
    refine binary_follows h fun a b s hv => ?_
    have := C51_compare (cfg := cfg) (ops := ops) (tf := tf) c a b hc hv
    have hl : c.opcode.length = 2 := by cases c <;> rfl
    rw [hl]; exact this
  | @br f d hd =>
    intro ip' hip
    have hn : (brOpcode f :: intBytes f.size d).length = 1 + f.size := by simp [length_intBytes]; omega
    rw [hn] at hip
    have := br_run (cfg := cfg) (ops := ops) (tf := tf) (v := v) hc hd hl (n := ip') (by omega)
    cases this with
    | next h1 h2 => cases h2; exact ⟨v, h1, .refl _, h⟩
  | @br1 c f d hd =>
    simp only [Instr.effect]
    match hs : σ.stack with
    | [] => trivial
    | a :: s =>
      rw [hs] at hst
      have hst : v.operands = .i32 a :: (s.map .i32 ++ rest) := hst
      have hb := C51_branch1 (cfg := cfg) (ops := ops) (tf := tf) c f d a hc hd hl hst
      have hn : (c.opcode f :: intBytes f.size d).length = 1 + f.size := by simp [length_intBytes]; omega
      dsimp only
      intro ip' hip
      rw [hn] at hip
      by_cases ha : c.holds a.toInt
      · rw [if_pos ha] at hip
        obtain ⟨m, hm, hm', -⟩ := hb.1 ha
        obtain rfl : m = ip' := by have := hm' (by omega); omega
        exact ⟨_, hm, ⟨rfl, rfl, rfl⟩, h.operands s⟩
      · rw [if_neg ha] at hip
        obtain rfl : ip' = ip + (1 + f.size) := by omega
        exact ⟨_, hb.2 ha, ⟨rfl, rfl, rfl⟩, h.operands s⟩
  | @br2 c f d hd =>
    simp only [Instr.effect]
    match hs : σ.stack with
    | [] => trivial
    | [_] => trivial
    | b :: a :: s =>
      rw [hs] at hst
      have hst : v.operands = .i32 b :: .i32 a :: (s.map .i32 ++ rest) := hst
      have hb := C51_branch2 (cfg := cfg) (ops := ops) (tf := tf) c f d a b hc hd hl hst
      have hn : (c.opcode f :: intBytes f.size d).length = 1 + f.size := by simp [length_intBytes]; omega
      dsimp only
      intro ip' hip
      rw [hn] at hip
      by_cases ha : c.holds a.toInt b.toInt
      · rw [if_pos ha] at hip
        obtain ⟨m, hm, hm', -⟩ := hb.1 ha
        obtain rfl : m = ip' := by have := hm' (by omega); omega
        exact ⟨_, hm, ⟨rfl, rfl, rfl⟩, h.operands s⟩
      · rw [if_neg ha] at hip
        obtain rfl : ip' = ip + (1 + f.size) := by omega
        exact ⟨_, hb.2 ha, ⟨rfl, rfl, rfl⟩, h.operands s⟩

/-! ## Linking -/

variable {w : World} {prog : Nat → Option Proc} {meth : Nat → MethodRec}

/-- The method record does what the standard says of the procedure. -/
structure LinkedTo (cfg : Cfg) (w : World) (meth : Nat → MethodRec) (m : MethodRec) (p : Proc) : Prop where
  body : ∃ body t asm, m.impl = .il body ∧ body.code = p.code ∧ body.locals.length = p.locals ∧
    w.types[m.declaringType]? = some t ∧ w.assemblies.find? (·.id = t.assembly) = some asm ∧
    ∀ tok i, p.calls tok = some i → asm.resolveMethod cfg ⟨tok⟩ = .ok (some (meth i))
  size : p.code.length < 2 ^ 62
  params : m.slots = p.params
  value : p.returns = true → IsValue w m
  void : p.returns = false → IsVoid w m

/-- The frame runs the procedure. -/
structure FrameOf (cfg : Cfg) (w : World) (meth : Nat → MethodRec) (fr : Frame) (p : Proc) : Prop where
  code : fr.code = p.code
  size : p.code.length < 2 ^ 62
  calls : ∀ tok i, p.calls tok = some i → fr.assembly.resolveMethod cfg ⟨tok⟩ = .ok (some (meth i))
  value : p.returns = true → IsValue w fr.method
  void : p.returns = false → IsVoid w fr.method

theorem invoke_follows {run : Frame → Nat → X (Option Value)} (hfree : RunsFree run) {m : MethodRec} {q : Proc}
    (hm : LinkedTo cfg w meth m q) {args : List (BitVec 32)} {params : Region} (hw : v.world = w) (ho : v.operands = rest)
    (ha : Slots v params (fun a x => a = .i32 x) args) (hpar : ∀ g b c, params = .slots g b c → b + c ≤ v.stack.slots.length)
    (hroom : 16 * (v.stack.slots.length + q.locals + k) ≤ v.stack.cap) (hcap : v.stack.cap < 2 ^ 62) :
    ∃ fr v1, FrameOf cfg w meth fr q ∧ Sim fr v1 rest k (q.start none args) ∧ Same v v1 ∧
      invoke cfg run m params v = ((run fr 0 v1).1, { (run fr 0 v1).2 with
        stack := { (run fr 0 v1).2.stack with slots := (run fr 0 v1).2.stack.slots.take v.stack.slots.length }
        allocated := v.allocated }) := by
  obtain ⟨body, t, asm, hi, hcode, hloc, ht, hasm, hcalls⟩ := hm.body
  obtain ⟨r, v1, hal⟩ := stackAlloc_room (v := { v with allocated := 0 }) (n := body.locals.length)
    ⟨by dsimp only; omega, by dsimp only; omega⟩
  obtain ⟨e1, e2, e3, e4⟩ := stackAlloc_ok hal
  dsimp only at e1 e2 e3 e4
  have hlen : v1.stack.slots.length = v.stack.slots.length + q.locals := by rw [e3]; simp [hloc]
  rcases e4 with ⟨eg, efit, ecap⟩ | ⟨-, ecap⟩
  · refine ⟨{ method := m, assembly := asm, code := body.code, locals := r, params }, v1, ?_, ?_, ?_,
      invoke_run hfree hi (by rw [hw]; exact ht) (by rw [hw]; exact hasm) hal⟩
    · exact ⟨hcode, hm.size, hcalls, hm.value, hm.void⟩
    · refine ⟨by rw [e2]; exact ho, ?_, ?_, ?_, by omega, by omega⟩
      · rw [e1]
        refine ⟨fun i hx => ⟨by simpa [Proc.start, hloc] using hx, rfl, by rw [e3]; simp⟩, fun i u hu => ?_⟩
        obtain ⟨hlt, hu'⟩ := List.getElem?_eq_some_iff.1 hu
        simp only [Proc.start, List.getElem_replicate] at hu'
        subst hu'
        rw [Proc.start, List.length_replicate] at hlt
        refine ⟨.i8 0, ?_, by simp⟩
        simp only [Region.at, e3]
        rw [List.getElem?_append_right (by omega), List.getElem?_replicate, if_pos (by omega)]
      · have hu : ∀ i, i < args.length → Usable { v with allocated := 0 } params i := fun i hx =>
          usable_same (v := v) rfl rfl (ha.usable i hx)
        refine ⟨fun i hx => ((hu i hx).alloc hal eg).1, fun i u hx => ?_⟩
        obtain ⟨a, h1, h2⟩ := ha.holds i u hx
        refine ⟨a, ?_, h2⟩
        rw [((hu i (List.getElem?_eq_some_iff.1 hx).1).alloc hal eg).2]
        exact h1
      · rw [e1]
        cases params with
        | host => trivial
        | slots g b c => exact .inr (hpar g b c rfl)
    · exact ⟨by rw [e2], eg, ecap⟩
  · omega

/-- How the interpreter ends when the machine ends. -/
def Agrees (rest : List Value) (v : VM) (x : Res (Option Value) × VM) : Outcome (Option (BitVec 32)) → Prop
  | .done r => x.1 = .ok (r.map .i32) ∧ x.2.operands = rest ∧ Same v x.2
  | .stops => x.1 = .panic
  | .unfinished => x.1 = .timeout
  | .undefined => True

theorem Agrees.same {v0 : VM} {x : Res (Option Value) × VM} {o : Outcome (Option (BitVec 32))} (h : Agrees rest v x o)
    (hs : Same v0 v) : Agrees rest v0 x o := by
  cases o with
  | done r => exact ⟨h.1, h.2.1, hs.trans h.2.2⟩
  | stops => exact h
  | unfinished => exact h
  | undefined => trivial

theorem step_call {t : Nat} (ht : t < 2 ^ 32) (hc : HasAt fr.code ip (0x28 :: leBytes 4 t)) :
    step cfg ops tf fr ip v = (.ok (.call ⟨t⟩ none (ip + 5)), v) := by
  rw [step_one hc (by decide) (op := .Call) (by decide)]
  show doCall fr _ v = _
  unfold doCall
  have := HasAt.fetch_leBytes (n := 3) (hc.drop (a := [0x28])) ht
  exact X.liftM_bind_ok (show fetch fr.code (ip + 1) 4 = .ok t from this) _ v

theorem step_ret_agrees {p : Proc} (hf : FrameOf cfg w meth fr p) (hw : v.world = w) {σ : Act} (h : Sim fr v rest k σ)
    {r : Option (BitVec 32)} (hc : HasAt p.code ip [0x2a]) (hr : p.Result σ.stack r) :
    Agrees rest v (loop cfg ops tf (fuel + 1) fr ip v) (.done r) := by
  have hst := h.stack
  have hs : step cfg ops tf fr ip v = doRet fr v := step_one (by rw [hf.code]; exact hc) (by decide) (op := .Ret) (by decide) v
  generalize hσ : σ.stack = l at hr hst
  cases hr with
  | @value a hp =>
    rw [loop_ret (hs.trans (doRet_value (by rw [hw]; exact hf.value hp)))]
    rw [hst]
    exact ⟨rfl, rfl, rfl, rfl, rfl⟩
  | void hp =>
    rw [loop_ret (hs.trans (doRet_void (by rw [hw]; exact hf.void hp)))]
    exact ⟨rfl, by rw [hst]; rfl, .refl _⟩

/-- A call up to the end of the callee. -/
theorem call_follows {q : Proc} {m : MethodRec} (hm : LinkedTo cfg w meth m q) {t : Nat}
    (hres : fr.assembly.resolveMethod cfg ⟨t⟩ = .ok (some m)) (hw : v.world = w) {σ : Act} {args rho : List (BitVec 32)}
    (hσ : σ.stack = args.reverse ++ rho) (hl : args.length = q.params) (h : Sim fr v rest k σ)
    {k' : Nat} (hk : q.params + q.locals + k' ≤ k) {o : Outcome (Option (BitVec 32))}
    (hrun : ∀ fr1 v1, FrameOf cfg w meth fr1 q → v1.world = w → Sim fr1 v1 (rho.map .i32 ++ rest) k' (q.start none args) →
      Agrees (rho.map .i32 ++ rest) v1 (loop cfg ops tf fuel fr1 0 v1) o) :
    match o with
    | .done r => ∃ v', callMethod cfg (loop cfg ops tf fuel) fr ⟨t⟩ v = (.ok (), v') ∧ Same v v' ∧
        ∀ k'', q.params + k'' ≤ k → Sim fr v' rest k'' { σ with stack := r.toList ++ rho }
    | .stops => (callMethod cfg (loop cfg ops tf fuel) fr ⟨t⟩ v).1 = .panic
    | .unfinished => (callMethod cfg (loop cfg ops tf fuel) fr ⟨t⟩ v).1 = .timeout
    | .undefined => True := by
  have hroom := h.room
  have hcap := h.cap
  have hps := hm.params
  obtain ⟨v1, e1, e2, e3, e4⟩ := callMethod_run (run := loop cfg ops tf fuel) (args := args.map .i32)
    (rest := rho.map .i32 ++ rest) hres (v := v) ⟨by omega, by omega⟩ (by rw [hps, List.length_map, hl])
    (by rw [h.stack, hσ]; simp)
  rcases e3 with ⟨eg, ecap, efit⟩ | ⟨-, hbad⟩
  · have hlen : v1.stack.slots.length = v.stack.slots.length + q.params := by rw [e2]; simp [hl]
    have ha : Slots v1 (.slots v1.stack.gen v.stack.slots.length m.slots) (fun a x => a = .i32 x) args := by
      refine ⟨fun i hi => ⟨by omega, rfl, by omega⟩, fun i u hi => ?_⟩
      refine ⟨.i32 u, ?_, rfl⟩
      simp only [Region.at, e2]
      rw [List.getElem?_append_right (by omega), Nat.add_sub_cancel_left, List.getElem?_map, hi]
      rfl
    have hw1 : v1.world = w := by rw [e1]; exact hw
    obtain ⟨fr1, v2, hf1, hs1, hsame, hinv⟩ := invoke_follows (k := k') (loop_free cfg ops tf fuel) hm hw1
      (rest := rho.map .i32 ++ rest) (by rw [e1]) ha
      (by rintro g b c hx; cases hx; omega) (by omega) (by omega)
    have hag := hrun fr1 v2 hf1 (by rw [hsame.world]; exact hw1) hs1
    have hwhole := invoke_whole (cfg := cfg) (L := v.stack.slots.length) (H := True) (loop_free cfg ops tf fuel) m
      (params := .slots v1.stack.gen v.stack.slots.length m.slots) (Nat.le_refl _) (v := v1) (by omega)
    have hlow := hwhole.low
    have hhost := hwhole.host trivial
    have hsl := hwhole.slots
    rw [e4]
    rw [hinv] at hlow hhost hsl
    rw [X.bind_run, hinv]
    rcases hr : loop cfg ops tf fuel fr1 0 v2 with ⟨x, v3⟩
    rw [hr] at hag hlow hhost hsl
    dsimp only at hlow hhost hsl
    rw [show v1.stack.slots.take v.stack.slots.length = v.stack.slots by rw [e2, List.take_left' rfl]] at hlow
    cases o with
    | done r =>
      obtain ⟨rfl, ho3, hs3⟩ := hag
      dsimp only at ho3 hs3 ⊢
      have hs4 := hsame.trans hs3
      have hkeep : ∀ s : List (BitVec 32), ∀ k'', q.params + k'' ≤ k → Sim fr
          { v3 with
            stack := { v3.stack with slots := v3.stack.slots.take v1.stack.slots.length }
            allocated := v1.allocated, operands := s.map .i32 ++ rest } rest k'' { σ with stack := s } := by
        intro s k'' hk''
        have hg : v3.stack.gen = v.stack.gen := hs4.gen.trans eg
        have hh : v3.host = v.host := by rw [hhost, e1]
        refine ⟨rfl, h.locals.kept hg hlow hh fun _ _ h => h, h.args.kept hg hlow hh fun _ _ h => h, h.apart, ?_, ?_⟩
        · dsimp only
          rw [hsl, hs4.cap, ecap]
          omega
        · dsimp only
          rw [hs4.cap, ecap]; exact hcap
      have hS : Same v v3 := ⟨hs4.world.trans (by rw [e1]), hs4.gen.trans eg, hs4.cap.trans ecap⟩
      cases r with
      | none =>
        refine ⟨_, rfl, ⟨hS.world, hS.gen, hS.cap⟩, fun k'' hk'' => ?_⟩
        have := hkeep rho k'' hk''
        rw [← ho3] at this
        exact this
      | some a =>
        refine ⟨_, rfl, ⟨hS.world, hS.gen, hS.cap⟩, fun k'' hk'' => ?_⟩
        have := hkeep (a :: rho) k'' hk''
        simp only [List.map_cons, List.cons_append] at this
        rw [← ho3] at this
        exact this
    | stops => cases (show x = .panic from hag); rfl
    | unfinished => cases (show x = .timeout from hag); rfl
    | undefined => trivial
  · omega

theorem runs_follow (hok : ∀ l, ok l → ¬ Wide l) (hlink : ∀ j p, prog j = some p → LinkedTo cfg w meth (meth j) p)
    {n : Nat} {p : Proc} {σ : Act} {o : Outcome (Option (BitVec 32))} (h : Runs cfg.checks ok none prog n k p ip σ o)
    (hf : FrameOf cfg w meth fr p) (hw : v.world = w) (hs : Sim fr v rest k σ) :
    Agrees rest v (loop cfg ops tf n fr ip v) o := by
  induction h generalizing fr v rest with
  | more => rfl
  | ret hc hr => exact step_ret_agrees hf hw hs hc hr
  | next he hc heff hip _ ih =>
    have := step_follows (cfg := cfg) (ops := ops) (tf := tf) hok (by rw [hf.code]; exact hf.size) he (by rw [hf.code]; exact hc) hs
    rw [heff] at this
    obtain ⟨v', h1, h2, h3⟩ := this _ hip
    rw [loop_next h1]
    exact (ih hf (h2.world.trans hw) h3).same h2
  | stops he hc heff =>
    have := step_follows (cfg := cfg) (ops := ops) (tf := tf) hok (by rw [hf.code]; exact hf.size) he (by rw [hf.code]; exact hc) hs
    rw [heff] at this
    exact loop_stops this
  | @call n k k' k'' ip t j p q σ args rho r o ht hc hj hq hσ hl hk _ hk'' _ ih ih' =>
    have hcall := call_follows (ops := ops) (tf := tf) (fuel := n) (hlink j q hq) (hf.calls t j hj) hw hσ hl hs hk
      (o := .done r) fun fr1 v1 h1 h2 h3 => ih h1 h2 h3
    obtain ⟨v', h1, h2, h3⟩ := hcall
    rw [loop_succ, step_call ht (by rw [hf.code]; exact hc)]
    dsimp only
    rw [X.bind_ok h1]
    exact (ih' hf (h2.world.trans hw) (h3 _ hk'')).same h2
  | @inner n k k' ip t j p q σ args rho o ht hc hj hq hσ hl hk _ hne ih =>
    have hcall := call_follows (ops := ops) (tf := tf) (fuel := n) (hlink j q hq) (hf.calls t j hj) hw hσ hl hs hk
      (o := o) fun fr1 v1 h1 h2 h3 => ih h1 h2 h3
    rw [loop_succ, step_call ht (by rw [hf.code]; exact hc)]
    dsimp only
    rw [X.bind_run]
    rcases hx : callMethod cfg (loop cfg ops tf n) fr ⟨t⟩ v with ⟨x, v'⟩
    rw [hx] at hcall
    cases o with
    | done r => exact absurd rfl (hne r)
    | stops => cases (show x = .panic from hcall); rfl
    | unfinished => cases (show x = .timeout from hcall); rfl
    | undefined => trivial

end Clr.Abs
