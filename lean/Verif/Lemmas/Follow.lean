import Verif.Lemmas.Numbers
import Verif.Props.Output
/-! # The interpreter follows the abstract machine with objects: instructions -/

namespace Clr.Obj

variable {cfg : Cfg} {ops : FloatOps} {tf fuel : Nat} {fr : Frame} {ip k : Nat} {w : World} {v v' : VM} {rest : List Value}
  {ok : Bytes → Prop} {offs : Nat → Nat} {s s' : Store} {σ : Act} {fld : Nat → FieldRec} {meth : Nat → MethodRec}

/-- The frame and the state of the interpreter represent a store and an activation; `rest` is the part of the evaluation stack
that belongs to callers, and there is room for `k` more variables. -/
structure Sim (cfg : Cfg) (tf : Nat) (w : World) (offs : Nat → Nat) (fr : Frame) (v : VM) (rest : List Value) (k : Nat)
    (s : Store) (σ : Act) : Prop where
  stack : ∃ vals, v.operands = vals ++ rest ∧ All2 (Rep s.cells) vals σ.stack
  locals : Slots v fr.locals (fun a o => ∀ x, o = some x → Rep s.cells a x) σ.locals
  args : Slots v fr.params (Rep s.cells) σ.args
  apart : Apart fr.locals fr.params
  room : 16 * (v.stack.slots.length + k) ≤ v.stack.cap
  cap : v.stack.cap < 2 ^ 62
  store : StoreIs cfg tf w offs v s

/-- What instructions leave alone. -/
structure Same (v v' : VM) : Prop where
  gen : v'.stack.gen = v.stack.gen
  cap : v'.stack.cap = v.stack.cap

theorem Same.refl (v : VM) : Same v v := ⟨rfl, rfl⟩

theorem Same.trans {v1 : VM} (h : Same v v1) (h' : Same v1 v') : Same v v' := ⟨h'.gen.trans h.gen, h'.cap.trans h.cap⟩

/-- Instructions that change the evaluation stack and the store only. -/
theorem Sim.change (h : Sim cfg tf w offs fr v rest k s σ) {vals : List Value} {st : List Val} (h1 : v'.stack = v.stack)
    (h2 : v'.host = v.host) (ho : v'.operands = vals ++ rest) (hv : All2 (Rep s'.cells) vals st) (hg : Grew s.cells s'.cells)
    (hs : StoreIs cfg tf w offs v' s') : Sim cfg tf w offs fr v' rest k s' { σ with stack := st } :=
  ⟨⟨vals, ho, hv⟩, h.locals.same h1 h2 fun _ _ hr x hx => (hr x hx).grew hg, h.args.same h1 h2 fun _ _ hr => hr.grew hg, h.apart,
    by rw [h1]; exact h.room, by rw [h1]; exact h.cap, hs⟩

/-- Instructions that change the evaluation stack only. -/
theorem Sim.operands (h : Sim cfg tf w offs fr v rest k s σ) {vals : List Value} {st : List Val}
    (hv : All2 (Rep s.cells) vals st) :
    Sim cfg tf w offs fr { v with operands := vals ++ rest } rest k s { σ with stack := st } :=
  h.change rfl rfl rfl hv (.refl _) (h.store.same rfl rfl)

theorem Sim.room_for (h : Sim cfg tf w offs fr v rest k s σ) {k' : Nat} (hk : k' ≤ k) : Sim cfg tf w offs fr v rest k' s σ :=
  { h with room := by have := h.room; omega }

/-- A step of the interpreter as the machine makes it. -/
def Follows (cfg : Cfg) (ops : FloatOps) (tf : Nat) (w : World) (offs : Nat → Nat) (fr : Frame) (ip : Nat) (v : VM)
    (rest : List Value) (k next : Nat) : Outcome (Store × Act × Int) → Prop
  | .done (s', σ', d) => s'.cost ≤ 1024 → ∀ ip' : Nat, (ip' : Int) = next + d →
      ∃ v', step cfg ops tf fr ip v = (.ok (.next ip'), v') ∧ Same v v' ∧ Sim cfg tf w offs fr v' rest k s' σ'
  | .stops => (step cfg ops tf fr ip v).1 = .panic
  | _ => True

theorem Follows.pushes {next : Nat} (h : Sim cfg tf w offs fr v rest k s σ) {vals : List Value} {st : List Val}
    (hv : All2 (Rep s.cells) vals st)
    (hs : step cfg ops tf fr ip v = (.ok (.next next), { v with operands := vals ++ rest })) :
    Follows cfg ops tf w offs fr ip v rest k next (.done (s, { σ with stack := st }, 0)) := by
  intro _ ip' hip
  obtain rfl : ip' = next := by omega
  exact ⟨_, hs, ⟨rfl, rfl⟩, h.operands hv⟩

/-- The effect of an instruction of integer programs. -/
def keep (s : Store) (x : Outcome (Act × Int)) : Outcome (Store × Act × Int) := x.bind fun r => .done (s, r.1, r.2)

theorem binary_follows {next : Nat} {f : Num → Num → Outcome Num} (h : Sim cfg tf w offs fr v rest k s σ)
    (hf : ∀ (a b : Num) (l : List Value), v.operands = b.value :: a.value :: l → Leaves cfg ops tf fr ip v l next (f a b)) :
    Follows cfg ops tf w offs fr ip v rest k next (keep s (σ.binary f)) := by
  obtain ⟨vals, hst, hv⟩ := h.stack
  unfold Act.binary
  match hs : σ.stack with
  | [] => trivial
  | [.num _] => trivial
  | [.ref _] => trivial
  | .ref _ :: _ :: _ => trivial
  | .num _ :: .ref _ :: _ => trivial
  | .num b :: .num a :: st =>
    rw [hs] at hv
    cases hv with
    | cons h1 hv =>
    cases hv with
    | cons h2 hv =>
    cases h1.num; cases h2.num
    have := hf a b _ hst
    dsimp only
    cases hr : f a b with
    | done r => rw [hr] at this; exact .pushes h (.cons (show Rep _ r.value (.num r) from rfl) hv) this
    | stops => rw [hr] at this; exact this
    | undefined => trivial
    | unfinished => trivial

theorem unary_follows {next : Nat} {f : Num → Outcome Num} (h : Sim cfg tf w offs fr v rest k s σ)
    (hf : ∀ (a : Num) (l : List Value), v.operands = a.value :: l → Leaves cfg ops tf fr ip v l next (f a)) :
    Follows cfg ops tf w offs fr ip v rest k next (keep s (σ.unary f)) := by
  obtain ⟨vals, hst, hv⟩ := h.stack
  unfold Act.unary
  match hs : σ.stack with
  | [] => trivial
  | .ref _ :: _ => trivial
  | .num a :: st =>
    rw [hs] at hv
    cases hv with
    | cons h1 hv =>
    cases h1.num
    have := hf a _ hst
    dsimp only
    cases hr : f a with
    | done r => rw [hr] at this; exact .pushes h (.cons (show Rep _ r.value (.num r) from rfl) hv) this
    | stops => rw [hr] at this; exact this
    | undefined => trivial
    | unfinished => trivial

theorem eq_refs {cells : List Cell} {a b : Nat} (ha : a < cells.length) (hb : b < cells.length) :
    eqTop ops (.object ⟨0, addr cells a⟩) (.object ⟨0, addr cells b⟩) = .ok (decide (a = b)) := by
  simp only [eqTop, Value.eq]
  by_cases h : a = b
  · subst h; simp
  · have : addr cells b ≠ addr cells a := fun hx => h (addr_inj ha hb hx.symm)
    simp [h, this]

/-- One instruction of integer programs. -/
theorem base_follows (hleq : LawfulEq ops) (hok : ∀ l, ok l → ¬ Wide l) (hl : fr.code.length < 2 ^ 62) {i : Abs.Instr} {c : Bytes}
    (he : Abs.Enc ok i c) (hc : HasAt fr.code ip c) (h : Sim cfg tf w offs fr v rest k s σ) :
    Follows cfg ops tf w offs fr ip v rest k (ip + c.length) (keep s (σ.base ops cfg.checks i)) := by
  obtain ⟨vals, hst, hv⟩ := h.stack
  cases he with
  | nop =>
    refine .pushes h hv ((step_one hc (by decide) (op := .Nop) (by decide) v).trans ?_)
    rw [← hst]; rfl
  | @const n _ hm =>
    refine .pushes h (vals := .i32 (BitVec.ofInt 32 n) :: vals) (.cons rfl hv) ((const_run hm hc).trans ?_)
    rw [hst]; rfl
  | @load x i _ hm ho =>
    simp only [Act.base]
    cases hg : σ.get x i with
    | none => trivial
    | some a =>
      have hrun := load_run (cfg := cfg) (ops := ops) (tf := tf) (v := v) hm (fun hx => hok _ ho (.inl hx)) hc
      cases x with
      | loc =>
        have hg : σ.locals[i]?.join = some a := hg
        have hg : σ.locals[i]? = some (some a) := by
          cases hx : σ.locals[i]? with
          | none => rw [hx] at hg; cases hg
          | some y => rw [hx] at hg; simp only [Option.join_some] at hg; rw [hg]
        obtain ⟨b, h1, h2⟩ := h.locals.holds i _ hg
        refine .pushes h (vals := b :: vals) (.cons (h2 a rfl) hv) (hrun.trans ((loadSlot_ok (r := fr.locals)
          (h.locals.usable i (List.getElem?_eq_some_iff.1 hg).1) h1 _).trans ?_))
        rw [hst]; rfl
      | arg =>
        have hg : σ.args[i]? = some a := hg
        obtain ⟨b, h1, h2⟩ := h.args.holds i _ hg
        refine .pushes h (vals := b :: vals) (.cons h2 hv) (hrun.trans ((loadSlot_ok (r := fr.params)
          (h.args.usable i (List.getElem?_eq_some_iff.1 hg).1) h1 _).trans ?_))
        rw [hst]; rfl
  | @store x i _ hm ho =>
    simp only [Act.base]
    match hs : σ.stack with
    | [] => trivial
    | a :: st =>
      rw [hs] at hv
      cases hv with
      | @cons b _ vals _ h1 hv =>
      have hst : v.operands = b :: (vals ++ rest) := hst
      have hrun := store_run (cfg := cfg) (ops := ops) (tf := tf) (v := v) hm (fun hx => hok _ ho (.inr hx)) hc
      dsimp only
      have h' := h.operands hv
      have hput : ∀ r : Region, StoreIs cfg tf w offs (r.put { v with operands := vals ++ rest } b i) s := fun r =>
        h'.store.same (by cases r <;> rfl) (by cases r <;> rfl)
      have hsame : ∀ r : Region, Same v (r.put { v with operands := vals ++ rest } b i) := fun r => by
        cases r <;> exact ⟨rfl, rfl⟩
      cases x with
      | loc =>
        simp only [Act.set]
        by_cases hi : i < σ.locals.length
        · rw [if_pos hi]
          intro _ ip' hip
          obtain rfl : ip' = ip + c.length := by omega
          have hu := h.locals.usable i hi
          have hu' := h'.locals.usable i hi
          refine ⟨_, hrun.trans (storeSlot_ok hst hu _), hsame _, ?_⟩
          exact ⟨⟨vals, Abs.put_operands .., hv⟩, h'.locals.put_same hi (fun x hx => by cases hx; exact h1), h'.args.put_apart hu' h'.apart,
            h'.apart, by rw [Abs.put_length, (hsame _).cap]; exact h'.room, by rw [(hsame _).cap]; exact h'.cap, hput _⟩
        · rw [if_neg hi]; trivial
      | arg =>
        simp only [Act.set]
        by_cases hi : i < σ.args.length
        · rw [if_pos hi]
          intro _ ip' hip
          obtain rfl : ip' = ip + c.length := by omega
          have hu := h.args.usable i hi
          have hu' := h'.args.usable i hi
          refine ⟨_, hrun.trans (storeSlot_ok hst hu _), hsame _, ?_⟩
          exact ⟨⟨vals, Abs.put_operands .., hv⟩, h'.locals.put_apart hu' (Abs.apart_symm h'.apart), h'.args.put_same hi h1, h'.apart,
            by rw [Abs.put_length, (hsame _).cap]; exact h'.room, by rw [(hsame _).cap]; exact h'.cap, hput _⟩
        · rw [if_neg hi]; trivial
  | dup =>
    simp only [Act.base]
    match hs : σ.stack with
    | [] => trivial
    | a :: st =>
      rw [hs] at hv
      cases hv with
      | @cons b _ vals _ h1 hv =>
      refine .pushes h (vals := b :: b :: vals) (.cons h1 (.cons h1 hv)) ((step_one hc (by decide) (op := .Dup) (by decide) v).trans ?_)
      show doDup _ v = _
      unfold doDup peek
      rw [X.view_bind_ok (a := b) (by rw [hst]; rfl)]
      show (Res.ok _, { v with operands := b :: v.operands }) = _
      rw [hst]; rfl
  | pop =>
    simp only [Act.base]
    match hs : σ.stack with
    | [] => trivial
    | a :: st =>
      rw [hs] at hv
      cases hv with
      | @cons b _ vals _ h1 hv =>
      refine .pushes h (vals := vals) hv ((step_one hc (by decide) (op := .Pop) (by decide) v).trans ?_)
      show doPop _ v = _
      unfold doPop
      rw [X.bind_ok (pop_cons hst)]
      rfl
  | neg => exact unary_follows h fun a l hv => neg_leaves a hc hv
  | not => exact unary_follows h fun a l hv => not_leaves a hc hv
  | @arith op => exact binary_follows h fun a b l hv => arith_leaves op a b hc hv
  | @bitwise op => exact binary_follows h fun a b l hv => bitwise_leaves op a b hc hv
  | @shift op => exact binary_follows h fun a b l hv => shift_leaves op a b hc hv
  | div => exact binary_follows h fun a b l hv => div_leaves a b hc hv
  | rem => exact binary_follows h fun a b l hv => rem_leaves a b hc hv
  | @compare c =>
    have hlen : c.opcode.length = 2 := by cases c <;> rfl
    simp only [Act.base]
    match hs : σ.stack with
    | [] => cases c <;> trivial
    | [.num _] => cases c <;> trivial
    | [.ref _] => cases c <;> trivial
    | .num _ :: .ref _ :: _ => cases c <;> trivial
    | .ref _ :: .num _ :: _ => cases c <;> trivial
    | .num b :: .num a :: st =>
      rw [hs] at hv
      cases hv with
      | cons h1 hv =>
      cases hv with
      | @cons _ _ vals _ h2 hv =>
      cases h1.num; cases h2.num
      rw [hlen]
      cases hr : Num.compares ops c a b with
      | none => cases c <;> (dsimp only; rw [hr]; trivial)
      | some r =>
        have := compares_step (cfg := cfg) (tf := tf) hleq c a b hr hc hst
        cases c <;> (dsimp only; rw [hr]; exact .pushes h (vals := .i32 _ :: vals) (.cons rfl hv) this)
    | .ref b :: .ref a :: st =>
      cases c with
      | eq =>
        rw [hs] at hv
        cases hv with
        | cons h1 hv =>
        cases hv with
        | @cons _ _ vals _ h2 hv =>
        obtain ⟨h3, rfl⟩ := h1.ref
        obtain ⟨h4, rfl⟩ := h2.ref
        refine .pushes h (vals := .i32 (if a = b then 1 else 0) :: vals) (.cons rfl hv)
          ((step_two hc (by decide) (op := .Ceq) (by decide) v).trans ((compareOp_ok hst (eq_refs h4 h3) _).trans ?_))
        simp [hlen]
      | gt => trivial
      | lt => trivial
  | @br f d hd =>
    intro _ ip' hip
    have hn : (brOpcode f :: intBytes f.size d).length = 1 + f.size := by simp [length_intBytes]; omega
    rw [hn] at hip
    have := br_run (cfg := cfg) (ops := ops) (tf := tf) (v := v) hc hd hl (n := ip') (by omega)
    cases this with
    | next h1 h2 => cases h2; exact ⟨v, h1, .refl _, h⟩
  | @br1 c f d hd =>
    simp only [Act.base]
    match hs : σ.stack with
    | [] => trivial
    | .ref _ :: _ => trivial
    | .num a :: st =>
      rw [hs] at hv
      cases hv with
      | @cons _ _ vals _ h1 hv =>
      cases h1.num
      dsimp only
      cases hr : Num.branch c a with
      | none => trivial
      | some r =>
      have hb := branch_step (cfg := cfg) (ops := ops) (tf := tf) c f d a hr hc hd hl hst
      have hn : (c.opcode f :: intBytes f.size d).length = 1 + f.size := by simp [length_intBytes]; omega
      intro _ ip' hip
      dsimp only at hip
      rw [hn] at hip
      by_cases ha : r = true
      · rw [if_pos ha] at hip
        obtain ⟨m, hm, hm', -⟩ := hb.1 ha
        obtain rfl : m = ip' := by have := hm' (by omega); omega
        exact ⟨_, hm, ⟨rfl, rfl⟩, h.operands hv⟩
      · rw [if_neg ha] at hip
        obtain rfl : ip' = ip + (1 + f.size) := by omega
        exact ⟨_, hb.2 ha, ⟨rfl, rfl⟩, h.operands hv⟩
  | @br2 c f d hd =>
    have hn : (c.opcode f :: intBytes f.size d).length = 1 + f.size := by simp [length_intBytes]; omega
    have hfin : ∀ {vals st} {P : Prop} [Decidable P], All2 (Rep s.cells) vals st →
        Branches cfg ops tf fr ip v { v with operands := vals ++ rest } P (ip + (1 + f.size) + d) (ip + (1 + f.size)) →
        Follows cfg ops tf w offs fr ip v rest k (ip + (c.opcode f :: intBytes f.size d).length)
          (.done (s, { σ with stack := st }, if P then d else 0)) := by
      intro vals st P _ hv hb _ ip' hip
      rw [hn] at hip
      by_cases ha : P
      · rw [if_pos ha] at hip
        obtain ⟨m, hm, hm', -⟩ := hb.1 ha
        obtain rfl : m = ip' := by have := hm' (by omega); omega
        exact ⟨_, hm, ⟨rfl, rfl⟩, h.operands hv⟩
      · rw [if_neg ha] at hip
        obtain rfl : ip' = ip + (1 + f.size) := by omega
        exact ⟨_, hb.2 ha, ⟨rfl, rfl⟩, h.operands hv⟩
    simp only [Act.base]
    match hs : σ.stack with
    | [] => cases c <;> trivial
    | [.num _] => cases c <;> trivial
    | [.ref _] => cases c <;> trivial
    | .num _ :: .ref _ :: _ => cases c <;> trivial
    | .ref _ :: .num _ :: _ => cases c <;> trivial
    | .num b :: .num a :: st =>
      rw [hs] at hv
      cases hv with
      | cons h1 hv =>
      cases hv with
      | @cons _ _ vals _ h2 hv =>
      cases h1.num; cases h2.num
      cases hr : Num.branches ops c a b with
      | none => cases c <;> (dsimp only; rw [hr]; trivial)
      | some r =>
        have := hfin hv (branches_step (cfg := cfg) (tf := tf) hleq c f d a b hr hc hd hl hst)
        cases c <;> (dsimp only; rw [hr]; exact this)
    | .ref b :: .ref a :: st =>
      cases c with
      | beq =>
        rw [hs] at hv
        cases hv with
        | cons h1 hv =>
        cases hv with
        | @cons _ _ vals _ h2 hv =>
        obtain ⟨h3, rfl⟩ := h1.ref
        obtain ⟨h4, rfl⟩ := h2.ref
        refine hfin hv (P := a = b) (branches_of hc hd hl ?_)
        have hfi := fetchInt_ok (n := f.size) (by cases f <;> decide) hc.tail hd
        cases f
        · rw [step_one hc (by decide) (op := .Beq_S) (by decide)]
          exact (branchCmp_ok hst (eq_refs h4 h3) hfi).trans (by simp)
        · rw [step_one hc (by decide) (op := .Beq) (by decide)]
          exact (branchCmp_ok hst (eq_refs h4 h3) hfi).trans (by simp)
      | _ => trivial

/-! ## Linking -/

/-- The tokens of a procedure mean in the assembly what they stand for: `meth` are the methods and `fld` the fields. -/
structure Tokens (cfg : Cfg) (tf : Nat) (w : World) (meth : Nat → MethodRec) (fld : Nat → FieldRec) (asm : AssemblyRec) (p : Proc) :
    Prop where
  procs : ∀ tok j, p.calls tok = some (.proc j) → asm.resolveMethod cfg ⟨tok⟩ = .ok (some (meth j))
  write : ∀ tok, p.calls tok = some .write → ∃ m, asm.resolveMethod cfg ⟨tok⟩ = .ok (some m) ∧
    m.impl = .internal .consoleWrite ∧ m.slots = 1
  news : ∀ tok cls j, p.news tok = some (cls, j) → asm.resolveMethod cfg ⟨tok⟩ = .ok (some (meth j)) ∧
    (meth j).isStatic = false ∧ typeSize cfg w tf (meth j).declaringType = .ok cls.size ∧ cls.Fits fun f => (fld f).offset
  fields : ∀ tok f, p.fields tok = some f → asm.resolveField cfg ⟨tok⟩ = .ok (some (fld f.1)) ∧
    ∃ tr, w.types[(fld f.1).fieldType]? = some tr ∧ tr.fullName = f.2.typeName
  strings : ∀ tok text, p.strings tok = some text →
    getString cfg asm.userStringData ⟨tok⟩ = .ok (some (text.flatMap utf16)) ∧
    ∃ t tr, w.getType "System.String".toList = some t ∧ w.types[t]? = some tr
  ints : ∀ tok, p.ints tok = true → ∃ ps tr, w.primitives = some ps ∧ asm.resolveType cfg ⟨tok⟩ = .ok (some ps.int) ∧
    w.types[ps.int]? = some tr ∧ tr.id < 2 ^ 32 ∧ typeSize cfg w tf ps.int = .ok 4

/-- The addresses of fields. -/
abbrev offsets (fld : Nat → FieldRec) : Nat → Nat := fun f => (fld f).offset

theorem element_some {xs : List (BitVec 32)} {i : BitVec 32} {x : BitVec 32} (h : element xs i = some x) :
    0 ≤ i.toInt ∧ asIndex i = i.toInt.toNat ∧ xs[i.toInt.toNat]? = some x := by
  unfold element at h
  split at h
  · cases h
  · have := asIndex_eq (i := i) (by omega)
    exact ⟨by omega, by omega, h⟩

theorem element_none {xs : List (BitVec 32)} {i : BitVec 32} (hx : xs.length < 2 ^ 63) (h : element xs i = none) :
    ¬ asIndex i < xs.length := by
  rw [asIndex_lt hx]
  unfold element at h
  split at h
  · omega
  · rw [List.getElem?_eq_none_iff] at h
    omega

theorem index_lt {xs : List (BitVec 32)} {i : Nat} {x : BitVec 32} (h : xs[i]? = some x) : i < xs.length :=
  (List.getElem?_eq_some_iff.1 h).1

/-- Reading the contents of an object. -/
theorem read_in {bs : List Block} (hh : HeapOk cfg tf w v.heap bs) {b : Block} {hd data : Bytes} {off n a : Nat}
    (ha : At bs a b) (hb : b.bytes = hd ++ data) (hl : off + n ≤ data.length) :
    v.heap.read ⟨0, a⟩ (hd.length + off) n = .ok ((data.drop off).take n) := by
  obtain ⟨pre, post, h1, h2, -⟩ := ha.around (w := w)
  rw [← hh.mem] at h1
  rw [read_ok (by rw [hh.gen, h2]) h1 (by rw [hb]; simp; omega), hb, List.append_assoc, List.drop_length_add_append,
    List.drop_append_of_le_length (by omega), List.take_append_of_le_length (by simp; omega)]

theorem step_ldstr {t : Nat} (ht : t < 2 ^ 32) (hc : HasAt fr.code ip (0x72 :: leBytes 4 t)) {us : List Nat}
    (hs : getString cfg fr.assembly.userStringData ⟨t⟩ = .ok (some us)) :
    step cfg ops tf fr ip v = (allocString cfg us >>= fun p => push (.object p) >>= fun _ => pure (.next (ip + 5)) : X Action) v := by
  rw [step_one hc (by decide) (op := .Ldstr) (by decide)]
  show doLdstr cfg fr (ip + 1) v = _
  unfold doLdstr
  rw [X.liftM_bind_ok (hc.tail.fetch_leBytes (n := 3) ht), hs, X.liftM_bind_ok rfl]
  rfl

theorem step_newarr {t : Nat} (ht : t < 2 ^ 32) (hc : HasAt fr.code ip (0x8d :: leBytes 4 t)) {e : Nat} {n : BitVec 32}
    {l : List Value} (hs : fr.assembly.resolveType cfg ⟨t⟩ = .ok (some e)) (ho : v.operands = .i32 n :: l) :
    step cfg ops tf fr ip v = (allocArray cfg tf e (asIndex n) >>= fun p => push (.object p) >>= fun _ =>
      pure (.next (ip + 5)) : X Action) { v with operands := l } := by
  rw [step_one hc (by decide) (op := .Newarr) (by decide)]
  show doNewarr cfg tf fr (ip + 1) v = _
  unfold doNewarr
  rw [X.liftM_bind_ok (hc.tail.fetch_leBytes (n := 3) ht), hs, X.liftM_bind_ok rfl]
  simp only [Res.unwrap]
  rw [X.liftM_bind_ok rfl, X.bind_ok (popInt_ok ho)]

/-- One instruction. -/
theorem step_follows (hleq : LawfulEq ops) (hok : ∀ l, ok l → ¬ Wide l) (hl : fr.code.length < 2 ^ 62) (hp : PrimitivesOk w) {p : Proc}
    (htok : Tokens cfg tf w meth fld fr.assembly p) {i : Instr} {c : Bytes} (he : Enc ok i c) (hc : HasAt fr.code ip c)
    (h : Sim cfg tf w (offsets fld) fr v rest k s σ) :
    Follows cfg ops tf w (offsets fld) fr ip v rest k (ip + c.length) (i.effect ops cfg.checks cfg.checks p s σ) := by
  cases he with
  | base he => exact base_follows hleq hok hl he hc h
  | @long x =>
    obtain ⟨vals, hst, hv⟩ := h.stack
    refine .pushes h (vals := .i64 x :: vals) (.cons rfl hv) ?_
    rw [step_one hc (by decide) (op := .Ldc_I8) (by decide)]
    refine (immediate_ok (hc.tail.fetch_leBytes x.isLt) v).trans ?_
    rw [hst]; simp
  | @single x =>
    obtain ⟨vals, hst, hv⟩ := h.stack
    refine .pushes h (vals := .f32 x :: vals) (.cons rfl hv) ((C53_constants.2.2.2.1 x hc).trans ?_)
    rw [hst]; rfl
  | @double x =>
    obtain ⟨vals, hst, hv⟩ := h.stack
    refine .pushes h (vals := .f64 x :: vals) (.cons rfl hv) ((C53_constants.2.2.2.2 x hc).trans ?_)
    rw [hst]; rfl
  | @ldstr t ht =>
    simp only [Instr.effect]
    cases hs : p.strings t with
    | none => trivial
    | some text =>
      obtain ⟨h1, ty, tr, h2, h3⟩ := htok.strings t text hs
      obtain ⟨vals, hst, hv⟩ := h.stack
      intro hroom ip' hip
      obtain rfl : ip' = ip + 5 := by simp at hip; omega
      have hroom' := hroom
      rw [cost_add, ← h.store.length] at hroom'
      obtain ⟨id, hal⟩ := allocString_room (cfg := cfg) (us := text.flatMap utf16) h.store.cap.1 h.store.world h2 h3 hroom'
      have hcell : CellIs (offsets fld) (.str id (text.flatMap utf16)) (.str text) := rfl
      refine ⟨_, (step_ldstr ht hc h1).trans ((X.bind_ok hal).trans rfl), ⟨rfl, rfl⟩, ?_⟩
      refine h.change (vals := .object _ :: vals) rfl rfl (by show _ :: v.operands = _; rw [hst]; rfl)
        (.cons (h.store.new _) (hv.imp fun _ _ hr => hr.grew (.add _ _))) (.add _ _) ?_
      refine h.store.add hcell ⟨?_, ?_, text, fromUtf16_complete text⟩ hroom rfl (.refl _) rfl h.store.arrays rfl rfl
      · simp only [Cell.cost] at hroom'; omega
      · exact utf16_lt text
  | @newarr t ht =>
    simp only [Instr.effect]
    cases hi : p.ints t with
    | false => trivial
    | true =>
      obtain ⟨vals, hst, hv⟩ := h.stack
      match hs : σ.stack with
      | [] => trivial
      | .ref _ :: _ => trivial
      | .num (.long _) :: _ => trivial
      | .num (.single _) :: _ => trivial
      | .num (.double _) :: _ => trivial
      | .int n :: st =>
        rw [hs] at hv
        cases hv with
        | @cons _ _ vals _ h1 hv =>
        cases h1.int
        have hst : v.operands = .i32 n :: (vals ++ rest) := hst
        obtain ⟨ps, tr, e1, e2, e3, e4, e5⟩ := htok.ints t hi
        have hrun := step_newarr (cfg := cfg) (ops := ops) (tf := tf) ht hc e2 hst
        dsimp only
        by_cases hn : 0 ≤ n.toInt
        · rw [if_pos hn]
          intro hroom ip' hip
          obtain rfl : ip' = ip + 5 := by simp at hip; omega
          have hx := asIndex_eq hn
          have hxe : asIndex n = n.toInt.toNat := by omega
          rw [hxe] at hrun
          have hroom' := hroom
          rw [cost_add, ← h.store.length] at hroom'
          simp only [Cell.cost, List.length_replicate] at hroom'
          obtain ⟨id, w', hal, h2, h3, h4⟩ := allocArray_room (cfg := cfg) (tf := tf) (v := { v with operands := vals ++ rest })
            h.store.cap.1 h.store.world h.store.arrays e1 e3 e5 hroom'
          have hcell : CellIs (offsets fld) (.ints id tr.id n.toInt.toNat (List.replicate (4 * n.toInt.toNat) 0))
              (.ints (List.replicate n.toInt.toNat 0)) := ⟨by simp, (words_zero _).symm⟩
          refine ⟨_, hrun.trans ((X.bind_ok hal).trans rfl), ⟨rfl, rfl⟩, ?_⟩
          refine h.change (vals := .object _ :: vals) rfl rfl rfl
            (.cons (h.store.new _) (hv.imp fun _ _ hr => hr.grew (.add _ _))) (.add _ _) ?_
          exact h.store.add hcell ⟨by simp, by omega, ps, tr, e1, e3, rfl, e4⟩ hroom rfl h2 h3 h4 rfl rfl
        · rw [if_neg hn]
          cases hck : cfg.checks with
          | false => trivial
          | true =>
            rw [if_pos rfl]
            have hlarge := asIndex_large (x := n) (by omega)
            have hmul : umul cfg 64 4 (asIndex n) = .panic := by
              unfold umul
              rw [if_neg (by omega), if_pos hck]
            show (step cfg ops tf fr ip v).1 = .panic
            rw [hrun, X.bind_run]
            have hal : allocArray cfg tf ps.int (asIndex n) { v with operands := vals ++ rest } =
                (.panic, { v with operands := vals ++ rest }) := by
              unfold allocArray
              rw [X.view_bind_ok (typeSize_evolves h.store.world e5), hmul]
              rfl
            rw [hal]
  | ldelem =>
    simp only [Instr.effect]
    obtain ⟨vals, hst, hv⟩ := h.stack
    split
    · rename_i i o st hs
      rw [hs] at hv
      cases hv with
      | cons h1 hv =>
      cases hv with
      | @cons _ _ vals _ h2 hv =>
      cases h1.int
      obtain ⟨h3, rfl⟩ := h2.ref
      have hst : v.operands = .i32 i :: .object _ :: (vals ++ rest) := hst
      split
      · rename_i xs hcell
        obtain ⟨bs, b, g1, g2, g3, g4, g5, g6⟩ := h.store.get hcell
        cases b with
        | ints id elem n data =>
          obtain ⟨rfl, rfl⟩ := g4
          have hia := g1.intArray (p := ⟨0, addr s.cells o⟩) h.store.world rfl g6
          have hok' := g1.ok _ g6.mem
          have hrun := ldelem_run (cfg := cfg) (ops := ops) (tf := tf) hc hst hia
          cases hel : element xs i with
          | none =>
            have hn := element_none hok'.2.1 hel
            rw [if_neg hn] at hrun
            show (step cfg ops tf fr ip v).1 = .panic
            rw [hrun]; rfl
          | some x =>
            obtain ⟨k1, k2, k3⟩ := element_some hel
            have hlt := index_lt k3
            rw [k2, if_pos hlt] at hrun
            have hrd := read_in (off := 4 * i.toInt.toNat) (n := 4) g1 g6
              (hd := 2 :: leBytes 4 id ++ leBytes 4 elem ++ leBytes 8 xs.length) rfl (by rw [length_words]; omega)
            rw [words_get k3] at hrd
            refine .pushes h (vals := .i32 x :: vals) (.cons rfl hv) (hrun.trans ?_)
            rw [X.bind_ok (peek_read (v := { v with operands := vals ++ rest }) (by simpa using hrd))]
            rw [leNat_leBytes _ _ x.isLt, BitVec.ofNat_toNat]
            rfl
        | str => exact g4.elim
        | obj => exact g4.elim
      · trivial
    · trivial
  | stelem =>
    simp only [Instr.effect]
    obtain ⟨vals, hst, hv⟩ := h.stack
    split
    · rename_i x i o st hs
      rw [hs] at hv
      cases hv with
      | cons h0 hv =>
      cases hv with
      | cons h1 hv =>
      cases hv with
      | @cons _ _ vals _ h2 hv =>
      cases h0.int
      cases h1.int
      obtain ⟨h3, rfl⟩ := h2.ref
      have hst : v.operands = .i32 x :: .i32 i :: .object _ :: (vals ++ rest) := hst
      split
      · rename_i xs hcell
        obtain ⟨bs, b, g1, g2, g3, g4, g5, g6⟩ := h.store.get hcell
        cases b with
        | ints id elem n data =>
          obtain ⟨rfl, rfl⟩ := g4
          have hia := g1.intArray (p := ⟨0, addr s.cells o⟩) h.store.world rfl g6
          have hok' := g1.ok _ g6.mem
          have hrun := stelem_run (cfg := cfg) (ops := ops) (tf := tf) hc hst hia
          cases hel : element xs i with
          | none =>
            have hn := element_none hok'.2.1 hel
            rw [if_neg hn] at hrun
            show (step cfg ops tf fr ip v).1 = .panic
            rw [hrun]; rfl
          | some y =>
            obtain ⟨k1, k2, k3⟩ := element_some hel
            have hlt := index_lt k3
            rw [k2, if_pos hlt] at hrun
            intro hroom ip' hip
            obtain rfl : ip' = ip + 1 := by simp at hip; omega
            have hcell' : CellIs (offsets fld) (.ints id elem xs.length (words (xs.set i.toInt.toNat x)))
              (.ints (xs.set i.toInt.toNat x)) := ⟨by simp, rfl⟩
            obtain ⟨h', hw, hh'⟩ := heap_put (v := v) (p := ⟨0, addr s.cells o⟩) (m := leBytes 4 x.toNat)
              (off := 4 * i.toInt.toNat) g1 g3 (by rw [g5])
              (b' := .ints id elem xs.length (words (xs.set i.toInt.toNat x)))
              (hd := 2 :: leBytes 4 id ++ leBytes 4 elem ++ leBytes 8 xs.length) (data := words xs) rfl
              (by rw [words_set hlt]; rfl) (by rw [length_words]; simp; omega)
              ⟨by rw [length_words]; simp, hok'.2⟩
            refine ⟨{ v with operands := vals ++ rest, heap := h' }, hrun.trans ?_, ⟨rfl, rfl⟩, ?_⟩
            · rw [X.bind_ok (poke_write (v := { v with operands := vals ++ rest }) (by simpa using hw))]
              rfl
            · have hg := Grew.put hcell (c' := .ints (xs.set i.toInt.toNat x)) (by simp [Cell.cost])
              refine h.change (s' := s.put o _) (vals := vals) rfl rfl rfl (hv.imp fun _ _ hr => hr.grew hg) hg ?_
              exact h.store.put g2 hh' hcell' rfl rfl
        | str => exact g4.elim
        | obj => exact g4.elim
      · trivial
    · trivial
  | @ldfld t ht =>
    simp only [Instr.effect]
    obtain ⟨vals, hst, hv⟩ := h.stack
    split
    · rename_i f o st hf hs
      rw [hs] at hv
      cases hv with
      | @cons _ _ vals _ h2 hv =>
      obtain ⟨h3, rfl⟩ := h2.ref
      have hst : v.operands = .object _ :: (vals ++ rest) := hst
      split
      · rename_i cls val hcell
        split
        · rename_i hmem
          obtain ⟨bs, b, g1, g2, g3, g4, g5, g6⟩ := h.store.get hcell
          cases b with
          | obj ty id data =>
            obtain ⟨d1, d2, d3⟩ := g4
            obtain ⟨e1, tr, e2, e3⟩ := htok.fields t f hf
            have hfit := d2.1 f hmem
            have hrun := ldfld_run (cfg := cfg) (ops := ops) (tf := tf) ht hc e1 hst
            have hrd := read_in (off := (fld f.1).offset) (n := f.2.width) g1 g6 (hd := 0 :: leBytes 4 id) rfl (by rw [d1]; exact hfit)
            rw [(d3 f hmem).2] at hrd
            have hgf := getField_ok (v := { v with operands := vals ++ rest }) (f := fld f.1) (a := (val f).value)
              (bs := (val f).bytes) (g1.plain (p := ⟨0, addr s.cells o⟩) rfl g6).1 (hp.evolves h.store.world)
              (h.store.world.typeAt e2) (by rw [e3, Num.typeName, (d3 f hmem).1])
              (Num.valueBytes _) (by rw [Num.length_bytes, (d3 f hmem).1]; simpa using hrd)
            refine .pushes h (vals := (val f).value :: vals) (.cons rfl hv) (hrun.trans ?_)
            rw [X.bind_ok hgf]
            simp
            rfl
          | str => exact g4.elim
          | ints => exact g4.elim
        · trivial
      · trivial
    · trivial
  | @stfld t ht =>
    simp only [Instr.effect]
    obtain ⟨vals, hst, hv⟩ := h.stack
    split
    · rename_i f x o st hf hs
      rw [hs] at hv
      cases hv with
      | cons h1 hv =>
      cases hv with
      | @cons _ _ vals _ h2 hv =>
      cases h1.num
      obtain ⟨h3, rfl⟩ := h2.ref
      have hst : v.operands = x.value :: .object _ :: (vals ++ rest) := hst
      split
      · rename_i cls val hcell
        split
        · rename_i hmem
          obtain ⟨bs, b, g1, g2, g3, g4, g5, g6⟩ := h.store.get hcell
          cases b with
          | obj ty id data =>
            obtain ⟨d1, d2, d3⟩ := g4
            obtain ⟨e1, tr, e2, e3⟩ := htok.fields t f hf
            have hfit := d2.1 f hmem.1
            have hok' := g1.ok _ g6.mem
            have hsz : (fld f.1).offset + x.bytes.length ≤ data.length := by rw [d1, Num.length_bytes, hmem.2]; exact hfit
            intro hroom ip' hip
            obtain rfl : ip' = ip + 5 := by simp at hip; omega
            obtain ⟨h', hw, hh'⟩ := heap_put (v := v) (p := ⟨0, addr s.cells o⟩) (m := x.bytes)
              (off := (fld f.1).offset) g1 g3 (by rw [g5]) (b' := .obj ty id (splice data (fld f.1).offset x.bytes))
              (hd := 0 :: leBytes 4 id) (data := data) rfl rfl hsz
              (by show typeSize _ _ _ _ = _; rw [length_splice hsz]; exact hok')
            have hcell' : CellIs (offsets fld) (.obj ty id (splice data (fld f.1).offset x.bytes))
                (.inst cls fun g => if g = f then x else val g) := by
              refine ⟨by rw [length_splice hsz]; exact d1, d2, fun g hg => ?_⟩
              by_cases hgf : g = f
              · subst hgf
                dsimp only
                rw [if_pos rfl]
                have := splice_same hsz
                rw [Num.length_bytes, hmem.2] at this
                exact ⟨hmem.2, this⟩
              · dsimp only
                rw [if_neg hgf]
                refine ⟨(d3 g hg).1, ?_⟩
                rw [splice_apart hsz]
                · exact (d3 g hg).2
                · rw [Num.length_bytes, hmem.2]
                  exact d2.2 g hg f hmem.1 hgf
            have hg := Grew.put hcell (c' := .inst cls fun g => if g = f then x else val g) (by simp [Cell.cost])
            refine ⟨_, stfld_run ht hc e1 hst (g1.plain (p := ⟨0, addr s.cells o⟩) rfl g6).1 (Num.valueBytes _) (by simpa using hw), ⟨rfl, rfl⟩, ?_⟩
            refine h.change (s' := s.put o _) (vals := vals) rfl rfl rfl (hv.imp fun _ _ hr => hr.grew hg) hg ?_
            exact h.store.put g2 hh' hcell' rfl rfl
          | str => exact g4.elim
          | ints => exact g4.elim
        · trivial
      · trivial
    · trivial

end Clr.Obj
