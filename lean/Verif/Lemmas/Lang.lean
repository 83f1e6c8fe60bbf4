import Verif.Spec.Lang
import Verif.Props.Decode
import Verif.Props.Variables
import Verif.Lemmas.Calls
/-! # Running compiled expressions and statements -/

namespace Clr

variable {cfg : Cfg} {ops : FloatOps} {tf : Nat} {fr : Frame} {ip ip' : Nat} {v v' : VM} {rest : List Value}

/-- The interpreter gets from address `ip` and state `v` to `ip'` and `v'` by `k` instructions of the method itself. -/
inductive Goes (cfg : Cfg) (ops : FloatOps) (tf : Nat) (fr : Frame) : Nat → Nat → VM → Nat → VM → Prop
  | refl (ip : Nat) (v : VM) : Goes cfg ops tf fr 0 ip v ip v
  | next {k ip n ip' : Nat} {v v1 v' : VM} : step cfg ops tf fr ip v = (.ok (.next n), v1) →
      Goes cfg ops tf fr k n v1 ip' v' → Goes cfg ops tf fr (k + 1) ip v ip' v'

namespace Goes

theorem one {n : Nat} (h : step cfg ops tf fr ip v = (.ok (.next n), v')) : Goes cfg ops tf fr 1 ip v n v' :=
  .next h (.refl _ _)

theorem trans {k l n : Nat} {v1 : VM} (h : Goes cfg ops tf fr k ip v n v1) (h' : Goes cfg ops tf fr l n v1 ip' v') :
    Goes cfg ops tf fr (k + l) ip v ip' v' := by
  induction h with
  | refl => simpa using h'
  | next h1 _ ih => rw [Nat.add_right_comm]; exact .next h1 (ih h')

theorem loop_eq {k : Nat} (h : Goes cfg ops tf fr k ip v ip' v') (fuel : Nat) :
    loop cfg ops tf (fuel + k) fr ip v = loop cfg ops tf fuel fr ip' v' := by
  induction h with
  | refl => rfl
  | next h1 _ ih => rw [← Nat.add_assoc, loop_next h1, ih]

theorem loop_timeout {k : Nat} (h : Goes cfg ops tf fr k ip v ip' v') {fuel : Nat} (hf : fuel ≤ k) :
    (loop cfg ops tf fuel fr ip v).1 = .timeout := by
  induction h generalizing fuel with
  | refl => obtain rfl : fuel = 0 := by omega
            rfl
  | next h1 _ ih =>
    cases fuel with
    | zero => rfl
    | succ fuel => rw [loop_next h1]; exact ih (by omega)

end Goes

/-- The values of the variables in the frame are those in the store, as far as it gives any. -/
def Holds (fr : Frame) (v : VM) (σ : Store) : Prop :=
  ∀ x i a, σ x i = some a → Usable v (fr.slice x) i ∧ (fr.slice x).at v i = some (.i32 a)

theorem Holds.operands {σ : Store} {l : List Value} (h : Holds fr v σ) : Holds fr { v with operands := l } σ := by
  intro x i a ha
  have := h x i a ha
  cases hx : fr.slice x <;> rw [hx] at this <;> exact this

theorem const_run {n : Int} {c : Bytes} (h : c ∈ constCodes n) (hc : HasAt fr.code ip c) :
    step cfg ops tf fr ip v =
      (.ok (.next (ip + c.length)), { v with operands := .i32 (BitVec.ofInt 32 n) :: v.operands }) := by
  simp only [constCodes, List.mem_append] at h
  rcases h with (h | h) | h <;> split at h <;> simp only [List.mem_singleton, List.not_mem_nil] at h <;> subst h <;>
    rename_i hn
  · have := C53_short_constants (cfg := cfg) (ops := ops) (tf := tf) (v := v) (n + 1).toNat (by omega)
      (UInt8.ofNat (0x16 + n).toNat) (by rw [UInt8.toNat_ofNat']; omega) hc
    rw [this, show (((n + 1).toNat : Int) - 1) = n by omega]
    rfl
  · exact C53_constants.1 n hn hc
  · exact C53_constants.2.1 n hn hc

/-- `and`, `or`, `xor` as operations on the whole word. -/
theorem bitwise_word (op : Bitwise) (a b : BitVec 32) (hc : HasAt fr.code ip [op.opcode])
    (hs : v.operands = .i32 b :: .i32 a :: rest) :
    step cfg ops tf fr ip v = (.ok (.next (ip + 1)), { v with operands := .i32 (op.result a b) :: rest }) := by
  obtain ⟨r, h1, h2⟩ := C48_bitwise (cfg := cfg) (ops := ops) (tf := tf) op a b hc hs
  rw [h1]
  congr 4
  apply BitVec.eq_of_getLsbD_eq
  intro i hi
  rw [h2 i hi]
  cases op <;> simp [Bitwise.result, Bitwise.bit]

theorem not_word (a : BitVec 32) (hc : HasAt fr.code ip [0x66]) (hs : v.operands = .i32 a :: rest) :
    step cfg ops tf fr ip v = (.ok (.next (ip + 1)), { v with operands := .i32 (~~~a) :: rest }) := by
  obtain ⟨r, h1, h2⟩ := C48_not (cfg := cfg) (ops := ops) (tf := tf) a hc hs
  rw [h1]
  congr 4
  apply BitVec.eq_of_getLsbD_eq
  intro i hi
  rw [h2 i hi]
  simp [hi]

theorem div_word (a b : BitVec 32) (hc : HasAt fr.code ip [0x5b]) (hs : v.operands = .i32 b :: .i32 a :: rest) :
    step cfg ops tf fr ip v = if divides a b then
      (.ok (.next (ip + 1)), { v with operands := .i32 (BitVec.ofInt 32 (a.toInt.tdiv b.toInt)) :: rest })
      else (.panic, { v with operands := rest }) := by
  refine (div_step .int a b hc hs).trans ?_
  by_cases h : b.toInt = 0 ∨ a.toInt = -2 ^ 31 ∧ b.toInt = -1
  · rw [if_neg (show ¬ divides a b from not_not_intro h)]; exact if_pos h
  · rw [if_pos (show divides a b from h)]
    refine (if_neg h).trans ?_
    have : BitVec.sdiv a b = BitVec.ofInt 32 (a.toInt.tdiv b.toInt) := by
      apply BitVec.eq_of_toInt_eq
      rw [BitVec.toInt_sdiv, BitVec.toInt_ofInt]
    rw [this]; rfl

theorem rem_word (a b : BitVec 32) (hc : HasAt fr.code ip [0x5d]) (hs : v.operands = .i32 b :: .i32 a :: rest) :
    step cfg ops tf fr ip v = if divides a b then
      (.ok (.next (ip + 1)), { v with operands := .i32 (BitVec.ofInt 32 (a.toInt.tmod b.toInt)) :: rest })
      else (.panic, { v with operands := rest }) := by
  refine (rem_step .int a b hc hs).trans ?_
  by_cases h : b.toInt = 0 ∨ a.toInt = -2 ^ 31 ∧ b.toInt = -1
  · rw [if_neg (show ¬ divides a b from not_not_intro h)]; exact if_pos h
  · rw [if_pos (show divides a b from h)]
    refine (if_neg h).trans ?_
    have : BitVec.srem a b = BitVec.ofInt 32 (a.toInt.tmod b.toInt) := by
      rw [← BitVec.toInt_srem, BitVec.ofInt_toInt]
    rw [this]; rfl

theorem shift_word (op : Shift) (a b : BitVec 32) (hc : HasAt fr.code ip [op.opcode])
    (hs : v.operands = .i32 b :: .i32 a :: rest) :
    match shiftResult cfg.checks op a b with
    | .done r => step cfg ops tf fr ip v = (.ok (.next (ip + 1)), { v with operands := .i32 r :: rest })
    | _ => (step cfg ops tf fr ip v).1 = .panic := by
  unfold shiftResult
  by_cases h : 0 ≤ b.toInt ∧ b.toInt < 32
  · rw [if_pos h]; exact C48_shift op a b hc hs h.1 h.2
  · rw [if_neg h]
    have := C48_shift_count (cfg := cfg) (ops := ops) (tf := tf) op a b hc hs (by omega)
    by_cases hk : cfg.checks = true
    · rw [if_pos hk] at this ⊢; exact congrArg Prod.fst this
    · rw [if_neg hk] at this ⊢; exact this

/-- What running the code of an expression with the given outcome does. -/
def Evaluates (cfg : Cfg) (ops : FloatOps) (tf : Nat) (fr : Frame) (ip ip' : Nat) (v : VM) :
    Outcome (BitVec 32) → Prop
  | .done a => ∃ k, Goes cfg ops tf fr (k + 1) ip v ip' { v with operands := .i32 a :: v.operands }
  | .stops => ∃ k n v', Goes cfg ops tf fr k ip v n v' ∧ (step cfg ops tf fr n v').1 = .panic
  | .undefined => True
  | .unfinished => False

theorem Evaluates.unary {o : Outcome (BitVec 32)} {f : BitVec 32 → Outcome (BitVec 32)} {n : Nat}
    (h : Evaluates cfg ops tf fr ip n v o)
    (hf : ∀ a, match f a with
      | .done r => step cfg ops tf fr n { v with operands := .i32 a :: v.operands } =
          (.ok (.next ip'), { v with operands := .i32 r :: v.operands })
      | .stops => (step cfg ops tf fr n { v with operands := .i32 a :: v.operands }).1 = .panic
      | .undefined => True
      | .unfinished => False) : Evaluates cfg ops tf fr ip ip' v (o.bind f) := by
  cases o with
  | done a =>
    obtain ⟨k, hk⟩ := h
    have := hf a
    show Evaluates cfg ops tf fr ip ip' v (f a)
    cases hr : f a with
    | done r => rw [hr] at this; exact ⟨_, hk.trans (.one this)⟩
    | stops => rw [hr] at this; exact ⟨_, _, _, hk, this⟩
    | undefined => trivial
    | unfinished => rw [hr] at this; exact this
  | stops => exact h
  | undefined => trivial
  | unfinished => exact h

theorem Evaluates.binary {σ : Store} {o o' : Outcome (BitVec 32)} {f : BitVec 32 → BitVec 32 → Outcome (BitVec 32)} {n m : Nat}
    (h : Evaluates cfg ops tf fr ip n v o)
    (h' : ∀ v : VM, ∀ a, v.operands = .i32 a :: rest → Holds fr v σ → Evaluates cfg ops tf fr n m v o') (hv : Holds fr v σ)
    (hr : v.operands = rest)
    (hf : ∀ a b, match f a b with
      | .done r => step cfg ops tf fr m { v with operands := .i32 b :: .i32 a :: v.operands } =
          (.ok (.next ip'), { v with operands := .i32 r :: v.operands })
      | .stops => (step cfg ops tf fr m { v with operands := .i32 b :: .i32 a :: v.operands }).1 = .panic
      | .undefined => True
      | .unfinished => False) : Evaluates cfg ops tf fr ip ip' v (o.bind fun a => o'.bind fun b => f a b) := by
  cases o with
  | done a =>
    obtain ⟨k, hk⟩ := h
    have h2 := h' { v with operands := .i32 a :: v.operands } a (by rw [← hr]) hv.operands
    show Evaluates cfg ops tf fr ip ip' v (o'.bind fun b => f a b)
    cases o' with
    | done b =>
      show Evaluates cfg ops tf fr ip ip' v (f a b)
      obtain ⟨l, hl⟩ := h2
      have := hf a b
      cases hr : f a b with
      | done r => rw [hr] at this; exact ⟨_, (hk.trans hl).trans (.one this)⟩
      | stops => rw [hr] at this; exact ⟨_, _, _, hk.trans hl, this⟩
      | undefined => trivial
      | unfinished => rw [hr] at this; exact this
    | stops =>
      obtain ⟨l, n', v', hl, hp⟩ := h2
      exact ⟨_, _, _, hk.trans hl, hp⟩
    | undefined => trivial
    | unfinished => exact h2
  | stops => exact h
  | undefined => trivial
  | unfinished => exact h

/-- Running the code of an expression. -/
theorem expr_run {ok : Bytes → Prop} (hok : ∀ l, ok l → ¬ [0xfe, 0x09] <+: l) {σ : Store} {e : Expr} {c : Bytes}
    (he : e.Code ok c) (hc : HasAt fr.code ip c) (hv : Holds fr v σ) :
    Evaluates cfg ops tf fr ip (ip + c.length) v (e.eval cfg.checks σ) := by
  induction he generalizing ip v with
  | const h => exact ⟨0, .one (const_run h hc)⟩
  | @var x i c h hl =>
    simp only [Expr.eval]
    cases hs : σ x i with
    | none => trivial
    | some a =>
      obtain ⟨h1, h2⟩ := hv x i a hs
      exact ⟨0, .one ((load_run h (hok _ hl) hc).trans (loadSlot_ok h1 h2 _))⟩
  | @neg a ca _ ih =>
    refine (ih hc.left hv).unary fun x => ?_
    have := C48_neg (cfg := cfg) (ops := ops) (tf := tf) (v := { v with operands := .i32 x :: v.operands }) x hc.drop rfl
    unfold fit
    split at this <;> rename_i h
    · rw [if_pos h]; exact congrArg Prod.fst this
    · rw [if_neg h]; simpa [Nat.add_assoc] using this
  | @not a ca _ ih =>
    refine (ih hc.left hv).unary fun x => ?_
    have := not_word (cfg := cfg) (ops := ops) (tf := tf) (v := { v with operands := .i32 x :: v.operands }) x hc.drop rfl
    simpa [Nat.add_assoc] using this
  | @arith op a b ca cb _ _ ih1 ih2 =>
    refine (ih1 hc.left hv).binary (fun u _ _ hu => ih2 hc.drop.left hu) hv rfl fun x y => ?_
    have := C48_arith (cfg := cfg) (ops := ops) (tf := tf) (v := { v with operands := .i32 y :: .i32 x :: v.operands })
      op x y hc.drop.drop rfl
    unfold fit
    split at this <;> rename_i h
    · rw [if_pos h]; exact congrArg Prod.fst this
    · rw [if_neg h]; simpa [Nat.add_assoc] using this
  | @bitwise op a b ca cb _ _ ih1 ih2 =>
    refine (ih1 hc.left hv).binary (fun u _ _ hu => ih2 hc.drop.left hu) hv rfl fun x y => ?_
    have := bitwise_word (cfg := cfg) (ops := ops) (tf := tf) (v := { v with operands := .i32 y :: .i32 x :: v.operands })
      op x y hc.drop.drop rfl
    simpa [Nat.add_assoc] using this
  | @shift op a b ca cb _ _ ih1 ih2 =>
    refine (ih1 hc.left hv).binary (fun u _ _ hu => ih2 hc.drop.left hu) hv rfl fun x y => ?_
    have := shift_word (cfg := cfg) (ops := ops) (tf := tf) (v := { v with operands := .i32 y :: .i32 x :: v.operands })
      op x y hc.drop.drop rfl
    have hne : shiftResult cfg.checks op x y ≠ .unfinished := by
      unfold shiftResult; repeat' split
      all_goals simp
    cases hr : shiftResult cfg.checks op x y with
    | done r => rw [hr] at this; simpa [Nat.add_assoc] using this
    | stops => rw [hr] at this; exact this
    | undefined => trivial
    | unfinished => exact hne hr
  | @div a b ca cb _ _ ih1 ih2 =>
    refine (ih1 hc.left hv).binary (fun u _ _ hu => ih2 hc.drop.left hu) hv rfl fun x y => ?_
    have := div_word (cfg := cfg) (ops := ops) (tf := tf) (v := { v with operands := .i32 y :: .i32 x :: v.operands })
      x y hc.drop.drop rfl
    by_cases h : divides x y
    · rw [if_pos h] at this ⊢; simpa [Nat.add_assoc] using this
    · rw [if_neg h] at this ⊢; exact congrArg Prod.fst this
  | @rem a b ca cb _ _ ih1 ih2 =>
    refine (ih1 hc.left hv).binary (fun u _ _ hu => ih2 hc.drop.left hu) hv rfl fun x y => ?_
    have := rem_word (cfg := cfg) (ops := ops) (tf := tf) (v := { v with operands := .i32 y :: .i32 x :: v.operands })
      x y hc.drop.drop rfl
    by_cases h : divides x y
    · rw [if_pos h] at this ⊢; simpa [Nat.add_assoc] using this
    · rw [if_neg h] at this ⊢; exact congrArg Prod.fst this
  | @compare c a b ca cb _ _ ih1 ih2 =>
    refine (ih1 hc.left hv).binary (fun u _ _ hu => ih2 hc.drop.left hu) hv rfl fun x y => ?_
    have := C51_compare (cfg := cfg) (ops := ops) (tf := tf) (v := { v with operands := .i32 y :: .i32 x :: v.operands })
      c x y hc.drop.drop rfl
    have hl : c.opcode.length = 2 := by cases c <;> rfl
    simpa [Nat.add_assoc, hl] using this

/-- Everything but the contents of variables is the same. -/
structure Like (v v' : VM) : Prop where
  operands : v'.operands = v.operands
  heap : v'.heap = v.heap
  world : v'.world = v.world
  allocated : v'.allocated = v.allocated
  gen : v'.stack.gen = v.stack.gen
  cap : v'.stack.cap = v.stack.cap
  slots : v'.stack.slots.length = v.stack.slots.length
  host : v'.host.length = v.host.length

theorem Like.rfl' : Like v v := ⟨rfl, rfl, rfl, rfl, rfl, rfl, rfl, rfl⟩

theorem Like.trans {v1 : VM} (h : Like v v1) (h' : Like v1 v') : Like v v' :=
  ⟨h'.operands.trans h.operands, h'.heap.trans h.heap, h'.world.trans h.world, h'.allocated.trans h.allocated,
    h'.gen.trans h.gen, h'.cap.trans h.cap, h'.slots.trans h.slots, h'.host.trans h.host⟩

theorem Like.usable {r : Region} {i : Nat} (h : Like v v') (hu : Usable v r i) : Usable v' r i := by
  cases r with
  | host => exact Nat.lt_of_lt_of_eq hu h.host.symm
  | slots g b c => exact ⟨hu.1, by rw [h.gen]; exact hu.2.1, by rw [h.slots]; exact hu.2.2⟩

/-- The first `n x` variables of each kind can be accessed, and locals and arguments have separate memory. -/
structure Ready (fr : Frame) (v : VM) (n : Var → Nat) : Prop where
  usable : ∀ x i, i < n x → Usable v (fr.slice x) i
  apart : Apart fr.locals fr.params

theorem Ready.like {n : Var → Nat} (h : Ready fr v n) (hl : Like v v') : Ready fr v' n :=
  ⟨fun x i hi => hl.usable (h.usable x i hi), h.apart⟩

theorem slice_apart (hap : Apart fr.locals fr.params) {x y : Var} (hxy : x ≠ y) : Apart (fr.slice x) (fr.slice y) := by
  cases x <;> cases y <;> first | exact absurd rfl hxy | exact hap | skip
  revert hap
  simp only [Frame.slice]
  cases fr.locals <;> cases fr.params <;> simp [Apart] <;> omega

theorem set_run {n : Var → Nat} {σ : Store} {x : Var} {i : Nat} {l : Bytes} {a : BitVec 32} (hl : l ∈ x.stores i)
    (hn : ¬ [0xfe, 0x0b] <+: l) (hc : HasAt fr.code ip l) (hr : Ready fr v n) (hi : i < n x) (hv : Holds fr v σ) :
    ∃ v', step cfg ops tf fr ip { v with operands := .i32 a :: v.operands } = (.ok (.next (ip + l.length)), v') ∧
      Like v v' ∧ Holds fr v' (σ.set x i a) := by
  have hu := hr.usable x i hi
  have hu' : Usable { v with operands := .i32 a :: v.operands } (fr.slice x) i := by
    cases h : fr.slice x <;> rw [h] at hu <;> exact hu
  refine ⟨_, (store_run hl hn hc).trans (storeSlot_ok rfl hu' _), ?_, ?_⟩
  · cases fr.slice x <;> constructor <;> simp [Region.put]
  · intro y j b hb
    have hw : Usable v (fr.slice y) j := by
      by_cases h : y = x ∧ j = i
      · rw [h.1, h.2]; exact hu
      · exact (hv y j b (by simpa [Store.set, h] using hb)).1
    refine ⟨Usable.put (by cases h : fr.slice y <;> rw [h] at hw <;> exact hw), ?_⟩
    by_cases hxy : y = x
    · subst hxy
      rw [at_put_same (v := { v with operands := v.operands }) hu hw]
      by_cases hij : i = j
      · subst hij
        simp only [Store.set] at hb
        simp at hb; simp [hb]
      · rw [if_neg hij]
        exact (hv y j b (by simpa [Store.set, Ne.symm hij] using hb)).2
    · rw [at_put_apart (v := { v with operands := v.operands }) hu hw (slice_apart hr.apart (Ne.symm hxy))]
      exact (hv y j b (by simpa [Store.set, hxy] using hb)).2

/-- What running the code of a statement with the given outcome does; `n` is the number of iterations allowed. -/
def Executes (cfg : Cfg) (ops : FloatOps) (tf : Nat) (fr : Frame) (n ip ip' : Nat) (v : VM) : Outcome Store → Prop
  | .done σ => ∃ k v', Goes cfg ops tf fr k ip v ip' v' ∧ Like v v' ∧ Holds fr v' σ
  | .stops => ∃ k n v', Goes cfg ops tf fr k ip v n v' ∧ (step cfg ops tf fr n v').1 = .panic
  | .undefined => True
  | .unfinished => ∃ k m v', n ≤ k ∧ Goes cfg ops tf fr k ip v m v'

theorem Goes.stops {k n m : Nat} {v1 : VM} (h : Goes cfg ops tf fr k ip v n v1)
    (h' : ∃ k n v', Goes cfg ops tf fr k m v1 n v' ∧ (step cfg ops tf fr n v').1 = .panic) (hm : m = n) :
    ∃ k n v', Goes cfg ops tf fr k ip v n v' ∧ (step cfg ops tf fr n v').1 = .panic := by
  subst hm
  obtain ⟨l, n', v', h1, h2⟩ := h'
  exact ⟨_, _, _, h.trans h1, h2⟩

/-- Code after some instructions that change nothing but variables. -/
theorem Executes.after {k n m m' : Nat} {v1 : VM} {o : Outcome Store} (h : Goes cfg ops tf fr k ip v m v1) (hl : Like v v1)
    (h' : Executes cfg ops tf fr n m ip' v1 o) (hn : m' ≤ k + n) : Executes cfg ops tf fr m' ip ip' v o := by
  cases o with
  | done σ =>
    obtain ⟨l, v', h1, h2, h3⟩ := h'
    exact ⟨_, v', h.trans h1, hl.trans h2, h3⟩
  | stops => exact h.stops h' rfl
  | undefined => trivial
  | unfinished =>
    obtain ⟨l, m2, v', h1, h2⟩ := h'
    exact ⟨_, _, _, by omega, h.trans h2⟩

theorem Goes.to {k n m : Nat} (h : Goes cfg ops tf fr k ip v n v') (hn : n = m) : Goes cfg ops tf fr k ip v m v' := hn ▸ h

theorem Executes.to {n m : Nat} {o : Outcome Store} (h : Executes cfg ops tf fr n ip m v o) (hn : m = ip') :
    Executes cfg ops tf fr n ip ip' v o := hn ▸ h

/-- Some instructions after the code. -/
theorem Executes.then {k n m : Nat} {o : Outcome Store} (h : Executes cfg ops tf fr n ip m v o)
    (h' : ∀ v', Goes cfg ops tf fr k m v' ip' v') : Executes cfg ops tf fr n ip ip' v o := by
  cases o with
  | done σ =>
    obtain ⟨l, v', h1, h2, h3⟩ := h
    exact ⟨_, v', h1.trans (h' v'), h2, h3⟩
  | stops => exact h
  | undefined => trivial
  | unfinished => exact h

/-- A sequence. -/
theorem Executes.bind {n m : Nat} {o : Outcome Store} {f : Store → Outcome Store} (h : Executes cfg ops tf fr n ip m v o)
    (h' : ∀ v' σ, Like v v' → Holds fr v' σ → Executes cfg ops tf fr n m ip' v' (f σ)) :
    Executes cfg ops tf fr n ip ip' v (o.bind f) := by
  cases o with
  | done σ =>
    obtain ⟨k, v', h1, h2, h3⟩ := h
    exact (h' v' σ h2 h3).after h1 h2 (by omega)
  | stops => exact h
  | undefined => trivial
  | unfinished => exact h

/-- A condition: the code of `c`, and `brfalse`. -/
theorem cond_run {ok : Bytes → Prop} (hok : ∀ l, ok l → ¬ [0xfe, 0x09] <+: l) {σ : Store} {c : Expr} {cc : Bytes}
    {f : Form} {d : Nat} (hcode : c.Code ok cc) (hl : fr.code.length < 2 ^ 62)
    (hc : HasAt fr.code ip (cc ++ Branch1.brfalse.opcode f :: intBytes f.size d)) (hd : Fits (8 * f.size) d)
    (hv : Holds fr v σ) {n : Nat} {g : BitVec 32 → Outcome Store}
    (h0 : ∀ a : BitVec 32, a.toInt = 0 → ∀ k, Goes cfg ops tf fr (k + 1) ip v (ip + cc.length + (1 + f.size) + d) v →
      Executes cfg ops tf fr n ip ip' v (g a))
    (h1 : ∀ a : BitVec 32, a.toInt ≠ 0 → ∀ k, Goes cfg ops tf fr (k + 1) ip v (ip + cc.length + (1 + f.size)) v →
      Executes cfg ops tf fr n ip ip' v (g a)) :
    Executes cfg ops tf fr n ip ip' v ((c.eval cfg.checks σ).bind g) := by
  have h := expr_run (cfg := cfg) (ops := ops) (tf := tf) hok hcode hc.left hv
  cases ho : c.eval cfg.checks σ with
  | done a =>
    rw [ho] at h
    obtain ⟨k, hk⟩ := h
    have hb := C51_branch1 (cfg := cfg) (ops := ops) (tf := tf) (v := { v with operands := .i32 a :: v.operands })
      .brfalse f d a hc.drop hd hl rfl
    by_cases ha : a.toInt = 0
    · obtain ⟨m, hm, hm', -⟩ := hb.1 ha
      obtain rfl : m = ip + cc.length + (1 + f.size) + d := by have := hm' (by omega); omega
      exact h0 a ha _ (hk.trans (.one hm))
    · exact h1 a ha _ (hk.trans (.one (hb.2 ha)))
  | stops => rw [ho] at h; exact h
  | undefined => trivial
  | unfinished => rw [ho] at h; exact h.elim

theorem br_run {f : Form} {d : Int} {n : Nat} (hc : HasAt fr.code ip (brOpcode f :: intBytes f.size d))
    (hd : Fits (8 * f.size) d) (hl : fr.code.length < 2 ^ 62) (hn : (n : Int) = ip + (1 + f.size) + d) :
    Goes cfg ops tf fr 1 ip v n v := by
  obtain ⟨m, hm, hm', -⟩ := (C52_br (cfg := cfg) (ops := ops) (tf := tf) (v := v) f d hc hd hl).1 trivial
  obtain rfl : m = n := by have := hm' (by omega); omega
  exact .one hm

theorem HasAt.at {code bs : Bytes} {n : Nat} (h : HasAt code ip bs) (hn : ip = n) : HasAt code n bs := hn ▸ h

/-- Running the code of a statement. -/
theorem stmt_run {ok : Bytes → Prop} (hok : ∀ l, ok l → ¬ Wide l) (hl : fr.code.length < 2 ^ 62) {n : Var → Nat}
    (s : Stmt) (fuel : Nat) {c : Bytes} {σ : Store} (hs : s.Code ok c) (hw : s.Within n) (hc : HasAt fr.code ip c)
    (hr : Ready fr v n) (hv : Holds fr v σ) :
    Executes cfg ops tf fr fuel ip (ip + c.length) v (s.exec cfg.checks fuel σ) := by
  have hokl : ∀ l, ok l → ¬ [0xfe, 0x09] <+: l := fun l h h' => hok l h (.inl h')
  induction s generalizing fuel c σ ip v with
  | skip =>
    cases hs
    rw [Stmt.exec]
    exact ⟨0, v, .refl _ _, .rfl', hv⟩
  | set x i e =>
    cases hs with
    | @set _ _ _ ce l he hm hol =>
    rw [Stmt.exec]
    have h := expr_run (cfg := cfg) (ops := ops) (tf := tf) hokl he hc.left hv
    cases ho : e.eval cfg.checks σ with
    | done a =>
      rw [ho] at h
      obtain ⟨k, hk⟩ := h
      obtain ⟨v', h1, h2, h3⟩ := set_run (cfg := cfg) (ops := ops) (tf := tf) (a := a) hm
        (fun h => hok l hol (.inr h)) hc.drop hr hw.1 hv
      refine ⟨_, v', hk.trans (.one ?_), h2, h3⟩
      rw [h1, List.length_append, Nat.add_assoc]
    | stops => rw [ho] at h; exact h
    | undefined => trivial
    | unfinished => rw [ho] at h; exact h.elim
  | seq a b iha ihb =>
    cases hs with
    | @seq _ _ ca cb ha hb =>
    rw [Stmt.exec, List.length_append, ← Nat.add_assoc]
    exact (iha fuel ha hw.1 hc.left hr hv).bind fun v' σ' h1 h2 => ihb fuel hb hw.2 hc.drop (hr.like h1) h2
  | cond e a b iha ihb =>
    cases hs with
    | @cond _ _ _ cc ca cb f g he ha hb hf hg =>
    rw [Stmt.exec]
    have hca : HasAt fr.code (ip + cc.length + (1 + f.size)) (ca ++ (brOpcode g :: intBytes g.size cb.length ++ cb)) := by
      have := hc.drop.drop
      exact this.at (by simp [length_intBytes]; omega)
    have hcb := hca.drop.drop
    have hc' : HasAt fr.code ip (cc ++ Branch1.brfalse.opcode f :: intBytes f.size
        ((ca.length + (1 + g.size) : Nat) : Int)) := by
      exact HasAt.left (b := ca ++ (brOpcode g :: intBytes g.size cb.length ++ cb)) (by simpa using hc)
    refine cond_run hokl he hl hc' hf hv (fun x hx k hk => ?_) fun x hx k hk => ?_
    · rw [if_pos hx]
      refine Executes.after (hk.to ?_) .rfl' ((ihb fuel hb hw.2.2 hcb hr hv).to ?_) (Nat.le_add_left _ _) <;> simp [length_intBytes] <;> omega
    · rw [if_neg hx]
      refine Executes.after hk .rfl' ?_ (Nat.le_add_left _ _)
      refine (iha fuel ha hw.2.1 hca.left hr hv).then fun v' => br_run hca.drop.left hg hl ?_
      simp [length_intBytes]; omega
  | «while» e a iha =>
    cases hs with
    | @«while» _ _ cc ca f g he ha hf hg =>
    rw [Stmt.exec]
    have hca : HasAt fr.code (ip + cc.length + (1 + f.size)) (ca ++ brOpcode g :: intBytes g.size
        (-(cc.length + (1 + f.size) + ca.length + (1 + g.size)))) := by
      have := hc.drop.drop
      exact this.at (by simp [length_intBytes]; omega)
    have hc' : HasAt fr.code ip (cc ++ Branch1.brfalse.opcode f :: intBytes f.size
        ((ca.length + (1 + g.size) : Nat) : Int)) := by
      exact HasAt.left (b := ca ++ brOpcode g :: intBytes g.size
        (-(cc.length + (1 + f.size) + ca.length + (1 + g.size)))) (by simpa using hc)
    induction fuel generalizing v σ with
    | zero =>
      refine cond_run hokl he hl hc' hf hv (fun x hx k hk => ?_) fun x hx k hk => ?_
      · rw [if_pos hx]
        refine ⟨_, v, hk.to ?_, .rfl', hv⟩
        simp [length_intBytes]; omega
      · rw [if_neg hx]
        exact ⟨_, _, _, Nat.zero_le _, hk⟩
    | succ fuel ih =>
      refine cond_run hokl he hl hc' hf hv (fun x hx k hk => ?_) fun x hx k hk => ?_
      · rw [if_pos hx]
        refine ⟨_, v, hk.to ?_, .rfl', hv⟩
        simp [length_intBytes]; omega
      · rw [if_neg hx]
        refine Executes.after (n := fuel) hk .rfl' ?_ (by omega)
        refine Executes.bind ((iha fuel ha hw.2 hca.left hr hv).then fun v' =>
          br_run (n := ip) hca.drop hg hl ?_) fun v' σ' h1 h2 => ?_
        · push_cast; omega
        · exact ih (hr.like h1) h2

end Clr
