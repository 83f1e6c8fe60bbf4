import Verif.Model.Interp
import Verif.Spec.Instructions
import Verif.Lemmas.World
/-! # Running interpreter code -/

namespace Clr
namespace X

@[simp] theorem pure_run {α : Type} (a : α) (v : VM) : (pure a : X α) v = (.ok a, v) := rfl

theorem bind_run {α β : Type} (x : X α) (f : α → X β) (v : VM) : (x >>= f) v =
    (match x v with
    | (.ok a, v') => f a v'
    | (.err m, v') => (.err m, v')
    | (.panic, v') => (.panic, v')
    | (.ub, v') => (.ub, v')
    | (.timeout, v') => (.timeout, v')) := rfl

theorem bind_ok {α β : Type} {x : X α} {f : α → X β} {v v' : VM} {a : α} (h : x v = (.ok a, v')) :
    (x >>= f) v = f a v' := by rw [bind_run, h]

@[simp] theorem lift_run {α : Type} (x : Res α) (v : VM) : (X.lift x) v = (x, v) := rfl
@[simp] theorem liftM_run {α : Type} (x : Res α) (v : VM) : (liftM x : X α) v = (x, v) := rfl
@[simp] theorem monadLift_run {α : Type} (x : Res α) (v : VM) : (monadLift x : X α) v = (x, v) := rfl
@[simp] theorem view_run {α : Type} (f : VM → Res α) (v : VM) : (X.view f) v = (f v, v) := rfl
@[simp] theorem registry_run {α : Type} (x : M α) (v : VM) :
    (X.registry x) v = ((x v.world).1, { v with world := (x v.world).2 }) := rfl
theorem update_ok {α : Type} {f : VM → Res (α × VM)} {v v' : VM} {a : α} (h : f v = .ok (a, v')) :
    X.update f v = (.ok a, v') := by simp [X.update, h]

theorem liftM_bind_ok {α β : Type} {x : Res α} {a : α} (h : x = .ok a) (f : α → X β) (v : VM) :
    ((liftM x : X α) >>= f) v = f a v := by rw [bind_run, liftM_run, h]

theorem view_bind_ok {α β : Type} {g : VM → Res α} {a : α} {v : VM} (h : g v = .ok a) (f : α → X β) :
    ((X.view g) >>= f) v = f a v := by rw [bind_run, view_run, h]

/-- A successful sequence splits. -/
theorem bind_eq_ok {α β : Type} {x : X α} {f : α → X β} {v v' : VM} {b : β} :
    (x >>= f) v = (.ok b, v') ↔ ∃ a v1, x v = (.ok a, v1) ∧ f a v1 = (.ok b, v') := by
  rw [bind_run]
  rcases h : x v with ⟨r, w1⟩
  cases r <;> simp [and_assoc]

end X

@[simp] theorem push_run (a : Value) (v : VM) : push a v = (.ok (), { v with operands := a :: v.operands }) := rfl

theorem pop_cons {v : VM} {a : Value} {r : List Value} (h : v.operands = a :: r) :
    pop v = (.ok a, { v with operands := r }) := by
  simp [pop, X.bind_run, tryPop, X.update, h]

theorem pop_nil {v : VM} (h : v.operands = []) : pop v = (.panic, v) := by
  simp [pop, X.bind_run, tryPop, X.update, h]

/-- The value two levels down. -/
theorem pop2 {v : VM} {a b : Value} {r : List Value} (h : v.operands = b :: a :: r) {β : Type}
    (f : Value → Value → X β) :
    (pop >>= fun y => pop >>= fun x => f x y) v = f a b { v with operands := r } := by
  rw [X.bind_ok (pop_cons h), X.bind_ok (pop_cons rfl)]

/-- A one-byte opcode at `ip`. -/
theorem fetchOp_one {code : Bytes} {ip : Nat} {b : UInt8} {op : Op} (h : code[ip]? = some b) (hb : b.toNat ≤ 0xf8)
    (ho : Op.ofCode b.toNat = some op) : fetchOp code ip = .ok (op, ip + 1) := by
  simp [fetchOp, h, ho, show ¬ 0xf8 < b.toNat by omega]

/-- A two-byte opcode at `ip`. -/
theorem fetchOp_two {code : Bytes} {ip : Nat} {b c : UInt8} {op : Op} (h : code[ip]? = some b)
    (h2 : code[ip + 1]? = some c) (hb : 0xf8 < b.toNat)
    (ho : Op.ofCode (c.toNat ||| (b.toNat <<< 8)) = some op) : fetchOp code ip = .ok (op, ip + 2) := by
  simp [fetchOp, h, h2, ho, hb]

theorem step_of_fetch {cfg : Cfg} {ops : FloatOps} {tf : Nat} {fr : Frame} {ip : Nat} {op : Op} {ip' : Nat}
    (h : fetchOp fr.code ip = .ok (op, ip')) (v : VM) : step cfg ops tf fr ip v = exec cfg ops tf fr op ip' v := by
  unfold step
  rw [X.liftM_bind_ok h]

theorem HasAt.getElem {code : Bytes} {ip : Nat} {b : UInt8} {bs : Bytes} (h : HasAt code ip (b :: bs)) :
    code[ip]? = some b := by
  obtain ⟨t, ht⟩ := h
  have := congrArg (·[0]?) ht
  simpa using this.symm

theorem HasAt.tail {code : Bytes} {ip : Nat} {b : UInt8} {bs : Bytes} (h : HasAt code ip (b :: bs)) :
    HasAt code (ip + 1) bs := by
  obtain ⟨t, ht⟩ := h
  refine ⟨t, ?_⟩
  have := congrArg List.tail ht
  simpa [List.tail_drop] using this

theorem HasAt.fetch {code : Bytes} {ip : Nat} {bs : Bytes} (h : HasAt code ip bs) (hl : 0 < bs.length) :
    Clr.fetch code ip bs.length = .ok (leNat bs) := by
  obtain ⟨t, ht⟩ := h
  have hlen := congrArg List.length ht
  simp only [List.length_append, List.length_drop] at hlen
  have : ip + bs.length ≤ code.length := by omega
  simp [Clr.fetch, this, ← ht]

theorem step_one {cfg : Cfg} {ops : FloatOps} {tf : Nat} {fr : Frame} {ip : Nat} {b : UInt8} {bs : Bytes} {op : Op}
    (h : HasAt fr.code ip (b :: bs)) (hb : b.toNat ≤ 0xf8) (ho : Op.ofCode b.toNat = some op) (v : VM) :
    step cfg ops tf fr ip v = exec cfg ops tf fr op (ip + 1) v := step_of_fetch (fetchOp_one h.getElem hb ho) v

theorem step_two {cfg : Cfg} {ops : FloatOps} {tf : Nat} {fr : Frame} {ip : Nat} {b c : UInt8} {bs : Bytes} {op : Op}
    (h : HasAt fr.code ip (b :: c :: bs)) (hb : 0xf8 < b.toNat)
    (ho : Op.ofCode (c.toNat ||| (b.toNat <<< 8)) = some op) (v : VM) :
    step cfg ops tf fr ip v = exec cfg ops tf fr op (ip + 2) v :=
  step_of_fetch (fetchOp_two h.getElem h.tail.getElem hb ho) v

theorem binary_run {v : VM} {a b : Value} {r : List Value} (h : v.operands = b :: a :: r)
    (f : Value → Value → Res Value) (ip : Nat) :
    binary f ip v = ((do let _ ← f a b; pure (.next ip)), match f a b with
      | .ok c => { v with operands := c :: r }
      | _ => { v with operands := r }) := by
  unfold binary
  rw [pop2 h, X.bind_run, X.liftM_run]
  cases f a b <;> simp [X.bind_run]

theorem unary_run {v : VM} {a : Value} {r : List Value} (h : v.operands = a :: r)
    (f : Value → Res Value) (ip : Nat) :
    unary f ip v = ((do let _ ← f a; pure (.next ip)), match f a with
      | .ok c => { v with operands := c :: r }
      | _ => { v with operands := r }) := by
  unfold unary
  rw [X.bind_ok (pop_cons h), X.bind_run, X.liftM_run]
  cases f a <;> simp [X.bind_run]

theorem compareOp_ok {v : VM} {a b : Value} {r : List Value} (h : v.operands = b :: a :: r)
    {rel : Value → Value → Res Bool} {c : Bool} (hc : rel a b = .ok c) (ip : Nat) :
    compareOp rel ip v = (.ok (.next ip), { v with operands := .i32 (if c then 1 else 0) :: r }) := by
  unfold compareOp
  rw [pop2 h, X.liftM_bind_ok hc]
  simp [X.bind_run]

theorem fetchInt_ok {code : Bytes} {ip n : Nat} {d : Int} (hn : 0 < n) (h : HasAt code ip (intBytes n d))
    (hd : Fits (8 * n) d) : fetchInt code ip n = .ok d := by
  have hf := h.fetch (by simpa [intBytes] using hn)
  simp only [intBytes, length_leBytes] at hf
  have h256 : (256 : Int) ^ n = 2 ^ (8 * n) := by rw [Int.pow_mul]; rfl
  have hpos : (0 : Int) < 256 ^ n := Int.pow_pos (by decide)
  rw [leNat_leBytes _ _ (by
    have := Int.emod_lt_of_pos d hpos
    have h0 := Int.emod_nonneg d (by omega : (256 : Int) ^ n ≠ 0)
    have h2 : ((256 ^ n : Nat) : Int) = 256 ^ n := Int.natCast_pow 256 n
    omega)] at hf
  simp only [fetchInt, hf, Res.ok_bind, Res.pure_eq, Res.ok.injEq]
  rw [BitVec.toInt_ofNat']
  have h0 := Int.emod_nonneg d (by omega : (256 : Int) ^ n ≠ 0)
  have hk : ((d % 256 ^ n).toNat : Int) = d % ((2 ^ (8 * n) : Nat) : Int) := by
    rw [Int.toNat_of_nonneg h0, h256, Int.natCast_pow]; rfl
  rw [hk, Int.emod_bmod]
  obtain ⟨k, hk⟩ : ∃ k, 8 * n = k + 1 := ⟨8 * n - 1, by omega⟩
  rw [hk] at hd ⊢
  obtain ⟨h1, h2⟩ := hd
  simp only [Nat.add_sub_cancel] at h1 h2
  have hc : ((2 ^ (k + 1) : Nat) : Int) = 2 * 2 ^ k := by
    rw [Nat.pow_succ, Int.natCast_mul, Int.natCast_pow, Int.mul_comm]; rfl
  apply Int.bmod_eq_of_le <;> omega

theorem branchCmp_ok {fr : Frame} {v : VM} {a b : Value} {r : List Value} (h : v.operands = b :: a :: r)
    {rel : Value → Value → Res Bool} {c : Bool} (hc : rel a b = .ok c) {n ip : Nat} {d : Int}
    (hd : fetchInt fr.code ip n = .ok d) :
    branchCmp fr rel n ip v = (.ok (.next (if c then jump (ip + n) d else ip + n)), { v with operands := r }) := by
  unfold branchCmp
  rw [pop2 h, X.liftM_bind_ok hd, X.liftM_bind_ok hc]
  rfl

theorem branchIf_ok {ops : FloatOps} {fr : Frame} {v : VM} {a : Value} {r : List Value} (h : v.operands = a :: r)
    {z : Bool} (hz : a.isNullOrZero ops = .ok z) {want : Bool} {n ip : Nat} {d : Int}
    (hd : fetchInt fr.code ip n = .ok d) :
    branchIf ops fr want n ip v =
      (.ok (.next (if z = want then jump (ip + n) d else ip + n)), { v with operands := r }) := by
  unfold branchIf
  rw [X.liftM_bind_ok hd, X.bind_ok (pop_cons h), X.liftM_bind_ok hz]
  rfl

theorem branch_ok {fr : Frame} {n ip : Nat} {d : Int} (hd : fetchInt fr.code ip n = .ok d) (v : VM) :
    branch fr n ip v = (.ok (.next (jump (ip + n) d)), v) := by
  unfold branch
  rw [X.liftM_bind_ok hd]
  rfl

end Clr
