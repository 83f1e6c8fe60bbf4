import Verif.Spec.Depths
import Verif.Lemmas.Decode
import Verif.Lemmas.Calls
/-! # Code that leaves the lower part of the evaluation stack alone -/

namespace Clr

variable {cfg : Cfg} {ops : FloatOps} {tf fuel : Nat} {fr : Frame} {ip : Nat} {v v' : VM}

/-- The state with more values below the evaluation stack. -/
def VM.on (v : VM) (rest : List Value) : VM := { v with operands := v.operands ++ rest }

/-- Code that neither reads nor changes what is below the `n` values on the evaluation stack, as long as the registry
satisfies `I`; results and new depths satisfy `Q`. -/
structure Framed {α : Type} (I : World → Prop) (n : Nat) (x : X α) (Q : α → Nat → Prop) : Prop where
  run : ∀ v rest, I v.world → v.operands.length = n → x (v.on rest) = ((x v).1, (x v).2.on rest)
  post : ∀ v a v', I v.world → v.operands.length = n → x v = (.ok a, v') → I v'.world ∧ Q a v'.operands.length

namespace Framed

variable {α β : Type} {I : World → Prop} {n k : Nat}

theorem bind {x : X α} {f : α → X β} {Q : α → Nat → Prop} {R : β → Nat → Prop} (h : Framed I n x Q)
    (h' : ∀ a m, Q a m → Framed I m (f a) R) : Framed I n (x >>= f) R := by
  constructor
  · intro v rest hI hn
    have h1 := h.run v rest hI hn
    rw [X.bind_run, X.bind_run, h1]
    rcases hx : x v with ⟨r, v1⟩
    cases r with
    | ok a =>
      obtain ⟨h2, h3⟩ := h.post v a v1 hI hn hx
      exact (h' a _ h3).run v1 rest h2 rfl
    | _ => rfl
  · intro v b v' hI hn hb
    obtain ⟨a, v1, h1, h2⟩ := X.bind_eq_ok.1 hb
    obtain ⟨h3, h4⟩ := h.post v a v1 hI hn h1
    exact (h' a _ h4).post v1 b v' h3 rfl h2

theorem weaken {x : X α} {Q R : α → Nat → Prop} (h : Framed I n x Q) (hQ : ∀ a m, Q a m → R a m) : Framed I n x R :=
  ⟨h.run, fun v a v' hI hn hx => ⟨(h.post v a v' hI hn hx).1, hQ _ _ (h.post v a v' hI hn hx).2⟩⟩

theorem pure {a : α} {Q : α → Nat → Prop} (h : Q a n) : Framed I n (Pure.pure a) Q :=
  ⟨fun _ _ _ _ => rfl, fun v b v' hI hn hb => by cases hb; exact ⟨hI, by rw [hn]; exact h⟩⟩

theorem lift {x : Res α} {Q : α → Nat → Prop} (h : ∀ a, x = .ok a → Q a n) : Framed I n (_root_.liftM x) Q :=
  ⟨fun _ _ _ _ => rfl, fun v b v' hI hn hb => by cases hb; exact ⟨hI, by rw [hn]; exact h _ rfl⟩⟩

theorem failed {x : Res α} {Q : α → Nat → Prop} (h : ∀ a, x ≠ .ok a) : Framed I n (_root_.liftM x) Q :=
  lift fun a ha => absurd ha (h a)

theorem view {f : VM → Res α} (h : ∀ v rest, f (v.on rest) = f v) :
    Framed I n (X.view f) fun _ m => m = n :=
  ⟨fun v rest _ _ => by simp only [X.view_run, h], fun v b v' hI hn hb => by
    have := congrArg Prod.snd hb; subst this; exact ⟨hI, hn⟩⟩

theorem registry {x : M α} (h : ∀ w, I w → I (x w).2) : Framed I n (X.registry x) fun _ m => m = n :=
  ⟨fun v rest _ _ => rfl, fun v b v' hI hn hb => by
    have := congrArg Prod.snd hb; subst this; exact ⟨h _ hI, hn⟩⟩

theorem push (a : Value) : Framed I n (push a) fun _ m => m = n + 1 :=
  ⟨fun v rest _ _ => rfl, fun v b v' hI hn hb => by cases hb; exact ⟨hI, by simp [hn]⟩⟩

theorem pop : Framed I (k + 1) pop fun _ m => m = k := by
  constructor
  · intro v rest hI hn
    cases ho : v.operands with
    | nil => rw [ho] at hn; simp at hn
    | cons a r =>
      rw [pop_cons (v := v) ho, pop_cons (v := v.on rest) (a := a) (r := r ++ rest) (by simp [VM.on, ho])]
      simp [VM.on]
  · intro v b v' hI hn hb
    cases ho : v.operands with
    | nil => rw [ho] at hn; simp at hn
    | cons a r =>
      rw [pop_cons ho] at hb
      cases hb
      rw [ho] at hn
      exact ⟨hI, by simpa using hn⟩

theorem peek : Framed I (k + 1) peek fun _ m => m = k + 1 := by
  constructor
  · intro v rest hI hn
    cases ho : v.operands with
    | nil => rw [ho] at hn; simp at hn
    | cons a r => simp [Clr.peek, X.view_run, VM.on, ho]
  · intro v b v' hI hn hb
    have := congrArg Prod.snd hb; subst this; exact ⟨hI, hn⟩

/-- Code on the heap. -/
theorem onHeap (f : Heap → Res (α × Heap)) : Framed I n (onHeap f) fun _ m => m = n := by
  constructor
  · intro v rest hI hn
    simp only [Clr.onHeap, X.update, VM.on]
    cases f v.heap <;> rfl
  · intro v b v' hI hn hb
    simp only [Clr.onHeap, X.update] at hb
    cases hf : f v.heap <;> rw [hf] at hb <;> cases hb
    exact ⟨hI, hn⟩

theorem stackAlloc (c : Nat) : Framed I n (stackAlloc c) fun _ m => m = n := by
  constructor
  · intro v rest hI hn
    simp only [Clr.stackAlloc, X.update, VM.on]
    by_cases h1 : 16 * (v.stack.slots.length + c) ≤ v.stack.cap
    · simp only [h1, if_true]
    · by_cases h2 : max (2 * v.stack.cap) (16 * (v.stack.slots.length + c)) < 2 ^ 63
      · simp only [h1, if_false, h2, if_true]
      · simp only [h1, if_false, h2]
  · intro v b v' hI hn hb
    obtain ⟨-, h2, -⟩ := stackAlloc_ok hb
    rw [h2]; exact ⟨hI, hn⟩

theorem readSlot (r : Region) (i : Nat) : Framed I n (readSlot r i) fun _ m => m = n := view fun _ _ => rfl

theorem writeSlot (r : Region) (i : Nat) (a : Value) : Framed I n (writeSlot r i a) fun _ m => m = n := by
  constructor
  · intro v rest hI hn
    simp only [Clr.writeSlot, X.update, VM.on]
    cases r with
    | host => dsimp only; by_cases h : i < v.host.length <;> simp only [h, if_true, if_false]
    | slots g b c =>
      dsimp only
      by_cases h : i < c
      · by_cases h' : g = v.stack.gen ∧ b + i < v.stack.slots.length
        · simp only [h, h', if_true, and_self]
        · simp only [h, h', if_true, if_false]
      · simp only [h, if_false]
  · intro v u v' hI hn hb
    simp only [Clr.writeSlot, X.update] at hb
    cases r with
    | host =>
      dsimp only at hb
      by_cases h : i < v.host.length <;> simp only [h, if_true, if_false] at hb <;> cases hb
      exact ⟨hI, hn⟩
    | slots g b c =>
      dsimp only at hb
      by_cases h : i < c
      · by_cases h' : g = v.stack.gen ∧ b + i < v.stack.slots.length
        · simp only [h, h', if_true, and_self] at hb; cases hb; exact ⟨hI, hn⟩
        · simp only [h, h', if_true, if_false] at hb; cases hb
      · simp only [h, if_false] at hb; cases hb

theorem insertBelow (c : Nat) (a : Value) : Framed I (k + c) (insertBelow cfg c a) fun _ m => m = k + c + 1 := by
  have hrun : ∀ v : VM, c ≤ v.operands.length → Clr.insertBelow cfg c a v =
      (.ok (), { v with operands := v.operands.take c ++ a :: v.operands.drop c }) := by
    intro v hc
    simp only [Clr.insertBelow, X.update]
    rw [usub_ok hc]
    simp only [Res.ok_bind, Res.pure_eq]
    rw [if_pos (by omega), show v.operands.length - (v.operands.length - c) = c by omega]
  constructor
  · intro v rest hI hn
    rw [hrun v (by omega), hrun (v.on rest) (by simp [VM.on]; omega)]
    simp [VM.on, List.take_append_of_le_length (show c ≤ v.operands.length by omega),
      List.drop_append_of_le_length (show c ≤ v.operands.length by omega)]
  · intro v b v' hI hn hb
    rw [hrun v (by omega)] at hb
    cases hb
    refine ⟨hI, ?_⟩
    simp; omega

theorem popInto (r : Region) (c : Nat) : Framed I (k + c) (popInto r c) fun _ m => m = k := by
  induction c with
  | zero => exact pure rfl
  | succ c ih =>
    exact bind pop fun a m hm => bind (writeSlot r c a) fun _ m' hm' => by rw [hm', hm]; exact ih

end Framed

set_option hygiene false in
/-- Proves `Framed` for straight-line code. -/
macro "framed" : tactic => `(tactic| with_reducible repeat (first
  | exact Framed.pure rfl
  | exact Framed.pure ⟨rfl, _, rfl⟩
  | exact Framed.failed (fun _ h => by cases h)
  | exact Framed.lift (fun _ _ => rfl)
  | exact Framed.view (fun _ _ => rfl)
  | exact Framed.poke _ _ _
  | (refine Framed.bind (Framed.lift (Q := fun _ m => m = _) (fun _ _ => rfl)) (fun _ _ h => ?_); subst h)
  | (refine Framed.bind (Framed.view (fun _ _ => rfl)) (fun _ _ h => ?_); subst h)
  | (refine Framed.bind (Framed.onHeap _) (fun _ _ h => ?_); subst h)
  | (refine Framed.bind (Framed.readSlot _ _) (fun _ _ h => ?_); subst h)
  | (refine Framed.bind (Framed.writeSlot _ _ _) (fun _ _ h => ?_); subst h)
  | (refine Framed.bind (Framed.push _) (fun _ _ h => ?_); subst h)
  | (refine Framed.bind Framed.pop (fun _ _ h => ?_); subst h)
  | (refine Framed.bind Framed.peek (fun _ _ h => ?_); subst h)
  | (refine Framed.bind Framed.popInt (fun _ _ h => ?_); subst h)
  | (refine Framed.bind Framed.popArray (fun _ _ h => ?_); subst h)
  | (refine Framed.bind (Framed.poke _ _ _) (fun _ _ h => ?_); subst h)
  | (refine Framed.bind (Framed.peekBytes _ _ _) (fun _ _ h => ?_); subst h)
  | (refine Framed.bind (Framed.typeId _) (fun _ _ h => ?_); subst h)
  | (refine Framed.bind (Framed.orFlags _ _) (fun _ _ h => ?_); subst h)
  | (refine Framed.bind (Framed.objectFlags _) (fun _ _ h => ?_); subst h)
  | (refine Framed.bind (Framed.rawObject _) (fun _ _ h => ?_); subst h)
  | (refine Framed.bind (Framed.allocObject _) (fun _ _ h => ?_); subst h)
  | (refine Framed.bind (Framed.allocString _) (fun _ _ h => ?_); subst h)
  | (refine Framed.bind (Framed.allocArray (by assumption) _ _) (fun _ _ h => ?_); subst h)
  | (refine Framed.bind (Framed.setField _ _ _) (fun _ _ h => ?_); subst h)
  | (refine Framed.bind (Framed.getField _ _) (fun _ _ h => ?_); subst h)
  | (refine Framed.bind (Framed.intSlice _) (fun _ _ h => ?_); subst h)
  | (refine Framed.bind (Framed.setInt _ _ _) (fun _ _ h => ?_); subst h)
  | (refine Framed.bind (Framed.getInt _ _) (fun _ _ h => ?_); subst h)
  | (refine Framed.bind (Framed.stringData _) (fun _ _ h => ?_); subst h)
  | (refine Framed.bind (Framed.registry (by assumption)) (fun _ _ h => ?_); subst h)
  | split))

namespace Framed

variable {I : World → Prop} {n k : Nat}

theorem poke (p : Ptr) (off : Nat) (bs : Bytes) : Framed I n (poke p off bs) fun _ m => m = n := onHeap _

theorem peekBytes (p : Ptr) (off c : Nat) : Framed I n (peekBytes p off c) fun _ m => m = n := view fun _ _ => rfl

theorem typeId (t : Nat) : Framed I n (typeId t) fun _ m => m = n := view fun _ _ => rfl

theorem orFlags (p : Ptr) (mask : Nat) : Framed I n (orFlags p mask) fun _ m => m = n :=
  bind (peekBytes _ _ _) fun _ _ h => by subst h; exact poke _ _ _

theorem allocObject (t : Nat) : Framed I n (allocObject cfg tf t) fun _ m => m = n := by
  unfold Clr.allocObject
  framed

theorem allocArray (hI : ∀ e w, I w → I (arrayType cfg e w).2) (e c : Nat) :
    Framed I n (allocArray cfg tf e c) fun _ m => m = n := by
  have := hI e
  unfold Clr.allocArray
  framed

theorem allocString (us : List Nat) : Framed I n (allocString cfg us) fun _ m => m = n := by
  unfold Clr.allocString
  framed

theorem objectFlags (p : Ptr) : Framed I n (objectFlags p) fun _ m => m = n := by
  unfold Clr.objectFlags
  framed

theorem rawObject (p : Ptr) : Framed I n (rawObject p) fun _ m => m = n := by
  unfold Clr.rawObject
  framed

theorem setField (p : Ptr) (f : FieldRec) (a : Value) : Framed I n (setField p f a) fun _ m => m = n := by
  unfold Clr.setField
  framed

theorem getField (p : Ptr) (f : FieldRec) : Framed I n (getField p f) fun _ m => m = n := by
  unfold Clr.getField
  framed

theorem popInt : Framed I (k + 1) popInt fun _ m => m = k := by
  unfold Clr.popInt
  framed

theorem popArray : Framed I (k + 1) popArray fun _ m => m = k := by
  unfold Clr.popArray
  framed

theorem intSlice (p : Ptr) : Framed I n (intSlice p) fun _ m => m = n := by
  unfold Clr.intSlice
  framed

theorem setInt (p : Ptr) (i : Nat) (x : BitVec 32) : Framed I n (setInt p i x) fun _ m => m = n := by
  unfold Clr.setInt
  framed

theorem getInt (p : Ptr) (i : Nat) : Framed I n (getInt p i) fun _ m => m = n := by
  unfold Clr.getInt
  framed

theorem stringData (p : Ptr) : Framed I n (stringData p) fun _ m => m = n := by
  unfold Clr.stringData
  framed

theorem callNative (hI : ∀ s w, I w → I { w with output := w.output ++ s }) (f : InternalMethod) (r : Region) :
    Framed I n (callNative f r) fun a m => a = none ∧ m = n := by
  cases f with
  | consoleWrite =>
    unfold Clr.callNative
    dsimp only
    framed
    · rename_i s m
      refine bind (registry (n := m) fun w hw => hI s w hw) fun _ _ h => ?_
      subst h
      exact pure ⟨rfl, rfl⟩
    · exact failed fun _ h => by cases h
  | _ => exact failed fun _ h => by cases h

end Framed

/-- Values an instruction takes and puts, as the interpreter does it; `call`, `newobj` and `ret` depend on methods. -/
def Op.effect : Op → Option (Nat × Nat)
  | .Nop | .Br | .Br_S => some (0, 0)
  | .Ldc_I4_M1 | .Ldc_I4_0 | .Ldc_I4_1 | .Ldc_I4_2 | .Ldc_I4_3 | .Ldc_I4_4 | .Ldc_I4_5 | .Ldc_I4_6
  | .Ldc_I4_7 | .Ldc_I4_8 | .Ldloc_0 | .Ldloc_1 | .Ldloc_2 | .Ldloc_3
  | .Ldarg_0 | .Ldarg_1 | .Ldarg_2 | .Ldarg_3 | .Ldc_I4_S | .Ldloc_S | .Ldarg_S | .Ldloc | .Ldc_I4 | .Ldc_R4 | .Ldarg
  | .Ldc_I8 | .Ldc_R8 | .Ldstr => some (0, 1)
  | .Stloc_0 | .Stloc_1 | .Stloc_2 | .Stloc_3 | .Stloc_S | .Starg_S | .Stloc | .Starg | .Pop
  | .Brfalse | .Brtrue | .Brfalse_S | .Brtrue_S => some (1, 0)
  | .Neg | .Not | .Newarr | .Ldfld => some (1, 1)
  | .Dup => some (1, 2)
  | .Ceq | .Cgt | .Cgt_Un | .Clt | .Clt_Un | .Add | .Sub | .Mul
  | .Div | .Div_Un | .Rem | .Rem_Un | .And | .Or | .Xor | .Shl | .Shr | .Ldelem_I4 => some (2, 1)
  | .Beq | .Bge | .Bgt | .Ble | .Blt | .Beq_S | .Bge_S | .Bgt_S | .Ble_S | .Blt_S | .Stfld => some (2, 0)
  | .Stelem_I4 => some (3, 0)
  | _ => none

/-- Every instruction leaves the stack below its operands alone. -/
theorem exec_framed {I : World → Prop} (hI : ∀ e w, I w → I (arrayType cfg e w).2) {op : Op} {p q : Nat}
    (h : op.effect = some (p, q)) (k : Nat) :
    Framed I (k + p) (exec cfg ops tf fr op ip) fun a m => m = k + q ∧ ∃ n, a = .next n := by
  cases op <;> simp only [Op.effect, reduceCtorEq, Option.some.injEq, Prod.mk.injEq] at h <;> obtain ⟨rfl, rfl⟩ := h <;>
    simp only [exec, constant, immediate, loadFrom, loadAt', storeTo, storeAt, compareOp, binary, unary, doDup, doPop,
      doStfld, doLdfld, doNewarr, doStelem, doLdelem, doLdstr, branch, branchIf, branchCmp] <;>
    framed

namespace Framed

variable {α : Type} {I : World → Prop} {n k : Nat}

/-- Code that leaves everything below `n` values alone does so below `n + k`. -/
theorem up {x : X α} {Q : α → Nat → Prop} (h : Framed I n x Q) (k : Nat) :
    Framed I (n + k) x fun a m => ∃ m', m = m' + k ∧ Q a m' := by
  have hv : ∀ v : VM, v = ({ v with operands := v.operands.take n } : VM).on (v.operands.drop n) := by
    intro v; simp [VM.on]
  constructor
  · intro v rest hI hn
    have h1 := h.run { v with operands := v.operands.take n } (v.operands.drop n ++ rest) hI (by simp; omega)
    have h2 := h.run { v with operands := v.operands.take n } (v.operands.drop n) hI (by simp; omega)
    rw [← hv] at h2
    have h3 : ({ v with operands := v.operands.take n } : VM).on (v.operands.drop n ++ rest) = v.on rest := by
      simp [VM.on, ← List.append_assoc]
    rw [h3] at h1
    rw [h1, h2]
    simp [VM.on]
  · intro v a v' hI hn hx
    have h2 := h.run { v with operands := v.operands.take n } (v.operands.drop n) hI (by simp; omega)
    rw [← hv, hx] at h2
    rcases hy : x { v with operands := v.operands.take n } with ⟨r, u⟩
    rw [hy] at h2
    cases h2
    obtain ⟨h3, h4⟩ := h.post { v with operands := v.operands.take n } a u hI (by simp; omega) hy
    exact ⟨h3, _, by simp [VM.on]; omega, h4⟩

theorem ends {x : X Action} {Q : Action → Nat → Prop} {P : Action → Prop} (h : Framed I n x Q) (he : Ends x P) :
    Framed I n x fun a m => Q a m ∧ P a :=
  ⟨h.run, fun v a v' hI hn hx =>
    ⟨(h.post v a v' hI hn hx).1, (h.post v a v' hI hn hx).2, he v a (congrArg Prod.fst hx)⟩⟩

/-- A destructor of a frame. -/
theorem finally' {x : X α} {Q : α → Nat → Prop} (h : Framed I n x Q) (outer : Nat) :
    Framed I n (X.finally' x (release cfg outer)) Q := by
  have hrel : ∀ (v : VM) rest, release cfg outer (v.on rest) =
      (do let v ← release cfg outer v; Pure.pure (v.on rest)) := by
    intro v rest
    unfold release
    simp only [VM.on]
    cases usub cfg 64 v.stack.slots.length v.allocated <;> rfl
  constructor
  · intro v rest hI hn
    have h1 := h.run v rest hI hn
    simp only [X.finally', h1, hrel]
    cases release cfg outer (x v).2 <;> rfl
  · intro v a v' hI hn hx
    simp only [X.finally'] at hx
    cases hr : release cfg outer (x v).2 with
    | ok v1 =>
      rw [hr] at hx
      have h1 : x v = (.ok a, (x v).2) := by
        have := congrArg Prod.fst hx
        exact Prod.ext this rfl
      obtain ⟨h2, h3⟩ := h.post v a _ hI hn h1
      have h4 := congrArg Prod.snd hx
      simp only at h4
      unfold release at hr
      simp only [Res.bind_eq_ok] at hr
      obtain ⟨_, -, hr⟩ := hr
      cases hr
      rw [← h4]
      exact ⟨h2, h3⟩
    | _ => rw [hr] at hx; cases hx

theorem update_allocated (f : Nat → Nat) :
    Framed I n (X.update fun v => .ok (v.allocated, { v with allocated := f v.allocated })) fun _ m => m = n :=
  ⟨fun _ _ _ _ => rfl, fun v a v' hI hn hx => by cases hx; exact ⟨hI, hn⟩⟩

/-- Code that starts with a reading of the registry that is known. -/
theorem view_bind {β : Type} {f : VM → Res α} {g : α → X β} {a : α} {Q : β → Nat → Prop}
    (hf : ∀ v, I v.world → f v = .ok a) (h : Framed I n (g a) Q) : Framed I n (X.view f >>= g) Q := by
  have he : ∀ v, I v.world → (X.view f >>= g) v = g a v := fun v hI => X.view_bind_ok (hf v hI) g
  constructor
  · intro v rest hI hn
    rw [he v hI, he (v.on rest) hI]
    exact h.run v rest hI hn
  · intro v b v' hI hn hx
    rw [he v hI] at hx
    exact h.post v b v' hI hn hx

theorem lift_bind {β : Type} {x : Res α} {g : α → X β} {a : α} {Q : β → Nat → Prop}
    (hf : x = .ok a) (h : Framed I n (g a) Q) : Framed I n (_root_.liftM x >>= g) Q := by
  subst hf; exact h

theorem doRet_void (h : ∀ w, I w → IsVoid w fr.method) :
    Framed I n (doRet fr) fun a m => a = .ret none ∧ m = n :=
  ⟨fun v rest hI hn => by rw [Clr.doRet_void (v := v) (h _ hI), Clr.doRet_void (v := v.on rest) (h _ hI)],
   fun v a v' hI hn hx => by rw [Clr.doRet_void (h _ hI)] at hx; cases hx; exact ⟨hI, rfl, hn⟩⟩

theorem doRet_value (h : ∀ w, I w → IsValue w fr.method) :
    Framed I (k + 1) (doRet fr) fun a m => (∃ x, a = .ret (some x)) ∧ m = k := by
  constructor
  · intro v rest hI hn
    rw [Clr.doRet_value (v := v) (h _ hI), Clr.doRet_value (v := v.on rest) (h _ hI)]
    cases ho : v.operands with
    | nil => rw [ho] at hn; simp at hn
    | cons a r => simp [VM.on, ho]
  · intro v a v' hI hn hx
    rw [Clr.doRet_value (h _ hI)] at hx
    cases hx
    refine ⟨hI, ?_, by simp [hn]⟩
    cases ho : v.operands with
    | nil => rw [ho] at hn; simp at hn
    | cons a r => exact ⟨a, by simp⟩

end Framed

theorem IsValue.evolves {w w' : World} {m : MethodRec} (h : IsValue w m) (he : Evolves w w') : IsValue w' m := by
  obtain ⟨r, t, tr, h1, h2, h3, h4⟩ := h
  exact ⟨r, t, tr, he.typeAt h1, by rw [he.names _ (by decide)]; exact h2, he.typeAt h3, h4⟩

end Clr
