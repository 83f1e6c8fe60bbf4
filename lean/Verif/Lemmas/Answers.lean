import Verif.Model.Interp
import Verif.Lemmas.Machine
import Verif.Lemmas.World
/-! # Instructions answer: which parts of an execution always come to an end (for C116) -/

namespace Clr

variable {α β : Type} {cfg : Cfg} {ops : FloatOps} {tf : Nat} {fr : Frame} {ip : Nat}

/-- The computation comes to an end. -/
class Res.Answers (x : Res α) : Prop where
  out : x ≠ .timeout

namespace Res.Answers

instance ok (a : α) : Answers (Res.ok a) := ⟨nofun⟩
instance pure (a : α) : Answers (Pure.pure a : Res α) := ⟨nofun⟩
instance err (m : String) : Answers (Res.err m : Res α) := ⟨nofun⟩
instance panic : Answers (Res.panic : Res α) := ⟨nofun⟩
instance ub : Answers (Res.ub : Res α) := ⟨nofun⟩

theorem bind {x : Res α} {f : α → Res β} (hx : Answers x) (hf : ∀ a, Answers (f a)) : Answers (x >>= f) := by
  cases x with
  | ok a => exact hf a
  | err m => exact ⟨nofun⟩
  | panic => exact ⟨nofun⟩
  | ub => exact ⟨nofun⟩
  | timeout => exact absurd rfl hx.out

instance map {x : Res α} {f : α → β} [hx : Answers x] : Answers (f <$> x) := by
  cases x with
  | timeout => exact absurd rfl hx.out
  | _ => exact ⟨nofun⟩

end Res.Answers

macro "answered" : tactic => `(tactic| repeat' first
  | infer_instance
  | with_reducible refine Res.Answers.bind ?_ (fun _ => ?_)
  | split
  | dsimp only)

open Res (Answers)

instance (x : Option α) : Answers (Res.unwrap x) := by unfold Res.unwrap; answered
instance (m : String) (x : Option α) : Answers (Res.ofOption m x) := by unfold Res.ofOption; answered
instance (g : String → String) (x : Res α) [h : Answers x] : Answers (Res.mapErr g x) := by
  cases x with
  | timeout => exact absurd rfl h.out
  | _ => exact ⟨nofun⟩
instance (x : Res α) [h : Answers x] : Answers (Res.toOption x) := by
  cases x with
  | timeout => exact absurd rfl h.out
  | _ => exact ⟨nofun⟩
instance (a b n : Nat) : Answers (uadd cfg n a b) := by unfold uadd; answered
instance (a b n : Nat) : Answers (usub cfg n a b) := by unfold usub; answered
instance (a b n : Nat) : Answers (umul cfg n a b) := by unfold umul; answered
instance (d : List α) (a b : Nat) : Answers (slice d a b) := by unfold slice; answered
instance (d : List α) (a : Nat) : Answers (sliceFrom d a) := by unfold sliceFrom; answered
instance (w : World) (t : Nat) : Answers (w.typeAt t) := by unfold World.typeAt; answered
instance (code : Bytes) : Answers (fetchOp code ip) := by unfold fetchOp; answered
instance (code : Bytes) (n : Nat) : Answers (fetch code ip n) := by unfold fetch; answered
instance (code : Bytes) (n : Nat) : Answers (fetchInt code ip n) := by unfold fetchInt; answered
instance (a : AssemblyRec) (t : Token) : Answers (a.resolveMethod cfg t) := by unfold AssemblyRec.resolveMethod; answered
instance (a : AssemblyRec) (t : Token) : Answers (a.resolveField cfg t) := by unfold AssemblyRec.resolveField; answered
instance (a : AssemblyRec) (t : Token) : Answers (a.resolveType cfg t) := by unfold AssemblyRec.resolveType; answered
instance (h : Heap) (n : Nat) : Answers (h.reserve n) := by unfold Heap.reserve; answered
instance (h : Heap) (n : Nat) : Answers (h.resize n) := by unfold Heap.resize; answered
instance (h : Heap) (n : Nat) : Answers (h.ensureSize cfg n) := by unfold Heap.ensureSize; answered
instance (h : Heap) (n : Nat) : Answers (h.bump cfg n) := by unfold Heap.bump; answered
instance (h : Heap) (p : Ptr) (o n : Nat) : Answers (h.read p o n) := by unfold Heap.read; answered
instance (h : Heap) (p : Ptr) (o : Nat) (bs : Bytes) : Answers (h.write p o bs) := by unfold Heap.write; answered
instance (a : Value) : Answers (valueBytes a) := by unfold valueBytes; answered
instance (w : World) (n : Name) (l : List (Nat × Nat × (Nat → Value))) : Answers (fieldKind w n l) := by
  induction l with
  | nil => unfold fieldKind; infer_instance
  | cons a l ih => unfold fieldKind; answered

section
variable {n : Nat} (a b : BitVec n) (o z : Bool)
instance : Answers (checked cfg o a) := by unfold checked; answered
instance : Answers (divided z o a) := by unfold divided; answered
end

instance (s u : {n : Nat} → BitVec n → BitVec n → Res (BitVec n)) (f d) (a b : Value)
    [∀ (n : Nat) (a b : BitVec n), Answers (s a b)] [∀ (n : Nat) (a b : BitVec n), Answers (u a b)] : Answers (Value.arith s u f d a b) := by
  unfold Value.arith; answered
instance (s u : {n : Nat} → BitVec n → BitVec n → Res (BitVec n)) (a b : Value)
    [∀ (n : Nat) (a b : BitVec n), Answers (s a b)] [∀ (n : Nat) (a b : BitVec n), Answers (u a b)] : Answers (Value.bits s u a b) := by
  unfold Value.bits; answered

section
variable (a b : Value)
instance : Answers (Value.isNullOrZero ops a) := by unfold Value.isNullOrZero; answered
instance : Answers (Value.partialCmp ops a b) := by unfold Value.partialCmp; answered
instance : Answers (Value.lt ops a b) := by unfold Value.lt; answered
instance : Answers (Value.le ops a b) := by unfold Value.le; answered
instance : Answers (Value.gt ops a b) := by unfold Value.gt; answered
instance : Answers (Value.ge ops a b) := by unfold Value.ge; answered
instance : Answers (eqTop ops a b) := by unfold eqTop; answered
instance : Answers (Value.add cfg ops a b) := by unfold Value.add addS addU; infer_instance
instance : Answers (Value.sub cfg ops a b) := by unfold Value.sub subS subU; infer_instance
instance : Answers (Value.mul cfg ops a b) := by unfold Value.mul mulS mulU; infer_instance
instance : Answers (Value.div ops a b) := by unfold Value.div divS divU; infer_instance
instance : Answers (Value.rem ops a b) := by unfold Value.rem remS remU; infer_instance
instance : Answers (Value.and a b) := by unfold Value.and; infer_instance
instance : Answers (Value.or a b) := by unfold Value.or; infer_instance
instance : Answers (Value.xor a b) := by unfold Value.xor; infer_instance
instance : Answers (Value.shl cfg a b) := by unfold Value.shl Clr.shl; infer_instance
instance : Answers (Value.shr cfg a b) := by unfold Value.shr shrS shrU; infer_instance
instance : Answers (Value.neg cfg ops a) := by unfold Value.neg negS; answered
instance : Answers (Value.not a) := by unfold Value.not; answered
end

instance (r : Reader) (n : Nat) : Answers (r.rawBytes n) := by unfold Reader.rawBytes; answered
instance (r : Reader) (n : Nat) : Answers (r.advance cfg n) := by unfold Reader.advance; answered
instance (r : Reader) (n : Nat) : Answers (r.peek cfg n) := by unfold Reader.peek; answered
instance (r : Reader) (n : Nat) : Answers (r.read cfg n) := by unfold Reader.read; answered
instance (r : Reader) (n : Nat) : Answers (blobPeek cfg r n) := by unfold blobPeek; answered
instance (r : Reader) : Answers (peekByte cfg r) := by unfold peekByte; answered
instance (r : Reader) (n : Nat) : Answers (blobRead cfg r n) := by unfold blobRead; answered
instance (r : Reader) : Answers (readByte cfg r) := by unfold readByte; answered
instance (r : Reader) (s n : Nat) : Answers (r.readArray cfg s n) := by unfold Reader.readArray; answered
instance (r : Reader) : Answers (readUtf16Str cfg r) := by unfold readUtf16Str; answered
instance (r : Reader) : Answers (readCompressed cfg r) := by unfold readCompressed; answered
instance (d : Bytes) : Answers (newBlobReader cfg d) := by unfold newBlobReader; answered
instance (d : Bytes) (t : Token) : Answers (getString cfg d t) := by unfold getString; answered

/-- Code that comes to an end in every state. -/
class X.Answers (x : X α) : Prop where
  out : ∀ v, (x v).1 ≠ .timeout

namespace X.Answers

instance pure (a : α) : X.Answers (Pure.pure a : X α) := ⟨fun _ => nofun⟩
instance liftM (x : Res α) [h : Res.Answers x] : X.Answers (_root_.liftM x : X α) := ⟨fun _ => h.out⟩
instance lift (x : Res α) [h : Res.Answers x] : X.Answers (X.lift x) := ⟨fun _ => h.out⟩
instance view (f : VM → Res α) [h : ∀ v, Res.Answers (f v)] : X.Answers (X.view f) := ⟨fun v => (h v).out⟩

theorem bind {x : X α} {f : α → X β} (hx : X.Answers x) (hf : ∀ a, X.Answers (f a)) : X.Answers (x >>= f) := by
  refine ⟨fun v => ?_⟩
  have h := hx.out v
  rw [X.bind_run]
  rcases hr : x v with ⟨r, v1⟩
  rw [hr] at h
  cases r with
  | ok a => exact (hf a).out v1
  | timeout => exact absurd rfl h
  | _ => exact nofun

theorem update {f : VM → Res (α × VM)} (h : ∀ v, Res.Answers (f v)) : X.Answers (X.update f) := by
  refine ⟨fun v => ?_⟩
  have := (h v).out
  unfold X.update
  cases e : f v with
  | timeout => exact absurd e this
  | _ => exact nofun

end X.Answers

macro "xanswered" : tactic => `(tactic| repeat' first
  | infer_instance
  | with_reducible refine X.Answers.bind ?_ (fun _ => ?_)
  | with_reducible refine @X.Answers.view _ _ (fun _ => ?_)
  | with_reducible refine Res.Answers.bind ?_ (fun _ => ?_)
  | split
  | dsimp only)

instance (a : Value) : X.Answers (push a) := .update fun _ => inferInstance
instance : X.Answers tryPop := .update fun _ => by answered
instance : X.Answers pop := by unfold pop; xanswered
instance : X.Answers peek := by unfold peek; xanswered
instance : X.Answers popInt := by unfold popInt; xanswered
instance (n a) : X.Answers (insertBelow cfg n a) := .update fun v => by answered
instance (n) : X.Answers (stackAlloc n) := .update fun v => by answered
instance (r i) : X.Answers (readSlot r i) := by unfold readSlot; xanswered
instance (r i a) : X.Answers (writeSlot r i a) := .update fun v => by answered
instance (f : Heap → Res (α × Heap)) [∀ h, Answers (f h)] : X.Answers (onHeap f) := .update fun v => by answered
instance (p o b) : X.Answers (poke p o b) := by
  unfold poke
  have : ∀ h : Heap, Answers (do let h ← h.write p o b; pure ((), h) : Res (Unit × Heap)) := fun h => by answered
  infer_instance
instance (p o n) : X.Answers (peekBytes p o n) := by unfold peekBytes; xanswered
instance (p n) : X.Answers (orFlags p n) := by unfold orFlags; xanswered
instance (t) : X.Answers (typeId t) := by unfold typeId; xanswered
theorem arrayType_answers (t : Nat) (w : World) : (arrayType cfg t w).1 ≠ .timeout := by
  have bind : ∀ {α β : Type} {x : M α} {f : α → M β}, (∀ w, (x w).1 ≠ .timeout) → (∀ a w, (f a w).1 ≠ .timeout) →
      ∀ w, ((x >>= f) w).1 ≠ .timeout := by
    intro α β x f hx hf w
    have h := hx w
    rw [M.bind_run]
    rcases hr : x w with ⟨r, w1⟩
    rw [hr] at h
    cases r with
    | ok a => exact hf a w1
    | timeout => exact absurd rfl h
    | _ => exact nofun
  have view : ∀ {α : Type} {f : World → Res α}, (∀ w, Answers (f w)) → ∀ w, (M.view f w).1 ≠ .timeout := fun h w => (h w).out
  have mod : ∀ (f : World → World) w, (M.modify f w).1 ≠ .timeout := fun _ _ => nofun
  have pure : ∀ {α : Type} (a : α) w, ((Pure.pure a : M α) w).1 ≠ .timeout := fun _ _ => nofun
  have id : ∀ w, (nextTypeId cfg w).1 ≠ .timeout := by
    unfold nextTypeId
    exact bind (view fun _ => inferInstance) fun _ => bind (fun _ => (inferInstance : Answers (uadd cfg 32 _ 1)).out) fun _ =>
      bind (mod _) fun _ => pure _
  unfold arrayType
  refine bind (view fun _ => inferInstance) (fun e => ?_) w
  refine bind (view fun _ => inferInstance) fun o => ?_
  cases o with
  | some t => exact pure _
  | none =>
    exact bind id fun _ => bind (view fun _ => inferInstance) fun _ => bind (view fun _ => inferInstance) fun _ => bind (mod _) fun _ => pure _

instance (t) : X.Answers (X.registry (arrayType cfg t)) := ⟨fun v => arrayType_answers t v.world⟩
instance (u) : X.Answers (allocString cfg u) := by unfold allocString; xanswered
instance (p) : X.Answers (objectFlags p) := by unfold objectFlags; xanswered
instance (p) : X.Answers (rawObject p) := by unfold rawObject; xanswered
instance (p f a) : X.Answers (setField p f a) := by unfold setField; xanswered
instance (p f) : X.Answers (getField p f) := by unfold getField; xanswered
instance : X.Answers popArray := by unfold popArray; xanswered
instance (p) : X.Answers (intSlice p) := by unfold intSlice; xanswered
instance (p i x) : X.Answers (setInt p i x) := by unfold setInt; xanswered
instance (p i) : X.Answers (getInt p i) := by unfold getInt; xanswered
instance (p) : X.Answers (stringData p) := by unfold stringData; xanswered
instance (s) : X.Answers (X.registry (M.modify fun w => { w with output := w.output ++ s })) := ⟨fun _ => nofun⟩
instance (m p) : X.Answers (callNative m p) := by unfold callNative; xanswered
instance (a) : X.Answers (constant a ip) := by unfold constant; xanswered
instance (n f) : X.Answers (immediate fr n f ip) := by unfold immediate; xanswered
instance (r i) : X.Answers (loadAt' r i ip) := by unfold loadAt'; xanswered
instance (r n) : X.Answers (loadFrom fr r n ip) := by unfold loadFrom; xanswered
instance (r i) : X.Answers (storeAt r i ip) := by unfold storeAt; xanswered
instance (r n) : X.Answers (storeTo fr r n ip) := by unfold storeTo; xanswered
instance (n) : X.Answers (branch fr n ip) := by unfold branch; xanswered
instance (b n) : X.Answers (branchIf ops fr b n ip) := by unfold branchIf; xanswered
instance (f n) [∀ a b, Answers (f a b)] : X.Answers (branchCmp fr f n ip) := by unfold branchCmp; xanswered
instance (f) [∀ a b, Answers (f a b)] : X.Answers (compareOp f ip) := by unfold compareOp; xanswered
instance (f) [∀ a b, Answers (f a b)] : X.Answers (binary f ip) := by unfold binary; xanswered
instance (f) [∀ a, Answers (f a)] : X.Answers (unary f ip) := by unfold unary; xanswered
instance : X.Answers (doRet fr) := by unfold doRet; xanswered
instance : X.Answers (doDup ip) := by unfold doDup; xanswered
instance : X.Answers (doPop ip) := by unfold doPop; xanswered
instance : X.Answers (doCall fr ip) := by unfold doCall; xanswered
instance : X.Answers (doStfld cfg fr ip) := by unfold doStfld; xanswered
instance : X.Answers (doLdfld cfg fr ip) := by unfold doLdfld; xanswered
instance : X.Answers (doStelem ip) := by unfold doStelem; xanswered
instance : X.Answers (doLdelem ip) := by unfold doLdelem; xanswered
instance : X.Answers (doLdstr cfg fr ip) := by unfold doLdstr; xanswered

/-- Every instruction that does not ask for the size of a type. -/
theorem exec_answers {op : Op} (h1 : op ≠ .Newobj) (h2 : op ≠ .Newarr) : X.Answers (exec cfg ops tf fr op ip) := by
  cases op <;> first | exact absurd rfl h1 | exact absurd rfl h2 | clear h1 h2 <;> (unfold exec; infer_instance)

instance (r n) : X.Answers (popInto r n) := by
  induction n with
  | zero => exact .pure _
  | succ n ih => unfold popInto; xanswered

end Clr
