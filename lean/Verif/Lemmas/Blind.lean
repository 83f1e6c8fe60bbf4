import Verif.Spec.Spelling
import Verif.Lemmas.Vars
/-! # Operations that do not look at the bodies of methods (for C115) -/

namespace Clr
open Spec

variable {cfg : Cfg} {tf : Nat}

section
variable (φ : MethodRec → MethodRec)

/-- The type with other methods. -/
def TypeRec.withMethods (t : TypeRec) : TypeRec := { t with methods := t.methods.map φ }

/-- The assembly with other methods. -/
def AssemblyRec.withMethods (a : AssemblyRec) : AssemblyRec :=
  { a with entryPoint := a.entryPoint.map φ, methodDefs := a.methodDefs.map φ, methodRefs := a.methodRefs.map φ }

/-- The state with other methods in the registry. -/
def VM.withMethods (v : VM) : VM := { v with world := Spec.withMethods φ v.world }

/-- `x` does not look at bodies of methods. -/
def Blind {α : Type} (x : X α) : Prop := ∀ v, x (v.withMethods φ) = ((x v).1, (x v).2.withMethods φ)

end

variable {φ : MethodRec → MethodRec}

theorem typeAt_withMethods (w : World) (t : Nat) :
    (withMethods φ w).typeAt t = (do let r ← w.typeAt t; pure (r.withMethods φ)) := by
  unfold World.typeAt withMethods
  simp only [List.getElem?_map]
  cases w.types[t]? <;> rfl

theorem typeAt_bind {α : Type} (w : World) (t : Nat) (f g : TypeRec → Res α) (h : ∀ r, f (r.withMethods φ) = g r) :
    ((withMethods φ w).typeAt t >>= f) = (w.typeAt t >>= g) := by
  rw [typeAt_withMethods]
  cases w.typeAt t with
  | ok r => exact h r
  | _ => rfl

theorem getType_withMethods (w : World) (n : Name) : (withMethods φ w).getType n = w.getType n := rfl

theorem mapM_typeAt_withMethods (w : World) (ts : List Nat) :
    ts.mapM (withMethods φ w).typeAt = (do let rs ← ts.mapM w.typeAt; pure (rs.map (·.withMethods φ))) := by
  induction ts with
  | nil => rfl
  | cons t ts ih =>
    rw [List.mapM_cons, List.mapM_cons, ih, typeAt_withMethods]
    cases w.typeAt t with
    | ok r => cases ts.mapM w.typeAt <;> rfl
    | _ => rfl

theorem instanceOf_withMethods (w : World) (o n t : Nat) : instanceOf (withMethods φ w) o n t = instanceOf w o n t := by
  induction n generalizing t with
  | zero => rfl
  | succ n ih =>
    unfold instanceOf
    refine typeAt_bind w t _ _ fun r => typeAt_bind w o _ _ fun q => ?_
    show (if r.fullName = q.fullName then _ else _) = _
    split
    · rfl
    · show (match r.base with | some b => _ | none => _) = _
      cases r.base with
      | some b => exact ih b
      | none =>
        show (List.mapM (withMethods φ w).typeAt r.interfaces >>= _) = _
        rw [mapM_typeAt_withMethods]
        cases List.mapM w.typeAt r.interfaces with
        | ok rs =>
          show (Res.ok _ : Res Bool) = .ok _
          congr 1
          rw [List.any_map]
          rfl
        | _ => rfl

theorem isReferenceType_withMethods (w : World) (n t : Nat) :
    isReferenceType (withMethods φ w) n t = isReferenceType w n t := by
  unfold isReferenceType
  simp only [instanceOf_withMethods, getType_withMethods]

theorem primitiveSize_withMethods (w : World) (full : Name) (l : List (Name × Nat)) :
    primitiveSize (withMethods φ w) full l = primitiveSize w full l := by
  induction l with
  | nil => rfl
  | cons a l ih =>
    obtain ⟨n, s⟩ := a
    unfold primitiveSize
    rw [getType_withMethods, ih]
    cases Res.unwrap (w.getType n) with
    | ok t => exact typeAt_bind w t _ _ fun r => rfl
    | _ => rfl

theorem typeSize_withMethods (w : World) (n t : Nat) : typeSize cfg (withMethods φ w) n t = typeSize cfg w n t := by
  induction n generalizing t with
  | zero => rfl
  | succ n ih =>
    unfold typeSize
    rw [funext fun t => ih t, funext fun t => isReferenceType_withMethods (φ := φ) w n t]
    refine typeAt_bind w t _ _ fun r => ?_
    rw [primitiveSize_withMethods]
    rfl

theorem fieldKind_withMethods (w : World) (full : Name) (l : List (Nat × Nat × (Nat → Value))) :
    fieldKind (withMethods φ w) full l = fieldKind w full l := by
  induction l with
  | nil => rfl
  | cons a l ih =>
    obtain ⟨t, k⟩ := a
    unfold fieldKind
    rw [ih]
    exact typeAt_bind w t _ _ fun r => rfl

variable (φ) in
/-- The same for code on the registry. -/
def BlindM {α : Type} (x : M α) : Prop := ∀ w, x (withMethods φ w) = ((x w).1, withMethods φ (x w).2)

namespace BlindM

theorem bind {α β : Type} {x : M α} {f : α → M β} (h : BlindM φ x) (hf : ∀ a, BlindM φ (f a)) : BlindM φ (x >>= f) := by
  intro w
  rw [M.bind_run, M.bind_run, h w]
  rcases x w with ⟨r, w1⟩
  cases r with
  | ok a => exact hf a w1
  | _ => rfl

theorem arrayType (e : Nat) : BlindM φ (arrayType cfg e) := by
  intro w
  unfold Clr.arrayType
  rw [M.bind_run, M.bind_run]
  have e1 : (M.view fun w => w.typeAt e) (withMethods φ w) =
      (do let r ← w.typeAt e; Pure.pure (r.withMethods φ), withMethods φ w) := by
    rw [← typeAt_withMethods]; rfl
  have e2 : (M.view fun w => w.typeAt e) w = (w.typeAt e, w) := rfl
  rw [e1, e2]
  cases w.typeAt e with
  | ok r =>
    refine bind (f := fun t : Option Nat => match t with | some t => _ | none => _) (fun _ => rfl) (fun t => ?_) w
    cases t with
    | some t => exact fun _ => rfl
    | none =>
      refine bind (bind (fun _ => rfl) fun i => bind (fun _ => rfl) fun n => bind (fun _ => rfl) fun _ _ => rfl) fun id =>
        bind (fun _ => rfl) fun b => bind (fun w => ?_) fun t => bind (fun w => ?_) fun _ _ => rfl
      · show ((Res.ok (w.types.map _).length : Res Nat), _) = _
        rw [List.length_map]; rfl
      · show (Res.ok (), _) = (Res.ok (), _)
        simp [World.addType, withMethods, TypeRec.withMethods]
  | _ => rfl

end BlindM

namespace Blind

theorem pure {α : Type} (a : α) : Blind φ (Pure.pure a : X α) := fun _ => rfl

theorem lift {α : Type} (x : Res α) : Blind φ (liftM x : X α) := fun _ => rfl

theorem bind {α β : Type} {x : X α} {f : α → X β} (h : Blind φ x) (hf : ∀ a, Blind φ (f a)) : Blind φ (x >>= f) := by
  intro v
  rw [X.bind_run, X.bind_run, h v]
  rcases x v with ⟨r, v1⟩
  cases r with
  | ok a => exact hf a v1
  | _ => rfl

theorem view {α : Type} {f : VM → Res α} (h : ∀ v, f (v.withMethods φ) = f v) : Blind φ (X.view f) := by
  intro v
  show (f (v.withMethods φ), v.withMethods φ) = _
  rw [h v]; rfl

theorem update {α : Type} {f : VM → Res (α × VM)}
    (h : ∀ v, f (v.withMethods φ) = (do let (a, v') ← f v; Pure.pure (a, v'.withMethods φ))) : Blind φ (X.update f) := by
  intro v
  unfold X.update
  rw [h v]
  cases f v <;> rfl

/-- A type is looked up; what follows depends only on what methods cannot change. -/
theorem typeAt {β : Type} {t : Nat} {k : TypeRec → X β} (hk : ∀ r v, k (r.withMethods φ) (v.withMethods φ) =
    ((k r v).1, (k r v).2.withMethods φ)) : Blind φ ((X.view fun v => v.world.typeAt t) >>= k) := by
  intro v
  rw [X.bind_run, X.bind_run]
  have e : (X.view fun v => v.world.typeAt t) (v.withMethods φ) =
      (do let r ← v.world.typeAt t; Pure.pure (r.withMethods φ), v.withMethods φ) := by
    rw [← typeAt_withMethods]; rfl
  have e' : (X.view fun v => v.world.typeAt t) v = (v.world.typeAt t, v) := rfl
  rw [e, e']
  cases v.world.typeAt t with
  | ok r => exact hk r v
  | _ => rfl

theorem push (a : Value) : Blind φ (push a) := fun _ => rfl

theorem tryPop : Blind φ tryPop := by
  refine update fun v => ?_
  show (match v.operands with | [] => _ | a :: rest => _) = _
  cases v.operands <;> rfl

theorem pop : Blind φ pop := bind tryPop fun _ => lift _

theorem peek : Blind φ peek := view fun _ => rfl

theorem popInt : Blind φ popInt := by
  refine bind pop fun a => ?_
  cases a <;> first | exact pure _ | exact lift _

theorem insertBelow (n : Nat) (a : Value) : Blind φ (insertBelow cfg n a) := by
  refine update fun v => ?_
  show (usub cfg 64 v.operands.length n >>= _) = _
  cases usub cfg 64 v.operands.length n with
  | ok i =>
    show (if i ≤ v.operands.length then _ else _) = (if i ≤ v.operands.length then _ else _) >>= _
    split <;> rfl
  | _ => rfl

theorem stackAlloc (n : Nat) : Blind φ (stackAlloc n) := by
  refine update fun v => ?_
  by_cases h : 16 * (v.stack.slots.length + n) ≤ v.stack.cap
  · refine (if_pos h).trans ?_; dsimp only; rw [if_pos h]; rfl
  · by_cases h' : max (2 * v.stack.cap) (16 * (v.stack.slots.length + n)) < 2 ^ 63
    · refine (if_neg h).trans ((if_pos h').trans ?_); dsimp only; rw [if_neg h, if_pos h']; rfl
    · refine (if_neg h).trans ((if_neg h').trans ?_); dsimp only; rw [if_neg h, if_neg h']; rfl

theorem readSlot (r : Region) (i : Nat) : Blind φ (readSlot r i) := view fun _ => rfl

theorem writeSlot (r : Region) (i : Nat) (a : Value) : Blind φ (writeSlot r i a) := by
  refine update fun v => ?_
  cases r with
  | host =>
    by_cases h : i < v.host.length
    · refine (if_pos h).trans ?_; dsimp only; rw [if_pos h]; rfl
    · refine (if_neg h).trans ?_; dsimp only; rw [if_neg h]; rfl
  | slots g b c =>
    by_cases h : i < c
    · by_cases h' : g = v.stack.gen ∧ b + i < v.stack.slots.length
      · refine (if_pos h).trans ((if_pos h').trans ?_); dsimp only; rw [if_pos h, if_pos h']; rfl
      · refine (if_pos h).trans ((if_neg h').trans ?_); dsimp only; rw [if_pos h, if_neg h']; rfl
    · refine (if_neg h).trans ?_; dsimp only; rw [if_neg h]; rfl

theorem onHeap {α : Type} (f : Heap → Res (α × Heap)) : Blind φ (onHeap f) := by
  refine update fun v => ?_
  dsimp only [VM.withMethods]
  cases f v.heap <;> rfl

theorem poke (p : Ptr) (off : Nat) (bs : Bytes) : Blind φ (poke p off bs) := onHeap _

theorem peekBytes (p : Ptr) (off n : Nat) : Blind φ (peekBytes p off n) := view fun _ => rfl

theorem orFlags (p : Ptr) (mask : Nat) : Blind φ (orFlags p mask) := bind (peekBytes _ _ _) fun _ => poke _ _ _

theorem typeId (t : Nat) : Blind φ (typeId t) := view fun v => typeAt_bind v.world t _ _ fun _ => rfl

theorem size (n t : Nat) : Blind φ (X.view fun v => typeSize cfg v.world n t) := view fun v => typeSize_withMethods v.world n t

theorem allocObject (t : Nat) : Blind φ (allocObject cfg tf t) :=
  bind (size _ _) fun _ => bind (lift _) fun _ => bind (onHeap _) fun _ => bind (typeId _) fun _ => bind (poke _ _ _) fun _ => pure _

theorem registry {α : Type} {x : M α} (h : BlindM φ x) : Blind φ (X.registry x) := by
  intro v
  show ((x (withMethods φ v.world)).1, ({ v with world := (x (withMethods φ v.world)).2 } : VM)) = _
  rw [h]; rfl

theorem arrayType (e : Nat) : Blind φ (X.registry (arrayType cfg e)) := registry (.arrayType e)

theorem allocArray (e n : Nat) : Blind φ (allocArray cfg tf e n) :=
  bind (size _ _) fun _ => bind (lift _) fun _ => bind (lift _) fun _ => bind (onHeap _) fun _ => bind (orFlags _ _) fun _ =>
    bind (arrayType _) fun _ => bind (typeId _) fun _ => bind (poke _ _ _) fun _ => bind (typeId _) fun _ =>
      bind (poke _ _ _) fun _ => bind (poke _ _ _) fun _ => pure _

theorem allocString (us : List Nat) : Blind φ (allocString cfg us) :=
  bind (lift _) fun _ => bind (lift _) fun _ => bind (onHeap _) fun _ => bind (orFlags _ _) fun _ =>
    bind (view fun _ => rfl) fun _ => bind (typeId _) fun _ => bind (poke _ _ _) fun _ => bind (poke _ _ _) fun _ =>
      bind (poke _ _ _) fun _ => pure _

theorem objectFlags (p : Ptr) : Blind φ (objectFlags p) := bind (peekBytes _ _ _) fun _ => pure _

theorem rawObject (p : Ptr) : Blind φ (rawObject p) := by
  refine bind (objectFlags _) fun f => ?_
  split
  · exact pure _
  · exact lift _

theorem setField (p : Ptr) (f : FieldRec) (a : Value) : Blind φ (setField p f a) :=
  bind (rawObject _) fun _ => bind (lift _) fun _ => poke _ _ _

theorem getField (p : Ptr) (f : FieldRec) : Blind φ (getField p f) := by
  refine bind (rawObject _) fun _ => bind (view fun v => ?_) fun _ => bind (peekBytes _ _ _) fun _ => pure _
  refine typeAt_bind v.world _ _ _ fun r => ?_
  show (Res.unwrap v.world.primitives >>= _) = _
  cases Res.unwrap v.world.primitives with
  | ok ps => exact fieldKind_withMethods _ _ _
  | _ => rfl

theorem popArray : Blind φ popArray := by
  refine bind pop fun a => ?_
  cases a with
  | object p =>
    refine bind (objectFlags p) fun f => ?_
    split
    · exact pure _
    · exact lift _
  | _ => exact lift _

theorem intSlice (p : Ptr) : Blind φ (intSlice p) := by
  refine bind (view fun _ => rfl) fun ps => bind (typeId _) fun id => bind (peekBytes _ _ _) fun hd => ?_
  dsimp only
  split
  · exact bind (peekBytes _ _ _) fun _ => pure _
  · refine typeAt fun r => ?_
    exact bind (view fun _ => rfl) fun _ => lift _

theorem setInt (p : Ptr) (i : Nat) (x : BitVec 32) : Blind φ (setInt p i x) := by
  refine bind (intSlice _) fun n => ?_
  split
  · exact poke _ _ _
  · exact lift _

theorem getInt (p : Ptr) (i : Nat) : Blind φ (getInt p i) := by
  refine bind (intSlice _) fun n => ?_
  split
  · exact bind (peekBytes _ _ _) fun _ => pure _
  · exact lift _

theorem callNative (f : InternalMethod) (r : Region) : Blind φ (callNative f r) := by
  cases f with
  | consoleWrite =>
    refine bind (readSlot _ _) fun a => ?_
    cases a with
    | object p =>
      refine bind (objectFlags p) fun f => ?_
      split
      · exact lift _
      · exact bind (bind (peekBytes _ _ _) fun _ => bind (peekBytes _ _ _) fun _ => pure _) fun _ => bind (lift _) fun _ =>
          bind (fun _ => rfl) fun _ => pure _
    | _ => exact lift _
  | _ => exact lift _

theorem popInto (r : Region) (n : Nat) : Blind φ (popInto r n) := by
  induction n with
  | zero => exact pure _
  | succ n ih => exact bind pop fun _ => bind (writeSlot _ _ _) fun _ => ih

end Blind

end Clr
