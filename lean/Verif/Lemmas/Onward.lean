import Verif.Model.Interp
import Verif.Spec.Registry
import Verif.Lemmas.Silent
/-!
# What running a program does to the registry

It asks for array types and writes output, nothing else.
-/

namespace Clr
variable {α β : Type} {cfg : Cfg}

theorem Later.trans {a b c : World} (h : Later cfg a b) (g : Later cfg b c) : Later cfg a c := by
  induction g with
  | refl => exact h
  | runtime fs d f a b _ ih => exact .runtime fs d f a b ih
  | loadFile fs d f a _ ih => exact .loadFile fs d f a ih
  | loadName fs d f a _ ih => exact .loadName fs d f a ih
  | arrayOf t _ ih => exact .arrayOf t ih
  | write s _ ih => exact .write s ih

theorem Later.reached {a b : World} (g : Later cfg a b) (h : Reached cfg a) : Reached cfg b := by
  induction g with
  | refl => exact h
  | runtime fs d f a b _ ih => exact .runtime fs d f a b ih
  | loadFile fs d f a _ ih => exact .loadFile fs d f a ih
  | loadName fs d f a _ ih => exact .loadName fs d f a ih
  | arrayOf t _ ih => exact .arrayOf t ih
  | write s _ ih => exact .write s ih

/-- What registry operations bring about that leave the table of numeric types alone. -/
structure Advanced (cfg : Cfg) (w w' : World) : Prop where
  later : Later cfg w w'
  primitives : w'.primitives = w.primitives

theorem Advanced.refl (w : World) : Advanced cfg w w := ⟨.refl _, rfl⟩
theorem Advanced.trans {a b c : World} (h : Advanced cfg a b) (g : Advanced cfg b c) : Advanced cfg a c :=
  ⟨h.later.trans g.later, g.primitives.trans h.primitives⟩

/-- The registry afterwards is one that registry operations bring about, without starting the runtime again or loading. -/
class Advances (cfg : Cfg) (x : X α) : Prop where
  later : ∀ v, Advanced cfg v.world (x v).2.world

namespace Advances
instance pure (a : α) : Advances cfg (Pure.pure a : X α) := ⟨fun _ => .refl _⟩
instance lift (x : Res α) : Advances cfg (X.lift x) := ⟨fun _ => .refl _⟩
instance liftM (x : Res α) : Advances cfg (_root_.liftM x : X α) := ⟨fun _ => .refl _⟩
instance view (f : VM → Res α) : Advances cfg (X.view f) := ⟨fun _ => .refl _⟩
theorem bind {x : X α} {f : α → X β} (hx : Advances cfg x) (hf : ∀ a, Advances cfg (f a)) : Advances cfg (x >>= f) := by
  refine ⟨fun v => ?_⟩
  show Advanced cfg v.world (X.bind' x f v).2.world
  have h := hx.later v
  unfold X.bind'
  rcases e : x v with ⟨r, v1⟩
  rw [e] at h
  cases r with
  | ok a => exact h.trans ((hf a).later v1)
  | _ => exact h
theorem update {f : VM → Res (α × VM)} (h : ∀ v a v', f v = .ok (a, v') → v'.world = v.world) : Advances cfg (X.update f) := by
  refine ⟨fun v => ?_⟩
  unfold X.update
  split
  · next a v' e => dsimp only; rw [h v a v' e]; exact .refl _
  all_goals exact .refl _
theorem finally' {x : X α} {f : VM → Res VM} (hx : Advances cfg x) (h : ∀ v v', f v = .ok v' → v'.world = v.world) :
    Advances cfg (X.finally' x f) := by
  refine ⟨fun v => ?_⟩
  unfold X.finally'
  split
  · next v' e => dsimp only; rw [h _ v' e]; exact hx.later v
  all_goals exact hx.later v
end Advances

macro "advances" : tactic => `(tactic| repeat' first
  | infer_instance
  | with_reducible refine Advances.bind ?_ (fun _ => ?_)
  | split
  | dsimp only)

instance (a : Value) : Advances cfg (push a) := .update fun _ _ _ h => by cases h; rfl
instance : Advances cfg tryPop := .update fun v a v' h => by
  split at h <;> cases h <;> rfl
instance : Advances cfg pop := by unfold pop; advances
instance : Advances cfg peek := by unfold peek; advances
instance : Advances cfg popInt := by unfold popInt; advances
instance (n a) : Advances cfg (insertBelow cfg n a) := .update fun v a v' h => by
  obtain ⟨x, -, h⟩ := Res.bind_eq_ok.1 h
  split at h <;> cases h; rfl
instance (n) : Advances cfg (stackAlloc n) := .update fun v a v' h => by
  dsimp only at h; repeat' split at h
  all_goals first | (cases h; done) | (cases h; rfl)
instance (r i) : Advances cfg (readSlot r i) := by unfold readSlot; advances
instance (r i a) : Advances cfg (writeSlot r i a) := .update fun v a v' h => by
  dsimp only at h; repeat' split at h
  all_goals first | (cases h; done) | (cases h; rfl)
instance (f : Heap → Res (α × Heap)) : Advances cfg (onHeap f) := .update fun v a v' h => by
  obtain ⟨x, -, h⟩ := Res.bind_eq_ok.1 h
  cases h; rfl
instance (p o b) : Advances cfg (poke p o b) := by unfold poke; advances
instance (p o n) : Advances cfg (peekBytes p o n) := by unfold peekBytes; advances
instance (p n) : Advances cfg (orFlags p n) := by unfold orFlags; advances
instance (t) : Advances cfg (typeId t) := by unfold typeId; advances
instance (t) : Advances cfg (X.registry (arrayType cfg t)) := ⟨fun v => ⟨.arrayOf t (.refl _), (Silent.of_grow (arrayType_grow t) v.world).2⟩⟩
instance (s) : Advances cfg (X.registry (M.modify fun w => { w with output := w.output ++ s })) := ⟨fun _ => ⟨.write s (.refl _), rfl⟩⟩
instance (f t) : Advances cfg (allocObject cfg f t) := by unfold allocObject; advances
instance (f e n) : Advances cfg (allocArray cfg f e n) := by unfold allocArray; advances
instance (u) : Advances cfg (allocString cfg u) := by unfold allocString; advances
instance (p) : Advances cfg (objectFlags p) := by unfold objectFlags; advances
instance (p) : Advances cfg (rawObject p) := by unfold rawObject; advances
instance (p f a) : Advances cfg (setField p f a) := by unfold setField; advances
instance (p f) : Advances cfg (getField p f) := by unfold getField; advances
instance : Advances cfg popArray := by unfold popArray; advances
instance (p) : Advances cfg (intSlice p) := by unfold intSlice; advances
instance (p i x) : Advances cfg (setInt p i x) := by unfold setInt; advances
instance (p i) : Advances cfg (getInt p i) := by unfold getInt; advances
instance (p) : Advances cfg (stringData p) := by unfold stringData; advances
instance (m p) : Advances cfg (callNative m p) := by unfold callNative; advances

/-! ## The interpreter -/

section
variable (fr : Frame) (ops : FloatOps) (tf n ip i : Nat) (r : Region)
instance (a) : Advances cfg (constant a ip) := by unfold constant; advances
instance (f) : Advances cfg (immediate fr n f ip) := by unfold immediate; advances
instance : Advances cfg (loadAt' r i ip) := by unfold loadAt'; advances
instance : Advances cfg (loadFrom fr r n ip) := by unfold loadFrom; advances
instance : Advances cfg (storeAt r i ip) := by unfold storeAt; advances
instance : Advances cfg (storeTo fr r n ip) := by unfold storeTo; advances
instance : Advances cfg (branch fr n ip) := by unfold branch; advances
instance (b) : Advances cfg (branchIf ops fr b n ip) := by unfold branchIf; advances
instance (f) : Advances cfg (branchCmp fr f n ip) := by unfold branchCmp; advances
instance (f) : Advances cfg (compareOp f ip) := by unfold compareOp; advances
instance (f) : Advances cfg (binary f ip) := by unfold binary; advances
instance (f) : Advances cfg (unary f ip) := by unfold unary; advances
instance : Advances cfg (doRet fr) := by unfold doRet; advances
instance : Advances cfg (doDup ip) := by unfold doDup; advances
instance : Advances cfg (doPop ip) := by unfold doPop; advances
instance : Advances cfg (doCall fr ip) := by unfold doCall; advances
instance : Advances cfg (doNewobj cfg tf fr ip) := by unfold doNewobj; advances
instance : Advances cfg (doStfld cfg fr ip) := by unfold doStfld; advances
instance : Advances cfg (doLdfld cfg fr ip) := by unfold doLdfld; advances
instance : Advances cfg (doNewarr cfg tf fr ip) := by unfold doNewarr; advances
instance : Advances cfg (doStelem ip) := by unfold doStelem; advances
instance : Advances cfg (doLdelem ip) := by unfold doLdelem; advances
instance : Advances cfg (doLdstr cfg fr ip) := by unfold doLdstr; advances
instance (op) : Advances cfg (exec cfg ops tf fr op ip) := by cases op <;> (unfold exec; infer_instance)
instance : Advances cfg (step cfg ops tf fr ip) := by unfold step; advances
instance : Advances cfg (popInto r n) := by
  induction n with
  | zero => exact .pure _
  | succ n ih => unfold popInto; advances
instance (run : Frame → Nat → X (Option Value)) [∀ fr i, Advances cfg (run fr i)] (m) : Advances cfg (invoke cfg run m r) := by
  unfold invoke
  split
  · refine .bind inferInstance fun _ => .bind inferInstance fun _ => .bind ?_ fun _ => .finally' ?_ ?_
    · exact .update fun _ _ _ h => by cases h; rfl
    · advances
    · intro v v' h
      unfold release at h
      obtain ⟨x, -, h⟩ := Res.bind_eq_ok.1 h
      cases h; rfl
  · advances
  · advances
instance (run : Frame → Nat → X (Option Value)) [∀ fr i, Advances cfg (run fr i)] (t) : Advances cfg (callMethod cfg run fr t) := by
  unfold callMethod; advances
end
instance (ops tf n fr i) : Advances cfg (loop cfg ops tf n fr i) := by
  induction n generalizing fr i with
  | zero => exact .lift _
  | succ n ih => unfold loop; advances

/-- Executing a method: only array types are added and only output is written. -/
theorem hostExecute_advanced (ops : FloatOps) (tf fuel : Nat) (w : World) (m : MethodRec) (ps : List Value) :
    Advanced cfg w (hostExecute cfg ops tf fuel w m ps).2.world := by
  unfold hostExecute
  split
  · exact (inferInstance : Advances cfg (invoke cfg (loop cfg ops tf fuel) m .host)).later { world := w, host := ps }
  · exact .refl _

end Clr
