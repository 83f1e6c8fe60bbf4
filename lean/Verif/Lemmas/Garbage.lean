import Verif.Lemmas.Hosted
/-! # How much memory for objects running a program takes -/

namespace Clr
variable {α β : Type} {cfg : Cfg}

/-- Later: at least as much memory for objects; if `b`, exactly as much, and the same types and assemblies. -/
structure Lasts (b : Bool) (v v' : VM) : Prop where
  more : v.heap.mem.length ≤ v'.heap.mem.length
  same : b = true → v'.heap.mem.length = v.heap.mem.length ∧ v'.world.types = v.world.types ∧ v'.world.assemblies = v.world.assemblies

theorem Lasts.refl (b : Bool) (v : VM) : Lasts b v v := ⟨Nat.le_refl _, fun _ => ⟨rfl, rfl, rfl⟩⟩
theorem Lasts.of_eq {b : Bool} {v v' : VM} (h : v'.heap = v.heap) (g : v'.world = v.world) : Lasts b v v' :=
  ⟨by rw [h]; exact Nat.le_refl _, fun _ => by rw [h, g]; exact ⟨rfl, rfl, rfl⟩⟩
theorem Lasts.trans {b : Bool} {u v w : VM} (h : Lasts b u v) (g : Lasts b v w) : Lasts b u w :=
  ⟨Nat.le_trans h.more g.more, fun hb => by
    obtain ⟨a1, a2, a3⟩ := h.same hb
    obtain ⟨b1, b2, b3⟩ := g.same hb
    exact ⟨b1.trans a1, b2.trans a2, b3.trans a3⟩⟩

/-- Code after which there is at least as much memory in use; if `b`, code that takes none. -/
class Takes (b : Bool) (x : X α) : Prop where
  room : ∀ v, Lasts b v (x v).2

namespace Takes
variable {b : Bool}
instance pure (a : α) : Takes b (Pure.pure a : X α) := ⟨fun _ => .refl _ _⟩
instance lift (x : Res α) : Takes b (X.lift x) := ⟨fun _ => .refl _ _⟩
instance liftM (x : Res α) : Takes b (_root_.liftM x : X α) := ⟨fun _ => .refl _ _⟩
instance view (f : VM → Res α) : Takes b (X.view f) := ⟨fun _ => .refl _ _⟩
theorem bind' {x : X α} {f : α → X β} (hx : Takes b x) (hf : ∀ a v, (x v).1 = .ok a → Lasts b v (x v).2 → Lasts b (x v).2 (f a (x v).2).2) :
    Takes b (x >>= f) := by
  refine ⟨fun v => ?_⟩
  show Lasts b v (X.bind' x f v).2
  have h := hx.room v
  have hf' := fun a => hf a v
  unfold X.bind'
  rcases e : x v with ⟨r, v1⟩
  rw [e] at h hf'
  cases r with
  | ok a => exact h.trans (hf' a rfl h)
  | _ => exact h
theorem bind {x : X α} {f : α → X β} (hx : Takes b x) (hf : ∀ a, Takes b (f a)) : Takes b (x >>= f) :=
  bind' hx fun a _ _ _ => (hf a).room _
theorem update {f : VM → Res (α × VM)} (h : ∀ v a v', f v = .ok (a, v') → Lasts b v v') : Takes b (X.update f) := by
  refine ⟨fun v => ?_⟩
  unfold X.update
  split
  · next a v' e => exact h v a v' e
  all_goals exact .refl _ _
theorem finally' {x : X α} {f : VM → Res VM} (hx : Takes b x) (h : ∀ v v', f v = .ok v' → v'.heap = v.heap ∧ v'.world = v.world) :
    Takes b (X.finally' x f) := by
  refine ⟨fun v => ?_⟩
  unfold X.finally'
  split
  · next v' e => exact (hx.room v).trans (.of_eq (h _ v' e).1 (h _ v' e).2)
  all_goals exact hx.room v
end Takes

macro "takes" : tactic => `(tactic| repeat' first
  | infer_instance
  | with_reducible refine Takes.bind ?_ (fun _ => ?_)
  | split
  | dsimp only)

section
variable {b : Bool}
instance (a : Value) : Takes b (push a) := .update fun _ _ _ h => by cases h; exact .of_eq rfl rfl
instance : Takes b tryPop := .update fun v a v' h => by
  split at h <;> cases h <;> exact .of_eq rfl rfl
instance : Takes b pop := by unfold pop; takes
instance : Takes b peek := by unfold peek; takes
instance : Takes b popInt := by unfold popInt; takes
instance (n a) : Takes b (insertBelow cfg n a) := .update fun v a v' h => by
  obtain ⟨x, -, h⟩ := Res.bind_eq_ok.1 h
  split at h <;> cases h; exact .of_eq rfl rfl
instance (n) : Takes b (stackAlloc n) := .update fun v a v' h => by
  dsimp only at h; repeat' split at h
  all_goals first | (cases h; done) | (cases h; exact .of_eq rfl rfl)
instance (r i) : Takes b (readSlot r i) := by unfold readSlot; takes
instance (r i a) : Takes b (writeSlot r i a) := .update fun v a v' h => by
  dsimp only at h; repeat' split at h
  all_goals first | (cases h; done) | (cases h; exact .of_eq rfl rfl)
theorem Takes.onHeap {f : Heap → Res (α × Heap)} (h : ∀ g a g', f g = .ok (a, g') → g.mem.length ≤ g'.mem.length ∧
    (b = true → g'.mem.length = g.mem.length)) : Takes b (onHeap f) := .update fun v a v' e => by
  obtain ⟨⟨x, g⟩, k, e⟩ := Res.bind_eq_ok.1 e
  cases e
  exact ⟨(h _ _ _ k).1, fun hb => ⟨(h _ _ _ k).2 hb, rfl, rfl⟩⟩
instance (p o) (bs : Bytes) : Takes b (poke p o bs) := .onHeap fun g a g' h => by
  obtain ⟨g1, k, h⟩ := Res.bind_eq_ok.1 h
  cases h
  unfold Heap.write at k
  split at k
  · next hc =>
    cases k
    have : (g.mem.take (p.off + o) ++ bs ++ g.mem.drop (p.off + o + bs.length)).length = g.mem.length := by
      simp only [List.length_append, List.length_take, List.length_drop]
      omega
    exact ⟨by rw [this]; exact Nat.le_refl _, fun _ => this⟩
  · cases k
instance (p o n) : Takes b (peekBytes p o n) := by unfold peekBytes; takes
instance (p n) : Takes b (orFlags p n) := by unfold orFlags; takes
instance (t) : Takes b (typeId t) := by unfold typeId; takes
instance (p) : Takes b (objectFlags p) := by unfold objectFlags; takes
instance (p) : Takes b (rawObject p) := by unfold rawObject; takes
instance (p f a) : Takes b (setField p f a) := by unfold setField; takes
instance (p f) : Takes b (getField p f) := by unfold getField; takes
instance : Takes b popArray := by unfold popArray; takes
instance (p) : Takes b (intSlice p) := by unfold intSlice; takes
instance (p i x) : Takes b (setInt p i x) := by unfold setInt; takes
instance (p i) : Takes b (getInt p i) := by unfold getInt; takes
instance (p) : Takes b (stringData p) := by unfold stringData; takes
instance (s : List Char) : Takes b (X.registry (M.modify fun w => { w with output := w.output ++ s })) :=
  ⟨fun _ => ⟨Nat.le_refl _, fun _ => ⟨rfl, rfl, rfl⟩⟩⟩
instance (x : M α) : Takes false (X.registry x) := ⟨fun _ => ⟨Nat.le_refl _, nofun⟩⟩
instance (m p) : Takes b (callNative m p) := by unfold callNative; takes
end

theorem reserve_mem {h h' : Heap} {n : Nat} (e : h.reserve n = .ok h') : h'.mem = h.mem := by
  unfold Heap.reserve at e
  split at e
  · cases e; rfl
  · split at e <;> cases e; rfl

theorem uadd_checked (hc : cfg.checks = true) {n a b c : Nat} (h : uadd cfg n a b = .ok c) : c = a + b := by
  unfold uadd at h
  rw [hc] at h
  split at h
  · cases h; rfl
  · cases h

/-- With overflow checks an allocation never makes the memory smaller. -/
theorem Takes.bump (hc : cfg.checks = true) (size : Nat) : Takes false (Clr.onHeap (·.bump cfg size)) := .onHeap fun g a g' h => by
  refine ⟨?_, nofun⟩
  unfold Heap.bump at h
  obtain ⟨g1, k1, h⟩ := Res.bind_eq_ok.1 h
  obtain ⟨n, k2, h⟩ := Res.bind_eq_ok.1 h
  obtain ⟨g2, k3, h⟩ := Res.bind_eq_ok.1 h
  cases h
  have e1 : g1.mem = g.mem := by
    unfold Heap.ensureSize at k1
    obtain ⟨m, -, k1⟩ := Res.bind_eq_ok.1 k1
    split at k1
    · exact reserve_mem k1
    · cases k1; rfl
  have e2 := uadd_checked hc k2
  rw [e1] at e2
  unfold Heap.resize at k3
  split at k3
  · obtain ⟨g3, k4, k3⟩ := Res.bind_eq_ok.1 k3
    cases k3
    have e3 := reserve_mem k4
    show g.mem.length ≤ (g3.mem ++ _).length
    rw [e3, e1, List.length_append]
    omega
  · cases k3
    show g.mem.length ≤ (g1.mem.take n).length
    rw [e1, List.length_take]
    omega

section
variable (hc : cfg.checks = true)
include hc
theorem Takes.allocObject (f t : Nat) : Takes false (allocObject cfg f t) := by
  unfold Clr.allocObject
  refine .bind inferInstance fun _ => .bind inferInstance fun _ => .bind (.bump hc _) fun _ => ?_
  takes
theorem Takes.allocArray (f e n : Nat) : Takes false (allocArray cfg f e n) := by
  unfold Clr.allocArray
  refine .bind inferInstance fun _ => .bind inferInstance fun _ => .bind inferInstance fun _ => .bind (.bump hc _) fun _ => ?_
  takes
theorem Takes.allocString (u : List Nat) : Takes false (allocString cfg u) := by
  unfold Clr.allocString
  refine .bind inferInstance fun _ => .bind inferInstance fun _ => .bind (.bump hc _) fun _ => ?_
  takes
end

section
variable {b : Bool} (fr : Frame) (ops : FloatOps) (tf n ip i : Nat) (r : Region)
instance (a) : Takes b (constant a ip) := by unfold constant; takes
instance (f) : Takes b (immediate fr n f ip) := by unfold immediate; takes
instance : Takes b (loadAt' r i ip) := by unfold loadAt'; takes
instance : Takes b (loadFrom fr r n ip) := by unfold loadFrom; takes
instance : Takes b (storeAt r i ip) := by unfold storeAt; takes
instance : Takes b (storeTo fr r n ip) := by unfold storeTo; takes
instance : Takes b (branch fr n ip) := by unfold branch; takes
instance (c) : Takes b (branchIf ops fr c n ip) := by unfold branchIf; takes
instance (f) : Takes b (branchCmp fr f n ip) := by unfold branchCmp; takes
instance (f) : Takes b (compareOp f ip) := by unfold compareOp; takes
instance (f) : Takes b (binary f ip) := by unfold binary; takes
instance (f) : Takes b (unary f ip) := by unfold unary; takes
instance : Takes b (doRet fr) := by unfold doRet; takes
instance : Takes b (doDup ip) := by unfold doDup; takes
instance : Takes b (doPop ip) := by unfold doPop; takes
instance : Takes b (doCall fr ip) := by unfold doCall; takes
instance : Takes b (doStfld cfg fr ip) := by unfold doStfld; takes
instance : Takes b (doLdfld cfg fr ip) := by unfold doLdfld; takes
instance : Takes b (doStelem ip) := by unfold doStelem; takes
instance : Takes b (doLdelem ip) := by unfold doLdelem; takes
instance : Takes b (popInto r n) := by
  induction n with
  | zero => exact .pure _
  | succ n ih => unfold popInto; takes
end

/-- The instructions that create objects. -/
def Op.creates : Op → Bool
  | .Newobj | .Newarr | .Ldstr => true
  | _ => false

theorem exec_takes {b : Bool} (hc : b = false → cfg.checks = true) (fr : Frame) (ops : FloatOps) (tf : Nat) (op : Op) (ip : Nat)
    (ho : b = true → op.creates = false) : Takes b (exec cfg ops tf fr op ip) := by
  by_cases h : op = .Newobj ∨ op = .Newarr ∨ op = .Ldstr
  · have hb : b = false := by
      cases b with
      | false => rfl
      | true => rcases h with rfl | rfl | rfl <;> exact absurd (ho rfl) (by decide)
    subst hb
    have hc := hc rfl
    rcases h with rfl | rfl | rfl
    · show Takes false (doNewobj cfg tf fr ip)
      unfold doNewobj
      refine .bind inferInstance fun _ => .bind inferInstance fun _ => .bind inferInstance fun _ => .bind (.allocObject hc ..) fun _ => ?_
      takes
    · show Takes false (doNewarr cfg tf fr ip)
      unfold doNewarr
      refine .bind inferInstance fun _ => .bind inferInstance fun _ => .bind inferInstance fun _ => .bind inferInstance fun _ =>
        .bind (.allocArray hc ..) fun _ => ?_
      takes
    · show Takes false (doLdstr cfg fr ip)
      unfold doLdstr
      refine .bind inferInstance fun _ => .bind inferInstance fun _ => .bind inferInstance fun _ => .bind (.allocString hc ..) fun _ => ?_
      takes
  · cases op
    all_goals first
      | exact absurd (.inl rfl) h
      | exact absurd (.inr (.inl rfl)) h
      | exact absurd (.inr (.inr rfl)) h
      | (unfold exec; infer_instance)

theorem step_takes {b : Bool} (hc : b = false → cfg.checks = true) (fr : Frame) (ops : FloatOps) (tf ip : Nat)
    (ho : b = true → ∀ ip op i, fetchOp fr.code ip = .ok (op, i) → op.creates = false) : Takes b (step cfg ops tf fr ip) := by
  unfold step
  refine .bind' inferInstance fun a _ ha _ => ?_
  exact (exec_takes (cfg := cfg) hc fr ops tf a.1 a.2 fun hb => ho hb _ _ _ ha).room _

/-- Methods that create nothing, and call only such methods. -/
structure Thrifty (cfg : Cfg) (w : World) (M : MethodRec → Prop) : Prop where
  code : ∀ m body, M m → m.impl = .il body → ∀ ip op i, fetchOp body.code ip = .ok (op, i) → op.creates = false
  calls : ∀ m tr a t m', M m → w.typeAt m.declaringType = .ok tr → w.assemblies.find? (·.id = tr.assembly) = some a →
    a.resolveMethod cfg t = .ok (some m') → M m'

/-- Frames of such methods. -/
structure ThriftyFrame (cfg : Cfg) (M : MethodRec → Prop) (fr : Frame) : Prop where
  code : ∀ ip op i, fetchOp fr.code ip = .ok (op, i) → op.creates = false
  calls : ∀ t m', fr.assembly.resolveMethod cfg t = .ok (some m') → M m'

/-- Code that takes no memory in states with the registry's types and assemblies; with `b = false`, see `Takes`. -/
def TakesIn (b : Bool) (w : World) (x : X α) : Prop :=
  ∀ v, (b = true → v.world.types = w.types ∧ v.world.assemblies = w.assemblies) → Lasts b v (x v).2

theorem TakesIn.bind {b : Bool} {w : World} {x : X α} {f : α → X β} (hx : TakesIn b w x)
    (hf : ∀ a v, (x v).1 = .ok a → TakesIn b w (f a)) : TakesIn b w (x >>= f) := by
  intro v hv
  show Lasts b v (X.bind' x f v).2
  have h := hx v hv
  have hf' := fun a => hf a v
  unfold X.bind'
  rcases e : x v with ⟨r, v1⟩
  rw [e] at h hf'
  cases r with
  | ok a =>
    refine h.trans (hf' a rfl v1 fun hb => ?_)
    obtain ⟨-, h1, h2⟩ := h.same hb
    exact ⟨h1.trans (hv hb).1, h2.trans (hv hb).2⟩
  | _ => exact h

theorem Takes.at {b : Bool} {x : X α} (h : Takes b x) (w : World) : TakesIn b w x := fun v _ => h.room v

theorem invoke_takes {b : Bool} {w : World} {M : MethodRec → Prop} (hM : b = true → Thrifty cfg w M)
    {run : Frame → Nat → X (Option Value)} (hrun : ∀ fr ip, (b = true → ThriftyFrame cfg M fr) → TakesIn b w (run fr ip))
    (m : MethodRec) (hm : b = true → M m) (r : Region) : TakesIn b w (invoke cfg run m r) := by
  unfold invoke
  split
  · next body hb =>
    intro v hv
    have hview : ∀ {γ : Type} (f : VM → Res γ) (g : γ → X (Option Value)), (∀ a, f v = .ok a → Lasts b v (g a v).2) →
        Lasts b v ((X.view f >>= g) v).2 := by
      intro γ f g h
      show Lasts b v (X.bind' (X.view f) g v).2
      unfold X.bind' X.view
      cases e : f v with
      | ok a => exact h a e
      | _ => exact .refl _ _
    refine hview _ _ fun t ht => hview _ _ fun a ha => ?_
    refine TakesIn.bind (w := w) (Takes.at (.update fun _ _ _ h => by cases h; exact .of_eq rfl rfl) w) (fun outer v1 _ => ?_) v hv
    intro v1 hv1
    unfold X.finally'
    have key : TakesIn b w (do
        let locals ← stackAlloc body.locals.length
        run { method := m, assembly := a, code := body.code, locals, params := r } 0) := by
      refine TakesIn.bind (Takes.at inferInstance w) fun l _ _ => hrun _ _ fun hb' => ⟨?_, ?_⟩
      · exact (hM hb').code m body (hm hb') hb
      · intro t' m' h'
        refine (hM hb').calls m t a t' m' (hm hb') ?_ ?_ h'
        · unfold World.typeAt at ht ⊢; rw [← (hv hb').1]; exact ht
        · rw [← (hv hb').2]
          exact by
            cases e : v.world.assemblies.find? (·.id = t.assembly) with
            | none => rw [e] at ha; cases ha
            | some x => rw [e] at ha; cases ha; rfl
    split
    · next v' e =>
      refine (key v1 hv1).trans ?_
      unfold release at e
      obtain ⟨x, -, e⟩ := Res.bind_eq_ok.1 e
      cases e; exact .of_eq rfl rfl
    all_goals exact key v1 hv1
  · exact Takes.at inferInstance w
  · exact Takes.at inferInstance w

theorem callMethod_takes {b : Bool} {w : World} {M : MethodRec → Prop} (hM : b = true → Thrifty cfg w M)
    {run : Frame → Nat → X (Option Value)} (hrun : ∀ fr ip, (b = true → ThriftyFrame cfg M fr) → TakesIn b w (run fr ip))
    (fr : Frame) (hf : b = true → ThriftyFrame cfg M fr) (t : Token) : TakesIn b w (callMethod cfg run fr t) := by
  unfold callMethod
  refine .bind (Takes.at inferInstance w) fun m0 v0 h0 => .bind (Takes.at inferInstance w) fun m v1 h1 => ?_
  have hm : b = true → M m := fun hb => (hf hb).calls t m (by
    have h0 : fr.assembly.resolveMethod cfg t = .ok m0 := h0
    have h1 : Res.ofOption "Cannot find method for metadata token" m0 = .ok m := h1
    rw [h0]
    cases m0 with
    | none => cases h1
    | some x => cases h1; rfl)
  refine .bind (Takes.at inferInstance w) fun _ _ _ => .bind (Takes.at inferInstance w) fun _ _ _ =>
    .bind (invoke_takes hM hrun m hm _) fun a _ _ => ?_
  split <;> exact Takes.at inferInstance w

theorem loop_takes {b : Bool} (hc : b = false → cfg.checks = true) {w : World} {M : MethodRec → Prop} (hM : b = true → Thrifty cfg w M)
    (ops : FloatOps) (tf n : Nat) : ∀ (fr : Frame) (ip : Nat), (b = true → ThriftyFrame cfg M fr) →
    TakesIn b w (loop cfg ops tf n fr ip) := by
  induction n with
  | zero => exact fun _ _ _ => Takes.at (.lift _) w
  | succ n ih =>
    intro fr ip h
    unfold loop
    refine .bind (Takes.at (step_takes hc fr ops tf ip fun hb => (h hb).code) w) fun a _ _ => ?_
    split
    · exact ih _ _ h
    · exact Takes.at inferInstance w
    · refine .bind (callMethod_takes hM ih fr h _) fun _ _ _ => ?_
      dsimp only
      split
      · exact .bind (Takes.at inferInstance w) fun _ _ _ => ih _ _ h
      · exact ih _ _ h

end Clr
