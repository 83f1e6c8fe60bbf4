import Verif.Lemmas.Frames
/-! # Buffers are replaced only by newer ones -/

namespace Clr

/-- Code that never goes back to an older buffer. -/
structure Grows {α : Type} (x : X α) : Prop where
  heap : ∀ v, v.heap.gen ≤ (x v).2.heap.gen
  stack : ∀ v, v.stack.gen ≤ (x v).2.stack.gen

namespace Grows
variable {α β : Type}

theorem of_same {x : X α} (h : ∀ v, (x v).2.heap = v.heap ∧ (x v).2.stack = v.stack) : Grows x :=
  ⟨fun v => by rw [(h v).1]; exact Nat.le_refl _, fun v => by rw [(h v).2]; exact Nat.le_refl _⟩

theorem pure (a : α) : Grows (Pure.pure a : X α) := of_same fun _ => ⟨rfl, rfl⟩
theorem lift (x : Res α) : Grows (_root_.liftM x : X α) := of_same fun _ => ⟨rfl, rfl⟩
theorem view (f : VM → Res α) : Grows (X.view f) := of_same fun _ => ⟨rfl, rfl⟩
theorem registry (x : M α) : Grows (X.registry x) := of_same fun _ => ⟨rfl, rfl⟩

theorem bind {x : X α} {f : α → X β} (hx : Grows x) (hf : ∀ a, Grows (f a)) : Grows (x >>= f) := by
  have h : ∀ v, v.heap.gen ≤ ((x >>= f) v).2.heap.gen ∧ v.stack.gen ≤ ((x >>= f) v).2.stack.gen := by
    intro v
    have h1 := hx.heap v
    have h2 := hx.stack v
    rw [X.bind_run]
    rcases hr : x v with ⟨r, v1⟩
    rw [hr] at h1 h2
    cases r with
    | ok a => exact ⟨Nat.le_trans h1 ((hf a).heap v1), Nat.le_trans h2 ((hf a).stack v1)⟩
    | _ => exact ⟨h1, h2⟩
  exact ⟨fun v => (h v).1, fun v => (h v).2⟩

theorem update {f : VM → Res (α × VM)}
    (h : ∀ v a v', f v = .ok (a, v') → v.heap.gen ≤ v'.heap.gen ∧ v.stack.gen ≤ v'.stack.gen) : Grows (X.update f) := by
  have h' : ∀ v, v.heap.gen ≤ (X.update f v).2.heap.gen ∧ v.stack.gen ≤ (X.update f v).2.stack.gen := by
    intro v
    unfold X.update
    cases hf : f v with
    | ok r => obtain ⟨a, v'⟩ := r; exact h v a v' hf
    | _ => exact ⟨Nat.le_refl _, Nat.le_refl _⟩
  exact ⟨fun v => (h' v).1, fun v => (h' v).2⟩

theorem push (a : Value) : Grows (push a) := of_same fun _ => ⟨rfl, rfl⟩

theorem tryPop : Grows tryPop := update fun v a v' h => by
  split at h <;> cases h <;> exact ⟨Nat.le_refl _, Nat.le_refl _⟩

theorem pop : Grows pop := bind tryPop fun _ => lift _
theorem peek : Grows peek := view _

theorem popInt : Grows popInt := bind pop fun a => by
  split
  · exact pure _
  · exact lift _

theorem insertBelow (cfg : Cfg) (n : Nat) (a : Value) : Grows (insertBelow cfg n a) := update fun v a v' h => by
  obtain ⟨i, -, h⟩ := Res.bind_eq_ok.1 h
  split at h <;> cases h
  exact ⟨Nat.le_refl _, Nat.le_refl _⟩

theorem onHeap {f : Heap → Res (α × Heap)} (hf : ∀ h a h', f h = .ok (a, h') → h.gen ≤ h'.gen) : Grows (onHeap f) :=
  update fun v a v' h => by
    obtain ⟨⟨b, h1⟩, hb, h⟩ := Res.bind_eq_ok.1 h
    cases h; exact ⟨hf _ _ _ hb, Nat.le_refl _⟩

theorem bump (cfg : Cfg) (size : Nat) : Grows (Clr.onHeap (·.bump cfg size)) := onHeap fun h p h' hb => by
  have hres : ∀ (g : Heap) n g', g.reserve n = .ok g' → g.gen ≤ g'.gen := by
    intro g n g' hg
    unfold Heap.reserve at hg
    split at hg
    · cases hg; exact Nat.le_refl _
    · split at hg <;> cases hg
      exact Nat.le_succ _
  unfold Heap.bump at hb
  obtain ⟨h1, he, hb⟩ := Res.bind_eq_ok.1 hb
  have e1 : h.gen ≤ h1.gen := by
    unfold Heap.ensureSize at he
    obtain ⟨n, -, he⟩ := Res.bind_eq_ok.1 he
    split at he
    · exact hres _ _ _ he
    · cases he; exact Nat.le_refl _
  obtain ⟨n, -, hb⟩ := Res.bind_eq_ok.1 hb
  obtain ⟨h2, hr, hb⟩ := Res.bind_eq_ok.1 hb
  cases hb
  unfold Heap.resize at hr
  split at hr
  · obtain ⟨h3, hr3, hr⟩ := Res.bind_eq_ok.1 hr
    cases hr
    have e2 := hres _ _ _ hr3
    exact Nat.le_trans e1 e2
  · cases hr; exact e1

theorem poke (p : Ptr) (off : Nat) (bs : Bytes) : Grows (poke p off bs) := onHeap fun h a h' hb => by
  obtain ⟨h1, hw, hb⟩ := Res.bind_eq_ok.1 hb
  cases hb
  unfold Heap.write at hw
  split at hw <;> cases hw
  exact Nat.le_refl _

theorem readSlot (r : Region) (i : Nat) : Grows (readSlot r i) := view _

theorem writeSlot (r : Region) (i : Nat) (a : Value) : Grows (writeSlot r i a) := update fun v a v' h => by
  dsimp only at h
  cases r with
  | host => dsimp only at h; split at h <;> cases h; exact ⟨Nat.le_refl _, Nat.le_refl _⟩
  | slots gen base count =>
    dsimp only at h
    split at h
    · split at h <;> cases h; exact ⟨Nat.le_refl _, Nat.le_refl _⟩
    · cases h

theorem stackAlloc (n : Nat) : Grows (stackAlloc n) := update fun v a v' h => by
  dsimp only at h
  split at h
  · cases h; exact ⟨Nat.le_refl _, Nat.le_refl _⟩
  · split at h <;> cases h
    exact ⟨Nat.le_refl _, Nat.le_succ _⟩

theorem peekBytes (p : Ptr) (off n : Nat) : Grows (peekBytes p off n) := view _
theorem typeId (t : Nat) : Grows (typeId t) := view _
theorem orFlags (p : Ptr) (m : Nat) : Grows (orFlags p m) := bind (peekBytes ..) fun _ => poke ..

theorem allocObject (cfg : Cfg) (tf t : Nat) : Grows (allocObject cfg tf t) :=
  bind (view _) fun _ => bind (lift _) fun _ => bind (bump ..) fun _ => bind (typeId _) fun _ => bind (poke ..) fun _ =>
    pure _

theorem allocArray (cfg : Cfg) (tf e n : Nat) : Grows (allocArray cfg tf e n) :=
  bind (view _) fun _ => bind (lift _) fun _ => bind (lift _) fun _ => bind (bump ..) fun _ => bind (orFlags ..) fun _ =>
    bind (registry _) fun _ => bind (typeId _) fun _ => bind (poke ..) fun _ => bind (typeId _) fun _ =>
      bind (poke ..) fun _ => bind (poke ..) fun _ => pure _

theorem allocString (cfg : Cfg) (us : List Nat) : Grows (allocString cfg us) :=
  bind (lift _) fun _ => bind (lift _) fun _ => bind (bump ..) fun _ => bind (orFlags ..) fun _ => bind (view _) fun _ =>
    bind (typeId _) fun _ => bind (poke ..) fun _ => bind (poke ..) fun _ => bind (poke ..) fun _ => pure _

theorem objectFlags (p : Ptr) : Grows (objectFlags p) := bind (peekBytes ..) fun _ => pure _

theorem rawObject (p : Ptr) : Grows (rawObject p) := bind (objectFlags p) fun _ => by
  split
  · exact pure _
  · exact lift _

theorem setField (p : Ptr) (f : FieldRec) (a : Value) : Grows (setField p f a) :=
  bind (rawObject p) fun _ => bind (lift _) fun _ => poke ..

theorem getField (p : Ptr) (f : FieldRec) : Grows (getField p f) :=
  bind (rawObject p) fun _ => bind (view _) fun _ => bind (peekBytes ..) fun _ => pure _

theorem popArray : Grows popArray := bind pop fun a => by
  split
  · refine bind (objectFlags _) fun _ => ?_
    split
    · exact pure _
    · exact lift _
  · exact lift _

theorem intSlice (p : Ptr) : Grows (intSlice p) :=
  bind (view _) fun _ => bind (typeId _) fun _ => bind (peekBytes ..) fun _ => by
    dsimp only
    split
    · exact bind (peekBytes ..) fun _ => pure _
    · exact bind (view _) fun _ => bind (view _) fun _ => lift _

theorem setInt (p : Ptr) (i : Nat) (x : BitVec 32) : Grows (setInt p i x) := bind (intSlice p) fun _ => by
  split
  · exact poke ..
  · exact lift _

theorem getInt (p : Ptr) (i : Nat) : Grows (getInt p i) := bind (intSlice p) fun _ => by
  split
  · exact bind (peekBytes ..) fun _ => pure _
  · exact lift _

theorem stringData (p : Ptr) : Grows (stringData p) :=
  bind (peekBytes ..) fun _ => bind (peekBytes ..) fun _ => pure _

theorem callNative (m : InternalMethod) (r : Region) : Grows (callNative m r) := by
  unfold Clr.callNative
  split
  · refine bind (readSlot ..) fun a => ?_
    split
    · refine bind (objectFlags _) fun f => ?_
      split
      · exact lift _
      · exact bind (stringData _) fun _ => bind (lift _) fun _ => bind (registry _) fun _ => pure _
    · exact lift _
  · exact lift _
  · exact lift _

theorem exec {cfg : Cfg} {ops : FloatOps} {tf : Nat} {fr : Frame} (op : Op) (ip : Nat) :
    Grows (exec cfg ops tf fr op ip) := by
  cases op <;>
    simp only [Clr.exec, constant, immediate, loadFrom, loadAt', storeTo, storeAt, compareOp, binary, unary, doRet, doDup,
      doPop, doCall, doNewobj, doStfld, doLdfld, doNewarr, doStelem, doLdelem, doLdstr, branch, branchIf, branchCmp] <;>
    with_reducible repeat (first
      | exact pure _ | exact lift _ | exact view _ | exact push _ | exact pop | exact tryPop | exact peek | exact popInt
      | exact popArray | exact readSlot .. | exact writeSlot .. | exact insertBelow ..
      | exact allocObject .. | exact allocArray .. | exact allocString .. | exact setField .. | exact getField ..
      | exact setInt .. | exact getInt ..
      | (refine bind ?_ fun _ => ?_) | split)

theorem step {cfg : Cfg} {ops : FloatOps} {tf : Nat} {fr : Frame} (ip : Nat) : Grows (step cfg ops tf fr ip) :=
  bind (lift _) fun _ => exec _ _

theorem popInto (r : Region) (n : Nat) : Grows (popInto r n) := by
  induction n with
  | zero => exact pure _
  | succ n ih => exact bind pop fun _ => bind (writeSlot ..) fun _ => ih

theorem finally' {x : X α} (h : Grows x) (cfg : Cfg) (outer : Nat) : Grows (X.finally' x (release cfg outer)) := by
  have h' : ∀ v, v.heap.gen ≤ (X.finally' x (release cfg outer) v).2.heap.gen ∧
      v.stack.gen ≤ (X.finally' x (release cfg outer) v).2.stack.gen := by
    intro v
    have h1 := h.heap v
    have h2 := h.stack v
    unfold X.finally'
    cases hr : release cfg outer (x v).2 with
    | ok v1 =>
      unfold release at hr
      obtain ⟨_, -, hr⟩ := Res.bind_eq_ok.1 hr
      cases hr
      exact ⟨h1, h2⟩
    | _ => exact ⟨h1, h2⟩
  exact ⟨fun v => (h' v).1, fun v => (h' v).2⟩

theorem invoke {cfg : Cfg} {run : Frame → Nat → X (Option Value)} (hrun : ∀ fr ip, Grows (run fr ip)) (m : MethodRec)
    (params : Region) : Grows (invoke cfg run m params) := by
  unfold Clr.invoke
  split
  · exact bind (view _) fun _ => bind (view _) fun _ => bind (of_same fun _ => ⟨rfl, rfl⟩) fun _ =>
      finally' (bind (stackAlloc _) fun _ => hrun _ _) _ _
  · exact callNative ..
  · exact lift _

theorem callMethod {cfg : Cfg} {run : Frame → Nat → X (Option Value)} (hrun : ∀ fr ip, Grows (run fr ip)) (fr : Frame)
    (t : Token) : Grows (callMethod cfg run fr t) :=
  bind (lift _) fun _ => bind (lift _) fun _ => bind (stackAlloc _) fun _ => bind (popInto ..) fun _ =>
    bind (invoke hrun ..) fun a => by
      split
      · exact push _
      · exact pure _

theorem loop (cfg : Cfg) (ops : FloatOps) (tf fuel : Nat) (fr : Frame) (ip : Nat) : Grows (loop cfg ops tf fuel fr ip) := by
  induction fuel generalizing fr ip with
  | zero => exact lift _
  | succ fuel ih =>
    rw [Clr.loop]
    refine bind (step ip) fun a => ?_
    split
    · exact ih _ _
    · exact pure _
    · refine bind (callMethod ih fr _) fun _ => ?_
      dsimp only
      split
      · exact bind (push _) fun _ => ih _ _
      · exact bind (pure _) fun _ => ih _ _

end Grows
end Clr
