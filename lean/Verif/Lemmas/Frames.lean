import Verif.Lemmas.Decode
/-! # What running code can change: the registry, the locals-and-arguments memory, the host's parameters -/

namespace Clr

/-- How the registry changes while code runs. -/
structure Evolves (w w' : World) : Prop where
  types : w.types <+: w'.types
  assemblies : w'.assemblies = w.assemblies
  primitives : w'.primitives = w.primitives
  output : w.output <+: w'.output
  names : ∀ n, ¬ "[]".toList <:+ n → w'.getType n = w.getType n
  kept : ∀ n t, w.getType n = some t → w'.getType n = some t

theorem Evolves.refl (w : World) : Evolves w w :=
  ⟨List.prefix_refl _, rfl, rfl, List.prefix_refl _, fun _ _ => rfl, fun _ _ h => h⟩

theorem Evolves.trans {a b c : World} (h : Evolves a b) (k : Evolves b c) : Evolves a c :=
  ⟨h.types.trans k.types, k.assemblies.trans h.assemblies, k.primitives.trans h.primitives, h.output.trans k.output,
    fun n hn => (k.names n hn).trans (h.names n hn), fun n t ht => k.kept n t (h.kept n t ht)⟩

/-- How code changes the state that does not write into the first `L` slots of the locals-and-arguments memory; `H` says
whether it leaves the host's parameters alone, `P` whether it writes no output. -/
structure Tidy (L : Nat) (H P : Prop) (v v' : VM) : Prop where
  allocated : v.allocated ≤ v'.allocated
  balance : v'.stack.slots.length + v.allocated = v.stack.slots.length + v'.allocated
  low : v'.stack.slots.take L = v.stack.slots.take L
  gen : v.stack.gen ≤ v'.stack.gen
  hostLength : v'.host.length = v.host.length
  host : H → v'.host = v.host
  world : Evolves v.world v'.world
  output : P → v'.world.output = v.world.output

variable {L : Nat} {H P : Prop}

theorem Tidy.length {v v' : VM} (h : Tidy L H P v v') : v.stack.slots.length ≤ v'.stack.slots.length := by
  have := h.allocated; have := h.balance; omega

theorem Tidy.refl (v : VM) : Tidy L H P v v :=
  ⟨Nat.le_refl _, rfl, rfl, Nat.le_refl _, rfl, fun _ => rfl, .refl _, fun _ => rfl⟩

theorem Tidy.trans {a b c : VM} (h : Tidy L H P a b) (k : Tidy L H P b c) : Tidy L H P a c :=
  ⟨Nat.le_trans h.allocated k.allocated, by have := h.balance; have := k.balance; omega, k.low.trans h.low, Nat.le_trans h.gen k.gen,
    k.hostLength.trans h.hostLength, fun hh => (k.host hh).trans (h.host hh), h.world.trans k.world,
    fun hp => (k.output hp).trans (h.output hp)⟩

theorem Tidy.weaken {a b : VM} {L' : Nat} (h : Tidy L H P a b) (hl : L' ≤ L) : Tidy L' H P a b := by
  refine ⟨h.allocated, h.balance, ?_, h.gen, h.hostLength, h.host, h.world, h.output⟩
  have := congrArg (List.take L') h.low
  simpa [List.take_take, Nat.min_eq_left hl] using this

/-- Code that changes the state safely if the memory has `L` slots, however it ends. -/
structure Keeps (L : Nat) (H P : Prop) {α : Type} (x : X α) : Prop where
  run : ∀ v, L ≤ v.stack.slots.length → Tidy L H P v (x v).2

/-- A slice that may be written. -/
def Region.free (L : Nat) (H : Prop) : Region → Prop
  | .host => ¬ H
  | .slots _ base _ => L ≤ base

namespace Keeps
variable {α β : Type}

theorem of_same {x : X α} (h : ∀ v, (x v).2 = v) : Keeps L H P x := ⟨fun v _ => by rw [h]; exact .refl v⟩

theorem pure (a : α) : Keeps L H P (Pure.pure a : X α) := of_same fun _ => rfl
theorem lift (x : Res α) : Keeps L H P (_root_.liftM x : X α) := of_same fun _ => rfl
theorem view (f : VM → Res α) : Keeps L H P (X.view f) := of_same fun _ => rfl

theorem bind {x : X α} {f : α → X β} (hx : Keeps L H P x) (hf : ∀ a, Keeps L H P (f a)) : Keeps L H P (x >>= f) := by
  refine ⟨fun v hv => ?_⟩
  have h1 := hx.run v hv
  rw [X.bind_run]
  rcases hr : x v with ⟨r, v1⟩
  rw [hr] at h1
  cases r with
  | ok a => exact h1.trans ((hf a).run v1 (Nat.le_trans hv h1.length))
  | _ => exact h1

theorem update {f : VM → Res (α × VM)}
    (h : ∀ v a v', L ≤ v.stack.slots.length → f v = .ok (a, v') → Tidy L H P v v') : Keeps L H P (X.update f) := by
  refine ⟨fun v hv => ?_⟩
  unfold X.update
  cases hf : f v with
  | ok r => obtain ⟨a, v'⟩ := r; exact h v a v' hv hf
  | _ => exact .refl v

theorem push (a : Value) : Keeps L H P (push a) := update fun v a v' _ h => by
  cases h; exact ⟨Nat.le_refl _, rfl, rfl, Nat.le_refl _, rfl, fun _ => rfl, .refl _, fun _ => rfl⟩

theorem tryPop : Keeps L H P tryPop := update fun v a v' _ h => by
  split at h <;> cases h
  · exact .refl v
  · exact ⟨Nat.le_refl _, rfl, rfl, Nat.le_refl _, rfl, fun _ => rfl, .refl _, fun _ => rfl⟩

theorem pop : Keeps L H P pop := bind tryPop fun _ => lift _
theorem peek : Keeps L H P peek := view _

theorem popInt : Keeps L H P popInt := bind pop fun a => by
  split
  · exact pure _
  · exact lift _

theorem insertBelow (cfg : Cfg) (n : Nat) (a : Value) : Keeps L H P (insertBelow cfg n a) := update fun v a v' _ h => by
  obtain ⟨i, -, h⟩ := Res.bind_eq_ok.1 h
  split at h
  · cases h; exact ⟨Nat.le_refl _, rfl, rfl, Nat.le_refl _, rfl, fun _ => rfl, .refl _, fun _ => rfl⟩
  · cases h

theorem onHeap (f : Heap → Res (α × Heap)) : Keeps L H P (onHeap f) := update fun v a v' _ h => by
  obtain ⟨⟨b, h1⟩, -, h⟩ := Res.bind_eq_ok.1 h
  cases h; exact ⟨Nat.le_refl _, rfl, rfl, Nat.le_refl _, rfl, fun _ => rfl, .refl _, fun _ => rfl⟩

theorem readSlot (r : Region) (i : Nat) : Keeps L H P (readSlot r i) := view _

theorem writeSlot {r : Region} (hr : r.free L H) (i : Nat) (a : Value) : Keeps L H P (writeSlot r i a) :=
  update fun v a v' hv h => by
    dsimp only at h
    cases r with
    | host =>
      dsimp only at h
      split at h <;> cases h
      exact ⟨Nat.le_refl _, rfl, rfl, Nat.le_refl _, by simp, fun hh => absurd hh hr, .refl _, fun _ => rfl⟩
    | slots gen base count =>
      dsimp only at h
      split at h
      · split at h <;> cases h
        refine ⟨Nat.le_refl _, by simp, ?_, Nat.le_refl _, rfl, fun _ => rfl, .refl _, fun _ => rfl⟩
        simp only [Region.free] at hr
        simp only [List.take_set]
        rw [List.set_eq_of_length_le (by simp; omega)]
      · cases h

theorem stackAlloc (n : Nat) : Keeps L H P (stackAlloc n) := update fun v a v' hv h => by
  dsimp only at h
  split at h
  · cases h
    exact ⟨by simp, by simp; omega, by simp [List.take_append_of_le_length hv], Nat.le_refl _, rfl, fun _ => rfl, .refl _,
      fun _ => rfl⟩
  · split at h
    · cases h
      exact ⟨by simp, by simp; omega, by simp [List.take_append_of_le_length hv], by simp, rfl, fun _ => rfl, .refl _,
        fun _ => rfl⟩
    · cases h

theorem peekBytes (p : Ptr) (off n : Nat) : Keeps L H P (peekBytes p off n) := view _
theorem poke (p : Ptr) (off : Nat) (bs : Bytes) : Keeps L H P (poke p off bs) := onHeap _
theorem typeId (t : Nat) : Keeps L H P (typeId t) := view _
theorem orFlags (p : Ptr) (m : Nat) : Keeps L H P (orFlags p m) := bind (peekBytes ..) fun _ => poke ..

theorem allocObject (cfg : Cfg) (tf t : Nat) : Keeps L H P (allocObject cfg tf t) :=
  bind (view _) fun _ => bind (lift _) fun _ => bind (onHeap _) fun _ => bind (typeId _) fun _ => bind (poke ..) fun _ =>
    pure _

theorem arrayType_cases (cfg : Cfg) (e : Nat) (w : World) : (Clr.arrayType cfg e w).2 = w ∨
    ∃ n tr, (Clr.arrayType cfg e w).2 = ({ w with nextTypeId := n }).addType tr ∧ "[]".toList <:+ tr.fullName ∧
      w.getType tr.fullName = none := by
  unfold Clr.arrayType
  rw [M.bind_run, M.view_run]
  cases w.typeAt e with
  | ok tr =>
    dsimp only
    rw [M.get_bind]
    cases hg : w.getType (tr.fullName ++ "[]".toList) with
    | some t => exact .inl rfl
    | none =>
      dsimp only
      unfold nextTypeId
      simp only [M.bind_run, M.view_run, M.liftM_run]
      cases uadd cfg 32 w.nextTypeId 1 with
      | ok n => exact .inr ⟨n, _, rfl, ⟨tr.fullName, rfl⟩, hg⟩
      | _ => exact .inl rfl
  | _ => exact .inl rfl

theorem arrayType (cfg : Cfg) (e : Nat) : Keeps L H P (X.registry (arrayType cfg e)) := by
  refine ⟨fun v _ => ?_⟩
  have h : Evolves v.world (Clr.arrayType cfg e v.world).2 ∧
      (Clr.arrayType cfg e v.world).2.output = v.world.output := by
    rcases arrayType_cases cfg e v.world with h | ⟨n, tr, h, hs, hnone⟩
    · rw [h]; exact ⟨.refl _, rfl⟩
    · rw [h]
      refine ⟨⟨by simp [World.addType], rfl, rfl, List.prefix_refl _, fun m hm => ?_, fun m t hm => ?_⟩, rfl⟩
      rotate_left
      · simp only [World.getType, World.addType, List.lookup_cons]
        split
        · rename_i heq
          simp only [beq_iff_eq] at heq
          rw [heq, hnone] at hm; cases hm
        · exact hm
      simp only [World.getType, World.addType, List.lookup_cons]
      split
      · rename_i heq
        simp only [beq_iff_eq] at heq
        exact absurd (heq ▸ hs) hm
      · rfl
  exact ⟨Nat.le_refl _, rfl, rfl, Nat.le_refl _, rfl, fun _ => rfl, h.1, fun _ => h.2⟩

theorem allocArray (cfg : Cfg) (tf e n : Nat) : Keeps L H P (allocArray cfg tf e n) :=
  bind (view _) fun _ => bind (lift _) fun _ => bind (lift _) fun _ => bind (onHeap _) fun _ => bind (orFlags ..) fun _ =>
    bind (arrayType ..) fun _ => bind (typeId _) fun _ => bind (poke ..) fun _ => bind (typeId _) fun _ =>
      bind (poke ..) fun _ => bind (poke ..) fun _ => pure _

theorem allocString (cfg : Cfg) (us : List Nat) : Keeps L H P (allocString cfg us) :=
  bind (lift _) fun _ => bind (lift _) fun _ => bind (onHeap _) fun _ => bind (orFlags ..) fun _ => bind (view _) fun _ =>
    bind (typeId _) fun _ => bind (poke ..) fun _ => bind (poke ..) fun _ => bind (poke ..) fun _ => pure _

theorem objectFlags (p : Ptr) : Keeps L H P (objectFlags p) := bind (peekBytes ..) fun _ => pure _

theorem rawObject (p : Ptr) : Keeps L H P (rawObject p) := bind (objectFlags p) fun _ => by
  split
  · exact pure _
  · exact lift _

theorem setField (p : Ptr) (f : FieldRec) (a : Value) : Keeps L H P (setField p f a) :=
  bind (rawObject p) fun _ => bind (lift _) fun _ => poke ..

theorem getField (p : Ptr) (f : FieldRec) : Keeps L H P (getField p f) :=
  bind (rawObject p) fun _ => bind (view _) fun _ => bind (peekBytes ..) fun _ => pure _

theorem popArray : Keeps L H P popArray := bind pop fun a => by
  split
  · refine bind (objectFlags _) fun _ => ?_
    split
    · exact pure _
    · exact lift _
  · exact lift _

theorem intSlice (p : Ptr) : Keeps L H P (intSlice p) :=
  bind (view _) fun _ => bind (typeId _) fun _ => bind (peekBytes ..) fun _ => by
    dsimp only
    split
    · exact bind (peekBytes ..) fun _ => pure _
    · exact bind (view _) fun _ => bind (view _) fun _ => lift _

theorem setInt (p : Ptr) (i : Nat) (x : BitVec 32) : Keeps L H P (setInt p i x) := bind (intSlice p) fun _ => by
  split
  · exact poke ..
  · exact lift _

theorem getInt (p : Ptr) (i : Nat) : Keeps L H P (getInt p i) := bind (intSlice p) fun _ => by
  split
  · exact bind (peekBytes ..) fun _ => pure _
  · exact lift _

theorem stringData (p : Ptr) : Keeps L H P (stringData p) :=
  bind (peekBytes ..) fun _ => bind (peekBytes ..) fun _ => pure _

theorem addOutput (s : List Char) (hp : ¬ P) :
    Keeps L H P (X.registry (M.modify fun w => { w with output := w.output ++ s })) := by
  refine ⟨fun v _ => ?_⟩
  exact ⟨Nat.le_refl _, rfl, rfl, Nat.le_refl _, rfl, fun _ => rfl,
    ⟨List.prefix_refl _, rfl, rfl, List.prefix_append _ _, fun _ _ => rfl, fun _ _ h => h⟩, fun h => absurd h hp⟩

theorem callNative (m : InternalMethod) (r : Region) (hp : ¬ P) : Keeps L H P (callNative m r) := by
  unfold Clr.callNative
  split
  · refine bind (readSlot ..) fun a => ?_
    split
    · refine bind (objectFlags _) fun f => ?_
      split
      · exact lift _
      · exact bind (stringData _) fun _ => bind (lift _) fun _ => bind (addOutput _ hp) fun _ => pure _
    · exact lift _
  · exact lift _
  · exact lift _

/-- The frame's slices may be written. -/
abbrev FrameFree (L : Nat) (H : Prop) (fr : Frame) : Prop := fr.locals.free L H ∧ fr.params.free L H

theorem exec {cfg : Cfg} {ops : FloatOps} {tf : Nat} {fr : Frame} (hfr : FrameFree L H fr) (op : Op) (ip : Nat) :
    Keeps L H P (exec cfg ops tf fr op ip) := by
  cases op <;>
    simp only [Clr.exec, constant, immediate, loadFrom, loadAt', storeTo, storeAt, compareOp, binary, unary, doRet, doDup,
      doPop, doCall, doNewobj, doStfld, doLdfld, doNewarr, doStelem, doLdelem, doLdstr, branch, branchIf, branchCmp] <;>
    with_reducible repeat (first
      | exact pure _ | exact lift _ | exact view _ | exact push _ | exact pop | exact tryPop | exact peek | exact popInt
      | exact popArray | exact readSlot .. | exact writeSlot hfr.1 .. | exact writeSlot hfr.2 .. | exact insertBelow ..
      | exact allocObject .. | exact allocArray .. | exact allocString .. | exact setField .. | exact getField ..
      | exact setInt .. | exact getInt ..
      | (refine bind ?_ fun _ => ?_) | split)

theorem step {cfg : Cfg} {ops : FloatOps} {tf : Nat} {fr : Frame} (hfr : FrameFree L H fr) (ip : Nat) :
    Keeps L H P (step cfg ops tf fr ip) := bind (lift _) fun _ => exec hfr _ _

theorem popInto {r : Region} (hr : r.free L H) (n : Nat) : Keeps L H P (popInto r n) := by
  induction n with
  | zero => exact pure _
  | succ n ih => exact bind pop fun _ => bind (writeSlot hr ..) fun _ => ih

end Keeps

/-- Code that changes nothing but the registry. -/
def RegistryOnly {α : Type} (x : X α) : Prop := ∀ v, ∃ w, (x v).2 = { v with world := w }

theorem RegistryOnly.of_same {α : Type} {x : X α} (h : ∀ v, (x v).2 = v) : RegistryOnly x :=
  fun v => ⟨v.world, h v⟩

theorem RegistryOnly.bind {α β : Type} {x : X α} {f : α → X β} (hx : RegistryOnly x) (hf : ∀ a, RegistryOnly (f a)) :
    RegistryOnly (x >>= f) := by
  intro v
  obtain ⟨w, hw⟩ := hx v
  rw [X.bind_run]
  rcases hr : x v with ⟨r, v1⟩
  rw [hr] at hw
  cases r with
  | ok a => obtain ⟨w', hw'⟩ := hf a v1; exact ⟨w', by rw [hw']; cases hw; rfl⟩
  | _ => exact ⟨w, hw⟩

theorem callNative_registryOnly (m : InternalMethod) (r : Region) : RegistryOnly (callNative m r) := by
  unfold callNative
  split
  · refine .bind (.of_same fun _ => rfl) fun a => ?_
    split
    · refine .bind (.bind (.of_same fun _ => rfl) fun _ => .of_same fun _ => rfl) fun f => ?_
      split
      · exact .of_same fun _ => rfl
      · exact .bind (.bind (.of_same fun _ => rfl) fun _ => .bind (.of_same fun _ => rfl) fun _ => .of_same fun _ => rfl)
          fun _ => .bind (.of_same fun _ => rfl) fun _ => .bind (fun v => ⟨_, rfl⟩) fun _ => .of_same fun _ => rfl
    · exact .of_same fun _ => rfl
  · exact .of_same fun _ => rfl
  · exact .of_same fun _ => rfl

/-- What a completed call leaves: exactly the memory it found. -/
structure Whole (L : Nat) (H : Prop) (v v' : VM) : Prop extends Tidy L H False v v' where
  same : v'.allocated = v.allocated

theorem Whole.slots {v v' : VM} (h : Whole L H v v') : v'.stack.slots.length = v.stack.slots.length := by
  have := h.balance; have := h.same; omega

/-- The loop, however it is run, writes only into the frame's slices. -/
def RunsFree (run : Frame → Nat → X (Option Value)) : Prop :=
  ∀ L H fr ip, Keeps.FrameFree L H fr → Keeps L H False (run fr ip)

theorem finally_run {α : Type} {x : X α} {f : VM → Res VM} {v v' : VM} (h : f (x v).2 = .ok v') :
    X.finally' x f v = ((x v).1, v') := by
  unfold X.finally'; rw [h]

theorem invoke_whole {cfg : Cfg} {run : Frame → Nat → X (Option Value)} (hrun : RunsFree run) (m : MethodRec)
    {params : Region} (hp : params.free L H) {v : VM} (hv : L ≤ v.stack.slots.length) :
    Whole L H v (invoke cfg run m params v).2 := by
  unfold invoke
  cases m.impl with
  | il body =>
    dsimp only
    rw [X.bind_run, X.view_run]
    cases v.world.typeAt m.declaringType with
    | ok t =>
      dsimp only
      rw [X.bind_run, X.view_run]
      cases Res.unwrap (v.world.assemblies.find? (·.id = t.assembly)) with
      | ok a =>
        dsimp only
        rw [X.bind_ok (X.update_ok rfl)]
        generalize hx : (do
          let locals ← stackAlloc body.locals.length
          run { method := m, assembly := a, code := body.code, locals, params } 0 : X (Option Value)) = x
        have hk : Tidy L H False { v with allocated := 0 } (x { v with allocated := 0 }).2 := by
          subst hx
          rw [X.bind_run]
          have h1 := (Keeps.stackAlloc (L := L) (H := H) (P := False) body.locals.length).run { v with allocated := 0 } hv
          rcases hr : stackAlloc body.locals.length { v with allocated := 0 } with ⟨r, v1⟩
          rw [hr] at h1
          cases r with
          | ok region =>
            refine h1.trans ((hrun L H _ _ ⟨?_, hp⟩).run v1 (Nat.le_trans hv h1.length))
            unfold stackAlloc X.update at hr
            dsimp only at hr
            split at hr
            · rename_i heq
              split at heq
              · cases heq; cases hr; exact hv
              · split at heq
                · cases heq; cases hr; exact hv
                · cases heq
            all_goals cases hr
          | _ => exact h1
        generalize hu : (x { v with allocated := 0 }).2 = u at hk
        have hbal := hk.balance
        simp only [Nat.add_zero] at hbal
        have hrel : release cfg v.allocated u =
            .ok { u with stack := { u.stack with slots := u.stack.slots.take v.stack.slots.length },
                         allocated := v.allocated } := by
          unfold release
          rw [usub_ok (by omega)]
          simp only [Res.ok_bind, Res.pure_eq]
          rw [show u.stack.slots.length - u.allocated = v.stack.slots.length by omega]
        rw [finally_run (by rw [hu]; exact hrel)]
        refine ⟨⟨Nat.le_refl _, ?_, ?_, hk.gen, hk.hostLength, hk.host, hk.world, fun h => h.elim⟩, rfl⟩
        · simp; omega
        · have := hk.low
          simp only [List.take_take, Nat.min_eq_left hv]
          exact this
      | _ => exact ⟨.refl _, rfl⟩
    | _ => exact ⟨.refl _, rfl⟩
  | internal f =>
    have := (Keeps.callNative (L := L) (H := H) f params (P := False) id).run v hv
    refine ⟨this, ?_⟩
    obtain ⟨w, hw⟩ := callNative_registryOnly f params v
    show (callNative f params v).2.allocated = _
    rw [hw]
  | none => exact ⟨.refl _, rfl⟩

theorem Keeps.bindP {α β : Type} {P : Prop} {x : X α} {f : α → X β} (Q : α → Prop) (hx : Keeps L H P x)
    (hq : ∀ v a v', L ≤ v.stack.slots.length → x v = (.ok a, v') → Q a) (hf : ∀ a, Q a → Keeps L H P (f a)) :
    Keeps L H P (x >>= f) := by
  refine ⟨fun v hv => ?_⟩
  have h1 := hx.run v hv
  rw [X.bind_run]
  rcases hr : x v with ⟨r, v1⟩
  rw [hr] at h1
  cases r with
  | ok a => exact h1.trans ((hf a (hq v a v1 hv hr)).run v1 (Nat.le_trans hv h1.length))
  | _ => exact h1

/-- The slice `stackAlloc` makes: new slots, all `I8(0)`, at the end of the memory. -/
theorem stackAlloc_ok {n : Nat} {v v' : VM} {r : Region} (h : stackAlloc n v = (.ok r, v')) :
    r = .slots v'.stack.gen v.stack.slots.length n ∧
    v' = { v with stack := v'.stack, allocated := v.allocated + n } ∧
    v'.stack.slots = v.stack.slots ++ List.replicate n (.i8 0) ∧
    (v'.stack.gen = v.stack.gen ∧ 16 * v'.stack.slots.length ≤ v.stack.cap ∧ v'.stack.cap = v.stack.cap ∨
      v'.stack.gen = v.stack.gen + 1 ∧ v.stack.cap < 16 * v'.stack.slots.length) := by
  unfold stackAlloc X.update at h
  dsimp only at h
  split at h <;> rename_i heq
  · split at heq
    · cases heq; cases h; exact ⟨rfl, rfl, rfl, .inl ⟨rfl, by simpa using ‹_›, rfl⟩⟩
    · split at heq
      · cases heq; cases h; exact ⟨rfl, rfl, rfl, .inr ⟨rfl, by simp; omega⟩⟩
      · cases heq
  all_goals cases h

theorem callMethod_keeps {cfg : Cfg} {run : Frame → Nat → X (Option Value)} (hrun : RunsFree run) (fr : Frame)
    (t : Token) : Keeps L H False (callMethod cfg run fr t) := by
  refine .bind (.lift _) fun m => .bind (.lift _) fun m => ?_
  dsimp only
  refine .bindP (fun r => r.free L H) (.stackAlloc _) (fun v r v' hv h => ?_) fun r hr => ?_
  · rw [(stackAlloc_ok h).1]; exact hv
  · refine .bind (.popInto hr _) fun _ => .bind ⟨fun v hv => (invoke_whole hrun m hr hv).toTidy⟩ fun a => ?_
    split
    · exact .push _
    · exact .pure _

theorem loop_free (cfg : Cfg) (ops : FloatOps) (tf fuel : Nat) : RunsFree (loop cfg ops tf fuel) := by
  induction fuel with
  | zero => intro L H fr ip _; exact .lift _
  | succ fuel ih =>
    intro L H fr ip hfr
    rw [loop]
    refine .bind (.step hfr ip) fun a => ?_
    split
    · exact ih L H fr _ hfr
    · exact .pure _
    · refine .bind (callMethod_keeps ih fr _) fun _ => ?_
      dsimp only
      split
      · exact .bind (.push _) fun _ => ih L H fr _ hfr
      · exact .bind (.pure _) fun _ => ih L H fr _ hfr

end Clr
