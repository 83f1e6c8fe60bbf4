import Verif.Lemmas.Onward
/-! # What running a program makes of the host's parameters -/

namespace Clr
variable {α β : Type} {cfg : Cfg}

/-- The parameters of the host stay as they are, up to the numbers in `S`. -/
def SameBut (S : Nat → Prop) (a b : List Value) : Prop := a.length = b.length ∧ ∀ i, ¬ S i → a[i]? = b[i]?

theorem SameBut.refl (S : Nat → Prop) (a : List Value) : SameBut S a a := ⟨rfl, fun _ _ => rfl⟩
theorem SameBut.trans {S : Nat → Prop} {a b c : List Value} (h : SameBut S a b) (g : SameBut S b c) : SameBut S a c :=
  ⟨h.1.trans g.1, fun i hi => (h.2 i hi).trans (g.2 i hi)⟩

/-- Code that stores into parameters of the host at most those in `S`. -/
class Hosted (S : Nat → Prop) (x : X α) : Prop where
  kept : ∀ v, SameBut S v.host (x v).2.host

namespace Hosted
variable {S : Nat → Prop}
instance pure (a : α) : Hosted S (Pure.pure a : X α) := ⟨fun _ => .refl _ _⟩
instance lift (x : Res α) : Hosted S (X.lift x) := ⟨fun _ => .refl _ _⟩
instance liftM (x : Res α) : Hosted S (_root_.liftM x : X α) := ⟨fun _ => .refl _ _⟩
instance view (f : VM → Res α) : Hosted S (X.view f) := ⟨fun _ => .refl _ _⟩
instance registry (x : M α) : Hosted S (X.registry x) := ⟨fun _ => .refl _ _⟩
theorem bind' {x : X α} {f : α → X β} (hx : Hosted S x) (hf : ∀ a v, (x v).1 = .ok a → SameBut S (x v).2.host (f a (x v).2).2.host) :
    Hosted S (x >>= f) := by
  refine ⟨fun v => ?_⟩
  show SameBut S v.host (X.bind' x f v).2.host
  have h := hx.kept v
  have hf' := fun a => hf a v
  unfold X.bind'
  rcases e : x v with ⟨r, v1⟩
  rw [e] at h hf'
  cases r with
  | ok a => exact h.trans (hf' a rfl)
  | _ => exact h
theorem bind {x : X α} {f : α → X β} (hx : Hosted S x) (hf : ∀ a, Hosted S (f a)) : Hosted S (x >>= f) :=
  bind' hx fun a _ _ => (hf a).kept _
theorem update {f : VM → Res (α × VM)} (h : ∀ v a v', f v = .ok (a, v') → SameBut S v.host v'.host) : Hosted S (X.update f) := by
  refine ⟨fun v => ?_⟩
  unfold X.update
  split
  · next a v' e => exact h v a v' e
  all_goals exact .refl _ _
theorem finally' {x : X α} {f : VM → Res VM} (hx : Hosted S x) (h : ∀ v v', f v = .ok v' → v'.host = v.host) :
    Hosted S (X.finally' x f) := by
  refine ⟨fun v => ?_⟩
  unfold X.finally'
  split
  · next v' e => dsimp only; rw [h _ v' e]; exact hx.kept v
  all_goals exact hx.kept v
end Hosted

macro "hosted" : tactic => `(tactic| repeat' first
  | infer_instance
  | with_reducible refine Hosted.bind ?_ (fun _ => ?_)
  | split
  | dsimp only)

section
variable {S : Nat → Prop}
instance (a : Value) : Hosted S (push a) := .update fun _ _ _ h => by cases h; exact .refl _ _
instance : Hosted S tryPop := .update fun v a v' h => by
  split at h <;> cases h <;> exact .refl _ _
instance : Hosted S pop := by unfold pop; hosted
instance : Hosted S peek := by unfold peek; hosted
instance : Hosted S popInt := by unfold popInt; hosted
instance (n a) : Hosted S (insertBelow cfg n a) := .update fun v a v' h => by
  obtain ⟨x, -, h⟩ := Res.bind_eq_ok.1 h
  split at h <;> cases h; exact .refl _ _
instance (n) : Hosted S (stackAlloc n) := .update fun v a v' h => by
  dsimp only at h; repeat' split at h
  all_goals first | (cases h; done) | (cases h; exact .refl _ _)
instance (r i) : Hosted S (readSlot r i) := by unfold readSlot; hosted
instance (g b c i a) : Hosted S (writeSlot (.slots g b c) i a) := .update fun v a v' h => by
  dsimp only at h; repeat' split at h
  all_goals first | (cases h; done) | (cases h; exact .refl _ _)
theorem Hosted.write {i : Nat} (hi : S i) (a : Value) : Hosted S (writeSlot .host i a) := .update fun v b v' h => by
  dsimp only at h
  split at h
  · cases h
    refine ⟨List.length_set.symm, fun j hj => ?_⟩
    have : i ≠ j := fun e => hj (e ▸ hi)
    exact (List.getElem?_set_ne this).symm
  · cases h
instance (f : Heap → Res (α × Heap)) : Hosted S (onHeap f) := .update fun v a v' h => by
  obtain ⟨x, -, h⟩ := Res.bind_eq_ok.1 h
  cases h; exact .refl _ _
instance (p o b) : Hosted S (poke p o b) := by unfold poke; hosted
instance (p o n) : Hosted S (peekBytes p o n) := by unfold peekBytes; hosted
instance (p n) : Hosted S (orFlags p n) := by unfold orFlags; hosted
instance (t) : Hosted S (typeId t) := by unfold typeId; hosted
instance (f t) : Hosted S (allocObject cfg f t) := by unfold allocObject; hosted
instance (f e n) : Hosted S (allocArray cfg f e n) := by unfold allocArray; hosted
instance (u) : Hosted S (allocString cfg u) := by unfold allocString; hosted
instance (p) : Hosted S (objectFlags p) := by unfold objectFlags; hosted
instance (p) : Hosted S (rawObject p) := by unfold rawObject; hosted
instance (p f a) : Hosted S (setField p f a) := by unfold setField; hosted
instance (p f) : Hosted S (getField p f) := by unfold getField; hosted
instance : Hosted S popArray := by unfold popArray; hosted
instance (p) : Hosted S (intSlice p) := by unfold intSlice; hosted
instance (p i x) : Hosted S (setInt p i x) := by unfold setInt; hosted
instance (p i) : Hosted S (getInt p i) := by unfold getInt; hosted
instance (p) : Hosted S (stringData p) := by unfold stringData; hosted
instance (m p) : Hosted S (callNative m p) := by unfold callNative; hosted
end

section
variable {S : Nat → Prop} (fr : Frame) (ops : FloatOps) (tf n ip i : Nat) (r : Region)
instance (a) : Hosted S (constant a ip) := by unfold constant; hosted
instance (f) : Hosted S (immediate fr n f ip) := by unfold immediate; hosted
instance : Hosted S (loadAt' r i ip) := by unfold loadAt'; hosted
instance : Hosted S (loadFrom fr r n ip) := by unfold loadFrom; hosted
instance (g b c) : Hosted S (storeAt (.slots g b c) i ip) := by unfold storeAt; hosted
instance (g b c) : Hosted S (storeTo fr (.slots g b c) n ip) := by unfold storeTo; hosted
instance : Hosted S (branch fr n ip) := by unfold branch; hosted
instance (b) : Hosted S (branchIf ops fr b n ip) := by unfold branchIf; hosted
instance (f) : Hosted S (branchCmp fr f n ip) := by unfold branchCmp; hosted
instance (f) : Hosted S (compareOp f ip) := by unfold compareOp; hosted
instance (f) : Hosted S (binary f ip) := by unfold binary; hosted
instance (f) : Hosted S (unary f ip) := by unfold unary; hosted
instance : Hosted S (doRet fr) := by unfold doRet; hosted
instance : Hosted S (doDup ip) := by unfold doDup; hosted
instance : Hosted S (doPop ip) := by unfold doPop; hosted
instance : Hosted S (doCall fr ip) := by unfold doCall; hosted
instance : Hosted S (doNewobj cfg tf fr ip) := by unfold doNewobj; hosted
instance : Hosted S (doStfld cfg fr ip) := by unfold doStfld; hosted
instance : Hosted S (doLdfld cfg fr ip) := by unfold doLdfld; hosted
instance : Hosted S (doNewarr cfg tf fr ip) := by unfold doNewarr; hosted
instance : Hosted S (doStelem ip) := by unfold doStelem; hosted
instance : Hosted S (doLdelem ip) := by unfold doLdelem; hosted
instance : Hosted S (doLdstr cfg fr ip) := by unfold doLdstr; hosted
instance (g b c) : Hosted S (popInto (.slots g b c) n) := by
  induction n with
  | zero => exact .pure _
  | succ n ih => unfold popInto; hosted
end

/-- Locals are in slots, arguments are in slots or those of the host; what is stored there is in `S`. -/
structure Tame (S : Nat → Prop) (fr : Frame) : Prop where
  locals : ∃ g b c, fr.locals = .slots g b c
  params : (∃ g b c, fr.params = .slots g b c) ∨ fr.params = .host ∧
    (∀ ip i, fetchOp fr.code ip = .ok (.Starg_S, i) → ∀ k, fetch fr.code i 1 = .ok k → S k) ∧
    (∀ ip i, fetchOp fr.code ip = .ok (.Starg, i) → ∀ k, fetch fr.code i 4 = .ok k → S k)

theorem exec_hosted {S : Nat → Prop} {fr : Frame} (h : Tame S fr) (ops : FloatOps) (tf : Nat) {op : Op} {ip0 ip : Nat}
    (ho : fetchOp fr.code ip0 = .ok (op, ip)) : Hosted S (exec cfg ops tf fr op ip) := by
  obtain ⟨⟨g, b, c, hl⟩, hp⟩ := h
  by_cases h1 : op = .Starg_S ∨ op = .Starg
  · rcases hp with ⟨g', b', c', hp⟩ | ⟨hp, k1, k2⟩
    · rcases h1 with rfl | rfl <;> (unfold exec; rw [hp]; infer_instance)
    · rcases h1 with rfl | rfl
      · unfold exec storeTo
        rw [hp]
        refine .bind' inferInstance fun k v hk => ?_
        have : Hosted S (storeAt .host k (ip + 1)) := by
          unfold storeAt
          exact .bind inferInstance fun _ => .bind (.write (k1 _ _ ho k hk) _) fun _ => inferInstance
        exact this.kept _
      · unfold exec storeTo
        rw [hp]
        refine .bind' inferInstance fun k v hk => ?_
        have : Hosted S (storeAt .host k (ip + 4)) := by
          unfold storeAt
          exact .bind inferInstance fun _ => .bind (.write (k2 _ _ ho k hk) _) fun _ => inferInstance
        exact this.kept _
  · cases op
    all_goals first
      | exact absurd (.inl rfl) h1
      | exact absurd (.inr rfl) h1
      | (unfold exec; try rw [hl]
         infer_instance)

theorem step_hosted {S : Nat → Prop} {fr : Frame} (h : Tame S fr) (ops : FloatOps) (tf ip : Nat) :
    Hosted S (step cfg ops tf fr ip) := by
  unfold step
  refine .bind' inferInstance fun a _ ha => ?_
  exact (exec_hosted (cfg := cfg) h ops tf (ip := a.2) (op := a.1) ha).kept _

theorem stackAlloc_slots {n : Nat} {v v' : VM} {r : Region} (h : stackAlloc n v = (.ok r, v')) : ∃ g b c, r = .slots g b c := by
  unfold stackAlloc X.update at h
  dsimp only at h
  split at h
  · next e =>
    simp only [Prod.mk.injEq, Res.ok.injEq] at h
    rw [← h.1]
    repeat' split at e
    all_goals first
      | (cases e; done)
      | (simp only [Res.ok.injEq, Prod.mk.injEq] at e; rw [← e.1]; exact ⟨_, _, _, rfl⟩)
  all_goals cases h

/-- The stores into arguments that code can reach are in `S`. -/
def StoresIn (S : Nat → Prop) (code : Bytes) : Prop :=
  (∀ ip i, fetchOp code ip = .ok (.Starg_S, i) → ∀ k, fetch code i 1 = .ok k → S k) ∧
  ∀ ip i, fetchOp code ip = .ok (.Starg, i) → ∀ k, fetch code i 4 = .ok k → S k

theorem invoke_hosted {S : Nat → Prop} {run : Frame → Nat → X (Option Value)} (hrun : ∀ fr ip, Tame S fr → Hosted S (run fr ip))
    (m : MethodRec) {r : Region} (hr : (∃ g b c, r = .slots g b c) ∨ r = .host ∧ ∀ body, m.impl = .il body → StoresIn S body.code) :
    Hosted S (invoke cfg run m r) := by
  unfold invoke
  split
  · next body hb =>
    refine .bind inferInstance fun _ => .bind inferInstance fun a => .bind (.update fun _ _ _ h => by cases h; exact .refl _ _)
      fun outer => .finally' ?_ fun v v' h => ?_
    · refine .bind' inferInstance fun l v hl => (hrun _ _ ⟨?_, ?_⟩).kept _
      · exact stackAlloc_slots (v' := (stackAlloc body.locals.length v).2) (Prod.ext hl rfl)
      · rcases hr with hr | ⟨hr, hs⟩
        · exact .inl hr
        · exact .inr ⟨hr, hs body hb⟩
    · unfold release at h
      obtain ⟨x, -, h⟩ := Res.bind_eq_ok.1 h
      cases h; rfl
  · infer_instance
  · infer_instance

theorem callMethod_hosted {S : Nat → Prop} {run : Frame → Nat → X (Option Value)} (hrun : ∀ fr ip, Tame S fr → Hosted S (run fr ip))
    (fr : Frame) (t : Token) : Hosted S (callMethod cfg run fr t) := by
  unfold callMethod
  refine .bind inferInstance fun _ => .bind inferInstance fun m => .bind' inferInstance fun p v hp => ?_
  obtain ⟨g, b, c, rfl⟩ := stackAlloc_slots (v' := (stackAlloc _ v).2) (Prod.ext hp rfl)
  refine Hosted.kept (S := S) (x := _) (self := .bind inferInstance fun _ => .bind (invoke_hosted hrun m (.inl ⟨g, b, c, rfl⟩)) fun a => ?_) _
  split <;> infer_instance

theorem loop_hosted {S : Nat → Prop} (ops : FloatOps) (tf n : Nat) : ∀ (fr : Frame) (ip : Nat), Tame S fr →
    Hosted S (loop cfg ops tf n fr ip) := by
  induction n with
  | zero => exact fun _ _ _ => .lift _
  | succ n ih =>
    intro fr ip h
    unfold loop
    refine .bind (step_hosted h ops tf ip) fun a => ?_
    split
    · exact ih _ _ h
    · infer_instance
    · refine .bind (callMethod_hosted ih fr _) fun _ => ?_
      dsimp only
      split
      · exact .bind inferInstance fun _ => ih _ _ h
      · exact ih _ _ h

theorem hostExecute_hosted {S : Nat → Prop} (ops : FloatOps) (tf fuel : Nat) (w : World) {m : MethodRec} (params : List Value)
    (h : ∀ body, m.impl = .il body → StoresIn S body.code) :
    SameBut S params (hostExecute cfg ops tf fuel w m params).2.host := by
  unfold hostExecute
  split
  · exact (invoke_hosted (cfg := cfg) (fun fr ip => loop_hosted ops tf fuel fr ip) m (.inr ⟨rfl, h⟩)).kept { world := w, host := params }
  · exact .refl _ _

end Clr
