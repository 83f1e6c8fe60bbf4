import Verif.Spec.Harmless
import Verif.Lemmas.Halts
/-! # Instructions that change no objects (for C122) -/

namespace Clr
open Spec

variable {α β : Type} {cfg : Cfg} {ops : FloatOps} {tf : Nat} {fr : Frame} {ip : Nat} {w : World}

/-- The registry, the output and the objects are the same afterwards, however it ends. -/
class X.Spares (x : X α) : Prop where
  out : ∀ v, (x v).2.world = v.world ∧ (x v).2.heap = v.heap

namespace X.Spares

instance pure (a : α) : X.Spares (Pure.pure a : X α) := ⟨fun _ => ⟨rfl, rfl⟩⟩
instance liftM (x : Res α) : X.Spares (_root_.liftM x : X α) := ⟨fun _ => ⟨rfl, rfl⟩⟩
instance lift (x : Res α) : X.Spares (X.lift x) := ⟨fun _ => ⟨rfl, rfl⟩⟩
instance view (f : VM → Res α) : X.Spares (X.view f) := ⟨fun _ => ⟨rfl, rfl⟩⟩

theorem bind {x : X α} {f : α → X β} (hx : X.Spares x) (hf : ∀ a, X.Spares (f a)) : X.Spares (x >>= f) := by
  refine ⟨fun v => ?_⟩
  have h := hx.out v
  rw [X.bind_run]
  rcases hr : x v with ⟨r, v1⟩
  rw [hr] at h
  cases r with
  | ok a => exact ⟨((hf a).out v1).1.trans h.1, ((hf a).out v1).2.trans h.2⟩
  | _ => exact h

theorem update {f : VM → Res (α × VM)} (h : ∀ v a v', f v = .ok (a, v') → v'.world = v.world ∧ v'.heap = v.heap) : X.Spares (X.update f) := by
  refine ⟨fun v => ?_⟩
  unfold X.update
  cases e : f v with
  | ok r => exact h v r.1 r.2 e
  | _ => exact ⟨rfl, rfl⟩

end X.Spares

macro "spared" : tactic => `(tactic| repeat' first
  | infer_instance
  | with_reducible refine X.Spares.bind ?_ (fun _ => ?_)
  | split
  | dsimp only)

instance (a : Value) : X.Spares (push a) := .update fun _ _ _ h => by cases h; exact ⟨rfl, rfl⟩
instance : X.Spares tryPop := .update fun v _ _ h => by
  revert h; split <;> intro h <;> cases h <;> exact ⟨rfl, rfl⟩
instance : X.Spares pop := by unfold pop; spared
instance : X.Spares peek := by unfold peek; spared
instance : X.Spares popInt := by unfold popInt; spared
instance (n) : X.Spares (stackAlloc n) := .update fun v _ _ h => by
  dsimp only at h
  split at h
  · cases h; exact ⟨rfl, rfl⟩
  · split at h <;> cases h
    exact ⟨rfl, rfl⟩
instance (r i) : X.Spares (readSlot r i) := by unfold readSlot; spared
instance (r i a) : X.Spares (writeSlot r i a) := .update fun v _ _ h => by
  revert h; dsimp only; repeat' split
  all_goals intro h; cases h; try exact ⟨rfl, rfl⟩
instance (p o n) : X.Spares (peekBytes p o n) := by unfold peekBytes; spared
instance (p) : X.Spares (objectFlags p) := by unfold objectFlags; spared
instance (p) : X.Spares (rawObject p) := by unfold rawObject; spared
instance (p f) : X.Spares (getField p f) := by unfold getField; spared
instance : X.Spares popArray := by unfold popArray; spared
instance (t) : X.Spares (typeId t) := by unfold typeId; spared
instance (p) : X.Spares (intSlice p) := by unfold intSlice; spared
instance (p i) : X.Spares (getInt p i) := by unfold getInt; spared
instance (a) : X.Spares (constant a ip) := by unfold constant; spared
instance (n f) : X.Spares (immediate fr n f ip) := by unfold immediate; spared
instance (r i) : X.Spares (loadAt' r i ip) := by unfold loadAt'; spared
instance (r n) : X.Spares (loadFrom fr r n ip) := by unfold loadFrom; spared
instance (r i) : X.Spares (storeAt r i ip) := by unfold storeAt; spared
instance (r n) : X.Spares (storeTo fr r n ip) := by unfold storeTo; spared
instance (n) : X.Spares (branch fr n ip) := by unfold branch; spared
instance (b n) : X.Spares (branchIf ops fr b n ip) := by unfold branchIf; spared
instance (f n) : X.Spares (branchCmp fr f n ip) := by unfold branchCmp; spared
instance (f) : X.Spares (compareOp f ip) := by unfold compareOp; spared
instance (f) : X.Spares (binary f ip) := by unfold binary; spared
instance (f) : X.Spares (unary f ip) := by unfold unary; spared
instance : X.Spares (doRet fr) := by unfold doRet; spared
instance : X.Spares (doDup ip) := by unfold doDup; spared
instance : X.Spares (doPop ip) := by unfold doPop; spared
instance : X.Spares (doCall fr ip) := by unfold doCall; spared
instance : X.Spares (doLdfld cfg fr ip) := by unfold doLdfld; spared
instance : X.Spares (doLdelem ip) := by unfold doLdelem; spared

theorem exec_spares {op : Op} (h1 : op ≠ .Ldstr) (h2 : op ≠ .Newobj) (h3 : op ≠ .Stfld) (h4 : op ≠ .Newarr) (h5 : op ≠ .Stelem_I4) :
    X.Spares (exec cfg ops tf fr op ip) := by
  cases op <;> first | exact absurd rfl h1 | exact absurd rfl h2 | exact absurd rfl h3 | exact absurd rfl h4 | exact absurd rfl h5 |
    (clear h1 h2 h3 h4 h5; unfold exec; infer_instance)

instance (r n) : X.Spares (popInto r n) := by
  induction n with
  | zero => exact .pure _
  | succ n ih => unfold popInto; spared

theorem step_spares (h : ∀ b ∈ objectOpcodes, ¬ HasAt fr.code ip [b]) : X.Spares (step cfg ops tf fr ip) := by
  refine ⟨fun v => ?_⟩
  cases hf : fetchOp fr.code ip with
  | ok r =>
    obtain ⟨op, n⟩ := r
    rw [step_of_fetch hf]
    obtain ⟨hb, -, -⟩ := fetchOp_bytes hf
    refine (exec_spares ?_ ?_ ?_ ?_ ?_).out v <;> rintro rfl <;> exact h _ (by decide) hb
  | _ =>
    unfold step
    rw [X.bind_run, hf]
    exact ⟨rfl, rfl⟩

/-! ## Methods -/

/-- The same, from states with the registry `w`. -/
def LeavesAs (w : World) (x : X α) : Prop := ∀ v, v.world = w → (x v).2.world = w ∧ (x v).2.heap = v.heap

theorem X.Spares.leaves {x : X α} (h : X.Spares x) : LeavesAs w x := fun v hv => ⟨(h.out v).1.trans hv, (h.out v).2⟩

theorem LeavesAs.bind {x : X α} {f : α → X β} (hx : LeavesAs w x) (hf : ∀ v a, v.world = w → (x v).1 = .ok a → LeavesAs w (f a)) : LeavesAs w (x >>= f) := by
  intro v hv
  have h := hx v hv
  have hf := hf v
  rw [X.bind_run]
  rcases hr : x v with ⟨r, v1⟩
  rw [hr] at h hf
  cases r with
  | ok a =>
    have := hf a hv rfl v1 h.1
    exact ⟨this.1, this.2.trans h.2⟩
  | _ => exact h

theorem invoke_leaves {run : Frame → Nat → X (Option Value)} {m : MethodRec} {r : Region} (hm : m.impl ≠ .internal .consoleWrite)
    (hrun : ∀ fr, FrameOf w m fr → LeavesAs w (run fr 0)) : LeavesAs w (invoke cfg run m r) := by
  unfold invoke
  cases hb : m.impl with
  | il body =>
    refine LeavesAs.bind (X.Spares.view _).leaves fun v t hv ht => ?_
    refine LeavesAs.bind (X.Spares.view _).leaves fun v' a hv' ha => ?_
    refine LeavesAs.bind (X.Spares.update fun _ _ _ h => by cases h; exact ⟨rfl, rfl⟩).leaves fun _ o _ _ => ?_
    have hasm : w.assemblyOf m.declaringType = .ok a := by
      unfold World.assemblyOf
      rw [show w.typeAt m.declaringType = .ok t from hv ▸ ht]
      exact hv' ▸ ha
    have hin : LeavesAs w (do
        let locals ← stackAlloc body.locals.length
        run { method := m, assembly := a, code := body.code, locals, params := r } 0 : X (Option Value)) :=
      LeavesAs.bind (inferInstance : X.Spares _).leaves fun _ _ _ _ => hrun _ ⟨⟨body, hb, rfl⟩, hasm⟩
    intro v hv
    have h := hin v hv
    unfold X.finally'
    split
    · next v' h' =>
      unfold release at h'
      obtain ⟨n, -, h'⟩ := Res.bind_eq_ok.1 h'
      cases h'
      exact h
    all_goals exact h
  | internal f =>
    cases f with
    | consoleWrite => exact absurd hb hm
    | _ => exact (X.Spares.liftM _).leaves
  | none => exact (X.Spares.liftM _).leaves

theorem loop_leaves {m : MethodRec} (hm : Harmless cfg w m)
    (hsh : ∀ x body, Relation.ReflTransGen (MayCall cfg w) m x → x.impl = .il body → ShortArgs body.code ∧ body.code.length < 2 ^ 62) :
    ∀ (fuel : Nat) (x : MethodRec) (body : MethodBody) (fr : Frame) (ip : Nat), Relation.ReflTransGen (MayCall cfg w) m x → x.impl = .il body →
      fr.code = body.code → FrameOf w x fr → (Visits body.code ip ∨ body.code.length ≤ ip) → LeavesAs w (loop cfg ops tf fuel fr ip) := by
  intro fuel
  induction fuel with
  | zero => exact fun _ _ _ _ _ _ _ _ _ => (X.Spares.liftM _).leaves
  | succ fuel ih =>
    intro x body fr ip hx hb hc hfr hip
    rcases hip with hip | hip
    · unfold loop
      have hst : X.Spares (step cfg ops tf fr ip) := step_spares (by rw [hc]; exact hm.computes x body hx hb ip hip)
      obtain ⟨hs, hlen⟩ := hsh x body hx hb
      refine LeavesAs.bind hst.leaves fun v a hv ha => ?_
      have hgo : ∀ n, a.resumes = some n → LeavesAs w (loop cfg ops tf fuel fr n) := by
        intro n hn
        have := step_passes (cfg := cfg) (ops := ops) (tf := tf) (fr := fr) (ip := ip) (v := v) (a := a) (n := n)
          (by rw [hc]; exact hs ip hip) (by rw [hc]; exact hlen) ha hn
        rw [hc] at this
        exact ih x body fr n hx hb hc hfr (this.imp hip.tail id)
      cases a with
      | next n => exact hgo n rfl
      | ret r => exact (X.Spares.pure _).leaves
      | call token after n =>
        refine LeavesAs.bind ?_ fun _ _ _ _ => ?_
        · unfold callMethod
          refine LeavesAs.bind (X.Spares.liftM _).leaves fun _ o _ ho => ?_
          refine LeavesAs.bind (X.Spares.liftM _).leaves fun _ m' _ hm' => ?_
          have hm' := ofOption_eq_ok.1 hm'
          subst hm'
          have hcall : MayCall cfg w x m' := by
            obtain ⟨g1, g2, g3⟩ := step_call_at (v' := (step cfg ops tf fr ip v).2) (Prod.ext ha rfl)
            rw [hc] at g1 g2 g3
            have hat : ∀ b, body.code[ip]? = some b → HasAt body.code ip (b :: (body.code.drop (ip + 1)).take 4) := by
              intro b hb
              obtain ⟨q1, q2⟩ := List.getElem?_eq_some_iff.mp hb
              rw [HasAt, List.drop_eq_getElem_cons q1, q2]
              exact (List.prefix_cons_inj b).2 (List.take_prefix _ _)
            refine ⟨fr.assembly, body, ip, _, hfr.assembly, hb, hip, ?_, g1.imp (hat _) (hat _), by rw [g3]; exact ho⟩
            simp; omega
          refine LeavesAs.bind (inferInstance : X.Spares _).leaves fun _ _ _ _ => ?_
          refine LeavesAs.bind (inferInstance : X.Spares _).leaves fun _ _ _ _ => ?_
          refine LeavesAs.bind (invoke_leaves (hm.silent m' (hx.tail hcall)) fun fr' hfr' => ?_) fun _ o _ _ => ?_
          · obtain ⟨body', hb', hc'⟩ := hfr'.il
            exact ih m' body' fr' 0 (hx.tail hcall) hb' hc' hfr' (.inl .refl)
          · cases o <;> exact (inferInstance : X.Spares _).leaves
        · cases after with
          | some a => exact LeavesAs.bind (inferInstance : X.Spares (push a)).leaves fun _ _ _ _ => hgo n rfl
          | none => exact hgo n rfl
    · unfold loop
      have hstep : ∀ v, step cfg ops tf fr ip v = (.panic, v) := by
        intro v
        unfold step fetchOp
        rw [List.getElem?_eq_none (by rw [hc]; exact hip)]
        rfl
      refine LeavesAs.bind (fun v hv => by rw [hstep]; exact ⟨hv, rfl⟩) fun v a _ ha => ?_
      rw [hstep] at ha
      cases ha

end Clr
