import Verif.Lemmas.Wider
/-!
# What running a program makes of a registry that has grown

Running it in the larger registry is running it in the smaller one, as long as the smaller one gives no reason to panic.
-/

namespace Clr
variable {α β : Type} {cfg : Cfg}

/-- If the first does not panic, the second is the same. -/
def Res.Agree (x y : Res α) : Prop := x ≠ .panic → y = x

namespace Res.Agree
theorem refl (x : Res α) : Agree x x := fun _ => rfl
theorem of_eq {x y : Res α} (h : y = x) : Agree x y := fun _ => h
theorem bind {x y : Res α} {f g : α → Res β} (h : Agree x y) (hf : ∀ a, x = .ok a → Agree (f a) (g a)) : Agree (x >>= f) (y >>= g) := by
  intro hn
  cases x with
  | ok a => rw [h (by simp)]; exact hf a rfl hn
  | panic => exact absurd rfl hn
  | _ => rw [h (by simp)]; rfl
end Res.Agree

/-- The second registry has the types and assemblies of the first and gives the same answer to each name that the first
knows; a name that only the second knows is not that of a type of the first. -/
structure Includes (w W : World) : Prop where
  types : w.types <+: W.types
  assemblies : w.assemblies <+: W.assemblies
  primitives : W.primitives = w.primitives
  names : ∀ n t, w.getType n = some t → W.getType n = some t
  fresh : ∀ n, w.getType n = none → ∀ t, W.getType n = some t → ∃ q, W.types[t]? = some q ∧ ∀ r ∈ w.types, r.fullName ≠ q.fullName

namespace Includes
variable {w W : World} (h : Includes w W)
include h

theorem typeAt (t : Nat) : (w.typeAt t).Agree (W.typeAt t) := by
  obtain ⟨s, hs⟩ := h.types
  intro hn
  unfold World.typeAt at hn ⊢
  rcases Nat.lt_or_ge t w.types.length with hl | hl
  · rw [← hs, List.getElem?_append_left hl]
  · rw [List.getElem?_eq_none hl] at hn; exact absurd rfl hn

theorem getType (n : Name) : (Res.unwrap (w.getType n)).Agree (Res.unwrap (W.getType n)) := by
  intro hn
  cases hg : w.getType n with
  | none => rw [hg] at hn; exact absurd rfl hn
  | some t => rw [h.names n t hg]

theorem assembly (p : AssemblyRec → Bool) : (Res.unwrap (w.assemblies.find? p)).Agree (Res.unwrap (W.assemblies.find? p)) := by
  obtain ⟨s, hs⟩ := h.assemblies
  intro hn
  rw [← hs, List.find?_append]
  cases hg : w.assemblies.find? p with
  | none => rw [hg] at hn; exact absurd rfl hn
  | some t => rfl

theorem mapM (is : List Nat) : (is.mapM w.typeAt).Agree (is.mapM W.typeAt) := by
  induction is with
  | nil => exact .refl _
  | cons i is ih =>
    rw [List.mapM_cons, List.mapM_cons]
    exact .bind (h.typeAt i) fun _ _ => .bind ih fun _ _ => .refl _

theorem instanceOf (o fuel t : Nat) : (instanceOf w o fuel t).Agree (instanceOf W o fuel t) := by
  induction fuel generalizing t with
  | zero => exact .refl _
  | succ fuel ih =>
    unfold Clr.instanceOf
    refine .bind (h.typeAt t) fun tr _ => .bind (h.typeAt o) fun ot _ => ?_
    split
    · exact .refl _
    · cases tr.base with
      | some b => exact ih b
      | none => exact .bind (h.mapM _) fun _ _ => .refl _

theorem isReferenceType (fuel t : Nat) : (isReferenceType w fuel t).Agree (isReferenceType W fuel t) :=
  .bind (h.getType _) fun _ _ => .bind (h.instanceOf _ _ _) fun _ _ => .refl _

theorem primitiveSize (full : Name) (l : List (Name × Nat)) : (primitiveSize w full l).Agree (primitiveSize W full l) := by
  induction l with
  | nil => exact .refl _
  | cons a l ih =>
    unfold Clr.primitiveSize
    refine .bind (h.getType _) fun _ _ => .bind (h.typeAt _) fun _ _ => ?_
    split
    · exact .refl _
    · exact ih

omit h in
theorem fieldsSize {isRef isRef' : Nat → Res Bool} {size size' : Nat → Res Nat} (h1 : ∀ t, (isRef t).Agree (isRef' t))
    (h2 : ∀ t, (size t).Agree (size' t)) (fs : List FieldRec) (a : Nat) :
    (fieldsSize cfg isRef size fs a).Agree (fieldsSize cfg isRef' size' fs a) := by
  induction fs generalizing a with
  | nil => exact .refl _
  | cons f fs ih =>
    unfold Clr.fieldsSize
    refine .bind (.bind (h1 _) fun b _ => ?_) fun _ _ => .bind (.refl _) fun _ _ => ih _
    split
    · exact .refl _
    · exact h2 _

theorem typeSize (fuel t : Nat) : (typeSize cfg w fuel t).Agree (typeSize cfg W fuel t) := by
  induction fuel generalizing t with
  | zero => exact .refl _
  | succ fuel ih =>
    unfold Clr.typeSize
    refine .bind (h.typeAt t) fun tr _ => .bind (h.primitiveSize _ _) fun p _ => ?_
    cases p with
    | some p => exact .refl _
    | none =>
      refine .bind (fieldsSize (h.isReferenceType fuel) ih _ _) fun s _ => ?_
      cases tr.base with
      | none => exact .refl _
      | some b => exact .bind (ih b) fun _ _ => .refl _

theorem fieldKind (full : Name) (l : List (Nat × Nat × (Nat → Value))) : (fieldKind w full l).Agree (fieldKind W full l) := by
  induction l with
  | nil => exact .refl _
  | cons a l ih =>
    unfold Clr.fieldKind
    refine .bind (h.typeAt _) fun _ _ => ?_
    split
    · exact .refl _
    · exact ih

/-- Whether a method returns a value. A name the first registry does not know is not the name of one of its types. -/
theorem isVoid (t : Nat) :
    (w.typeAt t >>= fun r => match w.getType "System.Void".toList with
      | none => .ok false
      | some t => w.typeAt t >>= fun tr => pure (decide (r.fullName = tr.fullName)) : Res Bool).Agree
    (W.typeAt t >>= fun r => match W.getType "System.Void".toList with
      | none => .ok false
      | some t => W.typeAt t >>= fun tr => pure (decide (r.fullName = tr.fullName))) := by
  refine .bind (h.typeAt t) fun r hr => ?_
  cases hg : w.getType "System.Void".toList with
  | some v =>
    rw [h.names _ _ hg]
    exact .bind (h.typeAt v) fun _ _ => .refl _
  | none =>
    cases hG : W.getType "System.Void".toList with
    | none => exact .refl _
    | some v =>
      obtain ⟨q, hq, hn⟩ := h.fresh _ hg v hG
      have hm : r ∈ w.types := by
        unfold World.typeAt at hr
        cases hx : w.types[t]? with
        | none => rw [hx] at hr; cases hr
        | some x => rw [hx] at hr; cases hr; exact List.mem_of_getElem? hx
      refine .of_eq ?_
      dsimp only
      rw [World.typeAt, hq]
      show Res.ok (decide (r.fullName = q.fullName)) = .ok false
      rw [decide_eq_false (hn r hm)]

end Includes

/-- A registry after some more output. -/
def World.wrote (w : World) (s : List Char) : World := { w with output := w.output ++ s }

theorem Includes.wrote {w W : World} (h : Includes w W) (s : List Char) : Includes (w.wrote s) (W.wrote s) where
  types := h.types
  assemblies := h.assemblies
  primitives := h.primitives
  names := h.names
  fresh := h.fresh

theorem Includes.refl (w : World) : Includes w w :=
  ⟨List.prefix_refl _, List.prefix_refl _, rfl, fun _ _ h => h, fun n h t e => by rw [h] at e; cases e⟩

theorem Advanced.includes {w W : World} (h : Advanced cfg w W) (hw : Reached cfg w)
    (hn : ∀ n t, w.getType n = some t → W.getType n = some t) : Includes w W where
  types := h.later.prefix.1
  assemblies := h.later.prefix.2
  primitives := h.primitives
  names := hn
  fresh n hg t hG := by
    obtain ⟨q, hq, e, -⟩ := ((h.later.reached hw).inv.getType_iff _ t).mp hG
    exact ⟨q, hq, fun r hr => by rw [e]; exact (hw.inv.getType_none _).mp hg r hr⟩

/-- The same state with another registry and further parameters from the host. -/
def VM.within (v : VM) (W : World) (e : List Value) : VM := { v with world := W, host := v.host ++ e }

/-- Code that does not make types in a registry does the same in one that extends it, and with more parameters from the host. -/
class Carries (cfg : Cfg) (x : X α) : Prop extends Advances cfg x where
  carry : ∀ w W, Includes w W → ∀ e s v, v.world = w.wrote s → (x v).1 ≠ .panic → (x v).2.world.types.length = w.types.length →
    ∃ s', (x v).2.world = w.wrote s' ∧ x (v.within (W.wrote s) e) = ((x v).1, (x v).2.within (W.wrote s') e)

namespace Carries

theorem Advanced_le {w w' : World} (h : Advanced cfg w w') : w.types.length ≤ w'.types.length :=
  h.later.prefix.1.length_le

theorem still {f : VM → Res α} (h : ∀ w W, Includes w W → ∀ e v, v.world = w → (f v).Agree (f (v.within W e))) :
    Carries cfg (X.view f) where
  carry w W E e s v hv hn _ := by
    refine ⟨s, hv, ?_⟩
    show (f (v.within (W.wrote s) e), _) = (f v, _)
    rw [h _ _ (E.wrote s) e v hv hn]
    rfl

instance pure (a : α) : Carries cfg (Pure.pure a : X α) where
  carry _ _ _ _ s _ hv _ _ := ⟨s, hv, rfl⟩
instance lift (x : Res α) : Carries cfg (X.lift x) where
  carry _ _ _ _ s _ hv _ _ := ⟨s, hv, rfl⟩
instance liftM (x : Res α) : Carries cfg (_root_.liftM x : X α) where
  carry _ _ _ _ s _ hv _ _ := ⟨s, hv, rfl⟩

theorem bind {x : X α} {f : α → X β} (hx : Carries cfg x) (hf : ∀ a, Carries cfg (f a)) : Carries cfg (x >>= f) where
  toAdvances := .bind hx.toAdvances fun a => (hf a).toAdvances
  carry w W E e s v hv hn hl := by
    have hl0 : w.types.length = v.world.types.length := by rw [hv]; rfl
    have h1 := Advanced_le (hx.later v)
    have hc := hx.carry w W E e s v hv
    change (X.bind' x f v).1 ≠ _ at hn
    change (X.bind' x f v).2.world.types.length = _ at hl
    show ∃ s', (X.bind' x f v).2.world = w.wrote s' ∧ X.bind' x f (v.within (W.wrote s) e) = ((X.bind' x f v).1, (X.bind' x f v).2.within (W.wrote s') e)
    unfold X.bind' at hn hl ⊢
    rcases ex : x v with ⟨r, v1⟩
    rw [ex] at h1 hc hn hl
    cases r with
    | ok a =>
      dsimp only at h1 hc hn hl ⊢
      have h2 := Advanced_le ((hf a).later v1)
      obtain ⟨s1, g1, g2⟩ := hc (by simp) (by omega)
      obtain ⟨s2, g3, g4⟩ := (hf a).carry w W E e s1 v1 g1 hn hl
      exact ⟨s2, g3, by rw [g2]; exact g4⟩
    | panic => exact absurd rfl hn
    | _ =>
      dsimp only at h1 hc hn hl ⊢
      obtain ⟨s1, g1, g2⟩ := hc (by simp) hl
      exact ⟨s1, g1, by rw [g2]⟩

/-- Updates that have nothing to do with the registry. -/
theorem update {f : VM → Res (α × VM)} (h : ∀ v a v', f v = .ok (a, v') → v'.world = v.world)
    (hw : ∀ v W e, f v ≠ .panic → f (v.within W e) = f v >>= fun p => Pure.pure (p.1, p.2.within W e)) : Carries cfg (X.update f) where
  toAdvances := .update h
  carry w W E e s v hv hn hl := by
    have h' := h v
    have hw' := hw v (W.wrote s) e
    show ∃ s', (X.update f v).2.world = w.wrote s' ∧ X.update f (v.within (W.wrote s) e) = ((X.update f v).1, (X.update f v).2.within (W.wrote s') e)
    change (X.update f v).1 ≠ _ at hn
    unfold X.update at hn ⊢
    cases ef : f v with
    | ok p =>
      rw [hw' (by rw [ef]; simp), ef]
      obtain ⟨a, v'⟩ := p
      exact ⟨s, (h' a v' ef).trans hv, rfl⟩
    | panic => rw [ef] at hn; exact absurd rfl hn
    | _ => rw [hw' (by rw [ef]; simp), ef]; exact ⟨s, hv, rfl⟩

theorem finally' {x : X α} {f : VM → Res VM} (hx : Carries cfg x) (h : ∀ v v', f v = .ok v' → v'.world = v.world)
    (hw : ∀ v W e, f (v.within W e) = f v >>= fun p => Pure.pure (p.within W e))
    (hp : ∀ v, f v = .panic ∨ ∃ v', f v = .ok v') : Carries cfg (X.finally' x f) where
  toAdvances := .finally' hx.toAdvances h
  carry w W E e s v hv hn hl := by
    have hc := hx.carry w W E e s v hv
    unfold X.finally' at hn hl ⊢
    rcases hp (x v).2 with ef | ⟨v', ef⟩
    · rw [ef] at hn; exact absurd rfl hn
    · rw [ef] at hn hl ⊢
      dsimp only at hn hl ⊢
      have hv' := h _ _ ef
      obtain ⟨s', g1, g2⟩ := hc hn (by rw [← hv']; exact hl)
      refine ⟨s', hv'.trans g1, ?_⟩
      rw [g2]
      dsimp only
      rw [hw, ef]
      rfl

end Carries

macro "carries" : tactic => `(tactic| repeat' first
  | infer_instance
  | with_reducible refine Carries.bind ?_ (fun _ => ?_)
  | split
  | dsimp only)

instance (a : Value) : Carries cfg (push a) := .update (fun _ _ _ h => by cases h; rfl) fun _ _ _ _ => rfl
instance : Carries cfg tryPop := .update (fun v a v' h => by split at h <;> cases h <;> rfl) fun v W e _ => by
  obtain ⟨-, -, -, ops, -, -⟩ := v
  cases ops <;> rfl
instance : Carries cfg pop := by unfold pop; carries
instance : Carries cfg peek := .still fun _ _ _ _ _ _ => .refl _
instance : Carries cfg popInt := by unfold popInt; carries
instance (n a) : Carries cfg (insertBelow cfg n a) := .update (fun v a v' h => by
    obtain ⟨x, -, h⟩ := Res.bind_eq_ok.1 h
    split at h <;> cases h; rfl) fun v W e _ => by
  unfold VM.within
  dsimp only
  cases usub cfg 64 v.operands.length n with
  | ok i => simp only [Res.ok_bind]; split <;> rfl
  | _ => rfl
instance (n) : Carries cfg (stackAlloc n) := .update (fun v a v' h => by
    dsimp only at h; repeat' split at h
    all_goals first | (cases h; done) | (cases h; rfl)) fun v W e _ => by
  unfold VM.within; dsimp only; repeat' split
  all_goals rfl
instance (r i) : Carries cfg (readSlot r i) := by
  unfold readSlot
  refine .still fun _ _ _ e v _ => ?_
  cases r with
  | host =>
    intro hn
    show Res.unwrap (v.host ++ e)[i]? = Res.unwrap v.host[i]?
    rcases Nat.lt_or_ge i v.host.length with hl | hl
    · rw [List.getElem?_append_left hl]
    · change Res.unwrap v.host[i]? ≠ _ at hn
      rw [List.getElem?_eq_none hl] at hn; exact absurd rfl hn
  | slots => exact .refl _
instance (r i a) : Carries cfg (writeSlot r i a) := .update (fun v a v' h => by
    dsimp only at h; repeat' split at h
    all_goals first | (cases h; done) | (cases h; rfl)) fun v W e hn => by
  cases r with
  | host =>
    dsimp only at hn ⊢
    split at hn
    · next hi =>
      rw [if_pos hi, if_pos (show i < (v.within W e).host.length by show i < (v.host ++ e).length; rw [List.length_append]; omega)]
      show Res.ok ((), ({ v with world := W, host := (v.host ++ e).set i a } : VM)) =
        .ok ((), ({ v with world := W, host := v.host.set i a ++ e } : VM))
      rw [List.set_append_left _ _ hi]
    · exact absurd rfl hn
  | slots =>
    unfold VM.within; dsimp only; repeat' split
    all_goals rfl
instance (f : Heap → Res (α × Heap)) : Carries cfg (onHeap f) := .update (fun v a v' h => by
    obtain ⟨x, -, h⟩ := Res.bind_eq_ok.1 h
    cases h; rfl) fun v W e _ => by
  unfold VM.within
  dsimp only
  cases f v.heap <;> rfl
instance (p o b) : Carries cfg (poke p o b) := by unfold poke; carries
instance (p o n) : Carries cfg (peekBytes p o n) := .still fun _ _ _ _ _ _ => .refl _
instance (p n) : Carries cfg (orFlags p n) := by unfold orFlags; carries
instance (t) : Carries cfg (typeId t) := by
  unfold typeId
  exact .still fun _ _ E _ v hv => by subst hv; exact .bind (E.typeAt t) fun _ _ => .refl _
instance (f t) : Carries cfg (X.view fun v => typeSize cfg v.world f t) := .still fun _ _ E _ v hv => by subst hv; exact E.typeSize f t
instance (n) : Carries cfg (X.view fun v => Res.unwrap (v.world.getType n)) := .still fun _ _ E _ v hv => by subst hv; exact E.getType n
instance (t) : Carries cfg (X.view fun v => v.world.typeAt t) := .still fun _ _ E _ v hv => by subst hv; exact E.typeAt t
instance : Carries cfg (X.view fun v => Res.unwrap v.world.primitives) := .still fun _ W E _ v hv => by
  subst hv; exact .of_eq (by show Res.unwrap W.primitives = _; rw [E.primitives])
instance (p : AssemblyRec → Bool) : Carries cfg (X.view fun v => Res.unwrap (v.world.assemblies.find? p)) :=
  .still fun _ _ E _ v hv => by subst hv; exact E.assembly p
instance (s) : Carries cfg (X.registry (M.modify fun w => { w with output := w.output ++ s })) where
  carry w W E e s0 v hv _ _ := by
    refine ⟨s0 ++ s, ?_, ?_⟩
    · show { v.world with output := v.world.output ++ s } = _
      rw [hv]
      show ({ w with output := w.output ++ s0 ++ s } : World) = { w with output := w.output ++ (s0 ++ s) }
      rw [List.append_assoc]
    · show (Res.ok (), v.within { W with output := W.output ++ s0 ++ s } e) =
        (Res.ok (), v.within { W with output := W.output ++ (s0 ++ s) } e)
      rw [List.append_assoc]
theorem arrayType_known {w : World} {t u : Nat} {e : TypeRec} (h : w.typeAt t = .ok e)
    (hu : w.getType (e.fullName ++ "[]".toList) = some u) : arrayType cfg t w = (.ok u, w) := by
  unfold arrayType
  rw [M.bind_run, M.view_run, h]
  dsimp only
  rw [M.bind_run, M.view_run]
  dsimp only
  rw [hu]
  rfl

theorem arrayType_outcome (t : Nat) (w : World) : (arrayType cfg t w).1 = .panic ∨
    (arrayType cfg t w).2.types.length = w.types.length + 1 ∨
    ∃ e u, w.typeAt t = .ok e ∧ w.getType (e.fullName ++ "[]".toList) = some u ∧ arrayType cfg t w = (.ok u, w) := by
  cases he : w.types[t]? with
  | none =>
    left
    unfold arrayType
    rw [M.bind_run, M.view_run, World.typeAt, he]
    rfl
  | some e =>
    have h : w.typeAt t = .ok e := by rw [World.typeAt, he]; rfl
    cases hu : w.getType (e.fullName ++ "[]".toList) with
    | some u => exact .inr (.inr ⟨e, u, h, hu, arrayType_known h hu⟩)
    | none =>
      unfold arrayType
      rw [M.bind_run, M.view_run, h]
      dsimp only
      rw [M.bind_run, M.view_run]
      dsimp only
      rw [hu]
      dsimp only
      have hx : uadd cfg 32 w.nextTypeId 1 = .panic ∨ ∃ n, uadd cfg 32 w.nextTypeId 1 = .ok n := by
        unfold uadd
        repeat' split
        all_goals first | exact .inl rfl | exact .inr ⟨_, rfl⟩
      unfold nextTypeId
      simp only [M.bind_run, M.view_run, M.liftM_run]
      rcases hx with hx | ⟨n, hx⟩
      · left; rw [hx]
      · right; left
        rw [hx]
        show (w.types ++ [_]).length = _
        simp

/-- Array types that are there already are found. -/
instance (t) : Carries cfg (X.registry (arrayType cfg t)) where
  carry w W E e s v hv hn hl := by
    change (arrayType cfg t v.world).1 ≠ _ at hn
    change (arrayType cfg t v.world).2.types.length = _ at hl
    rcases arrayType_outcome t v.world with h | h | ⟨er, u, h1, h2, h3⟩
    · exact absurd h hn
    · rw [h, hv] at hl
      exact absurd hl (Nat.succ_ne_self _)
    · rw [hv] at h1 h2
      refine ⟨s, ?_, ?_⟩
      · show (arrayType cfg t v.world).2 = _
        rw [h3, hv]
      · have E' := E.wrote s
        have g1 : (W.wrote s).typeAt t = .ok er := by rw [E'.typeAt t (by rw [h1]; simp), h1]
        have g3 := arrayType_known (cfg := cfg) g1 (E'.names _ _ h2)
        show ((arrayType cfg t (W.wrote s)).1, v.within (arrayType cfg t (W.wrote s)).2 e) = ((arrayType cfg t v.world).1, v.within (W.wrote s) e)
        rw [g3, h3]
instance (f t) : Carries cfg (allocObject cfg f t) := by unfold allocObject; carries
instance (f e n) : Carries cfg (allocArray cfg f e n) := by unfold allocArray; carries
instance (u) : Carries cfg (allocString cfg u) := by unfold allocString; carries
instance (p) : Carries cfg (objectFlags p) := by unfold objectFlags; carries
instance (p) : Carries cfg (rawObject p) := by unfold rawObject; carries
instance (p f a) : Carries cfg (setField p f a) := by unfold setField; carries
instance (p f) : Carries cfg (getField p f) := by
  unfold getField
  refine .bind inferInstance fun _ => .bind (.still fun w W E e v hv => ?_) fun _ => by carries
  subst hv
  refine .bind (E.typeAt _) fun _ _ => ?_
  rw [show (v.within W e).world.primitives = v.world.primitives from E.primitives]
  exact .bind (.refl _) fun _ _ => E.fieldKind _ _
instance : Carries cfg popArray := by unfold popArray; carries
instance (p) : Carries cfg (intSlice p) := by unfold intSlice; carries
instance (p i x) : Carries cfg (setInt p i x) := by unfold setInt; carries
instance (p i) : Carries cfg (getInt p i) := by unfold getInt; carries
instance (p) : Carries cfg (stringData p) := by unfold stringData; carries
instance (m p) : Carries cfg (callNative m p) := by unfold callNative; carries

/-! ## The interpreter -/

section
variable (fr : Frame) (ops : FloatOps) (tf n ip i : Nat) (r : Region)
instance (a) : Carries cfg (constant a ip) := by unfold constant; carries
instance (f) : Carries cfg (immediate fr n f ip) := by unfold immediate; carries
instance : Carries cfg (loadAt' r i ip) := by unfold loadAt'; carries
instance : Carries cfg (loadFrom fr r n ip) := by unfold loadFrom; carries
instance : Carries cfg (storeAt r i ip) := by unfold storeAt; carries
instance : Carries cfg (storeTo fr r n ip) := by unfold storeTo; carries
instance : Carries cfg (branch fr n ip) := by unfold branch; carries
instance (b) : Carries cfg (branchIf ops fr b n ip) := by unfold branchIf; carries
instance (f) : Carries cfg (branchCmp fr f n ip) := by unfold branchCmp; carries
instance (f) : Carries cfg (compareOp f ip) := by unfold compareOp; carries
instance (f) : Carries cfg (binary f ip) := by unfold binary; carries
instance (f) : Carries cfg (unary f ip) := by unfold unary; carries
instance : Carries cfg (doRet fr) := by
  unfold doRet
  refine .bind (.still fun w W E e v hv => ?_) fun _ => by carries
  subst hv
  exact E.isVoid _
instance : Carries cfg (doDup ip) := by unfold doDup; carries
instance : Carries cfg (doPop ip) := by unfold doPop; carries
instance : Carries cfg (doCall fr ip) := by unfold doCall; carries
instance : Carries cfg (doNewobj cfg tf fr ip) := by unfold doNewobj; carries
instance : Carries cfg (doStfld cfg fr ip) := by unfold doStfld; carries
instance : Carries cfg (doLdfld cfg fr ip) := by unfold doLdfld; carries
instance : Carries cfg (doNewarr cfg tf fr ip) := by unfold doNewarr; carries
instance : Carries cfg (doStelem ip) := by unfold doStelem; carries
instance : Carries cfg (doLdelem ip) := by unfold doLdelem; carries
instance : Carries cfg (doLdstr cfg fr ip) := by unfold doLdstr; carries
instance (op) : Carries cfg (exec cfg ops tf fr op ip) := by cases op <;> (unfold exec; infer_instance)
instance : Carries cfg (step cfg ops tf fr ip) := by unfold step; carries
instance : Carries cfg (popInto r n) := by
  induction n with
  | zero => exact .pure _
  | succ n ih => unfold popInto; carries
instance (run : Frame → Nat → X (Option Value)) [∀ fr i, Carries cfg (run fr i)] (m) : Carries cfg (invoke cfg run m r) := by
  unfold invoke
  split
  · refine .bind inferInstance fun _ => .bind inferInstance fun _ => .bind ?_ fun outer => .finally' ?_ ?_ ?_ ?_
    · exact .update (fun _ _ _ h => by cases h; rfl) fun _ _ _ _ => rfl
    · carries
    · intro v v' h
      unfold release at h
      obtain ⟨x, -, h⟩ := Res.bind_eq_ok.1 h
      cases h; rfl
    · intro v W e
      unfold release VM.within
      dsimp only
      cases usub cfg 64 v.stack.slots.length v.allocated <;> rfl
    · intro v
      unfold release usub
      dsimp only
      repeat' split
      all_goals first | exact .inl rfl | exact .inr ⟨_, rfl⟩
  · carries
  · carries
instance (run : Frame → Nat → X (Option Value)) [∀ fr i, Carries cfg (run fr i)] (t) : Carries cfg (callMethod cfg run fr t) := by
  unfold callMethod; carries
end
instance (ops tf n fr i) : Carries cfg (loop cfg ops tf n fr i) := by
  induction n generalizing fr i with
  | zero => exact .lift _
  | succ n ih => unfold loop; carries

/-- Executing a method in a larger registry, with further parameters. -/
theorem hostExecute_carry {w W : World} (E : Includes w W) (ops : FloatOps) (tf fuel : Nat) (m : MethodRec) (params e : List Value)
    (hp : (hostExecute cfg ops tf fuel w m params).1 ≠ .panic)
    (ht : (hostExecute cfg ops tf fuel w m params).2.world.types.length = w.types.length) :
    ∃ s, (hostExecute cfg ops tf fuel w m params).2.world = w.wrote s ∧
      hostExecute cfg ops tf fuel W m (params ++ e) = ((hostExecute cfg ops tf fuel w m params).1,
        (hostExecute cfg ops tf fuel w m params).2.within (W.wrote s) e) := by
  have e0 : ∀ w : World, w.wrote [] = w := fun w => by
    show ({ w with output := w.output ++ [] } : World) = w
    rw [List.append_nil]
  unfold hostExecute at hp ht ⊢
  split
  · next hs =>
    rw [if_pos hs] at hp ht
    have hc := (inferInstance : Carries cfg (invoke cfg (loop cfg ops tf fuel) m .host)).carry w W E e []
      { world := w, host := params } (e0 w).symm
    dsimp only at hp ht ⊢
    generalize er : invoke cfg (loop cfg ops tf fuel) m .host { world := w, host := params } = r at hp ht hc ⊢
    obtain ⟨s, h1, h2⟩ := hc (fun he => hp (by rw [he]; rfl)) ht
    refine ⟨s, h1, ?_⟩
    rw [e0 W] at h2
    change invoke cfg (loop cfg ops tf fuel) m .host { world := W, host := params ++ e } = _ at h2
    rw [h2]
  · refine ⟨[], (e0 w).symm, ?_⟩
    show (_, ({ world := W, host := params ++ e } : VM)) = (_, ({ world := W.wrote [], host := params ++ e } : VM))
    rw [e0 W]

end Clr
