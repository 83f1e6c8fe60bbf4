import Mathlib.Data.Finset.Card
import Mathlib.Data.Finset.Range
import Verif.Lemmas.Assemblies
import Verif.Lemmas.LoadFuel
/-! # How much fuel is enough -/

namespace Clr

variable {cfg : Cfg} {α β : Type}

/-- A recursive function over `n` types that gives the same answers with one call less at some depth does so from there on; until
then every depth has an answer for one more type. -/
theorem Res.settles {x : Nat → Nat → Res α} {n k0 : Nat} (mono : ∀ {k k'}, k ≤ k' → ∀ t, Refined (x k t) (x k' t))
    (step : ∀ k ≥ k0, (∀ t, Refined (x (k + 1) t) (x k t)) → ∀ t, Refined (x (k + 2) t) (x (k + 1) t))
    (out : ∀ k ≥ k0, ∀ t ≥ n, x k t ≠ .timeout) (k t : Nat) : Refined (x k t) (x (k0 + n) t) := by
  classical
  let A : Nat → Finset Nat := fun k => (Finset.range n).filter fun t => x k t ≠ .timeout
  have sub : ∀ k, A k ⊆ A (k + 1) := by
    intro k t ht
    simp only [A, Finset.mem_filter] at ht ⊢
    refine ⟨ht.1, ?_⟩
    rw [mono (Nat.le_succ k) t ht.2]
    exact ht.2
  have eq : ∀ k ≥ k0, A (k + 1) = A k → ∀ t, Refined (x (k + 1) t) (x k t) := by
    intro k hk he t ht
    have hne : x k t ≠ .timeout := by
      by_cases htn : t < n
      · have : t ∈ A (k + 1) := by simp only [A, Finset.mem_filter, Finset.mem_range]; exact ⟨htn, ht⟩
        rw [he] at this
        simp only [A, Finset.mem_filter] at this
        exact this.2
      · exact out k hk t (by omega)
    rw [mono (Nat.le_succ k) t hne]
  have grow : ∀ j, (∃ i ≤ j, A (k0 + i + 1) = A (k0 + i)) ∨ j + 1 ≤ (A (k0 + j + 1)).card := by
    intro j
    induction j with
    | zero =>
      by_cases he : A (k0 + 0 + 1) = A (k0 + 0)
      · exact .inl ⟨0, Nat.le_refl _, he⟩
      · have := Finset.card_lt_card ((sub (k0 + 0)).ssubset_of_ne fun e => he e.symm)
        exact .inr (by omega)
    | succ j ih =>
      rcases ih with ⟨i, hi, he⟩ | ih
      · exact .inl ⟨i, by omega, he⟩
      · by_cases he : A (k0 + (j + 1) + 1) = A (k0 + (j + 1))
        · exact .inl ⟨j + 1, Nat.le_refl _, he⟩
        · have := Finset.card_lt_card ((sub (k0 + (j + 1))).ssubset_of_ne fun e => he e.symm)
          exact .inr (by rw [show k0 + (j + 1) = k0 + j + 1 by omega] at *; omega)
  obtain ⟨i, hi, he⟩ : ∃ i ≤ n, A (k0 + i + 1) = A (k0 + i) := by
    rcases grow n with h | h
    · exact h
    · have : (A (k0 + n + 1)).card ≤ n := by
        have := Finset.card_filter_le (Finset.range n) fun t => x (k0 + n + 1) t ≠ .timeout
        rwa [Finset.card_range] at this
      omega
  have from_i : ∀ j t, Refined (x (k0 + i + j + 1) t) (x (k0 + i + j) t) := by
    intro j
    induction j with
    | zero => exact eq _ (by omega) he
    | succ j ih => exact step (k0 + i + j) (by omega) ih
  have all : ∀ j t, Refined (x (k0 + i + j) t) (x (k0 + i) t) := by
    intro j
    induction j with
    | zero => exact fun t => .refl _
    | succ j ih =>
      intro t ht
      have h1 := from_i j t ht
      show x (k0 + i) t = x (k0 + i + j + 1) t
      rw [← h1]
      exact ih t (by rw [h1]; exact ht)
  intro ht
  by_cases hk : k ≤ k0 + n
  · exact mono hk t ht
  · obtain ⟨j, rfl⟩ : ∃ j, k = k0 + i + j := ⟨k - (k0 + i), by omega⟩
    have h1 := all j t ht
    rw [mono (show k0 + i ≤ k0 + n by omega) t (by rw [h1]; exact ht), h1]

theorem typeAt_ended (w : World) (t : Nat) : w.typeAt t ≠ .timeout := by
  unfold World.typeAt Res.unwrap
  cases w.types[t]? <;> simp

theorem typeAt_beyond {w : World} {t : Nat} (h : w.types.length ≤ t) : w.typeAt t = .panic := by
  unfold World.typeAt Res.unwrap
  rw [List.getElem?_eq_none h]

namespace Res.Refined

/-- An instance test that ends makes at most as many nested calls as there are types, and one more. -/
theorem instanceOf_deep (w : World) (o k t : Nat) : Refined (Clr.instanceOf w o k t) (Clr.instanceOf w o (w.types.length + 1) t) := by
  rw [Nat.add_comm]
  refine Res.settles (x := fun k t => Clr.instanceOf w o k t) (fun h t => .instanceOf h t) ?_ ?_ k t
  · intro k hk h t
    show Refined (Clr.instanceOf w o (k + 1 + 1) t) (Clr.instanceOf w o (k + 1) t)
    unfold Clr.instanceOf
    refine .bind (.refl _) fun tr => .bind (.refl _) fun r => ?_
    split
    · exact .refl _
    · cases tr.base with
      | some b => exact h b
      | none => exact .refl _
  · intro k hk t ht
    obtain ⟨k, rfl⟩ : ∃ j, k = j + 1 := ⟨k - 1, by omega⟩
    unfold Clr.instanceOf
    rw [typeAt_beyond ht]
    simp

theorem isReferenceType_deep (w : World) (k k' t : Nat) (h : w.types.length + 1 ≤ k') :
    Refined (Clr.isReferenceType w k t) (Clr.isReferenceType w k' t) := by
  refine .bind (.refl _) fun v => .bind (fun hv => ?_) fun _ => .refl _
  have h1 := instanceOf_deep w v k t hv
  rw [← h1]
  exact Res.Refined.instanceOf h t (by rw [h1]; exact hv)

theorem typeSize_step {w : World} {k k' : Nat} (hr : ∀ t, Refined (Clr.isReferenceType w k t) (Clr.isReferenceType w k' t))
    (h : ∀ t, Refined (Clr.typeSize cfg w k t) (Clr.typeSize cfg w k' t)) (t : Nat) :
    Refined (Clr.typeSize cfg w (k + 1) t) (Clr.typeSize cfg w (k' + 1) t) := by
  unfold Clr.typeSize
  refine .bind (.refl _) fun tr => .bind (.refl _) fun p => ?_
  cases p with
  | some s => exact .refl _
  | none =>
    refine .bind (.fieldsSize hr h _ _) fun _ => ?_
    cases tr.base with
    | some b => exact .bind (h b) fun _ => .refl _
    | none => exact .refl _

/-- A size that is found is found with at most twice as many nested calls as there are types, and one more. -/
theorem typeSize_deep (w : World) (k t : Nat) : Refined (Clr.typeSize cfg w k t) (Clr.typeSize cfg w (2 * w.types.length + 1) t) := by
  rw [show 2 * w.types.length + 1 = w.types.length + 1 + w.types.length by omega]
  refine Res.settles (x := fun k t => Clr.typeSize cfg w k t) (fun h t => .typeSize h t) ?_ ?_ k t
  · intro k hk h t
    exact typeSize_step (fun t => isReferenceType_deep w _ _ t hk) h t
  · intro k hk t ht
    obtain ⟨k, rfl⟩ : ∃ j, k = j + 1 := ⟨k - 1, by omega⟩
    unfold Clr.typeSize
    rw [typeAt_beyond ht]
    simp

theorem typeSize_enough {w : World} {k k' t : Nat} (h : 2 * w.types.length + 1 ≤ k') :
    Refined (Clr.typeSize cfg w k t) (Clr.typeSize cfg w k' t) := by
  intro hv
  have h1 := typeSize_deep w k t hv
  rw [← h1]
  exact Res.Refined.typeSize h t (by rw [h1]; exact hv)

theorem allFields {w : World} : ∀ {k k' : Nat}, k ≤ k' → ∀ t, Refined (allFields w k t) (Clr.allFields w k' t) := by
  intro k
  induction k with
  | zero => intro _ _ t h; exact absurd rfl h
  | succ k ih =>
    intro k' hk t
    obtain ⟨k', rfl⟩ : ∃ j, k' = j + 1 := ⟨k' - 1, by omega⟩
    unfold Clr.allFields
    refine .bind (.refl _) fun tr => ?_
    cases tr.base with
    | some b => exact .bind (ih (by omega) b) fun _ => .refl _
    | none => exact .refl _

theorem allFields_deep (w : World) (k t : Nat) : Refined (Clr.allFields w k t) (Clr.allFields w (w.types.length + 1) t) := by
  rw [Nat.add_comm]
  refine Res.settles (x := fun k t => Clr.allFields w k t) (fun h t => .allFields h t) ?_ ?_ k t
  · intro k hk h t
    show Refined (Clr.allFields w (k + 1 + 1) t) (Clr.allFields w (k + 1) t)
    unfold Clr.allFields
    refine .bind (.refl _) fun tr => ?_
    cases tr.base with
    | some b => exact .bind (h b) fun _ => .refl _
    | none => exact .refl _
  · intro k hk t ht
    obtain ⟨k, rfl⟩ : ∃ j, k = j + 1 := ⟨k - 1, by omega⟩
    unfold Clr.allFields
    rw [typeAt_beyond ht]
    simp

theorem concatMethods {f g : Nat → Res (List MethodRec)} (h : ∀ t, Refined (f t) (g t)) (is : List Nat) :
    Refined (concatMethods f is) (Clr.concatMethods g is) := by
  induction is with
  | nil => exact .refl _
  | cons i is ih => exact .bind (h i) fun _ => .bind ih fun _ => .refl _

theorem allMethods_step {w : World} {k k' : Nat} (h : ∀ t, Refined (Clr.allMethods w k t) (Clr.allMethods w k' t)) (t : Nat) :
    Refined (Clr.allMethods w (k + 1) t) (Clr.allMethods w (k' + 1) t) := by
  unfold Clr.allMethods
  refine .bind (.refl _) fun tr => .bind ?_ fun _ => .bind (.concatMethods h _) fun _ => .refl _
  cases tr.base with
  | some b => exact h b
  | none => exact .refl _

theorem allMethods {w : World} : ∀ {k k' : Nat}, k ≤ k' → ∀ t, Refined (allMethods w k t) (Clr.allMethods w k' t) := by
  intro k
  induction k with
  | zero => intro _ _ t h; exact absurd rfl h
  | succ k ih =>
    intro k' hk t
    obtain ⟨k', rfl⟩ : ∃ j, k' = j + 1 := ⟨k' - 1, by omega⟩
    exact allMethods_step (ih (by omega)) t

theorem allMethods_deep (w : World) (k t : Nat) : Refined (Clr.allMethods w k t) (Clr.allMethods w (w.types.length + 1) t) := by
  rw [Nat.add_comm]
  refine Res.settles (x := fun k t => Clr.allMethods w k t) (fun h t => .allMethods h t) (fun k _ h t => allMethods_step h t) ?_ k t
  intro k hk t ht
  obtain ⟨k, rfl⟩ : ∃ j, k = j + 1 := ⟨k - 1, by omega⟩
  unfold Clr.allMethods
  rw [typeAt_beyond ht]
  simp

end Res.Refined

/-! ## Loading -/

/-- Whatever the outcome, nothing is taken out of the registry. -/
def M.Rises (x : M α) : Prop := ∀ w, w.types.length ≤ (x w).2.types.length ∧ w.assemblies.length ≤ (x w).2.assemblies.length

namespace M.Rises

theorem of_touch {S : Nat → Prop} {x : M α} (h : Touch S x) : Rises x := fun w => ⟨(h w).le, by rw [(h w).assemblies]⟩
theorem pure (a : α) : Rises (Pure.pure a : M α) := fun _ => ⟨Nat.le_refl _, Nat.le_refl _⟩
theorem liftM (x : Res α) : Rises (_root_.liftM x : M α) := of_touch (S := fun _ => False) (.of_grow (.liftM x))
theorem view (g : World → Res α) : Rises (M.view g) := fun _ => ⟨Nat.le_refl _, Nat.le_refl _⟩
theorem modify {f : World → World} (h : ∀ w, w.types.length ≤ (f w).types.length ∧ w.assemblies.length ≤ (f w).assemblies.length) :
    Rises (M.modify f) := h
theorem bind {x : M α} {f : α → M β} (hx : Rises x) (hf : ∀ a, Rises (f a)) : Rises (x >>= f) := by
  intro w
  rw [M.bind_run]
  have h := hx w
  rcases e : x w with ⟨r, w1⟩
  rw [e] at h
  cases r with
  | ok a => exact ⟨Nat.le_trans h.1 (hf a w1).1, Nat.le_trans h.2 (hf a w1).2⟩
  | _ => exact h

end M.Rises

theorem loadInterfaces_rises {m : Metadata} (rows : List InterfaceImplRow) : M.Rises (loadInterfaces cfg m rows) := by
  induction rows with
  | nil => exact .pure _
  | cons row rows ih =>
    unfold loadInterfaces
    refine .bind ?_ fun _ => ih
    unfold loadInterface
    refine .bind (.liftM _) fun td => .bind (.of_touch (lookupRow_touch _ _)) fun t => .bind (.liftM _) fun t => ?_
    refine .bind (.liftM _) fun p => ?_
    obtain ⟨n, ns⟩ := p
    refine .bind (.of_touch (lookupRow_touch _ _)) fun i => .bind (.liftM _) fun i => ?_
    exact .of_touch (Touch.updType _ _)

/-- `y` does what `x` does if that ends and `k` is enough for the types registered at the end, and `x` does not end if `y` does not
end and `k` is enough for the types registered until then. -/
structure M.Enough (k : Nat) (x y : M α) : Prop where
  rises : Rises x
  rises' : Rises y
  ends : ∀ w, (x w).1 ≠ .timeout → 2 * (x w).2.types.length + 1 ≤ k → y w = x w
  same : ∀ w, (x w).1 = .timeout ∨ (y w).1 = .timeout ∨ y w = x w
  stuck : ∀ w, (y w).1 = .timeout → 2 * (y w).2.types.length + 1 ≤ k → (x w).1 = .timeout

namespace M.Enough

variable {k k' : Nat} {m : Metadata}

theorem refl {x : M α} (h : Rises x) : Enough k x x := ⟨h, h, fun _ _ _ => rfl, fun _ => .inr (.inr rfl), fun _ h _ => h⟩

theorem bind {x y : M α} {f g : α → M β} (h : Enough k x y) (h' : ∀ a, Enough k (f a) (g a)) : Enough k (x >>= f) (y >>= g) where
  rises := h.rises.bind fun a => (h' a).rises
  rises' := h.rises'.bind fun a => (h' a).rises'
  ends v hv hk := by
    rw [M.bind_run] at hv hk ⊢
    rw [M.bind_run]
    rcases hx : x v with ⟨r, v1⟩
    rw [hx] at hv hk
    cases r with
    | ok a =>
      have hr := ((h' a).rises v1).1
      dsimp only at hk
      rw [h.ends v (by rw [hx]; simp) (by rw [hx]; dsimp only; omega), hx]
      exact (h' a).ends v1 hv hk
    | timeout => exact absurd rfl hv
    | _ => rw [h.ends v (by rw [hx]; simp) (by rw [hx]; exact hk), hx]
  same v := by
    rw [M.bind_run, M.bind_run]
    rcases h.same v with e | e | e
    · rcases hx : x v with ⟨r, v1⟩
      rw [hx] at e
      cases e
      exact .inl rfl
    · rcases hy : y v with ⟨r, v1⟩
      rw [hy] at e
      cases e
      exact .inr (.inl rfl)
    · rw [e]
      rcases hx : x v with ⟨r, v1⟩
      cases r with
      | ok a => exact (h' a).same v1
      | _ => exact .inr (.inr rfl)
  stuck v hv hk := by
    rw [M.bind_run] at hv hk ⊢
    have e := h.same v
    rcases hy : y v with ⟨r, v1⟩
    rw [hy] at hv hk e
    rcases e with e | e | e
    · rcases hx : x v with ⟨r, v1⟩
      rw [hx] at e
      cases e
      rfl
    · cases e
      have := h.stuck v (by rw [hy]) (by rw [hy]; exact hk)
      rcases hx : x v with ⟨r, v1⟩
      rw [hx] at this
      cases this
      rfl
    · rw [← e]
      cases r with
      | ok a => exact (h' a).stuck v1 hv hk
      | _ => exact hv

theorem view {f g : World → Res α} (hc : ∀ w, f w = .timeout ∨ g w = .timeout ∨ g w = f w)
    (h : ∀ w, 2 * w.types.length + 1 ≤ k → Res.Refined (f w) (g w)) : Enough k (M.view f) (M.view g) where
  rises := .view f
  rises' := .view g
  ends w hw hk := by
    show (g w, w) = (f w, w)
    rw [h w hk hw]
  same w := (hc w).imp id (.imp id fun e => by show (g w, w) = (f w, w); rw [e])
  stuck w hw hk := by
    show f w = .timeout
    by_cases e : f w = .timeout
    · exact e
    · rw [← h w hk e]; exact hw

theorem _root_.Clr.Res.Refined.either {x y : Res α} (h : Res.Refined x y ∨ Res.Refined y x) : x = .timeout ∨ y = .timeout ∨ y = x := by
  rcases h with h | h
  · by_cases e : x = .timeout
    · exact .inl e
    · exact .inr (.inr (h e))
  · by_cases e : y = .timeout
    · exact .inr (.inl e)
    · exact .inr (.inr (h e).symm)

theorem size (t : Nat) : Enough k' (M.view fun w => typeSize cfg w k t) (M.view fun w => typeSize cfg w k' t) :=
  .view (fun _ => Res.Refined.either ((Nat.le_total k k').imp (fun h => .typeSize h t) fun h => .typeSize h t)) fun _ h => .typeSize_enough h

theorem loadFields (t n : Nat) : ∀ i o, Enough k' (Clr.loadFields cfg k m t n i o) (Clr.loadFields cfg k' m t n i o) := by
  induction n with
  | zero => exact fun _ _ => .refl (.pure _)
  | succ n ih =>
    intro i o
    refine .bind (.refl (.of_touch (S := fun _ => False) (.of_grow (loadField_grow _ _ _)))) fun f => ?_
    refine .bind (.refl (.of_touch (Touch.updType _ _))) fun _ => .bind (.size _) fun s => ?_
    exact .bind (.refl (.liftM _)) fun _ => .bind (ih _ _) fun _ => .refl (.pure _)

theorem baseSize {w : World} (h : 2 * w.types.length + 1 ≤ k') (t : Nat) :
    Res.Refined (Clr.baseSize cfg k w t) (Clr.baseSize cfg k' w t) := by
  unfold Clr.baseSize
  refine .bind (.refl _) fun tr => ?_
  cases tr.base with
  | some b => exact .typeSize_enough h
  | none => exact .refl _

theorem resolveFields (t i : Nat) : Enough k' (Clr.resolveFields cfg k m t i) (Clr.resolveFields cfg k' m t i) := by
  unfold Clr.resolveFields
  refine .bind (.refl (.liftM _)) fun p => ?_
  obtain ⟨s, n⟩ := p
  refine .bind (.refl (.liftM _)) fun _ => .bind (.refl (.liftM _)) fun _ => ?_
  exact .bind (.view (fun _ => Res.Refined.either ((Nat.le_total k k').imp (fun h => .baseSize h t) fun h => .baseSize h t)) fun w h => baseSize h _) fun _ =>
    .loadFields _ _ _ _

theorem resolveType (t i : Nat) : Enough k' (Clr.resolveType cfg k m t i) (Clr.resolveType cfg k' m t i) := by
  unfold Clr.resolveType
  refine .bind (.refl (.of_touch (resolveBase_touch _ _))) fun _ => .bind (.refl (.of_touch (resolveKind_touch _ _))) fun _ => ?_
  exact .bind (.resolveFields _ _) fun _ => .bind (.refl (.of_touch (resolveMethods_touch _ _))) fun _ => .refl (.pure _)

theorem resolveTypes (ts : List Nat) : ∀ i, Enough k' (Clr.resolveTypes cfg k m ts i) (Clr.resolveTypes cfg k' m ts i) := by
  induction ts with
  | nil => exact fun _ => .refl (.pure _)
  | cons t ts ih => exact fun i => .bind (.resolveType t i) fun _ => .bind (ih _) fun _ => .refl (.pure _)

theorem loadSelf (name : Name) : Enough k' (Clr.loadSelf cfg k m name) (Clr.loadSelf cfg k' m name) := by
  unfold Clr.loadSelf
  refine .bind (.refl (.of_touch (loadMemberRefs_touch _))) fun _ => .bind (.refl (.of_touch (loadTypeRefs_touch _))) fun _ => ?_
  refine .bind (.refl (.view _)) fun _ => .bind (.refl (.modify fun _ => ⟨Nat.le_refl _, Nat.le_refl _⟩)) fun _ => ?_
  refine .bind (.refl (.of_touch (loadTypes_touch _ _ _))) fun _ => .bind (.resolveTypes _ _) fun _ => .refl ?_
  refine .bind (loadInterfaces_rises _) fun _ => .bind (.view _) fun _ => .bind (.liftM _) fun _ => ?_
  exact .bind (.modify fun _ => ⟨Nat.le_refl _, by simp⟩) fun _ => .pure _

theorem loadRefs {load load' : Name → M AssemblyRec} (h : ∀ n, Enough k (load n) (load' n)) (rows : List AssemblyRefRow) :
    Enough k (Clr.loadRefs load m rows) (Clr.loadRefs load' m rows) := by
  induction rows with
  | nil => exact .refl (.pure _)
  | cons row rows ih =>
    unfold Clr.loadRefs
    refine .bind (.refl (.liftM _)) fun _ => .bind (.refl (.liftM _)) fun _ => .bind (.refl (.view _)) fun b => ?_
    split
    · exact ih
    · exact .bind (h _) fun _ => ih

theorem loadData (fs : Name → Option Bytes) (d : Nat) : ∀ data, Enough k' (Clr.loadData cfg fs d k data) (Clr.loadData cfg fs d k' data) := by
  induction d with
  | zero => exact fun data => .refl fun w => ⟨Nat.le_refl _, Nat.le_refl _⟩
  | succ d ih =>
    intro data
    refine .bind (.refl (.liftM _)) fun _ => .bind (.refl (.liftM _)) fun _ => .bind (.refl (.liftM _)) fun _ => ?_
    exact .bind (.loadRefs (fun n => .bind (.refl (.liftM _)) fun _ => ih _) _) fun _ => .loadSelf _

theorem loadAssembly (fs : Name → Option Bytes) (d : Nat) (n : Name) :
    Enough k' (Clr.loadAssembly cfg fs d k n) (Clr.loadAssembly cfg fs d k' n) :=
  .bind (.refl (.liftM _)) fun _ => .loadData fs d _

end M.Enough

/-! ## Nested loads -/

theorem loadSelf_registers {k : Nat} {m : Metadata} {name : Name} {w w' : World} {a : AssemblyRec}
    (h : loadSelf cfg k m name w = (.ok a, w')) : w.assemblies.length < w'.assemblies.length := by
  unfold loadSelf at h
  obtain ⟨_, w1, h1, h⟩ := M.bind_eq_ok.mp h
  obtain ⟨_, w2, h2, h⟩ := M.bind_eq_ok.mp h
  rw [M.get_bind, M.modify_bind] at h
  obtain ⟨ts, w3, h3, h⟩ := M.bind_eq_ok.mp h
  obtain ⟨fs, w4, h4, h⟩ := M.bind_eq_ok.mp h
  obtain ⟨_, w5, h5, h⟩ := M.bind_eq_ok.mp h
  obtain ⟨_, h6, h⟩ := M.view_bind_eq_ok.mp h
  obtain ⟨_, h7, h⟩ := M.liftM_bind_eq_ok.mp h
  rw [M.modify_bind, M.pure_run] at h
  cases h
  have r1 := M.Rises.of_touch (loadMemberRefs_touch (cfg := cfg) (m := m) m.tables.memberRef) w
  have r2 := M.Rises.of_touch (loadTypeRefs_touch (m := m) m.tables.typeRef) w1
  have r3 := M.Rises.of_touch (loadTypes_touch (cfg := cfg) (m := m) w2.nextAssembly m.tables.typeDef.length 0)
    { w2 with nextAssembly := w2.nextAssembly + 1 }
  have r4 := M.Rises.of_touch (resolveTypes_touch (cfg := cfg) (m := m) k ts 0) w3
  have r5 := loadInterfaces_rises (cfg := cfg) (m := m) m.tables.interfaceImpl w4
  rw [h1] at r1
  rw [h2] at r2
  rw [h3] at r3
  rw [h4] at r4
  rw [h5] at r5
  have := r1.2; have := r2.2; have := r3.2; have := r4.2; have := r5.2
  simp only [List.length_append, List.length_singleton] at *
  omega

theorem loadRefs_nested {m : Metadata} {load load' : Name → M AssemblyRec} {D : Nat}
    (hr : ∀ n, M.Rises (load n))
    (hl : ∀ n w a w', load n w = (.ok a, w') → w'.assemblies.length - w.assemblies.length ≤ D → load' n w = (.ok a, w'))
    (rows : List AssemblyRefRow) : ∀ w w', loadRefs load m rows w = (.ok (), w') →
      w.assemblies.length ≤ w'.assemblies.length ∧
      (w'.assemblies.length - w.assemblies.length ≤ D → loadRefs load' m rows w = (.ok (), w')) := by
  induction rows with
  | nil =>
    intro w w' h
    cases h
    exact ⟨Nat.le_refl _, fun _ => rfl⟩
  | cons row rows ih =>
    intro w w' h
    unfold loadRefs at h ⊢
    obtain ⟨n, h1, h⟩ := M.liftM_bind_eq_ok.mp h
    obtain ⟨n', h2, h⟩ := M.liftM_bind_eq_ok.mp h
    rw [M.liftM_bind_ok h1, M.liftM_bind_ok h2]
    rw [M.get_bind] at h ⊢
    split at h
    · rename_i hc
      rw [if_pos hc]
      exact ih w w' h
    · rename_i hc
      rw [if_neg hc]
      obtain ⟨a, w1, h3, h⟩ := M.bind_eq_ok.mp h
      have r := (hr n' w).2
      rw [h3] at r
      obtain ⟨e1, e2⟩ := ih w1 w' h
      dsimp only at r
      refine ⟨by omega, fun hd => ?_⟩
      rw [M.bind_run, hl n' w a w1 h3 (by omega)]
      exact e2 (by omega)

/-- A load that succeeds made no more nested loads than the assemblies it added. -/
theorem loadData_nested (fs : Name → Option Bytes) (k : Nat) : ∀ (d : Nat) (data : Bytes) (w : World) (a : AssemblyRec) (w' : World),
    loadData cfg fs d k data w = (.ok a, w') →
      w.assemblies.length < w'.assemblies.length ∧
      ∀ D, w'.assemblies.length - w.assemblies.length ≤ D → loadData cfg fs D k data w = (.ok a, w') := by
  intro d
  induction d with
  | zero => intro data w a w' h; cases h
  | succ d ih =>
    intro data w a w' h
    unfold loadData at h
    obtain ⟨m, h1, h⟩ := M.liftM_bind_eq_ok.mp h
    obtain ⟨row, h2, h⟩ := M.liftM_bind_eq_ok.mp h
    obtain ⟨name, h3, h⟩ := M.liftM_bind_eq_ok.mp h
    obtain ⟨_, w1, h4, h5⟩ := M.bind_eq_ok.mp h
    have hs := loadSelf_registers h5
    have hrises : ∀ n : Name, M.Rises (do
        let d' ← Res.ofOption "Could not locate assembly" (fs n)
        loadData cfg fs d k d' : M AssemblyRec) := fun n => .bind (.liftM _) fun _ => (M.Enough.loadData (k' := k) fs d _).rises
    have key := fun D hl => loadRefs_nested (m := m) (D := D) (load' := fun n => do
        let d' ← Res.ofOption "Could not locate assembly" (fs n)
        loadData cfg fs D k d') hrises hl m.tables.assemblyRef w w1 h4
    have hl : ∀ D (n : Name) (w : World) (a : AssemblyRec) (w' : World), (do
        let d' ← Res.ofOption "Could not locate assembly" (fs n)
        loadData cfg fs d k d' : M AssemblyRec) w = (.ok a, w') → w'.assemblies.length - w.assemblies.length ≤ D →
        (do let d' ← Res.ofOption "Could not locate assembly" (fs n)
            loadData cfg fs D k d' : M AssemblyRec) w = (.ok a, w') := by
      intro D n w a w' h hd
      obtain ⟨d', h1, h⟩ := M.liftM_bind_eq_ok.mp h
      rw [M.liftM_bind_ok h1]
      exact (ih d' w a w' h).2 D hd
    have hle := (key _ (hl 0)).1
    refine ⟨by omega, fun D hD => ?_⟩
    obtain ⟨D, rfl⟩ : ∃ j, D = j + 1 := ⟨D - 1, by omega⟩
    unfold loadData
    rw [M.liftM_bind_ok h1, M.liftM_bind_ok h2, M.liftM_bind_ok h3, M.bind_run, (key D (hl D)).2 (by omega)]
    exact h5

end Clr
