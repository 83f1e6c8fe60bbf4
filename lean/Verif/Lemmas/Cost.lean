import Verif.Model.Cost
import Verif.Spec.Cost
import Verif.Props.Kinds
import Verif.Props.Contains
/-! # The counted functions of `Model/Cost` -/

namespace Clr
open Spec

variable {cfg : Cfg} {w : World}

/-! ## The answers are the same -/

theorem Res.pure_bind {α β : Type} (a : α) (f : α → Res β) : (pure a >>= f) = f a := rfl

theorem instanceOfC_eq (other : Nat) (fuel t : Nat) :
    instanceOf w other fuel t = (do let (a, _) ← instanceOfC w other fuel t; pure a) := by
  induction fuel generalizing t with
  | zero => rfl
  | succ fuel ih =>
    unfold instanceOf instanceOfC
    cases w.typeAt t with
    | ok tr =>
      simp only [Res.ok_bind]
      cases w.typeAt other with
      | ok o =>
        simp only [Res.ok_bind]
        split
        · rfl
        · cases hb : tr.base with
          | some b =>
            dsimp only
            rw [ih b]
            cases instanceOfC w other fuel b <;> rfl
          | none =>
            dsimp only
            cases List.mapM w.typeAt tr.interfaces <;> rfl
      | _ => rfl
    | _ => rfl

theorem isReferenceTypeC_eq (fuel t : Nat) : isReferenceType w fuel t = (do let (a, _) ← isReferenceTypeC w fuel t; pure a) := by
  unfold isReferenceType isReferenceTypeC
  cases Res.unwrap (w.getType "System.ValueType".toList) with
  | ok v =>
    simp only [Res.ok_bind]
    rw [instanceOfC_eq]
    cases instanceOfC w v fuel t <;> rfl
  | _ => rfl

theorem fieldsSizeC_eq {isRef : Nat → Res Bool} {size : Nat → Res Nat} {isRefC : Nat → Res (Bool × Nat)}
    {sizeC : Nat → Res (Nat × Nat)} (h1 : ∀ t, isRef t = (do let (a, _) ← isRefC t; pure a))
    (h2 : ∀ t, size t = (do let (a, _) ← sizeC t; pure a)) (fs : List FieldRec) (a c : Nat) :
    fieldsSize cfg isRef size fs a = (do let (a, _) ← fieldsSizeC cfg isRefC sizeC fs a c; pure a) := by
  induction fs generalizing a c with
  | nil => rfl
  | cons f fs ih =>
    unfold fieldsSize fieldsSizeC
    rw [h1]
    cases isRefC f.fieldType with
    | ok p =>
      obtain ⟨r, c1⟩ := p
      simp only [Res.ok_bind, Res.pure_bind]
      cases r with
      | true =>
        simp only [if_true, Res.pure_bind]
        cases uadd cfg 64 a 8 with
        | ok a' => exact ih _ _
        | _ => rfl
      | false =>
        simp only [Bool.false_eq_true, if_false]
        rw [h2]
        cases sizeC f.fieldType with
        | ok p =>
          obtain ⟨s, c2⟩ := p
          simp only [Res.ok_bind, Res.pure_bind]
          cases uadd cfg 64 a s with
          | ok a' => exact ih _ _
          | _ => rfl
        | _ => rfl
    | _ => rfl

theorem typeSizeC_eq (fuel t : Nat) : typeSize cfg w fuel t = (do let (a, _) ← typeSizeC cfg w fuel t; pure a) := by
  induction fuel generalizing t with
  | zero => rfl
  | succ fuel ih =>
    unfold typeSize typeSizeC
    cases w.typeAt t with
    | ok tr =>
      simp only [Res.ok_bind]
      cases primitiveSize w tr.fullName primitiveSizes with
      | ok o =>
        simp only [Res.ok_bind]
        cases o with
        | some s => rfl
        | none =>
          dsimp only
          rw [fieldsSizeC_eq (isReferenceTypeC_eq fuel) ih _ 0 1]
          cases fieldsSizeC cfg (isReferenceTypeC w fuel) (typeSizeC cfg w fuel) (tr.fields.filter (!·.isStatic)) 0 1 with
          | ok p =>
            obtain ⟨s, c⟩ := p
            simp only [Res.ok_bind, Res.pure_bind]
            cases hb : tr.base with
            | some b =>
              dsimp only
              rw [ih b]
              cases typeSizeC cfg w fuel b with
              | ok p =>
                obtain ⟨s', c'⟩ := p
                simp only [Res.ok_bind, Res.pure_bind]
                cases uadd cfg 64 s s' <;> rfl
              | _ => rfl
            | none => rfl
          | _ => rfl
      | _ => rfl
    | _ => rfl

theorem allFieldsC_eq (fuel t : Nat) : allFields w fuel t = (do let (a, _) ← allFieldsC w fuel t; pure a) := by
  induction fuel generalizing t with
  | zero => rfl
  | succ fuel ih =>
    unfold allFields allFieldsC
    cases w.typeAt t with
    | ok tr =>
      simp only [Res.ok_bind]
      cases hb : tr.base with
      | some b =>
        dsimp only
        rw [ih b]
        cases allFieldsC w fuel b <;> rfl
      | none => rfl
    | _ => rfl

/-! ## The recursion is no deeper than the count -/

theorem instanceOfC_depth {u : Nat} : ∀ (fuel : Nat) {t : Nat} {b : Bool} {c : Nat}, instanceOfC w u fuel t = .ok (b, c) →
    1 ≤ c ∧ ∀ n ≥ c, instanceOf w u n t = .ok b
  | 0, _, _, _, h => by cases h
  | fuel + 1, t, b, c, h => by
    unfold instanceOfC at h
    obtain ⟨tr, h1, h⟩ := Res.bind_eq_ok.mp h
    obtain ⟨o, h2, h⟩ := Res.bind_eq_ok.mp h
    have key : ∀ m, instanceOf w u (m + 1) t = if tr.fullName = o.fullName then pure true
        else match tr.base with
          | some b => instanceOf w u m b
          | none => (tr.interfaces.mapM w.typeAt >>= fun is => pure (is.any (·.fullName = o.fullName))) := by
      intro m
      rw [instanceOf, h1, Res.ok_bind, h2, Res.ok_bind]
      rfl
    split at h
    · next he =>
      cases h
      refine ⟨Nat.le_refl _, fun n hn => ?_⟩
      obtain ⟨m, rfl⟩ : ∃ m, n = m + 1 := ⟨n - 1, by omega⟩
      rw [key, if_pos he]
      rfl
    · next he =>
      cases hb : tr.base with
      | some p =>
        rw [hb] at h
        obtain ⟨⟨a, c'⟩, h3, h⟩ := Res.bind_eq_ok.mp h
        cases h
        obtain ⟨h4, h5⟩ := instanceOfC_depth fuel h3
        refine ⟨by omega, fun n hn => ?_⟩
        obtain ⟨m, rfl⟩ : ∃ m, n = m + 1 := ⟨n - 1, by omega⟩
        rw [key, if_neg he, hb]
        exact h5 m (by omega)
      | none =>
        rw [hb] at h
        obtain ⟨is, h3, h⟩ := Res.bind_eq_ok.mp h
        cases h
        refine ⟨by omega, fun n hn => ?_⟩
        obtain ⟨m, rfl⟩ : ∃ m, n = m + 1 := ⟨n - 1, by omega⟩
        rw [key, if_neg he, hb]
        show (tr.interfaces.mapM w.typeAt >>= _) = _
        rw [h3]
        rfl

theorem isReferenceTypeC_depth {fuel t : Nat} {b : Bool} {c : Nat} (h : isReferenceTypeC w fuel t = .ok (b, c)) (n : Nat) (hn : c ≤ n) :
    isReferenceType w n t = .ok b := by
  unfold isReferenceTypeC at h
  obtain ⟨v, h1, h⟩ := Res.bind_eq_ok.mp h
  obtain ⟨⟨a, c'⟩, h2, h⟩ := Res.bind_eq_ok.mp h
  cases h
  unfold isReferenceType
  rw [h1, Res.ok_bind, (instanceOfC_depth fuel h2).2 n hn]
  rfl

theorem fieldsSizeC_depth {isRefC : Nat → Res (Bool × Nat)} {sizeC : Nat → Res (Nat × Nat)} {isRef : Nat → Nat → Res Bool}
    {size : Nat → Nat → Res Nat} (h1 : ∀ {t b c}, isRefC t = .ok (b, c) → ∀ n ≥ c, isRef n t = .ok b)
    (h2 : ∀ {t s c}, sizeC t = .ok (s, c) → ∀ n ≥ c, size n t = .ok s) (fs : List FieldRec) : ∀ {a c s c' : Nat},
    fieldsSizeC cfg isRefC sizeC fs a c = .ok (s, c') → c ≤ c' ∧ ∀ n, c' ≤ n + c → fieldsSize cfg (isRef n) (size n) fs a = .ok s := by
  induction fs with
  | nil => intro a c s c' h; cases h; exact ⟨Nat.le_refl _, fun _ _ => rfl⟩
  | cons f fs ih =>
    intro a c s c' h
    unfold fieldsSizeC at h
    obtain ⟨⟨r, c1⟩, h3, h⟩ := Res.bind_eq_ok.mp h
    obtain ⟨⟨s1, c2⟩, h4, h⟩ := Res.bind_eq_ok.mp h
    obtain ⟨a', h5, h⟩ := Res.bind_eq_ok.mp h
    obtain ⟨h6, h7⟩ := ih h
    refine ⟨by omega, fun n hn => ?_⟩
    unfold fieldsSize
    rw [h1 h3 n (by omega)]
    cases r with
    | true =>
      cases h4
      simp only [Res.ok_bind, if_true, Res.pure_bind, h5]
      exact h7 n (by omega)
    | false =>
      simp only [Bool.false_eq_true, if_false] at h4
      simp only [Res.ok_bind, Bool.false_eq_true, if_false, h2 h4 n (by omega), h5]
      exact h7 n (by omega)

theorem typeSizeC_depth : ∀ (fuel : Nat) {t s c : Nat}, typeSizeC cfg w fuel t = .ok (s, c) →
    1 ≤ c ∧ ∀ n ≥ c, typeSize cfg w n t = .ok s
  | 0, _, _, _, h => by cases h
  | fuel + 1, t, s, c, h => by
    unfold typeSizeC at h
    obtain ⟨tr, h1, h⟩ := Res.bind_eq_ok.mp h
    obtain ⟨o, h2, h⟩ := Res.bind_eq_ok.mp h
    have key : ∀ m, typeSize cfg w (m + 1) t = (do
        match o with
        | some s => pure s
        | none => do
          let size ← fieldsSize cfg (isReferenceType w m) (typeSize cfg w m) (tr.fields.filter (!·.isStatic)) 0
          match tr.base with
          | some b => do
            let s ← typeSize cfg w m b
            uadd cfg 64 size s
          | none => pure size) := by
      intro m
      rw [typeSize, h1, Res.ok_bind, h2, Res.ok_bind]
      cases o <;> rfl
    cases o with
    | some s' =>
      cases h
      refine ⟨Nat.le_refl _, fun n hn => ?_⟩
      obtain ⟨m, rfl⟩ : ∃ m, n = m + 1 := ⟨n - 1, by omega⟩
      rw [key]
      rfl
    | none =>
      obtain ⟨⟨s1, c1⟩, h3, h⟩ := Res.bind_eq_ok.mp h
      obtain ⟨h4, h5⟩ := fieldsSizeC_depth (isRef := isReferenceType w) (size := typeSize cfg w)
        (fun h => isReferenceTypeC_depth h) (fun h => (typeSizeC_depth fuel h).2) _ h3
      cases hb : tr.base with
      | some p =>
        simp only [hb] at h
        obtain ⟨⟨s2, c2⟩, h6, h⟩ := Res.bind_eq_ok.mp h
        obtain ⟨s3, h7, h⟩ := Res.bind_eq_ok.mp h
        cases h
        have h8 := typeSizeC_depth fuel h6
        refine ⟨by omega, fun n hn => ?_⟩
        obtain ⟨m, rfl⟩ : ∃ m, n = m + 1 := ⟨n - 1, by omega⟩
        rw [key]
        dsimp only
        rw [h5 m (by omega), Res.ok_bind, hb]
        dsimp only
        rw [h8.2 m (by omega), Res.ok_bind, h7]
      | none =>
        simp only [hb] at h
        cases h
        refine ⟨by omega, fun n hn => ?_⟩
        obtain ⟨m, rfl⟩ : ∃ m, n = m + 1 := ⟨n - 1, by omega⟩
        rw [key]
        dsimp only
        rw [h5 m (by omega), Res.ok_bind, hb]
        rfl

theorem allFieldsC_depth : ∀ (fuel : Nat) {t : Nat} {fs : List FieldRec} {c : Nat}, allFieldsC w fuel t = .ok (fs, c) →
    fs.length < c ∧ ∀ n ≥ c, allFields w n t = .ok fs
  | 0, _, _, _, h => by cases h
  | fuel + 1, t, fs, c, h => by
    unfold allFieldsC at h
    obtain ⟨tr, h1, h⟩ := Res.bind_eq_ok.mp h
    cases hb : tr.base with
    | some p =>
      simp only [hb] at h
      obtain ⟨⟨fs', c'⟩, h2, h⟩ := Res.bind_eq_ok.mp h
      cases h
      obtain ⟨h3, h4⟩ := allFieldsC_depth fuel h2
      refine ⟨by rw [List.length_append]; omega, fun n hn => ?_⟩
      obtain ⟨m, rfl⟩ : ∃ m, n = m + 1 := ⟨n - 1, by omega⟩
      rw [allFields, h1, Res.ok_bind, hb]
      dsimp only
      rw [h4 m (by omega)]
      rfl
    | none =>
      simp only [hb] at h
      cases h
      refine ⟨by omega, fun n hn => ?_⟩
      obtain ⟨m, rfl⟩ : ∃ m, n = m + 1 := ⟨n - 1, by omega⟩
      rw [allFields, h1, Res.ok_bind, hb]
      rfl

/-! ## Sums over distinct types -/

theorem sum_nodup_le (g : Nat → Nat) (n : Nat) : ∀ ts : List Nat, ts.Nodup → (∀ t ∈ ts, t < n) →
    (ts.map g).sum ≤ ((List.range n).map g).sum := by
  induction n with
  | zero =>
    intro ts _ h
    cases ts with
    | nil => simp
    | cons t ts => exact absurd (h t (by simp)) (by omega)
  | succ n ih =>
    intro ts hn h
    rw [List.range_succ, List.map_append, List.sum_append]
    by_cases hm : n ∈ ts
    · have hp := (List.perm_cons_erase hm).map g
      have hs : (ts.map g).sum = g n + ((ts.erase n).map g).sum := by
        rw [hp.sum_nat]; simp
      have := ih (ts.erase n) (hn.erase n) fun t ht => by
        have h1 := h t (List.mem_of_mem_erase ht)
        have h2 : t ≠ n := fun e => by subst e; exact hn.not_mem_erase ht
        omega
      simp only [List.map_cons, List.map_nil, List.sum_cons, List.sum_nil]
      omega
    · have := ih ts hn fun t ht => by
        have h1 := h t ht
        have h2 : t ≠ n := fun e => hm (e ▸ ht)
        omega
      omega

/-- What a type adds to the amount. -/
def portion (w : World) (t : Nat) : Nat :=
  match w.types[t]? with
  | some r => 1 + r.fields.length + r.interfaces.length
  | none => 0

theorem portion_eq {t : Nat} {r : TypeRec} (h : w.types[t]? = some r) : portion w t = 1 + r.fields.length + r.interfaces.length := by
  simp only [portion, h]

theorem amount_eq (w : World) : ((List.range w.types.length).map (portion w)).sum = amount w := by
  unfold amount portion
  congr 1
  apply List.ext_getElem
  · simp
  · intro i h1 h2
    simp only [List.length_map, List.length_range] at h1
    simp [List.getElem?_eq_getElem h1]

theorem chain_bound {t : Nat} {ts : List Nat} (h : BaseChain w t ts) : ∀ s ∈ ts, s < w.types.length := by
  induction h with
  | root h1 _ => intro s hs; rw [List.mem_singleton.mp hs]; exact (List.getElem?_eq_some_iff.mp h1).1
  | link h1 _ _ ih =>
    intro s hs
    rcases List.mem_cons.mp hs with rfl | hs
    · exact (List.getElem?_eq_some_iff.mp h1).1
    · exact ih s hs

/-- The types of a base chain, with all they have, are part of what was loaded. -/
theorem chain_amount {t : Nat} {ts : List Nat} (h : BaseChain w t ts) : (ts.map (portion w)).sum ≤ amount w := by
  rw [← amount_eq]
  exact sum_nodup_le _ _ ts (chain_nodup h) (chain_bound h)

theorem chain_length {t : Nat} {ts : List Nat} (h : BaseChain w t ts) : ts.length ≤ w.types.length := by
  have := sum_nodup_le (fun _ => 1) _ ts (chain_nodup h) (chain_bound h)
  simpa using this

theorem chain_of_depth {t n : Nat} (h : Depth w t n) : ∃ ts, BaseChain w t ts ∧ ts.length = n + 1 := by
  induction h with
  | root h1 h2 => exact ⟨_, .root h1 h2, rfl⟩
  | link h1 h2 _ ih =>
    obtain ⟨ts, h3, h4⟩ := ih
    exact ⟨_, .link h1 h2 h3, by simp [h4]⟩

theorem depth_lt {t n : Nat} (h : Depth w t n) : n < w.types.length := by
  obtain ⟨ts, h1, h2⟩ := chain_of_depth h
  have := chain_length h1
  omega

/-! ## Instance tests and lists of fields -/

theorem instanceOfC_le {t u : Nat} {ts : List Nat} (h : BaseChain w t ts) : ∀ {fuel : Nat} {b : Bool} {c : Nat},
    instanceOfC w u fuel t = .ok (b, c) → c ≤ (ts.map (portion w)).sum := by
  induction h with
  | root h1 h2 =>
    intro fuel b c h
    cases fuel with
    | zero => cases h
    | succ fuel =>
      unfold instanceOfC at h
      rw [typeAt_eq_ok.mpr h1, Res.ok_bind] at h
      obtain ⟨o, ho, h⟩ := Res.bind_eq_ok.mp h
      simp only [List.map_cons, List.map_nil, List.sum_cons, List.sum_nil, portion, h1]
      split at h
      · cases h; omega
      · rw [h2] at h
        obtain ⟨is, hi, h⟩ := Res.bind_eq_ok.mp h
        cases h
        omega
  | link h1 h2 _ ih =>
    intro fuel b c h
    cases fuel with
    | zero => cases h
    | succ fuel =>
      unfold instanceOfC at h
      rw [typeAt_eq_ok.mpr h1, Res.ok_bind] at h
      obtain ⟨o, ho, h⟩ := Res.bind_eq_ok.mp h
      rw [List.map_cons, List.sum_cons, portion_eq h1]
      split at h
      · cases h; omega
      · rw [h2] at h
        obtain ⟨⟨a, c'⟩, hi, h⟩ := Res.bind_eq_ok.mp h
        cases h
        have := ih hi
        omega

/-- The number of fields of a type. -/
def ownFields (w : World) (t : Nat) : Nat :=
  match w.types[t]? with
  | some r => r.fields.length
  | none => 0

theorem allFieldsC_le {t : Nat} {ts : List Nat} (h : BaseChain w t ts) : ∀ {fuel : Nat}, ts.length ≤ fuel →
    ∃ fs c, allFieldsC w fuel t = .ok (fs, c) ∧ fs.length = (ts.map (ownFields w)).sum ∧
      c ≤ ts.length * (1 + (ts.map (ownFields w)).sum) := by
  induction h with
  | @root t r h1 h2 =>
    intro fuel hf
    cases fuel with
    | zero => simp at hf
    | succ fuel =>
      unfold allFieldsC
      rw [typeAt_eq_ok.mpr h1, Res.ok_bind, h2]
      refine ⟨_, _, rfl, ?_⟩
      simp [ownFields, h1]
  | @link t b r ts h1 h2 _ ih =>
    intro fuel hf
    cases fuel with
    | zero => simp at hf
    | succ fuel =>
      obtain ⟨fs, c, e, g1, g2⟩ := ih (fuel := fuel) (by simpa using hf)
      unfold allFieldsC
      rw [typeAt_eq_ok.mpr h1, Res.ok_bind, h2]
      refine ⟨_, _, by dsimp only; rw [e]; rfl, ?_, ?_⟩
      · simp [ownFields, h1] at g1 ⊢; omega
      · simp only [List.map_cons, List.sum_cons, List.length_cons]
        generalize (ts.map (ownFields w)).sum = F at *
        have : ownFields w t = r.fields.length := by simp [ownFields, h1]
        rw [this, g1]
        generalize r.fields.length = x at *
        have h3 : ts.length * (1 + F) ≤ ts.length * (1 + (x + F)) := Nat.mul_le_mul_left _ (by omega)
        rw [Nat.add_mul, Nat.one_mul]
        omega

/-! ## Sizes from above -/

theorem isReferenceTypeC_ok {fuel t : Nat} {b : Bool} {c : Nat} (h : isReferenceTypeC w fuel t = .ok (b, c)) :
    isReferenceType w fuel t = .ok b ∧ ∃ v a, w.getType "System.ValueType".toList = some v ∧
      instanceOfC w v fuel t = .ok (a, c) := by
  refine ⟨by rw [isReferenceTypeC_eq, h]; rfl, ?_⟩
  unfold isReferenceTypeC at h
  obtain ⟨v, hv, h⟩ := Res.bind_eq_ok.mp h
  obtain ⟨⟨a, c'⟩, ha, h⟩ := Res.bind_eq_ok.mp h
  cases h
  exact ⟨v, a, unwrap_eq_ok.mp hv, ha⟩

theorem fieldsSizeC_le {isRef : Nat → Res (Bool × Nat)} {size : Nat → Res (Nat × Nat)} {K : Nat} (fs : List FieldRec)
    (h : ∀ f ∈ fs, ∀ r c1, isRef f.fieldType = .ok (r, c1) → c1 ≤ K ∧ (r = false → ∀ s c2, size f.fieldType = .ok (s, c2) → c2 ≤ 1)) :
    ∀ {a c s c' : Nat}, fieldsSizeC cfg isRef size fs a c = .ok (s, c') → c' ≤ c + fs.length * (K + 1) := by
  induction fs with
  | nil => intro a c s c' e; cases e; omega
  | cons f fs ih =>
    intro a c s c' e
    unfold fieldsSizeC at e
    obtain ⟨⟨r, c1⟩, h1, e⟩ := Res.bind_eq_ok.mp e
    obtain ⟨⟨x, c2⟩, h2, e⟩ := Res.bind_eq_ok.mp e
    obtain ⟨a', h3, e⟩ := Res.bind_eq_ok.mp e
    have := ih (fun g hg => h g (by simp [hg])) e
    obtain ⟨k1, k2⟩ := h f (by simp) r c1 h1
    have k3 : c2 ≤ 1 := by
      cases r with
      | true => simp only [if_true] at h2; cases h2; omega
      | false => exact k2 rfl x c2 h2
    rw [List.length_cons, Nat.add_mul, Nat.one_mul]
    omega

theorem typeSizeC_number (hi : Inv w) {t : Nat} {r : TypeRec} (hr : w.types[t]? = some r) (hn : r.fullName ∈ numberNames)
    {fuel s c : Nat} (h : typeSizeC cfg w fuel t = .ok (s, c)) : c = 1 := by
  cases fuel with
  | zero => cases h
  | succ fuel =>
    unfold typeSizeC at h
    rw [typeAt_eq_ok.mpr hr, Res.ok_bind] at h
    obtain ⟨o, ho, h⟩ := Res.bind_eq_ok.mp h
    cases o with
    | some s => cases h; rfl
    | none => exact absurd (numberNames_eq ▸ hn) (primitiveSize_none hi _ ho)

theorem typeSizeC_flat (hi : Inv w) (hni : NoInterface w) (hc : ∀ t, t < w.types.length → ChainEnds w t) {t : Nat} {ts : List Nat}
    (h : BaseChain w t ts) (hfl : Flat w t) : ∀ {fuel s c : Nat}, typeSizeC cfg w fuel t = .ok (s, c) →
      c ≤ ts.length + (ts.map (ownFields w)).sum * (amount w + 1) := by
  have fieldsOk : ∀ {t : Nat} {r : TypeRec} {fuel s c : Nat}, w.types[t]? = some r → Flat w t →
      fieldsSizeC cfg (isReferenceTypeC w fuel) (typeSizeC cfg w fuel) (r.fields.filter (!·.isStatic)) 0 1 = .ok (s, c) →
      c ≤ 1 + ownFields w t * (amount w + 1) := by
    intro t r fuel s c hr hf h
    have hlen : (r.fields.filter (!·.isStatic)).length ≤ ownFields w t := by
      simp only [ownFields, hr]; exact List.length_filter_le _ _
    refine Nat.le_trans (fieldsSizeC_le (K := amount w) _ ?_ h) (Nat.add_le_add_left (Nat.mul_le_mul_right _ hlen) _)
    intro f hfm b c1 h1
    simp only [List.mem_filter, Bool.not_eq_true'] at hfm
    have hl := (hi.fields t _ hr f hfm.1).1
    obtain ⟨n, hd⟩ := hc _ hl
    obtain ⟨us, hus, -⟩ := chain_of_depth hd
    obtain ⟨h2, v, a, -, h3⟩ := isReferenceTypeC_ok h1
    refine ⟨Nat.le_trans (instanceOfC_le hus h3) (chain_amount hus), fun hb s c2 h4 => ?_⟩
    subst hb
    rcases hf t r f (.self t) hr hfm.1 hfm.2 with hv | ⟨fr, h5, h6⟩
    · obtain ⟨n, hn⟩ := isReferenceType_answers hi hni ⟨_, hd⟩
      have hx := Res.Refined.isReferenceType (w := w) (Nat.le_max_left fuel (n + 1)) f.fieldType (by rw [h2]; simp)
      exact absurd ((hn (max fuel (n + 1)) (by omega)).2 (by rw [hx, h2])) hv
    · rw [typeSizeC_number hi h5 h6 h4]
      exact Nat.le_refl _
  induction h with
  | @root t r h1 h2 =>
    intro fuel s c h
    cases fuel with
    | zero => cases h
    | succ fuel =>
      unfold typeSizeC at h
      rw [typeAt_eq_ok.mpr h1, Res.ok_bind] at h
      obtain ⟨o, ho, h⟩ := Res.bind_eq_ok.mp h
      simp only [List.length_singleton, List.map_cons, List.map_nil, List.sum_cons, List.sum_nil, Nat.add_zero]
      cases o with
      | some s => cases h; omega
      | none =>
        obtain ⟨⟨s1, c1⟩, h3, h⟩ := Res.bind_eq_ok.mp h
        rw [h2] at h
        cases h
        exact fieldsOk h1 hfl h3
  | @link t b r ts h1 h2 _ ih =>
    intro fuel s c h
    cases fuel with
    | zero => cases h
    | succ fuel =>
      unfold typeSizeC at h
      rw [typeAt_eq_ok.mpr h1, Res.ok_bind] at h
      obtain ⟨o, ho, h⟩ := Res.bind_eq_ok.mp h
      simp only [List.length_cons, List.map_cons, List.sum_cons]
      rw [Nat.add_mul]
      cases o with
      | some s => cases h; omega
      | none =>
        obtain ⟨⟨s1, c1⟩, h3, h⟩ := Res.bind_eq_ok.mp h
        rw [h2] at h
        obtain ⟨⟨s2, c2⟩, h4, h⟩ := Res.bind_eq_ok.mp h
        obtain ⟨s3, -, h⟩ := Res.bind_eq_ok.mp h
        cases h
        have k1 := fieldsOk h1 hfl h3
        have k2 := ih (fun a r' f ha => hfl a r' f (.base h1 h2 ha)) h4
        omega

/-! ## Sizes from below -/

theorem valueBelow_instance {v t : Nat} (hi : Inv w) (hv : w.getType "System.ValueType".toList = some v) (h : ValueBelow w t)
    {fuel : Nat} {a : Bool} {c : Nat} (e : instanceOfC w v fuel t = .ok (a, c)) : a = true := by
  obtain ⟨r, b, br, h1, h2, h3, h4⟩ := h
  obtain ⟨vr, v1, v2, -⟩ := (hi.getType_iff _ v).1 hv
  cases fuel with
  | zero => cases e
  | succ fuel =>
    unfold instanceOfC at e
    rw [typeAt_eq_ok.mpr h1, typeAt_eq_ok.mpr v1, Res.ok_bind, Res.ok_bind] at e
    split at e
    · cases e; rfl
    · rw [h2] at e
      obtain ⟨⟨a', c'⟩, e', e⟩ := Res.bind_eq_ok.mp e
      cases e
      cases fuel with
      | zero => cases e'
      | succ fuel =>
        unfold instanceOfC at e'
        rw [typeAt_eq_ok.mpr h3, typeAt_eq_ok.mpr v1, Res.ok_bind, Res.ok_bind, if_pos (h4.trans v2.symm)] at e'
        cases e'; rfl

/-- The work for the fields is at least the work for any selection of them. -/
theorem fieldsSizeC_ge {isRef : Nat → Res (Bool × Nat)} {size : Nat → Res (Nat × Nat)} {p : FieldRec → Bool} {k : Nat}
    (hp : ∀ f, p f = true → ∀ r c1, isRef f.fieldType = .ok (r, c1) → r = false ∧ ∀ s c2, size f.fieldType = .ok (s, c2) → k ≤ c2)
    (fs : List FieldRec) : ∀ {a c s c' : Nat}, fieldsSizeC cfg isRef size fs a c = .ok (s, c') →
      c + (fs.filter p).length * k ≤ c' := by
  induction fs with
  | nil => intro a c s c' e; cases e; simp
  | cons f fs ih =>
    intro a c s c' e
    unfold fieldsSizeC at e
    obtain ⟨⟨r, c1⟩, h1, e⟩ := Res.bind_eq_ok.mp e
    obtain ⟨⟨x, c2⟩, h2, e⟩ := Res.bind_eq_ok.mp e
    obtain ⟨a', h3, e⟩ := Res.bind_eq_ok.mp e
    have := ih e
    by_cases hf : p f = true
    · obtain ⟨hr, hs⟩ := hp f hf r c1 h1
      subst hr
      have := hs x c2 h2
      rw [List.filter_cons_of_pos hf, List.length_cons, Nat.add_mul, Nat.one_mul]
      omega
    · rw [List.filter_cons_of_neg hf]
      omega

theorem doubled_ge (hi : Inv w) {n t : Nat} (h : Doubled w n t) : ∀ {fuel s c : Nat}, typeSizeC cfg w fuel t = .ok (s, c) →
    2 ^ n ≤ c := by
  induction h with
  | zero =>
    intro fuel s c h
    cases fuel with
    | zero => cases h
    | succ fuel =>
      unfold typeSizeC at h
      obtain ⟨tr, -, h⟩ := Res.bind_eq_ok.mp h
      obtain ⟨o, -, h⟩ := Res.bind_eq_ok.mp h
      cases o with
      | some s => cases h; exact Nat.le_refl _
      | none =>
        obtain ⟨⟨s1, c1⟩, h3, h⟩ := Res.bind_eq_ok.mp h
        have h4 := fieldsSizeC_ge (p := fun _ => false) (k := 0) (fun f hf => by cases hf) _ h3
        cases hb : tr.base with
        | none => rw [hb] at h; cases h; show 1 ≤ _; omega
        | some b =>
          rw [hb] at h
          obtain ⟨⟨s2, c2⟩, -, h⟩ := Res.bind_eq_ok.mp h
          obtain ⟨s3, -, h⟩ := Res.bind_eq_ok.mp h
          cases h
          show 1 ≤ _; omega
  | @succ n t u r f g as bs cs h1 h2 h3 h4 h5 h6 h7 h8 _ ih =>
    intro fuel s c h
    cases fuel with
    | zero => cases h
    | succ fuel =>
      unfold typeSizeC at h
      rw [typeAt_eq_ok.mpr h1, Res.ok_bind] at h
      obtain ⟨o, ho, h⟩ := Res.bind_eq_ok.mp h
      cases o with
      | some s =>
        have := primitiveSize_lookup hi ho
        exact absurd (numberNames_eq ▸ List.mem_map_of_mem (f := (·.1)) (mem_of_lookup this.symm)) h2
      | none =>
        obtain ⟨⟨s1, c1⟩, e1, h⟩ := Res.bind_eq_ok.mp h
        have e2 := fieldsSizeC_ge (p := fun f => decide (f.fieldType = u)) (k := 2 ^ n) (fun f hf r c1 hr => by
          have hf := of_decide_eq_true hf
          rw [hf] at hr ⊢
          obtain ⟨-, v, a, hv, ha⟩ := isReferenceTypeC_ok hr
          have ht := valueBelow_instance hi hv h8 ha
          subst ht
          refine ⟨?_, fun s c2 hs => ih hs⟩
          unfold isReferenceTypeC at hr
          rw [hv] at hr
          simp only [Res.unwrap, Res.ok_bind, ha] at hr
          cases hr; rfl) _ e1
        have e3 : 2 ≤ ((r.fields.filter (!·.isStatic)).filter fun f => decide (f.fieldType = u)).length := by
          rw [h3]
          simp [List.filter_append, h4, h5, h6, h7]
          omega
        have e4 : 2 ^ (n + 1) ≤ c1 := by
          have := Nat.mul_le_mul_right (2 ^ n) e3
          rw [Nat.pow_succ]
          omega
        cases hb : r.base with
        | none => rw [hb] at h; cases h; exact e4
        | some b =>
          rw [hb] at h
          obtain ⟨⟨s2, c2⟩, -, h⟩ := Res.bind_eq_ok.mp h
          obtain ⟨s3, -, h⟩ := Res.bind_eq_ok.mp h
          cases h
          omega

end Clr
