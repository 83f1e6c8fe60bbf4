import Verif.Model.AlignSigs
import Verif.Spec.SigPlaces
import Verif.Lemmas.AlignBodies
import Verif.Lemmas.Signature
/-! # Lemmas about checked reads of signatures -/

namespace Clr
open Spec Reader

variable {cfg : Cfg} {base : Nat} {α β : Type}

/-- `f` started at `enc ++ t` yields `a` and stops at `t` if `P` holds of the address, and is undefined behaviour otherwise. -/
def ReadsIf (base : Nat) (f : Reader → Res (α × Reader)) (enc : Bytes) (a : α) (P : Nat → Prop) : Prop :=
  ∀ (r : Reader) (t : Bytes), r.Ok → r.rest = enc ++ t →
    (P (base + r.pos) → f r = .ok (a, r.skip enc.length)) ∧ (¬ P (base + r.pos) → f r = .ub)

namespace ReadsIf

theorem pure (a : α) : ReadsIf base (fun r => Pure.pure (a, r)) [] a fun _ => True :=
  fun _ _ _ _ => ⟨fun _ => rfl, fun h => absurd trivial h⟩

theorem bind {f : Reader → Res (α × Reader)} {k : α × Reader → Res (β × Reader)} {e e' : Bytes} {a : α} {b : β}
    {P P' : Nat → Prop} (hf : ReadsIf base f e a P) (hk : ReadsIf base (fun r => k (a, r)) e' b P') :
    ReadsIf base (fun r => f r >>= k) (e ++ e') b fun x => P x ∧ P' (x + e.length) := by
  intro r t hr h
  rw [List.append_assoc] at h
  obtain ⟨h1, h2⟩ := hf r _ hr h
  obtain ⟨h3, h4⟩ := hk _ t (ok_at hr h) (rest_at h)
  have ep : base + (r.skip e.length).pos = base + r.pos + e.length := by simp [Reader.skip]; omega
  rw [ep] at h3 h4
  refine ⟨fun hP => ?_, fun hP => ?_⟩
  · dsimp only
    rw [h1 hP.1, Res.ok_bind]
    refine (h3 hP.2).trans ?_
    simp
  · dsimp only
    by_cases hp : P (base + r.pos)
    · rw [h1 hp, Res.ok_bind]
      exact h4 fun h => hP ⟨hp, h⟩
    · rw [h2 hp]; rfl

theorem bind' {f : Reader → Res (α × Reader)} {k : α × Reader → Res (β × Reader)} {g : Reader → Res (β × Reader)} {e e' : Bytes} {a : α} {b : β}
    {P P' : Nat → Prop} (hf : ReadsIf base f e a P) (h : ∀ r, k (a, r) = g r) (hk : ReadsIf base g e' b P') :
    ReadsIf base (fun r => f r >>= k) (e ++ e') b fun x => P x ∧ P' (x + e.length) := by
  obtain rfl : (fun r => k (a, r)) = g := funext h
  exact hf.bind hk

theorem map {f : Reader → Res (α × Reader)} {e : Bytes} {a : α} {P : Nat → Prop} (g : α → β) (hf : ReadsIf base f e a P) :
    ReadsIf base (fun r => f r >>= fun p => Pure.pure (g p.1, p.2)) e (g a) P := by
  intro r t hr h
  obtain ⟨h1, h2⟩ := hf r t hr h
  refine ⟨fun hP => ?_, fun hP => ?_⟩
  · dsimp only; rw [h1 hP]; rfl
  · dsimp only; rw [h2 hP]; rfl

theorem cast {f : Reader → Res (α × Reader)} {e e' : Bytes} {a : α} {P P' : Nat → Prop} (h : ReadsIf base f e a P)
    (he : e' = e) (hP : ∀ x, P' x ↔ P x) : ReadsIf base f e' a P' := by
  subst he
  intro r t hr hrest
  rw [hP]
  exact h r t hr hrest

theorem byte (b : UInt8) : ReadsIf base (readByte cfg) [b] b.toNat fun _ => True :=
  fun _ _ hr h => ⟨fun _ => readByte_at cfg hr h, fun h => absurd trivial h⟩

theorem num {n : Nat} (hn : n < 2 ^ 29) : ReadsIf base (Strict.readCompressed base cfg) (encUnsigned n) n (NumAt n) := by
  intro r t hr h
  have hc := readCompressed_at cfg hr hn h
  obtain ⟨k, hk, e, hs⟩ := sreadCompressed_exact (base := base) hr hc
  have ek : (encUnsigned n).length = k := by
    have := congrArg Reader.pos e
    simpa [Reader.skip] using this
  have hN : NumAt n (base + r.pos) ↔ (base + r.pos) % k = 0 := by
    rw [← ek, encUnsigned_length]
    unfold NumAt
    split
    · omega
    · split <;> omega
  rw [hs]
  exact ⟨fun h => if_pos (hN.1 h), fun h => if_neg fun h' => h (hN.2 h')⟩

theorem nums {ns : List Nat} (h : ∀ n ∈ ns, n < 2 ^ 29) :
    ReadsIf base (readMany (Strict.readCompressed base cfg) ns.length) (ns.map encUnsigned).flatten ns (NumsAt ns) := by
  induction ns with
  | nil => exact ReadsIf.pure []
  | cons n ns ih =>
    refine ReadsIf.cast (ReadsIf.bind (num (cfg := cfg) (h n (by simp))) (ReadsIf.map (n :: ·) (ih fun m hm => h m (by simp [hm])))) (by simp) ?_
    intro x
    simp [NumsAt]

end ReadsIf

theorem encSigned_zeros {s : List Nat} (hz : ∀ b ∈ s, b = 0) : (s.map Int.ofNat).map encSigned = s.map encUnsigned := by
  rw [List.map_map]
  apply List.map_congr_left
  intro b hb
  rw [hz b hb]
  decide

theorem readArrayShape_if {s : ArrayShape} (hs : Shape.Fits ⟨s.rank, s.sizes, s.lowerBounds.map Int.ofNat⟩)
    (hz : ∀ b ∈ s.lowerBounds, b = 0) :
    ReadsIf base (Strict.readArrayShape base cfg) (Shape.enc ⟨s.rank, s.sizes, s.lowerBounds.map Int.ofNat⟩) s (ShapeAt s) := by
  obtain ⟨h1, h2, h3, h4, -⟩ := hs
  dsimp only at h1 h2 h3 h4
  refine (ReadsIf.bind (.num h1) (ReadsIf.bind (.num h2) (ReadsIf.bind (.nums h3) (ReadsIf.bind (.num (n := s.lowerBounds.length) (by simpa using h4))
    (ReadsIf.bind (.nums fun n hn => by rw [hz n hn]; decide) (ReadsIf.pure s)))))).cast ?_ ?_
  · unfold Shape.enc
    dsimp only
    rw [encSigned_zeros hz]
    simp [encCounted]
  · intro x
    simp [ShapeAt, CountedAt, encCounted, and_assoc, Nat.add_assoc]

theorem readTypeDefOrRef_if {h : TypeDefOrRef} (hh : rowOf h < 2 ^ 27) :
    ReadsIf base (Strict.readTypeDefOrRef base cfg) (encTypeDefOrRef h) h (NumAt (handleNumber h)) := by
  cases h with
  | typeDef i =>
    refine (ReadsIf.bind (ReadsIf.num (n := 4 * i) (by simp only [rowOf] at hh; omega)) (b := TypeDefOrRef.typeDef i) (e' := []) (P' := fun _ => True) ?_).cast (by simp [encTypeDefOrRef]) (by simp [handleNumber])
    have e1 : 4 * i % 4 = 0 := by omega
    have e2 : 4 * i / 4 = i := by omega
    exact fun r t _ _ => ⟨fun _ => by simp [e1, e2], fun h => absurd trivial h⟩
  | typeRef i =>
    refine (ReadsIf.bind (ReadsIf.num (n := 4 * i + 1) (by simp only [rowOf] at hh; omega)) (b := TypeDefOrRef.typeRef i) (e' := []) (P' := fun _ => True) ?_).cast (by simp [encTypeDefOrRef]) (by simp [handleNumber])
    have e1 : (4 * i + 1) % 4 = 1 := by omega
    have e2 : (4 * i + 1) / 4 = i := by omega
    exact fun r t _ _ => ⟨fun _ => by simp [e1, e2], fun h => absurd trivial h⟩
  | typeSpec i =>
    refine (ReadsIf.bind (ReadsIf.num (n := 4 * i + 2) (by simp only [rowOf] at hh; omega)) (b := TypeDefOrRef.typeSpec i) (e' := []) (P' := fun _ => True) ?_).cast (by simp [encTypeDefOrRef]) (by simp [handleNumber])
    have e1 : (4 * i + 2) % 4 = 2 := by omega
    have e2 : (4 * i + 2) / 4 = i := by omega
    exact fun r t _ _ => ⟨fun _ => by simp [e1, e2], fun h => absurd trivial h⟩

mutual
theorem readElemF_if : ∀ (e : ElementType), ElemFits e → ∀ fuel, (encElem e).length ≤ fuel →
    ReadsIf base (Strict.readElemF base cfg fuel) (encElem e) e (ElemAt e)
  | e, hfit, fuel, hfuel => by
    obtain ⟨fuel, rfl⟩ : ∃ f, fuel = f + 1 := ⟨fuel - 1, by have := encElem_pos e; omega⟩
    have hf : Strict.readElemF base cfg (fuel + 1) = fun r => Strict.readElemF base cfg (fuel + 1) r := rfl
    rw [hf]
    simp only [Strict.readElemF]
    have one : ∀ (c : UInt8) {k : Nat × Reader → Res (ElementType × Reader)} {f : Reader → Res (ElementType × Reader)} {e' : Bytes}
        {P : Nat → Prop}, (∀ r, k (c.toNat, r) = f r) → ReadsIf base f e' e P →
        ReadsIf base (fun r => readByte cfg r >>= k) (c :: e') e fun x => P (x + 1) := by
      intro c k f e' P hk h
      obtain rfl : (fun r => k (c.toNat, r)) = f := funext hk
      exact (ReadsIf.bind (ReadsIf.byte c) h).cast rfl (by simp)
    cases e with
    | fnPtr => simp [ElemFits] at hfit
    | pointer e =>
      simp only [encElem, ElemFits, List.length_cons] at *
      exact ReadsIf.cast (one 0x0f (fun _ => rfl) (ReadsIf.map ElementType.pointer (readElemF_if e hfit fuel (by omega)))) rfl (by simp [ElemAt])
    | reference e =>
      simp only [encElem, ElemFits, List.length_cons] at *
      exact ReadsIf.cast (one 0x10 (fun _ => rfl) (ReadsIf.map ElementType.reference (readElemF_if e hfit fuel (by omega)))) rfl (by simp [ElemAt])
    | szArray e =>
      simp only [encElem, ElemFits, List.length_cons] at *
      exact ReadsIf.cast (one 0x1d (fun _ => rfl) (ReadsIf.map ElementType.szArray (readElemF_if e hfit fuel (by omega)))) rfl (by simp [ElemAt])
    | valueType k =>
      simp only [encElem, ElemFits, List.length_cons] at *
      exact ReadsIf.cast (one 0x11 (fun _ => rfl) (ReadsIf.map ElementType.valueType (readTypeDefOrRef_if hfit))) rfl (by simp [ElemAt])
    | «class» k =>
      simp only [encElem, ElemFits, List.length_cons] at *
      exact ReadsIf.cast (one 0x12 (fun _ => rfl) (ReadsIf.map ElementType.«class» (readTypeDefOrRef_if hfit))) rfl (by simp [ElemAt])
    | typeGenericParam n =>
      simp only [encElem, ElemFits, List.length_cons] at *
      exact ReadsIf.cast (one 0x13 (fun _ => rfl) (ReadsIf.map ElementType.typeGenericParam (ReadsIf.num hfit))) rfl (by simp [ElemAt])
    | methodGenericParam n =>
      simp only [encElem, ElemFits, List.length_cons] at *
      exact ReadsIf.cast (one 0x1e (fun _ => rfl) (ReadsIf.map ElementType.methodGenericParam (ReadsIf.num hfit))) rfl (by simp [ElemAt])
    | array e s =>
      simp only [encElem, ElemFits, List.length_cons, List.length_append] at *
      obtain ⟨f1, f2, f3⟩ := hfit
      exact ReadsIf.cast (one 0x14 (fun _ => rfl) (ReadsIf.bind (readElemF_if e f1 fuel (by omega))
        (ReadsIf.map (fun s => ElementType.array e s) (readArrayShape_if f2 f3)))) rfl (by simp [ElemAt])
    | generic e args =>
      simp only [encElem, ElemFits, List.length_cons, List.length_append] at *
      obtain ⟨f1, f2, f3⟩ := hfit
      have h3 := ReadsIf.map (fun l => ElementType.generic e l) (readElemFs_if args f3 fuel (by omega))
      have h2 := ReadsIf.bind (ReadsIf.num (base := base) (cfg := cfg) f2)
        (k := fun p => readMany (Strict.readElemF base cfg fuel) p.1 p.2 >>= fun q => Pure.pure (ElementType.generic e q.1, q.2)) h3
      exact ReadsIf.cast (one 0x15 (fun _ => rfl) (ReadsIf.bind (readElemF_if e f1 fuel (by omega)) h2)) rfl (by simp [ElemAt])
    | _ =>
      refine ReadsIf.cast (e := [_]) (one (f := fun r => Pure.pure (_, r)) (P := fun _ => True) _ ?_ (ReadsIf.pure _)) (by simp only [encElem]; rfl) (by simp [ElemAt])
      exact fun _ => rfl
theorem readElemFs_if : ∀ (es : List ElementType), ElemsFit es → ∀ fuel, (encElems es).length ≤ fuel →
    ReadsIf base (readMany (Strict.readElemF base cfg fuel) es.length) (encElems es) es (ElemsAt es)
  | [], _, _, _ => (ReadsIf.pure []).cast rfl (by simp [ElemsAt])
  | e :: es, hfit, fuel, hfuel => by
    simp only [encElems, ElemsFit, List.length_append] at *
    exact ReadsIf.cast (ReadsIf.bind (readElemF_if e hfit.1 fuel (by omega)) (ReadsIf.map (e :: ·) (readElemFs_if es hfit.2 fuel (by omega)))) rfl (by simp [ElemsAt])
end

theorem readElem_if {e : ElementType} (he : ElemFits e) : ReadsIf base (Strict.readElem base cfg) (encElem e) e (ElemAt e) := by
  intro r t hr h
  unfold Strict.readElem
  refine readElemF_if e he _ ?_ r t hr h
  have := length_rest r
  rw [h, List.length_append] at this
  omega

theorem readElems_if : ∀ {es : List ElementType}, ElemsFit es →
    ReadsIf base (readMany (Strict.readElem base cfg) es.length) (encElems es) es (ElemsAt es)
  | [], _ => (ReadsIf.pure []).cast rfl (by simp [ElemsAt])
  | e :: es, hfit => by
    simp only [encElems, ElemsFit] at *
    exact ReadsIf.cast (ReadsIf.bind (readElem_if hfit.1) (ReadsIf.map (e :: ·) (readElems_if hfit.2))) rfl (by simp [ElemsAt])

/-! ## Signatures -/

/-- The types of a signature, behind the first bytes. -/
theorem types_if {ret : ElementType} {params : List ElementType} (hl : params.length < 2 ^ 29) (hr : ElemFits ret)
    (hp : ElemsFit params) (g : ElementType → List ElementType → β) :
    ReadsIf base (fun r => do
        let (paramCount, r) ← Strict.readCompressed base cfg r
        let (returnType, r) ← Strict.readElem base cfg r
        let (params, r) ← readMany (Strict.readElem base cfg) paramCount r
        pure (g returnType params, r))
      (encUnsigned params.length ++ (encElem ret ++ encElems params)) (g ret params) (TypesAt ret params) := by
  have h1 := ReadsIf.map (g ret) (readElems_if (base := base) (cfg := cfg) hp)
  have h2 := ReadsIf.bind (k := fun p => readMany (Strict.readElem base cfg) params.length p.2 >>= fun q => Pure.pure (g p.1 q.1, q.2))
    (readElem_if (base := base) (cfg := cfg) hr) h1
  have h3 := ReadsIf.bind (k := fun p => Strict.readElem base cfg p.2 >>= fun o =>
    readMany (Strict.readElem base cfg) p.1 o.2 >>= fun q => Pure.pure (g o.1 q.1, q.2)) (ReadsIf.num (base := base) (cfg := cfg) hl) h2
  exact ReadsIf.cast h3 rfl fun x => Iff.rfl

theorem readFieldSig_if {t : ElementType} (ht : ElemFits t) :
    ReadsIf base (Strict.readFieldSig base cfg) (encFieldSig t) t (FieldSigAt t) := by
  intro r tl hr h
  obtain ⟨b, bs, hb, n1, n2⟩ : ∃ b bs, encElem t = b :: bs ∧ b ≠ 0x1f ∧ b ≠ 0x20 := by
    cases t <;> exact ⟨_, _, rfl, by decide, by decide⟩
  unfold encFieldSig at h
  obtain ⟨hr1, hh1⟩ := cons_rest hr h
  have e : Strict.readFieldSig base cfg r = Strict.readElem base cfg (r.skip 1) := by
    unfold Strict.readFieldSig
    rw [readByte_at cfg hr h]
    simp only [Res.ok_bind]
    rw [if_neg (by simp)]
    have hh1' := hh1
    rw [hb] at hh1'
    rw [peekByte_at cfg hr1 hh1']
    simp only [Res.ok_bind]
    have m1 : b.toNat ≠ 0x1f := fun e => n1 (by rw [← byte_eq e]; rfl)
    have m2 : b.toNat ≠ 0x20 := fun e => n2 (by rw [← byte_eq e]; rfl)
    rw [if_neg (by omega)]
  have := readElem_if (base := base) (cfg := cfg) ht _ _ hr1 hh1
  rw [e]
  have ep : base + (r.skip 1).pos = base + r.pos + 1 := by simp [Reader.skip]; omega
  rw [ep] at this
  refine ⟨fun hP => (this.1 hP).trans ?_, this.2⟩
  simp [encFieldSig, Nat.add_comm]

private theorem flags_of : ∀ i e v g : Bool,
    let b := (if i then 0x20 else 0) + (if e then 0x40 else 0) + (if v then 5 else 0) + (if g then 0x10 else 0)
    b < 256 ∧ (b &&& 0x20 = 0x20 ↔ i) ∧ (b &&& 0x40 = 0x40 ↔ e) ∧ (b &&& 0x5 = 0x5 ↔ v) ∧ (b &&& 0x10 = 0x10 ↔ g) := by
  decide

theorem readMethodSig_if {s : MethodSig} (hs : MethodSigFits s) :
    ReadsIf base (Strict.readMethodSig base cfg) (encMethodSig s) s (MethodSigAt s) := by
  obtain ⟨h1, h2, h3, h4⟩ := hs
  have fl := flags_of s.instance s.explicitThis s.vararg (decide (0 < s.genericParamCount))
  simp only [decide_eq_true_eq] at fl
  obtain ⟨f0, f1, f2, f3, f4⟩ := fl
  intro r t hr h
  unfold encMethodSig at h
  obtain ⟨hr1, hh1⟩ := cons_rest hr h
  have ep : base + (r.skip 1).pos = base + r.pos + 1 := by simp [Reader.skip]; omega
  have T := types_if (base := base) (cfg := cfg) h2 h3 h4
    fun ret params => (⟨s.instance, s.explicitThis, s.vararg, s.genericParamCount, ret, params⟩ : MethodSig)
  by_cases hg : 0 < s.genericParamCount
  · have G := ReadsIf.bind (k := fun (p : Nat × Reader) => (do
        let (paramCount, r) ← Strict.readCompressed base cfg p.2
        let (returnType, r) ← Strict.readElem base cfg r
        let (params, r) ← readMany (Strict.readElem base cfg) paramCount r
        pure ((⟨s.instance, s.explicitThis, s.vararg, p.1, returnType, params⟩ : MethodSig), r)))
      (ReadsIf.num (base := base) (cfg := cfg) h1) T
    have e : Strict.readMethodSig base cfg r = (Strict.readCompressed base cfg (r.skip 1) >>= fun (p : Nat × Reader) => (do
        let (paramCount, r) ← Strict.readCompressed base cfg p.2
        let (returnType, r) ← Strict.readElem base cfg r
        let (params, r) ← readMany (Strict.readElem base cfg) paramCount r
        pure ((⟨s.instance, s.explicitThis, s.vararg, p.1, returnType, params⟩ : MethodSig), r))) := by
      unfold Strict.readMethodSig
      rw [readByte_at cfg hr h, toNat_ofNat_lt f0]
      simp only [Res.ok_bind, f1, f2, f3, f4, Bool.decide_eq_true]
      simp only [hg, if_true, decide_true]
    rw [if_pos hg] at hh1
    have := G _ t hr1 hh1
    rw [ep] at this
    rw [e]
    unfold MethodSigAt
    rw [if_pos hg]
    refine ⟨fun hP => (this.1 hP).trans ?_, this.2⟩
    simp [encMethodSig, hg, Nat.add_comm, Nat.add_left_comm, Nat.add_assoc]
  · have hz : s.genericParamCount = 0 := by omega
    have e : Strict.readMethodSig base cfg r = (do
        let (paramCount, r) ← Strict.readCompressed base cfg (r.skip 1)
        let (returnType, r) ← Strict.readElem base cfg r
        let (params, r) ← readMany (Strict.readElem base cfg) paramCount r
        pure ((⟨s.instance, s.explicitThis, s.vararg, s.genericParamCount, returnType, params⟩ : MethodSig), r)) := by
      unfold Strict.readMethodSig
      rw [readByte_at cfg hr h, toNat_ofNat_lt f0]
      simp only [Res.ok_bind, f1, f2, f3, f4, Bool.decide_eq_true]
      simp only [hz, Nat.lt_irrefl, if_false, decide_false, Bool.false_eq_true, Res.pure_eq, Res.ok_bind]
    rw [if_neg hg] at hh1
    have := T _ t hr1 hh1
    rw [ep] at this
    rw [e]
    unfold MethodSigAt
    rw [if_neg hg]
    refine ⟨fun hP => (this.1 hP).trans ?_, this.2⟩
    simp [encMethodSig, hg, Nat.add_comm, Nat.add_assoc]

theorem readPropertySig_if {s : PropertySig} (hs : PropertySigFits s) :
    ReadsIf base (Strict.readPropertySig base cfg) (encPropertySig s) s (PropertySigAt s) := by
  obtain ⟨h2, h3, h4⟩ := hs
  intro r t hr h
  unfold encPropertySig at h
  obtain ⟨hr1, hh1⟩ := cons_rest hr h
  have ep : base + (r.skip 1).pos = base + r.pos + 1 := by simp [Reader.skip]; omega
  have f : ((if s.instance then (0x28 : UInt8) else 0x08).toNat &&& 0x8 = 0x8) ∧
      (((if s.instance then (0x28 : UInt8) else 0x08).toNat &&& 0x20 = 0x20) ↔ s.instance = true) := by
    cases s.instance <;> decide
  have T := types_if (base := base) (cfg := cfg) h2 h3 h4 fun ret params => (⟨s.instance, ret, params⟩ : PropertySig)
  have e : Strict.readPropertySig base cfg r = (do
      let (paramCount, r) ← Strict.readCompressed base cfg (r.skip 1)
      let (returnType, r) ← Strict.readElem base cfg r
      let (params, r) ← readMany (Strict.readElem base cfg) paramCount r
      pure ((⟨s.instance, returnType, params⟩ : PropertySig), r)) := by
    unfold Strict.readPropertySig
    rw [readByte_at cfg hr h]
    simp only [Res.ok_bind]
    rw [if_neg (by simp [f.1])]
    simp only [f.2, Bool.decide_eq_true]
  have := T _ t hr1 hh1
  rw [ep] at this
  rw [e]
  refine ⟨fun hP => (this.1 hP).trans ?_, this.2⟩
  simp [encPropertySig, Nat.add_comm, Nat.add_assoc]

theorem readMethodSpec_if {args : List ElementType} (hl : args.length < 2 ^ 29) (ha : ElemsFit args) :
    ReadsIf base (Strict.readMethodSpec base cfg) (encMethodSpec args) args (MethodSpecAt args) := by
  intro r t hr h
  unfold encMethodSpec at h
  obtain ⟨hr1, hh1⟩ := cons_rest hr h
  have ep : base + (r.skip 1).pos = base + r.pos + 1 := by simp [Reader.skip]; omega
  have T := ReadsIf.bind (k := fun p => readMany (Strict.readElem base cfg) p.1 p.2) (ReadsIf.num (base := base) (cfg := cfg) hl)
    (readElems_if (base := base) (cfg := cfg) ha)
  have e : Strict.readMethodSpec base cfg r =
      (Strict.readCompressed base cfg (r.skip 1) >>= fun p => readMany (Strict.readElem base cfg) p.1 p.2) := by
    unfold Strict.readMethodSpec
    rw [readByte_at cfg hr h]
    simp only [Res.ok_bind]
    rw [if_neg (by simp)]
  have := T _ t hr1 hh1
  rw [ep] at this
  rw [e]
  refine ⟨fun hP => (this.1 hP).trans ?_, this.2⟩
  simp [encMethodSpec, Nat.add_comm]

/-! ## Any blob -/

/-- `x`, checked, against `x'`: the same if not undefined behaviour, and the same in any case if all bytes are small. What is read
from keeps its data. -/
structure Resembles (low : Prop) (d : Bytes) (x x' : Res (α × Reader)) : Prop where
  low : low → x = x'
  checked : x ≠ .ub → x = x'
  keeps : ∀ a r', x' = .ok (a, r') → r'.data = d

namespace Resembles

theorem bind {low : Prop} {d : Bytes} {x x' : Res (α × Reader)} {k k' : α × Reader → Res (β × Reader)} (h : Resembles low d x x')
    (hk : ∀ a r, r.data = d → Resembles low d (k (a, r)) (k' (a, r))) : Resembles low d (x >>= k) (x' >>= k') := by
  have key : x = x' → (low → (x >>= k) = (x' >>= k')) ∧ ((x >>= k) ≠ .ub → (x >>= k) = (x' >>= k')) := by
    rintro rfl
    rcases x with ⟨a, r⟩ | _ | _ | _ | _
    · exact ⟨(hk a r (h.keeps a r rfl)).low, (hk a r (h.keeps a r rfl)).checked⟩
    all_goals exact ⟨fun _ => rfl, fun _ => rfl⟩
  refine ⟨fun hl => (key (h.low hl)).1 hl, fun hu => ?_, ?_⟩
  · have hx : x ≠ .ub := by rintro rfl; exact hu rfl
    exact (key (h.checked hx)).2 hu
  · intro b r' e
    obtain ⟨⟨a, r⟩, h1, h2⟩ := Res.bind_eq_ok.1 e
    exact (hk a r (h.keeps a r h1)).keeps b r' h2

theorem same {low : Prop} {d : Bytes} {x : Res (α × Reader)} (h : ∀ a r', x = .ok (a, r') → r'.data = d) : Resembles low d x x :=
  ⟨fun _ => rfl, fun _ => rfl, h⟩

theorem pure {low : Prop} {d : Bytes} {a : α} {r : Reader} (h : r.data = d) : Resembles low d (Pure.pure (a, r)) (Pure.pure (a, r)) :=
  same fun _ _ e => by cases e; exact h

theorem err {low : Prop} {d : Bytes} {m : String} : Resembles (α := α) low d (.err m) (.err m) := same fun _ _ e => by cases e

end Resembles

/-- All bytes of the blob are below 0x80. -/
def LowBytes (d : Bytes) : Prop := ∀ b ∈ d, b.toNat < 0x80

theorem advance_data {r : Reader} {n : Nat} {x : Bool × Reader} (h : r.advance cfg n = .ok x) : x.2.data = r.data := by
  unfold Reader.advance at h
  obtain ⟨e, -, h⟩ := Res.bind_eq_ok.1 h
  cases h
  rfl

theorem blobRead_data {r r' : Reader} {w : Nat} {b : Bytes} (h : blobRead cfg r w = .ok (b, r')) : r'.data = r.data := by
  unfold blobRead Reader.read at h
  obtain ⟨⟨o, r1⟩, h1, h⟩ := Res.bind_eq_ok.1 h
  obtain ⟨o', -, h1⟩ := Res.bind_eq_ok.1 h1
  cases o' with
  | none => cases h1; cases h
  | some b' =>
    obtain ⟨x, h2, h1⟩ := Res.bind_eq_ok.1 h1
    cases h1
    cases h
    exact advance_data h2

theorem readByte_data {r r' : Reader} {n : Nat} (h : readByte cfg r = .ok (n, r')) : r'.data = r.data := by
  unfold readByte at h
  obtain ⟨⟨b, r1⟩, h1, h⟩ := Res.bind_eq_ok.1 h
  cases h
  exact blobRead_data h1

theorem readByte_like {low : Prop} {d : Bytes} {r : Reader} (hd : r.data = d) : Resembles low d (readByte cfg r) (readByte cfg r) :=
  .same fun _ _ e => (readByte_data e).trans hd

theorem peekAt_checked {r : Reader} {w n : Nat} (h : Strict.peekAt base cfg r w n ≠ .ub) :
    Strict.peekAt base cfg r w n = r.peek cfg w := by
  have key : Strict.peekAt base cfg r w n = r.peek cfg w ∨ Strict.peekAt base cfg r w n = .ub := by
    unfold Strict.peekAt
    unfold Reader.peek
    cases he : uadd cfg 64 r.pos w with
    | ok e =>
      simp only [Res.ok_bind]
      split
      · exact .inl rfl
      · unfold Reader.rawBytes
        cases hs : sliceFrom r.data r.pos with
        | ok s =>
          simp only [Res.ok_bind]
          unfold Strict.alignedAt
          split
          · exact .inl rfl
          · exact .inr rfl
        | _ => exact .inl rfl
    | _ => exact .inl rfl
  rcases key with k | k
  · exact k
  · exact absurd k h

theorem readAt_checked {r : Reader} {w n : Nat} (h : Strict.readAt base cfg r w n ≠ .ub) :
    Strict.readAt base cfg r w n = r.read cfg w := by
  unfold Strict.readAt at h ⊢
  unfold Reader.read
  rw [peekAt_checked (base := base) (n := n) (fun e => h (by rw [e]; rfl))]
  rfl

theorem blobRead_checked {r : Reader} {w : Nat} (h : Strict.blobRead base cfg r w ≠ .ub) :
    Strict.blobRead base cfg r w = blobRead cfg r w := by
  unfold Strict.blobRead at h ⊢
  unfold blobRead
  rw [readAt_checked (base := base) (n := w) (fun e => h (by rw [e]; rfl))]
  rfl

theorem peekByte_mem {r : Reader} {x : Nat} (h : peekByte cfg r = .ok x) : ∃ b ∈ r.data, x = b.toNat := by
  unfold peekByte blobPeek Reader.peek at h
  obtain ⟨b, h1, h⟩ := Res.bind_eq_ok.1 h
  cases h
  obtain ⟨o, h2, h1⟩ := Res.bind_eq_ok.1 h1
  obtain ⟨e, -, h2⟩ := Res.bind_eq_ok.1 h2
  split at h2
  · cases h2; cases h1
  · obtain ⟨b', h3, h2⟩ := Res.bind_eq_ok.1 h2
    cases h2
    cases h1
    unfold Reader.rawBytes sliceFrom at h3
    obtain ⟨s, h4, h3⟩ := Res.bind_eq_ok.1 h3
    split at h4
    · cases h4
      split at h3
      · rename_i hl
        cases h3
        cases hd : r.data.drop r.pos with
        | nil => rw [hd] at hl; simp at hl
        | cons y ys =>
          refine ⟨y, List.mem_of_mem_drop (i := r.pos) (by rw [hd]; exact List.mem_cons_self ..), ?_⟩
          simp [leNat]
      · cases h3
    · cases h4

theorem readCompressed_like {d : Bytes} {r : Reader} (hd : r.data = d) :
    Resembles (LowBytes d) d (Strict.readCompressed base cfg r) (readCompressed cfg r) := by
  subst hd
  unfold Strict.readCompressed readCompressed
  cases hp : peekByte cfg r with
  | ok x =>
    simp only [Res.ok_bind]
    have hlow : LowBytes r.data → x < 0x80 := fun hl => by
      obtain ⟨b, hb, rfl⟩ := peekByte_mem hp
      exact hl b hb
    have wide : ∀ w v, (LowBytes r.data → False) → Resembles (LowBytes r.data) r.data
        (do let (b, r) ← Strict.blobRead base cfg r w; let v ← usub cfg 32 (beNat b) v; pure (v, r))
        (do let (b, r) ← blobRead cfg r w; let v ← usub cfg 32 (beNat b) v; pure (v, r)) := fun w v hn =>
      Resembles.bind ⟨fun h => (hn h).elim, blobRead_checked, fun _ _ e => blobRead_data e⟩ fun b r' hr' => .same fun a r'' e => by
        obtain ⟨v, -, e⟩ := Res.bind_eq_ok.1 e
        cases e
        exact hr'
    split
    · rename_i hx
      exact wide 4 _ fun hl => by
        have h1 := hlow hl
        have h2 : x &&& 0xc0 ≤ x := Nat.and_le_left
        omega
    · split
      · rename_i hx
        exact wide 2 _ fun hl => by
          have h1 := hlow hl
          have h2 : x &&& 0x80 ≤ x := Nat.and_le_left
          omega
      · exact (readByte_like rfl).bind fun _ _ h => .pure h
  | _ => exact .same fun _ _ e => by cases e

theorem readMany_like {low : Prop} {d : Bytes} {f g : Reader → Res (α × Reader)} (h : ∀ r, r.data = d → Resembles low d (f r) (g r)) :
    ∀ n r, r.data = d → Resembles low d (readMany f n r) (readMany g n r)
  | 0, _, hd => .pure hd
  | n + 1, _, hd => by
    unfold readMany
    exact (h _ hd).bind fun a r hr => (readMany_like h n r hr).bind fun as r' hr' => .pure hr'

theorem readTypeDefOrRef_like {d : Bytes} {r : Reader} (hd : r.data = d) :
    Resembles (LowBytes d) d (Strict.readTypeDefOrRef base cfg r) (readTypeDefOrRef cfg r) := by
  refine (readCompressed_like hd).bind fun v r hr => ?_
  dsimp only
  refine .same ?_
  intro a r' e
  repeat' split at e
  all_goals cases e
  all_goals exact hr

theorem readArrayShape_like {d : Bytes} {r : Reader} (hd : r.data = d) :
    Resembles (LowBytes d) d (Strict.readArrayShape base cfg r) (readArrayShape cfg r) :=
  (readCompressed_like hd).bind fun _ _ h1 => (readCompressed_like h1).bind fun _ _ h2 =>
    (readMany_like (fun _ h => readCompressed_like h) _ _ h2).bind fun _ _ h3 => (readCompressed_like h3).bind fun _ _ h4 =>
    (readMany_like (fun _ h => readCompressed_like h) _ _ h4).bind fun _ _ h5 => .pure h5

theorem readElemF_like {d : Bytes} : ∀ fuel (r : Reader), r.data = d →
    Resembles (LowBytes d) d (Strict.readElemF base cfg fuel r) (readElemF cfg fuel r)
  | 0, _, _ => .same fun _ _ e => by cases e
  | fuel + 1, r, hd => by
    refine (readByte_like hd).bind fun b r h => ?_
    dsimp only
    split
    all_goals first
      | exact .pure h
      | exact .err
      | exact (readElemF_like fuel _ h).bind fun _ _ h => .pure h
      | exact (readTypeDefOrRef_like h).bind fun _ _ h => .pure h
      | exact (readCompressed_like h).bind fun _ _ h => .pure h
      | exact (readElemF_like fuel _ h).bind fun _ _ h => (readArrayShape_like h).bind fun _ _ h => .pure h
      | skip
    · refine (readElemF_like fuel _ h).bind fun _ _ h => ?_
      refine (readCompressed_like h).bind fun _ _ h => ?_
      exact (readMany_like (fun _ h => readElemF_like fuel _ h) _ _ h).bind fun _ _ h => .pure h
    · split
      all_goals first
        | exact .err
        | exact absurd rfl ‹_›

theorem readElem_like {d : Bytes} {r : Reader} (hd : r.data = d) :
    Resembles (LowBytes d) d (Strict.readElem base cfg r) (readElem cfg r) := readElemF_like _ _ hd

theorem readFieldSig_like {d : Bytes} {r : Reader} (hd : r.data = d) :
    Resembles (LowBytes d) d (Strict.readFieldSig base cfg r) (readFieldSig cfg r) := by
  refine (readByte_like hd).bind fun b r h => ?_
  dsimp only
  split
  · exact .err
  · cases hp : peekByte cfg r with
    | ok x =>
      simp only [Res.ok_bind]
      split
      · exact .same fun _ _ e => by cases e
      · exact readElem_like h
    | _ => exact .same fun _ _ e => by cases e

theorem readMethodSig_like {d : Bytes} {r : Reader} (hd : r.data = d) :
    Resembles (LowBytes d) d (Strict.readMethodSig base cfg r) (readMethodSig cfg r) := by
  refine (readByte_like hd).bind fun b r h => ?_
  dsimp only
  split
  · refine (readCompressed_like h).bind fun _ _ h => ?_
    refine (readCompressed_like h).bind fun _ _ h => ?_
    refine (readElem_like h).bind fun _ _ h => ?_
    exact (readMany_like (fun _ h => readElem_like h) _ _ h).bind fun _ _ h => .pure h
  · refine (Resembles.pure h).bind fun _ _ h => ?_
    refine (readCompressed_like h).bind fun _ _ h => ?_
    refine (readElem_like h).bind fun _ _ h => ?_
    exact (readMany_like (fun _ h => readElem_like h) _ _ h).bind fun _ _ h => .pure h

theorem readPropertySig_like {d : Bytes} {r : Reader} (hd : r.data = d) :
    Resembles (LowBytes d) d (Strict.readPropertySig base cfg r) (readPropertySig cfg r) := by
  refine (readByte_like hd).bind fun b r h => ?_
  dsimp only
  split
  · exact .err
  refine (readCompressed_like h).bind fun _ _ h => ?_
  refine (readElem_like h).bind fun _ _ h => ?_
  exact (readMany_like (fun _ h => readElem_like h) _ _ h).bind fun _ _ h => .pure h

theorem readMethodSpec_like {d : Bytes} {r : Reader} (hd : r.data = d) :
    Resembles (LowBytes d) d (Strict.readMethodSpec base cfg r) (readMethodSpec cfg r) := by
  refine (readByte_like hd).bind fun b r h => ?_
  dsimp only
  split
  · exact .err
  refine (readCompressed_like h).bind fun _ _ h => ?_
  exact readMany_like (fun _ h => readElem_like h) _ _ h

theorem readOptCompressed_like {d : Bytes} {r : Reader} (hd : r.data = d) :
    Resembles (LowBytes d) d (Strict.readOptCompressed base cfg r) (readOptCompressed cfg r) := by
  have h := readCompressed_like (base := base) (cfg := cfg) hd
  unfold Strict.readOptCompressed readOptCompressed
  have key : Strict.readCompressed base cfg r = readCompressed cfg r ∨ Strict.readCompressed base cfg r = .ub := by
    by_cases hu : Strict.readCompressed base cfg r = .ub
    · exact .inr hu
    · exact .inl (h.checked hu)
  refine ⟨fun hl => ?_, fun hu => ?_, fun a r' e => ?_⟩
  · rw [h.low hl]; rfl
  · rcases key with k | k
    · rw [k]; rfl
    · rw [k] at hu; exact absurd rfl hu
  · split at e
    · rename_i e'
      cases e
      exact h.keeps _ _ e'
    · cases e; exact hd
    all_goals cases e

theorem readMarshalScalar_like {low : Prop} {d : Bytes} {r : Reader} (hd : r.data = d) :
    Resembles low d (readMarshalScalar cfg r) (readMarshalScalar cfg r) := by
  refine .same fun a r' e => ?_
  unfold readMarshalScalar at e
  obtain ⟨⟨b, r1⟩, h1, e⟩ := Res.bind_eq_ok.1 e
  have h := (readByte_data h1).trans hd
  dsimp only at e
  split at e
  all_goals cases e
  all_goals exact h

theorem readMarshalDesc_like {d : Bytes} {r : Reader} (hd : r.data = d) :
    Resembles (LowBytes d) d (Strict.readMarshalDesc base cfg r) (readMarshalDesc cfg r) := by
  unfold Strict.readMarshalDesc readMarshalDesc
  cases hp : peekByte cfg r with
  | ok x =>
    simp only [Res.ok_bind]
    split
    · refine Resembles.bind (.same fun a r' e => (advance_data e).trans hd) fun _ _ h => ?_
      refine (readMarshalScalar_like h).bind fun _ _ h => ?_
      refine (readOptCompressed_like h).bind fun _ _ h => ?_
      exact (readOptCompressed_like h).bind fun _ _ h => .pure h
    · exact (readMarshalScalar_like hd).bind fun _ _ h => .pure h
  | err m => exact (Resembles.err : Resembles _ _ (.err m) (.err m))
  | panic => exact (Resembles.same (fun _ _ e => by cases e) : Resembles _ _ .panic .panic)
  | ub => exact (Resembles.same (fun _ _ e => by cases e) : Resembles _ _ .ub .ub)
  | timeout => exact (Resembles.same (fun _ _ e => by cases e) : Resembles _ _ .timeout .timeout)

end Clr
