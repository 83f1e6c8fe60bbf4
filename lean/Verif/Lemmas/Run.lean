import Verif.Lemmas.Registry
import Verif.Spec.Registry
/-! # Every loader function performs only primitive registry changes -/

namespace Clr

/-- Started in a consistent registry, `x` performs only primitive changes, and a result satisfies `Q`. -/
def Run (cfg : Cfg) {α : Type} (w : World) (x : M α) (Q : α → World → Prop) : Prop :=
  Inv w → Steps cfg w (x w).2 ∧ ∀ a, (x w).1 = .ok a → Q a (x w).2

namespace Run

variable {cfg : Cfg} {α β : Type} {w : World}

theorem pure {a : α} {Q : α → World → Prop} (h : Q a w) : Run cfg w (Pure.pure a) Q :=
  fun _ => ⟨.refl w, fun _ e => by cases e; exact h⟩

theorem lift {x : Res α} {Q : α → World → Prop} (h : ∀ a, x = .ok a → Q a w) : Run cfg w (M.lift x) Q :=
  fun _ => ⟨.refl w, fun a e => h a e⟩

theorem liftM {x : Res α} {Q : α → World → Prop} (h : ∀ a, x = .ok a → Q a w) : Run cfg w (_root_.liftM x : M α) Q :=
  lift h

theorem view {f : World → Res α} {Q : α → World → Prop} (h : Inv w → ∀ a, f w = .ok a → Q a w) :
    Run cfg w (M.view f) Q :=
  fun hi => ⟨.refl w, fun a e => h hi a e⟩

theorem modify {f : World → World} {Q : Unit → World → Prop} (hu : Upd cfg w (f w)) (h : Q () (f w)) :
    Run cfg w (M.modify f) Q :=
  fun _ => ⟨.single hu, fun _ _ => h⟩

theorem bind {x : M α} {f : α → M β} {Q : α → World → Prop} {R : β → World → Prop} (hx : Run cfg w x Q)
    (hf : ∀ a w1, Steps cfg w w1 → Q a w1 → Run cfg w1 (f a) R) : Run cfg w (x >>= f) R := by
  intro hi
  obtain ⟨hs, hq⟩ := hx hi
  rw [M.bind_run]
  rcases e : x w with ⟨r, w1⟩
  rw [e] at hs hq
  cases r with
  | ok a =>
    have := hf a w1 hs (hq a rfl) (hi.steps hs)
    exact ⟨hs.trans this.1, this.2⟩
  | err m => exact ⟨hs, fun _ h => by simp at h⟩
  | panic => exact ⟨hs, fun _ h => by simp at h⟩
  | ub => exact ⟨hs, fun _ h => by simp at h⟩
  | timeout => exact ⟨hs, fun _ h => by simp at h⟩

/-- A pure step first. -/
theorem liftM_bind {x : Res α} {f : α → M β} {R : β → World → Prop} (h : ∀ a, x = .ok a → Run cfg w (f a) R) :
    Run cfg w ((_root_.liftM x : M α) >>= f) R := by
  intro hi
  rw [M.bind_run, M.liftM_run]
  cases x with
  | ok a => exact h a rfl hi
  | err m => exact ⟨.refl w, fun _ h => by simp at h⟩
  | panic => exact ⟨.refl w, fun _ h => by simp at h⟩
  | ub => exact ⟨.refl w, fun _ h => by simp at h⟩
  | timeout => exact ⟨.refl w, fun _ h => by simp at h⟩

/-- A read of the registry first. -/
theorem view_bind {g : World → Res α} {f : α → M β} {R : β → World → Prop}
    (h : Inv w → ∀ a, g w = .ok a → Run cfg w (f a) R) : Run cfg w (M.view g >>= f) R := by
  intro hi
  exact (bind (Q := fun a w1 => w1 = w ∧ g w = .ok a) (view fun _ a e => ⟨rfl, e⟩)
    fun a w1 _ hq => by obtain ⟨rfl, e⟩ := hq; exact h hi a e) hi

theorem conseq {x : M α} {Q R : α → World → Prop} (h : Run cfg w x Q) (hq : ∀ a w1, Steps cfg w w1 → Q a w1 → R a w1) :
    Run cfg w x R := by
  intro hi
  obtain ⟨h1, h2⟩ := h hi
  exact ⟨h1, fun a e => hq a _ h1 (h2 a e)⟩

theorem trivial {x : M α} {Q : α → World → Prop} (h : Run cfg w x Q) : Run cfg w x fun _ _ => True :=
  h.conseq fun _ _ _ _ => True.intro

/-- What is proved of every result of code starting in a consistent registry. -/
theorem of_ok {x : M α} {Q : α → World → Prop} {a : α} {w' : World} (h : Run cfg w x Q) (hi : Inv w)
    (e : x w = (.ok a, w')) : Steps cfg w w' ∧ Q a w' := by
  obtain ⟨h1, h2⟩ := h hi
  rw [e] at h1 h2
  exact ⟨h1, h2 a rfl⟩

end Run

/-- The result is a registered type. -/
abbrev InRange : Nat → World → Prop := fun t w => t < w.types.length

theorem ofOption_eq_ok {α : Type} {m : String} {x : Option α} {a : α} : Res.ofOption m x = .ok a ↔ x = some a := by
  cases x <;> simp [Res.ofOption]

theorem unwrap_eq_ok {α : Type} {x : Option α} {a : α} : Res.unwrap x = .ok a ↔ x = some a := by
  cases x <;> simp [Res.unwrap]

theorem typeAt_eq_ok {w : World} {t : Nat} {tr : TypeRec} : w.typeAt t = .ok tr ↔ w.types[t]? = some tr := unwrap_eq_ok

variable {cfg : Cfg} {w : World} {m : Metadata}

theorem getTypeUnwrap_run (n : String) : Run cfg w (getTypeUnwrap n) InRange :=
  Run.view fun hi _ e => hi.getType_lt (unwrap_eq_ok.mp e)

theorem namedType_run (h : TypeDefOrRef) : Run cfg w (namedType cfg m h) InRange := by
  unfold namedType
  refine Run.liftM_bind fun _ _ => Run.liftM_bind fun _ _ => ?_
  exact Run.view fun hi _ e => hi.getType_lt (ofOption_eq_ok.mp e)

theorem nextTypeId_eq {n : Nat} (h : uadd cfg 32 w.nextTypeId 1 = .ok n) :
    nextTypeId cfg w = (.ok w.nextTypeId, { w with nextTypeId := n }) := by
  unfold nextTypeId
  rw [M.get_bind, M.liftM_bind_ok h, M.modify_bind]; rfl

theorem nextTypeId_fail (h : ∀ n, uadd cfg 32 w.nextTypeId 1 ≠ .ok n) : nextTypeId cfg w = (.panic, w) := by
  unfold nextTypeId
  rw [M.get_bind, M.bind_run, M.liftM_run]
  have : uadd cfg 32 w.nextTypeId 1 = .panic := by
    unfold uadd at *
    split
    · rename_i hh; exact absurd (by simp [hh]) (h (w.nextTypeId + 1))
    · split
      · rfl
      · rename_i h1 h2; exact absurd (by simp [h1, h2]) (h ((w.nextTypeId + 1) % 2 ^ 32))
  rw [this]

/-- Taking an id and registering a type with it. -/
theorem register_run {f : Nat → Nat → M Nat} {rec : Nat → TypeRec}
    (hf : ∀ id t, f id t = (do M.modify (·.addType (rec id)); pure t))
    (hid : ∀ id, (rec id).id = id) (hb : ∀ id b, (rec id).base = some b → b < w.types.length)
    (h1 : ∀ id, (rec id).fields = []) (h2 : ∀ id, (rec id).methods = []) (h3 : ∀ id, (rec id).interfaces = []) :
    Run cfg w (do
      let id ← nextTypeId cfg
      let t ← M.view fun w => .ok w.types.length
      f id t) (fun t w' => t = w.types.length ∧ w'.types = w.types ++ [rec w.nextTypeId]) := by
  intro _
  by_cases h : ∃ n, uadd cfg 32 w.nextTypeId 1 = .ok n
  · obtain ⟨n, hn⟩ := h
    rw [M.bind_ok (nextTypeId_eq hn), M.get_bind, hf, M.modify_bind]
    refine ⟨.single (.register w _ n (hid _) hn (hb _) (h1 _) (h2 _) (h3 _)), fun a e => ?_⟩
    simp only [M.pure_run, Res.ok.injEq] at e
    exact ⟨e.symm, rfl⟩
  · have := nextTypeId_fail (w := w) (cfg := cfg) (by simpa using h)
    rw [M.bind_run, this]
    exact ⟨.refl _, fun _ h => by simp at h⟩

theorem arrayType_run (element : Nat) : Run cfg w (arrayType cfg element) InRange := by
  unfold arrayType
  refine Run.view_bind fun hi e he => Run.view_bind fun _ o ho => ?_
  cases o with
  | some t =>
    simp only [Res.ok.injEq] at ho
    exact Run.pure (hi.getType_lt ho)
  | none =>
    have hswap : (do
        let id ← nextTypeId cfg
        let base ← M.view fun w => .ok (w.getType "System.Array".toList)
        let t ← M.view fun w => .ok w.types.length
        M.modify (·.addType { id, name := e.name ++ "[]".toList, nspace := e.nspace, fullName := e.fullName ++ "[]".toList,
                              assembly := e.assembly, isAbstract := false, kind := some .array, base })
        pure t : M Nat) w = (do
        let id ← nextTypeId cfg
        let t ← M.view fun w => .ok w.types.length
        M.modify (·.addType { id, name := e.name ++ "[]".toList, nspace := e.nspace, fullName := e.fullName ++ "[]".toList,
                              assembly := e.assembly, isAbstract := false, kind := some .array,
                              base := w.getType "System.Array".toList })
        pure t : M Nat) w := by
      by_cases h : ∃ n, uadd cfg 32 w.nextTypeId 1 = .ok n
      · obtain ⟨n, hn⟩ := h
        rw [M.bind_ok (nextTypeId_eq hn), M.bind_ok (nextTypeId_eq hn)]; rfl
      · have := nextTypeId_fail (w := w) (cfg := cfg) (by simpa using h)
        rw [M.bind_run, this, M.bind_run, this]
    have h := register_run (cfg := cfg) (w := w) (f := fun id t => (do
        M.modify (·.addType { id, name := e.name ++ "[]".toList, nspace := e.nspace, fullName := e.fullName ++ "[]".toList,
                              assembly := e.assembly, isAbstract := false, kind := some .array,
                              base := w.getType "System.Array".toList })
        pure t)) (fun _ _ => rfl) (fun _ => rfl) (fun _ b hb => hi.getType_lt hb) (fun _ => rfl) (fun _ => rfl) (fun _ => rfl)
    intro hi'
    show Steps cfg w _ ∧ _
    dsimp only
    rw [hswap]
    obtain ⟨h1, h2⟩ := h hi'
    refine ⟨h1, fun a ha => ?_⟩
    obtain ⟨rfl, e2⟩ := h2 a ha
    show w.types.length < List.length _
    rw [e2]; simp

theorem typeFor_run (e : ElementType) : ∀ w, Run cfg w (typeFor cfg m e) InRange := by
  have hp : ∀ (w : World) (x : Res Nat), (∀ a, x ≠ .ok a) → Run cfg w (M.lift x) InRange :=
    fun w x h => Run.lift fun a e => absurd e (h a)
  induction e using ElementType.rec (motive_2 := fun _ => True) with
  | szArray e ih =>
    intro w
    unfold typeFor
    exact (ih w).bind fun t w1 _ _ => arrayType_run t
  | valueType h => intro w; unfold typeFor; exact namedType_run h
  | «class» h => intro w; unfold typeFor; exact namedType_run h
  | _ => first
    | exact True.intro
    | (intros; trivial)
    | (intro w; unfold typeFor; exact getTypeUnwrap_run _)
    | (intro w; unfold typeFor; exact hp w _ (by simp))
    | (intros; unfold typeFor; exact hp _ _ (by simp))

theorem InRange.mono {t : Nat} {w w' : World} (h : InRange t w) (hs : Steps cfg w w') : InRange t w' :=
  Nat.lt_of_lt_of_le h hs.le

theorem catchType_run (token : Token) : Run cfg w (catchType cfg m token) InRange := by
  unfold catchType
  refine Run.liftM_bind fun ⟨n, ns⟩ _ => Run.liftM_bind fun _ _ => Run.liftM_bind fun _ _ => Run.liftM_bind fun _ _ =>
    Run.liftM_bind fun _ _ => ?_
  exact Run.view fun hi _ e => hi.getType_lt (ofOption_eq_ok.mp e)

/-- A decoded clause's catch type is registered. -/
abbrev ClauseIn (c : ExceptionClause) (w : World) : Prop := ∀ t, c.catchType = some t → t < w.types.length

theorem newClause_run (ty : ClauseType) (a b c d token : Nat) : Run cfg w (newClause cfg m ty a b c d token) ClauseIn := by
  have other : ∀ (f : Option Nat), Run cfg w (pure ⟨ty, a, b, c, d, none, f⟩) ClauseIn :=
    fun f => Run.pure fun t h => by simp at h
  unfold newClause
  cases ty with
  | catches =>
    refine Run.bind (Q := fun o w => ∀ t, o = some t → InRange t w) ?_ fun o w1 _ h => Run.pure h
    exact (catchType_run ⟨token⟩).bind fun t w1 _ h => Run.pure fun t' e => by cases e; exact h
  | filters => exact other _
  | finallys => exact other _
  | faults => exact other _

theorem readFatClause_run (r : Reader) : Run cfg w (readFatClause cfg m r) fun x w => ClauseIn x.1 w := by
  unfold readFatClause
  refine Run.liftM_bind fun ⟨_, _⟩ _ => Run.liftM_bind fun _ _ => Run.liftM_bind fun ⟨_, _⟩ _ =>
    Run.liftM_bind fun ⟨_, _⟩ _ => Run.liftM_bind fun ⟨_, _⟩ _ => Run.liftM_bind fun ⟨_, _⟩ _ =>
    Run.liftM_bind fun ⟨_, _⟩ _ => ?_
  exact (newClause_run _ _ _ _ _ _).bind fun c w1 _ h => Run.pure h

theorem readSmallClause_run (r : Reader) : Run cfg w (readSmallClause cfg m r) fun x w => ClauseIn x.1 w := by
  unfold readSmallClause
  refine Run.liftM_bind fun ⟨_, _⟩ _ => Run.liftM_bind fun _ _ => Run.liftM_bind fun ⟨_, _⟩ _ =>
    Run.liftM_bind fun ⟨_, _⟩ _ => Run.liftM_bind fun ⟨_, _⟩ _ => Run.liftM_bind fun ⟨_, _⟩ _ =>
    Run.liftM_bind fun ⟨_, _⟩ _ => ?_
  exact (newClause_run _ _ _ _ _ _).bind fun c w1 _ h => Run.pure h

abbrev ClausesIn (cs : List ExceptionClause) (w : World) : Prop := ∀ c ∈ cs, ClauseIn c w

theorem readClauses_run {f : Reader → M (ExceptionClause × Reader)}
    (hf : ∀ w r, Run cfg w (f r) fun x w => ClauseIn x.1 w) (n : Nat) :
    ∀ w r, Run cfg w (readClauses f n r) ClausesIn := by
  induction n with
  | zero => intro w r; exact Run.pure (by simp [ClausesIn])
  | succ n ih =>
    intro w r
    unfold readClauses
    refine (hf w r).bind fun ⟨c, r'⟩ w1 h1 hc => ?_
    refine (ih w1 r').bind fun cs w2 h2 hcs => Run.pure ?_
    intro x hx
    rcases List.mem_cons.mp hx with rfl | hx
    · exact fun t ht => Nat.lt_of_lt_of_le (hc t ht) h2.le
    · exact hcs x hx

theorem readClauseSection_run (r : Reader) : Run cfg w (readClauseSection cfg m r) ClausesIn := by
  unfold readClauseSection
  refine Run.liftM_bind fun ⟨next, _⟩ _ => ?_
  dsimp only
  split
  · exact Run.lift fun _ e => by simp at e
  · refine Run.liftM_bind fun ⟨_, _⟩ _ => ?_
    dsimp only
    split
    · exact Run.liftM_bind fun ⟨_, _⟩ _ => readClauses_run (fun _ r => readFatClause_run r) _ _ _
    · exact Run.liftM_bind fun ⟨_, _⟩ _ => readClauses_run (fun _ r => readSmallClause_run r) _ _ _

abbrev TypesIn (ts : List Nat) (w : World) : Prop := ∀ t ∈ ts, t < w.types.length

theorem TypesIn.cons {t : Nat} {ts : List Nat} {w1 w2 : World} (h : InRange t w1) (hs : Steps cfg w1 w2) (h' : TypesIn ts w2) :
    TypesIn (t :: ts) w2 := by
  intro x hx
  rcases List.mem_cons.mp hx with rfl | hx
  · exact h.mono hs
  · exact h' x hx

theorem readLocalTypes_run (n : Nat) : ∀ w r, Run cfg w (readLocalTypes cfg m n r) TypesIn := by
  induction n with
  | zero => intro w r; exact Run.pure (by simp [TypesIn])
  | succ n ih =>
    intro w r
    unfold readLocalTypes
    refine Run.liftM_bind fun ⟨e, r'⟩ _ => ?_
    exact (typeFor_run e w).bind fun t w1 _ ht => (ih w1 r').bind fun ts w2 h2 hts => Run.pure (TypesIn.cons ht h2 hts)

theorem readLocals_run (token : Token) : Run cfg w (readLocals cfg m token) TypesIn := by
  unfold readLocals
  split
  · exact Run.pure (by simp [TypesIn])
  · refine Run.liftM_bind fun _ _ => Run.liftM_bind fun _ _ => Run.liftM_bind fun ⟨b, _⟩ _ => ?_
    dsimp only
    split
    · exact Run.lift fun _ e => by simp at e
    · exact Run.liftM_bind fun ⟨_, _⟩ _ => readLocalTypes_run _ _ _

/-- A decoded body mentions registered types only. -/
abbrev BodyIn (b : MethodBody) (w : World) : Prop := TypesIn b.locals w ∧ ClausesIn b.clauses w

theorem loadBody_run (rva : Nat) : Run cfg w (loadBody cfg m rva) BodyIn := by
  unfold loadBody
  refine Run.liftM_bind fun _ _ => Run.liftM_bind fun _ _ => Run.liftM_bind fun ⟨b, r⟩ _ => ?_
  dsimp only
  split
  · exact Run.liftM_bind fun ⟨_, _⟩ _ => Run.pure ⟨by simp [TypesIn], by simp [ClausesIn]⟩
  · split
    · refine Run.liftM_bind fun ⟨_, _⟩ _ => Run.liftM_bind fun ⟨_, _⟩ _ => Run.liftM_bind fun ⟨_, _⟩ _ =>
        Run.liftM_bind fun ⟨_, _⟩ _ => ?_
      refine (readLocals_run _).bind fun ls w1 _ hl => Run.liftM_bind fun ⟨_, _⟩ _ => ?_
      refine Run.bind (Q := ClausesIn) ?_ fun cs w2 h2 hc => Run.pure ⟨fun t ht => Nat.lt_of_lt_of_le (hl t ht) h2.le, hc⟩
      unfold readMoreSections
      split
      · exact readClauseSection_run _
      · exact Run.pure (by simp [ClausesIn])
    · exact Run.lift fun _ e => by simp at e

theorem loadType_run (assembly i : Nat) : Run cfg w (loadType cfg assembly i m) fun t w' =>
    t = w.types.length ∧ ∃ row name nspace, tableIndex cfg m.tables.typeDef (i + 1) = .ok row ∧
      m.string! row.name = .ok name ∧ m.string! row.nspace = .ok nspace ∧
      w'.types = w.types ++ [{ id := w.nextTypeId, name, nspace, fullName := fullName nspace name, assembly,
                               isAbstract := row.attributes.isAbstract }] := by
  unfold loadType
  refine Run.liftM_bind fun row h1 => Run.liftM_bind fun name h2 => Run.liftM_bind fun nspace h3 => ?_
  have h := register_run (cfg := cfg) (w := w) (f := fun id t => (do
    M.modify (·.addType { id, name, nspace, fullName := fullName nspace name, assembly,
                          isAbstract := row.attributes.isAbstract })
    pure t)) (fun _ _ => rfl) (fun _ => rfl) (fun _ b hb => by simp at hb) (fun _ => rfl) (fun _ => rfl) (fun _ => rfl)
  exact h.conseq fun t w1 _ ⟨h4, h5⟩ => ⟨h4, row, name, nspace, h1, h2, h3, h5⟩

theorem resolveBase_run (t i : Nat) : Run cfg w (resolveBase cfg m t i) fun _ _ => True := by
  unfold resolveBase
  refine Run.liftM_bind fun row _ => ?_
  split
  · exact Run.pure True.intro
  · refine Run.liftM_bind fun n _ => Run.view_bind fun hi b hb => Run.modify (.base w t b ?_) True.intro
    have := ofOption_eq_ok.mp hb
    cases n with
    | none => simp at this
    | some n => exact hi.getType_lt this

theorem resolveKind_run (t i : Nat) : Run cfg w (resolveKind cfg m t i) fun _ _ => True := by
  unfold resolveKind
  exact Run.liftM_bind fun row _ => Run.view_bind fun _ b _ => Run.modify (.kind w t _) True.intro

/-- What is known of the field loaded from row `i` for type `t`. -/
structure FieldRowIs (cfg : Cfg) (m : Metadata) (t i : Nat) (f : FieldRec) : Prop where
  declaring : f.declaringType = t
  row : ∃ row, tableIndex cfg m.tables.field i = .ok row ∧ m.string! row.name = .ok f.name ∧
    f.isStatic = row.attributes.isStatic ∧ ∃ r e r', blobHeapReader cfg m.blobHeap row.signature = .ok r ∧
      readFieldSig cfg r = .ok (e, r') ∧ ∃ w w', typeFor cfg m e w = (.ok f.fieldType, w')

theorem loadField_run (t i offset : Nat) : Run cfg w (loadField cfg m t i offset) fun f w' =>
    f.fieldType < w'.types.length ∧ f.offset = offset ∧ FieldRowIs cfg m t i f := by
  unfold loadField
  refine Run.liftM_bind fun row h1 => Run.liftM_bind fun name h2 => Run.liftM_bind fun r h3 =>
    Run.liftM_bind fun ⟨e, r'⟩ h4 => fun hi => ?_
  have h := typeFor_run (cfg := cfg) (m := m) e w hi
  dsimp only
  rw [M.bind_run]
  rcases hx : typeFor cfg m e w with ⟨x, w1⟩
  rw [hx] at h
  cases x with
  | ok ft =>
    refine ⟨h.1, fun a ha => ?_⟩
    cases ha
    exact ⟨h.2 ft rfl, rfl, rfl, row, h1, h2, rfl, r, e, r', h3, h4, w, w1, hx⟩
  | _ => exact ⟨h.1, fun _ ha => by simp at ha⟩

theorem loadFields_run (fuel t n : Nat) : ∀ w i offset, Run cfg w (loadFields cfg fuel m t n i offset) fun _ _ => True := by
  induction n with
  | zero => intro w i o; exact Run.pure True.intro
  | succ n ih =>
    intro w i o
    unfold loadFields
    refine (loadField_run t i o).bind fun f w1 _ h => ?_
    refine Run.bind (Q := fun _ _ => True) (Run.modify (.field w1 t f h.1 h.2.2.declaring) True.intro) fun _ w2 _ _ => ?_
    refine Run.view_bind fun _ s _ => Run.liftM_bind fun o' _ => ?_
    exact (ih w2 (i + 1) o').bind fun _ _ _ _ => Run.pure True.intro

theorem resolveFields_run (fuel t i : Nat) : Run cfg w (resolveFields cfg fuel m t i) fun _ _ => True := by
  unfold resolveFields
  exact Run.liftM_bind fun ⟨_, _⟩ _ => Run.liftM_bind fun _ _ => Run.liftM_bind fun _ _ =>
    Run.view_bind fun _ _ _ => loadFields_run _ _ _ _ _ _

theorem paramNames_run (es : List ElementType) : ∀ w, Run cfg w (paramNames cfg m es) fun _ _ => True := by
  induction es with
  | nil => intro w; exact Run.pure True.intro
  | cons e es ih =>
    intro w
    unfold paramNames
    refine Run.bind (Q := fun _ _ => True) ?_ fun t w1 _ _ =>
      Run.view_bind fun _ _ _ => (ih w1).bind fun _ _ _ _ => Run.pure True.intro
    intro hi
    have h := (typeFor_run (cfg := cfg) (m := m) e w) hi
    dsimp only
    rcases hx : typeFor cfg m e w with ⟨r, w1⟩
    rw [hx] at h
    cases r <;> exact ⟨h.1, fun _ _ => True.intro⟩

/-- An implementation mentions registered types only. -/
abbrev ImplIn (x : MethodImpl) (w : World) : Prop := ∀ b, x = .il b → BodyIn b w

theorem loadImpl_run (t : Nat) (row : MethodDefRow) (name : Name) (sig : MethodSig) :
    Run cfg w (loadImpl cfg m t row name sig) ImplIn := by
  unfold loadImpl
  split
  · refine (paramNames_run _ w).bind fun ps w1 _ _ => (typeFor_run _ w1).bind fun ret w2 _ _ => ?_
    refine Run.view_bind fun _ _ _ => Run.view_bind fun _ _ _ => Run.liftM_bind fun f _ => Run.pure ?_
    intro b e; simp at e
  · split
    · exact Run.lift fun _ e => by simp at e
    · split
      · exact Run.pure fun b e => by simp at e
      · exact (loadBody_run _).bind fun b w1 _ h => Run.pure fun b' e => by cases e; exact h

abbrev ParamsIn (ps : List ParamRec) (w : World) : Prop := ∀ p ∈ ps, p.paramType < w.types.length

theorem loadParams_run (es : List ElementType) : ∀ w i, Run cfg w (loadParams cfg m es i) ParamsIn := by
  induction es with
  | nil => intro w i; exact Run.pure (by simp [ParamsIn])
  | cons e es ih =>
    intro w i
    unfold loadParams
    refine Run.liftM_bind fun row _ => Run.liftM_bind fun name _ => (typeFor_run e w).bind fun t w1 _ ht => ?_
    refine (ih w1 (i + 1)).bind fun ps w2 h2 hps => Run.pure ?_
    intro p hp
    rcases List.mem_cons.mp hp with rfl | hp
    · exact ht.mono h2
    · exact hps p hp

/-- What is known of the method loaded from row `i` for type `t`. -/
structure MethodRowIs (cfg : Cfg) (m : Metadata) (t i : Nat) (x : MethodRec) : Prop where
  declaring : x.declaringType = t
  row : ∃ row, tableIndex cfg m.tables.methodDef i = .ok row ∧ m.string! row.name = .ok x.name ∧
    x.isStatic = row.attributes.isStatic ∧ x.isVirtual = row.attributes.isVirtual ∧ x.isAbstract = row.attributes.isAbstract ∧
    ∃ r sig r', blobHeapReader cfg m.blobHeap row.signature = .ok r ∧ readMethodSig cfg r = .ok (sig, r') ∧
      x.params.length = sig.params.length ∧
      (∃ w w', loadImpl cfg m t row x.name sig w = (.ok x.impl, w')) ∧
      (∃ w w', typeFor cfg m sig.returnType w = (.ok x.returnType, w')) ∧
      (∃ w w', loadParams cfg m sig.params row.paramList w = (.ok x.params, w'))

theorem loadParams_length (es : List ElementType) : ∀ (w : World) (i : Nat), Run cfg w (loadParams cfg m es i)
    fun ps w => ParamsIn ps w ∧ ps.length = es.length := by
  induction es with
  | nil => intro w i; exact Run.pure ⟨by simp [ParamsIn], rfl⟩
  | cons e es ih =>
    intro w i
    unfold loadParams
    refine Run.liftM_bind fun row _ => Run.liftM_bind fun name _ => (typeFor_run e w).bind fun t w1 _ ht => ?_
    refine (ih w1 (i + 1)).bind fun ps w2 h2 hps => Run.pure ⟨?_, by simp [hps.2]⟩
    intro p hp
    rcases List.mem_cons.mp hp with rfl | hp
    · exact ht.mono h2
    · exact hps.1 p hp

/-- Remember the call that produced a result. -/
theorem Run.called {α : Type} {x : M α} {Q : α → World → Prop} (h : Run cfg w x Q) :
    Run cfg w x fun a w' => Q a w' ∧ x w = (.ok a, w') :=
  fun hi => ⟨(h hi).1, fun a e => ⟨(h hi).2 a e, by rw [← e]⟩⟩

theorem loadMethod_run (t i : Nat) : Run cfg w (loadMethod cfg m t i) fun x w' =>
    MethodIn w'.types.length x ∧ MethodRowIs cfg m t i x := by
  unfold loadMethod
  refine Run.liftM_bind fun row h1 => Run.liftM_bind fun name h2 => Run.liftM_bind fun r h3 =>
    Run.liftM_bind fun ⟨sig, r'⟩ h4 => ?_
  refine (loadImpl_run t row name sig).called.bind fun impl w1 _ ⟨himpl, c1⟩ =>
    (typeFor_run _ w1).called.bind fun ret w2 s2 ⟨hret, c2⟩ => ?_
  refine (loadParams_length _ w2 _).called.bind fun ps w3 s3 ⟨hps, c3⟩ => Run.pure ⟨⟨hret.mono s3, hps.1, ?_, ?_⟩, rfl, row, h1,
    h2, rfl, rfl, rfl, r, sig, r', h3, h4, hps.2, ⟨_, _, c1⟩, ⟨_, _, c2⟩, ⟨_, _, c3⟩⟩
  · intro b e t ht
    exact Nat.lt_of_lt_of_le ((himpl b e).1 t ht) (Nat.le_trans s2.le s3.le)
  · intro b e c hc t ht
    exact Nat.lt_of_lt_of_le ((himpl b e).2 c hc t ht) (Nat.le_trans s2.le s3.le)

theorem loadMethods_run (t n : Nat) : ∀ w i, Run cfg w (loadMethods cfg m t n i) fun _ _ => True := by
  induction n with
  | zero => intro w i; exact Run.pure True.intro
  | succ n ih =>
    intro w i
    unfold loadMethods
    refine (loadMethod_run t i).bind fun x w1 _ h => ?_
    exact Run.bind (Q := fun _ _ => True) (Run.modify (.method w1 t x h.1 h.2.declaring) True.intro) fun _ w2 _ _ => ih w2 (i + 1)

theorem resolveMethods_run (t i : Nat) : Run cfg w (resolveMethods cfg m t i) fun _ _ => True := by
  unfold resolveMethods
  exact Run.liftM_bind fun ⟨_, _⟩ _ => Run.liftM_bind fun _ _ => Run.liftM_bind fun _ _ => loadMethods_run _ _ _ _

theorem resolveType_run (fuel t i : Nat) : Run cfg w (resolveType cfg fuel m t i) fun _ _ => True := by
  unfold resolveType
  exact (resolveBase_run t i).bind fun _ w1 _ _ => (resolveKind_run t i).bind fun _ w2 _ _ =>
    (resolveFields_run fuel t i).bind fun _ w3 _ _ => (resolveMethods_run t i).bind fun _ _ _ _ => Run.pure True.intro

theorem loadTypes_run (assembly n : Nat) : ∀ w i, Run cfg w (loadTypes cfg assembly m n i) fun ts w' =>
    ts = List.range' w.types.length n ∧ w'.types.length = w.types.length + n := by
  induction n with
  | zero => intro w i; exact Run.pure ⟨rfl, rfl⟩
  | succ n ih =>
    intro w i
    unfold loadTypes
    refine (loadType_run assembly i).bind fun t w1 _ ⟨h1, _, _, _, _, _, _, h2⟩ => ?_
    refine (ih w1 (i + 1)).bind fun ts w2 _ ⟨h3, h4⟩ => Run.pure ?_
    have hl : w1.types.length = w.types.length + 1 := by rw [h2]; simp
    rw [hl] at h3 h4
    exact ⟨by rw [h1, h3]; rfl, by omega⟩

theorem resolveTypes_run (fuel : Nat) (ts : List Nat) : ∀ w i, Run cfg w (resolveTypes cfg fuel m ts i) fun _ _ => True := by
  induction ts with
  | nil => intro w i; exact Run.pure True.intro
  | cons t ts ih =>
    intro w i
    unfold resolveTypes
    exact (resolveType_run fuel t i).bind fun _ w1 _ _ => (ih w1 (i + 1)).bind fun _ _ _ _ => Run.pure True.intro

theorem lookupRow_run (name nspace : Nat) : Run cfg w (lookupRow m name nspace) fun o w' =>
    w' = w ∧ ∃ n ns, m.string! name = .ok n ∧ m.string! nspace = .ok ns ∧ w.getType (fullName ns n) = o := by
  unfold lookupRow
  exact Run.liftM_bind fun n h1 => Run.liftM_bind fun ns h2 => Run.view fun hi o e =>
    ⟨rfl, n, ns, h1, h2, by cases e; rfl⟩

theorem loadInterface_run (row : InterfaceImplRow) : Run cfg w (loadInterface cfg m row) fun _ _ => True := by
  unfold loadInterface
  refine Run.liftM_bind fun _ _ => (lookupRow_run _ _).bind fun o w1 _ _ => Run.liftM_bind fun t _ =>
    Run.liftM_bind fun ⟨_, _⟩ _ => ?_
  refine (lookupRow_run _ _).bind fun o w2 _ ⟨e, n, ns, _, _, h⟩ => Run.liftM_bind fun i hi => ?_
  subst e
  intro hinv
  rw [unwrap_eq_ok.mp hi] at h
  exact (Run.modify (.iface w2 t i (hinv.getType_lt h)) True.intro : Run cfg w2 _ fun _ _ => True) hinv

theorem loadInterfaces_run (rows : List InterfaceImplRow) : ∀ w, Run cfg w (loadInterfaces cfg m rows) fun _ _ => True := by
  induction rows with
  | nil => intro w; exact Run.pure True.intro
  | cons row rows ih =>
    intro w
    unfold loadInterfaces
    exact (loadInterface_run row).bind fun _ w1 _ _ => ih w1

theorem loadMemberRef_run (row : MemberRefRow) : Run cfg w (loadMemberRef cfg m row) fun o w' =>
    w' = w ∧ (row.parent.table ≠ .typeRef → o = none) ∧ (row.parent.table = .typeRef → ∃ tr n ns t rec name x, o = some x ∧
      tableIndex cfg m.tables.typeRef row.parent.row = .ok tr ∧ m.string! tr.name = .ok n ∧ m.string! tr.nspace = .ok ns ∧
      w.getType (fullName ns n) = some t ∧ w.types[t]? = some rec ∧ m.string row.name = .ok (some name) ∧
      rec.getMethod name = some x) := by
  unfold loadMemberRef
  split
  · rename_i htab
    refine Run.liftM_bind fun tr h1 => (lookupRow_run _ _).bind fun o w1 _ ⟨e, n, ns, h2, h3, h4⟩ => ?_
    subst e
    refine Run.liftM_bind fun t h5 => Run.liftM_bind fun nm h6 => Run.liftM_bind fun name h7 =>
      Run.view_bind fun _ rec h8 => Run.liftM_bind fun x h9 => Run.pure ⟨rfl, fun h => absurd htab h, fun _ => ?_⟩
    rw [ofOption_eq_ok] at h5 h7 h9
    rw [h5] at h4; rw [h7] at h6
    exact ⟨tr, n, ns, t, rec, name, x, rfl, h1, h2, h3, h4, typeAt_eq_ok.mp h8, h6, h9⟩
  · rename_i htab
    exact Run.pure ⟨rfl, fun _ => rfl, fun h => absurd h htab⟩

theorem loadMemberRefs_run (rows : List MemberRefRow) : Run cfg w (loadMemberRefs cfg m rows) fun _ w' => w' = w := by
  induction rows with
  | nil => exact Run.pure rfl
  | cons row rows ih =>
    unfold loadMemberRefs
    exact (loadMemberRef_run row).bind fun _ w1 _ ⟨e, _⟩ => by subst e; exact ih.bind fun _ _ _ e => Run.pure e

theorem loadTypeRefs_run (rows : List TypeRefRow) : Run cfg w (loadTypeRefs m rows) fun ts w' =>
    w' = w ∧ ts.length = rows.length ∧ ∀ (k : Nat) row, rows[k]? = some row → ∃ n ns t, ts[k]? = some t ∧
      m.string! row.name = .ok n ∧ m.string! row.nspace = .ok ns ∧ w.getType (fullName ns n) = some t := by
  induction rows with
  | nil => exact Run.pure ⟨rfl, rfl, by simp⟩
  | cons row rows ih =>
    unfold loadTypeRefs
    refine (lookupRow_run _ _).bind fun o w1 _ ⟨e, n, ns, h1, h2, h3⟩ => ?_
    subst e
    refine Run.liftM_bind fun t h4 => ih.bind fun ts w2 _ ⟨e, h5, h6⟩ => Run.pure ⟨e, by simp [h5], ?_⟩
    rw [ofOption_eq_ok] at h4
    rw [h4] at h3
    intro k row' hk
    cases k with
    | zero => simp at hk; subst hk; exact ⟨n, ns, t, rfl, h1, h2, h3⟩
    | succ k => simpa using h6 k row' (by simpa using hk)

theorem loadSelf_run (fuel : Nat) (name : Name) : Run cfg w (loadSelf cfg fuel m name) fun _ _ => True := by
  unfold loadSelf
  refine (loadMemberRefs_run _).bind fun _ w1 _ _ => (loadTypeRefs_run _).bind fun _ w2 _ _ =>
    Run.view_bind fun _ id hid => Run.bind (Q := fun _ w3 => id < w3.nextAssembly)
      (Run.modify (.assemblyId w2) (by cases hid; exact Nat.lt_succ_self _)) fun _ w3 _ h3 => ?_
  refine (loadTypes_run _ _ w3 _).bind fun ts w4 s4 _ => (resolveTypes_run _ _ w4 _).bind fun _ w5 s5 _ =>
    (loadInterfaces_run _ w5).bind fun _ w6 s6 _ => Run.view_bind fun _ _ _ => Run.liftM_bind fun _ _ => ?_
  exact Run.bind (Q := fun _ _ => True) (Run.modify (.assembly w6 _
    (Nat.lt_of_lt_of_le h3 ((s4.trans s5).trans s6).nextAssembly_le)) True.intro) fun _ _ _ _ => Run.pure True.intro

theorem loadRefs_run {load : Name → M AssemblyRec} (hl : ∀ n w, Run cfg w (load n) fun _ _ => True)
    (rows : List AssemblyRefRow) : ∀ w, Run cfg w (loadRefs load m rows) fun _ _ => True := by
  induction rows with
  | nil => intro w; exact Run.pure True.intro
  | cons row rows ih =>
    intro w
    unfold loadRefs
    refine Run.liftM_bind fun _ _ => Run.liftM_bind fun n _ => Run.view_bind fun _ b _ => ?_
    split
    · exact ih w
    · exact (hl n w).bind fun _ w1 _ _ => ih w1

theorem loadData_run (fs : Name → Option Bytes) (depth : Nat) : ∀ fuel data w,
    Run cfg w (loadData cfg fs depth fuel data) fun _ _ => True := by
  induction depth with
  | zero => intro fuel data w; exact Run.lift fun _ e => by simp at e
  | succ d ih =>
    intro fuel data w
    unfold loadData
    refine Run.liftM_bind fun m _ => Run.liftM_bind fun _ _ => Run.liftM_bind fun _ _ => ?_
    refine (loadRefs_run (fun n w => ?_) _ w).bind fun _ _ _ _ => loadSelf_run _ _
    exact Run.liftM_bind fun d _ => ih _ _ _

theorem loadAssembly_run (fs : Name → Option Bytes) (depth fuel : Nat) (n : Name) (w : World) :
    Run cfg w (loadAssembly cfg fs depth fuel n) fun _ _ => True := by
  unfold loadAssembly
  exact Run.liftM_bind fun d _ => loadData_run _ _ _ _ _

theorem loadPrimitives_run (w : World) : Run cfg w loadPrimitives fun _ w' => ∃ p, w'.primitives = some p := by
  unfold loadPrimitives getTypeUnwrap
  refine Run.view_bind fun hi _ h0 => ?_
  refine Run.view_bind fun _ _ h1 => ?_
  refine Run.view_bind fun _ _ h2 => ?_
  refine Run.view_bind fun _ _ h3 => ?_
  refine Run.view_bind fun _ _ h4 => ?_
  refine Run.view_bind fun _ _ h5 => ?_
  refine Run.view_bind fun _ _ h6 => ?_
  refine Run.view_bind fun _ _ h7 => ?_
  refine Run.view_bind fun _ _ h8 => ?_
  refine Run.view_bind fun _ _ h9 => ?_
  refine Run.view_bind fun _ _ h10 => ?_
  have hn : ∀ {n : String} {t : Nat}, Res.unwrap (w.getType n.toList) = .ok t → ∃ r, w.types[t]? = some r ∧ r.fullName = n.toList := by
    intro n t h
    cases hg : w.getType n.toList with
    | none => rw [hg] at h; cases h
    | some x =>
      rw [hg] at h; cases h
      obtain ⟨r, h1, h2, -⟩ := (hi.getType_iff _ _).1 hg
      exact ⟨r, h1, h2⟩
  refine Run.modify (.primitives w _ ?_) ⟨_, rfl⟩
  intro x hx
  simp only [List.mem_cons, List.not_mem_nil, or_false] at hx
  rcases hx with rfl | rfl | rfl | rfl | rfl | rfl | rfl | rfl | rfl | rfl | rfl
  · exact hn h0
  · exact hn h1
  · exact hn h2
  · exact hn h3
  · exact hn h4
  · exact hn h5
  · exact hn h6
  · exact hn h7
  · exact hn h8
  · exact hn h9
  · exact hn h10

theorem newRuntime_run (fs : Name → Option Bytes) (depth fuel : Nat) (a b : Bytes) (w : World) :
    Run cfg w (newRuntime cfg fs depth fuel a b) fun _ _ => True := by
  unfold newRuntime
  exact (loadData_run _ _ _ _ _).bind fun _ _ _ _ => (loadData_run _ _ _ _ _).bind fun _ _ _ _ => (loadPrimitives_run _).conseq fun _ _ _ _ => True.intro

theorem Reached.inv {cfg : Cfg} {w : World} (h : Reached cfg w) : Inv w := by
  induction h with
  | start => exact Inv.empty
  | runtime fs depth fuel a b _ ih => exact ih.steps ((newRuntime_run fs depth fuel a b _) ih).1
  | loadFile fs depth fuel data _ ih => exact ih.steps ((loadData_run fs depth fuel data _) ih).1
  | loadName fs depth fuel n _ ih => exact ih.steps ((loadAssembly_run fs depth fuel n _) ih).1
  | arrayOf t _ ih => exact ih.steps ((arrayType_run t) ih).1
  | write s _ ih => exact ih.upd (.output (cfg := cfg) _ s)

theorem Reached.freshId {cfg : Cfg} {w : World} (h : Reached cfg w) : FreshId w := by
  induction h with
  | start => intro a ha; cases ha
  | runtime fs depth fuel a b h ih => exact ih.steps ((newRuntime_run fs depth fuel a b _) h.inv).1
  | loadFile fs depth fuel data h ih => exact ih.steps ((loadData_run fs depth fuel data _) h.inv).1
  | loadName fs depth fuel n h ih => exact ih.steps ((loadAssembly_run fs depth fuel n _) h.inv).1
  | arrayOf t h ih => exact ih.steps ((arrayType_run t) h.inv).1
  | write s _ ih => exact ih.upd (.output (cfg := cfg) _ s)

theorem Later.steps {cfg : Cfg} {w w' : World} (h : Later cfg w w') (hi : Inv w) : Steps cfg w w' := by
  induction h with
  | refl => exact .refl _
  | runtime fs depth fuel a b _ ih => exact ih.trans ((newRuntime_run fs depth fuel a b _) (hi.steps ih)).1
  | loadFile fs depth fuel data _ ih => exact ih.trans ((loadData_run fs depth fuel data _) (hi.steps ih)).1
  | loadName fs depth fuel n _ ih => exact ih.trans ((loadAssembly_run fs depth fuel n _) (hi.steps ih)).1
  | arrayOf t _ ih => exact ih.trans ((arrayType_run t) (hi.steps ih)).1
  | write s _ ih => exact ih.step (.output _ s)

end Clr
