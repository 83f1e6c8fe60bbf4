import Verif.Lemmas.Run
/-!
# Code that only registers array types

Resolving types from signatures registers array types and changes nothing else: neither the existing type records nor the
list of assemblies.
-/

namespace Clr

/-- `w'` is `w` with some types appended that have neither fields nor methods. -/
structure Adds (w w' : World) : Prop where
  types : ∃ ts, w'.types = w.types ++ ts ∧ ∀ t ∈ ts, t.fields = [] ∧ t.methods = [] ∧ t.kind = some .array
  assemblies : w'.assemblies = w.assemblies
  nextAssembly : w'.nextAssembly = w.nextAssembly
  output : w'.output = w.output
  primitives : w'.primitives = w.primitives
  bases : (∀ p ∈ w.typeMap, p.2 < w.types.length) → (∀ p ∈ w'.typeMap, p.2 < w'.types.length) ∧
    ∀ (i : Nat) t c, w.types.length ≤ i → w'.types[i]? = some t → t.base = some c → c < i

theorem Adds.refl (w : World) : Adds w w :=
  ⟨⟨[], by simp⟩, rfl, rfl, rfl, rfl, fun h => ⟨h, fun i t b hi ht => by have := (List.getElem?_eq_some_iff.1 ht).1; omega⟩⟩

theorem Adds.trans {a b c : World} (h : Adds a b) (g : Adds b c) : Adds a c := by
  obtain ⟨ts, h1, h2⟩ := h.types
  obtain ⟨us, g1, g2⟩ := g.types
  refine ⟨⟨ts ++ us, by rw [g1, h1, List.append_assoc], fun t ht => ?_⟩, g.2.trans h.2, g.3.trans h.3, g.4.trans h.4,
    g.5.trans h.5, fun hm => ?_⟩
  · rcases List.mem_append.mp ht with ht | ht
    · exact h2 t ht
    · exact g2 t ht
  · obtain ⟨h3, h4⟩ := h.bases hm
    obtain ⟨g3, g4⟩ := g.bases h3
    refine ⟨g3, fun i t c hi ht hb => ?_⟩
    rcases Nat.lt_or_ge i b.types.length with hl | hl
    · rw [g1, List.getElem?_append_left hl] at ht
      exact h4 i t _ hi ht hb
    · exact g4 i t _ hl ht hb

theorem Adds.get {w w' : World} (h : Adds w w') {i : Nat} {t : TypeRec} (hi : w.types[i]? = some t) : w'.types[i]? = some t := by
  obtain ⟨ts, h1, _⟩ := h.types
  rw [h1, List.getElem?_append_left (List.getElem?_eq_some_iff.mp hi).1, hi]

theorem Adds.get_lt {w w' : World} (h : Adds w w') {i : Nat} (hi : i < w.types.length) : w'.types[i]? = w.types[i]? := by
  obtain ⟨ts, h1, _⟩ := h.types
  rw [h1, List.getElem?_append_left hi]

theorem Adds.le {w w' : World} (h : Adds w w') : w.types.length ≤ w'.types.length := by
  obtain ⟨ts, h1, _⟩ := h.types
  rw [h1]; simp

/-- The code only appends array types, whatever its outcome. -/
def Grow {α : Type} (x : M α) : Prop := ∀ w, Adds w (x w).2

namespace Grow

variable {α β : Type}

theorem pure (a : α) : Grow (Pure.pure a : M α) := fun w => .refl w
theorem lift (x : Res α) : Grow (M.lift x) := fun w => .refl w
theorem liftM (x : Res α) : Grow (_root_.liftM x : M α) := fun w => .refl w
theorem view (f : World → Res α) : Grow (M.view f) := fun w => .refl w

theorem bind {x : M α} {f : α → M β} (hx : Grow x) (hf : ∀ a, Grow (f a)) : Grow (x >>= f) := by
  intro w
  rw [M.bind_run]
  have h := hx w
  rcases e : x w with ⟨r, w1⟩
  rw [e] at h
  cases r with
  | ok a => exact h.trans (hf a w1)
  | _ => exact h

theorem liftM_bind {x : Res α} {f : α → M β} (hf : ∀ a, Grow (f a)) : Grow ((_root_.liftM x : M α) >>= f) := (liftM x).bind hf
theorem view_bind {g : World → Res α} {f : α → M β} (hf : ∀ a, Grow (f a)) : Grow (M.view g >>= f) := (view g).bind hf

end Grow

variable {cfg : Cfg} {m : Metadata}

theorem mem_of_lookup {l : List (Name × Nat)} {n : Name} {i : Nat} (h : l.lookup n = some i) : (n, i) ∈ l := by
  induction l with
  | nil => simp at h
  | cons p l ih =>
    rw [List.lookup_cons] at h
    split at h
    · next e => simp only [beq_iff_eq] at e; cases h; rw [e]; simp
    · exact List.mem_cons_of_mem _ (ih h)

theorem arrayType_grow (e : Nat) : Grow (arrayType cfg e) := by
  unfold arrayType
  refine Grow.view_bind fun er => Grow.view_bind fun o => ?_
  cases o with
  | some t => exact Grow.pure t
  | none =>
    intro w
    dsimp only
    cases hn : uadd cfg 32 w.nextTypeId 1 with
    | ok n =>
      rw [M.bind_ok (nextTypeId_eq hn), M.get_bind, M.get_bind, M.modify_bind]
      refine ⟨⟨[_], rfl, by simp⟩, rfl, rfl, rfl, rfl, fun hm => ⟨fun p hp => ?_, fun i t c hi ht hb => ?_⟩⟩
      · simp only [M.pure_run, World.addType, List.mem_cons, List.length_append, List.length_singleton] at hp ⊢
        rcases hp with hp | hp
        · rw [hp]; simp
        · have := hm p hp; omega
      · simp only [M.pure_run, World.addType] at ht
        rw [List.getElem?_append_right hi, List.getElem?_singleton] at ht
        split at ht
        · cases ht
          have : ("System.Array".toList, c) ∈ w.typeMap := mem_of_lookup hb
          have := hm _ this
          dsimp at this
          omega
        · cases ht
    | err e => simp [nextTypeId, M.bind_run, hn, Adds.refl]
    | panic => simp [nextTypeId, M.bind_run, hn, Adds.refl]
    | ub => simp [nextTypeId, M.bind_run, hn, Adds.refl]
    | timeout => simp [nextTypeId, M.bind_run, hn, Adds.refl]

theorem namedType_grow (h : TypeDefOrRef) : Grow (namedType cfg m h) := by
  unfold namedType
  exact Grow.liftM_bind fun _ => Grow.liftM_bind fun _ => Grow.view _

theorem typeFor_grow (e : ElementType) : Grow (typeFor cfg m e) := by
  induction e using ElementType.rec (motive_2 := fun _ => True) with
  | szArray e ih => unfold typeFor; exact ih.bind fun t => arrayType_grow t
  | valueType h => unfold typeFor; exact namedType_grow h
  | «class» h => unfold typeFor; exact namedType_grow h
  | _ => first
    | exact True.intro
    | (intros; trivial)
    | (unfold typeFor; exact Grow.view _)
    | (intros; unfold typeFor; exact Grow.lift _)

theorem readLocalTypes_grow (n : Nat) : ∀ r, Grow (readLocalTypes cfg m n r) := by
  induction n with
  | zero => intro r; exact Grow.pure _
  | succ n ih =>
    intro r
    unfold readLocalTypes
    exact Grow.liftM_bind fun ⟨_, _⟩ => (typeFor_grow _).bind fun _ => (ih _).bind fun _ => Grow.pure _

theorem readLocals_grow (t : Token) : Grow (readLocals cfg m t) := by
  unfold readLocals
  split
  · exact Grow.pure _
  · refine Grow.liftM_bind fun _ => Grow.liftM_bind fun _ => Grow.liftM_bind fun ⟨_, _⟩ => ?_
    dsimp only
    split
    · exact Grow.lift _
    · exact Grow.liftM_bind fun ⟨_, _⟩ => readLocalTypes_grow _ _

theorem newClause_grow (ty : ClauseType) (a b c d e : Nat) : Grow (newClause cfg m ty a b c d e) := by
  unfold newClause
  refine Grow.bind ?_ fun _ => Grow.pure _
  cases ty
  · refine Grow.bind ?_ fun _ => Grow.pure _
    unfold catchType
    exact Grow.liftM_bind fun ⟨_, _⟩ => Grow.liftM_bind fun _ => Grow.liftM_bind fun _ => Grow.liftM_bind fun _ =>
      Grow.liftM_bind fun _ => Grow.view _
  all_goals exact Grow.pure _

theorem readClauses_grow {f : Reader → M (ExceptionClause × Reader)} (hf : ∀ r, Grow (f r)) (n : Nat) : ∀ r, Grow (readClauses f n r) := by
  induction n with
  | zero => intro r; exact Grow.pure _
  | succ n ih =>
    intro r
    unfold readClauses
    exact (hf r).bind fun ⟨_, _⟩ => (ih _).bind fun _ => Grow.pure _

theorem readClauseSection_grow (r : Reader) : Grow (readClauseSection cfg m r) := by
  unfold readClauseSection
  refine Grow.liftM_bind fun ⟨_, _⟩ => ?_
  dsimp only
  split
  · exact Grow.lift _
  · refine Grow.liftM_bind fun ⟨_, _⟩ => ?_
    dsimp only
    split
    · refine Grow.liftM_bind fun ⟨_, _⟩ => readClauses_grow (fun r => ?_) _ _
      unfold readFatClause
      exact Grow.liftM_bind fun ⟨_, _⟩ => Grow.liftM_bind fun _ => Grow.liftM_bind fun ⟨_, _⟩ => Grow.liftM_bind fun ⟨_, _⟩ =>
        Grow.liftM_bind fun ⟨_, _⟩ => Grow.liftM_bind fun ⟨_, _⟩ => Grow.liftM_bind fun ⟨_, _⟩ =>
        (newClause_grow _ _ _ _ _ _).bind fun _ => Grow.pure _
    · refine Grow.liftM_bind fun ⟨_, _⟩ => readClauses_grow (fun r => ?_) _ _
      unfold readSmallClause
      exact Grow.liftM_bind fun ⟨_, _⟩ => Grow.liftM_bind fun _ => Grow.liftM_bind fun ⟨_, _⟩ => Grow.liftM_bind fun ⟨_, _⟩ =>
        Grow.liftM_bind fun ⟨_, _⟩ => Grow.liftM_bind fun ⟨_, _⟩ => Grow.liftM_bind fun ⟨_, _⟩ =>
        (newClause_grow _ _ _ _ _ _).bind fun _ => Grow.pure _

theorem loadBody_grow (rva : Nat) : Grow (loadBody cfg m rva) := by
  unfold loadBody
  refine Grow.liftM_bind fun _ => Grow.liftM_bind fun _ => Grow.liftM_bind fun ⟨_, _⟩ => ?_
  dsimp only
  split
  · exact Grow.liftM_bind fun ⟨_, _⟩ => Grow.pure _
  · split
    · refine Grow.liftM_bind fun ⟨_, _⟩ => Grow.liftM_bind fun ⟨_, _⟩ => Grow.liftM_bind fun ⟨_, _⟩ =>
        Grow.liftM_bind fun ⟨_, _⟩ => (readLocals_grow _).bind fun _ => Grow.liftM_bind fun ⟨_, _⟩ => ?_
      refine Grow.bind ?_ fun _ => Grow.pure _
      unfold readMoreSections
      split
      · exact readClauseSection_grow _
      · exact Grow.pure _
    · exact Grow.lift _

theorem paramNames_grow (es : List ElementType) : Grow (paramNames cfg m es) := by
  induction es with
  | nil => exact Grow.pure _
  | cons e es ih =>
    unfold paramNames
    refine Grow.bind (fun w => ?_) fun _ => Grow.view_bind fun _ => ih.bind fun _ => Grow.pure _
    have h := typeFor_grow (cfg := cfg) (m := m) e w
    rcases hx : typeFor cfg m e w with ⟨r, w1⟩
    simp only [hx] at h ⊢
    cases r <;> exact h

theorem loadImpl_grow (t : Nat) (row : MethodDefRow) (name : Name) (sig : MethodSig) : Grow (loadImpl cfg m t row name sig) := by
  unfold loadImpl
  split
  · exact (paramNames_grow _).bind fun _ => (typeFor_grow _).bind fun _ => Grow.view_bind fun _ => Grow.view_bind fun _ =>
      Grow.liftM_bind fun _ => Grow.pure _
  · split
    · exact Grow.lift _
    · split
      · exact Grow.pure _
      · exact (loadBody_grow _).bind fun _ => Grow.pure _

theorem loadParams_grow (es : List ElementType) : ∀ i, Grow (loadParams cfg m es i) := by
  induction es with
  | nil => intro i; exact Grow.pure _
  | cons e es ih =>
    intro i
    unfold loadParams
    exact Grow.liftM_bind fun _ => Grow.liftM_bind fun _ => (typeFor_grow _).bind fun _ => (ih _).bind fun _ => Grow.pure _

theorem loadMethod_grow (t i : Nat) : Grow (loadMethod cfg m t i) := by
  unfold loadMethod
  exact Grow.liftM_bind fun _ => Grow.liftM_bind fun _ => Grow.liftM_bind fun _ => Grow.liftM_bind fun ⟨_, _⟩ =>
    (loadImpl_grow _ _ _ _).bind fun _ => (typeFor_grow _).bind fun _ => (loadParams_grow _ _).bind fun _ => Grow.pure _

theorem loadField_grow (t i o : Nat) : Grow (loadField cfg m t i o) := by
  unfold loadField
  exact Grow.liftM_bind fun _ => Grow.liftM_bind fun _ => Grow.liftM_bind fun _ => Grow.liftM_bind fun ⟨_, _⟩ =>
    (typeFor_grow _).bind fun _ => Grow.pure _

end Clr
