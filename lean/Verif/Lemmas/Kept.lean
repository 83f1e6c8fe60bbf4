import Verif.Lemmas.World
import Verif.Spec.Registry
/-!
# Loading leaves the types that are there alone

`Spares n x`: whatever the outcome of `x`, the first `n` type records, and the assemblies, are as before, and names resolve to what
they did before or to newer types.
-/

namespace Clr
variable {α β : Type}

structure Spared (n : Nat) (w w' : World) : Prop where
  types : ∀ u, u < n → w'.types[u]? = w.types[u]?
  len : n ≤ w'.types.length
  assemblies : w.assemblies <+: w'.assemblies
  names : ∀ k i, w'.getType k = some i → w.getType k = some i ∨ n ≤ i

theorem Spared.refl {n : Nat} {w : World} (h : n ≤ w.types.length) : Spared n w w := ⟨fun _ _ => rfl, h, List.prefix_rfl, fun _ _ h => .inl h⟩
theorem Spared.trans {n : Nat} {a b c : World} (h : Spared n a b) (g : Spared n b c) : Spared n a c :=
  ⟨fun u hu => (g.types u hu).trans (h.types u hu), g.len, h.assemblies.trans g.assemblies, fun k i hk => (g.names k i hk).elim (h.names k i) .inr⟩
/-- Changes of the rest of the registry. -/
theorem Spared.rest {n : Nat} {w w' : World} (h : n ≤ w.types.length) (ht : w'.types = w.types) (hm : w'.typeMap = w.typeMap)
    (ha : w.assemblies <+: w'.assemblies) : Spared n w w' :=
  ⟨fun _ _ => by rw [ht], by rw [ht]; exact h, ha, fun k i hk => .inl (by unfold World.getType at hk ⊢; rw [← hm]; exact hk)⟩

class Spares (n : Nat) (x : M α) : Prop where
  frame : ∀ w, n ≤ w.types.length → Spared n w (x w).2

namespace Spares
variable {n : Nat}

instance pure (a : α) : Spares n (Pure.pure a : M α) := ⟨fun _ h => .refl h⟩
instance lift (x : Res α) : Spares n (M.lift x) := ⟨fun _ h => .refl h⟩
instance liftM (x : Res α) : Spares n (_root_.liftM x : M α) := ⟨fun _ h => .refl h⟩
instance view (f : World → Res α) : Spares n (M.view f) := ⟨fun _ h => .refl h⟩
/-- Sequencing, where what follows may depend on what the first part has delivered. -/
theorem bind' {x : M α} {f : α → M β} (hx : Spares n x) (hf : ∀ w a, n ≤ w.types.length → (x w).1 = .ok a → Spares n (f a)) :
    Spares n (x >>= f) := by
  refine ⟨fun w hw => ?_⟩
  rw [M.bind_run]
  have h := hx.frame w hw
  have g := hf w
  rcases e : x w with ⟨r, w1⟩
  rw [e] at h g
  cases r with
  | ok a => exact h.trans ((g a hw rfl).frame w1 h.len)
  | _ => exact h
theorem bind {x : M α} {f : α → M β} (hx : Spares n x) (hf : ∀ a, Spares n (f a)) : Spares n (x >>= f) := bind' hx fun _ a _ _ => hf a
theorem addType (t : TypeRec) : Spares n (M.modify (·.addType t)) := ⟨fun w h => by
  rw [M.modify_run]
  refine ⟨fun u hu => List.getElem?_append_left (by omega), ?_, List.prefix_rfl, fun k i hk => ?_⟩
  · simp only [World.addType, List.length_append]; omega
  · simp only [World.getType, World.addType, List.lookup_cons] at hk ⊢
    split at hk
    · cases hk; exact .inr h
    · exact .inl hk⟩
theorem updType {t : Nat} (f : TypeRec → TypeRec) (ht : n ≤ t) : Spares n (M.modify (·.updType t f)) := ⟨fun w h => by
  rw [M.modify_run]
  refine ⟨fun u hu => ?_, by simp only [World.updType, List.length_modify]; exact h, List.prefix_rfl, fun _ _ hk => .inl hk⟩
  simp only [World.updType, List.getElem?_modify]
  rw [show (fun a => if t = u then f a else a) = id by funext a; rw [if_neg (by omega)]; rfl]
  simp⟩
instance nextTypeId (k : Nat) : Spares n (M.modify fun w => { w with nextTypeId := k }) := ⟨fun _ h => .rest h rfl rfl List.prefix_rfl⟩
instance nextAssembly : Spares n (M.modify fun w => { w with nextAssembly := w.nextAssembly + 1 }) := ⟨fun _ h => .rest h rfl rfl List.prefix_rfl⟩
instance assemblies (a : AssemblyRec) : Spares n (M.modify fun w => { w with assemblies := w.assemblies ++ [a] }) :=
  ⟨fun _ h => .rest h rfl rfl (List.prefix_append _ _)⟩
instance primitives (p : Primitives) : Spares n (M.modify fun w => { w with primitives := some p }) := ⟨fun _ h => .rest h rfl rfl List.prefix_rfl⟩
end Spares

/-- Takes a function apart until the instances for its parts apply. -/
macro "spare" : tactic => `(tactic| repeat' first
  | infer_instance
  | assumption
  | with_reducible refine Spares.bind ?_ (fun _ => ?_)
  | with_reducible exact Spares.addType _
  | with_reducible refine Spares.updType _ ?_
  | split
  | dsimp only)

variable {n : Nat} {cfg : Cfg} {m : Metadata}
instance : Spares n (nextTypeId cfg) := by unfold nextTypeId; spare
instance (e) : Spares n (arrayType cfg e) := by unfold arrayType; spare
instance (s) : Spares n (getTypeUnwrap s) := by unfold getTypeUnwrap; spare
instance (h) : Spares n (namedType cfg m h) := by unfold namedType; spare
instance (e) : Spares n (typeFor cfg m e) := by
  induction e using ElementType.rec (motive_2 := fun _ => True) with
  | szArray e ih => unfold typeFor; spare
  | _ => first
    | exact True.intro
    | (unfold typeFor; spare)
instance (t) : Spares n (catchType cfg m t) := by unfold catchType; spare
instance (a b c d e f) : Spares n (newClause cfg m a b c d e f) := by unfold newClause; spare
instance (r) : Spares n (readFatClause cfg m r) := by unfold readFatClause; spare
instance (r) : Spares n (readSmallClause cfg m r) := by unfold readSmallClause; spare
instance instSparesReadClauses (f : Reader → M (ExceptionClause × Reader)) [∀ r, Spares n (f r)] (k r) : Spares n (readClauses f k r) := by
  induction k generalizing r with
  | zero => exact .pure _
  | succ k ih => unfold readClauses; spare
instance (r) : Spares n (readClauseSection cfg m r) := by unfold readClauseSection; spare
instance (k r) : Spares n (readLocalTypes cfg m k r) := by
  induction k generalizing r with
  | zero => exact .pure _
  | succ k ih => unfold readLocalTypes; spare
instance (t) : Spares n (readLocals cfg m t) := by unfold readLocals; spare
instance (b r) : Spares n (readMoreSections cfg m b r) := by unfold readMoreSections; spare
instance (r) : Spares n (loadBody cfg m r) := by unfold loadBody; spare
instance (a i) : Spares n (loadType cfg a i m) := by unfold loadType; spare
instance (t i o) : Spares n (loadField cfg m t i o) := by unfold loadField; spare
instance (ps) : Spares n (paramNames cfg m ps) := by
  induction ps with
  | nil => exact .pure _
  | cons e es ih =>
    unfold paramNames
    refine Spares.bind ⟨fun w h => ?_⟩ fun _ => ?_
    · have h1 := (inferInstance : Spares n (typeFor cfg m e)).frame w h
      split
      · next e' => rw [e'] at h1; exact h1
      · exact h1
    · spare
instance (t r a s) : Spares n (loadImpl cfg m t r a s) := by unfold loadImpl; spare
instance (es i) : Spares n (loadParams cfg m es i) := by
  induction es generalizing i with
  | nil => exact .pure _
  | cons e es ih => unfold loadParams; spare
instance (t i) : Spares n (loadMethod cfg m t i) := by unfold loadMethod; spare
instance (a b) : Spares n (lookupRow m a b) := by unfold lookupRow; spare
instance (r) : Spares n (loadMemberRef cfg m r) := by unfold loadMemberRef; spare
instance (rs) : Spares n (loadMemberRefs cfg m rs) := by
  induction rs with
  | nil => exact .pure _
  | cons e es ih => unfold loadMemberRefs; spare
instance (rs) : Spares n (loadTypeRefs m rs) := by
  induction rs with
  | nil => exact .pure _
  | cons e es ih => unfold loadTypeRefs; spare
instance (a k i) : Spares n (loadTypes cfg a m k i) := by
  induction k generalizing i with
  | zero => exact .pure _
  | succ k ih => unfold loadTypes; spare
instance : Spares n loadPrimitives := by unfold loadPrimitives; spare

/-! ## Types of the assembly being loaded -/

variable {t : Nat}
theorem resolveBase_spares (ht : n ≤ t) (i : Nat) : Spares n (resolveBase cfg m t i) := by unfold resolveBase; spare
theorem resolveKind_spares (ht : n ≤ t) (i : Nat) : Spares n (resolveKind cfg m t i) := by unfold resolveKind; spare
theorem loadFields_spares (ht : n ≤ t) (f k i o : Nat) : Spares n (loadFields cfg f m t k i o) := by
  induction k generalizing i o with
  | zero => exact .pure _
  | succ k ih => unfold loadFields; spare
theorem resolveFields_spares (ht : n ≤ t) (f i : Nat) : Spares n (resolveFields cfg f m t i) := by
  have := fun k i o => loadFields_spares (cfg := cfg) (m := m) ht f k i o
  unfold resolveFields; spare
theorem loadMethods_spares (ht : n ≤ t) (k i : Nat) : Spares n (loadMethods cfg m t k i) := by
  induction k generalizing i with
  | zero => exact .pure _
  | succ k ih => unfold loadMethods; spare
theorem resolveMethods_spares (ht : n ≤ t) (i : Nat) : Spares n (resolveMethods cfg m t i) := by
  have := fun k i => loadMethods_spares (cfg := cfg) (m := m) ht k i
  unfold resolveMethods; spare
theorem resolveType_spares (ht : n ≤ t) (f i : Nat) : Spares n (resolveType cfg f m t i) := by
  have := resolveBase_spares (cfg := cfg) (m := m) ht i
  have := resolveKind_spares (cfg := cfg) (m := m) ht i
  have := resolveFields_spares (cfg := cfg) (m := m) ht f i
  have := resolveMethods_spares (cfg := cfg) (m := m) ht i
  unfold resolveType; spare
theorem resolveTypes_spares (f : Nat) (ts : List Nat) (hts : ∀ t ∈ ts, n ≤ t) (i : Nat) : Spares n (resolveTypes cfg f m ts i) := by
  induction ts generalizing i with
  | nil => exact .pure _
  | cons t ts ih =>
    have := fun i => resolveType_spares (cfg := cfg) (m := m) (hts t (by simp)) f i
    have := ih fun t ht => hts t (by simp [ht])
    unfold resolveTypes; spare

/-! ## The names of the assembly being loaded -/

/-- The name in a type row. -/
def RowCalled (m : Metadata) (row : TypeDefRow) (k : Name) : Prop :=
  ∃ a b, m.string! row.name = .ok a ∧ m.string! row.nspace = .ok b ∧ k = fullName b a

/-- The names of the rows in `R` resolve to types from `n` on, or not at all. -/
def NewNames (n : Nat) (m : Metadata) (R : TypeDefRow → Prop) (w : World) : Prop :=
  ∀ row, R row → ∀ k i, RowCalled m row k → w.getType k = some i → n ≤ i

theorem NewNames.spared {R : TypeDefRow → Prop} {w w' : World} (h : NewNames n m R w) (hs : Spared n w w') : NewNames n m R w' :=
  fun row hr k i hk hg => (hs.names k i hg).elim (h row hr k i hk) id

theorem tableIndex_succ {rows : List α} {i : Nat} {row : α} (h : tableIndex cfg rows (i + 1) = .ok row) : rows[i]? = some row := by
  unfold tableIndex at h
  rw [usub_ok (by omega)] at h
  simp only [Res.ok_bind, Nat.add_sub_cancel] at h
  cases e : rows[i]? with
  | none => rw [e] at h; cases h
  | some x => rw [e] at h; cases h; rfl

theorem loadType_new {a i : Nat} {w w' : World} (hw : n ≤ w.types.length) (h : loadType cfg a i m w = (.ok t, w')) :
    n ≤ t ∧ NewNames n m (fun row => m.tables.typeDef[i]? = some row) w' := by
  unfold loadType at h
  obtain ⟨row, h1, h⟩ := M.liftM_bind_eq_ok.mp h
  obtain ⟨x, h2, h⟩ := M.liftM_bind_eq_ok.mp h
  obtain ⟨y, h3, h⟩ := M.liftM_bind_eq_ok.mp h
  obtain ⟨id, w1, h4, h⟩ := M.bind_eq_ok.mp h
  have hs := (inferInstance : Spares n (nextTypeId cfg)).frame w hw
  rw [h4] at hs
  rw [M.get_bind, M.modify_bind] at h
  cases h
  refine ⟨hs.len, ?_⟩
  intro r hr k j ⟨p, q, e1, e2, e3⟩ hg
  rw [tableIndex_succ h1] at hr
  cases hr
  rw [h2] at e1; rw [h3] at e2
  cases e1; cases e2
  subst e3
  simp only [World.getType, World.addType, List.lookup_cons, beq_self_eq_true] at hg
  cases hg
  exact hs.len

theorem loadTypes_new {a : Nat} {k i : Nat} {w w' : World} {ts : List Nat} (hw : n ≤ w.types.length)
    (h : loadTypes cfg a m k i w = (.ok ts, w')) :
    (∀ t ∈ ts, n ≤ t) ∧ NewNames n m (fun row => ∃ j, i ≤ j ∧ j < i + k ∧ m.tables.typeDef[j]? = some row) w' := by
  induction k generalizing i w ts with
  | zero =>
    cases h
    exact ⟨fun t ht => by simp at ht, fun row ⟨j, h1, h2, _⟩ => by omega⟩
  | succ k ih =>
    unfold loadTypes at h
    obtain ⟨t, w1, h1, h⟩ := M.bind_eq_ok.mp h
    obtain ⟨us, w2, h2, h⟩ := M.bind_eq_ok.mp h
    cases h
    have hs := (inferInstance : Spares n (loadType cfg a i m)).frame w hw
    rw [h1] at hs
    obtain ⟨g1, g2⟩ := loadType_new hw h1
    have hs' := (inferInstance : Spares n (loadTypes cfg a m k (i + 1))).frame w1 hs.len
    rw [h2] at hs'
    obtain ⟨g3, g4⟩ := ih hs.len h2
    refine ⟨fun u hu => ?_, fun row ⟨j, h3, h4, h5⟩ => ?_⟩
    · rcases List.mem_cons.mp hu with rfl | hu
      · exact g1
      · exact g3 u hu
    · rcases Nat.eq_or_lt_of_le h3 with rfl | h6
      · exact g2.spared hs' row h5
      · exact g4 row ⟨j, h6, by omega, h5⟩

/-- Only types of the assembly being loaded get interfaces. -/
theorem loadInterface_spares {row : InterfaceImplRow} {w : World} (hw : n ≤ w.types.length)
    (hn : NewNames n m (· ∈ m.tables.typeDef) w) : Spared n w (loadInterface cfg m row w).2 := by
  unfold loadInterface
  rw [M.bind_run, M.liftM_run]
  cases h1 : tableIndex cfg m.tables.typeDef row.cls with
  | ok td =>
    dsimp only
    rw [M.bind_run]
    have hs := (inferInstance : Spares n (lookupRow m td.name td.nspace)).frame w hw
    rcases h2 : lookupRow m td.name td.nspace w with ⟨r, w1⟩
    rw [h2] at hs
    cases r with
    | ok o =>
      dsimp only
      rw [M.bind_run, M.liftM_run]
      cases o with
      | none => exact hs
      | some t =>
        dsimp only [Res.unwrap]
        have ht : n ≤ t := by
          unfold lookupRow at h2
          obtain ⟨a, g1, h2⟩ := M.liftM_bind_eq_ok.mp h2
          obtain ⟨b, g2, h2⟩ := M.liftM_bind_eq_ok.mp h2
          rw [M.view_run] at h2
          simp only [Prod.mk.injEq, Res.ok.injEq] at h2
          refine hn td ?_ _ t ⟨a, b, g1, g2, rfl⟩ h2.1
          obtain ⟨j, -, g3⟩ := Res.bind_eq_ok.mp h1
          cases e : m.tables.typeDef[j]? with
          | none => rw [e] at g3; cases g3
          | some x => rw [e] at g3; cases g3; exact List.mem_of_getElem? e
        refine hs.trans ((?_ : Spares n _).frame _ hs.len)
        spare
    | _ => exact hs
  | _ => exact .refl hw

theorem loadInterfaces_spares {rows : List InterfaceImplRow} {w : World} (hw : n ≤ w.types.length)
    (hn : NewNames n m (· ∈ m.tables.typeDef) w) : Spared n w (loadInterfaces cfg m rows w).2 := by
  induction rows generalizing w with
  | nil => exact .refl hw
  | cons row rows ih =>
    unfold loadInterfaces
    rw [M.bind_run]
    have hs := loadInterface_spares (cfg := cfg) (row := row) hw hn
    rcases h : loadInterface cfg m row w with ⟨r, w1⟩
    rw [h] at hs
    cases r with
    | ok _ => exact hs.trans (ih hs.len (hn.spared hs))
    | _ => exact hs

theorem Spared.mono {n k : Nat} {w w' : World} (h : Spared k w w') (hk : n ≤ k) : Spared n w w' :=
  ⟨fun u hu => h.types u (by omega), Nat.le_trans hk h.len, h.assemblies, fun a i hg => (h.names a i hg).imp_right (Nat.le_trans hk)⟩

instance loadSelf_spares (f : Nat) (name : Name) : Spares n (loadSelf cfg f m name) := by
  unfold loadSelf
  refine Spares.bind inferInstance fun _ => Spares.bind inferInstance fun _ => Spares.bind inferInstance fun id => Spares.bind inferInstance fun _ => ⟨fun w hw => ?_⟩
  rw [M.bind_run]
  have hs := (inferInstance : Spares n (loadTypes cfg id m m.tables.typeDef.length 0)).frame w hw
  rcases h : loadTypes cfg id m m.tables.typeDef.length 0 w with ⟨r, w1⟩
  rw [h] at hs
  cases r with
  | ok ts =>
    obtain ⟨g1, g2⟩ := loadTypes_new hw h
    have g2 : NewNames n m (· ∈ m.tables.typeDef) w1 := fun row hr => g2 row (by
      obtain ⟨j, hj⟩ := List.getElem?_of_mem hr
      exact ⟨j, by omega, by have := (List.getElem?_eq_some_iff.mp hj).1; omega, hj⟩)
    refine hs.trans ?_
    dsimp only
    rw [M.bind_run]
    have hs' := (resolveTypes_spares (cfg := cfg) (m := m) f ts g1 0).frame w1 hs.len
    rcases h' : resolveTypes cfg f m ts 0 w1 with ⟨r, w2⟩
    rw [h'] at hs'
    cases r with
    | ok fs =>
      refine hs'.trans ?_
      dsimp only
      rw [M.bind_run]
      have hs'' := loadInterfaces_spares (cfg := cfg) (rows := m.tables.interfaceImpl) hs'.len (g2.spared hs')
      rcases h'' : loadInterfaces cfg m m.tables.interfaceImpl w2 with ⟨r, w3⟩
      rw [h''] at hs''
      cases r with
      | ok _ =>
        refine hs''.trans ((?_ : Spares n _).frame _ hs''.len)
        spare
      | _ => exact hs''
    | _ => exact hs'
  | _ => exact hs

instance instSparesLoadRefs (f : Name → M AssemblyRec) [∀ k, Spares n (f k)] (rows) : Spares n (loadRefs f m rows) := by
  induction rows with
  | nil => exact .pure _
  | cons r rows ih => unfold loadRefs; spare
instance (fs d f data) : Spares n (loadData cfg fs d f data) := by
  induction d generalizing data with
  | zero => exact .lift _
  | succ d ih =>
    unfold loadData
    have : ∀ k, Spares n (do
        let d' ← Res.ofOption "Could not locate assembly" (fs k)
        loadData cfg fs d f d' : M AssemblyRec) := fun k => by spare
    spare
instance (fs d f k) : Spares n (loadAssembly cfg fs d f k) := by unfold loadAssembly; spare
instance (fs d f a b) : Spares n (newRuntime cfg fs d f a b) := by unfold newRuntime; spare

theorem Later.spared {w w' : World} (h : Later cfg w w') (hn : n ≤ w.types.length) : Spared n w w' := by
  induction h with
  | refl => exact .refl hn
  | runtime fs d f a b _ ih => exact ih.trans (Spares.frame _ ih.len)
  | loadFile fs d f a _ ih => exact ih.trans (Spares.frame _ ih.len)
  | loadName fs d f a _ ih => exact ih.trans (Spares.frame _ ih.len)
  | arrayOf t _ ih => exact ih.trans (Spares.frame _ ih.len)
  | write s _ ih => exact ih.trans (.rest ih.len rfl rfl List.prefix_rfl)

end Clr
