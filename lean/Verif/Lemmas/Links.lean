import Verif.Lemmas.LoadSelf
import Verif.Lemmas.Kept
import Verif.Spec.Links
/-!
# The links between assemblies, types and members

`Enrols A x`: whatever the outcome of `x`, the list of assemblies is as before, no type has changed its name or its assembly, and every
new type is either an array type or belongs to an assembly whose number satisfies `A`.
-/

namespace Clr
variable {α β : Type}

/-- Type `t` is an array type, made later than the type of its elements and belonging to the same assembly. -/
def IsArrayIn (w : World) (t : Nat) (r : TypeRec) : Prop :=
  ∃ (e : Nat) (re : TypeRec), e < t ∧ w.types[e]? = some re ∧ r.fullName = re.fullName ++ "[]".toList ∧ r.assembly = re.assembly

structure Enrolled (A : Nat → Prop) (w w' : World) : Prop where
  assemblies : w'.assemblies = w.assemblies
  nextAssembly : w'.nextAssembly = w.nextAssembly
  heads : ∀ (t : Nat) r, w.types[t]? = some r → ∃ r', w'.types[t]? = some r' ∧ r'.fullName = r.fullName ∧ r'.assembly = r.assembly
  new : ∀ (t : Nat) r, w.types.length ≤ t → w'.types[t]? = some r → A r.assembly ∨ IsArrayIn w' t r

theorem Enrolled.refl {A : Nat → Prop} (w : World) : Enrolled A w w :=
  ⟨rfl, rfl, fun _ r h => ⟨r, h, rfl, rfl⟩, fun t r h1 h2 => absurd (List.getElem?_eq_some_iff.mp h2).1 (by omega)⟩

theorem Enrolled.array {A : Nat → Prop} {w w' : World} (h : Enrolled A w w') {t : Nat} {r r' : TypeRec} (hr : IsArrayIn w t r)
    (h1 : r'.fullName = r.fullName) (h2 : r'.assembly = r.assembly) : IsArrayIn w' t r' := by
  obtain ⟨e, re, g0, g1, g2, g3⟩ := hr
  obtain ⟨re', k1, k2, k3⟩ := h.heads e re g1
  exact ⟨e, re', g0, k1, by rw [h1, g2, k2], by rw [h2, g3, k3]⟩

theorem Enrolled.trans {A : Nat → Prop} {a b c : World} (h : Enrolled A a b) (g : Enrolled A b c) : Enrolled A a c := by
  refine ⟨g.assemblies.trans h.assemblies, g.nextAssembly.trans h.nextAssembly, fun t r hr => ?_, fun t r h1 h2 => ?_⟩
  · obtain ⟨r1, k1, k2, k3⟩ := h.heads t r hr
    obtain ⟨r2, l1, l2, l3⟩ := g.heads t r1 k1
    exact ⟨r2, l1, l2.trans k2, l3.trans k3⟩
  · by_cases hb : b.types.length ≤ t
    · exact g.new t r hb h2
    · obtain ⟨r1, k1⟩ : ∃ r1, b.types[t]? = some r1 := ⟨_, List.getElem?_eq_getElem (by omega)⟩
      obtain ⟨r2, l1, l2, l3⟩ := g.heads t r1 k1
      rw [h2] at l1; cases l1
      rcases h.new t r1 h1 k1 with hA | hA
      · exact .inl (by rw [l3]; exact hA)
      · exact .inr (g.array hA l2 l3)

theorem Enrolled.mono {A B : Nat → Prop} {w w' : World} (h : Enrolled A w w') (hAB : ∀ i, A i → B i) : Enrolled B w w' :=
  ⟨h.assemblies, h.nextAssembly, h.heads, fun t r h1 h2 => (h.new t r h1 h2).imp_left (hAB _)⟩

class Enrols (A : Nat → Prop) (x : M α) : Prop where
  frame : ∀ w, Enrolled A w (x w).2

namespace Enrols
variable {A : Nat → Prop}
instance pure (a : α) : Enrols A (Pure.pure a : M α) := ⟨fun _ => .refl _⟩
instance lift (x : Res α) : Enrols A (M.lift x) := ⟨fun _ => .refl _⟩
instance liftM (x : Res α) : Enrols A (_root_.liftM x : M α) := ⟨fun _ => .refl _⟩
instance view (f : World → Res α) : Enrols A (M.view f) := ⟨fun _ => .refl _⟩
theorem bind {x : M α} {f : α → M β} (hx : Enrols A x) (hf : ∀ a, Enrols A (f a)) : Enrols A (x >>= f) := by
  refine ⟨fun w => ?_⟩
  rw [M.bind_run]
  have h := hx.frame w
  rcases e : x w with ⟨r, w1⟩
  rw [e] at h
  cases r with
  | ok a => exact h.trans ((hf a).frame w1)
  | _ => exact h
theorem added_addType {w : World} (t : TypeRec) (ht : A t.assembly ∨ IsArrayIn w w.types.length t) : Enrolled A w (w.addType t) := by
  have keep : ∀ (i : Nat) r, w.types[i]? = some r → (w.addType t).types[i]? = some r := fun i r h => by
    simp only [World.addType]
    rw [List.getElem?_append_left (List.getElem?_eq_some_iff.mp h).1]; exact h
  refine ⟨rfl, rfl, fun i r h => ⟨r, keep i r h, rfl, rfl⟩, fun i r h1 h2 => ?_⟩
  have : i = w.types.length ∧ r = t := by
    simp only [World.addType] at h2
    have hl := (List.getElem?_eq_some_iff.mp h2).1
    rw [List.length_append, List.length_singleton] at hl
    obtain rfl : i = w.types.length := by omega
    rw [List.getElem?_concat_length] at h2
    cases h2; exact ⟨rfl, rfl⟩
  obtain ⟨rfl, rfl⟩ := this
  exact ht.imp_right fun ⟨e, re, g0, g1, g2⟩ => ⟨e, re, g0, keep e re g1, g2⟩
theorem addType (t : TypeRec) (ht : A t.assembly) : Enrols A (M.modify (·.addType t)) :=
  ⟨fun _ => added_addType t (.inl ht)⟩
theorem updType (t : Nat) (f : TypeRec → TypeRec) (hf : ∀ r, (f r).fullName = r.fullName ∧ (f r).assembly = r.assembly) :
    Enrols A (M.modify (·.updType t f)) := ⟨fun w => by
  rw [M.modify_run]
  refine ⟨rfl, rfl, fun i r h => ?_, fun i r h1 h2 => ?_⟩
  · simp only [World.updType, getElem?_modify', h]
    by_cases e : t = i
    · rw [if_pos e]; exact ⟨_, rfl, hf r⟩
    · rw [if_neg e]; exact ⟨r, rfl, rfl, rfl⟩
  · have := (List.getElem?_eq_some_iff.mp h2).1
    simp only [World.updType, List.length_modify] at this
    omega⟩
instance nextTypeId (k : Nat) : Enrols A (M.modify fun w => { w with nextTypeId := k }) :=
  ⟨fun w => ⟨rfl, rfl, (Enrolled.refl (A := A) w).heads, (Enrolled.refl (A := A) w).new⟩⟩
instance primitives (p : Primitives) : Enrols A (M.modify fun w => { w with primitives := some p }) :=
  ⟨fun w => ⟨rfl, rfl, (Enrolled.refl (A := A) w).heads, (Enrolled.refl (A := A) w).new⟩⟩
end Enrols

/-- Takes a function apart until the instances for its parts apply. -/
macro "enrol" : tactic => `(tactic| repeat' first
  | infer_instance
  | assumption
  | exact Enrols.updType _ _ (fun _ => ⟨rfl, rfl⟩)
  | with_reducible refine Enrols.bind ?_ (fun _ => ?_)
  | split
  | dsimp only)

variable {A : Nat → Prop} {cfg : Cfg} {m : Metadata}
instance : Enrols A (nextTypeId cfg) := by unfold nextTypeId; enrol
instance (e) : Enrols A (arrayType cfg e) := ⟨fun w => by
  unfold arrayType
  rw [M.bind_run, M.view_run]
  cases he : w.typeAt e with
  | ok er =>
    have her : w.types[e]? = some er := by
      unfold World.typeAt at he
      cases h : w.types[e]? with
      | none => rw [h] at he; cases he
      | some q => rw [h] at he; cases he; rfl
    dsimp only
    rw [M.bind_run, M.view_run]
    dsimp only
    cases w.getType (er.fullName ++ "[]".toList) with
    | some t => exact .refl _
    | none =>
      dsimp only
      have h1 := (inferInstance : Enrols A (nextTypeId cfg)).frame w
      rw [M.bind_run]
      rcases hn : nextTypeId cfg w with ⟨r, w1⟩
      rw [hn] at h1
      cases r with
      | ok id =>
        refine h1.trans ?_
        obtain ⟨re', k1, k2, k3⟩ := h1.heads e er her
        exact Enrols.added_addType _ (.inr ⟨e, re', (List.getElem?_eq_some_iff.mp k1).1, k1, by rw [k2], k3.symm⟩)
      | _ => exact h1
  | _ => exact .refl _⟩
instance (s) : Enrols A (getTypeUnwrap s) := by unfold getTypeUnwrap; enrol
instance (h) : Enrols A (namedType cfg m h) := by unfold namedType; enrol
instance (e) : Enrols A (typeFor cfg m e) := by
  induction e using ElementType.rec (motive_2 := fun _ => True) with
  | szArray e ih => unfold typeFor; enrol
  | _ => first
    | exact True.intro
    | (unfold typeFor; enrol)
instance (t) : Enrols A (catchType cfg m t) := by unfold catchType; enrol
instance (a b c d e f) : Enrols A (newClause cfg m a b c d e f) := by unfold newClause; enrol
instance (r) : Enrols A (readFatClause cfg m r) := by unfold readFatClause; enrol
instance (r) : Enrols A (readSmallClause cfg m r) := by unfold readSmallClause; enrol
instance instEnrolsReadClauses (f : Reader → M (ExceptionClause × Reader)) [∀ r, Enrols A (f r)] (k r) : Enrols A (readClauses f k r) := by
  induction k generalizing r with
  | zero => exact .pure _
  | succ k ih => unfold readClauses; enrol
instance (r) : Enrols A (readClauseSection cfg m r) := by unfold readClauseSection; enrol
instance (k r) : Enrols A (readLocalTypes cfg m k r) := by
  induction k generalizing r with
  | zero => exact .pure _
  | succ k ih => unfold readLocalTypes; enrol
instance (t) : Enrols A (readLocals cfg m t) := by unfold readLocals; enrol
instance (b r) : Enrols A (readMoreSections cfg m b r) := by unfold readMoreSections; enrol
instance (r) : Enrols A (loadBody cfg m r) := by unfold loadBody; enrol
theorem loadType_enrols (a i) : Enrols (· = a) (loadType cfg a i m) := by
  have := fun w => (inferInstance : Enrols (· = a) (nextTypeId cfg)).frame w
  unfold loadType
  refine .bind inferInstance fun row => .bind inferInstance fun nm => .bind inferInstance fun ns => .bind inferInstance fun id =>
    .bind inferInstance fun t => .bind (Enrols.addType _ rfl) fun _ => inferInstance
instance (t i o) : Enrols A (loadField cfg m t i o) := by unfold loadField; enrol
instance (ps) : Enrols A (paramNames cfg m ps) := by
  induction ps with
  | nil => exact .pure _
  | cons e es ih =>
    unfold paramNames
    refine Enrols.bind ⟨fun w => ?_⟩ fun _ => ?_
    · have h1 := (inferInstance : Enrols A (typeFor cfg m e)).frame w
      split
      · next e' => rw [e'] at h1; exact h1
      · exact h1
    · enrol
instance (t r a s) : Enrols A (loadImpl cfg m t r a s) := by unfold loadImpl; enrol
instance (es i) : Enrols A (loadParams cfg m es i) := by
  induction es generalizing i with
  | nil => exact .pure _
  | cons e es ih => unfold loadParams; enrol
instance (t i) : Enrols A (loadMethod cfg m t i) := by unfold loadMethod; enrol
instance (a b) : Enrols A (lookupRow m a b) := by unfold lookupRow; enrol
instance (r) : Enrols A (loadMemberRef cfg m r) := by unfold loadMemberRef; enrol
instance (rs) : Enrols A (loadMemberRefs cfg m rs) := by
  induction rs with
  | nil => exact .pure _
  | cons e es ih => unfold loadMemberRefs; enrol
instance (rs) : Enrols A (loadTypeRefs m rs) := by
  induction rs with
  | nil => exact .pure _
  | cons e es ih => unfold loadTypeRefs; enrol
theorem loadTypes_enrols (a k i) : Enrols (· = a) (loadTypes cfg a m k i) := by
  induction k generalizing i with
  | zero => exact .pure _
  | succ k ih => unfold loadTypes; exact (loadType_enrols a i).bind fun _ => (ih _).bind fun _ => inferInstance
instance : Enrols A loadPrimitives := by unfold loadPrimitives; enrol

variable {t : Nat}
instance (t i) : Enrols A (resolveBase cfg m t i) := by unfold resolveBase; enrol
instance (t i) : Enrols A (resolveKind cfg m t i) := by unfold resolveKind; enrol
instance (t f k i o) : Enrols A (loadFields cfg f m t k i o) := by
  induction k generalizing i o with
  | zero => exact .pure _
  | succ k ih => unfold loadFields; enrol
instance (t f i) : Enrols A (resolveFields cfg f m t i) := by unfold resolveFields; enrol
instance (t k i) : Enrols A (loadMethods cfg m t k i) := by
  induction k generalizing i with
  | zero => exact .pure _
  | succ k ih => unfold loadMethods; enrol
instance (t i) : Enrols A (resolveMethods cfg m t i) := by unfold resolveMethods; enrol
instance (t f i) : Enrols A (resolveType cfg f m t i) := by unfold resolveType; enrol
instance (f ts i) : Enrols A (resolveTypes cfg f m ts i) := by
  induction ts generalizing i with
  | nil => exact .pure _
  | cons t ts ih => unfold resolveTypes; enrol
instance (r) : Enrols A (loadInterface cfg m r) := by unfold loadInterface; enrol
instance (rs) : Enrols A (loadInterfaces cfg m rs) := by
  induction rs with
  | nil => exact .pure _
  | cons r rs ih => unfold loadInterfaces; enrol

/-! ## The invariant -/

/-- The links of one assembly, the way back given by the number of the assembly. -/
structure AsmLinks (w : World) (a : AssemblyRec) : Prop where
  types : ∀ t ∈ a.types, ∃ r, w.types[t]? = some r ∧ r.assembly = a.id
  methods : ∀ x, x ∈ a.methodDefs ↔ ∃ t r, t ∈ a.types ∧ w.types[t]? = some r ∧ x ∈ r.methods
  fields : ∀ f, f ∈ a.fields ↔ ∃ t r, t ∈ a.types ∧ w.types[t]? = some r ∧ f ∈ r.fields
  entry : ∀ x, a.entryPoint = some x → x ∈ a.methodDefs
  typeRefs : ∀ t ∈ a.typeRefs, t < w.types.length
  methodRefs : ∀ x ∈ a.methodRefs, ∃ r, w.types[x.declaringType]? = some r ∧ x ∈ r.methods

theorem AsmLinks.spared {w w' : World} {a : AssemblyRec} (h : AsmLinks w a) (hs : Spared w.types.length w w') : AsmLinks w' a := by
  have keep : ∀ {t : Nat} {r}, w.types[t]? = some r → w'.types[t]? = some r := fun {t r} ht => by
    rw [hs.types t (List.getElem?_eq_some_iff.mp ht).1]; exact ht
  have back : ∀ {t : Nat} {r}, t ∈ a.types → w'.types[t]? = some r → w.types[t]? = some r := fun {t r} ht hr => by
    obtain ⟨q, hq, -⟩ := h.types t ht
    have := keep hq
    rw [hr] at this; cases this; exact hq
  refine ⟨fun t ht => ?_, fun x => ?_, fun f => ?_, h.entry, fun t ht => Nat.lt_of_lt_of_le (h.typeRefs t ht) hs.len, fun x hx => ?_⟩
  · obtain ⟨r, h1, h2⟩ := h.types t ht
    exact ⟨r, keep h1, h2⟩
  · rw [h.methods]
    exact ⟨fun ⟨t, r, h1, h2, h3⟩ => ⟨t, r, h1, keep h2, h3⟩, fun ⟨t, r, h1, h2, h3⟩ => ⟨t, r, h1, back h1 h2, h3⟩⟩
  · rw [h.fields]
    exact ⟨fun ⟨t, r, h1, h2, h3⟩ => ⟨t, r, h1, keep h2, h3⟩, fun ⟨t, r, h1, h2, h3⟩ => ⟨t, r, h1, back h1 h2, h3⟩⟩
  · obtain ⟨r, h1, h2⟩ := h.methodRefs x hx
    exact ⟨r, keep h1, h2⟩

structure Linked (w : World) : Prop where
  inv : Inv w
  fresh : FreshId w
  distinct : w.assemblies.Pairwise (fun a b => a.id ≠ b.id)
  links : ∀ a ∈ w.assemblies, AsmLinks w a
  owners : ∀ (t : Nat) r, w.types[t]? = some r → r.assembly < w.nextAssembly ∧
    ∀ a ∈ w.assemblies, a.id = r.assembly → t ∈ a.types ∨ IsArrayIn w t r

/-- A step that adds no assembly. New types are array types, or belong to an assembly that is not listed. -/
theorem Linked.same {w w' : World} {A : Nat → Prop} (h : Linked w) (hi : Inv w') (hf : FreshId w') (hs : Spared w.types.length w w')
    (ha : Enrolled A w w') (hA : ∀ i, A i → i < w.nextAssembly ∧ ∀ a ∈ w.assemblies, a.id ≠ i) : Linked w' := by
  refine ⟨hi, hf, by rw [ha.assemblies]; exact h.distinct, fun a hm => (h.links a (by rw [← ha.assemblies]; exact hm)).spared hs, ?_⟩
  rw [ha.assemblies, ha.nextAssembly]
  intro t
  induction t using Nat.strongRecOn with
  | ind t ih =>
    intro r hr
    by_cases ht : w.types.length ≤ t
    · rcases ha.new t r ht hr with g | g
      · exact ⟨(hA _ g).1, fun a hm he => absurd he ((hA _ g).2 a hm)⟩
      · refine ⟨?_, fun _ _ _ => .inr g⟩
        obtain ⟨e, re, g0, g1, -, g3⟩ := g
        rw [g3]
        exact (ih e g0 re g1).1
    · obtain ⟨q, hq⟩ : ∃ q, w.types[t]? = some q := ⟨_, List.getElem?_eq_getElem (by omega)⟩
      obtain ⟨r', k1, k2, k3⟩ := ha.heads t q hq
      rw [hr] at k1; cases k1
      obtain ⟨o1, o2⟩ := h.owners t q hq
      rw [k3]
      exact ⟨o1, fun a hm he => (o2 a hm he).imp_right fun g => ha.array g k2 k3⟩

variable {w w' : World} {a : AssemblyRec}

theorem mem_flatten_members {γ : Type} {ts : List Nat} {xss : List (List γ)} {g : TypeRec → List γ} {w : World} (hl : xss.length = ts.length)
    (h : ∀ (k : Nat) t, ts[k]? = some t → ∃ r, w.types[t]? = some r ∧ xss[k]? = some (g r)) (x : γ) :
    x ∈ xss.flatten ↔ ∃ t r, t ∈ ts ∧ w.types[t]? = some r ∧ x ∈ g r := by
  rw [List.mem_flatten]
  constructor
  · rintro ⟨xs, h1, h2⟩
    obtain ⟨k, hk⟩ := List.mem_iff_getElem?.mp h1
    have hlt : k < ts.length := by rw [← hl]; exact (List.getElem?_eq_some_iff.mp hk).1
    obtain ⟨r, g1, g2⟩ := h k ts[k] (List.getElem?_eq_getElem hlt)
    rw [hk] at g2; cases g2
    exact ⟨_, r, List.getElem_mem hlt, g1, h2⟩
  · rintro ⟨t, r, h1, h2, h3⟩
    obtain ⟨k, hk⟩ := List.mem_iff_getElem?.mp h1
    obtain ⟨r', g1, g2⟩ := h k t hk
    rw [h2] at g1; cases g1
    exact ⟨_, List.mem_of_getElem? g2, h3⟩

theorem loadTypes_assembly {id k i : Nat} {ts : List Nat} (hi : Inv w) (h : loadTypes cfg id m k i w = (.ok ts, w')) :
    ∀ t ∈ ts, ∃ r, w'.types[t]? = some r ∧ r.assembly = id := by
  obtain ⟨t1, -, -, t4⟩ := loadTypes_exact _ _ hi h
  intro t ht
  rw [t1, List.mem_range'_1] at ht
  obtain ⟨row, nm, ns, id', -, -, -, g⟩ := t4 (t - w.types.length) (by omega)
  rw [show w.types.length + (t - w.types.length) = t by omega] at g
  exact ⟨_, g, rfl⟩

theorem loadMemberRefs_declared {rows : List MemberRefRow} {xs : List MethodRec} (hi : Inv w)
    (h : loadMemberRefs cfg m rows w = (.ok xs, w)) : ∀ x ∈ xs, ∃ r, w.types[x.declaringType]? = some r ∧ x ∈ r.methods := by
  induction rows generalizing xs with
  | nil => simp only [loadMemberRefs, M.pure_run, Prod.mk.injEq, Res.ok.injEq] at h; obtain ⟨rfl, -⟩ := h; intro x hx; cases hx
  | cons row rows ih =>
    unfold loadMemberRefs at h
    obtain ⟨o, w1, h1, h⟩ := M.bind_eq_ok.mp h
    have r1 := loadMemberRef_run (cfg := cfg) (m := m) (w := w) row hi
    rw [h1] at r1
    obtain ⟨e, n1, n2⟩ := r1.2 o rfl
    dsimp only at e
    subst e
    obtain ⟨ys, w2, h2, h⟩ := M.bind_eq_ok.mp h
    have r2 := loadMemberRefs_run (cfg := cfg) (m := m) (w := w1) rows hi
    rw [h2] at r2
    have e2 : w2 = w1 := r2.2 ys rfl
    subst e2
    simp only [M.pure_run, Prod.mk.injEq, Res.ok.injEq] at h
    obtain ⟨rfl, -⟩ := h
    intro x hx
    rcases List.mem_append.mp hx with hx | hx
    · by_cases ht : row.parent.table = .typeRef
      · obtain ⟨tr, n, ns, t, r, nm, y, rfl, -, -, -, -, hr, -, hm⟩ := n2 ht
        rw [Option.mem_toList] at hx
        cases hx
        have hmem : x ∈ r.methods := by
          unfold TypeRec.getMethod at hm
          simpa using List.mem_of_find?_eq_some hm
        exact ⟨r, by rw [(hi.methods t r hr x hmem).2]; exact hr, hmem⟩
      · rw [n1 ht] at hx; cases hx
    · exact ih h2 x hx

theorem loadSelf_id {fuel : Nat} {name : Name} (hi : Inv w) (h : loadSelf cfg fuel m name w = (.ok a, w')) :
    a.id = w.nextAssembly ∧ ∀ t ∈ a.types, ∃ r, w'.types[t]? = some r ∧ r.assembly = a.id := by
  unfold loadSelf at h
  obtain ⟨mrefs, w1, h1, h'⟩ := M.bind_eq_ok.mp h
  clear h
  have r1 := loadMemberRefs_run (cfg := cfg) (m := m) (w := w) m.tables.memberRef hi
  rw [h1] at r1
  have e1 : w1 = w := r1.2 mrefs rfl
  subst e1
  obtain ⟨trefs, w2, h2, h⟩ := M.bind_eq_ok.mp h'
  clear h'
  have r2 := loadTypeRefs_run (cfg := cfg) (m := m) (w := w1) m.tables.typeRef hi
  rw [h2] at r2
  have e2 : w2 = w1 := (r2.2 trefs rfl).1
  subst e2
  rw [M.get_bind, M.modify_bind] at h
  obtain ⟨ts, w3, h3, h⟩ := M.bind_eq_ok.mp h
  obtain ⟨fs, w4, h4, h⟩ := M.bind_eq_ok.mp h
  obtain ⟨u, w5, h5, h⟩ := M.bind_eq_ok.mp h
  obtain ⟨xs, h6, h⟩ := M.view_bind_eq_ok.mp h
  obtain ⟨ep, h7, h⟩ := M.liftM_bind_eq_ok.mp h
  rw [M.modify_bind] at h
  simp only [M.pure_run, Prod.mk.injEq, Res.ok.injEq] at h
  obtain ⟨rfl, rfl⟩ := h
  have hi2 : Inv ({ w2 with nextAssembly := w2.nextAssembly + 1 } : World) := hi.upd (.assemblyId (cfg := cfg) w2)
  have r3 := loadTypes_run (cfg := cfg) (m := m) w2.nextAssembly m.tables.typeDef.length _ 0 hi2
  rw [h3] at r3
  have hi3 := hi2.steps r3.1
  have r4 := resolveTypes_run (cfg := cfg) (m := m) fuel ts w3 0 hi3
  rw [h4] at r4
  have hi4 := hi3.steps r4.1
  have r5 := loadInterfaces_run (cfg := cfg) (m := m) m.tables.interfaceImpl w4 hi4
  rw [h5] at r5
  refine ⟨rfl, fun t ht => ?_⟩
  obtain ⟨r, g1, g2⟩ := loadTypes_assembly hi2 h3 t ht
  have hs : Steps cfg w3 w5 := r4.1.trans r5.1
  obtain ⟨r', l1, l2, -⟩ := hs.types.1 _ _ g1
  exact ⟨r', l1, l2.assembly.trans g2⟩

theorem resolveEntryPoint_mem {a : AssemblyRec} {o : Option Nat} {x : MethodRec} (h : resolveEntryPoint cfg a o = .ok (some x)) :
    x ∈ a.methodDefs := by
  cases o with
  | none => cases h
  | some ep =>
    unfold resolveEntryPoint at h
    obtain ⟨y, h1, h⟩ := Res.bind_eq_ok.mp h
    obtain ⟨z, h2, h⟩ := Res.bind_eq_ok.mp h
    cases h
    cases y with
    | none => cases h2
    | some y =>
      cases h2
      have hbit : (Token.new ep 0x06).table.testBit 2 = true := by
        simp [Token.new, Token.table, Nat.testBit_shiftRight, Nat.testBit_and, Nat.testBit_or]
        exact ⟨.inr (by decide), by decide⟩
      unfold AssemblyRec.resolveMethod at h1
      split at h1
      · obtain ⟨i, -, h1⟩ := Res.bind_eq_ok.mp h1
        injection h1 with h1
        exact List.mem_of_getElem? h1
      · split at h1
        · rename_i e
          rw [e] at hbit; cases hbit
        · cases h1

theorem not_ok_of_bind {x : M α} {f : α → M β} {w : World} (h : ¬ ∃ b, ((x >>= f) w).1 = .ok b) :
    (¬ (∃ a, (x w).1 = .ok a) ∧ ((x >>= f) w).2 = (x w).2) ∨ ∃ a w1, x w = (.ok a, w1) ∧ ((x >>= f) w).2 = (f a w1).2 ∧ ¬ ∃ b, (f a w1).1 = .ok b := by
  rw [M.bind_run] at h ⊢
  rcases e : x w with ⟨r, w1⟩
  rw [e] at h
  cases r with
  | ok a => exact .inr ⟨a, w1, rfl, rfl, h⟩
  | _ => exact .inl ⟨(by rintro ⟨a, ha⟩; cases ha), rfl⟩

/-- What a load that fails has done. -/
theorem loadSelf_failed (fuel : Nat) (name : Name) (hi : Inv w) (h : ¬ ∃ a, (loadSelf cfg fuel m name w).1 = .ok a) :
    Enrolled (fun _ => False) w (loadSelf cfg fuel m name w).2 ∨
      Enrolled (· = w.nextAssembly) { w with nextAssembly := w.nextAssembly + 1 } (loadSelf cfg fuel m name w).2 := by
  unfold loadSelf at h ⊢
  rcases not_ok_of_bind h with ⟨-, e⟩ | ⟨mrefs, w1, h1, e, q1⟩ <;> rw [e] <;> clear e
  · exact .inl (Enrols.frame _)
  have r1 := loadMemberRefs_run (cfg := cfg) (m := m) (w := w) m.tables.memberRef hi
  rw [h1] at r1
  have e1 : w1 = w := r1.2 mrefs rfl
  subst e1
  rcases not_ok_of_bind q1 with ⟨-, e⟩ | ⟨trefs, w2, h2, e, q2⟩ <;> rw [e] <;> clear e
  · exact .inl (Enrols.frame _)
  have r2 := loadTypeRefs_run (cfg := cfg) (m := m) (w := w1) m.tables.typeRef hi
  rw [h2] at r2
  have e2 : w2 = w1 := (r2.2 trefs rfl).1
  subst e2
  rw [M.get_bind, M.modify_bind] at q2 ⊢
  right
  rcases not_ok_of_bind q2 with ⟨-, e⟩ | ⟨ts, w3, h3, e, q3⟩ <;> rw [e] <;> clear e
  · exact (loadTypes_enrols _ _ _).frame _
  have k3 := (loadTypes_enrols (cfg := cfg) (m := m) w2.nextAssembly m.tables.typeDef.length 0).frame { w2 with nextAssembly := w2.nextAssembly + 1 }
  rw [h3] at k3
  refine k3.trans ?_
  have rest : ∀ {x : M AssemblyRec} {w : World}, Enrols (fun _ => False) x → Enrolled (· = w2.nextAssembly) w (x w).2 :=
    fun hx => (hx.frame _).mono fun _ h => h.elim
  rcases not_ok_of_bind q3 with ⟨-, e⟩ | ⟨fs, w4, h4, e, q4⟩ <;> rw [e] <;> clear e
  · exact Enrols.frame _
  have k4 := (inferInstance : Enrols (· = w2.nextAssembly) (resolveTypes cfg fuel m ts 0)).frame w3
  rw [h4] at k4
  refine k4.trans ?_
  rcases not_ok_of_bind q4 with ⟨-, e⟩ | ⟨u, w5, h5, e, q5⟩ <;> rw [e] <;> clear e
  · exact Enrols.frame _
  have k5 := (inferInstance : Enrols (· = w2.nextAssembly) (loadInterfaces cfg m m.tables.interfaceImpl)).frame w4
  rw [h5] at k5
  refine k5.trans ?_
  rcases not_ok_of_bind q5 with ⟨-, e⟩ | ⟨xs, w6, h6, e, q6⟩ <;> rw [e] <;> clear e
  · exact Enrols.frame _
  have k6 := (Enrols.view (A := (· = w2.nextAssembly)) fun w => collectMethods w ts).frame w5
  rw [h6] at k6
  refine k6.trans ?_
  rcases not_ok_of_bind q6 with ⟨-, e⟩ | ⟨ep, w7, h7, e, q7⟩ <;> rw [e] <;> clear e
  · exact Enrols.frame _
  exact absurd ⟨_, rfl⟩ q7

/-- What a load that succeeds has done. -/
theorem loadSelf_added {fuel : Nat} {name : Name} (hi : Inv w) (h : loadSelf cfg fuel m name w = (.ok a, w')) :
    ∃ w1 : World, w' = { w1 with assemblies := w1.assemblies ++ [a] } ∧
      Enrolled (· = w.nextAssembly) { w with nextAssembly := w.nextAssembly + 1 } w1 ∧
      (∀ (t : Nat) r, w.types.length ≤ t → w1.types[t]? = some r → t ∈ a.types ∨ IsArrayIn w1 t r) := by
  unfold loadSelf at h
  obtain ⟨mrefs, w1, h1, h'⟩ := M.bind_eq_ok.mp h
  clear h
  have r1 := loadMemberRefs_run (cfg := cfg) (m := m) (w := w) m.tables.memberRef hi
  rw [h1] at r1
  have e1 : w1 = w := r1.2 mrefs rfl
  subst e1
  obtain ⟨trefs, w2, h2, h⟩ := M.bind_eq_ok.mp h'
  clear h'
  have r2 := loadTypeRefs_run (cfg := cfg) (m := m) (w := w1) m.tables.typeRef hi
  rw [h2] at r2
  have e2 : w2 = w1 := (r2.2 trefs rfl).1
  subst e2
  rw [M.get_bind, M.modify_bind] at h
  obtain ⟨ts, w3, h3, h⟩ := M.bind_eq_ok.mp h
  obtain ⟨fs, w4, h4, h⟩ := M.bind_eq_ok.mp h
  obtain ⟨u, w5, h5, h⟩ := M.bind_eq_ok.mp h
  obtain ⟨xs, h6, h⟩ := M.view_bind_eq_ok.mp h
  obtain ⟨ep, h7, h⟩ := M.liftM_bind_eq_ok.mp h
  rw [M.modify_bind] at h
  simp only [M.pure_run, Prod.mk.injEq, Res.ok.injEq] at h
  obtain ⟨rfl, rfl⟩ := h
  have hi2 : Inv ({ w2 with nextAssembly := w2.nextAssembly + 1 } : World) := hi.upd (.assemblyId (cfg := cfg) w2)
  obtain ⟨t1, t2, -, -⟩ := loadTypes_exact _ _ hi2 h3
  dsimp only at t1 t2
  have k3 := (loadTypes_enrols (cfg := cfg) (m := m) w2.nextAssembly m.tables.typeDef.length 0).frame { w2 with nextAssembly := w2.nextAssembly + 1 }
  rw [h3] at k3
  have k4 := (inferInstance : Enrols (fun _ => False) (resolveTypes cfg fuel m ts 0)).frame w3
  rw [h4] at k4
  have k5 := (inferInstance : Enrols (fun _ => False) (loadInterfaces cfg m m.tables.interfaceImpl)).frame w4
  rw [h5] at k5
  have k35 := k4.trans k5
  refine ⟨w5, rfl, k3.trans (k35.mono fun _ h => h.elim), fun t r ht hr => ?_⟩
  by_cases hb : w3.types.length ≤ t
  · exact (k35.new t r hb hr).elim (fun h => h.elim) .inr
  · left
    dsimp only
    rw [t1, List.mem_range'_1]
    omega

theorem loadSelf_linked (fuel : Nat) (name : Name) (h : Linked w) : Linked (loadSelf cfg fuel m name w).2 := by
  have hr := (loadSelf_run (cfg := cfg) (m := m) fuel name h.inv).1
  have hi := h.inv.steps hr
  have hf := h.fresh.steps hr
  have hs : Spared w.types.length w (loadSelf cfg fuel m name w).2 := Spares.frame _ (Nat.le_refl _)
  -- the state in which the number of the new assembly has been taken
  have hbump : Linked { w with nextAssembly := w.nextAssembly + 1 } :=
    ⟨h.inv.upd (.assemblyId (cfg := cfg) w), h.fresh.upd (.assemblyId (cfg := cfg) w), h.distinct,
      fun a ha => (h.links a ha).spared (.rest (Nat.le_refl _) rfl rfl List.prefix_rfl),
      fun t r hr => ⟨Nat.lt_succ_of_lt (h.owners t r hr).1, (h.owners t r hr).2⟩⟩
  have hA : ∀ i, i = w.nextAssembly → i < w.nextAssembly + 1 ∧ ∀ a ∈ w.assemblies, a.id ≠ i := fun i e =>
    ⟨by omega, fun a ha => by have := h.fresh a ha; omega⟩
  by_cases hok : ∃ a, (loadSelf cfg fuel m name w).1 = .ok a
  · obtain ⟨a, ha⟩ := hok
    rcases e : loadSelf cfg fuel m name w with ⟨r, w'⟩
    rw [e] at ha; dsimp only at ha; subst ha
    rw [e] at hi hf hs
    have sf := loadSelf_ok h.inv e
    obtain ⟨hid, hts⟩ := loadSelf_id h.inv e
    obtain ⟨w1, rfl, hw1, hnew⟩ := loadSelf_added h.inv e
    have new : AsmLinks { w1 with assemblies := w1.assemblies ++ [a] } a := by
      refine ⟨hts, ?_, ?_, fun x hx => ?_, fun t ht => ?_, fun x hx => ?_⟩
      · obtain ⟨xss, x1, x2, x3⟩ := sf.methods
        rw [x1]
        exact mem_flatten_members x2 fun k t hk => by obtain ⟨r, g1, g2, -⟩ := x3 k t hk; exact ⟨r, g1, g2⟩
      · obtain ⟨xss, x1, x2, x3⟩ := sf.fields
        rw [x1]
        exact mem_flatten_members x2 fun k t hk => by obtain ⟨r, fs, g1, g2, g3, -⟩ := x3 k t hk; exact ⟨r, g1, by rw [g3]; exact g2⟩
      · have := sf.entry
        rw [hx] at this
        exact resolveEntryPoint_mem this
      · have r := loadTypeRefs_run (cfg := cfg) (m := m) (w := w) m.tables.typeRef h.inv
        rw [sf.typeRefs] at r
        obtain ⟨-, l, r⟩ := r.2 _ rfl
        obtain ⟨k, hk⟩ := List.mem_iff_getElem?.mp ht
        have hlt : k < m.tables.typeRef.length := by rw [← l]; exact (List.getElem?_eq_some_iff.mp hk).1
        obtain ⟨n, ns, t', g1, -, -, g2⟩ := r k _ (List.getElem?_eq_getElem hlt)
        rw [hk] at g1; cases g1
        exact Nat.lt_of_lt_of_le (h.inv.getType_lt g2) hs.len
      · obtain ⟨r, g1, g2⟩ := loadMemberRefs_declared h.inv sf.methodRefs x hx
        exact ⟨r, by rw [hs.types _ (List.getElem?_eq_some_iff.mp g1).1]; exact g1, g2⟩
    refine ⟨hi, hf, ?_, ?_, ?_⟩
    · rw [sf.assemblies, List.pairwise_append]
      refine ⟨h.distinct, List.pairwise_singleton _ _, fun b hb c hc => ?_⟩
      rw [List.mem_singleton] at hc; subst hc
      have := h.fresh b hb
      omega
    · intro b hb
      rw [sf.assemblies, List.mem_append, List.mem_singleton] at hb
      rcases hb with hb | rfl
      · exact (h.links b hb).spared hs
      · exact new
    · intro t
      dsimp only
      rw [show w1.assemblies = w.assemblies from hw1.assemblies, show w1.nextAssembly = w.nextAssembly + 1 from hw1.nextAssembly]
      induction t using Nat.strongRecOn with
      | ind t ih =>
        intro r hr
        by_cases ht : w.types.length ≤ t
        · refine ⟨?_, fun b hb hbid => ?_⟩
          · rcases hw1.new t r ht hr with g | ⟨e', re, g0, g1, -, g3⟩
            · omega
            · rw [g3]; exact (ih e' g0 re g1).1
          · rcases hnew t r ht hr with g | g
            · obtain ⟨r', k1, k2⟩ := hts t g
              have hr' : ({ w1 with assemblies := w1.assemblies ++ [a] } : World).types[t]? = some r := hr
              rw [hr'] at k1; cases k1
              rw [List.mem_append, List.mem_singleton] at hb
              rcases hb with hb | rfl
              · have := h.fresh b hb; omega
              · exact .inl g
            · exact .inr g
        · obtain ⟨q, hq⟩ : ∃ q, w.types[t]? = some q := ⟨_, List.getElem?_eq_getElem (by omega)⟩
          obtain ⟨r', k1, k2, k3⟩ := hw1.heads t q hq
          rw [hr] at k1; cases k1
          obtain ⟨o1, o2⟩ := h.owners t q hq
          rw [k3]
          refine ⟨by omega, fun b hb hbid => ?_⟩
          rw [List.mem_append, List.mem_singleton] at hb
          rcases hb with hb | rfl
          · exact (o2 b hb hbid).imp_right fun g => hw1.array g k2 k3
          · omega
  · rcases loadSelf_failed fuel name h.inv hok with g | g
    · exact h.same hi hf hs g fun _ h => h.elim
    · refine hbump.same hi hf ?_ g hA
      exact ⟨hs.types, hs.len, hs.assemblies, hs.names⟩

/-! ## The loader -/

/-- The links are in order afterwards, whatever the outcome. -/
def LinksM (x : M α) : Prop := ∀ w, Linked w → Linked (x w).2

theorem LinksM.bind {x : M α} {f : α → M β} (hx : LinksM x) (hf : ∀ a, LinksM (f a)) : LinksM (x >>= f) := by
  intro w hw
  rw [M.bind_run]
  have h := hx w hw
  rcases e : x w with ⟨r, w1⟩
  rw [e] at h
  cases r with
  | ok a => exact hf a w1 h
  | _ => exact h
theorem LinksM.pure (a : α) : LinksM (Pure.pure a : M α) := fun _ h => h
theorem LinksM.liftM (x : Res α) : LinksM (_root_.liftM x : M α) := fun _ h => h
theorem LinksM.view (f : World → Res α) : LinksM (M.view f) := fun _ h => h

theorem loadRefs_links {load : Name → M AssemblyRec} (h : ∀ n, LinksM (load n)) (rows : List AssemblyRefRow) :
    LinksM (loadRefs load m rows) := by
  induction rows with
  | nil => exact .pure _
  | cons row rows ih =>
    unfold loadRefs
    refine (LinksM.liftM _).bind fun _ => (LinksM.liftM _).bind fun n => (LinksM.view _).bind fun b => ?_
    split
    · exact ih
    · exact (h n).bind fun _ => ih

theorem loadData_links (fs : Name → Option Bytes) (depth fuel : Nat) (data : Bytes) : LinksM (loadData cfg fs depth fuel data) := by
  induction depth generalizing data with
  | zero => exact fun _ h => h
  | succ depth ih =>
    unfold loadData
    refine (LinksM.liftM _).bind fun _ => (LinksM.liftM _).bind fun _ => (LinksM.liftM _).bind fun _ =>
      (loadRefs_links (fun n => (LinksM.liftM _).bind fun _ => ih _) _).bind fun _ w h => loadSelf_linked _ _ h

theorem loadAssembly_links (fs : Name → Option Bytes) (depth fuel : Nat) (n : Name) : LinksM (loadAssembly cfg fs depth fuel n) := by
  unfold loadAssembly
  exact (LinksM.liftM _).bind fun _ => loadData_links _ _ _ _

theorem LinksM.of_frame {x : M α} (hr : ∀ w, Inv w → Steps cfg w (x w).2) (ha : Enrols (fun _ => False) x) (hs : ∀ n, Spares n x) : LinksM x :=
  fun w h => h.same (h.inv.steps (hr w h.inv)) (h.fresh.steps (hr w h.inv)) ((hs _).frame w (Nat.le_refl _)) (ha.frame w) fun _ h => h.elim

theorem newRuntime_links (fs : Name → Option Bytes) (depth fuel : Nat) (a b : Bytes) : LinksM (newRuntime cfg fs depth fuel a b) := by
  unfold newRuntime
  refine (loadData_links _ _ _ _).bind fun _ => (loadData_links _ _ _ _).bind fun _ => ?_
  refine LinksM.of_frame (cfg := cfg) (fun w hi => (loadPrimitives_run w hi).1) ?_ fun n => ?_
  · infer_instance
  · infer_instance

theorem Linked.start : Linked {} := ⟨.empty, (fun a ha => by cases ha), .nil, (fun a ha => by cases ha), (fun t r h => by cases h)⟩

theorem Reached.linked (h : Reached cfg w) : Linked w := by
  induction h with
  | start => exact .start
  | runtime fs depth fuel a b _ ih => exact newRuntime_links fs depth fuel a b _ ih
  | loadFile fs depth fuel data _ ih => exact loadData_links fs depth fuel data _ ih
  | loadName fs depth fuel n _ ih => exact loadAssembly_links fs depth fuel n _ ih
  | arrayOf t _ ih =>
    exact LinksM.of_frame (cfg := cfg) (fun w hi => (arrayType_run t hi).1) inferInstance (fun n => inferInstance) _ ih
  | write s _ ih =>
    exact ih.same (ih.inv.upd (.output (cfg := cfg) _ s)) (ih.fresh.upd (.output (cfg := cfg) _ s))
      (.rest (Nat.le_refl _) rfl rfl List.prefix_rfl)
      (A := fun _ => False) ⟨rfl, rfl, (Enrolled.refl (A := fun _ => False) _).heads, (Enrolled.refl (A := fun _ => False) _).new⟩ fun _ h => h.elim

/-! ## NumbersM of assemblies are not used twice -/

/-- Every new assembly has a new number. -/
structure NewIds (w w' : World) : Prop where
  le : w.nextAssembly ≤ w'.nextAssembly
  ids : ∀ a ∈ w'.assemblies, a ∈ w.assemblies ∨ w.nextAssembly ≤ a.id

theorem NewIds.refl (w : World) : NewIds w w := ⟨Nat.le_refl _, fun _ h => .inl h⟩
theorem NewIds.trans {a b c : World} (h : NewIds a b) (g : NewIds b c) : NewIds a c :=
  ⟨Nat.le_trans h.le g.le, fun x hx => (g.ids x hx).elim (h.ids x) fun k => .inr (Nat.le_trans h.le k)⟩

def NumbersM (x : M α) : Prop := ∀ w, Inv w → NewIds w (x w).2 ∧ Inv (x w).2

theorem NumbersM.bind {x : M α} {f : α → M β} (hx : NumbersM x) (hf : ∀ a, NumbersM (f a)) : NumbersM (x >>= f) := by
  intro w hw
  rw [M.bind_run]
  have h := hx w hw
  rcases e : x w with ⟨r, w1⟩
  rw [e] at h
  cases r with
  | ok a => exact ⟨h.1.trans (hf a w1 h.2).1, (hf a w1 h.2).2⟩
  | _ => exact h
theorem NumbersM.pure (a : α) : NumbersM (Pure.pure a : M α) := fun _ h => ⟨.refl _, h⟩
theorem NumbersM.liftM (x : Res α) : NumbersM (_root_.liftM x : M α) := fun _ h => ⟨.refl _, h⟩
theorem NumbersM.view (f : World → Res α) : NumbersM (M.view f) := fun _ h => ⟨.refl _, h⟩
theorem NumbersM.of_frame {x : M α} (hr : ∀ w, Inv w → Steps cfg w (x w).2) (ha : Enrols (fun _ => False) x) : NumbersM x :=
  fun w h => ⟨⟨Nat.le_of_eq (ha.frame w).nextAssembly.symm, fun a hm => .inl (by rw [← (ha.frame w).assemblies]; exact hm)⟩, h.steps (hr w h)⟩

theorem loadSelf_numbers (fuel : Nat) (name : Name) : NumbersM (loadSelf cfg fuel m name) := by
  intro w hi
  refine ⟨?_, hi.steps (loadSelf_run (cfg := cfg) (m := m) fuel name hi).1⟩
  by_cases hok : ∃ a, (loadSelf cfg fuel m name w).1 = .ok a
  · obtain ⟨a, ha⟩ := hok
    rcases e : loadSelf cfg fuel m name w with ⟨r, w'⟩
    rw [e] at ha; dsimp only at ha; subst ha
    obtain ⟨w1, rfl, hw1, -⟩ := loadSelf_added hi e
    have h1 : w1.nextAssembly = w.nextAssembly + 1 := hw1.nextAssembly
    have h2 : w1.assemblies = w.assemblies := hw1.assemblies
    refine ⟨?_, fun b hb => ?_⟩
    · dsimp only; omega
    · rw [List.mem_append, List.mem_singleton, h2] at hb
      exact hb.imp_right fun hb => by rw [hb, (loadSelf_id hi e).1]; exact Nat.le_refl _
  · rcases loadSelf_failed fuel name hi hok with g | g
    · exact ⟨Nat.le_of_eq g.nextAssembly.symm, fun a ha => .inl (by rw [← g.assemblies]; exact ha)⟩
    · refine ⟨?_, fun a ha => .inl ?_⟩
      · rw [g.nextAssembly]; exact Nat.le_succ _
      · rw [g.assemblies] at ha; exact ha

theorem loadRefs_numbers {load : Name → M AssemblyRec} (h : ∀ n, NumbersM (load n)) (rows : List AssemblyRefRow) :
    NumbersM (loadRefs load m rows) := by
  induction rows with
  | nil => exact .pure _
  | cons row rows ih =>
    unfold loadRefs
    refine (NumbersM.liftM _).bind fun _ => (NumbersM.liftM _).bind fun n => (NumbersM.view _).bind fun b => ?_
    split
    · exact ih
    · exact (h n).bind fun _ => ih

theorem loadData_numbers (fs : Name → Option Bytes) (depth fuel : Nat) (data : Bytes) : NumbersM (loadData cfg fs depth fuel data) := by
  induction depth generalizing data with
  | zero => exact fun _ h => ⟨.refl _, h⟩
  | succ depth ih =>
    unfold loadData
    exact (NumbersM.liftM _).bind fun _ => (NumbersM.liftM _).bind fun _ => (NumbersM.liftM _).bind fun _ =>
      (loadRefs_numbers (fun n => (NumbersM.liftM _).bind fun _ => ih _) _).bind fun _ => loadSelf_numbers _ _

theorem Later.newIds (h : Later cfg w w') (hi : Inv w) : NewIds w w' ∧ Inv w' := by
  induction h with
  | refl => exact ⟨.refl _, hi⟩
  | runtime fs depth fuel a b _ ih =>
    have : NumbersM (newRuntime cfg fs depth fuel a b) := by
      unfold newRuntime
      exact (loadData_numbers _ _ _ _).bind fun _ => (loadData_numbers _ _ _ _).bind fun _ =>
        NumbersM.of_frame (cfg := cfg) (fun w hi => (loadPrimitives_run w hi).1) inferInstance
    exact ⟨ih.1.trans (this _ ih.2).1, (this _ ih.2).2⟩
  | loadFile fs depth fuel data _ ih =>
    have := loadData_numbers (cfg := cfg) fs depth fuel data _ ih.2
    exact ⟨ih.1.trans this.1, this.2⟩
  | loadName fs depth fuel n _ ih =>
    have : NumbersM (loadAssembly cfg fs depth fuel n) := by
      unfold loadAssembly
      exact (NumbersM.liftM _).bind fun _ => loadData_numbers _ _ _ _
    exact ⟨ih.1.trans (this _ ih.2).1, (this _ ih.2).2⟩
  | arrayOf t _ ih =>
    have := NumbersM.of_frame (cfg := cfg) (x := arrayType cfg t) (fun w hi => (arrayType_run t hi).1) inferInstance _ ih.2
    exact ⟨ih.1.trans this.1, this.2⟩
  | write s _ ih => exact ⟨⟨ih.1.le, ih.1.ids⟩, ih.2.upd (.output (cfg := cfg) _ s)⟩

end Clr
