import Verif.Lemmas.Grow
import Verif.Lemmas.MethodBody
import Verif.Spec.Partition
/-! # What loading one assembly registers -/

namespace Clr
open Spec

variable {cfg : Cfg} {m : Metadata}

/-! ## Which types are touched -/

/-- Types outside `S` keep their records, and the assembly list is untouched. -/
structure Only (S : Nat → Prop) (w w' : World) : Prop where
  types : ∀ j < w.types.length, ¬ S j → w'.types[j]? = w.types[j]?
  le : w.types.length ≤ w'.types.length
  assemblies : w'.assemblies = w.assemblies
  output : w'.output = w.output

theorem Only.refl (S : Nat → Prop) (w : World) : Only S w w := ⟨fun _ _ _ => rfl, Nat.le_refl _, rfl, rfl⟩
theorem Only.trans {S : Nat → Prop} {a b c : World} (h : Only S a b) (g : Only S b c) : Only S a c :=
  ⟨fun j hj hs => (g.types j (Nat.lt_of_lt_of_le hj h.le) hs).trans (h.types j hj hs), Nat.le_trans h.le g.le, g.3.trans h.3,
    g.4.trans h.4⟩
theorem Only.mono {S T : Nat → Prop} {a b : World} (h : Only S a b) (hst : ∀ j < a.types.length, S j → T j) : Only T a b :=
  ⟨fun j hj ht => h.types j hj fun hs => ht (hst j hj hs), h.2, h.3, h.4⟩
theorem Adds.only {w w' : World} (h : Adds w w') (S : Nat → Prop) : Only S w w' :=
  ⟨fun _ hj _ => h.get_lt hj, h.le, h.assemblies, h.output⟩

theorem Only.updType (w : World) (t : Nat) (f : TypeRec → TypeRec) : Only (· = t) w (w.updType t f) := by
  refine ⟨fun j hj hs => ?_, by simp [World.updType], rfl, rfl⟩
  simp only [World.updType, getElem?_modify']
  rw [if_neg (fun h => hs h.symm)]

/-- The code touches only the types in `S`, whatever its outcome. -/
def Touch (S : Nat → Prop) {α : Type} (x : M α) : Prop := ∀ w, Only S w (x w).2

namespace Touch

variable {α β : Type} {S : Nat → Prop}

theorem of_grow {x : M α} (h : Grow x) : Touch S x := fun w => (h w).only S
theorem pure (a : α) : Touch S (Pure.pure a : M α) := of_grow (.pure a)
theorem lift (x : Res α) : Touch S (M.lift x) := of_grow (.lift x)
theorem bind {x : M α} {f : α → M β} (hx : Touch S x) (hf : ∀ a, Touch S (f a)) : Touch S (x >>= f) := by
  intro w
  rw [M.bind_run]
  have h := hx w
  rcases e : x w with ⟨r, w1⟩
  rw [e] at h
  cases r with
  | ok a => exact h.trans (hf a w1)
  | _ => exact h
theorem liftM_bind {x : Res α} {f : α → M β} (hf : ∀ a, Touch S (f a)) : Touch S ((_root_.liftM x : M α) >>= f) :=
  (of_grow (.liftM x)).bind hf
theorem view_bind {g : World → Res α} {f : α → M β} (hf : ∀ a, Touch S (f a)) : Touch S (M.view g >>= f) :=
  (of_grow (.view g)).bind hf
theorem updType (t : Nat) (f : TypeRec → TypeRec) : Touch (· = t) (M.modify (·.updType t f)) := fun w => Only.updType w t f

end Touch

theorem resolveBase_touch (t i : Nat) : Touch (· = t) (resolveBase cfg m t i) := by
  unfold resolveBase
  refine Touch.liftM_bind fun row => ?_
  split
  · exact Touch.pure _
  · exact Touch.liftM_bind fun n => Touch.view_bind fun b => Touch.updType t _

theorem resolveKind_touch (t i : Nat) : Touch (· = t) (resolveKind cfg m t i) := by
  unfold resolveKind
  exact Touch.liftM_bind fun row => Touch.view_bind fun b => Touch.updType t _

theorem loadFields_touch (fuel t n : Nat) : ∀ i o, Touch (· = t) (loadFields cfg fuel m t n i o) := by
  induction n with
  | zero => intro i o; exact Touch.pure _
  | succ n ih =>
    intro i o
    unfold loadFields
    exact (Touch.of_grow (loadField_grow _ _ _)).bind fun _ => (Touch.updType t _).bind fun _ => Touch.view_bind fun _ =>
      Touch.liftM_bind fun _ => (ih _ _).bind fun _ => Touch.pure _

theorem resolveFields_touch (fuel t i : Nat) : Touch (· = t) (resolveFields cfg fuel m t i) := by
  unfold resolveFields
  exact Touch.liftM_bind fun ⟨_, _⟩ => Touch.liftM_bind fun _ => Touch.liftM_bind fun _ => Touch.view_bind fun _ =>
    loadFields_touch _ _ _ _ _

theorem loadMethods_touch (t n : Nat) : ∀ i, Touch (· = t) (loadMethods cfg m t n i) := by
  induction n with
  | zero => intro i; exact Touch.pure _
  | succ n ih =>
    intro i
    unfold loadMethods
    exact (Touch.of_grow (loadMethod_grow _ _)).bind fun _ => (Touch.updType t _).bind fun _ => ih _

theorem resolveMethods_touch (t i : Nat) : Touch (· = t) (resolveMethods cfg m t i) := by
  unfold resolveMethods
  exact Touch.liftM_bind fun ⟨_, _⟩ => Touch.liftM_bind fun _ => Touch.liftM_bind fun _ => loadMethods_touch _ _ _

theorem resolveType_touch (fuel t i : Nat) : Touch (· = t) (resolveType cfg fuel m t i) := by
  unfold resolveType
  exact (resolveBase_touch t i).bind fun _ => (resolveKind_touch t i).bind fun _ => (resolveFields_touch fuel t i).bind fun _ =>
    (resolveMethods_touch t i).bind fun _ => Touch.pure _

theorem Touch.mono {α : Type} {S T : Nat → Prop} {x : M α} (h : Touch S x) (hst : ∀ j, S j → T j) : Touch T x :=
  fun w => (h w).mono fun j _ => hst j

theorem resolveTypes_touch (fuel : Nat) (ts : List Nat) : ∀ i, Touch (· ∈ ts) (resolveTypes cfg fuel m ts i) := by
  induction ts with
  | nil => intro i; exact Touch.pure _
  | cons t ts ih =>
    intro i
    unfold resolveTypes
    exact ((resolveType_touch fuel t i).mono fun j hj => by simp [hj]).bind fun _ =>
      ((ih (i + 1)).mono fun j hj => by simp [hj]).bind fun _ => Touch.pure _

/-! ## Types after registration -/

/-- Nothing but `types` was appended. -/
theorem loadTypes_exact (assembly n : Nat) : ∀ {w w' : World} {i : Nat} {ts : List Nat}, Inv w →
    loadTypes cfg assembly m n i w = (.ok ts, w') → ts = List.range' w.types.length n ∧
      w'.types.length = w.types.length + n ∧ (∀ j < w.types.length, w'.types[j]? = w.types[j]?) ∧
      (∀ k < n, ∃ row name nspace id, tableIndex cfg m.tables.typeDef (i + k + 1) = .ok row ∧
        m.string! row.name = .ok name ∧ m.string! row.nspace = .ok nspace ∧
        w'.types[w.types.length + k]? = some { id, name, nspace, fullName := fullName nspace name, assembly,
                                               isAbstract := row.attributes.isAbstract }) := by
  induction n with
  | zero =>
    intro w w' i ts hi h
    simp only [loadTypes, M.pure_run, Prod.mk.injEq, Res.ok.injEq] at h
    obtain ⟨rfl, rfl⟩ := h
    exact ⟨rfl, rfl, fun _ _ => rfl, fun k hk => absurd hk (by omega)⟩
  | succ n ih =>
    intro w w' i ts hi h
    unfold loadTypes at h
    obtain ⟨t, w1, h1, h⟩ := M.bind_eq_ok.mp h
    obtain ⟨ts', w2, h2, h⟩ := M.bind_eq_ok.mp h
    simp only [M.pure_run, Prod.mk.injEq, Res.ok.injEq] at h
    obtain ⟨rfl, rfl⟩ := h
    have hr := loadType_run (cfg := cfg) (m := m) assembly i hi
    rw [h1] at hr
    obtain ⟨hs, hq⟩ := hr
    obtain ⟨rfl, row, name, nspace, g1, g2, g3, g4⟩ := hq t rfl
    dsimp only at g4 hs
    obtain ⟨k1, k2, k3, k4⟩ := ih (hi.steps hs) h2
    have hl : w1.types.length = w.types.length + 1 := by rw [g4]; simp
    refine ⟨by rw [k1, hl]; rfl, by omega, fun j hj => ?_, fun k hk => ?_⟩
    · rw [k3 j (by omega), g4, List.getElem?_append_left hj]
    · cases k with
      | zero =>
        refine ⟨row, name, nspace, w.nextTypeId, g1, g2, g3, ?_⟩
        rw [Nat.add_zero, k3 _ (by omega), g4, List.getElem?_concat_length]
      | succ k =>
        obtain ⟨row', name', nspace', id', l1, l2, l3, l4⟩ := k4 k (by omega)
        refine ⟨row', name', nspace', id', ?_, l2, l3, ?_⟩
        · rw [← l1]; congr 1; omega
        · rw [← l4, hl]; congr 1; omega

/-! ## Fields and methods of one type -/

/-- `xs` are the rows of the run of type row `i`. -/
def RunIs (cfg : Cfg) (m : Metadata) (list : TypeDefRow → Nat) (rows i : Nat) {α : Type} (P : Nat → α → Prop) (xs : List α) : Prop :=
  ∃ s n, ownedRun cfg m list rows i = .ok (s, n) ∧ xs.length = n ∧ ∀ (k : Nat) x, xs[k]? = some x → P (s + k) x

theorem loadMethods_ok (t n : Nat) : ∀ {w w' : World} {i : Nat} {tr : TypeRec}, Inv w → w.types[t]? = some tr →
    loadMethods cfg m t n i w = (.ok (), w') → ∃ xs, xs.length = n ∧
      (∀ (k : Nat) x, xs[k]? = some x → MethodRowIs cfg m t (i + k) x) ∧
      w'.types[t]? = some { tr with methods := tr.methods ++ xs } := by
  induction n with
  | zero =>
    intro w w' i tr hi ht h
    simp only [loadMethods, M.pure_run, Prod.mk.injEq, true_and] at h
    subst h
    exact ⟨[], rfl, by simp, by simpa using ht⟩
  | succ n ih =>
    intro w w' i tr hi ht h
    unfold loadMethods at h
    obtain ⟨x, w1, h1, h⟩ := M.bind_eq_ok.mp h
    rw [M.modify_bind] at h
    have hr := loadMethod_run (cfg := cfg) (m := m) t i hi
    rw [h1] at hr
    obtain ⟨hx, hrow⟩ := hr.2 x rfl
    have hg := loadMethod_grow (cfg := cfg) (m := m) t i w
    rw [h1] at hg
    have ht1 := hg.get ht
    have hi1 := hi.steps hr.1
    have hi2 := hi1.upd (.method (cfg := cfg) w1 t x hx hrow.declaring)
    obtain ⟨xs, g1, g2, g3⟩ := ih hi2 (tr := { tr with methods := tr.methods ++ [x] })
      (by simp [World.updType, ht1]) h
    refine ⟨x :: xs, by simp [g1], fun k y hk => ?_, by rw [g3]; simp⟩
    cases k with
    | zero => simp at hk; subst hk; exact hrow
    | succ k =>
      have := g2 k y (by simpa using hk)
      rwa [show i + 1 + k = i + (k + 1) by omega] at this

theorem loadFields_ok (fuel t n : Nat) : ∀ {w w' : World} {i o : Nat} {tr : TypeRec} {fs : List FieldRec}, Inv w →
    w.types[t]? = some tr → loadFields cfg fuel m t n i o w = (.ok fs, w') → fs.length = n ∧
      (∀ (k : Nat) x, fs[k]? = some x → FieldRowIs cfg m t (i + k) x) ∧
      w'.types[t]? = some { tr with fields := tr.fields ++ fs } := by
  induction n with
  | zero =>
    intro w w' i o tr fs hi ht h
    simp only [loadFields, M.pure_run, Prod.mk.injEq, Res.ok.injEq] at h
    obtain ⟨rfl, rfl⟩ := h
    exact ⟨rfl, by simp, by simpa using ht⟩
  | succ n ih =>
    intro w w' i o tr fs hi ht h
    unfold loadFields at h
    obtain ⟨x, w1, h1, h⟩ := M.bind_eq_ok.mp h
    rw [M.modify_bind] at h
    obtain ⟨s, h3, h⟩ := M.view_bind_eq_ok.mp h
    obtain ⟨o', h4, h⟩ := M.liftM_bind_eq_ok.mp h
    obtain ⟨fs', w3, h5, h⟩ := M.bind_eq_ok.mp h
    simp only [M.pure_run, Prod.mk.injEq, Res.ok.injEq] at h
    obtain ⟨rfl, rfl⟩ := h
    have hr := loadField_run (cfg := cfg) (m := m) t i o hi
    rw [h1] at hr
    obtain ⟨hx, -, hrow⟩ := hr.2 x rfl
    have hg := loadField_grow (cfg := cfg) (m := m) t i o w
    rw [h1] at hg
    have ht1 := hg.get ht
    have hi2 := (hi.steps hr.1).upd (.field (cfg := cfg) w1 t x hx hrow.declaring)
    obtain ⟨g1, g2, g3⟩ := ih hi2 (tr := { tr with fields := tr.fields ++ [x] })
      (by simp [World.updType, ht1]) h5
    refine ⟨by simp [g1], fun k y hk => ?_, by rw [g3]; simp⟩
    cases k with
    | zero => simp at hk; subst hk; exact hrow
    | succ k =>
      have := g2 k y (by simpa using hk)
      rwa [show i + 1 + k = i + (k + 1) by omega] at this

/-- What the base column of a type row makes the base type: nothing, or a type with the name the column gives. -/
inductive BaseIs (cfg : Cfg) (m : Metadata) (ts : List TypeRec) (h : TypeDefOrRef) : Option Nat → Prop
  | none (hh : h = .typeDef 0) : BaseIs cfg m ts h none
  | some {n : Name} {b : Nat} {br : TypeRec} (hh : h ≠ .typeDef 0) (hn : typeDefOrRefName cfg m h = .ok (some n))
      (hb : ts[b]? = Option.some br) (hf : br.fullName = n) : BaseIs cfg m ts h (some b)

/-- The name of the base type a record refers to. -/
inductive BaseNamed (ts : List TypeRec) : Option Nat → Option Name → Prop
  | none : BaseNamed ts none none
  | some {b : Nat} {br : TypeRec} (hb : ts[b]? = Option.some br) : BaseNamed ts (some b) (some br.fullName)

/-- Base and kind follow the type row. -/
structure KindIs (cfg : Cfg) (m : Metadata) (w : World) (row : TypeDefRow) (tr : TypeRec) : Prop where
  base : BaseIs cfg m w.types row.baseType.typeDefOrRef tr.base
  kind : ∃ n, BaseNamed w.types tr.base n ∧ tr.kind = some (kindOf row.attributes.semantics n)

theorem BaseIs.steps {w w' : World} {h : TypeDefOrRef} {o : Option Nat} (hb : BaseIs cfg m w.types h o) (hs : Steps cfg w w') :
    BaseIs cfg m w'.types h o := by
  cases hb with
  | none hh => exact .none hh
  | some hh hn hb hf =>
    obtain ⟨br', h1, h2, _⟩ := hs.types.1 _ _ hb
    exact .some hh hn h1 (h2.fullName.trans hf)

theorem KindIs.steps {w w' : World} {row : TypeDefRow} {tr : TypeRec} (h : KindIs cfg m w row tr) (hs : Steps cfg w w') :
    KindIs cfg m w' row tr := by
  refine ⟨h.base.steps hs, ?_⟩
  obtain ⟨n, h1, h2⟩ := h.kind
  refine ⟨n, ?_, h2⟩
  generalize tr.base = o at h1
  cases h1 with
  | none => exact .none
  | some hb =>
    obtain ⟨br', h1, h2, _⟩ := hs.types.1 _ _ hb
    rw [← h2.fullName]
    exact .some h1

theorem resolveBase_ok {t i : Nat} {w w' : World} {tr : TypeRec} (hi : Inv w) (ht : w.types[t]? = some tr)
    (h : resolveBase cfg m t i w = (.ok (), w')) : ∃ b row, w'.types[t]? = some { tr with base := b } ∧
      tableIndex cfg m.tables.typeDef (i + 1) = .ok row ∧ (tr.base = none → BaseIs cfg m w.types row.baseType.typeDefOrRef b) := by
  unfold resolveBase at h
  obtain ⟨row, hrow, h⟩ := M.liftM_bind_eq_ok.mp h
  split at h
  next hh =>
    simp only [M.pure_run, Prod.mk.injEq, true_and] at h
    subst h
    exact ⟨tr.base, row, ht, hrow, fun e => by rw [e]; exact .none hh⟩
  next hh =>
    obtain ⟨n, hn, h⟩ := M.liftM_bind_eq_ok.mp h
    obtain ⟨b, hb, h⟩ := M.view_bind_eq_ok.mp h
    simp only [M.modify_run, Prod.mk.injEq, true_and] at h
    subst h
    refine ⟨some b, row, by simp [World.updType, ht], hrow, fun _ => ?_⟩
    cases n with
    | none => simp [Res.ofOption] at hb
    | some n =>
      have hg : w.getType n = some b := by
        cases e : w.getType n with
        | none => simp [e, Res.ofOption] at hb
        | some c => simp only [Option.bind_some, e, Res.ofOption, Res.ok.injEq] at hb; rw [hb]
      obtain ⟨br, h1, h2, _⟩ := (hi.getType_iff n b).mp hg
      exact .some hh hn h1 h2

theorem resolveKind_ok {t i : Nat} {w w' : World} {tr : TypeRec} (ht : w.types[t]? = some tr)
    (h : resolveKind cfg m t i w = (.ok (), w')) : ∃ k row n, w'.types[t]? = some { tr with kind := some k } ∧
      tableIndex cfg m.tables.typeDef (i + 1) = .ok row ∧ BaseNamed w.types tr.base n ∧ k = kindOf row.attributes.semantics n := by
  unfold resolveKind at h
  obtain ⟨row, hrow, h⟩ := M.liftM_bind_eq_ok.mp h
  obtain ⟨n, hn, h⟩ := M.view_bind_eq_ok.mp h
  simp only [M.modify_run, Prod.mk.injEq, true_and] at h
  subst h
  refine ⟨_, row, n, by simp [World.updType, ht], hrow, ?_, rfl⟩
  unfold World.baseName at hn
  have hta : w.typeAt t = .ok tr := by unfold World.typeAt; rw [ht]; rfl
  rw [hta, Res.ok_bind] at hn
  cases hb : tr.base with
  | none => rw [hb] at hn; cases hn; exact .none
  | some b =>
    rw [hb] at hn
    obtain ⟨br, h1, h2⟩ := Res.bind_eq_ok.mp hn
    cases h2
    refine .some ?_
    unfold World.typeAt at h1
    cases e : w.types[b]? with
    | none => rw [e] at h1; cases h1
    | some c => rw [e] at h1; cases h1; rfl

/-- The fields and methods of a freshly registered type after it was resolved. -/
theorem resolveType_ok {fuel t i : Nat} {w w' : World} {tr : TypeRec} {fs : List FieldRec} (hi : Inv w)
    (ht : w.types[t]? = some tr) (hf : tr.fields = []) (hm : tr.methods = []) (hbase : tr.base = none) (hif : tr.interfaces = [])
    (h : resolveType cfg fuel m t i w = (.ok fs, w')) :
    ∃ tr', w'.types[t]? = some tr' ∧ tr'.fields = fs ∧ tr'.interfaces = [] ∧
      (∃ row, tableIndex cfg m.tables.typeDef (i + 1) = .ok row ∧ KindIs cfg m w' row tr') ∧
      RunIs cfg m (·.fieldList) m.tables.field.length i (FieldRowIs cfg m t) fs ∧
      RunIs cfg m (·.methodList) m.tables.methodDef.length i (MethodRowIs cfg m t) tr'.methods := by
  unfold resolveType at h
  obtain ⟨_, w1, h1, h⟩ := M.bind_eq_ok.mp h
  obtain ⟨_, w2, h2, h⟩ := M.bind_eq_ok.mp h
  obtain ⟨fs', w3, h3, h⟩ := M.bind_eq_ok.mp h
  obtain ⟨_, w4, h4, h⟩ := M.bind_eq_ok.mp h
  simp only [M.pure_run, Prod.mk.injEq, Res.ok.injEq] at h
  obtain ⟨rfl, rfl⟩ := h
  have r1 := resolveBase_run (cfg := cfg) (m := m) t i hi
  rw [h1] at r1
  have hi1 := hi.steps r1.1
  have r2 := resolveKind_run (cfg := cfg) (m := m) t i hi1
  rw [h2] at r2
  have hi2 := hi1.steps r2.1
  have r3 := resolveFields_run (cfg := cfg) (m := m) fuel t i hi2
  rw [h3] at r3
  have hi3 := hi2.steps r3.1
  have r4 := resolveMethods_run (cfg := cfg) (m := m) t i hi3
  rw [h4] at r4
  obtain ⟨b, row, g1, g3, g4⟩ := resolveBase_ok hi ht h1
  obtain ⟨k, row', n0, g2, g5, g6, g7⟩ := resolveKind_ok g1 h2
  rw [g3] at g5; cases g5
  unfold resolveFields at h3
  obtain ⟨⟨s, n⟩, o1, h3⟩ := M.liftM_bind_eq_ok.mp h3
  obtain ⟨_, o2, h3⟩ := M.liftM_bind_eq_ok.mp h3
  obtain ⟨_, o3, h3⟩ := M.liftM_bind_eq_ok.mp h3
  obtain ⟨o, o4, h3⟩ := M.view_bind_eq_ok.mp h3
  obtain ⟨f1, f2, f3⟩ := loadFields_ok fuel t n hi2 g2 h3
  unfold resolveMethods at h4
  obtain ⟨⟨s', n'⟩, q1, h4⟩ := M.liftM_bind_eq_ok.mp h4
  obtain ⟨_, q2, h4⟩ := M.liftM_bind_eq_ok.mp h4
  obtain ⟨_, q3, h4⟩ := M.liftM_bind_eq_ok.mp h4
  obtain ⟨xs, x1, x2, x3⟩ := loadMethods_ok t n' hi3 f3 h4
  refine ⟨_, x3, by simp [hf], hif, ⟨row, g3, ?_⟩, ⟨s, n, o1, f1, f2⟩, s', n', q1, by simp [hm, x1], ?_⟩
  · have k1 : BaseIs cfg m w4.types row.baseType.typeDefOrRef b := (g4 hbase).steps (((r1.1.trans r2.1).trans r3.1).trans r4.1)
    have k2 : KindIs cfg m w1 row { tr with base := b, kind := some k } := ⟨(g4 hbase).steps r1.1, n0, g6, by rw [g7]⟩
    have k3 := k2.steps ((r2.1.trans r3.1).trans r4.1)
    exact ⟨k1, k3.kind⟩
  simpa [hm] using x2

/-- The same for a list of types in order. -/
theorem resolveTypes_ok {fuel : Nat} (ts : List Nat) : ∀ {i : Nat} {w w' : World} {fs : List FieldRec}, Inv w → ts.Nodup →
    (∀ t ∈ ts, ∃ tr, w.types[t]? = some tr ∧ tr.fields = [] ∧ tr.methods = [] ∧ tr.base = none ∧ tr.interfaces = []) →
    resolveTypes cfg fuel m ts i w = (.ok fs, w') →
    ∃ fss : List (List FieldRec), fs = fss.flatten ∧ fss.length = ts.length ∧
      ∀ (k : Nat) t, ts[k]? = some t → ∃ tr' fs', w'.types[t]? = some tr' ∧ fss[k]? = some fs' ∧ tr'.fields = fs' ∧ tr'.interfaces = [] ∧
        (∃ row, tableIndex cfg m.tables.typeDef (i + k + 1) = .ok row ∧ KindIs cfg m w' row tr') ∧
        RunIs cfg m (·.fieldList) m.tables.field.length (i + k) (FieldRowIs cfg m t) fs' ∧
        RunIs cfg m (·.methodList) m.tables.methodDef.length (i + k) (MethodRowIs cfg m t) tr'.methods := by
  induction ts with
  | nil =>
    intro i w w' fs hi hd he h
    simp only [resolveTypes, M.pure_run, Prod.mk.injEq, Res.ok.injEq] at h
    obtain ⟨rfl, rfl⟩ := h
    exact ⟨[], rfl, rfl, by simp⟩
  | cons t ts ih =>
    intro i w w' fs hi hd he h
    unfold resolveTypes at h
    obtain ⟨f1, w1, h1, h⟩ := M.bind_eq_ok.mp h
    obtain ⟨f2, w2, h2, h⟩ := M.bind_eq_ok.mp h
    simp only [M.pure_run, Prod.mk.injEq, Res.ok.injEq] at h
    obtain ⟨rfl, rfl⟩ := h
    rw [List.nodup_cons] at hd
    obtain ⟨tr, t1, t2, t3, t4, t5⟩ := he t (by simp)
    obtain ⟨tr', g1, g2, gi, ⟨row, gr, gk⟩, g3, g4⟩ := resolveType_ok hi t1 t2 t3 t4 t5 h1
    have r1 := resolveType_run (cfg := cfg) (m := m) fuel t i hi
    rw [h1] at r1
    have o1 := resolveType_touch (cfg := cfg) (m := m) fuel t i w
    rw [h1] at o1
    have hi1 := hi.steps r1.1
    obtain ⟨fss, k1, k2, k3⟩ := ih hi1 hd.2 (fun u hu => by
      obtain ⟨ur, u1, u2, u3, u4⟩ := he u (by simp [hu])
      refine ⟨ur, ?_, u2, u3, u4⟩
      rw [o1.types u (List.getElem?_eq_some_iff.mp u1).1 (fun e => hd.1 (e ▸ hu)), u1]) h2
    refine ⟨f1 :: fss, by simp [k1], by simp [k2], fun k u hu => ?_⟩
    cases k with
    | zero =>
      simp only [List.getElem?_cons_zero, Option.some.injEq] at hu
      subst hu
      have o2 := resolveTypes_touch (cfg := cfg) (m := m) fuel ts (i + 1) w1
      rw [h2] at o2
      have r2 := resolveTypes_run (cfg := cfg) (m := m) fuel ts w1 (i + 1) hi1
      rw [h2] at r2
      exact ⟨tr', f1, by rw [o2.types t (List.getElem?_eq_some_iff.mp g1).1 hd.1, g1], rfl, g2, gi, ⟨row, gr, gk.steps r2.1⟩, g3, g4⟩
    | succ k =>
      obtain ⟨ur, fs', u1, u2, u3, ui, u6, u4, u5⟩ := k3 k u (by simpa using hu)
      rw [show i + 1 + k = i + (k + 1) by omega] at u4 u5 u6
      exact ⟨ur, fs', u1, by simpa using u2, u3, ui, u6, u4, u5⟩

/-! ## Interfaces leave fields and methods alone -/

/-- The parts of a type record that interface rows leave alone. -/
def members (t : TypeRec) : List FieldRec × List MethodRec × Option Nat × Option TypeKind := (t.fields, t.methods, t.base, t.kind)

/-- The code leaves these parts of all records alone. -/
def KeepsMembers {α : Type} (x : M α) : Prop := ∀ (w : World) (j : Nat), ((x w).2.types[j]?).map members = w.types[j]?.map members

theorem KeepsMembers.bind {α β : Type} {x : M α} {f : α → M β} (hx : KeepsMembers x) (hf : ∀ a, KeepsMembers (f a)) :
    KeepsMembers (x >>= f) := by
  intro w j
  rw [M.bind_run]
  have h := hx w j
  rcases e : x w with ⟨r, w1⟩
  rw [e] at h
  cases r with
  | ok a => rw [← h]; exact hf a w1 j
  | _ => exact h

theorem KeepsMembers.liftM {α : Type} (x : Res α) : KeepsMembers (_root_.liftM x : M α) := fun _ _ => rfl

theorem lookupRow_members (n ns : Nat) : KeepsMembers (lookupRow m n ns) := by
  unfold lookupRow
  exact (KeepsMembers.liftM _).bind fun _ => (KeepsMembers.liftM _).bind fun _ => fun _ _ => rfl

theorem loadInterface_members (row : InterfaceImplRow) : KeepsMembers (loadInterface cfg m row) := by
  unfold loadInterface
  refine (KeepsMembers.liftM _).bind fun _ => (lookupRow_members _ _).bind fun _ => (KeepsMembers.liftM _).bind fun t =>
    (KeepsMembers.liftM _).bind fun ⟨_, _⟩ => (lookupRow_members _ _).bind fun _ => (KeepsMembers.liftM _).bind fun i => ?_
  intro w j
  simp only [M.modify_run, World.updType, getElem?_modify']
  split
  · cases w.types[j]? <;> simp [members]
  · rfl

theorem loadInterfaces_members (rows : List InterfaceImplRow) : KeepsMembers (loadInterfaces cfg m rows) := by
  induction rows with
  | nil => exact fun _ _ => rfl
  | cons row rows ih => unfold loadInterfaces; exact (loadInterface_members row).bind fun _ => ih

/-- What the interface rows add to type `t`, by name. -/
inductive Lists (cfg : Cfg) (m : Metadata) (ts : List TypeRec) (t : Nat) : List InterfaceImplRow → List Nat → Prop
  | nil : Lists cfg m ts t [] []
  | mine {row : InterfaceImplRow} {rows : List InterfaceImplRow} {l : List Nat} {i : Nat} {n n' : Name} {tr ir : TypeRec}
      (h1 : typeDefOrRefName cfg m (.typeDef row.cls) = .ok (some n)) (h2 : ts[t]? = some tr) (h3 : tr.fullName = n)
      (h4 : typeDefOrRefName cfg m row.iface.typeDefOrRef = .ok (some n')) (h5 : ts[i]? = some ir) (h6 : ir.fullName = n')
      (hr : Lists cfg m ts t rows l) : Lists cfg m ts t (row :: rows) (i :: l)
  | other {row : InterfaceImplRow} {rows : List InterfaceImplRow} {l : List Nat} {u : Nat} {n : Name} {ur : TypeRec}
      (h1 : typeDefOrRefName cfg m (.typeDef row.cls) = .ok (some n)) (h2 : ts[u]? = some ur) (h3 : ur.fullName = n)
      (hne : u ≠ t) (hr : Lists cfg m ts t rows l) : Lists cfg m ts t (row :: rows) l

theorem lookupRow_ok {n ns : Nat} {w w' : World} {t : Nat} (hi : Inv w) (h : lookupRow m n ns w = (.ok (some t), w')) :
    w' = w ∧ ∃ a b tr, m.string n = .ok (some a) ∧ m.string ns = .ok (some b) ∧ w.types[t]? = some tr ∧ tr.fullName = fullName b a := by
  unfold lookupRow at h
  obtain ⟨a, n1, h⟩ := M.liftM_bind_eq_ok.mp h
  obtain ⟨b, n2, h⟩ := M.liftM_bind_eq_ok.mp h
  simp only [M.view, Prod.mk.injEq, Res.ok.injEq] at h
  obtain ⟨tr, h1, h2, _⟩ := (hi.getType_iff _ _).mp h.1
  have inv : ∀ {h : Nat} {n : Name}, m.string! h = .ok n → m.string h = .ok (some n) := by
    intro h n hs
    unfold Metadata.string! at hs
    obtain ⟨o, h1, h2⟩ := Res.bind_eq_ok.mp hs
    cases o with
    | none => cases h2
    | some o => cases h2; exact h1
  exact ⟨h.2.symm, a, b, tr, inv n1, inv n2, h1, h2⟩

theorem loadInterface_ok {row : InterfaceImplRow} {w w' : World} (hi : Inv w) (h : loadInterface cfg m row w = (.ok (), w')) :
    ∃ t i tr ir n n', typeDefOrRefName cfg m (.typeDef row.cls) = .ok (some n) ∧ w.types[t]? = some tr ∧ tr.fullName = n ∧
      typeDefOrRefName cfg m row.iface.typeDefOrRef = .ok (some n') ∧ w.types[i]? = some ir ∧ ir.fullName = n' ∧
      w' = w.updType t fun tr => { tr with interfaces := tr.interfaces ++ [i] } := by
  unfold loadInterface at h
  obtain ⟨td, h1, h⟩ := M.liftM_bind_eq_ok.mp h
  obtain ⟨o, w1, h2, h⟩ := M.bind_eq_ok.mp h
  obtain ⟨t, h3, h⟩ := M.liftM_bind_eq_ok.mp h
  obtain ⟨⟨n, ns⟩, h4, h⟩ := M.liftM_bind_eq_ok.mp h
  obtain ⟨o', w2, h5, h⟩ := M.bind_eq_ok.mp h
  obtain ⟨i, h6, h⟩ := M.liftM_bind_eq_ok.mp h
  have hfin := congrArg Prod.snd h
  rw [M.modify_run] at hfin
  cases o with
  | none => cases h3
  | some t' =>
    cases h3
    cases o' with
    | none => cases h6
    | some i' =>
      cases h6
      obtain ⟨rfl, a, b, tr, g1, g2, g3, g4⟩ := lookupRow_ok hi h2
      obtain ⟨rfl, a', b', ir, l1, l2, l3, l4⟩ := lookupRow_ok hi h5
      refine ⟨t, i, tr, ir, _, _, ?_, g3, g4, ?_, l3, l4, hfin.symm⟩
      · simp [typeDefOrRefName, typeNameHandles, h1, g1, g2]
      · simp [typeDefOrRefName, h4, l1, l2]

theorem loadInterfaces_ok (rows : List InterfaceImplRow) : ∀ {w w' : World}, Inv w → loadInterfaces cfg m rows w = (.ok (), w') →
    ∀ (t : Nat) tr, w.types[t]? = some tr → ∃ l tr', w'.types[t]? = some tr' ∧ tr'.interfaces = tr.interfaces ++ l ∧
      Lists cfg m w'.types t rows l := by
  induction rows with
  | nil =>
    intro w w' hi h t tr ht
    cases h
    exact ⟨[], tr, ht, by simp, .nil⟩
  | cons row rows ih =>
    intro w w' hi h t tr ht
    have rr := loadInterfaces_run (cfg := cfg) (m := m) (row :: rows) w hi
    rw [h] at rr
    unfold loadInterfaces at h
    obtain ⟨_, w1, h1, h⟩ := M.bind_eq_ok.mp h
    obtain ⟨u, i, ur, ir, n, n', g1, g2, g3, g4, g5, g6, g7⟩ := loadInterface_ok hi h1
    have r1 := loadInterfaces_run (cfg := cfg) (m := m) [row] w hi
    unfold loadInterfaces at r1
    rw [M.bind_run, h1] at r1
    have hi1 : Inv w1 := hi.steps r1.1
    obtain ⟨ur', e1, e2, _⟩ := rr.1.types.1 _ _ g2
    obtain ⟨ir', e3, e4, _⟩ := rr.1.types.1 _ _ g5
    by_cases hut : u = t
    · subst hut
      rw [ht] at g2; cases g2
      obtain ⟨l, tr', k1, k2, k3⟩ := ih hi1 h u { tr with interfaces := tr.interfaces ++ [i] } (by
        rw [g7]; simp [World.updType, ht])
      exact ⟨i :: l, tr', k1, by simp [k2], .mine g1 e1 (e2.fullName.trans g3) g4 e3 (e4.fullName.trans g6) k3⟩
    · obtain ⟨l, tr', k1, k2, k3⟩ := ih hi1 h t tr (by
        rw [g7]; simp only [World.updType]; rw [getElem?_modify', if_neg hut, ht])
      exact ⟨l, tr', k1, k2, .other g1 e1 (e2.fullName.trans g3) hut k3⟩

/-- The assembly's method list. -/
theorem collectMethods_ok {w : World} (ts : List Nat) : ∀ {xs : List MethodRec}, collectMethods w ts = .ok xs →
    ∃ xss : List (List MethodRec), xs = xss.flatten ∧ xss.length = ts.length ∧
      ∀ (k : Nat) t, ts[k]? = some t → ∃ tr, w.types[t]? = some tr ∧ xss[k]? = some tr.methods := by
  induction ts with
  | nil => intro xs h; simp only [collectMethods, Res.ok.injEq] at h; subst h; exact ⟨[], rfl, rfl, by simp⟩
  | cons t ts ih =>
    intro xs h
    unfold collectMethods at h
    obtain ⟨tr, h1, h⟩ := Res.bind_eq_ok.mp h
    obtain ⟨rest, h2, h⟩ := Res.bind_eq_ok.mp h
    simp only [Res.pure_eq, Res.ok.injEq] at h
    subst h
    obtain ⟨xss, g1, g2, g3⟩ := ih h2
    refine ⟨tr.methods :: xss, by simp [g1], by simp [g2], fun k u hu => ?_⟩
    cases k with
    | zero => simp at hu; subst hu; exact ⟨tr, typeAt_eq_ok.mp h1, rfl⟩
    | succ k => simpa using g3 k u (by simpa using hu)

/-! ## Partition -/

/-- The end of the run of type row `i`. -/
def runEnd (starts : List Nat) (rows i : Nat) : Nat :=
  match starts[i + 1]? with
  | some e => e
  | none => rows + 1

theorem ownedRun_partition {list : TypeDefRow → Nat} {rows i : Nat} (hp : Partition (m.tables.typeDef.map list) rows)
    {row : TypeDefRow} (hrow : m.tables.typeDef[i]? = some row) :
    ownedRun cfg m list rows i = .ok (list row, runEnd (m.tables.typeDef.map list) rows i - list row) := by
  obtain ⟨hp0, hp1, hp2, hp3⟩ := hp
  have hlt := (List.getElem?_eq_some_iff.mp hrow).1
  have hs0 : ∀ r0, m.tables.typeDef[0]? = some r0 → list r0 = 1 := fun r0 h0 => hp1 _ (by simp [h0])
  have hge : 1 ≤ list row := by
    obtain ⟨r0, h0⟩ : ∃ r0, m.tables.typeDef[0]? = some r0 := ⟨m.tables.typeDef[0], by simp⟩
    have h1 := hs0 r0 h0
    by_cases hz : i = 0
    · subst hz; rw [hrow] at h0; cases h0; omega
    · rw [← h1]
      rw [List.pairwise_map, List.pairwise_iff_getElem] at hp2
      have := hp2 0 i (by omega) hlt (by omega)
      rwa [(List.getElem?_eq_some_iff.mp hrow).2, (List.getElem?_eq_some_iff.mp h0).2] at this
  have hle : list row ≤ rows + 1 := hp3 _ (List.mem_map.mpr ⟨row, List.mem_of_getElem? hrow, rfl⟩)
  unfold ownedRun
  rw [tableIndex_at cfg (by omega) (by simpa using hrow)]
  simp only [Res.ok_bind]
  rw [usub_ok (by omega)]
  simp only [Res.ok_bind]
  split
  · rename_i he
    rw [usub_ok hge]
    simp only [Res.ok_bind]
    rw [usub_ok (by omega)]
    have : runEnd (m.tables.typeDef.map list) rows i = rows + 1 := by
      unfold runEnd
      rw [List.getElem?_eq_none (by simp; omega)]
    rw [this]
    simp only [Res.ok_bind, Res.pure_eq]
    congr 2
    omega
  · rename_i he
    have hn : i + 1 < m.tables.typeDef.length := by omega
    rw [tableIndex_at cfg (by omega) (row := m.tables.typeDef[i + 1]) (by simp [hn])]
    simp only [Res.ok_bind]
    have hmono : list row ≤ list m.tables.typeDef[i + 1] := by
      rw [List.pairwise_map, List.pairwise_iff_getElem] at hp2
      have := hp2 i (i + 1) hlt hn (by omega)
      rwa [(List.getElem?_eq_some_iff.mp hrow).2] at this
    rw [usub_ok hmono]
    have : runEnd (m.tables.typeDef.map list) rows i = list m.tables.typeDef[i + 1] := by
      unfold runEnd
      simp [hn]
    rw [this]
    rfl

/-- Concatenated runs cover the table row by row. -/
theorem flatten_runs {α : Type} {rows : Nat} (starts : List Nat) : ∀ {xss : List (List α)} {P : Nat → Nat → α → Prop},
    starts.Pairwise (· ≤ ·) → (∀ s ∈ starts, s ≤ rows + 1) → xss.length = starts.length →
    (∀ (i : Nat) s xs, starts[i]? = some s → xss[i]? = some xs → xs.length = runEnd starts rows i - s ∧
      ∀ (k : Nat) x, xs[k]? = some x → P i (s + k) x) →
    ∀ s0, starts[0]? = some s0 → xss.flatten.length = rows + 1 - s0 ∧
      ∀ (p : Nat) x, xss.flatten[p]? = some x → ∃ i, Owns starts rows i (s0 + p) ∧ P i (s0 + p) x := by
  induction starts with
  | nil => intro xss P _ _ _ _ s0 h; simp at h
  | cons s ss ih =>
    intro xss P hpw hle hlen hx s0 h0
    simp only [List.getElem?_cons_zero, Option.some.injEq] at h0
    subst h0
    cases xss with
    | nil => simp at hlen
    | cons xs xss =>
      obtain ⟨hxl, hxp⟩ := hx 0 s xs rfl rfl
      rw [List.pairwise_cons] at hpw
      have hend : runEnd (s :: ss) rows 0 = (match ss[0]? with | some e => e | none => rows + 1) := by simp [runEnd]
      rw [hend] at hxl
      have hsle := hle s (by simp)
      cases hss : ss with
      | nil =>
        subst hss
        simp only [List.length_nil, List.length_cons, Nat.zero_add, Nat.add_eq_right, List.length_eq_zero_iff] at hlen
        subst hlen
        replace hxl : xs.length = rows + 1 - s := hxl
        refine ⟨by simpa using hxl, fun p x hp => ?_⟩
        simp only [List.flatten_cons, List.flatten_nil, List.append_nil] at hp
        have hplt := (List.getElem?_eq_some_iff.mp hp).1
        exact ⟨0, ⟨⟨s, rfl, by omega⟩, by simp, by omega⟩, hxp p x hp⟩
      | cons s1 ss' =>
        have hs1 : ss[0]? = some s1 := by rw [hss]; rfl
        rw [hs1] at hxl
        simp only at hxl
        have h01 : s ≤ s1 := hpw.1 s1 (by rw [hss]; simp)
        have h1r : s1 ≤ rows + 1 := hle s1 (by rw [hss]; simp)
        obtain ⟨g1, g2⟩ := ih (xss := xss) (P := fun i => P (i + 1)) hpw.2 (fun u hu => hle u (by simp [hu]))
          (by simpa using hlen) (fun i u xs hu hxs => by
            have := hx (i + 1) u xs (by simpa using hu) (by simpa using hxs)
            simpa [runEnd] using this) s1 hs1
        rw [← hss]
        refine ⟨by rw [List.flatten_cons, List.length_append, g1, hxl]; omega, fun p x hp => ?_⟩
        rw [List.flatten_cons, List.getElem?_append] at hp
        split at hp
        · rename_i hlt
          exact ⟨0, ⟨⟨s, rfl, by omega⟩, fun e he => by simp [hs1] at he; omega, by omega⟩, hxp p x hp⟩
        · rename_i hge
          obtain ⟨i, ⟨⟨u, o1, o2⟩, o3, o4⟩, o5⟩ := g2 _ x hp
          have e : s1 + (p - xs.length) = s + p := by omega
          rw [e] at o2 o3 o4 o5
          exact ⟨i + 1, ⟨⟨u, by simpa using o1, o2⟩, fun e he => o3 e (by simpa using he), o4⟩, o5⟩

end Clr
