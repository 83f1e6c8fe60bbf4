import Verif.Lemmas.World
import Verif.Model.Loader
/-!
# How the loader changes the registry

`Upd` lists the primitive changes of the registry; `Run` says that a piece of loader code performs only such changes
(also when it fails) and, when it succeeds, delivers a result satisfying a condition.
-/

namespace Clr

/-- A method record mentions only types below `n`. -/
structure MethodIn (n : Nat) (x : MethodRec) : Prop where
  ret : x.returnType < n
  params : ∀ p ∈ x.params, p.paramType < n
  locals : ∀ b, x.impl = .il b → ∀ t ∈ b.locals, t < n
  catches : ∀ b, x.impl = .il b → ∀ c ∈ b.clauses, ∀ t, c.catchType = some t → t < n

theorem MethodIn.mono {n k : Nat} {x : MethodRec} (h : MethodIn n x) (hk : n ≤ k) : MethodIn k x where
  ret := Nat.lt_of_lt_of_le h.ret hk
  params p hp := Nat.lt_of_lt_of_le (h.params p hp) hk
  locals b hb t ht := Nat.lt_of_lt_of_le (h.locals b hb t ht) hk
  catches b hb c hc t ht := Nat.lt_of_lt_of_le (h.catches b hb c hc t ht) hk

/-- The types in the table of built-in types have the names they should have. -/
def Primitives.Named (w : World) (p : Primitives) : Prop :=
  ∀ x ∈ [(p.sbyte, "System.SByte"), (p.byte, "System.Byte"), (p.short, "System.Int16"), (p.ushort, "System.UInt16"),
    (p.int, "System.Int32"), (p.uint, "System.UInt32"), (p.long, "System.Int64"), (p.ulong, "System.UInt64"),
    (p.float, "System.Single"), (p.double, "System.Double"), (p.object, "System.Object")],
    ∃ r, w.types[x.1]? = some r ∧ r.fullName = x.2.toList

/-- The primitive changes of the registry. -/
inductive Upd (cfg : Cfg) : World → World → Prop
  | register (w : World) (t : TypeRec) (n : Nat) : t.id = w.nextTypeId → uadd cfg 32 w.nextTypeId 1 = .ok n →
      (∀ b, t.base = some b → b < w.types.length) → t.fields = [] → t.methods = [] → t.interfaces = [] →
      Upd cfg w (({ w with nextTypeId := n } : World).addType t)
  | base (w : World) (t b : Nat) : b < w.types.length → Upd cfg w (w.updType t fun tr => { tr with base := some b })
  | kind (w : World) (t : Nat) (k : TypeKind) : Upd cfg w (w.updType t fun tr => { tr with kind := some k })
  | field (w : World) (t : Nat) (f : FieldRec) : f.fieldType < w.types.length → f.declaringType = t →
      Upd cfg w (w.updType t fun tr => { tr with fields := tr.fields ++ [f] })
  | method (w : World) (t : Nat) (x : MethodRec) : MethodIn w.types.length x → x.declaringType = t →
      Upd cfg w (w.updType t fun tr => { tr with methods := tr.methods ++ [x] })
  | iface (w : World) (t i : Nat) : i < w.types.length →
      Upd cfg w (w.updType t fun tr => { tr with interfaces := tr.interfaces ++ [i] })
  | assembly (w : World) (a : AssemblyRec) : a.id < w.nextAssembly → Upd cfg w { w with assemblies := w.assemblies ++ [a] }
  | assemblyId (w : World) : Upd cfg w { w with nextAssembly := w.nextAssembly + 1 }
  | primitives (w : World) (p : Primitives) : p.Named w → Upd cfg w { w with primitives := some p }
  | output (w : World) (s : List Char) : Upd cfg w { w with output := w.output ++ s }

/-- Any number of primitive changes. -/
inductive Steps (cfg : Cfg) : World → World → Prop
  | refl (w : World) : Steps cfg w w
  | step {w w1 w2 : World} : Steps cfg w w1 → Upd cfg w1 w2 → Steps cfg w w2

namespace Steps

theorem single {cfg : Cfg} {w w' : World} (h : Upd cfg w w') : Steps cfg w w' := .step (.refl _) h

theorem trans {cfg : Cfg} {a b c : World} (h : Steps cfg a b) (h' : Steps cfg b c) : Steps cfg a c := by
  induction h' with
  | refl => exact h
  | step _ hu ih => exact .step ih hu

end Steps

/-- What the loader never changes about a registered type. -/
structure SameHead (a b : TypeRec) : Prop where
  id : b.id = a.id
  name : b.name = a.name
  nspace : b.nspace = a.nspace
  fullName : b.fullName = a.fullName
  assembly : b.assembly = a.assembly
  isAbstract : b.isAbstract = a.isAbstract

theorem SameHead.refl (a : TypeRec) : SameHead a a := ⟨rfl, rfl, rfl, rfl, rfl, rfl⟩
theorem SameHead.trans {a b c : TypeRec} (h : SameHead a b) (g : SameHead b c) : SameHead a c :=
  ⟨g.1.trans h.1, g.2.trans h.2, g.3.trans h.3, g.4.trans h.4, g.5.trans h.5, g.6.trans h.6⟩

theorem getElem?_modify' {α : Type} (l : List α) (i j : Nat) (f : α → α) :
    (l.modify i f)[j]? = if i = j then l[j]?.map f else l[j]? := by
  rw [List.getElem?_modify]
  cases l[j]? with
  | none => simp
  | some a => by_cases h : i = j <;> simp [h]

/-- A step keeps the heads of all registered types and appends at most one. -/
theorem Upd.types {cfg : Cfg} {w w' : World} (h : Upd cfg w w') :
    (∀ (i : Nat) t, w.types[i]? = some t → ∃ t', w'.types[i]? = some t' ∧ SameHead t t' ∧
      t.fields <+: t'.fields ∧ t.methods <+: t'.methods ∧ t.interfaces <+: t'.interfaces) ∧
    w.types.length ≤ w'.types.length := by
  have upd : ∀ (t : Nat) (f : TypeRec → TypeRec), (∀ a, SameHead a (f a) ∧ a.fields <+: (f a).fields ∧
      a.methods <+: (f a).methods ∧ a.interfaces <+: (f a).interfaces) →
      (∀ (i : Nat) x, w.types[i]? = some x → ∃ x', (w.updType t f).types[i]? = some x' ∧ SameHead x x' ∧
        x.fields <+: x'.fields ∧ x.methods <+: x'.methods ∧ x.interfaces <+: x'.interfaces) ∧
      w.types.length ≤ (w.updType t f).types.length := by
    intro t f hf
    refine ⟨fun i x hx => ?_, by simp [World.updType]⟩
    simp only [World.updType, getElem?_modify', hx]
    by_cases h : t = i
    · subst h; exact ⟨f x, by simp, hf x⟩
    · exact ⟨x, by simp [h], SameHead.refl x, List.prefix_rfl, List.prefix_rfl, List.prefix_rfl⟩
  have same : w'.types = w.types → (∀ (i : Nat) t, w.types[i]? = some t → ∃ t', w'.types[i]? = some t' ∧ SameHead t t' ∧
      t.fields <+: t'.fields ∧ t.methods <+: t'.methods ∧ t.interfaces <+: t'.interfaces) ∧
      w.types.length ≤ w'.types.length := fun h =>
    ⟨fun i t ht => ⟨t, by rw [h]; exact ht, SameHead.refl t, List.prefix_rfl, List.prefix_rfl, List.prefix_rfl⟩, by rw [h]; exact Nat.le_refl _⟩
  have hd : ∀ (a : TypeRec), SameHead a a := SameHead.refl
  cases h with
  | register t n =>
    refine ⟨fun i x hx => ⟨x, ?_, SameHead.refl x, List.prefix_rfl, List.prefix_rfl, List.prefix_rfl⟩, by simp [World.addType]⟩
    have : i < w.types.length := (List.getElem?_eq_some_iff.mp hx).1
    simp [World.addType, List.getElem?_append_left this, hx]
  | base => exact upd _ _ fun a => ⟨⟨rfl, rfl, rfl, rfl, rfl, rfl⟩, List.prefix_rfl, List.prefix_rfl, List.prefix_rfl⟩
  | kind => exact upd _ _ fun a => ⟨⟨rfl, rfl, rfl, rfl, rfl, rfl⟩, List.prefix_rfl, List.prefix_rfl, List.prefix_rfl⟩
  | field => exact upd _ _ fun a => ⟨⟨rfl, rfl, rfl, rfl, rfl, rfl⟩, List.prefix_append _ _, List.prefix_rfl, List.prefix_rfl⟩
  | method => exact upd _ _ fun a => ⟨⟨rfl, rfl, rfl, rfl, rfl, rfl⟩, List.prefix_rfl, List.prefix_append _ _, List.prefix_rfl⟩
  | iface => exact upd _ _ fun a => ⟨⟨rfl, rfl, rfl, rfl, rfl, rfl⟩, List.prefix_rfl, List.prefix_rfl, List.prefix_append _ _⟩
  | assembly => exact same rfl
  | assemblyId => exact same rfl
  | primitives => exact same rfl
  | output => exact same rfl

theorem Steps.types {cfg : Cfg} {w w' : World} (h : Steps cfg w w') :
    (∀ (i : Nat) t, w.types[i]? = some t → ∃ t', w'.types[i]? = some t' ∧ SameHead t t' ∧
      t.fields <+: t'.fields ∧ t.methods <+: t'.methods ∧ t.interfaces <+: t'.interfaces) ∧
    w.types.length ≤ w'.types.length := by
  induction h with
  | refl => exact ⟨fun i t ht => ⟨t, ht, SameHead.refl t, List.prefix_rfl, List.prefix_rfl, List.prefix_rfl⟩, Nat.le_refl _⟩
  | step _ hu ih =>
    refine ⟨fun i t ht => ?_, Nat.le_trans ih.2 hu.types.2⟩
    obtain ⟨t1, h1, s1, f1, m1, i1⟩ := ih.1 i t ht
    obtain ⟨t2, h2, s2, f2, m2, i2⟩ := hu.types.1 i t1 h1
    exact ⟨t2, h2, s1.trans s2, f1.trans f2, m1.trans m2, i1.trans i2⟩

theorem Steps.le {cfg : Cfg} {w w' : World} (h : Steps cfg w w') : w.types.length ≤ w'.types.length := h.types.2

theorem Upd.nextAssembly_le {cfg : Cfg} {w w' : World} (h : Upd cfg w w') : w.nextAssembly ≤ w'.nextAssembly := by
  cases h <;> first | exact Nat.le_refl _ | exact Nat.le_succ _

theorem Steps.nextAssembly_le {cfg : Cfg} {w w' : World} (h : Steps cfg w w') : w.nextAssembly ≤ w'.nextAssembly := by
  induction h with
  | refl => exact Nat.le_refl _
  | step _ hu ih => exact Nat.le_trans ih hu.nextAssembly_le

/-- The next number for an assembly has not been used. -/
def FreshId (w : World) : Prop := ∀ a ∈ w.assemblies, a.id < w.nextAssembly

theorem FreshId.upd {cfg : Cfg} {w w' : World} (h : FreshId w) (hu : Upd cfg w w') : FreshId w' := by
  cases hu with
  | assembly a ha =>
    intro b hb
    rcases List.mem_append.mp hb with hb | hb
    · exact h b hb
    · rw [List.mem_singleton] at hb; subst hb; exact ha
  | assemblyId => intro b hb; exact Nat.lt_succ_of_lt (h b hb)
  | _ => exact h

theorem FreshId.steps {cfg : Cfg} {w w' : World} (h : FreshId w) (hs : Steps cfg w w') : FreshId w' := by
  induction hs with
  | refl => exact h
  | step _ hu ih => exact ih.upd hu

theorem Upd.named {cfg : Cfg} {w w' : World} (h : Upd cfg w w') (hw : ∀ p, w.primitives = some p → p.Named w) :
    ∀ p, w'.primitives = some p → p.Named w' := by
  have keep : ∀ p : Primitives, p.Named w → p.Named w' := by
    intro p hp x hx
    obtain ⟨r, h1, h2⟩ := hp x hx
    obtain ⟨r', h3, h4, -⟩ := h.types.1 _ _ h1
    exact ⟨r', h3, h4.fullName.trans h2⟩
  intro p hp
  cases h with
  | primitives _ hn => cases hp; exact hn
  | _ => exact keep p (hw p hp)

theorem Steps.named {cfg : Cfg} {w w' : World} (h : Steps cfg w w') (hw : ∀ p, w.primitives = some p → p.Named w) :
    ∀ p, w'.primitives = some p → p.Named w' := by
  induction h with
  | refl => exact hw
  | step _ hu ih => exact hu.named ih

/-- The name table determined by the type list: newest first. -/
def mapOf : List TypeRec → Nat → List (Name × Nat)
  | [], _ => []
  | t :: ts, i => mapOf ts (i + 1) ++ [(t.fullName, i)]

theorem mapOf_append (ts us : List TypeRec) (i : Nat) : mapOf (ts ++ us) i = mapOf us (i + ts.length) ++ mapOf ts i := by
  induction ts generalizing i with
  | nil => simp [mapOf]
  | cons t ts ih =>
    rw [List.cons_append, mapOf, ih, mapOf, List.append_assoc, List.length_cons, show i + 1 + ts.length = i + (ts.length + 1) by omega]

theorem mapOf_congr (ts us : List TypeRec) (i : Nat) (h : ts.map (·.fullName) = us.map (·.fullName)) :
    mapOf ts i = mapOf us i := by
  induction ts generalizing us i with
  | nil => cases us with
    | nil => rfl
    | cons u us => simp at h
  | cons t ts ih => cases us with
    | nil => simp at h
    | cons u us =>
      simp only [List.map_cons, List.cons.injEq] at h
      simp [mapOf, ih us (i + 1) h.2, h.1]

/-- The consistency of the registry: ids count up, the name table is the one the type list determines, and all
references between records are in range. -/
structure Inv (w : World) : Prop where
  next : w.nextTypeId = w.types.length % 2 ^ 32
  ids : ∀ (i : Nat) t, w.types[i]? = some t → t.id = i % 2 ^ 32
  map : w.typeMap = mapOf w.types 0
  base : ∀ (i : Nat) t, w.types[i]? = some t → ∀ b, t.base = some b → b < w.types.length
  fields : ∀ (i : Nat) t, w.types[i]? = some t → ∀ f ∈ t.fields, f.fieldType < w.types.length ∧ f.declaringType = i
  methods : ∀ (i : Nat) t, w.types[i]? = some t → ∀ x ∈ t.methods, MethodIn w.types.length x ∧ x.declaringType = i
  ifaces : ∀ (i : Nat) t, w.types[i]? = some t → ∀ j ∈ t.interfaces, j < w.types.length

theorem Inv.empty : Inv {} := by
  constructor <;> simp [mapOf]

/-- The consistency of the registry survives an update of one type record. -/
theorem Inv.updType {w : World} (h : Inv w) (t : Nat) (f : TypeRec → TypeRec) (hf : ∀ a, SameHead a (f a))
    (hb : ∀ a, (∀ b, a.base = some b → b < w.types.length) → ∀ b, (f a).base = some b → b < w.types.length)
    (hfs : ∀ a, (∀ x ∈ a.fields, x.fieldType < w.types.length ∧ x.declaringType = t) →
      ∀ x ∈ (f a).fields, x.fieldType < w.types.length ∧ x.declaringType = t)
    (hms : ∀ a, (∀ x ∈ a.methods, MethodIn w.types.length x ∧ x.declaringType = t) →
      ∀ x ∈ (f a).methods, MethodIn w.types.length x ∧ x.declaringType = t)
    (hi : ∀ a, (∀ j ∈ a.interfaces, j < w.types.length) → ∀ j ∈ (f a).interfaces, j < w.types.length) :
    Inv (w.updType t f) := by
  have key : ∀ {P : Nat → TypeRec → Prop}, (∀ (i : Nat) a, w.types[i]? = some a → P i a) →
      (∀ a, w.types[t]? = some a → P t a → P t (f a)) → ∀ (i : Nat) a, (w.updType t f).types[i]? = some a → P i a := by
    intro P h1 h2 i a ha
    simp only [World.updType, getElem?_modify'] at ha
    by_cases e : t = i
    · subst e
      simp only [if_true, Option.map_eq_some_iff] at ha
      obtain ⟨b, hb, rfl⟩ := ha
      exact h2 b hb (h1 _ b hb)
    · simp only [e, if_false] at ha
      exact h1 i a ha
  have hlen : (w.updType t f).types.length = w.types.length := by simp [World.updType]
  constructor
  · rw [hlen]; exact h.next
  · exact key h.ids fun a _ h => by rw [(hf a).id]; exact h
  · show w.typeMap = _
    rw [h.map]
    apply mapOf_congr
    apply List.ext_getElem?
    intro i
    simp only [World.updType, List.getElem?_map, getElem?_modify']
    by_cases e : t = i
    · subst e
      cases w.types[t]? with
      | none => simp
      | some a => simp [(hf a).fullName]
    · simp [e]
  · rw [hlen]; exact key h.base fun a _ h => hb a h
  · rw [hlen]; exact key h.fields fun a _ h => hfs a h
  · rw [hlen]; exact key h.methods fun a _ h => hms a h
  · rw [hlen]; exact key h.ifaces fun a _ h => hi a h

theorem Inv.upd {cfg : Cfg} {w w' : World} (h : Inv w) (hu : Upd cfg w w') : Inv w' := by
  have same : ∀ w' : World, w'.types = w.types → w'.typeMap = w.typeMap → w'.nextTypeId = w.nextTypeId → Inv w' := by
    intro w' h1 h2 h3
    refine ⟨?_, ?_, ?_, ?_, ?_, ?_, ?_⟩
    · rw [h1, h3]; exact h.next
    · rw [h1]; exact h.ids
    · rw [h1, h2]; exact h.map
    · rw [h1]; exact h.base
    · rw [h1]; exact h.fields
    · rw [h1]; exact h.methods
    · rw [h1]; exact h.ifaces
  cases hu with
  | register t n hid hn hb hf hm hi =>
    have old : ∀ {P : Nat → TypeRec → Prop}, (∀ (i : Nat) a, w.types[i]? = some a → P i a) → P w.types.length t →
        ∀ (i : Nat) a, (w.types ++ [t])[i]? = some a → P i a := by
      intro P h1 h2 i a ha
      by_cases hl : i < w.types.length
      · rw [List.getElem?_append_left hl] at ha; exact h1 i a ha
      · rw [List.getElem?_append_right (by omega)] at ha
        have : i - w.types.length = 0 := by
          have := (List.getElem?_eq_some_iff.mp ha).1
          simp at this; omega
        rw [this] at ha
        simp at ha
        subst ha
        rwa [show i = w.types.length by omega]
    have hlen : (w.types ++ [t]).length = w.types.length + 1 := by simp
    constructor
    · show n = (w.types ++ [t]).length % 2 ^ 32
      rw [hlen]
      have hnx := h.next
      unfold uadd at hn
      split at hn
      · simp at hn; omega
      · split at hn
        · simp at hn
        · simp at hn; omega
    · exact old h.ids (by rw [hid, h.next])
    · show (t.fullName, w.types.length) :: w.typeMap = mapOf (w.types ++ [t]) 0
      rw [mapOf_append, h.map]; simp [mapOf]
    · exact old (P := fun _ a => ∀ b, a.base = some b → b < (w.types ++ [t]).length)
        (fun i a ha b hb => by have := h.base i a ha b hb; omega) (fun b e => by have := hb b e; omega)
    · exact old (P := fun i a => ∀ f ∈ a.fields, f.fieldType < (w.types ++ [t]).length ∧ f.declaringType = i)
        (fun i a ha f hf => by have := h.fields i a ha f hf; exact ⟨by omega, this.2⟩) (by rw [hf]; simp)
    · exact old (P := fun i a => ∀ x ∈ a.methods, MethodIn (w.types ++ [t]).length x ∧ x.declaringType = i)
        (fun i a ha x hx => by have := h.methods i a ha x hx; exact ⟨this.1.mono (by omega), this.2⟩) (by rw [hm]; simp)
    · exact old (P := fun _ a => ∀ j ∈ a.interfaces, j < (w.types ++ [t]).length)
        (fun i a ha x hx => by have := h.ifaces i a ha x hx; omega) (by rw [hi]; simp)
  | base t b hb =>
    exact h.updType t _ (fun a => ⟨rfl, rfl, rfl, rfl, rfl, rfl⟩) (fun a _ b' e => by simp at e; omega)
      (fun _ h => h) (fun _ h => h) (fun _ h => h)
  | kind =>
    exact h.updType _ _ (fun a => ⟨rfl, rfl, rfl, rfl, rfl, rfl⟩) (fun a h => h) (fun _ h => h) (fun _ h => h) (fun _ h => h)
  | field t f hf hd =>
    refine h.updType _ _ (fun a => ⟨rfl, rfl, rfl, rfl, rfl, rfl⟩) (fun a h => h) ?_ (fun _ h => h) (fun _ h => h)
    intro a ha x hx
    rcases List.mem_append.mp hx with hx | hx
    · exact ha x hx
    · simp at hx; subst hx; exact ⟨hf, hd⟩
  | method t f hf hd =>
    refine h.updType _ _ (fun a => ⟨rfl, rfl, rfl, rfl, rfl, rfl⟩) (fun a h => h) (fun _ h => h) ?_ (fun _ h => h)
    intro a ha x hx
    rcases List.mem_append.mp hx with hx | hx
    · exact ha x hx
    · simp at hx; subst hx; exact ⟨hf, hd⟩
  | iface t i hi =>
    refine h.updType _ _ (fun a => ⟨rfl, rfl, rfl, rfl, rfl, rfl⟩) (fun a h => h) (fun _ h => h) (fun _ h => h) ?_
    intro a ha x hx
    rcases List.mem_append.mp hx with hx | hx
    · exact ha x hx
    · simp at hx; subst hx; exact hi
  | assembly => exact same _ rfl rfl rfl
  | assemblyId => exact same _ rfl rfl rfl
  | primitives => exact same _ rfl rfl rfl
  | output => exact same _ rfl rfl rfl

theorem Inv.steps {cfg : Cfg} {w w' : World} (h : Inv w) (hs : Steps cfg w w') : Inv w' := by
  induction hs with
  | refl => exact h
  | step _ hu ih => exact ih.upd hu

/-- The name table, read back: the newest registration of a name. -/
theorem lookup_mapOf (ts : List TypeRec) (k : Nat) (n : Name) : ∀ i : Nat,
    (mapOf ts k).lookup n = some i ↔ ∃ (j : Nat) (t : TypeRec), i = k + j ∧ ts[j]? = some t ∧ t.fullName = n ∧
      ∀ (j' : Nat) (t' : TypeRec), j < j' → ts[j']? = some t' → t'.fullName ≠ n := by
  induction ts generalizing k with
  | nil => simp [mapOf]
  | cons t ts ih =>
    intro i
    rw [mapOf, List.lookup_append]
    cases hl : (mapOf ts (k + 1)).lookup n with
    | some i' =>
      simp only [Option.some_or, Option.some.injEq]
      constructor
      · rintro rfl
        obtain ⟨j, t', rfl, h1, h2, h3⟩ := (ih (k + 1) _).mp hl
        refine ⟨j + 1, t', by omega, by simpa using h1, h2, ?_⟩
        intro j' t'' hj h
        cases j' with
        | zero => omega
        | succ j' => exact h3 j' t'' (by omega) (by simpa using h)
      · rintro ⟨j, t', rfl, h1, h2, h3⟩
        obtain ⟨j2, t2, rfl, g1, g2, g3⟩ := (ih (k + 1) _).mp hl
        cases j with
        | zero => exact absurd g2 (h3 (j2 + 1) t2 (by omega) (by simpa using g1))
        | succ j =>
          rcases Nat.lt_trichotomy j2 j with h | h | h
          · exact absurd h2 (g3 j t' h (by simpa using h1))
          · omega
          · exact absurd g2 (h3 (j2 + 1) t2 (by omega) (by simpa using g1))
    | none =>
      have hnone : ∀ (j : Nat) (t' : TypeRec), ts[j]? = some t' → t'.fullName ≠ n := by
        intro j t' h e
        have : n ∈ (mapOf ts (k + 1)).map (·.1) := by
          clear ih hl
          induction ts generalizing j k with
          | nil => simp at h
          | cons u us ihh =>
            rw [mapOf]
            simp only [List.map_append, List.mem_append, List.map_cons, List.map_nil, List.mem_singleton]
            cases j with
            | zero => simp at h; subst h; exact .inr e.symm
            | succ j => exact .inl (ihh (k + 1) j (by simpa using h))
        rw [List.mem_map] at this
        obtain ⟨p, hp, rfl⟩ := this
        simpa using List.lookup_eq_none_iff.mp hl p hp
      simp only [Option.none_or, List.lookup_cons, List.lookup_nil]
      by_cases e : n = t.fullName
      · subst e
        simp only [beq_self_eq_true, Option.some.injEq]
        constructor
        · rintro rfl
          refine ⟨0, t, by omega, rfl, rfl, ?_⟩
          intro j' t' hj h
          cases j' with
          | zero => omega
          | succ j' => exact hnone j' t' (by simpa using h)
        · rintro ⟨j, t', rfl, h1, h2, _⟩
          cases j with
          | zero => omega
          | succ j => exact absurd h2 (hnone j t' (by simpa using h1))
      · have : (n == t.fullName) = false := by simpa using e
        simp only [this, reduceCtorEq, false_iff]
        rintro ⟨j, t', rfl, h1, h2, _⟩
        cases j with
        | zero => simp at h1; subst h1; exact e h2.symm
        | succ j => exact hnone j t' (by simpa using h1) h2

theorem Inv.getType_iff {w : World} (h : Inv w) (n : Name) (i : Nat) :
    w.getType n = some i ↔ ∃ t, w.types[i]? = some t ∧ t.fullName = n ∧
      ∀ (j : Nat) t', i < j → w.types[j]? = some t' → t'.fullName ≠ n := by
  unfold World.getType
  rw [h.map, lookup_mapOf]
  constructor
  · rintro ⟨j, t, rfl, h1, h2, h3⟩
    rw [Nat.zero_add]
    exact ⟨t, h1, h2, h3⟩
  · rintro ⟨t, h1, h2, h3⟩
    exact ⟨i, t, by omega, h1, h2, h3⟩

theorem Inv.getType_lt {w : World} (h : Inv w) {n : Name} {i : Nat} (e : w.getType n = some i) : i < w.types.length := by
  obtain ⟨t, h1, _⟩ := (h.getType_iff n i).mp e
  exact (List.getElem?_eq_some_iff.mp h1).1

/-- A name that no type has does not resolve, and only such names. -/
theorem Inv.getType_none {w : World} (h : Inv w) (n : Name) :
    w.getType n = none ↔ ∀ t ∈ w.types, t.fullName ≠ n := by
  constructor
  · intro hn t ht e
    have aux : ∀ (l : List TypeRec) (k : Nat), t ∈ l → (mapOf l k).lookup n ≠ none := by
      intro l k hm
      induction l generalizing k with
      | nil => simp at hm
      | cons a l ih =>
        rw [mapOf, List.lookup_append]
        rcases List.mem_cons.mp hm with rfl | hm
        · intro hc
          rw [Option.or_eq_none_iff] at hc
          simp [e] at hc
        · intro hc
          rw [Option.or_eq_none_iff] at hc
          exact ih (k + 1) hm hc.1
    unfold World.getType at hn
    rw [h.map] at hn
    exact aux _ 0 ht hn
  · intro hn
    cases hg : w.getType n with
    | none => rfl
    | some i =>
      obtain ⟨t, h1, h2, _⟩ := (h.getType_iff n i).mp hg
      exact absurd h2 (hn t (List.mem_of_getElem? h1))

end Clr
