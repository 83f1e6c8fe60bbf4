import Verif.Lemmas.Valid
/-! # The registry while a well-formed assembly is being loaded -/

namespace Clr
open Spec

/-- Field `f` is what row `j` of the field table declares. -/
structure FieldIs (m : Metadata) (w0 : World) (d : Decls) (wi : World) (j : Nat) (f : FieldRec) : Prop where
  type : ∃ fr, wi.types[f.fieldType]? = some fr ∧ fr.fullName = d.fieldTypeName j
  static : f.isStatic = d.static j
  below : brackets (d.fieldType j) = 0 → f.fieldType < w0.types.length + m.tables.typeDef.length

/-- The implementation of a method with a body is that body. -/
def ImplIs (im : Impl) (x : MethodImpl) : Prop :=
  match im with
  | .tiny code => ∃ b, x = .il b ∧ b.code = code ∧ b.locals.length = 0
  | .fat f _ es => ∃ b, x = .il b ∧ b.code = f.code ∧ b.locals.length = es.length
  | .native => ∃ f, x = .internal f
  | .absent => x = .none

/-- Method `x` is what row `j` of the method table declares. -/
structure MethodIs (m : Metadata) (w0 : World) (d : Decls) (wi : World) (k j : Nat) (x : MethodRec) : Prop where
  declaring : x.declaringType = w0.types.length + k
  row : ∃ row, m.tables.methodDef[j - 1]? = some row ∧ m.string row.name = .ok (some x.name) ∧
    x.isStatic = row.attributes.isStatic
  ret : ∃ n r, Resolvable m w0 (d.method j).returnType n ∧ wi.types[x.returnType]? = some r ∧ r.fullName = n
  params : x.params.length = (d.method j).params.length
  impl : ImplIs (d.impl j) x.impl

/-- The record of declared type `k`, as far as it is resolved. -/
structure Own (m : Metadata) (w0 : World) (d : Decls) (wi : World) (k : Nat) (tr : TypeRec) : Prop where
  name : tr.fullName = d.name k
  row : ∃ row ns, m.tables.typeDef[k]? = some row ∧ m.string row.name = .ok (some tr.name) ∧
    m.string row.nspace = .ok (some ns) ∧ tr.fullName = qualified ns tr.name
  base : ∀ b, tr.base = some b → b < w0.types.length + m.tables.typeDef.length ∧
    ∃ br, wi.types[b]? = some br ∧ d.base k = some br.fullName
  ifaces : ∀ i ∈ tr.interfaces, ∃ ir, wi.types[i]? = some ir ∧ ir.fullName ≠ "System.ValueType".toList
  fields : ∀ row, m.tables.typeDef[k]? = some row →
    tr.fields.length ≤ runLength (m.tables.typeDef.map (·.fieldList)) m.tables.field.length k ∧
    ∀ (i : Nat) f, tr.fields[i]? = some f → FieldIs m w0 d wi (row.fieldList + i) f
  methods : ∀ row, m.tables.typeDef[k]? = some row →
    ∀ (i : Nat) x, tr.methods[i]? = some x → MethodIs m w0 d wi k (row.methodList + i) x
  assembly : tr.assembly = w0.nextAssembly

/-- An array type that was registered on the way. -/
structure Extra (m : Metadata) (w0 wi : World) (tr : TypeRec) : Prop where
  fields : tr.fields = []
  ifaces : tr.interfaces = []
  name : ∃ e, tr.fullName = e ++ ['[', ']']
  unknown : ¬ Known m w0 tr.fullName
  base : ∀ b, tr.base = some b → ∃ br, wi.types[b]? = some br ∧ br.fullName = "System.Array".toList

/-- The registry in the middle of loading `m` on top of `w0`: old types, declared types, array types. -/
structure Mid (m : Metadata) (w0 : World) (d : Decls) (wi : World) : Prop where
  inv : Inv wi
  len : w0.types.length + m.tables.typeDef.length ≤ wi.types.length
  old : ∀ (t : Nat) r, w0.types[t]? = some r → wi.types[t]? = some r
  own : ∀ k < m.tables.typeDef.length, ∃ tr, wi.types[w0.types.length + k]? = some tr ∧ Own m w0 d wi k tr
  extra : ∀ (t : Nat) tr, w0.types.length + m.tables.typeDef.length ≤ t → wi.types[t]? = some tr → Extra m w0 wi tr

/-- Names of records are kept. -/
def NamesKept (w w' : World) : Prop :=
  ∀ (t : Nat) r, w.types[t]? = some r → ∃ r', w'.types[t]? = some r' ∧ r'.fullName = r.fullName

theorem Steps.namesKept {cfg : Cfg} {w w' : World} (h : Steps cfg w w') : NamesKept w w' := by
  intro t r hr
  obtain ⟨r', h1, h2, -⟩ := h.types.1 t r hr
  exact ⟨r', h1, h2.fullName⟩

section
variable {m : Metadata} {w0 wi wi' : World} {d : Decls}

theorem FieldIs.kept {j : Nat} {f : FieldRec} (h : FieldIs m w0 d wi j f) (hk : NamesKept wi wi') : FieldIs m w0 d wi' j f := by
  refine ⟨?_, h.static, h.below⟩
  obtain ⟨fr, h1, h2⟩ := h.type
  obtain ⟨r', g1, g2⟩ := hk _ _ h1
  exact ⟨r', g1, g2.trans h2⟩

theorem MethodIs.kept {k j : Nat} {x : MethodRec} (h : MethodIs m w0 d wi k j x) (hk : NamesKept wi wi') : MethodIs m w0 d wi' k j x := by
  obtain ⟨n, r, h1, h2, h3⟩ := h.ret
  obtain ⟨r', g1, g2⟩ := hk _ _ h2
  exact ⟨h.declaring, h.row, ⟨n, r', h1, g1, g2.trans h3⟩, h.params, h.impl⟩

theorem Own.kept {k : Nat} {tr : TypeRec} (h : Own m w0 d wi k tr) (hk : NamesKept wi wi') : Own m w0 d wi' k tr := by
  refine ⟨h.name, h.row, fun b hb => ?_, fun i hi => ?_, fun row hrow => ⟨(h.fields row hrow).1, fun i f hf => ((h.fields row hrow).2 i f hf).kept hk⟩,
    fun row hrow i x hx => (h.methods row hrow i x hx).kept hk, h.assembly⟩
  · obtain ⟨h1, br, h2, h3⟩ := h.base b hb
    obtain ⟨r', g1, g2⟩ := hk _ _ h2
    exact ⟨h1, r', g1, by rw [g2]; exact h3⟩
  · obtain ⟨ir, h1, h2⟩ := h.ifaces i hi
    obtain ⟨r', g1, g2⟩ := hk _ _ h1
    exact ⟨r', g1, by rw [g2]; exact h2⟩

theorem Extra.kept {tr : TypeRec} (h : Extra m w0 wi tr) (hk : NamesKept wi wi') : Extra m w0 wi' tr := by
  refine ⟨h.fields, h.ifaces, h.name, h.unknown, fun b hb => ?_⟩
  obtain ⟨br, h1, h2⟩ := h.base b hb
  obtain ⟨r', g1, g2⟩ := hk _ _ h1
  exact ⟨r', g1, g2.trans h2⟩

namespace Mid

theorem ext (h : Mid m w0 d wi) (h0 : Inv w0) : WorldExt w0 wi := ⟨h0, h.inv, h.old⟩

/-- What the rows declare has a number. -/
theorem declared_index (hw : ∀ k < m.tables.typeDef.length, RowNamed m (.typeDef (k + 1)) (d.name k)) {n : Name}
    (h : Declared m n) : ∃ k < m.tables.typeDef.length, d.name k = n := by
  obtain ⟨k, hk⟩ := h
  cases hk with
  | typeDef _ row a b hk hrow ha hb =>
    have hlt := (List.getElem?_eq_some_iff.mp hrow).1
    refine ⟨k - 1, hlt, ?_⟩
    have h1 := hw (k - 1) hlt
    rw [show k - 1 + 1 = k by omega] at h1
    generalize d.name (k - 1) = q at h1
    cases h1 with
    | typeDef _ row' a' b' hk' hrow' ha' hb' =>
      rw [hrow] at hrow'; cases hrow'
      rw [ha] at ha'; cases ha'
      rw [hb] at hb'; cases hb'
      rfl

/-- Known names resolve, to old or declared types. -/
theorem resolves (h : Mid m w0 d wi) (hw : ∀ k < m.tables.typeDef.length, RowNamed m (.typeDef (k + 1)) (d.name k)) {n : Name}
    (hk : Known m w0 n) : ∃ i r, wi.getType n = some i ∧ wi.types[i]? = some r ∧ r.fullName = n ∧
      i < w0.types.length + m.tables.typeDef.length ∧ (Declared m n → w0.types.length ≤ i) := by
  have reg : ∃ (t : Nat) (r : TypeRec), wi.types[t]? = some r ∧ r.fullName = n ∧ (Declared m n → w0.types.length ≤ t) := by
    by_cases hd : Declared m n
    · obtain ⟨k, hk, hn⟩ := declared_index hw hd
      obtain ⟨tr, h1, h2⟩ := h.own k hk
      exact ⟨_, tr, h1, h2.name.trans hn, fun _ => by omega⟩
    · rcases hk with ⟨t, r, h1, h2⟩ | hk
      · exact ⟨t, r, h.old t r h1, h2, fun hd' => absurd hd' hd⟩
      · exact absurd hk hd
  obtain ⟨t, r, h1, h2, h3⟩ := reg
  obtain ⟨i, ir, g1, g2, g3⟩ := h.inv.resolves h1 h2
  refine ⟨i, ir, g1, g2, g3, ?_, fun hd => ?_⟩
  · rcases Nat.lt_or_ge i (w0.types.length + m.tables.typeDef.length) with hl | hl
    · exact hl
    · exact absurd (g3 ▸ hk) (h.extra i ir hl g2).unknown
  · have := h3 hd
    rcases Nat.lt_or_ge i t with hl | hl
    · obtain ⟨_, _, _, q⟩ := (h.inv.getType_iff n i).mp g1
      exact absurd h2 (q t r hl h1)
    · omega

/-- A change of one declared type's record. -/
theorem update (h : Mid m w0 d wi) {k : Nat} (hk : k < m.tables.typeDef.length) {f : TypeRec → TypeRec}
    (hi : Inv (wi.updType (w0.types.length + k) f)) (hn : ∀ a, (f a).fullName = a.fullName)
    (ho : ∀ tr, wi.types[w0.types.length + k]? = some tr → Own m w0 d wi k tr → Own m w0 d wi k (f tr)) :
    Mid m w0 d (wi.updType (w0.types.length + k) f) := by
  have kept : NamesKept wi (wi.updType (w0.types.length + k) f) := by
    intro t r hr
    simp only [World.updType, getElem?_modify', hr]
    by_cases e : w0.types.length + k = t
    · exact ⟨f r, by simp [e], hn r⟩
    · exact ⟨r, by simp [e], rfl⟩
  refine ⟨hi, by simpa [World.updType] using h.len, fun t r hr => ?_, fun k' hk' => ?_, fun t tr ht htr => ?_⟩
  · have := (List.getElem?_eq_some_iff.mp hr).1
    simp only [World.updType, getElem?_modify']
    rw [if_neg (by omega)]
    exact h.old t r hr
  · obtain ⟨tr, h1, h2⟩ := h.own k' hk'
    by_cases e : k = k'
    · subst e
      exact ⟨f tr, by simp [World.updType, h1], (ho tr h1 h2).kept kept⟩
    · refine ⟨tr, ?_, h2.kept kept⟩
      simp only [World.updType, getElem?_modify']
      rw [if_neg (by omega)]
      exact h1
  · simp only [World.updType, getElem?_modify'] at htr
    rw [if_neg (by omega)] at htr
    exact (h.extra t tr ht htr).kept kept

end Mid

theorem not_known_name {n e : Name} (h : n = e ++ ['[', ']']) : n ≠ "System.Array".toList := by
  intro h'
  rw [h] at h'
  have := congrArg (fun l => l.getLast?) h'
  simp at this

/-! ## Chains and sizes -/

variable {cfg : Cfg} {ref : Name → Prop} {rank size : Name → Nat}

/-- A bound for finitely many numbers. -/
theorem exists_bound (n : Nat) (P : Nat → Nat → Prop) (h : ∀ i < n, ∃ k, P i k) :
    ∃ B, ∀ i < n, ∃ k ≤ B, P i k := by
  induction n with
  | zero => exact ⟨0, fun i hi => absurd hi (Nat.not_lt_zero i)⟩
  | succ n ih =>
    obtain ⟨B, hB⟩ := ih fun i hi => h i (by omega)
    obtain ⟨k, hk⟩ := h n (by omega)
    refine ⟨max B k, fun i hi => ?_⟩
    by_cases e : i = n
    · subst e; exact ⟨k, by omega, hk⟩
    · obtain ⟨k', h1, h2⟩ := hB i (by omega)
      exact ⟨k', by omega, h2⟩

/-- The base chains of all types end, with a common bound. -/
theorem mid_depth (h0 : Inv w0) (hf : FiniteSizes cfg m w0 d ref rank size)
    (hw : ∀ k < m.tables.typeDef.length, RowNamed m (.typeDef (k + 1)) (d.name k)) :
    ∃ C, ∀ wi, Mid m w0 d wi → ∀ t < wi.types.length, ∃ n ≤ C, Depth wi t n := by
  obtain ⟨D, hD⟩ := exists_bound w0.types.length (fun t n => Depth w0 t n) fun t ht =>
    (hf.sizeOld t _ (List.getElem?_eq_getElem ht)).1
  obtain ⟨K, hK⟩ := exists_bound m.tables.typeDef.length (fun k r => rank (d.name k) = r) fun k _ => ⟨_, rfl⟩
  refine ⟨D + K + 2, fun wi hm => ?_⟩
  have own : ∀ r k, k < m.tables.typeDef.length → rank (d.name k) < r → ∃ n ≤ D + r, Depth wi (w0.types.length + k) n := by
    intro r
    induction r with
    | zero => intro k _ h; omega
    | succ r ih =>
      intro k hk hr
      obtain ⟨tr, h1, h2⟩ := hm.own k hk
      cases hb : tr.base with
      | none => exact ⟨0, by omega, .root h1 hb⟩
      | some b =>
        obtain ⟨g1, br, g2, g3⟩ := h2.base b hb
        rcases Nat.lt_or_ge b w0.types.length with hl | hl
        · obtain ⟨n, n1, n2⟩ := hD b hl
          exact ⟨n + 1, by omega, .link h1 hb ((hm.ext h0).depth n2)⟩
        · obtain ⟨br', q1, q2⟩ := hm.own (b - w0.types.length) (by omega)
          rw [show w0.types.length + (b - w0.types.length) = b by omega, g2] at q1
          cases q1
          have hrank := hf.rankBase k hk _ g3 (by
            rw [q2.name]; exact ⟨_, hw (b - w0.types.length) (by omega)⟩)
          rw [q2.name] at hrank
          obtain ⟨n, n1, n2⟩ := ih (b - w0.types.length) (by omega) (by omega)
          rw [show w0.types.length + (b - w0.types.length) = b by omega] at n2
          exact ⟨n + 1, by omega, .link h1 hb n2⟩
  have low : ∀ t < w0.types.length + m.tables.typeDef.length, ∃ n ≤ D + K + 1, Depth wi t n := by
    intro t ht
    rcases Nat.lt_or_ge t w0.types.length with hl | hl
    · obtain ⟨n, n1, n2⟩ := hD t hl
      exact ⟨n, by omega, (hm.ext h0).depth n2⟩
    · obtain ⟨r, r1, r2⟩ := hK (t - w0.types.length) (by omega)
      obtain ⟨n, n1, n2⟩ := own (K + 1) (t - w0.types.length) (by omega) (by omega)
      rw [show w0.types.length + (t - w0.types.length) = t by omega] at n2
      exact ⟨n, by omega, n2⟩
  intro t ht
  rcases Nat.lt_or_ge t (w0.types.length + m.tables.typeDef.length) with hl | hl
  · obtain ⟨n, n1, n2⟩ := low t hl
    exact ⟨n, by omega, n2⟩
  · have he := List.getElem?_eq_getElem ht
    have hx := hm.extra t _ hl he
    cases hb : wi.types[t].base with
    | none => exact ⟨0, by omega, .root he hb⟩
    | some b =>
      obtain ⟨br, g1, g2⟩ := hx.base b hb
      rcases Nat.lt_or_ge b (w0.types.length + m.tables.typeDef.length) with hl' | hl'
      · obtain ⟨n, n1, n2⟩ := low b hl'
        exact ⟨n + 1, by omega, .link he hb n2⟩
      · obtain ⟨e, hen⟩ := (hm.extra b br hl' g1).name
        exact absurd g2 (not_known_name hen)

/-- The set of reference types is closed under bases in every such registry. -/
theorem Mid.ref_base (hm : Mid m w0 d wi) (h0 : Inv w0) (hf : FiniteSizes cfg m w0 d ref rank size) {t b : Nat} {tr br : TypeRec}
    (ht : wi.types[t]? = some tr) (hr : ref tr.fullName) (hb : tr.base = some b) (hbr : wi.types[b]? = some br) :
    ref br.fullName := by
  rcases Nat.lt_or_ge t w0.types.length with hl | hl
  · have h1 := hm.old t _ (List.getElem?_eq_getElem hl)
    rw [ht] at h1; cases h1
    have hbl := h0.base t _ (List.getElem?_eq_getElem hl) b hb
    have h2 := hm.old b _ (List.getElem?_eq_getElem hbl)
    rw [hbr] at h2; cases h2
    exact (hf.refOld t _ (List.getElem?_eq_getElem hl) hr).1 b _ hb (List.getElem?_eq_getElem hbl)
  · rcases Nat.lt_or_ge t (w0.types.length + m.tables.typeDef.length) with hl' | hl'
    · obtain ⟨tr', h1, h2⟩ := hm.own (t - w0.types.length) (by omega)
      rw [show w0.types.length + (t - w0.types.length) = t by omega, ht] at h1; cases h1
      obtain ⟨-, br', g2, g3⟩ := h2.base b hb
      rw [hbr] at g2; cases g2
      exact hf.refOwn _ (by omega) (h2.name ▸ hr) _ g3
    · obtain ⟨br', g1, g2⟩ := (hm.extra t tr hl' ht).base b hb
      rw [hbr] at g1; cases g1
      rw [g2]; exact hf.refArray

theorem Mid.ref_ifaces (hm : Mid m w0 d wi) (h0 : Inv w0) (hf : FiniteSizes cfg m w0 d ref rank size) {t i : Nat} {tr ir : TypeRec}
    (ht : wi.types[t]? = some tr) (hr : ref tr.fullName) (hi : i ∈ tr.interfaces) (hir : wi.types[i]? = some ir) :
    ir.fullName ≠ "System.ValueType".toList := by
  rcases Nat.lt_or_ge t w0.types.length with hl | hl
  · have h1 := hm.old t _ (List.getElem?_eq_getElem hl)
    rw [ht] at h1; cases h1
    have hil := h0.ifaces t _ (List.getElem?_eq_getElem hl) i hi
    have h2 := hm.old i _ (List.getElem?_eq_getElem hil)
    rw [hir] at h2; cases h2
    exact (hf.refOld t _ (List.getElem?_eq_getElem hl) hr).2 i hi _ (List.getElem?_eq_getElem hil)
  · rcases Nat.lt_or_ge t (w0.types.length + m.tables.typeDef.length) with hl' | hl'
    · obtain ⟨tr', h1, h2⟩ := hm.own (t - w0.types.length) (by omega)
      rw [show w0.types.length + (t - w0.types.length) = t by omega, ht] at h1; cases h1
      obtain ⟨ir', g1, g2⟩ := h2.ifaces i hi
      rw [hir] at g1; cases g1
      exact g2
    · rw [(hm.extra t tr hl' ht).ifaces] at hi; cases hi

/-- The test for reference types answers, and says yes for the types in `ref`. -/
theorem Mid.isReferenceType (hm : Mid m w0 d wi) (h0 : Inv w0) (hf : FiniteSizes cfg m w0 d ref rank size)
    (hw : ∀ k < m.tables.typeDef.length, RowNamed m (.typeDef (k + 1)) (d.name k))
    (hv : Known m w0 "System.ValueType".toList) {t n fuel : Nat} {tr : TypeRec} (ht : wi.types[t]? = some tr)
    (hd : Depth wi t n) (hn : n < fuel) : ∃ b, isReferenceType wi fuel t = .ok b ∧ (ref tr.fullName → b = true) := by
  obtain ⟨v, vr, g1, g2, g3, -⟩ := hm.resolves hw hv
  obtain ⟨b, h1, h2⟩ := instanceOf_eq hm.inv g2 hd fuel hn
  refine ⟨!b, ?_, fun hr => ?_⟩
  · unfold Clr.isReferenceType
    rw [unwrap_eq_ok.mpr g1, Res.ok_bind, h1]; rfl
  · have anc : ∀ {t a : Nat}, Ancestor wi t a → ∀ {tr ar : TypeRec}, wi.types[t]? = some tr → ref tr.fullName →
        wi.types[a]? = some ar → ref ar.fullName := by
      intro t a ha
      induction ha with
      | self t => intro tr ar h1 hr h2; rw [h1] at h2; cases h2; exact hr
      | base hr0 hb _ ih =>
        intro tr ar h1 hr h2
        rw [hr0] at h1; cases h1
        have hbl := hm.inv.base _ _ hr0 _ hb
        exact ih (List.getElem?_eq_getElem hbl) (hm.ref_base h0 hf hr0 hr hb (List.getElem?_eq_getElem hbl)) h2
    have rootAnc : ∀ {t a : Nat}, RootOf wi t a → Ancestor wi t a := by
      intro t a ha
      induction ha with
      | root _ _ => exact .self _
      | link h1 h2 _ ih => exact .base h1 h2 ih
    cases b with
    | false => rfl
    | true =>
      exfalso
      rcases h2.mp rfl with ⟨a, r, ha, har, hrn⟩ | ⟨a, r, j, i, ha, har, hj, hir, hin⟩
      · have := anc ha ht hr har
        rw [hrn, g3] at this
        exact hf.refValue this
      · exact hm.ref_ifaces h0 hf har (anc (rootAnc ha) ht hr har) hj hir (hin.trans g3)

end
end Clr
