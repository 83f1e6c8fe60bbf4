import Verif.Props.Loading
import Verif.Props.Registry
import Verif.Spec.Kinds
/-! # C78, C79, C80: kinds, bases, interfaces and members of types -/

namespace Clr
open Spec

variable {cfg : Cfg} {m : Metadata}

/-! ## C78 -/

theorem baseNameOf_of {w : World} {tr : TypeRec} {n : Option Name} (h : BaseNamed w.types tr.base n) : baseNameOf w tr = n := by
  unfold baseNameOf
  generalize tr.base = o at h
  cases h with
  | none => rfl
  | some hb => simp [hb]

theorem kindOf_declared {sem : TypeSemantics} {own : Name} {base : Option Name} (ho : own ≠ "System.Enum".toList)
    (ha : base ≠ some "System.Array".toList) : kindOf sem base = declaredKind (sem = .iface) own base := by
  unfold kindOf declaredKind
  cases sem with
  | iface => simp
  | cls =>
    cases base with
    | none => simp
    | some b =>
      simp only [reduceCtorEq, decide_false, Bool.false_eq_true, ↓reduceIte, Option.some.injEq]
      have hb : b ≠ "System.Array".toList := fun e => ha (by rw [e])
      by_cases h1 : b = "System.ValueType".toList
      · rw [if_pos h1, if_pos ⟨h1, ho⟩]
      · rw [if_neg h1, if_neg hb, if_neg (c := b = _ ∧ _) (fun h => h1 h.1)]

/-- The type a definition or reference row stands for has the name the row gives. -/
theorem rowNamed_resolves {w w' : World} {fs : Name → Option Bytes} {depth fuel : Nat} {data : Bytes} {a : AssemblyRec} (hr : Reached cfg w) (hm : readMetadata cfg data = .ok m)
    (h : loadData cfg fs depth fuel data w = (.ok a, w')) {hd : TypeDefOrRef} {n : Name} (hn : RowNamed m hd n)
    (hk : rowNumber hd < 2 ^ 24) : ∃ t tr, a.resolveType cfg (typeToken hd) = .ok (some t) ∧ w'.types[t]? = some tr ∧
      tr.fullName = n := by
  cases hn with
  | typeDef k row n ns h1 hrow hn hns =>
    obtain ⟨t, tr, n', g1, g2, g3, g4⟩ := (C39_types cfg w w' hr fs depth fuel data m a hm h k hk h1).1
      (by have := (List.getElem?_eq_some_iff.mp hrow).1; omega)
    refine ⟨t, tr, g1, g2, ?_⟩
    rw [g3]
    cases g4 with
    | typeDef _ row' n' ns' _ hrow' hn' hns' =>
      rw [hrow] at hrow'; cases hrow'
      rw [hn] at hn'; cases hn'
      rw [hns] at hns'; cases hns'
      rfl
  | typeRef k row n ns h1 hrow hn hns =>
    obtain ⟨t, tr, n', g1, g2, g3, g4⟩ := (C39_refs cfg w w' hr fs depth fuel data m a hm h k hk h1).1
      (by have := (List.getElem?_eq_some_iff.mp hrow).1; omega)
    refine ⟨t, tr, g1, g2, ?_⟩
    rw [g3]
    cases g4 with
    | typeRef _ row' n' ns' _ hrow' hn' hns' =>
      rw [hrow] at hrow'; cases hrow'
      rw [hn] at hn'; cases hn'
      rw [hns] at hns'; cases hns'
      rfl

/-- **C78, partial.** After a successful load, the type of row `k` is abstract if the row says so; it has no base if the row
names none, and otherwise a base of the name the row's base column gives, which is the type the column refers to if only one
registered type has that name; and it has the kind its declaration gives.

Missing: bases when several types share the name (`C78_refuted_base`), the kind of `System.Enum` (`C78_refuted_kind`), and
of types that extend `System.Array` (ECMA-335 has no such declarations). -/
theorem C78_partial (cfg : Cfg) (w w' : World) (hr : Reached cfg w) (fs : Name → Option Bytes) (depth fuel : Nat) (data : Bytes)
    (m : Metadata) (a : AssemblyRec) (hm : readMetadata cfg data = .ok m)
    (h : loadData cfg fs depth fuel data w = (.ok a, w')) (k : Nat) (hk : k < 2 ^ 24) (hk1 : 1 ≤ k) (row : TypeDefRow)
    (hrow : m.tables.typeDef[k - 1]? = some row) :
    ∃ t tr, a.resolveType cfg (typeToken (.typeDef k)) = .ok (some t) ∧ w'.types[t]? = some tr ∧
      RowNamed m (.typeDef k) tr.fullName ∧ tr.isAbstract = row.attributes.isAbstract ∧
      (row.baseType.typeDefOrRef = .typeDef 0 → tr.base = none) ∧
      (row.baseType.typeDefOrRef ≠ .typeDef 0 → ∃ b br, tr.base = some b ∧ w'.types[b]? = some br ∧
        RowNamed m row.baseType.typeDefOrRef br.fullName ∧
        (OneNamed w' br.fullName → rowNumber row.baseType.typeDefOrRef < 2 ^ 24 →
          a.resolveType cfg (typeToken row.baseType.typeDefOrRef) = .ok (some b))) ∧
      (tr.fullName ≠ "System.Enum".toList → baseNameOf w' tr ≠ some "System.Array".toList →
        tr.kind = some (declaredKind (row.attributes.semantics = .iface) tr.fullName (baseNameOf w' tr))) := by
  obtain ⟨name, w1, hs, hi, hst⟩ := loadData_selfIs hr.inv hm h
  have hsm := readMetadata_small hm
  have hlen := (List.getElem?_eq_some_iff.mp hrow).1
  have htok : a.resolveType cfg (typeToken (.typeDef k)) = .ok a.types[k - 1]? := by
    unfold AssemblyRec.resolveType typeToken
    rw [token_table 2 k hk (by omega), token_index 2 k hk, usub_ok hk1]
    rfl
  have ht : a.types[k - 1]? = some (w1.types.length + (k - 1)) := by
    rw [hs.types, List.getElem?_range' hlen, Nat.one_mul]
  obtain ⟨row', nm, ns, tr, g1, g2, g3, g4, -, -, g5, g6⟩ := hs.heads (k - 1) hlen
  rw [show k - 1 + 1 = k by omega] at g1
  have := tableIndex_inv hk1 g1
  rw [hrow] at this; cases this
  obtain ⟨row', tr', l1, l2, l3⟩ := hs.kinds (k - 1) _ ht
  rw [show k - 1 + 1 = k by omega, g1] at l1; cases l1
  rw [g4] at l2; cases l2
  refine ⟨_, tr, by rw [htok, ht], g4, ?_, g6, ?_, ?_, ?_⟩
  · rw [g5, fullName_eq]
    exact .typeDef k row nm ns hk1 hrow (string!_inv g2) (string!_inv g3)
  · intro hnil
    have := l3.base
    generalize tr.base = o at this
    cases this with
    | none => rfl
    | some hne => exact absurd hnil hne
  · intro hne
    have := l3.base
    generalize tr.base = o at this
    cases this with
    | none hnil => exact absurd hnil hne
    | @some n b br _ hn hb hf =>
      have hn' := typeDefOrRefName_inv hsm hn
      refine ⟨b, br, rfl, hb, hf ▸ hn', fun hone hj => ?_⟩
      obtain ⟨t, tr', k1, k2, k3⟩ := rowNamed_resolves hr hm h hn' hj
      rw [k1, hone t b tr' br k2 hb (k3.trans hf.symm) rfl]
  · intro ho ha
    obtain ⟨n, k1, k2⟩ := l3.kind
    rw [baseNameOf_of k1] at ha ⊢
    rw [k2, kindOf_declared ho ha]

/-- **C78, interfaces, partial.** When no two types share a full name, the type of row `k` lists exactly the interfaces of the
interface rows for `k`, in order. Missing: registries with types of the same name. -/
theorem C78_interfaces_partial (cfg : Cfg) (w w' : World) (hr : Reached cfg w) (fs : Name → Option Bytes) (depth fuel : Nat)
    (data : Bytes) (m : Metadata) (a : AssemblyRec) (hm : readMetadata cfg data = .ok m)
    (h : loadData cfg fs depth fuel data w = (.ok a, w')) (hd : DistinctNames w') (k : Nat) (hk : k < 2 ^ 24) (hk1 : 1 ≤ k)
    (hkl : k ≤ m.tables.typeDef.length) :
    ∃ t tr, a.resolveType cfg (typeToken (.typeDef k)) = .ok (some t) ∧ w'.types[t]? = some tr ∧
      InterfacesNamed m w' (m.tables.interfaceImpl.filter (·.cls = k)) tr.interfaces := by
  obtain ⟨name, w1, hs, hi, hst⟩ := loadData_selfIs hr.inv hm h
  have hsm := readMetadata_small hm
  have htok : a.resolveType cfg (typeToken (.typeDef k)) = .ok a.types[k - 1]? := by
    unfold AssemblyRec.resolveType typeToken
    rw [token_table 2 k hk (by omega), token_index 2 k hk, usub_ok hk1]
    rfl
  have hrange : ∀ j, j < m.tables.typeDef.length → a.types[j]? = some (w1.types.length + j) := fun j hj => by
    rw [hs.types, List.getElem?_range' hj, Nat.one_mul]
  have ht := hrange (k - 1) (by omega)
  obtain ⟨tr, g1, g2⟩ := hs.ifaces (k - 1) _ ht
  refine ⟨_, tr, by rw [htok, ht], g1, ?_⟩
  -- the class column of a row selects the type of that row
  have hcls : ∀ {row : InterfaceImplRow} {u : Nat} {ur : TypeRec},
      typeDefOrRefName cfg m (.typeDef row.cls) = .ok (some ur.fullName) → w'.types[u]? = some ur →
      u = w1.types.length + (row.cls - 1) ∧ 1 ≤ row.cls := by
    intro row u ur h1 h2
    have hn := typeDefOrRefName_inv hsm h1
    generalize hnm : ur.fullName = nm at hn
    cases hn with
    | typeDef j r n ns hj hrow hn hns =>
      obtain ⟨r', nm', ns', tr', e1, e2, e3, e4, -, -, e5, -⟩ := hs.heads (row.cls - 1) (List.getElem?_eq_some_iff.mp hrow).1
      rw [show row.cls - 1 + 1 = row.cls by omega] at e1
      have := tableIndex_inv hj e1
      rw [hrow] at this; cases this
      have s1 := string!_inv e2
      have s2 := string!_inv e3
      rw [hn] at s1; cases s1
      rw [hns] at s2; cases s2
      exact ⟨hd _ _ _ _ h2 e4 (by rw [hnm, e5, fullName_eq]), hj⟩
  generalize tr.interfaces = l at g2
  generalize m.tables.interfaceImpl = rows at g2
  induction g2 with
  | nil => exact .nil
  | @mine row rows l i n n' tr' ir h1 h2 h3 h4 h5 h6 _ ih =>
    obtain ⟨e1, e2⟩ := hcls (h3 ▸ h1) h2
    rw [List.filter_cons_of_pos (by simp; omega)]
    exact .cons h5 (typeDefOrRefName_inv hsm (h6 ▸ h4)) ih
  | @other row rows l u n ur h1 h2 h3 hne _ ih =>
    obtain ⟨e1, e2⟩ := hcls (h3 ▸ h1) h2
    rw [List.filter_cons_of_neg (by simp; omega)]
    exact ih

namespace Ex

def kindStrings : List String := ["lib", "System", "Object", "ValueType", "Enum", "Node", "X", "Color"]

/-- `System.Enum : System.ValueType`, two nested classes called `Node`, a class `X` that extends the first of them, and an
enumeration `Color`. -/
def kindAsm : Asm where
  strings := kindStrings
  tables :=
    [(0x01, [typeRefRow kindStrings "System" "ValueType", typeRefRow kindStrings "System" "Object"]),
     (0x02, [typeRow kindStrings 0x80 "System" "Enum" (refRow 1) 1 1, typeRow kindStrings 0 "" "Node" (refRow 2) 1 1,
             typeRow kindStrings 0 "" "Node" (refRow 2) 1 1, typeRow kindStrings 0 "" "X" (defRow 2) 1 1,
             typeRow kindStrings 0 "" "Color" (defRow 1) 1 1]),
     (0x20, [assemblyRow kindStrings "lib"])]

def kindLoad : Res AssemblyRec × World := loadData Cfg.debug noFiles 1 100 kindAsm.file coreWorld

end Ex

/-- **C78 fails for bases with equal names.** The row of `X` extends type row 2, which token 2 of the type table stands for;
the base of the loaded type is the type of row 3. Nested classes of different classes often have equal names. -/
theorem C78_refuted_base :
    Ex.holds (fun m => decide (m.tables.typeDef[3]?.map (·.baseType.typeDefOrRef) = some (.typeDef 2)))
      (readMetadata .debug Ex.kindAsm.file) = true ∧
    Ex.holds (fun a => decide (a.resolveType .debug (typeToken (.typeDef 2)) = .ok (some 20) ∧
      a.resolveType .debug (typeToken (.typeDef 3)) = .ok (some 21) ∧
      a.resolveType .debug (typeToken (.typeDef 4)) = .ok (some 22))) Ex.kindLoad.1 = true ∧
    (Ex.kindLoad.2.types[22]?.map (·.base)) = some (some 21) := by
  decide +kernel

/-- **C78 fails for `System.Enum`**: it is a class, but is taken for a value type. -/
theorem C78_refuted_kind :
    (Ex.kindLoad.2.types[19]?.map fun r => (r.fullName, r.kind, declaredKind false r.fullName (baseNameOf Ex.kindLoad.2 r))) =
      some ("System.Enum".toList, some .struct, .cls) := by
  decide +kernel

/-- The other types of the example have the right bases and kinds. -/
example : (Ex.kindLoad.2.types[23]?.map fun r => (r.fullName, r.kind, r.base)) = some ("Color".toList, some .enum, some 19) ∧
    (Ex.kindLoad.2.types[20]?.map fun r => (r.fullName, r.kind, r.base)) = some ("Node".toList, some .cls, some 1) := by
  decide +kernel

/-- Interfaces `I` and `J`, and a class `C : System.Object, I, J`. -/
def Ex.implAsm : Ex.Asm where
  strings := kindStrings ++ ["I", "J", "C"]
  tables :=
    [(0x01, [typeRefRow kindStrings "System" "Object"]),
     (0x02, [typeRow (kindStrings ++ ["I", "J", "C"]) 0xa0 "" "I" 0 1 1, typeRow (kindStrings ++ ["I", "J", "C"]) 0xa0 "" "J" 0 1 1,
             typeRow (kindStrings ++ ["I", "J", "C"]) 0 "" "C" (refRow 1) 1 1]),
     (0x09, [[(2, 3), (2, defRow 1)], [(2, 3), (2, defRow 2)]]),
     (0x20, [assemblyRow kindStrings "lib"])]

def Ex.implLoad : Res AssemblyRec × World := loadData .debug noFiles 1 100 implAsm.file coreWorld

/-- A library with distinct names and interface rows: the hypotheses of the two theorems above can be met. -/
example : Ex.holds (fun m => decide (m.tables.interfaceImpl.map (·.cls) = [3, 3] ∧ m.tables.typeDef.length = 3))
      (readMetadata .debug Ex.implAsm.file) = true ∧
    Ex.holds (fun a => decide (a.types = [19, 20, 21])) Ex.implLoad.1 = true ∧
    ((Ex.implLoad.2.types.map (·.fullName)).Nodup) ∧
    ((Ex.implLoad.2.types.drop 19).map fun r => (r.kind, r.base, r.interfaces)) =
      [(some .iface, none, []), (some .iface, none, []), (some .cls, some 1, [19, 20])] := by
  decide +kernel

/-! ## C79 -/

theorem ancestor_last {w : World} {t v : Nat} (h : Ancestor w t v) : t = v ∨ ∃ s r, Ancestor w t s ∧ w.types[s]? = some r ∧ r.base = some v := by
  induction h with
  | self t => exact .inl rfl
  | @base t b a r h1 h2 _ ih =>
    rcases ih with rfl | ⟨s, rs, k1, k2, k3⟩
    · exact .inr ⟨t, r, .self t, h1, h2⟩
    · exact .inr ⟨s, rs, .base h1 h2 k1, k2, k3⟩

/-- **C79, partial.** In a registry with distinct names where nothing extends a value type, `is_reference_type` answers `false`
exactly for the value types, for every type but `System.ValueType` and `System.Enum` whose base chain ends.

Missing: these two types, which are classes but are taken for value types (`C79_refuted`). -/
theorem C79_partial (cfg : Cfg) (w : World) (h : Reached cfg w) (hd : DistinctNames w) (v : Nat)
    (hv : w.getType "System.ValueType".toList = some v)
    (henum : ∀ (e : Nat) (er : TypeRec), w.types[e]? = some er → er.fullName = "System.Enum".toList → er.base = some v)
    (hs : ValueTypesSealed w) (hif : ∀ r ∈ w.types, v ∉ r.interfaces) (t n : Nat) (tr : TypeRec) (ht : w.types[t]? = some tr)
    (hn : Depth w t n) (hnv : tr.fullName ≠ "System.ValueType".toList) (hne : tr.fullName ≠ "System.Enum".toList) (fuel : Nat)
    (hf : n < fuel) : ∃ b, isReferenceType w fuel t = .ok b ∧ (b = false ↔ IsValueType w t) := by
  obtain ⟨vr, v1, v2, -⟩ := (h.inv.getType_iff _ _).mp hv
  obtain ⟨b, k1, k2, -⟩ := C37_partial cfg w h hd t v n (List.getElem?_eq_some_iff.mp v1).1 hn
  refine ⟨!b, ?_, ?_⟩
  · unfold isReferenceType
    rw [hv]
    simp only [Res.unwrap, Res.ok_bind, k1 fuel hf]
    rfl
  · rw [Bool.not_eq_false', k2]
    constructor
    · rintro (ha | ⟨a, r, _, h2, h3⟩)
      · rcases ancestor_last ha with rfl | ⟨s, sr, s1, s2, s3⟩
        · rw [ht] at v1; cases v1; exact absurd v2 hnv
        · rcases ancestor_last s1 with rfl | ⟨u, ur, u1, u2, u3⟩
          · exact ⟨sr, v, vr, s2, s3, v1, .inl ⟨v2, by rw [ht] at s2; cases s2; exact hne⟩⟩
          · by_cases he : sr.fullName = "System.Enum".toList
            · rcases ancestor_last u1 with rfl | ⟨x, xr, _, x2, x3⟩
              · exact ⟨ur, s, sr, u2, u3, s2, .inr he⟩
              · exact absurd ⟨ur, s, sr, u2, u3, s2, .inr he⟩ (hs x u xr x2 x3)
            · exact absurd ⟨sr, v, vr, s2, s3, v1, .inl ⟨v2, he⟩⟩ (hs u s ur u2 u3)
      · exact absurd h3 (hif r (List.mem_of_getElem? h2))
    · rintro ⟨r, b, br, h1, h2, h3, (⟨h4, _⟩ | h4)⟩
      · have := hd b v br vr h3 v1 (h4.trans v2.symm)
        subst this
        exact .inl (.base h1 h2 (.self _))
      · exact .inl (.base h1 h2 (.base h3 (henum b br h3 h4) (.self _)))

/-- **C79 fails for `System.ValueType` and `System.Enum`**: variables of these types hold references to boxed values, but the
runtime takes them for value types, and gives fields of these types no room. -/
theorem C79_refuted :
    isReferenceType Ex.kindLoad.2 9 2 = .ok false ∧ (Ex.kindLoad.2.types[2]?.map (·.fullName)) = some "System.ValueType".toList ∧
    isReferenceType Ex.kindLoad.2 9 19 = .ok false ∧ (Ex.kindLoad.2.types[19]?.map (·.fullName)) = some "System.Enum".toList ∧
    typeSize .debug Ex.kindLoad.2 9 2 = .ok 0 := by
  decide +kernel

theorem isValueType_iff {w : World} {t : Nat} : IsValueType w t ↔
    (match w.types[t]? with
      | none => False
      | some r => match r.base with
        | none => False
        | some b => match w.types[b]? with
          | none => False
          | some br => br.fullName = "System.ValueType".toList ∧ r.fullName ≠ "System.Enum".toList ∨
              br.fullName = "System.Enum".toList) := by
  unfold IsValueType
  constructor
  · rintro ⟨r, b, br, h1, h2, h3, h4⟩
    simp only [h1, h2, h3]; exact h4
  · intro h
    split at h
    · exact h.elim
    · split at h
      · exact h.elim
      · split at h
        · exact h.elim
        · exact ⟨_, _, _, by assumption, by assumption, by assumption, h⟩

instance (w : World) (t : Nat) : Decidable (IsValueType w t) := by
  refine @decidable_of_iff _ _ isValueType_iff.symm ?_
  split
  · infer_instance
  · split
    · infer_instance
    · split <;> infer_instance

theorem sealed_of {w : World} (h : ∀ r ∈ w.types, ∀ b ∈ r.base, ¬ IsValueType w b) : ValueTypesSealed w :=
  fun _ b r h1 h2 => h r (List.mem_of_getElem? h1) b h2

theorem enum_of {w : World} {v : Nat} (h : ∀ r ∈ w.types, r.fullName = "System.Enum".toList → r.base = some v) :
    ∀ (e : Nat) (er : TypeRec), w.types[e]? = some er → er.fullName = "System.Enum".toList → er.base = some v :=
  fun _ er h1 h2 => h er (List.mem_of_getElem? h1) h2

/-- The core library meets the assumptions. -/
example : DistinctNames Ex.coreWorld ∧ Ex.coreWorld.getType "System.ValueType".toList = some 2 ∧ ValueTypesSealed Ex.coreWorld ∧
    (∀ r ∈ Ex.coreWorld.types, 2 ∉ r.interfaces) ∧ IsValueType Ex.coreWorld 10 ∧ ¬ IsValueType Ex.coreWorld 16 :=
  ⟨distinctNames_of_nodup (by decide +kernel), by decide +kernel, sealed_of (by decide +kernel), by decide +kernel,
    by decide +kernel, by decide +kernel⟩

/-! ## C80 -/

theorem allFields_chain {w : World} {t : Nat} {ts : List Nat} (h : BaseChain w t ts) (fuel : Nat) (hf : ts.length ≤ fuel) :
    ∃ rs : List TypeRec, rs.length = ts.length ∧ (∀ (i : Nat) s, ts[i]? = some s → w.types[s]? = rs[i]?) ∧
      allFields w fuel t = .ok (rs.map (·.fields)).flatten := by
  induction h generalizing fuel with
  | @root t r ht hb =>
    obtain ⟨fuel, rfl⟩ : ∃ k, fuel = k + 1 := ⟨fuel - 1, by simp at hf; omega⟩
    refine ⟨[r], rfl, ?_, ?_⟩
    · intro i s hi
      cases i with
      | zero => cases hi; exact ht
      | succ i => simp at hi
    · unfold allFields
      rw [typeAt_eq_ok.mpr ht, Res.ok_bind, hb]
      simp
  | @link t b r ts ht hb _ ih =>
    simp only [List.length_cons] at hf
    obtain ⟨fuel, rfl⟩ : ∃ k, fuel = k + 1 := ⟨fuel - 1, by omega⟩
    obtain ⟨rs, h1, h2, h3⟩ := ih fuel (by omega)
    refine ⟨r :: rs, by simp [h1], ?_, ?_⟩
    · intro i s hi
      cases i with
      | zero => cases hi; exact ht
      | succ i => exact h2 i s (by simpa using hi)
    · unfold allFields
      rw [typeAt_eq_ok.mpr ht, Res.ok_bind, hb]
      simp [h3]

theorem chain_ancestor {w : World} {t : Nat} {ts : List Nat} (h : BaseChain w t ts) (s : Nat) : s ∈ ts ↔ Ancestor w t s := by
  induction h with
  | @root t r ht hb =>
    rw [List.mem_singleton]
    constructor
    · rintro rfl; exact .self _
    · intro h
      cases h with
      | self => rfl
      | base h1 h2 => rw [ht] at h1; cases h1; rw [hb] at h2; cases h2
  | @link t b r ts ht hb _ ih =>
    rw [List.mem_cons, ih]
    constructor
    · rintro (rfl | h)
      · exact .self _
      · exact .base ht hb h
    · intro h
      cases h with
      | self => exact .inl rfl
      | base h1 h2 h3 => rw [ht] at h1; cases h1; rw [hb] at h2; cases h2; exact .inr h3

theorem chain_unique {w : World} {t : Nat} {ts us : List Nat} (h : BaseChain w t ts) (g : BaseChain w t us) : ts = us := by
  induction h generalizing us with
  | @root t r ht hb =>
    cases g with
    | root => rfl
    | link h1 h2 => rw [ht] at h1; cases h1; rw [hb] at h2; cases h2
  | @link t b r ts ht hb _ ih =>
    cases g with
    | root h1 h2 => rw [ht] at h1; cases h1; rw [hb] at h2; cases h2
    | link h1 h2 h3 => rw [ht] at h1; cases h1; rw [hb] at h2; cases h2; rw [ih h3]

theorem chain_suffix {w : World} {t : Nat} {ts : List Nat} (h : BaseChain w t ts) {s : Nat} (hs : s ∈ ts) :
    ∃ us, BaseChain w s us ∧ us.length ≤ ts.length := by
  induction h with
  | root ht hb =>
    rw [List.mem_singleton] at hs
    subst hs
    exact ⟨_, .root ht hb, Nat.le_refl _⟩
  | link ht hb h ih =>
    rcases List.mem_cons.1 hs with rfl | hs
    · exact ⟨_, .link ht hb h, Nat.le_refl _⟩
    · obtain ⟨us, h1, h2⟩ := ih hs
      exact ⟨us, h1, by simp; omega⟩

theorem chain_nodup {w : World} {t : Nat} {ts : List Nat} (h : BaseChain w t ts) : ts.Nodup := by
  induction h with
  | root => simp
  | link ht hb h ih =>
    rw [List.nodup_cons]
    refine ⟨fun hm => ?_, ih⟩
    obtain ⟨us, h1, h2⟩ := chain_suffix h hm
    have := chain_unique h1 (.link ht hb h)
    rw [this] at h2
    simp at h2
    omega

/-- **C80, fields.** When the base chain of a type ends, `all_fields` lists the fields of the type and its base classes, nearest
first, each class once. -/
theorem C80_fields (w : World) (t : Nat) (ts : List Nat) (h : BaseChain w t ts) (fuel : Nat) (hf : ts.length ≤ fuel) :
    (∀ s, s ∈ ts ↔ Ancestor w t s) ∧ ts.Nodup ∧
    ∃ rs : List TypeRec, rs.length = ts.length ∧ (∀ (i : Nat) s, ts[i]? = some s → w.types[s]? = rs[i]?) ∧
      allFields w fuel t = .ok (rs.map (·.fields)).flatten :=
  ⟨chain_ancestor h, chain_nodup h, allFields_chain h fuel hf⟩

theorem concatMethods_ok {rec : Nat → Res (List MethodRec)} {P : Nat → MethodRec → Prop} (is : List Nat)
    (h : ∀ i ∈ is, ∃ ms, rec i = .ok ms ∧ ∀ x, x ∈ ms ↔ P i x) :
    ∃ ms, concatMethods rec is = .ok ms ∧ ∀ x, x ∈ ms ↔ ∃ i ∈ is, P i x := by
  induction is with
  | nil => exact ⟨[], rfl, by simp⟩
  | cons i is ih =>
    obtain ⟨ms, h1, h2⟩ := h i (by simp)
    obtain ⟨ns, h3, h4⟩ := ih fun j hj => h j (by simp [hj])
    refine ⟨ms ++ ns, by simp [concatMethods, h1, h3], fun x => ?_⟩
    rw [List.mem_append, h2, h4]
    simp

/-- **C80, methods, partial.** When inheritance does not go in circles, `all_methods` lists exactly the methods of the type, its
base classes and interfaces, and theirs.

Missing: that each is listed once, and circles of interfaces (`C80_refuted`). -/
theorem C80_partial (cfg : Cfg) (w : World) (h : Reached cfg w) (rank : Nat → Nat) (hr : Ranked w rank) (t : Nat)
    (ht : t < w.types.length) (fuel : Nat) (hf : rank t < fuel) :
    ∃ ms, allMethods w fuel t = .ok ms ∧
      ∀ x, x ∈ ms ↔ ∃ s r, Inherits w t s ∧ w.types[s]? = some r ∧ x ∈ r.methods := by
  induction fuel generalizing t with
  | zero => omega
  | succ fuel ih =>
    have htr := List.getElem?_eq_getElem ht
    generalize w.types[t] = tr at htr
    obtain ⟨r1, r2⟩ := hr t tr htr
    obtain ⟨fi, f1, f2⟩ := concatMethods_ok (rec := allMethods w fuel)
      (P := fun i x => ∃ s r, Inherits w i s ∧ w.types[s]? = some r ∧ x ∈ r.methods) tr.interfaces (fun i hi =>
        ih i (h.inv.ifaces t tr htr i hi) (by have := r2 i hi; omega))
    have key : ∀ {x : MethodRec}, (∃ s r, Inherits w t s ∧ w.types[s]? = some r ∧ x ∈ r.methods) ↔
        x ∈ tr.methods ∨ (∃ b, tr.base = some b ∧ ∃ s r, Inherits w b s ∧ w.types[s]? = some r ∧ x ∈ r.methods) ∨
        ∃ i ∈ tr.interfaces, ∃ s r, Inherits w i s ∧ w.types[s]? = some r ∧ x ∈ r.methods := by
      intro x
      constructor
      · rintro ⟨s, r, h1, h2, h3⟩
        cases h1 with
        | self => rw [htr] at h2; cases h2; exact .inl h3
        | base k1 k2 k3 => rw [htr] at k1; cases k1; exact .inr (.inl ⟨_, k2, s, r, k3, h2, h3⟩)
        | iface k1 k2 k3 => rw [htr] at k1; cases k1; exact .inr (.inr ⟨_, k2, s, r, k3, h2, h3⟩)
      · rintro (h1 | ⟨b, h1, s, r, h2, h3, h4⟩ | ⟨i, h1, s, r, h2, h3, h4⟩)
        · exact ⟨t, tr, .self _, htr, h1⟩
        · exact ⟨s, r, .base htr h1 h2, h3, h4⟩
        · exact ⟨s, r, .iface htr h1 h2, h3, h4⟩
    unfold allMethods
    rw [typeAt_eq_ok.mpr htr, Res.ok_bind]
    cases hb : tr.base with
    | none =>
      refine ⟨tr.methods ++ [] ++ fi, by simp [f1], fun x => ?_⟩
      rw [key, List.append_nil, List.mem_append, f2]
      simp [hb]
    | some b =>
      obtain ⟨bs, b1, b2⟩ := ih b (h.inv.base t tr htr b hb) (by have := r1 b hb; omega)
      refine ⟨tr.methods ++ bs ++ fi, by simp [b1, f1], fun x => ?_⟩
      rw [key, List.mem_append, List.mem_append, b2, f2, or_assoc]
      simp [hb]

namespace Ex

def diaStrings : List String := ["lib", "System", "Object", "I", "J", "C", "K", "L", "M"]

/-- Interfaces `I` with a method `M`, `J : I`, a class `C : I, J`, and interfaces `K : L` and `L : K`. -/
def diaAsm : Asm where
  strings := diaStrings
  blobs := [[0x20, 0, 0x01]]
  tables :=
    [(0x01, [typeRefRow diaStrings "System" "Object"]),
     (0x02, [typeRow diaStrings 0xa0 "" "I" 0 1 1, typeRow diaStrings 0xa0 "" "J" 0 1 2,
             typeRow diaStrings 0 "" "C" (refRow 1) 1 2, typeRow diaStrings 0xa0 "" "K" 0 1 2,
             typeRow diaStrings 0xa0 "" "L" 0 1 2]),
     (0x06, [methodRow diaStrings 0 0 0x440 "M" 1 1]),
     (0x09, [[(2, 2), (2, defRow 1)], [(2, 3), (2, defRow 1)], [(2, 3), (2, defRow 2)], [(2, 4), (2, defRow 5)],
             [(2, 5), (2, defRow 4)]]),
     (0x20, [assemblyRow diaStrings "lib"])]

def diaLoad : Res AssemblyRec × World := loadData .debug noFiles 1 100 diaAsm.file coreWorld

end Ex

/-- **C80 fails for interfaces reached twice and for circles of interfaces.** `C : I, J` with `J : I`, which is how compilers
write `C : J`, lists the method of `I` twice. A library with `K : L` and `L : K` loads without complaint; listing the methods
of `K` does not end. -/
theorem C80_refuted :
    Ex.holds (fun a => decide (a.types = [19, 20, 21, 22, 23])) Ex.diaLoad.1 = true ∧
    Ex.holds (fun ms => decide (ms.map (fun x => (x.name, x.declaringType)) = [("M".toList, 19), ("M".toList, 19)]))
      (allMethods Ex.diaLoad.2 9 21) = true ∧
    ∀ fuel, allMethods Ex.diaLoad.2 fuel 22 = .timeout := by
  refine ⟨by decide +kernel, by decide +kernel, ?_⟩
  have h : (Ex.diaLoad.2.types[22]?.map fun r => (r.base, r.interfaces)) = some (none, [23]) ∧
      (Ex.diaLoad.2.types[23]?.map fun r => (r.base, r.interfaces)) = some (none, [22]) := by decide +kernel
  obtain ⟨h1, h2⟩ := h
  obtain ⟨k, hk, ek⟩ := Option.map_eq_some_iff.1 h1
  obtain ⟨l, hl, el⟩ := Option.map_eq_some_iff.1 h2
  simp only [Prod.mk.injEq] at ek el
  suffices ∀ fuel, allMethods Ex.diaLoad.2 fuel 22 = .timeout ∧ allMethods Ex.diaLoad.2 fuel 23 = .timeout from
    fun fuel => (this fuel).1
  intro fuel
  induction fuel with
  | zero => exact ⟨rfl, rfl⟩
  | succ fuel ih =>
    constructor
    · unfold allMethods
      rw [typeAt_eq_ok.mpr hk, Res.ok_bind, ek.1, ek.2]
      simp [concatMethods, ih.2]
    · unfold allMethods
      rw [typeAt_eq_ok.mpr hl, Res.ok_bind, el.1, el.2]
      simp [concatMethods, ih.1]

theorem ranked_of {w : World} {rank : Nat → Nat}
    (h : ∀ t, t < w.types.length → ∀ r ∈ w.types[t]?, (∀ b ∈ r.base, rank b < rank t) ∧ ∀ i ∈ r.interfaces, rank i < rank t) :
    Ranked w rank := by
  intro t r ht
  obtain ⟨h1, h2⟩ := h t (List.getElem?_eq_some_iff.1 ht).1 r ht
  exact ⟨fun b hb => h1 b hb, h2⟩

/-- The library of C78 has no circles: the hypotheses can be met. -/
example : Ranked Ex.implLoad.2 (fun t => if t = 1 then 0 else if t = 2 then 1 else if t = 21 then 2 else if t < 19 then 2 else 0) :=
  ranked_of (by decide +kernel)

/-- Fields of `System.Int32`, `System.ValueType` and `System.Object`. -/
example : BaseChain Ex.coreWorld 10 [10, 2, 1] := by
  have h : (Ex.coreWorld.types[10]?.map (·.base)) = some (some 2) ∧ (Ex.coreWorld.types[2]?.map (·.base)) = some (some 1) ∧
      (Ex.coreWorld.types[1]?.map (·.base)) = some none := by decide +kernel
  obtain ⟨h1, h2, h3⟩ := h
  obtain ⟨a, ha, ea⟩ := Option.map_eq_some_iff.1 h1
  obtain ⟨b, hb, eb⟩ := Option.map_eq_some_iff.1 h2
  obtain ⟨c, hc, ec⟩ := Option.map_eq_some_iff.1 h3
  exact .link ha ea (.link hb eb (.root hc ec))

end Clr
