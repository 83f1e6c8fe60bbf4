import Verif.Lemmas.LoadSelf
import Verif.Lemmas.Small
import Verif.Props.Names
/-! # C39, C40, C11: tokens and the entry point after loading -/

namespace Clr
open Spec

variable {cfg : Cfg} {m : Metadata}

theorem tableIndex_inv {α : Type} {rows : List α} {k : Nat} {row : α} (hk : 1 ≤ k) (h : tableIndex cfg rows k = .ok row) :
    rows[k - 1]? = some row := by
  unfold tableIndex at h
  rw [usub_ok hk] at h
  simpa [unwrap_eq_ok] using h

theorem string!_inv {h : Nat} {n : Name} (hs : m.string! h = .ok n) : m.string h = .ok (some n) := by
  unfold Metadata.string! at hs
  obtain ⟨o, h1, h2⟩ := Res.bind_eq_ok.mp hs
  rw [unwrap_eq_ok] at h2
  rw [h1, h2]

/-! ## C39 -/

/-- `x` is the method that row `k` of the method table defines, as a member of type `t`: name, flags, signature
(number of parameters, and the types the signature's element types resolve to), and either the body at the row's address
or a native implementation. -/
def DefinesMethod (cfg : Cfg) (m : Metadata) (t k : Nat) (x : MethodRec) : Prop :=
  x.declaringType = t ∧ ∃ row, m.tables.methodDef[k - 1]? = some row ∧ m.string row.name = .ok (some x.name) ∧
    x.isStatic = row.attributes.isStatic ∧ x.isVirtual = row.attributes.isVirtual ∧ x.isAbstract = row.attributes.isAbstract ∧
    (∃ r sig r', blobHeapReader cfg m.blobHeap row.signature = .ok r ∧ readMethodSig cfg r = .ok (sig, r') ∧
      x.params.length = sig.params.length ∧ ∃ w w', typeFor cfg m sig.returnType w = (.ok x.returnType, w')) ∧
    (row.implAttributes.internalCall = false → row.attributes.isAbstract = false →
      ∃ b w w', x.impl = .il b ∧ loadBody cfg m row.rva w = (.ok b, w'))

theorem MethodRowIs.defines {t k : Nat} {x : MethodRec} (hk : 1 ≤ k) (h : MethodRowIs cfg m t k x) : DefinesMethod cfg m t k x := by
  obtain ⟨h1, row, h2, h3, h4, h5, h6, r, sig, r', h7, h8, h9, ⟨w1, w1', h10⟩, ⟨w2, w2', h11⟩, -⟩ := h
  refine ⟨h1, row, tableIndex_inv hk h2, string!_inv h3, h4, h5, h6, ⟨r, sig, r', h7, h8, h9, w2, w2', h11⟩, fun hi ha => ?_⟩
  unfold loadImpl at h10
  rw [hi, ha] at h10
  simp only [Bool.false_eq_true, if_false] at h10
  split at h10
  · simp at h10
  · obtain ⟨b, w3, h12, h13⟩ := M.bind_eq_ok.mp h10
    simp only [M.pure_run, Prod.mk.injEq, Res.ok.injEq] at h13
    exact ⟨b, w1, w3, h13.1.symm, h12⟩

/-- `f` is the field that row `k` of the field table defines, as a member of type `t`. -/
def DefinesField (cfg : Cfg) (m : Metadata) (t k : Nat) (f : FieldRec) : Prop :=
  f.declaringType = t ∧ ∃ row, m.tables.field[k - 1]? = some row ∧ m.string row.name = .ok (some f.name) ∧
    f.isStatic = row.attributes.isStatic ∧ ∃ r e r', blobHeapReader cfg m.blobHeap row.signature = .ok r ∧
      readFieldSig cfg r = .ok (e, r') ∧ ∃ w w', typeFor cfg m e w = (.ok f.fieldType, w')

theorem FieldRowIs.defines {t k : Nat} {x : FieldRec} (hk : 1 ≤ k) (h : FieldRowIs cfg m t k x) : DefinesField cfg m t k x := by
  obtain ⟨h1, row, h2, h3, h4, h5⟩ := h
  exact ⟨h1, row, tableIndex_inv hk h2, string!_inv h3, h4, h5⟩

/-- The concatenated runs of an assembly, row by row. -/
theorem runs_cover {α : Type} {list : TypeDefRow → Nat} {rows : Nat} {P : Nat → Nat → α → Prop} {types : List Nat}
    {xss : List (List α)} (hp : Partition (m.tables.typeDef.map list) rows) (hlen : xss.length = types.length)
    (htl : types.length = m.tables.typeDef.length)
    (hx : ∀ (k : Nat) t, types[k]? = some t → ∃ xs, xss[k]? = some xs ∧ RunIs cfg m list rows k (P t) xs) :
    xss.flatten.length = rows ∧ ∀ (p : Nat) x, xss.flatten[p]? = some x → ∃ i t, types[i]? = some t ∧
      Owns (m.tables.typeDef.map list) rows i (p + 1) ∧ P t (p + 1) x := by
  have hp' := hp
  obtain ⟨hp0, hp1, hp2, hp3⟩ := hp
  cases hs : (m.tables.typeDef.map list)[0]? with
  | none =>
    have hnil : m.tables.typeDef.map list = [] := by
      cases h : m.tables.typeDef.map list with
      | nil => rfl
      | cons a as => rw [h] at hs; simp at hs
    have h0 : m.tables.typeDef.length = 0 := by have := congrArg List.length hnil; simpa using this
    have : xss = [] := List.length_eq_zero_iff.mp (by omega)
    subst this
    exact ⟨by rw [hp0 hnil]; rfl, by simp⟩
  | some s0 =>
    have hs1 := hp1 s0 hs
    subst hs1
    have := flatten_runs (rows := rows) (m.tables.typeDef.map list) (xss := xss)
      (P := fun i r x => ∃ t, types[i]? = some t ∧ P t r x) hp2 hp3 (by simp [hlen, htl]) (fun i s xs his hixs => by
        have hil : i < types.length := by
          have := (List.getElem?_eq_some_iff.mp hixs).1; omega
        obtain ⟨xs', g1, s', n', g2, g3, g4⟩ := hx i types[i] (by simp [hil])
        rw [hixs] at g1; cases g1
        rw [List.getElem?_map, Option.map_eq_some_iff] at his
        obtain ⟨row, hrow, rfl⟩ := his
        rw [ownedRun_partition hp' hrow] at g2
        cases g2
        exact ⟨g3, fun k x hkx => ⟨types[i], by simp [hil], g4 k x hkx⟩⟩) 1 hs
    refine ⟨by rw [this.1]; omega, fun p x hpx => ?_⟩
    obtain ⟨i, h1, t, h2, h3⟩ := this.2 p x hpx
    rw [Nat.add_comm 1 p] at h1 h3
    exact ⟨i, t, h2, h1, h3⟩

theorem resolveMethod_def (a : AssemblyRec) {k : Nat} (hk : k < 2 ^ 24) :
    a.resolveMethod cfg ⟨6 * 2 ^ 24 + k⟩ = (do let i ← usub cfg 64 k 1; pure a.methodDefs[i]?) := by
  unfold AssemblyRec.resolveMethod
  rw [token_table 6 k hk (by omega), token_index 6 k hk]
  rfl

theorem resolveField_def (a : AssemblyRec) {k : Nat} (hk : k < 2 ^ 24) :
    a.resolveField cfg ⟨4 * 2 ^ 24 + k⟩ = (do let i ← usub cfg 64 k 1; pure a.fields[i]?) := by
  unfold AssemblyRec.resolveField
  rw [token_table 4 k hk (by omega), token_index 4 k hk]
  rfl

theorem usub_zero_one {i : Nat} (h : usub cfg 64 0 1 = .ok i) : i = 2 ^ 64 - 1 := by
  unfold usub at h
  rw [if_neg (by omega)] at h
  split at h
  · simp at h
  · cases h; rfl

/-- **C39, methods.** After a successful load of a file whose type rows partition the method table, method token `k`
resolves to the method defined by row `k`, a member of the type whose run contains `k`; tokens beyond the table resolve to
nothing, and the nil token never resolves to a method. -/
theorem C39_methods (cfg : Cfg) (w w' : World) (hr : Reached cfg w) (fs : Name → Option Bytes) (depth fuel : Nat) (data : Bytes)
    (m : Metadata) (a : AssemblyRec) (hm : readMetadata cfg data = .ok m)
    (h : loadData cfg fs depth fuel data w = (.ok a, w'))
    (hp : Partition (m.tables.typeDef.map (·.methodList)) m.tables.methodDef.length) (k : Nat) (hk : k < 2 ^ 24) :
    (1 ≤ k → k ≤ m.tables.methodDef.length → ∃ x i t, a.resolveMethod cfg ⟨6 * 2 ^ 24 + k⟩ = .ok (some x) ∧
      Owns (m.tables.typeDef.map (·.methodList)) m.tables.methodDef.length i k ∧ a.types[i]? = some t ∧
      DefinesMethod cfg m t k x) ∧
    (m.tables.methodDef.length < k → a.resolveMethod cfg ⟨6 * 2 ^ 24 + k⟩ = .ok none) ∧
    (k = 0 → ∀ x, a.resolveMethod cfg ⟨6 * 2 ^ 24 + k⟩ ≠ .ok (some x)) := by
  obtain ⟨name, w1, hs, -, -⟩ := loadData_selfIs hr.inv hm h
  obtain ⟨xss, h1, h2, h3⟩ := hs.methods
  have htl : a.types.length = m.tables.typeDef.length := by rw [hs.types]; simp
  obtain ⟨g1, g2⟩ := runs_cover (P := MethodRowIs cfg m) hp h2 htl fun k t hk => by
    obtain ⟨tr, _, h5, h6⟩ := h3 k t hk
    exact ⟨_, h5, h6⟩
  rw [← h1] at g1 g2
  rw [resolveMethod_def a hk]
  refine ⟨fun hk1 hkl => ?_, fun hkl => ?_, fun hk0 x hx => ?_⟩
  · obtain ⟨i, t, k1, k2, k3⟩ := g2 (k - 1) _ (List.getElem?_eq_getElem (by omega))
    rw [show k - 1 + 1 = k by omega] at k2 k3
    refine ⟨a.methodDefs[k - 1]'(by omega), i, t, ?_, k2, k1, k3.defines hk1⟩
    rw [usub_ok hk1]
    simp only [Res.ok_bind, Res.pure_eq]
    rw [List.getElem?_eq_getElem]
  · rw [usub_ok (by omega)]
    simp only [Res.ok_bind, Res.pure_eq]
    rw [List.getElem?_eq_none (by omega)]
  · subst hk0
    obtain ⟨i, k1, k2⟩ := Res.bind_eq_ok.mp hx
    have hi := usub_zero_one k1
    simp only [Res.pure_eq, Res.ok.injEq] at k2
    have := (List.getElem?_eq_some_iff.mp k2).1
    have := (readMetadata_small hm).field
    have := (readMetadata_small hm).methodDef
    omega

/-- **C39, fields.** The same for field tokens. -/
theorem C39_fields (cfg : Cfg) (w w' : World) (hr : Reached cfg w) (fs : Name → Option Bytes) (depth fuel : Nat) (data : Bytes)
    (m : Metadata) (a : AssemblyRec) (hm : readMetadata cfg data = .ok m)
    (h : loadData cfg fs depth fuel data w = (.ok a, w'))
    (hp : Partition (m.tables.typeDef.map (·.fieldList)) m.tables.field.length) (k : Nat) (hk : k < 2 ^ 24) :
    (1 ≤ k → k ≤ m.tables.field.length → ∃ x i t, a.resolveField cfg ⟨4 * 2 ^ 24 + k⟩ = .ok (some x) ∧
      Owns (m.tables.typeDef.map (·.fieldList)) m.tables.field.length i k ∧ a.types[i]? = some t ∧
      DefinesField cfg m t k x) ∧
    (m.tables.field.length < k → a.resolveField cfg ⟨4 * 2 ^ 24 + k⟩ = .ok none) ∧
    (k = 0 → ∀ x, a.resolveField cfg ⟨4 * 2 ^ 24 + k⟩ ≠ .ok (some x)) := by
  obtain ⟨name, w1, hs, -, -⟩ := loadData_selfIs hr.inv hm h
  obtain ⟨xss, h1, h2, h3⟩ := hs.fields
  have htl : a.types.length = m.tables.typeDef.length := by rw [hs.types]; simp
  obtain ⟨g1, g2⟩ := runs_cover (P := FieldRowIs cfg m) hp h2 htl fun k t hk => by
    obtain ⟨tr, fs, _, h5, _, h6⟩ := h3 k t hk
    exact ⟨_, h5, h6⟩
  rw [← h1] at g1 g2
  rw [resolveField_def a hk]
  refine ⟨fun hk1 hkl => ?_, fun hkl => ?_, fun hk0 x hx => ?_⟩
  · obtain ⟨i, t, k1, k2, k3⟩ := g2 (k - 1) _ (List.getElem?_eq_getElem (by omega))
    rw [show k - 1 + 1 = k by omega] at k2 k3
    refine ⟨a.fields[k - 1]'(by omega), i, t, ?_, k2, k1, k3.defines hk1⟩
    rw [usub_ok hk1]
    simp only [Res.ok_bind, Res.pure_eq]
    rw [List.getElem?_eq_getElem]
  · rw [usub_ok (by omega)]
    simp only [Res.ok_bind, Res.pure_eq]
    rw [List.getElem?_eq_none (by omega)]
  · subst hk0
    obtain ⟨i, k1, k2⟩ := Res.bind_eq_ok.mp hx
    have hi := usub_zero_one k1
    simp only [Res.pure_eq, Res.ok.injEq] at k2
    have := (List.getElem?_eq_some_iff.mp k2).1
    have := (readMetadata_small hm).field
    have := (readMetadata_small hm).methodDef
    omega

/-- **C39, types.** Type token `k` resolves to the type registered for row `k`. -/
theorem C39_types (cfg : Cfg) (w w' : World) (hr : Reached cfg w) (fs : Name → Option Bytes) (depth fuel : Nat) (data : Bytes)
    (m : Metadata) (a : AssemblyRec) (hm : readMetadata cfg data = .ok m)
    (h : loadData cfg fs depth fuel data w = (.ok a, w')) (k : Nat) (hk : k < 2 ^ 24) (hk1 : 1 ≤ k) :
    (k ≤ m.tables.typeDef.length → ∃ t tr n, a.resolveType cfg ⟨2 * 2 ^ 24 + k⟩ = .ok (some t) ∧ w'.types[t]? = some tr ∧
      tr.fullName = n ∧ RowNamed m (.typeDef k) n) ∧
    (m.tables.typeDef.length < k → a.resolveType cfg ⟨2 * 2 ^ 24 + k⟩ = .ok none) := by
  obtain ⟨name, w1, hs, -, -⟩ := loadData_selfIs hr.inv hm h
  have hd : a.resolveType cfg ⟨2 * 2 ^ 24 + k⟩ = .ok a.types[k - 1]? := by
    unfold AssemblyRec.resolveType
    rw [token_table 2 k hk (by omega), token_index 2 k hk, usub_ok hk1]
    rfl
  rw [hd, hs.types]
  refine ⟨fun hkl => ?_, fun hkl => ?_⟩
  · obtain ⟨row, nm, ns, tr, g1, g2, g3, g4, -, -, g5, -⟩ := hs.heads (k - 1) (by omega)
    rw [show k - 1 + 1 = k by omega] at g1
    refine ⟨_, tr, _, by rw [List.getElem?_range' (by omega), Nat.one_mul], g4, rfl, ?_⟩
    rw [g5, fullName_eq]
    exact .typeDef k row nm ns hk1 (tableIndex_inv hk1 g1) (string!_inv g2) (string!_inv g3)
  · rw [List.getElem?_eq_none (by simp; omega)]

/-- A row index that is accepted is the number of a row. -/
theorem tableIndex_pos {α : Type} {rows : List α} {k : Nat} {row : α} (hs : rows.length < 2 ^ 32)
    (h : tableIndex cfg rows k = .ok row) : 1 ≤ k ∧ rows[k - 1]? = some row := by
  rcases Nat.eq_zero_or_pos k with rfl | hk
  · unfold tableIndex at h
    obtain ⟨i, k1, k2⟩ := Res.bind_eq_ok.mp h
    have hi := usub_zero_one k1
    rw [unwrap_eq_ok] at k2
    have := (List.getElem?_eq_some_iff.mp k2).1
    omega
  · exact ⟨hk, tableIndex_inv hk h⟩

theorem typeDefOrRefName_inv {h : TypeDefOrRef} {n : Name} (hs : m.tables.Small)
    (hn : typeDefOrRefName cfg m h = .ok (some n)) : RowNamed m h n := by
  unfold typeDefOrRefName at hn
  obtain ⟨⟨a, b⟩, h1, hn⟩ := Res.bind_eq_ok.mp hn
  obtain ⟨na, h2, hn⟩ := Res.bind_eq_ok.mp hn
  cases na with
  | none => cases hn
  | some na =>
    obtain ⟨nb, h3, hn⟩ := Res.bind_eq_ok.mp hn
    cases nb with
    | none => cases hn
    | some nb =>
      cases hn
      rw [fullName_eq]
      cases h with
      | typeDef k =>
        obtain ⟨row, g1, g2⟩ := Res.bind_eq_ok.mp h1
        cases g2
        obtain ⟨k1, k2⟩ := tableIndex_pos hs.typeDef g1
        exact .typeDef k row na nb k1 k2 h2 h3
      | typeRef k =>
        obtain ⟨row, g1, g2⟩ := Res.bind_eq_ok.mp h1
        cases g2
        obtain ⟨k1, k2⟩ := tableIndex_pos hs.typeRef g1
        exact .typeRef k row na nb k1 k2 h2 h3
      | typeSpec k => cases h1

theorem loadTypeRefs_ok (rows : List TypeRefRow) : ∀ {w w' : World} {ts : List Nat}, Inv w →
    loadTypeRefs m rows w = (.ok ts, w') → ts.length = rows.length ∧
      ∀ (k : Nat) row, rows[k]? = some row → ∃ t tr n ns, ts[k]? = some t ∧ w.types[t]? = some tr ∧
        m.string row.name = .ok (some n) ∧ m.string row.nspace = .ok (some ns) ∧ tr.fullName = qualified ns n := by
  induction rows with
  | nil => intro w w' ts _ h; cases h; simp
  | cons row rows ih =>
    intro w w' ts hi h
    unfold loadTypeRefs at h
    obtain ⟨o, w1, h1, h⟩ := M.bind_eq_ok.mp h
    obtain ⟨t, h2, h⟩ := M.liftM_bind_eq_ok.mp h
    obtain ⟨ts', w2, h3, h⟩ := M.bind_eq_ok.mp h
    cases h
    unfold lookupRow at h1
    obtain ⟨n, n1, h1⟩ := M.liftM_bind_eq_ok.mp h1
    obtain ⟨ns, n2, h1⟩ := M.liftM_bind_eq_ok.mp h1
    cases h1
    obtain ⟨g1, g2⟩ := ih hi h3
    refine ⟨by simp [g1], fun k r hk => ?_⟩
    cases k with
    | zero =>
      cases hk
      have hg : w.getType (fullName ns n) = some t := by
        cases e : w.getType (fullName ns n) with
        | none => rw [e] at h2; cases h2
        | some c => rw [e] at h2; cases h2; rfl
      obtain ⟨tr, t1, t2, _⟩ := (hi.getType_iff _ _).mp hg
      exact ⟨t, tr, n, ns, rfl, t1, string!_inv n1, string!_inv n2, by rw [t2, fullName_eq]⟩
    | succ k => exact g2 k r (by simpa using hk)

/-- **C39, referenced types.** Type-reference token `k` resolves to a registered type with the name row `k` gives. -/
theorem C39_refs (cfg : Cfg) (w w' : World) (hr : Reached cfg w) (fs : Name → Option Bytes) (depth fuel : Nat) (data : Bytes)
    (m : Metadata) (a : AssemblyRec) (hm : readMetadata cfg data = .ok m)
    (h : loadData cfg fs depth fuel data w = (.ok a, w')) (k : Nat) (hk : k < 2 ^ 24) (hk1 : 1 ≤ k) :
    (k ≤ m.tables.typeRef.length → ∃ t tr n, a.resolveType cfg ⟨1 * 2 ^ 24 + k⟩ = .ok (some t) ∧ w'.types[t]? = some tr ∧
      tr.fullName = n ∧ RowNamed m (.typeRef k) n) ∧
    (m.tables.typeRef.length < k → a.resolveType cfg ⟨1 * 2 ^ 24 + k⟩ = .ok none) := by
  obtain ⟨name, w1, hs, hi, hst⟩ := loadData_selfIs hr.inv hm h
  have hd : a.resolveType cfg ⟨1 * 2 ^ 24 + k⟩ = .ok a.typeRefs[k - 1]? := by
    unfold AssemblyRec.resolveType
    rw [token_table 1 k hk (by omega), token_index 1 k hk, usub_ok hk1]
    rfl
  obtain ⟨g1, g2⟩ := loadTypeRefs_ok _ hi hs.typeRefs
  rw [hd]
  refine ⟨fun hkl => ?_, fun hkl => ?_⟩
  · have hrow : m.tables.typeRef[k - 1]? = some (m.tables.typeRef[k - 1]'(by omega)) := List.getElem?_eq_getElem _
    obtain ⟨t, tr, n, ns, k1, k2, k3, k4, k5⟩ := g2 (k - 1) _ hrow
    obtain ⟨tr', l1, l2, _⟩ := hst.types.1 _ _ k2
    refine ⟨t, tr', _, by rw [k1], l1, rfl, ?_⟩
    rw [l2.fullName, k5]
    exact .typeRef k _ n ns hk1 hrow k3 k4
  · rw [List.getElem?_eq_none (by omega)]

/-! ## C40 -/

/-- The method table lookup by name: the last method of that name. -/
theorem getMethod_some {t : TypeRec} {n : Name} {x : MethodRec} (h : t.getMethod n = some x) : x ∈ t.methods ∧ x.name = n := by
  unfold TypeRec.getMethod at h
  have := List.find?_some h
  exact ⟨by simpa using List.mem_of_find?_eq_some h, by simpa using this⟩

theorem loadMemberRefs_all {w : World} (hi : Inv w) (rows : List MemberRefRow) (hall : ∀ r ∈ rows, r.parent.table = .typeRef) :
    ∀ {xs : List MethodRec} {w' : World}, loadMemberRefs cfg m rows w = (.ok xs, w') →
    xs.length = rows.length ∧ ∀ (k : Nat) row x, rows[k]? = some row → xs[k]? = some x →
      ∃ tr n ns t rec, tableIndex cfg m.tables.typeRef row.parent.row = .ok tr ∧ m.string! tr.name = .ok n ∧
        m.string! tr.nspace = .ok ns ∧ w.getType (fullName ns n) = some t ∧ w.types[t]? = some rec ∧
        ∃ name, m.string row.name = .ok (some name) ∧ rec.getMethod name = some x := by
  induction rows with
  | nil =>
    intro xs w' h
    simp only [loadMemberRefs, M.pure_run, Prod.mk.injEq, Res.ok.injEq] at h
    obtain ⟨rfl, rfl⟩ := h
    exact ⟨rfl, by simp⟩
  | cons row rows ih =>
    intro xs w' h
    unfold loadMemberRefs at h
    obtain ⟨o, w1, h1, h2⟩ := M.bind_eq_ok.mp h
    have r := loadMemberRef_run (cfg := cfg) (m := m) (w := w) row hi
    rw [h1] at r
    obtain ⟨e, -, hx⟩ := r.2 o rfl
    dsimp only at e
    subst e
    obtain ⟨ys, w2, h3, h4⟩ := M.bind_eq_ok.mp h2
    simp only [M.pure_run, Prod.mk.injEq, Res.ok.injEq] at h4
    obtain ⟨rfl, rfl⟩ := h4
    obtain ⟨tr, n, ns, t, rec, name, x, rfl, g1, g2, g3, g4, g5, g6, g7⟩ := hx (hall row (by simp))
    obtain ⟨k1, k2⟩ := ih (fun r hr => hall r (by simp [hr])) h3
    refine ⟨by simp [k1], fun k row' x' hk hx' => ?_⟩
    cases k with
    | zero =>
      simp at hk hx'
      subst hk hx'
      exact ⟨tr, n, ns, t, rec, g1, g2, g3, g4, g5, name, g6, g7⟩
    | succ k => exact k2 k row' x' (by simpa using hk) (by simpa using hx')

/-- **C40, partial.** If all member references of the file refer to members of referenced types, then member-reference
token `k` resolves to a method of the type that row `k` names, with the name row `k` gives. Missing: the signature, which
is ignored (`C40_refuted`), and files with other member references, whose rows are skipped without leaving a gap
(`C40_skipped_refuted`). -/
theorem C40_partial (cfg : Cfg) (w w' : World) (hr : Reached cfg w) (fs : Name → Option Bytes) (depth fuel : Nat) (data : Bytes)
    (m : Metadata) (a : AssemblyRec) (hm : readMetadata cfg data = .ok m)
    (h : loadData cfg fs depth fuel data w = (.ok a, w')) (hall : ∀ r ∈ m.tables.memberRef, r.parent.table = .typeRef)
    (k : Nat) (hk : k < 2 ^ 24) (hk1 : 1 ≤ k) (row : MemberRefRow) (hrow : m.tables.memberRef[k - 1]? = some row)
    (tn : Name) (hpar : 1 ≤ row.parent.row) (htn : RowNamed m (.typeRef row.parent.row) tn) :
    ∃ x t tr, a.resolveMethod cfg ⟨10 * 2 ^ 24 + k⟩ = .ok (some x) ∧ x.declaringType = t ∧ w'.types[t]? = some tr ∧
      tr.fullName = tn ∧ x ∈ tr.methods ∧ m.string row.name = .ok (some x.name) := by
  obtain ⟨d, name, w1, arow, -, -, -, h3, h4⟩ := loadData_ok hm h
  have r := loadRefs_run (cfg := cfg) (m := m) (load := fun n => (do
      let d' ← Res.ofOption "Could not locate assembly" (fs n)
      loadData cfg fs d fuel d')) (fun n w => Run.liftM_bind fun d' _ => loadData_run _ _ _ _ _) m.tables.assemblyRef w hr.inv
  rw [h3] at r
  have hi1 := hr.inv.steps r.1
  have hs := loadSelf_ok hi1 h4
  have r2 := loadSelf_run (cfg := cfg) (m := m) (w := w1) fuel name hi1
  rw [h4] at r2
  obtain ⟨g1, g2⟩ := loadMemberRefs_all hi1 _ hall hs.methodRefs
  have hlt := (List.getElem?_eq_some_iff.mp hrow).1
  obtain ⟨x, hx⟩ : ∃ x, a.methodRefs[k - 1]? = some x := ⟨_, List.getElem?_eq_getElem (by omega)⟩
  obtain ⟨tr, n, ns, t, rec, k1, k2, k3, k4, k5, nm, k6, k7⟩ := g2 (k - 1) row x hrow hx
  obtain ⟨hmem, hname⟩ := getMethod_some k7
  obtain ⟨rec', l1, l2, -, l3, -⟩ := r2.1.types.1 t rec k5
  refine ⟨x, t, rec', ?_, (hi1.methods t rec k5 x hmem).2, l1, ?_, l3.subset hmem, by rw [hname]; exact k6⟩
  · unfold AssemblyRec.resolveMethod
    rw [token_table 10 k hk (by omega), token_index 10 k hk, usub_ok hk1]
    simp [hx]
  · obtain ⟨rec2, q1, q2, -⟩ := (hi1.getType_iff _ _).mp k4
    rw [k5] at q1; cases q1
    rw [l2.fullName, q2, fullName_eq]
    cases htn with
    | typeRef k' row' n' ns' p1 p2 p3 p4 =>
      have e1 := tableIndex_inv hpar k1
      rw [p2] at e1; cases e1
      rw [string!_inv k2] at p3
      rw [string!_inv k3] at p4
      cases p3; cases p4; rfl

/-! ## Concrete assemblies -/

namespace Ex

/-- A computed check of a result. -/
def holds {α : Type} (p : α → Bool) : Res α → Bool
  | .ok a => p a
  | _ => false

theorem holds_iff {α : Type} {p : α → Bool} {x : Res α} (h : holds p x = true) : ∃ a, x = .ok a ∧ p a = true := by
  cases x <;> simp_all [holds]

def libStrings : List String := ["lib", "Lib", "Empty", "Other", "M", "x", "F", "G"]

/-- `Lib` with overloads `M(int)` and `M(string)` and a field, an empty type, and `Other` with a method and a field. -/
def lib : Asm where
  strings := libStrings
  blobs := [[0x00, 1, 0x01, 0x08], [0x00, 1, 0x01, 0x0e], [0x06, 0x08], [0x00, 0, 0x01]]
  tables :=
    [(0x02, [typeRow libStrings 0 "" "Lib" 0 1 1, typeRow libStrings 0 "" "Empty" 0 2 3, typeRow libStrings 0 "" "Other" 0 2 3]),
     (0x04, [fieldRow libStrings 0 "F" 11, fieldRow libStrings 0x10 "G" 11]),
     (0x06, [methodRow libStrings 0x2000 0 0x10 "M" 1 1, methodRow libStrings 0x2000 0 0x10 "M" 6 2,
             methodRow libStrings 0x2000 0 0x10 "F" 14 3]),
     (0x08, [paramRow libStrings 1 "x", paramRow libStrings 1 "x"]),
     (0x20, [assemblyRow libStrings "lib"])]
  bodies := [0x06, 0x2a]

def libWorld : World := (loadData Cfg.debug noFiles 1 100 lib.file coreWorld).2
theorem libReached : Reached Cfg.debug libWorld := .loadFile _ _ _ _ coreReached

def appStrings : List String := ["app", "lib", "Lib", "Prog", "M", "Main", "Second"]

/-- An application with two methods whose entry point is the second, and member references `parents` to `M(int)`. -/
def appWith (entry : Nat) (parents : List Nat) : Asm where
  strings := appStrings
  blobs := [[0x00, 1, 0x01, 0x08], [0x00, 0, 0x01]]
  tables :=
    [(0x01, [typeRefRow appStrings "" "Lib"]),
     (0x02, [typeRow appStrings 0 "" "Prog" 0 1 1]),
     (0x06, [methodRow appStrings 0x2000 0 0x10 "Main" 6 1, methodRow appStrings 0x2000 0 0x10 "Second" 6 1]),
     (0x0a, parents.map fun p => memberRefRow appStrings p "M" 1),
     (0x20, [assemblyRow appStrings "app"]),
     (0x23, [assemblyRefRow appStrings "lib"])]
  bodies := [0x06, 0x2a]
  entry := entry

def app : Asm := appWith 0x06000002 [9]
/-- The first member reference is to a method of the application's own type. -/
def appSkip : Asm := appWith 0 [8, 9]

/-- The parameter types a method was loaded with. -/
def paramTypeNames (w : World) (x : MethodRec) : List (Option Name) := x.params.map fun p => w.types[p.paramType]?.map (·.fullName)

/-- The decoded signature of member-reference row `k`. -/
def memberRefParams (m : Metadata) (k : Nat) : Option (List ElementType) :=
  match m.tables.memberRef[k]? with
  | none => none
  | some row =>
    match (do let r ← blobHeapReader Cfg.debug m.blobHeap row.signature; readMethodSig Cfg.debug r) with
    | .ok (sig, _) => some sig.params
    | _ => none

def isIntList : Option (List ElementType) → Bool
  | some [.int] => true
  | _ => false

theorem isIntList_eq {o : Option (List ElementType)} (h : isIntList o = true) : o = some [.int] := by
  unfold isIntList at h
  split at h
  · rfl
  · simp at h

/-- The method a load's member reference `k` resolves to, with its parameter types. -/
def memberRefResult (w : World) (a : AssemblyRec) (k : Nat) : Option (Option (Name × List (Option Name))) :=
  match a.resolveMethod Cfg.debug ⟨10 * 2 ^ 24 + k⟩ with
  | .ok x => some (x.map fun x => (x.name, paramTypeNames w x))
  | _ => none

end Ex

/-- **C40: refuted in general (signatures).** The member reference asks for `M(int)`, which `Lib` has, and resolves to
`M(string)`. -/
theorem C40_refuted : ∃ (m : Metadata) (a : AssemblyRec) (w' : World), readMetadata Cfg.debug Ex.app.file = .ok m ∧
    loadData Cfg.debug Ex.noFiles 1 100 Ex.app.file Ex.libWorld = (.ok a, w') ∧ Ex.memberRefParams m 0 = some [.int] ∧
    Ex.memberRefResult w' a 1 = some (some ("M".toList, [some "System.String".toList])) ∧
    (w'.types[19]?.map fun t => (t.fullName, t.methods.map fun x => (x.name, Ex.paramTypeNames w' x))) =
      some ("Lib".toList, [("M".toList, [some "System.Int32".toList]), ("M".toList, [some "System.String".toList])]) := by
  obtain ⟨m, h1, h2⟩ := Ex.holds_iff (p := fun m => Ex.isIntList (Ex.memberRefParams m 0))
    (x := readMetadata Cfg.debug Ex.app.file) (by decide +kernel)
  obtain ⟨a, h3, h4⟩ := Ex.holds_iff
    (p := fun a => decide (Ex.memberRefResult (loadData Cfg.debug Ex.noFiles 1 100 Ex.app.file Ex.libWorld).2 a 1 =
      some (some ("M".toList, [some "System.String".toList]))))
    (x := (loadData Cfg.debug Ex.noFiles 1 100 Ex.app.file Ex.libWorld).1) (by decide +kernel)
  exact ⟨m, a, _, h1, by rw [← h3], Ex.isIntList_eq h2, of_decide_eq_true h4, by decide +kernel⟩

/-- **C40: refuted in general (skipped rows).** The second member reference of the file names `M` of `Lib`; its token
resolves to nothing, and the token of the first, which names a member of another type, to `M` of `Lib`. -/
theorem C40_skipped_refuted : ∃ (a : AssemblyRec) (w' : World),
    loadData Cfg.debug Ex.noFiles 1 100 Ex.appSkip.file Ex.libWorld = (.ok a, w') ∧
    Ex.memberRefResult w' a 1 = some (some ("M".toList, [some "System.String".toList])) ∧
    Ex.memberRefResult w' a 2 = some none := by
  obtain ⟨a, h3, h4⟩ := Ex.holds_iff
    (p := fun a => decide (Ex.memberRefResult (loadData Cfg.debug Ex.noFiles 1 100 Ex.appSkip.file Ex.libWorld).2 a 1 =
      some (some ("M".toList, [some "System.String".toList])) ∧
      Ex.memberRefResult (loadData Cfg.debug Ex.noFiles 1 100 Ex.appSkip.file Ex.libWorld).2 a 2 = some none))
    (x := (loadData Cfg.debug Ex.noFiles 1 100 Ex.appSkip.file Ex.libWorld).1) (by decide +kernel)
  have h5 := of_decide_eq_true h4
  exact ⟨a, _, by rw [← h3], h5.1, h5.2⟩

/-- The library's type rows partition its method and field tables (2, 0 and 1 methods; 1, 0 and 1 fields), and it loads. -/
example : Ex.holds (fun m => decide (Partition (m.tables.typeDef.map (·.methodList)) m.tables.methodDef.length ∧
      Partition (m.tables.typeDef.map (·.fieldList)) m.tables.field.length ∧ m.tables.methodDef.length = 3))
      (readMetadata Cfg.debug Ex.lib.file) = true ∧
    Ex.holds (fun a => decide (a.types = [19, 20, 21] ∧ a.methodDefs.map (·.declaringType) = [19, 19, 21]))
      (loadData Cfg.debug Ex.noFiles 1 100 Ex.lib.file Ex.coreWorld).1 = true := by
  decide +kernel

/-! ## C11 -/

theorem readMetadata_entry {data : Bytes} (h : readMetadata cfg data = .ok m) : entryPointHandle cfg m.cliHeader = .ok m.entryPoint := by
  unfold readMetadata at h
  obtain ⟨_, _, h⟩ := Res.bind_eq_ok.mp h
  obtain ⟨_, _, h⟩ := Res.bind_eq_ok.mp h
  obtain ⟨_, _, h⟩ := Res.bind_eq_ok.mp h
  obtain ⟨_, _, h⟩ := Res.bind_eq_ok.mp h
  obtain ⟨_, _, h⟩ := Res.bind_eq_ok.mp h
  obtain ⟨_, _, h⟩ := Res.bind_eq_ok.mp h
  obtain ⟨_, _, h⟩ := Res.bind_eq_ok.mp h
  obtain ⟨_, _, h⟩ := Res.bind_eq_ok.mp h
  obtain ⟨_, _, h⟩ := Res.bind_eq_ok.mp h
  obtain ⟨_, _, h⟩ := Res.bind_eq_ok.mp h
  obtain ⟨_, _, h⟩ := Res.bind_eq_ok.mp h
  obtain ⟨_, _, h⟩ := Res.bind_eq_ok.mp h
  obtain ⟨_, _, h⟩ := Res.bind_eq_ok.mp h
  obtain ⟨_, _, h⟩ := Res.bind_eq_ok.mp h
  obtain ⟨_, h1, h⟩ := Res.bind_eq_ok.mp h
  simp only [Res.pure_eq, Res.ok.injEq] at h
  subst h
  exact h1

theorem token_new (k : Nat) (hk : k < 2 ^ 24) : Token.new k 6 = ⟨6 * 2 ^ 24 + k⟩ := by
  unfold Token.new
  rw [Nat.mod_eq_of_lt (by omega), show (6 <<< 24 : Nat) = 6 * 2 ^ 24 from rfl, Nat.or_comm]
  congr 1
  have := Nat.two_pow_add_eq_or_of_lt hk 6
  rw [Nat.mul_comm] at this
  rw [← this, Nat.mul_comm]

/-- Full statement of C11: for entry-point token `k` the entry point is the method of row `k`. -/
def C11_full (cfg : Cfg) : Prop :=
  ∀ (w w' : World) (fs : Name → Option Bytes) (depth fuel : Nat) (data : Bytes) (m : Metadata) (a : AssemblyRec) (k : Nat),
    Reached cfg w → readMetadata cfg data = .ok m → loadData cfg fs depth fuel data w = (.ok a, w') →
    Partition (m.tables.typeDef.map (·.methodList)) m.tables.methodDef.length →
    m.cliHeader.entryPoint = ⟨6 * 2 ^ 24 + k⟩ → 1 ≤ k → k ≤ m.tables.methodDef.length →
    ∃ x t, a.entryPoint = some x ∧ DefinesMethod cfg m t k x

/-- **C11, partial.** The entry point after a successful load is the method of row `k - 1` (and there is none when the
header has none); a token of row 1 is never accepted. Missing: the claim itself, which is false (`C11_refuted`): the row
number is decremented twice. -/
theorem C11_partial (cfg : Cfg) (w w' : World) (hr : Reached cfg w) (fs : Name → Option Bytes) (depth fuel : Nat) (data : Bytes)
    (m : Metadata) (a : AssemblyRec) (hm : readMetadata cfg data = .ok m)
    (h : loadData cfg fs depth fuel data w = (.ok a, w'))
    (hp : Partition (m.tables.typeDef.map (·.methodList)) m.tables.methodDef.length) (k : Nat) (hk : k < 2 ^ 24)
    (he : m.cliHeader.entryPoint = ⟨6 * 2 ^ 24 + k⟩) :
    (k = 0 → a.entryPoint = none) ∧ k ≠ 1 ∧
    (2 ≤ k → ∃ x i t, a.entryPoint = some x ∧
      Owns (m.tables.typeDef.map (·.methodList)) m.tables.methodDef.length i (k - 1) ∧ a.types[i]? = some t ∧
      DefinesMethod cfg m t (k - 1) x) := by
  obtain ⟨name, w1, hs, -, -⟩ := loadData_selfIs hr.inv hm h
  have hent := readMetadata_entry hm
  unfold entryPointHandle at hent
  rw [he, token_index 6 k hk] at hent
  have hsel := hs.entry
  have hstep : ∀ j, j < 2 ^ 24 → m.entryPoint = some j → ∃ x, a.resolveMethod cfg ⟨6 * 2 ^ 24 + j⟩ = .ok (some x) ∧ a.entryPoint = some x := by
    intro j hj hej
    rw [hej] at hsel
    unfold resolveEntryPoint at hsel
    dsimp only at hsel
    rw [token_new j hj] at hsel
    obtain ⟨o, h1, h2⟩ := Res.bind_eq_ok.mp hsel
    obtain ⟨x, h3, h4⟩ := Res.bind_eq_ok.mp h2
    rw [ofOption_eq_ok] at h3
    simp only [Res.pure_eq, Res.ok.injEq] at h4
    subst h3
    exact ⟨x, h1, h4.symm⟩
  have hpos : 1 ≤ k → m.entryPoint = some (k - 1) := by
    intro hk1
    rw [if_neg (by omega), usub_ok hk1] at hent
    simp only [Res.ok_bind, Res.pure_eq, Res.ok.injEq] at hent
    exact hent.symm
  refine ⟨fun hk0 => ?_, fun hk1 => ?_, fun hk2 => ?_⟩
  · rw [if_pos hk0] at hent
    simp only [Res.pure_eq, Res.ok.injEq] at hent
    rw [← hent] at hsel
    simp only [resolveEntryPoint, Res.ok.injEq] at hsel
    exact hsel.symm
  · obtain ⟨x, h1, -⟩ := hstep (k - 1) (by omega) (hpos (by omega))
    exact (C39_methods cfg w w' hr fs depth fuel data m a hm h hp (k - 1) (by omega)).2.2 (by omega) x h1
  · obtain ⟨x, h1, h2⟩ := hstep (k - 1) (by omega) (hpos (by omega))
    obtain ⟨g1, g2, -⟩ := C39_methods cfg w w' hr fs depth fuel data m a hm h hp (k - 1) (by omega)
    by_cases hle : k - 1 ≤ m.tables.methodDef.length
    · obtain ⟨y, i, t, h3, h4, h5, h6⟩ := g1 (by omega) hle
      rw [h1] at h3
      cases h3
      exact ⟨x, i, t, h2, h4, h5, h6⟩
    · rw [g2 (by omega)] at h1; simp at h1

namespace Ex
/-- Names of the entry point and of the row the header's token points at. -/
def entryCheck (m : Metadata) (a : AssemblyRec) : Bool :=
  decide (Partition (m.tables.typeDef.map (·.methodList)) m.tables.methodDef.length ∧
    m.cliHeader.entryPoint = ⟨6 * 2 ^ 24 + 2⟩ ∧ m.tables.methodDef.length = 2 ∧ a.entryPoint.map (·.name) = some "Main".toList) &&
  (match m.tables.methodDef[1]? with
   | some row => decide (m.string row.name = .ok (some "Second".toList))
   | none => false)
end Ex

/-- **C11: refuted.** The header names method row 2, `Second`; the entry point is `Main`. -/
theorem C11_refuted : ¬ C11_full Cfg.debug := by
  intro hfull
  obtain ⟨m, hm, h2⟩ := Ex.holds_iff (p := fun m => Ex.holds (Ex.entryCheck m)
    (loadData Cfg.debug Ex.noFiles 1 100 Ex.app.file Ex.libWorld).1) (x := readMetadata Cfg.debug Ex.app.file) (by decide +kernel)
  obtain ⟨a, ha, h3⟩ := Ex.holds_iff h2
  simp only [Ex.entryCheck, Bool.and_eq_true, decide_eq_true_eq] at h3
  obtain ⟨⟨h4, h5, h6, h7⟩, h8⟩ := h3
  obtain ⟨x, t, g1, -, row, g2, g3, -⟩ := hfull _ _ _ _ _ _ m a 2 Ex.libReached hm (by rw [← ha]) h4 h5 (by omega) (by omega)
  rw [g1] at h7
  rw [g2] at h8
  simp only [decide_eq_true_eq] at h8
  rw [g3] at h8
  simp only [Res.ok.injEq, Option.some.injEq] at h8
  simp only [Option.map_some, Option.some.injEq] at h7
  rw [h7] at h8
  exact absurd h8 (by decide)

/-- The theorem's hypotheses are met by this file: entry token 2, entry point the method of row 1. -/
example : Ex.holds (fun m => Ex.holds (Ex.entryCheck m) (loadData Cfg.debug Ex.noFiles 1 100 Ex.app.file Ex.libWorld).1)
    (readMetadata Cfg.debug Ex.app.file) = true := by decide +kernel

end Clr
