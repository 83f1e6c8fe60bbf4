import Verif.Lemmas.MidTypes
import Verif.Lemmas.LoadSelf
import Verif.Props.Loading
/-! # A well-formed assembly is loaded -/

namespace Clr
open Spec

section
variable {cfg : Cfg} {m : Metadata} {w0 wi wi' wi'' : World} {d : Decls} {entry : Nat → Prop}
  {ref : Name → Prop} {rank size : Name → Nat}

theorem lookupRow_of {a b : Nat} {n ns : Name} (h1 : m.string a = .ok (some n)) (h2 : m.string b = .ok (some ns)) (w : World) :
    lookupRow m a b w = (.ok (w.getType (qualified ns n)), w) := by
  unfold lookupRow
  rw [M.liftM_bind_ok (string!_of h1), M.liftM_bind_ok (string!_of h2), fullName_eq]
  rfl

/-! ## References -/

theorem loadMemberRefs_mid (h0 : Inv w0) {rows : List MemberRefRow}
    (h : ∀ row ∈ rows, row.parent.table = .typeRef → ∃ n t r x, RowNamed m (.typeRef row.parent.row) n ∧
      w0.types[t]? = some r ∧ r.fullName = n ∧ (∀ (t' : Nat) r', t < t' → w0.types[t']? = some r' → r'.fullName ≠ n) ∧
      x ∈ r.methods ∧ m.string row.name = .ok (some x.name)) :
    ∃ xs, loadMemberRefs cfg m rows w0 = (.ok xs, w0) := by
  induction rows with
  | nil => exact ⟨[], rfl⟩
  | cons row rows ih =>
    obtain ⟨xs, hxs⟩ := ih fun r hr => h r (List.mem_cons_of_mem _ hr)
    obtain ⟨o, ho⟩ : ∃ o, loadMemberRef cfg m row w0 = (.ok o, w0) := by
      unfold loadMemberRef
      by_cases hp : row.parent.table = .typeRef
      · rw [if_pos hp]
        obtain ⟨n, t, r, x, g1, g2, g3, g4, g5, g6⟩ := h row List.mem_cons_self hp
        have hg : w0.getType n = some t := (h0.getType_iff _ _).mpr ⟨r, g2, g3, g4⟩
        cases g1 with
        | typeRef _ trow nm ns hk hrow h1 h2 =>
          obtain ⟨y, hy⟩ : ∃ y, r.getMethod x.name = some y := by
            unfold TypeRec.getMethod
            exact Option.isSome_iff_exists.mp (List.find?_isSome.mpr ⟨x, by simpa using g5, by simp⟩)
          refine ⟨some y, ?_⟩
          rw [M.liftM_bind_ok (tableIndex_at cfg hk hrow), M.bind_ok (lookupRow_of h1 h2 w0), M.liftM_bind_ok (ofOption_eq_ok.mpr hg),
            M.liftM_bind_ok g6, M.liftM_bind_ok (show Res.ofOption _ (some x.name) = .ok x.name from rfl),
            M.view_bind_ok (typeAt_eq_ok.mpr g2), M.liftM_bind_ok (ofOption_eq_ok.mpr hy)]
          rfl
      · rw [if_neg hp]; exact ⟨none, rfl⟩
    refine ⟨o.toList ++ xs, ?_⟩
    unfold loadMemberRefs
    rw [M.bind_ok ho, M.bind_ok hxs]
    rfl

theorem loadTypeRefs_mid (h0 : Inv w0) {rows : List TypeRefRow}
    (h : ∀ row ∈ rows, ∃ n ns, m.string row.name = .ok (some n) ∧ m.string row.nspace = .ok (some ns) ∧ Registered w0 (qualified ns n)) :
    ∃ xs, loadTypeRefs m rows w0 = (.ok xs, w0) := by
  induction rows with
  | nil => exact ⟨[], rfl⟩
  | cons row rows ih =>
    obtain ⟨xs, hxs⟩ := ih fun r hr => h r (List.mem_cons_of_mem _ hr)
    obtain ⟨n, ns, h1, h2, t, r, h3, h4⟩ := h row List.mem_cons_self
    obtain ⟨i, ir, g1, -⟩ := h0.resolves h3 h4
    refine ⟨i :: xs, ?_⟩
    unfold loadTypeRefs
    rw [M.bind_ok (lookupRow_of h1 h2 w0), M.liftM_bind_ok (ofOption_eq_ok.mpr g1), M.bind_ok hxs]
    rfl

/-! ## Registration -/

theorem loadTypes_progress (assembly n : Nat) : ∀ {w : World} {i : Nat}, Inv w → w.types.length + n < 2 ^ 32 →
    (∀ k, i ≤ k → k < i + n → ∃ q, RowNamed m (.typeDef (k + 1)) q) →
    ∃ ts w', loadTypes cfg assembly m n i w = (.ok ts, w') := by
  induction n with
  | zero => intro w i _ _ _; exact ⟨[], w, rfl⟩
  | succ n ih =>
    intro w i hi hroom hn
    obtain ⟨q, hq⟩ := hn i (Nat.le_refl _) (by omega)
    obtain ⟨t, w1, h1⟩ : ∃ t w1, loadType cfg assembly i m w = (.ok t, w1) := by
      cases hq with
      | typeDef _ row a b hk hrow ha hb =>
        have hnext := hi.next
        have hu : uadd cfg 32 w.nextTypeId 1 = .ok (w.nextTypeId + 1) := uadd_ok (by omega)
        unfold loadType
        rw [M.liftM_bind_ok (tableIndex_at cfg hk hrow), M.liftM_bind_ok (string!_of ha), M.liftM_bind_ok (string!_of hb),
          M.bind_ok (nextTypeId_eq hu), M.get_bind, M.modify_bind]
        exact ⟨_, _, rfl⟩
    have hr := loadType_run (cfg := cfg) (m := m) assembly i hi
    rw [h1] at hr
    obtain ⟨hs, hq'⟩ := hr
    obtain ⟨-, _, _, _, -, -, -, g4⟩ := hq' t rfl
    have hl : w1.types.length = w.types.length + 1 := by
      have : w1.types = _ := g4
      rw [this]; simp
    obtain ⟨ts, w2, h2⟩ := ih (w := w1) (i := i + 1) (hi.steps hs) (by omega) fun k h1 h2 => hn k (by omega) (by omega)
    refine ⟨t :: ts, w2, ?_⟩
    unfold loadTypes
    rw [M.bind_ok h1, M.bind_ok h2]
    rfl

theorem mid_start {w1 : World} {ts : List Nat} (hi : Inv w1) (he : w1.types = w0.types)
    (hw : ∀ k < m.tables.typeDef.length, RowNamed m (.typeDef (k + 1)) (d.name k))
    (h : loadTypes cfg w0.nextAssembly m m.tables.typeDef.length 0 w1 = (.ok ts, wi)) :
    Mid m w0 d wi ∧ ts = List.range' w0.types.length m.tables.typeDef.length ∧
      wi.types.length = w0.types.length + m.tables.typeDef.length ∧
      ∀ k < m.tables.typeDef.length, ∃ tr, wi.types[w0.types.length + k]? = some tr ∧ tr.fields = [] ∧ tr.methods = [] ∧
        tr.base = none ∧ tr.interfaces = [] := by
  obtain ⟨t1, t2, t3, t4⟩ := loadTypes_exact _ _ hi h
  have r := loadTypes_run (cfg := cfg) (m := m) w0.nextAssembly m.tables.typeDef.length w1 0 hi
  rw [h] at r
  rw [he] at t1 t2 t3 t4
  refine ⟨⟨hi.steps r.1, by omega, fun t q hq => ?_, fun k hk => ?_, fun t tr ht htr => ?_⟩, t1, t2, fun k hk => ?_⟩
  · rw [t3 t (List.getElem?_eq_some_iff.mp hq).1]; exact hq
  · obtain ⟨row, name, ns, id, g1, g2, g3, g4⟩ := t4 k hk
    have hrow : m.tables.typeDef[k]? = some row := by
      have := tableIndex_inv (show 1 ≤ 0 + k + 1 by omega) g1
      simpa using this
    refine ⟨_, g4, ?_, ⟨row, ns, hrow, string!_inv g2, string!_inv g3, fullName_eq ns name⟩, fun b hb => (by cases hb),
      fun i hi => (by cases hi), fun _ _ => ⟨Nat.zero_le _, fun i f hf => (by simp at hf)⟩,
      fun _ _ i x hx => (by simp at hx), rfl⟩
    have h1 := hw k hk
    generalize d.name k = q at h1
    cases h1 with
    | typeDef _ row' a b hk' hrow' ha hb =>
      rw [Nat.add_sub_cancel, hrow] at hrow'; cases hrow'
      rw [string!_inv g2] at ha; cases ha
      rw [string!_inv g3] at hb; cases hb
      exact fullName_eq ns name
  · exact absurd (List.getElem?_eq_some_iff.mp htr).1 (by omega)
  · obtain ⟨row, name, ns, id, g1, g2, g3, g4⟩ := t4 k hk
    exact ⟨_, g4, rfl, rfl, rfl, rfl⟩

/-! ## Interfaces -/

theorem loadInterfaces_mid (hwf : WellFormed entry m w0 d) {rows : List InterfaceImplRow} :
    ∀ {wi : World}, Mid m w0 d wi → (∀ row ∈ rows, ∃ n n', RowNamed m (.typeDef row.cls) n ∧
      RowNamed m row.iface.typeDefOrRef n' ∧ Known m w0 n' ∧ n' ≠ "System.ValueType".toList) →
    ∃ wi', loadInterfaces cfg m rows wi = (.ok (), wi') ∧ Mid m w0 d wi' ∧ wi'.types.length = wi.types.length := by
  induction rows with
  | nil => intro wi hm _; exact ⟨wi, rfl, hm, rfl⟩
  | cons row rows ih =>
    intro wi hm h
    obtain ⟨n, n', h1, h2, h3, h4⟩ := h row List.mem_cons_self
    have hdecl : Declared m n := ⟨_, h1⟩
    obtain ⟨t, tr, g1, g2, g3, g4, g5⟩ := hm.resolves hwf.typeNames (.inr hdecl)
    obtain ⟨i, ir, q1, q2, q3, q4, -⟩ := hm.resolves hwf.typeNames h3
    have hN := g5 hdecl
    have hm2 : Mid m w0 d (wi.updType t fun tr => { tr with interfaces := tr.interfaces ++ [i] }) := by
      have := hm.update (k := t - w0.types.length) (f := fun tr => { tr with interfaces := tr.interfaces ++ [i] }) (by omega)
      rw [show w0.types.length + (t - w0.types.length) = t by omega] at this
      refine this (hm.inv.upd (.iface (cfg := cfg) wi t i (List.getElem?_eq_some_iff.mp q2).1)) (fun _ => rfl) fun tr _ ho => ?_
      refine ⟨ho.name, ho.row, ho.base, fun j hj => ?_, ho.fields, ho.methods, ho.assembly⟩
      rcases List.mem_append.mp hj with hj | hj
      · exact ho.ifaces j hj
      · rw [List.mem_singleton] at hj; subst hj
        exact ⟨ir, q2, by rw [q3]; exact h4⟩
    obtain ⟨w2, k1, k2, k3⟩ := ih hm2 fun r hr => h r (List.mem_cons_of_mem _ hr)
    refine ⟨w2, ?_, k2, k3.trans (updType_length ..)⟩
    have step : loadInterface cfg m row wi = (.ok (), wi.updType t fun tr => { tr with interfaces := tr.interfaces ++ [i] }) := by
      unfold loadInterface
      cases h1 with
      | typeDef _ trow a b hk hrow ha hb =>
        rw [M.liftM_bind_ok (tableIndex_at cfg hk hrow), M.bind_ok (lookupRow_of ha hb wi), M.liftM_bind_ok (unwrap_eq_ok.mpr g1)]
        generalize row.iface.typeDefOrRef = x at h2
        cases h2 with
        | typeDef _ irow a' b' hk' hrow' ha' hb' =>
          rw [M.liftM_bind_ok (show typeNameHandles cfg m (.typeDef _) = .ok (irow.name, irow.nspace) by
            simp [typeNameHandles, tableIndex_at cfg hk' hrow'])]
          dsimp only
          rw [M.bind_ok (lookupRow_of ha' hb' wi), M.liftM_bind_ok (unwrap_eq_ok.mpr q1)]
          rfl
        | typeRef _ irow a' b' hk' hrow' ha' hb' =>
          rw [M.liftM_bind_ok (show typeNameHandles cfg m (.typeRef _) = .ok (irow.name, irow.nspace) by
            simp [typeNameHandles, tableIndex_at cfg hk' hrow'])]
          dsimp only
          rw [M.bind_ok (lookupRow_of ha' hb' wi), M.liftM_bind_ok (unwrap_eq_ok.mpr q1)]
          rfl
    unfold loadInterfaces
    rw [M.bind_ok step]
    exact k1

/-! ## The whole assembly -/

theorem collectMethods_progress {w : World} {ts : List Nat} (h : ∀ t ∈ ts, t < w.types.length) :
    ∃ xs, collectMethods w ts = .ok xs := by
  induction ts with
  | nil => exact ⟨[], rfl⟩
  | cons t ts ih =>
    obtain ⟨xs, hxs⟩ := ih fun t' h' => h t' (List.mem_cons_of_mem _ h')
    unfold collectMethods
    rw [typeAt_eq_ok.mpr (List.getElem?_eq_getElem (h t List.mem_cons_self)), Res.ok_bind, hxs]
    exact ⟨_, rfl⟩

theorem sumFrom_zero {f : Nat → Nat} {starts : List Nat} {rows : Nat} (hp : Partition starts rows) :
    sumFrom f starts rows 0 = sumRun f 1 rows := by
  unfold sumFrom
  cases hs : starts[0]? with
  | none =>
    have : starts = [] := by cases starts <;> simp_all
    rw [hp.1 this]; rfl
  | some s =>
    have := hp.2.1 s hs
    subst this
    show sumRun f 1 (rows + 1 - 1) = _
    rw [Nat.add_sub_cancel]

theorem loadSelf_mid (h0 : Inv w0) (hwf : WellFormed (fun e => 1 ≤ e) m w0 d) (hf : FiniteSizes cfg m w0 d ref rank size) {fuel : Nat}
    (hG : SizeBound cfg m w0 d size fuel) (name : Name) :
    ∃ a w', loadSelf cfg fuel m name w0 = (.ok a, w') ∧ Mid m w0 d w' ∧ a.id = w0.nextAssembly ∧
      w'.types.length ≤ w0.types.length + m.tables.typeDef.length +
        sumRun (fun j => brackets (d.fieldType j)) 1 m.tables.field.length +
        sumRun (methodBrackets d) 1 m.tables.methodDef.length := by
  obtain ⟨mrefs, h1⟩ := loadMemberRefs_mid (cfg := cfg) h0 hwf.memberRefs
  obtain ⟨trefs, h2⟩ := loadTypeRefs_mid (m := m) (rows := m.tables.typeRef) h0 fun row hrow => by
    obtain ⟨k, hk, rfl⟩ := List.getElem_of_mem hrow
    obtain ⟨n, g1, g2⟩ := hwf.typeRefs k hk
    cases g1 with
    | typeRef _ row' a b hk' hrow' ha hb =>
      rw [Nat.add_sub_cancel, List.getElem?_eq_getElem hk] at hrow'
      cases hrow'
      exact ⟨a, b, ha, hb, g2⟩
  have hi1 : Inv ({ w0 with nextAssembly := w0.nextAssembly + 1 } : World) := h0.upd (.assemblyId (cfg := cfg) w0)
  have hroom := hwf.room
  obtain ⟨ts, w3, h3⟩ := loadTypes_progress (cfg := cfg) (m := m) w0.nextAssembly m.tables.typeDef.length
    (w := { w0 with nextAssembly := w0.nextAssembly + 1 }) (i := 0) hi1
    (show w0.types.length + _ < _ by omega) (fun k _ hk => ⟨_, hwf.typeNames k (by omega)⟩)
  obtain ⟨m3, hts, hl3, fresh⟩ := mid_start (w0 := w0) (d := d) hi1 rfl hwf.typeNames h3
  obtain ⟨fs, w4, h4, m4, l4⟩ := resolveTypes_mid hwf hf hG m.tables.typeDef.length (wi := w3) (k := 0) m3 (by omega)
    (fun k' _ hk' => by obtain ⟨tr, g1, g2, g3, -⟩ := fresh k' hk'; exact ⟨tr, g1, g2, g3⟩)
    (by rw [sumFrom_zero hwf.fieldRuns, sumFrom_zero hwf.methodRuns]; omega)
  rw [Nat.add_zero, ← hts] at h4
  rw [sumFrom_zero hwf.fieldRuns, sumFrom_zero hwf.methodRuns] at l4
  obtain ⟨w5, h5, m5, l5⟩ := loadInterfaces_mid (cfg := cfg) hwf m4 hwf.interfaces
  obtain ⟨xs, h6⟩ := collectMethods_progress (w := w5) (ts := ts) (fun t ht => by
    rw [hts, List.mem_range'_1] at ht
    have := m5.len; omega)
  -- the number of methods
  have hxlen : xs.length = m.tables.methodDef.length := by
    obtain ⟨fss, f1, f2, f3⟩ := resolveTypes_ok ts m3.inv (by rw [hts]; exact List.nodup_range') (fun t ht => by
      rw [hts, List.mem_range'_1] at ht
      have := fresh (t - w0.types.length) (by omega)
      rw [show w0.types.length + (t - w0.types.length) = t by omega] at this
      exact this) h4
    have mem := loadInterfaces_members (cfg := cfg) (m := m) m.tables.interfaceImpl w4
    rw [h5] at mem
    obtain ⟨xss, x1, x2, x3⟩ := collectMethods_ok ts h6
    have := (runs_cover (cfg := cfg) (P := MethodRowIs cfg m) (types := ts) (xss := xss) hwf.methodRuns x2 (by rw [hts]; simp)
      fun k t hk => by
        obtain ⟨tr, y1, y2⟩ := x3 k t hk
        obtain ⟨tr', fs', z1, -, -, -, -, -, z2⟩ := f3 k t hk
        refine ⟨tr.methods, y2, ?_⟩
        have hmem := mem t
        rw [show (w5.types[t]?) = some tr from y1, z1, Option.map_some, Option.map_some, Option.some.injEq] at hmem
        have : tr.methods = tr'.methods := congrArg (fun p => p.2.1) hmem
        rw [this]
        rw [Nat.zero_add] at z2
        exact z2).1
    rw [x1]; exact this
  obtain ⟨ep, h7⟩ : ∃ ep, resolveEntryPoint cfg { id := w0.nextAssembly, name, types := ts, entryPoint := none, userStringData := m.userStringData, methodDefs := xs, methodRefs := mrefs, fields := fs, typeRefs := trefs } m.entryPoint = .ok ep := by
    cases he : m.entryPoint with
    | none => exact ⟨none, rfl⟩
    | some e =>
      obtain ⟨e1, e2⟩ := hwf.entryPoint e he
      have hsm := hwf.small.2
      have htok : Token.new e 0x06 = ⟨6 * 2 ^ 24 + e⟩ := by
        simp only [Token.new]
        rw [Nat.mod_eq_of_lt (by omega), Nat.or_comm, Nat.shiftLeft_eq, Nat.mul_comm, ← Nat.two_pow_add_eq_or_of_lt (show e < 2 ^ 24 by omega)]
      refine ⟨some (xs[e - 1]'(by omega)), ?_⟩
      unfold resolveEntryPoint
      dsimp only
      rw [htok, resolveMethod_def _ (by omega), usub_ok e1, Res.ok_bind]
      show (do let x ← (Res.ok xs[e - 1]?); let x ← Res.ofOption "Missing entry point" x; pure (some x)) = _
      rw [List.getElem?_eq_getElem (by omega)]
      rfl
  obtain ⟨a, ha, hid⟩ : ∃ a, loadSelf cfg fuel m name w0 = (.ok a, { w5 with assemblies := w5.assemblies ++ [a] }) ∧ a.id = w0.nextAssembly := by
    refine ⟨{ id := w0.nextAssembly, name, types := ts, entryPoint := ep, userStringData := m.userStringData, methodDefs := xs, methodRefs := mrefs, fields := fs, typeRefs := trefs }, ?_, rfl⟩
    unfold loadSelf
    rw [M.bind_ok h1, M.bind_ok h2, M.get_bind, M.modify_bind, M.bind_ok h3, M.bind_ok h4, M.bind_ok h5, M.view_bind_ok h6]
    dsimp only
    rw [M.liftM_bind_ok h7, M.modify_bind]
    rfl
  have hst := (loadSelf_run (cfg := cfg) (m := m) fuel name h0).1
  rw [ha] at hst
  exact ⟨a, _, ha, ⟨h0.steps hst, m5.len, m5.old, fun k hk => by
      obtain ⟨tr, g1, g2⟩ := m5.own k hk
      exact ⟨tr, g1, g2.kept fun t r hr => ⟨r, hr, rfl⟩⟩, fun t tr ht htr => (m5.extra t tr ht htr).kept fun t r hr => ⟨r, hr, rfl⟩⟩, hid, by
    show w5.types.length ≤ _; omega⟩

end
end Clr
