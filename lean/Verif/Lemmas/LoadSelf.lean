import Verif.Lemmas.Loading
/-! # The assembly record that a successful load delivers -/

namespace Clr
open Spec

variable {cfg : Cfg} {m : Metadata}

/-- Everything about the new assembly. -/
structure SelfIs (cfg : Cfg) (m : Metadata) (name : Name) (w w' : World) (a : AssemblyRec) : Prop where
  name : a.name = name
  assemblies : w'.assemblies = w.assemblies ++ [a]
  methodRefs : loadMemberRefs cfg m m.tables.memberRef w = (.ok a.methodRefs, w)
  typeRefs : loadTypeRefs m m.tables.typeRef w = (.ok a.typeRefs, w)
  types : a.types = List.range' w.types.length m.tables.typeDef.length
  userStrings : a.userStringData = m.userStringData
  fields : ∃ fss : List (List FieldRec), a.fields = fss.flatten ∧ fss.length = a.types.length ∧
    ∀ (k : Nat) t, a.types[k]? = some t → ∃ tr fs, w'.types[t]? = some tr ∧ fss[k]? = some fs ∧ tr.fields = fs ∧
      RunIs cfg m (·.fieldList) m.tables.field.length k (FieldRowIs cfg m t) fs
  methods : ∃ xss : List (List MethodRec), a.methodDefs = xss.flatten ∧ xss.length = a.types.length ∧
    ∀ (k : Nat) t, a.types[k]? = some t → ∃ tr, w'.types[t]? = some tr ∧ xss[k]? = some tr.methods ∧
      RunIs cfg m (·.methodList) m.tables.methodDef.length k (MethodRowIs cfg m t) tr.methods
  entry : resolveEntryPoint cfg { a with entryPoint := none } m.entryPoint = .ok a.entryPoint
  heads : ∀ k < m.tables.typeDef.length, ∃ row name nspace tr, tableIndex cfg m.tables.typeDef (k + 1) = .ok row ∧
    m.string! row.name = .ok name ∧ m.string! row.nspace = .ok nspace ∧ w'.types[w.types.length + k]? = some tr ∧
    tr.name = name ∧ tr.nspace = nspace ∧ tr.fullName = fullName nspace name ∧ tr.isAbstract = row.attributes.isAbstract
  kinds : ∀ (k : Nat) t, a.types[k]? = some t → ∃ row tr, tableIndex cfg m.tables.typeDef (k + 1) = .ok row ∧
    w'.types[t]? = some tr ∧ KindIs cfg m w' row tr
  ifaces : ∀ (k : Nat) t, a.types[k]? = some t → ∃ tr, w'.types[t]? = some tr ∧
    Lists cfg m w'.types t m.tables.interfaceImpl tr.interfaces

theorem loadSelf_ok {fuel : Nat} {name : Name} {w w' : World} {a : AssemblyRec} (hi : Inv w)
    (h : loadSelf cfg fuel m name w = (.ok a, w')) : SelfIs cfg m name w w' a := by
  unfold loadSelf at h
  obtain ⟨mrefs, w1, h1, h'⟩ := M.bind_eq_ok.mp h
  clear h
  have r1 := loadMemberRefs_run (cfg := cfg) (m := m) (w := w) m.tables.memberRef hi
  rw [h1] at r1
  have e1 : w1 = w := r1.2 mrefs rfl
  subst e1
  obtain ⟨trefs, w2, h2, h⟩ := M.bind_eq_ok.mp h'
  clear h'
  have r2 := loadTypeRefs_run (cfg := cfg) (m := m) (w := w1) m.tables.typeRef hi
  rw [h2] at r2
  have e2 : w2 = w1 := (r2.2 trefs rfl).1
  subst e2
  rw [M.get_bind, M.modify_bind] at h
  obtain ⟨ts, w3, h3, h⟩ := M.bind_eq_ok.mp h
  obtain ⟨fs, w4, h4, h⟩ := M.bind_eq_ok.mp h
  obtain ⟨u, w5, h5, h⟩ := M.bind_eq_ok.mp h
  obtain ⟨xs, h6, h⟩ := M.view_bind_eq_ok.mp h
  obtain ⟨ep, h7, h⟩ := M.liftM_bind_eq_ok.mp h
  rw [M.modify_bind] at h
  simp only [M.pure_run, Prod.mk.injEq, Res.ok.injEq] at h
  obtain ⟨rfl, rfl⟩ := h
  have hi2 : Inv ({ w2 with nextAssembly := w2.nextAssembly + 1 } : World) := hi.upd (.assemblyId (cfg := cfg) w2)
  obtain ⟨t1, t2, t3, t4⟩ := loadTypes_exact _ _ hi2 h3
  have r3 := loadTypes_run (cfg := cfg) (m := m) w2.nextAssembly m.tables.typeDef.length _ 0 hi2
  rw [h3] at r3
  have hi3 := hi2.steps r3.1
  have r4 := resolveTypes_run (cfg := cfg) (m := m) fuel ts w3 0 hi3
  rw [h4] at r4
  have hi4 := hi3.steps r4.1
  have hts : ts = List.range' w2.types.length m.tables.typeDef.length := t1
  obtain ⟨fss, f1, f2, f3⟩ := resolveTypes_ok ts hi3 (by rw [hts]; exact List.nodup_range') (fun t ht => by
    rw [hts, List.mem_range'_1] at ht
    obtain ⟨row, nm, ns, id, -, -, -, g⟩ := t4 (t - w2.types.length) (by omega)
    dsimp only at g
    rw [show w2.types.length + (t - w2.types.length) = t by omega] at g
    exact ⟨_, g, rfl, rfl, rfl, rfl⟩) h4
  have mem := loadInterfaces_members (cfg := cfg) (m := m) m.tables.interfaceImpl w4
  rw [h5] at mem
  have r5 := loadInterfaces_run (cfg := cfg) (m := m) m.tables.interfaceImpl w4 hi4
  rw [h5] at r5
  have mem' : ∀ (j : Nat) tr, w4.types[j]? = some tr → ∃ tr', w5.types[j]? = some tr' ∧ members tr' = members tr := by
    intro j tr hj
    have := mem j
    rw [hj, Option.map_some, Option.map_eq_some_iff] at this
    exact this
  have asm : w5.assemblies = w2.assemblies := by
    have a3 : w3.assemblies = w2.assemblies := by
      have hT : ∀ n i, Touch (fun _ => False) (loadTypes cfg w2.nextAssembly m n i) := by
        intro n
        induction n with
        | zero => intro i; exact Touch.pure _
        | succ n ih =>
          intro i
          unfold loadTypes
          refine Touch.bind ?_ fun _ => (ih _).bind fun _ => Touch.pure _
          unfold loadType
          refine Touch.liftM_bind fun row => Touch.liftM_bind fun _ => Touch.liftM_bind fun _ => Touch.bind ?_ fun id =>
            Touch.view_bind fun t => Touch.bind ?_ fun _ => Touch.pure _
          · intro w
            unfold nextTypeId
            rw [M.get_bind, M.bind_run, M.liftM_run]
            cases uadd cfg 32 w.nextTypeId 1 <;> exact ⟨fun _ _ _ => rfl, Nat.le_refl _, rfl, rfl⟩
          · intro w
            exact ⟨fun j hj _ => by simp [World.addType, List.getElem?_append_left hj], by simp [World.addType], rfl, rfl⟩
      have := (hT m.tables.typeDef.length 0 { w2 with nextAssembly := w2.nextAssembly + 1 }).assemblies
      rw [h3] at this
      exact this
    have a4 : w4.assemblies = w3.assemblies := by
      have := (resolveTypes_touch (cfg := cfg) (m := m) fuel ts 0 w3).assemblies
      rwa [h4] at this
    have a5 : w5.assemblies = w4.assemblies := by
      have hI : ∀ rows (w : World), (loadInterfaces cfg m rows w).2.assemblies = w.assemblies := by
        intro rows
        induction rows with
        | nil => intro w; rfl
        | cons row rows ih =>
          intro w
          have h1 : (loadInterface cfg m row w).2.assemblies = w.assemblies := by
            have hT : Touch (fun _ => True) (loadInterface cfg m row) := by
              unfold loadInterface lookupRow
              refine Touch.liftM_bind fun _ => Touch.bind ?_ fun _ => Touch.liftM_bind fun t => Touch.liftM_bind fun ⟨_, _⟩ =>
                Touch.bind ?_ fun _ => Touch.liftM_bind fun i => ?_
              · exact Touch.liftM_bind fun _ => Touch.liftM_bind fun _ => Touch.of_grow (.view _)
              · exact Touch.liftM_bind fun _ => Touch.liftM_bind fun _ => Touch.of_grow (.view _)
              · exact (Touch.updType t _).mono fun _ _ => True.intro
            exact (hT w).assemblies
          unfold loadInterfaces
          rw [M.bind_run]
          rcases e : loadInterface cfg m row w with ⟨r, w1⟩
          rw [e] at h1
          cases r with
          | ok a => exact (ih w1).trans h1
          | _ => exact h1
      have := hI m.tables.interfaceImpl w4
      rwa [h5] at this
    rw [a5, a4, a3]
  refine ⟨rfl, by simp [asm], h1, h2, hts, rfl, ⟨fss, f1, f2, ?_⟩, ?_, h7, ?_, ?_, ?_⟩
  · intro k t hk
    obtain ⟨tr, fs', g1, g2, g3, _, _, g4, _⟩ := f3 k t hk
    rw [Nat.zero_add] at g4
    obtain ⟨tr', l1, l2⟩ := mem' t tr g1
    exact ⟨tr', fs', l1, g2, by rw [← g3]; exact congrArg (·.1) l2, g4⟩
  · obtain ⟨xss, x1, x2, x3⟩ := collectMethods_ok ts h6
    refine ⟨xss, x1, x2, fun k t hk => ?_⟩
    obtain ⟨tr, fs', g1, _, _, _, _, _, g5⟩ := f3 k t hk
    rw [Nat.zero_add] at g5
    obtain ⟨tr', l1, l2⟩ := mem' t tr g1
    obtain ⟨tr'', l3, l4⟩ := x3 k t hk
    rw [l1] at l3; cases l3
    have : tr'.methods = tr.methods := congrArg (·.2.1) l2
    exact ⟨tr', l1, l4, by rw [this]; exact g5⟩
  · intro k hk
    obtain ⟨row, nm, ns, id, g1, g2, g3, g4⟩ := t4 k hk
    have hs : Steps cfg w3 w5 := r4.1.trans r5.1
    obtain ⟨tr', l1, l2, _⟩ := hs.types.1 _ _ g4
    exact ⟨row, nm, ns, tr', by simpa using g1, g2, g3, l1, l2.name, l2.nspace, l2.fullName, l2.isAbstract⟩
  · intro k t hk
    obtain ⟨tr, fs', g1, _, _, _, ⟨row, g4, g5⟩, _⟩ := f3 k t hk
    rw [Nat.zero_add] at g4
    obtain ⟨tr', l1, l2⟩ := mem' t tr g1
    have b : tr'.base = tr.base := congrArg (·.2.2.1) l2
    have kd : tr'.kind = tr.kind := congrArg (·.2.2.2) l2
    have g6 := g5.steps r5.1
    exact ⟨row, tr', g4, l1, ⟨by rw [b]; exact g6.base, by rw [b, kd]; exact g6.kind⟩⟩
  · intro k t hk
    obtain ⟨tr, fs', g1, _, _, g2, _⟩ := f3 k t hk
    obtain ⟨l, tr', l1, l2, l3⟩ := loadInterfaces_ok _ hi4 h5 t tr g1
    rw [g2, List.nil_append] at l2
    exact ⟨tr', l1, by rw [l2]; exact l3⟩

/-- A successful load of a file: references first, then the assembly itself. -/
theorem loadData_ok {fs : Name → Option Bytes} {depth fuel : Nat} {data : Bytes} {w w' : World} {a : AssemblyRec}
    (hm : readMetadata cfg data = .ok m) (h : loadData cfg fs depth fuel data w = (.ok a, w')) :
    ∃ d name w1 row, depth = d + 1 ∧ tableIndex cfg m.tables.assembly 1 = .ok row ∧ m.string! row.name = .ok name ∧
      loadRefs (fun n => do
        let d' ← Res.ofOption "Could not locate assembly" (fs n)
        loadData cfg fs d fuel d') m m.tables.assemblyRef w = (.ok (), w1) ∧ loadSelf cfg fuel m name w1 = (.ok a, w') := by
  cases depth with
  | zero => simp [loadData] at h
  | succ d =>
    unfold loadData at h
    obtain ⟨m', hm', h⟩ := M.liftM_bind_eq_ok.mp h
    rw [hm] at hm'; cases hm'
    obtain ⟨row, h1, h⟩ := M.liftM_bind_eq_ok.mp h
    obtain ⟨name, h2, h⟩ := M.liftM_bind_eq_ok.mp h
    obtain ⟨_, w1, h3, h⟩ := M.bind_eq_ok.mp h
    exact ⟨d, name, w1, row, rfl, h1, h2, h3, h⟩

theorem loadData_selfIs {fs : Name → Option Bytes} {depth fuel : Nat} {data : Bytes} {w w' : World} {a : AssemblyRec} (hi : Inv w)
    (hm : readMetadata cfg data = .ok m) (h : loadData cfg fs depth fuel data w = (.ok a, w')) :
    ∃ name w1, SelfIs cfg m name w1 w' a ∧ Inv w1 ∧ Steps cfg w1 w' := by
  obtain ⟨d, name, w1, row, -, -, -, h3, h4⟩ := loadData_ok hm h
  have r := loadRefs_run (cfg := cfg) (m := m) (load := fun n => (do
      let d' ← Res.ofOption "Could not locate assembly" (fs n)
      loadData cfg fs d fuel d')) (fun n w => Run.liftM_bind fun d' _ => loadData_run _ _ _ _ _) m.tables.assemblyRef w hi
  rw [h3] at r
  have hi1 := hi.steps r.1
  have r' := loadSelf_run (cfg := cfg) (m := m) fuel name hi1
  rw [h4] at r'
  exact ⟨name, w1, loadSelf_ok hi1 h4, hi1, r'.1⟩

end Clr
