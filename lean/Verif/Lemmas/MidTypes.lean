import Verif.Lemmas.MidLoad
/-! # The types of a well-formed assembly are resolved -/

namespace Clr
open Spec

section
variable {cfg : Cfg} {m : Metadata} {w0 wi wi' wi'' : World} {d : Decls} {entry : Nat → Prop}
  {ref : Name → Prop} {rank size : Name → Nat}

/-! ## Base and kind -/

theorem updType_get {w : World} {t : Nat} {f : TypeRec → TypeRec} {tr : TypeRec} (h : w.types[t]? = some tr) :
    (w.updType t f).types[t]? = some (f tr) := by
  simp [World.updType, h]

theorem updType_length (w : World) (t : Nat) (f : TypeRec → TypeRec) : (w.updType t f).types.length = w.types.length := by
  simp [World.updType]

theorem resolveBase_mid (hm : Mid m w0 d wi) (hwf : WellFormed entry m w0 d) {k : Nat} (hk : k < m.tables.typeDef.length) {tr : TypeRec}
    (htr : wi.types[w0.types.length + k]? = some tr) :
    ∃ wi', resolveBase cfg m (w0.types.length + k) k wi = (.ok (), wi') ∧ Mid m w0 d wi' ∧
      wi'.types.length = wi.types.length ∧ ∃ tr', wi'.types[w0.types.length + k]? = some tr' ∧ tr'.fields = tr.fields ∧
        tr'.methods = tr.methods := by
  obtain ⟨row, hrow⟩ : ∃ row, m.tables.typeDef[k]? = some row := ⟨_, List.getElem?_eq_getElem hk⟩
  have hidx : tableIndex cfg m.tables.typeDef (k + 1) = .ok row := tableIndex_at cfg (by omega) (by simpa using hrow)
  have hb := hwf.bases k row hrow
  unfold resolveBase
  rw [M.liftM_bind_ok hidx]
  generalize hbase : d.base k = ob at hb
  cases hb with
  | none hh =>
    rw [if_pos hh]
    exact ⟨wi, rfl, hm, rfl, tr, htr, rfl, rfl⟩
  | @some n hn hkn =>
    have hne : row.baseType.typeDefOrRef ≠ .typeDef 0 := by
      intro e
      rw [e] at hn
      cases hn with
      | typeDef _ _ _ _ h => omega
    obtain ⟨b, br, g1, g2, g3, g4, -⟩ := hm.resolves hwf.typeNames hkn
    rw [if_neg hne, M.liftM_bind_ok (typeDefOrRefName_of hn),
      M.view_bind_ok (show Res.ofOption _ ((some n).bind wi.getType) = .ok b from ofOption_eq_ok.mpr g1)]
    refine ⟨_, rfl, hm.update hk ?_ (fun _ => rfl) fun tr _ ho => ?_, updType_length _ _ _, _, updType_get htr, rfl, rfl⟩
    · exact hm.inv.upd (.base (cfg := cfg) wi _ b (List.getElem?_eq_some_iff.mp g2).1)
    · refine ⟨ho.name, ho.row, fun b' hb' => ?_, ho.ifaces, ho.fields, ho.methods, ho.assembly⟩
      cases hb'
      exact ⟨g4, br, g2, by rw [hbase, g3]⟩

theorem resolveKind_mid (hm : Mid m w0 d wi) {k : Nat} (hk : k < m.tables.typeDef.length) {tr : TypeRec}
    (htr : wi.types[w0.types.length + k]? = some tr) :
    ∃ wi', resolveKind cfg m (w0.types.length + k) k wi = (.ok (), wi') ∧ Mid m w0 d wi' ∧
      wi'.types.length = wi.types.length ∧ ∃ tr', wi'.types[w0.types.length + k]? = some tr' ∧ tr'.fields = tr.fields ∧
        tr'.methods = tr.methods := by
  obtain ⟨row, hrow⟩ : ∃ row, m.tables.typeDef[k]? = some row := ⟨_, List.getElem?_eq_getElem hk⟩
  have hidx : tableIndex cfg m.tables.typeDef (k + 1) = .ok row := tableIndex_at cfg (by omega) (by simpa using hrow)
  obtain ⟨bn, hbn⟩ : ∃ bn, wi.baseName (w0.types.length + k) = .ok bn := by
    unfold World.baseName
    rw [typeAt_eq_ok.mpr htr, Res.ok_bind]
    cases hb : tr.base with
    | none => exact ⟨none, rfl⟩
    | some b =>
      have := hm.inv.base _ _ htr b hb
      simp only []
      rw [typeAt_eq_ok.mpr (List.getElem?_eq_getElem this)]
      exact ⟨_, rfl⟩
  unfold resolveKind
  rw [M.liftM_bind_ok hidx, M.view_bind_ok hbn]
  refine ⟨_, rfl, hm.update hk ?_ (fun _ => rfl) fun tr _ ho => ?_, updType_length _ _ _, _, updType_get htr, rfl, rfl⟩
  · exact hm.inv.upd (.kind (cfg := cfg) wi _ _)
  · exact ⟨ho.name, ho.row, ho.base, ho.ifaces, ho.fields, ho.methods, ho.assembly⟩

/-! ## Fields -/

/-- A common bound for the recursion of `Type::size`. -/
def SizeBound (cfg : Cfg) (m : Metadata) (w0 : World) (d : Decls) (size : Name → Nat) (fuel : Nat) : Prop :=
  ∀ wi, Mid m w0 d wi → ∀ (t : Nat) tr, wi.types[t]? = some tr → ∃ s, typeSize cfg wi fuel t = .ok s ∧
      (s ≤ size tr.fullName ∨ w0.types.length + m.tables.typeDef.length ≤ t ∧ s ≤ size "System.Array".toList)

theorem loadFields_mid (hwf : WellFormed entry m w0 d) (hf : FiniteSizes cfg m w0 d ref rank size) {fuel : Nat}
    (hG : SizeBound cfg m w0 d size fuel) {k : Nat} {row : TypeDefRow} (hrow : m.tables.typeDef[k]? = some row) (q : Nat) :
    ∀ {wi : World} {p offset : Nat} {tr : TypeRec}, Mid m w0 d wi → wi.types[w0.types.length + k]? = some tr → tr.fields.length = p →
      p + q = runLength (m.tables.typeDef.map (·.fieldList)) m.tables.field.length k →
      wi.types.length + sumRun (fun j => brackets (d.fieldType j)) (row.fieldList + p) q < 2 ^ 32 →
      offset + sumRun (fun j => size (d.fieldTypeName j)) (row.fieldList + p) q < 2 ^ 64 →
      ∃ fs wi', loadFields cfg fuel m (w0.types.length + k) q (row.fieldList + p) offset wi = (.ok fs, wi') ∧ Mid m w0 d wi' ∧
        wi'.types.length ≤ wi.types.length + sumRun (fun j => brackets (d.fieldType j)) (row.fieldList + p) q ∧
        ∃ tr', wi'.types[w0.types.length + k]? = some tr' ∧ tr'.methods = tr.methods := by
  have hk := (List.getElem?_eq_some_iff.mp hrow).1
  have hrow' : (m.tables.typeDef.map (·.fieldList))[k]? = some row.fieldList := by simp [hrow]
  have hstart := partition_start hwf.fieldRuns hrow'
  induction q with
  | zero => intro wi p offset tr hm htr _ _ _ _; exact ⟨[], wi, rfl, hm, by omega, tr, htr, rfl⟩
  | succ q ih =>
    intro wi p offset tr hm htr hp hpq hroom hoff
    rw [sumRun_front] at hroom hoff
    have howns := run_owns hwf.fieldRuns hrow' (p := p) (by omega)
    obtain ⟨frow, hfrow⟩ : ∃ frow, m.tables.field[row.fieldList + p - 1]? = some frow :=
      ⟨_, List.getElem?_eq_getElem (by have := howns.2.2; omega)⟩
    have hfo := hwf.fields _ frow hfrow
    rw [show row.fieldList + p - 1 + 1 = row.fieldList + p by omega] at hfo
    obtain ⟨f, w1, h1, g1, hfi⟩ := loadField_mid (cfg := cfg) (t := w0.types.length + k) (offset := offset) hm hwf
      (show 1 ≤ row.fieldList + p by omega) hfrow hfo (by omega)
    have hrun := loadField_run (cfg := cfg) (m := m) (w0.types.length + k) (row.fieldList + p) offset hm.inv
    rw [h1] at hrun
    obtain ⟨hft, -, hfr⟩ := hrun.2 f rfl
    have hinv : Inv (w1.updType (w0.types.length + k) fun tr => { tr with fields := tr.fields ++ [f] }) :=
      g1.mid.inv.upd (.field (cfg := cfg) w1 _ f hft hfr.1)
    have htr1 := g1.keep _ _ htr
    have hm2 : Mid m w0 d (w1.updType (w0.types.length + k) fun tr => { tr with fields := tr.fields ++ [f] }) := by
      refine g1.mid.update hk hinv (fun _ => rfl) fun tr' htr' ho => ?_
      rw [htr1] at htr'; cases htr'
      refine ⟨ho.name, ho.row, ho.base, ho.ifaces, fun row' hrow'' => ?_, ho.methods, ho.assembly⟩
      rw [hrow] at hrow''; cases hrow''
      refine ⟨by simp; omega, fun i x hx => ?_⟩
      rcases Nat.lt_or_ge i tr.fields.length with hl | hl
      · rw [List.getElem?_append_left hl] at hx
        exact (ho.fields row hrow).2 i x hx
      · have hi : i = tr.fields.length := by
          have := (List.getElem?_eq_some_iff.mp hx).1
          simp at this; omega
        subst hi
        rw [List.getElem?_concat_length] at hx
        cases hx
        rw [hp]; exact hfi
    have hlen2 := updType_length w1 (w0.types.length + k) fun tr => { tr with fields := tr.fields ++ [f] }
    obtain ⟨fr, e1, e2⟩ := hfi.type
    obtain ⟨fr2, e3, e4⟩ : ∃ fr2, (w1.updType (w0.types.length + k) fun tr => { tr with fields := tr.fields ++ [f] }).types[f.fieldType]? = some fr2 ∧
        fr2.fullName = d.fieldTypeName (row.fieldList + p) := by
      simp only [World.updType, getElem?_modify', e1]
      split
      · exact ⟨_, rfl, e2⟩
      · exact ⟨_, rfl, e2⟩
    obtain ⟨s, s1, s2⟩ := hG _ hm2 f.fieldType fr2 e3
    have hs : s ≤ size (d.fieldTypeName (row.fieldList + p)) := by
      rcases s2 with s2 | ⟨s2, s3⟩
      · rw [← e4]; exact s2
      · refine Nat.le_trans s3 (hf.sizeArray _ (by omega) howns.2.2 ?_)
        rcases Nat.eq_zero_or_pos (brackets (d.fieldType (row.fieldList + p))) with hz | hz
        · have := hfi.below hz; omega
        · exact hz
    have hl := g1.len
    obtain ⟨fs, w3, h3, h4, h5, tr3, h6, h7⟩ := ih (offset := offset + s) (p := p + 1) hm2 (updType_get htr1) (by simp [hp]) (by omega)
      (by rw [hlen2, ← Nat.add_assoc]; omega) (by rw [← Nat.add_assoc row.fieldList]; omega)
    refine ⟨f :: fs, w3, ?_, h4, ?_, tr3, h6, h7⟩
    · unfold loadFields
      rw [M.bind_ok h1, M.modify_bind, M.view_bind_ok s1, M.liftM_bind_ok (uadd_ok (show offset + s < 2 ^ 64 by omega)),
        M.bind_ok (by rw [Nat.add_assoc]; exact h3)]
      rfl
    · rw [sumRun_front]
      rw [hlen2, ← Nat.add_assoc row.fieldList] at h5
      omega

theorem runLength_le {starts : List Nat} {rows i s : Nat} (hp : Partition starts rows) (hs : starts[i]? = some s) :
    s + runLength starts rows i ≤ rows + 1 := by
  have h1 := partition_start hp hs
  rcases Nat.eq_zero_or_pos (runLength starts rows i) with h | h
  · omega
  · have := (run_owns hp hs (p := runLength starts rows i - 1) (by omega)).2.2
    omega

theorem resolveFields_mid (hwf : WellFormed entry m w0 d) (hf : FiniteSizes cfg m w0 d ref rank size) {fuel : Nat}
    (hG : SizeBound cfg m w0 d size fuel) {k : Nat} {row : TypeDefRow} (hrow : m.tables.typeDef[k]? = some row) {tr : TypeRec}
    (hm : Mid m w0 d wi) (htr : wi.types[w0.types.length + k]? = some tr) (hfs : tr.fields = [])
    (hroom : wi.types.length + sumRun (fun j => brackets (d.fieldType j)) row.fieldList
      (runLength (m.tables.typeDef.map (·.fieldList)) m.tables.field.length k) < 2 ^ 32) :
    ∃ fs wi', resolveFields cfg fuel m (w0.types.length + k) k wi = (.ok fs, wi') ∧ Mid m w0 d wi' ∧
      wi'.types.length ≤ wi.types.length + sumRun (fun j => brackets (d.fieldType j)) row.fieldList
        (runLength (m.tables.typeDef.map (·.fieldList)) m.tables.field.length k) ∧
      ∃ tr', wi'.types[w0.types.length + k]? = some tr' ∧ tr'.methods = tr.methods := by
  have hk := (List.getElem?_eq_some_iff.mp hrow).1
  have hrow' : (m.tables.typeDef.map (·.fieldList))[k]? = some row.fieldList := by simp [hrow]
  have hle := runLength_le hwf.fieldRuns hrow'
  have hsm := hwf.small.1
  have hst := partition_start hwf.fieldRuns hrow'
  obtain ⟨o, ho, hob⟩ : ∃ o, baseSize cfg fuel wi (w0.types.length + k) = .ok o ∧ o ≤ baseWeight size (d.base k) := by
    unfold baseSize
    rw [typeAt_eq_ok.mpr htr, Res.ok_bind]
    cases hb : tr.base with
    | none => exact ⟨0, rfl, Nat.zero_le _⟩
    | some b =>
      obtain ⟨tr', q1, q2⟩ := hm.own k hk
      rw [htr] at q1; cases q1
      obtain ⟨g1, br, g2, g3⟩ := q2.base b hb
      obtain ⟨s, s1, s2⟩ := hG wi hm b br g2
      refine ⟨s, s1, ?_⟩
      rw [g3]
      rcases s2 with s2 | ⟨s2, -⟩
      · exact s2
      · omega
  have hoff := hf.offsets k row hrow
  obtain ⟨fs, w1, h1, h2, h3, h4⟩ := loadFields_mid hwf hf hG hrow (runLength (m.tables.typeDef.map (·.fieldList)) m.tables.field.length k)
    (wi := wi) (p := 0) (offset := o) (tr := tr) hm htr (by simp [hfs]) (by omega) hroom
    (by rw [Nat.add_zero]; omega)
  refine ⟨fs, w1, ?_, h2, h3, h4⟩
  unfold resolveFields
  rw [M.liftM_bind_ok (ownedRun_partition hwf.fieldRuns hrow), runLength_eq hrow']
  dsimp only
  have hres : reserveRun (runLength (m.tables.typeDef.map (·.fieldList)) m.tables.field.length k) = .ok () := by
    unfold reserveRun; rw [if_pos (by omega)]
  rw [M.liftM_bind_ok hres, M.liftM_bind_ok (uadd_ok (by omega)), M.view_bind_ok ho]
  exact h1

/-! ## Methods -/

theorem loadMethods_mid (hwf : WellFormed entry m w0 d) {k : Nat} {row : TypeDefRow} (hrow : m.tables.typeDef[k]? = some row) (q : Nat) :
    ∀ {wi : World} {p : Nat} {tr : TypeRec}, Mid m w0 d wi → wi.types[w0.types.length + k]? = some tr → tr.methods.length = p →
      p + q = runLength (m.tables.typeDef.map (·.methodList)) m.tables.methodDef.length k →
      wi.types.length + sumRun (methodBrackets d) (row.methodList + p) q < 2 ^ 32 →
      ∃ wi', loadMethods cfg m (w0.types.length + k) q (row.methodList + p) wi = (.ok (), wi') ∧ Mid m w0 d wi' ∧
        wi'.types.length ≤ wi.types.length + sumRun (methodBrackets d) (row.methodList + p) q := by
  have hk := (List.getElem?_eq_some_iff.mp hrow).1
  have hrow' : (m.tables.typeDef.map (·.methodList))[k]? = some row.methodList := by simp [hrow]
  have hstart := partition_start hwf.methodRuns hrow'
  induction q with
  | zero => intro wi p tr hm _ _ _ _; exact ⟨wi, rfl, hm, by omega⟩
  | succ q ih =>
    intro wi p tr hm htr hp hpq hroom
    rw [sumRun_front] at hroom
    have howns := run_owns hwf.methodRuns hrow' (p := p) (by omega)
    obtain ⟨mrow, hmrow⟩ : ∃ mrow, m.tables.methodDef[row.methodList + p - 1]? = some mrow :=
      ⟨_, List.getElem?_eq_getElem (by have := howns.2.2; omega)⟩
    have heq : row.methodList + p - 1 + 1 = row.methodList + p := by omega
    have hmo := hwf.methods k (row.methodList + p - 1) mrow (by rw [heq]; exact howns) hmrow
    rw [heq] at hmo
    obtain ⟨x, w1, h1, g1, hxi⟩ := loadMethod_mid (cfg := cfg) hm hwf hk (show 1 ≤ row.methodList + p by omega) hmrow hmo (by omega)
    have hrun := loadMethod_run (cfg := cfg) (m := m) (w0.types.length + k) (row.methodList + p) hm.inv
    rw [h1] at hrun
    obtain ⟨hin, hmr⟩ := hrun.2 x rfl
    have hinv : Inv (w1.updType (w0.types.length + k) fun tr => { tr with methods := tr.methods ++ [x] }) :=
      g1.mid.inv.upd (.method (cfg := cfg) w1 _ x hin hmr.1)
    have htr1 := g1.keep _ _ htr
    have hm2 : Mid m w0 d (w1.updType (w0.types.length + k) fun tr => { tr with methods := tr.methods ++ [x] }) := by
      refine g1.mid.update hk hinv (fun _ => rfl) fun tr' htr' ho => ?_
      rw [htr1] at htr'; cases htr'
      refine ⟨ho.name, ho.row, ho.base, ho.ifaces, ho.fields, fun row' hrow'' i y hy => ?_, ho.assembly⟩
      rw [hrow] at hrow''; cases hrow''
      rcases Nat.lt_or_ge i tr.methods.length with hl | hl
      · rw [List.getElem?_append_left hl] at hy
        exact ho.methods row hrow i y hy
      · have hi : i = tr.methods.length := by
          have := (List.getElem?_eq_some_iff.mp hy).1
          simp at this; omega
        subst hi
        rw [List.getElem?_concat_length] at hy
        cases hy
        rw [hp]; exact hxi
    have hlen2 := updType_length w1 (w0.types.length + k) fun tr => { tr with methods := tr.methods ++ [x] }
    have hl := g1.len
    obtain ⟨w3, h3, h4, h5⟩ := ih (p := p + 1) hm2 (updType_get htr1) (by simp [hp]) (by omega)
      (by rw [hlen2, ← Nat.add_assoc]; omega)
    refine ⟨w3, ?_, h4, ?_⟩
    · unfold loadMethods
      rw [M.bind_ok h1, M.modify_bind, Nat.add_assoc]
      exact h3
    · rw [sumRun_front]
      rw [hlen2, ← Nat.add_assoc row.methodList] at h5
      omega

theorem resolveMethods_mid (hwf : WellFormed entry m w0 d) {k : Nat} {row : TypeDefRow} (hrow : m.tables.typeDef[k]? = some row)
    {tr : TypeRec} (hm : Mid m w0 d wi) (htr : wi.types[w0.types.length + k]? = some tr) (hxs : tr.methods = [])
    (hroom : wi.types.length + sumRun (methodBrackets d) row.methodList
      (runLength (m.tables.typeDef.map (·.methodList)) m.tables.methodDef.length k) < 2 ^ 32) :
    ∃ wi', resolveMethods cfg m (w0.types.length + k) k wi = (.ok (), wi') ∧ Mid m w0 d wi' ∧
      wi'.types.length ≤ wi.types.length + sumRun (methodBrackets d) row.methodList
        (runLength (m.tables.typeDef.map (·.methodList)) m.tables.methodDef.length k) := by
  have hrow' : (m.tables.typeDef.map (·.methodList))[k]? = some row.methodList := by simp [hrow]
  have hle := runLength_le hwf.methodRuns hrow'
  have hsm := hwf.small.2
  have hst := partition_start hwf.methodRuns hrow'
  obtain ⟨w1, h1, h2, h3⟩ := loadMethods_mid (cfg := cfg) hwf hrow (runLength (m.tables.typeDef.map (·.methodList)) m.tables.methodDef.length k)
    (wi := wi) (p := 0) hm htr (by simp [hxs]) (by omega) hroom
  refine ⟨w1, ?_, h2, h3⟩
  unfold resolveMethods
  rw [M.liftM_bind_ok (ownedRun_partition hwf.methodRuns hrow), runLength_eq hrow']
  dsimp only
  have hres : reserveRun (runLength (m.tables.typeDef.map (·.methodList)) m.tables.methodDef.length k) = .ok () := by
    unfold reserveRun; rw [if_pos (by omega)]
  rw [M.liftM_bind_ok hres, M.liftM_bind_ok (uadd_ok (by omega))]
  exact h1

/-! ## All types -/

/-- What is left of a sum from the run of type `k` on. -/
def sumFrom (f : Nat → Nat) (starts : List Nat) (rows k : Nat) : Nat :=
  match starts[k]? with
  | some s => sumRun f s (rows + 1 - s)
  | none => 0

theorem sumFrom_step {f : Nat → Nat} {starts : List Nat} {rows k s : Nat} (hp : Partition starts rows) (hs : starts[k]? = some s) :
    sumFrom f starts rows k = sumRun f s (runLength starts rows k) + sumFrom f starts rows (k + 1) := by
  have h1 := partition_start hp hs
  unfold sumFrom
  rw [hs]
  cases he : starts[k + 1]? with
  | none =>
    have : runLength starts rows k = rows + 1 - s := by
      rw [← runLength_eq hs]; unfold runEnd; rw [he]
    rw [this]; rfl
  | some e =>
    have hl : runLength starts rows k = e - s := by
      rw [← runLength_eq hs]; unfold runEnd; rw [he]
    have h2 := partition_start hp he
    have hse : s ≤ e := by
      have a := (List.getElem?_eq_some_iff.mp hs)
      have b := (List.getElem?_eq_some_iff.mp he)
      obtain ⟨a1, a2⟩ := a
      obtain ⟨b1, b2⟩ := b
      have := List.pairwise_iff_getElem.mp hp.2.2.1 k (k + 1) a1 b1 (by omega)
      omega
    rw [hl]
    show sumRun f s (rows + 1 - s) = sumRun f s (e - s) + sumRun f e (rows + 1 - e)
    rw [show rows + 1 - s = (e - s) + (rows + 1 - e) by omega, sumRun_add, show s + (e - s) = e by omega]

theorem resolveType_mid (hwf : WellFormed entry m w0 d) (hf : FiniteSizes cfg m w0 d ref rank size) {fuel : Nat}
    (hG : SizeBound cfg m w0 d size fuel) {k : Nat} {row : TypeDefRow} (hrow : m.tables.typeDef[k]? = some row) {tr : TypeRec}
    (hm : Mid m w0 d wi) (htr : wi.types[w0.types.length + k]? = some tr) (hfs : tr.fields = [])
    (hxs : tr.methods = []) (hroom : wi.types.length + sumRun (fun j => brackets (d.fieldType j)) row.fieldList
      (runLength (m.tables.typeDef.map (·.fieldList)) m.tables.field.length k) + sumRun (methodBrackets d) row.methodList
      (runLength (m.tables.typeDef.map (·.methodList)) m.tables.methodDef.length k) < 2 ^ 32) :
    ∃ fs wi', resolveType cfg fuel m (w0.types.length + k) k wi = (.ok fs, wi') ∧ Mid m w0 d wi' ∧
      wi'.types.length ≤ wi.types.length + sumRun (fun j => brackets (d.fieldType j)) row.fieldList
        (runLength (m.tables.typeDef.map (·.fieldList)) m.tables.field.length k) + sumRun (methodBrackets d) row.methodList
        (runLength (m.tables.typeDef.map (·.methodList)) m.tables.methodDef.length k) := by
  have hk := (List.getElem?_eq_some_iff.mp hrow).1
  obtain ⟨w1, a1, a2, a3, tr1, a4, a5, a6⟩ := resolveBase_mid (cfg := cfg) hm hwf hk htr
  obtain ⟨w2, b1, b2, b3, tr2, b4, b5, b6⟩ := resolveKind_mid (cfg := cfg) a2 hk a4
  obtain ⟨fs, w3, c1, c2, c3, tr3, c4, c5⟩ := resolveFields_mid hwf hf hG hrow b2 b4 (by rw [b5, a5, hfs]) (by omega)
  obtain ⟨w4, d1, d2, d3⟩ := resolveMethods_mid (cfg := cfg) hwf hrow c2 c4 (by rw [c5, b6, a6, hxs]) (by omega)
  refine ⟨fs, w4, ?_, d2, by omega⟩
  unfold resolveType
  rw [M.bind_ok a1, M.bind_ok b1, M.bind_ok c1, M.bind_ok d1]
  rfl

theorem resolveTypes_mid (hwf : WellFormed entry m w0 d) (hf : FiniteSizes cfg m w0 d ref rank size) {fuel : Nat}
    (hG : SizeBound cfg m w0 d size fuel) (q : Nat) :
    ∀ {wi : World} {k : Nat}, Mid m w0 d wi → k + q = m.tables.typeDef.length →
      (∀ k', k ≤ k' → k' < m.tables.typeDef.length → ∃ tr, wi.types[w0.types.length + k']? = some tr ∧ tr.fields = [] ∧
        tr.methods = []) →
      wi.types.length + sumFrom (fun j => brackets (d.fieldType j)) (m.tables.typeDef.map (·.fieldList)) m.tables.field.length k +
        sumFrom (methodBrackets d) (m.tables.typeDef.map (·.methodList)) m.tables.methodDef.length k < 2 ^ 32 →
      ∃ fs wi', resolveTypes cfg fuel m (List.range' (w0.types.length + k) q) k wi = (.ok fs, wi') ∧ Mid m w0 d wi' ∧
        wi'.types.length ≤ wi.types.length +
          sumFrom (fun j => brackets (d.fieldType j)) (m.tables.typeDef.map (·.fieldList)) m.tables.field.length k +
          sumFrom (methodBrackets d) (m.tables.typeDef.map (·.methodList)) m.tables.methodDef.length k := by
  induction q with
  | zero => intro wi k hm _ _ _; exact ⟨[], wi, rfl, hm, by omega⟩
  | succ q ih =>
    intro wi k hm hk hfresh hroom
    obtain ⟨row, hrow⟩ : ∃ row, m.tables.typeDef[k]? = some row := ⟨_, List.getElem?_eq_getElem (by omega)⟩
    have hr1 : (m.tables.typeDef.map (·.fieldList))[k]? = some row.fieldList := by simp [hrow]
    have hr2 : (m.tables.typeDef.map (·.methodList))[k]? = some row.methodList := by simp [hrow]
    rw [sumFrom_step hwf.fieldRuns hr1, sumFrom_step hwf.methodRuns hr2] at hroom ⊢
    obtain ⟨tr, htr, hfs, hxs⟩ := hfresh k (Nat.le_refl _) (by omega)
    obtain ⟨fs, w1, h1, h2, h3⟩ := resolveType_mid hwf hf hG hrow hm htr hfs hxs (by omega)
    have ht := resolveType_touch (cfg := cfg) (m := m) fuel (w0.types.length + k) k wi
    rw [h1] at ht
    obtain ⟨fs', w2, h4, h5, h6⟩ := ih (k := k + 1) h2 (by omega) (fun k' hk' hlt => by
      obtain ⟨tr', g1, g2⟩ := hfresh k' (by omega) hlt
      exact ⟨tr', by rw [ht.types _ (List.getElem?_eq_some_iff.mp g1).1 (by omega)]; exact g1, g2⟩) (by omega)
    refine ⟨fs ++ fs', w2, ?_, h5, by omega⟩
    rw [List.range'_succ]
    unfold resolveTypes
    rw [M.bind_ok h1, M.bind_ok (by rw [Nat.add_assoc]; exact h4)]
    rfl

end
end Clr
