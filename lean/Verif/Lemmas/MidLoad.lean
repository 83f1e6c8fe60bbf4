import Verif.Lemmas.MidSize
/-! # Signatures, fields and methods of a well-formed assembly load -/

namespace Clr
open Spec

/-- A step of loading that only registers array types, at most `k` of them. -/
structure MidGrow (m : Metadata) (w0 : World) (d : Decls) (wi wi' : World) (k : Nat) : Prop where
  mid : Mid m w0 d wi'
  keep : ∀ (t : Nat) r, wi.types[t]? = some r → wi'.types[t]? = some r
  len : wi'.types.length ≤ wi.types.length + k

section
variable {cfg : Cfg} {m : Metadata} {w0 wi wi' wi'' : World} {d : Decls} {entry : Nat → Prop}

theorem MidGrow.refl (h : Mid m w0 d wi) (k : Nat) : MidGrow m w0 d wi wi k := ⟨h, fun _ _ h => h, by omega⟩

theorem MidGrow.trans {a b : Nat} (h1 : MidGrow m w0 d wi wi' a) (h2 : MidGrow m w0 d wi' wi'' b) : MidGrow m w0 d wi wi'' (a + b) :=
  ⟨h2.mid, fun t r h => h2.keep t r (h1.keep t r h), by have := h1.len; have := h2.len; omega⟩

theorem MidGrow.mono {a b : Nat} (h : MidGrow m w0 d wi wi' a) (hab : a ≤ b) : MidGrow m w0 d wi wi' b :=
  ⟨h.mid, h.keep, by have := h.len; omega⟩

/-! ## Element types -/

theorem arrayType_mid (hm : Mid m w0 d wi) (hwf : WellFormed entry m w0 d) {t : Nat} {tr : TypeRec}
    (ht : wi.types[t]? = some tr) (hroom : wi.types.length + 1 < 2 ^ 32) :
    ∃ t' wi', arrayType cfg t wi = (.ok t', wi') ∧ MidGrow m w0 d wi wi' 1 ∧
      ∃ r, wi'.types[t']? = some r ∧ r.fullName = tr.fullName ++ ['[', ']'] := by
  have run : ∃ t' wi', arrayType cfg t wi = (.ok t', wi') := by
    unfold arrayType
    rw [M.view_bind_ok (typeAt_eq_ok.mpr ht), M.get_bind]
    cases hg : wi.getType (tr.fullName ++ "[]".toList) with
    | some t => exact ⟨t, wi, rfl⟩
    | none =>
      have hnext := hm.inv.next
      have hn : uadd cfg 32 wi.nextTypeId 1 = .ok (wi.nextTypeId + 1) := uadd_ok (by omega)
      dsimp only
      rw [M.bind_ok (nextTypeId_eq hn), M.get_bind, M.get_bind, M.modify_bind]
      exact ⟨_, _, rfl⟩
  obtain ⟨t', wi', hrun⟩ := run
  refine ⟨t', wi', hrun, ?_⟩
  obtain ⟨er, h1, ⟨h2, rfl⟩ | ⟨h2, rfl, hs, h3⟩⟩ := arrayType_cases hm.inv hrun
  · rw [ht] at h1; cases h1
    obtain ⟨r, g1, g2, -⟩ := (hm.inv.getType_iff _ _).mp h2
    exact ⟨MidGrow.refl hm 1, r, g1, g2⟩
  · rw [ht] at h1; cases h1
    have keep : ∀ (t : Nat) r, wi.types[t]? = some r → wi'.types[t]? = some r := by
      intro t r hr
      rw [h3, List.getElem?_append_left (List.getElem?_eq_some_iff.mp hr).1]; exact hr
    have kept : NamesKept wi wi' := fun t r hr => ⟨r, keep t r hr, rfl⟩
    have hlen : wi'.types.length = wi.types.length + 1 := by rw [h3]; simp
    refine ⟨⟨⟨hm.inv.steps hs, by have := hm.len; omega, fun t r hr => keep t r (hm.old t r hr), fun k hk => ?_,
      fun u ur hu hur => ?_⟩, keep, by omega⟩, _, by rw [h3]; exact List.getElem?_concat_length, rfl⟩
    · obtain ⟨tr', g1, g2⟩ := hm.own k hk
      exact ⟨tr', keep _ _ g1, g2.kept kept⟩
    · rcases Nat.lt_or_ge u wi.types.length with hl | hl
      · rw [h3, List.getElem?_append_left hl] at hur
        exact (hm.extra u ur hu hur).kept kept
      · have hu' : u = wi.types.length := by
          have := (List.getElem?_eq_some_iff.mp hur).1
          omega
        subst hu'
        rw [h3, List.getElem?_concat_length] at hur
        cases hur
        refine ⟨rfl, rfl, ⟨_, rfl⟩, fun hk => ?_, fun b hb => ?_⟩
        · obtain ⟨i, r, g1, -⟩ := hm.resolves hwf.typeNames hk
          exact absurd (h2.symm.trans g1) (by simp)
        · obtain ⟨br, g1, g2, -⟩ := (hm.inv.getType_iff _ _).mp hb
          exact ⟨br, keep _ _ g1, g2⟩

/-- Resolvable element types are resolved, and the record found has the name. -/
theorem typeFor_mid (hm : Mid m w0 d wi) (hwf : WellFormed entry m w0 d) {e : ElementType} {n : Name}
    (he : Resolvable m w0 e n) (hroom : wi.types.length + brackets e < 2 ^ 32) :
    ∃ t wi', typeFor cfg m e wi = (.ok t, wi') ∧ MidGrow m w0 d wi wi' (brackets e) ∧
      (∃ r, wi'.types[t]? = some r ∧ r.fullName = n) ∧
      (brackets e = 0 → t < w0.types.length + m.tables.typeDef.length) := by
  obtain ⟨root, hd, hk⟩ := he
  obtain ⟨i, r, g1, g2, g3, g4, -⟩ := hm.resolves hwf.typeNames hk
  have aux : ∀ {e root n rank}, Denotes m e root rank n → wi.getType root = some i → r.fullName = root →
      wi.types.length + brackets e < 2 ^ 32 →
      ∃ t wi', typeFor cfg m e wi = (.ok t, wi') ∧ MidGrow m w0 d wi wi' (brackets e) ∧
      (∃ r, wi'.types[t]? = some r ∧ r.fullName = n) ∧
      (brackets e = 0 → t < w0.types.length + m.tables.typeDef.length) := by
    intro e root n rank hd hr hn hroom
    induction hd with
    | builtin hb => exact ⟨i, wi, by rw [typeFor_builtin hb, hr]; rfl, MidGrow.refl hm _, ⟨r, g2, hn⟩, fun _ => g4⟩
    | valueType hn' =>
      exact ⟨i, wi, by rw [show typeFor cfg m (.valueType _) wi = _ from namedType_of hn' wi, hr]; rfl, MidGrow.refl hm _, ⟨r, g2, hn⟩, fun _ => g4⟩
    | cls hn' =>
      exact ⟨i, wi, by rw [show typeFor cfg m (.class _) wi = _ from namedType_of hn' wi, hr]; rfl, MidGrow.refl hm _, ⟨r, g2, hn⟩, fun _ => g4⟩
    | @array e root n rank hd ih =>
      rw [brackets] at hroom
      obtain ⟨t0, w1, h1, h2, ⟨r0, h3, h4⟩, -⟩ := ih hr hn (by omega)
      have := h2.len
      obtain ⟨t1, w2, h5, h6, r1, h7, h8⟩ := arrayType_mid (cfg := cfg) h2.mid hwf h3 (by omega)
      refine ⟨t1, w2, ?_, by rw [brackets]; exact h2.trans h6, ⟨r1, h7, by rw [h8, h4]⟩, fun h => by simp [brackets] at h⟩
      unfold typeFor
      rw [M.bind_ok h1, h5]
  exact aux hd g1 g3 hroom

theorem resolveAll_mid (hwf : WellFormed entry m w0 d) {es : List ElementType} (he : ∀ e ∈ es, ∃ n, Resolvable m w0 e n)
    (hm : Mid m w0 d wi) (hroom : wi.types.length + bracketsAll es < 2 ^ 32) :
    ∃ ts wi', ResolveAll cfg m wi es ts wi' ∧ MidGrow m w0 d wi wi' (bracketsAll es) := by
  induction es generalizing wi with
  | nil => exact ⟨[], wi, .nil wi, MidGrow.refl hm _⟩
  | cons e es ih =>
    rw [bracketsAll] at hroom ⊢
    obtain ⟨n, hn⟩ := he e List.mem_cons_self
    obtain ⟨t, w1, h1, h2, -⟩ := typeFor_mid (cfg := cfg) hm hwf hn (by omega)
    have := h2.len
    obtain ⟨ts, w2, h3, h4⟩ := ih (fun e' h' => he e' (List.mem_cons_of_mem _ h')) h2.mid (by omega)
    exact ⟨t :: ts, w2, .cons h1 h3, h2.trans h4⟩

/-! ## Bodies -/

theorem clauses_mid (hm : Mid m w0 d wi) (hwf : WellFormed entry m w0 d) {cs : List Clause}
    (h : ∀ c ∈ cs, c.kind = .typed → ∃ n, RowName m c.extra n ∧ Known m w0 n) : ∃ xs, Each (ClauseMeans m wi) cs xs := by
  induction cs with
  | nil => exact ⟨[], .nil⟩
  | cons c cs ih =>
    obtain ⟨xs, hxs⟩ := ih fun c' h' => h c' (List.mem_cons_of_mem _ h')
    by_cases hk : c.kind = .typed
    · obtain ⟨n, h1, h2⟩ := h c List.mem_cons_self hk
      obtain ⟨i, r, g1, -⟩ := hm.resolves hwf.typeNames h2
      refine ⟨⟨kindMeans c.kind, c.tryOffset, c.tryLength, c.handlerOffset, c.handlerLength, some i,
        if c.kind = .filter then some c.extra else none⟩ :: xs, .cons ⟨rfl, rfl, rfl, rfl, rfl, ?_, rfl⟩ hxs⟩
      rw [if_pos hk]
      exact ⟨n, i, h1, g1, rfl⟩
    · refine ⟨⟨kindMeans c.kind, c.tryOffset, c.tryLength, c.handlerOffset, c.handlerLength, none,
        if c.kind = .filter then some c.extra else none⟩ :: xs, .cons ⟨rfl, rfl, rfl, rfl, rfl, ?_, rfl⟩ hxs⟩
      rw [if_neg hk]

/-! ## Native methods -/

/-- The short name of a record with one of the three return type names. -/
theorem Mid.shortName (hm : Mid m w0 d wi) (hs : ShortNames m w0) {p : Name × Name}
    (hp : p ∈ [("System.Void".toList, "Void".toList), ("System.Int32".toList, "Int32".toList), ("System.Char".toList, "Char".toList)])
    {t : Nat} {r : TypeRec} (ht : wi.types[t]? = some r) (hn : r.fullName = p.1)
    (hlt : t < w0.types.length + m.tables.typeDef.length) : r.name = p.2 := by
  obtain ⟨h1, h2⟩ := hs p hp
  rcases Nat.lt_or_ge t w0.types.length with hl | hl
  · have := hm.old t _ (List.getElem?_eq_getElem hl)
    rw [ht] at this; cases this
    exact h1 t _ (List.getElem?_eq_getElem hl) hn
  · obtain ⟨tr, g1, g2⟩ := hm.own (t - w0.types.length) (by omega)
    rw [show w0.types.length + (t - w0.types.length) = t by omega, ht] at g1; cases g1
    obtain ⟨row, ns, q1, q2, q3, q4⟩ := g2.row
    exact h2 row (List.mem_of_getElem? q1) _ ns q2 q3 (q4.symm.trans hn)

theorem typeFor_plain (hm : Mid m w0 d wi) {e : ElementType} {n : String} (hb : builtinName e = some n) {t : Nat} {r : TypeRec}
    {w' : World} (h : typeFor cfg m e wi = (.ok t, w')) (hr : w'.types[t]? = some r) : w' = wi ∧ r.fullName = n.toList := by
  rw [typeFor_builtin hb] at h
  simp only [Prod.mk.injEq] at h
  obtain ⟨h1, rfl⟩ := h
  obtain ⟨r', g1, g2, -⟩ := (hm.inv.getType_iff _ _).mp (unwrap_eq_ok.mp h1)
  rw [hr] at g1; cases g1
  exact ⟨rfl, g2⟩

theorem loadImpl_native (hm : Mid m w0 d wi) (hwf : WellFormed entry m w0 d) {row : MethodDefRow} {name : Name} {s : MethodSig} {t : Nat} {tr : TypeRec}
    (ht : wi.types[t]? = some tr) (h1 : row.implAttributes.internalCall = true) (h2 : Native tr.fullName name s)
    (h3 : ShortNames m w0) (hret : ∃ n, Resolvable m w0 s.returnType n) (hpar : ∀ e ∈ s.params, ∃ n, Resolvable m w0 e n)
    (hroom : wi.types.length < 2 ^ 32) :
    ∃ f, loadImpl cfg m t row name s wi = (.ok (.internal f), wi) := by
  -- the return type and at most one parameter, all built in
  have typ : ∀ {e : ElementType} {n : String}, builtinName e = some n → (∃ n, Resolvable m w0 e n) →
      ∃ i r, typeFor cfg m e wi = (.ok i, wi) ∧ wi.types[i]? = some r ∧ r.fullName = n.toList ∧
        i < w0.types.length + m.tables.typeDef.length := by
    intro e n hb ⟨n', hn'⟩
    have hz : brackets e = 0 := by cases e <;> first | rfl | (simp [builtinName] at hb)
    obtain ⟨i, w', g1, g2, ⟨r, g3, g4⟩, g5⟩ := typeFor_mid (cfg := cfg) hm hwf hn' (by omega)
    obtain ⟨rfl, g6⟩ := typeFor_plain hm hb g1 g3
    exact ⟨i, r, g1, g3, g6, g5 hz⟩
  have par : ∀ {e : ElementType} {n : String}, builtinName e = some n → (∃ n, Resolvable m w0 e n) →
      paramNames cfg m [e] wi = (.ok [n.toList], wi) := by
    intro e n hb hr
    obtain ⟨i, r, g1, g2, g3, -⟩ := typ hb hr
    unfold paramNames
    refine (M.bind_ok (w' := wi) (a := i) ?_).trans ?_
    · show (match typeFor cfg m e wi with
        | (.err _, w') => ((.panic, w') : Res Nat × World)
        | x => x) = _
      rw [g1]
    rw [M.view_bind_ok (typeAt_eq_ok.mpr g2), M.bind_ok (show paramNames cfg m [] wi = (.ok [], wi) from rfl), g3]
    rfl
  have fin : ∀ (full : String) (short : Name) (ps : List Name), builtinName s.returnType = some full →
      (full.toList, short) ∈ [("System.Void".toList, "Void".toList), ("System.Int32".toList, "Int32".toList), ("System.Char".toList, "Char".toList)] →
      paramNames cfg m s.params wi = (.ok ps, wi) →
      (internalMethods.lookup (internalCallName name tr.fullName short ps)).isSome →
      ∃ f, loadImpl cfg m t row name s wi = (.ok (.internal f), wi) := by
    intro full short ps hb hmem hps hsome
    obtain ⟨i, r, g1, g2, g3, g4⟩ := typ hb hret
    obtain ⟨f, hf⟩ := Option.isSome_iff_exists.mp hsome
    refine ⟨f, ?_⟩
    unfold loadImpl
    rw [if_pos h1, M.bind_ok hps, M.bind_ok g1, M.view_bind_ok (typeAt_eq_ok.mpr g2), M.view_bind_ok (typeAt_eq_ok.mpr ht),
      show r.name = short from hm.shortName h3 hmem g2 g3 g4, hf]
    rfl
  generalize hfn : tr.fullName = full at h2 fin
  cases h2 with
  | getItem hr hp =>
    refine fin "System.Char" "Char".toList ["System.Int32".toList] (by rw [hr]; rfl) (by simp) ?_ (by decide +kernel)
    rw [hp]; exact par rfl (hpar _ (by rw [hp]; simp))
  | getLength hr hp =>
    refine fin "System.Int32" "Int32".toList [] (by rw [hr]; rfl) (by simp) ?_ (by decide +kernel)
    rw [hp]; rfl
  | write hr hp =>
    refine fin "System.Void" "Void".toList ["System.String".toList] (by rw [hr]; rfl) (by simp) ?_ (by decide +kernel)
    rw [hp]; exact par rfl (hpar _ (by rw [hp]; simp))

/-! ## Methods -/

theorem ResolveAll.length {w w' : World} {es : List ElementType} {ts : List Nat} (h : ResolveAll cfg m w es ts w') :
    ts.length = es.length := by
  induction h with
  | nil => rfl
  | cons _ _ ih => simp [ih]

/-- The brackets of the local variables. -/
def implBrackets : Impl → Nat
  | .fat _ _ es => bracketsAll es
  | _ => 0

theorem loadImpl_mid (hm : Mid m w0 d wi) (hwf : WellFormed entry m w0 d) {row : MethodDefRow} {name : Name} {s : MethodSig} {t : Nat} {tr : TypeRec} {im : Impl}
    (ht : wi.types[t]? = some tr) (hi : ImplOk m w0 row tr.fullName name s im)
    (hret : ∃ n, Resolvable m w0 s.returnType n) (hpar : ∀ e ∈ s.params, ∃ n, Resolvable m w0 e n)
    (hroom : wi.types.length + implBrackets im < 2 ^ 32) :
    ∃ f wi', loadImpl cfg m t row name s wi = (.ok f, wi') ∧ MidGrow m w0 d wi wi' (implBrackets im) ∧ ImplIs im f := by
  cases hi with
  | native h1 h2 h3 =>
    obtain ⟨f, hf⟩ := loadImpl_native (cfg := cfg) hm hwf ht h1 h2 h3 hret hpar (by omega)
    exact ⟨.internal f, wi, hf, MidGrow.refl hm _, f, rfl⟩
  | absent h1 h2 h3 =>
    refine ⟨.none, wi, ?_, MidGrow.refl hm _, rfl⟩
    unfold loadImpl
    rw [if_neg (by simp [h1]), if_neg (by simp [h2]), if_pos h3]
    rfl
  | @tiny code h1 h2 h3 h4 h5 =>
    obtain ⟨flag, hb⟩ := loadBody_tiny cfg h4 h5 wi
    refine ⟨.il ⟨code, 8, [], flag, []⟩, wi, ?_, MidGrow.refl hm _, _, rfl, rfl, rfl⟩
    · unfold loadImpl
      rw [if_neg (by simp [h1]), if_neg (by simp [h2]), if_neg (by simp [h3]), M.bind_ok hb]
      rfl
  | @fat b pad es h1 h2 h3 h4 h5 h6 h7 h8 h9 =>
    obtain ⟨ts, w1, g1, g2⟩ := resolveAll_mid (cfg := cfg) hwf h8 hm hroom
    obtain ⟨xs, hxs⟩ := clauses_mid g2.mid hwf h9
    refine ⟨.il ⟨b.code, b.maxStack, ts, b.initLocals, xs⟩, w1, ?_, g2, _, rfl, rfl, g1.length⟩
    · unfold loadImpl
      rw [if_neg (by simp [h1]), if_neg (by simp [h2]), if_neg (by simp [h3]), M.bind_ok (loadBody_fat cfg h4 h5 h6 h7 g1 hxs)]
      rfl

theorem string!_of {h : Nat} {n : Name} (hs : m.string h = .ok (some n)) : m.string! h = .ok n := by
  unfold Metadata.string!
  rw [hs]; rfl

theorem loadParams_mid (hwf : WellFormed entry m w0 d) {es : List ElementType} {i : Nat} (he : ∀ e ∈ es, ∃ n, Resolvable m w0 e n)
    (hrows : ∀ j < es.length, 1 ≤ i ∧ ∃ prow n, m.tables.param[i - 1 + j]? = some prow ∧ m.string prow.name = .ok (some n))
    (hm : Mid m w0 d wi) (hroom : wi.types.length + bracketsAll es < 2 ^ 32) :
    ∃ ps wi', loadParams cfg m es i wi = (.ok ps, wi') ∧ MidGrow m w0 d wi wi' (bracketsAll es) ∧ ps.length = es.length := by
  induction es generalizing wi i with
  | nil => exact ⟨[], wi, rfl, MidGrow.refl hm _, rfl⟩
  | cons e es ih =>
    rw [bracketsAll] at hroom ⊢
    obtain ⟨n, hn⟩ := he e List.mem_cons_self
    obtain ⟨hi, prow, pn, q1, q2⟩ := hrows 0 (by simp)
    obtain ⟨t, w1, h1, h2, -⟩ := typeFor_mid (cfg := cfg) hm hwf hn (by omega)
    have := h2.len
    obtain ⟨ts, w2, h3, h4, h5⟩ := ih (i := i + 1) (fun e' h' => he e' (List.mem_cons_of_mem _ h')) (fun j hj => by
        obtain ⟨_, prow, n, g1, g2⟩ := hrows (j + 1) (by simpa using hj)
        exact ⟨by omega, prow, n, by rw [show i + 1 - 1 + j = i - 1 + (j + 1) by omega]; exact g1, g2⟩) h2.mid (by omega)
    refine ⟨⟨pn, prow.index, t⟩ :: ts, w2, ?_, h2.trans h4, by simp [h5]⟩
    unfold loadParams
    rw [M.liftM_bind_ok (tableIndex_at cfg hi (by simpa using q1)), M.liftM_bind_ok (string!_of q2), M.bind_ok h1, M.bind_ok h3]
    rfl

theorem blob_reads {α : Type} {h : Nat} {content : Bytes} {decode : Reader → Res (α × Reader)} {a : α} (hb : BlobHolds m h content)
    (hd : Decodes decode content a) :
    ∃ r r', blobHeapReader cfg m.blobHeap h = .ok r ∧ decode r = .ok (a, r') := by
  obtain ⟨hl, pre, post, h1, rfl, h2⟩ := hb
  refine ⟨Reader.new content, ⟨[] ++ content ++ [], 0 + content.length⟩, ?_, ?_⟩
  · rw [h1]; exact C17_confined cfg pre content post hl h2
  · have := hd [] [] (by simp; omega)
    simpa [Reader.new] using this

theorem methodBrackets_eq (d : Decls) (j : Nat) : methodBrackets d j =
    2 * (brackets (d.method j).returnType + bracketsAll (d.method j).params) + implBrackets (d.impl j) := by
  unfold methodBrackets implBrackets
  cases d.impl j <;> rfl

theorem loadMethod_mid (hm : Mid m w0 d wi) (hwf : WellFormed entry m w0 d) {k j : Nat} {row : MethodDefRow}
    (hk : k < m.tables.typeDef.length) (hj : 1 ≤ j) (hrow : m.tables.methodDef[j - 1]? = some row)
    (ho : MethodOk m w0 d (d.name k) j row) (hroom : wi.types.length + methodBrackets d j < 2 ^ 32) :
    ∃ x wi', loadMethod cfg m (w0.types.length + k) j wi = (.ok x, wi') ∧ MidGrow m w0 d wi wi' (methodBrackets d j) ∧
      MethodIs m w0 d wi' k j x := by
  rw [methodBrackets_eq] at hroom ⊢
  obtain ⟨tr, ht, hown⟩ := hm.own k hk
  obtain ⟨n, hn, himpl⟩ := ho.impl
  rw [← hown.name] at himpl
  obtain ⟨r, r', q1, q2⟩ := blob_reads (cfg := cfg) ho.blob (C22_method cfg _ ho.fits)
  obtain ⟨f, w1, h1, g1, e1⟩ := loadImpl_mid (cfg := cfg) hm hwf ht himpl ho.ret ho.params (by omega)
  have l1 := g1.len
  obtain ⟨nr, hnr⟩ := ho.ret
  obtain ⟨tt, w2, h2, g2, ⟨rr, e2, e3⟩, -⟩ := typeFor_mid (cfg := cfg) g1.mid hwf hnr (by omega)
  have l2 := g2.len
  obtain ⟨ps, w3, h3, g3, e4⟩ := loadParams_mid (cfg := cfg) hwf ho.params ho.paramRows g2.mid (by omega)
  refine ⟨⟨n, w0.types.length + k, tt, ps, f, row.attributes.isStatic, row.attributes.isVirtual, row.attributes.isAbstract⟩, w3, ?_,
    ((g1.trans g2).trans g3).mono (by omega), rfl, ⟨row, hrow, hn, rfl⟩, ⟨nr, rr, hnr, g3.keep _ _ e2, e3⟩, e4, e1⟩
  unfold loadMethod
  rw [M.liftM_bind_ok (tableIndex_at cfg hj hrow), M.liftM_bind_ok (string!_of hn), M.liftM_bind_ok q1, M.liftM_bind_ok q2]
  dsimp only
  rw [M.bind_ok h1, M.bind_ok h2, M.bind_ok h3]
  rfl

theorem loadField_mid (hm : Mid m w0 d wi) (hwf : WellFormed entry m w0 d) {t j offset : Nat} {row : FieldRow}
    (hj : 1 ≤ j) (hrow : m.tables.field[j - 1]? = some row)
    (ho : FieldOk m w0 d j row) (hroom : wi.types.length + brackets (d.fieldType j) < 2 ^ 32) :
    ∃ f wi', loadField cfg m t j offset wi = (.ok f, wi') ∧ MidGrow m w0 d wi wi' (brackets (d.fieldType j)) ∧
      FieldIs m w0 d wi' j f := by
  obtain ⟨n, hn⟩ := ho.name
  obtain ⟨r, r', q1, q2⟩ := blob_reads (cfg := cfg) ho.blob (C22_field cfg _ ho.fits)
  obtain ⟨tt, w1, h1, g1, h2, h3⟩ := typeFor_mid (cfg := cfg) hm hwf ho.type hroom
  refine ⟨⟨n, tt, t, row.attributes.isStatic, offset⟩, w1, ?_, g1, ⟨h2, ho.static, h3⟩⟩
  unfold loadField
  rw [M.liftM_bind_ok (tableIndex_at cfg hj hrow), M.liftM_bind_ok (string!_of hn), M.liftM_bind_ok q1, M.liftM_bind_ok q2]
  dsimp only
  rw [M.bind_ok h1]
  rfl

end
end Clr
