import Verif.Lemmas.Nest
/-! # How much work a question about a type is (C104) -/

namespace Clr
open Spec

/-- **C104, instance tests.** In a registry brought about by calls that all returned (where the base chains of the types with
the names of number types end, see C81), every instance test answers. It never recurses deeper than there are types, and the
number of its steps is at most the number of types, fields and interfaces there are. -/
theorem C104_instance (cfg : Cfg) (w : World) (h : Survived cfg w)
    (hn : ∀ (t : Nat) r, w.types[t]? = some r → r.fullName ∈ numberNames → ChainEnds w t) (t u : Nat) (ht : t < w.types.length)
    (hu : u < w.types.length) : ∃ b, ∀ fuel ≥ w.types.length, ∃ c ≤ amount w, instanceOfC w u fuel t = .ok (b, c) ∧
      instanceOf w u fuel t = .ok b := by
  obtain ⟨n, hd⟩ := C81_partial cfg w h hn t ht
  have hlt := depth_lt hd
  obtain ⟨b, h1, -⟩ := instanceOf_eq (Survived.reached h).inv (List.getElem?_eq_getElem hu) hd (n + 1) (by omega)
  refine ⟨b, fun fuel hf => ?_⟩
  have e : instanceOf w u fuel t = .ok b := by
    rw [Res.Refined.instanceOf (show n + 1 ≤ fuel by omega) t (by rw [h1]; simp), h1]
  have e' := e
  rw [instanceOfC_eq] at e'
  obtain ⟨⟨a, c⟩, h2, h3⟩ := Res.bind_eq_ok.mp e'
  cases h3
  obtain ⟨ts, hts, -⟩ := chain_of_depth hd
  exact ⟨c, Nat.le_trans (instanceOfC_le hts h2) (chain_amount hts), h2, e⟩

theorem chain_parts {w : World} {t : Nat} {ts : List Nat} (h : BaseChain w t ts) : 1 ≤ ts.length ∧
    ts.length + (ts.map (ownFields w)).sum ≤ amount w := by
  refine ⟨by cases h <;> simp, Nat.le_trans ?_ (chain_amount h)⟩
  have hb := chain_bound h
  clear h
  induction ts with
  | nil => simp
  | cons t ts ih =>
    have := ih fun s hs => hb s (by simp [hs])
    obtain ⟨r, ht⟩ : ∃ r, w.types[t]? = some r := ⟨_, List.getElem?_eq_getElem (hb t (by simp))⟩
    have e1 := portion_eq ht
    have e2 : ownFields w t = r.fields.length := by simp only [ownFields, ht]
    simp only [List.length_cons, List.map_cons, List.sum_cons, e1, e2]
    omega

/-- **C104, lists of fields.** Likewise the fields of a type with those of its base classes are listed, in a number of steps
that is at most the square of what was loaded. -/
theorem C104_fields (cfg : Cfg) (w : World) (h : Survived cfg w)
    (hn : ∀ (t : Nat) r, w.types[t]? = some r → r.fullName ∈ numberNames → ChainEnds w t) (t : Nat) (ht : t < w.types.length)
    (fuel : Nat) (hf : w.types.length ≤ fuel) : ∃ fs c, allFieldsC w fuel t = .ok (fs, c) ∧ allFields w fuel t = .ok fs ∧
      fs.length ≤ amount w ∧ c ≤ amount w * amount w := by
  obtain ⟨n, hd⟩ := C81_partial cfg w h hn t ht
  obtain ⟨ts, hts, -⟩ := chain_of_depth hd
  obtain ⟨fs, c, h1, h2, h3⟩ := allFieldsC_le hts (Nat.le_trans (chain_length hts) hf)
  obtain ⟨h4, h5⟩ := chain_parts hts
  refine ⟨fs, c, h1, by rw [allFieldsC_eq, h1]; rfl, by omega, Nat.le_trans h3 (Nat.mul_le_mul (by omega) (by omega))⟩

/-- **C104, sizes (partial).** If the instance fields of a type and its base classes are references and built-in numbers (and
`System.ValueType` is not listed as an interface), its size is found in a number of steps that is at most about the square of
what was loaded.

Missing: fields that are structs themselves (`C104_doubled`, `C104_refuted`). -/
theorem C104_sizes_partial (cfg : Cfg) (w : World) (h : Survived cfg w) (hni : NoInterface w)
    (hn : ∀ (t : Nat) r, w.types[t]? = some r → r.fullName ∈ numberNames → ChainEnds w t) (t : Nat) (hfl : Flat w t)
    (ht : t < w.types.length) (fuel s c : Nat) (hs : typeSizeC cfg w fuel t = .ok (s, c)) : c ≤ amount w * (amount w + 1) := by
  obtain ⟨n, hd⟩ := C81_partial cfg w h hn t ht
  obtain ⟨ts, hts, -⟩ := chain_of_depth hd
  have h1 := typeSizeC_flat (Survived.reached h).inv hni (C81_partial cfg w h hn) hts hfl hs
  obtain ⟨h4, h5⟩ := chain_parts hts
  have h6 : ts.length ≤ ts.length * (amount w + 1) := Nat.le_mul_of_pos_right _ (by omega)
  have h7 := Nat.mul_le_mul_right (amount w + 1) h5
  rw [Nat.add_mul] at h7
  omega

/-- **C104, nested structs.** The size of a struct with two fields of a struct type with two fields of a struct type …, `n`
deep, is found in no less than `2 ^ n` steps: each field is measured anew, with all it contains. -/
theorem C104_doubled (cfg : Cfg) (w : World) (h : Reached cfg w) (n t : Nat) (hd : Doubled w n t) (fuel s c : Nat)
    (hs : typeSizeC cfg w fuel t = .ok (s, c)) : 2 ^ n ≤ c :=
  doubled_ge h.inv hd hs

/-- The counted functions answer as the functions themselves do. -/
theorem C104_counted (cfg : Cfg) (w : World) (fuel t u : Nat) :
    instanceOf w u fuel t = (do let (a, _) ← instanceOfC w u fuel t; pure a) ∧
    allFields w fuel t = (do let (a, _) ← allFieldsC w fuel t; pure a) ∧
    typeSize cfg w fuel t = (do let (a, _) ← typeSizeC cfg w fuel t; pure a) :=
  ⟨instanceOfC_eq _ _ _, allFieldsC_eq _ _, typeSizeC_eq _ _⟩

/-- **C104, depth.** The calls are never nested deeper than the counts say, and no fewer fields are copied: with as many nested
calls as counted, and with any larger number, the answer is found. -/
theorem C104_depth (cfg : Cfg) (w : World) (fuel t u : Nat) :
    (∀ b c, instanceOfC w u fuel t = .ok (b, c) → ∀ n ≥ c, instanceOf w u n t = .ok b) ∧
    (∀ fs c, allFieldsC w fuel t = .ok (fs, c) → fs.length < c ∧ ∀ n ≥ c, allFields w n t = .ok fs) ∧
    (∀ s c, typeSizeC cfg w fuel t = .ok (s, c) → ∀ n ≥ c, typeSize cfg w n t = .ok s) :=
  ⟨fun _ _ h => (instanceOfC_depth fuel h).2, fun _ _ h => allFieldsC_depth fuel h, fun _ _ h => (typeSizeC_depth fuel h).2⟩

/-- The hypotheses can be met: the library of `Ex.layoutAsm` with `struct S { short; byte; }`. -/
theorem Ex.layout_flat : Flat Ex.layoutWorld 19 := by
  have k : ∀ t ∈ [19, 2, 1], ∀ r ∈ Ex.layoutWorld.types[t]?, (∀ b ∈ r.base, b ∈ [2, 1]) ∧
      ∀ f ∈ r.fields, ∀ fr ∈ Ex.layoutWorld.types[f.fieldType]?, fr.fullName ∈ numberNames := by decide +kernel
  have k' : ∀ t ∈ [19, 2, 1], ∀ r ∈ Ex.layoutWorld.types[t]?, ∀ f ∈ r.fields, f.fieldType < Ex.layoutWorld.types.length := by
    decide +kernel
  have up : ∀ t a, Ancestor Ex.layoutWorld t a → t ∈ [19, 2, 1] → a ∈ [19, 2, 1] := by
    intro t a h
    induction h with
    | self t => exact id
    | base h1 h2 _ ih =>
      intro ht
      exact ih (List.mem_cons_of_mem _ ((k _ ht _ h1).1 _ h2))
  intro a r f ha hr hf _
  have hl := up _ _ ha (by simp)
  exact .inr ⟨_, List.getElem?_eq_getElem (k' a hl r hr f hf), (k a hl r hr).2 f hf _ (List.getElem?_eq_getElem _)⟩

example : Survived .debug Ex.layoutWorld ∧ NoInterface Ex.layoutWorld ∧
    (∀ (t : Nat) r, Ex.layoutWorld.types[t]? = some r → r.fullName ∈ numberNames → ChainEnds Ex.layoutWorld t) ∧
    Flat Ex.layoutWorld 19 := by
  obtain ⟨k1, k2, -⟩ := Ex.layout_facts
  refine ⟨Ex.layoutSurvived, fun r hr i hi => ?_,
    fun t r ht _ => ends_of (fun t => t) k1 t (List.getElem?_eq_some_iff.1 ht).1, Ex.layout_flat⟩
  rw [k2 r hr] at hi; cases hi

/-- Its size is 3 and takes nine steps: two for the base classes, one for itself, and three for each of its fields. -/
example : typeSizeC .debug Ex.layoutWorld 100 19 = .ok (3, 9) ∧ instanceOfC Ex.layoutWorld 1 100 19 = .ok (true, 3) ∧
    amount Ex.layoutWorld = 33 := by
  decide +kernel

/-- Full statement of C104 for sizes: a bound like that for the other questions. -/
def C104_full (cfg : Cfg) : Prop :=
  ∀ (w : World), Survived cfg w → ∀ t fuel s n : Nat, typeSizeC cfg w fuel t = .ok (s, n) → n ≤ amount w * (amount w + 1)

/-- **C104, the bound is not met.** There is a file of less than 2500 bytes with fifty-one structs that loads (on top of the
core library) without an error. Seventy types are registered then, with fields no more than 200 items, and the size of the
last of the structs is an answer, but one that takes 2⁵⁰ steps. -/
theorem C104_refuted : ∃ data : Bytes, data.length < 2500 ∧ ∃ fuel a w, loadData .debug Ex.noFiles 1 fuel data Ex.coreWorld = (.ok a, w) ∧
    Survived .debug w ∧ w.types.length = 70 ∧ amount w ≤ 200 ∧ ∃ fuel' s c, typeSizeC .debug w fuel' 69 = .ok (s, c) ∧ 2 ^ 50 ≤ c := by
  obtain ⟨m, h1, h2⟩ := Ex.holds_iff Ex.nestFacts.1
  have h3 := of_decide_eq_true h2
  obtain ⟨lt, lf, -⟩ := Ex.nest_lengths h3
  obtain ⟨row, l, e1, e2, -⟩ := List.map_eq_cons_iff.mp h3.2.2.2.2.2.2.1
  have hrefs : ∀ r ∈ m.tables.assemblyRef, ∃ n, m.string r.name = .ok (some n) ∧ ∃ a ∈ Ex.coreWorld.assemblies, a.name = n := by
    intro r hr
    obtain ⟨row, l, e1, e2, hl⟩ := List.map_eq_cons_iff.mp h3.2.2.2.2.2.2.2.1
    obtain rfl := List.map_eq_nil_iff.mp hl
    rw [e1, List.mem_singleton] at hr
    subst hr
    refine ⟨_, e2, ?_⟩
    decide +kernel
  obtain ⟨G, hG⟩ := loadData_wellFormed Ex.noFiles Ex.coreReached.inv h1 (by rw [e1]; rfl) e2 hrefs h3.2.2.2.2.2.2.2.2.2.2
    (by decide) (by decide) (Ex.nest_wellFormed h3) (Ex.nest_finite h3)
  obtain ⟨a, w', g1, g2, g3, g4, -, g5⟩ := hG 0 G (Nat.le_refl _)
  have hs := loadSelf_ok Ex.coreReached.inv g2
  have hlen : w'.types.length = 70 := by
    have := g4.len
    rw [lf, lt, Ex.coreConsole.2, h3.2.2.2.1] at g5
    rw [lt, Ex.coreConsole.2] at this
    have hz : sumRun (fun j => brackets (Ex.nestDecls.fieldType j)) 1 100 = 0 := Ex.sumRun_zero 1 100
    rw [hz] at g5
    simp only [sumRun] at g5
    omega
  have hsu : Survived .debug w' := by
    have := Survived.loadFile Ex.noFiles 1 G Ex.nestAsm.file Ex.coreSurvived (by rw [g1]; exact .ok _)
    rw [g1] at this
    exact this
  obtain ⟨-, fuel, s, hsz⟩ := g3 69 _ (List.getElem?_eq_getElem (by omega))
  have hsz' := hsz
  rw [typeSizeC_eq] at hsz'
  obtain ⟨⟨x, c⟩, h5, h6⟩ := Res.bind_eq_ok.mp hsz'
  exact ⟨_, Ex.nestFacts.2, G, a, w', g1, hsu, hlen, Ex.nest_amount h3 hs g4 hlen, fuel, x, c, h5,
    C104_doubled _ _ (Survived.reached hsu) 50 69 (Ex.nest_doubled h3 hs g4 50 (by omega)) fuel x c h5⟩

/-- So the full statement is false. -/
theorem C104_full_refuted : ¬ C104_full .debug := by
  obtain ⟨-, -, -, -, w, -, hs, -, ha, fuel, s, c, h1, h2⟩ := C104_refuted
  intro hf
  have h3 := hf w hs 69 fuel s c h1
  have h4 := Nat.mul_le_mul ha (Nat.add_le_add_right ha 1)
  omega

end Clr
