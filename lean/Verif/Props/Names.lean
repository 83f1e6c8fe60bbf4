import Verif.Props.Registry
import Verif.Lemmas.Examples
/-! # C43, C68: types named by signatures, and the binding of runtime-implemented methods -/

namespace Clr
open Spec

/-! ## C68 -/

/-- `k` pairs of brackets after `root`. -/
def bracketed (root : Name) : Nat → Name
  | 0 => root
  | k + 1 => bracketed root k ++ ['[', ']']

theorem Spec.Denotes.name_eq {m : Metadata} {e : ElementType} {root n : Name} {rank : Nat} (h : Denotes m e root rank n) :
    n = bracketed root rank := by
  induction h with
  | builtin => rfl
  | valueType => rfl
  | cls => rfl
  | array _ ih => rw [bracketed, ← ih]

theorem typeDefOrRefName_of {cfg : Cfg} {m : Metadata} {h : TypeDefOrRef} {n : Name} (hn : RowNamed m h n) :
    typeDefOrRefName cfg m h = .ok (some n) := by
  cases hn with
  | typeDef k row n ns hk hrow h1 h2 =>
    simp [typeDefOrRefName, typeNameHandles, tableIndex_at cfg hk hrow, h1, h2, fullName_eq]
  | typeRef k row n ns hk hrow h1 h2 =>
    simp [typeDefOrRefName, typeNameHandles, tableIndex_at cfg hk hrow, h1, h2, fullName_eq]

/-- A named type, looked up. -/
theorem namedType_of {cfg : Cfg} {m : Metadata} {h : TypeDefOrRef} {n : Name} (hn : RowNamed m h n) (w : World) :
    namedType cfg m h w = (Res.ofOption "Unable to locate type" (w.getType n), w) := by
  unfold namedType
  rw [M.liftM_bind_ok (typeDefOrRefName_of hn)]; rfl

/-- A built-in type, looked up. -/
theorem typeFor_builtin {cfg : Cfg} {m : Metadata} {e : ElementType} {n : String} (h : builtinName e = some n) (w : World) :
    typeFor cfg m e w = (Res.unwrap (w.getType n.toList), w) := by
  cases e <;> simp only [builtinName, Option.some.injEq, reduceCtorEq] at h <;> subst h <;> rfl

theorem getType_some_mono {cfg : Cfg} {w w' : World} (hi : Inv w) (hs : Steps cfg w w') {n : Name} {i : Nat}
    (hg : w.getType n = some i) : ∃ j, w'.getType n = some j ∧ i ≤ j := by
  have hi' := hi.steps hs
  obtain ⟨t, h1, h2, _⟩ := (hi.getType_iff n i).mp hg
  obtain ⟨t', h3, h4, _⟩ := hs.types.1 i t h1
  have hname : t'.fullName = n := by rw [h4.fullName, h2]
  cases hj : w'.getType n with
  | none => exact absurd hname ((hi'.getType_none n).mp hj t' (List.mem_of_getElem? h3))
  | some j =>
    refine ⟨j, rfl, ?_⟩
    obtain ⟨u, _, _, g⟩ := (hi'.getType_iff n j).mp hj
    rcases Nat.lt_or_ge j i with hlt | hge
    · exact absurd hname (g i t' hlt h3)
    · exact hge

theorem typeFor_denotes {cfg : Cfg} {m : Metadata} {e : ElementType} {root n : Name} {rank : Nat}
    (h : Denotes m e root rank n) : ∀ {w w' : World} {t : Nat}, Inv w → typeFor cfg m e w = (.ok t, w') →
      w'.getType n = some t ∧ Inv w' ∧ Steps cfg w w' ∧ ∀ k ≤ rank, ∃ i, w'.getType (bracketed root k) = some i := by
  induction h with
  | builtin h =>
    intro w w' t hi ht
    rw [typeFor_builtin h, Prod.mk.injEq, unwrap_eq_ok] at ht
    obtain ⟨h1, rfl⟩ := ht
    refine ⟨h1, hi, .refl _, fun k hk => ?_⟩
    have : k = 0 := by omega
    subst this
    exact ⟨t, h1⟩
  | valueType hn =>
    intro w w' t hi ht
    rw [show typeFor cfg m (.valueType _) w = _ from namedType_of hn w, Prod.mk.injEq, ofOption_eq_ok] at ht
    obtain ⟨h1, rfl⟩ := ht
    refine ⟨h1, hi, .refl _, fun k hk => ?_⟩
    have : k = 0 := by omega
    subst this
    exact ⟨t, h1⟩
  | cls hn =>
    intro w w' t hi ht
    rw [show typeFor cfg m (.class _) w = _ from namedType_of hn w, Prod.mk.injEq, ofOption_eq_ok] at ht
    obtain ⟨h1, rfl⟩ := ht
    refine ⟨h1, hi, .refl _, fun k hk => ?_⟩
    have : k = 0 := by omega
    subst this
    exact ⟨t, h1⟩
  | @array e root n rank h ih =>
    intro w w' t hi ht
    unfold typeFor at ht
    obtain ⟨t0, w1, h1, h2⟩ := M.bind_eq_ok.mp ht
    obtain ⟨g1, hi1, hs1, g3⟩ := ih hi h1
    obtain ⟨er, k1, k2, k3, hi'⟩ := arrayType_get hi1 h2
    obtain ⟨tr, l1, l2, _⟩ := (hi1.getType_iff _ _).mp g1
    rw [k1] at l1; cases l1
    rw [l2] at k3
    have hs2 : Steps cfg w1 w' := by have := (arrayType_run (cfg := cfg) t0 hi1).1; rwa [h2] at this
    refine ⟨k3, hi', hs1.trans hs2, fun k hk => ?_⟩
    by_cases hkr : k = rank + 1
    · subst hkr
      exact ⟨t, by rw [bracketed, ← h.name_eq]; exact k3⟩
    · obtain ⟨i, hi⟩ := g3 k (by omega)
      obtain ⟨j, hj, _⟩ := getType_some_mono hi1 hs2 hi
      exact ⟨j, hj⟩

/-- When all names involved resolve already, nothing is registered. -/
theorem typeFor_known {cfg : Cfg} {m : Metadata} {e : ElementType} {root n : Name} {rank : Nat} {w : World} (hi : Inv w)
    (h : Denotes m e root rank n) (hk : ∀ k ≤ rank, ∃ i, w.getType (bracketed root k) = some i) {t : Nat}
    (ht : w.getType n = some t) : typeFor cfg m e w = (.ok t, w) := by
  induction h generalizing t with
  | builtin h => rw [typeFor_builtin h, ht]; rfl
  | valueType hn => rw [show typeFor cfg m (.valueType _) w = _ from namedType_of hn w, ht]; rfl
  | cls hn => rw [show typeFor cfg m (.class _) w = _ from namedType_of hn w, ht]; rfl
  | @array e root n rank h ih =>
    obtain ⟨t0, h0⟩ := hk rank (by omega)
    rw [← h.name_eq] at h0
    unfold typeFor
    rw [M.bind_ok (ih (fun k hkk => hk k (by omega)) h0)]
    obtain ⟨tr, l1, l2, _⟩ := (hi.getType_iff _ _).mp h0
    unfold arrayType
    rw [M.view_bind_ok (typeAt_eq_ok.mpr l1), M.get_bind, l2, show n ++ "[]".toList = n ++ ['[', ']'] from rfl, ht]
    rfl

/-- **C68.** Whenever an element type of a signature is resolved to a type, that type has the full name the element type
denotes and is the one the name resolves to; resolving the element type again gives the same type and registers
nothing. -/
theorem C68_named (cfg : Cfg) (w w' : World) (h : Reached cfg w) (m : Metadata) (e : ElementType) (root n : Name) (rank t : Nat)
    (hd : Denotes m e root rank n) (ht : typeFor cfg m e w = (.ok t, w')) :
    (∃ tr, w'.types[t]? = some tr ∧ tr.fullName = n) ∧ w'.getType n = some t ∧ typeFor cfg m e w' = (.ok t, w') := by
  obtain ⟨h1, h2, _, h3⟩ := typeFor_denotes hd h.inv ht
  obtain ⟨tr, h4, h5, _⟩ := (h2.getType_iff _ _).mp h1
  exact ⟨⟨tr, h4, h5⟩, h1, typeFor_known h2 hd h3 h1⟩

/-- **C68, success.** The element type is resolved whenever its innermost element type's name is registered (and fewer
than 2^32 types will be registered). -/
theorem C68_resolves (cfg : Cfg) (w : World) (h : Reached cfg w) (m : Metadata) (e : ElementType) (root n : Name) (rank i : Nat)
    (hd : Denotes m e root rank n) (hr : w.getType root = some i) (hsmall : w.types.length + rank < 2 ^ 32) :
    ∃ t w', typeFor cfg m e w = (.ok t, w') := by
  suffices hh : ∀ {e root n rank i}, Denotes m e root rank n → w.getType root = some i → w.types.length + rank < 2 ^ 32 →
      ∃ t w', typeFor cfg m e w = (.ok t, w') ∧ w'.types.length ≤ w.types.length + rank by
    obtain ⟨t, w', h1, _⟩ := hh hd hr hsmall
    exact ⟨t, w', h1⟩
  intro e root n rank i hd hr hsmall
  induction hd with
  | builtin hb => exact ⟨i, w, by rw [typeFor_builtin hb, hr]; rfl, by omega⟩
  | valueType hn => exact ⟨i, w, by rw [show typeFor cfg m (.valueType _) w = _ from namedType_of hn w, hr]; rfl, by omega⟩
  | cls hn => exact ⟨i, w, by rw [show typeFor cfg m (.class _) w = _ from namedType_of hn w, hr]; rfl, by omega⟩
  | @array e root n rank hd ih =>
    obtain ⟨t0, w1, h1, h2⟩ := ih hr (by omega)
    obtain ⟨g1, hi1, _, _⟩ := typeFor_denotes hd h.inv h1
    obtain ⟨tr, l1, l2, _⟩ := (hi1.getType_iff _ _).mp g1
    unfold typeFor
    rw [M.bind_ok h1]
    unfold arrayType
    rw [M.view_bind_ok (typeAt_eq_ok.mpr l1), M.get_bind]
    cases hg : w1.getType (tr.fullName ++ "[]".toList) with
    | some t => exact ⟨t, w1, rfl, by omega⟩
    | none =>
      have hnext := hi1.next
      have hn : uadd cfg 32 w1.nextTypeId 1 = .ok (w1.nextTypeId + 1) := uadd_ok (by omega)
      dsimp only
      rw [M.bind_ok (nextTypeId_eq hn), M.get_bind, M.get_bind, M.modify_bind]
      refine ⟨_, _, rfl, ?_⟩
      simp [World.addType]; omega

/-- `int[][]` in the core library. -/
example : Denotes (Ex.metadata [] [] [] Ex.noRows) (.szArray (.szArray .int)) "System.Int32".toList 2 "System.Int32[][]".toList :=
  .array (.array (.builtin rfl))
example : (typeFor Cfg.debug (Ex.metadata [] [] [] Ex.noRows) (.szArray (.szArray .int)) Ex.coreWorld).1 = .ok 20 ∧
    Ex.coreWorld.getType "System.Int32".toList = some 10 := by decide +kernel

/-! ## C43 -/

theorem split_first {α : Type} {c : α} {a a' b b' : List α} (h1 : c ∉ a) (h2 : c ∉ a') (h : a ++ c :: b = a' ++ c :: b') :
    a = a' ∧ b = b' := by
  induction a generalizing a' with
  | nil => cases a' with
    | nil => simpa using h
    | cons x xs => simp only [List.nil_append, List.cons_append, List.cons.injEq] at h; simp [h.1] at h2
  | cons x xs ih => cases a' with
    | nil => simp only [List.nil_append, List.cons_append, List.cons.injEq] at h; simp [h.1] at h1
    | cons y ys =>
      simp only [List.cons_append, List.cons.injEq] at h
      obtain ⟨g1, g2⟩ := ih (a' := ys) (fun hm => h1 (by simp [hm])) (fun hm => h2 (by simp [hm])) h.2
      exact ⟨by rw [h.1, g1], g2⟩

theorem split_last {α : Type} {c : α} {a a' b b' : List α} (h1 : c ∉ b) (h2 : c ∉ b') (h : a ++ c :: b = a' ++ c :: b') :
    a = a' ∧ b = b' := by
  have := congrArg List.reverse h
  simp only [List.reverse_append, List.reverse_cons, List.append_assoc, List.singleton_append] at this
  obtain ⟨g1, g2⟩ := split_first (by simpa using h1) (by simpa using h2) this
  exact ⟨List.reverse_inj.mp g2, List.reverse_inj.mp g1⟩

/-- Parameter type names: not empty, no comma. -/
def PlainParams (ps : List Name) : Prop := ∀ p ∈ ps, p ≠ [] ∧ ',' ∉ p

theorem joinParams_inj {ps qs : List Name} (hp : PlainParams ps) (hq : PlainParams qs) (h : joinParams ps = joinParams qs) :
    ps = qs := by
  have hcomma : ∀ (p : Name) (ps : List Name), p :: ps ≠ [p] → joinParams (p :: ps) = p ++ ',' :: ' ' :: joinParams ps := by
    intro p ps h
    cases ps with
    | nil => exact absurd rfl h
    | cons q qs => simp [joinParams]
  have hne : ∀ (p : Name) (ps : List Name), p ≠ [] → joinParams (p :: ps) ≠ [] := by
    intro p ps hp
    cases ps with
    | nil => simpa [joinParams] using hp
    | cons q qs => simp [joinParams]
  induction ps generalizing qs with
  | nil => cases qs with
    | nil => rfl
    | cons q qs => exact absurd h.symm (hne q qs (hq q (by simp)).1)
  | cons p ps ih => cases qs with
    | nil => exact absurd h (hne p ps (hp p (by simp)).1)
    | cons q qs =>
      have hp1 := (hp p (by simp)).2
      have hq1 := (hq q (by simp)).2
      by_cases h1 : ps = []
      · subst h1
        by_cases h2 : qs = []
        · subst h2; simpa [joinParams] using h
        · rw [hcomma q qs (by simp [h2])] at h
          simp only [joinParams] at h
          rw [h] at hp1; simp at hp1
      · by_cases h2 : qs = []
        · subst h2
          rw [hcomma p ps (by simp [h1])] at h
          simp only [joinParams] at h
          rw [← h] at hq1; simp at hq1
        · rw [hcomma p ps (by simp [h1]), hcomma q qs (by simp [h2])] at h
          obtain ⟨g1, g2⟩ := split_first hp1 hq1 h
          simp only [List.cons.injEq, true_and] at g2
          rw [g1, ih (fun x hx => hp x (by simp [hx])) (fun x hx => hq x (by simp [hx])) g2]

/-- Names as compilers produce them for runtime-implemented methods: no parenthesis in the declaring type's full name,
neither parenthesis nor dot in the method's name, and parameter types as in `PlainParams`. -/
structure PlainNames (decl name : Name) (params : List Name) : Prop where
  decl : '(' ∉ decl
  name : '(' ∉ name ∧ '.' ∉ name
  params : PlainParams params

/-- **C43, keys, partial.** Methods with plain names (and no space in the simple names of their return types) that differ
in declaring type, name, or parameter types have different keys. Missing: names with separators in them, for which it is
false (`C43_refuted`). -/
theorem C43_keys_partial (d n r : Name) (ps : List Name) (d' n' r' : Name) (ps' : List Name) (h : PlainNames d n ps)
    (h' : PlainNames d' n' ps') (hr : ' ' ∉ r) (hr' : ' ' ∉ r')
    (he : internalCallName n d r ps = internalCallName n' d' r' ps') : r = r' ∧ d = d' ∧ n = n' ∧ ps = ps' := by
  simp only [internalCallName, List.append_assoc, List.cons_append] at he
  obtain ⟨h1, he⟩ := split_first hr hr' he
  have he2 : (d ++ '.' :: n) ++ '(' :: (joinParams ps ++ [')']) = (d' ++ '.' :: n') ++ '(' :: (joinParams ps' ++ [')']) := by
    simpa using he
  obtain ⟨h2, h3⟩ := split_first (by simp [h.decl, h.name.1]) (by simp [h'.decl, h'.name.1]) he2
  obtain ⟨h4, h5⟩ := split_last h.name.2 h'.name.2 h2
  exact ⟨h1, h4, h5, joinParams_inj h.params h'.params (List.append_cancel_right h3)⟩

/-- What the three native functions implement: declaring type, name, parameter types. -/
def nativeSignature : InternalMethod → Name × Name × List Name
  | .stringGetItem => ("System.String".toList, "get_Item".toList, ["System.Int32".toList])
  | .stringGetLength => ("System.String".toList, "get_Length".toList, [])
  | .consoleWrite => ("System.Console".toList, "Write".toList, ["System.String".toList])

/-- The simple name of the type each of them returns. -/
def nativeReturn : InternalMethod → Name
  | .stringGetItem => "Char".toList
  | .stringGetLength => "Int32".toList
  | .consoleWrite => "Void".toList

theorem internalMethods_key {key : Name} {f : InternalMethod} (hf : internalMethods.lookup key = some f) :
    key = internalCallName (nativeSignature f).2.1 (nativeSignature f).1 (nativeReturn f) (nativeSignature f).2.2 := by
  simp only [internalMethods, List.lookup_cons, List.lookup_nil] at hf
  split at hf
  · rename_i hk; cases hf; rw [eq_of_beq hk]; decide
  · split at hf
    · rename_i hk; cases hf; rw [eq_of_beq hk]; decide
    · split at hf
      · rename_i hk; cases hf; rw [eq_of_beq hk]; decide
      · simp at hf

theorem native_plain (f : InternalMethod) :
    PlainNames (nativeSignature f).1 (nativeSignature f).2.1 (nativeSignature f).2.2 ∧ ' ' ∉ nativeReturn f := by
  refine ⟨⟨?_, ?_, ?_⟩, ?_⟩
  · cases f <;> decide
  · cases f <;> decide
  · unfold PlainParams; cases f <;> decide
  · cases f <;> decide

theorem paramNames_denote {cfg : Cfg} {m : Metadata} {es : List ElementType} {ns : List Name}
    (h : Each (fun e n => ∃ root rank, Denotes m e root rank n) es ns) : ∀ {w w' : World} {ps : List Name}, Inv w →
    paramNames cfg m es w = (.ok ps, w') → ps = ns ∧ Inv w' ∧ Steps cfg w w' := by
  induction h with
  | nil =>
    intro w w' ps hi h
    simp only [paramNames, M.pure_run, Prod.mk.injEq, Res.ok.injEq] at h
    exact ⟨h.1.symm, h.2 ▸ hi, h.2 ▸ .refl _⟩
  | @cons e n es ns hd _ ih =>
    intro w w' ps hi h
    unfold paramNames at h
    obtain ⟨t, w1, h1, h⟩ := M.bind_eq_ok.mp h
    have h1' : typeFor cfg m e w = (.ok t, w1) := by
      rcases hx : typeFor cfg m e w with ⟨r, w2⟩
      simp only [hx] at h1
      cases r <;> simp at h1 ⊢
      exact h1
    obtain ⟨tr, w2, h2, h⟩ := M.bind_eq_ok.mp h
    simp only [M.view_run, Prod.mk.injEq] at h2
    obtain ⟨h2, rfl⟩ := h2
    obtain ⟨ns', w3, h3, h⟩ := M.bind_eq_ok.mp h
    simp only [M.pure_run, Prod.mk.injEq, Res.ok.injEq] at h
    obtain ⟨rfl, rfl⟩ := h
    obtain ⟨root, rank, hd⟩ := hd
    obtain ⟨g1, hi1, hs1, _⟩ := typeFor_denotes hd hi h1'
    obtain ⟨g2, hi3, hs3⟩ := ih hi1 h3
    obtain ⟨tr', k1, k2, _⟩ := (hi1.getType_iff _ _).mp g1
    rw [typeAt_eq_ok.mp h2] at k1; cases k1
    exact ⟨by rw [k2, g2], hi3, hs1.trans hs3⟩

/-- **C43, binding, partial.** If a runtime-implemented method of type `t`, whose parameter types denote the names `ns`,
is bound to native function `f`, then `t`, the method's name and `ns` are exactly those `f` implements. Missing: as for
the keys. -/
theorem C43_bound_partial (cfg : Cfg) (w w' : World) (h : Reached cfg w) (m : Metadata) (t : Nat) (tr : TypeRec)
    (row : MethodDefRow) (name : Name) (sig : MethodSig) (ns : List Name) (f : InternalMethod)
    (ht : w.types[t]? = some tr) (hps : Each (fun e n => ∃ root rank, Denotes m e root rank n) sig.params ns)
    (hload : loadImpl cfg m t row name sig w = (.ok (.internal f), w'))
    (hspace : ∀ r ∈ w'.types, ' ' ∉ r.name) (hplain : PlainNames tr.fullName name ns) :
    nativeSignature f = (tr.fullName, name, ns) := by
  unfold loadImpl at hload
  split at hload
  · obtain ⟨ps, w1, h1, hload⟩ := M.bind_eq_ok.mp hload
    obtain ⟨i, w2, h2, hload⟩ := M.bind_eq_ok.mp hload
    obtain ⟨rr, w3, h3, hload⟩ := M.bind_eq_ok.mp hload
    simp only [M.view_run, Prod.mk.injEq] at h3
    obtain ⟨h3, rfl⟩ := h3
    obtain ⟨dr, w4, h4, hload⟩ := M.bind_eq_ok.mp hload
    simp only [M.view_run, Prod.mk.injEq] at h4
    obtain ⟨h4, rfl⟩ := h4
    obtain ⟨f', w5, h5, hload⟩ := M.bind_eq_ok.mp hload
    simp only [M.liftM_run, Prod.mk.injEq, ofOption_eq_ok] at h5
    obtain ⟨h5, rfl⟩ := h5
    simp only [M.pure_run, Prod.mk.injEq, Res.ok.injEq, MethodImpl.internal.injEq] at hload
    obtain ⟨rfl, rfl⟩ := hload
    obtain ⟨rfl, hi1, hs1⟩ := paramNames_denote hps h.inv h1
    have hs2 : Steps cfg w1 w2 := by have := (typeFor_run (cfg := cfg) (m := m) sig.returnType w1 hi1).1; rwa [h2] at this
    obtain ⟨tr', l1, l2, _⟩ := (hs1.trans hs2).types.1 t tr ht
    rw [typeAt_eq_ok.mp h4] at l1; cases l1
    rw [l2.fullName] at h5
    obtain ⟨-, g1, g2, g3⟩ := C43_keys_partial _ _ _ _ _ _ _ _ hplain (native_plain f').1
      (hspace rr (List.mem_of_getElem? (typeAt_eq_ok.mp h3))) (native_plain f').2 (internalMethods_key h5)
    rw [g1, g2, g3]
  · split at hload
    · simp at hload
    · split at hload
      · simp at hload
      · obtain ⟨b, w1, _, h2⟩ := M.bind_eq_ok.mp hload
        simp at h2

namespace Ex

def sysStrings : List String := ["odd", "System", "Console.Write", "value"]

/-- A type `System` in the global namespace with a runtime-implemented method `Console.Write`. -/
def oddAsm : Asm where
  strings := sysStrings
  blobs := [[0x00, 1, 0x01, 0x0e]]
  tables :=
    [(0x02, [typeRow sysStrings 0 "" "System" 0 1 1]),
     (0x06, [methodRow sysStrings 0 0x1000 0x10 "Console.Write" 1 1]),
     (0x08, [paramRow sysStrings 1 "value"]),
     (0x20, [assemblyRow sysStrings "odd"])]

def oddWorld : World := (loadData Cfg.debug noFiles 1 100 oddAsm.file coreWorld).2

end Ex

/-- **C43: refuted in general.** A method `Console.Write` of a type `System` is bound to the native implementation of
`System.Console.Write`. -/
theorem C43_refuted : ∃ (w : World) (t : TypeRec) (x : MethodRec), Reached Cfg.debug w ∧ t ∈ w.types ∧ x ∈ t.methods ∧
    x.impl = .internal .consoleWrite ∧ t.fullName = "System".toList := by
  refine ⟨Ex.oddWorld, ⟨19, "System".toList, [], "System".toList, 1, false, some .cls, none, [],
    [⟨"Console.Write".toList, 19, 3, [⟨"value".toList, 1, 16⟩], .internal .consoleWrite, true, false, false⟩], []⟩,
    _, .loadFile _ _ _ _ Ex.coreReached, ?_, List.mem_singleton.mpr rfl, rfl, rfl⟩
  exact List.mem_of_getElem? (i := 19) (by decide +kernel)

/-- `Write(string)` and `Write(int)` of `System.Console` have plain names, and so different keys. -/
example : PlainNames "System.Console".toList "Write".toList ["System.String".toList] ∧
    PlainNames "System.Console".toList "Write".toList ["System.Int32".toList] := by
  constructor <;> refine ⟨by decide, by decide, ?_⟩ <;> intro p hp <;> simp only [List.mem_singleton] at hp <;>
    subst hp <;> decide

/-- The core library's own `Write(string)` is bound to the console function. -/
example : (∀ r ∈ Ex.coreWorld.types, ' ' ∉ r.name) ∧
    (Ex.coreWorld.types[18]?.map fun t => t.methods.map fun x => (x.name, x.impl)) =
      some [("Write".toList, .internal .consoleWrite)] := by decide +kernel

end Clr
