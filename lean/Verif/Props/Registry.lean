import Verif.Lemmas.Run
import Verif.Lemmas.MethodBody
import Verif.Lemmas.Asm
/-! # C34, C35, C36, C37, C43, C68: the type registry -/

namespace Clr
open Spec

/-! ## C34 -/

/-- **C34.** In every registry a program can bring about, the type at position `i` has id `i` and is what a lookup by its
id finds, as long as ids have not wrapped around (at most 2^32 types). -/
theorem C34_ids (cfg : Cfg) (w : World) (h : Reached cfg w) (hn : w.types.length ≤ 2 ^ 32) (i : Nat) (t : TypeRec)
    (ht : w.types[i]? = some t) : t.id = i ∧ w.types[t.id]? = some t := by
  have hi := (List.getElem?_eq_some_iff.mp ht).1
  have : t.id = i := by
    rw [h.inv.ids i t ht]; exact Nat.mod_eq_of_lt (by omega)
  exact ⟨this, by rw [this]; exact ht⟩

theorem Steps.checked {cfg : Cfg} (hc : cfg.checks = true) {w w' : World} (hi : Inv w) (hs : Steps cfg w w')
    (h : w.types.length < 2 ^ 32) : w'.types.length < 2 ^ 32 := by
  induction hs with
  | refl => exact h
  | step hs' hu ih =>
    have hinv := hi.steps hs'
    cases hu with
    | register t n hid hn =>
      simp only [World.addType, List.length_append, List.length_singleton]
      have hnx := hinv.next
      unfold uadd at hn
      split at hn
      · omega
      · simp at hn
    | _ => first | exact ih | (simp only [World.updType, List.length_modify]; exact ih)

theorem Reached.checked {cfg : Cfg} (hc : cfg.checks = true) {w : World} (h : Reached cfg w) : w.types.length < 2 ^ 32 := by
  induction h with
  | start => simp
  | runtime fs depth fuel a b h ih => exact Steps.checked hc h.inv (newRuntime_run fs depth fuel a b _ h.inv).1 ih
  | loadFile fs depth fuel data h ih => exact Steps.checked hc h.inv (loadData_run fs depth fuel data _ h.inv).1 ih
  | loadName fs depth fuel n h ih => exact Steps.checked hc h.inv (loadAssembly_run fs depth fuel n _ h.inv).1 ih
  | arrayOf t h ih => exact Steps.checked hc h.inv (arrayType_run t h.inv).1 ih
  | write s _ ih => exact ih

/-- **C34, checked builds.** With overflow checks the bound is not needed: the counter never wraps. -/
theorem C34_ids_checked (cfg : Cfg) (hc : cfg.checks = true) (w : World) (h : Reached cfg w) (i : Nat) (t : TypeRec)
    (ht : w.types[i]? = some t) : t.id = i ∧ w.types[t.id]? = some t :=
  C34_ids cfg w h (Nat.le_of_lt (h.checked hc)) i t ht

/-- **C34, later.** A registered type keeps its position and identity whatever happens afterwards. -/
theorem C34_stable (cfg : Cfg) (w w' : World) (h : Reached cfg w) (hl : Later cfg w w') (i : Nat) (t : TypeRec)
    (ht : w.types[i]? = some t) : ∃ t', w'.types[i]? = some t' ∧ t'.id = t.id ∧ t'.fullName = t.fullName ∧
      t'.name = t.name ∧ t'.nspace = t.nspace ∧ t'.assembly = t.assembly := by
  obtain ⟨t', h1, h2, _⟩ := (hl.steps h.inv).types.1 i t ht
  exact ⟨t', h1, h2.id, h2.fullName, h2.name, h2.nspace, h2.assembly⟩

namespace Ex
/-- The core library, then a failing load, then an array type. -/
def someWorld : World := (arrayType Cfg.debug 10 (loadData Cfg.debug noFiles 1 100 [1, 2, 3] coreWorld).2).2
theorem coreReached : Reached Cfg.debug coreWorld := .loadFile _ _ _ _ .start
theorem someReached : Reached Cfg.debug someWorld := .arrayOf _ (.loadFile _ _ _ _ coreReached)
example : someWorld.types.length = 20 ∧ (someWorld.types[19]?.map fun t => (t.id, t.fullName)) = some (19, "System.Int32[]".toList) := by
  decide +kernel
end Ex

/-! ## C35 -/

/-- **C35.** A name resolves to the newest type registered under it, and to nothing if there is none. -/
theorem C35_latest (cfg : Cfg) (w : World) (h : Reached cfg w) (n : Name) :
    (∀ i, w.getType n = some i ↔ ∃ t, w.types[i]? = some t ∧ t.fullName = n ∧
      ∀ (j : Nat) t', i < j → w.types[j]? = some t' → t'.fullName ≠ n) ∧
    (w.getType n = none ↔ ∀ t ∈ w.types, t.fullName ≠ n) :=
  ⟨h.inv.getType_iff n, h.inv.getType_none n⟩

/-- **C35, never lost.** A name that resolves resolves ever after, to the same type or to a newer one of that name. -/
theorem C35_never_lost (cfg : Cfg) (w w' : World) (h : Reached cfg w) (hl : Later cfg w w') (n : Name) (i : Nat)
    (hg : w.getType n = some i) : ∃ j, w'.getType n = some j ∧ i ≤ j := by
  have hs := hl.steps h.inv
  have hi' := h.inv.steps hs
  obtain ⟨t, h1, h2, _⟩ := (h.inv.getType_iff n i).mp hg
  obtain ⟨t', h3, h4, _⟩ := hs.types.1 i t h1
  have hname : t'.fullName = n := by rw [h4.fullName, h2]
  cases hj : w'.getType n with
  | none => exact absurd hname ((hi'.getType_none n).mp hj t' (List.mem_of_getElem? h3))
  | some j =>
    refine ⟨j, rfl, ?_⟩
    obtain ⟨u, _, _, g⟩ := (hi'.getType_iff n j).mp hj
    rcases Nat.lt_or_ge j i with hlt | hge
    · exact absurd hname (g i t' hlt h3)
    · exact hge

/-- Loading the library a second time: the name now means the newer type. -/
example : Ex.coreWorld.getType "System.Int32".toList = some 10 ∧
    (loadData Cfg.debug Ex.noFiles 1 100 Ex.coreFile Ex.coreWorld).2.getType "System.Int32".toList = some 29 := by decide +kernel
example : Ex.coreWorld.getType "System.Int64[]".toList = none := by decide +kernel

/-! ## C36 -/

/-- A successful request for an array type, analysed. -/
theorem arrayType_cases {cfg : Cfg} {w w1 : World} (hi : Inv w) {e t : Nat} (h : arrayType cfg e w = (.ok t, w1)) :
    ∃ er, w.types[e]? = some er ∧
      ((w.getType (er.fullName ++ "[]".toList) = some t ∧ w1 = w) ∨
       (w.getType (er.fullName ++ "[]".toList) = none ∧ t = w.types.length ∧ Steps cfg w w1 ∧
        w1.types = w.types ++ [{ id := w.nextTypeId, name := er.name ++ "[]".toList, nspace := er.nspace,
                                 fullName := er.fullName ++ "[]".toList, assembly := er.assembly, isAbstract := false,
                                 kind := some .array, base := w.getType "System.Array".toList }])) := by
  unfold arrayType at h
  obtain ⟨er, w2, h1, h⟩ := M.bind_eq_ok.mp h
  simp only [M.view_run, Prod.mk.injEq] at h1
  obtain ⟨h1, rfl⟩ := h1
  rw [M.get_bind] at h
  refine ⟨er, typeAt_eq_ok.mp h1, ?_⟩
  cases hg : w.getType (er.fullName ++ "[]".toList) with
  | some t' =>
    rw [hg] at h
    simp only [M.pure_run, Prod.mk.injEq, Res.ok.injEq] at h
    exact .inl ⟨by rw [h.1], h.2.symm⟩
  | none =>
    rw [hg] at h
    dsimp only at h
    refine .inr ⟨rfl, ?_⟩
    by_cases hn : ∃ n, uadd cfg 32 w.nextTypeId 1 = .ok n
    · obtain ⟨n, hn⟩ := hn
      rw [M.bind_ok (nextTypeId_eq hn), M.get_bind, M.get_bind, M.modify_bind] at h
      simp only [M.pure_run, Prod.mk.injEq, Res.ok.injEq] at h
      obtain ⟨rfl, rfl⟩ := h
      refine ⟨rfl, .single ?_, rfl⟩
      exact .register w _ n rfl hn (fun b hb => hi.getType_lt hb) rfl rfl rfl
    · have := nextTypeId_fail (w := w) (cfg := cfg) (by simpa using hn)
      rw [M.bind_run, this] at h
      simp at h

/-- After a successful request the name of the array type resolves to the answer. -/
theorem arrayType_get {cfg : Cfg} {w w1 : World} (hi : Inv w) {e t : Nat} (h : arrayType cfg e w = (.ok t, w1)) :
    ∃ er, w.types[e]? = some er ∧ w1.types[e]? = some er ∧ w1.getType (er.fullName ++ "[]".toList) = some t ∧ Inv w1 := by
  obtain ⟨er, h1, ⟨h2, rfl⟩ | ⟨h2, rfl, hs, h3⟩⟩ := arrayType_cases hi h
  · exact ⟨er, h1, h1, h2, hi⟩
  · have hlt := (List.getElem?_eq_some_iff.mp h1).1
    refine ⟨er, h1, by rw [h3, List.getElem?_append_left hlt]; exact h1, ?_, hi.steps hs⟩
    refine ((hi.steps hs).getType_iff _ _).mpr ⟨_, by rw [h3]; exact List.getElem?_concat_length, rfl, ?_⟩
    intro j t' hj ht'
    have := (List.getElem?_eq_some_iff.mp ht').1
    rw [h3] at this
    simp at this; omega

/-- **C36.** Asking again gives the same type and changes nothing; at most one type is registered; the answer is named
after the element type. -/
theorem C36_same (cfg : Cfg) (w w1 : World) (h : Reached cfg w) (e t : Nat) (ht : arrayType cfg e w = (.ok t, w1)) :
    arrayType cfg e w1 = (.ok t, w1) ∧ w1.types.length ≤ w.types.length + 1 ∧
      ∃ er tr, w.types[e]? = some er ∧ w1.types[t]? = some tr ∧ tr.fullName = er.fullName ++ ['[', ']'] := by
  obtain ⟨er, h1, h2, h3, hi1⟩ := arrayType_get h.inv ht
  obtain ⟨tr, h4, h5, _⟩ := (hi1.getType_iff _ _).mp h3
  refine ⟨?_, ?_, er, tr, h1, h4, h5⟩
  · unfold arrayType
    rw [M.view_bind_ok (typeAt_eq_ok.mpr h2), M.get_bind, h3]
    rfl
  · obtain ⟨_, _, ⟨_, rfl⟩ | ⟨_, _, _, h3⟩⟩ := arrayType_cases h.inv ht
    · omega
    · rw [h3]; simp

/-- **C36, partial.** Element types of different names get different array types, at any two moments. Missing: distinct
element types that share their full name, which share the array type (`C36_refuted`). -/
theorem C36_distinct_partial (cfg : Cfg) (w w1 w2 w3 : World) (h : Reached cfg w) (e1 e2 t1 t2 : Nat)
    (h1 : arrayType cfg e1 w = (.ok t1, w1)) (hl : Later cfg w1 w2) (h2 : arrayType cfg e2 w2 = (.ok t2, w3))
    (a b : TypeRec) (ha : w.types[e1]? = some a) (hb : w2.types[e2]? = some b) (hne : a.fullName ≠ b.fullName) : t1 ≠ t2 := by
  rintro rfl
  have hw1 : Inv w1 := by have := (h.arrayOf e1).inv; rwa [h1] at this
  obtain ⟨-, -, er, tr, g1, g2, g3⟩ := C36_same cfg w w1 h e1 t1 h1
  rw [ha] at g1; cases g1
  have hs := hl.steps hw1
  have hw2 := hw1.steps hs
  obtain ⟨er', k1, k2, k3, hw3⟩ := arrayType_get hw2 h2
  rw [hb] at k1; cases k1
  obtain ⟨tr3, l1, l2, _⟩ := (hw3.getType_iff _ _).mp k3
  obtain ⟨tr2, m1, m2, _⟩ := hs.types.1 t1 tr g2
  have hs3 : Steps cfg w2 w3 := by have := (arrayType_run (cfg := cfg) e2 hw2).1; rwa [h2] at this
  obtain ⟨tr3', n1, n2, _⟩ := hs3.types.1 t1 tr2 m1
  rw [l1] at n1; cases n1
  have : a.fullName ++ ['[', ']'] = b.fullName ++ ['[', ']'] := by
    rw [← g3, ← m2.fullName, ← n2.fullName]; exact l2
  exact hne (List.append_cancel_right this)

/-- **C36, partial.** Unless a type was already registered under the array type's name, the answer is a new type of kind
array deriving from `System.Array`. Missing: a library type whose own name ends in `[]`. -/
theorem C36_kind_partial (cfg : Cfg) (w w1 : World) (h : Reached cfg w) (e t : Nat) (er : TypeRec)
    (ht : arrayType cfg e w = (.ok t, w1)) (he : w.types[e]? = some er)
    (hfresh : ∀ x ∈ w.types, x.fullName ≠ er.fullName ++ ['[', ']']) :
    ∃ tr, w1.types[t]? = some tr ∧ tr.kind = some .array ∧ tr.base = w.getType "System.Array".toList ∧
      w1.types.length = w.types.length + 1 := by
  obtain ⟨er', h1, ⟨h2, rfl⟩ | ⟨h2, rfl, hs, h3⟩⟩ := arrayType_cases h.inv ht
  · rw [he] at h1; cases h1
    have := (h.inv.getType_none _).mpr hfresh
    rw [show er.fullName ++ ['[', ']'] = er.fullName ++ "[]".toList from rfl, h2] at this
    simp at this
  · exact ⟨_, by rw [h3]; exact List.getElem?_concat_length, rfl, rfl, by rw [h3]; simp⟩

/-- **C36: refuted in general.** After loading a library twice, its two distinct types `System.Int32` (positions 10 and
29) have one array type between them. -/
theorem C36_refuted : ∃ (w : World) (a b t : Nat), Reached Cfg.debug w ∧ a ≠ b ∧ a < w.types.length ∧ b < w.types.length ∧
    (arrayType Cfg.debug a w).1 = .ok t ∧ (arrayType Cfg.debug b (arrayType Cfg.debug a w).2).1 = .ok t :=
  ⟨(loadData Cfg.debug Ex.noFiles 1 100 Ex.coreFile Ex.coreWorld).2, 10, 29, 38, .loadFile _ _ _ _ Ex.coreReached,
    by decide, by decide +kernel, by decide +kernel, by decide +kernel, by decide +kernel⟩

/-- Arrays of `int` and of `int[]`. -/
example : (arrayType Cfg.debug 10 Ex.coreWorld).1 = .ok 19 ∧ (arrayType Cfg.debug 19 Ex.someWorld).1 = .ok 20 ∧
    (arrayType Cfg.debug 10 Ex.someWorld).1 = .ok 19 := by decide +kernel

/-! ## C37 -/

/-- The type at the end of the base chain. -/
inductive RootOf (w : World) : Nat → Nat → Prop
  | root {t : Nat} {r : TypeRec} : w.types[t]? = some r → r.base = none → RootOf w t t
  | link {t b a : Nat} {r : TypeRec} : w.types[t]? = some r → r.base = some b → RootOf w b a → RootOf w t a

theorem mapM_typeAt {w : World} (is : List Nat) (h : ∀ j ∈ is, j < w.types.length) :
    ∃ rs, is.mapM w.typeAt = .ok rs ∧ ∀ n, (rs.any (fun r => decide (r.fullName = n)) = true ↔
      ∃ j ∈ is, ∃ r, w.types[j]? = some r ∧ r.fullName = n) := by
  induction is with
  | nil => exact ⟨[], rfl, by simp⟩
  | cons i is ih =>
    obtain ⟨rs, h1, h2⟩ := ih fun j hj => h j (by simp [hj])
    have hi := h i (by simp)
    have ht : w.typeAt i = .ok w.types[i] := typeAt_eq_ok.mpr (List.getElem?_eq_getElem hi)
    refine ⟨w.types[i] :: rs, ?_, fun n => ?_⟩
    · rw [List.mapM_cons, ht, Res.ok_bind, h1]; rfl
    · rw [List.any_cons, Bool.or_eq_true, h2]
      simp only [decide_eq_true_eq, List.mem_cons, exists_eq_or_imp, List.getElem?_eq_getElem hi, Option.some.injEq,
        exists_eq_left']

/-- What `instance_of` computes: some ancestor has the other type's full name, or the last ancestor lists an interface of
that name. -/
theorem instanceOf_eq {w : World} (hi : Inv w) {other : Nat} {o : TypeRec} (ho : w.types[other]? = some o) {t n : Nat}
    (hd : Depth w t n) : ∀ fuel, n < fuel → ∃ b, instanceOf w other fuel t = .ok b ∧ (b = true ↔
      (∃ a r, Ancestor w t a ∧ w.types[a]? = some r ∧ r.fullName = o.fullName) ∨
      (∃ a r j i, RootOf w t a ∧ w.types[a]? = some r ∧ j ∈ r.interfaces ∧ w.types[j]? = some i ∧ i.fullName = o.fullName)) := by
  induction hd with
  | @root t r ht hb =>
    intro fuel hf
    obtain ⟨fuel, rfl⟩ : ∃ k, fuel = k + 1 := ⟨fuel - 1, by omega⟩
    unfold instanceOf
    simp only [typeAt_eq_ok.mpr ht, typeAt_eq_ok.mpr ho, Res.ok_bind]
    by_cases he : r.fullName = o.fullName
    · exact ⟨true, by simp [he], by simp only [true_iff]; exact .inl ⟨t, r, .self t, ht, he⟩⟩
    · obtain ⟨rs, h1, h2⟩ := mapM_typeAt (w := w) r.interfaces (hi.ifaces t r ht)
      refine ⟨rs.any fun x => decide (x.fullName = o.fullName), ?_, ?_⟩
      · rw [if_neg he, hb]; simp only [h1, Res.ok_bind]; rfl
      · rw [h2]
        constructor
        · rintro ⟨j, hj, i, h3, h4⟩
          exact .inr ⟨t, r, j, i, .root ht hb, ht, hj, h3, h4⟩
        · rintro (⟨a, ra, ha, h3, h4⟩ | ⟨a, ra, j, i, ha, h3, hj, h4, h5⟩)
          · cases ha with
            | self => rw [ht] at h3; cases h3; exact absurd h4 he
            | base h5 h6 => rw [ht] at h5; cases h5; rw [hb] at h6; simp at h6
          · cases ha with
            | root h6 h7 => rw [ht] at h3; cases h3; exact ⟨j, hj, i, h4, h5⟩
            | link h6 h7 => rw [ht] at h6; cases h6; rw [hb] at h7; simp at h7
  | @link t b n r ht hb hdb ih =>
    intro fuel hf
    obtain ⟨fuel, rfl⟩ : ∃ k, fuel = k + 1 := ⟨fuel - 1, by omega⟩
    unfold instanceOf
    simp only [typeAt_eq_ok.mpr ht, typeAt_eq_ok.mpr ho, Res.ok_bind]
    by_cases he : r.fullName = o.fullName
    · exact ⟨true, by simp [he], by simp only [true_iff]; exact .inl ⟨t, r, .self t, ht, he⟩⟩
    · obtain ⟨v, h1, h2⟩ := ih fuel (by omega)
      refine ⟨v, by rw [if_neg he, hb]; exact h1, ?_⟩
      rw [h2]
      constructor
      · rintro (⟨a, ra, ha, h3, h4⟩ | ⟨a, ra, j, i, ha, h3, hj, h4, h5⟩)
        · exact .inl ⟨a, ra, .base ht hb ha, h3, h4⟩
        · exact .inr ⟨a, ra, j, i, .link ht hb ha, h3, hj, h4, h5⟩
      · rintro (⟨a, ra, ha, h3, h4⟩ | ⟨a, ra, j, i, ha, h3, hj, h4, h5⟩)
        · cases ha with
          | self => rw [ht] at h3; cases h3; exact absurd h4 he
          | base h5 h6 ha =>
            rw [ht] at h5; cases h5; rw [hb] at h6; cases h6
            exact .inl ⟨a, ra, ha, h3, h4⟩
        · cases ha with
          | root h6 h7 => rw [ht] at h6; cases h6; rw [hb] at h7; simp at h7
          | link h6 h7 ha =>
            rw [ht] at h6; cases h6; rw [hb] at h7; cases h7
            exact .inr ⟨a, ra, j, i, ha, h3, hj, h4, h5⟩

theorem RootOf.ancestor {w : World} {t a : Nat} (h : RootOf w t a) : Ancestor w t a := by
  induction h with
  | root => exact .self _
  | link h1 h2 _ ih => exact .base h1 h2 ih

/-- **C37, partial.** When the base chain of `t` ends (has `n` links) and no two types share a full name, `instance_of`
answers, and it answers `true` exactly for `t`, its ancestors, and the interfaces of its *last* ancestor; in particular
only for subtypes. Missing: interfaces of the type itself and of the ancestors before the last, which the code ignores
(`C37_refuted`); cyclic base chains. -/
theorem C37_partial (cfg : Cfg) (w : World) (h : Reached cfg w) (hd : DistinctNames w) (t u n : Nat) (hu : u < w.types.length)
    (hn : Depth w t n) : ∃ b, (∀ fuel, n < fuel → instanceOf w u fuel t = .ok b) ∧
      (b = true ↔ Ancestor w t u ∨ ∃ a r, RootOf w t a ∧ w.types[a]? = some r ∧ u ∈ r.interfaces) ∧
      (b = true → SubtypeOf w t u) := by
  have ho : w.types[u]? = some w.types[u] := List.getElem?_eq_getElem hu
  have hkey : ((∃ a r, Ancestor w t a ∧ w.types[a]? = some r ∧ r.fullName = w.types[u].fullName) ∨
      (∃ a r j i, RootOf w t a ∧ w.types[a]? = some r ∧ j ∈ r.interfaces ∧ w.types[j]? = some i ∧ i.fullName = w.types[u].fullName)) ↔
      (Ancestor w t u ∨ ∃ a r, RootOf w t a ∧ w.types[a]? = some r ∧ u ∈ r.interfaces) := by
    constructor
    · rintro (⟨a, r, h1, h2, h3⟩ | ⟨a, r, j, i, h1, h2, h3, h4, h5⟩)
      · have := hd a u r _ h2 ho h3; subst this; exact .inl h1
      · have := hd j u i _ h4 ho h5; subst this; exact .inr ⟨a, r, h1, h2, h3⟩
    · rintro (h1 | ⟨a, r, h1, h2, h3⟩)
      · exact .inl ⟨u, _, h1, ho, rfl⟩
      · exact .inr ⟨a, r, u, _, h1, h2, h3, ho, rfl⟩
  obtain ⟨b, -, hb⟩ := instanceOf_eq h.inv ho hn (n + 1) (by omega)
  refine ⟨b, fun fuel hf => ?_, hb.trans hkey, fun h1 => ?_⟩
  · obtain ⟨b', h1, h2⟩ := instanceOf_eq h.inv ho hn fuel hf
    rw [h1]
    congr 1
    exact Bool.eq_iff_iff.mpr (h2.trans hb.symm)
  · rcases (hb.trans hkey).mp h1 with h1 | ⟨a, r, h1, h2, h3⟩
    · exact .inl h1
    · exact .inr ⟨a, r, h1.ancestor, h2, h3⟩

/-- **C37, reflexivity and base classes**, without the assumption on names. -/
theorem C37_base_classes (cfg : Cfg) (w : World) (h : Reached cfg w) (t u n : Nat) (hn : Depth w t n) (ha : Ancestor w t u)
    (fuel : Nat) (hf : n < fuel) : instanceOf w u fuel t = .ok true := by
  have hu : ∃ r, w.types[u]? = some r := by
    clear hf
    induction ha generalizing n with
    | self => cases hn with
      | root h1 => exact ⟨_, h1⟩
      | link h1 => exact ⟨_, h1⟩
    | base h1 h2 _ ih =>
      cases hn with
      | root h3 h4 => rw [h1] at h3; cases h3; rw [h2] at h4; simp at h4
      | link h3 h4 h5 => rw [h1] at h3; cases h3; rw [h2] at h4; cases h4; exact ih _ h5
  obtain ⟨r, hr⟩ := hu
  obtain ⟨b, h1, h2⟩ := instanceOf_eq h.inv hr hn fuel hf
  rw [h1, h2.mpr (.inl ⟨u, r, ha, hr, rfl⟩)]

namespace Ex

def ifaceStrings : List String := ["lib", "System", "Object", "I", "C"]

/-- `System.Object`, an interface `I` and a class `C : Object, I`. -/
def ifaceAsm : Asm where
  strings := ifaceStrings
  tables :=
    [(0x02, [typeRow ifaceStrings 0 "System" "Object" 0 1 1, typeRow ifaceStrings 0xa0 "" "I" 0 1 1,
             typeRow ifaceStrings 0 "" "C" (defRow 1) 1 1]),
     (0x09, [[(2, 3), (2, defRow 2)]]),
     (0x20, [assemblyRow ifaceStrings "lib"])]

/-- The `size` chain is only consulted for fields, so this library needs no primitive types. -/
def ifaceWorld : World := (loadData Cfg.debug noFiles 1 100 ifaceAsm.file (loadData Cfg.debug noFiles 1 100 coreFile {}).2).2

theorem ifaceReached : Reached Cfg.debug ifaceWorld := .loadFile _ _ _ _ coreReached

end Ex

/-- **C37: refuted.** A loaded class that implements an interface is not an instance of it. -/
theorem C37_refuted : ∃ (w : World) (c i : Nat), Reached Cfg.debug w ∧ Implements w c i ∧ c < w.types.length ∧
    i < w.types.length ∧ instanceOf w i 100 c = .ok false := by
  refine ⟨Ex.ifaceWorld, 21, 20, Ex.ifaceReached, ?_, by decide +kernel, by decide +kernel, by decide +kernel⟩
  exact ⟨21, ⟨21, ['C'], [], ['C'], 1, false, some .cls, some 19, [], [], [20]⟩, .self _, by decide +kernel, by decide⟩

/-- The base chain `Int32 : ValueType : Object`, with two links, in a registry without duplicate names. -/
example : Depth Ex.coreWorld 10 2 ∧ instanceOf Ex.coreWorld 2 3 10 = .ok true ∧ instanceOf Ex.coreWorld 10 2 2 = .ok false := by
  refine ⟨?_, by decide +kernel, by decide +kernel⟩
  exact .link (r := ⟨10, "Int32".toList, "System".toList, "System.Int32".toList, 0, false, some .struct, some 2, [], [], []⟩)
    (by decide +kernel) rfl
    (.link (r := ⟨2, "ValueType".toList, "System".toList, "System.ValueType".toList, 0, false, some .cls, some 1, [], [], []⟩)
      (by decide +kernel) rfl
      (.root (r := ⟨1, "Object".toList, "System".toList, "System.Object".toList, 0, false, some .cls, none, [], [], []⟩)
        (by decide +kernel) rfl))

theorem distinctNames_of_nodup {w : World} (h : (w.types.map (·.fullName)).Nodup) : DistinctNames w := by
  intro i j a b ha hb e
  obtain ⟨hi, rfl⟩ := List.getElem?_eq_some_iff.mp ha
  obtain ⟨hj, rfl⟩ := List.getElem?_eq_some_iff.mp hb
  have hp := List.pairwise_iff_getElem.mp h
  rcases Nat.lt_trichotomy i j with hlt | heq | hgt
  · exact absurd (by rw [List.getElem_map, List.getElem_map]; exact e) (hp i j (by simpa using hi) (by simpa using hj) hlt)
  · exact heq
  · exact absurd (by rw [List.getElem_map, List.getElem_map]; exact e.symm) (hp j i (by simpa using hj) (by simpa using hi) hgt)

example : DistinctNames Ex.coreWorld := distinctNames_of_nodup (by decide +kernel)

end Clr
