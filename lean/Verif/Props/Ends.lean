import Verif.Props.Cost
/-!
# Questions about the types of a registry that was loaded (C37, C79, C80)

The earlier theorems assume that base chains end and ask for enough stack. After loads that all returned the chains do end (C81),
and as many nested calls as there are types are enough.
-/

namespace Clr
open Spec

/-- **C37 for loaded registries, partial.** After loads that returned, with distinct full names and number types whose chains
end, `instance_of` answers within as many nested calls as there are types, and answers `true` exactly for the type, its
ancestors and the interfaces of its last ancestor. Missing: as in `C37_partial`, but cyclic base chains. -/
theorem C37_loaded_partial (cfg : Cfg) (w : World) (h : Survived cfg w) (hd : DistinctNames w)
    (hn : ∀ (t : Nat) r, w.types[t]? = some r → r.fullName ∈ numberNames → ChainEnds w t) (t u : Nat) (ht : t < w.types.length)
    (hu : u < w.types.length) : ∃ b, (∀ fuel ≥ w.types.length, instanceOf w u fuel t = .ok b) ∧
      (b = true ↔ Ancestor w t u ∨ ∃ a r, RootOf w t a ∧ w.types[a]? = some r ∧ u ∈ r.interfaces) ∧
      (b = true → SubtypeOf w t u) := by
  obtain ⟨n, hdep⟩ := C81_partial cfg w h hn t ht
  obtain ⟨b, h1, h2, h3⟩ := C37_partial cfg w (Survived.reached h) hd t u n hu hdep
  have hlt := depth_lt hdep
  exact ⟨b, fun fuel hf => h1 fuel (by omega), h2, h3⟩

/-- **C79 for loaded registries, partial.** Likewise value types are told from reference types. -/
theorem C79_loaded_partial (cfg : Cfg) (w : World) (h : Survived cfg w) (hd : DistinctNames w)
    (hn : ∀ (t : Nat) r, w.types[t]? = some r → r.fullName ∈ numberNames → ChainEnds w t) (v : Nat)
    (hv : w.getType "System.ValueType".toList = some v)
    (henum : ∀ (e : Nat) (er : TypeRec), w.types[e]? = some er → er.fullName = "System.Enum".toList → er.base = some v)
    (hs : ValueTypesSealed w) (hif : ∀ r ∈ w.types, v ∉ r.interfaces) (t : Nat) (tr : TypeRec) (ht : w.types[t]? = some tr)
    (hnv : tr.fullName ≠ "System.ValueType".toList) (hne : tr.fullName ≠ "System.Enum".toList) (fuel : Nat)
    (hf : w.types.length ≤ fuel) : ∃ b, isReferenceType w fuel t = .ok b ∧ (b = false ↔ IsValueType w t) := by
  obtain ⟨n, hdep⟩ := C81_partial cfg w h hn t (List.getElem?_eq_some_iff.1 ht).1
  have hlt := depth_lt hdep
  exact C79_partial cfg w (Survived.reached h) hd v hv henum hs hif t n tr ht hdep hnv hne fuel (by omega)

/-- **C80, fields, for loaded registries.** After loads that returned, with number types whose chains end, the fields of every
type are listed within as many nested calls as there are types: those of the type and of each of its ancestors, nearest first,
each type once. -/
theorem C80_fields_loaded (cfg : Cfg) (w : World) (h : Survived cfg w)
    (hn : ∀ (t : Nat) r, w.types[t]? = some r → r.fullName ∈ numberNames → ChainEnds w t) (t : Nat) (ht : t < w.types.length)
    (fuel : Nat) (hf : w.types.length ≤ fuel) : ∃ ts : List Nat, BaseChain w t ts ∧ (∀ s, s ∈ ts ↔ Ancestor w t s) ∧ ts.Nodup ∧
      ∃ rs : List TypeRec, rs.length = ts.length ∧ (∀ (i : Nat) s, ts[i]? = some s → w.types[s]? = rs[i]?) ∧
        allFields w fuel t = .ok (rs.map (·.fields)).flatten := by
  obtain ⟨n, hdep⟩ := C81_partial cfg w h hn t ht
  obtain ⟨ts, hts, -⟩ := chain_of_depth hdep
  have hl := chain_length hts
  exact ⟨ts, hts, C80_fields w t ts hts fuel (by omega)⟩

theorem concatMethods_split {rec : Nat → Res (List MethodRec)} : ∀ {as bs : List Nat} {ms : List MethodRec},
    concatMethods rec (as ++ bs) = .ok ms → ∃ xs ys, concatMethods rec as = .ok xs ∧ concatMethods rec bs = .ok ys ∧ ms = xs ++ ys
  | [], bs, ms, h => ⟨[], ms, rfl, h, rfl⟩
  | a :: as, bs, ms, h => by
    obtain ⟨x, h1, h⟩ := Res.bind_eq_ok.mp h
    obtain ⟨y, h2, h⟩ := Res.bind_eq_ok.mp h
    cases h
    obtain ⟨xs, ys, h3, h4, rfl⟩ := concatMethods_split h2
    exact ⟨x ++ xs, ys, by simp [concatMethods, h1, h3], h4, by simp⟩

/-- **C80, methods of interfaces reached on many paths.** Interfaces are not remembered: with two interfaces at each of `n`
levels, even the same two, no fewer than `2 ^ n` methods are listed. -/
theorem C80_doubled (w : World) (n t : Nat) (hd : Diamond w n t) (fuel : Nat) (ms : List MethodRec)
    (h : allMethods w fuel t = .ok ms) : 2 ^ n ≤ ms.length := by
  induction hd generalizing fuel ms with
  | zero ht hm =>
    cases fuel with
    | zero => cases h
    | succ fuel =>
      unfold allMethods at h
      rw [typeAt_eq_ok.mpr ht, Res.ok_bind] at h
      obtain ⟨bs, -, h⟩ := Res.bind_eq_ok.mp h
      obtain ⟨is, -, h⟩ := Res.bind_eq_ok.mp h
      cases h
      have := List.length_pos_of_ne_nil hm
      simp only [List.length_append, Nat.pow_zero]
      omega
  | succ ht hi _ _ ih1 ih2 =>
    cases fuel with
    | zero => cases h
    | succ fuel =>
      unfold allMethods at h
      rw [typeAt_eq_ok.mpr ht, Res.ok_bind] at h
      obtain ⟨bs, -, h⟩ := Res.bind_eq_ok.mp h
      obtain ⟨is, h1, h⟩ := Res.bind_eq_ok.mp h
      cases h
      rw [hi] at h1
      obtain ⟨xs, ys, h2, h3, rfl⟩ := concatMethods_split h1
      obtain ⟨xs1, xs2, -, h4, rfl⟩ := concatMethods_split h2
      obtain ⟨a, e1, h4⟩ := Res.bind_eq_ok.mp h4
      obtain ⟨a', -, h4⟩ := Res.bind_eq_ok.mp h4
      cases h4
      obtain ⟨b, e2, h3⟩ := Res.bind_eq_ok.mp h3
      obtain ⟨b', -, h3⟩ := Res.bind_eq_ok.mp h3
      cases h3
      have l1 := ih1 _ _ e1
      have l2 := ih2 _ _ e2
      simp only [List.length_append, Nat.pow_succ]
      omega

/-- The hypotheses can be met: the library of `Ex.layoutAsm`, where 19 is a struct and 1 is `System.Object`. -/
example : Survived .debug Ex.layoutWorld ∧ DistinctNames Ex.layoutWorld ∧
    (∀ (t : Nat) r, Ex.layoutWorld.types[t]? = some r → r.fullName ∈ numberNames → ChainEnds Ex.layoutWorld t) ∧
    Ex.layoutWorld.getType "System.ValueType".toList = some 2 ∧ ValueTypesSealed Ex.layoutWorld ∧
    (∀ r ∈ Ex.layoutWorld.types, 2 ∉ r.interfaces) ∧ IsValueType Ex.layoutWorld 19 ∧ ¬ IsValueType Ex.layoutWorld 16 ∧
    Ancestor Ex.layoutWorld 19 1 := by
  obtain ⟨k1, k2, -⟩ := Ex.layout_facts
  have k3 : (Ex.layoutWorld.types.map (·.fullName)).Nodup ∧ Ex.layoutWorld.getType "System.ValueType".toList = some 2 ∧
      (Ex.layoutWorld.types[19]?.map (·.base)) = some (some 2) ∧ (Ex.layoutWorld.types[2]?.map (·.base)) = some (some 1) := by
    decide +kernel
  obtain ⟨a, ha, ea⟩ := Option.map_eq_some_iff.1 k3.2.2.1
  obtain ⟨b, hb, eb⟩ := Option.map_eq_some_iff.1 k3.2.2.2
  refine ⟨Ex.layoutSurvived, distinctNames_of_nodup k3.1,
    fun t r ht _ => ends_of (fun t => t) k1 t (List.getElem?_eq_some_iff.1 ht).1, k3.2.1, sealed_of (by decide +kernel),
    fun r hr => by rw [k2 r hr]; simp, by decide +kernel, by decide +kernel, .base ha ea (.base hb eb (.self _))⟩

namespace Ex

/-- Interfaces `I` with a method `M`, `J : I, I` and `K : J, J`. -/
def pathsAsm : Asm where
  strings := diaStrings
  blobs := [[0x20, 0, 0x01]]
  tables :=
    [(0x01, [typeRefRow diaStrings "System" "Object"]),
     (0x02, [typeRow diaStrings 0xa0 "" "I" 0 1 1, typeRow diaStrings 0xa0 "" "J" 0 1 2,
             typeRow diaStrings 0xa0 "" "K" 0 1 2]),
     (0x06, [methodRow diaStrings 0 0 0x440 "M" 1 1]),
     (0x09, [[(2, 2), (2, defRow 1)], [(2, 2), (2, defRow 1)], [(2, 3), (2, defRow 2)], [(2, 3), (2, defRow 2)]]),
     (0x20, [assemblyRow diaStrings "lib"])]

def pathsWorld : World := (loadData .debug noFiles 1 100 pathsAsm.file coreWorld).2

end Ex

/-- C80, instance: `M` is listed four times as a method of `K`. -/
example : Diamond Ex.pathsWorld 2 21 ∧ Ex.holds (fun ms => decide (ms.map (·.name) = List.replicate 4 "M".toList))
    (allMethods Ex.pathsWorld 9 21) = true := by
  have h : (Ex.pathsWorld.types[19]?.map fun r => r.methods.length) = some 1 ∧
      (Ex.pathsWorld.types[20]?.map fun r => r.interfaces) = some [19, 19] ∧
      (Ex.pathsWorld.types[21]?.map fun r => r.interfaces) = some [20, 20] := by decide +kernel
  obtain ⟨a, ha, ea⟩ := Option.map_eq_some_iff.1 h.1
  obtain ⟨b, hb, eb⟩ := Option.map_eq_some_iff.1 h.2.1
  obtain ⟨c, hc, ec⟩ := Option.map_eq_some_iff.1 h.2.2
  have d0 : Diamond Ex.pathsWorld 0 19 := .zero ha fun e => by rw [e] at ea; cases ea
  have d1 : Diamond Ex.pathsWorld 1 20 := .succ (as := []) (bs := []) (cs := []) hb eb d0 d0
  exact ⟨.succ (as := []) (bs := []) (cs := []) hc ec d1 d1, by decide +kernel⟩

end Clr
