import Verif.Lemmas.Wider
import Verif.Lemmas.Asm
/-! # Loading and running never change what was loaded before (C95) -/

namespace Clr
open Spec

variable {cfg : Cfg} {w w' : World}

/-- **C95**: whatever is loaded afterwards, with or without success, and whatever runs afterwards, the types and assemblies that
were there are still there, unchanged and in the same places. -/
theorem C95 (h : Onward cfg w w') : w.types <+: w'.types ∧ w.assemblies <+: w'.assemblies := h.advanced.later.prefix

/-- **C95**, starting the runtime included. -/
theorem C95_later (h : Later cfg w w') : w.types <+: w'.types ∧ w.assemblies <+: w'.assemblies := h.prefix

/-- **C95**, for what is asked about types: sizes, kinds and subtypes are answered as before, and names that are known stay
known; they mean the same types as before or types added since. -/
theorem C95_answers (hw : Reached cfg w) (h : Onward cfg w w') :
    (∀ fuel t s, typeSize cfg w fuel t = .ok s → typeSize cfg w' fuel t = .ok s) ∧
    (∀ fuel t b, isReferenceType w fuel t = .ok b → isReferenceType w' fuel t = .ok b) ∧
    (∀ o fuel t b, instanceOf w o fuel t = .ok b → instanceOf w' o fuel t = .ok b) ∧
    ∀ n t, w.getType n = some t → ∃ t', w'.getType n = some t' ∧ (t' = t ∨ w.types.length ≤ t') := by
  have hx := h.advanced.later.wider hw
  refine ⟨fun _ _ _ => hx.typeSize_ok, fun _ _ _ => hx.isReferenceType_ok, fun o fuel t b hb => ?_, fun n t ht => ?_⟩
  · obtain ⟨r, hr⟩ := Wider.instanceOf_typeAt hb
    exact hx.instanceOf_ok hr (hx.typeAt_ok hr) rfl hb
  · obtain ⟨t', r, r', h1, -⟩ := hx.names n t ht
    refine ⟨t', h1, ?_⟩
    rcases (h.advanced.later.spared (Nat.le_refl _)).names n t' h1 with h2 | h2
    · rw [ht] at h2; cases h2; exact .inl rfl
    · exact .inr h2

/-- Loading the library a second time, and something that is no assembly after that: every type is there twice, and
`System.Int32` means the second one. -/
example : Onward .debug Ex.coreWorld (loadData .debug Ex.noFiles 1 100 [0x4d, 0x5a] (loadData .debug Ex.noFiles 1 100 Ex.coreFile Ex.coreWorld).2).2 ∧
    Reached .debug Ex.coreWorld ∧
    (loadData .debug Ex.noFiles 1 100 [0x4d, 0x5a] (loadData .debug Ex.noFiles 1 100 Ex.coreFile Ex.coreWorld).2).2.types.length =
      2 * Ex.coreWorld.types.length ∧ 10 < Ex.coreWorld.types.length ∧
    (match (loadData .debug Ex.noFiles 1 100 [0x4d, 0x5a] (loadData .debug Ex.noFiles 1 100 Ex.coreFile Ex.coreWorld).2).1 with
      | .ok _ => false
      | _ => true) = true ∧
    (Ex.coreWorld.getType "System.Int32".toList).map (· + Ex.coreWorld.types.length) =
      (loadData .debug Ex.noFiles 1 100 Ex.coreFile Ex.coreWorld).2.getType "System.Int32".toList :=
  ⟨.loadFile _ _ _ _ (.loadFile _ _ _ _ (.refl _)), .loadFile _ _ _ _ .start, by decide +kernel⟩

end Clr
