import Verif.Lemmas.Acyclic
import Verif.Props.Kinds
/-! # C81: base chains end -/

namespace Clr
open Spec

theorem Survived.reached {cfg : Cfg} {w : World} (h : Survived cfg w) : Reached cfg w := by
  induction h with
  | start => exact .start
  | runtime fs d f a b _ _ ih => exact .runtime fs d f a b ih
  | loadFile fs d f data _ _ ih => exact .loadFile fs d f data ih
  | loadName fs d f n _ _ ih => exact .loadName fs d f n ih
  | arrayOf t _ ih => exact .arrayOf t ih
  | write s _ ih => exact .write s ih

theorem survived_sound {cfg : Cfg} {w : World} (h : Survived cfg w) : Sound {} w := by
  induction h with
  | start => exact .refl _
  | runtime fs d f a b h hr ih => exact ih.trans (Survived.reached h).inv (newRuntime_act _ _ _ _ _ _ (Survived.reached h).inv hr)
  | loadFile fs d f data h hr ih => exact ih.trans (Survived.reached h).inv (loadData_act _ _ _ _ _ (Survived.reached h).inv hr)
  | loadName fs d f n h hr ih => exact ih.trans (Survived.reached h).inv (loadAssembly_act _ _ _ _ _ (Survived.reached h).inv hr)
  | arrayOf t h ih => exact ih.trans (Survived.reached h).inv ((arrayType_grow t _).basesKept.sound (Survived.reached h).inv)
  | write s h ih =>
    refine ih.trans (Survived.reached h).inv (BasesKept.sound (Survived.reached h).inv ?_)
    exact .of_types rfl rfl

/-- **C81, partial.** As long as every call returns, with a result or an error, the chain of base classes of every registered
type ends, if those of the built-in number types do.

Missing: circles through types that bear the name of a number type, whose base is never looked at (`C81_refuted`). -/
theorem C81_partial (cfg : Cfg) (w : World) (h : Survived cfg w)
    (hn : ∀ (t : Nat) r, w.types[t]? = some r → r.fullName ∈ numberNames → ChainEnds w t) (t : Nat) (ht : t < w.types.length) :
    ChainEnds w t :=
  (survived_sound h).ends hn (fun t ht => absurd ht (Nat.not_lt_zero t)) t ht

/-- **C81, instance tests.** Under the same assumptions every instance test answers, given enough stack. -/
theorem C81_answers (cfg : Cfg) (w : World) (h : Survived cfg w)
    (hn : ∀ (t : Nat) r, w.types[t]? = some r → r.fullName ∈ numberNames → ChainEnds w t) (t u : Nat) (ht : t < w.types.length)
    (hu : u < w.types.length) : ∃ n b, ∀ fuel, n < fuel → instanceOf w u fuel t = .ok b := by
  obtain ⟨n, hd⟩ := C81_partial cfg w h hn t ht
  obtain ⟨b, h1, -⟩ := instanceOf_eq (Survived.reached h).inv (List.getElem?_eq_getElem hu) hd (n + 1) (by omega)
  refine ⟨n, b, fun fuel hf => ?_⟩
  obtain ⟨b', h2, h3⟩ := instanceOf_eq (Survived.reached h).inv (List.getElem?_eq_getElem hu) hd fuel hf
  obtain ⟨b'', h4, h5⟩ := instanceOf_eq (Survived.reached h).inv (List.getElem?_eq_getElem hu) hd (n + 1) (by omega)
  rw [h1] at h4; cases h4
  rw [h2]
  have : b' = b := by
    rw [Bool.eq_iff_iff, h3, h5]
  rw [this]

namespace Ex

def ringStrings : List String := ["lib", "System", "Int32", "B"]

/-- `class System.Int32 : B` and `class B : System.Int32`. -/
def ringAsm : Asm where
  strings := ringStrings
  tables :=
    [(0x02, [typeRow ringStrings 0 "System" "Int32" (defRow 2) 1 1, typeRow ringStrings 0 "" "B" (defRow 1) 1 1]),
     (0x20, [assemblyRow ringStrings "lib"])]

def ringLoad : Res AssemblyRec × World := loadData .debug noFiles 1 100 ringAsm.file coreWorld

end Ex

theorem returned_of_holds {α : Type} {p : α → Bool} {x : Res α} (h : Ex.holds p x = true) : Returned x := by
  cases x <;> first | exact .ok _ | exact .err _ | cases h

theorem Ex.coreReturned : Ex.holds (fun _ => true) (loadData Cfg.debug Ex.noFiles 1 100 Ex.coreFile {}).1 = true := by
  decide +kernel

theorem Ex.coreSurvived : Survived .debug Ex.coreWorld :=
  .loadFile Ex.noFiles 1 100 Ex.coreFile .start (returned_of_holds Ex.coreReturned)

theorem ends_of {w : World} (rank : Nat → Nat)
    (h : ∀ t, t < w.types.length → ∀ r ∈ w.types[t]?, ∀ b ∈ r.base, b < w.types.length ∧ rank b < rank t) :
    ∀ t, t < w.types.length → ChainEnds w t := by
  suffices ∀ n t, rank t < n → t < w.types.length → ChainEnds w t from fun t ht => this (rank t + 1) t (by omega) ht
  intro n
  induction n with
  | zero => intro t h; omega
  | succ n ih =>
    intro t hr ht
    have htr := List.getElem?_eq_getElem ht
    cases hb : (w.types[t]'ht).base with
    | none => exact ⟨0, .root htr hb⟩
    | some b =>
      obtain ⟨h1, h2⟩ := h t ht _ htr b hb
      obtain ⟨k, hk⟩ := ih b (by omega) h1
      exact ⟨k + 1, .link htr hb hk⟩

/-- The core library meets the assumptions; the chain of `System.Int32` has two links. -/
example : Survived .debug Ex.coreWorld ∧ (∀ (t : Nat) r, Ex.coreWorld.types[t]? = some r → r.fullName ∈ numberNames →
    ChainEnds Ex.coreWorld t) ∧ 10 < Ex.coreWorld.types.length := by
  refine ⟨Ex.coreSurvived, fun t r ht _ => ?_, by decide +kernel⟩
  exact ends_of (fun t => if t = 1 then 0 else if t = 2 then 1 else 2) (by decide +kernel) t (List.getElem?_eq_some_iff.1 ht).1

/-- **C81 fails for circles through the name of a number type.** A library with `class System.Int32 : B` and
`class B : System.Int32` loads; asking whether `B` is a `System.Object` never ends. -/
theorem C81_refuted :
    Ex.holds (fun a => decide (a.types = [19, 20])) Ex.ringLoad.1 = true ∧
    ¬ ChainEnds Ex.ringLoad.2 20 ∧ ∀ fuel, instanceOf Ex.ringLoad.2 1 fuel 20 = .timeout := by
  have h : (Ex.ringLoad.2.types[19]?.map fun r => (r.base, r.fullName)) = some (some 20, "System.Int32".toList) ∧
      (Ex.ringLoad.2.types[20]?.map fun r => (r.base, r.fullName)) = some (some 19, "B".toList) ∧
      (Ex.ringLoad.2.types[1]?.map fun r => r.fullName) = some "System.Object".toList := by decide +kernel
  obtain ⟨h1, h2, h3⟩ := h
  obtain ⟨k, hk, ek⟩ := Option.map_eq_some_iff.1 h1
  obtain ⟨l, hl, el⟩ := Option.map_eq_some_iff.1 h2
  obtain ⟨o, ho, eo⟩ := Option.map_eq_some_iff.1 h3
  simp only [Prod.mk.injEq] at ek el
  refine ⟨by decide +kernel, ?_, ?_⟩
  · have no : ∀ n, ¬ Depth Ex.ringLoad.2 19 n ∧ ¬ Depth Ex.ringLoad.2 20 n := by
      intro n
      induction n with
      | zero =>
        constructor
        · intro h; cases h with
          | root g1 g2 => rw [hk] at g1; cases g1; rw [ek.1] at g2; cases g2
        · intro h; cases h with
          | root g1 g2 => rw [hl] at g1; cases g1; rw [el.1] at g2; cases g2
      | succ n ih =>
        constructor
        · intro h; cases h with
          | link g1 g2 g3 => rw [hk] at g1; cases g1; rw [ek.1] at g2; cases g2; exact ih.2 g3
        · intro h; cases h with
          | link g1 g2 g3 => rw [hl] at g1; cases g1; rw [el.1] at g2; cases g2; exact ih.1 g3
    rintro ⟨n, h⟩
    exact (no n).2 h
  · have no : ∀ fuel, instanceOf Ex.ringLoad.2 1 fuel 19 = .timeout ∧ instanceOf Ex.ringLoad.2 1 fuel 20 = .timeout := by
      intro fuel
      induction fuel with
      | zero => exact ⟨rfl, rfl⟩
      | succ fuel ih =>
        constructor
        · unfold instanceOf
          rw [typeAt_eq_ok.mpr hk, Res.ok_bind, typeAt_eq_ok.mpr ho, Res.ok_bind, ek.1, ek.2, eo]
          rw [if_neg (by decide)]
          exact ih.2
        · unfold instanceOf
          rw [typeAt_eq_ok.mpr hl, Res.ok_bind, typeAt_eq_ok.mpr ho, Res.ok_bind, el.1, el.2, eo]
          rw [if_neg (by decide)]
          exact ih.1
    exact fun fuel => (no fuel).2

end Clr
