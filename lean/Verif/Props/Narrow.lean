import Verif.Spec.Narrow
import Verif.Lemmas.Renamed
import Verif.Props.Spelling
/-! # C120: variables of small integer types hold only values of their types -/

namespace Clr
open Spec

variable {cfg : Cfg} {ops : FloatOps} {tf : Nat} {w : World} {m m' : MethodRec} {params : List Value} {φ : MethodRec → MethodRec}

/-- The small integer types in the small registry. -/
def Ex.smallType : SmallInt → Nat
  | .i8 => 4
  | .u8 => 5
  | .i16 => 6
  | .u16 => 7

/-- A method that returns its argument by way of a variable of the given type. -/
def Ex.through (t : Nat) : MethodRec :=
  { meth [] 8 1 with impl := .il { code := throughLocal, maxStack := 1, locals := [t], initLocals := true, clauses := [] } }

/-- Full statement of C120, for the method that returns its argument by way of a variable: it returns what the variable can hold of it. -/
def C120_full (cfg : Cfg) : Prop :=
  ∀ (t : SmallInt) (a : BitVec 32), ∃ fuel,
    (hostExecute cfg Ex.floats 9 fuel (Ex.tiny [Ex.through (Ex.smallType t)]) (Ex.through (Ex.smallType t)) [.i32 a]).1 = .ok (.number (.i32 (t.hold a)))

set_option maxHeartbeats 1000000 in
/-- The method returns its argument as it is, whatever the type of the variable. -/
theorem through_returns (t : Nat) (a : BitVec 32) :
    (hostExecute cfg ops 9 9 (Ex.tiny [Ex.through t]) (Ex.through t) [.i32 a]).1 = .ok (.number (.i32 a)) := by
  rcases cfg with ⟨b⟩
  cases b <;> rfl

/-- **C120 for values of the type**: they are not changed by variables of the type. -/
theorem C120_partial (t : SmallInt) (a : BitVec 32) (h : t.hold a = a) :
    ∃ fuel, (hostExecute cfg ops 9 fuel (Ex.tiny [Ex.through (Ex.smallType t)]) (Ex.through (Ex.smallType t)) [.i32 a]).1 =
      .ok (.number (.i32 (t.hold a))) :=
  ⟨9, by rw [h]; exact through_returns _ a⟩

/-- Values of the types: -3 for the signed types, 200 and 65000 for the unsigned ones. -/
example : SmallInt.i8.hold (-3) = -3 ∧ SmallInt.u8.hold 200 = 200 ∧ SmallInt.i16.hold (-3) = -3 ∧ SmallInt.u16.hold 65000 = 65000 := by decide

theorem Spec.Redeclared.matched (h : Redeclared m m') : Matched Spot m m' := by
  obtain ⟨⟨h1, h2, h3, h4⟩, h⟩ := h
  refine ⟨⟨h1, h2, h4, h3⟩, ?_⟩
  rcases h with h | ⟨b, b', h, h', hc, hl⟩
  · exact .inl ⟨h, fun _ _ e => ⟨e, rfl⟩⟩
  · exact .inr ⟨b, b', h, h', hl.symm, fun _ _ e e' => ⟨by rw [e', hc, e], rfl⟩⟩

/-- **C120: only the number of variables matters.** The declared types of variables and parameters, the greatest depth of the operand stack,
handlers, names and flags can be changed in any number of methods of any program, and it ends as before, with the same result, error
or panic, leaving the same objects. -/
theorem C120_ignored (hφ : ∀ m, Redeclared m (φ m)) (hm : Redeclared m m') :
    ((∃ fuel, (hostExecute cfg ops tf fuel w m params).1 ≠ .timeout) ↔
      ∃ fuel, (hostExecute cfg ops tf fuel (withMethods φ w) m' params).1 ≠ .timeout) ∧
    ∀ fuel fuel', (hostExecute cfg ops tf fuel w m params).1 ≠ .timeout →
      (hostExecute cfg ops tf fuel' (withMethods φ w) m' params).1 ≠ .timeout →
      hostExecute cfg ops tf fuel' (withMethods φ w) m' params =
        ((hostExecute cfg ops tf fuel w m params).1, leftWith φ (hostExecute cfg ops tf fuel w m params).2) :=
  hostExecute_concur hm.matched (loop_spot fun m => (hφ m).matched)

/-- **C120 fails**, in debug and release builds: a variable of type `sbyte` holds 300. -/
theorem C120_refuted : ¬ C120_full cfg := by
  intro h
  obtain ⟨fuel, h⟩ := h .i8 300
  have hp := through_returns (cfg := cfg) (ops := Ex.floats) 4 300
  have he := (C115_method_partial (cfg := cfg) (ops := Ex.floats) (tf := 9) (w := Ex.tiny [Ex.through 4]) (m := Ex.through 4) (m' := Ex.through 4)
    (params := [.i32 300]) ⟨rfl, .inl rfl⟩).2 fuel 9 (by rw [show Ex.through 4 = Ex.through (Ex.smallType .i8) from rfl, h]; exact nofun) (by rw [hp]; exact nofun)
  rw [show Ex.through (Ex.smallType .i8) = Ex.through 4 from rfl, he, hp] at h
  exact absurd h (by decide)

/-- Makes all variables `sbyte` and all parameters `bool`, and allows no operand. -/
def Ex.redeclare (m : MethodRec) : MethodRec :=
  { m with
    params := m.params.map fun p => { p with paramType := 2 }
    impl := match m.impl with
      | .il b => .il { b with locals := b.locals.map fun _ => 4, maxStack := 0 }
      | x => x }

theorem Ex.redeclare_redeclares (m : MethodRec) : Redeclared m (redeclare m) := by
  refine ⟨⟨rfl, rfl, rfl, by simp [redeclare]⟩, ?_⟩
  unfold redeclare
  dsimp only
  split
  · next b h => exact .inr ⟨b, _, h, rfl, rfl, by simp⟩
  · exact .inl rfl

/-- A program with a call and variables of type `int`, and with all variables of type `sbyte`. -/
example : (∀ m, Redeclared m (Ex.redeclare m)) ∧ withMethods Ex.redeclare (Ex.tiny [Ex.sumS, Ex.caller]) ≠ Ex.tiny [Ex.sumS, Ex.caller] ∧
    (hostExecute .debug Ex.floats 9 60 (Ex.tiny [Ex.sumS, Ex.caller]) Ex.caller [.i32 3]).1 = .ok (.number (.i32 12)) ∧
    (hostExecute .debug Ex.floats 9 60 (withMethods Ex.redeclare (Ex.tiny [Ex.sumS, Ex.caller])) (Ex.redeclare Ex.caller) [.i32 3]).1 =
      .ok (.number (.i32 12)) :=
  ⟨Ex.redeclare_redeclares, by decide +kernel⟩

end Clr
