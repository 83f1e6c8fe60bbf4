import Verif.Spec.Handlers
import Verif.Lemmas.Renamed
import Verif.Props.Spelling
/-! # C119: failures in protected regions are handled -/

namespace Clr
open Spec

variable {cfg : Cfg} {ops : FloatOps} {tf : Nat} {w : World} {m m' : MethodRec} {params : List Value} {φ : MethodRec → MethodRec}

/-- A method of the small registry with such a body. -/
def Ex.guarded (n : BitVec 32) : MethodRec := { meth [] 8 2 with impl := .il (guardedBody 15 8 n.toInt) }

/-- Full statement of C119, for the method that divides in a protected region: whatever the arguments, it returns the quotient or what the handler gives. -/
def C119_full (cfg : Cfg) : Prop :=
  ∀ n a b : BitVec 32, ∃ fuel, (hostExecute cfg Ex.floats 9 fuel (Ex.tiny [Ex.guarded n]) (Ex.guarded n) [.i32 a, .i32 b]).1 =
    .ok (.number (.i32 (guardedResult n a b)))

theorem Spec.Rehandled.matched (h : Rehandled m m') : Matched Spot m m' := by
  have h1 := h.1
  refine ⟨by rw [h1]; exact ⟨rfl, rfl, rfl, rfl⟩, ?_⟩
  rcases h.2 with h | ⟨b, cs, h, h'⟩
  · exact .inl ⟨h, fun _ _ e => ⟨e, rfl⟩⟩
  · exact .inr ⟨b, _, h, h', rfl, fun _ _ e e' => ⟨e'.trans e.symm, rfl⟩⟩

/-- **C119: handlers are ignored.** Protected regions and handlers can be added, changed and removed in any number of methods of any program, and it
ends as before, with the same result, error or panic, leaving the same objects. -/
theorem C119_ignored (hφ : ∀ m, Rehandled m (φ m)) (hm : Rehandled m m') :
    ((∃ fuel, (hostExecute cfg ops tf fuel w m params).1 ≠ .timeout) ↔
      ∃ fuel, (hostExecute cfg ops tf fuel (withMethods φ w) m' params).1 ≠ .timeout) ∧
    ∀ fuel fuel', (hostExecute cfg ops tf fuel w m params).1 ≠ .timeout →
      (hostExecute cfg ops tf fuel' (withMethods φ w) m' params).1 ≠ .timeout →
      hostExecute cfg ops tf fuel' (withMethods φ w) m' params =
        ((hostExecute cfg ops tf fuel w m params).1, leftWith φ (hostExecute cfg ops tf fuel w m params).2) :=
  hostExecute_concur hm.matched (loop_spot fun m => (hφ m).matched)

/-- Removes all handlers. -/
def Ex.unguard (m : MethodRec) : MethodRec :=
  match m.impl with
  | .il b => { m with impl := .il { b with clauses := [] } }
  | _ => m

theorem Ex.unguard_rehandles (m : MethodRec) : Rehandled m (unguard m) := by
  unfold unguard
  split
  · next b h => exact ⟨rfl, .inr ⟨b, [], h, rfl⟩⟩
  · exact ⟨rfl, .inl rfl⟩

/-- **C119 fails**, in debug and release builds: a division by zero in a protected region panics, and without a failure the region cannot be left. -/
theorem C119_refuted : ¬ C119_full cfg := by
  intro h
  obtain ⟨fuel, h⟩ := h 7 1 0
  have hp : ∀ b : Bool, (hostExecute ⟨b⟩ Ex.floats 9 9 (Ex.tiny [Ex.guarded 7]) (Ex.guarded 7) [.i32 1, .i32 0]).1 = .panic := by decide +kernel
  have hp := hp cfg.checks
  have he := (C115_method_partial (cfg := cfg) (ops := Ex.floats) (tf := 9) (w := Ex.tiny [Ex.guarded 7]) (m := Ex.guarded 7) (m' := Ex.guarded 7)
    (params := [.i32 1, .i32 0]) ⟨rfl, .inl rfl⟩).2 fuel 9 (by rw [h]; exact nofun) (by rw [hp]; exact nofun)
  rw [he, hp] at h
  cases h

/-- With and without its handler: a divisor of zero is a panic, and with other divisors the execution stops with an error where the region is left. -/
example : (∀ m, Rehandled m (Ex.unguard m)) ∧ Ex.unguard (Ex.guarded 7) ≠ Ex.guarded 7 ∧
    (hostExecute .debug Ex.floats 9 9 (Ex.tiny [Ex.guarded 7]) (Ex.guarded 7) [.i32 1, .i32 0]).1 = .panic ∧
    (hostExecute .debug Ex.floats 9 9 (Ex.tiny [Ex.guarded 7]) (Ex.unguard (Ex.guarded 7)) [.i32 1, .i32 0]).1 = .panic ∧
    (hostExecute .debug Ex.floats 9 9 (Ex.tiny [Ex.guarded 7]) (Ex.guarded 7) [.i32 6, .i32 2]).1 matches .ok (.err _) :=
  ⟨Ex.unguard_rehandles, by decide +kernel⟩

end Clr
