import Verif.Lemmas.Spelling
import Verif.Lemmas.Tiny
import Verif.Props.Arith
/-! # C115: what a program does does not depend on how it is spelled -/

namespace Clr
open Spec

variable {cfg : Cfg} {ops : FloatOps} {tf : Nat} {w : World} {m m' : MethodRec} {params : List Value}

/-- What an execution leaves behind, with `φ m` in place of every method `m`. -/
def Spec.leftWith (φ : MethodRec → MethodRec) (v : VM) : VM := { v with world := withMethods φ v.world }

/-- **C115**: if a program ends, then so does every other spelling of it, and conversely; and then the result is the same, and
so is what is left of the registry, of the host's parameters and of the objects. -/
def Spec.SpellingDoesNotMatter (ok : Bytes → Prop) : Prop :=
  ∀ (cfg : Cfg) (ops : FloatOps) (tf : Nat) (w : World) (m m' : MethodRec) (params : List Value) (φ : MethodRec → MethodRec),
    (∀ m, Respelled ok m (φ m)) → Respelled ok m m' →
    ((∃ fuel, (hostExecute cfg ops tf fuel w m params).1 ≠ .timeout) ↔
      ∃ fuel, (hostExecute cfg ops tf fuel (withMethods φ w) m' params).1 ≠ .timeout) ∧
    ∀ fuel fuel', (hostExecute cfg ops tf fuel w m params).1 ≠ .timeout →
      (hostExecute cfg ops tf fuel' (withMethods φ w) m' params).1 ≠ .timeout →
      hostExecute cfg ops tf fuel' (withMethods φ w) m' params =
        ((hostExecute cfg ops tf fuel w m params).1, leftWith φ (hostExecute cfg ops tf fuel w m params).2)

/-- **C115, partial**: for spellings without the two-byte forms of `ldarg` and `starg`. Any number of methods may be respelled
at once. Missing are the two-byte forms, for which the claim fails (`C115_refuted`), instructions that are not implemented
(the message names their address), and control flow that leaves the lines of the program. -/
theorem C115_partial : SpellingDoesNotMatter fun l => ¬ Wide l := by
  intro cfg ops tf w m m' params φ hφ hm
  exact hostExecute_concur hm.matched (loop_concur (fun _ h => h) hφ)

theorem withMethods_id (w : World) : withMethods id w = w := by
  cases w
  simp [withMethods]

/-- **C115, one method, partial**: with the same registry, two spellings of the executed method do the same. -/
theorem C115_method_partial (hm : Respelled (fun l => ¬ Wide l) m m') :
    ((∃ fuel, (hostExecute cfg ops tf fuel w m params).1 ≠ .timeout) ↔ ∃ fuel, (hostExecute cfg ops tf fuel w m' params).1 ≠ .timeout) ∧
    ∀ fuel fuel', (hostExecute cfg ops tf fuel w m params).1 ≠ .timeout → (hostExecute cfg ops tf fuel' w m' params).1 ≠ .timeout →
      hostExecute cfg ops tf fuel w m params = hostExecute cfg ops tf fuel' w m' params := by
  have h := C115_partial cfg ops tf w m m' params id (fun _ => ⟨rfl, .inl rfl⟩) hm
  rw [withMethods_id] at h
  refine ⟨h.1, fun fuel fuel' h1 h2 => ?_⟩
  rw [h.2 fuel fuel' h1 h2]
  unfold leftWith
  rw [withMethods_id]

/-! ## A program in two spellings -/

instance (code : Bytes) (a b : Nat) : Decidable (Nops code a b) :=
  decidable_of_iff (a ≤ b ∧ ∀ q, q < b → a ≤ q → code[q]? = some 0)
    ⟨fun h => ⟨h.1, fun q h1 h2 => h.2 q h2 h1⟩, fun h => ⟨h.1, fun q h1 h2 => h.2 q h2 h1⟩⟩

/-- The sum of the numbers from 1 to the argument. -/
def Ex.sumLines : List Line := [.const 0, .store .loc 0, .load .loc 0, .load .arg 0, .other ⟨"add", [0x58], .none⟩ [],
  .store .loc 0, .load .arg 0, .const 1, .other ⟨"sub", [0x59], .none⟩ [], .store .arg 0,
  .load .arg 0, .test .brtrue 2, .load .loc 0, .other ⟨"ret", [0x2a], .none⟩ []]

/-- The shortest spelling. -/
def Ex.sumShort : Bytes := [0x16, 0x0a, 0x06, 0x02, 0x58, 0x0a, 0x02, 0x17, 0x59, 0x10, 0x00, 0x02, 0x2d, 0xf4, 0x06, 0x2a]

/-- A spelling with long forms and with `nop`s. -/
def Ex.sumLong : Bytes :=
  [0x00, 0x20, 0x00, 0x00, 0x00, 0x00, 0x13, 0x00, 0x00, 0x11, 0x00, 0x02, 0x58, 0xfe, 0x0e, 0x00, 0x00, 0x0e, 0x00, 0x1f, 0x01, 0x00, 0x59, 0x10, 0x00, 0x02, 0x3a, 0xe9, 0xff, 0xff, 0xff, 0xfe, 0x0c, 0x00, 0x00, 0x2a]

theorem Ex.sum_short : Spelling (fun l => ¬ Wide l) sumLines sumShort fun k => ([0, 1, 2, 3, 4, 5, 6, 7, 8, 9, 11, 12, 14, 15] : List Nat)[k]?.getD 0 where
  starts := by decide
  line := by
    intro k l h
    rcases k with _ | _ | _ | _ | _ | _ | _ | _ | _ | _ | _ | _ | _ | _ | k
    all_goals cases h
    · exact ⟨[0x16], by decide, .const (by decide), fun _ => by decide, by intro t h; cases h⟩
    · exact ⟨[0x0a], by decide, .store (by decide) (by decide), fun _ => by decide, by intro t h; cases h⟩
    · exact ⟨[0x06], by decide, .load (by decide) (by decide), fun _ => by decide, by intro t h; cases h⟩
    · exact ⟨[0x02], by decide, .load (by decide) (by decide), fun _ => by decide, by intro t h; cases h⟩
    · exact ⟨[0x58], by decide, .other (by decide) (by decide) (by decide) rfl (by decide), fun _ => by decide, by intro t h; cases h⟩
    · exact ⟨[0x0a], by decide, .store (by decide) (by decide), fun _ => by decide, by intro t h; cases h⟩
    · exact ⟨[0x02], by decide, .load (by decide) (by decide), fun _ => by decide, by intro t h; cases h⟩
    · exact ⟨[0x17], by decide, .const (by decide), fun _ => by decide, by intro t h; cases h⟩
    · exact ⟨[0x59], by decide, .other (by decide) (by decide) (by decide) rfl (by decide), fun _ => by decide, by intro t h; cases h⟩
    · exact ⟨[0x10, 0x00], by decide, .store (by decide) (by decide), fun _ => by decide, by intro t h; cases h⟩
    · exact ⟨[0x02], by decide, .load (by decide) (by decide), fun _ => by decide, by intro t h; cases h⟩
    · exact ⟨[0x2d, 0xf4], by decide, .test (f := .short) (d := -12) ⟨by decide, 2, by decide, by decide⟩, fun _ => by decide, by intro t h; cases h; decide⟩
    · exact ⟨[0x06], by decide, .load (by decide) (by decide), fun _ => by decide, by intro t h; cases h⟩
    · exact ⟨[0x2a], by decide, .other (by decide) (by decide) (by decide) rfl (by decide), fun h => absurd rfl h, by intro t h; cases h⟩

theorem Ex.sum_long : Spelling (fun l => ¬ Wide l) sumLines sumLong fun k => ([1, 6, 9, 11, 12, 13, 17, 19, 22, 23, 25, 26, 31, 35] : List Nat)[k]?.getD 0 where
  starts := by decide
  line := by
    intro k l h
    rcases k with _ | _ | _ | _ | _ | _ | _ | _ | _ | _ | _ | _ | _ | _ | k
    all_goals cases h
    · exact ⟨[0x20, 0x00, 0x00, 0x00, 0x00], by decide, .const (by decide), fun _ => by decide, by intro t h; cases h⟩
    · exact ⟨[0x13, 0x00], by decide, .store (by decide) (by decide), fun _ => by decide, by intro t h; cases h⟩
    · exact ⟨[0x11, 0x00], by decide, .load (by decide) (by decide), fun _ => by decide, by intro t h; cases h⟩
    · exact ⟨[0x02], by decide, .load (by decide) (by decide), fun _ => by decide, by intro t h; cases h⟩
    · exact ⟨[0x58], by decide, .other (by decide) (by decide) (by decide) rfl (by decide), fun _ => by decide, by intro t h; cases h⟩
    · exact ⟨[0xfe, 0x0e, 0x00, 0x00], by decide, .store (by decide) (by decide), fun _ => by decide, by intro t h; cases h⟩
    · exact ⟨[0x0e, 0x00], by decide, .load (by decide) (by decide), fun _ => by decide, by intro t h; cases h⟩
    · exact ⟨[0x1f, 0x01], by decide, .const (by decide), fun _ => by decide, by intro t h; cases h⟩
    · exact ⟨[0x59], by decide, .other (by decide) (by decide) (by decide) rfl (by decide), fun _ => by decide, by intro t h; cases h⟩
    · exact ⟨[0x10, 0x00], by decide, .store (by decide) (by decide), fun _ => by decide, by intro t h; cases h⟩
    · exact ⟨[0x02], by decide, .load (by decide) (by decide), fun _ => by decide, by intro t h; cases h⟩
    · exact ⟨[0x3a, 0xe9, 0xff, 0xff, 0xff], by decide, .test (f := .long) (d := -23) ⟨by decide, 8, by decide, by decide⟩, fun _ => by decide, by intro t h; cases h; decide⟩
    · exact ⟨[0xfe, 0x0c, 0x00, 0x00], by decide, .load (by decide) (by decide), fun _ => by decide, by intro t h; cases h⟩
    · exact ⟨[0x2a], by decide, .other (by decide) (by decide) (by decide) rfl (by decide), fun h => absurd rfl h, by intro t h; cases h⟩

/-- The method in its two spellings. -/
def Ex.sumS : MethodRec := meth sumShort 8 1 1
def Ex.sumL : MethodRec := meth sumLong 8 1 1

theorem Ex.sum_respelled : Respelled (fun l => ¬ Wide l) sumS sumL :=
  ⟨rfl, .inr ⟨_, _, rfl, rfl, rfl, by decide, by decide, sumLines, _, _, sum_short, sum_long⟩⟩

/-- Puts the one spelling in place of the other. -/
def Ex.respell (m : MethodRec) : MethodRec := if m = sumS then sumL else m

theorem Ex.respell_spells (m : MethodRec) : Respelled (fun l => ¬ Wide l) m (respell m) := by
  unfold respell
  split
  · subst_vars; exact sum_respelled
  · exact ⟨rfl, .inl rfl⟩

/-- Doubles what the first method gives: `ldarg.0; call 0x06000001; dup; add; ret`. -/
def Ex.caller : MethodRec := meth [0x02, 0x28, 0x01, 0x00, 0x00, 0x06, 0x25, 0x58, 0x2a] 8 1

/-- The program ends, with the same result in both spellings, after different numbers of steps. -/
example : (∀ m, Respelled (fun l => ¬ Wide l) m (Ex.respell m)) ∧ Respelled (fun l => ¬ Wide l) Ex.caller Ex.caller ∧
    (hostExecute .debug Ex.floats 9 60 (Ex.tiny [Ex.sumS, Ex.caller]) Ex.caller [.i32 3]).1 = .ok (.number (.i32 12)) ∧
    (hostExecute .debug Ex.floats 9 60 (withMethods Ex.respell (Ex.tiny [Ex.sumS, Ex.caller])) Ex.caller [.i32 3]).1 =
      .ok (.number (.i32 12)) ∧
    (hostExecute .debug Ex.floats 9 37 (Ex.tiny [Ex.sumS, Ex.caller]) Ex.caller [.i32 3]).1 = .ok (.number (.i32 12)) ∧
    (hostExecute .debug Ex.floats 9 37 (withMethods Ex.respell (Ex.tiny [Ex.sumS, Ex.caller])) Ex.caller [.i32 3]).1 = .timeout :=
  ⟨Ex.respell_spells, ⟨rfl, .inl rfl⟩, by decide +kernel⟩

/-- **C115 fails if every encoding is allowed**: `ldarg.0; ret` returns the argument, but `ldarg 0; ret` in the two-byte form stops
the program, since the operand is read as four bytes. -/
theorem C115_refuted : ¬ SpellingDoesNotMatter fun _ => True := by
  intro h
  have hs : ∀ c : Bytes, c ∈ Var.arg.loads 0 → Spelling (fun _ => True) [.load .arg 0, .other ⟨"ret", [0x2a], .none⟩ []] (c ++ [0x2a])
      fun k => if k = 0 then 0 else c.length := by
    intro c hc
    refine ⟨⟨by decide, Nat.zero_le _, fun q _ h => absurd h (by simp)⟩, fun k l hl => ?_⟩
    rcases k with _ | _ | k
    · cases hl
      exact ⟨c, ⟨_, rfl⟩, .load hc trivial, fun _ => ⟨by decide, by simp [Nops]; omega⟩, fun _ h => by cases h⟩
    · cases hl
      exact ⟨[0x2a], by simp [HasAt], .other (by decide) (by decide) (by decide) rfl trivial, fun h => absurd rfl h, fun _ h => by cases h⟩
    · cases hl
  have hr : Respelled (fun _ => True) (Ex.meth [0x02, 0x2a] 8 1) (Ex.meth [0xfe, 0x09, 0, 0, 0x2a] 8 1) :=
    ⟨rfl, .inr ⟨_, _, rfl, rfl, rfl, by decide, by decide, _, _, _, hs [0x02] (by decide), hs [0xfe, 0x09, 0, 0] (by decide)⟩⟩
  have := (h .release Ex.floats 9 (Ex.tiny []) _ _ [.i32 7] id (fun m => ⟨rfl, .inl rfl⟩) hr).2 9 9
  revert this
  decide +kernel

end Clr
