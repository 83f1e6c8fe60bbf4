import Mathlib.Data.List.Basic
/-! # Runs of rows owned by type rows (ECMA-335 II.22.37) -/

namespace Clr.Spec

/-- The start columns of the type rows partition the rows `1 … rows` of an owned table into consecutive runs. -/
def Partition (starts : List Nat) (rows : Nat) : Prop :=
  (starts = [] → rows = 0) ∧ (∀ s, starts[0]? = some s → s = 1) ∧ starts.Pairwise (· ≤ ·) ∧ ∀ s ∈ starts, s ≤ rows + 1

instance (starts : List Nat) (rows : Nat) : Decidable (Partition starts rows) := by
  have : Decidable (∀ s, starts[0]? = some s → s = 1) :=
    match h : starts[0]? with
    | none => .isTrue (by simp)
    | some s => if hs : s = 1 then .isTrue (by simp [hs]) else .isFalse (by simpa using hs)
  unfold Partition; infer_instance

/-- Row `k` is in the run of type row `i` (counted from zero). -/
def Owns (starts : List Nat) (rows i k : Nat) : Prop :=
  (∃ s, starts[i]? = some s ∧ s ≤ k) ∧ (∀ e, starts[i + 1]? = some e → k < e) ∧ k ≤ rows

end Clr.Spec
