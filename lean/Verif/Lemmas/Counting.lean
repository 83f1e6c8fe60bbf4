import Verif.Model.Ownership
import Mathlib.Logic.Relation
import Mathlib.Data.Fintype.Pigeonhole
import Mathlib.Data.Fintype.Sets
/-! # Reference counting on a finite graph -/

namespace Clr
open Relation

variable {owns : Owned → List Owned} {all kept : List Owned}

/-- The sum of `f` over the living objects. -/
def liveSum (all : List Owned) (c : Counts) (f : Owned → Nat) : Nat := (all.map fun p => if c p = 0 then 0 else f p).sum

theorem liveSum_same {c c' : Counts} (f : Owned → Nat) (h : ∀ p ∈ all, (c p = 0 ↔ c' p = 0)) : liveSum all c f = liveSum all c' f := by
  unfold liveSum
  congr 1
  apply List.map_congr_left
  intro p hp
  by_cases e : c p = 0
  · rw [if_pos e, if_pos ((h p hp).mp e)]
  · rw [if_neg e, if_neg (fun g => e ((h p hp).mpr g))]

theorem liveSum_kill {c : Counts} {b : Owned} (f : Owned → Nat) (hn : all.Nodup) (hb : b ∈ all) (hc : c b ≠ 0) :
    liveSum all c f = liveSum all (c.set b 0) f + f b := by
  induction all with
  | nil => cases hb
  | cons p ps ih =>
    rw [List.nodup_cons] at hn
    have e : ∀ c, liveSum (p :: ps) c f = (if c p = 0 then 0 else f p) + liveSum ps c f := fun c => by simp [liveSum]
    rw [e, e]
    by_cases hp : p = b
    · subst hp
      have h1 : liveSum ps c f = liveSum ps (c.set p 0) f := liveSum_same f fun q hq => by
        have : q ≠ p := fun e => hn.1 (e ▸ hq)
        simp [Counts.set, this]
      have h2 : (c.set p 0) p = 0 := by simp [Counts.set]
      rw [if_neg hc, h2, if_pos rfl, ← h1]; omega
    · have h1 : (c.set b 0) p = c p := by simp [Counts.set, hp]
      rw [h1, ih hn.2 ((List.mem_cons.mp hb).resolve_left fun e => hp e.symm)]; omega

theorem liveSum_pos {c : Counts} {f : Owned → Nat} {p : Owned} (hp : p ∈ all) (hc : c p ≠ 0) (hf : 0 < f p) : 0 < liveSum all c f := by
  unfold liveSum
  induction all with
  | nil => cases hp
  | cons q qs ih =>
    rw [List.map_cons, List.sum_cons]
    rcases List.mem_cons.mp hp with rfl | hp
    · rw [if_neg hc]; omega
    · have := ih hp; omega

theorem liveSum_witness {c : Counts} {f : Owned → Nat} (h : 0 < liveSum all c f) : ∃ p ∈ all, c p ≠ 0 ∧ 0 < f p := by
  unfold liveSum at h
  induction all with
  | nil => simp at h
  | cons q qs ih =>
    rw [List.map_cons, List.sum_cons] at h
    by_cases hq : c q = 0
    · rw [if_pos hq] at h
      obtain ⟨p, h1, h2⟩ := ih (by omega)
      exact ⟨p, List.mem_cons_of_mem _ h1, h2⟩
    · rw [if_neg hq] at h
      by_cases hf : 0 < f q
      · exact ⟨q, List.mem_cons_self, hq, hf⟩
      · obtain ⟨p, h1, h2⟩ := ih (by omega)
        exact ⟨p, List.mem_cons_of_mem _ h1, h2⟩

/-- The counts are right while the references in `work` are being dropped. -/
structure Right (owns : Owned → List Owned) (all kept : List Owned) (c : Counts) (work : List Owned) : Prop where
  counts : ∀ b, c b = kept.count b + work.count b + liveSum all c fun p => (owns p).count b
  mem : ∀ b, c b ≠ 0 → b ∈ all

theorem count_set {c : Counts} {b x : Owned} {n : Nat} : (c.set b n) x = if x = b then n else c x := rfl

theorem Right.other {c : Counts} {b : Owned} {rest : List Owned} (h : Right owns all kept c (b :: rest)) (h2 : 2 ≤ c b) :
    Right owns all kept (c.set b (c b - 1)) rest := by
  have hs : ∀ f, liveSum all (c.set b (c b - 1)) f = liveSum all c f := fun f => liveSum_same f fun p _ => by
    rw [count_set]; split
    · rename_i e; subst e; omega
    · rfl
  constructor
  · intro x
    rw [hs, count_set]
    have := h.counts x
    rw [List.count_cons] at this
    by_cases e : x = b
    · subst e; simp at this ⊢; omega
    · have : (b == x) = false := by simpa using fun g => e g.symm
      simp [e, this] at *; omega
  · intro x hx
    rw [count_set] at hx
    split at hx
    · rename_i e; subst e; exact h.mem x (by omega)
    · exact h.mem x hx

theorem Right.last {c : Counts} {b : Owned} {rest : List Owned} (hn : all.Nodup) (h : Right owns all kept c (b :: rest)) (h1 : c b = 1) :
    Right owns all kept (c.set b 0) (owns b ++ rest) := by
  have hb : b ∈ all := h.mem b (by omega)
  have hs : ∀ f : Owned → Nat, liveSum all c f = liveSum all (c.set b 0) f + f b := fun f => liveSum_kill f hn hb (by omega)
  constructor
  · intro x
    have := h.counts x
    rw [hs] at this
    rw [List.count_append, count_set]
    rw [List.count_cons] at this
    by_cases e : x = b
    · subst e; simp at this ⊢; omega
    · have g : (b == x) = false := by simpa using fun g => e g.symm
      simp [e, g] at this ⊢; omega
  · intro x hx
    rw [count_set] at hx
    split at hx
    · omega
    · exact h.mem x hx

/-- **Dropping ends, never touches a destroyed object, and leaves the counts right.** -/
theorem dropAll_right (hn : all.Nodup) {S : Owned → Prop} (hS : ∀ b, S b → ∃ p ∈ all, S p ∧ b ∈ owns p) :
    ∀ (n : Nat) (c : Counts) (work : List Owned), Right owns all kept c work → (∀ b, S b → c b ≠ 0) →
      liveSum all c (fun p => (owns p).length) + work.length ≤ n →
      ∃ c', dropAll owns n c work = .ok c' ∧ Right owns all kept c' [] ∧ ∀ b, S b → c' b ≠ 0
  | n, c, [], h, hs, _ => ⟨c, by cases n <;> rfl, h, hs⟩
  | 0, _, _ :: _, _, _, hl => by simp at hl
  | n + 1, c, b :: rest, h, hs, hl => by
    have h0 : c b ≠ 0 := by
      have := h.counts b
      rw [List.count_cons_self] at this
      omega
    rw [dropAll, if_neg h0]
    rw [List.length_cons] at hl
    by_cases h1 : c b = 1
    · rw [if_pos h1]
      have hk : ∀ f : Owned → Nat, liveSum all c f = liveSum all (c.set b 0) f + f b := fun f => liveSum_kill f hn (h.mem b h0) h0
      refine dropAll_right hn hS n _ _ (h.last hn h1) ?_ ?_
      · intro x hx
        rw [count_set]
        by_cases e : x = b
        · subst e
          obtain ⟨p, g1, g2, g3⟩ := hS x hx
          have := liveSum_pos (f := fun p => (owns p).count x) g1 (hs p g2) (List.count_pos_iff.mpr g3)
          have := h.counts x
          rw [List.count_cons_self] at this
          omega
        · rw [if_neg e]; exact hs x hx
      · rw [hk] at hl
        rw [List.length_append]; omega
    · rw [if_neg h1]
      refine dropAll_right hn hS n _ _ (h.other (by omega)) ?_ ?_
      · intro x hx
        rw [count_set]
        split
        · rename_i e; subst e; omega
        · exact hs x hx
      · rw [← liveSum_same (c := c) (fun p => (owns p).length)]
        · omega
        · intro p _
          rw [count_set]
          split
          · rename_i e; subst e; omega
          · rfl

/-- Reference counting has come to rest: an object lives if a handle or a living object refers to it. -/
theorem Right.live {c : Counts} (h : Right owns all kept c []) (b : Owned) : c b ≠ 0 ↔ b ∈ kept ∨ ∃ p ∈ all, c p ≠ 0 ∧ b ∈ owns p := by
  have e := h.counts b
  rw [List.count_nil, Nat.add_zero] at e
  constructor
  · intro hc
    by_cases hk : b ∈ kept
    · exact .inl hk
    · rw [List.count_eq_zero_of_not_mem hk] at e
      obtain ⟨p, h1, h2, h3⟩ := liveSum_witness (all := all) (c := c) (f := fun p => (owns p).count b) (by omega)
      exact .inr ⟨p, h1, h2, List.count_pos_iff.mp h3⟩
  · rintro (hk | ⟨p, h1, h2, h3⟩)
    · have := List.count_pos_iff.mpr hk; omega
    · have := liveSum_pos (f := fun p => (owns p).count b) h1 h2 (List.count_pos_iff.mpr h3); omega

/-- Going backwards for ever in a finite set leads into a circle. -/
theorem circle_behind {α : Type} {R : α → α → Prop} {U : List α} (hU : ∀ b ∈ U, ∃ p ∈ U, R p b) {b : α} (hb : b ∈ U) :
    ∃ p ∈ U, TransGen R p p ∧ ReflTransGen R p b := by
  let next : {x // x ∈ U} → {x // x ∈ U} := fun x => ⟨_, (hU x.1 x.2).choose_spec.1⟩
  have hnext : ∀ x, R (next x).1 x.1 := fun x => (hU x.1 x.2).choose_spec.2
  let s : Nat → {x // x ∈ U} := fun n => next^[n] ⟨b, hb⟩
  have hs : ∀ n, R (s (n + 1)).1 (s n).1 := fun n => by
    show R (next^[n + 1] _).1 _
    rw [Function.iterate_succ_apply']
    exact hnext _
  have back : ∀ n k, ReflTransGen R (s (n + k)).1 (s n).1 := fun n k => by
    induction k with
    | zero => exact .refl
    | succ k ih => exact .head (hs (n + k)) ih
  classical
  have : Finite {x // x ∈ U} := Finite.of_fintype _
  obtain ⟨i, j, hij, e⟩ := Finite.exists_ne_map_eq_of_infinite s
  have main : ∀ i j, i < j → s i = s j → ∃ p ∈ U, TransGen R p p ∧ ReflTransGen R p b := fun i j h e => by
    refine ⟨(s i).1, (s i).2, ?_, by have := back 0 i; rw [Nat.zero_add] at this; exact this⟩
    obtain ⟨k, rfl⟩ : ∃ k, j = i + k + 1 := ⟨j - i - 1, by omega⟩
    have h1 : R (s (i + k + 1)).1 (s (i + k)).1 := hs (i + k)
    rw [← e] at h1
    exact TransGen.head' h1 (back i k)
  rcases Nat.lt_or_gt_of_ne hij with h | h
  · exact main i j h e
  · exact main j i h e.symm

theorem mem_of_trans {a b : Owned} (hall : ∀ p ∈ all, ∀ b ∈ owns p, b ∈ all) (ha : a ∈ all)
    (h : ReflTransGen (fun p q => q ∈ owns p) a b) : b ∈ all := by
  induction h with
  | refl => exact ha
  | tail _ h ih => exact hall _ ih _ h

/-- Nothing is being dropped, the counts are right, and what lies on a circle is alive. -/
structure Rest (owns : Owned → List Owned) (all kept : List Owned) (c : Counts) : Prop where
  right : Right owns all kept c []
  circles : ∀ p ∈ all, TransGen (fun p q => q ∈ owns p) p p → c p ≠ 0

/-- **What reference counting leaves alive**: what can be reached from the handles or from a circle. -/
theorem Rest.exact {c : Counts} (h : Rest owns all kept c) (b : Owned) : c b ≠ 0 ↔
      (∃ k ∈ kept, ReflTransGen (fun p q => q ∈ owns p) k b) ∨
      ∃ p ∈ all, TransGen (fun p q => q ∈ owns p) p p ∧ ReflTransGen (fun p q => q ∈ owns p) p b := by
  let R : Owned → Owned → Prop := fun p q => q ∈ owns p
  have h2 := h.right
  constructor
  · intro hb
    by_cases hr : ∃ k ∈ kept, ReflTransGen R k b
    · exact .inl hr
    · classical
      let U := all.filter fun x => c x ≠ 0 ∧ ¬ ∃ k ∈ kept, ReflTransGen R k x
      have hU : ∀ x ∈ U, ∃ p ∈ U, R p x := by
        intro x hx
        simp only [U, List.mem_filter, decide_eq_true_eq] at hx
        rcases (h2.live x).mp hx.2.1 with hk | ⟨p, g1, g2, g3⟩
        · exact absurd ⟨x, hk, .refl⟩ hx.2.2
        · refine ⟨p, ?_, g3⟩
          simp only [U, List.mem_filter, decide_eq_true_eq]
          exact ⟨g1, g2, fun ⟨k, k1, k2⟩ => hx.2.2 ⟨k, k1, k2.tail g3⟩⟩
      obtain ⟨p, g1, g2, g3⟩ := circle_behind hU (b := b) (by
        simp only [U, List.mem_filter, decide_eq_true_eq]
        exact ⟨h2.mem b hb, hb, hr⟩)
      exact .inr ⟨p, (List.mem_filter.mp g1).1, g2, g3⟩
  · have up : ∀ {a b}, c a ≠ 0 → ReflTransGen R a b → c b ≠ 0 := by
      intro a b ha hr
      induction hr with
      | refl => exact ha
      | tail _ g ih => exact (h2.live _).mpr (.inr ⟨_, h2.mem _ ih, ih, g⟩)
    rintro (⟨k, k1, k2⟩ | ⟨p, g1, g2, g3⟩)
    · exact up ((h2.live k).mpr (.inl k1)) k2
    · exact up (h.circles p g1 g2) g3

/-- Another handle for something alive. -/
theorem Rest.take {c : Counts} (h : Rest owns all kept c) {b : Owned} (hb : c b ≠ 0) : Rest owns all (b :: kept) (c.set b (c b + 1)) := by
  have hz : ∀ p, (c.set b (c b + 1)) p = 0 ↔ c p = 0 := fun p => by
    rw [count_set]; split
    · rename_i e; subst e; omega
    · rfl
  refine ⟨⟨fun x => ?_, fun x hx => h.right.mem x fun e => hx ((hz x).mpr e)⟩, fun p hp hc e => h.circles p hp hc ((hz p).mp e)⟩
  have hs : ∀ f, liveSum all (c.set b (c b + 1)) f = liveSum all c f := fun f => liveSum_same f fun p _ => hz p
  have := h.right.counts x
  rw [hs, count_set, List.count_cons]
  by_cases e : x = b
  · subst e; simp at this ⊢; omega
  · have g : (b == x) = false := by simpa using fun g => e g.symm
    simp [e, g] at this ⊢; omega

/-- Dropping a handle ends and leaves everything in order. -/
theorem Rest.drop (hn : all.Nodup) (hall : ∀ p ∈ all, ∀ b ∈ owns p, b ∈ all) {c : Counts} (h : Rest owns all kept c) {b : Owned}
    (hb : b ∈ kept) {n : Nat} (hl : (all.map fun p => (owns p).length).sum + 1 ≤ n) :
    ∃ c', dropAll owns n c [b] = .ok c' ∧ Rest owns all (kept.erase b) c' := by
  have hS : ∀ b, (b ∈ all ∧ TransGen (fun p q => q ∈ owns p) b b) →
      ∃ p ∈ all, (p ∈ all ∧ TransGen (fun p q => q ∈ owns p) p p) ∧ b ∈ owns p := by
    rintro b ⟨h1, h2⟩
    obtain ⟨p, g1, g2⟩ := TransGen.tail'_iff.mp h2
    have hp : p ∈ all := mem_of_trans hall h1 g1
    exact ⟨p, hp, ⟨hp, TransGen.head' g2 g1⟩, g2⟩
  have hsum : liveSum all c (fun p => (owns p).length) ≤ (all.map fun p => (owns p).length).sum := by
    unfold liveSum
    generalize all = l
    induction l with
    | nil => exact Nat.le_refl _
    | cons a l ih =>
      simp only [List.map_cons, List.sum_cons] at ih ⊢
      split <;> omega
  have hr : Right owns all (kept.erase b) c [b] := by
    refine ⟨fun x => ?_, h.right.mem⟩
    have := h.right.counts x
    rw [List.count_erase, List.count_singleton]
    by_cases e : x = b
    · subst e
      have g := List.count_pos_iff.mpr hb
      rw [List.count_nil] at this
      simp only [beq_self_eq_true, if_true]; omega
    · have g : (b == x) = false := by simpa using fun g => e g.symm
      simp [g] at this ⊢; omega
  obtain ⟨c', h1, h2, h3⟩ := dropAll_right hn hS n c [b] hr (fun b hb => h.circles b hb.1 hb.2)
    (by show _ + 1 ≤ n; omega)
  exact ⟨c', h1, h2, fun p hp hc => h3 p ⟨hp, hc⟩⟩

end Clr
