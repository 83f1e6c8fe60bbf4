import Verif.Model.StringsHeap
import Verif.Spec.Heaps
import Verif.Lemmas.Reader
/-! # Lemmas about the strings heap -/

namespace Clr
open Reader Spec

theorem HeapText.bytes_unique {heap : Bytes} {i : Nat} {s t : List Char} (hs : HeapText heap i s) (ht : HeapText heap i t) :
    s = t := by
  obtain ⟨p1, q1, e1, l1, n1⟩ := hs
  obtain ⟨p2, q2, e2, l2, n2⟩ := ht
  have d1 : heap.drop i = utf8 s ++ 0 :: q1 := by rw [e1, ← l1]; simp
  have d2 : heap.drop i = utf8 t ++ 0 :: q2 := by rw [e2, ← l2]; simp
  have b1 := beforeNul_append_nul _ q1 n1
  have b2 := beforeNul_append_nul _ q2 n2
  rw [← d1] at b1
  rw [← d2] at b2
  have : utf8 s = utf8 t := b1.symm.trans b2
  have h := fromUtf8_utf8 s
  rw [this, fromUtf8_utf8] at h
  exact (Option.some.inj h).symm

/-- Every cached answer is the text stored at that index. -/
def CacheOk (h : StringsHeap) : Prop := ∀ i s, h.cache.lookup i = some s → HeapText h.data i s

theorem CacheOk.new (data : Bytes) : CacheOk (StringsHeap.new data) := by
  intro i s h
  simp [StringsHeap.new] at h

theorem StringsHeap.get_spec {h : StringsHeap} (hc : CacheOk h) (i : Nat) :
    ∃ res h', h.get i = .ok (res, h') ∧ h'.data = h.data ∧ CacheOk h' ∧ ∀ s, res = some s ↔ HeapText h.data i s := by
  unfold StringsHeap.get
  by_cases hi : i > h.data.length
  · refine ⟨none, h, by simp [hi], rfl, hc, fun s => ⟨fun e => (by cases e), ?_⟩⟩
    rintro ⟨p, q, e, l, _⟩
    have := congrArg List.length e
    simp at this; omega
  · have hi' : i ≤ h.data.length := by omega
    rw [if_neg hi, sliceFrom_ok hi']
    simp only [Res.ok_bind]
    cases hn : nulPos (h.data.drop i) with
    | none =>
      refine ⟨none, h, rfl, rfl, hc, fun s => ⟨fun e => (by cases e), ?_⟩⟩
      rintro ⟨p, q, e, l, _⟩
      rw [nulPos_none] at hn
      refine absurd ?_ hn
      rw [e, ← l]; simp
    | some n =>
      obtain ⟨h1, h2, h3⟩ := nulPos_some hn
      have hb : i ≤ i + n ∧ i + n ≤ h.data.length := by
        simp at h1; omega
      simp only [slice_ok hb, Res.ok_bind, Nat.add_sub_cancel_left]
      have uniq : ∀ s, HeapText h.data i s → utf8 s = (h.data.drop i).take n := by
        rintro s ⟨p, q, e, l, nn⟩
        have d1 : h.data.drop i = utf8 s ++ 0 :: q := by rw [e, ← l]; simp
        have := nulPos_append_nul _ q nn
        rw [← d1, hn] at this
        have hl : n = (utf8 s).length := Option.some.inj this
        rw [d1, hl]; simp
      cases hf : fromUtf8 ((h.data.drop i).take n) with
      | none =>
        refine ⟨none, h, rfl, rfl, hc, fun s => ⟨fun e => (by cases e), ?_⟩⟩
        intro hs
        have := fromUtf8_utf8 s
        rw [uniq s hs, hf] at this
        cases this
      | some v =>
        have hv : HeapText h.data i v := by
          have e := utf8_of_fromUtf8 _ _ hf
          refine ⟨h.data.take i, (h.data.drop i).drop (n + 1), ?_, by simp; omega, by rw [e]; exact h3⟩
          rw [e, List.append_assoc, ← h2]; simp
        simp only [orInsert]
        cases hl : h.cache.lookup i with
        | some old =>
          refine ⟨some old, h, rfl, rfl, hc, fun s => ⟨?_, ?_⟩⟩
          · rintro ⟨⟩; exact hc i _ hl
          · intro hs; rw [HeapText.bytes_unique hs (hc i _ hl)]
        | none =>
          refine ⟨some v, _, rfl, rfl, ?_, fun s => ⟨?_, ?_⟩⟩
          · intro j s hj
            simp only [List.lookup] at hj
            split at hj
            · rename_i he
              have : j = i := by simpa using he
              subst this
              cases hj; exact hv
            · exact hc j s hj
          · rintro ⟨⟩; exact hv
          · intro hs; rw [HeapText.bytes_unique hs hv]

end Clr
