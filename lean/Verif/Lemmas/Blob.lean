import Verif.Lemmas.Reader
import Verif.Spec.Signature
/-! # Lemmas about blob and signature decoding -/

namespace Clr
open Reader Spec

/-! ### The general shape of a decoding step -/

/-- Outcome of a decoder started at `r`: an explicit error, or a value and a move of at least `lo` bytes that stays
inside the buffer. -/
def Step {α : Type} (x : Res (α × Reader)) (r : Reader) (lo : Nat) : Prop :=
  (∃ m, x = .err m) ∨ ∃ a k, x = .ok (a, r.skip k) ∧ lo ≤ k ∧ k ≤ r.rest.length

theorem Step.returns {α : Type} {x : Res (α × Reader)} {r lo} (h : Step x r lo) : x.Returns := by
  rcases h with ⟨m, rfl⟩ | ⟨a, k, rfl, _⟩ <;> simp

theorem Step.pure {α : Type} (a : α) (r : Reader) : Step (.ok (a, r)) r 0 :=
  .inr ⟨a, 0, by simp, Nat.le_refl _, Nat.zero_le _⟩

theorem Step.err {α : Type} (m : String) (r : Reader) (lo : Nat) : Step (.err m : Res (α × Reader)) r lo := .inl ⟨m, rfl⟩

theorem Step.mono {α : Type} {x : Res (α × Reader)} {r lo lo'} (h : Step x r lo) (hl : lo' ≤ lo) : Step x r lo' := by
  rcases h with h | ⟨a, k, h, h1, h2⟩
  · exact .inl h
  · exact .inr ⟨a, k, h, by omega, h2⟩

theorem Step.bind {α β : Type} {x : Res (α × Reader)} {f : α × Reader → Res (β × Reader)} {r : Reader} {lo lo' : Nat}
    (hr : r.Ok) (hx : Step x r lo)
    (hf : ∀ a k, lo ≤ k → k ≤ r.rest.length → (r.skip k).Ok → Step (f (a, r.skip k)) (r.skip k) lo') :
    Step (x >>= f) r (lo + lo') := by
  rcases hx with ⟨m, rfl⟩ | ⟨a, k, rfl, h1, h2⟩
  · exact .inl ⟨m, by simp⟩
  · simp only [Res.ok_bind]
    rcases hf a k h1 h2 (hr.skip h2) with ⟨m, h⟩ | ⟨b, k', h, h3, h4⟩
    · exact .inl ⟨m, h⟩
    · rw [rest_skip, List.length_drop] at h4
      exact .inr ⟨b, k + k', by rw [h]; simp, by omega, by omega⟩

theorem Reader.Ok.bound {r : Reader} (hr : r.Ok) {w : Nat} (hw : w ≤ 2 ^ 32) : r.pos + w < 2 ^ 64 := by
  have := hr.1; have := hr.2; omega

theorem blobRead_cases (cfg : Cfg) {r : Reader} (hr : r.Ok) {w : Nat} (hw : w ≤ 2 ^ 32) :
    blobRead cfg r w = .err "Unexpected EOF" ∨
    (blobRead cfg r w = .ok (r.rest.take w, r.skip w) ∧ w ≤ r.rest.length) := by
  unfold blobRead
  rw [read_eq cfg r w (hr.bound hw)]
  have := hr.1
  by_cases hc : r.pos + w ≤ r.data.length
  · right
    rw [if_pos hc]
    simp [length_rest]; omega
  · left; simp [hc]

theorem blobRead_step (cfg : Cfg) {r : Reader} (hr : r.Ok) {w : Nat} (hw : w ≤ 2 ^ 32) :
    Step (blobRead cfg r w) r w := by
  rcases blobRead_cases cfg hr hw with h | ⟨h, h'⟩
  · exact .inl ⟨_, h⟩
  · exact .inr ⟨_, w, h, Nat.le_refl _, h'⟩

theorem blobRead_at (cfg : Cfg) {r : Reader} {bs t : Bytes} (hr : r.Ok) (h : r.rest = bs ++ t) :
    blobRead cfg r bs.length = .ok (bs, r.skip bs.length) := by
  unfold blobRead
  rw [read_at cfg hr h]; rfl

theorem readByte_step (cfg : Cfg) {r : Reader} (hr : r.Ok) : Step (readByte cfg r) r 1 := by
  unfold readByte
  exact (blobRead_step cfg hr (w := 1) (by omega)).bind hr (lo' := 0) fun a k _ _ _ => Step.pure _ _

theorem readByte_at (cfg : Cfg) {r : Reader} {b : UInt8} {t : Bytes} (hr : r.Ok) (h : r.rest = b :: t) :
    readByte cfg r = .ok (b.toNat, r.skip 1) := by
  unfold readByte
  have := blobRead_at cfg (bs := [b]) hr h
  simp only [List.length_singleton] at this
  rw [this]
  simp [leNat]

theorem peekByte_at (cfg : Cfg) {r : Reader} {b : UInt8} {t : Bytes} (hr : r.Ok) (h : r.rest = b :: t) :
    peekByte cfg r = .ok b.toNat := by
  unfold peekByte blobPeek
  have := peek_at cfg (bs := [b]) hr h
  simp only [List.length_singleton] at this
  rw [this]
  simp [leNat]

theorem peekByte_nil (cfg : Cfg) {r : Reader} (hr : r.Ok) (h : r.rest = []) :
    peekByte cfg r = .err "Unexpected EOF" := by
  unfold peekByte blobPeek
  have hl := length_rest r
  rw [h] at hl
  have := hr.1
  rw [peek_eq cfg r 1 (hr.bound (by omega)), if_neg (by simp at hl; omega)]
  simp

theorem peekByte_cases (cfg : Cfg) {r : Reader} (hr : r.Ok) :
    (r.rest = [] ∧ peekByte cfg r = .err "Unexpected EOF") ∨
    ∃ b t, r.rest = b :: t ∧ peekByte cfg r = .ok b.toNat := by
  cases h : r.rest with
  | nil => exact .inl ⟨rfl, peekByte_nil cfg hr h⟩
  | cons b t => exact .inr ⟨b, t, rfl, peekByte_at cfg hr h⟩

/-! ### Compressed integers -/

private theorem and_c0 : ∀ x : Fin 256, (x.val &&& 0xc0 = 0xc0) ↔ 0xc0 ≤ x.val := by decide +kernel
private theorem and_80 : ∀ x : Fin 256, (x.val &&& 0x80 = 0x80) ↔ 0x80 ≤ x.val := by decide +kernel

theorem byte_and_c0 (b : UInt8) : (b.toNat &&& 0xc0 = 0xc0) ↔ 0xc0 ≤ b.toNat := and_c0 ⟨b.toNat, b.toNat_lt⟩
theorem byte_and_80 (b : UInt8) : (b.toNat &&& 0x80 = 0x80) ↔ 0x80 ≤ b.toNat := and_80 ⟨b.toNat, b.toNat_lt⟩

/-- The decoder on any input, in terms of the declared length of the standard. -/
theorem readCompressed_eq (cfg : Cfg) {r : Reader} (hr : r.Ok) :
    readCompressed cfg r =
      match declaredLength r.rest with
      | some (w, n) => .ok (n, r.skip w)
      | none => .err "Unexpected EOF" := by
  unfold readCompressed
  rcases peekByte_cases cfg hr with ⟨h0, h1⟩ | ⟨b, t, h0, h1⟩
  · rw [h1, h0]; simp [declaredLength]
  · rw [h1, h0]
    have hb := b.toNat_lt
    simp only [Res.ok_bind, byte_and_c0, byte_and_80, declaredLength]
    by_cases hc : 0xc0 ≤ b.toNat
    · have h2 : ¬ b.toNat < 0x80 := by omega
      have h3 : ¬ b.toNat < 0xc0 := by omega
      simp only [hc, h2, h3, if_true, if_false]
      rcases t with _ | ⟨b1, _ | ⟨b2, _ | ⟨b3, t⟩⟩⟩
      case cons.cons.cons =>
        have := blobRead_at cfg (bs := [b, b1, b2, b3]) (t := t) hr h0
        simp only [List.length_cons, List.length_nil] at this
        rw [this]
        have e : beNat [b, b1, b2, b3] = ((b.toNat * 256 + b1.toNat) * 256 + b2.toNat) * 256 + b3.toNat := by
          simp [beNat, leNat]; omega
        simp only [Res.ok_bind]
        rw [usub_ok (by rw [e]; omega), e]
        simp only [Res.ok_bind, Res.pure_eq, Res.ok.injEq, Prod.mk.injEq, and_true]
        omega
      all_goals
        rcases blobRead_cases cfg hr (w := 4) (by omega) with h | ⟨h, hw⟩
        · rw [h]; simp
        · rw [h0] at hw; simp at hw
    · by_cases h8 : 0x80 ≤ b.toNat
      · have h2 : ¬ b.toNat < 0x80 := by omega
        have h3 : b.toNat < 0xc0 := by omega
        simp only [hc, h8, h2, h3, if_true, if_false]
        rcases t with _ | ⟨b1, t⟩
        · rcases blobRead_cases cfg hr (w := 2) (by omega) with h | ⟨h, hw⟩
          · rw [h]; simp
          · rw [h0] at hw; simp at hw
        · have := blobRead_at cfg (bs := [b, b1]) (t := t) hr h0
          simp only [List.length_cons, List.length_nil] at this
          rw [this]
          have e : beNat [b, b1] = b.toNat * 256 + b1.toNat := by
            simp [beNat, leNat]; omega
          simp only [Res.ok_bind]
          rw [usub_ok (by rw [e]; omega), e]
          simp only [Res.ok_bind, Res.pure_eq, Res.ok.injEq, Prod.mk.injEq, and_true]
          omega
      · have h2 : b.toNat < 0x80 := by omega
        simp only [hc, h8, h2, if_true, if_false]
        rw [readByte_at cfg hr h0]
        rfl

theorem declaredLength_bound {bs : Bytes} {w n : Nat} (h : declaredLength bs = some (w, n)) :
    1 ≤ w ∧ w ≤ 4 ∧ w ≤ bs.length ∧ n < 2 ^ 30 := by
  rcases bs with _ | ⟨a, t⟩
  · simp [declaredLength] at h
  · have ha := a.toNat_lt
    simp only [declaredLength] at h
    split at h
    · simp at h; simp; omega
    · split at h
      · rcases t with _ | ⟨b, t⟩
        · simp at h
        · have := b.toNat_lt; simp at h; simp; omega
      · rcases t with _ | ⟨b, _ | ⟨c, _ | ⟨d, t⟩⟩⟩
        · simp at h
        · simp at h
        · simp at h
        · have := b.toNat_lt; have := c.toNat_lt; have := d.toNat_lt
          simp at h; simp; omega

theorem declaredLength_enc {n : Nat} (hn : n < 2 ^ 29) (t : Bytes) :
    declaredLength (encUnsigned n ++ t) = some ((encUnsigned n).length, n) := by
  have ofn : ∀ k, k < 256 → (UInt8.ofNat k).toNat = k := fun k hk => by
    simp [UInt8.toNat_ofNat']; omega
  unfold encUnsigned
  split
  · rename_i h
    simp only [List.cons_append, declaredLength, ofn n (by omega), h, if_true]; simp
  · split
    · rename_i h1 h2
      have a1 : (UInt8.ofNat (128 + n / 256)).toNat = 128 + n / 256 := ofn _ (by omega)
      have a2 : (UInt8.ofNat (n % 256)).toNat = n % 256 := ofn _ (by omega)
      simp only [List.cons_append, declaredLength, a1, a2]
      rw [if_neg (by omega), if_pos (by omega)]
      simp; omega
    · rename_i h1 h2
      have a1 : (UInt8.ofNat (0xc0 + n / 2 ^ 24)).toNat = 0xc0 + n / 2 ^ 24 := ofn _ (by omega)
      have a2 : (UInt8.ofNat (n / 2 ^ 16 % 256)).toNat = n / 2 ^ 16 % 256 := ofn _ (by omega)
      have a3 : (UInt8.ofNat (n / 2 ^ 8 % 256)).toNat = n / 2 ^ 8 % 256 := ofn _ (by omega)
      have a4 : (UInt8.ofNat (n % 256)).toNat = n % 256 := ofn _ (by omega)
      simp only [List.cons_append, declaredLength, a1, a2, a3, a4]
      rw [if_neg (by omega), if_neg (by omega)]
      simp only [Option.some.injEq, Prod.mk.injEq, List.length_cons, List.length_nil, true_and]
      omega

theorem readCompressed_step (cfg : Cfg) {r : Reader} (hr : r.Ok) : Step (readCompressed cfg r) r 1 := by
  rw [readCompressed_eq cfg hr]
  cases h : declaredLength r.rest with
  | none => exact Step.err _ _ _
  | some p =>
    obtain ⟨w, n⟩ := p
    have := declaredLength_bound h
    exact .inr ⟨n, w, rfl, this.1, this.2.2.1⟩

theorem readCompressed_at (cfg : Cfg) {r : Reader} {n : Nat} {t : Bytes} (hr : r.Ok) (hn : n < 2 ^ 29)
    (h : r.rest = encUnsigned n ++ t) :
    readCompressed cfg r = .ok (n, r.skip (encUnsigned n).length) := by
  rw [readCompressed_eq cfg hr, h, declaredLength_enc hn]

end Clr
