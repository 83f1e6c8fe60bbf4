import Verif.Model.Typed
import Verif.Props.Signature
/-! # C113: reading typed values -/

namespace Clr
open Spec

/-! ## Specification -/

/-- `bs` is how a value of a type stands in a file (ECMA-335 II.22.9 for constants): integers in two's complement and
bit patterns of floats, little-endian; `bool` is one byte, 0 or 1; `char` is its scalar value in four bytes. -/
def Spec.Stands : Scalar → ScalarValue → Bytes → Prop
  | .signed w, .int v, bs => ∃ n : Nat, bs = leBytes w n ∧ n < 256 ^ w ∧ -(256 ^ w : Nat) ≤ 2 * v ∧ 2 * v < (256 ^ w : Nat) ∧
      ∃ k : Int, v = n + k * (256 ^ w : Nat)
  | .unsigned w, .int v, bs => ∃ n : Nat, v = n ∧ n < 256 ^ w ∧ bs = leBytes w n
  | .float w, .bits n, bs => n < 256 ^ w ∧ bs = leBytes w n
  | .bool, .bool b, bs => bs = [if b then 1 else 0]
  | .char, .char c, bs => bs = leBytes 4 c.toNat
  | _, _, _ => False

/-- The type takes every byte pattern. -/
def Spec.Numeric : Scalar → Prop
  | .bool => False
  | .char => False
  | _ => True

instance (t : Scalar) : Decidable (Numeric t) := by cases t <;> unfold Numeric <;> infer_instance

/-! ## Lemmas -/

theorem charNat_lt (c : Char) : c.toNat < 256 ^ 4 := by
  have h : c.toNat.isValidChar := c.valid
  rcases h with h | ⟨_, h⟩ <;> omega

theorem Spec.Stands.length {t : Scalar} {v : ScalarValue} {bs : Bytes} (h : Stands t v bs) : bs.length = t.size := by
  cases t <;> cases v <;> simp only [Stands] at h <;> try exact h.elim
  · obtain ⟨n, rfl, _⟩ := h; simp [Scalar.size]
  · obtain ⟨n, _, _, rfl⟩ := h; simp [Scalar.size]
  · obtain ⟨_, rfl⟩ := h; simp [Scalar.size]
  · subst h; rfl
  · subst h; simp [Scalar.size]

theorem decode_iff (t : Scalar) (v : ScalarValue) (bs : Bytes) (hl : bs.length = t.size) :
    t.decode bs = some v ↔ Stands t v bs := by
  have hlt := leNat_lt bs
  rw [hl] at hlt
  have hbs := leBytes_leNat bs
  rw [hl] at hbs
  constructor
  · intro h
    cases t with
    | signed w =>
      simp only [Scalar.decode, Option.some.injEq] at h
      subst h
      simp only [Scalar.size] at hlt hbs
      refine ⟨leNat bs, hbs.symm, hlt, ?_⟩
      generalize 256 ^ w = m at *
      generalize leNat bs = n at *
      split
      · exact ⟨by omega, by omega, 0, by omega⟩
      · exact ⟨by omega, by omega, -1, by omega⟩
    | unsigned w =>
      simp only [Scalar.decode, Option.some.injEq] at h
      subst h
      exact ⟨leNat bs, rfl, hlt, hbs.symm⟩
    | float w =>
      simp only [Scalar.decode, Option.some.injEq] at h
      subst h
      exact ⟨hlt, hbs.symm⟩
    | bool =>
      simp only [Scalar.decode] at h
      split at h
      · rename_i h0
        rw [h0] at hbs
        cases h
        exact hbs.symm
      · split at h
        · rename_i h0
          rw [h0] at hbs
          cases h
          exact hbs.symm
        · cases h
    | char =>
      simp only [Scalar.decode] at h
      split at h
      · rename_i hv
        cases h
        show bs = leBytes 4 _
        have : (Char.ofNat (leNat bs)).toNat = leNat bs := by
          rw [Char.ofNat, dif_pos hv]; rfl
        rw [this]
        exact hbs.symm
      · cases h
  · intro h
    cases t <;> cases v <;> simp only [Stands] at h <;> try exact h.elim
    · obtain ⟨n, rfl, h1, h2, h3, k, h4⟩ := h
      rename_i w v
      simp only [Scalar.decode, leNat_leBytes w n h1, Option.some.injEq, ScalarValue.int.injEq]
      have hm : (0 : Int) < (256 ^ w : Nat) := by omega
      have hk : k = 0 ∨ k = -1 := by
        rcases Int.lt_or_le k (-1) with hc | hc
        · have := Int.mul_le_mul_of_nonneg_right (show k ≤ -2 by omega) (Int.le_of_lt hm)
          omega
        · rcases Int.lt_or_le 0 k with hd | hd
          · have := Int.mul_le_mul_of_nonneg_right (show 1 ≤ k by omega) (Int.le_of_lt hm)
            omega
          · omega
      generalize 256 ^ w = m at *
      rcases hk with rfl | rfl <;> split <;> omega
    · obtain ⟨n, rfl, h1, rfl⟩ := h
      simp only [Scalar.decode, leNat_leBytes _ n h1]
    · obtain ⟨h1, rfl⟩ := h
      simp only [Scalar.decode, leNat_leBytes _ _ h1]
    · subst h; rename_i b; cases b <;> rfl
    · rename_i c
      subst h
      have hv : c.toNat.isValidChar := c.valid
      simp only [Scalar.decode, leNat_leBytes _ _ (charNat_lt c), if_pos hv, Char.ofNat_toNat]

theorem peekAs_eq (cfg : Cfg) (r : Reader) (t : Scalar) (h : r.pos + t.size < 2 ^ 64) :
    r.peekAs cfg t = if r.pos + t.size ≤ r.data.length then
      (match t.decode (r.rest.take t.size) with | none => .ub | some v => .ok (some v)) else .ok none := by
  unfold Reader.peekAs
  rw [Reader.peek_eq cfg r t.size h]
  by_cases hc : r.pos + t.size ≤ r.data.length
  · simp only [if_pos hc, Res.ok_bind]
    rfl
  · simp only [if_neg hc, Res.ok_bind]
    rfl

theorem readAs_eq (cfg : Cfg) (r : Reader) (t : Scalar) (h : r.pos + t.size < 2 ^ 64) :
    r.readAs cfg t = if r.pos + t.size ≤ r.data.length then
      (match t.decode (r.rest.take t.size) with | none => .ub | some v => .ok (some v, r.skip t.size))
      else .ok (none, r) := by
  unfold Reader.readAs
  rw [peekAs_eq cfg r t h]
  by_cases hc : r.pos + t.size ≤ r.data.length
  · simp only [if_pos hc]
    cases t.decode (r.rest.take t.size) with
    | none => rfl
    | some v =>
      simp only [Res.ok_bind, Reader.advance, uadd_ok h, Res.pure_eq]
      rfl
  · simp only [if_neg hc, Res.ok_bind]
    rfl

/-! ## C113 -/

/-- **C113.** Reading a value of a type at position `p`, in any buffer: too few bytes give nothing and leave the position;
otherwise the value `v` is given, and the position moves over it, exactly when `v` stands there; and the behaviour is
undefined exactly when no value of the type stands there. Looking without moving gives the same. -/
theorem C113_exact (cfg : Cfg) (data : Bytes) (p : Nat) (t : Scalar) (haddr : p + t.size < 2 ^ 64) :
    (data.length < p + t.size → Reader.readAs cfg ⟨data, p⟩ t = .ok (none, ⟨data, p⟩) ∧
      Reader.peekAs cfg ⟨data, p⟩ t = .ok none) ∧
    (p + t.size ≤ data.length →
      (∀ v, Reader.readAs cfg ⟨data, p⟩ t = .ok (some v, ⟨data, p + t.size⟩) ↔ Stands t v ((data.drop p).take t.size)) ∧
      (∀ v, Reader.peekAs cfg ⟨data, p⟩ t = .ok (some v) ↔ Stands t v ((data.drop p).take t.size)) ∧
      (Reader.readAs cfg ⟨data, p⟩ t = .ub ↔ ∀ v, ¬ Stands t v ((data.drop p).take t.size))) := by
  rw [readAs_eq cfg ⟨data, p⟩ t haddr, peekAs_eq cfg ⟨data, p⟩ t haddr]
  have hr : (Reader.mk data p).rest = data.drop p := rfl
  simp only [hr, Reader.skip]
  constructor
  · intro h
    rw [if_neg (by omega), if_neg (by omega)]
    exact ⟨rfl, rfl⟩
  · intro h
    rw [if_pos h, if_pos h]
    have hl : ((data.drop p).take t.size).length = t.size := by simp; omega
    have key := fun v => decode_iff t v _ hl
    cases hd : t.decode ((data.drop p).take t.size) with
    | none =>
      rw [hd] at key
      refine ⟨fun v => ⟨fun e => (by cases e), fun s => ?_⟩, fun v => ⟨fun e => (by cases e), fun s => ?_⟩,
        fun _ v s => ?_, fun _ => rfl⟩
      all_goals exact absurd ((key v).mpr s) (by simp)
    | some u =>
      rw [hd] at key
      refine ⟨fun v => ?_, fun v => ?_, fun e => (by simp at e), fun hn => absurd ((key u).mp rfl) (hn u)⟩
      · rw [← key v]; simp
      · rw [← key v]; simp

/-- **C113**: a read of a number never has undefined behaviour, whatever the buffer holds. -/
theorem C113_numbers (cfg : Cfg) (data : Bytes) (p : Nat) (t : Scalar) (haddr : p + t.size < 2 ^ 64) (hn : Numeric t) :
    Reader.readAs cfg ⟨data, p⟩ t = .ok (none, ⟨data, p⟩) ∨
      ∃ v, Reader.readAs cfg ⟨data, p⟩ t = .ok (some v, ⟨data, p + t.size⟩) := by
  rw [readAs_eq cfg ⟨data, p⟩ t haddr]
  split
  · right
    cases t <;> first | exact ⟨_, rfl⟩ | exact hn.elim
  · exact .inl rfl

/-- **C113**, with the constants of a file: a constant of any type, stored as a blob anywhere in the blob heap, is read
back; what follows the value in the blob and what surrounds the blob does not matter. -/
theorem C113_constant (cfg : Cfg) (pre post more : Bytes) (t : Scalar) (v : ScalarValue) (bs : Bytes) (hs : Stands t v bs)
    (hl : (bs ++ more).length < 2 ^ 29) (hp : post.length < 2 ^ 62) :
    constantAs cfg (pre ++ encBlob (bs ++ more) ++ post) pre.length t = .ok v := by
  have hsz := hs.length
  rw [List.length_append] at hl
  unfold constantAs
  rw [C17_confined cfg pre (bs ++ more) post (by rw [List.length_append]; exact hl) hp]
  simp only [Res.ok_bind, blobReadAs]
  rw [readAs_eq cfg (Reader.new (bs ++ more)) t (by simp only [Reader.new]; omega),
    if_pos (by simp only [Reader.new, List.length_append]; omega), Reader.rest_new, ← hsz, List.take_left,
    (decode_iff t v bs hsz).mpr hs]
  rfl

/-- C113, instances: a negative `i16` in a buffer; the constants `true` and 42 in a blob heap. -/
example : Stands (.signed 2) (.int (-2)) [0xfe, 0xff] ∧
    Reader.readAs .debug ⟨[9, 0xfe, 0xff, 1], 1⟩ (.signed 2) = .ok (some (.int (-2)), ⟨[9, 0xfe, 0xff, 1], 3⟩) ∧
    constantAs .debug [0, 1, 1, 4, 42, 0, 0, 0] 1 .bool = .ok (.bool true) ∧
    constantAs .debug [0, 1, 1, 4, 42, 0, 0, 0] 3 (.signed 4) = .ok (.int 42) :=
  ⟨⟨0xfffe, by decide, by decide, by decide, by decide, -1, by decide⟩, by decide, by decide, by decide⟩

/-- **C113** is false of the code at the other two types: the safe call `read::<bool>()` has undefined behaviour on the
byte 2, `read::<char>()` on a surrogate, and a file can hold a boolean constant that has it; in both builds. -/
theorem C113_not_a_value_refuted (cfg : Cfg) :
    Reader.readAs cfg (Reader.new [2]) .bool = .ub ∧ Reader.readAs cfg (Reader.new [0, 0xd8, 0, 0]) .char = .ub ∧
    Reader.peekAs cfg (Reader.new [0, 0, 0x11, 0]) .char = .ub ∧ constantAs cfg [0, 1, 2] 1 .bool = .ub := by
  obtain ⟨b⟩ := cfg
  cases b <;> decide

end Clr
