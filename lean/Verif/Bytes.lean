import Verif.Base
/-!
# Byte strings

Little- and big-endian values of byte strings, and the inverse encoders. The encoders are specification
(how a file writer lays out an integer); the decoders model Rust's integer reads on a little-endian target
and `from_be`.
-/

namespace Clr

abbrev Bytes := List UInt8

/-- Little-endian value of a byte string. -/
def leNat : Bytes → Nat
  | [] => 0
  | b :: bs => b.toNat + 256 * leNat bs

/-- Little-endian encoding of `n` in `w` bytes. -/
def leBytes : Nat → Nat → Bytes
  | 0, _ => []
  | w + 1, n => UInt8.ofNat (n % 256) :: leBytes w (n / 256)

/-- Big-endian value of a byte string. -/
def beNat (bs : Bytes) : Nat := leNat bs.reverse

/-- Big-endian encoding of `n` in `w` bytes. -/
def beBytes (w n : Nat) : Bytes := (leBytes w n).reverse

theorem leNat_lt (bs : Bytes) : leNat bs < 256 ^ bs.length := by
  induction bs with
  | nil => simp [leNat]
  | cons b bs ih =>
    have hb : b.toNat < 256 := b.toNat_lt
    simp only [leNat, List.length_cons, Nat.pow_succ]
    omega

@[simp] theorem length_leBytes (w n : Nat) : (leBytes w n).length = w := by
  induction w generalizing n with
  | zero => rfl
  | succ w ih => simp [leBytes, ih]

@[simp] theorem length_beBytes (w n : Nat) : (beBytes w n).length = w := by simp [beBytes]

theorem leNat_leBytes (w n : Nat) (h : n < 256 ^ w) : leNat (leBytes w n) = n := by
  induction w generalizing n with
  | zero => simp at h; subst h; rfl
  | succ w ih =>
    have h' : n / 256 < 256 ^ w := by
      rw [Nat.pow_succ] at h
      exact Nat.div_lt_of_lt_mul (by omega)
    have hm : (UInt8.ofNat (n % 256)).toNat = n % 256 := by
      simp [UInt8.toNat_ofNat']
    simp only [leBytes, leNat, ih _ h', hm]
    omega

theorem leBytes_leNat (bs : Bytes) : leBytes bs.length (leNat bs) = bs := by
  induction bs with
  | nil => rfl
  | cons b bs ih =>
    have hb : b.toNat < 256 := b.toNat_lt
    have h1 : (b.toNat + 256 * leNat bs) % 256 = b.toNat := by omega
    have h2 : (b.toNat + 256 * leNat bs) / 256 = leNat bs := by omega
    simp [leBytes, leNat, h1, h2, ih]

theorem beNat_beBytes (w n : Nat) (h : n < 256 ^ w) : beNat (beBytes w n) = n := by
  simp [beNat, beBytes, leNat_leBytes w n h]

theorem beNat_lt (bs : Bytes) : beNat bs < 256 ^ bs.length := by
  have := leNat_lt bs.reverse
  simpa [beNat] using this

/-- Splits a byte string into `count` consecutive elements of `w` bytes. -/
def chunks (w : Nat) : Nat → Bytes → List Bytes
  | 0, _ => []
  | n + 1, bs => bs.take w :: chunks w n (bs.drop w)

@[simp] theorem length_chunks (w n : Nat) (bs : Bytes) : (chunks w n bs).length = n := by
  induction n generalizing bs with
  | zero => rfl
  | succ n ih => simp [chunks, ih]

theorem chunks_flatten (w : Nat) (xs : List Bytes) (rest : Bytes) (h : ∀ x ∈ xs, x.length = w) :
    chunks w xs.length (xs.flatten ++ rest) = xs := by
  induction xs with
  | nil => rfl
  | cons x xs ih =>
    have hx : x.length = w := h x (by simp)
    have := ih (fun y hy => h y (by simp [hy]))
    simp [chunks, List.append_assoc, ← hx] at *
    exact this

end Clr
