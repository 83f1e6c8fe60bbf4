import Verif.Bytes
/-!
# `std::str::from_utf8`

Rust `&str` values are modelled as the list of characters they denote.
-/

namespace Clr

/-- `lo ≤ b ≤ hi` for bytes. -/
def inRange (b : UInt8) (lo hi : Nat) : Bool := lo ≤ b.toNat && b.toNat ≤ hi

/-- Second-byte range of a three-byte sequence with first byte `b0` (Unicode table 3-7). -/
def range3 (b0 : UInt8) : Nat × Nat :=
  if b0.toNat = 0xe0 then (0xa0, 0xbf) else if b0.toNat = 0xed then (0x80, 0x9f) else (0x80, 0xbf)

/-- Second-byte range of a four-byte sequence with first byte `b0` (Unicode table 3-7). -/
def range4 (b0 : UInt8) : Nat × Nat :=
  if b0.toNat = 0xf0 then (0x90, 0xbf) else if b0.toNat = 0xf4 then (0x80, 0x8f) else (0x80, 0xbf)

/-- `std::str::from_utf8(data).ok()`, called at `binary_reader/src/lib.rs:69` and
`clr_lite/src/metadata/strings_heap.rs:26`. Modelled from the standard library's documented validation
(Unicode table 3-7); the result is the list of decoded characters. -/
def fromUtf8 : Bytes → Option (List Char)
  | [] => some []
  | b0 :: t0 =>
    if b0.toNat < 0x80 then
      (fromUtf8 t0).map (Char.ofNat b0.toNat :: ·)
    else match t0 with
      | [] => none
      | b1 :: t1 =>
        if inRange b0 0xc2 0xdf then
          if inRange b1 0x80 0xbf then
            (fromUtf8 t1).map (Char.ofNat ((b0.toNat - 0xc0) * 64 + (b1.toNat - 0x80)) :: ·)
          else none
        else match t1 with
          | [] => none
          | b2 :: t2 =>
            if inRange b0 0xe0 0xef then
              if inRange b1 (range3 b0).1 (range3 b0).2 && inRange b2 0x80 0xbf then
                (fromUtf8 t2).map
                  (Char.ofNat ((b0.toNat - 0xe0) * 4096 + (b1.toNat - 0x80) * 64 + (b2.toNat - 0x80)) :: ·)
              else none
            else match t2 with
              | [] => none
              | b3 :: t3 =>
                if inRange b0 0xf0 0xf4 then
                  if inRange b1 (range4 b0).1 (range4 b0).2 && inRange b2 0x80 0xbf && inRange b3 0x80 0xbf then
                    (fromUtf8 t3).map
                      (Char.ofNat ((b0.toNat - 0xf0) * 262144 + (b1.toNat - 0x80) * 4096
                        + (b2.toNat - 0x80) * 64 + (b3.toNat - 0x80)) :: ·)
                  else none
                else none

end Clr
