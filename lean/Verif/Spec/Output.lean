import Verif.Model.Heap
/-! # Text -/

namespace Clr

/-- The UTF-16 encoding of a character (RFC 2781, 2.1). -/
def utf16 (c : Char) : List Nat :=
  if c.toNat < 0x10000 then [c.toNat]
  else [0xd800 + (c.toNat - 0x10000) / 0x400, 0xdc00 + (c.toNat - 0x10000) % 0x400]

/-- The units of the string object behind `p`: a count at offset 5, the units from offset 13 on. See
`stringAt_of_has` for its relation to `stringImage`. -/
def stringAt (h : Heap) (p : Ptr) : List Nat :=
  let b := h.mem.drop p.off
  (List.range (leNat ((b.drop 5).take 8))).map fun i => leNat ((b.drop (13 + 2 * i)).take 2)

end Clr
