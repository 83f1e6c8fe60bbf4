import Verif.Bytes
/-! # UTF-8 encoding (Unicode, section 3.9), used as the specification of text in files. -/

namespace Clr.Spec

/-- UTF-8 encoding of one character. -/
def utf8Char (c : Char) : Bytes :=
  let n := c.toNat
  if n < 0x80 then [UInt8.ofNat n]
  else if n < 0x800 then [UInt8.ofNat (0xc0 + n / 64), UInt8.ofNat (0x80 + n % 64)]
  else if n < 0x10000 then
    [UInt8.ofNat (0xe0 + n / 4096), UInt8.ofNat (0x80 + n / 64 % 64), UInt8.ofNat (0x80 + n % 64)]
  else
    [UInt8.ofNat (0xf0 + n / 262144), UInt8.ofNat (0x80 + n / 4096 % 64),
      UInt8.ofNat (0x80 + n / 64 % 64), UInt8.ofNat (0x80 + n % 64)]

/-- UTF-8 encoding of a text. -/
def utf8 : List Char → Bytes
  | [] => []
  | c :: cs => utf8Char c ++ utf8 cs

end Clr.Spec
