import Verif.Model.World
/-!
# The printed forms of tokens, addresses, types and members

`fmt::Display` of `clr_lite/src/metadata/metadata_token.rs`, `clr_lite/src/pe.rs` and `clr_lite/src/vm/reflection/`. Rust's
number formatting (`core::fmt`) is modelled for the two formats used: `{:#x}` and `{:#010x}`.
-/

namespace Clr

/-- A digit of `{:x}`. -/
def lowerDigit (d : Nat) : Char := if d < 10 then Char.ofNat (48 + d) else Char.ofNat (87 + d)

/-- The digits of `{:x}`, without leading zeros; `0` has one digit. -/
def lowerDigits (n : Nat) : List Char := if n < 16 then [lowerDigit n] else lowerDigits (n / 16) ++ [lowerDigit (n % 16)]

/-- `{:#x}` (pe.rs:28, pe.rs:18). -/
def showHex (n : Nat) : List Char := '0' :: 'x' :: lowerDigits n

/-- `{:#010x}` (metadata_token.rs:24, 30): zeros are inserted after the prefix up to a total width of 10. -/
def showHex10 (n : Nat) : List Char := '0' :: 'x' :: (List.replicate (8 - (lowerDigits n).length) '0' ++ lowerDigits n)

/-- `Display for MetadataToken` (metadata_token.rs:28-32), also its `Debug` (metadata_token.rs:22-26). -/
def Token.display (t : Token) : List Char := showHex10 t.raw

/-- `Display for Type` (type.rs:496-500). -/
def displayType (w : World) (t : Nat) : Res Name := do
  let tr ← w.typeAt t
  pure tr.fullName

/-- `Display for Parameter` (parameter.rs:28-32). -/
def displayParam (w : World) (p : ParamRec) : Res Name := do
  let tr ← w.typeAt p.paramType
  pure (tr.name ++ ' ' :: p.name)

/-- `Display for Field` (field.rs:64-68). -/
def displayField (w : World) (f : FieldRec) : Res Name := do
  let tr ← w.typeAt f.fieldType
  pure (tr.name ++ ' ' :: f.name)

/-- The parameter loop of `Display for Method` (method.rs:189-194). -/
def displayParams (w : World) : List ParamRec → Res Name
  | [] => .ok []
  | [p] => do
    let tr ← w.typeAt p.paramType
    pure tr.name
  | p :: ps => do
    let tr ← w.typeAt p.paramType
    let rest ← displayParams w ps
    pure (tr.name ++ ',' :: ' ' :: rest)

/-- `Display for Method` (method.rs:185-197). -/
def displayMethod (w : World) (x : MethodRec) : Res Name := do
  let ret ← w.typeAt x.returnType
  let ps ← displayParams w x.params
  pure (ret.name ++ ' ' :: x.name ++ '(' :: ps ++ [')'])

end Clr
