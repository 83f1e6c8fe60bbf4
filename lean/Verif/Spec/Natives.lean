import Verif.Spec.Objects
import Verif.Spec.Output
import Verif.Model.Interp
/-! # What the methods provided by the runtime do, by the documentation of the class library -/

namespace Clr.Spec

/-- Called with these arguments (the object first), a method returns the value and writes the text. A character is returned
as the 32-bit number that represents it on the evaluation stack (ECMA-335 I.12.1). -/
inductive Library (h : Heap) : InternalMethod → List Value → Option Value → List Char → Prop
  /-- `Console.Write(text)`. -/
  | write {p : Ptr} {id : Nat} {text : List Char} (hp : h.Has p (stringImage id (text.flatMap utf16)))
      (hl : (text.flatMap utf16).length < 2 ^ 31) : Library h .consoleWrite [.object p] none text
  /-- `s.Length`. -/
  | length {p : Ptr} {id : Nat} {us : List Nat} (hp : h.Has p (stringImage id us)) (hl : us.length < 2 ^ 31) :
      Library h .stringGetLength [.object p] (some (.i32 us.length)) []
  /-- `s[i]`. -/
  | item {p : Ptr} {id i u : Nat} {us : List Nat} (hp : h.Has p (stringImage id us)) (hl : us.length < 2 ^ 31)
      (hi : us[i]? = some u) (hu : u < 0x10000) : Library h .stringGetItem [.object p, .i32 i] (some (.i32 u)) []

end Clr.Spec
