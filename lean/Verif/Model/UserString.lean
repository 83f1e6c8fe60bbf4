import Verif.Model.Blob
import Verif.Model.Token
/-! # `Assembly::get_string` in `clr_lite/src/vm/reflection/assembly.rs` -/

namespace Clr

/-- `Result::ok`: errors become `None`; panics stay. -/
def Res.toOption {α : Type} : Res α → Res (Option α)
  | .ok a => .ok (some a)
  | .err _ => .ok none
  | .panic => .panic
  | .ub => .ub
  | .timeout => .timeout

/-- `Assembly::get_string` (assembly.rs:232-241); `data` is `user_string_data`. -/
def getString (cfg : Cfg) (data : Bytes) (token : Token) : Res (Option (List Nat)) := do
  if token.table = 0x70 then do
    let d ← sliceFrom data token.index
    match ← Res.toOption (newBlobReader cfg d) with
    | none => pure none
    | some r => do
      let x ← Res.toOption (readUtf16Str cfg r)
      pure (x.map Prod.fst)
  else pure none

end Clr
