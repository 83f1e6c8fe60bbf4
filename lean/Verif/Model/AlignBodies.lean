import Verif.Model.AlignFiles
import Verif.Model.Loader
import Verif.Model.UserString
/-!
# Addresses of typed accesses in method bodies and user strings

`MethodBody::load` and `Assembly::get_string` a second time, with the address checked at every read of a type with an alignment.
Simplification: the signature of the local variables is read without the check (`Clr.readLocals`).
-/

namespace Clr.Strict

/-- An integer read with `ok_or_else(|| "Invalid method body")`, as `Clr.bodyU`; `base` is the address of the reader's bytes. -/
def bodyU (base : Nat) (cfg : Cfg) (r : Reader) (w : Nat) : Res (Nat × Reader) := do
  let (x, r) ← readNum base cfg r w
  let x ← Res.ofOption "Invalid method body" x
  pure (x, r)

/-- One fat clause (method_body.rs:138-179). -/
def readFatClause (base : Nat) (cfg : Cfg) (m : Metadata) (r : Reader) : M (ExceptionClause × Reader) := do
  let (code, r) ← bodyU base cfg r 4
  let ty ← clauseTypeOf code
  let (tryOffset, r) ← bodyU base cfg r 4
  let (tryLength, r) ← bodyU base cfg r 4
  let (handlerOffset, r) ← bodyU base cfg r 4
  let (handlerLength, r) ← bodyU base cfg r 4
  let (token, r) ← bodyU base cfg r 4
  let c ← newClause cfg m ty tryOffset tryLength handlerOffset handlerLength token
  pure (c, r)

/-- One small clause (method_body.rs:189-230). -/
def readSmallClause (base : Nat) (cfg : Cfg) (m : Metadata) (r : Reader) : M (ExceptionClause × Reader) := do
  let (code, r) ← bodyU base cfg r 2
  let ty ← clauseTypeOf code
  let (tryOffset, r) ← bodyU base cfg r 2
  let (tryLength, r) ← bodyU base cfg r 1
  let (handlerOffset, r) ← bodyU base cfg r 2
  let (handlerLength, r) ← bodyU base cfg r 1
  let (token, r) ← bodyU base cfg r 4
  let c ← newClause cfg m ty tryOffset tryLength handlerOffset handlerLength token
  pure (c, r)

/-- The extra data section (method_body.rs:110-233). -/
def readClauseSection (base : Nat) (cfg : Cfg) (m : Metadata) (r : Reader) : M (List ExceptionClause) := do
  let r := (r.goto ((r.pos + 3) / 4 * 4)).2
  let (next, r) ← bodyU base cfg r 1
  if next &&& 0x1 ≠ 0x1 then M.lift (.err "Non exception extra section in method body")
  else do
    let (dataSize, r) ← bodyU base cfg r 1
    if next &&& 0x40 = 0x40 then do
      let (high, r) ← bodyU base cfg r 2
      readClauses (readFatClause base cfg m) ((dataSize + high <<< 8) / 24) r
    else do
      let (_, r) ← r.advance cfg 2
      readClauses (readSmallClause base cfg m) (dataSize / 12) r

/-- The clauses of a fat body, when the header announces them (method_body.rs:112). -/
def readMoreSections (base : Nat) (cfg : Cfg) (m : Metadata) (b : Nat) (r : Reader) : M (List ExceptionClause) :=
  if b &&& 0x8 = 0x8 then readClauseSection base cfg m r else pure []

/-- `MethodBody::load` (method_body.rs:22-245), for a file at address `base`. -/
def loadBody (base : Nat) (cfg : Cfg) (m : Metadata) (rva : Nat) : M MethodBody := do
  let off ← Res.mapErr (fun _ => "Cannot find method body") (resolveRva cfg rva m.peInfo.sections)
  let d ← sliceFrom m.peData off
  let r := Reader.new d
  let (b, r) ← bodyU (base + off) cfg r 1
  if b &&& 0x3 = 0x2 then do
    let (code, _) ← bodyBytes cfg r ((b &&& 0xfc) >>> 2)
    pure { code, maxStack := 8, locals := [], initLocals := decide (b &&& 0x10 = 0x10), clauses := [] }
  else if b &&& 0x3 = 0x3 then do
    let (_, r) ← r.advance cfg 1
    let (maxStack, r) ← bodyU (base + off) cfg r 2
    let (codeSize, r) ← bodyU (base + off) cfg r 4
    let (token, r) ← bodyU (base + off) cfg r 4
    let locals ← readLocals cfg m ⟨token⟩
    let (code, r) ← bodyBytes cfg r codeSize
    let clauses ← readMoreSections (base + off) cfg m b r
    pure { code, maxStack, locals, initLocals := decide (b &&& 0x10 = 0x10), clauses }
  else M.lift (.err "Invalid method body")

/-- `BlobReader::read::<T>` (blob_reader.rs:36-40) for an integer type. -/
def blobRead (base : Nat) (cfg : Cfg) (r : Reader) (w : Nat) : Res (Bytes × Reader) := do
  match ← readAt base cfg r w w with
  | (some b, r') => pure (b, r')
  | (none, _) => .err "Unexpected EOF"

/-- `BlobReader::read_compressed_u32` (blob_reader.rs:48-57). -/
def readCompressed (base : Nat) (cfg : Cfg) (r : Reader) : Res (Nat × Reader) := do
  let x ← peekByte cfg r
  if x &&& 0xc0 = 0xc0 then do
    let (b, r) ← blobRead base cfg r 4
    let v ← usub cfg 32 (beNat b) 0xc0000000
    pure (v, r)
  else if x &&& 0x80 = 0x80 then do
    let (b, r) ← blobRead base cfg r 2
    let v ← usub cfg 32 (beNat b) 0x8000
    pure (v, r)
  else do
    let (b, r) ← readByte cfg r
    pure (b, r)

/-- `BlobReader::new` (blob_reader.rs:24-34); also the address of the contents. -/
def newBlobReader (base : Nat) (cfg : Cfg) (data : Bytes) : Res (Reader × Nat) := do
  let (length, r) ← Res.mapErr (fun _ => "Couldn't read blob length") (readCompressed base cfg (Reader.new data))
  let e ← uadd cfg 64 r.pos length
  let s ← slice data r.pos e
  pure (Reader.new s, base + r.pos)

/-- `BlobReader::read_utf16_str` (blob_reader.rs:59-65). -/
def readUtf16Str (base : Nat) (cfg : Cfg) (r : Reader) : Res (List Nat × Reader) := do
  match ← readArrayAt base cfg r 2 2 (r.data.length / 2) with
  | (some xs, r') => pure (xs.map leNat, r')
  | (none, _) => .err "Unable to read UTF16 string from blob"

/-- `Assembly::get_string` (assembly.rs:232-241), for `user_string_data` at address `base`. -/
def getString (base : Nat) (cfg : Cfg) (data : Bytes) (token : Token) : Res (Option (List Nat)) := do
  if token.table = 0x70 then do
    let d ← sliceFrom data token.index
    match ← Res.toOption (newBlobReader (base + token.index) cfg d) with
    | none => pure none
    | some (r, contents) => do
      let x ← Res.toOption (readUtf16Str contents cfg r)
      pure (x.map Prod.fst)
  else pure none

end Clr.Strict
