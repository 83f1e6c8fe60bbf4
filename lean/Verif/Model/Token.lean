import Verif.Base
/-! # `clr_lite/src/metadata/metadata_token.rs` -/

namespace Clr

/-- `struct MetadataToken(u32)` (metadata_token.rs:6). -/
structure Token where
  raw : Nat
deriving DecidableEq, Repr

/-- `MetadataToken::new` (metadata_token.rs:9-11): `index as u32 | (table as u32) << 24`. Table codes are below
2^8, so the shift loses nothing. -/
def Token.new (index table : Nat) : Token := ⟨(index % 2 ^ 32) ||| (table <<< 24)⟩

/-- `MetadataToken::table` (metadata_token.rs:13-15). -/
def Token.table (t : Token) : Nat := (t.raw &&& 0xff000000) >>> 24

/-- `MetadataToken::index` (metadata_token.rs:17-19). -/
def Token.index (t : Token) : Nat := t.raw &&& 0xffffff

end Clr
