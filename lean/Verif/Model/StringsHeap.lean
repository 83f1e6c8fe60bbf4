import Verif.Model.BinaryReader
/-! # `clr_lite/src/metadata/strings_heap.rs` -/

namespace Clr

/-- `struct StringsHeap` (strings_heap.rs:4-7). The `HashMap` cache is an association list, newest first. -/
structure StringsHeap where
  data : Bytes
  cache : List (Nat × List Char)
deriving DecidableEq, Repr

/-- `StringsHeap::new` (strings_heap.rs:13-18). -/
def StringsHeap.new (data : Bytes) : StringsHeap := ⟨data, []⟩

/-- `entry(index).or_insert(v)` (strings_heap.rs:25): an existing entry wins, otherwise `v` is stored. -/
def orInsert (cache : List (Nat × List Char)) (index : Nat) (v : List Char) : List Char × List (Nat × List Char) :=
  match cache.lookup index with
  | some old => (old, cache)
  | none => (v, (index, v) :: cache)

/-- `StringsHeap::get` (strings_heap.rs:20-34). The argument of `or_insert` is evaluated even when the entry
exists; its `?` returns `None` before the cache is changed. The heap with the new cache is returned too. -/
def StringsHeap.get (h : StringsHeap) (index : Nat) : Res (Option (List Char) × StringsHeap) := do
  if index > h.data.length then pure (none, h)
  else do
    let tail ← sliceFrom h.data index
    match Reader.nulPos tail with
    | none => pure (none, h)
    | some n => do
      let bytes ← slice h.data index (index + n)
      match fromUtf8 bytes with
      | none => pure (none, h)
      | some v =>
        let (s, cache) := orInsert h.cache index v
        pure (some s, { h with cache })

end Clr
