import Verif.Model.World
/-!
# The work behind a question: `clr_lite/src/vm/reflection/type.rs`

The recursive functions of `type.rs` once more, with a count of the steps they take: one step for each call of `size`,
`instance_of` or `all_fields`, for each interface compared and for each field listed. The answers are those of `Model/World`
(`Lemmas/Cost`: `instanceOfC_eq`, `allFieldsC_eq`, `typeSizeC_eq`). A call of `size` also looks up at most twelve names
(type.rs:406-429), which is not counted. -/

namespace Clr

/-- `Type::instance_of` (type.rs:386-396), counted: the call itself, and each interface that `contains` may look at. -/
def instanceOfC (w : World) (other : Nat) : Nat → Nat → Res (Bool × Nat)
  | 0, _ => .timeout
  | fuel + 1, t => do
    let tr ← w.typeAt t
    let o ← w.typeAt other
    if tr.fullName = o.fullName then pure (true, 1)
    else match tr.base with
      | some b => do
        let (a, c) ← instanceOfC w other fuel b
        pure (a, 1 + c)
      | none => do
        let is ← tr.interfaces.mapM w.typeAt
        pure (is.any (·.fullName = o.fullName), 1 + tr.interfaces.length)

/-- `Type::is_reference_type` (type.rs:398-401), counted. -/
def isReferenceTypeC (w : World) (fuel t : Nat) : Res (Bool × Nat) := do
  let v ← Res.unwrap (w.getType "System.ValueType".toList)
  let (b, c) ← instanceOfC w v fuel t
  pure (!b, c)

/-- The `fold` over the instance fields (type.rs:431-442), counted; `size` is the recursive call. -/
def fieldsSizeC (cfg : Cfg) (isRef : Nat → Res (Bool × Nat)) (size : Nat → Res (Nat × Nat)) :
    List FieldRec → Nat → Nat → Res (Nat × Nat)
  | [], a, c => .ok (a, c)
  | f :: fs, a, c => do
    let (r, c1) ← isRef f.fieldType
    let (s, c2) ← (if r then pure (8, 0) else size f.fieldType : Res (Nat × Nat))
    let a ← uadd cfg 64 a s
    fieldsSizeC cfg isRef size fs a (c + c1 + c2)

/-- `Type::size` (type.rs:404-449), counted. -/
def typeSizeC (cfg : Cfg) (w : World) : Nat → Nat → Res (Nat × Nat)
  | 0, _ => .timeout
  | fuel + 1, t => do
    let tr ← w.typeAt t
    match ← primitiveSize w tr.fullName primitiveSizes with
    | some s => pure (s, 1)
    | none => do
      let (size, c) ← fieldsSizeC cfg (isReferenceTypeC w fuel) (typeSizeC cfg w fuel) (tr.fields.filter (!·.isStatic)) 0 1
      match tr.base with
      | some b => do
        let (s, c') ← typeSizeC cfg w fuel b
        let s ← uadd cfg 64 size s
        pure (s, c + c')
      | none => pure (size, c)

/-- `Type::all_fields` (type.rs:339-345), counted: the call, and each field that is copied at this level or a level above. -/
def allFieldsC (w : World) : Nat → Nat → Res (List FieldRec × Nat)
  | 0, _ => .timeout
  | fuel + 1, t => do
    let tr ← w.typeAt t
    match tr.base with
    | some b => do
      let (fs, c) ← allFieldsC w fuel b
      pure (tr.fields ++ fs, 1 + tr.fields.length + fs.length + c)
    | none => pure (tr.fields, 1 + tr.fields.length)

end Clr
