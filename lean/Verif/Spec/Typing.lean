import Verif.Spec.Instructions
/-!
# Types of evaluation stacks, after ECMA-335 partition III

Verification (III.1.8) follows the types of the values on the evaluation stack, in the local variables and in the
arguments through the code. Here the types are the four numeric types of the evaluation stack that the interpreter keeps
apart, strings, arrays of `int32`, and classes.
-/

namespace Clr

/-- Types on the evaluation stack; a class is its number in the registry. -/
inductive Ty where
  | i4 | i8 | r4 | r8 | str | ints | obj (c : Nat)
deriving DecidableEq, Repr

def Ty.isNum : Ty → Bool
  | .i4 | .i8 | .r4 | .r8 => true
  | _ => false

/-- The types in one place of the code; the top of the stack comes first, a local without a value has no type. -/
structure Shape where
  stack : List Ty
  locals : List (Option Ty)
  args : List Ty
deriving DecidableEq, Repr

/-- Parameters, the receiver first, and result of a method. -/
structure MethodTy where
  params : List Ty
  result : Option Ty
deriving DecidableEq, Repr

/-- What the tokens in the code stand for: methods; constructors, with their class and the parameters without the new
object; fields, with their class and type; literals; and the type `int32`. -/
structure Env where
  methods : Nat → Option MethodTy := fun _ => none
  ctors : Nat → Option (Nat × List Ty) := fun _ => none
  fields : Nat → Option (Nat × Ty) := fun _ => none
  literals : Nat → Bool := fun _ => false
  intType : Nat → Bool := fun _ => false

/-- One rule for every type in a list. -/
def rulesFor (ms : List String) (ts : List Ty) (ins outs : Ty → List Ty) : List (String × List Ty × List Ty) :=
  ms.flatMap fun m => ts.map fun t => (m, ins t, outs t)

/-- The instructions whose effect depends on numbers only (III.1.5, III.3): mnemonic, types taken, types put, tops first. -/
def typeRules : List (String × List Ty × List Ty) :=
  rulesFor ["nop", "br", "br.s"] [.i4] (fun _ => []) (fun _ => []) ++
  rulesFor ["ldc.i4", "ldc.i4.s", "ldc.i4.0", "ldc.i4.1", "ldc.i4.2", "ldc.i4.3", "ldc.i4.4", "ldc.i4.5", "ldc.i4.6",
    "ldc.i4.7", "ldc.i4.8", "ldc.i4.m1"] [.i4] (fun _ => []) (fun t => [t]) ++
  [("ldc.i8", [], [.i8]), ("ldc.r4", [], [.r4]), ("ldc.r8", [], [.r8])] ++
  rulesFor ["add", "sub", "mul", "div", "rem"] [.i4, .i8, .r4, .r8] (fun t => [t, t]) (fun t => [t]) ++
  rulesFor ["and", "or", "xor", "div.un", "rem.un"] [.i4, .i8] (fun t => [t, t]) (fun t => [t]) ++
  rulesFor ["shl", "shr"] [.i4] (fun t => [t, t]) (fun t => [t]) ++
  rulesFor ["neg"] [.i4, .i8, .r4, .r8] (fun t => [t]) (fun t => [t]) ++
  rulesFor ["not"] [.i4, .i8] (fun t => [t]) (fun t => [t]) ++
  rulesFor ["ceq", "cgt", "cgt.un", "clt", "clt.un"] [.i4, .i8, .r4, .r8] (fun t => [t, t]) (fun _ => [.i4]) ++
  rulesFor ["beq", "bge", "bgt", "ble", "blt", "beq.s", "bge.s", "bgt.s", "ble.s", "blt.s"] [.i4, .i8, .r4, .r8]
    (fun t => [t, t]) (fun _ => []) ++
  rulesFor ["brfalse", "brtrue", "brfalse.s", "brtrue.s"] [.i4, .i8] (fun t => [t]) (fun _ => [])

/-- The instruction `e` with the operand `arg` changes the types from `σ` to `σ'`. Calls and `ret` are left to `Typed`. -/
inductive Move (env : Env) (e : Encoding) (arg : Bytes) (σ : Shape) : Shape → Prop
  | plain {ins outs rest : List Ty} : (e.mnemonic, ins, outs) ∈ typeRules → σ.stack = ins ++ rest →
      Move env e arg σ { σ with stack := outs ++ rest }
  | dup {t : Ty} {rest : List Ty} : e.mnemonic = "dup" → σ.stack = t :: rest →
      Move env e arg σ { σ with stack := t :: t :: rest }
  | pop {t : Ty} {rest : List Ty} : e.mnemonic = "pop" → σ.stack = t :: rest →
      Move env e arg σ { σ with stack := rest }
  | ldloc {i : Nat} {t : Ty} : e.opcode ++ arg ∈ Var.loc.loads i → σ.locals[i]? = some (some t) →
      Move env e arg σ { σ with stack := t :: σ.stack }
  | stloc {i : Nat} {t : Ty} {rest : List Ty} : e.opcode ++ arg ∈ Var.loc.stores i → i < σ.locals.length →
      σ.stack = t :: rest → Move env e arg σ { σ with stack := rest, locals := σ.locals.set i (some t) }
  | ldarg {i : Nat} {t : Ty} : e.opcode ++ arg ∈ Var.arg.loads i → σ.args[i]? = some t →
      Move env e arg σ { σ with stack := t :: σ.stack }
  | starg {i : Nat} {t : Ty} {rest : List Ty} : e.opcode ++ arg ∈ Var.arg.stores i → i < σ.args.length →
      σ.stack = t :: rest → Move env e arg σ { σ with stack := rest, args := σ.args.set i t }
  | ldstr {t : Nat} : e.mnemonic = "ldstr" → t < 2 ^ 32 → arg = leBytes 4 t → env.literals t = true →
      Move env e arg σ { σ with stack := .str :: σ.stack }
  | newarr {t : Nat} {rest : List Ty} : e.mnemonic = "newarr" → t < 2 ^ 32 → arg = leBytes 4 t → env.intType t = true →
      σ.stack = .i4 :: rest → Move env e arg σ { σ with stack := .ints :: rest }
  | ldelem {rest : List Ty} : e.mnemonic = "ldelem.i4" → σ.stack = .i4 :: .ints :: rest →
      Move env e arg σ { σ with stack := .i4 :: rest }
  | stelem {rest : List Ty} : e.mnemonic = "stelem.i4" → σ.stack = .i4 :: .i4 :: .ints :: rest →
      Move env e arg σ { σ with stack := rest }
  | ldfld {t c : Nat} {ty : Ty} {rest : List Ty} : e.mnemonic = "ldfld" → t < 2 ^ 32 → arg = leBytes 4 t →
      env.fields t = some (c, ty) → σ.stack = .obj c :: rest → Move env e arg σ { σ with stack := ty :: rest }
  | stfld {t c : Nat} {ty : Ty} {rest : List Ty} : e.mnemonic = "stfld" → t < 2 ^ 32 → arg = leBytes 4 t →
      env.fields t = some (c, ty) → σ.stack = ty :: .obj c :: rest → Move env e arg σ { σ with stack := rest }

/-- A value of the first type is one of the second: classes and what they derive from. -/
inductive Ty.Le (derives : Nat → Nat → Prop) : Ty → Ty → Prop
  | refl {t : Ty} : Ty.Le derives t t
  | obj {c d : Nat} : derives c d → Ty.Le derives (.obj c) (.obj d)

/-- A local of the first kind can be taken for one of the second; every local can be taken for one without a value. -/
inductive LocalLe (derives : Nat → Nat → Prop) : Option Ty → Option Ty → Prop
  | none {t : Option Ty} : LocalLe derives t none
  | some {t u : Ty} : Ty.Le derives t u → LocalLe derives (some t) (some u)

/-- Two lists of the same length, related place by place. -/
inductive All2 {α β : Type} (R : α → β → Prop) : List α → List β → Prop
  | nil : All2 R [] []
  | cons {a : α} {b : β} {as : List α} {bs : List β} : R a b → All2 R as bs → All2 R (a :: as) (b :: bs)

/-- The first types can be taken for the second ones. -/
structure Shape.Le (derives : Nat → Nat → Prop) (σ τ : Shape) : Prop where
  stack : All2 (Ty.Le derives) σ.stack τ.stack
  locals : All2 (LocalLe derives) σ.locals τ.locals
  args : All2 (Ty.Le derives) σ.args τ.args

/-- `S` allows the types `σ` at `ip`, perhaps seen as more general ones. -/
def Reaches (derives : Nat → Nat → Prop) (S : Nat → Shape → Prop) (ip : Nat) (σ : Shape) : Prop :=
  ∃ τ, σ.Le derives τ ∧ S ip τ

/-- `S ip σ` says that the method may reach the address `ip` with values of the types `σ`. Every instruction finds values
of the types it takes, and `S` contains what follows; `ret` finds exactly the result. -/
def Typed (encs : List Encoding) (derives : Nat → Nat → Prop) (env : Env) (result : Option Ty) (code : Bytes)
    (S : Nat → Shape → Prop) : Prop :=
  ∀ ip σ, S ip σ → ∃ e ∈ encs, ∃ arg : Bytes, arg.length = e.operand.size ∧ HasAt code ip (e.opcode ++ arg) ∧
    ((e.mnemonic = "ret" ∧ σ.stack = result.toList) ∨
     (e.mnemonic = "call" ∧ ∃ t s rest, t < 2 ^ 32 ∧ arg = leBytes 4 t ∧ env.methods t = some s ∧
        σ.stack = s.params.reverse ++ rest ∧
        Reaches derives S (ip + 5) { σ with stack := s.result.toList ++ rest }) ∨
     (e.mnemonic = "newobj" ∧ ∃ t c ps rest, t < 2 ^ 32 ∧ arg = leBytes 4 t ∧ env.ctors t = some (c, ps) ∧
        σ.stack = ps.reverse ++ rest ∧ Reaches derives S (ip + 5) { σ with stack := .obj c :: rest }) ∨
     (∃ σ', Move env e arg σ σ' ∧
        (e.mnemonic ≠ "br" → e.mnemonic ≠ "br.s" → Reaches derives S (ip + (e.opcode ++ arg).length) σ') ∧
        (e.operand = .target8 ∨ e.operand = .target32 →
          ∃ x : Int, ∃ t : Nat, arg = intBytes e.operand.size x ∧ Fits (8 * e.operand.size) x ∧
            (t : Int) = (ip + (e.opcode ++ arg).length : Nat) + x ∧ Reaches derives S t σ')))

/-- The instructions that can stop a program without being wrong: division by zero, quotients that do not fit, arrays of
negative length, indexes out of range; in builds with overflow checks also results that do not fit. -/
def trapping (checks : Bool) : List String :=
  ["div", "div.un", "rem", "rem.un", "newarr", "ldelem.i4", "stelem.i4"] ++
    if checks then ["add", "sub", "mul", "neg", "shl", "shr"] else []

end Clr
