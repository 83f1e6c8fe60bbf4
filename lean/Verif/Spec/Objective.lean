import Verif.Spec.Abstract
import Verif.Spec.Output
import Verif.Spec.Floats
/-!
# The abstract machine for programs with numbers, objects, arrays, strings and output, after ECMA-335 partitions I.12 and III

As in `Spec/Abstract.lean`, every activation has its own evaluation stack, locals and arguments. What activations share is a
store: objects, numbered in the order in which they were made, and the text written so far. There are no addresses and no
bytes; an object is not destroyed. Values are numbers and references to objects; there is no null reference. What the hardware
computes on floating-point numbers is a parameter (`FloatOps`), as in `Spec/Floats.lean`.
-/

namespace Clr.Obj

/-! ## Numbers -/

/-- The kinds of numbers: integers of 32 and 64 bits, floating-point numbers of 32 and 64 bits. -/
inductive Kind where
  | int | long | single | double
deriving DecidableEq, Repr

/-- A number; of a floating-point number, its bits. -/
inductive Num where
  | int (x : BitVec 32)
  | long (x : BitVec 64)
  | single (x : BitVec 32)
  | double (x : BitVec 64)
deriving DecidableEq, Repr

def Num.kind : Num → Kind
  | .int _ => .int | .long _ => .long | .single _ => .single | .double _ => .double

/-- The bytes that a number needs. -/
def Kind.width : Kind → Nat
  | .int | .single => 4
  | .long | .double => 8

def Kind.zero : Kind → Num
  | .int => .int 0 | .long => .long 0 | .single => .single 0 | .double => .double 0

/-- The full name of the type of such numbers. -/
def Kind.typeName : Kind → List Char
  | .int => "System.Int32".toList | .long => "System.Int64".toList
  | .single => "System.Single".toList | .double => "System.Double".toList

/-- A number as the host and the program exchange it. -/
def Num.value : Num → Value
  | .int x => .i32 x | .long x => .i64 x | .single x => .f32 x | .double x => .f64 x

/-- The result of an operation, wrapped. -/
def _root_.Clr.Outcome.map {α β : Type} (f : α → β) (o : Outcome α) : Outcome β := o.bind fun a => .done (f a)

/-- The exact result `n` as a 64-bit number; with `checked` arithmetic the program stops if it is not one. -/
def fitLong (checked : Bool) (n : Int) : Outcome (BitVec 64) :=
  if checked = true ∧ ¬ Fits 64 n then .stops else .done (BitVec.ofInt 64 n)

/-- Division of 64-bit numbers stops the program for divisor 0 and for -2^63 by -1. -/
def dividesLong (a b : BitVec 64) : Prop := ¬ (b.toInt = 0 ∨ a.toInt = -2 ^ 63 ∧ b.toInt = -1)

instance (a b : BitVec 64) : Decidable (dividesLong a b) := by unfold dividesLong; infer_instance

/-- `neg` (III.3.50). -/
def Num.neg (F : FloatOps) (checked : Bool) : Num → Outcome Num
  | .int a => (fit checked (-a.toInt)).map .int
  | .long a => (fitLong checked (-a.toInt)).map .long
  | .single a => .done (.single (F.single.neg a))
  | .double a => .done (.double (F.double.neg a))

/-- `not` (III.3.51): of integers only. -/
def Num.not : Num → Outcome Num
  | .int a => .done (.int (~~~a))
  | .long a => .done (.long (~~~a))
  | _ => .undefined

/-- The operation on floating-point numbers. -/
def _root_.Clr.Arith.float : Arith → FloatOp
  | .add => .add | .sub => .sub | .mul => .mul

/-- `add`, `sub`, `mul` (III.3.1, III.3.65, III.3.48) of two numbers of the same kind. -/
def Num.arith (F : FloatOps) (checked : Bool) (op : Arith) : Num → Num → Outcome Num
  | .int a, .int b => (fit checked (op.exact a.toInt b.toInt)).map .int
  | .long a, .long b => (fitLong checked (op.exact a.toInt b.toInt)).map .long
  | .single a, .single b => .done (.single (op.float.of F.single a b))
  | .double a, .double b => .done (.double (op.float.of F.double a b))
  | _, _ => .undefined

/-- `and`, `or`, `xor` (III.3.2, III.3.53, III.3.67) of two integers of the same width. -/
def Num.bitwise (op : Bitwise) : Num → Num → Outcome Num
  | .int a, .int b => .done (.int (op.result a b))
  | .long a, .long b => .done (.long (match op with | .and => a &&& b | .or => a ||| b | .xor => a ^^^ b))
  | _, _ => .undefined

/-- `shl`, `shr` (III.3.58, III.3.59) of 32-bit integers. -/
def Num.shift (checked : Bool) (op : Shift) : Num → Num → Outcome Num
  | .int a, .int b => (shiftResult checked op a b).map .int
  | _, _ => .undefined

/-- `div` (III.3.31) of two numbers of the same kind: integers are divided toward zero. -/
def Num.div (F : FloatOps) : Num → Num → Outcome Num
  | .int a, .int b => if divides a b then .done (.int (BitVec.ofInt 32 (a.toInt.tdiv b.toInt))) else .stops
  | .long a, .long b => if dividesLong a b then .done (.long (BitVec.ofInt 64 (a.toInt.tdiv b.toInt))) else .stops
  | .single a, .single b => .done (.single (F.single.div a b))
  | .double a, .double b => .done (.double (F.double.div a b))
  | _, _ => .undefined

/-- `rem` (III.3.55). -/
def Num.rem (F : FloatOps) : Num → Num → Outcome Num
  | .int a, .int b => if divides a b then .done (.int (BitVec.ofInt 32 (a.toInt.tmod b.toInt))) else .stops
  | .long a, .long b => if dividesLong a b then .done (.long (BitVec.ofInt 64 (a.toInt.tmod b.toInt))) else .stops
  | .single a, .single b => .done (.single (F.single.rem a b))
  | .double a, .double b => .done (.double (F.double.rem a b))
  | _, _ => .undefined

/-- Whether a comparison of two numbers of the same kind holds. None holds of unordered floating-point numbers. -/
def Num.compares (F : FloatOps) (c : Compare) : Num → Num → Option Bool
  | .int a, .int b => some (decide (c.holds a.toInt b.toInt))
  | .long a, .long b => some (decide (c.holds a.toInt b.toInt))
  | .single a, .single b => some (c.ordered (F.single.cmp a b))
  | .double a, .double b => some (c.ordered (F.double.cmp a b))
  | _, _ => none

/-- Whether the branch is taken, for two numbers of the same kind. -/
def Num.branches (F : FloatOps) (c : Branch2) : Num → Num → Option Bool
  | .int a, .int b => some (decide (c.holds a.toInt b.toInt))
  | .long a, .long b => some (decide (c.holds a.toInt b.toInt))
  | .single a, .single b => some (c.ordered (F.single.cmp a b))
  | .double a, .double b => some (c.ordered (F.double.cmp a b))
  | _, _ => none

/-- Whether `brtrue` or `brfalse` is taken, for an integer. -/
def Num.branch (c : Branch1) : Num → Option Bool
  | .int a => some (decide (c.holds a.toInt))
  | .long a => some (decide (c.holds a.toInt))
  | _ => none

/-! ## Objects -/

/-- A value. -/
inductive Val where
  | num (n : Num)
  | ref (o : Nat)
deriving DecidableEq, Repr

/-- A 32-bit integer. -/
@[match_pattern] abbrev Val.int (x : BitVec 32) : Val := .num (.int x)

/-- What matters of a class: the fields of its instances, its own and those of its base classes, with the kinds of numbers they
hold, and the number of bytes that an implementation needs for all fields. -/
structure Class where
  fields : List (Nat × Kind)
  size : Nat
deriving DecidableEq, Repr

/-- An object: a string, an array of 32-bit integers, or an instance of a class with the values of its fields. -/
inductive Cell where
  | str (text : List Char)
  | ints (xs : List (BitVec 32))
  | inst (cls : Class) (val : Nat × Kind → Num)

/-- The store. -/
structure Store where
  cells : List Cell
  output : List Char

/-- The bytes needed for an object: two per UTF-16 unit, four per element, and a header. -/
def Cell.cost : Cell → Nat
  | .str text => 13 + 2 * (text.flatMap utf16).length
  | .ints xs => 17 + 4 * xs.length
  | .inst cls _ => 5 + cls.size

/-- The bytes needed for all objects. -/
def Store.cost (s : Store) : Nat := (s.cells.map Cell.cost).sum

/-- A new object. Its reference is the number of objects there were. -/
def Store.add (s : Store) (c : Cell) : Store := { s with cells := s.cells ++ [c] }

/-- An object changed. -/
def Store.put (s : Store) (o : Nat) (c : Cell) : Store := { s with cells := s.cells.set o c }

/-- A new instance: all fields are zero. -/
def Class.new (cls : Class) : Cell := .inst cls fun f => f.2.zero

/-- Instructions: those of integer programs, constants of the other kinds of numbers, and those on objects. -/
inductive Instr where
  | base (i : Abs.Instr)
  | const (n : Num)
  | ldstr (t : Nat)
  | newarr (t : Nat)
  | ldelem
  | stelem
  | ldfld (t : Nat)
  | stfld (t : Nat)

/-- The encodings of an instruction. -/
inductive Enc (ok : Bytes → Prop) : Instr → Bytes → Prop
  | base {i : Abs.Instr} {c : Bytes} : Abs.Enc ok i c → Enc ok (.base i) c
  | long {x : BitVec 64} : Enc ok (.const (.long x)) (0x21 :: leBytes 8 x.toNat)
  | single {x : BitVec 32} : Enc ok (.const (.single x)) (0x22 :: leBytes 4 x.toNat)
  | double {x : BitVec 64} : Enc ok (.const (.double x)) (0x23 :: leBytes 8 x.toNat)
  | ldstr {t : Nat} : t < 2 ^ 32 → Enc ok (.ldstr t) (0x72 :: leBytes 4 t)
  | newarr {t : Nat} : t < 2 ^ 32 → Enc ok (.newarr t) (0x8d :: leBytes 4 t)
  | ldelem : Enc ok .ldelem [0x94]
  | stelem : Enc ok .stelem [0x9e]
  | ldfld {t : Nat} : t < 2 ^ 32 → Enc ok (.ldfld t) (0x7b :: leBytes 4 t)
  | stfld {t : Nat} : t < 2 ^ 32 → Enc ok (.stfld t) (0x7d :: leBytes 4 t)

/-- An activation: evaluation stack (top first), locals (those that have been assigned have a value), arguments. -/
structure Act where
  stack : List Val
  locals : List (Option Val)
  args : List Val
deriving DecidableEq, Repr

/-- The value of a variable. -/
def Act.get (σ : Act) : Var → Nat → Option Val
  | .loc, i => σ.locals[i]?.join
  | .arg, i => σ.args[i]?

/-- Assignment to a variable. -/
def Act.set (σ : Act) (a : Val) : Var → Nat → Option Act
  | .loc, i => if i < σ.locals.length then some { σ with locals := σ.locals.set i (some a) } else none
  | .arg, i => if i < σ.args.length then some { σ with args := σ.args.set i a } else none

/-- An operation on the two topmost values, the upper one being the right operand. -/
def Act.binary (σ : Act) (f : Num → Num → Outcome Num) : Outcome (Act × Int) :=
  match σ.stack with
  | .num b :: .num a :: s => (f a b).bind fun r => .done ({ σ with stack := .num r :: s }, 0)
  | _ => .undefined

/-- An operation on the topmost value. -/
def Act.unary (σ : Act) (f : Num → Outcome Num) : Outcome (Act × Int) :=
  match σ.stack with
  | .num a :: s => (f a).bind fun r => .done ({ σ with stack := .num r :: s }, 0)
  | _ => .undefined

/-- The effect of an instruction of integer programs. Any value can be stored, loaded, duplicated and dropped, and references
can be compared with `ceq` and `beq`: they are equal when they refer to the same object. -/
def Act.base (F : FloatOps) (checked : Bool) (σ : Act) : Abs.Instr → Outcome (Act × Int)
  | .nop => .done (σ, 0)
  | .const n => .done ({ σ with stack := .int (BitVec.ofInt 32 n) :: σ.stack }, 0)
  | .load x i =>
    match σ.get x i with
    | some a => .done ({ σ with stack := a :: σ.stack }, 0)
    | none => .undefined
  | .store x i =>
    match σ.stack with
    | a :: s =>
      match ({ σ with stack := s } : Act).set a x i with
      | some σ' => .done (σ', 0)
      | none => .undefined
    | [] => .undefined
  | .dup =>
    match σ.stack with
    | a :: s => .done ({ σ with stack := a :: a :: s }, 0)
    | [] => .undefined
  | .pop =>
    match σ.stack with
    | _ :: s => .done ({ σ with stack := s }, 0)
    | [] => .undefined
  | .neg => σ.unary (Num.neg F checked)
  | .not => σ.unary Num.not
  | .arith op => σ.binary (Num.arith F checked op)
  | .bitwise op => σ.binary (Num.bitwise op)
  | .shift op => σ.binary (Num.shift checked op)
  | .div => σ.binary (Num.div F)
  | .rem => σ.binary (Num.rem F)
  | .compare c =>
    match c, σ.stack with
    | .eq, .ref b :: .ref a :: s => .done ({ σ with stack := .int (if a = b then 1 else 0) :: s }, 0)
    | c, .num b :: .num a :: s =>
      match Num.compares F c a b with
      | some r => .done ({ σ with stack := .int (if r then 1 else 0) :: s }, 0)
      | none => .undefined
    | _, _ => .undefined
  | .br d => .done (σ, d)
  | .br1 c d =>
    match σ.stack with
    | .num a :: s =>
      match Num.branch c a with
      | some r => .done ({ σ with stack := s }, if r then d else 0)
      | none => .undefined
    | _ => .undefined
  | .br2 c d =>
    match c, σ.stack with
    | .beq, .ref b :: .ref a :: s => .done ({ σ with stack := s }, if a = b then d else 0)
    | c, .num b :: .num a :: s =>
      match Num.branches F c a b with
      | some r => .done ({ σ with stack := s }, if r then d else 0)
      | none => .undefined
    | _, _ => .undefined

/-- What the token of a `call` stands for: a procedure, or the function that writes a string. -/
inductive Callee where
  | proc (j : Nat)
  | write
deriving DecidableEq, Repr

/-- A procedure, with what its tokens stand for: procedures, constructors with their classes, fields, literals, and the type of
32-bit integers. The object that an instance method is called on counts as its first parameter. -/
structure Proc where
  code : Bytes
  params : Nat
  locals : Nat
  returns : Bool
  calls : Nat → Option Callee := fun _ => none
  news : Nat → Option (Class × Nat) := fun _ => none
  fields : Nat → Option (Nat × Kind) := fun _ => none
  strings : Nat → Option (List Char) := fun _ => none
  ints : Nat → Bool := fun _ => false

/-- The element of an array. -/
def element (xs : List (BitVec 32)) (i : BitVec 32) : Option (BitVec 32) :=
  if i.toInt < 0 then none else xs[i.toInt.toNat]?

/-- The effect of an instruction: the new store, the new activation and the displacement of the jump. An index outside the
array stops the program, as does a negative length; but if `negative` is false, it is left open what that does. -/
def Instr.effect (F : FloatOps) (checked negative : Bool) (p : Proc) (s : Store) (σ : Act) : Instr → Outcome (Store × Act × Int)
  | .base i => (σ.base F checked i).bind fun r => .done (s, r.1, r.2)
  | .const n => .done (s, { σ with stack := .num n :: σ.stack }, 0)
  | .ldstr t =>
    match p.strings t with
    | some text => .done (s.add (.str text), { σ with stack := .ref s.cells.length :: σ.stack }, 0)
    | none => .undefined
  | .newarr t =>
    match p.ints t, σ.stack with
    | true, .int n :: st =>
      if 0 ≤ n.toInt then
        .done (s.add (.ints (List.replicate n.toInt.toNat 0)), { σ with stack := .ref s.cells.length :: st }, 0)
      else if negative then .stops else .undefined
    | _, _ => .undefined
  | .ldelem =>
    match σ.stack with
    | .int i :: .ref o :: st =>
      match s.cells[o]? with
      | some (.ints xs) =>
        match element xs i with
        | some x => .done (s, { σ with stack := .int x :: st }, 0)
        | none => .stops
      | _ => .undefined
    | _ => .undefined
  | .stelem =>
    match σ.stack with
    | .int x :: .int i :: .ref o :: st =>
      match s.cells[o]? with
      | some (.ints xs) =>
        match element xs i with
        | some _ => .done (s.put o (.ints (xs.set i.toInt.toNat x)), { σ with stack := st }, 0)
        | none => .stops
      | _ => .undefined
    | _ => .undefined
  | .ldfld t =>
    match p.fields t, σ.stack with
    | some f, .ref o :: st =>
      match s.cells[o]? with
      | some (.inst cls val) => if f ∈ cls.fields then .done (s, { σ with stack := .num (val f) :: st }, 0) else .undefined
      | _ => .undefined
    | _, _ => .undefined
  | .stfld t =>
    match p.fields t, σ.stack with
    | some f, .num x :: .ref o :: st =>
      match s.cells[o]? with
      | some (.inst cls val) =>
        if f ∈ cls.fields ∧ x.kind = f.2 then
          .done (s.put o (.inst cls fun g => if g = f then x else val g), { σ with stack := st }, 0)
        else .undefined
      | _ => .undefined
    | _, _ => .undefined

/-- A fresh activation; `init` is what locals hold at first. -/
def Proc.start (p : Proc) (init : Option Val) (args : List Val) : Act := ⟨[], List.replicate p.locals init, args⟩

/-- What `ret` gives: in a procedure with a result exactly that is on the stack, otherwise nothing. -/
inductive Proc.Result (p : Proc) : List Val → Option Val → Prop
  | value {a : Val} : p.returns = true → Result p [a] (some a)
  | void : p.returns = false → Result p [] none

/-- The parameters of the machine: the floating-point operations, whether arithmetic is checked, whether negative array lengths
stop a program, the encodings of loads and stores in use, what locals hold at first, and the procedures. -/
structure Machine where
  floats : FloatOps
  checked : Bool
  negative : Bool
  ok : Bytes → Prop
  init : Option Val
  prog : Nat → Option Proc

/-- `Runs M n k p ip s σ s' o`: from the address `ip` with the store `s` and the activation `σ`, the procedure `p` ends with
`o` and the store `s'`; `.unfinished` if it has not ended when `n` instructions one after the other, or one inside the other,
have been begun. `k` bounds the variables in use at the same time as in `Spec/Abstract.lean`. -/
inductive Runs (M : Machine) : Nat → Nat → Proc → Nat → Store → Act → Store → Outcome (Option Val) → Prop
  | more {k ip : Nat} {p : Proc} {s : Store} {σ : Act} : Runs M 0 k p ip s σ s .unfinished
  | ret {n k ip : Nat} {p : Proc} {s : Store} {σ : Act} {r : Option Val} : HasAt p.code ip [0x2a] → p.Result σ.stack r →
      Runs M (n + 1) k p ip s σ s (.done r)
  | next {n k ip ip' : Nat} {p : Proc} {s s' s'' : Store} {σ σ' : Act} {d : Int} {o : Outcome (Option Val)} {i : Instr}
      {c : Bytes} : Enc M.ok i c → HasAt p.code ip c → i.effect M.floats M.checked M.negative p s σ = .done (s', σ', d) →
      (ip' : Int) = (ip + c.length : Nat) + d → Runs M n k p ip' s' σ' s'' o → Runs M (n + 1) k p ip s σ s'' o
  | stops {n k ip : Nat} {p : Proc} {s : Store} {σ : Act} {i : Instr} {c : Bytes} :
      Enc M.ok i c → HasAt p.code ip c → i.effect M.floats M.checked M.negative p s σ = .stops →
      Runs M (n + 1) k p ip s σ s .stops
  | write {n k k' ip t r : Nat} {p : Proc} {s s' : Store} {σ : Act} {rest : List Val} {text : List Char}
      {o : Outcome (Option Val)} : t < 2 ^ 32 → HasAt p.code ip (0x28 :: leBytes 4 t) → p.calls t = some .write →
      σ.stack = .ref r :: rest → s.cells[r]? = some (.str text) → 1 + k' ≤ k →
      Runs M n k' p (ip + 5) { s with output := s.output ++ text } { σ with stack := rest } s' o →
      Runs M (n + 1) k p ip s σ s' o
  | call {n k k' k'' ip t j : Nat} {p q : Proc} {s s' s'' : Store} {σ : Act} {args rest : List Val} {r : Option Val}
      {o : Outcome (Option Val)} : t < 2 ^ 32 → HasAt p.code ip (0x28 :: leBytes 4 t) → p.calls t = some (.proc j) →
      M.prog j = some q → σ.stack = args.reverse ++ rest → args.length = q.params →
      q.params + q.locals + k' ≤ k → Runs M n k' q 0 s (q.start M.init args) s' (.done r) →
      q.params + k'' ≤ k → Runs M n k'' p (ip + 5) s' { σ with stack := r.toList ++ rest } s'' o →
      Runs M (n + 1) k p ip s σ s'' o
  | inner {n k k' ip t j : Nat} {p q : Proc} {s s' : Store} {σ : Act} {args rest : List Val}
      {o : Outcome (Option Val)} : t < 2 ^ 32 → HasAt p.code ip (0x28 :: leBytes 4 t) → p.calls t = some (.proc j) →
      M.prog j = some q → σ.stack = args.reverse ++ rest → args.length = q.params →
      q.params + q.locals + k' ≤ k → Runs M n k' q 0 s (q.start M.init args) s' o → (∀ r, o ≠ .done r) →
      Runs M (n + 1) k p ip s σ s' o
  | new {n k k' k'' ip t j : Nat} {p q : Proc} {cls : Class} {s s' s'' : Store} {σ : Act} {args rest : List Val}
      {o : Outcome (Option Val)} : t < 2 ^ 32 → HasAt p.code ip (0x73 :: leBytes 4 t) → p.news t = some (cls, j) →
      M.prog j = some q → q.returns = false → σ.stack = args.reverse ++ rest → args.length + 1 = q.params →
      q.params + q.locals + k' ≤ k →
      Runs M n k' q 0 (s.add cls.new) (q.start M.init (.ref s.cells.length :: args)) s' (.done none) →
      q.params + k'' ≤ k → Runs M n k'' p (ip + 5) s' { σ with stack := .ref s.cells.length :: rest } s'' o →
      Runs M (n + 1) k p ip s σ s'' o
  | made {n k k' ip t j : Nat} {p q : Proc} {cls : Class} {s s' : Store} {σ : Act} {args rest : List Val}
      {o : Outcome (Option Val)} : t < 2 ^ 32 → HasAt p.code ip (0x73 :: leBytes 4 t) → p.news t = some (cls, j) →
      M.prog j = some q → q.returns = false → σ.stack = args.reverse ++ rest → args.length + 1 = q.params →
      q.params + q.locals + k' ≤ k →
      Runs M n k' q 0 (s.add cls.new) (q.start M.init (.ref s.cells.length :: args)) s' o → (∀ r, o ≠ .done r) →
      Runs M (n + 1) k p ip s σ s' o

end Clr.Obj
