import Verif.Bytes
/-!
# Method bodies (ECMA-335 II.25.4), as encoders

Independent of the model: how a compiler lays out a method body.
-/

namespace Clr.Spec

/-- II.25.4.2: the tiny format, one header byte with the code length in its upper six bits. -/
def tinyBody (code : Bytes) : Bytes := UInt8.ofNat (4 * code.length + 2) :: code

/-- The four kinds of exception clause (II.25.4.6). -/
inductive ClauseKind where
  | typed | filter | finallyBlock | fault
deriving DecidableEq, Repr

def ClauseKind.code : ClauseKind → Nat
  | .typed => 0
  | .filter => 1
  | .finallyBlock => 2
  | .fault => 4

/-- An exception clause; `extra` is the class token (typed), the filter offset (filter) or unused. -/
structure Clause where
  kind : ClauseKind
  tryOffset : Nat
  tryLength : Nat
  handlerOffset : Nat
  handlerLength : Nat
  extra : Nat
deriving DecidableEq, Repr

/-- Fat clause: 24 bytes. -/
def Clause.encFat (c : Clause) : Bytes :=
  leBytes 4 c.kind.code ++ leBytes 4 c.tryOffset ++ leBytes 4 c.tryLength ++ leBytes 4 c.handlerOffset ++
    leBytes 4 c.handlerLength ++ leBytes 4 c.extra

/-- Small clause: 12 bytes. -/
def Clause.encSmall (c : Clause) : Bytes :=
  leBytes 2 c.kind.code ++ leBytes 2 c.tryOffset ++ leBytes 1 c.tryLength ++ leBytes 2 c.handlerOffset ++
    leBytes 1 c.handlerLength ++ leBytes 4 c.extra

def Clause.FitsFat (c : Clause) : Prop :=
  c.tryOffset < 2 ^ 32 ∧ c.tryLength < 2 ^ 32 ∧ c.handlerOffset < 2 ^ 32 ∧ c.handlerLength < 2 ^ 32 ∧ c.extra < 2 ^ 32

def Clause.FitsSmall (c : Clause) : Prop :=
  c.tryOffset < 2 ^ 16 ∧ c.tryLength < 2 ^ 8 ∧ c.handlerOffset < 2 ^ 16 ∧ c.handlerLength < 2 ^ 8 ∧ c.extra < 2 ^ 32

instance decClauseFat (c : Clause) : Decidable c.FitsFat := by unfold Clause.FitsFat; infer_instance
instance decClauseSmall (c : Clause) : Decidable c.FitsSmall := by unfold Clause.FitsSmall; infer_instance

/-- The exception section: absent, small (kind byte 1, one size byte, two reserved bytes) or fat (kind byte 0x41, three
size bytes). The size counts the four header bytes. -/
inductive Sections where
  | absent
  | small (cs : List Clause)
  | fat (cs : List Clause)
deriving DecidableEq, Repr

def Sections.clauses : Sections → List Clause
  | .absent => []
  | .small cs => cs
  | .fat cs => cs

def Sections.present : Sections → Bool
  | .absent => false
  | _ => true

def Sections.enc : Sections → Bytes
  | .absent => []
  | .small cs => 0x01 :: (leBytes 1 (12 * cs.length + 4) ++ [0, 0] ++ (cs.map Clause.encSmall).flatten)
  | .fat cs => 0x41 :: (leBytes 3 (24 * cs.length + 4) ++ (cs.map Clause.encFat).flatten)

def Sections.Fits : Sections → Prop
  | .absent => True
  | .small cs => 12 * cs.length + 4 < 2 ^ 8 ∧ ∀ c ∈ cs, c.FitsSmall
  | .fat cs => 24 * cs.length + 4 < 2 ^ 24 ∧ ∀ c ∈ cs, c.FitsFat

instance decSections : (s : Sections) → Decidable s.Fits
  | .absent => inferInstanceAs (Decidable True)
  | .small _ => inferInstanceAs (Decidable (_ ∧ _))
  | .fat _ => inferInstanceAs (Decidable (_ ∧ _))

/-- A fat method body (II.25.4.3). `size` is the second header byte (header size in words in its upper half). -/
structure Fat where
  initLocals : Bool
  size : UInt8
  maxStack : Nat
  localToken : Nat
  code : Bytes
  sections : Sections
deriving DecidableEq, Repr

/-- First header byte: format 3, `MoreSects` 8, `InitLocals` 16. -/
def Fat.flags (b : Fat) : UInt8 :=
  UInt8.ofNat (3 + (if b.sections.present then 8 else 0) + (if b.initLocals then 16 else 0))

/-- Padding that puts the section on a multiple of four; the header has 12 bytes, so only the code length matters.
The content of the padding is arbitrary. -/
def Fat.padLength (b : Fat) : Nat := if b.sections.present then (4 - b.code.length % 4) % 4 else 0

def Fat.enc (b : Fat) (pad : Bytes) : Bytes :=
  b.flags :: b.size :: (leBytes 2 b.maxStack ++ leBytes 4 b.code.length ++ leBytes 4 b.localToken ++ b.code ++ pad ++
    b.sections.enc)

def Fat.Fits (b : Fat) : Prop :=
  b.maxStack < 2 ^ 16 ∧ b.code.length < 2 ^ 32 ∧ b.localToken < 2 ^ 32 ∧ b.sections.Fits

instance decFat (b : Fat) : Decidable b.Fits := by unfold Fat.Fits; infer_instance

end Clr.Spec
