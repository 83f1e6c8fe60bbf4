/-!
# Outcomes and machine arithmetic

The model represents the result of every Rust function that can fail by `Res`, and the two build modes
of Rust integer arithmetic by `Cfg`.
-/

namespace Clr

/-- Outcome of running a piece of Rust code.
`err` is an explicit error value, `panic` any panic, `ub` undefined behaviour inside an `unsafe` block,
`timeout` exhausted model fuel (used only for code that may not terminate). -/
inductive Res (α : Type) where
  | ok (a : α)
  | err (m : String)
  | panic
  | ub
  | timeout
deriving DecidableEq, Repr

namespace Res

/-- Sequencing: the first outcome that is not `ok` wins (Rust `?`, unwinding, and abort alike). -/
@[inline] def bind {α β : Type} (x : Res α) (f : α → Res β) : Res β :=
  match x with
  | ok a => f a
  | err m => err m
  | panic => panic
  | ub => ub
  | timeout => timeout

instance : Monad Res where
  pure := Res.ok
  bind := Res.bind

@[simp] theorem pure_eq {α : Type} (a : α) : (pure a : Res α) = ok a := rfl
@[simp] theorem ok_bind {α β : Type} (a : α) (f : α → Res β) : (ok a >>= f) = f a := rfl
@[simp] theorem err_bind {α β : Type} (m : String) (f : α → Res β) : ((err m : Res α) >>= f) = err m := rfl
@[simp] theorem panic_bind {α β : Type} (f : α → Res β) : ((panic : Res α) >>= f) = panic := rfl
@[simp] theorem ub_bind {α β : Type} (f : α → Res β) : ((ub : Res α) >>= f) = ub := rfl
@[simp] theorem timeout_bind {α β : Type} (f : α → Res β) : ((timeout : Res α) >>= f) = timeout := rfl
@[simp] theorem map_ok {α β : Type} (g : α → β) (a : α) : (g <$> (ok a)) = ok (g a) := rfl

/-- A function "returns" when its outcome is a value or an explicit error: no panic, no undefined
behaviour, no divergence. -/
def Returns {α : Type} (x : Res α) : Prop := (∃ a, x = ok a) ∨ (∃ m, x = err m)

@[simp] theorem returns_ok {α : Type} (a : α) : Returns (ok a) := Or.inl ⟨a, rfl⟩
@[simp] theorem returns_err {α : Type} (m : String) : Returns (err m : Res α) := Or.inr ⟨m, rfl⟩
@[simp] theorem not_returns_panic {α : Type} : ¬ Returns (panic : Res α) := by
  rintro (⟨_, h⟩ | ⟨_, h⟩) <;> cases h
@[simp] theorem not_returns_ub {α : Type} : ¬ Returns (ub : Res α) := by
  rintro (⟨_, h⟩ | ⟨_, h⟩) <;> cases h
@[simp] theorem not_returns_timeout {α : Type} : ¬ Returns (timeout : Res α) := by
  rintro (⟨_, h⟩ | ⟨_, h⟩) <;> cases h

instance {α : Type} : DecidablePred (Returns (α := α)) := fun x =>
  match x with
  | ok a => isTrue (Or.inl ⟨a, rfl⟩)
  | err m => isTrue (Or.inr ⟨m, rfl⟩)
  | panic => isFalse (by simp)
  | ub => isFalse (by simp)
  | timeout => isFalse (by simp)

theorem Returns.bind {α β : Type} {x : Res α} {f : α → Res β}
    (hx : Returns x) (hf : ∀ a, x = ok a → Returns (f a)) : Returns (x >>= f) := by
  rcases hx with ⟨a, rfl⟩ | ⟨m, rfl⟩
  · exact hf a rfl
  · simp

/-- `bind` succeeded: both parts succeeded. -/
theorem bind_eq_ok {α β : Type} {x : Res α} {f : α → Res β} {b : β} :
    (x >>= f) = ok b ↔ ∃ a, x = ok a ∧ f a = ok b := by
  cases x <;> simp

/-- `Option::ok_or_else`: the error value for `None`. -/
def ofOption {α : Type} (m : String) : Option α → Res α
  | some a => ok a
  | none => err m

/-- `Option::unwrap`: panics on `None`. -/
def unwrap {α : Type} : Option α → Res α
  | some a => ok a
  | none => panic

@[simp] theorem ofOption_some {α : Type} (m : String) (a : α) : ofOption m (some a) = ok a := rfl
@[simp] theorem ofOption_none {α : Type} (m : String) : ofOption m (none : Option α) = err m := rfl
@[simp] theorem unwrap_some {α : Type} (a : α) : unwrap (some a) = ok a := rfl
@[simp] theorem unwrap_none {α : Type} : unwrap (none : Option α) = panic := rfl

/-- `Result::map_err`: replaces the error message. -/
def mapErr {α : Type} (g : String → String) : Res α → Res α
  | err m => err (g m)
  | r => r

@[simp] theorem mapErr_ok {α : Type} (g) (a : α) : mapErr g (ok a) = ok a := rfl
@[simp] theorem mapErr_err {α : Type} (g m) : mapErr (α := α) g (err m) = err (g m) := rfl
@[simp] theorem mapErr_panic {α : Type} (g) : mapErr (α := α) g panic = panic := rfl

end Res

/-- Build configuration: `checks = true` is a debug build (overflow panics), `false` a release build
(overflow wraps). -/
structure Cfg where
  checks : Bool
deriving DecidableEq, Repr

def Cfg.debug : Cfg := ⟨true⟩
def Cfg.release : Cfg := ⟨false⟩

/-- Unsigned `a + b` at a width of `bits` bits: Rust `+` on `u8 … u64`/`usize`. -/
def uadd (cfg : Cfg) (bits a b : Nat) : Res Nat :=
  if a + b < 2 ^ bits then .ok (a + b)
  else if cfg.checks then .panic else .ok ((a + b) % 2 ^ bits)

/-- Unsigned `a - b`: Rust `-` on `u8 … u64`/`usize`. -/
def usub (cfg : Cfg) (bits a b : Nat) : Res Nat :=
  if b ≤ a then .ok (a - b)
  else if cfg.checks then .panic else .ok ((2 ^ bits + a - b) % 2 ^ bits)

/-- Unsigned `a * b`: Rust `*` on `u8 … u64`/`usize`. -/
def umul (cfg : Cfg) (bits a b : Nat) : Res Nat :=
  if a * b < 2 ^ bits then .ok (a * b)
  else if cfg.checks then .panic else .ok ((a * b) % 2 ^ bits)

theorem uadd_ok {cfg : Cfg} {bits a b : Nat} (h : a + b < 2 ^ bits) : uadd cfg bits a b = .ok (a + b) := by
  simp [uadd, h]
theorem usub_ok {cfg : Cfg} {bits a b : Nat} (h : b ≤ a) : usub cfg bits a b = .ok (a - b) := by
  simp [usub, h]
theorem umul_ok {cfg : Cfg} {bits a b : Nat} (h : a * b < 2 ^ bits) : umul cfg bits a b = .ok (a * b) := by
  simp [umul, h]

/-- Rust slice indexing `&data[a..b]`: panics unless `a ≤ b ≤ len`. -/
def slice {α : Type} (data : List α) (a b : Nat) : Res (List α) :=
  if a ≤ b ∧ b ≤ data.length then .ok ((data.drop a).take (b - a)) else .panic

/-- Rust slice indexing `&data[a..]`: panics unless `a ≤ len`. -/
def sliceFrom {α : Type} (data : List α) (a : Nat) : Res (List α) :=
  if a ≤ data.length then .ok (data.drop a) else .panic

theorem slice_ok {α : Type} {data : List α} {a b : Nat} (h : a ≤ b ∧ b ≤ data.length) :
    slice data a b = .ok ((data.drop a).take (b - a)) := by
  simp [slice, h]
theorem sliceFrom_ok {α : Type} {data : List α} {a : Nat} (h : a ≤ data.length) :
    sliceFrom data a = .ok (data.drop a) := by
  simp [sliceFrom, h]

end Clr
