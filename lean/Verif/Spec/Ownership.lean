import Verif.Model.Ownership
import Mathlib.Logic.Relation
/-!
# What should be alive

An object is in use if the host has a handle for it, or if an object in use owns it. A type owns its base class, its
interfaces and its members; a method owns its parameters and the types of its local variables; an assembly owns its types,
their members, and what it refers to; the runtime owns all assemblies and types.
-/

namespace Clr.Spec

/-- Ownership, link by link. -/
inductive Uses (w : World) : Owned → Owned → Prop
  | assembly {i : Nat} : i < w.assemblies.length → Uses w .runtime (.assembly i)
  | type {t : Nat} : t < w.types.length → Uses w .runtime (.type t)
  | types {i t : Nat} {a : AssemblyRec} : w.assemblies[i]? = some a → t ∈ a.types ∨ t ∈ a.typeRefs → Uses w (.assembly i) (.type t)
  | methods {i t k : Nat} {a : AssemblyRec} {r : TypeRec} : w.assemblies[i]? = some a → t ∈ a.types → w.types[t]? = some r →
      k < r.methods.length → Uses w (.assembly i) (.method t k)
  | fields {i t k : Nat} {a : AssemblyRec} {r : TypeRec} : w.assemblies[i]? = some a → t ∈ a.types → w.types[t]? = some r →
      k < r.fields.length → Uses w (.assembly i) (.field t k)
  | referred {i k : Nat} {a : AssemblyRec} {r : TypeRec} {x y : MethodRec} : w.assemblies[i]? = some a → x ∈ a.methodRefs →
      w.types[x.declaringType]? = some r → r.methods[k]? = some y → y.name = x.name →
      (∀ k' z, k < k' → r.methods[k']? = some z → z.name ≠ x.name) → Uses w (.assembly i) (.method x.declaringType k)
  | base {t b : Nat} {r : TypeRec} : w.types[t]? = some r → r.base = some b → Uses w (.type t) (.type b)
  | iface {t i : Nat} {r : TypeRec} : w.types[t]? = some r → i ∈ r.interfaces → Uses w (.type t) (.type i)
  | field {t k : Nat} {r : TypeRec} : w.types[t]? = some r → k < r.fields.length → Uses w (.type t) (.field t k)
  | method {t k : Nat} {r : TypeRec} : w.types[t]? = some r → k < r.methods.length → Uses w (.type t) (.method t k)
  | param {t k j : Nat} {r : TypeRec} {x : MethodRec} : w.types[t]? = some r → r.methods[k]? = some x → j < x.params.length →
      Uses w (.method t k) (.param t k j)
  | local {t k u : Nat} {r : TypeRec} {x : MethodRec} {b : MethodBody} : w.types[t]? = some r → r.methods[k]? = some x →
      x.impl = .il b → u ∈ b.locals → Uses w (.method t k) (.type u)

/-- The object is in use by the host, who has the handles `kept`. -/
def InUse (w : World) (kept : List Owned) (b : Owned) : Prop := ∃ h ∈ kept, Relation.ReflTransGen (Uses w) h b

/-- The object belongs to the runtime. -/
inductive Exists (w : World) : Owned → Prop
  | runtime : Exists w .runtime
  | owned {p b : Owned} : Uses w p b → Exists w b

/-- Type `t` mentions type `u` as its base class, an interface, or the type of a local variable of a method. -/
def Mentions (w : World) (t u : Nat) : Prop :=
  ∃ r, w.types[t]? = some r ∧ (r.base = some u ∨ u ∈ r.interfaces ∨ ∃ x ∈ r.methods, ∃ b, x.impl = .il b ∧ u ∈ b.locals)

/-- Following such mentions from `t` leads back to `t`. -/
def Circular (w : World) (t : Nat) : Prop := Relation.TransGen (Mentions w) t t

/-- What a host may have done with its handles: while it has one for the runtime, everything is loaded and it may hold any others;
it gets more handles, for things that are alive, and drops handles. What loading leaves behind is one such start: there, every
strong reference is counted. -/
inductive Held (w : World) : List Owned → Counts → Prop
  | start {handles : List Owned} : .runtime ∈ handles → (∀ b ∈ handles, Exists w b) → Held w handles (w.counts handles)
  | take {handles : List Owned} {c : Counts} {b : Owned} : Held w handles c → c b ≠ 0 → Held w (b :: handles) (c.set b (c b + 1))
  | drop {handles : List Owned} {c c' : Counts} {b : Owned} : Held w handles c → b ∈ handles → w.drop c b = .ok c' →
      Held w (handles.erase b) c'

end Clr.Spec
