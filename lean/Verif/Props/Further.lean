import Verif.Lemmas.Carry
import Verif.Lemmas.Asm
import Verif.Props.Loading
import Verif.Props.Arith
/-! # Loading more does not change what methods do (C106) -/

namespace Clr
open Spec

variable {cfg : Cfg} {w W : World}

/-- The full claim: whatever is loaded and run in between, a method of a loaded library does what it did before, as long as the
names in use mean what they meant. False of the code: see `C106_refuted`. -/
def C106_full : Prop := ∀ (cfg : Cfg) (w W : World), Reached cfg w → Onward cfg w W →
  (∀ n t, w.getType n = some t → W.getType n = some t) → ∀ ops tf fuel m params,
  (hostExecute cfg ops tf fuel w m params).2.world.types.length = w.types.length →
  (hostExecute cfg ops tf fuel W m params).1 = (hostExecute cfg ops tf fuel w m params).1

/-- **C106**, for executions that do not panic and make no type: whatever has been loaded and run in between, the method ends the
same way, leaves the same heap, stack and parameters, and prints the same text after what was printed before; the registry is
not changed otherwise. Missing: executions that panic, for which the claim is false (`C106_refuted`), and executions that make
array types. -/
theorem C106_partial (hw : Reached cfg w) (h : Onward cfg w W) (hn : ∀ n t, w.getType n = some t → W.getType n = some t)
    (ops : FloatOps) (tf fuel : Nat) (m : MethodRec) (params : List Value)
    (hp : (hostExecute cfg ops tf fuel w m params).1 ≠ .panic)
    (ht : (hostExecute cfg ops tf fuel w m params).2.world.types.length = w.types.length) :
    ∃ s, (hostExecute cfg ops tf fuel w m params).2.world = { w with output := w.output ++ s } ∧
      hostExecute cfg ops tf fuel W m params = ((hostExecute cfg ops tf fuel w m params).1,
        { (hostExecute cfg ops tf fuel w m params).2 with world := { W with output := W.output ++ s } }) := by
  obtain ⟨s, h1, h2⟩ := hostExecute_carry (h.advanced.includes hw hn) ops tf fuel m params [] hp ht
  rw [List.append_nil] at h2
  refine ⟨s, h1, h2.trans (Prod.ext rfl ?_)⟩
  show VM.within _ _ [] = _
  unfold VM.within
  rw [List.append_nil]
  rfl

/-- **C106**, for the same method again: an execution that does not panic and makes no type can be repeated, with the same end
and the same text. -/
theorem C106_again (hw : Reached cfg w) (ops : FloatOps) (tf fuel : Nat) (m : MethodRec) (params : List Value)
    (hp : (hostExecute cfg ops tf fuel w m params).1 ≠ .panic)
    (ht : (hostExecute cfg ops tf fuel w m params).2.world.types.length = w.types.length) :
    let w1 := (hostExecute cfg ops tf fuel w m params).2.world
    let w2 := (hostExecute cfg ops tf fuel w1 m params).2.world
    (hostExecute cfg ops tf fuel w1 m params).1 = (hostExecute cfg ops tf fuel w m params).1 ∧
      ∃ s, w1.output = w.output ++ s ∧ w2.output = w.output ++ s ++ s := by
  intro w1 w2
  have hon : Onward cfg w w1 := .execute ops tf fuel m params (.refl w)
  obtain ⟨s0, h0, -⟩ := C106_partial hw (.refl w) (fun _ _ h => h) ops tf fuel m params hp ht
  have hw1 : w1 = { w with output := w.output ++ s0 } := h0
  obtain ⟨s, h1, h2⟩ := C106_partial hw hon (fun n t h => by rw [hw1]; exact h) ops tf fuel m params hp ht
  have e1 : w1.output = w.output ++ s := by show (hostExecute cfg ops tf fuel w m params).2.world.output = _; rw [h1]
  refine ⟨by rw [h2], s, e1, ?_⟩
  show (hostExecute cfg ops tf fuel w1 m params).2.world.output = _
  rw [h2, ← e1]

/-! ## Instances -/

namespace Ex

def sayStrings : List String := ["lib", "System", "Int32", "P", "Say", "String", "core", "Console", "Write", "Object", "Q"]

/-- `class P { static int Say() { Console.Write("Hi"); return 7; } }` -/
def sayAsm : Asm where
  strings := sayStrings
  blobs := [[0x00, 0, 0x08], [0x00, 1, 0x01, 0x0e]]
  userStrings := 0 :: encUserString [0x48, 0x69] 0
  tables :=
    [(0x01, [typeRefRow sayStrings "System" "Object", typeRefRow sayStrings "System" "Console"]),
     (0x02, [typeRow sayStrings 0 "" "P" (refRow 1) 1 1]),
     (0x06, [methodRow sayStrings 0x2000 0 0x10 "Say" 1 1]),
     (0x0a, [memberRefRow sayStrings 17 "Write" 5]),
     (0x20, [assemblyRow sayStrings "lib"])]
  bodies := 0x32 :: [0x72, 1, 0, 0, 0x70, 0x28, 1, 0, 0, 0x0a, 0x1d, 0x2a]

/-- The same class beside a type `System.Int32`, without the output: `static int Say() { "Hi"; return 7; }`. -/
def quietAsm : Asm where
  strings := sayStrings
  blobs := [[0x00, 0, 0x08]]
  userStrings := 0 :: encUserString [0x48, 0x69] 0
  tables :=
    [(0x02, [typeRow sayStrings 0 "System" "Int32" 0 1 1, typeRow sayStrings 0 "" "P" 0 1 1]),
     (0x06, [methodRow sayStrings 0x2000 0 0x10 "Say" 1 1]),
     (0x20, [assemblyRow sayStrings "lib"])]
  bodies := 0x22 :: [0x72, 1, 0, 0, 0x70, 0x26, 0x1d, 0x2a]

/-- A library that defines `System.String` only. -/
def stringAsm : Asm where
  strings := sayStrings
  tables := [(0x02, [typeRow sayStrings 0 "System" "String" 0 1 1]), (0x20, [assemblyRow sayStrings "core"])]

/-- A library that defines a class `Q` only. -/
def otherAsm : Asm where
  strings := sayStrings
  tables := [(0x02, [typeRow sayStrings 0 "" "Q" 0 1 1]), (0x20, [assemblyRow sayStrings "core"])]

def sayWorld : World := (loadData .debug noFiles 1 100 sayAsm.file coreWorld).2
def saidWorld : World := (loadData .debug noFiles 1 100 [0x4d, 0x5a] (loadData .debug noFiles 1 100 otherAsm.file sayWorld).2).2
def quietWorld : World := (loadData .debug noFiles 1 100 quietAsm.file {}).2
def spokenWorld : World := (loadData .debug noFiles 1 100 stringAsm.file quietWorld).2

def theMethod (w : World) (t : Nat) : Option MethodRec := (w.types[t]?.map (·.methods.head?)).join

end Ex

theorem names_kept {n : Name} {t : Nat} (h : W.typeMap = (n, t) :: w.typeMap) (hn : w.getType n = none) :
    ∀ n t, w.getType n = some t → W.getType n = some t := by
  intro n' t' e
  unfold World.getType at e hn ⊢
  rw [h]
  by_cases hx : n' = n
  · subst hx; rw [hn] at e; cases e
  · rw [List.lookup_cons, show (n' == n) = false by simpa using hx]; exact e

/-- The hypotheses can be met: `P.Say`, with a library loaded afterwards and a file refused; it prints `Hi` and returns 7. -/
example : Reached .debug Ex.sayWorld ∧ Onward .debug Ex.sayWorld Ex.saidWorld ∧
    (∀ n t, Ex.sayWorld.getType n = some t → Ex.saidWorld.getType n = some t) ∧
    Ex.saidWorld.types.length = Ex.sayWorld.types.length + 1 ∧
    ∃ m, Ex.theMethod Ex.sayWorld 19 = some m ∧
      (hostExecute .debug Ex.floats 9 40 Ex.sayWorld m []).1 = .ok (.number (.i32 7)) ∧
      (hostExecute .debug Ex.floats 9 40 Ex.sayWorld m []).2.world.types.length = Ex.sayWorld.types.length ∧
      (hostExecute .debug Ex.floats 9 40 Ex.saidWorld m []).2.world.output = "Hi".toList := by
  have h : Ex.saidWorld.typeMap = ("Q".toList, 20) :: Ex.sayWorld.typeMap ∧ Ex.sayWorld.getType "Q".toList = none ∧
      Ex.saidWorld.types.length = Ex.sayWorld.types.length + 1 ∧
      Ex.holds (fun m => decide ((hostExecute .debug Ex.floats 9 40 Ex.sayWorld m []).1 = .ok (.number (.i32 7)) ∧
        (hostExecute .debug Ex.floats 9 40 Ex.sayWorld m []).2.world.types.length = Ex.sayWorld.types.length ∧
        (hostExecute .debug Ex.floats 9 40 Ex.saidWorld m []).2.world.output = "Hi".toList))
        (Res.unwrap (Ex.theMethod Ex.sayWorld 19)) = true := by decide +kernel
  refine ⟨.loadFile _ _ _ _ (.loadFile _ _ _ _ .start), .loadFile _ _ _ _ (.loadFile _ _ _ _ (.refl _)),
    names_kept h.1 h.2.1, h.2.2.1, ?_⟩
  cases hm : Ex.theMethod Ex.sayWorld 19 with
  | none => rw [hm] at h; exact absurd h.2.2.2 (by decide)
  | some m => rw [hm] at h; exact ⟨m, rfl, of_decide_eq_true h.2.2.2⟩

/-- **C106 refuted** for executions that panic: `P.Say`, which needs a string, stops the process as long as no loaded library
defines `System.String`, and returns 7 once one does. -/
theorem C106_refuted : ∃ m, Ex.theMethod Ex.quietWorld 1 = some m ∧ Onward .debug Ex.quietWorld Ex.spokenWorld ∧
    (∀ n t, Ex.quietWorld.getType n = some t → Ex.spokenWorld.getType n = some t) ∧
    (hostExecute .debug Ex.floats 9 40 Ex.quietWorld m []).2.world.types.length = Ex.quietWorld.types.length ∧
    (hostExecute .debug Ex.floats 9 40 Ex.quietWorld m []).1 = .panic ∧
    (hostExecute .debug Ex.floats 9 40 Ex.spokenWorld m []).1 = .ok (.number (.i32 7)) := by
  have h : Ex.spokenWorld.typeMap = ("System.String".toList, 2) :: Ex.quietWorld.typeMap ∧
      Ex.quietWorld.getType "System.String".toList = none ∧
      Ex.holds (fun m => decide (
        (hostExecute .debug Ex.floats 9 40 Ex.quietWorld m []).2.world.types.length = Ex.quietWorld.types.length ∧
        (hostExecute .debug Ex.floats 9 40 Ex.quietWorld m []).1 = .panic ∧
        (hostExecute .debug Ex.floats 9 40 Ex.spokenWorld m []).1 = .ok (.number (.i32 7))))
        (Res.unwrap (Ex.theMethod Ex.quietWorld 1)) = true := by decide +kernel
  cases hm : Ex.theMethod Ex.quietWorld 1 with
  | none => rw [hm] at h; exact absurd h.2.2 (by decide)
  | some m =>
    rw [hm] at h
    exact ⟨m, rfl, .loadFile _ _ _ _ (.refl _), names_kept h.1 h.2.1, of_decide_eq_true h.2.2⟩

theorem C106_full_refuted : ¬ C106_full := by
  intro h
  obtain ⟨m, -, h1, h2, h3, h4, h5⟩ := C106_refuted
  have h0 : Reached .debug Ex.quietWorld := .loadFile _ _ _ _ .start
  have := h .debug Ex.quietWorld Ex.spokenWorld h0 h1 h2 Ex.floats 9 40 m [] h3
  rw [h4, h5] at this
  cases this

end Clr
