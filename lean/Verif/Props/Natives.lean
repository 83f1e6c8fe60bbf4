import Verif.Spec.Natives
import Verif.Props.Output
/-! # Property C102: methods provided by the runtime, and methods without code -/

namespace Clr

variable {cfg : Cfg} {ops : FloatOps} {tf fuel : Nat} {fr : Frame} {v v' : VM} {rest : List Value}

/-- The full claim for one native function: called with arguments on the evaluation stack, in any state, it replaces them by
its result, appends to the output, and changes nothing else. -/
def LibraryHolds (f : InternalMethod) : Prop :=
  ∀ (cfg : Cfg) (run : Frame → Nat → X (Option Value)) (fr : Frame) (token : Token) (m : MethodRec) (v : VM)
    (args rest : List Value) (result : Option Value) (text : List Char),
    fr.assembly.resolveMethod cfg token = .ok (some m) → m.impl = .internal f → args.length = m.slots → Roomy v m.slots →
    v.operands = args.reverse ++ rest → Spec.Library v.heap f args result text →
    ∃ v', callMethod cfg run fr token v = (.ok (), v') ∧ v'.operands = result.toList ++ rest ∧ v'.heap = v.heap ∧
      v'.world = { v.world with output := v.world.output ++ text }

/-- **C102, the part that holds**: `Console.Write`. -/
theorem C102_partial : LibraryHolds .consoleWrite := by
  intro cfg run fr token m v args rest result text hm himpl hargs hroom ho hlib
  cases hlib with
  | write hp hl =>
    have hs : m.slots = 1 := hargs.symm
    obtain ⟨v', h1, h2, h3, h4⟩ := C61_write (cfg := cfg) (fr := fr) (v := v) (rest := rest) run token m _ text hm himpl hs
      (hs ▸ hroom) ho hp (Nat.lt_trans hl (by decide))
    exact ⟨v', h1, h2, h3, h4⟩

/-- **C102 fails** for `String.Length` and for the characters of a string: every call panics, whatever the arguments. -/
theorem C102_strings {run : Frame → Nat → X (Option Value)} {token : Token} {m : MethodRec} {args : List Value}
    (hm : fr.assembly.resolveMethod cfg token = .ok (some m)) (himpl : m.impl = .internal .stringGetLength ∨ m.impl = .internal .stringGetItem)
    (hargs : args.length = m.slots) (hroom : Roomy v m.slots) (ho : v.operands = args.reverse ++ rest) :
    (callMethod cfg run fr token v).1 = .panic := by
  obtain ⟨v1, -, -, -, h⟩ := callMethod_run (run := run) hm hroom hargs ho
  rw [h, X.bind_run]
  rcases himpl with hi | hi <;> (unfold invoke; rw [hi]; rfl)

/-- **C102**: a method without code (an abstract one, or one of an interface) panics when it is called. -/
theorem C102_no_code {run : Frame → Nat → X (Option Value)} {token : Token} {m : MethodRec} {args : List Value}
    (hm : fr.assembly.resolveMethod cfg token = .ok (some m)) (himpl : m.impl = .none)
    (hargs : args.length = m.slots) (hroom : Roomy v m.slots) (ho : v.operands = args.reverse ++ rest) :
    (callMethod cfg run fr token v).1 = .panic ∧ (callMethod cfg run fr token v).2.world = v.world ∧
      (callMethod cfg run fr token v).2.heap = v.heap := by
  obtain ⟨v1, h1, -, -, h⟩ := callMethod_run (run := run) hm hroom hargs ho
  have : (invoke cfg run m (.slots v1.stack.gen v.stack.slots.length m.slots)) v1 = (.panic, v1) := by
    unfold invoke
    rw [himpl]
    rfl
  rw [h, X.bind_run, this]
  dsimp only
  rw [h1]
  exact ⟨rfl, rfl, rfl⟩

/-- The same for a host that executes it: nothing is written and the registry stays as it is. -/
theorem C102_execute {w : World} {m : MethodRec} {params : List Value} (hs : m.isStatic = true)
    (himpl : m.impl = .none ∨ m.impl = .internal .stringGetLength ∨ m.impl = .internal .stringGetItem) :
    (hostExecute cfg ops tf fuel w m params).1 = .panic ∧ (hostExecute cfg ops tf fuel w m params).2.world = w := by
  unfold hostExecute
  rw [if_pos hs]
  unfold invoke
  rcases himpl with hi | hi | hi <;> rw [hi] <;> exact ⟨rfl, rfl⟩

/-- The string `"Hi"` on the heap, its reference on the stack, and an assembly with the two methods of `String`. -/
def Ex.stringCall (f : InternalMethod) : MethodRec :=
  { Ex.meth [] (isStatic := false) with impl := .internal f, params := if f = .stringGetItem then [⟨"i".toList, 1, 8⟩] else [] }

def Ex.stringFrame (f : InternalMethod) : Frame :=
  ⟨Ex.stringCall f, (Ex.tiny [Ex.stringCall f]).assemblies[0]'(by show 0 < 1; decide), [], .host, .host⟩

def Ex.stringVM (f : InternalMethod) (operands : List Value) : VM :=
  { world := Ex.tiny [Ex.stringCall f], heap := { mem := stringImage 16 [72, 105] }, operands }

/-- **C102 fails**: `"Hi".Length` is not 2 and `"Hi"[1]` is not `'i'`. -/
theorem C102_refuted : ¬ LibraryHolds .stringGetLength ∧ ¬ LibraryHolds .stringGetItem := by
  refine ⟨fun h => ?_, fun h => ?_⟩
  · obtain ⟨v', h1, -⟩ := h .debug (fun _ _ => pure none) (Ex.stringFrame .stringGetLength) ⟨0x06000001⟩ (Ex.stringCall .stringGetLength)
      (Ex.stringVM .stringGetLength [.object ⟨0, 0⟩]) [.object ⟨0, 0⟩] [] (some (.i32 2)) [] rfl rfl rfl (by decide) rfl
      (.length (id := 16) (us := [72, 105]) (by decide) (by decide))
    have := C102_strings (cfg := .debug) (fr := Ex.stringFrame .stringGetLength) (v := Ex.stringVM .stringGetLength [.object ⟨0, 0⟩]) (rest := [])
      (args := [.object ⟨0, 0⟩]) (run := fun _ _ => pure none) (token := ⟨0x06000001⟩) (m := Ex.stringCall .stringGetLength)
      rfl (.inl rfl) rfl (by decide) rfl
    rw [h1] at this
    cases this
  · obtain ⟨v', h1, -⟩ := h .debug (fun _ _ => pure none) (Ex.stringFrame .stringGetItem) ⟨0x06000001⟩ (Ex.stringCall .stringGetItem)
      (Ex.stringVM .stringGetItem [.i32 1, .object ⟨0, 0⟩]) [.object ⟨0, 0⟩, .i32 1] [] (some (.i32 105)) [] rfl rfl rfl (by decide) rfl
      (.item (id := 16) (us := [72, 105]) (i := 1) (by decide) (by decide) rfl (by decide))
    have := C102_strings (cfg := .debug) (fr := Ex.stringFrame .stringGetItem) (v := Ex.stringVM .stringGetItem [.i32 1, .object ⟨0, 0⟩]) (rest := [])
      (args := [.object ⟨0, 0⟩, .i32 1]) (run := fun _ _ => pure none) (token := ⟨0x06000001⟩) (m := Ex.stringCall .stringGetItem)
      rfl (.inr rfl) rfl (by decide) rfl
    rw [h1] at this
    cases this

/-- A call of `Console.Write` and one of an abstract method meet the hypotheses. -/
example : Spec.Library { mem := stringImage 16 [72, 105] } .consoleWrite [.object ⟨0, 0⟩] none ['H', 'i'] ∧
    (hostExecute .debug Ex.floats 9 40 (Ex.tiny []) { Ex.meth [] with impl := .none } []).1 = .panic :=
  ⟨.write (id := 16) (by decide) (by decide), by decide +kernel⟩

end Clr
