import Verif.Model.Interp
/-!
# Calls nest in the host's stack: `clr_lite/src/vm/interpreter/{mod.rs,stack_frame.rs}`

`StackFrame::execute` calls `method_call` (stack_frame.rs:150-154, 345-357), which calls `Interpreter::execute`
(stack_frame.rs:464), which calls `StackFrame::execute` (interpreter/mod.rs:39) of the callee. The functions of `Model/Interp`
once more, with the greatest number of calls of `StackFrame::execute` that were active at the same time. The answers are those
of `Model/Interp` (`C114_same`). The frames of functions between two calls of `StackFrame::execute` are not counted; there
are two, of constant size. -/

namespace Clr

/-- Code of the machine, and the greatest number of nested calls of `StackFrame::execute` in it. -/
def D (α : Type) : Type := VM → (Res α × VM) × Nat

namespace D

def pure {α : Type} (a : α) : D α := fun v => ((.ok a, v), 0)

/-- One after the other: the deeper of the two counts. -/
def bind {α β : Type} (x : D α) (f : α → D β) : D β := fun v =>
  match (x v).1 with
  | (.ok a, v') => ((f a v').1, max (x v).2 (f a v').2)
  | (.err m, v') => ((.err m, v'), (x v).2)
  | (.panic, v') => ((.panic, v'), (x v).2)
  | (.ub, v') => ((.ub, v'), (x v).2)
  | (.timeout, v') => ((.timeout, v'), (x v).2)

instance : Monad D where
  pure := D.pure
  bind := D.bind

/-- Code that calls no method. -/
def of {α : Type} (x : X α) : D α := fun v => (x v, 0)

/-- The body of `StackFrame::execute`: one call more than in the body. -/
def deeper {α : Type} (x : D α) : D α := fun v => ((x v).1, (x v).2 + 1)

/-- A destructor, as `X.finally'`. -/
def finally' {α : Type} (x : D α) (f : VM → Res VM) : D α := fun v => (X.finally' (fun v => (x v).1) f v, (x v).2)

end D

/-- `Interpreter::execute` (interpreter/mod.rs:37-43), as `invoke`: `StackFrame::execute` is entered with the allocation of the
locals (stack_frame.rs:45-51). -/
def invokeD (cfg : Cfg) (run : Frame → Nat → D (Option Value)) (m : MethodRec) (params : Region) : D (Option Value) :=
  match m.impl with
  | .il body => do
    let t ← D.of (X.view fun v => v.world.typeAt m.declaringType)
    let a ← D.of (X.view fun v => Res.unwrap (v.world.assemblies.find? (·.id = t.assembly)))
    let outer ← D.of (X.update fun v => .ok (v.allocated, { v with allocated := 0 }))
    D.finally' (D.deeper do
      let locals ← D.of (stackAlloc body.locals.length)
      run { method := m, assembly := a, code := body.code, locals, params } 0) (release cfg outer)
  | .internal f => D.of (callNative f params)
  | .none => D.of (Res.panic : Res (Option Value))

/-- `StackFrame::method_call` (stack_frame.rs:438-470), as `callMethod`. -/
def callMethodD (cfg : Cfg) (run : Frame → Nat → D (Option Value)) (fr : Frame) (token : Token) : D Unit := do
  let m ← D.of (fr.assembly.resolveMethod cfg token : Res (Option MethodRec))
  let m ← D.of (Res.ofOption "Cannot find method for metadata token" m : Res MethodRec)
  let n := if m.isStatic then m.params.length else m.params.length + 1
  let params ← D.of (stackAlloc n)
  D.of (popInto params n)
  match ← invokeD cfg run m params with
  | some a => D.of (push a)
  | none => pure ()

/-- The loop of `StackFrame::execute` (stack_frame.rs:53-435), as `loop`. -/
def loopD (cfg : Cfg) (ops : FloatOps) (tf : Nat) : Nat → Frame → Nat → D (Option Value)
  | 0, _, _ => D.of (Res.timeout : Res (Option Value))
  | fuel + 1, fr, ip => do
    match ← D.of (step cfg ops tf fr ip) with
    | .next ip => loopD cfg ops tf fuel fr ip
    | .ret a => pure a
    | .call token after ip => do
      callMethodD cfg (loopD cfg ops tf fuel) fr token
      match after with
      | some a => D.of (push a)
      | none => pure ()
      loopD cfg ops tf fuel fr ip

/-- `ClrLite::execute` (vm/mod.rs:130-166), as `hostExecute`. -/
def hostExecuteD (cfg : Cfg) (ops : FloatOps) (tf fuel : Nat) (w : World) (m : MethodRec) (params : List Value) :
    (Res RunResult × VM) × Nat :=
  if m.isStatic then
    let r := invokeD cfg (loopD cfg ops tf fuel) m .host { world := w, host := params }
    ((hostResult r.1.1, r.1.2), r.2)
  else ((.ok (.err "Cannot use non-static method as entry point"), { world := w, host := params }), 0)

end Clr
