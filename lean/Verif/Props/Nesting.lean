import Mathlib.Data.List.Perm.Subperm
import Verif.Lemmas.Nesting
import Verif.Lemmas.Program
import Verif.Props.Arith
import Verif.Props.Loading
/-! # C114: how deep calls nest in the host's stack -/

namespace Clr
open Spec

variable {cfg : Cfg} {ops : FloatOps} {tf fuel : Nat} {w : World} {m : MethodRec} {params : List Value}

/-- **C114, the counted execution.** Apart from the count it is the execution of `Model/Interp`. -/
theorem C114_same : (hostExecuteD cfg ops tf fuel w m params).1 = hostExecute cfg ops tf fuel w m params := by
  unfold hostExecuteD hostExecute
  split
  · dsimp only
    rw [(D.Is.invoke (D.Is.loop fuel) m .host).same]
  · rfl

/-- **C114, what nests.** However an execution ends, and if it has not ended, the calls that are active at the same time form a chain
of call instructions that stand in the code of the methods, from the method that the host executes. -/
theorem C114_chain (hw : Reached cfg w) : ∃ ms : List MethodRec, List.IsChain (CallsIn cfg w) (m :: ms) ∧
    (hostExecuteD cfg ops tf fuel w m params).2 ≤ ms.length + 1 := by
  unfold hostExecuteD
  split
  · dsimp only
    rcases invoke_within (cfg := cfg) (w := w) (run := loopD cfg ops tf fuel) (m := m) (r := .host)
      (v := { world := w, host := params }) (fun _ h => h) (.refl _) (fun fr v hf hv => loop_within hw fuel m fr 0 v hf hv) with h | ⟨k, h, ms, h1, h2⟩
    · rw [h]; exact ⟨[], .singleton _, by omega⟩
    · exact ⟨ms, h1, by omega⟩
  · exact ⟨[], .singleton _, by simp⟩

/-- **C114, leaves.** A method in whose code no call instruction stands takes one frame of the host's stack, however long it runs. -/
theorem C114_leaf (hw : Reached cfg w) (h : ∀ m', ¬ CallsIn cfg w m m') : (hostExecuteD cfg ops tf fuel w m params).2 ≤ 1 := by
  obtain ⟨ms, h1, h2⟩ := C114_chain (ops := ops) (tf := tf) (fuel := fuel) (m := m) (params := params) hw
  cases ms with
  | nil => exact h2
  | cons a ms => cases h1 with | cons_cons h1 _ => exact absurd h1 (h a)

/-- **C114 (partial), programs without recursion.** If no method that can be reached from `m` through call instructions reaches itself, an
execution of `m` never has more calls active than there are methods of registered types, and one. Missing: a limit for programs with
recursion, see `C114_refuted`. -/
theorem C114_partial (hw : Reached cfg w)
    (h : ∀ x, Relation.ReflTransGen (CallsIn cfg w) m x → ¬ Relation.TransGen (CallsIn cfg w) x x) :
    (hostExecuteD cfg ops tf fuel w m params).2 ≤ (w.types.flatMap (·.methods)).length + 1 := by
  obtain ⟨ms, h1, h2⟩ := C114_chain (ops := ops) (tf := tf) (fuel := fuel) (m := m) (params := params) hw
  have hp : (m :: ms).Pairwise (Relation.TransGen (CallsIn cfg w)) :=
    List.isChain_iff_pairwise.1 (h1.imp fun _ _ h => .single h)
  rw [List.pairwise_cons] at hp
  have hn : ms.Nodup := by
    refine List.Pairwise.imp_of_mem (fun {a b} ha _ hab e => ?_) hp.2
    subst e
    exact h a (hp.1 a ha).to_reflTransGen hab
  have hs : ms ⊆ w.types.flatMap (·.methods) := by
    intro x hx
    obtain ⟨y, -, hy⟩ := Relation.TransGen.tail'_iff.1 (hp.1 x hx)
    obtain ⟨r, g1, g2⟩ := CallsIn.declared hw hy
    exact List.mem_flatMap.2 ⟨r, List.mem_of_getElem? g1, g2⟩
  have := (hn.subperm hs).length_le
  omega

namespace Ex

def downStrings : List String := ["lib", "P", "Down", "Two", "One"]

/-- `class P { static void Down() { Down(); } static void Two() { One(); } static void One() { } }` -/
def downAsm : Asm where
  strings := downStrings
  blobs := [[0x00, 0, 0x01]]
  tables :=
    [(0x02, [typeRow downStrings 0 "" "P" 0 1 1]),
     (0x06, [methodRow downStrings 0x2000 0 0x10 "Down" 1 1, methodRow downStrings 0x2007 0 0x10 "Two" 1 1,
             methodRow downStrings 0x200e 0 0x10 "One" 1 1]),
     (0x20, [assemblyRow downStrings "lib"])]
  bodies := [0x1a, 0x28, 1, 0, 0, 6, 0x2a, 0x1a, 0x28, 3, 0, 0, 6, 0x2a, 0x06, 0x2a]

def downWorld (cfg : Cfg) : World := (loadData cfg noFiles 1 100 downAsm.file (loadData cfg noFiles 1 100 coreFile {}).2).2

def downMethod (name : String) (code : Bytes) (init : Bool) : MethodRec :=
  { name := name.toList, declaringType := 19, returnType := 3, params := [],
    impl := .il { code, maxStack := 8, locals := [], initLocals := init, clauses := [] },
    isStatic := true, isVirtual := false, isAbstract := false }

def down : MethodRec := downMethod "Down" [0x28, 1, 0, 0, 6, 0x2a] true
def two : MethodRec := downMethod "Two" [0x28, 3, 0, 0, 6, 0x2a] true
def one : MethodRec := downMethod "One" [0x2a] false

theorem downReached (cfg : Cfg) : Reached cfg (downWorld cfg) := (Reached.start.loadFile noFiles 1 100 _).loadFile noFiles 1 100 _

/-- The assembly of `P` and what its tokens stand for. -/
theorem down_facts : ∀ b : Bool, holds (fun a => decide (a.methodDefs = [down, two, one])) ((downWorld ⟨b⟩).assemblyOf 19) = true := by
  decide +kernel

end Ex

theorem D.bind_of {α β : Type} {x : X α} {f : α → D β} {v v' : VM} {a : α} (h : x v = (.ok a, v')) : (D.of x >>= f) v = f a v' := by
  show D.bind (D.of x) f v = _
  unfold D.bind D.of
  dsimp only
  rw [h]
  dsimp only
  rw [Nat.zero_max]

theorem D.bind_timeout {α β : Type} {x : D α} {f : α → D β} {v v' : VM} {n : Nat} (h : x v = ((.timeout, v'), n)) :
    (x >>= f) v = ((.timeout, v'), n) := by
  show D.bind x f v = _
  unfold D.bind
  rw [h]

section
variable {a : AssemblyRec} {ps : List Value} {run : Frame → Nat → D (Option Value)} {n : Nat}

theorem down_invoke (ha : w.assemblyOf 19 = .ok a)
    (hrun : ∀ fr : Frame, fr.assembly = a → fr.code = [0x28, 1, 0, 0, 6, 0x2a] →
      run fr 0 { world := w, host := ps } = ((.timeout, { world := w, host := ps }), n)) (r : Region) :
    invokeD cfg run Ex.down r { world := w, host := ps } = ((.timeout, { world := w, host := ps }), n + 1) := by
  unfold World.assemblyOf at ha
  obtain ⟨t, h1, h2⟩ := Res.bind_eq_ok.1 ha
  unfold invokeD
  show (do
    let t ← D.of (X.view fun v => v.world.typeAt 19)
    let a ← D.of (X.view fun v => Res.unwrap (v.world.assemblies.find? (·.id = t.assembly)))
    let outer ← D.of (X.update fun v => .ok (v.allocated, { v with allocated := 0 }))
    D.finally' (D.deeper do
      let locals ← D.of (stackAlloc 0)
      run { method := Ex.down, assembly := a, code := [0x28, 1, 0, 0, 6, 0x2a], locals, params := r } 0) (release cfg outer) : D (Option Value)) _ = _
  rw [D.bind_of (a := t) (v' := { world := w, host := ps }) (by rw [X.view_run, h1])]
  rw [D.bind_of (a := a) (v' := { world := w, host := ps }) (by rw [X.view_run, h2])]
  refine (D.bind_of (a := 0) (v' := { world := w, host := ps }) ?_).trans ?_
  · rfl
  have hin : (do
      let locals ← D.of (stackAlloc 0)
      run { method := Ex.down, assembly := a, code := [0x28, 1, 0, 0, 6, 0x2a], locals, params := r } 0 : D (Option Value))
      { world := w, host := ps } = ((.timeout, { world := w, host := ps }), n) := by
    refine (D.bind_of (a := .slots 0 0 0) (v' := { world := w, host := ps }) ?_).trans ?_
    · rfl
    exact hrun _ rfl rfl
  unfold D.finally' X.finally' D.deeper
  dsimp only
  rw [hin]
  have hrel : release cfg 0 { world := w, host := ps } = .ok { world := w, host := ps } := by
    rcases cfg with ⟨_ | _⟩ <;> rfl
  rw [hrel]

/-- The loop of a method that calls itself, with nothing on the stack. -/
theorem down_loop (ha : w.assemblyOf 19 = .ok a) (hm : a.methodDefs = [Ex.down, Ex.two, Ex.one]) (fuel : Nat) :
    ∀ fr : Frame, fr.assembly = a → fr.code = [0x28, 1, 0, 0, 6, 0x2a] →
      loopD cfg ops tf fuel fr 0 { world := w, host := ps } = ((.timeout, { world := w, host := ps }), fuel) := by
  induction fuel with
  | zero => intro fr _ _; rfl
  | succ fuel ih =>
    intro fr hfa hfc
    have hstep : step cfg ops tf fr 0 { world := w, host := ps } = (.ok (.call ⟨0x06000001⟩ none 5), { world := w, host := ps }) := by
      rw [step_of_fetch (op := .Call) (ip := 0) (ip' := 1) (by rw [hfc]; decide)]
      show doCall fr 1 _ = _
      unfold doCall
      rw [hfc]
      rfl
    unfold loopD
    rw [D.bind_of hstep]
    dsimp only
    refine D.bind_timeout ?_
    unfold callMethodD
    have hres : fr.assembly.resolveMethod cfg ⟨0x06000001⟩ = .ok (some Ex.down) := by
      rw [hfa]
      unfold AssemblyRec.resolveMethod
      rw [if_pos (by decide), hm]
      rcases cfg with ⟨_ | _⟩ <;> rfl
    rw [D.bind_of (a := some Ex.down) (v' := { world := w, host := ps }) (by rw [hres]; rfl)]
    refine (D.bind_of (a := Ex.down) (v' := { world := w, host := ps }) ?_).trans ?_
    · rfl
    refine (D.bind_of (a := .slots 0 0 0) (v' := { world := w, host := ps }) ?_).trans ?_
    · rfl
    refine (D.bind_of (a := ()) (v' := { world := w, host := ps }) ?_).trans ?_
    · rfl
    exact D.bind_timeout (down_invoke ha ih _)
end

/-- What was hoped for: calls nest only up to some limit; a program that exceeds it gets an error. -/
def Spec.Limited (cfg : Cfg) : Prop := ∃ limit, ∀ (ops : FloatOps) (tf fuel : Nat) (w : World) (m : MethodRec) (params : List Value),
  Reached cfg w → (hostExecuteD cfg ops tf fuel w m params).2 ≤ limit

/-- **C114: refuted.** There is no such limit, in debug and in release builds: `static void Down() { Down(); }`, loaded from a file, has
more and more calls of the interpreter active as long as it runs, and neither returns nor gets an error. -/
theorem C114_refuted : ¬ Limited cfg ∧ ∃ (w : World) (m : MethodRec) (a : AssemblyRec), Reached cfg w ∧ w.assemblyOf m.declaringType = .ok a ∧
    m ∈ a.methodDefs ∧ ∀ ops tf fuel params, (hostExecuteD cfg ops tf fuel w m params).2 = fuel + 1 ∧
      (hostExecute cfg ops tf fuel w m params).1 = .timeout := by
  obtain ⟨a, h1, h2⟩ := Ex.holds_iff (Ex.down_facts cfg.checks)
  rw [decide_eq_true_eq] at h2
  have key : ∀ ops tf fuel params, hostExecuteD cfg ops tf fuel (Ex.downWorld cfg) Ex.down params =
      ((.timeout, { world := Ex.downWorld cfg, host := params }), fuel + 1) := by
    intro ops tf fuel params
    generalize Ex.downWorld cfg = w at *
    unfold hostExecuteD
    rw [if_pos (show Ex.down.isStatic = true from rfl), down_invoke h1 (down_loop h1 h2 fuel)]
    rfl
  refine ⟨fun ⟨limit, hl⟩ => ?_, Ex.downWorld cfg, Ex.down, a, Ex.downReached cfg, h1, by rw [h2]; exact List.mem_cons_self,
    fun ops tf fuel params => ⟨by rw [key], by rw [← C114_same, key]⟩⟩
  have := hl Ex.floats 0 limit _ Ex.down [] (Ex.downReached cfg)
  rw [key] at this
  omega

/-- Programs without recursion: `Two` calls `One`, which calls nothing. -/
theorem Ex.calls_two {m' : MethodRec} (h : CallsIn cfg (Ex.downWorld cfg) Ex.two m') : m' = Ex.one := by
  obtain ⟨a, h1, h2⟩ := Ex.holds_iff (Ex.down_facts cfg.checks)
  rw [decide_eq_true_eq] at h2
  generalize Ex.downWorld cfg = w at *
  obtain ⟨b, body, ip, k1, k2, k3, k4, k5⟩ := h
  cases h1.symm.trans k1
  cases k2
  match ip with
  | 0 =>
    unfold AssemblyRec.resolveMethod at k5
    rw [if_pos (by decide), h2] at k5
    rcases cfg with ⟨_ | _⟩ <;> (injection k5 with k5; injection k5 with k5; exact k5.symm)
  | 1 => rcases k3 with k3 | k3 <;> exact absurd k3 (by decide)
  | n + 2 => simp at k4

theorem Ex.calls_one {m' : MethodRec} : ¬ CallsIn cfg (Ex.downWorld cfg) Ex.one m' := by
  rintro ⟨b, body, ip, -, k2, -, k4, -⟩
  cases k2
  simp at k4

example : (∀ m', ¬ CallsIn .debug (Ex.downWorld .debug) Ex.one m') ∧
    (∀ x, Relation.ReflTransGen (CallsIn .debug (Ex.downWorld .debug)) Ex.two x → ¬ Relation.TransGen (CallsIn .debug (Ex.downWorld .debug)) x x) ∧
    (let r := hostExecuteD .debug Ex.floats 1 10 (Ex.downWorld .debug) Ex.two []; (r.1.1, r.2)) = (.ok .void, 2) := by
  refine ⟨fun _ => Ex.calls_one, fun x hx hxx => ?_, by decide +kernel⟩
  have hone : ∀ x, ¬ Relation.TransGen (CallsIn .debug (Ex.downWorld .debug)) Ex.one x := fun x h => by
    obtain ⟨y, hy, -⟩ := Relation.TransGen.head'_iff.1 h
    exact Ex.calls_one hy
  rcases Relation.ReflTransGen.cases_head hx with rfl | ⟨y, hy, hyx⟩
  · obtain ⟨y, hy, h⟩ := Relation.TransGen.head'_iff.1 hxx
    rw [Ex.calls_two hy] at h
    rcases Relation.ReflTransGen.cases_head h with e | ⟨z, hz, -⟩
    · exact absurd e (by decide)
    · exact Ex.calls_one hz
  · rw [Ex.calls_two hy] at hyx
    rcases Relation.ReflTransGen.cases_head hyx with rfl | ⟨z, hz, -⟩
    · exact hone _ hxx
    · exact Ex.calls_one hz

end Clr
