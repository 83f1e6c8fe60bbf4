import Verif.Model.Align
import Verif.Spec.Align
import Verif.Lemmas.Onward
import Verif.Lemmas.Machine
import Verif.Lemmas.Frames
import Verif.Lemmas.Quiet
import Verif.Lemmas.Decode
import Verif.Lemmas.Reader
import Verif.Lemmas.Tables
import Verif.Spec.Objects
/-!
# Checking addresses changes nothing but to stop

Functions of `Strict` behave as their originals or end in undefined behaviour. The statements are type-class instances, so that
the proof for a function finds those for the functions it calls.
-/

namespace Clr
variable {α β : Type}

/-- The second computation does what the first does, unless it ends in undefined behaviour. -/
class Narrow (x s : X α) : Prop where
  eq : ∀ v, (s v).1 ≠ .ub → s v = x v

namespace Narrow
instance (priority := low) refl (x : X α) : Narrow x x := ⟨fun _ _ => rfl⟩
theorem bind {x s : X α} {f g : α → X β} (h : Narrow x s) (h' : ∀ a, Narrow (f a) (g a)) : Narrow (x >>= f) (s >>= g) := by
  refine ⟨fun v hv => ?_⟩
  rw [X.bind_run] at hv ⊢
  rw [X.bind_run]
  have h1 := h.eq v
  cases hs : s v with
  | mk r v' =>
  rw [hs] at hv h1
  cases r with
  | ok a => rw [← h1 (by simp)]; exact (h' a).eq v' hv
  | ub => exact absurd rfl hv
  | _ => rw [← h1 (by simp)]
/-- A check in front. -/
theorem check {x s : X β} (a n : Nat) (h : Narrow x s) : Narrow x (Strict.aligned a n >>= fun _ => s) := by
  refine ⟨fun v hv => ?_⟩
  rw [X.bind_run] at hv ⊢
  unfold Strict.aligned X.lift at hv ⊢
  by_cases h2 : a % n = 0
  · simp only [h2, if_true] at hv ⊢
    exact h.eq _ hv
  · simp only [h2, if_false] at hv
    exact absurd rfl hv
theorem finally' {x s : X α} {f : VM → Res VM} (h : Narrow x s) : Narrow (X.finally' x f) (Strict.finally' s f) := by
  refine ⟨fun v hv => ?_⟩
  have h1 := h.eq v
  unfold Strict.finally' at hv ⊢
  split at hv
  · exact absurd rfl hv
  · rename_i hu
    unfold X.finally'
    rw [h1 hu]
end Narrow

/-- Takes a function apart until the instances for its parts apply. -/
macro "narrow" : tactic => `(tactic| repeat' first
  | infer_instance
  | with_reducible refine Narrow.check _ _ ?_
  | with_reducible refine Narrow.bind ?_ (fun _ => ?_)
  | split
  | dsimp only)

variable (pl : Placement) (cfg : Cfg) (ops : FloatOps) (tf : Nat) (fr : Frame) (n ip i : Nat) (p : Ptr) (r : Region)
instance : Narrow (liftM (fetch fr.code ip n)) (Strict.fetch pl fr ip n) := by unfold Strict.fetch; narrow
instance : Narrow (liftM (fetchInt fr.code ip n)) (Strict.fetchInt pl fr ip n) := by
  unfold Strict.fetchInt
  have h : (liftM (fetchInt fr.code ip n) : X Int) = (liftM (fetch fr.code ip n) : X Nat) >>= fun x => pure (BitVec.ofNat (8 * n) x).toInt := by
    funext v
    rw [X.bind_run]
    unfold fetchInt
    cases h : fetch fr.code ip n <;> rfl
  rw [h]
  narrow
instance : Narrow (stackAlloc n) (Strict.stackAlloc pl n) := by
  refine ⟨fun v hv => ?_⟩
  unfold Strict.stackAlloc at hv ⊢
  rw [X.bind_run] at hv ⊢
  cases h : stackAlloc n v with
  | mk r v' =>
  rw [h] at hv
  cases r with
  | ok r =>
    dsimp only at hv ⊢
    cases r with
    | host => rfl
    | slots g b c =>
      exact (Narrow.check (x := pure (Region.slots g b c)) _ _ (.refl _)).eq v' hv
  | _ => rfl
instance (u) : Narrow (allocString cfg u) (Strict.allocString pl cfg u) := by unfold allocString Strict.allocString; narrow
instance (f a) : Narrow (setField p f a) (Strict.setField pl p f a) := by unfold setField Strict.setField; narrow
instance (f) : Narrow (getField p f) (Strict.getField pl p f) := by 
  unfold getField Strict.getField
  refine .bind inferInstance fun _ => .bind inferInstance fun ⟨_, _⟩ => ?_
  dsimp only
  narrow
instance : Narrow (intSlice p) (Strict.intSlice pl p) := by unfold intSlice Strict.intSlice; narrow
instance (x) : Narrow (setInt p i x) (Strict.setInt pl p i x) := by unfold setInt Strict.setInt; narrow
instance : Narrow (getInt p i) (Strict.getInt pl p i) := by unfold getInt Strict.getInt; narrow
instance : Narrow (stringData p) (Strict.stringData pl p) := by unfold stringData Strict.stringData; narrow
instance (m) : Narrow (callNative m r) (Strict.callNative pl m r) := by 
  cases m with
  | consoleWrite =>
    unfold callNative Strict.callNative
    refine .bind inferInstance fun a => ?_
    cases a <;> (dsimp only; narrow)
  | _ => exact .refl _
instance (f) : Narrow (immediate fr n f ip) (Strict.immediate pl fr n f ip) := by unfold immediate Strict.immediate; narrow
instance : Narrow (loadFrom fr r n ip) (Strict.loadFrom pl fr r n ip) := by unfold loadFrom Strict.loadFrom; narrow
instance : Narrow (storeTo fr r n ip) (Strict.storeTo pl fr r n ip) := by unfold storeTo Strict.storeTo; narrow
instance : Narrow (branch fr n ip) (Strict.branch pl fr n ip) := by unfold branch Strict.branch; narrow
instance (b) : Narrow (branchIf ops fr b n ip) (Strict.branchIf pl ops fr b n ip) := by unfold branchIf Strict.branchIf; narrow
instance (f) : Narrow (branchCmp fr f n ip) (Strict.branchCmp pl fr f n ip) := by unfold branchCmp Strict.branchCmp; narrow
instance : Narrow (doCall fr ip) (Strict.doCall pl fr ip) := by unfold doCall Strict.doCall; narrow
instance : Narrow (doNewobj cfg tf fr ip) (Strict.doNewobj pl cfg tf fr ip) := by unfold doNewobj Strict.doNewobj; narrow
instance : Narrow (doStfld cfg fr ip) (Strict.doStfld pl cfg fr ip) := by 
  unfold doStfld Strict.doStfld
  refine .bind inferInstance fun _ => .bind inferInstance fun _ => .bind inferInstance fun _ => .bind inferInstance fun _ =>
    .bind inferInstance fun a => ?_
  cases a <;> (dsimp only; narrow)
instance : Narrow (doLdfld cfg fr ip) (Strict.doLdfld pl cfg fr ip) := by 
  unfold doLdfld Strict.doLdfld
  refine .bind inferInstance fun _ => .bind inferInstance fun _ => .bind inferInstance fun _ => .bind inferInstance fun a => ?_
  cases a <;> (dsimp only; narrow)
instance : Narrow (doNewarr cfg tf fr ip) (Strict.doNewarr pl cfg tf fr ip) := by unfold doNewarr Strict.doNewarr; narrow
instance : Narrow (doStelem ip) (Strict.doStelem pl ip) := by unfold doStelem Strict.doStelem; narrow
instance : Narrow (doLdelem ip) (Strict.doLdelem pl ip) := by unfold doLdelem Strict.doLdelem; narrow
instance : Narrow (doLdstr cfg fr ip) (Strict.doLdstr pl cfg fr ip) := by unfold doLdstr Strict.doLdstr; narrow
instance (op) : Narrow (exec cfg ops tf fr op ip) (Strict.exec pl cfg ops tf fr op ip) := by
  cases op <;> (unfold Strict.exec; unfold exec; infer_instance)
instance : Narrow (step cfg ops tf fr ip) (Strict.step pl cfg ops tf fr ip) := by 
  unfold step Strict.step
  exact .bind inferInstance fun ⟨op, i⟩ => (inferInstance : Narrow (exec cfg ops tf fr op i) (Strict.exec pl cfg ops tf fr op i))
instance (run run' : Frame → Nat → X (Option Value)) [∀ fr i, Narrow (run fr i) (run' fr i)] (m) :
    Narrow (invoke cfg run m r) (Strict.invoke pl cfg run' m r) := by
  unfold invoke Strict.invoke
  cases m.impl with
  | il body =>
    refine .bind inferInstance fun _ => .bind inferInstance fun _ => .bind (.refl _) fun _ => .finally' ?_
    narrow
  | internal f => exact (inferInstance : Narrow (callNative f r) (Strict.callNative pl f r))
  | none => exact .refl _
instance (run run' : Frame → Nat → X (Option Value)) [∀ fr i, Narrow (run fr i) (run' fr i)] (t) :
    Narrow (callMethod cfg run fr t) (Strict.callMethod pl cfg run' fr t) := by
  unfold callMethod Strict.callMethod; narrow
instance : Narrow (loop cfg ops tf n fr ip) (Strict.loop pl cfg ops tf n fr ip) := by
  induction n generalizing fr ip with
  | zero => exact .refl _
  | succ n ih => unfold loop Strict.loop; narrow

/-! ## Code with aligned operands -/

/-- An address allowed for all numbers, for the code of every method and for the memory of locals and arguments. -/
structure Placement.Usual (pl : Placement) : Prop where
  code : ∀ m, pl.code m % 8 = 0
  stack : ∀ g, pl.stack g % 8 = 0
  heap : ∀ g, pl.heap g % 8 = 0

theorem aligned_ok {a n : Nat} (h : a % n = 0) : Strict.aligned a n = pure () := by
  unfold Strict.aligned
  rw [if_pos h]
  rfl

theorem X.pure_bind' {a : α} {f : α → X β} : (Pure.pure a : X α) >>= f = f a := rfl

variable {pl cfg ops tf fr n ip i p r}

theorem fetch_aligned (hc : pl.code fr.method % 8 = 0) (hn : n ∣ 8) (hi : ip % n = 0) :
    Strict.fetch pl fr ip n = (liftM (fetch fr.code ip n) : X Nat) := by
  unfold Strict.fetch
  rw [aligned_ok (Nat.mod_eq_zero_of_dvd (Nat.dvd_add (Nat.dvd_trans hn (Nat.dvd_of_mod_eq_zero hc)) (Nat.dvd_of_mod_eq_zero hi)))]
  rfl

theorem fetchInt_aligned (hc : pl.code fr.method % 8 = 0) (hn : n ∣ 8) (hi : ip % n = 0) :
    Strict.fetchInt pl fr ip n = (liftM (fetchInt fr.code ip n) : X Int) := by
  unfold Strict.fetchInt
  rw [fetch_aligned hc hn hi]
  funext v
  rw [X.bind_run]
  unfold fetchInt
  cases h : fetch fr.code ip n <;> rfl

theorem stackAlloc_aligned (hs : ∀ g, pl.stack g % 8 = 0) : Strict.stackAlloc pl n = stackAlloc n := by
  funext v
  unfold Strict.stackAlloc
  rw [X.bind_run]
  cases h : stackAlloc n v with
  | mk r v' =>
  cases r with
  | ok r =>
    cases r with
    | host => rfl
    | slots g b c =>
      dsimp only
      rw [aligned_ok (by have := hs g; omega)]
      rfl
  | _ => rfl

/-- The size of the operand the interpreter takes from the code. -/
def Op.operandSize : Op → Nat
  | .Ldc_I8 | .Ldc_R8 => 8
  | .Ldc_I4 | .Ldc_R4 | .Ldarg | .Starg | .Call | .Newobj | .Stfld | .Ldfld | .Newarr | .Ldstr
  | .Br | .Brfalse | .Brtrue | .Beq | .Bge | .Bgt | .Ble | .Blt => 4
  | .Ldloc | .Stloc => 2
  | _ => 1

/-- The instructions that access numbers inside objects, arrays and strings. -/
def Op.touchesObjects : Op → Bool
  | .Stfld | .Ldfld | .Stelem_I4 | .Ldelem_I4 | .Ldstr => true
  | _ => false

theorem rows_aligned : (encodings.filter Encoding.isRight).all (fun e => match decodeBytes e.opcode with
    | some op => (e.mnemonic ∈ Spec.objectInstructions || !op.touchesObjects) && (op.operandSize = max 1 e.operand.size) &&
      ((op ≠ .Call || e.mnemonic = "call") && (op ≠ .Newobj || e.mnemonic = "newobj")) &&
      ((op ≠ .Call && op ≠ .Newobj) || e.operand.size = 4)
    | none => false) = true := by decide +kernel

theorem exec_aligned {op : Op} (hc : pl.code fr.method % 8 = 0) (ho : op.touchesObjects = false)
    (hi : ip % op.operandSize = 0) : Strict.exec pl cfg ops tf fr op ip = exec cfg ops tf fr op ip := by
  have h8 : 8 ∣ 8 := ⟨1, rfl⟩
  have h4 : 4 ∣ 8 := ⟨2, rfl⟩
  have h2 : 2 ∣ 8 := ⟨4, rfl⟩
  have h1 : 1 ∣ 8 := ⟨8, rfl⟩
  cases op <;> simp only [Op.touchesObjects, Bool.true_eq_false] at ho <;> unfold Strict.exec <;>
    first
    | rfl
    | (unfold exec
       simp only [Strict.immediate, Strict.loadFrom, Strict.storeTo, Strict.branch, Strict.branchIf, Strict.branchCmp, Strict.doCall,
         Strict.doNewobj, Strict.doNewarr]
       first
       | rw [fetch_aligned hc h1 hi] | rw [fetch_aligned hc h2 hi] | rw [fetch_aligned hc h4 hi] | rw [fetch_aligned hc h8 hi]
       | rw [fetchInt_aligned hc h1 hi] | rw [fetchInt_aligned hc h4 hi]
       rfl)

variable {w : World} {M : MethodRec → Prop}

/-- On states whose registry comes from `w`, the second computation does what the first does, unless that is undefined. -/
def SameFrom (w : World) (x s : X α) : Prop := ∀ v, Evolves w v.world → (x v).1 ≠ .ub → s v = x v

theorem SameFrom.refl (x : X α) : SameFrom w x x := fun _ _ _ => rfl

theorem SameFrom.bind {x s : X α} {f g : α → X β} (h : SameFrom w x s) (hk : Keeps 0 False False x)
    (h' : ∀ v a v', Evolves w v.world → x v = (.ok a, v') → SameFrom w (f a) (g a)) : SameFrom w (x >>= f) (s >>= g) := by
  intro v hv hu
  rw [X.bind_run] at hu
  have h1 := hk.run v (Nat.zero_le _)
  have h2 := h v hv
  rw [X.bind_run, X.bind_run]
  cases hx : x v with
  | mk r v' =>
  rw [hx] at h1 h2 hu
  cases r with
  | ok a =>
    rw [h2 (by simp)]
    exact h' v a v' hv hx v' (hv.trans h1.world) hu
  | ub => exact absurd rfl hu
  | _ => rw [h2 (by simp)]

/-- A frame of a method of the set. -/
structure EvenFrame (cfg : Cfg) (w : World) (M : MethodRec → Prop) (S : Nat → Prop) (fr : Frame) : Prop where
  length : fr.code.length < 2 ^ 62
  code : Spec.EvenCode fr.code S
  calls : ∀ ip e (arg : Bytes) m', S ip → e ∈ encodings → e.mnemonic = "call" ∨ e.mnemonic = "newobj" → arg.length = 4 →
      HasAt fr.code ip (e.opcode ++ arg) → fr.assembly.resolveMethod cfg ⟨leNat arg⟩ = .ok (some m') → M m'

/-- Runs of such frames are the same. -/
structure EvenRun (cfg : Cfg) (w : World) (M : MethodRec → Prop) (run run' : Frame → Nat → X (Option Value)) : Prop where
  free : RunsFree run
  same : ∀ fr S ip, EvenFrame cfg w M S fr → S ip → SameFrom w (run fr ip) (run' fr ip)

theorem callNative_aligned {f : InternalMethod} (hf : f ≠ .consoleWrite) : Strict.callNative pl f r = callNative f r := by
  cases f with
  | consoleWrite => exact absurd rfl hf
  | _ => rfl

theorem Evolves.typeAt_back {w' : World} (h : Evolves w w') {t : Nat} {tr : TypeRec} (hw : t < w.types.length)
    (ht : w'.typeAt t = .ok tr) : w.typeAt t = .ok tr := by
  have h1 : w.typeAt t = .ok w.types[t] := by
    unfold World.typeAt
    rw [List.getElem?_eq_getElem hw]
    rfl
  have h2 := h.typeAt_ok h1
  rw [ht] at h2
  rw [h1, h2]

theorem free_zero {r : Region} : r.free 0 False := by
  cases r
  · exact id
  · exact Nat.zero_le _

theorem invoke_aligned (hS : Spec.Even cfg w M) (hp : pl.Usual) {run run' : Frame → Nat → X (Option Value)}
    (hrun : EvenRun cfg w M run run') {m : MethodRec} (hm : M m) : SameFrom w (invoke cfg run m r) (Strict.invoke pl cfg run' m r) := by
  unfold invoke Strict.invoke
  cases hi : m.impl with
  | none => exact .refl _
  | internal f =>
    dsimp only
    rw [callNative_aligned (fun h => hS.natives m hm (by rw [hi, h]))]
    exact .refl _
  | il body =>
    dsimp only
    refine .bind (.refl _) (.view _) fun v1 tr _ hv1 h1 => .bind (.refl _) (.view _) fun v2 a _ hv2 h2 => ?_
    have htr : w.typeAt m.declaringType = .ok tr := hv1.typeAt_back (hS.types m hm) (congrArg Prod.fst h1)
    have ha : w.assemblies.find? (·.id = tr.assembly) = some a := by
      rw [← hv2.assemblies]
      unfold X.view at h2
      dsimp only at h2
      cases hf : v2.world.assemblies.find? (·.id = tr.assembly) with
      | none => rw [hf] at h2; cases h2
      | some b => rw [hf] at h2; cases h2; rfl
    intro v hv hu
    rw [X.bind_ok (X.update_ok rfl)] at hu ⊢
    rw [X.bind_ok (X.update_ok rfl)]
    rw [stackAlloc_aligned hp.stack]
    generalize hx : (do
      let locals ← stackAlloc body.locals.length
      run { method := m, assembly := a, code := body.code, locals, params := r } 0 : X (Option Value)) = x at hu ⊢
    generalize hs : (do
      let locals ← stackAlloc body.locals.length
      run' { method := m, assembly := a, code := body.code, locals, params := r } 0 : X (Option Value)) = s
    have hk : Keeps 0 False False x := by
      subst hx
      exact .bind (.stackAlloc _) fun _ => hrun.free 0 False _ _ ⟨free_zero, free_zero⟩
    have hsame : SameFrom w x s := by
      subst hx hs
      exact .bind (.refl _) (.stackAlloc _) fun _ _ _ _ _ => by
        obtain ⟨hl, S, hc, hcalls⟩ := hS.code m body hm hi
        exact hrun.same _ S _ ⟨hl, hc, fun ip e arg m' h1 h2 h3 h4 h5 h6 => hcalls ip e arg tr a m' h1 h2 h3 h4 h5 htr ha h6⟩ hc.start
    have hb := (hk.run { v with allocated := 0 } (Nat.zero_le _)).balance
    simp only [Nat.add_zero] at hb
    have hrel : ∃ u, release cfg v.allocated (x { v with allocated := 0 }).2 = .ok u := by
      unfold release
      rw [usub_ok (by omega)]
      exact ⟨_, rfl⟩
    obtain ⟨u, hu'⟩ := hrel
    have hxu : (x { v with allocated := 0 }).1 ≠ .ub := by
      intro h
      rw [finally_run hu'] at hu
      exact hu h
    have he := hsame { v with allocated := 0 } hv hxu
    unfold Strict.finally' X.finally'
    rw [he]
    split
    · exact absurd ‹_› hxu
    · rfl

theorem callMethod_aligned (hS : Spec.Even cfg w M) (hp : pl.Usual) {run run' : Frame → Nat → X (Option Value)}
    (hrun : EvenRun cfg w M run run') {m : MethodRec} (hm : M m) {t : Token} (hr : fr.assembly.resolveMethod cfg t = .ok (some m)) :
    SameFrom w (callMethod cfg run fr t) (Strict.callMethod pl cfg run' fr t) := by
  unfold callMethod Strict.callMethod
  rw [hr]
  refine .bind (.refl _) (.lift _) fun _ o _ _ h => ?_
  cases h
  refine .bind (.refl _) (.lift _) fun _ m' _ _ h => ?_
  cases h
  dsimp only
  rw [stackAlloc_aligned hp.stack]
  refine .bind (.refl _) (.stackAlloc _) fun _ r _ _ h => .bind (.refl _) (.popInto free_zero _) fun _ _ _ _ _ =>
    .bind (invoke_aligned hS hp hrun hm) ⟨fun v hv => (invoke_whole hrun.free m free_zero hv).toTidy⟩ fun _ o _ _ _ => ?_
  cases o <;> exact .refl _

theorem loop_aligned (hS : Spec.Even cfg w M) (hp : pl.Usual) : EvenRun cfg w M (loop cfg ops tf n) (Strict.loop pl cfg ops tf n) := by
  refine ⟨loop_free cfg ops tf n, ?_⟩
  induction n with
  | zero => intro fr S ip _ _; exact .refl _
  | succ n ih =>
    intro fr S ip hfr hip
    unfold loop Strict.loop
    obtain ⟨e, he, arg, harg, hc, -⟩ := hfr.code.closed ip hip
    obtain ⟨he1, he2⟩ := List.mem_filter.1 he
    have hright : e.isRight = true := by simpa [Encoding.isRight] using he2
    obtain ⟨op, hop, -⟩ := row_ok he1 hright
    have hrow := List.all_eq_true.1 rows_aligned e (List.mem_filter.2 ⟨he1, hright⟩)
    simp only [hop, Bool.and_eq_true, Bool.or_eq_true, decide_eq_true_eq, Bool.not_eq_true'] at hrow
    obtain ⟨⟨⟨hr1, hr2⟩, hr3, hr3'⟩, hr4⟩ := hrow
    obtain ⟨hev1, hev2⟩ := hfr.code.even ip e hip he1 hc.left
    have hfetch := fetchOp_of hop hc.left
    have hstep : Strict.step pl cfg ops tf fr ip = step cfg ops tf fr ip := by
      funext v
      rw [step_of_fetch hfetch]
      unfold Strict.step
      rw [X.liftM_bind_ok hfetch]
      refine congrFun (exec_aligned (hp.code _) (hr1.resolve_left hev1) ?_) v
      rw [hr2]
      rcases hev2 with h | h
      · rw [h]; exact Nat.mod_one _
      · rcases Nat.eq_zero_or_pos e.operand.size with h0 | h0
        · rw [h0]; exact Nat.mod_one _
        · rwa [Nat.max_eq_right h0]
    rw [hstep]
    have hkl : ∀ ip, Keeps 0 False False (loop cfg ops tf n fr ip) := fun ip => loop_free cfg ops tf n 0 False fr ip ⟨free_zero, free_zero⟩
    refine .bind (.refl _) (.step ⟨free_zero, free_zero⟩ ip) fun v a v' hv h => ?_
    have hnext := (closed_step (cfg := cfg) (ops := ops) (tf := tf) (v := v) hfr.code.closed hfr.length hip []).2 a
    rw [h] at hnext
    cases a with
    | next ip1 => exact ih fr S ip1 hfr (hnext _ rfl rfl)
    | ret a => exact .refl _
    | call t after ip1 =>
      have hS1 : S ip1 := hnext _ rfl rfl
      dsimp only
      have hcall : ∀ m, fr.assembly.resolveMethod cfg t = .ok (some m) → M m := by
        intro m hm
        rw [step_of_fetch hfetch] at h
        have hop' : op = .Call ∨ op = .Newobj := by
          refine Classical.byContradiction fun hn => ?_
          have := exec_calls (cfg := cfg) (ops := ops) (tf := tf) (fr := fr) (ip := ip + e.opcode.length) (op := op)
            ⟨fun h => hn (.inr h), fun h => hn (.inl h)⟩ v (.call t after ip1) (by rw [h])
          exact this _ _ _ rfl
        have hsize : e.operand.size = 4 := by
          rcases hop' with rfl | rfl <;> simpa using hr4
        have hmn : e.mnemonic = "call" ∨ e.mnemonic = "newobj" := by
          rcases hop' with rfl | rfl
          · exact .inl (by simpa using hr3)
          · exact .inr (by simpa using hr3')
        have hft : fetch fr.code (ip + e.opcode.length) 4 = .ok t.raw := by
          rcases hop' with rfl | rfl
          · replace h : doCall fr (ip + e.opcode.length) v = (.ok (.call t after ip1), v') := h
            unfold doCall at h
            rw [X.bind_run] at h
            cases hg : fetch fr.code (ip + e.opcode.length) 4 <;> rw [hg] at h <;> cases h
            rfl
          · replace h : doNewobj cfg tf fr (ip + e.opcode.length) v = (.ok (.call t after ip1), v') := h
            unfold doNewobj at h
            rw [X.bind_run] at h
            cases hg : fetch fr.code (ip + e.opcode.length) 4 with
            | ok x =>
              rw [hg] at h
              obtain ⟨_, _, -, h⟩ := X.bind_eq_ok.1 h
              obtain ⟨_, _, -, h⟩ := X.bind_eq_ok.1 h
              obtain ⟨_, _, -, h⟩ := X.bind_eq_ok.1 h
              obtain ⟨_, _, -, h⟩ := X.bind_eq_ok.1 h
              cases h
              rfl
            | _ => rw [hg] at h; cases h
        have harg4 : arg.length = 4 := by rw [harg, hsize]
        rw [fetch_at hc.drop harg4 (by decide)] at hft
        refine hfr.calls ip e arg m hip he1 hmn harg4 hc ?_
        rw [← hm]
        cases t
        cases hft
        rfl
      have hmain : SameFrom w (callMethod cfg (loop cfg ops tf n) fr t) (Strict.callMethod pl cfg (Strict.loop pl cfg ops tf n) fr t) := by
        cases hres : fr.assembly.resolveMethod cfg t with
        | ok o =>
          cases o with
          | some m => exact callMethod_aligned hS hp ⟨loop_free cfg ops tf n, ih⟩ (hcall m hres) hres
          | none =>
            intro v _ _
            unfold callMethod Strict.callMethod
            rw [hres]
            rfl
        | _ =>
          intro v _ _
          unfold callMethod Strict.callMethod
          rw [hres]
          rfl
      refine .bind hmain (callMethod_keeps (loop_free cfg ops tf n) fr t) fun _ _ _ _ _ => ?_
      cases after with
      | none => exact fun v hv hu => ih fr S ip1 hfr hS1 v hv hu
      | some a => exact .bind (.refl _) (.push _) fun _ _ _ _ _ => ih fr S ip1 hfr hS1

/-! ## Single accesses -/

theorem aligned_ub {a n : Nat} {v : VM} (h : a % n ≠ 0) : Strict.aligned a n v = (.ub, v) := by
  unfold Strict.aligned
  rw [if_neg h]
  rfl

/-- A check in front of something that succeeds. -/
theorem aligned_bind {a n : Nat} {v v' : VM} {x : X α} {b : α} (h : x v = (.ok b, v')) :
    ((Strict.aligned a n >>= fun _ => x) v).1 = .ub ↔ a % n ≠ 0 := by
  rw [X.bind_run]
  by_cases h1 : a % n = 0
  · rw [aligned_ok h1]
    show (x v).1 = .ub ↔ _
    rw [h]
    simp [h1]
  · rw [aligned_ub h1]
    simp [h1]

theorem allocString_exact {us : List Nat} {v v' : VM} (h : allocString cfg us v = (.ok p, v')) :
    (Strict.allocString pl cfg us v).1 = .ub ↔ (pl.heap p.gen + p.off + 13) % 2 ≠ 0 := by
  unfold allocString at h
  unfold Strict.allocString
  obtain ⟨_, _, h1, h⟩ := X.bind_eq_ok.1 h
  rw [X.bind_ok h1]
  obtain ⟨_, _, h1, h⟩ := X.bind_eq_ok.1 h
  rw [X.bind_ok h1]
  obtain ⟨_, _, h1, h⟩ := X.bind_eq_ok.1 h
  rw [X.bind_ok h1]
  obtain ⟨_, _, h1, h⟩ := X.bind_eq_ok.1 h
  rw [X.bind_ok h1]
  obtain ⟨_, _, h1, h⟩ := X.bind_eq_ok.1 h
  rw [X.bind_ok h1]
  obtain ⟨_, _, h1, h⟩ := X.bind_eq_ok.1 h
  rw [X.bind_ok h1]
  obtain ⟨_, _, h1, h⟩ := X.bind_eq_ok.1 h
  rw [X.bind_ok h1]
  obtain ⟨_, _, h1, h⟩ := X.bind_eq_ok.1 h
  rw [X.bind_ok h1]
  rw [aligned_bind h]
  obtain ⟨_, _, h1, h⟩ := X.bind_eq_ok.1 h
  cases h
  rfl

theorem stringData_exact {us : List Nat} {v v' : VM} (h : stringData p v = (.ok us, v')) :
    (Strict.stringData pl p v).1 = .ub ↔ (pl.heap p.gen + p.off + 13) % 2 ≠ 0 := by
  unfold stringData at h
  unfold Strict.stringData
  obtain ⟨_, _, h1, h⟩ := X.bind_eq_ok.1 h
  rw [X.bind_ok h1]
  rw [aligned_bind h]
  rfl

theorem setField_exact {f : FieldRec} {a : Value} {bs : Bytes} {v v' : VM} (hb : valueBytes a = .ok bs)
    (h : setField p f a v = (.ok (), v')) :
    (Strict.setField pl p f a v).1 = .ub ↔ (pl.heap p.gen + p.off + (5 + f.offset)) % bs.length ≠ 0 := by
  unfold setField at h
  unfold Strict.setField
  obtain ⟨_, _, h1, h⟩ := X.bind_eq_ok.1 h
  rw [X.bind_ok h1]
  rw [hb] at h ⊢
  obtain ⟨_, _, h1, h⟩ := X.bind_eq_ok.1 h
  rw [X.bind_ok h1]
  cases h1
  rw [aligned_bind h]
  rfl

theorem intSlice_exact {k : Nat} {v v' : VM} (h : intSlice p v = (.ok k, v')) :
    if (pl.heap p.gen + p.off + 17) % 4 = 0 then Strict.intSlice pl p v = (.ok k, v') else (Strict.intSlice pl p v).1 = .ub := by
  have hn : Narrow (intSlice p) (Strict.intSlice pl p) := inferInstance
  have hiff : (Strict.intSlice pl p v).1 = .ub ↔ (pl.heap p.gen + p.off + 17) % 4 ≠ 0 := by
    unfold intSlice at h
    unfold Strict.intSlice
    obtain ⟨_, _, h1, h⟩ := X.bind_eq_ok.1 h
    rw [X.bind_ok h1]
    obtain ⟨tid, _, h1, h⟩ := X.bind_eq_ok.1 h
    rw [X.bind_ok h1]
    obtain ⟨hd, _, h1, h⟩ := X.bind_eq_ok.1 h
    rw [X.bind_ok h1]
    by_cases hid : leNat ((hd.drop 5).take 4) = tid
    · rw [if_pos hid] at h ⊢
      rw [aligned_bind h]
      rfl
    · rw [if_neg hid] at h
      obtain ⟨_, _, h1, h⟩ := X.bind_eq_ok.1 h
      obtain ⟨_, _, h1, h⟩ := X.bind_eq_ok.1 h
      cases h
  split
  · rename_i h4
    rw [hn.eq v (fun hu => hiff.1 hu h4), h]
  · exact hiff.2 ‹_›

theorem getInt_exact {x : BitVec 32} {v v' : VM} (h : getInt p i v = (.ok x, v')) :
    (Strict.getInt pl p i v).1 = .ub ↔ (pl.heap p.gen + p.off + 17) % 4 ≠ 0 := by
  unfold getInt at h
  unfold Strict.getInt
  obtain ⟨_, _, h1, h⟩ := X.bind_eq_ok.1 h
  have h2 := intSlice_exact (pl := pl) h1
  split at h2
  · rw [X.bind_ok h2, h]
    simp [*]
  · rw [X.bind_run]
    cases hs : Strict.intSlice pl p v with
    | mk r v1 => rw [hs] at h2; cases h2; simp [*]

theorem setInt_exact {x : BitVec 32} {v v' : VM} (h : setInt p i x v = (.ok (), v')) :
    (Strict.setInt pl p i x v).1 = .ub ↔ (pl.heap p.gen + p.off + 17) % 4 ≠ 0 := by
  unfold setInt at h
  unfold Strict.setInt
  obtain ⟨_, _, h1, h⟩ := X.bind_eq_ok.1 h
  have h2 := intSlice_exact (pl := pl) h1
  split at h2
  · rw [X.bind_ok h2, h]
    simp [*]
  · rw [X.bind_run]
    cases hs : Strict.intSlice pl p v with
    | mk r v1 => rw [hs] at h2; cases h2; simp [*]

theorem length_stringImage (id : Nat) (us : List Nat) : (stringImage id us).length = 13 + 2 * us.length := by
  have : (textBytes us).length = 2 * us.length := by
    unfold textBytes
    induction us with
    | nil => rfl
    | cons u us ih => rw [List.flatMap_cons, List.length_append, ih, length_leBytes, List.length_cons]; omega
  simp [stringImage, this]; omega

/-! ## Constants -/

/-- A four-byte constant at a wrong address. -/
theorem constant_ub {fuel : Nat} {v : VM} (hc : HasAt fr.code ip [0x20]) (h : (pl.code fr.method + (ip + 1)) % 4 ≠ 0) :
    (Strict.loop pl cfg ops tf (fuel + 1) fr ip v).1 = .ub := by
  unfold Strict.loop
  rw [X.bind_run]
  have : Strict.step pl cfg ops tf fr ip v = (.ub, v) := by
    unfold Strict.step
    rw [X.liftM_bind_ok (fetchOp_of (op := .Ldc_I4) (by decide) hc)]
    show Strict.immediate pl fr 4 _ _ v = _
    unfold Strict.immediate Strict.fetch
    rw [X.bind_run, X.bind_run]
    have := aligned_ub (v := v) h
    rw [show pl.code fr.method + (ip + ([0x20] : Bytes).length) = pl.code fr.method + (ip + 1) from rfl, this]
  rw [this]

/-- A four-byte constant at a right address. -/
theorem constant_next {fuel : Nat} {v : VM} {arg : Bytes} (hl : arg.length = 4) (hc : HasAt fr.code ip (0x20 :: arg))
    (h : (pl.code fr.method + (ip + 1)) % 4 = 0) :
    ∃ v', Strict.loop pl cfg ops tf (fuel + 1) fr ip v = Strict.loop pl cfg ops tf fuel fr (ip + 1 + 4) v' := by
  have hc1 : HasAt fr.code ip [0x20] := HasAt.left (b := arg) hc
  have hc2 : HasAt fr.code (ip + 1) arg := HasAt.drop (a := [0x20]) hc
  refine ⟨(push (.i32 (BitVec.ofNat 32 (leNat arg))) v).2, ?_⟩
  rw [Strict.loop, X.bind_run]
  have : Strict.step pl cfg ops tf fr ip v = (.ok (.next (ip + 1 + 4)), (push (.i32 (BitVec.ofNat 32 (leNat arg))) v).2) := by
    unfold Strict.step
    rw [X.liftM_bind_ok (fetchOp_of (op := .Ldc_I4) (by decide) hc1)]
    show Strict.immediate pl fr 4 _ _ v = _
    unfold Strict.immediate Strict.fetch
    show ((Strict.aligned (pl.code fr.method + (ip + 1)) 4 >>= fun _ => (liftM (fetch fr.code (ip + 1) 4) : X Nat)) >>= _) v = _
    rw [aligned_ok h, X.pure_bind', X.liftM_bind_ok (fetch_at hc2 hl (by decide))]
    rfl
  rw [this]

/-! ## Reading -/

theorem trRead_exact {base k x : Nat} {r r' : Reader} (hr : r.Ok) (hk : k ≤ 8) (h : trRead cfg r k = .ok (x, r')) :
    r' = r.skip k ∧ r'.Ok ∧ Strict.trRead base cfg r k = if (base + r.pos) % k = 0 then .ok (x, r') else .ub := by
  have h1 := hr.1
  have h2 := hr.2
  unfold trRead at h
  unfold Strict.trRead Strict.readU
  rw [uadd_ok (by omega)]
  rcases Reader.readU_cases cfg r k (by omega) with h3 | ⟨n, h3, -, h4⟩
  · rw [h3] at h; cases h
  · rw [h3] at h
    cases h
    refine ⟨rfl, hr.skip (by rw [Reader.length_rest]; omega), ?_⟩
    simp only [Res.ok_bind]
    rw [if_neg (by omega)]
    split
    · rw [h3]; rfl
    · rfl

theorem readWide_exact {base x : Nat} {r r' : Reader} (hr : r.Ok) (h : readWide cfg false r = .ok (x, r')) :
    r' = r.skip 2 ∧ r'.Ok ∧ Strict.readWide base cfg false r = if (base + r.pos) % 2 = 0 then .ok (x, r') else .ub :=
  trRead_exact hr (by decide) h

theorem readCoded_exact {base : Nat} {t : TableCtx} {k : CodedKind} {x : Coded} {r r' : Reader} (hr : r.Ok)
    (hn : t.wideCoded k = false) (h : readCoded cfg t k r = .ok (x, r')) :
    r' = r.skip 2 ∧ r'.Ok ∧ Strict.readCoded base cfg t k r = if (base + r.pos) % 2 = 0 then .ok (x, r') else .ub := by
  unfold readCoded at h
  unfold Strict.readCoded
  rw [hn] at h ⊢
  obtain ⟨⟨d, r1⟩, h1, h⟩ := Res.bind_eq_ok.1 h
  obtain ⟨rfl, h3, h4⟩ := readWide_exact (base := base) hr h1
  rw [h4]
  obtain ⟨tb, h5, h⟩ := Res.bind_eq_ok.1 h
  cases h
  refine ⟨rfl, h3, ?_⟩
  split
  · dsimp only at h5 ⊢
    simp only [Res.ok_bind]
    rw [h5]
    rfl
  · rfl

/-- The columns of the table of types, when all are narrow. -/
theorem readTypeDefRow_exact {base : Nat} {t : TableCtx} {x : TypeDefRow} {r r' : Reader} (hr : r.Ok)
    (hs : t.wideString = false) (hc : t.wideCoded .typeDefOrRef = false) (hf : t.wideTable TableType.field.code = false)
    (hm : t.wideTable TableType.methodDef.code = false) (h : readTypeDefRow cfg t r = .ok (x, r')) :
    r'.pos = r.pos + 14 ∧ r'.Ok ∧ Strict.readTypeDefRow base cfg t r = if (base + r.pos) % 4 = 0 then .ok (x, r') else .ub := by
  unfold readTypeDefRow at h
  unfold Strict.readTypeDefRow
  obtain ⟨⟨a, r1⟩, h1, h⟩ := Res.bind_eq_ok.1 h
  unfold trReadWith at h1
  obtain ⟨⟨f, r0⟩, h0, h1⟩ := Res.bind_eq_ok.1 h1
  obtain ⟨a', ha, h1⟩ := Res.bind_eq_ok.1 h1
  cases h1
  obtain ⟨rfl, hr0, e0⟩ := trRead_exact (base := base) hr (by decide) h0
  rw [e0]
  unfold readStringHandle readHandle at h
  dsimp only at h ha
  rw [hs, hf, hm] at h
  rw [hs, hf, hm]
  obtain ⟨⟨_, _⟩, h1, h⟩ := Res.bind_eq_ok.1 h
  obtain ⟨rfl, hr1, e1⟩ := readWide_exact (base := base) hr0 h1
  dsimp only at h
  obtain ⟨⟨_, _⟩, h1, h⟩ := Res.bind_eq_ok.1 h
  obtain ⟨rfl, hr2, e2⟩ := readWide_exact (base := base) hr1 h1
  dsimp only at h
  obtain ⟨⟨_, _⟩, h1, h⟩ := Res.bind_eq_ok.1 h
  obtain ⟨rfl, hr3, e3⟩ := readCoded_exact (base := base) hr2 hc h1
  dsimp only at h
  obtain ⟨⟨_, _⟩, h1, h⟩ := Res.bind_eq_ok.1 h
  obtain ⟨rfl, hr4, e4⟩ := readWide_exact (base := base) hr3 h1
  dsimp only at h
  obtain ⟨⟨_, _⟩, h1, h⟩ := Res.bind_eq_ok.1 h
  obtain ⟨rfl, hr5, e5⟩ := readWide_exact (base := base) hr4 h1
  cases h
  refine ⟨rfl, hr5, ?_⟩
  simp only [Reader.skip] at *
  split
  · rename_i h4
    have a1 : (base + (r.pos + 4)) % 2 = 0 := by omega
    have a2 : (base + (r.pos + 4 + 2)) % 2 = 0 := by omega
    have a3 : (base + (r.pos + 4 + 2 + 2)) % 2 = 0 := by omega
    have a4 : (base + (r.pos + 4 + 2 + 2 + 2)) % 2 = 0 := by omega
    have a5 : (base + (r.pos + 4 + 2 + 2 + 2 + 2)) % 2 = 0 := by omega
    replace e1 := e1.trans (if_pos a1)
    replace e2 := e2.trans (if_pos a2)
    replace e3 := e3.trans (if_pos a3)
    replace e4 := e4.trans (if_pos a4)
    replace e5 := e5.trans (if_pos a5)
    simp only [Res.ok_bind, ha, e1, e2, e3, e4, e5]
    rfl
  · rfl

end Clr
