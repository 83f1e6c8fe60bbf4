import Verif.Lemmas.Abstract
import Verif.Props.Calls
/-! # Integer programs with calls (C84) -/

namespace Clr

open Abs in
/-- The claim C84: methods, each linked to a procedure, of which the host executes one. When the abstract machine ends with
an outcome within `n` instructions, so does the interpreter. `init` is what locals hold at first; `room` bounds the number of
variables in use at the same time. -/
def ComputesCalls (ok : Bytes → Prop) (init : Option (BitVec 32)) (room : Nat → Prop) : Prop :=
  ∀ (cfg : Cfg) (ops : FloatOps) (tf : Nat) (w : World) (prog : Nat → Option Proc) (meth : Nat → MethodRec) (j : Nat)
    (p : Proc) (args : List (BitVec 32)) (n k : Nat) (o : Outcome (Option (BitVec 32))),
    (∀ i q, prog i = some q → LinkedTo cfg w meth (meth i) q) → prog j = some p → (meth j).isStatic →
    args.length = p.params → room (p.locals + k) →
    Runs cfg.checks ok init prog n k p 0 (p.start init args) o →
    match o with
    | .done (some a) => (hostExecute cfg ops tf n w (meth j) (args.map .i32)).1 = .ok (.number (.i32 a))
    | .done none => (hostExecute cfg ops tf n w (meth j) (args.map .i32)).1 = .ok .void
    | .stops => (hostExecute cfg ops tf n w (meth j) (args.map .i32)).1 = .panic
    | .unfinished => (hostExecute cfg ops tf n w (meth j) (args.map .i32)).1 = .timeout
    | .undefined => False

/-- The machine never does anything undefined. -/
theorem Abs.Runs.defined {checked : Bool} {ok : Bytes → Prop} {init : Option (BitVec 32)} {prog : Nat → Option Abs.Proc}
    {n k ip : Nat} {p : Abs.Proc} {σ : Abs.Act} {o : Outcome (Option (BitVec 32))}
    (h : Abs.Runs checked ok init prog n k p ip σ o) : o ≠ .undefined := by
  induction h with
  | more => simp
  | ret => simp
  | next _ _ _ _ _ ih => exact ih
  | stops => simp
  | call _ _ _ _ _ _ _ _ _ _ _ ih => exact ih
  | inner _ _ _ _ _ _ _ _ _ ih => exact ih

/-- **C84** for programs that assign locals before using them, have at most 64 variables in use at the same time, and use all
encodings except `ldarg` and `starg` with a two-byte index. -/
theorem C84_partial : ComputesCalls (fun l => ¬ Wide l) none (· ≤ 64) := by
  intro cfg ops tf w prog meth j p args n k o hlink hp hst hargs hroom h
  have hargs' : Slots ({ world := w, host := args.map .i32 } : VM) .host (fun a x => a = .i32 x) args := by
    refine ⟨fun i hi => by simpa [Usable] using hi, fun i t ht => ⟨.i32 t, ?_, rfl⟩⟩
    simp [Region.at, ht]
  obtain ⟨fr, v1, hf, hs, hsame, hinv⟩ := Abs.invoke_follows (k := k) (loop_free cfg ops tf n) (hlink j p hp)
    (v := { world := w, host := args.map .i32 }) rfl rfl hargs' (by rintro g b c ⟨⟩)
    (by show 16 * (0 + p.locals + k) ≤ 1024; omega) (by show 1024 < _; decide)
  have hag := Abs.runs_follow (ops := ops) (tf := tf) (fun _ h => h) hlink h hf hsame.world hs
  have hdef := h.defined
  have hx : (hostExecute cfg ops tf n w (meth j) (args.map .i32)).1 = hostResult (loop cfg ops tf n fr 0 v1).1 := by
    simp only [hostExecute, hst, if_true, hinv]
  cases o with
  | done r =>
    obtain ⟨h1, -, -⟩ := hag
    cases r with
    | none => show _ = _; rw [hx, h1]; rfl
    | some a => show _ = _; rw [hx, h1]; rfl
  | stops => show _ = _; rw [hx, show _ = _ from hag]; rfl
  | unfinished => show _ = _; rw [hx, show _ = _ from hag]; rfl
  | undefined => exact hdef rfl

namespace Ex
open Abs

/-- `int M(int x) { return x == 0 ? 0 : M(x - 1) + x; }`. -/
def triCode : Bytes := [0x02, 0x2d, 0x02, 0x16, 0x2a, 0x02, 0x17, 0x59, 0x28, 0x01, 0x00, 0x00, 0x06, 0x02, 0x58, 0x2a]

def triWith (calls : Nat → Option Nat) : Proc := ⟨triCode, 1, 0, true, calls⟩

def triProc : Proc := triWith fun t => if t = 0x06000001 then some 0 else none

def triProg (i : Nat) : Option Proc := if i = 0 then some triProc else none

def triMeth : MethodRec := meth triCode (ret := 8) (params := 1)

def triangle : Nat → Nat
  | 0 => 0
  | n + 1 => triangle n + (n + 1)

theorem triangle_le {i : Nat} (h : i ≤ 1000) : triangle i ≤ 1000 * i := by
  induction i with
  | zero => exact Nat.le_refl _
  | succ i ih => have := ih (by omega); simp only [triangle]; omega

theorem toInt_small {x : Nat} (h : x < 2 ^ 31) : (BitVec.ofNat 32 x).toInt = x := by
  rw [BitVec.toInt_eq_toNat_of_lt (by rw [BitVec.toNat_ofNat]; omega), BitVec.toNat_ofNat, Nat.mod_eq_of_lt (by omega)]

theorem fit_small (checked : Bool) {x : Nat} (h : x < 2 ^ 31) : fit checked x = .done (BitVec.ofNat 32 x) := by
  unfold fit
  rw [if_neg (by simp only [Fits]; omega)]
  rfl

/-- What the machine does with it: the sum of the numbers up to `i`, with one variable in use for each of them. -/
theorem tri_runs_in {ok : Bytes → Prop} (hok : ok [0x02]) (init : Option (BitVec 32)) (checked : Bool) {prog : Nat → Option Proc}
    {calls : Nat → Option Nat} {j : Nat} (hcalls : calls 0x06000001 = some j) (hprog : prog j = some (triWith calls))
    (i e : Nat) (hi : i ≤ 1000) :
    Runs checked ok init prog (6 * i + 4 + e) i (triWith calls) 0 ((triWith calls).start init [BitVec.ofNat 32 i])
      (.done (some (BitVec.ofNat 32 (triangle i)))) := by
  have has : ∀ {ip : Nat} {c : Bytes}, HasAt triCode ip c → HasAt (triWith calls).code ip c := fun h => h
  induction i generalizing e with
  | zero =>
    rw [show 6 * 0 + 4 + e = e + 1 + 1 + 1 + 1 by omega]
    refine Abs.Runs.next (p := triWith calls) (c := [0x02]) (.load (x := .arg) (i := 0) (by decide) hok) (has (by decide)) rfl (d := 0) (ip' := 1) rfl ?_
    refine Abs.Runs.next (p := triWith calls) (c := [0x2d, 0x02]) (.br1 (c := .brtrue) (f := .short) (d := 2) (by decide)) (has (by decide)) (d := 0)
      (by rfl) (ip' := 3) rfl ?_
    refine Abs.Runs.next (p := triWith calls) (c := [0x16]) (.const (n := 0) (by decide)) (has (by decide)) rfl (d := 0) (ip' := 4) rfl ?_
    exact .ret (has (by decide)) (.value rfl)
  | succ i ih =>
    rw [show 6 * (i + 1) + 4 + e = 6 * i + 4 + e + 1 + 1 + 1 + 1 + 1 + 1 by omega]
    have hne : (BitVec.ofNat 32 (i + 1)).toInt ≠ 0 := by rw [toInt_small (by omega)]; omega
    refine Abs.Runs.next (p := triWith calls) (c := [0x02]) (.load (x := .arg) (i := 0) (by decide) hok) (has (by decide)) rfl (d := 0) (ip' := 1) rfl ?_
    refine Abs.Runs.next (p := triWith calls) (c := [0x2d, 0x02]) (.br1 (c := .brtrue) (f := .short) (d := 2) (by decide)) (has (by decide)) (d := 2)
      (σ' := ⟨[], [], [BitVec.ofNat 32 (i + 1)]⟩) (by
        simp only [Instr.effect, Proc.start]
        rw [if_pos (show Branch1.brtrue.holds _ from hne)]
        rfl) (ip' := 5) rfl ?_
    refine Abs.Runs.next (p := triWith calls) (c := [0x02]) (.load (x := .arg) (i := 0) (by decide) hok) (has (by decide)) rfl (d := 0) (ip' := 6) rfl ?_
    refine Abs.Runs.next (p := triWith calls) (c := [0x17]) (.const (n := 1) (by decide)) (has (by decide)) rfl (d := 0) (ip' := 7) rfl ?_
    refine Abs.Runs.next (p := triWith calls) (c := [0x59]) (.arith (op := .sub)) (has (by decide)) (d := 0)
      (σ' := ⟨[BitVec.ofNat 32 i], [], [BitVec.ofNat 32 (i + 1)]⟩) ?_ (ip' := 8) rfl ?_
    · simp only [Instr.effect, Act.binary, Arith.exact]
      rw [toInt_small (by omega), show (((i + 1 : Nat) : Int) - (BitVec.ofInt 32 1).toInt) = (i : Nat) by
        rw [show (BitVec.ofInt 32 1).toInt = 1 from by decide]; omega, fit_small _ (by omega)]
      rfl
    refine .call (t := 0x06000001) (j := j) (q := triWith calls) (k' := i) (k'' := i) (args := [BitVec.ofNat 32 i]) (rest := [])
      (by decide) (has (by decide)) hcalls hprog rfl rfl (by show 1 + 0 + i ≤ i + 1; omega) (ih e (by omega)) (by show 1 + i ≤ i + 1; omega) ?_
    rw [show 6 * i + 4 + e = 6 * i + e + 1 + 1 + 1 + 1 by omega]
    refine Abs.Runs.next (p := triWith calls) (c := [0x02]) (.load (x := .arg) (i := 0) (by decide) hok) (has (by decide)) rfl (d := 0) (ip' := 14) rfl ?_
    refine Abs.Runs.next (p := triWith calls) (c := [0x58]) (.arith (op := .add)) (has (by decide)) (d := 0)
      (σ' := ⟨[BitVec.ofNat 32 (triangle (i + 1))], [], [BitVec.ofNat 32 (i + 1)]⟩) ?_ (ip' := 15) rfl ?_
    · have := triangle_le hi
      simp only [triangle] at this
      simp only [Instr.effect, Act.binary, Arith.exact, Option.toList, List.cons_append, List.nil_append]
      rw [toInt_small (by omega), toInt_small (by omega), ← Int.natCast_add, fit_small _ (by omega)]
      rfl
    · exact .ret (has (by decide)) (.value rfl)

theorem tri_runs {ok : Bytes → Prop} (hok : ok [0x02]) (init : Option (BitVec 32)) (checked : Bool) (i e : Nat) (hi : i ≤ 1000) :
    Runs checked ok init triProg (6 * i + 4 + e) i triProc 0 (triProc.start init [BitVec.ofNat 32 i])
      (.done (some (BitVec.ofNat 32 (triangle i)))) :=
  tri_runs_in hok init checked (j := 0) rfl rfl i e hi

theorem tri_linked (cfg : Cfg) (i : Nat) (q : Proc) (h : triProg i = some q) :
    LinkedTo cfg (tiny [triMeth]) (fun _ => triMeth) triMeth q := by
  unfold triProg at h
  split at h <;> cases h
  refine ⟨⟨_, _, _, rfl, rfl, rfl, rfl, rfl, ?_⟩, by decide, rfl, fun _ => ⟨_, _, _, rfl, rfl, rfl, by decide⟩, fun h => by cases h⟩
  intro t j ht
  simp only [triProc, triWith] at ht
  split at ht <;> cases ht
  subst_vars
  cases cfg
  rfl

end Ex

/-- The theorem says what the interpreter gives for every argument up to 64 … -/
example (cfg : Cfg) (ops : FloatOps) (tf i e : Nat) (hi : i ≤ 64) :
    (hostExecute cfg ops tf (6 * i + 4 + e) (Ex.tiny [Ex.triMeth]) Ex.triMeth [.i32 (BitVec.ofNat 32 i)]).1 =
      .ok (.number (.i32 (BitVec.ofNat 32 (Ex.triangle i)))) :=
  C84_partial cfg ops tf _ Ex.triProg (fun _ => Ex.triMeth) 0 Ex.triProc [BitVec.ofNat 32 i] _ i _ (Ex.tri_linked cfg) rfl rfl
    rfl (by show 0 + i ≤ 64; omega) (Ex.tri_runs (by decide) none cfg.checks i e (by omega))

example : Ex.triangle 64 = 2080 := by decide

/-- … and the claim **C84** is false from 65 on, whatever locals hold at first. -/
theorem C84_refuted (ok : Bytes → Prop) (init : Option (BitVec 32)) (hok : ok [0x02]) :
    ¬ ComputesCalls ok init (fun _ => True) := by
  intro h
  have h1 := h .release Ex.floats 9 _ Ex.triProg (fun _ => Ex.triMeth) 0 Ex.triProc [BitVec.ofNat 32 65] _ 65 _
    (Ex.tri_linked .release) rfl rfl rfl trivial (Ex.tri_runs hok init false 65 406 (by decide))
  have h2 := C56_deep.2
  have h3 := h1.symm.trans h2
  cases h3

end Clr
