import Verif.Lemmas.Linked
import Verif.Props.Typing
import Verif.Props.Abstract
/-! # Programs with objects, arrays, strings and output (C89) -/

namespace Clr

open Obj in
/-- The claim C89: methods, each linked to a procedure, of which the host executes one. When the abstract machine ends with an
outcome within `n` instructions, so does the interpreter, and both have written the same text. `ok` are the encodings in use,
`init` is what locals hold at first, `negative` says in which builds a negative array length stops the program, `room` bounds the
number of variables in use at the same time, `heap` the bytes that the objects need, and `good` are the results considered. -/
def ComputesObjects (ok : Bytes → Prop) (init : Option Val) (negative : Cfg → Bool) (room heap : Nat → Prop)
    (good : Option Val → Prop) : Prop :=
  ∀ (cfg : Cfg) (ops : FloatOps) (tf : Nat) (w : World) (prog : Nat → Option Proc) (meth : Nat → MethodRec)
    (fld : Nat → FieldRec) (j : Nat) (p : Proc) (args : List Obj.Num) (n k : Nat) (s : Obj.Store) (o : Outcome (Option Val)),
    LawfulEq ops → PrimitivesOk w → ArraysReady w → (∀ i q, prog i = some q → LinkedTo cfg tf w meth fld (meth i) q) →
    prog j = some p → (meth j).isStatic → args.length = p.params → room (p.locals + k) → heap s.cost →
    (∀ r, o = .done r → good r) →
    Runs ⟨ops, cfg.checks, negative cfg, ok, init, prog⟩ n k p 0 ⟨[], []⟩ (p.start init (args.map .num)) s o →
    (hostExecute cfg ops tf n w (meth j) (args.map Obj.Num.value)).2.world.output = w.output ++ s.output ∧
    match o with
    | .done (some (.num a)) => (hostExecute cfg ops tf n w (meth j) (args.map Obj.Num.value)).1 = .ok (.number a.value)
    | .done (some (.ref _)) => ∃ b, (hostExecute cfg ops tf n w (meth j) (args.map Obj.Num.value)).1 = .ok (.object b)
    | .done none => (hostExecute cfg ops tf n w (meth j) (args.map Obj.Num.value)).1 = .ok .void
    | .stops => (hostExecute cfg ops tf n w (meth j) (args.map Obj.Num.value)).1 = .panic
    | .unfinished => (hostExecute cfg ops tf n w (meth j) (args.map Obj.Num.value)).1 = .timeout
    | .undefined => False

/-- The machine never does anything undefined. -/
theorem Obj.Runs.defined {M : Obj.Machine} {n k ip : Nat} {p : Obj.Proc} {s s' : Obj.Store} {σ : Obj.Act}
    {o : Outcome (Option Obj.Val)} (h : Obj.Runs M n k p ip s σ s' o) : o ≠ .undefined := by
  induction h with
  | more => simp
  | ret => simp
  | next _ _ _ _ _ ih => exact ih
  | stops => simp
  | write _ _ _ _ _ _ _ ih => exact ih
  | call _ _ _ _ _ _ _ _ _ _ _ ih => exact ih
  | inner _ _ _ _ _ _ _ _ _ ih => exact ih
  | new _ _ _ _ _ _ _ _ _ _ _ _ ih => exact ih
  | made _ _ _ _ _ _ _ _ _ _ ih => exact ih

/-- **C89** for programs that assign locals before using them, have at most 64 variables in use at the same time, need at most
1024 bytes for all their objects, do not return an object to the host, and use all encodings except `ldarg` and `starg` with a
two-byte index; without overflow checks nothing is said about negative array lengths. -/
theorem C89_partial : ComputesObjects (fun l => ¬ Wide l) none (·.checks) (· ≤ 64) (· ≤ 1024) (fun r => ∀ b, r ≠ some (.ref b)) := by
  intro cfg ops tf w prog meth fld j p args n k s o hleq hprim harr hlink hp hst hargs hroom hheap hgood h
  have hargs' : Slots ({ world := w, host := args.map Obj.Num.value } : VM) .host (Obj.Rep []) (args.map .num) := by
    refine ⟨fun i hi => by simpa [Usable] using hi, fun i t ht => ?_⟩
    rw [List.getElem?_map, Option.map_eq_some_iff] at ht
    obtain ⟨x, hx, rfl⟩ := ht
    exact ⟨x.value, by simp [Region.at, hx], rfl⟩
  have hstore : Obj.StoreIs cfg tf w (Obj.offsets fld) ({ world := w, host := args.map Obj.Num.value } : VM) ⟨[], []⟩ :=
    ⟨⟨[], (start_calm (cfg := cfg) (tf := tf) (args.map Obj.Num.value)).heap, .nil⟩, .refl _, (List.append_nil _).symm, harr⟩
  obtain ⟨fr, v1, hf, hs, hsame, hinv⟩ := Obj.invoke_follows (k := k) (loop_free cfg ops tf n) (hlink j p hp)
    (v := { world := w, host := args.map Obj.Num.value }) hstore rfl hargs' (by rintro g b c ⟨⟩)
    (by show 16 * (0 + p.locals + k) ≤ 1024; omega) (by show 1024 < _; decide)
  have hag := Obj.runs_follow (ops := ops) (tf := tf) hleq rfl (fun _ h => h) rfl rfl rfl hprim hlink h hf hheap hs
  have hdef := h.defined
  have hx : (hostExecute cfg ops tf n w (meth j) (args.map Obj.Num.value)).1 = hostResult (loop cfg ops tf n fr 0 v1).1 := by
    simp only [hostExecute, hst, if_true, hinv]
  have hy : (hostExecute cfg ops tf n w (meth j) (args.map Obj.Num.value)).2.world = (loop cfg ops tf n fr 0 v1).2.world := by
    simp only [hostExecute, hst, if_true, hinv]
  rw [hx, hy]
  cases o with
  | done r =>
    obtain ⟨⟨a, h1, h2⟩, -, -, h3⟩ := hag
    refine ⟨h3.output, ?_⟩
    rw [h1]
    cases r with
    | none =>
      cases a with
      | none => rfl
      | some a => exact h2.elim
    | some x =>
      cases a with
      | none => exact h2.elim
      | some a =>
        cases x with
        | num x => rw [show a = x.value from Obj.Rep.num (cells := s.cells) h2]; cases x <;> rfl
        | ref b => exact absurd rfl (hgood _ rfl b)
  | stops => obtain ⟨h1, h2⟩ := hag; exact ⟨h2, by rw [h1]; rfl⟩
  | unfinished => obtain ⟨h1, h2⟩ := hag; exact ⟨h2, by rw [h1]; rfl⟩
  | undefined => exact absurd rfl hdef

namespace Ex
open Obj

/-- The class `P` with its field. -/
def objClass : Class := ⟨[(0, .int)], 8⟩

def objCalls (t : Nat) : Option Callee := if t = 0x06000002 then some (.proc 1) else if t = 0x06000004 then some .write else none
def objNews (t : Nat) : Option (Class × Nat) := if t = 0x06000003 then some (objClass, 2) else none
def objFields (t : Nat) : Option (Nat × Kind) := if t = 0x04000001 then some (0, .int) else none
def objStrings (t : Nat) : Option (List Char) := if t = 0x70000000 then some "Hi".toList else none
def objInts (t : Nat) : Bool := decide (t = 0x01000001)

def objMainCode : Bytes :=
  [0x73, 3, 0, 0, 6, 0x0a, 0x19, 0x8d, 1, 0, 0, 1, 0x0b, 0x16, 0x0c, 0x08, 0x02, 0x2f, 0x22, 0x07, 0x17, 0x08, 0x28, 2, 0, 0, 6, 0x9e,
   0x06, 0x07, 0x17, 0x94, 0x7d, 1, 0, 0, 4, 0x72, 0, 0, 0, 0x70, 0x28, 4, 0, 0, 6, 0x08, 0x17, 0x58, 0x0c, 0x2b, 0xda,
   0x06, 0x7b, 1, 0, 0, 4, 0x2a]

/-- The sample program of `Props/Typing.lean`, as procedures. -/
def objMain : Proc := ⟨objMainCode, 1, 3, true, objCalls, objNews, objFields, objStrings, objInts⟩
def objSquare : Proc := ⟨[0x02, 0x02, 0x5a, 0x2a], 1, 0, true, objCalls, objNews, objFields, objStrings, objInts⟩
def objCtor : Proc := ⟨[0x2a], 1, 0, false, objCalls, objNews, objFields, objStrings, objInts⟩
def objProg (i : Nat) : Option Proc :=
  if i = 0 then some objMain else if i = 1 then some objSquare else if i = 2 then some objCtor else none
def objMeth (i : Nat) : MethodRec := if i = 0 then typedMain else if i = 1 then typedSquare else typedCtor
def objMachine (F : FloatOps) (checked negative : Bool) : Machine := ⟨F, checked, negative, fun l => ¬ Wide l, none, objProg⟩

theorem obj_ok {F : FloatOps} {checked negative : Bool} {l : Bytes} (h : ¬ Wide l) : (objMachine F checked negative).ok l := h

theorem obj_tokens (cfg : Cfg) (code : Bytes) (params locals : Nat) (returns : Bool) :
    Tokens cfg 9 typedWorld objMeth (fun _ => typedField) (typedWorld.assemblies[0]'(by decide))
      ⟨code, params, locals, returns, objCalls, objNews, objFields, objStrings, objInts⟩ where
  procs t j h := by
    simp only [objCalls] at h
    split at h
    · cases h; subst t; cases cfg; rfl
    · split at h <;> cases h
  write t h := by
    simp only [objCalls] at h
    split at h
    · cases h
    · split at h <;> cases h
      subst t; cases cfg; exact ⟨typedWrite, rfl, rfl, rfl⟩
  news t cls j h := by
    simp only [objNews] at h
    split at h <;> cases h
    subst t
    refine ⟨by cases cfg; rfl, rfl, ?_, ?_⟩
    · rcases cfg with ⟨_ | _⟩ <;> decide +kernel
    · refine ⟨fun f hf => by obtain rfl : f = (0, .int) := by simpa [objClass] using hf
                             show 0 + 4 ≤ 8; decide, fun f hf g hg hne => ?_⟩
      simp only [objClass, List.mem_singleton] at hf hg
      exact absurd (hf.trans hg.symm) hne
  fields t f h := by
    simp only [objFields] at h
    split at h <;> cases h
    subst t
    exact ⟨by cases cfg; rfl, tinyType 8 ("System", "Int32"), by decide +kernel, by decide +kernel⟩
  strings t text h := by
    simp only [objStrings] at h
    split at h <;> cases h
    subst t
    refine ⟨?_, 16, tinyType 16 ("System", "String"), by decide +kernel, by decide +kernel⟩
    rcases cfg with ⟨_ | _⟩ <;> decide +kernel
  ints t h := by
    obtain rfl : t = 0x01000001 := by simpa [objInts] using h
    refine ⟨⟨4, 5, 6, 7, 8, 9, 10, 11, 12, 13, 15⟩, tinyType 8 ("System", "Int32"), rfl, ?_, by decide +kernel, by decide +kernel, ?_⟩
    · rcases cfg with ⟨_ | _⟩ <;> decide +kernel
    · rcases cfg with ⟨_ | _⟩ <;> decide +kernel

theorem obj_linked (cfg : Cfg) (i : Nat) (q : Proc) (h : objProg i = some q) :
    LinkedTo cfg 9 typedWorld objMeth (fun _ => typedField) (objMeth i) q := by
  unfold objProg at h
  split at h
  · cases h; subst i
    exact ⟨⟨_, _, _, rfl, rfl, rfl, rfl, rfl, obj_tokens ..⟩, by decide, rfl, fun _ => typed_value rfl, fun h => by cases h⟩
  split at h
  · cases h; subst i
    exact ⟨⟨_, _, _, rfl, rfl, rfl, rfl, rfl, obj_tokens ..⟩, by decide, rfl, fun _ => typed_value rfl, fun h => by cases h⟩
  split at h <;> cases h
  subst i
  exact ⟨⟨_, _, _, rfl, rfl, rfl, rfl, rfl, obj_tokens ..⟩, by decide, rfl, (fun h => by cases h), fun _ => typed_void rfl⟩

theorem obj_arrays : ArraysReady typedWorld := by
  intro ps er h1 h2
  cases h1
  obtain rfl : tinyType 8 ("System", "Int32") = er := Option.some.inj h2
  rw [show typedWorld.getType ((tinyType 8 ("System", "Int32")).fullName ++ "[]".toList) = none by decide +kernel]
  decide

/-- The square that the method computes. -/
theorem square_runs (F : FloatOps) (checked negative : Bool) (k i e : Nat) (hi : i < 1000) (s : Obj.Store) :
    Runs (objMachine F checked negative) (e + 4) k objSquare 0 s (objSquare.start none [.int (BitVec.ofNat 32 i)]) s
      (.done (some (.int (BitVec.ofNat 32 (i * i))))) := by
  refine Runs.next (c := [0x02]) (.base (.load (x := .arg) (i := 0) (by decide) (obj_ok (by decide)))) (by decide) rfl (d := 0) (ip' := 1) rfl ?_
  refine Runs.next (c := [0x02]) (.base (.load (x := .arg) (i := 0) (by decide) (obj_ok (by decide)))) (by decide) rfl (d := 0) (ip' := 2) rfl ?_
  refine Runs.next (c := [0x5a]) (.base (.arith (op := .mul))) (by decide) (d := 0) (s' := s)
    (σ' := ⟨[.int (BitVec.ofNat 32 (i * i))], [], [.int (BitVec.ofNat 32 i)]⟩) ?_ (ip' := 3) rfl ?_
  · have : i * i ≤ 1000 * 1000 := Nat.mul_le_mul (by omega) (by omega)
    simp only [Instr.effect, Act.base, Act.binary, Obj.Num.arith, Arith.exact, objSquare, Proc.start]
    rw [toInt_small (by omega), ← Int.natCast_mul, fit_small _ (by omega)]
    rfl
  · exact .ret (by decide) (.value rfl)

/-- The loop from its head: `m` rounds are left. -/
theorem objMain_loop (F : FloatOps) (checked negative : Bool) (m i e : Nat) (hm : i + m < 1000) (val : Nat × Kind → Obj.Num) (x : BitVec 32)
    (strs : List Cell) (out : List Char) :
    ∃ s', s'.cost = 42 + ((strs.map Cell.cost).sum + 17 * m) ∧ s'.output = out ++ (List.replicate m "Hi".toList).flatten ∧
      Runs (objMachine F checked negative) (20 * m + 6 + e) (2 * m + 1) objMain 15 ⟨.inst objClass val :: .ints [0, x, 0] :: strs, out⟩
        ⟨[], [some (.ref 0), some (.ref 1), some (.int (BitVec.ofNat 32 i))], [.int (BitVec.ofNat 32 (i + m))]⟩ s'
        (.done (some (.num (if m = 0 then val (0, .int) else .int (BitVec.ofNat 32 ((i + m - 1) * (i + m - 1))))))) := by
  induction m generalizing i val x strs out with
  | zero =>
    refine ⟨⟨.inst objClass val :: .ints [0, x, 0] :: strs, out⟩, ?_, by simp, ?_⟩
    · simp [Obj.Store.cost, Cell.cost, objClass]; omega
    rw [show 20 * 0 + 6 + e = e + 1 + 1 + 1 + 1 + 1 + 1 by omega]
    refine Runs.next (c := [0x08]) (.base (.load (x := .loc) (i := 2) (by decide) (obj_ok (by decide)))) (by decide) rfl (d := 0) (ip' := 16) rfl ?_
    refine Runs.next (c := [0x02]) (.base (.load (x := .arg) (i := 0) (by decide) (obj_ok (by decide)))) (by decide) rfl (d := 0) (ip' := 17) rfl ?_
    refine Runs.next (c := [0x2f, 0x22]) (.base (.br2 (c := .bge) (f := .short) (d := 34) (by decide))) (by decide) (d := 34)
      (s' := ⟨.inst objClass val :: .ints [0, x, 0] :: strs, out⟩)
      (σ' := ⟨[], [some (.ref 0), some (.ref 1), some (.int (BitVec.ofNat 32 i))], [.int (BitVec.ofNat 32 (i + 0))]⟩) ?_ (ip' := 53) rfl ?_
    · simp only [Instr.effect, Act.base]
      rw [Obj.Num.branches, decide_eq_true (show Branch2.bge.holds (BitVec.ofNat 32 i).toInt (BitVec.ofNat 32 (i + 0)).toInt from Int.le_refl _)]
      rfl
    refine Runs.next (c := [0x06]) (.base (.load (x := .loc) (i := 0) (by decide) (obj_ok (by decide)))) (by decide) rfl (d := 0) (ip' := 54) rfl ?_
    refine Runs.next (c := [0x7b, 1, 0, 0, 4]) (.ldfld (t := 0x04000001) (by decide)) (by decide) rfl (d := 0) (ip' := 59) rfl ?_
    exact .ret (by decide) (.value rfl)
  | succ m ih =>
    obtain ⟨s', h1, h2, h3⟩ := ih (i + 1) (by omega) (fun g => if g = (0, .int) then .int (BitVec.ofNat 32 (i * i)) else val g) (BitVec.ofNat 32 (i * i))
      (strs ++ [.str "Hi".toList]) (out ++ "Hi".toList)
    refine ⟨s', ?_, ?_, ?_⟩
    · rw [h1]
      simp [Cell.cost, utf16]
      omega
    · rw [h2, List.replicate_succ, List.flatten_cons, List.append_assoc]
    rw [show 20 * (m + 1) + 6 + e = 20 * m + 6 + e + 20 by omega]
    refine Runs.next (c := [0x08]) (.base (.load (x := .loc) (i := 2) (by decide) (obj_ok (by decide)))) (by decide) rfl (d := 0) (ip' := 16) rfl ?_
    refine Runs.next (c := [0x02]) (.base (.load (x := .arg) (i := 0) (by decide) (obj_ok (by decide)))) (by decide) rfl (d := 0) (ip' := 17) rfl ?_
    refine Runs.next (c := [0x2f, 0x22]) (.base (.br2 (c := .bge) (f := .short) (d := 34) (by decide))) (by decide) (d := 0)
      (s' := ⟨.inst objClass val :: .ints [0, x, 0] :: strs, out⟩)
      (σ' := ⟨[], [some (.ref 0), some (.ref 1), some (.int (BitVec.ofNat 32 i))], [.int (BitVec.ofNat 32 (i + (m + 1)))]⟩) ?_ (ip' := 19) rfl ?_
    · simp only [Instr.effect, Act.base]
      rw [Obj.Num.branches, decide_eq_false (show ¬ Branch2.bge.holds (BitVec.ofNat 32 i).toInt (BitVec.ofNat 32 (i + (m + 1))).toInt from ?_)]
      · rfl
      · show ¬ (BitVec.ofNat 32 (i + (m + 1))).toInt ≤ (BitVec.ofNat 32 i).toInt
        rw [toInt_small (by omega), toInt_small (by omega)]
        omega
    refine Runs.next (c := [0x07]) (.base (.load (x := .loc) (i := 1) (by decide) (obj_ok (by decide)))) (by decide) rfl (d := 0) (ip' := 20) rfl ?_
    refine Runs.next (c := [0x17]) (.base (.const (n := 1) (by decide))) (by decide) rfl (d := 0) (ip' := 21) rfl ?_
    refine Runs.next (c := [0x08]) (.base (.load (x := .loc) (i := 2) (by decide) (obj_ok (by decide)))) (by decide) rfl (d := 0) (ip' := 22) rfl ?_
    rw [show 20 * m + 6 + e + 14 = (20 * m + 6 + e + 9) + 4 + 1 by omega]
    refine .call (t := 0x06000002) (j := 1) (q := objSquare) (k' := 0) (k'' := 2 * m + 2) (args := [.int (BitVec.ofNat 32 i)])
      (rest := [.int 1, .ref 1]) (by decide) (by decide) rfl rfl rfl rfl (by show 1 + 0 + 0 ≤ _; omega)
      (square_runs F checked negative 0 i (20 * m + 6 + e + 9) (by omega) _) (by show 1 + _ ≤ _; omega) ?_
    refine Runs.next (c := [0x9e]) .stelem (by decide) rfl (d := 0) (ip' := 28) rfl ?_
    refine Runs.next (c := [0x06]) (.base (.load (x := .loc) (i := 0) (by decide) (obj_ok (by decide)))) (by decide) rfl (d := 0) (ip' := 29) rfl ?_
    refine Runs.next (c := [0x07]) (.base (.load (x := .loc) (i := 1) (by decide) (obj_ok (by decide)))) (by decide) rfl (d := 0) (ip' := 30) rfl ?_
    refine Runs.next (c := [0x17]) (.base (.const (n := 1) (by decide))) (by decide) rfl (d := 0) (ip' := 31) rfl ?_
    refine Runs.next (c := [0x94]) .ldelem (by decide) rfl (d := 0) (ip' := 32) rfl ?_
    refine Runs.next (c := [0x7d, 1, 0, 0, 4]) (.stfld (t := 0x04000001) (by decide)) (by decide) rfl (d := 0) (ip' := 37) rfl ?_
    refine Runs.next (c := [0x72, 0, 0, 0, 0x70]) (.ldstr (t := 0x70000000) (by decide)) (by decide) rfl (d := 0) (ip' := 42) rfl ?_
    refine .write (t := 0x06000004) (k' := 2 * m + 1) (text := "Hi".toList) (rest := []) (by decide) (by decide) rfl rfl
      (by simp [Obj.Store.add, Obj.Store.put]) (by omega) ?_
    refine Runs.next (c := [0x08]) (.base (.load (x := .loc) (i := 2) (by decide) (obj_ok (by decide)))) (by decide) rfl (d := 0) (ip' := 48) rfl ?_
    refine Runs.next (c := [0x17]) (.base (.const (n := 1) (by decide))) (by decide) rfl (d := 0) (ip' := 49) rfl ?_
    refine Runs.next (c := [0x58]) (.base (.arith (op := .add))) (by decide) (d := 0)
      (s' := ⟨.inst objClass (fun g => if g = (0, .int) then .int (BitVec.ofNat 32 (i * i)) else val g) :: .ints [0, BitVec.ofNat 32 (i * i), 0] :: (strs ++ [.str "Hi".toList]), out ++ "Hi".toList⟩)
      (σ' := ⟨[.int (BitVec.ofNat 32 (i + 1))], [some (.ref 0), some (.ref 1), some (.int (BitVec.ofNat 32 i))], [.int (BitVec.ofNat 32 (i + (m + 1)))]⟩)
      ?_ (ip' := 50) rfl ?_
    · simp only [Instr.effect, Act.base, Act.binary, Obj.Num.arith, Arith.exact]
      rw [toInt_small (by omega), show (BitVec.ofInt 32 1).toInt = ((1 : Nat) : Int) from by decide, ← Int.natCast_add, fit_small _ (by omega)]
      rfl
    refine Runs.next (c := [0x0c]) (.base (.store (x := .loc) (i := 2) (by decide) (obj_ok (by decide)))) (by decide) rfl (d := 0) (ip' := 51) rfl ?_
    refine Runs.next (c := [0x2b, 0xda]) (.base (.br (f := .short) (d := -38) (by decide))) (by decide) rfl (d := -38) (ip' := 15) rfl ?_
    rw [show i + (m + 1) = i + 1 + m by omega, if_neg (by omega)]
    have hr : (if m = 0 then (if ((0, .int) : Nat × Kind) = (0, .int) then Obj.Num.int (BitVec.ofNat 32 (i * i)) else val (0, .int)) else .int (BitVec.ofNat 32 ((i + 1 + m - 1) * (i + 1 + m - 1)))) =
        .int (BitVec.ofNat 32 ((i + 1 + m - 1) * (i + 1 + m - 1))) := by
      split
      · subst m; rfl
      · rfl
    rw [hr] at h3
    exact h3

/-- What the machine does with the whole program. -/
theorem objMain_runs (F : FloatOps) (checked negative : Bool) (n e : Nat) (hn : n < 1000) :
    ∃ s', s'.cost = 42 + 17 * n ∧ s'.output = (List.replicate n "Hi".toList).flatten ∧
      Runs (objMachine F checked negative) (20 * n + 13 + e) (2 * n + 2) objMain 0 ⟨[], []⟩
        (objMain.start none [.int (BitVec.ofNat 32 n)]) s' (.done (some (.int (BitVec.ofNat 32 ((n - 1) * (n - 1)))))) := by
  obtain ⟨s', h1, h2, h3⟩ := objMain_loop F checked negative n 0 e (by omega) (fun f => f.2.zero) 0 [] []
  refine ⟨s', by simpa using h1, by simpa using h2, ?_⟩
  rw [show 20 * n + 13 + e = 20 * n + 6 + e + 7 by omega]
  refine .new (t := 0x06000003) (j := 2) (q := objCtor) (k' := 0) (k'' := 2 * n + 1) (args := []) (rest := []) (by decide) (by decide) rfl rfl
    rfl rfl rfl (by show 1 + 0 + 0 ≤ _; omega) (.ret (by decide) (.void rfl)) (by show 1 + _ ≤ _; omega) ?_
  refine Runs.next (c := [0x0a]) (.base (.store (x := .loc) (i := 0) (by decide) (obj_ok (by decide)))) (by decide) rfl (d := 0) (ip' := 6) rfl ?_
  refine Runs.next (c := [0x19]) (.base (.const (n := 3) (by decide))) (by decide) rfl (d := 0) (ip' := 7) rfl ?_
  refine Runs.next (c := [0x8d, 1, 0, 0, 1]) (.newarr (t := 0x01000001) (by decide)) (by decide) rfl (d := 0) (ip' := 12) rfl ?_
  refine Runs.next (c := [0x0b]) (.base (.store (x := .loc) (i := 1) (by decide) (obj_ok (by decide)))) (by decide) rfl (d := 0) (ip' := 13) rfl ?_
  refine Runs.next (c := [0x16]) (.base (.const (n := 0) (by decide))) (by decide) rfl (d := 0) (ip' := 14) rfl ?_
  refine Runs.next (c := [0x0c]) (.base (.store (x := .loc) (i := 2) (by decide) (obj_ok (by decide)))) (by decide) rfl (d := 0) (ip' := 15) rfl ?_
  have hr : (if n = 0 then Kind.zero .int else .int (BitVec.ofNat 32 ((0 + n - 1) * (0 + n - 1)))) = Obj.Num.int (BitVec.ofNat 32 ((n - 1) * (n - 1))) := by
    split
    · subst n; rfl
    · rw [Nat.zero_add]
  rw [hr, Nat.zero_add] at h3
  exact h3

end Ex

/-- The theorem says what the program prints and returns for every argument up to 29, in both builds. -/
example (cfg : Cfg) (ops : FloatOps) (hops : LawfulEq ops) (n e : Nat) (hn : n ≤ 29) :
    let r := hostExecute cfg ops 9 (20 * n + 13 + e) Ex.typedWorld Ex.typedMain [.i32 (BitVec.ofNat 32 n)]
    r.1 = .ok (.number (.i32 (BitVec.ofNat 32 ((n - 1) * (n - 1))))) ∧
    r.2.world.output = (List.replicate n "Hi".toList).flatten := by
  obtain ⟨s, h1, h2, h3⟩ := Ex.objMain_runs ops cfg.checks cfg.checks n e (by omega)
  have := C89_partial cfg ops 9 _ Ex.objProg Ex.objMeth (fun _ => Ex.typedField) 0 Ex.objMain [.int (BitVec.ofNat 32 n)] _ _ s _
    hops Ex.typed_primitives Ex.obj_arrays (Ex.obj_linked cfg) rfl rfl rfl (by show 3 + (2 * n + 2) ≤ 64; omega) (by omega)
    (by rintro r ⟨⟩ b ⟨⟩) h3
  exact ⟨this.2, by rw [← h2]; exact this.1⟩

/-- **C89 fails** for more than 64 variables in use at the same time: the places of the arguments of a call are given back only
when the caller returns, so that the same program does not work with 35. -/
theorem C89_refuted_room : ¬ ComputesObjects (fun l => ¬ Wide l) none (·.checks) (fun _ => True) (· ≤ 1024)
    (fun r => ∀ b, r ≠ some (.ref b)) := by
  intro h
  obtain ⟨s, h1, h2, h3⟩ := Ex.objMain_runs Ex.floats true true 35 0 (by decide)
  have h4 := h .debug Ex.floats 9 _ Ex.objProg Ex.objMeth (fun _ => Ex.typedField) 0 Ex.objMain [.int (BitVec.ofNat 32 35)] _ _ s _
    Ex.floats_lawful Ex.typed_primitives Ex.obj_arrays (Ex.obj_linked .debug) rfl rfl rfl trivial (by omega) (by rintro r ⟨⟩ b ⟨⟩) h3
  have h5 : (hostExecute .debug Ex.floats 9 713 Ex.typedWorld Ex.typedMain [.i32 (BitVec.ofNat 32 35)]).1 = .ub := by
    decide +kernel
  cases h4.2.symm.trans h5

namespace Ex
open Obj

/-- A program of one method that makes arrays. -/
def singleProc (code : Bytes) (locals : Nat) : Proc := { code, params := 0, locals, returns := true, ints := objInts }

def singleProg (code : Bytes) (locals i : Nat) : Option Proc := if i = 0 then some (singleProc code locals) else none

theorem single_linked (cfg : Cfg) (code : Bytes) (hc : code.length < 2 ^ 62) (ret : Nat) (hret : ret = 8 ∨ ret = 15) (locals i : Nat)
    (q : Proc) (h : singleProg code locals i = some q) :
    LinkedTo cfg 9 (tiny [meth code ret 0 locals]) (fun _ => meth code ret 0 locals) (fun _ => typedField) (meth code ret 0 locals) q := by
  unfold singleProg at h
  split at h <;> cases h
  refine ⟨⟨_, _, _, rfl, rfl, by simp [singleProc], rfl, rfl, ⟨nofun, nofun, nofun, nofun, nofun, fun t ht => ?_⟩⟩, hc, rfl,
    fun _ => ?_, fun h => by cases h⟩
  rotate_left
  · rcases hret with rfl | rfl
    · exact ⟨tinyType 8 ("System", "Int32"), 0, tinyType 0 ("System", "Void"), rfl, rfl, rfl, by decide +kernel⟩
    · exact ⟨tinyType 15 ("System", "Object"), 0, tinyType 0 ("System", "Void"), rfl, rfl, rfl, by decide +kernel⟩
  obtain rfl : t = 0x01000001 := by simpa [singleProc, objInts] using ht
  refine ⟨⟨4, 5, 6, 7, 8, 9, 10, 11, 12, 13, 15⟩, tinyType 8 ("System", "Int32"), rfl, ?_, rfl, by decide +kernel, ?_⟩ <;>
    rcases cfg with ⟨_ | _⟩ <;> rfl

theorem single_arrays (code : Bytes) (ret locals : Nat) : ArraysReady (tiny [meth code ret 0 locals]) := by
  intro ps er h1 h2
  cases h1
  obtain rfl : tinyType 8 ("System", "Int32") = er := Option.some.inj h2
  rw [show (tiny [meth code ret 0 locals]).getType ((tinyType 8 ("System", "Int32")).fullName ++ "[]".toList) =
    (single [] 0 0).getType ((tinyType 8 ("System", "Int32")).fullName ++ "[]".toList) from rfl,
    show (single [] 0 0).getType ((tinyType 8 ("System", "Int32")).fullName ++ "[]".toList) = none by decide +kernel]
  show 19 < 2 ^ 32
  decide

/-- `object M() { return new int[1]; }`. -/
def returnedCode : Bytes := [0x17, 0x8d, 1, 0, 0, 1, 0x2a]

end Ex

/-- **C89 fails** for objects of more than 1024 bytes: the first array is moved, and `a` points to memory that has been given
back. -/
theorem C89_refuted_heap : ¬ ComputesObjects (fun l => ¬ Wide l) none (·.checks) (· ≤ 64) (fun _ => True)
    (fun r => ∀ b, r ≠ some (.ref b)) := by
  intro h
  have h1 := h .debug Ex.floats 9 _ (Ex.singleProg Ex.movedCode 1) (fun _ => Ex.meth Ex.movedCode 8 0 1) (fun _ => Ex.typedField) 0
    (Ex.singleProc Ex.movedCode 1) [] 20 0 ⟨[.ints [0], .ints (List.replicate 300 0)], []⟩ (.done (some (.int 0)))
    Ex.floats_lawful (Ex.single_primitives ..) (fun ps er => Ex.single_arrays _ _ _ ps er) (Ex.single_linked .debug _ (by decide) 8 (.inl rfl) 1) rfl rfl rfl (by decide) trivial
    (by rintro r ⟨⟩ b ⟨⟩) (by
      refine Obj.Runs.next (c := [0x17]) (.base (.const (n := 1) (by decide))) (by decide) rfl (d := 0) (ip' := 1) rfl ?_
      refine Obj.Runs.next (c := [0x8d, 1, 0, 0, 1]) (.newarr (t := 0x01000001) (by decide)) (by decide) rfl (d := 0) (ip' := 6) rfl ?_
      refine Obj.Runs.next (c := [0x0a]) (.base (.store (x := .loc) (i := 0) (by decide) (by decide))) (by decide) rfl (d := 0) (ip' := 7) rfl ?_
      refine Obj.Runs.next (c := [0x20, 0x2c, 1, 0, 0]) (.base (.const (n := 300) (by decide))) (by decide) rfl (d := 0) (ip' := 12) rfl ?_
      refine Obj.Runs.next (c := [0x8d, 1, 0, 0, 1]) (.newarr (t := 0x01000001) (by decide)) (by decide) rfl (d := 0) (ip' := 17) rfl ?_
      refine Obj.Runs.next (c := [0x26]) (.base .pop) (by decide) rfl (d := 0) (ip' := 18) rfl ?_
      refine Obj.Runs.next (c := [0x06]) (.base (.load (x := .loc) (i := 0) (by decide) (by decide))) (by decide) rfl (d := 0) (ip' := 19) rfl ?_
      refine Obj.Runs.next (c := [0x16]) (.base (.const (n := 0) (by decide))) (by decide) rfl (d := 0) (ip' := 20) rfl ?_
      refine Obj.Runs.next (c := [0x94]) .ldelem (by decide) rfl (d := 0) (ip' := 21) rfl ?_
      exact .ret (by decide) (.value rfl))
  have h2 := h1.2.symm.trans Ex.moved_result
  cases h2

/-- **C89 fails** for negative array lengths in builds without overflow checks: the program goes on instead of stopping. -/
theorem C89_refuted_negative : ¬ ComputesObjects (fun l => ¬ Wide l) none (fun _ => true) (· ≤ 64) (· ≤ 1024)
    (fun r => ∀ b, r ≠ some (.ref b)) := by
  intro h
  have h1 := h .release Ex.floats 9 _ (Ex.singleProg Ex.negativeCode 0) (fun _ => Ex.meth Ex.negativeCode 8 0 0) (fun _ => Ex.typedField)
    0 (Ex.singleProc Ex.negativeCode 0) [] 20 0 ⟨[], []⟩ .stops
    Ex.floats_lawful (Ex.single_primitives ..) (fun ps er => Ex.single_arrays _ _ _ ps er) (Ex.single_linked .release _ (by decide) 8 (.inl rfl) 0) rfl rfl rfl (by decide) (by decide)
    (by rintro r ⟨⟩) (by
      refine Obj.Runs.next (c := [0x15]) (.base (.const (n := -1) (by decide))) (by decide) rfl (d := 0) (ip' := 1) rfl ?_
      exact .stops (c := [0x8d, 1, 0, 0, 1]) (.newarr (t := 0x01000001) (by decide)) (by decide) rfl)
  have h2 := h1.2.symm.trans C73_refuted_release.2.1
  cases h2

/-- **C89 fails** for methods that return an object to the host: the object has been given back when the host gets it. -/
theorem C89_refuted_object : ¬ ComputesObjects (fun l => ¬ Wide l) none (·.checks) (· ≤ 64) (· ≤ 1024) (fun _ => True) := by
  intro h
  have h1 := h .debug Ex.floats 9 _ (Ex.singleProg Ex.returnedCode 0) (fun _ => Ex.meth Ex.returnedCode 15 0 0) (fun _ => Ex.typedField)
    0 (Ex.singleProc Ex.returnedCode 0) [] 20 0 ⟨[.ints [0]], []⟩ (.done (some (.ref 0)))
    Ex.floats_lawful ⟨_, rfl, rfl⟩ (fun ps er => Ex.single_arrays _ _ _ ps er) (Ex.single_linked .debug _ (by decide) 15 (.inr rfl) 0) rfl rfl rfl (by decide) (by decide)
    (fun _ _ => trivial) (by
      refine Obj.Runs.next (c := [0x17]) (.base (.const (n := 1) (by decide))) (by decide) rfl (d := 0) (ip' := 1) rfl ?_
      refine Obj.Runs.next (c := [0x8d, 1, 0, 0, 1]) (.newarr (t := 0x01000001) (by decide)) (by decide) rfl (d := 0) (ip' := 6) rfl ?_
      exact .ret (by decide) (.value rfl))
  obtain ⟨b, hb⟩ := h1.2
  have h2 : (hostExecute .debug Ex.floats 9 20 (Ex.tiny [Ex.meth Ex.returnedCode 15 0 0]) (Ex.meth Ex.returnedCode 15 0 0) []).1 = .ub := by
    decide +kernel
  cases hb.symm.trans h2

end Clr
