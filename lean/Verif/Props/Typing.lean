import Verif.Lemmas.Quiet
import Verif.Lemmas.Checker
import Verif.Lemmas.Tiny
import Verif.Props.Arith
/-! # Property C73: typed programs -/

namespace Clr

variable {cfg : Cfg} {ops : FloatOps} {tf fuel : Nat} {w : World} {encs : List Encoding} {good : MethodRec → MethodTy → Prop}

/-- A number of a type. -/
def Value.isOf : Value → Ty → Prop
  | .i32 _, .i4 | .i64 _, .i8 | .f32 _, .r4 | .f64 _, .r8 => True
  | _, _ => False

/-- What the host gets from a method with this result. -/
def RightResult : Option Ty → RunResult → Prop
  | none, .void => True
  | some t, .number a => a.isOf t
  | some t, .object _ => t.isNum = false
  | _, _ => False

/-- How a typed method may end: with a result of its type, stopped by one of the instructions that may do so, or not
within its time. -/
inductive RightEnd (cfg : Cfg) (encs : List Encoding) (result : Option Ty) : Res RunResult → Prop
  | ok {r : RunResult} : RightResult result r → RightEnd cfg encs result (.ok r)
  | trap {e : Encoding} : e ∈ encs → e.mnemonic ∈ trapping cfg.checks → RightEnd cfg encs result .panic
  | timeout : RightEnd cfg encs result .timeout

/-- The claim C73: a static method of a program of typed methods, called by the host with numbers of the types of its
parameters, returns a result of its type, or goes on for ever, or is stopped by one of the instructions that may do so. -/
def TypedRunWell : Prop :=
  ∀ (cfg : Cfg) (ops : FloatOps) (tf fuel : Nat) (w : World) (encs : List Encoding) (good : MethodRec → MethodTy → Prop),
    (∀ e ∈ encs, e ∈ encodings) → PrimitivesOk w → TypedProgram cfg tf w encs good →
    ∀ m s, good m s → m.isStatic = true → ∀ args, All2 Value.isOf args s.params →
      RightEnd cfg encs s.result (hostExecute cfg ops tf fuel w m args).1

theorem Value.isOf.hasTy {a : Value} {t : Ty} (h : a.isOf t) (bs : List Block) : HasTy w bs a t := by
  cases a <;> cases t <;> first | exact h.elim | trivial

theorem HasTy.isOf {a : Value} {t : Ty} {bs : List Block} (h : HasTy w bs a t) (ht : t.isNum = true) : a.isOf t := by
  cases t <;> first | (cases a <;> first | trivial | exact h.elim | (obtain ⟨-, b, -, hb⟩ := h; cases hb)) | cases ht

theorem args_slots {args : List Value} {ts : List Ty} (h : All2 Value.isOf args ts) :
    Slots { world := w, host := args } .host (HasTy w []) ts := by
  refine ⟨fun i hi => ?_, fun i t ht => ?_⟩
  · show i < args.length
    rw [h.length]; exact hi
  · obtain ⟨a, h1, h2⟩ := h.get ht
    exact ⟨a, h1, h2.hasTy _⟩

theorem start_calm (args : List Value) : Calm cfg tf w [] { world := w, host := args } :=
  ⟨⟨rfl, rfl, Nat.zero_le _, rfl, fun _ h => nomatch h⟩, rfl, rfl, Nat.zero_le _, .refl _⟩

/-- **C73 for programs whose memory is not moved**: unless the interpreter has replaced one of its two buffers (which it
does when the objects need more than 1024 bytes, or the variables of the methods more than 64 places), a typed method ends
as it should, except that a result that is not a number is not there any more when the host gets it. Long forms of `ldarg`
and `starg` are not used, and builds without overflow checks do not use `newarr`. -/
theorem C73_partial (hencs : ∀ e ∈ encs, e ∈ rightEncodings)
    (hna : cfg.checks = true ∨ ∀ e ∈ encs, e.mnemonic ≠ "newarr") (hp : PrimitivesOk w)
    (hprog : TypedProgram cfg tf w encs good) (m : MethodRec) (s : MethodTy) (hm : good m s) (hst : m.isStatic = true)
    (args : List Value) (ha : All2 Value.isOf args s.params)
    (hmoved : ¬ Moved (hostExecute cfg ops tf fuel w m args).2) :
    RightEnd cfg encs s.result (hostExecute cfg ops tf fuel w m args).1 ∨
    (hostExecute cfg ops tf fuel w m args).1 = .ub ∧ ∃ t, s.result = some t ∧ t.isNum = false := by
  rw [hostExecute, if_pos hst] at hmoved ⊢
  have h := invoke_typed hprog (loop_typed hencs hna hp hprog ops fuel) (loop_free cfg ops tf fuel)
    (fun fr ip => Grows.loop cfg ops tf fuel fr ip) hm (start_calm args) (args_slots ha) rfl (fun _ _ _ h => nomatch h)
  dsimp only at hmoved ⊢
  have h := h.resolve_left hmoved
  rcases hr : (invoke cfg (loop cfg ops tf fuel) m .host { world := w, host := args }).1 with r | e | _ | _ | _ <;>
    rw [hr] at h
  · obtain ⟨bs, -, -, -, h⟩ := h
    cases r with
    | none =>
      cases hs : s.result <;> rw [hs] at h
      · exact .inl (.ok trivial)
      · exact h.elim
    | some a =>
      cases hs : s.result with
      | none => rw [hs] at h; exact h.elim
      | some t =>
        rw [hs] at h
        have h : HasTy w bs a t := h
        cases ht : t.isNum with
        | true =>
          have h := h.isOf ht
          refine .inl ?_
          cases a <;> first | exact .ok h | (cases t <;> exact h.elim)
        | false =>
          obtain ⟨p, b, rfl, -⟩ := h.block ht
          exact .inr ⟨rfl, t, rfl, ht⟩
  · exact h.elim
  · obtain ⟨e, he, ht⟩ := h
    exact .inl (.trap he ht)
  · exact h.elim
  · exact .inl .timeout

/-- **C73 without exceptions** for methods that neither call nor allocate and have at most 64 locals. -/
theorem C73_leaf (hencs : ∀ e ∈ encs, e ∈ rightEncodings) (hleaf : ∀ e ∈ encs, e.mnemonic ∉ reaching) (hp : PrimitivesOk w)
    (hprog : TypedProgram cfg tf w encs good) (m : MethodRec) (s : MethodTy) (hm : good m s) (hst : m.isStatic = true)
    (body : MethodBody) (hbody : m.impl = .il body) (hl : body.locals.length ≤ 64)
    (args : List Value) (ha : All2 Value.isOf args s.params) :
    RightEnd cfg encs s.result (hostExecute cfg ops tf fuel w m args).1 ∨
    (hostExecute cfg ops tf fuel w m args).1 = .ub ∧ ∃ t, s.result = some t ∧ t.isNum = false := by
  have hna : cfg.checks = true ∨ ∀ e ∈ encs, e.mnemonic ≠ "newarr" := .inr fun e he hm => hleaf e he (by rw [hm]; decide)
  refine C73_partial hencs hna hp hprog m s hm hst args ha ?_
  rw [hostExecute, if_pos hst]
  dsimp only
  obtain ⟨-, -, hcase⟩ := hprog m s hm
  rw [hbody] at hcase
  rcases hcase with ⟨hi, -⟩ | ⟨body', t, asm, env, S, hi, hcl, hloc, ht, hasm, hres, hlinks, hS, h0⟩
  · cases hi
  · cases hi
    obtain ⟨fr, v1, f1, f2, f3, hinv, hstart⟩ := invoke_start (run := loop cfg ops tf fuel) (loop_free cfg ops tf fuel) hbody
      hloc ht hasm (start_calm args) (args_slots ha) rfl (fun _ _ _ h => nomatch h)
    rw [hinv]
    rcases hstart with ⟨-, hx⟩ | hstart
    · have : 1024 < 16 * (0 + body.locals.length) := hx
      omega
    · exact loop_leaf (ops := ops) hencs hleaf hp fuel (S := S) (result := s.result)
        ⟨by rw [f3]; exact hcl, by rw [f1]; exact hres, env, by rw [f2]; exact hlinks, by rw [f3]; exact hS⟩ h0 hstart

namespace Ex

/-- `p = new P(); a = new int[3]; for (i = 0; i < n; i++) { a[1] = M1(i); p.x = a[1]; Console.Write("Hi"); } return p.x`. -/
def typedMain : MethodRec := meth
  [0x73, 3, 0, 0, 6, 0x0a, 0x19, 0x8d, 1, 0, 0, 1, 0x0b, 0x16, 0x0c, 0x08, 0x02, 0x2f, 0x22, 0x07, 0x17, 0x08, 0x28, 2, 0, 0, 6, 0x9e,
   0x06, 0x07, 0x17, 0x94, 0x7d, 1, 0, 0, 4, 0x72, 0, 0, 0, 0x70, 0x28, 4, 0, 0, 6, 0x08, 0x17, 0x58, 0x0c, 0x2b, 0xda,
   0x06, 0x7b, 1, 0, 0, 4, 0x2a] (ret := 8) (params := 1) (locals := 3)
/-- `return i * i`. -/
def typedSquare : MethodRec := meth [0x02, 0x02, 0x5a, 0x2a] (ret := 8) (params := 1)
def typedCtor : MethodRec := meth [0x2a] (isStatic := false)
def typedWrite : MethodRec := { meth [] with params := [⟨"s".toList, 0, 16⟩], impl := .internal .consoleWrite }
def typedMethods : List (MethodRec × MethodTy) :=
  [(typedMain, ⟨[.i4], some .i4⟩), (typedSquare, ⟨[.i4], some .i4⟩), (typedCtor, ⟨[.obj 1], none⟩), (typedWrite, ⟨[.str], none⟩)]
def typedField : FieldRec := { name := "x".toList, declaringType := 1, fieldType := 8, isStatic := false, offset := 0 }
def typedWorld : World :=
  tiny (typedMethods.map (·.1)) [typedField] [0x05, 0x48, 0x00, 0x69, 0x00, 0x00]
def typedEnv : Env where
  methods t := if t = 0x06000002 then some ⟨[.i4], some .i4⟩ else if t = 0x06000004 then some ⟨[.str], none⟩ else none
  ctors t := if t = 0x06000003 then some (1, []) else none
  fields t := if t = 0x04000001 then some (1, .i4) else none
  literals t := decide (t = 0x70000000)
  intType t := decide (t = 0x01000001)

def typedMainTypes : List (Nat × Shape) :=
  let n : List (Option Ty) := [none, none, none]
  let p : List (Option Ty) := [some (.obj 1), none, none]
  let a : List (Option Ty) := [some (.obj 1), some .ints, none]
  let i : List (Option Ty) := [some (.obj 1), some .ints, some .i4]
  [(0, [], n), (5, [.obj 1], n), (6, [], p), (7, [.i4], p), (12, [.ints], p), (13, [], a), (14, [.i4], a), (15, [], i), (16, [.i4], i),
   (17, [.i4, .i4], i), (19, [], i), (20, [.ints], i), (21, [.i4, .ints], i), (22, [.i4, .i4, .ints], i),
   (27, [.i4, .i4, .ints], i), (28, [], i), (29, [.obj 1], i), (30, [.ints, .obj 1], i), (31, [.i4, .ints, .obj 1], i),
   (32, [.i4, .obj 1], i), (37, [], i), (42, [.str], i), (47, [], i), (48, [.i4], i), (49, [.i4, .i4], i), (50, [.i4], i), (51, [], i),
   (53, [], i), (54, [.obj 1], i), (59, [.i4], i)].map fun (ip, stack, locals) => (ip, ⟨stack, locals, [.i4]⟩)

theorem typed_derives {d c : Nat} (h : Derives typedWorld d c) (hc : c = 1) : d = 1 := by
  have hb : ∀ i, i < 18 → ∀ b, (typedWorld.types[i]?.bind (·.base)) = some b → b = 15 := by decide +kernel
  induction h with
  | refl => exact hc
  | @base i b d r h1 h2 h3 ih =>
    have hi : i < 18 := by
      have := (List.getElem?_eq_some_iff.1 h1).1
      exact this
    have := hb i hi b (by rw [h1]; exact h2)
    rw [ih hc] at this
    cases this

/-- The world in which the program starts. -/
theorem typed_links : Links .debug 9 typedWorld (fun m s => (m, s) ∈ typedMethods) (typedWorld.assemblies[0]'(by decide)) typedEnv where
  methods t s h := by
    unfold typedEnv at h
    dsimp only at h
    split at h
    · cases h; subst t; exact ⟨typedSquare, by decide +kernel, by decide +kernel⟩
    · split at h <;> cases h
      subst t; exact ⟨typedWrite, by decide +kernel, by decide +kernel⟩
  ctors t c ps h := by
    unfold typedEnv at h
    dsimp only at h
    split at h <;> cases h
    subst t; exact ⟨typedCtor, 8, by decide +kernel, by decide +kernel, rfl, rfl, by decide +kernel, by decide⟩
  fields t c τ h := by
    unfold typedEnv at h
    dsimp only at h
    split at h <;> cases h
    subst t
    refine ⟨typedField, tinyType 8 ("System", "Int32"), 4, by decide +kernel, by decide +kernel, by decide +kernel, fun d size hd hs => ?_⟩
    obtain rfl := typed_derives hd rfl
    have : typeSize .debug typedWorld 9 1 = .ok 8 := by decide +kernel
    rw [this] at hs
    cases hs
    decide
  literals t h := by
    obtain rfl : t = 0x70000000 := by simpa [typedEnv] using h
    exact ⟨[0x48, 0x69], "Hi".toList, 16, tinyType 16 ("System", "String"), by decide +kernel, by decide, by decide, by decide +kernel,
      by decide +kernel, by decide +kernel⟩
  intType t h := by
    obtain rfl : t = 0x01000001 := by simpa [typedEnv] using h
    exact ⟨⟨4, 5, 6, 7, 8, 9, 10, 11, 12, 13, 15⟩, tinyType 8 ("System", "Int32"), by decide +kernel, rfl, by decide +kernel, by decide +kernel,
      by decide +kernel⟩

theorem typed_void {m : MethodRec} (h : m.returnType = 0) : IsVoid typedWorld m := by
  unfold IsVoid
  rw [h]
  exact ⟨tinyType 0 ("System", "Void"), 0, tinyType 0 ("System", "Void"), by decide +kernel, by decide +kernel, by decide +kernel, rfl⟩

theorem typed_value {m : MethodRec} (h : m.returnType = 8) : IsValue typedWorld m := by
  unfold IsValue
  rw [h]
  exact ⟨tinyType 8 ("System", "Int32"), 0, tinyType 0 ("System", "Void"), by decide +kernel, by decide +kernel, by decide +kernel, by decide +kernel⟩

theorem typed_program : TypedProgram .debug 9 typedWorld rightEncodings (fun m s => (m, s) ∈ typedMethods) := by
  intro m s h
  simp only [typedMethods, List.mem_cons, Prod.mk.injEq, List.not_mem_nil, or_false] at h
  rcases h with ⟨rfl, rfl⟩ | ⟨rfl, rfl⟩ | ⟨rfl, rfl⟩ | ⟨rfl, rfl⟩
  · exact ⟨rfl, by decide, .inr ⟨_, _, _, typedEnv, _, rfl, by decide, by decide, rfl, rfl, .inr ⟨by decide, typed_value rfl⟩, typed_links,
      typedB_typed (L := typedMainTypes) (by decide +kernel), by decide +kernel⟩⟩
  · exact ⟨rfl, by decide, .inr ⟨_, _, _, typedEnv, _, rfl, by decide, by decide, rfl, rfl, .inr ⟨by decide, typed_value rfl⟩, typed_links,
      typedB_typed (L := [(0, ⟨[], [], [.i4]⟩), (1, ⟨[.i4], [], [.i4]⟩), (2, ⟨[.i4, .i4], [], [.i4]⟩), (3, ⟨[.i4], [], [.i4]⟩)])
        (by decide +kernel), by decide +kernel⟩⟩
  · exact ⟨rfl, by decide, .inr ⟨_, _, _, typedEnv, _, rfl, by decide, by decide, rfl, rfl, .inl ⟨by decide, typed_void rfl⟩, typed_links,
      typedB_typed (L := [(0, ⟨[], [], [.obj 1]⟩)]) (by decide +kernel), by decide +kernel⟩⟩
  · exact ⟨rfl, by decide, .inl ⟨rfl, rfl⟩⟩

theorem typed_primitives : PrimitivesOk typedWorld :=
  ⟨_, rfl, by decide +kernel⟩

end Ex

/-- A case of `C73_partial`: a program with a loop, a call, an object, an array, a string and output. -/
example : TypedProgram .debug 9 Ex.typedWorld rightEncodings (fun m s => (m, s) ∈ Ex.typedMethods) ∧ PrimitivesOk Ex.typedWorld ∧
    All2 Value.isOf [.i32 5] [Ty.i4] ∧ ¬ Moved (hostExecute .debug Ex.floats 9 400 Ex.typedWorld Ex.typedMain [.i32 5]).2 ∧
    (hostExecute .debug Ex.floats 9 400 Ex.typedWorld Ex.typedMain [.i32 5]).1 = .ok (.number (.i32 16)) :=
  ⟨Ex.typed_program, Ex.typed_primitives, .cons trivial .nil, by unfold Moved; decide +kernel, by decide +kernel⟩


namespace Ex

/-- A program of one method that returns an `int`. -/
def single (code : Bytes) (params locals : Nat) : World := tiny [meth code 8 params locals]

def arrayEnv : Env where
  intType t := decide (t = 0x01000001)

theorem single_program {cfg : Cfg} {encs : List Encoding} {code : Bytes} {params locals : Nat} (L : List (Nat × Shape))
    (hc : code.length < 2 ^ 62) (hp : params < 2 ^ 57) (hl : locals < 2 ^ 57) (h : typedB encs arrayEnv (some .i4) code L = true)
    (h0 : (0, ⟨[], List.replicate locals none, List.replicate params .i4⟩) ∈ L) :
    TypedProgram cfg 9 (single code params locals) encs
      (fun m s => m = meth code 8 params locals ∧ s = ⟨List.replicate params .i4, some .i4⟩) := by
  rintro m s ⟨rfl, rfl⟩
  refine ⟨by simp [MethodRec.slots, meth], by simpa using hp, .inr ⟨_, _, _, arrayEnv, _, rfl, hc, by simpa using hl, rfl, rfl,
    .inr ⟨nofun, ⟨tinyType 8 ("System", "Int32"), 0, tinyType 0 ("System", "Void"), rfl, rfl, rfl, by decide +kernel⟩⟩,
    ⟨nofun, nofun, nofun, nofun, fun t ht => ?_⟩, typedB_typed h, by simpa using h0⟩⟩
  obtain rfl : t = 0x01000001 := by simpa [arrayEnv] using ht
  exact ⟨⟨4, 5, 6, 7, 8, 9, 10, 11, 12, 13, 15⟩, tinyType 8 ("System", "Int32"), rfl, rfl, rfl, by decide +kernel, rfl⟩

theorem single_primitives (code : Bytes) (params locals : Nat) : PrimitivesOk (single code params locals) := ⟨_, rfl, rfl⟩

/-- `s = 0; while (n) { s = s + n; n = n - 1; } return s`. -/
def sumCode : Bytes := [0x16, 0x0a, 0x02, 0x2c, 0x0b, 0x06, 0x02, 0x58, 0x0a, 0x02, 0x17, 0x59, 0x10, 0, 0x2b, 0xf2, 0x06, 0x2a]

def sumTypes : List (Nat × Shape) :=
  [(0, [], [none]), (1, [.i4], [none]), (2, [], [some .i4]), (3, [.i4], [some .i4]), (5, [], [some .i4]), (6, [.i4], [some .i4]),
   (7, [.i4, .i4], [some .i4]), (8, [.i4], [some .i4]), (9, [], [some .i4]), (10, [.i4], [some .i4]), (11, [.i4, .i4], [some .i4]),
   (12, [.i4], [some .i4]), (14, [], [some .i4]), (16, [], [some .i4]), (17, [.i4], [some .i4])].map
    fun (ip, stack, locals) => (ip, (⟨stack, locals, [.i4]⟩ : Shape))

/-- `a = new int[1]; new int[300]; return a[0]`. -/
def movedCode : Bytes := [0x17, 0x8d, 1, 0, 0, 1, 0x0a, 0x20, 0x2c, 1, 0, 0, 0x8d, 1, 0, 0, 1, 0x26, 0x06, 0x16, 0x94, 0x2a]

def movedTypes : List (Nat × Shape) :=
  [(0, [], none), (1, [.i4], none), (6, [.ints], none), (7, [], some .ints), (12, [.i4], some .ints), (17, [.ints], some .ints),
   (18, [], some .ints), (19, [.ints], some .ints), (20, [.i4, .ints], some .ints), (21, [.i4], some .ints)].map
    fun (ip, stack, l) => (ip, (⟨stack, [l], []⟩ : Shape))

/-- `return (new int[-1])[0]`. -/
def negativeCode : Bytes := [0x15, 0x8d, 1, 0, 0, 1, 0x16, 0x94, 0x2a]

def negativeTypes : List (Nat × Shape) :=
  [(0, []), (1, [.i4]), (6, [.ints]), (7, [.i4, .ints]), (8, [.i4])].map fun (ip, stack) => (ip, (⟨stack, [], []⟩ : Shape))

end Ex

/-- A case of `C73_leaf`: a loop. -/
example : let encs := rightEncodings.filter (·.mnemonic ∉ reaching)
    (∃ good, TypedProgram .release 9 (Ex.single Ex.sumCode 1 1) encs good ∧
      good (Ex.meth Ex.sumCode 8 1 1) ⟨[.i4], some .i4⟩) ∧ (∀ e ∈ encs, e ∈ rightEncodings ∧ e.mnemonic ∉ reaching) ∧
    (hostExecute .release Ex.floats 9 400 (Ex.single Ex.sumCode 1 1) (Ex.meth Ex.sumCode 8 1 1) [.i32 10]).1 =
      .ok (.number (.i32 55)) :=
  ⟨⟨_, Ex.single_program Ex.sumTypes (by decide) (by decide) (by decide) (by decide +kernel) (by decide +kernel), rfl, rfl⟩,
    fun e he => by simpa using he, by decide +kernel⟩

theorem Ex.moved_program : TypedProgram .debug 9 (Ex.single Ex.movedCode 0 1) rightEncodings
    (fun m s => m = Ex.meth Ex.movedCode 8 0 1 ∧ s = ⟨[], some .i4⟩) :=
  Ex.single_program Ex.movedTypes (by decide) (by decide) (by decide) (by decide +kernel) (by decide +kernel)

theorem Ex.moved_result : (hostExecute .debug Ex.floats 9 20 (Ex.single Ex.movedCode 0 1) (Ex.meth Ex.movedCode 8 0 1) []).1 = .ub := by
  decide +kernel

/-- **C73 fails**: when the second array needs more memory, the first one is moved and `a` points to memory that has been
given back. -/
theorem C73_refuted : ¬ TypedRunWell := by
  intro h
  have hx := h .debug Ex.floats 9 20 (Ex.single Ex.movedCode 0 1) rightEncodings
    (fun m s => m = Ex.meth Ex.movedCode 8 0 1 ∧ s = ⟨[], some .i4⟩)
    (fun e he => (right_isRight he).1) (Ex.single_primitives ..) Ex.moved_program
    (Ex.meth Ex.movedCode 8 0 1) ⟨[], some .i4⟩ ⟨rfl, rfl⟩ rfl [] .nil
  rw [Ex.moved_result] at hx
  cases hx

/-- **C73 fails** in builds without overflow checks: an array of length -1 is taken for one of 2⁶⁴ - 1 elements, whose size
in bytes wraps around, so that 13 bytes are set aside for a header of 17 and every index is in range. -/
theorem C73_refuted_release :
    (∃ good, TypedProgram .release 9 (Ex.single Ex.negativeCode 0 0) rightEncodings good ∧
      good (Ex.meth Ex.negativeCode 8 0 0) ⟨[], some .i4⟩) ∧
    (hostExecute .release Ex.floats 9 20 (Ex.single Ex.negativeCode 0 0) (Ex.meth Ex.negativeCode 8 0 0) []).1 = .ub ∧
    (hostExecute .debug Ex.floats 9 20 (Ex.single Ex.negativeCode 0 0) (Ex.meth Ex.negativeCode 8 0 0) []).1 = .panic :=
  ⟨⟨_, Ex.single_program Ex.negativeTypes (by decide) (by decide) (by decide) (by decide +kernel) (by decide +kernel), rfl, rfl⟩,
    by decide +kernel, by decide +kernel⟩

end Clr
