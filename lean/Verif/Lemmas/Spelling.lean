import Verif.Lemmas.Blind
import Verif.Lemmas.Fuel
import Verif.Lemmas.Lang
/-! # Two spellings of a program (for C115) -/

namespace Clr
open Spec

variable {cfg : Cfg} {ops : FloatOps} {tf fuel : Nat} {fr fr' : Frame} {ip ip' : Nat} {v v' : VM}

variable {φ : MethodRec → MethodRec}

/-! ## Actions that differ in addresses only -/

/-- The same outcome of a step, up to addresses related by `P`. -/
inductive Alike (P : Nat → Nat → Prop) : Res Action → Res Action → Prop
  | next {n n' : Nat} : P n n' → Alike P (.ok (.next n)) (.ok (.next n'))
  | ret (a : Option Value) : Alike P (.ok (.ret a)) (.ok (.ret a))
  | call (t : Token) (a : Option Value) {n n' : Nat} : P n n' → Alike P (.ok (.call t a n)) (.ok (.call t a n'))
  | err (m : String) : Alike P (.err m) (.err m)
  | panic : Alike P .panic .panic
  | ub : Alike P .ub .ub
  | timeout : Alike P .timeout .timeout

variable (φ) in
/-- Outcomes of such steps, with the states. -/
def StepPair (P : Nat → Nat → Prop) (x x' : Res Action × VM) : Prop := x'.2 = x.2.withMethods φ ∧ Alike P x.1 x'.1

variable (φ) in
/-- InStep that differ in addresses only, the second one on the registry with other methods. -/
def InStep (P : Nat → Nat → Prop) (x x' : X Action) : Prop :=
  ∀ v, StepPair φ P (x v) (x' (v.withMethods φ))

namespace InStep

variable {P : Nat → Nat → Prop}

theorem bind {α : Type} {x : X α} {f f' : α → X Action} (hx : Blind φ x) (h : ∀ a, InStep φ P (f a) (f' a)) :
    InStep φ P (x >>= f) (x >>= f') := by
  intro v
  rw [X.bind_run, X.bind_run, hx v]
  rcases x v with ⟨r, v1⟩
  cases r with
  | ok a => exact h a v1
  | err m => exact ⟨rfl, .err m⟩
  | panic => exact ⟨rfl, .panic⟩
  | ub => exact ⟨rfl, .ub⟩
  | timeout => exact ⟨rfl, .timeout⟩

theorem next {n n' : Nat} (h : P n n') : InStep φ P (pure (.next n)) (pure (.next n')) := fun _ => ⟨rfl, .next h⟩

theorem ret (a : Option Value) : InStep φ P (pure (.ret a)) (pure (.ret a)) := fun _ => ⟨rfl, .ret a⟩

theorem call (t : Token) (a : Option Value) {n n' : Nat} (h : P n n') :
    InStep φ P (pure (.call t a n)) (pure (.call t a n')) := fun _ => ⟨rfl, .call t a h⟩

theorem err (m : String) : InStep φ P (liftM (Res.err m : Res Action)) (liftM (Res.err m : Res Action)) :=
  fun _ => ⟨rfl, .err m⟩

end InStep

theorem resolveMethod_withMethods (a : AssemblyRec) (t : Token) :
    (a.withMethods φ).resolveMethod cfg t = (do let m ← a.resolveMethod cfg t; pure (m.map φ)) := by
  unfold AssemblyRec.resolveMethod
  by_cases h : t.table = 0x06
  · rw [if_pos h, if_pos h]
    cases usub cfg 64 t.index 1 with
    | ok i => simp [AssemblyRec.withMethods]
    | _ => rfl
  · rw [if_neg h, if_neg h]
    by_cases h' : t.table = 0x0a
    · rw [if_pos h', if_pos h']
      cases usub cfg 64 t.index 1 with
      | ok i => simp [AssemblyRec.withMethods]
      | _ => rfl
    · rw [if_neg h', if_neg h']; rfl

variable (φ) in
/-- Frames that differ in their code only, as far as the interpreter looks, the second one on the registry with other methods. -/
structure Twins (fr fr' : Frame) : Prop where
  returnType : fr'.method.returnType = fr.method.returnType
  assembly : fr'.assembly = fr.assembly.withMethods φ
  locals : fr'.locals = fr.locals
  params : fr'.params = fr.params

theorem Twins.slice (h : Twins φ fr fr') (x : Var) : fr'.slice x = fr.slice x := by
  cases x
  · exact h.locals
  · exact h.params

variable (φ) in
/-- `φ` keeps what callers see of a method. -/
def Facade : Prop := ∀ m : MethodRec, (φ m).declaringType = m.declaringType ∧ (φ m).returnType = m.returnType ∧
  (φ m).params.length = m.params.length ∧ (φ m).isStatic = m.isStatic

theorem doRet_twins {P : Nat → Nat → Prop} (ht : Twins φ fr fr') : InStep φ P (doRet fr) (doRet fr') := by
  unfold doRet
  rw [ht.returnType]
  refine InStep.bind (Blind.view fun v => ?_) fun b => ?_
  · refine typeAt_bind v.world _ _ _ fun r => ?_
    show (match v.world.getType _ with | none => _ | some t => _) = _
    cases v.world.getType _ with
    | none => rfl
    | some t => exact typeAt_bind v.world _ _ _ fun _ => rfl
  · cases b
    · exact InStep.bind Blind.tryPop fun _ => .ret _
    · exact .ret _

theorem doNewobj_twins {P : Nat → Nat → Prop} (hφ : Facade φ) (ht : Twins φ fr fr')
    (hf : fetch fr.code ip 4 = fetch fr'.code ip' 4) (hP : P (ip + 4) (ip' + 4)) :
    InStep φ P (doNewobj cfg tf fr ip) (doNewobj cfg tf fr' ip') := by
  unfold doNewobj
  rw [← hf]
  refine InStep.bind (Blind.lift _) fun t => ?_
  rw [ht.assembly, resolveMethod_withMethods]
  intro v
  cases fr.assembly.resolveMethod cfg ⟨t⟩ with
  | ok m =>
    cases m with
    | none => exact ⟨rfl, .panic⟩
    | some m =>
      obtain ⟨h1, -, h3, -⟩ := hφ m
      show StepPair φ P ((do
        let p ← allocObject cfg tf m.declaringType
        insertBelow cfg m.params.length (.object p)
        pure (.call ⟨t⟩ (some (.object p)) (ip + 4)) : X Action) v) ((do
        let p ← allocObject cfg tf (φ m).declaringType
        insertBelow cfg (φ m).params.length (.object p)
        pure (.call ⟨t⟩ (some (.object p)) (ip' + 4)) : X Action) (v.withMethods φ))
      rw [h1, h3]
      exact InStep.bind (Blind.allocObject _) (fun _ => InStep.bind (Blind.insertBelow _ _) fun _ => .call _ _ hP) v
  | err m => exact ⟨rfl, .err m⟩
  | panic => exact ⟨rfl, .panic⟩
  | ub => exact ⟨rfl, .ub⟩
  | timeout => exact ⟨rfl, .timeout⟩

section
variable {P : Nat → Nat → Prop}

theorem constant_twins {a : Value} (h : P ip ip') : InStep φ P (constant a ip) (constant a ip') :=
  .bind (Blind.push _) fun _ => .next h

theorem immediate_twins {n : Nat} {mk : Nat → Value} (hf : fetch fr.code ip n = fetch fr'.code ip' n)
    (h : P (ip + n) (ip' + n)) : InStep φ P (immediate fr n mk ip) (immediate fr' n mk ip') := by
  unfold immediate
  rw [← hf]
  exact .bind (Blind.lift _) fun _ => .bind (Blind.push _) fun _ => .next h

theorem loadAt_twins {r : Region} {i : Nat} (h : P ip ip') : InStep φ P (loadAt' r i ip) (loadAt' r i ip') :=
  .bind (Blind.readSlot _ _) fun _ => .bind (Blind.push _) fun _ => .next h

theorem loadFrom_twins {r r' : Region} {n : Nat} (hr : r' = r) (hf : fetch fr.code ip n = fetch fr'.code ip' n)
    (h : P (ip + n) (ip' + n)) : InStep φ P (loadFrom fr r n ip) (loadFrom fr' r' n ip') := by
  unfold loadFrom
  rw [← hf, hr]
  exact .bind (Blind.lift _) fun _ => loadAt_twins h

theorem storeAt_twins {r : Region} {i : Nat} (h : P ip ip') : InStep φ P (storeAt r i ip) (storeAt r i ip') :=
  .bind Blind.pop fun _ => .bind (Blind.writeSlot _ _ _) fun _ => .next h

theorem storeTo_twins {r r' : Region} {n : Nat} (hr : r' = r) (hf : fetch fr.code ip n = fetch fr'.code ip' n)
    (h : P (ip + n) (ip' + n)) : InStep φ P (storeTo fr r n ip) (storeTo fr' r' n ip') := by
  unfold storeTo
  rw [← hf, hr]
  exact .bind (Blind.lift _) fun _ => storeAt_twins h

theorem compareOp_twins {rel : Value → Value → Res Bool} (h : P ip ip') :
    InStep φ P (compareOp rel ip) (compareOp rel ip') :=
  .bind Blind.pop fun _ => .bind Blind.pop fun _ => .bind (Blind.lift _) fun _ => .bind (Blind.push _) fun _ => .next h

theorem binary_twins {f : Value → Value → Res Value} (h : P ip ip') : InStep φ P (binary f ip) (binary f ip') :=
  .bind Blind.pop fun _ => .bind Blind.pop fun _ => .bind (Blind.lift _) fun _ => .bind (Blind.push _) fun _ => .next h

theorem unary_twins {f : Value → Res Value} (h : P ip ip') : InStep φ P (unary f ip) (unary f ip') :=
  .bind Blind.pop fun _ => .bind (Blind.lift _) fun _ => .bind (Blind.push _) fun _ => .next h

theorem doDup_twins (h : P ip ip') : InStep φ P (doDup ip) (doDup ip') :=
  .bind Blind.peek fun _ => .bind (Blind.push _) fun _ => .next h

theorem doPop_twins (h : P ip ip') : InStep φ P (doPop ip) (doPop ip') := .bind Blind.pop fun _ => .next h

theorem doCall_twins (hf : fetch fr.code ip 4 = fetch fr'.code ip' 4) (h : P (ip + 4) (ip' + 4)) :
    InStep φ P (doCall fr ip) (doCall fr' ip') := by
  unfold doCall
  rw [← hf]
  exact .bind (Blind.lift _) fun _ => .call _ _ h

theorem doStfld_twins (ht : Twins φ fr fr') (hf : fetch fr.code ip 4 = fetch fr'.code ip' 4) (h : P (ip + 4) (ip' + 4)) :
    InStep φ P (doStfld cfg fr ip) (doStfld cfg fr' ip') := by
  have e : ∀ t, fr'.assembly.resolveField cfg t = fr.assembly.resolveField cfg t := by intro t; rw [ht.assembly]; rfl
  unfold doStfld
  simp only [← hf, e]
  refine .bind (Blind.lift _) fun _ => .bind (Blind.lift _) fun _ => .bind (Blind.lift _) fun _ => .bind Blind.pop fun _ =>
    .bind Blind.pop fun a => ?_
  cases a with
  | object p => exact .bind (Blind.setField _ _ _) fun _ => .next h
  | _ => exact .err _

theorem doLdfld_twins (ht : Twins φ fr fr') (hf : fetch fr.code ip 4 = fetch fr'.code ip' 4) (h : P (ip + 4) (ip' + 4)) :
    InStep φ P (doLdfld cfg fr ip) (doLdfld cfg fr' ip') := by
  have e : ∀ t, fr'.assembly.resolveField cfg t = fr.assembly.resolveField cfg t := by intro t; rw [ht.assembly]; rfl
  unfold doLdfld
  simp only [← hf, e]
  refine .bind (Blind.lift _) fun _ => .bind (Blind.lift _) fun _ => .bind (Blind.lift _) fun _ => .bind Blind.pop fun a => ?_
  cases a with
  | object p => exact .bind (Blind.getField _ _) fun _ => .bind (Blind.push _) fun _ => .next h
  | _ => exact .err _

theorem doNewarr_twins (ht : Twins φ fr fr') (hf : fetch fr.code ip 4 = fetch fr'.code ip' 4) (h : P (ip + 4) (ip' + 4)) :
    InStep φ P (doNewarr cfg tf fr ip) (doNewarr cfg tf fr' ip') := by
  have e : ∀ t, fr'.assembly.resolveType cfg t = fr.assembly.resolveType cfg t := by intro t; rw [ht.assembly]; rfl
  unfold doNewarr
  simp only [← hf, e]
  exact .bind (Blind.lift _) fun _ => .bind (Blind.lift _) fun _ => .bind (Blind.lift _) fun _ => .bind Blind.popInt fun _ =>
    .bind (Blind.allocArray _ _) fun _ => .bind (Blind.push _) fun _ => .next h

theorem doStelem_twins (h : P ip ip') : InStep φ P (doStelem ip) (doStelem ip') :=
  .bind Blind.popInt fun _ => .bind Blind.popInt fun _ => .bind Blind.popArray fun _ => .bind (Blind.setInt _ _ _) fun _ => .next h

theorem doLdelem_twins (h : P ip ip') : InStep φ P (doLdelem ip) (doLdelem ip') :=
  .bind Blind.popInt fun _ => .bind Blind.popArray fun _ => .bind (Blind.getInt _ _) fun _ => .bind (Blind.push _) fun _ => .next h

theorem doLdstr_twins (ht : Twins φ fr fr') (hf : fetch fr.code ip 4 = fetch fr'.code ip' 4) (h : P (ip + 4) (ip' + 4)) :
    InStep φ P (doLdstr cfg fr ip) (doLdstr cfg fr' ip') := by
  have e : fr'.assembly.userStringData = fr.assembly.userStringData := by rw [ht.assembly]; rfl
  unfold doLdstr
  simp only [← hf, e]
  exact .bind (Blind.lift _) fun _ => .bind (Blind.lift _) fun _ => .bind (Blind.lift _) fun _ =>
    .bind (Blind.allocString _) fun _ => .bind (Blind.push _) fun _ => .next h

end

/-- The same instruction, not a branch, at two addresses. -/
theorem exec_twins {P : Nat → Nat → Prop} (hφ : Facade φ) (ht : Twins φ fr fr') {op : Op} {n : Nat}
    (h : op.shape = some (n, false)) (hf : n ≠ 0 → fetch fr.code ip n = fetch fr'.code ip' n)
    (hP : op ≠ .Ret → P (ip + n) (ip' + n)) : InStep φ P (exec cfg ops tf fr op ip) (exec cfg ops tf fr' op ip') := by
  by_cases hr : op = .Ret
  · subst hr; exact doRet_twins ht
  have hP' := hP hr
  clear hP
  have h3 := ht.locals
  have h4 := ht.params
  cases op <;> simp only [Op.shape, reduceCtorEq, Option.some.injEq, Prod.mk.injEq, Bool.true_eq_false, and_false,
    and_true, not_true_eq_false, not_false_eq_true] at h hr <;> subst h <;>
    (first | (replace hf := hf (by decide)) | skip) <;> (try simp only [Nat.add_zero] at hP') <;> simp only [exec] <;>
    with_reducible (first
    | exact constant_twins hP' | exact immediate_twins hf hP' | exact loadFrom_twins h3 hf hP' | exact loadFrom_twins h4 hf hP'
    | exact storeTo_twins h3 hf hP' | exact storeTo_twins h4 hf hP' | (rw [h3]; exact loadAt_twins hP')
    | (rw [h4]; exact loadAt_twins hP') | (rw [h3]; exact storeAt_twins hP') | exact compareOp_twins hP' | exact binary_twins hP'
    | exact unary_twins hP' | exact doDup_twins hP' | exact doPop_twins hP' | exact doCall_twins hf hP'
    | exact doStfld_twins ht hf hP' | exact doLdfld_twins ht hf hP' | exact doNewarr_twins ht hf hP' | exact doStelem_twins hP'
    | exact doLdelem_twins hP' | exact doLdstr_twins ht hf hP' | exact doNewobj_twins hφ ht hf hP' | exact InStep.next hP')

section
variable {P : Nat → Nat → Prop} {n n' : Nat} {d d' : Int}

theorem branch_twins (hd : fetchInt fr.code ip n = .ok d) (hd' : fetchInt fr'.code ip' n' = .ok d')
    (hj : P (jump (ip + n) d) (jump (ip' + n') d')) : InStep φ P (branch fr n ip) (branch fr' n' ip') := by
  intro v
  unfold branch
  rw [X.liftM_bind_ok hd, X.liftM_bind_ok hd']
  exact ⟨rfl, .next hj⟩

theorem branchIf_twins (hd : fetchInt fr.code ip n = .ok d) (hd' : fetchInt fr'.code ip' n' = .ok d')
    (hj : P (jump (ip + n) d) (jump (ip' + n') d')) (hn : P (ip + n) (ip' + n')) (want : Bool) :
    InStep φ P (branchIf ops fr want n ip) (branchIf ops fr' want n' ip') := by
  intro v
  unfold branchIf
  rw [X.liftM_bind_ok hd, X.liftM_bind_ok hd']
  refine InStep.bind Blind.pop (fun a => InStep.bind (Blind.lift _) fun z => ?_) v
  by_cases h : z = want
  · rw [if_pos h, if_pos h]; exact .next hj
  · rw [if_neg h, if_neg h]; exact .next hn

theorem branchCmp_twins (hd : fetchInt fr.code ip n = .ok d) (hd' : fetchInt fr'.code ip' n' = .ok d')
    (hj : P (jump (ip + n) d) (jump (ip' + n') d')) (hn : P (ip + n) (ip' + n')) (rel : Value → Value → Res Bool) :
    InStep φ P (branchCmp fr rel n ip) (branchCmp fr' rel n' ip') := by
  unfold branchCmp
  refine InStep.bind Blind.pop fun a => InStep.bind Blind.pop fun b => fun v => ?_
  rw [X.liftM_bind_ok hd, X.liftM_bind_ok hd']
  refine InStep.bind (Blind.lift _) (fun c => ?_) v
  cases c
  · exact .next hn
  · exact .next hj

end

section
variable (h : fr'.code = fr.code)
include h

theorem branch_same {n : Nat} : InStep φ Eq (branch fr n ip) (branch fr' n ip) := by
  unfold branch
  rw [h]
  exact .bind (Blind.lift _) fun _ => .next rfl

theorem branchIf_same {n : Nat} {want : Bool} : InStep φ Eq (branchIf ops fr want n ip) (branchIf ops fr' want n ip) := by
  unfold branchIf
  rw [h]
  exact .bind (Blind.lift _) fun _ => .bind Blind.pop fun _ => .bind (Blind.lift _) fun _ => .next rfl

theorem branchCmp_same {n : Nat} {rel : Value → Value → Res Bool} :
    InStep φ Eq (branchCmp fr rel n ip) (branchCmp fr' rel n ip) := by
  unfold branchCmp
  rw [h]
  exact .bind Blind.pop fun _ => .bind Blind.pop fun _ => .bind (Blind.lift _) fun _ => .bind (Blind.lift _) fun _ => .next rfl

/-- Any instruction in the same code. -/
theorem exec_same (hφ : Facade φ) (ht : Twins φ fr fr') (op : Op) :
    InStep φ Eq (exec cfg ops tf fr op ip) (exec cfg ops tf fr' op ip) := by
  cases hs : op.shape with
  | none => rw [exec_unimplemented hs, exec_unimplemented hs]; exact .err _
  | some nb =>
    obtain ⟨n, b⟩ := nb
    cases b with
    | false => exact exec_twins hφ ht hs (fun _ => by rw [h]) fun _ => rfl
    | true =>
      cases op <;> simp only [Op.shape, reduceCtorEq, Option.some.injEq, Prod.mk.injEq, Bool.false_eq_true, and_false] at hs <;>
        simp only [exec] <;> with_reducible (first | exact branch_same h | exact branchIf_same h | exact branchCmp_same h)

theorem step_same (hφ : Facade φ) (ht : Twins φ fr fr') (ip : Nat) :
    InStep φ Eq (step cfg ops tf fr ip) (step cfg ops tf fr' ip) := by
  unfold step
  rw [h]
  exact .bind (Blind.lift _) fun o => exec_same h hφ ht o.1

end

/-- The action of a branch instruction. -/
theorem step_goto {f : Form} {bs : Bytes} (hc : HasAt fr.code ip (brOpcode f :: bs)) (v : VM) :
    step cfg ops tf fr ip v = branch fr f.size (ip + 1) v := by
  cases f
  · exact step_one hc (by decide) (op := .Br_S) (by decide) v
  · exact step_one hc (by decide) (op := .Br) (by decide) v

theorem step_test {f : Form} {c : Branch1} {bs : Bytes} (hc : HasAt fr.code ip (c.opcode f :: bs)) (v : VM) :
    step cfg ops tf fr ip v = branchIf ops fr (c = .brfalse) f.size (ip + 1) v := by
  cases f <;> cases c
  · exact step_one hc (by decide) (op := .Brfalse_S) (by decide) v
  · exact step_one hc (by decide) (op := .Brtrue_S) (by decide) v
  · exact step_one hc (by decide) (op := .Brfalse) (by decide) v
  · exact step_one hc (by decide) (op := .Brtrue) (by decide) v

/-- The relation a comparing branch tests. -/
def Branch2.rel (ops : FloatOps) : Branch2 → Value → Value → Res Bool
  | .beq => eqTop ops | .bge => Value.ge ops | .bgt => Value.gt ops | .ble => Value.le ops | .blt => Value.lt ops

theorem step_cmp {f : Form} {c : Branch2} {bs : Bytes} (hc : HasAt fr.code ip (c.opcode f :: bs)) (v : VM) :
    step cfg ops tf fr ip v = branchCmp fr (c.rel ops) f.size (ip + 1) v := by
  cases f <;> cases c
  · exact step_one hc (by decide) (op := .Beq_S) (by decide) v
  · exact step_one hc (by decide) (op := .Bge_S) (by decide) v
  · exact step_one hc (by decide) (op := .Bgt_S) (by decide) v
  · exact step_one hc (by decide) (op := .Ble_S) (by decide) v
  · exact step_one hc (by decide) (op := .Blt_S) (by decide) v
  · exact step_one hc (by decide) (op := .Beq) (by decide) v
  · exact step_one hc (by decide) (op := .Bge) (by decide) v
  · exact step_one hc (by decide) (op := .Bgt) (by decide) v
  · exact step_one hc (by decide) (op := .Ble) (by decide) v
  · exact step_one hc (by decide) (op := .Blt) (by decide) v

/-! ## Lines -/

/-- Both addresses lead, over `nop`s, to the same line. -/
def Abreast (p : List Line) (c c' : Bytes) (addr addr' : Nat → Nat) (n n' : Nat) : Prop :=
  ∃ k, k < p.length ∧ Nops c n (addr k) ∧ Nops c' n' (addr' k)

theorem Spec.Line.Spells.ne_nil {ok : Bytes → Prop} {code bs : Bytes} {addr : Nat → Nat} {a : Nat} {l : Line}
    (h : l.Spells ok code addr a bs) : bs ≠ [] := by
  cases h with
  | const h =>
    rintro rfl
    simp only [constCodes, List.mem_append] at h
    rcases h with (h | h) | h <;> split at h <;> simp at h
  | load h =>
    rintro rfl
    rename_i x _ _
    cases x <;> simp only [Var.loads, List.mem_append] at h <;> rcases h with (h | h) | h <;> split at h <;> simp at h
  | store h =>
    rintro rfl
    rename_i x _ _
    cases x <;> simp only [Var.stores, List.mem_append] at h
    · rcases h with (h | h) | h <;> split at h <;> simp at h
    · rcases h with h | h <;> split at h <;> simp at h
  | goto | test | cmp => simp
  | other he =>
    have : (encodings.all fun e => e.opcode ≠ []) = true := by decide +kernel
    have := List.all_eq_true.1 this _ he
    simp only [decide_eq_true_eq] at this
    simp [this]

theorem Spec.Spelling.le {ok : Bytes → Prop} {p : List Line} {code : Bytes} {addr : Nat → Nat}
    (h : Spelling ok p code addr) {k : Nat} (hk : k < p.length) : addr k < code.length := by
  obtain ⟨bs, h1, h2, -⟩ := h.line k p[k] (List.getElem?_eq_getElem hk)
  have hne := h2.ne_nil
  have := h1.le hne
  have : 0 < bs.length := List.length_pos_iff.2 hne
  omega

theorem Leads.jump {code : Bytes} {f : Form} {a b : Nat} {d : Int} (h : Leads code f a b d) (hb : b < 2 ^ 62) :
    Nops code (Clr.jump (a + 1 + f.size) d) b := by
  obtain ⟨-, q, hq, hn⟩ := h
  have : Clr.jump (a + 1 + f.size) d = q := by
    unfold Clr.jump
    have hle := hn.1
    have : (((a + 1 + f.size : Nat) : Int) + d) = q := by rw [hq]; omega
    rw [this, Int.emod_eq_of_lt (by omega) (by omega), Int.toNat_natCast]
  rwa [this]

theorem Form.size_pos (f : Form) : 0 < f.size := by cases f <;> decide

/-- A line spelled in two ways. -/
theorem step_line {ok : Bytes → Prop} (hok : ∀ l, ok l → ¬ Wide l) (hφ : Facade φ) {p : List Line} {addr addr' : Nat → Nat}
    (ht : Twins φ fr fr') (hl : fr.code.length < 2 ^ 62) (hl' : fr'.code.length < 2 ^ 62) (h : Spelling ok p fr.code addr)
    (h' : Spelling ok p fr'.code addr') {k : Nat} (hk : k < p.length) :
    InStep φ (Abreast p fr.code fr'.code addr addr') (step cfg ops tf fr (addr k)) (step cfg ops tf fr' (addr' k)) := by
  obtain ⟨bs, hc, hs, hf, htg⟩ := h.line k p[k] (List.getElem?_eq_getElem hk)
  obtain ⟨bs', hc', hs', hf', -⟩ := h'.line k p[k] (List.getElem?_eq_getElem hk)
  have hnext : p[k].falls → Abreast p fr.code fr'.code addr addr' (addr k + bs.length) (addr' k + bs'.length) :=
    fun e => ⟨k + 1, (hf e).1, (hf e).2, (hf' e).2⟩
  have hjump : ∀ t f f' d d', p[k].target = some t → Leads fr.code f (addr k) (addr t) d →
      Leads fr'.code f' (addr' k) (addr' t) d' → Abreast p fr.code fr'.code addr addr'
        (jump (addr k + 1 + f.size) d) (jump (addr' k + 1 + f'.size) d') := by
    intro t f f' d d' e g g'
    have htl := htg t e
    have := h.le htl
    have := h'.le htl
    exact ⟨t, htl, Leads.jump g (by omega), Leads.jump g' (by omega)⟩
  clear hf hf' htg
  generalize p[k] = l at hs hs' hnext hjump
  intro v
  cases hs with
  | const h1 =>
    cases hs' with
    | const h2 =>
      rw [const_run h1 hc, const_run h2 hc']
      exact ⟨rfl, .next (hnext trivial)⟩
  | @load x i c h1 o1 =>
    cases hs' with
    | load h2 o2 =>
      rw [load_run h1 (fun e => hok _ o1 (Or.inl e)) hc, load_run h2 (fun e => hok _ o2 (Or.inl e)) hc', ht.slice x]
      exact loadAt_twins (hnext trivial) v
  | @store x i c h1 o1 =>
    cases hs' with
    | store h2 o2 =>
      rw [store_run h1 (fun e => hok _ o1 (Or.inr e)) hc, store_run h2 (fun e => hok _ o2 (Or.inr e)) hc', ht.slice x]
      exact storeAt_twins (hnext trivial) v
  | @goto t f d h1 =>
    cases hs' with
    | @goto _ f' d' h2 =>
      rw [step_goto hc, step_goto hc']
      exact branch_twins (fetchInt_ok f.size_pos hc.tail h1.1) (fetchInt_ok f'.size_pos hc'.tail h2.1)
        (hjump t f f' d d' rfl h1 h2) v
  | @test b t f d h1 =>
    cases hs' with
    | @test _ _ f' d' h2 =>
      rw [step_test hc, step_test hc']
      refine branchIf_twins (fetchInt_ok f.size_pos hc.tail h1.1) (fetchInt_ok f'.size_pos hc'.tail h2.1)
        (hjump t f f' d d' rfl h1 h2) ?_ _ v
      have := hnext trivial
      simpa [length_intBytes, Nat.add_assoc, Nat.add_comm 1] using this
  | @cmp b t f d h1 =>
    cases hs' with
    | @cmp _ _ f' d' h2 =>
      rw [step_cmp hc, step_cmp hc']
      refine branchCmp_twins (fetchInt_ok f.size_pos hc.tail h1.1) (fetchInt_ok f'.size_pos hc'.tail h2.1)
        (hjump t f f' d d' rfl h1 h2) ?_ _ v
      have := hnext trivial
      simpa [length_intBytes, Nat.add_assoc, Nat.add_comm 1] using this
  | @other e arg he n8 n32 harg o1 =>
    cases hs' with
    | other _ _ _ _ o2 =>
      have hr : e.isRight = true := by
        have key : (encodings.all fun e => e.isRight || [0xfe, 0x09] = e.opcode || [0xfe, 0x0b] = e.opcode) = true := by
          decide +kernel
        have := List.all_eq_true.1 key _ he
        simp only [Bool.or_eq_true, decide_eq_true_eq] at this
        rcases this with (h | h) | h
        · exact h
        · exact absurd (Or.inl ⟨arg, by rw [h]⟩) (hok _ o1)
        · exact absurd (Or.inr ⟨arg, by rw [h]⟩) (hok _ o1)
      obtain ⟨op, hop, hsh⟩ := row_ok he hr
      have hb : e.operand.isTarget = false := by
        revert n8 n32; cases e.operand <;> simp [Operand.isTarget]
      rw [hb] at hsh
      rw [step_of_fetch (fetchOp_of hop hc.left), step_of_fetch (fetchOp_of hop hc'.left)]
      refine exec_twins hφ ht hsh (fun hn => ?_) (fun hne => ?_) v
      · rw [fetch_at hc.drop harg (by omega), fetch_at hc'.drop harg (by omega)]
      · have hret : e.mnemonic ≠ "ret" := by
          intro hm
          have key : (encodings.all fun e => e.mnemonic ≠ "ret" || decodeBytes e.opcode = some .Ret) = true := by decide +kernel
          have := List.all_eq_true.1 key _ he
          simp [hm, hop] at this
          exact hne this
        have := hnext hret
        simpa [harg, Nat.add_assoc] using this

/-! ## The loop -/

theorem step_nop (h : fr.code[ip]? = some 0) (v : VM) : step cfg ops tf fr ip v = (.ok (.next (ip + 1)), v) :=
  step_of_fetch (fetchOp_one (op := .Nop) h (by decide) (by decide)) v

theorem loop_nops {b : Nat} (n k : Nat) (h : Nops fr.code ip b) (hk : b = ip + k) (v : VM) :
    loop cfg ops tf (k + n) fr ip v = loop cfg ops tf n fr b v := by
  induction k generalizing ip with
  | zero => subst hk; simp
  | succ k ih =>
    rw [show k + 1 + n = (k + n) + 1 by omega, loop_succ, step_nop (h.2 ip (Nat.le_refl _) (by omega))]
    exact ih ⟨by omega, fun q h1 h2 => h.2 q (by omega) h2⟩ (by omega)

/-! ## Executions -/

/-- More fuel does not change an outcome. -/
def Mono {α : Type} (x : Nat → X α) : Prop := ∀ n n', n ≤ n' → Refined (x n) (x n')

variable (φ) in
/-- If `x`, or `y` on the registry with other methods, ends with the given fuel, then with enough fuel both end, in the same way. -/
def Concur {α : Type} (fuel : Nat) (x y : Nat → X α) : Prop :=
  ∀ v, (x fuel v).1 ≠ .timeout ∨ (y fuel (v.withMethods φ)).1 ≠ .timeout →
    ∃ N, ∀ k k', N ≤ k → N ≤ k' → (x k v).1 ≠ .timeout ∧ y k' (v.withMethods φ) = ((x k v).1, (x k v).2.withMethods φ)

theorem bind_ends {α β : Type} {x : X α} {f : α → X β} {v : VM} (h : ((x >>= f) v).1 ≠ .timeout) : (x v).1 ≠ .timeout := by
  intro e
  rw [X.bind_run] at h
  rcases hx : x v with ⟨r, v1⟩
  rw [hx] at h e
  obtain rfl : r = .timeout := e
  exact h rfl

namespace Concur

theorem blind {α : Type} {x : X α} (h : Blind φ x) : Concur φ fuel (fun _ => x) fun _ => x := by
  intro v hv
  have hv : (x v).1 ≠ .timeout := by
    rcases hv with hv | hv
    · exact hv
    · dsimp only at hv; rw [h v] at hv; exact hv
  exact ⟨0, fun _ _ _ _ => ⟨hv, h v⟩⟩

theorem bind {α β : Type} {x y : Nat → X α} {f g : Nat → α → X β} (hx : Mono x) (hy : Mono y) (h : Concur φ fuel x y)
    (hf : ∀ a, Concur φ fuel (fun n => f n a) fun n => g n a) : Concur φ fuel (fun n => x n >>= f n) fun n => y n >>= g n := by
  intro v hv
  obtain ⟨N, hN⟩ := h v (by
    rcases hv with hv | hv
    · exact Or.inl (bind_ends hv)
    · exact Or.inr (bind_ends hv))
  have hr := (hN (N + fuel) (N + fuel) (by omega) (by omega)).1
  rcases hX : x (N + fuel) v with ⟨r, v1⟩
  rw [hX] at hr
  have hk : ∀ k, N ≤ k → x k v = (r, v1) := by
    intro k hk
    have h1 := hN k (N + fuel) hk (by omega)
    rw [← hx k (N + fuel + k) (by omega) v h1.1, hx (N + fuel) (N + fuel + k) (by omega) v (by rw [hX]; exact hr), hX]
  have hk' : ∀ k, N ≤ k → y k (v.withMethods φ) = (r, v1.withMethods φ) := by
    intro k hk2
    rw [(hN N k (by omega) hk2).2, hk N (by omega)]
  have hl : (x fuel v).1 ≠ .timeout → x fuel v = (r, v1) := by
    intro e; rw [← hx fuel (N + fuel) (by omega) v e, hX]
  have hl' : (y fuel (v.withMethods φ)).1 ≠ .timeout → y fuel (v.withMethods φ) = (r, v1.withMethods φ) := by
    intro e; rw [← hy fuel (N + fuel) (by omega) _ e, hk' _ (by omega)]
  cases r with
  | ok a =>
    obtain ⟨M, hM⟩ := hf a v1 (by
      rcases hv with hv | hv
      · left
        have := hl (bind_ends hv)
        dsimp only at hv
        rw [X.bind_run, this] at hv
        exact hv
      · right
        have := hl' (bind_ends hv)
        dsimp only at hv
        rw [X.bind_run, this] at hv
        exact hv)
    refine ⟨N + M, fun k k' h1 h2 => ?_⟩
    dsimp only
    rw [X.bind_run, X.bind_run, hk k (by omega), hk' k' (by omega)]
    exact hM k k' (by omega) (by omega)
  | timeout => exact absurd rfl hr
  | _ =>
    refine ⟨N, fun k k' h1 h2 => ?_⟩
    dsimp only
    rw [X.bind_run, X.bind_run, hk k h1, hk' k' h2]
    exact ⟨by simp, rfl⟩

theorem shift {α : Type} {x y : Nat → X α} (h : Concur φ fuel x y) {x' y' : Nat → X α} {i j : Nat}
    (ex : ∀ n v, x' (i + n) v = x n v) (ey : ∀ n v, y' (j + n) v = y n v) (hx' : Mono x') (hy' : Mono y') : Concur φ fuel x' y' := by
  intro v hv
  obtain ⟨N, hN⟩ := h v (by
    rcases hv with hv | hv
    · left
      rw [← ex fuel v, hx' fuel (i + fuel) (by omega) v hv]; exact hv
    · right
      rw [← ey fuel, hy' fuel (j + fuel) (by omega) _ hv]; exact hv)
  refine ⟨N + i + j, fun k k' h1 h2 => ?_⟩
  obtain ⟨k, rfl⟩ : ∃ l, k = i + l := ⟨k - i, by omega⟩
  obtain ⟨k', rfl⟩ : ∃ l, k' = j + l := ⟨k' - j, by omega⟩
  rw [ex, ey]
  exact hN k k' (by omega) (by omega)

end Concur

theorem Mono.const {α : Type} (x : X α) : Mono fun _ => x := fun _ _ _ => .refl x

theorem Mono.loop (fr : Frame) (ip : Nat) : Mono fun k => loop cfg ops tf k fr ip := fun _ _ h => Refined.loop h fr ip

theorem Mono.callMethod (fr : Frame) (t : Token) : Mono fun k => callMethod cfg (Clr.loop cfg ops tf k) fr t :=
  fun _ _ h => Refined.callMethod (Refined.loop h) (loop_free _ _ _ _) (loop_free _ _ _ _) fr t

theorem Mono.invoke (m : MethodRec) (r : Region) : Mono fun k => invoke cfg (Clr.loop cfg ops tf k) m r :=
  fun _ _ h => Refined.invoke (Refined.loop h) (loop_free _ _ _ _) (loop_free _ _ _ _) m r

/-- Frames of two spellings of a program, or of the same code, and addresses in them. -/
inductive Paired (ok : Bytes → Prop) (fr fr' : Frame) : Nat → Nat → Prop
  | same {n : Nat} : fr'.code = fr.code → Paired ok fr fr' n n
  | spelled {p : List Line} {addr addr' : Nat → Nat} {n n' : Nat} : fr.code.length < 2 ^ 62 → fr'.code.length < 2 ^ 62 →
      Spelling ok p fr.code addr → Spelling ok p fr'.code addr' → Abreast p fr.code fr'.code addr addr' n n' →
      Paired ok fr fr' n n'

variable (cfg ops tf) in
/-- What `loop` does after a step. -/
def after (fuel : Nat) (fr : Frame) : Action → X (Option Value)
  | .next ip => loop cfg ops tf fuel fr ip
  | .ret a => pure a
  | .call token a ip => do
    callMethod cfg (loop cfg ops tf fuel) fr token
    match a with
    | some a => push a
    | none => pure ()
    loop cfg ops tf fuel fr ip

theorem loop_after (fuel : Nat) (fr : Frame) (ip : Nat) :
    loop cfg ops tf (fuel + 1) fr ip = step cfg ops tf fr ip >>= after cfg ops tf fuel fr := by
  rw [loop]
  congr 1

theorem loop_step {r : Res Action} {v1 : VM} (h : step cfg ops tf fr ip v = (r, v1)) (fuel : Nat) :
    loop cfg ops tf (fuel + 1) fr ip v = match (generalizing := false) r with
      | .ok a => after cfg ops tf fuel fr a v1
      | .err m => (.err m, v1)
      | .panic => (.panic, v1)
      | .ub => (.ub, v1)
      | .timeout => (.timeout, v1) := by
  rw [loop_after, X.bind_run, h]
  cases r <;> rfl

/-- Both loops one step further. -/
theorem step_concur {Q : Frame → Frame → Nat → Nat → Prop}
    (ih : ∀ fr fr' n n', Twins φ fr fr' → Q fr fr' n n' →
      Concur φ fuel (fun k => loop cfg ops tf k fr n) fun k => loop cfg ops tf k fr' n')
    (hc : ∀ t, Concur φ fuel (fun k => callMethod cfg (loop cfg ops tf k) fr t) fun k => callMethod cfg (loop cfg ops tf k) fr' t)
    (ht : Twins φ fr fr') {n q : Nat} (hs : InStep φ (Q fr fr') (step cfg ops tf fr n) (step cfg ops tf fr' q)) :
    Concur φ (fuel + 1) (fun k => loop cfg ops tf k fr n) fun k => loop cfg ops tf k fr' q := by
  intro v hv
  obtain ⟨h1, h2⟩ := hs v
  rcases hx : step cfg ops tf fr n v with ⟨r, v1⟩
  rcases hx' : step cfg ops tf fr' q (v.withMethods φ) with ⟨r', v1'⟩
  rw [hx, hx'] at h1 h2
  obtain rfl : v1' = v1.withMethods φ := h1
  dsimp only at h2 hv
  rw [loop_step hx, loop_step hx'] at hv
  have hup : ∀ N, (∀ k k', N ≤ k → N ≤ k' → (loop cfg ops tf (k + 1) fr n v).1 ≠ .timeout ∧ loop cfg ops tf (k' + 1) fr' q (v.withMethods φ) =
      ((loop cfg ops tf (k + 1) fr n v).1, (loop cfg ops tf (k + 1) fr n v).2.withMethods φ)) →
      ∃ N, ∀ k k', N ≤ k → N ≤ k' → (loop cfg ops tf k fr n v).1 ≠ .timeout ∧ loop cfg ops tf k' fr' q (v.withMethods φ) =
        ((loop cfg ops tf k fr n v).1, (loop cfg ops tf k fr n v).2.withMethods φ) := by
    intro N h
    refine ⟨N + 1, fun k k' h1 h2 => ?_⟩
    obtain ⟨k, rfl⟩ : ∃ l, k = l + 1 := ⟨k - 1, by omega⟩
    obtain ⟨k', rfl⟩ : ∃ l, k' = l + 1 := ⟨k' - 1, by omega⟩
    exact h k k' (by omega) (by omega)
  have hgo : ∀ a a', r = .ok a → r' = .ok a' → Concur φ fuel (fun k => after cfg ops tf k fr a) (fun k => after cfg ops tf k fr' a') →
      ∃ N, ∀ k k', N ≤ k → N ≤ k' → (loop cfg ops tf k fr n v).1 ≠ .timeout ∧ loop cfg ops tf k' fr' q (v.withMethods φ) =
        ((loop cfg ops tf k fr n v).1, (loop cfg ops tf k fr n v).2.withMethods φ) := by
    rintro a a' rfl rfl h
    obtain ⟨N, hN⟩ := h v1 hv
    refine hup N fun k k' g1 g2 => ?_
    rw [loop_step hx, loop_step hx']
    exact hN k k' g1 g2
  cases h2 with
  | ret a => exact hgo _ _ rfl rfl (.blind (Blind.pure a))
  | next hP => exact hgo _ _ rfl rfl (ih fr fr' _ _ ht hP)
  | call t a hP =>
    refine hgo _ _ rfl rfl (Concur.bind (.callMethod _ _) (.callMethod _ _) (hc t) fun _ => ?_)
    cases a with
    | none => exact ih fr fr' _ _ ht hP
    | some a => exact Concur.bind (.const _) (.const _) (.blind (Blind.push a)) fun _ => ih fr fr' _ _ ht hP
  | err m => exact hup 0 fun k k' _ _ => by rw [loop_step hx, loop_step hx']; exact ⟨by simp, rfl⟩
  | panic => exact hup 0 fun k k' _ _ => by rw [loop_step hx, loop_step hx']; exact ⟨by simp, rfl⟩
  | ub => exact hup 0 fun k k' _ _ => by rw [loop_step hx, loop_step hx']; exact ⟨by simp, rfl⟩
  | timeout => rcases hv with hv | hv <;> exact absurd rfl hv

/-- `m'` looks to callers like `m`, perhaps with another body, whose frames start in relation `Q`. -/
def Matched (Q : Frame → Frame → Nat → Nat → Prop) (m m' : MethodRec) : Prop :=
  (m'.declaringType = m.declaringType ∧ m'.returnType = m.returnType ∧ m'.params.length = m.params.length ∧ m'.isStatic = m.isStatic) ∧
    ((m'.impl = m.impl ∧ ∀ fr fr' : Frame, fr'.code = fr.code → Q fr fr' 0 0) ∨ ∃ b b' : MethodBody, m.impl = .il b ∧ m'.impl = .il b' ∧ b.locals.length = b'.locals.length ∧
      ∀ fr fr' : Frame, fr.code = b.code → fr'.code = b'.code → Q fr fr' 0 0)

theorem Spec.Respelled.matched {ok : Bytes → Prop} {m m' : MethodRec} (h : Respelled ok m m') : Matched (Paired ok) m m' := by
  refine ⟨by rw [h.1]; exact ⟨rfl, rfl, rfl, rfl⟩, ?_⟩
  rcases h.2 with h | ⟨b, b', h, h', hl, h1, h2, p, addr, addr', hs, hs'⟩
  · exact .inl ⟨h, fun _ _ e => .same e⟩
  · exact .inr ⟨b, b', h, h', hl, fun fr fr' e e' => .spelled (by rw [e]; exact h1) (by rw [e']; exact h2) (by rw [e]; exact hs)
      (by rw [e']; exact hs') ⟨0, hs.starts.1, by rw [e]; exact hs.starts.2, by rw [e']; exact hs'.starts.2⟩⟩

theorem Matched.facade {Q : Frame → Frame → Nat → Nat → Prop} (h : ∀ m, Matched Q m (φ m)) : Facade φ := fun m => (h m).1

theorem release_withMethods (n : Nat) (v : VM) :
    release cfg n (v.withMethods φ) = (do let v' ← release cfg n v; pure (v'.withMethods φ)) := by
  unfold release
  show (usub cfg 64 v.stack.slots.length v.allocated >>= _) = _
  cases usub cfg 64 v.stack.slots.length v.allocated <;> rfl

theorem find_withMethods (l : List AssemblyRec) (i : Nat) :
    (l.map (·.withMethods φ)).find? (·.id = i) = (l.find? (·.id = i)).map (·.withMethods φ) := by
  rw [List.find?_map]
  rfl

theorem invoke_concur {Q : Frame → Frame → Nat → Nat → Prop} {m m' : MethodRec} (hm : Matched Q m m')
    (ih : ∀ fr fr' n n', Twins φ fr fr' → Q fr fr' n n' →
      Concur φ fuel (fun k => loop cfg ops tf k fr n) fun k => loop cfg ops tf k fr' n') (params : Region) :
    Concur φ fuel (fun k => invoke cfg (loop cfg ops tf k) m params) fun k => invoke cfg (loop cfg ops tf k) m' params := by
  obtain ⟨⟨hdt, hrt, -⟩, hm⟩ := hm
  cases himpl : m.impl with
  | none =>
    have h' : m'.impl = .none := by
      rcases hm with ⟨h, -⟩ | ⟨b, b', h, -⟩
      · rw [h, himpl]
      · rw [himpl] at h; cases h
    unfold invoke
    rw [himpl, h']
    exact .blind (Blind.lift _)
  | internal f =>
    have h' : m'.impl = .internal f := by
      rcases hm with ⟨h, -⟩ | ⟨b, b', h, -⟩
      · rw [h, himpl]
      · rw [himpl] at h; cases h
    unfold invoke
    rw [himpl, h']
    exact .blind (Blind.callNative _ _)
  | il body =>
    obtain ⟨body', h', hlen, hpair⟩ : ∃ body', m'.impl = .il body' ∧ body'.locals.length = body.locals.length ∧
        ∀ fr fr' : Frame, fr.code = body.code → fr'.code = body'.code → Q fr fr' 0 0 := by
      rcases hm with ⟨h, hq⟩ | ⟨b, b', h, h', hl, hq⟩
      · exact ⟨body, by rw [h, himpl], rfl, fun fr fr' e e' => hq _ _ (by rw [e, e'])⟩
      · rw [himpl] at h
        cases h
        exact ⟨b', h', hl.symm, hq⟩
    intro v hv
    cases ht : v.world.types[m.declaringType]? with
    | none =>
      refine ⟨0, fun k k' _ _ => ?_⟩
      have ht' : (withMethods φ v.world).types[m'.declaringType]? = none := by
        rw [hdt]; simp [withMethods, ht]
      unfold invoke
      rw [himpl, h']
      simp [X.bind_run, World.typeAt, ht, ht', VM.withMethods]
    | some t =>
    have ht' : (v.withMethods φ).world.types[m'.declaringType]? = some (t.withMethods φ) := by
      rw [hdt]
      show (v.world.types.map _)[m.declaringType]? = _
      rw [List.getElem?_map, ht]; rfl
    have hfind : (v.withMethods φ).world.assemblies.find? (·.id = (t.withMethods φ).assembly) =
        (v.world.assemblies.find? (·.id = t.assembly)).map (·.withMethods φ) := find_withMethods _ _
    cases ha : v.world.assemblies.find? (·.id = t.assembly) with
    | none =>
      refine ⟨0, fun k k' _ _ => ?_⟩
      rw [ha] at hfind
      unfold invoke
      rw [himpl, h']
      simp [X.bind_run, World.typeAt, ht, ht', ha, hfind]
    | some asm =>
    rw [ha] at hfind
    have hbl := Blind.stackAlloc (φ := φ) body.locals.length { v with allocated := 0 }
    rcases hal : stackAlloc body.locals.length { v with allocated := 0 } with ⟨r, v1⟩
    rw [hal] at hbl
    have hbl' : stackAlloc body'.locals.length { v.withMethods φ with allocated := 0 } = (r, v1.withMethods φ) := by
      rw [hlen]; exact hbl
    cases r with
    | ok reg =>
      dsimp only at hv
      rw [invoke_run (loop_free _ _ _ _) himpl ht ha hal, invoke_run (loop_free _ _ _ _) h' ht' hfind hbl'] at hv
      dsimp only at hv
      obtain ⟨N, hN⟩ := ih { method := m, assembly := asm, code := body.code, locals := reg, params }
        { method := m', assembly := asm.withMethods φ, code := body'.code, locals := reg, params } 0 0
        ⟨hrt, rfl, rfl, rfl⟩ (hpair _ _ rfl rfl) v1 hv
      refine ⟨N, fun k k' g1 g2 => ?_⟩
      dsimp only
      rw [invoke_run (loop_free _ _ _ _) himpl ht ha hal, invoke_run (loop_free _ _ _ _) h' ht' hfind hbl']
      dsimp only
      have hN := hN k k' g1 g2
      dsimp only at hN
      rw [hN.2]
      exact ⟨hN.1, rfl⟩
    | _ =>
      refine ⟨0, fun k k' _ _ => ?_⟩
      dsimp only at hv ⊢
      rw [invoke_il himpl ht ha, invoke_il h' ht' hfind] at hv ⊢
      unfold X.finally' at hv ⊢
      rw [X.bind_run, X.bind_run, hal, hbl'] at hv ⊢
      dsimp only at hv ⊢
      rw [release_withMethods] at hv ⊢
      have e : (v.withMethods φ).allocated = v.allocated := rfl
      rw [e] at hv ⊢
      cases hrel : release cfg v.allocated v1 with
      | _ =>
        first
        | (refine ⟨?_, rfl⟩; intro h; cases h; done)
        | (rw [hrel] at hv; rcases hv with hv | hv <;> exact absurd rfl hv)

theorem callMethod_concur {Q : Frame → Frame → Nat → Nat → Prop} (hφ : ∀ m, Matched Q m (φ m))
    (ih : ∀ fr fr' n n', Twins φ fr fr' → Q fr fr' n n' →
      Concur φ fuel (fun k => loop cfg ops tf k fr n) fun k => loop cfg ops tf k fr' n') (ht : Twins φ fr fr') (t : Token) :
    Concur φ fuel (fun k => callMethod cfg (loop cfg ops tf k) fr t) fun k => callMethod cfg (loop cfg ops tf k) fr' t := by
  unfold callMethod
  rw [ht.assembly, resolveMethod_withMethods]
  cases fr.assembly.resolveMethod cfg t with
  | ok m =>
    cases m with
    | none => exact .blind (x := (liftM (Res.err "Cannot find method for metadata token" : Res Unit) : X Unit)) (Blind.lift _)
    | some m =>
      obtain ⟨-, -, h3, h4⟩ := Matched.facade hφ m
      show Concur φ fuel (fun k => (do
        let params ← stackAlloc (if m.isStatic then m.params.length else m.params.length + 1)
        popInto params (if m.isStatic then m.params.length else m.params.length + 1)
        match ← invoke cfg (loop cfg ops tf k) m params with
        | some a => push a
        | none => pure ())) fun k => (do
        let params ← stackAlloc (if (φ m).isStatic then (φ m).params.length else (φ m).params.length + 1)
        popInto params (if (φ m).isStatic then (φ m).params.length else (φ m).params.length + 1)
        match ← invoke cfg (loop cfg ops tf k) (φ m) params with
        | some a => push a
        | none => pure ())
      rw [h3, h4]
      refine .bind (.const _) (.const _) (.blind (Blind.stackAlloc _)) fun r =>
        .bind (.const _) (.const _) (.blind (Blind.popInto _ _)) fun _ =>
        .bind (.invoke _ _) (.invoke _ _) (invoke_concur (hφ m) ih r) fun a => ?_
      cases a with
      | some a => exact .blind (Blind.push a)
      | none => exact .blind (Blind.pure ())
  | err m => exact .blind (x := (liftM (Res.err m : Res Unit) : X Unit)) (Blind.lift _)
  | panic => exact .blind (x := (liftM (Res.panic : Res Unit) : X Unit)) (Blind.lift _)
  | ub => exact .blind (x := (liftM (Res.ub : Res Unit) : X Unit)) (Blind.lift _)
  | timeout => exact .blind (x := (liftM (Res.timeout : Res Unit) : X Unit)) (Blind.lift _)

theorem InStep.mono {P Q : Nat → Nat → Prop} {x x' : X Action} (h : InStep φ P x x') (hPQ : ∀ n n', P n n' → Q n n') :
    InStep φ Q x x' := by
  intro v
  obtain ⟨h1, h2⟩ := h v
  refine ⟨h1, ?_⟩
  generalize (x v).1 = r, (x' (v.withMethods φ)).1 = r' at h2 ⊢
  cases h2 with
  | next h => exact .next (hPQ _ _ h)
  | ret a => exact .ret a
  | call t a h => exact .call t a (hPQ _ _ h)
  | err m => exact .err m
  | panic => exact .panic
  | ub => exact .ub
  | timeout => exact .timeout

theorem loop_concur {ok : Bytes → Prop} (hok : ∀ l, ok l → ¬ Wide l) (hφ : ∀ m, Respelled ok m (φ m)) (fuel : Nat) :
    ∀ fr fr' n n', Twins φ fr fr' → Paired ok fr fr' n n' →
      Concur φ fuel (fun k => loop cfg ops tf k fr n) fun k => loop cfg ops tf k fr' n' := by
  induction fuel with
  | zero => exact fun _ _ _ _ _ _ _ hv => by rcases hv with hv | hv <;> exact absurd rfl hv
  | succ fuel ih =>
    intro fr fr' n n' ht hp
    have hgo := fun {n q : Nat} => step_concur (n := n) (q := q) ih (fun t => callMethod_concur (fun m => (hφ m).matched) ih ht t) ht
    cases hp with
    | same hc =>
      exact hgo ((step_same hc (Matched.facade fun m => (hφ m).matched) ht n).mono fun a b e => by subst e; exact .same hc)
    | @spelled p addr addr' _ _ hl hl' hs hs' hn =>
      obtain ⟨k, hk, h1, h2⟩ := hn
      obtain ⟨i, hi⟩ : ∃ i, addr k = n + i := ⟨addr k - n, by have := h1.1; omega⟩
      obtain ⟨j, hj⟩ : ∃ j, addr' k = n' + j := ⟨addr' k - n', by have := h2.1; omega⟩
      exact (hgo ((step_line (cfg := cfg) (ops := ops) (tf := tf) hok (Matched.facade fun m => (hφ m).matched) ht hl hl' hs hs' hk).mono
        fun a b e => .spelled hl hl' hs hs' e)).shift (fun m v => loop_nops m i h1 hi v)
        (fun m v => loop_nops m j h2 hj v) (.loop _ _) (.loop _ _)

/-- What the host sees. -/
theorem hostExecute_concur {Q : Frame → Frame → Nat → Nat → Prop} {m m' : MethodRec} {w : World} {params : List Value} (hm : Matched Q m m')
    (ih : ∀ fuel fr fr' n n', Twins φ fr fr' → Q fr fr' n n' →
      Concur φ fuel (fun k => loop cfg ops tf k fr n) fun k => loop cfg ops tf k fr' n') :
    ((∃ fuel, (hostExecute cfg ops tf fuel w m params).1 ≠ .timeout) ↔
      ∃ fuel, (hostExecute cfg ops tf fuel (withMethods φ w) m' params).1 ≠ .timeout) ∧
    ∀ fuel fuel', (hostExecute cfg ops tf fuel w m params).1 ≠ .timeout →
      (hostExecute cfg ops tf fuel' (withMethods φ w) m' params).1 ≠ .timeout →
      hostExecute cfg ops tf fuel' (withMethods φ w) m' params =
        ((hostExecute cfg ops tf fuel w m params).1, (hostExecute cfg ops tf fuel w m params).2.withMethods φ) := by
  have hst : m'.isStatic = m.isStatic := hm.1.2.2.2
  unfold hostExecute
  rw [hst]
  split
  · dsimp only
    have key := fun fuel => invoke_concur (cfg := cfg) (ops := ops) (tf := tf) (fuel := fuel) (φ := φ) hm
      (ih fuel) .host { world := w, host := params }
    have hx : Mono fun k => invoke cfg (loop cfg ops tf k) m .host := .invoke _ _
    have hy : Mono fun k => invoke cfg (loop cfg ops tf k) m' .host := .invoke _ _
    have e : VM.withMethods φ { world := w, host := params } = { world := withMethods φ w, host := params } := rfl
    have hr : ∀ r : Res (Option Value), hostResult r ≠ .timeout ↔ r ≠ .timeout := by
      intro r
      unfold hostResult
      split <;> simp
    simp only [hr]
    rw [e] at key
    refine ⟨⟨?_, ?_⟩, fun fuel fuel' h h' => ?_⟩
    · rintro ⟨fuel, h⟩
      obtain ⟨N, hN⟩ := key fuel (Or.inl h)
      have := hN N N (by omega) (by omega)
      dsimp only at this
      exact ⟨N, by rw [this.2]; exact this.1⟩
    · rintro ⟨fuel, h⟩
      obtain ⟨N, hN⟩ := key fuel (Or.inr h)
      exact ⟨N, (hN N N (by omega) (by omega)).1⟩
    · obtain ⟨N, hN⟩ := key fuel (Or.inl h)
      have h1 := hx fuel (N + fuel) (by omega) _ h
      have h2 := hy fuel' (N + fuel') (by omega) _ h'
      have h3 := hN (N + fuel) (N + fuel') (by omega) (by omega)
      dsimp only at h1 h2 h3
      rw [← h2, ← h1, h3.2]
  · exact ⟨⟨fun ⟨n, h⟩ => ⟨n, h⟩, fun ⟨n, h⟩ => ⟨n, h⟩⟩, fun _ _ _ _ => rfl⟩

end Clr
