import Verif.Lemmas.Plain
/-! # Typed instructions (for C73) -/

namespace Clr

variable {cfg : Cfg} {ops : FloatOps} {tf : Nat} {fr : Frame} {ip : Nat} {w : World} {v v' : VM} {bs bs' : List Block} {T : Prop}

/-- The name and the width of the numeric types. -/
def Ty.stored : Ty → Option (Name × Nat)
  | .i4 => some ("System.Int32".toList, 4)
  | .i8 => some ("System.Int64".toList, 8)
  | .r4 => some ("System.Single".toList, 4)
  | .r8 => some ("System.Double".toList, 8)
  | _ => none

/-- The tokens of an assembly stand for what `env` says: methods of the program, constructors of classes that have a size,
numeric fields that lie inside every object of their class, literals that are text, and the type `System.Int32`. -/
structure Links (cfg : Cfg) (tf : Nat) (w : World) (good : MethodRec → MethodTy → Prop) (asm : AssemblyRec) (env : Env) :
    Prop where
  methods : ∀ t s, env.methods t = some s → ∃ m, asm.resolveMethod cfg ⟨t⟩ = .ok (some m) ∧ good m s
  ctors : ∀ t c ps, env.ctors t = some (c, ps) → ∃ m size, asm.resolveMethod cfg ⟨t⟩ = .ok (some m) ∧
    good m ⟨.obj c :: ps, none⟩ ∧ m.declaringType = c ∧ m.params.length = ps.length ∧
    typeSize cfg w tf c = .ok size ∧ size < 2 ^ 32
  fields : ∀ t c τ, env.fields t = some (c, τ) → ∃ f tr n, asm.resolveField cfg ⟨t⟩ = .ok (some f) ∧
    w.types[f.fieldType]? = some tr ∧ τ.stored = some (tr.fullName, n) ∧
    ∀ d size, Derives w d c → typeSize cfg w tf d = .ok size → f.offset + n ≤ size
  literals : ∀ t, env.literals t = true → ∃ us s ty tr, getString cfg asm.userStringData ⟨t⟩ = .ok (some us) ∧
    us.length < 2 ^ 32 ∧ (∀ u ∈ us, u < 0x10000) ∧ fromUtf16 us = some s ∧
    w.getType "System.String".toList = some ty ∧ w.types[ty]? = some tr
  intType : ∀ t, env.intType t = true → ∃ ps tr, asm.resolveType cfg ⟨t⟩ = .ok (some ps.int) ∧ w.primitives = some ps ∧
    w.types[ps.int]? = some tr ∧ tr.id < 2 ^ 32 ∧ typeSize cfg w tf ps.int = .ok 4

/-- The memory is as at the start, apart from well-formed objects. -/
structure Calm (cfg : Cfg) (tf : Nat) (w : World) (bs : List Block) (v : VM) : Prop where
  heap : HeapOk cfg tf w v.heap bs
  gen : v.stack.gen = 0
  cap : v.stack.cap = 1024
  fits : 16 * v.stack.slots.length ≤ 1024
  world : Evolves w v.world

/-- A slice whose values are related to a list. -/
structure Slots {β : Type} (v : VM) (r : Region) (R : Value → β → Prop) (l : List β) : Prop where
  usable : ∀ i, i < l.length → Usable v r i
  holds : ∀ i t, l[i]? = some t → ∃ a, r.at v i = some a ∧ R a t

/-- A local has a type, if one is known. -/
def LocalTy (w : World) (bs : List Block) (a : Value) : Option Ty → Prop
  | some t => HasTy w bs a t
  | none => True

/-- The values of a frame have the types `σ`. -/
structure StateOk (cfg : Cfg) (tf : Nat) (w : World) (fr : Frame) (bs : List Block) (rest : List Value) (σ : Shape) (v : VM) :
    Prop extends Calm cfg tf w bs v where
  stack : ∃ vals, v.operands = vals ++ rest ∧ All2 (HasTy w bs) vals σ.stack
  locals : Slots v fr.locals (LocalTy w bs) σ.locals
  args : Slots v fr.params (HasTy w bs) σ.args
  apart : Apart fr.locals fr.params

theorem LocalTy.ext (he : Ext w bs bs') {a : Value} {t : Option Ty} (h : LocalTy w bs a t) : LocalTy w bs' a t := by
  cases t with
  | none => trivial
  | some t => exact HasTy.ext he h

theorem LocalTy.le {a : Value} {s t : Option Ty} (h : LocalTy w bs a s) (hl : LocalLe (Derives w) s t) : LocalTy w bs a t := by
  cases hl with
  | none => trivial
  | some hl => exact HasTy.le h hl

theorem usable_same {r : Region} {i : Nat} (hs : v'.stack = v.stack) (hh : v'.host = v.host) (h : Usable v r i) : Usable v' r i := by
  cases r <;> simp only [Usable, hs, hh] at h ⊢ <;> exact h

theorem at_same {r : Region} {i : Nat} (hs : v'.stack = v.stack) (hh : v'.host = v.host) : r.at v' i = r.at v i := by
  cases r <;> simp only [Region.at, hs, hh]

theorem Slots.same {β : Type} {r : Region} {R R' : Value → β → Prop} {l : List β} (h : Slots v r R l) (hs : v'.stack = v.stack)
    (hh : v'.host = v.host) (hR : ∀ a t, R a t → R' a t) : Slots v' r R' l := by
  refine ⟨fun i hi => usable_same hs hh (h.usable i hi), fun i t ht => ?_⟩
  obtain ⟨a, h1, h2⟩ := h.holds i t ht
  exact ⟨a, by rw [at_same hs hh]; exact h1, hR a t h2⟩

theorem Slots.le {β : Type} {r : Region} {R : Value → β → Prop} {L : β → β → Prop} {l l' : List β} (h : Slots v r R l)
    (hl : All2 L l l') (hR : ∀ a s t, R a s → L s t → R a t) : Slots v r R l' := by
  refine ⟨fun i hi => h.usable i (by rw [hl.length]; exact hi), fun i t ht => ?_⟩
  obtain ⟨s, h1, h2⟩ := hl.get ht
  obtain ⟨a, h3, h4⟩ := h.holds i s h1
  exact ⟨a, h3, hR a s t h4 h2⟩

theorem All2.comp {R : Value → Ty → Prop} {L : Ty → Ty → Prop} (hR : ∀ a s t, R a s → L s t → R a t) {l : List Value} {s t : List Ty}
    (h : All2 R l s) (hl : All2 L s t) : All2 R l t := by
  induction h generalizing t with
  | nil => cases hl; exact .nil
  | cons h1 _ ih => cases hl with | cons h2 h3 => exact .cons (hR _ _ _ h1 h2) (ih h3)

theorem StateOk.le {rest : List Value} {σ τ : Shape} (h : StateOk cfg tf w fr bs rest σ v) (hl : σ.Le (Derives w) τ) :
    StateOk cfg tf w fr bs rest τ v := by
  obtain ⟨vals, h1, h2⟩ := h.stack
  exact { h.toCalm with
    stack := ⟨vals, h1, All2.comp (R := HasTy w bs) (fun _ _ _ h k => HasTy.le h k) h2 hl.stack⟩
    locals := h.locals.le hl.locals fun _ _ _ h k => LocalTy.le h k
    args := h.args.le hl.args fun _ _ _ h k => HasTy.le h k
    apart := h.apart }

/-- Changes to the heap, the registry and the evaluation stack. -/
theorem StateOk.change {rest : List Value} {σ : Shape} {l : List Ty} {vals : List Value} (h : StateOk cfg tf w fr bs rest σ v)
    (hc : Calm cfg tf w bs' v') (he : Ext w bs bs') (hs : v'.stack = v.stack) (hh : v'.host = v.host)
    (ho : v'.operands = vals ++ rest) (hv : All2 (HasTy w bs') vals l) :
    StateOk cfg tf w fr bs' rest { σ with stack := l } v' :=
  { hc with
    stack := ⟨vals, ho, hv⟩
    locals := h.locals.same hs hh fun _ _ => LocalTy.ext he
    args := h.args.same hs hh fun _ _ => HasTy.ext he
    apart := h.apart }

/-- Changes to the evaluation stack only. -/
theorem StateOk.operands {rest : List Value} {σ : Shape} {l : List Ty} {vals : List Value} (h : StateOk cfg tf w fr bs rest σ v)
    (hv : All2 (HasTy w bs) vals l) :
    StateOk cfg tf w fr bs rest { σ with stack := l } { v with operands := vals ++ rest } :=
  h.change ⟨h.heap, h.gen, h.cap, h.fits, h.world⟩ (.refl _) rfl rfl rfl hv

theorem Calm.put {r : Region} {i : Nat} {a : Value} (h : Calm cfg tf w bs v) : Calm cfg tf w bs (r.put v a i) := by
  cases r with
  | host => exact ⟨h.heap, h.gen, h.cap, h.fits, h.world⟩
  | slots g b c => exact ⟨h.heap, h.gen, h.cap, by simpa [Region.put] using h.fits, h.world⟩

theorem operands_put {r : Region} {i : Nat} {a : Value} : (r.put v a i).operands = v.operands := by cases r <;> rfl

theorem Apart.symm {r s : Region} (h : Apart r s) : Apart s r := by
  cases r <;> cases s <;> simp only [Apart] at h ⊢
  omega

theorem Slots.put {β : Type} {r : Region} {R : Value → β → Prop} {l : List β} (h : Slots v r R l) {i : Nat} {a : Value} {t : β}
    (hi : i < l.length) (ha : R a t) : Slots (r.put v a i) r R (l.set i t) := by
  refine ⟨fun j hj => (h.usable j (by simpa using hj)).put, fun j u hu => ?_⟩
  have hj : j < l.length := by simpa using (List.getElem?_eq_some_iff.1 hu).1
  rw [at_put_same (h.usable i hi) (h.usable j hj)]
  by_cases hij : i = j
  · subst hij
    rw [List.getElem?_set_self hi] at hu
    cases hu
    exact ⟨a, if_pos rfl, ha⟩
  · rw [List.getElem?_set_ne hij] at hu
    rw [if_neg hij]
    exact h.holds j u hu

theorem Slots.other {β γ : Type} {r s : Region} {R : Value → β → Prop} {Q : Value → γ → Prop} {l : List β} {k : List γ}
    (h : Slots v r R l) (g : Slots v s Q k) {i : Nat} {a : Value} (hi : i < l.length) (ha : Apart r s) :
    Slots (r.put v a i) s Q k := by
  refine ⟨fun j hj => (g.usable j hj).put, fun j u hu => ?_⟩
  have hj := (List.getElem?_eq_some_iff.1 hu).1
  rw [at_put_apart (h.usable i hi) (g.usable j hj) ha]
  exact g.holds j u hu

theorem StateOk.pop {rest : List Value} {σ : Shape} {t : Ty} {ts : List Ty} (h : StateOk cfg tf w fr bs rest σ v)
    (hσ : σ.stack = t :: ts) : ∃ a vals, v.operands = a :: (vals ++ rest) ∧ HasTy w bs a t ∧ All2 (HasTy w bs) vals ts := by
  obtain ⟨vals, h1, h2⟩ := h.stack
  rw [hσ] at h2
  obtain ⟨a, r, rfl, h3, h4⟩ := h2.one
  exact ⟨a, r, h1, h3, h4⟩

theorem StateOk.stloc {rest : List Value} {σ : Shape} {t : Ty} {ts : List Ty} {i : Nat} (h : StateOk cfg tf w fr bs rest σ v)
    (hσ : σ.stack = t :: ts) (hi : i < σ.locals.length) :
    Ending T (fun a v' => (∃ n, a = .next n) ∧ StateOk cfg tf w fr bs rest { σ with stack := ts, locals := σ.locals.set i (some t) } v')
      (storeAt fr.locals i ip v) := by
  obtain ⟨a, vals, ho, ha, hv⟩ := h.pop hσ
  have h' := h.operands hv
  rw [storeSlot_ok ho (h.locals.usable i hi)]
  refine .ok ⟨⟨_, rfl⟩, ?_⟩
  exact { h'.toCalm.put with
    stack := ⟨vals, operands_put, hv⟩
    locals := h'.locals.put hi ha
    args := h'.locals.other h'.args hi h.apart
    apart := h.apart }

theorem StateOk.starg {rest : List Value} {σ : Shape} {t : Ty} {ts : List Ty} {i : Nat} (h : StateOk cfg tf w fr bs rest σ v)
    (hσ : σ.stack = t :: ts) (hi : i < σ.args.length) :
    Ending T (fun a v' => (∃ n, a = .next n) ∧ StateOk cfg tf w fr bs rest { σ with stack := ts, args := σ.args.set i t } v')
      (storeAt fr.params i ip v) := by
  obtain ⟨a, vals, ho, ha, hv⟩ := h.pop hσ
  have h' := h.operands hv
  rw [storeSlot_ok ho (h.args.usable i hi)]
  refine .ok ⟨⟨_, rfl⟩, ?_⟩
  exact { h'.toCalm.put with
    stack := ⟨vals, operands_put, hv⟩
    locals := h'.args.other h'.locals hi h.apart.symm
    args := h'.args.put hi ha
    apart := h.apart }

theorem StateOk.load {β : Type} {r : Region} {R : Value → β → Prop} {l : List β} {i : Nat} {t : β} {u : Ty}
    {rest : List Value} {σ : Shape} (h : StateOk cfg tf w fr bs rest σ v) (hr : Slots v r R l) (hi : l[i]? = some t)
    (hR : ∀ a, R a t → HasTy w bs a u) :
    Ending T (fun a v' => (∃ n, a = .next n) ∧ StateOk cfg tf w fr bs rest { σ with stack := u :: σ.stack } v')
      (loadAt' r i ip v) := by
  obtain ⟨a, h1, h2⟩ := hr.holds i t hi
  rw [loadSlot_ok (hr.usable i (List.getElem?_eq_some_iff.1 hi).1) h1]
  obtain ⟨vals, h3, h4⟩ := h.stack
  refine .ok ⟨⟨_, rfl⟩, ?_⟩
  have := h.operands (vals := a :: vals) (.cons (hR a h2) h4)
  rw [h3]
  exact this

theorem Calm.new {τ : Ty} {p : Ptr} (h : Calm cfg tf w bs v) (hn : New cfg tf w v bs τ p v') :
    ∃ bs', Ext w bs bs' ∧ Calm cfg tf w bs' v' ∧ HasTy w bs' (.object p) τ ∧ v'.stack = v.stack ∧ v'.host = v.host ∧
      v'.operands = v.operands := by
  obtain ⟨b, h1, h2, h3, h4⟩ := hn
  have e1 : v'.stack = v.stack := by rw [h3]
  refine ⟨_, .append bs b, ⟨h1, ?_, ?_, ?_, h.world.trans h4⟩, h2, e1, by rw [h3], by rw [h3]⟩
  · rw [e1]; exact h.gen
  · rw [e1]; exact h.cap
  · rw [e1]; exact h.fits

theorem PrimitivesOk.evolves {w' : World} (h : PrimitivesOk w) (he : Evolves w w') : PrimitivesOk w' := by
  obtain ⟨ps, h1, h2⟩ := h
  refine ⟨ps, by rw [he.primitives]; exact h1, ?_⟩
  rw [← h2]
  refine List.map_congr_left fun t ht => ?_
  have hm : w.types[t]?.map (·.fullName) ∈ numericWidths.map (some ·.1) := by
    rw [← h2]; exact List.mem_map_of_mem ht
  cases hx : w.types[t]? with
  | some r => rw [he.typeAt hx]
  | none =>
    rw [hx] at hm
    simp [numericWidths] at hm

/-- The kind of the fields of a type. -/
theorem fieldKind_stored (hp : PrimitivesOk w) {ps : Primitives} (hps : w.primitives = some ps) {τ : Ty} {n : Name} {k : Nat}
    (h : τ.stored = some (n, k)) : ∃ mk, fieldKind w n (fieldKinds ps) = .ok (k, mk) ∧ ∀ x, Num (mk x) τ := by
  obtain ⟨ps', h1, h2⟩ := hp.kinds
  rw [hps] at h1; cases h1
  rw [h2]
  cases τ <;> simp only [Ty.stored, Option.some.injEq, Prod.mk.injEq, reduceCtorEq] at h <;> obtain ⟨rfl, rfl⟩ := h <;>
    exact ⟨_, rfl, fun _ _ _ => trivial⟩

theorem HasTy.bytes {a : Value} {τ : Ty} {n : Name} {k : Nat} (h : HasTy w bs a τ) (hτ : τ.stored = some (n, k)) :
    ∃ m, valueBytes a = .ok m ∧ m.length = k := by
  cases τ <;> simp only [Ty.stored, Option.some.injEq, Prod.mk.injEq, reduceCtorEq] at hτ <;> obtain ⟨-, rfl⟩ := hτ
  · obtain ⟨x, rfl⟩ := h.i4; exact ⟨_, rfl, by simp⟩
  · obtain ⟨x, rfl⟩ := h.i8; exact ⟨_, rfl, by simp⟩
  · obtain ⟨x, rfl⟩ := h.r4; exact ⟨_, rfl, by simp⟩
  · obtain ⟨x, rfl⟩ := h.r8; exact ⟨_, rfl, by simp⟩

theorem asIndex_small {x : BitVec 32} (h : 0 ≤ x.toInt) : asIndex x < 2 ^ 31 := by
  have h1 := asIndex_eq h
  have h2 := BitVec.two_mul_toInt_lt (x := x)
  omega

theorem asIndex_large {x : BitVec 32} (h : x.toInt < 0) : 2 ^ 63 ≤ asIndex x := by
  unfold asIndex
  have h1 := BitVec.toInt_signExtend_of_le (x := x) (show 32 ≤ 64 by decide)
  have h2 := BitVec.toInt_eq_toNat_cond (x.signExtend 64)
  have h3 := (x.signExtend 64).isLt
  split at h2 <;> omega

/-- Opcodes that the interpreter does not follow, or that are shorter than they look. -/
theorem opcodes_ok : (encodings.filter Encoding.isRight).all (fun e =>
    !([0xfe, 0x09] : Bytes).isPrefixOf e.opcode && !([0xfe, 0x0b] : Bytes).isPrefixOf e.opcode && e.opcode ≠ [0xfe] &&
      e.opcode ≠ []) = true := by
  decide +kernel

theorem prefix_pair {a b : UInt8} {x y : Bytes} (h : [a, b] <+: x ++ y) (h1 : ¬ [a, b] <+: x) (h2 : x ≠ [a]) : x = [] := by
  obtain ⟨t, ht⟩ := h
  match x, ht with
  | [], _ => rfl
  | [c], ht =>
    simp only [List.cons_append, List.nil_append, List.cons.injEq] at ht
    exact absurd (by rw [ht.1]) h2
  | c :: d :: x, ht =>
    simp only [List.cons_append, List.nil_append, List.cons.injEq] at ht
    exact absurd ⟨x, by rw [ht.1, ht.2.1]; rfl⟩ h1

/-- The program may be stopped. -/
def Traps (cfg : Cfg) (encs : List Encoding) : Prop := ∃ e ∈ encs, e.mnemonic ∈ trapping cfg.checks

theorem move_out {encs : List Encoding} (hencs : ∀ e ∈ encs, e ∈ rightEncodings)
    (hna : cfg.checks = true ∨ ∀ e ∈ encs, e.mnemonic ≠ "newarr") {good : MethodRec → MethodTy → Prop} {env : Env}
    (hp : PrimitivesOk w) (hlinks : Links cfg tf w good fr.assembly env)
    {e : Encoding} (he : e ∈ encs) {arg : Bytes} (harg : arg.length = e.operand.size)
    (hc : HasAt fr.code ip (e.opcode ++ arg)) {rest : List Value} {σ σ' : Shape} (hm : Move env e arg σ σ')
    (h : StateOk cfg tf w fr bs rest σ v) :
    Ending (Traps cfg encs) (fun a v' => (∃ n, a = .next n) ∧ ∃ bs', Ext w bs bs' ∧ StateOk cfg tf w fr bs' rest σ' v')
      (step cfg ops tf fr ip v) := by
  obtain ⟨he1, he2⟩ := right_isRight (hencs e he)
  obtain ⟨op, hop, hsh⟩ := row_ok he1 he2
  have hru := List.all_eq_true.1 rules_ok e (List.mem_filter.2 ⟨he1, he2⟩)
  simp only [hop, Bool.and_eq_true, Bool.or_eq_true, decide_eq_true_eq, ne_eq, List.all_eq_true] at hru
  obtain ⟨⟨⟨⟨⟨⟨⟨⟨⟨⟨⟨⟨hrules, htr⟩, htr'⟩, hdup⟩, hpop⟩, hldstr⟩, hnewarr⟩, hldelem⟩, hstelem⟩, hldfld⟩, hstfld⟩, -⟩, -⟩ := hru
  have hop9 := List.all_eq_true.1 opcodes_ok e (List.mem_filter.2 ⟨he1, he2⟩)
  simp only [Bool.and_eq_true, Bool.not_eq_true', decide_eq_true_eq, ne_eq] at hop9
  obtain ⟨⟨⟨h9, hb⟩, hfe⟩, hne⟩ := hop9
  have hT : op.traps cfg.checks = true → Traps cfg encs := by
    intro ht
    refine ⟨e, he, ?_⟩
    cases hck : cfg.checks <;> rw [hck] at ht
    · rw [ht] at htr'; exact of_decide_eq_true htr'.symm
    · rw [ht] at htr; exact of_decide_eq_true htr.symm
  have hstep : step cfg ops tf fr ip v = exec cfg ops tf fr op (ip + e.opcode.length) v := step_of_fetch (fetchOp_of hop hc.left) v
  have n9 : ¬ [0xfe, 0x09] <+: e.opcode ++ arg := fun hx =>
    hne (prefix_pair hx (by rw [← List.isPrefixOf_iff_prefix, h9]; simp) hfe)
  have nb : ¬ [0xfe, 0x0b] <+: e.opcode ++ arg := fun hx =>
    hne (prefix_pair hx (by rw [← List.isPrefixOf_iff_prefix, hb]; simp) hfe)
  cases hm with
  | @plain ins outs ts hr hs =>
    rw [hstep]
    obtain ⟨vals, ho, hv⟩ := h.stack
    rw [hs] at hv
    obtain ⟨l, l', rfl, hv1, hv2⟩ := hv.split
    have hmem : (ins, outs) ∈ op.rules := by
      rcases hrules _ hr with hx | hx
      · exact absurd rfl hx
      · simpa using hx
    refine (exec_plain hmem hsh hT (fun hn => ?_) hv1 (rest := l' ++ rest) (by rw [ho]; simp)).weaken ?_
    · have hle := hc.drop.le (by rintro rfl; simp only [List.length_nil] at harg; omega)
      rw [harg] at hle
      exact ⟨_, by unfold fetch; rw [if_pos hle]⟩
    · rintro a v' ⟨hn, vals', rfl, hv'⟩
      refine ⟨hn, bs, .refl _, ?_⟩
      have := h.operands (vals := vals' ++ l') ((hv'.imp fun a t ha => ha w bs).append hv2)
      rw [List.append_assoc] at this
      exact this
  | @dup t ts hm hs =>
    obtain rfl : op = .Dup := by rcases hdup with hx | hx; exact absurd hm hx; exact hx
    rw [hstep]
    obtain ⟨a, vals, ho, ha, hv⟩ := h.pop hs
    show Ending _ _ (doDup _ v)
    unfold doDup peek
    rw [X.view_bind_ok (a := a) (by rw [ho]; rfl)]
    refine .ok ⟨⟨_, rfl⟩, bs, .refl _, ?_⟩
    have := h.operands (vals := a :: a :: vals) (.cons ha (.cons ha hv))
    rw [ho]
    exact this
  | @pop t ts hm hs =>
    obtain rfl : op = .Pop := by rcases hpop with hx | hx; exact absurd hm hx; exact hx
    rw [hstep]
    obtain ⟨a, vals, ho, ha, hv⟩ := h.pop hs
    show Ending _ _ (doPop _ v)
    unfold doPop
    rw [X.bind_ok (pop_cons ho)]
    exact .ok ⟨⟨_, rfl⟩, bs, .refl _, h.operands hv⟩
  | @ldloc i t hl hs =>
    rw [load_run hl n9 hc]
    exact (h.load h.locals hs (fun a ha => ha)).weaken fun a v' hx => ⟨hx.1, bs, .refl _, hx.2⟩
  | @stloc i t ts hl hi hs =>
    rw [store_run hl nb hc]
    exact (h.stloc hs hi).weaken fun a v' hx => ⟨hx.1, bs, .refl _, hx.2⟩
  | @ldarg i t hl hs =>
    rw [load_run hl n9 hc]
    exact (h.load h.args hs (fun a ha => ha)).weaken fun a v' hx => ⟨hx.1, bs, .refl _, hx.2⟩
  | @starg i t ts hl hi hs =>
    rw [store_run hl nb hc]
    exact (h.starg hs hi).weaken fun a v' hx => ⟨hx.1, bs, .refl _, hx.2⟩
  | @ldstr t hm ht ha hlit =>
    obtain rfl : op = .Ldstr := by rcases hldstr with hx | hx; exact absurd hm hx; exact hx
    subst ha
    rw [hstep]
    obtain ⟨us, s, ty, tr, h1, h2, h3, h4, h5, h6⟩ := hlinks.literals t hlit
    show Ending _ _ (doLdstr cfg fr _ v)
    unfold doLdstr
    rw [X.liftM_bind_ok (hc.drop.fetch_leBytes (n := 3) ht), h1, X.liftM_bind_ok rfl]
    simp only [Res.ofOption]
    rw [X.liftM_bind_ok rfl]
    refine Ending.bind (allocString_out h.heap h.world h5 h6 h2 h3 h4) (fun _ => .bind (.push _) fun _ => .pure _) ?_
    intro p v1 _ hnew
    obtain ⟨bs', he', hc', hty, e1, e2, e3⟩ := h.toCalm.new hnew
    obtain ⟨vals, ho, hv⟩ := h.stack
    refine .ok ⟨⟨_, rfl⟩, bs', he', ?_⟩
    exact h.change (vals := .object p :: vals) ⟨hc'.heap, hc'.gen, hc'.cap, hc'.fits, hc'.world⟩ he' e1 e2
      (by rw [e3, ho]; rfl) (.cons hty (hv.imp fun _ _ => HasTy.ext he'))
  | @newarr t ts hm ht ha hty hs =>
    obtain rfl : op = .Newarr := by rcases hnewarr with hx | hx; exact absurd hm hx; exact hx
    subst ha
    rw [hstep]
    obtain ⟨ps, tr, h1, h2, h3, h4, h5⟩ := hlinks.intType t hty
    obtain ⟨a, vals, ho, hx, hv⟩ := h.pop hs
    obtain ⟨x, rfl⟩ := hx.i4
    show Ending _ _ (doNewarr cfg tf fr _ v)
    unfold doNewarr
    rw [X.liftM_bind_ok (hc.drop.fetch_leBytes (n := 3) ht), h1, X.liftM_bind_ok rfl]
    simp only [Res.unwrap]
    rw [X.liftM_bind_ok rfl, X.bind_ok (popInt_ok ho)]
    have h' := h.operands hv
    by_cases hneg : x.toInt < 0
    · have hl := asIndex_large hneg
      have hck : cfg.checks = true := by
        rcases hna with hx | hx
        · exact hx
        · exact absurd hm (hx e he)
      have hmul : umul cfg 64 4 (asIndex x) = .panic := by
        unfold umul
        rw [if_neg (by omega), if_pos hck]
      have hal : allocArray cfg tf ps.int (asIndex x) { v with operands := vals ++ rest } =
          (.panic, { v with operands := vals ++ rest }) := by
        unfold allocArray
        rw [X.view_bind_ok (typeSize_evolves h.world h5), hmul]
        rfl
      rw [X.bind_run, hal]
      exact .inr (hT rfl)
    · refine Ending.bind (allocArray_out (hT rfl) h'.heap h'.world h2 h3 h4 h5 (asIndex_small (by omega)))
        (fun _ => .bind (.push _) fun _ => .pure _) ?_
      intro p v1 _ hnew
      obtain ⟨bs', he', hc', hty, e1, e2, e3⟩ := h'.toCalm.new hnew
      refine .ok ⟨⟨_, rfl⟩, bs', he', ?_⟩
      exact h.change (vals := .object p :: vals) ⟨hc'.heap, hc'.gen, hc'.cap, hc'.fits, hc'.world⟩ he' e1 e2
        (by rw [e3]; rfl) (.cons hty (hv.imp fun _ _ => HasTy.ext he'))
  | @ldelem ts hm hs =>
    obtain rfl : op = .Ldelem_I4 := by rcases hldelem with hx | hx; exact absurd hm hx; exact hx
    rw [hstep]
    obtain ⟨vals, ho, hv⟩ := h.stack
    rw [hs] at hv
    obtain ⟨a, r, rfl, ha, hv1⟩ := hv.one
    obtain ⟨b, r, rfl, hb, hv2⟩ := hv1.one
    clear hv hv1
    have hv := hv2
    simp only [List.cons_append] at ho
    obtain ⟨i, rfl⟩ := ha.i4
    obtain ⟨p, blk, rfl, hg, hat, his⟩ := hb.block rfl
    cases his with
    | @ints id elem n data =>
    have hia := h.heap.intArray h.world hg hat
    show Ending _ _ (doLdelem _ v)
    unfold doLdelem
    rw [X.bind_ok (popInt_ok ho),
      X.bind_ok (popArray_ok (v := { v with operands := .object p :: (r ++ rest) }) (n := n) hia rfl)]
    unfold getInt
    by_cases hi : asIndex i < n
    · obtain ⟨ps, tr, hd, -, -, h3, -, -, -, h7⟩ := hia
      obtain ⟨m, hm⟩ := read_fits (h := v.heap) (p := p) (off := 17 + 4 * asIndex i) (n := 4) (read_inv h3).1 (by omega)
      rw [X.bind_ok (a := BitVec.ofNat 32 (leNat m)) (v' := { v with operands := r ++ rest }) (by
        rw [X.bind_ok (intSlice_ok (v := { v with operands := r ++ rest }) (h.heap.intArray h.world hg hat)), if_pos hi,
          X.bind_ok (peek_read (v := { v with operands := r ++ rest }) hm)]
        rfl)]
      refine .ok ⟨⟨_, rfl⟩, bs, .refl _, ?_⟩
      exact h.operands (vals := .i32 _ :: r) (.cons trivial hv)
    · rw [X.bind_run, X.bind_ok (intSlice_ok (v := { v with operands := r ++ rest }) (h.heap.intArray h.world hg hat)), if_neg hi]
      exact .inr (hT rfl)
  | @stelem ts hm hs =>
    obtain rfl : op = .Stelem_I4 := by rcases hstelem with hx | hx; exact absurd hm hx; exact hx
    rw [hstep]
    obtain ⟨vals, ho, hv⟩ := h.stack
    rw [hs] at hv
    obtain ⟨a, r, rfl, ha, hv1⟩ := hv.one
    obtain ⟨b, r, rfl, hb, hv2⟩ := hv1.one
    obtain ⟨c, r, rfl, hcc, hv3⟩ := hv2.one
    clear hv hv1 hv2
    have hv := hv3
    simp only [List.cons_append] at ho
    obtain ⟨x, rfl⟩ := ha.i4
    obtain ⟨i, rfl⟩ := hb.i4
    obtain ⟨p, blk, rfl, hg, hat, his⟩ := hcc.block rfl
    cases his with
    | @ints id elem n data =>
    have hia := h.heap.intArray h.world hg hat
    show Ending _ _ (doStelem _ v)
    unfold doStelem
    rw [X.bind_ok (popInt_ok ho), X.bind_ok (popInt_ok rfl),
      X.bind_ok (popArray_ok (v := { v with operands := .object p :: (r ++ rest) }) (n := n) hia rfl)]
    unfold setInt
    rw [X.bind_run, X.bind_ok (intSlice_ok (v := { v with operands := r ++ rest }) hia)]
    by_cases hi : asIndex i < n
    · obtain ⟨h', bs', hw, hh', he'⟩ := h.heap.setInt hg hat (m := leBytes 4 x.toNat) hi (by simp)
      rw [if_pos hi, poke_write (v := { v with operands := r ++ rest }) hw]
      refine .ok ⟨⟨_, rfl⟩, bs', he', ?_⟩
      exact h.change (vals := r) ⟨hh', h.gen, h.cap, h.fits, h.world⟩ he' rfl rfl rfl (hv.imp fun _ _ => HasTy.ext he')
    · rw [if_neg hi]
      exact .inr (hT rfl)
  | @ldfld t c ty ts hm ht ha hf hs =>
    obtain rfl : op = .Ldfld := by rcases hldfld with hx | hx; exact absurd hm hx; exact hx
    subst ha
    rw [hstep]
    obtain ⟨f, tr, k, h1, h2, h3, h4⟩ := hlinks.fields t c ty hf
    obtain ⟨a, vals, ho, ha, hv⟩ := h.pop hs
    obtain ⟨p, blk, rfl, hg, hat, his⟩ := ha.block rfl
    cases his with
    | @obj d id _ data hder =>
    have hok : typeSize cfg w tf d = .ok data.length := h.heap.ok _ hat.mem
    have hle := h4 d _ hder hok
    obtain ⟨⟨hd, p1, p2⟩, p3, p4⟩ := h.heap.plain hg hat
    have hpv := hp.evolves h.world
    obtain ⟨ps, hps, -⟩ := hpv.kinds
    obtain ⟨mk, hk, hnum⟩ := fieldKind_stored hpv hps h3
    obtain ⟨m, hr⟩ := read_fits (h := v.heap) (p := p) (off := 5 + f.offset) (n := k) p3 (by omega)
    show Ending _ _ (doLdfld cfg fr _ v)
    unfold doLdfld
    rw [X.liftM_bind_ok (hc.drop.fetch_leBytes (n := 3) ht), h1, X.liftM_bind_ok rfl]
    simp only [Res.unwrap]
    rw [X.liftM_bind_ok rfl, X.bind_ok (pop_cons ho)]
    dsimp only
    rw [X.bind_ok (a := mk (leNat m)) (v' := { v with operands := vals ++ rest }) (by
      rw [getField_reads]
      simp only [p1, World.typeAt, h.world.typeAt h2, hps, hk, hr, Res.unwrap, Res.ok_bind, if_pos p2, Res.pure_eq])]
    refine .ok ⟨⟨_, rfl⟩, bs, .refl _, ?_⟩
    exact h.operands (vals := _ :: vals) (.cons (hnum _ w bs) hv)
  | @stfld t c ty ts hm ht ha hf hs =>
    obtain rfl : op = .Stfld := by rcases hstfld with hx | hx; exact absurd hm hx; exact hx
    subst ha
    rw [hstep]
    obtain ⟨f, tr, k, h1, h2, h3, h4⟩ := hlinks.fields t c ty hf
    obtain ⟨vals, ho, hv⟩ := h.stack
    rw [hs] at hv
    obtain ⟨a, r, rfl, ha, hv1⟩ := hv.one
    obtain ⟨b, r, rfl, hb, hv2⟩ := hv1.one
    clear hv hv1
    have hv := hv2
    simp only [List.cons_append] at ho
    obtain ⟨p, blk, rfl, hg, hat, his⟩ := hb.block rfl
    cases his with
    | @obj d id _ data hder =>
    have hok : typeSize cfg w tf d = .ok data.length := h.heap.ok _ hat.mem
    have hle := h4 d _ hder hok
    obtain ⟨hpl, p3, p4⟩ := h.heap.plain hg hat
    obtain ⟨m, hm1, hm2⟩ := ha.bytes h3
    obtain ⟨h', bs', hw, hh', he'⟩ := h.heap.setObj hg hat (off := f.offset) (m := m) (by omega)
    show Ending _ _ (doStfld cfg fr _ v)
    unfold doStfld
    rw [X.liftM_bind_ok (hc.drop.fetch_leBytes (n := 3) ht), h1, X.liftM_bind_ok rfl]
    simp only [Res.unwrap]
    rw [X.liftM_bind_ok rfl, X.bind_ok (pop_cons ho), X.bind_ok (pop_cons rfl)]
    dsimp only
    rw [X.bind_ok (setField_ok (v := { v with operands := r ++ rest }) hpl hm1 hw)]
    refine .ok ⟨⟨_, rfl⟩, bs', he', ?_⟩
    exact h.change (vals := r) ⟨hh', h.gen, h.cap, h.fits, h.world⟩ he' rfl rfl rfl (hv.imp fun _ _ => HasTy.ext he')

end Clr
