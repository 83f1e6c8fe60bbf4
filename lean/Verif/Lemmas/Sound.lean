import Verif.Lemmas.Typing
/-! # Typed programs (for C73) -/

namespace Clr

variable {cfg : Cfg} {ops : FloatOps} {tf fuel : Nat} {fr : Frame} {ip : Nat} {w : World} {v v' : VM} {bs bs' : List Block} {T : Prop}
variable {encs : List Encoding} {good : MethodRec → MethodTy → Prop}

/-- A program: methods with their types that call only each other, and whose code is typed. -/
def TypedProgram (cfg : Cfg) (tf : Nat) (w : World) (encs : List Encoding) (good : MethodRec → MethodTy → Prop) : Prop :=
  ∀ m s, good m s → m.slots = s.params.length ∧ s.params.length < 2 ^ 57 ∧
    (m.impl = .internal .consoleWrite ∧ s = ⟨[.str], none⟩ ∨
     ∃ body t asm env S, m.impl = .il body ∧ body.code.length < 2 ^ 62 ∧ body.locals.length < 2 ^ 57 ∧
       w.types[m.declaringType]? = some t ∧ w.assemblies.find? (·.id = t.assembly) = some asm ∧
       (s.result = none ∧ IsVoid w m ∨ s.result ≠ none ∧ IsValue w m) ∧ Links cfg tf w good asm env ∧
       Typed encs (Derives w) env s.result body.code S ∧ S 0 ⟨[], List.replicate body.locals.length none, s.params⟩)

/-- The same for a frame. -/
def TypedFrame (cfg : Cfg) (tf : Nat) (w : World) (encs : List Encoding) (good : MethodRec → MethodTy → Prop) (fr : Frame)
    (S : Nat → Shape → Prop) (result : Option Ty) : Prop :=
  fr.code.length < 2 ^ 62 ∧ (result = none ∧ IsVoid w fr.method ∨ result ≠ none ∧ IsValue w fr.method) ∧
    ∃ env, Links cfg tf w good fr.assembly env ∧ Typed encs (Derives w) env result fr.code S

/-- A result has a type. -/
def ResultTy (w : World) (bs : List Block) : Option Value → Option Ty → Prop
  | some a, some t => HasTy w bs a t
  | none, none => True
  | _, _ => False

/-- The end of a method. -/
def Done (cfg : Cfg) (tf : Nat) (w : World) (bs : List Block) (rest : List Value) (result : Option Ty) (r : Option Value) (v : VM) :
    Prop := ∃ bs', Ext w bs bs' ∧ Calm cfg tf w bs' v ∧ v.operands = rest ∧ ResultTy w bs' r result

/-- What a step leaves. -/
def StepOk (cfg : Cfg) (tf : Nat) (w : World) (good : MethodRec → MethodTy → Prop) (fr : Frame) (S : Nat → Shape → Prop)
    (result : Option Ty) (bs : List Block) (rest : List Value) : Action → VM → Prop
  | .next n, v => ∃ bs' σ, Ext w bs bs' ∧ StateOk cfg tf w fr bs' rest σ v ∧ S n σ
  | .ret r, v => Done cfg tf w bs rest result r v
  | .call t after n, v => ∃ (bs' : List Block) (m : MethodRec) (s : MethodTy) (σ : Shape) (ρ : List Ty), Ext w bs bs' ∧ fr.assembly.resolveMethod cfg t = .ok (some m) ∧ good m s ∧
      StateOk cfg tf w fr bs' rest { σ with stack := s.params.reverse ++ ρ } v ∧
      match after with
      | none => Reaches (Derives w) S n { σ with stack := s.result.toList ++ ρ }
      | some o => s.result = none ∧ ∃ τ, HasTy w bs' o τ ∧ Reaches (Derives w) S n { σ with stack := τ :: ρ }

theorem Ending.and {α : Type} {P : α → VM → Prop} {Q : α → Prop} {o : Res α × VM} (h : Ending T P o) (hq : ∀ a, o.1 = .ok a → Q a) :
    Ending T (fun a v => P a v ∧ Q a) o := by
  rcases h with h | h
  · exact .inl h
  · refine .inr ?_
    rcases o with ⟨r, v⟩
    cases r with
    | ok a => exact ⟨h, hq a rfl⟩
    | _ => exact h

theorem Typed.lt (hencs : ∀ e ∈ encs, e ∈ rightEncodings) {env : Env} {result : Option Ty} {code : Bytes} {S : Nat → Shape → Prop}
    (hS : Typed encs (Derives w) env result code S) {t : Nat} {σ : Shape} (h : S t σ) : t < code.length := by
  obtain ⟨e, he, arg, -, hc, -⟩ := hS t σ h
  obtain ⟨h1, h2⟩ := right_isRight (hencs e he)
  have hne : e.opcode ≠ [] := by
    intro h0
    obtain ⟨op, hop, -⟩ := row_ok h1 h2
    rw [h0] at hop; cases hop
  have := hc.left.le hne
  have := List.length_pos_iff.2 hne
  omega

theorem step_typed (hencs : ∀ e ∈ encs, e ∈ rightEncodings) (hna : cfg.checks = true ∨ ∀ e ∈ encs, e.mnemonic ≠ "newarr")
    (hp : PrimitivesOk w) {S : Nat → Shape → Prop} {result : Option Ty} (hfr : TypedFrame cfg tf w encs good fr S result)
    {σ : Shape} (hs : S ip σ) {rest : List Value} (h : StateOk cfg tf w fr bs rest σ v) :
    Ending (Traps cfg encs) (StepOk cfg tf w good fr S result bs rest) (step cfg ops tf fr ip v) := by
  obtain ⟨hl, hk, env, hlinks, hS⟩ := hfr
  obtain ⟨e, he, arg, harg, hc, hcase⟩ := hS ip σ hs
  obtain ⟨he1, he2⟩ := right_isRight (hencs e he)
  obtain ⟨op, hop, hsh⟩ := row_ok he1 he2
  have hmn := List.all_eq_true.1 mnemonics_ok e (List.mem_filter.2 ⟨he1, he2⟩)
  simp only [hop, Option.some.injEq, Bool.and_eq_true, Bool.or_eq_true, decide_eq_true_eq, ne_eq] at hmn
  have hru := List.all_eq_true.1 rules_ok e (List.mem_filter.2 ⟨he1, he2⟩)
  simp only [hop, Bool.and_eq_true, Bool.or_eq_true, decide_eq_true_eq, ne_eq, List.all_eq_true] at hru
  obtain ⟨⟨-, hcall⟩, hnewobj⟩ := hru
  have hstep : step cfg ops tf fr ip v = exec cfg ops tf fr op (ip + e.opcode.length) v := step_of_fetch (fetchOp_of hop hc.left) v
  rcases hcase with ⟨hm, hst⟩ | ⟨hm, t, s, ρ, ht, rfl, hmeth, hst, hn⟩ | ⟨hm, t, c, ps, ρ, ht, rfl, hctor, hst, hn⟩ |
    ⟨σ', hmove, hnext, htgt⟩
  · obtain rfl : op = .Ret := by simpa [hm] using hmn.1.1
    rw [hstep]
    obtain ⟨vals, ho, hv⟩ := h.stack
    rw [hst] at hv
    show Ending _ _ (doRet fr v)
    rcases hk with ⟨rfl, hk⟩ | ⟨hres, hk⟩
    · rw [doRet_void (hk.evolves h.world)]
      obtain rfl := hv.zero
      exact .ok ⟨bs, .refl _, h.toCalm, ho, trivial⟩
    · obtain ⟨τ, rfl⟩ := Option.ne_none_iff_exists'.1 hres
      rw [doRet_value (hk.evolves h.world)]
      obtain ⟨a, r, rfl, ha, hv⟩ := hv.one
      obtain rfl := hv.zero
      refine .ok ⟨bs, .refl _, ⟨h.heap, h.gen, h.cap, h.fits, h.world⟩, by rw [ho]; rfl, ?_⟩
      rw [ho]
      exact ha
  · obtain rfl : op = .Call := by rcases hcall with hx | hx; exact absurd hm hx; exact hx
    rw [hstep]
    obtain ⟨m, h1, h2⟩ := hlinks.methods t s hmeth
    have hol : e.opcode.length = 1 := by
      have := List.all_eq_true.1 effects_ok e (List.mem_filter.2 ⟨he1, he2⟩)
      simp only [hop, Option.bind_some, Bool.and_eq_true, Bool.or_eq_true, decide_eq_true_eq, ne_eq, List.all_eq_true] at this
      have : e.opcode = [0x28] := by simpa [hm] using this.1.2
      rw [this]; rfl
    show Ending _ _ (doCall fr _ v)
    unfold doCall
    rw [X.liftM_bind_ok (hc.drop.fetch_leBytes (n := 3) ht), hol]
    refine .ok ⟨bs, m, s, σ, ρ, .refl _, h1, h2, ?_, hn⟩
    rw [← hst]
    exact h
  · obtain rfl : op = .Newobj := by rcases hnewobj with hx | hx; exact absurd hm hx; exact hx
    rw [hstep]
    obtain ⟨m, size, h1, h2, h3, h4, h5, h6⟩ := hlinks.ctors t c ps hctor
    have hol : e.opcode.length = 1 := by
      have := List.all_eq_true.1 effects_ok e (List.mem_filter.2 ⟨he1, he2⟩)
      simp only [hop, Option.bind_some, Bool.and_eq_true, Bool.or_eq_true, decide_eq_true_eq, ne_eq, List.all_eq_true] at this
      have : e.opcode = [0x73] := by simpa [hm] using this.2
      rw [this]; rfl
    show Ending _ _ (doNewobj cfg tf fr _ v)
    unfold doNewobj
    rw [X.liftM_bind_ok (hc.drop.fetch_leBytes (n := 3) ht), h1, X.liftM_bind_ok rfl]
    simp only [Res.unwrap]
    rw [X.liftM_bind_ok rfl, h3, h4, hol]
    refine Ending.bind (allocObject_out h.heap h.world h5 h6) (fun _ => .bind (.insertBelow ..) fun _ => .pure _) ?_
    intro p v1 _ hnew
    obtain ⟨bs', he', hc', hty, e1, e2, e3⟩ := h.toCalm.new hnew
    obtain ⟨vals, ho, hv⟩ := h.stack
    rw [hst] at hv
    obtain ⟨l, l', rfl, hv1, hv2⟩ := hv.split
    have hll : l.length = ps.length := by rw [hv1.length]; simp
    have hins : insertBelow cfg ps.length (.object p) v1 = (.ok (), { v1 with operands := (l ++ .object p :: l') ++ rest }) := by
      unfold insertBelow X.update
      dsimp only
      rw [usub_ok (by rw [e3, ho]; simp; omega)]
      dsimp only [Res.ok_bind]
      rw [if_pos (by omega), show v1.operands.length - (v1.operands.length - ps.length) = l.length by rw [e3, ho]; simp; omega]
      rw [e3, ho]
      simp
    rw [X.bind_ok hins]
    refine .ok ⟨bs', m, _, σ, ρ, he', h1, h2, ?_, rfl, .obj c, hty, hn⟩
    refine h.change (vals := l ++ .object p :: l') ⟨hc'.heap, hc'.gen, hc'.cap, hc'.fits, hc'.world⟩ he' e1 e2 rfl ?_
    rw [List.reverse_cons, List.append_assoc]
    exact (hv1.imp fun _ _ => HasTy.ext he').append (.cons hty (hv2.imp fun _ _ => HasTy.ext he'))
  · have hmv := move_out (ops := ops) hencs hna hp hlinks he harg hc hmove h
    have hfin : ∀ n, Reaches (Derives w) S n σ' → ∀ v', (∃ bs', Ext w bs bs' ∧ StateOk cfg tf w fr bs' rest σ' v') →
        StepOk cfg tf w good fr S result bs rest (.next n) v' := by
      rintro n ⟨τ, hle, hτ⟩ v' ⟨bs', h1, h2⟩
      exact ⟨bs', τ, h1, h2.le hle, hτ⟩
    cases hb : e.operand.isTarget with
    | false =>
      rw [hb] at hsh
      refine (hmv.and (Q := fun a => a.resumes = none ∨ a.resumes = some (ip + e.opcode.length + e.operand.size))
        (fun a ha => exec_ends hsh v a (by rw [← hstep]; exact ha))).weaken ?_
      rintro a v' ⟨⟨⟨n, rfl⟩, hx⟩, hr⟩
      rcases hr with hr | hr
      · cases hr
      · cases hr
        have h1 : e.mnemonic ≠ "br" := by
          intro h
          obtain rfl : op = .Br := by simpa [h] using hmn.1.2
          simp [Op.shape] at hsh
        have h2 : e.mnemonic ≠ "br.s" := by
          intro h
          obtain rfl : op = .Br_S := by simpa [h] using hmn.2
          simp [Op.shape] at hsh
        have := hnext h1 h2
        rw [List.length_append, harg, ← Nat.add_assoc] at this
        exact hfin _ this _ hx
    | true =>
      rw [hb] at hsh
      have ho : e.operand = .target8 ∨ e.operand = .target32 := by
        revert hb; cases e.operand <;> simp [Operand.isTarget]
      obtain ⟨x, t, rfl, hx, htx, hSt⟩ := htgt ho
      have hpos : 0 < e.operand.size := by rcases ho with h | h <;> rw [h] <;> decide
      have htl : t < fr.code.length := by
        obtain ⟨τ, -, hτ⟩ := hSt
        exact hS.lt hencs hτ
      refine (hmv.and (Q := fun a => ∃ d, fetchInt fr.code (ip + e.opcode.length) e.operand.size = .ok d ∧
          (a = .next (jump (ip + e.opcode.length + e.operand.size) d) ∨
            a = .next (ip + e.opcode.length + e.operand.size) ∧ op ≠ .Br ∧ op ≠ .Br_S))
        (fun a ha => exec_branch hsh v a (by rw [← hstep]; exact ha))).weaken ?_
      rintro a v' ⟨⟨⟨n, rfl⟩, hy⟩, x', hfi, hr⟩
      rw [fetchInt_ok hpos hc.drop hx] at hfi
      cases hfi
      rcases hr with hr | ⟨hr, hbr, hbrs⟩
      · have hj : jump (ip + e.opcode.length + e.operand.size) x = t := by
          unfold jump
          have : (((ip + e.opcode.length + e.operand.size : Nat) : Int) + x) = t := by
            rw [htx]; simp [length_intBytes]; omega
          rw [this, Int.emod_eq_of_lt (by omega) (by omega), Int.toNat_natCast]
        cases hr
        rw [hj]
        exact hfin _ hSt _ hy
      · cases hr
        have := hnext (fun h => hbr (by simpa [h] using hmn.1.2)) (fun h => hbrs (by simpa [h] using hmn.2))
        rw [List.length_append, length_intBytes, ← Nat.add_assoc] at this
        exact hfin _ this _ hy

/-- Code that runs typed frames. -/
def RunsTyped (cfg : Cfg) (tf : Nat) (w : World) (encs : List Encoding) (good : MethodRec → MethodTy → Prop)
    (run : Frame → Nat → X (Option Value)) : Prop :=
  ∀ fr S result ip σ bs rest v, TypedFrame cfg tf w encs good fr S result → S ip σ → StateOk cfg tf w fr bs rest σ v →
    Ending (Traps cfg encs) (Done cfg tf w bs rest result) (run fr ip v)

theorem callNative_typed {params : Region} {rest : List Value} (hc : Calm cfg tf w bs v)
    (ha : Slots v params (HasTy w bs) [.str]) (ho : v.operands = rest) :
    Ending T (Done cfg tf w bs rest none) (callNative .consoleWrite params v) := by
  obtain ⟨a, h1, h2⟩ := ha.holds 0 .str rfl
  obtain ⟨p, blk, rfl, hg, hat, his⟩ := h2.block rfl
  cases his with
  | @str id us =>
  obtain ⟨s, h3, h4, f, h5, h6⟩ := hc.heap.text hg hat
  obtain ⟨b, h7, h8⟩ := readSlot_ok (ha.usable 0 (by simp))
  rw [h1] at h7; cases h7
  show Ending T _ ((readSlot params 0 >>= _) v)
  rw [X.bind_ok h8]
  dsimp only
  rw [X.bind_ok h5, if_neg h6, X.bind_ok h4, h3]
  simp only [Res.unwrap]
  rw [X.liftM_bind_ok rfl]
  refine .ok ⟨bs, .refl _, ⟨hc.heap, hc.gen, hc.cap, hc.fits, ?_⟩, ho, trivial⟩
  exact output_evolves s _ hc.world

/-- The state in which a method starts: typed, unless the stack had to be moved. -/
theorem invoke_start {run : Frame → Nat → X (Option Value)} (hfree : RunsFree run) {m : MethodRec} {body : MethodBody}
    (hi : m.impl = .il body) (hloc : body.locals.length < 2 ^ 57) {t : TypeRec} {asm : AssemblyRec}
    (ht : w.types[m.declaringType]? = some t) (hasm : w.assemblies.find? (·.id = t.assembly) = some asm) {ts : List Ty}
    {params : Region} {rest : List Value} (hc : Calm cfg tf w bs v) (ha : Slots v params (HasTy w bs) ts) (ho : v.operands = rest)
    (hpar : ∀ g b c, params = .slots g b c → b + c ≤ v.stack.slots.length) :
    ∃ (fr : Frame) (v1 : VM), fr.method = m ∧ fr.assembly = asm ∧ fr.code = body.code ∧
      invoke cfg run m params v = ((run fr 0 v1).1, { (run fr 0 v1).2 with
        stack := { (run fr 0 v1).2.stack with slots := (run fr 0 v1).2.stack.slots.take v.stack.slots.length }
        allocated := v.allocated }) ∧
      (v1.stack.gen = v.stack.gen + 1 ∧ v.stack.cap < 16 * (v.stack.slots.length + body.locals.length) ∨
       StateOk cfg tf w fr bs rest ⟨[], List.replicate body.locals.length none, ts⟩ v1) := by
  have hfits := hc.fits
  have hcap := hc.cap
  obtain ⟨r, v1, hal⟩ := stackAlloc_room (v := { v with allocated := 0 }) (n := body.locals.length)
    ⟨by dsimp only; omega, by dsimp only; omega⟩
  refine ⟨{ method := m, assembly := asm, code := body.code, locals := r, params }, v1, rfl, rfl, rfl,
    invoke_run hfree hi (hc.world.typeAt ht) (by rw [hc.world.assemblies]; exact hasm) hal, ?_⟩
  obtain ⟨e1, e2, e3, e4⟩ := stackAlloc_ok hal
  dsimp only at e1 e2 e3 e4
  rcases e4 with ⟨eg, efit, ecap⟩ | ⟨eg, ecap⟩
  · refine .inr ?_
    have c1 : Calm cfg tf w bs v1 := by
      refine ⟨by rw [e2]; exact hc.heap, by rw [eg]; exact hc.gen, by rw [ecap]; exact hc.cap, by omega, ?_⟩
      rw [e2]; exact hc.world
    refine { c1 with stack := ⟨[], by rw [e2]; exact ho, .nil⟩, locals := ?_, args := ?_, apart := ?_ }
    · rw [e1]
      refine ⟨fun i hx => ⟨by simpa using hx, rfl, by rw [e3]; simp⟩, fun i u hu => ?_⟩
      obtain ⟨hlt, hu'⟩ := List.getElem?_eq_some_iff.1 hu
      rw [List.getElem_replicate] at hu'
      subst hu'
      rw [List.length_replicate] at hlt
      refine ⟨.i8 0, ?_, trivial⟩
      simp only [Region.at, e3]
      rw [List.getElem?_append_right (by omega), List.getElem?_replicate, if_pos (by omega)]
    · have hu : ∀ i, i < ts.length → Usable { v with allocated := 0 } params i := fun i hx =>
        usable_same (v := v) rfl rfl (ha.usable i hx)
      refine ⟨fun i hx => ((hu i hx).alloc hal eg).1, fun i u hx => ?_⟩
      obtain ⟨a, h1, h2⟩ := ha.holds i u hx
      refine ⟨a, ?_, h2⟩
      rw [((hu i (List.getElem?_eq_some_iff.1 hx).1).alloc hal eg).2]
      exact h1
    · rw [e1]
      cases params with
      | host => trivial
      | slots g b c => exact .inr (hpar g b c rfl)
  · exact .inl ⟨eg, by rw [e3, List.length_append, List.length_replicate] at ecap; exact ecap⟩

theorem invoke_typed (hprog : TypedProgram cfg tf w encs good) {run : Frame → Nat → X (Option Value)}
    (hrun : RunsTyped cfg tf w encs good run) (hfree : RunsFree run) (hgrow : ∀ fr ip, Grows (run fr ip))
    {m : MethodRec} {s : MethodTy} (hm : good m s) {params : Region} {rest : List Value} (hc : Calm cfg tf w bs v)
    (ha : Slots v params (HasTy w bs) s.params) (ho : v.operands = rest)
    (hpar : ∀ g b c, params = .slots g b c → b + c ≤ v.stack.slots.length) :
    Ending (Traps cfg encs) (Done cfg tf w bs rest s.result) (invoke cfg run m params v) := by
  obtain ⟨-, -, hcase⟩ := hprog m s hm
  rcases hcase with ⟨hi, rfl⟩ | ⟨body, t, asm, env, S, hi, hl, hloc, ht, hasm, hres, hlinks, hS, h0⟩
  · unfold invoke
    rw [hi]
    exact callNative_typed hc ha ho
  · obtain ⟨fr, v1, f1, f2, f3, hinv, hst⟩ := invoke_start (run := run) hfree hi hloc ht hasm hc ha ho hpar
    rw [hinv]
    have hfits := hc.fits
    rcases hst with ⟨eg, -⟩ | hst
    · refine .inl ?_
      have hmv : Moved v1 := .inr (by rw [eg]; omega)
      exact (hgrow fr 0).moved hmv
    · have hfr : TypedFrame cfg tf w encs good fr S s.result := by
        refine ⟨by rw [f3]; exact hl, by rw [f1]; exact hres, env, by rw [f2]; exact hlinks, by rw [f3]; exact hS⟩
      have := hrun fr S s.result 0 _ bs rest v1 hfr h0 hst
      rcases hr : run fr 0 v1 with ⟨o, v2⟩
      rw [hr] at this
      rcases this with this | this
      · exact .inl this
      · refine .inr ?_
        cases o with
        | ok a =>
          obtain ⟨bs', x1, x2, x3, x4⟩ := this
          refine ⟨bs', x1, ⟨x2.heap, x2.gen, x2.cap, ?_, x2.world⟩, x3, x4⟩
          simp only [List.length_take]
          omega
        | _ => exact this

theorem Slots.kept {β : Type} {r : Region} {R R' : Value → β → Prop} {l : List β} (h : Slots v r R l) (hg : v'.stack.gen = v.stack.gen)
    (ht : v'.stack.slots.take v.stack.slots.length = v.stack.slots) (hh : v'.host = v.host) (hR : ∀ a t, R a t → R' a t) :
    Slots v' r R' l := by
  have hlen : v.stack.slots.length ≤ v'.stack.slots.length := by
    have := congrArg List.length ht
    rw [List.length_take] at this
    omega
  refine ⟨fun i hi => ?_, fun i t hi => ?_⟩
  · have := h.usable i hi
    cases r with
    | host => simpa only [Usable, hh] using this
    | slots g b c =>
      obtain ⟨h1, h2, h3⟩ := this
      exact ⟨h1, by rw [hg]; exact h2, by omega⟩
  · obtain ⟨a, h1, h2⟩ := h.holds i t hi
    refine ⟨a, ?_, hR a t h2⟩
    have hu := h.usable i (List.getElem?_eq_some_iff.1 hi).1
    cases r with
    | host => simpa only [Region.at, hh] using h1
    | slots g b c =>
      obtain ⟨h3, -, h4⟩ := hu
      simp only [Region.at] at h1 ⊢
      rw [← h1, ← congrArg (·[b + i]?) ht]
      simp only [List.getElem?_take]
      rw [if_pos (by omega)]

theorem callMethod_typed (hprog : TypedProgram cfg tf w encs good) {run : Frame → Nat → X (Option Value)}
    (hrun : RunsTyped cfg tf w encs good run) (hfree : RunsFree run) (hgrow : ∀ fr ip, Grows (run fr ip))
    {m : MethodRec} {s : MethodTy} (hm : good m s) {t : Token} (hres : fr.assembly.resolveMethod cfg t = .ok (some m))
    {rest : List Value} {σ : Shape} {ρ : List Ty} (h : StateOk cfg tf w fr bs rest { σ with stack := s.params.reverse ++ ρ } v) :
    Ending (Traps cfg encs) (fun _ v' => ∃ bs', Ext w bs bs' ∧
      StateOk cfg tf w fr bs' rest { σ with stack := s.result.toList ++ ρ } v') (callMethod cfg run fr t v) := by
  obtain ⟨hsl, hsmall, -⟩ := hprog m s hm
  obtain ⟨vals, ho, hv⟩ := h.stack
  obtain ⟨l, l', rfl, hv1, hv2⟩ := hv.split
  have hargs : All2 (HasTy w bs) l.reverse s.params := by
    have := hv1.reverse
    rwa [List.reverse_reverse] at this
  have hfits := h.fits
  have hcap := h.cap
  have hgen := h.gen
  obtain ⟨v1, e1, e2, e3, e4⟩ := callMethod_run (run := run) (args := l.reverse) (rest := l' ++ rest) hres (v := v)
    ⟨by omega, by omega⟩ (by rw [hsl, hargs.length]) (by rw [ho]; simp)
  rw [e4]
  have hg2 : ∀ a : Option Value, Grows (match a with | some a => push a | none => pure () : X Unit) := by
    intro a; cases a
    · exact .pure _
    · exact .push _
  rcases e3 with ⟨eg, ecap, efit⟩ | ⟨eg, -⟩
  · have c1 : Calm cfg tf w bs v1 := by
      refine ⟨by rw [e1]; exact h.heap, by rw [eg]; exact h.gen, by rw [ecap]; exact h.cap, ?_, by rw [e1]; exact h.world⟩
      rw [e2, List.length_append, hargs.length, ← hsl]
      omega
    have ha : Slots v1 (.slots v1.stack.gen v.stack.slots.length m.slots) (HasTy w bs) s.params := by
      refine ⟨fun i hi => ⟨by omega, rfl, ?_⟩, fun i u hi => ?_⟩
      · rw [e2, List.length_append, hargs.length, ← hsl]
        exact Nat.le_refl _
      · obtain ⟨a, h1, h2⟩ := hargs.get hi
        refine ⟨a, ?_, h2⟩
        simp only [Region.at, e2]
        rw [List.getElem?_append_right (by omega), Nat.add_sub_cancel_left]
        exact h1
    have hinv := invoke_typed hprog hrun hfree hgrow hm c1 ha (rest := l' ++ rest) (by rw [e1])
      (by rintro g b c hx; cases hx; rw [e2, List.length_append, hargs.length, ← hsl]; exact Nat.le_refl _)
    refine Ending.bind hinv hg2 ?_
    rintro a v2 hrun2 ⟨bs', x1, x2, x3, x4⟩
    have hwhole := invoke_whole (cfg := cfg) (L := v.stack.slots.length) (H := True) hfree m
      (params := .slots v1.stack.gen v.stack.slots.length m.slots) (Nat.le_refl _) (v := v1)
      (by rw [e2]; simp)
    rw [hrun2] at hwhole
    have hlow := hwhole.low
    dsimp only at hlow
    rw [e2, List.take_left' rfl] at hlow
    have hhost : v2.host = v.host := (hwhole.host trivial).trans (by rw [e1])
    have hgen2 : v2.stack.gen = v.stack.gen := x2.gen.trans hgen.symm
    have hkeep : ∀ vals2 τs, All2 (HasTy w bs') vals2 τs → StateOk cfg tf w fr bs' rest { σ with stack := τs }
        { v2 with operands := vals2 ++ rest } := by
      intro vals2 τs hv2
      exact {
        heap := x2.heap, gen := x2.gen, cap := x2.cap, fits := x2.fits, world := x2.world
        stack := ⟨vals2, rfl, hv2⟩
        locals := h.locals.kept hgen2 hlow hhost fun _ _ => LocalTy.ext x1
        args := h.args.kept hgen2 hlow hhost fun _ _ => HasTy.ext x1
        apart := h.apart }
    have hl2 : All2 (HasTy w bs') l' ρ := hv2.imp fun _ _ => HasTy.ext x1
    cases hsr : s.result with
    | none =>
      rw [hsr] at x4
      cases a with
      | some a => exact x4.elim
      | none =>
        refine .ok ⟨bs', x1, ?_⟩
        have := hkeep l' ρ hl2
        rw [← x3] at this
        exact this
    | some τ =>
      rw [hsr] at x4
      cases a with
      | none => exact x4.elim
      | some a =>
        have : push a v2 = (.ok (), { v2 with operands := (a :: l') ++ rest }) := by
          show (Res.ok (), { v2 with operands := a :: v2.operands }) = _
          rw [x3]; rfl
        dsimp only
        rw [this]
        exact .ok ⟨bs', x1, hkeep (a :: l') (τ :: ρ) (.cons x4 hl2)⟩
  · have hmv : Moved v1 := .inr (by rw [eg]; omega)
    refine .inl ?_
    exact (Grows.bind (Grows.invoke hgrow m _) hg2).moved hmv

theorem loop_typed (hencs : ∀ e ∈ encs, e ∈ rightEncodings) (hna : cfg.checks = true ∨ ∀ e ∈ encs, e.mnemonic ≠ "newarr")
    (hp : PrimitivesOk w) (hprog : TypedProgram cfg tf w encs good) (ops : FloatOps) (fuel : Nat) :
    RunsTyped cfg tf w encs good (loop cfg ops tf fuel) := by
  induction fuel with
  | zero => intro fr S result ip σ bs rest v _ _ _; exact .inr trivial
  | succ fuel ih =>
    intro fr S result ip σ bs rest v hfr hs h
    have hloop : ∀ n, Grows (loop cfg ops tf fuel fr n) := fun n => Grows.loop cfg ops tf fuel fr n
    rw [loop]
    refine Ending.bind (step_typed hencs hna hp hfr hs h) (fun a => ?_) fun a v1 _ hx => ?_
    · cases a with
      | next n => exact hloop n
      | ret r => exact .pure _
      | call t after n =>
        refine .bind (Grows.callMethod (fun fr n => Grows.loop cfg ops tf fuel fr n) fr t) fun _ => ?_
        cases after with
        | none => exact hloop n
        | some o => exact .bind (.push _) fun _ => hloop n
    · cases a with
      | next n =>
        obtain ⟨bs', σ', h1, h2, h3⟩ := hx
        refine (ih fr S result n σ' bs' rest v1 hfr h3 h2).weaken ?_
        rintro r v2 ⟨bs2, x1, x2⟩
        exact ⟨bs2, h1.trans x1, x2⟩
      | ret r => exact Ending.ok (P := Done cfg tf w bs rest result) hx
      | call t after n =>
        obtain ⟨bs1, m, s, σ1, ρ, h1, h2, h3, h4, h5⟩ := hx
        dsimp only
        refine Ending.bind (callMethod_typed hprog ih (loop_free cfg ops tf fuel) (fun fr n => Grows.loop cfg ops tf fuel fr n) h3
          h2 h4) (fun _ => ?_) fun _ v2 _ hy => ?_
        · cases after with
          | none => exact hloop n
          | some o => exact .bind (.push _) fun _ => hloop n
        · obtain ⟨bs2, y1, y2⟩ := hy
          have hend : ∀ τ v3, S n τ → StateOk cfg tf w fr bs2 rest τ v3 →
              Ending (Traps cfg encs) (Done cfg tf w bs rest result) (loop cfg ops tf fuel fr n v3) := by
            intro τ v3 hτ hst
            refine (ih fr S result n τ bs2 rest v3 hfr hτ hst).weaken ?_
            rintro r v4 ⟨bs3, x1, x2⟩
            exact ⟨bs3, h1.trans (y1.trans x1), x2⟩
          cases after with
          | none =>
            obtain ⟨τ, hle, hτ⟩ := h5
            exact hend τ v2 hτ (y2.le hle)
          | some o =>
            obtain ⟨hn, υ, hυ, τ, hle, hτ⟩ := h5
            rw [hn] at y2
            obtain ⟨vals, ho, hv⟩ := y2.stack
            dsimp only
            rw [X.bind_ok (v' := { v2 with operands := (o :: vals) ++ rest }) (a := ()) (by
              show (Res.ok (), { v2 with operands := o :: v2.operands }) = _
              rw [ho]; rfl)]
            exact hend τ _ hτ ((y2.operands (vals := o :: vals) (l := υ :: ρ) (.cons (hυ.ext y1) hv)).le hle)

end Clr
