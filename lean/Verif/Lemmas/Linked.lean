import Verif.Lemmas.Follow
import Verif.Props.Calls
/-! # The interpreter follows the abstract machine with objects: calls -/

namespace Clr.Obj

variable {cfg : Cfg} {ops : FloatOps} {tf fuel : Nat} {fr : Frame} {ip k : Nat} {w : World} {v v' : VM} {rest : List Value}
  {offs : Nat → Nat} {s s' : Store} {σ : Act} {fld : Nat → FieldRec} {meth : Nat → MethodRec} {M : Machine}

/-- The method record does what the standard says of the procedure. -/
structure LinkedTo (cfg : Cfg) (tf : Nat) (w : World) (meth : Nat → MethodRec) (fld : Nat → FieldRec) (m : MethodRec) (p : Proc) :
    Prop where
  body : ∃ body t asm, m.impl = .il body ∧ body.code = p.code ∧ body.locals.length = p.locals ∧
    w.types[m.declaringType]? = some t ∧ w.assemblies.find? (·.id = t.assembly) = some asm ∧
    Tokens cfg tf w meth fld asm p
  size : p.code.length < 2 ^ 62
  params : m.slots = p.params
  value : p.returns = true → IsValue w m
  void : p.returns = false → IsVoid w m

/-- The frame runs the procedure. -/
structure FrameOf (cfg : Cfg) (tf : Nat) (w : World) (meth : Nat → MethodRec) (fld : Nat → FieldRec) (fr : Frame) (p : Proc) :
    Prop where
  code : fr.code = p.code
  size : p.code.length < 2 ^ 62
  tokens : Tokens cfg tf w meth fld fr.assembly p
  value : p.returns = true → IsValue w fr.method
  void : p.returns = false → IsVoid w fr.method

/-! ## The store only grows -/

theorem sum_prefix {a b : List Nat} (h : a <+: b) : a.sum ≤ b.sum := by
  obtain ⟨t, rfl⟩ := h
  simp

theorem Grew.cost (h : Grew s.cells s'.cells) : s.cost ≤ s'.cost := sum_prefix h

theorem effect_grew {F : FloatOps} {checked negative : Bool} {p : Proc} {i : Instr} {σ' : Act} {d : Int}
    (h : i.effect F checked negative p s σ = .done (s', σ', d)) : Grew s.cells s'.cells := by
  cases i with
  | base i =>
    simp only [Instr.effect] at h
    cases hb : σ.base F checked i with
    | done r => rw [hb] at h; simp only [Outcome.bind, Outcome.done.injEq, Prod.mk.injEq] at h; rw [h.1]; exact .refl _
    | stops => rw [hb] at h; cases h
    | unfinished => rw [hb] at h; cases h
    | undefined => rw [hb] at h; cases h
  | const n => simp only [Instr.effect, Outcome.done.injEq, Prod.mk.injEq] at h; rw [← h.1]; exact .refl _
  | ldstr t =>
    simp only [Instr.effect] at h
    split at h
    · simp only [Outcome.done.injEq, Prod.mk.injEq] at h; rw [← h.1]; exact .add _ _
    · cases h
  | newarr t =>
    simp only [Instr.effect] at h
    split at h
    · split at h
      · simp only [Outcome.done.injEq, Prod.mk.injEq] at h; rw [← h.1]; exact .add _ _
      · split at h <;> cases h
    · cases h
  | ldelem =>
    simp only [Instr.effect] at h
    split at h
    · split at h
      · split at h
        · simp only [Outcome.done.injEq, Prod.mk.injEq] at h; rw [← h.1]; exact .refl _
        · cases h
      · cases h
    · cases h
  | stelem =>
    simp only [Instr.effect] at h
    split at h
    · split at h
      · rename_i hc
        split at h
        · simp only [Outcome.done.injEq, Prod.mk.injEq] at h; rw [← h.1]; exact .put hc (by simp [Cell.cost])
        · cases h
      · cases h
    · cases h
  | ldfld t =>
    simp only [Instr.effect] at h
    split at h
    · split at h
      · split at h
        · simp only [Outcome.done.injEq, Prod.mk.injEq] at h; rw [← h.1]; exact .refl _
        · cases h
      · cases h
    · cases h
  | stfld t =>
    simp only [Instr.effect] at h
    split at h
    · split at h
      · rename_i hc
        split at h
        · simp only [Outcome.done.injEq, Prod.mk.injEq] at h; rw [← h.1]; exact .put hc (by simp [Cell.cost])
        · cases h
      · cases h
    · cases h

theorem Runs.grew {n : Nat} {p : Proc} {o : Outcome (Option Val)} (h : Runs M n k p ip s σ s' o) : Grew s.cells s'.cells := by
  induction h with
  | more => exact .refl _
  | ret => exact .refl _
  | next _ _ heff _ _ ih => exact (effect_grew heff).trans ih
  | stops => exact .refl _
  | write _ _ _ _ _ _ _ ih => exact ih
  | call _ _ _ _ _ _ _ _ _ _ ih ih' => exact ih.trans ih'
  | inner _ _ _ _ _ _ _ _ _ ih => exact ih
  | new _ _ _ _ _ _ _ _ _ _ _ ih ih' => exact ((Grew.add _ _).trans ih).trans ih'
  | made _ _ _ _ _ _ _ _ _ _ ih => exact (Grew.add _ _).trans ih

/-! ## Starting a procedure -/

theorem invoke_follows {run : Frame → Nat → X (Option Value)} (hfree : RunsFree run) {m : MethodRec} {q : Proc}
    (hm : LinkedTo cfg tf w meth fld m q) {args : List Val} {params : Region} (hst : StoreIs cfg tf w (offsets fld) v s)
    (ho : v.operands = rest)
    (ha : Slots v params (Rep s.cells) args) (hpar : ∀ g b c, params = .slots g b c → b + c ≤ v.stack.slots.length)
    (hroom : 16 * (v.stack.slots.length + q.locals + k) ≤ v.stack.cap) (hcap : v.stack.cap < 2 ^ 62) :
    ∃ fr v1, FrameOf cfg tf w meth fld fr q ∧ Sim cfg tf w (offsets fld) fr v1 rest k s (q.start none args) ∧ Same v v1 ∧
      invoke cfg run m params v = ((run fr 0 v1).1, { (run fr 0 v1).2 with
        stack := { (run fr 0 v1).2.stack with slots := (run fr 0 v1).2.stack.slots.take v.stack.slots.length }
        allocated := v.allocated }) := by
  obtain ⟨body, t, asm, hi, hcode, hloc, ht, hasm, htok⟩ := hm.body
  obtain ⟨r, v1, hal⟩ := stackAlloc_room (v := { v with allocated := 0 }) (n := body.locals.length)
    ⟨by dsimp only; omega, by dsimp only; omega⟩
  obtain ⟨e1, e2, e3, e4⟩ := stackAlloc_ok hal
  dsimp only at e1 e2 e3 e4
  have hlen : v1.stack.slots.length = v.stack.slots.length + q.locals := by rw [e3]; simp [hloc]
  rcases e4 with ⟨eg, efit, ecap⟩ | ⟨-, ecap⟩
  · refine ⟨{ method := m, assembly := asm, code := body.code, locals := r, params }, v1, ?_, ?_, ?_,
      invoke_run hfree hi (hst.world.typeAt ht) (by rw [hst.world.assemblies]; exact hasm) hal⟩
    · exact ⟨hcode, hm.size, htok, hm.value, hm.void⟩
    · refine ⟨⟨[], by rw [e2]; exact ho, .nil⟩, ?_, ?_, ?_, by omega, by omega, hst.same (by rw [e2]) (by rw [e2])⟩
      · rw [e1]
        refine ⟨fun i hx => ⟨by simpa [Proc.start, hloc] using hx, rfl, by rw [e3]; simp⟩, fun i u hu => ?_⟩
        obtain ⟨hlt, hu'⟩ := List.getElem?_eq_some_iff.1 hu
        simp only [Proc.start, List.getElem_replicate] at hu'
        subst hu'
        rw [Proc.start, List.length_replicate] at hlt
        refine ⟨.i8 0, ?_, by simp⟩
        simp only [Region.at, e3]
        rw [List.getElem?_append_right (by omega), List.getElem?_replicate, if_pos (by omega)]
      · have hu : ∀ i, i < args.length → Usable { v with allocated := 0 } params i := fun i hx =>
          usable_same (v := v) rfl rfl (ha.usable i hx)
        refine ⟨fun i hx => ((hu i hx).alloc hal eg).1, fun i u hx => ?_⟩
        obtain ⟨a, h1, h2⟩ := ha.holds i u hx
        refine ⟨a, ?_, h2⟩
        rw [((hu i (List.getElem?_eq_some_iff.1 hx).1).alloc hal eg).2]
        exact h1
      · rw [e1]
        cases params with
        | host => trivial
        | slots g b c => exact .inr (hpar g b c rfl)
    · exact ⟨eg, ecap⟩
  · omega

/-- The result of a method represents that of the procedure. -/
def RepResult (cells : List Cell) : Option Value → Option Val → Prop
  | none, none => True
  | some a, some x => Rep cells a x
  | _, _ => False

/-- How the interpreter ends when the machine ends. -/
def Agrees (cfg : Cfg) (tf : Nat) (w : World) (offs : Nat → Nat) (rest : List Value) (v : VM) (x : Res (Option Value) × VM)
    (s' : Store) : Outcome (Option Val) → Prop
  | .done r => (∃ a, x.1 = .ok a ∧ RepResult s'.cells a r) ∧ x.2.operands = rest ∧ Same v x.2 ∧ StoreIs cfg tf w offs x.2 s'
  | .stops => x.1 = .panic ∧ x.2.world.output = w.output ++ s'.output
  | .unfinished => x.1 = .timeout ∧ x.2.world.output = w.output ++ s'.output
  | .undefined => True

theorem Agrees.same {v0 : VM} {x : Res (Option Value) × VM} {o : Outcome (Option Val)}
    (h : Agrees cfg tf w offs rest v x s' o) (hs : Same v0 v) : Agrees cfg tf w offs rest v0 x s' o := by
  cases o with
  | done r => exact ⟨h.1, h.2.1, hs.trans h.2.2.1, h.2.2.2⟩
  | stops => exact h
  | unfinished => exact h
  | undefined => trivial

theorem step_ret_agrees {p : Proc} (hf : FrameOf cfg tf w meth fld fr p) (h : Sim cfg tf w (offsets fld) fr v rest k s σ)
    {r : Option Val} (hc : HasAt p.code ip [0x2a]) (hr : p.Result σ.stack r) :
    Agrees cfg tf w (offsets fld) rest v (loop cfg ops tf (fuel + 1) fr ip v) s (.done r) := by
  obtain ⟨vals, hst, hv⟩ := h.stack
  have hs : step cfg ops tf fr ip v = doRet fr v := step_one (by rw [hf.code]; exact hc) (by decide) (op := .Ret) (by decide) v
  generalize hσ : σ.stack = l at hr hv
  cases hr with
  | @value a hp =>
    cases hv with
    | cons h1 hv =>
    cases hv
    rw [loop_ret (hs.trans (doRet_value ((hf.value hp).evolves h.store.world)))]
    rw [hst]
    exact ⟨⟨_, rfl, h1⟩, rfl, ⟨rfl, rfl⟩, h.store.same rfl rfl⟩
  | void hp =>
    cases hv
    rw [loop_ret (hs.trans (doRet_void ((hf.void hp).evolves h.store.world)))]
    exact ⟨⟨_, rfl, trivial⟩, by rw [hst]; rfl, .refl _, h.store⟩

/-! ## Calls -/

/-- How a call ends when the callee ends. -/
def CallAgrees (cfg : Cfg) (tf : Nat) (w : World) (offs : Nat → Nat) (fr : Frame) (v : VM) (rest : List Value) (k : Nat)
    (x : Res Unit × VM) (s' : Store) (σ : Act) (rho : List Val) : Outcome (Option Val) → Prop
  | .done r => x.1 = .ok () ∧ Same v x.2 ∧ Sim cfg tf w offs fr x.2 rest k s' { σ with stack := r.toList ++ rho }
  | .stops => x.1 = .panic ∧ x.2.world.output = w.output ++ s'.output
  | .unfinished => x.1 = .timeout ∧ x.2.world.output = w.output ++ s'.output
  | .undefined => True

/-- A call up to the end of the callee. -/
theorem call_follows {q : Proc} {m : MethodRec} (hm : LinkedTo cfg tf w meth fld m q) {t : Nat}
    (hres : fr.assembly.resolveMethod cfg ⟨t⟩ = .ok (some m)) {args rho : List Val}
    (hσ : σ.stack = args.reverse ++ rho) (hl : args.length = q.params) (h : Sim cfg tf w (offsets fld) fr v rest k s σ)
    {k' k'' : Nat} (hk : q.params + q.locals + k' ≤ k) (hk'' : q.params + k'' ≤ k) {o : Outcome (Option Val)}
    (hg : Grew s.cells s'.cells)
    (hrun : ∀ l fr1 v1, FrameOf cfg tf w meth fld fr1 q → Sim cfg tf w (offsets fld) fr1 v1 (l ++ rest) k' s (q.start none args) →
      Agrees cfg tf w (offsets fld) (l ++ rest) v1 (loop cfg ops tf fuel fr1 0 v1) s' o) :
    CallAgrees cfg tf w (offsets fld) fr v rest k'' (callMethod cfg (loop cfg ops tf fuel) fr ⟨t⟩ v) s' σ rho o := by
  have hroom := h.room
  have hcap := h.cap
  have hps := hm.params
  obtain ⟨vals, hst, hv⟩ := h.stack
  rw [hσ] at hv
  obtain ⟨l, l', rfl, hv1, hv2⟩ := hv.split
  have hargs : All2 (Rep s.cells) l.reverse args := by
    have := hv1.reverse
    rwa [List.reverse_reverse] at this
  have hal := hargs.length
  obtain ⟨v1, e1, e2, e3, e4⟩ := callMethod_run (run := loop cfg ops tf fuel) (args := l.reverse)
    (rest := l' ++ rest) hres (v := v) ⟨by omega, by omega⟩ (by rw [hps, hal, hl])
    (by rw [hst]; simp)
  rcases e3 with ⟨eg, ecap, efit⟩ | ⟨-, hbad⟩
  · have hlen : v1.stack.slots.length = v.stack.slots.length + q.params := by rw [e2, List.length_append, hal, hl]
    have ha : Slots v1 (.slots v1.stack.gen v.stack.slots.length m.slots) (Rep s.cells) args := by
      refine ⟨fun i hi => ⟨by omega, rfl, by omega⟩, fun i u hi => ?_⟩
      obtain ⟨a, h1, h2⟩ := hargs.get hi
      refine ⟨a, ?_, h2⟩
      simp only [Region.at, e2]
      rw [List.getElem?_append_right (by omega), Nat.add_sub_cancel_left]
      exact h1
    have hst1 : StoreIs cfg tf w (offsets fld) v1 s := h.store.same (by rw [e1]) (by rw [e1])
    obtain ⟨fr1, v2, hf1, hs1, hsame, hinv⟩ := invoke_follows (k := k') (loop_free cfg ops tf fuel) hm hst1
      (rest := l' ++ rest) (by rw [e1]) ha
      (by rintro g b c hx; cases hx; omega) (by omega) (by omega)
    have hag := hrun l' fr1 v2 hf1 hs1
    have hwhole := invoke_whole (cfg := cfg) (L := v.stack.slots.length) (H := True) (loop_free cfg ops tf fuel) m
      (params := .slots v1.stack.gen v.stack.slots.length m.slots) (Nat.le_refl _) (v := v1) (by omega)
    have hlow := hwhole.low
    have hhost := hwhole.host trivial
    have hsl := hwhole.slots
    rw [e4]
    rw [hinv] at hlow hhost hsl
    rw [X.bind_run, hinv]
    rcases hr : loop cfg ops tf fuel fr1 0 v2 with ⟨x, v3⟩
    rw [hr] at hag hlow hhost hsl
    dsimp only at hlow hhost hsl
    rw [show v1.stack.slots.take v.stack.slots.length = v.stack.slots by rw [e2, List.take_left' rfl]] at hlow
    cases o with
    | done r =>
      obtain ⟨⟨a, rfl, hra⟩, ho3, hs3, hst3⟩ := hag
      dsimp only at ho3 hs3 ⊢
      have hs4 := hsame.trans hs3
      have hkeep : ∀ vs st, All2 (Rep s'.cells) vs st → Sim cfg tf w (offsets fld) fr
          { v3 with
            stack := { v3.stack with slots := v3.stack.slots.take v1.stack.slots.length }
            allocated := v1.allocated, operands := vs ++ rest } rest k'' s' { σ with stack := st } := by
        intro vs st hvs
        have hgen : v3.stack.gen = v.stack.gen := hs4.gen.trans eg
        have hh : v3.host = v.host := by rw [hhost, e1]
        refine ⟨⟨vs, rfl, hvs⟩, h.locals.kept hgen hlow hh fun _ _ hr x hx => (hr x hx).grew hg,
          h.args.kept hgen hlow hh fun _ _ hr => hr.grew hg, h.apart, ?_, ?_, hst3.same rfl rfl⟩
        · dsimp only
          rw [hsl, hs4.cap, ecap]
          omega
        · dsimp only
          rw [hs4.cap, ecap]; exact hcap
      have hS : Same v v3 := ⟨hs4.gen.trans eg, hs4.cap.trans ecap⟩
      have hv3 : All2 (Rep s'.cells) l' rho := hv2.imp fun _ _ hr => hr.grew hg
      cases a with
      | none =>
        cases r with
        | none =>
          refine ⟨rfl, ⟨hS.gen, hS.cap⟩, ?_⟩
          have := hkeep l' rho hv3
          rw [← ho3] at this
          exact this
        | some b => exact hra.elim
      | some a =>
        cases r with
        | none => exact hra.elim
        | some b =>
          refine ⟨rfl, ⟨hS.gen, hS.cap⟩, ?_⟩
          have := hkeep (a :: l') (b :: rho) (.cons hra hv3)
          simp only [List.cons_append] at this
          rw [← ho3] at this
          exact this
    | stops => obtain ⟨h1, h2⟩ := hag; cases (show x = .panic from h1); exact ⟨rfl, h2⟩
    | unfinished => obtain ⟨h1, h2⟩ := hag; cases (show x = .timeout from h1); exact ⟨rfl, h2⟩
    | undefined => trivial
  · omega

/-- Calling the function that writes a string. -/
theorem write_follows {t : Nat} {m : MethodRec} (hres : fr.assembly.resolveMethod cfg ⟨t⟩ = .ok (some m))
    (hm : m.impl = .internal .consoleWrite) (hslots : m.slots = 1) {r : Nat} {rho : List Val} {text : List Char}
    (hσ : σ.stack = .ref r :: rho) (hcell : s.cells[r]? = some (.str text)) (h : Sim cfg tf w offs fr v rest k s σ)
    {k' : Nat} (hk : 1 + k' ≤ k) : ∃ v', callMethod cfg (loop cfg ops tf fuel) fr ⟨t⟩ v = (.ok (), v') ∧ Same v v' ∧
      Sim cfg tf w offs fr v' rest k' { s with output := s.output ++ text } { σ with stack := rho } := by
  have hroom := h.room
  have hcap := h.cap
  obtain ⟨vals, hst, hv⟩ := h.stack
  rw [hσ] at hv
  cases hv with
  | @cons a _ vals _ h1 hv =>
  obtain ⟨h2, rfl⟩ := h1.ref
  obtain ⟨v1, e1, e2, e3, e4⟩ := callMethod_run (run := loop cfg ops tf fuel) (args := [.object ⟨0, addr s.cells r⟩])
    (rest := vals ++ rest) hres (v := v) ⟨by omega, by omega⟩ (by rw [hslots]; rfl) (by rw [hst]; rfl)
  rcases e3 with ⟨eg, ecap, efit⟩ | ⟨-, hbad⟩
  · have hst1 : StoreIs cfg tf w offs v1 s := h.store.same (by rw [e1]) (by rw [e1])
    obtain ⟨bs, b, g1, g2, g3, g4, g5, g6⟩ := hst1.get hcell
    cases b with
    | str id us =>
      cases (show us = text.flatMap utf16 from g4)
      obtain ⟨x, h3, h4, f, h5, h6⟩ := g1.text (p := ⟨0, addr s.cells r⟩) rfl g6
      rw [fromUtf16_complete] at h3
      cases h3
      have hu : Usable v1 (.slots v1.stack.gen v.stack.slots.length m.slots) 0 := ⟨by omega, rfl, by rw [e2, hslots]; simp⟩
      obtain ⟨y, h7, h8⟩ := readSlot_ok hu
      obtain rfl : y = .object ⟨0, addr s.cells r⟩ := by
        simp only [Region.at, e2] at h7
        rw [List.getElem?_append_right (by omega)] at h7
        simpa using h7.symm
      have hinv : invoke cfg (loop cfg ops tf fuel) m (.slots v1.stack.gen v.stack.slots.length m.slots) v1 =
          (.ok none, { v1 with world := { v1.world with output := v1.world.output ++ text } }) := by
        unfold invoke
        rw [hm]
        show (readSlot _ 0 >>= _) v1 = _
        rw [X.bind_ok h8]
        dsimp only
        rw [X.bind_ok h5, if_neg h6, X.bind_ok h4, fromUtf16_complete]
        simp only [Res.unwrap]
        rw [X.liftM_bind_ok rfl]
        rfl
      refine ⟨_, e4.trans ((X.bind_ok hinv).trans rfl), ⟨eg, ecap⟩, ?_⟩
      have hlow : v1.stack.slots.take v.stack.slots.length = v.stack.slots := by rw [e2, List.take_left' rfl]
      have hh : v1.host = v.host := by rw [e1]
      refine ⟨⟨vals, by rw [e1], hv⟩, h.locals.kept eg hlow hh fun _ _ hr => hr, h.args.kept eg hlow hh fun _ _ hr => hr, h.apart, ?_,
        by rw [ecap]; exact hcap, ⟨hst1.blocks, output_evolves text _ hst1.world, ?_, hst1.arrays⟩⟩
      · rw [e2, ecap, List.length_append]
        simp
        omega
      · show v1.world.output ++ text = w.output ++ (s.output ++ text)
        rw [hst1.output, List.append_assoc]
    | ints => exact g4.elim
    | obj => exact g4.elim
  · omega

/-- `newobj` up to the call of the constructor. -/
theorem new_follows {t j : Nat} {p : Proc} {cls : Class} (ht : t < 2 ^ 32) (hc : HasAt fr.code ip (0x73 :: leBytes 4 t))
    (htok : Tokens cfg tf w meth fld fr.assembly p) (hn : p.news t = some (cls, j)) {args rho : List Val}
    (hσ : σ.stack = args.reverse ++ rho) (hl : args.length = (meth j).params.length)
    (h : Sim cfg tf w (offsets fld) fr v rest k s σ) (hroom : (s.add cls.new).cost ≤ 1024) :
    ∃ q v', step cfg ops tf fr ip v = (.ok (.call ⟨t⟩ (some (.object q)) (ip + 5)), v') ∧ Same v v' ∧
      Rep (s.add cls.new).cells (.object q) (.ref s.cells.length) ∧
      Sim cfg tf w (offsets fld) fr v' rest k (s.add cls.new)
        { σ with stack := (.ref s.cells.length :: args).reverse ++ rho } := by
  obtain ⟨h1, h2, h3, h4⟩ := htok.news t cls j hn
  obtain ⟨vals, hst, hv⟩ := h.stack
  rw [hσ] at hv
  obtain ⟨l, l', rfl, hv1, hv2⟩ := hv.split
  have hll : l.length = (meth j).params.length := by rw [hv1.length]; simpa using hl
  have hroom' := hroom
  rw [cost_add, ← h.store.length] at hroom'
  obtain ⟨id, hal⟩ := allocObject_room (cfg := cfg) h.store.cap.1 h.store.world h3 hroom'
  have hnew := h.store.new cls.new
  have hcell : CellIs (offsets fld) (.obj (meth j).declaringType id (List.replicate cls.size 0)) cls.new := by
    refine ⟨by simp, h4, fun f hf => ?_⟩
    have : offsets fld f.1 + f.2.width ≤ cls.size := h4.1 f hf
    refine ⟨Kind.kind_zero _, ?_⟩
    rw [List.drop_replicate, List.take_replicate, Nat.min_eq_left (by omega)]
    exact (Kind.bytes_zero _).symm
  refine ⟨⟨v.heap.gen, v.heap.mem.length⟩, { v with heap := { v.heap with mem := v.heap.mem ++ (Block.obj (meth j).declaringType id (List.replicate cls.size 0)).bytes }, operands := (l ++ .object ⟨v.heap.gen, v.heap.mem.length⟩ :: l') ++ rest }, ?_, ⟨rfl, rfl⟩, hnew, ?_⟩
  · rw [step_one hc (by decide) (op := .Newobj) (by decide)]
    show doNewobj cfg tf fr (ip + 1) v = _
    unfold doNewobj
    rw [X.liftM_bind_ok (hc.tail.fetch_leBytes (n := 3) ht), h1, X.liftM_bind_ok rfl]
    simp only [Res.unwrap]
    rw [X.liftM_bind_ok rfl, X.bind_ok hal]
    have hins : ∀ u : VM, u.operands = l ++ l' ++ rest → ∀ a, insertBelow cfg (meth j).params.length a u =
        (.ok (), { u with operands := (l ++ a :: l') ++ rest }) := by
      intro u hu a
      unfold insertBelow X.update
      dsimp only
      rw [usub_ok (by rw [hu]; simp; omega)]
      dsimp only [Res.ok_bind]
      rw [if_pos (by omega), show u.operands.length - (u.operands.length - (meth j).params.length) = l.length by rw [hu]; simp; omega]
      rw [hu]
      simp
    rw [X.bind_ok (hins _ (by exact hst) _)]
    rfl
  · refine h.change (vals := l ++ .object ⟨v.heap.gen, v.heap.mem.length⟩ :: l') rfl rfl rfl ?_ (.add _ _) ?_
    · rw [List.reverse_cons, List.append_assoc]
      exact (hv1.imp fun _ _ hr => hr.grew (.add _ _)).append (.cons hnew (hv2.imp fun _ _ hr => hr.grew (.add _ _)))
    · refine h.store.add hcell (by show typeSize _ _ _ _ = _; rw [h3]; simp) hroom rfl (.refl _) rfl h.store.arrays rfl rfl

theorem loop_panics (h : (step cfg ops tf fr ip v).1 = .panic) {out : List Char} (ho : v.world.output = out) :
    (loop cfg ops tf (fuel + 1) fr ip v).1 = .panic ∧ (loop cfg ops tf (fuel + 1) fr ip v).2.world.output = out := by
  have hk := C61_instructions (cfg := cfg) (ops := ops) (tf := tf) (v := v) fr ip
  rw [loop_succ]
  rcases hs : step cfg ops tf fr ip v with ⟨r, v1⟩
  rw [hs] at h hk
  cases h
  exact ⟨rfl, hk.trans ho⟩

/-- The interpreter ends as the machine does. -/
theorem runs_follow (hleq : LawfulEq ops) (hfl : M.floats = ops) (hok : ∀ l, M.ok l → ¬ Wide l) (hck : M.checked = cfg.checks) (hneg : M.negative = cfg.checks)
    (hinit : M.init = none) (hp : PrimitivesOk w) (hlink : ∀ j p, M.prog j = some p → LinkedTo cfg tf w meth fld (meth j) p)
    {n : Nat} {p : Proc} {o : Outcome (Option Val)} (h : Runs M n k p ip s σ s' o)
    (hf : FrameOf cfg tf w meth fld fr p) (hroom : s'.cost ≤ 1024) (hs : Sim cfg tf w (offsets fld) fr v rest k s σ) :
    Agrees cfg tf w (offsets fld) rest v (loop cfg ops tf n fr ip v) s' o := by
  induction h generalizing fr v rest with
  | more => exact ⟨rfl, hs.store.output⟩
  | ret hc hr => exact step_ret_agrees hf hs hc hr
  | next he hc heff hip hrest ih =>
    have := step_follows (cfg := cfg) (ops := ops) (tf := tf) hleq hok (by rw [hf.code]; exact hf.size) hp hf.tokens he (by rw [hf.code]; exact hc) hs
    rw [hfl, hck, hneg] at heff
    rw [heff] at this
    obtain ⟨v', h1, h2, h3⟩ := this (Nat.le_trans hrest.grew.cost hroom) _ hip
    rw [loop_next h1]
    exact (ih hf hroom h3).same h2
  | stops he hc heff =>
    have := step_follows (cfg := cfg) (ops := ops) (tf := tf) hleq hok (by rw [hf.code]; exact hf.size) hp hf.tokens he (by rw [hf.code]; exact hc) hs
    rw [hfl, hck, hneg] at heff
    rw [heff] at this
    exact loop_panics this hs.store.output
  | @write n k k' ip t r p s s' σ rho text o ht hc hj hσ hcell hk _ ih =>
    obtain ⟨m, h1, h2, h3⟩ := hf.tokens.write t hj
    obtain ⟨v', h4, h5, h6⟩ := write_follows (ops := ops) (tf := tf) (fuel := n) h1 h2 h3 hσ hcell hs hk
    rw [loop_succ, Abs.step_call ht (by rw [hf.code]; exact hc)]
    dsimp only
    rw [X.bind_ok h4]
    exact (ih hf hroom h6).same h5
  | @call n k k' k'' ip t j p q s s' s'' σ args rho r o ht hc hj hq hσ hl hk hrun hk'' hrest ih ih' =>
    rw [hinit] at ih
    obtain ⟨h1, h2, h3⟩ := call_follows (ops := ops) (tf := tf) (fuel := n) (hlink j q hq) (hf.tokens.procs t j hj) hσ hl hs hk hk''
      (o := .done r) hrun.grew fun l fr1 v1 hf1 hs1 => ih hf1 (Nat.le_trans hrest.grew.cost hroom) hs1
    rw [loop_succ, Abs.step_call ht (by rw [hf.code]; exact hc)]
    dsimp only
    rw [X.bind_ok (Prod.ext h1 rfl)]
    exact (ih' hf hroom h3).same h2
  | @inner n k k' ip t j p q s s' σ args rho o ht hc hj hq hσ hl hk hrun hne ih =>
    rw [hinit] at ih
    have hcall := call_follows (ops := ops) (tf := tf) (fuel := n) (k'' := 0) (hlink j q hq) (hf.tokens.procs t j hj) hσ hl hs hk
      (by omega) (o := o) hrun.grew fun l fr1 v1 hf1 hs1 => ih hf1 hroom hs1
    rw [loop_succ, Abs.step_call ht (by rw [hf.code]; exact hc)]
    dsimp only
    rw [X.bind_run]
    rcases hx : callMethod cfg (loop cfg ops tf n) fr ⟨t⟩ v with ⟨x, v'⟩
    rw [hx] at hcall
    cases o with
    | done r => exact absurd rfl (hne r)
    | stops => obtain ⟨h1, h2⟩ := hcall; cases (show x = .panic from h1); exact ⟨rfl, h2⟩
    | unfinished => obtain ⟨h1, h2⟩ := hcall; cases (show x = .timeout from h1); exact ⟨rfl, h2⟩
    | undefined => trivial
  | @new n k k' k'' ip t j p q cls s s' s'' σ args rho o ht hc hj hq hret hσ hl hk hrun hk'' hrest ih ih' =>
    rw [hinit] at ih
    obtain ⟨e1, e2, -, -⟩ := hf.tokens.news t cls j hj
    obtain ⟨ob, v1, h1, h2, h3, h4⟩ := new_follows (ops := ops) ht (by rw [hf.code]; exact hc) hf.tokens hj hσ
      (by have := (hlink j q hq).params; simp [MethodRec.slots, e2] at this; omega) hs
      (Nat.le_trans (hrun.grew.trans hrest.grew).cost hroom)
    obtain ⟨h5, h6, h7⟩ := call_follows (ops := ops) (tf := tf) (fuel := n) (hlink j q hq) e1 (args := .ref s.cells.length :: args) rfl
      (by simpa using hl) h4 hk hk'' (o := .done none) hrun.grew fun l fr1 v1 hf1 hs1 =>
        ih hf1 (Nat.le_trans hrest.grew.cost hroom) hs1
    rw [loop_succ, h1]
    dsimp only
    rw [X.bind_ok (Prod.ext h5 rfl)]
    obtain ⟨vals, ho, hv⟩ := h7.stack
    have h8 := h7.operands (vals := .object ob :: vals) (st := .ref s.cells.length :: rho) (.cons (h3.grew hrun.grew) hv)
    have := ih' hf hroom h8
    rw [List.cons_append, ← ho] at this
    exact this.same ((h2.trans h6).trans ⟨rfl, rfl⟩)
  | @made n k k' ip t j p q cls s s' σ args rho o ht hc hj hq hret hσ hl hk hrun hne ih =>
    rw [hinit] at ih
    obtain ⟨e1, e2, -, -⟩ := hf.tokens.news t cls j hj
    obtain ⟨ob, v1, h1, h2, h3, h4⟩ := new_follows (ops := ops) ht (by rw [hf.code]; exact hc) hf.tokens hj hσ
      (by have := (hlink j q hq).params; simp [MethodRec.slots, e2] at this; omega) hs
      (Nat.le_trans hrun.grew.cost hroom)
    have hcall := call_follows (ops := ops) (tf := tf) (fuel := n) (k'' := 0) (hlink j q hq) e1 (args := .ref s.cells.length :: args) rfl
      (by simpa using hl) h4 hk (by omega) (o := o) hrun.grew fun l fr1 v1 hf1 hs1 => ih hf1 hroom hs1
    rw [loop_succ, h1]
    dsimp only
    rw [X.bind_run]
    rcases hx : callMethod cfg (loop cfg ops tf n) fr ⟨t⟩ v1 with ⟨x, v'⟩
    rw [hx] at hcall
    cases o with
    | done r => exact absurd rfl (hne r)
    | stops => obtain ⟨h1, h2⟩ := hcall; cases (show x = .panic from h1); exact ⟨rfl, h2⟩
    | unfinished => obtain ⟨h1, h2⟩ := hcall; cases (show x = .timeout from h1); exact ⟨rfl, h2⟩
    | undefined => trivial

end Clr.Obj
