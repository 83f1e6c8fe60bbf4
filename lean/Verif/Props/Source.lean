import Verif.Lemmas.SourceLoad
/-! # C100: compiled programs run as they are written -/

namespace Clr
open Spec Source

/-- The claim C100: for every program, the file that the assembler writes for it loads, and its procedures give the results, stop,
and go on for ever as the meaning of the program says. `room` bounds the number of variables in use at the same time. -/
def CompiledProgramsRun (cfg : Cfg) (enough : Nat → Prop) : Prop :=
  ∀ (fs : Name → Option Bytes) (w : World) (P : Source.Program), Reached cfg w → Provided cfg w → P.Legal →
    ∃ G, ∀ depth, ∀ fuel ≥ G, ∃ a w', loadData cfg fs (depth + 1) fuel (assemble P).file w = (.ok a, w') ∧
      ∀ f p, P[f]? = some p → ∃ x, a.resolveMethod cfg ⟨methodToken f⟩ = .ok (some x) ∧
        ∀ (ops : FloatOps) (tf room : Nat) (args : List (BitVec 32)), args.length = p.params → enough (p.locals + room) →
          (∀ g r, P.invoke cfg.checks g room f args = .done r →
            ∃ n, ∀ n' ≥ n, (hostExecute cfg ops tf n' w' x (args.map .i32)).1 = .ok (.number (.i32 r))) ∧
          (∀ g, P.invoke cfg.checks g room f args = .stops → ∃ n, ∀ n' ≥ n, (hostExecute cfg ops tf n' w' x (args.map .i32)).1 = .panic) ∧
          ((∀ g, P.invoke cfg.checks g room f args = .unfinished) → ∀ n, (hostExecute cfg ops tf n w' x (args.map .i32)).1 = .timeout)

theorem compiled_of {P : Source.Program} {m : Metadata} (hP : P.Legal) (ht : m.tables = typed P) :
    ∃ g : Nat → Abs.Proc, Compiled P (intProg m (decls P)) g ∧ ∀ f p, P[f]? = some p → g f = absProc P p := by
  refine ⟨fun f => match P[f]? with
    | some p => absProc P p
    | none => ⟨[], 0, 0, true, fun _ => none⟩, ⟨?_, by have := hP.count; omega⟩, ?_⟩
  · intro f q hq
    simp only [hq]
    refine ⟨intProg_of ht hq, rfl, rfl, rfl, rfl, fun f' hf' => ?_⟩
    unfold absProc methodToken methodRowOf
    dsimp only
    rw [if_pos (by omega), Nat.add_sub_cancel_left]
  · intro f p hp
    simp only [hp]

theorem read_assembled (cfg : Cfg) {P : Source.Program} (hP : P.Legal) : ∃ m, readMetadata cfg (assemble P).file = .ok m ∧
    ((assemble P).parts (typed P)).ReadAs cfg (assemble P).file m ∧ m.entryPoint = none := by
  obtain ⟨m, hm, hr⟩ := C91_partial cfg (assemble P).file _ (written (fits hP) (isTables hP)) (handled hP _ rfl)
  refine ⟨m, hm, hr, ?_⟩
  have he := readMetadata_entry hm
  have h2 : m.cliHeader.entryPoint = ⟨6 * 2 ^ 24 + 0⟩ := hr.entry
  unfold entryPointHandle at he
  rw [h2, token_index 6 0 (by decide)] at he
  exact (Res.ok.inj he).symm

/-- **C100** for programs with at most 64 variables in use at the same time.

Missing: programs with more variables in use (`C100_refuted`). The meaning gives no result to programs that read a local before
they assign to it (C84). -/
theorem C100_partial (cfg : Cfg) : CompiledProgramsRun cfg (· ≤ 64) := by
  intro fs w P hw hprov hP
  obtain ⟨m, hm, hr, he⟩ := read_assembled cfg hP
  have ht : m.tables = typed P := hr.tables
  obtain ⟨g, hg, hgp⟩ := compiled_of hP ht
  have hlegal : ∀ p ∈ P, ProcLegal P p := by
    intro p hp
    obtain ⟨h1, h2, h3, h4⟩ := hP.procs p hp
    have := code_le hp
    have := hP.code
    exact ⟨h1, h2, h3, h4, by omega⟩
  have hassembly : m.tables.assembly[0]? = some ⟨plainHash, 1, 0, 0, 0, plainFlags, 0, 1, 0⟩ := by rw [ht]; rfl
  obtain ⟨G, hG⟩ := C88_partial cfg fs w _ m (decls P) isRef rankOf Source.sizeOf 0 _ "app".toList hw hm hassembly
    (string_of hr (fixed_name P.length 1 "app".toList (by decide) (by decide) (by decide)))
    (by
      intro r h
      rw [ht] at h
      obtain rfl := List.mem_singleton.mp h
      exact ⟨"core".toList, string_of hr (fixed_name P.length 5 "core".toList (by decide) (by decide) (by decide)), hprov.library⟩)
    hr.entry (by decide) (by decide) (wellFormed hP hprov rfl hr he) (finiteSizes hprov ht) (.inl (hprov.types _ (by simp)))
  refine ⟨G, fun depth fuel hge => ?_⟩
  obtain ⟨a, w', h1, h2⟩ := hG depth fuel hge
  refine ⟨a, w', h1, fun f p hp => ?_⟩
  obtain ⟨x, h3, h4⟩ := h2 (f + 1) _ (intProg_of ht hp)
  refine ⟨x, h3, fun ops tf room args hargs hroom => ?_⟩
  have hinv : ∀ fuel, _ := fun fuel => invoke_runs (checked := cfg.checks) (init := none) hg hlegal fuel room f args p hp hargs
  have hgf := hgp f p hp
  have hrun : ∀ n o, Abs.Runs cfg.checks (fun l => ¬ Wide l) none (intProg m (decls P)) n room (g f) 0 ((g f).start none args) o →
      Delivers (hostExecute cfg ops tf n w' x (args.map .i32)).1 o := by
    intro n o ho
    rw [hgf] at ho
    exact h4 ops tf n room args o hargs hroom ho
  refine ⟨fun k r hk => ?_, fun k hk => ?_, fun hk n => ?_⟩
  · have := hinv k
    rw [hk] at this
    obtain ⟨n, hn⟩ := this
    exact ⟨n, fun n' hn' => hrun n' _ (runs_more hn (fun h => by cases h) n' hn')⟩
  · have := hinv k
    rw [hk] at this
    obtain ⟨n, hn⟩ := this
    exact ⟨n, fun n' hn' => hrun n' _ (runs_more hn (fun h => by cases h) n' hn')⟩
  · have := hinv (n + 1)
    rw [hk] at this
    obtain ⟨n0, hn, hn0⟩ := this
    obtain h | h := runs_less hn0 n (by omega)
    · exact hrun n _ h
    · exact hrun n _ h

namespace Ex

instance (n : Name) : Decidable (isRef n) := by unfold isRef; infer_instance

theorem providedRefs : ∀ t < 19, ∀ r ∈ coreWorld.types[t]?, isRef r.fullName →
    r.interfaces = [] ∧ ∀ b ∈ r.base, ∀ br ∈ coreWorld.types[b]?, isRef br.fullName := by
  decide +kernel

theorem coreProvided : Provided .debug coreWorld := by
  have htypes : ∀ {t : Nat} {r : TypeRec}, coreWorld.types[t]? = some r → t < 19 := by
    intro t r hr
    have := (List.getElem?_eq_some_iff.mp hr).1
    rw [coreConsole.2] at this; exact this
  refine ⟨by decide +kernel, ?_, ?_, ?_, ?_⟩
  · intro n hn
    refine reg (coreNames n ?_)
    rw [List.mem_append] at hn ⊢
    refine hn.imp id fun h => ?_
    simp only [List.mem_cons, List.not_mem_nil, or_false] at h ⊢
    obtain h | h | h := h <;> simp [h]
  · intro t r hr hv
    obtain ⟨h1, h2⟩ := providedRefs t (htypes hr) r hr hv
    refine ⟨fun b br hb hbr => h2 b hb br hbr, fun i hi => ?_⟩
    rw [h1] at hi
    exact absurd hi List.not_mem_nil
  · intro t r hr
    refine ⟨ends_of (fun t => if t = 1 then 0 else if t = 2 then 1 else 2) (by decide +kernel) t (List.getElem?_eq_some_iff.1 hr).1, ?_⟩
    obtain ⟨s, h1, h2⟩ := holds_iff (coreSizes t (htypes hr))
    exact ⟨100, s, h1, Nat.le_trans (of_decide_eq_true h2) (by decide)⟩
  · rw [coreConsole.2]; decide

/-- `int f(int x) { int r; if (x) { r = f(x - 1); r = x * r; } else r = 1; return r; }`
`int ff(int x) { int r; r = f(x); while (x) { x = x - 1; } return r / x; }`
`int fff() { while (1) { } return 0; }`
`int ffff(int x) { int r; if (x) { r = ffff(x - 1); r = x + r; } else r = 0; return r; }` -/
def sourceProgram : Source.Program :=
  [⟨1, 1, .cond (.var .arg 0)
      (.seq (.call .loc 0 0 [.arith .sub (.var .arg 0) (.const 1)]) (.set .loc 0 (.arith .mul (.var .arg 0) (.var .loc 0)))) (.set .loc 0 (.const 1)),
    .var .loc 0⟩,
   ⟨1, 1, .seq (.call .loc 0 0 [.var .arg 0]) (.while (.var .arg 0) (.set .arg 0 (.arith .sub (.var .arg 0) (.const 1)))),
    .div (.var .loc 0) (.var .arg 0)⟩,
   ⟨0, 0, .while (.const 1) .skip, .const 0⟩,
   ⟨1, 1, .cond (.var .arg 0)
      (.seq (.call .loc 0 3 [.arith .sub (.var .arg 0) (.const 1)]) (.set .loc 0 (.arith .add (.var .arg 0) (.var .loc 0)))) (.set .loc 0 (.const 0)),
    .var .loc 0⟩]

theorem sourceProgram_legal : sourceProgram.Legal := by
  refine ⟨?_, by decide, by decide, by decide +kernel, by decide +kernel⟩
  intro p hp
  simp only [sourceProgram, List.mem_cons, List.not_mem_nil, or_false] at hp
  obtain rfl | rfl | rfl | rfl := hp
  · refine ⟨by decide, by decide, ⟨⟨by simp [ConstsFit], by simp [Expr.Within, Proc.vars]⟩, ⟨⟨by decide, ?_, _, rfl, rfl⟩, by decide, ?_⟩, by decide, ?_⟩, ?_⟩
    · intro e he; obtain rfl := List.mem_singleton.mp he
      exact ⟨⟨trivial, by simp [ConstsFit, Fits]⟩, by simp [Expr.Within, Proc.vars]⟩
    all_goals exact ⟨by simp [ConstsFit, Fits], by simp [Expr.Within, Proc.vars]⟩
  · refine ⟨by decide, by decide, ⟨⟨by decide, ?_, _, rfl, rfl⟩, ⟨by simp [ConstsFit], by simp [Expr.Within, Proc.vars]⟩, by decide, ?_⟩, ?_⟩
    · intro e he; obtain rfl := List.mem_singleton.mp he
      exact ⟨trivial, by simp [Expr.Within, Proc.vars]⟩
    all_goals exact ⟨by simp [ConstsFit, Fits], by simp [Expr.Within, Proc.vars]⟩
  · refine ⟨by decide, by decide, ⟨⟨by simp [ConstsFit, Fits], by simp [Expr.Within]⟩, trivial⟩, by simp [ConstsFit, Fits], by simp [Expr.Within]⟩
  · refine ⟨by decide, by decide, ⟨⟨by simp [ConstsFit], by simp [Expr.Within, Proc.vars]⟩, ⟨⟨by decide, ?_, _, rfl, rfl⟩, by decide, ?_⟩, by decide, ?_⟩, ?_⟩
    · intro e he; obtain rfl := List.mem_singleton.mp he
      exact ⟨⟨trivial, by simp [ConstsFit, Fits]⟩, by simp [Expr.Within, Proc.vars]⟩
    all_goals exact ⟨by simp [ConstsFit, Fits], by simp [Expr.Within, Proc.vars]⟩

/-- Running the last procedure of the loaded example with argument 65 is undefined behaviour. -/
def sourceDeep (l : Res AssemblyRec × World) : Bool :=
  match l.1 with
  | .ok a =>
    match a.resolveMethod .debug ⟨methodToken 3⟩ with
    | .ok (some x) => decide ((hostExecute .debug floats 9 1000 l.2 x [.i32 65#32]).1 = .ub)
    | _ => false
  | _ => false

theorem forever : ∀ g room, sourceProgram.invoke true g room 2 [] = .unfinished := by
  have hloop : ∀ (inv : Nat → Nat → List (BitVec 32) → Outcome (BitVec 32)) g (s : Store × Nat),
      (Source.Stmt.while (.const 1) .skip).exec true sourceProgram inv g s = .unfinished := by
    intro inv g s
    show Source.iterate _ _ g s = _
    induction g generalizing s with
    | zero => rfl
    | succ g ih => exact ih s
  intro g room
  cases g with
  | zero => rfl
  | succ g =>
    show Outcome.bind ((Source.Stmt.while (.const 1) .skip).exec true sourceProgram _ g (Source.start [], room)) _ = _
    rw [hloop]; rfl

end Ex

/-- The hypotheses of `C100_partial` can be met, and what it says of the example program: the first procedure returns the factorial
of 12, and panics for 13 in a debug build; the second panics, because of a division by zero; the third goes on for ever. -/
example : ∃ G, ∀ depth, ∀ fuel ≥ G, ∃ a w', loadData .debug Ex.noFiles (depth + 1) fuel (assemble Ex.sourceProgram).file Ex.coreWorld = (.ok a, w') ∧
    (∃ x, a.resolveMethod .debug ⟨methodToken 0⟩ = .ok (some x) ∧ ∀ (ops : FloatOps) (tf : Nat),
      (∃ n, ∀ n' ≥ n, (hostExecute .debug ops tf n' w' x [.i32 12#32]).1 = .ok (.number (.i32 479001600#32))) ∧
      ∃ n, ∀ n' ≥ n, (hostExecute .debug ops tf n' w' x [.i32 13#32]).1 = .panic) ∧
    (∃ x, a.resolveMethod .debug ⟨methodToken 1⟩ = .ok (some x) ∧ ∀ (ops : FloatOps) (tf : Nat),
      ∃ n, ∀ n' ≥ n, (hostExecute .debug ops tf n' w' x [.i32 5#32]).1 = .panic) ∧
    ∃ x, a.resolveMethod .debug ⟨methodToken 2⟩ = .ok (some x) ∧ ∀ (ops : FloatOps) (tf n : Nat),
      (hostExecute .debug ops tf n w' x []).1 = .timeout := by
  obtain ⟨G, hG⟩ := C100_partial .debug Ex.noFiles Ex.coreWorld Ex.sourceProgram Ex.coreReached Ex.coreProvided Ex.sourceProgram_legal
  refine ⟨G, fun depth fuel hge => ?_⟩
  obtain ⟨a, w', h1, h2⟩ := hG depth fuel hge
  obtain ⟨x0, g0, k0⟩ := h2 0 _ rfl
  obtain ⟨x1, g1, k1⟩ := h2 1 _ rfl
  obtain ⟨x2, g2, k2⟩ := h2 2 _ rfl
  refine ⟨a, w', h1, ⟨x0, g0, fun ops tf => ⟨?_, ?_⟩⟩, ⟨x1, g1, fun ops tf => ?_⟩, x2, g2, fun ops tf => ?_⟩
  · exact (k0 ops tf 60 [12#32] rfl (by decide)).1 20 _ (by decide +kernel)
  · exact (k0 ops tf 60 [13#32] rfl (by decide)).2.1 20 (by decide +kernel)
  · exact (k1 ops tf 60 [5#32] rfl (by decide)).2.1 20 (by decide +kernel)
  · exact (k2 ops tf 60 [] rfl (by decide)).2.2 fun g => Ex.forever g 60

/-- **C100 fails for programs with more variables in use**: the sum of the numbers up to 65 is undefined behaviour. -/
theorem C100_refuted : ¬ CompiledProgramsRun .debug (fun _ => True) := by
  intro hfull
  obtain ⟨G, hG⟩ := hfull Ex.noFiles Ex.coreWorld Ex.sourceProgram Ex.coreReached Ex.coreProvided Ex.sourceProgram_legal
  obtain ⟨a, w', h6, h7⟩ := hG 0 (max G 100) (by omega)
  obtain ⟨x, h8, h9⟩ := h7 3 _ rfl
  obtain ⟨n, hn⟩ := (h9 Ex.floats 9 200 [65#32] rfl trivial).1 100 2145#32 (by decide +kernel)
  have h11 : Ex.sourceDeep (loadData .debug Ex.noFiles 1 100 (assemble Ex.sourceProgram).file Ex.coreWorld) = true := by decide +kernel
  have h12 := M.Refined.loadData (cfg := .debug) Ex.noFiles (d := 1) (k := 100) (k' := max G 100) (by omega) (Nat.le_refl _)
    (assemble Ex.sourceProgram).file Ex.coreWorld (by intro hc; rw [Ex.sourceDeep] at h11; simp [hc] at h11)
  rw [h6] at h12
  rw [← h12] at h11
  simp only [Ex.sourceDeep, h8, decide_eq_true_eq] at h11
  have h13 := hn (max n 1000) (by omega)
  rw [List.map_cons, List.map_nil, hostExecute_more (show 1000 ≤ max n 1000 by omega) (by rw [h11]; simp), h11] at h13
  cases h13

end Clr
