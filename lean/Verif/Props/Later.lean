import Verif.Props.Program
import Verif.Props.Kept
/-! # Programs run the same whatever is loaded or run in between (C96) -/

namespace Clr
open Spec

/-- The claim C96: as C90, but the method is executed at any later time, after any loads, that succeed or fail, and any executions of
methods, as long as there are fewer than 2^32 - 1 types. The text it writes follows what has been written by then. -/
def FileRunsLater (cfg : Cfg) (ok : Bytes → Prop) (init : Option Obj.Val) (negative : Bool) (room heap : Nat → Prop)
    (good : Option Obj.Val → Prop) (entry : Nat → Prop) : Prop :=
  ∀ (fs : Name → Option Bytes) (w : World) (data : Bytes) (m : Metadata) (d : Decls) (ref : Name → Prop) (rank size : Name → Nat)
    (e : Nat) (row : AssemblyRow) (name : Name), Reached cfg w → readMetadata cfg data = .ok m →
    m.tables.assembly[0]? = some row → m.string row.name = .ok (some name) →
    (∀ r ∈ m.tables.assemblyRef, ∃ n, m.string r.name = .ok (some n) ∧ ∃ a ∈ w.assemblies, a.name = n) →
    m.cliHeader.entryPoint = ⟨6 * 2 ^ 24 + e⟩ → e < 2 ^ 24 → entry e →
    WellFormed (fun _ => True) m w d → FiniteSizes cfg m w d ref rank size → Started m w d →
    ∃ G, ∀ depth, ∀ fuel ≥ G, ∃ a w', loadData cfg fs (depth + 1) fuel data w = (.ok a, w') ∧ w'.output = w.output ∧
      ∃ T, ∀ tf ≥ T, ∀ prog : Nat → Option Obj.Proc, (∀ i q, prog i = some q → ProcIs m w d i q) →
        ∀ j p mrow, prog j = some p → m.tables.methodDef[j - 1]? = some mrow → mrow.attributes.isStatic = true →
          ∃ x, a.resolveMethod cfg ⟨6 * 2 ^ 24 + j⟩ = .ok (some x) ∧
            ∀ w'', Onward cfg w' w'' → w''.types.length + 1 < 2 ^ 32 →
            ∀ (ops : FloatOps) (n k : Nat) (args : List Obj.Num) (s : Obj.Store) (o : Outcome (Option Obj.Val)), LawfulEq ops →
              args.length = p.params → room (p.locals + k) → heap s.cost → (∀ r, o = .done r → good r) →
              Obj.Runs ⟨ops, cfg.checks, negative, ok, init, prog⟩ n k p 0 ⟨[], []⟩ (p.start init (args.map .num)) s o →
              (hostExecute cfg ops tf n w'' x (args.map Obj.Num.value)).2.world.output = w''.output ++ s.output ∧
              DeliversVal (hostExecute cfg ops tf n w'' x (args.map Obj.Num.value)).1 o

/-- **C96** for the programs of C90.

Missing: what C90 leaves out. -/
theorem C96_partial (cfg : Cfg) : FileRunsLater cfg (fun l => ¬ Wide l) none cfg.checks (· ≤ 64) (· ≤ 1024)
    (fun r => ∀ b, r ≠ some (.ref b)) (· ≠ 1) := by
  intro fs w data m d ref rank size e row name h hm ha hn hrefs hk hk' hk1 hwf hf hst
  obtain ⟨G, hG⟩ := loadData_wellFormed fs h.inv hm ha hn hrefs hk hk' hk1 hwf hf
  refine ⟨G, fun depth fuel hge => ?_⟩
  obtain ⟨a, w', h1, h2, h3, h4, h5, h6⟩ := hG depth fuel hge
  have hr : Reached cfg w' := by have := Reached.loadFile fs (depth + 1) fuel data h; rwa [h1] at this
  have hsil := loadData_silent (cfg := cfg) fs (depth + 1) fuel data w
  rw [h1] at hsil
  obtain ⟨hout, hpr⟩ := hsil
  obtain ⟨ps, hps⟩ := Option.ne_none_iff_exists'.1 (show w'.primitives ≠ none by rw [hpr]; exact hst.primitives)
  obtain ⟨hprim, hready, meth, fld, g1, T, g2⟩ := loaded_program hwf h.inv (loadSelf_ok h.inv h2) h4 hr.settled h.freshId h5 hst h3 h6
    ⟨ps, hps, hr.named ps hps⟩
  refine ⟨a, w', h1, hout, T, fun tf htf prog hprog j p mrow hp hrow hstat => ⟨meth j, ?_, ?_⟩⟩
  · obtain ⟨_, q1, q2, -⟩ := (hprog j p hp).row
    have := (List.getElem?_eq_some_iff.mp q2).1
    exact (g1 j q1 (by omega)).1
  · intro w'' hon hlen ops n k args s o hops hargs hroom hheap hgood hruns
    have hstatic : (meth j).isStatic = true := by
      obtain ⟨_, q1, q2, -⟩ := (hprog j p hp).row
      have := (List.getElem?_eq_some_iff.mp q2).1
      obtain ⟨row', q3, q4⟩ := (g1 j q1 (by omega)).2
      rw [hrow] at q3; cases q3
      rw [q4]; exact hstat
    have hadv := hon.advanced
    have hwide := hadv.later.wider hr
    have := C89_partial cfg ops tf w'' prog meth fld j p args n k s o hops (hwide.primitivesOk hadv.primitives hprim)
      ((hadv.later.reached hr).arraysReady hlen) (fun i q hq => hwide.linked hadv.primitives (g2 tf htf i q (hprog i q hq))) hp hstatic
      hargs hroom hheap hgood hruns
    refine ⟨this.1, ?_⟩
    have h7 := this.2
    unfold DeliversVal
    split at h7 <;> exact h7

open Obj in
/-- The hypotheses of `C96_partial` can be met, and what it says of the example file of C90: whenever `Main` is executed after the file
has been loaded, it writes `Hi` and returns the sum of the numbers up to its argument; for instance the second time it is executed,
after the library and something that is no assembly have been loaded in between. -/
example : ∃ G, ∀ depth, ∀ fuel ≥ G, ∃ a w', loadData .debug Ex.noFiles (depth + 1) fuel Ex.progAsm.file Ex.runWorld = (.ok a, w') ∧
    ∃ x, a.resolveMethod .debug ⟨6 * 2 ^ 24 + 1⟩ = .ok (some x) ∧ ∃ T, ∀ tf ≥ T, ∀ (ops : FloatOps) (n e : Nat), LawfulEq ops → 1 < n → n ≤ 61 →
      (∀ w'', Onward .debug w' w'' → w''.types.length + 1 < 2 ^ 32 →
        (hostExecute .debug ops tf (6 * n + 24 + e) w'' x [.i32 (BitVec.ofNat 32 n)]).2.world.output = w''.output ++ "Hi".toList ∧
        (hostExecute .debug ops tf (6 * n + 24 + e) w'' x [.i32 (BitVec.ofNat 32 n)]).1 =
          .ok (.number (.i32 (BitVec.ofNat 32 (Ex.triangle n))))) ∧
      Onward .debug w' (loadData .debug Ex.noFiles 1 100 [0x4d, 0x5a] (loadData .debug Ex.noFiles 1 100 Ex.coreFile
        (hostExecute .debug ops tf (6 * n + 24 + e) w' x [.i32 (BitVec.ofNat 32 n)]).2.world).2).2 := by
  obtain ⟨m, hm, h2⟩ := Ex.holds_iff Ex.progFacts
  have hF := of_decide_eq_true h2
  have hF' := hF
  obtain ⟨-, -, -, h6, -, -, -, -, h3, h4, -, -, -, -, -, -, -, h5⟩ := hF'
  obtain ⟨row, l, e, hr, -⟩ := List.map_eq_cons_iff.mp h3
  obtain ⟨rr, l', e', hr', hl'⟩ := List.map_eq_cons_iff.mp h4
  obtain rfl := List.map_eq_nil_iff.mp hl'
  obtain ⟨-, -, -, -, -, hout, hcore⟩ := Ex.runRecs
  obtain ⟨mrow, l'', e'', hmr, -⟩ := List.map_eq_cons_iff.mp h6
  simp only [Prod.mk.injEq] at hmr
  obtain ⟨G, hG⟩ := C96_partial .debug Ex.noFiles Ex.runWorld _ m Ex.progDecls _ _ _ 0 row _ Ex.runReached hm (by rw [e]; rfl) hr
    (by
      rw [e']; intro r h; rw [List.mem_singleton] at h; subst h
      obtain ⟨a, h1, h2⟩ := List.any_eq_true.mp hcore
      exact ⟨_, hr', a, h1, of_decide_eq_true h2⟩)
    h5 (by decide) (by decide) (Ex.prog_wellFormed hF) (Ex.prog_finite hF) (Ex.prog_started hF)
  refine ⟨G, fun depth fuel hge => ?_⟩
  obtain ⟨a, w', g1, g2, T, g3⟩ := hG depth fuel hge
  have g4 := fun tf htf => g3 tf htf Ex.progProcs (Ex.prog_procs hF) 1 Ex.progMain mrow rfl (by rw [e'']; rfl) hmr.2.2.2.1
  obtain ⟨x, g5, -⟩ := g4 T (Nat.le_refl T)
  refine ⟨a, w', g1, x, g5, T, fun tf htf ops n e hops hn hn' => ⟨fun w'' hon hlen => ?_, .loadFile _ _ _ _ (.loadFile _ _ _ _ (.execute _ _ _ _ _ (.refl _)))⟩⟩
  obtain ⟨x', g6, g7⟩ := g4 tf htf
  rw [g5] at g6
  obtain rfl := Option.some.inj (Res.ok.inj g6)
  exact g7 w'' hon hlen ops _ (n + 3) [.int (BitVec.ofNat 32 n)] (Ex.progStore n) _ hops rfl (by show 0 + (n + 3) ≤ 64; omega)
    (by rw [Ex.prog_cost]; omega) (by rintro r ⟨⟩ b ⟨⟩) (Ex.prog_runs ops n e hn (by omega))

/-- C90 is the case that nothing happens in between. -/
theorem FileRunsLater.now {cfg : Cfg} {ok : Bytes → Prop} {init : Option Obj.Val} {negative : Bool} {room heap : Nat → Prop}
    {good : Option Obj.Val → Prop} {entry : Nat → Prop} (he : ∀ e, entry e → e ≠ 1)
    (h : FileRunsLater cfg ok init negative room heap good entry) : FileRuns cfg ok init negative room heap good entry := by
  intro fs w data m d ref rank size e row name hw hm ha hn hrefs hk hk' hk1 hwf hf hst
  obtain ⟨G, hG⟩ := loadData_wellFormed fs hw.inv hm ha hn hrefs hk hk' (he e hk1) hwf hf
  obtain ⟨G', hG'⟩ := h fs w data m d ref rank size e row name hw hm ha hn hrefs hk hk' hk1 hwf hf hst
  refine ⟨max G G', fun depth fuel hge => ?_⟩
  obtain ⟨a, w', h1, -, -, -, -, h6⟩ := hG depth fuel (by omega)
  obtain ⟨a', w'', g1, g2, T, g3⟩ := hG' depth fuel (by omega)
  rw [h1] at g1; cases g1
  refine ⟨a, w', h1, g2, T, fun tf htf prog hprog j p mrow hp hrow hstat => ?_⟩
  obtain ⟨x, q1, q2⟩ := g3 tf htf prog hprog j p mrow hp hrow hstat
  refine ⟨x, q1, fun ops n k args s o h1 h2 h3 h4 h5 h6' => ?_⟩
  have hroom := hst.room
  have := q2 w' (.refl _) (by omega) ops n k args s o h1 h2 h3 h4 h5 h6'
  rw [g2] at this
  exact this

/-- **C96 fails for more than 64 variables in use**, as C90 does. -/
theorem C96_refuted_room : ¬ FileRunsLater .debug (fun l => ¬ Wide l) none true (fun _ => True) (· ≤ 1024)
    (fun r => ∀ b, r ≠ some (.ref b)) (· ≠ 1) := fun h => C90_refuted_room (h.now fun _ h => h)

/-- **C96 fails for more than 1024 bytes of objects**, as C90 does. -/
theorem C96_refuted_heap : ¬ FileRunsLater .debug (fun l => ¬ Wide l) none true (· ≤ 64) (fun _ => True)
    (fun r => ∀ b, r ≠ some (.ref b)) (· ≠ 1) := fun h => C90_refuted_heap (h.now fun _ h => h)

end Clr
