import Verif.Lemmas.Lang
import Verif.Lemmas.Fuel
import Verif.Props.Calls
/-! # Properties C58, C72: compiled expressions and programs -/

namespace Clr

variable {cfg : Cfg} {ops : FloatOps} {tf fuel : Nat} {fr : Frame} {ip : Nat} {v v' : VM} {rest : List Value}

/-! ## C58 -/

theorem loop_stops (h : (step cfg ops tf fr ip v).1 = .panic) : (loop cfg ops tf (fuel + 1) fr ip v).1 = .panic := by
  rw [loop_succ]
  rcases hs : step cfg ops tf fr ip v with ⟨r, v1⟩
  rw [hs] at h
  cases h
  rfl

theorem Goes.loop_stops {k n : Nat} (h : Goes cfg ops tf fr k ip v n v') (h' : (step cfg ops tf fr n v').1 = .panic)
    (hf : k + 1 ≤ fuel) : (loop cfg ops tf fuel fr ip v).1 = .panic := by
  obtain ⟨l, rfl⟩ : ∃ l, fuel = (l + 1) + k := ⟨fuel - (k + 1), by omega⟩
  rw [h.loop_eq, Clr.loop_stops h']

/-- The claim C58, for code in which the instructions that load variables have encodings with the property `ok`. The
variables have the values `σ` says. If the expression has the value `a`, executing its code ends after the code, with `a`
pushed and nothing else changed. If the expression stops the program, so does its code. -/
def Computes (ok : Bytes → Prop) : Prop :=
  ∀ (cfg : Cfg) (ops : FloatOps) (tf : Nat) (fr : Frame) (ip : Nat) (v : VM) (σ : Store) (e : Expr) (c : Bytes),
    e.Code ok c → HasAt fr.code ip c → Holds fr v σ →
    match e.eval cfg.checks σ with
    | .done a => ∃ k, ∀ fuel, loop cfg ops tf (fuel + k) fr ip v =
        loop cfg ops tf fuel fr (ip + c.length) { v with operands := .i32 a :: v.operands }
    | .stops => ∃ k, ∀ fuel, k ≤ fuel → (loop cfg ops tf fuel fr ip v).1 = .panic
    | .undefined => True
    | .unfinished => False

/-- **C58** for all encodings except `ldarg` with a two-byte index. -/
theorem C58_partial : Computes fun l => ¬ [0xfe, 0x09] <+: l := by
  intro cfg ops tf fr ip v σ e c he hc hv
  have h := expr_run (cfg := cfg) (ops := ops) (tf := tf) (fun _ => id) he hc hv
  cases ho : e.eval cfg.checks σ with
  | done a =>
    rw [ho] at h
    obtain ⟨k, hk⟩ := h
    exact ⟨_, hk.loop_eq⟩
  | stops =>
    rw [ho] at h
    obtain ⟨k, n, v', hk, hp⟩ := h
    exact ⟨k + 1, fun fuel hf => hk.loop_stops hp hf⟩
  | undefined => trivial
  | unfinished => rw [ho] at h; exact h

/-- **C58 fails** for `ldarg` with a two-byte index. -/
theorem C58_refuted : ¬ Computes fun _ => True := by
  intro h
  have h1 := h .release Ex.floats 9 (Ex.frame [0xfe, 0x09, 0x00, 0x00, 0x00, 0x01]) 0 { world := {}, host := [.i32 7] }
    (fun x i => if x = .arg ∧ i = 0 then some 7 else none) (.var .arg 0) [0xfe, 0x09, 0x00, 0x00]
    (.var (by decide) trivial) (by decide) (by
      intro x i a ha
      dsimp only at ha
      split at ha
      · rename_i hxi
        obtain ⟨rfl, rfl⟩ := hxi
        cases ha
        decide
      · cases ha)
  simp only [Expr.eval] at h1
  obtain ⟨k, hk⟩ := h1
  have hs : (step .release Ex.floats 9 (Ex.frame [0xfe, 0x09, 0x00, 0x00, 0x00, 0x01]) 0
    { world := {}, host := [.i32 7] }).1 = .panic := by decide +kernel
  have h2 := congrArg Prod.fst (hk 1)
  rw [Nat.add_comm, loop_stops hs] at h2
  revert h2; decide +kernel

/-- `(x + -1) * ~y` with the argument `x` and the local `y`. -/
example : Expr.Code (fun l => ¬ [0xfe, 0x09] <+: l)
    (.arith .mul (.arith .add (.var .arg 0) (.const (-1))) (.not (.var .loc 300)))
    [0x02, 0x15, 0x58, 0xfe, 0x0c, 0x2c, 0x01, 0x66, 0x5a] :=
  .arith (ca := [0x02, 0x15, 0x58]) (cb := [0xfe, 0x0c, 0x2c, 0x01, 0x66])
    (.arith (ca := [0x02]) (cb := [0x15]) (.var (by decide) (by decide)) (.const (by decide)))
    (.not (ca := [0xfe, 0x0c, 0x2c, 0x01]) (.var (by decide) (by decide)))

example : Expr.eval true (fun x i => if x = .arg ∧ i = 0 then some 7 else if x = .loc ∧ i = 300 then some 4 else none)
    (.arith .mul (.arith .add (.var .arg 0) (.const (-1))) (.not (.var .loc 300))) = .done (BitVec.ofInt 32 (-30)) := by
  decide +kernel

/-! ## C72 -/

/-- The claim C72: a static method has the code of the statement `s`, then of the expression `e`, then `ret`. It is run by
the host with the arguments `args`. `n` is the number of arguments and locals. Its locals start with the values `init`. -/
def RunsProgram (ok : Bytes → Prop) (init : Option (BitVec 32)) : Prop :=
  ∀ (cfg : Cfg) (ops : FloatOps) (tf : Nat) (w : World) (m : MethodRec) (body : MethodBody) (t : TypeRec)
    (asm : AssemblyRec) (args : List (BitVec 32)) (s : Stmt) (e : Expr) (cs ce more : Bytes),
    m.isStatic → m.impl = .il body → w.types[m.declaringType]? = some t →
    w.assemblies.find? (·.id = t.assembly) = some asm → IsValue w m →
    body.code = cs ++ (ce ++ 0x2a :: more) → body.code.length < 2 ^ 62 → body.locals.length < 2 ^ 32 →
    s.Code ok cs → e.Code ok ce →
    let n : Var → Nat := fun | .loc => body.locals.length | .arg => args.length
    let σ : Store := fun | .loc, i => (if i < body.locals.length then init else none) | .arg, i => args[i]?
    s.Within n →
    (∀ rounds a, (s.exec cfg.checks rounds σ).bind (fun σ' => e.eval cfg.checks σ') = .done a →
      ∃ k, ∀ fuel, k ≤ fuel → (hostExecute cfg ops tf fuel w m (args.map .i32)).1 = .ok (.number (.i32 a))) ∧
    (∀ rounds, (s.exec cfg.checks rounds σ).bind (fun σ' => e.eval cfg.checks σ') = .stops →
      ∃ k, ∀ fuel, k ≤ fuel → (hostExecute cfg ops tf fuel w m (args.map .i32)).1 = .panic) ∧
    ((∀ rounds, s.exec cfg.checks rounds σ = .unfinished) →
      ∀ fuel, (hostExecute cfg ops tf fuel w m (args.map .i32)).1 = .timeout)

/-- **C72** for programs that assign locals before using them, and all encodings except `ldarg` and `starg` with a two-byte
index. -/
theorem C72_partial : RunsProgram (fun l => ¬ Wide l) none := by
  intro cfg ops tf w m body t asm args s e cs ce more hst himpl ht ha hval hcode hlen hloc hs he n σ hw
  obtain ⟨fr, v1, h1, h2, h3, -, h4, h5, h6, -, h7, h8, h9, h10⟩ :=
    C57_frames (cfg := cfg) (ops := ops) (tf := tf) (v := { world := w, host := args.map .i32 }) m body .host t asm himpl ht
      ha ⟨show 1024 < 2 ^ 62 by decide, by simp; omega⟩ (by intro g b c h; cases h)
  have hhost : ∀ fuel, (hostExecute cfg ops tf fuel w m (args.map .i32)).1 =
      hostResult (loop cfg ops tf fuel fr 0 v1).1 := by
    intro fuel
    simp only [hostExecute, hst, if_true, h1]
  have hc : HasAt fr.code 0 (cs ++ (ce ++ 0x2a :: more)) := ⟨[], by rw [h2, hcode]; simp⟩
  have hready : Ready fr v1 n := by
    refine ⟨fun x i hi => ?_, h5⟩
    cases x with
    | loc => exact (h9 i hi).1
    | arg =>
      show Usable v1 fr.params i
      rw [h4]
      show i < v1.host.length
      rw [h8]; simpa using hi
  have hholds : Holds fr v1 σ := by
    intro x i a hx
    cases x with
    | loc => simp [σ] at hx
    | arg =>
      replace hx : args[i]? = some a := hx
      show Usable v1 fr.params i ∧ fr.params.at v1 i = _
      rw [h4]
      have : v1.host[i]? = some (.i32 a) := by rw [h8]; simp [hx]
      exact ⟨(List.getElem?_eq_some_iff.1 this).1, this⟩
  have hrun := fun rounds => stmt_run (cfg := cfg) (ops := ops) (tf := tf) (fun _ => id) (by rw [h2]; exact hlen) s rounds hs hw
    hc.left hready hholds
  have hexpr := fun v' σ' (hv : Holds fr v' σ') => expr_run (cfg := cfg) (ops := ops) (tf := tf)
    (ok := fun l => ¬ Wide l) (fun l h h' => h (.inl h')) he hc.drop.left hv
  have hret : HasAt fr.code (0 + cs.length + ce.length) [0x2a] :=
    HasAt.left (b := more) (by simpa using hc.drop.drop)
  refine ⟨fun rounds a h0 => ?_, fun rounds h => ?_, fun h fuel => ?_⟩
  · obtain ⟨σ', h, hea⟩ : ∃ σ', s.exec cfg.checks rounds σ = .done σ' ∧ e.eval cfg.checks σ' = .done a := by
      cases hex : s.exec cfg.checks rounds σ <;> rw [hex] at h0
      · exact ⟨_, rfl, h0⟩
      all_goals cases h0
    have hx := hrun rounds
    rw [h] at hx
    obtain ⟨k, v', hk, hlike, hv⟩ := hx
    have hy := hexpr v' σ' hv
    rw [hea] at hy
    obtain ⟨l, hl⟩ := hy
    refine ⟨1 + (k + (l + 1)), fun fuel hf => ?_⟩
    obtain ⟨j, rfl⟩ : ∃ j, fuel = (j + 1) + (k + (l + 1)) := ⟨fuel - (1 + (k + (l + 1))), by omega⟩
    rw [hhost, (hk.trans hl).loop_eq, C54_ret (a := .i32 a) (rest := v'.operands) (by
      show IsValue v'.world fr.method
      rw [h3, hlike.world, h7]; exact hval) rfl hret]
    rfl
  · have hx := hrun rounds
    cases hex : s.exec cfg.checks rounds σ with
    | done σ' =>
      rw [hex] at h hx
      replace h : e.eval cfg.checks σ' = .stops := h
      obtain ⟨k, v', hk, -, hv⟩ := hx
      have hy := hexpr v' σ' hv
      rw [h] at hy
      obtain ⟨l, n, v2, hl, hp⟩ := hy
      exact ⟨k + l + 1, fun fuel hf => by rw [hhost, (hk.trans hl).loop_stops hp hf]; rfl⟩
    | stops =>
      rw [hex] at hx
      obtain ⟨k, n, v2, hk, hp⟩ := hx
      exact ⟨k + 1, fun fuel hf => by rw [hhost, hk.loop_stops hp hf]; rfl⟩
    | undefined => rw [hex] at h; cases h
    | unfinished => rw [hex] at h; cases h
  · have hx := hrun fuel
    rw [h fuel] at hx
    obtain ⟨k, n, v2, hf, hk⟩ := hx
    rw [hhost, hk.loop_timeout hf]; rfl

/-- **C72 fails** when a program relies on its locals being zero at first, as C# compilers let it. -/
theorem C72_refuted : ¬ RunsProgram (fun l => ¬ Wide l) (some 0) := by
  intro h
  let m := Ex.meth [0x06, 0x17, 0x58, 0x2a] (ret := 8) (locals := 1)
  have h1 := (h .release Ex.floats 9 (Ex.tiny [m]) m ⟨[0x06, 0x17, 0x58, 0x2a], 8, [8], true, []⟩ _ _ [] .skip
    (.arith .add (.var .loc 0) (.const 1)) [] [0x06, 0x17, 0x58] [] rfl rfl rfl rfl
    ⟨_, _, _, rfl, rfl, rfl, by decide⟩ rfl (by decide) (by decide) .skip
    (.arith (ca := [0x06]) (cb := [0x17]) (.var (by decide) (by decide)) (.const (by decide))) trivial).1 0 1
    (by rw [Stmt.exec]; decide)
  obtain ⟨k, hk⟩ := h1
  have hp : (hostExecute .release Ex.floats 9 9 (Ex.tiny [m]) m []).1 = .panic := by decide +kernel
  have h2 := hk (k + 9) (by omega)
  rw [List.map_nil, hostExecute_more (show 9 ≤ k + 9 by omega) (by rw [hp]; simp), hp] at h2
  cases h2

namespace Ex

/-- `r = 1; while (n > 0) { r = r * n; n = n - 1; }` with the argument `n` and the local `r`. -/
def factorial : Stmt :=
  .seq (.set .loc 0 (.const 1)) (.while (.compare .gt (.var .arg 0) (.const 0))
    (.seq (.set .loc 0 (.arith .mul (.var .loc 0) (.var .arg 0))) (.set .arg 0 (.arith .sub (.var .arg 0) (.const 1)))))

def factorialCode : Bytes :=
  [0x17, 0x0a, 0x02, 0x16, 0xfe, 0x02, 0x2c, 0x0b, 0x06, 0x02, 0x5a, 0x0a, 0x02, 0x17, 0x59, 0x10, 0x00, 0x2b, 0xef]

theorem factorial_code : factorial.Code (fun l => ¬ Wide l) factorialCode :=
  .seq (ca := [0x17, 0x0a]) (.set (ce := [0x17]) (.const (by decide)) (by decide) (by decide))
    (.while (cc := [0x02, 0x16, 0xfe, 0x02]) (ca := [0x06, 0x02, 0x5a, 0x0a, 0x02, 0x17, 0x59, 0x10, 0x00])
      (f := .short) (g := .short)
      (.compare (ca := [0x02]) (cb := [0x16]) (.var (by decide) (by decide)) (.const (by decide)))
      (.seq (ca := [0x06, 0x02, 0x5a, 0x0a])
        (.set (ce := [0x06, 0x02, 0x5a]) (.arith (ca := [0x06]) (cb := [0x02]) (.var (by decide) (by decide))
          (.var (by decide) (by decide))) (by decide) (by decide))
        (.set (ce := [0x02, 0x17, 0x59]) (.arith (ca := [0x02]) (cb := [0x17]) (.var (by decide) (by decide))
          (.const (by decide))) (by decide) (by decide)))
      (by decide) (by decide))

end Ex

/-- The program of the example computes 5! = 120, by the theorem. -/
example : ∃ k, ∀ fuel, k ≤ fuel → (hostExecute .debug Ex.floats 9 fuel
    (Ex.tiny [Ex.meth (Ex.factorialCode ++ [0x06, 0x2a]) (ret := 8) (params := 1) (locals := 1)])
    (Ex.meth (Ex.factorialCode ++ [0x06, 0x2a]) (ret := 8) (params := 1) (locals := 1)) [.i32 5]).1 =
      .ok (.number (.i32 120)) :=
  (C72_partial .debug Ex.floats 9 _ _ _ _ _ [5] Ex.factorial (.var .loc 0) Ex.factorialCode [0x06] [] rfl rfl rfl rfl
    ⟨_, _, _, rfl, rfl, rfl, by decide⟩ rfl (by decide) (by decide) Ex.factorial_code (.var (by decide) (by decide))
    (by simp [Ex.factorial, Stmt.Within, Expr.Within])).1 5 120 (by decide +kernel)

/-- `while (1) {}` does not end. -/
example (σ : Store) (rounds : Nat) : (Stmt.while (.const 1) .skip).exec true rounds σ = .unfinished := by
  induction rounds with
  | zero => rfl
  | succ n ih =>
    rw [Stmt.exec] at ih ⊢
    rw [iterate]
    exact ih

end Clr
