import Verif.Model.Nesting
import Verif.Spec.Nesting
import Verif.Lemmas.Onward
import Verif.Lemmas.Quiet
import Verif.Props.Links
/-! # Nested calls (for C114) -/

namespace Clr
open Spec

variable {α β : Type} {cfg : Cfg} {ops : FloatOps} {tf fuel : Nat} {w : World}

/-! ## Forgetting the count -/

/-- `x` is `y` with a count. -/
structure D.Is (x : D α) (y : X α) : Prop where
  same : ∀ v, (x v).1 = y v

namespace D.Is

theorem of (x : X α) : D.Is (D.of x) x := ⟨fun _ => rfl⟩
theorem pure (a : α) : D.Is (Pure.pure a : D α) (Pure.pure a) := ⟨fun _ => rfl⟩

theorem bind {x : D α} {y : X α} {f : α → D β} {g : α → X β} (hx : D.Is x y) (hf : ∀ a, D.Is (f a) (g a)) :
    D.Is (x >>= f) (y >>= g) := by
  refine ⟨fun v => ?_⟩
  show (D.bind x f v).1 = _
  rw [X.bind_run, ← hx.same]
  unfold D.bind
  rcases (x v).1 with ⟨r, v1⟩
  cases r with
  | ok a => exact (hf a).same v1
  | _ => rfl

theorem deeper {x : D α} {y : X α} (h : D.Is x y) : D.Is (D.deeper x) y := ⟨h.same⟩

theorem finally' {x : D α} {y : X α} (h : D.Is x y) (f : VM → Res VM) : D.Is (D.finally' x f) (X.finally' y f) := by
  refine ⟨fun v => ?_⟩
  have : (fun v => (x v).1) = y := funext h.same
  unfold D.finally'
  rw [this]

theorem invoke {run : Frame → Nat → D (Option Value)} {run' : Frame → Nat → X (Option Value)} (h : ∀ fr i, D.Is (run fr i) (run' fr i))
    (m : MethodRec) (r : Region) : D.Is (invokeD cfg run m r) (invoke cfg run' m r) := by
  unfold invokeD Clr.invoke
  cases m.impl with
  | il body => exact .bind (.of _) fun _ => .bind (.of _) fun _ => .bind (.of _) fun _ => .finally' (.deeper (.bind (.of _) fun _ => h _ _)) _
  | internal f => exact .of _
  | none => exact .of _

theorem callMethod {run : Frame → Nat → D (Option Value)} {run' : Frame → Nat → X (Option Value)} (h : ∀ fr i, D.Is (run fr i) (run' fr i))
    (fr : Frame) (t : Token) : D.Is (callMethodD cfg run fr t) (callMethod cfg run' fr t) := by
  unfold callMethodD Clr.callMethod
  refine .bind (.of _) fun _ => .bind (.of _) fun _ => .bind (.of _) fun _ => .bind (.of _) fun _ => .bind (.invoke h _ _) fun a => ?_
  cases a with
  | some a => exact .of _
  | none => exact .pure _

theorem loop (fuel : Nat) (fr : Frame) (ip : Nat) : D.Is (loopD cfg ops tf fuel fr ip) (loop cfg ops tf fuel fr ip) := by
  induction fuel generalizing fr ip with
  | zero => exact .of _
  | succ fuel ih =>
    unfold loopD Clr.loop
    refine .bind (.of _) fun a => ?_
    cases a with
    | next n => exact ih fr n
    | ret r => exact .pure _
    | call token after n =>
      refine .bind (.callMethod ih fr token) fun _ => ?_
      cases after with
      | some a => exact .bind (.of _) fun _ => ih fr n
      | none => exact ih fr n

end D.Is

/-! ## The count of a sequence -/

theorem D.bind_count {x : D α} {f : α → D β} {v : VM} {P : Nat → Prop} (hmax : ∀ a b, P a → P b → P (max a b)) (hx : P (x v).2)
    (hf : ∀ a v', (x v).1 = (.ok a, v') → P (f a v').2) : P ((x >>= f : D β) v).2 := by
  show P (D.bind x f v).2
  unfold D.bind
  rcases h : (x v).1 with ⟨r, v1⟩
  cases r with
  | ok a => exact hmax _ _ hx (hf a v1 h)
  | _ => exact hx

/-- There is a chain of at least `k` calls from `m`. -/
def Within (cfg : Cfg) (w : World) (m : MethodRec) (k : Nat) : Prop :=
  ∃ ms : List MethodRec, List.IsChain (CallsIn cfg w) (m :: ms) ∧ k ≤ ms.length

namespace Within

theorem zero (m : MethodRec) : Within cfg w m 0 := ⟨[], .singleton _, Nat.le_refl _⟩
theorem max {m : MethodRec} {a b : Nat} (ha : Within cfg w m a) (hb : Within cfg w m b) : Within cfg w m (max a b) := by
  rcases Nat.le_total a b with h | h
  · rwa [Nat.max_eq_right h]
  · rwa [Nat.max_eq_left h]
theorem call {m m' : MethodRec} {k : Nat} (h : CallsIn cfg w m m') (h' : Within cfg w m' k) : Within cfg w m (k + 1) := by
  obtain ⟨ms, h1, h2⟩ := h'
  exact ⟨m' :: ms, .cons_cons h h1, by simpa using h2⟩

end Within

/-- What a frame of `m` is made of. -/
structure FrameOf (w : World) (m : MethodRec) (fr : Frame) : Prop where
  il : ∃ body, m.impl = .il body ∧ fr.code = body.code
  assembly : w.assemblyOf m.declaringType = .ok fr.assembly

theorem ofCode_code {n : Nat} {op : Op} (h : Op.ofCode n = some op) : op.code = n := by
  have := List.find?_some h
  simpa using this

theorem fetchOp_byte {code : Bytes} {ip n : Nat} {op : Op} (h : fetchOp code ip = .ok (op, n)) (hop : op.code < 256) :
    code[ip]? = some (UInt8.ofNat op.code) ∧ n = ip + 1 := by
  unfold fetchOp at h
  obtain ⟨b, hb, h⟩ := Res.bind_eq_ok.1 h
  rw [unwrap_eq_ok] at hb
  split at h
  · next hb8 =>
    obtain ⟨c, hc, h⟩ := Res.bind_eq_ok.1 h
    obtain ⟨op', ho, h⟩ := Res.bind_eq_ok.1 h
    cases h
    rw [unwrap_eq_ok] at ho
    have := ofCode_code ho
    have : b.toNat <<< 8 ≤ c.toNat ||| (b.toNat <<< 8) := Nat.right_le_or
    have e : b.toNat <<< 8 = b.toNat * 256 := Nat.shiftLeft_eq _ 8
    omega
  · obtain ⟨op', ho, h⟩ := Res.bind_eq_ok.1 h
    cases h
    rw [unwrap_eq_ok] at ho
    rw [ofCode_code ho, hb]
    simp

/-- A call that an instruction asks for is one that the code shows at its address. -/
theorem step_call_at {fr : Frame} {ip ip' : Nat} {t : Token} {after : Option Value} {v v' : VM}
    (h : step cfg ops tf fr ip v = (.ok (.call t after ip'), v')) : (fr.code[ip]? = some 0x28 ∨ fr.code[ip]? = some 0x73) ∧
      ip + 5 ≤ fr.code.length ∧ leNat ((fr.code.drop (ip + 1)).take 4) = t.raw := by
  cases hf : fetchOp fr.code ip with
  | ok r =>
    obtain ⟨op, n⟩ := r
    rw [step_of_fetch hf] at h
    have hop : op = .Call ∨ op = .Newobj := by
      refine Classical.byContradiction fun hn => ?_
      exact exec_calls (cfg := cfg) (ops := ops) (tf := tf) (fr := fr) (ip := n) (op := op)
        ⟨fun h => hn (.inr h), fun h => hn (.inl h)⟩ v (.call t after ip') (by rw [h]) _ _ _ rfl
    have hft : fetch fr.code n 4 = .ok t.raw := by
      rcases hop with rfl | rfl
      · replace h : doCall fr n v = (.ok (.call t after ip'), v') := h
        unfold doCall at h
        rw [X.bind_run] at h
        cases hg : fetch fr.code n 4 <;> rw [hg] at h <;> cases h
        rfl
      · replace h : doNewobj cfg tf fr n v = (.ok (.call t after ip'), v') := h
        unfold doNewobj at h
        rw [X.bind_run] at h
        cases hg : fetch fr.code n 4 with
        | ok x =>
          rw [hg] at h
          obtain ⟨_, _, -, h⟩ := X.bind_eq_ok.1 h
          obtain ⟨_, _, -, h⟩ := X.bind_eq_ok.1 h
          obtain ⟨_, _, -, h⟩ := X.bind_eq_ok.1 h
          obtain ⟨_, _, -, h⟩ := X.bind_eq_ok.1 h
          cases h
          rfl
        | _ => rw [hg] at h; cases h
    obtain ⟨h1, h2⟩ : (fr.code[ip]? = some 0x28 ∨ fr.code[ip]? = some 0x73) ∧ n = ip + 1 := by
      rcases hop with rfl | rfl
      · exact ⟨.inl (fetchOp_byte hf (by decide)).1, (fetchOp_byte hf (by decide)).2⟩
      · exact ⟨.inr (fetchOp_byte hf (by decide)).1, (fetchOp_byte hf (by decide)).2⟩
    subst h2
    unfold fetch at hft
    split at hft
    · next hl =>
      injection hft with hft
      exact ⟨h1, by omega, hft⟩
    · cases hft
  | _ =>
    unfold step at h
    rw [X.bind_run] at h
    rw [hf] at h
    cases h

theorem step_call {fr : Frame} {m m' : MethodRec} {ip ip' : Nat} {t : Token} {after : Option Value} {v v' : VM} (hfr : FrameOf w m fr)
    (h : step cfg ops tf fr ip v = (.ok (.call t after ip'), v')) (hm : fr.assembly.resolveMethod cfg t = .ok (some m')) :
    CallsIn cfg w m m' := by
  obtain ⟨body, hb, hc⟩ := hfr.il
  obtain ⟨h1, h2, h3⟩ := step_call_at h
  rw [hc] at h1 h2 h3
  refine ⟨fr.assembly, body, ip, hfr.assembly, hb, h1, h2, ?_⟩
  rw [h3]
  exact hm

/-- The methods that an assembly's tokens stand for are declared by registered types. -/
theorem resolveMethod_declared (hw : Reached cfg w) {a : AssemblyRec} (ha : a ∈ w.assemblies) {t : Token} {m : MethodRec}
    (h : a.resolveMethod cfg t = .ok (some m)) : ∃ r, w.types[m.declaringType]? = some r ∧ m ∈ r.methods := by
  have whole := C98_assemblies hw a ha
  unfold AssemblyRec.resolveMethod at h
  split at h
  · obtain ⟨i, -, h⟩ := Res.bind_eq_ok.1 h
    injection h with h
    obtain ⟨t, r, -, h1, h2⟩ := (whole.methods m).1 (List.mem_of_getElem? h)
    have := ((C98_types hw t r h1).methods m h2).1
    rw [this]
    exact ⟨r, h1, h2⟩
  · split at h
    · obtain ⟨i, -, h⟩ := Res.bind_eq_ok.1 h
      injection h with h
      exact whole.methodRefs m (List.mem_of_getElem? h)
    · cases h

theorem CallsIn.declared (hw : Reached cfg w) {m m' : MethodRec} (h : CallsIn cfg w m m') :
    ∃ r, w.types[m'.declaringType]? = some r ∧ m' ∈ r.methods := by
  obtain ⟨a, body, ip, ha, h1, h3, h4, h⟩ := h
  obtain ⟨_, _, h2, _⟩ := assemblyOf_ok ha
  exact resolveMethod_declared hw h2 h

/-- The assembly of a registered type is what it was. -/
theorem assemblyOf_before (hw : Reached cfg w) {t : Nat} (ht : t < w.types.length) {w' : World} (hl : Later cfg w w') {a : AssemblyRec}
    (h : w'.assemblyOf t = .ok a) : w.assemblyOf t = .ok a := by
  cases e : w.assemblyOf t with
  | ok b =>
    rw [(C98_assembly_partial hw t b e).1 w' hl] at h
    exact h
  | panic => rw [(C98_failed hw t ht e hl).1] at h; cases h
  | _ =>
    exfalso
    rw [assemblyOf_eq (List.getElem?_eq_getElem ht)] at e
    cases hf : w.assemblies.find? (·.id = (w.types[t]).assembly) <;> rw [hf] at e <;> cases e

theorem invoke_within {run : Frame → Nat → D (Option Value)} {m : MethodRec} {r : Region} {v : VM}
    (hassembly : ∀ a, v.world.assemblyOf m.declaringType = .ok a → w.assemblyOf m.declaringType = .ok a)
    (hl : Later cfg w v.world)
    (hrun : ∀ fr v, FrameOf w m fr → Later cfg w v.world → Within cfg w m (run fr 0 v).2) :
    (invokeD cfg run m r v).2 = 0 ∨ ∃ k, (invokeD cfg run m r v).2 ≤ k + 1 ∧ Within cfg w m k := by
  unfold invokeD
  cases hb : m.impl with
  | il body =>
    have hmax : ∀ a b, (a = 0 ∨ ∃ k, a ≤ k + 1 ∧ Within cfg w m k) → (b = 0 ∨ ∃ k, b ≤ k + 1 ∧ Within cfg w m k) →
        (max a b = 0 ∨ ∃ k, max a b ≤ k + 1 ∧ Within cfg w m k) := by
      intro a b ha hb
      rcases Nat.le_total a b with h | h
      · rwa [Nat.max_eq_right h]
      · rwa [Nat.max_eq_left h]
    refine D.bind_count (P := fun n => n = 0 ∨ ∃ k, n ≤ k + 1 ∧ Within cfg w m k) hmax (.inl rfl) fun t v1 ht => ?_
    refine D.bind_count (P := fun n => n = 0 ∨ ∃ k, n ≤ k + 1 ∧ Within cfg w m k) hmax (.inl rfl) fun a v2 ha => ?_
    refine D.bind_count (P := fun n => n = 0 ∨ ∃ k, n ≤ k + 1 ∧ Within cfg w m k) hmax (.inl rfl) fun o v3 ho => ?_
    have e1 : v1 = v := by have := congrArg Prod.snd ht; exact this.symm
    subst e1
    have e2 : v2 = v1 := by have := congrArg Prod.snd ha; exact this.symm
    subst e2
    have hasm : v2.world.assemblyOf m.declaringType = .ok a := by
      unfold World.assemblyOf
      rw [show v2.world.typeAt m.declaringType = .ok t from congrArg Prod.fst ht]
      exact congrArg Prod.fst ha
    have hw3 : v3.world = v2.world := by
      have : v3 = { v2 with allocated := 0 } := (congrArg Prod.snd ho).symm
      rw [this]
    refine .inr ⟨_, Nat.le_refl _, ?_⟩
    refine D.bind_count (P := Within cfg w m) (fun _ _ => .max) (.zero m) fun loc v4 h4 => ?_
    refine hrun _ _ ⟨⟨body, hb, rfl⟩, hassembly a hasm⟩ ?_
    have := (inferInstance : Advances cfg (stackAlloc body.locals.length)).later v3
    rw [show stackAlloc body.locals.length v3 = (.ok loc, v4) from h4] at this
    exact hl.trans (hw3 ▸ this.later)
  | internal f => exact .inl rfl
  | none => exact .inl rfl

theorem loop_within (hw : Reached cfg w) (fuel : Nat) : ∀ (m : MethodRec) (fr : Frame) (ip : Nat) (v : VM), FrameOf w m fr →
    Later cfg w v.world → Within cfg w m (loopD cfg ops tf fuel fr ip v).2 := by
  induction fuel with
  | zero => exact fun m _ _ _ _ _ => .zero m
  | succ fuel ih =>
    intro m fr ip v hfr hl
    unfold loopD
    refine D.bind_count (P := Within cfg w m) (fun _ _ => .max) (.zero m) fun a v1 h1 => ?_
    replace h1 : step cfg ops tf fr ip v = (.ok a, v1) := h1
    have hl1 : Later cfg w v1.world := by
      have := (inferInstance : Advances cfg (step cfg ops tf fr ip)).later v
      rw [h1] at this
      exact hl.trans this.later
    cases a with
    | next n => exact ih m fr n v1 hfr hl1
    | ret r => exact .zero m
    | call token after n =>
      refine D.bind_count (P := Within cfg w m) (fun _ _ => .max) ?_ fun u v2 h2 => ?_
      · unfold callMethodD
        refine D.bind_count (P := Within cfg w m) (fun _ _ => .max) (.zero m) fun om v3 h3 => ?_
        have e3 : fr.assembly.resolveMethod cfg token = .ok om ∧ v3 = v1 := by
          exact ⟨congrArg Prod.fst h3, (congrArg Prod.snd h3).symm⟩
        obtain ⟨e3, rfl⟩ := e3
        refine D.bind_count (P := Within cfg w m) (fun _ _ => .max) (.zero m) fun m' v4 h4 => ?_
        have e4 : Res.ofOption "Cannot find method for metadata token" om = .ok m' ∧ v4 = v3 := by
          exact ⟨congrArg Prod.fst h4, (congrArg Prod.snd h4).symm⟩
        obtain ⟨e4, rfl⟩ := e4
        rw [ofOption_eq_ok] at e4
        subst e4
        have hcall := step_call hfr h1 e3
        refine D.bind_count (P := Within cfg w m) (fun _ _ => .max) (.zero m) fun r v5 h5 => ?_
        refine D.bind_count (P := Within cfg w m) (fun _ _ => .max) (.zero m) fun _ v6 h6 => ?_
        have hl5 : Later cfg w v5.world := by
          have := (inferInstance : Advances cfg (stackAlloc (if m'.isStatic then m'.params.length else m'.params.length + 1))).later v4
          rw [show stackAlloc _ v4 = (.ok r, v5) from h5] at this
          exact hl1.trans this.later
        have hl6 : Later cfg w v6.world := by
          have := (inferInstance : Advances cfg (popInto r (if m'.isStatic then m'.params.length else m'.params.length + 1))).later v5
          rw [show popInto r _ v5 = (.ok _, v6) from h6] at this
          exact hl5.trans this.later
        refine D.bind_count (P := Within cfg w m) (fun _ _ => .max) ?_ fun o v7 h7 => ?_
        · obtain ⟨rec, hrec, -⟩ := CallsIn.declared hw hcall
          rcases invoke_within (cfg := cfg) (w := w) (run := loopD cfg ops tf fuel) (m := m') (r := r) (v := v6)
            (fun a ha => assemblyOf_before hw (List.getElem?_eq_some_iff.mp hrec).1 hl6 ha) hl6 (fun fr v hf hv => ih m' fr 0 v hf hv) with h | ⟨k, h, hk⟩
          · rw [h]; exact .zero m
          · obtain ⟨ms, g1, g2⟩ := Within.call hcall hk
            exact ⟨ms, g1, Nat.le_trans h g2⟩
        · cases o with
          | some a => exact .zero m
          | none => exact .zero m
      · have hl2 : Later cfg w v2.world := by
          have := (inferInstance : Advances cfg (callMethod cfg (loop cfg ops tf fuel) fr token)).later v1
          rw [← (D.Is.callMethod (D.Is.loop fuel) fr token).same, h2] at this
          exact hl1.trans this.later
        cases after with
        | some a =>
          refine D.bind_count (P := Within cfg w m) (fun _ _ => .max) (.zero m) fun _ v3 h3 => ?_
          refine ih m fr n v3 hfr ?_
          have := (inferInstance : Advances cfg (push a)).later v2
          rw [show push a v2 = (.ok _, v3) from h3] at this
          exact hl2.trans this.later
        | none => exact ih m fr n v2 hfr hl2

end Clr
