import Verif.Spec.Args
import Verif.Lemmas.Carry
import Verif.Lemmas.Hosted
import Verif.Props.Arith
import Verif.Lemmas.Tiny
/-! # Arguments from the host (C107) -/

namespace Clr
open Spec

variable {cfg : Cfg}

theorem ofCode_code {n : Nat} {op : Op} (h : Op.ofCode n = some op) : op.code = n := by
  have := List.find?_some h
  simpa using this

theorem fetchOp_ok {code : Bytes} {ip i : Nat} {op : Op} (h : fetchOp code ip = .ok (op, i)) :
    (∃ b, code[ip]? = some b ∧ b.toNat ≤ 0xf8 ∧ op.code = b.toNat ∧ i = ip + 1) ∨
    ∃ b c, code[ip]? = some b ∧ 0xf8 < b.toNat ∧ code[ip + 1]? = some c ∧ op.code = b.toNat * 256 + c.toNat ∧ i = ip + 2 := by
  unfold fetchOp at h
  obtain ⟨b, hb, h⟩ := Res.bind_eq_ok.1 h
  have hb' : code[ip]? = some b := by
    cases e : code[ip]? with
    | none => rw [e] at hb; cases hb
    | some x => rw [e] at hb; cases hb; rfl
  split at h
  · next hx =>
    obtain ⟨c, hc, h⟩ := Res.bind_eq_ok.1 h
    have hc' : code[ip + 1]? = some c := by
      cases e : code[ip + 1]? with
      | none => rw [e] at hc; cases hc
      | some x => rw [e] at hc; cases hc; rfl
    obtain ⟨o, ho, h⟩ := Res.bind_eq_ok.1 h
    cases h
    have ho' : Op.ofCode (c.toNat ||| (b.toNat <<< 8)) = some op := by
      cases e : Op.ofCode (c.toNat ||| (b.toNat <<< 8)) with
      | none => rw [e] at ho; cases ho
      | some x => rw [e] at ho; cases ho; rfl
    refine .inr ⟨b, c, hb', hx, hc', ?_, rfl⟩
    rw [ofCode_code ho', Nat.or_comm, ← Nat.shiftLeft_add_eq_or_of_lt (by have := c.toNat_lt; omega), Nat.shiftLeft_eq]
  · next hx =>
    obtain ⟨o, ho, h⟩ := Res.bind_eq_ok.1 h
    cases h
    have ho' : Op.ofCode b.toNat = some op := by
      cases e : Op.ofCode b.toNat with
      | none => rw [e] at ho; cases ho
      | some x => rw [e] at ho; cases ho; rfl
    exact .inl ⟨b, hb', by omega, ofCode_code ho', rfl⟩

theorem leNat_single (b : UInt8) : leNat [b] = b.toNat := by simp [leNat]

theorem storesIn (code : Bytes) : StoresIn (StoresArg code) code := by
  constructor
  · intro ip i h k hk
    rcases fetchOp_ok h with ⟨b, h1, h2, h3, rfl⟩ | ⟨b, c, h1, h0, h2, h3, rfl⟩
    · have hb : b = 0x10 := UInt8.toNat_inj.mp (by rw [← h3]; rfl)
      refine ⟨ip, .inl ⟨by rw [h1, hb], ?_⟩⟩
      unfold fetch at hk
      split at hk
      · next hl =>
        cases hk
        have hx : ip + 1 < code.length := by omega
        rw [List.getElem?_eq_getElem hx, List.drop_eq_getElem_cons hx]
        rw [List.take_succ_cons, List.take_zero, leNat_single]
        rfl
      · cases hk
    · exfalso
      have : Op.code .Starg_S = 0x10 := rfl
      omega
  · intro ip i h k hk
    rcases fetchOp_ok h with ⟨b, h1, h2, h3, rfl⟩ | ⟨b, c, h1, h0, h2, h3, rfl⟩
    · exfalso
      have : Op.code .Starg = 0xfe0b := rfl
      omega
    · have hc : Op.code .Starg = 0xfe0b := rfl
      have hb := b.toNat_lt
      have hc' := c.toNat_lt
      have e1 : b = 0xfe := UInt8.toNat_inj.mp (by show b.toNat = 254; omega)
      have e2 : c = 0x0b := UInt8.toNat_inj.mp (by show c.toNat = 11; omega)
      exact ⟨ip, .inr ⟨by rw [h1, e1], by rw [h2, e2]⟩⟩

/-- The full claim. False of the code: see `C107_refuted`, `C107_refuted_missing`. -/
def C107_full : Prop := ∀ (cfg : Cfg) (ops : FloatOps) (tf fuel : Nat) (w : World) (m : MethodRec) (params : List Value),
  (hostExecute cfg ops tf fuel w m params).2.host = params ∧
  (params.length < m.params.length → ∃ msg, (hostExecute cfg ops tf fuel w m params).1 = .ok (.err msg))

/-- **C107**: whatever runs, the number of the host's arguments stays the same, and each argument keeps its value unless the code of
the executed method itself has an instruction that stores into it. Methods that it calls, itself included, cannot change them. -/
theorem C107_kept_partial (ops : FloatOps) (tf fuel : Nat) (w : World) (m : MethodRec) (params : List Value) :
    (hostExecute cfg ops tf fuel w m params).2.host.length = params.length ∧
    ∀ i, (∀ body, m.impl = .il body → ¬ StoresArg body.code i) →
      (hostExecute cfg ops tf fuel w m params).2.host[i]? = params[i]? := by
  cases hm : m.impl with
  | il body =>
    have h := hostExecute_hosted (cfg := cfg) ops tf fuel w (m := m) params (S := StoresArg body.code) fun b hb => by
      rw [hm] at hb; cases hb; exact storesIn _
    exact ⟨h.1.symm, fun i hi => (h.2 i (hi body rfl)).symm⟩
  | internal f =>
    have h := hostExecute_hosted (cfg := cfg) ops tf fuel w (m := m) params (S := fun _ => False) fun b hb => by
      rw [hm] at hb; cases hb
    exact ⟨h.1.symm, fun i _ => (h.2 i id).symm⟩
  | none =>
    have h := hostExecute_hosted (cfg := cfg) ops tf fuel w (m := m) params (S := fun _ => False) fun b hb => by
      rw [hm] at hb; cases hb
    exact ⟨h.1.symm, fun i _ => (h.2 i id).symm⟩

/-- **C107**, surplus arguments: what the host passes beyond what the method uses has no influence on how the execution ends, on
the heap and stack it leaves and on what it prints, and stays as it is. The hypotheses are that without the surplus the method
does not panic (for want of an argument, for instance) and makes no new array type. -/
theorem C107_surplus (ops : FloatOps) (tf fuel : Nat) (w : World) (m : MethodRec) (params surplus : List Value)
    (hp : (hostExecute cfg ops tf fuel w m params).1 ≠ .panic)
    (ht : (hostExecute cfg ops tf fuel w m params).2.world.types.length = w.types.length) :
    hostExecute cfg ops tf fuel w m (params ++ surplus) = ((hostExecute cfg ops tf fuel w m params).1,
      { (hostExecute cfg ops tf fuel w m params).2 with host := (hostExecute cfg ops tf fuel w m params).2.host ++ surplus }) := by
  obtain ⟨s, h1, h2⟩ := hostExecute_carry (.refl w) ops tf fuel m params surplus hp ht
  rw [h2, ← h1]
  rfl

/-- **C107**, missing arguments: a method that starts by loading an argument that the host did not pass stops the process. -/
theorem C107_missing (ops : FloatOps) (tf fuel : Nat) (w : World) (m : MethodRec) (body : MethodBody) (rest : Bytes)
    (hs : m.isStatic = true) (hm : m.impl = .il body) (hc : body.code = 0x02 :: rest) :
    (hostExecute cfg ops tf (fuel + 1) w m []).1 = .panic := by
  have hrun : ∀ (a : AssemblyRec) (l : Region) (v : VM), v.host = [] →
      loop cfg ops tf (fuel + 1) { method := m, assembly := a, code := body.code, locals := l, params := .host } 0 v = (.panic, v) := by
    intro a l v hv
    unfold loop
    rw [X.bind_run, step_one (b := 0x02) (bs := rest) (op := .Ldarg_0) (by show _ <+: body.code.drop 0; rw [hc]; exact List.prefix_rfl)
      (by decide) (by decide)]
    have : exec cfg ops tf { method := m, assembly := a, code := body.code, locals := l, params := .host } .Ldarg_0 (0 + 1) v =
        (.panic, v) := by
      show loadAt' .host 0 1 v = _
      unfold loadAt'
      rw [X.bind_run]
      unfold readSlot X.view
      dsimp only
      rw [hv]
      rfl
    rw [this]
  have hk : ∀ (a : AssemblyRec) (v : VM), v.host = [] → (X.finally' (do
      let locals ← stackAlloc body.locals.length
      loop cfg ops tf (fuel + 1) { method := m, assembly := a, code := body.code, locals, params := .host } 0)
      (release cfg 0) v).1 = .panic := by
    intro a v hv
    have hp : ((do
      let locals ← stackAlloc body.locals.length
      loop cfg ops tf (fuel + 1) { method := m, assembly := a, code := body.code, locals, params := .host } 0 : X _) v).1 = .panic := by
      rw [X.bind_run]
      unfold stackAlloc X.update
      dsimp only
      by_cases h1 : 16 * (v.stack.slots.length + body.locals.length) ≤ v.stack.cap
      · rw [if_pos h1]; refine congrArg Prod.fst (hrun a _ _ ?_); exact hv
      · rw [if_neg h1]
        by_cases h2 : max (2 * v.stack.cap) (16 * (v.stack.slots.length + body.locals.length)) < 2 ^ 63
        · rw [if_pos h2]; refine congrArg Prod.fst (hrun a _ _ ?_); exact hv
        · rw [if_neg h2]
    unfold X.finally'
    generalize (do
      let locals ← stackAlloc body.locals.length
      loop cfg ops tf (fuel + 1) { method := m, assembly := a, code := body.code, locals, params := .host } 0 : X _) v = r at hp
    obtain ⟨r, v'⟩ := r
    cases hp
    rcases hr : release cfg 0 v' with x | e | _ | _ | _
    · rfl
    · exact absurd hr (by unfold release usub; split <;> (try split) <;> nofun)
    · rfl
    · exact absurd hr (by unfold release usub; split <;> (try split) <;> nofun)
    · exact absurd hr (by unfold release usub; split <;> (try split) <;> nofun)
  unfold hostExecute
  rw [if_pos hs]
  dsimp only
  have hi : (invoke cfg (loop cfg ops tf (fuel + 1)) m .host { world := w, host := [] }).1 = .panic := by
    unfold invoke
    rw [hm]
    dsimp only
    rw [X.bind_run, X.view_run]
    unfold World.typeAt
    cases w.types[m.declaringType]? with
    | none => rfl
    | some t =>
      simp only [Res.unwrap]
      rw [X.bind_run, X.view_run]
      dsimp only
      cases w.assemblies.find? (·.id = t.assembly) with
      | none => rfl
      | some a => exact hk a _ rfl
  rw [hi]
  rfl

/-- The hypotheses can be met, in a program that stores into its first argument and calls itself: `P(a, b) { if (a) { a = 0;
P(a, b); } return b; }`, given a third argument. -/
example :
    let m := Ex.meth [0x02, 0x2c, 0x0b, 0x16, 0x10, 0x00, 0x02, 0x03, 0x28, 1, 0, 0, 6, 0x2a, 0x03, 0x2a] 8 2
    let w := Ex.tiny [m]
    (hostExecute .debug Ex.floats 9 40 w m [.i32 5, .i32 7]).1 = .ok (.number (.i32 7)) ∧
    (hostExecute .debug Ex.floats 9 40 w m [.i32 5, .i32 7]).2.world.types.length = w.types.length ∧
    (hostExecute .debug Ex.floats 9 40 w m [.i32 5, .i32 7, .i64 1]).2.host = [.i32 0, .i32 7, .i64 1] := by
  decide +kernel

/-- The code falsifies the full claim: `static int M(int p) { p = 0; return p; }` changes the value in the host's array. -/
theorem C107_refuted :
    let m := Ex.meth [0x16, 0x10, 0x00, 0x02, 0x2a] 8 1
    (hostExecute .debug Ex.floats 9 40 (Ex.tiny [m]) m [.i32 5]).1 = .ok (.number (.i32 0)) ∧
    (hostExecute .debug Ex.floats 9 40 (Ex.tiny [m]) m [.i32 5]).2.host = [.i32 0] := by
  decide +kernel

/-- It does not report missing arguments either, but panics when one is used: `static int M(int p) { return p; }`. -/
theorem C107_refuted_missing :
    let m := Ex.meth [0x02, 0x2a] 8 1
    (hostExecute .debug Ex.floats 9 40 (Ex.tiny [m]) m []).1 = .panic :=
  C107_missing _ _ _ _ _ _ [0x2a] rfl rfl rfl

theorem C107_full_refuted : ¬ C107_full := fun h => by
  have h1 := (h .debug Ex.floats 9 40 (Ex.tiny [Ex.meth [0x02, 0x2a] 8 1]) (Ex.meth [0x02, 0x2a] 8 1) []).2 (by decide)
  rw [C107_refuted_missing] at h1
  obtain ⟨_, h1⟩ := h1
  cases h1

end Clr
