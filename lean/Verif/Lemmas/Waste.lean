import Verif.Lemmas.Follow
import Verif.Lemmas.Tiny
/-! # A loop that makes strings and drops them -/

namespace Clr

/-- A heap that has grown by small steps only. -/
structure Grown (h : Heap) : Prop where
  start : 1024 ≤ h.cap
  fits : h.mem.length ≤ h.cap
  half : h.cap ≤ 2 * h.mem.length + 2000

theorem Grown.bump {cfg : Cfg} {h : Heap} (g : Grown h) {size : Nat} (hs : 0 < size) (hs' : size ≤ 1000) (hl : h.mem.length < 2 ^ 60) :
    ∃ h', h.bump cfg size = .ok (⟨h'.gen, h.mem.length⟩, h') ∧ h'.mem = h.mem ++ List.replicate size 0 ∧ Grown h' := by
  obtain ⟨g1, g2, g3⟩ := g
  have hadd : uadd cfg 64 h.mem.length size = .ok (h.mem.length + size) := uadd_ok (by omega)
  by_cases hc : h.cap < h.mem.length + size
  · refine ⟨⟨h.mem ++ List.replicate size 0, 2 * h.cap, h.gen + 1⟩, ?_, rfl, ⟨?_, ?_, ?_⟩⟩
    · have h1 : h.ensureSize cfg size = .ok { h with cap := 2 * h.cap, gen := h.gen + 1 } := by
        unfold Heap.ensureSize
        rw [hadd]
        simp only [Res.ok_bind, Res.pure_eq]
        rw [if_pos hc]
        unfold Heap.reserve
        have e : max (2 * h.cap) (max (h.mem.length + h.cap) 8) = 2 * h.cap := by omega
        rw [if_neg (by omega), e, if_pos (by omega)]
      unfold Heap.bump
      rw [h1]
      simp only [Res.ok_bind, hadd]
      unfold Heap.resize
      dsimp only
      rw [if_pos (by omega)]
      unfold Heap.reserve
      dsimp only
      rw [if_pos (by omega)]
      simp only [Res.ok_bind, Res.pure_eq]
      rw [Nat.add_sub_cancel_left]
    · show 1024 ≤ 2 * h.cap; omega
    · show (h.mem ++ List.replicate size 0).length ≤ 2 * h.cap; simp; omega
    · show 2 * h.cap ≤ 2 * (h.mem ++ List.replicate size 0).length + 2000; simp; omega
  · refine ⟨{ h with mem := h.mem ++ List.replicate size 0 }, ?_, rfl, ⟨g1, ?_, ?_⟩⟩
    · have h1 : h.ensureSize cfg size = .ok h := by
        unfold Heap.ensureSize
        rw [hadd]
        simp only [Res.ok_bind, Res.pure_eq]
        rw [if_neg hc]
      unfold Heap.bump
      rw [h1]
      simp only [Res.ok_bind, hadd]
      unfold Heap.resize
      rw [if_pos (by omega)]
      unfold Heap.reserve
      rw [if_pos (by omega)]
      simp only [Res.ok_bind, Res.pure_eq]
      rw [Nat.add_sub_cancel_left]
    · show (h.mem ++ List.replicate size 0).length ≤ h.cap; simp; omega
    · show h.cap ≤ 2 * (h.mem ++ List.replicate size 0).length + 2000; simp; omega

theorem Grown.mem {h : Heap} (g : Grown h) {m : Bytes} (hm : m.length = h.mem.length) : Grown { h with mem := m } :=
  ⟨g.start, by show m.length ≤ _; rw [hm]; exact g.fits, by show _ ≤ 2 * m.length + 2000; rw [hm]; exact g.half⟩

/-- A string of one character can be made, and takes fifteen bytes. -/
theorem Grown.allocString {cfg : Cfg} {v : VM} (g : Grown v.heap) (hl : v.heap.mem.length < 2 ^ 60) {t : Nat} {tr : TypeRec} (u : Nat)
    (ht : v.world.getType "System.String".toList = some t) (htr : v.world.types[t]? = some tr) :
    ∃ p h', allocString cfg [u] v = (.ok p, { v with heap := h' }) ∧ h'.mem.length = v.heap.mem.length + 15 ∧ Grown h' := by
  obtain ⟨h', hb, hm, g'⟩ := g.bump (cfg := cfg) (size := 15) (by omega) (by omega) hl
  have hon : onHeap (·.bump cfg 15) v = (.ok ⟨h'.gen, v.heap.mem.length⟩, { v with heap := h' }) := by
    unfold onHeap X.update
    dsimp only
    rw [hb]
    rfl
  refine ⟨⟨h'.gen, v.heap.mem.length⟩, { h' with mem := v.heap.mem ++ ((4 :: leBytes 4 tr.id ++ leBytes 8 1) ++ (leBytes 2 u ++ [])) }, ?_, ?_, ?_⟩
  · unfold Clr.allocString
    rw [umul_ok (by show 2 * 1 < _; decide), X.liftM_bind_ok rfl, uadd_ok (by show 13 + 2 * 1 < _; decide), X.liftM_bind_ok rfl]
    show (onHeap (·.bump cfg 15) >>= _) v = _
    rw [X.bind_ok hon]
    rw [X.bind_ok (orFlags_ok (pre := v.heap.mem) (x := 0)
      (b := List.replicate 4 0 ++ (List.replicate 8 0 ++ List.replicate 2 0)) (by rfl) (by rw [hm]; rfl))]
    rw [X.view_bind_ok (a := t) (by dsimp only; rw [ht]; rfl)]
    rw [X.bind_ok (typeId_run (tr := tr) (by exact htr))]
    rw [X.bind_ok (poke_mid (pre := v.heap.mem) (a := [4]) (m := List.replicate 4 0)
      (b := List.replicate 8 0 ++ List.replicate 2 0) (by rfl) (by rfl) (by rfl) (by simp))]
    rw [X.bind_ok (poke_mid (pre := v.heap.mem) (a := 4 :: leBytes 4 tr.id) (m := List.replicate 8 0)
      (b := List.replicate 2 0) (by rfl) (by simp) (by simp) (by simp))]
    rw [X.bind_ok (poke_mid (pre := v.heap.mem) (a := 4 :: leBytes 4 tr.id ++ leBytes 8 1)
      (m := List.replicate 2 0) (b := []) (by rfl) (by simp) (by simp) (by simp [unitBytes]))]
    simp only [unitBytes, List.append_nil]
    rfl
  · show (v.heap.mem ++ _).length = _
    simp
  · refine g'.mem ?_
    rw [hm]
    simp

/-- `while (n != 0) { "A"; n = n - 1; }` for the argument `n`. -/
def Ex.wasteCode : Bytes := [0x02, 0x2c, 0x0d, 0x72, 1, 0, 0, 0x70, 0x26, 0x02, 0x17, 0x59, 0x10, 0, 0x2b, 0xf0, 0x2a]
def Ex.waste : MethodRec := Ex.meth Ex.wasteCode 0 1
def Ex.wasteWorld : World := Ex.tiny [Ex.waste] [] [0, 3, 0x41, 0, 0]
def Ex.wasteFrame : Frame :=
  { method := Ex.waste, assembly := Ex.wasteWorld.assemblies[0], code := Ex.wasteCode, locals := .slots 0 0 0, params := .host }

open Ex in
theorem waste_round {ops : FloatOps} {tf fuel n : Nat} (hn : n + 1 < 2 ^ 31) {v : VM} (hw : v.world = wasteWorld)
    (ho : v.operands = []) (hh : v.host = [.i32 (BitVec.ofNat 32 (n + 1))]) (g : Grown v.heap) (hl : v.heap.mem.length < 2 ^ 60) :
    ∃ h', loop .debug ops tf (fuel + 9) wasteFrame 0 v =
        loop .debug ops tf fuel wasteFrame 0 { v with heap := h', host := [.i32 (BitVec.ofNat 32 n)] } ∧
      h'.mem.length = v.heap.mem.length + 15 ∧ Grown h' := by
  have hget : wasteWorld.getType "System.String".toList = some 16 := by decide +kernel
  obtain ⟨tr, htr⟩ : ∃ tr, wasteWorld.types[16]? = some tr := ⟨_, rfl⟩
  obtain ⟨p, h', ha, hm, g'⟩ := g.allocString (cfg := .debug) hl (t := 16) (tr := tr) 0x41 (by rw [hw]; exact hget) (by rw [hw]; exact htr)
  refine ⟨h', ?_, hm, g'⟩
  have hread : ∀ u : VM, u.host = [.i32 (BitVec.ofNat 32 (n + 1))] → ∀ ip, loadAt' .host 0 ip u =
      (.ok (.next ip), { u with operands := .i32 (BitVec.ofNat 32 (n + 1)) :: u.operands }) := by
    intro u hu ip
    unfold loadAt'
    rw [X.bind_ok (a := .i32 (BitVec.ofNat 32 (n + 1))) (v' := u) (by unfold readSlot X.view; dsimp only; rw [hu]; rfl)]
    rfl
  have hnz : ((BitVec.ofNat 32 (n + 1)) == 0#32) = false := by
    rw [beq_eq_false_iff_ne]
    intro e
    have := congrArg BitVec.toNat e
    simp only [BitVec.toNat_ofNat] at this
    omega
  -- ldarg.0
  rw [loop_next (n := 1) (v' := { v with operands := [.i32 (BitVec.ofNat 32 (n + 1))] }) (by
    rw [step_of_fetch (op := .Ldarg_0) (ip' := 1) (by decide)]
    show loadAt' .host 0 1 v = _
    rw [hread v hh, ho])]
  -- brfalse.s
  rw [loop_next (n := 3) (v' := v) (by
    rw [step_of_fetch (op := .Brfalse_S) (ip' := 2) (by decide)]
    show branchIf ops wasteFrame true 1 2 _ = _
    rw [branchIf_ok (a := .i32 (BitVec.ofNat 32 (n + 1))) (r := []) rfl (z := false) (by show Res.ok _ = _; rw [hnz]) (d := 13) (by decide)]
    have : { ({ v with operands := [.i32 (BitVec.ofNat 32 (n + 1))] } : VM) with operands := [] } = v := by
      cases v; cases ho; rfl
    rw [this]
    rfl)]
  -- ldstr
  rw [loop_next (n := 8) (v' := { v with heap := h', operands := [.object p] }) (by
    rw [step_of_fetch (op := .Ldstr) (ip' := 4) (by decide)]
    show doLdstr .debug wasteFrame 4 _ = _
    unfold doLdstr
    rw [X.liftM_bind_ok (a := 0x70000001) (by decide), X.liftM_bind_ok (a := some [0x41]) (by decide)]
    show (allocString .debug [0x41] >>= fun p => push (.object p) >>= fun _ => pure (.next 8) : X Action) v = _
    rw [X.bind_ok ha]
    show (Res.ok _, ({ v with heap := h', operands := .object p :: v.operands } : VM)) = _
    rw [ho])]
  -- pop
  rw [loop_next (n := 9) (v' := { v with heap := h' }) (by
    rw [step_of_fetch (op := .Pop) (ip' := 9) (by decide)]
    show doPop 9 _ = _
    unfold doPop
    rw [X.bind_ok (pop_cons (a := .object p) (r := []) rfl)]
    rw [← ho]
    rfl)]
  -- ldarg.0
  rw [loop_next (n := 10) (v' := { v with heap := h', operands := [.i32 (BitVec.ofNat 32 (n + 1))] }) (by
    rw [step_of_fetch (op := .Ldarg_0) (ip' := 10) (by decide)]
    show loadAt' .host 0 10 _ = _
    rw [hread _ (by exact hh)]
    dsimp only
    rw [ho])]
  -- ldc.i4.1
  rw [loop_next (n := 11) (v' := { v with heap := h', operands := [.i32 1, .i32 (BitVec.ofNat 32 (n + 1))] }) (by
    rw [step_of_fetch (op := .Ldc_I4_1) (ip' := 11) (by decide)]
    rfl)]
  -- sub
  have hsub : Value.sub .debug ops (.i32 (BitVec.ofNat 32 (n + 1))) (.i32 1) = .ok (.i32 (BitVec.ofNat 32 n)) := by
    have e1 : BitVec.ssubOverflow (BitVec.ofNat 32 (n + 1)) 1#32 = false := by
      unfold BitVec.ssubOverflow
      have : (BitVec.ofNat 32 (n + 1)).toInt = n + 1 := by
        rw [BitVec.toInt_eq_toNat_of_lt] <;> simp only [BitVec.toNat_ofNat] <;> omega
      rw [this, show (1#32 : BitVec 32).toInt = 1 by decide]
      simp only [Bool.or_eq_false_iff, decide_eq_false_iff_not]
      omega
    have e2 : BitVec.ofNat 32 (n + 1) - 1#32 = BitVec.ofNat 32 n := by
      apply BitVec.eq_of_toNat_eq
      simp only [BitVec.toNat_sub, BitVec.toNat_ofNat]
      omega
    show Value.i32 <$> subS .debug (BitVec.ofNat 32 (n + 1)) 1#32 = _
    unfold subS checked
    rw [e1, e2]
    rfl
  rw [loop_next (n := 12) (v' := { v with heap := h', operands := [.i32 (BitVec.ofNat 32 n)] }) (by
    rw [step_of_fetch (op := .Sub) (ip' := 12) (by decide)]
    show binary (Value.sub .debug ops) 12 _ = _
    unfold binary
    rw [pop2 (a := .i32 (BitVec.ofNat 32 (n + 1))) (b := .i32 1) (r := []) rfl, X.liftM_bind_ok hsub]
    rfl)]
  -- starg.s
  rw [loop_next (n := 14) (v' := { v with heap := h', host := [.i32 (BitVec.ofNat 32 n)] }) (by
    rw [step_of_fetch (op := .Starg_S) (ip' := 13) (by decide)]
    show storeTo wasteFrame .host 1 13 _ = _
    unfold storeTo
    rw [X.liftM_bind_ok (a := 0) (by decide)]
    unfold storeAt
    rw [X.bind_ok (pop_cons (a := .i32 (BitVec.ofNat 32 n)) (r := []) rfl)]
    rw [X.bind_ok (a := ()) (v' := { v with heap := h', host := [.i32 (BitVec.ofNat 32 n)] }) (by
      unfold writeSlot X.update
      dsimp only
      rw [hh, ho]
      rfl)]
    rfl)]
  -- br.s
  rw [loop_next (n := 0) (v' := { v with heap := h', host := [.i32 (BitVec.ofNat 32 n)] }) (by
    rw [step_of_fetch (op := .Br_S) (ip' := 15) (by decide)]
    show branch wasteFrame 1 15 _ = _
    rw [branch_ok (d := -16) (by decide)]
    rfl)]

open Ex in
theorem waste_loop {ops : FloatOps} {tf : Nat} (n : Nat) : ∀ {v : VM}, n < 2 ^ 31 → v.world = wasteWorld →
    v.operands = [] → v.host = [.i32 (BitVec.ofNat 32 n)] → Grown v.heap → v.heap.mem.length + 15 * n < 2 ^ 60 →
    ∃ h', loop .debug ops tf (9 * n + 3) wasteFrame 0 v = (.ok none, { v with heap := h', host := [.i32 0] }) ∧
      h'.mem.length = v.heap.mem.length + 15 * n := by
  induction n with
  | zero =>
    intro v _ hw ho hh g _
    refine ⟨v.heap, ?_, rfl⟩
    rw [show 9 * 0 + 3 = 0 + 1 + 1 + 1 by omega]
    rw [loop_next (n := 1) (v' := { v with operands := [.i32 0] }) (by
      rw [step_of_fetch (op := .Ldarg_0) (ip' := 1) (by decide)]
      show loadAt' .host 0 1 v = _
      unfold loadAt'
      rw [X.bind_ok (a := .i32 0) (v' := v) (by unfold readSlot X.view; dsimp only; rw [hh]; rfl)]
      rw [← ho]
      rfl)]
    rw [loop_next (n := 16) (v' := v) (by
      rw [step_of_fetch (op := .Brfalse_S) (ip' := 2) (by decide)]
      show branchIf ops wasteFrame true 1 2 _ = _
      rw [branchIf_ok (a := .i32 0) (r := []) rfl (z := true) rfl (d := 13) (by decide), ← ho]
      rfl)]
    rw [loop_ret (r := none) (v' := v) (by
      rw [step_of_fetch (op := .Ret) (ip' := 17) (by decide)]
      show doRet wasteFrame v = _
      unfold doRet
      rw [X.view_bind_ok (a := true) (by rw [hw]; decide +kernel)]
      rfl)]
    refine Prod.ext rfl ?_
    show v = { v with host := [.i32 0] }
    cases v
    cases hh
    rfl
  | succ n ih =>
    intro v hn hw ho hh g hl
    obtain ⟨h1, e, hm, g1⟩ := waste_round (ops := ops) (tf := tf) (fuel := 9 * n + 3) (n := n) hn hw ho hh g (by omega)
    obtain ⟨h2, e2, hm2⟩ := ih (v := { v with heap := h1, host := [.i32 (BitVec.ofNat 32 n)] }) (by omega) hw ho rfl g1 (by
      show h1.mem.length + _ < _; omega)
    refine ⟨h2, ?_, ?_⟩
    · rw [show 9 * (n + 1) + 3 = 9 * n + 3 + 9 by omega, e, e2]
    · rw [hm2]; show h1.mem.length + _ = _; omega

end Clr
