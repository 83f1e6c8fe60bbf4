import Verif.Lemmas.Output
import Verif.Lemmas.Tiny
import Verif.Props.Arith
/-! # Property C61: output -/

namespace Clr

variable {cfg : Cfg} {ops : FloatOps} {tf fuel : Nat} {fr : Frame} {ip : Nat} {v v' : VM} {p : Ptr} {rest : List Value}

/-! ## The strings passed to `Console.Write` -/

/-- The strings written when method `m` is run with arguments `params`: for `Console.Write` its first argument, if it
succeeds; for a method with a body those that `log` gives for the body, from the state in which it starts. -/
def invokeLog (log : Frame → Nat → VM → List (List Nat)) (m : MethodRec) (params : Region) (v : VM) : List (List Nat) :=
  match m.impl with
  | .internal .consoleWrite =>
    match (callNative .consoleWrite params v).1, params.at v 0 with
    | .ok _, some (.object p) => [stringAt v.heap p]
    | _, _ => []
  | .il body =>
    match v.world.typeAt m.declaringType with
    | .ok t =>
      match v.world.assemblies.find? (·.id = t.assembly), stackAlloc body.locals.length { v with allocated := 0 } with
      | some a, (.ok locals, v1) => log { method := m, assembly := a, code := body.code, locals, params } 0 v1
      | _, _ => []
    | _ => []
  | _ => []

/-- The strings written during a call. -/
def callLog (cfg : Cfg) (log : Frame → Nat → VM → List (List Nat)) (fr : Frame) (token : Token) (v : VM) : List (List Nat) :=
  match fr.assembly.resolveMethod cfg token with
  | .ok (some m) =>
    match stackAlloc m.slots v with
    | (.ok params, v1) =>
      match popInto params m.slots v1 with
      | (.ok (), v2) => invokeLog log m params v2
      | _ => []
    | _ => []
  | _ => []

/-- The strings written, in order, when execution goes on from address `ip`. -/
def log (cfg : Cfg) (ops : FloatOps) (tf : Nat) : Nat → Frame → Nat → VM → List (List Nat)
  | 0, _, _, _ => []
  | fuel + 1, fr, ip, v =>
    match step cfg ops tf fr ip v with
    | (.ok (.next ip'), v1) => log cfg ops tf fuel fr ip' v1
    | (.ok (.call token after ip'), v1) =>
      callLog cfg (log cfg ops tf fuel) fr token v1 ++
        match callMethod cfg (loop cfg ops tf fuel) fr token v1 with
        | (.ok (), v2) => log cfg ops tf fuel fr ip' { v2 with operands := after.toList ++ v2.operands }
        | _ => []
    | _ => []

/-- The output `v'` has more than `v` is the text of `strings`. -/
def Wrote (v : VM) (strings : List (List Nat)) (v' : VM) : Prop :=
  ∃ texts : List (List Char), texts.map (·.flatMap utf16) = strings ∧ v'.world.output = v.world.output ++ texts.flatten

theorem Wrote.none (h : v'.world.output = v.world.output) : Wrote v [] v' := ⟨[], rfl, by simp [h]⟩

theorem Wrote.trans {a b c : VM} {s t : List (List Nat)} (h : Wrote a s b) (k : Wrote b t c) : Wrote a (s ++ t) c := by
  obtain ⟨x, h1, h2⟩ := h
  obtain ⟨y, k1, k2⟩ := k
  exact ⟨x ++ y, by simp [h1, k1], by simp [k2, h2]⟩

theorem Wrote.silent {a b c : VM} {s : List (List Nat)} (h : b.world.output = a.world.output) (k : Wrote b s c) : Wrote a s c := by
  obtain ⟨x, h1, h2⟩ := k
  exact ⟨x, h1, by rw [h2, h]⟩

theorem Wrote.after {a b c : VM} {s : List (List Nat)} (k : Wrote a s b) (h : c.world.output = b.world.output) : Wrote a s c := by
  obtain ⟨x, h1, h2⟩ := k
  exact ⟨x, h1, by rw [h, h2]⟩

theorem readSlot_at {r : Region} {i : Nat} {a : Value} (h : readSlot r i v = (.ok a, v')) : r.at v i = some a ∧ v' = v := by
  obtain ⟨h, rfl⟩ := view_eq_ok.1 h
  refine ⟨?_, rfl⟩
  cases r with
  | host => cases hh : v'.host[i]? <;> simp_all [Res.unwrap, Region.at]
  | slots g b c =>
    dsimp only at h
    split at h
    · split at h
      · split at h
        · rename_i hh; cases h; exact hh
        · cases h
      · cases h
    · cases h

theorem Keeps.silent {α : Type} {x : X α} (h : Keeps 0 False True x) (v : VM) : (x v).2.world.output = v.world.output :=
  (h.run v (Nat.zero_le _)).output trivial

theorem callNative_wrote (f : InternalMethod) (params : Region) :
    Wrote v (invokeLog (fun _ _ _ => []) { Ex.meth [] with impl := .internal f } params v) (callNative f params v).2 := by
  cases f with
  | stringGetItem => exact .none rfl
  | stringGetLength => exact .none rfl
  | consoleWrite =>
    simp only [invokeLog]
    rcases hr : callNative .consoleWrite params v with ⟨r, v'⟩
    have hk : (∀ a, r ≠ .ok a) → v'.world.output = v.world.output := by
      intro hne
      unfold callNative at hr
      dsimp only at hr
      rw [X.bind_run] at hr
      rcases h1 : readSlot params 0 v with ⟨a, v1⟩
      have e1 : v1 = v := (congrArg Prod.snd h1).symm
      subst e1
      rw [h1] at hr
      cases a with
      | ok a =>
        cases a with
        | object p =>
          dsimp only at hr
          rw [X.bind_run] at hr
          rcases h2 : objectFlags p v1 with ⟨f, v2⟩
          have e2 : v2.world.output = v1.world.output := by
            have := (Keeps.objectFlags (L := 0) (H := False) (P := True) p).silent v1; rwa [h2] at this
          rw [h2] at hr
          cases f with
          | ok f =>
            dsimp only at hr
            split at hr
            · cases hr; exact e2
            · rw [X.bind_run] at hr
              rcases h3 : stringData p v2 with ⟨us, v3⟩
              have e3 : v3.world.output = v2.world.output := by
                have := (Keeps.stringData (L := 0) (H := False) (P := True) p).silent v2; rwa [h3] at this
              rw [h3] at hr
              cases us with
              | ok us =>
                dsimp only at hr
                rw [X.bind_run] at hr
                cases h4 : fromUtf16 us with
                | none => rw [h4] at hr; cases hr; rw [e3, e2]
                | some s =>
                  rw [h4] at hr
                  cases hr
                  exact absurd rfl (hne none)
              | _ => cases hr; rw [e3, e2]
          | _ => cases hr; exact e2
        | _ => cases hr; rfl
      | _ => cases hr; rfl
    cases r with
    | ok a =>
      unfold callNative at hr
      dsimp only at hr
      obtain ⟨b, v1, h1, h2⟩ := X.bind_eq_ok.1 hr
      obtain ⟨hb, rfl⟩ := readSlot_at h1
      rw [hb]
      cases b with
      | object p =>
        dsimp only at h2 ⊢
        obtain ⟨f, v2, h3, h4⟩ := X.bind_eq_ok.1 h2
        have e2 : v2 = v1 := by
          unfold objectFlags at h3
          obtain ⟨x, v3, h5, h6⟩ := X.bind_eq_ok.1 h3
          obtain ⟨-, rfl⟩ := view_eq_ok.1 h5
          cases h6; rfl
        subst e2
        split at h4
        · cases h4
        · obtain ⟨us, v3, h5, h6⟩ := X.bind_eq_ok.1 h4
          obtain ⟨rfl, rfl, hu⟩ := stringData_ok h5
          obtain ⟨s, v4, h7, h8⟩ := X.bind_eq_ok.1 h6
          obtain ⟨h7, rfl⟩ := lift_eq_ok.1 h7
          have h7 : fromUtf16 (stringAt v4.heap p) = some s := by
            cases hx : fromUtf16 (stringAt v4.heap p) with
            | none => rw [hx] at h7; cases h7
            | some t => rw [hx] at h7; cases h7; rfl
          cases h8
          exact ⟨[s], by simp [fromUtf16_sound hu h7], by simp⟩
      | _ => cases h2
    | _ => exact .none (hk (by simp))

theorem invoke_wrote {run : Frame → Nat → X (Option Value)} {l : Frame → Nat → VM → List (List Nat)}
    (hrun : ∀ fr ip v, Wrote v (l fr ip v) (run fr ip v).2) (m : MethodRec) (params : Region) (v : VM) :
    Wrote v (invokeLog l m params v) (invoke cfg run m params v).2 := by
  unfold invoke invokeLog
  cases hm : m.impl with
  | none => exact .none rfl
  | internal f =>
    have := callNative_wrote (v := v) f params
    cases f with
    | consoleWrite => exact this
    | _ => exact .none rfl
  | il body =>
    dsimp only
    rw [X.bind_run, X.view_run]
    cases v.world.typeAt m.declaringType with
    | ok t =>
      dsimp only
      rw [X.bind_run, X.view_run]
      cases v.world.assemblies.find? (·.id = t.assembly) with
      | none => exact .none rfl
      | some a =>
        simp only [Res.unwrap]
        rw [X.bind_ok (X.update_ok rfl)]
        generalize hx : (do
          let locals ← stackAlloc body.locals.length
          run { method := m, assembly := a, code := body.code, locals, params } 0 : X (Option Value)) = x
        have hf : (X.finally' x (release cfg v.allocated) { v with allocated := 0 }).2.world.output =
            (x { v with allocated := 0 }).2.world.output := by
          unfold X.finally' release
          cases hu : usub cfg 64 (x { v with allocated := 0 }).2.stack.slots.length (x { v with allocated := 0 }).2.allocated <;> rfl
        refine Wrote.after ?_ hf
        subst hx
        rw [X.bind_run]
        have hs := (Keeps.stackAlloc (L := 0) (H := False) (P := True) body.locals.length).silent { v with allocated := 0 }
        rcases ha : stackAlloc body.locals.length { v with allocated := 0 } with ⟨r, v1⟩
        rw [ha] at hs
        cases r with
        | ok locals => exact (hrun _ 0 v1).silent hs
        | _ => exact .none hs
    | _ => exact .none rfl

theorem callMethod_wrote {run : Frame → Nat → X (Option Value)} {l : Frame → Nat → VM → List (List Nat)}
    (hrun : ∀ fr ip v, Wrote v (l fr ip v) (run fr ip v).2) (token : Token) (v : VM) :
    Wrote v (callLog cfg l fr token v) (callMethod cfg run fr token v).2 := by
  unfold callMethod callLog
  cases hm : fr.assembly.resolveMethod cfg token with
  | ok m =>
    cases m with
    | none => exact .none rfl
    | some m =>
      dsimp only
      rw [X.liftM_bind_ok rfl]
      simp only [Res.ofOption]
      rw [X.liftM_bind_ok rfl]
      simp only [← MethodRec.slots.eq_1]
      rw [X.bind_run]
      have h1 := (Keeps.stackAlloc (L := 0) (H := False) (P := True) m.slots).silent v
      rcases ha : stackAlloc m.slots v with ⟨r, v1⟩
      rw [ha] at h1
      cases r with
      | ok params =>
        dsimp only
        rw [X.bind_run]
        have h2 := (Keeps.popInto (L := 0) (H := False) (P := True) (r := params)
          (by cases params <;> simp [Region.free]) m.slots).silent v1
        rcases hb : popInto params m.slots v1 with ⟨r, v2⟩
        rw [hb] at h2
        cases r with
        | ok u =>
          dsimp only
          rw [X.bind_run]
          have h3 := invoke_wrote (cfg := cfg) hrun m params v2
          rcases hc : invoke cfg run m params v2 with ⟨r, v3⟩
          rw [hc] at h3
          refine Wrote.silent (h2.trans h1) ?_
          cases r with
          | ok a => cases a <;> exact h3.after rfl
          | _ => exact h3
        | _ => exact .none (h2.trans h1)
      | _ => exact .none h1
  | _ => exact .none rfl

/-- **C61 for the rest of a method's execution**: however it ends, what it has added to the output is the texts of the
strings passed to `Console.Write`, in order. -/
theorem C61 (fuel : Nat) (fr : Frame) (ip : Nat) (v : VM) :
    Wrote v (log cfg ops tf fuel fr ip v) (loop cfg ops tf fuel fr ip v).2 := by
  induction fuel generalizing fr ip v with
  | zero => exact .none rfl
  | succ fuel ih =>
    rw [loop_succ, log]
    have h1 := (Keeps.step (cfg := cfg) (ops := ops) (tf := tf) (P := True) (frameFree_any fr) ip).silent v
    rcases hs : step cfg ops tf fr ip v with ⟨r, v1⟩
    rw [hs] at h1
    cases r with
    | ok a =>
      cases a with
      | next ip' => exact (ih fr ip' v1).silent h1
      | ret a => exact .none h1
      | call token after ip' =>
        have h2 := callMethod_wrote (cfg := cfg) (fr := fr) ih token v1
        dsimp only
        rw [X.bind_run]
        rcases hc : callMethod cfg (loop cfg ops tf fuel) fr token v1 with ⟨r, v2⟩
        rw [hc] at h2
        cases r with
        | ok u =>
          refine Wrote.silent h1 (h2.trans ?_)
          cases after with
          | none => exact ih fr ip' v2
          | some a => exact ih fr ip' _
        | _ => simpa using h2.silent h1
    | _ => exact .none h1

/-- **C61 for the host**: the output after running a method is the earlier output followed by the texts written. -/
theorem C61_host (w : World) (m : MethodRec) (params : List Value) (hs : m.isStatic) :
    ∃ texts : List (List Char),
      texts.map (·.flatMap utf16) = invokeLog (log cfg ops tf fuel) m .host { world := w, host := params } ∧
      (hostExecute cfg ops tf fuel w m params).2.world.output = w.output ++ texts.flatten := by
  rw [hostExecute, if_pos hs]
  exact invoke_wrote (C61 fuel) m .host { world := w, host := params }

theorem utf16_lt (text : List Char) : ∀ u ∈ text.flatMap utf16, u < 0x10000 := by
  intro u hu
  obtain ⟨c, -, hc⟩ := List.mem_flatMap.1 hu
  have := char_range c
  unfold utf16 at hc
  split at hc <;> simp at hc <;> omega

/-- **C61, a single write**: calling `Console.Write` with a string object on top of the evaluation stack removes it, appends
exactly its text to the output, and leaves the heap alone. -/
theorem C61_write (run : Frame → Nat → X (Option Value)) (token : Token) (m : MethodRec) (id : Nat) (text : List Char)
    (hm : fr.assembly.resolveMethod cfg token = .ok (some m)) (himpl : m.impl = .internal .consoleWrite) (hslots : m.slots = 1)
    (hroom : Roomy v 1) (ho : v.operands = .object p :: rest) (hh : v.heap.Has p (stringImage id (text.flatMap utf16)))
    (hl : (text.flatMap utf16).length < 2 ^ 64) :
    ∃ v', callMethod cfg run fr token v = (.ok (), v') ∧ v'.operands = rest ∧ v'.heap = v.heap ∧
      v'.world = { v.world with output := v.world.output ++ text } := by
  obtain ⟨v1, h1, h2, -, h4⟩ := callMethod_run (run := run) (args := [.object p]) hm (hslots ▸ hroom) (by simp [hslots]) ho
  rw [h4]
  unfold invoke
  rw [himpl]
  dsimp only
  have hat : readSlot (.slots v1.stack.gen v.stack.slots.length m.slots) 0 v1 = (.ok (.object p), v1) := by
    simp [readSlot, X.view, hslots, h2]
  have hheap : v1.heap = v.heap := by rw [h1]
  have hlen : (stringImage id (text.flatMap utf16)).length = 13 + 2 * (text.flatMap utf16).length := by
    have : ∀ us, (textBytes us).length = 2 * us.length := by
      intro us; induction us with
      | nil => rfl
      | cons u us ih => simp [textBytes] at ih ⊢; omega
    simp [stringImage, this]; omega
  obtain ⟨hg, t, ht⟩ := hh
  have hmem : p.off + 13 + 2 * (text.flatMap utf16).length ≤ v.heap.mem.length := by
    have := congrArg List.length ht
    simp only [List.length_append, hlen, List.length_drop] at this
    omega
  have hfl : ∃ f, objectFlags p v1 = (.ok f, v1) ∧ f &&& 4 ≠ 0 := by
    refine ⟨4, ?_, by decide⟩
    unfold objectFlags
    have : v1.heap.read p 0 5 = .ok (4 :: leBytes 4 id) := by
      unfold Heap.read
      rw [hheap, if_pos ⟨hg, by omega⟩, Nat.add_zero, ← ht]
      simp [stringImage]
    rw [X.bind_ok (peek_read this)]
    rfl
  obtain ⟨f, hf, hne⟩ := hfl
  have hsd : ∃ us, stringData p v1 = (.ok us, v1) := by
    obtain ⟨hd, hr⟩ := read_fits (h := v1.heap) (p := p) (off := 0) (n := 13) (by rw [hheap]; exact hg) (by rw [hheap]; omega)
    have hd9 : leNat (hd.drop 5) = (text.flatMap utf16).length := by
      unfold Heap.read at hr
      rw [hheap, if_pos ⟨hg, by omega⟩, Nat.add_zero, ← ht] at hr
      cases hr
      have : stringImage id (text.flatMap utf16) ++ t =
          (4 :: leBytes 4 id) ++ (leBytes 8 (text.flatMap utf16).length ++ (textBytes (text.flatMap utf16) ++ t)) := by
        simp [stringImage]
      rw [this, List.drop_take, List.drop_left' (by simp), List.take_left' (by simp), leNat_leBytes _ _ (by simpa using hl)]
    obtain ⟨bs, hr2⟩ := read_fits (h := v1.heap) (p := p) (off := 13) (n := 2 * leNat (hd.drop 5))
      (by rw [hheap]; exact hg) (by rw [hheap, hd9]; omega)
    unfold stringData
    rw [X.bind_ok (peek_read hr), X.bind_ok (peek_read hr2)]
    exact ⟨_, rfl⟩
  obtain ⟨us, hus⟩ := hsd
  have e := (stringData_ok hus).1
  rw [hheap, stringAt_of_has ⟨hg, t, ht⟩ (utf16_lt text) hl] at e
  refine ⟨{ v1 with world := { v1.world with output := v1.world.output ++ text } }, ?_, by rw [h1], by rw [h1], by rw [h1]⟩
  unfold callNative
  dsimp only
  rw [X.bind_run, X.bind_ok hat]
  dsimp only
  rw [X.bind_ok hf, if_neg hne, X.bind_ok hus, e, fromUtf16_complete]
  rfl

/-- **C61, literals**: if `ldstr` succeeds, then writing what it pushed appends exactly the text of the literal. -/
theorem C61_literal (run : Frame → Nat → X (Option Value)) (t : Nat) (token : Token) (m : MethodRec) (text : List Char) (a : Action)
    (ht : t < 2 ^ 32) (hc : HasAt fr.code ip (0x72 :: leBytes 4 t))
    (hstr : getString cfg fr.assembly.userStringData ⟨t⟩ = .ok (some (text.flatMap utf16)))
    (hm : fr.assembly.resolveMethod cfg token = .ok (some m)) (himpl : m.impl = .internal .consoleWrite) (hslots : m.slots = 1)
    (hroom : Roomy v 1) (hl : v.heap.mem.length + (13 + 2 * (text.flatMap utf16).length) < 2 ^ 64)
    (h : step cfg ops tf fr ip v = (.ok a, v')) :
    a = .next (ip + 5) ∧ ∃ v2, callMethod cfg run fr token v' = (.ok (), v2) ∧ v2.operands = v.operands ∧ v2.heap = v'.heap ∧
      v2.world.output = v.world.output ++ text := by
  rw [step_one hc (by decide) (op := .Ldstr) (by decide)] at h
  have h : doLdstr cfg fr (ip + 1) v = (.ok a, v') := h
  unfold doLdstr at h
  rw [X.liftM_bind_ok (hc.tail.fetch_leBytes (n := 3) ht), hstr, X.liftM_bind_ok rfl] at h
  simp only [Res.ofOption] at h
  rw [X.liftM_bind_ok rfl] at h
  obtain ⟨p, v1, h1, h2⟩ := X.bind_eq_ok.1 h
  cases h2
  obtain ⟨ty, tr, a1, a2, a3, a4, a5, -⟩ := allocString_ok hl h1
  refine ⟨rfl, ?_⟩
  obtain ⟨v2, b1, b2, b3, b4⟩ := C61_write (v := { v1 with operands := .object p :: v1.operands }) (p := p) (id := tr.id)
    (cfg := cfg) (fr := fr) run token m text hm himpl hslots (by rw [a3]; exact hroom) rfl
    ⟨by rw [a5], by rw [a4, a5]; simp⟩ (by omega)
  refine ⟨v2, b1, b2.trans (by rw [a3]), b3, ?_⟩
  rw [b4, a3]

/-- A program that writes `"Hi"` twice and then divides by zero: the output is there. -/
example :
    let write : MethodRec := { Ex.meth [] with params := [⟨"s".toList, 0, 16⟩], impl := .internal .consoleWrite }
    let m := Ex.meth [0x72, 0x00, 0x00, 0x00, 0x70, 0x28, 0x02, 0x00, 0x00, 0x06, 0x72, 0x00, 0x00, 0x00, 0x70,
      0x28, 0x02, 0x00, 0x00, 0x06, 0x17, 0x16, 0x5b, 0x2a]
    let w := Ex.tiny [m, write] [] [0x05, 0x48, 0x00, 0x69, 0x00, 0x00]
    (hostExecute .debug Ex.floats 9 40 w m []).1 = .panic ∧
    (hostExecute .debug Ex.floats 9 40 w m []).2.world.output = "HiHi".toList ∧
    invokeLog (log .debug Ex.floats 9 40) m .host { world := w } = [[0x48, 0x69], [0x48, 0x69]] := by
  decide +kernel

end Clr
