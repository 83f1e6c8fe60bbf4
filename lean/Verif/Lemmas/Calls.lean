import Verif.Lemmas.Vars
/-! # Calls -/

namespace Clr

variable {cfg : Cfg} {ops : FloatOps} {tf fuel : Nat} {fr : Frame} {ip : Nat} {v v' : VM} {rest : List Value}

/-- The loop that moves the arguments from the evaluation stack into their slots. -/
theorem popInto_ok {g b c n : Nat} {args : List Value} (hn : n ≤ c) (hg : g = v.stack.gen)
    (hb : b + c ≤ v.stack.slots.length) (hl : args.length = n) (ho : v.operands = args.reverse ++ rest) :
    ∃ s', popInto (.slots g b c) n v =
        (.ok (), { v with operands := rest, stack := { v.stack with slots := s' } }) ∧
      s'.length = v.stack.slots.length ∧ (∀ k, k < b ∨ b + n ≤ k → s'[k]? = v.stack.slots[k]?) ∧
      ∀ i, i < n → s'[b + i]? = args[i]? := by
  induction n generalizing v args with
  | zero =>
    obtain rfl : args = [] := List.length_eq_zero_iff.1 hl
    refine ⟨v.stack.slots, ?_, rfl, fun _ _ => rfl, by omega⟩
    show (Res.ok (), v) = _
    simp only [List.reverse_nil, List.nil_append] at ho
    rw [← ho]
  | succ n ih =>
    obtain ⟨init, a, rfl⟩ : ∃ init a, args = init ++ [a] := by
      have h0 : args ≠ [] := by rintro rfl; simp at hl
      exact ⟨args.dropLast, args.getLast h0, (List.dropLast_concat_getLast h0).symm⟩
    have hl' : init.length = n := by simpa using hl
    have ho : v.operands = a :: (init.reverse ++ rest) := by simpa using ho
    have hu : Usable { v with operands := init.reverse ++ rest } (.slots g b c) n := ⟨by omega, hg, hb⟩
    obtain ⟨s', h1, h2, h3, h4⟩ := ih
      (v := (Region.slots g b c).put { v with operands := init.reverse ++ rest } a n) (args := init) (by omega) hg
      (by simpa [Region.put] using hb) hl' rfl
    refine ⟨s', ?_, ?_, fun k hk => ?_, fun i hi => ?_⟩
    · rw [popInto, X.bind_ok (pop_cons ho), X.bind_ok (writeSlot_ok hu a), h1]
      rfl
    · simpa [Region.put] using h2
    · rw [h3 k (by omega)]
      simp only [Region.put, List.getElem?_set]
      rw [if_neg (by omega)]
    · rcases Nat.lt_or_ge i n with h | h
      · rw [h4 i h, List.getElem?_append_left (by omega)]
      · obtain rfl : i = n := by omega
        rw [h3 _ (by omega)]
        simp only [Region.put, List.getElem?_set]
        simp [show b + i < v.stack.slots.length by omega, hl']

/-- The number of slots a call needs: the parameters and, for instance methods, the receiver. -/
def MethodRec.slots (m : MethodRec) : Nat := if m.isStatic then m.params.length else m.params.length + 1

/-- A call up to the execution of the method. -/
theorem callMethod_run {run : Frame → Nat → X (Option Value)} {token : Token} {m : MethodRec} {args : List Value}
    (hm : fr.assembly.resolveMethod cfg token = .ok (some m)) (hroom : Roomy v m.slots) (hl : args.length = m.slots)
    (ho : v.operands = args.reverse ++ rest) :
    ∃ v1, v1 = { v with operands := rest, stack := v1.stack, allocated := v.allocated + m.slots } ∧
      v1.stack.slots = v.stack.slots ++ args ∧
      (v1.stack.gen = v.stack.gen ∧ v1.stack.cap = v.stack.cap ∧ 16 * (v.stack.slots.length + m.slots) ≤ v.stack.cap ∨
        v1.stack.gen = v.stack.gen + 1 ∧ v.stack.cap < 16 * (v.stack.slots.length + m.slots)) ∧
      callMethod cfg run fr token v = (do
        match ← invoke cfg run m (.slots v1.stack.gen v.stack.slots.length m.slots) with
        | some a => push a
        | none => pure () : X Unit) v1 := by
  obtain ⟨r, u, hal⟩ := stackAlloc_room hroom
  obtain ⟨hr, h2, h3, h4⟩ := stackAlloc_ok hal
  have hou : u.operands = args.reverse ++ rest := by rw [h2]; exact ho
  obtain ⟨s', hp, hlen, hlow, hval⟩ := popInto_ok (v := u) (g := u.stack.gen) (b := v.stack.slots.length) (c := m.slots)
    (Nat.le_refl m.slots) rfl (by rw [h3]; simp) hl hou
  have hs : s' = v.stack.slots ++ args := by
    apply List.ext_getElem?
    intro k
    rcases Nat.lt_or_ge k v.stack.slots.length with h | h
    · rw [hlow k (.inl h), h3, List.getElem?_append_left h, List.getElem?_append_left h]
    · rcases Nat.lt_or_ge k (v.stack.slots.length + m.slots) with h' | h'
      · have := hval (k - v.stack.slots.length) (by omega)
        rw [Nat.add_sub_cancel' h] at this
        rw [this, List.getElem?_append_right h]
      · rw [List.getElem?_eq_none, List.getElem?_eq_none]
        · simp; omega
        · rw [hlen, h3]; simp; omega
  refine ⟨{ u with operands := rest, stack := { u.stack with slots := s' } }, ?_, hs, ?_, ?_⟩
  · rw [h2]
  · rcases h4 with ⟨h, h'', h'⟩ | ⟨h, h'⟩
    · exact .inl ⟨h, h', by rw [h3] at h''; simpa using h''⟩
    · refine .inr ⟨h, ?_⟩
      rw [h3] at h'; simpa using h'
  · unfold callMethod
    rw [X.liftM_bind_ok hm]
    simp only [Res.ofOption]
    rw [X.liftM_bind_ok rfl]
    simp only [← MethodRec.slots.eq_1]
    rw [X.bind_ok hal, hr, X.bind_ok hp]
    rfl

theorem popInto_allocated (r : Region) (n : Nat) (v : VM) : (popInto r n v).2.allocated = v.allocated := by
  induction n generalizing v with
  | zero => rfl
  | succ n ih =>
    rw [popInto, X.bind_run]
    have h1 : (pop v).2.allocated = v.allocated := by
      simp only [pop, tryPop, X.bind_run, X.update]
      cases v.operands <;> rfl
    rcases h : pop v with ⟨x, v1⟩
    rw [h] at h1
    cases x with
    | ok a =>
      dsimp only
      rw [X.bind_run]
      have h2 : (writeSlot r n a v1).2.allocated = v1.allocated := by
        simp only [writeSlot, X.update]
        cases r with
        | host => dsimp only; split <;> rename_i heq <;> (try split at heq) <;> first | (cases heq; done) | (cases heq; rfl) | rfl
        | slots => dsimp only; split <;> rename_i heq <;> (repeat' split at heq) <;> first | (cases heq; done) | (cases heq; rfl) | rfl
      rcases h' : writeSlot r n a v1 with ⟨y, v2⟩
      rw [h'] at h2
      cases y with
      | ok _ => dsimp only; rw [ih, h2, h1]
      | _ => exact h2.trans h1
    | _ => exact h1

theorem popInto_length (r : Region) (n : Nat) (v : VM) :
    (popInto r n v).2.stack.slots.length = v.stack.slots.length := by
  have h := (Keeps.popInto (L := 0) (H := False) (P := False) (r := r)
    (by cases r <;> simp [Region.free]) n).run v (Nat.zero_le _)
  have ha := popInto_allocated r n v
  have := h.balance
  omega

/-! ## Returning -/

theorem loop_next {n : Nat} (h : step cfg ops tf fr ip v = (.ok (.next n), v')) :
    loop cfg ops tf (fuel + 1) fr ip v = loop cfg ops tf fuel fr n v' := by rw [loop_succ, h]

theorem loop_ret {r : Option Value} (h : step cfg ops tf fr ip v = (.ok (.ret r), v')) :
    loop cfg ops tf (fuel + 1) fr ip v = (.ok r, v') := by rw [loop_succ, h]

/-- The method's return type is `System.Void`: types are compared by full name. -/
def IsVoid (w : World) (m : MethodRec) : Prop :=
  ∃ r t tr, w.types[m.returnType]? = some r ∧ w.getType "System.Void".toList = some t ∧ w.types[t]? = some tr ∧
    r.fullName = tr.fullName

/-- The method's return type exists and is not `System.Void`. -/
def IsValue (w : World) (m : MethodRec) : Prop :=
  ∃ r t tr, w.types[m.returnType]? = some r ∧ w.getType "System.Void".toList = some t ∧ w.types[t]? = some tr ∧
    r.fullName ≠ tr.fullName

theorem doRet_void (h : IsVoid v.world fr.method) : doRet fr v = (.ok (.ret none), v) := by
  obtain ⟨r, t, tr, h1, h2, h3, h4⟩ := h
  unfold doRet
  rw [X.view_bind_ok (a := true) (by simp only [World.typeAt, h1, h2, h3]; simp [h4])]
  rfl

theorem doRet_value (h : IsValue v.world fr.method) :
    doRet fr v = (.ok (.ret v.operands.head?), { v with operands := v.operands.tail }) := by
  obtain ⟨r, t, tr, h1, h2, h3, h4⟩ := h
  unfold doRet
  rw [X.view_bind_ok (a := false) (by simp only [World.typeAt, h1, h2, h3]; simp [h4])]
  cases ho : v.operands <;> simp [X.bind_run, tryPop, X.update, ho]
  rw [← ho]

theorem Evolves.typeAt {w w' : World} (h : Evolves w w') {t : Nat} {r : TypeRec} (ht : w.types[t]? = some r) :
    w'.types[t]? = some r := by
  obtain ⟨s, hs⟩ := h.types
  have hl : t < w.types.length := by
    rcases Nat.lt_or_ge t w.types.length with h | h
    · exact h
    · rw [List.getElem?_eq_none h] at ht; cases ht
  rw [← hs, List.getElem?_append_left hl, ht]

theorem IsVoid.evolves {w w' : World} {m : MethodRec} (h : IsVoid w m) (he : Evolves w w') : IsVoid w' m := by
  obtain ⟨r, t, tr, h1, h2, h3, h4⟩ := h
  exact ⟨r, t, tr, he.typeAt h1, by rw [he.names _ (by decide)]; exact h2, he.typeAt h3, h4⟩

theorem frameFree_any (fr : Frame) : Keeps.FrameFree 0 False fr := by
  constructor
  · cases fr.locals <;> simp [Region.free]
  · cases fr.params <;> simp [Region.free]

theorem exec_returns {op : Op} (h : op ≠ .Ret) :
    Ends (exec cfg ops tf fr op ip) (fun a => ∀ x, a ≠ .ret x) := by
  cases op <;> first | exact absurd rfl h | skip
  all_goals
    simp only [exec, constant, immediate, loadFrom, loadAt', storeTo, storeAt, compareOp, binary, unary, doDup, doPop,
      doCall, doNewobj, doStfld, doLdfld, doNewarr, doStelem, doLdelem, doLdstr, branch, branchIf, branchCmp]
    with_reducible repeat (first
      | exact Ends.pure (fun _ => by simp) | exact Ends.panic | exact Ends.err
      | (refine Ends.bind fun _ => ?_) | split)

/-- A step that returns is a `ret` instruction. -/
theorem step_ret {r : Option Value} (h : step cfg ops tf fr ip v = (.ok (.ret r), v')) :
    doRet fr v = (.ok (.ret r), v') := by
  unfold step at h
  obtain ⟨⟨op, ip'⟩, v1, h1, h2⟩ := X.bind_eq_ok.1 h
  have hv : v1 = v := (congrArg Prod.snd h1).symm
  subst hv
  by_cases ho : op = .Ret
  · subst ho; exact h2
  · exact absurd rfl (exec_returns ho _ (.ret r) (congrArg Prod.fst h2) r)

theorem loop_void {r : Option Value} (h : loop cfg ops tf fuel fr ip v = (.ok r, v'))
    (hv : IsVoid v.world fr.method) : r = none := by
  induction fuel generalizing ip v with
  | zero => cases h
  | succ fuel ih =>
    rw [loop_succ] at h
    have hk := ((Keeps.step (cfg := cfg) (ops := ops) (tf := tf) (P := False) (frameFree_any fr) ip).run v
      (Nat.zero_le _)).world
    rcases hs : step cfg ops tf fr ip v with ⟨x, v1⟩
    rw [hs] at h hk
    cases x with
    | ok a =>
      cases a with
      | next n => exact ih h (hv.evolves hk)
      | ret a =>
        have := step_ret hs
        rw [doRet_void hv] at this
        cases this; cases h; rfl
      | call t after n =>
        dsimp only at h
        obtain ⟨_, v2, hc, h⟩ := X.bind_eq_ok.1 h
        have hk2 := ((callMethod_keeps (L := 0) (H := False) (cfg := cfg) (loop_free cfg ops tf fuel) fr t).run v1
          (Nat.zero_le _)).world
        rw [hc] at hk2
        have hv2 := (hv.evolves hk).evolves hk2
        cases after with
        | some a =>
          dsimp only at h
          obtain ⟨_, v3, hp, h⟩ := X.bind_eq_ok.1 h
          cases hp
          exact ih h hv2
        | none => exact ih h hv2
    | _ => cases h

end Clr
