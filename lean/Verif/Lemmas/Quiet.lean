import Verif.Lemmas.Sound
/-! # Code that does not allocate (for C73) -/

namespace Clr

variable {cfg : Cfg} {ops : FloatOps} {tf fuel : Nat} {fr : Frame} {ip : Nat} {w : World} {v v' : VM} {bs bs' : List Block} {T : Prop}
variable {encs : List Encoding} {good : MethodRec → MethodTy → Prop}

/-- Code that leaves the buffers where they are. -/
structure Quiet {α : Type} (x : X α) : Prop where
  keeps : ∀ v, (x v).2.heap.gen = v.heap.gen ∧ (x v).2.stack.gen = v.stack.gen

namespace Quiet
variable {α β : Type}

theorem pure (a : α) : Quiet (Pure.pure a : X α) := ⟨fun _ => ⟨rfl, rfl⟩⟩
theorem lift (x : Res α) : Quiet (_root_.liftM x : X α) := ⟨fun _ => ⟨rfl, rfl⟩⟩
theorem view (f : VM → Res α) : Quiet (X.view f) := ⟨fun _ => ⟨rfl, rfl⟩⟩

theorem bind {x : X α} {f : α → X β} (hx : Quiet x) (hf : ∀ a, Quiet (f a)) : Quiet (x >>= f) := by
  refine ⟨fun v => ?_⟩
  have h := hx.keeps v
  rw [X.bind_run]
  rcases hr : x v with ⟨r, v1⟩
  rw [hr] at h
  cases r with
  | ok a => exact ⟨((hf a).keeps v1).1.trans h.1, ((hf a).keeps v1).2.trans h.2⟩
  | _ => exact h

theorem update {f : VM → Res (α × VM)}
    (h : ∀ v a v', f v = .ok (a, v') → v'.heap.gen = v.heap.gen ∧ v'.stack.gen = v.stack.gen) : Quiet (X.update f) := by
  refine ⟨fun v => ?_⟩
  unfold X.update
  cases hf : f v with
  | ok r => obtain ⟨a, v'⟩ := r; exact h v a v' hf
  | _ => exact ⟨rfl, rfl⟩

theorem push (a : Value) : Quiet (push a) := ⟨fun _ => ⟨rfl, rfl⟩⟩

theorem tryPop : Quiet tryPop := update fun v a v' h => by
  split at h <;> cases h <;> exact ⟨rfl, rfl⟩

theorem pop : Quiet pop := bind tryPop fun _ => lift _
theorem peek : Quiet peek := view _

theorem popInt : Quiet popInt := bind pop fun a => by
  split
  · exact pure _
  · exact lift _

theorem poke (p : Ptr) (off : Nat) (bs : Bytes) : Quiet (poke p off bs) := update fun v a v' h => by
  obtain ⟨⟨b, h1⟩, hb, h⟩ := Res.bind_eq_ok.1 h
  cases h
  obtain ⟨h1, hw, hb⟩ := Res.bind_eq_ok.1 hb
  cases hb
  unfold Heap.write at hw
  split at hw <;> cases hw
  exact ⟨rfl, rfl⟩

theorem readSlot (r : Region) (i : Nat) : Quiet (readSlot r i) := view _

theorem writeSlot (r : Region) (i : Nat) (a : Value) : Quiet (writeSlot r i a) := update fun v a v' h => by
  dsimp only at h
  cases r with
  | host => dsimp only at h; split at h <;> cases h; exact ⟨rfl, rfl⟩
  | slots gen base count =>
    dsimp only at h
    split at h
    · split at h <;> cases h; exact ⟨rfl, rfl⟩
    · cases h

theorem peekBytes (p : Ptr) (off n : Nat) : Quiet (peekBytes p off n) := view _
theorem typeId (t : Nat) : Quiet (typeId t) := view _
theorem objectFlags (p : Ptr) : Quiet (objectFlags p) := bind (peekBytes ..) fun _ => pure _

theorem rawObject (p : Ptr) : Quiet (rawObject p) := bind (objectFlags p) fun _ => by
  split
  · exact pure _
  · exact lift _

theorem setField (p : Ptr) (f : FieldRec) (a : Value) : Quiet (setField p f a) :=
  bind (rawObject p) fun _ => bind (lift _) fun _ => poke ..

theorem getField (p : Ptr) (f : FieldRec) : Quiet (getField p f) :=
  bind (rawObject p) fun _ => bind (view _) fun _ => bind (peekBytes ..) fun _ => pure _

theorem popArray : Quiet popArray := bind pop fun a => by
  split
  · refine bind (objectFlags _) fun _ => ?_
    split
    · exact pure _
    · exact lift _
  · exact lift _

theorem intSlice (p : Ptr) : Quiet (intSlice p) :=
  bind (view _) fun _ => bind (typeId _) fun _ => bind (peekBytes ..) fun _ => by
    dsimp only
    split
    · exact bind (peekBytes ..) fun _ => pure _
    · exact bind (view _) fun _ => bind (view _) fun _ => lift _

theorem setInt (p : Ptr) (i : Nat) (x : BitVec 32) : Quiet (setInt p i x) := bind (intSlice p) fun _ => by
  split
  · exact poke ..
  · exact lift _

theorem getInt (p : Ptr) (i : Nat) : Quiet (getInt p i) := bind (intSlice p) fun _ => by
  split
  · exact bind (peekBytes ..) fun _ => pure _
  · exact lift _

theorem exec (op : Op) (hop : op ≠ .Newobj ∧ op ≠ .Newarr ∧ op ≠ .Ldstr) (ip : Nat) : Quiet (exec cfg ops tf fr op ip) := by
  obtain ⟨h1, h2, h3⟩ := hop
  cases op <;> first | exact absurd rfl h1 | exact absurd rfl h2 | exact absurd rfl h3 | clear h1 h2 h3 <;>
    simp only [Clr.exec, constant, immediate, loadFrom, loadAt', storeTo, storeAt, compareOp, binary, unary, doRet, doDup,
      doPop, doCall, doStfld, doLdfld, doStelem, doLdelem, branch, branchIf, branchCmp] <;>
    with_reducible repeat (first
      | exact pure _ | exact lift _ | exact view _ | exact push _ | exact pop | exact tryPop | exact peek | exact popInt
      | exact popArray | exact readSlot .. | exact writeSlot .. | exact setField .. | exact getField ..
      | exact setInt .. | exact getInt ..
      | (refine bind ?_ fun _ => ?_) | split)

end Quiet

/-- Only two instructions call. -/
theorem exec_calls {op : Op} (hop : op ≠ .Newobj ∧ op ≠ .Call) :
    Ends (exec cfg ops tf fr op ip) (fun a => ∀ t o n, a ≠ .call t o n) := by
  obtain ⟨h1, h2⟩ := hop
  cases op <;> first | exact absurd rfl h1 | exact absurd rfl h2 | clear h1 h2 <;>
    simp only [exec, constant, immediate, loadFrom, loadAt', storeTo, storeAt, compareOp, binary, unary, doRet, doDup, doPop,
      doStfld, doLdfld, doNewarr, doStelem, doLdelem, doLdstr, branch, branchIf, branchCmp] <;>
    with_reducible repeat (first
      | exact Ends.pure (fun _ _ _ h => nomatch h) | exact Ends.panic | exact Ends.err
      | (refine Ends.bind fun _ => ?_) | (split))

/-- The instructions that call or allocate. -/
def reaching : List String := ["call", "newobj", "newarr", "ldstr"]

theorem leaf_ok : (encodings.filter Encoding.isRight).all (fun e => match decodeBytes e.opcode with
    | some op => e.mnemonic ∈ reaching || !([Op.Newobj, .Newarr, .Ldstr, .Call].contains op)
    | none => false) = true := by
  decide +kernel

/-- A typed method that neither calls nor allocates does not replace buffers. -/
theorem loop_leaf (hencs : ∀ e ∈ encs, e ∈ rightEncodings) (hleaf : ∀ e ∈ encs, e.mnemonic ∉ reaching) (hp : PrimitivesOk w)
    (fuel : Nat) {S : Nat → Shape → Prop} {result : Option Ty} (hfr : TypedFrame cfg tf w encs good fr S result)
    {σ : Shape} (hs : S ip σ) {rest : List Value} (h : StateOk cfg tf w fr bs rest σ v) :
    ¬ Moved (loop cfg ops tf fuel fr ip v).2 := by
  have hna : cfg.checks = true ∨ ∀ e ∈ encs, e.mnemonic ≠ "newarr" := .inr fun e he hm => hleaf e he (by rw [hm]; decide)
  induction fuel generalizing ip σ bs v with
  | zero =>
    intro hm
    rcases hm with hm | hm
    · exact hm h.heap.gen
    · exact hm h.gen
  | succ fuel ih =>
    obtain ⟨e, he, arg, harg, hc, -⟩ := hfr.2.2.choose_spec.2 ip σ hs
    obtain ⟨he1, he2⟩ := right_isRight (hencs e he)
    obtain ⟨op, hop, hsh⟩ := row_ok he1 he2
    have hl := List.all_eq_true.1 leaf_ok e (List.mem_filter.2 ⟨he1, he2⟩)
    simp only [hop, Bool.or_eq_true, decide_eq_true_eq] at hl
    have hl := hl.resolve_left (hleaf e he)
    have hops : op ≠ .Newobj ∧ op ≠ .Newarr ∧ op ≠ .Ldstr ∧ op ≠ .Call := by
      refine ⟨?_, ?_, ?_, ?_⟩ <;> rintro rfl <;> revert hl <;> decide
    have hstep : step cfg ops tf fr ip v = exec cfg ops tf fr op (ip + e.opcode.length) v := step_of_fetch (fetchOp_of hop hc.left) v
    have hq := (Quiet.exec (cfg := cfg) (ops := ops) (tf := tf) (fr := fr) op ⟨hops.1, hops.2.1, hops.2.2.1⟩ (ip + e.opcode.length)).keeps v
    have hst := step_typed (ops := ops) hencs hna hp hfr hs h
    have hnc := exec_calls (cfg := cfg) (ops := ops) (tf := tf) (fr := fr) (ip := ip + e.opcode.length) ⟨hops.1, hops.2.2.2⟩ v
    rw [← hstep] at hq hnc
    rw [loop, X.bind_run]
    rcases hx : step cfg ops tf fr ip v with ⟨r, v1⟩
    rw [hx] at hq hst hnc
    have hnm : ¬ Moved v1 := by
      rintro (hm | hm)
      · exact hm (hq.1.trans h.heap.gen)
      · exact hm (hq.2.trans h.gen)
    cases r with
    | ok a =>
      have hst : StepOk cfg tf w good fr S result bs rest a v1 := hst.resolve_left hnm
      cases a with
      | next n =>
        obtain ⟨bs', τ, -, h1, h2⟩ := hst
        exact ih h2 h1
      | ret r => exact hnm
      | call t o n => exact absurd rfl (hnc _ rfl t o n)
    | _ => exact hnm

end Clr
