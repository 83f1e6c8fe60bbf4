import Verif.Lemmas.Frames
/-! # Locals and arguments -/

namespace Clr

variable {cfg : Cfg} {ops : FloatOps} {tf : Nat} {fr : Frame} {ip : Nat} {v : VM} {rest : List Value}

/-- The slice behind the frame's locals or arguments. -/
def Frame.slice (fr : Frame) : Var → Region
  | .loc => fr.locals
  | .arg => fr.params

/-- Index `i` of the slice can be accessed: it is in range and the memory has not moved. -/
def Usable (v : VM) : Region → Nat → Prop
  | .host, i => i < v.host.length
  | .slots gen base count, i => i < count ∧ gen = v.stack.gen ∧ base + count ≤ v.stack.slots.length

instance decUsable (v : VM) (r : Region) (i : Nat) : Decidable (Usable v r i) := by
  cases r <;> simp only [Usable] <;> infer_instance

/-- The slices do not overlap. -/
def Apart : Region → Region → Prop
  | .host, .host => False
  | .slots _ b c, .slots _ b' c' => b + c ≤ b' ∨ b' + c' ≤ b
  | _, _ => True

instance decApart (r s : Region) : Decidable (Apart r s) := by
  cases r <;> cases s <;> simp only [Apart] <;> infer_instance

/-- The contents of a slice. -/
def Region.at (v : VM) : Region → Nat → Option Value
  | .host, i => v.host[i]?
  | .slots _ base _, i => v.stack.slots[base + i]?

theorem readSlot_ok {r : Region} {i : Nat} (h : Usable v r i) :
    ∃ b, r.at v i = some b ∧ readSlot r i v = (.ok b, v) := by
  cases r with
  | host =>
    simp only [Usable] at h
    exact ⟨v.host[i], by simp [Region.at, h], by simp [readSlot, h]⟩
  | slots g b c =>
    obtain ⟨h1, h2, h3⟩ := h
    have : b + i < v.stack.slots.length := by omega
    exact ⟨v.stack.slots[b + i], by simp [Region.at, this], by simp [readSlot, h1, h2, this]⟩

/-- The state after a store. -/
def Region.put (v : VM) (a : Value) : Region → Nat → VM
  | .host, i => { v with host := v.host.set i a }
  | .slots _ base _, i => { v with stack := { v.stack with slots := v.stack.slots.set (base + i) a } }

theorem writeSlot_ok {r : Region} {i : Nat} (h : Usable v r i) (a : Value) :
    writeSlot r i a v = (.ok (), r.put v a i) := by
  cases r with
  | host => simp only [Usable] at h; simp [writeSlot, X.update, h, Region.put]
  | slots g b c =>
    obtain ⟨h1, h2, h3⟩ := h
    have : b + i < v.stack.slots.length := by omega
    simp [writeSlot, X.update, h1, h2, this, Region.put]

theorem Usable.put {r s : Region} {i j : Nat} {a : Value} (h : Usable v s j) : Usable (r.put v a i) s j := by
  cases r <;> cases s <;> simpa [Region.put, Usable] using h

theorem at_put_same {r : Region} {i j : Nat} {a : Value} (hi : Usable v r i) (hj : Usable v r j) :
    r.at (r.put v a i) j = if i = j then some a else r.at v j := by
  cases r with
  | host => simp only [Usable] at hi hj; simp [Region.at, Region.put, List.getElem?_set, hi]
  | slots g b c =>
    obtain ⟨h1, h2, h3⟩ := hi
    simp [Region.at, Region.put, List.getElem?_set, show b + i < v.stack.slots.length by omega]

theorem at_put_apart {r s : Region} {i j : Nat} {a : Value} (hi : Usable v r i) (hj : Usable v s j) (h : Apart r s) :
    s.at (r.put v a i) j = s.at v j := by
  cases r <;> cases s <;> simp only [Region.at, Region.put]
  · exact h.elim
  · simp only [Apart, Usable] at h hi hj
    rw [List.getElem?_set, if_neg (by omega)]

theorem loadSlot_ok {r : Region} {i : Nat} {b : Value} (h : Usable v r i) (hb : r.at v i = some b) (ip : Nat) :
    loadAt' r i ip v = (.ok (.next ip), { v with operands := b :: v.operands }) := by
  obtain ⟨b', hb', hr⟩ := readSlot_ok h
  rw [hb] at hb'; cases hb'
  unfold loadAt'
  rw [X.bind_ok hr]
  rfl

theorem storeSlot_ok {r : Region} {i : Nat} {a : Value} (hs : v.operands = a :: rest) (h : Usable v r i) (ip : Nat) :
    storeAt r i ip v = (.ok (.next ip), r.put { v with operands := rest } a i) := by
  unfold storeAt
  rw [X.bind_ok (pop_cons hs), X.bind_ok (writeSlot_ok (v := { v with operands := rest }) (by cases r <;> exact h) a)]
  rfl

theorem fetch_byte {code : Bytes} {i : Nat} (h : HasAt code ip [UInt8.ofNat i]) (hi : i < 256) :
    fetch code ip 1 = .ok i := by
  have := h.fetch (by simp)
  simpa [leNat, Nat.mod_eq_of_lt hi] using this

/-- Every encoding of a load, except `ldarg` with a two-byte index. -/
theorem load_run {y : Var} {j : Nat} {l : Bytes} (hl : l ∈ y.loads j) (hn : ¬ [0xfe, 0x09] <+: l)
    (hc : HasAt fr.code ip l) : step cfg ops tf fr ip v = loadAt' (fr.slice y) j (ip + l.length) v := by
  cases y with
  | loc =>
    simp only [Var.loads, List.mem_append] at hl
    rcases hl with (hl | hl) | hl
    · split at hl <;> simp only [List.mem_singleton, List.not_mem_nil] at hl
      subst hl
      rename_i h
      match j, h with
      | 0, _ => exact step_one hc (by decide) (op := .Ldloc_0) (by decide) v
      | 1, _ => exact step_one hc (by decide) (op := .Ldloc_1) (by decide) v
      | 2, _ => exact step_one hc (by decide) (op := .Ldloc_2) (by decide) v
      | 3, _ => exact step_one hc (by decide) (op := .Ldloc_3) (by decide) v
    · split at hl <;> simp only [List.mem_singleton, List.not_mem_nil] at hl
      subst hl
      rename_i h
      rw [step_one hc (by decide) (op := .Ldloc_S) (by decide)]
      show loadFrom fr fr.locals 1 (ip + 1) v = _
      unfold loadFrom
      rw [X.liftM_bind_ok (fetch_byte hc.tail h)]
      rfl
    · split at hl <;> simp only [List.mem_singleton, List.not_mem_nil] at hl
      subst hl
      rename_i h
      rw [step_two hc (by decide) (op := .Ldloc) (by decide)]
      show loadFrom fr fr.locals 2 (ip + 2) v = _
      unfold loadFrom
      rw [X.liftM_bind_ok (hc.tail.tail.fetch_leBytes (n := 1) (by omega))]
      simp [Frame.slice]
  | arg =>
    simp only [Var.loads, List.mem_append] at hl
    rcases hl with (hl | hl) | hl
    · split at hl <;> simp only [List.mem_singleton, List.not_mem_nil] at hl
      subst hl
      rename_i h
      match j, h with
      | 0, _ => exact step_one hc (by decide) (op := .Ldarg_0) (by decide) v
      | 1, _ => exact step_one hc (by decide) (op := .Ldarg_1) (by decide) v
      | 2, _ => exact step_one hc (by decide) (op := .Ldarg_2) (by decide) v
      | 3, _ => exact step_one hc (by decide) (op := .Ldarg_3) (by decide) v
    · split at hl <;> simp only [List.mem_singleton, List.not_mem_nil] at hl
      subst hl
      rename_i h
      rw [step_one hc (by decide) (op := .Ldarg_S) (by decide)]
      show loadFrom fr fr.params 1 (ip + 1) v = _
      unfold loadFrom
      rw [X.liftM_bind_ok (fetch_byte hc.tail h)]
      rfl
    · split at hl <;> simp only [List.mem_singleton, List.not_mem_nil] at hl
      subst hl
      exact absurd (List.prefix_append _ _) hn

/-- Every encoding of a store, except `starg` with a two-byte index. -/
theorem store_run {y : Var} {j : Nat} {l : Bytes} (hl : l ∈ y.stores j) (hn : ¬ [0xfe, 0x0b] <+: l)
    (hc : HasAt fr.code ip l) : step cfg ops tf fr ip v = storeAt (fr.slice y) j (ip + l.length) v := by
  cases y with
  | loc =>
    simp only [Var.stores, List.mem_append] at hl
    rcases hl with (hl | hl) | hl
    · split at hl <;> simp only [List.mem_singleton, List.not_mem_nil] at hl
      subst hl
      rename_i h
      match j, h with
      | 0, _ => exact step_one hc (by decide) (op := .Stloc_0) (by decide) v
      | 1, _ => exact step_one hc (by decide) (op := .Stloc_1) (by decide) v
      | 2, _ => exact step_one hc (by decide) (op := .Stloc_2) (by decide) v
      | 3, _ => exact step_one hc (by decide) (op := .Stloc_3) (by decide) v
    · split at hl <;> simp only [List.mem_singleton, List.not_mem_nil] at hl
      subst hl
      rename_i h
      rw [step_one hc (by decide) (op := .Stloc_S) (by decide)]
      show storeTo fr fr.locals 1 (ip + 1) v = _
      unfold storeTo
      rw [X.liftM_bind_ok (fetch_byte hc.tail h)]
      rfl
    · split at hl <;> simp only [List.mem_singleton, List.not_mem_nil] at hl
      subst hl
      rename_i h
      rw [step_two hc (by decide) (op := .Stloc) (by decide)]
      show storeTo fr fr.locals 2 (ip + 2) v = _
      unfold storeTo
      rw [X.liftM_bind_ok (hc.tail.tail.fetch_leBytes (n := 1) (by omega))]
      simp [Frame.slice]
  | arg =>
    simp only [Var.stores, List.mem_append] at hl
    rcases hl with hl | hl
    · split at hl <;> simp only [List.mem_singleton, List.not_mem_nil] at hl
      subst hl
      rename_i h
      rw [step_one hc (by decide) (op := .Starg_S) (by decide)]
      show storeTo fr fr.params 1 (ip + 1) v = _
      unfold storeTo
      rw [X.liftM_bind_ok (fetch_byte hc.tail h)]
      rfl
    · split at hl <;> simp only [List.mem_singleton, List.not_mem_nil] at hl
      subst hl
      exact absurd (List.prefix_append _ _) hn

/-- There is room for `n` more slots. -/
def Roomy (v : VM) (n : Nat) : Prop := v.stack.cap < 2 ^ 62 ∧ 16 * (v.stack.slots.length + n) < 2 ^ 62

instance decRoomy (v : VM) (n : Nat) : Decidable (Roomy v n) := by unfold Roomy; infer_instance

theorem stackAlloc_room {n : Nat} (h : Roomy v n) : ∃ r v', stackAlloc n v = (.ok r, v') := by
  unfold stackAlloc X.update
  dsimp only
  obtain ⟨h1, h2⟩ := h
  by_cases hc : 16 * (v.stack.slots.length + n) ≤ v.stack.cap
  · exact ⟨_, _, by rw [if_pos hc]⟩
  · exact ⟨_, _, by rw [if_neg hc, if_pos (by omega)]⟩

/-- Variables in the old part of the memory survive an allocation that does not move it. -/
theorem Usable.alloc {n : Nat} {v' : VM} {r s : Region} {i : Nat} (h : stackAlloc n v = (.ok r, v'))
    (hg : v'.stack.gen = v.stack.gen) (hs : Usable v s i) : Usable v' s i ∧ s.at v' i = s.at v i := by
  obtain ⟨-, h2, h3, -⟩ := stackAlloc_ok h
  cases s with
  | host =>
    have : v'.host = v.host := by rw [h2]
    simpa [Usable, Region.at, this] using hs
  | slots g b c =>
    obtain ⟨h4, h5, h6⟩ := hs
    refine ⟨⟨h4, by rw [hg]; exact h5, by rw [h3]; simp; omega⟩, ?_⟩
    simp only [Region.at, h3]
    rw [List.getElem?_append_left (by omega)]

/-- A method with a body: the allocation of the locals and the loop. -/
theorem invoke_il {run : Frame → Nat → X (Option Value)} {m : MethodRec} {body : MethodBody} {params : Region}
    {t : TypeRec} {asm : AssemblyRec} (hm : m.impl = .il body) (ht : v.world.types[m.declaringType]? = some t)
    (ha : v.world.assemblies.find? (·.id = t.assembly) = some asm) :
    invoke cfg run m params v = X.finally' (do
      let locals ← stackAlloc body.locals.length
      run { method := m, assembly := asm, code := body.code, locals, params } 0) (release cfg v.allocated)
        { v with allocated := 0 } := by
  unfold invoke
  rw [hm]
  dsimp only
  rw [X.view_bind_ok (a := t) (by simp [World.typeAt, ht]), X.view_bind_ok (a := asm) (by simp [ha]),
    X.bind_ok (X.update_ok rfl)]

/-- The same for a loop that keeps the books, when the allocation succeeds. -/
theorem invoke_run {run : Frame → Nat → X (Option Value)} (hrun : RunsFree run) {m : MethodRec} {body : MethodBody}
    {params : Region} {t : TypeRec} {asm : AssemblyRec} (hm : m.impl = .il body)
    (ht : v.world.types[m.declaringType]? = some t) (ha : v.world.assemblies.find? (·.id = t.assembly) = some asm)
    {r : Region} {v1 : VM} (hal : stackAlloc body.locals.length { v with allocated := 0 } = (.ok r, v1)) :
    invoke cfg run m params v =
      let out := run { method := m, assembly := asm, code := body.code, locals := r, params } 0 v1
      (out.1, { out.2 with
        stack := { out.2.stack with slots := out.2.stack.slots.take v.stack.slots.length }, allocated := v.allocated }) := by
  obtain ⟨hr, h2, h3, -⟩ := stackAlloc_ok hal
  rw [invoke_il hm ht ha]
  dsimp only
  generalize hfr : ({ method := m, assembly := asm, code := body.code, locals := r, params } : Frame) = fr
  have hx : (do
      let locals ← stackAlloc body.locals.length
      run { method := m, assembly := asm, code := body.code, locals, params } 0 : X (Option Value))
        { v with allocated := 0 } = run fr 0 v1 := by rw [X.bind_ok hal, hfr]
  have hk : Tidy 0 False False v1 (run fr 0 v1).2 := by
    refine (hrun 0 False fr 0 ?_).run v1 (Nat.zero_le _)
    rw [← hfr]
    constructor
    · subst hr; exact Nat.zero_le _
    · cases params with
      | host => exact id
      | slots g b c => exact Nat.zero_le _
  have hbal := hk.balance
  have hlen : v1.stack.slots.length = v.stack.slots.length + v1.allocated := by
    rw [h3, h2]; simp
  have hrel : release cfg v.allocated (run fr 0 v1).2 = .ok { (run fr 0 v1).2 with
      stack := { (run fr 0 v1).2.stack with slots := (run fr 0 v1).2.stack.slots.take v.stack.slots.length },
      allocated := v.allocated } := by
    unfold release
    rw [usub_ok (by omega)]
    simp only [Res.ok_bind, Res.pure_eq]
    rw [show (run fr 0 v1).2.stack.slots.length - (run fr 0 v1).2.allocated = v.stack.slots.length by omega]
  rw [finally_run (by rw [hx]; exact hrel), hx]

end Clr
