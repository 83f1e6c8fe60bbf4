import Verif.Lemmas.Objects
/-! # Reading and writing objects -/

namespace Clr

variable {cfg : Cfg} {ops : FloatOps} {tf : Nat} {fr : Frame} {ip : Nat} {v v' : VM} {h h' : Heap} {p q : Ptr}

theorem write_shape {off : Nat} {bs : Bytes} (hw : h.write p off bs = .ok h') :
    p.gen = h.gen ∧ p.off + off + bs.length ≤ h.mem.length ∧
    h' = { h with mem := h.mem.take (p.off + off) ++ bs ++ h.mem.drop (p.off + off + bs.length) } := by
  unfold Heap.write at hw
  split at hw
  · rename_i hc; cases hw; exact ⟨hc.1, hc.2, rfl⟩
  · cases hw

theorem write_fits {off : Nat} {bs : Bytes} (hg : p.gen = h.gen) (hl : p.off + off + bs.length ≤ h.mem.length) :
    ∃ h', h.write p off bs = .ok h' := ⟨_, if_pos ⟨hg, hl⟩⟩

theorem length_write {off : Nat} {bs : Bytes} (hw : h.write p off bs = .ok h') : h'.mem.length = h.mem.length := by
  obtain ⟨-, h2, rfl⟩ := write_shape hw
  simp; omega

theorem read_write_same {off : Nat} {bs : Bytes} (hw : h.write p off bs = .ok h') :
    h'.read p off bs.length = .ok bs := by
  have hlen := length_write hw
  obtain ⟨h1, h2, rfl⟩ := write_shape hw
  unfold Heap.read
  rw [if_pos ⟨h1, by omega⟩]
  simp only [List.append_assoc]
  rw [List.drop_append_of_le_length (by simp; omega)]
  simp

theorem read_write_apart {off off' n : Nat} {bs : Bytes} (hw : h.write p off bs = .ok h')
    (ha : q.off + off' + n ≤ p.off + off ∨ p.off + off + bs.length ≤ q.off + off') :
    h'.read q off' n = h.read q off' n := by
  have hlen := length_write hw
  obtain ⟨h1, h2, he⟩ := write_shape hw
  unfold Heap.read
  rw [hlen, show h'.gen = h.gen by rw [he]]
  split
  · rename_i hc
    have : (h'.mem.drop (q.off + off')).take n = (h.mem.drop (q.off + off')).take n := by
      apply List.ext_getElem?
      intro k
      simp only [List.getElem?_take, List.getElem?_drop]
      split
      · rw [he]
        simp only [List.append_assoc]
        rcases ha with ha | ha
        · rw [List.getElem?_append_left (by simp; omega), List.getElem?_take, if_pos (by omega)]
        · rw [List.getElem?_append_right (by simp; omega), List.getElem?_append_right (by simp; omega),
            List.getElem?_drop]
          congr 1
          simp; omega
      · rfl
    rw [this]
  · rfl

theorem read_inv {off n : Nat} {bs : Bytes} (hr : h.read p off n = .ok bs) :
    p.gen = h.gen ∧ p.off + off + n ≤ h.mem.length ∧ bs.length = n := by
  unfold Heap.read at hr
  split at hr
  · rename_i hc; cases hr; exact ⟨hc.1, hc.2, by simp; omega⟩
  · cases hr

theorem read_fits {off n : Nat} (hg : p.gen = h.gen) (hl : p.off + off + n ≤ h.mem.length) :
    ∃ bs, h.read p off n = .ok bs := ⟨_, if_pos ⟨hg, hl⟩⟩

/-- The head of a longer read. -/
theorem read_take {off n m : Nat} {bs : Bytes} (hr : h.read p off n = .ok bs) (hm : m ≤ n) :
    h.read p off m = .ok (bs.take m) := by
  obtain ⟨h1, h2, -⟩ := read_inv hr
  unfold Heap.read at hr ⊢
  rw [if_pos ⟨h1, h2⟩] at hr
  rw [if_pos ⟨h1, by omega⟩]
  cases hr
  rw [List.take_take, Nat.min_eq_left hm]

theorem poke_write {off : Nat} {bs : Bytes} (hw : v.heap.write p off bs = .ok h') :
    poke p off bs v = (.ok (), { v with heap := h' }) := by
  simp [poke, onHeap, X.update, hw]

theorem peek_read {off n : Nat} {bs : Bytes} (hr : v.heap.read p off n = .ok bs) : peekBytes p off n v = (.ok bs, v) := by
  simp [peekBytes, X.view, hr]

/-! ## Fields -/

/-- The chain of comparisons is a search by name. -/
theorem fieldKind_find {w : World} {full : Name} {l : List (Nat × Nat × (Nat → Value))} {names : List Name}
    (hl : l.map (fun x => w.types[x.1]?.map (·.fullName)) = names.map some) :
    fieldKind w full l = match (names.zip l).find? (full = ·.1) with
      | some x => .ok x.2.2
      | none => .panic := by
  induction l generalizing names with
  | nil => simp [fieldKind]
  | cons x l ih =>
    cases names with
    | nil => simp at hl
    | cons n names =>
      simp only [List.map_cons, List.cons.injEq, Option.map_eq_some_iff] at hl
      obtain ⟨⟨r, h1, h2⟩, h3⟩ := hl
      obtain ⟨t, k⟩ := x
      have h1 : w.types[t]? = some r := h1
      rw [fieldKind, World.typeAt, h1, List.zip_cons_cons, List.find?_cons]
      show (if full = r.fullName then Res.ok k else _) = _
      by_cases hn : full = n
      · rw [if_pos (hn.trans h2.symm)]; simp [hn]
      · rw [if_neg (fun h => hn (h.trans h2)), ih h3]; simp [hn]

theorem PrimitivesOk.kinds {w : World} (hp : PrimitivesOk w) : ∃ ps, w.primitives = some ps ∧
    ∀ full, fieldKind w full (fieldKinds ps) =
      match ((numericWidths.map Prod.fst).zip (fieldKinds ps)).find? (full = ·.1) with
      | some x => .ok x.2.2
      | none => .panic := by
  obtain ⟨ps, h1, h2⟩ := hp
  exact ⟨ps, h1, fun full => fieldKind_find (by rw [List.map_map]; exact h2)⟩

/-- The width of a field is that of its type. -/
theorem fieldKind_width {w : World} (hp : PrimitivesOk w) {ps : Primitives} (hps : w.primitives = some ps) {full : Name}
    {n : Nat} {mk : Nat → Value} (h : fieldKind w full (fieldKinds ps) = .ok (n, mk)) : (full, n) ∈ numericWidths := by
  obtain ⟨ps', h1, h2⟩ := hp.kinds
  rw [hps] at h1; cases h1
  rw [h2] at h
  cases hf : ((numericWidths.map Prod.fst).zip (fieldKinds ps)).find? (full = ·.1) with
  | none => rw [hf] at h; cases h
  | some x =>
    rw [hf] at h
    have hm := List.mem_of_find?_eq_some hf
    have hx : full = x.1 := by simpa using List.find?_some hf
    have : (x.1, x.2.2.1) ∈ ((numericWidths.map Prod.fst).zip (fieldKinds ps)).map (fun x => (x.1, x.2.2.1)) :=
      List.mem_map_of_mem hm
    rw [show ((numericWidths.map Prod.fst).zip (fieldKinds ps)).map (fun x => (x.1, x.2.2.1)) = numericWidths from rfl] at this
    injection h with h
    rw [hx, show n = x.2.2.1 by rw [h]]
    exact this

/-- Reading back the bytes written for a value gives the value. -/
theorem fieldKind_value {w : World} (hp : PrimitivesOk w) {ps : Primitives} (hps : w.primitives = some ps) {a : Value}
    {n : Name} (ha : a.typeName = some n) :
    ∃ k mk bs, fieldKind w n (fieldKinds ps) = .ok (k, mk) ∧ valueBytes a = .ok bs ∧ bs.length = k ∧ mk (leNat bs) = a := by
  obtain ⟨ps', h1, h2⟩ := hp.kinds
  rw [hps] at h1; cases h1
  rw [h2]
  cases a <;> simp only [Value.typeName, Option.some.injEq, reduceCtorEq] at ha <;> subst ha <;>
    refine ⟨_, _, _, rfl, rfl, by simp, ?_⟩ <;> rename_i x <;>
    rw [leNat_leBytes _ _ x.isLt] <;> simp

/-- An object with fields: not an array or a string. -/
def Heap.Plain (h : Heap) (p : Ptr) : Prop := ∃ hd, h.read p 0 5 = .ok hd ∧ leNat (hd.take 1) &&& 6 = 0

/-- Code that only reads, as a function of what it reads. -/
theorem X.bind_reads {α β : Type} {x : X α} {y : Res α} {f : α → X β} {r : α → Res β} (hx : x v = (y, v))
    (hf : ∀ a, f a v = (r a, v)) : (x >>= f) v = (y >>= r, v) := by
  rw [X.bind_run, hx]
  cases y with
  | ok a => exact hf a
  | _ => rfl

theorem rawObject_reads : rawObject p v = ((do
    let hd ← v.heap.read p 0 5
    if leNat (hd.take 1) &&& 6 = 0 then pure () else .panic : Res Unit), v) := by
  have : objectFlags p v = ((do let hd ← v.heap.read p 0 5; pure (leNat (hd.take 1)) : Res Nat), v) :=
    X.bind_reads rfl fun _ => rfl
  refine (X.bind_reads this fun f => ?_).trans (b := ((_ : Res Nat) >>= fun f => if f &&& 6 = 0 then pure () else .panic, v)) ?_
  · split <;> rfl
  · cases v.heap.read p 0 5 <;> rfl

theorem getField_reads (f : FieldRec) : getField p f v = ((do
    let hd ← v.heap.read p 0 5
    if leNat (hd.take 1) &&& 6 = 0 then pure () else .panic
    let tr ← v.world.typeAt f.fieldType
    let ps ← Res.unwrap v.world.primitives
    let k ← fieldKind v.world tr.fullName (fieldKinds ps)
    let bs ← v.heap.read p (5 + f.offset) k.1
    pure (k.2 (leNat bs)) : Res Value), v) := by
  have h1 : ∀ k : Nat × (Nat → Value), (do let bs ← peekBytes p (5 + f.offset) k.1; pure (k.2 (leNat bs)) : X Value) v =
      ((do let bs ← v.heap.read p (5 + f.offset) k.1; pure (k.2 (leNat bs)) : Res Value), v) :=
    fun k => X.bind_reads rfl fun _ => rfl
  unfold getField
  refine Eq.trans (X.bind_reads (v := v) rawObject_reads fun _ => X.bind_reads (v := v) (x := X.view fun v => do
    let tr ← v.world.typeAt f.fieldType
    let ps ← Res.unwrap v.world.primitives
    fieldKind v.world tr.fullName (fieldKinds ps)) rfl h1) ?_
  congr 1
  cases v.heap.read p 0 5 with
  | ok hd =>
    simp only [Res.ok_bind]
    split
    · simp only [Res.pure_eq, Res.ok_bind]
      cases v.world.typeAt f.fieldType with
      | ok tr =>
        simp only [Res.ok_bind]
        cases Res.unwrap v.world.primitives with
        | ok ps => rfl
        | _ => rfl
      | _ => rfl
    · rfl
  | _ => rfl

theorem rawObject_ok (hp : v.heap.Plain p) : rawObject p v = (.ok (), v) := by
  obtain ⟨hd, h1, h2⟩ := hp
  rw [rawObject_reads, h1, Res.ok_bind, if_pos h2]
  rfl

theorem setField_ok {f : FieldRec} {a : Value} {bs : Bytes} (hp : v.heap.Plain p) (hb : valueBytes a = .ok bs)
    (hw : v.heap.write p (5 + f.offset) bs = .ok h') : setField p f a v = (.ok (), { v with heap := h' }) := by
  unfold setField
  rw [X.bind_ok (rawObject_ok hp), hb, X.liftM_bind_ok rfl]
  exact poke_write hw

/-- Loading a field depends on the registry, the object's header and the bytes of the field only. -/
theorem getField_congr {f : FieldRec} {tr : TypeRec} (hp : PrimitivesOk v.world) (hw : v'.world = v.world)
    (ht : v.world.types[f.fieldType]? = some tr) (h0 : v'.heap.read p 0 5 = v.heap.read p 0 5)
    (hn : ∀ n, (tr.fullName, n) ∈ numericWidths → v'.heap.read p (5 + f.offset) n = v.heap.read p (5 + f.offset) n) :
    (getField p f v').1 = (getField p f v).1 := by
  obtain ⟨ps, hps, -⟩ := hp.kinds
  rw [getField_reads, getField_reads, h0, hw]
  simp only [World.typeAt, ht, hps]
  cases hk : fieldKind v.world tr.fullName (fieldKinds ps) with
  | ok k => simp only [Res.unwrap, Res.ok_bind, hk, hn k.1 (fieldKind_width hp hps hk)]
  | _ => simp only [Res.unwrap, Res.ok_bind, hk]; rfl

theorem getField_ok {f : FieldRec} {tr : TypeRec} {a : Value} {bs : Bytes} (hp : v.heap.Plain p)
    (hk : PrimitivesOk v.world) (ht : v.world.types[f.fieldType]? = some tr) (ha : a.typeName = some tr.fullName)
    (hb : valueBytes a = .ok bs) (hr : v.heap.read p (5 + f.offset) bs.length = .ok bs) :
    getField p f v = (.ok a, v) := by
  obtain ⟨ps, hps, -⟩ := hk.kinds
  obtain ⟨k, mk, bs', h1, h2, h3, h4⟩ := fieldKind_value hk hps ha
  rw [hb] at h2; cases h2
  obtain ⟨hd, h5, h6⟩ := hp
  rw [getField_reads]
  simp only [World.typeAt, ht, hps, h1, h5, Res.unwrap, Res.ok_bind, if_pos h6, ← h3, hr, h4, Res.pure_eq]

/-! ## The instructions on fields -/

theorem stfld_run {t : Nat} {f : FieldRec} {a : Value} {bs : Bytes} {rest : List Value} (ht : t < 2 ^ 32)
    (hc : HasAt fr.code ip (0x7d :: leBytes 4 t)) (hf : fr.assembly.resolveField cfg ⟨t⟩ = .ok (some f))
    (ho : v.operands = a :: .object p :: rest) (hp : v.heap.Plain p) (hb : valueBytes a = .ok bs)
    (hw : v.heap.write p (5 + f.offset) bs = .ok h') :
    step cfg ops tf fr ip v = (.ok (.next (ip + 5)), { v with operands := rest, heap := h' }) := by
  rw [step_one hc (by decide) (op := .Stfld) (by decide)]
  show doStfld cfg fr (ip + 1) v = _
  unfold doStfld
  rw [X.liftM_bind_ok (hc.tail.fetch_leBytes (n := 3) ht), hf, X.liftM_bind_ok rfl]
  simp only [Res.unwrap]
  rw [X.liftM_bind_ok rfl, X.bind_ok (pop_cons ho), X.bind_ok (pop_cons rfl)]
  dsimp only
  rw [X.bind_ok (setField_ok (v := { v with operands := rest }) hp hb hw)]
  rfl

theorem ldfld_run {t : Nat} {f : FieldRec} {rest : List Value} (ht : t < 2 ^ 32)
    (hc : HasAt fr.code ip (0x7b :: leBytes 4 t)) (hf : fr.assembly.resolveField cfg ⟨t⟩ = .ok (some f))
    (ho : v.operands = .object p :: rest) :
    step cfg ops tf fr ip v = (do
      let a ← getField p f
      push a
      pure (.next (ip + 5)) : X Action) { v with operands := rest } := by
  rw [step_one hc (by decide) (op := .Ldfld) (by decide)]
  show doLdfld cfg fr (ip + 1) v = _
  unfold doLdfld
  rw [X.liftM_bind_ok (hc.tail.fetch_leBytes (n := 3) ht), hf, X.liftM_bind_ok rfl]
  simp only [Res.unwrap]
  rw [X.liftM_bind_ok rfl, X.bind_ok (pop_cons ho)]

/-! ## Arrays of integers -/

/-- `p` refers to an array of `n` 32-bit integers. -/
def IntArray (v : VM) (p : Ptr) (n : Nat) : Prop :=
  ∃ ps tr hd, v.world.primitives = some ps ∧ v.world.types[ps.int]? = some tr ∧ v.heap.read p 0 17 = .ok hd ∧
    leNat (hd.take 1) &&& 2 ≠ 0 ∧ leNat ((hd.drop 5).take 4) = tr.id ∧ leNat (hd.drop 9) = n ∧
    p.off + 17 + 4 * n ≤ v.heap.mem.length

theorem intSlice_ok {n : Nat} (h : IntArray v p n) : intSlice p v = (.ok n, v) := by
  obtain ⟨ps, tr, hd, h1, h2, h3, h4, h5, h6, h7⟩ := h
  obtain ⟨bs, hbs⟩ := read_fits (h := v.heap) (p := p) (off := 17) (n := 4 * n) (read_inv h3).1 h7
  unfold intSlice
  rw [X.view_bind_ok (a := ps) (by simp [h1]), X.bind_ok (typeId_eq_ok.2 ⟨⟨tr, h2, rfl⟩, rfl⟩), X.bind_ok (peek_read h3)]
  simp only [h5, h6, if_true]
  rw [X.bind_ok (peek_read hbs)]
  rfl

theorem popArray_ok {n : Nat} {rest : List Value} (h : IntArray v p n) (ho : v.operands = .object p :: rest) :
    popArray v = (.ok p, { v with operands := rest }) := by
  obtain ⟨ps, tr, hd, h1, h2, h3, h4, h5, h6, h7⟩ := h
  have hr := read_take h3 (m := 5) (by omega)
  unfold popArray
  rw [X.bind_ok (pop_cons ho)]
  dsimp only
  unfold objectFlags
  rw [X.bind_run, X.bind_ok (peek_read (v := { v with operands := rest }) hr)]
  simp only [X.pure_run, List.take_take]
  rw [show min 1 5 = 1 from rfl, if_pos h4]
  rfl

theorem popInt_ok {x : BitVec 32} {rest : List Value} (ho : v.operands = .i32 x :: rest) :
    popInt v = (.ok x, { v with operands := rest }) := by
  unfold popInt
  rw [X.bind_ok (pop_cons ho)]
  rfl

theorem stelem_run {n : Nat} {x i : BitVec 32} {rest : List Value} (hc : HasAt fr.code ip [0x9e])
    (ho : v.operands = .i32 x :: .i32 i :: .object p :: rest) (h : IntArray v p n) :
    step cfg ops tf fr ip v = ((if asIndex i < n then poke p (17 + 4 * asIndex i) (leBytes 4 x.toNat)
      else liftM (Res.panic : Res Unit) : X Unit) >>= fun _ => pure (.next (ip + 1))) { v with operands := rest } := by
  rw [step_one hc (by decide) (op := .Stelem_I4) (by decide)]
  show doStelem (ip + 1) v = _
  unfold doStelem
  rw [X.bind_ok (popInt_ok ho), X.bind_ok (popInt_ok rfl),
    X.bind_ok (popArray_ok (v := { v with operands := .object p :: rest }) (n := n) h rfl)]
  unfold setInt
  rw [X.bind_run, X.bind_ok (intSlice_ok (v := { v with operands := rest }) h)]
  rfl

theorem ldelem_run {n : Nat} {i : BitVec 32} {rest : List Value} (hc : HasAt fr.code ip [0x94])
    (ho : v.operands = .i32 i :: .object p :: rest) (h : IntArray v p n) :
    step cfg ops tf fr ip v = ((if asIndex i < n then peekBytes p (17 + 4 * asIndex i) 4
      else liftM (Res.panic : Res Bytes) : X Bytes) >>= fun bs =>
        push (.i32 (BitVec.ofNat 32 (leNat bs))) >>= fun _ => pure (.next (ip + 1))) { v with operands := rest } := by
  rw [step_one hc (by decide) (op := .Ldelem_I4) (by decide)]
  show doLdelem (ip + 1) v = _
  unfold doLdelem
  rw [X.bind_ok (popInt_ok ho),
    X.bind_ok (popArray_ok (v := { v with operands := .object p :: rest }) (n := n) h rfl)]
  unfold getInt
  rw [X.bind_run, X.bind_ok (intSlice_ok (v := { v with operands := rest }) h)]
  by_cases hi : asIndex i < n
  · simp only [hi, if_true]
    rw [X.bind_run, X.bind_run]
    simp only [peekBytes, X.view]
    cases v.heap.read p (17 + 4 * asIndex i) 4 <;> rfl
  · simp only [hi, if_false]
    rfl

/-- A 32-bit index used as an unsigned 64-bit one. -/
theorem asIndex_lt {i : BitVec 32} {n : Nat} (hn : n < 2 ^ 63) :
    asIndex i < n ↔ 0 ≤ i.toInt ∧ i.toInt < n := by
  unfold asIndex
  have h1 := BitVec.toInt_signExtend_of_le (x := i) (show 32 ≤ 64 by decide)
  have h2 := BitVec.toInt_eq_toNat_cond (i.signExtend 64)
  have h3 := (i.signExtend 64).isLt
  have h4 := BitVec.two_mul_toInt_lt (x := i)
  have h5 := BitVec.le_two_mul_toInt (x := i)
  split at h2 <;> omega

theorem asIndex_eq {i : BitVec 32} (h : 0 ≤ i.toInt) : (asIndex i : Int) = i.toInt := by
  unfold asIndex
  have h1 := BitVec.toInt_signExtend_of_le (x := i) (show 32 ≤ 64 by decide)
  have h2 := BitVec.toInt_eq_toNat_cond (i.signExtend 64)
  have h3 := (i.signExtend 64).isLt
  split at h2 <;> omega

end Clr
