import Verif.Lemmas.Blocks
/-! # Allocation and access in a heap of well-formed objects (for C73) -/

namespace Clr

variable {cfg : Cfg} {tf : Nat} {w : World} {v v' : VM} {bs : List Block} {T : Prop}

theorem bump_out (hh : HeapOk cfg tf w v.heap bs) {size : Nat} (hs : size < 2 ^ 40) :
    Ending T (fun p v' => v.heap.mem.length + size ≤ 1024 ∧ p = ⟨v.heap.gen, v.heap.mem.length⟩ ∧
      v' = { v with heap := { v.heap with mem := v.heap.mem ++ List.replicate size 0 } })
      (onHeap (·.bump cfg size) v) := by
  obtain ⟨p, h', h1, h2⟩ := bump_calm hh hs
  unfold onHeap X.update
  dsimp only
  rw [h1]
  dsimp only [Res.ok_bind, Res.pure_eq]
  rcases h2 with h2 | ⟨h2, rfl, rfl⟩
  · exact .inl (.inl h2)
  · exact .ok ⟨h2, by rw [hh.gen], rfl⟩

theorem HeapOk.append (hh : HeapOk cfg tf w v.heap bs) {b : Block} {m : Bytes} (hb : b.bytes = m)
    (hl : v.heap.mem.length + m.length ≤ 1024) (hok : b.Ok cfg tf w) :
    HeapOk cfg tf w { v.heap with mem := v.heap.mem ++ m } (bs ++ [b]) := by
  refine ⟨hh.gen, hh.cap, by simpa using hl, ?_, ?_⟩
  · simp [hh.mem, hb]
  · intro c hc
    rcases List.mem_append.1 hc with h | h
    · exact hh.ok c h
    · rw [List.mem_singleton.1 h]; exact hok

theorem typeSize_type {t s : Nat} (h : typeSize cfg w tf t = .ok s) : ∃ tr, w.types[t]? = some tr := by
  cases tf with
  | zero => cases h
  | succ tf =>
    unfold typeSize at h
    obtain ⟨tr, h1, -⟩ := Res.bind_eq_ok.1 h
    unfold World.typeAt at h1
    cases hx : w.types[t]? with
    | none => rw [hx] at h1; cases h1
    | some x => exact ⟨x, rfl⟩

/-- A new object at the end of the heap. -/
def New (cfg : Cfg) (tf : Nat) (w : World) (v : VM) (bs : List Block) (τ : Ty) (p : Ptr) (v' : VM) : Prop :=
  ∃ b, HeapOk cfg tf w v'.heap (bs ++ [b]) ∧ HasTy w (bs ++ [b]) (.object p) τ ∧
    v' = { v with heap := v'.heap, world := v'.world } ∧ Evolves v.world v'.world

theorem New.of (hh : HeapOk cfg tf w v.heap bs) {b : Block} {m : Bytes} {w' : World} {τ : Ty} (hb : b.bytes = m)
    (hl : v.heap.mem.length + m.length ≤ 1024) (hok : b.Ok cfg tf w) (hτ : b.Is w τ) (hw : Evolves v.world w') :
    New cfg tf w v bs τ ⟨v.heap.gen, v.heap.mem.length⟩
      { v with heap := { v.heap with mem := v.heap.mem ++ m }, world := w' } := by
  refine ⟨b, hh.append hb hl hok, ⟨hh.gen, b, ?_, hτ⟩, rfl, hw⟩
  have := At.last bs b
  rw [← hh.mem] at this
  exact this

theorem typeId_run {t : Nat} {tr : TypeRec} (h : v.world.types[t]? = some tr) : typeId t v = (.ok tr.id, v) :=
  typeId_eq_ok.2 ⟨⟨tr, h, rfl⟩, rfl⟩

theorem allocObject_out (hh : HeapOk cfg tf w v.heap bs) (he : Evolves w v.world) {t s : Nat}
    (hs : typeSize cfg w tf t = .ok s) (hlt : s < 2 ^ 32) :
    Ending T (New cfg tf w v bs (.obj t)) (allocObject cfg tf t v) := by
  obtain ⟨tr, htr⟩ := typeSize_type hs
  have hs' := typeSize_evolves he hs
  unfold allocObject
  rw [X.view_bind_ok hs', uadd_ok (by omega), X.liftM_bind_ok rfl]
  refine Ending.bind (bump_out hh (by omega)) (fun p => .bind (.typeId _) fun _ => .bind (.poke ..) fun _ => .pure _) ?_
  rintro p v1 - ⟨h1, rfl, rfl⟩
  rw [X.bind_ok (typeId_run (tr := tr) (by exact he.typeAt htr))]
  rw [X.bind_ok (poke_mid (pre := v.heap.mem) (a := [0]) (m := List.replicate 4 0) (b := List.replicate s 0) (by rfl)
    (by dsimp only; rw [show 5 + s = 1 + (4 + s) by omega, zeros_split, zeros_split]; rfl) (by rfl) (by simp))]
  refine .ok (New.of hh (b := .obj t tr.id (List.replicate s 0)) ?_ ?_ ?_ (.obj .refl) (.refl _))
  · rfl
  · simp; omega
  · simpa [Block.Ok] using hs

theorem length_textBytes (us : List Nat) : (textBytes us).length = 2 * us.length := by
  induction us with
  | nil => rfl
  | cons u us ih => simp [textBytes] at ih ⊢; omega

theorem unitBytes_eq (us : List Nat) : unitBytes us = textBytes us := by
  induction us with
  | nil => rfl
  | cons u us ih => simp [unitBytes, textBytes, ih]

theorem orFlags_ok {p : Ptr} {pre b : Bytes} {x : UInt8} {mask : Nat} (hp : p = ⟨v.heap.gen, pre.length⟩)
    (hm : v.heap.mem = pre ++ x :: b) : orFlags p mask v =
      (.ok (), { v with heap := { v.heap with mem := pre ++ UInt8.ofNat (x.toNat ||| mask) :: b } }) := by
  have h1 : (orFlags p mask v).1 = .ok () := by
    unfold orFlags
    rw [X.bind_ok (peek_ok hp hm (by simp)), poke_ok hp hm (by simp)]
  have h2 := orFlags_to (v' := (orFlags p mask v).2) (r := (orFlags p mask v).1) (mask := mask) rfl hp hm
  exact Prod.ext h1 h2

theorem allocString_out (hh : HeapOk cfg tf w v.heap bs) (he : Evolves w v.world) {t : Nat} {tr : TypeRec}
    {us : List Nat} {s : List Char} (ht : w.getType "System.String".toList = some t) (htr : w.types[t]? = some tr)
    (hl : us.length < 2 ^ 32) (hu : ∀ u ∈ us, u < 0x10000) (hs : fromUtf16 us = some s) :
    Ending T (New cfg tf w v bs .str) (allocString cfg us v) := by
  unfold allocString
  rw [umul_ok (by omega), X.liftM_bind_ok rfl, uadd_ok (by omega), X.liftM_bind_ok rfl]
  refine Ending.bind (bump_out hh (by omega)) (fun p => .bind (.orFlags ..) fun _ => .bind (.view _) fun _ =>
    .bind (.typeId _) fun _ => .bind (.poke ..) fun _ => .bind (.poke ..) fun _ => .bind (.poke ..) fun _ => .pure _) ?_
  rintro p v1 - ⟨h1, rfl, rfl⟩
  rw [X.bind_ok (orFlags_ok (pre := v.heap.mem) (x := 0)
    (b := List.replicate 4 0 ++ (List.replicate 8 0 ++ List.replicate (2 * us.length) 0)) (by rfl) (by
      dsimp only
      rw [show 13 + 2 * us.length = 1 + (4 + (8 + 2 * us.length)) by omega, zeros_split, zeros_split, zeros_split]; rfl))]
  rw [X.view_bind_ok (a := t) (by dsimp only; rw [he.kept _ _ ht]; rfl)]
  rw [X.bind_ok (typeId_run (tr := tr) (by exact he.typeAt htr))]
  rw [X.bind_ok (poke_mid (pre := v.heap.mem) (a := [4]) (m := List.replicate 4 0)
    (b := List.replicate 8 0 ++ List.replicate (2 * us.length) 0) (by rfl) (by rfl) (by rfl) (by simp))]
  rw [X.bind_ok (poke_mid (pre := v.heap.mem) (a := 4 :: leBytes 4 tr.id) (m := List.replicate 8 0)
    (b := List.replicate (2 * us.length) 0) (by rfl) (by simp) (by simp) (by simp))]
  rw [X.bind_ok (poke_mid (pre := v.heap.mem) (a := 4 :: leBytes 4 tr.id ++ leBytes 8 us.length)
    (m := List.replicate (2 * us.length) 0) (b := []) (by rfl) (by simp) (by simp) (by simp [unitBytes_eq, length_textBytes]))]
  refine .ok (New.of hh (b := .str tr.id us) ?_ ?_ ?_ .str (.refl _))
  · simp [Block.bytes, stringImage, unitBytes_eq]
  · simp [unitBytes_eq, length_textBytes]; omega
  · exact ⟨by omega, hu, s, hs⟩

theorem arrayType_out {e : Nat} {er : TypeRec} (h : v.world.types[e]? = some er) :
    Ending True (fun _ v' => v' = { v with world := v'.world } ∧ Evolves v.world v'.world)
      (X.registry (arrayType cfg e) v) := by
  have hev := ((Keeps.arrayType (L := 0) (H := False) (P := False) cfg e).run v (Nat.zero_le _)).world
  have hp : ∀ r, (arrayType cfg e v.world).1 = r → (∃ t, r = .ok t) ∨ r = .panic := by
    rintro r rfl
    unfold arrayType
    rw [M.bind_run, M.view_run]
    simp only [World.typeAt, h, Res.unwrap]
    rw [M.get_bind]
    cases v.world.getType (er.fullName ++ "[]".toList) with
    | some t => exact .inl ⟨t, rfl⟩
    | none =>
      dsimp only
      unfold nextTypeId
      simp only [M.bind_run, M.view_run, M.liftM_run]
      have : (∃ x, uadd cfg 32 v.world.nextTypeId 1 = .ok x) ∨ uadd cfg 32 v.world.nextTypeId 1 = .panic := by
        unfold uadd
        split
        · exact .inl ⟨_, rfl⟩
        · split
          · exact .inr rfl
          · exact .inl ⟨_, rfl⟩
      rcases this with ⟨x, hx⟩ | hx
      · rw [hx]; exact .inl ⟨_, rfl⟩
      · rw [hx]; exact .inr rfl
  rcases hp _ rfl with ⟨t, ht⟩ | ht
  · have : X.registry (arrayType cfg e) v = (.ok t, (X.registry (arrayType cfg e) v).2) := Prod.ext ht rfl
    rw [this]; exact .ok ⟨rfl, hev⟩
  · have : X.registry (arrayType cfg e) v = (.panic, (X.registry (arrayType cfg e) v).2) := Prod.ext ht rfl
    rw [this]; exact .inr trivial

theorem typeId_out {t : Nat} : Ending True (fun _ v' => v' = v) (typeId t v) := by
  unfold typeId
  rw [X.view_run]
  simp only [World.typeAt]
  cases v.world.types[t]? with
  | some r => exact .ok rfl
  | none => exact .inr trivial

/-- Arrays of integers; a panic is possible. -/
theorem allocArray_out (hT : T) (hh : HeapOk cfg tf w v.heap bs) (he : Evolves w v.world) {ps : Primitives} {tr : TypeRec} {n : Nat}
    (hps : w.primitives = some ps) (htr : w.types[ps.int]? = some tr) (hid : tr.id < 2 ^ 32)
    (hs : typeSize cfg w tf ps.int = .ok 4) (hn : n < 2 ^ 31) :
    Ending T (New cfg tf w v bs .ints) (allocArray cfg tf ps.int n v) := by
  have h : Ending True (New cfg tf w v bs .ints) (allocArray cfg tf ps.int n v) := by
    unfold allocArray
    rw [X.view_bind_ok (typeSize_evolves he hs), umul_ok (by omega), X.liftM_bind_ok rfl, uadd_ok (by omega),
      X.liftM_bind_ok rfl]
    refine Ending.bind (bump_out hh (by omega)) (fun p => .bind (.orFlags ..) fun _ => .bind (.registry _) fun _ =>
      .bind (.typeId _) fun _ => .bind (.poke ..) fun _ => .bind (.typeId _) fun _ => .bind (.poke ..) fun _ =>
      .bind (.poke ..) fun _ => .pure _) ?_
    rintro p v1 - ⟨h1, rfl, rfl⟩
    rw [X.bind_ok (orFlags_ok (pre := v.heap.mem) (x := 0)
      (b := List.replicate 4 0 ++ (List.replicate 4 0 ++ (List.replicate 8 0 ++ List.replicate (4 * n) 0))) (by rfl) (by
        dsimp only
        rw [show 17 + 4 * n = 1 + (4 + (4 + (8 + 4 * n))) by omega, zeros_split, zeros_split, zeros_split, zeros_split]
        rfl))]
    refine Ending.bind (arrayType_out (he.typeAt htr)) (fun _ =>
      .bind (.typeId _) fun _ => .bind (.poke ..) fun _ => .bind (.typeId _) fun _ => .bind (.poke ..) fun _ =>
      .bind (.poke ..) fun _ => .pure _) ?_
    rintro t v2 - ⟨e2, hev⟩
    rw [e2]
    generalize v2.world = w2 at hev
    have hev : Evolves v.world w2 := hev
    clear e2
    refine Ending.bind typeId_out (fun _ => .bind (.poke ..) fun _ => .bind (.typeId _) fun _ => .bind (.poke ..) fun _ =>
      .bind (.poke ..) fun _ => .pure _) ?_
    rintro id v3 - rfl
    rw [X.bind_ok (poke_mid (pre := v.heap.mem) (a := [2]) (m := List.replicate 4 0)
      (b := List.replicate 4 0 ++ (List.replicate 8 0 ++ List.replicate (4 * n) 0)) (by rfl) (by rfl) (by rfl) (by simp))]
    rw [X.bind_ok (typeId_run (tr := tr) (by exact (he.trans hev).typeAt htr))]
    rw [X.bind_ok (poke_mid (pre := v.heap.mem) (a := 2 :: leBytes 4 id) (m := List.replicate 4 0)
      (b := List.replicate 8 0 ++ List.replicate (4 * n) 0) (by rfl) (by simp) (by simp) (by simp))]
    rw [X.bind_ok (poke_mid (pre := v.heap.mem) (a := 2 :: leBytes 4 id ++ leBytes 4 tr.id) (m := List.replicate 8 0)
      (b := List.replicate (4 * n) 0) (by rfl) (by simp) (by simp) (by simp))]
    refine .ok (New.of hh (b := .ints id tr.id n (List.replicate (4 * n) 0)) ?_ ?_ ?_ .ints hev)
    · simp [Block.bytes]
    · simp; omega
    · exact ⟨by simp, by omega, ps, tr, hps, htr, rfl, hid⟩
  rcases h with h | h
  · exact .inl h
  · refine .inr ?_
    cases hr : (allocArray cfg tf ps.int n v).1 <;> rw [hr] at h
    · exact h
    · exact h
    · exact hT
    · exact h
    · exact h

/-! ## Access -/

theorem HasTy.block {a : Value} {τ : Ty} (h : HasTy w bs a τ) (hτ : τ.isNum = false) :
    ∃ p b, a = .object p ∧ p.gen = 0 ∧ At bs p.off b ∧ b.Is w τ := by
  cases a <;> cases τ <;> simp only [HasTy, Ty.isNum, reduceCtorEq] at h hτ
  all_goals
    obtain ⟨h1, b, h2, h3⟩ := h
    exact ⟨_, b, rfl, h1, h2, h3⟩

theorem HasTy.i4 {a : Value} (h : HasTy w bs a .i4) : ∃ x, a = .i32 x := by
  cases a <;> simp only [HasTy] at h
  · exact ⟨_, rfl⟩
  · obtain ⟨-, b, -, h⟩ := h; cases h

theorem HasTy.i8 {a : Value} (h : HasTy w bs a .i8) : ∃ x, a = .i64 x := by
  cases a <;> simp only [HasTy] at h
  · exact ⟨_, rfl⟩
  · obtain ⟨-, b, -, h⟩ := h; cases h

theorem HasTy.r4 {a : Value} (h : HasTy w bs a .r4) : ∃ x, a = .f32 x := by
  cases a <;> simp only [HasTy] at h
  · exact ⟨_, rfl⟩
  · obtain ⟨-, b, -, h⟩ := h; cases h

theorem HasTy.r8 {a : Value} (h : HasTy w bs a .r8) : ∃ x, a = .f64 x := by
  cases a <;> simp only [HasTy] at h
  · exact ⟨_, rfl⟩
  · obtain ⟨-, b, -, h⟩ := h; cases h

theorem take_image {a b c : Bytes} {n : Nat} (h : a.length = n) : ((a ++ b) ++ c).take n = a := by
  rw [List.append_assoc, List.take_left' h]

/-- Arrays of integers are arrays of integers. -/
theorem HeapOk.intArray (hh : HeapOk cfg tf w v.heap bs) (he : Evolves w v.world) {p : Ptr} {id elem n : Nat} {data : Bytes}
    (hg : p.gen = 0) (ha : At bs p.off (.ints id elem n data)) : IntArray v p n := by
  obtain ⟨h1, h2, ps, tr, h3, h4, rfl, h5⟩ := hh.ok _ ha.mem
  obtain ⟨pre, post, h6, h7, -⟩ := ha.around (w := w)
  rw [← hh.mem] at h6
  have hp : p = ⟨v.heap.gen, pre.length⟩ := by
    cases p; simp only at hg h7; rw [hh.gen, hg, h7]
  refine ⟨ps, tr, _, by rw [he.primitives]; exact h3, he.typeAt h4, read_ok hp h6 ?_, ?_, ?_, ?_, ?_⟩
  · simp [Block.bytes]; omega
  all_goals try simp only [Block.bytes, List.drop_zero]
  · simp [leNat]
  · rw [show (2 :: leBytes 4 id ++ leBytes 4 tr.id ++ leBytes 8 n ++ data ++ post) =
      (2 :: leBytes 4 id) ++ (leBytes 4 tr.id ++ (leBytes 8 n ++ data ++ post)) by simp, List.drop_take,
      List.drop_left' (by simp), List.take_take, List.take_left' (by simp), leNat_leBytes _ _ (by simpa using h5)]
  · rw [show (2 :: leBytes 4 id ++ leBytes 4 tr.id ++ leBytes 8 n ++ data ++ post) =
      (2 :: leBytes 4 id ++ leBytes 4 tr.id) ++ (leBytes 8 n ++ (data ++ post)) by simp, List.drop_take,
      List.drop_left' (by simp), List.take_left' (by simp), leNat_leBytes _ _ (by simp; omega)]
  · rw [h6, ← h7]; simp [Block.bytes]; omega

theorem splice_in {a m b bs' : Bytes} {off : Nat} (h : a.length ≤ off) (h' : off + bs'.length ≤ a.length + m.length) :
    splice (a ++ m ++ b) off bs' = a ++ splice m (off - a.length) bs' ++ b := by
  obtain ⟨k, rfl⟩ : ∃ k, off = a.length + k := ⟨off - a.length, by omega⟩
  rw [Nat.add_sub_cancel_left]
  unfold splice
  rw [List.append_assoc a, List.take_length_add_append, Nat.add_assoc, List.drop_length_add_append,
    List.take_append_of_le_length (by omega), List.drop_append_of_le_length (by omega)]
  simp

/-- Writing into the elements of an array or the fields of an object. -/
theorem HeapOk.write (hh : HeapOk cfg tf w v.heap bs) {p : Ptr} {b b' : Block} {hd data : Bytes} {off : Nat} {m : Bytes}
    (hg : p.gen = 0) (ha : At bs p.off b) (hb : b.bytes = hd ++ data) (hb' : b'.bytes = hd ++ splice data off m)
    (hl : off + m.length ≤ data.length) (hlike : b.Like w b') (hok : b'.Ok cfg tf w) :
    ∃ h' bs', v.heap.write p (hd.length + off) m = .ok h' ∧ HeapOk cfg tf w h' bs' ∧ Ext w bs bs' := by
  obtain ⟨pre, post, h1, h2, h3⟩ := ha.around (w := w)
  obtain ⟨bs', h4, h5, -, h6⟩ := h3 b' hlike
  have hp : p = ⟨v.heap.gen, pre.length⟩ := by
    cases p; simp only at hg h2; rw [hh.gen, hg, h2]
  rw [← hh.mem] at h1
  refine ⟨_, bs', write_ok hp h1 (by rw [hb]; simp; omega), ⟨hh.gen, hh.cap, ?_, ?_, h6 _ hh.ok hok⟩, h5⟩
  · have := hh.fits
    rw [h1] at this
    simp only [List.length_append] at this ⊢
    rw [length_splice (by rw [hb]; simp; omega)]
    simpa using this
  · dsimp only
    rw [h4, hb, hb', splice_in (by omega) (by omega), Nat.add_sub_cancel_left]

theorem Block.ints_like {id elem n : Nat} {data data' : Bytes} (h : data'.length = data.length) :
    (Block.ints id elem n data).Like w (.ints id elem n data') := by
  refine ⟨by simp [Block.size, Block.bytes, h], ?_⟩
  rintro τ ⟨⟩
  exact .ints

theorem Block.obj_like {t id : Nat} {data data' : Bytes} (h : data'.length = data.length) :
    (Block.obj t id data).Like w (.obj t id data') := by
  refine ⟨by simp [Block.size, Block.bytes, h], ?_⟩
  intro τ hτ
  cases hτ with
  | obj h => exact .obj h

theorem HeapOk.setInt (hh : HeapOk cfg tf w v.heap bs) {p : Ptr} {id elem n : Nat} {data : Bytes} {i : Nat} {m : Bytes}
    (hg : p.gen = 0) (ha : At bs p.off (.ints id elem n data)) (hi : i < n) (hm : m.length = 4) :
    ∃ h' bs', v.heap.write p (17 + 4 * i) m = .ok h' ∧ HeapOk cfg tf w h' bs' ∧ Ext w bs bs' := by
  obtain ⟨h1, h2, h3⟩ := hh.ok _ ha.mem
  have hl : 4 * i + m.length ≤ data.length := by omega
  have := hh.write (b' := .ints id elem n (splice data (4 * i) m)) (hd := 2 :: leBytes 4 id ++ leBytes 4 elem ++ leBytes 8 n)
    (data := data) (off := 4 * i) (m := m) hg ha rfl rfl hl (Block.ints_like (length_splice hl))
    ⟨by rw [length_splice hl]; exact h1, h2, h3⟩
  simpa using this

theorem HeapOk.plain (hh : HeapOk cfg tf w v.heap bs) {p : Ptr} {t id : Nat} {data : Bytes}
    (hg : p.gen = 0) (ha : At bs p.off (.obj t id data)) : v.heap.Plain p ∧ p.gen = v.heap.gen ∧
      p.off + (5 + data.length) ≤ v.heap.mem.length := by
  obtain ⟨pre, post, h6, h7, -⟩ := ha.around (w := w)
  rw [← hh.mem] at h6
  have hp : p = ⟨v.heap.gen, pre.length⟩ := by
    cases p; simp only at hg h7; rw [hh.gen, hg, h7]
  refine ⟨⟨_, read_ok hp h6 (by simp [Block.bytes]), ?_⟩, by rw [hp], ?_⟩
  · simp [Block.bytes, leNat]
  · rw [h6, ← h7]; simp [Block.bytes]; omega

theorem HeapOk.setObj (hh : HeapOk cfg tf w v.heap bs) {p : Ptr} {t id : Nat} {data : Bytes} {off : Nat} {m : Bytes}
    (hg : p.gen = 0) (ha : At bs p.off (.obj t id data)) (hl : off + m.length ≤ data.length) :
    ∃ h' bs', v.heap.write p (5 + off) m = .ok h' ∧ HeapOk cfg tf w h' bs' ∧ Ext w bs bs' := by
  have h1 := hh.ok _ ha.mem
  have := hh.write (b' := .obj t id (splice data off m)) (hd := 0 :: leBytes 4 id)
    (data := data) (off := off) (m := m) hg ha rfl rfl hl (Block.obj_like (length_splice hl))
    (by show typeSize _ _ _ _ = _; rw [length_splice hl]; exact h1)
  simpa using this

/-- Printing a string. -/
theorem HeapOk.text (hh : HeapOk cfg tf w v.heap bs) {p : Ptr} {id : Nat} {us : List Nat}
    (hg : p.gen = 0) (ha : At bs p.off (.str id us)) : ∃ s, fromUtf16 us = some s ∧ stringData p v = (.ok us, v) ∧
      ∃ f, objectFlags p v = (.ok f, v) ∧ f &&& 4 ≠ 0 := by
  obtain ⟨h1, h2, s, h3⟩ := hh.ok _ ha.mem
  obtain ⟨pre, post, h6, h7, -⟩ := ha.around (w := w)
  rw [← hh.mem] at h6
  have hp : p = ⟨v.heap.gen, pre.length⟩ := by
    cases p; simp only at hg h7; rw [hh.gen, hg, h7]
  have hlen := length_textBytes us
  refine ⟨s, h3, ?_, 4, ?_, by decide⟩
  · have hd : ((Block.str id us).bytes ++ post).take 13 = 4 :: leBytes 4 id ++ leBytes 8 us.length := by
      simp only [Block.bytes, stringImage, List.append_assoc]
      rw [← List.append_assoc, List.take_left' (by simp)]
    have h0 : (stringData p v).1 = .ok ((chunks 2 us.length (textBytes us)).map leNat) := by
      unfold stringData
      rw [X.bind_ok (peek_ok hp h6 (by simp [Block.bytes, stringImage]; omega))]
      rw [List.drop_zero, hd, List.drop_left' (by simp), leNat_leBytes _ _ (by simpa using h1)]
      rw [X.bind_ok (peek_ok hp h6 (by simp [Block.bytes, stringImage]; omega))]
      simp only [X.pure_run]
      congr 3
      simp only [Block.bytes, stringImage, List.append_assoc]
      rw [← List.append_assoc, List.drop_left' (by simp), List.take_left' hlen]
    have hs : stringData p v = (.ok ((chunks 2 us.length (textBytes us)).map leNat), (stringData p v).2) := by
      rw [← h0]
    obtain ⟨e1, e2, -⟩ := stringData_ok hs
    rw [hs, e2, e1, stringAt_of_has (id := id) ⟨by rw [hp], ?_⟩ h2 h1]
    rw [h6, ← h7, List.drop_left]
    exact List.prefix_append _ _
  · unfold objectFlags
    rw [X.bind_ok (peek_ok hp h6 (by simp [Block.bytes, stringImage]))]
    simp [Block.bytes, stringImage, leNat]

end Clr
