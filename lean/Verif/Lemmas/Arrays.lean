import Verif.Spec.Arrays
import Verif.Lemmas.Access
import Verif.Lemmas.Output
/-! # Arrays and objects as the host sees them -/

namespace Clr

deriving instance DecidableEq for Except

variable {cfg : Cfg} {tf : Nat} {v v' : VM} {h h' : Heap} {p q : Ptr} {w : World}

theorem Heap.Has.split {b : Bytes} (hb : h.Has p b) (hne : b ≠ []) :
    ∃ pre post, h.mem = pre ++ (b ++ post) ∧ p = ⟨h.gen, pre.length⟩ := by
  obtain ⟨h1, t, ht⟩ := hb
  have hl : p.off < h.mem.length := by
    have := congrArg List.length ht
    have := List.length_pos_iff.2 hne
    simp at *; omega
  refine ⟨h.mem.take p.off, t, ?_, ?_⟩
  · rw [ht, List.take_append_drop]
  · cases p; simp only at h1 hl ⊢; rw [h1]; simp; omega

theorem Heap.Has.peek {b : Bytes} (hb : v.heap.Has p b) (hne : b ≠ []) {off n : Nat} (hn : off + n ≤ b.length) :
    peekBytes p off n v = (.ok ((b.drop off).take n), v) := by
  obtain ⟨pre, post, h1, h2⟩ := hb.split hne
  rw [peek_ok h2 h1 (by simp; omega), List.drop_append_of_le_length (by omega),
    List.take_append_of_le_length (by simp; omega)]

theorem length_elements (s : Nat) (xs : List Nat) : (xs.flatMap (leBytes s)).length = s * xs.length := by
  induction xs with
  | nil => simp
  | cons x xs ih => simp [ih, Nat.mul_add]; omega

theorem arrayBytes_split (id e s : Nat) (xs : List Nat) : arrayBytes id e s xs =
    (2 :: leBytes 4 id ++ leBytes 4 e ++ leBytes 8 xs.length) ++ xs.flatMap (leBytes s) := by
  simp [arrayBytes]

theorem length_arrayBytes (id e s : Nat) (xs : List Nat) : (arrayBytes id e s xs).length = 17 + s * xs.length := by
  rw [arrayBytes_split, List.length_append, length_elements]; simp

theorem arrayBytes_ne (id e s : Nat) (xs : List Nat) : arrayBytes id e s xs ≠ [] := by simp [arrayBytes]

/-- The header of an array. -/
theorem arrayBytes_head (id e s : Nat) (xs : List Nat) :
    ((arrayBytes id e s xs).drop 0).take 17 = 2 :: leBytes 4 id ++ leBytes 4 e ++ leBytes 8 xs.length := by
  rw [arrayBytes_split, List.drop_zero, List.take_left' (by simp)]

theorem head_elem (id e n : Nat) (he : e < 2 ^ 32) :
    leNat (((2 :: leBytes 4 id ++ leBytes 4 e ++ leBytes 8 n).drop 5).take 4) = e := by
  have : (2 :: leBytes 4 id ++ leBytes 4 e ++ leBytes 8 n) = (2 :: leBytes 4 id) ++ (leBytes 4 e ++ leBytes 8 n) := by simp
  rw [this, List.drop_left' (by simp), List.take_left' (by simp), leNat_leBytes _ _ (by simpa using he)]

theorem head_len (id e n : Nat) (hn : n < 2 ^ 64) :
    leNat ((2 :: leBytes 4 id ++ leBytes 4 e ++ leBytes 8 n).drop 9) = n := by
  rw [List.drop_left' (by simp), leNat_leBytes _ _ (by simpa using hn)]

/-- The host's types are the ones named so. -/
theorem RuntimeOk.managed (hw : RuntimeOk w) : ∃ ps, w.primitives = some ps ∧
    ∀ k : Elem, ∃ r, w.types[k.managed ps]? = some r ∧ r.fullName = k.fullName := by
  obtain ⟨ps, h1, h2⟩ := hw.numbers
  obtain ⟨ps', r, h3, h4, h5⟩ := hw.object
  cases h1.symm.trans h3
  refine ⟨ps, h1, ?_⟩
  simp only [numericWidths, List.map_cons, List.map_nil, List.cons.injEq, Option.map_eq_some_iff, and_true] at h2
  obtain ⟨a1, a2, a3, a4, a5, a6, a7, a8, a9, a10⟩ := h2
  intro k
  cases k
  · exact a1
  · exact a3
  · exact a5
  · exact a7
  · exact a2
  · exact a4
  · exact a6
  · exact a8
  · exact a9
  · exact a10
  · exact ⟨r, h4, h5⟩

/-- Whether the host's type is the element type. -/
theorem RuntimeOk.managed_eq (hw : RuntimeOk w) {ps : Primitives} (hps : w.primitives = some ps) {e : Nat} {er : TypeRec}
    (he : OnlyOne w e er) (k : Elem) : k.managed ps = e ↔ k.fullName = er.fullName := by
  obtain ⟨ps', h1, h2⟩ := hw.managed
  cases hps.symm.trans h1
  obtain ⟨r, h3, h4⟩ := h2 k
  constructor
  · intro h
    rw [h] at h3
    cases h3.symm.trans he.1
    exact h4.symm
  · intro h
    exact he.2 _ _ h3 (h4.trans h)

theorem RuntimeOk.lt (hw : RuntimeOk w) {e : Nat} {er : TypeRec} (he : w.types[e]? = some er) : e < 2 ^ 32 :=
  Nat.lt_of_lt_of_le (List.getElem?_eq_some_iff.1 he).1 hw.few

theorem arraySlice_run (hw : RuntimeOk v.world) {id e s : Nat} {er : TypeRec} {xs : List Nat} (he : OnlyOne v.world e er)
    (hb : v.heap.Has p (arrayBytes id e s xs)) (hn : xs.length < 2 ^ 64) (k : Elem)
    (hs : k.fullName = er.fullName → s = k.size) :
    arraySlice k p v = (.ok (if k.fullName = er.fullName then .ok xs.length else .error .typeMismatch), v) := by
  obtain ⟨ps, h1, h2⟩ := hw.managed
  obtain ⟨r, h3, h4⟩ := h2 k
  unfold arraySlice
  rw [X.bind_ok (a := ps) (v' := v) (by simp [X.view, Res.unwrap, h1])]
  rw [X.bind_ok (a := r.id) (v' := v) (by simp [typeId, X.view, World.typeAt, Res.unwrap, h3])]
  rw [X.bind_ok (hb.peek (arrayBytes_ne _ _ _ _) (by rw [length_arrayBytes]; omega))]
  rw [arrayBytes_head, head_elem _ _ _ (hw.lt he.1), head_len _ _ _ hn, hw.ids _ _ h3]
  by_cases hk : k.fullName = er.fullName
  · rw [if_pos ((hw.managed_eq h1 he k).2 hk).symm, if_pos hk,
      X.bind_ok (hb.peek (arrayBytes_ne _ _ _ _) (by rw [length_arrayBytes, hs hk]; omega))]
    rfl
  · rw [if_neg (fun h => hk ((hw.managed_eq h1 he k).1 h.symm)), if_neg hk]
    rfl

theorem chunks_elements (s : Nat) (xs : List Nat) (hx : ∀ x ∈ xs, x < 256 ^ s) (rest : Bytes) :
    (chunks s xs.length (xs.flatMap (leBytes s) ++ rest)).map leNat = xs := by
  induction xs with
  | nil => rfl
  | cons x xs ih =>
    simp only [List.flatMap_cons, List.length_cons, chunks, List.map_cons, List.append_assoc]
    rw [List.take_left' (by simp), List.drop_left' (by simp), leNat_leBytes _ _ (hx x (by simp)),
      ih fun y hy => hx y (by simp [hy])]

theorem arrayElements_run (hw : RuntimeOk v.world) {id e s : Nat} {er : TypeRec} {xs : List Nat} (he : OnlyOne v.world e er)
    (hb : v.heap.Has p (arrayBytes id e s xs)) (hn : xs.length < 2 ^ 64) (hx : ∀ x ∈ xs, x < 256 ^ s) (k : Elem)
    (hs : k.fullName = er.fullName → s = k.size) :
    arrayElements k p v = (.ok (if k.fullName = er.fullName then .ok xs else .error .typeMismatch), v) := by
  unfold arrayElements
  rw [X.bind_ok (arraySlice_run hw he hb hn k hs)]
  by_cases hk : k.fullName = er.fullName
  · simp only [if_pos hk]
    rw [X.bind_ok (hb.peek (arrayBytes_ne _ _ _ _) (by rw [length_arrayBytes, hs hk]; omega))]
    rw [arrayBytes_split, List.drop_left' (by simp), ← hs hk,
      List.take_of_length_le (by rw [length_elements]; omega)]
    have := chunks_elements s xs hx []
    rw [List.append_nil] at this
    rw [this]
    rfl
  · simp only [if_neg hk]
    rfl

theorem set_elements (s : Nat) (xs : List Nat) (i x : Nat) (hi : i < xs.length) :
    (xs.set i x).flatMap (leBytes s) =
      (xs.flatMap (leBytes s)).take (s * i) ++ leBytes s x ++ (xs.flatMap (leBytes s)).drop (s * i + s) := by
  induction xs generalizing i with
  | nil => simp at hi
  | cons y xs ih =>
    cases i with
    | zero =>
      simp only [List.set_cons_zero, List.flatMap_cons, Nat.mul_zero, List.take_zero, List.nil_append, Nat.zero_add]
      rw [List.drop_left' (by simp)]
    | succ i =>
      simp only [List.set_cons_succ, List.flatMap_cons]
      rw [ih i (by simpa using hi), show s * (i + 1) = (leBytes s y).length + s * i by rw [length_leBytes, Nat.mul_add]; omega,
        List.take_length_add_append, Nat.add_assoc, List.drop_length_add_append]
      simp

theorem Heap.Has.set {id e s : Nat} {xs : List Nat} (hb : h.Has p (arrayBytes id e s xs)) {i x : Nat} (hi : i < xs.length) :
    ∃ h', h.write p (17 + s * i) (leBytes s x) = .ok h' ∧ h'.Has p (arrayBytes id e s (xs.set i x)) := by
  obtain ⟨pre, post, h1, h2⟩ := hb.split (arrayBytes_ne _ _ _ _)
  have hle : s * i + s ≤ s * xs.length := by
    rw [← Nat.mul_succ]; exact Nat.mul_le_mul_left _ hi
  have hlen : h.mem.length = pre.length + (17 + s * xs.length + post.length) := by
    rw [h1]; simp only [List.length_append, length_arrayBytes]
  obtain ⟨h', hw⟩ := write_fits (h := h) (p := p) (off := 17 + s * i) (bs := leBytes s x) (by rw [h2])
    (by rw [h2, length_leBytes]; show pre.length + _ + s ≤ _; omega)
  refine ⟨h', hw, ?_⟩
  obtain ⟨-, -, rfl⟩ := write_shape hw
  subst h2
  refine ⟨rfl, post, ?_⟩
  rw [length_leBytes]
  show _ = (h.mem.take (pre.length + (17 + s * i)) ++ leBytes s x ++ h.mem.drop (pre.length + (17 + s * i) + s)).drop pre.length
  rw [h1, List.take_length_add_append, Nat.add_assoc, List.drop_length_add_append, List.append_assoc, List.append_assoc,
    List.drop_left, arrayBytes_split, arrayBytes_split, List.length_set]
  generalize hH : (2 :: leBytes 4 id ++ leBytes 4 e ++ leBytes 8 xs.length) = H
  have hHl : H.length = 17 := by rw [← hH]; simp
  rw [set_elements s xs i x hi, ← hHl, List.append_assoc H, List.append_assoc H, List.take_length_add_append,
    Nat.add_assoc, List.drop_length_add_append, List.take_append_of_le_length (by rw [length_elements]; omega),
    List.drop_append_of_le_length (by rw [length_elements]; omega)]
  simp only [List.append_assoc]

/-! ## Looking at objects -/

/-- What all images begin with. -/
theorem objectType_run {f : UInt8} {id : Nat} {rest : Bytes} (hb : v.heap.Has p (f :: leBytes 4 id ++ rest))
    (hid : id < 2 ^ 32) (hl : id < v.world.types.length) : objectType p v = (.ok id, v) := by
  unfold objectType
  rw [X.bind_ok (hb.peek (by simp) (by simp))]
  have : (((f :: leBytes 4 id ++ rest).drop 0).take 5).drop 1 = leBytes 4 id := by
    rw [List.drop_zero, List.take_left' (by simp)]; rfl
  rw [this, leNat_leBytes _ _ (by simpa using hid)]
  rw [X.bind_ok (a := v.world.types[id]) (v' := v) (by simp [X.view, World.typeAt, Res.unwrap, hl])]
  rfl

theorem objectFlags_run {f : UInt8} {id : Nat} {rest : Bytes} (hb : v.heap.Has p (f :: leBytes 4 id ++ rest)) :
    objectFlags p v = (.ok f.toNat, v) := by
  unfold objectFlags
  rw [X.bind_ok (hb.peek (by simp) (by simp))]
  have : (((f :: leBytes 4 id ++ rest).drop 0).take 5).take 1 = [f] := by
    rw [List.drop_zero, List.take_left' (by simp)]; rfl
  rw [this]
  simp [leNat]

theorem isArray_run {f : UInt8} {id : Nat} {rest : Bytes} (hb : v.heap.Has p (f :: leBytes 4 id ++ rest)) :
    isArray p v = (.ok (f.toNat &&& 2 ≠ 0), v) := by
  unfold isArray; rw [X.bind_ok (objectFlags_run hb)]; rfl

theorem isString_run {f : UInt8} {id : Nat} {rest : Bytes} (hb : v.heap.Has p (f :: leBytes 4 id ++ rest)) :
    isString p v = (.ok (f.toNat &&& 4 ≠ 0), v) := by
  unfold isString; rw [X.bind_ok (objectFlags_run hb)]; rfl

theorem stringData_run {id : Nat} {us : List Nat} (hb : v.heap.Has p (stringImage id us)) (hl : us.length < 2 ^ 64)
    (hu : ∀ u ∈ us, u < 0x10000) : stringData p v = (.ok us, v) := by
  have hlen : (stringImage id us).length = 13 + 2 * us.length := by
    simp only [stringImage, textBytes, List.length_append, length_elements]; simp
  unfold stringData
  rw [X.bind_ok (hb.peek (by simp [stringImage]) (by omega))]
  have : (((stringImage id us).drop 0).take 13).drop 5 = leBytes 8 us.length := by
    rw [List.drop_zero, show stringImage id us = (4 :: leBytes 4 id ++ leBytes 8 us.length) ++ textBytes us by
      simp [stringImage], List.take_left' (by simp), List.drop_left' (by simp)]
  rw [this, leNat_leBytes _ _ (by simpa using hl)]
  rw [X.bind_ok (hb.peek (by simp [stringImage]) (by omega))]
  have : ((stringImage id us).drop 13).take (2 * us.length) = us.flatMap (leBytes 2) := by
    rw [show stringImage id us = (4 :: leBytes 4 id ++ leBytes 8 us.length) ++ us.flatMap (leBytes 2) by
      simp [stringImage, textBytes], List.drop_left' (by simp), List.take_of_length_le (by rw [length_elements]; omega)]
  have hc := chunks_elements 2 us (by simpa using hu) []
  rw [List.append_nil] at hc
  rw [this, hc]
  rfl

end Clr
