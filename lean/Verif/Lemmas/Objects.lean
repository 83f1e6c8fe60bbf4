import Verif.Spec.Objects
import Verif.Lemmas.Frames
/-! # The object heap -/

namespace Clr

variable {cfg : Cfg} {tf : Nat} {v v' : VM} {h h' : Heap} {p : Ptr}

/-- Bytes overwritten in the middle. -/
def splice (blk : Bytes) (off : Nat) (bs : Bytes) : Bytes := blk.take off ++ bs ++ blk.drop (off + bs.length)

theorem length_splice {blk : Bytes} {off : Nat} {bs : Bytes} (hl : off + bs.length ≤ blk.length) :
    (splice blk off bs).length = blk.length := by
  simp [splice]; omega

theorem write_ok {pre blk bs : Bytes} {off : Nat} (hp : p = ⟨h.gen, pre.length⟩) (hm : h.mem = pre ++ blk)
    (hl : off + bs.length ≤ blk.length) : h.write p off bs = .ok { h with mem := pre ++ splice blk off bs } := by
  subst hp
  unfold Heap.write
  rw [if_pos ⟨rfl, by simp [hm]; omega⟩, hm]
  rw [Nat.add_assoc pre.length, List.take_length_add_append, List.drop_length_add_append]
  simp [splice]

theorem read_ok {pre blk : Bytes} {off n : Nat} (hp : p = ⟨h.gen, pre.length⟩) (hm : h.mem = pre ++ blk)
    (hl : off + n ≤ blk.length) : h.read p off n = .ok ((blk.drop off).take n) := by
  subst hp
  unfold Heap.read
  rw [if_pos ⟨rfl, by simp [hm]; omega⟩, hm]
  rw [List.drop_length_add_append]

theorem poke_ok {pre blk bs : Bytes} {off : Nat} (hp : p = ⟨v.heap.gen, pre.length⟩) (hm : v.heap.mem = pre ++ blk)
    (hl : off + bs.length ≤ blk.length) :
    poke p off bs v = (.ok (), { v with heap := { v.heap with mem := pre ++ splice blk off bs } }) := by
  simp [poke, onHeap, X.update, write_ok hp hm hl]

theorem peek_ok {pre blk : Bytes} {off n : Nat} (hp : p = ⟨v.heap.gen, pre.length⟩) (hm : v.heap.mem = pre ++ blk)
    (hl : off + n ≤ blk.length) : peekBytes p off n v = (.ok ((blk.drop off).take n), v) := by
  simp [peekBytes, X.view, read_ok hp hm hl]

/-- Allocation of raw memory. -/
theorem bump_ok {size : Nat} (hs : h.mem.length + size < 2 ^ 64) (hb : h.bump cfg size = .ok (p, h')) :
    p = ⟨h'.gen, h.mem.length⟩ ∧ h'.mem = h.mem ++ List.replicate size 0 ∧ h.gen ≤ h'.gen ∧
    (h.mem.length + size ≤ h.cap → h'.gen = h.gen ∧ h'.cap = h.cap) := by
  have hres : ∀ (g : Heap) n g', g.reserve n = .ok g' → g'.mem = g.mem ∧ g.gen ≤ g'.gen ∧
      (n ≤ g.cap - g.mem.length → g' = g) := by
    intro g n g' hg
    unfold Heap.reserve at hg
    split at hg
    · cases hg; exact ⟨rfl, Nat.le_refl _, fun _ => rfl⟩
    · split at hg
      · cases hg; exact ⟨rfl, Nat.le_succ _, fun h => absurd h ‹_›⟩
      · cases hg
  unfold Heap.bump at hb
  obtain ⟨h1, he, hb⟩ := Res.bind_eq_ok.1 hb
  unfold Heap.ensureSize at he
  rw [uadd_ok hs] at he
  simp only [Res.ok_bind, Res.pure_eq] at he
  have h1m : h1.mem = h.mem ∧ h.gen ≤ h1.gen ∧ (h.mem.length + size ≤ h.cap → h1 = h) := by
    split at he
    · obtain ⟨a, b, -⟩ := hres _ _ _ he
      exact ⟨a, b, fun hc => by omega⟩
    · cases he; exact ⟨rfl, Nat.le_refl _, fun _ => rfl⟩
  obtain ⟨hm1, hg1, hsame⟩ := h1m
  rw [hm1] at hb
  dsimp only at hb
  rw [uadd_ok hs] at hb
  simp only [Res.ok_bind, Res.pure_eq] at hb
  obtain ⟨h2, hr, hb⟩ := Res.bind_eq_ok.1 hb
  cases hb
  unfold Heap.resize at hr
  split at hr
  · rename_i hlt
    obtain ⟨h3, hr3, hr⟩ := Res.bind_eq_ok.1 hr
    cases hr
    obtain ⟨a, b, c⟩ := hres _ _ _ hr3
    refine ⟨rfl, ?_, Nat.le_trans hg1 b, fun hc => ?_⟩
    · simp only [a, hm1, Nat.add_sub_cancel_left]
    · have := hsame hc
      subst this
      have := c (by omega)
      subst this
      exact ⟨rfl, rfl⟩
  · rename_i hge
    have hz : size = 0 := by rw [hm1] at hge; omega
    cases hr
    subst hz
    refine ⟨rfl, by simp [hm1], hg1, fun hc => ?_⟩
    rw [hsame hc]; exact ⟨rfl, rfl⟩

theorem onHeap_bump_ok {size : Nat} (hs : v.heap.mem.length + size < 2 ^ 64)
    (hb : onHeap (·.bump cfg size) v = (.ok p, v')) :
    v' = { v with heap := v'.heap } ∧ p = ⟨v'.heap.gen, v.heap.mem.length⟩ ∧
    v'.heap.mem = v.heap.mem ++ List.replicate size 0 ∧ v.heap.gen ≤ v'.heap.gen ∧
    (v.heap.mem.length + size ≤ v.heap.cap → v'.heap.gen = v.heap.gen ∧ v'.heap.cap = v.heap.cap) := by
  unfold onHeap X.update at hb
  cases hx : v.heap.bump cfg size with
  | ok a =>
    obtain ⟨q, h'⟩ := a
    simp only [hx, Res.ok_bind, Res.pure_eq] at hb
    cases hb
    exact ⟨rfl, bump_ok hs hx⟩
  | _ => simp only [hx] at hb; cases hb

theorem splice_mid (a m b bs : Bytes) (h : bs.length = m.length) : splice (a ++ (m ++ b)) a.length bs = a ++ (bs ++ b) := by
  unfold splice
  rw [List.take_left, List.drop_length_add_append, h, List.drop_left, List.append_assoc]

theorem poke_mid {pre a m b bs : Bytes} {off : Nat} (hp : p = ⟨v.heap.gen, pre.length⟩)
    (hm : v.heap.mem = pre ++ (a ++ (m ++ b))) (ho : off = a.length) (hl : bs.length = m.length) :
    poke p off bs v = (.ok (), { v with heap := { v.heap with mem := pre ++ (a ++ (bs ++ b)) } }) := by
  rw [poke_ok hp hm (by simp; omega), ho, splice_mid _ _ _ _ hl]

theorem poke_to {r : Res Unit} {pre a m b bs : Bytes} {off : Nat} (h : poke p off bs v = (r, v'))
    (hp : p = ⟨v.heap.gen, pre.length⟩) (hm : v.heap.mem = pre ++ (a ++ (m ++ b))) (ho : off = a.length)
    (hl : bs.length = m.length) : v' = { v with heap := { v.heap with mem := pre ++ (a ++ (bs ++ b)) } } := by
  rw [poke_mid hp hm ho hl] at h
  exact (congrArg Prod.snd h).symm

theorem orFlags_to {pre b : Bytes} {x : UInt8} {mask : Nat} {r : Res Unit} (h : orFlags p mask v = (r, v'))
    (hp : p = ⟨v.heap.gen, pre.length⟩) (hm : v.heap.mem = pre ++ x :: b) :
    v' = { v with heap := { v.heap with mem := pre ++ UInt8.ofNat (x.toNat ||| mask) :: b } } := by
  unfold orFlags at h
  rw [X.bind_ok (peek_ok hp hm (by simp))] at h
  have := poke_to (a := []) (m := [x]) (b := b) h hp (by simpa using hm) rfl (by simp)
  rw [this]
  have : UInt8.ofNat ((x.toNat ||| mask) % 256) = UInt8.ofNat (x.toNat ||| mask) := by
    apply UInt8.toNat_inj.1
    simp only [UInt8.toNat_ofNat', Nat.mod_mod]
  simp only [leBytes, leNat, List.drop_zero, List.take_succ_cons, List.take_zero, Nat.mul_zero, Nat.add_zero,
    List.nil_append, List.cons_append]
  rw [this]

theorem view_eq_ok {α : Type} {f : VM → Res α} {a : α} : X.view f v = (.ok a, v') ↔ f v = .ok a ∧ v' = v := by
  unfold X.view
  constructor
  · intro h; injection h with h1 h2; exact ⟨h1, h2.symm⟩
  · rintro ⟨h1, rfl⟩; rw [h1]

theorem lift_eq_ok {α : Type} {x : Res α} {a : α} : (liftM x : X α) v = (.ok a, v') ↔ x = .ok a ∧ v' = v := by
  constructor
  · intro h; injection h with h1 h2; exact ⟨h1, h2.symm⟩
  · rintro ⟨rfl, rfl⟩; rfl

theorem typeId_eq_ok {t id : Nat} : typeId t v = (.ok id, v') ↔ (∃ tr, v.world.types[t]? = some tr ∧ tr.id = id) ∧ v' = v := by
  unfold typeId
  rw [view_eq_ok]
  cases h : v.world.types[t]? <;> simp [World.typeAt, h]

theorem zeros_split (a b : Nat) : List.replicate (a + b) (0 : UInt8) = List.replicate a 0 ++ List.replicate b 0 :=
  (List.replicate_append_replicate ..).symm

/-- Allocation of an object: the state changes only by an object at the end of the heap. -/
theorem allocObject_ok {t s : Nat} (hs : typeSize cfg v.world tf t = .ok s) (hroom : v.heap.mem.length + (5 + s) < 2 ^ 64)
    (h : allocObject cfg tf t v = (.ok p, v')) :
    ∃ tr, v.world.types[t]? = some tr ∧ v' = { v with heap := v'.heap } ∧
      v'.heap.mem = v.heap.mem ++ objectImage tr.id s ∧ p = ⟨v'.heap.gen, v.heap.mem.length⟩ ∧ v.heap.gen ≤ v'.heap.gen ∧
      (v.heap.mem.length + (5 + s) ≤ v.heap.cap → v'.heap.gen = v.heap.gen ∧ v'.heap.cap = v.heap.cap) := by
  unfold allocObject at h
  rw [X.view_bind_ok hs, uadd_ok (by omega)] at h
  rw [X.liftM_bind_ok rfl] at h
  obtain ⟨q, v1, hb, h1⟩ := X.bind_eq_ok.1 h
  obtain ⟨e1, e2, e3, e4, e5⟩ := onHeap_bump_ok hroom hb
  obtain ⟨id, v2, hid, h2⟩ := X.bind_eq_ok.1 h1
  obtain ⟨⟨tr, htr, rfl⟩, rfl⟩ := typeId_eq_ok.1 hid
  obtain ⟨_, v3, hk, h3⟩ := X.bind_eq_ok.1 h2
  have hk := poke_to (a := [0]) (m := List.replicate 4 0) (b := List.replicate s 0) hk e2
    (by rw [e3, show 5 + s = 1 + (4 + s) by omega, zeros_split, zeros_split]; rfl) rfl (by simp)
  subst hk
  cases h3
  refine ⟨tr, by rw [e1] at htr; exact htr, ?_, rfl, e2, e4, e5⟩
  rw [e1]

/-- Allocation of a string. -/
theorem allocString_ok {us : List Nat} (hroom : v.heap.mem.length + (13 + 2 * us.length) < 2 ^ 64)
    (h : allocString cfg us v = (.ok p, v')) :
    ∃ t tr, v.world.getType "System.String".toList = some t ∧ v.world.types[t]? = some tr ∧ v' = { v with heap := v'.heap } ∧
      v'.heap.mem = v.heap.mem ++ stringImage tr.id us ∧ p = ⟨v'.heap.gen, v.heap.mem.length⟩ ∧
      v.heap.gen ≤ v'.heap.gen ∧
      (v.heap.mem.length + (13 + 2 * us.length) ≤ v.heap.cap → v'.heap.gen = v.heap.gen ∧ v'.heap.cap = v.heap.cap) := by
  have hub : ∀ us, unitBytes us = textBytes us := by
    intro us; induction us with
    | nil => rfl
    | cons u us ih => simp [unitBytes, textBytes, ih]
  have hlen : ∀ us, (textBytes us).length = 2 * us.length := by
    intro us; induction us with
    | nil => rfl
    | cons u us ih => simp [textBytes] at ih ⊢; omega
  unfold allocString at h
  rw [umul_ok (by omega), X.liftM_bind_ok rfl, uadd_ok (by omega), X.liftM_bind_ok rfl] at h
  obtain ⟨q, v1, hb, h1⟩ := X.bind_eq_ok.1 h
  obtain ⟨e1, e2, e3, e4, e5⟩ := onHeap_bump_ok hroom hb
  obtain ⟨_, v2, hk, h2⟩ := X.bind_eq_ok.1 h1
  have hk := orFlags_to (x := 0) (b := List.replicate 4 0 ++ (List.replicate 8 0 ++ List.replicate (2 * us.length) 0)) hk e2
    (by rw [e3, show 13 + 2 * us.length = 1 + (4 + (8 + 2 * us.length)) by omega, zeros_split, zeros_split, zeros_split]; rfl)
  obtain ⟨t, v3, ht, h3⟩ := X.bind_eq_ok.1 h2
  obtain ⟨ht, rfl⟩ := view_eq_ok.1 ht
  obtain ⟨id, v4, hid, h4⟩ := X.bind_eq_ok.1 h3
  obtain ⟨⟨tr, htr, rfl⟩, rfl⟩ := typeId_eq_ok.1 hid
  subst hk
  obtain ⟨_, v5, hk, h5⟩ := X.bind_eq_ok.1 h4
  have hk := poke_to (a := [4]) (m := List.replicate 4 0) (b := List.replicate 8 0 ++ List.replicate (2 * us.length) 0)
    hk e2 rfl rfl (by simp)
  subst hk
  obtain ⟨_, v5, hk, h6⟩ := X.bind_eq_ok.1 h5
  have hk := poke_to (a := 4 :: leBytes 4 tr.id) (m := List.replicate 8 0) (b := List.replicate (2 * us.length) 0)
    hk e2 (by simp) (by simp) (by simp)
  subst hk
  obtain ⟨_, v5, hk, h7⟩ := X.bind_eq_ok.1 h6
  have hk := poke_to (a := 4 :: leBytes 4 tr.id ++ leBytes 8 us.length) (m := List.replicate (2 * us.length) 0) (b := [])
    hk e2 (by simp) (by simp) (by simp [hub, hlen])
  subst hk
  cases h7
  refine ⟨t, tr, ?_, by rw [e1] at htr; exact htr, ?_, ?_, e2, e4, e5⟩
  · have : v1.world = v.world := by rw [e1]
    rw [← this]
    cases hx : v1.world.getType "System.String".toList with
    | none => rw [show Res.unwrap (v1.world.getType _) = _ from congrArg Res.unwrap hx] at ht; cases ht
    | some x => rw [show Res.unwrap (v1.world.getType _) = _ from congrArg Res.unwrap hx] at ht; cases ht; rfl
  · rw [e1]
  · simp [stringImage, hub]

theorem registry_eq_ok {α : Type} {x : M α} {a : α} :
    X.registry x v = (.ok a, v') ↔ ∃ w, x v.world = (.ok a, w) ∧ v' = { v with world := w } := by
  unfold X.registry
  constructor
  · intro h; injection h with h1 h2; exact ⟨_, Prod.ext h1 rfl, h2.symm⟩
  · rintro ⟨w, h1, rfl⟩; rw [h1]

theorem arrayType_named {e t : Nat} {w w' : World} (h : arrayType cfg e w = (.ok t, w')) :
    ∃ er, w.types[e]? = some er ∧ w'.getType (er.fullName ++ "[]".toList) = some t := by
  unfold arrayType at h
  obtain ⟨er, w1, h1, h⟩ := M.bind_eq_ok.1 h
  have e1 : w1 = w := (congrArg Prod.snd h1).symm
  have h1 : w.typeAt e = .ok er := congrArg Prod.fst h1
  have her : w.types[e]? = some er := by
    cases hx : w.types[e]? with
    | none => simp [World.typeAt, hx] at h1
    | some y => simp [World.typeAt, hx] at h1; rw [h1]
  refine ⟨er, her, ?_⟩
  rw [M.get_bind] at h
  cases hg : w1.getType (er.fullName ++ "[]".toList) with
  | some y =>
    simp only [hg] at h
    cases h
    exact hg
  | none =>
    simp only [hg] at h
    obtain ⟨id, w2, h2, h⟩ := M.bind_eq_ok.1 h
    rw [M.get_bind, M.get_bind] at h
    obtain ⟨_, w3, h3, h⟩ := M.bind_eq_ok.1 h
    cases h3; cases h
    simp [World.addType, World.getType]

/-- Allocation of an array. -/
theorem allocArray_ok {e s n : Nat} (hs : typeSize cfg v.world tf e = .ok s)
    (hroom : v.heap.mem.length + (17 + s * n) < 2 ^ 64) (h : allocArray cfg tf e n v = (.ok p, v')) :
    ∃ er t tr, v.world.types[e]? = some er ∧ v'.world.getType (er.fullName ++ "[]".toList) = some t ∧
      v'.world.types[t]? = some tr ∧ v' = { v with heap := v'.heap, world := v'.world } ∧ Evolves v.world v'.world ∧
      v'.heap.mem = v.heap.mem ++ arrayImage tr.id er.id s n ∧ p = ⟨v'.heap.gen, v.heap.mem.length⟩ ∧
      v.heap.gen ≤ v'.heap.gen ∧
      (v.heap.mem.length + (17 + s * n) ≤ v.heap.cap → v'.heap.gen = v.heap.gen ∧ v'.heap.cap = v.heap.cap) := by
  have hev := (Keeps.allocArray (L := 0) (H := True) (P := True) cfg tf e n).run v (Nat.zero_le _)
  rw [h] at hev
  unfold allocArray at h
  rw [X.view_bind_ok hs, umul_ok (by omega), X.liftM_bind_ok rfl, uadd_ok (by omega), X.liftM_bind_ok rfl] at h
  obtain ⟨q, v1, hb, h1⟩ := X.bind_eq_ok.1 h
  obtain ⟨e1, e2, e3, e4, e5⟩ := onHeap_bump_ok hroom hb
  obtain ⟨_, v2, hk, h2⟩ := X.bind_eq_ok.1 h1
  have hk := orFlags_to (x := 0) (b := List.replicate 4 0 ++ (List.replicate 4 0 ++ (List.replicate 8 0 ++ List.replicate (s * n) 0)))
    hk e2 (by
      rw [e3, show 17 + s * n = 1 + (4 + (4 + (8 + s * n))) by omega, zeros_split, zeros_split, zeros_split, zeros_split]
      rfl)
  obtain ⟨t, v3, ht, h3⟩ := X.bind_eq_ok.1 h2
  obtain ⟨w3, ht, e6⟩ := registry_eq_ok.1 ht
  obtain ⟨er, her, hnm⟩ := arrayType_named ht
  subst hk
  subst e6
  obtain ⟨id, v4, hid, h4⟩ := X.bind_eq_ok.1 h3
  obtain ⟨⟨tr, htr, rfl⟩, e7⟩ := typeId_eq_ok.1 hid
  subst e7
  obtain ⟨_, v5, hk, h5⟩ := X.bind_eq_ok.1 h4
  have hk := poke_to (a := [2]) (m := List.replicate 4 0)
    (b := List.replicate 4 0 ++ (List.replicate 8 0 ++ List.replicate (s * n) 0)) hk e2 rfl rfl (by simp)
  subst hk
  obtain ⟨id, v4, hid, h6⟩ := X.bind_eq_ok.1 h5
  obtain ⟨⟨er', her', rfl⟩, e8⟩ := typeId_eq_ok.1 hid
  subst e8
  obtain ⟨_, v5, hk, h7⟩ := X.bind_eq_ok.1 h6
  have hk := poke_to (a := 2 :: leBytes 4 tr.id) (m := List.replicate 4 0)
    (b := List.replicate 8 0 ++ List.replicate (s * n) 0) hk e2 (by simp) (by simp) (by simp)
  subst hk
  obtain ⟨_, v5, hk, h8⟩ := X.bind_eq_ok.1 h7
  have hk := poke_to (a := 2 :: leBytes 4 tr.id ++ leBytes 4 er'.id) (m := List.replicate 8 0)
    (b := List.replicate (s * n) 0) hk e2 (by simp) (by simp) (by simp)
  subst hk
  cases h8
  have hw1 : v1.world = v.world := by rw [e1]
  dsimp only at her
  rw [hw1] at her
  have hpre := hev.world.types
  have heq : er' = er := by
    obtain ⟨sfx, hsfx⟩ := hpre
    have hl : e < v.world.types.length := (List.getElem?_eq_some_iff.1 her).1
    have : w3.types[e]? = some er := by
      rw [← her]; show w3.types[e]? = _
      rw [← (show v.world.types ++ sfx = w3.types from hsfx), List.getElem?_append_left hl]
    have h' : w3.types[e]? = some er' := her'
    rw [this] at h'; cases h'; rfl
  subst heq
  refine ⟨er', t, tr, her, hnm, htr, ?_, hev.world, ?_, e2, e4, e5⟩
  · rw [e1]
  · simp [arrayImage]

end Clr
