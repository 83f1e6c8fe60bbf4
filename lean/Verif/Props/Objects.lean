import Verif.Lemmas.Sizes
import Verif.Lemmas.Access
import Verif.Lemmas.Tiny
import Verif.Props.Arith
/-! # Properties C44-C47: objects on the heap -/

namespace Clr

variable {cfg : Cfg} {ops : FloatOps} {tf : Nat} {fr : Frame} {ip : Nat} {v v' : VM} {p : Ptr} {rest : List Value}

/-! ## C44 -/

/-- The three allocation functions. -/
def Request.alloc (cfg : Cfg) (tf : Nat) : Request → X Ptr
  | .object t => allocObject cfg tf t
  | .array e n => allocArray cfg tf e n
  | .string us => allocString cfg us

/-- A sequence of allocations. -/
def allocAll (cfg : Cfg) (tf : Nat) : List Request → X (List Ptr)
  | [] => pure []
  | r :: rs => do
    let p ← r.alloc cfg tf
    let ps ← allocAll cfg tf rs
    pure (p :: ps)

/-- `size` gives the sizes of the types in the request. -/
def Request.Sized (cfg : Cfg) (tf : Nat) (w : World) (size : Nat → Nat) : Request → Prop
  | .object t => typeSize cfg w tf t = .ok (size t)
  | .array e _ => typeSize cfg w tf e = .ok (size e)
  | .string _ => True

instance decSized (cfg : Cfg) (tf : Nat) (w : World) (size : Nat → Nat) (r : Request) :
    Decidable (r.Sized cfg tf w size) := by
  cases r <;> simp only [Request.Sized] <;> infer_instance

/-- The number of bytes needed. -/
def Request.bytes (size : Nat → Nat) : Request → Nat
  | .object t => 5 + size t
  | .array e n => 17 + size e * n
  | .string us => 13 + 2 * us.length

theorem Request.Sized.evolves {w w' : World} {size : Nat → Nat} {r : Request} (h : r.Sized cfg tf w size)
    (he : Evolves w w') : r.Sized cfg tf w' size := by
  cases r with
  | object t => exact typeSize_evolves he h
  | array e n => exact typeSize_evolves he h
  | string us => trivial

theorem Evolves.types_some {w w' : World} (he : Evolves w w') {t : Nat} {r : TypeRec} (h : w.types[t]? = some r) :
    w'.types[t]? = some r := by
  obtain ⟨s, hs⟩ := he.types
  rw [← hs, List.getElem?_append_left (List.getElem?_eq_some_iff.1 h).1, h]

theorem Image.evolves {w w' : World} {size : Nat → Nat} {r : Request} {b : Bytes} (h : Image w size r b)
    (he : Evolves w w') : Image w' size r b := by
  cases r with
  | object t => obtain ⟨tr, h1, h2⟩ := h; exact ⟨tr, he.types_some h1, h2⟩
  | array e n =>
    obtain ⟨er, t, tr, h1, h2, h3, h4⟩ := h
    exact ⟨er, t, tr, he.types_some h1, he.kept _ _ h2, he.types_some h3, h4⟩
  | string us =>
    obtain ⟨t, tr, h1, h2, h3⟩ := h
    exact ⟨t, tr, he.kept _ _ h1, he.types_some h2, h3⟩

/-- One allocation: the heap is the old one followed by the object asked for, to which the result points; nothing else
changes, except that an array type may be registered. -/
theorem C44_one (size : Nat → Nat) (r : Request) (hs : r.Sized cfg tf v.world size)
    (hroom : v.heap.mem.length + r.bytes size < 2 ^ 64) (h : r.alloc cfg tf v = (.ok p, v')) :
    ∃ b, Image v'.world size r b ∧ b.length = r.bytes size ∧ v'.heap.mem = v.heap.mem ++ b ∧
      p = ⟨v'.heap.gen, v.heap.mem.length⟩ ∧ v' = { v with heap := v'.heap, world := v'.world } ∧
      Evolves v.world v'.world ∧ v.heap.gen ≤ v'.heap.gen ∧
      (v.heap.mem.length + r.bytes size ≤ v.heap.cap → v'.heap.gen = v.heap.gen ∧ v'.heap.cap = v.heap.cap) := by
  have hlen : ∀ us, (textBytes us).length = 2 * us.length := by
    intro us; induction us with
    | nil => rfl
    | cons u us ih => simp [textBytes] at ih ⊢; omega
  cases r with
  | object t =>
    obtain ⟨tr, h1, h2, h3, h4, h5, h6⟩ := allocObject_ok hs hroom h
    have hw : v'.world = v.world := by rw [h2]
    refine ⟨_, ⟨tr, by rw [hw]; exact h1, rfl⟩, ?_, h3, h4, by rw [h2], by rw [hw]; exact .refl _, h5, h6⟩
    simp [objectImage, Request.bytes]; omega
  | array e n =>
    obtain ⟨er, t, tr, h1, h2, h3, h4, h5, h6, h7, h8, h9⟩ := allocArray_ok hs hroom h
    refine ⟨_, ⟨er, t, tr, h5.types_some h1, h2, h3, rfl⟩, ?_, h6, h7, h4, h5, h8, h9⟩
    simp [arrayImage, Request.bytes]; omega
  | string us =>
    obtain ⟨t, tr, h1, h2, h3, h4, h5, h6, h7⟩ := allocString_ok hroom h
    have hw : v'.world = v.world := by rw [h3]
    refine ⟨_, ⟨t, tr, by rw [hw]; exact h1, by rw [hw]; exact h2, rfl⟩, ?_, h4, h5, by rw [h3], by rw [hw]; exact .refl _, h6, h7⟩
    simp [stringImage, Request.bytes, hlen]; omega

/-- **C44**: after any sequence of successful allocations whose sizes together fit into the address space, there is for
every request an object of the right form (`Image`: header, zeroed fields or elements, the text of a string) in the heap
where the result points; these objects do not overlap each other or what was on the heap before, which is unchanged. -/
theorem C44 (size : Nat → Nat) (rs : List Request) (ps : List Ptr) (hs : ∀ r ∈ rs, r.Sized cfg tf v.world size)
    (hroom : v.heap.mem.length + (rs.map (Request.bytes size)).sum < 2 ^ 64) (h : allocAll cfg tf rs v = (.ok ps, v')) :
    ∃ bs : List Bytes, bs.length = rs.length ∧ ps.length = rs.length ∧
      (∀ (i : Nat) r (b : Bytes), rs[i]? = some r → bs[i]? = some b → Image v'.world size r b) ∧
      (∀ (i : Nat) (p : Ptr) (b : Bytes), ps[i]? = some p → bs[i]? = some b →
        v.heap.mem.length ≤ p.off ∧ p.off + b.length ≤ v'.heap.mem.length ∧ b <+: v'.heap.mem.drop p.off) ∧
      (∀ (i j : Nat) (p q : Ptr) (b : Bytes), i < j → ps[i]? = some p → ps[j]? = some q → bs[i]? = some b → p.off + b.length ≤ q.off) ∧
      v.heap.mem <+: v'.heap.mem := by
  induction rs generalizing v ps with
  | nil => cases h; exact ⟨[], rfl, rfl, by simp, by simp, by simp, List.prefix_refl _⟩
  | cons r rs ih =>
    rw [allocAll] at h
    obtain ⟨p, v1, h1, h2⟩ := X.bind_eq_ok.1 h
    obtain ⟨ps', v2, h3, h4⟩ := X.bind_eq_ok.1 h2
    cases h4
    simp only [List.map_cons, List.sum_cons] at hroom
    obtain ⟨b, a1, a2, a3, a4, -, a6, -, -⟩ := C44_one size r (hs r (by simp)) (by omega) h1
    obtain ⟨bs, b1, b2, b3, b4, b5, b6⟩ := ih ps' (fun r hr => (hs r (by simp [hr])).evolves a6)
      (by rw [a3]; simp; omega) h3
    have hpre : v.heap.mem ++ b <+: v'.heap.mem := by rw [← a3]; exact b6
    have hev : Evolves v1.world v'.world := by
      have : ∀ rs, Keeps 0 True True (allocAll cfg tf rs) := by
        intro rs; induction rs with
        | nil => exact .pure _
        | cons r rs ih =>
          refine .bind ?_ fun _ => .bind ih fun _ => .pure _
          cases r
          · exact .allocObject ..
          · exact .allocArray ..
          · exact .allocString ..
      have := ((this rs).run v1 (Nat.zero_le _)).world
      rwa [h3] at this
    refine ⟨b :: bs, by simp [b1], by simp [b2], ?_, ?_, ?_, (List.prefix_append _ _).trans hpre⟩
    · intro i r' b' hr hb
      cases i with
      | zero => cases hr; cases hb; exact a1.evolves hev
      | succ i => exact b3 i r' b' hr hb
    · intro i q b' hq hb
      cases i with
      | zero =>
        cases hq; cases hb
        obtain ⟨t, ht⟩ := hpre
        subst a4
        rw [← ht]
        refine ⟨Nat.le_refl _, by simp, ?_⟩
        simp
      | succ i =>
        obtain ⟨c1, c2, c3⟩ := b4 i q b' hq hb
        refine ⟨?_, c2, c3⟩
        rw [a3] at c1; simp at c1; omega
    · intro i j q q' b' hij hq hq' hb
      cases j with
      | zero => omega
      | succ j =>
        cases i with
        | zero =>
          cases hq; cases hb
          have hl : j < bs.length := by
            rw [b1, ← b2]; exact Nat.lt_of_succ_lt_succ (List.getElem?_eq_some_iff.1 hq').1
          have := (b4 j q' bs[j] hq' (by simp [hl])).1
          subst a4
          rw [a3] at this; simpa using this
        | succ i => exact b5 i j q q' b' (by omega) hq hq' hb

/-- Three allocations on a fresh heap. -/
example : (allocAll .debug 9 [.object 1, .array 8 5, .string [0x48, 0x69]] { world := Ex.tiny [] }).1 =
      .ok [⟨0, 0⟩, ⟨0, 5⟩, ⟨0, 42⟩] ∧
    ∀ r ∈ [Request.object 1, .array 8 5, .string [0x48, 0x69]],
      r.Sized .debug 9 (Ex.tiny []) fun t => if t = 8 then 4 else 0 := by
  decide +kernel

/-! ## C45 -/

/-- **C45 while the heap's memory does not have to grow**: everything that could be read through any reference before the
allocations reads the same after them. -/
theorem C45_partial (size : Nat → Nat) (rs : List Request) (ps : List Ptr) (hs : ∀ r ∈ rs, r.Sized cfg tf v.world size)
    (hfit : v.heap.mem.length + (rs.map (Request.bytes size)).sum ≤ v.heap.cap) (hcap : v.heap.cap < 2 ^ 64)
    (h : allocAll cfg tf rs v = (.ok ps, v')) (p : Ptr) (off n : Nat) (bs : Bytes) (hr : v.heap.read p off n = .ok bs) :
    v'.heap.read p off n = .ok bs := by
  induction rs generalizing v ps with
  | nil => cases h; exact hr
  | cons r rs ih =>
    rw [allocAll] at h
    obtain ⟨q, v1, h1, h2⟩ := X.bind_eq_ok.1 h
    obtain ⟨ps', v2, h3, h4⟩ := X.bind_eq_ok.1 h2
    cases h4
    simp only [List.map_cons, List.sum_cons] at hfit
    obtain ⟨b, a1, a2, a3, a4, -, a6, -, a8⟩ := C44_one size r (hs r (by simp)) (by omega) h1
    obtain ⟨a8, a9⟩ := a8 (by omega)
    refine ih ps' (fun r hr => (hs r (by simp [hr])).evolves a6) (by rw [a3, a9]; simp; omega) (by rw [a9]; exact hcap) h3 ?_
    unfold Heap.read at hr ⊢
    split at hr
    · rename_i hc
      rw [a3, a8, if_pos (by simp; omega)]
      cases hr
      rw [List.drop_append_of_le_length (by omega), List.take_append_of_le_length (by simp; omega)]
    · cases hr

/-- **C45 fails when it grows**: a program that makes an array, then another, and then reads from the first. With a second
array of 255 elements the heap's memory has to be moved. -/
theorem C45_refuted :
    let m (n : UInt8) := Ex.meth [0x1b, 0x8d, 0x01, 0x00, 0x00, 0x01, 0x20, n, 0x00, 0x00, 0x00, 0x8d, 0x01, 0x00, 0x00, 0x01,
      0x26, 0x16, 0x94, 0x2a] (ret := 8)
    (hostExecute .release Ex.floats 9 40 (Ex.tiny [m 200]) (m 200) []).1 = .ok (.number (.i32 0)) ∧
    (hostExecute .release Ex.floats 9 40 (Ex.tiny [m 255]) (m 255) []).1 = .ub := by
  decide +kernel

/-! ## C46 -/

/-- The byte ranges `[a, a + n)` and `[b, b + m)` have nothing in common. -/
def Disjoint' (a n b m : Nat) : Prop := a + n ≤ b ∨ b + m ≤ a

instance (a n b m : Nat) : Decidable (Disjoint' a n b m) := by unfold Disjoint'; infer_instance

/-- **C46 for values of the field's own type.** Storing such a number succeeds. A load of the field afterwards gives it
back, whatever else is on the evaluation stack and wherever in the program the load is. A load of any other field of this or
another object, whose bytes and header are not among the bytes of the field stored to, does the same as before the store.

Missing: values of other types, in particular the 32-bit numbers that IL programs store in narrower fields, and references:
see `C46_refuted`. -/
theorem C46_partial (t : Nat) (f : FieldRec) (tr : TypeRec) (a : Value) (n : Nat) (ht : t < 2 ^ 32)
    (hc : HasAt fr.code ip (0x7d :: leBytes 4 t)) (hf : fr.assembly.resolveField cfg ⟨t⟩ = .ok (some f))
    (ho : v.operands = a :: .object p :: rest) (hp : v.heap.Plain p) (hk : PrimitivesOk v.world)
    (hft : v.world.types[f.fieldType]? = some tr) (ha : a.typeName = some tr.fullName) (hn : (tr.fullName, n) ∈ numericWidths)
    (hfit : p.off + 5 + f.offset + n ≤ v.heap.mem.length) :
    ∃ h', step cfg ops tf fr ip v = (.ok (.next (ip + 5)), { v with operands := rest, heap := h' }) ∧
      (∀ fr' ip' t' r, t' < 2 ^ 32 → HasAt fr'.code ip' (0x7b :: leBytes 4 t') →
        fr'.assembly.resolveField cfg ⟨t'⟩ = .ok (some f) →
        step cfg ops tf fr' ip' { v with operands := .object p :: r, heap := h' } =
          (.ok (.next (ip' + 5)), { v with operands := a :: r, heap := h' })) ∧
      (∀ fr' ip' t' g gt q r, t' < 2 ^ 32 → HasAt fr'.code ip' (0x7b :: leBytes 4 t') →
        fr'.assembly.resolveField cfg ⟨t'⟩ = .ok (some g) → v.world.types[g.fieldType]? = some gt →
        Disjoint' q.off 5 (p.off + 5 + f.offset) n →
        (∀ m, (gt.fullName, m) ∈ numericWidths → Disjoint' (q.off + 5 + g.offset) m (p.off + 5 + f.offset) n) →
        (step cfg ops tf fr' ip' { v with operands := .object q :: r, heap := h' }).1 =
          (step cfg ops tf fr' ip' { v with operands := .object q :: r }).1 ∧
        (step cfg ops tf fr' ip' { v with operands := .object q :: r, heap := h' }).2.operands =
          (step cfg ops tf fr' ip' { v with operands := .object q :: r }).2.operands) := by
  obtain ⟨ps, hps, -⟩ := hk.kinds
  obtain ⟨k, mk, bs, h1, h2, h3, -⟩ := fieldKind_value hk hps ha
  have hkn : k = n := by
    have h4 := fieldKind_width hk hps h1
    revert h4 hn
    generalize tr.fullName = full
    intro hn h4
    have : ∀ x ∈ numericWidths, ∀ y ∈ numericWidths, x.1 = y.1 → x.2 = y.2 := by decide +kernel
    exact this _ h4 _ hn rfl
  obtain ⟨hd, hr, hfl⟩ := hp
  obtain ⟨h', hw⟩ := write_fits (h := v.heap) (p := p) (off := 5 + f.offset) (bs := bs) (read_inv hr).1 (by omega)
  refine ⟨h', stfld_run ht hc hf ho ⟨hd, hr, hfl⟩ h2 hw, ?_, ?_⟩
  · intro fr' ip' t' r ht' hc' hf'
    rw [ldfld_run ht' hc' hf' rfl]
    have hr' : h'.read p 0 5 = .ok hd := by rw [read_write_apart hw (by omega), hr]
    rw [X.bind_ok (getField_ok (v := { v with operands := r, heap := h' }) ⟨hd, hr', hfl⟩ hk hft ha h2 (read_write_same hw))]
    rfl
  · intro fr' ip' t' g gt q r ht' hc' hf' hgt hd1 hd2
    rw [ldfld_run ht' hc' hf' rfl, ldfld_run ht' hc' hf' rfl]
    unfold Disjoint' at hd1 hd2
    have := getField_congr (p := q) (v := { v with operands := r }) (v' := { v with operands := r, heap := h' }) hk rfl hgt
      (read_write_apart hw (by omega)) (fun m hm => read_write_apart hw (by have := hd2 m hm; omega))
    obtain ⟨y, hy⟩ : ∃ y, getField q g { v with operands := r } = (y, { v with operands := r }) := ⟨_, getField_reads g⟩
    obtain ⟨z, hz⟩ : ∃ z, getField q g { v with operands := r, heap := h' } = (z, { v with operands := r, heap := h' }) :=
      ⟨_, getField_reads g⟩
    rw [hy, hz] at this
    rw [X.bind_run, X.bind_run, hy, hz, show z = y from this]
    cases y <;> exact ⟨rfl, rfl⟩

/-- An object of a class with fields `int x` and `long y`: stores to both, then a load of `x`. -/
example :
    let fs : List FieldRec := [⟨"x".toList, 8, 1, false, 0⟩, ⟨"y".toList, 10, 1, false, 4⟩]
    let m := Ex.meth [0x73, 0x02, 0x00, 0x00, 0x06, 0x0a, 0x06, 0x1d, 0x7d, 0x01, 0x00, 0x00, 0x04,
      0x06, 0x21, 0xff, 0xff, 0xff, 0xff, 0xff, 0xff, 0xff, 0xff, 0x7d, 0x02, 0x00, 0x00, 0x04,
      0x06, 0x7b, 0x01, 0x00, 0x00, 0x04, 0x2a] (ret := 8) (locals := 1)
    (hostExecute .debug Ex.floats 9 40 (Ex.tiny [m, Ex.meth [0x2a] (isStatic := false)] fs) m []).1 = .ok (.number (.i32 7)) := by
  decide +kernel

/-- **C46 fails**: in an object with fields `short x` and `short y`, storing 65536 + 1 in `x` changes `y`. Storing a
reference in a field of type `object` panics, and so does loading a field of type `bool`. -/
theorem C46_refuted :
    let shorts : List FieldRec := [⟨"x".toList, 6, 1, false, 0⟩, ⟨"y".toList, 6, 1, false, 2⟩]
    let ctor := Ex.meth [0x2a] (isStatic := false)
    let m := Ex.meth [0x73, 0x02, 0x00, 0x00, 0x06, 0x25, 0x20, 0x01, 0x00, 0x01, 0x00, 0x7d, 0x01, 0x00, 0x00, 0x04,
      0x7b, 0x02, 0x00, 0x00, 0x04, 0x2a] (ret := 6)
    let keep := Ex.meth [0x73, 0x02, 0x00, 0x00, 0x06, 0x25, 0x25, 0x7d, 0x01, 0x00, 0x00, 0x04, 0x2a] (ret := 15)
    let get := Ex.meth [0x73, 0x02, 0x00, 0x00, 0x06, 0x7b, 0x01, 0x00, 0x00, 0x04, 0x2a] (ret := 2)
    (hostExecute .debug Ex.floats 9 40 (Ex.tiny [m, ctor] shorts) m []).1 = .ok (.number (.i16 1)) ∧
    (hostExecute .debug Ex.floats 9 40 (Ex.tiny [keep, ctor] [⟨"o".toList, 15, 1, false, 0⟩]) keep []).1 = .panic ∧
    (hostExecute .debug Ex.floats 9 40 (Ex.tiny [get, ctor] [⟨"b".toList, 2, 1, false, 0⟩]) get []).1 = .panic := by
  decide +kernel

/-! ## C47 -/

/-- **C47, a store inside the array**: it succeeds; the whole rest of the heap, including the array's header with its length
and element type, reads as before; loading the same index gives the stored value and loading another index gives what it
gave before. -/
theorem C47_inside (n : Nat) (x i : BitVec 32) (hn : n < 2 ^ 63) (harr : IntArray v p n)
    (hi : 0 ≤ i.toInt ∧ i.toInt < n) (hc : HasAt fr.code ip [0x9e])
    (ho : v.operands = .i32 x :: .i32 i :: .object p :: rest) :
    ∃ h', step cfg ops tf fr ip v = (.ok (.next (ip + 1)), { v with operands := rest, heap := h' }) ∧
      h'.read p 0 17 = v.heap.read p 0 17 ∧ IntArray { v with heap := h' } p n ∧
      (∀ q off k, Disjoint' (q.off + off) k (p.off + 17 + 4 * i.toNat) 4 → h'.read q off k = v.heap.read q off k) ∧
      ∀ fr' ip' r (j : BitVec 32), HasAt fr'.code ip' [0x94] → 0 ≤ j.toInt ∧ j.toInt < n → ∃ y,
        step cfg ops tf fr' ip' { v with operands := .i32 j :: .object p :: r } =
          (.ok (.next (ip' + 1)), { v with operands := .i32 y :: r }) ∧
        step cfg ops tf fr' ip' { v with operands := .i32 j :: .object p :: r, heap := h' } =
          (.ok (.next (ip' + 1)), { v with operands := .i32 (if j = i then x else y) :: r, heap := h' }) := by
  have hlt := (asIndex_lt hn).2 hi
  have hix : asIndex i = i.toNat := by
    have := asIndex_eq hi.1
    have h2 := BitVec.toInt_eq_toNat_cond i
    have h3 := i.isLt
    split at h2 <;> omega
  obtain ⟨ps, tr, hd, h1, h2, h3, h4, h5, h6, h7⟩ := harr
  have hg := (read_inv h3).1
  obtain ⟨h', hw⟩ := write_fits (h := v.heap) (p := p) (off := 17 + 4 * asIndex i) (bs := leBytes 4 x.toNat) hg
    (by simp; omega)
  have hap : ∀ (q : Ptr) (off k : Nat), Disjoint' (q.off + off) k (p.off + 17 + 4 * asIndex i) 4 →
      h'.read q off k = v.heap.read q off k := by
    intro q off k hd
    exact read_write_apart hw (by unfold Disjoint' at hd; simp; omega)
  have h0 := hap p 0 17 (by unfold Disjoint'; omega)
  have harr' : IntArray { v with heap := h' } p n :=
    ⟨ps, tr, hd, h1, h2, h0.trans h3, h4, h5, h6, by show _ ≤ h'.mem.length; rw [length_write hw]; exact h7⟩
  have harr : IntArray v p n := ⟨ps, tr, hd, h1, h2, h3, h4, h5, h6, h7⟩
  refine ⟨h', ?_, h0, harr', hix ▸ hap, ?_⟩
  · rw [stelem_run hc ho harr, if_pos hlt, X.bind_ok (poke_write (v := { v with operands := rest }) hw)]
    rfl
  · intro fr' ip' r j hc' hj
    have hjlt := (asIndex_lt hn).2 hj
    obtain ⟨bs, hbs⟩ := read_fits (h := v.heap) (p := p) (off := 17 + 4 * asIndex j) (n := 4) hg (by omega)
    refine ⟨BitVec.ofNat 32 (leNat bs), ?_, ?_⟩
    · rw [ldelem_run (v := { v with operands := .i32 j :: .object p :: r }) hc' rfl harr, if_pos hjlt,
        X.bind_ok (peek_read (v := { v with operands := r }) hbs)]
      rfl
    · rw [ldelem_run (v := { v with operands := .i32 j :: .object p :: r, heap := h' }) hc' rfl harr', if_pos hjlt]
      by_cases hji : j = i
      · subst hji
        have := read_write_same hw
        simp only [length_leBytes] at this
        rw [X.bind_ok (peek_read (v := { v with operands := r, heap := h' }) this), if_pos rfl, leNat_leBytes _ _ x.isLt]
        simp only [BitVec.ofNat_toNat, BitVec.setWidth_eq]
        rfl
      · have hne : asIndex j ≠ asIndex i := by
          intro he
          have a := asIndex_eq hi.1
          have b := asIndex_eq hj.1
          exact hji (BitVec.toInt_inj.1 (by omega))
        have := hap p (17 + 4 * asIndex j) 4 (by unfold Disjoint'; omega)
        rw [X.bind_ok (peek_read (v := { v with operands := r, heap := h' }) (this.trans hbs)), if_neg hji]
        rfl

/-- **C47, an index outside the array**, negative ones included: the store and the load both panic, with the heap as it
was. -/
theorem C47_outside (n : Nat) (x i : BitVec 32) (hn : n < 2 ^ 63) (harr : IntArray v p n)
    (hi : ¬ (0 ≤ i.toInt ∧ i.toInt < n)) :
    (HasAt fr.code ip [0x9e] → v.operands = .i32 x :: .i32 i :: .object p :: rest →
      step cfg ops tf fr ip v = (.panic, { v with operands := rest })) ∧
    (HasAt fr.code ip [0x94] → v.operands = .i32 i :: .object p :: rest →
      step cfg ops tf fr ip v = (.panic, { v with operands := rest })) := by
  have hlt : ¬ asIndex i < n := mt (asIndex_lt hn).1 hi
  constructor <;> intro hc ho
  · rw [stelem_run hc ho harr, if_neg hlt]; rfl
  · rw [ldelem_run hc ho harr, if_neg hlt]; rfl

/-- **C47, arrays of other types**: the two instructions never succeed and leave the heap alone. -/
theorem C47_others (i : BitVec 32) (ps : Primitives) (tr : TypeRec) (hd : Bytes) (hps : v.world.primitives = some ps)
    (htr : v.world.types[ps.int]? = some tr) (hh : v.heap.read p 0 17 = .ok hd)
    (ha : leNat (hd.take 1) &&& 2 ≠ 0) (he : leNat ((hd.drop 5).take 4) ≠ tr.id) :
    (∀ x : BitVec 32, HasAt fr.code ip [0x9e] → v.operands = .i32 x :: .i32 i :: .object p :: rest →
      ∃ r, step cfg ops tf fr ip v = (r, { v with operands := rest }) ∧ ∀ a, r ≠ .ok a) ∧
    (HasAt fr.code ip [0x94] → v.operands = .i32 i :: .object p :: rest →
      ∃ r, step cfg ops tf fr ip v = (r, { v with operands := rest }) ∧ ∀ a, r ≠ .ok a) := by
  have hpop : ∀ u : VM, u.heap = v.heap → u.operands = .object p :: rest → popArray u = (.ok p, { u with operands := rest }) := by
    intro u hu ho
    have hr := read_take hh (m := 5) (by omega)
    rw [← hu] at hr
    unfold popArray
    rw [X.bind_ok (pop_cons ho)]
    dsimp only
    unfold objectFlags
    rw [X.bind_run, X.bind_ok (peek_read (v := { u with operands := rest }) hr)]
    simp only [X.pure_run, List.take_take]
    rw [show min 1 5 = 1 from rfl, if_pos ha]
    rfl
  have hsl : ∃ r, intSlice p { v with operands := rest } = (r, { v with operands := rest }) ∧ ∀ a, r ≠ .ok a := by
    unfold intSlice
    rw [X.view_bind_ok (a := ps) (by simp [hps]),
      X.bind_ok (typeId_eq_ok (v := { v with operands := rest }).2 ⟨⟨tr, htr, rfl⟩, rfl⟩),
      X.bind_ok (peek_read (v := { v with operands := rest }) hh)]
    simp only [he, if_false]
    rw [X.bind_run]
    simp only [X.view]
    cases v.world.typeAt (leNat ((hd.drop 1).take 4)) with
    | ok a =>
      dsimp only
      rw [X.bind_run]
      simp only [X.view]
      cases Res.unwrap (v.world.getType "System.Int32[]".toList) with
      | ok b => exact ⟨_, rfl, by simp⟩
      | _ => exact ⟨_, rfl, by simp⟩
    | _ => exact ⟨_, rfl, by simp⟩
  obtain ⟨r, hr, hne⟩ := hsl
  constructor
  · intro x hc ho
    rw [step_one hc (by decide) (op := .Stelem_I4) (by decide)]
    show ∃ r, doStelem (ip + 1) v = _ ∧ _
    unfold doStelem
    rw [X.bind_ok (popInt_ok ho), X.bind_ok (popInt_ok rfl),
      X.bind_ok (hpop { v with operands := .object p :: rest } rfl rfl)]
    unfold setInt
    rw [X.bind_run, X.bind_run]
    dsimp only
    rw [hr]
    cases r with
    | ok a => exact absurd rfl (hne a)
    | _ => exact ⟨_, rfl, by simp⟩
  · intro hc ho
    rw [step_one hc (by decide) (op := .Ldelem_I4) (by decide)]
    show ∃ r, doLdelem (ip + 1) v = _ ∧ _
    unfold doLdelem
    rw [X.bind_ok (popInt_ok ho), X.bind_ok (hpop { v with operands := .object p :: rest } rfl rfl)]
    unfold getInt
    rw [X.bind_run, X.bind_run]
    dsimp only
    rw [hr]
    cases r with
    | ok a => exact absurd rfl (hne a)
    | _ => exact ⟨_, rfl, by simp⟩

/-- **C47, new arrays**: `newarr` of 32-bit integers gives an array of exactly the requested length, as the three theorems
above ask for, with all elements zero, behind everything that was there. -/
theorem C47_new (tok : Nat) (htok : tok < 2 ^ 32) (n : BitVec 32) (ps : Primitives) (tr : TypeRec)
    (hps : v.world.primitives = some ps) (htr : v.world.types[ps.int]? = some tr) (hid : tr.id < 2 ^ 32)
    (hsz : typeSize cfg v.world tf ps.int = .ok 4) (hn : 0 ≤ n.toInt) (hc : HasAt fr.code ip (0x8d :: leBytes 4 tok))
    (hres : fr.assembly.resolveType cfg ⟨tok⟩ = .ok (some ps.int)) (ho : v.operands = .i32 n :: rest)
    (hroom : v.heap.mem.length + (17 + 4 * n.toNat) < 2 ^ 64) (a : Action) (h : step cfg ops tf fr ip v = (.ok a, v')) :
    ∃ p, a = .next (ip + 5) ∧ v'.operands = .object p :: rest ∧ IntArray v' p n.toNat ∧
      v'.heap.read p 17 (4 * n.toNat) = .ok (List.replicate (4 * n.toNat) 0) ∧ p.off = v.heap.mem.length ∧
      v'.heap.mem.take v.heap.mem.length = v.heap.mem := by
  rw [step_one hc (by decide) (op := .Newarr) (by decide)] at h
  change doNewarr cfg tf fr (ip + 1) v = _ at h
  unfold doNewarr at h
  have hc' : HasAt fr.code (ip + 1) (leBytes 4 tok) := HasAt.drop (a := [0x8d]) hc
  rw [X.liftM_bind_ok (hc'.fetch_leBytes (n := 3) htok), X.liftM_bind_ok hres] at h
  simp only [Res.unwrap] at h
  rw [X.liftM_bind_ok rfl, X.bind_ok (popInt_ok ho)] at h
  have hix : asIndex n = n.toNat := by
    have := asIndex_eq hn
    have h2 := BitVec.toInt_eq_toNat_cond n
    omega
  rw [hix] at h
  obtain ⟨p, v1, h1, h2⟩ := X.bind_eq_ok.1 h
  obtain ⟨er, t, tr', e1, e2, e3, e4, e5, e6, e7, -⟩ := allocArray_ok (v := { v with operands := rest }) hsz hroom h1
  obtain ⟨_, v2, h3, h4⟩ := X.bind_eq_ok.1 h2
  cases h3; cases h4
  rw [htr] at e1; cases e1
  have hops : v1.operands = rest := by rw [e4]
  refine ⟨p, rfl, by rw [← hops], ⟨ps, tr, 2 :: leBytes 4 tr'.id ++ leBytes 4 tr.id ++ leBytes 8 n.toNat, ?_, ?_, ?_, ?_, ?_, ?_, ?_⟩,
    ?_, by rw [e7], ?_⟩
  · exact e5.primitives.trans hps
  · obtain ⟨sfx, hs⟩ := e5.types
    show v1.world.types[ps.int]? = _
    rw [← hs, List.getElem?_append_left (List.getElem?_eq_some_iff.1 htr).1]; exact htr
  · show v1.heap.read p 0 17 = _
    rw [read_ok e7 e6 (by simp [arrayImage]; omega), List.drop_zero, arrayImage, List.take_left' (by simp)]
  · show leNat [2] &&& 2 ≠ 0
    decide
  · rw [List.append_assoc, show (2 :: leBytes 4 tr'.id ++ (leBytes 4 tr.id ++ leBytes 8 n.toNat)) =
      (2 :: leBytes 4 tr'.id) ++ (leBytes 4 tr.id ++ leBytes 8 n.toNat) from rfl, List.drop_left' (by simp), List.take_left' (by simp),
      leNat_leBytes _ _ (by simpa using hid)]
  · rw [List.drop_left' (by simp), leNat_leBytes _ _ (by have := n.isLt; omega)]
  · show p.off + 17 + 4 * n.toNat ≤ v1.heap.mem.length
    rw [e6, e7, List.length_append]; simp [arrayImage]; omega
  · show v1.heap.read p 17 _ = _
    rw [read_ok e7 e6 (by simp [arrayImage]; omega), arrayImage, List.drop_left' (by simp), List.take_of_length_le (by simp)]
  · show v1.heap.mem.take _ = _
    rw [e6, List.take_left' rfl]

/-- Arrays as `newarr` makes them: 5 elements, `a[3] = 42; a[1] = 7; a[3]`, and `a[5]`, `a[-1]`. -/
example :
    let m := Ex.meth [0x1b, 0x8d, 0x01, 0x00, 0x00, 0x01, 0x0a, 0x06, 0x19, 0x1f, 0x2a, 0x9e, 0x06, 0x17, 0x1d, 0x9e,
      0x06, 0x19, 0x94, 0x2a] (ret := 8) (locals := 1)
    let o (i : UInt8) := Ex.meth [0x1b, 0x8d, 0x01, 0x00, 0x00, 0x01, i, 0x94, 0x2a] (ret := 8)
    (hostExecute .debug Ex.floats 9 40 (Ex.tiny [m]) m []).1 = .ok (.number (.i32 42)) ∧
    (hostExecute .debug Ex.floats 9 40 (Ex.tiny [o 0x1b]) (o 0x1b) []).1 = .panic ∧
    (hostExecute .debug Ex.floats 9 40 (Ex.tiny [o 0x15]) (o 0x15) []).1 = .panic ∧
    (hostExecute .debug Ex.floats 9 40 (Ex.tiny [o 0x1a]) (o 0x1a) []).1 = .ok (.number (.i32 0)) := by
  decide +kernel

/-- An array of `object`. -/
example :
    let m := Ex.meth [0x1b, 0x8d, 0x02, 0x00, 0x00, 0x01, 0x17, 0x94, 0x2a] (ret := 8)
    ∀ r, (hostExecute .debug Ex.floats 9 40 (Ex.tiny [m]) m []).1 ≠ .ok r := by
  have : (hostExecute .debug Ex.floats 9 40
      (Ex.tiny [Ex.meth [0x1b, 0x8d, 0x02, 0x00, 0x00, 0x01, 0x17, 0x94, 0x2a] (ret := 8)])
      (Ex.meth [0x1b, 0x8d, 0x02, 0x00, 0x00, 0x01, 0x17, 0x94, 0x2a] (ret := 8)) []).1 = .panic := by decide +kernel
  intro m r h
  rw [this] at h
  cases h

end Clr
