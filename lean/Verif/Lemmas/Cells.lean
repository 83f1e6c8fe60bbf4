import Verif.Spec.Objective
import Verif.Lemmas.Abstract
/-! # The heap of the interpreter represents the store of the abstract machine -/

namespace Clr.Obj

variable {cfg : Cfg} {ops : FloatOps} {tf : Nat} {w : World} {v v' : VM} {bs : List Block}

/-! ## Allocation when there is room -/

theorem bump_room {h : Heap} (hc : h.cap = 1024) {size : Nat} (hs : h.mem.length + size ≤ 1024) :
    h.bump cfg size = .ok (⟨h.gen, h.mem.length⟩, { h with mem := h.mem ++ List.replicate size 0 }) := by
  have hadd : uadd cfg 64 h.mem.length size = .ok (h.mem.length + size) := uadd_ok (by omega)
  have h1 : h.ensureSize cfg size = .ok h := by
    unfold Heap.ensureSize
    rw [hadd]
    simp only [Res.ok_bind, Res.pure_eq]
    rw [if_neg (by omega)]
  have h2 : h.resize (h.mem.length + size) = .ok { h with mem := h.mem ++ List.replicate size 0 } := by
    unfold Heap.resize
    split
    · unfold Heap.reserve
      rw [if_pos (by omega)]
      simp only [Res.ok_bind, Res.pure_eq]
      rw [Nat.add_sub_cancel_left]
    · have : size = 0 := by omega
      subst this
      simp
  unfold Heap.bump
  rw [h1]
  simp only [Res.ok_bind, hadd, h2, Res.pure_eq]

theorem onHeap_bump (hc : v.heap.cap = 1024) {size : Nat} (hs : v.heap.mem.length + size ≤ 1024) :
    onHeap (·.bump cfg size) v = (.ok ⟨v.heap.gen, v.heap.mem.length⟩,
      { v with heap := { v.heap with mem := v.heap.mem ++ List.replicate size 0 } }) := by
  unfold onHeap X.update
  dsimp only
  rw [bump_room hc hs]
  rfl

theorem allocObject_room (hc : v.heap.cap = 1024) (he : Evolves w v.world) {t s : Nat} (hs : typeSize cfg w tf t = .ok s)
    (hroom : v.heap.mem.length + (5 + s) ≤ 1024) : ∃ id, allocObject cfg tf t v =
      (.ok ⟨v.heap.gen, v.heap.mem.length⟩, { v with heap := { v.heap with
        mem := v.heap.mem ++ (Block.obj t id (List.replicate s 0)).bytes } }) := by
  obtain ⟨tr, htr⟩ := typeSize_type hs
  have hs' := typeSize_evolves he hs
  refine ⟨tr.id, ?_⟩
  unfold allocObject
  rw [X.view_bind_ok hs', uadd_ok (by omega), X.liftM_bind_ok rfl, X.bind_ok (onHeap_bump hc hroom)]
  rw [X.bind_ok (typeId_run (tr := tr) (by exact he.typeAt htr))]
  rw [X.bind_ok (poke_mid (pre := v.heap.mem) (a := [0]) (m := List.replicate 4 0) (b := List.replicate s 0) (by rfl)
    (by dsimp only; rw [show 5 + s = 1 + (4 + s) by omega, zeros_split, zeros_split]; rfl) (by rfl) (by simp))]
  rfl

theorem allocString_room (hc : v.heap.cap = 1024) (he : Evolves w v.world) {t : Nat} {tr : TypeRec} {us : List Nat}
    (ht : w.getType "System.String".toList = some t) (htr : w.types[t]? = some tr)
    (hroom : v.heap.mem.length + (13 + 2 * us.length) ≤ 1024) : ∃ id, allocString cfg us v =
      (.ok ⟨v.heap.gen, v.heap.mem.length⟩, { v with heap := { v.heap with
        mem := v.heap.mem ++ (Block.str id us).bytes } }) := by
  refine ⟨tr.id, ?_⟩
  unfold allocString
  rw [umul_ok (by omega), X.liftM_bind_ok rfl, uadd_ok (by omega), X.liftM_bind_ok rfl, X.bind_ok (onHeap_bump hc hroom)]
  rw [X.bind_ok (orFlags_ok (pre := v.heap.mem) (x := 0)
    (b := List.replicate 4 0 ++ (List.replicate 8 0 ++ List.replicate (2 * us.length) 0)) (by rfl) (by
      dsimp only
      rw [show 13 + 2 * us.length = 1 + (4 + (8 + 2 * us.length)) by omega, zeros_split, zeros_split, zeros_split]; rfl))]
  rw [X.view_bind_ok (a := t) (by dsimp only; rw [he.kept _ _ ht]; rfl)]
  rw [X.bind_ok (typeId_run (tr := tr) (by exact he.typeAt htr))]
  rw [X.bind_ok (poke_mid (pre := v.heap.mem) (a := [4]) (m := List.replicate 4 0)
    (b := List.replicate 8 0 ++ List.replicate (2 * us.length) 0) (by rfl) (by rfl) (by rfl) (by simp))]
  rw [X.bind_ok (poke_mid (pre := v.heap.mem) (a := 4 :: leBytes 4 tr.id) (m := List.replicate 8 0)
    (b := List.replicate (2 * us.length) 0) (by rfl) (by simp) (by simp) (by simp))]
  rw [X.bind_ok (poke_mid (pre := v.heap.mem) (a := 4 :: leBytes 4 tr.id ++ leBytes 8 us.length)
    (m := List.replicate (2 * us.length) 0) (b := []) (by rfl) (by simp) (by simp) (by simp [unitBytes_eq, length_textBytes]))]
  simp only [Block.bytes, stringImage, unitBytes_eq, List.append_nil]
  rfl

/-- The type of integer arrays can be had: it is there, or there is a number left for it. -/
def ArraysReady (w : World) : Prop :=
  ∀ ps er, w.primitives = some ps → w.types[ps.int]? = some er →
    match w.getType (er.fullName ++ "[]".toList) with
    | some t => ∃ r, w.types[t]? = some r
    | none => w.nextTypeId + 1 < 2 ^ 32

theorem arrayType_ready (hr : ArraysReady v.world) {ps : Primitives} {er : TypeRec} (hps : v.world.primitives = some ps)
    (her : v.world.types[ps.int]? = some er) : ∃ t r w', X.registry (arrayType cfg ps.int) v = (.ok t, { v with world := w' }) ∧
      Evolves v.world w' ∧ w'.output = v.world.output ∧ w'.types[t]? = some r ∧ ArraysReady w' := by
  have hev : Evolves v.world (X.registry (arrayType cfg ps.int) v).2.world :=
    ((Keeps.arrayType (L := 0) (H := False) (P := False) cfg ps.int).run v (Nat.zero_le _)).world
  have hx := hr ps er hps her
  cases hg : v.world.getType (er.fullName ++ "[]".toList) with
  | some t =>
    rw [hg] at hx
    obtain ⟨r, hrt⟩ := hx
    have hrun : arrayType cfg ps.int v.world = (.ok t, v.world) := by
      unfold arrayType
      rw [M.bind_run, M.view_run]
      simp only [World.typeAt, her, Res.unwrap]
      rw [M.get_bind, hg]
      rfl
    exact ⟨t, r, v.world, by simp only [X.registry, hrun], .refl _, rfl, hrt, hr⟩
  | none =>
    rw [hg] at hx
    have hx : v.world.nextTypeId + 1 < 2 ^ 32 := hx
    have hrun : ∃ rec : TypeRec, rec.fullName = er.fullName ++ "[]".toList ∧ arrayType cfg ps.int v.world =
        (.ok v.world.types.length, ({ v.world with nextTypeId := v.world.nextTypeId + 1 } : World).addType rec) := by
      refine ⟨{ id := v.world.nextTypeId, name := er.name ++ "[]".toList, nspace := er.nspace, fullName := er.fullName ++ "[]".toList, assembly := er.assembly, isAbstract := false, kind := some .array, base := v.world.getType "System.Array".toList }, rfl, ?_⟩
      unfold arrayType
      rw [M.bind_run, M.view_run]
      simp only [World.typeAt, her, Res.unwrap]
      rw [M.get_bind, hg]
      dsimp only
      unfold nextTypeId
      simp only [M.bind_run, M.view_run, M.liftM_run]
      rw [uadd_ok hx]
      rfl
    obtain ⟨rec, hn, hrun⟩ := hrun
    refine ⟨v.world.types.length, rec, ({ v.world with nextTypeId := v.world.nextTypeId + 1 } : World).addType rec,
      by simp only [X.registry, hrun], ?_, rfl, ?_, ?_⟩
    · simpa only [X.registry, hrun] using hev
    · simp [World.addType]
    · intro ps' er' h1 h2
      have h1 : v.world.primitives = some ps' := h1
      rw [hps] at h1; cases h1
      have h2 : (v.world.types ++ [rec])[ps.int]? = some er' := h2
      rw [List.getElem?_append_left (List.getElem?_eq_some_iff.1 her).1, her] at h2
      cases h2
      have : (({ v.world with nextTypeId := v.world.nextTypeId + 1 } : World).addType rec).getType
          (er.fullName ++ "[]".toList) = some v.world.types.length := by
        simp only [World.getType, World.addType, hn, List.lookup_cons, BEq.rfl]
      rw [this]
      exact ⟨rec, by simp [World.addType]⟩

theorem allocArray_room (hc : v.heap.cap = 1024) (he : Evolves w v.world) (hr : ArraysReady v.world) {ps : Primitives}
    {tr : TypeRec} {n : Nat} (hps : w.primitives = some ps) (htr : w.types[ps.int]? = some tr)
    (hs : typeSize cfg w tf ps.int = .ok 4) (hroom : v.heap.mem.length + (17 + 4 * n) ≤ 1024) :
    ∃ id w', allocArray cfg tf ps.int n v = (.ok ⟨v.heap.gen, v.heap.mem.length⟩, { v with
        heap := { v.heap with mem := v.heap.mem ++ (Block.ints id tr.id n (List.replicate (4 * n) 0)).bytes }, world := w' }) ∧
      Evolves v.world w' ∧ w'.output = v.world.output ∧ ArraysReady w' := by
  obtain ⟨t, r, w', h1, h2, h3, h4, h5⟩ := arrayType_ready (cfg := cfg) hr (by rw [he.primitives]; exact hps) (he.typeAt htr)
  refine ⟨r.id, w', ?_, h2, h3, h5⟩
  unfold allocArray
  rw [X.view_bind_ok (typeSize_evolves he hs), umul_ok (by omega), X.liftM_bind_ok rfl, uadd_ok (by omega),
    X.liftM_bind_ok rfl, X.bind_ok (onHeap_bump hc hroom)]
  rw [X.bind_ok (orFlags_ok (pre := v.heap.mem) (x := 0)
    (b := List.replicate 4 0 ++ (List.replicate 4 0 ++ (List.replicate 8 0 ++ List.replicate (4 * n) 0))) (by rfl) (by
      dsimp only
      rw [show 17 + 4 * n = 1 + (4 + (4 + (8 + 4 * n))) by omega, zeros_split, zeros_split, zeros_split, zeros_split]
      rfl))]
  have hreg : ∀ hp : Heap, X.registry (arrayType cfg ps.int) { v with heap := hp } = (.ok t, { v with heap := hp, world := w' }) := by
    intro hp
    have a1 := congrArg Prod.fst h1
    have a2 := congrArg (·.2.world) h1
    simp only [X.registry] at a1 a2 ⊢
    rw [a1, a2]
  rw [X.bind_ok (hreg _), X.bind_ok (typeId_run (tr := r) (by exact h4))]
  rw [X.bind_ok (poke_mid (pre := v.heap.mem) (a := [2]) (m := List.replicate 4 0)
    (b := List.replicate 4 0 ++ (List.replicate 8 0 ++ List.replicate (4 * n) 0)) (by rfl) (by rfl) (by rfl) (by simp))]
  rw [X.bind_ok (typeId_run (tr := tr) (by exact (he.trans h2).typeAt htr))]
  rw [X.bind_ok (poke_mid (pre := v.heap.mem) (a := 2 :: leBytes 4 r.id) (m := List.replicate 4 0)
    (b := List.replicate 8 0 ++ List.replicate (4 * n) 0) (by rfl) (by simp) (by simp) (by simp))]
  rw [X.bind_ok (poke_mid (pre := v.heap.mem) (a := 2 :: leBytes 4 r.id ++ leBytes 4 tr.id) (m := List.replicate 8 0)
    (b := List.replicate (4 * n) 0) (by rfl) (by simp) (by simp) (by simp))]
  simp only [Block.bytes, List.append_assoc]
  rfl

/-! ## Addresses -/

/-- The address of an object. -/
def addr (cells : List Cell) (o : Nat) : Nat := ((cells.map Cell.cost).take o).sum

/-- A value of the interpreter represents a value of the machine. -/
def Rep (cells : List Cell) (x : Value) : Val → Prop
  | .num n => x = n.value
  | .ref o => o < cells.length ∧ x = .object ⟨0, addr cells o⟩

/-- The sizes of the objects there were have not changed. -/
def Grew (cells cells' : List Cell) : Prop := cells.map Cell.cost <+: cells'.map Cell.cost

theorem Grew.refl (cells : List Cell) : Grew cells cells := List.prefix_refl _

theorem Grew.trans {a b c : List Cell} (h : Grew a b) (h' : Grew b c) : Grew a c := List.IsPrefix.trans h h'

theorem Grew.add (cells l : List Cell) : Grew cells (cells ++ l) := by
  unfold Grew; rw [List.map_append]; exact List.prefix_append ..

theorem Grew.set {cells : List Cell} {o : Nat} {c c' : Cell} (h : cells[o]? = some c) (hc : c'.cost = c.cost) :
    (cells.set o c').map Cell.cost = cells.map Cell.cost := by
  obtain ⟨hlt, he⟩ := List.getElem?_eq_some_iff.1 h
  rw [List.map_set, hc, ← he]
  have : (cells.map Cell.cost).set o ((cells.map Cell.cost)[o]'(by simpa using hlt)) = cells.map Cell.cost := List.set_getElem_self _
  rwa [List.getElem_map] at this

theorem Grew.put {cells : List Cell} {o : Nat} {c c' : Cell} (h : cells[o]? = some c) (hc : c'.cost = c.cost) :
    Grew cells (cells.set o c') := by
  unfold Grew; rw [Grew.set h hc]; exact List.prefix_refl _

theorem Grew.length {a b : List Cell} (h : Grew a b) : a.length ≤ b.length := by
  have := h.length_le
  simpa using this

theorem Grew.addr {a b : List Cell} (h : Grew a b) {o : Nat} (ho : o ≤ a.length) : addr b o = addr a o := by
  obtain ⟨t, ht⟩ := h
  unfold Obj.addr
  rw [← ht, List.take_append_of_le_length (by simpa using ho)]

theorem Rep.grew {a b : List Cell} (h : Grew a b) {x : Value} {y : Val} (hr : Rep a x y) : Rep b x y := by
  cases y with
  | num n => exact hr
  | ref o => exact ⟨Nat.lt_of_lt_of_le hr.1 h.length, by rw [h.addr (Nat.le_of_lt hr.1)]; exact hr.2⟩

theorem Rep.num {cells : List Cell} {x : Value} {n : Num} (h : Rep cells x (.num n)) : x = n.value := h

theorem Rep.int {cells : List Cell} {x : Value} {y : BitVec 32} (h : Rep cells x (.int y)) : x = .i32 y := h

theorem Rep.ref {cells : List Cell} {x : Value} {o : Nat} (h : Rep cells x (.ref o)) :
    o < cells.length ∧ x = .object ⟨0, Obj.addr cells o⟩ := h

theorem cost_pos (c : Cell) : 0 < c.cost := by cases c <;> simp [Cell.cost]; all_goals omega

theorem addr_succ {cells : List Cell} {o : Nat} {c : Cell} (h : cells[o]? = some c) : addr cells (o + 1) = addr cells o + c.cost := by
  unfold addr
  rw [List.take_add_one, List.getElem?_map, h]
  simp

theorem addr_lt {cells : List Cell} {a b : Nat} (hab : a < b) (hb : b ≤ cells.length) : addr cells a < addr cells b := by
  induction b with
  | zero => omega
  | succ b ih =>
    have hs := addr_succ (cells := cells) (o := b) (List.getElem?_eq_getElem (by omega))
    have hp := cost_pos (cells[b]'(by omega))
    rcases Nat.lt_or_ge a b with h | h
    · have := ih h (by omega); omega
    · obtain rfl : a = b := by omega
      omega

theorem addr_inj {cells : List Cell} {a b : Nat} (ha : a < cells.length) (hb : b < cells.length)
    (h : addr cells a = addr cells b) : a = b := by
  rcases Nat.lt_trichotomy a b with hx | hx | hx
  · have := addr_lt hx (Nat.le_of_lt hb); omega
  · exact hx
  · have := addr_lt hx (Nat.le_of_lt ha); omega

/-! ## Objects -/

/-- A number in memory. -/
def Num.bytes : Num → Bytes
  | .int x | .single x => leBytes 4 x.toNat
  | .long x | .double x => leBytes 8 x.toNat

theorem Num.length_bytes (n : Num) : n.bytes.length = n.kind.width := by cases n <;> simp [Num.bytes, Num.kind, Kind.width]

theorem Num.valueBytes (n : Num) : valueBytes n.value = .ok n.bytes := by cases n <;> rfl

theorem Num.typeName (n : Num) : n.value.typeName = some n.kind.typeName := by cases n <;> rfl

theorem Kind.kind_zero (k : Kind) : k.zero.kind = k := by cases k <;> rfl

theorem Kind.bytes_zero (k : Kind) : k.zero.bytes = List.replicate k.width 0 := by cases k <;> decide

theorem Kind.width_pos (k : Kind) : 0 < k.width := by cases k <;> decide

/-- The fields lie inside the instances and apart from each other. -/
def Class.Fits (offs : Nat → Nat) (cls : Class) : Prop :=
  (∀ f ∈ cls.fields, offs f.1 + f.2.width ≤ cls.size) ∧
  ∀ f ∈ cls.fields, ∀ g ∈ cls.fields, f ≠ g → offs f.1 + f.2.width ≤ offs g.1 ∨ offs g.1 + g.2.width ≤ offs f.1

/-- The elements of an array in memory. -/
def words (xs : List (BitVec 32)) : Bytes := xs.flatMap fun x => leBytes 4 x.toNat

/-- A block of memory represents an object; `offs` are the offsets of fields. -/
def CellIs (offs : Nat → Nat) : Block → Cell → Prop
  | .str _ us, .str text => us = text.flatMap utf16
  | .ints _ _ n data, .ints xs => n = xs.length ∧ data = words xs
  | .obj _ _ data, .inst cls val => data.length = cls.size ∧ cls.Fits offs ∧
      ∀ f ∈ cls.fields, (val f).kind = f.2 ∧ (data.drop (offs f.1)).take f.2.width = (val f).bytes
  | _, _ => False

theorem length_words (xs : List (BitVec 32)) : (words xs).length = 4 * xs.length := by
  induction xs with
  | nil => rfl
  | cons x xs ih => simp [words] at ih ⊢; omega

theorem words_zero (n : Nat) : words (List.replicate n 0) = List.replicate (4 * n) 0 := by
  induction n with
  | zero => rfl
  | succ n ih =>
    rw [List.replicate_succ, show 4 * (n + 1) = 4 + 4 * n by omega, zeros_split, ← ih]
    rfl

theorem words_get {xs : List (BitVec 32)} {i : Nat} {x : BitVec 32} (h : xs[i]? = some x) :
    ((words xs).drop (4 * i)).take 4 = leBytes 4 x.toNat := by
  induction xs generalizing i with
  | nil => simp at h
  | cons y xs ih =>
    have hc : words (y :: xs) = leBytes 4 y.toNat ++ words xs := rfl
    cases i with
    | zero =>
      simp only [List.getElem?_cons_zero, Option.some.injEq] at h
      subst h
      rw [hc, Nat.mul_zero, List.drop_zero, List.take_left' (by simp)]
    | succ i =>
      rw [hc, show 4 * (i + 1) = (leBytes 4 y.toNat).length + 4 * i by simp; omega, List.drop_length_add_append]
      exact ih h

theorem words_set {xs : List (BitVec 32)} {i : Nat} (hi : i < xs.length) (x : BitVec 32) :
    words (xs.set i x) = splice (words xs) (4 * i) (leBytes 4 x.toNat) := by
  induction xs generalizing i with
  | nil => simp at hi
  | cons y xs ih =>
    have hc : ∀ z zs, words (z :: zs) = leBytes 4 z.toNat ++ words zs := fun _ _ => rfl
    cases i with
    | zero =>
      rw [List.set_cons_zero, hc, hc]
      simp only [splice, Nat.mul_zero, List.take_zero, List.nil_append, Nat.zero_add]
      rw [List.drop_left' (by simp)]
    | succ i =>
      rw [List.set_cons_succ, hc, hc, ih (by simpa using hi)]
      simp only [splice]
      rw [show 4 * (i + 1) = (leBytes 4 y.toNat).length + 4 * i by simp; omega, List.take_length_add_append, Nat.add_assoc,
        List.drop_length_add_append]
      simp

theorem CellIs.size {offs : Nat → Nat} {b : Block} {c : Cell} (h : CellIs offs b c) : b.size = c.cost := by
  cases b <;> cases c <;> simp only [CellIs] at h
  · subst h; simp [Block.size, Block.bytes, Cell.cost, stringImage, length_textBytes]; omega
  · obtain ⟨rfl, rfl⟩ := h; simp [Block.size, Block.bytes, Cell.cost, length_words]; omega
  · simp [Block.size, Block.bytes, Cell.cost, h.1]; omega

theorem splice_same {data m : Bytes} {off : Nat} (h : off + m.length ≤ data.length) :
    ((splice data off m).drop off).take m.length = m := by
  unfold splice
  rw [List.append_assoc, List.drop_left' (by simp; omega), List.take_left]

theorem splice_apart {data m : Bytes} {off off' n : Nat} (h : off + m.length ≤ data.length)
    (ha : off' + n ≤ off ∨ off + m.length ≤ off') : ((splice data off m).drop off').take n = (data.drop off').take n := by
  apply List.ext_getElem?
  intro k
  simp only [List.getElem?_take, List.getElem?_drop]
  split
  · unfold splice
    rw [List.append_assoc]
    rcases ha with ha | ha
    · rw [List.getElem?_append_left (by simp; omega), List.getElem?_take, if_pos (by omega)]
    · rw [List.getElem?_append_right (by simp; omega), List.getElem?_append_right (by simp; omega), List.getElem?_drop]
      congr 1
      simp; omega
  · rfl

/-- Writing into a block, exactly. -/
theorem heap_put (hh : HeapOk cfg tf w v.heap bs) {o : Nat} {b b' : Block} {hd data m : Bytes} {off : Nat} {p : Ptr}
    (hb : bs[o]? = some b) (hp : p = ⟨0, ((bs.map Block.size).take o).sum⟩) (h1 : b.bytes = hd ++ data)
    (h2 : b'.bytes = hd ++ splice data off m) (hl : off + m.length ≤ data.length) (hok : b'.Ok cfg tf w) :
    ∃ h', v.heap.write p (hd.length + off) m = .ok h' ∧ HeapOk cfg tf w h' (bs.set o b') := by
  obtain ⟨hi, hbe⟩ := List.getElem?_eq_some_iff.1 hb
  have hcut : ∀ c, bs.set o c = bs.take o ++ c :: bs.drop (o + 1) := fun c =>
    List.set_eq_take_append_cons_drop.trans (by rw [if_pos hi])
  have hself : bs = bs.take o ++ b :: bs.drop (o + 1) := by
    rw [← hcut b, ← hbe]; exact (List.set_getElem_self hi).symm
  have hm : v.heap.mem = (bs.take o).flatMap Block.bytes ++ (b.bytes ++ (bs.drop (o + 1)).flatMap Block.bytes) := by
    rw [hh.mem, congrArg (List.flatMap Block.bytes) hself]; simp
  have hp' : p = ⟨v.heap.gen, ((bs.take o).flatMap Block.bytes).length⟩ := by
    rw [hp, hh.gen, length_flatMap, List.map_take]
  refine ⟨_, write_ok hp' hm (by rw [h1]; simp; omega), hh.gen, hh.cap, ?_, ?_, ?_⟩
  · have := hh.fits
    rw [hm] at this
    simp only [List.length_append] at this ⊢
    rw [length_splice (by rw [h1]; simp; omega)]
    simpa using this
  · dsimp only
    rw [hcut b', h1, splice_in (by omega) (by omega), Nat.add_sub_cancel_left]
    simp [h2]
  · intro c hc
    rcases List.mem_or_eq_of_mem_set hc with h | rfl
    · exact hh.ok c h
    · exact hok

/-! ## The store -/

/-- The heap holds the objects of the store, and the text written is its output. -/
structure StoreIs (cfg : Cfg) (tf : Nat) (w : World) (offs : Nat → Nat) (v : VM) (s : Store) : Prop where
  blocks : ∃ bs, HeapOk cfg tf w v.heap bs ∧ All2 (CellIs offs) bs s.cells
  world : Evolves w v.world
  output : v.world.output = w.output ++ s.output
  arrays : ArraysReady v.world

theorem sizes_costs {offs : Nat → Nat} {cells : List Cell} (h : All2 (CellIs offs) bs cells) :
    bs.map Block.size = cells.map Cell.cost := by
  induction h with
  | nil => rfl
  | cons h _ ih => rw [List.map_cons, List.map_cons, ih, h.size]

theorem _root_.Clr.All2.set {α β : Type} {R : α → β → Prop} {as : List α} {bs : List β} (h : All2 R as bs) {a : α} {b : β} (hab : R a b)
    (i : Nat) : All2 R (as.set i a) (bs.set i b) := by
  induction h generalizing i with
  | nil => exact .nil
  | cons h1 h2 ih =>
    cases i with
    | zero => exact .cons hab h2
    | succ i => exact .cons h1 (ih i)

theorem StoreIs.length {offs : Nat → Nat} {s : Store} (h : StoreIs cfg tf w offs v s) : v.heap.mem.length = s.cost := by
  obtain ⟨bs, h1, h2⟩ := h.blocks
  rw [h1.mem, length_flatMap, sizes_costs h2]
  rfl

theorem addr_end (cells : List Cell) : addr cells cells.length = (cells.map Cell.cost).sum := by
  unfold addr
  rw [List.take_of_length_le (by simp)]

theorem StoreIs.cap {offs : Nat → Nat} {s : Store} (h : StoreIs cfg tf w offs v s) : v.heap.cap = 1024 ∧ v.heap.gen = 0 := by
  obtain ⟨bs, h1, -⟩ := h.blocks
  exact ⟨h1.cap, h1.gen⟩

theorem cost_add (s : Store) (c : Cell) : (s.add c).cost = s.cost + c.cost := by simp [Store.cost, Store.add]

/-- A new object. -/
theorem StoreIs.add {offs : Nat → Nat} {s : Store} (h : StoreIs cfg tf w offs v s) {b : Block} {c : Cell}
    (hb : CellIs offs b c) (hok : b.Ok cfg tf w) (hroom : (s.add c).cost ≤ 1024) {hp : Heap}
    (hhp : hp = { v.heap with mem := v.heap.mem ++ b.bytes }) {w' : World} (he : Evolves v.world w')
    (ho : w'.output = v.world.output) (ha : ArraysReady w') {v' : VM} (e1 : v'.heap = hp) (e2 : v'.world = w') :
    StoreIs cfg tf w offs v' (s.add c) := by
  have hl := h.length
  obtain ⟨bs, h1, h2⟩ := h.blocks
  rw [cost_add, ← hb.size] at hroom
  refine ⟨⟨bs ++ [b], ?_, h2.append (.cons hb .nil)⟩, by rw [e2]; exact h.world.trans he, by rw [e2, ho]; exact h.output, by rw [e2]; exact ha⟩
  rw [e1, hhp]
  exact h1.append rfl (by rw [hl]; exact hroom) hok

/-- The new reference. -/
theorem StoreIs.new {offs : Nat → Nat} {s : Store} (h : StoreIs cfg tf w offs v s) (c : Cell) :
    Rep (s.add c).cells (.object ⟨v.heap.gen, v.heap.mem.length⟩) (.ref s.cells.length) := by
  refine ⟨by simp [Store.add], ?_⟩
  rw [h.cap.2, h.length, show (s.add c).cells = s.cells ++ [c] from rfl, (Grew.add s.cells [c]).addr (Nat.le_refl _), addr_end]
  rfl

/-- An object in the heap. -/
theorem StoreIs.get {offs : Nat → Nat} {s : Store} (h : StoreIs cfg tf w offs v s) {o : Nat} {c : Cell}
    (hc : s.cells[o]? = some c) : ∃ bs b, HeapOk cfg tf w v.heap bs ∧ All2 (CellIs offs) bs s.cells ∧ bs[o]? = some b ∧
      CellIs offs b c ∧ addr s.cells o = ((bs.map Block.size).take o).sum ∧ At bs (addr s.cells o) b := by
  obtain ⟨bs, h1, h2⟩ := h.blocks
  obtain ⟨b, h3, h4⟩ := h2.get hc
  have h5 : addr s.cells o = ((bs.map Block.size).take o).sum := by rw [sizes_costs h2]; rfl
  exact ⟨bs, b, h1, h2, h3, h4, h5, o, h3, h5⟩

/-- The heap changed by a write. -/
theorem StoreIs.put {offs : Nat → Nat} {s : Store} (h : StoreIs cfg tf w offs v s) {o : Nat} {c' : Cell} {b' : Block}
    {hp : Heap} (h2 : All2 (CellIs offs) bs s.cells) (hh : HeapOk cfg tf w hp (bs.set o b')) (hb : CellIs offs b' c') {v' : VM}
    (e1 : v'.heap = hp) (e2 : v'.world = v.world) : StoreIs cfg tf w offs v' (s.put o c') :=
  ⟨⟨bs.set o b', by rw [e1]; exact hh, h2.set hb o⟩, by rw [e2]; exact h.world, by rw [e2]; exact h.output, by rw [e2]; exact h.arrays⟩

theorem StoreIs.same {offs : Nat → Nat} {s : Store} (h : StoreIs cfg tf w offs v s) (e1 : v'.heap = v.heap)
    (e2 : v'.world = v.world) : StoreIs cfg tf w offs v' s :=
  ⟨by rw [e1]; exact h.blocks, by rw [e2]; exact h.world, by rw [e2]; exact h.output, by rw [e2]; exact h.arrays⟩

end Clr.Obj
