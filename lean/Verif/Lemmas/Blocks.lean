import Verif.Spec.Typing
import Verif.Lemmas.Grows
import Verif.Lemmas.Access
import Verif.Lemmas.Sizes
import Verif.Lemmas.Output
/-! # The heap as a sequence of objects, and the types of values (for C73) -/

namespace Clr

variable {cfg : Cfg} {tf : Nat} {w : World} {v v' : VM}

namespace All2
variable {α β : Type} {R : α → β → Prop}

theorem length {as : List α} {bs : List β} (h : All2 R as bs) : as.length = bs.length := by
  induction h with
  | nil => rfl
  | cons _ _ ih => simp [ih]

theorem imp {R' : α → β → Prop} (hR : ∀ a b, R a b → R' a b) {as : List α} {bs : List β} (h : All2 R as bs) :
    All2 R' as bs := by
  induction h with
  | nil => exact .nil
  | cons h _ ih => exact .cons (hR _ _ h) ih

theorem append {as as' : List α} {bs bs' : List β} (h : All2 R as bs) (h' : All2 R as' bs') :
    All2 R (as ++ as') (bs ++ bs') := by
  induction h with
  | nil => exact h'
  | cons h _ ih => exact .cons h ih

theorem split {as : List α} {bs bs' : List β} (h : All2 R as (bs ++ bs')) :
    ∃ l l', as = l ++ l' ∧ All2 R l bs ∧ All2 R l' bs' := by
  induction bs generalizing as with
  | nil => exact ⟨[], as, rfl, .nil, h⟩
  | cons b bs ih =>
    cases h with
    | cons h1 h2 =>
      obtain ⟨l, l', rfl, h3, h4⟩ := ih h2
      exact ⟨_ :: l, l', rfl, .cons h1 h3, h4⟩

theorem reverse {as : List α} {bs : List β} (h : All2 R as bs) : All2 R as.reverse bs.reverse := by
  induction h with
  | nil => exact .nil
  | cons h _ ih =>
    rw [List.reverse_cons, List.reverse_cons]
    exact ih.append (.cons h .nil)

theorem get {as : List α} {bs : List β} (h : All2 R as bs) {i : Nat} {b : β} (hb : bs[i]? = some b) :
    ∃ a, as[i]? = some a ∧ R a b := by
  induction h generalizing i with
  | nil => simp at hb
  | cons h _ ih =>
    cases i with
    | zero => simp only [List.getElem?_cons_zero, Option.some.injEq] at hb; subst hb; exact ⟨_, rfl, h⟩
    | succ i => exact ih hb

theorem get' {as : List α} {bs : List β} (h : All2 R as bs) {i : Nat} {a : α} (ha : as[i]? = some a) :
    ∃ b, bs[i]? = some b ∧ R a b := by
  induction h generalizing i with
  | nil => simp at ha
  | cons h _ ih =>
    cases i with
    | zero => simp only [List.getElem?_cons_zero, Option.some.injEq] at ha; subst ha; exact ⟨_, rfl, h⟩
    | succ i => exact ih ha

theorem map {γ : Type} {R' : α → γ → Prop} {as : List α} {bs : List β} {cs : List γ} (h : All2 R as bs)
    {Q : β → γ → Prop} (h' : All2 Q bs cs) (hR : ∀ a b c, R a b → Q b c → R' a c) : All2 R' as cs := by
  induction h generalizing cs with
  | nil => cases h'; exact .nil
  | cons h _ ih => cases h' with | cons h1 h2 => exact .cons (hR _ _ _ h h1) (ih h2)

end All2

/-- The class `c` is `d` or derives from it. -/
inductive Derives (w : World) : Nat → Nat → Prop
  | refl {c : Nat} : Derives w c c
  | base {c b d : Nat} {r : TypeRec} : w.types[c]? = some r → r.base = some b → Derives w b d → Derives w c d

theorem Derives.trans {a b c : Nat} (h : Derives w a b) (k : Derives w b c) : Derives w a c := by
  induction h with
  | refl => exact k
  | base h1 h2 _ ih => exact .base h1 h2 (ih k)

/-- An object in the heap: a string, an array of integers or an object with fields. -/
inductive Block where
  | str (id : Nat) (us : List Nat)
  | ints (id elem n : Nat) (data : Bytes)
  | obj (t id : Nat) (data : Bytes)

/-- Its bytes. -/
def Block.bytes : Block → Bytes
  | .str id us => stringImage id us
  | .ints id elem n data => 2 :: leBytes 4 id ++ leBytes 4 elem ++ leBytes 8 n ++ data
  | .obj _ id data => 0 :: leBytes 4 id ++ data

def Block.size (b : Block) : Nat := b.bytes.length

/-- Well-formed objects. -/
def Block.Ok (cfg : Cfg) (tf : Nat) (w : World) : Block → Prop
  | .str _ us => us.length < 2 ^ 64 ∧ (∀ u ∈ us, u < 0x10000) ∧ ∃ s, fromUtf16 us = some s
  | .ints _ elem n data => data.length = 4 * n ∧ n < 2 ^ 63 ∧
      ∃ ps tr, w.primitives = some ps ∧ w.types[ps.int]? = some tr ∧ tr.id = elem ∧ elem < 2 ^ 32
  | .obj t _ data => typeSize cfg w tf t = .ok data.length

/-- The types of an object. -/
inductive Block.Is (w : World) : Block → Ty → Prop
  | str {id : Nat} {us : List Nat} : Block.Is w (.str id us) .str
  | ints {id elem n : Nat} {data : Bytes} : Block.Is w (.ints id elem n data) .ints
  | obj {t id c : Nat} {data : Bytes} : Derives w t c → Block.Is w (.obj t id data) (.obj c)

/-- An object of the same type and size. -/
def Block.Like (w : World) (b b' : Block) : Prop := b'.size = b.size ∧ ∀ τ, b.Is w τ → b'.Is w τ

/-- The object `b` is at the offset `off`. -/
def At (bs : List Block) (off : Nat) (b : Block) : Prop :=
  ∃ i, bs[i]? = some b ∧ off = ((bs.map Block.size).take i).sum

/-- A value has a type. -/
def HasTy (w : World) (bs : List Block) : Value → Ty → Prop
  | .i32 _, .i4 | .i64 _, .i8 | .f32 _, .r4 | .f64 _, .r8 => True
  | .object p, τ => p.gen = 0 ∧ ∃ b, At bs p.off b ∧ b.Is w τ
  | _, _ => False

/-- The later heap has an object of the same type wherever the earlier one has an object. -/
def Ext (w : World) (bs bs' : List Block) : Prop := ∀ off b, At bs off b → ∃ b', At bs' off b' ∧ b.Like w b'

theorem Block.Like.refl (b : Block) : b.Like w b := ⟨rfl, fun _ h => h⟩

theorem Ext.refl (bs : List Block) : Ext w bs bs := fun _ b h => ⟨b, h, .refl b⟩

theorem Ext.trans {a b c : List Block} (h : Ext w a b) (k : Ext w b c) : Ext w a c := by
  intro off x hx
  obtain ⟨y, hy, h1, h2⟩ := h off x hx
  obtain ⟨z, hz, h3, h4⟩ := k off y hy
  exact ⟨z, hz, h3.trans h1, fun τ ht => h4 τ (h2 τ ht)⟩

theorem HasTy.ext {bs bs' : List Block} (he : Ext w bs bs') {a : Value} {τ : Ty} (h : HasTy w bs a τ) : HasTy w bs' a τ := by
  cases a <;> cases τ <;> simp only [HasTy] at h ⊢
  all_goals
    obtain ⟨h1, b, h2, h3⟩ := h
    obtain ⟨b', h4, -, h5⟩ := he _ b h2
    exact ⟨h1, b', h4, h5 _ h3⟩

theorem HasTy.le {bs : List Block} {a : Value} {σ τ : Ty} (h : HasTy w bs a σ) (hl : σ.Le (Derives w) τ) : HasTy w bs a τ := by
  cases hl with
  | refl => exact h
  | @obj c d hd =>
    cases a <;> simp only [HasTy] at h ⊢
    obtain ⟨h1, b, h2, h3⟩ := h
    cases h3 with
    | obj h4 => exact ⟨h1, _, h2, .obj (h4.trans hd)⟩

theorem At.append {bs : List Block} {off : Nat} {b c : Block} (h : At bs off b) : At (bs ++ [c]) off b := by
  obtain ⟨i, h1, h2⟩ := h
  have hi : i < bs.length := (List.getElem?_eq_some_iff.1 h1).1
  refine ⟨i, by rw [List.getElem?_append_left hi]; exact h1, ?_⟩
  rw [h2, List.map_append, List.take_append_of_le_length (by simp; omega)]

theorem Ext.append (bs : List Block) (c : Block) : Ext w bs (bs ++ [c]) := fun _ b h => ⟨b, h.append, .refl b⟩

theorem length_flatMap (bs : List Block) : (bs.flatMap Block.bytes).length = (bs.map Block.size).sum := by
  induction bs with
  | nil => rfl
  | cons b bs ih => simp [List.flatMap_cons, ih, Block.size]

theorem At.last (bs : List Block) (c : Block) : At (bs ++ [c]) (bs.flatMap Block.bytes).length c := by
  refine ⟨bs.length, by simp, ?_⟩
  rw [length_flatMap, List.map_append, List.take_append_of_le_length (by simp), List.take_of_length_le (by simp)]

/-- The memory around an object, and the object replaced. -/
theorem At.around {bs : List Block} {off : Nat} {b : Block} (h : At bs off b) : ∃ pre post : Bytes,
    bs.flatMap Block.bytes = pre ++ (b.bytes ++ post) ∧ pre.length = off ∧
    ∀ b', b.Like w b' → ∃ bs', bs'.flatMap Block.bytes = pre ++ (b'.bytes ++ post) ∧ Ext w bs bs' ∧ At bs' off b' ∧
      ∀ P : Block → Prop, (∀ c ∈ bs, P c) → P b' → ∀ c ∈ bs', P c := by
  obtain ⟨i, h1, h2⟩ := h
  obtain ⟨hi, hb⟩ := List.getElem?_eq_some_iff.1 h1
  have hcut : ∀ b', bs.set i b' = bs.take i ++ b' :: bs.drop (i + 1) := fun b' => List.set_eq_take_append_cons_drop.trans (by rw [if_pos hi])
  have hself : bs.set i b = bs := by rw [← hb]; exact List.set_getElem_self hi
  refine ⟨(bs.take i).flatMap Block.bytes, (bs.drop (i + 1)).flatMap Block.bytes, ?_, ?_, fun b' hl => ⟨bs.set i b', ?_, ?_, ?_, ?_⟩⟩
  · have h3 := hcut b
    rw [hself] at h3
    rw [congrArg (List.flatMap Block.bytes) h3]
    simp
  · rw [length_flatMap, List.map_take, h2]
  · rw [hcut]; simp
  all_goals
    have hm : (bs.set i b').map Block.size = bs.map Block.size := by
      have h3 := congrArg (List.map Block.size) hself
      rw [List.map_set] at h3
      rw [List.map_set, hl.1, h3]
  · intro o c ⟨j, h3, h4⟩
    by_cases hj : i = j
    · subst hj
      rw [h1] at h3; cases h3
      exact ⟨b', ⟨i, by simp [hi], by rw [hm]; exact h4⟩, hl⟩
    · exact ⟨c, ⟨j, by rw [List.getElem?_set_ne hj]; exact h3, by rw [hm]; exact h4⟩, .refl c⟩
  · exact ⟨i, by simp [hi], by rw [hm]; exact h2⟩
  · intro P hP hb' c hc
    rcases List.mem_or_eq_of_mem_set hc with h | rfl
    · exact hP c h
    · exact hb'

/-- The heap holds the objects `bs`, and has not moved. -/
structure HeapOk (cfg : Cfg) (tf : Nat) (w : World) (h : Heap) (bs : List Block) : Prop where
  gen : h.gen = 0
  cap : h.cap = 1024
  fits : h.mem.length ≤ 1024
  mem : h.mem = bs.flatMap Block.bytes
  ok : ∀ b ∈ bs, b.Ok cfg tf w

theorem At.mem {bs : List Block} {off : Nat} {b : Block} (h : At bs off b) : b ∈ bs := by
  obtain ⟨i, h1, -⟩ := h
  exact List.mem_of_getElem? h1

/-- A buffer has been replaced. -/
def Moved (v : VM) : Prop := v.heap.gen ≠ 0 ∨ v.stack.gen ≠ 0

theorem Grows.moved {α : Type} {x : X α} (h : Grows x) (hm : Moved v) : Moved (x v).2 := by
  have h1 := h.heap v
  have h2 := h.stack v
  rcases hm with hm | hm
  · exact .inl (by omega)
  · exact .inr (by omega)

/-- How code may end: a buffer has been replaced, or the result satisfies `P`, or the program has not ended within its
time, or it has been stopped and `T` holds. -/
def Ending {α : Type} (T : Prop) (P : α → VM → Prop) (o : Res α × VM) : Prop :=
  Moved o.2 ∨ match o.1 with
    | .ok a => P a o.2
    | .panic => T
    | .timeout => True
    | _ => False

namespace Ending
variable {α β : Type} {T : Prop}

theorem ok {P : α → VM → Prop} {a : α} {v : VM} (h : P a v) : Ending T P (.ok a, v) := .inr h

theorem bind {P : α → VM → Prop} {Q : β → VM → Prop} {x : X α} {f : α → X β} (hx : Ending T P (x v))
    (hg : ∀ a, Grows (f a)) (hf : ∀ a v', x v = (.ok a, v') → P a v' → Ending T Q (f a v')) : Ending T Q ((x >>= f) v) := by
  rw [X.bind_run]
  rcases hr : x v with ⟨r, v1⟩
  rw [hr] at hx
  rcases hx with hx | hx
  · cases r with
    | ok a => exact .inl ((hg a).moved hx)
    | _ => exact .inl hx
  · cases r with
    | ok a => exact hf a v1 hr hx
    | _ => exact .inr hx

theorem weaken {P Q : α → VM → Prop} {o : Res α × VM} (h : Ending T P o) (hQ : ∀ a v, P a v → Q a v) : Ending T Q o := by
  rcases h with h | h
  · exact .inl h
  · refine .inr ?_
    rcases o with ⟨r, v⟩
    cases r with
    | ok a => exact hQ a v h
    | _ => exact h

end Ending

/-! ## Allocation -/

theorem bump_calm {bs : List Block} {h : Heap} (hh : HeapOk cfg tf w h bs) {size : Nat} (hs : size < 2 ^ 40) :
    ∃ p h', h.bump cfg size = .ok (p, h') ∧
      (h'.gen ≠ 0 ∨ h.mem.length + size ≤ 1024 ∧ p = ⟨0, h.mem.length⟩ ∧ h' = { h with mem := h.mem ++ List.replicate size 0 }) := by
  have hf := hh.fits
  have hc := hh.cap
  have hg := hh.gen
  have hadd : uadd cfg 64 h.mem.length size = .ok (h.mem.length + size) := uadd_ok (by omega)
  by_cases hroom : h.mem.length + size ≤ 1024
  · have h1 : h.ensureSize cfg size = .ok h := by
      unfold Heap.ensureSize
      rw [hadd]
      simp only [Res.ok_bind, Res.pure_eq]
      rw [if_neg (by omega)]
    have h2 : h.resize (h.mem.length + size) = .ok { h with mem := h.mem ++ List.replicate size 0 } := by
      unfold Heap.resize
      split
      · unfold Heap.reserve
        rw [if_pos (by omega)]
        simp only [Res.ok_bind, Res.pure_eq]
        rw [Nat.add_sub_cancel_left]
      · have : size = 0 := by omega
        subst this
        simp
    refine ⟨_, _, ?_, .inr ⟨hroom, rfl, rfl⟩⟩
    unfold Heap.bump
    rw [h1]
    simp only [Res.ok_bind, hadd, h2, hg, Res.pure_eq]
  · have hres : ∀ (g : Heap) n, g.cap < 2 ^ 50 → g.mem.length < 2 ^ 50 → n < 2 ^ 50 → ∃ g', g.reserve n = .ok g' ∧ g'.mem = g.mem ∧
        (g' = g ∧ n ≤ g.cap - g.mem.length ∨ g'.gen = g.gen + 1) ∧ g'.cap < 2 ^ 52 := by
      intro g n h1 h2 h3
      unfold Heap.reserve
      split
      · exact ⟨g, rfl, rfl, .inl ⟨rfl, ‹_›⟩, by omega⟩
      · rw [if_pos (by omega)]
        exact ⟨_, rfl, rfl, .inr rfl, by dsimp only; omega⟩
    have h1 : ∃ g, h.ensureSize cfg size = .ok g ∧ g.mem = h.mem ∧ (g = h ∨ g.gen = 1) ∧ g.cap < 2 ^ 50 := by
      unfold Heap.ensureSize
      rw [hadd]
      simp only [Res.ok_bind, Res.pure_eq]
      rw [if_pos (by omega)]
      unfold Heap.reserve
      split
      · exact ⟨h, rfl, rfl, .inl rfl, by omega⟩
      · rw [if_pos (by omega)]
        exact ⟨_, rfl, rfl, .inr (by dsimp only; omega), by dsimp only; omega⟩
    obtain ⟨g, e1, e2, e3, e4⟩ := h1
    unfold Heap.bump
    rw [e1]
    simp only [Res.ok_bind, e2, hadd]
    unfold Heap.resize
    rw [e2, if_pos (by omega), Nat.add_sub_cancel_left]
    obtain ⟨g', e5, e6, e7, -⟩ := hres g size e4 (by rw [e2]; omega) (by omega)
    rw [e5]
    simp only [Res.ok_bind, Res.pure_eq]
    refine ⟨_, _, rfl, .inl ?_⟩
    dsimp only
    rcases e7 with ⟨rfl, e8⟩ | e7
    · rcases e3 with rfl | e3
      · omega
      · omega
    · omega

end Clr
