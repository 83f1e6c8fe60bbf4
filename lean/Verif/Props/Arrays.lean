import Verif.Lemmas.Arrays
import Verif.Props.Objects
import Verif.Props.Registry
/-! # Properties C74-C76: arrays and objects as the host sees them -/

namespace Clr

variable {cfg : Cfg} {tf : Nat} {v v' : VM} {p : Ptr} {w : World}

/-! ## C74 -/

theorem Elem.width (k : Elem) (h : k ≠ .object) : (k.fullName, k.size) ∈ numericWidths := by
  revert h; cases k <;> decide +kernel

theorem Elem.ofValue_name (a : Value) : (∃ x, a.pattern = some x ∧ ∀ addr, a.bitsOf addr = x) ∧
    a.typeName = some (Elem.ofValue a).fullName ∧ Elem.ofValue a ≠ .object ∨
    a.typeName = none ∧ (Elem.ofValue a).fullName = "System.Object".toList := by
  cases a
  case object => exact .inr ⟨rfl, rfl⟩
  all_goals exact .inl ⟨⟨_, rfl, fun _ => rfl⟩, rfl, nofun⟩

/-- **C74 for arrays of anything but `object`.** An index outside the array is reported as such. A value whose type is not
the element type is reported as such. In both cases nothing changes. Otherwise exactly the element at the index is replaced,
and everything outside its bytes reads as before.

Missing: arrays with the element type `object`, see `C74_refuted`. -/
theorem C74_partial (addr : Ptr → Nat) {id e s : Nat} {er : TypeRec} {xs : List Nat} (hw : RuntimeOk v.world)
    (he : OnlyOne v.world e er) (ho : er.fullName ≠ "System.Object".toList)
    (hs : ∀ n, (er.fullName, n) ∈ numericWidths → s = n) (hn : xs.length < 2 ^ 64)
    (hb : v.heap.Has p (arrayBytes id e s xs)) (i : Nat) (a : Value) :
    (xs.length ≤ i → arraySet addr p i a v = (.ok (.error .indexOutOfRange), v)) ∧
    (i < xs.length → a.typeName ≠ some er.fullName → arraySet addr p i a v = (.ok (.error .typeMismatch), v)) ∧
    (i < xs.length → a.typeName = some er.fullName → ∃ x h', a.pattern = some x ∧
      arraySet addr p i a v = (.ok (.ok ()), { v with heap := h' }) ∧ h'.Has p (arrayBytes id e s (xs.set i x)) ∧
      ∀ q off n, Disjoint' (q.off + off) n (p.off + 17 + s * i) s → h'.read q off n = v.heap.read q off n) := by
  obtain ⟨ps, hps, -⟩ := hw.managed
  have hk : ∀ k : Elem, k.fullName = er.fullName → s = k.size := by
    intro k hk
    refine hs _ (hk ▸ k.width ?_)
    intro h; subst h; exact ho hk.symm
  have hst : ∀ b, i < xs.length → (if (Elem.ofValue a).fullName = er.fullName then Except.ok xs.length else
      Except.error ArrayError.typeMismatch) = b → arraySet addr p i a v = (match (b : Except ArrayError Nat) with
        | .ok _ => do
          poke p (17 + (Elem.ofValue a).size * i) (leBytes (Elem.ofValue a).size (a.bitsOf addr))
          pure (.ok ())
        | .error e => pure (.error e) : X (Except ArrayError Unit)) v := by
    intro b hi hbb
    unfold arraySet
    rw [X.bind_ok (hb.peek (arrayBytes_ne _ _ _ _) (by rw [length_arrayBytes]; omega))]
    rw [arrayBytes_head, head_len _ _ _ hn, if_neg (by omega)]
    rw [X.bind_ok (a := ps) (v' := v) (by simp [X.view, Res.unwrap, hps])]
    rw [X.bind_ok (arraySlice_run hw he hb hn _ (hk _)), hbb]
    cases b <;> rfl
  refine ⟨?_, ?_, ?_⟩
  · intro hi
    unfold arraySet
    rw [X.bind_ok (hb.peek (arrayBytes_ne _ _ _ _) (by rw [length_arrayBytes]; omega))]
    rw [arrayBytes_head, head_len _ _ _ hn, if_pos hi]
    rfl
  · intro hi ha
    rw [hst _ hi (if_neg ?_)]
    · rfl
    · intro h
      rcases Elem.ofValue_name a with ⟨-, h2, -⟩ | ⟨-, h2⟩
      · exact ha (h2.trans (by rw [h]))
      · exact ho (h.symm.trans h2)
  · intro hi ha
    rcases Elem.ofValue_name a with ⟨⟨x, h1, h2⟩, h3, -⟩ | ⟨h3, -⟩
    · have hname : (Elem.ofValue a).fullName = er.fullName := by rw [h3] at ha; exact Option.some.inj ha
      obtain ⟨h', hwr, hhas⟩ := hb.set (x := x) hi
      refine ⟨x, h', h1, ?_, hhas, ?_⟩
      · rw [hst _ hi (if_pos hname), h2, ← hk _ hname]
        show (poke p _ _ >>= fun _ => _) v = _
        rw [X.bind_ok (poke_write hwr)]
        rfl
      · intro q off n hd
        exact read_write_apart hwr (by unfold Disjoint' at hd; simp; omega)
    · rw [h3] at ha; cases ha

/-- **C74, looking at the elements**: a view with the element type gives them all; a view with another type is refused.
Nothing changes. -/
theorem C74_view {id e s : Nat} {er : TypeRec} {xs : List Nat} (hw : RuntimeOk v.world)
    (he : OnlyOne v.world e er) (ho : er.fullName ≠ "System.Object".toList)
    (hs : ∀ n, (er.fullName, n) ∈ numericWidths → s = n) (hn : xs.length < 2 ^ 64) (hx : ∀ x ∈ xs, x < 256 ^ s)
    (hb : v.heap.Has p (arrayBytes id e s xs)) (k : Elem) :
    (k.fullName = er.fullName → arrayElements k p v = (.ok (.ok xs), v)) ∧
    (k.fullName ≠ er.fullName → arrayElements k p v = (.ok (.error .typeMismatch), v)) := by
  have hk : k.fullName = er.fullName → s = k.size := by
    intro hk
    refine hs _ (hk ▸ k.width ?_)
    intro h; subst h; exact ho hk.symm
  have := arrayElements_run hw he hb hn hx k hk
  exact ⟨fun h => by rw [this, if_pos h], fun h => by rw [this, if_neg h]⟩

/-- **C74, new arrays** have the form the two theorems above ask for: all their elements are zero. -/
theorem C74_new (size : Nat → Nat) (e n : Nat) (hs : typeSize cfg v.world tf e = .ok (size e))
    (hroom : v.heap.mem.length + (17 + size e * n) < 2 ^ 64) (hr : RuntimeOk v'.world)
    (h : allocArray cfg tf e n v = (.ok p, v')) :
    ∃ id, v'.heap.Has p (arrayBytes id e (size e) (List.replicate n 0)) := by
  obtain ⟨b, ⟨er, t, tr, h1, h2, h3, rfl⟩, h5, h6, h7, -⟩ := C44_one size (.array e n) hs hroom h
  refine ⟨tr.id, by rw [h7], [], ?_⟩
  rw [h6, h7, List.drop_left, List.append_nil, hr.ids _ _ h1]
  have : ∀ k, (List.replicate k 0).flatMap (leBytes (size e)) = List.replicate (size e * k) (0 : UInt8) := by
    have h0 : ∀ s, leBytes s 0 = List.replicate s (0 : UInt8) := by
      intro s; induction s with
      | zero => rfl
      | succ s ih => simp [leBytes, ih, List.replicate_succ]
    intro k; induction k with
    | zero => rfl
    | succ k ih => rw [List.replicate_succ, List.flatMap_cons, ih, h0, Nat.mul_add, Nat.add_comm, ← List.replicate_append_replicate, Nat.mul_one]
  simp [arrayBytes, arrayImage, this]

namespace Ex

theorem runtime_of {w : World} (hn : PrimitivesOk w) {ps : Primitives} (hps : w.primitives = some ps)
    (ho : w.types[ps.object]?.map (·.fullName) = some "System.Object".toList)
    (hi : w.types.map (·.id) = List.range w.types.length) (hl : w.types.length ≤ 2 ^ 32) : RuntimeOk w := by
  refine ⟨hn, ?_, ?_, hl⟩
  · obtain ⟨r, h1, h2⟩ := Option.map_eq_some_iff.1 ho
    exact ⟨ps, r, hps, h1, h2⟩
  · intro t r ht
    have h1 : (w.types.map (·.id))[t]? = some r.id := by rw [List.getElem?_map, ht]; rfl
    rw [hi, List.getElem?_eq_some_iff] at h1
    obtain ⟨_, h2⟩ := h1
    rw [List.getElem_range] at h2
    exact h2.symm

theorem tiny_runtime : RuntimeOk (tiny []) := runtime_of ⟨_, rfl, rfl⟩ rfl (by decide +kernel) (by decide +kernel) (by decide +kernel)

theorem onlyOne_of {w : World} {e : Nat} {er : TypeRec} (he : w.types[e]? = some er) (hn : (w.types.map (·.fullName)).Nodup) :
    OnlyOne w e er :=
  ⟨he, fun _ _ ht h => distinctNames_of_nodup hn _ _ _ _ ht he h⟩

end Ex

/-- An array of three 16-bit numbers, on a fresh heap: a store, and what the host sees afterwards; a store outside, and one
of a 32-bit number. -/
example : ((do
      let p ← allocArray .debug 9 6 3
      let a ← arraySet (fun q => q.off) p 1 (.i16 5)
      let b ← arraySet (fun q => q.off) p 3 (.i16 6)
      let c ← arraySet (fun q => q.off) p 0 (.i32 7)
      let s ← arrayElements .i16 p
      let t ← arrayElements .u16 p
      pure ([a, b, c], [s, t]) : X _) { world := Ex.tiny [] }).1 =
    .ok ([.ok (), .error .indexOutOfRange, .error .typeMismatch], [.ok [0, 5, 0], .error .typeMismatch]) := by
  decide +kernel

example : RuntimeOk (Ex.tiny []) ∧ OnlyOne (Ex.tiny []) 6 (Ex.tinyType 6 ("System", "Int16")) ∧
    Heap.Has { mem := [1, 2, 3] ++ arrayBytes 18 6 2 [0, 5, 0] ++ [7] } ⟨0, 3⟩ (arrayBytes 18 6 2 [0, 5, 0]) :=
  ⟨Ex.tiny_runtime, Ex.onlyOne_of (by decide +kernel) (by decide +kernel), by decide +kernel⟩

/-- **C74 fails for arrays of objects**: their elements have no memory of their own. Storing a reference into an array of
one object succeeds, but destroys the object that comes next in memory; if nothing follows, it is undefined behaviour. -/
theorem C74_refuted :
    ((do
      let p ← allocArray .debug 9 15 1
      let q ← allocString .debug [0x48, 0x69]
      let before ← isString q
      let r ← arraySet (fun q => 4096 + q.off) p 0 (.object q)
      let after ← isString q
      pure (before, r.toBool, after) : X _) { world := Ex.tiny [] }).1 = .ok (true, true, false) ∧
    ((do
      let q ← allocString .debug [0x48, 0x69]
      let p ← allocArray .debug 9 15 1
      arraySet (fun q => 4096 + q.off) p 0 (.object q) : X _) { world := Ex.tiny [] }).1 = .ub := by
  decide +kernel

/-! ## C75 -/

/-- The type an object should report. -/
def Request.HasType (w : World) : Request → Nat → Prop
  | .object c, t => t = c
  | .array e _, t => ∃ er, w.types[e]? = some er ∧ w.getType (er.fullName ++ "[]".toList) = some t
  | .string _, t => w.getType "System.String".toList = some t

/-- What the host should see when it looks at an object. -/
structure Seen (cfg : Cfg) (tf : Nat) (w : World) (size : Nat → Nat) (v : VM) (r : Request) (p : Ptr) : Prop where
  type : ∃ t, r.HasType w t ∧ objectType p v = (.ok t, v)
  array : isArray p v = (.ok (match r with | .array .. => true | _ => false), v)
  string : isString p v = (.ok (match r with | .string _ => true | _ => false), v)
  text : ∀ us, r = .string us → (∀ u ∈ us, u < 0x10000) → stringData p v = (.ok us, v)
  raw : ∃ b, Image w size r b ∧ ((∀ us, r = .string us → ∀ u ∈ us, u < 0x10000) → rawData cfg tf p v = (.ok b, v))

theorem Seen.of {size : Nat → Nat} {r : Request} {b : Bytes} (hids : ∀ (t : Nat) (r : TypeRec), v.world.types[t]? = some r → r.id = t)
    (hfew : v.world.types.length ≤ 2 ^ 32) (hs : r.Sized cfg tf v.world size) (hi : Image v.world size r b)
    (hb : v.heap.Has p b) (hroom : r.bytes size < 2 ^ 64) (hn : ∀ e n, r = .array e n → n < 2 ^ 64) : Seen cfg tf v.world size v r p := by
  have hlt : ∀ {t : Nat} {r : TypeRec}, v.world.types[t]? = some r → t < v.world.types.length :=
    fun h => (List.getElem?_eq_some_iff.1 h).1
  cases r with
  | object t =>
    obtain ⟨tr, h1, rfl⟩ := hi
    have h2 := hlt h1
    cases hids _ _ h1
    have ht := objectType_run hb (by omega) h2
    refine ⟨⟨_, rfl, ht⟩, isArray_run hb, isString_run hb, nofun, _, ⟨tr, h1, rfl⟩, fun _ => ?_⟩
    unfold rawData
    simp only [Request.bytes] at hroom
    rw [X.bind_ok (a := 5 + size tr.id) (v' := v)]
    · rw [hb.peek (by simp [objectImage]) (by simp [objectImage]; omega)]
      rw [List.drop_zero, List.take_of_length_le (by simp [objectImage]; omega)]
    · rw [X.bind_ok (isArray_run hb)]
      rw [if_neg (by decide), X.bind_ok (isString_run hb), if_neg (by decide), X.bind_ok ht]
      rw [X.bind_ok (a := size tr.id) (v' := v) (by simp only [X.view]; rw [show typeSize cfg v.world tf tr.id = _ from hs])]
      rw [uadd_ok hroom]
      rfl
  | array e n =>
    obtain ⟨er, t, tr, h1, h2, h3, rfl⟩ := hi
    have h4 := hlt h3
    have h5 := hlt h1
    cases hids _ _ h3
    have hbe : arrayImage tr.id er.id (size e) n =
        2 :: leBytes 4 tr.id ++ (leBytes 4 er.id ++ (leBytes 8 n ++ List.replicate (size e * n) 0)) := by
      simp [arrayImage]
    have hb' := hb
    rw [hbe] at hb'
    have ht := objectType_run hb' (by omega) h4
    refine ⟨⟨_, ⟨er, h1, h2⟩, ht⟩, isArray_run hb', isString_run hb', nofun, _, ⟨er, _, tr, h1, h2, h3, rfl⟩, fun _ => ?_⟩
    unfold rawData
    simp only [Request.bytes] at hroom
    have hlen : (arrayImage tr.id er.id (size e) n).length = 17 + size e * n := by simp [arrayImage]; omega
    have hn := hn e n rfl
    have hhd : ((arrayImage tr.id er.id (size e) n).drop 0).take 17 = 2 :: leBytes 4 tr.id ++ leBytes 4 er.id ++ leBytes 8 n := by
      rw [List.drop_zero, arrayImage, List.take_left' (by simp)]
    rw [X.bind_ok (a := 17 + size e * n) (v' := v)]
    · rw [hb.peek (by simp [arrayImage]) (by omega)]
      rw [List.drop_zero, List.take_of_length_le (by omega)]
    · rw [X.bind_ok (isArray_run hb')]
      rw [if_pos (by decide), X.bind_ok (hb.peek (by simp [arrayImage]) (by omega))]
      rw [hhd, head_len _ _ _ hn, hids _ _ h1, head_elem _ _ _ (by omega)]
      rw [X.bind_ok (a := size e) (v' := v) (by simp only [X.view]; rw [show typeSize cfg v.world tf e = _ from hs])]
      rw [umul_ok (by omega)]
      show (liftM (uadd cfg 64 17 (size e * n)) : X Nat) v = _
      rw [uadd_ok hroom]
      rfl
  | string us =>
    obtain ⟨t, tr, h1, h2, rfl⟩ := hi
    have h4 := hlt h2
    cases hids _ _ h2
    have hbe : stringImage tr.id us = 4 :: leBytes 4 tr.id ++ (leBytes 8 us.length ++ textBytes us) := by simp [stringImage]
    have hb' := hb
    rw [hbe] at hb'
    have ht := objectType_run hb' (by omega) h4
    simp only [Request.bytes] at hroom
    have hdata := fun hu => stringData_run hb (by omega) hu
    refine ⟨⟨_, h1, ht⟩, isArray_run hb', isString_run hb', ?_, _, ⟨_, tr, h1, h2, rfl⟩, fun hu => ?_⟩
    · intro us' h hu; cases h; exact hdata hu
    · unfold rawData
      have hlen : (stringImage tr.id us).length = 13 + 2 * us.length := by
        simp only [stringImage, textBytes, List.length_append, length_elements]; simp
      rw [X.bind_ok (a := 13 + 2 * us.length) (v' := v)]
      · rw [hb.peek (by simp [stringImage]) (by omega)]
        rw [List.drop_zero, List.take_of_length_le (by omega)]
      · rw [X.bind_ok (isArray_run hb')]
        rw [if_neg (by decide), X.bind_ok (isString_run hb'), if_pos (by decide), X.bind_ok (hdata (hu us rfl))]
        rw [umul_ok (by omega)]
        show (liftM (uadd cfg 64 13 (2 * us.length)) : X Nat) v = _
        rw [uadd_ok hroom]
        rfl

/-- **C75 while the heap's memory does not have to grow**: after any sequence of successful allocations, every object looks
as it should: `type_of` gives the type asked for (of an array, the array type of its elements; of a string, `System.String`),
exactly the arrays are arrays and exactly the strings are strings, a string has its text, and the raw data are exactly the
object's own bytes.

Missing: after growth the old references may not be used (`C75_refuted`). -/
theorem C75_partial (size : Nat → Nat) (rs : List Request) (ps : List Ptr) (hs : ∀ r ∈ rs, r.Sized cfg tf v.world size)
    (hn : ∀ r ∈ rs, ∀ e n, r = .array e n → n < 2 ^ 64)
    (hfit : v.heap.mem.length + (rs.map (Request.bytes size)).sum ≤ v.heap.cap) (hcap : v.heap.cap < 2 ^ 64)
    (h : allocAll cfg tf rs v = (.ok ps, v')) (hids : ∀ (t : Nat) (r : TypeRec), v'.world.types[t]? = some r → r.id = t)
    (hfew : v'.world.types.length ≤ 2 ^ 32) :
    ps.length = rs.length ∧ ∀ (i : Nat) r p, rs[i]? = some r → ps[i]? = some p → Seen cfg tf v'.world size v' r p := by
  have hev : ∀ rs ps v, allocAll cfg tf rs v = (.ok ps, v') → Evolves v.world v'.world := by
    intro rs ps v h
    have : ∀ rs, Keeps 0 True True (allocAll cfg tf rs) := by
      intro rs; induction rs with
      | nil => exact .pure _
      | cons r rs ih =>
        refine .bind ?_ fun _ => .bind ih fun _ => .pure _
        cases r
        · exact .allocObject ..
        · exact .allocArray ..
        · exact .allocString ..
    have := ((this rs).run v (Nat.zero_le _)).world
    rwa [h] at this
  induction rs generalizing v ps with
  | nil => cases h; exact ⟨rfl, by simp⟩
  | cons r rs ih =>
    have h0 := hev _ _ _ h
    rw [allocAll] at h
    obtain ⟨q, v1, h1, h2⟩ := X.bind_eq_ok.1 h
    obtain ⟨ps', v2, h3, h4⟩ := X.bind_eq_ok.1 h2
    cases h4
    simp only [List.map_cons, List.sum_cons] at hfit
    obtain ⟨b, a1, a2, a3, a4, -, a6, -, a8⟩ := C44_one size r (hs r (by simp)) (by omega) h1
    obtain ⟨a8, a9⟩ := a8 (by omega)
    have hfit' : v1.heap.mem.length + (rs.map (Request.bytes size)).sum ≤ v1.heap.cap := by
      rw [a3, a9]; simp; omega
    have hs' : ∀ r ∈ rs, r.Sized cfg tf v1.world size := fun r hr => (hs r (by simp [hr])).evolves a6
    obtain ⟨b1, b2⟩ := ih ps' hs' (fun r hr => hn r (by simp [hr])) hfit' (by rw [a9]; exact hcap) h3
    refine ⟨by simp [b1], ?_⟩
    intro i r' p hr hp
    cases i with
    | succ i => exact b2 i r' p hr hp
    | zero =>
      cases hr; cases hp
      have hread : v1.heap.read q 0 b.length = .ok b := by
        unfold Heap.read
        rw [a4, a3, if_pos ⟨rfl, by simp⟩]
        simp
      have hread' := C45_partial size rs ps' hs' hfit' (by rw [a9]; exact hcap) h3 q 0 b.length b hread
      have hhas : v'.heap.Has q b := by
        refine ⟨(read_inv hread').1, ?_⟩
        unfold Heap.read at hread'
        rw [if_pos ⟨(read_inv hread').1, (read_inv hread').2.1⟩] at hread'
        have e := Res.ok.inj hread'
        have := List.take_prefix b.length (v'.heap.mem.drop (q.off + 0))
        rwa [e] at this
      exact Seen.of hids hfew ((hs r (by simp)).evolves h0) (a1.evolves (hev _ _ _ h3)) hhas (by omega) (hn r (by simp))

/-- **C75 fails when it grows**: the host makes an object and asks for its type; after making an array of 300 numbers,
asking again is undefined behaviour. -/
theorem C75_refuted :
    ((do
      let p ← allocObject .debug 9 1
      objectType p : X _) { world := Ex.tiny [] }).1 = .ok 1 ∧
    ((do
      let p ← allocObject .debug 9 1
      let _ ← allocArray .debug 9 8 300
      objectType p : X _) { world := Ex.tiny [] }).1 = .ub := by
  decide +kernel

/-! ## C76 -/

/-- Every registry a program can bring about has the right types in its table of built-in types, if it has one. -/
theorem Reached.named {cfg : Cfg} {w : World} (h : Reached cfg w) : ∀ p, w.primitives = some p → p.Named w := by
  induction h with
  | start => intro p hp; cases hp
  | runtime fs depth fuel a b h ih => exact (newRuntime_run fs depth fuel a b _ h.inv).1.named ih
  | loadFile fs depth fuel data h ih => exact (loadData_run fs depth fuel data _ h.inv).1.named ih
  | loadName fs depth fuel n h ih => exact (loadAssembly_run fs depth fuel n _ h.inv).1.named ih
  | arrayOf t h ih => exact (arrayType_run t h.inv).1.named ih
  | write s _ ih => exact ih

theorem Reached.later {cfg : Cfg} {w w' : World} (h : Reached cfg w) (hl : Later cfg w w') : Reached cfg w' := by
  induction hl with
  | refl => exact h
  | runtime fs depth fuel a b _ ih => exact .runtime fs depth fuel a b ih
  | loadFile fs depth fuel data _ ih => exact .loadFile fs depth fuel data ih
  | loadName fs depth fuel n _ ih => exact .loadName fs depth fuel n ih
  | arrayOf t _ ih => exact .arrayOf t ih
  | write s _ ih => exact .write s ih

/-- A table of built-in types is never removed. -/
theorem Steps.primitives {cfg : Cfg} {w w' : World} (h : Steps cfg w w') (hp : w.primitives ≠ none) :
    w'.primitives ≠ none := by
  induction h with
  | refl => exact hp
  | step _ hu ih => cases hu <;> first | exact ih | nofun

/-- **C76**: once the runtime has started, and whatever is loaded afterwards, its own table of built-in types (used for the
elements of arrays and for fields) has for each of Rust's types the registered type of the right name, and types are found
by their numbers, as long as there are no more than 2^32 of them. -/
theorem C76 (cfg : Cfg) (w w' w'' : World) (fs : Name → Option Bytes) (depth fuel : Nat) (a b : Bytes) (hw : Reached cfg w)
    (h : newRuntime cfg fs depth fuel a b w = (.ok (), w')) (hl : Later cfg w' w'') (hfew : w''.types.length ≤ 2 ^ 32) :
    RuntimeOk w'' := by
  have hr : Reached cfg w' := by have := Reached.runtime fs depth fuel a b hw; rwa [h] at this
  have hr' := hr.later hl
  have hne : w'.primitives ≠ none := by
    unfold newRuntime at h
    obtain ⟨x, w1, h1, h2⟩ := M.bind_eq_ok.1 h
    obtain ⟨y, w2, h3, h4⟩ := M.bind_eq_ok.1 h2
    have i1 := hw.inv.steps (loadData_run (cfg := cfg) fs depth fuel a w hw.inv).1
    rw [h1] at i1
    have i2 := i1.steps (loadData_run (cfg := cfg) fs depth fuel b _ i1).1
    rw [h3] at i2
    have := (loadPrimitives_run (cfg := cfg) w2 i2).2 () (by rw [h4])
    obtain ⟨p, hp⟩ := this
    rw [h4] at hp
    rw [hp]; nofun
  have hne' := (hl.steps hr.inv).primitives hne
  obtain ⟨ps, hps⟩ := Option.ne_none_iff_exists'.1 hne'
  have hn := hr'.named ps hps
  refine ⟨⟨ps, hps, ?_⟩, ⟨ps, ?_⟩, fun t r ht => (C34_ids cfg w'' hr' hfew t r ht).1, hfew⟩
  · have get : ∀ x ∈ [(ps.sbyte, "System.SByte"), (ps.byte, "System.Byte"), (ps.short, "System.Int16"),
        (ps.ushort, "System.UInt16"), (ps.int, "System.Int32"), (ps.uint, "System.UInt32"), (ps.long, "System.Int64"),
        (ps.ulong, "System.UInt64"), (ps.float, "System.Single"), (ps.double, "System.Double"),
        (ps.object, "System.Object")], w''.types[x.1]?.map (·.fullName) = some x.2.toList := by
      intro x hx
      obtain ⟨r, h1, h2⟩ := hn x hx
      rw [h1, ← h2]; rfl
    simp only [List.mem_cons, List.not_mem_nil, or_false, forall_eq_or_imp, forall_eq] at get
    obtain ⟨g1, g2, g3, g4, g5, g6, g7, g8, g9, g10, -⟩ := get
    simp only [numericWidths, List.map_cons, List.map_nil, g1, g2, g3, g4, g5, g6, g7, g8, g9, g10]
  · obtain ⟨r, h1, h2⟩ := hn (ps.object, "System.Object") (by simp)
    exact ⟨r, hps, h1, h2⟩

/-- A runtime that starts. -/
example : (newRuntime .debug Ex.noFiles 1 100 Ex.coreFile Ex.ifaceAsm.file {}).1 = .ok () := by decide +kernel

end Clr
