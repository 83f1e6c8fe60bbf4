import Verif.Lemmas.Vars
import Verif.Props.Arith
/-! # Properties C57, C63: locals and arguments -/

namespace Clr

variable {cfg : Cfg} {ops : FloatOps} {tf : Nat} {fr : Frame} {ip : Nat} {v : VM} {rest : List Value}

/-! ## C57 -/

/-- The claim C57 for one pair of encodings: `s` stores into variable `i` of kind `x`, `l` loads variable `j` of kind
`y`; both variables can be accessed, and locals and arguments have separate memory. The load after the store gives the
stored value if the variables are the same, and otherwise what it gives before the store. -/
def Independent (x y : Var) (i j : Nat) (s l : Bytes) : Prop :=
  ∀ (cfg : Cfg) (ops : FloatOps) (tf : Nat) (fr : Frame) (ip ip' : Nat) (v : VM) (a : Value) (rest : List Value),
    HasAt fr.code ip s → HasAt fr.code ip' l → v.operands = a :: rest →
    Usable v (fr.slice x) i → Usable v (fr.slice y) j → Apart fr.locals fr.params →
    ∃ v' b, step cfg ops tf fr ip v = (.ok (.next (ip + s.length)), v') ∧ v'.operands = rest ∧ v'.heap = v.heap ∧
      v'.world = v.world ∧
      step cfg ops tf fr ip' v = (.ok (.next (ip' + l.length)), { v with operands := b :: v.operands }) ∧
      step cfg ops tf fr ip' v' = (.ok (.next (ip' + l.length)),
        { v' with operands := (if x = y ∧ i = j then a else b) :: rest })

/-- **C57** for all encodings except `ldarg` and `starg` with two-byte indices. -/
theorem C57_partial (x y : Var) (i j : Nat) (s l : Bytes) (hs : s ∈ x.stores i) (hl : l ∈ y.loads j)
    (hns : ¬ [0xfe, 0x0b] <+: s) (hnl : ¬ [0xfe, 0x09] <+: l) : Independent x y i j s l := by
  intro cfg ops tf fr ip ip' v a rest hcs hcl ho hi hj hap
  obtain ⟨b, hb, -⟩ := readSlot_ok hj
  have hi' : Usable { v with operands := rest } (fr.slice x) i := by cases h : fr.slice x <;> simpa [h, Usable] using hi
  have hj' : Usable { v with operands := rest } (fr.slice y) j := by cases h : fr.slice y <;> simpa [h, Usable] using hj
  have hb' : (fr.slice y).at { v with operands := rest } j = some b := by
    rw [← hb]; cases fr.slice y <;> rfl
  have hstore := (store_run (cfg := cfg) (ops := ops) (tf := tf) (v := v) hs hns hcs).trans (storeSlot_ok ho hi _)
  have hop : ((fr.slice x).put { v with operands := rest } a i).operands = rest := by
    cases fr.slice x <;> rfl
  refine ⟨_, b, hstore, hop, by cases fr.slice x <;> rfl, by cases fr.slice x <;> rfl,
    (load_run hl hnl hcl).trans (loadSlot_ok hj hb _), ?_⟩
  have hat : (fr.slice y).at ((fr.slice x).put { v with operands := rest } a i) j =
      some (if x = y ∧ i = j then a else b) := by
    by_cases hxy : x = y
    · subst hxy
      rw [at_put_same hi' hj', hb']
      simp only [true_and]
      split <;> rfl
    · rw [at_put_apart hi' hj', hb', if_neg (fun h => hxy h.1)]
      cases x <;> cases y <;> first | exact absurd rfl hxy | exact hap | skip
      revert hap
      simp only [Frame.slice]
      cases fr.locals <;> cases fr.params <;> simp [Apart] <;> omega
  refine (load_run hl hnl hcl).trans ((loadSlot_ok hj'.put hat _).trans ?_)
  rw [hop]

example : [0x13, 0x02] ∈ Var.loc.stores 2 ∧ [0x08] ∈ Var.loc.loads 2 ∧ [0xfe, 0x0c, 0x02, 0x00] ∈ Var.loc.loads 2 := by
  decide

/-- **C57 fails** for `ldarg` and `starg` with two-byte indices. -/
theorem C57_refuted :
    ¬ Independent .loc .arg 0 0 [0x0a] [0xfe, 0x09, 0x00, 0x00] ∧
    ¬ Independent .arg .arg 0 0 [0xfe, 0x0b, 0x00, 0x00] [0x02] := by
  constructor
  · intro h
    obtain ⟨v', b, -, -, -, -, h5, -⟩ := h .release Ex.floats 9
      { Ex.frame [0x0a, 0xfe, 0x09, 0x00, 0x00, 0x2a, 0x00] with locals := .slots 0 0 1 } 0 1
      { world := {}, host := [.i32 7], operands := [.i32 1], stack := { slots := [.i8 0] } } (.i32 1) []
      (by decide) (by decide) rfl (by decide) (by decide) (by decide)
    have : _ = Res.ok (Action.next 5) := congrArg Prod.fst h5
    revert this; decide +kernel
  · intro h
    obtain ⟨v', b, h1, -⟩ := h .release Ex.floats 9 (Ex.frame [0xfe, 0x0b, 0x00, 0x00, 0x02, 0x00]) 0 4
      { world := {}, host := [.i32 7], operands := [.i32 1] } (.i32 1) []
      (by decide) (by decide) rfl (by decide) (by decide) (by decide)
    have : _ = Res.ok (Action.next 4) := congrArg Prod.fst h1
    revert this; decide +kernel

/-- The frames the interpreter makes: a method with a body runs in a frame with its code, the arguments it is given, and
separate memory for its locals, all of which can be accessed; the arguments can be accessed as before unless the memory
had to be moved. -/
theorem C57_frames (m : MethodRec) (body : MethodBody) (params : Region)
    (t : TypeRec) (asm : AssemblyRec) (hm : m.impl = .il body) (ht : v.world.types[m.declaringType]? = some t)
    (ha : v.world.assemblies.find? (·.id = t.assembly) = some asm) (hroom : Roomy v body.locals.length)
    (hp : ∀ gen base count, params = .slots gen base count → base + count ≤ v.stack.slots.length) :
    ∃ fr v1, (∀ fuel, (invoke cfg (loop cfg ops tf fuel) m params v).1 = (loop cfg ops tf fuel fr 0 v1).1) ∧
      fr.code = body.code ∧ fr.method = m ∧ fr.assembly = asm ∧
      fr.params = params ∧ Apart fr.locals fr.params ∧ v1.operands = v.operands ∧ v1.heap = v.heap ∧
      v1.world = v.world ∧ v1.host = v.host ∧
      (∀ i, i < body.locals.length → Usable v1 fr.locals i ∧ fr.locals.at v1 i = some (.i8 0)) ∧
      (v1.stack.gen = v.stack.gen →
        ∀ i, Usable v params i → Usable v1 params i ∧ params.at v1 i = params.at v i) := by
  obtain ⟨r, v1, hal⟩ := stackAlloc_room (v := { v with allocated := 0 }) (n := body.locals.length) hroom
  obtain ⟨hr, h2, h3, -⟩ := stackAlloc_ok hal
  refine ⟨{ method := m, assembly := asm, code := body.code, locals := r, params }, v1, ?_, rfl, rfl, rfl, rfl, ?_,
    by rw [h2], by rw [h2], by rw [h2], by rw [h2], ?_, ?_⟩
  · intro fuel; rw [invoke_run (loop_free cfg ops tf fuel) hm ht ha hal]
  · subst hr
    cases params with
    | host => trivial
    | slots g b c => exact .inr (hp g b c rfl)
  · intro i hi
    subst hr
    refine ⟨⟨hi, rfl, by rw [h3]; simp⟩, ?_⟩
    simp only [Region.at, h3]
    rw [List.getElem?_append_right (by omega)]
    simp [hi]
  · intro hg i hi
    have := Usable.alloc hal hg (s := params) (i := i) (by cases params <;> exact hi)
    refine ⟨this.1, this.2.trans ?_⟩
    cases params <;> rfl

end Clr
