import Verif.Spec.Garbage
import Verif.Lemmas.Garbage
import Verif.Lemmas.Waste
import Verif.Props.Arith
/-!
# C110: the memory of objects that are no longer used

`Vec` never gives memory back and `GcHeap::collect` is empty (gc/mod.rs:99). The memory used for objects is the length of the
heap's vector when the execution ends, in whatever way.
-/

namespace Clr
variable {cfg : Cfg}

/-- How much memory for objects is in use when an execution ends. -/
def memoryUsed (cfg : Cfg) (ops : FloatOps) (tf fuel : Nat) (w : World) (m : MethodRec) (params : List Value) : Nat :=
  (hostExecute cfg ops tf fuel w m params).2.heap.mem.length

/-- **C110**, for methods that drop every object as soon as it is made: however many objects they make, they run in a gigabyte
if the literals of the program take less than a megabyte. -/
def C110_full : Prop := ∀ (cfg : Cfg) (ops : FloatOps) (tf : Nat) (w : World) (m : MethodRec) (body : MethodBody),
  m.impl = .il body → Spec.DropsAtOnce body.code → (∀ a ∈ w.assemblies, a.userStringData.length < 2 ^ 20) →
  ∀ fuel params, memoryUsed cfg ops tf fuel w m params ≤ 2 ^ 30

theorem creates_byte {code : Bytes} (h : ∀ b ∈ code, b ∉ Spec.creating) {ip i : Nat} {op : Op} (hf : fetchOp code ip = .ok (op, i)) :
    op.creates = false := by
  have hcode : ∀ n, Op.ofCode n = some op → op.code = n := fun n hn => by
    have := List.find?_some hn
    exact of_decide_eq_true this
  cases hc : op.creates with
  | false => rfl
  | true =>
    exfalso
    have hop : op.code ∈ [0x72, 0x73, 0x8d] := by
      cases op <;> first | (cases hc; done) | decide
    unfold fetchOp at hf
    obtain ⟨b, hb, hf⟩ := Res.bind_eq_ok.1 hf
    have hb : code[ip]? = some b := unwrap_eq_ok.1 hb
    split at hf
    · next hgt =>
      obtain ⟨c, -, hf⟩ := Res.bind_eq_ok.1 hf
      obtain ⟨op', ho, hf⟩ := Res.bind_eq_ok.1 hf
      cases hf
      have e := hcode _ (unwrap_eq_ok.1 ho)
      have h1 : b.toNat <<< 8 ≤ c.toNat ||| (b.toNat <<< 8) := Nat.right_le_or
      rw [← e, Nat.shiftLeft_eq] at h1
      have : op.code ≤ 0x8d := by
        simp only [List.mem_cons, List.not_mem_nil, or_false] at hop
        omega
      omega
    · obtain ⟨op', ho, hf⟩ := Res.bind_eq_ok.1 hf
      cases hf
      have e := hcode _ (unwrap_eq_ok.1 ho)
      refine h b (List.mem_of_getElem? hb) ?_
      rw [e] at hop
      simp only [List.mem_cons, List.not_mem_nil, or_false] at hop
      unfold Spec.creating
      simp only [List.mem_cons, List.not_mem_nil, or_false]
      rcases hop with h | h | h
      · exact .inl (UInt8.toNat_inj.1 h)
      · exact .inr (.inl (UInt8.toNat_inj.1 h))
      · exact .inr (.inr (UInt8.toNat_inj.1 h))

/-- **C110 for methods that create nothing**, with everything they call: they use no memory for objects at all, however the
execution ends and however long it takes. -/
theorem C110_none_partial (ops : FloatOps) (tf fuel : Nat) (w : World) (M : MethodRec → Prop) (hM : Spec.Creationless cfg w M)
    (m : MethodRec) (hm : M m) (params : List Value) : memoryUsed cfg ops tf fuel w m params = 0 := by
  unfold memoryUsed hostExecute
  split
  · have hT : Thrifty cfg w M := ⟨fun m body h1 h2 ip op i h3 => creates_byte (hM.code m body h1 h2) h3, hM.calls⟩
    have h := invoke_takes (b := true) (cfg := cfg) (fun _ => hT) (fun fr ip hf => loop_takes (b := true) nofun (fun _ => hT) ops tf fuel fr ip hf) m
      (fun _ => hm) .host { world := w, host := params } fun _ => ⟨rfl, rfl⟩
    exact (h.same rfl).1
  · rfl

/-- **Memory is never used again**: in a build with overflow checks no execution of any code, from any state, ends with less
memory in use than it began with. -/
theorem C110_never (hc : cfg.checks = true) (ops : FloatOps) (tf fuel : Nat) (fr : Frame) (ip : Nat) (v : VM) :
    v.heap.mem.length ≤ (loop cfg ops tf fuel fr ip v).2.heap.mem.length :=
  (loop_takes (b := false) (fun _ => hc) (w := v.world) (M := fun _ => True) nofun ops tf fuel fr ip nofun v nofun).more

/-- Without overflow checks memory does get lost, though not the memory of unused objects: an array of length -5 is given the
last three bytes of the string made before, and they are cut off. -/
example :
    let m := Ex.meth [0x72, 1, 0, 0, 0x70, 0x26, 0x1f, 0xfb, 0x8d, 1, 0, 0, 1, 0x26, 0x2a]
    let w := Ex.tiny [m] [] [0, 3, 0x41, 0, 0]
    memoryUsed .release Ex.floats 9 2 w m [] = 15 ∧ memoryUsed .release Ex.floats 9 40 w m [] = 12 := by
  decide +kernel

/-- **The code falsifies the claim**: `while (n != 0) { "A"; n = n - 1; }` drops every string at once, and uses fifteen bytes
for each of them. -/
theorem C110_refuted (ops : FloatOps) (tf n : Nat) (hn : n < 2 ^ 31) :
    (hostExecute .debug ops tf (9 * n + 3) Ex.wasteWorld Ex.waste [.i32 (BitVec.ofNat 32 n)]).1 = .ok .void ∧
    memoryUsed .debug ops tf (9 * n + 3) Ex.wasteWorld Ex.waste [.i32 (BitVec.ofNat 32 n)] = 15 * n := by
  obtain ⟨h, e, hm⟩ := waste_loop (ops := ops) (tf := tf) n
    (v := { world := Ex.wasteWorld, host := [.i32 (BitVec.ofNat 32 n)] }) hn rfl rfl rfl
    ⟨(by decide : 1024 ≤ 1024), (by decide : 0 ≤ 1024), (by decide : 1024 ≤ 2 * 0 + 2000)⟩ (by show 0 + 15 * n < _; omega)
  have hi : invoke .debug (loop .debug ops tf (9 * n + 3)) Ex.waste .host
      { world := Ex.wasteWorld, host := [.i32 (BitVec.ofNat 32 n)] } =
      (.ok none, { world := Ex.wasteWorld, heap := h, host := [.i32 0] }) := by
    have : ((do
        let locals ← stackAlloc 0
        loop .debug ops tf (9 * n + 3) { method := Ex.waste, assembly := Ex.wasteWorld.assemblies[0], code := Ex.wasteCode, locals, params := .host } 0 : X _)
        { world := Ex.wasteWorld, host := [.i32 (BitVec.ofNat 32 n)] }) = (.ok none, { world := Ex.wasteWorld, heap := h, host := [.i32 0] }) := by
      rw [X.bind_ok (a := .slots 0 0 0) (v' := { world := Ex.wasteWorld, host := [.i32 (BitVec.ofNat 32 n)] }) (by rfl)]
      exact e
    show X.finally' (do
        let locals ← stackAlloc 0
        loop .debug ops tf (9 * n + 3) { method := Ex.waste, assembly := Ex.wasteWorld.assemblies[0], code := Ex.wasteCode, locals, params := .host } 0 : X _)
        (release .debug 0) { world := Ex.wasteWorld, host := [.i32 (BitVec.ofNat 32 n)] } = _
    unfold X.finally'
    rw [this]
    rfl
  unfold memoryUsed hostExecute
  rw [if_pos (show Ex.waste.isStatic = true from rfl)]
  dsimp only
  rw [hi]
  exact ⟨rfl, by show h.mem.length = _; rw [hm]; simp⟩

theorem C110_full_refuted : ¬ C110_full := fun h => by
  have hd : Spec.DropsAtOnce Ex.wasteCode := by
    refine ⟨by decide, fun ip hip => ?_⟩
    have h1 : ip < 17 := (List.getElem?_eq_some_iff.1 hip).1
    have : ∀ ip < 17, Ex.wasteCode[ip]? = some 0x72 → Ex.wasteCode[ip + 5]? = some 0x26 := by decide
    exact this ip h1 hip
  have h1 := h .debug Ex.floats 0 Ex.wasteWorld Ex.waste _ rfl hd (by decide) (9 * 2 ^ 30 + 3) [.i32 (BitVec.ofNat 32 (2 ^ 30))]
  rw [(C110_refuted Ex.floats 0 (2 ^ 30) (by decide)).2] at h1
  exact absurd h1 (by decide)

/-- Methods that meet the hypotheses of `C110_none_partial`: one that calls itself and stores into its argument, `P(a) { if (a)
{ a = 0; P(a); } return a; }`; it returns. -/
theorem Ex.creationless :
    let m := Ex.meth [0x02, 0x2c, 0x0a, 0x16, 0x10, 0x00, 0x02, 0x28, 1, 0, 0, 6, 0x2a, 0x02, 0x2a] 8 1
    Spec.Creationless .debug (Ex.tiny [m]) (· = m) ∧
    (hostExecute .debug Ex.floats 9 40 (Ex.tiny [m]) m [.i32 5]).1 = .ok (.number (.i32 0)) := by
  intro m
  refine ⟨⟨fun m' body hm hb => ?_, fun m' tr a t m'' hm ht ha hr => ?_⟩, by decide +kernel⟩
  · subst hm; cases hb; decide
  · subst hm
    obtain rfl : (Ex.tiny [m]).types[1] = tr := by cases ht; rfl
    obtain rfl : (Ex.tiny [m]).assemblies[0] = a := by cases ha; rfl
    unfold AssemblyRec.resolveMethod at hr
    have key : ∀ i : Nat, ([m] : List MethodRec)[i]? = some m'' → m'' = m := fun i h => by
      have := List.mem_of_getElem? h
      simpa using this
    split at hr
    · obtain ⟨i, -, hr⟩ := Res.bind_eq_ok.1 hr
      exact key i (Res.ok.inj hr)
    · split at hr
      · obtain ⟨i, -, hr⟩ := Res.bind_eq_ok.1 hr
        cases Res.ok.inj hr
      · cases hr

end Clr
