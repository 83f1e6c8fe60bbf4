import Verif.Lemmas.Align
import Verif.Lemmas.Vars
import Verif.Lemmas.Objects
import Verif.Lemmas.Tiny
import Verif.Props.Arith
import Verif.Props.Tables
/-!
# C101: memory is accessed only at addresses aligned for the type accessed

`Strict` is the interpreter with the address of every typed access checked, for buffers at addresses given by a `Placement`.
-/

namespace Clr

variable {cfg : Cfg} {ops : FloatOps} {tf fuel : Nat} {w : World} {m : MethodRec} {params : List Value} {pl : Placement}

/-- **C101**: checking addresses only stops executions: whatever the addresses, an execution in which no check fails has the
result and the effects described by the other properties. -/
theorem C101_checked (h : (Strict.hostExecute pl cfg ops tf fuel w m params).1 ≠ .ub) :
    Strict.hostExecute pl cfg ops tf fuel w m params = hostExecute cfg ops tf fuel w m params := by
  unfold Strict.hostExecute hostExecute at *
  have hn : Narrow (invoke cfg (loop cfg ops tf fuel) m .host) (Strict.invoke pl cfg (Strict.loop pl cfg ops tf fuel) m .host) :=
    inferInstance
  split
  · rename_i hs
    rw [if_pos hs] at h
    dsimp only at h ⊢
    rw [hn.eq _ (fun hu => h (by rw [hu]; rfl))]
  · rfl

/-- **C101, the part that holds**: with buffers at addresses that suit every type, no check fails in the execution of methods
whose operands are at multiples of their size and which do not access fields, elements and strings. -/
theorem C101_partial {M : MethodRec → Prop} (hM : Spec.Even cfg w M) (hm : M m) (hp : pl.Usual)
    (h : (hostExecute cfg ops tf fuel w m params).1 ≠ .ub) :
    Strict.hostExecute pl cfg ops tf fuel w m params = hostExecute cfg ops tf fuel w m params := by
  unfold Strict.hostExecute hostExecute at *
  split
  · rename_i hs
    rw [if_pos hs] at h
    dsimp only at h ⊢
    rw [invoke_aligned hM hp (loop_aligned hM hp) hm _ (.refl _) (fun hu => h (by rw [hu]; rfl))]
  · rfl

/-- `nop; nop; nop; call #2; ret`, where the second method is `nop; nop; nop; ldc.i4 5; ret`. -/
def Ex.evenMethods : List MethodRec :=
  [Ex.meth [0, 0, 0, 0x28, 2, 0, 0, 6, 0x2a] 8, Ex.meth [0, 0, 0, 0x20, 5, 0, 0, 0, 0x2a] 8]

theorem Ex.evenCode {code : Bytes} (h : code ∈ [[0, 0, 0, 0x28, 2, 0, 0, 6, 0x2a], [0, 0, 0, 0x20, 5, 0, 0, 0, 0x2a]]) :
    Spec.EvenCode code (· ∈ [0, 1, 2, 3, 8]) := by
  refine ⟨by decide, fun ip hip => ?_, fun ip e hip he => ?_⟩
  · revert code
    have : ∀ code ∈ ([[0, 0, 0, 0x28, 2, 0, 0, 6, 0x2a], [0, 0, 0, 0x20, 5, 0, 0, 0, 0x2a]] : List Bytes), ∀ ip ∈ [0, 1, 2, 3, 8],
        ∃ e ∈ (encodings.filter fun e => e.mnemonic ≠ "ldarg" ∧ e.mnemonic ≠ "starg"),
          HasAt code ip (e.opcode ++ (code.drop (ip + e.opcode.length)).take e.operand.size) ∧
          ((code.drop (ip + e.opcode.length)).take e.operand.size).length = e.operand.size ∧
          (e.mnemonic ≠ "ret" → (ip + (e.opcode ++ (code.drop (ip + e.opcode.length)).take e.operand.size).length) ∈ [0, 1, 2, 3, 8]) ∧
          e.operand ≠ .target8 ∧ e.operand ≠ .target32 := by decide +kernel
    intro code hc
    obtain ⟨e, he, h1, h2, h3, h4, h5⟩ := this code hc ip hip
    exact ⟨e, he, _, h2, h1, fun h _ _ => h3 h, fun h => h.elim (fun h => absurd h h4) (fun h => absurd h h5)⟩
  · revert code
    have : ∀ code ∈ ([[0, 0, 0, 0x28, 2, 0, 0, 6, 0x2a], [0, 0, 0, 0x20, 5, 0, 0, 0, 0x2a]] : List Bytes), ∀ ip ∈ [0, 1, 2, 3, 8],
        ∀ e ∈ encodings, HasAt code ip e.opcode →
          e.mnemonic ∉ Spec.objectInstructions ∧ (e.operand.size = 0 ∨ (ip + e.opcode.length) % e.operand.size = 0) := by decide +kernel
    exact fun code hc => this code hc ip hip e he

/-- The hypotheses of the theorem hold for the two methods, and the execution returns 5. -/
example : Spec.Even .debug (Ex.tiny Ex.evenMethods) (· ∈ Ex.evenMethods) ∧
    (⟨fun _ => 4096, fun _ => 4096, fun _ => 4096⟩ : Placement).Usual ∧
    (hostExecute .debug Ex.floats 0 20 (Ex.tiny Ex.evenMethods) (Ex.meth [0, 0, 0, 0x28, 2, 0, 0, 6, 0x2a] 8) []).1 = .ok (.number (.i32 5)) := by
  refine ⟨⟨by decide, by decide, fun m body hm hb => ?_⟩, ⟨fun _ => by show 4096 % 8 = 0; decide, fun _ => by show 4096 % 8 = 0; decide, fun _ => by show 4096 % 8 = 0; decide⟩, by decide +kernel⟩
  have hcode : body.code ∈ [[0, 0, 0, 0x28, 2, 0, 0, 6, 0x2a], [0, 0, 0, 0x20, 5, 0, 0, 0, 0x2a]] := by
    revert hb
    simp only [Ex.evenMethods, List.mem_cons, List.not_mem_nil, or_false] at hm
    rcases hm with rfl | rfl <;> intro hb <;> cases hb <;> decide
  have hty : m.declaringType = 1 := by
    simp only [Ex.evenMethods, List.mem_cons, List.not_mem_nil, or_false] at hm
    rcases hm with rfl | rfl <;> rfl
  refine ⟨?_, _, Ex.evenCode hcode, fun ip e arg tr a m' hip he hmn hl hat ht ha hr => ?_⟩
  · have : ∀ code ∈ ([[0, 0, 0, 0x28, 2, 0, 0, 6, 0x2a], [0, 0, 0, 0x20, 5, 0, 0, 0, 0x2a]] : List Bytes), code.length < 2 ^ 62 := by decide
    exact this _ hcode
  · rw [hty] at ht
    obtain rfl : (Ex.tiny Ex.evenMethods).types[1] = tr := by cases ht; rfl
    obtain rfl : (Ex.tiny Ex.evenMethods).assemblies[0] = a := by cases ha; rfl
    have hc : (Ex.tiny Ex.evenMethods).assemblies[0].methodDefs = Ex.evenMethods := rfl
    have hr' : (Ex.tiny Ex.evenMethods).assemblies[0].methodRefs = [] := rfl
    unfold AssemblyRec.resolveMethod at hr
    rw [hc, hr'] at hr
    split at hr
    · obtain ⟨i, -, hr⟩ := Res.bind_eq_ok.1 hr
      exact List.mem_of_getElem? (Res.ok.inj hr)
    · split at hr
      · obtain ⟨i, -, hr⟩ := Res.bind_eq_ok.1 hr
        cases Res.ok.inj hr
      · cases hr

/-- The full claim, for one method: no check fails where the execution is otherwise defined. -/
def AlignedExecution (pl : Placement) (cfg : Cfg) (ops : FloatOps) (tf fuel : Nat) (w : World) (m : MethodRec) (params : List Value) : Prop :=
  (hostExecute cfg ops tf fuel w m params).1 ≠ .ub → (Strict.hostExecute pl cfg ops tf fuel w m params).1 ≠ .ub

/-- **C101 fails** for every method that begins by loading two four-byte constants: wherever its code is put, one of the two is
not aligned. -/
theorem C101_constants {body : MethodBody} {tr : TypeRec} {a : AssemblyRec} {c : Bytes} (hs : m.isStatic = true) (hb : m.impl = .il body)
    (hc : HasAt body.code 0 (0x20 :: (c ++ [0x20]))) (hcl : c.length = 4)
    (ht : w.typeAt m.declaringType = .ok tr) (ha : w.assemblies.find? (·.id = tr.assembly) = some a)
    (hl : 16 * body.locals.length < 2 ^ 62) (pl : Placement) :
    (Strict.hostExecute pl cfg ops tf (fuel + 2) w m params).1 = .ub := by
  unfold Strict.hostExecute
  rw [if_pos hs]
  dsimp only
  suffices h : (Strict.invoke pl cfg (Strict.loop pl cfg ops tf (fuel + 2)) m .host { world := w, host := params }).1 = .ub by
    rw [h]; rfl
  have hrun : ∀ fr v, fr.method = m → fr.code = body.code → (Strict.loop pl cfg ops tf (fuel + 2) fr 0 v).1 = .ub := by
    intro fr v hfm hfc
    rw [← hfc] at hc
    have hc1 : HasAt fr.code 0 (0x20 :: c) := HasAt.left (b := [0x20]) hc
    have hc2 : HasAt fr.code (0 + (0x20 :: c).length) [0x20] := HasAt.drop (a := 0x20 :: c) hc
    by_cases h1 : (pl.code fr.method + (0 + 1)) % 4 = 0
    · obtain ⟨v', hv⟩ := constant_next (cfg := cfg) (ops := ops) (tf := tf) (fuel := fuel + 1) (v := v) hcl hc1 h1
      rw [hv]
      refine constant_ub ?_ (by omega)
      rw [List.length_cons, hcl] at hc2
      exact hc2
    · exact constant_ub (HasAt.left (b := c) hc1) h1
  unfold Strict.invoke
  rw [hb]
  dsimp only
  have e1 : X.view (fun v => v.world.typeAt m.declaringType) { world := w, host := params } = (.ok tr, { world := w, host := params }) :=
    congrArg (·, ({ world := w, host := params } : VM)) ht
  have e2 : X.view (fun v => Res.unwrap (v.world.assemblies.find? (·.id = tr.assembly))) { world := w, host := params } =
      (.ok a, { world := w, host := params }) := congrArg (fun o => (Res.unwrap o, ({ world := w, host := params } : VM))) ha
  rw [X.bind_ok e1, X.bind_ok e2, X.bind_ok (X.update_ok rfl)]
  unfold Strict.finally'
  have hx : ((do
      let locals ← Strict.stackAlloc pl body.locals.length
      Strict.loop pl cfg ops tf (fuel + 2) { method := m, assembly := a, code := body.code, locals, params := .host } 0 : X (Option Value))
      { world := w, host := params, allocated := 0 }).1 = .ub := by
    rw [X.bind_run]
    obtain ⟨r, v', hr⟩ : ∃ r v', stackAlloc body.locals.length { world := w, host := params, allocated := 0 } = (.ok r, v') :=
      stackAlloc_room ⟨by show (1024 : Nat) < 2 ^ 62; decide, by show 16 * (0 + body.locals.length) < _; omega⟩
    cases hsa : Strict.stackAlloc pl body.locals.length { world := w, host := params, allocated := 0 } with
    | mk r1 v1 =>
    have hn : Narrow (stackAlloc body.locals.length) (Strict.stackAlloc pl body.locals.length) := inferInstance
    have := hn.eq { world := w, host := params, allocated := 0 }
    rw [hsa, hr] at this
    cases r1 with
    | ub => rfl
    | ok r => exact hrun _ _ rfl rfl
    | _ => exact absurd (this (by simp)) (by simp)
  simp only [hx]

/-- `ldc.i4 5; ldc.i4 7; add; ret` -/
def Ex.twoConstants : MethodRec := Ex.meth [0x20, 5, 0, 0, 0, 0x20, 7, 0, 0, 0, 0x58, 0x2a] 8

/-- **C101 fails**: a method that returns 12 by every other rule accesses a number at an address that is not aligned, wherever
the buffers are. -/
theorem C101_refuted : (hostExecute .debug Ex.floats 0 10 (Ex.tiny [Ex.twoConstants]) Ex.twoConstants []).1 = .ok (.number (.i32 12)) ∧
    ∀ pl, (Strict.hostExecute pl .debug Ex.floats 0 10 (Ex.tiny [Ex.twoConstants]) Ex.twoConstants []).1 = .ub ∧
      ¬ AlignedExecution pl .debug Ex.floats 0 10 (Ex.tiny [Ex.twoConstants]) Ex.twoConstants [] := by
  have h1 : (hostExecute .debug Ex.floats 0 10 (Ex.tiny [Ex.twoConstants]) Ex.twoConstants []).1 = .ok (.number (.i32 12)) := by
    decide +kernel
  have h2 : ∀ pl, (Strict.hostExecute pl .debug Ex.floats 0 10 (Ex.tiny [Ex.twoConstants]) Ex.twoConstants []).1 = .ub := fun pl =>
    C101_constants (fuel := 8) (c := [5, 0, 0, 0]) rfl rfl (by decide) rfl rfl rfl (by decide) pl
  exact ⟨h1, fun pl => ⟨h2 pl, fun h => h (by rw [h1]; simp) (h2 pl)⟩⟩

/-! ## Accesses to objects -/

variable {v v' v'' : VM} {p q : Ptr}

/-- **C101**: exactly the strings at even addresses are misplaced: their characters follow a header of thirteen bytes. -/
theorem C101_string {us : List Nat} (h : allocString cfg us v = (.ok p, v')) :
    (Strict.allocString pl cfg us v).1 = .ub ↔ (pl.heap p.gen + p.off) % 2 = 0 := by
  rw [allocString_exact h]
  omega

/-- The same for reading the characters. -/
theorem C101_string_read {us : List Nat} (h : stringData p v = (.ok us, v')) :
    (Strict.stringData pl p v).1 = .ub ↔ (pl.heap p.gen + p.off) % 2 = 0 := by
  rw [stringData_exact h]
  omega

/-- **C101 fails**: of two strings made one after the other in the same buffer one is misplaced, wherever the buffer is. -/
theorem C101_two_strings {us us' : List Nat} (h : allocString cfg us v = (.ok p, v')) (h' : allocString cfg us' v' = (.ok q, v''))
    (hg : p.gen = q.gen) (h1 : v.heap.mem.length + (13 + 2 * us.length) < 2 ^ 64)
    (h2 : v'.heap.mem.length + (13 + 2 * us'.length) < 2 ^ 64) :
    (Strict.allocString pl cfg us v).1 = .ub ∨ (Strict.allocString pl cfg us' v').1 = .ub := by
  rw [C101_string h, C101_string h', ← hg]
  obtain ⟨_, _, -, -, -, hm, hp, -⟩ := allocString_ok h1 h
  obtain ⟨_, _, -, -, -, -, hq, -⟩ := allocString_ok h2 h'
  have hl := congrArg List.length hm
  rw [List.length_append, length_stringImage] at hl
  have e1 : p.off = v.heap.mem.length := by rw [hp]
  have e2 : q.off = v'.heap.mem.length := by rw [hq]
  omega

/-- **C101 fails**: the first string of every execution is misplaced when the heap is at an address that suits every type, as
the memory of a vector of bytes usually is. -/
theorem C101_first_string {us : List Nat} (hp : pl.Usual) (he : v.heap.mem = []) (hl : 13 + 2 * us.length < 2 ^ 64)
    (h : allocString cfg us v = (.ok p, v')) : (Strict.allocString pl cfg us v).1 = .ub := by
  rw [C101_string h]
  obtain ⟨_, _, -, -, -, -, hq, -⟩ := allocString_ok (by rw [he]; simpa using hl) h
  have e : p.off = 0 := by rw [hq, he]; rfl
  have := hp.heap p.gen
  omega

/-- **C101**: exactly the arrays whose address is not three more than a multiple of four are misplaced; for the others every
access to an element is in order. -/
theorem C101_element_read {i : Nat} {x : BitVec 32} (h : getInt p i v = (.ok x, v')) :
    (Strict.getInt pl p i v).1 = .ub ↔ (pl.heap p.gen + p.off) % 4 ≠ 3 := by
  rw [getInt_exact h]
  omega

/-- The same for storing an element. -/
theorem C101_element_write {i : Nat} {x : BitVec 32} (h : setInt p i x v = (.ok (), v')) :
    (Strict.setInt pl p i x v).1 = .ub ↔ (pl.heap p.gen + p.off) % 4 ≠ 3 := by
  rw [setInt_exact h]
  omega

/-- **C101**: exactly the fields at addresses that are not a multiple of the size of the number are misplaced; the fields
follow a header of five bytes. -/
theorem C101_field_write {f : FieldRec} {a : Value} {bs : Bytes} (hb : valueBytes a = .ok bs)
    (h : setField p f a v = (.ok (), v')) :
    (Strict.setField pl p f a v).1 = .ub ↔ (pl.heap p.gen + p.off + 5 + f.offset) % bs.length ≠ 0 := by
  rw [setField_exact hb h, Nat.add_assoc (pl.heap p.gen + p.off)]

/-! ## Reading -/

/-- **C101 fails** in reading: two rows of the table of types, when their columns are narrow, take fourteen bytes each, so the
flags of one of them are misplaced, wherever the file is in memory. -/
theorem C101_rows_refuted {t : TableCtx} {r r' : Reader} {rows : List TypeDefRow} (hr : r.Ok)
    (hs : t.wideString = false) (hc : t.wideCoded .typeDefOrRef = false) (hf : t.wideTable TableType.field.code = false)
    (hm : t.wideTable TableType.methodDef.code = false) (h : readMany (readTypeDefRow cfg t) 2 r = .ok (rows, r')) (base : Nat) :
    readMany (Strict.readTypeDefRow base cfg t) 2 r = .ub := by
  unfold readMany readMany at *
  obtain ⟨⟨x, r1⟩, h1, h⟩ := Res.bind_eq_ok.1 h
  obtain ⟨⟨xs, r2⟩, h2, h⟩ := Res.bind_eq_ok.1 h
  obtain ⟨⟨y, r3⟩, h3, h2⟩ := Res.bind_eq_ok.1 h2
  obtain ⟨e1, ok1, s1⟩ := readTypeDefRow_exact (base := base) hr hs hc hf hm h1
  obtain ⟨e2, ok2, s2⟩ := readTypeDefRow_exact (base := base) ok1 hs hc hf hm h3
  rw [s1]
  split
  · simp only [Res.ok_bind]
    rw [s2, if_neg (by omega)]
    rfl
  · rfl

/-- Tables with one row each: all columns are narrow. -/
def Ex.oneRowEach : TableCtx := TableCtx.ofCounts 0 (fun _ => 1)

/-- Two rows that can be read: the classes `<Module>` and `P`. -/
example : (match readMany (readTypeDefRow .debug Ex.oneRowEach) 2
      ⟨[0, 0, 0, 0, 1, 0, 0, 0, 0, 0, 1, 0, 1, 0, 1, 0, 16, 0, 10, 0, 0, 0, 5, 0, 1, 0, 1, 0], 0⟩ with
    | .ok (rows, r) => decide (rows.length = 2 ∧ r.pos = 28)
    | _ => false) = true ∧
    Ex.oneRowEach.wideString = false ∧ Ex.oneRowEach.wideCoded .typeDefOrRef = false ∧
    Ex.oneRowEach.wideTable TableType.field.code = false ∧ Ex.oneRowEach.wideTable TableType.methodDef.code = false := by decide +kernel

/-- Two strings, made one after the other, the characters of the second, an array and one of its elements, a field. -/
example : (allocString .debug [72, 105] { world := Ex.tiny [] }).1 = .ok ⟨0, 0⟩ ∧
    ((allocString .debug [72, 105] >>= fun _ => allocString .debug [33]) { world := Ex.tiny [] }).1 = .ok ⟨0, 17⟩ ∧
    ((allocString .debug [72, 105] >>= fun _ => allocString .debug [33] >>= fun p => stringData p) { world := Ex.tiny [] }).1 =
      .ok [33] ∧
    ((allocArray .debug 9 8 3 >>= fun p => setInt p 1 7 >>= fun _ => getInt p 1) { world := Ex.tiny [] }).1 = .ok 7 ∧
    ((allocObject .debug 9 1 >>= fun p => setField p ⟨"x".toList, 8, 1, false, 0⟩ (.i32 7) >>= fun _ =>
      getField p ⟨"x".toList, 8, 1, false, 0⟩) { world := Ex.tiny [] [⟨"x".toList, 8, 1, false, 0⟩] }).1 = .ok (.i32 7) := by
  decide +kernel

end Clr
