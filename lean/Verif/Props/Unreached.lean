import Verif.Lemmas.Unreached
import Verif.Props.Spelling
/-! # C117: only the code that control can come to matters -/

namespace Clr
open Spec

variable {cfg : Cfg} {ops : FloatOps} {tf : Nat} {w : World} {m m' : MethodRec} {params : List Value}

/-- **C117**: bytes that control cannot come to may be changed, added at the end and removed there, in any number of methods, and so may everything
else of a body but the number of its locals: the program ends if it ended before and conversely, with the same result, and leaves
the same registry, parameters and objects. -/
def Spec.UnreachedDoesNotMatter (ok : Bytes → Prop) : Prop :=
  ∀ (cfg : Cfg) (ops : FloatOps) (tf : Nat) (w : World) (m m' : MethodRec) (params : List Value) (φ : MethodRec → MethodRec),
    (∀ m, Trimmed ok m (φ m)) → Trimmed ok m m' →
    ((∃ fuel, (hostExecute cfg ops tf fuel w m params).1 ≠ .timeout) ↔
      ∃ fuel, (hostExecute cfg ops tf fuel (withMethods φ w) m' params).1 ≠ .timeout) ∧
    ∀ fuel fuel', (hostExecute cfg ops tf fuel w m params).1 ≠ .timeout →
      (hostExecute cfg ops tf fuel' (withMethods φ w) m' params).1 ≠ .timeout →
      hostExecute cfg ops tf fuel' (withMethods φ w) m' params =
        ((hostExecute cfg ops tf fuel w m params).1, leftWith φ (hostExecute cfg ops tf fuel w m params).2)

/-- **C117, partial**: for code in which control comes to no `ldarg` or `starg` with an index of two bytes. Missing are these, for which the
claim fails (`C117_refuted`), and code in which control comes to instructions that are not implemented or not complete. -/
theorem C117_partial : UnreachedDoesNotMatter ShortArgs := by
  intro cfg ops tf w m m' params φ hφ hm
  exact hostExecute_concur hm.matched (loop_covered hφ)

/-- **C117, one method, partial**: with the same registry, two bodies of the executed method that are the same where control comes to do
the same. -/
theorem C117_method_partial (hm : Trimmed ShortArgs m m') :
    ((∃ fuel, (hostExecute cfg ops tf fuel w m params).1 ≠ .timeout) ↔ ∃ fuel, (hostExecute cfg ops tf fuel w m' params).1 ≠ .timeout) ∧
    ∀ fuel fuel', (hostExecute cfg ops tf fuel w m params).1 ≠ .timeout → (hostExecute cfg ops tf fuel' w m' params).1 ≠ .timeout →
      hostExecute cfg ops tf fuel w m params = hostExecute cfg ops tf fuel' w m' params := by
  have h := C117_partial cfg ops tf w m m' params id (fun _ => ⟨rfl, .inl rfl⟩) hm
  rw [withMethods_id] at h
  refine ⟨h.1, fun fuel fuel' h1 h2 => ?_⟩
  rw [h.2 fuel fuel' h1 h2]
  unfold leftWith
  rw [withMethods_id]

/-! ## A program with unreachable bytes -/

/-- Where the instruction at an address leads, if one encoding fits there. -/
theorem passes_one {code : Bytes} {ip n : Nat} {e : Encoding} (h : Passes code ip n)
    (he : (encodings.filter fun e => HasAt code ip e.opcode) = [e]) :
    (e.mnemonic ≠ "ret" ∧ e.mnemonic ≠ "br" ∧ e.mnemonic ≠ "br.s" ∧ n = ip + e.opcode.length + e.operand.size) ∨
      ((e.operand = .target8 ∨ e.operand = .target32) ∧ ∃ d, fetchInt code (ip + e.opcode.length) e.operand.size = .ok d ∧
        (n : Int) = (ip + e.opcode.length + e.operand.size : Nat) + d) := by
  obtain ⟨e', h1, arg, h2, h3, h4⟩ := h
  have : e' ∈ encodings.filter fun e => HasAt code ip e.opcode := List.mem_filter.2 ⟨h1, by simpa using h3.left⟩
  rw [he, List.mem_singleton] at this
  subst this
  rw [List.length_append, h2, ← Nat.add_assoc] at h4
  rcases h4 with h | ⟨g, d, rfl, g2, g3⟩
  · exact .inl h
  · exact .inr ⟨g, d, fetchInt_ok (by rcases g with g | g <;> rw [g] <;> decide) h3.drop g2, g3⟩

/-- `br.s` over two bytes that are no instruction; `ldarg.0; ret`. -/
def Ex.over : Bytes := [0x2b, 0x02, 0xff, 0xff, 0x02, 0x2a]

/-- The same with other bytes in between and behind. -/
def Ex.over' : Bytes := [0x2b, 0x02, 0x28, 0x00, 0x02, 0x2a, 0x2b, 0xfe]

theorem Ex.over_visits {ip : Nat} (h : Visits over ip) : ip = 0 ∨ ip = 4 ∨ ip = 5 := by
  induction h with
  | refl => exact .inl rfl
  | tail _ hp ih =>
    rcases ih with rfl | rfl | rfl
    · have h0 : (encodings.filter fun e => HasAt over 0 e.opcode) = [⟨"br.s", [0x2b], .target8⟩] := by decide +kernel
      rcases passes_one hp h0 with h | ⟨-, d, hd, hn⟩
      · exact absurd rfl h.2.2.1
      · have : fetchInt over 1 1 = .ok 2 := by decide +kernel
        cases this.symm.trans hd
        right; left
        simp only [Operand.size, List.length_singleton] at hn
        omega
    · have h0 : (encodings.filter fun e => HasAt over 4 e.opcode) = [⟨"ldarg.0", [0x02], .none⟩] := by decide +kernel
      rcases passes_one hp h0 with h | ⟨h, -⟩
      · exact .inr (.inr h.2.2.2)
      · rcases h with h | h <;> cases h
    · have h0 : (encodings.filter fun e => HasAt over 5 e.opcode) = [⟨"ret", [0x2a], .none⟩] := by decide +kernel
      rcases passes_one hp h0 with h | ⟨h, -⟩
      · exact absurd rfl h.1
      · rcases h with h | h <;> cases h

theorem Ex.over_trimmed : Trimmed ShortArgs (meth over 8 1) (meth over' 8 1) := by
  refine ⟨rfl, .inr ⟨_, _, rfl, rfl, rfl, by decide, by decide, fun ip h => ?_, fun ip h => ?_⟩⟩
  · rcases over_visits h with rfl | rfl | rfl
    · exact ⟨⟨"br.s", [0x2b], .target8⟩, by decide +kernel, [0x02], rfl, by decide, by decide⟩
    · exact ⟨⟨"ldarg.0", [0x02], .none⟩, by decide +kernel, [], rfl, by decide, by decide⟩
    · exact ⟨⟨"ret", [0x2a], .none⟩, by decide +kernel, [], rfl, by decide, by decide⟩
  · rcases over_visits h with rfl | rfl | rfl <;> decide

/-- Puts the one body in place of the other. -/
def Ex.trim (m : MethodRec) : MethodRec := if m = meth over 8 1 then meth over' 8 1 else m

theorem Ex.trim_trims (m : MethodRec) : Trimmed ShortArgs m (trim m) := by
  unfold trim
  split
  · subst_vars; exact over_trimmed
  · exact ⟨rfl, .inl rfl⟩

/-- A program that calls the method, with both bodies. -/
example : (∀ m, Trimmed ShortArgs m (Ex.trim m)) ∧ Trimmed ShortArgs Ex.caller Ex.caller ∧
    (hostExecute .debug Ex.floats 9 20 (Ex.tiny [Ex.meth Ex.over 8 1, Ex.caller]) Ex.caller [.i32 3]).1 = .ok (.number (.i32 6)) ∧
    (hostExecute .debug Ex.floats 9 20 (withMethods Ex.trim (Ex.tiny [Ex.meth Ex.over 8 1, Ex.caller])) Ex.caller [.i32 3]).1 =
      .ok (.number (.i32 6)) ∧
    (withMethods Ex.trim (Ex.tiny [Ex.meth Ex.over 8 1, Ex.caller])) ≠ Ex.tiny [Ex.meth Ex.over 8 1, Ex.caller] :=
  ⟨Ex.trim_trims, ⟨rfl, .inl rfl⟩, by decide +kernel⟩

/-- **C117 fails if every encoding is allowed**: the bytes behind `ldarg 0; ret` are taken for a part of the index. -/
theorem C117_refuted : ¬ UnreachedDoesNotMatter fun _ => True := by
  intro h
  have hv : ∀ ip, Visits [0xfe, 0x09, 0, 0, 0x2a] ip → ip = 0 ∨ ip = 4 := by
    intro ip h
    induction h with
    | refl => exact .inl rfl
    | tail _ hp ih =>
      rcases ih with rfl | rfl
      · have h0 : (encodings.filter fun e => HasAt [0xfe, 0x09, 0, 0, 0x2a] 0 e.opcode) = [⟨"ldarg", [0xfe, 0x09], .uint16⟩] := by decide +kernel
        rcases passes_one hp h0 with h | ⟨h, -⟩
        · exact .inr h.2.2.2
        · rcases h with h | h <;> cases h
      · have h0 : (encodings.filter fun e => HasAt [0xfe, 0x09, 0, 0, 0x2a] 4 e.opcode) = [⟨"ret", [0x2a], .none⟩] := by decide +kernel
        rcases passes_one hp h0 with h | ⟨h, -⟩
        · exact absurd rfl h.1
        · rcases h with h | h <;> cases h
  have hr : Trimmed (fun _ => True) (Ex.meth [0xfe, 0x09, 0, 0, 0x2a] 8 1) (Ex.meth [0xfe, 0x09, 0, 0, 0x2a, 0] 8 1) := by
    refine ⟨rfl, .inr ⟨_, _, rfl, rfl, rfl, by decide, by decide, fun ip h => ?_, trivial⟩⟩
    rcases hv ip h with rfl | rfl
    · exact ⟨⟨"ldarg", [0xfe, 0x09], .uint16⟩, by decide +kernel, [0, 0], rfl, by decide, by decide⟩
    · exact ⟨⟨"ret", [0x2a], .none⟩, by decide +kernel, [], rfl, by decide, by decide⟩
  have := (h .release Ex.floats 9 (Ex.tiny []) _ _ [.i32 7] id (fun m => ⟨rfl, .inl rfl⟩) hr).2 9 9
  revert this
  decide +kernel

end Clr
