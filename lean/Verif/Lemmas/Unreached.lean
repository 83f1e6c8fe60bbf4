import Verif.Spec.Unreached
import Verif.Lemmas.Halts
import Verif.Lemmas.Spelling
/-! # Code that control cannot come to (for C117) -/

namespace Clr
open Spec

variable {cfg : Cfg} {ops : FloatOps} {tf fuel : Nat} {φ : MethodRec → MethodRec} {fr fr' : Frame} {ip : Nat}

theorem right_of_short {e : Encoding} {code arg : Bytes} (he : e ∈ encodings) (h : HasAt code ip (e.opcode ++ arg))
    (hs : ¬ HasAt code ip [0xfe, 0x09] ∧ ¬ HasAt code ip [0xfe, 0x0b]) : e.isRight = true := by
  have key : (encodings.all fun e => e.isRight || e.opcode = [0xfe, 0x09] || e.opcode = [0xfe, 0x0b]) = true := by decide +kernel
  have := List.all_eq_true.1 key _ he
  simp only [Bool.or_eq_true, decide_eq_true_eq] at this
  rcases this with (h' | h') | h'
  · exact h'
  · exact absurd (h' ▸ h.left) hs.1
  · exact absurd (h' ▸ h.left) hs.2

theorem opcodes_free : (encodings.all fun e => encodings.all fun e' => !e.opcode.isPrefixOf e'.opcode || e = e') = true := by decide +kernel

/-- At an address there is at most one complete instruction. -/
theorem encoding_unique {code arg arg' : Bytes} {e e' : Encoding} (he : e ∈ encodings) (he' : e' ∈ encodings) (ha : arg.length = e.operand.size)
    (ha' : arg'.length = e'.operand.size) (h : HasAt code ip (e.opcode ++ arg)) (h' : HasAt code ip (e'.opcode ++ arg')) : e = e' ∧ arg = arg' := by
  have key : ∀ e ∈ encodings, ∀ e' ∈ encodings, e.opcode <+: e'.opcode → e = e' := by
    intro e he e' he' hp
    have := List.all_eq_true.1 (List.all_eq_true.1 opcodes_free e he) e' he'
    rw [Bool.or_eq_true, Bool.not_eq_true', decide_eq_true_eq] at this
    rcases this with h | h
    · rw [← Bool.not_eq_true, List.isPrefixOf_iff_prefix] at h
      exact absurd hp h
    · exact h
  obtain rfl : e = e' := by
    rcases List.prefix_or_prefix_of_prefix h.left h'.left with hp | hp
    · exact key e he e' he' hp
    · exact (key e' he' e he hp).symm
  refine ⟨rfl, ?_⟩
  have h1 := List.prefix_of_prefix_length_le h h' (by simp [ha, ha'])
  exact ((List.prefix_append_right_inj _).1 h1).eq_of_length (by rw [ha, ha'])

theorem Passes.same {code code' arg : Bytes} {e : Encoding} {n : Nat} (he : e ∈ encodings) (ha : arg.length = e.operand.size)
    (h : HasAt code ip (e.opcode ++ arg)) (h' : HasAt code' ip (e.opcode ++ arg)) (hp : Passes code' ip n) : Passes code ip n := by
  obtain ⟨e', he', arg', ha', g, hp⟩ := hp
  obtain ⟨rfl, rfl⟩ := encoding_unique he he' ha ha' h' g
  exact ⟨e, he, arg, ha, h, hp⟩

/-- The same instruction in both codes. -/
theorem step_covered (hφ : Facade φ) (ht : Twins φ fr fr') {e : Encoding} {arg : Bytes} (he : e ∈ encodings) (hr : e.isRight = true)
    (ha : arg.length = e.operand.size) (h : HasAt fr.code ip (e.opcode ++ arg)) (h' : HasAt fr'.code ip (e.opcode ++ arg)) :
    InStep φ Eq (step cfg ops tf fr ip) (step cfg ops tf fr' ip) := by
  obtain ⟨op, hop, hsh⟩ := row_ok he hr
  intro v
  rw [step_of_fetch (fetchOp_of hop h.left), step_of_fetch (fetchOp_of hop h'.left)]
  have hf : e.operand.size ≠ 0 → fetch fr.code (ip + e.opcode.length) e.operand.size = fetch fr'.code (ip + e.opcode.length) e.operand.size := by
    intro hn
    rw [fetch_at h.drop ha (by omega), fetch_at h'.drop ha (by omega)]
  cases hb : e.operand.isTarget with
  | false =>
    rw [hb] at hsh
    exact exec_twins hφ ht hsh hf (fun _ => rfl) v
  | true =>
    rw [hb] at hsh
    have hn : e.operand.size ≠ 0 := by
      revert hb; cases e.operand <;> simp [Operand.isTarget, Operand.size]
    have hd : ∃ d, fetchInt fr.code (ip + e.opcode.length) e.operand.size = .ok d ∧
        fetchInt fr'.code (ip + e.opcode.length) e.operand.size = .ok d := by
      unfold fetchInt
      rw [← hf hn, fetch_at h.drop ha (by omega)]
      exact ⟨_, rfl, rfl⟩
    obtain ⟨d, h1, h2⟩ := hd
    revert h1 h2 hsh
    generalize e.operand.size = k
    intro hsh h1 h2
    revert v
    show InStep φ Eq (exec cfg ops tf fr op (ip + e.opcode.length)) (exec cfg ops tf fr' op (ip + e.opcode.length))
    cases op <;> simp only [Op.shape, reduceCtorEq, Option.some.injEq, Prod.mk.injEq, Bool.false_eq_true, and_false, and_true] at hsh <;>
      subst hsh <;> simp only [exec] <;>
      with_reducible (first | exact branch_twins h1 h2 rfl | exact branchIf_twins h1 h2 rfl rfl _ | exact branchCmp_twins h1 h2 rfl rfl _)

theorem InStep.where' {P : Nat → Nat → Prop} {x x' : X Action} (h : InStep φ Eq x x')
    (hp : ∀ v a a' n, (x v).1 = .ok a → (x' (v.withMethods φ)).1 = .ok a' → a.resumes = some n → a'.resumes = some n → P n n) : InStep φ P x x' := by
  intro v
  obtain ⟨h1, h2⟩ := h v
  refine ⟨h1, ?_⟩
  have hp := hp v
  generalize (x v).1 = r, (x' (v.withMethods φ)).1 = r' at h2 hp ⊢
  cases h2 with
  | @next n n' h => subst h; exact .next (hp _ _ n rfl rfl rfl rfl)
  | ret a => exact .ret a
  | @call t a n n' h => subst h; exact .call t a (hp _ _ n rfl rfl rfl rfl)
  | err m => exact .err m
  | panic => exact .panic
  | ub => exact .ub
  | timeout => exact .timeout

/-- Frames with the same code, or with codes that are the same where control comes to, at such an address or beyond both codes. -/
inductive Covered (fr fr' : Frame) : Nat → Nat → Prop
  | same {n : Nat} : fr'.code = fr.code → Covered fr fr' n n
  | within {n : Nat} : fr.code.length < 2 ^ 62 → fr'.code.length < 2 ^ 62 → Covers fr.code fr'.code → ShortArgs fr.code →
      (Visits fr.code n ∨ fr.code.length ≤ n ∧ fr'.code.length ≤ n) → Covered fr fr' n n

theorem Spec.Trimmed.matched {m m' : MethodRec} (h : Trimmed ShortArgs m m') : Matched Covered m m' := by
  refine ⟨by rw [h.1]; exact ⟨rfl, rfl, rfl, rfl⟩, ?_⟩
  rcases h.2 with h | ⟨b, b', h, h', hl, h1, h2, hc, hs⟩
  · exact .inl ⟨h, fun _ _ e => .same e⟩
  · exact .inr ⟨b, b', h, h', hl, fun fr fr' e e' => .within (by rw [e]; exact h1) (by rw [e']; exact h2) (by rw [e, e']; exact hc)
      (by rw [e]; exact hs) (.inl .refl)⟩

theorem loop_covered (hφ : ∀ m, Trimmed ShortArgs m (φ m)) (fuel : Nat) :
    ∀ fr fr' n n', Twins φ fr fr' → Covered fr fr' n n' →
      Concur φ fuel (fun k => loop cfg ops tf k fr n) fun k => loop cfg ops tf k fr' n' := by
  induction fuel with
  | zero => exact fun _ _ _ _ _ _ _ hv => by rcases hv with hv | hv <;> exact absurd rfl hv
  | succ fuel ih =>
    intro fr fr' n n' ht hp
    have hgo := fun {n q : Nat} => step_concur (n := n) (q := q) ih (fun t => callMethod_concur (fun m => (hφ m).matched) ih ht t) ht
    have hfa : Facade φ := Matched.facade fun m => (hφ m).matched
    cases hp with
    | same hc => exact hgo ((step_same hc hfa ht n).mono fun a b e => by subst e; exact .same hc)
    | within hl hl' hc hs hn =>
      rcases hn with hn | ⟨hn, hn'⟩
      · obtain ⟨e, he, arg, ha, h, h'⟩ := hc n hn
        have hr := right_of_short he h (hs n hn)
        have hs' : ¬ HasAt fr'.code n [0xfe, 0x09] ∧ ¬ HasAt fr'.code n [0xfe, 0x0b] := by
          have key : (encodings.all fun e => !e.isRight || (!e.opcode.isPrefixOf [0xfe, 0x09] && !e.opcode.isPrefixOf [0xfe, 0x0b] &&
            !([0xfe, 0x09] : Bytes).isPrefixOf e.opcode && !([0xfe, 0x0b] : Bytes).isPrefixOf e.opcode)) = true := by decide +kernel
          have := List.all_eq_true.1 key _ he
          simp only [hr, Bool.not_true, Bool.false_or, Bool.and_eq_true, Bool.not_eq_true', ← Bool.not_eq_true, List.isPrefixOf_iff_prefix] at this
          obtain ⟨⟨⟨k1, k2⟩, k3⟩, k4⟩ := this
          constructor
          · intro g
            rcases List.prefix_or_prefix_of_prefix h'.left g with g | g
            · exact k1 g
            · exact k3 g
          · intro g
            rcases List.prefix_or_prefix_of_prefix h'.left g with g | g
            · exact k2 g
            · exact k4 g
        refine hgo ((step_covered hfa ht he hr ha h h').where' fun v a a' m e1 e2 e3 e4 => .within hl hl' hc hs ?_)
        rcases step_passes (hs n hn) hl e1 e3 with g | g
        · exact .inl (hn.tail g)
        · rcases step_passes hs' hl' e2 e4 with g' | g'
          · exact .inl (hn.tail (Passes.same he ha h h' g'))
          · exact .inr ⟨g, g'⟩
      · refine hgo fun v => ?_
        have hout : ∀ (fr : Frame) (v : VM), fr.code.length ≤ n → step cfg ops tf fr n v = (.panic, v) := by
          intro fr v h
          unfold step fetchOp
          rw [List.getElem?_eq_none h]
          rfl
        rw [hout fr _ hn, hout fr' _ hn']
        exact ⟨rfl, .panic⟩

end Clr
