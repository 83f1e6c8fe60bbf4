import Verif.Model.Display
import Verif.Spec.Display
import Verif.Props.Loading
/-! # C82, C83: printed forms -/

namespace Clr
open Spec

/-! ## C82 -/

theorem digitValue_lower (d : Nat) (h : d < 16) : digitValue (lowerDigit d) = some d := by
  revert d; decide

theorem writes_lower (n : Nat) : Writes (lowerDigits n) n := by
  induction n using Nat.strongRecOn with
  | _ n ih =>
    unfold lowerDigits
    split
    · next h =>
      have := Writes.snoc Writes.nil (digitValue_lower n h)
      simpa using this
    · next h =>
      have := Writes.snoc (ih (n / 16) (by omega)) (digitValue_lower (n % 16) (by omega))
      rwa [show 16 * (n / 16) + n % 16 = n by omega] at this

theorem writes_zeros {l : List Char} {n : Nat} (h : Writes l n) (k : Nat) : Writes (List.replicate k '0' ++ l) n := by
  induction h with
  | nil =>
    rw [List.append_nil]
    induction k with
    | zero => exact .nil
    | succ k ih =>
      rw [List.replicate_succ']
      have := Writes.snoc ih (c := '0') (d := 0) (by decide)
      simpa using this
  | snoc _ hd ih => rw [← List.append_assoc]; exact .snoc ih hd

theorem lowerDigits_length (n k : Nat) (hk : 0 < k) (h : n < 16 ^ k) : (lowerDigits n).length ≤ k := by
  induction k generalizing n with
  | zero => omega
  | succ k ih =>
    unfold lowerDigits
    split
    · simp
    · next hn =>
      rw [List.length_append, List.length_singleton]
      have hk : 0 < k := by
        rcases k with _ | k
        · simp at h; omega
        · omega
      have := ih (n / 16) hk (by rw [Nat.pow_succ] at h; omega)
      omega

/-- What digits write is determined. -/
theorem writes_unique {l : List Char} {n k : Nat} (h : Writes l n) (g : Writes l k) : n = k := by
  suffices ∀ l n, Writes l n → ∀ l' k, Writes l' k → l = l' → n = k from this l n h l k g rfl
  intro l n h
  induction h with
  | nil =>
    intro l' k g e
    cases g with
    | nil => rfl
    | snoc => simp at e
  | snoc _ hd ih =>
    intro l' k g e
    cases g with
    | nil => simp at e
    | snoc g hd' =>
      obtain ⟨e1, e2⟩ := List.append_inj' e rfl
      cases e2
      rw [hd] at hd'; cases hd'
      rw [ih _ _ g e1]

/-- Splitting off `k` low digits. -/
theorem writes_split {l : List Char} {n : Nat} (h : Writes l n) (k : Nat) (hk : k ≤ l.length) :
    Writes (l.take (l.length - k)) (n / 16 ^ k) ∧ Writes (l.drop (l.length - k)) (n % 16 ^ k) := by
  induction h generalizing k with
  | nil => simp at hk; subst hk; exact ⟨.nil, .nil⟩
  | @snoc l n d c h hd ih =>
    have hd16 : d < 16 := by
      unfold digitValue at hd
      split at hd
      · cases hd; omega
      · split at hd
        · cases hd; omega
        · cases hd
    rw [List.length_append, List.length_singleton] at hk ⊢
    cases k with
    | zero =>
      refine ⟨?_, ?_⟩
      · rw [List.take_of_length_le (by simp)]
        simpa using Writes.snoc h hd
      · rw [List.drop_of_length_le (by simp)]
        simpa [Nat.mod_one] using Writes.nil
    | succ k =>
      obtain ⟨h1, h2⟩ := ih k (by omega)
      rw [show l.length + 1 - (k + 1) = l.length - k by omega]
      have e1 : (16 * n + d) / 16 ^ (k + 1) = n / 16 ^ k := by
        rw [Nat.pow_succ', ← Nat.div_div_eq_div_mul, show (16 * n + d) / 16 = n by omega]
      have e2 : (16 * n + d) % 16 ^ (k + 1) = 16 * (n % 16 ^ k) + d := by
        rw [Nat.pow_succ, Nat.mul_comm (16 ^ k) 16, Nat.mod_mul]
        have : (16 * n + d) / 16 = n := by omega
        rw [this]; omega
      rw [e1, e2, List.take_append_of_le_length (by omega), List.drop_append_of_le_length (by omega)]
      exact ⟨h1, .snoc h2 hd⟩

/-- **C82.** Every token prints as `0x` and eight hexadecimal digits that write its value; the first two write the table, the
other six the row. Different tokens print differently. -/
theorem C82 (t : Token) (ht : t.raw < 2 ^ 32) :
    ∃ a b : List Char, t.display = "0x".toList ++ a ++ b ∧ a.length = 2 ∧ b.length = 6 ∧ Writes (a ++ b) t.raw ∧
      Writes a t.table ∧ Writes b t.index ∧ ∀ u : Token, u.raw < 2 ^ 32 → u.display = t.display → u = t := by
  have len : ∀ u : Token, u.raw < 2 ^ 32 →
      (List.replicate (8 - (lowerDigits u.raw).length) '0' ++ lowerDigits u.raw).length = 8 := by
    intro u hu
    have := lowerDigits_length u.raw 8 (by omega) (by simpa using hu)
    simp; omega
  have wr : ∀ u : Token, Writes (List.replicate (8 - (lowerDigits u.raw).length) '0' ++ lowerDigits u.raw) u.raw :=
    fun u => writes_zeros (writes_lower _) _
  obtain ⟨s1, s2⟩ := writes_split (wr t) 6 (by rw [len t ht]; omega)
  rw [len t ht] at s1 s2
  have e1 : t.table = t.raw / 16 ^ 6 := by
    unfold Token.table
    rw [Nat.shiftRight_and_distrib, Nat.shiftRight_eq_div_pow, show (0xff000000 >>> 24 : Nat) = 2 ^ 8 - 1 by decide,
      Nat.and_two_pow_sub_one_eq_mod]
    omega
  have e2 : t.index = t.raw % 16 ^ 6 := by
    unfold Token.index
    rw [show (0xffffff : Nat) = 2 ^ 24 - 1 by decide, Nat.and_two_pow_sub_one_eq_mod]
  refine ⟨_, _, ?_, ?_, ?_, ?_, e1 ▸ s1, e2 ▸ s2, ?_⟩
  · rw [List.append_assoc, List.take_append_drop]; rfl
  · rw [List.length_take, len t ht]; rfl
  · rw [List.length_drop, len t ht]
  · rw [List.take_append_drop]; exact wr t
  · intro u hu e
    unfold Token.display showHex10 at e
    simp only [List.cons.injEq, true_and] at e
    have := wr u
    rw [e] at this
    have := writes_unique this (wr t)
    cases u; cases t; simp_all

/-- **C82, addresses.** An address prints as `0x` and digits that write it, without leading zeros. -/
theorem C82_address (n : Nat) : ∃ c l, showHex n = "0x".toList ++ c :: l ∧ Writes (c :: l) n ∧ (c = '0' → l = []) := by
  have key : ∀ n, ∃ c l, lowerDigits n = c :: l ∧ (c = '0' → n = 0) := by
    intro n
    induction n using Nat.strongRecOn with
    | _ n ih =>
      unfold lowerDigits
      split
      · next h =>
        refine ⟨_, _, rfl, ?_⟩
        intro e
        have := digitValue_lower n h
        rw [e] at this
        have h0 : digitValue '0' = some 0 := by decide
        rw [h0] at this; cases this; rfl
      · next h =>
        obtain ⟨c, l, h1, h2⟩ := ih (n / 16) (by omega)
        exact ⟨c, l ++ [lowerDigit (n % 16)], by rw [h1]; rfl, fun e => by have := h2 e; omega⟩
  obtain ⟨c, l, h1, h2⟩ := key n
  refine ⟨c, l, by rw [showHex, h1]; rfl, h1 ▸ writes_lower n, fun e => ?_⟩
  have := h2 e
  subst this
  have h0 : lowerDigits 0 = ['0'] := by decide +kernel
  rw [h0] at h1; cases h1; rfl

example : (Token.mk 0x0600000a).display = "0x0600000a".toList ∧ (Token.mk 0).display = "0x00000000".toList := by
  decide +kernel

/-! ## C83 -/

theorem displayParams_ok {w : World} (ps : List ParamRec) (ns : List Name) (hl : ns.length = ps.length)
    (h : ∀ (i : Nat) p, ps[i]? = some p → ∃ r, w.types[p.paramType]? = some r ∧ ns[i]? = some r.name) :
    displayParams w ps = .ok (commaList ns) := by
  induction ps generalizing ns with
  | nil => cases ns with
    | nil => rfl
    | cons => simp at hl
  | cons p ps ih =>
    cases ns with
    | nil => simp at hl
    | cons n ns =>
      obtain ⟨r, h1, h2⟩ := h 0 p rfl
      simp only [List.getElem?_cons_zero, Option.some.injEq] at h2
      have ih := ih ns (by simpa using hl) fun i q hq => by
        obtain ⟨r, h1, h2⟩ := h (i + 1) q (by simpa using hq)
        exact ⟨r, h1, by simpa using h2⟩
      cases ps with
      | nil => cases ns with
        | nil => rw [displayParams, typeAt_eq_ok.mpr h1, Res.ok_bind, h2]; rfl
        | cons => simp at hl
      | cons q qs => cases ns with
        | nil => simp at hl
        | cons n' ns =>
          rw [displayParams, typeAt_eq_ok.mpr h1, Res.ok_bind, ih, Res.ok_bind, h2]
          · simp only [commaList, List.append_assoc]; rfl
          · simp

theorem signature_inj_aux {s : Char} {a b c d : Name} (ha : s ∉ a) (hb : s ∉ b) (h : a ++ s :: c = b ++ s :: d) : a = b ∧ c = d := by
  induction a generalizing b with
  | nil =>
    cases b with
    | nil => simpa using h
    | cons x b =>
      simp only [List.nil_append, List.cons_append, List.cons.injEq] at h
      exact absurd (by rw [h.1]; simp) hb
  | cons x a ih =>
    cases b with
    | nil =>
      simp only [List.nil_append, List.cons_append, List.cons.injEq] at h
      exact absurd (by rw [← h.1]; simp) ha
    | cons y b =>
      simp only [List.cons_append, List.cons.injEq] at h
      obtain ⟨h1, h2⟩ := ih (b := b) (fun hm => ha (by simp [hm])) (fun hm => hb (by simp [hm])) h.2
      exact ⟨by rw [h.1, h1], h2⟩

theorem commaList_inj (a b : List Name) (ha : ∀ n ∈ a, Plain n) (hb : ∀ n ∈ b, Plain n) (h : commaList a = commaList b) : a = b := by
  have tail : ∀ {n : Name} {k : Name} {ks : List Name}, Plain n → n ≠ k ++ ", ".toList ++ commaList ks := by
    intro n k ks hn e
    exact (hn.2 ',' (by rw [e]; simp)).2.2.1 rfl
  have ne : ∀ {n : Name} {ks : List Name}, Plain n → commaList (n :: ks) ≠ [] := by
    intro n ks hn e
    cases ks with
    | nil => exact hn.1 e
    | cons k ks => simp [commaList] at e
  induction a generalizing b with
  | nil =>
    cases b with
    | nil => rfl
    | cons y b => exact absurd h.symm (ne (hb y (by simp)))
  | cons x a ih =>
    cases b with
    | nil => exact absurd h (ne (ha x (by simp)))
    | cons y b =>
      have hx := ha x (by simp)
      have hy := hb y (by simp)
      cases a with
      | nil =>
        cases b with
        | nil => simp only [commaList] at h; rw [h]
        | cons y' b => simp only [commaList] at h; exact absurd h (tail hx)
      | cons x' a =>
        cases b with
        | nil => simp only [commaList] at h; exact absurd h.symm (tail hy)
        | cons y' b =>
          simp only [commaList, List.append_assoc] at h
          obtain ⟨h1, h2⟩ := signature_inj_aux (s := ',') (c := ' ' :: commaList (x' :: a)) (d := ' ' :: commaList (y' :: b))
            (fun hm => (hx.2 _ hm).2.2.1 rfl) (fun hm => (hy.2 _ hm).2.2.1 rfl) h
          rw [h1, ih (y' :: b) (fun n hn => ha n (by simp [hn])) (fun n hn => hb n (by simp [hn])) (by simpa using h2)]

/-- A signature text determines its parts. -/
theorem signatureText_inj {r n r' n' : Name} {ps ps' : List Name} (hr : Plain r) (hr' : Plain r') (hn : Plain n) (hn' : Plain n')
    (hp : ∀ p ∈ ps, Plain p) (hp' : ∀ p ∈ ps', Plain p) (h : signatureText r n ps = signatureText r' n' ps') :
    r = r' ∧ n = n' ∧ ps = ps' := by
  unfold signatureText at h
  simp only [List.append_assoc] at h
  obtain ⟨h1, h2⟩ := signature_inj_aux (s := ' ') (fun hm => (hr.2 _ hm).1 rfl) (fun hm => (hr'.2 _ hm).1 rfl) h
  obtain ⟨h3, h4⟩ := signature_inj_aux (s := '(') (fun hm => (hn.2 _ hm).2.1 rfl) (fun hm => (hn'.2 _ hm).2.1 rfl) h2
  exact ⟨h1, h3, commaList_inj _ _ hp hp' (List.append_inj_left' h4 rfl)⟩


theorem namesOf_exists {cfg : Cfg} {w : World} (h : Reached cfg w) {t : Nat} {tr : TypeRec} {x : MethodRec}
    (ht : w.types[t]? = some tr) (hx : x ∈ tr.methods) : ∃ r ns, NamesOf w x r ns := by
  obtain ⟨hm, -⟩ := h.inv.methods t tr ht x hx
  have h1 := hm.ret
  have h2 := hm.params
  refine ⟨_, (x.params.map fun p => (w.types[p.paramType]?.map (·.name)).getD []), .mk (List.getElem?_eq_getElem h1) (by simp) ?_⟩
  intro i p hp
  have := h2 p (List.mem_of_getElem? hp)
  exact ⟨_, List.getElem?_eq_getElem this, by simp [hp, List.getElem?_eq_getElem this]⟩

theorem displayMethod_ok {w : World} {x : MethodRec} {r : Name} {ns : List Name} (h : NamesOf w x r ns) :
    displayMethod w x = .ok (signatureText r x.name ns) := by
  cases h with
  | mk h1 h2 h3 =>
    rw [displayMethod, typeAt_eq_ok.mpr h1, Res.ok_bind, displayParams_ok _ _ h2 h3, Res.ok_bind]
    simp [signatureText, pure, Pure.pure]

/-- **C83 (part).** Printing a method of a loaded type never fails and writes its result type's name, its name and its parameter
types' names in order; when these names are free of punctuation, two methods print alike only if these names agree. Fields
and parameters print as the name of their type and their own.

Missing: the printed form tells two different methods of a type apart (`C83_refuted`). -/
theorem C83_partial {cfg : Cfg} {w : World} (h : Reached cfg w) {t : Nat} {tr : TypeRec} (ht : w.types[t]? = some tr) :
    (∀ x ∈ tr.methods, ∃ r ns, NamesOf w x r ns ∧ displayMethod w x = .ok (signatureText r x.name ns)) ∧
    (∀ x ∈ tr.methods, ∀ y ∈ tr.methods, ∀ r ns r' ns', NamesOf w x r ns → NamesOf w y r' ns' →
      (∀ n ∈ r :: r' :: x.name :: y.name :: ns ++ ns', Plain n) → displayMethod w x = displayMethod w y →
      r = r' ∧ x.name = y.name ∧ ns = ns') ∧
    (∀ f ∈ tr.fields, ∃ q, w.types[f.fieldType]? = some q ∧ displayField w f = .ok (q.name ++ " ".toList ++ f.name)) ∧
    (∀ x ∈ tr.methods, ∀ p ∈ x.params, ∃ q, w.types[p.paramType]? = some q ∧
      displayParam w p = .ok (q.name ++ " ".toList ++ p.name)) := by
  refine ⟨?_, ?_, ?_, ?_⟩
  · intro x hx
    obtain ⟨r, ns, hn⟩ := namesOf_exists h ht hx
    exact ⟨r, ns, hn, displayMethod_ok hn⟩
  · intro x hx y hy r ns r' ns' h1 h2 hp e
    rw [displayMethod_ok h1, displayMethod_ok h2] at e
    injection e with e
    exact signatureText_inj (hp _ (by simp)) (hp _ (by simp)) (hp _ (by simp)) (hp _ (by simp))
      (fun p hm => hp p (by simp [hm])) (fun p hm => hp p (by simp [hm])) e
  · intro f hf
    obtain ⟨hb, -⟩ := h.inv.fields t tr ht f hf
    have := List.getElem?_eq_getElem hb
    refine ⟨_, this, ?_⟩
    rw [displayField, typeAt_eq_ok.mpr this, Res.ok_bind]
    simp [pure, Pure.pure]
  · intro x hx p hp
    obtain ⟨hm, -⟩ := h.inv.methods t tr ht x hx
    have := List.getElem?_eq_getElem (hm.params p hp)
    refine ⟨_, this, ?_⟩
    rw [displayParam, typeAt_eq_ok.mpr this, Res.ok_bind]
    simp [pure, Pure.pure]

/-- Names as in compiled programs are plain; reading a signature back. -/
example : (∀ n ∈ ["Int32".toList, "String[]".toList, "List`1".toList, ".ctor".toList], Plain n) ∧
    signatureText "Void".toList ".ctor".toList ["Int32".toList, "String[]".toList] = "Void .ctor(Int32, String[])".toList := by
  decide +kernel

namespace Ex

def printStrings : List String := ["lib", "System", "Object", "A", "B", "T", "C", "M", "x", "y"]

/-- `abstract class C { abstract void M(A.T x); abstract void M(B.T y); }` -/
def printAsm : Asm where
  strings := printStrings
  blobs := [[0x20, 1, 0x01, 0x12, 4], [0x20, 1, 0x01, 0x12, 8]]
  tables :=
    [(0x01, [typeRefRow printStrings "System" "Object"]),
     (0x02, [typeRow printStrings 1 "A" "T" (refRow 1) 1 1, typeRow printStrings 1 "B" "T" (refRow 1) 1 1,
             typeRow printStrings 0x81 "" "C" (refRow 1) 1 1]),
     (0x06, [methodRow printStrings 0 0 0x446 "M" 1 1, methodRow printStrings 0 0 0x446 "M" 7 2]),
     (0x08, [paramRow printStrings 1 "x", paramRow printStrings 1 "y"]),
     (0x20, [assemblyRow printStrings "lib"])]

def printLoad : Res AssemblyRec × World := loadData .debug noFiles 1 100 printAsm.file coreWorld

end Ex

/-- **C83 fails for namespaces.** `M(A.T)` and `M(B.T)` of one class both print as `Void M(T)`. -/
theorem C83_refuted :
    Ex.holds (fun a => decide (a.types = [19, 20, 21])) Ex.printLoad.1 = true ∧
    (Ex.printLoad.2.types[21]?.map fun r => r.methods.map fun x => x.params.map (·.paramType)) = some [[19], [20]] ∧
    (Ex.printLoad.2.types[21]?.map fun r => r.methods.map (displayMethod Ex.printLoad.2)) =
      some [.ok "Void M(T)".toList, .ok "Void M(T)".toList] := by
  refine ⟨by decide +kernel, by decide +kernel, ?_⟩
  decide +kernel

/-- The world of this example is one of those `C83_partial` speaks about. -/
example : Reached .debug Ex.printLoad.2 := .loadFile _ _ _ _ (.loadFile _ _ _ _ .start)

end Clr
