import Verif.Spec.Source
import Verif.Props.Whole

/-! # The compiler is right, in terms of the abstract machine -/

namespace Clr.Source
open Abs

variable {checked : Bool} {ok : Bytes → Prop} {init : Option (BitVec 32)} {prog : Nat → Option Abs.Proc} {p : Abs.Proc}

/-- Whatever the machine does from the second state, it does from the first, taking at least as long. -/
def Leads (checked : Bool) (ok : Bytes → Prop) (init : Option (BitVec 32)) (prog : Nat → Option Abs.Proc) (p : Abs.Proc) (k ip : Nat) (σ : Abs.Act)
    (k' ip' : Nat) (σ' : Abs.Act) : Prop :=
  ∀ n o, Runs checked ok init prog n k' p ip' σ' o → ∃ N, n ≤ N ∧ Runs checked ok init prog N k p ip σ o

theorem Leads.refl (k ip : Nat) (σ : Abs.Act) : Leads checked ok init prog p k ip σ k ip σ := fun n _ h => ⟨n, Nat.le_refl _, h⟩

theorem Leads.trans {k ip k' ip' k'' ip'' : Nat} {σ σ' σ'' : Abs.Act} (h1 : Leads checked ok init prog p k ip σ k' ip' σ')
    (h2 : Leads checked ok init prog p k' ip' σ' k'' ip'' σ'') : Leads checked ok init prog p k ip σ k'' ip'' σ'' := by
  intro n o h
  obtain ⟨N, hN, h⟩ := h2 n o h
  obtain ⟨M, hM, h⟩ := h1 N o h
  exact ⟨M, by omega, h⟩

theorem leads_instr {k ip ip' : Nat} {σ σ' : Abs.Act} {i : Instr} {c : Bytes} {d : Int} (h1 : Enc ok i c) (h2 : HasAt p.code ip c)
    (h3 : i.effect checked σ = .done (σ', d)) (h4 : (ip' : Int) = (ip + c.length : Nat) + d) :
    Leads checked ok init prog p k ip σ k ip' σ' := fun n _ h => ⟨n + 1, by omega, .next h1 h2 h3 h4 h⟩

/-- How a piece of the machine's work with an outcome of the meaning ends. -/
def Follows {α : Type} (checked : Bool) (ok : Bytes → Prop) (init : Option (BitVec 32)) (prog : Nat → Option Abs.Proc) (p : Abs.Proc) (fuel k ip : Nat) (σ : Abs.Act)
    (done : α → Prop) : Outcome α → Prop
  | .done a => done a
  | .stops => ∃ N, Runs checked ok init prog N k p ip σ .stops
  | .undefined => True
  | .unfinished => ∃ N, fuel ≤ N ∧ Runs checked ok init prog N k p ip σ .unfinished

theorem Follows.after {α : Type} {fuel k ip k' ip' : Nat} {σ σ' : Abs.Act} {done : α → Prop} {x : Outcome α}
    (h : Leads checked ok init prog p k ip σ k' ip' σ') (hx : Follows checked ok init prog p fuel k' ip' σ' done x) :
    Follows checked ok init prog p fuel k ip σ done x := by
  cases x with
  | done a => exact hx
  | stops =>
    obtain ⟨n, hx⟩ := hx
    obtain ⟨N, -, hN⟩ := h _ _ hx
    exact ⟨N, hN⟩
  | undefined => trivial
  | unfinished =>
    obtain ⟨n, hn, hx⟩ := hx
    obtain ⟨N, hN, h⟩ := h _ _ hx
    exact ⟨N, by omega, h⟩

theorem Follows.bind {α β : Type} {fuel k ip : Nat} {σ : Abs.Act} {d1 : α → Prop} {d2 : β → Prop} {x : Outcome α} {f : α → Outcome β}
    (h : Follows checked ok init prog p fuel k ip σ d1 x) (hf : ∀ a, x = .done a → d1 a → Follows checked ok init prog p fuel k ip σ d2 (f a)) :
    Follows checked ok init prog p fuel k ip σ d2 (x.bind f) := by
  cases x with
  | done a => exact hf a rfl h
  | stops => exact h
  | undefined => trivial
  | unfinished => exact h

theorem Follows.mono {α : Type} {fuel fuel' k ip : Nat} {σ : Abs.Act} {d1 d2 : α → Prop} {x : Outcome α} (h : Follows checked ok init prog p fuel k ip σ d1 x)
    (hf : fuel' ≤ fuel) (hd : ∀ a, d1 a → d2 a) : Follows checked ok init prog p fuel' k ip σ d2 x := by
  cases x with
  | done a => exact hd a h
  | stops => exact h
  | undefined => trivial
  | unfinished => obtain ⟨N, h1, h2⟩ := h; exact ⟨N, by omega, h2⟩

/-- An instruction that may stop the program. -/
theorem follows_instr {α : Type} {fuel k ip : Nat} {σ : Abs.Act} {i : Instr} {c : Bytes} {done : α → Prop} {x : Outcome α}
    (h1 : Enc ok i c) (h2 : HasAt p.code ip c) (h3 : x = .stops → i.effect checked σ = .stops)
    (h4 : ∀ a, x = .done a → done a) (h5 : x ≠ .unfinished) : Follows checked ok init prog p fuel k ip σ done x := by
  cases x with
  | done a => exact h4 a rfl
  | stops => exact ⟨1, .stops h1 h2 (h3 rfl)⟩
  | undefined => trivial
  | unfinished => exact absurd rfl h5

/-! ## Expressions -/

/-- The activation holds the variables of the store. -/
def Agrees (σ : Store) (a : Abs.Act) : Prop := ∀ x i v, σ x i = some v → a.get x i = some v

theorem Agrees.push {σ : Store} {a : Abs.Act} (h : Agrees σ a) (s : List (BitVec 32)) : Agrees σ { a with stack := s } := by
  intro x i v hv
  have := h x i v hv
  cases x <;> exact this


theorem fit_finishes (n : Int) : fit checked n ≠ .unfinished := by
  unfold fit; split <;> (intro h; cases h)

theorem shift_finishes (op : Shift) (a b : BitVec 32) : shiftResult checked op a b ≠ .unfinished := by
  unfold shiftResult; split <;> [skip; split] <;> (intro h; cases h)

/-- An operator after its operands. -/
theorem follows_op {fuel k ip ip1 ip2 : Nat} {act act1 : Abs.Act} {s : List (BitVec 32)} {i : Instr} {c : Bytes} {r : Outcome (BitVec 32)}
    (hi : Enc ok i c) (hc : HasAt p.code ip1 c) (hl : Leads checked ok init prog p k ip act k ip1 act1)
    (he : i.effect checked act1 = r.bind fun x => .done ({ act with stack := x :: s }, 0)) (h2 : ip2 = ip1 + c.length)
    (hr : r ≠ .unfinished) :
    Follows checked ok init prog p fuel k ip act
      (fun a => Leads checked ok init prog p k ip act k ip2 { act with stack := a :: s }) r := by
  refine Follows.after hl (follows_instr hi hc (fun h => by rw [he, h]; rfl) (fun a ha => ?_) hr)
  exact hl.trans (leads_instr hi hc (d := 0) (by rw [he, ha]; rfl) (by omega))

theorem expr_follows {σ : Store} {e : Expr} {c : Bytes} (he : e.Code ok c) : ∀ {fuel k ip : Nat} {act : Abs.Act}, HasAt p.code ip c → Agrees σ act →
    Follows checked ok init prog p fuel k ip act
      (fun a => Leads checked ok init prog p k ip act k (ip + c.length) { act with stack := a :: act.stack }) (e.eval checked σ) := by
  have two : ∀ {a b : Expr} {ca cb co : Bytes} {fuel k ip : Nat} {act : Abs.Act} {i : Instr} {f : BitVec 32 → BitVec 32 → Outcome (BitVec 32)},
      Enc ok i co → (∀ act : Abs.Act, i.effect checked act = act.binary f) → (∀ x y, f x y ≠ .unfinished) →
      (∀ {fuel k ip : Nat} {act : Abs.Act}, HasAt p.code ip ca → Agrees σ act → Follows checked ok init prog p fuel k ip act
        (fun a => Leads checked ok init prog p k ip act k (ip + ca.length) { act with stack := a :: act.stack }) (a.eval checked σ)) →
      (∀ {fuel k ip : Nat} {act : Abs.Act}, HasAt p.code ip cb → Agrees σ act → Follows checked ok init prog p fuel k ip act
        (fun a => Leads checked ok init prog p k ip act k (ip + cb.length) { act with stack := a :: act.stack }) (b.eval checked σ)) →
      HasAt p.code ip (ca ++ (cb ++ co)) → Agrees σ act → Follows checked ok init prog p fuel k ip act
        (fun a => Leads checked ok init prog p k ip act k (ip + (ca ++ (cb ++ co)).length) { act with stack := a :: act.stack })
        ((a.eval checked σ).bind fun x => (b.eval checked σ).bind fun y => f x y) := by
    intro a b ca cb co fuel k ip act i f hi he hf iha ihb hc hσ
    refine Follows.bind (iha hc.left hσ) fun x _ hx => ?_
    refine Follows.bind (Follows.after hx (ihb hc.drop.left (hσ.push _))) fun y _ hy => ?_
    refine follows_op hi hc.drop.drop (hx.trans hy) ?_ (by simp only [List.length_append]; omega) (hf x y)
    rw [he]; rfl
  have one : ∀ {a : Expr} {ca co : Bytes} {fuel k ip : Nat} {act : Abs.Act} {i : Instr} {f : BitVec 32 → Outcome (BitVec 32)},
      Enc ok i co → (∀ act : Abs.Act, i.effect checked act = act.unary f) → (∀ x, f x ≠ .unfinished) →
      (∀ {fuel k ip : Nat} {act : Abs.Act}, HasAt p.code ip ca → Agrees σ act → Follows checked ok init prog p fuel k ip act
        (fun a => Leads checked ok init prog p k ip act k (ip + ca.length) { act with stack := a :: act.stack }) (a.eval checked σ)) →
      HasAt p.code ip (ca ++ co) → Agrees σ act → Follows checked ok init prog p fuel k ip act
        (fun a => Leads checked ok init prog p k ip act k (ip + (ca ++ co).length) { act with stack := a :: act.stack })
        ((a.eval checked σ).bind fun x => f x) := by
    intro a ca co fuel k ip act i f hi he hf iha hc hσ
    refine Follows.bind (iha hc.left hσ) fun x _ hx => ?_
    refine follows_op hi hc.drop hx ?_ (by simp only [List.length_append]; omega) (hf x)
    rw [he]; rfl
  induction he with
  | const h => intro fuel k ip act hc hσ; exact leads_instr (.const h) hc rfl (by omega)
  | @var x i c h hok =>
    intro fuel k ip act hc hσ
    simp only [Expr.eval]
    cases hv : σ x i with
    | none => trivial
    | some v => exact leads_instr (.load h hok) hc (d := 0) (by simp only [Instr.effect, hσ x i v hv]) (by omega)
  | neg _ ih => intro fuel k ip act hc hσ; exact one .neg (fun _ => rfl) (fun _ => fit_finishes _) ih hc hσ
  | not _ ih => intro fuel k ip act hc hσ; exact one .not (fun _ => rfl) (fun _ h => by cases h) ih hc hσ
  | arith _ _ iha ihb => intro fuel k ip act hc hσ; exact two .arith (fun _ => rfl) (fun _ _ => fit_finishes _) iha ihb hc hσ
  | bitwise _ _ iha ihb => intro fuel k ip act hc hσ; exact two .bitwise (fun _ => rfl) (fun _ _ h => by cases h) iha ihb hc hσ
  | shift _ _ iha ihb => intro fuel k ip act hc hσ; exact two .shift (fun _ => rfl) (fun _ _ => shift_finishes _ _ _) iha ihb hc hσ
  | div _ _ iha ihb =>
    intro fuel k ip act hc hσ
    exact two .div (fun _ => rfl) (fun _ _ h => by split at h <;> cases h) iha ihb hc hσ
  | rem _ _ iha ihb =>
    intro fuel k ip act hc hσ
    exact two .rem (fun _ => rfl) (fun _ _ h => by split at h <;> cases h) iha ihb hc hσ
  | compare _ _ iha ihb => intro fuel k ip act hc hσ; exact two .compare (fun _ => rfl) (fun _ _ h => by cases h) iha ihb hc hσ

/-! ## The compiler gives code -/

theorem shortest_mem {cs : List Bytes} (h : cs ≠ []) : shortest cs ∈ cs := by
  cases cs with
  | nil => exact absurd rfl h
  | cons c cs => exact List.mem_cons_self

theorem constCodes_ne {n : Int} (h : Fits 32 n) : constCodes n ≠ [] := by
  simp [constCodes, h]

end Clr.Source

namespace Clr.Source
open Abs

variable {checked : Bool} {ok : Bytes → Prop} {init : Option (BitVec 32)} {prog : Nat → Option Abs.Proc} {p : Abs.Proc}

theorem not_wide_cons {b : UInt8} {l : Bytes} (h : b ≠ 0xfe) : ¬ Wide (b :: l) := by
  rintro (⟨t, h'⟩ | ⟨t, h'⟩) <;> exact h (List.cons.inj h').1.symm

theorem loads_shortest {x : Var} {i : Nat} (h : i < 256) : shortest (x.loads i) ∈ x.loads i ∧ ¬ Wide (shortest (x.loads i)) := by
  refine ⟨shortest_mem (by cases x <;> simp [Var.loads, h]), ?_⟩
  have : ∀ i < 256, ∀ x : Var, ¬ Wide (shortest (x.loads i)) := by
    intro i h x
    by_cases h4 : i < 4
    · have : ∀ i < 4, ¬ Wide (shortest (Var.loc.loads i)) ∧ ¬ Wide (shortest (Var.arg.loads i)) := by decide
      cases x
      · exact (this i h4).1
      · exact (this i h4).2
    · cases x <;> (simp only [Var.loads, h4, h, if_true, if_false, List.nil_append, List.cons_append, shortest, List.headD_cons]; exact not_wide_cons (by decide))
  exact this i h x

theorem stores_shortest {x : Var} {i : Nat} (h : i < 256) : shortest (x.stores i) ∈ x.stores i ∧ ¬ Wide (shortest (x.stores i)) := by
  refine ⟨shortest_mem (by cases x <;> simp [Var.stores, h]), ?_⟩
  by_cases h4 : i < 4
  · have : ∀ i < 4, ¬ Wide (shortest (Var.loc.stores i)) ∧ ¬ Wide (shortest (Var.arg.stores i)) := by decide
    cases x
    · exact (this i h4).1
    · exact (this i h4).2
  · cases x <;> (simp only [Var.stores, h4, h, if_true, if_false, List.nil_append, List.cons_append, shortest, List.headD_cons]; exact not_wide_cons (by decide))

theorem compileExpr_code {n : Var → Nat} (hn : ∀ x, n x ≤ 256) {e : Expr} (h1 : ConstsFit e) (h2 : e.Within n) :
    e.Code (fun l => ¬ Wide l) (compileExpr e) := by
  induction e with
  | const n => exact .const (shortest_mem (constCodes_ne h1))
  | var x i =>
    have h2 : i < n x := h2
    have := hn x
    obtain ⟨h3, h4⟩ := loads_shortest (x := x) (i := i) (by omega)
    exact .var h3 h4
  | neg a ih => exact .neg (ih h1 h2)
  | not a ih => exact .not (ih h1 h2)
  | arith op a b iha ihb => exact .arith (iha h1.1 h2.1) (ihb h1.2 h2.2)
  | bitwise op a b iha ihb => exact .bitwise (iha h1.1 h2.1) (ihb h1.2 h2.2)
  | shift op a b iha ihb => exact .shift (iha h1.1 h2.1) (ihb h1.2 h2.2)
  | div a b iha ihb => exact .div (iha h1.1 h2.1) (ihb h1.2 h2.2)
  | rem a b iha ihb => exact .rem (iha h1.1 h2.1) (ihb h1.2 h2.2)
  | compare c a b iha ihb => exact .compare (iha h1.1 h2.1) (ihb h1.2 h2.2)

/-! ## The number of steps -/

theorem runs_more {n k ip : Nat} {σ : Abs.Act} {o : Outcome (Option (BitVec 32))} (h : Runs checked ok init prog n k p ip σ o) :
    o ≠ .unfinished → ∀ m, n ≤ m → Runs checked ok init prog m k p ip σ o := by
  induction h with
  | more => intro h; exact absurd rfl h
  | ret h1 h2 => intro _ m hm; obtain ⟨m, rfl⟩ : ∃ i, m = i + 1 := ⟨m - 1, by omega⟩; exact .ret h1 h2
  | next h1 h2 h3 h4 _ ih =>
    intro ho m hm; obtain ⟨m, rfl⟩ : ∃ i, m = i + 1 := ⟨m - 1, by omega⟩
    exact .next h1 h2 h3 h4 (ih ho m (by omega))
  | stops h1 h2 h3 => intro _ m hm; obtain ⟨m, rfl⟩ : ∃ i, m = i + 1 := ⟨m - 1, by omega⟩; exact .stops h1 h2 h3
  | call h1 h2 h3 h4 h5 h6 h7 _ h8 _ ih1 ih2 =>
    intro ho m hm; obtain ⟨m, rfl⟩ : ∃ i, m = i + 1 := ⟨m - 1, by omega⟩
    exact .call h1 h2 h3 h4 h5 h6 h7 (ih1 (fun h => by cases h) m (by omega)) h8 (ih2 ho m (by omega))
  | inner h1 h2 h3 h4 h5 h6 h7 _ h8 ih =>
    intro ho m hm; obtain ⟨m, rfl⟩ : ∃ i, m = i + 1 := ⟨m - 1, by omega⟩
    exact .inner h1 h2 h3 h4 h5 h6 h7 (ih ho m (by omega)) h8

theorem runs_less {n k ip : Nat} {σ : Abs.Act} {o : Outcome (Option (BitVec 32))} (h : Runs checked ok init prog n k p ip σ o) :
    ∀ m, m ≤ n → Runs checked ok init prog m k p ip σ o ∨ Runs checked ok init prog m k p ip σ .unfinished := by
  induction h with
  | more => intro m hm; obtain rfl : m = 0 := by omega
            exact .inl .more
  | ret h1 h2 =>
    intro m hm
    cases m with
    | zero => exact .inr .more
    | succ m => exact .inl (.ret h1 h2)
  | next h1 h2 h3 h4 _ ih =>
    intro m hm
    cases m with
    | zero => exact .inr .more
    | succ m => exact (ih m (by omega)).imp (.next h1 h2 h3 h4) (.next h1 h2 h3 h4)
  | stops h1 h2 h3 =>
    intro m hm
    cases m with
    | zero => exact .inr .more
    | succ m => exact .inl (.stops h1 h2 h3)
  | call h1 h2 h3 h4 h5 h6 h7 _ h8 _ ih1 ih2 =>
    intro m hm
    cases m with
    | zero => exact .inr .more
    | succ m =>
      rcases ih1 m (by omega) with h | h
      · exact (ih2 m (by omega)).imp (.call h1 h2 h3 h4 h5 h6 h7 h h8) (.call h1 h2 h3 h4 h5 h6 h7 h h8)
      · exact .inr (.inner h1 h2 h3 h4 h5 h6 h7 h (fun _ h => by cases h))
  | inner h1 h2 h3 h4 h5 h6 h7 _ h8 ih =>
    intro m hm
    cases m with
    | zero => exact .inr .more
    | succ m =>
      rcases ih m (by omega) with h | h
      · exact .inl (.inner h1 h2 h3 h4 h5 h6 h7 h h8)
      · exact .inr (.inner h1 h2 h3 h4 h5 h6 h7 h (fun _ h => by cases h))

/-! ## Statements -/

/-- `Leads` with at least one step. -/
def Leads1 (checked : Bool) (ok : Bytes → Prop) (init : Option (BitVec 32)) (prog : Nat → Option Abs.Proc) (p : Abs.Proc) (k ip : Nat) (σ : Abs.Act)
    (k' ip' : Nat) (σ' : Abs.Act) : Prop :=
  ∀ n o, Runs checked ok init prog n k' p ip' σ' o → ∃ N, n + 1 ≤ N ∧ Runs checked ok init prog N k p ip σ o

theorem Leads1.leads {k ip k' ip' : Nat} {σ σ' : Abs.Act} (h : Leads1 checked ok init prog p k ip σ k' ip' σ') :
    Leads checked ok init prog p k ip σ k' ip' σ' := by
  intro n o hr
  obtain ⟨N, h1, h2⟩ := h n o hr
  exact ⟨N, by omega, h2⟩

theorem Leads.then1 {k ip k' ip' k'' ip'' : Nat} {σ σ' σ'' : Abs.Act} (h1 : Leads checked ok init prog p k ip σ k' ip' σ')
    (h2 : Leads1 checked ok init prog p k' ip' σ' k'' ip'' σ'') : Leads1 checked ok init prog p k ip σ k'' ip'' σ'' := by
  intro n o h
  obtain ⟨N, hN, h⟩ := h2 n o h
  obtain ⟨M, hM, h⟩ := h1 N o h
  exact ⟨M, by omega, h⟩

theorem leads1_instr {k ip ip' : Nat} {σ σ' : Abs.Act} {i : Instr} {c : Bytes} {d : Int} (h1 : Enc ok i c) (h2 : HasAt p.code ip c)
    (h3 : i.effect checked σ = .done (σ', d)) (h4 : (ip' : Int) = (ip + c.length : Nat) + d) :
    Leads1 checked ok init prog p k ip σ k ip' σ' := fun n _ h => ⟨n + 1, by omega, .next h1 h2 h3 h4 h⟩

theorem Follows.after1 {α : Type} {fuel k ip k' ip' : Nat} {σ σ' : Abs.Act} {done : α → Prop} {x : Outcome α}
    (h : Leads1 checked ok init prog p k ip σ k' ip' σ') (hx : Follows checked ok init prog p fuel k' ip' σ' done x) :
    Follows checked ok init prog p (fuel + 1) k ip σ done x := by
  cases x with
  | done a => exact hx
  | stops =>
    obtain ⟨n, hx⟩ := hx
    obtain ⟨N, -, hN⟩ := h _ _ hx
    exact ⟨N, hN⟩
  | undefined => trivial
  | unfinished =>
    obtain ⟨n, hn, hx⟩ := hx
    obtain ⟨N, hN, h⟩ := h _ _ hx
    exact ⟨N, by omega, h⟩

/-- The activation of a procedure whose variables are in the store. -/
structure Current (p : Abs.Proc) (σ : Store) (a : Abs.Act) : Prop where
  agrees : Agrees σ a
  locals : a.locals.length = p.locals
  args : a.args.length = p.params
  stack : a.stack = []

/-- What a statement does when it is done. -/
def Does (checked : Bool) (ok : Bytes → Prop) (init : Option (BitVec 32)) (prog : Nat → Option Abs.Proc) (p : Abs.Proc) (k ip ip' : Nat) (act : Abs.Act)
    (s : Store × Nat) : Prop :=
  ∃ act', Leads checked ok init prog p k ip act s.2 ip' act' ∧ Current p s.1 act'

theorem Does.after {k ip k1 ip1 ip' : Nat} {act act1 : Abs.Act} {s : Store × Nat} (h : Leads checked ok init prog p k ip act k1 ip1 act1)
    (hd : Does checked ok init prog p k1 ip1 ip' act1 s) : Does checked ok init prog p k ip ip' act s := by
  obtain ⟨a, h1, h2⟩ := hd
  exact ⟨a, h.trans h1, h2⟩

/-- Number of variables of each kind. -/
def absVars (p : Abs.Proc) : Var → Nat
  | .loc => p.locals
  | .arg => p.params

theorem store_does {k ip ip' : Nat} {σ : Store} {act : Abs.Act} {x : Var} {i : Nat} {l : Bytes} (a : BitVec 32) (hl : l ∈ x.stores i) (hok : ok l)
    (hc : HasAt p.code ip l) (hi : i < absVars p x) (h : Current p σ act)
    (he : ip' = ip + l.length) :
    Does checked ok init prog p k ip ip' { act with stack := [a] } (σ.set x i a, k) := by
  cases x with
  | loc =>
    have hi' : i < act.locals.length := by rw [h.locals]; exact hi
    refine ⟨{ act with locals := act.locals.set i (some a), stack := [] }, leads_instr (.store hl hok) hc (d := 0) ?_ (by omega), ?_, ?_, h.args, rfl⟩
    · simp only [Instr.effect, Act.set, hi', if_true]
    · intro y j v hv
      simp only [Store.set] at hv
      split at hv
      · next he => obtain ⟨rfl, rfl⟩ := he; cases hv; simp [Act.get, hi']
      · next he =>
        have := h.agrees y j v hv
        cases y with
        | loc =>
          have hne : i ≠ j := fun e => he ⟨rfl, e.symm⟩
          simp only [Act.get, List.getElem?_set_ne hne] at this ⊢; exact this
        | arg => exact this
    · simp [h.locals]
  | arg =>
    have hi' : i < act.args.length := by rw [h.args]; exact hi
    refine ⟨{ act with args := act.args.set i a, stack := [] }, leads_instr (.store hl hok) hc (d := 0) ?_ (by omega), ?_, h.locals, ?_, rfl⟩
    · simp only [Instr.effect, Act.set, hi', if_true]
    · intro y j v hv
      simp only [Store.set] at hv
      split at hv
      · next he => obtain ⟨rfl, rfl⟩ := he; cases hv; simp [Act.get, hi']
      · next he =>
        have := h.agrees y j v hv
        cases y with
        | arg =>
          have hne : i ≠ j := fun e => he ⟨rfl, e.symm⟩
          simp only [Act.get, List.getElem?_set_ne hne] at this ⊢; exact this
        | loc => exact this
    · simp [h.args]

theorem args_follow {σ : Store} {es : List Expr} (he : ∀ e ∈ es, e.Code ok (compileExpr e)) : ∀ {fuel k ip : Nat} {act : Abs.Act},
    HasAt p.code ip (compileAll es) → Agrees σ act →
    Follows checked ok init prog p fuel k ip act
      (fun as => as.length = es.length ∧ Leads checked ok init prog p k ip act k (ip + (compileAll es).length) { act with stack := as.reverse ++ act.stack })
      (evalAll checked σ es) := by
  induction es with
  | nil => intro fuel k ip act _ _; exact ⟨rfl, Leads.refl _ _ _⟩
  | cons e es ih =>
    intro fuel k ip act hc hσ
    simp only [compileAll, evalAll] at hc ⊢
    refine Follows.bind (expr_follows (he e List.mem_cons_self) hc.left hσ) fun x _ hx => ?_
    refine Follows.bind (Follows.after hx (ih (fun e h => he e (List.mem_cons_of_mem _ h)) hc.drop (hσ.push _))) fun xs _ hxs => ?_
    refine ⟨by simp [hxs.1], ?_⟩
    have := hx.trans hxs.2
    simp only [List.length_append, List.reverse_cons, List.append_assoc, List.singleton_append, ← Nat.add_assoc] at this ⊢
    exact this

/-- The procedures of the abstract machine are the compiled ones. -/
structure Compiled (P : Program) (prog : Nat → Option Abs.Proc) (g : Nat → Abs.Proc) : Prop where
  proc : ∀ f q, P[f]? = some q → prog (f + 1) = some (g f) ∧ (g f).code = q.code ∧ (g f).params = q.params ∧ (g f).locals = q.locals ∧
    (g f).returns = true ∧ (∀ f', f' < P.length → (g f).calls (methodToken f') = some (f' + 1))
  tokens : P.length < 2 ^ 24

/-- What is known about calls with a bound on the nesting. -/
def Invokes (checked : Bool) (ok : Bytes → Prop) (init : Option (BitVec 32)) (prog : Nat → Option Abs.Proc) (P : Program) (g : Nat → Abs.Proc) (fuel : Nat)
    (inv : Nat → Nat → List (BitVec 32) → Outcome (BitVec 32)) : Prop :=
  ∀ room f args q, P[f]? = some q → args.length = q.params → match inv room f args with
    | .done r => ∃ n, Runs checked ok init prog n room (g f) 0 ((g f).start init args) (.done (some r))
    | .stops => ∃ n, Runs checked ok init prog n room (g f) 0 ((g f).start init args) .stops
    | .undefined => True
    | .unfinished => ∃ n, fuel ≤ n + 1 ∧ Runs checked ok init prog n room (g f) 0 ((g f).start init args) .unfinished

theorem leads_call {k k' k'' ip t j : Nat} {q : Abs.Proc} {σ : Abs.Act} {args rest : List (BitVec 32)} {r : Option (BitVec 32)} {n1 : Nat}
    (h1 : t < 2 ^ 32) (h2 : HasAt p.code ip (0x28 :: leBytes 4 t)) (h3 : p.calls t = some j) (h4 : prog j = some q)
    (h5 : σ.stack = args.reverse ++ rest) (h6 : args.length = q.params) (h7 : q.params + q.locals + k' ≤ k)
    (h8 : Runs checked ok init prog n1 k' q 0 (q.start init args) (.done r)) (h9 : q.params + k'' ≤ k) :
    Leads checked ok init prog p k ip σ k'' (ip + 5) { σ with stack := r.toList ++ rest } := by
  intro n o ho
  by_cases hu : o = .unfinished
  · subst hu
    by_cases hn : n1 ≤ n
    · exact ⟨n + 1, by omega, .call h1 h2 h3 h4 h5 h6 h7 (runs_more h8 (fun h => by cases h) n hn) h9 ho⟩
    · rcases runs_less h8 n (by omega) with h | h
      · exact ⟨n + 1, by omega, .call h1 h2 h3 h4 h5 h6 h7 h h9 ho⟩
      · exact ⟨n + 1, by omega, .inner h1 h2 h3 h4 h5 h6 h7 h (fun _ h => by cases h)⟩
  · exact ⟨max n n1 + 1, by omega, .call h1 h2 h3 h4 h5 h6 h7 (runs_more h8 (fun h => by cases h) _ (by omega)) h9 (runs_more ho hu _ (by omega))⟩

theorem test_follows {σ : Store} {k' : Nat} {c : Expr} {cc : Bytes} (hcode : c.Code ok cc) {fuel k ip : Nat} {act : Abs.Act} {d : Int} (ip' : Nat)
    (hc : HasAt p.code ip (cc ++ jumpFalse d)) (hd : Fits 32 d) (hip : (ip' : Int) = (ip + cc.length + 5 : Nat) + d) (h : Current p σ act) :
    Follows checked ok init prog p fuel k ip act
      (fun b => Leads1 checked ok init prog p k ip act k (if b then ip + cc.length + 5 else ip') act)
      (test checked c (σ, k')) := by
  refine Follows.bind (expr_follows hcode hc.left h.agrees) fun x _ hx => ?_
  refine Leads.then1 hx (leads1_instr (d := if Branch1.brfalse.holds x.toInt then d else 0) (.br1 (f := .long) (c := .brfalse) hd) hc.drop ?_ ?_)
  · simp only [Instr.effect]
  · have h5 : (Branch1.brfalse.opcode .long :: intBytes Form.long.size d).length = 5 := by simp [Form.size, intBytes, length_leBytes]
    rw [h5]
    by_cases hx0 : x.toInt = 0
    · simp [Branch1.holds, hx0]; omega
    · simp [Branch1.holds, hx0]

theorem loop_follows {σ : Store} {k : Nat} {c : Expr} {cc ca : Bytes} (hcode : c.Code ok cc) {ip : Nat} {act : Abs.Act} {body : Nat → Store × Nat → Outcome (Store × Nat)} {F : Nat}
    (hc : HasAt p.code ip (cc ++ (jumpFalse (ca.length + 5) ++ (ca ++ jump (-(cc.length + 5 + ca.length + 5))))))
    (hlen : p.code.length < 2 ^ 30)
    (hbody : ∀ fuel, fuel ≤ F → ∀ k σ act, Current p σ act → Follows checked ok init prog p fuel k (ip + cc.length + 5) act
      (Does checked ok init prog p k (ip + cc.length + 5) (ip + cc.length + 5 + ca.length) act) (body fuel (σ, k))) (h : Current p σ act) :
    ∀ fuel, fuel ≤ F → Follows checked ok init prog p fuel k ip act
      (Does checked ok init prog p k ip (ip + cc.length + 5 + ca.length + 5) act) (iterate (test checked c) body fuel (σ, k)) := by
  have hle := hc.le (by simp [jumpFalse])
  have h5 : ∀ d, (jumpFalse d).length = 5 := by intro d; simp [jumpFalse, intBytes, length_leBytes]
  have h5' : ∀ d, (jump d).length = 5 := by intro d; simp [jump, intBytes, length_leBytes]
  simp only [List.length_append, h5, h5'] at hle
  have hc0 : HasAt p.code ip (cc ++ jumpFalse (ca.length + 5)) := by
    rw [← List.append_assoc] at hc; exact hc.left
  have hfit : Fits 32 (ca.length + 5 : Int) := by unfold Fits; omega
  have hback : HasAt p.code (ip + cc.length + 5 + ca.length) (jump (-(cc.length + 5 + ca.length + 5))) := by
    have := hc.drop.drop.drop; rw [h5] at this; exact this
  have hfit' : Fits 32 (-(cc.length + 5 + ca.length + 5) : Int) := by unfold Fits; omega
  intro fuel
  induction fuel generalizing k σ act with
  | zero =>
    intro _
    unfold iterate
    refine Follows.bind (test_follows hcode (ip + cc.length + 5 + ca.length + 5) hc0 hfit (by omega) h) fun b _ hb => ?_
    cases b with
    | true => exact ⟨0, Nat.le_refl _, .more⟩
    | false => exact ⟨act, hb.leads, h⟩
  | succ fuel ih =>
    intro hF
    unfold iterate
    refine Follows.bind (test_follows hcode (ip + cc.length + 5 + ca.length + 5) hc0 hfit (by omega) h) fun b _ hb => ?_
    cases b with
    | false => exact ⟨act, hb.leads, h⟩
    | true =>
      simp only [if_true] at hb ⊢
      refine Follows.bind (Follows.after1 hb (hbody fuel (by omega) k σ act h)) fun s _ hs => ?_
      obtain ⟨act', h1, h2⟩ := hs
      have h3 : Leads1 checked ok init prog p s.2 (ip + cc.length + 5 + ca.length) act' s.2 ip act' :=
        leads1_instr (.br (f := .long) hfit') hback rfl (by
          have : (brOpcode .long :: intBytes Form.long.size (-(cc.length + 5 + ca.length + 5) : Int)).length = 5 := by simp [Form.size, intBytes, length_leBytes]
          rw [this]; omega)
      have h4 := (hb.leads.trans h1).then1 h3
      refine Follows.mono (Follows.after1 h4 (ih h2 (by omega))) (Nat.le_refl _) fun s hs => hs.after h4.leads

theorem stmt_follows {P : Program} {g : Nat → Abs.Proc} {q : Proc} {F : Nat} {inv : Nat → Nat → List (BitVec 32) → Outcome (BitVec 32)}
    (hP : Compiled P prog g) (hinv : Invokes checked (fun l => ¬ Wide l) init prog P g F inv) (hlen : p.code.length < 2 ^ 30)
    (hq : q.params ≤ 256 ∧ q.locals ≤ 256) (hp : p.params = q.params ∧ p.locals = q.locals) (hcalls : ∀ f, f < P.length → p.calls (methodToken f) = some (f + 1)) {s : Stmt} (hs : s.Legal P q) :
    ∀ fuel, fuel ≤ F → ∀ (k ip : Nat) (σ : Store) (act : Abs.Act), HasAt p.code ip (compile s) → Current p σ act →
      Follows checked (fun l => ¬ Wide l) init prog p fuel k ip act
        (Does checked (fun l => ¬ Wide l) init prog p k ip (ip + (compile s).length) act) (s.exec checked P inv fuel (σ, k)) := by
  have hv : ∀ x, q.vars x ≤ 256 := by intro x; cases x; exacts [hq.2, hq.1]
  have hcode : ∀ {e}, LegalExpr q e → e.Code (fun l => ¬ Wide l) (compileExpr e) := fun h => compileExpr_code hv h.1 h.2
  have hvar : ∀ {x i}, i < q.vars x → i < absVars p x := by
    intro x i h; cases x
    · show i < p.locals; rw [hp.2]; exact h
    · show i < p.params; rw [hp.1]; exact h
  have h5 : ∀ d, (jumpFalse d).length = 5 := by intro d; simp [jumpFalse, intBytes, length_leBytes]
  have h5' : ∀ d, (jump d).length = 5 := by intro d; simp [jump, intBytes, length_leBytes]
  induction s with
  | skip => intro fuel _ k ip σ act _ h; exact ⟨act, Leads.refl _ _ _, h⟩
  | set x i e =>
    intro fuel _ k ip σ act hc h
    have hi := hv x
    have hi' : i < q.vars x := hs.1
    obtain ⟨hm, hw⟩ := stores_shortest (x := x) (i := i) (by omega)
    simp only [compile, Stmt.exec] at hc ⊢
    refine Follows.bind (expr_follows (hcode hs.2) hc.left h.agrees) fun a _ ha => ?_
    rw [h.stack] at ha
    exact (store_does a hm hw hc.drop (hvar hs.1) h (by rw [List.length_append]; omega)).after ha
  | call x i f es =>
    intro fuel hF k ip σ act hc h
    have hi := hv x
    have hi' : i < q.vars x := hs.1
    obtain ⟨hm, hw⟩ := stores_shortest (x := x) (i := i) (by omega)
    obtain ⟨-, hes, q', hq', hargs⟩ := hs
    simp only [compile, Stmt.exec] at hc ⊢
    refine Follows.bind (args_follow (fun e h => hcode (hes e h)) hc.left h.agrees) fun as _ ha => ?_
    obtain ⟨hal, ha⟩ := ha
    rw [hq']
    dsimp only
    split
    · next hroom =>
      obtain ⟨p1, p2, p3, p4, p5, -⟩ := hP.proc f q' hq'
      have hf := (List.getElem?_eq_some_iff.mp hq').1
      have htok := hP.tokens
      have ht : methodToken f < 2 ^ 32 := by unfold methodToken; omega
      have hstk : ({ act with stack := as.reverse ++ act.stack } : Abs.Act).stack = as.reverse ++ [] := by rw [h.stack]
      have hcode' : HasAt p.code (ip + (compileAll es).length) (0x28 :: leBytes 4 (methodToken f)) := hc.drop.left
      have hal' : as.length = (g f).params := by rw [hal, hargs, p3]
      have hroom' : (g f).params + (g f).locals + (k - (q'.params + q'.locals)) ≤ k := by rw [p3, p4]; omega
      have key := hinv (k - (q'.params + q'.locals)) f as q' hq' (by rw [hal, hargs])
      cases hr : inv (k - (q'.params + q'.locals)) f as with
      | undefined => trivial
      | done r =>
        rw [hr] at key
        obtain ⟨n, hn⟩ := key
        have hl := leads_call (k'' := k - q'.params) ht hcode' (hcalls f hf) p1 hstk hal' hroom' hn (by rw [p3]; omega)
        have hst := store_does (p := p) (ok := fun l => ¬ Wide l) (checked := checked) (init := init) (prog := prog) (ip := ip + (compileAll es).length + 5) (k := k - q'.params) r hm hw (by
          have := hc.drop.drop
          simp only [List.length_cons, length_leBytes] at this; exact this) (hvar hi') h rfl
        have := (hst.after hl).after ha
        simp only [Outcome.bind]
        have e : ip + (compileAll es ++ (0x28 :: leBytes 4 (methodToken f) ++ shortest (x.stores i))).length =
            ip + (compileAll es).length + 5 + (shortest (x.stores i)).length := by
          simp only [List.length_append, List.length_cons, length_leBytes]; omega
        rw [e]
        exact this
      | stops =>
        rw [hr] at key
        obtain ⟨n, hn⟩ := key
        obtain ⟨N, -, hN⟩ := ha _ _ (.inner ht hcode' (hcalls f hf) p1 hstk hal' hroom' hn (fun _ h => by cases h))
        exact ⟨N, hN⟩
      | unfinished =>
        rw [hr] at key
        obtain ⟨n, hn', hn⟩ := key
        obtain ⟨N, hN', hN⟩ := ha _ _ (.inner ht hcode' (hcalls f hf) p1 hstk hal' hroom' hn (fun _ h => by cases h))
        exact ⟨N, by omega, hN⟩
    · trivial
  | seq a b iha ihb =>
    intro fuel hF k ip σ act hc h
    simp only [compile, Stmt.exec] at hc ⊢
    refine Follows.bind (iha hs.1 fuel hF k ip σ act hc.left h) fun s _ hd => ?_
    obtain ⟨act', h1, h2⟩ := hd
    refine Follows.mono (Follows.after h1 (ihb hs.2 fuel hF s.2 _ s.1 act' hc.drop h2)) (Nat.le_refl _) fun s' hs' => ?_
    rw [List.length_append, ← Nat.add_assoc]
    exact hs'.after h1
  | cond c a b iha ihb =>
    intro fuel hF k ip σ act hc h
    simp only [compile, Stmt.exec] at hc ⊢
    have hle := hc.le (by simp [jumpFalse])
    simp only [List.length_append, h5, h5'] at hle ⊢
    have hc0 : HasAt p.code ip (compileExpr c ++ jumpFalse ((compile a).length + 5)) := by
      rw [← List.append_assoc] at hc; exact hc.left
    have hca := hc.drop.drop.left
    have hbr := hc.drop.drop.drop.left
    have hcb := hc.drop.drop.drop.drop
    rw [h5] at hca hbr hcb
    rw [h5'] at hcb
    refine Follows.bind (test_follows (hcode hs.1) (ip + (compileExpr c).length + 5 + (compile a).length + 5) hc0 (by unfold Fits; omega) (by omega) h) fun t _ ht => ?_
    cases t with
    | true =>
      simp only [if_true] at ht ⊢
      refine Follows.mono (Follows.after1 ht (iha hs.2.1 fuel hF k _ σ act hca h)) (by omega) fun s' hs' => ?_
      obtain ⟨act', h1, h2⟩ := hs'
      refine ⟨act', (ht.leads.trans h1).trans (leads_instr (.br (f := .long) (d := (compile b).length) (by unfold Fits; simp only [Form.size]; omega)) hbr rfl ?_), h2⟩
      have : (brOpcode .long :: intBytes Form.long.size ((compile b).length : Int)).length = 5 := by simp [Form.size, intBytes, length_leBytes]
      rw [this]; push_cast; omega
    | false =>
      simp only [Bool.false_eq_true, if_false] at ht ⊢
      refine Follows.mono (Follows.after1 ht (ihb hs.2.2 fuel hF k _ σ act hcb h)) (by omega) fun s' hs' => ?_
      have := hs'.after ht.leads
      have e : ip + ((compileExpr c).length + (5 + ((compile a).length + (5 + (compile b).length)))) =
        ip + (compileExpr c).length + 5 + (compile a).length + 5 + (compile b).length := by omega
      rw [e]; exact this
  | «while» c a iha =>
    intro fuel hF k ip σ act hc h
    simp only [compile, Stmt.exec] at hc ⊢
    have hca := hc.drop.drop.left
    rw [h5] at hca
    have := loop_follows (checked := checked) (init := init) (prog := prog) (k := k) (F := F) (body := a.exec checked P inv) (hcode hs.1) hc hlen (fun fuel hf k σ act h => iha hs.2 fuel hf k _ σ act hca h) h fuel hF
    have e : ip + (compileExpr c ++ (jumpFalse ((compile a).length + 5) ++ (compile a ++ jump (-((compileExpr c).length + 5 + (compile a).length + 5))))).length =
      ip + (compileExpr c).length + 5 + (compile a).length + 5 := by
      simp only [List.length_append, h5, h5']; omega
    rw [e]; exact this

/-- The procedures of a legal program. -/
def ProcLegal (P : Program) (p : Proc) : Prop :=
  p.params ≤ 100 ∧ p.locals ≤ 100 ∧ p.body.Legal P p ∧ LegalExpr p p.result ∧ p.code.length < 2 ^ 30

theorem start_current {p : Abs.Proc} {args : List (BitVec 32)} (h : args.length = p.params) : Current p (start args) (p.start init args) := by
  refine ⟨?_, ?_, h, rfl⟩
  · intro x i v hv
    cases x with
    | loc => cases hv
    | arg => exact hv
  · simp [Abs.Proc.start]

theorem invoke_runs {P : Program} {g : Nat → Abs.Proc} (hP : Compiled P prog g) (hlegal : ∀ p ∈ P, ProcLegal P p) :
    ∀ fuel, Invokes checked (fun l => ¬ Wide l) init prog P g fuel (P.invoke checked fuel) := by
  intro fuel
  induction fuel with
  | zero => intro room f args q _ _; exact ⟨0, by omega, .more⟩
  | succ fuel ih =>
    intro room f args q hq hargs
    obtain ⟨l1, l2, l3, l4, l5⟩ := hlegal q (List.mem_of_getElem? hq)
    obtain ⟨p1, p2, p3, p4, p5, p6⟩ := hP.proc f q hq
    have hc : HasAt (g f).code 0 (compile q.body ++ (compileExpr q.result ++ [0x2a])) := by
      rw [p2]; exact List.prefix_rfl
    have hcur : Current (g f) (start args) ((g f).start init args) := start_current (by rw [hargs, p3])
    have hv : ∀ x, q.vars x ≤ 256 := by intro x; cases x <;> simp only [Proc.vars] <;> omega
    have hb := stmt_follows hP ih (by rw [p2]; exact l5) ⟨by omega, by omega⟩ ⟨p3, p4⟩ p6 l3 fuel (Nat.le_refl _) room 0 _ _ hc.left hcur
    have key : Follows checked (fun l => ¬ Wide l) init prog (g f) fuel room 0 ((g f).start init args)
        (fun r => ∃ n, Runs checked (fun l => ¬ Wide l) init prog n room (g f) 0 ((g f).start init args) (.done (some r)))
        (P.invoke checked (fuel + 1) room f args) := by
      simp only [Program.invoke, hq]
      refine Follows.bind hb fun s _ hs => ?_
      obtain ⟨act, h1, h2⟩ := hs
      refine Follows.mono (Follows.after h1 (expr_follows (compileExpr_code hv l4.1 l4.2) hc.drop.left h2.agrees)) (Nat.le_refl _) fun r hr => ?_
      obtain ⟨N, -, hN⟩ := (h1.trans hr) 1 (.done (some r)) (.ret hc.drop.drop (by rw [h2.stack]; exact .value p5))
      exact ⟨N, hN⟩
    cases hr : P.invoke checked (fuel + 1) room f args with
    | undefined => trivial
    | done r => rw [hr] at key; exact key
    | stops => rw [hr] at key; exact key
    | unfinished =>
      rw [hr] at key
      obtain ⟨N, h1, h2⟩ := key
      exact ⟨N, by omega, h2⟩

end Clr.Source
