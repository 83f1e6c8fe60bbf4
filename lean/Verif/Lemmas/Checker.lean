import Verif.Lemmas.Sound
/-! # A checker for typed code, for examples -/

namespace Clr

/-- The types after an instruction. -/
def Shape.after (env : Env) (e : Encoding) (arg : Bytes) (σ : Shape) : Option Shape :=
  (typeRules.findSome? fun r => if r.1 = e.mnemonic ∧ σ.stack = r.2.1 ++ σ.stack.drop r.2.1.length then
    some { σ with stack := r.2.2 ++ σ.stack.drop r.2.1.length } else none) <|>
  (match σ.stack with
    | t :: rest =>
      if e.mnemonic = "dup" then some { σ with stack := t :: t :: rest } else
      if e.mnemonic = "pop" then some { σ with stack := rest } else none
    | [] => none) <|>
  ((List.range σ.locals.length).findSome? fun i => if e.opcode ++ arg ∈ Var.loc.loads i then
    match σ.locals[i]? with
    | some (some t) => some { σ with stack := t :: σ.stack }
    | _ => none else none) <|>
  ((List.range σ.locals.length).findSome? fun i => if e.opcode ++ arg ∈ Var.loc.stores i then
    match σ.stack with
    | t :: rest => some { σ with stack := rest, locals := σ.locals.set i (some t) }
    | _ => none else none) <|>
  ((List.range σ.args.length).findSome? fun i => if e.opcode ++ arg ∈ Var.arg.loads i then
    match σ.args[i]? with
    | some t => some { σ with stack := t :: σ.stack }
    | _ => none else none) <|>
  ((List.range σ.args.length).findSome? fun i => if e.opcode ++ arg ∈ Var.arg.stores i then
    match σ.stack with
    | t :: rest => some { σ with stack := rest, args := σ.args.set i t }
    | _ => none else none) <|>
  (match σ.stack with
    | .i4 :: .ints :: rest => if e.mnemonic = "ldelem.i4" then some { σ with stack := .i4 :: rest } else none
    | .i4 :: .i4 :: .ints :: rest => if e.mnemonic = "stelem.i4" then some { σ with stack := rest } else none
    | _ => none) <|>
  (if leNat arg < 2 ^ 32 ∧ arg = leBytes 4 (leNat arg) then
    if e.mnemonic = "ldstr" ∧ env.literals (leNat arg) = true then some { σ with stack := .str :: σ.stack } else
    if e.mnemonic = "newarr" ∧ env.intType (leNat arg) = true then
      match σ.stack with
      | .i4 :: rest => some { σ with stack := .ints :: rest }
      | _ => none else
    match env.fields (leNat arg), σ.stack with
    | some (c, ty), t :: rest =>
      if e.mnemonic = "ldfld" ∧ t = .obj c then some { σ with stack := ty :: rest } else
      if e.mnemonic = "stfld" ∧ t = ty then
        match rest with
        | .obj d :: rest => if d = c then some { σ with stack := rest } else none
        | _ => none else none
    | _, _ => none
   else none)

theorem Shape.after_move {env : Env} {e : Encoding} {arg : Bytes} {σ σ' : Shape} (h : σ.after env e arg = some σ') :
    Move env e arg σ σ' := by
  unfold Shape.after at h
  simp only [Option.orElse_eq_orElse, Option.orElse_eq_or, Option.or_eq_some_iff] at h
  rcases h with h | ⟨-, h | ⟨-, h | ⟨-, h | ⟨-, h | ⟨-, h | ⟨-, h | ⟨-, h⟩⟩⟩⟩⟩⟩⟩
  · obtain ⟨r, hr, h⟩ := List.exists_of_findSome?_eq_some h
    split at h <;> cases h
    rename_i hx
    exact .plain (ins := r.2.1) (by rw [← hx.1]; exact hr) hx.2
  · split at h
    · split at h
      · cases h; exact .dup ‹_› ‹_›
      · split at h <;> cases h
        exact .pop ‹_› ‹_›
    · cases h
  · obtain ⟨i, hi, h⟩ := List.exists_of_findSome?_eq_some h
    split at h; rotate_left
    · cases h
    split at h <;> cases h
    exact .ldloc ‹_› ‹_›
  · obtain ⟨i, hi, h⟩ := List.exists_of_findSome?_eq_some h
    split at h; rotate_left
    · cases h
    split at h <;> cases h
    exact .stloc ‹_› (List.mem_range.1 hi) ‹_›
  · obtain ⟨i, hi, h⟩ := List.exists_of_findSome?_eq_some h
    split at h; rotate_left
    · cases h
    split at h <;> cases h
    exact .ldarg ‹_› ‹_›
  · obtain ⟨i, hi, h⟩ := List.exists_of_findSome?_eq_some h
    split at h; rotate_left
    · cases h
    split at h <;> cases h
    exact .starg ‹_› (List.mem_range.1 hi) ‹_›
  · split at h
    · split at h <;> cases h
      exact .ldelem ‹_› ‹_›
    · split at h <;> cases h
      exact .stelem ‹_› ‹_›
    · cases h
  · split at h; rotate_left
    · cases h
    rename_i ha
    obtain ⟨hn, ha⟩ := ha
    split at h
    · cases h; exact .ldstr (‹_ ∧ _› : _ ∧ _).1 hn ha (‹_ ∧ _› : _ ∧ _).2
    · split at h
      · rename_i hx
        split at h <;> cases h
        exact .newarr hx.1 hn ha hx.2 ‹_›
      · split at h; rotate_left
        · cases h
        rename_i hf hs
        split at h
        · rename_i hx
          obtain ⟨hx, rfl⟩ := hx
          cases h; exact .ldfld hx hn ha hf hs
        · split at h; rotate_left
          · cases h
          rename_i hx
          obtain ⟨hx, rfl⟩ := hx
          split at h; rotate_left
          · cases h
          split at h <;> cases h
          rename_i hd
          subst hd
          exact .stfld hx hn ha hf hs

/-- Types that can be taken for others without looking at classes. -/
def Shape.leB (σ τ : Shape) : Bool :=
  σ.stack = τ.stack && σ.args = τ.args && σ.locals.length = τ.locals.length &&
    (σ.locals.zip τ.locals).all fun p => p.2 = none || p.1 = p.2

theorem Ty.Le.all (derives : Nat → Nat → Prop) (l : List Ty) : All2 (Ty.Le derives) l l := by
  induction l with
  | nil => exact .nil
  | cons t l ih => exact .cons .refl ih

theorem Shape.leB_le {derives : Nat → Nat → Prop} {σ τ : Shape} (h : σ.leB τ = true) : σ.Le derives τ := by
  simp only [Shape.leB, Bool.and_eq_true, decide_eq_true_eq] at h
  obtain ⟨⟨⟨h1, h2⟩, h3⟩, h4⟩ := h
  refine ⟨h1 ▸ Ty.Le.all .., ?_, h2 ▸ Ty.Le.all ..⟩
  revert h4 h3
  generalize σ.locals = l
  generalize τ.locals = k
  intro h4 h3
  induction l generalizing k with
  | nil => cases k with
    | nil => exact .nil
    | cons _ _ => cases h3
  | cons a l ih => cases k with
    | nil => cases h3
    | cons b k =>
      rw [List.zip_cons_cons, List.all_cons, Bool.and_eq_true] at h4
      refine .cons ?_ (ih k h4.2 (by simpa using h3))
      have h5 := h4.1
      simp only [Bool.or_eq_true, decide_eq_true_eq] at h5
      rcases h5 with rfl | rfl
      · exact .none
      · cases a with
        | none => exact .none
        | some t => exact .some .refl

def reachesB (L : List (Nat × Shape)) (ip : Nat) (σ : Shape) : Bool := L.any fun p => p.1 = ip && σ.leB p.2

theorem reachesB_reaches {derives : Nat → Nat → Prop} {L : List (Nat × Shape)} {ip : Nat} {σ : Shape} (h : reachesB L ip σ = true) :
    Reaches derives (fun ip σ => (ip, σ) ∈ L) ip σ := by
  obtain ⟨⟨a, τ⟩, h1, h2⟩ := List.any_eq_true.1 h
  simp only [Bool.and_eq_true, decide_eq_true_eq] at h2
  exact ⟨τ, Shape.leB_le h2.2, h2.1 ▸ h1⟩

/-- `L` lists the types at every address that can be reached. -/
def typedB (encs : List Encoding) (env : Env) (result : Option Ty) (code : Bytes) (L : List (Nat × Shape)) : Bool :=
  L.all fun (ip, σ) => encs.any fun e =>
    let arg := (code.drop (ip + e.opcode.length)).take e.operand.size
    let t := leNat arg
    arg.length = e.operand.size && HasAt code ip (e.opcode ++ arg) &&
    ((e.mnemonic = "ret" && σ.stack = result.toList) ||
     (e.mnemonic = "call" && t < 2 ^ 32 && arg = leBytes 4 t && match env.methods t with
      | some s => let rest := σ.stack.drop s.params.length
        σ.stack = s.params.reverse ++ rest && reachesB L (ip + 5) { σ with stack := s.result.toList ++ rest }
      | none => false) ||
     (e.mnemonic = "newobj" && t < 2 ^ 32 && arg = leBytes 4 t && match env.ctors t with
      | some (c, ps) => let rest := σ.stack.drop ps.length
        σ.stack = ps.reverse ++ rest && reachesB L (ip + 5) { σ with stack := .obj c :: rest }
      | none => false) ||
     match σ.after env e arg with
      | some σ' => (e.mnemonic = "br" || e.mnemonic = "br.s" || reachesB L (ip + (e.opcode ++ arg).length) σ') &&
        (!(e.operand = .target8 || e.operand = .target32) || L.any fun (t, τ) =>
          let x : Int := (t : Int) - (ip + (e.opcode ++ arg).length : Nat)
          arg = intBytes e.operand.size x && Fits (8 * e.operand.size) x && σ'.leB τ)
      | none => false)

theorem typedB_typed {encs : List Encoding} {derives : Nat → Nat → Prop} {env : Env} {result : Option Ty} {code : Bytes}
    {L : List (Nat × Shape)} (h : typedB encs env result code L = true) :
    Typed encs derives env result code (fun ip σ => (ip, σ) ∈ L) := by
  intro ip σ hm
  have h := List.all_eq_true.1 h _ hm
  obtain ⟨e, he, h⟩ := List.any_eq_true.1 h
  refine ⟨e, he, (code.drop (ip + e.opcode.length)).take e.operand.size, ?_⟩
  generalize (code.drop (ip + e.opcode.length)).take e.operand.size = arg at h
  simp only [Bool.and_eq_true, Bool.or_eq_true, decide_eq_true_eq] at h
  obtain ⟨⟨h1, h2⟩, ((h3 | h3) | h3) | h3⟩ := h
  · exact ⟨h1, h2, .inl h3⟩
  · obtain ⟨⟨⟨h3, h4⟩, h5⟩, h6⟩ := h3
    split at h6; rotate_left
    · cases h6
    rename_i s hs
    simp only [Bool.and_eq_true, decide_eq_true_eq] at h6
    exact ⟨h1, h2, .inr (.inl ⟨h3, _, s, _, h4, h5, hs, h6.1, reachesB_reaches h6.2⟩)⟩
  · obtain ⟨⟨⟨h3, h4⟩, h5⟩, h6⟩ := h3
    split at h6; rotate_left
    · cases h6
    rename_i c ps hs
    simp only [Bool.and_eq_true, decide_eq_true_eq] at h6
    exact ⟨h1, h2, .inr (.inr (.inl ⟨h3, _, c, ps, _, h4, h5, hs, h6.1, reachesB_reaches h6.2⟩))⟩
  · split at h3; rotate_left
    · cases h3
    rename_i σ' hσ
    simp only [Bool.and_eq_true, Bool.or_eq_true, decide_eq_true_eq, Bool.not_eq_true', Bool.or_eq_false_iff,
      decide_eq_false_iff_not] at h3
    obtain ⟨h3, h4⟩ := h3
    refine ⟨h1, h2, .inr (.inr (.inr ⟨σ', Shape.after_move hσ, fun a b => ?_, fun ht => ?_⟩))⟩
    · rcases h3 with (h3 | h3) | h3
      · exact absurd h3 a
      · exact absurd h3 b
      · exact reachesB_reaches h3
    · rcases h4 with ⟨a, b⟩ | h4
      · rcases ht with ht | ht
        · exact absurd ht a
        · exact absurd ht b
      · obtain ⟨⟨t, τ⟩, h5, h6⟩ := List.any_eq_true.1 h4
        simp only [Bool.and_eq_true, decide_eq_true_eq] at h6
        obtain ⟨⟨h6, h7⟩, h8⟩ := h6
        exact ⟨_, t, h6, h7, by omega, τ, Shape.leB_le h8, h5⟩

end Clr
