import Verif.Lemmas.LoadRoom
import Verif.Lemmas.Loading
/-! # Memory requested by a successful load -/

namespace Clr
open Reader

variable {cfg : Cfg} {m : Metadata} {α β : Type}

/-! ## Sequences -/

theorem MR.bind_ok {x : MR α} {f : α → MR β} {w w' : World} {b : β} (h : ((x >>= f) w).1 = (.ok b, w')) :
    ∃ a w1, (x w).1 = (.ok a, w1) ∧ (f a w1).1 = (.ok b, w') ∧ ((x >>= f) w).2 = (x w).2 + (f a w1).2 := by
  change (MR.bind x f w).1 = _ at h
  show ∃ a w1, (x w).1 = (.ok a, w1) ∧ (f a w1).1 = (.ok b, w') ∧ (MR.bind x f w).2 = (x w).2 + (f a w1).2
  unfold MR.bind at h ⊢
  rcases e : (x w).1 with ⟨_ | _, w1⟩ <;> rw [e] at h <;> try cases h
  exact ⟨_, _, rfl, h, rfl⟩

theorem Room.bind_ok {x : Room α} {f : α → Room β} {b : β} (h : (x >>= f).1 = .ok b) :
    ∃ a, x.1 = .ok a ∧ (f a).1 = .ok b ∧ (x >>= f).2 = x.2 + (f a).2 := by
  change (Room.bind x f).1 = _ at h
  show ∃ a, x.1 = .ok a ∧ (f a).1 = .ok b ∧ (Room.bind x f).2 = x.2 + (f a).2
  unfold Room.bind at h ⊢
  cases e : x.1 <;> rw [e] at h <;> try cases h
  exact ⟨_, rfl, h, rfl⟩

/-- On success, memory was requested for at most `n` elements, and the result has the property. -/
def MR.Costs (x : MR α) (n : Nat) (P : α → Prop) : Prop :=
  ∀ w a w', (x w).1 = (.ok a, w') → (x w).2 ≤ n ∧ P a

namespace MR.Costs

theorem bind {x : MR α} {f : α → MR β} {n k : Nat} {P : α → Prop} {Q : β → Prop} (hx : MR.Costs x n P)
    (hf : ∀ a, P a → MR.Costs (f a) k Q) : MR.Costs (x >>= f) (n + k) Q := by
  intro w b w' h
  obtain ⟨a, w1, h1, h2, h3⟩ := MR.bind_ok h
  have := hx _ _ _ h1
  have := hf a this.2 _ _ _ h2
  exact ⟨by omega, this.2⟩

theorem mono {x : MR α} {n k : Nat} {P Q : α → Prop} (h : MR.Costs x n P) (hn : n ≤ k) (hp : ∀ a, P a → Q a) : MR.Costs x k Q :=
  fun w a w' e => ⟨Nat.le_trans (h w a w' e).1 hn, hp _ (h w a w' e).2⟩

theorem le {x : MR α} {n k : Nat} {P : α → Prop} (h : MR.Costs x n P) (hn : n ≤ k) : MR.Costs x k P := h.mono hn fun _ h => h

theorem of (x : M α) : MR.Costs (MR.of x) 0 fun a => ∃ w w', x w = (.ok a, w') :=
  fun w _ w' h => ⟨Nat.le_refl _, w, w', h⟩

theorem lift (x : Res α) : MR.Costs (MR.of (liftM x)) 0 fun a => x = .ok a :=
  fun w a w' h => ⟨Nat.le_refl _, by
    change (x, w) = _ at h
    exact (Prod.mk.inj h).1⟩

theorem room {x : Room α} {n : Nat} {P : α → Prop} (h : ∀ a, x.1 = .ok a → x.2 ≤ n ∧ P a) : MR.Costs (MR.ofRoom x) n P :=
  fun w a w' e => h a (by
    change (x.1, w) = _ at e
    exact (Prod.mk.inj e).1)

theorem reserve (n : Nat) : MR.Costs (MR.reserve n) n fun _ => True := fun _ _ _ _ => ⟨Nat.le_refl _, trivial⟩

theorem pure {a : α} {P : α → Prop} (h : P a) : MR.Costs (Pure.pure a) 0 P := fun w b w' e => by
  have : a = b := by cases e; rfl
  exact ⟨Nat.le_refl _, this ▸ h⟩

theorem fails {x : Res α} {n : Nat} {P : α → Prop} (h : ∀ a, x ≠ .ok a) : MR.Costs (MR.of (M.lift x)) n P := fun w a w' e => by
  change (x, w) = _ at e
  exact absurd (Prod.mk.inj e).1 (h a)

theorem ite {p : Prop} [Decidable p] {x y : MR α} {n : Nat} {P : α → Prop} (hx : p → MR.Costs x n P) (hy : ¬ p → MR.Costs y n P) :
    MR.Costs (if p then x else y) n P := by
  by_cases hp : p
  · rw [if_pos hp]; exact hx hp
  · rw [if_neg hp]; exact hy hp

end MR.Costs

/-! ## Slices -/

theorem slice_fits {d x : Bytes} {a b : Nat} (h : slice d a b = .ok x) : x.length ≤ d.length := by
  unfold slice at h
  split at h
  · cases h; rw [List.length_take, List.length_drop]; omega
  · cases h

theorem sliceFrom_fits {d x : Bytes} {a : Nat} (h : sliceFrom d a = .ok x) : x.length ≤ d.length := by
  unfold sliceFrom at h
  split at h
  · cases h; rw [List.length_drop]; omega
  · cases h

theorem mapErr_eq_ok {g : String → String} {x : Res α} {a : α} (h : Res.mapErr g x = .ok a) : x = .ok a := by
  cases x <;> first | exact h | cases h

theorem blobHeapReader_new {heap : Bytes} {h : Nat} {r : Reader} (e : blobHeapReader cfg heap h = .ok r) :
    ∃ d, r = Reader.new d ∧ d.length ≤ heap.length := by
  unfold blobHeapReader at e
  obtain ⟨d, h1, e⟩ := Res.bind_eq_ok.1 e
  unfold newBlobReader at e
  obtain ⟨⟨_, _⟩, _, e⟩ := Res.bind_eq_ok.1 e
  obtain ⟨_, _, e⟩ := Res.bind_eq_ok.1 e
  obtain ⟨s, h2, e⟩ := Res.bind_eq_ok.1 e
  cases e
  exact ⟨s, rfl, Nat.le_trans (slice_fits h2) (sliceFrom_fits h1)⟩

/-! ## Local variables -/

theorem readLocalTypesR_cost (n : Nat) : ∀ (r : Reader), r.Ok → ∀ w ts w', (readLocalTypesR cfg m n r w).1 = (.ok ts, w') →
    (readLocalTypesR cfg m n r w).2 + n ≤ r.rest.length := by
  induction n with
  | zero => intro r _ w ts w' _; exact Nat.zero_le _
  | succ n ih =>
    intro r hr w ts w' h
    unfold readLocalTypesR at h ⊢
    obtain ⟨⟨e, r'⟩, w1, h1, h2, h3⟩ := MR.bind_ok h
    rw [h3]
    change ((MR.mapErr _ (readElemR cfg _ r)).1, w) = _ at h1
    have h1 : (readElemR cfg (r.data.length - r.pos + 1) r).1 = .ok (e, r') := mapErr_eq_ok (Prod.mk.inj h1).1
    rcases readElemR_step' cfg hr with ⟨_, x⟩ | ⟨a, k, x, hk, hk'⟩
    · rw [x] at h1; cases h1
    · rw [x] at h1
      cases h1
      change _ at h2
      dsimp only at h2 ⊢
      obtain ⟨t, w2, h4, h5, h6⟩ := MR.bind_ok h2
      rw [h6]
      obtain ⟨ts', w3, h7, h8, h9⟩ := MR.bind_ok h5
      rw [h9]
      have := ih _ (hr.skip hk') _ _ _ h7
      rw [rest_skip, List.length_drop] at this
      change (readElemR cfg (r.data.length - r.pos + 1) r).2 + (0 + (_ + 0)) + _ ≤ _
      omega

theorem readCompressed_skip {r r' : Reader} {n : Nat} (hr : r.Ok) (h : readCompressed cfg r = .ok (n, r')) :
    r'.Ok ∧ r'.rest.length ≤ r.rest.length := by
  rcases readCompressed_step cfg hr with ⟨_, x⟩ | ⟨a, k, x, _, hk⟩
  · rw [x] at h; cases h
  · rw [x] at h; cases h
    exact ⟨hr.skip hk, by rw [rest_skip, List.length_drop]; omega⟩

theorem readByte_skip {r r' : Reader} {n : Nat} (hr : r.Ok) (h : readByte cfg r = .ok (n, r')) :
    r'.Ok ∧ r'.rest.length ≤ r.rest.length := by
  rcases readByte_step cfg hr with ⟨_, x⟩ | ⟨a, k, x, _, hk⟩
  · rw [x] at h; cases h
  · rw [x] at h; cases h
    exact ⟨hr.skip hk, by rw [rest_skip, List.length_drop]; omega⟩

theorem readLocalsR_cost (hb : m.blobHeap.length < 2 ^ 63) (t : Token) :
    MR.Costs (readLocalsR cfg m t) m.blobHeap.length fun _ => True := by
  unfold readLocalsR
  refine .ite (fun _ => (MR.Costs.pure trivial).le (Nat.zero_le _)) fun _ => ?_
  refine ((MR.Costs.lift _).bind fun sig _ => (MR.Costs.lift _).bind fun r hr => (MR.Costs.lift _).bind fun ⟨b, r1⟩ h1 => ?_).le
    (Nat.le_of_eq (by rw [Nat.zero_add, Nat.zero_add, Nat.zero_add]))
  obtain ⟨d, rfl, hd⟩ := blobHeapReader_new (mapErr_eq_ok hr)
  have ok : (Reader.new d).Ok := .new (by omega)
  obtain ⟨ok1, l1⟩ := readByte_skip ok (mapErr_eq_ok h1)
  refine .ite (fun _ => .fails (by intro a; exact nofun)) fun _ => ?_
  refine ((MR.Costs.lift _).bind fun ⟨n, r2⟩ h2 => ?_).le (Nat.le_of_eq (Nat.zero_add _))
  obtain ⟨ok2, l2⟩ := readCompressed_skip ok1 (mapErr_eq_ok h2)
  intro w ts w' h
  obtain ⟨_, w1, h3, h4, h5⟩ := MR.bind_ok h
  dsimp only at h5 ⊢
  rw [h5]
  have := readLocalTypesR_cost n r2 ok2 _ _ _ h4
  have e : (Reader.new d).rest.length = d.length := rfl
  refine ⟨?_, trivial⟩
  change n + _ ≤ _
  omega

/-! ## Exception clauses -/

theorem bodyU_skip {r r' : Reader} {w x : Nat} (hp : r.pos + w < 2 ^ 64) (h : bodyU cfg r w = .ok (x, r')) :
    r' = r.skip w ∧ r.pos + w ≤ r.data.length := by
  unfold bodyU at h
  obtain ⟨⟨y, r1⟩, h1, h⟩ := Res.bind_eq_ok.1 h
  obtain ⟨z, h2, h⟩ := Res.bind_eq_ok.1 h
  cases h
  rcases readU_cases cfg r w hp with e | ⟨n, e, _, hl⟩
  · rw [e] at h1; cases h1; cases h2
  · rw [e] at h1; cases h1
    exact ⟨rfl, hl⟩

theorem bodyU_lt {r r' : Reader} {w x : Nat} (hp : r.pos + w < 2 ^ 64) (h : bodyU cfg r w = .ok (x, r')) : x < 256 ^ w := by
  unfold bodyU at h
  obtain ⟨⟨y, r1⟩, h1, h⟩ := Res.bind_eq_ok.1 h
  obtain ⟨z, h2, h⟩ := Res.bind_eq_ok.1 h
  cases h
  rcases readU_cases cfg r w hp with e | ⟨n, e, hn, hl⟩
  · rw [e] at h1; cases h1; cases h2
  · rw [e] at h1; cases h1; cases h2
    exact hn

/-- Reading a clause takes at least 12 bytes. -/
def TakesClause (f : Reader → M (ExceptionClause × Reader)) : Prop :=
  ∀ r w c r' w', r.pos + 24 < 2 ^ 64 → f r w = (.ok (c, r'), w') → ∃ k, 12 ≤ k ∧ k ≤ 24 ∧ r' = r.skip k ∧ r.pos + k ≤ r.data.length

theorem readFatClause_takes : TakesClause (readFatClause cfg m) := by
  intro r w c r' w' hp h
  unfold readFatClause at h
  obtain ⟨⟨_, r1⟩, h1, h⟩ := M.liftM_bind_eq_ok.1 h
  obtain ⟨_, _, h⟩ := M.liftM_bind_eq_ok.1 h
  obtain ⟨⟨_, r2⟩, h2, h⟩ := M.liftM_bind_eq_ok.1 h
  obtain ⟨⟨_, r3⟩, h3, h⟩ := M.liftM_bind_eq_ok.1 h
  obtain ⟨⟨_, r4⟩, h4, h⟩ := M.liftM_bind_eq_ok.1 h
  obtain ⟨⟨_, r5⟩, h5, h⟩ := M.liftM_bind_eq_ok.1 h
  obtain ⟨⟨_, r6⟩, h6, h⟩ := M.liftM_bind_eq_ok.1 h
  obtain ⟨_, _, _, h⟩ := M.bind_eq_ok.1 h
  cases h
  obtain ⟨rfl, l1⟩ := bodyU_skip (by omega) h1
  obtain ⟨rfl, l2⟩ := bodyU_skip (by simp; omega) h2
  obtain ⟨rfl, l3⟩ := bodyU_skip (by simp; omega) h3
  obtain ⟨rfl, l4⟩ := bodyU_skip (by simp; omega) h4
  obtain ⟨rfl, l5⟩ := bodyU_skip (by simp; omega) h5
  obtain ⟨rfl, l6⟩ := bodyU_skip (by simp; omega) h6
  refine ⟨24, by omega, by omega, by simp, ?_⟩
  simp at l6
  omega

theorem readSmallClause_takes : TakesClause (readSmallClause cfg m) := by
  intro r w c r' w' hp h
  unfold readSmallClause at h
  obtain ⟨⟨_, r1⟩, h1, h⟩ := M.liftM_bind_eq_ok.1 h
  obtain ⟨_, _, h⟩ := M.liftM_bind_eq_ok.1 h
  obtain ⟨⟨_, r2⟩, h2, h⟩ := M.liftM_bind_eq_ok.1 h
  obtain ⟨⟨_, r3⟩, h3, h⟩ := M.liftM_bind_eq_ok.1 h
  obtain ⟨⟨_, r4⟩, h4, h⟩ := M.liftM_bind_eq_ok.1 h
  obtain ⟨⟨_, r5⟩, h5, h⟩ := M.liftM_bind_eq_ok.1 h
  obtain ⟨⟨_, r6⟩, h6, h⟩ := M.liftM_bind_eq_ok.1 h
  obtain ⟨_, _, _, h⟩ := M.bind_eq_ok.1 h
  cases h
  obtain ⟨rfl, l1⟩ := bodyU_skip (by omega) h1
  obtain ⟨rfl, l2⟩ := bodyU_skip (by simp; omega) h2
  obtain ⟨rfl, l3⟩ := bodyU_skip (by simp; omega) h3
  obtain ⟨rfl, l4⟩ := bodyU_skip (by simp; omega) h4
  obtain ⟨rfl, l5⟩ := bodyU_skip (by simp; omega) h5
  obtain ⟨rfl, l6⟩ := bodyU_skip (by simp; omega) h6
  refine ⟨12, by omega, by omega, by simp, ?_⟩
  simp at l6
  omega

theorem readClauses_takes {f : Reader → M (ExceptionClause × Reader)} (hf : TakesClause f) (n : Nat) :
    ∀ (r : Reader), r.data.length < 2 ^ 63 → r.pos + 24 < 2 ^ 64 → ∀ w cs w', readClauses f n r w = (.ok cs, w') →
      12 * n ≤ r.data.length - r.pos := by
  induction n with
  | zero => intro r _ _ w cs w' _; exact Nat.zero_le _
  | succ n ih =>
    intro r hl hp w cs w' h
    unfold readClauses at h
    obtain ⟨⟨c, r1⟩, w1, h1, h⟩ := M.bind_eq_ok.1 h
    obtain ⟨cs', w2, h2, h⟩ := M.bind_eq_ok.1 h
    obtain ⟨k, k1, k2, rfl, k3⟩ := hf _ _ _ _ _ hp h1
    have := ih (r.skip k) hl (by simp; omega) _ _ _ h2
    simp at this
    omega

theorem readClauseSectionR_cost {r : Reader} (hr : r.Ok) :
    MR.Costs (readClauseSectionR cfg m r) r.data.length fun _ => True := by
  have hp := hr.1
  have hl := hr.2
  unfold readClauseSectionR
  dsimp only
  refine ((MR.Costs.lift _).bind fun ⟨next, r1⟩ h1 => ?_).le (Nat.le_of_eq (Nat.zero_add _))
  obtain ⟨rfl, l1⟩ := bodyU_skip (by show (r.pos + 3) / 4 * 4 + 1 < _; omega) h1
  refine .ite (fun _ => .fails (by intro a; exact nofun)) fun _ => ?_
  refine ((MR.Costs.lift _).bind fun ⟨dataSize, r2⟩ h2 => ?_).le (Nat.le_of_eq (Nat.zero_add _))
  have e0 : (r.goto ((r.pos + 3) / 4 * 4)).2.data = r.data := rfl
  rw [e0] at l1
  obtain ⟨rfl, l2⟩ := bodyU_skip (by simp; omega) h2
  simp [e0] at l2
  refine .ite (fun _ => ?_) fun _ => ?_
  · refine ((MR.Costs.lift _).bind fun ⟨high, r3⟩ h3 => ?_).le (Nat.le_of_eq (Nat.zero_add _))
    obtain ⟨rfl, l3⟩ := bodyU_skip (by simp; omega) h3
    simp [e0] at l3
    dsimp only
    intro w cs w' h
    obtain ⟨_, w1, h4, h5, h6⟩ := MR.bind_ok h
    rw [h6]
    have := readClauses_takes readFatClause_takes _ _ (by simp [e0]; omega) (by simp; omega) _ _ _ h5
    refine ⟨?_, trivial⟩
    simp [e0] at this
    change (dataSize + high <<< 8) / 24 + 0 ≤ _
    simp only [Nat.shiftLeft_eq, Nat.reducePow] at this ⊢
    omega
  · refine ((MR.Costs.lift _).bind fun ⟨ok, r3⟩ h3 => ?_).le (Nat.le_of_eq (Nat.zero_add _))
    rw [advance_eq cfg _ _ (by simp; omega)] at h3
    cases h3
    dsimp only
    intro w cs w' h
    obtain ⟨_, w1, h4, h5, h6⟩ := MR.bind_ok h
    rw [h6]
    have := readClauses_takes readSmallClause_takes _ _ (by simp [e0]; omega) (by simp; omega) _ _ _ h5
    refine ⟨?_, trivial⟩
    simp [e0] at this
    change dataSize / 12 + 0 ≤ _
    omega

/-! ## Method bodies -/

theorem readMoreSectionsR_cost {r : Reader} (hr : r.Ok) (b : Nat) :
    MR.Costs (readMoreSectionsR cfg m b r) r.data.length fun _ => True := by
  unfold readMoreSectionsR
  exact .ite (fun _ => readClauseSectionR_cost hr) fun _ => (MR.Costs.pure trivial).le (Nat.zero_le _)

theorem bodyBytes_skip {r r' : Reader} {n : Nat} {x : Bytes} (hp : r.Ok) (hn : n < 2 ^ 63) (h : bodyBytes cfg r n = .ok (x, r')) :
    r' = r.skip n ∧ r.pos + n ≤ r.data.length := by
  have h1 := hp.1
  have h2 := hp.2
  unfold bodyBytes at h
  obtain ⟨⟨y, r1⟩, h3, h⟩ := Res.bind_eq_ok.1 h
  obtain ⟨z, h4, h⟩ := Res.bind_eq_ok.1 h
  cases h
  rw [readArray_eq cfg r 1 n (by omega)] at h3
  split at h3
  · cases h3
    exact ⟨by simp, by omega⟩
  · cases h3; cases h4

theorem loadBodyR_cost (hb : m.blobHeap.length < 2 ^ 63) (hf : m.peData.length < 2 ^ 63) (rva : Nat) :
    MR.Costs (loadBodyR cfg m rva) (m.blobHeap.length + m.peData.length) fun _ => True := by
  unfold loadBodyR
  refine ((MR.Costs.lift _).bind fun off _ => (MR.Costs.lift _).bind fun d hd => ?_).le
    (Nat.le_of_eq (by rw [Nat.zero_add, Nat.zero_add]))
  have hl := sliceFrom_fits hd
  have ok : (Reader.new d).Ok := .new (by omega)
  dsimp only
  refine ((MR.Costs.lift _).bind fun ⟨b, r⟩ h1 => ?_).le (Nat.le_of_eq (Nat.zero_add _))
  obtain ⟨rfl, l1⟩ := bodyU_skip (by show 0 + 1 < _; omega) h1
  change 0 + 1 ≤ d.length at l1
  refine .ite (fun _ => ?_) fun _ => .ite (fun _ => ?_) fun _ => .fails (by intro a; exact nofun)
  · exact ((MR.Costs.lift _).bind fun _ _ => MR.Costs.pure trivial).le (Nat.zero_le _)
  · refine ((MR.Costs.lift _).bind fun ⟨_, r2⟩ h2 => (MR.Costs.lift _).bind fun ⟨_, r3⟩ h3 =>
      (MR.Costs.lift _).bind fun ⟨size, r4⟩ h4 => (MR.Costs.lift _).bind fun ⟨token, r5⟩ h5 => ?_).le
      (Nat.le_of_eq (by rw [Nat.zero_add, Nat.zero_add, Nat.zero_add, Nat.zero_add]))
    rw [advance_eq cfg _ _ (by show 0 + 1 + 1 < _; omega)] at h2
    cases h2
    obtain ⟨rfl, l3⟩ := bodyU_skip (by show 0 + 1 + 1 + 2 < _; omega) h3
    have hsize := bodyU_lt (by show 0 + 1 + 1 + 2 + 4 < _; omega) h4
    obtain ⟨rfl, l4⟩ := bodyU_skip (by show 0 + 1 + 1 + 2 + 4 < _; omega) h4
    obtain ⟨rfl, l5⟩ := bodyU_skip (by show 0 + 1 + 1 + 2 + 4 + 4 < _; omega) h5
    change 0 + 1 + 1 + 2 + 4 + 4 ≤ d.length at l5
    refine (readLocalsR_cost hb _).bind fun _ _ => ?_
    refine ((MR.Costs.lift _).bind fun ⟨code, r6⟩ h6 => ?_).le (Nat.le_of_eq (Nat.zero_add _))
    have ok5 : ((((((Reader.new d).skip 1).skip 1).skip 2).skip 4).skip 4).Ok := ⟨l5, ok.2⟩
    dsimp only at h6
    have l6 := bodyBytes_skip ok5 (by omega) h6
    have ok6 : r6.Ok ∧ r6.data = d := by
      rw [l6.1]
      exact ⟨⟨l6.2, ok.2⟩, rfl⟩
    refine ((readMoreSectionsR_cost ok6.1 b).bind fun _ _ => MR.Costs.pure trivial).le ?_
    rw [ok6.2]
    exact hl

/-! ## Fields and methods -/

theorem readFieldSigR_cost {r : Reader} (hr : r.Ok) {p : ElementType × Reader} (h : (readFieldSigR cfg r).1 = .ok p) :
    (readFieldSigR cfg r).2 ≤ r.rest.length := by
  unfold readFieldSigR at h ⊢
  obtain ⟨⟨b, r1⟩, h1, h2, h3⟩ := Room.bind_ok h
  rw [h3]
  obtain ⟨ok1, l1⟩ := readByte_skip hr h1
  dsimp only at h2 ⊢
  split at h2
  · cases h2
  · rename_i hb
    obtain ⟨b', h4, h5, h6⟩ := Room.bind_ok h2
    rw [if_neg hb, h6]
    split at h5
    · cases h5
    · rename_i hb'
      rw [if_neg hb']
      have := (readElemR_step' cfg ok1).paid h5
      change 0 + (0 + _) ≤ _
      omega

theorem loadFieldR_cost (hb : m.blobHeap.length < 2 ^ 63) (t i o : Nat) :
    MR.Costs (loadFieldR cfg m t i o) m.blobHeap.length fun _ => True := by
  unfold loadFieldR
  refine ((MR.Costs.lift _).bind fun row _ => (MR.Costs.lift _).bind fun name _ => (MR.Costs.lift _).bind fun r hr => ?_).le
    (Nat.le_of_eq (by rw [Nat.zero_add, Nat.zero_add, Nat.zero_add]))
  obtain ⟨d, rfl, hd⟩ := blobHeapReader_new hr
  have ok : (Reader.new d).Ok := .new (by omega)
  refine ((MR.Costs.room (n := m.blobHeap.length) (P := fun _ => True) fun p hp => ⟨?_, trivial⟩).bind fun _ _ =>
    (MR.Costs.of _).bind fun _ _ => MR.Costs.pure trivial)
  exact Nat.le_trans (readFieldSigR_cost ok hp) hd

theorem loadFieldsR_cost (hb : m.blobHeap.length < 2 ^ 63) (fuel t n : Nat) : ∀ i o,
    MR.Costs (loadFieldsR cfg fuel m t n i o) (n * m.blobHeap.length) fun _ => True := by
  induction n with
  | zero => intro i o; exact (MR.Costs.pure trivial).le (Nat.zero_le _)
  | succ n ih =>
    intro i o
    unfold loadFieldsR
    refine ((loadFieldR_cost hb t i o).bind fun f _ => (MR.Costs.of _).bind fun _ _ => (MR.Costs.of _).bind fun _ _ =>
      (MR.Costs.lift _).bind fun o' _ => (ih (i + 1) o').bind fun _ _ => MR.Costs.pure trivial).le ?_
    rw [Nat.add_mul]
    omega

theorem readManyR_length {f : Reader → Room (α × Reader)} (n : Nat) : ∀ {r r' : Reader} {xs : List α},
    (readManyR f n r).1 = .ok (xs, r') → xs.length = n := by
  induction n with
  | zero => intro r r' xs h; cases h; rfl
  | succ n ih =>
    intro r r' xs h
    unfold readManyR at h
    obtain ⟨⟨a, r1⟩, _, h, _⟩ := Room.bind_ok h
    obtain ⟨⟨as, r2⟩, h2, h, _⟩ := Room.bind_ok h
    cases h
    simp [ih h2]

/-- The parameters of a signature were requested. -/
theorem readMethodSigR_params {r : Reader} {sig : MethodSig} {r' : Reader} (h : (readMethodSigR cfg r).1 = .ok (sig, r')) :
    sig.params.length ≤ (readMethodSigR cfg r).2 := by
  unfold readMethodSigR at h ⊢
  obtain ⟨⟨b, r1⟩, h1, h, e1⟩ := Room.bind_ok h
  rw [e1]
  dsimp only at h ⊢
  obtain ⟨⟨_, r2⟩, h2, h, e2⟩ := Room.bind_ok h
  rw [e2]
  dsimp only at h ⊢
  obtain ⟨⟨pc, r3⟩, h3, h, e3⟩ := Room.bind_ok h
  rw [e3]
  dsimp only at h ⊢
  obtain ⟨⟨_, r4⟩, h4, h, e4⟩ := Room.bind_ok h
  rw [e4]
  dsimp only at h ⊢
  obtain ⟨_, h5, h, e5⟩ := Room.bind_ok h
  rw [e5]
  obtain ⟨⟨ps, r6⟩, h6, h, e6⟩ := Room.bind_ok h
  rw [e6]
  cases h
  have := readManyR_length _ h6
  change ps.length ≤ _
  change _ ≤ _ + (_ + (_ + (_ + (pc + _))))
  omega

theorem loadImplR_cost (hb : m.blobHeap.length < 2 ^ 63) (hf : m.peData.length < 2 ^ 63) (t : Nat) (row : MethodDefRow) (name : Name)
    (sig : MethodSig) (hs : sig.params.length ≤ m.blobHeap.length) :
    MR.Costs (loadImplR cfg m t row name sig) (m.blobHeap.length + m.peData.length) fun _ => True := by
  unfold loadImplR
  refine .ite (fun _ => ?_) fun _ => .ite (fun _ => .fails (by intro a; exact nofun)) fun _ => .ite (fun _ => ?_) fun _ => ?_
  · refine ((MR.Costs.reserve _).bind fun _ _ => (MR.Costs.of _).bind fun _ _ => (MR.Costs.of _).bind fun _ _ =>
      (MR.Costs.of _).bind fun _ _ => (MR.Costs.of _).bind fun _ _ => (MR.Costs.lift _).bind fun _ _ => MR.Costs.pure trivial).le ?_
    omega
  · exact (MR.Costs.pure trivial).le (Nat.zero_le _)
  · exact ((loadBodyR_cost hb hf _).bind fun _ _ => MR.Costs.pure trivial)

theorem loadMethodR_cost (hb : m.blobHeap.length < 2 ^ 63) (hf : m.peData.length < 2 ^ 63) (t i : Nat) :
    MR.Costs (loadMethodR cfg m t i) (3 * m.blobHeap.length + m.peData.length) fun _ => True := by
  unfold loadMethodR
  refine ((MR.Costs.lift _).bind fun row _ => (MR.Costs.lift _).bind fun name _ => (MR.Costs.lift _).bind fun r hr => ?_).le
    (Nat.le_of_eq (by rw [Nat.zero_add, Nat.zero_add, Nat.zero_add]))
  obtain ⟨d, rfl, hd⟩ := blobHeapReader_new hr
  have ok : (Reader.new d).Ok := .new (by omega)
  refine ((MR.Costs.room (n := m.blobHeap.length) (P := fun p => p.1.params.length ≤ m.blobHeap.length) fun p hp => ?_).bind
    fun ⟨sig, _⟩ hs => (loadImplR_cost hb hf t row name sig hs).bind fun _ _ => (MR.Costs.of _).bind fun _ _ =>
      ((MR.Costs.reserve _).le hs).bind fun _ _ => (MR.Costs.of _).bind fun _ _ => MR.Costs.pure trivial).le (by omega)
  have h1 := (readMethodSigR_step cfg ok).paid hp
  have h2 := readMethodSigR_params hp
  have e : (Reader.new d).rest.length = d.length := rfl
  exact ⟨by omega, by omega⟩

theorem loadMethodsR_cost (hb : m.blobHeap.length < 2 ^ 63) (hf : m.peData.length < 2 ^ 63) (t n : Nat) : ∀ i,
    MR.Costs (loadMethodsR cfg m t n i) (n * (3 * m.blobHeap.length + m.peData.length)) fun _ => True := by
  induction n with
  | zero => intro i; exact (MR.Costs.pure trivial).le (Nat.zero_le _)
  | succ n ih =>
    intro i
    unfold loadMethodsR
    refine ((loadMethodR_cost hb hf t i).bind fun _ _ => (MR.Costs.of _).bind fun _ _ => ih (i + 1)).le ?_
    rw [Nat.add_mul]
    omega

/-! ## Types -/

/-- The start of the run of row `i`, where the row after the last starts after the last of the owned rows. -/
def runStart (m : Metadata) (list : TypeDefRow → Nat) (rows i : Nat) : Nat :=
  match m.tables.typeDef[i]? with
  | some r => list r
  | none => rows + 1

theorem usub_cases {a b c : Nat} (ha : a < 2 ^ 64) (hb : b < 2 ^ 64) (h : usub cfg 64 a b = .ok c) :
    c < 2 ^ 64 ∧ (c + b = a ∨ c + b = a + 2 ^ 64) := by
  unfold usub at h
  split at h
  · cases h; omega
  · split at h
    · cases h
    · cases h
      rw [Nat.mod_eq_of_lt (by omega)]
      omega

/-- The columns of the type table that point at fields and methods. -/
def ListsSmall (m : Metadata) : Prop := ∀ row ∈ m.tables.typeDef, row.fieldList < 2 ^ 32 ∧ row.methodList < 2 ^ 32

theorem ownedRun_ends {list : TypeDefRow → Nat} {rows i s n : Nat} (hs : ∀ row ∈ m.tables.typeDef, list row < 2 ^ 32)
    (hr : rows < 2 ^ 32) (hd : m.tables.typeDef.length < 2 ^ 32) (h : ownedRun cfg m list rows i = .ok (s, n)) (hn : n < 2 ^ 60) :
    runStart m list rows i + n = runStart m list rows (i + 1) := by
  unfold ownedRun at h
  obtain ⟨row, h1, h⟩ := Res.bind_eq_ok.1 h
  have h1 := tableIndex_succ h1
  obtain ⟨last, h2, h⟩ := Res.bind_eq_ok.1 h
  have hlt := (List.getElem?_eq_some_iff.1 h1).1
  rw [usub_ok (by omega)] at h2
  cases h2
  have hrow := hs row (List.mem_of_getElem? h1)
  unfold runStart
  rw [h1]
  dsimp only
  split at h
  · rename_i he
    obtain ⟨x, h3, h⟩ := Res.bind_eq_ok.1 h
    obtain ⟨y, h4, h⟩ := Res.bind_eq_ok.1 h
    cases h
    rw [List.getElem?_eq_none (by omega)]
    dsimp only
    have e := usub_cases (by omega) (by omega) h3
    have e' := usub_cases (by omega) e.1 h4
    omega
  · obtain ⟨nx, h3, h⟩ := Res.bind_eq_ok.1 h
    obtain ⟨y, h4, h⟩ := Res.bind_eq_ok.1 h
    cases h
    have h3 := tableIndex_succ h3
    have hnx := hs nx (List.mem_of_getElem? h3)
    rw [h3]
    dsimp only
    have e' := usub_cases (by omega) (by omega) h4
    omega

theorem reserveRun_lt {n : Nat} {u : Unit} (h : reserveRun n = .ok u) : n < 2 ^ 60 := by
  unfold reserveRun at h
  split at h
  · omega
  · cases h

/-- The file is small enough to be in memory, and its rows are as read from a file. -/
structure FitsMemory (m : Metadata) : Prop where
  blob : m.blobHeap.length < 2 ^ 63
  file : m.peData.length < 2 ^ 63
  lists : ListsSmall m
  tables : m.tables.Small

theorem resolveTypeR_cost (hm : FitsMemory m) (fuel t i : Nat) : ∀ w fs w', (resolveTypeR cfg fuel m t i w).1 = (.ok fs, w') →
    ∃ nf nm, runStart m (·.fieldList) m.tables.field.length i + nf = runStart m (·.fieldList) m.tables.field.length (i + 1) ∧
      runStart m (·.methodList) m.tables.methodDef.length i + nm = runStart m (·.methodList) m.tables.methodDef.length (i + 1) ∧
      (resolveTypeR cfg fuel m t i w).2 ≤ nf * (1 + m.blobHeap.length) + nm * (1 + 3 * m.blobHeap.length + m.peData.length) := by
  intro w fs w' h
  unfold resolveTypeR at h ⊢
  obtain ⟨_, w1, _, h, e1⟩ := MR.bind_ok h
  obtain ⟨_, w2, _, h, e2⟩ := MR.bind_ok h
  obtain ⟨fs', w3, hf, h, e3⟩ := MR.bind_ok h
  obtain ⟨_, w4, hm', h, e4⟩ := MR.bind_ok h
  rw [e1, e2, e3, e4]
  cases h
  unfold resolveFieldsR at hf ⊢
  obtain ⟨⟨s, n⟩, w5, g1, g, e5⟩ := MR.bind_ok hf
  rw [e5]
  have g1 := (MR.Costs.lift _ _ _ _ g1).2
  dsimp only at g ⊢
  obtain ⟨u, w6, g2, g, e6⟩ := MR.bind_ok g
  rw [e6]
  have g2 := (MR.Costs.lift _ _ _ _ g2).2
  obtain ⟨_, w7, _, g, e7⟩ := MR.bind_ok g
  rw [e7]
  obtain ⟨_, w8, _, g, e8⟩ := MR.bind_ok g
  rw [e8]
  obtain ⟨o, w9, _, g, e9⟩ := MR.bind_ok g
  rw [e9]
  have c1 := (loadFieldsR_cost hm.blob _ _ _ _ _ _ _ _ g).1
  have b1 := ownedRun_ends (fun row hr => (hm.lists row hr).1) hm.tables.field hm.tables.typeDef g1 (reserveRun_lt g2)
  unfold resolveMethodsR at hm' ⊢
  obtain ⟨⟨s', n'⟩, v5, k1, k, f5⟩ := MR.bind_ok hm'
  rw [f5]
  have k1 := (MR.Costs.lift _ _ _ _ k1).2
  dsimp only at k ⊢
  obtain ⟨u', v6, k2, k, f6⟩ := MR.bind_ok k
  rw [f6]
  have k2 := (MR.Costs.lift _ _ _ _ k2).2
  obtain ⟨_, v7, _, k, f7⟩ := MR.bind_ok k
  rw [f7]
  obtain ⟨_, v8, _, k, f8⟩ := MR.bind_ok k
  rw [f8]
  have c2 := (loadMethodsR_cost hm.blob hm.file _ _ _ _ _ _ k).1
  have b2 := ownedRun_ends (fun row hr => (hm.lists row hr).2) hm.tables.methodDef hm.tables.typeDef k1 (reserveRun_lt k2)
  refine ⟨n, n', b1, b2, ?_⟩
  change 0 + (0 + ((0 + (0 + (n + (0 + (0 + _))))) + ((0 + (0 + (n' + (0 + _)))) + 0))) ≤ _
  rw [Nat.mul_add n, Nat.mul_add n' (1 + _), Nat.mul_add n' 1]
  rw [Nat.mul_add n'] at c2
  omega

theorem resolveTypesR_cost (hm : FitsMemory m) (fuel : Nat) (ts : List Nat) : ∀ i, i + ts.length = m.tables.typeDef.length →
    ∀ w fs w', (resolveTypesR cfg fuel m ts i w).1 = (.ok fs, w') →
    ∃ nf nm, runStart m (·.fieldList) m.tables.field.length i + nf = m.tables.field.length + 1 ∧
      runStart m (·.methodList) m.tables.methodDef.length i + nm = m.tables.methodDef.length + 1 ∧
      (resolveTypesR cfg fuel m ts i w).2 ≤ nf * (1 + m.blobHeap.length) + nm * (1 + 3 * m.blobHeap.length + m.peData.length) := by
  induction ts with
  | nil =>
    intro i hi w fs w' h
    have e : m.tables.typeDef[i]? = none := List.getElem?_eq_none (by rw [← hi]; simp)
    refine ⟨0, 0, ?_, ?_, Nat.zero_le _⟩ <;> unfold runStart <;> rw [e]
  | cons t ts ih =>
    intro i hi w fs w' h
    unfold resolveTypesR at h ⊢
    obtain ⟨fs1, w1, h1, h, e1⟩ := MR.bind_ok h
    obtain ⟨fs2, w2, h2, h, e2⟩ := MR.bind_ok h
    rw [e1, e2]
    obtain ⟨nf, nm, a1, a2, a3⟩ := resolveTypeR_cost hm fuel t i _ _ _ h1
    obtain ⟨nf', nm', b1, b2, b3⟩ := ih (i + 1) (by rw [List.length_cons] at hi; omega) _ _ _ h2
    refine ⟨nf + nf', nm + nm', by omega, by omega, ?_⟩
    change _ + (_ + 0) ≤ _
    rw [Nat.add_mul, Nat.add_mul]
    omega

/-! ## The assembly -/

theorem loadTypes_count (a n : Nat) : ∀ (i : Nat) {w w' : World} {ts : List Nat}, loadTypes cfg a m n i w = (.ok ts, w') → ts.length = n := by
  induction n with
  | zero => intro i w w' ts h; cases h; rfl
  | succ n ih =>
    intro i w w' ts h
    unfold loadTypes at h
    obtain ⟨_, _, _, h⟩ := M.bind_eq_ok.1 h
    obtain ⟨_, _, h2, h⟩ := M.bind_eq_ok.1 h
    cases h
    simp [ih _ h2]

theorem loadSelfR_cost (hm : FitsMemory m) (fuel : Nat) (name : Name) : MR.Costs (loadSelfR cfg fuel m name)
    (m.tables.memberRef.length + m.tables.typeRef.length + m.tables.typeDef.length + m.tables.methodDef.length +
      (m.tables.field.length + 1) * (1 + m.blobHeap.length) +
      (m.tables.methodDef.length + 1) * (1 + 3 * m.blobHeap.length + m.peData.length)) fun _ => True := by
  unfold loadSelfR
  refine ((MR.Costs.reserve _).bind fun _ _ => (MR.Costs.of _).bind fun _ _ => (MR.Costs.reserve _).bind fun _ _ =>
    (MR.Costs.of _).bind fun _ _ => (MR.Costs.of _).bind fun _ _ => (MR.Costs.of _).bind fun _ _ => (MR.Costs.reserve _).bind fun _ _ =>
    (MR.Costs.of _).bind fun types ht => MR.Costs.bind (P := fun _ => True) (n := (m.tables.field.length + 1) * (1 + m.blobHeap.length) +
      (m.tables.methodDef.length + 1) * (1 + 3 * m.blobHeap.length + m.peData.length)) ?_ fun _ _ => (MR.Costs.of _).bind fun _ _ =>
    (MR.Costs.reserve _).bind fun _ _ => (MR.Costs.of _).bind fun _ _ => (MR.Costs.lift _).bind fun _ _ =>
    (MR.Costs.of _).bind fun _ _ => MR.Costs.pure trivial).le (by omega)
  intro w fs w' h
  obtain ⟨_, _, ht⟩ := ht
  obtain ⟨nf, nm, h1, h2, h3⟩ := resolveTypesR_cost hm fuel types 0 (by rw [loadTypes_count _ _ _ ht]; omega) _ _ _ h
  refine ⟨Nat.le_trans h3 (Nat.add_le_add (Nat.mul_le_mul_right _ ?_) (Nat.mul_le_mul_right _ ?_)), trivial⟩ <;> omega

/-! ## The file -/

theorem readU_lt {r r' : Reader} {w n : Nat} (h : r.readU cfg w = .ok (some n, r')) : n < 256 ^ w := by
  unfold Reader.readU at h
  obtain ⟨⟨x, r1⟩, h1, h⟩ := Res.bind_eq_ok.1 h
  unfold Reader.read at h1
  obtain ⟨y, h2, h1⟩ := Res.bind_eq_ok.1 h1
  cases y with
  | none => cases h1; cases h
  | some b =>
    dsimp only at h1
    obtain ⟨⟨_, _⟩, _, h1⟩ := Res.bind_eq_ok.1 h1
    cases h1
    cases h
    unfold Reader.peek at h2
    obtain ⟨e, _, h2⟩ := Res.bind_eq_ok.1 h2
    split at h2
    · cases h2
    · obtain ⟨b', h3, h2⟩ := Res.bind_eq_ok.1 h2
      cases h2
      unfold Reader.rawBytes at h3
      obtain ⟨s, _, h3⟩ := Res.bind_eq_ok.1 h3
      split at h3
      · rename_i hl
        cases h3
        have := leNat_lt (s.take w)
        rwa [List.length_take, Nat.min_eq_left hl] at this
      · cases h3

theorem trRead_lt {r r' : Reader} {w n : Nat} (h : trRead cfg r w = .ok (n, r')) : n < 256 ^ w := by
  unfold trRead at h
  obtain ⟨⟨x, r1⟩, h1, h⟩ := Res.bind_eq_ok.1 h
  obtain ⟨y, h2, h⟩ := Res.bind_eq_ok.1 h
  cases h
  cases x with
  | none => cases h2
  | some x => cases h2; exact readU_lt h1

theorem readHandle_lt {t : TableCtx} {ty : TableType} {r r' : Reader} {n : Nat} (h : readHandle cfg t ty r = .ok (n, r')) : n < 2 ^ 32 := by
  unfold readHandle readWide at h
  split at h
  · exact trRead_lt h
  · exact Nat.lt_trans (trRead_lt h) (by decide)

theorem readTypeDefRow_lists {t : TableCtx} {r r' : Reader} {row : TypeDefRow} (h : readTypeDefRow cfg t r = .ok (row, r')) :
    row.fieldList < 2 ^ 32 ∧ row.methodList < 2 ^ 32 := by
  unfold readTypeDefRow at h
  obtain ⟨⟨_, _⟩, _, h⟩ := Res.bind_eq_ok.1 h
  obtain ⟨⟨_, _⟩, _, h⟩ := Res.bind_eq_ok.1 h
  obtain ⟨⟨_, _⟩, _, h⟩ := Res.bind_eq_ok.1 h
  obtain ⟨⟨_, _⟩, _, h⟩ := Res.bind_eq_ok.1 h
  obtain ⟨⟨_, _⟩, h1, h⟩ := Res.bind_eq_ok.1 h
  obtain ⟨⟨_, _⟩, h2, h⟩ := Res.bind_eq_ok.1 h
  cases h
  exact ⟨readHandle_lt h1, readHandle_lt h2⟩

theorem readMany_all {f : Reader → Res (α × Reader)} {P : α → Prop} (hf : ∀ r a r', f r = .ok (a, r') → P a) (n : Nat) :
    ∀ {r r' : Reader} {xs : List α}, readMany f n r = .ok (xs, r') → ∀ x ∈ xs, P x := by
  induction n with
  | zero => intro r r' xs h; cases h; exact nofun
  | succ n ih =>
    intro r r' xs h
    unfold readMany at h
    obtain ⟨⟨a, r1⟩, h1, h⟩ := Res.bind_eq_ok.mp h
    obtain ⟨⟨as, r2⟩, h2, h⟩ := Res.bind_eq_ok.mp h
    cases h
    intro x hx
    rcases List.mem_cons.1 hx with rfl | hx
    · exact hf _ _ _ h1
    · exact ih h2 x hx

theorem readTableR_cost {f : Reader → Res (α × Reader)} {t : TableCtx} {ty : TableType} {r r' : Reader} {xs : List α}
    (h : (readTableR f t ty r).1 = .ok (xs, r')) : (readTableR f t ty r).2 = xs.length := by
  unfold readTableR at h ⊢
  obtain ⟨_, _, h, e⟩ := Room.bind_ok h
  rw [e]
  have := readMany_length _ h
  change t.rowCount ty.code + 0 = _
  omega

theorem readTablesR_cost {t : TableCtx} {r r' : Reader} {x : Tables} (h : (readTablesR cfg t r).1 = .ok (x, r')) :
    x.memberRef.length + x.typeRef.length + x.typeDef.length + x.field.length + x.methodDef.length ≤ (readTablesR cfg t r).2 ∧
      ∀ row ∈ x.typeDef, row.fieldList < 2 ^ 32 ∧ row.methodList < 2 ^ 32 := by
  unfold readTablesR at h ⊢
  obtain ⟨⟨_, r1⟩, k1, h, e1⟩ := Room.bind_ok h
  rw [e1]
  dsimp only at h ⊢
  obtain ⟨⟨_, r2⟩, k2, h, e2⟩ := Room.bind_ok h
  rw [e2]
  dsimp only at h ⊢
  obtain ⟨⟨_, r3⟩, k3, h, e3⟩ := Room.bind_ok h
  rw [e3]
  dsimp only at h ⊢
  obtain ⟨⟨_, r4⟩, k4, h, e4⟩ := Room.bind_ok h
  rw [e4]
  dsimp only at h ⊢
  obtain ⟨⟨_, r5⟩, k5, h, e5⟩ := Room.bind_ok h
  rw [e5]
  dsimp only at h ⊢
  obtain ⟨⟨_, r6⟩, k6, h, e6⟩ := Room.bind_ok h
  rw [e6]
  dsimp only at h ⊢
  obtain ⟨⟨_, r7⟩, k7, h, e7⟩ := Room.bind_ok h
  rw [e7]
  dsimp only at h ⊢
  obtain ⟨⟨_, r8⟩, k8, h, e8⟩ := Room.bind_ok h
  rw [e8]
  rw [readTableR_cost k2, readTableR_cost k3, readTableR_cost k4, readTableR_cost k5, readTableR_cost k8]
  dsimp only at h ⊢
  iterate 30 (obtain ⟨⟨_, _⟩, _, h, _⟩ := Room.bind_ok h)
  have k3 : readTable (readTypeDefRow cfg t) t .typeDef r2 = .ok (_, r3) := (readTableR_fst _ _ _ _).symm.trans k3
  have k3 := readMany_all (fun _ _ _ => readTypeDefRow_lists) _ k3
  cases h
  dsimp only
  exact ⟨by omega, k3⟩

theorem readMetadataR_cost {data : Bytes} (hsize : data.length < 2 ^ 63) {m : Metadata} (h : (readMetadataR cfg data).1 = .ok m) :
    FitsMemory m ∧ m.peData = data ∧ m.blobHeap.length ≤ data.length ∧
    (readMetadataR cfg data).2 ≤ data.length ∧
    m.tables.memberRef.length + m.tables.typeRef.length + m.tables.typeDef.length + m.tables.field.length + m.tables.methodDef.length ≤
      data.length := by
  have hsm := readMetadata_small ((readMetadataR_fst (cfg := cfg) data).symm.trans h)
  unfold readMetadataR at h ⊢
  obtain ⟨info, k1, h, e1⟩ := Room.bind_ok h
  obtain ⟨cli, k2, h, e2⟩ := Room.bind_ok h
  obtain ⟨md, k3, h, e3⟩ := Room.bind_ok h
  obtain ⟨s, k4, h, e4⟩ := Room.bind_ok h
  obtain ⟨_, k5, h, e5⟩ := Room.bind_ok h
  obtain ⟨_, k6, h, e6⟩ := Room.bind_ok h
  obtain ⟨_, k7, h, e7⟩ := Room.bind_ok h
  obtain ⟨_, k8, h, e8⟩ := Room.bind_ok h
  obtain ⟨blob, k9, h, e9⟩ := Room.bind_ok h
  obtain ⟨_, k10, h, e10⟩ := Room.bind_ok h
  obtain ⟨_, k11, h, e11⟩ := Room.bind_ok h
  obtain ⟨_, k12, h, e12⟩ := Room.bind_ok h
  obtain ⟨ts, k13, h, e13⟩ := Room.bind_ok h
  obtain ⟨tb, k14, h, e14⟩ := Room.bind_ok h
  obtain ⟨_, k15, h, e15⟩ := Room.bind_ok h
  rw [e1, e2, e3, e4, e5, e6, e7, e8, e9, e10, e11, e12, e13, e14, e15]
  have hmd : md.length ≤ data.length := by
    change metadataSlice cfg data info cli = _ at k3
    unfold metadataSlice at k3
    obtain ⟨_, _, k3⟩ := Res.bind_eq_ok.1 k3
    obtain ⟨_, _, k3⟩ := Res.bind_eq_ok.1 k3
    exact slice_fits k3
  have hst : ∀ {h : StreamHeader} {x : Bytes}, streamBytes cfg md h = .ok x → x.length ≤ data.length := by
    intro h x k
    unfold streamBytes at k
    obtain ⟨_, _, k⟩ := Res.bind_eq_ok.1 k
    exact Nat.le_trans (slice_fits k) hmd
  have l1 := hst k9
  have l2 := hst k13
  have c1 := readTableStreamR_room cfg (by omega) k14
  cases h
  unfold readTableStreamR at k14
  obtain ⟨⟨c, r⟩, _, k14, e16⟩ := Room.bind_ok k14
  obtain ⟨⟨x, r'⟩, k17, k14, e17⟩ := Room.bind_ok k14
  cases k14
  obtain ⟨c2, c3⟩ := readTablesR_cost k17
  have c4 : (readTableStreamR cfg ts).2 = (readTablesR cfg c r).2 := by
    unfold readTableStreamR
    rw [e16, e17]
    exact (Nat.zero_add _).trans (Nat.add_zero _)
  refine ⟨⟨?_, hsize, c3, hsm⟩, rfl, l1, ?_, ?_⟩
  · show blob.length < _
    omega
  · show 0 + (0 + (0 + (0 + (0 + (0 + (0 + (0 + (0 + (0 + (0 + (0 + (0 + (_ + (0 + 0)))))))))))))) ≤ _
    omega
  · dsimp only
    omega

theorem loadFileR_cost {data : Bytes} (hsize : data.length < 2 ^ 63) (refs : Metadata → M Unit) (fuel : Nat) :
    MR.Costs (loadFileR cfg refs fuel data) (4 * (data.length + 2) ^ 2) fun _ => True := by
  unfold loadFileR
  have hk : ∀ N f d B : Nat, f + d ≤ N → B ≤ N → N + (N + (f + 1) * (1 + B) + (d + 1) * (1 + 3 * B + N)) ≤ 4 * (N + 2) ^ 2 := by
    intro N f d B h1 h2
    have a1 : (f + 1) * (1 + B) ≤ (f + 1) * (1 + 4 * N) := Nat.mul_le_mul_left _ (by omega)
    have a2 : (d + 1) * (1 + 3 * B + N) ≤ (d + 1) * (1 + 4 * N) := Nat.mul_le_mul_left _ (by omega)
    have a3 : (f + 1) * (1 + 4 * N) + (d + 1) * (1 + 4 * N) ≤ (N + 2) * (1 + 4 * N) := by
      rw [← Nat.add_mul]
      exact Nat.mul_le_mul_right _ (by omega)
    have a4 : (N + 2) * (1 + 4 * N) + 2 * N ≤ 4 * (N + 2) ^ 2 := by
      rw [Nat.pow_two]
      have : (N + 2) * (1 + 4 * N) + 2 * N ≤ (N + 2) * (1 + 4 * N) + (N + 2) * 2 := by omega
      refine Nat.le_trans this ?_
      rw [← Nat.mul_add, Nat.mul_left_comm]
      exact Nat.mul_le_mul_left _ (by omega)
    omega
  intro w a w' h
  obtain ⟨m, w1, h1, h, e1⟩ := MR.bind_ok h
  change ((readMetadataR cfg data).1, w) = _ at h1
  obtain ⟨g1, g2, g3, g4, g5⟩ := readMetadataR_cost hsize (Prod.mk.inj h1).1
  obtain ⟨_, w2, _, h, e2⟩ := MR.bind_ok h
  obtain ⟨name, w3, _, h, e3⟩ := MR.bind_ok h
  obtain ⟨_, w4, _, h, e4⟩ := MR.bind_ok h
  have := (loadSelfR_cost g1 fuel name _ _ _ h).1
  rw [e1, e2, e3, e4]
  refine ⟨?_, trivial⟩
  change (readMetadataR cfg data).2 + (0 + (0 + (0 + _))) ≤ _
  have := hk data.length m.tables.field.length m.tables.methodDef.length m.blobHeap.length (by omega) g3
  rw [g2] at *
  omega

end Clr
