import Verif.Model.AlignBodies
import Verif.Spec.Places
import Verif.Lemmas.AlignFiles
import Verif.Lemmas.MethodBody
import Verif.Props.Heaps
/-! # Lemmas about checked reads of method bodies and user strings -/

namespace Clr
open Spec Reader

variable {cfg : Cfg} {base : Nat} {r : Reader} {m : Metadata} {w : World}

theorem sbodyU_at {n k : Nat} {t : Bytes} (hr : r.Ok) (hk : k < 2 ^ 32) (hn : n < 256 ^ k)
    (h : r.rest = leBytes k n ++ t) :
    Strict.bodyU base cfg r k = if (base + r.pos) % k = 0 then .ok (n, r.skip k) else .ub := by
  unfold Strict.bodyU
  rw [(readNum_exact hr hk (readU_at cfg hr hn h)).2.2, ite_bind_ub]
  rfl

theorem sbodyU_yes {n k : Nat} {t : Bytes} (hr : r.Ok) (hk : k < 2 ^ 32) (hn : n < 256 ^ k)
    (h : r.rest = leBytes k n ++ t) (ha : (base + r.pos) % k = 0) : Strict.bodyU base cfg r k = .ok (n, r.skip k) := by
  rw [sbodyU_at hr hk hn h, if_pos ha]

theorem sbodyU_no {n k : Nat} {t : Bytes} (hr : r.Ok) (hk : k < 2 ^ 32) (hn : n < 256 ^ k)
    (h : r.rest = leBytes k n ++ t) (ha : (base + r.pos) % k ≠ 0) : Strict.bodyU base cfg r k = .ub := by
  rw [sbodyU_at hr hk hn h, if_neg ha]

theorem sbodyU_byte {b : UInt8} {t : Bytes} (hr : r.Ok) (h : r.rest = b :: t) :
    Strict.bodyU base cfg r 1 = .ok (b.toNat, r.skip 1) := by
  apply sbodyU_yes hr (t := t) (by decide)
  · have := b.toNat_lt; omega
  · rw [h]; simp [leBytes, Nat.mod_eq_of_lt b.toNat_lt]
  · omega

theorem M.liftM_bind_ub {α β : Type} {x : Res α} {f : α → M β} (h : x = .ub) (w : World) :
    (((x : M α) >>= f) w).1 = .ub := by
  rw [h]; rfl

theorem sreadFatClause_at {c : Clause} {x : ExceptionClause} (hc : c.FitsFat)
    (hx : ClauseMeans m w c x) {t : Bytes} (hr : r.Ok) (h : r.rest = c.encFat ++ t) (ha : (base + r.pos) % 4 = 0) :
    Strict.readFatClause base cfg m r w = (.ok (x, r.skip 24), w) := by
  obtain ⟨h1, h2, h3, h4, h5⟩ := hc
  simp only [Clause.encFat, List.append_assoc] at h
  unfold Strict.readFatClause
  have hk : c.kind.code < 256 ^ 4 := by cases c.kind <;> decide
  rw [M.liftM_bind_ok (sbodyU_yes hr (by decide) hk h ha)]
  have hr1 := ok_le hr h; have g1 := rest_le h; clear h hr
  dsimp only
  rw [M.liftM_bind_ok (clauseTypeOf_code _), M.liftM_bind_ok (sbodyU_yes hr1 (by decide) h1 g1 (by simp [Reader.skip]; omega))]
  have hr2 := ok_le hr1 g1; have g2 := rest_le g1; clear g1 hr1
  dsimp only
  rw [M.liftM_bind_ok (sbodyU_yes hr2 (by decide) h2 g2 (by simp [Reader.skip]; omega))]
  have hr3 := ok_le hr2 g2; have g3 := rest_le g2; clear g2 hr2
  dsimp only
  rw [M.liftM_bind_ok (sbodyU_yes hr3 (by decide) h3 g3 (by simp [Reader.skip]; omega))]
  have hr4 := ok_le hr3 g3; have g4 := rest_le g3; clear g3 hr3
  dsimp only
  rw [M.liftM_bind_ok (sbodyU_yes hr4 (by decide) h4 g4 (by simp [Reader.skip]; omega))]
  have hr5 := ok_le hr4 g4; have g5 := rest_le g4; clear g4 hr4
  dsimp only
  rw [M.liftM_bind_ok (sbodyU_yes hr5 (by decide) h5 g5 (by simp [Reader.skip]; omega))]
  dsimp only
  rw [M.bind_ok (newClause_means cfg hx)]
  rfl

/-- Of the two numbers of two bytes at distance five one is at an odd address. -/
theorem sreadSmallClause_ub {c : Clause} (hc : c.FitsSmall) {t : Bytes} (hr : r.Ok) (h : r.rest = c.encSmall ++ t) :
    (Strict.readSmallClause base cfg m r w).1 = .ub := by
  obtain ⟨h1, h2, h3, h4, h5⟩ := hc
  simp only [Clause.encSmall, List.append_assoc] at h
  unfold Strict.readSmallClause
  have hk : c.kind.code < 256 ^ 2 := by cases c.kind <;> decide
  by_cases ha : (base + r.pos) % 2 = 0
  · rw [M.liftM_bind_ok (sbodyU_yes hr (by decide) hk h ha)]
    have hr1 := ok_le hr h; have g1 := rest_le h; clear h hr
    dsimp only
    rw [M.liftM_bind_ok (clauseTypeOf_code _), M.liftM_bind_ok (sbodyU_yes hr1 (by decide) h1 g1 (by simp [Reader.skip]; omega))]
    have hr2 := ok_le hr1 g1; have g2 := rest_le g1; clear g1 hr1
    dsimp only
    rw [M.liftM_bind_ok (sbodyU_yes hr2 (by decide) h2 g2 (by omega))]
    have hr3 := ok_le hr2 g2; have g3 := rest_le g2; clear g2 hr2
    dsimp only
    exact M.liftM_bind_ub (sbodyU_no hr3 (by decide) h3 g3 (by simp [Reader.skip]; omega)) w
  · exact M.liftM_bind_ub (sbodyU_no hr (by decide) hk h ha) w

theorem sreadFatClauses_at : ∀ {cs : List Clause} {xs : List ExceptionClause}, (∀ c ∈ cs, c.FitsFat) →
    Each (ClauseMeans m w) cs xs → ∀ {r : Reader} {t : Bytes}, r.Ok → (base + r.pos) % 4 = 0 →
    r.rest = (cs.map Clause.encFat).flatten ++ t →
    readClauses (Strict.readFatClause base cfg m) cs.length r w = (.ok xs, w)
  | [], _, _, .nil, _, _, _, _, _ => rfl
  | c :: cs, _, hf, .cons (b := x) (bs := xs) hx hxs, r, t, hr, ha, h => by
    simp only [List.map_cons, List.flatten_cons, List.append_assoc] at h
    have hs := rest_at h
    have ho := ok_at hr h
    rw [length_encFat] at hs ho
    simp only [List.length_cons, readClauses]
    rw [M.bind_ok (sreadFatClause_at (hf c (by simp)) hx hr h ha)]
    dsimp only
    rw [M.bind_ok (sreadFatClauses_at (fun c' hc' => hf c' (by simp [hc'])) hxs ho (by simp [Reader.skip]; omega) hs)]
    rfl

theorem sreadClauseSection_at {s : Sections} (hs : s.Fits) (hp : s.present = true) {xs : List ExceptionClause}
    (hx : Each (ClauseMeans m w) s.clauses xs) {pad t : Bytes} (hr : r.Ok) (hpad : pad.length = (4 - r.pos % 4) % 4)
    (h : r.rest = pad ++ (s.enc ++ t)) (hb : base % 4 = 0) :
    (s.Unpacked → Strict.readClauseSection base cfg m r w = (.ok xs, w)) ∧
      (¬ s.Unpacked → (Strict.readClauseSection base cfg m r w).1 = .ub) := by
  have hgoto : (r.goto ((r.pos + 3) / 4 * 4)).2 = r.skip pad.length := by
    simp only [Reader.goto, Reader.skip]
    congr 1
    omega
  have ho := ok_at hr h
  have h' := rest_at h
  have hpos : (r.skip pad.length).pos % 4 = 0 := by simp [Reader.skip]; omega
  unfold Strict.readClauseSection
  rw [hgoto]
  dsimp only
  generalize r.skip pad.length = r' at ho h' hpos
  cases s with
  | absent => cases hp
  | small cs =>
    obtain ⟨hl, hf⟩ := hs
    simp only [Sections.enc, List.cons_append, List.append_assoc] at h'
    rw [M.liftM_bind_ok (sbodyU_byte ho h')]
    dsimp only
    have ho1 := ok_cons ho h'; have g1 := skip_cons h'
    rw [if_neg (by decide), M.liftM_bind_ok (sbodyU_yes ho1 (by decide) hl g1 (by omega))]
    dsimp only
    rw [if_neg (by decide)]
    have ho2 := ok_le ho1 g1; have g2 := rest_le g1
    generalize (r'.skip 1).skip 1 = r2 at ho2 g2 ⊢
    have hb : r2.pos + 2 < 2 ^ 64 := by have := ho2.1; have := ho2.2; omega
    rw [M.liftM_bind_ok (advance_eq cfg r2 2 hb)]
    dsimp only
    have e : (12 * cs.length + 4) / 12 = cs.length := by omega
    rw [e]
    have g3 := rest_at (r := r2) (bs := [0, 0]) g2
    have ho3 := ok_at (r := r2) (bs := [0, 0]) ho2 g2
    cases hx with
    | nil => exact ⟨fun _ => rfl, fun hn => absurd rfl hn⟩
    | cons h1 h2 =>
      refine ⟨(fun hn => by cases hn), fun _ => ?_⟩
      simp only [List.map_cons, List.flatten_cons, List.append_assoc] at g3
      simp only [List.length_cons, readClauses]
      rw [M.bind_run]
      have := sreadSmallClause_ub (base := base) (cfg := cfg) (m := m) (w := w) (hf _ (by simp)) ho3 g3
      generalize Strict.readSmallClause base cfg m _ w = p at this ⊢
      obtain ⟨a, b⟩ := p
      cases this
      rfl
  | fat cs =>
    refine ⟨fun _ => ?_, fun hn => absurd trivial hn⟩
    obtain ⟨hl, hf⟩ := hs
    have e3 : leBytes 3 (24 * cs.length + 4) =
        leBytes 1 ((24 * cs.length + 4) % 256) ++ leBytes 2 ((24 * cs.length + 4) / 256) := by
      simp [leBytes]
    simp only [Sections.enc, List.cons_append, List.append_assoc, e3] at h'
    rw [M.liftM_bind_ok (sbodyU_byte ho h')]
    dsimp only
    have ho1 := ok_cons ho h'; have g1 := skip_cons h'
    rw [if_neg (by decide), M.liftM_bind_ok (sbodyU_yes ho1 (by decide) (by omega) g1 (by omega))]
    dsimp only
    rw [if_pos (by decide)]
    have ho2 := ok_le ho1 g1; have g2 := rest_le g1
    have p2 : ((r'.skip 1).skip 1).pos = r'.pos + 2 := by simp [Reader.skip]
    generalize (r'.skip 1).skip 1 = r2 at ho2 g2 p2 ⊢
    rw [M.liftM_bind_ok (sbodyU_yes ho2 (by decide) (by omega) g2 (by omega))]
    dsimp only
    have e : ((24 * cs.length + 4) % 256 + ((24 * cs.length + 4) / 256) <<< 8) / 24 = cs.length := by
      rw [Nat.shiftLeft_eq]; omega
    rw [e]
    have ho3 := ok_le ho2 g2; have g3 := rest_le g2
    exact sreadFatClauses_at hf hx ho3 (by simp [Reader.skip]; omega) g3

theorem sloadBody_start {rva off : Nat} {b : UInt8} {bytes : Bytes} (h : RegionAt m rva (b :: bytes))
    (hoff : resolveRva cfg rva m.peInfo.sections = .ok off) : ∃ (r : Reader) (tail : Bytes), r.Ok ∧ r.pos = 1 ∧
      r.rest = bytes ++ tail ∧ Strict.loadBody base cfg m rva w = (do
        if b.toNat &&& 0x3 = 0x2 then do
          let (code, _) ← bodyBytes cfg r ((b.toNat &&& 0xfc) >>> 2)
          pure { code, maxStack := 8, locals := [], initLocals := decide (b.toNat &&& 0x10 = 0x10), clauses := [] }
        else if b.toNat &&& 0x3 = 0x3 then do
          let (_, r) ← r.advance cfg 1
          let (maxStack, r) ← Strict.bodyU (base + off) cfg r 2
          let (codeSize, r) ← Strict.bodyU (base + off) cfg r 4
          let (token, r) ← Strict.bodyU (base + off) cfg r 4
          let locals ← readLocals cfg m ⟨token⟩
          let (code, r) ← bodyBytes cfg r codeSize
          let clauses ← Strict.readMoreSections (base + off) cfg m b.toNat r
          pure { code, maxStack, locals, initLocals := decide (b.toNat &&& 0x10 = 0x10), clauses }
        else M.lift (.err "Invalid method body") : M MethodBody) w := by
  obtain ⟨off', d, tail, h1, h2, h3, h4⟩ := h.start cfg
  obtain rfl : off = off' := Res.ok.inj (hoff.symm.trans h1)
  refine ⟨(Reader.new d).skip 1, tail, ok_cons h3 h4, rfl, skip_cons h4, ?_⟩
  unfold Strict.loadBody
  rw [M.liftM_bind_ok (by rw [h1]; rfl), M.liftM_bind_ok h2, M.liftM_bind_ok (sbodyU_byte h3 h4)]

theorem M.bind_ub_run {α β : Type} {x : M α} {f : α → M β} (h : (x w).1 = .ub) : ((x >>= f) w).1 = .ub := by
  rw [M.bind_run]
  generalize x w = p at h ⊢
  obtain ⟨a, b⟩ := p
  cases h
  rfl

theorem sloadBody_fat {rva off : Nat} {b : Fat} {pad : Bytes} (hb : b.Fits)
    (hpad : pad.length = b.padLength) (hat : RegionAt m rva (b.enc pad))
    (hoff : resolveRva cfg rva m.peInfo.sections = .ok off) {es : List ElementType}
    (hl : LocalsOf m b.localToken es) {w' : World} {ts : List Nat} (hts : ResolveAll cfg m w es ts w')
    {xs : List ExceptionClause} (hxs : Each (ClauseMeans m w') b.sections.clauses xs) :
    (b.FitsAt (base + off) →
      Strict.loadBody base cfg m rva w = (.ok ⟨b.code, b.maxStack, ts, b.initLocals, xs⟩, w')) ∧
    (¬ b.FitsAt (base + off) → (Strict.loadBody base cfg m rva w).1 = .ub) := by
  obtain ⟨h1, h2, h3, h4⟩ := hb
  obtain ⟨f3, f8, f10⟩ := flags_and b
  obtain ⟨r, tail, hr, hpos, hrest, hload⟩ := sloadBody_start (base := base) (w := w) hat hoff
  rw [hload, if_neg (by rw [f3]; decide), if_pos f3, f10]
  clear hload
  obtain ⟨a, ha⟩ : ∃ a, a = base + off := ⟨_, rfl⟩
  rw [← ha]
  have hb1 : r.pos + 1 < 2 ^ 64 := by omega
  rw [M.liftM_bind_ok (advance_eq cfg r 1 hb1)]
  dsimp only
  simp only [List.cons_append, List.append_assoc] at hrest
  have g1 := skip_cons hrest
  have o1 := ok_cons hr hrest
  have p1 : (r.skip 1).pos = 2 := by simp [Reader.skip, hpos]
  generalize r.skip 1 = r1 at g1 o1 p1 ⊢
  by_cases c2 : (a + r1.pos) % 2 = 0
  case neg => exact ⟨fun h => absurd h.1 (by omega), fun _ => M.liftM_bind_ub (sbodyU_no o1 (by decide) h1 g1 c2) w⟩
  rw [M.liftM_bind_ok (sbodyU_yes o1 (by decide) h1 g1 c2)]
  have g2 := rest_le g1
  have o2 := ok_le o1 g1
  have p2 : (r1.skip 2).pos = 4 := by simp [Reader.skip, p1]
  dsimp only
  generalize r1.skip 2 = r2 at g2 o2 p2 ⊢
  by_cases c4 : (a + r2.pos) % 4 = 0
  case neg => exact ⟨fun h => absurd h.1 (by omega), fun _ => M.liftM_bind_ub (sbodyU_no o2 (by decide) h2 g2 c4) w⟩
  rw [M.liftM_bind_ok (sbodyU_yes o2 (by decide) h2 g2 c4)]
  have g3 := rest_le g2
  have o3 := ok_le o2 g2
  have p3 : (r2.skip 4).pos = 8 := by simp [Reader.skip, p2]
  dsimp only
  generalize r2.skip 4 = r3 at g3 o3 p3 ⊢
  rw [M.liftM_bind_ok (sbodyU_yes o3 (by decide) h3 g3 (by omega))]
  have g4 := rest_le g3
  have o4 := ok_le o3 g3
  have p4 : (r3.skip 4).pos = 12 := by simp [Reader.skip, p3]
  dsimp only
  generalize r3.skip 4 = r4 at g4 o4 p4 ⊢
  rw [M.bind_ok (readLocals_at cfg hl hts), M.liftM_bind_ok (bodyBytes_at cfg o4 g4)]
  have g5 := rest_at g4
  have o5 := ok_at o4 g4
  have p5 : (r4.skip b.code.length).pos = 12 + b.code.length := by simp [Reader.skip, p4]
  dsimp only
  generalize r4.skip b.code.length = r5 at g5 o5 p5 ⊢
  have hsec : (b.sections.Unpacked → Strict.readMoreSections a cfg m b.flags.toNat r5 w' = (.ok xs, w')) ∧
      (¬ b.sections.Unpacked → (Strict.readMoreSections a cfg m b.flags.toNat r5 w').1 = .ub) := by
    unfold Strict.readMoreSections
    cases hs : b.sections.present with
    | true =>
      rw [if_pos (f8.mpr hs)]
      refine sreadClauseSection_at h4 hs hxs o5 ?_ g5 (by omega)
      rw [hpad, p5, Fat.padLength, hs]
      simp only [if_true]
      omega
    | false =>
      rw [if_neg (by rw [f8, hs]; decide)]
      cases hsx : b.sections with
      | absent => rw [hsx] at hxs; cases hxs; exact ⟨fun _ => rfl, fun h => absurd trivial h⟩
      | small cs => rw [hsx] at hs; cases hs
      | fat cs => rw [hsx] at hs; cases hs
  refine ⟨fun h => ?_, fun h => ?_⟩
  · rw [M.bind_ok (hsec.1 h.2)]
    rfl
  · exact M.bind_ub_run (hsec.2 fun hu => h ⟨by omega, hu⟩)

theorem sloadBody_tiny {rva : Nat} {code : Bytes} (hc : code.length < 64) (hat : RegionAt m rva (tinyBody code)) :
    Strict.loadBody base cfg m rva w = loadBody cfg m rva w := by
  obtain ⟨off, d, tail, h1, h2, h3, h4⟩ := hat.start cfg
  obtain ⟨f1, -⟩ := tiny_byte code.length hc
  simp only [tinyBody, List.cons_append] at h4
  unfold Strict.loadBody loadBody
  rw [M.liftM_bind_ok (by rw [h1]; rfl), M.liftM_bind_ok h2, M.liftM_bind_ok (sbodyU_byte h3 h4), M.liftM_bind_ok (by rw [h1]; rfl),
    M.liftM_bind_ok h2, M.liftM_bind_ok (bodyU_byte cfg h3 h4)]
  dsimp only
  rw [if_pos f1, if_pos f1]

/-! ### User strings -/

theorem units_length (units : List Nat) : (units.map (leBytes 2)).flatten.length = 2 * units.length := by
  induction units with
  | nil => rfl
  | cons u us ih => simp only [List.map_cons, List.flatten_cons, List.length_append, ih, length_leBytes, List.length_cons]; omega

theorem sblobRead_exact {k : Nat} {b : Bytes} {r' : Reader} (hr : r.Ok) (hk : k < 2 ^ 32) (h : blobRead cfg r k = .ok (b, r')) :
    r' = r.skip k ∧ Strict.blobRead base cfg r k = if (base + r.pos) % k = 0 then .ok (b, r') else .ub := by
  unfold blobRead at h
  obtain ⟨⟨o, r1⟩, h1, h⟩ := Res.bind_eq_ok.1 h
  cases o with
  | none => cases h
  | some b1 =>
    cases h
    obtain ⟨e, -, h2⟩ := readAt_exact (base := base) (n := k) hr hk h1
    refine ⟨e, ?_⟩
    unfold Strict.blobRead
    rw [h2, ite_bind_ub]
    rfl

theorem sreadCompressed_exact {v : Nat} {r' : Reader} (hr : r.Ok) (h : readCompressed cfg r = .ok (v, r')) :
    ∃ k, 0 < k ∧ r' = r.skip k ∧ Strict.readCompressed base cfg r = if (base + r.pos) % k = 0 then .ok (v, r') else .ub := by
  unfold readCompressed at h
  obtain ⟨x, h1, h⟩ := Res.bind_eq_ok.1 h
  unfold Strict.readCompressed
  rw [h1]
  simp only [Res.ok_bind]
  split at h
  · rename_i c
    obtain ⟨⟨b, r1⟩, h2, h⟩ := Res.bind_eq_ok.1 h
    obtain ⟨u, h3, h⟩ := Res.bind_eq_ok.1 h
    cases h
    obtain ⟨e, h4⟩ := sblobRead_exact (base := base) hr (by decide) h2
    refine ⟨4, by decide, e, ?_⟩
    rw [if_pos c, h4, ite_bind_ub]
    dsimp only at h3 ⊢
    rw [h3]
    rfl
  · rename_i c
    rw [if_neg c]
    split at h
    · rename_i c
      obtain ⟨⟨b, r1⟩, h2, h⟩ := Res.bind_eq_ok.1 h
      obtain ⟨u, h3, h⟩ := Res.bind_eq_ok.1 h
      cases h
      obtain ⟨e, h4⟩ := sblobRead_exact (base := base) hr (by decide) h2
      refine ⟨2, by decide, e, ?_⟩
      rw [if_pos c, h4, ite_bind_ub]
      dsimp only at h3 ⊢
      rw [h3]
      rfl
    · rename_i c
      rw [if_neg c]
      obtain ⟨⟨b, r1⟩, h2, h⟩ := Res.bind_eq_ok.1 h
      cases h
      have h2' := h2
      unfold readByte at h2'
      obtain ⟨⟨b1, r2⟩, h3, h5⟩ := Res.bind_eq_ok.1 h2'
      cases h5
      obtain ⟨e, -⟩ := sblobRead_exact (base := base) hr (by decide) h3
      refine ⟨1, by decide, e, ?_⟩
      rw [h2, if_pos (by omega)]
      rfl

theorem encUnsigned_length (n : Nat) : (encUnsigned n).length = if n < 0x80 then 1 else if n < 0x4000 then 2 else 4 := by
  unfold encUnsigned; split <;> (try split) <;> rfl

theorem snewBlobReader_enc {content t : Bytes} (hl : content.length < 2 ^ 29) (ht : t.length < 2 ^ 62) :
    Strict.newBlobReader base cfg (encBlob content ++ t) =
      if base % (encUnsigned content.length).length = 0 then
        .ok (Reader.new content, base + (encUnsigned content.length).length) else .ub := by
  have h4 : (encUnsigned content.length).length ≤ 4 := by rw [encUnsigned_length]; split <;> (try split) <;> simp
  have hok : (Reader.new (encBlob content ++ t)).Ok := Ok.new (by simp [encBlob]; omega)
  have hc := readCompressed_at cfg (t := content ++ t) hok hl (by simp [encBlob])
  obtain ⟨k, hk, e, hs⟩ := sreadCompressed_exact (base := base) hok hc
  have hk : (encUnsigned content.length).length = k := by
    have := congrArg Reader.pos e
    simpa [Reader.skip, Reader.new] using this
  unfold Strict.newBlobReader
  rw [hs, hk]
  have hp : (((Reader.new (encBlob content ++ t)).skip k).pos) = k := by simp [Reader.new]
  have hz : base + (Reader.new (encBlob content ++ t)).pos = base := rfl
  rw [hz]
  split
  · simp only [Res.mapErr_ok, Res.ok_bind]
    simp only [hp]
    rw [uadd_ok (by omega)]
    simp only [Res.ok_bind]
    rw [slice_ok (by simp [encBlob]; omega)]
    simp [encBlob, ← hk]
  · rfl

theorem sreadUtf16Str_enc (units : List Nat) (last : UInt8) (hu : ∀ u ∈ units, u < 2 ^ 16)
    (hl : 2 * units.length < 2 ^ 29) :
    ∃ r', Strict.readUtf16Str base cfg (Reader.new ((units.map (leBytes 2)).flatten ++ [last])) =
      if base % 2 = 0 then .ok (units, r') else .ub := by
  have h := readUtf16Str_enc cfg units last hu hl
  refine ⟨(Reader.new ((units.map (leBytes 2)).flatten ++ [last])).skip (units.length * 2), ?_⟩
  · unfold readUtf16Str at h
    obtain ⟨⟨o, r1⟩, h1, h⟩ := Res.bind_eq_ok.1 h
    cases o with
    | none => cases h
    | some xs =>
      have h := Res.ok.inj h
      have hlen := units_length units
      obtain ⟨-, -, h2⟩ := readArrayAt_exact (base := base) (n := 2)
        (Ok.new (by simp only [List.length_append, hlen, List.length_singleton]; omega)) (by decide)
        (by simp only [Reader.new, List.length_append, hlen, List.length_singleton]; omega) h1
      unfold Strict.readUtf16Str
      rw [h2, ite_bind_ub]
      have hz : base + (Reader.new ((units.map (leBytes 2)).flatten ++ [last])).pos = base := rfl
      rw [hz]
      split
      · exact congrArg Res.ok h
      · rfl

end Clr
