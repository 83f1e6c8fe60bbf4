import Verif.Model.AlignFiles
import Verif.Lemmas.Pe
import Verif.Lemmas.Run
import Verif.Lemmas.Tables
/-! # Lemmas about checked reads of headers -/

namespace Clr
open Reader

variable {cfg : Cfg} {base : Nat} {r r' : Reader} {w n : Nat}

theorem peekAt_exact {b : Bytes} (hr : r.Ok) (hw : w < 2 ^ 32) (h : r.peek cfg w = .ok (some b)) :
    Strict.peekAt base cfg r w n = if (base + r.pos) % n = 0 then .ok (some b) else .ub := by
  have h1 := hr.1
  have h2 := hr.2
  have h3 := h
  rw [peek_eq cfg r w (by omega)] at h3
  split at h3
  · rename_i hle
    unfold Strict.peekAt Strict.alignedAt
    rw [uadd_ok (by omega)]
    simp only [Res.ok_bind]
    rw [if_neg (by omega), sliceFrom_ok h1]
    simp only [Res.ok_bind]
    split
    · simp only [Res.ok_bind, h]
    · rfl
  · cases h3

theorem readAt_exact {b : Bytes} (hr : r.Ok) (hw : w < 2 ^ 32) (h : r.read cfg w = .ok (some b, r')) :
    r' = r.skip w ∧ r'.Ok ∧ Strict.readAt base cfg r w n = if (base + r.pos) % n = 0 then .ok (some b, r') else .ub := by
  have h1 := hr.1
  have h2 := hr.2
  have h3 := h
  rw [read_eq cfg r w (by omega)] at h3
  split at h3
  · rename_i hle
    cases h3
    refine ⟨rfl, hr.skip (by rw [length_rest]; omega), ?_⟩
    have hp : r.peek cfg w = .ok (some (r.rest.take w)) := by rw [peek_eq cfg r w (by omega), if_pos hle]
    unfold Strict.readAt
    rw [peekAt_exact hr hw hp]
    split
    · unfold Reader.advance
      simp only [Res.ok_bind, uadd_ok (show r.pos + w < 2 ^ 64 by omega)]
      rfl
    · rfl
  · cases h3

theorem readArrayAt_exact {count : Nat} {xs : List Bytes} (hr : r.Ok) (hw : w ≤ 40) (hc : count < 2 ^ 32)
    (h : r.readArray cfg w count = .ok (some xs, r')) :
    r' = r.skip (count * w) ∧ r'.Ok ∧
      Strict.readArrayAt base cfg r w n count = if (base + r.pos) % n = 0 then .ok (some xs, r') else .ub := by
  have h1 := hr.1
  have h2 := hr.2
  have h3 := h
  have h4 : count * w ≤ 2 ^ 32 * 40 := Nat.mul_le_mul (by omega) hw
  rw [readArray_eq cfg r w count (by omega)] at h3
  split at h3
  · rename_i hle
    cases h3
    refine ⟨rfl, hr.skip (by rw [length_rest]; omega), ?_⟩
    unfold Strict.readArrayAt Strict.alignedAt
    rw [umul_ok (by omega)]
    simp only [Res.ok_bind]
    rw [uadd_ok (by omega)]
    simp only [Res.ok_bind]
    rw [if_neg (by omega), sliceFrom_ok h1]
    simp only [Res.ok_bind]
    split
    · simp only [Res.ok_bind, h]
    · rfl
  · cases h3

theorem ofOption_map_ok {α β : Type} {o : Option α} {f : α → β} {m : String} {b : β}
    (h : Res.ofOption m (o.map f) = .ok b) : ∃ a, o = some a ∧ f a = b := by
  cases o with
  | none => cases h
  | some a => exact ⟨a, rfl, Res.ok.inj h⟩

/-- The image has a header of the wide format, PE32+. -/
def PeOptionalHeader.isWide : PeOptionalHeader → Bool
  | .pe32 _ _ => false
  | .pe64 _ _ => true

/-- The addresses of the headers of an image with the PE header at `off`. -/
def HeadersAligned (base off : Nat) (info : PeInfo) : Prop :=
  base % 4 = 0 ∧ off % 4 = 0 ∧ (info.optionalHeader.isWide = true → (base + off) % 8 = 0)

instance {off : Nat} {info : PeInfo} : Decidable (HeadersAligned base off info) := by unfold HeadersAligned; infer_instance

theorem ite_then {α : Type} {c e : Prop} [Decidable c] [Decidable e] {x : Res α} {y : α} (hx : c → x = if e then .ok y else .ub) (he : e → c) :
    (if c then x else .ub) = if e then .ok y else .ub := by
  by_cases hc : c
  · rw [if_pos hc]; exact hx hc
  · rw [if_neg hc, if_neg (fun h => hc (he h))]

theorem ite_bind_ub {α β : Type} {c : Prop} [Decidable c] {a : α} {f : α → Res β} :
    ((if c then .ok a else .ub : Res α) >>= f) = if c then f a else .ub := by split <;> rfl

theorem peekU_some {k : Nat} (h : r.peekU cfg w = .ok (some k)) : ∃ b, r.peek cfg w = .ok (some b) ∧ leNat b = k := by
  unfold Reader.peekU at h
  obtain ⟨o, h1, h⟩ := Res.bind_eq_ok.1 h
  cases o with
  | none => cases h
  | some b => cases h; exact ⟨b, h1, rfl⟩

theorem parsePe_exact {data : Bytes} {info : PeInfo} (hl : data.length < 2 ^ 63) (h : parsePe cfg data = .ok info) :
    ∃ off, (data.drop 0x3c).take 4 = leBytes 4 off ∧ off < 2 ^ 32 ∧
      Strict.parsePe base cfg data = if HeadersAligned base off info then .ok info else .ub := by
  unfold parsePe at h
  obtain ⟨mz, h1, h⟩ := Res.bind_eq_ok.1 h
  split at h
  · cases h
  rename_i hmz
  obtain ⟨o, h2, h⟩ := Res.bind_eq_ok.1 h
  cases o with
  | none => cases h
  | some off =>
  obtain ⟨ob, h3, rfl⟩ := peekU_some h2
  dsimp only at h
  have hle : 0x3c + 4 ≤ data.length ∧ ob = (data.drop 0x3c).take 4 := by
    rw [peek_eq cfg _ 4 (by show 0x3c + 4 < 2 ^ 64; decide)] at h3
    split at h3
    · rename_i hle
      exact ⟨hle, by cases h3; rfl⟩
    · cases h3
  obtain ⟨hle, hob⟩ := hle
  have hr0 : ((Reader.new data).goto 0x3c).2.Ok := ⟨by show 0x3c ≤ data.length; omega, hl⟩
  have hobl : ob.length = 4 := by rw [hob, List.length_take, List.length_drop]; omega
  have hlt := leNat_lt ob
  have hbb := leBytes_leNat ob
  rw [hobl] at hlt hbb
  refine ⟨leNat ob, by rw [hbb, hob], by omega, ?_⟩
  obtain ⟨⟨sig, r1⟩, h4, h⟩ := Res.bind_eq_ok.1 h
  dsimp only at h
  split at h
  · cases h
  rename_i hsig
  have hsg : sig = some [[0x50], [0x45], [0], [0]] := Classical.not_not.1 hsig
  subst hsg
  obtain ⟨off, hoff⟩ : ∃ off, leNat ob = off := ⟨_, rfl⟩
  rw [hoff] at h4 hlt
  rw [hoff]
  have hr1 : r1.Ok ∧ r1.pos = off + 4 := by
    rw [readArray_eq cfg _ 1 4 (by show off + 4 * 1 < 2 ^ 64; omega)] at h4
    split at h4
    · rename_i hq
      have hq' : off + 4 * 1 ≤ data.length := hq
      have hq2 := (Prod.mk.inj (Res.ok.inj h4)).2
      rw [← hq2]
      exact ⟨⟨hq', hl⟩, rfl⟩
    · cases h4
  obtain ⟨hr1, hp1⟩ := hr1
  obtain ⟨⟨hb, r2⟩, h5, h⟩ := Res.bind_eq_ok.1 h
  dsimp only at h
  obtain ⟨header, h6, h⟩ := Res.bind_eq_ok.1 h
  obtain ⟨hb', hbe, hhd⟩ := ofOption_map_ok h6
  rw [hbe] at h5
  obtain ⟨e2, hr2, s2⟩ := readAt_exact (base := base) (n := 4) hr1 (by decide) h5
  have hp2 : r2.pos = off + 24 := by rw [e2, skip_pos, hp1]
  obtain ⟨mo, h7, h⟩ := Res.bind_eq_ok.1 h
  obtain ⟨magic, h8, h⟩ := Res.bind_eq_ok.1 h
  rw [ofOption_eq_ok] at h8
  rw [h8] at h7
  obtain ⟨mb, h9, hmb⟩ := peekU_some h7
  have s3 := peekAt_exact (base := base) (n := 2) hr2 (by decide) h9
  obtain ⟨⟨opt, r3⟩, h10, h⟩ := Res.bind_eq_ok.1 h
  dsimp only at h
  -- the optional header
  have hopt : r3.Ok ∧ r3.pos % 4 = off % 4 ∧ opt.numberOfDataDirectories < 2 ^ 32 ∧
      (if leNat mb = 0x10b then do
            let (ob, r) ← Strict.readAt base cfg r2 96 4
            let ob ← Res.ofOption "Invalid PE file" ob
            pure (PeOptionalHeader.ofBytes32 ob, r)
          else if leNat mb = 0x20b then do
            let (ob, r) ← Strict.readAt base cfg r2 112 8
            let ob ← Res.ofOption "Invalid PE file" ob
            pure (PeOptionalHeader.ofBytes64 ob, r)
          else .err "Invalid PE file") =
        (if (base + r2.pos) % (if opt.isWide then 8 else 4) = 0 then Res.ok (opt, r3) else .ub : Res (PeOptionalHeader × Reader)) := by
    rw [hmb]
    split at h10
    · rename_i hm
      rw [if_pos hm]
      obtain ⟨⟨b, r4⟩, h11, h10⟩ := Res.bind_eq_ok.1 h10
      dsimp only at h10
      obtain ⟨b', h12, h10⟩ := Res.bind_eq_ok.1 h10
      cases b with
      | none => cases h12
      | some b'' =>
      obtain rfl : b'' = b' := Res.ok.inj h12
      cases h10
      obtain ⟨e3, hr3, s4⟩ := readAt_exact (base := base) (n := 4) hr2 (by decide) h11
      refine ⟨hr3, by rw [e3, skip_pos, hp2]; omega, numDirs32_lt _, ?_⟩
      rw [s4, ite_bind_ub]
      rfl
    · split at h10
      · rename_i hm hm'
        rw [if_neg hm, if_pos hm']
        obtain ⟨⟨b, r4⟩, h11, h10⟩ := Res.bind_eq_ok.1 h10
        dsimp only at h10
        obtain ⟨b', h12, h10⟩ := Res.bind_eq_ok.1 h10
        cases b with
        | none => cases h12
        | some b'' =>
        obtain rfl : b'' = b' := Res.ok.inj h12
        cases h10
        obtain ⟨e3, hr3, s4⟩ := readAt_exact (base := base) (n := 8) hr2 (by decide) h11
        refine ⟨hr3, by rw [e3, skip_pos, hp2]; omega, numDirs64_lt _, ?_⟩
        rw [s4, ite_bind_ub]
        rfl
      · cases h10
  obtain ⟨hr3, hp3, hnd, s4⟩ := hopt
  obtain ⟨⟨dirs, r4⟩, h11, h⟩ := Res.bind_eq_ok.1 h
  dsimp only at h
  obtain ⟨dirs', h12, h⟩ := Res.bind_eq_ok.1 h
  rw [ofOption_eq_ok] at h12
  rw [h12] at h11
  obtain ⟨e4, hr4, s5⟩ := readArrayAt_exact (base := base) (n := 4) hr3 (by decide) hnd h11
  obtain ⟨⟨secs, r5⟩, h13, h⟩ := Res.bind_eq_ok.1 h
  dsimp only at h
  obtain ⟨secs', h14, h⟩ := Res.bind_eq_ok.1 h
  rw [ofOption_eq_ok] at h14
  rw [h14] at h13
  have hns : header.numberOfSections < 2 ^ 32 := by
    have := numberOfSections_lt hb'
    rw [hhd] at this
    omega
  obtain ⟨e5, hr5, s6⟩ := readArrayAt_exact (base := base) (n := 4) hr4 (by decide) hns h13
  cases h
  have hp4 : r4.pos % 4 = off % 4 := by rw [e4, skip_pos]; omega
  clear e2 e4 e5 hr2 hr3 hr4 hr5
  -- the checked reads, one after the other
  unfold Strict.parsePe
  dsimp only
  rw [h1]
  simp only [Res.ok_bind]
  rw [if_neg hmz, peekAt_exact hr0 (by decide) h3, ite_bind_ub]
  have hal : HeadersAligned base off ⟨header, opt, dirs'.map RvaAndSize.ofBytes, secs'.map PeSection.ofBytes⟩ ↔
      base % 4 = 0 ∧ off % 4 = 0 ∧ (opt.isWide = true → (base + off) % 8 = 0) := Iff.rfl
  have g0 : ((Reader.new data).goto 0x3c).2.pos = 0x3c := rfl
  refine ite_then (fun c1 => ?_) (fun e => by rw [g0]; have := e.1; omega)
  rw [g0] at c1
  dsimp only
  rw [hoff, h4]
  simp only [Res.ok_bind]
  rw [if_neg hsig, s2, ite_bind_ub]
  refine ite_then (fun c2 => ?_) (fun e => by rw [hp1]; have := e.1; have := e.2.1; omega)
  rw [hp1] at c2
  dsimp only
  simp only [Option.map_some, Res.ofOption_some, Res.ok_bind]
  rw [hhd, s3, ite_bind_ub]
  refine ite_then (fun c3 => ?_) (fun e => by rw [hp2]; have := e.1; have := e.2.1; omega)
  simp only [Res.ofOption_some, Res.ok_bind]
  rw [s4, ite_bind_ub]
  refine ite_then (fun c4 => ?_) (fun e => ?_)
  · dsimp only
    rw [s5, ite_bind_ub]
    refine ite_then (fun c5 => ?_) (fun e => by have := e.1; have := e.2.1; omega)
    dsimp only
    simp only [Res.ofOption_some, Res.ok_bind]
    rw [s6, ite_bind_ub]
    refine ite_then (fun c6 => ?_) (fun e => by have := e.1; have := e.2.1; omega)
    dsimp only
    simp only [Res.ofOption_some, Res.ok_bind]
    rw [if_pos]
    · rfl
    · refine ⟨by omega, by omega, fun hw => ?_⟩
      rw [if_pos hw, hp2] at c4
      omega
  · rw [hp2]
    have := e.1
    have := e.2.1
    split
    · rename_i hw
      have := e.2.2 hw
      omega
    · omega

theorem alignedAt_ok {a : Nat} (h : a % n = 0) : Strict.alignedAt a n = .ok () := if_pos h

theorem peekAt_aligned (h : (base + r.pos) % n = 0) : Strict.peekAt base cfg r w n = r.peek cfg w := by
  unfold Strict.peekAt
  rw [alignedAt_ok h]
  unfold Reader.peek Reader.rawBytes
  cases h1 : uadd cfg 64 r.pos w with
  | ok e =>
    simp only [Res.ok_bind]
    split
    · rfl
    · cases h2 : sliceFrom r.data r.pos with
      | ok d => simp only [Res.ok_bind]
      | _ => rfl
  | _ => rfl

theorem readNum_aligned (h : (base + r.pos) % w = 0) : Strict.readNum base cfg r w = r.readU cfg w := by
  unfold Strict.readNum Strict.readAt Reader.readU Reader.read
  rw [peekAt_aligned h]
  rfl

theorem readNum_exact {k : Nat} (hr : r.Ok) (hw : w < 2 ^ 32) (h : r.readU cfg w = .ok (some k, r')) :
    r' = r.skip w ∧ r'.Ok ∧ Strict.readNum base cfg r w = if (base + r.pos) % w = 0 then .ok (some k, r') else .ub := by
  unfold Reader.readU at h
  obtain ⟨⟨o, r1⟩, h1, h2⟩ := Res.bind_eq_ok.1 h
  cases o with
  | none => cases h2
  | some b =>
    cases h2
    obtain ⟨e, hok, s⟩ := readAt_exact (base := base) (n := w) hr hw h1
    refine ⟨e, hok, ?_⟩
    unfold Strict.readNum
    rw [s, ite_bind_ub]
    rfl

theorem ok_of_readU {k : Nat} (hd : r.data.length < 2 ^ 63) (hp : r.pos + w < 2 ^ 64) (h : r.readU cfg w = .ok (some k, r')) :
    r.Ok := by
  rcases Reader.readU_cases cfg r w hp with h3 | ⟨n, h3, -, h4⟩
  · rw [h3] at h; cases h
  · exact ⟨by omega, hd⟩

theorem advance_skip {x : Nat} {b : Bool} (hp : r.pos + x < 2 ^ 64) (h : r.advance cfg x = .ok (b, r')) : r' = r.skip x := by
  unfold Reader.advance at h
  rw [uadd_ok hp] at h
  cases h
  rfl

theorem readCliHeader_exact {data : Bytes} {info : PeInfo} {cli : CliHeader} (hl : data.length < 2 ^ 63)
    (h : readCliHeader cfg data info = .ok cli) :
    ∃ dir off, info.dataDirectories[14]? = some dir ∧ resolveRva cfg dir.rva info.sections = .ok off ∧
      Strict.readCliHeader base cfg data info = if (base + off) % 4 = 0 then .ok cli else .ub := by
  unfold readCliHeader at h
  obtain ⟨dir, h1, h⟩ := Res.bind_eq_ok.1 h
  obtain ⟨off, h2, h⟩ := Res.bind_eq_ok.1 h
  obtain ⟨d, h3, h⟩ := Res.bind_eq_ok.1 h
  obtain ⟨⟨b, r1⟩, h4, h⟩ := Res.bind_eq_ok.1 h
  obtain ⟨b', hb, hcli⟩ := ofOption_map_ok h
  rw [hb] at h4
  have hd : d.length < 2 ^ 63 := by
    unfold sliceFrom at h3
    split at h3
    · cases h3; rw [List.length_drop]; omega
    · cases h3
  obtain ⟨-, -, s⟩ := readAt_exact (base := base + off) (n := 4) (Ok.new hd) (by decide) h4
  refine ⟨dir, off, ofOption_eq_ok.1 h1, ?_, ?_⟩
  · cases h5 : resolveRva cfg dir.rva info.sections with
    | ok x => rw [h5] at h2; cases h2; rfl
    | _ => rw [h5] at h2; cases h2
  · unfold Strict.readCliHeader
    rw [h1]
    simp only [Res.ok_bind]
    rw [h2]
    simp only [Res.ok_bind]
    rw [h3]
    simp only [Res.ok_bind]
    rw [s, ite_bind_ub]
    have hz : base + off + (Reader.new d).pos = base + off := rfl
    rw [hz]
    dsimp only
    rw [Option.map_some, hcli]
    rfl

theorem readTableHeader_exact {data : Bytes} {t : TableCtx} (hl : data.length < 2 ^ 63)
    (h : readTableHeader cfg data = .ok (t, r')) :
    r'.Ok ∧ Strict.readTableHeader base cfg data = if base % 8 = 0 then .ok (t, r') else .ub := by
  have hr0 : (Reader.new data).Ok := Ok.new hl
  unfold readTableHeader at h
  obtain ⟨⟨_, r1⟩, h1, h⟩ := Res.bind_eq_ok.1 h
  dsimp only at h
  obtain ⟨⟨b, r2⟩, h2, h⟩ := Res.bind_eq_ok.1 h
  dsimp only at h
  obtain ⟨hs, h3, h⟩ := Res.bind_eq_ok.1 h
  obtain ⟨⟨_, r3⟩, h4, h⟩ := Res.bind_eq_ok.1 h
  dsimp only at h
  obtain ⟨⟨pr, r4⟩, h5, h⟩ := Res.bind_eq_ok.1 h
  dsimp only at h
  obtain ⟨pr', h6, h⟩ := Res.bind_eq_ok.1 h
  obtain ⟨⟨so, r5⟩, h7, h⟩ := Res.bind_eq_ok.1 h
  dsimp only at h
  obtain ⟨so', h8, h⟩ := Res.bind_eq_ok.1 h
  obtain ⟨⟨raw, r6⟩, h9, h⟩ := Res.bind_eq_ok.1 h
  dsimp only at h
  obtain ⟨raw', h10, h⟩ := Res.bind_eq_ok.1 h
  rw [ofOption_eq_ok] at h6 h8 h10
  rw [h6] at h5
  rw [h8] at h7
  rw [h10] at h9
  have hb : ∃ b', b = some b' := by
    cases b with
    | none => cases h3
    | some b' => exact ⟨b', rfl⟩
  obtain ⟨b', hb⟩ := hb
  rw [hb] at h2
  have e1 := advance_skip (by show 0 + 6 < 2 ^ 64; decide) h1
  have hr1 : r1.Ok := ok_of_readU (by rw [e1]; exact hl) (by rw [e1]; show 0 + 6 + 1 < 2 ^ 64; decide) h2
  have p1 : r1.pos = 6 := by rw [e1]; rfl
  obtain ⟨e2, hr2, s2⟩ := readNum_exact (base := base) hr1 (by decide) h2
  have p2 : r2.pos = 7 := by rw [e2, skip_pos, p1]
  have e3 := advance_skip (by rw [p2]; decide) h4
  have p3 : r3.pos = 8 := by rw [e3, skip_pos, p2]
  have hr3 : r3.Ok := ok_of_readU (by rw [e3]; exact hr2.2) (by rw [p3]; decide) h5
  obtain ⟨e4, hr4, s4⟩ := readNum_exact (base := base) hr3 (by decide) h5
  have p4 : r4.pos = 16 := by rw [e4, skip_pos, p3]
  obtain ⟨e5, hr5, s5⟩ := readNum_exact (base := base) hr4 (by decide) h7
  have p5 : r5.pos = 24 := by rw [e5, skip_pos, p4]
  have hc := countOnes_le pr'
  obtain ⟨-, hr6, s6⟩ := readArrayAt_exact (base := base) (n := 4) hr5 (by decide) (by omega) h9
  have hr' : r'.Ok := by
    obtain ⟨counts, -, h⟩ := Res.bind_eq_ok.1 h
    cases h
    exact hr6
  refine ⟨hr', ?_⟩
  unfold Strict.readTableHeader
  dsimp only
  rw [h1]
  simp only [Res.ok_bind]
  rw [s2, if_pos (Nat.mod_one _)]
  simp only [Res.ok_bind]
  rw [← hb, h3]
  simp only [Res.ok_bind]
  rw [h4]
  simp only [Res.ok_bind]
  rw [s4, ite_bind_ub, p3]
  refine ite_then (fun c1 => ?_) (fun e => by omega)
  simp only [Res.ofOption_some, Res.ok_bind]
  rw [s5, p4, if_pos (by omega)]
  simp only [Res.ofOption_some, Res.ok_bind]
  rw [s6, p5, if_pos (by omega)]
  simp only [Res.ofOption_some, Res.ok_bind]
  rw [if_pos (by omega)]
  exact h

theorem readCStr_bound {o : Option (List Char)} (hr : r.Ok) (h : r.readCStr cfg = .ok (o, r')) :
    r'.data = r.data ∧ r'.pos ≤ r.data.length := by
  have h1 := hr.1
  have h2 := hr.2
  unfold Reader.readCStr at h
  rw [sliceFrom_ok h1] at h
  simp only [Res.ok_bind] at h
  split at h
  · cases h; exact ⟨rfl, h1⟩
  · rename_i k hk
    have hk' := (nulPos_some hk).1
    rw [List.length_drop] at hk'
    rw [readStr_eq cfg r k (by omega), if_pos (by omega)] at h
    cases h
    exact ⟨rfl, by rw [skip_pos]; omega⟩

/-- At addresses that are multiples of four the loop reads what it reads. -/
theorem readStreamHeaders_aligned (hb : base % 4 = 0) (k : Nat) (s : Streams) (hp : r.pos % 4 = 0)
    (hl : r.data.length < 2 ^ 63) (hq : r.pos ≤ r.data.length + 4) :
    Strict.readStreamHeaders base cfg k r s = readStreamHeaders cfg k r s := by
  induction k generalizing r s with
  | zero => rfl
  | succ k ih =>
    unfold Strict.readStreamHeaders readStreamHeaders
    rw [readNum_aligned (by omega)]
    rcases Reader.readU_cases cfg r 4 (by omega) with h1 | ⟨o, h1, -, h2⟩
    · rw [h1]; rfl
    rw [h1]
    simp only [Res.ok_bind, Res.ofOption_some]
    rw [readNum_aligned (by rw [skip_pos]; omega)]
    rcases Reader.readU_cases cfg (r.skip 4) 4 (by rw [skip_pos]; omega) with h3 | ⟨o', h3, -, h4⟩
    · rw [h3]; rfl
    rw [h3]
    simp only [Res.ok_bind, Res.ofOption_some, skip_skip]
    cases h5 : (r.skip (4 + 4)).readCStr cfg with
    | ok x =>
      obtain ⟨nm, r3⟩ := x
      simp only [Res.ok_bind]
      cases nm with
      | none => rfl
      | some nm =>
        simp only [Res.ok_bind, Res.ofOption_some]
        cases h6 : uadd cfg 64 r3.pos 4 with
        | ok p =>
          simp only [Res.ok_bind]
          cases h7 : s.set nm ⟨o, o'⟩ with
          | ok s' =>
            simp only [Res.ok_bind]
            have hd : r3.data = r.data ∧ r3.pos ≤ r.data.length := readCStr_bound (r := r.skip (4 + 4))
              ⟨by show r.pos + (4 + 4) ≤ r.data.length; rw [skip_pos, skip_data] at h4; omega, hl⟩ h5
            rw [uadd_ok (by omega)] at h6
            cases h6
            refine ih s' ?_ ?_ ?_
            · show (r3.pos + 4) / 4 * 4 % 4 = 0
              omega
            · show r3.data.length < _
              rw [hd.1]; exact hl
            · show (r3.pos + 4) / 4 * 4 ≤ r3.data.length + 4
              rw [hd.1]; omega
          | _ => rfl
        | _ => rfl
    | _ => rfl

theorem readMetadataRoot_exact {md : Bytes} {s : Streams} (hl : md.length < 2 ^ 63) (h : readMetadataRoot cfg md = .ok s)
    (hs : s.tables ≠ none) :
    Strict.readMetadataRoot base cfg md =
      if base % 4 = 0 ∧ leNat ((md.drop 12).take 4) % 4 = 0 then .ok s else .ub := by
  have hr0 : (Reader.new md).Ok := Ok.new hl
  unfold readMetadataRoot at h
  obtain ⟨⟨mg, r1⟩, h1, h⟩ := Res.bind_eq_ok.1 h
  dsimp only at h
  split at h
  · cases h
  rename_i hmg
  rw [Classical.not_not.1 hmg] at h1
  obtain ⟨⟨okb, r2⟩, h2, h⟩ := Res.bind_eq_ok.1 h
  dsimp only at h
  split at h
  · cases h
  rename_i hok
  obtain ⟨⟨ln, r3⟩, h3, h⟩ := Res.bind_eq_ok.1 h
  dsimp only at h
  obtain ⟨len, h4, h⟩ := Res.bind_eq_ok.1 h
  rw [ofOption_eq_ok] at h4
  rw [h4] at h3
  obtain ⟨⟨ver, r4⟩, h5, h⟩ := Res.bind_eq_ok.1 h
  dsimp only at h
  obtain ⟨ver', h6, h⟩ := Res.bind_eq_ok.1 h
  obtain ⟨⟨_, r5⟩, h7, h⟩ := Res.bind_eq_ok.1 h
  dsimp only at h
  obtain ⟨⟨cn, r6⟩, h8, h⟩ := Res.bind_eq_ok.1 h
  dsimp only at h
  obtain ⟨count, h9, h⟩ := Res.bind_eq_ok.1 h
  rw [ofOption_eq_ok] at h9
  rw [h9] at h8
  -- positions
  obtain ⟨e1, hr1, s1⟩ := readNum_exact (base := base) hr0 (by decide) h1
  have p1 : r1.pos = 4 := by rw [e1]; rfl
  have d1 : r1.data = md := by rw [e1]; rfl
  have e2 := advance_skip (by rw [p1]; decide) h2
  have p2 : r2.pos = 12 := by rw [e2, skip_pos, p1]
  have d2 : r2.data = md := by rw [e2]; exact d1
  have hr2 : r2.Ok := ok_of_readU (by rw [d2]; exact hl) (by rw [p2]; decide) h3
  obtain ⟨e3, hr3, s3⟩ := readNum_exact (base := base) hr2 (by decide) h3
  have p3 : r3.pos = 16 := by rw [e3, skip_pos, p2]
  have d3 : r3.data = md := by rw [e3]; exact d2
  have hlen : len = leNat ((md.drop 12).take 4) ∧ len < 2 ^ 32 := by
    rw [Reader.readU_eq cfg r2 4 (by rw [p2]; decide)] at h3
    split at h3
    · have hv := (Prod.mk.inj (Res.ok.inj h3)).1
      have hv' := Option.some.inj hv
      unfold Reader.rest at hv'
      rw [d2, p2] at hv'
      refine ⟨hv'.symm, ?_⟩
      have := leNat_take_lt (md.drop 12) 4
      omega
    · cases h3
  have e4 : r4 = r3.skip len ∧ 16 + len ≤ md.length := by
    rw [ofOption_eq_ok] at h6
    rw [h6, readStr_eq cfg r3 len (by rw [p3]; omega)] at h5
    split at h5
    · rename_i hq
      rw [p3, d3] at hq
      exact ⟨(Prod.mk.inj (Res.ok.inj h5)).2.symm, hq⟩
    · cases h5
  obtain ⟨e4, hq4⟩ := e4
  have p4 : r4.pos = 16 + len := by rw [e4, skip_pos, p3]
  have d4 : r4.data = md := by rw [e4]; exact d3
  have e5 := advance_skip (by rw [p4]; omega) h7
  have p5 : r5.pos = 18 + len := by rw [e5, skip_pos, p4]; omega
  have d5 : r5.data = md := by rw [e5]; exact d4
  have hr5 : r5.Ok := ok_of_readU (by rw [d5]; exact hl) (by rw [p5]; omega) h8
  obtain ⟨e6, hr6, s6⟩ := readNum_exact (base := base) hr5 (by decide) h8
  have p6 : r6.pos = 20 + len := by rw [e6, skip_pos, p5]; omega
  rw [← hlen.1]
  -- the reads
  unfold Strict.readMetadataRoot
  dsimp only
  rw [s1, ite_bind_ub]
  have g0 : (Reader.new md).pos = 0 := rfl
  refine ite_then (fun c1 => ?_) (fun e => by rw [g0]; omega)
  rw [g0] at c1
  dsimp only
  rw [if_neg (by simp), h2]
  simp only [Res.ok_bind]
  rw [if_neg hok, s3, p2, if_pos (by omega)]
  simp only [Res.ok_bind, Res.ofOption_some]
  rw [h5]
  simp only [Res.ok_bind]
  rw [h6]
  simp only [Res.ok_bind]
  rw [h7]
  simp only [Res.ok_bind]
  rw [s6, p5, ite_bind_ub]
  refine ite_then (fun c2 => ?_) (fun e => by omega)
  simp only [Res.ok_bind, Res.ofOption_some]
  by_cases h4 : len % 4 = 0
  · rw [readStreamHeaders_aligned (by omega) count {} (by omega) hr6.2 (by have := hr6.1; omega), h, if_pos ⟨by omega, h4⟩]
  · rw [if_neg (fun e => h4 e.2)]
    cases count with
    | zero => cases h; exact absurd rfl hs
    | succ k =>
      unfold readStreamHeaders at h
      obtain ⟨⟨o, r7⟩, k1, k2⟩ := Res.bind_eq_ok.1 h
      dsimp only at k2
      obtain ⟨o', k3, k2⟩ := Res.bind_eq_ok.1 k2
      rw [ofOption_eq_ok] at k3
      rw [k3] at k1
      obtain ⟨-, -, s7⟩ := readNum_exact (base := base) hr6 (by decide) k1
      unfold Strict.readStreamHeaders
      rw [s7, p6, if_neg (by omega)]
      rfl

end Clr
