import Verif.Model.Metadata
import Verif.Spec.MetadataRoot
import Verif.Lemmas.Utf8
import Verif.Props.Pe
import Verif.Props.Tables
/-! # Lemmas about the CLI header and the metadata root -/

namespace Clr
open Spec Reader

theorem resolveRva_at (cfg : Cfg) {i : Image} (hs : i.Sound) {rva off : Nat} (h : i.At rva off) :
    resolveRva cfg rva (infoOf i).sections = .ok off := by
  obtain ⟨s, hm, hc, rfl⟩ := h
  exact resolveRva_hit cfg i.sections rva hs.1 (hs.2 rva) s hm hc

/-! ### CLI header -/

/-- The header structure the code should see. -/
structure CliOf (c : Cli) (h : CliHeader) : Prop where
  metadata : h.metadata = ⟨c.metadata.1, c.metadata.2⟩
  flags : h.flags = c.flags
  entryPoint : h.entryPoint = ⟨c.entryToken⟩
  resources : h.resources = ⟨c.resources.1, c.resources.2⟩

theorem part_le {w n : Nat} {a t : Bytes} {k : Nat} (hk : a.length = k) (hn : n < 256 ^ w) :
    leNat (((a ++ (leBytes w n ++ t)).drop k).take w) = n := by
  rw [← hk, List.drop_left, List.take_append_of_le_length (by simp), List.take_of_length_le (by simp),
    leNat_leBytes w n hn]

theorem part_dir {x y : Nat} {a t : Bytes} {k : Nat} (hk : a.length = k) (hx : x < 256 ^ 4) (hy : y < 256 ^ 4) :
    RvaAndSize.ofBytes (((a ++ (leBytes 4 x ++ (leBytes 4 y ++ t))).drop k).take 8) = ⟨x, y⟩ := by
  have : ((a ++ (leBytes 4 x ++ (leBytes 4 y ++ t))).drop k).take 8 = encDir (x, y) := by
    rw [← hk, List.drop_left, encDir, ← List.append_assoc, List.take_append_of_le_length (by simp),
      List.take_of_length_le (by simp)]
  rw [this]
  exact RvaAndSize_ofBytes_enc (x, y) ⟨by simpa using hx, by simpa using hy⟩

theorem length_dirs (l : List (Nat × Nat)) : ((l.map encDir).flatten).length = 8 * l.length := by
  induction l with
  | nil => rfl
  | cons d l ih => simp [encDir, ih]; omega

theorem length_cli (c : Cli) (h : c.Legal) : c.enc.length = 72 := by
  rw [Cli.enc, List.length_append, length_encFields, length_dirs, h.2.1]; rfl

theorem cliOf_enc (c : Cli) (h : c.Legal) : CliOf c (CliHeader.ofBytes c.enc) := by
  have hf := h.1
  have f : ∀ w v, (w, v) ∈ c.fields → v < 256 ^ w := fun w v hm => hf (w, v) hm
  have e : c.enc = leBytes 4 c.cb ++ (leBytes 2 c.major ++ (leBytes 2 c.minor ++ (leBytes 4 c.metadata.1 ++
      (leBytes 4 c.metadata.2 ++ (leBytes 4 c.flags ++ (leBytes 4 c.entryToken ++ (leBytes 4 c.resources.1 ++
      (leBytes 4 c.resources.2 ++ (c.others.map encDir).flatten)))))))) := by
    simp [Cli.enc, Cli.fields, encFields]
  constructor
  · have e' : c.enc = (leBytes 4 c.cb ++ leBytes 2 c.major ++ leBytes 2 c.minor) ++ (leBytes 4 c.metadata.1 ++
      (leBytes 4 c.metadata.2 ++ (leBytes 4 c.flags ++ (leBytes 4 c.entryToken ++ (leBytes 4 c.resources.1 ++
      (leBytes 4 c.resources.2 ++ (c.others.map encDir).flatten)))))) := by rw [e]; simp
    show RvaAndSize.ofBytes ((c.enc.drop 8).take 8) = _
    rw [e']
    exact part_dir (by simp) (f 4 _ (by simp [Cli.fields])) (f 4 _ (by simp [Cli.fields]))
  · have e' : c.enc = (leBytes 4 c.cb ++ leBytes 2 c.major ++ leBytes 2 c.minor ++ leBytes 4 c.metadata.1 ++
      leBytes 4 c.metadata.2) ++ (leBytes 4 c.flags ++ (leBytes 4 c.entryToken ++ (leBytes 4 c.resources.1 ++
      (leBytes 4 c.resources.2 ++ (c.others.map encDir).flatten)))) := by rw [e]; simp
    show leNat ((c.enc.drop 16).take 4) = _
    rw [e']
    exact part_le (by simp) (f 4 _ (by simp [Cli.fields]))
  · have e' : c.enc = (leBytes 4 c.cb ++ leBytes 2 c.major ++ leBytes 2 c.minor ++ leBytes 4 c.metadata.1 ++
      leBytes 4 c.metadata.2 ++ leBytes 4 c.flags) ++ (leBytes 4 c.entryToken ++ (leBytes 4 c.resources.1 ++
      (leBytes 4 c.resources.2 ++ (c.others.map encDir).flatten))) := by rw [e]; simp
    show Token.mk (leNat ((c.enc.drop 20).take 4)) = _
    rw [e']
    exact congrArg Token.mk (part_le (by simp) (f 4 _ (by simp [Cli.fields])))
  · have e' : c.enc = (leBytes 4 c.cb ++ leBytes 2 c.major ++ leBytes 2 c.minor ++ leBytes 4 c.metadata.1 ++
      leBytes 4 c.metadata.2 ++ leBytes 4 c.flags ++ leBytes 4 c.entryToken) ++ (leBytes 4 c.resources.1 ++
      (leBytes 4 c.resources.2 ++ (c.others.map encDir).flatten)) := by rw [e]; simp
    show RvaAndSize.ofBytes ((c.enc.drop 24).take 8) = _
    rw [e']
    exact part_dir (by simp) (f 4 _ (by simp [Cli.fields])) (f 4 _ (by simp [Cli.fields]))

theorem readCliHeader_at (cfg : Cfg) {data : Bytes} {peOff moff : Nat} {i : Image} {c : Cli}
    (h : IsAssemblyFile data peOff i c moff) :
    ∃ hd, readCliHeader cfg data (infoOf i) = .ok hd ∧ CliOf c hd := by
  obtain ⟨rva, size, off, tail, hdir, hat, hd⟩ := h.cli
  refine ⟨_, ?_, cliOf_enc c h.cliLegal⟩
  have hoff : off ≤ data.length := by
    have := congrArg List.length hd
    simp [length_cli c h.cliLegal] at this; omega
  have hdir' : (infoOf i).dataDirectories[14]? = some ⟨rva, size⟩ := by
    simp [infoOf, hdir]
  unfold readCliHeader
  rw [hdir']
  simp only [Res.ofOption_some, Res.ok_bind, resolveRva_at cfg h.sound hat, Res.mapErr_ok, sliceFrom_ok hoff]
  have hl : (data.drop off).length < 2 ^ 63 := by have := h.small; simp; omega
  have := read_at cfg (Ok.new hl) (bs := c.enc) (t := tail) (by rw [rest_new]; exact hd)
  rw [length_cli c h.cliLegal] at this
  simp [this]

theorem metadataSlice_at (cfg : Cfg) {data : Bytes} {peOff moff : Nat} {i : Image} {c : Cli}
    (h : IsAssemblyFile data peOff i c moff) {hd : CliHeader} (hc : CliOf c hd) :
    metadataSlice cfg data (infoOf i) hd = .ok (part data moff c.metadata.2) := by
  unfold metadataSlice
  have h1 := h.metadataIn
  have h2 := h.small
  rw [hc.metadata]
  simp only [resolveRva_at cfg h.sound h.metadataAt, Res.mapErr_ok, Res.ok_bind]
  rw [uadd_ok (by omega)]
  simp only [Res.ok_bind]
  rw [slice_ok ⟨by omega, h1⟩]
  simp [part]

/-! ### Stream directory -/

/-- Registering a list of streams in order. -/
def setAll : List Stream → Streams → Res Streams
  | [], s => .ok s
  | e :: es, s => s.set e.name ⟨e.offset, e.size⟩ >>= setAll es

theorem namePad_eq (n : Nat) : namePad n = 0 :: List.replicate (3 - n % 4) 0 := by
  have h : n % 4 < 4 := Nat.mod_lt _ (by decide)
  unfold namePad
  rw [show 4 - n % 4 = (3 - n % 4) + 1 by omega, List.replicate_succ]

theorem readStreamHeaders_at (cfg : Cfg) (es : List Stream) (hes : ∀ e ∈ es, e.Legal) (s : Streams) {r : Reader}
    {t : Bytes} (hr : r.Ok) (hp : r.pos % 4 = 0) (h : r.rest = (es.map Stream.enc).flatten ++ t) :
    readStreamHeaders cfg es.length r s = setAll es s := by
  induction es generalizing r s with
  | nil => rfl
  | cons e es ih =>
    obtain ⟨ho, hz, hn⟩ := hes e (by simp)
    have h0 : r.rest = leBytes 4 e.offset ++ (leBytes 4 e.size ++ (utf8 e.name ++ 0 ::
        (List.replicate (3 - (utf8 e.name).length % 4) 0 ++ ((es.map Stream.enc).flatten ++ t)))) := by
      rw [h]; simp [Stream.enc, namePad_eq]
    simp only [List.length_cons, readStreamHeaders]
    rw [readU_at cfg hr (by simpa using ho) h0]
    simp only [Res.ok_bind, Res.ofOption_some]
    have hr1 := ok_le hr h0
    have h1 := rest_le h0
    rw [readU_at cfg hr1 (by simpa using hz) h1]
    simp only [Res.ok_bind, Res.ofOption_some]
    have hr2 := ok_le hr1 h1
    have h2 := rest_le h1
    rw [readCStr_at cfg hr2 (utf8_no_nul _ hn) h2]
    simp only [Res.ok_bind, fromUtf8_utf8, Res.ofOption_some]
    have hlt : (((r.skip 4).skip 4).skip (utf8 e.name).length).pos + 4 < 2 ^ 64 := by
      have := (ok_at hr2 h2).1
      have := (ok_at hr2 h2).2
      omega
    rw [uadd_ok hlt]
    simp only [Res.ok_bind, setAll]
    have hpad : (utf8 e.name).length % 4 < 4 := Nat.mod_lt _ (by decide)
    have hg : ((((r.skip 4).skip 4).skip (utf8 e.name).length).goto
        (((((r.skip 4).skip 4).skip (utf8 e.name).length).pos + 4) / 4 * 4)).2 =
        ((r.skip 4).skip 4).skip (utf8 e.name ++ 0 :: List.replicate (3 - (utf8 e.name).length % 4) 0).length := by
      simp only [goto, skip]
      congr 1
      simp
      omega
    rw [hg]
    have h3 : ((r.skip 4).skip 4).rest = (utf8 e.name ++ 0 :: List.replicate (3 - (utf8 e.name).length % 4) 0) ++
        ((es.map Stream.enc).flatten ++ t) := by rw [h2]; simp
    have hr4 := ok_at hr2 h3
    have h4 := rest_at h3
    have hpos : (((r.skip 4).skip 4).skip (utf8 e.name ++ 0 :: List.replicate (3 - (utf8 e.name).length % 4) 0).length).pos
        % 4 = 0 := by
      simp
      omega
    cases hset : s.set e.name ⟨e.offset, e.size⟩ with
    | ok s' => simp only [Res.ok_bind]; exact ih (fun e he => hes e (by simp [he])) s' hr4 hpos h4
    | err m => simp
    | panic => simp
    | ub => simp
    | timeout => simp

theorem readMetadataRoot_at (cfg : Cfg) (m : Root) (hm : m.Legal) {bytes t : Bytes} (hl : bytes.length < 2 ^ 63)
    (h : bytes = m.enc ++ t) : readMetadataRoot cfg bytes = setAll m.streams {} := by
  obtain ⟨hs, hf, hv, hv4, hvl, hvn, hn, hleg⟩ := hm
  unfold readMetadataRoot
  have h0 : (Reader.new bytes).rest = leBytes 4 0x424A5342 ++ (m.skipped ++ (leBytes 4 m.versionLength ++
      ((utf8 m.version ++ List.replicate (m.versionLength - (utf8 m.version).length) 0) ++
      (m.flags ++ (leBytes 2 m.streams.length ++ ((m.streams.map Stream.enc).flatten ++ t)))))) := by
    rw [rest_new, h, Root.enc]; simp only [List.append_assoc]
  have hr0 : (Reader.new bytes).Ok := Ok.new hl
  have hp0 : (Reader.new bytes).pos = 0 := rfl
  generalize Reader.new bytes = r0 at *
  simp only
  rw [readU_at cfg hr0 (by decide) h0]
  simp only [Res.ok_bind, ne_eq, not_true_eq_false, if_false]
  have hr1 := ok_le hr0 h0
  have h1 := rest_le h0
  have hp1 : (r0.skip 4).pos = 4 := by simp [hp0]
  generalize r0.skip 4 = r1 at *
  have hr2 := ok_at hr1 h1
  have h2 := rest_at h1
  rw [hs] at hr2 h2
  have := hr1.1
  have := hr1.2
  rw [advance_eq cfg r1 8 (by omega)]
  have hin : r1.pos + 8 ≤ r1.data.length := hr2.1
  simp only [Res.ok_bind, hin, decide_true, Bool.true_eq_false, if_false]
  have hp2 : (r1.skip 8).pos = 12 := by simp [hp1]
  generalize r1.skip 8 = r2 at *
  rw [readU_at cfg hr2 (by simpa using hv) h2]
  simp only [Res.ok_bind, Res.ofOption_some]
  have hr3 := ok_le hr2 h2
  have h3 := rest_le h2
  have hp3 : (r2.skip 4).pos = 16 := by simp [hp2]
  generalize r2.skip 4 = r3 at *
  have hlen : (utf8 m.version ++ List.replicate (m.versionLength - (utf8 m.version).length) (0 : UInt8)).length =
      m.versionLength := by simp; omega
  have hstr := readStr_at cfg hr3 h3
  have hr4 := ok_at hr3 h3
  have h4 := rest_at h3
  rw [hlen] at hstr hr4 h4
  have hver : fromUtf8 (beforeNul (utf8 m.version ++ List.replicate (m.versionLength - (utf8 m.version).length) 0)) =
      some m.version := by
    have : beforeNul (utf8 m.version ++ List.replicate (m.versionLength - (utf8 m.version).length) 0) = utf8 m.version := by
      cases hk : m.versionLength - (utf8 m.version).length with
      | zero => simpa using beforeNul_of_not_mem _ (utf8_no_nul _ hvn)
      | succ k => rw [List.replicate_succ]; exact beforeNul_append_nul _ _ (utf8_no_nul _ hvn)
    rw [this, fromUtf8_utf8]
  rw [hver] at hstr
  rw [hstr]
  simp only [Res.ok_bind, Res.ofOption_some]
  have hp4 : (r3.skip m.versionLength).pos = 16 + m.versionLength := by simp [hp3]
  generalize r3.skip m.versionLength = r4 at *
  have hr5 := ok_at hr4 h4
  have h5 := rest_at h4
  rw [hf] at hr5 h5
  have := hr4.1
  have := hr4.2
  rw [advance_eq cfg r4 2 (by omega)]
  simp only [Res.ok_bind]
  have hp5 : (r4.skip 2).pos = 18 + m.versionLength := by simp [hp4]; omega
  generalize r4.skip 2 = r5 at *
  rw [readU_at cfg hr5 (by simpa using hn) h5]
  simp only [Res.ok_bind, Res.ofOption_some]
  apply readStreamHeaders_at cfg m.streams hleg {} (ok_le hr5 h5) _ (rest_le h5)
  simp [hp5]; omega

/-- A field of `Streams` that `set` fills for exactly the given name. -/
structure Slot (name : String) (get : Streams → Option StreamHeader) : Prop where
  set : ∀ s n h s', Streams.set s n h = .ok s' → get s' = if n = name.toList then some h else get s
  init : get {} = none

theorem Streams.set_ok {s : Streams} {n : List Char} {h : StreamHeader} {s' : Streams} (e : s.set n h = .ok s') :
    s' = { strings := if n = "#Strings".toList then some h else s.strings
           userStrings := if n = "#US".toList then some h else s.userStrings
           blob := if n = "#Blob".toList then some h else s.blob
           guid := if n = "#GUID".toList then some h else s.guid
           tables := if n = "#~".toList then some h else s.tables } := by
  unfold Streams.set at e
  split at e
  · next hn => rw [← Res.ok.inj e, hn]; simp
  · split at e
    · next hn => rw [← Res.ok.inj e, hn]; simp
    · split at e
      · next hn => rw [← Res.ok.inj e, hn]; simp
      · split at e
        · next hn => rw [← Res.ok.inj e, hn]; simp
        · split at e
          · next h1 h2 h3 h4 hn => rw [← Res.ok.inj e, hn]; simp
          · cases e

theorem slotStrings : Slot "#Strings" Streams.strings := ⟨fun _ _ _ _ e => by rw [Streams.set_ok e], rfl⟩
theorem slotUserStrings : Slot "#US" Streams.userStrings := ⟨fun _ _ _ _ e => by rw [Streams.set_ok e], rfl⟩
theorem slotBlob : Slot "#Blob" Streams.blob := ⟨fun _ _ _ _ e => by rw [Streams.set_ok e], rfl⟩
theorem slotGuid : Slot "#GUID" Streams.guid := ⟨fun _ _ _ _ e => by rw [Streams.set_ok e], rfl⟩
theorem slotTables : Slot "#~" Streams.tables := ⟨fun _ _ _ _ e => by rw [Streams.set_ok e], rfl⟩

theorem setAll_lacks {name : String} {get : Streams → Option StreamHeader} (hs : Slot name get) (es : List Stream)
    (s s' : Streams) (h : setAll es s = .ok s') (hn : ∀ e ∈ es, e.name ≠ name.toList) : get s' = get s := by
  induction es generalizing s with
  | nil => simp only [setAll] at h; rw [Res.ok.inj h]
  | cons e es ih =>
    obtain ⟨s1, h1, h2⟩ := Res.bind_eq_ok.mp h
    rw [ih s1 h2 (fun e he => hn e (by simp [he])), hs.set _ _ _ _ h1, if_neg (hn e (by simp))]

theorem setAll_places {name : String} {get : Streams → Option StreamHeader} (hs : Slot name get) (es : List Stream)
    (s s' : Streams) (h : setAll es s = .ok s') (o z : Nat)
    (hu : ∀ e ∈ es, e.name = name.toList → e = ⟨name.toList, o, z⟩)
    (hm : (⟨name.toList, o, z⟩ : Stream) ∈ es ∨ get s = some ⟨o, z⟩) : get s' = some ⟨o, z⟩ := by
  induction es generalizing s with
  | nil =>
    simp only [setAll] at h
    rw [← Res.ok.inj h]
    simpa using hm
  | cons e es ih =>
    obtain ⟨s1, h1, h2⟩ := Res.bind_eq_ok.mp h
    refine ih s1 h2 (fun e he => hu e (by simp [he])) ?_
    rw [hs.set _ _ _ _ h1]
    by_cases hn : e.name = name.toList
    · right
      have := hu e (by simp) hn
      rw [if_pos hn, this]
    · rw [if_neg hn]
      rcases hm with hm | hm
      · left
        rcases List.mem_cons.mp hm with rfl | hm
        · exact absurd rfl hn
        · exact hm
      · exact Or.inr hm

theorem Streams.set_known (s : Streams) (n : List Char) (h : StreamHeader) (hn : n ∈ knownStreams) :
    ∃ s', s.set n h = .ok s' := by
  unfold Streams.set
  simp only [knownStreams, List.mem_cons, List.not_mem_nil, or_false] at hn
  repeat' split
  all_goals first | exact ⟨_, rfl⟩ | simp_all

theorem Streams.set_unknown (s : Streams) (n : List Char) (h : StreamHeader) (hn : n ∉ knownStreams) :
    ∃ m, s.set n h = .err m := by
  simp only [knownStreams, List.mem_cons, List.not_mem_nil, or_false, not_or] at hn
  obtain ⟨h1, h2, h3, h4, h5⟩ := hn
  unfold Streams.set
  rw [if_neg h1, if_neg h2, if_neg h3, if_neg h4, if_neg h5]
  exact ⟨_, rfl⟩

theorem setAll_known (es : List Stream) (s : Streams) (hk : ∀ e ∈ es, e.name ∈ knownStreams) :
    ∃ s', setAll es s = .ok s' := by
  induction es generalizing s with
  | nil => exact ⟨s, rfl⟩
  | cons e es ih =>
    obtain ⟨s1, h1⟩ := Streams.set_known s e.name ⟨e.offset, e.size⟩ (hk e (by simp))
    obtain ⟨s2, h2⟩ := ih s1 (fun e he => hk e (by simp [he]))
    exact ⟨s2, by simp only [setAll]; rw [h1]; exact h2⟩

theorem setAll_unknown (es : List Stream) (s : Streams) (hk : ∃ e ∈ es, e.name ∉ knownStreams) :
    ∃ m, setAll es s = .err m := by
  induction es generalizing s with
  | nil => obtain ⟨e, he, _⟩ := hk; simp at he
  | cons e es ih =>
    by_cases hn : e.name ∈ knownStreams
    · obtain ⟨s1, h1⟩ := Streams.set_known s e.name ⟨e.offset, e.size⟩ hn
      obtain ⟨x, hx, hxn⟩ := hk
      have : ∃ e ∈ es, e.name ∉ knownStreams := by
        rcases List.mem_cons.mp hx with rfl | hx
        · exact absurd hn hxn
        · exact ⟨x, hx, hxn⟩
      obtain ⟨m, hm⟩ := ih s1 this
      exact ⟨m, by simp only [setAll]; rw [h1]; exact hm⟩
    · obtain ⟨m, h1⟩ := Streams.set_unknown s e.name ⟨e.offset, e.size⟩ hn
      exact ⟨m, by simp only [setAll]; rw [h1]; rfl⟩

theorem streamBytes_at (cfg : Cfg) (metadata : Bytes) (o z : Nat) (h : o + z ≤ metadata.length) (h32 : o + z < 2 ^ 32) :
    streamBytes cfg metadata ⟨o, z⟩ = .ok (part metadata o z) := by
  simp only [streamBytes]
  rw [uadd_ok h32]
  simp only [Res.ok_bind]
  rw [slice_ok ⟨by omega, h⟩]
  simp [part]

end Clr
