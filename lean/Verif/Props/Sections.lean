import Verif.Props.Pe
/-! # C112: the names of sections -/

namespace Clr
open Spec

/-- A text that neither begins nor ends with NUL. -/
def Spec.Bare (cs : List Char) : Prop := cs.head? ≠ some (Char.ofNat 0) ∧ cs.getLast? ≠ some (Char.ofNat 0)

instance (cs : List Char) : Decidable (Spec.Bare cs) := by unfold Spec.Bare; infer_instance

theorem dropNul_eq (cs : List Char) :
    ∃ a, cs = List.replicate a (Char.ofNat 0) ++ cs.dropWhile (· = Char.ofNat 0) ∧
      (cs.dropWhile (· = Char.ofNat 0)).head? ≠ some (Char.ofNat 0) := by
  induction cs with
  | nil => exact ⟨0, by simp, by simp⟩
  | cons c cs ih =>
    by_cases hc : c = Char.ofNat 0
    · obtain ⟨a, h1, h2⟩ := ih
      refine ⟨a + 1, ?_, ?_⟩
      · rw [List.dropWhile_cons_of_pos (by simpa using hc), List.replicate_succ, List.cons_append, ← h1, hc]
      · rw [List.dropWhile_cons_of_pos (by simpa using hc)]; exact h2
    · exact ⟨0, by rw [List.dropWhile_cons_of_neg (by simpa using hc)]; rfl,
        by rw [List.dropWhile_cons_of_neg (by simpa using hc)]; simpa using hc⟩

theorem dropNul_of (a : Nat) (cs : List Char) (h : cs.head? ≠ some (Char.ofNat 0)) :
    (List.replicate a (Char.ofNat 0) ++ cs).dropWhile (· = Char.ofNat 0) = cs := by
  induction a with
  | zero =>
    cases cs with
    | nil => rfl
    | cons c cs => exact List.dropWhile_cons_of_neg (by simpa using h)
  | succ a ih => rw [List.replicate_succ, List.cons_append, List.dropWhile_cons_of_pos (by simp)]; exact ih

theorem trimNul_eq (cs : List Char) :
    ∃ a b, cs = List.replicate a (Char.ofNat 0) ++ trimNul cs ++ List.replicate b (Char.ofNat 0) ∧ Bare (trimNul cs) := by
  obtain ⟨a, h1, h2⟩ := dropNul_eq cs
  obtain ⟨b, h3, h4⟩ := dropNul_eq (cs.dropWhile (· = Char.ofNat 0)).reverse
  have h5 := congrArg List.reverse h3
  rw [List.reverse_reverse, List.reverse_append, List.reverse_replicate] at h5
  change _ = trimNul cs ++ _ at h5
  refine ⟨a, b, ?_, ?_, ?_⟩
  · rw [List.append_assoc, ← h5]; exact h1
  · intro h
    apply h2
    rw [h5, List.head?_append, h]; rfl
  · intro h
    apply h4
    rw [← List.getLast?_reverse]; exact h

theorem trimNul_of (a b : Nat) (cs : List Char) (h : Bare cs) :
    trimNul (List.replicate a (Char.ofNat 0) ++ cs ++ List.replicate b (Char.ofNat 0)) = cs := by
  unfold trimNul
  cases cs with
  | nil =>
    have := dropNul_of (a + b) [] (by simp)
    rw [List.append_nil] at this
    rw [List.append_nil, List.replicate_append_replicate, this]; rfl
  | cons c cs =>
    rw [List.append_assoc, dropNul_of a _ (by simpa using h.1), List.reverse_append, List.reverse_replicate,
      dropNul_of b _ (by rw [List.head?_reverse]; exact h.2), List.reverse_reverse]

theorem utf8_append (a b : List Char) : utf8 (a ++ b) = utf8 a ++ utf8 b := by
  induction a with
  | nil => rfl
  | cons c a ih => simp [utf8, ih]

theorem utf8_nuls (n : Nat) : utf8 (List.replicate n (Char.ofNat 0)) = List.replicate n 0 := by
  induction n with
  | zero => rfl
  | succ n ih => rw [List.replicate_succ, List.replicate_succ, utf8, ih]; rfl

/-- **C112.** What asking for the name of a section gives, for every section header: the text `cs` exactly when the name
field is the UTF-8 form of `cs` surrounded by any number of NULs and `cs` itself neither begins nor ends with NUL. -/
theorem C112_exact (s : PeSection) (cs : List Char) :
    s.nameText = .ok cs ↔
      Bare cs ∧ ∃ a b, s.name = List.replicate a 0 ++ utf8 cs ++ List.replicate b 0 := by
  unfold PeSection.nameText
  constructor
  · intro h
    cases hf : fromUtf8 s.name with
    | none => rw [hf] at h; simp at h
    | some ds =>
      rw [hf] at h
      have e : trimNul ds = cs := Res.ok.inj h
      obtain ⟨a, b, h1, h2⟩ := trimNul_eq ds
      rw [e] at h1 h2
      refine ⟨h2, a, b, ?_⟩
      rw [← utf8_of_fromUtf8 _ _ hf, h1, utf8_append, utf8_append, utf8_nuls, utf8_nuls]
  · rintro ⟨hb, a, b, h⟩
    have : fromUtf8 s.name = some (List.replicate a (Char.ofNat 0) ++ cs ++ List.replicate b (Char.ofNat 0)) := by
      rw [h, ← utf8_nuls a, ← utf8_nuls b, ← utf8_append, ← utf8_append]; exact fromUtf8_utf8 _
    rw [this]
    simp only [trimNul_of a b cs hb]

/-- **C112**: asking gives a text or panics, and it panics exactly on a name field that is no UTF-8 text. -/
theorem C112_panics_iff (s : PeSection) :
    ((∃ cs, s.nameText = .ok cs) ∨ s.nameText = .panic) ∧
    (s.nameText = .panic ↔ ∀ cs, utf8 cs ≠ s.name) := by
  unfold PeSection.nameText
  cases hf : fromUtf8 s.name with
  | none =>
    refine ⟨.inr rfl, fun _ cs e => ?_, fun _ => rfl⟩
    rw [← e, fromUtf8_utf8] at hf
    simp at hf
  | some ds => exact ⟨.inl ⟨_, rfl⟩, by simp, fun h => absurd (utf8_of_fromUtf8 _ _ hf) (h ds)⟩

/-- **C112, as a round trip, partial.** In a file that holds the image `i`, a section whose name field is a text padded
with NULs gives back that text. Missing: name fields that are not UTF-8 (asking panics, `C112_not_text_refuted`), and
texts that begin or end with NUL, which lose these NULs. -/
theorem C112_round_trip_partial (cfg : Cfg) (data : Bytes) (off : Nat) (i : Spec.Image) (hlen : data.length < 2 ^ 63)
    (hi : i.Legal) (hf : IsPeFile data off i) (k : Nat) (s : Section) (hk : i.sections[k]? = some s) (cs : List Char)
    (pad : Nat) (hb : Bare cs) (hs : s.name = utf8 cs ++ List.replicate pad 0) :
    ∃ info t, parsePe cfg data = .ok info ∧ info.sections[k]? = some t ∧ t.nameText = .ok cs := by
  obtain ⟨info, h1, _, _, _, h2⟩ := C06_round_trip cfg data off i hlen hi hf
  refine ⟨info, _, h1, by rw [h2, List.getElem?_map, hk]; rfl, ?_⟩
  exact (C112_exact _ cs).mpr ⟨hb, 0, pad, by simpa using hs⟩

example : ∃ info t, parsePe .release exFile = .ok info ∧ info.sections[1]? = some t ∧ t.nameText = .ok ".rsrc".toList :=
  C112_round_trip_partial .release exFile 0x44 exImage (by decide +kernel) (by decide +kernel)
    ⟨by decide +kernel, by decide +kernel, by decide, [9, 9, 9], by decide +kernel⟩ 1 _ rfl ".rsrc".toList 3
    (by decide) (by decide)

/-- An image with one section, whose name is `name`. -/
def Ex.named (name : Bytes) : Spec.Image :=
  { exImage with sections := [⟨name, 100, 0x2000, 0x200, 0x200, 0, 0, 0, 0, 0x60000020⟩] }

/-- A file that holds that image. -/
def Ex.namedFile (name : Bytes) : Bytes :=
  [0x4d, 0x5a] ++ List.replicate 58 0x90 ++ leBytes 4 0x44 ++ [1, 2, 3, 4] ++ (Ex.named name).enc

/-- The name of the first section of a file. -/
def Ex.firstName (cfg : Cfg) (data : Bytes) : Res (List Char) := do
  let info ← parsePe cfg data
  match info.sections with
  | [] => .err "no section"
  | s :: _ => s.nameText

/-- **C112** is false of the code without the condition: a well-formed file that parses and whose section name, in
Latin-1, makes asking for it panic, in both builds; and two files with different names that give the same text. -/
theorem C112_not_text_refuted :
    (∀ cfg : Cfg, (Ex.named [0x74, 0xe9, 0x78, 0x74, 0, 0, 0, 0]).Legal ∧
      (parsePe cfg (Ex.namedFile [0x74, 0xe9, 0x78, 0x74, 0, 0, 0, 0])).Returns ∧
      Ex.firstName cfg (Ex.namedFile [0x74, 0xe9, 0x78, 0x74, 0, 0, 0, 0]) = .panic) ∧
    (∀ cfg : Cfg, Ex.firstName cfg (Ex.namedFile [0, 0x74, 0, 0, 0, 0, 0, 0]) = .ok ['t'] ∧
      Ex.firstName cfg (Ex.namedFile [0x74, 0, 0, 0, 0, 0, 0, 0]) = .ok ['t']) := by
  constructor
  · rintro ⟨b⟩
    refine ⟨by decide +kernel, ?_, ?_⟩ <;> cases b <;> decide +kernel
  · rintro ⟨b⟩
    cases b <;> decide +kernel

end Clr
