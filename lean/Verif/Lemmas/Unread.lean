import Verif.Lemmas.LoadFuel
import Verif.Lemmas.Pe
import Verif.Spec.Unread
/-! # Parts of a file that loading does not look at -/

namespace Clr

variable {cfg : Cfg} {α β : Type}

/-! ## Further bytes at the end -/

/-- A reader of longer data at the same position. -/
def Reader.more (r : Reader) (t : Bytes) : Reader := { r with data := r.data ++ t }

namespace Reader

variable {r r' : Reader} {t : Bytes} {w n : Nat}

theorem rawBytes_more {b : Bytes} (h : r.rawBytes n = .ok b) : (r.more t).rawBytes n = .ok b := by
  unfold rawBytes sliceFrom at h ⊢
  unfold more
  dsimp only
  by_cases h1 : r.pos ≤ r.data.length
  · rw [if_pos h1] at h
    rw [if_pos (by rw [List.length_append]; omega), List.drop_append_of_le_length h1]
    simp only [Res.ok_bind] at h ⊢
    by_cases h2 : n ≤ (r.data.drop r.pos).length
    · rw [if_pos h2] at h
      rw [if_pos (by rw [List.length_append]; omega), List.take_append_of_le_length h2]
      exact h
    · rw [if_neg h2] at h; cases h
  · rw [if_neg h1] at h; cases h

theorem advance_more {b : Bool} {x : Nat} (h : r.advance cfg x = .ok (b, r')) : ∃ b', (r.more t).advance cfg x = .ok (b', r'.more t) := by
  unfold advance at h ⊢
  obtain ⟨p, hp, h⟩ := Res.bind_eq_ok.1 h
  cases h
  exact ⟨_, by rw [show (r.more t).pos = r.pos from rfl, hp]; rfl⟩

theorem peek_more {b : Bytes} (h : r.peek cfg w = .ok (some b)) : (r.more t).peek cfg w = .ok (some b) := by
  unfold peek at h ⊢
  obtain ⟨e, he, h⟩ := Res.bind_eq_ok.1 h
  rw [show (r.more t).pos = r.pos from rfl, he, Res.ok_bind]
  split at h
  · cases h
  · next hl =>
    rw [if_neg (by unfold more; simp only [List.length_append]; omega)]
    obtain ⟨b', hb, h⟩ := Res.bind_eq_ok.1 h
    cases h
    rw [rawBytes_more hb]; rfl

theorem read_more {b : Bytes} (h : r.read cfg w = .ok (some b, r')) : (r.more t).read cfg w = .ok (some b, r'.more t) := by
  unfold read at h ⊢
  obtain ⟨o, ho, h⟩ := Res.bind_eq_ok.1 h
  cases o with
  | none => cases h
  | some b' =>
    rw [peek_more ho, Res.ok_bind]
    obtain ⟨⟨c, r1⟩, h1, h⟩ := Res.bind_eq_ok.1 h
    cases h
    obtain ⟨b2, h2⟩ := advance_more (t := t) h1
    dsimp only
    rw [h2]; rfl

theorem readU_more {x : Nat} (h : r.readU cfg w = .ok (some x, r')) : (r.more t).readU cfg w = .ok (some x, r'.more t) := by
  unfold readU at h ⊢
  obtain ⟨⟨o, r1⟩, ho, h⟩ := Res.bind_eq_ok.1 h
  cases o with
  | none => cases h
  | some b =>
    cases h
    rw [read_more ho]; rfl

theorem peekU_more {x : Nat} (h : r.peekU cfg w = .ok (some x)) : (r.more t).peekU cfg w = .ok (some x) := by
  unfold peekU at h ⊢
  obtain ⟨o, ho, h⟩ := Res.bind_eq_ok.1 h
  cases o with
  | none => cases h
  | some b =>
    cases h
    rw [peek_more ho]; rfl

theorem peekArray_more {xs : List Bytes} (h : r.peekArray cfg w n = .ok (some xs)) : (r.more t).peekArray cfg w n = .ok (some xs) := by
  unfold peekArray at h ⊢
  obtain ⟨k, hk, h⟩ := Res.bind_eq_ok.1 h
  obtain ⟨e, he, h⟩ := Res.bind_eq_ok.1 h
  rw [hk, Res.ok_bind, show (r.more t).pos = r.pos from rfl, he, Res.ok_bind]
  split at h
  · cases h
  · next hl =>
    rw [if_neg (by unfold more; simp only [List.length_append]; omega)]
    obtain ⟨b', hb, h⟩ := Res.bind_eq_ok.1 h
    cases h
    rw [rawBytes_more hb]; rfl

theorem readArray_more {xs : List Bytes} (h : r.readArray cfg w n = .ok (some xs, r')) :
    (r.more t).readArray cfg w n = .ok (some xs, r'.more t) := by
  unfold readArray at h ⊢
  obtain ⟨k, hk, h⟩ := Res.bind_eq_ok.1 h
  obtain ⟨e, he, h⟩ := Res.bind_eq_ok.1 h
  rw [hk, Res.ok_bind, show (r.more t).pos = r.pos from rfl, he, Res.ok_bind]
  split at h
  · cases h
  · next hl =>
    rw [if_neg (by unfold more; simp only [List.length_append]; omega)]
    obtain ⟨b', hb, h⟩ := Res.bind_eq_ok.1 h
    obtain ⟨k', hk', h⟩ := Res.bind_eq_ok.1 h
    rw [hk] at hk'
    cases hk'
    obtain ⟨⟨c, r1⟩, h1, h⟩ := Res.bind_eq_ok.1 h
    cases h
    obtain ⟨b2, h2⟩ := advance_more (t := t) h1
    rw [rawBytes_more hb, Res.ok_bind, Res.ok_bind, h2]; rfl

end Reader

theorem sliceFrom_more {d x t : Bytes} {a : Nat} (h : sliceFrom d a = .ok x) : sliceFrom (d ++ t) a = .ok (x ++ t) := by
  unfold sliceFrom at h ⊢
  split at h
  · next h1 =>
    cases h
    rw [if_pos (by rw [List.length_append]; omega), List.drop_append_of_le_length h1]
  · cases h

theorem slice_more {d x t : Bytes} {a b : Nat} (h : slice d a b = .ok x) : slice (d ++ t) a b = .ok x := by
  unfold slice at h ⊢
  split at h
  · next h1 =>
    cases h
    rw [if_pos ⟨h1.1, by rw [List.length_append]; omega⟩, List.drop_append_of_le_length (by omega),
      List.take_append_of_le_length (by rw [List.length_drop]; omega)]
  · cases h

theorem parsePe_more {d t : Bytes} {info : PeInfo} (h : parsePe cfg d = .ok info) : parsePe cfg (d ++ t) = .ok info := by
  unfold parsePe at h ⊢
  have hn : Reader.new (d ++ t) = (Reader.new d).more t := rfl
  rw [hn]
  dsimp only at h ⊢
  obtain ⟨o, ho, h⟩ := Res.bind_eq_ok.1 h
  split at h
  · cases h
  next h0 =>
  replace h0 := Decidable.not_not.1 h0
  rw [h0] at ho
  rw [Reader.peekArray_more ho, Res.ok_bind, if_neg (by simp)]
  obtain ⟨o1, ho1, h⟩ := Res.bind_eq_ok.1 h
  have hg : ∀ (r : Reader) x, ((r.more t).goto x).2 = (r.goto x).2.more t := fun _ _ => rfl
  rw [hg]
  cases o1 with
  | none => cases h
  | some off =>
  rw [Reader.peekU_more ho1, Res.ok_bind]
  dsimp only at h ⊢
  rw [hg]
  obtain ⟨⟨sig, r1⟩, hs, h⟩ := Res.bind_eq_ok.1 h
  dsimp only at h
  split at h
  · cases h
  next h1 =>
  replace h1 := Decidable.not_not.1 h1
  subst h1
  rw [Reader.readArray_more hs, Res.ok_bind]
  dsimp only
  rw [if_neg (by simp)]
  obtain ⟨⟨hb, r2⟩, h2, h⟩ := Res.bind_eq_ok.1 h
  dsimp only at h
  obtain ⟨hd, h3, k⟩ := Res.bind_eq_ok.1 h
  cases hb with
  | none => cases h3
  | some hb =>
  rw [Reader.read_more h2, Res.ok_bind]
  dsimp only
  rw [h3, Res.ok_bind]
  obtain ⟨mo, h4, h⟩ := Res.bind_eq_ok.1 k
  obtain ⟨magic, h5, k1⟩ := Res.bind_eq_ok.1 h
  cases ofOption_eq_ok.1 h5
  rw [Reader.peekU_more h4, Res.ok_bind, Res.ofOption_some, Res.ok_bind]
  obtain ⟨⟨oh, r3⟩, h6, k2⟩ := Res.bind_eq_ok.1 k1
  have h6' : (if magic = 0x10b then do
            let (ob, r) ← (r2.more t).read cfg 96
            let ob ← Res.ofOption "Invalid PE file" ob
            pure (PeOptionalHeader.ofBytes32 ob, r)
          else if magic = 0x20b then do
            let (ob, r) ← (r2.more t).read cfg 112
            let ob ← Res.ofOption "Invalid PE file" ob
            pure (PeOptionalHeader.ofBytes64 ob, r)
          else .err "Invalid PE file" : Res (PeOptionalHeader × Reader)) = .ok (oh, r3.more t) := by
    split at h6
    · next e =>
      rw [if_pos e]
      obtain ⟨⟨ob, r4⟩, h7, h6⟩ := Res.bind_eq_ok.1 h6
      dsimp only at h6
      obtain ⟨ob', h8, k6⟩ := Res.bind_eq_ok.1 h6
      cases ofOption_eq_ok.1 h8
      cases k6
      rw [Reader.read_more h7]; rfl
    · next e =>
      rw [if_neg e]
      split at h6
      · next e' =>
        rw [if_pos e']
        obtain ⟨⟨ob, r4⟩, h7, h6⟩ := Res.bind_eq_ok.1 h6
        dsimp only at h6
        obtain ⟨ob', h8, k6⟩ := Res.bind_eq_ok.1 h6
        cases ofOption_eq_ok.1 h8
        cases k6
        rw [Reader.read_more h7]; rfl
      · cases h6
  rw [h6', Res.ok_bind]
  dsimp only at k2 ⊢
  obtain ⟨⟨dirs, r4⟩, h7, k3⟩ := Res.bind_eq_ok.1 k2
  dsimp only at k3
  obtain ⟨dirs', h8, k4⟩ := Res.bind_eq_ok.1 k3
  cases ofOption_eq_ok.1 h8
  rw [Reader.readArray_more h7, Res.ok_bind]
  dsimp only
  rw [Res.ofOption_some, Res.ok_bind]
  obtain ⟨⟨secs, r5⟩, h9, k5⟩ := Res.bind_eq_ok.1 k4
  dsimp only at k5
  obtain ⟨secs', h10, k6⟩ := Res.bind_eq_ok.1 k5
  cases ofOption_eq_ok.1 h10
  rw [Reader.readArray_more h9, Res.ok_bind]
  exact k6

theorem readCliHeader_more {d t : Bytes} {info : PeInfo} {c : CliHeader} (h : readCliHeader cfg d info = .ok c) :
    readCliHeader cfg (d ++ t) info = .ok c := by
  unfold readCliHeader at h ⊢
  obtain ⟨dir, h1, h⟩ := Res.bind_eq_ok.1 h
  obtain ⟨off, h2, h⟩ := Res.bind_eq_ok.1 h
  obtain ⟨x, h3, h⟩ := Res.bind_eq_ok.1 h
  obtain ⟨⟨b, r⟩, h4, h⟩ := Res.bind_eq_ok.1 h
  rw [h1, Res.ok_bind, h2, Res.ok_bind, sliceFrom_more h3, Res.ok_bind]
  dsimp only at h
  cases b with
  | none => cases h
  | some b => rw [show Reader.new (x ++ t) = (Reader.new x).more t from rfl, Reader.read_more h4]; exact h

theorem metadataSlice_more {d t x : Bytes} {info : PeInfo} {c : CliHeader} (h : metadataSlice cfg d info c = .ok x) :
    metadataSlice cfg (d ++ t) info c = .ok x := by
  unfold metadataSlice at h ⊢
  obtain ⟨off, h2, h⟩ := Res.bind_eq_ok.1 h
  obtain ⟨e, h3, h⟩ := Res.bind_eq_ok.1 h
  rw [h2, Res.ok_bind, h3, Res.ok_bind, slice_more h]

/-! ## Metadata of another file -/

/-- The same metadata found in another file. -/
def Metadata.from (m : Metadata) (d : Bytes) (i : PeInfo) : Metadata := { m with peData := d, peInfo := i }

/-- The part of `readMetadata` after the metadata has been located. -/
def metadataIn (cfg : Cfg) (data : Bytes) (info : PeInfo) (cli : CliHeader) (metadata : Bytes) : Res Metadata := do
  let s ← readMetadataRoot cfg metadata
  let strings ← Res.unwrap s.strings
  let strings ← streamBytes cfg metadata strings
  let userStrings ← userStringBytes cfg metadata s.userStrings
  let blob ← Res.unwrap s.blob
  let blob ← streamBytes cfg metadata blob
  let guid ← Res.unwrap s.guid
  let guid ← streamBytes cfg metadata guid
  let tables ← Res.unwrap s.tables
  let tables ← streamBytes cfg metadata tables
  let tables ← readTableStream cfg tables
  let entryPoint ← entryPointHandle cfg cli
  pure { peData := data, peInfo := info, cliHeader := cli, metadata, stringsHeap := StringsHeap.new strings,
         userStringData := userStrings, blobHeap := blob, guidHeap := guid, tables, entryPoint }

theorem readMetadata_parts (data : Bytes) : readMetadata cfg data = (do
    let info ← parsePe cfg data
    let cli ← readCliHeader cfg data info
    let metadata ← metadataSlice cfg data info cli
    metadataIn cfg data info cli metadata) := rfl

theorem Res.bind_congr_map {x : Res α} {f : α → Res β} {g : β → β} {f' : α → Res β} (h : ∀ a, f' a = (f a).bind fun b => .ok (g b)) :
    (x >>= f') = (x >>= f).bind fun b => .ok (g b) := by
  cases x <;> first | rfl | exact h _

theorem metadataIn_from (d d' : Bytes) (i i' : PeInfo) (c : CliHeader) (x : Bytes) :
    metadataIn cfg d' i' c x = (metadataIn cfg d i c x).bind fun m => .ok (m.from d' i') := by
  unfold metadataIn
  refine Res.bind_congr_map fun _ => Res.bind_congr_map fun _ => Res.bind_congr_map fun _ => Res.bind_congr_map fun _ => ?_
  refine Res.bind_congr_map fun _ => Res.bind_congr_map fun _ => Res.bind_congr_map fun _ => Res.bind_congr_map fun _ => ?_
  exact Res.bind_congr_map fun _ => Res.bind_congr_map fun _ => Res.bind_congr_map fun _ => Res.bind_congr_map fun _ => rfl

theorem readMetadata_more {d t : Bytes} {m : Metadata} (h : readMetadata cfg d = .ok m) :
    readMetadata cfg (d ++ t) = .ok (m.from (d ++ t) m.peInfo) ∧ m.peData = d := by
  rw [readMetadata_parts] at h ⊢
  obtain ⟨i, h1, h⟩ := Res.bind_eq_ok.1 h
  obtain ⟨c, h2, h⟩ := Res.bind_eq_ok.1 h
  obtain ⟨x, h3, h⟩ := Res.bind_eq_ok.1 h
  rw [parsePe_more h1, Res.ok_bind, readCliHeader_more h2, Res.ok_bind, metadataSlice_more h3, Res.ok_bind,
    metadataIn_from d (d ++ t) i i, h]
  have : m.peInfo = i ∧ m.peData = d := by
    unfold metadataIn at h
    repeat (obtain ⟨_, _, h⟩ := Res.bind_eq_ok.1 h)
    cases h
    exact ⟨rfl, rfl⟩
  rw [this.1]
  exact ⟨rfl, this.2⟩

/-! ## Loading from another file -/

/-- The outcomes that are compared: successful ones, or all. -/
def Res.Fine (all : Bool) : Res α → Prop
  | .ok _ => True
  | _ => all = true

/-- `y` does what `x` does, if that is a compared outcome. -/
def M.Follows (all : Bool) (x y : M α) : Prop := ∀ w, (x w).1.Fine all → y w = x w

namespace M.Follows

variable {all : Bool}

theorem refl (x : M α) : Follows all x x := fun _ _ => rfl

theorem of_eq {x y : M α} (h : y = x) : Follows all x y := fun _ _ => by rw [h]

theorem bind {x y : M α} {f g : α → M β} (h : Follows all x y) (h' : ∀ a, Follows all (f a) (g a)) : Follows all (x >>= f) (y >>= g) := by
  intro v hv
  rw [M.bind_run] at hv ⊢
  rw [M.bind_run]
  rcases hx : x v with ⟨r, v1⟩
  rw [hx] at hv
  cases r with
  | ok a =>
    rw [h v (by rw [hx]; trivial), hx]
    exact h' a v1 hv
  | _ => rw [h v (by rw [hx]; exact hv), hx]

variable {m : Metadata} {d : Bytes} {i : PeInfo}

theorem typeFor : ∀ e : ElementType, typeFor cfg (m.from d i) e = Clr.typeFor cfg m e
  | .szArray e => by simp only [Clr.typeFor, typeFor e]
  | .pointer _ | .reference _ | .valueType _ | .class _ | .typeGenericParam _ | .array _ _ | .generic _ _ | .typedReference | .intPtr
  | .uintPtr | .fnPtr | .object | .methodGenericParam _ | .varargSentinel => rfl
  | .void | .bool | .char | .sbyte | .byte | .short | .ushort | .int | .uint | .long | .ulong | .float | .double | .string => rfl

theorem loadMemberRefs (rows : List MemberRefRow) : loadMemberRefs cfg (m.from d i) rows = Clr.loadMemberRefs cfg m rows := by
  induction rows with
  | nil => rfl
  | cons row rows ih => simp only [Clr.loadMemberRefs, ih]; rfl

theorem loadTypeRefs (rows : List TypeRefRow) : loadTypeRefs (m.from d i) rows = Clr.loadTypeRefs m rows := by
  induction rows with
  | nil => rfl
  | cons row rows ih => simp only [Clr.loadTypeRefs, ih]; rfl

theorem loadTypes (a n : Nat) : ∀ k, loadTypes cfg a (m.from d i) n k = Clr.loadTypes cfg a m n k := by
  induction n with
  | zero => exact fun _ => rfl
  | succ n ih => intro k; simp only [Clr.loadTypes, ih]; rfl

theorem loadInterfaces (rows : List InterfaceImplRow) : loadInterfaces cfg (m.from d i) rows = Clr.loadInterfaces cfg m rows := by
  induction rows with
  | nil => rfl
  | cons row rows ih => simp only [Clr.loadInterfaces, ih]; rfl

theorem loadParams (es : List ElementType) : ∀ k, loadParams cfg (m.from d i) es k = Clr.loadParams cfg m es k := by
  induction es with
  | nil => exact fun _ => rfl
  | cons e es ih => intro k; simp only [Clr.loadParams, ih, typeFor]; rfl

theorem paramNames (es : List ElementType) : paramNames cfg (m.from d i) es = Clr.paramNames cfg m es := by
  induction es with
  | nil => rfl
  | cons e es ih => simp only [Clr.paramNames, ih, typeFor]

theorem loadField (t k o : Nat) : loadField cfg (m.from d i) t k o = Clr.loadField cfg m t k o := by
  simp only [Clr.loadField, typeFor]; rfl

theorem loadFields (fuel t n : Nat) : ∀ k o, loadFields cfg fuel (m.from d i) t n k o = Clr.loadFields cfg fuel m t n k o := by
  induction n with
  | zero => exact fun _ _ => rfl
  | succ n ih => intro k o; simp only [Clr.loadFields, ih, loadField]

theorem resolveFields (fuel t k : Nat) : resolveFields cfg fuel (m.from d i) t k = Clr.resolveFields cfg fuel m t k := by
  simp only [Clr.resolveFields, loadFields]; rfl

theorem readLocalTypes (n : Nat) : ∀ r, readLocalTypes cfg (m.from d i) n r = Clr.readLocalTypes cfg m n r := by
  induction n with
  | zero => exact fun _ => rfl
  | succ n ih => intro r; simp only [Clr.readLocalTypes, ih, typeFor]

theorem readLocals (t : Token) : readLocals cfg (m.from d i) t = Clr.readLocals cfg m t := by
  simp only [Clr.readLocals, readLocalTypes]; rfl

theorem loadImpl (hb : ∀ rva, Follows all (loadBody cfg m rva) (loadBody cfg (m.from d i) rva)) (t : Nat) (row : MethodDefRow)
    (name : Name) (sig : MethodSig) : Follows all (loadImpl cfg m t row name sig) (Clr.loadImpl cfg (m.from d i) t row name sig) := by
  unfold Clr.loadImpl
  split
  · exact .of_eq (by simp only [paramNames, typeFor])
  · split
    · exact .refl _
    · split
      · exact .refl _
      · exact .bind (hb _) fun _ => .refl _

theorem loadMethod (hb : ∀ rva, Follows all (loadBody cfg m rva) (loadBody cfg (m.from d i) rva)) (t k : Nat) :
    Follows all (loadMethod cfg m t k) (Clr.loadMethod cfg (m.from d i) t k) := by
  unfold Clr.loadMethod
  refine .bind (.refl _) fun _ => .bind (.refl _) fun _ => .bind (.refl _) fun _ => .bind (.refl _) fun _ => ?_
  refine .bind (loadImpl hb _ _ _ _) fun _ => .bind (.of_eq (typeFor _)) fun _ => .bind (.of_eq (loadParams _ _)) fun _ => .refl _

theorem loadMethods (hb : ∀ rva, Follows all (loadBody cfg m rva) (loadBody cfg (m.from d i) rva)) (t n : Nat) :
    ∀ k, Follows all (loadMethods cfg m t n k) (Clr.loadMethods cfg (m.from d i) t n k) := by
  induction n with
  | zero => exact fun _ => .refl _
  | succ n ih => exact fun k => .bind (loadMethod hb _ _) fun _ => .bind (.refl _) fun _ => ih _

theorem resolveType (hb : ∀ rva, Follows all (loadBody cfg m rva) (loadBody cfg (m.from d i) rva)) (fuel t k : Nat) :
    Follows all (resolveType cfg fuel m t k) (Clr.resolveType cfg fuel (m.from d i) t k) := by
  unfold Clr.resolveType
  refine .bind (.refl _) fun _ => .bind (.refl _) fun _ => .bind (.of_eq (resolveFields _ _ _)) fun _ => .bind ?_ fun _ => .refl _
  unfold resolveMethods
  exact .bind (.refl _) fun _ => .bind (.refl _) fun _ => .bind (.refl _) fun _ => loadMethods hb _ _ _

theorem resolveTypes (hb : ∀ rva, Follows all (loadBody cfg m rva) (loadBody cfg (m.from d i) rva)) (fuel : Nat) (ts : List Nat) :
    ∀ k, Follows all (resolveTypes cfg fuel m ts k) (Clr.resolveTypes cfg fuel (m.from d i) ts k) := by
  induction ts with
  | nil => exact fun _ => .refl _
  | cons t ts ih => exact fun k => .bind (resolveType hb _ _ _) fun _ => .bind (ih _) fun _ => .refl _

theorem loadSelf (hb : ∀ rva, Follows all (loadBody cfg m rva) (loadBody cfg (m.from d i) rva)) (fuel : Nat) (name : Name) :
    Follows all (loadSelf cfg fuel m name) (Clr.loadSelf cfg fuel (m.from d i) name) := by
  unfold Clr.loadSelf
  refine .bind (.of_eq (loadMemberRefs _)) fun _ => .bind (.of_eq (loadTypeRefs _)) fun _ => .bind (.refl _) fun _ => ?_
  refine .bind (.refl _) fun _ => .bind (.of_eq (loadTypes _ _ _)) fun _ => .bind (resolveTypes hb _ _ _) fun _ => ?_
  exact .bind (.of_eq (loadInterfaces _)) fun _ => .refl _

theorem loadRefs {load load' : Name → M AssemblyRec} (h : ∀ n, Follows all (load n) (load' n)) (rows : List AssemblyRefRow) :
    Follows all (loadRefs load m rows) (Clr.loadRefs load' (m.from d i) rows) := by
  induction rows with
  | nil => exact .refl _
  | cons row rows ih =>
    unfold Clr.loadRefs
    refine .bind (.refl _) fun _ => .bind (.refl _) fun _ => .bind (.refl _) fun b => ?_
    split
    · exact ih
    · exact .bind (h _) fun _ => ih

end M.Follows

/-! ## Method bodies in a longer file -/

theorem bodyU_more {r r' : Reader} {t : Bytes} {w x : Nat} (h : bodyU cfg r w = .ok (x, r')) :
    bodyU cfg (r.more t) w = .ok (x, r'.more t) := by
  unfold bodyU at h ⊢
  obtain ⟨⟨o, r1⟩, h1, k⟩ := Res.bind_eq_ok.1 h
  dsimp only at k
  obtain ⟨x', h2, k1⟩ := Res.bind_eq_ok.1 k
  cases ofOption_eq_ok.1 h2
  cases k1
  rw [Reader.readU_more h1]
  rfl

theorem bodyBytes_more {r r' : Reader} {t x : Bytes} {n : Nat} (h : bodyBytes cfg r n = .ok (x, r')) :
    bodyBytes cfg (r.more t) n = .ok (x, r'.more t) := by
  unfold bodyBytes at h ⊢
  obtain ⟨⟨o, r1⟩, h1, k⟩ := Res.bind_eq_ok.1 h
  dsimp only at k
  obtain ⟨x', h2, k1⟩ := Res.bind_eq_ok.1 k
  cases ofOption_eq_ok.1 h2
  cases k1
  rw [Reader.readArray_more h1]
  rfl

/-- `y` succeeds as `x` does, with a reader of the longer data. -/
def M.Tracks (t : Bytes) (x y : M (α × Reader)) : Prop := ∀ w a r w', x w = (.ok (a, r), w') → y w = (.ok (a, r.more t), w')

theorem M.Tracks.bind {t : Bytes} {x y : M (α × Reader)} {f g : α × Reader → M (β × Reader)} (h : M.Tracks t x y)
    (h' : ∀ a r, M.Tracks t (f (a, r)) (g (a, r.more t))) : M.Tracks t (x >>= f) (y >>= g) := by
  intro w b r w' e
  obtain ⟨⟨a, r1⟩, w1, e1, e2⟩ := M.bind_eq_ok.1 e
  rw [M.bind_ok (h _ _ _ _ e1)]
  exact h' _ _ _ _ _ _ e2

theorem M.Tracks.same {t : Bytes} {x : M α} {f g : α → M (β × Reader)} (h' : ∀ a, M.Tracks t (f a) (g a)) :
    M.Tracks t (x >>= f) (x >>= g) := by
  intro w b r w' e
  obtain ⟨a, w1, e1, e2⟩ := M.bind_eq_ok.1 e
  rw [M.bind_ok e1]
  exact h' _ _ _ _ _ e2

theorem M.Tracks.bodyU {t : Bytes} {r : Reader} {n : Nat} : M.Tracks t (liftM (bodyU cfg r n)) (liftM (bodyU cfg (r.more t) n)) := by
  intro w a r' w' e
  rw [M.liftM_run] at e ⊢
  cases hx : Clr.bodyU cfg r n with
  | ok p => rw [hx] at e; cases e; rw [bodyU_more hx]
  | _ => rw [hx] at e; cases e

theorem M.Tracks.bodyBytes {t : Bytes} {r : Reader} {n : Nat} :
    M.Tracks t (liftM (bodyBytes cfg r n)) (liftM (bodyBytes cfg (r.more t) n)) := by
  intro w a r' w' e
  rw [M.liftM_run] at e ⊢
  cases hx : Clr.bodyBytes cfg r n with
  | ok p => rw [hx] at e; cases e; rw [bodyBytes_more hx]
  | _ => rw [hx] at e; cases e

theorem M.Tracks.pure {t : Bytes} {a : α} {r : Reader} : M.Tracks t (pure (a, r)) (pure (a, r.more t)) := by
  intro w b r' w' e
  cases e
  rfl

theorem M.Tracks.follows {t : Bytes} {x y : M (α × Reader)} {f g : α × Reader → M β} (h : M.Tracks t x y)
    (h' : ∀ a r, M.Follows false (f (a, r)) (g (a, r.more t))) : M.Follows false (x >>= f) (y >>= g) := by
  intro w hw
  rcases e : (x >>= f) w with ⟨z, w'⟩
  rw [e] at hw
  cases z with
  | ok b =>
    obtain ⟨⟨a, r1⟩, w1, e1, e2⟩ := M.bind_eq_ok.1 e
    rw [M.bind_ok (h _ _ _ _ e1), h' _ _ _ (by rw [e2]; trivial), e2]
  | _ => cases hw

variable {m : Metadata} {t d : Bytes} {i : PeInfo}

theorem readFatClause_more (r : Reader) : M.Tracks t (readFatClause cfg m r) (readFatClause cfg (m.from d i) (r.more t)) :=
  .bind .bodyU fun _ _ => .same fun _ => .bind .bodyU fun _ _ => .bind .bodyU fun _ _ => .bind .bodyU fun _ _ =>
    .bind .bodyU fun _ _ => .bind .bodyU fun _ _ => .same fun _ => .pure

theorem readSmallClause_more (r : Reader) : M.Tracks t (readSmallClause cfg m r) (readSmallClause cfg (m.from d i) (r.more t)) :=
  .bind .bodyU fun _ _ => .same fun _ => .bind .bodyU fun _ _ => .bind .bodyU fun _ _ => .bind .bodyU fun _ _ =>
    .bind .bodyU fun _ _ => .bind .bodyU fun _ _ => .same fun _ => .pure

theorem readClauses_more {f g : Reader → M (ExceptionClause × Reader)} (h : ∀ r, M.Tracks t (f r) (g (r.more t))) (n : Nat) :
    ∀ r, M.Follows false (readClauses f n r) (readClauses g n (r.more t)) := by
  induction n with
  | zero => exact fun _ => .refl _
  | succ n ih => exact fun r => (h r).follows fun _ r' => .bind (ih r') fun _ => .refl _

theorem advance_follows {r : Reader} {n : Nat} {f g : Bool × Reader → M β}
    (h' : ∀ a a' r, M.Follows false (f (a, r)) (g (a', r.more t))) :
    M.Follows false ((liftM (r.advance cfg n) : M _) >>= f) ((liftM ((r.more t).advance cfg n) : M _) >>= g) := by
  intro w hw
  rw [M.bind_run, M.liftM_run] at hw ⊢
  rw [M.bind_run, M.liftM_run]
  cases hx : r.advance cfg n with
  | ok p =>
    obtain ⟨b, r'⟩ := p
    obtain ⟨b', e⟩ := Reader.advance_more (t := t) hx
    rw [hx] at hw
    rw [e]
    exact h' _ _ _ _ hw
  | _ => rw [hx] at hw; cases hw

theorem readClauseSection_more (r : Reader) :
    M.Follows false (readClauseSection cfg m r) (readClauseSection cfg (m.from d i) (r.more t)) := by
  unfold readClauseSection
  refine M.Tracks.follows (t := t) (.bodyU) fun next r1 => ?_
  dsimp only
  split
  · exact .refl _
  · refine M.Tracks.follows (t := t) (.bodyU) fun size r2 => ?_
    dsimp only
    split
    · exact M.Tracks.follows (t := t) (.bodyU) fun high r3 => readClauses_more (readFatClause_more) _ _
    · exact advance_follows fun _ _ r3 => readClauses_more (readSmallClause_more) _ _

theorem loadBody_more (rva : Nat) : M.Follows false (loadBody cfg m rva) (loadBody cfg (m.from (m.peData ++ t) m.peInfo) rva) := by
  unfold loadBody
  refine .bind (.refl _) fun off => ?_
  have hs : ∀ {f g : Bytes → M MethodBody}, (∀ x, M.Follows false (f x) (g (x ++ t))) →
      M.Follows false ((liftM (sliceFrom m.peData off) : M _) >>= f) ((liftM (sliceFrom (m.peData ++ t) off) : M _) >>= g) := by
    intro f g h w hw
    rw [M.bind_run, M.liftM_run] at hw ⊢
    rw [M.bind_run, M.liftM_run]
    cases hx : sliceFrom m.peData off with
    | ok p => rw [hx] at hw; rw [sliceFrom_more hx]; exact h _ _ hw
    | _ => rw [hx] at hw; cases hw
  refine hs fun x => ?_
  refine M.Tracks.follows (t := t) (x := liftM (bodyU cfg (Reader.new x) 1)) .bodyU fun b r => ?_
  dsimp only
  split
  · exact M.Tracks.follows (t := t) .bodyBytes fun _ _ => .refl _
  · split
    · refine advance_follows fun _ _ r => ?_
      refine M.Tracks.follows (t := t) .bodyU fun _ r => M.Tracks.follows (t := t) .bodyU fun _ r => ?_
      refine M.Tracks.follows (t := t) .bodyU fun _ r => ?_
      refine .bind (.of_eq (M.Follows.readLocals _)) fun _ => M.Tracks.follows (t := t) .bodyBytes fun _ r => ?_
      refine .bind ?_ fun _ => .refl _
      unfold readMoreSections
      split
      · exact readClauseSection_more _
      · exact .refl _
    · exact .refl _

/-! ## Whole loads -/

/-- Each file of the second file system is that of the first, perhaps with further bytes at the end. -/
def Extended (fs fs' : Name → Option Bytes) : Prop := ∀ n d, fs n = some d → ∃ t, fs' n = some (d ++ t)

theorem loadData_more {fs fs' : Name → Option Bytes} (hf : Extended fs fs') (fuel depth : Nat) : ∀ d t,
    M.Follows false (loadData cfg fs depth fuel d) (loadData cfg fs' depth fuel (d ++ t)) := by
  induction depth with
  | zero => exact fun _ _ => .refl _
  | succ depth ih =>
    intro d t
    unfold loadData
    intro w hw
    rw [M.bind_run, M.liftM_run] at hw ⊢
    rw [M.bind_run, M.liftM_run]
    cases hm : readMetadata cfg d with
    | ok m =>
      rw [hm] at hw
      obtain ⟨e1, e2⟩ := readMetadata_more (t := t) hm
      subst e2
      rw [e1]
      refine M.Follows.bind (.refl _) (fun _ => .bind (.refl _) fun _ => ?_) w hw
      refine .bind (.loadRefs (fun n => ?_) _) fun _ => .loadSelf loadBody_more _ _
      cases hn : fs n with
      | none => intro w h; cases h
      | some d =>
        obtain ⟨t', ht⟩ := hf n d hn
        rw [ht]
        exact ih d t'
    | _ => rw [hm] at hw; cases hw

/-! ## Other headers -/

/-- Both addresses resolve, to the same place relative to `b` and `b'`, or neither does. -/
def SameOffset (b b' : Nat) : Res Nat → Res Nat → Prop
  | .ok x, .ok y => (b ≤ x ∧ x < 2 ^ 32) ∧ (b' ≤ y ∧ y < 2 ^ 32) ∧ y - b' = x - b
  | .err m, .err m' => m' = m
  | _, _ => False

open Spec in
theorem resolveRva_same {b b' : Nat} (rva : Nat) : ∀ {ss ss' : List Section}, (∀ s ∈ ss, b ≤ s.rawPointer ∧ s.NoWrap) →
    (∀ s ∈ ss', b' ≤ s.rawPointer ∧ s.NoWrap) → ss'.map (Section.place b') = ss.map (Section.place b) →
    SameOffset b b' (resolveRva cfg rva (ss.map fun s => ⟨s.name, s.virtualSize, s.virtualAddress, s.rawSize, s.rawPointer,
        s.relocPointer, s.linePointer, s.relocCount, s.lineCount, s.flags⟩))
      (resolveRva cfg rva (ss'.map fun s => ⟨s.name, s.virtualSize, s.virtualAddress, s.rawSize, s.rawPointer,
        s.relocPointer, s.linePointer, s.relocCount, s.lineCount, s.flags⟩)) := by
  intro ss
  induction ss with
  | nil =>
    intro ss' _ _ h
    cases ss' with
    | nil => rfl
    | cons _ _ => cases h
  | cons s ss ih =>
    intro ss' h1 h2 h
    cases ss' with
    | nil => cases h
    | cons s' ss' =>
      rw [List.map_cons, List.map_cons, List.cons.injEq] at h
      obtain ⟨he, ht⟩ := h
      have ih' := ih (fun u hu => h1 u (by simp [hu])) (fun u hu => h2 u (by simp [hu])) ht
      obtain ⟨p1, q1, q2⟩ := h1 s (by simp)
      obtain ⟨p2, q3, q4⟩ := h2 s' (by simp)
      simp only [Section.place, Prod.mk.injEq] at he
      obtain ⟨e1, e2, e3⟩ := he
      simp only [List.map_cons, resolveRva]
      by_cases c1 : rva ≥ s.virtualAddress
      · rw [if_pos c1, if_pos (by omega), uadd_ok q1, uadd_ok q3]
        simp only [Res.ok_bind]
        by_cases c2 : rva < s.virtualAddress + s.rawSize
        · rw [if_pos c2, if_pos (by omega), usub_ok c1, usub_ok (by omega)]
          simp only [Res.ok_bind]
          rw [uadd_ok (by omega), uadd_ok (by omega)]
          exact ⟨by omega, by omega, by omega⟩
        · rw [if_neg c2, if_neg (by omega)]
          exact ih'
      · rw [if_neg c1, if_neg (by omega)]
        exact ih'

theorem drop_same {d d' : Bytes} {b b' x y : Nat} (hc : d'.drop b' = d.drop b) (h1 : b ≤ x) (h2 : b' ≤ y) (h : y - b' = x - b) :
    d'.drop y = d.drop x := by
  rw [show y = b' + (y - b') by omega, show x = b + (x - b) by omega, ← List.drop_drop, ← List.drop_drop, hc, h]

section
open Spec
variable {data data' : Bytes} {j j' : Image} {b b' : Nat}

theorem _root_.Clr.Spec.SameContents.lengths (h : SameContents data data' j j' b b') : data'.length - b' = data.length - b := by
  have := congrArg List.length h.contents
  simpa using this

theorem sliceFrom_same (h : SameContents data data' j j' b b') {x y : Nat} (h1 : b ≤ x) (h2 : b' ≤ y) (e : y - b' = x - b) :
    sliceFrom data' y = sliceFrom data x := by
  have hl := h.lengths
  have hs := h.start
  unfold sliceFrom
  by_cases c : x ≤ data.length
  · rw [if_pos c, if_pos (by omega), drop_same h.contents h1 h2 e]
  · rw [if_neg c, if_neg (by omega)]

theorem slice_same (h : SameContents data data' j j' b b') {x y n : Nat} (h1 : b ≤ x) (h2 : b' ≤ y) (e : y - b' = x - b) :
    slice data' y (y + n) = slice data x (x + n) := by
  have hl := h.lengths
  have hs := h.start
  unfold slice
  by_cases c : x ≤ x + n ∧ x + n ≤ data.length
  · rw [if_pos c, if_pos (by omega), drop_same h.contents h1 h2 e, show y + n - y = x + n - x by omega]
  · rw [if_neg c, if_neg (by omega)]

theorem resolveRva_images (h : SameContents data data' j j' b b') (rva : Nat) :
    SameOffset b b' (resolveRva cfg rva (infoOf j).sections) (resolveRva cfg rva (infoOf j').sections) :=
  resolveRva_same rva h.before.1 h.before.2 h.sections

theorem readCliHeader_same (h : SameContents data data' j j' b b') :
    readCliHeader cfg data' (infoOf j') = readCliHeader cfg data (infoOf j) := by
  unfold readCliHeader
  have hd : (infoOf j').dataDirectories[14]?.map (·.rva) = (infoOf j).dataDirectories[14]?.map (·.rva) := by
    have := h.cli
    simp only [infoOf, List.getElem?_map, Option.map_map] at this ⊢
    exact this
  cases e1 : (infoOf j).dataDirectories[14]? with
  | none =>
    cases e2 : (infoOf j').dataDirectories[14]? with
    | none => rfl
    | some y => rw [e1, e2] at hd; cases hd
  | some x =>
    cases e2 : (infoOf j').dataDirectories[14]? with
    | none => rw [e1, e2] at hd; cases hd
    | some y =>
      rw [e1, e2] at hd
      simp only [Option.map_some, Option.some.injEq] at hd
      simp only [Res.ofOption_some, Res.ok_bind]
      rw [hd]
      have hr := resolveRva_images (cfg := cfg) h x.rva
      cases f1 : resolveRva cfg x.rva (infoOf j).sections <;> cases f2 : resolveRva cfg x.rva (infoOf j').sections <;>
        rw [f1, f2] at hr <;> try (first | exact hr.elim | rfl)
      · obtain ⟨p, q, r⟩ := hr
        simp only [Res.mapErr_ok, Res.ok_bind]
        rw [sliceFrom_same h p.1 q.1 r]

theorem metadataSlice_same (h : SameContents data data' j j' b b') (c : CliHeader) (hm : c.metadata.size < 2 ^ 32) :
    metadataSlice cfg data' (infoOf j') c = metadataSlice cfg data (infoOf j) c := by
  unfold metadataSlice
  have hr := resolveRva_images (cfg := cfg) h c.metadata.rva
  cases f1 : resolveRva cfg c.metadata.rva (infoOf j).sections <;> cases f2 : resolveRva cfg c.metadata.rva (infoOf j').sections <;>
    rw [f1, f2] at hr <;> try (first | exact hr.elim | rfl)
  · obtain ⟨p, q, r⟩ := hr
    simp only [Res.mapErr_ok, Res.ok_bind]
    rw [uadd_ok (by omega), uadd_ok (by omega)]
    exact slice_same h p.1 q.1 r

theorem metadata_size_lt {d : Bytes} {info : PeInfo} {c : CliHeader} (h : readCliHeader cfg d info = .ok c) : c.metadata.size < 2 ^ 32 := by
  unfold readCliHeader at h
  obtain ⟨x, -, k1⟩ := Res.bind_eq_ok.1 h
  obtain ⟨y, -, k2⟩ := Res.bind_eq_ok.1 k1
  obtain ⟨z, -, k3⟩ := Res.bind_eq_ok.1 k2
  obtain ⟨⟨o, r⟩, -, k4⟩ := Res.bind_eq_ok.1 k3
  cases o with
  | none => cases k4
  | some bs =>
    cases k4
    exact leNat_take_lt _ 4

theorem readMetadata_same {off off' : Nat} (h : SameContents data data' j j' b b') (hf : IsPeFile data off j)
    (hf' : IsPeFile data' off' j') (hj : j.Legal) (hj' : j'.Legal) (hl : data.length < 2 ^ 63) (hl' : data'.length < 2 ^ 63) :
    readMetadata cfg data' = (readMetadata cfg data).bind fun m => .ok (m.from data' (infoOf j')) := by
  rw [readMetadata_parts, readMetadata_parts, parsePe_enc cfg data off j hl hj hf, parsePe_enc cfg data' off' j' hl' hj' hf']
  simp only [Res.ok_bind]
  rw [readCliHeader_same h]
  cases hc : readCliHeader cfg data (infoOf j) with
  | ok c =>
    simp only [Res.ok_bind]
    rw [metadataSlice_same h c (metadata_size_lt hc)]
    cases hx : metadataSlice cfg data (infoOf j) c with
    | ok x => exact metadataIn_from ..
    | _ => rfl
  | _ => rfl

/-- `loadBody` after the bytes have been found. -/
def bodyIn (cfg : Cfg) (m : Metadata) (d : Bytes) : M MethodBody := do
  let r := Reader.new d
  let (b, r) ← bodyU cfg r 1
  if b &&& 0x3 = 0x2 then do
    let (code, _) ← bodyBytes cfg r ((b &&& 0xfc) >>> 2)
    pure { code, maxStack := 8, locals := [], initLocals := decide (b &&& 0x10 = 0x10), clauses := [] }
  else if b &&& 0x3 = 0x3 then do
    let (_, r) ← r.advance cfg 1
    let (maxStack, r) ← bodyU cfg r 2
    let (codeSize, r) ← bodyU cfg r 4
    let (token, r) ← bodyU cfg r 4
    let locals ← readLocals cfg m ⟨token⟩
    let (code, r) ← bodyBytes cfg r codeSize
    let clauses ← readMoreSections cfg m b r
    pure { code, maxStack, locals, initLocals := decide (b &&& 0x10 = 0x10), clauses }
  else M.lift (.err "Invalid method body")

theorem bodyIn_from (m : Metadata) (d x : Bytes) (i : PeInfo) : bodyIn cfg (m.from d i) x = bodyIn cfg m x := by
  unfold bodyIn
  simp only [M.Follows.readLocals]
  rfl

theorem loadBody_parts (m : Metadata) (rva : Nat) : loadBody cfg m rva =
    ((liftM (Res.mapErr (fun _ => "Cannot find method body") (resolveRva cfg rva m.peInfo.sections)) : M Nat) >>= fun off =>
      (liftM (sliceFrom m.peData off) : M Bytes) >>= fun x => bodyIn cfg m x) := rfl

theorem loadBody_same (h : SameContents data data' j j' b b') {m : Metadata} (h1 : m.peData = data) (h2 : m.peInfo = infoOf j) (rva : Nat) :
    loadBody cfg (m.from data' (infoOf j')) rva = loadBody cfg m rva := by
  have hr := resolveRva_images (cfg := cfg) h rva
  simp only [loadBody_parts, bodyIn_from]
  rw [h1, h2]
  show ((liftM (Res.mapErr _ (resolveRva cfg rva (infoOf j').sections)) : M Nat) >>= fun off => (liftM (sliceFrom data' off) : M Bytes) >>= _) = _
  funext w
  rw [M.bind_run, M.bind_run, M.liftM_run, M.liftM_run]
  cases f1 : resolveRva cfg rva (infoOf j).sections <;> cases f2 : resolveRva cfg rva (infoOf j').sections <;>
    rw [f1, f2] at hr
  · obtain ⟨p, q, r⟩ := hr
    simp only [Res.mapErr_ok]
    rw [sliceFrom_same h p.1 q.1 r]
  all_goals first | exact hr.elim | rfl

theorem Res.fine (x : Res α) : x.Fine true := by
  cases x <;> trivial

theorem loadSelf_same (h : SameContents data data' j j' b b') {m : Metadata} (h1 : m.peData = data) (h2 : m.peInfo = infoOf j)
    (fuel : Nat) (name : Name) : loadSelf cfg fuel (m.from data' (infoOf j')) name = loadSelf cfg fuel m name := by
  funext w
  exact M.Follows.loadSelf (all := true) (fun rva => .of_eq (loadBody_same h h1 h2 rva)) fuel name w (Res.fine _)

theorem readMetadata_file {d : Bytes} {m : Metadata} {info : PeInfo} (hi : parsePe cfg d = .ok info) (h : readMetadata cfg d = .ok m) :
    m.peData = d ∧ m.peInfo = info := by
  rw [readMetadata_parts, hi] at h
  simp only [Res.ok_bind] at h
  obtain ⟨c, -, k1⟩ := Res.bind_eq_ok.1 h
  obtain ⟨x, -, k2⟩ := Res.bind_eq_ok.1 k1
  rw [metadataIn_from d d info info] at k2
  obtain ⟨m', -, k3⟩ := Res.bind_eq_ok.1 k2
  cases k3
  exact ⟨rfl, rfl⟩

theorem loadData_rehoused {fs fs' : Name → Option Bytes} (hf : SameFiles Rehoused fs fs') (fuel depth : Nat) : ∀ {d d'}, Rehoused d d' →
    loadData cfg fs' depth fuel d' = loadData cfg fs depth fuel d := by
  induction depth with
  | zero => intro d d' _; rw [loadData, loadData]
  | succ depth ih =>
    have hrec : (fun n => (liftM (Res.ofOption "Could not locate assembly" (fs' n)) : M Bytes) >>= fun d => loadData cfg fs' depth fuel d) =
        fun n => (liftM (Res.ofOption "Could not locate assembly" (fs n)) : M Bytes) >>= fun d => loadData cfg fs depth fuel d := by
      funext n
      rcases hf n with ⟨h1, h2⟩ | ⟨d, d', h1, h2, h3⟩
      · rw [h1, h2]
        funext w
        rw [M.bind_run, M.bind_run, M.liftM_run]
        simp only [Res.ofOption]
      · rw [h1, h2]
        funext w
        rw [M.bind_run, M.bind_run, M.liftM_run, M.liftM_run]
        simp only [Res.ofOption_some]
        rw [ih h3]
    intro d d' hd
    rw [loadData, loadData]
    rcases hd with rfl | ⟨off, off', j, j', b, b', p1, p2, l1, l2, s1, s2, h⟩
    · simp only [hrec]
    · funext w
      rw [M.bind_run, M.bind_run, M.liftM_run, M.liftM_run, readMetadata_same h p1 p2 l1 l2 s1 s2]
      cases hm : readMetadata cfg d with
      | ok m =>
        obtain ⟨e1, e2⟩ := readMetadata_file (parsePe_enc cfg d off j s1 l1 p1) hm
        refine M.Follows.bind (all := true) (.refl _) (fun _ => .bind (.refl _) fun _ => ?_) w (Res.fine _)
        refine .bind (.loadRefs (fun n => .of_eq (congrFun hrec n)) _) fun _ => .of_eq (loadSelf_same h e1 e2 _ _)
      | _ => rfl

end

end Clr
