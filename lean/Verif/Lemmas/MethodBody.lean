import Verif.Model.Loader
import Verif.Spec.MethodBody
import Verif.Spec.Names
import Verif.Lemmas.World
import Verif.Props.Pe
import Verif.Props.Signature
/-! # Decoding method bodies -/

namespace Clr
open Spec Reader

theorem bodyU_at (cfg : Cfg) {r : Reader} {w n : Nat} {t : Bytes} (hr : r.Ok) (hn : n < 256 ^ w)
    (h : r.rest = leBytes w n ++ t) : bodyU cfg r w = .ok (n, r.skip w) := by
  unfold bodyU
  rw [readU_at cfg hr hn h]
  rfl

theorem bodyU_byte (cfg : Cfg) {r : Reader} {b : UInt8} {t : Bytes} (hr : r.Ok)
    (h : r.rest = b :: t) : bodyU cfg r 1 = .ok (b.toNat, r.skip 1) := by
  apply bodyU_at cfg hr (t := t)
  · have := b.toNat_lt; omega
  · rw [h]; simp [leBytes, Nat.mod_eq_of_lt b.toNat_lt]

theorem skip_cons {r : Reader} {b : UInt8} {t : Bytes} (h : r.rest = b :: t) : (r.skip 1).rest = t := by
  rw [rest_skip, h]; rfl

theorem ok_cons {r : Reader} {b : UInt8} {t : Bytes} (hr : r.Ok) (h : r.rest = b :: t) : (r.skip 1).Ok :=
  hr.skip (by rw [h]; simp)

theorem bodyBytes_at (cfg : Cfg) {r : Reader} {code t : Bytes} (hr : r.Ok) (h : r.rest = code ++ t) :
    bodyBytes cfg r code.length = .ok (code, r.skip code.length) := by
  unfold bodyBytes
  have hl := length_rest r
  have h1 := hr.1
  have h2 := hr.2
  rw [h, List.length_append] at hl
  rw [readArray_eq cfg r _ _ (by omega), if_pos (by omega), h]
  simp

/-- A region of the file: address `rva` resolves, and `bytes` start there. -/
structure RegionAt (m : Metadata) (rva : Nat) (bytes : Bytes) : Prop where
  small : m.peData.length < 2 ^ 63
  place : ∃ (ss : List Section) (s : Section) (tail : Bytes),
    m.peInfo.sections = ss.map secOf ∧ (∀ s ∈ ss, s.NoWrap) ∧
    (∀ s ∈ ss, ∀ t ∈ ss, s.Contains rva → t.Contains rva → s = t) ∧ s ∈ ss ∧ s.Contains rva ∧
    s.rawPointer + (rva - s.virtualAddress) ≤ m.peData.length ∧
    m.peData.drop (s.rawPointer + (rva - s.virtualAddress)) = bytes ++ tail

/-- Where a body reader starts. -/
theorem RegionAt.start {m : Metadata} {rva : Nat} {bytes : Bytes} (h : RegionAt m rva bytes) (cfg : Cfg) :
    ∃ off d tail, resolveRva cfg rva m.peInfo.sections = .ok off ∧ sliceFrom m.peData off = .ok d ∧
      (Reader.new d).Ok ∧ (Reader.new d).rest = bytes ++ tail := by
  obtain ⟨ss, s, tail, hss, hw, hd, hs, hc, hin, hb⟩ := h.place
  refine ⟨_, _, tail, ?_, sliceFrom_ok hin, ?_, ?_⟩
  · rw [hss]; exact resolveRva_hit cfg ss rva hw hd s hs hc
  · apply Ok.new
    have := h.small
    simp only [List.length_drop]; omega
  · simpa [Reader.new, Reader.rest] using hb

theorem loadBody_start {m : Metadata} {rva : Nat} {b : UInt8} {bytes : Bytes} (h : RegionAt m rva (b :: bytes))
    (cfg : Cfg) (w : World) : ∃ (r : Reader) (tail : Bytes), r.Ok ∧ r.pos = 1 ∧ r.rest = bytes ++ tail ∧
      loadBody cfg m rva w = (do
        if b.toNat &&& 0x3 = 0x2 then do
          let (code, _) ← bodyBytes cfg r ((b.toNat &&& 0xfc) >>> 2)
          pure { code, maxStack := 8, locals := [], initLocals := decide (b.toNat &&& 0x10 = 0x10), clauses := [] }
        else if b.toNat &&& 0x3 = 0x3 then do
          let (_, r) ← r.advance cfg 1
          let (maxStack, r) ← bodyU cfg r 2
          let (codeSize, r) ← bodyU cfg r 4
          let (token, r) ← bodyU cfg r 4
          let locals ← readLocals cfg m ⟨token⟩
          let (code, r) ← bodyBytes cfg r codeSize
          let clauses ← readMoreSections cfg m b.toNat r
          pure { code, maxStack, locals, initLocals := decide (b.toNat &&& 0x10 = 0x10), clauses }
        else M.lift (.err "Invalid method body") : M MethodBody) w := by
  obtain ⟨off, d, tail, h1, h2, h3, h4⟩ := h.start cfg
  refine ⟨(Reader.new d).skip 1, tail, ok_cons h3 h4, rfl, skip_cons h4, ?_⟩
  unfold loadBody
  rw [M.liftM_bind_ok (by rw [h1]; rfl), M.liftM_bind_ok h2, M.liftM_bind_ok (bodyU_byte cfg h3 h4)]

/-! ### Exception clauses -/

/-- Two lists of the same length, related position by position. -/
inductive Each {α β : Type} (R : α → β → Prop) : List α → List β → Prop
  | nil : Each R [] []
  | cons {a : α} {b : β} {as : List α} {bs : List β} (h : R a b) (hs : Each R as bs) : Each R (a :: as) (b :: bs)

/-- The full name of the type row a `TypeDef` (0x02) or `TypeRef` (0x01) token names. -/
inductive RowName (m : Metadata) : Nat → Name → Prop
  | typeDef (k : Nat) (row : TypeDefRow) (n ns : Name) (hk : 1 ≤ k) (hk2 : k < 2 ^ 24)
      (hrow : m.tables.typeDef[k - 1]? = some row) (hn : m.string row.name = .ok (some n))
      (hns : m.string row.nspace = .ok (some ns)) : RowName m (2 * 2 ^ 24 + k) (qualified ns n)
  | typeRef (k : Nat) (row : TypeRefRow) (n ns : Name) (hk : 1 ≤ k) (hk2 : k < 2 ^ 24)
      (hrow : m.tables.typeRef[k - 1]? = some row) (hn : m.string row.name = .ok (some n))
      (hns : m.string row.nspace = .ok (some ns)) : RowName m (1 * 2 ^ 24 + k) (qualified ns n)

theorem fullName_eq (ns n : Name) : fullName ns n = qualified ns n := by
  unfold fullName qualified
  cases ns <;> simp

theorem tableIndex_at {α : Type} (cfg : Cfg) {rows : List α} {k : Nat} {row : α} (hk : 1 ≤ k)
    (h : rows[k - 1]? = some row) : tableIndex cfg rows k = .ok row := by
  unfold tableIndex
  rw [usub_ok hk]
  simp [h]

theorem token_table (tab k : Nat) (hk : k < 2 ^ 24) (ht : tab < 256) : (Token.mk (tab * 2 ^ 24 + k)).table = tab := by
  simp only [Token.table]
  rw [Nat.shiftRight_and_distrib]
  have : (tab * 2 ^ 24 + k) >>> 24 = tab := by rw [Nat.shiftRight_eq_div_pow]; omega
  rw [this]
  have : (0xff000000 : Nat) >>> 24 = 2 ^ 8 - 1 := by decide
  rw [this, Nat.and_two_pow_sub_one_eq_mod]; omega

theorem and_low24 (n : Nat) : n &&& 0xffffff = n % 2 ^ 24 := Nat.and_two_pow_sub_one_eq_mod n 24

theorem mod_low24 (tab k : Nat) (hk : k < 2 ^ 24) : (tab * 2 ^ 24 + k) % 2 ^ 24 = k := by
  rw [Nat.mul_comm, Nat.mul_add_mod, Nat.mod_eq_of_lt hk]

theorem Token.index_eq (n : Nat) : (Token.mk n).index = n % 2 ^ 24 := and_low24 n

theorem token_index (tab k : Nat) (hk : k < 2 ^ 24) : (Token.mk (tab * 2 ^ 24 + k)).index = k := by
  rw [Token.index_eq, mod_low24 _ _ hk]

theorem catchType_of (cfg : Cfg) {m : Metadata} {token : Token} {a b : Nat} {n ns : Name} {w : World} {t : Nat}
    (h : (token.table = 0x02 ∧ typeNameHandles cfg m (.typeDef token.index) = .ok (a, b)) ∨
      (token.table = 0x01 ∧ typeNameHandles cfg m (.typeRef token.index) = .ok (a, b)))
    (hn : m.string a = .ok (some n)) (hns : m.string b = .ok (some ns)) (ht : w.getType (qualified ns n) = some t) :
    catchType cfg m token w = (.ok t, w) := by
  have h3 : (if token.table = 0x02 then typeNameHandles cfg m (.typeDef token.index)
      else if token.table = 0x01 then typeNameHandles cfg m (.typeRef token.index)
      else .err "Invalid metadata token for catch type" : Res (Nat × Nat)) = .ok (a, b) := by
    rcases h with ⟨h1, h2⟩ | ⟨h1, h2⟩
    · rw [if_pos h1, h2]
    · rw [if_neg (by rw [h1]; decide), if_pos h1, h2]
  unfold catchType
  rw [M.liftM_bind_ok h3]
  dsimp only
  rw [M.liftM_bind_ok hn, M.liftM_bind_ok (by rfl), M.liftM_bind_ok hns, M.liftM_bind_ok (by rfl), M.view_run,
    fullName_eq, ht]
  rfl

theorem catchType_at (cfg : Cfg) {m : Metadata} {token : Nat} {n : Name} (h : RowName m token n) {w : World} {t : Nat}
    (ht : w.getType n = some t) : catchType cfg m ⟨token⟩ w = (.ok t, w) := by
  cases h with
  | typeDef k row n ns hk hk2 hrow hn hns =>
    have h1 := token_table 2 k hk2 (by decide)
    have h2 := token_index 2 k hk2
    generalize 2 * 2 ^ 24 + k = tok at h1 h2
    exact catchType_of cfg (.inl ⟨h1, by rw [h2]; simp [typeNameHandles, tableIndex_at cfg hk hrow]⟩) hn hns ht
  | typeRef k row n ns hk hk2 hrow hn hns =>
    have h1 := token_table 1 k hk2 (by decide)
    have h2 := token_index 1 k hk2
    generalize 1 * 2 ^ 24 + k = tok at h1 h2
    exact catchType_of cfg (.inr ⟨h1, by rw [h2]; simp [typeNameHandles, tableIndex_at cfg hk hrow]⟩) hn hns ht

/-- The kinds of clause, model and specification. -/
def kindMeans : ClauseKind → ClauseType
  | .typed => .catches
  | .filter => .filters
  | .finallyBlock => .finallys
  | .fault => .faults

/-- What a decoded clause must be: the same kind and ranges; the class named by the token for a typed clause; the
filter offset for a filter clause. -/
structure ClauseMeans (m : Metadata) (w : World) (c : Clause) (x : ExceptionClause) : Prop where
  kind : x.clauseType = kindMeans c.kind
  tryOffset : x.tryOffset = c.tryOffset
  tryLength : x.tryLength = c.tryLength
  handlerOffset : x.handlerOffset = c.handlerOffset
  handlerLength : x.handlerLength = c.handlerLength
  typed : if c.kind = .typed then ∃ n t, RowName m c.extra n ∧ w.getType n = some t ∧ x.catchType = some t
    else x.catchType = none
  filter : x.filterOffset = if c.kind = .filter then some c.extra else none

theorem newClause_means (cfg : Cfg) {m : Metadata} {w : World} {c : Clause} {x : ExceptionClause}
    (h : ClauseMeans m w c x) :
    newClause cfg m (kindMeans c.kind) c.tryOffset c.tryLength c.handlerOffset c.handlerLength c.extra w = (.ok x, w) := by
  obtain ⟨ck, a, b, d, e, ex⟩ := c
  obtain ⟨xk, xa, xb, xd, xe, xc, xf⟩ := x
  obtain ⟨h1, h2, h3, h4, h5, h6, h7⟩ := h
  simp only at h1 h2 h3 h4 h5 h6 h7
  subst h1 h2 h3 h4 h5 h7
  cases ck <;> simp at h6
  · obtain ⟨n, hr, t, ht, rfl⟩ := h6
    simp only [newClause, kindMeans]
    have h : (do let t ← catchType cfg m ⟨ex⟩; pure (some t) : M (Option Nat)) w = (.ok (some t), w) := by
      rw [M.bind_ok (catchType_at cfg hr ht)]; rfl
    rw [M.bind_ok h]
    rfl
  all_goals (subst h6; rfl)

theorem clauseTypeOf_code (k : ClauseKind) : clauseTypeOf k.code = .ok (kindMeans k) := by cases k <;> rfl

theorem readFatClause_at (cfg : Cfg) {m : Metadata} {w : World} {c : Clause} {x : ExceptionClause} (hc : c.FitsFat)
    (hx : ClauseMeans m w c x) {r : Reader} {t : Bytes} (hr : r.Ok) (h : r.rest = c.encFat ++ t) :
    readFatClause cfg m r w = (.ok (x, r.skip 24), w) := by
  obtain ⟨h1, h2, h3, h4, h5⟩ := hc
  simp only [Clause.encFat, List.append_assoc] at h
  unfold readFatClause
  have hk : c.kind.code < 256 ^ 4 := by cases c.kind <;> decide
  rw [M.liftM_bind_ok (bodyU_at cfg hr hk h)]
  have hr1 := ok_le hr h; have g1 := rest_le h; clear h hr
  dsimp only
  rw [M.liftM_bind_ok (clauseTypeOf_code _), M.liftM_bind_ok (bodyU_at cfg hr1 h1 g1)]
  have hr2 := ok_le hr1 g1; have g2 := rest_le g1; clear g1 hr1
  dsimp only
  rw [M.liftM_bind_ok (bodyU_at cfg hr2 h2 g2)]
  have hr3 := ok_le hr2 g2; have g3 := rest_le g2; clear g2 hr2
  dsimp only
  rw [M.liftM_bind_ok (bodyU_at cfg hr3 h3 g3)]
  have hr4 := ok_le hr3 g3; have g4 := rest_le g3; clear g3 hr3
  dsimp only
  rw [M.liftM_bind_ok (bodyU_at cfg hr4 h4 g4)]
  have hr5 := ok_le hr4 g4; have g5 := rest_le g4; clear g4 hr4
  dsimp only
  rw [M.liftM_bind_ok (bodyU_at cfg hr5 h5 g5)]
  dsimp only
  rw [M.bind_ok (newClause_means cfg hx)]
  rfl

theorem readSmallClause_at (cfg : Cfg) {m : Metadata} {w : World} {c : Clause} {x : ExceptionClause} (hc : c.FitsSmall)
    (hx : ClauseMeans m w c x) {r : Reader} {t : Bytes} (hr : r.Ok) (h : r.rest = c.encSmall ++ t) :
    readSmallClause cfg m r w = (.ok (x, r.skip 12), w) := by
  obtain ⟨h1, h2, h3, h4, h5⟩ := hc
  simp only [Clause.encSmall, List.append_assoc] at h
  unfold readSmallClause
  have hk : c.kind.code < 256 ^ 2 := by cases c.kind <;> decide
  rw [M.liftM_bind_ok (bodyU_at cfg hr hk h)]
  have hr1 := ok_le hr h; have g1 := rest_le h; clear h hr
  dsimp only
  rw [M.liftM_bind_ok (clauseTypeOf_code _), M.liftM_bind_ok (bodyU_at cfg hr1 h1 g1)]
  have hr2 := ok_le hr1 g1; have g2 := rest_le g1; clear g1 hr1
  dsimp only
  rw [M.liftM_bind_ok (bodyU_at cfg hr2 h2 g2)]
  have hr3 := ok_le hr2 g2; have g3 := rest_le g2; clear g2 hr2
  dsimp only
  rw [M.liftM_bind_ok (bodyU_at cfg hr3 h3 g3)]
  have hr4 := ok_le hr3 g3; have g4 := rest_le g3; clear g3 hr3
  dsimp only
  rw [M.liftM_bind_ok (bodyU_at cfg hr4 h4 g4)]
  have hr5 := ok_le hr4 g4; have g5 := rest_le g4; clear g4 hr4
  dsimp only
  rw [M.liftM_bind_ok (bodyU_at cfg hr5 h5 g5)]
  dsimp only
  rw [M.bind_ok (newClause_means cfg hx)]
  rfl

theorem readClauses_at {m : Metadata} {w : World} {f : Reader → M (ExceptionClause × Reader)} {enc : Clause → Bytes}
    {len : Nat} (hlen : ∀ c, (enc c).length = len) :
    ∀ {cs : List Clause} {xs : List ExceptionClause},
      (∀ c ∈ cs, ∀ x, ClauseMeans m w c x → ∀ (r : Reader) (t : Bytes), r.Ok → r.rest = enc c ++ t →
        f r w = (.ok (x, r.skip len), w)) →
      Each (ClauseMeans m w) cs xs → ∀ {r : Reader} {t : Bytes}, r.Ok → r.rest = (cs.map enc).flatten ++ t →
      readClauses f cs.length r w = (.ok xs, w)
  | [], _, _, .nil, _, _, _, _ => rfl
  | c :: cs, _, hf, .cons (b := x) (bs := xs) hx hxs, r, t, hr, h => by
    simp only [List.map_cons, List.flatten_cons, List.append_assoc] at h
    have hs := rest_at h
    have ho := ok_at hr h
    rw [hlen] at hs ho
    simp only [List.length_cons, readClauses]
    rw [M.bind_ok (hf c (by simp) x hx r _ hr h)]
    dsimp only
    rw [M.bind_ok (readClauses_at hlen (fun c' hc' => hf c' (by simp [hc'])) hxs ho hs)]
    rfl

theorem length_encFat (c : Clause) : c.encFat.length = 24 := by simp [Clause.encFat]
theorem length_encSmall (c : Clause) : c.encSmall.length = 12 := by simp [Clause.encSmall]

theorem skip_zero (r : Reader) : r.skip 0 = r := rfl

/-- The section decoder at a position that the padding brings to a multiple of four. -/
theorem readClauseSection_at (cfg : Cfg) {m : Metadata} {w : World} {s : Sections} (hs : s.Fits)
    (hp : s.present = true) {xs : List ExceptionClause} (hx : Each (ClauseMeans m w) s.clauses xs)
    {r : Reader} {pad t : Bytes} (hr : r.Ok) (hpad : pad.length = (4 - r.pos % 4) % 4) (h : r.rest = pad ++ (s.enc ++ t)) :
    readClauseSection cfg m r w = (.ok xs, w) := by
  have hgoto : (r.goto ((r.pos + 3) / 4 * 4)).2 = r.skip pad.length := by
    simp only [Reader.goto, Reader.skip]
    congr 1
    omega
  have ho := ok_at hr h
  have h' := rest_at h
  unfold readClauseSection
  rw [hgoto]
  dsimp only
  generalize r.skip pad.length = r' at ho h'
  cases s with
  | absent => cases hp
  | small cs =>
    obtain ⟨hl, hf⟩ := hs
    simp only [Sections.enc, List.cons_append, List.append_assoc] at h'
    rw [M.liftM_bind_ok (bodyU_byte cfg ho h')]
    dsimp only
    have ho1 := ok_cons ho h'; have g1 := skip_cons h'
    rw [if_neg (by decide), M.liftM_bind_ok (bodyU_at cfg ho1 hl g1)]
    dsimp only
    rw [if_neg (by decide)]
    have ho2 := ok_le ho1 g1; have g2 := rest_le g1
    generalize (r'.skip 1).skip 1 = r2 at ho2 g2 ⊢
    have hb : r2.pos + 2 < 2 ^ 64 := by have := ho2.1; have := ho2.2; omega
    rw [M.liftM_bind_ok (advance_eq cfg r2 2 hb)]
    dsimp only
    have e : (12 * cs.length + 4) / 12 = cs.length := by omega
    rw [e]
    have g3 := rest_at (r := r2) (bs := [0, 0]) g2
    have ho3 := ok_at (r := r2) (bs := [0, 0]) ho2 g2
    exact readClauses_at length_encSmall (fun c hc x hx r t hr h => readSmallClause_at cfg (hf c hc) hx hr h) hx ho3 g3
  | fat cs =>
    obtain ⟨hl, hf⟩ := hs
    have e3 : leBytes 3 (24 * cs.length + 4) =
        leBytes 1 ((24 * cs.length + 4) % 256) ++ leBytes 2 ((24 * cs.length + 4) / 256) := by
      simp [leBytes]
    simp only [Sections.enc, List.cons_append, List.append_assoc, e3] at h'
    rw [M.liftM_bind_ok (bodyU_byte cfg ho h')]
    dsimp only
    have ho1 := ok_cons ho h'; have g1 := skip_cons h'
    rw [if_neg (by decide), M.liftM_bind_ok (bodyU_at cfg ho1 (by omega) g1)]
    dsimp only
    rw [if_pos (by decide)]
    have ho2 := ok_le ho1 g1; have g2 := rest_le g1
    rw [M.liftM_bind_ok (bodyU_at cfg ho2 (by omega) g2)]
    dsimp only
    have ho3 := ok_le ho2 g2; have g3 := rest_le g2
    have e : ((24 * cs.length + 4) % 256 + ((24 * cs.length + 4) / 256) <<< 8) / 24 = cs.length := by
      rw [Nat.shiftLeft_eq]; omega
    rw [e]
    exact readClauses_at length_encFat (fun c hc x hx r t hr h => readFatClause_at cfg (hf c hc) hx hr h) hx ho3 g3

/-! ### Locals -/

/-- Resolving a list of element types one after the other. -/
inductive ResolveAll (cfg : Cfg) (m : Metadata) : World → List ElementType → List Nat → World → Prop
  | nil (w : World) : ResolveAll cfg m w [] [] w
  | cons {w w1 w2 : World} {e : ElementType} {es : List ElementType} {t : Nat} {ts : List Nat}
      (h : typeFor cfg m e w = (.ok t, w1)) (hs : ResolveAll cfg m w1 es ts w2) : ResolveAll cfg m w (e :: es) (t :: ts) w2

theorem readLocalTypes_at (cfg : Cfg) {m : Metadata} : ∀ {es : List ElementType} {w w' : World} {ts : List Nat}
    {r : Reader} {t : Bytes}, ElemsFit es → ResolveAll cfg m w es ts w' → r.Ok → r.rest = encElems es ++ t →
    readLocalTypes cfg m es.length r w = (.ok ts, w')
  | [], _, _, _, _, _, _, .nil _, _, _ => rfl
  | e :: es, w, w', _, r, t, hf, .cons h1 h2, hr, h => by
    simp only [encElems, List.append_assoc] at h
    simp only [List.length_cons, readLocalTypes]
    rw [M.liftM_bind_ok (by rw [readElem_reads cfg hf.1 r _ hr h]; rfl)]
    dsimp only
    rw [M.bind_ok h1, M.bind_ok (readLocalTypes_at cfg hf.2 h2 (ok_at hr h) (rest_at h))]
    rfl

/-- The local variable types a body's token stands for: none for index 0, otherwise the signature blob (II.23.2.6) of
that row of the stand-alone signature table. -/
inductive LocalsOf (m : Metadata) : Nat → List ElementType → Prop
  | none (tab : Nat) : LocalsOf m (tab * 2 ^ 24) []
  | row (tab k : Nat) (row : StandaloneSigRow) (es : List ElementType) (pre post : Bytes) (hk : 1 ≤ k) (hk2 : k < 2 ^ 24)
      (hrow : m.tables.standaloneSig[k - 1]? = some row) (hfit : ElemsFit es) (hn : es.length < 2 ^ 29)
      (hlen : (encElems es).length < 2 ^ 28) (hsmall : m.blobHeap.length < 2 ^ 62)
      (hblob : m.blobHeap = pre ++ encBlob (0x07 :: (encUnsigned es.length ++ encElems es)) ++ post)
      (hsig : row.signature = pre.length) : LocalsOf m (tab * 2 ^ 24 + k) es

theorem length_encUnsigned_le (n : Nat) : (encUnsigned n).length ≤ 4 := by
  unfold encUnsigned; split
  · simp
  · split <;> simp

theorem readLocals_of (cfg : Cfg) {m : Metadata} {token : Token} {k : Nat} (hi : token.index = k) (hk : 1 ≤ k)
    {row : StandaloneSigRow} (hrow : m.tables.standaloneSig[k - 1]? = some row) {es : List ElementType} {pre post : Bytes}
    (hfit : ElemsFit es) (hn : es.length < 2 ^ 29) (hlen : (encElems es).length < 2 ^ 28) (hsmall : m.blobHeap.length < 2 ^ 62)
    (hblob : m.blobHeap = pre ++ encBlob (0x07 :: (encUnsigned es.length ++ encElems es)) ++ post)
    (hsig : row.signature = pre.length) {w w' : World} {ts : List Nat} (hr : ResolveAll cfg m w es ts w') :
    readLocals cfg m token w = (.ok ts, w') := by
  have hl4 := length_encUnsigned_le es.length
  have hc : (0x07 :: (encUnsigned es.length ++ encElems es) : Bytes).length < 2 ^ 29 := by
    simp only [List.length_cons, List.length_append]; omega
  have hp : post.length < 2 ^ 62 := by
    rw [hblob] at hsmall; simp only [List.length_append] at hsmall; omega
  have hopen := C17_confined cfg pre _ post hc hp
  rw [← hblob, ← hsig] at hopen
  unfold readLocals
  rw [hi, if_neg (by omega), M.liftM_bind_ok (tableIndex_at cfg hk hrow), M.liftM_bind_ok (by rw [hopen]; rfl)]
  generalize hrd : Reader.new (0x07 :: (encUnsigned es.length ++ encElems es)) = r
  have ho : r.Ok := by rw [← hrd]; exact Ok.new (by omega)
  have hrest : r.rest = 0x07 :: (encUnsigned es.length ++ (encElems es ++ [])) := by
    rw [← hrd]; simp [Reader.new, Reader.rest]
  rw [M.liftM_bind_ok (by rw [readByte_at cfg ho hrest]; rfl)]
  dsimp only
  rw [if_neg (by decide), M.liftM_bind_ok (by rw [readCompressed_at cfg (ok_cons ho hrest) hn (skip_cons hrest)]; rfl)]
  exact readLocalTypes_at cfg hfit hr (ok_at (ok_cons ho hrest) (skip_cons hrest)) (rest_at (skip_cons hrest))

theorem readLocals_at (cfg : Cfg) {m : Metadata} {token : Nat} {es : List ElementType} (h : LocalsOf m token es)
    {w w' : World} {ts : List Nat} (hr : ResolveAll cfg m w es ts w') : readLocals cfg m ⟨token⟩ w = (.ok ts, w') := by
  cases h with
  | none tab =>
    cases hr
    have hi : (Token.mk (tab * 2 ^ 24)).index = 0 := by
      have := token_index tab 0 (by decide); rwa [Nat.add_zero] at this
    unfold readLocals
    rw [hi, if_pos rfl]
    rfl
  | row tab k row es pre post hk hk2 hrow hfit hn hlen hsmall hblob hsig =>
    exact readLocals_of cfg (token_index tab k hk2) hk hrow hfit hn hlen hsmall hblob hsig hr

/-! ### Whole bodies -/

theorem flags_and (b : Fat) : b.flags.toNat &&& 3 = 3 ∧ (b.flags.toNat &&& 8 = 8 ↔ b.sections.present = true) ∧
    decide (b.flags.toNat &&& 0x10 = 0x10) = b.initLocals := by
  unfold Fat.flags
  cases b.sections.present <;> cases b.initLocals <;> decide

theorem loadBody_fat (cfg : Cfg) {m : Metadata} {rva : Nat} {b : Fat} {pad : Bytes} (hb : b.Fits)
    (hpad : pad.length = b.padLength) (hat : RegionAt m rva (b.enc pad)) {es : List ElementType}
    (hl : LocalsOf m b.localToken es) {w w' : World} {ts : List Nat} (hts : ResolveAll cfg m w es ts w')
    {xs : List ExceptionClause} (hxs : Each (ClauseMeans m w') b.sections.clauses xs) :
    loadBody cfg m rva w = (.ok ⟨b.code, b.maxStack, ts, b.initLocals, xs⟩, w') := by
  obtain ⟨h1, h2, h3, h4⟩ := hb
  obtain ⟨f3, f8, f10⟩ := flags_and b
  obtain ⟨r, tail, hr, hpos, hrest, hload⟩ := loadBody_start hat cfg w
  rw [hload, if_neg (by rw [f3]; decide), if_pos f3, f10]
  clear hload
  have hb1 : r.pos + 1 < 2 ^ 64 := by omega
  rw [M.liftM_bind_ok (advance_eq cfg r 1 hb1)]
  dsimp only
  simp only [List.cons_append, List.append_assoc] at hrest
  have g1 := skip_cons hrest
  have o1 := ok_cons hr hrest
  have p1 : (r.skip 1).pos = 2 := by simp [Reader.skip, hpos]
  generalize r.skip 1 = r1 at g1 o1 p1 ⊢
  rw [M.liftM_bind_ok (bodyU_at cfg o1 h1 g1)]
  have g2 := rest_le g1
  have o2 := ok_le o1 g1
  have p2 : (r1.skip 2).pos = 4 := by simp [Reader.skip, p1]
  dsimp only
  generalize r1.skip 2 = r2 at g2 o2 p2 ⊢
  rw [M.liftM_bind_ok (bodyU_at cfg o2 h2 g2)]
  have g3 := rest_le g2
  have o3 := ok_le o2 g2
  have p3 : (r2.skip 4).pos = 8 := by simp [Reader.skip, p2]
  dsimp only
  generalize r2.skip 4 = r3 at g3 o3 p3 ⊢
  rw [M.liftM_bind_ok (bodyU_at cfg o3 h3 g3)]
  have g4 := rest_le g3
  have o4 := ok_le o3 g3
  have p4 : (r3.skip 4).pos = 12 := by simp [Reader.skip, p3]
  dsimp only
  generalize r3.skip 4 = r4 at g4 o4 p4 ⊢
  rw [M.bind_ok (readLocals_at cfg hl hts), M.liftM_bind_ok (bodyBytes_at cfg o4 g4)]
  have g5 := rest_at g4
  have o5 := ok_at o4 g4
  have p5 : (r4.skip b.code.length).pos = 12 + b.code.length := by simp [Reader.skip, p4]
  dsimp only
  generalize r4.skip b.code.length = r5 at g5 o5 p5 ⊢
  have hsec : readMoreSections cfg m b.flags.toNat r5 w' = (.ok xs, w') := by
    unfold readMoreSections
    cases hs : b.sections.present with
    | true =>
      rw [if_pos (f8.mpr hs)]
      refine readClauseSection_at cfg h4 hs hxs o5 ?_ g5
      rw [hpad, p5, Fat.padLength, hs]
      simp only [if_true]
      omega
    | false =>
      rw [if_neg (by rw [f8, hs]; decide)]
      cases hsx : b.sections with
      | absent => rw [hsx] at hxs; cases hxs; rfl
      | small cs => rw [hsx] at hs; cases hs
      | fat cs => rw [hsx] at hs; cases hs
  rw [M.bind_ok hsec]
  rfl

theorem tiny_byte (n : Nat) (hn : n < 64) : (UInt8.ofNat (4 * n + 2)).toNat &&& 0x3 = 0x2 ∧
    ((UInt8.ofNat (4 * n + 2)).toNat &&& 0xfc) >>> 2 = n := by
  have : ∀ n : Fin 64, (UInt8.ofNat (4 * n.val + 2)).toNat &&& 0x3 = 0x2 ∧
    ((UInt8.ofNat (4 * n.val + 2)).toNat &&& 0xfc) >>> 2 = n.val := by decide +kernel
  exact this ⟨n, hn⟩

theorem loadBody_tiny (cfg : Cfg) {m : Metadata} {rva : Nat} {code : Bytes} (hc : code.length < 64)
    (hat : RegionAt m rva (tinyBody code)) (w : World) :
    ∃ flag, loadBody cfg m rva w = (.ok ⟨code, 8, [], flag, []⟩, w) := by
  obtain ⟨r, tail, hr, hpos, hrest, hload⟩ := loadBody_start hat cfg w
  obtain ⟨f1, f2⟩ := tiny_byte code.length hc
  refine ⟨decide ((UInt8.ofNat (4 * code.length + 2)).toNat &&& 0x10 = 0x10), ?_⟩
  rw [hload, if_pos f1, f2, M.liftM_bind_ok (bodyBytes_at cfg hr hrest)]
  rfl

end Clr
