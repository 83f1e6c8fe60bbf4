import Verif.Lemmas.LoadSelf
import Verif.Spec.References
/-! # Loading several assemblies: what is kept, and in which order assemblies appear -/

namespace Clr
open Spec

variable {cfg : Cfg} {m : Metadata}

/-! ## Types registered before an attempt -/

/-- Whatever the outcome: only primitive changes, and the first `L` types keep their records. -/
def Old (cfg : Cfg) (L : Nat) {α : Type} (w : World) (x : M α) (Q : α → World → Prop) : Prop :=
  Inv w → L ≤ w.types.length → Steps cfg w (x w).2 ∧ (∀ j < L, (x w).2.types[j]? = w.types[j]?) ∧
    ∀ a, (x w).1 = .ok a → Q a (x w).2

namespace Old

variable {α β : Type} {L : Nat} {w : World}

theorem of_touch {x : M α} {Q : α → World → Prop} {S : Nat → Prop} (hr : Run cfg w x Q) (ht : Touch S x) (hS : ∀ j, S j → L ≤ j) :
    Old cfg L w x Q := by
  intro hi hl
  obtain ⟨h1, h2⟩ := hr hi
  exact ⟨h1, fun j hj => (ht w).types j (by omega) (fun h => by have := hS j h; omega), h2⟩

theorem pure {a : α} {Q : α → World → Prop} (h : Q a w) : Old cfg L w (Pure.pure a) Q :=
  of_touch (S := fun _ => False) (Run.pure h) (Touch.pure a) (fun _ h => h.elim)

theorem bind {x : M α} {f : α → M β} {Q : α → World → Prop} {R : β → World → Prop} (hx : Old cfg L w x Q)
    (hf : ∀ a w1, Steps cfg w w1 → Q a w1 → Old cfg L w1 (f a) R) : Old cfg L w (x >>= f) R := by
  intro hi hl
  obtain ⟨hs, ho, hq⟩ := hx hi hl
  rw [M.bind_run]
  rcases e : x w with ⟨r, w1⟩
  rw [e] at hs hq ho
  cases r with
  | ok a =>
    have := hf a w1 hs (hq a rfl) (hi.steps hs) (Nat.le_trans hl hs.le)
    exact ⟨hs.trans this.1, fun j hj => (this.2.1 j hj).trans (ho j hj), this.2.2⟩
  | err m => exact ⟨hs, ho, fun _ h => by simp at h⟩
  | panic => exact ⟨hs, ho, fun _ h => by simp at h⟩
  | ub => exact ⟨hs, ho, fun _ h => by simp at h⟩
  | timeout => exact ⟨hs, ho, fun _ h => by simp at h⟩

theorem liftM_bind {x : Res α} {f : α → M β} {R : β → World → Prop} (h : ∀ a, x = .ok a → Old cfg L w (f a) R) :
    Old cfg L w ((_root_.liftM x : M α) >>= f) R := by
  refine Old.bind (Q := fun a w1 => x = .ok a ∧ w1 = w) ?_ fun a w1 _ ⟨h1, h2⟩ => by subst h2; exact h a h1
  exact of_touch (S := fun _ => False) (Run.liftM fun a e => ⟨e, rfl⟩) (.of_grow (.liftM x)) (fun _ h => h.elim)

theorem view_bind {g : World → Res α} {f : α → M β} {R : β → World → Prop} (h : Inv w → ∀ a, g w = .ok a → Old cfg L w (f a) R) :
    Old cfg L w (M.view g >>= f) R := by
  intro hi hl
  refine Old.bind (Q := fun a w1 => g w = .ok a ∧ w1 = w) ?_ (fun a w1 _ ⟨h1, h2⟩ => by subst h2; exact h hi a h1) hi hl
  exact of_touch (S := fun _ => False) (Run.view fun _ a e => ⟨e, rfl⟩) (.of_grow (.view g)) (fun _ h => h.elim)

theorem with_inv {x : M α} {Q : α → World → Prop} (h : Inv w → Old cfg L w x Q) : Old cfg L w x Q := fun hi hl => h hi hi hl

theorem with_le {x : M α} {Q : α → World → Prop} (h : L ≤ w.types.length → Old cfg L w x Q) : Old cfg L w x Q :=
  fun hi hl => h hl hi hl

theorem conseq {x : M α} {Q R : α → World → Prop} (h : Old cfg L w x Q) (hqr : ∀ a w', Steps cfg w w' → Q a w' → R a w') :
    Old cfg L w x R := fun hi hl => by
  obtain ⟨h1, h2, h3⟩ := h hi hl
  exact ⟨h1, h2, fun a e => hqr a _ h1 (h3 a e)⟩

end Old

theorem loadType_touch (assembly i : Nat) : Touch (fun _ => False) (loadType cfg assembly i m) := by
  unfold loadType
  refine Touch.liftM_bind fun row => Touch.liftM_bind fun _ => Touch.liftM_bind fun _ => Touch.bind ?_ fun id =>
    Touch.view_bind fun t => Touch.bind ?_ fun _ => Touch.pure _
  · intro w
    unfold nextTypeId
    rw [M.get_bind, M.bind_run, M.liftM_run]
    cases uadd cfg 32 w.nextTypeId 1 <;> exact ⟨fun _ _ _ => rfl, Nat.le_refl _, rfl, rfl⟩
  · intro w
    exact ⟨fun j hj _ => by simp [World.addType, List.getElem?_append_left hj], by simp [World.addType], rfl, rfl⟩

theorem loadTypes_touch (assembly n : Nat) : ∀ i, Touch (fun _ => False) (loadTypes cfg assembly m n i) := by
  induction n with
  | zero => intro i; exact Touch.pure _
  | succ n ih =>
    intro i
    unfold loadTypes
    exact (loadType_touch _ _).bind fun _ => (ih _).bind fun _ => Touch.pure _

theorem tableIndex_mem {α : Type} {rows : List α} {k : Nat} {row : α} (h : tableIndex cfg rows k = .ok row) :
    ∃ i : Nat, rows[i]? = some row := by
  unfold tableIndex at h
  obtain ⟨i, _, h2⟩ := Res.bind_eq_ok.mp h
  exact ⟨i, unwrap_eq_ok.mp h2⟩

/-- The types from `L` on are named by the type rows. -/
def Heads (m : Metadata) (L : Nat) (w : World) : Prop :=
  ∀ (k : Nat) row, m.tables.typeDef[k]? = some row → ∃ n ns tr, m.string! row.name = .ok n ∧ m.string! row.nspace = .ok ns ∧
    w.types[L + k]? = some tr ∧ tr.fullName = fullName ns n

theorem Heads.steps {L : Nat} {w w' : World} (h : Heads m L w) (hs : Steps cfg w w') : Heads m L w' := by
  intro k row hk
  obtain ⟨n, ns, tr, h1, h2, h3, h4⟩ := h k row hk
  obtain ⟨tr', g1, g2, _⟩ := hs.types.1 _ _ h3
  exact ⟨n, ns, tr', h1, h2, g1, by rw [g2.fullName, h4]⟩

theorem loadInterface_old {L : Nat} {w : World} (hh : Heads m L w) (row : InterfaceImplRow) :
    Old cfg L w (loadInterface cfg m row) fun _ _ => True := by
  have hlook : ∀ {w : World} n ns, Touch (fun _ => False) (lookupRow m n ns) := by
    intro w n ns
    unfold lookupRow
    exact Touch.liftM_bind fun _ => Touch.liftM_bind fun _ => Touch.of_grow (.view _)
  unfold loadInterface
  refine Old.liftM_bind fun td htd => ?_
  refine (Old.of_touch (lookupRow_run _ _) (hlook (w := w) _ _) (fun _ h => h.elim)).bind
    fun o w1 _ ⟨e, n, ns, h1, h2, h3⟩ => Old.liftM_bind fun t ht => Old.liftM_bind fun ⟨_, _⟩ _ => ?_
  subst e
  refine (Old.of_touch (lookupRow_run _ _) (hlook (w := w1) _ _) (fun _ h => h.elim)).bind
    fun o2 w2 _ ⟨e, n2, ns2, g1, g2, g3⟩ => Old.liftM_bind fun i hi => ?_
  subst e
  intro hinv hl
  rw [unwrap_eq_ok.mp hi] at g3
  rw [unwrap_eq_ok.mp ht] at h3
  obtain ⟨k, hk⟩ := tableIndex_mem htd
  obtain ⟨n', ns', tr, q1, q2, q3, q4⟩ := hh k td hk
  rw [h1] at q1; rw [h2] at q2; cases q1; cases q2
  obtain ⟨_, _, _, hlast⟩ := (hinv.getType_iff _ _).mp h3
  have hge : L ≤ t := by
    rcases Nat.lt_or_ge t (L + k) with hlt | hge
    · exact absurd q4 (hlast _ _ hlt q3)
    · omega
  exact Old.of_touch (Q := fun _ _ => True) (Run.modify (.iface w2 t i (hinv.getType_lt g3)) True.intro) (Touch.updType t _)
    (fun j hj => by omega) hinv hl

theorem loadInterfaces_old {L : Nat} (rows : List InterfaceImplRow) : ∀ {w : World}, Heads m L w →
    Old cfg L w (loadInterfaces cfg m rows) fun _ _ => True := by
  induction rows with
  | nil => intro w _; exact Old.pure True.intro
  | cons row rows ih =>
    intro w hh
    unfold loadInterfaces
    exact (loadInterface_old hh row).bind fun _ w1 hs _ => ih (hh.steps hs)

theorem lookupRow_touch (n ns : Nat) : Touch (fun _ => False) (lookupRow m n ns) := by
  unfold lookupRow
  exact Touch.liftM_bind fun _ => Touch.liftM_bind fun _ => Touch.of_grow (.view _)

theorem loadMemberRefs_touch (rows : List MemberRefRow) : Touch (fun _ => False) (loadMemberRefs cfg m rows) := by
  induction rows with
  | nil => exact Touch.pure _
  | cons row rows ih =>
    unfold loadMemberRefs
    refine Touch.bind ?_ fun _ => ih.bind fun _ => Touch.pure _
    unfold loadMemberRef
    split
    · exact Touch.liftM_bind fun _ => (lookupRow_touch _ _).bind fun _ => Touch.liftM_bind fun _ => Touch.liftM_bind fun _ =>
        Touch.liftM_bind fun _ => Touch.view_bind fun _ => Touch.liftM_bind fun _ => Touch.pure _
    · exact Touch.pure _

theorem loadTypeRefs_touch (rows : List TypeRefRow) : Touch (fun _ => False) (loadTypeRefs m rows) := by
  induction rows with
  | nil => exact Touch.pure _
  | cons row rows ih =>
    unfold loadTypeRefs
    exact (lookupRow_touch _ _).bind fun _ => Touch.liftM_bind fun _ => ih.bind fun _ => Touch.pure _

theorem loadSelf_old {L : Nat} {w : World} (fuel : Nat) (name : Name) : Old cfg L w (loadSelf cfg fuel m name) fun _ _ => True := by
  unfold loadSelf
  refine (Old.of_touch (loadMemberRefs_run _) (loadMemberRefs_touch _) (fun _ h => h.elim)).bind fun _ w1 _ _ =>
    (Old.of_touch (loadTypeRefs_run _) (loadTypeRefs_touch _) (fun _ h => h.elim)).bind fun _ w2 _ _ =>
    Old.view_bind fun _ id hid => Old.bind (Q := fun _ w3 => id < w3.nextAssembly) (fun hi hl =>
      ⟨.single (.assemblyId w2), fun _ _ => rfl, fun _ _ => by cases hid; exact Nat.lt_succ_self _⟩) fun _ w3 _ hid3 => Old.with_inv fun hi3 => Old.with_le fun hl3 => ?_
  refine Old.bind (Q := fun ts w' => loadTypes cfg id m m.tables.typeDef.length 0 w3 = (.ok ts, w'))
    (fun hi hl => ?_) fun ts w4 hs4 h4 => ?_
  · obtain ⟨h1, h2, h3⟩ := Old.of_touch (loadTypes_run (cfg := cfg) (m := m) id m.tables.typeDef.length w3 0)
      (loadTypes_touch id _ 0) (fun _ h => h.elim) hi hl
    exact ⟨h1, h2, fun a e => Prod.ext e rfl⟩
  · obtain ⟨t1, t2, t3, t4⟩ := loadTypes_exact _ _ hi3 h4
    have hheads : Heads m w3.types.length w4 := by
      intro k row hk
      obtain ⟨row', n, ns, id', g1, g2, g3, g4⟩ := t4 k (List.getElem?_eq_some_iff.mp hk).1
      have : row' = row := by
        rw [tableIndex_at cfg (by omega) (row := row) (by simpa using hk)] at g1
        cases g1; rfl
      subst this
      exact ⟨n, ns, _, g2, g3, g4, rfl⟩
    refine (Old.of_touch (resolveTypes_run fuel ts w4 0) (resolveTypes_touch fuel ts 0) (fun j hj => by
      rw [t1, List.mem_range'_1] at hj; omega)).bind fun _ w5 hs5 _ => ?_
    refine Old.bind (Q := fun _ _ => True) (fun hi hl' => ?_) fun _ w6 hs6 _ => Old.view_bind fun _ _ _ => Old.liftM_bind fun _ _ => ?_
    · obtain ⟨g1, g2, g3⟩ := loadInterfaces_old (cfg := cfg) (m := m) (L := w3.types.length) m.tables.interfaceImpl
        (hheads.steps hs5) hi (by have := hs5.le; omega)
      exact ⟨g1, fun j hj => g2 j (by omega), g3⟩
    · exact Old.bind (Q := fun _ _ => True) (fun _ _ => ⟨.single (.assembly w6 _ (Nat.lt_of_lt_of_le hid3 ((hs4.trans hs5).trans hs6).nextAssembly_le)), fun _ _ => rfl, fun _ _ => True.intro⟩)
        fun _ _ _ _ => Old.pure True.intro

theorem loadRefs_old {L : Nat} {load : Name → M AssemblyRec} (hl : ∀ n w, Old cfg L w (load n) fun _ _ => True)
    (rows : List AssemblyRefRow) : ∀ w, Old cfg L w (loadRefs load m rows) fun _ _ => True := by
  induction rows with
  | nil => intro w; exact Old.pure True.intro
  | cons row rows ih =>
    intro w
    unfold loadRefs
    refine Old.liftM_bind fun _ _ => Old.liftM_bind fun n _ => Old.view_bind fun _ b _ => ?_
    split
    · exact ih w
    · exact (hl n w).bind fun _ w1 _ _ => ih w1

theorem loadData_old {L : Nat} (fs : Name → Option Bytes) (depth : Nat) : ∀ fuel data w,
    Old cfg L w (loadData cfg fs depth fuel data) fun _ _ => True := by
  induction depth with
  | zero => intro fuel data w hi hl; exact ⟨.refl _, fun _ _ => rfl, fun _ e => by simp [loadData] at e⟩
  | succ d ih =>
    intro fuel data w
    unfold loadData
    refine Old.liftM_bind fun m _ => Old.liftM_bind fun _ _ => Old.liftM_bind fun _ _ => ?_
    refine (loadRefs_old (fun n w => ?_) _ w).bind fun _ _ _ _ => loadSelf_old _ _
    exact Old.liftM_bind fun d _ => ih _ _ _

/-! ## Which assemblies a load adds, and in which order -/

section
variable {fs : Name → Option Bytes}

theorem Needs.trans {x y z : Name} (h1 : Needs cfg fs x y) (h2 : Needs cfg fs y z) : Needs cfg fs x z := by
  induction h2 with
  | self => exact h1
  | step _ hr ih => exact ih.step hr

/-- One assembly at a time: each is new, is needed by `root`, and comes after all the assemblies it refers to. -/
inductive Extends (cfg : Cfg) (fs : Name → Option Bytes) (root : Name) (l : List Name) : List Name → Prop
  | refl : Extends cfg fs root l l
  | snoc {l' : List Name} {x : Name} : Extends cfg fs root l l' → (∀ y, RefersTo cfg fs x y → y ∈ l') → x ∉ l' →
      Needs cfg fs root x → Extends cfg fs root l (l' ++ [x])

namespace Extends
variable {root root' : Name} {l l1 l2 : List Name}

theorem sub (h : Extends cfg fs root l l1) {x : Name} (hx : x ∈ l) : x ∈ l1 := by
  induction h with
  | refl => exact hx
  | snoc _ _ _ _ ih => exact List.mem_append_left _ ih

theorem trans (h1 : Extends cfg fs root l l1) (h2 : Extends cfg fs root l1 l2) : Extends cfg fs root l l2 := by
  induction h2 with
  | refl => exact h1
  | snoc _ a b c ih => exact ih.snoc a b c

theorem mono (hr : Needs cfg fs root' root) (h : Extends cfg fs root l l1) : Extends cfg fs root' l l1 := by
  induction h with
  | refl => exact .refl
  | snoc _ a b c ih => exact ih.snoc a b (Needs.trans hr c)

/-- The same as positions. -/
theorem explicit (h : Extends cfg fs root l l1) : ∃ new, l1 = l ++ new ∧ (∀ (i : Nat) x, new[i]? = some x →
    x ∉ l ++ new.take i ∧ Needs cfg fs root x ∧ ∀ y, RefersTo cfg fs x y → y ∈ l ++ new.take i) := by
  induction h with
  | refl => exact ⟨[], by simp, by simp⟩
  | @snoc l' x _ a b c ih =>
    obtain ⟨new, rfl, h2⟩ := ih
    refine ⟨new ++ [x], by simp, fun i z hz => ?_⟩
    rcases Nat.lt_or_ge i new.length with hi | hi
    · rw [List.getElem?_append_left hi] at hz
      rw [List.take_append_of_le_length (Nat.le_of_lt hi)]
      exact h2 i z hz
    · rw [List.getElem?_append_right hi] at hz
      obtain ⟨e1, e2⟩ := List.getElem?_eq_some_iff.mp hz
      simp only [List.length_singleton] at e1
      have hi' : i = new.length := by omega
      subst hi'
      simp only [Nat.sub_self, List.getElem_cons_zero] at e2
      subst e2
      simpa using ⟨by simpa using b, c, by simpa using a⟩

end Extends

/-- Loading by name at a given depth, as `loadData` does for its references. -/
def loadAt (cfg : Cfg) (fs : Name → Option Bytes) (depth fuel : Nat) (n : Name) : M AssemblyRec := do
  let d ← Res.ofOption "Could not locate assembly" (fs n)
  loadData cfg fs depth fuel d

theorem loadRefs_all {load : Name → M AssemblyRec} {J : World → Prop} (rows : List AssemblyRefRow)
    (hl : ∀ n w a w', (∃ row ∈ rows, m.string row.name = .ok (some n)) → n ∉ loaded w → J w → load n w = (.ok a, w') →
      J w' ∧ n ∈ loaded w' ∧ ∀ x ∈ loaded w, x ∈ loaded w') :
    ∀ w w1, J w → loadRefs load m rows w = (.ok (), w1) → J w1 ∧ (∀ x ∈ loaded w, x ∈ loaded w1) ∧
      ∀ row ∈ rows, ∀ n, m.string row.name = .ok (some n) → n ∈ loaded w1 := by
  induction rows with
  | nil =>
    intro w w1 hj h
    simp only [loadRefs, M.pure_run, Prod.mk.injEq, true_and] at h
    subst h
    exact ⟨hj, fun _ h => h, by simp⟩
  | cons row rows ih =>
    intro w w1 hj h
    have ih' := ih fun n w a w' ⟨r, h1, h2⟩ => hl n w a w' ⟨r, List.mem_cons_of_mem _ h1, h2⟩
    unfold loadRefs at h
    obtain ⟨o, h1, h⟩ := M.liftM_bind_eq_ok.mp h
    obtain ⟨n, h2, h⟩ := M.liftM_bind_eq_ok.mp h
    rw [M.get_bind] at h
    have ho : m.string row.name = .ok (some n) := by
      rw [h1]; cases o <;> simp [Res.ofOption] at h2 ⊢; exact h2
    have key : ∀ n', m.string row.name = .ok (some n') → n' = n := fun n' h => by rw [ho] at h; cases h; rfl
    have hmem : ∀ w : World, w.assemblies.any (·.name = n) = true ↔ n ∈ loaded w := by
      intro w; simp [loaded, List.any_eq_true]
    split at h
    · rename_i hld
      obtain ⟨g1, g2, g3⟩ := ih' w w1 hj h
      refine ⟨g1, g2, fun r hr n' hn' => ?_⟩
      rcases List.mem_cons.mp hr with rfl | hr
      · rw [key n' hn']; exact g2 _ ((hmem w).mp hld)
      · exact g3 r hr n' hn'
    · rename_i hld
      obtain ⟨a, w2, h3, h⟩ := M.bind_eq_ok.mp h
      obtain ⟨k1, k2, k3⟩ := hl n w a w2 ⟨row, List.mem_cons_self, ho⟩ (fun h => hld ((hmem w).mpr h)) hj h3
      obtain ⟨g1, g2, g3⟩ := ih' w2 w1 k1 h
      refine ⟨g1, fun x hx => g2 x (k3 x hx), fun r hr n' hn' => ?_⟩
      rcases List.mem_cons.mp hr with rfl | hr
      · rw [key n' hn']; exact g2 _ k2
      · exact g3 r hr n' hn'

/-- What a successful load by name consists of. -/
theorem loadAt_ok (hn : NamedByFile cfg fs) {depth fuel : Nat} {n : Name} {w w' : World} {a : AssemblyRec} (hi : Inv w)
    (h : loadAt cfg fs depth fuel n w = (.ok a, w')) : ∃ d data m w1, depth = d + 1 ∧ fs n = some data ∧
      readMetadata cfg data = .ok m ∧ loadRefs (loadAt cfg fs d fuel) m m.tables.assemblyRef w = (.ok (), w1) ∧
      Inv w1 ∧ Inv w' ∧ loaded w' = loaded w1 ++ [n] := by
  unfold loadAt at h
  obtain ⟨data, h1, h⟩ := M.liftM_bind_eq_ok.mp h
  have hfs : fs n = some data := by cases hf : fs n <;> simp [hf, Res.ofOption] at h1 ⊢; exact h1
  have hd := (loadData_run (cfg := cfg) fs depth fuel data w) hi
  rw [h] at hd
  cases hm : readMetadata cfg data with
  | ok m =>
    obtain ⟨d, name, w1, row, e1, e2, e3, h3, h4⟩ := loadData_ok hm h
    have r := loadRefs_run (cfg := cfg) (m := m) (load := fun n => (do
        let d' ← Res.ofOption "Could not locate assembly" (fs n)
        loadData cfg fs d fuel d')) (fun n w => Run.liftM_bind fun d' _ => loadData_run _ _ _ _ _) m.tables.assemblyRef w hi
    rw [h3] at r
    have hi1 := hi.steps r.1
    have hs := loadSelf_ok hi1 h4
    refine ⟨d, data, m, w1, e1, hfs, hm, h3, hi1, hi.steps hd.1, ?_⟩
    have e4 : m.tables.assembly[0]? = some row := by
      unfold tableIndex at e2
      rw [usub_ok (by omega)] at e2
      simpa [unwrap_eq_ok] using e2
    have e5 : m.string row.name = .ok (some name) := by
      unfold Metadata.string! at e3
      obtain ⟨o, h1, h2⟩ := Res.bind_eq_ok.mp e3
      rw [unwrap_eq_ok] at h2
      rw [h1, h2]
    have := hn n data m row name hfs hm e4 e5
    rw [loaded, hs.assemblies, List.map_append, List.map_singleton, hs.name, this]; rfl
  | _ => cases depth <;> simp [loadData, M.bind_run, hm] at h

/-- Names each of which refers to another of them are never loaded. -/
theorem loadAt_stuck (hn : NamedByFile cfg fs) {S : Name → Prop} (hS : ∀ x, S x → ∃ y, S y ∧ RefersTo cfg fs x y) (depth fuel : Nat) :
    ∀ n w a w', Inv w → (∀ x ∈ loaded w, ¬ S x) → loadAt cfg fs depth fuel n w = (.ok a, w') →
      (∀ x ∈ loaded w', ¬ S x) ∧ ¬ S n ∧ (∀ x ∈ loaded w, x ∈ loaded w') ∧ n ∈ loaded w' ∧ Inv w' := by
  induction depth with
  | zero =>
    intro n w a w' hi _ h
    obtain ⟨d, _, _, _, h1, _⟩ := loadAt_ok hn hi h
    simp at h1
  | succ depth ih =>
    intro n w a w' hi hd h
    obtain ⟨d, data, m, w1, h1, h2, h3, h4, h5, h6, h7⟩ := loadAt_ok hn hi h
    cases h1
    obtain ⟨⟨_, g1⟩, g2, g3⟩ := loadRefs_all (J := fun w => Inv w ∧ ∀ x ∈ loaded w, ¬ S x) _ (fun n w a w' _ _ hj hl => by
      obtain ⟨k1, _, k3, k4, k5⟩ := ih n w a w' hj.1 hj.2 hl
      exact ⟨⟨k5, k1⟩, k4, k3⟩) w w1 ⟨hi, hd⟩ h4
    have hSn : ¬ S n := by
      intro hs
      obtain ⟨y, hy, data', m', row, r1, r2, r3, r4⟩ := hS n hs
      rw [h2] at r1; cases r1
      rw [h3] at r2; cases r2
      exact g1 y (g3 row r3 y r4) hy
    rw [h7]
    refine ⟨fun x hx => ?_, hSn, fun x hx => List.mem_append_left _ (g2 x hx), by simp, h6⟩
    rcases List.mem_append.mp hx with hx | hx
    · exact g1 x hx
    · rw [List.mem_singleton.mp hx]; exact hSn

theorem chain_left {α : Type} {R : α → α → Prop} {l l' : List α} (h : List.IsChain R (l ++ l')) : List.IsChain R l := by
  induction l with
  | nil => exact .nil
  | cons a l ih =>
    cases l with
    | nil => exact .singleton a
    | cons b l =>
      obtain ⟨h1, h2⟩ := List.isChain_cons_cons.mp h
      exact List.isChain_cons_cons.mpr ⟨h1, ih h2⟩

theorem chain_pred {α : Type} {R : α → α → Prop} : ∀ {a : α} {l : List α}, List.IsChain R (a :: l) → ∀ x ∈ l, ∃ y ∈ a :: l, R y x := by
  intro a l
  induction l generalizing a with
  | nil => simp
  | cons b l ih =>
    intro h x hx
    obtain ⟨h1, h2⟩ := List.isChain_cons_cons.mp h
    rcases List.mem_cons.mp hx with rfl | hx
    · exact ⟨a, List.mem_cons_self, h1⟩
    · obtain ⟨y, hy, hr⟩ := ih h2 x hx
      exact ⟨y, List.mem_cons_of_mem _ hy, hr⟩

/-- `K` lists the assemblies whose loading is under way, innermost first. -/
theorem loadAt_extends (hn : NamedByFile cfg fs) (depth fuel : Nat) : ∀ n K w a w', Inv w →
    List.IsChain (fun y x => RefersTo cfg fs x y) (n :: K) → (∀ x ∈ n :: K, x ∉ loaded w) →
    loadAt cfg fs depth fuel n w = (.ok a, w') →
      ∃ l, Extends cfg fs n (loaded w) l ∧ loaded w' = l ++ [n] ∧ n ∉ l ∧ (∀ y, RefersTo cfg fs n y → y ∈ l) ∧
        (∀ x ∈ K, x ∉ loaded w') ∧ Inv w' := by
  induction depth with
  | zero =>
    intro n K w a w' hi _ _ h
    obtain ⟨d, _, _, _, h1, _⟩ := loadAt_ok hn hi h
    simp at h1
  | succ depth ih =>
    intro n K w a w' hi hc hK h
    have hnK : n ∉ K := by
      intro hmem
      obtain ⟨K1, K2, rfl⟩ := List.append_of_mem hmem
      have hc' : List.IsChain (fun y x => RefersTo cfg fs x y) (n :: (K1 ++ [n])) := by
        have e : n :: (K1 ++ n :: K2) = (n :: (K1 ++ [n])) ++ K2 := by simp
        rw [e] at hc
        exact chain_left hc
      refine (loadAt_stuck hn (S := fun x => x ∈ K1 ++ [n]) (fun x hx => ?_) (depth + 1) fuel n w a w' hi (fun x hx hs => ?_) h).2.1
        (by simp)
      · obtain ⟨y, hy, hr⟩ := chain_pred hc' x hx
        refine ⟨y, ?_, hr⟩
        rcases List.mem_cons.mp hy with rfl | hy
        · simp
        · exact hy
      · refine hK x ?_ hx
        simp only [List.mem_append, List.mem_cons] at hs ⊢
        tauto
    obtain ⟨d, data, m, w1, h1, h2, h3, h4, h5, h6, h7⟩ := loadAt_ok hn hi h
    cases h1
    obtain ⟨⟨_, j2, j3⟩, g2, g3⟩ := loadRefs_all (J := fun w' => Inv w' ∧ Extends cfg fs n (loaded w) (loaded w') ∧
        ∀ x ∈ n :: K, x ∉ loaded w') _ (fun r v a v' hr hnl hj hl => by
      obtain ⟨row, r1, r2⟩ := hr
      have href : RefersTo cfg fs n r := ⟨data, m, row, h2, h3, r1, r2⟩
      by_cases hrK : r ∈ n :: K
      · -- a reference back to an assembly under way: the same argument one level deeper
        exfalso
        have hc2 : List.IsChain (fun y x => RefersTo cfg fs x y) (r :: n :: K) := List.isChain_cons_cons.mpr ⟨href, hc⟩
        obtain ⟨K1, K2, e⟩ := List.append_of_mem hrK
        have hc' : List.IsChain (fun y x => RefersTo cfg fs x y) (r :: (K1 ++ [r])) := by
          have e' : r :: n :: K = (r :: (K1 ++ [r])) ++ K2 := by rw [e]; simp
          rw [e'] at hc2
          exact chain_left hc2
        refine (loadAt_stuck hn (S := fun x => x ∈ K1 ++ [r]) (fun x hx => ?_) depth fuel r v a v' hj.1 (fun x hx hs => ?_) hl).2.1
          (by simp)
        · obtain ⟨y, hy, hr⟩ := chain_pred hc' x hx
          refine ⟨y, ?_, hr⟩
          rcases List.mem_cons.mp hy with rfl | hy
          · simp
          · exact hy
        · refine hj.2.2 x ?_ hx
          rw [e]
          simp only [List.mem_append, List.mem_cons] at hs ⊢
          tauto
      · obtain ⟨l, k1, k2, k3, k4, k5, k6⟩ := ih r (n :: K) v a v' hj.1 (List.isChain_cons_cons.mpr ⟨href, hc⟩)
          (fun x hx => by
            rcases List.mem_cons.mp hx with rfl | hx
            · exact hnl
            · exact hj.2.2 x hx) hl
        have hE : Extends cfg fs r (loaded v) (loaded v') := by rw [k2]; exact k1.snoc k4 k3 .self
        have hE' := hE.mono (Needs.step .self href)
        exact ⟨⟨k6, hj.2.1.trans hE', k5⟩, by rw [k2]; simp, fun x hx => hE.sub hx⟩) w w1 ⟨hi, .refl, hK⟩ h4
    refine ⟨loaded w1, j2, h7, j3 n List.mem_cons_self, fun y hy => ?_, fun x hx => ?_, h6⟩
    · obtain ⟨data', m', row, r1, r2, r3, r4⟩ := hy
      rw [h2] at r1; cases r1
      rw [h3] at r2; cases r2
      exact g3 row r3 y r4
    · rw [h7]
      simp only [List.mem_append, List.mem_singleton, not_or]
      exact ⟨j3 x (List.mem_cons_of_mem _ hx), fun e => hnK (e ▸ hx)⟩

/-! ## The reference recursion -/

theorem liftM_bind_congr {α β : Type} {x : Res α} {f g : α → M β} (h : ∀ a, x = .ok a → f a = g a) :
    (liftM x : M α) >>= f = (liftM x : M α) >>= g := by
  funext w
  rw [M.bind_run, M.bind_run, M.liftM_run]
  cases x with
  | ok a => exact congrFun (h a rfl) w
  | _ => rfl

theorem loadRefs_congr {load load' : Name → M AssemblyRec} (rows : List AssemblyRefRow)
    (h : ∀ row ∈ rows, ∀ n, m.string row.name = .ok (some n) → load n = load' n) :
    loadRefs load m rows = loadRefs load' m rows := by
  induction rows with
  | nil => rfl
  | cons row rows ih =>
    have ih' := ih fun r hr => h r (List.mem_cons_of_mem _ hr)
    unfold loadRefs
    refine liftM_bind_congr fun o ho => liftM_bind_congr fun n hn => ?_
    have ho : m.string row.name = .ok (some n) := by
      rw [ho]; cases o <;> simp [Res.ofOption] at hn ⊢; exact hn
    rw [ih', h row List.mem_cons_self n ho]

theorem loadAt_depth {rank : Name → Nat} (hr : ∀ x y, RefersTo cfg fs x y → rank y < rank x) (fuel : Nat) :
    ∀ d d' n, rank n < d → rank n < d' → loadAt cfg fs d fuel n = loadAt cfg fs d' fuel n := by
  intro d
  induction d with
  | zero => intro _ _ h; omega
  | succ d ih =>
    intro d' n h1 h2
    cases d' with
    | zero => omega
    | succ d' =>
      unfold loadAt
      refine liftM_bind_congr fun data hd => ?_
      have hf : fs n = some data := by cases hf : fs n <;> simp [hf, Res.ofOption] at hd ⊢; exact hd
      unfold loadData
      refine liftM_bind_congr fun m hm => liftM_bind_congr fun _ _ => liftM_bind_congr fun _ _ => ?_
      have : loadRefs (loadAt cfg fs d fuel) m m.tables.assemblyRef = loadRefs (loadAt cfg fs d' fuel) m m.tables.assemblyRef :=
        loadRefs_congr _ fun row hrow y hy => by
          have := hr n y ⟨data, m, row, hf, hm, hrow, hy⟩
          exact ih d' y (by omega) (by omega)
      unfold loadAt at this
      rw [this]

end

end Clr
