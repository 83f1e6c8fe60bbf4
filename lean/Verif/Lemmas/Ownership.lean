import Verif.Lemmas.Counting
import Verif.Spec.Ownership
import Verif.Props.Links
import Verif.Props.Arrays
/-! # The ownership graph of a registry -/

namespace Clr
open Spec Relation
variable {cfg : Cfg} {w : World}

theorem mem_lastNamed {names : List Name} {k : Nat} : k ∈ lastNamed names ↔ ∃ n, names[k]? = some n ∧ n ∉ names.drop (k + 1) := by
  unfold lastNamed
  rw [List.mem_filter, List.mem_range]
  constructor
  · rintro ⟨-, h⟩
    cases hn : names[k]? with
    | none => rw [hn] at h; cases h
    | some n => rw [hn] at h; exact ⟨n, rfl, by simpa using h⟩
  · rintro ⟨n, h1, h2⟩
    refine ⟨(List.getElem?_eq_some_iff.mp h1).1, ?_⟩
    rw [h1]
    simpa using h2

theorem lastNamed_lt {names : List Name} {k : Nat} (h : k ∈ lastNamed names) : k < names.length := by
  obtain ⟨n, h, -⟩ := mem_lastNamed.mp h
  exact (List.getElem?_eq_some_iff.mp h).1

theorem mem_methodNamed {m : MethodRec} {b : Owned} : b ∈ w.methodNamed m ↔ ∃ r k y, b = .method m.declaringType k ∧ w.types[m.declaringType]? = some r ∧
    r.methods[k]? = some y ∧ y.name = m.name ∧ ∀ k' z, k < k' → r.methods[k']? = some z → z.name ≠ m.name := by
  unfold World.methodNamed
  cases hr : w.types[m.declaringType]? with
  | none => simp
  | some r =>
    simp only [List.mem_map, List.mem_filter, decide_eq_true_eq]
    constructor
    · rintro ⟨k, ⟨h1, h2⟩, rfl⟩
      obtain ⟨n, g1, g2⟩ := mem_lastNamed.mp h1
      cases hk : r.methods[k]? with
      | none => rw [hk] at h2; cases h2
      | some y =>
        rw [hk] at h2
        simp only [Option.map_some, Option.some.injEq] at h2
        rw [List.getElem?_map, hk, Option.map_some, Option.some.injEq] at g1
        refine ⟨r, k, y, rfl, rfl, hk, h2, fun k' z hlt hz e => g2 ?_⟩
        rw [List.mem_iff_getElem?]
        refine ⟨k' - (k + 1), ?_⟩
        rw [List.getElem?_drop, show k + 1 + (k' - (k + 1)) = k' by omega, List.getElem?_map, hz, Option.map_some, e, ← h2, g1]
    · rintro ⟨r', k, y, rfl, h0, h1, h2, h3⟩
      cases h0
      refine ⟨k, ⟨mem_lastNamed.mpr ⟨m.name, by rw [List.getElem?_map, h1, Option.map_some, h2], fun hm => ?_⟩, by rw [h1, Option.map_some, h2]⟩, rfl⟩
      obtain ⟨i, hi⟩ := List.mem_iff_getElem?.mp hm
      rw [List.getElem?_drop, List.getElem?_map] at hi
      cases hz : r.methods[k + 1 + i]? with
      | none => rw [hz] at hi; cases hi
      | some z =>
        rw [hz, Option.map_some, Option.some.injEq] at hi
        exact h3 _ z (by omega) hz hi

theorem mem_methodsOf {ts : List Nat} {b : Owned} : b ∈ w.methodsOf ts ↔ ∃ t r k, b = .method t k ∧ t ∈ ts ∧ w.types[t]? = some r ∧ k < r.methods.length := by
  unfold World.methodsOf
  rw [List.mem_flatMap]
  constructor
  · rintro ⟨t, h1, h2⟩
    cases hr : w.types[t]? with
    | none => rw [hr] at h2; cases h2
    | some r =>
      rw [hr] at h2
      simp only [TypeRec.methodsOwned, List.mem_map, List.mem_range] at h2
      obtain ⟨k, h2, rfl⟩ := h2
      exact ⟨t, r, k, rfl, h1, hr, h2⟩
  · rintro ⟨t, r, k, rfl, h1, h2, h3⟩
    refine ⟨t, h1, ?_⟩
    rw [h2]
    simp only [TypeRec.methodsOwned, List.mem_map, List.mem_range]
    exact ⟨k, h3, rfl⟩

theorem mem_fieldsOf {ts : List Nat} {b : Owned} : b ∈ w.fieldsOf ts ↔ ∃ t r k, b = .field t k ∧ t ∈ ts ∧ w.types[t]? = some r ∧ k < r.fields.length := by
  unfold World.fieldsOf
  rw [List.mem_flatMap]
  constructor
  · rintro ⟨t, h1, h2⟩
    cases hr : w.types[t]? with
    | none => rw [hr] at h2; cases h2
    | some r =>
      rw [hr] at h2
      simp only [TypeRec.fieldsOwned, List.mem_map, List.mem_range] at h2
      obtain ⟨k, h2, rfl⟩ := h2
      exact ⟨t, r, k, rfl, h1, hr, h2⟩
  · rintro ⟨t, r, k, rfl, h1, h2, h3⟩
    refine ⟨t, h1, ?_⟩
    rw [h2]
    simp only [TypeRec.fieldsOwned, List.mem_map, List.mem_range]
    exact ⟨k, h3, rfl⟩

/-- The built-in types are registered. -/
theorem named_lt {p : Primitives} (hp : p.Named w) : ∀ t ∈ p.all, t < w.types.length := by
  have key : ∀ x ∈ [(p.sbyte, "System.SByte"), (p.byte, "System.Byte"), (p.short, "System.Int16"), (p.ushort, "System.UInt16"),
    (p.int, "System.Int32"), (p.uint, "System.UInt32"), (p.long, "System.Int64"), (p.ulong, "System.UInt64"),
    (p.float, "System.Single"), (p.double, "System.Double"), (p.object, "System.Object")], x.1 < w.types.length := fun x hx => by
    obtain ⟨r, h, -⟩ := hp x hx
    exact (List.getElem?_eq_some_iff.mp h).1
  simpa [Primitives.all] using key

theorem runtime_uses (hw : Reached cfg w) {b : Owned} : b ∈ w.runtimeOwns ↔ Uses w .runtime b := by
  unfold World.runtimeOwns
  simp only [List.mem_append, List.mem_map, List.mem_range, List.mem_flatMap]
  constructor
  · rintro (((⟨i, h, rfl⟩ | ⟨t, h, rfl⟩) | ⟨n, -, t, h, rfl⟩) | h)
    · exact .assembly h
    · exact .type h
    · exact .type (hw.inv.getType_lt (by simpa using h))
    · cases hp : w.primitives with
      | none => rw [hp] at h; cases h
      | some p =>
        rw [hp] at h
        obtain ⟨t, g, rfl⟩ := List.mem_map.mp h
        exact .type (named_lt (hw.named p hp) t g)
  · intro h
    cases h with
    | assembly h => exact .inl (.inl (.inl ⟨_, h, rfl⟩))
    | type h => exact .inl (.inl (.inr ⟨_, h, rfl⟩))

theorem assembly_uses {i : Nat} {a : AssemblyRec} (ha : w.assemblies[i]? = some a) {b : Owned} : b ∈ w.assemblyOwns a ↔ Uses w (.assembly i) b := by
  unfold World.assemblyOwns
  simp only [List.mem_append, List.mem_map, List.mem_flatMap, mem_methodsOf, mem_fieldsOf, mem_methodNamed]
  constructor
  · rintro (((((⟨t, h, rfl⟩ | h) | ⟨t, r, k, rfl, h1, h2, h3⟩) | ⟨x, h0, r, k, y, rfl, h1, h2, h3, h4⟩) | ⟨t, r, k, rfl, h1, h2, h3⟩) | ⟨t, h, rfl⟩)
    · exact .types ha (.inl h)
    · cases he : a.entryPoint with
      | none => rw [he] at h; cases h
      | some m =>
        rw [he] at h
        have := List.mem_of_getElem? (Option.mem_toList.mp h)
        obtain ⟨t, r, k, rfl, h1, h2, h3⟩ := mem_methodsOf.mp this
        exact .methods ha h1 h2 h3
    · exact .methods ha h1 h2 h3
    · exact .referred ha h0 h1 h2 h3 h4
    · exact .fields ha h1 h2 h3
    · exact .types ha (.inr h)
  · intro h
    cases h with
    | types h h1 =>
      rw [ha] at h; cases h
      exact h1.elim (fun h => .inl (.inl (.inl (.inl (.inl ⟨_, h, rfl⟩))))) fun h => .inr ⟨_, h, rfl⟩
    | methods h h1 h2 h3 =>
      rw [ha] at h; cases h
      exact .inl (.inl (.inl (.inr ⟨_, _, _, rfl, h1, h2, h3⟩)))
    | fields h h1 h2 h3 =>
      rw [ha] at h; cases h
      exact .inl (.inr ⟨_, _, _, rfl, h1, h2, h3⟩)
    | referred h h0 h1 h2 h3 h4 =>
      rw [ha] at h; cases h
      exact .inl (.inl (.inr ⟨_, h0, _, _, _, rfl, h1, h2, h3, h4⟩))

theorem type_uses {t : Nat} {r : TypeRec} (hr : w.types[t]? = some r) {b : Owned} : b ∈ r.owned t ↔ Uses w (.type t) b := by
  unfold TypeRec.owned TypeRec.fieldsOwned TypeRec.methodsOwned
  simp only [List.mem_append, List.mem_map, List.mem_range, Option.mem_toList]
  constructor
  · rintro (((((⟨u, h, rfl⟩ | ⟨k, h, rfl⟩) | ⟨k, h, rfl⟩) | ⟨u, h, rfl⟩) | ⟨k, h, rfl⟩) | ⟨k, h, rfl⟩)
    · exact .base hr h
    · exact .field hr h
    · exact .method hr h
    · exact .iface hr h
    · exact .field hr (by simpa using lastNamed_lt h)
    · exact .method hr (by simpa using lastNamed_lt h)
  · intro h
    cases h with
    | base h h1 => rw [hr] at h; cases h; exact .inl (.inl (.inl (.inl (.inl ⟨_, h1, rfl⟩))))
    | field h h1 => rw [hr] at h; cases h; exact .inl (.inl (.inl (.inl (.inr ⟨_, h1, rfl⟩))))
    | method h h1 => rw [hr] at h; cases h; exact .inl (.inl (.inl (.inr ⟨_, h1, rfl⟩)))
    | iface h h1 => rw [hr] at h; cases h; exact .inl (.inl (.inr ⟨_, h1, rfl⟩))

theorem method_uses {t k : Nat} {r : TypeRec} {m : MethodRec} (hr : w.types[t]? = some r) (hm : r.methods[k]? = some m) {b : Owned} :
    b ∈ m.owned t k ↔ Uses w (.method t k) b := by
  unfold MethodRec.owned
  simp only [List.mem_append, List.mem_map, List.mem_range]
  constructor
  · rintro (⟨j, h, rfl⟩ | h)
    · exact .param hr hm h
    · cases hi : m.impl with
      | none => rw [hi] at h; cases h
      | internal => rw [hi] at h; cases h
      | il body =>
        rw [hi] at h
        obtain ⟨u, g, rfl⟩ := List.mem_map.mp h
        exact .local hr hm hi g
  · intro h
    cases h with
    | param h h1 h2 => rw [hr] at h; cases h; rw [hm] at h1; cases h1; exact .inl ⟨_, h2, rfl⟩
    | «local» h h1 h2 h3 =>
      rw [hr] at h; cases h; rw [hm] at h1; cases h1
      rw [h2]
      exact .inr (List.mem_map.mpr ⟨_, h3, rfl⟩)

/-- The strong references are the ownership links. -/
theorem owns_uses (hw : Reached cfg w) (p b : Owned) : b ∈ w.owns p ↔ Uses w p b := by
  cases p with
  | runtime => exact runtime_uses hw
  | assembly i =>
    unfold World.owns
    dsimp only
    cases ha : w.assemblies[i]? with
    | none =>
      constructor
      · intro h; cases h
      · intro h; cases h <;> simp_all
    | some a => exact assembly_uses ha
  | type t =>
    unfold World.owns
    dsimp only
    cases hr : w.types[t]? with
    | none =>
      constructor
      · intro h; cases h
      · intro h; cases h <;> simp_all
    | some r => exact type_uses hr
  | method t k =>
    unfold World.owns
    dsimp only
    cases hr : w.types[t]? with
    | none =>
      constructor
      · intro h; cases h
      · intro h; cases h <;> simp_all
    | some r =>
      dsimp only
      cases hm : r.methods[k]? with
      | none =>
        constructor
        · intro h; cases h
        · intro h; cases h <;> simp_all
      | some m => exact method_uses hr hm
  | field => exact ⟨fun h => (by cases h), fun h => (by cases h)⟩
  | param => exact ⟨fun h => (by cases h), fun h => (by cases h)⟩

theorem mem_typeAll {t : Nat} {r : TypeRec} {b : Owned} : b ∈ r.all t ↔ b = .type t ∨ (∃ k < r.fields.length, b = .field t k) ∨
    (∃ k < r.methods.length, b = .method t k) ∨ ∃ k j x, r.methods[k]? = some x ∧ j < x.params.length ∧ b = .param t k j := by
  unfold TypeRec.all TypeRec.fieldsOwned TypeRec.methodsOwned
  simp only [List.cons_append, List.mem_cons, List.mem_append, List.mem_map, List.mem_range, List.mem_flatMap]
  refine or_congr .rfl ?_
  constructor
  · rintro ((⟨k, h, rfl⟩ | ⟨k, h, rfl⟩) | ⟨k, h, h1⟩)
    · exact .inl ⟨k, h, rfl⟩
    · exact .inr (.inl ⟨k, h, rfl⟩)
    · rw [List.getElem?_eq_getElem h] at h1
      obtain ⟨j, g, rfl⟩ := List.mem_map.mp h1
      exact .inr (.inr ⟨k, j, _, List.getElem?_eq_getElem h, List.mem_range.mp g, rfl⟩)
  · rintro (⟨k, h, rfl⟩ | ⟨k, h, rfl⟩ | ⟨k, j, x, h1, h2, rfl⟩)
    · exact .inl (.inl ⟨k, h, rfl⟩)
    · exact .inl (.inr ⟨k, h, rfl⟩)
    · refine .inr ⟨k, (List.getElem?_eq_some_iff.mp h1).1, ?_⟩
      rw [h1]
      exact List.mem_map.mpr ⟨j, List.mem_range.mpr h2, rfl⟩

theorem mem_all {b : Owned} : b ∈ w.all ↔ b = .runtime ∨ (∃ i < w.assemblies.length, b = .assembly i) ∨
    ∃ t r, w.types[t]? = some r ∧ b ∈ TypeRec.all r t := by
  unfold World.all
  simp only [List.cons_append, List.mem_cons, List.mem_append, List.mem_map, List.mem_range, List.mem_flatMap]
  refine or_congr .rfl (or_congr ?_ ?_)
  · exact ⟨fun ⟨i, h, e⟩ => ⟨i, h, e.symm⟩, fun ⟨i, h, e⟩ => ⟨i, h, e.symm⟩⟩
  · constructor
    · rintro ⟨t, h, h1⟩
      rw [List.getElem?_eq_getElem h] at h1
      exact ⟨t, _, List.getElem?_eq_getElem h, h1⟩
    · rintro ⟨t, r, h, h1⟩
      refine ⟨t, (List.getElem?_eq_some_iff.mp h).1, ?_⟩
      rw [h]; exact h1

/-- The objects of the runtime are the runtime and what something owns. -/
theorem exists_mem (hw : Reached cfg w) (b : Owned) : b ∈ w.all ↔ Exists w b := by
  have hi := hw.inv
  have ty : ∀ t, t < w.types.length → .type t ∈ w.all := fun t h =>
    mem_all.mpr (.inr (.inr ⟨t, _, List.getElem?_eq_getElem h, mem_typeAll.mpr (.inl rfl)⟩))
  constructor
  · intro h
    rcases mem_all.mp h with rfl | ⟨i, g, rfl⟩ | ⟨t, r, g, g1⟩
    · exact .runtime
    · exact .owned (.assembly g)
    · rcases mem_typeAll.mp g1 with rfl | ⟨k, g2, rfl⟩ | ⟨k, g2, rfl⟩ | ⟨k, j, x, g2, g3, rfl⟩
      · exact .owned (.type (List.getElem?_eq_some_iff.mp g).1)
      · exact .owned (.field g g2)
      · exact .owned (.method g g2)
      · exact .owned (.param g g2 g3)
  · intro h
    cases h with
    | runtime => exact mem_all.mpr (.inl rfl)
    | owned h =>
      cases h with
      | assembly h => exact mem_all.mpr (.inr (.inl ⟨_, h, rfl⟩))
      | type h => exact ty _ h
      | types ha h =>
        have hl := C98_assemblies hw _ (List.mem_of_getElem? ha)
        rcases h with h | h
        · obtain ⟨r, h1, -⟩ := assemblyOf_ok (hl.types _ h)
          exact ty _ (List.getElem?_eq_some_iff.mp h1).1
        · exact ty _ (hl.typeRefs _ h)
      | methods ha h h1 h2 => exact mem_all.mpr (.inr (.inr ⟨_, _, h1, mem_typeAll.mpr (.inr (.inr (.inl ⟨_, h2, rfl⟩)))⟩))
      | fields ha h h1 h2 => exact mem_all.mpr (.inr (.inr ⟨_, _, h1, mem_typeAll.mpr (.inr (.inl ⟨_, h2, rfl⟩))⟩))
      | referred ha h h1 h2 =>
        exact mem_all.mpr (.inr (.inr ⟨_, _, h1, mem_typeAll.mpr (.inr (.inr (.inl ⟨_, (List.getElem?_eq_some_iff.mp h2).1, rfl⟩)))⟩))
      | base h h1 => exact ty _ (hi.base _ _ h _ h1)
      | iface h h1 => exact ty _ (hi.ifaces _ _ h _ h1)
      | field h h1 => exact mem_all.mpr (.inr (.inr ⟨_, _, h, mem_typeAll.mpr (.inr (.inl ⟨_, h1, rfl⟩))⟩))
      | method h h1 => exact mem_all.mpr (.inr (.inr ⟨_, _, h, mem_typeAll.mpr (.inr (.inr (.inl ⟨_, h1, rfl⟩)))⟩))
      | param h h1 h2 => exact mem_all.mpr (.inr (.inr ⟨_, _, h, mem_typeAll.mpr (.inr (.inr (.inr ⟨_, _, _, h1, h2, rfl⟩)))⟩))
      | «local» h h1 h2 h3 => exact ty _ ((hi.methods _ _ h _ (List.mem_of_getElem? h1)).1.locals _ h2 _ h3)

theorem nodup_map_inj {α β : Type} {f : α → β} (hf : ∀ a b, f a = f b → a = b) {l : List α} (h : l.Nodup) : (l.map f).Nodup :=
  List.Pairwise.map f (fun _ _ hne e => hne (hf _ _ e)) h

theorem nodup_flatMap {α β : Type} {f : α → List β} {l : List α} (h : l.Nodup) (h1 : ∀ a ∈ l, (f a).Nodup)
    (h2 : ∀ a b x, x ∈ f a → x ∈ f b → a = b) : (l.flatMap f).Nodup := by
  induction l with
  | nil => exact List.nodup_nil
  | cons a l ih =>
    rw [List.nodup_cons] at h
    rw [List.flatMap_cons, List.nodup_append]
    refine ⟨h1 a List.mem_cons_self, ih h.2 fun b hb => h1 b (List.mem_cons_of_mem _ hb), fun x hx y hy e => ?_⟩
    subst e
    obtain ⟨b, hb, hy⟩ := List.mem_flatMap.mp hy
    exact h.1 (h2 a b x hx hy ▸ hb)

theorem typeAll_nodup (r : TypeRec) (t : Nat) : (r.all t).Nodup := by
  unfold TypeRec.all TypeRec.fieldsOwned TypeRec.methodsOwned
  have h1 : ((List.range r.fields.length).map (Owned.field t)).Nodup := nodup_map_inj (fun _ _ e => by cases e; rfl) List.nodup_range
  have h2 : ((List.range r.methods.length).map (Owned.method t)).Nodup := nodup_map_inj (fun _ _ e => by cases e; rfl) List.nodup_range
  have mem : ∀ (k : Nat) (x : Owned), (x ∈ match r.methods[k]? with
      | some m => (List.range (MethodRec.params m).length).map (Owned.param t k)
      | none => []) → ∃ j, x = .param t k j := fun k x hx => by
    cases hm : r.methods[k]? with
    | none => rw [hm] at hx; cases hx
    | some m =>
      rw [hm] at hx
      obtain ⟨j, -, rfl⟩ := List.mem_map.mp hx
      exact ⟨j, rfl⟩
  have h3 : ((List.range r.methods.length).flatMap fun k => match r.methods[k]? with
      | some m => (List.range m.params.length).map (Owned.param t k)
      | none => []).Nodup := by
    refine nodup_flatMap List.nodup_range (fun k _ => ?_) fun a b x ha hb => ?_
    · cases r.methods[k]? with
      | none => exact List.nodup_nil
      | some m => exact nodup_map_inj (fun _ _ e => by cases e; rfl) List.nodup_range
    · obtain ⟨j, rfl⟩ := mem a x ha
      obtain ⟨j', e⟩ := mem b _ hb
      cases e; rfl
  rw [List.cons_append, List.cons_append, List.nodup_cons, List.nodup_append, List.nodup_append]
  simp only [List.mem_append, List.mem_map, List.mem_range, List.mem_flatMap]
  refine ⟨?_, ⟨h1, h2, ?_⟩, h3, ?_⟩
  · rintro ((⟨k, -, e⟩ | ⟨k, -, e⟩) | ⟨k, -, h⟩)
    · cases e
    · cases e
    · obtain ⟨j, e⟩ := mem k _ h; cases e
  · rintro a ⟨k, -, rfl⟩ b ⟨k', -, rfl⟩ e; cases e
  · rintro a (⟨k, -, rfl⟩ | ⟨k, -, rfl⟩) b ⟨k', -, h⟩ e
    · subst e; obtain ⟨j, e⟩ := mem k' _ h; cases e
    · subst e; obtain ⟨j, e⟩ := mem k' _ h; cases e

theorem all_nodup (w : World) : w.all.Nodup := by
  unfold World.all
  have ty : ∀ t b, (b ∈ match w.types[t]? with
      | some r => r.all t
      | none => []) → ∃ r, b ∈ TypeRec.all r t := fun t b h => by
    cases hr : w.types[t]? with
    | none => rw [hr] at h; cases h
    | some r => rw [hr] at h; exact ⟨r, h⟩
  rw [List.cons_append, List.nodup_cons, List.nodup_append]
  simp only [List.mem_append, List.mem_map, List.mem_range, List.mem_flatMap]
  refine ⟨?_, nodup_map_inj (fun _ _ e => by cases e; rfl) List.nodup_range, nodup_flatMap List.nodup_range (fun t _ => ?_) fun a b x ha hb => ?_, ?_⟩
  · rintro (⟨i, -, e⟩ | ⟨t, -, h⟩)
    · cases e
    · obtain ⟨r, h⟩ := ty t _ h
      rcases mem_typeAll.mp h with e | ⟨_, _, e⟩ | ⟨_, _, e⟩ | ⟨_, _, _, _, _, e⟩ <;> cases e
  · cases w.types[t]? with
    | none => exact List.nodup_nil
    | some r => exact typeAll_nodup r t
  · obtain ⟨r, ha⟩ := ty a _ ha
    obtain ⟨r', hb⟩ := ty b _ hb
    rcases mem_typeAll.mp ha with rfl | ⟨_, _, rfl⟩ | ⟨_, _, rfl⟩ | ⟨_, _, _, _, _, rfl⟩ <;>
    · rcases mem_typeAll.mp hb with e | ⟨_, _, e⟩ | ⟨_, _, e⟩ | ⟨_, _, _, _, _, e⟩ <;> cases e <;> rfl
  · rintro a ⟨i, -, rfl⟩ b ⟨t, -, h⟩ rfl
    obtain ⟨r, h⟩ := ty t _ h
    rcases mem_typeAll.mp h with e | ⟨_, _, e⟩ | ⟨_, _, e⟩ | ⟨_, _, _, _, _, e⟩ <;> cases e

theorem le_sum_mem {l : List Nat} {n : Nat} (h : n ∈ l) : n ≤ l.sum := by
  induction l with
  | nil => cases h
  | cons a l ih =>
    rw [List.sum_cons]
    rcases List.mem_cons.mp h with rfl | h
    · omega
    · have := ih h; omega

theorem sum_ne_zero {l : List Nat} (h : l.sum ≠ 0) : ∃ n ∈ l, n ≠ 0 := by
  induction l with
  | nil => cases h rfl
  | cons a l ih =>
    rw [List.sum_cons] at h
    by_cases ha : a = 0
    · obtain ⟨n, h1, h2⟩ := ih (by omega)
      exact ⟨n, List.mem_cons_of_mem _ h1, h2⟩
    · exact ⟨a, List.mem_cons_self, ha⟩

/-- At first every object is alive and the counts are right. -/
theorem counts_right (hw : Reached cfg w) {handles : List Owned} (hr : .runtime ∈ handles) (hh : ∀ b ∈ handles, Exists w b) :
    Right w.owns w.all handles (w.counts handles) [] ∧ ∀ b ∈ w.all, w.counts handles b ≠ 0 := by
  have live : ∀ b ∈ w.all, w.counts handles b ≠ 0 := by
    intro b hb
    unfold World.counts
    cases (exists_mem hw b).mp hb with
    | runtime => have := List.count_pos_iff.mpr hr; omega
    | owned h =>
      rename_i p
      have hp : p ∈ w.all := by
        cases p with
        | runtime => exact mem_all.mpr (.inl rfl)
        | assembly i =>
          have : ∃ a, w.assemblies[i]? = some a := by cases h <;> exact ⟨_, ‹_›⟩
          obtain ⟨a, ha⟩ := this
          exact mem_all.mpr (.inr (.inl ⟨i, (List.getElem?_eq_some_iff.mp ha).1, rfl⟩))
        | type t =>
          have : ∃ r, w.types[t]? = some r := by cases h <;> exact ⟨_, ‹_›⟩
          obtain ⟨r, hr⟩ := this
          exact mem_all.mpr (.inr (.inr ⟨t, r, hr, mem_typeAll.mpr (.inl rfl)⟩))
        | method t k =>
          have : ∃ r x, w.types[t]? = some r ∧ r.methods[k]? = some x := by cases h <;> exact ⟨_, _, ‹_›, ‹_›⟩
          obtain ⟨r, x, hr, hx⟩ := this
          exact mem_all.mpr (.inr (.inr ⟨t, r, hr, mem_typeAll.mpr (.inr (.inr (.inl ⟨k, (List.getElem?_eq_some_iff.mp hx).1, rfl⟩)))⟩))
        | field => cases h
        | param => cases h
      have h1 : 0 < (w.owns p).count b := List.count_pos_iff.mpr ((owns_uses hw p b).mpr h)
      have h2 : (w.owns p).count b ≤ (w.all.map fun p => (w.owns p).count b).sum :=
        le_sum_mem (List.mem_map.mpr ⟨p, hp, rfl⟩)
      omega
  refine ⟨⟨fun b => ?_, fun b hb => ?_⟩, live⟩
  · have : liveSum w.all (w.counts handles) (fun p => (w.owns p).count b) = (w.all.map fun p => (w.owns p).count b).sum := by
      unfold liveSum
      congr 1
      exact List.map_congr_left fun p hp => if_neg (live p hp)
    rw [this, List.count_nil, Nat.add_zero]; rfl
  · unfold World.counts at hb
    by_cases h1 : b ∈ handles
    · exact (exists_mem hw b).mpr (hh b h1)
    · rw [List.count_eq_zero_of_not_mem h1, Nat.zero_add] at hb
      obtain ⟨n, h1, h2⟩ := sum_ne_zero hb
      obtain ⟨p, -, rfl⟩ := List.mem_map.mp h1
      exact (exists_mem hw b).mpr (.owned ((owns_uses hw p b).mp (List.count_pos_iff.mp (by omega))))

/-! ## Circles -/

/-- Ownership goes from the runtime to assemblies, from there to types and methods, and ends at fields and parameters. -/
def rank : Owned → Nat
  | .runtime => 0
  | .assembly _ => 1
  | .type _ => 2
  | .method _ _ => 2
  | .field _ _ => 3
  | .param _ _ _ => 3

theorem uses_rank {p b : Owned} (h : Uses w p b) : rank p < rank b ∨ (rank p = 2 ∧ rank b = 2) := by
  cases h <;> simp [rank]

theorem trans_rank {p b : Owned} (h : TransGen (Uses w) p b) : rank p < rank b ∨ (rank p = 2 ∧ rank b = 2) := by
  induction h with
  | single h => exact uses_rank h
  | tail _ h ih => have := uses_rank h; omega

theorem refl_rank {p b : Owned} (h : ReflTransGen (Uses w) p b) : rank p ≤ rank b := by
  induction h with
  | refl => exact Nat.le_refl _
  | tail _ h ih => have := uses_rank h; omega

/-- What following ownership from type `t` to an object means in terms of mentions. -/
def Comes (w : World) (t : Nat) : Owned → Prop
  | .type u => TransGen (Mentions w) t u
  | .method u _ => ReflTransGen (Mentions w) t u
  | _ => True

theorem uses_comes {t : Nat} {p b : Owned} (hp : Comes w t p ∨ p = .type t) (h2 : rank p = 2) (h : Uses w p b) : Comes w t b := by
  have step {u v : Nat} (h1 : Comes w t (.type u) ∨ Owned.type u = .type t) (h : Mentions w u v) : TransGen (Mentions w) t v := by
    rcases h1 with h1 | h1
    · exact TransGen.tail h1 h
    · cases h1; exact TransGen.single h
  cases h with
  | assembly h => trivial
  | type h => cases h2
  | types _ _ => cases h2
  | methods _ _ _ _ => cases h2
  | fields _ _ _ _ => trivial
  | referred _ _ _ _ _ _ => cases h2
  | base h h1 => exact step hp ⟨_, h, .inl h1⟩
  | iface h h1 => exact step hp ⟨_, h, .inr (.inl h1)⟩
  | field _ _ => trivial
  | method h h1 =>
    rcases hp with h1 | h1
    · exact TransGen.to_reflTransGen h1
    · cases h1; exact ReflTransGen.refl
  | param _ _ _ => trivial
  | «local» h h1 h3 h4 =>
    rcases hp with h5 | h5
    · exact TransGen.tail' h5 ⟨_, h, .inr (.inr ⟨_, List.mem_of_getElem? h1, _, h3, h4⟩)⟩
    · cases h5

theorem trans_comes {t : Nat} {b : Owned} (h : TransGen (Uses w) (.type t) b) : Comes w t b := by
  induction h with
  | single h => exact uses_comes (.inr rfl) rfl h
  | @tail b c h1 h ih =>
    by_cases hb : rank b = 2
    · exact uses_comes (.inl ih) hb h
    · have h3 := trans_rank h1
      have h4 := uses_rank h
      have : rank (.type t) = 2 := rfl
      have h5 : rank c ≤ 3 := by cases c <;> simp [rank]
      omega

theorem mentions_uses {t u : Nat} (h : Mentions w t u) : TransGen (Uses w) (.type t) (.type u) := by
  obtain ⟨r, hr, h | h | ⟨x, hx, b, hb, h⟩⟩ := h
  · exact .single (.base hr h)
  · exact .single (.iface hr h)
  · obtain ⟨k, hk⟩ := List.mem_iff_getElem?.mp hx
    exact .tail (.single (.method hr (List.getElem?_eq_some_iff.mp hk).1)) (.local hr hk hb h)

theorem circular_uses {t : Nat} (h : Circular w t) : TransGen (Uses w) (.type t) (.type t) := by
  have : ∀ u, TransGen (Mentions w) t u → TransGen (Uses w) (.type t) (.type u) := fun u h => by
    induction h with
    | single h => exact mentions_uses h
    | tail _ h ih => exact ih.trans (mentions_uses h)
  exact this t h

theorem circular_lt {t : Nat} (h : Circular w t) : t < w.types.length := by
  obtain ⟨u, ⟨r, hr, -⟩, -⟩ := TransGen.head'_iff.mp h
  exact (List.getElem?_eq_some_iff.mp hr).1

/-- Every object on a circle of ownership is owned by a circular type. -/
theorem circle_type {p : Owned} (h : TransGen (Uses w) p p) : ∃ t, Circular w t ∧ ReflTransGen (Uses w) (.type t) p := by
  have hr : rank p = 2 := by have := trans_rank h; omega
  cases p with
  | runtime => cases hr
  | assembly => cases hr
  | field => cases hr
  | param => cases hr
  | type t => exact ⟨t, trans_comes h, .refl⟩
  | method t k =>
    obtain ⟨c, h1, h2⟩ := TransGen.tail'_iff.mp h
    have h3 := refl_rank h1
    have h4 : rank (.method t k) = 2 := rfl
    have h5 := uses_rank h2
    cases h2 with
    | method h6 h7 =>
      have h2 : Uses w (.type t) (.method t k) := .method h6 h7
      exact ⟨t, trans_comes (TransGen.head' h2 h1), .single h2⟩
    | methods => simp [rank] at h3
    | referred => simp [rank] at h3

theorem owns_all (hw : Reached cfg w) : ∀ p ∈ w.all, ∀ b ∈ w.owns p, b ∈ w.all :=
  fun p _ b hb => (exists_mem hw b).mpr (.owned ((owns_uses hw p b).mp hb))

theorem Spec.Held.rest (hw : Reached cfg w) {hs : List Owned} {c : Counts} (h : Held w hs c) : Rest w.owns w.all hs c := by
  induction h with
  | start h1 h2 => exact ⟨(counts_right hw h1 h2).1, fun p hp _ => (counts_right hw h1 h2).2 p hp⟩
  | take _ h1 ih => exact ih.take h1
  | drop _ h1 h2 ih =>
    obtain ⟨c', h3, h4⟩ := ih.drop (all_nodup w) (owns_all hw) h1 (Nat.le_refl _)
    cases h2.symm.trans h3
    exact h4

theorem owns_eq (hw : Reached cfg w) : (fun p q => q ∈ w.owns p) = Uses w := by
  funext p q; exact propext (owns_uses hw p q)

/-- What is alive, in terms of the specification. -/
theorem Spec.Held.alive (hw : Reached cfg w) {hs : List Owned} {c : Counts} (h : Held w hs c) (b : Owned) :
    c b ≠ 0 ↔ InUse w hs b ∨ ∃ t, Circular w t ∧ ReflTransGen (Uses w) (.type t) b := by
  have := (h.rest hw).exact b
  rw [owns_eq hw] at this
  rw [this]
  refine or_congr .rfl ⟨?_, ?_⟩
  · rintro ⟨p, -, h1, h2⟩
    obtain ⟨t, h3, h4⟩ := circle_type h1
    exact ⟨t, h3, h4.trans h2⟩
  · rintro ⟨t, h1, h2⟩
    exact ⟨.type t, (exists_mem hw _).mpr (.owned (.type (circular_lt h1))), circular_uses h1, h2⟩

end Clr
