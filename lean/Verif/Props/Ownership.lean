import Verif.Lemmas.Ownership
import Verif.Props.Registry
/-!
# C103: what a runtime is made of lives as long as someone uses it

The parts of a runtime (assemblies, types, methods, fields, parameters) are reference counted. A host holds handles to some of
them and drops them as it likes. Wanted: nothing is used after it has been freed, what the host can still get at stays alive, and
what nobody can get at any more is freed.

The last fails: a method owns the types of its local variables, so a class with a method that has a local variable of the class
itself is never freed.
-/

namespace Clr
open Spec Relation

/-- **C103, dropping is safe.** Whatever the host has done before, dropping a handle it has ends, and no count of an object that
has been destroyed is touched. -/
theorem C103_drop (cfg : Cfg) (w : World) (hw : Reached cfg w) (hs : List Owned) (c : Counts) (h : Held w hs c) (b : Owned) (hb : b ∈ hs) :
    ∃ c', w.drop c b = .ok c' ∧ Held w (hs.erase b) c' := by
  obtain ⟨c', h1, -⟩ := (h.rest hw).drop (all_nodup w) (owns_all hw) hb (Nat.le_refl _)
  exact ⟨c', h1, .drop h hb h1⟩

/-- **C103, what is alive.** After any history of taking and dropping handles, exactly those objects are alive that are in use or that
belong to a circular type. -/
theorem C103_exact (cfg : Cfg) (w : World) (hw : Reached cfg w) (hs : List Owned) (c : Counts) (h : Held w hs c) (b : Owned) :
    c b ≠ 0 ↔ InUse w hs b ∨ ∃ t, Circular w t ∧ ReflTransGen (Uses w) (.type t) b :=
  h.alive hw b

/-- **C103, kept.** What the host can get at from its handles is alive. -/
theorem C103_kept (cfg : Cfg) (w : World) (hw : Reached cfg w) (hs : List Owned) (c : Counts) (h : Held w hs c) (b : Owned)
    (hb : InUse w hs b) : c b ≠ 0 :=
  (h.alive hw b).mpr (.inl hb)

/-- **C103.** Where no type is circular, exactly what is in use is alive. Full statement: without `hc`; see `C103_refuted`. -/
theorem C103_partial (cfg : Cfg) (w : World) (hw : Reached cfg w) (hc : ∀ t, ¬ Circular w t) (hs : List Owned) (c : Counts)
    (h : Held w hs c) (b : Owned) : c b ≠ 0 ↔ InUse w hs b := by
  rw [h.alive hw b]
  exact ⟨fun h => h.elim id fun ⟨t, h, _⟩ => absurd h (hc t), .inl⟩

/-- **C103, the end.** Where no type is circular, nothing is left when the host has dropped all its handles. -/
theorem C103_end_partial (cfg : Cfg) (w : World) (hw : Reached cfg w) (hc : ∀ t, ¬ Circular w t) (c : Counts)
    (h : Held w [] c) (b : Owned) : c b = 0 := by
  have := C103_partial cfg w hw hc [] c h b
  by_cases hb : c b = 0
  · exact hb
  · obtain ⟨x, hx, -⟩ := this.mp hb
    cases hx

/-- **C103, the runtime.** The runtime lives exactly as long as the host has a handle for it (nothing else owns it), and as long as it
lives so does everything that was loaded. -/
theorem C103_runtime (cfg : Cfg) (w : World) (hw : Reached cfg w) (hs : List Owned) (c : Counts) (h : Held w hs c) :
    (c .runtime ≠ 0 ↔ .runtime ∈ hs) ∧ (.runtime ∈ hs → ∀ b, Exists w b → c b ≠ 0) := by
  have no : ∀ p, ReflTransGen (Uses w) p .runtime → p = .runtime := fun p hp => by
    rcases ReflTransGen.cases_tail hp with h | ⟨q, -, h⟩
    · exact h.symm
    · cases h
  refine ⟨⟨fun hr => ?_, fun hr => C103_kept cfg w hw hs c h _ ⟨_, hr, .refl⟩⟩, fun hr b hb => C103_kept cfg w hw hs c h b ⟨_, hr, ?_⟩⟩
  · rcases (h.alive hw _).mp hr with ⟨x, hx, hr⟩ | ⟨t, -, hr⟩
    · rwa [no x hr] at hx
    · cases no _ hr
  · have hi := (exists_mem hw b).mpr hb
    have ty : ∀ t r, w.types[t]? = some r → ReflTransGen (Uses w) .runtime (.type t) := fun t r h =>
      .single (.type (List.getElem?_eq_some_iff.mp h).1)
    rcases mem_all.mp hi with rfl | ⟨i, hl, rfl⟩ | ⟨t, r, hr, hi⟩
    · exact .refl
    · exact .single (.assembly hl)
    · rcases mem_typeAll.mp hi with rfl | ⟨k, hk, rfl⟩ | ⟨k, hk, rfl⟩ | ⟨k, j, x, hk, hj, rfl⟩
      · exact ty t r hr
      · exact (ty t r hr).tail (.field hr hk)
      · exact (ty t r hr).tail (.method hr hk)
      · exact ((ty t r hr).tail (.method hr (List.getElem?_eq_some_iff.mp hk).1)).tail (.param hr hk hj)

/-- **C103, links.** While the runtime lives every link from a field, method or parameter to a type answers, and so do the links from
parameters to methods. Without it a link answers exactly if what it leads to is in use or belongs to a circular type; and the
questions that need the runtime (size, kind, array type) panic. -/
theorem C103_links (cfg : Cfg) (w : World) (hw : Reached cfg w) (hs : List Owned) (c : Counts) (h : Held w hs c) :
    (∀ t, c.typeLink t = some t ↔ InUse w hs (.type t) ∨ ∃ u, Circular w u ∧ ReflTransGen (Uses w) (.type u) (.type t)) ∧
    (∀ t k, c.methodLink t k = some (t, k) ↔ InUse w hs (.method t k) ∨ ∃ u, Circular w u ∧ ReflTransGen (Uses w) (.type u) (.method t k)) ∧
    (.runtime ∈ hs → (∀ t < w.types.length, c.typeLink t = some t) ∧
      (∀ tf t, c.size cfg w tf t = typeSize cfg w tf t ∧ c.isReference w tf t = isReferenceType w tf t) ∧
      ∀ t v, c.arrayOf cfg t v = arrayType cfg t v) ∧
    (.runtime ∉ hs → (∀ tf t, c.size cfg w tf t = .panic ∧ c.isReference w tf t = .panic) ∧ ∀ t v, c.arrayOf cfg t v = (.panic, v)) := by
  have hr := C103_runtime cfg w hw hs c h
  refine ⟨fun t => ?_, fun t k => ?_, fun hm => ⟨fun t ht => ?_, ?_⟩, fun hm => ?_⟩
  · rw [← h.alive hw]
    unfold Counts.typeLink
    split <;> simp_all
  · rw [← h.alive hw]
    unfold Counts.methodLink
    split <;> simp_all
  · unfold Counts.typeLink
    rw [if_neg (hr.2 hm _ (.owned (.type ht)))]
  · have e : c.runtimeLink = .ok () := if_neg (hr.1.mpr hm)
    refine ⟨fun tf t => ⟨?_, ?_⟩, fun t v => ?_⟩
    · unfold Counts.size; rw [e]; rfl
    · unfold Counts.isReference; rw [e]; rfl
    · unfold Counts.arrayOf; rw [e]; rfl
  · have e : c.runtimeLink = .panic := if_pos (Classical.not_not.mp fun g => hm (hr.1.mp g))
    refine ⟨fun tf t => ⟨?_, ?_⟩, fun t v => ?_⟩
    · unfold Counts.size; rw [e]; rfl
    · unfold Counts.isReference; rw [e]; rfl
    · unfold Counts.arrayOf; rw [e]; rfl

/-- **C103, assemblies.** An assembly lives as long as the host has a handle for it or the runtime. Otherwise asking a type for its
assembly panics, also if the type is in use. -/
theorem C103_assembly (cfg : Cfg) (w : World) (hw : Reached cfg w) (hs : List Owned) (c : Counts) (h : Held w hs c) (i : Nat) :
    (c (.assembly i) ≠ 0 ↔ .assembly i ∈ hs ∨ (.runtime ∈ hs ∧ i < w.assemblies.length)) ∧
    ∀ t r, w.types[t]? = some r → w.assemblies.findIdx? (·.id = r.assembly) = some i →
      c.assemblyLink w t = if c (.assembly i) = 0 then .panic else .ok i := by
  have no : ∀ p, ReflTransGen (Uses w) p (.assembly i) → p = .assembly i ∨ (p = .runtime ∧ i < w.assemblies.length) := fun p hp => by
    rcases ReflTransGen.cases_tail hp with h | ⟨q, h1, h⟩
    · exact .inl h.symm
    · cases h with
      | assembly h =>
        rcases ReflTransGen.cases_tail h1 with h2 | ⟨q, h1, h2⟩
        · exact .inr ⟨h2.symm, h⟩
        · cases h2
  refine ⟨⟨fun hc => ?_, ?_⟩, fun t r hr hi => ?_⟩
  · rcases (h.alive hw _).mp hc with ⟨x, hx, hr⟩ | ⟨t, -, hr⟩
    · rcases no x hr with rfl | ⟨rfl, hl⟩
      · exact .inl hx
      · exact .inr ⟨hx, hl⟩
    · rcases no _ hr with e | ⟨e, -⟩ <;> cases e
  · rintro (hc | ⟨hc, hl⟩)
    · exact C103_kept cfg w hw hs c h _ ⟨_, hc, .refl⟩
    · exact C103_kept cfg w hw hs c h _ ⟨_, hc, .single (.assembly hl)⟩
  · have e : w.typeAt t = .ok r := by unfold World.typeAt; rw [hr]; rfl
    unfold Counts.assemblyLink
    rw [e]
    show (match w.assemblies.findIdx? (·.id = r.assembly) with
      | some i => if c (.assembly i) = 0 then Res.panic else pure i
      | none => Res.panic) = _
    rw [hi]
    rfl

/-- **C103, members.** The members of a type that is in use are in use, with their parameters, and so is its base class; but a member
does not keep its type: where no type is circular, the type of a field or method held is alive only if it is in use otherwise. -/
theorem C103_members_partial (cfg : Cfg) (w : World) (hw : Reached cfg w) (hs : List Owned) (c : Counts) (h : Held w hs c) (t : Nat) (r : TypeRec)
    (hr : w.types[t]? = some r) :
    (c (.type t) ≠ 0 → (∀ k < r.fields.length, c (.field t k) ≠ 0) ∧ (∀ k < r.methods.length, c (.method t k) ≠ 0) ∧
      (∀ k x, r.methods[k]? = some x → ∀ j < x.params.length, c (.param t k j) ≠ 0) ∧
      (∀ b, r.base = some b → c (.type b) ≠ 0) ∧ ∀ i ∈ r.interfaces, c (.type i) ≠ 0) ∧
    ((∀ u, ¬ Circular w u) → (∀ b ∈ hs, ∃ u k, b = .field u k) → c (.type t) = 0) := by
  have up : ∀ {a b : Owned}, c a ≠ 0 → Uses w a b → c b ≠ 0 := fun {a b} ha hu => by
    rcases (h.alive hw a).mp ha with ⟨x, hx, hr⟩ | ⟨u, hc, hr⟩
    · exact (h.alive hw b).mpr (.inl ⟨x, hx, hr.tail hu⟩)
    · exact (h.alive hw b).mpr (.inr ⟨u, hc, hr.tail hu⟩)
  refine ⟨fun ht => ⟨fun k hk => up ht (.field hr hk), fun k hk => up ht (.method hr hk), fun k x hx j hj => ?_,
    fun b hb => up ht (.base hr hb), fun i hi => up ht (.iface hr hi)⟩, fun hc hf => ?_⟩
  · exact up (up ht (.method hr (List.getElem?_eq_some_iff.mp hx).1)) (.param hr hx hj)
  · by_cases hb : c (.type t) = 0
    · exact hb
    · obtain ⟨x, hx, hu⟩ := (C103_partial cfg w hw hc hs c h _).mp hb
      obtain ⟨u, k, rfl⟩ := hf x hx
      rcases ReflTransGen.cases_head hu with e | ⟨y, hy, -⟩
      · cases e
      · cases hy

namespace Ex
def nodeStrings : List String := ["app", "<Module>", "Node", "System", "Object", "core", "Length"]

/-- `class Node { static void Length() { Node n; } }`. -/
def node : Asm where
  strings := nodeStrings
  blobs := [[0x00, 0, 0x01], [0x07, 1, 0x12, 8]]
  bodies := [0x13, 0x30, 1, 0, 1, 0, 0, 0, 1, 0, 0, 0x11, 0x2a]
  tables :=
    [(0x01, [typeRefRow nodeStrings "System" "Object"]),
     (0x02, [typeRow nodeStrings 0 "" "<Module>" 0 1 1, typeRow nodeStrings 0 "" "Node" (refRow 1) 1 1]),
     (0x06, [methodRow nodeStrings 0x2000 0 0x10 "Length" 1 1]),
     (0x11, [[(2, 5)]]),
     (0x20, [assemblyRow nodeStrings "app"]),
     (0x23, [assemblyRefRow nodeStrings "core"])]

def nodeWorld : World := (loadData Cfg.debug noFiles 2 100 node.file coreWorld).2
theorem nodeReached : Reached Cfg.debug nodeWorld := .loadFile _ _ _ _ coreReached

theorem node_circular : Circular nodeWorld 20 := by
  have h : ∃ r, nodeWorld.types[20]? = some r ∧ ∃ x ∈ r.methods, ∃ b, x.impl = .il b ∧ 20 ∈ b.locals := by
    have : (match nodeWorld.types[20]? with
      | some r => match r.methods with
        | [x] => match x.impl with
          | .il b => b.locals == [20]
          | _ => false
        | _ => false
      | none => false) = true := by decide +kernel
    split at this
    · rename_i r hr
      split at this
      · rename_i x hx
        split at this
        · rename_i b hb
          exact ⟨r, hr, x, by rw [hx]; exact List.mem_singleton.mpr rfl, b, hb, by rw [eq_of_beq this]; exact List.mem_singleton.mpr rfl⟩
        · cases this
      · cases this
    · cases this
  obtain ⟨r, h1, h2⟩ := h
  exact .single ⟨r, h1, .inr (.inr h2)⟩

/-- In the core library nothing is circular: types mention only earlier ones. -/
theorem core_mentions : ∀ t u, Mentions coreWorld t u → u < t := by
  have : coreWorld.types.zipIdx.all (fun p => p.1.interfaces.isEmpty && (p.1.base.all fun u => decide (u < p.2)) &&
      p.1.methods.all fun x => match x.impl with
        | .il _ => false
        | _ => true) = true := by decide +kernel
  rintro t u ⟨r, hr, h⟩
  have h1 := List.all_eq_true.mp this (r, t) (List.mem_zipIdx_iff_getElem?.mpr hr)
  simp only [Bool.and_eq_true] at h1
  obtain ⟨⟨h1, h2⟩, h3⟩ := h1
  rcases h with h | h | ⟨x, hx, b, hb, h⟩
  · rw [h] at h2; simpa using h2
  · rw [List.isEmpty_iff.mp h1] at h; cases h
  · have := List.all_eq_true.mp h3 x hx
    rw [hb] at this; cases this

theorem core_plain : ∀ t, ¬ Circular coreWorld t := fun t h => by
  have : ∀ u, TransGen (Mentions coreWorld) t u → u < t := fun u h => by
    induction h with
    | single h => exact core_mentions _ _ h
    | tail _ h ih => have := core_mentions _ _ h; omega
  exact Nat.lt_irrefl _ (this t h)

/-- A host that has a handle for `Node` and one for the runtime. -/
theorem nodeHeld : Held nodeWorld [.runtime, .type 20] (nodeWorld.counts [.runtime, .type 20]) :=
  .start (by simp) fun b hb => by
    rcases List.mem_cons.mp hb with rfl | hb
    · exact .runtime
    · cases List.mem_singleton.mp hb
      exact .owned (.type (by decide +kernel))
end Ex

/-- **C103 is false as a whole.** When all handles have been dropped, `Node` is still there: nothing will ever free it. -/
theorem C103_refuted : ∃ (w : World) (c : Counts), Reached .debug w ∧ Held w [] c ∧ ¬ (∀ b, c b ≠ 0 ↔ InUse w [] b) ∧ c (.type 20) ≠ 0 := by
  obtain ⟨c1, -, h1⟩ := C103_drop .debug _ Ex.nodeReached _ _ Ex.nodeHeld .runtime (by simp)
  obtain ⟨c2, -, h2⟩ := C103_drop .debug _ Ex.nodeReached _ _ h1 (.type 20) (by decide)
  have h3 : c2 (.type 20) ≠ 0 := (h2.alive Ex.nodeReached _).mpr (.inr ⟨20, Ex.node_circular, .refl⟩)
  refine ⟨_, c2, Ex.nodeReached, h2, fun h => ?_, h3⟩
  obtain ⟨x, hx, -⟩ := (h _).mp h3
  cases hx

/-- The same, run: what remains when the last handle has been dropped is `Node` (owned by its method), its method (owned by the list and the
table of methods of `Node`) and `Object`, its base class. -/
example : (match Ex.nodeWorld.drop (Ex.nodeWorld.counts [.runtime]) .runtime with
    | .ok c => Ex.nodeWorld.all.filterMap fun b => if c b = 0 then none else some (b, c b)
    | _ => []) = [(.type 1, 1), (.type 20, 1), (.method 20 0, 2)] := by decide +kernel

/-- The core library alone is freed completely. -/
example : (match Ex.coreWorld.drop (Ex.coreWorld.counts [.runtime]) .runtime with
    | .ok c => some (Ex.coreWorld.all.filter fun b => c b ≠ 0)
    | _ => none) = some [] := by decide +kernel

/-- C103, instance of `C103_partial` and `C103_members_partial`: a host that keeps the class `Console` keeps its method and the parameter
of that, and `Object`, but not `String`, which the method only names. -/
example : ∃ c, Reached .debug Ex.coreWorld ∧ (∀ t, ¬ Circular Ex.coreWorld t) ∧ Held Ex.coreWorld [.type 18] c ∧
    c (.type 1) ≠ 0 ∧ c (.param 18 0 0) ≠ 0 ∧ c (.type 16) = 0 := by
  have h0 : Held Ex.coreWorld [.runtime, .type 18] (Ex.coreWorld.counts [.runtime, .type 18]) :=
    .start (by simp) fun b hb => by
      rcases List.mem_cons.mp hb with rfl | hb
      · exact .runtime
      · cases List.mem_singleton.mp hb
        exact .owned (.type (by decide +kernel))
  have hc : (match Ex.coreWorld.drop (Ex.coreWorld.counts [.runtime, .type 18]) .runtime with
      | .ok c => decide (c (.type 1) ≠ 0 ∧ c (.param 18 0 0) ≠ 0 ∧ c (.type 16) = 0)
      | _ => false) = true := by decide +kernel
  obtain ⟨c, h1, h2⟩ := C103_drop .debug _ Ex.coreReached _ _ h0 .runtime (by simp)
  rw [h1] at hc
  exact ⟨c, Ex.coreReached, Ex.core_plain, h2, of_decide_eq_true hc⟩

end Clr
