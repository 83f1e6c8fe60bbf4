import Verif.Spec.Borrow

namespace Clr.Borrow
open B

variable {α β : Type}

/-- The code meets no refused borrow. -/
def Safe (x : B α) (h : Held) : Prop := ¬ x h .clash

theorem safe_pure (a : α) (h : Held) : Safe (pure a : B α) h := by
  intro hc; cases (show Out.clash = Out.value a from hc)

theorem safe_any (h : Held) : Safe (any : B α) h := by
  rintro ⟨a, ha⟩; cases ha

theorem safe_coin (h : Held) : Safe coin h := safe_any h

theorem safe_leave (h : Held) : Safe (leave : B α) h := by
  intro hc; cases (show Out.clash = Out.left from hc)

theorem safe_mayLeave (h : Held) : Safe mayLeave h := by
  intro hc
  rcases (show Out.clash = Out.value () ∨ Out.clash = Out.left from hc) with hc | hc <;> cases hc

theorem safe_bind {x : B α} {f : α → B β} {h : Held} (hx : Safe x h) (hf : ∀ a, Safe (f a) h) :
    Safe (x >>= f) h := by
  rintro (⟨a, -, hc⟩ | ⟨-, hc⟩ | ⟨hc, -⟩)
  · exact hf a hc
  · cases hc
  · exact hx hc

theorem safe_shared {c : Cell} {x : B α} {h : Held} (hc : ⟨c, true⟩ ∉ h)
    (hx : Safe x (⟨c, false⟩ :: h)) : Safe (shared c x) h := by
  intro hb
  unfold shared at hb
  rw [if_neg hc] at hb
  exact hx hb

theorem safe_exclusive {c : Cell} {x : B α} {h : Held} (hc : ∀ b, ⟨c, b⟩ ∉ h)
    (hx : Safe x (⟨c, true⟩ :: h)) : Safe (exclusive c x) h := by
  intro hb
  unfold exclusive at hb
  rw [if_neg (by simp [hc])] at hb
  exact hx hb

theorem safe_times {x : B Unit} {h : Held} (hx : Safe x h) : ∀ n, Safe (times n x) h
  | 0 => safe_pure _ _
  | n + 1 => safe_bind hx fun _ => safe_times hx n

theorem safe_rep {x : B Unit} {h : Held} (hx : Safe x h) : Safe (rep x) h :=
  safe_bind (safe_any _) fun n => safe_times hx n

/-- No guard on a cell of the given kind. -/
def FreeOf (P : Cell → Prop) (h : Held) : Prop := ∀ g ∈ h, ¬ P g.cell

/-- No exclusive guard on a cell of the given kind. -/
def SharedOn (P : Cell → Prop) (h : Held) : Prop := ∀ g ∈ h, P g.cell → g.exclusive = false

theorem FreeOf.cons {P : Cell → Prop} {h : Held} {c : Cell} {b : Bool} (hf : FreeOf P h)
    (hc : ¬ P c) : FreeOf P (⟨c, b⟩ :: h) := by
  intro g hg
  rcases List.mem_cons.1 hg with rfl | hg
  · exact hc
  · exact hf g hg

theorem FreeOf.mono {P Q : Cell → Prop} {h : Held} (hf : FreeOf P h) (hq : ∀ c, Q c → P c) :
    FreeOf Q h := fun g hg hc => hf g hg (hq _ hc)

theorem FreeOf.free {P : Cell → Prop} {h : Held} {c : Cell} (hf : FreeOf P h) (hc : P c) (b : Bool) :
    ⟨c, b⟩ ∉ h := fun hg => hf _ hg hc

theorem SharedOn.cons {P : Cell → Prop} {h : Held} {c : Cell} (hs : SharedOn P h) :
    SharedOn P (⟨c, false⟩ :: h) := by
  intro g hg hp
  rcases List.mem_cons.1 hg with rfl | hg
  · rfl
  · exact hs g hg hp

theorem SharedOn.cons_other {P : Cell → Prop} {h : Held} {c : Cell} {b : Bool} (hs : SharedOn P h)
    (hc : ¬ P c) : SharedOn P (⟨c, b⟩ :: h) := by
  intro g hg hp
  rcases List.mem_cons.1 hg with rfl | hg
  · exact absurd hp hc
  · exact hs g hg hp

theorem SharedOn.open {P : Cell → Prop} {h : Held} {c : Cell} (hs : SharedOn P h) (hc : P c) :
    ⟨c, true⟩ ∉ h := fun hg => by cases hs _ hg hc

/-- All cells but the heap of the running interpreter and the strings of a file being loaded. -/
def Lasting : Cell → Prop
  | .heap | .strings _ => False
  | _ => True

/-! ## Functions that only read -/

section
variable {h : Held}

theorem safe_getType? (hc : ⟨.clr, true⟩ ∉ h) : Safe getType? h := safe_shared hc (safe_any _)

theorem safe_getType (hc : ⟨.clr, true⟩ ∉ h) : Safe getType h :=
  safe_bind (safe_getType? hc) fun o => by
    cases o
    · exact safe_leave _
    · exact safe_pure _ _

theorem safe_base {t : Nat} (hs : SharedOn Lasting h) : Safe (base t) h :=
  safe_shared (hs.open trivial) (safe_any _)

theorem safe_instanceOf : ∀ (fuel t : Nat) {h : Held}, SharedOn Lasting h → Safe (instanceOf fuel t) h
  | 0, _, _, _ => safe_leave _
  | fuel + 1, t, h, hs => by
    refine safe_bind (safe_coin _) fun b => ?_
    split
    · exact safe_pure _ _
    refine safe_bind (safe_base hs) fun o => ?_
    cases o with
    | some b => exact safe_instanceOf fuel b hs
    | none => exact safe_shared (hs.open trivial) (safe_any _)

theorem safe_isReferenceType {fuel t : Nat} (hs : SharedOn Lasting h) :
    Safe (isReferenceType fuel t) h :=
  safe_bind (safe_mayLeave _) fun _ => safe_bind (safe_getType (hs.open trivial)) fun _ =>
    safe_instanceOf fuel t hs

theorem safe_size : ∀ (fuel t : Nat) {h : Held}, SharedOn Lasting h → Safe (size fuel t) h
  | 0, _, _, _ => safe_leave _
  | fuel + 1, t, h, hs => by
    refine safe_bind (safe_mayLeave _) fun _ => ?_
    refine safe_bind (safe_rep (safe_bind (safe_getType (hs.open trivial)) fun _ => safe_pure _ _))
      fun _ => ?_
    refine safe_bind (safe_coin _) fun b => ?_
    split
    · exact safe_pure _ _
    refine safe_bind (safe_shared (hs.open trivial) (safe_rep ?_)) fun _ => ?_
    · refine safe_bind (safe_mayLeave _) fun _ => safe_bind (safe_any _) fun ft =>
        safe_bind (safe_isReferenceType hs.cons) fun b => ?_
      split
      · exact safe_mayLeave _
      · exact safe_bind (safe_size fuel ft hs.cons) fun _ => safe_mayLeave _
    · refine safe_bind (safe_base hs) fun o => ?_
      cases o with
      | some b => exact safe_bind (safe_size fuel b hs) fun _ => safe_mayLeave _
      | none => exact safe_pure _ _

theorem safe_allFields : ∀ (fuel t : Nat) {h : Held}, SharedOn Lasting h → Safe (allFields fuel t) h
  | 0, _, _, _ => safe_leave _
  | fuel + 1, t, h, hs => by
    refine safe_bind (safe_shared (hs.open trivial) (safe_pure _ _)) fun _ => ?_
    refine safe_bind (safe_base hs) fun o => ?_
    cases o with
    | some b => exact safe_allFields fuel b hs
    | none => exact safe_pure _ _

theorem safe_allMethods : ∀ (fuel t : Nat) {h : Held}, SharedOn Lasting h → Safe (allMethods fuel t) h
  | 0, _, _, _ => safe_leave _
  | fuel + 1, t, h, hs => by
    have hi : Safe (shared (.interfaces t) (rep (do
        let i : Nat ← any
        allMethods fuel i))) h :=
      safe_shared (hs.open trivial) (safe_rep (safe_bind (safe_any _) fun i =>
        safe_allMethods fuel i hs.cons))
    refine safe_bind (safe_shared (hs.open trivial) (safe_pure _ _)) fun _ => ?_
    refine safe_bind (safe_base hs) fun o => ?_
    cases o with
    | some b => exact safe_bind (safe_allMethods fuel b hs) fun _ => hi
    | none => exact hi

theorem safe_resolveMethod {a : Nat} (hs : ⟨.methodDefs a, true⟩ ∉ h) : Safe (resolveMethod a) h :=
  safe_bind (safe_coin _) fun b => by
    split
    · exact safe_shared hs (safe_mayLeave _)
    · exact safe_mayLeave _

theorem safe_resolveField {a : Nat} (hs : SharedOn Lasting h) : Safe (resolveField a) h :=
  safe_bind (safe_coin _) fun b => by
    split
    · exact safe_shared (hs.open trivial) (safe_mayLeave _)
    · exact safe_mayLeave _

theorem safe_resolveType {a : Nat} (hs : SharedOn Lasting h) : Safe (resolveType a) h :=
  safe_bind (safe_coin _) fun b => by
    split
    · exact safe_shared (hs.open trivial) (safe_mayLeave _)
    · exact safe_mayLeave _

theorem safe_showMethod {m : Nat} (hs : SharedOn Lasting h) : Safe (showMethod m) h :=
  safe_bind (safe_mayLeave _) fun _ =>
    safe_shared (hs.open trivial) (safe_rep (safe_mayLeave _))

theorem safe_managedType (hs : SharedOn Lasting h) : Safe managedType h :=
  safe_shared (hs.open trivial) (safe_mayLeave _)

theorem safe_typeOf (hs : SharedOn Lasting h) : Safe typeOf h :=
  safe_shared (hs.open trivial) (safe_bind (safe_mayLeave _) fun _ => safe_any _)

theorem safe_arraySet (hs : SharedOn Lasting h) : Safe arraySet h :=
  safe_bind (safe_mayLeave _) fun _ => safe_shared (hs.open trivial)
    (safe_bind (safe_mayLeave _) fun _ => safe_managedType hs.cons)

theorem safe_objectGet (hs : SharedOn Lasting h) : Safe objectGet h :=
  safe_bind (safe_mayLeave _) fun _ => safe_shared (hs.open trivial) (safe_mayLeave _)

theorem safe_rawData {fuel : Nat} (hs : SharedOn Lasting h) : Safe (rawData fuel) h :=
  safe_bind (safe_any _) fun k => by
    match k with
    | 0 => exact safe_shared (hs.open trivial) (safe_bind (safe_mayLeave _) fun _ =>
        safe_bind (safe_any _) fun t => safe_size fuel t hs.cons)
    | 1 => exact safe_mayLeave _
    | 2 => exact safe_bind (safe_typeOf hs) fun t => safe_size fuel t hs

end

/-! ## Functions that register types -/

section
variable {h : Held}

theorem safe_new (n : Nat) : Safe (new n) h := safe_bind (safe_any _) fun _ => safe_pure _ _

theorem safe_arrayType {s : Seen} (hc : ∀ b, ⟨.clr, b⟩ ∉ h) : Safe (arrayType s) h := by
  refine safe_bind (safe_mayLeave _) fun _ => safe_bind (safe_getType? (hc _)) fun o => ?_
  cases o with
  | some t => exact safe_pure _ _
  | none =>
    exact safe_bind (safe_new _) fun _ => safe_bind (safe_exclusive hc (safe_mayLeave _)) fun _ =>
      safe_bind (safe_getType? (hc _)) fun _ => safe_bind (safe_exclusive hc (safe_pure _ _)) fun _ =>
      safe_pure _ _

theorem safe_getString {file : Nat} (hf : ∀ b, ⟨.strings file, b⟩ ∉ h) : Safe (getString file) h :=
  safe_exclusive hf (safe_mayLeave _)

theorem safe_typeDefOrRefName {file : Nat} (hf : ∀ b, ⟨.strings file, b⟩ ∉ h) :
    Safe (typeDefOrRefName file) h :=
  safe_bind (safe_mayLeave _) fun _ => safe_bind (safe_getString hf) fun _ => safe_getString hf

theorem safe_typeFor {s : Seen} {file : Nat} (hc : ∀ b, ⟨.clr, b⟩ ∉ h)
    (hf : ∀ b, ⟨.strings file, b⟩ ∉ h) : ∀ fuel, Safe (typeFor s file fuel) h
  | 0 => safe_leave _
  | fuel + 1 => by
    refine safe_bind (safe_mayLeave _) fun _ => safe_bind (safe_any _) fun k => ?_
    match k with
    | 0 => exact safe_getType (hc _)
    | 1 => exact safe_bind (safe_typeDefOrRefName hf) fun _ => safe_getType (hc _)
    | 2 => exact safe_bind (safe_typeFor hc hf fuel) fun _ => safe_arrayType hc

theorem safe_loadField {s : Seen} {file fuel : Nat} (hc : ∀ b, ⟨.clr, b⟩ ∉ h)
    (hf : ∀ b, ⟨.strings file, b⟩ ∉ h) : Safe (loadField s file fuel) h :=
  safe_bind (safe_mayLeave _) fun _ => safe_bind (safe_getString hf) fun _ =>
    safe_bind (safe_mayLeave _) fun _ => safe_bind (safe_typeFor hc hf fuel) fun _ => safe_pure _ _

theorem safe_loadClause {file : Nat} (hc : ∀ b, ⟨.clr, b⟩ ∉ h)
    (hf : ∀ b, ⟨.strings file, b⟩ ∉ h) : Safe (loadClause file) h := by
  refine safe_bind (safe_mayLeave _) fun _ => safe_bind (safe_coin _) fun b => ?_
  split
  · exact safe_bind (safe_getString hf) fun _ => safe_bind (safe_getString hf) fun _ =>
      safe_bind (safe_getType (hc _)) fun _ => safe_pure _ _
  · exact safe_pure _ _

theorem safe_loadBody {s : Seen} {file fuel : Nat} (hc : ∀ b, ⟨.clr, b⟩ ∉ h)
    (hf : ∀ b, ⟨.strings file, b⟩ ∉ h) : Safe (loadBody s file fuel) h :=
  safe_bind (safe_mayLeave _) fun _ =>
    safe_bind (safe_rep (safe_bind (safe_mayLeave _) fun _ =>
      safe_bind (safe_typeFor hc hf fuel) fun _ => safe_pure _ _)) fun _ =>
    safe_bind (safe_mayLeave _) fun _ =>
    safe_rep (safe_bind (safe_mayLeave _) fun _ => safe_loadClause hc hf)

/-- The cells of what a call creates, and the registries. -/
def Fresh (s : Seen) : Cell → Prop
  | .clr | .heap => True
  | .strings f => s.files ≤ f
  | .kind t | .base t | .fields t | .fieldMap t | .methods t | .methodMap t | .interfaces t =>
    s.types ≤ t
  | .asmTypes a | .entryPoint a | .methodDefs a | .asmFields a => s.assemblies ≤ a
  | .params m => s.methods ≤ m

/-- The cells that reading one method touches. -/
def ForMethod (s : Seen) : Cell → Prop
  | .clr => True
  | .strings f => s.files ≤ f
  | .params m => s.methods ≤ m
  | _ => False

theorem safe_new_bind {n : Nat} {f : Nat → B α} (hf : ∀ k, n ≤ k → Safe (f k) h) :
    Safe (new n >>= f) h := by
  rintro (⟨a, ha, hc⟩ | ⟨-, hc⟩ | ⟨hc, -⟩)
  · rcases ha with ⟨k, -, hk⟩ | ⟨-, hk⟩ | ⟨-, hk⟩
    · cases (show Out.value a = Out.value (n + k) from hk)
      exact hf _ (Nat.le_add_right _ _) hc
    · cases hk
    · cases hk
  · cases hc
  · exact safe_new n hc

theorem safe_loadMethod {s : Seen} {file fuel : Nat} (hh : FreeOf (ForMethod s) h)
    (hfile : s.files ≤ file) : Safe (loadMethod s file fuel) h := by
  have hc : ∀ b, ⟨.clr, b⟩ ∉ h := fun b => hh.free (c := .clr) trivial b
  have hf : ∀ b, ⟨.strings file, b⟩ ∉ h := fun b => hh.free (c := .strings file) hfile b
  refine safe_bind (safe_mayLeave _) fun _ => safe_bind (safe_getString hf) fun _ =>
    safe_bind (safe_mayLeave _) fun _ => safe_bind (safe_any _) fun k => ?_
  have rest : Safe (do
      let _ ← typeFor s file fuel
      let m ← new s.methods
      exclusive (.params m) (rep (do
        mayLeave
        getString file
        let _ ← typeFor s file fuel))) h := by
    refine safe_bind (safe_typeFor hc hf fuel) fun _ => safe_new_bind fun m hm => ?_
    refine safe_exclusive (fun b => hh.free (c := .params m) hm b) (safe_rep ?_)
    have hc' : ∀ b, ⟨.clr, b⟩ ∉ (⟨.params m, true⟩ :: h : Held) := by simpa using hc
    have hf' : ∀ b, ⟨.strings file, b⟩ ∉ (⟨.params m, true⟩ :: h : Held) := by simpa using hf
    exact safe_bind (safe_mayLeave _) fun _ => safe_bind (safe_getString hf') fun _ =>
      safe_bind (safe_typeFor hc' hf' fuel) fun _ => safe_pure _ _
  match k with
  | 0 =>
    exact safe_bind (safe_rep (safe_bind (safe_typeFor hc hf fuel) fun _ => safe_pure _ _)) fun _ =>
      safe_bind (safe_typeFor hc hf fuel) fun _ =>
      safe_bind (safe_bind (safe_shared (hc _) (safe_pure _ _)) fun _ => safe_mayLeave _) fun _ => rest
  | 1 => exact safe_bind (safe_loadBody hc hf) fun _ => rest
  | 2 => exact safe_bind (safe_mayLeave _) fun _ => rest

end

/-! ## Loading -/

section
variable {h : Held} {s : Seen} (hh : FreeOf (Fresh s) h) (hs : SharedOn Lasting h)
include hh

theorem safe_loadType {file : Nat} (hfile : s.files ≤ file) : Safe (loadType s file) h := by
  have hc : ∀ b, ⟨.clr, b⟩ ∉ h := fun b => hh.free (c := .clr) trivial b
  have hf : ∀ b, ⟨.strings file, b⟩ ∉ h := fun b => hh.free (c := .strings file) hfile b
  exact safe_bind (safe_mayLeave _) fun _ => safe_bind (safe_getString hf) fun _ =>
    safe_bind (safe_getString hf) fun _ => safe_bind (safe_new _) fun _ =>
    safe_bind (safe_exclusive hc (safe_mayLeave _)) fun _ =>
    safe_bind (safe_exclusive hc (safe_pure _ _)) fun _ => safe_pure _ _

theorem safe_resolveBase {file t : Nat} (hfile : s.files ≤ file) (ht : s.types ≤ t) :
    Safe (resolveBase file t) h := by
  have hf : ∀ b, ⟨.strings file, b⟩ ∉ h := fun b => hh.free (c := .strings file) hfile b
  refine safe_bind (safe_mayLeave _) fun _ => safe_bind (safe_coin _) fun b => ?_
  split
  · exact safe_pure _ _
  · exact safe_bind (safe_typeDefOrRefName hf) fun _ =>
      safe_bind (safe_getType (hh.free (c := .clr) trivial _)) fun _ =>
      safe_exclusive (fun b => hh.free (c := .base t) ht b) (safe_pure _ _)

theorem safe_resolveMethods {file fuel t : Nat} (hfile : s.files ≤ file) (ht : s.types ≤ t) :
    Safe (resolveMethods s file fuel t) h := by
  refine safe_exclusive (fun b => hh.free (c := .methods t) ht b) (safe_exclusive ?_ ?_)
  · intro b hb
    rcases List.mem_cons.1 hb with hb | hb
    · cases hb
    · exact hh.free (c := .methodMap t) ht b hb
  · refine safe_bind (safe_mayLeave _) fun _ => safe_rep (safe_loadMethod ?_ hfile)
    refine FreeOf.cons (FreeOf.cons (hh.mono ?_) ?_) ?_
    · intro c; cases c <;> simp [ForMethod, Fresh]
    · simp [ForMethod]
    · simp [ForMethod]

include hs

theorem safe_resolveKind {t : Nat} (ht : s.types ≤ t) : Safe (resolveKind t) h := by
  have hk : Safe (exclusive (.kind t) (pure ())) h :=
    safe_exclusive (fun b => hh.free (c := .kind t) ht b) (safe_pure _ _)
  refine safe_bind (safe_mayLeave _) fun _ => safe_bind (safe_coin _) fun b => ?_
  split
  · exact hk
  · refine safe_bind (safe_base hs) fun o => ?_
    cases o with
    | none => exact hk
    | some _ =>
      exact safe_bind (safe_base hs) fun _ => safe_bind (safe_mayLeave _) fun _ => hk

theorem safe_resolveFields {file fuel a t : Nat} (hfile : s.files ≤ file) (ha : s.assemblies ≤ a)
    (ht : s.types ≤ t) : Safe (resolveFields s file fuel a t) h := by
  have hc : ∀ b, ⟨.clr, b⟩ ∉ h := fun b => hh.free (c := .clr) trivial b
  have hf : ∀ b, ⟨.strings file, b⟩ ∉ h := fun b => hh.free (c := .strings file) hfile b
  have h1 : ∀ b, ⟨.fields t, b⟩ ∉ h := fun b => hh.free (c := .fields t) ht b
  have h2 : ∀ b, ⟨.fieldMap t, b⟩ ∉ h := fun b => hh.free (c := .fieldMap t) ht b
  have h3 : ∀ b, ⟨.asmFields a, b⟩ ∉ h := fun b => hh.free (c := .asmFields a) ha b
  refine safe_bind (safe_mayLeave _) fun _ => safe_bind (safe_exclusive h1 (safe_pure _ _)) fun _ =>
    safe_bind (safe_mayLeave _) fun _ => safe_bind (safe_base hs) fun o => ?_
  have rest : Safe (do
      mayLeave
      rep (do
        exclusive (.fields t) (exclusive (.fieldMap t)
          (exclusive (.asmFields a) (loadField s file fuel)))
        mayLeave
        let ft : Nat ← any
        size fuel ft
        mayLeave)) h := by
    refine safe_bind (safe_mayLeave _) fun _ => safe_rep ?_
    refine safe_bind (safe_exclusive h1 (safe_exclusive ?_ (safe_exclusive ?_
      (safe_loadField ?_ ?_)))) fun _ => safe_bind (safe_mayLeave _) fun _ =>
        safe_bind (safe_any _) fun ft => safe_bind (safe_size fuel ft hs) fun _ => safe_mayLeave _
    · simpa using h2
    · simpa using h3
    · simpa using hc
    · simpa using hf
  cases o with
  | some b => exact safe_bind (safe_size fuel b hs) fun _ => rest
  | none => exact rest

theorem safe_resolveType' {file fuel a t : Nat} (hfile : s.files ≤ file) (ha : s.assemblies ≤ a)
    (ht : s.types ≤ t) : Safe (resolveType' s file fuel a t) h :=
  safe_bind (safe_resolveBase hh hfile ht) fun _ => safe_bind (safe_resolveKind hh hs ht) fun _ =>
    safe_bind (safe_resolveFields hh hs hfile ha ht) fun _ => safe_resolveMethods hh hfile ht

theorem safe_loadAssembly : ∀ fuel, Safe (loadAssembly s fuel) h
  | 0 => safe_leave _
  | fuel + 1 => by
    have hc : ∀ b, ⟨.clr, b⟩ ∉ h := fun b => hh.free (c := .clr) trivial b
    refine safe_bind (safe_mayLeave _) fun _ => safe_new_bind fun file hfile => ?_
    have hf : ∀ b, ⟨.strings file, b⟩ ∉ h := fun b => hh.free (c := .strings file) hfile b
    have gs : Safe (getString file) h := safe_getString hf
    refine safe_bind gs fun _ => ?_
    refine safe_bind (safe_rep (safe_bind gs fun _ =>
      safe_bind (safe_shared (hc _) (safe_coin _)) fun b => ?_)) fun _ => ?_
    · split
      · exact safe_pure _ _
      · exact safe_bind (safe_shared (hc _) (safe_mayLeave _)) fun _ =>
          safe_bind (safe_mayLeave _) fun _ => safe_bind (safe_loadAssembly fuel) fun _ =>
          safe_pure _ _
    refine safe_bind (safe_rep (safe_bind (safe_mayLeave _) fun _ =>
      safe_bind (safe_coin _) fun b => ?_)) fun _ => ?_
    · split
      · exact safe_bind gs fun _ => safe_bind gs fun _ => safe_bind (safe_getType (hc _)) fun t =>
          safe_bind gs fun _ => safe_shared (hs.open trivial) (safe_mayLeave _)
      · exact safe_pure _ _
    refine safe_bind (safe_rep (safe_bind (safe_mayLeave _) fun _ => safe_bind gs fun _ =>
      safe_bind gs fun _ => safe_bind (safe_getType (hc _)) fun _ => safe_pure _ _)) fun _ => ?_
    refine safe_new_bind fun a ha => ?_
    refine safe_bind (safe_rep (safe_bind (safe_loadType hh hfile) fun _ => safe_pure _ _))
      fun _ => ?_
    refine safe_bind (safe_rep (safe_new_bind fun t ht => safe_resolveType' hh hs hfile ha ht))
      fun _ => ?_
    refine safe_bind (safe_rep (safe_bind (safe_mayLeave _) fun _ => safe_bind gs fun _ =>
      safe_bind gs fun _ => safe_bind (safe_getType (hc _)) fun _ => safe_new_bind fun t ht =>
      safe_bind gs fun _ => safe_bind gs fun _ => safe_bind (safe_getType (hc _)) fun _ =>
      safe_exclusive (fun b => hh.free (c := .interfaces t) ht b) (safe_pure _ _))) fun _ => ?_
    refine safe_bind (safe_exclusive (fun b => hh.free (c := .asmTypes a) ha b) (safe_pure _ _))
      fun _ => ?_
    refine safe_bind (safe_shared (hs.open trivial) (safe_rep (safe_new_bind fun t ht =>
      safe_shared (hs.cons.open trivial) (safe_pure _ _)))) fun _ => ?_
    refine safe_bind (safe_exclusive (fun b => hh.free (c := .methodDefs a) ha b) (safe_pure _ _))
      fun _ => ?_
    refine safe_bind (safe_coin _) fun b => ?_
    have fin : Safe (do
        exclusive .clr (pure ())
        (pure a : B Nat)) h :=
      safe_bind (safe_exclusive hc (safe_pure _ _)) fun _ => safe_pure _ _
    split
    · exact safe_bind (safe_resolveMethod (hs.open trivial)) fun _ =>
        safe_bind (safe_exclusive (fun b => hh.free (c := .entryPoint a) ha b) (safe_pure _ _))
          fun _ => fin
    · exact fin

end

/-! ## Execution -/

section
variable {h : Held} {s : Seen} (hc : ∀ b, ⟨.clr, b⟩ ∉ h) (hg : ∀ b, ⟨.heap, b⟩ ∉ h)
  (hs : SharedOn Lasting h)
include hc hg hs

theorem safe_step {fuel a : Nat} {inv : B Unit} (hi : Safe inv h) (op : Op) :
    Safe (step s fuel a inv op) h := by
  have hs' : SharedOn Lasting (⟨.heap, true⟩ :: h) := hs.cons_other (by simp [Lasting])
  have hc' : ∀ b, ⟨.clr, b⟩ ∉ (⟨.heap, true⟩ :: h : Held) := by simpa using hc
  have rm : Safe (resolveMethod a) h := safe_resolveMethod (hs.open trivial)
  have pm : ∀ m, Safe (shared (.params m) (pure ())) h := fun m =>
    safe_shared (hs.open trivial) (safe_pure _ _)
  cases op with
  | plain => exact safe_mayLeave _
  | ret => exact safe_bind (safe_getType? (hc _)) fun _ => safe_pure _ _
  | call => exact safe_bind rm fun _ => safe_bind (safe_any _) fun m => safe_bind (pm m) fun _ =>
      safe_bind (safe_mayLeave _) fun _ => hi
  | newobj =>
    exact safe_bind (safe_mayLeave _) fun _ => safe_bind rm fun _ => safe_bind (safe_any _) fun t =>
      safe_bind (safe_exclusive hg (safe_bind (safe_size fuel t hs') fun _ => safe_mayLeave _)) fun _ =>
      safe_bind (safe_any _) fun m => safe_bind (pm m) fun _ => safe_bind (safe_mayLeave _) fun _ =>
      safe_bind rm fun _ => safe_bind (pm m) fun _ => safe_bind (safe_mayLeave _) fun _ => hi
  | stfld => exact safe_bind (safe_resolveField hs) fun _ => safe_mayLeave _
  | ldfld => exact safe_bind (safe_resolveField hs) fun _ => safe_bind (safe_mayLeave _) fun _ =>
      safe_objectGet hs
  | newarr =>
    exact safe_bind (safe_resolveType hs) fun _ => safe_bind (safe_mayLeave _) fun _ =>
      safe_bind (safe_any _) fun t => safe_exclusive hg (safe_bind (safe_size fuel t hs') fun _ =>
        safe_bind (safe_mayLeave _) fun _ => safe_bind (safe_arrayType hc') fun _ => safe_pure _ _)
  | element =>
    refine safe_bind (safe_mayLeave _) fun _ => safe_bind (safe_managedType hs) fun _ =>
      safe_bind (safe_coin _) fun b => ?_
    split
    · exact safe_bind (safe_typeOf hs) fun _ => safe_bind (safe_getType (hc _)) fun _ => safe_pure _ _
    · exact safe_mayLeave _
  | ldstr =>
    exact safe_bind (safe_mayLeave _) fun _ => safe_exclusive hg (safe_bind (safe_mayLeave _) fun _ =>
      safe_bind (safe_getType (hc' _)) fun _ => safe_pure _ _)

theorem safe_invoke : ∀ fuel, Safe (invoke s fuel) h
  | 0 => safe_leave _
  | fuel + 1 => by
    refine safe_bind (safe_any _) fun k => ?_
    match k with
    | 0 =>
      exact safe_bind (safe_mayLeave _) fun _ => safe_bind (safe_any _) fun a =>
        safe_rep (safe_bind (safe_any _) fun op => safe_step hc hg hs (safe_invoke fuel) op)
    | 1 => exact safe_bind (safe_mayLeave _) fun _ => safe_exclusive hc (safe_pure _ _)
    | 2 => exact safe_bind (safe_any _) fun m => safe_bind (safe_showMethod hs) fun _ => safe_leave _

theorem safe_execute {fuel : Nat} : Safe (execute s fuel) h := by
  refine safe_bind (safe_mayLeave _) fun _ => safe_bind (safe_invoke hc hg hs fuel) fun _ =>
    safe_bind (safe_coin _) fun b => ?_
  split
  · exact safe_rawData hs
  · exact safe_pure _ _

end

end Clr.Borrow
