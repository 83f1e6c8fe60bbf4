import Verif.Lemmas.Borrow

/-!
# C97: no call of the API ends in a refused borrow
-/

namespace Clr
open Borrow Spec

namespace Borrow

theorem HostHolds.shared {s : Seen} {h : Held} (hh : HostHolds s h) : SharedOn Lasting h := by
  intro g hg _
  cases hh g hg <;> rfl

theorem HostHolds.fresh {s : Seen} {h : Held} (hh : HostHolds s h) (hr : RegistryFree h) :
    FreeOf (Fresh s) h := by
  intro g hg hf
  cases hh g hg with
  | registry => exact hr hg
  | _ h => exact absurd hf (Nat.not_le.2 h)

end Borrow

/-- **C97.** Whatever views the host program holds (lists of types, fields, methods, interfaces and
parameters), no call of the API ends in the panic of a refused borrow, for any files, programs and
nesting of calls: the calls that change the runtime provided the host holds no view of the registries
themselves, the others without condition. -/
theorem C97_borrows_partial (s : Seen) (h : Held) (hh : HostHolds s h) (c : Call)
    (hc : Changing c → RegistryFree h) : ¬ CanClash s h c := by
  rintro ⟨fuel, hcl⟩
  have hs := Borrow.HostHolds.shared hh
  have op : ∀ {c : Cell}, Lasting c → ⟨c, true⟩ ∉ h := fun hl => hs.open hl
  have hheap : ∀ b, (⟨.heap, b⟩ : Guard) ∉ h := fun b hb => by cases hh _ hb
  have clrFree : RegistryFree h → ∀ b, (⟨.clr, b⟩ : Guard) ∉ h := fun hr b hb => by
    cases b
    · exact hr hb
    · cases hh _ hb
  revert hcl
  cases c with
  | loadAssembly =>
    have hf := Borrow.HostHolds.fresh hh (hc trivial)
    exact safe_bind (safe_shared (op trivial) (safe_mayLeave _)) fun _ =>
      safe_bind (safe_mayLeave _) fun _ => safe_bind (safe_loadAssembly hf hs fuel) fun _ => safe_pure _ _
  | loadAssemblyFromData =>
    have hf := Borrow.HostHolds.fresh hh (hc trivial)
    exact safe_bind (safe_loadAssembly hf hs fuel) fun _ => safe_pure _ _
  | execute => exact safe_execute (clrFree (hc trivial)) hheap hs
  | arrayOf => exact safe_bind (safe_arrayType (clrFree (hc trivial))) fun _ => safe_pure _ _
  | getType => exact safe_bind (safe_getType? (op trivial)) fun _ => safe_pure _ _
  | resolveMethod a => exact safe_resolveMethod (op trivial)
  | resolveField a => exact safe_resolveField hs
  | resolveType a => exact safe_resolveType hs
  | base t => exact safe_bind (safe_base hs) fun _ => safe_pure _ _
  | allFields t => exact safe_allFields fuel t hs
  | allMethods t => exact safe_allMethods fuel t hs
  | kind t => exact safe_shared (op trivial) (safe_mayLeave _)
  | instanceOf t => exact safe_bind (safe_instanceOf fuel t hs) fun _ => safe_pure _ _
  | isReferenceType t => exact safe_bind (safe_isReferenceType hs) fun _ => safe_pure _ _
  | size t => exact safe_size fuel t hs
  | showMethod m => exact safe_showMethod hs
  | managedType => exact safe_managedType hs
  | typeOf => exact safe_bind (safe_typeOf hs) fun _ => safe_pure _ _
  | arraySet => exact safe_arraySet hs
  | asSlice => exact safe_managedType hs
  | objectGet => exact safe_objectGet hs
  | _ => exact safe_shared (op trivial) (safe_pure _ _)

/-- The counter of a `RefCell` (core::cell): -1 while it is borrowed exclusively, otherwise the number of shared borrows. -/
def borrowFlag (h : Held) (c : Cell) : Int := if ⟨c, true⟩ ∈ h then -1 else (h.filter (· = ⟨c, false⟩)).length

/-- **C97**: borrows are refused and counted as the standard library does: a shared one while the counter is negative, an
exclusive one unless it is zero; during a borrow the counter of the cell is one more or -1, that of the other cells the same. -/
theorem C97_rules {α : Type} (h : Held) (c : Cell) (body : B α) (o : Out α) :
    (borrowFlag h c < 0 → (B.shared c body h o ↔ o = .clash)) ∧
    (borrowFlag h c ≠ 0 → (B.exclusive c body h o ↔ o = .clash)) ∧
    (0 ≤ borrowFlag h c → borrowFlag (⟨c, false⟩ :: h) c = borrowFlag h c + 1 ∧ (B.shared c body h o ↔ body (⟨c, false⟩ :: h) o)) ∧
    (borrowFlag h c = 0 → (B.exclusive c body h o ↔ body (⟨c, true⟩ :: h) o)) ∧
    borrowFlag (⟨c, true⟩ :: h) c = -1 ∧ ∀ d b, d ≠ c → borrowFlag (⟨c, b⟩ :: h) d = borrowFlag h d := by
  have hlen : (h.filter (· = (⟨c, false⟩ : Guard))).length = 0 ↔ (⟨c, false⟩ : Guard) ∉ h := by
    rw [List.length_eq_zero_iff, List.filter_eq_nil_iff]
    exact ⟨fun hn hc => hn _ hc (by simp), fun hn g hg he => hn (by simpa using (of_decide_eq_true he) ▸ hg)⟩
  unfold B.shared B.exclusive borrowFlag
  refine ⟨?_, ?_, ?_, ?_, by simp, ?_⟩
  · by_cases ht : (⟨c, true⟩ : Guard) ∈ h
    · simp [ht]
    · rw [if_neg ht]; omega
  · by_cases ht : (⟨c, true⟩ : Guard) ∈ h
    · simp [ht]
    · rw [if_neg ht]
      intro hz
      have hf : (⟨c, false⟩ : Guard) ∈ h := Classical.not_not.1 fun hn => hz (by rw [hlen.2 hn]; rfl)
      simp [hf]
  · by_cases ht : (⟨c, true⟩ : Guard) ∈ h
    · simp [ht]
    · simp [ht]
  · by_cases ht : (⟨c, true⟩ : Guard) ∈ h
    · simp [ht]
    · rw [if_neg ht]
      intro hz
      have hf : (⟨c, false⟩ : Guard) ∉ h := hlen.1 (by omega)
      simp [ht, hf]
  · intro d b hd
    simp [hd, Ne.symm hd]

/-- A cell borrowed twice for reading and one borrowed for writing. -/
example : borrowFlag [⟨.clr, false⟩, ⟨.clr, false⟩, ⟨.heap, true⟩] .clr = 2 ∧
    borrowFlag [⟨.clr, false⟩, ⟨.clr, false⟩, ⟨.heap, true⟩] .heap = -1 := by decide

/-- Starting a runtime meets no refused borrow: its cells are new, so no guard exists on them. -/
theorem C97_start (s : Seen) (fuel : Nat) : ¬ Borrow.newRuntime s fuel [] .clash := by
  have hf : FreeOf (Fresh s) [] := fun g hg => by cases hg
  have hs : SharedOn Lasting [] := fun g hg => by cases hg
  exact safe_bind (safe_mayLeave _) fun _ => safe_bind (safe_loadAssembly hf hs fuel) fun _ =>
    safe_bind (safe_loadAssembly hf hs fuel) fun _ =>
    safe_bind (safe_times (safe_bind (safe_getType (by simp)) fun _ => safe_pure _ _) 11) fun _ =>
    safe_exclusive (by simp) (safe_pure _ _)

/-- The unconditional claim is false: a host that asks for an array type while it holds a view of the
registry (`for t in clr.types().iter() { t.array_of(); }`) ends in the panic of a refused borrow, as
soon as the array type is a new one. -/
theorem C97_view_refuted (s : Seen) :
    HostHolds s [⟨.clr, false⟩] ∧ CanClash s [⟨.clr, false⟩] .arrayOf := by
  refine ⟨fun g hg => ?_, 0, ?_⟩
  · cases List.mem_singleton.1 hg
    exact .registry
  · have h1 : B.mayLeave [⟨.clr, false⟩] (.value ()) := .inl rfl
    have h2 : getType? [⟨.clr, false⟩] (.value none) := by
      unfold getType? B.shared
      rw [if_neg (by decide)]
      exact ⟨none, rfl⟩
    have h3 : new s.types [⟨.clr, false⟩] (.value (s.types + 0)) := .inl ⟨0, ⟨0, rfl⟩, rfl⟩
    have h4 : nextTypeId [⟨.clr, false⟩] .clash := by
      unfold nextTypeId B.exclusive
      rw [if_pos (by decide)]
    exact .inr (.inr ⟨.inl ⟨(), h1, .inl ⟨none, h2, .inl ⟨_, h3, .inr (.inr ⟨h4, rfl⟩)⟩⟩⟩, rfl⟩)

/-- The condition is needed for running programs too: with a view of the registry alive, a program
that creates an array or writes to the console can end in a refused borrow. -/
theorem C97_execute_refuted (s : Seen) : CanClash s [⟨.clr, false⟩] .execute := by
  refine ⟨1, ?_⟩
  have h1 : B.mayLeave [⟨.clr, false⟩] (.value ()) := .inl rfl
  have h2 : native [⟨.clr, false⟩] .clash := by
    refine .inl ⟨(), h1, ?_⟩
    show B.exclusive .clr (pure ()) [⟨.clr, false⟩] .clash
    unfold B.exclusive
    rw [if_pos (by decide)]
  have h3 : invoke s 1 [⟨.clr, false⟩] .clash := .inl ⟨1, ⟨1, rfl⟩, h2⟩
  exact .inl ⟨(), h1, .inr (.inr ⟨h3, rfl⟩)⟩

/-- A host holding views of two types, of an assembly and of a method, while it loads a file. -/
example : HostHolds ⟨40, 2, 60, 3⟩
      [⟨.fields 3, false⟩, ⟨.methods 7, false⟩, ⟨.asmTypes 1, false⟩, ⟨.params 59, false⟩] ∧
    RegistryFree [⟨.fields 3, false⟩, ⟨.methods 7, false⟩, ⟨.asmTypes 1, false⟩, ⟨.params 59, false⟩] := by
  refine ⟨fun g hg => ?_, by simp [RegistryFree]⟩
  simp only [List.mem_cons, List.not_mem_nil, or_false] at hg
  rcases hg with rfl | rfl | rfl | rfl
  · exact .fields (by decide)
  · exact .methods (by decide)
  · exact .assemblyTypes (by decide)
  · exact .parameters (by decide)

/-- The calls do return in the model, so that the statement is not about an empty set of executions:
with views of two types alive, an array type is made and registered. -/
example (s : Seen) : Call.run s 0 .arrayOf [⟨.fields 3, false⟩, ⟨.methods 4, false⟩] (.value ()) := by
  have h1 : B.mayLeave [⟨.fields 3, false⟩, ⟨.methods 4, false⟩] (.value ()) := .inl rfl
  have h2 : getType? [⟨.fields 3, false⟩, ⟨.methods 4, false⟩] (.value none) := by
    unfold getType? B.shared
    rw [if_neg (by decide)]
    exact ⟨none, rfl⟩
  have h3 : new s.types [⟨.fields 3, false⟩, ⟨.methods 4, false⟩] (.value (s.types + 0)) :=
    .inl ⟨0, ⟨0, rfl⟩, rfl⟩
  have h4 : nextTypeId [⟨.fields 3, false⟩, ⟨.methods 4, false⟩] (.value ()) := by
    unfold nextTypeId B.exclusive
    rw [if_neg (by decide)]
    exact .inl rfl
  have h5 : addType [⟨.fields 3, false⟩, ⟨.methods 4, false⟩] (.value ()) := by
    unfold addType B.exclusive
    rw [if_neg (by decide)]
    rfl
  have h : arrayType s [⟨.fields 3, false⟩, ⟨.methods 4, false⟩] (.value (s.types + 0)) :=
    .inl ⟨(), h1, .inl ⟨none, h2, .inl ⟨_, h3, .inl ⟨(), h4, .inl ⟨none, h2, .inl ⟨(), h5, rfl⟩⟩⟩⟩⟩⟩
  exact .inl ⟨_, h, rfl⟩

end Clr
