import Verif.Model.LoadRoom
import Verif.Lemmas.Room
import Verif.Lemmas.Kept
import Verif.Lemmas.Assemblies
/-! # Memory requested while loading: results and bounds -/

namespace Clr
open Reader

variable {cfg : Cfg} {m : Metadata} {α β : Type}

/-! ## Counting changes no result -/

/-- The counted step has the results of the step. -/
class CountsAs (x : MR α) (y : M α) : Prop where
  eq : ∀ w, (x w).1 = y w

theorem CountsAs.bind {x : MR α} {y : M α} {f : α → MR β} {g : α → M β} (h : CountsAs x y) (hf : ∀ a, CountsAs (f a) (g a)) :
    CountsAs (x >>= f) (y >>= g) := by
  refine ⟨fun w => ?_⟩
  show (MR.bind x f w).1 = M.bind' y g w
  unfold MR.bind M.bind'
  rw [← h.eq w]
  rcases (x w).1 with ⟨_ | _, w'⟩ <;> first | exact (hf _).eq _ | rfl

theorem CountsAs.reserve {n : Nat} {f : Unit → MR β} {y : M β} (h : CountsAs (f ()) y) : CountsAs (MR.reserve n >>= f) y :=
  ⟨fun w => h.eq w⟩

theorem CountsAs.of (x : M α) : CountsAs (MR.of x) x := ⟨fun _ => rfl⟩

theorem CountsAs.ofRoom {x : Room α} {y : Res α} (h : x.1 = y) : CountsAs (MR.ofRoom x) (liftM y) := ⟨fun w => by
  show (x.1, w) = (y, w)
  rw [h]⟩

theorem CountsAs.pure (a : α) : CountsAs (Pure.pure a) (Pure.pure a) := ⟨fun _ => rfl⟩

theorem CountsAs.ite {p : Prop} [Decidable p] {x x' : MR α} {y y' : M α} (h : CountsAs x y) (h' : CountsAs x' y') :
    CountsAs (if p then x else x') (if p then y else y') := by
  by_cases hp : p
  · rw [if_pos hp, if_pos hp]; exact h
  · rw [if_neg hp, if_neg hp]; exact h'

macro "tally" : tactic => `(tactic| repeat' first
  | with_reducible assumption
  | with_reducible exact CountsAs.of _
  | with_reducible exact CountsAs.pure _
  | with_reducible refine CountsAs.reserve ?_
  | with_reducible refine CountsAs.bind ?_ (fun _ => ?_)
  | with_reducible refine CountsAs.ite ?_ ?_
  | infer_instance
  | with_reducible refine CountsAs.ofRoom ?_
  | dsimp only)

theorem mapErrR_fst {g : String → String} {x : Room α} {y : Res α} (h : x.1 = y) : (MR.mapErr g x).1 = y.mapErr g := by
  rw [← h]; rfl

instance readLocalTypes_counts (n : Nat) (r : Reader) : CountsAs (readLocalTypesR cfg m n r) (readLocalTypes cfg m n r) := by
  induction n generalizing r with
  | zero => exact CountsAs.pure _
  | succ n ih =>
    unfold readLocalTypesR readLocalTypes
    tally
    exact mapErrR_fst (readElemR_elem cfg r)

instance readLocals_counts (t : Token) : CountsAs (readLocalsR cfg m t) (readLocals cfg m t) := by
  unfold readLocalsR readLocals
  tally

instance readClauseSection_counts (r : Reader) : CountsAs (readClauseSectionR cfg m r) (readClauseSection cfg m r) := by
  unfold readClauseSectionR readClauseSection
  tally

instance readMoreSections_counts (b : Nat) (r : Reader) : CountsAs (readMoreSectionsR cfg m b r) (readMoreSections cfg m b r) := by
  unfold readMoreSectionsR readMoreSections
  tally

instance loadBody_counts (rva : Nat) : CountsAs (loadBodyR cfg m rva) (loadBody cfg m rva) := by
  unfold loadBodyR loadBody
  tally

theorem readFieldSigR_fst (r : Reader) : (readFieldSigR cfg r).1 = readFieldSig cfg r := by
  unfold readFieldSigR readFieldSig
  rw [Room.bind_fst]
  refine congrArg (Res.bind _) (funext fun ⟨b, r'⟩ => ?_)
  dsimp only
  split
  · rfl
  · rw [Room.bind_fst]
    refine congrArg (Res.bind _) (funext fun b' => ?_)
    split
    · rfl
    · exact readElemR_elem cfg r'

instance loadField_counts (t i o : Nat) : CountsAs (loadFieldR cfg m t i o) (loadField cfg m t i o) := by
  unfold loadFieldR loadField
  tally
  exact readFieldSigR_fst _

instance loadFields_counts (fuel t n i o : Nat) : CountsAs (loadFieldsR cfg fuel m t n i o) (loadFields cfg fuel m t n i o) := by
  induction n generalizing i o with
  | zero => exact CountsAs.pure _
  | succ n ih =>
    unfold loadFieldsR loadFields
    refine CountsAs.bind inferInstance fun _ => CountsAs.bind (CountsAs.of _) fun _ => CountsAs.bind (CountsAs.of _) fun _ => CountsAs.bind (CountsAs.of _) fun _ => ?_
    exact CountsAs.bind (ih _ _) fun _ => CountsAs.pure _

instance resolveFields_counts (fuel t i : Nat) : CountsAs (resolveFieldsR cfg fuel m t i) (resolveFields cfg fuel m t i) := by
  unfold resolveFieldsR resolveFields
  tally

instance loadImpl_counts (t : Nat) (row : MethodDefRow) (name : Name) (sig : MethodSig) :
    CountsAs (loadImplR cfg m t row name sig) (loadImpl cfg m t row name sig) := by
  unfold loadImplR loadImpl
  tally

instance loadMethod_counts (t i : Nat) : CountsAs (loadMethodR cfg m t i) (loadMethod cfg m t i) := by
  unfold loadMethodR loadMethod
  tally
  exact readMethodSigR_fst _ _

instance loadMethods_counts (t n i : Nat) : CountsAs (loadMethodsR cfg m t n i) (loadMethods cfg m t n i) := by
  induction n generalizing i with
  | zero => exact CountsAs.pure _
  | succ n ih =>
    unfold loadMethodsR loadMethods
    exact CountsAs.bind inferInstance fun _ => CountsAs.bind (CountsAs.of _) fun _ => ih _

instance resolveMethods_counts (t i : Nat) : CountsAs (resolveMethodsR cfg m t i) (resolveMethods cfg m t i) := by
  unfold resolveMethodsR resolveMethods
  tally

instance resolveType_counts (fuel t i : Nat) : CountsAs (resolveTypeR cfg fuel m t i) (resolveType cfg fuel m t i) := by
  unfold resolveTypeR resolveType
  tally

instance resolveTypes_counts (fuel : Nat) (ts : List Nat) (i : Nat) : CountsAs (resolveTypesR cfg fuel m ts i) (resolveTypes cfg fuel m ts i) := by
  induction ts generalizing i with
  | nil => exact CountsAs.pure _
  | cons t ts ih =>
    unfold resolveTypesR resolveTypes
    exact CountsAs.bind inferInstance fun _ => CountsAs.bind (ih _) fun _ => CountsAs.pure _

instance loadSelf_counts (fuel : Nat) (name : Name) : CountsAs (loadSelfR cfg fuel m name) (loadSelf cfg fuel m name) := by
  unfold loadSelfR loadSelf
  tally

theorem readMetadataR_fst (data : Bytes) : (readMetadataR cfg data).1 = readMetadata cfg data := by
  unfold readMetadataR readMetadata
  simp only [Room.bind_fst, Room.of_fst, readTableStreamR_fst, Room.pure_fst, Res.pure_eq]

theorem loadFile_counts (fs : Name → Option Bytes) (depth fuel : Nat) (data : Bytes) :
    CountsAs (loadFileR cfg (fun m => loadRefs (loadAssembly cfg fs depth fuel) m m.tables.assemblyRef) fuel data)
      (loadData cfg fs (depth + 1) fuel data) := by
  refine CountsAs.bind (CountsAs.ofRoom (readMetadataR_fst data)) fun m => ?_
  refine CountsAs.bind (CountsAs.of _) fun row => CountsAs.bind (CountsAs.of _) fun name => CountsAs.bind (CountsAs.of _) fun _ => ?_
  exact loadSelf_counts fuel name

end Clr
