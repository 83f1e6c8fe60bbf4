import Verif.Model.Main
import Verif.Model.Array
/-!
# Builds with and without overflow checks

For every function of the model that can overflow: unless the build with overflow checks panics, the build without does the same.
The statements are type-class instances, so that the proof for a function finds those for the functions it calls.
-/

namespace Clr
variable {α β : Type}

/-- The second build does what the first does, unless the first panics. -/
class Agree (x y : Res α) : Prop where
  eq : x ≠ .panic → y = x

namespace Agree
instance (priority := low) refl (x : Res α) : Agree x x := ⟨fun _ => rfl⟩
theorem bind {x y : Res α} {f g : α → Res β} (h : Agree x y) (h' : ∀ a, Agree (f a) (g a)) : Agree (x >>= f) (y >>= g) := by
  refine ⟨fun hv => ?_⟩
  cases x with
  | ok a => rw [h.eq (by simp)]; exact (h' a).eq hv
  | panic => exact absurd rfl hv
  | _ => rw [h.eq (by simp)]; rfl

instance (b x y : Nat) : Agree (uadd .debug b x y) (uadd .release b x y) := ⟨by
  unfold uadd; split <;> simp [Cfg.debug]⟩
instance (b x y : Nat) : Agree (usub .debug b x y) (usub .release b x y) := ⟨by
  unfold usub; split <;> simp [Cfg.debug]⟩
instance (b x y : Nat) : Agree (umul .debug b x y) (umul .release b x y) := ⟨by
  unfold umul; split <;> simp [Cfg.debug]⟩
end Agree

/-- The two registry computations agree. -/
class AgreeM (x y : M α) : Prop where
  eq : ∀ w, (x w).1 ≠ .panic → y w = x w

/-- The two machine computations agree. -/
class AgreeX (x y : X α) : Prop where
  eq : ∀ v, (x v).1 ≠ .panic → y v = x v

namespace AgreeM
instance (priority := low) refl (x : M α) : AgreeM x x := ⟨fun _ _ => rfl⟩
theorem bind {x y : M α} {f g : α → M β} (h : AgreeM x y) (h' : ∀ a, AgreeM (f a) (g a)) : AgreeM (x >>= f) (y >>= g) := by
  refine ⟨fun w hv => ?_⟩
  have e : ∀ z : M α, ∀ k : α → M β, (z >>= k) w = M.bind' z k w := fun _ _ => rfl
  rw [e] at hv ⊢
  rw [e]
  unfold M.bind' at hv ⊢
  have h1 := h.eq w
  cases hx : x w with
  | mk r w' =>
  rw [hx] at hv h1
  cases r with
  | ok a => rw [h1 (by simp)]; exact (h' a).eq w' hv
  | panic => exact absurd rfl hv
  | _ => rw [h1 (by simp)]
theorem lift {x y : Res α} (h : Agree x y) : AgreeM (M.lift x) (M.lift y) := ⟨fun w hv => by
  unfold M.lift at hv ⊢; rw [h.eq hv]⟩
theorem liftM {x y : Res α} (h : Agree x y) : AgreeM (liftM x) (liftM y) := lift h
theorem view {f g : World → Res α} (h : ∀ w, Agree (f w) (g w)) : AgreeM (M.view f) (M.view g) := ⟨fun w hv => by
  unfold M.view at hv ⊢; rw [(h w).eq hv]⟩
end AgreeM

namespace AgreeX
instance (priority := low) refl (x : X α) : AgreeX x x := ⟨fun _ _ => rfl⟩
theorem bind {x y : X α} {f g : α → X β} (h : AgreeX x y) (h' : ∀ a, AgreeX (f a) (g a)) : AgreeX (x >>= f) (y >>= g) := by
  refine ⟨fun w hv => ?_⟩
  have e : ∀ z : X α, ∀ k : α → X β, (z >>= k) w = X.bind' z k w := fun _ _ => rfl
  rw [e] at hv ⊢
  rw [e]
  unfold X.bind' at hv ⊢
  have h1 := h.eq w
  cases hx : x w with
  | mk r w' =>
  rw [hx] at hv h1
  cases r with
  | ok a => rw [h1 (by simp)]; exact (h' a).eq w' hv
  | panic => exact absurd rfl hv
  | _ => rw [h1 (by simp)]
theorem lift {x y : Res α} (h : Agree x y) : AgreeX (X.lift x) (X.lift y) := ⟨fun w hv => by
  unfold X.lift at hv ⊢; rw [h.eq hv]⟩
theorem liftM {x y : Res α} (h : Agree x y) : AgreeX (liftM x) (liftM y) := lift h
theorem view {f g : VM → Res α} (h : ∀ w, Agree (f w) (g w)) : AgreeX (X.view f) (X.view g) := ⟨fun w hv => by
  unfold X.view at hv ⊢; rw [(h w).eq hv]⟩
theorem update {f g : VM → Res (α × VM)} (h : ∀ w, Agree (f w) (g w)) : AgreeX (X.update f) (X.update g) := ⟨fun w hv => by
  unfold X.update at hv ⊢
  rw [(h w).eq]
  intro h'
  rw [h'] at hv
  exact hv rfl⟩
theorem registry {x y : M α} (h : AgreeM x y) : AgreeX (X.registry x) (X.registry y) := ⟨fun w hv => by
  unfold X.registry at hv ⊢; rw [h.eq _ hv]⟩
end AgreeX

/-- Takes a function apart until the instances for its parts apply. -/
macro "agree" : tactic => `(tactic| repeat' first
  | infer_instance
  | with_reducible refine Agree.bind ?_ (fun _ => ?_)
  | with_reducible refine AgreeM.bind ?_ (fun _ => ?_)
  | with_reducible refine AgreeX.bind ?_ (fun _ => ?_)
  | with_reducible refine AgreeM.lift ?_
  | with_reducible refine AgreeM.liftM ?_
  | with_reducible refine AgreeX.lift ?_
  | with_reducible refine AgreeX.liftM ?_
  | with_reducible refine AgreeM.view (fun _ => ?_)
  | with_reducible refine AgreeX.view (fun _ => ?_)
  | with_reducible refine AgreeX.update (fun _ => ?_)
  | with_reducible refine AgreeX.registry ?_
  | split
  | dsimp only)

namespace Reader
variable (r : Reader)
instance (x) : Agree (advance .debug r x) (advance .release r x) := by unfold advance; agree
instance (x) : Agree (peek .debug r x) (peek .release r x) := by unfold peek; agree
instance (x) : Agree (read .debug r x) (read .release r x) := by unfold read; agree
instance (x y) : Agree (peekArray .debug r x y) (peekArray .release r x y) := by unfold peekArray; agree
instance (x y) : Agree (readArray .debug r x y) (readArray .release r x y) := by unfold readArray; agree
instance (x) : Agree (readStr .debug r x) (readStr .release r x) := by unfold readStr; agree
instance : Agree (readCStr .debug r) (readCStr .release r) := by unfold readCStr; agree
instance (x) : Agree (readU .debug r x) (readU .release r x) := by unfold readU; agree
instance (x) : Agree (peekU .debug r x) (peekU .release r x) := by unfold peekU; agree
end Reader

instance instMapErr {f : String → String} {x y : Res α} [h : Agree x y] : Agree (Res.mapErr f x) (Res.mapErr f y) := ⟨fun hv => by
  rw [h.eq]; rintro rfl; exact hv rfl⟩

instance instReadMany {f g : Reader → Res (α × Reader)} [∀ r, Agree (f r) (g r)] (n r) : Agree (readMany f n r) (readMany g n r) := by
  induction n generalizing r with
  | zero => exact .refl _
  | succ n ih => unfold readMany; agree

instance (d) : Agree (parsePe .debug d) (parsePe .release d) := by unfold parsePe; agree
instance (rva ss) : Agree (resolveRva .debug rva ss) (resolveRva .release rva ss) := by
  induction ss with
  | nil => exact .refl _
  | cons s ss ih => unfold resolveRva; agree
instance (r w) : Agree (blobRead .debug r w) (blobRead .release r w) := by unfold blobRead; agree
instance (r w) : Agree (blobPeek .debug r w) (blobPeek .release r w) := by unfold blobPeek; agree
instance (r) : Agree (readByte .debug r) (readByte .release r) := by unfold readByte; agree
instance (r) : Agree (peekByte .debug r) (peekByte .release r) := by unfold peekByte; agree
instance (r) : Agree (readCompressed .debug r) (readCompressed .release r) := by unfold readCompressed; agree
instance (d) : Agree (newBlobReader .debug d) (newBlobReader .release d) := by unfold newBlobReader; agree
instance (d h) : Agree (blobHeapReader .debug d h) (blobHeapReader .release d h) := by unfold blobHeapReader; agree
instance (r) : Agree (readUtf16Str .debug r) (readUtf16Str .release r) := by unfold readUtf16Str; agree
instance instToOption {x y : Res α} [h : Agree x y] : Agree x.toOption y.toOption := ⟨fun hv => by
  rw [h.eq]; rintro rfl; exact hv rfl⟩
instance (d t) : Agree (getString .debug d t) (getString .release d t) := by unfold getString; agree
instance (r) : Agree (readTypeDefOrRef .debug r) (readTypeDefOrRef .release r) := by unfold readTypeDefOrRef; agree
instance (r) : Agree (readArrayShape .debug r) (readArrayShape .release r) := by unfold readArrayShape; agree
instance (n r) : Agree (readElemF .debug n r) (readElemF .release n r) := by
  induction n generalizing r with
  | zero => exact .refl _
  | succ n ih => unfold readElemF; agree
instance (r) : Agree (readElem .debug r) (readElem .release r) := by unfold readElem; agree
instance (r) : Agree (readFieldSig .debug r) (readFieldSig .release r) := by unfold readFieldSig; agree
instance (r) : Agree (readMethodSig .debug r) (readMethodSig .release r) := by unfold readMethodSig; agree
instance (r) : Agree (readPropertySig .debug r) (readPropertySig .release r) := by unfold readPropertySig; agree
instance (r) : Agree (readMethodSpec .debug r) (readMethodSpec .release r) := by unfold readMethodSpec; agree
instance (r) : Agree (readTypeSpec .debug r) (readTypeSpec .release r) := by unfold readTypeSpec; agree
instance (r) : Agree (readMarshalScalar .debug r) (readMarshalScalar .release r) := by unfold readMarshalScalar; agree
instance (r) : Agree (readOptCompressed .debug r) (readOptCompressed .release r) := ⟨fun hv => by
  have h := (inferInstance : Agree (readCompressed .debug r) (readCompressed .release r)).eq
  unfold readOptCompressed at hv ⊢
  rw [h]
  intro h'
  rw [h'] at hv
  exact hv rfl⟩
instance (r) : Agree (readMarshalDesc .debug r) (readMarshalDesc .release r) := by unfold readMarshalDesc; agree
instance (d) : Agree (readTableHeader .debug d) (readTableHeader .release d) := by unfold readTableHeader; agree
instance (r w) : Agree (trRead .debug r w) (trRead .release r w) := by unfold trRead; agree
instance (r w) : Agree (trReadIgnored .debug r w) (trReadIgnored .release r w) := by unfold trReadIgnored; agree
instance (b r) : Agree (readWide .debug b r) (readWide .release b r) := by unfold readWide; agree
instance (t y r) : Agree (readHandle .debug t y r) (readHandle .release t y r) := by unfold readHandle; agree
instance (t r) : Agree (readStringHandle .debug t r) (readStringHandle .release t r) := by unfold readStringHandle; agree
instance (t r) : Agree (readGuidHandle .debug t r) (readGuidHandle .release t r) := by unfold readGuidHandle; agree
instance (t r) : Agree (readBlobHandle .debug t r) (readBlobHandle .release t r) := by unfold readBlobHandle; agree
instance (t k r) : Agree (readCoded .debug t k r) (readCoded .release t k r) := by unfold readCoded; agree
instance (t x) : Agree (TableType.handle .debug t x) (TableType.handle .release t x) := by unfold TableType.handle; agree
instance (f : Nat → Res α) (r w) : Agree (trReadWith f .debug r w) (trReadWith f .release r w) := by unfold trReadWith; agree
instance (rows : List α) (h) : Agree (tableIndex .debug rows h) (tableIndex .release rows h) := by unfold tableIndex; agree
instance (t r) : Agree (readModuleRow .debug t r) (readModuleRow .release t r) := by unfold readModuleRow; agree
instance (t r) : Agree (readTypeRefRow .debug t r) (readTypeRefRow .release t r) := by unfold readTypeRefRow; agree
instance (t r) : Agree (readTypeDefRow .debug t r) (readTypeDefRow .release t r) := by unfold readTypeDefRow; agree
instance (t r) : Agree (readFieldRow .debug t r) (readFieldRow .release t r) := by unfold readFieldRow; agree
instance (t r) : Agree (readMethodDefRow .debug t r) (readMethodDefRow .release t r) := by unfold readMethodDefRow; agree
instance (t r) : Agree (readParamRow .debug t r) (readParamRow .release t r) := by unfold readParamRow; agree
instance (t r) : Agree (readInterfaceImplRow .debug t r) (readInterfaceImplRow .release t r) := by unfold readInterfaceImplRow; agree
instance (t r) : Agree (readMemberRefRow .debug t r) (readMemberRefRow .release t r) := by unfold readMemberRefRow; agree
instance (t r) : Agree (readConstantRow .debug t r) (readConstantRow .release t r) := by unfold readConstantRow; agree
instance (t r) : Agree (readCustomAttributeRow .debug t r) (readCustomAttributeRow .release t r) := by unfold readCustomAttributeRow; agree
instance (t r) : Agree (readFieldMarshalRow .debug t r) (readFieldMarshalRow .release t r) := by unfold readFieldMarshalRow; agree
instance (t r) : Agree (readDeclSecurityRow .debug t r) (readDeclSecurityRow .release t r) := by unfold readDeclSecurityRow; agree
instance (t r) : Agree (readClassLayoutRow .debug t r) (readClassLayoutRow .release t r) := by unfold readClassLayoutRow; agree
instance (t r) : Agree (readFieldLayoutRow .debug t r) (readFieldLayoutRow .release t r) := by unfold readFieldLayoutRow; agree
instance (t r) : Agree (readStandaloneSigRow .debug t r) (readStandaloneSigRow .release t r) := by unfold readStandaloneSigRow; agree
instance (t r) : Agree (readEventMapRow .debug t r) (readEventMapRow .release t r) := by unfold readEventMapRow; agree
instance (t r) : Agree (readEventRow .debug t r) (readEventRow .release t r) := by unfold readEventRow; agree
instance (t r) : Agree (readPropertyMapRow .debug t r) (readPropertyMapRow .release t r) := by unfold readPropertyMapRow; agree
instance (t r) : Agree (readPropertyRow .debug t r) (readPropertyRow .release t r) := by unfold readPropertyRow; agree
instance (t r) : Agree (readMethodSemanticsRow .debug t r) (readMethodSemanticsRow .release t r) := by unfold readMethodSemanticsRow; agree
instance (t r) : Agree (readMethodImplRow .debug t r) (readMethodImplRow .release t r) := by unfold readMethodImplRow; agree
instance (t r) : Agree (readModuleRefRow .debug t r) (readModuleRefRow .release t r) := by unfold readModuleRefRow; agree
instance (t r) : Agree (readTypeSpecRow .debug t r) (readTypeSpecRow .release t r) := by unfold readTypeSpecRow; agree
instance (t r) : Agree (readImplMapRow .debug t r) (readImplMapRow .release t r) := by unfold readImplMapRow; agree
instance (t r) : Agree (readFieldRvaRow .debug t r) (readFieldRvaRow .release t r) := by unfold readFieldRvaRow; agree
instance (t r) : Agree (readAssemblyRow .debug t r) (readAssemblyRow .release t r) := by unfold readAssemblyRow; agree
instance (t r) : Agree (readAssemblyProcessorRow .debug t r) (readAssemblyProcessorRow .release t r) := by unfold readAssemblyProcessorRow; agree
instance (t r) : Agree (readAssemblyOsRow .debug t r) (readAssemblyOsRow .release t r) := by unfold readAssemblyOsRow; agree
instance (t r) : Agree (readAssemblyRefRow .debug t r) (readAssemblyRefRow .release t r) := by unfold readAssemblyRefRow; agree
instance (t r) : Agree (readAssemblyRefProcessorRow .debug t r) (readAssemblyRefProcessorRow .release t r) := by unfold readAssemblyRefProcessorRow; agree
instance (t r) : Agree (readAssemblyRefOsRow .debug t r) (readAssemblyRefOsRow .release t r) := by unfold readAssemblyRefOsRow; agree
instance (t r) : Agree (readFileRow .debug t r) (readFileRow .release t r) := by unfold readFileRow; agree
instance (t r) : Agree (readExportedTypeRow .debug t r) (readExportedTypeRow .release t r) := by unfold readExportedTypeRow; agree
instance (t r) : Agree (readManifestResourceRow .debug t r) (readManifestResourceRow .release t r) := by unfold readManifestResourceRow; agree
instance (t r) : Agree (readNestedClassRow .debug t r) (readNestedClassRow .release t r) := by unfold readNestedClassRow; agree
instance (t r) : Agree (readGenericParamRow .debug t r) (readGenericParamRow .release t r) := by unfold readGenericParamRow; agree
instance (t r) : Agree (readMethodSpecRow .debug t r) (readMethodSpecRow .release t r) := by unfold readMethodSpecRow; agree
instance (t r) : Agree (readGenericParamConstraintRow .debug t r) (readGenericParamConstraintRow .release t r) := by unfold readGenericParamConstraintRow; agree
instance {f g : Reader → Res (α × Reader)} [∀ r, Agree (f r) (g r)] (t ty r) : Agree (readTable f t ty r) (readTable g t ty r) := by
  unfold readTable; agree
instance (t r) : Agree (readTables .debug t r) (readTables .release t r) := by unfold readTables; agree
instance (d) : Agree (readTableStream .debug d) (readTableStream .release d) := by unfold readTableStream; agree
instance (n r s) : Agree (readStreamHeaders .debug n r s) (readStreamHeaders .release n r s) := by
  induction n generalizing r s with
  | zero => exact .refl _
  | succ n ih => unfold readStreamHeaders; agree
instance (d) : Agree (readMetadataRoot .debug d) (readMetadataRoot .release d) := by unfold readMetadataRoot; agree
instance (d h) : Agree (streamBytes .debug d h) (streamBytes .release d h) := by unfold streamBytes; agree
instance (d h) : Agree (userStringBytes .debug d h) (userStringBytes .release d h) := by unfold userStringBytes; agree
instance (d i) : Agree (readCliHeader .debug d i) (readCliHeader .release d i) := by unfold readCliHeader; agree
instance (d i c) : Agree (metadataSlice .debug d i c) (metadataSlice .release d i c) := by unfold metadataSlice; agree
instance (c) : Agree (entryPointHandle .debug c) (entryPointHandle .release c) := by unfold entryPointHandle; agree
instance (d) : Agree (readMetadata .debug d) (readMetadata .release d) := by unfold readMetadata; agree
instance (m d) : Agree (Metadata.getPeData .debug m d) (Metadata.getPeData .release m d) := by unfold Metadata.getPeData; agree
instance (m o) : Agree (Metadata.getResourceData .debug m o) (Metadata.getResourceData .release m o) := by unfold Metadata.getResourceData; agree

/-! ## Values -/

instance instMap {x y : Res α} (f : α → β) [h : Agree x y] : Agree (f <$> x) (f <$> y) := ⟨fun hv => by
  rw [h.eq]; rintro rfl; exact hv rfl⟩

section
variable {n : Nat} (a b : BitVec n) (o : Bool)
instance : Agree (checked .debug o a) (checked .release o a) := ⟨by unfold checked; cases o <;> simp [Cfg.debug, Cfg.release]⟩
instance : Agree (addS .debug a b) (addS .release a b) := by unfold addS; agree
instance : Agree (addU .debug a b) (addU .release a b) := by unfold addU; agree
instance : Agree (subS .debug a b) (subS .release a b) := by unfold subS; agree
instance : Agree (subU .debug a b) (subU .release a b) := by unfold subU; agree
instance : Agree (mulS .debug a b) (mulS .release a b) := by unfold mulS; agree
instance : Agree (mulU .debug a b) (mulU .release a b) := by unfold mulU; agree
instance : Agree (negS .debug a) (negS .release a) := by unfold negS; agree
instance : Agree (shl .debug a b) (shl .release a b) := by unfold shl; agree
instance : Agree (shrS .debug a b) (shrS .release a b) := by unfold shrS; agree
instance : Agree (shrU .debug a b) (shrU .release a b) := by unfold shrU; agree
end

namespace Value
variable (ops : FloatOps) (a b : Value)
instance : Agree (add .debug ops a b) (add .release ops a b) := by unfold add arith; agree
instance : Agree (sub .debug ops a b) (sub .release ops a b) := by unfold sub arith; agree
instance : Agree (mul .debug ops a b) (mul .release ops a b) := by unfold mul arith; agree
instance : Agree (neg .debug ops a) (neg .release ops a) := by unfold neg; agree
instance : Agree (shl .debug a b) (shl .release a b) := by unfold shl bits; agree
instance : Agree (shr .debug a b) (shr .release a b) := by unfold shr bits; agree
end Value

/-! ## The registry -/

instance : AgreeM (nextTypeId .debug) (nextTypeId .release) := by unfold nextTypeId; agree
instance (e) : AgreeM (arrayType .debug e) (arrayType .release e) := by unfold arrayType; agree
instance instFieldsSize (i : Nat → Res Bool) {f g : Nat → Res Nat} [∀ t, Agree (f t) (g t)] (fs a) :
    Agree (fieldsSize .debug i f fs a) (fieldsSize .release i g fs a) := by
  induction fs generalizing a with
  | nil => exact .refl _
  | cons x fs ih => unfold fieldsSize; agree
instance (w n t) : Agree (typeSize .debug w n t) (typeSize .release w n t) := by
  induction n generalizing t with
  | zero => exact .refl _
  | succ n ih => unfold typeSize; agree

instance (m h) : Agree (typeNameHandles .debug m h) (typeNameHandles .release m h) := by unfold typeNameHandles; agree
instance (m h) : Agree (typeDefOrRefName .debug m h) (typeDefOrRefName .release m h) := by unfold typeDefOrRefName; agree
instance (m h) : AgreeM (namedType .debug m h) (namedType .release m h) := by unfold namedType; agree
instance (m e) : AgreeM (typeFor .debug m e) (typeFor .release m e) := by
  induction e using ElementType.rec (motive_2 := fun _ => True) with
  | szArray e ih => unfold typeFor; agree
  | _ => first
    | exact True.intro
    | (unfold typeFor; agree)
instance (m t) : AgreeM (catchType .debug m t) (catchType .release m t) := by unfold catchType; agree
instance (m a b c d e f) : AgreeM (newClause .debug m a b c d e f) (newClause .release m a b c d e f) := by unfold newClause; agree
instance (r w) : Agree (bodyU .debug r w) (bodyU .release r w) := by unfold bodyU; agree
instance (r n) : Agree (bodyBytes .debug r n) (bodyBytes .release r n) := by unfold bodyBytes; agree
instance (m r) : AgreeM (readFatClause .debug m r) (readFatClause .release m r) := by unfold readFatClause; agree
instance (m r) : AgreeM (readSmallClause .debug m r) (readSmallClause .release m r) := by unfold readSmallClause; agree
instance instReadClauses {f g : Reader → M (ExceptionClause × Reader)} [∀ r, AgreeM (f r) (g r)] (n r) :
    AgreeM (readClauses f n r) (readClauses g n r) := by
  induction n generalizing r with
  | zero => exact .refl _
  | succ n ih => unfold readClauses; agree
instance (m r) : AgreeM (readClauseSection .debug m r) (readClauseSection .release m r) := by unfold readClauseSection; agree
instance (m n r) : AgreeM (readLocalTypes .debug m n r) (readLocalTypes .release m n r) := by
  induction n generalizing r with
  | zero => exact .refl _
  | succ n ih => unfold readLocalTypes; agree
instance (m t) : AgreeM (readLocals .debug m t) (readLocals .release m t) := by unfold readLocals; agree
instance (m b r) : AgreeM (readMoreSections .debug m b r) (readMoreSections .release m b r) := by unfold readMoreSections; agree
instance (m r) : AgreeM (loadBody .debug m r) (loadBody .release m r) := by unfold loadBody; agree
instance (a i m) : AgreeM (loadType .debug a i m) (loadType .release a i m) := by unfold loadType; agree
instance (m t i) : AgreeM (resolveBase .debug m t i) (resolveBase .release m t i) := by unfold resolveBase; agree
instance (m t i) : AgreeM (resolveKind .debug m t i) (resolveKind .release m t i) := by unfold resolveKind; agree
instance (m l n i) : Agree (ownedRun .debug m l n i) (ownedRun .release m l n i) := by unfold ownedRun; agree
instance (m t i o) : AgreeM (loadField .debug m t i o) (loadField .release m t i o) := by unfold loadField; agree
instance (f m t n i o) : AgreeM (loadFields .debug f m t n i o) (loadFields .release f m t n i o) := by
  induction n generalizing i o with
  | zero => exact .refl _
  | succ n ih => unfold loadFields; agree
instance (f w t) : Agree (baseSize .debug f w t) (baseSize .release f w t) := by unfold baseSize; agree
instance (f m t i) : AgreeM (resolveFields .debug f m t i) (resolveFields .release f m t i) := by unfold resolveFields; agree
/-- `Result::unwrap` as a function on what a registry computation gives. -/
def unwrapped : Res α × World → Res α × World
  | (.err _, w) => (.panic, w)
  | r => r

theorem agree_unwrapped {x y : M α} (h : AgreeM x y) : AgreeM (fun w => unwrapped (x w)) (fun w => unwrapped (y w)) := ⟨fun w hv => by
  have h1 := h.eq w
  show unwrapped (y w) = unwrapped (x w)
  rw [h1]
  intro h'
  apply hv
  show (unwrapped (x w)).1 = _
  generalize x w = z at h'
  obtain ⟨r, w'⟩ := z
  cases h'
  rfl⟩
instance (m ps) : AgreeM (paramNames .debug m ps) (paramNames .release m ps) := by
  induction ps with
  | nil => exact .refl _
  | cons e es ih =>
    unfold paramNames
    refine AgreeM.bind ⟨fun w hv => ?_⟩ fun _ => ?_
    · have h1 := (inferInstance : AgreeM (typeFor .debug m e) (typeFor .release m e)).eq w
      have hx : (typeFor .debug m e w).1 ≠ .panic := by
        intro h'
        apply hv
        split
        · rfl
        · exact h'
      rw [h1 hx]
    · agree
instance (m t r n s) : AgreeM (loadImpl .debug m t r n s) (loadImpl .release m t r n s) := by unfold loadImpl; agree
instance (m n i) : AgreeM (loadParams .debug m n i) (loadParams .release m n i) := by
  induction n generalizing i with
  | nil => exact .refl _
  | cons x n ih => unfold loadParams; agree
instance (m t i) : AgreeM (loadMethod .debug m t i) (loadMethod .release m t i) := by unfold loadMethod; agree
instance (m t n i) : AgreeM (loadMethods .debug m t n i) (loadMethods .release m t n i) := by
  induction n generalizing i with
  | zero => exact .refl _
  | succ n ih => unfold loadMethods; agree
instance (m t i) : AgreeM (resolveMethods .debug m t i) (resolveMethods .release m t i) := by unfold resolveMethods; agree
instance (f m t i) : AgreeM (resolveType .debug f m t i) (resolveType .release f m t i) := by unfold resolveType; agree
instance (a m n i) : AgreeM (loadTypes .debug a m n i) (loadTypes .release a m n i) := by
  induction n generalizing i with
  | zero => exact .refl _
  | succ n ih => unfold loadTypes; agree
instance (f m n i) : AgreeM (resolveTypes .debug f m n i) (resolveTypes .release f m n i) := by
  induction n generalizing i with
  | nil => exact .refl _
  | cons x n ih => unfold resolveTypes; agree
instance (m r) : AgreeM (loadInterface .debug m r) (loadInterface .release m r) := by unfold loadInterface; agree
instance (m n) : AgreeM (loadInterfaces .debug m n) (loadInterfaces .release m n) := by
  induction n with
  | nil => exact .refl _
  | cons x n ih => unfold loadInterfaces; agree
instance (m r) : AgreeM (loadMemberRef .debug m r) (loadMemberRef .release m r) := by unfold loadMemberRef; agree
instance (m n) : AgreeM (loadMemberRefs .debug m n) (loadMemberRefs .release m n) := by
  induction n with
  | nil => exact .refl _
  | cons x n ih => unfold loadMemberRefs; agree
instance (a t) : Agree (AssemblyRec.resolveMethod .debug a t) (AssemblyRec.resolveMethod .release a t) := by unfold AssemblyRec.resolveMethod; agree
instance (a t) : Agree (AssemblyRec.resolveField .debug a t) (AssemblyRec.resolveField .release a t) := by unfold AssemblyRec.resolveField; agree
instance (a t) : Agree (AssemblyRec.resolveType .debug a t) (AssemblyRec.resolveType .release a t) := by unfold AssemblyRec.resolveType; agree
instance (a e) : Agree (resolveEntryPoint .debug a e) (resolveEntryPoint .release a e) := by unfold resolveEntryPoint; agree
instance (f m n) : AgreeM (loadSelf .debug f m n) (loadSelf .release f m n) := by unfold loadSelf; agree
instance instLoadRefs {f g : Name → M AssemblyRec} [∀ n, AgreeM (f n) (g n)] (m rows) : AgreeM (loadRefs f m rows) (loadRefs g m rows) := by
  induction rows with
  | nil => exact .refl _
  | cons r rows ih => unfold loadRefs; agree
instance (fs n f d) : AgreeM (loadData .debug fs n f d) (loadData .release fs n f d) := by
  induction n generalizing d with
  | zero => exact .refl _
  | succ n ih =>
    unfold loadData
    have : ∀ n', AgreeM (do
        let d ← Res.ofOption "Could not locate assembly" (fs n')
        loadData .debug fs n f d : M AssemblyRec) (do
        let d ← Res.ofOption "Could not locate assembly" (fs n')
        loadData .release fs n f d : M AssemblyRec) := fun n' => by agree
    agree
instance (fs d f n) : AgreeM (loadAssembly .debug fs d f n) (loadAssembly .release fs d f n) := by unfold loadAssembly; agree
instance (fs d f r c) : AgreeM (newRuntime .debug fs d f r c) (newRuntime .release fs d f r c) := by unfold newRuntime; agree

/-! ## The heap and the machine -/

section
variable (h : Heap)
instance (n) : Agree (h.ensureSize .debug n) (h.ensureSize .release n) := by unfold Heap.ensureSize; agree
instance (n) : Agree (h.bump .debug n) (h.bump .release n) := by unfold Heap.bump; agree
end

instance instOnHeap {f g : Heap → Res (α × Heap)} [∀ h, Agree (f h) (g h)] : AgreeX (onHeap f) (onHeap g) := by unfold onHeap; agree
instance (n a) : AgreeX (insertBelow .debug n a) (insertBelow .release n a) := by unfold insertBelow; agree
instance (n v) : Agree (release .debug n v) (release .release n v) := by unfold release; agree
instance (f t) : AgreeX (allocObject .debug f t) (allocObject .release f t) := by unfold allocObject; agree
instance (f e n) : AgreeX (allocArray .debug f e n) (allocArray .release f e n) := by unfold allocArray; agree
instance (u) : AgreeX (allocString .debug u) (allocString .release u) := by unfold allocString; agree
instance (f p) : AgreeX (rawData .debug f p) (rawData .release f p) := by unfold rawData; agree

/-! ## The interpreter -/

instance instBinary {f g : Value → Value → Res Value} [∀ a b, Agree (f a b) (g a b)] (ip) : AgreeX (binary f ip) (binary g ip) := by
  unfold binary; agree
instance instUnary {f g : Value → Res Value} [∀ a, Agree (f a) (g a)] (ip) : AgreeX (unary f ip) (unary g ip) := by
  unfold unary; agree
instance (t f i) : AgreeX (doNewobj .debug t f i) (doNewobj .release t f i) := by unfold doNewobj; agree
instance (f i) : AgreeX (doStfld .debug f i) (doStfld .release f i) := by unfold doStfld; agree
instance (f i) : AgreeX (doLdfld .debug f i) (doLdfld .release f i) := by unfold doLdfld; agree
instance (f i) : AgreeX (doLdstr .debug f i) (doLdstr .release f i) := by unfold doLdstr; agree
instance (t f i) : AgreeX (doNewarr .debug t f i) (doNewarr .release t f i) := by unfold doNewarr; agree
instance (ops t f op i) : AgreeX (exec .debug ops t f op i) (exec .release ops t f op i) := by
  cases op <;> (unfold exec; infer_instance)
instance (ops t f i) : AgreeX (step .debug ops t f i) (step .release ops t f i) := by unfold step; agree
theorem AgreeX.finally' {x y : X α} (n : Nat) (h : AgreeX x y) :
    AgreeX (X.finally' x (release .debug n)) (X.finally' y (release .release n)) := ⟨fun v hv => by
  have hx : (x v).1 ≠ .panic := by
    intro h'
    apply hv
    unfold X.finally'
    have hr : ∀ v', (∃ a, release .debug n v' = .ok a) ∨ release .debug n v' = .panic := fun v' => by
      unfold release usub
      simp only [Cfg.debug]
      split <;> simp
    rcases hr (x v).2 with ⟨a, ha⟩ | ha
    · rw [ha]; exact h'
    · rw [ha]
  have hr : release .debug n (x v).2 ≠ .panic := by
    intro h'
    apply hv
    unfold X.finally'
    rw [h']
  unfold X.finally'
  rw [h.eq v hx, (inferInstance : Agree (release .debug n (x v).2) (release .release n (x v).2)).eq hr]⟩
instance instInvoke {f g : Frame → Nat → X (Option Value)} [∀ fr i, AgreeX (f fr i) (g fr i)] (m p) :
    AgreeX (invoke .debug f m p) (invoke .release g m p) := by
  unfold invoke
  split
  · repeat' refine AgreeX.bind (.refl _) fun _ => ?_
    refine AgreeX.finally' _ ?_
    agree
  · agree
  · agree
instance instCallMethod {f g : Frame → Nat → X (Option Value)} [∀ fr i, AgreeX (f fr i) (g fr i)] (fr t) :
    AgreeX (callMethod .debug f fr t) (callMethod .release g fr t) := by
  unfold callMethod; agree
instance (ops tf n fr i) : AgreeX (loop .debug ops tf n fr i) (loop .release ops tf n fr i) := by
  induction n generalizing fr i with
  | zero => exact .refl _
  | succ n ih => unfold loop; agree

theorem hostExecute_agree (ops : FloatOps) (tf fuel : Nat) (w : World) (m : MethodRec) (ps : List Value)
    (hv : (hostExecute .debug ops tf fuel w m ps).1 ≠ .panic) :
    hostExecute .release ops tf fuel w m ps = hostExecute .debug ops tf fuel w m ps := by
  unfold hostExecute at hv ⊢
  split
  · rename_i hs
    rw [if_pos hs] at hv
    have h := (inferInstance : AgreeX (invoke .debug (loop .debug ops tf fuel) m .host)
      (invoke .release (loop .release ops tf fuel) m .host)).eq { world := w, host := ps }
    dsimp only at hv ⊢
    rw [h]
    intro h'
    rw [h'] at hv
    exact hv rfl
  · rfl

instance instUnwrap {x y : M α} [AgreeM x y] : AgreeM x.unwrap y.unwrap := by
  unfold M.unwrap; exact agree_unwrapped inferInstance

instance (d f e n p) : AgreeM (loadPath .debug d f e n p) (loadPath .release d f e n p) := by unfold loadPath; agree
instance (r c d e n f a) : AgreeM (mainLoads .debug r c d e n f a) (mainLoads .release r c d e n f a) := by unfold mainLoads; agree

theorem mainProgram_agree (ops : FloatOps) (runtime console : Bytes) (disk : Disk) (exeDir : Path) (depth fuel tf steps : Nat)
    (args : List Path) (hv : (mainProgram .debug ops runtime console disk exeDir depth fuel tf steps args).1 ≠ .panic) :
    mainProgram .release ops runtime console disk exeDir depth fuel tf steps args =
      mainProgram .debug ops runtime console disk exeDir depth fuel tf steps args := by
  have h := (inferInstance : AgreeM (mainLoads .debug runtime console disk exeDir depth fuel args)
    (mainLoads .release runtime console disk exeDir depth fuel args)).eq {}
  unfold mainProgram at hv ⊢
  rw [h]
  · split
    · rename_i m w hx
      rw [hx] at hv
      dsimp only at hv ⊢
      rw [hostExecute_agree _ _ _ _ _ _ hv]
    all_goals rfl
  · intro h'
    apply hv
    generalize mainLoads .debug runtime console disk exeDir depth fuel args {} = x at h'
    obtain ⟨r, w⟩ := x
    cases h'
    rfl

end Clr
