import Verif.Spec.Attributes
/-! # The attribute decoders agree with the bit assignments -/

set_option linter.unusedSimpArgs false

namespace Clr
open Spec

theorem Spec.Computes.spec {α : Type} {f : Nat → Res α} {g : Nat → Option α} (h : Computes f g) {raw : Nat} {a : α}
    (ha : g raw = some a) : f raw = .ok a := (h raw).1 a ha

theorem Spec.Computes.returns {α : Type} {f : Nat → Res α} {g : Nat → Option α} (h : Computes f g) (raw : Nat) :
    (f raw).Returns := by
  cases hg : g raw with
  | none => obtain ⟨m, hm⟩ := (h raw).2 hg; rw [hm]; simp
  | some a => rw [(h raw).1 a hg]; simp

theorem and_shift (raw lo k : Nat) : raw &&& ((2 ^ k - 1) * 2 ^ lo) = bits raw lo k * 2 ^ lo := by
  apply Nat.eq_of_testBit_eq
  intro i
  unfold bits
  rw [Nat.testBit_and, Nat.testBit_mul_two_pow, Nat.testBit_mul_two_pow, Nat.testBit_two_pow_sub_one,
    Nat.testBit_mod_two_pow, Nat.testBit_div_two_pow]
  by_cases h : lo ≤ i
  · rw [show i - lo + lo = i by omega]
    simp [h, Bool.and_comm]
  · simp [h]

theorem flag_eq (raw k : Nat) : decide (raw &&& 2 ^ k = 2 ^ k) = raw.testBit k := by
  rw [Nat.testBit_eq_decide_div_mod_eq]
  have h := and_shift raw k 1
  simp only [bits, Nat.pow_one] at h
  rw [show (2 - 1) * 2 ^ k = 2 ^ k by omega] at h
  rw [h]
  have hp : 0 < 2 ^ k := Nat.two_pow_pos k
  have h2 : raw / 2 ^ k % 2 < 2 := Nat.mod_lt _ (by omega)
  rcases (by omega : raw / 2 ^ k % 2 = 0 ∨ raw / 2 ^ k % 2 = 1) with h0 | h0 <;> rw [h0] <;> simp
  omega

theorem natBeq_false {a b : Nat} (h : ¬ a = b) : (a == b) = false := by simpa using h

theorem bits_lt (raw lo k : Nat) : bits raw lo k < 2 ^ k := Nat.mod_lt _ (Nat.two_pow_pos k)

theorem testBit_eq_bits (raw k : Nat) : raw.testBit k = decide (bits raw k 1 = 1) := by
  rw [Nat.testBit_eq_decide_div_mod_eq]; simp [bits]

theorem TypeAttributes.computes : Computes TypeAttributes.fromRaw typeAttributes := by
  intro raw
  unfold TypeAttributes.fromRaw typeAttributes
  have e_isAbstract := flag_eq raw 7
  have e_isSealed := flag_eq raw 8
  have e_specialName := flag_eq raw 10
  have e_imported := flag_eq raw 12
  have e_serialisable := flag_eq raw 13
  have e_beforeFieldInit := flag_eq raw 20
  have e_rtSpecialName := flag_eq raw 11
  have e_hasSecurity := flag_eq raw 18
  have e_isTypeForwarder := flag_eq raw 21
  have e_visibility := and_shift raw 0 3
  have e_layout := and_shift raw 3 2
  have e_semantics := and_shift raw 5 1
  have e_stringFormat := and_shift raw 16 2
  simp only [Nat.reducePow, Nat.reduceMul, Nat.reduceSub, Nat.mul_one, Nat.one_mul] at e_isAbstract e_isSealed e_specialName e_imported e_serialisable e_beforeFieldInit e_rtSpecialName e_hasSecurity e_isTypeForwarder e_visibility e_layout e_semantics e_stringFormat
  simp only [e_isAbstract, e_isSealed, e_specialName, e_imported, e_serialisable, e_beforeFieldInit, e_rtSpecialName, e_hasSecurity, e_isTypeForwarder, e_visibility, e_layout, e_semantics, e_stringFormat]
  have h_visibility := bits_lt raw 0 3
  generalize bits raw 0 3 = v_visibility at h_visibility ⊢
  have h_layout := bits_lt raw 3 2
  generalize bits raw 3 2 = v_layout at h_layout ⊢
  have h_semantics := bits_lt raw 5 1
  generalize bits raw 5 1 = v_semantics at h_semantics ⊢
  have h_stringFormat := bits_lt raw 16 2
  generalize bits raw 16 2 = v_stringFormat at h_stringFormat ⊢
  clear e_visibility
  clear e_layout
  clear e_semantics
  clear e_stringFormat
  (rcases (by omega : v_visibility = 0 ∨ v_visibility = 1 ∨ v_visibility = 2 ∨ v_visibility = 3 ∨ v_visibility = 4 ∨ v_visibility = 5 ∨ v_visibility = 6 ∨ v_visibility = 7) with rfl | rfl | rfl | rfl | rfl | rfl | rfl | rfl) <;> (rcases (by omega : v_layout = 0 ∨ v_layout = 1 ∨ v_layout = 2 ∨ v_layout = 3) with rfl | rfl | rfl | rfl) <;> (rcases (by omega : v_semantics = 0 ∨ v_semantics = 1) with rfl | rfl) <;> (rcases (by omega : v_stringFormat = 0 ∨ v_stringFormat = 1 ∨ v_stringFormat = 2 ∨ v_stringFormat = 3) with rfl | rfl | rfl | rfl) <;> simp

theorem FieldAttributes.computes : Computes FieldAttributes.fromRaw fieldAttributes := by
  intro raw
  unfold FieldAttributes.fromRaw fieldAttributes
  have e_isStatic := flag_eq raw 4
  have e_isReadonly := flag_eq raw 5
  have e_isConst := flag_eq raw 6
  have e_notSerialised := flag_eq raw 7
  have e_specialName := flag_eq raw 9
  have e_pinvokeImpl := flag_eq raw 13
  have e_rtSpecialName := flag_eq raw 10
  have e_hasFieldMarshal := flag_eq raw 12
  have e_hasDefault := flag_eq raw 15
  have e_hasFieldRva := flag_eq raw 8
  have e_visibility := and_shift raw 0 3
  simp only [Nat.reducePow, Nat.reduceMul, Nat.reduceSub, Nat.mul_one, Nat.one_mul] at e_isStatic e_isReadonly e_isConst e_notSerialised e_specialName e_pinvokeImpl e_rtSpecialName e_hasFieldMarshal e_hasDefault e_hasFieldRva e_visibility
  simp only [e_isStatic, e_isReadonly, e_isConst, e_notSerialised, e_specialName, e_pinvokeImpl, e_rtSpecialName, e_hasFieldMarshal, e_hasDefault, e_hasFieldRva, e_visibility]
  have h_visibility := bits_lt raw 0 3
  generalize bits raw 0 3 = v_visibility at h_visibility ⊢
  clear e_visibility
  (rcases (by omega : v_visibility = 0 ∨ v_visibility = 1 ∨ v_visibility = 2 ∨ v_visibility = 3 ∨ v_visibility = 4 ∨ v_visibility = 5 ∨ v_visibility = 6 ∨ v_visibility = 7) with rfl | rfl | rfl | rfl | rfl | rfl | rfl | rfl) <;> simp

theorem MethodImplAttributes.computes : Computes MethodImplAttributes.fromRaw methodImplAttributes := by
  intro raw
  unfold MethodImplAttributes.fromRaw methodImplAttributes
  have e_forwardRef := flag_eq raw 4
  have e_preserveSig := flag_eq raw 7
  have e_internalCall := flag_eq raw 12
  have e_synchronised := flag_eq raw 5
  have e_noInlining := flag_eq raw 3
  have e_noOptimisation := flag_eq raw 6
  have e_codeType := and_shift raw 0 2
  have e_managed := and_shift raw 2 1
  simp only [Nat.reducePow, Nat.reduceMul, Nat.reduceSub, Nat.mul_one, Nat.one_mul] at e_forwardRef e_preserveSig e_internalCall e_synchronised e_noInlining e_noOptimisation e_codeType e_managed
  simp only [e_forwardRef, e_preserveSig, e_internalCall, e_synchronised, e_noInlining, e_noOptimisation, e_codeType, e_managed]
  rw [testBit_eq_bits raw 2]
  have h_codeType := bits_lt raw 0 2
  generalize bits raw 0 2 = v_codeType at h_codeType ⊢
  have h_managed := bits_lt raw 2 1
  generalize bits raw 2 1 = v_managed at h_managed ⊢
  clear e_codeType
  clear e_managed
  (rcases (by omega : v_codeType = 0 ∨ v_codeType = 1 ∨ v_codeType = 2 ∨ v_codeType = 3) with rfl | rfl | rfl | rfl) <;> (rcases (by omega : v_managed = 0 ∨ v_managed = 1) with rfl | rfl) <;> simp

theorem MethodAttributes.computes : Computes MethodAttributes.fromRaw methodAttributes := by
  intro raw
  unfold MethodAttributes.fromRaw methodAttributes
  have e_isStatic := flag_eq raw 4
  have e_isFinal := flag_eq raw 5
  have e_isVirtual := flag_eq raw 6
  have e_hideBySig := flag_eq raw 7
  have e_strict := flag_eq raw 9
  have e_isAbstract := flag_eq raw 10
  have e_specialName := flag_eq raw 11
  have e_pinvokeImpl := flag_eq raw 13
  have e_unmanagedExport := flag_eq raw 3
  have e_rtSpecialName := flag_eq raw 12
  have e_hasSecurity := flag_eq raw 14
  have e_requireSecObject := flag_eq raw 15
  have e_visibility := and_shift raw 0 3
  have e_reuseVtableSlot := and_shift raw 8 1
  simp only [Nat.reducePow, Nat.reduceMul, Nat.reduceSub, Nat.mul_one, Nat.one_mul] at e_isStatic e_isFinal e_isVirtual e_hideBySig e_strict e_isAbstract e_specialName e_pinvokeImpl e_unmanagedExport e_rtSpecialName e_hasSecurity e_requireSecObject e_visibility e_reuseVtableSlot
  simp only [e_isStatic, e_isFinal, e_isVirtual, e_hideBySig, e_strict, e_isAbstract, e_specialName, e_pinvokeImpl, e_unmanagedExport, e_rtSpecialName, e_hasSecurity, e_requireSecObject, e_visibility, e_reuseVtableSlot]
  rw [testBit_eq_bits raw 8]
  have h_visibility := bits_lt raw 0 3
  generalize bits raw 0 3 = v_visibility at h_visibility ⊢
  have h_reuseVtableSlot := bits_lt raw 8 1
  generalize bits raw 8 1 = v_reuseVtableSlot at h_reuseVtableSlot ⊢
  clear e_visibility
  clear e_reuseVtableSlot
  (rcases (by omega : v_visibility = 0 ∨ v_visibility = 1 ∨ v_visibility = 2 ∨ v_visibility = 3 ∨ v_visibility = 4 ∨ v_visibility = 5 ∨ v_visibility = 6 ∨ v_visibility = 7) with rfl | rfl | rfl | rfl | rfl | rfl | rfl | rfl) <;> (rcases (by omega : v_reuseVtableSlot = 0 ∨ v_reuseVtableSlot = 1) with rfl | rfl) <;> simp

theorem PInvokeAttributes.computes : Computes PInvokeAttributes.fromRaw pinvokeAttributes := by
  intro raw
  unfold PInvokeAttributes.fromRaw pinvokeAttributes
  have e_noMangle := flag_eq raw 0
  have e_supportsLastError := flag_eq raw 6
  have e_charset := and_shift raw 1 2
  have e_callingConvention := and_shift raw 8 3
  simp only [Nat.reducePow, Nat.reduceMul, Nat.reduceSub, Nat.mul_one, Nat.one_mul] at e_noMangle e_supportsLastError e_charset e_callingConvention
  simp only [e_noMangle, e_supportsLastError, e_charset, e_callingConvention]
  have h_charset := bits_lt raw 1 2
  generalize bits raw 1 2 = v_charset at h_charset ⊢
  have h_callingConvention := bits_lt raw 8 3
  generalize bits raw 8 3 = v_callingConvention at h_callingConvention ⊢
  clear e_charset
  clear e_callingConvention
  (rcases (by omega : v_charset = 0 ∨ v_charset = 1 ∨ v_charset = 2 ∨ v_charset = 3) with rfl | rfl | rfl | rfl) <;> (rcases (by omega : v_callingConvention = 0 ∨ v_callingConvention = 1 ∨ v_callingConvention = 2 ∨ v_callingConvention = 3 ∨ v_callingConvention = 4 ∨ v_callingConvention = 5 ∨ v_callingConvention = 6 ∨ v_callingConvention = 7) with rfl | rfl | rfl | rfl | rfl | rfl | rfl | rfl) <;> simp

theorem GenericParamAttributes.computes : Computes GenericParamAttributes.fromRaw genericParamAttributes := by
  intro raw
  unfold GenericParamAttributes.fromRaw genericParamAttributes
  have e_referenceType := flag_eq raw 2
  have e_valueType := flag_eq raw 3
  have e_defaultConstructor := flag_eq raw 4
  have e_variance := and_shift raw 0 2
  simp only [Nat.reducePow, Nat.reduceMul, Nat.reduceSub, Nat.mul_one, Nat.one_mul] at e_referenceType e_valueType e_defaultConstructor e_variance
  simp only [e_referenceType, e_valueType, e_defaultConstructor, e_variance]
  have h_variance := bits_lt raw 0 2
  generalize bits raw 0 2 = v_variance at h_variance ⊢
  clear e_variance
  (rcases (by omega : v_variance = 0 ∨ v_variance = 1 ∨ v_variance = 2 ∨ v_variance = 3) with rfl | rfl | rfl | rfl) <;> simp

theorem ParamAttributes.computes : Computes ParamAttributes.fromRaw paramAttributes := by
  intro raw
  unfold ParamAttributes.fromRaw paramAttributes
  have e_isIn := flag_eq raw 0
  have e_isOut := flag_eq raw 1
  have e_isOptional := flag_eq raw 4
  have e_hasDefault := flag_eq raw 12
  have e_hasFieldMarshal := flag_eq raw 13
  simp only [Nat.reducePow, Nat.reduceMul, Nat.reduceSub, Nat.mul_one, Nat.one_mul] at e_isIn e_isOut e_isOptional e_hasDefault e_hasFieldMarshal
  simp only [e_isIn, e_isOut, e_isOptional, e_hasDefault, e_hasFieldMarshal]
  simp

theorem AssemblyFlags.computes : Computes AssemblyFlags.fromRaw assemblyFlags := by
  intro raw
  unfold AssemblyFlags.fromRaw assemblyFlags
  have e_publicKey := flag_eq raw 0
  have e_retargetable := flag_eq raw 8
  have e_disableJitOptimiser := flag_eq raw 14
  have e_enableJitTracking := flag_eq raw 15
  simp only [Nat.reducePow, Nat.reduceMul, Nat.reduceSub, Nat.mul_one, Nat.one_mul] at e_publicKey e_retargetable e_disableJitOptimiser e_enableJitTracking
  simp only [e_publicKey, e_retargetable, e_disableJitOptimiser, e_enableJitTracking]
  simp

theorem EventAttributes.computes : Computes EventAttributes.fromRaw eventAttributes := by
  intro raw
  unfold EventAttributes.fromRaw eventAttributes
  have e_specialName := flag_eq raw 9
  have e_rtSpecialName := flag_eq raw 10
  simp only [Nat.reducePow, Nat.reduceMul, Nat.reduceSub, Nat.mul_one, Nat.one_mul] at e_specialName e_rtSpecialName
  simp only [e_specialName, e_rtSpecialName]
  simp

theorem PropertyAttributes.computes : Computes PropertyAttributes.fromRaw propertyAttributes := by
  intro raw
  unfold PropertyAttributes.fromRaw propertyAttributes
  have e_specialName := flag_eq raw 9
  have e_rtSpecialName := flag_eq raw 10
  have e_hasDefault := flag_eq raw 12
  simp only [Nat.reducePow, Nat.reduceMul, Nat.reduceSub, Nat.mul_one, Nat.one_mul] at e_specialName e_rtSpecialName e_hasDefault
  simp only [e_specialName, e_rtSpecialName, e_hasDefault]
  simp

theorem MethodSemanticsType.computes : Computes MethodSemanticsType.fromRaw methodSemanticsType := by
  intro raw
  unfold MethodSemanticsType.fromRaw methodSemanticsType
  split <;> simp_all [List.lookup, natBeq_false]

theorem ConstantType.computes : Computes ConstantType.fromRaw constantType := by
  intro raw
  unfold ConstantType.fromRaw constantType
  split <;> simp_all [List.lookup, natBeq_false]

theorem AssemblyHashAlgorithm.computes : Computes AssemblyHashAlgorithm.fromRaw assemblyHashAlgorithm := by
  intro raw
  unfold AssemblyHashAlgorithm.fromRaw assemblyHashAlgorithm
  split <;> simp_all [List.lookup, natBeq_false]

theorem TypeAttributes.fromRaw_spec {raw : Nat} {a : TypeAttributes} (h : typeAttributes raw = some a) : TypeAttributes.fromRaw raw = .ok a :=
  TypeAttributes.computes.spec h

theorem TypeAttributes.fromRaw_returns (raw : Nat) : (TypeAttributes.fromRaw raw).Returns := TypeAttributes.computes.returns raw

theorem FieldAttributes.fromRaw_spec {raw : Nat} {a : FieldAttributes} (h : fieldAttributes raw = some a) : FieldAttributes.fromRaw raw = .ok a :=
  FieldAttributes.computes.spec h

theorem FieldAttributes.fromRaw_returns (raw : Nat) : (FieldAttributes.fromRaw raw).Returns := FieldAttributes.computes.returns raw

theorem MethodImplAttributes.fromRaw_spec {raw : Nat} {a : MethodImplAttributes} (h : methodImplAttributes raw = some a) : MethodImplAttributes.fromRaw raw = .ok a :=
  MethodImplAttributes.computes.spec h

theorem MethodImplAttributes.fromRaw_returns (raw : Nat) : (MethodImplAttributes.fromRaw raw).Returns := MethodImplAttributes.computes.returns raw

theorem MethodAttributes.fromRaw_spec {raw : Nat} {a : MethodAttributes} (h : methodAttributes raw = some a) : MethodAttributes.fromRaw raw = .ok a :=
  MethodAttributes.computes.spec h

theorem MethodAttributes.fromRaw_returns (raw : Nat) : (MethodAttributes.fromRaw raw).Returns := MethodAttributes.computes.returns raw

theorem PInvokeAttributes.fromRaw_spec {raw : Nat} {a : PInvokeAttributes} (h : pinvokeAttributes raw = some a) : PInvokeAttributes.fromRaw raw = .ok a :=
  PInvokeAttributes.computes.spec h

theorem PInvokeAttributes.fromRaw_returns (raw : Nat) : (PInvokeAttributes.fromRaw raw).Returns := PInvokeAttributes.computes.returns raw

theorem GenericParamAttributes.fromRaw_spec {raw : Nat} {a : GenericParamAttributes} (h : genericParamAttributes raw = some a) : GenericParamAttributes.fromRaw raw = .ok a :=
  GenericParamAttributes.computes.spec h

theorem GenericParamAttributes.fromRaw_returns (raw : Nat) : (GenericParamAttributes.fromRaw raw).Returns := GenericParamAttributes.computes.returns raw

theorem ParamAttributes.fromRaw_spec {raw : Nat} {a : ParamAttributes} (h : paramAttributes raw = some a) : ParamAttributes.fromRaw raw = .ok a :=
  ParamAttributes.computes.spec h

theorem ParamAttributes.fromRaw_returns (raw : Nat) : (ParamAttributes.fromRaw raw).Returns := ParamAttributes.computes.returns raw

theorem AssemblyFlags.fromRaw_spec {raw : Nat} {a : AssemblyFlags} (h : assemblyFlags raw = some a) : AssemblyFlags.fromRaw raw = .ok a :=
  AssemblyFlags.computes.spec h

theorem AssemblyFlags.fromRaw_returns (raw : Nat) : (AssemblyFlags.fromRaw raw).Returns := AssemblyFlags.computes.returns raw

theorem EventAttributes.fromRaw_spec {raw : Nat} {a : EventAttributes} (h : eventAttributes raw = some a) : EventAttributes.fromRaw raw = .ok a :=
  EventAttributes.computes.spec h

theorem EventAttributes.fromRaw_returns (raw : Nat) : (EventAttributes.fromRaw raw).Returns := EventAttributes.computes.returns raw

theorem PropertyAttributes.fromRaw_spec {raw : Nat} {a : PropertyAttributes} (h : propertyAttributes raw = some a) : PropertyAttributes.fromRaw raw = .ok a :=
  PropertyAttributes.computes.spec h

theorem PropertyAttributes.fromRaw_returns (raw : Nat) : (PropertyAttributes.fromRaw raw).Returns := PropertyAttributes.computes.returns raw

theorem MethodSemanticsType.fromRaw_spec {raw : Nat} {a : MethodSemanticsType} (h : methodSemanticsType raw = some a) : MethodSemanticsType.fromRaw raw = .ok a :=
  MethodSemanticsType.computes.spec h

theorem MethodSemanticsType.fromRaw_returns (raw : Nat) : (MethodSemanticsType.fromRaw raw).Returns := MethodSemanticsType.computes.returns raw

theorem ConstantType.fromRaw_spec {raw : Nat} {a : ConstantType} (h : constantType raw = some a) : ConstantType.fromRaw raw = .ok a :=
  ConstantType.computes.spec h

theorem ConstantType.fromRaw_returns (raw : Nat) : (ConstantType.fromRaw raw).Returns := ConstantType.computes.returns raw

theorem AssemblyHashAlgorithm.fromRaw_spec {raw : Nat} {a : AssemblyHashAlgorithm} (h : assemblyHashAlgorithm raw = some a) : AssemblyHashAlgorithm.fromRaw raw = .ok a :=
  AssemblyHashAlgorithm.computes.spec h

theorem AssemblyHashAlgorithm.fromRaw_returns (raw : Nat) : (AssemblyHashAlgorithm.fromRaw raw).Returns := AssemblyHashAlgorithm.computes.returns raw

end Clr
