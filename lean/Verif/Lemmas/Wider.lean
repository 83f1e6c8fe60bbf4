import Verif.Lemmas.Kept
import Verif.Lemmas.Onward
import Verif.Lemmas.Linked
import Verif.Spec.Kept
/-! # What is loaded keeps its meaning when more is loaded -/

namespace Clr

variable {cfg : Cfg} {w w' : World}

/-- Types and assemblies have been added, and names still resolve to types of that name. -/
structure Wider (w w' : World) : Prop where
  types : w.types <+: w'.types
  assemblies : w.assemblies <+: w'.assemblies
  names : ∀ n t, w.getType n = some t → ∃ t' r r', w'.getType n = some t' ∧ w.types[t]? = some r ∧ w'.types[t']? = some r' ∧
    r'.fullName = r.fullName

theorem Later.prefix (h : Later cfg w w') : w.types <+: w'.types ∧ w.assemblies <+: w'.assemblies := by
  have hs := h.spared (Nat.le_refl _)
  refine ⟨?_, hs.assemblies⟩
  rw [List.prefix_iff_eq_take]
  apply List.ext_getElem?
  intro u
  rw [List.getElem?_take]
  split
  · next hu => exact (hs.types u hu).symm
  · next hu => exact List.getElem?_eq_none (by omega)

theorem Later.wider (h : Later cfg w w') (hw : Reached cfg w) : Wider w w' := by
  obtain ⟨h1, h2⟩ := h.prefix
  refine ⟨h1, h2, fun n t ht => ?_⟩
  obtain ⟨r, hr, hn, -⟩ := (hw.inv.getType_iff n t).mp ht
  have hr' : w'.types[t]? = some r := by
    obtain ⟨s, hs⟩ := h1
    rw [← hs, List.getElem?_append_left (List.getElem?_eq_some_iff.mp hr).1]
    exact hr
  cases hg : w'.getType n with
  | none => exact absurd hn ((((h.reached hw).inv.getType_none n).mp hg) _ (List.mem_of_getElem? hr'))
  | some t' =>
    obtain ⟨r', q, e, -⟩ := ((h.reached hw).inv.getType_iff n t').mp hg
    exact ⟨t', r, r', rfl, hr, q, e.trans hn.symm⟩

namespace Wider

theorem get (h : Wider w w') {t : Nat} {r : TypeRec} (ht : w.types[t]? = some r) : w'.types[t]? = some r := by
  obtain ⟨s, hs⟩ := h.types
  rw [← hs, List.getElem?_append_left (List.getElem?_eq_some_iff.mp ht).1]
  exact ht

theorem typeAt_ok (h : Wider w w') {t : Nat} {r : TypeRec} (ht : w.typeAt t = .ok r) : w'.typeAt t = .ok r := by
  obtain ⟨s, hs⟩ := h.types
  unfold World.typeAt at ht ⊢
  rcases Nat.lt_or_ge t w.types.length with hl | hl
  · rw [← hs, List.getElem?_append_left hl]; exact ht
  · rw [List.getElem?_eq_none hl] at ht; cases ht

theorem mapM_ok (h : Wider w w') {is : List Nat} {rs : List TypeRec} (hr : is.mapM w.typeAt = .ok rs) :
    is.mapM w'.typeAt = .ok rs := by
  induction is generalizing rs with
  | nil => exact hr
  | cons i is ih =>
    rw [List.mapM_cons] at hr ⊢
    obtain ⟨a, h1, hr⟩ := Res.bind_eq_ok.1 hr
    obtain ⟨b, h2, hr⟩ := Res.bind_eq_ok.1 hr
    rw [h.typeAt_ok h1, Res.ok_bind, ih h2, Res.ok_bind]
    exact hr

/-- What a name resolves to, up to the name of the type. -/
theorem named (h : Wider w w') {n : Name} {o : Nat} (ho : Res.unwrap (w.getType n) = .ok o) {r : TypeRec} (hr : w.typeAt o = .ok r) :
    ∃ o' r', Res.unwrap (w'.getType n) = .ok o' ∧ w'.typeAt o' = .ok r' ∧ r'.fullName = r.fullName := by
  cases hg : w.getType n with
  | none => rw [hg] at ho; cases ho
  | some x =>
    rw [hg] at ho; cases ho
    obtain ⟨t', q, q', h1, h2, h3, h4⟩ := h.names n _ hg
    rw [World.typeAt, h2] at hr
    cases hr
    exact ⟨t', q', by rw [h1]; rfl, by rw [World.typeAt, h3]; rfl, h4⟩

/-- Being an instance of a type depends on its name only. -/
theorem instanceOf_ok (h : Wider w w') {o o' fuel t : Nat} {b : Bool} {r r' : TypeRec} (hr : w.typeAt o = .ok r)
    (hr' : w'.typeAt o' = .ok r') (hn : r'.fullName = r.fullName) (hb : instanceOf w o fuel t = .ok b) :
    instanceOf w' o' fuel t = .ok b := by
  induction fuel generalizing t with
  | zero => exact hb
  | succ fuel ih =>
    unfold instanceOf at hb ⊢
    obtain ⟨tr, h1, hb⟩ := Res.bind_eq_ok.1 hb
    rw [hr, Res.ok_bind] at hb
    rw [h.typeAt_ok h1, Res.ok_bind, hr', Res.ok_bind, hn]
    split at hb
    · rw [if_pos ‹_›]; exact hb
    · rw [if_neg ‹_›]
      cases hbase : tr.base with
      | some c => simp only [hbase] at hb ⊢; exact ih hb
      | none =>
        simp only [hbase] at hb ⊢
        obtain ⟨is, h3, hb⟩ := Res.bind_eq_ok.1 hb
        rw [h.mapM_ok h3, Res.ok_bind]
        exact hb

theorem instanceOf_typeAt {o fuel t : Nat} {b : Bool} (hb : instanceOf w o fuel t = .ok b) : ∃ r, w.typeAt o = .ok r := by
  cases fuel with
  | zero => cases hb
  | succ fuel =>
    unfold instanceOf at hb
    obtain ⟨tr, h1, hb⟩ := Res.bind_eq_ok.1 hb
    obtain ⟨r, h2, hb⟩ := Res.bind_eq_ok.1 hb
    exact ⟨r, h2⟩

theorem isReferenceType_ok (h : Wider w w') {fuel t : Nat} {b : Bool} (hb : isReferenceType w fuel t = .ok b) :
    isReferenceType w' fuel t = .ok b := by
  unfold isReferenceType at hb ⊢
  obtain ⟨x, h1, hb⟩ := Res.bind_eq_ok.1 hb
  obtain ⟨y, h2, hb⟩ := Res.bind_eq_ok.1 hb
  obtain ⟨r, hr⟩ := instanceOf_typeAt h2
  obtain ⟨o', r', q1, q2, q3⟩ := h.named h1 hr
  rw [q1, Res.ok_bind, h.instanceOf_ok hr q2 q3 h2, Res.ok_bind]
  exact hb

theorem primitiveSize_ok (h : Wider w w') {full : Name} {l : List (Name × Nat)} {r : Option Nat}
    (hr : primitiveSize w full l = .ok r) : primitiveSize w' full l = .ok r := by
  induction l with
  | nil => exact hr
  | cons a l ih =>
    unfold primitiveSize at hr ⊢
    obtain ⟨x, h1, hr⟩ := Res.bind_eq_ok.1 hr
    obtain ⟨y, h2, hr⟩ := Res.bind_eq_ok.1 hr
    obtain ⟨o', r', q1, q2, q3⟩ := h.named h1 h2
    rw [q1, Res.ok_bind, q2, Res.ok_bind, q3]
    split at hr
    · rw [if_pos ‹_›]; exact hr
    · rw [if_neg ‹_›]; exact ih hr

/-- The size of a type does not change. -/
theorem typeSize_ok (h : Wider w w') {fuel t s : Nat} (hs : typeSize cfg w fuel t = .ok s) : typeSize cfg w' fuel t = .ok s := by
  induction fuel generalizing t s with
  | zero => exact hs
  | succ fuel ih =>
    unfold typeSize at hs ⊢
    obtain ⟨tr, h1, hs⟩ := Res.bind_eq_ok.1 hs
    obtain ⟨p, h2, hs⟩ := Res.bind_eq_ok.1 hs
    rw [h.typeAt_ok h1, Res.ok_bind, h.primitiveSize_ok h2, Res.ok_bind]
    cases p with
    | some p => exact hs
    | none =>
      dsimp only at hs ⊢
      obtain ⟨x, h3, hs⟩ := Res.bind_eq_ok.1 hs
      rw [fieldsSize_mono (fun _ _ => h.isReferenceType_ok) (fun _ _ => ih) h3, Res.ok_bind]
      cases hbase : tr.base with
      | none => simp only [hbase] at hs ⊢; exact hs
      | some b =>
        simp only [hbase] at hs ⊢
        obtain ⟨y, h4, hs⟩ := Res.bind_eq_ok.1 hs
        rw [ih h4, Res.ok_bind]
        exact hs

theorem isVoid (h : Wider w w') {m : MethodRec} (hv : IsVoid w m) : IsVoid w' m := by
  obtain ⟨r, t, tr, h1, h2, h3, h4⟩ := hv
  obtain ⟨t', q, q', g1, g2, g3, g4⟩ := h.names _ _ h2
  rw [h3] at g2; cases g2
  exact ⟨r, t', q', h.get h1, g1, g3, h4.trans g4.symm⟩

theorem isValue (h : Wider w w') {m : MethodRec} (hv : IsValue w m) : IsValue w' m := by
  obtain ⟨r, t, tr, h1, h2, h3, h4⟩ := hv
  obtain ⟨t', q, q', g1, g2, g3, g4⟩ := h.names _ _ h2
  rw [h3] at g2; cases g2
  exact ⟨r, t', q', h.get h1, g1, g3, by rw [g4]; exact h4⟩

theorem primitivesOk (h : Wider w w') (hp : w'.primitives = w.primitives) (hk : PrimitivesOk w) : PrimitivesOk w' := by
  obtain ⟨ps, h1, h2⟩ := hk
  refine ⟨ps, by rw [hp]; exact h1, ?_⟩
  rw [← h2]
  refine List.map_congr_left fun t ht => ?_
  have hm : w.types[t]?.map (·.fullName) ∈ numericWidths.map (some ·.1) := by
    rw [← h2]; exact List.mem_map_of_mem ht
  cases hx : w.types[t]? with
  | some r => rw [h.get hx]
  | none =>
    rw [hx] at hm
    simp [numericWidths] at hm

theorem tokens (h : Wider w w') (hp : w'.primitives = w.primitives) {tf : Nat} {meth : Nat → MethodRec} {fld : Nat → FieldRec}
    {asm : AssemblyRec} {p : Obj.Proc} (ht : Obj.Tokens cfg tf w meth fld asm p) : Obj.Tokens cfg tf w' meth fld asm p where
  procs := ht.procs
  write := ht.write
  news tok cls j hj := by
    obtain ⟨h1, h2, h3, h4⟩ := ht.news tok cls j hj
    exact ⟨h1, h2, h.typeSize_ok h3, h4⟩
  fields tok f hf := by
    obtain ⟨h1, tr, h2, h3⟩ := ht.fields tok f hf
    exact ⟨h1, tr, h.get h2, h3⟩
  strings tok text hs := by
    obtain ⟨h1, t, tr, h2, h3⟩ := ht.strings tok text hs
    obtain ⟨t', q, q', g1, g2, g3, g4⟩ := h.names _ _ h2
    exact ⟨h1, t', q', g1, g3⟩
  ints tok hi := by
    obtain ⟨ps, tr, h1, h2, h3, h4, h5⟩ := ht.ints tok hi
    exact ⟨ps, tr, by rw [hp]; exact h1, h2, h.get h3, h4, h.typeSize_ok h5⟩

theorem linked (h : Wider w w') (hp : w'.primitives = w.primitives) {tf : Nat} {meth : Nat → MethodRec} {fld : Nat → FieldRec}
    {m : MethodRec} {p : Obj.Proc} (hl : Obj.LinkedTo cfg tf w meth fld m p) : Obj.LinkedTo cfg tf w' meth fld m p where
  body := by
    obtain ⟨body, t, asm, h1, h2, h3, h4, h5, h6⟩ := hl.body
    refine ⟨body, t, asm, h1, h2, h3, h.get h4, ?_, h.tokens hp h6⟩
    obtain ⟨s, hs⟩ := h.assemblies
    rw [← hs, List.find?_append, h5]
    rfl
  size := hl.size
  params := hl.params
  value hr := h.isValue (hl.value hr)
  void hr := h.isVoid (hl.void hr)

end Wider

/-- Array types can be made while there are type numbers left. -/
theorem Reached.arraysReady (h : Reached cfg w) (hroom : w.types.length + 1 < 2 ^ 32) : Obj.ArraysReady w := by
  intro ps er _ _
  split
  · next t ht =>
    obtain ⟨r, hr, -⟩ := (h.inv.getType_iff _ t).mp ht
    exact ⟨r, hr⟩
  · rw [h.inv.next, Nat.mod_eq_of_lt (by omega)]
    omega

theorem loadAssembly_silent (fs : Name → Option Bytes) (depth fuel : Nat) (n : Name) : Silent (loadAssembly cfg fs depth fuel n) := by
  unfold loadAssembly
  exact Silent.liftM_bind fun _ => loadData_silent fs depth fuel _

theorem _root_.Clr.Spec.Onward.advanced (h : Spec.Onward cfg w w') : Advanced cfg w w' := by
  induction h with
  | refl => exact .refl _
  | loadFile fs depth fuel data _ ih =>
    exact ih.trans ⟨.loadFile fs depth fuel data (.refl _), (loadData_silent fs depth fuel data _).2⟩
  | loadName fs depth fuel n _ ih =>
    exact ih.trans ⟨.loadName fs depth fuel n (.refl _), (loadAssembly_silent fs depth fuel n _).2⟩
  | execute ops tf fuel m params _ ih => exact ih.trans (hostExecute_advanced ops tf fuel _ m params)

end Clr
