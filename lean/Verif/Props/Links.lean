import Verif.Lemmas.Links
import Verif.Lemmas.Onward
import Verif.Lemmas.Machine
import Verif.Props.Assemblies
/-! # C98: the links of the reflection API lead somewhere, and back -/

namespace Clr
open Spec
variable {cfg : Cfg} {w w' : World}

/-- **C98, types.** At any moment, every link from any registered type, its fields, its methods, their parameters, local variables and
handlers leads to a registered type, and the members name the type as their declaring type. -/
theorem C98_types (hw : Reached cfg w) (t : Nat) (r : TypeRec) (ht : w.types[t]? = some r) : TypeWhole w t r := by
  have hi := hw.inv
  refine ⟨hi.base t r ht, hi.ifaces t r ht, fun f hf => ⟨(hi.fields t r ht f hf).2, (hi.fields t r ht f hf).1⟩, fun x hx => ?_⟩
  obtain ⟨h1, h2⟩ := hi.methods t r ht x hx
  exact ⟨h2, h1.ret, h1.params, h1.locals, h1.catches⟩

theorem assemblyOf_eq {t : Nat} {r : TypeRec} (hr : w.types[t]? = some r) :
    w.assemblyOf t = Res.unwrap (w.assemblies.find? (·.id = r.assembly)) := by
  unfold World.assemblyOf World.typeAt
  rw [hr]
  rfl

theorem assemblyOf_ok {t : Nat} {a : AssemblyRec} (h : w.assemblyOf t = .ok a) :
    ∃ r, w.types[t]? = some r ∧ a ∈ w.assemblies ∧ a.id = r.assembly := by
  cases hr : w.types[t]? with
  | none => unfold World.assemblyOf World.typeAt at h; rw [hr] at h; cases h
  | some r =>
    rw [assemblyOf_eq hr] at h
    cases hf : w.assemblies.find? (·.id = r.assembly) with
    | none => rw [hf] at h; cases h
    | some b =>
      rw [hf] at h
      injection h with e
      subst e
      exact ⟨r, rfl, List.mem_of_find?_eq_some hf, by simpa using List.find?_some hf⟩

theorem find_id {as : List AssemblyRec} {a : AssemblyRec} {i : Nat} (hm : a ∈ as) (hd : as.Pairwise (fun a b => a.id ≠ b.id)) (hid : a.id = i) :
    as.find? (·.id = i) = some a := by
  induction as with
  | nil => cases hm
  | cons b bs ih =>
    rw [List.pairwise_cons] at hd
    rcases List.mem_cons.mp hm with rfl | hm
    · rw [List.find?_cons, decide_eq_true hid]
    · rw [List.find?_cons, decide_eq_false (fun e => hd.1 a hm (e.trans hid.symm))]
      exact ih hm hd.2

theorem assemblyOf_of (hw : Reached cfg w) {t : Nat} {r : TypeRec} {a : AssemblyRec} (hr : w.types[t]? = some r) (hm : a ∈ w.assemblies)
    (hid : a.id = r.assembly) : w.assemblyOf t = .ok a := by
  rw [assemblyOf_eq hr, find_id hm hw.linked.distinct hid]; rfl

/-- **C98, assemblies.** At any moment, every loaded assembly and its types lead to each other, its methods and fields are exactly those
of its types, its entry point is one of its methods, and what it refers to in other assemblies is registered there. -/
theorem C98_assemblies (hw : Reached cfg w) (a : AssemblyRec) (ha : a ∈ w.assemblies) : AssemblyWhole w a := by
  have hl := hw.linked.links a ha
  refine ⟨fun t ht => ?_, hl.methods, hl.fields, hl.entry, hl.typeRefs, hl.methodRefs⟩
  obtain ⟨r, h1, h2⟩ := hl.types t ht
  exact assemblyOf_of hw h1 ha h2.symm

/-- **C98, the way back.** The assembly that a type answers is a loaded one, and the type is among its types, or else it is an array type
whose element type, made earlier, answers the same assembly. -/
theorem C98_owner (hw : Reached cfg w) (t : Nat) (a : AssemblyRec) (h : w.assemblyOf t = .ok a) :
    a ∈ w.assemblies ∧ (t ∈ a.types ∨ ∃ e re r, e < t ∧ w.types[e]? = some re ∧ w.types[t]? = some r ∧
      r.fullName = re.fullName ++ "[]".toList ∧ w.assemblyOf e = .ok a) := by
  obtain ⟨r, h1, h2, h3⟩ := assemblyOf_ok h
  refine ⟨h2, ((hw.linked.owners t r h1).2 a h2 h3).imp_right ?_⟩
  rintro ⟨e, re, g0, g1, g2, g3⟩
  exact ⟨e, re, r, g0, g1, h1, g2, assemblyOf_of hw g1 h2 (h3.trans g3)⟩

/-- **C98 (partial), the assembly of a type.** Whatever happens later, a type that has answered an assembly answers that assembly for ever;
a type made by an `array_of` call answers what its element type answers. Missing: that every registered type answers one (see
`C98_refuted`). -/
theorem C98_assembly_partial (hw : Reached cfg w) (t : Nat) (a : AssemblyRec) (h : w.assemblyOf t = .ok a) :
    (∀ w', Later cfg w w' → w'.assemblyOf t = .ok a) ∧
    ∀ t' w', arrayType cfg t w = (.ok t', w') → w.types.length ≤ t' → w'.assemblyOf t' = .ok a := by
  obtain ⟨r, h1, h2, h3⟩ := assemblyOf_ok h
  have later : ∀ w', Later cfg w w' → w'.assemblyOf t = .ok a := fun w' hl => by
    have hs := hl.spared (Nat.le_refl w.types.length)
    refine assemblyOf_of (hl.reached hw) ?_ (hs.assemblies.subset h2) h3
    rw [hs.types t (List.getElem?_eq_some_iff.mp h1).1]; exact h1
  refine ⟨later, fun t' w' ht hlt => ?_⟩
  have hl : Later cfg w w' := by have := (Later.refl (cfg := cfg) w).arrayOf t; rw [ht] at this; exact this
  have hs := hl.spared (Nat.le_refl w.types.length)
  obtain ⟨r', k1, k2⟩ : ∃ r', w'.types[t']? = some r' ∧ r'.assembly = r.assembly := by
    unfold arrayType at ht
    obtain ⟨er, g1, ht⟩ := M.view_bind_eq_ok.mp ht
    have her : er = r := by
      unfold World.typeAt at g1
      rw [h1] at g1
      cases g1; rfl
    subst her
    obtain ⟨o, g2, ht⟩ := M.view_bind_eq_ok.mp ht
    cases o with
    | some u =>
      simp only [M.pure_run, Prod.mk.injEq, Res.ok.injEq] at ht g2
      obtain ⟨rfl, -⟩ := ht
      have := hw.inv.getType_lt g2
      omega
    | none =>
      obtain ⟨id, w1, g3, ht⟩ := M.bind_eq_ok.mp ht
      obtain ⟨bs, -, ht⟩ := M.view_bind_eq_ok.mp ht
      obtain ⟨u, g4, ht⟩ := M.view_bind_eq_ok.mp ht
      rw [M.modify_bind] at ht
      simp only [M.pure_run, Prod.mk.injEq, Res.ok.injEq] at ht g4
      obtain ⟨rfl, rfl⟩ := ht
      subst g4
      exact ⟨_, List.getElem?_concat_length, rfl⟩
  exact assemblyOf_of (hl.reached hw) k1 (hs.assemblies.subset h2) (h3.trans k2.symm)

/-- **C98, after a failed load.** Once a load has failed, no type that it registered answers an assembly, neither now nor later, and no
method of such a type can be executed: the program ends in a panic. -/
theorem C98_failed (hw : Reached cfg w) (t : Nat) (ht : t < w.types.length) (h : w.assemblyOf t = .panic) {w' : World} (hl : Later cfg w w') :
    w'.assemblyOf t = .panic ∧ ∀ ops tf fuel m b params, m.declaringType = t → m.isStatic = true → m.impl = .il b →
      (hostExecute cfg ops tf fuel w' m params).1 = .panic := by
  obtain ⟨r, h1⟩ : ∃ r, w.types[t]? = some r := ⟨_, List.getElem?_eq_getElem ht⟩
  have hs := hl.spared (Nat.le_refl w.types.length)
  have h2 : w'.types[t]? = some r := by rw [hs.types t ht]; exact h1
  have hn : w'.assemblies.find? (·.id = r.assembly) = none := by
    rw [List.find?_eq_none]
    intro a ha
    have hlt := (hw.linked.owners t r h1).1
    rw [decide_eq_true_eq]
    intro e
    rcases (hl.newIds hw.inv).1.ids a ha with g | g
    · rw [assemblyOf_of hw h1 g e] at h; cases h
    · omega
  refine ⟨by rw [assemblyOf_eq h2, hn]; rfl, fun ops tf fuel m b params hm hst him => ?_⟩
  unfold hostExecute
  rw [if_pos hst]
  have : invoke cfg (loop cfg ops tf fuel) m .host { world := w', host := params } = (.panic, { world := w', host := params }) := by
    unfold invoke
    rw [him]
    dsimp only
    rw [X.bind_run, X.view_run]
    have : (World.typeAt w' m.declaringType) = .ok r := by unfold World.typeAt; rw [hm, h2]; rfl
    rw [this]
    dsimp only
    rw [X.bind_run, X.view_run]
    dsimp only
    rw [hn]
    rfl
  rw [this]
  rfl

/-- **C98: refuted.** The file `bad` declares a type with a method that the runtime is to provide but does not know: loading it fails, and the type stays
behind and answers no assembly. -/
theorem C98_refuted : ∃ (fs : Name → Option Bytes) (w : World) (msg : String), Reached Cfg.debug w ∧
    (loadAssembly Cfg.debug fs 1 100 "bad".toList w).1 = .err msg ∧
    (loadAssembly Cfg.debug fs 1 100 "bad".toList w).2.types.length = 20 ∧
    (loadAssembly Cfg.debug fs 1 100 "bad".toList w).2.assemblyOf 19 = .panic := by
  obtain ⟨msg, h⟩ := Ex.failed_iff (x := (loadAssembly Cfg.debug (Ex.disk [("bad".toList, Ex.bad.file)]) 1 100 "bad".toList Ex.coreWorld).1)
    (by decide +kernel)
  exact ⟨_, Ex.coreWorld, msg, Ex.coreReached, h, by decide +kernel, by decide +kernel⟩

/-- A loaded assembly with types; a type answers it, and so does a new array type. -/
example : ∃ a ∈ Ex.coreWorld.assemblies, 10 ∈ a.types ∧ Ex.coreWorld.assemblyOf 10 = .ok a ∧
    (arrayType Cfg.debug 10 Ex.coreWorld).2.assemblyOf 19 = .ok a := by
  refine ⟨Ex.coreWorld.assemblies[0]'(by decide +kernel), List.getElem_mem _, ?_, ?_, ?_⟩ <;> decide +kernel

end Clr
