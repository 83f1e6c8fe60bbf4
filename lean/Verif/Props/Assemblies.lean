import Verif.Lemmas.Assemblies
import Verif.Props.Loading
/-! # C41, C42, C66: order of loading, termination, and failed loads -/

namespace Clr
open Spec

variable {cfg : Cfg} {m : Metadata} {fs : Name → Option Bytes}

theorem ofOption_some {α : Type} (msg : String) (a : α) : Res.ofOption msg (some a) = .ok a := rfl

/-! ## C41 -/

/-- **C41 (partial).** If every file is found under its own name, then successfully loading by name an assembly that is not
loaded yet adds to the loaded assemblies a list that ends in it, in which every assembly is new and appears once, is needed
(directly or not) by the one asked for, and comes after every assembly it refers to. In particular all assemblies that
are needed are then loaded. Missing: loading a name that is loaded already (see `C41_refuted`). -/
theorem C41_partial {depth fuel : Nat} {n : Name} {w w' : World} {a : AssemblyRec} (hw : Reached cfg w)
    (hn : NamedByFile cfg fs) (hnew : n ∉ loaded w) (h : loadAssembly cfg fs depth fuel n w = (.ok a, w')) :
    ∃ new, loaded w' = loaded w ++ new ∧ new.getLast? = some n ∧ (Distinct (loaded w) → Distinct (loaded w')) ∧
      (∀ x ∈ new, x ∉ loaded w) ∧ (∀ x ∈ new, Needs cfg fs n x) ∧
      (∀ (i : Nat) x y, new[i]? = some x → RefersTo cfg fs x y → y ∈ loaded w ++ new.take i) ∧
      ((∀ x ∈ loaded w, ∀ y, RefersTo cfg fs x y → y ∈ loaded w) → ∀ y, Needs cfg fs n y → y ∈ loaded w') := by
  obtain ⟨l, h1, h2, h3, h4, -, -⟩ := loadAt_extends hn depth fuel n [] w a w' hw.inv (.singleton n) (by simpa using hnew) h
  have h5 : Extends cfg fs n (loaded w) (loaded w') := by rw [h2]; exact h1.snoc h4 h3 .self
  obtain ⟨new, e, h6⟩ := h5.explicit
  have hlast : new.getLast? = some n := by
    obtain ⟨new', e', -⟩ := h1.explicit
    have : new = new' ++ [n] := by
      have : loaded w ++ new = loaded w ++ (new' ++ [n]) := by rw [← e, h2, e']; simp
      exact List.append_cancel_left this
    rw [this]; simp
  have hdis : ∀ (i j : Nat) x, new[i]? = some x → new[j]? = some x → i < j → False := fun i j x hi hj hlt => by
    refine (h6 j x hj).1 (List.mem_append_right _ (List.mem_of_getElem? (i := i) ?_))
    rw [List.getElem?_take, if_pos hlt]; exact hi
  have hout : ∀ x ∈ new, x ∉ loaded w := fun x hx hl => by
    obtain ⟨i, hi⟩ := List.mem_iff_getElem?.mp hx
    exact (h6 i x hi).1 (List.mem_append_left _ hl)
  refine ⟨new, e, hlast, fun hd => ?_, hout, fun x hx => ?_, fun i x y hx hy => (h6 i x hx).2.2 y hy, fun hcl y hy => ?_⟩
  · rw [e]
    intro i j x hi hj
    rcases Nat.lt_or_ge i (loaded w).length with hi' | hi' <;> rcases Nat.lt_or_ge j (loaded w).length with hj' | hj'
    · rw [List.getElem?_append_left hi'] at hi; rw [List.getElem?_append_left hj'] at hj
      exact hd i j x hi hj
    · rw [List.getElem?_append_left hi'] at hi; rw [List.getElem?_append_right hj'] at hj
      exact absurd (List.mem_of_getElem? hi) (hout x (List.mem_of_getElem? hj))
    · rw [List.getElem?_append_right hi'] at hi; rw [List.getElem?_append_left hj'] at hj
      exact absurd (List.mem_of_getElem? hj) (hout x (List.mem_of_getElem? hi))
    · rw [List.getElem?_append_right hi'] at hi; rw [List.getElem?_append_right hj'] at hj
      rcases Nat.lt_trichotomy (i - (loaded w).length) (j - (loaded w).length) with g | g | g
      · exact (hdis _ _ x hi hj g).elim
      · omega
      · exact (hdis _ _ x hj hi g).elim
  · obtain ⟨i, hi⟩ := List.mem_iff_getElem?.mp hx
    exact (h6 i x hi).2.1
  · induction hy with
    | self => rw [e]; exact List.mem_append_right _ (List.mem_of_getLast? hlast)
    | step _ hr ih =>
      rw [e] at ih ⊢
      rcases List.mem_append.mp ih with ih | ih
      · exact List.mem_append_left _ (hcl _ ih _ hr)
      · obtain ⟨i, hi⟩ := List.mem_iff_getElem?.mp ih
        have := (h6 i _ hi).2.2 _ hr
        rcases List.mem_append.mp this with g | g
        · exact List.mem_append_left _ g
        · exact List.mem_append_right _ (List.mem_of_mem_take g)

namespace Ex

/-- An assembly with no types. -/
def empty (name : String) (refs : List String) : Asm where
  strings := name :: refs
  tables :=
    [(0x02, [typeRow (name :: refs) 0 "" name 0 1 1]), (0x20, [assemblyRow (name :: refs) name])] ++
      (if refs = [] then [] else [(0x23, refs.map (assemblyRefRow (name :: refs)))])

/-- A file system given by a list. -/
def disk (files : List (Name × Bytes)) (n : Name) : Option Bytes := files.lookup n

/-- `top` needs `left` and `right`, which both need `base`. -/
def diamond : List (Name × Bytes) :=
  [("base".toList, (empty "base" []).file), ("left".toList, (empty "left" ["base"]).file),
   ("right".toList, (empty "right" ["base"]).file), ("top".toList, (empty "top" ["left", "right"]).file)]

def nameOfFile (d : Bytes) : Res (Option Name) := do
  let m ← readMetadata Cfg.debug d
  let row ← Res.unwrap m.tables.assembly[0]?
  m.string row.name

theorem disk_mem {files : List (Name × Bytes)} {n : Name} {d : Bytes} (h : disk files n = some d) : (n, d) ∈ files := by
  unfold disk at h
  induction files with
  | nil => simp at h
  | cons p ps ih =>
    obtain ⟨k, v⟩ := p
    rw [List.lookup_cons] at h
    split at h
    · rename_i e
      simp only [beq_iff_eq] at e
      cases h; subst e; simp
    · exact List.mem_cons_of_mem _ (ih h)

theorem namedByFile_disk {files : List (Name × Bytes)} (h : ∀ p ∈ files, nameOfFile p.2 = .ok (some p.1)) :
    NamedByFile Cfg.debug (disk files) := by
  intro n d m row name h1 h2 h3 h4
  have h5 := h _ (disk_mem h1)
  rw [show (n, d).2 = d from rfl, nameOfFile, h2, Res.ok_bind, h3] at h5
  rw [show Res.unwrap (some row) = Res.ok row from rfl, Res.ok_bind, h4] at h5
  simpa using h5

end Ex

/-- The hypotheses hold for the four files: `base` is loaded once, first. -/
example : NamedByFile Cfg.debug (Ex.disk Ex.diamond) := Ex.namedByFile_disk (by decide +kernel)
example : (loaded Ex.coreWorld, loaded (loadAssembly Cfg.debug (Ex.disk Ex.diamond) 5 100 "top".toList Ex.coreWorld).2) =
    (["core".toList], ["core".toList, "base".toList, "left".toList, "right".toList, "top".toList]) ∧
    Ex.holds (fun _ => true) (loadAssembly Cfg.debug (Ex.disk Ex.diamond) 5 100 "top".toList Ex.coreWorld).1 = true := by
  decide +kernel

/-- **C41: refuted in general.** Loading by name an assembly that is loaded already succeeds and loads it again: it
is listed twice and its types are registered a second time. -/
theorem C41_refuted : ∃ (fs : Name → Option Bytes) (w w' : World) (a : AssemblyRec), Reached Cfg.debug w ∧ NamedByFile Cfg.debug fs ∧
    "core".toList ∈ loaded w ∧ loadAssembly Cfg.debug fs 1 100 "core".toList w = (.ok a, w') ∧
    loaded w' = ["core".toList, "core".toList] ∧ w.getType "System.Int32".toList = some 10 ∧ w'.getType "System.Int32".toList = some 29 := by
  obtain ⟨a, h1, h2⟩ := Ex.holds_iff (p := fun _ => decide (
      loaded (loadAssembly Cfg.debug (Ex.disk [("core".toList, Ex.coreFile)]) 1 100 "core".toList Ex.coreWorld).2 = ["core".toList, "core".toList] ∧
      Ex.coreWorld.getType "System.Int32".toList = some 10 ∧
      (loadAssembly Cfg.debug (Ex.disk [("core".toList, Ex.coreFile)]) 1 100 "core".toList Ex.coreWorld).2.getType "System.Int32".toList = some 29 ∧
      "core".toList ∈ loaded Ex.coreWorld))
    (x := (loadAssembly Cfg.debug (Ex.disk [("core".toList, Ex.coreFile)]) 1 100 "core".toList Ex.coreWorld).1) (by decide +kernel)
  obtain ⟨h3, h4, h5, h6⟩ := of_decide_eq_true h2
  exact ⟨Ex.disk [("core".toList, Ex.coreFile)], Ex.coreWorld, _, a, Ex.coreReached, Ex.namedByFile_disk (by decide +kernel), h6, by rw [← h1], h3, h4, h5⟩

/-! ## C42 -/

/-- **C42 (partial).** If references never lead back (they decrease some rank), the recursion over references is at most
`rank n + 1` deep: allowing it any greater depth gives the same outcome and the same registry. Missing: reference
graphs with cycles (see `C42_refuted`), and the recursion that computes the sizes of types, which has its own bound. -/
theorem C42_partial {rank : Name → Nat} (hr : ∀ x y, RefersTo cfg fs x y → rank y < rank x) {depth fuel : Nat} {n : Name} (w : World)
    (hd : rank n + 1 ≤ depth) : loadAssembly cfg fs depth fuel n w = loadAssembly cfg fs (rank n + 1) fuel n w :=
  congrFun (loadAt_depth hr fuel depth (rank n + 1) n (by omega) (by omega)) w

/-- **C42 (partial).** An assembly on a reference cycle is never loaded: if each of a set of names, none loaded, refers to
another of them, then however deep the recursion is allowed to go, loading one of them does not succeed. -/
theorem C42_cycles_partial (hn : NamedByFile cfg fs) {S : Name → Prop} (hS : ∀ x, S x → ∃ y, S y ∧ RefersTo cfg fs x y) {w : World}
    (hw : Reached cfg w) (hl : ∀ x ∈ loaded w, ¬ S x) {n : Name} (hs : S n) (depth fuel : Nat) :
    ∀ a w', loadAssembly cfg fs depth fuel n w ≠ (.ok a, w') :=
  fun a w' h => (loadAt_stuck hn hS depth fuel n w a w' hw.inv hl h).2.1 hs

namespace Ex

def loop : List (Name × Bytes) := [("self".toList, (empty "self" ["self"]).file)]

/-- What matters of the file: it has one reference, to itself. -/
theorem loop_file : ∃ m row ref, readMetadata cfg (empty "self" ["self"]).file = .ok m ∧ tableIndex cfg m.tables.assembly 1 = .ok row ∧
    m.string! row.name = .ok "self".toList ∧ m.tables.assemblyRef = [ref] ∧ m.string ref.name = .ok (some "self".toList) := by
  have hb : ∀ b : Bool, holds (fun m => match m.tables.assembly, m.tables.assemblyRef with
      | [row], [ref] => decide (m.string! row.name = .ok "self".toList ∧ m.string ref.name = .ok (some "self".toList))
      | _, _ => false) (readMetadata ⟨b⟩ (empty "self" ["self"]).file) = true := by decide +kernel
  obtain ⟨m, h1, h2⟩ := holds_iff (hb cfg.checks)
  split at h2
  · rename_i row ref e1 e2
    have := of_decide_eq_true h2
    exact ⟨m, row, ref, h1, by rw [tableIndex_at cfg (by omega) (row := row) (by rw [e1]; rfl)], this.1, e2, this.2⟩
  · simp at h2

end Ex

/-- **C42: refuted in general.** For an assembly that refers to itself the recursion exceeds every depth. -/
theorem C42_refuted : ∃ (fs : Name → Option Bytes) (n : Name), ∀ (cfg : Cfg) (w : World) (depth fuel : Nat), n ∉ loaded w →
    (loadAssembly cfg fs depth fuel n w).1 = .timeout := by
  refine ⟨Ex.disk Ex.loop, "self".toList, fun cfg w depth fuel hw => ?_⟩
  obtain ⟨m, row, ref, h1, h2, h3, h4, h5⟩ := Ex.loop_file (cfg := cfg)
  have hfs : Ex.disk Ex.loop "self".toList = some (Ex.empty "self" ["self"]).file := by
    unfold Ex.disk Ex.loop; rw [List.lookup_cons]; simp
  have key : ∀ depth, loadData cfg (Ex.disk Ex.loop) depth fuel (Ex.empty "self" ["self"]).file w = (.timeout, w) := by
    intro depth
    induction depth with
    | zero => rfl
    | succ d ih =>
      unfold loadData
      rw [M.liftM_bind_ok h1, M.liftM_bind_ok h2, M.liftM_bind_ok h3, h4]
      unfold loadRefs
      rw [M.bind_run, M.liftM_bind_ok h5, ofOption_some, M.liftM_bind_ok rfl, M.get_bind, if_neg, M.bind_run, hfs, ofOption_some, M.liftM_bind_ok rfl, ih]
      simpa [loaded] using hw
  unfold loadAssembly
  rw [hfs, ofOption_some, M.liftM_bind_ok rfl, key]

namespace Ex

def height (n : Name) : Nat := if n = "top".toList then 2 else if n = "base".toList then 0 else 1

theorem height_refs {files : List (Name × Bytes)} (h : ∀ p ∈ files, holds (fun m => m.tables.assemblyRef.all fun row =>
      match m.string row.name with
      | .ok (some y) => decide (height y < height p.1)
      | _ => true) (readMetadata Cfg.debug p.2) = true) (x y : Name) (hr : RefersTo Cfg.debug (disk files) x y) : height y < height x := by
  obtain ⟨d, m, row, h1, h2, h3, h4⟩ := hr
  have h5 := h _ (disk_mem h1)
  rw [show (x, d).2 = d from rfl, h2] at h5
  have h6 := List.all_eq_true.mp h5 row h3
  rw [h4] at h6
  exact of_decide_eq_true h6

end Ex

/-- The references of the four files decrease a rank (and they load, see above). -/
example : ∀ x y, RefersTo Cfg.debug (Ex.disk Ex.diamond) x y → Ex.height y < Ex.height x := Ex.height_refs (by decide +kernel)

/-- The loop is a set as in the second theorem. -/
example : ∃ m ref, readMetadata Cfg.debug (Ex.empty "self" ["self"]).file = .ok m ∧ ref ∈ m.tables.assemblyRef ∧
    m.string ref.name = .ok (some "self".toList) := by
  obtain ⟨m, _, ref, h1, _, _, h4, h5⟩ := Ex.loop_file (cfg := Cfg.debug)
  exact ⟨m, ref, h1, by rw [h4]; simp, h5⟩

/-! ## C66 -/

/-- **C66 (partial).** Whatever the outcome of loading an assembly, every type registered before keeps its record
(identifier, name, kind, members, interfaces), and a lookup by name changes its answer only if the attempt registered a type
of exactly that name, which is then the answer. Missing: that no type at all is registered (see `C66_refuted`). -/
theorem C66_partial {depth fuel : Nat} {n : Name} {w : World} (hw : Reached cfg w) :
    (∀ j < w.types.length, (loadAssembly cfg fs depth fuel n w).2.types[j]? = w.types[j]?) ∧
    ∀ name, (loadAssembly cfg fs depth fuel n w).2.getType name = w.getType name ∨
      ∃ j t, (loadAssembly cfg fs depth fuel n w).2.getType name = some j ∧ w.types.length ≤ j ∧
        (loadAssembly cfg fs depth fuel n w).2.types[j]? = some t ∧ t.fullName = name := by
  have hold : Old cfg w.types.length w (loadAssembly cfg fs depth fuel n) fun _ _ => True :=
    Old.liftM_bind fun d _ => loadData_old fs depth fuel d w
  obtain ⟨h1, h2, -⟩ := hold hw.inv (Nat.le_refl _)
  generalize (loadAssembly cfg fs depth fuel n w).2 = w' at h1 h2
  have hi' := hw.inv.steps h1
  refine ⟨h2, fun name => ?_⟩
  cases hg : w'.getType name with
  | none =>
    left
    cases hg0 : w.getType name with
    | none => rfl
    | some t =>
      obtain ⟨tr, g1, g2, g3⟩ := (hw.inv.getType_iff _ _).mp hg0
      rw [hi'.getType_none] at hg
      exact absurd g2 (hg tr (List.mem_of_getElem? (by rw [h2 t (List.getElem?_eq_some_iff.mp g1).1]; exact g1)))
  | some j =>
    obtain ⟨tr, g1, g2, g3⟩ := (hi'.getType_iff _ _).mp hg
    rcases Nat.lt_or_ge j w.types.length with hj | hj
    · left
      refine ((hw.inv.getType_iff _ _).mpr ⟨tr, by rw [← h2 j hj]; exact g1, g2, fun i s hi hs => ?_⟩).symm
      exact g3 i s hi (by rw [h2 i (List.getElem?_eq_some_iff.mp hs).1]; exact hs)
    · exact .inr ⟨j, tr, rfl, hj, g1, g2⟩

theorem loadRefs_loaded {load : Name → M AssemblyRec} {w : World} (rows : List AssemblyRefRow)
    (h : ∀ row ∈ rows, ∃ n, m.string row.name = .ok (some n) ∧ n ∈ loaded w) : loadRefs load m rows w = (.ok (), w) := by
  induction rows with
  | nil => rfl
  | cons row rows ih =>
    obtain ⟨n, h1, h2⟩ := h row List.mem_cons_self
    unfold loadRefs
    rw [M.liftM_bind_ok h1, ofOption_some, M.liftM_bind_ok rfl, M.get_bind, if_pos]
    · exact ih fun r hr => h r (List.mem_cons_of_mem _ hr)
    · simpa [loaded, List.any_eq_true] using h2

theorem loadTypeRefs_missing {w : World} (rows : List TypeRefRow)
    (h : ∃ row ∈ rows, ∀ n ns, m.string row.name = .ok (some n) → m.string row.nspace = .ok (some ns) → w.getType (fullName ns n) = none) :
    ∀ ts w', loadTypeRefs m rows w ≠ (.ok ts, w') := by
  induction rows with
  | nil => simp at h
  | cons row rows ih =>
    intro ts w' hl
    unfold loadTypeRefs lookupRow at hl
    obtain ⟨o, w1, h1, hl⟩ := M.bind_eq_ok.mp hl
    obtain ⟨n, g1, h1⟩ := M.liftM_bind_eq_ok.mp h1
    obtain ⟨ns, g2, h1⟩ := M.liftM_bind_eq_ok.mp h1
    simp only [M.view_run, Prod.mk.injEq, Res.ok.injEq] at h1
    obtain ⟨ho, rfl⟩ := h1
    obtain ⟨t, g3, hl⟩ := M.liftM_bind_eq_ok.mp hl
    obtain ⟨ts', w2, g4, hl⟩ := M.bind_eq_ok.mp hl
    obtain ⟨r, hr, hm⟩ := h
    rcases List.mem_cons.mp hr with rfl | hr
    · rw [hm n ns (string!_inv g1) (string!_inv g2)] at ho
      subst ho
      simp [Res.ofOption] at g3
    · exact ih ⟨r, hr, hm⟩ _ _ g4

/-- Changes nothing, whatever the outcome. -/
def Still {α : Type} (x : M α) : Prop := ∀ w, (x w).2 = w

namespace Still
variable {α β : Type}

theorem pure (a : α) : Still (Pure.pure a : M α) := fun _ => rfl
theorem liftM (x : Res α) : Still (_root_.liftM x : M α) := fun _ => rfl
theorem view (g : World → Res α) : Still (M.view g) := fun _ => rfl
theorem bind {x : M α} {f : α → M β} (hx : Still x) (hf : ∀ a, Still (f a)) : Still (x >>= f) := by
  intro w
  rw [M.bind_run]
  have := hx w
  rcases e : x w with ⟨r, w1⟩
  rw [e] at this
  cases r with
  | ok a => exact (hf a w1).trans this
  | _ => exact this

end Still

theorem lookupRow_still (n ns : Nat) : Still (lookupRow m n ns) := by
  unfold lookupRow
  exact (Still.liftM _).bind fun _ => (Still.liftM _).bind fun _ => Still.view _

theorem loadMemberRefs_still (rows : List MemberRefRow) : Still (loadMemberRefs cfg m rows) := by
  induction rows with
  | nil => exact Still.pure _
  | cons row rows ih =>
    unfold loadMemberRefs
    refine Still.bind ?_ fun _ => ih.bind fun _ => Still.pure _
    unfold loadMemberRef
    split
    · exact (Still.liftM _).bind fun _ => (lookupRow_still _ _).bind fun _ => (Still.liftM _).bind fun _ => (Still.liftM _).bind fun _ =>
        (Still.liftM _).bind fun _ => (Still.view _).bind fun _ => (Still.liftM _).bind fun _ => Still.pure _
    · exact Still.pure _

theorem loadTypeRefs_still (rows : List TypeRefRow) : Still (loadTypeRefs m rows) := by
  induction rows with
  | nil => exact Still.pure _
  | cons row rows ih =>
    unfold loadTypeRefs
    exact (lookupRow_still _ _).bind fun _ => (Still.liftM _).bind fun _ => ih.bind fun _ => Still.pure _

/-- **C66 (partial).** Attempts that fail before the first type is registered leave the registry exactly as it was: the
file is missing, its metadata cannot be read, or all its referenced assemblies are loaded but one of its type
references names no registered type. -/
theorem C66_early_partial {depth fuel : Nat} {n : Name} {w : World}
    (h : fs n = none ∨ ∃ d, fs n = some d ∧ ((∀ m, readMetadata cfg d ≠ .ok m) ∨ ∃ m, readMetadata cfg d = .ok m ∧
      (∀ row ∈ m.tables.assemblyRef, ∃ r, m.string row.name = .ok (some r) ∧ r ∈ loaded w) ∧
      ∃ row ∈ m.tables.typeRef, ∀ n ns, m.string row.name = .ok (some n) → m.string row.nspace = .ok (some ns) →
        w.getType (fullName ns n) = none)) :
    (∀ a, (loadAssembly cfg fs depth fuel n w).1 ≠ .ok a) ∧ (loadAssembly cfg fs depth fuel n w).2 = w := by
  have fin : ∀ {x : Res AssemblyRec} {v : World}, (∀ a, x ≠ .ok a) → v = w → (∀ a, (x, v).1 ≠ .ok a) ∧ (x, v).2 = w :=
    fun hx hv => ⟨hx, hv⟩
  unfold loadAssembly
  rcases h with h | ⟨d, h, h'⟩
  · rw [h]; exact fin (x := .err _) (by simp) rfl
  · rw [h, ofOption_some, M.liftM_bind_ok rfl]
    cases depth with
    | zero => exact fin (x := .timeout) (by simp) rfl
    | succ depth =>
      unfold loadData
      rcases h' with h' | ⟨m, h1, h2, h3⟩
      · rw [M.bind_run, M.liftM_run]
        cases hm : readMetadata cfg d with
        | ok m => exact absurd hm (h' m)
        | _ => exact fin (by simp) rfl
      · rw [M.liftM_bind_ok h1, M.bind_run, M.liftM_run]
        cases tableIndex cfg m.tables.assembly 1 with
        | ok row =>
          dsimp only
          rw [M.bind_run, M.liftM_run]
          cases m.string! row.name with
          | ok name =>
            dsimp only
            rw [M.bind_run, loadRefs_loaded _ h2]
            dsimp only
            unfold loadSelf
            have hmr := loadMemberRefs_still (cfg := cfg) (m := m) m.tables.memberRef w
            rw [M.bind_run]
            rcases e : loadMemberRefs cfg m m.tables.memberRef w with ⟨r, w1⟩
            rw [e] at hmr
            change w1 = w at hmr
            subst hmr
            cases r with
            | ok mr =>
              dsimp only
              have htr := loadTypeRefs_still (m := m) m.tables.typeRef w1
              have hno := loadTypeRefs_missing m.tables.typeRef h3
              rw [M.bind_run]
              rcases e : loadTypeRefs m m.tables.typeRef w1 with ⟨r, w2⟩
              rw [e] at htr hno
              change w2 = w1 at htr
              subst htr
              cases r with
              | ok tr => exact absurd rfl (hno tr w2)
              | _ => exact fin (by simp) rfl
            | _ => exact fin (by simp) rfl
          | _ => exact fin (by simp) rfl
        | _ => exact fin (by simp) rfl

namespace Ex

def badStrings : List String := ["bad", "System", "Int32", "M"]

/-- A type `System.Int32` with a runtime-implemented method that the runtime does not know. -/
def bad : Asm where
  strings := badStrings
  blobs := [[0x00, 0, 0x01]]
  tables :=
    [(0x02, [typeRow badStrings 0 "System" "Int32" 0 1 1]),
     (0x06, [methodRow badStrings 0 0x1000 0x10 "M" 1 1]),
     (0x20, [assemblyRow badStrings "bad"])]

def failed {α : Type} : Res α → Bool
  | .err _ => true
  | _ => false

theorem failed_iff {α : Type} {x : Res α} (h : failed x = true) : ∃ msg, x = .err msg := by
  cases x <;> simp_all [failed]

end Ex

/-- **C66: refuted in general.** Loading this assembly fails, and afterwards `System.Int32` is another type. -/
theorem C66_refuted : ∃ (fs : Name → Option Bytes) (w : World) (msg : String), Reached Cfg.debug w ∧
    (loadAssembly Cfg.debug fs 1 100 "bad".toList w).1 = .err msg ∧ w.getType "System.Int32".toList = some 10 ∧
    (loadAssembly Cfg.debug fs 1 100 "bad".toList w).2.getType "System.Int32".toList = some 19 := by
  obtain ⟨msg, h⟩ := Ex.failed_iff (x := (loadAssembly Cfg.debug (Ex.disk [("bad".toList, Ex.bad.file)]) 1 100 "bad".toList Ex.coreWorld).1)
    (by decide +kernel)
  exact ⟨_, Ex.coreWorld, msg, Ex.coreReached, h, by decide +kernel, by decide +kernel⟩

/-- The early failures occur: `app` refers to `lib` and to its type `Lib`; here `lib` is loaded but has no such type. -/
example : ∃ m, readMetadata Cfg.debug Ex.app.file = .ok m ∧
    (∀ row ∈ m.tables.assemblyRef, ∃ r, m.string row.name = .ok (some r) ∧
      r ∈ loaded (loadData Cfg.debug Ex.noFiles 1 100 (Ex.empty "lib" []).file Ex.coreWorld).2) ∧
    ∃ row ∈ m.tables.typeRef, ∀ n ns, m.string row.name = .ok (some n) → m.string row.nspace = .ok (some ns) →
      (loadData Cfg.debug Ex.noFiles 1 100 (Ex.empty "lib" []).file Ex.coreWorld).2.getType (fullName ns n) = none := by
  obtain ⟨m, h1, h2⟩ := Ex.holds_iff (x := readMetadata Cfg.debug Ex.app.file) (p := fun m =>
    match m.tables.assemblyRef, m.tables.typeRef with
    | [r], [t] => decide (m.string r.name = .ok (some "lib".toList) ∧ m.string t.name = .ok (some "Lib".toList) ∧ m.string t.nspace = .ok (some []))
    | _, _ => false) (by decide +kernel)
  refine ⟨m, h1, ?_⟩
  split at h2
  · rename_i r t e1 e2
    obtain ⟨g1, g2, g3⟩ := of_decide_eq_true h2
    rw [e1, e2]
    refine ⟨fun row hr => ⟨"lib".toList, by rw [List.mem_singleton.mp hr]; exact g1, by decide +kernel⟩, t, by simp, fun n ns h3 h4 => ?_⟩
    rw [g2] at h3; rw [g3] at h4; cases h3; cases h4
    decide +kernel
  · simp at h2

end Clr
