import Verif.Lemmas.Halts
import Verif.Lemmas.Deep
import Verif.Props.Nesting
/-! # C116: programs without loops and recursion come to an end -/

namespace Clr
open Spec

variable {cfg : Cfg} {ops : FloatOps} {tf fuel : Nat} {w : World} {m : MethodRec} {params : List Value} {L : Nat}

/-- Full statement of C116: the execution of a registered method without loops and recursion comes to an end, whatever the parameters. `tf` and
`fuel` are how far the model follows sizes and executions. -/
def C116_full (cfg : Cfg) : Prop :=
  ∀ (w : World) (m : MethodRec) (L : Nat), Reached cfg w → HasSizes cfg w → m ∈ w.types.flatMap (·.methods) → L < 2 ^ 62 → Terminating cfg w L m →
    ∃ T F, ∀ ops tf fuel params, T ≤ tf → F ≤ fuel → (hostExecute cfg ops tf fuel w m params).1 ≠ .timeout

/-- **C116 (partial), programs without loops and recursion.** Their execution comes to an end, within a bound that is fixed by the sizes of the
program: the instructions executed by the active calls together are never more than the number of registered methods, and one, times the
length of the longest method, and one. Missing: methods with `ldarg` or `starg` with indices of two bytes, see `C116_refuted`. -/
theorem C116_partial (hw : Reached cfg w) (hs : HasSizes cfg w) (hL : L < 2 ^ 62) (hm : Terminating cfg w L m)
    (hsh : ∀ x body, Relation.ReflTransGen (MayCall cfg w) m x → x.impl = .il body → ShortArgs body.code)
    (htf : 2 * w.types.length + 1 ≤ tf) (hfuel : ((w.types.flatMap (·.methods)).length + 1) * (L + 1) ≤ fuel) :
    (hostExecute cfg ops tf fuel w m params).1 ≠ .timeout := by
  have hsz : SizesIn cfg tf w := by
    intro t ht
    obtain ⟨k, s, h⟩ := hs t ht
    exact ⟨s, by rw [Res.Refined.typeSize_enough htf (by rw [h]; exact nofun), h]⟩
  unfold hostExecute
  split
  · have h := invoke_terminating (ops := ops) hw hsz hL hm hsh _ [] m .host { world := w, host := params } fuel List.nodup_nil nofun nofun .refl
      (Nat.le_refl _) (.refl _) (fun _ h => h) hfuel
    dsimp only
    intro hn
    cases hr : (invoke cfg (loop cfg ops tf fuel) m .host { world := w, host := params }).1 with
    | timeout => exact h hr
    | ok o =>
      rw [hr] at hn
      revert hn
      cases o with
      | none => exact nofun
      | some a => cases a <;> exact nofun
    | _ => rw [hr] at hn; cases hn
  · exact nofun

/-- Where the instruction at an address can lead, if only one encoding fits there. -/
theorem Passes.only {code : Bytes} {ip n : Nat} {e : Encoding} (h : Passes code ip n)
    (he : (encodings.filter fun e => HasAt code ip e.opcode) = [e]) : (e.mnemonic ≠ "ret" ∧ n = ip + e.opcode.length + e.operand.size) ∨
      e.operand = .target8 ∨ e.operand = .target32 := by
  obtain ⟨e', h1, arg, h2, h3, h4⟩ := h
  have : e' ∈ encodings.filter fun e => HasAt code ip e.opcode := List.mem_filter.2 ⟨h1, by simpa using h3.left⟩
  rw [he, List.mem_singleton] at this
  subst this
  rcases h4 with ⟨g1, -, -, g4⟩ | ⟨g, -⟩
  · rw [List.length_append, h2, ← Nat.add_assoc] at g4
    exact .inl ⟨g1, g4⟩
  · exact .inr g

theorem MayCall.callsIn {m' : MethodRec} (h : MayCall cfg w m m') : CallsIn cfg w m m' := by
  obtain ⟨a, body, ip, token, h1, h2, -, h4, h5, h6⟩ := h
  have key : ∀ b : UInt8, HasAt body.code ip (b :: token) → body.code[ip]? = some b ∧ ip + 5 ≤ body.code.length ∧
      (body.code.drop (ip + 1)).take 4 = token := by
    intro b hb
    refine ⟨hb.getElem, ?_, ?_⟩
    · have := hb.le (by simp)
      simp only [List.length_cons, h4] at this
      omega
    · obtain ⟨t, ht⟩ := HasAt.drop (a := [b]) hb
      have e : body.code.drop (ip + 1) = token ++ t := ht.symm
      rw [e, List.take_left' h4]
  rcases h5 with h | h
  · obtain ⟨g1, g2, g3⟩ := key _ h
    exact ⟨a, body, ip, h1, h2, .inl g1, g2, by rw [g3]; exact h6⟩
  · obtain ⟨g1, g2, g3⟩ := key _ h
    exact ⟨a, body, ip, h1, h2, .inr g1, g2, by rw [g3]; exact h6⟩

/-! ## A program that meets the hypotheses -/

namespace Ex

theorem down_sizes : ∀ b : Bool, ((List.range (downWorld ⟨b⟩).types.length).all fun t => holds (fun _ => true) (typeSize ⟨b⟩ (downWorld ⟨b⟩) 50 t)) = true := by
  decide +kernel

theorem down_hasSizes : HasSizes cfg (downWorld cfg) := by
  intro t ht
  obtain ⟨s, h, -⟩ := holds_iff (List.all_eq_true.1 (down_sizes cfg.checks) t (List.mem_range.2 ht))
  exact ⟨50, s, h⟩

theorem two_at0 : (encodings.filter fun e => HasAt [0x28, 3, 0, 0, 6, 0x2a] 0 e.opcode) = [⟨"call", [0x28], .token⟩] := by decide +kernel
theorem two_at5 : (encodings.filter fun e => HasAt [0x28, 3, 0, 0, 6, 0x2a] 5 e.opcode) = [⟨"ret", [0x2a], .none⟩] := by decide +kernel
theorem one_at0 : (encodings.filter fun e => HasAt [0x2a] 0 e.opcode) = [⟨"ret", [0x2a], .none⟩] := by decide +kernel

theorem two_passes {ip n : Nat} (hi : ip = 0 ∨ ip = 5) (h : Passes [0x28, 3, 0, 0, 6, 0x2a] ip n) : ip = 0 ∧ n = 5 := by
  rcases hi with rfl | rfl
  · rcases Passes.only h two_at0 with h | h | h
    · exact ⟨rfl, h.2⟩
    · cases h
    · cases h
  · rcases Passes.only h two_at5 with h | h | h
    · exact absurd rfl h.1
    · cases h
    · cases h

theorem two_visits {ip : Nat} (h : Visits [0x28, 3, 0, 0, 6, 0x2a] ip) : ip = 0 ∨ ip = 5 := by
  induction h with
  | refl => exact .inl rfl
  | tail _ h ih => exact .inr (two_passes ih h).2

theorem one_passes {n : Nat} (h : Passes [0x2a] 0 n) : False := by
  rcases Passes.only h one_at0 with h | h | h
  · exact absurd rfl h.1
  · cases h
  · cases h

theorem one_visits {ip : Nat} (h : Visits [0x2a] ip) : ip = 0 := by
  induction h with
  | refl => rfl
  | tail _ h ih => subst ih; exact (one_passes h).elim

theorem two_reach {x : MethodRec} (h : Relation.ReflTransGen (MayCall cfg (downWorld cfg)) two x) : x = two ∨ x = one := by
  induction h with
  | refl => exact .inl rfl
  | tail _ h ih =>
    rcases ih with rfl | rfl
    · exact .inr (calls_two (MayCall.callsIn h))
    · exact absurd (MayCall.callsIn h) calls_one

theorem two_terminating : Terminating cfg (downWorld cfg) 6 two where
  loops x body hx hb := by
    rcases two_reach hx with rfl | rfl
    · cases hb
      intro ip hv hc
      obtain ⟨n, h1, h2⟩ := Relation.TransGen.head'_iff.1 hc
      obtain ⟨rfl, rfl⟩ := two_passes (two_visits hv) h1
      rcases Relation.ReflTransGen.cases_head h2 with h | ⟨k, h, -⟩
      · cases h
      · exact absurd (two_passes (.inr rfl) h).1 (by decide)
    · cases hb
      intro ip hv hc
      obtain ⟨n, h1, -⟩ := Relation.TransGen.head'_iff.1 hc
      rw [one_visits hv] at h1
      exact one_passes h1
  recursion x hx hc := by
    obtain ⟨y, h1, h2⟩ := Relation.TransGen.head'_iff.1 hc
    rcases two_reach hx with rfl | rfl
    · rw [calls_two (MayCall.callsIn h1)] at h2
      rcases Relation.ReflTransGen.cases_head h2 with h | ⟨k, h, -⟩
      · exact absurd h (by decide)
      · exact calls_one (MayCall.callsIn h)
    · exact calls_one (MayCall.callsIn h1)
  length x body hx hb := by
    rcases two_reach hx with rfl | rfl <;> (cases hb; decide)

theorem two_short {x : MethodRec} {body : MethodBody} (hx : Relation.ReflTransGen (MayCall cfg (downWorld cfg)) two x) (hb : x.impl = .il body) :
    ShortArgs body.code := by
  rcases two_reach hx with rfl | rfl
  · cases hb
    intro ip hv
    rcases two_visits hv with rfl | rfl <;> decide
  · cases hb
    intro ip hv
    rw [one_visits hv]
    decide

end Ex

example : Reached cfg (Ex.downWorld cfg) ∧ HasSizes cfg (Ex.downWorld cfg) ∧ Terminating cfg (Ex.downWorld cfg) 6 Ex.two ∧
    (∀ x body, Relation.ReflTransGen (MayCall cfg (Ex.downWorld cfg)) Ex.two x → x.impl = .il body → ShortArgs body.code) :=
  ⟨Ex.downReached cfg, Ex.down_hasSizes, Ex.two_terminating, fun _ _ => Ex.two_short⟩

/-! ## The instructions left out -/

namespace Ex

def wideStrings : List String := ["lib", "Q", "Wide"]

/-- `class Q { static void Wide() { ldarg 0; ret; … } }`, where what is never executed after `ret` is a byte and a branch. -/
def wideAsm : Asm where
  strings := wideStrings
  blobs := [[0x00, 0, 0x01]]
  tables :=
    [(0x02, [typeRow wideStrings 0 "" "Q" 0 1 1]),
     (0x06, [methodRow wideStrings 0x2000 0 0x10 "Wide" 1 1]),
     (0x20, [assemblyRow wideStrings "lib"])]
  bodies := [0x22, 0xfe, 0x09, 0, 0, 0x2a, 0, 0x2b, 0xf8]

def wideWorld (cfg : Cfg) : World := (loadData cfg noFiles 1 100 wideAsm.file (loadData cfg noFiles 1 100 coreFile {}).2).2

def wide : MethodRec :=
  { name := "Wide".toList, declaringType := 19, returnType := 3, params := [],
    impl := .il { code := [0xfe, 0x09, 0, 0, 0x2a, 0, 0x2b, 0xf8], maxStack := 8, locals := [], initLocals := false, clauses := [] },
    isStatic := true, isVirtual := false, isAbstract := false }

theorem wideReached (cfg : Cfg) : Reached cfg (wideWorld cfg) := (Reached.start.loadFile noFiles 1 100 _).loadFile noFiles 1 100 _

theorem wide_facts : ∀ b : Bool, (((List.range (wideWorld ⟨b⟩).types.length).all fun t => holds (fun _ => true) (typeSize ⟨b⟩ (wideWorld ⟨b⟩) 50 t)) &&
    decide ((wideWorld ⟨b⟩).types[19]?.map (·.methods) = some [wide]) && holds (fun _ => true) ((wideWorld ⟨b⟩).assemblyOf 19)) = true := by
  decide +kernel

theorem wide_at0 : (encodings.filter fun e => HasAt [0xfe, 0x09, 0, 0, 0x2a, 0, 0x2b, 0xf8] 0 e.opcode) = [⟨"ldarg", [0xfe, 0x09], .uint16⟩] := by
  decide +kernel
theorem wide_at4 : (encodings.filter fun e => HasAt [0xfe, 0x09, 0, 0, 0x2a, 0, 0x2b, 0xf8] 4 e.opcode) = [⟨"ret", [0x2a], .none⟩] := by decide +kernel

theorem wide_passes {ip n : Nat} (hi : ip = 0 ∨ ip = 4) (h : Passes [0xfe, 0x09, 0, 0, 0x2a, 0, 0x2b, 0xf8] ip n) : ip = 0 ∧ n = 4 := by
  rcases hi with rfl | rfl
  · rcases Passes.only h wide_at0 with h | h | h
    · exact ⟨rfl, h.2⟩
    · cases h
    · cases h
  · rcases Passes.only h wide_at4 with h | h | h
    · exact absurd rfl h.1
    · cases h
    · cases h

theorem wide_visits {ip : Nat} (h : Visits [0xfe, 0x09, 0, 0, 0x2a, 0, 0x2b, 0xf8] ip) : ip = 0 ∨ ip = 4 := by
  induction h with
  | refl => exact .inl rfl
  | tail _ h ih => exact .inr (wide_passes ih h).2

theorem wide_calls {x : MethodRec} : ¬ MayCall cfg w wide x := by
  rintro ⟨a, body, ip, token, -, h2, h3, -, h5, -⟩
  cases h2
  rcases wide_visits h3 with rfl | rfl <;> rcases h5 with ⟨t, h⟩ | ⟨t, h⟩ <;> (injection h with h; revert h; decide)

theorem wide_terminating : Terminating cfg w 8 wide := by
  have only : ∀ x, Relation.ReflTransGen (MayCall cfg w) wide x → x = wide := by
    intro x hx
    rcases Relation.ReflTransGen.cases_head hx with h | ⟨y, h, -⟩
    · exact h.symm
    · exact absurd h wide_calls
  refine ⟨fun x body hx hb => ?_, fun x hx hc => ?_, fun x body hx hb => ?_⟩
  · rw [only x hx] at hb
    cases hb
    intro ip hv hc
    obtain ⟨n, h1, h2⟩ := Relation.TransGen.head'_iff.1 hc
    obtain ⟨rfl, rfl⟩ := wide_passes (wide_visits hv) h1
    rcases Relation.ReflTransGen.cases_head h2 with h | ⟨k, h, -⟩
    · cases h
    · exact absurd (wide_passes (.inr rfl) h).1 (by decide)
  · rw [only x hx] at hc
    obtain ⟨y, h1, -⟩ := Relation.TransGen.head'_iff.1 hc
    exact wide_calls h1
  · rw [only x hx] at hb
    cases hb
    decide

end Ex

/-- The frame of the method `wide`. -/
def Ex.wideFrame (a : AssemblyRec) (locals : Region) : Frame :=
  { method := Ex.wide, assembly := a, code := [0xfe, 0x09, 0, 0, 0x2a, 0, 0x2b, 0xf8], locals, params := .host }

/-- The index that the interpreter reads: the two bytes of the operand and the two bytes after it. -/
theorem wide_loop {fr : Frame} {host : List Value} {a : Value} (hc : fr.code = [0xfe, 0x09, 0, 0, 0x2a, 0, 0x2b, 0xf8]) (hp : fr.params = .host)
    (ha : host[0x2a0000]? = some a) : ∀ (fuel : Nat) (v : VM), v.host = host → ∀ ip, ip = 0 ∨ ip = 6 →
      (loop cfg ops tf fuel fr ip v).1 = .timeout ∧ (loop cfg ops tf fuel fr ip v).2.stack = v.stack ∧
        (loop cfg ops tf fuel fr ip v).2.allocated = v.allocated := by
  intro fuel
  induction fuel with
  | zero => exact fun _ _ _ _ => ⟨rfl, rfl, rfl⟩
  | succ fuel ih =>
    intro v hv ip hip
    have s0 : step cfg ops tf fr 0 v = (.ok (.next 6), { v with operands := a :: v.operands }) := by
      rw [step_of_fetch (op := .Ldarg) (ip := 0) (ip' := 2) (by rw [hc]; decide)]
      show loadFrom fr fr.params 4 2 v = _
      unfold loadFrom
      rw [X.liftM_bind_ok (a := 0x2a0000) (by rw [hc]; decide), hp]
      unfold loadAt' readSlot
      rw [X.view_bind_ok (a := a) (by dsimp only; rw [hv, ha]; rfl)]
      rfl
    have s6 : step cfg ops tf fr 6 v = (.ok (.next 0), v) := by
      rw [step_of_fetch (op := .Br_S) (ip := 6) (ip' := 7) (by rw [hc]; decide)]
      show branch fr 1 7 v = _
      unfold branch
      rw [X.liftM_bind_ok (a := -8) (by rw [hc]; decide)]
      rfl
    rcases hip with rfl | rfl
    · unfold loop
      rw [X.bind_run, s0]
      exact ih { v with operands := a :: v.operands } hv 6 (.inr rfl)
    · unfold loop
      rw [X.bind_run, s6]
      exact ih v hv 0 (.inl rfl)

/-- **C116: refuted for `ldarg` and `starg` with indices of two bytes**, in debug and in release builds. A method that consists of `ldarg 0` and `ret`, and
bytes after it that are never executed, is executed without end if the host gives it enough parameters: the interpreter takes four bytes for the
index, so the `ret` is part of it. -/
theorem C116_refuted : ¬ C116_full cfg := by
  intro h
  rcases cfg with ⟨b⟩
  have facts := Ex.wide_facts b
  have hw := Ex.wideReached ⟨b⟩
  generalize Ex.wideWorld ⟨b⟩ = w at facts hw
  obtain ⟨hf, h3⟩ := Bool.and_eq_true_iff.1 facts
  obtain ⟨h1, h2⟩ := Bool.and_eq_true_iff.1 hf
  obtain ⟨a, h3, -⟩ := Ex.holds_iff h3
  rw [decide_eq_true_eq, Option.map_eq_some_iff] at h2
  obtain ⟨r, h2, hr⟩ := h2
  have hs : HasSizes ⟨b⟩ w := by
    intro t ht
    obtain ⟨s, h, -⟩ := Ex.holds_iff (List.all_eq_true.1 h1 t (List.mem_range.2 ht))
    exact ⟨50, s, h⟩
  obtain ⟨T, F, hTF⟩ := h w Ex.wide 8 hw hs (List.mem_flatMap.2 ⟨r, List.mem_of_getElem? h2, by rw [hr]; exact List.mem_singleton.2 rfl⟩) (by decide)
    Ex.wide_terminating
  refine hTF Ex.floats T F (List.replicate (0x2a0000 + 1) (.i8 0)) (Nat.le_refl _) (Nat.le_refl _) ?_
  have ha : (List.replicate (0x2a0000 + 1) (Value.i8 0))[0x2a0000]? = some (.i8 0) := by
    rw [List.getElem?_replicate, if_pos (by decide)]
  generalize List.replicate (0x2a0000 + 1) (Value.i8 0) = host at ha
  unfold World.assemblyOf at h3
  obtain ⟨t, g1, g2⟩ := Res.bind_eq_ok.1 h3
  have hinv : (invoke ⟨b⟩ (loop ⟨b⟩ Ex.floats T F) Ex.wide .host { world := w, host }).1 = .timeout := by
    unfold invoke
    show ((do
      let t ← X.view fun v => v.world.typeAt 19
      let a ← X.view fun v => Res.unwrap (v.world.assemblies.find? (·.id = t.assembly))
      let outer ← X.update fun v => .ok (v.allocated, { v with allocated := 0 })
      X.finally' (do
        let locals ← stackAlloc 0
        loop ⟨b⟩ Ex.floats T F (Ex.wideFrame a locals) 0)
        (release ⟨b⟩ outer) : X (Option Value)) _).1 = _
    rw [X.view_bind_ok (a := t) g1, X.view_bind_ok (a := a) g2]
    have hloop := wide_loop (cfg := ⟨b⟩) (ops := Ex.floats) (tf := T)
      (fr := (Ex.wideFrame a (.slots 0 0 0)))
      (host := host) (a := .i8 0) rfl rfl ha F { world := w, host } rfl 0 (.inl rfl)
    rw [X.bind_run]
    show (X.finally' (do
        let locals ← stackAlloc 0
        loop ⟨b⟩ Ex.floats T F (Ex.wideFrame a locals) 0 : X (Option Value))
        (release ⟨b⟩ 0) { world := w, host }).1 = _
    have hin : (do
        let locals ← stackAlloc 0
        loop ⟨b⟩ Ex.floats T F (Ex.wideFrame a locals) 0 : X (Option Value))
          { world := w, host } = loop ⟨b⟩ Ex.floats T F (Ex.wideFrame a (.slots 0 0 0)) 0 { world := w, host } := rfl
    unfold X.finally'
    rw [hin]
    generalize loop ⟨b⟩ Ex.floats T F _ 0 { world := w, host } = out at hloop
    obtain ⟨r, v'⟩ := out
    obtain ⟨q1, q2, q3⟩ := hloop
    dsimp only at q1 q2 q3 ⊢
    subst q1
    have hrel : release ⟨b⟩ 0 v' = .ok { v' with stack := { v'.stack with slots := v'.stack.slots.take 0 }, allocated := 0 } := by
      unfold release
      rw [q2, q3]
      cases b <;> rfl
    rw [hrel]
  unfold hostExecute
  rw [if_pos (show Ex.wide.isStatic = true from rfl)]
  dsimp only
  rw [hinv]
  rfl

end Clr
