import Verif.Lemmas.Builds
import Verif.Lemmas.Asm
import Verif.Lemmas.Tiny
import Verif.Props.Arith
import Verif.Spec.Builds
/-! # C94: the builds with and without overflow checks -/

namespace Clr
open Spec

/-- One call. -/
theorem HostCall.make_agree (ops : FloatOps) (c : HostCall) (w : World) (h : (c.make .debug ops w).1 ≠ .panic) :
    c.make .release ops w = c.make .debug ops w := by
  have hmap : ∀ {α β : Type} {f : α → β} {x : Res α}, f <$> x ≠ .panic → x ≠ .panic := by
    rintro α β f x h rfl; exact h rfl
  cases c with
  | start fs d f a b =>
    have := (inferInstance : AgreeM (newRuntime .debug fs d f a b) (newRuntime .release fs d f a b)).eq w (hmap h)
    simp only [HostCall.make, this]
  | loadFile fs d f x =>
    have := (inferInstance : AgreeM (loadData .debug fs d f x) (loadData .release fs d f x)).eq w (hmap h)
    simp only [HostCall.make, this]
  | loadName fs d f x =>
    have := (inferInstance : AgreeM (loadAssembly .debug fs d f x) (loadAssembly .release fs d f x)).eq w (hmap h)
    simp only [HostCall.make, this]
  | arrayOf t =>
    have := (inferInstance : AgreeM (arrayType .debug t) (arrayType .release t)).eq w (hmap h)
    simp only [HostCall.make, this]
  | sizeOf f t =>
    have := (inferInstance : Agree (typeSize .debug w f t) (typeSize .release w f t)).eq (hmap h)
    simp only [HostCall.make, this]
  | execute tf n m args =>
    have := hostExecute_agree ops tf n w m args (hmap h)
    simp only [HostCall.make, this]

/-- **C94.** A session of calls from the host in which nothing panics in a build with overflow checks goes the same way in a build
without: the same answers, and the same registry and output at the end. -/
theorem C94 (ops : FloatOps) (cs : List HostCall) (w : World) (h : ∀ r ∈ (session .debug ops cs w).1, r ≠ .panic) :
    session .release ops cs w = session .debug ops cs w := by
  induction cs generalizing w with
  | nil => rfl
  | cons c cs ih =>
    unfold session at h ⊢
    dsimp only at h ⊢
    have h1 : (c.make .debug ops w).1 ≠ .panic := by
      intro h'
      rw [h'] at h
      exact h .panic (by simp [CameBack]) rfl
    rw [HostCall.make_agree ops c w h1]
    split
    · rename_i hb
      rw [if_pos hb] at h
      rw [ih _ fun r hr => h r (List.mem_cons_of_mem _ hr)]
    · rfl

/-- The metadata reader alone, on any bytes. -/
theorem C94_reads (data : Bytes) (h : readMetadata .debug data ≠ .panic) : readMetadata .release data = readMetadata .debug data :=
  (inferInstance : Agree (readMetadata .debug data) (readMetadata .release data)).eq h

/-- The command-line program: the same result and the same output. -/
theorem C94_program (ops : FloatOps) (runtime console : Bytes) (disk : Disk) (exeDir : Path) (depth fuel tf steps : Nat)
    (args : List Path) (h : (mainProgram .debug ops runtime console disk exeDir depth fuel tf steps args).1 ≠ .panic) :
    mainProgram .release ops runtime console disk exeDir depth fuel tf steps args =
      mainProgram .debug ops runtime console disk exeDir depth fuel tf steps args :=
  mainProgram_agree ops runtime console disk exeDir depth fuel tf steps args h

/-- A method that returns `n + 1`. -/
def Ex.successor : MethodRec := Ex.meth [0x02, 0x17, 0x58, 0x2a] (ret := 8) (params := 1)

/-- A session without a panic: load the core library, make an array type, ask for a size, and run a program. -/
example : ((session .debug Ex.floats [.loadFile Ex.noFiles 1 100 Ex.coreFile, .arrayOf 1, .sizeOf 9 1] {}).1.map CameBack =
      [true, true, true]) ∧
    session .debug Ex.floats [.execute 9 9 Ex.successor [.i32 41]] (Ex.tiny [Ex.successor]) =
      ([.ok (.ran (.number (.i32 42)) [.i32 41])], Ex.tiny [Ex.successor]) := by
  constructor
  · decide +kernel
  · rfl

/-- Where a build with overflow checks panics, a build without may go on: the sum of the greatest number and one. -/
theorem C94_panics : (session .debug Ex.floats [.execute 9 9 Ex.successor [.i32 0x7fffffff]] (Ex.tiny [Ex.successor])).1.map CameBack = [false] ∧
    (session .release Ex.floats [.execute 9 9 Ex.successor [.i32 0x7fffffff]] (Ex.tiny [Ex.successor])).1.map CameBack = [true] := by
  decide +kernel

end Clr
