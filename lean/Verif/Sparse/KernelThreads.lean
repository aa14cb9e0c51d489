import Verif.Sparse.Operator
import Mathlib.Logic.Relation

/-!
Model of the parallel execution of `fsr_kernel` (src/flib/sparse.f90.j2 520-544).

The loop on the rows is distributed over threads.  The variables `k` and `pos` are private, but the pointer `val` is not: it is shared
by the threads.  For each element whose index is not negative a thread makes `val` point to the values of the element (`c_f_pointer`),
then it tests the values and may write `.false.`.

Simplifications: a pointer assignment is indivisible, and so is a test followed by the write (the written values are all the
same).
-/
namespace Verif.Sparse.KernelThreads
open Verif.Py Verif.Sparse

/-- The instructions of a thread. -/
inductive Instr
  | point (words : List Int)   -- sparse.f90.j2 537-538
  | test (k : Nat)             -- sparse.f90.j2 539
  deriving DecidableEq

/-- Shared pointer (its target), shared array of logicals, remaining instructions of the threads. -/
structure State where
  val : List Int
  kernel : List Bool
  threads : List (List Instr)
  deriving DecidableEq

/-- Execution of one instruction. -/
def exec (val : List Int) (kernel : List Bool) : Instr → List Int × List Bool
  | .point w => (w, kernel)
  | .test k => (val, if val.any (· ≠ 0) then kernel.set k false else kernel)

/-- One step of one of the threads. -/
inductive Step : State → State → Prop
  | mk {s : State} {t : Nat} {i : Instr} {rest : List Instr} (h : s.threads[t]? = some (i :: rest)) :
    Step s ⟨(exec s.val s.kernel i).1, (exec s.val s.kernel i).2, s.threads.set t rest⟩

/-- Any number of steps. -/
abbrev Exec : State → State → Prop := Relation.ReflTransGen Step

/-- sparse.f90.j2 534-541: the instructions for the elements of some rows (`if (k < 0) cycle`). -/
def code {β} (words : β → List Int) (elems : List (Elem β)) : List Instr :=
  elems.flatMap fun e => if e.index < 0 then [] else [.point (words e.value), .test e.index.toNat]

/-- The start of the parallel loop; `val` is undefined.  `chunks` are the elements given to each thread. -/
def start {β} (words : β → List Int) (val : List Int) (kernel : List Bool) (chunks : List (List (Elem β))) : State :=
  ⟨val, kernel, chunks.map (code words)⟩

/-- All the threads have finished. -/
def State.Done (s : State) : Prop := ∀ t ∈ s.threads, t = []

end Verif.Sparse.KernelThreads
