import Verif.Model.SolverMemory
/-!
# Specification: callbacks and the arrays they see
-/
namespace CM.Spec
open CM.CCG
variable {ι K : Type}

/-- The callback only reads: every array that exists keeps its contents (new arrays, e.g. copies, may be made). -/
def OnlyReads (cb : Callback ι K) : Prop := ∀ it r M, (∀ q < M.next, (cb it r M).cells q = M.cells q) ∧ M.next ≤ (cb it r M).next

/-- The callback may write, but not into the first `n` arrays (those that existed before the solver was called). -/
def Spares (n : ℕ) (cb : Callback ι K) : Prop := ∀ it r M, (∀ q < n, (cb it r M).cells q = M.cells q) ∧ M.next ≤ (cb it r M).next

/-- The callback that overwrites the array it is given. -/
def overwrite (v : ι → K) : Callback ι K := fun _ r M => M.write r v

/-- The callback that keeps a copy of the array it is given. -/
def copies : Callback ι K := fun _ r M => (M.alloc (M.cells r)).2

/-- Arrays passed exist. -/
def Exist (a : Passed) (M : Mem ι K) : Prop := (∀ r ∈ a.displacements, r < M.next) ∧ ∀ r ∈ a.forces, r < M.next

end CM.Spec
