import Verif.Model.Pipeline
/-!
# Specification: calculations with more steps
-/
namespace CM.Spec
open CM.Pipe

/-- `B` asks for the same as `A`, for `n` steps in `A`, and for further steps. -/
inductive Extends : PipeArgs → ℕ → PipeArgs → Prop where
  | offsets (A : PipeArgs) (os more : List ℝ) : A.nsteps = none → A.pressures = none → A.offsets = some os → Extends A os.length { A with offsets := some (os ++ more) }
  | pressures (A : PipeArgs) (ps more : List ℝ) : A.nsteps = none → A.offsets = none → A.pressures = some ps → Extends A ps.length { A with pressures := some (ps ++ more) }
  | auto (A : PipeArgs) (n m : ℕ) : A.offsets = none → A.pressures = none → A.nsteps = some (n : ℤ) → Extends A n { A with nsteps := some ((n + m : ℕ) : ℤ) }

/-- The first `n` entries of all five arrays. -/
def Result.first (n : ℕ) (R : Result) : Result := ⟨R.meanPressure.take n, R.totalContactArea.take n, R.meanDisplacement.take n, R.meanGap.take n, R.converged.take n⟩

end CM.Spec
