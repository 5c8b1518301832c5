import Verif.Spec.Pipeline
import Verif.Model.EndToEnd
/-!
# Specification vocabulary: a calculation in another unit of length
-/
namespace CM.Spec
open CM.HS CM.FFT CM.System CM.Pipe

/-- The field `a'` is the field `a` multiplied by `l`. -/
def Scaled (l : ℝ) (nx ny : ℕ) (a a' : NdArray ℝ) : Prop := ∀ i < nx, ∀ j < ny, a'.get [i, j] = l * a.get [i, j]

/-- The field `a'` is the field `a`. -/
def Same {α : Type} (nx ny : ℕ) (a a' : NdArray α) : Prop := ∀ i < nx, ∀ j < ny, a'.get [i, j] = a.get [i, j]

/-- `T'` is the topography `T` with all lengths multiplied by `l`. -/
structure ScaledTopo (l : ℝ) (nx ny : ℕ) (T T' : Topo) : Prop where
  heights : Scaled l nx ny T.heights T'.heights
  periodic : T'.isPeriodic = T.isPeriodic
  rms : T'.rmsHeight = l * T.rmsHeight

/-- The arguments of `contact_mechanics` with all lengths multiplied by `l`: prescribed offsets are lengths, the force
tolerance is a pressure times an area.  (Pressures and the hardness are in units of the contact modulus, which the function
sets to one.) -/
def scaledArgs (l : ℝ) (A : PipeArgs) : PipeArgs :=
  { A with
    offsets := A.offsets.map (List.map (l * ·))
    optimizerKwargs := { A.optimizerKwargs with forcetol := l ^ 2 * A.optimizerKwargs.forcetol } }

/-- The callback data `R'` is `R` with all lengths multiplied by `l`. -/
structure ReportScaled (l : ℝ) (nx ny : ℕ) (R R' : Report) : Prop where
  shapes : R'.displacement.shape = [nx, ny] ∧ R'.gap.shape = [nx, ny] ∧ R'.pressure.shape = [nx, ny] ∧
    R'.contacting.shape = [nx, ny]
  displacement : Scaled l nx ny R.displacement R'.displacement
  gap : Scaled l nx ny R.gap R'.gap
  pressure : Same nx ny R.pressure R'.pressure
  contacting : Same nx ny R.contacting R'.contacting
  meanDisplacement : R'.meanDisplacement = l * R.meanDisplacement
  meanPressure : R'.meanPressure = R.meanPressure
  area : R'.totalContactArea = R.totalContactArea

/-- The returned arrays with all lengths multiplied by `l`: pressures, fractional areas and flags stay. -/
def scaledResult (l : ℝ) (R : Result) : Result :=
  { R with
    meanDisplacement := R.meanDisplacement.map (l * ·)
    meanGap := R.meanGap.map (l * ·) }

/-- Two calls of `contact_mechanics` of which the second is the first in another unit of length. -/
def SameInUnits (l : ℝ) (nx ny : ℕ) (run run' : Except PyErr Result × List Report) : Prop :=
  run'.1 = run.1.map (scaledResult l) ∧ List.Forall₂ (ReportScaled l nx ny) run.2 run'.2

/-- Bisection that does not depend on the unit of length: it finds `l` times the root of the function stretched by `l`. -/
def BisectScales (l : ℝ) (bisect : Bisect) : Prop :=
  ∀ f a b, bisect (fun x => l ^ 2 * f (x / l)) (l * a) (l * b) = (bisect f a b).map (l * ·)

end CM.Spec
