import Verif.Model.Reference
import Mathlib.MeasureTheory.Integral.Bochner.Basic
import Mathlib.MeasureTheory.Measure.Lebesgue.Basic
import Mathlib.Analysis.SpecialFunctions.Trigonometric.Basic
/-!
# Specification: an elastic half-space under a distribution of pressure
-/
namespace CM.Ref

open Real MeasureTheory

/-- The distance of two points of the surface. -/
noncomputable def away (x y : ℝ × ℝ) : ℝ := √((x.1 - y.1) ^ 2 + (x.2 - y.2) ^ 2)

/-- The distance of a point of the surface from the axis. -/
noncomputable def axis (x : ℝ × ℝ) : ℝ := √(x.1 ^ 2 + x.2 ^ 2)

/-- Boussinesq's solution: the normal displacement, into the half-space, of the surface point `x` of a half-space of contact modulus `Es` under the
pressure `p`; a normal force `N` at distance `r` causes `N / (π Es r)`. -/
noncomputable def boussinesq (Es : ℝ) (p : ℝ × ℝ → ℝ) (x : ℝ × ℝ) : ℝ := 1 / (π * Es) * ∫ y : ℝ × ℝ, p y / away x y

/-- The pressure under a cone pressed `D` deep into a half-space of contact modulus `E`, by `pressure` and `load_and_mean_pressure`. -/
noncomputable def conePressure (alpha E D : ℝ) (y : ℝ × ℝ) : ℝ :=
  (Cone.loadAndMeanPressure alpha).2 * E * (Cone.pressureAt alpha (axis y / D)).getD 0

end CM.Ref
