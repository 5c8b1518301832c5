import Mathlib.Analysis.SpecialFunctions.Trigonometric.Inverse
import Mathlib.Analysis.SpecialFunctions.Pow.Real
/-!
# Specification of the cone with half angle `alpha` (angle between its axis and its side)
-/
namespace CM.Ref.Cone

open Real

/-- Slope of the side of the cone against the surface: its height at distance `r` from the axis is `r * coneSlope alpha`. -/
noncomputable def coneSlope (alpha : ℝ) : ℝ := 1 / tan alpha

/-- Sneddon's contact radius, in units of the penetration. -/
noncomputable def coneRadius (alpha : ℝ) : ℝ := 2 / π * tan alpha

/-- The displaced surface as the theory gives it, in units of the penetration: the cone inside the contact, Sneddon's solution outside. -/
noncomputable def sneddon (alpha r : ℝ) : ℝ :=
  if r ≤ coneRadius alpha then 1 - r * coneSlope alpha
  else 2 / π * (arcsin (coneRadius alpha / r) - r / coneRadius alpha + √((r / coneRadius alpha) ^ 2 - 1))

end CM.Ref.Cone
