import Verif.Spec.Spectral
import Mathlib.MeasureTheory.Integral.IntervalIntegral.Basic
/-!
# Specification: line contacts on a continuous periodic substrate

Pressures and displacements that vary along x only.
-/
namespace CM.Spec
open CM.HS CM.FFT

/-- The continuous substrate answers the line pressure `p` with the displacement `u`: both are continuous and repeat after the length of the substrate along x, and every Fourier coefficient of the
displacement is that of the pressure divided by the stiffness of its wave. -/
structure LineResponse (a : Args) (p u : ℝ → ℝ) : Prop where
  pressure_continuous : Continuous p
  displacement_continuous : Continuous u
  pressure_periodic : Function.Periodic p (size a 0)
  displacement_periodic : Function.Periodic u (size a 0)
  cos : ∀ n : ℤ, cellStiffness a (n, 0) * ∫ x in (0 : ℝ)..size a 0, u x * Real.cos (2 * Real.pi * n * x / size a 0) = ∫ x in (0 : ℝ)..size a 0, p x * Real.cos (2 * Real.pi * n * x / size a 0)
  sin : ∀ n : ℤ, cellStiffness a (n, 0) * ∫ x in (0 : ℝ)..size a 0, u x * Real.sin (2 * Real.pi * n * x / size a 0) = ∫ x in (0 : ℝ)..size a 0, p x * Real.sin (2 * Real.pi * n * x / size a 0)

end CM.Spec
