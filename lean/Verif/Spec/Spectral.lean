import Verif.Spec.HalfSpace
import Mathlib.Analysis.Complex.Exponential
import Mathlib.Topology.Algebra.InfiniteSum.Basic
/-!
# Specification: pressures and displacements of a continuous periodic substrate

Fields on the periodic cell `sx × sy` are sums of plane waves; a continuous elastic substrate answers each plane wave of pressure with the same plane wave of displacement, divided by its stiffness.
-/
namespace CM.Spec
open CM.HS CM.FFT

/-- The plane wave with `k.1` periods along x and `k.2` periods along y of the cell `sx × sy`. -/
noncomputable def cellWave (sx sy : ℝ) (k : ℤ × ℤ) (x y : ℝ) : ℂ := Complex.exp (2 * Real.pi * (k.1 * x / sx + k.2 * y / sy) * Complex.I)

/-- The field `p` is the sum of the plane waves with the (summable) complex amplitudes `c`. -/
structure Spectrum (sx sy : ℝ) (c : ℤ × ℤ → ℂ) (p : ℝ → ℝ → ℝ) : Prop where
  summable : Summable fun k => ‖c k‖
  sum : ∀ x y, p x y = ∑' k, (c k * cellWave sx sy k x y).re

/-- Wavenumber of a plane wave of the cell. -/
noncomputable def cellNumber (sx sy : ℝ) (k : ℤ × ℤ) : ℝ := Real.sqrt ((2 * Real.pi * k.1 / sx) ^ 2 + (2 * Real.pi * k.2 / sy) ^ 2)

/-- How much stiffer than a half-space a layer on a rigid base answers a wave, as a function of wavenumber times thickness. -/
noncomputable def layerFactor (nu Q : ℝ) : ℝ :=
  ((3 - 4 * nu) * Real.cosh (2 * Q) + 2 * Q ^ 2 + (5 - 12 * nu + 8 * nu ^ 2)) / ((3 - 4 * nu) * Real.sinh (2 * Q) - 2 * Q)

/-- Stiffness (pressure over displacement) of the continuous substrate for a plane wave of the cell: `E* q/2` for a half-space, times the factor of the layer for a layer; for the uniform field the
stiffness asked for. -/
noncomputable def cellStiffness (a : Args) (k : ℤ × ℤ) : ℝ :=
  if k = 0 then gammaStiffness a
  else contactModulus a / 2 * cellNumber (size a 0) (size a 1) k *
    match a.thickness with
    | none => 1
    | some h => layerFactor a.poisson (cellNumber (size a 0) (size a 1) k * h)

/-- The force array of the pressure `p` on a grid: compressive forces are negative, each grid point carries the pressure there times its area. -/
structure PressureArray (nx ny : ℕ) (sx sy : ℝ) (p : ℝ → ℝ → ℝ) (f : NdArray ℝ) : Prop where
  shape : f.shape = [nx, ny]
  get : ∀ i j : ℕ, i < nx → j < ny → f.get [i, j] = -(p (i * (sx / nx)) (j * (sy / ny)) * (sx * sy / (nx * ny)))

/-- The largest compliance of the substrate: that of the uniform field or that of the longest wave of a half-space (layers are stiffer). -/
noncomputable def maxCompliance (a : Args) : ℝ := max |gammaStiffness a|⁻¹ (max (size a 0) (size a 1) / (Real.pi * contactModulus a))

/-- Waves that the grid resolves: more than two points per period along each axis. -/
def Resolved (nx ny : ℕ) (k : ℤ × ℤ) : Prop := 2 * |k.1| < nx ∧ 2 * |k.2| < ny

end CM.Spec
