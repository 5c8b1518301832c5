import Verif.Model.SemiPeriodic
import Verif.Spec.FreeHalfSpace
import Mathlib.Order.Interval.Finset.Defs
import Mathlib.Data.Int.Interval
/-!
# Specification vocabulary for semi-periodic half-spaces
-/
namespace CM.Spec
open Finset CM.HS CM.FFT

/-- Admissible arguments. -/
structure ValidSemi (a : SemiArgs) : Prop where
  sizes_pos : ∀ x ∈ a.physicalSizes, 0 < x
  young_pos : 0 < a.young

/-- Images taken into account in one direction: `-N, ..., N` in a periodic one, only the domain itself else. -/
noncomputable def images (per : Bool) (N : ℤ) : Finset ℤ := if per then Icc (-N) N else {0}

/-- Offset in grid points: the representative nearest to zero in a periodic direction of `n` points. -/
def wrap (per : Bool) (n : ℕ) (d : ℤ) : ℤ := if per then (d + n / 2) % n - n / 2 else d

/-- Displacement per pressure at an offset of `(d, e)` grid points, by the pixel and its images. -/
noncomputable def imageSum (a : SemiArgs) (nx ny : ℕ) (dx dy : ℝ) (d e : ℤ) : ℝ :=
  ∑ p ∈ images a.perX a.nImages, ∑ q ∈ images a.perY a.nImages,
    pixelGreens a.young dx dy (((d + p * nx : ℤ) : ℝ) * dx) (((e + q * ny : ℤ) : ℝ) * dy)

/-- Displacement of grid point `(i, j)` by the direct sum over the forces and their images. -/
noncomputable def semiSum (a : SemiArgs) (nx ny : ℕ) (dx dy : ℝ) (f : NdArray ℝ) (i j : ℕ) : ℝ :=
  -∑ k ∈ range nx, ∑ l ∈ range ny,
    imageSum a nx ny dx dy (wrap a.perX nx ((i : ℤ) - k)) (wrap a.perY ny ((j : ℤ) - l)) * (f.get [k, l] / (dx * dy))

end CM.Spec
