import Mathlib.Analysis.SpecialFunctions.Complex.Circle
/-!
# Arrays and the real-to-complex discrete Fourier transform

NumPy arrays and the FFT engine (`muGrid.FFTEngine`) the substrates are built on.  The FFT engine is
a third-party component; it is *specified* here (trusted), not modelled from its source:

* `rfft2`/`rfft1`: forward transform, unnormalised, kernel `exp(-2πi k x/n)`, only the wavevectors
  `0 ≤ kx ≤ nx/2` of the first axis are stored (`muGrid` halves the first axis, see
  `/repo/ContactMechanics/FFTElasticHalfSpace.py:755-796`, which treats axis 0 as the halved one);
* `irfft2`/`irfft1`: complex-to-real inverse transform, unnormalised.  It reads the stored half
  spectrum only: rows `0` and (for even `nx`) `nx/2` count once, the others twice, and the result is
  real.  `normalisation` is `1/(nx*ny)`.
-/
namespace CM.FFT
open Finset Complex

/-- A NumPy array: a shape and the entries, addressed by index lists.  Entries outside the shape are
meaningless. -/
structure NdArray (α : Type) where
  shape : List ℕ
  get : List ℕ → α

/-- `exp(2πi k/n)`. -/
noncomputable def cis (n : ℕ) (k : ℤ) : ℂ := exp (2 * Real.pi * I * k / n)

/-- Multiplicity of stored row `k` in the full spectrum of `n` wavevectors. -/
def weight (n k : ℕ) : ℝ := if k = 0 ∨ 2 * k = n then 1 else 2

/-- Forward transform of a two-dimensional real array (first axis halved). -/
noncomputable def rfft2 (nx ny : ℕ) (a : ℕ → ℕ → ℝ) (kx ky : ℕ) : ℂ :=
  ∑ x ∈ range nx, ∑ y ∈ range ny, a x y * (cis nx (-(kx * x)) * cis ny (-(ky * y)))

/-- Complex-to-real inverse transform of a stored half spectrum. -/
noncomputable def irfft2 (nx ny : ℕ) (H : ℕ → ℕ → ℂ) (x y : ℕ) : ℝ :=
  ∑ kx ∈ range (nx / 2 + 1), weight nx kx *
    (∑ ky ∈ range ny, H kx ky * (cis nx (kx * x) * cis ny (ky * y))).re

/-- Forward transform of a one-dimensional real array. -/
noncomputable def rfft1 (nx : ℕ) (a : ℕ → ℝ) (kx : ℕ) : ℂ :=
  ∑ x ∈ range nx, a x * cis nx (-(kx * x))

/-- Complex-to-real inverse transform, one-dimensional. -/
noncomputable def irfft1 (nx : ℕ) (H : ℕ → ℂ) (x : ℕ) : ℝ :=
  ∑ kx ∈ range (nx / 2 + 1), weight nx kx * (H kx * cis nx (kx * x)).re

end CM.FFT
