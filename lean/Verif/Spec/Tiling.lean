import Verif.Spec.HalfSpace
import Verif.Spec.Pipeline
/-!
# Specification: several periods of a periodic system
-/
namespace CM.Spec
open Finset CM.HS CM.FFT

/-- `f'` is `f` repeated `k` times in the first and `l` times in the second direction. -/
structure Repeats {α : Type} (k l nx ny : ℕ) (f f' : NdArray α) : Prop where
  shape : f.shape = [nx, ny]
  shape' : f'.shape = [k * nx, l * ny]
  get : ∀ i < k * nx, ∀ j < l * ny, f'.get [i, j] = f.get [i % nx, j % ny]

/-- Half-space arguments for `k × l` periods of the half-space `a`: grid and physical size are multiplied, the material is the same. -/
structure Periods (k l nx ny : ℕ) (a a' : Args) : Prop where
  grid : a.nbGridPts = [nx, ny]
  grid' : a'.nbGridPts = [k * nx, l * ny]
  sizeX : size a' 0 = k * size a 0
  sizeY : size a' 1 = l * size a 1
  young : a'.young = a.young
  poisson : a'.poisson = a.poisson
  thickness : a'.thickness = a.thickness
  q0 : a'.q0 = a.q0

/-- `p'` is the field `p` repeated, plus the constant `c`. -/
def RepeatsField {k l nx ny : ℕ} (c : ℝ) (p : Fin nx × Fin ny → ℝ) (p' : Fin (k * nx) × Fin (l * ny) → ℝ) : Prop :=
  ∀ (x : Fin nx × Fin ny) (x' : Fin (k * nx) × Fin (l * ny)), x'.1.val % nx = x.1.val → x'.2.val % ny = x.2.val → p' x' = p x + c

/-- `T'` is `k × l` periods of the topography `T`: heights repeated, sizes multiplied. -/
structure TopoPeriods (k l nx ny : ℕ) (sx sy : ℝ) (T T' : Pipe.Topo) : Prop where
  one : ValidTopo T nx ny sx sy
  all : ValidTopo T' (k * nx) (l * ny) (k * sx) (l * sy)
  heights : Repeats k l nx ny T.heights T'.heights
  periodic : T'.isPeriodic = T.isPeriodic

/-- What the uniform displacement of `k × l` periods exceeds that of one period by, per unit of mean pressure: the difference of the
compliances `2 / (π (1/sx + 1/sy))` that a default half-space of unit modulus has for the uniform field. -/
noncomputable def uniformShift (k l : ℕ) (sx sy : ℝ) : ℝ :=
  2 / (Real.pi * (1 / (k * sx) + 1 / (l * sy))) - 2 / (Real.pi * (1 / sx + 1 / sy))

end CM.Spec
