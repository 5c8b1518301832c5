import Verif.Spec.Boussinesq
import Verif.Spec.FreeHalfSpace
/-!
# Specification: grids on a continuous surface
-/
namespace CM.Disc
open CM.Ref CM.Spec CM.HS CM.FFT

/-- The position of grid point `(k, l)` on the surface. -/
def gridPoint (dx dy : ℝ) (k l : ℕ) : ℝ × ℝ := (k * dx, l * dy)

/-- The part of the surface that belongs to grid point `(k, l)`: the rectangle of size `dx × dy` around it. -/
def pixel (dx dy : ℝ) (k l : ℕ) : Set (ℝ × ℝ) := Set.Ioc (k * dx - dx / 2) (k * dx + dx / 2) ×ˢ Set.Ioc (l * dy - dy / 2) (l * dy + dy / 2)

/-- The point lies on the simulated part of the surface. -/
def OnGrid (nx ny : ℕ) (dx dy : ℝ) (y : ℝ × ℝ) : Prop := ∃ k l, k < nx ∧ l < ny ∧ y ∈ pixel dx dy k l

/-- The forces are those of the pressure `p`, taken at the grid points; compressive forces are negative. -/
def Sampled (nx ny : ℕ) (dx dy : ℝ) (p : ℝ × ℝ → ℝ) (f : NdArray ℝ) : Prop :=
  f.shape = [nx, ny] ∧ ∀ k l, k < nx → l < ny → f.get [k, l] = -(p (gridPoint dx dy k l) * (dx * dy))

/-- Within every pixel the pressure differs at most by `ω` from its value at the grid point. -/
def Varies (nx ny : ℕ) (dx dy : ℝ) (p : ℝ × ℝ → ℝ) (ω : ℝ) : Prop :=
  ∀ k l, k < nx → l < ny → ∀ y ∈ pixel dx dy k l, |p y - p (gridPoint dx dy k l)| ≤ ω

end CM.Disc
