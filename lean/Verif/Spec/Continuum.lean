import Verif.Spec.ContactProblem
import Verif.Spec.Discretisation
import Mathlib.Topology.Algebra.Support
/-!
# Specification: contact of a rigid surface and a continuous half-space, and its simulation on a grid
-/
namespace CM.Disc
open Set Topology MeasureTheory CM.Ref CM.Spec CM.HS CM.FFT CM.System CM.Pipe

/-- The pressure `q` solves the contact problem of the rigid surface `H`, at offset `d`, and the continuous half-space of contact modulus one: no tension, no penetration, and
pressure only where the surfaces touch. -/
structure Continuum (H : ℝ × ℝ → ℝ) (d : ℝ) (q : ℝ × ℝ → ℝ) : Prop where
  continuous : Continuous q
  compact : HasCompactSupport q
  noTension : ∀ x, 0 ≤ q x
  noPenetration : ∀ x, H x + d ≤ boussinesq 1 q x
  touching : ∀ x, q x ≠ 0 → boussinesq 1 q x = H x + d

/-- The topography holds the heights of the surface `H` at the grid points. -/
def HeightsOf (H : ℝ × ℝ → ℝ) (T : Topo) (nx ny : ℕ) (sx sy : ℝ) : Prop :=
  ∀ k l, k < nx → l < ny → T.heights.get [k, l] = H (gridPoint (sx / nx) (sy / ny) k l)

/-- A field of the continuous surface at the grid points. -/
noncomputable def onGrid (nx ny : ℕ) (sx sy : ℝ) (q : ℝ × ℝ → ℝ) : Fin nx × Fin ny → ℝ := fun x => q (gridPoint (sx / nx) (sy / ny) x.1 x.2)

/-- Pressures `p` and displacements `u` of the simulated substrate that solve the contact problem of a topography at offset `o` within the tolerance `τ`: the displacements are the answer of the
substrate to the pressures, there is no tension, the surfaces penetrate by at most `τ`, and the gap is at most `τ` wherever there is pressure. -/
structure NearContact (T : Topo) (k : Option String) (nx ny : ℕ) (sx sy : ℝ) (o τ : ℝ) (p u : Fin nx × Fin ny → ℝ) : Prop where
  response : ∃ sub, makeSubstrate T k = .ok sub ∧ u = answer sub (sx * sy / (nx * ny)) nx ny p
  noTension : ∀ x, 0 ≤ p x
  penetration : ∀ x, wall T nx ny o x - u x ≤ τ
  gap : ∀ x, p x ≠ 0 → u x - wall T nx ny o x ≤ τ

/-- The simulated surface, without its boundary. -/
def inside (sx sy : ℝ) : Set (ℝ × ℝ) := Ioo 0 sx ×ˢ Ioo 0 sy

end CM.Disc
