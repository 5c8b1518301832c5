import Verif.Spec.Contact
import Verif.Model.EndToEnd
/-!
# Specification: the contact problem of an elastic substrate and a rigid surface, in terms of pressures
-/
namespace CM.Spec
open Finset CM.HS CM.FFT CM.System CM.Pipe

/-- Pressures `p` solve the contact problem of the rigid surface `b` and the elastic substrate that answers the pressures `p` with
the displacements `U p`: no tension, no penetration, and pressure only where the surfaces touch. -/
structure HardWall {ι : Type} (U : (ι → ℝ) → (ι → ℝ)) (b p : ι → ℝ) : Prop where
  noTension : ∀ i, 0 ≤ p i
  noPenetration : ∀ i, b i ≤ U p i
  touching : ∀ i, p i ≠ 0 → U p i = b i

/-- Average of a field over the grid. -/
noncomputable def avg {ι : Type} [Fintype ι] (f : ι → ℝ) : ℝ := (∑ i, f i) / Fintype.card ι

/-- Displacements with which a substrate answers the pressures `p` on an `nx × ny` topography with points of area `a`: what
`evaluate_disp` returns for the forces (negative when compressive). -/
noncomputable def answer (sub : Substrate) (a : ℝ) (nx ny : ℕ) (p : Fin nx × Fin ny → ℝ) : Fin nx × Fin ny → ℝ := fun x =>
  match sub.evaluateDisp (fieldArray nx ny fun y => -(p y * a)) with
  | .ok u => u.get [x.1, x.2]
  | .error _ => 0

/-- An array as a field on the grid. -/
def field (nx ny : ℕ) (f : NdArray ℝ) : Fin nx × Fin ny → ℝ := fun x => f.get [x.1, x.2]

/-- The rigid surface at offset `o`. -/
def wall (T : Topo) (nx ny : ℕ) (o : ℝ) : Fin nx × Fin ny → ℝ := fun x => T.heights.get [x.1, x.2] + o

/-- The exact solution of the contact problem of a topography: pressures, displacements and offset. -/
structure ExactContact (T : Topo) (k : Option String) (nx ny : ℕ) (sx sy : ℝ) (o : ℝ) (p u : Fin nx × Fin ny → ℝ) : Prop where
  solves : ∃ sub, makeSubstrate T k = .ok sub ∧ u = answer sub (sx * sy / (nx * ny)) nx ny p ∧
    HardWall (answer sub (sx * sy / (nx * ny)) nx ny) (wall T nx ny o) p

end CM.Spec
