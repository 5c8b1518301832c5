import Verif.Spec.LineContact
import Verif.Spec.Continuum
/-!
# Specification: contact of a rigid profile and a continuous periodic half-space

Surfaces, pressures and displacements that vary along x only.
-/
namespace CM.Disc
open CM.HS CM.Spec

/-- The periodic half-space `contact_mechanics` simulates: contact modulus one, `sx × sy`, default stiffness of the uniform field. -/
noncomputable def cell (sx sy : ℝ) : Args := ⟨[], 1, [sx, sy], none, none, 0, none⟩

/-- A field that varies along x only. -/
def along (q : ℝ → ℝ) : ℝ × ℝ → ℝ := fun x => q x.1

/-- Pressure `q` and displacement `v` solve the contact problem of the rigid profile `H`, at offset `d`, and the continuous periodic half-space: the displacement is the answer to the pressure, there is
no tension, no penetration, and pressure only where the surfaces touch. -/
structure LineContinuum (sx sy : ℝ) (H : ℝ → ℝ) (d : ℝ) (q v : ℝ → ℝ) : Prop where
  response : LineResponse (cell sx sy) q v
  noTension : ∀ x, 0 ≤ q x
  noPenetration : ∀ x, H x + d ≤ v x
  touching : ∀ x, q x ≠ 0 → v x = H x + d

end CM.Disc
