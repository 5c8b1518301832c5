import Verif.Spec.Continuum
import Verif.Spec.CellContinuum
import Verif.Spec.CLI
/-!
# Specification: contact of a rigid surface and a continuous half-space of any modulus; what the command line writes
-/
namespace CM.Disc
open MeasureTheory CM.Ref CM.Spec CM.HS CM.FFT CM.System CM.Pipe CM.Cli

/-- The pressure `q` solves the contact problem of the rigid surface `H`, at offset `d`, and the continuous half-space of contact modulus `E`: no tension, no penetration, and pressure only where the
surfaces touch. -/
structure HalfSpaceContact (E : ℝ) (H : ℝ × ℝ → ℝ) (d : ℝ) (q : ℝ × ℝ → ℝ) : Prop where
  continuous : Continuous q
  compact : HasCompactSupport q
  noTension : ∀ x, 0 ≤ q x
  noPenetration : ∀ x, H x + d ≤ boussinesq E q x
  touching : ∀ x, q x ≠ 0 → boussinesq E q x = H x + d

/-- Pressure `q` and displacement `v` solve the contact problem of the rigid surface `H`, at offset `d`, and the continuous periodic half-space of Young's modulus `Y` and Poisson number `ν`. -/
structure CellContact (Y ν sx sy : ℝ) (H : ℝ × ℝ → ℝ) (d : ℝ) (q v : ℝ × ℝ → ℝ) : Prop where
  response : CellResponse ⟨[], Y, [sx, sy], none, none, ν, none⟩ q v
  noTension : ∀ x, 0 ≤ q x
  noPenetration : ∀ x, H x + d ≤ v x
  touching : ∀ x, q x ≠ 0 → v x = H x + d

/-- The fields the command line writes to a NetCDF frame satisfy the contact conditions within the tolerance `τ`: forces are not tensile, the surface at the offset in the frame penetrates the substrate
by at most `τ`, and the gap is at most `τ` wherever there is a force. -/
structure WrittenContact (T : Topo) (nx ny : ℕ) (τ : ℝ) (out : Output) : Prop where
  noTension : ∀ x, 0 ≤ field nx ny out.frameFields.2 x
  penetration : ∀ x, wall T nx ny out.frame.1 x - field nx ny out.frameFields.1 x ≤ τ
  gap : ∀ x, field nx ny out.frameFields.2 x ≠ 0 → field nx ny out.frameFields.1 x - wall T nx ny out.frame.1 x ≤ τ

end CM.Disc
