import Verif.Spec.LineContinuum
/-!
# Specification: contact of a rigid periodic surface and a continuous periodic half-space
-/
namespace CM.Disc
open CM.HS CM.Spec
open scoped ComplexConjugate

/-- A field of the plane repeats after `sx` along x and after `sy` along y. -/
structure Repeats (sx sy : ℝ) (f : ℝ × ℝ → ℝ) : Prop where
  x : ∀ x y, f (x + sx, y) = f (x, y)
  y : ∀ x y, f (x, y + sy) = f (x, y)

/-- Integral of a field over the cell `sx × sy`. -/
noncomputable def overCell (sx sy : ℝ) (f : ℝ × ℝ → ℝ) : ℝ := ∫ x in (0 : ℝ)..sx, ∫ y in (0 : ℝ)..sy, f (x, y)

/-- Fourier coefficient of a field for the plane wave with `k.1` periods along x and `k.2` periods along y of the cell `sx × sy` (not divided by the area). -/
noncomputable def coefficient (sx sy : ℝ) (f : ℝ × ℝ → ℝ) (k : ℤ × ℤ) : ℂ := ∫ x in (0 : ℝ)..sx, ∫ y in (0 : ℝ)..sy, (f (x, y) : ℂ) * conj (cellWave sx sy k x y)

/-- The continuous periodic substrate answers the pressure `q` with the displacement `v`: both are continuous and repeat after the sizes of the substrate, and every Fourier coefficient of the
displacement is that of the pressure divided by the stiffness of its plane wave. -/
structure CellResponse (a : Args) (q v : ℝ × ℝ → ℝ) : Prop where
  pressure_continuous : Continuous q
  displacement_continuous : Continuous v
  pressure_repeats : Repeats (size a 0) (size a 1) q
  displacement_repeats : Repeats (size a 0) (size a 1) v
  waves : ∀ k : ℤ × ℤ, cellStiffness a k * coefficient (size a 0) (size a 1) v k = coefficient (size a 0) (size a 1) q k

/-- Pressure `q` and displacement `v` solve the contact problem of the rigid surface `H`, at offset `d`, and the continuous periodic half-space: the displacement is the answer to the pressure, there is
no tension, no penetration, and pressure only where the surfaces touch. -/
structure CellContinuum (sx sy : ℝ) (H : ℝ × ℝ → ℝ) (d : ℝ) (q v : ℝ × ℝ → ℝ) : Prop where
  response : CellResponse (cell sx sy) q v
  noTension : ∀ x, 0 ≤ q x
  noPenetration : ∀ x, H x + d ≤ v x
  touching : ∀ x, q x ≠ 0 → v x = H x + d

end CM.Disc
