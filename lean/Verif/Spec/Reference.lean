import Verif.Model.Reference
import Mathlib.Analysis.Calculus.Deriv.Basic
/-!
# Specification of the reference solutions
-/
namespace CM.Ref.Hertz

open Real

/-- The gap between the sphere, pushed down by `d`, and the displaced surface at distance `r` from the axis, with the displacement
`surface_displacements` scaled by `p0 a / Es` as its documentation says. -/
noncomputable def hertzGap (d R Es r : ℝ) : ℝ :=
  r ^ 2 / (2 * R) - d - maxPressure d R Es * √(R * d) / Es * surfaceDisp (r / √(R * d))

/-- The pressure at distance `r`. -/
noncomputable def hertzPressure (nu d R Es r : ℝ) : ℝ := maxPressure d R Es * (surfaceStress nu (r / √(R * d))).pz

/-- Cartesian components of a stress given in cylindrical coordinates, at a point in the direction `(c, s)` from the axis. -/
noncomputable def rotate (c s : ℝ) (t : Cyl) : Cart where
  xx := c ^ 2 * t.rr + s ^ 2 * t.tt
  yy := s ^ 2 * t.rr + c ^ 2 * t.tt
  zz := t.zz
  yz := s * t.rz
  xz := c * t.rz
  xy := c * s * (t.rr - t.tt)

/-- Balance of forces at a point: `∂ σ_ix / ∂x + ∂ σ_iy / ∂y + ∂ σ_iz / ∂z = 0` for the three directions. -/
def Balanced (σ : ℝ → ℝ → ℝ → Cart) (x y z : ℝ) : Prop :=
  (∃ a b c, HasDerivAt (fun t => (σ t y z).xx) a x ∧ HasDerivAt (fun t => (σ x t z).xy) b y ∧ HasDerivAt (fun t => (σ x y t).xz) c z ∧ a + b + c = 0) ∧
  (∃ a b c, HasDerivAt (fun t => (σ t y z).xy) a x ∧ HasDerivAt (fun t => (σ x t z).yy) b y ∧ HasDerivAt (fun t => (σ x y t).yz) c z ∧ a + b + c = 0) ∧
  (∃ a b c, HasDerivAt (fun t => (σ t y z).xz) a x ∧ HasDerivAt (fun t => (σ x t z).yz) b y ∧ HasDerivAt (fun t => (σ x y t).zz) c z ∧ a + b + c = 0)

/-- A displacement field with components along `x`, `y` and the depth. -/
structure Field where
  ux : ℝ → ℝ → ℝ → ℝ
  uy : ℝ → ℝ → ℝ → ℝ
  uz : ℝ → ℝ → ℝ → ℝ

/-- Hooke's law at a point, for a displacement in units of `p0 a / Es`, lengths in units of `a` and stresses in units of `p0`: Young's modulus is
`(1 - ν²) Es`. -/
def Hooke (nu : ℝ) (u : Field) (σ : ℝ → ℝ → ℝ → Cart) (x y z : ℝ) : Prop :=
  ∃ xx xy xz yx yy yz zx zy zz : ℝ,
    HasDerivAt (fun t => u.ux t y z) xx x ∧ HasDerivAt (fun t => u.ux x t z) xy y ∧ HasDerivAt (fun t => u.ux x y t) xz z ∧
    HasDerivAt (fun t => u.uy t y z) yx x ∧ HasDerivAt (fun t => u.uy x t z) yy y ∧ HasDerivAt (fun t => u.uy x y t) yz z ∧
    HasDerivAt (fun t => u.uz t y z) zx x ∧ HasDerivAt (fun t => u.uz x t z) zy y ∧ HasDerivAt (fun t => u.uz x y t) zz z ∧
    (1 - nu ^ 2) * xx = (σ x y z).xx - nu * ((σ x y z).yy + (σ x y z).zz) ∧
    (1 - nu ^ 2) * yy = (σ x y z).yy - nu * ((σ x y z).xx + (σ x y z).zz) ∧
    (1 - nu ^ 2) * zz = (σ x y z).zz - nu * ((σ x y z).xx + (σ x y z).yy) ∧
    (1 - nu ^ 2) * ((xy + yx) / 2) = (1 + nu) * (σ x y z).xy ∧
    (1 - nu ^ 2) * ((xz + zx) / 2) = (1 + nu) * (σ x y z).xz ∧
    (1 - nu ^ 2) * ((yz + zy) / 2) = (1 + nu) * (σ x y z).yz

end CM.Ref.Hertz
