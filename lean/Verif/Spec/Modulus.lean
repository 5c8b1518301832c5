import Verif.Spec.HalfSpace
import Verif.Model.EndToEnd
/-!
# Specification vocabulary: a substrate of a stiffer material
-/
namespace CM.Spec
open CM.HS CM.FFT CM.System CM.Pipe

/-- Two periodic substrates of the same size and grid, the second `c` times as stiff as the first: half-spaces whose contact moduli
have the ratio `c` (and so have the stiffnesses given for the uniform deformation, if any), or layers of the same thickness and
Poisson number whose Young's moduli have the ratio `c`. -/
structure StifferBy (c : ℝ) (a b : Args) : Prop where
  grid : b.nbGridPts = a.nbGridPts
  sizes : b.physicalSizes = a.physicalSizes
  material : (a.thickness = none ∧ b.thickness = none ∧ contactModulus b = c * contactModulus a ∧ b.q0 = a.q0.map (c * ·)) ∨
    (∃ h, a.thickness = some h ∧ b.thickness = some h ∧ b.poisson = a.poisson ∧ b.young = c * a.young)

/-- The call of the solver with all forces multiplied by `c`. -/
def strongerCall (c : ℝ) (q : Call) : Call :=
  { q with hardness := q.hardness.map (c * ·), externalForce := q.externalForce.map (c * ·) }

/-- The keyword arguments of the solver with the force tolerance multiplied by `c`. -/
def strongerKw (c : ℝ) (kw : OptimizerKwargs) : OptimizerKwargs := { kw with forcetol := c * kw.forcetol }

/-- `r'` is the solver result `r` with the forces multiplied by `c`. -/
structure StrongerResult (c : ℝ) (r r' : OptResult) : Prop where
  success : r'.success = r.success
  offset : r'.offset = r.offset
  displacements : r'.x = r.x
  shape : r'.jac.shape = r.jac.shape
  forces : ∀ x, r'.jac.get x = c * r.jac.get x
  plastic : r'.plastic = r.plastic
  activeSet : r'.activeSet = r.activeSet

end CM.Spec
