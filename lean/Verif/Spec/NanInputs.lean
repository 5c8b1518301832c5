import Verif.Model.CCGNan
/-!
# `nan` in the input and output of the solver

Definitions only.
-/
namespace CM.CCG.Nan
open PyFloat
variable {ι : Type} [Fintype ι]

/-- A substrate evaluation does not lose a `nan`: some output is `nan` if an input is. -/
def Keeps (d : (ι → PyFloat) → ι → PyFloat) : Prop := ∀ f, (∃ i, ¬ (f i).IsNum) → ∃ i, ¬ (d f i).IsNum

/-- A substrate evaluation spreads `nan`: every output is `nan` if an input is.  (So does a Fourier transform.) -/
def Spreads (d : (ι → PyFloat) → ι → PyFloat) : Prop := ∀ f, (∃ i, ¬ (f i).IsNum) → ∀ i, ¬ (d f i).IsNum

/-- The arguments of the call contain a `nan` that matters: in the heights, in the offset (if it is prescribed), in the external force, in the initial displacements (unless replaced by
initial forces) or in the initial forces. -/
def NanInput (P : Problem ι PyFloat) (o : Options ι PyFloat) : Prop :=
  (∃ i, P.comp i = true ∧ ¬ (P.h i).IsNum) ∨
  (o.externalForce = none ∧ ∃ z, o.offset = some z ∧ ¬ z.IsNum) ∨
  (∃ F, o.externalForce = some F ∧ ¬ F.IsNum) ∨
  (o.initialForces = none ∧ ∃ u, o.initialDisplacements = some u ∧ ∃ i, ¬ (u i).IsNum) ∨
  (∃ f, o.initialForces = some f ∧ ∃ i, ¬ (f i).IsNum)

/-- A substrate that applies a matrix: `-(A f)`. -/
noncomputable def matrix (A : ι → ι → ℝ) (f : ι → PyFloat) : ι → PyFloat := fun i => -(fsum (fun _ => true) fun j => num (A i j) * f j)

end CM.CCG.Nan

namespace CM.CCG.Nan
open PyFloat
variable {ι : Type} [Fintype ι]

/-- An array of numbers. -/
def nums (a : ι → ℝ) : ι → PyFloat := fun i => num (a i)

/-- A problem without `nan`: `Q` is the problem `P`, computed with Python floats. -/
structure SameProblem (P : Problem ι ℝ) (Q : Problem ι PyFloat) : Prop where
  disp : ∀ f, Q.disp (nums f) = nums (P.disp f)
  force : ∀ f, Q.force (nums f) = nums (P.force f)
  comp : Q.comp = P.comp
  slice : Q.slice = P.slice
  h : Q.h = nums P.h
  nSurf : Q.nSurf = num P.nSurf
  nSurf_ne : P.nSurf ≠ 0
  rmsHeight : Q.rmsHeight = num P.rmsHeight
  meanGrid : Q.meanGrid = num P.meanGrid
  meanGrid_ne : P.meanGrid ≠ 0

/-- A hardness without `nan`. -/
def numHardness : Hardness ι ℝ → Hardness ι PyFloat
  | .none => .none
  | .scalar H => .scalar (num H)
  | .array H => .array (nums H)

/-- Arguments without `nan` (no array hardness): `q` are the arguments `o`. -/
structure SameOptions (o : Options ι ℝ) (q : Options ι PyFloat) : Prop where
  hardness : q.hardness = numHardness o.hardness
  scalar : ∀ H, o.hardness ≠ .array H
  externalForce : q.externalForce = o.externalForce.map num
  offset : q.offset = o.offset.map num
  initialDisplacements : q.initialDisplacements = o.initialDisplacements.map nums
  initialForces : q.initialForces = o.initialForces.map nums
  pentol : q.pentol = o.pentol.map num
  forcetol : q.forcetol = num o.forcetol
  thermotol : q.thermotol = num o.thermotol
  mixfac : q.mixfac = num o.mixfac
  mixdecfac : q.mixdecfac = num o.mixdecfac
  minmixsteps : q.minmixsteps = o.minmixsteps
  maxiter : q.maxiter = o.maxiter
  bisect : ∀ (φ : ℝ → ℝ) (Φ : PyFloat → PyFloat) a b, (∀ x, Φ (num x) = num (φ x)) →
    q.bisect Φ (num a) (num b) = (o.bisect φ a b).map num

/-- A result without `nan`. -/
def numResult (r : Result ι ℝ) : Result ι PyFloat :=
  { x := nums r.x, jac := nums r.jac, activeSet := r.activeSet, plastic := r.plastic, fun_ := num r.fun_, offset := num r.offset, success := r.success, nit := r.nit,
    nfev := r.nfev, maxPen := num r.maxPen, maxPres := num r.maxPres, status := r.status, tau := num r.tau }

end CM.CCG.Nan
