import Verif.Model.Pipeline
import Verif.Spec.Systems
/-!
# Specification vocabulary for the pipeline
-/
namespace CM.Spec
open Finset CM.HS CM.FFT CM.System CM.Pipe

/-- A solver result whose arrays have the documented shapes: forces and plastic flags on the
topography grid, displacements on a grid that contains it. -/
structure Fits (nx ny : ℕ) (r : OptResult) : Prop where
  jac : r.jac.shape = [nx, ny]
  x : ∃ mx my, r.x.shape = [mx, my] ∧ nx ≤ mx ∧ ny ≤ my
  plastic : r.plastic.shape = [nx, ny]

/-- A two-dimensional topography with positive lengths. -/
structure ValidTopo (T : Topo) (nx ny : ℕ) (sx sy : ℝ) : Prop where
  heights : T.heights.shape = [nx, ny]
  sizes : T.physicalSizes = [sx, sy]
  nx_pos : 0 < nx
  ny_pos : 0 < ny
  sx_pos : 0 < sx
  sy_pos : 0 < sy

/-- Sum of an array over the grid. -/
def total (nx ny : ℕ) (f : NdArray ℝ) : ℝ := ∑ i ∈ range nx, ∑ j ∈ range ny, f.get [i, j]

/-- Number of grid points with positive value. -/
noncomputable def nbPos (nx ny : ℕ) (f : NdArray ℝ) : ℕ :=
  ((range nx ×ˢ range ny).filter fun p => 0 < f.get [p.1, p.2]).card

/-- One row of the thermodynamic results. -/
structure Record where
  displacement : ℝ
  gap : ℝ
  pressure : ℝ
  area : ℝ
  converged : Bool
deriving Inhabited

/-- The row that belongs to a solver result `r` obtained with heights `h` on a surface `sx × sy`: the
offset; mean displacement minus mean height minus offset; total force over apparent area; fraction of
points under compression; convergence. -/
noncomputable def recordOf (nx ny : ℕ) (sx sy : ℝ) (h : NdArray ℝ) (r : OptResult) : Record where
  displacement := r.offset
  gap := mean nx ny r.x - mean nx ny h - r.offset
  pressure := total nx ny r.jac / (sx * sy)
  area := nbPos nx ny r.jac / (nx * ny)
  converged := r.success

/-- Five columns of rows. -/
def columns (l : List Record) : Result :=
  ⟨l.map (·.pressure), l.map (·.area), l.map (·.displacement), l.map (·.gap), l.map (·.converged)⟩

/-- Surface heights at a point after a calculation: where a successful plastic calculation flags the
point, the surface is pressed to the displacement, elsewhere it stays. -/
noncomputable def heightAfter (plastic : Bool) (h : NdArray ℝ) (r : OptResult) (x : List ℕ) : ℝ :=
  if plastic && r.success && r.plastic.get x then r.x.get x - r.offset else h.get x

/-- What the callback has to receive for a solver result `r`, when the surface heights after the
calculation are `h`. -/
structure ReportMatches (nx ny : ℕ) (sx sy : ℝ) (h : List ℕ → ℝ) (r : OptResult) (rep : Report) : Prop where
  shapes : rep.displacement.shape = [nx, ny] ∧ rep.gap.shape = [nx, ny] ∧ rep.pressure.shape = [nx, ny] ∧
    rep.contacting.shape = [nx, ny]
  displacement : ∀ i < nx, ∀ j < ny, rep.displacement.get [i, j] = r.x.get [i, j]
  gap : ∀ i < nx, ∀ j < ny, rep.gap.get [i, j] = max 0 (r.x.get [i, j] - (h [i, j] + r.offset))
  pressure : ∀ i < nx, ∀ j < ny, rep.pressure.get [i, j] = r.jac.get [i, j] / (sx * sy / (nx * ny))
  contacting : ∀ i < nx, ∀ j < ny, (rep.contacting.get [i, j] = true ↔ 0 < rep.pressure.get [i, j])
  meanDisplacement : rep.meanDisplacement = r.offset
  meanPressure : rep.meanPressure = total nx ny r.jac / (sx * sy)
  area : rep.totalContactArea = nbPos nx ny r.jac / (nx * ny)

/-- One step of a calculation: heights before it, the arguments of the solver, its result, and the
callback data. -/
structure StepData where
  before : NdArray ℝ
  call : Call
  result : OptResult
  report : Report

/-- Two arrays agree on the grid. -/
def AgreeOn (nx ny : ℕ) (a : NdArray ℝ) (b : List ℕ → ℝ) : Prop :=
  ∀ i < nx, ∀ j < ny, a.get [i, j] = b [i, j]

end CM.Spec

namespace CM.Spec
open Finset CM.HS CM.FFT CM.System CM.Pipe

/-- Exactly one of `nsteps`, `offsets`, `pressures` is given. -/
def ExactlyOne (A : PipeArgs) : Prop :=
  (A.nsteps.isSome ∧ A.offsets = none ∧ A.pressures = none) ∨ (A.nsteps = none ∧ A.offsets.isSome ∧ A.pressures = none) ∨
    (A.nsteps = none ∧ A.offsets = none ∧ A.pressures.isSome)

/-- Hardness used: the positive one given. -/
noncomputable def effectiveHardness (A : PipeArgs) : Option ℝ := A.hardness.filter fun H => decide (0 < H)

/-- Hardness handed to the solver, in force units. -/
noncomputable def forceHardness (nx ny : ℕ) (sx sy : ℝ) (H : Option ℝ) : Option ℝ :=
  H.map fun H => H * (sx * sy / (nx * ny))

/-- Row of the results that belongs to a step. -/
noncomputable def StepData.record (nx ny : ℕ) (sx sy : ℝ) (d : StepData) : Record := recordOf nx ny sx sy d.before d.result

/-- `D` are the steps of a calculation with arguments `A`: the solver of every step is called with the
surface found, the hardness as a force, the tolerance `max(rms/(10 n̄), 1e-12)`, the iteration limit, and
the offset and external force `ask` prescribes (given the step number and the rows so far); its result is
the one used; the callback data belongs to it.  The first step finds the surface given, and every
following one the surface its predecessor left -- or the undeformed surface, if `fresh` or elastic. -/
structure IsRun (T : Topo) (nx ny : ℕ) (sx sy : ℝ) (A : PipeArgs) (solver : Solver) (fresh : Bool)
    (ask : ℕ → List Record → Option ℝ → Option ℝ → Prop) (D : List StepData) : Prop where
  call : ∀ k d, D[k]? = some d → ∃ o F, ask k ((D.take k).map (StepData.record nx ny sx sy)) o F ∧
    d.call = ⟨d.before, forceHardness nx ny sx sy (effectiveHardness A), o, F,
      some (max (T.rmsHeight / (10 * ((nx + ny) / 2))) 1e-12), A.maxiter⟩
  solved : ∀ d ∈ D, solver d.call = .ok d.result
  report : ∀ d ∈ D, ReportMatches nx ny sx sy (heightAfter (effectiveHardness A).isSome d.before d.result) d.result d.report
  first : ∀ d, D[0]? = some d → AgreeOn nx ny d.before T.heights.get
  next : fresh = false → ∀ k d d', D[k]? = some d → D[k + 1]? = some d' →
    AgreeOn nx ny d'.before (heightAfter (effectiveHardness A).isSome d.before d.result)
  fresh : fresh = true ∨ effectiveHardness A = none → ∀ d ∈ D, d.before = T.heights

/-- `t` is the largest height. -/
def IsMaxHeight (nx ny : ℕ) (h : NdArray ℝ) (t : ℝ) : Prop :=
  (∃ i < nx, ∃ j < ny, h.get [i, j] = t) ∧ ∀ i < nx, ∀ j < ny, h.get [i, j] ≤ t

/-- `b` is the smallest height. -/
def IsMinHeight (nx ny : ℕ) (h : NdArray ℝ) (b : ℝ) : Prop :=
  (∃ i < nx, ∃ j < ny, h.get [i, j] = b) ∧ ∀ i < nx, ∀ j < ny, b ≤ h.get [i, j]

/-- Logarithmic area, regularised by the area of one point. -/
noncomputable def logArea (N : ℕ) (a : ℝ) : ℝ := Real.logb 10 (a + 1 / (N : ℝ))

/-- Gap on the logarithmic area axis above row `k`, to the next row or, for the last row, to full
contact (`log 1 = 0`). -/
noncomputable def areaGap (N : ℕ) (rows : List (ℝ × ℝ)) (k : ℕ) : ℝ :=
  if k + 1 < rows.length then logArea N (rows.getD (k + 1) (0, 0)).2 - logArea N (rows.getD k (0, 0)).2
  else 0 - logArea N (rows.getD k (0, 0)).2

/-- The documented choice of the next offset from the `(offset, area)` pairs of the previous steps: first
minus the mean height; then slightly above first contact; then, among the pairs ordered by area, the
middle of the first largest gap on the logarithmic area axis, or -- if that is the gap above the last
pair -- twice as far from the lowest height as the last offset. -/
def AutoChoice (nx ny : ℕ) (h : NdArray ℝ) (prev : List (ℝ × ℝ)) (o : ℝ) : Prop :=
  match prev with
  | [] => o = -mean nx ny h
  | [_] => ∃ top, IsMaxHeight nx ny h top ∧ o = -top + (top - mean nx ny h) / 100
  | _ => ∃ bot rows k, IsMinHeight nx ny h bot ∧ rows.Perm prev ∧ rows.Pairwise (fun a b => a.2 ≤ b.2) ∧ k < rows.length ∧
      (∀ l < rows.length, areaGap (nx * ny) rows l ≤ areaGap (nx * ny) rows k) ∧
      (∀ l < k, areaGap (nx * ny) rows l < areaGap (nx * ny) rows k) ∧
      ((k + 1 < rows.length ∧ o = ((rows.getD k (0, 0)).1 + (rows.getD (k + 1) (0, 0)).1) / 2) ∨
       (k + 1 = rows.length ∧ o = bot + 2 * ((rows.getD k (0, 0)).1 - bot)))

end CM.Spec
