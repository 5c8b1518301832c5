import Verif.Model.CCG
import Verif.Model.Pipeline
/-!
# The pipeline with the package's own solver

`Model/Pipeline` leaves the solver open.  This file plugs in the model of
`constrained_conjugate_gradients` (`Model/CCG`), run on the substrate the pipeline builds, so that
`contact_mechanics` is modelled from its arguments down to the Fourier transforms.

Simplifications: those of the two models; two-dimensional grids (the pipeline slices the result with two
indices, `PipelineFunction.py:110`); SciPy's bisection (used under load control with a hardness only) and
`rms_height_from_area()` (not used, the pipeline passes `pentol`) are parameters.
-/
namespace CM.Pipe
open CM.HS CM.FFT CM.System

/-- A field on the computational grid as an array. -/
def fieldArray {α : Type} [Inhabited α] (d0 d1 : ℕ) (f : Fin d0 × Fin d1 → α) : NdArray α :=
  ⟨[d0, d1], fun x => match x with
    | [i, j] => if h : i < d0 ∧ j < d1 then f (⟨i, h.1⟩, ⟨j, h.2⟩) else default
    | _ => default⟩

/-- An evaluation of the substrate as a map between fields on the computational grid.  (The exception
cannot occur: the solver only passes arrays of the shape of that grid, see `Props/EndToEnd`.) -/
noncomputable def onGrid (eval : NdArray ℝ → Except PyErr (NdArray ℝ)) (d0 d1 : ℕ) (f : Fin d0 × Fin d1 → ℝ) :
    Fin d0 × Fin d1 → ℝ := fun p =>
  match eval (fieldArray d0 d1 f) with
  | .ok u => u.get [p.1, p.2]
  | .error _ => 0

/-- What `constrained_conjugate_gradients(substrate, topography, …)` sees of a substrate with
computational grid `d0 × d1` and a topography of `nx × ny` points without undefined data
(`ConstrainedConjugateGradients.py:141-193`): forces are applied with `evaluate_disp` and `evaluate_force`,
`comp_slice` starts at the origin and has the size of the topography. -/
noncomputable def ccgProblem (sub : Substrate) (rms : NdArray ℝ → ℝ) (d0 d1 nx ny : ℕ) (heights : NdArray ℝ) :
    CCG.Problem (Fin d0 × Fin d1) ℝ where
  disp := onGrid sub.evaluateDisp d0 d1
  force := onGrid (HS.evaluateForce sub.hs) d0 d1
  comp p := decide (p.1.val < nx) && decide (p.2.val < ny)
  slice p := decide (p.1.val < nx) && decide (p.2.val < ny)
  h p := heights.get [p.1, p.2]
  nSurf := (nx * ny : ℕ)
  rmsHeight := rms heights
  meanGrid := ((nx : ℝ) + ny) / 2

/-- `optim.bisect(f, a, b)`. -/
abbrev Bisect := (ℝ → ℝ) → ℝ → ℝ → Except PyErr ℝ

/-- Keyword arguments the solver receives from `minimize_proxy` for a call of the pipeline
(`ConstrainedConjugateGradients.py:47-60`).  A negative `maxiter` makes
`range(1, maxiter + 1)` empty. -/
noncomputable def ccgOptions (bisect : Bisect) (kw : OptimizerKwargs) (ι : Type) (c : Call) : CCG.Options ι ℝ where
  hardness := match c.hardness with
    | none => .none
    | some H => .scalar H
  externalForce := c.externalForce
  offset := c.offset
  pentol := c.pentol
  forcetol := kw.forcetol
  thermotol := kw.thermotol
  mixfac := kw.mixfac
  mixdecfac := kw.mixdecfac
  minmixsteps := kw.minmixsteps
  maxiter := c.maxiter.toNat
  bisect := bisect

/-- The `OptimizeResult` as the systems read it: displacements and active set on the computational grid, forces and
plastic flags on the topography (`ConstrainedConjugateGradients.py:459-475`, `497-509`). -/
def ccgResult {d0 d1 : ℕ} (nx ny : ℕ) (r : CCG.Result (Fin d0 × Fin d1) ℝ) : OptResult where
  success := r.success
  x := fieldArray d0 d1 r.x
  jac := ⟨[nx, ny], (fieldArray d0 d1 r.jac).get⟩
  offset := r.offset
  plastic := ⟨[nx, ny], (fieldArray d0 d1 (r.plastic.getD fun _ => false)).get⟩
  activeSet := fieldArray d0 d1 r.activeSet

/-- `constrained_conjugate_gradients(system.substrate, system.surface, …)` as a solver of the pipeline. -/
noncomputable def ccgSolver (sub : Substrate) (rms : NdArray ℝ → ℝ) (bisect : Bisect) (kw : OptimizerKwargs) : Solver := fun c =>
  match sub.hs.domain, sub.topo with
  | [d0, d1], [nx, ny] =>
    match CCG.solve (ccgProblem sub rms d0 d1 nx ny c.heights) (ccgOptions bisect kw _ c) with
    | .error e => .error e
    | .ok r => .ok (ccgResult nx ny r)
  | _, _ => .error .indexError

/-- The solver of a call of `contact_mechanics`: CCG on the substrate this call constructs
(`PipelineFunction.py:346-359`).  Without a substrate `contact_mechanics` fails before it calls any solver. -/
noncomputable def defaultSolver (T : Topo) (rms : NdArray ℝ → ℝ) (bisect : Bisect) (A : PipeArgs) : Solver :=
  match makeSubstrate T A.substrate with
  | .error e => fun _ => .error e
  | .ok sub => ccgSolver sub rms bisect A.optimizerKwargs

/-- `contact_mechanics` with the default solver. -/
noncomputable def contactMechanicsCCG (T : Topo) (rms : NdArray ℝ → ℝ) (bisect : Bisect) (A : PipeArgs) :
    Except PyErr Result × List Report :=
  contactMechanics T (defaultSolver T rms bisect A) A

end CM.Pipe
