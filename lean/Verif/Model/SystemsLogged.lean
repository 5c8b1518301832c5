import Verif.Model.SystemsBase
/-!
# Objectives without gradient and with a logger

Model of the remaining arguments of `NonSmoothContactSystem.evaluate`, `objective`, `primal_objective` and
`SystemBase.minimize_proxy` (`/repo/ContactMechanics/Systems.py`): `gradient` and `logger`, and of `logger_input`.

Simplification: a logger is the list of records (headings and values) that its method `st` received; what `st` makes of a record is
modelled in `Model/Logger.lean`.
-/
namespace CM.System
open CM.HS CM.FFT

/-- Headings and values passed to `logger.st`; `none` is the Python `None`. -/
abbrev Record := List String × List (Option ℝ)

/-- `logger_input` (`Systems.py:439-457`).  The sum of `None` has no negative. -/
noncomputable def loggerInput (S : Sys) : Except PyErr Record :=
  match S.subForce with
  | none => .error .typeError
  | some f => .ok (["energy", "force"], [S.energy, some (-f.sum)])

/-- `evaluate(disp, offset, pot, forces, logger)` (`Systems.py:459-506`) without a logger (`none`) or with one that holds the
records `L`. -/
noncomputable def evaluateLogged (S : Sys) (disp : NdArray ℝ) (offset : ℝ) (pot forces : Bool) (L : Option (List Record)) :
    Except PyErr (Option ℝ × Option (NdArray ℝ)) × Sys × Option (List Record) :=
  match evaluate S disp offset pot forces, L with
  | (.error e, S'), L => (.error e, S', L)
  | (.ok r, S'), none => (.ok r, S', none)
  | (.ok r, S'), some l =>
    match loggerInput S' with
    | .error e => (.error e, S', some l)
    | .ok x => (.ok r, S', some (l ++ [x]))

/-- `objective(offset, gradient, logger)(disp)` (`Systems.py:508-551`): energy, and minus the forces if `gradient`. -/
noncomputable def objectiveLogged (S : Sys) (offset : ℝ) (gradient : Bool) (L : Option (List Record)) (disp : NdArray ℝ) :
    Except PyErr (Option ℝ × Option (NdArray ℝ)) × Sys × Option (List Record) :=
  match reshape disp S.sub.hs.domain with
  | .error e => (.error e, S, L)
  | .ok d =>
    match evaluateLogged S d offset true gradient L with
    | (.error e, S', L') => (.error e, S', L')
    | (.ok (en, _), S', L') =>
      if gradient then
        match negForce S' with
        | .error e => (.error e, S', L')
        | .ok (en', g) => (.ok (en', some g), S', L')
      else (.ok (en, none), S', L')

/-- `primal_objective(offset, gradient=False)(gap)` (`Systems.py:655-660`). -/
noncomputable def primalObjectiveValue (S : Sys) (offset : ℝ) (gap : NdArray ℝ) : Except PyErr (Option ℝ) × Sys :=
  let d : Except PyErr (NdArray ℝ) := do
    let g ← reshape gap S.sub.hs.domain
    let gh ← binop (· + ·) g S.heights
    reshape (gh.map (· + offset)) S.sub.hs.domain
  match d with
  | .error e => (.error e, S)
  | .ok disp =>
    match evaluate S disp offset true false with
    | (.error e, S') => (.error e, S')
    | (.ok (en, _), S') => (.ok en, S')

/-- Calls of the objective by the optimiser, in order; the first exception ends the run. -/
noncomputable def callAllLogged (offset : ℝ) (gradient : Bool) : Sys → Option (List Record) → List (NdArray ℝ) →
    Except PyErr Unit × Sys × Option (List Record)
  | S, L, [] => (.ok (), S, L)
  | S, L, p :: ps =>
    match objectiveLogged S offset gradient L p with
    | (.error e, S', L') => (.error e, S', L')
    | (.ok _, S', L') => callAllLogged offset gradient S' L' ps

/-- `_update_state(offset, result, gradient)` (`Systems.py:224-246`).  Simplification: the result of the optimiser has a `jac` (those
of SciPy's gradient-free methods have none; accessing it raises `AttributeError`). -/
noncomputable def updateStateG (S : Sys) (offset : ℝ) (gradient : Bool) (r : OptResult) : Except PyErr OptResult × Sys :=
  let S1 := { S with offset := some offset }
  match shapeMinimisationOutput S1 r.x with
  | .error e => (.error e, S1)
  | .ok x =>
    match evaluate { S1 with disp := some x } x offset true gradient with
    | (.error e, S2) => (.error e, S2)
    | (.ok _, S2) =>
      match shapeMinimisationOutput S2 r.x, shapeMinimisationOutput S2 r.jac with
      | .ok x', .ok j => (.ok { r with x := x', jac := j }, S2)
      | .error e, _ => (.error e, S2)
      | _, .error e => (.error e, S2)

/-- `SystemBase.minimize_proxy(offset, …, gradient, logger)` (`Systems.py:248-338`). -/
noncomputable def minimizeProxyLogged (S : Sys) (nprocs : ℕ) (offset : ℝ) (init : Option (NdArray ℝ)) (method : String) (gradient : Bool)
    (callbackTrue : Bool) (lbounds : LBounds) (ubounds : Option Masked) (L : Option (List Record)) (scipy : ScipyCall → SolverRun) :
    Except PyErr OptResult × Sys × Option (List Record) :=
  match baseCall S nprocs offset init method callbackTrue lbounds ubounds with
  | .error e => (.error e, S, L)
  | .ok c =>
    match callAllLogged offset gradient S L (scipy c).points with
    | (.error e, S', L') => (.error e, S', L')
    | (.ok (), S', L') =>
      match updateStateG S' offset gradient (scipy c).result with
      | (r, S'') => (r, S'', L')

end CM.System
