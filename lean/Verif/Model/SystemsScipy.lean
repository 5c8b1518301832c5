import Verif.Model.SystemsLogged
/-!
# Results of optimisers that do not know a gradient

`SystemBase.minimize_proxy` and `_update_state` (`/repo/ContactMechanics/Systems.py`) for any result of `scipy.optimize.minimize`.  SciPy's methods
"Nelder-Mead", "Powell", "COBYLA" and "COBYQA" return an `OptimizeResult` without `jac`, whatever is passed as argument `jac`; reading an attribute that an `OptimizeResult` does not
have raises `AttributeError`.
-/
namespace CM.System
open CM.HS CM.FFT

/-- Result of `scipy.optimize.minimize`: `jac` may be missing. -/
structure ScipyResult where
  success : Bool
  x : NdArray ℝ
  jac : Option (NdArray ℝ)

/-- Where the optimiser evaluates the objective, and what it returns. -/
structure ScipyRun where
  points : List (NdArray ℝ)
  result : ScipyResult

/-- `_update_state(offset, result, gradient)` (`Systems.py:224-246`): returns the result with reshaped fields. -/
noncomputable def updateStateScipy (S : Sys) (offset : ℝ) (gradient : Bool) (r : ScipyResult) : Except PyErr ScipyResult × Sys :=
  let S1 := { S with offset := some offset }
  match shapeMinimisationOutput S1 r.x with
  | .error e => (.error e, S1)
  | .ok x =>
    match evaluate { S1 with disp := some x } x offset true gradient with
    | (.error e, S2) => (.error e, S2)
    | (.ok _, S2) =>
      match shapeMinimisationOutput S2 r.x with
      | .error e => (.error e, S2)
      | .ok x' =>
        match r.jac with
        | none => (.error .attributeError, S2)
        | some j =>
          match shapeMinimisationOutput S2 j with
          | .error e => (.error e, S2)
          | .ok j' => (.ok { r with x := x', jac := some j' }, S2)

/-- `SystemBase.minimize_proxy(offset, …, gradient)` (`Systems.py:248-338`) without a logger. -/
noncomputable def minimizeProxyScipy (S : Sys) (nprocs : ℕ) (offset : ℝ) (init : Option (NdArray ℝ)) (method : String) (gradient : Bool)
    (callbackTrue : Bool) (lbounds : LBounds) (ubounds : Option Masked) (scipy : ScipyCall → ScipyRun) : Except PyErr ScipyResult × Sys :=
  match baseCall S nprocs offset init method callbackTrue lbounds ubounds with
  | .error e => (.error e, S)
  | .ok c =>
    match callAllLogged offset gradient S none (scipy c).points with
    | (.error e, S', _) => (.error e, S')
    | (.ok (), S', _) => updateStateScipy S' offset gradient (scipy c).result

end CM.System
