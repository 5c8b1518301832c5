import Verif.Model.Systems
/-!
# The displacement-controlled minimisation of `SystemBase`

Model of `SystemBase.minimize_proxy`, `SystemBase._update_state`, `SystemBase.callback` and
`NonSmoothContactSystem.hessian_product` (`/repo/ContactMechanics/Systems.py`).  `NonSmoothContactSystem` overrides
`minimize_proxy`; the base method is reached through `SystemBase.minimize_proxy(system, …)` and by subclasses that do not override it.

Simplifications: `gradient=True` (the default) only, no logger, no further keyword arguments; the optimiser is third-party code
(`scipy.optimize.minimize`), described by the points at which it calls the objective and by its result.
-/
namespace CM.System
open CM.HS CM.FFT

/-- `hessian_product` (`Systems.py:551-570`). -/
noncomputable def hessianProduct (S : Sys) (disp : NdArray ℝ) : Except PyErr (NdArray ℝ) := primalHessianProduct S disp

/-- The `lbounds` argument: missing, a string, or an array. -/
inductive LBounds where
  | missing
  | text (s : String)
  | array (m : Masked)

/-- What `scipy.optimize.minimize` is called with, apart from the objective: start, method and bounds (`none` where the keyword is
not passed or `None`). -/
structure ScipyCall where
  x0 : NdArray ℝ
  method : String
  bounds : Option Bounds

/-- `bounded_minimizers` (`Systems.py:321`). -/
def boundedMinimizers : List String := ["L-BFGS-B", "TNC", "SLSQP"]

/-- `SystemBase.minimize_proxy` up to the call of the optimiser (`Systems.py:294-334`) on `nprocs` processes; `callbackTrue`: the
argument `callback` is `True` (`callback` raises `NotImplementedError`, `Systems.py:360-368`). -/
noncomputable def baseCall (S : Sys) (nprocs : ℕ) (offset : ℝ) (init : Option (NdArray ℝ)) (method : String) (callbackTrue : Bool)
    (lbounds : LBounds) (ubounds : Option Masked) : Except PyErr ScipyCall := do
  if 1 < nprocs then throw .valueError
  let x0 ← shapeMinimisationInput S (init.getD ⟨S.sub.hs.domain, fun _ => 0⟩)
  if callbackTrue then throw .notImplemented
  let lb ← match lbounds with
    | .missing => pure none
    | .array m => pure (some m)
    | .text s => if s = "auto" then pure (some (lboundsFromHeights S offset)) else throw .valueError
  let bnds := reshapeBounds lb ubounds
  pure ⟨x0, method, if method ∈ boundedMinimizers then bnds else none⟩

/-- `_update_state` (`Systems.py:224-246`): returns the result with reshaped fields. -/
noncomputable def updateState (S : Sys) (offset : ℝ) (r : OptResult) : Except PyErr OptResult × Sys :=
  let S1 := { S with offset := some offset }
  match shapeMinimisationOutput S1 r.x with
  | .error e => (.error e, S1)
  | .ok x =>
    match evaluate { S1 with disp := some x } x offset true true with
    | (.error e, S2) => (.error e, S2)
    | (.ok _, S2) =>
      match shapeMinimisationOutput S2 r.x, shapeMinimisationOutput S2 r.jac with
      | .ok x', .ok j => (.ok { r with x := x', jac := j }, S2)
      | .error e, _ => (.error e, S2)
      | _, .error e => (.error e, S2)

/-- `SystemBase.minimize_proxy` (`Systems.py:248-338`). -/
noncomputable def baseMinimizeProxy (S : Sys) (nprocs : ℕ) (offset : ℝ) (init : Option (NdArray ℝ)) (method : String)
    (callbackTrue : Bool) (lbounds : LBounds) (ubounds : Option Masked) (scipy : ScipyCall → SolverRun) :
    Except PyErr OptResult × Sys :=
  match baseCall S nprocs offset init method callbackTrue lbounds ubounds with
  | .error e => (.error e, S)
  | .ok c =>
    match callAll (fun S => objective S offset) S (scipy c).points with
    | (.error e, S') => (.error e, S')
    | (.ok (), S') => updateState S' offset (scipy c).result

end CM.System
