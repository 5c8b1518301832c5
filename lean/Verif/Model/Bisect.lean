import Verif.Model.CCG
import Mathlib.Algebra.Order.Field.Basic
/-!
# SciPy's bisection

`ConstrainedConjugateGradients.py:316-318` calls `scipy.optimize.bisect(f, a, b)` with default tolerances to find the
rigid offset of the bearing-area solution.  SciPy is not part of the repository; this file models the documented algorithm of
`scipy.optimize.bisect` (`scipy/optimize/Zeros/bisect.c`, unchanged for many years) with its defaults `xtol = 2e-12`,
`rtol = 4 * finfo(float).eps = 2 ** -50`, `maxiter = 100`, `disp = True`.

Simplification: exact numbers instead of floating point numbers (`signbit` of a number is `· < 0`).
-/
namespace CM.CCG
variable {K : Type} [Field K] [LinearOrder K]

/-- Default `xtol` of `scipy.optimize.bisect` (called in `ConstrainedConjugateGradients.py:316`). -/
def scipyXtol : K := 2 / 10 ^ 12

/-- Default `rtol` of `scipy.optimize.bisect` (called in `ConstrainedConjugateGradients.py:316`). -/
def scipyRtol : K := 1 / 2 ^ 50

/-- The loop of `scipy.optimize.bisect` (called in `ConstrainedConjugateGradients.py:316`) with `n` iterations left: halve the interval, keep the half that
starts with the sign of `fa`, stop at a zero or when the interval is short enough.  Without iterations left (`disp=True`) a `RuntimeError` is raised. -/
def bisectLoop (f : K → K) (fa : K) : ℕ → K → K → Except PyErr K
  | 0, _, _ => .error .runtimeError
  | n + 1, xa, dm =>
    let dm := dm / 2
    let xm := xa + dm
    let fm := f xm
    let xa' := if decide (fm < 0) = decide (fa < 0) then xm else xa
    if fm = 0 ∨ pabs dm < scipyXtol + scipyRtol * pabs xm then .ok xm
    else bisectLoop f fa n xa' dm

/-- `scipy.optimize.bisect(f, a, b)` as called in `ConstrainedConjugateGradients.py:316-318`: an end of the interval
where `f` vanishes is returned, equal signs raise `ValueError`, otherwise at most 100 bisections. -/
def scipyBisect (f : K → K) (a b : K) : Except PyErr K :=
  if f a = 0 then .ok a
  else if f b = 0 then .ok b
  else if decide (f a < 0) = decide (f b < 0) then .error .valueError
  else bisectLoop f (f a) 100 a (b - a)

end CM.CCG
