import Verif.Model.Reference
import Mathlib.MeasureTheory.Integral.IntervalIntegral.Basic
import Mathlib.Analysis.SpecialFunctions.Trigonometric.Basic
import Mathlib.Analysis.SpecialFunctions.Exp
/-!
# `ReferenceSolutions/GreenwoodTripp.py`

Simplifications that apply to the whole file
* floating point numbers are real numbers;
* `scipy.integrate.quad` is the integral, `ellipk` and `ellipe` are the complete elliptic integrals;
* `scipy.integrate.simpson` and `scipy.interpolate.interp1d` are parameters (`Scipy`);
* at a division by zero NumPy returns `inf` or `nan` and the definitions below return some real number: nothing is claimed there.
-/
namespace CM.Ref.GreenwoodTripp

open Real MeasureTheory

/-- The default of the parameter `phi` (`GreenwoodTripp.py:44`). -/
noncomputable def gauss (s : ℝ) : ℝ := rexp (-s ^ 2 / 2) / (2 * π) ^ (1 / 2 : ℝ)

/-- `_Fn` and `Fn` of a number (`GreenwoodTripp.py:39-53`).  With vectors it works entry by entry. -/
noncomputable def Fn (h n : ℝ) (phi : ℝ → ℝ) : ℝ := ∫ s in Set.Ioi h, (s - h) ^ n * phi s

/-- `scipy.special.ellipk`: the complete elliptic integral of the first kind of the parameter `m`. -/
noncomputable def ellipk (m : ℝ) : ℝ := ∫ t in (0 : ℝ)..π / 2, 1 / √(1 - m * sin t ^ 2)

/-- `scipy.special.ellipe`: the complete elliptic integral of the second kind. -/
noncomputable def ellipe (m : ℝ) : ℝ := ∫ t in (0 : ℝ)..π / 2, √(1 - m * sin t ^ 2)

/-- The local function `B` of `s` (`GreenwoodTripp.py:70-71`). -/
noncomputable def B (x : ℝ) : ℝ := ellipe (x ^ 2) + (x ^ 2 - 1) * ellipk (x ^ 2)

/-- `s` at one entry (`GreenwoodTripp.py:57-83`).  The four masks do not overlap if `ξ1 ≤ 1 ≤ ξ2`; later assignments win. -/
noncomputable def sAt (x x1 x2 : ℝ) : ℝ :=
  if 1 ≤ x ∧ ¬ x2 < x then 2 / π * x * ellipe (1 / x ^ 2)
  else if x < 1 ∧ ¬ x < x1 then 2 / π * B x
  else if x2 < x then x
  else if x < x1 then x ^ 2 / 2
  else 0

/-- What the user passes: a Python float or a NumPy vector, of integers or of floats. -/
inductive Arg where
  | num (x : ℝ)
  | vec (ints : Bool) (l : List ℝ)

/-- `s` (`GreenwoodTripp.py:57-83`): a Python float cannot be indexed by a mask. -/
noncomputable def s (x1 x2 : ℝ) : Arg → Except PyErr (List ℝ)
  | .num _ => .error .typeError
  | .vec ints l => .ok (elementwise ints (fun x => sAt x x1 x2) l)

/-- Is an entry handled by the root finder of `ξ`? (`GreenwoodTripp.py:95-97`) -/
def Middle (x s1 s2 : ℝ) : Prop := ¬ x < s1 ∧ ¬ s2 < x

/-- `ξ` (`GreenwoodTripp.py:87-102`).  In `ξnum` the name `s` is the argument, a vector, and not the function `s`: the first call raises
`TypeError`.  A Python float cannot be indexed by a mask. -/
noncomputable def xi (s1 s2 : ℝ) : Arg → Except PyErr (List ℝ)
  | .num _ => .error .typeError
  | .vec ints l => by
    classical
    exact if ∃ x ∈ l, Middle x s1 s2 then .error .typeError
      else .ok (elementwise ints (fun x => if s2 < x then x else if x < s1 then √(2 * x) else 0) l)

/-- The external routines. -/
structure Scipy where
  /-- `simpson(y, x=x)` -/
  simpson : {n : ℕ} → (y x : Fin n → ℝ) → ℝ
  /-- `interp1d(x, y)(t)` -/
  interp : {n : ℕ} → (x y : Fin n → ℝ) → ℝ → Except PyErr ℝ

/-- `np.linspace(0, b, n)`. -/
noncomputable def linspace (b : ℝ) (n : ℕ) : Fin n → ℝ := fun i => b * i / ((n - 1 : ℕ) : ℝ)

/-- Parameters of `GreenwoodTripp` (`GreenwoodTripp.py:105`). -/
structure Params where
  d : ℝ
  mu : ℝ
  rhomax : ℝ
  n : ℕ
  eps : ℝ
  tol : ℝ
  mix : ℝ
  maxiter : ℤ

/-- The radii (`GreenwoodTripp.py:142`). -/
noncomputable def Params.rho (P : Params) : Fin P.n → ℝ := linspace P.rhomax P.n

/-- Greenwood and Williamson's law at the gap given by the displacement (`GreenwoodTripp.py:154`, `166`). -/
noncomputable def pressure (P : Params) (w : Fin P.n → ℝ) (w0 : ℝ) : Fin P.n → ℝ := fun i =>
  P.mu * Fn (P.d + P.rho i ^ 2 + w i - w0) (3 / 2) gauss

/-- One entry of the displacement (`GreenwoodTripp.py:158-163`). -/
noncomputable def displacementAt (S : Scipy) (P : Params) (p : Fin P.n → ℝ) (w0 : ℝ) (i : Fin P.n) : Except PyErr ℝ :=
  if i.val = 0 then .ok w0
  else do
    let x := linspace ((P.rhomax - P.eps) / P.rho i) P.n
    let f ← (List.finRange P.n).mapM fun j => S.interp P.rho p (P.rho i * x j)
    pure (S.simpson (fun j : Fin P.n => P.rho i * f.getD j.val 0) fun j => sAt (x j) 1e-5 1e5)

/-- The displacement of a pressure (`GreenwoodTripp.py:155-163`). -/
noncomputable def displacement (S : Scipy) (P : Params) (p : Fin P.n → ℝ) : Except PyErr ((Fin P.n → ℝ) × ℝ) := do
  let w0 := S.simpson p P.rho
  let w ← (List.finRange P.n).mapM fun i => displacementAt S P p w0 i
  pure (fun i => w.getD i.val 0, w0)

/-- The state of the loop. -/
structure State (n : ℕ) where
  w : Fin n → ℝ
  w0 : ℝ
  p : Fin n → ℝ
  pold : Fin n → ℝ

/-- `np.abs(p - pold).max() > tol` (`GreenwoodTripp.py:148`), for at least one point. -/
def Moving {n : ℕ} (tol : ℝ) (st : State n) : Prop := ∃ i, tol < |st.p i - st.pold i|

/-- The mixed pressure (`GreenwoodTripp.py:154`). -/
noncomputable def mixed (P : Params) (st : State P.n) : Fin P.n → ℝ := fun i => P.mix * pressure P st.w st.w0 i + (1 - P.mix) * st.p i

/-- One pass of the loop (`GreenwoodTripp.py:153-163`). -/
noncomputable def pass (S : Scipy) (P : Params) (st : State P.n) : Except PyErr (State P.n) := do
  let p := mixed P st
  let (w, w0) ← displacement S P p
  pure ⟨w, w0, p, st.p⟩

/-- The loop (`GreenwoodTripp.py:148-164`); `fuel` is `maxiter + 1 - it`. -/
noncomputable def loop (S : Scipy) (P : Params) : (fuel : ℕ) → State P.n → Except PyErr (State P.n)
  | 0, st => by
    classical
    exact if Moving P.tol st then .error .runtimeError else .ok st
  | k + 1, st => by
    classical
    exact if Moving P.tol st then pass S P st >>= loop S P k else .ok st

/-- The state before the loop (`GreenwoodTripp.py:143-147`). -/
def start (n : ℕ) : State n := ⟨fun _ => 0, 0, fun _ => 0, fun _ => 0 + 1⟩

/-- `GreenwoodTripp` (`GreenwoodTripp.py:105-167`): displacement, pressure, radius.  The maximum of an empty vector raises `ValueError`. -/
noncomputable def solve (S : Scipy) (P : Params) : Except PyErr ((Fin P.n → ℝ) × (Fin P.n → ℝ) × (Fin P.n → ℝ)) :=
  if P.n = 0 then .error .valueError
  else do
    let st ← loop S P (P.maxiter + 1).toNat (start P.n)
    pure (fun i => st.w i - st.w0, pressure P st.w st.w0, P.rho)

end CM.Ref.GreenwoodTripp
