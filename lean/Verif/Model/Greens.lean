import Verif.Model.Py
import Mathlib.LinearAlgebra.Matrix.NonsingularInverse
import Mathlib.LinearAlgebra.Matrix.Notation
import Mathlib.Analysis.SpecialFunctions.Complex.Log
import Mathlib.Analysis.SpecialFunctions.Sqrt
/-!
# `GreensFunctions/Isotropic.py` and `GreensFunctions/Anisotropic.py`

Simplifications that apply to the whole file
* floating point numbers are real or complex numbers; division by zero (a wavevector of length zero) gives zero here and `inf` or `nan` in
  NumPy, so nothing is claimed about it;
* `np.linalg.inv`, `np.linalg.solve`, `np.linalg.det` are exact; a singular matrix raises `LinAlgError`, a subclass of `ValueError`;
* `np.roots`, `np.sqrt` of complex numbers and `scipy.linalg.null_space` are parameters (`Lapack`), specified in `Spec/Greens`.
-/
namespace CM.Greens

open Matrix

/-- 3x3 matrices. -/
abbrev M3 := Matrix (Fin 3) (Fin 3) ℂ

/-! ## Isotropic -/

/-- `_greens_function` (`Isotropic.py:50-62`). -/
noncomputable def isoG (mu nu qx qy : ℝ) : M3 :=
  let q := √(qx ^ 2 + qy ^ 2)
  let c : ℂ := Complex.I * ((1 - 2 * nu : ℝ) : ℂ)
  (((1 / mu : ℝ) : ℂ)) • !![((1 / q - nu * qx ^ 2 / q ^ 3 : ℝ) : ℂ), ((-nu * qx * qy / q ^ 3 : ℝ) : ℂ), c * (qx : ℂ) / ((2 * q ^ 2 : ℝ) : ℂ);
    ((-nu * qx * qy / q ^ 3 : ℝ) : ℂ), ((1 / q - nu * qy ^ 2 / q ^ 3 : ℝ) : ℂ), c * (qy : ℂ) / ((2 * q ^ 2 : ℝ) : ℂ);
    -c * (qx : ℂ) / ((2 * q ^ 2 : ℝ) : ℂ), -c * (qy : ℂ) / ((2 * q ^ 2 : ℝ) : ℂ), (((1 - nu) / q : ℝ) : ℂ)]

/-- `np.linalg.inv`. -/
noncomputable def inv (A : M3) : Except PyErr M3 := by
  classical
  exact if A.det = 0 then .error .valueError else .ok A⁻¹

/-- `_stiffness` (`Isotropic.py:64-67`). -/
noncomputable def isoK (mu nu qx qy : ℝ) : Except PyErr M3 :=
  if |qx| < 1e-6 ∧ |qy| < 1e-6 then .ok 0 else inv (isoG mu nu qx qy)

/-- A wavevector component as passed by the user: a number or a vector of numbers. -/
inductive Arg where
  | num (x : ℝ)
  | vec (l : List ℝ)

/-- What is returned: one matrix or several. -/
inductive Res where
  | one (A : M3)
  | many (l : List M3)

/-- The loop over wavevectors of both methods (`Isotropic.py:69-76`, `78-85`).  A number cannot be iterated over. -/
noncomputable def overWaves (f : ℝ → ℝ → Except PyErr M3) : Arg → Arg → Except PyErr Res
  | .num x, .num y => do
    let A ← f x y
    pure (.one A)
  | .vec xs, .vec ys => do
    let l ← (xs.zip ys).mapM fun p => f p.1 p.2
    pure (.many l)
  | _, _ => .error .typeError

/-- `greens_function` (`Isotropic.py:69-76`). -/
noncomputable def isoGreens (mu nu : ℝ) (qx qy : Arg) : Except PyErr Res := overWaves (fun x y => .ok (isoG mu nu x y)) qx qy

/-- `stiffness` and `__call__` (`Isotropic.py:78-87`). -/
noncomputable def isoStiffness (mu nu : ℝ) (qx qy : Arg) : Except PyErr Res := overWaves (isoK mu nu) qx qy

/-! ## Anisotropic -/

/-- Index of `elasticity_tensor` (`Anisotropic.py:84-89`). -/
def voigt (i j : Fin 3) : Fin 6 := if h : i = j then Fin.castLE (by decide) i else ⟨6 - i.val - j.val, by revert i j; decide⟩

/-- The table of `voigt_from_tensor` (`Anisotropic.py:93-102`). -/
def unvoigt : Fin 6 → Fin 3 × Fin 3
  | 0 => (0, 0)
  | 1 => (1, 1)
  | 2 => (2, 2)
  | 3 => (1, 2)
  | 4 => (0, 2)
  | 5 => (0, 1)

/-- Elastic constants as passed by the user: Python or NumPy integers, or floats. -/
structure Constants where
  c11 : ℝ
  c12 : ℝ
  c44 : ℝ
  ints : Bool

/-- `self._C` before the rotation (`Anisotropic.py:62-67`). -/
def cubic (c : Constants) : Fin 6 → Fin 6 → ℝ := fun I J =>
  if I.val < 3 ∧ J.val < 3 then (if I = J then c.c11 else c.c12) else if I = J then c.c44 else 0

/-- A constructed object. -/
structure Aniso where
  C : Fin 6 → Fin 6 → ℝ
  thickness : Option ℝ

/-- `elasticity_tensor` (`Anisotropic.py:83-90`). -/
def tensor (C : Fin 6 → Fin 6 → ℝ) (i j k l : Fin 3) : ℝ := C (voigt i j) (voigt k l)

/-- `np.einsum('ig,jh,ghmn,km,ln', R, R, C, R, R)` (`Anisotropic.py:77-79`). -/
def rotated (R : Fin 3 → Fin 3 → ℝ) (T : Fin 3 → Fin 3 → Fin 3 → Fin 3 → ℝ) (i j k l : Fin 3) : ℝ :=
  ∑ g, ∑ h, ∑ m, ∑ n, R i g * R j h * T g h m n * R k m * R l n

/-- Assignment to an element of `self._C`: a vector of integers keeps the integer part. -/
noncomputable def stored (ints : Bool) (x : ℝ) : ℝ := if ints then (if 0 ≤ x then ((⌊x⌋ : ℤ) : ℝ) else ((⌈x⌉ : ℤ) : ℝ)) else x

/-- `np.isclose(det_R, 1.0)`. -/
noncomputable def closeToOne (d : ℝ) : Bool := decide (|d - 1| ≤ 1e-8 + 1e-5)

/-- The constructor (`Anisotropic.py:35-81`). -/
noncomputable def construct (c : Constants) (thickness : Option ℝ) (R : Fin 3 → Fin 3 → ℝ) : Except PyErr Aniso :=
  if closeToOne (Matrix.det (Matrix.of R)) = true then
    .ok ⟨fun I J => stored c.ints (rotated R (tensor (cubic c)) (unvoigt I).1 (unvoigt I).2 (unvoigt J).1 (unvoigt J).2), thickness⟩
  else .error .valueError

/-- `bulkop` (`Anisotropic.py:105-123`). -/
noncomputable def bulkop (A : Aniso) (qx qy qz : ℂ) : M3 := fun i l =>
  ∑ j, ∑ k, -((tensor A.C i j k l : ℝ) : ℂ) * (![qx, qy, qz] j) * (![qx, qy, qz] k)

/-- The external routines. -/
structure Lapack where
  /-- `np.roots([a, b, c, d])` -/
  roots : (Fin 4 → ℂ) → List ℂ
  /-- `np.sqrt` -/
  sqrt : ℂ → ℂ
  /-- columns of `null_space(M, rcond)` -/
  nullSpace : M3 → List (Fin 3 → ℂ)

/-- The matrix of `find_eigenvalues` (`Anisotropic.py:134-140`). -/
def sampleMatrix : Matrix (Fin 4) (Fin 4) ℂ := !![0, 0, 0, 1; 1, 1, 1, 1; 64, 16, 4, 1; 729, 81, 9, 1]

/-- The coefficients (`Anisotropic.py:141-145`), highest power first. -/
noncomputable def coefficients (A : Aniso) (qx qy : ℝ) : Fin 4 → ℂ :=
  sampleMatrix⁻¹ *ᵥ ![(bulkop A qx qy 0).det, (bulkop A qx qy Complex.I).det, (bulkop A qx qy (Complex.I * 2)).det, (bulkop A qx qy (Complex.I * 3)).det]

/-- `find_eigenvalues` (`Anisotropic.py:125-150`). -/
noncomputable def findEigenvalues (L : Lapack) (A : Aniso) (qx qy : ℝ) : List ℂ := (L.roots (coefficients A qx qy)).map L.sqrt

/-- One pass of `find_eigenvectors` (`Anisotropic.py:154-162`). -/
noncomputable def eigenvector (L : Lapack) (A : Aniso) (qx qy : ℝ) (qz : ℂ) : Except PyErr (Fin 3 → ℂ) :=
  match L.nullSpace (bulkop A qx qy qz) with
  | [e] => .ok e
  | _ => .error .runtimeError

/-- `find_eigenvectors` (`Anisotropic.py:152-163`). -/
noncomputable def findEigenvectors (L : Lapack) (A : Aniso) (qx qy : ℝ) (qz : List ℂ) : Except PyErr (List (Fin 3 → ℂ)) := qz.mapM (eigenvector L A qx qy)

/-- A mode: `qz` and its vector. -/
abbrev Mode := ℂ × (Fin 3 → ℂ)

/-- `_make_U` at the surface (`Anisotropic.py:165-169`). -/
def makeU {n : ℕ} (modes : Fin n → Mode) : Matrix (Fin 3) (Fin n) ℂ := fun k a => (modes a).2 k

/-- The first three rows of `_make_F` (`Anisotropic.py:175-181`). -/
noncomputable def traction (A : Aniso) (qx qy : ℝ) {n : ℕ} (modes : Fin n → Mode) : Matrix (Fin 3) (Fin n) ℂ := fun i a =>
  ∑ k, ∑ l, Complex.I * ((tensor A.C i 2 k l : ℝ) : ℂ) * (![(qx : ℂ), (qy : ℂ), (modes a).1] k) * (modes a).2 l

/-- The last three rows of `_make_F` for a finite thickness (`Anisotropic.py:182-186`). -/
noncomputable def bottom (thickness : ℝ) {n : ℕ} (modes : Fin n → Mode) : Matrix (Fin 3) (Fin n) ℂ := fun i a =>
  Complex.exp (-Complex.I * (modes a).1 * (thickness : ℂ)) * (modes a).2 i

/-- `_make_F` for six modes (`Anisotropic.py:175-187`). -/
noncomputable def makeF6 (A : Aniso) (qx qy thickness : ℝ) (modes : Fin 6 → Mode) : Matrix (Fin 6) (Fin 6) ℂ := fun i a =>
  if h : i.val < 3 then traction A qx qy modes ⟨i.val, h⟩ a else bottom thickness modes ⟨i.val - 3, by omega⟩ a

/-- `thickness is None or np.max(np.real(thickness * _qz)) > exp_tol` (`Anisotropic.py:194`). -/
def Deep (thickness : Option ℝ) (ev : List ℂ) : Prop :=
  match thickness with
  | none => True
  | some t => ∃ q ∈ ev, 100 < t * q.re

/-- Wavenumbers along the normal (`Anisotropic.py:190-197`): three for a half-space, six for a layer. -/
noncomputable def normalWaves (thickness : Option ℝ) (ev : List ℂ) : List ℂ := by
  classical
  exact if Deep thickness ev then ev.map (fun q => -Complex.I * q) else ev.map (fun q => -Complex.I * q) ++ ev.map (fun q => Complex.I * q)

/-- The modes of `_make_U_and_F` (`Anisotropic.py:189-199`). -/
noncomputable def modes (L : Lapack) (A : Aniso) (qx qy : ℝ) (thickness : Option ℝ) : Except PyErr (List Mode) := do
  let eta ← findEigenvectors L A qx qy (normalWaves thickness (findEigenvalues L A qx qy))
  pure ((normalWaves thickness (findEigenvalues L A qx qy)).zip eta)

/-- `_gamma_stiffness` (`Anisotropic.py:201-207`); only called with a thickness. -/
noncomputable def gammaStiffness (A : Aniso) (thickness : ℝ) : M3 :=
  ((1 / thickness : ℝ) : ℂ) • !![((A.C 4 4 : ℝ) : ℂ), ((A.C 3 4 : ℝ) : ℂ), ((A.C 2 4 : ℝ) : ℂ); ((A.C 3 4 : ℝ) : ℂ), ((A.C 3 3 : ℝ) : ℂ), ((A.C 2 3 : ℝ) : ℂ);
    ((A.C 2 4 : ℝ) : ℂ), ((A.C 2 3 : ℝ) : ℂ), ((A.C 2 2 : ℝ) : ℂ)]

/-- `np.linalg.solve(F.T, U.T)[:3, :]` for three or six modes; other numbers of modes raise (`Anisotropic.py:214-215`). -/
noncomputable def solveGreens (A : Aniso) (qx qy : ℝ) (thickness : Option ℝ) (ms : List Mode) : Except PyErr M3 := by
  classical
  exact
    if h : ms.length = 3 then
      let m : Fin 3 → Mode := fun a => ms[a.val]'(by omega)
      if (traction A qx qy m).det = 0 then .error .valueError else .ok ((traction A qx qy m)ᵀ⁻¹ * (makeU m)ᵀ)
    else if h : ms.length = 6 then
      match thickness with
      | none => .error .typeError
      | some t =>
        let m : Fin 6 → Mode := fun a => ms[a.val]'(by omega)
        if (makeF6 A qx qy t m).det = 0 then .error .valueError
        else .ok fun i j => ((makeF6 A qx qy t m)ᵀ⁻¹ * (makeU m)ᵀ) (Fin.castLE (by decide) i) j
    else .error .valueError

/-- `_greens_function` (`Anisotropic.py:209-215`).  (`Gamma` with a constructor thickness: `self._thickness` is used, not the argument.) -/
noncomputable def greens1 (L : Lapack) (A : Aniso) (qx qy : ℝ) (thickness : Option ℝ) (tol : ℝ) : Except PyErr M3 :=
  if thickness.isSome ∧ |qx| < tol ∧ |qy| < tol then
    match A.thickness with
    | none => .error .typeError
    | some t => inv (gammaStiffness A t)
  else do
    let ms ← modes L A qx qy thickness
    solveGreens A qx qy thickness ms

/-- `np.linalg.solve(U.T, F.T)` for three modes (`Anisotropic.py:223-225`). -/
noncomputable def solveStiffness (A : Aniso) (qx qy : ℝ) (ms : List Mode) : Except PyErr M3 := by
  classical
  exact
    if h : ms.length = 3 then
      let m : Fin 3 → Mode := fun a => ms[a.val]'(by omega)
      if (makeU m).det = 0 then .error .valueError else .ok ((makeU m)ᵀ⁻¹ * (traction A qx qy m)ᵀ)
    else .error .valueError

/-- `_stiffness` (`Anisotropic.py:217-228`). -/
noncomputable def stiffness1 (L : Lapack) (A : Aniso) (qx qy : ℝ) (thickness : Option ℝ) (tol : ℝ) : Except PyErr M3 :=
  if |qx| < tol ∧ |qy| < tol then
    match thickness with
    | none => .ok 0
    | some _ => match A.thickness with
      | none => .error .typeError
      | some t => .ok (gammaStiffness A t)
  else
    match thickness with
    | none => do
      let ms ← modes L A qx qy none
      solveStiffness A qx qy ms
    | some t => do
      let G ← greens1 L A qx qy (some t) tol
      inv G

/-- Length of the wavevector, one for the zero vector (`Anisotropic.py:233-234`). -/
noncomputable def absQ (qx qy : ℝ) : ℝ := if √(qx ^ 2 + qy ^ 2) = 0 then 1 else √(qx ^ 2 + qy ^ 2)

/-- The loop of both methods over vectors (`Anisotropic.py:230-247`, `249-264`): `abs_q[abs_q == 0] = 1` fails on a number, NumPy vectors of
different lengths can be added only if one has length one (then only the first pair is used), and a number cannot be iterated over. -/
noncomputable def overNormalized (A : Aniso) (f : ℝ → ℝ → Option ℝ → Except PyErr M3) (scale : ℝ → ℂ) : Arg → Arg → Except PyErr Res
  | .num _, .num _ => .error .typeError
  | .vec xs, .vec ys =>
    if xs.length = ys.length ∨ xs.length = 1 ∨ ys.length = 1 then do
      let l ← (xs.zip ys).mapM fun p => do
        let M ← f (p.1 / absQ p.1 p.2) (p.2 / absQ p.1 p.2) (A.thickness.map (· * absQ p.1 p.2))
        pure (scale (absQ p.1 p.2) • M)
      pure (.many l)
    else .error .valueError
  | _, _ => .error .typeError

/-- `greens_function` (`Anisotropic.py:230-247`). -/
noncomputable def anisoGreens (L : Lapack) (A : Aniso) (tol : ℝ) : Arg → Arg → Except PyErr Res :=
  overNormalized A (fun x y t => greens1 L A x y t tol) fun q => ((1 / q : ℝ) : ℂ)

/-- `stiffness` and `__call__` (`Anisotropic.py:249-266`). -/
noncomputable def anisoStiffness (L : Lapack) (A : Aniso) (tol : ℝ) : Arg → Arg → Except PyErr Res :=
  overNormalized A (fun x y t => stiffness1 L A x y t tol) fun q => ((q : ℝ) : ℂ)

end CM.Greens
