import Verif.Model.NetCDF
import Verif.Model.Array
import Mathlib.Data.Nat.Sqrt
/-!
# Trajectories in the AMBER convention

`/repo/ContactMechanics/IO/NetCDF.py:46-122`, `160-213` for a file that has a dimension `atom` instead of `nx` and `ny`.

The libraries are specified: `Dataset.dimensions` of netCDF4 are objects that are not numbers; those of SciPy's `netcdf_file`, which
is used if netCDF4 is not installed, are integers, and `None` for the unlimited dimension.  A variable has, for each frame, an array of
reals.

Simplifications: all variables have the dimension `frame`; the type of a variable is a rounding of the numbers written to it; only
arrays (with at least one dimension) are written, and only to frames that exist; the file is open for appending; private attributes are
not modelled (`KeyError`); `int(sqrt(n))` is the exact integer root (so it is for `n < 2 ^ 52`).
-/
namespace CM.NetCDF
open CM.HS CM.FFT

/-- Which of the two libraries is installed (`NetCDF.py:35-42`). -/
inductive Library where
  | netcdf4
  | scipy
  deriving DecidableEq

/-- A variable: lengths of the dimensions after the frame, rounding of its type, contents. -/
structure AmberVar where
  dims : List ℕ
  rnd : ℝ → ℝ
  data : ℕ → List ℕ → ℝ

/-- A trajectory: length of the dimension `atom`, number of frames, variables. -/
structure Trajectory where
  atoms : ℕ
  frames : ℕ
  vars : String → Option AmberVar

/-- A `NetCDFContainer` whose `_is_amber` is true: `_shape` is `(n, n)` (`NetCDF.py:196-204`). -/
structure Amber where
  traj : Trajectory
  n : ℕ
  cur : ℕ

/-- `NetCDFContainer.__init__` for such a file (`NetCDF.py:160-213`).  netCDF4: `sqrt` of an object that is not a number.  A negative
`frame` needs `len(self)`, which is `None` with SciPy. -/
def openAmber (lib : Library) (t : Trajectory) (fr : ℤ) : Except PyErr Amber :=
  match lib with
  | .netcdf4 => .error .typeError
  | .scipy =>
    let nx := t.atoms.sqrt
    if nx * nx = t.atoms then
      (if fr < 0 then .error .typeError else .ok ⟨t, nx, fr.toNat⟩)
    else .error .assertionError

/-- `container[i]` (`NetCDF.py:46-50`, `368-374`): the number of frames is not known. -/
def amberFrame (_C : Amber) (i : ℤ) : Except PyErr ℕ := if i < 0 then .error .typeError else .ok i.toNat

/-- `_mangle_name` (`NetCDF.py:92-99`). -/
def mangle (name : String) : String := if name = "u" then "coordinates" else if name = "f" then "forces" else name

/-- `frame[name]` (`NetCDF.py:101-112`).  A number has no shape that could be set. -/
def amberGet (C : Amber) (i : ℕ) (name : String) : Except PyErr (NdArray ℝ) :=
  if name = "" then .error .indexError
  else if isPrivate name then .error .keyError
  else
    match C.traj.vars (mangle name) with
    | none => .error .keyError
    | some v =>
      if C.traj.frames ≤ i then .error .indexError
      else if v.dims = [] then .error .attributeError
      else reshape ⟨v.dims, v.data i⟩ [C.n, C.n, 3]

/-- Assignment of an array to one of shape `dims`: superfluous axes in front must have length one, the others are broadcast. -/
def assignShape (dims : List ℕ) (v : NdArray ℝ) : Except PyErr (List ℕ → ℝ) :=
  let s := v.shape.drop (v.shape.length - dims.length)
  if (v.shape.take (v.shape.length - dims.length)).all (· = 1) = true ∧ bcastRev s.reverse dims.reverse = some dims.reverse then
    .ok fun x => v.get (List.replicate (v.shape.length - dims.length) 0 ++ bcastIndex s x)
  else .error .valueError

/-- `frame[name] = v` (`NetCDF.py:114-122`); a new variable would need the dimensions `nx` and `ny` (`NetCDF.py:52-90`). -/
def amberSet (C : Amber) (i : ℕ) (name : String) (v : NdArray ℝ) : Except PyErr Amber :=
  if name = "" then .error .indexError
  else if isPrivate name then .error .keyError
  else
    match C.traj.vars (mangle name) with
    | none => if v.shape = [C.n, C.n] then .error .keyError else .error .runtimeError
    | some var =>
      if C.traj.frames ≤ i then .error .indexError
      else
        match assignShape var.dims v with
        | .error e => .error e
        | .ok g => .ok { C with traj := { C.traj with vars := fun s => if s = mangle name then some { var with
            data := fun j x => if j = i then var.rnd (g x) else var.data j x } else C.traj.vars s } }

end CM.NetCDF
