import Verif.Model.CLI
import Verif.Model.EndToEnd
/-!
# The command line front-end: units, and the package's own solver

Continues `Model/CLI` with the parts of `/repo/ContactMechanics/CommandLineInterface/HardWall.py` that choose the unit, scale
the heights and say in which unit forces are reported, and with the front-end run on the model of
`constrained_conjugate_gradients` (`Model/CCG`).

Simplifications: reading the file and detrending are not modelled; the reader is its default channel's unit and the topography it
returns; the package SurfaceTopography refuses some combinations of units and sizes, which is not modelled.
-/
namespace CM.Cli
open CM.HS CM.FFT CM.System CM.Pipe

/-- `unit_to_meters[name]` (`HardWall.py:54-57`); `KeyError` for another name. -/
noncomputable def unitToMeters (name : String) : Except PyErr ℝ :=
  if name = "A" then .ok (10 ^ (-10 : ℤ))
  else if name = "nm" then .ok (10 ^ (-9 : ℤ))
  else if name = "µm" then .ok (10 ^ (-6 : ℤ))
  else if name = "mm" then .ok (10 ^ (-3 : ℤ))
  else if name = "m" then .ok 1
  else if name = "unknown" then .ok 1
  else .error .keyError

/-- Options of the front-end on units (`HardWall.py:281-292`). -/
structure UnitArgs where
  sizeUnit : Option String := none
  heightFac : Option ℝ := none
  heightUnit : Option String := none

/-- `surface.unit` (`HardWall.py:359-368`): `--physical_sizes-unit`, else the unit in the file, else `'N/A'`. -/
def surfaceUnit (fileUnit : Option String) (A : UnitArgs) : String :=
  match A.sizeUnit with
  | some u => u
  | none =>
    match fileUnit with
    | none => "N/A"
    | some u => u

/-- The factor `fac` (`HardWall.py:371-375`); the left operand of the quotient is looked up first. -/
noncomputable def heightFactor (unit : String) (A : UnitArgs) : Except PyErr ℝ := do
  let fac : ℝ := match A.heightFac with
    | some x => 1 * x
    | none => 1
  match A.heightUnit with
  | some hu => do
    let a ← unitToMeters hu
    let b ← unitToMeters unit
    pure (fac * (a / b))
  | none => pure fac

/-- Heights the calculation starts from (`HardWall.py:368-377`); `surface.scale(fac)` of SurfaceTopography multiplies heights. -/
noncomputable def scaledHeights (fileUnit : Option String) (A : UnitArgs) (h : NdArray ℝ) : Except PyErr (NdArray ℝ) :=
  if A.heightFac.isSome ∨ A.heightUnit.isSome then do
    let fac ← heightFactor (surfaceUnit fileUnit A) A
    pure (h.map (fac * ·))
  else .ok h

/-- What the headers say about the unit of pressures (`HardWall.py:164-179`, `208-212`): `none` for "in units of E*", `some E` for
"contact modulus E*=E". -/
noncomputable def statedModulus (sub : Substrate) : Option ℝ :=
  open Classical in if sub.hs.mat.young = 1 then none else some sub.hs.mat.young

/-- The solver of a command line run: CCG, with its default parameters, on the substrate of that run (`HardWall.py:133`, `453`,
`502`; `Systems.py:572-599`).  Without a substrate `main` fails before it calls any solver. -/
noncomputable def cliSolver (T : Topo) (rms : NdArray ℝ → ℝ) (bisect : Bisect) (A : CliArgs) : Solver :=
  match cliSubstrate T A with
  | .error e => fun _ => .error e
  | .ok sub => ccgSolver sub rms bisect {}

/-- `main` after the topography has been read, with the package's own solver. -/
noncomputable def hardWallCCG (T : Topo) (rms : NdArray ℝ → ℝ) (bisect : Bisect) (A : CliArgs) : Except PyErr Unit × List Output :=
  hardWall T solverKeywords (cliSolver T rms bisect A) A

end CM.Cli
