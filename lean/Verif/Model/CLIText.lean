import Verif.Model.CLIRun
import Verif.Model.Logger
/-!
# The command line: from the words typed to the calculation

`CommandLineInterface/HardWall.py:233-417`: the option table given to `ArgumentParser`, Python's `argparse` applied to it, and
`main` from the list of words on.

`argparse` is modelled by its documented behaviour: a word that begins with `-` is an option if it is the name of an option, `name=value`,
or such with a name that is shortened to a beginning no other option has; otherwise it is a value if it looks like a negative number or
contains a blank; an option with a value takes the next word if that is no option; every error ends the program (`SystemExit`) before
`main` goes on.

Simplifications: the word `--` alone is treated as an error; `float` and `int` of Python are the parameters `toFloat`, `toInt`, without
`inf` and `nan`; exit codes and messages are not modelled, neither are failures of opening the log and NetCDF files.
-/
namespace CM.Cli
open CM.HS CM.Log CM.FFT CM.System CM.Pipe

/-- What the program finds on the host: Python's `float`, `int` (no value: `ValueError`), argparse's test for negative numbers (it depends
on the version of Python), `open_topography` and the reader's default unit and `topography`, `detrend`, `np.ravel(np.loadtxt(...))`, and as in
`Model/CLIRun` the root mean square height and SciPy's `bisect`. -/
structure Host where
  toFloat : Text → Option ℝ
  toInt : Text → Option ℤ
  looksNegative : Text → Bool
  unitOf : Text → Except PyErr (Option String)
  topography : Text → Option (ℝ × ℝ) → Except PyErr Topo
  detrend : Text → Topo → Except PyErr Topo
  loadtxt : Text → Except PyErr (List ℝ)
  rms : NdArray ℝ → ℝ
  bisect : Bisect

/-- The options (`HardWall.py:249-323`); `help` is added by `argparse`. -/
inductive Opt
  | help | detrend | boundary | modulus | poisson | thickness | hardness | maxiter | displacement | pressure | pressureFromFile
  | physicalSizes | physicalSizesUnit | heightFac | heightUnit | pentol | contactFn | pressureFn | displFn | gapFn | logFn | netcdfFn
  | verbose
  deriving DecidableEq

/-- All options, in the order of the calls of `add_argument` (`HardWall.py:249-321`). -/
def Opt.all : List Opt :=
  [.help, .detrend, .boundary, .modulus, .poisson, .thickness, .hardness, .maxiter, .displacement, .pressure, .pressureFromFile,
   .physicalSizes, .physicalSizesUnit, .heightFac, .heightUnit, .pentol, .contactFn, .pressureFn, .displFn, .gapFn, .logFn, .netcdfFn,
   .verbose]

/-- Names of the options (`HardWall.py:249-321`). -/
def Opt.name : Opt → Text
  | .help => "--help".toList
  | .detrend => "--detrend".toList
  | .boundary => "--boundary".toList
  | .modulus => "--modulus".toList
  | .poisson => "--poisson".toList
  | .thickness => "--thickness".toList
  | .hardness => "--hardness".toList
  | .maxiter => "--maxiter".toList
  | .displacement => "--displacement".toList
  | .pressure => "--pressure".toList
  | .pressureFromFile => "--pressure-from-file".toList
  | .physicalSizes => "--physical_sizes".toList
  | .physicalSizesUnit => "--physical_sizes-unit".toList
  | .heightFac => "--height-fac".toList
  | .heightUnit => "--height-unit".toList
  | .pentol => "--pentol".toList
  | .contactFn => "--contact-fn".toList
  | .pressureFn => "--pressure-fn".toList
  | .displFn => "--displ-fn".toList
  | .gapFn => "--gap-fn".toList
  | .logFn => "--log-fn".toList
  | .netcdfFn => "--netcdf-fn".toList
  | .verbose => "--verbose".toList

/-- The result of `parser.parse_args()` with the defaults of `HardWall.py:248-323`. -/
structure Namespace where
  filename : Text
  detrend : Option Text := none
  boundary : Text := "periodic".toList
  modulus : ℝ := 1
  poisson : ℝ := 0
  thickness : Option ℝ := none
  hardness : Option ℝ := none
  maxiter : ℤ := 1000
  displacement : Option Text := none
  pressure : Option Text := none
  pressureFromFn : Option Text := none
  physicalSizes : Option (ℝ × ℝ) := none
  sizeUnit : Option Text := none
  heightFac : Option ℝ := none
  heightUnit : Option Text := none
  pentol : Option ℝ := none
  contactFn : Option Text := none
  pressureFn : Option Text := none
  displFn : Option Text := none
  gapFn : Option Text := none
  logFn : Text := "hard_wall.out".toList
  netcdfFn : Option Text := none
  verbose : Bool := false

/-- What `argparse` takes a word for. -/
inductive Token
  | value (s : Text)
  | option (o : Opt) (explicit : Option Text)
  | error

/-- The word before the first `=` and, if there is one, what follows it. -/
def splitEq (s : Text) : Text × Option Text :=
  (s.takeWhile (· ≠ '='), if '=' ∈ s then some (s.dropWhile (· ≠ '=')).tail else none)

/-- `ArgumentParser._parse_optional` (Python library). -/
def classify (looksNegative : Text → Bool) (s : Text) : Token :=
  match s with
  | '-' :: t =>
    match Opt.all.find? (fun o => o.name = s) with
    | some o => .option o none
    | none =>
      if t = [] then .value s
      else if t.head? = some 'h' then .option .help none
      else
        match Opt.all.find? (fun o => o.name = (splitEq s).1) with
        | some o => .option o (splitEq s).2
        | none =>
          match (if t.head? = some '-' then Opt.all.filter (fun o => (splitEq s).1.isPrefixOf o.name) else []) with
          | [o] => .option o (splitEq s).2
          | _ :: _ :: _ => .error
          | [] => if looksNegative s then .value s else if ' ' ∈ s then .value s else .error
  | _ => .value s

/-- `ArgumentParser.parse_args` (Python library): the file name and the options with the texts of their values, in the order given.
`--verbose` has no value. -/
def consume : List Token → Option Text → List (Opt × Text) → Except PyErr (Text × List (Opt × Text))
  | [], some f, st => .ok (f, st)
  | [], none, _ => .error .systemExit
  | .value s :: ts, none, st => consume ts (some s) st
  | .value _ :: _, some _, _ => .error .systemExit
  | .error :: _, _, _ => .error .systemExit
  | .option .help _ :: _, _, _ => .error .systemExit
  | .option .verbose none :: ts, f, st => consume ts f (st ++ [(.verbose, [])])
  | .option .verbose (some _) :: _, _, _ => .error .systemExit
  | .option o (some v) :: ts, f, st => consume ts f (st ++ [(o, v)])
  | .option o none :: .value v :: ts, f, st => consume ts f (st ++ [(o, v)])
  | .option _ none :: _, _, _ => .error .systemExit

/-- A conversion that fails ends the program. -/
def orExit {α : Type} : Option α → Except PyErr α
  | some x => .ok x
  | none => .error .systemExit

/-- `tuple2` (`HardWall.py:233-240`). -/
def tuple2 (H : Host) (s : Text) : Option (ℝ × ℝ) :=
  match s.splitOn ',' with
  | [a, b] =>
    match H.toFloat a, H.toFloat b with
    | some x, some y => some (x, y)
    | _, _ => none
  | _ => none

/-- One option sets its attribute, converted by its `type` (`HardWall.py:249-321`). -/
def Namespace.set (H : Host) (ns : Namespace) : Opt × Text → Except PyErr Namespace
  | (.help, _) => .error .systemExit
  | (.detrend, v) => .ok { ns with detrend := some v }
  | (.boundary, v) => .ok { ns with boundary := v }
  | (.modulus, v) => do pure { ns with modulus := ← orExit (H.toFloat v) }
  | (.poisson, v) => do pure { ns with poisson := ← orExit (H.toFloat v) }
  | (.thickness, v) => do pure { ns with thickness := some (← orExit (H.toFloat v)) }
  | (.hardness, v) => do pure { ns with hardness := some (← orExit (H.toFloat v)) }
  | (.maxiter, v) => do pure { ns with maxiter := ← orExit (H.toInt v) }
  | (.displacement, v) => .ok { ns with displacement := some v }
  | (.pressure, v) => .ok { ns with pressure := some v }
  | (.pressureFromFile, v) => .ok { ns with pressureFromFn := some v }
  | (.physicalSizes, v) => do pure { ns with physicalSizes := some (← orExit (tuple2 H v)) }
  | (.physicalSizesUnit, v) => .ok { ns with sizeUnit := some v }
  | (.heightFac, v) => do pure { ns with heightFac := some (← orExit (H.toFloat v)) }
  | (.heightUnit, v) => .ok { ns with heightUnit := some v }
  | (.pentol, v) => do pure { ns with pentol := some (← orExit (H.toFloat v)) }
  | (.contactFn, v) => .ok { ns with contactFn := some v }
  | (.pressureFn, v) => .ok { ns with pressureFn := some v }
  | (.displFn, v) => .ok { ns with displFn := some v }
  | (.gapFn, v) => .ok { ns with gapFn := some v }
  | (.logFn, v) => .ok { ns with logFn := v }
  | (.netcdfFn, v) => .ok { ns with netcdfFn := some v }
  | (.verbose, _) => .ok { ns with verbose := true }

/-- `parser.parse_args()` (`HardWall.py:324`). -/
def parseArgs (H : Host) (words : List Text) : Except PyErr Namespace := do
  let r ← consume (words.map (classify H.looksNegative)) none []
  r.2.foldlM (Namespace.set H) { filename := r.1 }

/-- A comma separated argument as `main` reads it (`HardWall.py:433-436`, `486-490`). -/
def partsOf (H : Host) (s : Text) : List Part := (s.splitOn ',').map fun t => ⟨H.toFloat t, H.toInt t⟩

/-- The arguments as the rest of `main` uses them (`HardWall.py:386-555`); the file of `--pressure-from-file` has not been read. -/
noncomputable def Namespace.args (H : Host) (ns : Namespace) : CliArgs where
  boundary := String.ofList ns.boundary
  modulus := ns.modulus
  poisson := ns.poisson
  thickness := ns.thickness
  hardness := ns.hardness
  maxiter := ns.maxiter
  pentol := ns.pentol
  maps := [ns.contactFn.map String.ofList, ns.pressureFn.map String.ofList, ns.displFn.map String.ofList, ns.gapFn.map String.ofList]
  pressure := ns.pressure.map (partsOf H)
  pressureFile := ns.pressureFromFn.map fun _ => []
  displacement := ns.displacement.map (partsOf H)

/-- Arguments on units (`HardWall.py:359-376`). -/
def Namespace.units (ns : Namespace) : UnitArgs := ⟨ns.sizeUnit.map String.ofList, ns.heightFac, ns.heightUnit.map String.ofList⟩

/-- The surface of the calculation: read, scaled, detrended (`HardWall.py:355-384`). -/
noncomputable def surfaceOf (H : Host) (ns : Namespace) : Except PyErr Topo := do
  let unit ← H.unitOf ns.filename
  let T ← H.topography ns.filename ns.physicalSizes
  let h ← scaledHeights unit ns.units T.heights
  let T := { T with heights := h, rmsHeight := H.rms h }
  match ns.detrend with
  | some mode => H.detrend mode T
  | none => pure T

/-- `main` (`HardWall.py:243-559`), given the words of the command line behind the name of the program.  The file of pressures is read after
the system has been set up, if neither `--pressure` nor `--displacement` is given (lines 426-443). -/
noncomputable def ceHardWall (H : Host) (words : List Text) : Except PyErr Unit × List Output :=
  match parseArgs H words with
  | .error e => (.error e, [])
  | .ok ns =>
    match surfaceOf H ns with
    | .error e => (.error e, [])
    | .ok T =>
      match cliSystem T (ns.args H) with
      | .error e => (.error e, [])
      | .ok _ =>
        match ns.pressureFromFn, ns.pressure, ns.displacement with
        | some fn, none, none =>
          match H.loadtxt fn with
          | .error e => (.error e, [])
          | .ok ps => hardWallCCG T H.rms H.bisect { ns.args H with pressureFile := some ps }
        | _, _, _ => hardWallCCG T H.rms H.bisect (ns.args H)

end CM.Cli
