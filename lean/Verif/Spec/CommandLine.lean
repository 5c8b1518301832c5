import Verif.Model.CLIText
import Verif.Spec.Numbers
/-!
# Specification: what the options on the command line mean

The options as `ce_hard_wall --help` documents them, by their names; how an option can be written; what the program has to use.  Nothing here
refers to how the words are taken apart.
-/
namespace CM.Cli
open CM.Log CM.Num

/-- Options whose value is a number. -/
def numberOptions : List String := ["--modulus", "--poisson", "--thickness", "--hardness", "--height-fac", "--pentol"]

/-- Options that take a value. -/
def valueOptions : List String :=
  numberOptions ++ ["--maxiter", "--physical_sizes", "--detrend", "--boundary", "--displacement", "--pressure", "--pressure-from-file",
    "--physical_sizes-unit", "--height-unit", "--contact-fn", "--pressure-fn", "--displ-fn", "--gap-fn", "--log-fn", "--netcdf-fn"]

/-- All options. -/
def optionNames : List String := "--help" :: "--verbose" :: valueOptions

/-- A name, or a beginning of it that no other option has, stands for an option. -/
def StandsFor (p : Text) (n : String) : Prop := p = n.toList ∨ (p <+: n.toList ∧ ∀ m ∈ optionNames, p <+: m.toList → m = n)

/-- The ways of writing an option with its value: `--name=value` or `--name value`; the flag `--verbose` has no value. -/
inductive Writes : String × Text → List Text → Prop
  | equals (n : String) (v p : Text) (hn : n ∈ valueOptions) (hp : StandsFor p n) : Writes (n, v) [p ++ '=' :: v]
  | apart (n : String) (v p : Text) (hn : n ∈ valueOptions) (hp : StandsFor p n) (hv : v.head? ≠ some '-') : Writes (n, v) [p, v]
  | flag (p : Text) (hp : StandsFor p "--verbose") : Writes ("--verbose", []) [p]

/-- The value given last for an option. -/
def lastGiven (name : String) (given : List (String × Text)) : Option Text := ((given.filter (·.1 = name)).getLast?).map (·.2)

/-- Two numbers with a comma between them. -/
noncomputable def pairOf (s : Text) : Option (ℝ × ℝ) :=
  match number (cut ',' s).1, number (cut ',' s).2 with
  | some x, some y => some (x, y)
  | _, _ => none

/-- Values of numerical options are numerals. -/
structure WellFormed (given : List (String × Text)) : Prop where
  numbers : ∀ g ∈ given, g.1 ∈ numberOptions → (number g.2).isSome
  maxiter : ∀ g ∈ given, g.1 = "--maxiter" → (signed g.2).isSome
  sizes : ∀ g ∈ given, g.1 = "--physical_sizes" → (pairOf g.2).isSome

/-- Python reads numerals. -/
structure ReadsNumerals (H : Host) : Prop where
  floats : ∀ s x, number s = some x → H.toFloat s = some x
  ints : ∀ s n, signed s = some n → H.toInt s = some n

/-- The number given for an option. -/
noncomputable def numberGiven (name : String) (given : List (String × Text)) : Option ℝ := (lastGiven name given).bind number

/-- The arguments `ns` are what was given for the options, or else the documented defaults. -/
structure Means (ns : Namespace) (file : Text) (given : List (String × Text)) : Prop where
  filename : ns.filename = file
  detrend : ns.detrend = lastGiven "--detrend" given
  boundary : ns.boundary = (lastGiven "--boundary" given).getD "periodic".toList
  modulus : ns.modulus = (numberGiven "--modulus" given).getD 1
  poisson : ns.poisson = (numberGiven "--poisson" given).getD 0
  thickness : ns.thickness = numberGiven "--thickness" given
  hardness : ns.hardness = numberGiven "--hardness" given
  maxiter : ns.maxiter = ((lastGiven "--maxiter" given).bind signed).getD 1000
  displacement : ns.displacement = lastGiven "--displacement" given
  pressure : ns.pressure = lastGiven "--pressure" given
  pressureFromFn : ns.pressureFromFn = lastGiven "--pressure-from-file" given
  physicalSizes : ns.physicalSizes = (lastGiven "--physical_sizes" given).bind pairOf
  sizeUnit : ns.sizeUnit = lastGiven "--physical_sizes-unit" given
  heightFac : ns.heightFac = numberGiven "--height-fac" given
  heightUnit : ns.heightUnit = lastGiven "--height-unit" given
  pentol : ns.pentol = numberGiven "--pentol" given
  contactFn : ns.contactFn = lastGiven "--contact-fn" given
  pressureFn : ns.pressureFn = lastGiven "--pressure-fn" given
  displFn : ns.displFn = lastGiven "--displ-fn" given
  gapFn : ns.gapFn = lastGiven "--gap-fn" given
  logFn : ns.logFn = (lastGiven "--log-fn" given).getD "hard_wall.out".toList
  netcdfFn : ns.netcdfFn = lastGiven "--netcdf-fn" given
  verbose : ns.verbose = (lastGiven "--verbose" given).isSome

/-- The pressures the value of `--pressure` asks for: one number, or `n` equally spaced numbers from `a` to `b` written `a,b,n`. -/
inductive PressureText : Text → List ℝ → Prop
  | one (t : Text) (x : ℝ) (h : number t = some x) : PressureText t [x]
  | range (ta tb tn : Text) (a b : ℝ) (n : ℕ) (ps : List ℝ) (h1 : number ta = some a) (h2 : number tb = some b) (h3 : signed tn = some (n : ℤ))
      (hl : ps.length = n) (hp : ∀ k (hk : k < ps.length), ps[k] = a + (b - a) * (k / (n - 1))) : PressureText (ta ++ ',' :: (tb ++ ',' :: tn)) ps

/-- The pressures a command line asks for, by `--pressure` or in the file of `--pressure-from-file`. -/
def PressuresGiven (H : Host) (given : List (String × Text)) (ps : List ℝ) : Prop :=
  (∃ t, lastGiven "--pressure" given = some t ∧ PressureText t ps) ∨
  (lastGiven "--pressure" given = none ∧ ∃ fn, lastGiven "--pressure-from-file" given = some fn ∧ H.loadtxt fn = .ok ps)

/-- The settings of a calculation are those given. -/
structure SettingsGiven (A : CliArgs) (given : List (String × Text)) : Prop where
  boundary : A.boundary = String.ofList ((lastGiven "--boundary" given).getD "periodic".toList)
  modulus : A.modulus = (numberGiven "--modulus" given).getD 1
  poisson : A.poisson = (numberGiven "--poisson" given).getD 0
  thickness : A.thickness = numberGiven "--thickness" given
  hardness : A.hardness = numberGiven "--hardness" given
  maxiter : A.maxiter = ((lastGiven "--maxiter" given).bind signed).getD 1000
  pentol : A.pentol = numberGiven "--pentol" given
  maps : A.maps = ["--contact-fn", "--pressure-fn", "--displ-fn", "--gap-fn"].map fun n => (lastGiven n given).map String.ofList

/-- The unit of the surface: that of `--physical_sizes-unit`, else that in the file, else `N/A`. -/
def unitGiven (fileUnit : Option String) (given : List (String × Text)) : String :=
  match lastGiven "--physical_sizes-unit" given with
  | some u => String.ofList u
  | none => fileUnit.getD "N/A"

/-- What `argparse` of Python up to version 3.13 takes for a negative number: the regular expression `^-\d+$|^-\d*\.\d+$`. -/
def negative313 (s : Text) : Bool :=
  let digits := fun t : Text => t.all fun c => (digitValue c).isSome
  match s with
  | '-' :: t => (t ≠ [] && digits t) || ('.' ∈ t && digits (cut '.' t).1 && (cut '.' t).2 ≠ [] && digits (cut '.' t).2)
  | _ => false

end CM.Cli
