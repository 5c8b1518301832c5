import Verif.Model.CLI
import Verif.Spec.Pipeline
/-!
# Specification vocabulary for the command line front-end
-/
namespace CM.Spec
open Finset CM.HS CM.FFT CM.System CM.Pipe CM.Cli

/-- Physically meaningful elastic constants. -/
structure ValidCli (A : CliArgs) : Prop where
  modulus_pos : 0 < A.modulus
  poisson_low : -1 < A.poisson
  poisson_high : A.poisson < 1
  thickness : ∀ h, A.thickness = some h → 0 < h ∧ A.poisson < 1 / 2

/-- One step: the surface it found, the arguments of the solver, its result, and what reached the user. -/
structure CliStep where
  before : NdArray ℝ
  call : Call
  result : OptResult
  output : Output

/-- Row of the results that belongs to a step. -/
noncomputable def CliStep.record (nx ny : ℕ) (sx sy : ℝ) (d : CliStep) : Record := recordOf nx ny sx sy d.before d.result

/-- The log line of a result: mean elastic displacement, mean rigid displacement, mean gap, load, mean pressure, contact
area, fractional contact area; `h` are the surface heights after the calculation. -/
noncomputable def logLine (nx ny : ℕ) (sx sy : ℝ) (h : List ℕ → ℝ) (r : OptResult) : List ℝ :=
  let elastic := mean nx ny r.x
  let rigid := mean nx ny ⟨[nx, ny], h⟩ + r.offset
  [elastic, rigid, elastic - rigid, total nx ny r.jac, total nx ny r.jac / (sx * sy),
    nbPos nx ny r.jac * (sx * sy / (nx * ny)), nbPos nx ny r.jac / (nx * ny)]

/-- Ending of the file names of step `k` of `n`: none for a single step. -/
def fileEnding (n k : ℕ) : String := if n = 1 then "" else "." ++ Nat.repr k

/-- What the `q`-th map (contact, pressure, displacement, gap) of result `r` shows when the surface heights are `h`. -/
def MapShows (nx ny : ℕ) (sx sy : ℝ) (h : List ℕ → ℝ) (r : OptResult) (q : ℕ) (a : NdArray ℝ) : Prop :=
  match q with
  | 0 => a.shape = r.activeSet.shape ∧ ∀ x, a.get x = if r.activeSet.get x then 1 else 0
  | 1 => a.shape = [nx, ny] ∧ AgreeOn nx ny a fun x => r.jac.get x / (sx * sy / (nx * ny))
  | 2 => a.shape = [nx, ny] ∧ AgreeOn nx ny a r.x.get
  | 3 => a.shape = [nx, ny] ∧ AgreeOn nx ny a fun x => r.x.get x - (h x + r.offset)
  | _ => False

/-- What step `k` of `n` has to write for result `r` when the surface heights after it are `h`: the log line; the NetCDF frame
with offset, the given load, fractional area, displacements and forces; one file per map asked for, showing that map. -/
structure OutputMatches (nx ny : ℕ) (sx sy : ℝ) (maps : List (Option String)) (n k : ℕ) (h : List ℕ → ℝ) (r : OptResult) (load : ℝ)
    (out : Output) : Prop where
  log : out.log = logLine nx ny sx sy h r
  frame : out.frame = (r.offset, load, (nbPos nx ny r.jac : ℝ) / (nx * ny))
  names : out.files.map Prod.fst = (maps.filterMap id).map (· ++ fileEnding n k)
  frameDispl : out.frameFields.1.shape = [nx, ny] ∧ AgreeOn nx ny out.frameFields.1 r.x.get
  frameForces : out.frameFields.2.shape = [nx, ny] ∧ AgreeOn nx ny out.frameFields.2 r.jac.get
  fields : ∀ q fn, q < 4 → maps[q]? = some (some fn) → ∃ a, (fn ++ fileEnding n k, a) ∈ out.fields ∧ MapShows nx ny sx sy h r q a

/-- `D` are steps of a command line run: the solver of step `k` is called with the surface found, the hardness as a force,
the offset and external force prescribed by `ask` (given the step number, the rows so far and the surface), and the
tolerance and iteration limit given on the command line; its result is the one used and the output belongs to it (`load` is
the load written to the NetCDF file for step `k`); `n` is the number of steps of the whole run.  The first step finds the
topography given, every other one the surface its predecessor left. -/
structure IsCliRun (T : Topo) (nx ny : ℕ) (sx sy : ℝ) (A : CliArgs) (solver : Solver) (n : ℕ)
    (ask : ℕ → List Record → NdArray ℝ → Option ℝ → Option ℝ → Prop) (load : ℕ → OptResult → ℝ → Prop) (D : List CliStep) : Prop where
  call : ∀ k d, D[k]? = some d → ∃ o F, ask k ((D.take k).map (CliStep.record nx ny sx sy)) d.before o F ∧
    d.call = ⟨d.before, forceHardness nx ny sx sy A.hardness, o, F, A.pentol, A.maxiter⟩
  solved : ∀ d ∈ D, solver d.call = .ok d.result
  output : ∀ k d, D[k]? = some d → ∃ l, load k d.result l ∧
    OutputMatches nx ny sx sy A.maps n k (heightAfter A.hardness.isSome d.before d.result) d.result l d.output
  first : ∀ d, D[0]? = some d → AgreeOn nx ny d.before T.heights.get
  next : ∀ k d d', D[k]? = some d → D[k + 1]? = some d' → AgreeOn nx ny d'.before (heightAfter A.hardness.isSome d.before d.result)
  elastic : A.hardness = none → ∀ d ∈ D, d.before = T.heights

/-- The solver raised `e` when it was called for step `k` after the rows so far. -/
def FailedCall (T : Topo) (nx ny : ℕ) (sx sy : ℝ) (A : CliArgs) (solver : Solver)
    (ask : ℕ → List Record → NdArray ℝ → Option ℝ → Option ℝ → Prop) (rows : List Record) (k : ℕ) (e : PyErr) : Prop :=
  ∃ h o F, ask k rows h o F ∧ (A.hardness = none → h = T.heights) ∧
    solver ⟨h, forceHardness nx ny sx sy A.hardness, o, F, A.pentol, A.maxiter⟩ = .error e

/-- A solver that keeps a prescribed offset. -/
def KeepsOffset (solver : Solver) : Prop :=
  ∀ c r o, solver c = .ok r → c.offset = some o → c.externalForce = none → r.offset = o

/-- What an automatic step asks for. -/
def autoAsk (nx ny : ℕ) : ℕ → List Record → NdArray ℝ → Option ℝ → Option ℝ → Prop := fun _ rows h o F =>
  (∃ x, o = some x ∧ AutoChoice nx ny h (rows.map fun r => (r.displacement, r.area)) x) ∧ F = none

/-- The load written in automatic mode is the mean pressure. -/
def autoLoad (nx ny : ℕ) (sx sy : ℝ) : ℕ → OptResult → ℝ → Prop := fun _ r l => l = total nx ny r.jac / (sx * sy)

end CM.Spec
