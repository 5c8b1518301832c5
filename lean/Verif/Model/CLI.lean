import Verif.Model.Pipeline
/-!
# The command line front-end `ce_hard_wall`

Model of the calculation part of `/repo/ContactMechanics/CommandLineInterface/HardWall.py`: `next_step`,
`dump`, `dump_nc`, the map files, and the three modes of `main`.

Simplifications: those of `Model/Pipeline`; argument parsing up to splitting at commas, reading and
detrending of the topography and text formatting are not modelled; a map file is its name, the macroscopic
data in its header, and the field in it; progress messages to the screen are not modelled.
-/
namespace CM.Cli
open CM.HS CM.FFT CM.System CM.Pipe

/-! ## Automatic steps -/

/-- Offset chosen by `next_step` (`HardWall.py:98-130`); the columns are used in the order found. -/
noncomputable def cliOffset (heights : NdArray ℝ) (history : Option History) : ℝ :=
  let top := npMax heights
  let middle := npMean heights
  let bot := npMin heights
  match history with
  | none => -middle
  | some h =>
    let step := h.disp.length
    if step = 0 then -middle
    else if step = 1 then -top + 0.01 * (top - middle)
    else
      let i := argmax (dArea heights.shape.prod h.area)
      if i = step - 1 then bot + 2 * (h.disp.getLastD 0 - bot)
      else (h.disp.getD i 0 + h.disp.getD (i + 1) 0) / 2

/-- `zip(disp, gap, load, area, converged)`: rows, as many as the shortest column has. -/
def rowsOf (h : History) : List (ℝ × ℝ × ℝ × ℝ × Bool) :=
  h.disp.zip (h.gap.zip (h.pressure.zip (h.area.zip h.converged)))

/-- `np.transpose(rows)` unpacked into five columns (`converged` is converted back to `bool`). -/
def columnsOf (l : List (ℝ × ℝ × ℝ × ℝ × Bool)) : History :=
  ⟨l.map (·.1), l.map (·.2.1), l.map (·.2.2.1), l.map (·.2.2.2.1), l.map (·.2.2.2.2)⟩

/-- What `next_step` returns besides the history (line 153). -/
structure StepOut where
  c : NdArray Bool
  u : NdArray ℝ
  f : NdArray ℝ
  disp0 : ℝ
  load : ℝ
  area : ℝ

/-- `next_step` (`HardWall.py:62-153`). -/
noncomputable def nextStep (sizes : List ℝ) (solver : Solver) (Y : AnySys) (history : Option History) (pentol : Option ℝ)
    (maxiter : ℤ) : Except PyErr (StepOut × History) × AnySys :=
  let middle := npMean Y.heights
  let hist := if history.isNone ∨ (history.getD .empty).disp = [] then .empty else history.getD .empty
  let disp0 := cliOffset Y.heights history
  match Y.minimize solver (some disp0) none pentol maxiter with
  | (.error e, Y') => (.error e, Y')
  | (.ok opt, Y') =>
    let out : Except PyErr (StepOut × History) := do
      let f := opt.jac
      let u ← cutToForce opt.x f
      let load := f.sum / sizes.prod
      let area := (countPositive f : ℝ) / (Y.heights.shape.prod : ℕ)
      let h : History :=
        { disp := hist.disp ++ [disp0]
          gap := hist.gap ++ [npMean u - middle - disp0]
          pressure := hist.pressure ++ [load]
          area := hist.area ++ [area]
          converged := hist.converged ++ [opt.success] }
      pure (⟨opt.activeSet, u, f, disp0, load, area⟩, columnsOf (sortedBy (·.2.2.2.1) (rowsOf h)))
    (out, Y')

/-! ## Output of one step -/

/-- `dump` (`HardWall.py:156-183`): the seven numbers of a log line, in order mean elastic displacement, mean rigid
displacement, mean gap, load, mean pressure, area, fractional area. -/
noncomputable def dump (sizes : List ℝ) (areaPerPt : ℝ) (heights u f : NdArray ℝ) (offset : ℝ) : List ℝ :=
  let meanElastic := npMean u
  let meanRigid := npMean heights + offset
  let load := f.sum
  let area : ℝ := countPositive f
  [meanElastic, meanRigid, meanElastic - meanRigid, load, load / sizes.prod, area * areaPerPt,
    area / (heights.shape.prod : ℕ)]

/-- Files written for one step (`HardWall.py:473-480`, `548-555`): `names` are the file names given for the contact,
pressure, displacement and gap map, `data` what is left of the iterator `zip(header, data)` that `dump` returned.  Writing a header
(`HardWall.py:196-228`) runs through the iterator and leaves it exhausted. -/
def writeMaps {α : Type} (suffix : String) : List (Option String) → List α → List (String × List α)
  | [], _ => []
  | none :: ns, data => writeMaps suffix ns data
  | some fn :: ns, data => (fn ++ suffix, data) :: writeMaps suffix ns []

/-- The fields of the four maps (`HardWall.py:473-480`, `548-555`): contact map (`'%i'` of a Boolean, `HardWall.py:200-204`),
pressures, displacements, gaps.  `u` has the shape of the surface. -/
noncomputable def mapFields (areaPerPt : ℝ) (heights : NdArray ℝ) (c : NdArray Bool) (u f : NdArray ℝ) (offset : ℝ) : List (NdArray ℝ) :=
  [c.map fun b => if b then 1 else 0, f.map (· / areaPerPt), u, ⟨u.shape, fun x => u.get x - heights.get x - offset⟩]

/-- What `np.savetxt` writes below the headers of these files. -/
def writeFields (suffix : String) : List (Option String) → List (NdArray ℝ) → List (String × NdArray ℝ)
  | none :: ns, _ :: as => writeFields suffix ns as
  | some fn :: ns, a :: as => (fn ++ suffix, a) :: writeFields suffix ns as
  | _, _ => []

/-- File name suffix of step `i` of `n` (`HardWall.py:449-451`, `537-539`). -/
def suffix (n i : ℕ) : String := if n = 1 then "" else "." ++ toString i

/-- One step as it reaches the user: log line, NetCDF frame (displacement, load, area; displacements, forces,
`HardWall.py:186-193`), map files with the data in their headers, and the fields in them. -/
structure Output where
  log : List ℝ
  frame : ℝ × ℝ × ℝ
  files : List (String × List ℝ)
  frameFields : NdArray ℝ × NdArray ℝ
  fields : List (String × NdArray ℝ)

/-- One part of a comma separated argument: its value as `float` and as `int`, if it has one. -/
structure Part where
  asFloat : Option ℝ
  asInt : Option ℤ

/-- Options of the front-end that the calculation depends on (`HardWall.py:248-323`): `maps` are the four map file
names, `pressure` and `displacement` the comma separated parts, `pressureFile` the numbers in the file of
`--pressure-from-file`. -/
structure CliArgs where
  boundary : String := "periodic"
  modulus : ℝ := 1
  poisson : ℝ := 0
  thickness : Option ℝ := none
  hardness : Option ℝ := none
  maxiter : ℤ := 1000
  pentol : Option ℝ := none
  maps : List (Option String) := [none, none, none, none]
  pressure : Option (List Part) := none
  pressureFile : Option (List ℝ) := none
  displacement : Option (List Part) := none

/-! ## The system -/

/-- Substrate of `main` (`HardWall.py:389-407`). -/
noncomputable def cliSubstrate (T : Topo) (A : CliArgs) : Except PyErr Substrate :=
  if A.boundary = "periodic" then do
    pure ⟨← construct ⟨T.heights.shape, A.modulus, T.physicalSizes, none, A.thickness, A.poisson, none⟩, false, false⟩
  else if A.boundary = "nonperiodic" then
    if A.thickness.isSome then throw .valueError
    else if 1 - A.poisson ^ 2 = 0 then throw .zeroDivision
    else do
      pure ⟨← constructFree ⟨T.heights.shape, A.modulus / (1 - A.poisson ^ 2), T.physicalSizes, none⟩, true, false⟩
  else throw .valueError

/-- System of `main` (`HardWall.py:386-387`, `412-415`). -/
noncomputable def cliSystem (T : Topo) (A : CliArgs) : Except PyErr AnySys := do
  let sub ← cliSubstrate T A
  let S ← mkSystem sub T.heights
  match A.hardness with
  | some H => pure (.plastic ⟨S, T.heights, T.heights.map fun _ => 0, H, T.areaPerPt⟩)
  | none => pure (.elastic S)

/-! ## Automatic mode -/

/-- The loop of the automatic mode (`HardWall.py:535-555`) from step `i` of `n` on, `k` steps left: outputs and history.
The output of the steps before an exception stays. -/
noncomputable def autoLoop (sizes : List ℝ) (areaPerPt : ℝ) (solver : Solver) (A : CliArgs) (n : ℕ) :
    ℕ → ℕ → AnySys → Option History → Except PyErr (Option History) × List Output
  | 0, _, _, history => (.ok history, [])
  | k + 1, i, Y, history =>
    match nextStep sizes solver Y history A.pentol A.maxiter with
    | (.error e, _) => (.error e, [])
    | (.ok (o, h), Y') =>
      let log := dump sizes areaPerPt Y'.heights o.u o.f o.disp0
      match autoLoop sizes areaPerPt solver A n k (i + 1) Y' (some h) with
      | (r, outs) => (r, ⟨log, (o.disp0, o.load, o.area), writeMaps (suffix n i) A.maps log, (o.u, o.f),
          writeFields (suffix n i) A.maps (mapFields areaPerPt Y'.heights o.c o.u o.f o.disp0)⟩ :: outs)

/-! ## Pressure mode -/

/-- `np.linspace(a, b, n)` (NumPy, specified): `n` equally spaced values from `a` to `b`. -/
noncomputable def linspace (a b : ℝ) (n : ℤ) : Except PyErr (List ℝ) :=
  if n < 0 then .error .valueError
  else .ok ((List.range n.toNat).map fun i : ℕ => a + (i : ℝ) * ((b - a) / ((n - 1 : ℤ) : ℝ)))

/-- Pressures of `--pressure` (`HardWall.py:432-441`). -/
noncomputable def parsePressure (parts : List Part) : Except PyErr (List ℝ) :=
  match parts with
  | [p] =>
    match p.asFloat with
    | some x => .ok [x]
    | none => .error .valueError
  | [p, q, r] =>
    match p.asFloat, q.asFloat, r.asInt with
    | some a, some b, some n => linspace a b n
    | _, _, _ => .error .valueError
  | _ => .error .systemExit

/-- The loop of the pressure mode (`HardWall.py:448-480`), from step `i` of `n` on. -/
noncomputable def pressureLoop (sizes : List ℝ) (areaPerPt : ℝ) (solver : Solver) (A : CliArgs) (n : ℕ) :
    ℕ → AnySys → List ℝ → Except PyErr Unit × List Output
  | _, _, [] => (.ok (), [])
  | i, Y, p :: ps =>
    match Y.minimize solver none (some (p * sizes.prod)) A.pentol A.maxiter with
    | (.error e, _) => (.error e, [])
    | (.ok opt, Y') =>
      match cutToForce opt.x opt.jac with
      | .error e => (.error e, [])
      | .ok u =>
        let f := opt.jac
        let area := (countPositive f : ℝ) / (Y'.heights.shape.prod : ℕ)
        let log := dump sizes areaPerPt Y'.heights u f opt.offset
        match pressureLoop sizes areaPerPt solver A n (i + 1) Y' ps with
        | (r, outs) => (r, ⟨log, (opt.offset, p, area), writeMaps (suffix n i) A.maps log, (u, f),
            writeFields (suffix n i) A.maps (mapFields areaPerPt Y'.heights opt.activeSet u f opt.offset)⟩ :: outs)

/-! ## Displacement mode -/

/-- Keyword parameters of `constrained_conjugate_gradients` (`ConstrainedConjugateGradients.py:47-60`), to which
`minimize_proxy` passes its keywords on (`Systems.py:572`, `596-599`). -/
def solverKeywords : List String :=
  ["hardness", "external_force", "offset", "initial_displacements", "initial_forces", "pentol", "forcetol", "thermotol",
   "mixfac", "mixdecfac", "minmixsteps", "maxiter", "logger", "callback", "verbose"]

/-- A Python call with keyword arguments raises `TypeError` for a keyword the function does not have. -/
def callKeywords (accepted given : List String) : Except PyErr Unit :=
  if given.all (· ∈ accepted) then .ok () else .error .typeError

/-- Keywords given in displacement mode (`HardWall.py:502-505`). -/
def displacementKeywords : List String := ["offset", "logger", "pentol", "maxiter", "kind", "verbose"]

/-- Displacements of `--displacement` (`HardWall.py:485-494`).  `np.linspace` with a float as number of values raises
`TypeError`. -/
def parseDisplacement (parts : List Part) : Except PyErr (List ℝ) :=
  match parts with
  | [p] =>
    match p.asFloat with
    | some x => .ok [x]
    | none => .error .valueError
  | [p, q, r] =>
    match p.asFloat, q.asFloat, r.asFloat with
    | some _, some _, some _ => .error .typeError
    | _, _, _ => .error .valueError
  | _ => .error .systemExit

/-- The loop of the displacement mode (`HardWall.py:498-525`) with a solver that has the keywords `accepted`.  After the
minimisation the local variables `disp0`, `load` and `area` are read (line 515), which this branch never binds. -/
noncomputable def displacementLoop (accepted : List String) (solver : Solver) (A : CliArgs) :
    AnySys → List ℝ → Except PyErr Unit × List Output
  | _, [] => (.ok (), [])
  | Y, d :: _ =>
    match callKeywords accepted displacementKeywords with
    | .error e => (.error e, [])
    | .ok () =>
      match Y.minimize solver (some d) none A.pentol A.maxiter with
      | (.error e, _) => (.error e, [])
      | (.ok opt, _) =>
        match cutToForce opt.x opt.jac with
        | .error e => (.error e, [])
        | .ok _ => (.error .unboundLocal, [])

/-- Number of automatic steps (`HardWall.py:46`). -/
def autoSteps : ℕ := 20

/-- The three modes of `main` (`HardWall.py:426-555`); `accepted` are the keywords of the solver. -/
noncomputable def mainModes (sizes : List ℝ) (areaPerPt : ℝ) (accepted : List String) (solver : Solver) (A : CliArgs) (Y : AnySys) :
    Except PyErr Unit × List Output :=
  if A.pressure.isSome ∨ A.pressureFile.isSome then
    if A.displacement.isSome then (.error .valueError, [])
    else
      match A.pressure with
      | some p =>
        match parsePressure p with
        | .error e => (.error e, [])
        | .ok ps => pressureLoop sizes areaPerPt solver A ps.length 0 Y ps
      | none =>
        match A.pressureFile with
        | some ps => pressureLoop sizes areaPerPt solver A ps.length 0 Y ps
        | none => (.ok (), [])
  else
    match A.displacement with
    | some d =>
      match parseDisplacement d with
      | .error e => (.error e, [])
      | .ok ds => displacementLoop accepted solver A Y ds
    | none =>
      match autoLoop sizes areaPerPt solver A autoSteps autoSteps 0 Y none with
      | (.error e, outs) => (.error e, outs)
      | (.ok _, outs) => (.ok (), outs)

/-- `main` after the topography has been read (`HardWall.py:386-559`): outcome, and the output of the steps. -/
noncomputable def hardWall (T : Topo) (accepted : List String) (solver : Solver) (A : CliArgs) : Except PyErr Unit × List Output :=
  match cliSystem T A with
  | .error e => (.error e, [])
  | .ok Y => mainModes T.physicalSizes T.areaPerPt accepted solver A Y

end CM.Cli
