import Verif.Model.Systems
import Mathlib.Analysis.SpecialFunctions.Log.Base
/-!
# The automated pipeline and the command line front-end

Model of `/repo/ContactMechanics/PipelineFunction.py` (all of it) and of the calculation part of
`/repo/ContactMechanics/CommandLineInterface/HardWall.py`.

Simplifications that apply to the whole file
* those of `Model/Systems`: one process, reals, no masked heights;
* the solver is a parameter: a function from the arguments it is called with (including the current
  heights of the topography) to what it returns or raises.  `constrained_conjugate_gradients` is such a
  function (its model is in `Model/CCG`): it keeps nothing between calls;
* a division by zero (an empty array, a zero length) is not an exception but gives the value `0`;
* `results_callback` does not raise and does not modify the arrays it receives.
-/
namespace CM.Pipe
open CM.HS CM.FFT CM.System

/-! ## Calling the solver -/

/-- Arguments of one solver call, as the pipeline and the command line pass them. -/
structure Call where
  heights : NdArray ℝ
  hardness : Option ℝ
  offset : Option ℝ
  externalForce : Option ℝ
  pentol : Option ℝ
  maxiter : ℤ

/-- What a solver returns or raises for given arguments. -/
abbrev Solver := Call → Except PyErr OptResult

/-- A contact system with or without plasticity. -/
inductive AnySys where
  | elastic (S : Sys)
  | plastic (P : PSys)

/-- `system`. -/
def AnySys.sys : AnySys → Sys
  | .elastic S => S
  | .plastic P => P.sys

/-- `system.surface.heights()`. -/
def AnySys.heights (Y : AnySys) : NdArray ℝ := Y.sys.heights

/-- `system.minimize_proxy(offset=…, external_force=…, pentol=…, maxiter=…)` of either class
(`Systems.py:572-611`, `PlasticSystemSpecialisations.py:60-69`). -/
noncomputable def AnySys.minimize (Y : AnySys) (solver : Solver) (offset externalForce pentol : Option ℝ)
    (maxiter : ℤ) : Except PyErr OptResult × AnySys :=
  match Y with
  | .elastic S =>
    match minimizeProxy S (solver ⟨S.heights, none, offset, externalForce, pentol, maxiter⟩) with
    | (r, S') => (r, .elastic S')
  | .plastic P =>
    match plasticMinimizeProxy P fun H => solver ⟨P.sys.heights, some H, offset, externalForce, pentol, maxiter⟩ with
    | (r, P') => (r, .plastic P')

/-- `topography.plastic_displ = np.zeros_like(topography.plastic_displ)`; a topography without that
attribute is left alone (`PipelineFunction.py:171-179`). -/
def AnySys.resetPlastic : AnySys → AnySys
  | .elastic S => .elastic S
  | .plastic P =>
    let z : NdArray ℝ := P.plasticDispl.map fun _ => 0
    .plastic { P with plasticDispl := z, sys := { P.sys with heights := ⟨P.base.shape, fun x => P.base.get x + z.get x⟩ } }

/-! ## NumPy reductions -/

/-- `np.mean(a)`. -/
noncomputable def npMean (a : NdArray ℝ) : ℝ := a.sum / (a.size : ℕ)

/-- The entries of an array in C order. -/
def entries {α : Type} (a : NdArray α) : List α := (List.range a.size).map a.flat

/-- `np.max(a)` (of an array with at least one entry; `0` otherwise, where NumPy raises). -/
noncomputable def npMax (a : NdArray ℝ) : ℝ :=
  match entries a with
  | [] => 0
  | x :: xs => xs.foldl max x

/-- `np.min(a)`. -/
noncomputable def npMin (a : NdArray ℝ) : ℝ :=
  match entries a with
  | [] => 0
  | x :: xs => xs.foldl min x

/-- Position of the first maximum after position `i` with value `m` when the entries from position
`k` on are the list. -/
noncomputable def argmaxFrom (i : ℕ) (m : ℝ) : ℕ → List ℝ → ℕ
  | _, [] => i
  | k, x :: xs => if m < x then argmaxFrom k x (k + 1) xs else argmaxFrom i m (k + 1) xs

/-- `np.argmax(l)`: position of the first maximum (`0` for an empty array, where NumPy raises). -/
noncomputable def argmax : List ℝ → ℕ
  | [] => 0
  | x :: xs => argmaxFrom 0 x 1 xs

/-- `sorted(rows, key=…)`: stable. -/
noncomputable def sortedBy {α : Type} (key : α → ℝ) (rows : List α) : List α :=
  rows.insertionSort fun a b => key a ≤ key b

/-- `log10(area + 1/N)` of a sorted list of areas and `darea` (`PipelineFunction.py:211-212`,
`HardWall.py:123-124`): neighbour differences followed by minus the last value. -/
noncomputable def dArea (N : ℕ) (areas : List ℝ) : List ℝ :=
  let ref := areas.map fun a => Real.logb 10 (a + 1 / (N : ℝ))
  List.zipWith (· - ·) ref.tail ref ++ [-(ref.getLastD 0)]

/-! ## One calculation -/

/-- `history` (`PipelineFunction.py:87-100`): five arrays. -/
structure History where
  disp : List ℝ
  gap : List ℝ
  pressure : List ℝ
  area : List ℝ
  converged : List Bool

/-- The values of the first `if` (lines 87-92). -/
def History.empty : History := ⟨[], [], [], [], []⟩

/-- What is passed to `results_callback` (lines 429-439). -/
structure Report where
  displacement : NdArray ℝ
  gap : NdArray ℝ
  pressure : NdArray ℝ
  contacting : NdArray Bool
  meanDisplacement : ℝ
  meanPressure : ℝ
  totalContactArea : ℝ

/-- `opt.x[:f.shape[0], :f.shape[1]]` (line 110, `HardWall.py:136`). -/
def cutToForce (x f : NdArray ℝ) : Except PyErr (NdArray ℝ) :=
  match f.shape with
  | n0 :: n1 :: _ => sliceTo [n0, n1] x
  | _ => .error .indexError

/-- `(f > 0).sum()`. -/
noncomputable def countPositive (f : NdArray ℝ) : ℕ :=
  sumShape f.shape fun x => if 0 < f.get x then 1 else 0

/-- `_contact_calculation` (lines 37-135).  `sizes` are `topography.physical_sizes`. -/
noncomputable def contactCalculation (sizes : List ℝ) (solver : Solver) (Y : AnySys) (offset externalForce : Option ℝ)
    (history : Option History) (pentol : Option ℝ) (maxiter : ℤ) : Except PyErr (Report × History) × AnySys :=
  let middle := npMean Y.heights
  let hist := history.getD .empty
  match Y.minimize solver offset externalForce pentol maxiter with
  | (.error e, Y') => (.error e, Y')
  | (.ok opt, Y') =>
    let out : Except PyErr (Report × History) := do
      let force := opt.jac
      let displacement ← cutToForce opt.x force
      let load := force.sum / sizes.prod
      let area := (countPositive force : ℝ) / (Y.heights.shape.prod : ℕ)
      let h : History :=
        { disp := hist.disp ++ [opt.offset]
          gap := hist.gap ++ [npMean displacement - middle - opt.offset]
          pressure := hist.pressure ++ [load]
          area := hist.area ++ [area]
          converged := hist.converged ++ [opt.success] }
      let g ← binop (· - ·) displacement Y'.heights
      pure (⟨displacement, g.map (fun v => if v - opt.offset < 0 then 0 else v - opt.offset),
        force.map (· / Y'.sys.sub.hs.areaPerPt), force.map (fun v => decide (0 < v)), opt.offset, load, area⟩, h)
    (out, Y')

/-- The offset `_next_contact_step` chooses (lines 182-217). -/
noncomputable def nextOffset (heights : NdArray ℝ) (history : Option History) : ℝ :=
  let top := npMax heights
  let middle := npMean heights
  let bot := npMin heights
  match history with
  | none => -middle
  | some h =>
    let step := h.disp.length
    if step = 0 then -middle
    else if step = 1 then -top + 0.01 * (top - middle)
    else
      let rows := sortedBy Prod.snd (h.disp.zip h.area)
      let sd := rows.map Prod.fst
      let i := argmax (dArea heights.shape.prod (rows.map Prod.snd))
      if i = step - 1 then bot + 2 * (sd.getLastD 0 - bot)
      else (sd.getD i 0 + sd.getD (i + 1) 0) / 2

/-- `_next_contact_step` (lines 138-226). -/
noncomputable def nextContactStep (sizes : List ℝ) (solver : Solver) (Y : AnySys) (history : Option History)
    (pentol : Option ℝ) (maxiter : ℤ) : Except PyErr (Report × History) × AnySys :=
  let Y := Y.resetPlastic
  contactCalculation sizes solver Y (some (nextOffset Y.heights history)) none history pentol maxiter

/-! ## `contact_mechanics` -/

/-- The topography the function is called on, as it enters the calculation; `rmsHeight` is
`rms_height_from_area()` of the third-party package SurfaceTopography. -/
structure Topo where
  heights : NdArray ℝ
  physicalSizes : List ℝ
  isPeriodic : Bool
  rmsHeight : ℝ

/-- `topography.area_per_pt` of SurfaceTopography. -/
noncomputable def Topo.areaPerPt (T : Topo) : ℝ := T.physicalSizes.prod / (T.heights.shape.prod : ℕ)

/-- `optimizer_kwargs`, the keyword arguments `contact_mechanics` forwards to the solver (`PipelineFunction.py:103-109`);
the defaults are those of `constrained_conjugate_gradients` (`ConstrainedConjugateGradients.py:52-56`).
Simplification: `initial_displacements` and `initial_forces` are not among them; `logger`, `callback` and `verbose` do not
change the result; repeating an argument of the pipeline (`offset`, `pentol`, ...) raises `TypeError` in Python's call. -/
structure OptimizerKwargs where
  forcetol : ℝ := 1 / 100000
  thermotol : ℝ := 1 / 1000000
  mixfac : ℝ := 1 / 10
  mixdecfac : ℝ := 95 / 100
  minmixsteps : ℕ := 10

/-- Arguments of `contact_mechanics` (lines 229-239); `callback` says whether `results_callback` is
given. -/
structure PipeArgs where
  substrate : Option String := none
  nsteps : Option ℤ := none
  offsets : Option (List ℝ) := none
  pressures : Option (List ℝ) := none
  hardness : Option ℝ := none
  maxiter : ℤ := 100
  callback : Bool := false
  optimizerKwargs : OptimizerKwargs := {}

/-- What one pass of the loop computes: an offset, an external force or an automatic step. -/
inductive Request where
  | offset (o : ℝ)
  | force (F : ℝ)
  | auto

/-- The passes of `for i in range(nsteps)` (lines 368-427): `offsets` first, then `pressures`
(times `force_conv`), else automatic steps; a negative `nsteps` gives an empty range. -/
noncomputable def requests (T : Topo) (A : PipeArgs) : List Request :=
  match A.offsets, A.pressures with
  | some os, _ => os.map .offset
  | none, some ps => ps.map fun p => .force (p * T.physicalSizes.prod)
  | none, none => List.replicate (A.nsteps.getD 0).toNat .auto

/-- One pass of the loop (lines 375-427). -/
noncomputable def runStep (sizes : List ℝ) (solver : Solver) (pentol : Option ℝ) (maxiter : ℤ) (Y : AnySys)
    (history : Option History) : Request → Except PyErr (Report × History) × AnySys
  | .offset o => contactCalculation sizes solver Y (some o) none history pentol maxiter
  | .force F => contactCalculation sizes solver Y none (some F) history pentol maxiter
  | .auto => nextContactStep sizes solver Y history pentol maxiter

/-- The loop (lines 373-439): history after the last pass, and the callback calls in order. -/
noncomputable def runSteps (sizes : List ℝ) (solver : Solver) (pentol : Option ℝ) (maxiter : ℤ) (callback : Bool) :
    AnySys → Option History → List Request → Except PyErr (Option History) × List Report
  | _, history, [] => (.ok history, [])
  | Y, history, q :: qs =>
    match runStep sizes solver pentol maxiter Y history q with
    | (.error e, _) => (.error e, [])
    | (.ok (rep, h), Y') =>
      match runSteps sizes solver pentol maxiter callback Y' (some h) qs with
      | (r, reps) => (r, if callback then rep :: reps else reps)

/-- The five arrays `contact_mechanics` returns (line 449). -/
structure Result where
  meanPressure : List ℝ
  totalContactArea : List ℝ
  meanDisplacement : List ℝ
  meanGap : List ℝ
  converged : List Bool

/-- Lines 309-331: which combinations of `nsteps`, `offsets`, `pressures` are accepted. -/
def validate (A : PipeArgs) : Except PyErr Unit :=
  if A.nsteps.isNone ∧ A.offsets.isNone ∧ A.pressures.isNone then .error .valueError
  else if A.nsteps.isSome ∧ A.offsets.isSome ∧ A.pressures.isSome then .error .valueError
  else if A.nsteps.isSome ∧ A.offsets.isSome then .error .valueError
  else if A.nsteps.isSome ∧ A.pressures.isSome then .error .valueError
  else if A.offsets.isSome ∧ A.pressures.isSome then .error .valueError
  else .ok ()

/-- `(hardness is not None) and (hardness > 0)` (lines 341, 356). -/
noncomputable def usedHardness (A : PipeArgs) : Option ℝ :=
  match A.hardness with
  | some H => if 0 < H then some H else none
  | none => none

/-- Substrate of lines 346-354; the name defaults to the kind of the topography (lines 294-295).  The
dictionary lookup of another name is `KeyError`.  A mismatch with the topography only logs. -/
noncomputable def makeSubstrate (T : Topo) (substrate : Option String) : Except PyErr Substrate :=
  match substrate.getD (if T.isPeriodic then "periodic" else "nonperiodic") with
  | "periodic" => do
    pure ⟨← construct ⟨T.heights.shape, 1, T.physicalSizes, none, none, 0, none⟩, false, false⟩
  | "nonperiodic" => do
    pure ⟨← constructFree ⟨T.heights.shape, 1, T.physicalSizes, none⟩, true, false⟩
  | _ => throw .keyError

/-- System of lines 341-359 (`make_system` and `make_plastic_system` with a substrate object only
construct the system, `Factory.py:101-142`).  A new `PlasticTopography` has no plastic displacement. -/
noncomputable def makePipeSystem (T : Topo) (A : PipeArgs) : Except PyErr AnySys := do
  let sub ← makeSubstrate T A.substrate
  let S ← mkSystem sub T.heights
  match usedHardness A with
  | some H => pure (.plastic ⟨S, T.heights, T.heights.map fun _ => 0, H, T.areaPerPt⟩)
  | none => pure (.elastic S)

/-- Penetration tolerance (lines 339, 364-366). -/
noncomputable def pipePentol (T : Topo) : ℝ :=
  max (T.rmsHeight / (10 * ((T.heights.shape.map (Nat.cast : ℕ → ℝ)).sum / T.heights.shape.length))) (10 ^ (-12 : ℤ))

/-- `contact_mechanics` (lines 229-449), with the callback calls it made.  Unpacking the history of a
calculation without steps (`None`) raises `TypeError` (line 441). -/
noncomputable def contactMechanics (T : Topo) (solver : Solver) (A : PipeArgs) : Except PyErr Result × List Report :=
  match (do validate A; makePipeSystem T A) with
  | .error e => (.error e, [])
  | .ok Y =>
    match runSteps T.physicalSizes solver (some (pipePentol T)) A.maxiter A.callback Y none (requests T A) with
    | (.error e, reps) => (.error e, reps)
    | (.ok none, reps) => (.error .typeError, reps)
    | (.ok (some h), reps) => (.ok ⟨h.pressure, h.area, h.disp, h.gap, h.converged⟩, reps)

end CM.Pipe
