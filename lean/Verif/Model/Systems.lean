import Verif.Model.Array
import Verif.Model.FreeHalfSpace
import Mathlib.Data.EReal.Basic
/-!
# Contact systems

Model of `/repo/ContactMechanics/Systems.py`, `/repo/ContactMechanics/PlasticSystemSpecialisations.py`,
`ElasticSubstrate.compute` (`/repo/ContactMechanics/Substrates.py:136-149`) and `compare_containers`
(`/repo/ContactMechanics/Tools/common.py:34-53`).

Simplifications that apply to the whole file
* one process: subdomain = domain, `Reduction`s are plain sums;
* the topography is defined everywhere (no masked heights), numbers are reals;
* a function that mutates the system returns its outcome *and* the new state; when it raises, the
  state is the one left behind by the statements executed before;
* attributes that do not exist yet (`offset` before the first success) are `none`;
* logging is not modelled.
-/
namespace CM.System
open CM.HS CM.FFT

/-- The substrate of a system: a half-space, whether it is the free class, and the free class'
`_check_boundaries` flag (`FFTElasticHalfSpace.py:963`). -/
structure Substrate where
  hs : HalfSpace
  free : Bool
  checkFlag : Bool

/-- Mutable state of a system and of its substrate and surface.  `heights` is what
`surface.heights()` returns. -/
structure Sys where
  sub : Substrate
  heights : NdArray ℝ
  gap : Option (NdArray ℝ)
  disp : Option (NdArray ℝ)
  force : Option (NdArray ℝ)
  energy : Option ℝ
  gradient : Option (NdArray ℝ)
  contactZone : Option (NdArray Bool)
  offset : Option ℝ
  /-- `substrate.energy` -/
  subEnergy : Option ℝ
  /-- `substrate.force` -/
  subForce : Option (NdArray ℝ)
  /-- `substrate.disp` -/
  subDisp : Option (NdArray ℝ)

/-! ## Construction -/

/-- A Python value handed to `compare_containers`: a tuple, a list, a NumPy vector or a number. -/
inductive PyVal where
  | tuple (l : List ℚ)
  | list (l : List ℚ)
  | vector (l : List ℚ)
  | number (x : ℚ)
deriving DecidableEq

/-- `bool(cont_a != cont_b)`.  Between a vector and anything else NumPy compares elementwise (with
broadcasting); the truth value of the result raises `ValueError` unless it has exactly one element.
(Simplifications: for vectors of incompatible length NumPy raises `ValueError`, and so does the truth
value of an empty comparison; older NumPy versions return a boolean with a warning.) -/
def differ (a b : PyVal) : Except PyErr Bool :=
  let elementwise (x y : List ℚ) : Except PyErr Bool :=
    match x, y with
    | [u], [v] => .ok (decide (u ≠ v))
    | _, _ => .error .valueError
  match a, b with
  | .vector x, .vector y | .vector x, .tuple y | .vector x, .list y | .tuple x, .vector y
  | .list x, .vector y => elementwise x y
  | .vector x, .number y => elementwise x [y]
  | .number x, .vector y => elementwise [x] y
  | a, b => .ok (decide (a ≠ b))

/-- `len(cont)` and iteration: `None` where Python raises `TypeError`. -/
def PyVal.items : PyVal → Option (List ℚ)
  | .tuple l | .list l | .vector l => some l
  | .number _ => none

/-- `compare_containers` (`Tools/common.py:34-53`). -/
def compareContainers (a b : PyVal) : Except PyErr Bool := do
  if ← differ a b then
    match a.items, b.items with
    | some x, some y =>
      if x.length ≠ y.length then pure false
      else pure ((x.zip y).all fun p => decide (p.1 = p.2))
    | _, _ => pure false
  else pure true

/-- A tuple of grid points as a Python value. -/
def tupleOf (l : List ℕ) : PyVal := .tuple (l.map (Nat.cast : ℕ → ℚ))

/-- `NonSmoothContactSystem.__init__` (`Systems.py:58-79`, `381-397`). -/
def mkSystem (sub : Substrate) (heights : NdArray ℝ) : Except PyErr Sys := do
  if ← compareContainers (tupleOf heights.shape) (tupleOf sub.hs.nbGridPts) then
    pure ⟨sub, heights, none, none, none, none, none, none, none, none, none, none⟩
  else throw .incompatibleResolution

/-! ## Substrate interface -/

/-- `substrate.evaluate_disp` of either class. -/
noncomputable def Substrate.evaluateDisp (s : Substrate) (f : NdArray ℝ) : Except PyErr (NdArray ℝ) :=
  if s.free then evaluateDispFree s.hs f false else HS.evaluateDisp s.hs f

/-- `substrate.topography_nb_subdomain_grid_pts` on one process (`FFTElasticHalfSpace.py:349`,
`992-1003`): the topography grid for both classes. -/
def Substrate.topo (s : Substrate) : List ℕ := s.hs.nbGridPts

/-- `substrate.check()` (`Substrates.py:98-111`, `FFTElasticHalfSpace.py:1217-1283`) with the current
`substrate.force`, an array of topography shape. -/
noncomputable def Substrate.check (s : Substrate) (force : NdArray ℝ) : Except PyErr Unit :=
  if s.free ∧ s.checkFlag then
    match s.hs.nbGridPts with
    | [gx, gy] => checkBoundaries gx gy 0
        [⟨0, 2 * gx, 0, 2 * gy, fun i j => force.get [i, j], fun _ _ => false⟩]
    | _ => .ok ()
  else .ok ()

/-! ## Gap and bounds -/

/-- `compute_gap` (`Systems.py:123-134`; the two branches are the same). -/
def computeGap (S : Sys) (disp : NdArray ℝ) (offset : ℝ) : Except PyErr (NdArray ℝ) := do
  let d ← sliceTo S.sub.topo disp
  binop (· - ·) d (S.heights.map (· + offset))

/-- A masked array: entries and mask. -/
structure Masked where
  data : NdArray ℝ
  mask : List ℕ → Bool

/-- Membership of an index in the slices `0:n0, 0:n1, ...`. -/
def inSlice (ns x : List ℕ) : Bool := x.length == ns.length && (x.zip ns).all fun p => decide (p.1 < p.2)

/-- `_lbounds_from_heights` (`Systems.py:212-222`): everything masked except the topography region.
The assignment broadcasts; shapes agree for every constructed system. -/
def lboundsFromHeights (S : Sys) (offset : ℝ) : Masked where
  data := ⟨S.sub.hs.domain, fun x => S.heights.get x + offset⟩
  mask := fun x => !inSlice S.sub.topo x

/-- `np.ma.filled(bounds, value).ravel()`. -/
def Masked.filled (m : Masked) (fill : EReal) : NdArray EReal :=
  ravel ⟨m.data.shape, fun x => if m.mask x then fill else ((m.data.get x : ℝ) : EReal)⟩

/-- Bounds handed to SciPy; a missing side is the `Bounds` default `∓inf`. -/
structure Bounds where
  lb : Option (NdArray EReal)
  ub : Option (NdArray EReal)

/-- `_reshape_bounds` (`Systems.py:198-210`). -/
noncomputable def reshapeBounds (lbounds ubounds : Option Masked) : Option Bounds :=
  match lbounds, ubounds with
  | some l, some u => some ⟨some (l.filled ⊥), some (u.filled ⊤)⟩
  | some l, none => some ⟨some (l.filled ⊥), none⟩
  | none, some u => some ⟨none, some (u.filled ⊤)⟩
  | none, none => none

/-- `shape_minimisation_input` (`Systems.py:162-180`). -/
def shapeMinimisationInput (S : Sys) (a : NdArray ℝ) : Except PyErr (NdArray ℝ) :=
  if S.sub.hs.domain.prod = a.size then .ok (ravel a) else .error .incompatibleResolution

/-- `shape_minimisation_output` (`Systems.py:182-196`). -/
def shapeMinimisationOutput (S : Sys) (a : NdArray ℝ) : Except PyErr (NdArray ℝ) :=
  if S.sub.hs.domain.prod = a.size then reshape a S.sub.hs.domain else .error .incompatibleResolution

/-! ## Results derived from the state -/

/-- `compute_normal_force` (`Systems.py:421-423`).  Summing `None` raises; the class of the exception is
decided by NuMPI and recorded as `TypeError`. -/
noncomputable def computeNormalForce (S : Sys) : Except PyErr ℝ :=
  match S.subForce with
  | none => .error .typeError
  | some f => .ok f.sum

/-- `compute_nb_contact_pts` (`Systems.py:425-430`). -/
def computeNbContactPts (S : Sys) : Except PyErr ℕ :=
  match S.contactZone with
  | none => .error .typeError
  | some c => .ok (sumShape c.shape fun x => if c.get x then 1 else 0)

/-- `compute_contact_area` (`Systems.py:141-143`). -/
noncomputable def computeContactArea (S : Sys) : Except PyErr ℝ := do
  pure ((← computeNbContactPts S : ℕ) * S.sub.hs.areaPerPt)

/-- `compute_relative_contact_area` (`Systems.py:153-160`). -/
noncomputable def computeRelativeContactArea (S : Sys) : Except PyErr ℝ := do
  pure ((← computeContactArea S) / S.sub.hs.physicalSizes.prod)

/-! ## Evaluation -/

/-- `evaluate` (`Systems.py:459-506`), including `substrate.compute` (`Substrates.py:136-149`). -/
noncomputable def evaluate (S : Sys) (disp : NdArray ℝ) (offset : ℝ) (pot forces : Bool) :
    Except PyErr (Option ℝ × Option (NdArray ℝ)) × Sys :=
  match computeGap S disp offset with
  | .error e => (.error e, S)
  | .ok g =>
    let S1 := { S with gap := some g }
    match HS.evaluate S.sub.hs disp pot forces with
    | .error e => (.error e, S1)
    | .ok (en, f) =>
      let S2 := { S1 with subEnergy := en, subForce := f }
      let S3 := { S2 with energy := if pot then S2.subEnergy else none
                          force := if forces then S2.subForce else none }
      (.ok (S3.energy, S3.force), S3)

/-- Energy and gradient an objective function returns to the optimiser. -/
abbrev Objective := Except PyErr (Option ℝ × NdArray ℝ)

/-- Returned pair `(self.energy, -self.force.ravel())`. -/
def negForce (S : Sys) : Objective :=
  match S.force with
  | none => .error .attributeError
  | some f => .ok (S.energy, (ravel f).map fun x => -x)

/-- `objective(offset, gradient=True)(disp)` (`Systems.py:508-540`). -/
noncomputable def objective (S : Sys) (offset : ℝ) (disp : NdArray ℝ) : Objective × Sys :=
  match reshape disp S.sub.hs.domain with
  | .error e => (.error e, S)
  | .ok d =>
    match evaluate S d offset true true with
    | (.error e, S') => (.error e, S')
    | (.ok _, S') => (negForce S', S')

/-- `primal_objective(offset, gradient=True)(gap)` (`Systems.py:642-652`). -/
noncomputable def primalObjective (S : Sys) (offset : ℝ) (gap : NdArray ℝ) : Objective × Sys :=
  let d : Except PyErr (NdArray ℝ) := do
    let g ← reshape gap S.sub.hs.domain
    let gh ← binop (· + ·) g S.heights
    reshape (gh.map (· + offset)) S.sub.hs.domain
  match d with
  | .error e => (.error e, S)
  | .ok disp =>
    match evaluate S disp offset true true with
    | (.error e, S') => (.error e, S')
    | (.ok _, S') => (negForce S', S')

/-- `primal_hessian_product` (`Systems.py:662-686`). -/
noncomputable def primalHessianProduct (S : Sys) (gap : NdArray ℝ) : Except PyErr (NdArray ℝ) := do
  let g ← reshape gap S.sub.hs.domain
  let f ← evaluateForce S.sub.hs g
  let r ← reshape f gap.shape
  pure (r.map fun x => -x)

/-- `evaluate_dual` (`Systems.py:759-830`). -/
noncomputable def evaluateDual (S : Sys) (force : NdArray ℝ) (offset : ℝ) :
    Except PyErr (ℝ × NdArray ℝ) × Sys :=
  let r : Except PyErr (NdArray ℝ × NdArray ℝ) := do
    let disp ← S.sub.evaluateDisp (force.map fun x => -x)
    let dh ← binop (· - ·) disp S.heights
    pure (disp, dh.map (· - offset))
  match r with
  | .error e => (.error e, S)
  | .ok (disp, grad) =>
    let S1 := { S with gradient := some grad }
    let en : Except PyErr ℝ := do
      let fd ← binop (· * ·) force disp
      let fh ← binop (· * ·) force (S.heights.map (· + offset))
      pure (1 / 2 * fd.sum - fh.sum)
    match en with
    | .error e => (.error e, S1)
    | .ok e =>
      (.ok (e, grad), { S1 with energy := some e, subForce := some (force.map fun x => -x)
                                subDisp := some disp })

/-- `dual_objective(offset)(pressure)` (`Systems.py:864-880`). -/
noncomputable def dualObjective (S : Sys) (offset : ℝ) (pressure : NdArray ℝ) : Objective × Sys :=
  match reshape pressure S.sub.topo with
  | .error e => (.error e, S)
  | .ok p =>
    match evaluateDual S p offset with
    | (.error e, S') => (.error e, S')
    | (.ok (e, g), S') => (.ok (some e, ravel g), S')

/-- `dual_hessian_product` (`Systems.py:882-902`). -/
noncomputable def dualHessianProduct (S : Sys) (pressure : NdArray ℝ) : Except PyErr (NdArray ℝ) := do
  let p ← reshape pressure S.sub.topo
  let u ← S.sub.evaluateDisp (p.map fun x => -x)
  reshape u pressure.shape

/-! ## Minimisation -/

/-- The part of an `OptimizeResult` the systems read. -/
structure OptResult where
  success : Bool
  x : NdArray ℝ
  jac : NdArray ℝ
  offset : ℝ
  plastic : NdArray Bool
  activeSet : NdArray Bool

/-- Statements executed before every minimisation (`Systems.py:593-595`, `723-725`, `941-943`). -/
def clear (S : Sys) : Sys := { S with disp := none, force := none, contactZone := none }

/-- `minimize_proxy` (`Systems.py:572-611`).  `solver` is what the solver returned or raised: the
built-in solver only calls the pure `evaluate_disp`/`evaluate_force`. -/
noncomputable def minimizeProxy (S : Sys) (solver : Except PyErr OptResult) : Except PyErr OptResult × Sys :=
  let S0 := clear S
  match solver with
  | .error e => (.error e, S0)
  | .ok r =>
    if r.success then
      let S1 := { S0 with offset := some r.offset, disp := some r.x, force := some r.jac
                          subForce := some r.jac
                          contactZone := some (r.jac.map fun v => decide (0 < v)) }
      match S1.sub.check r.jac with
      | .error e => (.error e, S1)
      | .ok () => (.ok r, S1)
    else (.ok r, S0)

/-- The optimiser of the primal and dual proxies is third-party code (SciPy, NuMPI).  A run is
described by the points at which it called the objective and by its result. -/
structure SolverRun where
  points : List (NdArray ℝ)
  result : OptResult

/-- Calls of an objective, in order; the first exception ends the run. -/
def callAll (obj : Sys → NdArray ℝ → Objective × Sys) : Sys → List (NdArray ℝ) → Except PyErr Unit × Sys
  | S, [] => (.ok (), S)
  | S, p :: ps =>
    match obj S p with
    | (.error e, S') => (.error e, S')
    | (.ok _, S') => callAll obj S' ps

/-- Names accepted by the primal and dual proxies (`Systems.py:715`, `936`). -/
def solverNames : List String := ["ccg-without-restart", "ccg-with-restart", "l-bfgs-b"]

/-- `primal_minimize_proxy` (`Systems.py:688-757`). -/
noncomputable def primalMinimizeProxy (S : Sys) (offset : ℝ) (initGap : Option (NdArray ℝ)) (solver : String)
    (run : SolverRun) : Except PyErr OptResult × Sys :=
  if solver ∉ solverNames then (.error .valueError, S) else
  let S0 := clear S
  match initGap with
  | none => (.error .attributeError, S0)
  | some g0 =>
    let start : Except PyErr Unit :=
      if solver = "l-bfgs-b" then do let _ ← shapeMinimisationInput S0 g0; pure () else pure ()
    match start with
    | .error e => (.error e, S0)
    | .ok () =>
      match callAll (fun S => primalObjective S offset) S0 run.points with
      | (.error e, S') => (.error e, S')
      | (.ok (), S') =>
        let r := run.result
        if r.success then
          let S1 := { S' with offset := some offset, gap := some r.x, force := some r.jac
                              subForce := some r.jac
                              contactZone := some (r.x.map fun v => decide (v = 0)) }
          match reshape S1.heights r.x.shape with
          | .error e => (.error e, S1)
          | .ok h => (.ok r, { S1 with disp := some ⟨r.x.shape, fun i => r.x.get i + offset + h.get i⟩ })
        else (.ok r, S')

/-- `dual_minimize_proxy` (`Systems.py:904-983`). -/
noncomputable def dualMinimizeProxy (S : Sys) (offset : ℝ) (initForce : Option (NdArray ℝ)) (solver : String)
    (run : SolverRun) : Except PyErr OptResult × Sys :=
  if solver ∉ solverNames then (.error .valueError, S) else
  let S0 := clear S
  match initForce with
  | none => (.error .attributeError, S0)
  | some f0 =>
    if f0.shape ≠ S.sub.topo then (.error .incompatibleResolution, S0) else
    match callAll (fun S => dualObjective S offset) S0 run.points with
    | (.error e, S') => (.error e, S')
    | (.ok (), S') =>
      let r := run.result
      if r.success then
        let S1 := { S' with offset := some offset, gap := some r.jac, force := some r.x
                            subForce := some r.x
                            contactZone := some (r.x.map fun v => decide (0 < v)) }
        match reshape S1.heights r.jac.shape with
        | .error e => (.error e, S1)
        | .ok h => (.ok r, { S1 with disp := some ⟨r.jac.shape, fun i => r.jac.get i + offset + h.get i⟩ })
      else (.ok r, S')

/-! ## Plastic systems -/

/-- A plastic system: the system, whose `heights` are base heights plus plastic displacement
(`PlasticTopography.heights` of SurfaceTopography, third party), and the surface's own attributes. -/
structure PSys where
  sys : Sys
  base : NdArray ℝ
  plasticDispl : NdArray ℝ
  hardness : ℝ
  /-- `surface.area_per_pt` -/
  areaPerPt : ℝ

/-- `PlasticNonSmoothContactSystem.minimize_proxy` (`PlasticSystemSpecialisations.py:60-69`); `solver` is
the outcome of the solver as a function of the `hardness` keyword. -/
noncomputable def plasticMinimizeProxy (P : PSys) (solver : ℝ → Except PyErr OptResult) :
    Except PyErr OptResult × PSys :=
  let hardness := P.hardness * P.areaPerPt
  match minimizeProxy P.sys (solver hardness) with
  | (.error e, S) => (.error e, { P with sys := S })
  | (.ok r, S) =>
    if r.success then
      let upd : Except PyErr (NdArray ℝ) := do
        let g ← computeGap S r.x r.offset
        let w ← binop (fun (b : Bool) (v : ℝ) => if b then v else 0) r.plastic g
        binop (· + ·) P.plasticDispl w
      match upd with
      | .error e => (.error e, { P with sys := S })
      | .ok pd =>
        (.ok r, { P with plasticDispl := pd
                         sys := { S with heights := ⟨P.base.shape, fun x => P.base.get x + pd.get x⟩ } })
    else (.ok r, { P with sys := S })

end CM.System
