import Verif.Model.Systems
/-!
# Factory functions

Model of `/repo/ContactMechanics/Factory.py`.

Simplifications: one process; the arguments `communicator` and `fft` and the keyword argument `fftengine` are
not modelled; topographies and readers of the third-party package SurfaceTopography are records of what the
factory reads from them.  `make_plastic_system` (lines 137-156) differs from `make_system` only in the class it
instantiates, whose constructor is the inherited one.
-/
namespace CM.Factory
open CM.FFT CM.HS CM.System

/-- What the factory reads from a topography. -/
structure Topography where
  heights : NdArray ℝ
  physicalSizes : Option (List ℝ)
  isPeriodic : Bool

/-- What the factory reads from a reader: grid and sizes of the default channel, the attribute `is_periodic` if
the reader has one, and the topography it loads for given physical sizes. -/
structure Reader where
  grid : List ℕ
  physicalSizes : Option (List ℝ)
  isPeriodic : Option Bool
  load : List ℝ → Except PyErr Topography

/-- The argument `surface`: a topography, a reader, or a path (or open file) that `open_topography` turns into a
reader (lines 62-70). -/
inductive Surface where
  | topography (T : Topography)
  | reader (R : Reader)
  | path (opened : Except PyErr Reader)

/-- The argument `substrate`: an object, a name, or nothing. -/
inductive SubstrateArg where
  | none
  | name (s : String)
  | object (sub : Substrate)

/-- The remaining keyword arguments; `none` is "not given". -/
structure Kwargs where
  young : Option ℝ := none
  stiffnessQ0 : Option ℝ := none
  thickness : Option ℝ := none
  poisson : Option ℝ := none
  checkBoundaries : Option Bool := none

/-- `PeriodicFFTElasticHalfSpace(nb_grid_pts, physical_sizes=..., **kwargs)` (lines 95-98): `young` has no
default, unknown keywords are refused (`FFTElasticHalfSpace.py:169-181`). -/
noncomputable def buildPeriodic (grid : List ℕ) (sizes : List ℝ) (kw : Kwargs) : Except PyErr Substrate :=
  match kw.young, kw.checkBoundaries with
  | some E, none => do
    pure ⟨← construct ⟨grid, E, sizes, kw.stiffnessQ0, kw.thickness, kw.poisson.getD 0, none⟩, false, false⟩
  | _, _ => .error .typeError

/-- `FreeFFTElasticHalfSpace(nb_grid_pts, physical_sizes=..., **kwargs)` (lines 99-102,
`FFTElasticHalfSpace.py:913-922`). -/
noncomputable def buildFree (grid : List ℕ) (sizes : List ℝ) (kw : Kwargs) : Except PyErr Substrate :=
  match kw.young, kw.stiffnessQ0, kw.thickness, kw.poisson with
  | some E, none, none, none => do
    pure ⟨← constructFree ⟨grid, E, sizes, none⟩, true, kw.checkBoundaries.getD false⟩
  | _, _, _, _ => .error .typeError

/-- The substrate that reaches the constructor of the system: an object, or a string that is neither
`"periodic"` nor `"free"`. -/
inductive Resolved where
  | object (sub : Substrate)
  | text (s : String)

/-- Lines 93-102: `isPeriodic` is the attribute read at line 94 (`none` where it does not exist). -/
noncomputable def resolve (grid : List ℕ) (sizes : List ℝ) (isPeriodic : Option Bool) (kw : Kwargs) :
    SubstrateArg → Except PyErr Resolved
  | .object sub => .ok (.object sub)
  | .name s =>
    if s = "periodic" then (buildPeriodic grid sizes kw).map .object
    else if s = "free" then (buildFree grid sizes kw).map .object
    else .ok (.text s)
  | .none =>
    match isPeriodic with
    | some true => (buildPeriodic grid sizes kw).map .object
    | some false => (buildFree grid sizes kw).map .object
    | Option.none => .error .attributeError

/-- Lines 77-89: the argument wins over what the surface knows; `ValueError` if neither is there. -/
def chooseSizes (arg surface : Option (List ℝ)) : Except PyErr (List ℝ) :=
  match arg, surface with
  | some s, _ => .ok s
  | none, some s => .ok s
  | none, none => .error .valueError

/-- `_make_system_args` for a reader (lines 72-112). -/
noncomputable def argsOfReader (R : Reader) (sub : SubstrateArg) (sizes : Option (List ℝ)) (kw : Kwargs) :
    Except PyErr (Resolved × Topography) := do
  let s ← chooseSizes sizes R.physicalSizes
  let r ← resolve R.grid s R.isPeriodic kw sub
  match r with
  | .text _ => throw .attributeError
  | .object o => pure (.object o, ← R.load s)

/-- `_make_system_args` (lines 42-112).  A string as substrate fails for readers already at line 107. -/
noncomputable def makeSystemArgs (surface : Surface) (sub : SubstrateArg) (sizes : Option (List ℝ)) (kw : Kwargs) :
    Except PyErr (Resolved × Topography) :=
  match surface with
  | .topography T => do
    let s ← chooseSizes sizes T.physicalSizes
    let r ← resolve T.heights.shape s (some T.isPeriodic) kw sub
    pure (r, T)
  | .reader R => argsOfReader R sub sizes kw
  | .path opened => do argsOfReader (← opened) sub sizes kw

/-- `make_system` (lines 115-134).  The constructor of the system reads `substrate.area_per_pt` first
(`Systems.py:70`), which a string does not have. -/
noncomputable def makeSystem (surface : Surface) (sub : SubstrateArg) (sizes : Option (List ℝ)) (kw : Kwargs) :
    Except PyErr Sys := do
  let (r, T) ← makeSystemArgs surface sub sizes kw
  match r with
  | .text _ => throw .attributeError
  | .object o => mkSystem o T.heights

/-- `topography.make_contact_system(*args, **kwargs)` (lines 159-175): `make_system(surface=topography, *args,
**kwargs)` passes the first positional argument to the parameter `surface` as well, which Python refuses. -/
noncomputable def makeContactSystem (T : Topography) (args : List SubstrateArg) (sub : SubstrateArg) (sizes : Option (List ℝ))
    (kw : Kwargs) : Except PyErr Sys :=
  if args ≠ [] then .error .typeError else makeSystem (.topography T) sub sizes kw

end CM.Factory
