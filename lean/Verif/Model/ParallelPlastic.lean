import Verif.Model.ParallelSystems
/-!
# Plastic contact systems on several processes

`PlasticNonSmoothContactSystem.minimize_proxy`, `/repo/ContactMechanics/PlasticSystemSpecialisations.py:60-69`, when the grid is
distributed: the surface of every process is a `PlasticTopography` on its block.

Simplifications: two-dimensional grids; as for the system on a single process, displacement and offset of the system are read from the
result of the solver, from which `minimize_proxy` has just copied them.
-/
namespace CM.System
open CM.HS CM.FFT

/-- The system object of one process and the attributes of its surface: `base` and `plasticDispl` are arrays of the shape of the
topography block, `hardness` and `area_per_pt` are numbers (`PlasticSystemSpecialisations.py:60-69`; `PlasticTopography` is third
party). -/
structure ProcPSys where
  sys : ProcSys
  base : NdArray ℝ
  plasticDispl : NdArray ℝ
  hardness : ℝ
  areaPerPt : ℝ

/-- `surface.heights()` of the local surface: base heights plus plastic displacement (third party). -/
def ProcPSys.heights (T : ProcPSys) : NdArray ℝ := ⟨T.base.shape, fun x => T.base.get x + T.plasticDispl.get x⟩

/-- `compute_gap` of one process (`Systems.py:123-134`): `comp_slice` is `local_topography_subdomain_slices`
(`FFTElasticHalfSpace.py:389-394`). -/
def procGap (T : ProcPSys) (nx ny : ℕ) (disp : NdArray ℝ) (offset : ℝ) : Except PyErr (NdArray ℝ) := do
  let d ← sliceTo [(T.sys.topo nx ny).n0, (T.sys.topo nx ny).n1] disp
  binop (· - ·) d (T.heights.map (· + offset))

/-- The keyword `hardness` this process hands over to `minimize_proxy` of the base class (`PlasticSystemSpecialisations.py:65`). -/
noncomputable def ProcPSys.force (T : ProcPSys) : ℝ := T.hardness * T.areaPerPt

/-- What one process does after `minimize_proxy` of the base class has returned or raised, and left its system as `T'`
(`PlasticSystemSpecialisations.py:66-69`). -/
noncomputable def procPlasticAfter (nx ny : ℕ) (T : ProcPSys) (o : Except PyErr OptResult × ProcSys) : Except PyErr OptResult × ProcPSys :=
  match o with
  | (.error e, T') => (.error e, { T with sys := T' })
  | (.ok w, T') =>
    if w.success then
      let upd : Except PyErr (NdArray ℝ) := do
        let g ← procGap { T with sys := T' } nx ny w.x w.offset
        let m ← binop (fun (b : Bool) (v : ℝ) => if b then v else 0) w.plastic g
        binop (· + ·) T.plasticDispl m
      match upd with
      | .error e => (.error e, { T with sys := T' })
      | .ok pd => (.ok w, { T with sys := T', plasticDispl := pd })
    else (.ok w, { T with sys := T' })

/-- `PlasticNonSmoothContactSystem.minimize_proxy` on several processes: `res` is what the solver did on each of them. -/
noncomputable def mpiPlasticMinimizeProxy {R : Type} [Fintype R] (sub : Substrate) (nx ny : ℕ) (T : R → ProcPSys)
    (res : R → Except PyErr OptResult) : Option (R → Except PyErr OptResult × ProcPSys) :=
  (mpiMinimizeProxy sub (fun r => (T r).sys) res).map fun T' r => procPlasticAfter nx ny (T r) (T' r)

end CM.System
