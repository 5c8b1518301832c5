import Verif.Model.Systems
import Verif.Model.EndToEnd
import Verif.Model.ParallelSubstrate
import Verif.Model.ParallelCCG
/-!
# Contact systems on several processes, and the coordinates of the contact points

`NonSmoothContactSystem.minimize_proxy` and the summaries of its state, `/repo/ContactMechanics/Systems.py`, when the grid is distributed.
Every process holds a system object with its blocks of the arrays; the processes meet in `Reduction.sum` and in the check of the
substrate.

Simplifications: two-dimensional grids; a process that raises in a collective call makes it an exception of the whole (the others would
wait).
-/
namespace CM.System
open Finset CM.HS CM.FFT

/-- `np.argwhere` of a boolean array: the indices of the entries that are true, in row-major order. -/
def argwhere (a : NdArray Bool) : List (List ℕ) := ((List.range a.size).filter fun k => a.flat k).map (unflatIndex a.shape)

/-- `compute_contact_coordinates` (`Systems.py:432-437`).  `np.argwhere(None)` is an array without rows. -/
def computeContactCoordinates (S : Sys) : List (List ℕ) :=
  match S.contactZone with
  | none => []
  | some c => argwhere c

/-- The system object of one process (`Systems.py:58-79`, `381-397`): the substrate object knows the whole grid and the block of the
computational grid the process holds; the arrays are local. -/
structure ProcSys where
  sub : Substrate
  block : Block
  offset : Option ℝ
  disp : Option (NdArray ℝ)
  force : Option (NdArray ℝ)
  subForce : Option (NdArray ℝ)
  contactZone : Option (NdArray Bool)

/-- `NonSmoothContactSystem.__init__` on one process (`Systems.py:58-79`, `381-397`): the sizes of the whole grids are compared,
`grid` is that of the topography. -/
def mkProcSystem (sub : Substrate) (grid : List ℕ) (block : Block) : Except PyErr ProcSys := do
  if ← compareContainers (tupleOf grid) (tupleOf sub.hs.nbGridPts) then pure ⟨sub, block, none, none, none, none, none⟩
  else throw .incompatibleResolution

/-- `topography_nb_subdomain_grid_pts` at `subdomain_locations` (`FFTElasticHalfSpace.py:340-360`, `991-1004`). -/
def ProcSys.topo (T : ProcSys) (nx ny : ℕ) : Block :=
  if T.sub.free then ⟨T.block.loc0, (topoShape nx ny T.block).1, T.block.loc1, (topoShape nx ny T.block).2⟩ else T.block

/-- `substrate.check()` entered by all processes (`Substrates.py:98-111`, `FFTElasticHalfSpace.py:1217-1283`); `T` are the systems
after the assignment of the forces. -/
noncomputable def procCheck {R : Type} [Fintype R] (sub : Substrate) (T : R → ProcSys) : Except PyErr Unit :=
  if sub.free ∧ sub.checkFlag then
    match sub.hs.nbGridPts with
    | [gx, gy] => checkBoundaries gx gy 0 ((univ : Finset R).toList.map fun r =>
        ⟨(T r).block.loc0, (T r).block.n0, (T r).block.loc1, (T r).block.n1,
          fun i j => match (T r).subForce with | some f => f.get [i, j] | none => 0, fun _ _ => false⟩)
    | _ => .ok ()
  else .ok ()

/-- The attributes of one process after the solver returned (`Systems.py:593-609`). -/
noncomputable def procAfter (T : ProcSys) (res : Except PyErr OptResult) : ProcSys :=
  let T0 := { T with disp := none, force := none, contactZone := none }
  match res with
  | .error _ => T0
  | .ok w => if w.success then
      { T0 with offset := some w.offset, disp := some w.x, force := some w.jac, subForce := some w.jac
                contactZone := some (w.jac.map fun v => decide (0 < v)) }
    else T0

/-- Whether the process calls `substrate.check()` and this is a collective call. -/
def entersCheck (T : ProcSys) (res : Except PyErr OptResult) : Bool :=
  match res with
  | .error _ => false
  | .ok w => w.success && T.sub.free && T.sub.checkFlag

/-- `minimize_proxy` on several processes (`Systems.py:572-611`): what every process returns or raises, and its system afterwards.
`res` is what the solver did on each process.  No outcome (`none`) if some processes enter the check and others do not. -/
noncomputable def mpiMinimizeProxy {R : Type} [Fintype R] (sub : Substrate) (T : R → ProcSys) (res : R → Except PyErr OptResult) :
    Option (R → Except PyErr OptResult × ProcSys) :=
  let T1 := fun r => procAfter (T r) (res r)
  if (∀ r, entersCheck (T r) (res r) = true) ∨ ∀ r, entersCheck (T r) (res r) = false then
    some fun r =>
      (match res r with
       | .error e => .error e
       | .ok w => if entersCheck (T r) (res r) then (match procCheck sub T1 with | .error e => .error e | .ok () => .ok w) else .ok w, T1 r)
  else none

/-- `compute_normal_force` on several processes (`Systems.py:421-423`): all get the same number. -/
noncomputable def mpiNormalForce {R : Type} [Fintype R] (T : R → ProcSys) : Except PyErr ℝ :=
  if ∀ r, (T r).subForce.isSome = true then .ok (∑ r, match (T r).subForce with | some f => f.sum | none => 0) else .error .typeError

/-- `compute_nb_contact_pts` on several processes (`Systems.py:425-430`). -/
noncomputable def mpiNbContactPts {R : Type} [Fintype R] (T : R → ProcSys) : Except PyErr ℕ :=
  if ∀ r, (T r).contactZone.isSome = true then
    .ok (∑ r, match (T r).contactZone with | some c => sumShape c.shape fun x => if c.get x then 1 else 0 | none => 0)
  else .error .typeError

/-- `compute_contact_area` of one process (`Systems.py:141-143`): `area_per_pt` is that of its substrate. -/
noncomputable def mpiContactArea {R : Type} [Fintype R] (T : R → ProcSys) (r : R) : Except PyErr ℝ := do
  pure ((← mpiNbContactPts T : ℕ) * (T r).sub.hs.areaPerPt)

/-- `compute_relative_contact_area` of one process (`Systems.py:153-160`). -/
noncomputable def mpiRelativeContactArea {R : Type} [Fintype R] (T : R → ProcSys) (r : R) : Except PyErr ℝ := do
  pure ((← mpiContactArea T r) / (T r).sub.hs.physicalSizes.prod)

/-- `compute_contact_coordinates` of one process (`Systems.py:432-437`): no communication. -/
def procContactCoordinates (T : ProcSys) : List (List ℕ) :=
  match T.contactZone with
  | none => []
  | some c => argwhere c

/-- The `OptimizeResult` of one process as its system reads it (`ConstrainedConjugateGradients.py:459-475`, `497-509`): arrays of the
shape of the block, forces and plastic flags of the shape `tx × ty` of the local topography. -/
def procResult {n0 n1 : ℕ} (tx ty : ℕ) (r : CCG.Result (Fin n0 × Fin n1) ℝ) : OptResult where
  success := r.success
  x := Pipe.fieldArray n0 n1 r.x
  jac := ⟨[tx, ty], (Pipe.fieldArray n0 n1 r.jac).get⟩
  offset := r.offset
  plastic := ⟨[tx, ty], (Pipe.fieldArray n0 n1 (r.plastic.getD fun _ => false)).get⟩
  activeSet := Pipe.fieldArray n0 n1 r.activeSet

end CM.System
