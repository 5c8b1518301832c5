import Verif.Model.HalfSpace
import Mathlib.Analysis.SpecialFunctions.Log.Basic
/-!
# Free (non-periodic) elastic half-spaces

Model of `FreeFFTElasticHalfSpace`, `/repo/ContactMechanics/FFTElasticHalfSpace.py:888-1283`.
-/
namespace CM.HS
open Finset Complex CM.FFT

/-- Displacement at `(x, y)` due to a uniform pressure on a pixel of half-widths `a`, `b` centred at
the origin, the expression of `FFTElasticHalfSpace.py:1064-1137` term by term. -/
noncomputable def loveKernel (young a b x y : ℝ) : ℝ :=
  1 / (Real.pi * young) *
    ((x + a) * Real.log (((y + b) + Real.sqrt ((y + b) * (y + b) + (x + a) * (x + a)))
        / ((y - b) + Real.sqrt ((y - b) * (y - b) + (x + a) * (x + a))))
      + (y + b) * Real.log (((x + a) + Real.sqrt ((y + b) * (y + b) + (x + a) * (x + a)))
        / ((x - a) + Real.sqrt ((y + b) * (y + b) + (x - a) * (x - a))))
      + (x - a) * Real.log (((y - b) + Real.sqrt ((y - b) * (y - b) + (x - a) * (x - a)))
        / ((y + b) + Real.sqrt ((y + b) * (y + b) + (x - a) * (x - a))))
      + (y - b) * Real.log (((x - a) + Real.sqrt ((y - b) * (y - b) + (x - a) * (x - a)))
        / ((x + a) + Real.sqrt ((y - b) * (y - b) + (x + a) * (x + a)))))

/-- Signed offset of padded index `k` (`FFTElasticHalfSpace.py:1050-1053`, `1059-1062`). -/
def freeOffset (n k : ℕ) : ℤ := if k ≤ n then (k : ℤ) else (k : ℤ) - n * 2

/-- Real-space Green's function on the padded grid (`FFTElasticHalfSpace.py:1041-1137`). -/
noncomputable def freeKernel (young : ℝ) (nx ny : ℕ) (dx dy : ℝ) (i j : ℕ) : ℝ :=
  loveKernel young (dx * 0.5) (dy * 0.5) (freeOffset nx i * dx) (freeOffset ny j * dy)

/-- Constructor arguments (`FFTElasticHalfSpace.py:913-922`). -/
structure FreeArgs where
  nbGridPts : List ℕ
  young : ℝ
  physicalSizes : List ℝ
  engineGrid : Option (List ℕ)

/-- The arguments handed to the base class (`FFTElasticHalfSpace.py:953-961`): Poisson number and the
other options keep the defaults of lines 174-176 (the default `poisson` is 0). -/
noncomputable def FreeArgs.base (a : FreeArgs) : Args :=
  ⟨a.nbGridPts, a.young, a.physicalSizes, none, none, 0, a.engineGrid⟩

/-- `FreeFFTElasticHalfSpace.__init__` (`FFTElasticHalfSpace.py:949-964`).  The computational grid is
doubled (line 951).  In one dimension `_compute_greens_function` returns `None` (line 1042) and
`_compute_surface_stiffness` subscripts it: `TypeError`. -/
noncomputable def constructFree (a : FreeArgs) : Except PyErr HalfSpace := do
  let dom := a.nbGridPts.map (2 * ·)
  let (sizes, m) ← initAttrs a.base dom
  match a.nbGridPts, sizes with
  | [nx, ny], [sx, sy] =>
    let G := fft [2 * nx, 2 * ny] fun x => match x with
      | [i, j] => freeKernel a.young nx ny (sx / nx) (sy / ny) i j
      | _ => 0
    pure ⟨a.nbGridPts, dom, sizes, stepsOf sizes a.nbGridPts, m, G, invertGreens G⟩
  | _, _ => throw .typeError

/-- `topography_nb_subdomain_grid_pts`, one direction (`FFTElasticHalfSpace.py:991-1004`): `n` points
of topography, the process' block of the padded grid starting at `loc` with `nsub` points. -/
def topoSub (n loc nsub : ℕ) : ℕ := (max 0 (min ((n : ℤ) - loc) nsub)).toNat

/-- Which branch of `evaluate_disp` (`FFTElasticHalfSpace.py:1163-1197`) an array of shape `shape`
takes; `sub`, `topo` are the local padded and topography shapes, `dom` and `grid` the global ones. -/
inductive DispBranch
  | padded
  | topography
  | serialPad
  | error
deriving DecidableEq

/-- `FFTElasticHalfSpace.py:1163-1197`. -/
def dispBranch (sub topo dom grid shape : List ℕ) : DispBranch :=
  if shape = sub then .padded
  else if shape = topo then .topography
  else if sub = dom then (if shape = grid then .serialPad else .error)
  else .error

/-- `padded_forces[slices] = forces` on zeros (`FFTElasticHalfSpace.py:1166-1167`), two-dimensional. -/
def embed (dom : List ℕ) (f : NdArray ℝ) : NdArray ℝ :=
  ⟨dom, fun x => match x, f.shape with
    | [i, j], [nx, ny] => if i < nx ∧ j < ny then f.get [i, j] else 0
    | _, _ => 0⟩

/-- `evaluate_disp` of the free half-space on one process (`FFTElasticHalfSpace.py:1141-1197`).
The branch of lines 1172-1182 indexes with a list of slices, which NumPy rejects with `IndexError`. -/
noncomputable def evaluateDispFree (s : HalfSpace) (f : NdArray ℝ) (includePadding : Bool) :
    Except PyErr (NdArray ℝ) :=
  match dispBranch s.domain (List.zipWith (fun n m => topoSub n 0 m) s.nbGridPts s.domain)
      s.domain s.nbGridPts f.shape with
  | .padded => evaluateDisp s f
  | .topography => do
    let u ← evaluateDisp s (embed s.domain f)
    if includePadding then pure u
    else pure ⟨s.nbGridPts, u.get⟩
  | .serialPad => .error .indexError
  | .error => .error .error

/-- `spawn_child` (`FFTElasticHalfSpace.py:966-977`) of a half-space with modulus `young`. -/
noncomputable def spawnChild (s : HalfSpace) (grid : List ℕ) : Except PyErr HalfSpace :=
  constructFree ⟨grid, s.mat.young,
    (List.range s.nbGridPts.length).map fun i =>
      (grid.getD i 0 : ℝ) / (s.nbGridPts.getD i 0 : ℝ) * s.physicalSizes.getD i 0, none⟩

/-! ## The boundary check -/

/-- One process of a distributed free half-space: its block of the padded grid and its part of the
force array (local indices); `masked` marks the masked entries. -/
structure Proc where
  loc0 : ℕ
  n0 : ℕ
  loc1 : ℕ
  n1 : ℕ
  force : ℕ → ℕ → ℝ
  masked : ℕ → ℕ → Bool

/-- `check_vals`: every unmasked value is at most `tol` in modulus
(`FFTElasticHalfSpace.py:1234-1243`). -/
noncomputable def valOk (p : Proc) (tol : ℝ) (i j : ℕ) : Prop :=
  p.masked i j = true ∨ |p.force i j| ≤ tol

/-- Local part of `check_boundaries` (`FFTElasticHalfSpace.py:1231-1257`), `gx × gy` the topography
grid. -/
noncomputable def checkLocal (gx gy : ℕ) (tol : ℝ) (p : Proc) : Prop :=
  let tx := topoSub gx p.loc0 p.n0
  let ty := topoSub gy p.loc1 p.n1
  let maxiy : ℤ := (gy : ℤ) - 1 - p.loc1
  let maxix : ℤ := (gx : ℤ) - 1 - p.loc0
  (p.loc1 = 0 → ∀ i < tx, valOk p tol i 0) ∧
  (0 < maxiy ∧ maxiy < ty → ∀ i < tx, valOk p tol i maxiy.toNat) ∧
  (p.loc0 = 0 → ∀ j < ty, valOk p tol 0 j) ∧
  (0 < maxix ∧ maxix < tx → ∀ j < ty, valOk p tol maxix.toNat j)

/-- `domain_boundary_mask` of one process (`FFTElasticHalfSpace.py:1006-1031`), at a local point inside
the local topography array. -/
def boundaryMask (gx gy : ℕ) (p : Proc) (i j : ℕ) : Bool :=
  let tx := topoSub gx p.loc0 p.n0
  let ty := topoSub gy p.loc1 p.n1
  let maxiy : ℤ := (gy : ℤ) - 1 - p.loc1
  let maxix : ℤ := (gx : ℤ) - 1 - p.loc0
  decide ((p.loc1 = 0 ∧ j = 0) ∨ ((0 < maxiy ∧ maxiy < ty) ∧ (j : ℤ) = maxiy) ∨
    (p.loc0 = 0 ∧ i = 0) ∨ ((0 < maxix ∧ maxix < tx) ∧ (i : ℤ) = maxix))

/-- `force[:, 0]` or `force[0, :]` is read although the local array is empty in that direction. -/
def checkIndexError (gx gy : ℕ) (p : Proc) : Prop :=
  (p.loc1 = 0 ∧ topoSub gy p.loc1 p.n1 = 0) ∨ (p.loc0 = 0 ∧ topoSub gx p.loc0 p.n0 = 0)

/-- `check_boundaries` (`FFTElasticHalfSpace.py:1217-1269`); the verdicts of all processes are
combined by `pnp.all`. -/
noncomputable def checkBoundaries (gx gy : ℕ) (tol : ℝ) (procs : List Proc) : Except PyErr Unit :=
  open Classical in
  if ∃ p ∈ procs, checkIndexError gx gy p then .error .indexError
  else if ∀ p ∈ procs, checkLocal gx gy tol p then .ok ()
  else .error .freeBoundaryError

end CM.HS
