import Verif.Model.FreeHalfSpace
import Verif.Model.Array
import Verif.Model.Tools
/-!
# Semi-periodic elastic half-spaces

Model of `SemiPeriodicFFTElasticHalfSpace`, `/repo/ContactMechanics/FFTElasticHalfSpace.py:1286-1620`, and of what it
inherits from `FreeFFTElasticHalfSpace`.  One process, except where stated.
-/
namespace CM.HS
open Finset Complex CM.FFT CM.Tools

/-- Constructor arguments (`FFTElasticHalfSpace.py:1295-1306`); `nImages` may be any integer. -/
structure SemiArgs where
  nbGridPts : List ℕ
  young : ℝ
  physicalSizes : List ℝ
  perX : Bool := false
  perY : Bool := true
  nImages : ℤ := 10
  engineGrid : Option (List ℕ) := none

/-- The arguments without those of the subclass (`FFTElasticHalfSpace.py:1358-1366`). -/
def SemiArgs.free (a : SemiArgs) : FreeArgs := ⟨a.nbGridPts, a.young, a.physicalSizes, a.engineGrid⟩

/-- Computational grid in one direction (`FFTElasticHalfSpace.py:1345-1352`). -/
def semiDomain (per : Bool) (n : ℕ) : ℕ := if per then n else n * 2 - 1

/-- Indices of the images in one direction, `np.arange(-n_images, n_images+1)` or `[0]`
(`FFTElasticHalfSpace.py:1378-1385`). -/
def imageList (per : Bool) (nImages : ℤ) : List ℤ :=
  if per then (List.range (2 * nImages + 1).toNat).map fun (i : ℕ) => -nImages + (i : ℤ) else [0]

/-- Coordinates before the image shift (`FFTElasticHalfSpace.py:1424-1434`): `np.fft.fftfreq(dom)` is the integer
frequency divided by `dom`. -/
noncomputable def semiCoord (dom n : ℕ) (size : ℝ) (k : ℕ) : ℝ :=
  ((fftfreqInt dom k : ℝ) * (1 / (dom : ℝ))) * dom / n * size

/-- `_compute_greens_function_inner` (`FFTElasticHalfSpace.py:1400-1514`): real-space Green's function of one image. -/
noncomputable def semiInner (young : ℝ) (nx ny dom0 dom1 : ℕ) (sx sy : ℝ) (imgX imgY : ℤ) (i j : ℕ) : ℝ :=
  loveKernel young (sx / nx * 0.5) (sy / ny * 0.5) (semiCoord dom0 nx sx i + imgX * sx) (semiCoord dom1 ny sy j + imgY * sy)

/-- `G_real`, the sum over the images (`FFTElasticHalfSpace.py:1387-1394`). -/
noncomputable def semiReal (a : SemiArgs) (nx ny : ℕ) (sx sy : ℝ) (i j : ℕ) : ℝ :=
  ((imageList a.perX a.nImages).map fun ix => ((imageList a.perY a.nImages).map fun iy =>
    semiInner a.young nx ny (semiDomain a.perX nx) (semiDomain a.perY ny) sx sy ix iy i j).sum).sum

/-- `SemiPeriodicFFTElasticHalfSpace.__init__` (`FFTElasticHalfSpace.py:1344-1366`, `953-963`).  Reading the second
entry of the grid of a one-dimensional problem raises `IndexError` (lines 1349-1352). -/
noncomputable def constructSemi (a : SemiArgs) : Except PyErr HalfSpace :=
  match a.nbGridPts with
  | nx :: ny :: _ => do
    let dom := [semiDomain a.perX nx, semiDomain a.perY ny]
    let (sizes, m) ← initAttrs a.free.base dom
    match sizes with
    | [sx, sy] =>
      let G := fft dom fun x => match x with
        | [i, j] => semiReal a nx ny sx sy i j
        | _ => 0
      pure ⟨a.nbGridPts, dom, sizes, stepsOf sizes a.nbGridPts, m, G, invertGreens G⟩
    | _ => throw .typeError
  | _ => .error .indexError

/-- `evaluate_disp` (`FFTElasticHalfSpace.py:1516-1536`) is that of the free class. -/
noncomputable def evaluateDispSemi (s : HalfSpace) (f : NdArray ℝ) (includePadding : Bool) : Except PyErr (NdArray ℝ) :=
  evaluateDispFree s f includePadding

/-- `evaluate_force` (`FFTElasticHalfSpace.py:1538-1559`).  An array that does not have the shape of the computational
grid is written into zeros; one that is larger cannot be (`ValueError`), one with less than two axes has no
`shape[1]` (`IndexError`).  Simplification: arrays with three or more axes are refused with `ValueError`. -/
noncomputable def evaluateForceSemi (s : HalfSpace) (u : NdArray ℝ) : Except PyErr (NdArray ℝ) :=
  if u.shape ≠ s.domain then
    match u.shape, s.domain with
    | [a, b], [d0, d1] => if a ≤ d0 ∧ b ≤ d1 then evaluateForce s (embed s.domain u) else .error .valueError
    | [], _ => .error .indexError
    | [_], _ => .error .indexError
    | _, _ => .error .valueError
  else evaluateForce s u

/-- `np.argsort` of a list of integers (specification; entries are distinct where it is used). -/
def argsort (m : List ℤ) : List ℕ := (List.range m.length).mergeSort fun i j => decide (m.getD i 0 ≤ m.getD j 0)

/-- Order of the rows or columns (`FFTElasticHalfSpace.py:1571-1589`): `argsort` of the integer frequencies. -/
def semiOrder (per : Bool) (n : ℕ) : List ℕ :=
  argsort ((List.range (semiDomain per n)).map fun k => fftfreqInt (semiDomain per n) k)

/-- `get_G_real` (`FFTElasticHalfSpace.py:1561-1591`). -/
noncomputable def getGReal (a : SemiArgs) (nx ny : ℕ) (sx sy : ℝ) : NdArray ℝ :=
  ⟨[semiDomain a.perX nx, semiDomain a.perY ny], fun x => match x with
    | [i, j] => semiReal a nx ny sx sy ((semiOrder a.perX nx).getD i 0) ((semiOrder a.perY ny).getD j 0)
    | _ => 0⟩

/-- `get_G_real_slices` (`FFTElasticHalfSpace.py:1593-1615`): the slice in x and the slice in y. -/
noncomputable def getGRealSlices (a : SemiArgs) (nx ny : ℕ) (sx sy : ℝ) : NdArray ℝ × NdArray ℝ :=
  let G := getGReal a nx ny sx sy
  let d0 := semiDomain a.perX nx
  let d1 := semiDomain a.perY ny
  (⟨[d0], fun x => G.get [x.getD 0 0, d1 / 2]⟩, ⟨[d1], fun x => G.get [d0 / 2, x.getD 0 0]⟩)

/-- `spawn_child` (`FFTElasticHalfSpace.py:966-977`), inherited: `type(self)(nb_grid_pts, self.young, size)`, so that
periodicity and images take the defaults of lines 1300-1301. -/
noncomputable def spawnChildSemi (s : HalfSpace) (grid : List ℕ) : SemiArgs :=
  { nbGridPts := grid, young := s.mat.young,
    physicalSizes := (List.range s.nbGridPts.length).map fun i =>
      (grid.getD i 0 : ℝ) / (s.nbGridPts.getD i 0 : ℝ) * s.physicalSizes.getD i 0 }

/-- The assignment `self.real_buffer.p[...] = p_real` (`FFTElasticHalfSpace.py:1395`) on one process of a parallel run:
`p_real` has the shape of the whole domain, the buffer that of the local block; NumPy broadcasts axes of length
one only. -/
def assignBuffer (dom loc : List ℕ) : Except PyErr Unit :=
  if dom.length = loc.length ∧ (dom.zip loc).all (fun p => p.1 == p.2 || p.1 == 1) then .ok () else .error .valueError

end CM.HS
