import Verif.Model.FreeHalfSpace
/-!
# Substrates on several processes

`PeriodicFFTElasticHalfSpace` (two-dimensional) and `FreeFFTElasticHalfSpace` when the grid is distributed,
`/repo/ContactMechanics/FFTElasticHalfSpace.py`.  Every process computes its block of the Green's function from the location and size of
its block, and multiplies blocks of spectra; the processes meet in the transforms of the FFT engine.

Simplifications: the FFT engine is specified (as in `Model/FFT`): it transforms the array put together from the blocks of all processes
and gives each its block of the result.  Local arrays have the shapes of the blocks.  A constructor that raises on one process is an
exception of the whole (the others would wait).
-/
namespace CM.HS
open Finset Complex CM.FFT

/-- What one process holds: its block of the grid (`subdomain_locations`, `nb_subdomain_grid_pts`, lines 340-360), its block of the
half spectrum (`fourier_locations`, `nb_fourier_grid_pts`, lines 397-413), and the arrays on the latter. -/
structure ProcHS where
  real : Block
  four : Block
  greens : ℕ → ℕ → ℂ
  stiffness : ℕ → ℕ → ℂ

/-- The array put together from blocks. -/
noncomputable def gather {R A : Type} [Fintype R] [AddCommMonoid A] (b : R → Block) (a : R → ℕ → ℕ → A) (i j : ℕ) : A :=
  ∑ r, if (b r).loc0 ≤ i ∧ i < (b r).loc0 + (b r).n0 ∧ (b r).loc1 ≤ j ∧ j < (b r).loc1 + (b r).n1 then
    a r (i - (b r).loc0) (j - (b r).loc1) else 0

/-- `fftengine.fft` on several processes. -/
noncomputable def mpiFFT {R : Type} [Fintype R] (nx ny : ℕ) (S : R → ProcHS) (a : R → ℕ → ℕ → ℝ) (r : R) (k l : ℕ) : ℂ :=
  rfft2 nx ny (gather (fun r => (S r).real) a) ((S r).four.loc0 + k) ((S r).four.loc1 + l)

/-- `fftengine.ifft` on several processes. -/
noncomputable def mpiIFFT {R : Type} [Fintype R] (nx ny : ℕ) (S : R → ProcHS) (H : R → ℕ → ℕ → ℂ) (r : R) (i j : ℕ) : ℝ :=
  irfft2 nx ny (gather (fun r => (S r).four) H) ((S r).real.loc0 + i) ((S r).real.loc1 + j)

/-- `_compute_surface_stiffness` on a block (`FFTElasticHalfSpace.py:563-571`). -/
noncomputable def invertBlock (G : ℕ → ℕ → ℂ) : ℕ → ℕ → ℂ := open Classical in fun k l => if G k l ≠ 0 then 1 / G k l else 0

/-- `PeriodicFFTElasticHalfSpace.__init__` on the process with the given blocks (`FFTElasticHalfSpace.py:169-306`, `494-571`). -/
noncomputable def constructProc (a : Args) (real four : Block) : Except PyErr ProcHS := do
  let (sizes, m) ← initAttrs a a.nbGridPts
  match a.nbGridPts, sizes with
  | [nx, ny], [sx, sy] =>
    let G ← greensBlock2 m nx ny sx sy (four.loc0, four.loc1) (four.n0, four.n1)
    let G : ℕ → ℕ → ℂ := fun k l => (G k l : ℂ)
    pure ⟨real, four, G, invertBlock G⟩
  | _, _ => throw .typeError

/-- `evaluate_disp` on several processes (`FFTElasticHalfSpace.py:573-589`); `nx × ny` is the grid of the FFT, `area` is `area_per_pt`. -/
noncomputable def mpiDisp {R : Type} [Fintype R] (nx ny : ℕ) (area : ℝ) (S : R → ProcHS) (f : R → ℕ → ℕ → ℝ) (r : R) (i j : ℕ) : ℝ :=
  mpiIFFT nx ny S (fun r k l => mpiFFT nx ny S (fun r i j => -(f r i j)) r k l * (S r).greens k l) r i j / area * (1 / (nx * ny : ℕ))

/-- `evaluate_force` on several processes (`FFTElasticHalfSpace.py:591-611`). -/
noncomputable def mpiForce {R : Type} [Fintype R] (nx ny : ℕ) (area : ℝ) (S : R → ProcHS) (u : R → ℕ → ℕ → ℝ) (r : R) (i j : ℕ) : ℝ :=
  -(mpiIFFT nx ny S (fun r k l => mpiFFT nx ny S u r k l * (S r).stiffness k l) r i j) * area * (1 / (nx * ny : ℕ))

/-- `evaluate_k_disp` on several processes (`FFTElasticHalfSpace.py:613-637`). -/
noncomputable def mpiKDisp {R : Type} [Fintype R] (nx ny : ℕ) (area : ℝ) (S : R → ProcHS) (f : R → ℕ → ℕ → ℝ) (r : R) (k l : ℕ) : ℂ :=
  (S r).greens k l * mpiFFT nx ny S (fun r i j => -(f r i j)) r k l / area

/-- `evaluate_k_force` on several processes (`FFTElasticHalfSpace.py:639-655`). -/
noncomputable def mpiKForce {R : Type} [Fintype R] (nx ny : ℕ) (area : ℝ) (S : R → ProcHS) (u : R → ℕ → ℕ → ℝ) (r : R) (k l : ℕ) : ℂ :=
  -((S r).stiffness k l) * mpiFFT nx ny S u r k l * area

/-- `evaluate_elastic_energy` on several processes (`FFTElasticHalfSpace.py:676-684`): `pnp.dot` adds up the local products. -/
noncomputable def mpiEnergy {R : Type} [Fintype R] (S : R → ProcHS) (f u : R → ℕ → ℕ → ℝ) : ℝ :=
  0.5 * ∑ r, ∑ i ∈ range (S r).real.n0, ∑ j ∈ range (S r).real.n1, u r i j * -(f r i j)

/-! ## Free half-space -/

/-- The block of the real-space Green's function of a process (`FFTElasticHalfSpace.py:1041-1137`). -/
noncomputable def freeKernelBlock (young : ℝ) (nx ny : ℕ) (dx dy : ℝ) (b : Block) (i j : ℕ) : ℝ :=
  loveKernel young (dx * 0.5) (dy * 0.5) (freeOffset nx (b.loc0 + i) * dx) (freeOffset ny (b.loc1 + j) * dy)

/-- `FreeFFTElasticHalfSpace.__init__` on all processes (`FFTElasticHalfSpace.py:949-964`, `1033-1139`). -/
noncomputable def constructFreeProcs {R : Type} [Fintype R] (a : FreeArgs) (real four : R → Block) : Except PyErr (R → ProcHS) := do
  let (sizes, _) ← initAttrs a.base (a.nbGridPts.map (2 * ·))
  match a.nbGridPts, sizes with
  | [nx, ny], [sx, sy] =>
    let E : R → ProcHS := fun r => ⟨real r, four r, fun _ _ => 0, fun _ _ => 0⟩
    let G := mpiFFT (2 * nx) (2 * ny) E fun r => freeKernelBlock a.young nx ny (sx / nx) (sy / ny) (real r)
    pure fun r => ⟨real r, four r, G r, invertBlock (G r)⟩
  | _, _ => throw .typeError

/-- `topography_nb_subdomain_grid_pts` of the block of a process (`FFTElasticHalfSpace.py:991-1004`). -/
def topoShape (nx ny : ℕ) (b : Block) : ℕ × ℕ := (topoSub nx b.loc0 b.n0, topoSub ny b.loc1 b.n1)

/-- `padded_forces` of a process (`FFTElasticHalfSpace.py:1166-1167`). -/
def embedBlock (nx ny : ℕ) (b : Block) (f : ℕ → ℕ → ℝ) : ℕ → ℕ → ℝ :=
  fun i j => if i < (topoShape nx ny b).1 ∧ j < (topoShape nx ny b).2 then f i j else 0

/-- `evaluate_disp` of the free half-space on several processes, forces given on the topography (`FFTElasticHalfSpace.py:1163-1171`);
the entries of the local topography are returned. -/
noncomputable def mpiDispFree {R : Type} [Fintype R] (nx ny : ℕ) (area : ℝ) (S : R → ProcHS) (f : R → ℕ → ℕ → ℝ) (r : R) (i j : ℕ) : ℝ :=
  mpiDisp (2 * nx) (2 * ny) area S (fun r => embedBlock nx ny (S r).real (f r)) r i j

end CM.HS
