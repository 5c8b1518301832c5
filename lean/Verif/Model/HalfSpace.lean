import Verif.Model.Py
import Verif.Model.FFT
import Mathlib.Analysis.SpecialFunctions.Trigonometric.DerivHyp
/-!
# Periodic elastic half-spaces

Model of `PeriodicFFTElasticHalfSpace`,
`/repo/ContactMechanics/FFTElasticHalfSpace.py:142-885`.

Simplifications common to the file: real numbers replace floating-point numbers (no rounding, no
overflow, no NaN); the FFT engine is the specified one of `Verif.Model.FFT`; evaluation methods
(`evaluateDisp` ...) are those of a run on one process, whereas the Green's function and the
Fourier-space scalar product are modelled per process (arbitrary block of the half spectrum).
-/
namespace CM.HS
open Finset Complex CM.FFT
open scoped ComplexConjugate

/-! ## Arrays -/

/-- Sum over all entries of an array of the given shape. -/
def sumShape {M : Type} [AddCommMonoid M] : List ℕ → (List ℕ → M) → M
  | [], f => f []
  | n :: rest, f => ∑ i ∈ range n, sumShape rest fun l => f (i :: l)

/-- Forward transform of an array by the FFT engine, one- and two-dimensional engines. -/
noncomputable def fft (shape : List ℕ) (a : List ℕ → ℝ) : List ℕ → ℂ :=
  match shape with
  | [nx] => fun k => match k with
    | [kx] => rfft1 nx (fun x => a [x]) kx
    | _ => 0
  | [nx, ny] => fun k => match k with
    | [kx, ky] => rfft2 nx ny (fun x y => a [x, y]) kx ky
    | _ => 0
  | _ => fun _ => 0

/-- Inverse transform of an array by the FFT engine. -/
noncomputable def ifft (shape : List ℕ) (H : List ℕ → ℂ) : List ℕ → ℝ :=
  match shape with
  | [nx] => fun x => match x with
    | [x] => irfft1 nx (fun kx => H [kx]) x
    | _ => 0
  | [nx, ny] => fun x => match x with
    | [x, y] => irfft2 nx ny (fun kx ky => H [kx, ky]) x y
    | _ => 0
  | _ => fun _ => 0

/-- Shape of the whole half spectrum (first axis halved). -/
def fourierShape : List ℕ → List ℕ
  | [] => []
  | n :: rest => (n / 2 + 1) :: rest

/-! ## Green's function -/

/-- Material parameters kept by the constructor (`FFTElasticHalfSpace.py:272-276`). -/
structure Mat where
  young : ℝ
  poisson : ℝ
  /-- `contact_modulus`, line 274 -/
  Estar : ℝ
  q0 : Option ℝ
  thickness : Option ℝ

/-- Minimum-image frequency `1/λ` of wavevector index `k` on `n` points over the length `s`
(`FFTElasticHalfSpace.py:479`, `508`, `514`). -/
noncomputable def freq (n : ℕ) (s : ℝ) (k : ℕ) : ℝ :=
  if k ≤ n / 2 then (k : ℝ) / s else ((n : ℝ) - k) / s

/-- `q = sqrt(qx²+qy²)` (`FFTElasticHalfSpace.py:515`). -/
noncomputable def freq2 (nx ny : ℕ) (sx sy : ℝ) (kx ky : ℕ) : ℝ :=
  Real.sqrt (freq nx sx kx * freq nx sx kx + freq ny sy ky * freq ny sy ky)

/-- Correction factor of a finite layer as a function of `q h` (`FFTElasticHalfSpace.py:524-537`).
Simplification: the replacement of NaN (overflow) by 1 is not modelled, real arithmetic has none. -/
noncomputable def layerCorr (nu Q : ℝ) : ℝ :=
  let fac := 3 - 4 * nu
  let off := 4 * nu * (2 * nu - 3) + 5
  (fac * Real.cosh (2 * Q) + 2 * Q ^ 2 + off) / (fac * Real.sinh (2 * Q) - 2 * Q)

/-- `surface_stiffness` of a two-dimensional substrate at a wavevector other than Gamma, as a
function of the frequency `1/λ` (`FFTElasticHalfSpace.py:521-538`). -/
noncomputable def stiffnessOfFreq (m : Mat) (q : ℝ) : ℝ :=
  match m.thickness with
  | none => Real.pi * m.Estar * q
  | some h => Real.pi * m.Estar * q * layerCorr m.poisson (q * (2 * Real.pi * h))

/-- `surface_stiffness` on the local block `[loc, loc+nf)` of the half spectrum, two-dimensional
(`FFTElasticHalfSpace.py:499-555`); indices are local.  The value at Gamma is written only by the
process whose block starts at the origin.  `IndexError` is raised when the default Gamma value needs
the entries `[1,0]` and `[0,1]` and the block has only one row or column. -/
noncomputable def stiffnessBlock2 (m : Mat) (nx ny : ℕ) (sx sy : ℝ) (loc nf : ℕ × ℕ) :
    Except PyErr (ℕ → ℕ → ℝ) :=
  let S : ℕ → ℕ → ℝ := fun i j => stiffnessOfFreq m (freq2 nx ny sx sy (loc.1 + i) (loc.2 + j))
  let setGamma : ℝ → ℕ → ℕ → ℝ := fun g i j => if i = 0 ∧ j = 0 then g else S i j
  if loc = (0, 0) then
    match m.thickness with
    | some h => .ok (setGamma
        (m.young / h * (1 - m.poisson) / ((1 - 2 * m.poisson) * (1 + m.poisson))))
    | none =>
      match m.q0 with
      | none =>
        if nf.1 ≤ 1 ∨ nf.2 ≤ 1 then .error .indexError
        else .ok (setGamma ((S 1 0 + S 0 1) / 2))
      | some q0 => if q0 = 0 then .ok (setGamma 1) else .ok (setGamma q0)
  else .ok S

/-- `_compute_greens_function` on the local block, two-dimensional
(`FFTElasticHalfSpace.py:494-561`). -/
noncomputable def greensBlock2 (m : Mat) (nx ny : ℕ) (sx sy : ℝ) (loc nf : ℕ × ℕ) :
    Except PyErr (ℕ → ℕ → ℝ) :=
  if nf.1 * nf.2 = 0 then .ok fun _ _ => 0
  else do
    let S ← stiffnessBlock2 m nx ny sx sy loc nf
    let G : ℕ → ℕ → ℝ := fun i j => 1 / S i j
    if loc = (0, 0) ∧ m.q0 = some 0 then
      pure fun i j => if i = 0 ∧ j = 0 then 0 else G i j
    else pure G

/-- `_compute_greens_function` on the local block, one-dimensional
(`FFTElasticHalfSpace.py:470-492`).  The thickness is not read.  The first *local* entry is
overwritten whatever the block location.  `greens_function[0, 0] = 0.0` (line 492) indexes a
one-dimensional array with two indices: `IndexError`. -/
noncomputable def greensBlock1 (m : Mat) (nx : ℕ) (sx : ℝ) (loc nf : ℕ) :
    Except PyErr (ℕ → ℝ) :=
  let S : ℕ → ℝ := fun i => Real.pi * m.Estar * freq nx sx (loc + i)
  let setFirst : ℝ → ℕ → ℝ := fun g i => if i = 0 then g else S i
  if nf = 0 then .error .indexError else
  match m.q0 with
  | none => if nf ≤ 1 then .error .indexError else .ok fun i => 1 / setFirst (S 1) i
  | some q0 =>
    if q0 = 0 then
      if loc = 0 then .error .indexError else .ok fun i => 1 / setFirst 1 i
    else .ok fun i => 1 / setFirst q0 i

/-! ## Constructor -/

/-- Constructor arguments (`FFTElasticHalfSpace.py:169-181`); scalars given for `nb_grid_pts` or
`physical_sizes` are one-element lists (lines 234-237).  `engineGrid` is the grid of an externally
supplied FFT engine. -/
structure Args where
  nbGridPts : List ℕ
  young : ℝ
  physicalSizes : List ℝ
  q0 : Option ℝ
  thickness : Option ℝ
  poisson : ℝ
  engineGrid : Option (List ℕ)

/-- A constructed half-space. -/
structure HalfSpace where
  nbGridPts : List ℕ
  /-- grid the FFT works on, equal to `nbGridPts` for the periodic class -/
  domain : List ℕ
  physicalSizes : List ℝ
  steps : List ℝ
  mat : Mat
  greens : List ℕ → ℂ
  stiffness : List ℕ → ℂ

/-- Expansion of `physical_sizes` to `dim` entries by repeating the last one
(`FFTElasticHalfSpace.py:251-254`).  For an empty tuple Python reads index `-1` and raises. -/
def expandSizes (dim : ℕ) (sizes : List ℝ) : Except PyErr (List ℝ) :=
  if sizes = [] ∧ 0 < dim then .error .indexError
  else .ok ((List.range dim).map fun i => sizes.getD (min i (sizes.length - 1)) 0)

/-- `_compute_surface_stiffness` (`FFTElasticHalfSpace.py:563-571`). -/
noncomputable def invertGreens (G : List ℕ → ℂ) : List ℕ → ℂ :=
  open Classical in fun k => if G k ≠ 0 then 1 / G k else 0

/-- `_compute_greens_function` on one process, both dimensions (`FFTElasticHalfSpace.py:445-561`). -/
noncomputable def greensSerial (m : Mat) (grid : List ℕ) (sizes : List ℝ) :
    Except PyErr (List ℕ → ℂ) :=
  match grid, sizes with
  | [nx], [sx] => do
    let G ← greensBlock1 m nx sx 0 (nx / 2 + 1)
    pure fun k => match k with
      | [kx] => (G kx : ℂ)
      | _ => 0
  | [nx, ny], [sx, sy] => do
    let G ← greensBlock2 m nx ny sx sy (0, 0) (nx / 2 + 1, ny)
    pure fun k => match k with
      | [kx, ky] => (G kx ky : ℂ)
      | _ => 0
  | _, _ => .error .valueError

/-- Attributes set before the Green's function is computed
(`FFTElasticHalfSpace.py:233-300`), `domain` being the class' `nb_domain_grid_pts`.
`float(size)/res` raises `ZeroDivisionError` for a zero grid size (lines 256-271) and
`young/(1-poisson**2)` (line 274) for `poisson = ±1`. -/
noncomputable def initAttrs (a : Args) (domain : List ℕ) : Except PyErr (List ℝ × Mat) := do
  if a.nbGridPts.length ≠ 1 ∧ a.nbGridPts.length ≠ 2 then throw .error
  if a.q0 ≠ none ∧ a.thickness ≠ none then throw .error
  let sizes ← expandSizes a.nbGridPts.length a.physicalSizes
  if 0 ∈ a.nbGridPts then throw .zeroDivision
  if 1 - a.poisson ^ 2 = 0 then throw .zeroDivision
  match a.engineGrid with
  | some g => if g ≠ domain then throw .error
  | none => pure ()
  pure (sizes, ⟨a.young, a.poisson, a.young / (1 - a.poisson ^ 2), a.q0, a.thickness⟩)

/-- Grid spacings (`FFTElasticHalfSpace.py:256-260`). -/
noncomputable def stepsOf (sizes : List ℝ) (grid : List ℕ) : List ℝ :=
  List.zipWith (fun (s : ℝ) (n : ℕ) => s / (n : ℝ)) sizes grid

/-- `PeriodicFFTElasticHalfSpace.__init__` (`FFTElasticHalfSpace.py:169-306`). -/
noncomputable def construct (a : Args) : Except PyErr HalfSpace := do
  let (sizes, m) ← initAttrs a a.nbGridPts
  let G ← greensSerial m a.nbGridPts sizes
  pure ⟨a.nbGridPts, a.nbGridPts, sizes, stepsOf sizes a.nbGridPts, m, G, invertGreens G⟩

/-! ## Evaluation -/

variable (s : HalfSpace)

/-- `area_per_pt` (`FFTElasticHalfSpace.py:319-321`). -/
noncomputable def HalfSpace.areaPerPt : ℝ :=
  s.physicalSizes.prod / (s.nbGridPts.prod : ℕ)

/-- `fftengine.normalisation`. -/
noncomputable def HalfSpace.normalisation : ℝ := 1 / (s.domain.prod : ℕ)

/-- `evaluate_disp` (`FFTElasticHalfSpace.py:573-589`). -/
noncomputable def evaluateDisp (f : NdArray ℝ) : Except PyErr (NdArray ℝ) :=
  if f.shape ≠ s.domain then .error .error
  else .ok ⟨s.domain, fun x =>
    ifft s.domain (fun k => fft s.domain (fun y => -(f.get y)) k * s.greens k) x
      / s.areaPerPt * s.normalisation⟩

/-- `evaluate_force` (`FFTElasticHalfSpace.py:591-611`). -/
noncomputable def evaluateForce (u : NdArray ℝ) : Except PyErr (NdArray ℝ) :=
  if u.shape ≠ s.domain then .error .error
  else .ok ⟨s.domain, fun x =>
    -(ifft s.domain (fun k => fft s.domain u.get k * s.stiffness k) x)
      * s.areaPerPt * s.normalisation⟩

/-- `evaluate_k_disp` (`FFTElasticHalfSpace.py:613-637`). -/
noncomputable def evaluateKDisp (f : NdArray ℝ) : Except PyErr (NdArray ℂ) :=
  if f.shape ≠ s.domain then .error .error
  else .ok ⟨fourierShape s.domain, fun k =>
    s.greens k * fft s.domain (fun y => -(f.get y)) k / s.areaPerPt⟩

/-- `evaluate_k_force` (`FFTElasticHalfSpace.py:639-655`). -/
noncomputable def evaluateKForce (u : NdArray ℝ) : Except PyErr (NdArray ℂ) :=
  if u.shape ≠ s.domain then .error .error
  else .ok ⟨fourierShape s.domain, fun k =>
    -(s.stiffness k) * fft s.domain u.get k * s.areaPerPt⟩

/-- `evaluate_k_force_k` (`FFTElasticHalfSpace.py:657-674`).  Simplification: `disp_k` has the shape
of the half spectrum. -/
noncomputable def evaluateKForceK (uk : List ℕ → ℂ) : List ℕ → ℂ :=
  fun k => -(s.stiffness k) * uk k * s.areaPerPt

/-- `evaluate_elastic_energy` (`FFTElasticHalfSpace.py:676-684`) for arrays of the domain shape. -/
noncomputable def evaluateElasticEnergy (f u : List ℕ → ℝ) : ℝ :=
  0.5 * sumShape s.domain fun x => u x * -(f x)

/-- A block of the half spectrum held by one process: location and shape along the first (halved)
axis, and likewise along the remaining axis (1 and 0 for one-dimensional engines). -/
structure Block where
  loc0 : ℕ
  n0 : ℕ
  loc1 : ℕ
  n1 : ℕ

/-- `np.vdot(ka[i, ...], kb[i, ...]).real` for one local row. -/
noncomputable def rowDot (b : Block) (ka kb : ℕ → ℕ → ℂ) (i : ℕ) : ℝ :=
  ∑ j ∈ range b.n1, (conj (ka i j) * kb i j).re

/-- Local contribution to `evaluate_scalar_product_k_space`
(`FFTElasticHalfSpace.py:754-803`), `n0` the global number of points along the halved axis and
`total` the global number of points.  `ka`, `kb` are indexed locally. -/
noncomputable def scalarProductLocal (n0 total : ℕ) (b : Block) (ka kb : ℕ → ℕ → ℂ) : ℝ :=
  if 0 < b.n0 * b.n1 then
    let fact0 : ℝ := if b.loc0 = 0 then 1 else if 1 < b.n0 then 2 else 0
    let factend : ℝ :=
      if b.loc0 = 0 ∧ b.n0 = 1 then 0
      else if n0 % 2 = 1 then 2
      else if b.loc0 + b.n0 - 1 = n0 / 2 then 1
      else 2
    let factmiddle : ℝ := if 2 < b.n0 then 2 else 0
    (factmiddle * ∑ i ∈ Ico 1 (b.n0 - 1), rowDot b ka kb i
      + fact0 * rowDot b ka kb 0
      + factend * rowDot b ka kb (b.n0 - 1)) / total
  else 0

/-- `evaluate_scalar_product_k_space` (`FFTElasticHalfSpace.py:686-805`): the local sums are added up
over the communicator.  `ka`, `kb` are global half spectra, every process holding its block. -/
noncomputable def scalarProduct (n0 total : ℕ) (blocks : List Block) (ka kb : ℕ → ℕ → ℂ) : ℝ :=
  (blocks.map fun b => scalarProductLocal n0 total b
    (fun i j => ka (b.loc0 + i) (b.loc1 + j)) (fun i j => kb (b.loc0 + i) (b.loc1 + j))).sum

/-- A half spectrum as a two-index array; one-dimensional spectra are a single column. -/
def asGrid (shape : List ℕ) (H : List ℕ → ℂ) : ℕ → ℕ → ℂ :=
  match shape with
  | [_] => fun i _ => H [i]
  | _ => fun i j => H [i, j]

/-- The single block of a serial run. -/
def serialBlock (shape : List ℕ) : Block :=
  match shape with
  | [nx] => ⟨0, nx / 2 + 1, 0, 1⟩
  | [nx, ny] => ⟨0, nx / 2 + 1, 0, ny⟩
  | _ => ⟨0, 0, 0, 0⟩

/-- `evaluate_elastic_energy_k_space` (`FFTElasticHalfSpace.py:807-839`) on one process. -/
noncomputable def evaluateElasticEnergyK (fk uk : List ℕ → ℂ) : ℝ :=
  -0.5 * scalarProduct (s.domain.headD 0) s.domain.prod [serialBlock s.domain]
    (asGrid s.domain uk) (asGrid s.domain fk)

/-- Broadcasting index of `buffer[...] = a`: entry of `a` read for entry `x` of the buffer. -/
def bcastIndex (shape x : List ℕ) : List ℕ :=
  List.zipWith (fun n i => if n = 1 then 0 else i) shape (x.drop (x.length - shape.length))

/-- Whether NumPy can broadcast an array of shape `shape` into a buffer of shape `dom`: aligned at
the last axis every length is 1 or equal. (Simplification: superfluous leading axes of length one,
which NumPy also strips, are rejected.) -/
def bcastOk (shape dom : List ℕ) : Prop :=
  shape.length ≤ dom.length ∧
    List.Forall₂ (fun n m => n = 1 ∨ n = m) shape (dom.drop (dom.length - shape.length))

/-- `evaluate` (`FFTElasticHalfSpace.py:841-862`).  With `pot` only, the displacements are *assigned*
to the FFT buffer without a shape check: NumPy broadcasting applies, and `ValueError` is raised when it
cannot. -/
noncomputable def evaluate (u : NdArray ℝ) (pot forces : Bool) :
    Except PyErr (Option ℝ × Option (NdArray ℝ)) :=
  open Classical in
  if forces then do
    let f ← evaluateForce s u
    if pot then pure (some (evaluateElasticEnergy s f.get u.get), some f)
    else pure (none, some f)
  else if pot then
    if bcastOk u.shape s.domain then
      let uk := fft s.domain fun x => u.get (bcastIndex u.shape x)
      pure (some (evaluateElasticEnergyK s (evaluateKForceK s uk) uk), none)
    else throw .valueError
  else pure (none, none)

/-- `evaluate_k` (`FFTElasticHalfSpace.py:864-885`). -/
noncomputable def evaluateK (uk : List ℕ → ℂ) (pot forces : Bool) :
    Option ℝ × Option (List ℕ → ℂ) :=
  if forces then
    let fk := evaluateKForceK s uk
    (if pot then some (evaluateElasticEnergyK s fk uk) else none, some fk)
  else if pot then
    let fk := evaluateKForceK s uk
    (some (evaluateElasticEnergyK s fk uk), some fk)
  else (none, none)

end CM.HS
