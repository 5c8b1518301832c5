import Verif.Model.HalfSpace
/-!
# Specification vocabulary for half-spaces

What the English properties talk about, written without reference to the way the code computes it.
-/
namespace CM.Spec
open Finset CM.HS CM.FFT

/-- Admissible material and geometry: positive lengths, positive Young's modulus, Poisson number in
`(-1,1)`, and for a layer a positive thickness and a compressible material `ν < 1/2`. -/
structure ValidArgs (a : Args) : Prop where
  sizes_pos : ∀ x ∈ a.physicalSizes, 0 < x
  young_pos : 0 < a.young
  poisson_low : -1 < a.poisson
  poisson_high : a.poisson < 1
  thickness : ∀ h, a.thickness = some h → 0 < h ∧ a.poisson < 1 / 2

/-- Length of the substrate in direction `i` (`0` is x, `1` is y): the last entry given is repeated. -/
def size (a : Args) (i : ℕ) : ℝ :=
  if h : i < a.physicalSizes.length then a.physicalSizes[i] else a.physicalSizes.getLastD 0

/-- Contact modulus `E/(1-ν²)`. -/
noncomputable def contactModulus (a : Args) : ℝ := a.young / (1 - a.poisson ^ 2)

/-- Component of the minimum-image wavevector with index `k` on a grid of `n` points over length `s`. -/
noncomputable def waveComponent (n : ℕ) (s : ℝ) (k : ℕ) : ℝ :=
  if 2 * k ≤ n then 2 * Real.pi * k / s else 2 * Real.pi * ((k : ℝ) - n) / s

/-- Length of the minimum-image wavevector of a two-dimensional grid. -/
noncomputable def waveNumber (nx ny : ℕ) (sx sy : ℝ) (kx ky : ℕ) : ℝ :=
  Real.sqrt (waveComponent nx sx kx ^ 2 + waveComponent ny sy ky ^ 2)

/-- The Gamma-point stiffness the user asked for: the oedometric stiffness of a layer, else
`stiffness_q0` if given, else the mean of the two lowest axis stiffnesses `E*/2·2π/s`. -/
noncomputable def gammaStiffness (a : Args) : ℝ :=
  match a.thickness, a.q0 with
  | some h, _ => a.young * (1 - a.poisson) / ((1 + a.poisson) * (1 - 2 * a.poisson)) / h
  | none, some q => q
  | none, none =>
    (contactModulus a / 2 * (2 * Real.pi / size a 0) + contactModulus a / 2 * (2 * Real.pi / size a 1)) / 2

/-- Work of one array on another over an `nx × ny` grid. -/
def work (nx ny : ℕ) (f u : NdArray ℝ) : ℝ :=
  ∑ i ∈ range nx, ∑ j ∈ range ny, f.get [i, j] * u.get [i, j]

/-- Mean of an array over an `nx × ny` grid. -/
noncomputable def mean (nx ny : ℕ) (f : NdArray ℝ) : ℝ :=
  (∑ i ∈ range nx, ∑ j ∈ range ny, f.get [i, j]) / (nx * ny)

/-- `a*f + b*g`, entry by entry. -/
def lincomb (a : ℝ) (f : NdArray ℝ) (b : ℝ) (g : NdArray ℝ) : NdArray ℝ :=
  ⟨f.shape, fun x => a * f.get x + b * g.get x⟩

/-- `np.roll(f, (sx, sy))`. -/
def roll2 (nx ny sx sy : ℕ) (f : NdArray ℝ) : NdArray ℝ :=
  ⟨f.shape, fun x => match x with
    | [i, j] => f.get [(i + (nx - sx % nx)) % nx, (j + (ny - sy % ny)) % ny]
    | _ => 0⟩

end CM.Spec
namespace CM.Spec
open CM.HS

/-- The block of one process contains wavevector `(kx, ky)`. -/
def holds (b : Block) (kx ky : ℕ) : Bool :=
  decide (b.loc0 ≤ kx ∧ kx < b.loc0 + b.n0 ∧ b.loc1 ≤ ky ∧ ky < b.loc1 + b.n1)

/-- A distribution of the half spectrum over processes: blocks that hold data lie inside the half
spectrum, and every stored wavevector belongs to exactly one of them. Empty blocks may be anywhere. -/
structure Distributes (nx ny : ℕ) (blocks : List Block) : Prop where
  inside : ∀ b ∈ blocks, 0 < b.n0 * b.n1 → b.loc0 + b.n0 ≤ nx / 2 + 1 ∧ b.loc1 + b.n1 ≤ ny
  once : ∀ kx ky, kx ≤ nx / 2 → ky < ny → (blocks.filter fun b => holds b kx ky).length = 1

end CM.Spec
