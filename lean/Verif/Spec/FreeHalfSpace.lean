import Verif.Model.FreeHalfSpace
import Verif.Spec.HalfSpace
import Mathlib.MeasureTheory.Integral.IntervalIntegral.Basic
/-!
# Specification vocabulary for free half-spaces
-/
namespace CM.Spec
open Finset CM.HS CM.FFT

/-- Boussinesq: displacement at the offset `(x, y)` of a pixel `dx × dy` carrying a unit pressure on a
half-space of contact modulus `E`, i.e. `1/(πE)` times the integral of `1/r` over the pixel. -/
noncomputable def pixelGreens (E dx dy x y : ℝ) : ℝ :=
  1 / (Real.pi * E) * ∫ η in (y - dy / 2)..(y + dy / 2), ∫ ξ in (x - dx / 2)..(x + dx / 2),
    1 / Real.sqrt (ξ ^ 2 + η ^ 2)

/-- Admissible arguments of a free half-space. -/
structure ValidFree (a : FreeArgs) : Prop where
  sizes_pos : ∀ x ∈ a.physicalSizes, 0 < x
  young_pos : 0 < a.young

/-- Length in direction `i`: the last entry given is repeated. -/
def sizeF (a : FreeArgs) (i : ℕ) : ℝ :=
  if h : i < a.physicalSizes.length then a.physicalSizes[i] else a.physicalSizes.getLastD 0

/-- Displacement of grid point `(i, j)` by the direct, aperiodic sum over the forces on an `nx × ny`
grid: a force `f` on a pixel is the pressure `f/(dx dy)`, compressive forces are negative. -/
noncomputable def directSum (E : ℝ) (nx ny : ℕ) (dx dy : ℝ) (f : NdArray ℝ) (i j : ℕ) : ℝ :=
  -∑ k ∈ range nx, ∑ l ∈ range ny,
    pixelGreens E dx dy (((i : ℝ) - k) * dx) (((j : ℝ) - l) * dy) * (f.get [k, l] / (dx * dy))

/-- A process' part of a direction contains point `k`. -/
def inRange (loc n k : ℕ) : Prop := loc ≤ k ∧ k < loc + n

/-- Boxes tile an `nx × ny` grid: every point lies in exactly one, and none reaches outside unless
empty. -/
structure Tiles (nx ny : ℕ) (boxes : List Block) : Prop where
  inside : ∀ b ∈ boxes, ∀ i j, holds b i j = true → i < nx ∧ j < ny
  once : ∀ i j, i < nx → j < ny → (boxes.filter fun b => holds b i j).length = 1

/-- Outermost ring of a `gx × gy` grid. -/
def onRing (gx gy i j : ℕ) : Prop :=
  i < gx ∧ j < gy ∧ (i = 0 ∨ i + 1 = gx ∨ j = 0 ∨ j + 1 = gy)

/-- The processes hold the global force array `F` with mask `M` on a `2gx × 2gy` padded grid: every
padded point belongs to some process, no process is empty, and local entries are the global ones. -/
structure Distributed (gx gy : ℕ) (F : ℕ → ℕ → ℝ) (M : ℕ → ℕ → Bool) (procs : List Proc) : Prop where
  nonempty : ∀ p ∈ procs, 0 < p.n0 ∧ 0 < p.n1
  cover : ∀ i j, i < 2 * gx → j < 2 * gy →
    ∃ p ∈ procs, inRange p.loc0 p.n0 i ∧ inRange p.loc1 p.n1 j
  force : ∀ p ∈ procs, ∀ i j, p.force i j = F (p.loc0 + i) (p.loc1 + j)
  mask : ∀ p ∈ procs, ∀ i j, p.masked i j = M (p.loc0 + i) (p.loc1 + j)

/-- The force on a point is masked or within the tolerance. -/
def tolerable (F : ℕ → ℕ → ℝ) (M : ℕ → ℕ → Bool) (tol : ℝ) (i j : ℕ) : Prop :=
  M i j = true ∨ |F i j| ≤ tol

end CM.Spec
