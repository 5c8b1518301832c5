import Verif.Model.Systems
import Verif.Spec.FreeHalfSpace
/-!
# Specification vocabulary for contact systems
-/
namespace CM.Spec
open Finset CM.HS CM.FFT CM.System

/-- Scalar product of two arrays with `N` entries, whatever their shapes. -/
def flatDot (N : ℕ) (a b : NdArray ℝ) : ℝ := ∑ k ∈ range N, a.flat k * b.flat k

/-- `S` is a system on a valid two-dimensional periodic half-space with arguments `a` and a topography
on the same grid, in any state. -/
structure PeriodicSystem (S : Sys) (a : Args) (nx ny : ℕ) : Prop where
  valid : ValidArgs a
  built : construct a = .ok S.sub.hs
  grid : a.nbGridPts = [nx, ny]
  periodic : S.sub.free = false
  heights : S.heights.shape = [nx, ny]

/-- `S` is a system on a valid two-dimensional free half-space. -/
structure FreeSystem (S : Sys) (a : FreeArgs) (nx ny : ℕ) : Prop where
  valid : ValidFree a
  built : constructFree a = .ok S.sub.hs
  grid : a.nbGridPts = [nx, ny]
  free : S.sub.free = true
  heights : S.heights.shape = [nx, ny]

/-- A two-dimensional system on either kind of half-space. -/
def System2 (S : Sys) (nx ny : ℕ) : Prop :=
  (∃ a, PeriodicSystem S a nx ny) ∨ ∃ a, FreeSystem S a nx ny

/-- Number of entries with positive value. -/
noncomputable def nbPositive (N : ℕ) (a : NdArray ℝ) : ℕ := ((range N).filter fun k => 0 < a.flat k).card

end CM.Spec
