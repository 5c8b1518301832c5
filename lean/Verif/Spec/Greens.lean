import Verif.Model.Greens
import Mathlib.LinearAlgebra.LinearIndependent.Defs
/-!
# Specification of the surface Green's functions
-/
namespace CM.Greens

open Matrix

/-- The matrix equals its conjugate transpose. -/
def Hermitian (A : M3) : Prop := ∀ i j, A j i = (starRingEnd ℂ) (A i j)

/-- The energy of every non-zero load is positive. -/
def PositiveDefinite (A : M3) : Prop := ∀ x : Fin 3 → ℂ, x ≠ 0 → 0 < (∑ i, ∑ j, (starRingEnd ℂ) (x i) * A i j * x j).re

/-- Two-sided inverses. -/
def Inverses (A B : M3) : Prop := A * B = 1 ∧ B * A = 1

/-- Rotation about the surface normal. -/
def turn (c s : ℝ) : M3 := !![(c : ℂ), -(s : ℂ), 0; (s : ℂ), (c : ℂ), 0; 0, 0, 1]

/-- What the external routines are expected to do. -/
structure Lapack.Ok (L : Lapack) : Prop where
  /-- returned numbers are roots -/
  root : ∀ p : Fin 4 → ℂ, ∀ z ∈ L.roots p, p 0 * z ^ 3 + p 1 * z ^ 2 + p 2 * z + p 3 = 0
  /-- a polynomial of degree three has three roots, counted with multiplicity -/
  factor : ∀ p : Fin 4 → ℂ, p 0 ≠ 0 → ∃ a b c, L.roots p = [a, b, c] ∧ ∀ z, p 0 * z ^ 3 + p 1 * z ^ 2 + p 2 * z + p 3 = p 0 * (z - a) * (z - b) * (z - c)
  /-- a square root -/
  sq : ∀ z, L.sqrt z ^ 2 = z
  /-- with non-negative real part -/
  re : ∀ z, 0 ≤ (L.sqrt z).re
  /-- the vectors are in the kernel -/
  kernel : ∀ M, ∀ e ∈ L.nullSpace M, M *ᵥ e = 0
  /-- span it -/
  span : ∀ (M : M3) (v : Fin 3 → ℂ), M *ᵥ v = 0 → v ∈ Submodule.span ℂ {e | e ∈ L.nullSpace M}
  /-- and are linearly independent -/
  independent : ∀ M, LinearIndependent ℂ (L.nullSpace M).get

/-- Orthogonal matrices with determinant one. -/
def Rotation (R : Fin 3 → Fin 3 → ℝ) : Prop := (∀ i j, ∑ k, R i k * R j k = if i = j then 1 else 0) ∧ (∀ i j, ∑ k, R k i * R k j = if i = j then 1 else 0) ∧ (Matrix.of R).det = 1

end CM.Greens
