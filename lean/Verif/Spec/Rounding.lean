import Verif.Model.CCGRounded
import Mathlib.Data.Int.Log
import Mathlib.Algebra.Order.Floor.Ring
import Mathlib.Tactic.Positivity
import Mathlib.Tactic.Linarith
import Mathlib.Tactic.Ring
import Mathlib.Tactic.FieldSimp
/-!
# Which arithmetics the theorems about rounding speak of

Definitions only; none refers to the solver.
-/
namespace CM.CCG.Arith
variable {ι : Type} [Fintype ι]

/-- Rounding is monotone and keeps zero; sums of entries of one sign have that sign.  (True of every IEEE format and rounding mode, with gradual or abrupt underflow.) -/
structure Sound (A : Arith ι) : Prop where
  zero : A.rnd 0 = 0
  mono : Monotone A.rnd
  sum_nonneg : ∀ (p : ι → Bool) (a : ι → ℝ), (∀ i, p i = true → 0 ≤ a i) → 0 ≤ A.sum p a
  sum_nonpos : ∀ (p : ι → Bool) (a : ι → ℝ), (∀ i, p i = true → a i ≤ 0) → A.sum p a ≤ 0

/-- The usual error model of floating point arithmetic: relative error `ε` of every operation, absolute error `η` in the underflow range, and a sum off by at most
`δ` times the sum of the absolute values. -/
structure Accurate (A : Arith ι) (ε η δ : ℝ) : Prop where
  eps_nonneg : 0 ≤ ε
  eps_lt : ε < 1
  eta_nonneg : 0 ≤ η
  delta_nonneg : 0 ≤ δ
  rnd_err : ∀ x, |A.rnd x - x| ≤ ε * |x| + η
  sum_err : ∀ (p : ι → Bool) (a : ι → ℝ),
    |A.sum p a - ∑ i, (if p i then a i else 0)| ≤ δ * ∑ i, (if p i then |a i| else 0)

/-- Exact arithmetic. -/
def exact (ι : Type) [Fintype ι] : Arith ι := ⟨fun x => x, fun p a => ∑ i, if p i then a i else 0⟩

/-- Chop to the binary digits of a positive number down to `2⁻ᵖ` of the leading one. -/
noncomputable def chopPos (p : ℕ) (x : ℝ) : ℝ := (⌊x / (2 : ℝ) ^ (Int.log 2 x - p)⌋ : ℝ) * (2 : ℝ) ^ (Int.log 2 x - p)

/-- Binary floating point numbers with `p + 1` significant digits, rounded towards zero (no bound on the exponent). -/
noncomputable def chop (p : ℕ) (x : ℝ) : ℝ :=
  if 0 < x then chopPos p x else if x < 0 then -(chopPos p (-x)) else 0

/-- An arithmetic that rounds with `rnd` and sums from left to right. -/
def seq {n : ℕ} (rnd : ℝ → ℝ) : Arith (Fin n) :=
  ⟨rnd, fun p a => (List.finRange n).foldl (fun s i => if p i then rnd (s + a i) else s) 0⟩

end CM.CCG.Arith
