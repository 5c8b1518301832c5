import Verif.Model.Reference
import Mathlib.Analysis.SpecialFunctions.Trigonometric.ArctanDeriv
import Mathlib.Analysis.SpecialFunctions.Sqrt
import Mathlib.Analysis.Calculus.Deriv.Pow
/-!
# The coordinates `M`, `N` of the Hertz solution

`r² = (1 + M²)(1 - N²)`, `z = M N`.
-/
namespace CM.Ref.Hertz

open Real

theorem hamS_sq (r2 z : ℝ) : hamS r2 z ^ 2 = hamA r2 z ^ 2 + 4 * z ^ 2 := sq_sqrt (by positivity)

theorem hamS_ge (r2 z : ℝ) : |hamA r2 z| ≤ hamS r2 z := abs_le_of_sq_le_sq (by rw [hamS_sq]; nlinarith [sq_nonneg z]) (sqrt_nonneg _)

theorem hamM_sq (r2 z : ℝ) : hamM r2 z ^ 2 = (hamS r2 z + hamA r2 z) / 2 := sq_sqrt (by have := abs_le.mp (hamS_ge r2 z); linarith)

theorem hamN_sq (r2 z : ℝ) : hamN r2 z ^ 2 = (hamS r2 z - hamA r2 z) / 2 := sq_sqrt (by have := abs_le.mp (hamS_ge r2 z); linarith)

theorem hamM_nonneg (r2 z : ℝ) : 0 ≤ hamM r2 z := sqrt_nonneg _

theorem hamN_nonneg (r2 z : ℝ) : 0 ≤ hamN r2 z := sqrt_nonneg _

theorem hamS_eq (r2 z : ℝ) : hamS r2 z = hamM r2 z ^ 2 + hamN r2 z ^ 2 := by rw [hamM_sq, hamN_sq]; ring

theorem hamA_eq (r2 z : ℝ) : hamA r2 z = hamM r2 z ^ 2 - hamN r2 z ^ 2 := by rw [hamM_sq, hamN_sq]; ring

theorem ham_prod {r2 z : ℝ} (hz : 0 ≤ z) : z = hamM r2 z * hamN r2 z := by
  refine (sq_eq_sq₀ hz (mul_nonneg (hamM_nonneg _ _) (hamN_nonneg _ _))).mp ?_
  rw [mul_pow, hamM_sq, hamN_sq]
  have := hamS_sq r2 z
  linear_combination (-1 / 4) * this

theorem ham_r2 {r2 z : ℝ} (hz : 0 ≤ z) : r2 = (1 + hamM r2 z ^ 2) * (1 - hamN r2 z ^ 2) := by
  have h1 := hamA_eq r2 z
  have h2 : z ^ 2 = hamM r2 z ^ 2 * hamN r2 z ^ 2 := by rw [← mul_pow, ← ham_prod hz]
  unfold hamA at h1
  linear_combination h1 + h2 * (-1)

theorem hamN_le_one {r2 z : ℝ} (hr : 0 ≤ r2) (hz : 0 ≤ z) : hamN r2 z ≤ 1 := by
  have h := ham_r2 (r2 := r2) hz
  by_contra hc
  push Not at hc
  have h1 : 1 - hamN r2 z ^ 2 < 0 := by nlinarith
  have h2 : 0 < 1 + hamM r2 z ^ 2 := by positivity
  nlinarith [mul_neg_of_pos_of_neg h2 h1]

theorem hamN_lt_one {r2 z : ℝ} (hr : 0 < r2) (hz : 0 ≤ z) : hamN r2 z < 1 := by
  refine lt_of_le_of_ne (hamN_le_one hr.le hz) fun h => ?_
  have := ham_r2 (r2 := r2) hz
  rw [h] at this; simp at this; exact hr.ne' this

theorem hamM_pos {r2 z : ℝ} (hz : 0 < z) : 0 < hamM r2 z := by
  refine lt_of_le_of_ne (hamM_nonneg _ _) fun h => ?_
  have := ham_prod (r2 := r2) hz.le
  rw [← h, zero_mul] at this; exact hz.ne' this

theorem hamN_pos {r2 z : ℝ} (hz : 0 < z) : 0 < hamN r2 z := by
  refine lt_of_le_of_ne (hamN_nonneg _ _) fun h => ?_
  have := ham_prod (r2 := r2) hz.le
  rw [← h, mul_zero] at this; exact hz.ne' this

theorem hamS_pos {r2 z : ℝ} (hz : 0 < z) : 0 < hamS r2 z := by
  rw [hamS_eq]; have := hamM_pos (r2 := r2) hz; positivity

/-- Uniqueness of the coordinates. -/
theorem ham_unique {r2 z m n : ℝ} (hm : 0 ≤ m) (hn : 0 ≤ n) (hz : z = m * n) (hr : r2 = (1 + m ^ 2) * (1 - n ^ 2)) :
    hamM r2 z = m ∧ hamN r2 z = n := by
  have hA : hamA r2 z = m ^ 2 - n ^ 2 := by unfold hamA; rw [hz, hr]; ring
  have hS : hamS r2 z = m ^ 2 + n ^ 2 := by
    unfold hamS; rw [hA, hz, show (m ^ 2 - n ^ 2) ^ 2 + 4 * (m * n) ^ 2 = (m ^ 2 + n ^ 2) ^ 2 by ring, sqrt_sq (by positivity)]
  constructor
  · unfold hamM; rw [hS, hA, show (m ^ 2 + n ^ 2 + (m ^ 2 - n ^ 2)) / 2 = m ^ 2 by ring, sqrt_sq hm]
  · unfold hamN; rw [hS, hA, show (m ^ 2 + n ^ 2 - (m ^ 2 - n ^ 2)) / 2 = n ^ 2 by ring, sqrt_sq hn]

theorem huberU_eq (r z : ℝ) : huberU r z = hamM (r ^ 2) z ^ 2 := by
  rw [hamM_sq]
  have : √((r ^ 2 + z ^ 2 - 1) ^ 2 / 4 + z ^ 2) = hamS (r ^ 2) z / 2 := by
    rw [sqrt_eq_iff_mul_self_eq (by positivity) (by have := sqrt_nonneg (hamA (r ^ 2) z ^ 2 + 4 * z ^ 2); unfold hamS; positivity)]
    have := hamS_sq (r ^ 2) z
    unfold hamA at this
    linear_combination (-1 / 4) * this
  unfold huberU; rw [this]; unfold hamA; ring

theorem sqrt_huberU (r z : ℝ) : √(huberU r z) = hamM (r ^ 2) z := by rw [huberU_eq, sqrt_sq (hamM_nonneg _ _)]

theorem huberR_sq (r z : ℝ) : huberR r z ^ 2 = r ^ 2 / (1 + hamM (r ^ 2) z ^ 2) := by
  unfold huberR; rw [div_pow, sq_sqrt (by rw [huberU_eq]; positivity), huberU_eq]

theorem huberZ_eq {r z : ℝ} (hz : 0 ≤ z) : huberZ r z = hamN (r ^ 2) z := by
  unfold huberZ
  rw [huberR_sq]
  have h := ham_r2 (r2 := r ^ 2) hz
  have : 1 - r ^ 2 / (1 + hamM (r ^ 2) z ^ 2) = hamN (r ^ 2) z ^ 2 := by
    have h2 : 0 < 1 + hamM (r ^ 2) z ^ 2 := by positivity
    field_simp
    linear_combination -h
  rw [this, sqrt_sq (hamN_nonneg _ _)]

/-! ## Derivatives -/

/-- Derivative of `S` when `r²` and `z` move along a curve. -/
theorem hamM_deriv {f g : ℝ → ℝ} {f' g' t : ℝ} (hf : HasDerivAt f f' t) (hg : HasDerivAt g g' t) (hz : 0 < g t) :
    HasDerivAt (fun t => hamM (f t) (g t)) ((f' * hamM (f t) (g t) / 2 + g' * (g t * hamM (f t) (g t) + hamN (f t) (g t))) / hamS (f t) (g t)) t ∧
    HasDerivAt (fun t => hamN (f t) (g t)) ((-f' * hamN (f t) (g t) / 2 + g' * (hamM (f t) (g t) - g t * hamN (f t) (g t))) / hamS (f t) (g t)) t := by
  have hM := hamM_pos (r2 := f t) hz
  have hN := hamN_pos (r2 := f t) hz
  have hS := hamS_pos (r2 := f t) hz
  have hA : HasDerivAt (fun t => hamA (f t) (g t)) (f' + 2 * g t * g') t := by
    have := (hf.add (hg.pow 2)).sub_const 1
    have e : f' + ((2 : ℕ) : ℝ) * g t ^ (2 - 1) * g' = f' + 2 * g t * g' := by norm_num
    rw [e] at this; exact this
  have hSd : HasDerivAt (fun t => hamS (f t) (g t)) ((hamA (f t) (g t) * (f' + 2 * g t * g') + 4 * g t * g') / hamS (f t) (g t)) t := by
    have h1 := (hA.pow 2).add ((hg.pow 2).const_mul 4)
    have hne : hamA (f t) (g t) ^ 2 + 4 * g t ^ 2 ≠ 0 := by positivity
    have h2 := h1.sqrt hne
    have e : (((2 : ℕ) : ℝ) * hamA (f t) (g t) ^ (2 - 1) * (f' + 2 * g t * g') + 4 * (((2 : ℕ) : ℝ) * g t ^ (2 - 1) * g')) /
        (2 * √(hamA (f t) (g t) ^ 2 + 4 * g t ^ 2)) = (hamA (f t) (g t) * (f' + 2 * g t * g') + 4 * g t * g') / hamS (f t) (g t) := by
      have : √(hamA (f t) (g t) ^ 2 + 4 * g t ^ 2) = hamS (f t) (g t) := rfl
      rw [this]; norm_num; field_simp
    have h3 : HasDerivAt (fun t => hamS (f t) (g t)) _ t := h2
    rw [← e]; exact h3
  have hSq := hamS_eq (f t) (g t)
  have hAq := hamA_eq (f t) (g t)
  have hp := ham_prod (r2 := f t) hz.le
  constructor
  · have h1 := (hSd.add hA).div_const 2
    have hv : (hamS (f t) (g t) + hamA (f t) (g t)) / 2 ≠ 0 := by rw [← hamM_sq]; positivity
    have h2 : HasDerivAt (fun t => hamM (f t) (g t)) _ t := h1.sqrt hv
    have e : ((hamA (f t) (g t) * (f' + 2 * g t * g') + 4 * g t * g') / hamS (f t) (g t) + (f' + 2 * g t * g')) / 2 /
        (2 * √((hamS (f t) (g t) + hamA (f t) (g t)) / 2)) =
        (f' * hamM (f t) (g t) / 2 + g' * (g t * hamM (f t) (g t) + hamN (f t) (g t))) / hamS (f t) (g t) := by
      have : √((hamS (f t) (g t) + hamA (f t) (g t)) / 2) = hamM (f t) (g t) := rfl
      rw [this]
      generalize hamM (f t) (g t) = m at *
      generalize hamN (f t) (g t) = n at *
      generalize hamS (f t) (g t) = s at *
      generalize hamA (f t) (g t) = a at *
      generalize g t = z at *
      subst hAq; subst hp; subst hSq
      field_simp; ring
    rw [← e]; exact h2
  · have h1 := (hSd.sub hA).div_const 2
    have hv : (hamS (f t) (g t) - hamA (f t) (g t)) / 2 ≠ 0 := by rw [← hamN_sq]; positivity
    have h2 : HasDerivAt (fun t => hamN (f t) (g t)) _ t := h1.sqrt hv
    have e : ((hamA (f t) (g t) * (f' + 2 * g t * g') + 4 * g t * g') / hamS (f t) (g t) - (f' + 2 * g t * g')) / 2 /
        (2 * √((hamS (f t) (g t) - hamA (f t) (g t)) / 2)) =
        (-f' * hamN (f t) (g t) / 2 + g' * (hamM (f t) (g t) - g t * hamN (f t) (g t))) / hamS (f t) (g t) := by
      have : √((hamS (f t) (g t) - hamA (f t) (g t)) / 2) = hamN (f t) (g t) := rfl
      rw [this]
      generalize hamM (f t) (g t) = m at *
      generalize hamN (f t) (g t) = n at *
      generalize hamS (f t) (g t) = s at *
      generalize hamA (f t) (g t) = a at *
      generalize g t = z at *
      subst hAq; subst hp; subst hSq
      field_simp; ring
    rw [← e]; exact h2

theorem arctan2one_pos {m : ℝ} (hm : 0 < m) : arctan2one m = arctan (1 / m) := by unfold arctan2one; rw [if_neg hm.ne']

theorem arctan2one_deriv {f : ℝ → ℝ} {f' t : ℝ} (hf : HasDerivAt f f' t) (h0 : 0 < f t) :
    HasDerivAt (fun t => arctan2one (f t)) (-f' / (1 + f t ^ 2)) t := by
  have h1 := (hf.inv h0.ne').arctan
  have e : 1 / (1 + (f t)⁻¹ ^ 2) * (-f' / f t ^ 2) = -f' / (1 + f t ^ 2) := by field_simp; ring
  have h2 : HasDerivAt (fun t => arctan ((f t)⁻¹)) (-f' / (1 + f t ^ 2)) t := by rw [← e]; exact h1
  refine h2.congr_of_eventuallyEq ?_
  filter_upwards [hf.continuousAt.eventually (lt_mem_nhds h0)] with x hx
  rw [arctan2one_pos hx, one_div]

end CM.Ref.Hertz
