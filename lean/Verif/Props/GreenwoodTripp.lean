import Verif.Model.GreenwoodTripp
import Mathlib.Analysis.SpecialFunctions.Integrals.Basic
import Mathlib.Analysis.SpecialFunctions.Gaussian.GaussianIntegral
import Mathlib.MeasureTheory.Integral.IntegralEqImproper
import Mathlib.Analysis.Real.Pi.Bounds
/-!
# Greenwood and Tripp's rough sphere (C139-C142)
-/
namespace CM.Ref.GreenwoodTripp

open Real MeasureTheory Set Filter

/-! ## C139: the height integrals -/

lemma gauss_pos (s : ℝ) : 0 < gauss s := by unfold gauss; positivity

lemma gauss_deriv (s : ℝ) : HasDerivAt gauss (-s * gauss s) s := by
  unfold gauss
  have h : HasDerivAt (fun s : ℝ => -s ^ 2 / 2) (-s) s := by
    have := ((hasDerivAt_pow 2 s).fun_neg).div_const 2
    refine this.congr_deriv ?_
    push_cast
    ring
  refine (h.exp.div_const _).congr_deriv ?_
  ring

lemma gauss_cont : Continuous gauss := by unfold gauss; fun_prop

lemma integrable_shift (h n : ℝ) (hn : -1 < n) : IntegrableOn (fun s => (s - h) ^ n * gauss s) (Ioi h) := by
  have h1 : Integrable fun t : ℝ => t ^ n * rexp (-(1 / 4) * t ^ 2) := integrable_rpow_mul_exp_neg_mul_sq (by norm_num) hn
  have h2 : IntegrableOn (fun s : ℝ => ((s - h) ^ n * rexp (-(1 / 4) * (s - h) ^ 2)) * (rexp (h ^ 2 / 2) / (2 * π) ^ (1 / 2 : ℝ))) (Ioi h) :=
    ((h1.comp_sub_right h).mul_const _).integrableOn
  refine h2.mono' ?_ ?_
  · refine (ContinuousOn.mul ?_ gauss_cont.continuousOn).aestronglyMeasurable measurableSet_Ioi
    intro s hs
    exact (((continuous_id.sub continuous_const).continuousAt).rpow_const (Or.inl (sub_pos.2 hs).ne')).continuousWithinAt
  · filter_upwards [ae_restrict_mem measurableSet_Ioi] with s hs
    have hp : 0 ≤ (s - h) ^ n := rpow_nonneg (sub_pos.2 hs).le n
    rw [Real.norm_of_nonneg (mul_nonneg hp (gauss_pos s).le)]
    unfold gauss
    rw [mul_assoc]
    refine mul_le_mul_of_nonneg_left ?_ hp
    rw [← mul_div_assoc, ← Real.exp_add]
    refine div_le_div_of_nonneg_right (exp_le_exp.2 ?_) (by positivity)
    nlinarith [sq_nonneg (s + h)]

/-- **C139.** For Gaussian heights and every exponent above minus one the integral converges and is positive … -/
theorem C139_positive (h n : ℝ) (hn : -1 < n) : IntegrableOn (fun s => (s - h) ^ n * gauss s) (Ioi h) ∧ 0 < Fn h n gauss := by
  refine ⟨integrable_shift h n hn, ?_⟩
  unfold Fn
  refine (setIntegral_pos_iff_support_of_nonneg_ae ?_ (integrable_shift h n hn)).2 ?_
  · filter_upwards [ae_restrict_mem measurableSet_Ioi] with s hs
    exact mul_nonneg (rpow_nonneg (sub_pos.2 hs).le n) (gauss_pos s).le
  · have : Ioi h ⊆ Function.support (fun s => (s - h) ^ n * gauss s) ∩ Ioi h := by
      intro s hs
      refine ⟨?_, hs⟩
      exact (mul_pos (rpow_pos_of_pos (sub_pos.2 hs) n) (gauss_pos s)).ne'
    refine lt_of_lt_of_le ?_ (measure_mono this)
    simp

/-- … decreases strictly with the separation: rough surfaces that are farther apart carry less pressure … -/
theorem C139_decreasing (h k n : ℝ) (hn : 0 < n) (hk : h < k) : Fn k n gauss < Fn h n gauss := by
  have i1 := integrable_shift h n (by linarith)
  have i2 := integrable_shift k n (by linarith)
  have i1' : IntegrableOn (fun s => (s - h) ^ n * gauss s) (Ioi k) := i1.mono_set (Ioi_subset_Ioi hk.le)
  have a : ∫ s in Ioi k, (s - h) ^ n * gauss s ≤ Fn h n gauss := by
    unfold Fn
    refine setIntegral_mono_set i1 ?_ (Ioi_subset_Ioi hk.le).eventuallyLE
    filter_upwards [ae_restrict_mem measurableSet_Ioi] with s hs
    exact mul_nonneg (rpow_nonneg (sub_pos.2 hs).le n) (gauss_pos s).le
  refine lt_of_lt_of_le ?_ a
  rw [← sub_pos]
  unfold Fn
  rw [← integral_sub i1' i2]
  have pos : ∀ s ∈ Ioi k, 0 < (s - h) ^ n * gauss s - (s - k) ^ n * gauss s := by
    intro s hs
    rw [← sub_mul]
    refine mul_pos (sub_pos.2 (rpow_lt_rpow (sub_pos.2 hs).le (by linarith) hn)) (gauss_pos s)
  refine (setIntegral_pos_iff_support_of_nonneg_ae ?_ (i1'.sub i2)).2 ?_
  · filter_upwards [ae_restrict_mem measurableSet_Ioi] with s hs using (pos s hs).le
  · have : Ioi k ⊆ Function.support (fun s => (s - h) ^ n * gauss s - (s - k) ^ n * gauss s) ∩ Ioi k := fun s hs => ⟨(pos s hs).ne', hs⟩
    refine lt_of_lt_of_le ?_ (measure_mono this)
    simp

lemma tail (h n : ℝ) : Tendsto (fun s => (s - h) ^ n * gauss s) atTop (nhds 0) := by
  have h1 : Tendsto (fun t : ℝ => t ^ n * rexp (-(1 / 4 : ℝ) * t)) atTop (nhds 0) := tendsto_rpow_mul_exp_neg_mul_atTop_nhds_zero n (1 / 4) (by norm_num)
  have h2 := (h1.comp (tendsto_atTop_add_const_right atTop (-h) tendsto_id)).mul_const (rexp (h ^ 2 / 2) / (2 * π) ^ (1 / 2 : ℝ))
  rw [zero_mul] at h2
  refine squeeze_zero' ?_ ?_ h2
  · filter_upwards [eventually_gt_atTop h] with s hs
    exact mul_nonneg (rpow_nonneg (sub_pos.2 hs).le n) (gauss_pos s).le
  · filter_upwards [eventually_gt_atTop (h + 1)] with s hs
    have hp : 0 ≤ (s - h) ^ n := rpow_nonneg (by linarith) n
    simp only [Function.comp, id]
    rw [show s + -h = s - h by ring, mul_assoc]
    refine mul_le_mul_of_nonneg_left ?_ hp
    unfold gauss
    rw [← mul_div_assoc, ← Real.exp_add]
    refine div_le_div_of_nonneg_right (exp_le_exp.2 ?_) (by positivity)
    nlinarith [sq_nonneg (s + h)]

/-- … and obeys the recurrence of the repeated integrals of the Gaussian. -/
theorem C139_recurrence (h n : ℝ) (hn : 0 < n) : Fn h (n + 1) gauss = n * Fn h (n - 1) gauss - h * Fn h n gauss := by
  have i0 := integrable_shift h (n - 1) (by linarith)
  have i1 := integrable_shift h n (by linarith)
  have i2 := integrable_shift h (n + 1) (by linarith)
  have hi : IntegrableOn (fun s => n * ((s - h) ^ (n - 1) * gauss s) - ((s - h) ^ (n + 1) * gauss s + h * ((s - h) ^ n * gauss s))) (Ioi h) := (i0.const_mul n).sub (i2.add (i1.const_mul h))
  have hd : ∀ s ∈ Ioi h, HasDerivAt (fun s => (s - h) ^ n * gauss s) (n * ((s - h) ^ (n - 1) * gauss s) - ((s - h) ^ (n + 1) * gauss s + h * ((s - h) ^ n * gauss s))) s := by
    intro s hs
    have hp : 0 < s - h := sub_pos.2 hs
    have := (((hasDerivAt_id s).sub_const h).rpow_const (p := n) (Or.inl hp.ne')).mul (gauss_deriv s)
    refine this.congr_deriv ?_
    simp only [id]
    rw [rpow_add_one hp.ne']
    ring
  have hc : ContinuousWithinAt (fun s => (s - h) ^ n * gauss s) (Ici h) h := by
    refine ((((continuous_id.sub continuous_const).continuousAt).rpow_const (Or.inr hn.le)).mul gauss_cont.continuousAt).continuousWithinAt
  have := integral_Ioi_of_hasDerivAt_of_tendsto hc hd hi (tail h n)
  have i3 : IntegrableOn (fun s => (s - h) ^ (n + 1) * gauss s + h * ((s - h) ^ n * gauss s)) (Ioi h) := i2.add (i1.const_mul h)
  rw [integral_sub (i0.const_mul n) i3, integral_add i2 (i1.const_mul h), integral_const_mul, integral_const_mul] at this
  simp only [sub_self, zero_rpow hn.ne', zero_mul] at this
  unfold Fn
  linarith

/-! ## C140: the kernel -/

lemma inner_pos {x t : ℝ} (h0 : 0 ≤ x) (h1 : x < 1) : 0 < 1 - x ^ 2 * sin t ^ 2 := by
  have : sin t ^ 2 ≤ 1 := sin_sq_le_one t
  nlinarith [sq_nonneg (sin t), sq_nonneg x]

/-- A form without cancellation. -/
lemma B_eq {x : ℝ} (h0 : 0 ≤ x) (h1 : x < 1) : B x = ∫ t in (0 : ℝ)..π / 2, x ^ 2 * cos t ^ 2 / √(1 - x ^ 2 * sin t ^ 2) := by
  have c1 : Continuous fun t : ℝ => √(1 - x ^ 2 * sin t ^ 2) := by fun_prop
  have c2 : Continuous fun t : ℝ => 1 / √(1 - x ^ 2 * sin t ^ 2) := continuous_const.div c1 fun t => (sqrt_pos.2 (inner_pos h0 h1)).ne'
  have c3 : Continuous fun t : ℝ => (x ^ 2 - 1) * (1 / √(1 - x ^ 2 * sin t ^ 2)) := continuous_const.mul c2
  unfold B ellipe ellipk
  rw [← intervalIntegral.integral_const_mul, ← intervalIntegral.integral_add (c1.intervalIntegrable _ _) (c3.intervalIntegrable _ _)]
  refine intervalIntegral.integral_congr fun t _ => ?_
  have hp := sqrt_pos.2 (inner_pos (t := t) h0 h1)
  have hs := Real.sq_sqrt (inner_pos (t := t) h0 h1).le
  rw [eq_div_iff hp.ne']
  have : (√(1 - x ^ 2 * sin t ^ 2) + (x ^ 2 - 1) * (1 / √(1 - x ^ 2 * sin t ^ 2))) * √(1 - x ^ 2 * sin t ^ 2) = √(1 - x ^ 2 * sin t ^ 2) ^ 2 + (x ^ 2 - 1) := by
    field_simp
  rw [this, hs]
  linear_combination (-x ^ 2) * sin_sq_add_cos_sq t

lemma B_cont {x : ℝ} (h0 : 0 ≤ x) (h1 : x < 1) : Continuous fun t : ℝ => x ^ 2 * cos t ^ 2 / √(1 - x ^ 2 * sin t ^ 2) := by
  refine Continuous.div (by fun_prop) (by fun_prop) fun t => (sqrt_pos.2 (inner_pos h0 h1)).ne'

lemma xE_eq {x : ℝ} (h1 : 1 ≤ x) : x * ellipe (1 / x ^ 2) = ∫ t in (0 : ℝ)..π / 2, √(x ^ 2 - sin t ^ 2) := by
  unfold ellipe
  rw [← intervalIntegral.integral_const_mul]
  refine intervalIntegral.integral_congr fun t _ => ?_
  nth_rewrite 1 [← Real.sqrt_sq (show 0 ≤ x by linarith)]
  rw [← Real.sqrt_mul (sq_nonneg x)]
  congr 1
  have : x ≠ 0 := by linarith
  field_simp

lemma half_pi : (0 : ℝ) < π / 2 := by positivity

lemma cos_half : ∫ t in (0 : ℝ)..π / 2, cos t = 1 := by rw [integral_cos]; simp

lemma B_strict {x y : ℝ} (h0 : 0 ≤ x) (hxy : x < y) (h1 : y < 1) : B x < B y := by
  rw [B_eq h0 (hxy.trans h1), B_eq (h0.trans hxy.le) h1]
  refine intervalIntegral.integral_lt_integral_of_continuousOn_of_le_of_exists_lt half_pi (B_cont h0 (hxy.trans h1)).continuousOn (B_cont (h0.trans hxy.le) h1).continuousOn ?_ ⟨0, ⟨le_refl _, half_pi.le⟩, ?_⟩
  · intro t _
    have hp := inner_pos (t := t) h0 (hxy.trans h1)
    have hp' := inner_pos (t := t) (h0.trans hxy.le) h1
    refine div_le_div₀ (by positivity) ?_ (sqrt_pos.2 hp') (sqrt_le_sqrt ?_)
    · exact mul_le_mul_of_nonneg_right (by nlinarith) (sq_nonneg _)
    · have : x ^ 2 ≤ y ^ 2 := by nlinarith
      nlinarith [sq_nonneg (sin t)]
  · simp
    nlinarith

lemma B_le {x : ℝ} (h0 : 0 ≤ x) (h1 : x < 1) : B x ≤ 1 := by
  refine le_trans ?_ cos_half.le
  rw [B_eq h0 h1]
  refine intervalIntegral.integral_mono_on half_pi.le ((B_cont h0 h1).intervalIntegrable _ _) (continuous_cos.intervalIntegrable _ _) fun t ht => ?_
  have hc : 0 ≤ cos t := cos_nonneg_of_mem_Icc ⟨by linarith [ht.1, half_pi], ht.2⟩
  have hp := sqrt_pos.2 (inner_pos (t := t) h0 h1)
  rw [div_le_iff₀ hp]
  have : x * cos t ≤ √(1 - x ^ 2 * sin t ^ 2) := by
    refine le_sqrt_of_sq_le ?_
    nlinarith [sin_sq_add_cos_sq t, sq_nonneg (sin t), sq_nonneg (cos t)]
  calc x ^ 2 * cos t ^ 2 = cos t * (x * (x * cos t)) := by ring
    _ ≤ cos t * (1 * √(1 - x ^ 2 * sin t ^ 2)) := by
      refine mul_le_mul_of_nonneg_left (mul_le_mul h1.le this (by positivity) (by norm_num)) hc
    _ = _ := by ring

lemma cos_sq_half : ∫ t in (0 : ℝ)..π / 2, cos t ^ 2 = π / 4 := by
  rw [integral_cos_sq]
  simp
  ring

lemma B_ge {x : ℝ} (h0 : 0 ≤ x) (h1 : x < 1) : x ^ 2 / 2 ≤ 2 / π * B x := by
  have : x ^ 2 * (π / 4) ≤ B x := by
    rw [B_eq h0 h1, ← cos_sq_half, ← intervalIntegral.integral_const_mul]
    refine intervalIntegral.integral_mono_on half_pi.le (Continuous.intervalIntegrable (by fun_prop) _ _) ((B_cont h0 h1).intervalIntegrable _ _) fun t ht => ?_
    rw [le_div_iff₀ (sqrt_pos.2 (inner_pos h0 h1))]
    have : √(1 - x ^ 2 * sin t ^ 2) ≤ 1 := by
      rw [Real.sqrt_le_left zero_le_one]
      nlinarith [mul_nonneg (sq_nonneg x) (sq_nonneg (sin t))]
    have h : 0 ≤ x ^ 2 * cos t ^ 2 := by positivity
    nlinarith
  calc x ^ 2 / 2 = 2 / π * (x ^ 2 * (π / 4)) := by field_simp; ring
    _ ≤ _ := mul_le_mul_of_nonneg_left this (by positivity)

lemma B_upper {x : ℝ} (h0 : 0 ≤ x) (h1 : x < 1) : 2 / π * B x ≤ x ^ 2 / 2 / √(1 - x ^ 2) := by
  have hq : 0 < √(1 - x ^ 2) := sqrt_pos.2 (by nlinarith)
  have : B x ≤ x ^ 2 * (π / 4) / √(1 - x ^ 2) := by
    rw [B_eq h0 h1, ← cos_sq_half, ← intervalIntegral.integral_const_mul, ← intervalIntegral.integral_div]
    refine intervalIntegral.integral_mono_on half_pi.le ((B_cont h0 h1).intervalIntegrable _ _) (Continuous.intervalIntegrable (by fun_prop) _ _) fun t ht => ?_
    refine div_le_div_of_nonneg_left (by positivity) hq (sqrt_le_sqrt ?_)
    nlinarith [sin_sq_le_one t, sq_nonneg x]
  calc 2 / π * B x ≤ 2 / π * (x ^ 2 * (π / 4) / √(1 - x ^ 2)) := mul_le_mul_of_nonneg_left this (by positivity)
    _ = _ := by field_simp; ring

lemma xE_strict {x y : ℝ} (h1 : 1 ≤ x) (hxy : x < y) : x * ellipe (1 / x ^ 2) < y * ellipe (1 / y ^ 2) := by
  rw [xE_eq h1, xE_eq (h1.trans hxy.le)]
  refine intervalIntegral.integral_lt_integral_of_continuousOn_of_le_of_exists_lt half_pi (by fun_prop) (by fun_prop) ?_ ⟨0, ⟨le_refl _, half_pi.le⟩, ?_⟩
  · intro t _
    refine sqrt_le_sqrt ?_
    nlinarith
  · simp
    rw [Real.sqrt_sq (by linarith), Real.sqrt_sq (by linarith)]
    exact hxy

lemma xE_ge {x : ℝ} (h1 : 1 ≤ x) : 1 ≤ x * ellipe (1 / x ^ 2) := by
  rw [xE_eq h1, ← cos_half]
  refine intervalIntegral.integral_mono_on half_pi.le (continuous_cos.intervalIntegrable _ _) (Continuous.intervalIntegrable (by fun_prop) _ _) fun t ht => ?_
  refine le_sqrt_of_sq_le ?_
  nlinarith [sin_sq_add_cos_sq t]

lemma xE_le {x : ℝ} (h1 : 1 ≤ x) : 2 / π * x * ellipe (1 / x ^ 2) ≤ x := by
  have : x * ellipe (1 / x ^ 2) ≤ x * (π / 2) := by
    rw [xE_eq h1]
    have : ∫ t in (0 : ℝ)..π / 2, √(x ^ 2 - sin t ^ 2) ≤ ∫ t in (0 : ℝ)..π / 2, x := by
      refine intervalIntegral.integral_mono_on half_pi.le (Continuous.intervalIntegrable (by fun_prop) _ _) (continuous_const.intervalIntegrable _ _) fun t ht => ?_
      rw [Real.sqrt_le_left (by linarith)]
      nlinarith [sq_nonneg (sin t)]
    rw [intervalIntegral.integral_const, smul_eq_mul] at this
    linarith
  calc 2 / π * x * ellipe (1 / x ^ 2) = 2 / π * (x * ellipe (1 / x ^ 2)) := by ring
    _ ≤ 2 / π * (x * (π / 2)) := mul_le_mul_of_nonneg_left this (by positivity)
    _ = x := by field_simp

lemma xE_lower {x : ℝ} (h1 : 1 ≤ x) : √(x ^ 2 - 1) ≤ 2 / π * x * ellipe (1 / x ^ 2) := by
  have : √(x ^ 2 - 1) * (π / 2) ≤ x * ellipe (1 / x ^ 2) := by
    rw [xE_eq h1]
    have : ∫ t in (0 : ℝ)..π / 2, √(x ^ 2 - 1) ≤ ∫ t in (0 : ℝ)..π / 2, √(x ^ 2 - sin t ^ 2) := by
      refine intervalIntegral.integral_mono_on half_pi.le (continuous_const.intervalIntegrable _ _) (Continuous.intervalIntegrable (by fun_prop) _ _) fun t ht => ?_
      exact sqrt_le_sqrt (by linarith [sin_sq_le_one t])
    rw [intervalIntegral.integral_const, smul_eq_mul] at this
    linarith
  calc √(x ^ 2 - 1) = 2 / π * (√(x ^ 2 - 1) * (π / 2)) := by field_simp
    _ ≤ 2 / π * (x * ellipe (1 / x ^ 2)) := mul_le_mul_of_nonneg_left this (by positivity)
    _ = _ := by ring

/-- **C140.** `s` of a vector of floats is computed entry by entry and increases strictly for non-negative arguments, across both cut-offs and the change of formula at one … -/
theorem C140_increasing (l : List ℝ) : s 1e-5 1e5 (.vec false l) = .ok (l.map fun x => sAt x 1e-5 1e5) ∧ StrictMonoOn (fun x => sAt x 1e-5 1e5) (Ici 0) := by
  constructor
  · unfold s elementwise stored
    simp
  · intro x hx y hy hxy
    have hx0 : 0 ≤ x := hx
    have hp : 0 < 2 / π := by positivity
    have hmid : ∀ x, 0 ≤ x → x < 1 → 2 / π * B x < 2 / π := by
      intro x h0 h1
      have := (B_strict h0 (show x < (x + 1) / 2 by linarith) (by linarith)).trans_le (B_le (by linarith) (by linarith))
      calc 2 / π * B x < 2 / π * 1 := mul_lt_mul_of_pos_left this hp
        _ = _ := mul_one _
    have hpi : 2 / π < 1 := by rw [div_lt_one pi_pos]; linarith [pi_gt_three]
    have e1 : ∀ x, 0 ≤ x → x < 1e-5 → sAt x 1e-5 1e5 = x ^ 2 / 2 := by
      intro x h0 h
      have : x < 1 := h.trans (by norm_num)
      unfold sAt
      rw [if_neg (fun hh => absurd hh.1 (by linarith)), if_neg (fun hh => hh.2 h), if_neg (by norm_num at h ⊢; linarith), if_pos h]
    have e2 : ∀ x, 1e-5 ≤ x → x < 1 → sAt x 1e-5 1e5 = 2 / π * B x := by
      intro x h h1
      unfold sAt
      rw [if_neg (fun hh => absurd hh.1 (by linarith)), if_pos ⟨h1, not_lt.2 h⟩]
    have e3 : ∀ x, 1 ≤ x → x ≤ 1e5 → sAt x 1e-5 1e5 = 2 / π * (x * ellipe (1 / x ^ 2)) := by
      intro x h h1
      unfold sAt
      rw [if_pos ⟨h, not_lt.2 h1⟩, mul_assoc]
    have e4 : ∀ x, 1e5 < x → sAt x 1e-5 1e5 = x := by
      intro x h
      unfold sAt
      rw [if_neg (fun hh => hh.2 h), if_neg (fun hh => absurd hh.1 (by norm_num at h ⊢; linarith)), if_pos h]
    -- bounds of each part
    have b1 : ∀ x, 0 ≤ x → x < 1 → sAt x 1e-5 1e5 < 2 / π := by
      intro x h0 h1
      rcases lt_or_ge x 1e-5 with h | h
      · rw [e1 x h0 h]
        exact (B_ge h0 h1).trans_lt (hmid x h0 h1)
      · rw [e2 x h h1]; exact hmid x h0 h1
    have b2 : ∀ x, 1 ≤ x → 2 / π ≤ sAt x 1e-5 1e5 := by
      intro x h
      rcases le_or_gt x 1e5 with h' | h'
      · rw [e3 x h h']
        calc 2 / π = 2 / π * 1 := (mul_one _).symm
          _ ≤ _ := mul_le_mul_of_nonneg_left (xE_ge h) hp.le
      · rw [e4 x h']; linarith
    simp only
    rcases lt_or_ge y 1 with hy1 | hy1
    · have hx1 : x < 1 := hxy.trans hy1
      rcases lt_or_ge y 1e-5 with h | h
      · rw [e1 x hx0 (hxy.trans h), e1 y hy h]
        have : 0 ≤ y := hy
        nlinarith
      · rw [e2 y h hy1]
        have hs := mul_lt_mul_of_pos_left (B_strict hx0 hxy hy1) hp
        rcases lt_or_ge x 1e-5 with h' | h'
        · rw [e1 x hx0 h']
          exact (B_ge hx0 hx1).trans_lt hs
        · rw [e2 x h' hx1]; exact hs
    · rcases lt_or_ge x 1 with hx1 | hx1
      · exact (b1 x hx0 hx1).trans_le (b2 y hy1)
      · rcases le_or_gt y 1e5 with h | h
        · rw [e3 x hx1 (hxy.le.trans h), e3 y hy1 h]
          exact mul_lt_mul_of_pos_left (xE_strict hx1 hxy) hp
        · rw [e4 y h]
          rcases le_or_gt x 1e5 with h' | h'
          · rw [e3 x hx1 h', ← mul_assoc]
            exact (xE_le hx1).trans_lt hxy
          · rw [e4 x h']; exact hxy

/-- … and the asymptotic expressions are those of the exact formulas to a relative accuracy of 1e-10. -/
theorem C140_asymptotic (x : ℝ) :
    (0 ≤ x → x < 1e-5 → sAt x 1e-5 1e5 ≤ 2 / π * (ellipe (x ^ 2) + (x ^ 2 - 1) * ellipk (x ^ 2)) ∧ 2 / π * (ellipe (x ^ 2) + (x ^ 2 - 1) * ellipk (x ^ 2)) ≤ (1 + 1e-10) * sAt x 1e-5 1e5)
    ∧ (1e5 < x → (1 - 1e-10) * sAt x 1e-5 1e5 ≤ 2 / π * x * ellipe (1 / x ^ 2) ∧ 2 / π * x * ellipe (1 / x ^ 2) ≤ sAt x 1e-5 1e5) := by
  constructor
  · intro h0 h
    have h1 : x < 1 := h.trans (by norm_num)
    have e : sAt x 1e-5 1e5 = x ^ 2 / 2 := by
      unfold sAt
      rw [if_neg (fun hh => absurd hh.1 (by linarith)), if_neg (fun hh => hh.2 h), if_neg (by norm_num at h ⊢; linarith), if_pos h]
    rw [e]
    refine ⟨B_ge h0 h1, (B_upper h0 h1).trans ?_⟩
    have hx2 : x ^ 2 ≤ 1e-10 := by norm_num at h ⊢; nlinarith
    have hs : 1 - 1e-10 * (3 / 4) ≤ √(1 - x ^ 2) := by
      refine le_sqrt_of_sq_le ?_
      norm_num at hx2 ⊢
      linarith
    rw [div_le_iff₀ (lt_of_lt_of_le (by norm_num) hs)]
    have hpos : 0 ≤ x ^ 2 / 2 := by positivity
    have : 1 ≤ (1 + 1e-10) * √(1 - x ^ 2) := by
      calc (1 : ℝ) ≤ (1 + 1e-10) * (1 - 1e-10 * (3 / 4)) := by norm_num
        _ ≤ _ := mul_le_mul_of_nonneg_left hs (by norm_num)
    nlinarith
  · intro h
    have h1 : 1 ≤ x := by norm_num at h; linarith
    have e : sAt x 1e-5 1e5 = x := by
      unfold sAt
      rw [if_neg (fun hh => hh.2 h), if_neg (fun hh => absurd hh.1 (by linarith)), if_pos h]
    rw [e]
    refine ⟨le_trans ?_ (xE_lower h1), xE_le h1⟩
    refine le_sqrt_of_sq_le ?_
    have hx2 : 1e10 ≤ x ^ 2 := by norm_num at h ⊢; nlinarith
    norm_num at hx2 ⊢
    nlinarith

/-- **C140, refuted for vectors of integers and numbers.** Integer arguments give zero where the kernel is below one, and numbers raise. -/
theorem C140_types_partial (x : ℝ) : s 1e-5 1e5 (.num x) = .error .typeError ∧ s 1e-5 1e5 (.vec true [1]) = .ok [0] := by
  refine ⟨rfl, ?_⟩
  have e : sAt 1 1e-5 1e5 = 2 / π := by
    have h : (1 : ℝ) * ellipe (1 / 1 ^ 2) = 1 := by
      rw [xE_eq le_rfl]
      refine Eq.trans ?_ cos_half
      refine intervalIntegral.integral_congr fun t ht => ?_
      rw [uIcc_of_le half_pi.le] at ht
      rw [show (1 : ℝ) ^ 2 - sin t ^ 2 = cos t ^ 2 by linear_combination -(sin_sq_add_cos_sq t)]
      exact Real.sqrt_sq (cos_nonneg_of_mem_Icc ⟨by linarith [ht.1, half_pi], ht.2⟩)
    unfold sAt
    rw [if_pos ⟨le_rfl, by norm_num⟩, mul_assoc, h, mul_one]
  have hp : 0 ≤ 2 / π := by positivity
  have hpi : 2 / π < 1 := by rw [div_lt_one pi_pos]; linarith [pi_gt_three]
  have : ⌊2 / π⌋ = 0 := Int.floor_eq_zero_iff.2 ⟨hp, hpi⟩
  simp [s, elementwise, stored, e, hp, this]

/-! ## C141: the inverse of the kernel -/

/-- **C141, refuted.** `ξ` raises `TypeError` whenever one entry lies between the cut-offs; only the asymptotic ranges work. -/
theorem C141_inverse_partial (ints : Bool) (l : List ℝ) (s1 s2 x : ℝ) (hx : x ∈ l) (h1 : s1 ≤ x) (h2 : x ≤ s2) :
    xi s1 s2 (.vec ints l) = .error .typeError ∧ ∀ y, xi s1 s2 (.num y) = .error .typeError := by
  refine ⟨?_, fun y => rfl⟩
  unfold xi
  simp only
  rw [if_pos ⟨x, hx, not_lt.2 h1, not_lt.2 h2⟩]

/-- What is left: outside the cut-offs `ξ` inverts the asymptotic expressions. -/
theorem C141_asymptotic_partial (l : List ℝ) (h : ∀ x ∈ l, 0 ≤ x ∧ (x < 5e-11 ∨ 1e5 < x)) :
    ∃ r, xi 1e-5 1e5 (.vec false l) = .ok r ∧ s 1e-5 1e5 (.vec false r) = .ok l := by
  refine ⟨l.map fun x => if 1e5 < x then x else if x < 1e-5 then √(2 * x) else 0, ?_, ?_⟩
  · unfold xi
    simp only
    rw [if_neg]
    · unfold elementwise stored
      simp
    · rintro ⟨x, hx, h1, h2⟩
      rcases (h x hx).2 with h' | h'
      · exact h1 (h'.trans (by norm_num))
      · exact h2 h'
  · rw [(C140_increasing _).1, List.map_map]
    congr 1
    nth_rewrite 2 [← List.map_id l]
    refine List.map_congr_left fun x hx => ?_
    obtain ⟨h0, h1⟩ := h x hx
    simp only [Function.comp, id]
    rcases h1 with h1 | h1
    · rw [if_neg (by norm_num at h1 ⊢; linarith), if_pos (h1.trans (by norm_num))]
      have hs : √(2 * x) < 1e-5 := by
        rw [Real.sqrt_lt' (by norm_num)]
        norm_num at h1 ⊢
        linarith
      unfold sAt
      rw [if_neg (fun hh => absurd hh.1 (by norm_num at hs ⊢; linarith)), if_neg (fun hh => hh.2 hs), if_neg (by norm_num at hs ⊢; linarith), if_pos hs, Real.sq_sqrt (by positivity)]
      ring
    · rw [if_pos h1]
      unfold sAt
      rw [if_neg (fun hh => hh.2 h1), if_neg (fun hh => absurd hh.1 (by norm_num at h1 ⊢; linarith)), if_pos h1]

/-! ## C142: the solver -/

/-- States the loop can reach: the start, and what one pass makes of such a state. -/
inductive Reached (S : Scipy) (P : Params) : ℕ → State P.n → Prop
  | zero : Reached S P 0 (start P.n)
  | succ {k st st'} : Reached S P k st → Moving P.tol st → pass S P st = .ok st' → Reached S P (k + 1) st'

lemma loop_spec (S : Scipy) (P : Params) : ∀ (fuel k : ℕ) (st st' : State P.n), Reached S P k st → loop S P fuel st = .ok st' →
    ∃ m, k ≤ m ∧ m ≤ k + fuel ∧ Reached S P m st' ∧ ¬ Moving P.tol st' := by
  classical
  intro fuel
  induction fuel with
  | zero =>
    intro k st st' h e
    unfold loop at e
    split_ifs at e with hm
    injection e with e
    subst e
    exact ⟨k, le_refl _, le_refl _, h, hm⟩
  | succ f ih =>
    intro k st st' h e
    unfold loop at e
    split_ifs at e with hm
    · cases hp : pass S P st with
      | error x => rw [hp] at e; cases e
      | ok s1 =>
        rw [hp] at e
        obtain ⟨m, m1, m2, m3, m4⟩ := ih (k + 1) s1 st' (.succ h hm hp) e
        exact ⟨m, by omega, by omega, m3, m4⟩
    · injection e with e
      subst e
      exact ⟨k, le_refl _, by omega, h, hm⟩

lemma pass_spec (S : Scipy) (P : Params) (st st' : State P.n) (h : pass S P st = .ok st') :
    st'.p = mixed P st ∧ st'.pold = st.p ∧ displacement S P (mixed P st) = .ok (st'.w, st'.w0) := by
  unfold pass at h
  cases hd : displacement S P (mixed P st) with
  | error e => simp only [hd] at h; cases h
  | ok r =>
    simp only [hd] at h
    injection h with h
    subst h
    exact ⟨rfl, rfl, rfl⟩

lemma mapM_getD {α : Type} (f : α → Except PyErr ℝ) : ∀ (l : List α) (r : List ℝ), l.mapM f = .ok r → r.length = l.length ∧ ∀ k (h : k < l.length), f l[k] = .ok (r.getD k 0) := by
  intro l
  induction l with
  | nil =>
    intro r h
    rw [List.mapM_nil] at h
    injection h with h
    subst h
    exact ⟨rfl, fun k h => absurd h (by simp)⟩
  | cons x l ih =>
    intro r h
    rw [List.mapM_cons] at h
    cases h1 : f x with
    | error e => rw [h1] at h; cases h
    | ok y =>
      cases h2 : l.mapM f with
      | error e => rw [h1, h2] at h; cases h
      | ok ys =>
        rw [h1, h2] at h
        injection h with h
        subst h
        obtain ⟨i1, i2⟩ := ih ys h2
        refine ⟨by simp [i1], fun k h => ?_⟩
        cases k with
        | zero => exact h1
        | succ k => exact i2 k (by simpa using h)

lemma displacement_zero (S : Scipy) (P : Params) (p : Fin P.n → ℝ) (w : Fin P.n → ℝ) (w0 : ℝ) (h : displacement S P p = .ok (w, w0)) :
    w0 = S.simpson p P.rho ∧ ∀ i, displacementAt S P p w0 i = .ok (w i) := by
  unfold displacement at h
  cases hm : (List.finRange P.n).mapM fun i => displacementAt S P p (S.simpson p P.rho) i with
  | error e => simp only [hm] at h; cases h
  | ok r =>
    simp only [hm] at h
    injection h with h
    obtain ⟨h1, h2⟩ := Prod.mk.inj h
    refine ⟨h2.symm, fun i => ?_⟩
    have := (mapM_getD _ _ _ hm).2 i.val (by simp)
    rw [← h2, ← h1]
    simpa using this

/-- **C142.** If `GreenwoodTripp` returns, the returned pressure is exactly that of the asperities (Greenwood and Williamson) at the returned displacement, it is positive for positive `μ`, the displacement is zero on the
axis, it is the displacement of an iterate `p` of the pressure, and `p` differs from its predecessor `q` by at most `tol` everywhere, so that `q` violates the two equations by no more than `tol / mix`. -/
theorem C142_returned (S : Scipy) (P : Params) (hn : 0 < P.n) (htol : P.tol < 1) (w p rho : Fin P.n → ℝ) (h : solve S P = .ok (w, p, rho)) :
    (∀ i, rho i = P.rhomax * i / ((P.n - 1 : ℕ) : ℝ)) ∧ (∀ i, p i = P.mu * ∫ s in Ioi (P.d + rho i ^ 2 + w i), (s - (P.d + rho i ^ 2 + w i)) ^ (3 / 2 : ℝ) * gauss s)
    ∧ (0 < P.mu → ∀ i, 0 < p i) ∧ w ⟨0, hn⟩ = 0
    ∧ ∃ (pit q v u : Fin P.n → ℝ) (w0 u0 : ℝ), displacement S P pit = .ok (v, w0) ∧ (∀ i, w i = v i - w0) ∧ (∀ i, |pit i - q i| ≤ P.tol)
      ∧ (displacement S P q = .ok (u, u0) ∨ (q = 0 ∧ u = 0 ∧ u0 = 0)) ∧ ∀ i, |P.mix| * |pressure P u u0 i - q i| ≤ P.tol := by
  unfold solve at h
  rw [if_neg hn.ne'] at h
  cases hl : loop S P (P.maxiter + 1).toNat (start P.n) with
  | error e => rw [hl] at h; cases h
  | ok st =>
    rw [hl] at h
    have h : ((fun i => st.w i - st.w0), pressure P st.w st.w0, P.rho) = (w, p, rho) := by injection h
    obtain ⟨e1, h⟩ := Prod.mk.inj h
    obtain ⟨e2, e3⟩ := Prod.mk.inj h
    subst e1 e2 e3
    obtain ⟨m, -, -, hr, hstop⟩ := loop_spec S P _ 0 _ _ .zero hl
    have harg : ∀ i, P.d + P.rho i ^ 2 + (st.w i - st.w0) = P.d + P.rho i ^ 2 + st.w i - st.w0 := fun i => by ring
    refine ⟨fun i => rfl, fun i => ?_, fun hmu i => mul_pos hmu (C139_positive _ _ (by norm_num)).2, ?_⟩
    · simp only [harg]
      rfl
    · cases hr with
      | zero => exact absurd ⟨⟨0, hn⟩, by simp [start, htol]⟩ hstop
      | succ hr' hmov hp =>
        rename_i k0 st0
        obtain ⟨p1, p2, p3⟩ := pass_spec S P _ _ hp
        obtain ⟨d1, d2⟩ := displacement_zero S P _ _ _ p3
        have d0 := d2 ⟨0, hn⟩
        unfold displacementAt at d0
        rw [if_pos rfl] at d0
        have d0 : st.w0 = st.w ⟨0, hn⟩ := by injection d0
        have hle : ∀ i, |st.p i - st.pold i| ≤ P.tol := fun i => not_lt.1 fun h => hstop ⟨i, h⟩
        refine ⟨by simp [d0], st.p, st.pold, st.w, st0.w, st.w0, st0.w0, by rw [p1]; exact p3, fun i => rfl, hle, ?_, ?_⟩
        · cases hr' with
          | zero => right; rw [p2]; exact ⟨rfl, rfl, rfl⟩
          | succ h1 h2 h3 =>
            left
            obtain ⟨q1, q2, q3⟩ := pass_spec S P _ _ h3
            rw [p2, q1]
            exact q3
        · intro i
          rw [← abs_mul]
          refine le_trans (le_of_eq ?_) (hle i)
          rw [p1, p2]
          congr 1
          unfold mixed
          ring

/-- **C142.** It does at most `maxiter + 1` passes and otherwise raises `RuntimeError` (or what `interp1d` raises): with a negative tolerance always, unless an external routine raises before. -/
theorem C142_terminates (S : Scipy) (P : Params) (hn : 0 < P.n) :
    (∀ st, loop S P (P.maxiter + 1).toNat (start P.n) = .ok st → ∃ m, m ≤ (P.maxiter + 1).toNat ∧ Reached S P m st ∧ ∀ i, |st.p i - st.pold i| ≤ P.tol)
    ∧ (P.tol < 0 → ∃ e, solve S P = .error e) := by
  constructor
  · intro st h
    obtain ⟨m, -, m2, m3, m4⟩ := loop_spec S P _ 0 _ _ .zero h
    exact ⟨m, by omega, m3, fun i => not_lt.1 fun h => m4 ⟨i, h⟩⟩
  · intro ht
    cases h : solve S P with
    | error e => exact ⟨e, rfl⟩
    | ok r =>
      exfalso
      unfold solve at h
      rw [if_neg hn.ne'] at h
      cases hl : loop S P (P.maxiter + 1).toNat (start P.n) with
      | error e => rw [hl] at h; cases h
      | ok st =>
        obtain ⟨m, -, -, -, m4⟩ := loop_spec S P _ 0 _ _ .zero hl
        exact m4 ⟨⟨0, hn⟩, ht.trans_le (abs_nonneg _)⟩

/-- What `interp1d` is expected to do: no extrapolation, and inside the range a value between the smallest and the largest. -/
structure Scipy.Ok (S : Scipy) : Prop where
  inside : ∀ {n : ℕ} (x y : Fin n → ℝ) (t : ℝ), (∃ i, x i ≤ t) → (∃ i, t ≤ x i) → ∃ v, S.interp x y t = .ok v ∧ (∃ i, y i ≤ v) ∧ ∃ i, v ≤ y i
  outside : ∀ {n : ℕ} (x y : Fin n → ℝ) (t : ℝ), (∀ i, t < x i) ∨ (∀ i, x i < t) → S.interp x y t = .error .valueError

lemma mapM_ok_of {α : Type} (f : α → Except PyErr ℝ) : ∀ l : List α, (∀ x ∈ l, ∃ v, f x = .ok v) → ∃ r, l.mapM f = .ok r := by
  intro l
  induction l with
  | nil => intro _; exact ⟨[], rfl⟩
  | cons x l ih =>
    intro h
    obtain ⟨v, hv⟩ := h x (by simp)
    obtain ⟨r, hr⟩ := ih fun y hy => h y (by simp [hy])
    exact ⟨v :: r, by rw [List.mapM_cons, hv, hr]; rfl⟩

lemma displacement_ok (S : Scipy) (hS : S.Ok) (P : Params) (hn : 2 ≤ P.n) (h0 : 0 ≤ P.eps) (h1 : P.eps ≤ P.rhomax) (hr : 0 < P.rhomax) (p : Fin P.n → ℝ) : ∃ r, displacement S P p = .ok r := by
  have hn1 : (0 : ℝ) < ((P.n - 1 : ℕ) : ℝ) := by exact_mod_cast (by omega : 0 < P.n - 1)
  have hat : ∀ i, ∃ v, displacementAt S P p (S.simpson p P.rho) i = .ok v := by
    intro i
    unfold displacementAt
    split_ifs with hi
    · exact ⟨_, rfl⟩
    · have hrho : 0 < P.rho i := by
        unfold Params.rho linspace
        have : (0 : ℝ) < (i.val : ℝ) := by exact_mod_cast (by omega : 0 < i.val)
        positivity
      obtain ⟨f, hf⟩ := mapM_ok_of (fun j : Fin P.n => S.interp P.rho p (P.rho i * linspace ((P.rhomax - P.eps) / P.rho i) P.n j)) (List.finRange P.n) (by
        intro j _
        have ej : P.rho i * linspace ((P.rhomax - P.eps) / P.rho i) P.n j = (P.rhomax - P.eps) * (j / ((P.n - 1 : ℕ) : ℝ)) := by
          unfold linspace
          field_simp
        have hj : (j : ℝ) / ((P.n - 1 : ℕ) : ℝ) ≤ 1 := by
          rw [div_le_one hn1]
          exact_mod_cast (by omega : j.val ≤ P.n - 1)
        have hj0 : 0 ≤ (j : ℝ) / ((P.n - 1 : ℕ) : ℝ) := by positivity
        obtain ⟨v, hv, -⟩ := hS.inside P.rho p (P.rho i * linspace ((P.rhomax - P.eps) / P.rho i) P.n j) ⟨⟨0, by omega⟩, by
          rw [ej]
          have : P.rho ⟨0, by omega⟩ = 0 := by unfold Params.rho linspace; simp
          rw [this]
          exact mul_nonneg (by linarith) hj0⟩ ⟨⟨P.n - 1, by omega⟩, by
          rw [ej]
          have : P.rho ⟨P.n - 1, by omega⟩ = P.rhomax := by
            unfold Params.rho linspace
            simp only
            rw [mul_div_assoc, div_self hn1.ne', mul_one]
          rw [this]
          nlinarith⟩
        exact ⟨v, hv⟩)
      refine ⟨S.simpson (fun j : Fin P.n => P.rho i * f.getD j.val 0) fun j => sAt (linspace ((P.rhomax - P.eps) / P.rho i) P.n j) 1e-5 1e5, ?_⟩
      simp only [hf]
      rfl
  obtain ⟨r, hr⟩ := mapM_ok_of (fun i => displacementAt S P p (S.simpson p P.rho) i) (List.finRange P.n) fun i _ => hat i
  refine ⟨(fun i => r.getD i.val 0, S.simpson p P.rho), ?_⟩
  unfold displacement
  simp only [hr]
  rfl

/-- **C142.** The pressure is never extrapolated: with a regularization between zero and the cut-off radius the displacement of every pressure is computed, so the only exception is `RuntimeError` after `maxiter + 1` passes. -/
theorem C142_no_extrapolation (S : Scipy) (hS : S.Ok) (P : Params) (hn : 2 ≤ P.n) (h0 : 0 ≤ P.eps) (h1 : P.eps ≤ P.rhomax) (hr : 0 < P.rhomax) (e : PyErr) (h : solve S P = .error e) : e = .runtimeError := by
  classical
  have hdis := displacement_ok S hS P hn h0 h1 hr
  have hloop : ∀ fuel st e, loop S P fuel st = .error e → e = .runtimeError := by
    intro fuel
    induction fuel with
    | zero =>
      intro st e h
      unfold loop at h
      split_ifs at h
      injection h with h
      exact h.symm
    | succ f ih =>
      intro st e h
      unfold loop at h
      split_ifs at h
      obtain ⟨r, hr⟩ := hdis (mixed P st)
      have : pass S P st = .ok ⟨r.1, r.2, mixed P st, st.p⟩ := by
        unfold pass
        simp only [hr]
        rfl
      rw [this] at h
      exact ih _ _ h
  unfold solve at h
  rw [if_neg (by omega)] at h
  cases hl : loop S P (P.maxiter + 1).toNat (start P.n) with
  | error e' =>
    rw [hl] at h
    have : e' = e := by injection h
    rw [← this]
    exact hloop _ _ _ hl
  | ok st => rw [hl] at h; cases h

/-- Routines that do what is expected of `interp1d` exist (here: the value at the first point). -/
theorem scipy_exists : ∃ S : Scipy, S.Ok := by
  classical
  refine ⟨⟨fun _ _ => 0, fun {n} x y t => if (∃ i, x i ≤ t) ∧ ∃ i, t ≤ x i then (if h : 0 < n then .ok (y ⟨0, h⟩) else .ok 0) else .error .valueError⟩, ?_⟩
  constructor
  · rintro n x y t ⟨i, hi⟩ hj
    have hn : 0 < n := i.pos
    refine ⟨y ⟨0, hn⟩, ?_, ⟨_, le_rfl⟩, ⟨_, le_rfl⟩⟩
    simp only
    rw [if_pos ⟨⟨i, hi⟩, hj⟩, dif_pos hn]
  · rintro n x y t h
    simp only
    rw [if_neg]
    rintro ⟨⟨i, hi⟩, j, hj⟩
    rcases h with h | h
    · exact absurd (h i) (not_lt.2 hi)
    · exact absurd (h j) (not_lt.2 hj)

/-- The solver returns: without asperities (`μ = 0`) after one pass, with any routines as above. -/
example (S : Scipy) (hS : S.Ok) : ∃ r, solve S ⟨1, 0, 5, 100, 1e-6, 1e-6, 1 / 10, 1000⟩ = .ok r := by
  cases h : solve S ⟨1, 0, 5, 100, 1e-6, 1e-6, 1 / 10, 1000⟩ with
  | ok r => exact ⟨r, rfl⟩
  | error e =>
    exfalso
    set P : Params := ⟨1, 0, 5, 100, 1e-6, 1e-6, 1 / 10, 1000⟩ with hP
    have he := C142_no_extrapolation S hS P (by norm_num [hP]) (by norm_num [hP]) (by norm_num [hP]) (by norm_num [hP]) e h
    subst he
    have hfuel : (P.maxiter + 1).toNat = 1000 + 1 := by rw [hP]; rfl
    unfold solve at h
    rw [if_neg (by simp [hP]), hfuel] at h
    have hmov : Moving P.tol (start P.n) := ⟨⟨0, by simp [hP]⟩, by simp [start, hP]; norm_num⟩
    rw [show loop S P (1000 + 1) (start P.n) = pass S P (start P.n) >>= loop S P 1000 by rw [loop, if_pos hmov]] at h
    cases hp : pass S P (start P.n) with
    | error e =>
      obtain ⟨r, hr⟩ := displacement_ok S hS P (by norm_num [hP]) (by norm_num [hP]) (by norm_num [hP]) (by norm_num [hP]) (mixed P (start P.n))
      unfold pass at hp
      simp only [hr] at hp
      cases hp
    | ok st =>
      obtain ⟨p1, p2, -⟩ := pass_spec S P _ _ hp
      have : ¬ Moving P.tol st := by
        rintro ⟨i, hi⟩
        rw [p1, p2] at hi
        simp [mixed, pressure, start, hP] at hi
        norm_num at hi
      rw [hp] at h
      simp only [Bind.bind, Except.bind] at h
      rw [show loop S P 1000 st = .ok st by rw [loop, if_neg this]] at h
      cases h

end CM.Ref.GreenwoodTripp
