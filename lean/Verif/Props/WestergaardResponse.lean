import Verif.Props.WestergaardMean
import Mathlib.Analysis.Complex.MeanValue
import Mathlib.Analysis.SpecialFunctions.Pow.Continuity
import Mathlib.MeasureTheory.Integral.DivergenceTheorem
import Mathlib.Analysis.SpecialFunctions.Integrals.Basic
/-!
# Westergaard solution: the displacements are the elastic response to the pressure (C182)
-/
namespace CM.Ref.Westergaard

open Real MeasureTheory Set

/-! ## The boundary values of an analytic function -/

/-- One factor of the analytic function. -/
noncomputable def fac (w z : ℂ) : ℂ := (1 - w * z) ^ (2⁻¹ : ℂ)

theorem re_half : (0 : ℝ) < (2⁻¹ : ℂ).re := by norm_num

theorem one_sub_re {w z : ℂ} (hw : ‖w‖ = 1) (hz : ‖z‖ ≤ 1) : 0 ≤ (1 - w * z).re := by
  have h1 : (w * z).re ≤ ‖w * z‖ := Complex.re_le_norm _
  rw [norm_mul, hw, one_mul] at h1
  rw [Complex.sub_re, Complex.one_re]; linarith

theorem one_sub_re_pos {w z : ℂ} (hw : ‖w‖ = 1) (hz : ‖z‖ < 1) : 0 < (1 - w * z).re := by
  have h1 : (w * z).re ≤ ‖w * z‖ := Complex.re_le_norm _
  rw [norm_mul, hw, one_mul] at h1
  rw [Complex.sub_re, Complex.one_re]; linarith

theorem fac_cont {w : ℂ} (hw : ‖w‖ = 1) : ContinuousOn (fac w) (Metric.closedBall 0 1) := by
  intro z hz
  rw [mem_closedBall_zero_iff] at hz
  have h := Complex.continuousAt_cpow_const_of_re_pos (z := 1 - w * z) (w := 2⁻¹) (Or.inl (one_sub_re hw hz)) re_half
  exact (ContinuousAt.comp (f := fun z => 1 - w * z) h (by fun_prop)).continuousWithinAt

theorem fac_diff {w z : ℂ} (hw : ‖w‖ = 1) (hz : ‖z‖ < 1) : DifferentiableAt ℂ (fac w) z := by
  have hs : (1 - w * z) ∈ Complex.slitPlane := Or.inl (one_sub_re_pos hw hz)
  unfold fac
  exact DifferentiableAt.cpow (by fun_prop) (by fun_prop) hs

theorem fac_conj {w z : ℂ} (hw : ‖w‖ = 1) (hz : ‖z‖ ≤ 1) : fac (starRingEnd ℂ w) (starRingEnd ℂ z) = starRingEnd ℂ (fac w z) := by
  unfold fac
  have harg : (1 - w * z).arg ≠ π := by
    intro h
    rw [Complex.arg_eq_pi_iff] at h
    linarith [h.1, one_sub_re hw hz]
  have h := Complex.conj_cpow (1 - w * z) 2⁻¹ harg
  rw [show starRingEnd ℂ (2⁻¹ : ℂ) = 2⁻¹ by rw [map_inv₀, Complex.conj_ofNat]] at h
  rw [← h]; simp

/-- A point of the unit circle. -/
noncomputable def circ (t : ℝ) : ℂ := Complex.exp ((2 * π * t : ℝ) * Complex.I)

theorem circ_norm (t : ℝ) : ‖circ t‖ = 1 := Complex.norm_exp_ofReal_mul_I _

theorem circ_add (s t : ℝ) : circ s * circ t = circ (s + t) := by
  unfold circ; rw [← Complex.exp_add]; congr 1; push_cast; ring

theorem circ_conj (t : ℝ) : starRingEnd ℂ (circ t) = circ (-t) := by
  unfold circ; rw [← Complex.exp_conj]; congr 1; rw [map_mul, Complex.conj_ofReal, Complex.conj_I]; push_cast; ring

theorem circ_one (t : ℝ) : circ (t + 1) = circ t := by
  unfold circ
  rw [show (((2 * π * (t + 1) : ℝ) : ℂ) * Complex.I) = (2 * π * t : ℝ) * Complex.I + 2 * π * Complex.I by push_cast; ring, Complex.exp_add,
    Complex.exp_two_pi_mul_I, mul_one]

/-- The square root of `1 - e^(2 pi i t)`. -/
theorem root_circ {t : ℝ} (h0 : 0 ≤ t) (h1 : t ≤ 1) :
    (1 - circ t) ^ (2⁻¹ : ℂ) = (√(2 * sin (π * t)) : ℝ) * Complex.exp ((π * (t - 1 / 2) / 2 : ℝ) * Complex.I) := by
  have hs : 0 ≤ sin (π * t) := sin_nonneg_of_nonneg_of_le_pi (by positivity) (by nlinarith [pi_pos])
  have hsq : ((√(2 * sin (π * t)) : ℝ) * Complex.exp ((π * (t - 1 / 2) / 2 : ℝ) * Complex.I)) ^ 2 = 1 - circ t := by
    rw [mul_pow, ← Complex.ofReal_pow, sq_sqrt (by positivity), ← Complex.exp_nat_mul]
    unfold circ
    rw [show ((2 : ℕ) : ℂ) * ((π * (t - 1 / 2) / 2 : ℝ) * Complex.I) = ((π * t - π / 2 : ℝ) : ℂ) * Complex.I by push_cast; ring,
      Complex.exp_mul_I, Complex.exp_mul_I, ← Complex.ofReal_cos, ← Complex.ofReal_sin, ← Complex.ofReal_cos, ← Complex.ofReal_sin,
      cos_sub_pi_div_two, sin_sub_pi_div_two, show 2 * π * t = 2 * (π * t) by ring, cos_two_mul, sin_two_mul]
    have hq := sin_sq_add_cos_sq (π * t)
    generalize sin (π * t) = p at *
    generalize cos (π * t) = q at *
    apply Complex.ext
    · simp [pow_two] at *; nlinarith
    · simp [pow_two] at *
  rcases hs.eq_or_lt with h | h
  · rw [← h] at hsq ⊢
    rw [mul_zero, sqrt_zero, Complex.ofReal_zero, zero_mul] at hsq ⊢
    rw [← hsq]; norm_num
  · rw [← hsq]
    refine Complex.sq_cpow_two_inv ?_
    rw [Complex.re_ofReal_mul, Complex.exp_ofReal_mul_I_re]
    have : 0 < √(2 * sin (π * t)) := sqrt_pos.mpr (by linarith)
    refine mul_pos this (cos_pos_of_mem_Ioo ⟨?_, ?_⟩) <;> nlinarith [pi_pos]

/-- The analytic function. -/
noncomputable def ana (a : ℝ) (z : ℂ) : ℂ := (1 + z) * (fac (circ a) z * fac (circ (-a)) z)

theorem ana_conj (a : ℝ) {z : ℂ} (hz : ‖z‖ ≤ 1) : ana a (starRingEnd ℂ z) = starRingEnd ℂ (ana a z) := by
  unfold ana
  rw [map_mul, map_mul, ← fac_conj (circ_norm a) hz, ← fac_conj (circ_norm (-a)) hz, circ_conj, circ_conj, neg_neg, map_add, map_one]
  ring

/-- Pressure inside the contact, up to a constant factor. -/
noncomputable def inn (a x : ℝ) : ℝ := 4 * cos (π * x) * √(sin (π * a) ^ 2 - sin (π * x) ^ 2)

/-- Slope of the gap outside the contact, up to a constant factor. -/
noncomputable def out (a x : ℝ) : ℝ := 4 * cos (π * x) * √(sin (π * x) ^ 2 - sin (π * a) ^ 2)

theorem sin_mul_sin' (x a : ℝ) : sin (π * (x + a)) * sin (π * (x - a)) = sin (π * x) ^ 2 - sin (π * a) ^ 2 := by
  rw [show π * (x + a) = π * x + π * a by ring, show π * (x - a) = π * x - π * a by ring, sin_add, sin_sub]
  nlinarith [sin_sq_add_cos_sq (π * x), sin_sq_add_cos_sq (π * a)]

theorem one_add_circ (x : ℝ) : 1 + circ x = (2 * cos (π * x) : ℝ) * Complex.exp ((π * x : ℝ) * Complex.I) := by
  unfold circ
  rw [Complex.exp_mul_I, Complex.exp_mul_I, ← Complex.ofReal_cos, ← Complex.ofReal_sin, ← Complex.ofReal_cos, ← Complex.ofReal_sin,
    show 2 * π * x = 2 * (π * x) by ring, cos_two_mul, sin_two_mul]
  generalize sin (π * x) = p at *
  generalize cos (π * x) = q at *
  apply Complex.ext
  · simp [pow_two]; ring
  · simp [pow_two]; ring

theorem ana_circ {a x : ℝ} (h0 : 0 < a) (h1 : a < 1 / 2) (hx0 : 0 ≤ x) (hx1 : x ≤ 1 / 2) :
    ana a (circ x) = ((inn a x : ℝ) - (out a x : ℝ) * Complex.I) * circ x := by
  have hexp : circ x = Complex.exp ((π * x : ℝ) * Complex.I) * Complex.exp ((π * x : ℝ) * Complex.I) := by
    unfold circ; rw [← Complex.exp_add]; congr 1; push_cast; ring
  have hf1 : fac (circ a) (circ x) = (√(2 * sin (π * (x + a))) : ℝ) * Complex.exp ((π * (x + a - 1 / 2) / 2 : ℝ) * Complex.I) := by
    unfold fac; rw [circ_add, add_comm a x, root_circ (by linarith) (by linarith)]
  have hs1 : 0 ≤ sin (π * (x + a)) := sin_nonneg_of_nonneg_of_le_pi (by positivity) (by nlinarith [pi_pos])
  unfold ana
  rw [one_add_circ, hf1]
  rcases le_or_gt a x with hax | hax
  · have hf2 : fac (circ (-a)) (circ x) = (√(2 * sin (π * (x - a))) : ℝ) * Complex.exp ((π * (x - a - 1 / 2) / 2 : ℝ) * Complex.I) := by
      unfold fac; rw [circ_add, show -a + x = x - a by ring, root_circ (by linarith) (by linarith)]
    have hs2 : 0 ≤ sin (π * (x - a)) := sin_nonneg_of_nonneg_of_le_pi (mul_nonneg pi_pos.le (by linarith)) (by nlinarith [pi_pos])
    have hq := sin_mul_sin' x a
    have hr : √(2 * sin (π * (x + a))) * √(2 * sin (π * (x - a))) = 2 * √(sin (π * x) ^ 2 - sin (π * a) ^ 2) := by
      rw [← sqrt_mul (by positivity), show 2 * sin (π * (x + a)) * (2 * sin (π * (x - a))) = 2 ^ 2 * (sin (π * x) ^ 2 - sin (π * a) ^ 2) by rw [← hq]; ring,
        sqrt_mul (by norm_num), sqrt_sq (by norm_num)]
    have hi : inn a x = 0 := by
      unfold inn; rw [sqrt_eq_zero_of_nonpos (by rw [← neg_sub, ← hq]; nlinarith [mul_nonneg hs1 hs2]), mul_zero]
    have he : Complex.exp ((π * (x + a - 1 / 2) / 2 : ℝ) * Complex.I) * Complex.exp ((π * (x - a - 1 / 2) / 2 : ℝ) * Complex.I) =
        -Complex.I * Complex.exp ((π * x : ℝ) * Complex.I) := by
      rw [← Complex.exp_neg_pi_div_two_mul_I, ← Complex.exp_add, ← Complex.exp_add]; congr 1; push_cast; ring
    rw [hf2, hi, hexp]
    unfold out
    calc _ = (2 * cos (π * x) : ℝ) * Complex.exp ((π * x : ℝ) * Complex.I) * (((√(2 * sin (π * (x + a))) * √(2 * sin (π * (x - a))) : ℝ) : ℂ) *
          (Complex.exp ((π * (x + a - 1 / 2) / 2 : ℝ) * Complex.I) * Complex.exp ((π * (x - a - 1 / 2) / 2 : ℝ) * Complex.I))) := by push_cast; ring
      _ = _ := by rw [hr, he]; push_cast; ring
  · have hf2 : fac (circ (-a)) (circ x) = (√(2 * sin (π * (a - x))) : ℝ) * Complex.exp ((π * (x - a + 1 / 2) / 2 : ℝ) * Complex.I) := by
      unfold fac; rw [circ_add, show -a + x = x - a by ring, ← circ_one, root_circ (by linarith) (by linarith),
        show π * (x - a + 1) = π - π * (a - x) by ring, sin_pi_sub]
      congr 3; congr 1; ring
    have hs2 : 0 ≤ sin (π * (a - x)) := sin_nonneg_of_nonneg_of_le_pi (mul_nonneg pi_pos.le (by linarith)) (by nlinarith [pi_pos])
    have hq := sin_mul_sin' x a
    rw [show π * (x - a) = -(π * (a - x)) by ring, sin_neg] at hq
    have hr : √(2 * sin (π * (x + a))) * √(2 * sin (π * (a - x))) = 2 * √(sin (π * a) ^ 2 - sin (π * x) ^ 2) := by
      rw [← sqrt_mul (by positivity), show 2 * sin (π * (x + a)) * (2 * sin (π * (a - x))) = 2 ^ 2 * (sin (π * a) ^ 2 - sin (π * x) ^ 2) by linarith,
        sqrt_mul (by norm_num), sqrt_sq (by norm_num)]
    have hi : out a x = 0 := by
      unfold out; rw [sqrt_eq_zero_of_nonpos (by rw [← hq]; nlinarith [mul_nonneg hs1 hs2]), mul_zero]
    have he : Complex.exp ((π * (x + a - 1 / 2) / 2 : ℝ) * Complex.I) * Complex.exp ((π * (x - a + 1 / 2) / 2 : ℝ) * Complex.I) =
        Complex.exp ((π * x : ℝ) * Complex.I) := by
      rw [← Complex.exp_add]; congr 1; push_cast; ring
    rw [hf2, hi, hexp]
    unfold inn
    calc _ = (2 * cos (π * x) : ℝ) * Complex.exp ((π * x : ℝ) * Complex.I) * (((√(2 * sin (π * (x + a))) * √(2 * sin (π * (a - x))) : ℝ) : ℂ) *
          (Complex.exp ((π * (x + a - 1 / 2) / 2 : ℝ) * Complex.I) * Complex.exp ((π * (x - a + 1 / 2) / 2 : ℝ) * Complex.I))) := by push_cast; ring
      _ = _ := by rw [hr, he]; push_cast; ring

/-- The mean of the boundary values times a power. -/
theorem ana_mean (a : ℝ) (k : ℕ) : (2 * π)⁻¹ • ∫ θ in (0 : ℝ)..2 * π, ana a (circleMap 0 1 θ) * (circleMap 0 1 θ) ^ k = if k = 0 then 1 else 0 := by
  have h := circleAverage_of_differentiable_on_off_countable (f := fun z => ana a z * z ^ k) (c := 0) (R := 1) (s := ∅) countable_empty
    (by
      rw [abs_one]
      unfold ana
      exact ((continuousOn_const.add continuousOn_id).mul ((fac_cont (circ_norm a)).mul (fac_cont (circ_norm (-a))))).mul (continuousOn_id.pow k))
    (by
      rw [abs_one]
      rintro z ⟨hz, -⟩
      rw [mem_ball_zero_iff] at hz
      unfold ana
      exact ((by fun_prop : DifferentiableAt ℂ (fun z : ℂ => 1 + z) z).mul ((fac_diff (circ_norm a) hz).mul (fac_diff (circ_norm (-a)) hz))).mul (by fun_prop))
  rw [circleAverage_def] at h
  rw [h]
  rcases Nat.eq_zero_or_pos k with hk | hk
  · subst hk; simp [ana, fac]
  · rw [if_neg hk.ne', zero_pow hk.ne', mul_zero]

theorem circleMap_circ (t : ℝ) : circleMap 0 1 (2 * π * t) = circ t := by
  unfold circleMap circ; simp

theorem ana_cont (a : ℝ) (k : ℕ) : Continuous fun x : ℝ => ana a (circ x) * circ x ^ k := by
  have hc : Continuous circ := by unfold circ; fun_prop
  have hf : ∀ w : ℂ, ‖w‖ = 1 → Continuous fun x : ℝ => fac w (circ x) := fun w hw =>
    ContinuousOn.comp_continuous (fac_cont hw) hc fun x => by rw [mem_closedBall_zero_iff, circ_norm]
  unfold ana
  exact ((continuous_const.add hc).mul ((hf _ (circ_norm a)).mul (hf _ (circ_norm (-a))))).mul (hc.pow k)

/-- The same over half a period. -/
theorem half_mean {a : ℝ} (h0 : 0 < a) (h1 : a < 1 / 2) (k : ℕ) :
    ∫ x in (0 : ℝ)..1 / 2, (inn a x * cos (2 * π * (k + 1 : ℕ) * x) + out a x * sin (2 * π * (k + 1 : ℕ) * x)) = if k = 0 then 1 / 2 else 0 := by
  set F : ℝ → ℂ := fun x => ana a (circ x) * circ x ^ k with hF
  have hFc := ana_cont a k
  have e1 : ∫ x in (0 : ℝ)..1, F x = if k = 0 then 1 else 0 := by
    rw [← ana_mean a k]
    have h := intervalIntegral.smul_integral_comp_mul_left (a := 0) (b := 1) (fun θ => ana a (circleMap 0 1 θ) * (circleMap 0 1 θ) ^ k) (2 * π)
    rw [mul_zero, mul_one] at h
    rw [← h, smul_smul, inv_mul_cancel₀ (by positivity), one_smul]
    refine intervalIntegral.integral_congr fun x _ => ?_
    rw [circleMap_circ]
  have e2 : ∀ x, F (1 - x) = starRingEnd ℂ (F x) := by
    intro x
    rw [hF]; beta_reduce
    rw [map_mul, map_pow, ← ana_conj a (circ_norm x).le, circ_conj, show (1 - x : ℝ) = -x + 1 by ring, circ_one]
  have e3 : ∫ x in (1 / 2 : ℝ)..1, F x = ∫ x in (0 : ℝ)..1 / 2, starRingEnd ℂ (F x) := by
    have h := intervalIntegral.integral_comp_sub_left (a := 0) (b := 1 / 2) F 1
    rw [sub_zero, show (1 : ℝ) - 1 / 2 = 1 / 2 by norm_num] at h
    rw [← h]
    exact intervalIntegral.integral_congr fun x _ => e2 x
  have hi : ∀ b c, IntervalIntegrable F volume b c := fun b c => hFc.intervalIntegrable _ _
  have e4 : ∫ x in (0 : ℝ)..1 / 2, (F x).re = if k = 0 then 1 / 2 else 0 := by
    have hre : ∫ x in (0 : ℝ)..1 / 2, (F x).re = (∫ x in (0 : ℝ)..1 / 2, F x).re := (intervalIntegral.intervalIntegral_re (hi _ _)).symm ▸ rfl
    have h := congrArg Complex.re e1
    rw [← intervalIntegral.integral_add_adjacent_intervals (hi 0 (1 / 2)) (hi (1 / 2) 1), e3, intervalIntegral.intervalIntegral_conj, Complex.add_re, Complex.conj_re] at h
    rw [hre]
    split_ifs at h ⊢ with hk
    · rw [Complex.one_re] at h; linarith
    · rw [Complex.zero_re] at h; linarith
  rw [← e4]
  refine intervalIntegral.integral_congr fun x hx => ?_
  rw [uIcc_of_le (by norm_num)] at hx
  have hp : circ x * circ x ^ k = Complex.exp ((2 * π * (k + 1 : ℕ) * x : ℝ) * Complex.I) := by
    unfold circ; rw [← pow_succ', ← Complex.exp_nat_mul]; congr 1; push_cast; ring
  rw [hF]; beta_reduce
  rw [ana_circ h0 h1 hx.1 hx.2, mul_assoc (_ - _), hp, Complex.exp_mul_I, ← Complex.ofReal_cos, ← Complex.ofReal_sin]
  generalize sin (2 * π * (k + 1 : ℕ) * x) = p
  generalize cos (2 * π * (k + 1 : ℕ) * x) = q
  simp

/-! ## The displacements -/

theorem ang_deriv_x {x a : ℝ} (h0 : 0 < a) (hax : a < x) (hx : x < 1 / 2) :
    HasDerivAt (fun x => opn x a) (2 * π * cos (π * x) * √(sin (π * x) ^ 2 - sin (π * a) ^ 2)) x := by
  have hA := sin_a_pos h0 (show a < 1 by linarith)
  have hlt := sin_lt h0 hax hx.le
  have hX : 0 < sin (π * x) := hA.trans hlt
  have hq : 0 < sin (π * x) ^ 2 - sin (π * a) ^ 2 := by nlinarith
  have hr := sqrt_pos.mpr hq
  have hs2 : √(sin (π * x) ^ 2 - sin (π * a) ^ 2) ^ 2 = sin (π * x) ^ 2 - sin (π * a) ^ 2 := sq_sqrt hq.le
  have hd := sin_deriv x
  have h1 := ((hd.fun_pow 2).sub_const (sin (π * a) ^ 2)).sqrt hq.ne'
  have h2 := ((hd.add h1).div_const (sin (π * a))).log (div_pos (add_pos hX hr) hA).ne'
  have h3 := (hd.mul h1).sub (h2.const_mul (sin (π * a) ^ 2))
  refine HasDerivAt.congr_deriv h3 ?_
  norm_num
  generalize √(sin (π * x) ^ 2 - sin (π * a) ^ 2) = r at *
  have : 0 < sin (π * x) + r := by linarith
  field_simp
  have hs3 : sin (π * a) ^ 2 = sin (π * x) ^ 2 - r ^ 2 := by linarith
  rw [hs3]; ring

theorem opn_self (a : ℝ) (h0 : 0 < a) (h1 : a < 1) : opn a a = 0 := by
  unfold opn; rw [ang_self a h0 h1, sub_self, sqrt_zero]; ring

/-- The displacements on half a period. -/
theorem disp_eq {a x : ℝ} (h0 : 0 < a) (h1 : a < 1 / 2) (hx0 : 0 ≤ x) (hx1 : x ≤ 1 / 2) :
    displacements x a = -sin (π * x) ^ 2 + opn (max x a) a := by
  unfold displacements
  rw [fold_small (by linarith) hx1, abs_of_nonneg hx0]
  unfold chi2 chi1
  rcases le_or_gt x a with h | h
  · rw [if_neg (fun c => absurd c.1 (not_lt.mpr h)), if_neg (fun c => absurd c.1 (not_lt.mpr h)), max_eq_right h, opn_self a h0 (by linarith)]; ring
  · rw [if_pos ⟨h, by linarith⟩, if_pos ⟨h, by linarith⟩, max_eq_left h.le]; unfold opn ang; ring

theorem opn_cont {a : ℝ} (h0 : 0 < a) (h1 : a < 1 / 2) : ContinuousOn (fun x => opn (max x a) a) (Icc 0 (1 / 2)) := by
  intro x hx
  have hA := sin_a_pos h0 (show a < 1 by linarith)
  have hX : 0 < sin (π * max x a) := sin_a_pos (lt_max_of_lt_right h0) (max_lt (by linarith [hx.2]) (by linarith))
  unfold opn ang
  refine ContinuousAt.continuousWithinAt (ContinuousAt.sub (by fun_prop) (ContinuousAt.mul (by fun_prop) (ContinuousAt.log (by fun_prop (disch := positivity)) ?_)))
  positivity

theorem opn_diff {a x : ℝ} (h0 : 0 < a) (h1 : a < 1 / 2) (hx0 : 0 < x) (hx : x < 1 / 2) (hne : x ≠ a) :
    HasDerivAt (fun x => opn (max x a) a) (π / 2 * out a x) x := by
  unfold out
  rcases lt_or_gt_of_ne hne with h | h
  · have hlt := sin_lt hx0 h h1.le
    have hX := sin_a_pos hx0 (show x < 1 by linarith)
    rw [sqrt_eq_zero_of_nonpos (by nlinarith), mul_zero, mul_zero]
    refine HasDerivAt.congr_of_eventuallyEq (hasDerivAt_const x (opn a a)) ?_
    filter_upwards [Iio_mem_nhds h] with y hy
    rw [max_eq_right (le_of_lt hy)]
  · refine HasDerivAt.congr_of_eventuallyEq (HasDerivAt.congr_deriv (ang_deriv_x h0 h hx) (by ring)) ?_
    filter_upwards [Ioi_mem_nhds h] with y hy
    rw [max_eq_left (le_of_lt hy)]

/-- Integration by parts. -/
theorem parts {a : ℝ} (h0 : 0 < a) (h1 : a < 1 / 2) (n : ℕ) :
    2 * π * n * ∫ x in (0 : ℝ)..1 / 2, displacements x a * cos (2 * π * n * x) =
      ∫ x in (0 : ℝ)..1 / 2, (π * sin (2 * π * x) - π / 2 * out a x) * sin (2 * π * n * x) := by
  set U : ℝ → ℝ := fun x => -sin (π * x) ^ 2 + opn (max x a) a with hU
  have hUc : ContinuousOn U (Icc 0 (1 / 2)) := ContinuousOn.add (by fun_prop) (opn_cont h0 h1)
  have hoc : Continuous (out a) := by unfold out; fun_prop
  have hd : ∀ x ∈ Ioo (0 : ℝ) (1 / 2) \ {a}, HasDerivAt (fun x => U x * sin (2 * π * n * x))
      ((-(π * sin (2 * π * x) - π / 2 * out a x)) * sin (2 * π * n * x) + U x * (2 * π * n * cos (2 * π * n * x))) x := by
    rintro x ⟨⟨hx0, hx1⟩, hne⟩
    have hs : HasDerivAt (fun x => sin (2 * π * n * x)) (2 * π * n * cos (2 * π * n * x)) x := by
      have hl : HasDerivAt (fun x : ℝ => 2 * π * n * x) (2 * π * n) x := by simpa using (hasDerivAt_id x).const_mul (2 * π * n)
      exact HasDerivAt.congr_deriv hl.sin (by ring)
    have hu := (((sin_deriv x).fun_pow 2).fun_neg).add (opn_diff h0 h1 hx0 hx1 hne)
    refine HasDerivAt.congr_deriv (hu.mul hs) ?_
    rw [show 2 * π * x = 2 * (π * x) by ring, sin_two_mul]
    norm_num
    ring
  have hi1 : IntervalIntegrable (fun x => (-(π * sin (2 * π * x) - π / 2 * out a x)) * sin (2 * π * n * x)) volume 0 (1 / 2) :=
    Continuous.intervalIntegrable (by fun_prop) _ _
  have hi2 : IntervalIntegrable (fun x => U x * (2 * π * n * cos (2 * π * n * x))) volume 0 (1 / 2) := by
    refine ContinuousOn.intervalIntegrable ?_
    rw [uIcc_of_le (by norm_num)]
    exact hUc.mul (by fun_prop)
  have h := integral_eq_of_hasDerivAt_off_countable_of_le (fun x => U x * sin (2 * π * n * x)) _ (by norm_num) (countable_singleton a)
    (hUc.mul (by fun_prop)) hd (hi1.add hi2)
  rw [intervalIntegral.integral_add hi1 hi2, mul_zero, sin_zero, mul_zero, sub_zero, show 2 * π * (n : ℝ) * (1 / 2) = n * π by ring, sin_nat_mul_pi, mul_zero] at h
  have e1 : ∫ x in (0 : ℝ)..1 / 2, U x * (2 * π * n * cos (2 * π * n * x)) = 2 * π * n * ∫ x in (0 : ℝ)..1 / 2, displacements x a * cos (2 * π * n * x) := by
    rw [← intervalIntegral.integral_const_mul]
    refine intervalIntegral.integral_congr fun x hx => ?_
    rw [uIcc_of_le (by norm_num)] at hx
    rw [disp_eq h0 h1 hx.1 hx.2]; ring
  have e2 : ∫ x in (0 : ℝ)..1 / 2, (-(π * sin (2 * π * x) - π / 2 * out a x)) * sin (2 * π * n * x) =
      -∫ x in (0 : ℝ)..1 / 2, (π * sin (2 * π * x) - π / 2 * out a x) * sin (2 * π * n * x) := by
    rw [← intervalIntegral.integral_neg]
    exact intervalIntegral.integral_congr fun x _ => by ring
  rw [e1, e2] at h
  linarith

/-- Orthogonality of the sines. -/
theorem sin_orth {n : ℕ} (hn : 0 < n) : ∫ x in (0 : ℝ)..1 / 2, sin (2 * π * x) * sin (2 * π * n * x) = if n = 1 then 1 / 4 else 0 := by
  have hc : ∀ m : ℤ, ∫ x in (0 : ℝ)..1 / 2, cos (2 * π * m * x) = if m = 0 then 1 / 2 else 0 := by
    intro m
    split_ifs with h
    · subst h; simp
    · have h2 : (2 * π * m : ℝ) ≠ 0 := by have : (m : ℝ) ≠ 0 := by exact_mod_cast h
                                          positivity
      rw [intervalIntegral.integral_comp_mul_left (fun x => cos x) h2, integral_cos, mul_zero, sin_zero, show 2 * π * (m : ℝ) * (1 / 2) = m * π by ring, sin_int_mul_pi]
      simp
  have e : ∀ x : ℝ, sin (2 * π * x) * sin (2 * π * n * x) = 1 / 2 * cos (2 * π * ((n : ℤ) - 1 : ℤ) * x) - 1 / 2 * cos (2 * π * ((n : ℤ) + 1 : ℤ) * x) := by
    intro x
    rw [show 2 * π * (((n : ℤ) - 1 : ℤ) : ℝ) * x = 2 * π * n * x - 2 * π * x by push_cast; ring,
      show 2 * π * (((n : ℤ) + 1 : ℤ) : ℝ) * x = 2 * π * n * x + 2 * π * x by push_cast; ring, cos_sub, cos_add]
    ring
  rw [intervalIntegral.integral_congr fun x _ => e x, intervalIntegral.integral_sub (Continuous.intervalIntegrable (by fun_prop) _ _)
    (Continuous.intervalIntegrable (by fun_prop) _ _), intervalIntegral.integral_const_mul, intervalIntegral.integral_const_mul, hc, hc,
    if_neg (show ((n : ℤ) + 1 : ℤ) ≠ 0 by omega)]
  by_cases h : n = 1
  · rw [if_pos h, if_pos (by omega)]; norm_num
  · rw [if_neg h, if_neg (by omega)]; norm_num

/-- The pressure on half a period. -/
theorem press_eq {a x : ℝ} (h0 : 0 < a) (h1 : a < 1 / 2) (hx0 : 0 ≤ x) (hx1 : x ≤ 1 / 2) :
    2 * sin (π * a) ^ 2 * pressureAt (fold x) (π * a) = inn a x := by
  have hA := sin_a_pos h0 (show a < 1 by linarith)
  unfold pressureAt inn
  rw [fold_small (by linarith) hx1, abs_of_nonneg hx0]
  rcases lt_or_ge x a with h | h
  · rw [if_pos (cos_lt_cos_of_nonneg_of_le_pi_div_two (by positivity) (by nlinarith [pi_pos]) (by nlinarith [pi_pos]))]
    field_simp; ring
  · rw [if_neg (not_lt.mpr (cos_le_cos_of_nonneg_of_le_pi (by positivity) (by nlinarith [pi_pos]) (by nlinarith [pi_pos])))]
    have : sin (π * a) ≤ sin (π * x) := by
      rcases h.eq_or_lt with h | h
      · rw [h]
      · exact (sin_lt h0 h hx1).le
    rw [sqrt_eq_zero_of_nonpos (by nlinarith)]; ring

/-- The response over half a period. -/
theorem half_response {a : ℝ} (h0 : 0 < a) (h1 : a < 1 / 2) {n : ℕ} (hn : 0 < n) :
    ∫ x in (0 : ℝ)..1 / 2, displacements x a * cos (2 * π * n * x) =
      sin (π * a) ^ 2 / (2 * n) * ∫ x in (0 : ℝ)..1 / 2, pressureAt (fold x) (π * a) * cos (2 * π * n * x) := by
  obtain ⟨k, rfl⟩ : ∃ k, n = k + 1 := ⟨n - 1, by omega⟩
  have hp := parts h0 h1 (k + 1)
  have hm := half_mean h0 h1 k
  have ho := sin_orth hn
  have hic : Continuous (inn a) := by unfold inn; fun_prop
  have hoc : Continuous (out a) := by unfold out; fun_prop
  rw [intervalIntegral.integral_add (Continuous.intervalIntegrable (by fun_prop) _ _) (Continuous.intervalIntegrable (by fun_prop) _ _)] at hm
  have e1 : ∫ x in (0 : ℝ)..1 / 2, (π * sin (2 * π * x) - π / 2 * out a x) * sin (2 * π * (k + 1 : ℕ) * x) =
      π * (∫ x in (0 : ℝ)..1 / 2, sin (2 * π * x) * sin (2 * π * (k + 1 : ℕ) * x)) - π / 2 * ∫ x in (0 : ℝ)..1 / 2, out a x * sin (2 * π * (k + 1 : ℕ) * x) := by
    rw [← intervalIntegral.integral_const_mul, ← intervalIntegral.integral_const_mul, ← intervalIntegral.integral_sub
      (Continuous.intervalIntegrable (by fun_prop) _ _) (Continuous.intervalIntegrable (by fun_prop) _ _)]
    exact intervalIntegral.integral_congr fun x _ => by ring
  have e2 : ∫ x in (0 : ℝ)..1 / 2, inn a x * cos (2 * π * (k + 1 : ℕ) * x) =
      2 * sin (π * a) ^ 2 * ∫ x in (0 : ℝ)..1 / 2, pressureAt (fold x) (π * a) * cos (2 * π * (k + 1 : ℕ) * x) := by
    rw [← intervalIntegral.integral_const_mul]
    refine intervalIntegral.integral_congr fun x hx => ?_
    rw [uIcc_of_le (by norm_num)] at hx
    rw [← press_eq h0 h1 hx.1 hx.2]; ring
  rw [e1, ho] at hp
  rw [e2] at hm
  have hb : (if k + 1 = 1 then (1 / 4 : ℝ) else 0) = (if k = 0 then 1 / 2 else 0) / 2 := by by_cases h : k = 0 <;> simp [h]; norm_num
  rw [hb, ← hm] at hp
  have hpi := pi_pos
  have hk : (0 : ℝ) < ((k + 1 : ℕ) : ℝ) := by exact_mod_cast hn
  rw [div_mul_eq_mul_div, eq_div_iff (by positivity)]
  have : π * ((∫ x in (0 : ℝ)..1 / 2, displacements x a * cos (2 * π * (k + 1 : ℕ) * x)) * (2 * (k + 1 : ℕ))) =
    π * (sin (π * a) ^ 2 * ∫ x in (0 : ℝ)..1 / 2, pressureAt (fold x) (π * a) * cos (2 * π * (k + 1 : ℕ) * x)) := by linarith
  exact mul_left_cancel₀ hpi.ne' this

/-! ## Whole periods -/

/-- Integrals of symmetric periodic fields. -/
theorem even_period {f : ℝ → ℝ} (hf : ∀ x, f (1 - x) = f x) (hi : IntervalIntegrable f volume 0 (1 / 2)) (n : ℤ) :
    ∫ x in (0 : ℝ)..1, f x * cos (2 * π * n * x) = 2 * ∫ x in (0 : ℝ)..1 / 2, f x * cos (2 * π * n * x) ∧
    ∫ x in (0 : ℝ)..1, f x * sin (2 * π * n * x) = 0 := by
  have harg : ∀ x : ℝ, 2 * π * n * (1 - x) = n * (2 * π) - 2 * π * n * x := fun x => by ring
  constructor
  · set g : ℝ → ℝ := fun x => f x * cos (2 * π * n * x) with hg
    have hgs : ∀ x, g (1 - x) = g x := fun x => by simp only [hg]; rw [hf, harg, cos_int_mul_two_pi_sub]
    have hgi : IntervalIntegrable g volume 0 (1 / 2) := hi.mul_continuousOn (by fun_prop)
    have h := intervalIntegral.integral_comp_sub_left (a := 0) (b := 1 / 2) g 1
    rw [sub_zero, show (1 : ℝ) - 1 / 2 = 1 / 2 by norm_num, intervalIntegral.integral_congr fun x _ => hgs x] at h
    have hgi2 : IntervalIntegrable g volume (1 / 2) 1 := by
      have := hgi.comp_sub_left 1
      rw [sub_zero, show (1 : ℝ) - 1 / 2 = 1 / 2 by norm_num] at this
      have e : (fun x => g (1 - x)) = g := funext hgs
      rw [e] at this
      exact this.symm
    rw [← intervalIntegral.integral_add_adjacent_intervals hgi hgi2, ← h]; ring
  · set g : ℝ → ℝ := fun x => f x * sin (2 * π * n * x) with hg
    have hgs : ∀ x, g (1 - x) = -g x := fun x => by simp only [hg]; rw [hf, harg, sin_int_mul_two_pi_sub]; ring
    have h := intervalIntegral.integral_comp_sub_left (a := 0) (b := 1) g 1
    rw [sub_zero, sub_self, intervalIntegral.integral_congr fun x _ => hgs x, intervalIntegral.integral_neg] at h
    linarith

theorem fold_mirror (x : ℝ) : fold (1 - x) = fold x := by
  have h := fold_periodic (-x) 1
  rw [fold_even] at h
  rw [← h]; congr 1; push_cast; ring

theorem disp_int {a : ℝ} (h0 : 0 < a) (h1 : a < 1 / 2) : IntervalIntegrable (fun x => displacements x a) volume 0 (1 / 2) := by
  refine ContinuousOn.intervalIntegrable ?_
  rw [uIcc_of_le (by norm_num)]
  exact ContinuousOn.congr (ContinuousOn.add (by fun_prop) (opn_cont h0 h1)) fun x hx => disp_eq h0 h1 hx.1 hx.2

theorem press_int {a : ℝ} (h0 : 0 < a) (h1 : a < 1 / 2) : IntervalIntegrable (fun x => pressureAt (fold x) (π * a)) volume 0 (1 / 2) := by
  refine ContinuousOn.intervalIntegrable ?_
  rw [uIcc_of_le (by norm_num)]
  have hA := sin_a_pos h0 (show a < 1 by linarith)
  have hic : Continuous fun x => inn a x / (2 * sin (π * a) ^ 2) := by unfold inn; fun_prop
  refine hic.continuousOn.congr fun x hx => ?_
  beta_reduce
  rw [← press_eq h0 h1 hx.1 hx.2]; field_simp

/-- **C182** Westergaard's displacements are the elastic response of a half-space to Westergaard's pressure: for a half-space of contact modulus `Es`
and a wave of amplitude `h` and wavelength `lam`, with the pressure in its unit `pi Es h / lam` and the displacements in their unit `2 h`, every Fourier
coefficient of the displacements (wavenumber `q = 2 pi n / lam`, any `n` other than zero) is that of the pressure divided by the stiffness `Es |q| / 2`,
which is the stiffness of the simulated half-space (C09). -/
theorem C182_response {a : ℝ} (h0 : 0 < a) (h1 : a < 1 / 2) {Es h lam : ℝ} (hE : 0 < Es) (hl : 0 < lam) {P U : ℝ → ℝ}
    (hU : ∀ X, U X = 2 * h * displacements (X / lam) a)
    (hP : ∀ X, ∃ p, pressure (X / lam) (some a) none = .ok p ∧ P X = π * Es * h / lam * (meanPressure a * p))
    {n : ℤ} (hn : n ≠ 0) {q : ℝ} (hq : q = 2 * π * n / lam) :
    Es / 2 * |q| * (∫ X in (0 : ℝ)..lam, U X * cos (q * X)) = ∫ X in (0 : ℝ)..lam, P X * cos (q * X) ∧
    Es / 2 * |q| * (∫ X in (0 : ℝ)..lam, U X * sin (q * X)) = ∫ X in (0 : ℝ)..lam, P X * sin (q * X) := by
  have hP' : ∀ X, P X = π * Es * h / lam * (meanPressure a * pressureAt (fold (X / lam)) (π * a)) := by
    intro X
    obtain ⟨p, hp, hX⟩ := hP X
    have : pressureAt (fold (X / lam)) (π * a) = p := by injection hp
    rw [hX, this]
  have hchg : ∀ f g : ℝ → ℝ, ∀ c : ℝ, (∫ X in (0 : ℝ)..lam, c * f (X / lam) * g (q * X)) = c * (lam * ∫ x in (0 : ℝ)..1, f x * g (2 * π * n * x)) := by
    intro f g c
    have h2 := intervalIntegral.integral_comp_div (a := 0) (b := lam) (fun x => c * (f x * g (2 * π * n * x))) hl.ne'
    rw [zero_div, div_self hl.ne'] at h2
    rw [show c * (lam * ∫ x in (0 : ℝ)..1, f x * g (2 * π * n * x)) = lam • ∫ x in (0 : ℝ)..1, c * (f x * g (2 * π * n * x)) by
      rw [smul_eq_mul, intervalIntegral.integral_const_mul]; ring, ← h2]
    refine intervalIntegral.integral_congr fun X _ => ?_
    rw [show q * X = 2 * π * n * (X / lam) by rw [hq]; field_simp]
    ring
  have dC := even_period (f := fun x => displacements x a) (fun x => by simp only [displacements, fold_mirror]) (disp_int h0 h1) n
  have pC := even_period (f := fun x => pressureAt (fold x) (π * a)) (fun x => by simp only [fold_mirror]) (press_int h0 h1) n
  have hU2 : ∀ g : ℝ → ℝ, (∫ X in (0 : ℝ)..lam, U X * g (q * X)) = 2 * h * (lam * ∫ x in (0 : ℝ)..1, displacements x a * g (2 * π * n * x)) := by
    intro g
    rw [← hchg (fun x => displacements x a) g (2 * h)]
    exact intervalIntegral.integral_congr fun X _ => by rw [hU]
  have hP2 : ∀ g : ℝ → ℝ, (∫ X in (0 : ℝ)..lam, P X * g (q * X)) =
      π * Es * h / lam * meanPressure a * (lam * ∫ x in (0 : ℝ)..1, pressureAt (fold x) (π * a) * g (2 * π * n * x)) := by
    intro g
    rw [← hchg (fun x => pressureAt (fold x) (π * a)) g (π * Es * h / lam * meanPressure a)]
    exact intervalIntegral.integral_congr fun X _ => by rw [hP']; ring
  rw [hU2, hU2, hP2, hP2, dC.1, dC.2, pC.1, pC.2]
  refine ⟨?_, by ring⟩
  have hna : 0 < n.natAbs := Int.natAbs_pos.mpr hn
  have hr := half_response h0 h1 hna
  have hcos : ∀ x : ℝ, cos (2 * π * (n.natAbs : ℕ) * x) = cos (2 * π * n * x) := by
    intro x
    rcases Int.natAbs_eq n with h | h
    · have : (n : ℝ) = ((n.natAbs : ℕ) : ℝ) := by rw [← Int.cast_natCast, ← h]
      rw [this]
    · have : (n : ℝ) = -((n.natAbs : ℕ) : ℝ) := by rw [← Int.cast_natCast, ← Int.cast_neg, ← h]
      rw [this, ← cos_neg]; congr 1; ring
  simp only [hcos] at hr
  rw [hr, hq, abs_div, abs_mul, abs_of_pos (show (0 : ℝ) < 2 * π by positivity), abs_of_pos hl]
  have hab : |(n : ℝ)| = ((n.natAbs : ℕ) : ℝ) := by rw [Nat.cast_natAbs, Int.cast_abs]
  have hpos : (0 : ℝ) < ((n.natAbs : ℕ) : ℝ) := by exact_mod_cast hna
  rw [hab]
  unfold meanPressure
  field_simp

/-- The hypotheses are met, by the quantities the functions return. -/
example : ∃ P U : ℝ → ℝ, (∀ X, U X = 2 * 3 * displacements (X / 5) (1 / 4)) ∧
    (∀ X, ∃ p, pressure (X / 5) (some (1 / 4)) none = .ok p ∧ P X = π * 2 * 3 / 5 * (meanPressure (1 / 4) * p)) ∧ U 1 ≠ 0 := by
  refine ⟨fun X => π * 2 * 3 / 5 * (meanPressure (1 / 4) * pressureAt (fold (X / 5)) (π * (1 / 4))), fun X => 2 * 3 * displacements (X / 5) (1 / 4),
    fun _ => rfl, fun X => ⟨_, rfl, rfl⟩, ?_⟩
  beta_reduce
  rw [disp_eq (by norm_num) (by norm_num) (by norm_num) (by norm_num), max_eq_right (by norm_num), opn_self _ (by norm_num) (by norm_num)]
  have : 0 < sin (π * (1 / 5)) := sin_a_pos (by norm_num) (by norm_num)
  intro hc
  nlinarith

end CM.Ref.Westergaard
