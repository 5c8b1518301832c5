import Mathlib.MeasureTheory.Integral.PeakFunction
import Mathlib.MeasureTheory.Integral.IntervalIntegral.Periodic
import Mathlib.MeasureTheory.Integral.IntervalIntegral.Basic
import Mathlib.Algebra.MonoidAlgebra.Lift
import Mathlib.Analysis.SpecialFunctions.Trigonometric.Deriv
/-!
# Smoothing of periodic functions by trigonometric kernels
-/
namespace CM.Smooth
open Real MeasureTheory Set Topology Filter
open scoped ComplexConjugate

/-- One-dimensional wave with `k` periods in `s`. -/
noncomputable def e (s : ℝ) (k : ℤ) (x : ℝ) : ℂ := Complex.exp (2 * π * (k * x / s) * Complex.I)

lemma e_real (s : ℝ) (k : ℤ) (x : ℝ) : e s k x = Complex.exp (((2 * π * (k * x / s) : ℝ) : ℂ) * Complex.I) := by
  unfold e; push_cast; rfl

lemma e_add (s : ℝ) (k : ℤ) (x y : ℝ) : e s k (x + y) = e s k x * e s k y := by
  unfold e; rw [← Complex.exp_add]; congr 1; push_cast; ring

lemma e_mul (s : ℝ) (k l : ℤ) (x : ℝ) : e s (k + l) x = e s k x * e s l x := by
  unfold e; rw [← Complex.exp_add]; congr 1; push_cast; ring

lemma e_zero (s x : ℝ) : e s 0 x = 1 := by unfold e; simp

lemma e_norm (s : ℝ) (k : ℤ) (x : ℝ) : ‖e s k x‖ = 1 := by rw [e_real]; exact Complex.norm_exp_ofReal_mul_I _

lemma e_conj (s : ℝ) (k : ℤ) (x : ℝ) : conj (e s k x) = e s k (-x) := by
  rw [e_real, e_real, ← Complex.exp_conj]
  congr 1
  rw [map_mul, Complex.conj_I, Complex.conj_ofReal]
  push_cast; ring

lemma e_continuous (s : ℝ) (k : ℤ) : Continuous (e s k) := by unfold e; fun_prop

lemma e_periodic {s : ℝ} (hs : s ≠ 0) (k : ℤ) : Function.Periodic (e s k) s := by
  intro x
  rw [e_add]
  have : e s k s = 1 := by
    unfold e
    have h : (s : ℂ) ≠ 0 := by exact_mod_cast hs
    rw [mul_div_cancel_right₀ _ h, show (2 * π * (k : ℂ) * Complex.I : ℂ) = k * (2 * π * Complex.I) by ring]
    exact Complex.exp_int_mul_two_pi_mul_I k
  rw [this, mul_one]

/-- The peak. -/
noncomputable def peak (s z : ℝ) : ℝ := 1 - cos (2 * π * z / s)

lemma peak_continuous (s : ℝ) : Continuous (peak s) := by unfold peak; fun_prop

lemma peak_nonneg (s z : ℝ) : 0 ≤ peak s z := by unfold peak; linarith [cos_le_one (2 * π * z / s)]

lemma peak_mid {s : ℝ} (hs : 0 < s) : peak s (s / 2) = 2 := by
  unfold peak
  rw [show 2 * π * (s / 2) / s = π by field_simp, cos_pi]; norm_num

lemma peak_pos {s : ℝ} (hs : 0 < s) {z : ℝ} (hz : z ∈ Ioo 0 s) : 0 < peak s z := by
  refine (peak_nonneg s z).lt_of_ne' fun h => ?_
  have h1 : cos (2 * π * z / s) = 1 := by unfold peak at h; linarith
  have hpi := pi_pos
  have h0 : 0 < 2 * π * z / s := by have := hz.1; positivity
  have h2 : 2 * π * z / s < 2 * π := by rw [div_lt_iff₀ hs]; have := hz.2; nlinarith
  rw [cos_eq_one_iff_of_lt_of_lt (by linarith) h2] at h1
  linarith

lemma peak_lt {s : ℝ} (hs : 0 < s) {z : ℝ} (hz : z ∈ Icc 0 s) (hne : z ≠ s / 2) : peak s z < peak s (s / 2) := by
  rw [peak_mid hs]
  have hpi := pi_pos
  refine lt_of_le_of_ne (by unfold peak; linarith [neg_one_le_cos (2 * π * z / s)]) fun h => hne ?_
  have h1 : cos (2 * π * z / s - π) = 1 := by rw [cos_sub_pi]; unfold peak at h; linarith
  have hl : 0 ≤ 2 * π * z / s := by have := hz.1; positivity
  have hr : 2 * π * z / s ≤ 2 * π := by rw [div_le_iff₀ hs]; have := hz.2; nlinarith
  rw [cos_eq_one_iff_of_lt_of_lt (by linarith) (by linarith)] at h1
  have : 2 * π * z / s = π := by linarith
  field_simp at this
  linarith

/-- Powers of the peak are trigonometric polynomials. -/
lemma peak_trig (s : ℝ) (n : ℕ) : ∃ (t : Finset ℤ) (a : ℤ → ℂ), ∀ z, ((peak s z ^ n : ℝ) : ℂ) = ∑ k ∈ t, a k * e s k z := by
  induction n with
  | zero => exact ⟨{0}, fun _ => 1, fun z => by simp [e_zero]⟩
  | succ n ih =>
    obtain ⟨t, a, h⟩ := ih
    let χ : ℝ → (Multiplicative ℤ →* ℂ) := fun z => ⟨⟨fun k => e s k.toAdd z, e_zero s z⟩, fun k l => e_mul s _ _ z⟩
    let F : AddMonoidAlgebra ℂ ℤ := (1 - (AddMonoidAlgebra.single 1 (1 / 2 : ℂ) + AddMonoidAlgebra.single (-1) (1 / 2 : ℂ))) ^ (n + 1)
    refine ⟨F.coeff.support, F.coeff, fun z => ?_⟩
    have key : AddMonoidAlgebra.lift ℂ ℂ ℤ (χ z) F = ((peak s z ^ (n + 1) : ℝ) : ℂ) := by
      simp only [F, map_pow, map_sub, map_add, map_one, AddMonoidAlgebra.lift_single]
      push_cast
      congr 1
      unfold peak
      show 1 - ((1 / 2 : ℂ) • e s 1 z + (1 / 2 : ℂ) • e s (-1) z) = _
      push_cast
      rw [Complex.cos, e, e]
      simp only [smul_eq_mul]
      push_cast
      rw [show (2 * π * (1 * z / s) * Complex.I : ℂ) = 2 * π * z / s * Complex.I by ring, show (2 * π * (-1 * z / s) * Complex.I : ℂ) = -(2 * π * z / s) * Complex.I by ring]
      ring
    rw [← key, AddMonoidAlgebra.lift_apply]
    rfl

/-- A wave folded with a periodic function. -/
lemma wave_fold {s : ℝ} (hs : 0 < s) (k : ℤ) {f : ℝ → ℂ} (hp : Function.Periodic f s) (d : ℝ) :
    ∫ z in (0 : ℝ)..s, e s k z * f (d - z) = e s k d * ∫ z in (0 : ℝ)..s, f z * conj (e s k z) := by
  have hg : Function.Periodic (fun w => f w * conj (e s k w)) s := fun w => by
    show f (w + s) * conj (e s k (w + s)) = _
    rw [hp, e_periodic hs.ne' k]
  have e1 : ∀ z, e s k z * f (d - z) = e s k d * (fun w => f w * conj (e s k w)) (d - z) := by
    intro z
    show _ = e s k d * (f (d - z) * conj (e s k (d - z)))
    rw [e_conj, mul_left_comm, ← e_add, show d + -(d - z) = z by ring, mul_comm]
  simp only [e1]
  rw [intervalIntegral.integral_const_mul, intervalIntegral.integral_comp_sub_left (fun w => f w * conj (e s k w)) d, sub_zero]
  have := hg.intervalIntegral_add_eq (d - s) 0
  rw [sub_add_cancel, zero_add] at this
  rw [this]

/-- The smoothed function. -/
noncomputable def smoothed (s : ℝ) (t : Finset ℤ) (a : ℤ → ℂ) (f : ℝ → ℂ) (x : ℝ) : ℂ := ∑ k ∈ t, a k * e s k x * ∫ z in (0 : ℝ)..s, f z * conj (e s k z)

/-- Smoothing that does not enlarge functions and changes functions of bounded variation little. -/
structure Smoothing (s δ : ℝ) (t : Finset ℤ) (a : ℤ → ℂ) : Prop where
  bound : ∀ f : ℝ → ℂ, Continuous f → Function.Periodic f s → ∀ M, (∀ x, ‖f x‖ ≤ M) → ∀ x, ‖smoothed s t a f x‖ ≤ M
  near : ∀ f : ℝ → ℂ, Continuous f → Function.Periodic f s → ∀ η A, 0 ≤ A → (∀ x y, ‖f x - f y‖ ≤ η + A * (x - y) ^ 2) → ∀ x, ‖smoothed s t a f x - f x‖ ≤ η + A * δ

lemma exists_smoothing {s δ : ℝ} (hs : 0 < s) (hδ : 0 < δ) : ∃ t a, Smoothing s δ t a := by
  have hlim := tendsto_setIntegral_pow_smul_of_unique_maximum_of_isCompact_of_continuousOn (μ := volume) (s := Icc 0 s) (x₀ := s / 2) (c := peak s) (g := fun z => (z - s / 2) ^ 2)
    isCompact_Icc (peak_continuous s).continuousOn (fun y hy hne => peak_lt hs hy hne) (fun x _ => peak_nonneg s x) (by rw [peak_mid hs]; norm_num)
    (by rw [interior_Icc, closure_Ioo hs.ne]; constructor <;> linarith) (by fun_prop)
  simp only [sub_self, ne_eq, OfNat.ofNat_ne_zero, not_false_eq_true, zero_pow, integral_Icc_eq_integral_Ioc, ← intervalIntegral.integral_of_le hs.le, smul_eq_mul] at hlim
  obtain ⟨n, hn⟩ := (hlim.eventually (gt_mem_nhds hδ)).exists
  set Z := ∫ z in (0 : ℝ)..s, peak s z ^ n with hZ
  have hcn : Continuous fun z => peak s z ^ n := (peak_continuous s).pow n
  have hZ0 : 0 < Z := intervalIntegral.intervalIntegral_pos_of_pos_on (hcn.intervalIntegrable _ _) (fun z hz => pow_pos (peak_pos hs hz) n) hs
  obtain ⟨t, a, h⟩ := peak_trig s n
  refine ⟨t, fun k => Z⁻¹ * a k * e s k (s / 2), ?_⟩
  have key : ∀ f : ℝ → ℂ, Continuous f → Function.Periodic f s → ∀ x, smoothed s t (fun k => Z⁻¹ * a k * e s k (s / 2)) f x = (Z⁻¹ : ℂ) * ∫ z in (0 : ℝ)..s, ((peak s z ^ n : ℝ) : ℂ) * f (x + s / 2 - z) := by
    intro f hf hp x
    have e1 : ∀ z, ((peak s z ^ n : ℝ) : ℂ) * f (x + s / 2 - z) = ∑ k ∈ t, a k * (e s k z * f (x + s / 2 - z)) := by
      intro z
      rw [h, Finset.sum_mul]
      exact Finset.sum_congr rfl fun k _ => by ring
    simp only [e1]
    have hc : ∀ k, Continuous fun z => a k * (e s k z * f (x + s / 2 - z)) := fun k => by
      have := e_continuous s k
      fun_prop
    rw [intervalIntegral.integral_finsetSum fun k _ => (hc k).intervalIntegrable _ _, Finset.mul_sum]
    unfold smoothed
    refine Finset.sum_congr rfl fun k _ => ?_
    rw [intervalIntegral.integral_const_mul, wave_fold hs k hp, e_add, Complex.ofReal_inv]
    ring
  have bnd : ∀ (g : ℝ → ℂ) (G : ℝ → ℝ), Continuous g → Continuous G → (∀ z, ‖g z‖ ≤ G z) → ‖(Z⁻¹ : ℂ) * ∫ z in (0 : ℝ)..s, ((peak s z ^ n : ℝ) : ℂ) * g z‖ ≤ Z⁻¹ * ∫ z in (0 : ℝ)..s, peak s z ^ n * G z := by
    intro g G hg hG hgG
    rw [norm_mul, norm_inv, Complex.norm_real, norm_of_nonneg hZ0.le]
    refine mul_le_mul_of_nonneg_left ?_ (by positivity)
    refine intervalIntegral.norm_integral_le_of_norm_le hs.le (Filter.Eventually.of_forall fun z _ => ?_) ((hcn.mul hG).intervalIntegrable _ _)
    rw [norm_mul, Complex.norm_real, norm_of_nonneg (pow_nonneg (peak_nonneg s z) n)]
    exact mul_le_mul_of_nonneg_left (hgG z) (pow_nonneg (peak_nonneg s z) n)
  refine ⟨fun f hf hp M hM x => ?_, fun f hf hp η A hA hv x => ?_⟩
  · rw [key f hf hp]
    refine (bnd _ (fun _ => M) (by fun_prop) continuous_const fun z => hM _).trans (le_of_eq ?_)
    rw [intervalIntegral.integral_mul_const, ← hZ, ← mul_assoc, inv_mul_cancel₀ hZ0.ne', one_mul]
  · have hf' : (Z⁻¹ : ℂ) * ∫ z in (0 : ℝ)..s, ((peak s z ^ n : ℝ) : ℂ) * f x = f x := by
      rw [intervalIntegral.integral_mul_const, intervalIntegral.integral_ofReal, ← hZ, ← mul_assoc, inv_mul_cancel₀ (by exact_mod_cast hZ0.ne'), one_mul]
    have e2 : smoothed s t (fun k => Z⁻¹ * a k * e s k (s / 2)) f x - f x = (Z⁻¹ : ℂ) * ∫ z in (0 : ℝ)..s, ((peak s z ^ n : ℝ) : ℂ) * (f (x + s / 2 - z) - f x) := by
      simp only [mul_sub]
      rw [intervalIntegral.integral_sub, mul_sub, hf', key f hf hp]
      · have := peak_continuous s
        exact Continuous.intervalIntegrable (by fun_prop) _ _
      · have := peak_continuous s
        exact Continuous.intervalIntegrable (by fun_prop) _ _
    rw [e2]
    refine (bnd _ (fun z => η + A * (z - s / 2) ^ 2) (by fun_prop) (by fun_prop) fun z => (hv _ _).trans (le_of_eq (by ring))).trans ?_
    have hc2 : Continuous fun z => peak s z ^ n * (A * (z - s / 2) ^ 2) := by have := peak_continuous s; fun_prop
    have hc1 : Continuous fun z => peak s z ^ n * η := by have := peak_continuous s; fun_prop
    have e3 : ∫ z in (0 : ℝ)..s, peak s z ^ n * (η + A * (z - s / 2) ^ 2) = Z * η + A * ∫ z in (0 : ℝ)..s, peak s z ^ n * (z - s / 2) ^ 2 := by
      simp only [mul_add]
      rw [intervalIntegral.integral_add (hc1.intervalIntegrable _ _) (hc2.intervalIntegrable _ _), intervalIntegral.integral_mul_const, ← hZ, ← intervalIntegral.integral_const_mul]
      congr 1
      exact intervalIntegral.integral_congr fun z _ => by ring
    rw [e3, mul_add, ← mul_assoc, inv_mul_cancel₀ hZ0.ne', one_mul, mul_left_comm]
    gcongr

end CM.Smooth
