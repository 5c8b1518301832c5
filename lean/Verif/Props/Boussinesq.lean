import Verif.Props.Hertz
import Verif.Props.Cone
import Verif.Spec.Boussinesq
import Verif.Props.WestergaardMean
import Mathlib.MeasureTheory.Measure.Haar.NormedSpace
import Mathlib.Analysis.SpecialFunctions.PolarCoord
import Mathlib.MeasureTheory.Measure.Prod
import Mathlib.MeasureTheory.Function.SpecialFunctions.Basic
import Mathlib.MeasureTheory.Measure.Haar.Unique
import Mathlib.MeasureTheory.Integral.IntervalIntegral.Periodic
import Mathlib.Analysis.SpecialFunctions.Integrals.Basic
/-!
# Hertz and cone: the displacements are Boussinesq's response to the pressure (C183, C184)
-/
namespace CM.Ref

open Real MeasureTheory Set
open scoped ENNReal

/-- The potential of an axisymmetric density is the mean over directions of its integrals along chords. -/
theorem lint_chords {f : ℝ → ℝ≥0∞} (hf : Measurable f) (x : ℝ × ℝ) :
    ∫⁻ y : ℝ × ℝ, f (y.1 ^ 2 + y.2 ^ 2) / ENNReal.ofReal √((x.1 - y.1) ^ 2 + (x.2 - y.2) ^ 2) =
      ∫⁻ θ in Ioo 0 π, ∫⁻ r : ℝ, f ((x.1 * sin θ - x.2 * cos θ) ^ 2 + r ^ 2) := by
  set F : ℝ → ℝ → ℝ≥0∞ := fun θ r => f ((x.1 + r * cos θ) ^ 2 + (x.2 + r * sin θ) ^ 2) with hF
  have hFm : Measurable fun p : ℝ × ℝ => F p.2 p.1 := hf.comp (by fun_prop)
  have hFm' : Measurable fun p : ℝ × ℝ => F p.1 p.2 := hf.comp (by fun_prop)
  have e1 : ∫⁻ y : ℝ × ℝ, f (y.1 ^ 2 + y.2 ^ 2) / ENNReal.ofReal √((x.1 - y.1) ^ 2 + (x.2 - y.2) ^ 2) =
      ∫⁻ θ in Ioo (-π) π, ∫⁻ r in Ioi (0 : ℝ), F θ r := by
    rw [← lintegral_add_left_eq_self _ x, ← lintegral_comp_polarCoord_symm, polarCoord_target]
    have e : ∀ p ∈ Ioi (0 : ℝ) ×ˢ Ioo (-π) π, (ENNReal.ofReal p.1 • (f ((x + polarCoord.symm p).1 ^ 2 + (x + polarCoord.symm p).2 ^ 2) /
        ENNReal.ofReal √((x.1 - (x + polarCoord.symm p).1) ^ 2 + (x.2 - (x + polarCoord.symm p).2) ^ 2))) = F p.2 p.1 := by
      rintro ⟨r, θ⟩ ⟨hr, -⟩
      have hr : 0 < r := hr
      have hs : √((x.1 - (x + polarCoord.symm (r, θ)).1) ^ 2 + (x.2 - (x + polarCoord.symm (r, θ)).2) ^ 2) = r := by
        rw [polarCoord_symm_apply, Prod.fst_add, Prod.snd_add]
        rw [show (x.1 - (x.1 + r * cos θ)) ^ 2 + (x.2 - (x.2 + r * sin θ)) ^ 2 = r ^ 2 * (sin θ ^ 2 + cos θ ^ 2) by ring, sin_sq_add_cos_sq, mul_one, sqrt_sq hr.le]
      rw [hs, smul_eq_mul, ENNReal.mul_div_cancel (by simpa using hr) ENNReal.ofReal_ne_top]
      simp [hF, polarCoord_symm_apply]
    rw [setLIntegral_congr_fun (measurableSet_Ioi.prod measurableSet_Ioo) e, Measure.volume_eq_prod, ← Measure.prod_restrict,
      lintegral_prod_symm _ hFm.aemeasurable]
  have hH : Measurable fun θ => ∫⁻ r in Ioi (0 : ℝ), F θ r := hFm'.lintegral_prod_right'
  have e2 : ∫⁻ θ in Ioo (-π) 0, ∫⁻ r in Ioi (0 : ℝ), F θ r = ∫⁻ θ in Ioo 0 π, ∫⁻ r in Iio (0 : ℝ), F θ r := by
    have h := (measurePreserving_sub_right (volume : Measure ℝ) π).setLIntegral_comp_preimage (s := Ioo (-π) 0) measurableSet_Ioo hH
    rw [← h, preimage_sub_const_Ioo, neg_add_cancel, zero_add]
    refine setLIntegral_congr_fun measurableSet_Ioo fun θ _ => ?_
    have h2 := (Measure.measurePreserving_neg (volume : Measure ℝ)).setLIntegral_comp_preimage (s := Ioi (0 : ℝ)) (f := fun r => F (θ - π) r) measurableSet_Ioi
      (hf.comp (by fun_prop))
    rw [← h2]
    have hp : (Neg.neg : ℝ → ℝ) ⁻¹' Ioi (0 : ℝ) = Iio 0 := by ext r; simp
    rw [hp]
    refine lintegral_congr fun r => ?_
    simp only [hF]
    rw [cos_sub_pi, sin_sub_pi]; congr 1; ring
  have e3 : ∀ θ, (∫⁻ r in Iio (0 : ℝ), F θ r) + (∫⁻ r in Ioi (0 : ℝ), F θ r) = ∫⁻ r : ℝ, f ((x.1 * sin θ - x.2 * cos θ) ^ 2 + r ^ 2) := by
    intro θ
    rw [setLIntegral_congr (Ioi_ae_eq_Ici (a := (0 : ℝ))), ← compl_Iio, lintegral_add_compl _ measurableSet_Iio,
      ← lintegral_sub_right_eq_self _ (x.1 * cos θ + x.2 * sin θ)]
    refine lintegral_congr fun r => ?_
    simp only [hF]
    congr 1
    have := sin_sq_add_cos_sq θ
    linear_combination ((r - (x.1 * cos θ + x.2 * sin θ)) ^ 2 - (x.1 ^ 2 + x.2 ^ 2)) * this
  have hpi := pi_pos
  have e4 : Ioo (-π) 0 ∪ Ico 0 π = Ioo (-π) π := Ioo_union_Ico_eq_Ioo (by linarith) hpi.le
  rw [e1, ← e4, lintegral_union measurableSet_Ico (by
    rw [Set.disjoint_left]; intro θ h1 h2; exact absurd h1.2 (not_lt.mpr h2.1)), e2, setLIntegral_congr (Ioo_ae_eq_Ico (a := (0 : ℝ)) (b := π)).symm,
    ← lintegral_add_right _ hH]
  exact lintegral_congr fun θ => e3 θ

/-! ## Hertz -/

/-- The integral of the Hertz pressure along a chord. -/
theorem chord_hertz (b : ℝ) : ∫⁻ r : ℝ, ENNReal.ofReal √(1 - (b ^ 2 + r ^ 2)) = ENNReal.ofReal (π / 2 * max (1 - b ^ 2) 0) := by
  rcases le_or_gt 1 (b ^ 2) with h | h
  · have e : ∀ r : ℝ, ENNReal.ofReal √(1 - (b ^ 2 + r ^ 2)) = 0 := fun r => by
      rw [sqrt_eq_zero_of_nonpos (by nlinarith [sq_nonneg r]), ENNReal.ofReal_zero]
    rw [lintegral_congr e, lintegral_zero, max_eq_right (by linarith), mul_zero, ENNReal.ofReal_zero]
  · set c := √(1 - b ^ 2) with hc
    have hc0 : 0 < c := sqrt_pos.mpr (by linarith)
    have hcs : c ^ 2 = 1 - b ^ 2 := sq_sqrt (by linarith)
    have hint : ∫ r in (-c)..c, √(1 - (b ^ 2 + r ^ 2)) = π / 2 * c ^ 2 := by
      have h2 := intervalIntegral.integral_comp_div (a := -c) (b := c) (fun u => c * √(1 - u ^ 2)) hc0.ne'
      rw [neg_div, div_self hc0.ne', intervalIntegral.integral_const_mul c (fun u => √(1 - u ^ 2)) (a := -1), integral_sqrt_one_sub_sq, smul_eq_mul] at h2
      rw [show π / 2 * c ^ 2 = c * (c * (π / 2)) by ring, ← h2]
      refine intervalIntegral.integral_congr fun r _ => ?_
      have e : 1 - (b ^ 2 + r ^ 2) = c ^ 2 * (1 - (r / c) ^ 2) := by
        rw [mul_sub, div_pow, mul_div_cancel₀ _ (pow_ne_zero 2 hc0.ne'), hcs]; ring
      rw [e, sqrt_mul (by positivity), sqrt_sq hc0.le]
    have hsupp : ∀ r : ℝ, ENNReal.ofReal √(1 - (b ^ 2 + r ^ 2)) = (Ioc (-c) c).indicator (fun r => ENNReal.ofReal √(1 - (b ^ 2 + r ^ 2))) r := by
      intro r
      by_cases hr : r ∈ Ioc (-c) c
      · rw [indicator_of_mem hr]
      · rw [indicator_of_notMem hr]
        have : c ^ 2 ≤ r ^ 2 := by
          rw [mem_Ioc, not_and_or, not_lt, not_le] at hr
          rcases hr with hr | hr <;> nlinarith
        rw [sqrt_eq_zero_of_nonpos (by linarith), ENNReal.ofReal_zero]
    rw [lintegral_congr hsupp, lintegral_indicator measurableSet_Ioc, max_eq_left (by linarith), ← hcs, ← hint, intervalIntegral.integral_of_le (by linarith),
      ofReal_integral_eq_lintegral_ofReal]
    · exact (Continuous.intervalIntegrable (by fun_prop) (-c) c).1
    · exact Filter.Eventually.of_forall fun r => sqrt_nonneg _

/-- Means over directions do not depend on the direction of the point. -/
theorem mean_dir {g : ℝ → ℝ} (x : ℝ × ℝ) :
    ∫ θ in (0 : ℝ)..π, g ((x.1 * sin θ - x.2 * cos θ) ^ 2) = ∫ θ in (0 : ℝ)..π, g ((√(x.1 ^ 2 + x.2 ^ 2) * sin θ) ^ 2) := by
  set ρ := √(x.1 ^ 2 + x.2 ^ 2) with hρ
  obtain ⟨ψ, h1, h2⟩ : ∃ ψ, x.1 = ρ * cos ψ ∧ x.2 = ρ * sin ψ := by
    refine ⟨(Complex.mk x.1 x.2).arg, ?_, ?_⟩
    · have h := Complex.norm_mul_cos_arg (Complex.mk x.1 x.2)
      rw [Complex.norm_def, Complex.normSq_mk] at h
      rw [hρ, ← pow_two, ← pow_two] at *
      exact h.symm
    · have h := Complex.norm_mul_sin_arg (Complex.mk x.1 x.2)
      rw [Complex.norm_def, Complex.normSq_mk] at h
      rw [hρ, ← pow_two, ← pow_two] at *
      exact h.symm
  have hper : Function.Periodic (fun θ => g ((ρ * sin θ) ^ 2)) π := by
    intro θ
    beta_reduce
    rw [sin_add_pi]; congr 1; ring
  have e : ∀ θ, g ((x.1 * sin θ - x.2 * cos θ) ^ 2) = g ((ρ * sin (θ - ψ)) ^ 2) := by
    intro θ
    rw [h1, h2, sin_sub]; congr 2; ring
  rw [intervalIntegral.integral_congr fun θ _ => e θ, intervalIntegral.integral_comp_sub_right (fun θ => g ((ρ * sin θ) ^ 2)) ψ]
  have h := hper.intervalIntegral_add_eq (0 - ψ) 0
  rw [zero_add] at h
  rw [← h]; congr 1; ring

theorem lint_dir {g : ℝ → ℝ} (hg : Continuous g) (hg0 : ∀ t, 0 ≤ g t) (x : ℝ × ℝ) :
    ∫⁻ θ in Ioo 0 π, ENNReal.ofReal (g ((x.1 * sin θ - x.2 * cos θ) ^ 2)) = ENNReal.ofReal (∫ θ in (0 : ℝ)..π, g ((√(x.1 ^ 2 + x.2 ^ 2) * sin θ) ^ 2)) := by
  rw [← mean_dir, intervalIntegral.integral_of_le pi_pos.le, setLIntegral_congr Ioo_ae_eq_Ioc, ofReal_integral_eq_lintegral_ofReal]
  · exact (Continuous.intervalIntegrable (by fun_prop) 0 π).1
  · exact Filter.Eventually.of_forall fun r => hg0 _

/-- Integral over half a turn of a function of the sine. -/
theorem sin_half {g : ℝ → ℝ} (hg : Continuous g) : ∫ θ in (0 : ℝ)..π, g (sin θ) = 2 * ∫ θ in (0 : ℝ)..π / 2, g (sin θ) := by
  have h := intervalIntegral.integral_comp_sub_left (a := 0) (b := π / 2) (fun θ => g (sin θ)) π
  rw [sub_zero, show π - π / 2 = π / 2 by ring] at h
  simp only [sin_pi_sub] at h
  rw [← intervalIntegral.integral_add_adjacent_intervals (b := π / 2) (Continuous.intervalIntegrable (by fun_prop) _ _) (Continuous.intervalIntegrable (by fun_prop) _ _), ← h]
  ring

theorem hertz_dir {r : ℝ} (hr : 0 ≤ r) : ∫ θ in (0 : ℝ)..π, π / 2 * max (1 - (r * sin θ) ^ 2) 0 = -π * Hertz.surfaceDisp r := by
  have hanti : ∀ b : ℝ, ∫ θ in (0 : ℝ)..b, (1 - (r * sin θ) ^ 2) = b - r ^ 2 * ((b - sin b * cos b) / 2) := by
    intro b
    have e : ∀ θ, 1 - (r * sin θ) ^ 2 = 1 - r ^ 2 * sin θ ^ 2 := fun θ => by ring
    rw [intervalIntegral.integral_congr fun θ _ => e θ, intervalIntegral.integral_sub (Continuous.intervalIntegrable (by fun_prop) _ _)
      (Continuous.intervalIntegrable (by fun_prop) _ _), intervalIntegral.integral_const_mul, integral_sin_sq]
    simp
    left; ring
  rw [intervalIntegral.integral_const_mul, sin_half (g := fun s => max (1 - (r * s) ^ 2) 0) (by fun_prop)]
  unfold Hertz.surfaceDisp
  rcases lt_or_ge r 1 with h | h
  · rw [if_pos h]
    have e : ∀ θ, max (1 - (r * sin θ) ^ 2) 0 = 1 - (r * sin θ) ^ 2 := fun θ => max_eq_left (by
      have h1 := sin_sq_le_one θ
      have h2 := sq_nonneg (sin θ)
      rw [mul_pow]
      have h3 : r ^ 2 ≤ 1 := by nlinarith
      nlinarith)
    rw [intervalIntegral.integral_congr fun θ _ => e θ, hanti, sin_pi_div_two, cos_pi_div_two]
    ring
  · rw [if_neg (not_lt.mpr h)]
    have hr0 : 0 < r := by linarith
    set θ1 := arcsin (1 / r) with hθ
    have h1r : 1 / r ≤ 1 := (div_le_one hr0).mpr h
    have h1p : 0 < 1 / r := by positivity
    have hs : sin θ1 = 1 / r := sin_arcsin (by linarith) h1r
    have hc : cos θ1 = √(1 - (1 / r) ^ 2) := cos_arcsin _
    have h0 : 0 ≤ θ1 := arcsin_nonneg.mpr h1p.le
    have h2 : θ1 ≤ π / 2 := arcsin_le_pi_div_two _
    have ei : ∫ θ in (0 : ℝ)..θ1, max (1 - (r * sin θ) ^ 2) 0 = ∫ θ in (0 : ℝ)..θ1, (1 - (r * sin θ) ^ 2) := by
      refine intervalIntegral.integral_congr fun θ hx => ?_
      rw [uIcc_of_le h0] at hx
      have hsn : 0 ≤ sin θ := sin_nonneg_of_nonneg_of_le_pi hx.1 (by linarith [hx.2])
      have hsl : sin θ ≤ 1 / r := by rw [← hs]; exact sin_le_sin_of_le_of_le_pi_div_two (by linarith [hx.1]) h2 hx.2
      have : r * sin θ ≤ 1 := by rw [le_div_iff₀ hr0] at hsl; linarith
      exact max_eq_left (by nlinarith [mul_nonneg hr hsn])
    have eo : ∫ θ in θ1..π / 2, max (1 - (r * sin θ) ^ 2) 0 = 0 := by
      rw [intervalIntegral.integral_congr (g := fun _ => 0), intervalIntegral.integral_zero]
      intro θ hx
      rw [uIcc_of_le h2] at hx
      have hsl : 1 / r ≤ sin θ := by rw [← hs]; exact sin_le_sin_of_le_of_le_pi_div_two (by linarith) hx.2 hx.1
      have : 1 ≤ r * sin θ := by rw [div_le_iff₀ hr0] at hsl; linarith
      exact max_eq_right (by nlinarith)
    rw [← intervalIntegral.integral_add_adjacent_intervals (b := θ1) (Continuous.intervalIntegrable (by fun_prop) _ _) (Continuous.intervalIntegrable (by fun_prop) _ _),
      ei, eo, hanti, hs, hc]
    field_simp
    ring

/-- The potential of the Hertz pressure. -/
theorem lint_hertz (x : ℝ × ℝ) :
    ∫⁻ y : ℝ × ℝ, ENNReal.ofReal √(1 - (y.1 ^ 2 + y.2 ^ 2)) / ENNReal.ofReal √((x.1 - y.1) ^ 2 + (x.2 - y.2) ^ 2) =
      ENNReal.ofReal (-π * Hertz.surfaceDisp √(x.1 ^ 2 + x.2 ^ 2)) := by
  rw [lint_chords (f := fun t => ENNReal.ofReal √(1 - t)) (by fun_prop), lintegral_congr fun θ => chord_hertz _,
    lint_dir (g := fun t => π / 2 * max (1 - t) 0) (by fun_prop) (fun t => by positivity), hertz_dir (sqrt_nonneg _)]

theorem away_pos {x y : ℝ × ℝ} (h : y ≠ x) : 0 < away x y := by
  refine sqrt_pos.mpr ?_
  by_contra hc
  have h1 : (x.1 - y.1) ^ 2 = 0 := by nlinarith [sq_nonneg (x.1 - y.1), sq_nonneg (x.2 - y.2)]
  have h2 : (x.2 - y.2) ^ 2 = 0 := by nlinarith [sq_nonneg (x.1 - y.1), sq_nonneg (x.2 - y.2)]
  exact h (Prod.ext (by nlinarith [pow_eq_zero_iff (two_ne_zero) |>.mp h1]) (by nlinarith [pow_eq_zero_iff (two_ne_zero) |>.mp h2]))

theorem away_meas (x : ℝ × ℝ) : Measurable (away x) := by unfold away; fun_prop

theorem lint_real {p : ℝ × ℝ → ℝ} (x : ℝ × ℝ) :
    ∫⁻ y, ENNReal.ofReal (p y / away x y) = ∫⁻ y, ENNReal.ofReal (p y) / ENNReal.ofReal (away x y) := by
  have hx : ∀ᵐ y : ℝ × ℝ, y ≠ x := by
    rw [ae_iff]; simp
  refine lintegral_congr_ae ?_
  filter_upwards [hx] with y hy
  exact ENNReal.ofReal_div_of_pos (away_pos hy)

/-- From integrals with values in the nonnegative extended reals to integrals. -/
theorem real_of_lint {p : ℝ × ℝ → ℝ} (hp : Measurable p) (h0 : ∀ y, 0 ≤ p y) {V : ℝ} (hV : 0 ≤ V) {x : ℝ × ℝ}
    (h : ∫⁻ y, ENNReal.ofReal (p y) / ENNReal.ofReal (away x y) = ENNReal.ofReal V) :
    Integrable (fun y => p y / away x y) ∧ ∫ y, p y / away x y = V := by
  have hm : Measurable fun y => p y / away x y := hp.div (away_meas x)
  have hn : ∀ y, 0 ≤ p y / away x y := fun y => div_nonneg (h0 y) (sqrt_nonneg _)
  rw [← lint_real] at h
  refine ⟨⟨hm.aestronglyMeasurable, ?_⟩, ?_⟩
  · rw [hasFiniteIntegral_iff_ofReal (Filter.Eventually.of_forall hn), h]; exact ENNReal.ofReal_lt_top
  · rw [integral_eq_lintegral_of_nonneg_ae (Filter.Eventually.of_forall hn) hm.aestronglyMeasurable, h, ENNReal.toReal_ofReal hV]

theorem away_scale {a : ℝ} (ha : 0 < a) (x y : ℝ × ℝ) : away (a⁻¹ • x) (a⁻¹ • y) = a⁻¹ * away x y := by
  unfold away
  simp only [Prod.smul_fst, Prod.smul_snd, smul_eq_mul]
  rw [show (a⁻¹ * x.1 - a⁻¹ * y.1) ^ 2 + (a⁻¹ * x.2 - a⁻¹ * y.2) ^ 2 = a⁻¹ ^ 2 * ((x.1 - y.1) ^ 2 + (x.2 - y.2) ^ 2) by ring, sqrt_mul (by positivity),
    sqrt_sq (by positivity)]

/-- Change of the unit of length. -/
theorem potential_scale {a : ℝ} (ha : 0 < a) (p : ℝ × ℝ → ℝ) (x : ℝ × ℝ) :
    ∫ y, p (a⁻¹ • y) / away x y = a * ∫ y, p y / away (a⁻¹ • x) y := by
  have h := Measure.integral_comp_smul (volume : Measure (ℝ × ℝ)) (fun y => p y / away (a⁻¹ • x) y) a⁻¹
  rw [Module.finrank_prod, Module.finrank_self, inv_pow, inv_inv, abs_of_pos (by positivity), smul_eq_mul] at h
  have e : ∀ y, p (a⁻¹ • y) / away x y = a⁻¹ * (p (a⁻¹ • y) / away (a⁻¹ • x) (a⁻¹ • y)) := by
    intro y
    rw [away_scale ha, mul_div_assoc', mul_div_mul_left _ _ (by positivity)]
  rw [integral_congr_ae (Filter.Eventually.of_forall e), integral_const_mul, h]
  field_simp

theorem axis_scale {a : ℝ} (ha : 0 < a) (x : ℝ × ℝ) : axis (a⁻¹ • x) = axis x / a := by
  unfold axis
  simp only [Prod.smul_fst, Prod.smul_snd, smul_eq_mul]
  rw [show (a⁻¹ * x.1) ^ 2 + (a⁻¹ * x.2) ^ 2 = a⁻¹ ^ 2 * (x.1 ^ 2 + x.2 ^ 2) by ring, sqrt_mul (by positivity), sqrt_sq (by positivity)]
  rw [inv_mul_eq_div]

theorem axis_sq (x : ℝ × ℝ) : axis x ^ 2 = x.1 ^ 2 + x.2 ^ 2 := sq_sqrt (by positivity)

theorem surfaceDisp_nonpos (x : ℝ × ℝ) : 0 ≤ -π * Hertz.surfaceDisp (axis x) := by
  have hx : 0 ≤ axis x := sqrt_nonneg _
  rw [← hertz_dir hx]
  exact intervalIntegral.integral_nonneg pi_pos.le fun θ _ => by positivity

theorem unit_hertz (x : ℝ × ℝ) : Integrable (fun y => √(1 - axis y ^ 2) / away x y) ∧ ∫ y, √(1 - axis y ^ 2) / away x y = -π * Hertz.surfaceDisp (axis x) := by
  refine real_of_lint (by unfold axis; fun_prop) (fun y => sqrt_nonneg _) (surfaceDisp_nonpos x) ?_
  refine Eq.trans ?_ (lint_hertz x)
  exact lintegral_congr fun y => by rw [axis_sq]; rfl

/-- What the small-distance cut-off adds to the potential. -/
theorem disc_small {e : ℝ} (he : 0 < e) (x : ℝ × ℝ) :
    ∫⁻ y, ENNReal.ofReal (if axis y < e then e ^ 2 else 0) / ENNReal.ofReal (away x y) ≤ ENNReal.ofReal (2 * π * e ^ 3) := by
  have h := lint_chords (f := fun t => ENNReal.ofReal (if √t < e then e ^ 2 else 0))
    (Measurable.ennreal_ofReal (Measurable.ite (measurableSet_lt (by fun_prop) measurable_const) measurable_const measurable_const)) x
  have h2 : ∀ b : ℝ, ∫⁻ r : ℝ, ENNReal.ofReal (if √(b ^ 2 + r ^ 2) < e then e ^ 2 else 0) ≤ ENNReal.ofReal (2 * e ^ 3) := by
    intro b
    calc ∫⁻ r : ℝ, ENNReal.ofReal (if √(b ^ 2 + r ^ 2) < e then e ^ 2 else 0) ≤ ∫⁻ r : ℝ, (Ioo (-e) e).indicator (fun _ => ENNReal.ofReal (e ^ 2)) r := by
          refine lintegral_mono fun r => ?_
          beta_reduce
          by_cases hr : √(b ^ 2 + r ^ 2) < e
          · have hm : r ∈ Ioo (-e) e := by
              rw [sqrt_lt' he] at hr
              exact abs_lt.mp (abs_lt_of_sq_lt_sq (by nlinarith [sq_nonneg b]) he.le)
            rw [if_pos hr, indicator_of_mem hm]
          · rw [if_neg hr, ENNReal.ofReal_zero]; exact zero_le
      _ = ENNReal.ofReal (2 * e ^ 3) := by
          rw [lintegral_indicator measurableSet_Ioo, setLIntegral_const, Real.volume_Ioo, ← ENNReal.ofReal_mul (by positivity)]
          congr 1; ring
  have h3 : ∫⁻ θ in Ioo 0 π, ∫⁻ r : ℝ, ENNReal.ofReal (if √((x.1 * sin θ - x.2 * cos θ) ^ 2 + r ^ 2) < e then e ^ 2 else 0) ≤
      ENNReal.ofReal (2 * π * e ^ 3) := by
    refine (lintegral_mono fun θ => h2 _).trans ?_
    rw [setLIntegral_const, Real.volume_Ioo, ← ENNReal.ofReal_mul (by positivity)]
    refine le_of_eq ?_; congr 1; ring
  rw [← h] at h3
  exact h3

theorem pz_eq (nu : ℝ) (r : ℝ) (hr : 0 ≤ r) : √(1 - r ^ 2) ≤ (Hertz.surfaceStress nu r).pz ∧
    (Hertz.surfaceStress nu r).pz ≤ √(1 - r ^ 2) + if r < 1e-6 then (1e-6 : ℝ) ^ 2 else 0 := by
  unfold Hertz.surfaceStress
  rw [abs_of_nonneg hr]
  split_ifs with h1 h2
  · have h3 : √(1 - r ^ 2) ≤ 1 := by rw [sqrt_le_one]; nlinarith
    have h4 : 1 - r ^ 2 ≤ √(1 - r ^ 2) := by
      have h5 : 0 ≤ 1 - r ^ 2 := by nlinarith
      nlinarith [sq_sqrt h5, sqrt_nonneg (1 - r ^ 2)]
    refine ⟨h3, ?_⟩
    have : r ^ 2 ≤ (1e-6 : ℝ) ^ 2 := pow_le_pow_left₀ hr h1.le 2
    simp only
    linarith
  · simp
  · have : √(1 - r ^ 2) = 0 := sqrt_eq_zero_of_nonpos (by nlinarith)
    simp [this]

/-- **C183** Hertz' displacements are the response of the half-space to Hertz' pressure: for a sphere of radius `R` pressed `d` deep into a half-space of
contact modulus `Es`, Boussinesq's displacement under the ellipsoidal pressure `p0 √(1 - r²/a²)` is at every point of the surface, inside and outside
the contact, minus `surface_displacements`, in its unit `p0 a / Es`. -/
theorem C183_exact {d R Es : ℝ} (hd : 0 < d) (hR : 0 < R) (hE : 0 < Es) (x : ℝ × ℝ) :
    boussinesq Es (fun y => Hertz.maxPressure d R Es * √(1 - (axis y / √(R * d)) ^ 2)) x =
      -(Hertz.maxPressure d R Es * √(R * d) / Es * Hertz.surfaceDisp (axis x / √(R * d))) := by
  have ha : 0 < √(R * d) := by positivity
  generalize √(R * d) = a at *
  unfold boussinesq
  have e := potential_scale ha (fun y => Hertz.maxPressure d R Es * √(1 - axis y ^ 2)) x
  simp only [axis_scale ha] at e
  rw [e]
  simp only [mul_div_assoc]
  rw [integral_const_mul, (unit_hertz (a⁻¹ • x)).2, axis_scale ha]
  field_simp

/-- **C183** The same for the pressure that `surface_stress` returns, which within `1e-6` contact radii of the axis is replaced by its value at the axis:
the response to it is integrable and exceeds the displacements by at most `2e-18` of their unit. -/
theorem C183_hertz {d R Es nu : ℝ} (hd : 0 < d) (hR : 0 < R) (hE : 0 < Es) (x : ℝ × ℝ) :
    Integrable (fun y => Hertz.hertzPressure nu d R Es (axis y) / away x y) ∧
    -(Hertz.maxPressure d R Es * √(R * d) / Es * Hertz.surfaceDisp (axis x / √(R * d))) ≤ boussinesq Es (fun y => Hertz.hertzPressure nu d R Es (axis y)) x ∧
    boussinesq Es (fun y => Hertz.hertzPressure nu d R Es (axis y)) x ≤
      Hertz.maxPressure d R Es * √(R * d) / Es * (2e-18 - Hertz.surfaceDisp (axis x / √(R * d))) := by
  have ha : 0 < √(R * d) := by positivity
  have hp0 : 0 < Hertz.maxPressure d R Es := by unfold Hertz.maxPressure; positivity
  unfold Hertz.hertzPressure
  generalize √(R * d) = a at *
  generalize Hertz.maxPressure d R Es = p0 at *
  set z := a⁻¹ • x with hz
  set q : ℝ × ℝ → ℝ := fun y => (Hertz.surfaceStress nu (axis y)).pz with hq
  have hqm : Measurable q := by
    have : ∀ y, q y = if axis y < 1e-6 then 1 else if axis y < 1 then √(1 - axis y ^ 2) else 0 := by
      intro y
      simp only [hq, Hertz.surfaceStress]
      rw [abs_of_nonneg (show 0 ≤ axis y from sqrt_nonneg _)]
      split_ifs <;> rfl
    rw [funext this]
    have hm : Measurable axis := by unfold axis; fun_prop
    exact Measurable.ite (measurableSet_lt hm measurable_const) measurable_const
      (Measurable.ite (measurableSet_lt hm measurable_const) (by fun_prop) measurable_const)
  have hqb := fun y => pz_eq nu (axis y) (sqrt_nonneg _)
  have hlow : ∀ y, 0 ≤ q y := fun y => (sqrt_nonneg _).trans (hqb y).1
  have hquo : ∀ y, 0 ≤ q y / away z y := fun y => div_nonneg (hlow y) (sqrt_nonneg _)
  have hlint : ∫⁻ y, ENNReal.ofReal (q y / away z y) ≤ ENNReal.ofReal (-π * Hertz.surfaceDisp (axis z) + 2 * π * 1e-18) := by
    rw [lint_real, ENNReal.ofReal_add (surfaceDisp_nonpos z) (by positivity)]
    have h1 := disc_small (e := 1e-6) (by norm_num) z
    have h2 := lint_hertz z
    calc ∫⁻ y, ENNReal.ofReal (q y) / ENNReal.ofReal (away z y) ≤ ∫⁻ y, (ENNReal.ofReal √(1 - (y.1 ^ 2 + y.2 ^ 2)) / ENNReal.ofReal √((z.1 - y.1) ^ 2 + (z.2 - y.2) ^ 2) +
          ENNReal.ofReal (if axis y < 1e-6 then (1e-6) ^ 2 else 0) / ENNReal.ofReal (away z y)) := by
          refine lintegral_mono fun y => ?_
          beta_reduce
          rw [show √((z.1 - y.1) ^ 2 + (z.2 - y.2) ^ 2) = away z y from rfl, ← ENNReal.add_div]
          refine ENNReal.div_le_div_right ?_ _
          rw [← ENNReal.ofReal_add (sqrt_nonneg _) (by split_ifs <;> positivity), ← axis_sq]
          exact ENNReal.ofReal_le_ofReal (hqb y).2
      _ ≤ _ := by
          rw [lintegral_add_left (by fun_prop), h2]
          refine add_le_add le_rfl (h1.trans (le_of_eq ?_))
          norm_num
  have hint : Integrable fun y => q y / away z y := by
    refine ⟨(hqm.div (away_meas z)).aestronglyMeasurable, ?_⟩
    rw [hasFiniteIntegral_iff_ofReal (Filter.Eventually.of_forall hquo)]
    exact lt_of_le_of_lt hlint ENNReal.ofReal_lt_top
  have hup : ∫ y, q y / away z y ≤ -π * Hertz.surfaceDisp (axis z) + 2 * π * 1e-18 := by
    rw [integral_eq_lintegral_of_nonneg_ae (Filter.Eventually.of_forall hquo) (hqm.div (away_meas z)).aestronglyMeasurable]
    refine ENNReal.toReal_le_of_le_ofReal ?_ hlint
    have := surfaceDisp_nonpos z
    positivity
  have hlo : -π * Hertz.surfaceDisp (axis z) ≤ ∫ y, q y / away z y := by
    rw [← (unit_hertz z).2]
    exact integral_mono (unit_hertz z).1 hint fun y => div_le_div_of_nonneg_right (hqb y).1 (sqrt_nonneg _)
  have e := potential_scale ha (fun y => p0 * q y) x
  have hsc := axis_scale ha x
  rw [← hz] at hsc e
  have hqa : ∀ y, q (a⁻¹ • y) = (Hertz.surfaceStress nu (axis y / a)).pz := fun y => by simp only [hq]; rw [axis_scale ha]
  simp only [hqa, mul_div_assoc] at e
  rw [integral_const_mul p0 (fun y => q y / away z y)] at e
  unfold boussinesq
  simp only [mul_div_assoc]
  rw [e]
  rw [hsc] at hup hlo
  refine ⟨?_, ?_, ?_⟩
  · have h := (hint.const_mul (a⁻¹ * p0)).comp_smul (R := a⁻¹) (by positivity)
    refine h.congr (Filter.Eventually.of_forall fun y => ?_)
    beta_reduce
    rw [hqa, hz, away_scale ha]
    have := inv_pos.mpr ha
    field_simp
  · calc -(p0 * (a / Es) * Hertz.surfaceDisp (axis x / a)) = 1 / (π * Es) * (a * (p0 * (-π * Hertz.surfaceDisp (axis x / a)))) := by field_simp
      _ ≤ _ := by gcongr
  · calc 1 / (π * Es) * (a * (p0 * ∫ y, q y / away z y)) ≤ 1 / (π * Es) * (a * (p0 * (-π * Hertz.surfaceDisp (axis x / a) + 2 * π * 1e-18))) := by gcongr
      _ = _ := by field_simp; ring

/-! ## Cone -/

/-- The cone pressure as a function of the squared distance, in units of the contact radius. -/
noncomputable def conePr (t : ℝ) : ℝ := if t ≤ 1 then arcosh (1 / √t) else 0

theorem arcosh_log {t : ℝ} (h0 : 0 < t) (h1 : t ≤ 1) : arcosh (1 / √t) = log (1 + √(1 - t)) - 1 / 2 * log t := by
  have hs : 0 < √t := sqrt_pos.mpr h0
  have hq : √t ^ 2 = t := sq_sqrt h0.le
  unfold arcosh
  have e : √((1 / √t) ^ 2 - 1) = √(1 - t) / √t := by
    rw [div_pow, hq, one_pow, show 1 / t - 1 = (1 - t) / t by field_simp, sqrt_div (by linarith)]
  rw [e, ← add_div, log_div (by positivity) hs.ne', log_sqrt h0.le]; ring

/-- The antiderivative along a chord at distance `b`, `c² = 1 - b²`. -/
noncomputable def coneAnti (b c r : ℝ) : ℝ :=
  r * log (1 + √(c ^ 2 - r ^ 2)) - 1 / 2 * (r * log (b ^ 2 + r ^ 2)) + arcsin (r / c) - b * arcsin (r / (c * √(b ^ 2 + r ^ 2)))

theorem coneAnti_deriv {b c r : ℝ} (hb : 0 ≤ b) (hc : 0 < c) (hbc : c ^ 2 = 1 - b ^ 2) (hr0 : 0 < r) (hr1 : r < c) :
    HasDerivAt (coneAnti b c) (conePr (b ^ 2 + r ^ 2)) r := by
  have hq : 0 < c ^ 2 - r ^ 2 := by nlinarith
  have hρ : 0 < b ^ 2 + r ^ 2 := by positivity
  have hu : 0 < √(c ^ 2 - r ^ 2) := sqrt_pos.mpr hq
  have hu2 : √(c ^ 2 - r ^ 2) ^ 2 = c ^ 2 - r ^ 2 := sq_sqrt hq.le
  have hw : 0 < √(b ^ 2 + r ^ 2) := sqrt_pos.mpr hρ
  have hw2 : √(b ^ 2 + r ^ 2) ^ 2 = b ^ 2 + r ^ 2 := sq_sqrt hρ.le
  have hid := hasDerivAt_id' r
  have d1 : HasDerivAt (fun r => √(c ^ 2 - r ^ 2)) (-(r / √(c ^ 2 - r ^ 2))) r := by
    have := ((hid.fun_pow 2).const_sub (c ^ 2)).sqrt hq.ne'
    refine HasDerivAt.congr_deriv this ?_
    norm_num; field_simp
  have d2 : HasDerivAt (fun r => √(b ^ 2 + r ^ 2)) (r / √(b ^ 2 + r ^ 2)) r := by
    have := ((hid.fun_pow 2).const_add (b ^ 2)).sqrt hρ.ne'
    refine HasDerivAt.congr_deriv this ?_
    norm_num; field_simp
  have t1 : HasDerivAt (fun r => r * log (1 + √(c ^ 2 - r ^ 2))) (log (1 + √(c ^ 2 - r ^ 2)) + r * (-(r / √(c ^ 2 - r ^ 2)) / (1 + √(c ^ 2 - r ^ 2)))) r := by
    refine HasDerivAt.congr_deriv (hid.mul ((d1.const_add 1).log (by positivity))) (by ring)
  have t2 : HasDerivAt (fun r => r * log (b ^ 2 + r ^ 2)) (log (b ^ 2 + r ^ 2) + r * (2 * r / (b ^ 2 + r ^ 2))) r := by
    refine HasDerivAt.congr_deriv (hid.mul (((hid.fun_pow 2).const_add (b ^ 2)).log hρ.ne')) ?_
    norm_num
  have hrc : r / c < 1 := (div_lt_one hc).mpr hr1
  have hrc0 : 0 < r / c := by positivity
  have t3 : HasDerivAt (fun r => arcsin (r / c)) (1 / √(c ^ 2 - r ^ 2)) r := by
    have := (hasDerivAt_arcsin (x := r / c) (by linarith) hrc.ne).comp r (hid.div_const c)
    refine HasDerivAt.congr_deriv this ?_
    rw [show 1 - (r / c) ^ 2 = (c ^ 2 - r ^ 2) / c ^ 2 by field_simp, sqrt_div hq.le, sqrt_sq hc.le]
    field_simp
  have t4 : HasDerivAt (fun r => b * arcsin (r / (c * √(b ^ 2 + r ^ 2)))) (b ^ 2 / ((b ^ 2 + r ^ 2) * √(c ^ 2 - r ^ 2))) r := by
    rcases hb.eq_or_lt with h | h
    · subst h; simpa using hasDerivAt_const r (0 : ℝ)
    · have hkey : 1 - (r / (c * √(b ^ 2 + r ^ 2))) ^ 2 = b ^ 2 * (c ^ 2 - r ^ 2) / (c ^ 2 * (b ^ 2 + r ^ 2)) := by
        rw [div_pow, mul_pow, hw2, eq_div_iff (by positivity), sub_mul, div_mul_cancel₀ _ (by positivity)]
        rw [hbc]; ring
      have hpos : 0 < r / (c * √(b ^ 2 + r ^ 2)) := by positivity
      have hlt : (r / (c * √(b ^ 2 + r ^ 2))) ^ 2 < 1 := by
        have : 0 < b ^ 2 * (c ^ 2 - r ^ 2) / (c ^ 2 * (b ^ 2 + r ^ 2)) := by positivity
        linarith
      have hne : r / (c * √(b ^ 2 + r ^ 2)) ≠ 1 := by intro hc; rw [hc] at hlt; norm_num at hlt
      have := ((hasDerivAt_arcsin (x := r / (c * √(b ^ 2 + r ^ 2))) (by linarith) hne).comp r (hid.div (d2.const_mul c) (by positivity))).const_mul b
      refine HasDerivAt.congr_deriv this ?_
      rw [hkey, sqrt_div (by positivity), sqrt_mul (by positivity), sqrt_sq h.le, sqrt_mul (by positivity), sqrt_sq hc.le]
      generalize √(c ^ 2 - r ^ 2) = u at *
      generalize √(b ^ 2 + r ^ 2) = w at *
      rw [← hw2]
      field_simp
      rw [hw2]; ring
  refine HasDerivAt.congr_deriv (((t1.sub (t2.const_mul (1 / 2))).add t3).sub t4) ?_
  unfold conePr
  rw [if_pos (by nlinarith), arcosh_log hρ (by nlinarith), show 1 - (b ^ 2 + r ^ 2) = c ^ 2 - r ^ 2 by rw [hbc]; ring]
  generalize √(c ^ 2 - r ^ 2) = u at *
  have hr2 : r ^ 2 = c ^ 2 - u ^ 2 := by linarith
  have hu1 : 0 < 1 + u := by linarith
  have hb2 : b ^ 2 = 1 - c ^ 2 := by linarith
  have hden : 0 < 1 - u ^ 2 := by nlinarith
  have hρ2 : b ^ 2 + r ^ 2 = 1 - u ^ 2 := by linarith
  rw [hρ2]
  have : r * (-(r / u) / (1 + u)) - 1 / 2 * (r * (2 * r / (1 - u ^ 2))) + 1 / u - b ^ 2 / ((1 - u ^ 2) * u) = 0 := by
    have hfac : 1 - u ^ 2 = (1 - u) * (1 + u) := by ring
    have h1u : 1 - u ≠ 0 := by intro h; rw [hfac, h, zero_mul] at hden; exact lt_irrefl _ hden
    rw [hfac]
    field_simp
    rw [hr2, hb2]; ring
  linarith

theorem coneAnti_cont {b c : ℝ} (hb : 0 ≤ b) (hc : 0 < c) : ContinuousOn (coneAnti b c) (Icc 0 c) := by
  have hl1 : ∀ r, (1 : ℝ) + √(c ^ 2 - r ^ 2) ≠ 0 := fun r => by positivity
  have c1 : Continuous fun r : ℝ => r * log (1 + √(c ^ 2 - r ^ 2)) := continuous_id.mul (Continuous.log (by fun_prop) hl1)
  have c2 : Continuous fun r : ℝ => r * log (b ^ 2 + r ^ 2) := by
    rcases hb.eq_or_lt with h | h
    · subst h
      have e : (fun r : ℝ => r * log (0 ^ 2 + r ^ 2)) = fun r => 2 * (r * log r) := by
        funext r
        rw [zero_pow two_ne_zero, zero_add, log_pow]; push_cast; ring
      rw [e]
      exact continuous_const.mul continuous_mul_log
    · exact continuous_id.mul (Continuous.log (by fun_prop) fun r => by positivity)
  have c3 : Continuous fun r : ℝ => b * arcsin (r / (c * √(b ^ 2 + r ^ 2))) := by
    rcases hb.eq_or_lt with h | h
    · subst h; simpa using continuous_const
    · refine continuous_const.mul (continuous_arcsin.comp (Continuous.div continuous_id (by fun_prop) fun r => ?_))
      have : 0 < b ^ 2 + r ^ 2 := by positivity
      positivity
  unfold coneAnti
  exact (((c1.sub (continuous_const.mul c2)).add (continuous_arcsin.comp (by fun_prop))).sub c3).continuousOn

theorem conePr_nonneg (t : ℝ) : 0 ≤ conePr t := by
  unfold conePr
  split_ifs with h
  · rcases le_or_gt t 0 with h0 | h0
    · rw [sqrt_eq_zero_of_nonpos h0, div_zero]; unfold arcosh; simp [sqrt_eq_zero_of_nonpos]
    · refine arcosh_nonneg ?_
      have hs : √t ≤ 1 := sqrt_le_one.mpr h
      rwa [le_div_iff₀ (sqrt_pos.mpr h0), one_mul]
  · exact le_rfl

/-- The integral of the cone pressure along a chord. -/
theorem chord_cone (b : ℝ) : ∫⁻ r : ℝ, ENNReal.ofReal (conePr (b ^ 2 + r ^ 2)) = ENNReal.ofReal (π * max (1 - √(b ^ 2)) 0) := by
  rw [sqrt_sq_eq_abs]
  have hb2 : b ^ 2 = |b| ^ 2 := (sq_abs b).symm
  rw [hb2]
  generalize hβ : |b| = β
  have hβ0 : 0 ≤ β := by rw [← hβ]; exact abs_nonneg b
  clear hb2 hβ b
  rcases le_or_gt 1 β with h | h
  · have e : ∀ᵐ r : ℝ, ENNReal.ofReal (conePr (β ^ 2 + r ^ 2)) = 0 := by
      have hne : ∀ᵐ r : ℝ, r ≠ 0 := by rw [ae_iff]; simp
      filter_upwards [hne] with r hr
      have : 0 < r ^ 2 := by positivity
      unfold conePr
      rw [if_neg (by nlinarith), ENNReal.ofReal_zero]
    rw [lintegral_congr_ae e, lintegral_zero, max_eq_right (by linarith), mul_zero, ENNReal.ofReal_zero]
  · set c := √(1 - β ^ 2) with hcd
    have hpos : 0 < 1 - β ^ 2 := by nlinarith
    have hc : 0 < c := sqrt_pos.mpr hpos
    have hbc : c ^ 2 = 1 - β ^ 2 := sq_sqrt hpos.le
    have hh : ∫⁻ r in Ioo 0 c, ENNReal.ofReal (conePr (β ^ 2 + r ^ 2)) = ENNReal.ofReal (π / 2 * (1 - β)) := by
      rw [Westergaard.lint_ftc hc.le (coneAnti_cont hβ0 hc) (fun r hr => coneAnti_deriv hβ0 hc hbc hr.1 hr.2) (fun r _ => conePr_nonneg _)]
      congr 1
      unfold coneAnti
      rw [show β ^ 2 + c ^ 2 = 1 by linarith, sqrt_one, mul_one, div_self hc.ne', arcsin_one, log_one]
      simp; ring
    have hI : ∫⁻ r in Ioi (0 : ℝ), ENNReal.ofReal (conePr (β ^ 2 + r ^ 2)) = ENNReal.ofReal (π / 2 * (1 - β)) := by
      rw [← hh]
      have e : ∀ r, r ∈ Ioi (0 : ℝ) → ENNReal.ofReal (conePr (β ^ 2 + r ^ 2)) = (Iio c).indicator (fun r => ENNReal.ofReal (conePr (β ^ 2 + r ^ 2))) r := by
        intro r hr
        have hr : 0 < r := hr
        by_cases hrc : r < c
        · rw [indicator_of_mem (by exact hrc)]
        · rw [indicator_of_notMem (by exact hrc)]
          push Not at hrc
          unfold conePr
          rcases hrc.eq_or_lt with h1 | h1
          · rw [← h1, hbc]; simp
          · rw [if_neg (by nlinarith), ENNReal.ofReal_zero]
      rw [setLIntegral_congr_fun measurableSet_Ioi e, setLIntegral_indicator measurableSet_Iio, Iio_inter_Ioi]
    have hneg : ∫⁻ r in Iio (0 : ℝ), ENNReal.ofReal (conePr (β ^ 2 + r ^ 2)) = ∫⁻ r in Ioi (0 : ℝ), ENNReal.ofReal (conePr (β ^ 2 + r ^ 2)) := by
      have h2 := (Measure.measurePreserving_neg (volume : Measure ℝ)).setLIntegral_comp_preimage_emb (MeasurableEquiv.neg ℝ).measurableEmbedding
        (fun r => ENNReal.ofReal (conePr (β ^ 2 + r ^ 2))) (Ioi (0 : ℝ))
      have hp : (Neg.neg : ℝ → ℝ) ⁻¹' Ioi (0 : ℝ) = Iio 0 := by ext r; simp
      rw [hp] at h2
      simpa using h2
    rw [← lintegral_add_compl _ (measurableSet_Iio (a := (0 : ℝ))), compl_Iio, setLIntegral_congr (Ioi_ae_eq_Ici (a := (0 : ℝ))).symm, hneg, hI,
      ← ENNReal.ofReal_add (by nlinarith [pi_pos]) (by nlinarith [pi_pos]), max_eq_left (by linarith)]
    congr 1; ring

/-- The displacement outside and inside, in units of the contact radius. -/
noncomputable def coneShape (r : ℝ) : ℝ := if r ≤ 1 then π - 2 * r else 2 * (arcsin (1 / r) - r + √(r ^ 2 - 1))

theorem cone_dir {r : ℝ} (hr : 0 ≤ r) : ∫ θ in (0 : ℝ)..π, π * max (1 - √((r * sin θ) ^ 2)) 0 = π * coneShape r := by
  have hanti : ∀ b : ℝ, ∫ θ in (0 : ℝ)..b, (1 - r * sin θ) = b - r * (1 - cos b) := by
    intro b
    rw [intervalIntegral.integral_sub (Continuous.intervalIntegrable (by fun_prop) _ _)
      (Continuous.intervalIntegrable (by fun_prop) _ _), intervalIntegral.integral_const_mul, integral_sin]
    simp
  rw [intervalIntegral.integral_const_mul, sin_half (g := fun s => max (1 - √((r * s) ^ 2)) 0) (by fun_prop)]
  have hsn : ∀ θ ∈ Icc 0 (π / 2), 0 ≤ sin θ := fun θ hx => sin_nonneg_of_nonneg_of_le_pi hx.1 (by linarith [hx.2, pi_pos])
  unfold coneShape
  rcases le_or_gt r 1 with h | h
  · rw [if_pos h]
    have e : ∫ θ in (0 : ℝ)..π / 2, max (1 - √((r * sin θ) ^ 2)) 0 = ∫ θ in (0 : ℝ)..π / 2, (1 - r * sin θ) := by
      refine intervalIntegral.integral_congr fun θ hx => ?_
      rw [uIcc_of_le (by positivity)] at hx
      have h0 := hsn θ hx
      rw [sqrt_sq (mul_nonneg hr h0)]
      exact max_eq_left (by nlinarith [sin_le_one θ])
    rw [e, hanti, cos_pi_div_two]
    ring
  · rw [if_neg (not_le.mpr h)]
    have hr0 : 0 < r := by linarith
    set θ1 := arcsin (1 / r) with hθ
    have h1r : 1 / r ≤ 1 := (div_le_one hr0).mpr h.le
    have h1p : 0 < 1 / r := by positivity
    have hs : sin θ1 = 1 / r := sin_arcsin (by linarith) h1r
    have hc : cos θ1 = √(r ^ 2 - 1) / r := by
      rw [hθ, cos_arcsin, show 1 - (1 / r) ^ 2 = (r ^ 2 - 1) / r ^ 2 by field_simp, sqrt_div (by nlinarith), sqrt_sq hr0.le]
    have h0 : 0 ≤ θ1 := arcsin_nonneg.mpr h1p.le
    have h2 : θ1 ≤ π / 2 := arcsin_le_pi_div_two _
    have ei : ∫ θ in (0 : ℝ)..θ1, max (1 - √((r * sin θ) ^ 2)) 0 = ∫ θ in (0 : ℝ)..θ1, (1 - r * sin θ) := by
      refine intervalIntegral.integral_congr fun θ hx => ?_
      rw [uIcc_of_le h0] at hx
      have h0 := hsn θ ⟨hx.1, hx.2.trans h2⟩
      have hsl : sin θ ≤ 1 / r := by rw [← hs]; exact sin_le_sin_of_le_of_le_pi_div_two (by linarith [hx.1]) h2 hx.2
      have : r * sin θ ≤ 1 := by rw [le_div_iff₀ hr0] at hsl; linarith
      rw [sqrt_sq (mul_nonneg hr h0)]
      exact max_eq_left (by linarith)
    have eo : ∫ θ in θ1..π / 2, max (1 - √((r * sin θ) ^ 2)) 0 = 0 := by
      rw [intervalIntegral.integral_congr (g := fun _ => 0), intervalIntegral.integral_zero]
      intro θ hx
      rw [uIcc_of_le h2] at hx
      have hsl : 1 / r ≤ sin θ := by rw [← hs]; exact sin_le_sin_of_le_of_le_pi_div_two (by linarith) hx.2 hx.1
      have : 1 ≤ r * sin θ := by rw [div_le_iff₀ hr0] at hsl; linarith
      beta_reduce
      rw [sqrt_sq (by linarith)]
      exact max_eq_right (by linarith)
    rw [← intervalIntegral.integral_add_adjacent_intervals (b := θ1) (Continuous.intervalIntegrable (by fun_prop) _ _) (Continuous.intervalIntegrable (by fun_prop) _ _),
      ei, eo, hanti, hc]
    field_simp
    ring

theorem conePr_meas : Measurable conePr := by
  unfold conePr arcosh
  exact Measurable.ite measurableSet_Iic (by fun_prop) measurable_const

theorem unit_cone (x : ℝ × ℝ) : Integrable (fun y => conePr (axis y ^ 2) / away x y) ∧ ∫ y, conePr (axis y ^ 2) / away x y = π * coneShape (axis x) := by
  have hx : 0 ≤ axis x := sqrt_nonneg _
  refine real_of_lint (conePr_meas.comp (by unfold axis; fun_prop)) (fun y => conePr_nonneg _) ?_ ?_
  · rw [← cone_dir hx]
    exact intervalIntegral.integral_nonneg pi_pos.le fun θ _ => by positivity
  · have h := lint_chords (f := fun t => ENNReal.ofReal (conePr t)) conePr_meas.ennreal_ofReal x
    rw [lintegral_congr fun θ => chord_cone _, lint_dir (g := fun t => π * max (1 - √t) 0) (by fun_prop) (fun t => by positivity)] at h
    rw [show √(x.1 ^ 2 + x.2 ^ 2) = axis x from rfl, cone_dir hx] at h
    rw [← h]
    exact lintegral_congr fun y => by rw [Function.comp_apply, axis_sq]; rfl

theorem pressureAt_conePr {alpha : ℝ} (h0 : 0 < alpha) (h1 : alpha < π / 2) {r : ℝ} (hr : 0 ≤ r) :
    (Cone.pressureAt alpha r).getD 0 = conePr ((r / Cone.coneRadius alpha) ^ 2) := by
  have hR := Cone.radius_pos h0 h1
  rw [Cone.pressureAt_eq]
  unfold conePr
  have hq : 0 ≤ r / Cone.coneRadius alpha := by positivity
  rw [sqrt_sq hq]
  have hiff : (r / Cone.coneRadius alpha) ^ 2 ≤ 1 ↔ r ≤ Cone.coneRadius alpha := by
    rw [sq_le_one_iff₀ hq, div_le_one hR]
  by_cases h : r ≤ Cone.coneRadius alpha
  · rw [if_pos h, if_pos (hiff.mpr h)]
    by_cases hz : r = 0
    · rw [if_pos hz, hz]; unfold arcosh; simp [sqrt_eq_zero_of_nonpos]
    · rw [if_neg hz, one_div_div]; rfl
  · rw [if_neg h, if_neg (fun c => h (hiff.mp c))]; rfl

theorem coneShape_sneddon {alpha : ℝ} (h0 : 0 < alpha) (h1 : alpha < π / 2) (r : ℝ) :
    coneShape (r / Cone.coneRadius alpha) = π * Cone.sneddon alpha r := by
  have hR := Cone.radius_pos h0 h1
  have hs := Cone.radius_tan h0 h1
  unfold coneShape Cone.sneddon
  by_cases h : r ≤ Cone.coneRadius alpha
  · rw [if_pos h, if_pos ((div_le_one hR).mpr h)]
    have : Cone.coneSlope alpha = 2 / π / Cone.coneRadius alpha := by rw [← hs]; field_simp
    rw [this]; field_simp
  · rw [if_neg h, if_neg (fun c => h ((div_le_one hR).mp c)), one_div_div]
    field_simp

theorem cone_response {alpha E D : ℝ} (h0 : 0 < alpha) (h1 : alpha < π / 2) (hE : 0 < E) (hD : 0 < D) (x : ℝ × ℝ) :
    Integrable (fun y => conePressure alpha E D y / away x y) ∧ boussinesq E (conePressure alpha E D) x = D * Cone.sneddon alpha (axis x / D) := by
  have hR := Cone.radius_pos h0 h1
  have hs := Cone.radius_tan h0 h1
  have hsl := Cone.slope_pos h0 h1
  have hpm : (Cone.loadAndMeanPressure alpha).2 = Cone.coneSlope alpha / 2 := by unfold Cone.loadAndMeanPressure; rw [Cone.tan_beta]
  set a := D * Cone.coneRadius alpha with had
  have ha : 0 < a := by positivity
  set q : ℝ × ℝ → ℝ := fun y => conePr (axis y ^ 2) with hq
  have hp : ∀ y, conePressure alpha E D y = Cone.coneSlope alpha / 2 * E * q (a⁻¹ • y) := by
    intro y
    unfold conePressure
    have hay : 0 ≤ axis y / D := div_nonneg (sqrt_nonneg _) hD.le
    rw [hpm, pressureAt_conePr h0 h1 hay]
    simp only [hq]
    rw [axis_scale ha, had, div_div]
  obtain ⟨hint, hval⟩ := unit_cone (a⁻¹ • x)
  constructor
  · have h := (hint.const_mul (a⁻¹ * (Cone.coneSlope alpha / 2 * E))).comp_smul (R := a⁻¹) (by positivity)
    refine h.congr (Filter.Eventually.of_forall fun y => ?_)
    beta_reduce
    rw [hp, away_scale ha]
    have := inv_pos.mpr ha
    field_simp
    rfl
  · unfold boussinesq
    have e := potential_scale ha (fun y => Cone.coneSlope alpha / 2 * E * q y) x
    have e2 : ∫ y, Cone.coneSlope alpha / 2 * E * q y / away (a⁻¹ • x) y = Cone.coneSlope alpha / 2 * E * (π * coneShape (axis x / a)) := by
      rw [← axis_scale ha, ← hval, ← integral_const_mul]
      exact integral_congr_ae (Filter.Eventually.of_forall fun y => mul_div_assoc _ _ _)
    rw [e2] at e
    have e3 : ∫ y, conePressure alpha E D y / away x y = ∫ y, Cone.coneSlope alpha / 2 * E * q (a⁻¹ • y) / away x y :=
      integral_congr_ae (Filter.Eventually.of_forall fun y => by beta_reduce; rw [hp y])
    have hslope : Cone.coneSlope alpha = 2 / π / Cone.coneRadius alpha := by rw [← hs]; field_simp
    rw [e3, e, show axis x / a = axis x / D / Cone.coneRadius alpha by rw [had, div_div], coneShape_sneddon h0 h1, had, hslope]
    have hpi := pi_pos
    field_simp

/-- **C184** The displacements of a cone contact are the response of the half-space to its pressure: for a cone pressed `D` deep into a half-space of
contact modulus `E`, Boussinesq's displacement under the pressure by `pressure` and `load_and_mean_pressure` is integrable and is Sneddon's at every
point of the surface; at distances in a vector `l` that contains the contact radius, `deformation` returns exactly this response in units of `D`. -/
theorem C184_cone {alpha E D : ℝ} (h0 : 0 < alpha) (h1 : alpha < π / 2) (hE : 0 < E) (hD : 0 < D) :
    (∀ x, Integrable (fun y => conePressure alpha E D y / away x y) ∧ boussinesq E (conePressure alpha E D) x = D * Cone.sneddon alpha (axis x / D)) ∧
    (∀ l : List ℝ, (∀ r ∈ l, 0 ≤ r) → Cone.coneRadius alpha ∈ l →
      Cone.deformation false l alpha = .ok (l.map fun r => boussinesq E (conePressure alpha E D) (D * r, 0) / D)) := by
  refine ⟨cone_response h0 h1 hE hD, fun l hl hm => ?_⟩
  have h := ((Cone.C95_sampling_partial h0 h1 hm le_rfl (fun r _ hr => hr)).2).mpr rfl
  rw [h]
  congr 1
  refine List.map_congr_left fun r hr => ?_
  rw [(cone_response h0 h1 hE hD _).2]
  have : axis (D * r, 0) = D * r := by
    unfold axis
    simp only
    rw [zero_pow two_ne_zero, add_zero, sqrt_sq (mul_nonneg hD.le (hl r hr))]
  rw [this, mul_div_cancel_left₀ _ hD.ne', mul_div_cancel_left₀ _ hD.ne']

/-- The distances of an example: the axis, the contact radius and a point outside. -/
example : ∃ l : List ℝ, (∀ r ∈ l, 0 ≤ r) ∧ Cone.coneRadius (π / 4) ∈ l ∧ l.length = 3 := by
  have h := Cone.radius_pos (alpha := π / 4) (by positivity) (by linarith [pi_pos])
  exact ⟨[0, Cone.coneRadius (π / 4), 2 * Cone.coneRadius (π / 4)], by simp [h.le], by simp, rfl⟩

/-- A response that is not zero. -/
example : boussinesq 1 (fun y => Hertz.maxPressure 1 1 1 * √(1 - (axis y / √(1 * 1)) ^ 2)) (0, 0) = 1 := by
  rw [C183_exact one_pos one_pos one_pos]
  have : axis (0, 0) = 0 := by unfold axis; simp
  rw [this, zero_div]
  unfold Hertz.surfaceDisp Hertz.maxPressure
  rw [if_pos (by norm_num)]
  simp
  field_simp
  norm_num

end CM.Ref
