import Verif.Lemmas.GaussPos
import Verif.Props.Free
/-!
# Love's influence coefficients are positive definite

`1/r = (2/√π) ∫ e^{-τ² r²} dτ` turns the pixel integral of `1/r` into a mixture of products of pixel-averaged Gaussians.
-/
namespace CM.GaussPos
open MeasureTheory Set Filter Finset Real CM.Spec CM.HS

/-- Integral of a Gaussian over an interval. -/
noncomputable def gint (τ a b : ℝ) : ℝ := ∫ ξ in a..b, exp (-τ ^ 2 * ξ ^ 2)

lemma inv_sqrt {s : ℝ} (hs : 0 < s) : 1 / √s = 2 / √π * ∫ τ in Ioi (0 : ℝ), exp (-s * τ ^ 2) := by
  rw [integral_gaussian_Ioi, Real.sqrt_div' _ hs.le]
  have : √π ≠ 0 := (Real.sqrt_pos.2 Real.pi_pos).ne'
  field_simp

lemma gauss_int {s : ℝ} (hs : 0 < s) : IntegrableOn (fun τ : ℝ => exp (-s * τ ^ 2)) (Ioi 0) := (integrable_exp_neg_mul_sq hs).integrableOn

/-- Inner integral. -/
lemma inner_swap {a b η : ℝ} (hη : η ≠ 0) (hab : a ≤ b) :
    ∫ ξ in a..b, 1 / √(ξ ^ 2 + η ^ 2) = 2 / √π * ∫ τ in Ioi (0 : ℝ), exp (-τ ^ 2 * η ^ 2) * gint τ a b ∧
    IntegrableOn (fun τ => exp (-τ ^ 2 * η ^ 2) * gint τ a b) (Ioi 0) := by
  have hη2 : 0 < η ^ 2 := by positivity
  have hs : ∀ ξ : ℝ, 0 < ξ ^ 2 + η ^ 2 := fun ξ => by positivity
  have hfun : ∀ τ, exp (-τ ^ 2 * η ^ 2) * gint τ a b = ∫ ξ in a..b, exp (-(ξ ^ 2 + η ^ 2) * τ ^ 2) := by
    intro τ
    unfold gint
    rw [← intervalIntegral.integral_const_mul]
    refine intervalIntegral.integral_congr fun ξ _ => ?_
    beta_reduce
    rw [← exp_add]; congr 1; ring
  have hint : Integrable (Function.uncurry fun ξ τ : ℝ => exp (-(ξ ^ 2 + η ^ 2) * τ ^ 2)) ((volume.restrict (uIoc a b)).prod (volume.restrict (Ioi 0))) := by
    have h1 : Integrable (fun _ : ℝ => (1 : ℝ)) (volume.restrict (uIoc a b)) := integrableOn_const (by simp [uIoc])
    refine (h1.mul_prod (gauss_int hη2)).mono' (Continuous.aestronglyMeasurable (by unfold Function.uncurry; fun_prop)) (Eventually.of_forall fun z => ?_)
    simp only [Function.uncurry, Real.norm_eq_abs, one_mul, abs_of_pos (exp_pos _)]
    apply exp_le_exp.2
    nlinarith [sq_nonneg (z.1 * z.2), sq_nonneg z.2]
  constructor
  · rw [intervalIntegral.integral_congr (fun ξ _ => inv_sqrt (hs ξ)), intervalIntegral.integral_const_mul, intervalIntegral_integral_swap hint]
    congr 1
    exact integral_congr_ae (Eventually.of_forall fun τ => (hfun τ).symm)
  · simp only [hfun, intervalIntegral.integral_of_le hab]
    rw [uIoc_of_le hab] at hint
    exact hint.integral_prod_right

/-- Both integrals. -/
lemma outer_swap {a b c d : ℝ} (hab : a ≤ b) (hcd : c ≤ d) (hpos : 0 < ∫ η in c..d, ∫ ξ in a..b, 1 / √(ξ ^ 2 + η ^ 2)) :
    ∫ η in c..d, ∫ ξ in a..b, 1 / √(ξ ^ 2 + η ^ 2) = 2 / √π * ∫ τ in Ioi (0 : ℝ), gint τ a b * gint τ c d ∧
    IntegrableOn (fun τ => gint τ a b * gint τ c d) (Ioi 0) := by
  have hii := intervalIntegral.intervalIntegrable_of_integral_ne_zero hpos.ne'
  have hz : ∀ᵐ η : ℝ ∂volume, η ≠ 0 := by simp [ae_iff, measure_singleton]
  have hspi : 0 < 2 / √π := div_pos two_pos (Real.sqrt_pos.2 Real.pi_pos)
  have hg0 : ∀ τ, 0 ≤ gint τ a b := fun τ => intervalIntegral.integral_nonneg hab fun ξ _ => (exp_pos _).le
  have hcg : Continuous fun τ => gint τ a b := by
    unfold gint
    exact intervalIntegral.continuous_parametric_intervalIntegral_of_continuous' (by fun_prop) _ _
  have hint : Integrable (Function.uncurry fun η τ : ℝ => exp (-τ ^ 2 * η ^ 2) * gint τ a b) ((volume.restrict (uIoc c d)).prod (volume.restrict (Ioi 0))) := by
    refine (integrable_prod_iff (Continuous.aestronglyMeasurable ?_)).2 ⟨?_, ?_⟩
    · show Continuous fun z : ℝ × ℝ => exp (-z.2 ^ 2 * z.1 ^ 2) * gint z.2 a b
      exact (by fun_prop : Continuous fun z : ℝ × ℝ => exp (-z.2 ^ 2 * z.1 ^ 2)).mul (hcg.comp continuous_snd)
    · filter_upwards [ae_restrict_of_ae hz] with η hη
      exact (inner_swap hη hab).2
    · have h1 : IntegrableOn (fun η => (2 / √π)⁻¹ * ∫ ξ in a..b, 1 / √(ξ ^ 2 + η ^ 2)) (uIoc c d) := by
        have := hii.def'
        exact this.const_mul _
      refine h1.congr ?_
      filter_upwards [ae_restrict_of_ae hz] with η hη
      rw [(inner_swap hη hab).1, inv_mul_cancel_left₀ hspi.ne']
      refine integral_congr_ae (Eventually.of_forall fun τ => ?_)
      simp only [Function.uncurry, Real.norm_eq_abs]
      rw [abs_of_nonneg (mul_nonneg (exp_pos _).le (hg0 τ))]
  have hfun : ∀ τ, ∫ η in c..d, exp (-τ ^ 2 * η ^ 2) * gint τ a b = gint τ a b * gint τ c d := by
    intro τ
    rw [intervalIntegral.integral_mul_const, mul_comm]; rfl
  constructor
  · rw [intervalIntegral.integral_congr_ae (g := fun η => 2 / √π * ∫ τ in Ioi (0 : ℝ), exp (-τ ^ 2 * η ^ 2) * gint τ a b)
      (by filter_upwards [hz] with η hη _; exact (inner_swap hη hab).1), intervalIntegral.integral_const_mul, intervalIntegral_integral_swap hint]
    simp only [hfun]
  · rw [uIoc_of_le hcd] at hint
    have := hint.integral_prod_right
    simp only [Function.uncurry, ← intervalIntegral.integral_of_le hcd, hfun] at this
    exact this

lemma gint_pix {τ d : ℝ} (hd : 0 < d) (k : ℝ) : gint τ (k * d - d / 2) (k * d + d / 2) = d * pix (τ ^ 2 * d ^ 2) k := by
  unfold gint pix
  have := intervalIntegral.integral_comp_mul_left (fun s => exp (-τ ^ 2 * s ^ 2)) hd.ne' (a := k - 1 / 2) (b := k + 1 / 2)
  rw [show d * (k - 1 / 2) = k * d - d / 2 by ring, show d * (k + 1 / 2) = k * d + d / 2 by ring, smul_eq_mul] at this
  rw [eq_inv_mul_iff_mul_eq₀ hd.ne'] at this
  rw [← this]
  congr 1
  refine intervalIntegral.integral_congr fun s _ => ?_
  beta_reduce
  congr 1; ring

/-- The pixel Green's function as a mixture of products of pixel-averaged Gaussians. -/
theorem pixelGreens_mixture {dx dy : ℝ} (hx : 0 < dx) (hy : 0 < dy) (k l : ℤ) :
    pixelGreens 1 dx dy (k * dx) (l * dy) = 2 * dx * dy / (π * √π) * ∫ τ in Ioi (0 : ℝ), pix (τ ^ 2 * dx ^ 2) k * pix (τ ^ 2 * dy ^ 2) l ∧
    IntegrableOn (fun τ => pix (τ ^ 2 * dx ^ 2) k * pix (τ ^ 2 * dy ^ 2) l) (Ioi 0) := by
  have hpi := Real.pi_pos
  have hG := pixelGreens_pos one_pos hx hy k l
  have hpos : 0 < ∫ η in (l * dy - dy / 2)..(l * dy + dy / 2), ∫ ξ in (k * dx - dx / 2)..(k * dx + dx / 2), 1 / √(ξ ^ 2 + η ^ 2) := by
    unfold pixelGreens at hG
    exact pos_of_mul_pos_right hG (by positivity)
  obtain ⟨h1, h2⟩ := outer_swap (by linarith) (by linarith) hpos
  have e : (fun τ => gint τ (k * dx - dx / 2) (k * dx + dx / 2) * gint τ (l * dy - dy / 2) (l * dy + dy / 2)) =
      fun τ => dx * dy * (pix (τ ^ 2 * dx ^ 2) k * pix (τ ^ 2 * dy ^ 2) l) := by
    funext τ
    rw [gint_pix hx, gint_pix hy]; ring
  rw [e] at h1 h2
  constructor
  · unfold pixelGreens
    rw [h1, MeasureTheory.integral_const_mul]
    field_simp
  · have := h2.const_mul (dx * dy)⁻¹
    refine this.congr (Eventually.of_forall fun τ => ?_)
    beta_reduce
    rw [inv_mul_cancel_left₀ (by positivity)]

/-- **Love's influence coefficients form a positive definite matrix**, on every grid and for every pixel shape. -/
theorem love_posDef {dx dy : ℝ} (hx : 0 < dx) (hy : 0 < dy) {nx ny : ℕ} {p : Fin nx × Fin ny → ℝ} (hp : ∃ x, p x ≠ 0) :
    0 < ∑ x : Fin nx × Fin ny, ∑ y : Fin nx × Fin ny, p x * p y * pixelGreens 1 dx dy (((x.1 : ℝ) - y.1) * dx) (((x.2 : ℝ) - y.2) * dy) := by
  have hpi := Real.pi_pos
  have hspi : 0 < √π := Real.sqrt_pos.2 hpi
  have hm : ∀ x y : Fin nx × Fin ny, _ := fun x y => pixelGreens_mixture hx hy ((x.1 : ℤ) - y.1) ((x.2 : ℤ) - y.2)
  push_cast at hm
  set F : ℝ → ℝ := fun τ => ∑ x : Fin nx × Fin ny, ∑ y : Fin nx × Fin ny,
    p x * p y * (pix (τ ^ 2 * dx ^ 2) ((x.1 : ℝ) - y.1) * pix (τ ^ 2 * dy ^ 2) ((x.2 : ℝ) - y.2)) with hF
  have hint : IntegrableOn F (Ioi 0) := integrable_finsetSum _ fun x _ => integrable_finsetSum _ fun y _ => (hm x y).2.const_mul _
  have hFpos : ∀ τ ∈ Ioi (0 : ℝ), 0 < F τ := by
    intro τ hτ
    have hτ0 : (0 : ℝ) < τ := hτ
    exact pix_form_pos (b := τ ^ 2 * dx ^ 2) (by positivity) (B := fun u v : Fin ny => pix (τ ^ 2 * dy ^ 2) ((u : ℝ) - v))
      (fun c hc => pix_pos (by positivity) hc) hp
  have hI : 0 < ∫ τ in Ioi (0 : ℝ), F τ := by
    rw [setIntegral_pos_iff_support_of_nonneg_ae ((ae_restrict_iff' measurableSet_Ioi).2 (Eventually.of_forall fun τ hτ => (hFpos τ hτ).le)) hint]
    have : Ioi (0 : ℝ) ⊆ Function.support F ∩ Ioi 0 := fun τ hτ => ⟨(hFpos τ hτ).ne', hτ⟩
    refine lt_of_lt_of_le ?_ (measure_mono this)
    simp
  have e : ∑ x : Fin nx × Fin ny, ∑ y : Fin nx × Fin ny, p x * p y * pixelGreens 1 dx dy (((x.1 : ℝ) - y.1) * dx) (((x.2 : ℝ) - y.2) * dy)
      = 2 * dx * dy / (π * √π) * ∫ τ in Ioi (0 : ℝ), F τ := by
    rw [integral_finsetSum _ fun x _ => integrable_finsetSum _ fun y _ => (hm x y).2.const_mul _, mul_sum]
    refine sum_congr rfl fun x _ => ?_
    rw [integral_finsetSum _ fun y _ => (hm x y).2.const_mul _, mul_sum]
    refine sum_congr rfl fun y _ => ?_
    rw [(hm x y).1, MeasureTheory.integral_const_mul]; ring
  rw [e]
  positivity

end CM.GaussPos
