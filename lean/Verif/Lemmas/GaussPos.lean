import Mathlib.Analysis.SpecialFunctions.Gaussian.FourierTransform
import Mathlib.Analysis.SpecialFunctions.Trigonometric.Sinc
import Mathlib.MeasureTheory.Integral.IntegralEqImproper
import Mathlib.Algebra.Polynomial.Roots
/-!
# Pixel averages of Gaussians are positive definite

`∫ e^{-θ²/b} sinc θ W(θ) dθ > 0` for nonnegative, even, `π`-periodic `W`: `sinc θ W(θ)` changes sign under `θ → θ + π` apart from the
decreasing factor, so the integral is a sum of positive differences.
-/
namespace CM.GaussPos
open MeasureTheory Set Filter Finset Real intervalIntegral

variable {b : ℝ}

/-- Gaussian times `sinc`. -/
noncomputable def gs (b θ : ℝ) : ℝ := exp (-(1 / b) * θ ^ 2) * sinc θ

lemma gs_cont : Continuous (gs b) := by
  unfold gs
  exact (by fun_prop : Continuous fun θ : ℝ => exp (-(1 / b) * θ ^ 2)).mul continuous_sinc

lemma gs_even (θ : ℝ) : gs b (-θ) = gs b θ := by simp [gs, sinc_neg]

lemma gs_integrable (hb : 0 < b) {W : ℝ → ℝ} (hW : Continuous W) {M : ℝ} (hM : ∀ θ, |W θ| ≤ M) : Integrable fun θ => gs b θ * W θ := by
  have h := integrable_exp_neg_mul_sq (b := 1 / b) (by positivity)
  refine (h.mul_const M).mono' (gs_cont.mul hW).aestronglyMeasurable (Eventually.of_forall fun θ => ?_)
  rw [norm_mul, Real.norm_eq_abs, Real.norm_eq_abs, gs, abs_mul, abs_of_pos (exp_pos _)]
  have a1 := abs_sinc_le_one θ
  have a2 := hM θ
  have a3 := exp_pos (-(1 / b) * θ ^ 2)
  have : exp (-(1 / b) * θ ^ 2) * |sinc θ| ≤ exp (-(1 / b) * θ ^ 2) * 1 := by gcongr
  calc _ ≤ exp (-(1 / b) * θ ^ 2) * 1 * M := by
        refine mul_le_mul this a2 (abs_nonneg _) (by positivity)
    _ = _ := by ring

/-- The factor in front of `sin θ`. -/
noncomputable def dec (b θ : ℝ) : ℝ := exp (-(1 / b) * θ ^ 2) / θ

lemma dec_lt (hb : 0 < b) {x y : ℝ} (hx : 0 < x) (hxy : x < y) : dec b y < dec b x := by
  unfold dec
  have hy := hx.trans hxy
  have h1 : exp (-(1 / b) * y ^ 2) ≤ exp (-(1 / b) * x ^ 2) := by
    apply exp_le_exp.2
    have : 0 < 1 / b := by positivity
    nlinarith [mul_pos this hx, mul_pos this hy, mul_lt_mul'' hxy hxy hx.le hx.le]
  calc exp (-(1 / b) * y ^ 2) / y ≤ exp (-(1 / b) * x ^ 2) / y := by gcongr
    _ < _ := by gcongr

/-- Two neighbouring half waves. -/
lemma pair_eq {W : ℝ → ℝ} (hp : ∀ θ, W (θ + π) = W θ) (n : ℕ) {x : ℝ} (hx : 0 < x) :
    gs b (x + 2 * π * n) * W (x + 2 * π * n) + gs b (x + 2 * π * n + π) * W (x + 2 * π * n + π)
      = (dec b (x + 2 * π * n) - dec b (x + 2 * π * n + π)) * (Real.sin x * W x) := by
  have hpi := Real.pi_pos
  have h1 : 0 < x + 2 * π * n := by positivity
  have hW : W (x + 2 * π * n) = W x := by
    have : ∀ m : ℕ, W (x + π * m) = W x := by
      intro m
      induction m with
      | zero => simp
      | succ m ih => rw [← ih, ← hp (x + π * m)]; push_cast; congr 1; ring
    have h := this (2 * n)
    push_cast at h
    rw [← h]; congr 1; ring
  have hs : Real.sin (x + 2 * π * n) = Real.sin x := by
    rw [show x + 2 * π * n = x + n * (2 * π) by ring, Real.sin_add_nat_mul_two_pi]
  rw [hp, hW]
  unfold gs dec
  rw [sinc_of_ne_zero h1.ne', sinc_of_ne_zero (by positivity), Real.sin_add_pi, hs]
  ring

lemma pair_nonneg (hb : 0 < b) {W : ℝ → ℝ} (hp : ∀ θ, W (θ + π) = W θ) (h0 : ∀ θ, 0 ≤ W θ) (n : ℕ) {x : ℝ} (hx : x ∈ Ioc 0 π) :
    0 ≤ gs b (x + 2 * π * n) * W (x + 2 * π * n) + gs b (x + 2 * π * n + π) * W (x + 2 * π * n + π) := by
  have hpi := Real.pi_pos
  rw [pair_eq hp n hx.1]
  refine mul_nonneg (sub_pos.2 (dec_lt hb ?_ (by linarith))).le (mul_nonneg (Real.sin_nonneg_of_nonneg_of_le_pi hx.1.le hx.2) (h0 x))
  have := hx.1
  positivity

lemma period_split {g : ℝ → ℝ} (hg : Continuous g) (n : ℕ) :
    ∫ x in (2 * π * n)..(2 * π * (n + 1 : ℕ)), g x = ∫ x in (0 : ℝ)..π, (g (x + 2 * π * n) + g (x + 2 * π * n + π)) := by
  have hi : ∀ a c, IntervalIntegrable g volume a c := fun a c => hg.intervalIntegrable a c
  rw [intervalIntegral.integral_add (Continuous.intervalIntegrable (by fun_prop) _ _) (Continuous.intervalIntegrable (by fun_prop) _ _)]
  have e1 : ∫ x in (0 : ℝ)..π, g (x + 2 * π * n) = ∫ x in (2 * π * n)..(2 * π * n + π), g x := by
    rw [intervalIntegral.integral_comp_add_right (fun x => g x)]; congr 1 <;> ring
  have e2 : ∫ x in (0 : ℝ)..π, g (x + 2 * π * n + π) = ∫ x in (2 * π * n + π)..(2 * π * (n + 1 : ℕ)), g x := by
    have : (fun x => g (x + 2 * π * n + π)) = fun x => g (x + (2 * π * n + π)) := by funext x; congr 1; ring
    rw [this, intervalIntegral.integral_comp_add_right (fun x => g x)]; push_cast; congr 1 <;> ring
  rw [e1, e2, intervalIntegral.integral_add_adjacent_intervals (hi _ _) (hi _ _)]

/-- **Folding.** -/
theorem fold_pos (hb : 0 < b) {W : ℝ → ℝ} (hW : Continuous W) {M : ℝ} (hM : ∀ θ, |W θ| ≤ M) (hp : ∀ θ, W (θ + π) = W θ)
    (he : ∀ θ, W (-θ) = W θ) (h0 : ∀ θ, 0 ≤ W θ) (hne : ∃ θ ∈ Ioo 0 π, W θ ≠ 0) : 0 < ∫ θ, gs b θ * W θ := by
  have hpi := Real.pi_pos
  have hcont : Continuous fun θ => gs b θ * W θ := gs_cont.mul hW
  have hint := gs_integrable hb hW hM
  have hgc : Continuous (gs b) := gs_cont
  have heven : (fun θ => gs b θ * W θ) = fun θ => (fun θ => gs b θ * W θ) |θ| := by
    funext θ
    rcases abs_cases θ with ⟨h, -⟩ | ⟨h, -⟩ <;> simp only [h]
    rw [gs_even, he]
  rw [heven, integral_comp_abs (f := fun θ => gs b θ * W θ)]
  have htend := intervalIntegral_tendsto_integral_Ioi (l := atTop) (f := fun θ => gs b θ * W θ) (b := fun N : ℕ => 2 * π * ((N + 1 : ℕ) : ℝ)) 0 hint.integrableOn (by
    refine Tendsto.const_mul_atTop (by positivity) ?_
    exact (tendsto_natCast_atTop_atTop (R := ℝ)).comp (tendsto_add_atTop_nat 1))
  have hfirst : 0 < ∫ x in (0 : ℝ)..(2 * π * ((0 + 1 : ℕ) : ℝ)), gs b x * W x := by
    have := period_split hcont 0
    simp only [Nat.cast_zero, mul_zero] at this
    rw [this]
    refine intervalIntegral.integral_pos hpi (Continuous.continuousOn (by fun_prop)) (fun x hx => ?_) ?_
    · simpa using pair_nonneg hb hp h0 0 hx
    · obtain ⟨θ, hθ, hWθ⟩ := hne
      refine ⟨θ, ⟨hθ.1.le, hθ.2.le⟩, ?_⟩
      have := pair_eq (b := b) hp 0 hθ.1
      simp only [Nat.cast_zero, mul_zero] at this
      rw [this]
      refine mul_pos (sub_pos.2 (dec_lt hb (by linarith [hθ.1]) (by linarith))) (mul_pos (Real.sin_pos_of_pos_of_lt_pi hθ.1 hθ.2) ?_)
      exact lt_of_le_of_ne (h0 θ) (Ne.symm hWθ)
  have hmono : ∀ N : ℕ, ∫ x in (0 : ℝ)..(2 * π * ((0 + 1 : ℕ) : ℝ)), gs b x * W x ≤ ∫ x in (0 : ℝ)..(2 * π * ((N + 1 : ℕ) : ℝ)), gs b x * W x := by
    intro N
    induction N with
    | zero => exact le_rfl
    | succ N ih =>
      refine ih.trans ?_
      rw [← intervalIntegral.integral_add_adjacent_intervals (a := 0) (c := 2 * π * ((N + 1 + 1 : ℕ) : ℝ)) (b := 2 * π * ((N + 1 : ℕ) : ℝ)) (hcont.intervalIntegrable _ _) (hcont.intervalIntegrable _ _)]
      refine le_add_of_nonneg_right ?_
      rw [period_split hcont (N + 1)]
      exact intervalIntegral.integral_nonneg_of_ae_restrict hpi.le ((ae_restrict_iff' measurableSet_Icc).2 (by
        have hz : ∀ᵐ x : ℝ ∂volume, x ≠ 0 := by simp [ae_iff, measure_singleton]
        filter_upwards [hz] with x hx hm
        exact pair_nonneg hb hp h0 (N + 1) ⟨lt_of_le_of_ne hm.1 (Ne.symm hx), hm.2⟩))
  have hle := ge_of_tendsto htend (Eventually.of_forall hmono)
  linarith

/-! ## The pixel average of a Gaussian -/

/-- Average of `e^{-b s²}` over the pixel at `x`. -/
noncomputable def pix (b x : ℝ) : ℝ := ∫ s in (x - 1 / 2)..(x + 1 / 2), exp (-b * s ^ 2)

lemma gauss_cos (hb : 0 < b) (s : ℝ) : ∫ θ : ℝ, exp (-(1 / b) * θ ^ 2) * Real.cos (2 * s * θ) = √(π * b) * exp (-b * s ^ 2) := by
  have hb' : 0 < ((1 / b : ℝ) : ℂ).re := by rw [Complex.ofReal_re]; positivity
  have h := fourierIntegral_gaussian hb' ((2 * s : ℝ) : ℂ)
  have h1 : ∀ θ : ℝ, (Complex.exp (Complex.I * ((2 * s : ℝ) : ℂ) * θ) * Complex.exp (-((1 / b : ℝ) : ℂ) * θ ^ 2)).re
      = exp (-(1 / b) * θ ^ 2) * Real.cos (2 * s * θ) := by
    intro θ
    have e1 : Complex.exp (-((1 / b : ℝ) : ℂ) * θ ^ 2) = ((exp (-(1 / b) * θ ^ 2) : ℝ) : ℂ) := by push_cast; rfl
    have e2 : Complex.I * ((2 * s : ℝ) : ℂ) * θ = ((2 * s * θ : ℝ) : ℂ) * Complex.I := by push_cast; ring
    rw [e1, e2, Complex.re_mul_ofReal, Complex.exp_ofReal_mul_I_re, mul_comm]
  have hi : Integrable fun θ : ℝ => Complex.exp (Complex.I * ((2 * s : ℝ) : ℂ) * θ) * Complex.exp (-((1 / b : ℝ) : ℂ) * θ ^ 2) := by
    have := integrable_cexp_quadratic hb' (Complex.I * ((2 * s : ℝ) : ℂ)) 0
    refine this.congr (Eventually.of_forall fun θ => ?_)
    beta_reduce
    rw [← Complex.exp_add]; congr 1; ring
  have h2 := congrArg Complex.re h
  have h3 : (∫ θ : ℝ, Complex.exp (Complex.I * ((2 * s : ℝ) : ℂ) * θ) * Complex.exp (-((1 / b : ℝ) : ℂ) * θ ^ 2)).re
      = ∫ θ : ℝ, exp (-(1 / b) * θ ^ 2) * Real.cos (2 * s * θ) := by
    rw [← RCLike.re_eq_complex_re, ← integral_re hi]
    exact integral_congr_ae (Eventually.of_forall h1)
  rw [h3] at h2
  rw [h2]
  have e3 : ((π : ℂ) / ((1 / b : ℝ) : ℂ)) ^ (1 / 2 : ℂ) = ((√(π * b) : ℝ) : ℂ) := by
    rw [Real.sqrt_eq_rpow, show ((π : ℂ) / ((1 / b : ℝ) : ℂ)) = ((π * b : ℝ) : ℂ) by push_cast; field_simp,
      Complex.ofReal_cpow (by positivity)]
    norm_num
  have e4 : Complex.exp (-((2 * s : ℝ) : ℂ) ^ 2 / (4 * ((1 / b : ℝ) : ℂ))) = ((exp (-b * s ^ 2) : ℝ) : ℂ) := by
    rw [Complex.ofReal_exp]; congr 1; push_cast
    have : (b : ℂ) ≠ 0 := by exact_mod_cast hb.ne'
    field_simp
    ring
  rw [e3, e4, ← Complex.ofReal_mul, Complex.ofReal_re]

lemma cos_average (x θ : ℝ) : ∫ s in (x - 1 / 2)..(x + 1 / 2), Real.cos (2 * s * θ) = sinc θ * Real.cos (2 * x * θ) := by
  by_cases h : θ = 0
  · subst h; norm_num
  have e : ∀ s, 2 * s * θ = 2 * θ * s := fun s => by ring
  simp only [e]
  rw [intervalIntegral.integral_comp_mul_left (fun s => Real.cos s) (by simpa using h), integral_cos, sinc_of_ne_zero h,
    show 2 * θ * (x + 1 / 2) = 2 * θ * x + θ by ring, show 2 * θ * (x - 1 / 2) = 2 * θ * x - θ by ring, Real.sin_add, Real.sin_sub, smul_eq_mul]
  field_simp
  ring

/-- Fourier representation of the pixel average. -/
theorem pix_fourier (hb : 0 < b) (x : ℝ) : √(π * b) * pix b x = ∫ θ, gs b θ * Real.cos (2 * x * θ) := by
  unfold pix
  rw [← intervalIntegral.integral_const_mul]
  have e1 : ∀ s : ℝ, √(π * b) * exp (-b * s ^ 2) = ∫ θ : ℝ, exp (-(1 / b) * θ ^ 2) * Real.cos (2 * s * θ) := fun s => (gauss_cos hb s).symm
  simp only [e1]
  have hle : x - 1 / 2 ≤ x + 1 / 2 := by linarith
  rw [intervalIntegral_integral_swap]
  · refine integral_congr_ae (Eventually.of_forall fun θ => ?_)
    beta_reduce
    rw [intervalIntegral.integral_const_mul, cos_average, gs]; ring
  · rw [uIoc_of_le hle]
    have h := integrable_exp_neg_mul_sq (b := 1 / b) (by positivity)
    have hc : Integrable (fun _ : ℝ => (1 : ℝ)) (volume.restrict (Ioc (x - 1 / 2) (x + 1 / 2))) := by
      exact integrableOn_const (by simp)
    refine (hc.mul_prod h).mono' (Continuous.aestronglyMeasurable (by unfold Function.uncurry; fun_prop)) (Eventually.of_forall fun z => ?_)
    simp only [Function.uncurry, norm_mul, Real.norm_eq_abs, one_mul]
    rw [abs_of_pos (exp_pos _)]
    exact mul_le_of_le_one_right (exp_pos _).le (abs_cos_le_one _)

/-! ## Positive definiteness -/

/-- A trigonometric polynomial that is not zero does not vanish everywhere on `(0, π)`. -/
lemma trig_ne {n : ℕ} {c : Fin n → ℝ} (hc : ∃ i, c i ≠ 0) :
    ∃ θ ∈ Ioo 0 π, (∑ i, c i * Real.cos (2 * i * θ)) ≠ 0 ∨ (∑ i, c i * Real.sin (2 * i * θ)) ≠ 0 := by
  by_contra hcon
  push Not at hcon
  set P : Polynomial ℂ := ∑ i : Fin n, Polynomial.monomial (i : ℕ) (c i : ℂ) with hP
  have hroot : ∀ θ ∈ Ioo 0 π, P.IsRoot (Complex.exp ((2 * θ : ℝ) * Complex.I)) := by
    intro θ hθ
    obtain ⟨h1, h2⟩ := hcon θ hθ
    rw [Polynomial.IsRoot.def, hP, Polynomial.eval_finsetSum]
    have e : ∀ i : Fin n, Polynomial.eval (Complex.exp ((2 * θ : ℝ) * Complex.I)) (Polynomial.monomial (i : ℕ) (c i : ℂ))
        = ((c i * Real.cos (2 * i * θ) : ℝ) : ℂ) + ((c i * Real.sin (2 * i * θ) : ℝ) : ℂ) * Complex.I := by
      intro i
      rw [Polynomial.eval_monomial, ← Complex.exp_nat_mul,
        show ((i : ℕ) : ℂ) * ((2 * θ : ℝ) * Complex.I) = ((2 * i * θ : ℝ) : ℂ) * Complex.I by push_cast; ring, Complex.exp_mul_I]
      push_cast; ring
    rw [sum_congr rfl fun i _ => e i, sum_add_distrib, ← sum_mul, ← Complex.ofReal_sum, ← Complex.ofReal_sum, h1, h2]
    simp
  have hinf : Set.Infinite {z | P.IsRoot z} := by
    have hsub : (fun θ : ℝ => Complex.exp ((2 * θ : ℝ) * Complex.I)) '' Ioo 0 π ⊆ {z | P.IsRoot z} := by
      rintro _ ⟨θ, hθ, rfl⟩; exact hroot θ hθ
    refine Set.Infinite.mono hsub (Set.Infinite.image ?_ (Set.Ioo_infinite Real.pi_pos))
    intro x hx y hy hxy
    beta_reduce at hxy
    rw [Complex.exp_eq_exp_iff_exists_int] at hxy
    obtain ⟨m, hm⟩ := hxy
    have h1 : (2 * x : ℝ) = 2 * y + m * (2 * π) := by
      have h2 := congrArg Complex.im hm
      simpa using h2
    have hpi := Real.pi_pos
    have h3 : (m : ℝ) < 1 := by
      by_contra hge; push Not at hge
      nlinarith [hx.1, hx.2, hy.1, hy.2]
    have h4 : (-1 : ℝ) < m := by
      by_contra hge; push Not at hge
      nlinarith [hx.1, hx.2, hy.1, hy.2]
    have h5 : m = 0 := by
      have a : m < 1 := by exact_mod_cast h3
      have b : -1 < m := by exact_mod_cast h4
      omega
    rw [h5] at h1; norm_num at h1; exact h1
  have hz := Polynomial.eq_zero_of_infinite_isRoot P hinf
  obtain ⟨i, hi⟩ := hc
  have := congrArg (fun Q => Polynomial.coeff Q i) hz
  simp only [hP, Polynomial.finsetSum_coeff, Polynomial.coeff_monomial, Polynomial.coeff_zero] at this
  rw [sum_eq_single i (fun j _ hj => by rw [if_neg]; exact fun h => hj (Fin.ext h)) (by simp)] at this
  simp at this
  exact hi this

/-- Products of sums of cosines and sines. -/
lemma cos_form {n : ℕ} {ι : Type} [Fintype ι] (p : Fin n × ι → ℝ) (B : ι → ι → ℝ) (θ : ℝ) :
    ∑ x : Fin n × ι, ∑ y : Fin n × ι, p x * p y * (Real.cos (2 * ((x.1 : ℝ) - y.1) * θ) * B x.2 y.2) =
      (∑ u, ∑ v, (∑ i, p (i, u) * Real.cos (2 * i * θ)) * (∑ i, p (i, v) * Real.cos (2 * i * θ)) * B u v) +
      ∑ u, ∑ v, (∑ i, p (i, u) * Real.sin (2 * i * θ)) * (∑ i, p (i, v) * Real.sin (2 * i * θ)) * B u v := by
  have e : ∀ x y : Fin n × ι, p x * p y * (Real.cos (2 * ((x.1 : ℝ) - y.1) * θ) * B x.2 y.2) =
      (p x * Real.cos (2 * x.1 * θ)) * (p y * Real.cos (2 * y.1 * θ)) * B x.2 y.2 + (p x * Real.sin (2 * x.1 * θ)) * (p y * Real.sin (2 * y.1 * θ)) * B x.2 y.2 := by
    intro x y
    rw [show 2 * ((x.1 : ℝ) - y.1) * θ = 2 * x.1 * θ - 2 * y.1 * θ by ring, Real.cos_sub]; ring
  have key : ∀ g : Fin n → ℝ, ∑ x : Fin n × ι, ∑ y : Fin n × ι, (p x * g x.1) * (p y * g y.1) * B x.2 y.2 =
      ∑ u, ∑ v, (∑ i, p (i, u) * g i) * (∑ i, p (i, v) * g i) * B u v := by
    intro g
    rw [Fintype.sum_prod_type_right]
    refine sum_congr rfl fun u _ => ?_
    rw [sum_congr rfl fun i _ => Fintype.sum_prod_type_right _, sum_comm]
    refine sum_congr rfl fun v _ => ?_
    rw [sum_mul_sum, sum_mul]
    refine sum_congr rfl fun i _ => ?_
    rw [sum_mul]
  simp only [e, sum_add_distrib]
  rw [key (fun i => Real.cos (2 * i * θ)), key (fun i => Real.sin (2 * i * θ))]

/-- **The product of a pixel-averaged Gaussian and a positive definite kernel is positive definite.** -/
theorem pix_form_pos (hb : 0 < b) {n : ℕ} {ι : Type} [Fintype ι] {B : ι → ι → ℝ} (hB : ∀ c : ι → ℝ, (∃ i, c i ≠ 0) → 0 < ∑ u, ∑ v, c u * c v * B u v)
    {p : Fin n × ι → ℝ} (hp : ∃ x, p x ≠ 0) :
    0 < ∑ x : Fin n × ι, ∑ y : Fin n × ι, p x * p y * (pix b ((x.1 : ℝ) - y.1) * B x.2 y.2) := by
  have hB0 : ∀ c : ι → ℝ, 0 ≤ ∑ u, ∑ v, c u * c v * B u v := by
    intro c
    by_cases h : ∃ i, c i ≠ 0
    · exact (hB c h).le
    · push Not at h; simp [h]
  set W : ℝ → ℝ := fun θ => ∑ x : Fin n × ι, ∑ y : Fin n × ι, p x * p y * (Real.cos (2 * ((x.1 : ℝ) - y.1) * θ) * B x.2 y.2) with hW
  have hcont : Continuous W := by
    rw [hW]
    exact continuous_finsetSum _ fun x _ => continuous_finsetSum _ fun y _ => by fun_prop
  have hM : ∀ θ, |W θ| ≤ ∑ x : Fin n × ι, ∑ y : Fin n × ι, |p x * p y * B x.2 y.2| := by
    intro θ
    refine (abs_sum_le_sum_abs _ _).trans (sum_le_sum fun x _ => (abs_sum_le_sum_abs _ _).trans (sum_le_sum fun y _ => ?_))
    rw [abs_mul, abs_mul (Real.cos _), abs_mul (p x * p y), mul_left_comm]
    exact mul_le_of_le_one_left (by positivity) (abs_cos_le_one _)
  have hper : ∀ θ, W (θ + π) = W θ := by
    intro θ
    refine sum_congr rfl fun x _ => sum_congr rfl fun y _ => ?_
    congr 2
    rw [show 2 * ((x.1 : ℝ) - y.1) * (θ + π) = 2 * ((x.1 : ℝ) - y.1) * θ + (((x.1 : ℤ) - (y.1 : ℤ) : ℤ) : ℝ) * (2 * π) by push_cast; ring,
      Real.cos_add_int_mul_two_pi]
  have heven : ∀ θ, W (-θ) = W θ := by
    intro θ
    refine sum_congr rfl fun x _ => sum_congr rfl fun y _ => ?_
    rw [show 2 * ((x.1 : ℝ) - y.1) * -θ = -(2 * ((x.1 : ℝ) - y.1) * θ) by ring, Real.cos_neg]
  have hform : ∀ θ, W θ = _ := fun θ => cos_form p B θ
  have hnn : ∀ θ, 0 ≤ W θ := fun θ => by rw [hform]; exact add_nonneg (hB0 _) (hB0 _)
  have hne : ∃ θ ∈ Ioo 0 π, W θ ≠ 0 := by
    obtain ⟨⟨i, u⟩, hiu⟩ := hp
    obtain ⟨θ, hθ, h⟩ := trig_ne (c := fun i => p (i, u)) ⟨i, hiu⟩
    refine ⟨θ, hθ, ne_of_gt ?_⟩
    rw [hform]
    rcases h with h | h
    · exact add_pos_of_pos_of_nonneg (hB _ ⟨u, h⟩) (hB0 _)
    · exact add_pos_of_nonneg_of_pos (hB0 _) (hB _ ⟨u, h⟩)
  have key := fold_pos hb hcont hM hper heven hnn hne
  have hs : 0 < √(π * b) := Real.sqrt_pos.2 (mul_pos Real.pi_pos hb)
  have hint : ∀ x : ℝ, Integrable fun θ => gs b θ * Real.cos (2 * x * θ) := fun x =>
    gs_integrable hb (by fun_prop) (M := 1) (fun θ => abs_cos_le_one _)
  have e : ∫ θ, gs b θ * W θ = √(π * b) * ∑ x : Fin n × ι, ∑ y : Fin n × ι, p x * p y * (pix b ((x.1 : ℝ) - y.1) * B x.2 y.2) := by
    have e1 : (fun θ => gs b θ * W θ) = fun θ => ∑ x : Fin n × ι, ∑ y : Fin n × ι, p x * p y * B x.2 y.2 * (gs b θ * Real.cos (2 * ((x.1 : ℝ) - y.1) * θ)) := by
      funext θ
      simp only [hW, mul_sum]
      exact sum_congr rfl fun x _ => sum_congr rfl fun y _ => by ring
    rw [e1, integral_finsetSum _ fun x _ => integrable_finsetSum _ fun y _ => (hint _).const_mul _, mul_sum]
    refine sum_congr rfl fun x _ => ?_
    rw [integral_finsetSum _ fun y _ => (hint _).const_mul _, mul_sum]
    refine sum_congr rfl fun y _ => ?_
    rw [MeasureTheory.integral_const_mul, ← pix_fourier hb]; ring
  rw [e] at key
  exact pos_of_mul_pos_right key hs.le

/-- One dimension. -/
theorem pix_pos (hb : 0 < b) {n : ℕ} {c : Fin n → ℝ} (hc : ∃ i, c i ≠ 0) : 0 < ∑ i, ∑ j, c i * c j * pix b ((i : ℝ) - j) := by
  have h := pix_form_pos hb (ι := Unit) (B := fun _ _ => 1) (p := fun x : Fin n × Unit => c x.1) (fun d ⟨i, hi⟩ => by
    have : d () ≠ 0 := hi
    simp only [Finset.univ_unique, sum_singleton, mul_one, PUnit.default_eq_unit]
    exact mul_self_pos.2 this) (by obtain ⟨i, hi⟩ := hc; exact ⟨(i, ()), hi⟩)
  simpa [Fintype.sum_prod_type] using h

end CM.GaussPos
