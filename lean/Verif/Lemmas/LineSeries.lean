import Mathlib.Analysis.Fourier.AddCircle
import Mathlib.LinearAlgebra.Finsupp.LinearCombination
/-!
# Fourier series divided by wavenumbers

Purely mathematical lemmas, no code is modelled here.
-/
namespace CM.Series
open AddCircle MeasureTheory

variable {T : ℝ} [hT : Fact (0 < T)]

lemma coeff_sq_le (g : C(AddCircle T, ℂ)) (s : Finset ℤ) : ∑ n ∈ s, ‖fourierCoeff g n‖ ^ 2 ≤ ‖g‖ ^ 2 := by
  have h := hasSum_sq_fourierCoeff (ContinuousMap.toLp (E := ℂ) 2 haarAddCircle ℂ g)
  simp only [fourierCoeff_toLp] at h
  refine (sum_le_hasSum s (fun _ _ => by positivity) h).trans ?_
  have e : ∫ t : AddCircle T, ‖(ContinuousMap.toLp (E := ℂ) 2 haarAddCircle ℂ g) t‖ ^ 2 ∂haarAddCircle = ∫ t : AddCircle T, ‖g t‖ ^ 2 ∂haarAddCircle := by
    refine integral_congr_ae ?_
    filter_upwards [ContinuousMap.coeFn_toLp (E := ℂ) (p := 2) haarAddCircle (𝕜 := ℂ) g] with t ht
    rw [ht]
  rw [e]
  have h2 := norm_integral_le_of_norm_le_const (μ := (haarAddCircle : Measure (AddCircle T))) (f := fun t => ‖g t‖ ^ 2) (C := ‖g‖ ^ 2)
    (Filter.Eventually.of_forall fun t => by
      rw [Real.norm_eq_abs, abs_of_nonneg (by positivity)]
      exact pow_le_pow_left₀ (norm_nonneg _) (g.norm_coe_le_norm t) 2)
  rw [measureReal_def, measure_univ] at h2
  simp only [ENNReal.toReal_one, mul_one] at h2
  exact (le_abs_self _).trans h2

lemma coeff_cont_add (f g : C(AddCircle T, ℂ)) (n : ℤ) : fourierCoeff (f - g : C(AddCircle T, ℂ)) n = fourierCoeff f n - fourierCoeff g n := by
  have hf : Integrable (f : AddCircle T → ℂ) haarAddCircle := f.continuous.integrable_of_hasCompactSupport (HasCompactSupport.of_compactSpace _)
  have hg : Integrable (g : AddCircle T → ℂ) haarAddCircle := g.continuous.integrable_of_hasCompactSupport (HasCompactSupport.of_compactSpace _)
  unfold fourierCoeff
  rw [← integral_sub (hf.fourier_smul _) (hg.fourier_smul _)]
  refine integral_congr_ae (Filter.Eventually.of_forall fun t => ?_)
  simp only [ContinuousMap.sub_apply, smul_sub]

lemma coeff_poly (b : ℤ → ℂ) (s : Finset ℤ) (n : ℤ) : fourierCoeff (∑ i ∈ s, b i • fourier (T := T) i : C(AddCircle T, ℂ)) n = if n ∈ s then b n else 0 := by
  have e : ((∑ i ∈ s, b i • fourier (T := T) i : C(AddCircle T, ℂ)) : AddCircle T → ℂ) = ∑ i ∈ s, b i • (fourier (T := T) i : AddCircle T → ℂ) := by
    funext x
    simp
  rw [e, fourierCoeff.sum, Finset.sum_apply]
  · simp only [fourierCoeff.const_smul, fourierCoeff_fourier, smul_eq_mul, Pi.single_apply, mul_ite, mul_one, mul_zero]
    rw [Finset.sum_ite_eq]
  · intro i _
    exact ((b i • fourier (T := T) i).continuous).integrable_of_hasCompactSupport (HasCompactSupport.of_compactSpace _)

/-- A continuous function whose Fourier coefficients are those of `P` divided by `K`, against the same for a trigonometric polynomial near `P`. -/
lemma series_near {K : ℤ → ℝ} (hK : ∀ n, K n ≠ 0) {B : ℝ} (hB : ∀ s : Finset ℤ, ∑ n ∈ s, ((K n)⁻¹) ^ 2 ≤ B) {U P : C(AddCircle T, ℂ)}
    (h : ∀ n, (K n : ℂ) * fourierCoeff U n = fourierCoeff P n) (b : ℤ → ℂ) (s : Finset ℤ) (x : AddCircle T) :
    ‖U x - ∑ n ∈ s, b n / K n * fourier n x‖ ≤ √B * ‖P - ∑ i ∈ s, b i • fourier (T := T) i‖ := by
  set g := P - ∑ i ∈ s, b i • fourier (T := T) i with hg
  set W := U - ∑ i ∈ s, (b i / K i) • fourier (T := T) i with hW
  have hWx : U x - ∑ n ∈ s, b n / K n * fourier n x = W x := by
    simp [hW]
  have hc : ∀ n, fourierCoeff W n = ((K n)⁻¹ : ℝ) * fourierCoeff g n := by
    intro n
    have hKn : (K n : ℂ) ≠ 0 := by exact_mod_cast hK n
    rw [hW, hg, coeff_cont_add, coeff_cont_add, coeff_poly, coeff_poly, ← h]
    push_cast
    split_ifs
    · field_simp
    · rw [sub_zero, sub_zero]
      field_simp
  have hfin : ∀ t : Finset ℤ, ∑ n ∈ t, ‖fourierCoeff W n‖ ≤ √B * ‖g‖ := by
    intro t
    calc ∑ n ∈ t, ‖fourierCoeff W n‖ = ∑ n ∈ t, |(K n)⁻¹| * ‖fourierCoeff g n‖ := by
          refine Finset.sum_congr rfl fun n _ => ?_
          rw [hc, norm_mul, Complex.norm_real, Real.norm_eq_abs]
      _ ≤ √(∑ n ∈ t, |(K n)⁻¹| ^ 2) * √(∑ n ∈ t, ‖fourierCoeff g n‖ ^ 2) := Real.sum_mul_le_sqrt_mul_sqrt _ _ _
      _ ≤ √B * ‖g‖ := by
          refine mul_le_mul (Real.sqrt_le_sqrt ?_) ?_ (Real.sqrt_nonneg _) (Real.sqrt_nonneg _)
          · simp only [sq_abs]
            exact hB t
          · rw [← Real.sqrt_sq (norm_nonneg g)]
            exact Real.sqrt_le_sqrt (coeff_sq_le g t)
  have hs : Summable fun n => ‖fourierCoeff W n‖ := summable_of_sum_le (fun _ => norm_nonneg _) hfin
  have hsum := has_pointwise_sum_fourier_series_of_summable (Summable.of_norm hs) x
  rw [hWx]
  refine (hsum.norm_le_of_bounded hs.hasSum fun n => ?_).trans (hs.tsum_le_of_sum_le hfin)
  rw [norm_smul, fourier_apply, Circle.norm_coe, mul_one]

/-- Trigonometric polynomials come near every continuous function. -/
lemma exists_poly (P : C(AddCircle T, ℂ)) {ε : ℝ} (hε : 0 < ε) : ∃ (b : ℤ → ℂ) (s : Finset ℤ), ‖P - ∑ i ∈ s, b i • fourier (T := T) i‖ < ε := by
  have h : P ∈ (Submodule.span ℂ (Set.range (@fourier T))).topologicalClosure := by
    rw [span_fourier_closure_eq_top]
    exact Submodule.mem_top
  obtain ⟨Q, hQ, hd⟩ := Metric.mem_closure_iff.1 h ε hε
  obtain ⟨c, hc⟩ := Finsupp.mem_span_range_iff_exists_finsupp.1 (show Q ∈ Submodule.span ℂ (Set.range (@fourier T)) from hQ)
  refine ⟨c, c.support, ?_⟩
  rw [dist_eq_norm] at hd
  have e : ∑ i ∈ c.support, c i • fourier (T := T) i = Q := hc
  rw [e]
  exact hd

end CM.Series
