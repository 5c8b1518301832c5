import Verif.Lemmas.Smoothing
import Verif.Spec.CellContinuum
import Mathlib.MeasureTheory.Integral.DominatedConvergence
import Mathlib.Analysis.Calculus.ParametricIntervalIntegral
/-!
# Pressures and displacements of the continuous periodic substrate are near finite sums of plane waves
-/
namespace CM.Disc
open Real MeasureTheory Set Topology CM.HS CM.Spec CM.Smooth
open scoped ComplexConjugate

lemma wave_split (sx sy : ℝ) (k : ℤ × ℤ) (x y : ℝ) : cellWave sx sy k x y = e sx k.1 x * e sy k.2 y := by
  unfold cellWave e
  rw [← Complex.exp_add]
  congr 1
  ring

lemma Repeats.zsmul {sx sy : ℝ} {f : ℝ × ℝ → ℝ} (h : Repeats sx sy f) (m n : ℤ) (x y : ℝ) : f (x - m * sx, y - n * sy) = f (x, y) := by
  have h1 : Function.Periodic (fun x => f (x, y)) sx := fun x => h.x x y
  have h2 : Function.Periodic (fun y => f (x - m * sx, y)) sy := fun y => h.y _ y
  have e1 := h1.sub_zsmul_eq (x := x) m
  have e2 := h2.sub_zsmul_eq (x := y) n
  rw [zsmul_eq_mul] at e1 e2
  exact e2.trans e1

/-- A continuous field that repeats is bounded and uniformly continuous, with a quadratic modulus. -/
lemma Repeats.modulus {sx sy : ℝ} (hsx : 0 < sx) (hsy : 0 < sy) {f : ℝ × ℝ → ℝ} (h : Repeats sx sy f) (hf : Continuous f) :
    (∃ M, ∀ x, |f x| ≤ M) ∧ (∀ η > 0, ∃ δ > 0, ∀ x y : ℝ × ℝ, |x.1 - y.1| < δ → |x.2 - y.2| < δ → |f x - f y| < η) ∧
      ∀ η > 0, ∃ A, 0 ≤ A ∧ ∀ x y : ℝ × ℝ, |f x - f y| ≤ η + A * ((x.1 - y.1) ^ 2 + (x.2 - y.2) ^ 2) := by
  set K : Set (ℝ × ℝ) := Icc (-sx) (2 * sx) ×ˢ Icc (-sy) (2 * sy) with hK
  have hKc : IsCompact K := isCompact_Icc.prod isCompact_Icc
  have red : ∀ x : ℝ × ℝ, ∃ m n : ℤ, x.1 - m * sx ∈ Ico 0 sx ∧ x.2 - n * sy ∈ Ico 0 sy := by
    intro x
    refine ⟨⌊x.1 / sx⌋, ⌊x.2 / sy⌋, ?_, ?_⟩
    · have h1 := Int.floor_le (x.1 / sx)
      have h2 := Int.lt_floor_add_one (x.1 / sx)
      rw [le_div_iff₀ hsx] at h1
      rw [div_lt_iff₀ hsx] at h2
      constructor <;> linarith
    · have h1 := Int.floor_le (x.2 / sy)
      have h2 := Int.lt_floor_add_one (x.2 / sy)
      rw [le_div_iff₀ hsy] at h1
      rw [div_lt_iff₀ hsy] at h2
      constructor <;> linarith
  have hb : ∃ M, ∀ x, |f x| ≤ M := by
    obtain ⟨M, hM⟩ := hKc.exists_bound_of_continuousOn hf.continuousOn
    refine ⟨M, fun x => ?_⟩
    obtain ⟨m, n, h1, h2⟩ := red x
    have := hM (x.1 - m * sx, x.2 - n * sy) ⟨⟨by linarith [h1.1], by linarith [h1.2]⟩, ⟨by linarith [h2.1], by linarith [h2.2]⟩⟩
    rw [h.zsmul] at this
    exact this
  have hu : ∀ η > 0, ∃ δ > 0, ∀ x y : ℝ × ℝ, |x.1 - y.1| < δ → |x.2 - y.2| < δ → |f x - f y| < η := by
    intro η hη
    have hu := hKc.uniformContinuousOn_of_continuous hf.continuousOn
    rw [Metric.uniformContinuousOn_iff] at hu
    obtain ⟨δ, hδ, hcl⟩ := hu η hη
    refine ⟨min δ (min sx sy), lt_min hδ (lt_min hsx hsy), fun x y h1 h2 => ?_⟩
    obtain ⟨m, n, r1, r2⟩ := red x
    have a1 := h1.trans_le ((min_le_right _ _).trans (min_le_left _ _))
    have a2 := h2.trans_le ((min_le_right _ _).trans (min_le_right _ _))
    have b1 := h1.trans_le (min_le_left _ _)
    have b2 := h2.trans_le (min_le_left _ _)
    have c1 := abs_lt.1 a1
    have c2 := abs_lt.1 a2
    have := hcl (x.1 - m * sx, x.2 - n * sy) ⟨⟨by linarith [r1.1], by linarith [r1.2]⟩, ⟨by linarith [r2.1], by linarith [r2.2]⟩⟩
      (y.1 - m * sx, y.2 - n * sy) ⟨⟨by linarith [r1.1], by linarith [r1.2]⟩, ⟨by linarith [r2.1], by linarith [r2.2]⟩⟩ (by
        rw [Prod.dist_eq, Real.dist_eq, Real.dist_eq]
        refine max_lt ?_ ?_
        · rwa [sub_sub_sub_cancel_right]
        · rwa [sub_sub_sub_cancel_right])
    rw [h.zsmul, h.zsmul, Real.dist_eq] at this
    exact this
  refine ⟨hb, hu, fun η hη => ?_⟩
  obtain ⟨M, hM⟩ := hb
  have hM0 : 0 ≤ M := (abs_nonneg _).trans (hM 0)
  obtain ⟨δ, hδ, hcl⟩ := hu η hη
  refine ⟨2 * M / δ ^ 2, by positivity, fun x y => ?_⟩
  by_cases hx : |x.1 - y.1| < δ ∧ |x.2 - y.2| < δ
  · refine (hcl x y hx.1 hx.2).le.trans (le_add_of_nonneg_right (by positivity))
  · have hd : δ ^ 2 ≤ (x.1 - y.1) ^ 2 + (x.2 - y.2) ^ 2 := by
      rw [not_and_or, not_lt, not_lt] at hx
      rcases hx with hx | hx
      · have := pow_le_pow_left₀ hδ.le hx 2
        rw [sq_abs] at this
        nlinarith [sq_nonneg (x.2 - y.2)]
      · have := pow_le_pow_left₀ hδ.le hx 2
        rw [sq_abs] at this
        nlinarith [sq_nonneg (x.1 - y.1)]
    have h1 : |f x - f y| ≤ 2 * M := by
      have := abs_sub (f x) (f y)
      linarith [hM x, hM y]
    have h2 : 2 * M ≤ 2 * M / δ ^ 2 * ((x.1 - y.1) ^ 2 + (x.2 - y.2) ^ 2) := by
      rw [div_mul_eq_mul_div, le_div_iff₀ (by positivity)]
      exact mul_le_mul_of_nonneg_left hd (by positivity)
    linarith

/-- Smoothing along both axes changes a field little, and gives a finite sum of plane waves. -/
lemma smooth_cell {sx sy δ η A : ℝ} {t₁ t₂ : Finset ℤ} {a₁ a₂ : ℤ → ℂ} (h₁ : Smoothing sx δ t₁ a₁) (h₂ : Smoothing sy δ t₂ a₂) {f : ℝ × ℝ → ℝ}
    (hr : Repeats sx sy f) (hf : Continuous f) (hA : 0 ≤ A) (hm : ∀ x y : ℝ × ℝ, |f x - f y| ≤ η + A * ((x.1 - y.1) ^ 2 + (x.2 - y.2) ^ 2)) (x y : ℝ) :
    |∑ k ∈ t₁ ×ˢ t₂, (a₁ k.1 * a₂ k.2 * coefficient sx sy f k * cellWave sx sy k x y).re - f (x, y)| ≤ 2 * (η + A * δ) := by
  set F : ℝ → ℝ → ℂ := fun x y => (f (x, y) : ℂ) with hF
  have hFc : Continuous (Function.uncurry F) := by
    show Continuous fun p : ℝ × ℝ => ((f (p.1, p.2) : ℝ) : ℂ)
    fun_prop
  set G : ℝ → ℂ := fun x' => smoothed sy t₂ a₂ (F x') y with hG
  have hcoef : ∀ l : ℤ, Continuous fun x' => ∫ w in (0 : ℝ)..sy, F x' w * conj (e sy l w) := by
    intro l
    refine intervalIntegral.continuous_parametric_intervalIntegral_of_continuous' (f := fun x' w => F x' w * conj (e sy l w)) ?_ 0 sy
    have := e_continuous sy l
    show Continuous fun p : ℝ × ℝ => ((f (p.1, p.2) : ℝ) : ℂ) * conj (e sy l p.2)
    exact (Complex.continuous_ofReal.comp (hf.comp (by fun_prop))).mul (Complex.continuous_conj.comp (this.comp continuous_snd))
  have hGc : Continuous G := by
    rw [hG]
    unfold smoothed
    exact continuous_finsetSum _ fun l _ => continuous_const.mul (hcoef l)
  have hGp : Function.Periodic G sx := fun x' => by
    rw [hG]
    show smoothed sy t₂ a₂ (F (x' + sx)) y = smoothed sy t₂ a₂ (F x') y
    have : F (x' + sx) = F x' := by
      funext w
      simp only [hF]
      rw [hr.x]
    rw [this]
  have hGnear : ∀ x', ‖G x' - F x' y‖ ≤ η + A * δ := by
    intro x'
    refine h₂.near (F x') ?_ ?_ η A hA ?_ y
    · simp only [hF]; fun_prop
    · intro w
      simp only [hF]
      rw [hr.y]
    · intro w w'
      simp only [hF]
      rw [← Complex.ofReal_sub, Complex.norm_real, norm_eq_abs]
      have := hm (x', w) (x', w')
      simpa using this
  have hcol : Continuous fun x' => F x' y := by simp only [hF]; fun_prop
  have hcolp : Function.Periodic (fun x' => F x' y) sx := fun x' => by
    simp only [hF]
    rw [hr.x]
  have n1 := h₁.near (fun x' => F x' y) hcol hcolp η A hA (fun w w' => by
    simp only [hF]
    rw [← Complex.ofReal_sub, Complex.norm_real, norm_eq_abs]
    have := hm (w, y) (w', y)
    simpa using this) x
  have n2 := h₁.bound (fun x' => G x' - F x' y) (hGc.sub hcol) (fun x' => by
    show G (x' + sx) - (fun x' => F x' y) (x' + sx) = _
    rw [hGp, hcolp]) _ hGnear x
  have lin : smoothed sx t₁ a₁ (fun x' => G x' - F x' y) x = smoothed sx t₁ a₁ G x - smoothed sx t₁ a₁ (fun x' => F x' y) x := by
    unfold smoothed
    rw [← Finset.sum_sub_distrib]
    refine Finset.sum_congr rfl fun k _ => ?_
    rw [← mul_sub, ← intervalIntegral.integral_sub]
    · simp only [sub_mul]
    · have := e_continuous sx k
      exact (hGc.mul (Complex.continuous_conj.comp this)).intervalIntegrable _ _
    · have := e_continuous sx k
      exact (hcol.mul (Complex.continuous_conj.comp this)).intervalIntegrable _ _
  have hsum : smoothed sx t₁ a₁ G x = ∑ k ∈ t₁ ×ˢ t₂, a₁ k.1 * a₂ k.2 * coefficient sx sy f k * cellWave sx sy k x y := by
    rw [Finset.sum_product]
    unfold smoothed
    refine Finset.sum_congr rfl fun k _ => ?_
    have e1 : ∀ z, G z * conj (e sx k z) = ∑ l ∈ t₂, a₂ l * e sy l y * ∫ w in (0 : ℝ)..sy, (f (z, w) : ℂ) * conj (cellWave sx sy (k, l) z w) := by
      intro z
      simp only [hG]
      unfold smoothed
      rw [Finset.sum_mul]
      refine Finset.sum_congr rfl fun l _ => ?_
      rw [mul_assoc, ← intervalIntegral.integral_mul_const]
      congr 1
      refine intervalIntegral.integral_congr fun w _ => ?_
      simp only [hF, wave_split, map_mul]
      ring
    simp only [e1]
    rw [intervalIntegral.integral_finsetSum, Finset.mul_sum]
    · refine Finset.sum_congr rfl fun l _ => ?_
      rw [intervalIntegral.integral_const_mul]
      show _ = a₁ k * a₂ l * coefficient sx sy f (k, l) * _
      unfold coefficient
      rw [wave_split sx sy (k, l) x y]
      ring
    · intro l _
      refine Continuous.intervalIntegrable (continuous_const.mul ?_) _ _
      have : (fun z => ∫ w in (0 : ℝ)..sy, (f (z, w) : ℂ) * conj (cellWave sx sy (k, l) z w)) = fun z => (∫ w in (0 : ℝ)..sy, F z w * conj (e sy l w)) * conj (e sx k z) := by
        funext z
        rw [← intervalIntegral.integral_mul_const]
        refine intervalIntegral.integral_congr fun w _ => ?_
        simp only [hF, wave_split, map_mul]
        ring
      rw [this]
      have := e_continuous sx k
      exact (hcoef l).mul (Complex.continuous_conj.comp this)
  rw [← Complex.re_sum, ← hsum]
  have e3 : (smoothed sx t₁ a₁ G x).re - f (x, y) = (smoothed sx t₁ a₁ (fun x' => G x' - F x' y) x + (smoothed sx t₁ a₁ (fun x' => F x' y) x - F x y)).re := by
    rw [lin, sub_add_sub_cancel, Complex.sub_re]
    simp [hF]
  rw [e3]
  refine (Complex.abs_re_le_norm _).trans ((norm_add_le _ _).trans ?_)
  linarith

/-- A pressure of the continuous periodic substrate and its displacement are near a finite sum of plane waves and its displacement. -/
lemma CellResponse.approx {a : Args} {q v : ℝ × ℝ → ℝ} (h : CellResponse a q v) (hsx : 0 < size a 0) (hsy : 0 < size a 1) (hK : ∀ k, cellStiffness a k ≠ 0) {ε : ℝ} (hε : 0 < ε) :
    ∃ (t : Finset (ℤ × ℤ)) (c : ℤ × ℤ → ℂ), (∀ x y, |∑ k ∈ t, (c k * cellWave (size a 0) (size a 1) k x y).re - q (x, y)| ≤ ε) ∧
      ∀ x y, |∑ k ∈ t, (c k / cellStiffness a k * cellWave (size a 0) (size a 1) k x y).re - v (x, y)| ≤ ε := by
  obtain ⟨-, -, hm1⟩ := h.pressure_repeats.modulus hsx hsy h.pressure_continuous
  obtain ⟨-, -, hm2⟩ := h.displacement_repeats.modulus hsx hsy h.displacement_continuous
  obtain ⟨A1, hA1, m1⟩ := hm1 (ε / 4) (by positivity)
  obtain ⟨A2, hA2, m2⟩ := hm2 (ε / 4) (by positivity)
  set A := A1 + A2 with hA
  have hA0 : 0 ≤ A := add_nonneg hA1 hA2
  set δ := ε / 4 / (A + 1) with hδ
  have hδ0 : 0 < δ := by positivity
  have hAδ : A * δ ≤ ε / 4 := by
    rw [hδ, ← mul_div_assoc, div_le_iff₀ (by positivity)]
    nlinarith
  obtain ⟨t₁, a₁, s₁⟩ := exists_smoothing hsx hδ0
  obtain ⟨t₂, a₂, s₂⟩ := exists_smoothing hsy hδ0
  refine ⟨t₁ ×ˢ t₂, fun k => a₁ k.1 * a₂ k.2 * coefficient (size a 0) (size a 1) q k, fun x y => ?_, fun x y => ?_⟩
  · refine (smooth_cell (η := ε / 4) s₁ s₂ h.pressure_repeats h.pressure_continuous hA0 (fun x y => (m1 x y).trans ?_) x y).trans (by linarith)
    have := mul_nonneg hA2 (add_nonneg (sq_nonneg (x.1 - y.1)) (sq_nonneg (x.2 - y.2)))
    rw [hA]
    linarith
  · have e : ∀ k : ℤ × ℤ, a₁ k.1 * a₂ k.2 * coefficient (size a 0) (size a 1) q k / cellStiffness a k = a₁ k.1 * a₂ k.2 * coefficient (size a 0) (size a 1) v k := by
      intro k
      have h0 : (cellStiffness a k : ℂ) ≠ 0 := by exact_mod_cast hK k
      rw [← h.waves k, div_eq_iff h0]
      ring
    simp only [e]
    refine (smooth_cell (η := ε / 4) s₁ s₂ h.displacement_repeats h.displacement_continuous hA0 (fun x y => (m2 x y).trans ?_) x y).trans (by linarith)
    have := mul_nonneg hA1 (add_nonneg (sq_nonneg (x.1 - y.1)) (sq_nonneg (x.2 - y.2)))
    rw [hA]
    linarith

/-- A continuous field that repeats is near a finite sum of plane waves. -/
lemma Repeats.approx {sx sy : ℝ} (hsx : 0 < sx) (hsy : 0 < sy) {f : ℝ × ℝ → ℝ} (h : Repeats sx sy f) (hf : Continuous f) {ε : ℝ} (hε : 0 < ε) :
    ∃ (t : Finset (ℤ × ℤ)) (c : ℤ × ℤ → ℂ), ∀ x y, |∑ k ∈ t, (c k * cellWave sx sy k x y).re - f (x, y)| ≤ ε := by
  obtain ⟨-, -, hm1⟩ := h.modulus hsx hsy hf
  obtain ⟨A, hA0, m1⟩ := hm1 (ε / 4) (by positivity)
  set δ := ε / 4 / (A + 1) with hδ
  have hδ0 : 0 < δ := by positivity
  have hAδ : A * δ ≤ ε / 4 := by
    rw [hδ, ← mul_div_assoc, div_le_iff₀ (by positivity)]
    nlinarith
  obtain ⟨t₁, a₁, s₁⟩ := exists_smoothing hsx hδ0
  obtain ⟨t₂, a₂, s₂⟩ := exists_smoothing hsy hδ0
  exact ⟨t₁ ×ˢ t₂, fun k => a₁ k.1 * a₂ k.2 * coefficient sx sy f k, fun x y => (smooth_cell s₁ s₂ h hf hA0 m1 x y).trans (by linarith)⟩

end CM.Disc
