import Verif.Model.FreeHalfSpace
import Mathlib.MeasureTheory.Integral.DivergenceTheorem
import Mathlib.MeasureTheory.Integral.IntervalIntegral.FundThmCalculus
import Mathlib.Analysis.SpecialFunctions.Log.NegMulLog
import Mathlib.Analysis.SpecialFunctions.Sqrt
/-!
# Love's formula is the integral of `1/r` over the pixel
-/
set_option linter.unusedSimpArgs false
namespace CM.HS
open MeasureTheory Set

/-- `√(q²+p²)`. -/
noncomputable def rad (p q : ℝ) : ℝ := Real.sqrt (q * q + p * p)

lemma rad_nonneg (p q : ℝ) : 0 ≤ rad p q := Real.sqrt_nonneg _
lemma rad_sq (p q : ℝ) : rad p q * rad p q = q * q + p * p :=
  Real.mul_self_sqrt (by nlinarith [mul_self_nonneg p, mul_self_nonneg q])
lemma rad_pos {p q : ℝ} (h : p ≠ 0 ∨ q ≠ 0) : 0 < rad p q := by
  apply Real.sqrt_pos.mpr
  rcases h with h | h
  · nlinarith [mul_self_nonneg q, mul_self_pos.mpr h]
  · nlinarith [mul_self_nonneg p, mul_self_pos.mpr h]
lemma rad_comm (p q : ℝ) : rad p q = rad q p := by unfold rad; rw [add_comm]
lemma rad_neg (p q : ℝ) : rad (-p) q = rad p q := by unfold rad; ring_nf

/-- `q + r > 0` off the axis. -/
lemma add_rad_pos {p : ℝ} (q : ℝ) (h : p ≠ 0) : 0 < q + rad p q := by
  have h1 := rad_nonneg p q
  have h2 := rad_sq p q
  have h3 := mul_self_pos.mpr h
  by_contra hc
  push Not at hc
  nlinarith

lemma add_rad_pos' {q : ℝ} (p : ℝ) (h : q ≠ 0) : 0 < p + rad p q := by
  rw [rad_comm]; exact add_rad_pos p h

lemma hasDerivAt_rad_snd {p q : ℝ} (h : p ≠ 0 ∨ q ≠ 0) :
    HasDerivAt (fun q => rad p q) (q / rad p q) q := by
  have hr := rad_pos h
  have h1 : HasDerivAt (fun q : ℝ => q * q + p * p) (q + q) q := by
    simpa using ((hasDerivAt_id q).mul (hasDerivAt_id q)).add_const (p * p)
  have h2 := h1.sqrt (by
    have := rad_sq p q
    nlinarith [mul_pos hr hr])
  have e : (q + q) / (2 * Real.sqrt (q * q + p * p)) = q / rad p q := by
    unfold rad at hr ⊢
    field_simp; ring
  rw [e] at h2
  exact h2

lemma hasDerivAt_rad_fst {p q : ℝ} (h : p ≠ 0 ∨ q ≠ 0) :
    HasDerivAt (fun p => rad p q) (p / rad p q) p := by
  have := hasDerivAt_rad_snd (p := q) (q := p) h.symm
  rw [rad_comm q p] at this
  simpa only [rad_comm] using this

/-- The primitive of `1/r`. -/
noncomputable def loveP (p q : ℝ) : ℝ := p * Real.log (q + rad p q) + q * Real.log (p + rad p q)

lemma hasDerivAt_log_fst {p q : ℝ} (h : q ≠ 0) :
    HasDerivAt (fun p => Real.log (p + rad p q)) (1 / rad p q) p := by
  have hr := rad_pos (p := p) (.inr h)
  have hp := add_rad_pos' p h
  have := ((hasDerivAt_id p).add (hasDerivAt_rad_fst (p := p) (.inr h))).log hp.ne'
  have e : (1 + p / rad p q) / (p + rad p q) = 1 / rad p q := by
    field_simp
    ring
  have this2 : HasDerivAt (fun p => Real.log (p + rad p q)) ((1 + p / rad p q) / (p + rad p q)) p := this
  rw [e] at this2
  exact this2

lemma hasDerivAt_loveP {p q : ℝ} (hp : p ≠ 0) (hq : q ≠ 0) :
    HasDerivAt (fun q => loveP p q) (Real.log (p + rad p q) + 1) q := by
  have hr := rad_pos (p := p) (.inr hq)
  have h1 := add_rad_pos q hp
  have h2 := add_rad_pos' p hq
  have d1 := ((hasDerivAt_log_fst (p := q) (q := p) hp)).const_mul p
  have d2 := ((hasDerivAt_rad_snd (p := p) (q := q) (.inl hp)).const_add p).log h2.ne'
  have d3 := (hasDerivAt_id q).mul d2
  have d4 := d1.add d3
  have e : p * (1 / rad q p) + (1 * Real.log (p + rad p q) + id q * (q / rad p q / (p + rad p q)))
      = Real.log (p + rad p q) + 1 := by
    rw [rad_comm q p]
    have hsq := rad_sq p q
    simp only [id]
    have : p * (1 / rad p q) + q * (q / rad p q / (p + rad p q)) = 1 := by
      field_simp
      nlinarith
    linarith
  rw [e] at d4
  refine d4.congr_of_eventuallyEq (Filter.Eventually.of_forall fun x => ?_)
  simp only [loveP, Pi.add_apply, Pi.mul_apply, id]
  rw [rad_comm x p]

lemma continuous_rad (p : ℝ) : Continuous (fun q => rad p q) := by unfold rad; fun_prop

lemma continuous_loveP {p : ℝ} (hp : p ≠ 0) : Continuous (fun q => loveP p q) := by
  unfold loveP
  have hc := continuous_rad p
  apply Continuous.add
  · exact continuous_const.mul ((continuous_id.add hc).log fun q => (add_rad_pos q hp).ne')
  · rcases lt_or_gt_of_ne hp with h | h
    · have e : (fun q => q * Real.log (p + rad p q))
          = fun q => 2 * (q * Real.log q) - q * Real.log (rad p q - p) := by
        funext q
        by_cases hq : q = 0
        · subst hq; simp
        · have h1 := add_rad_pos' p hq
          have h2 : 0 < rad p q - p := by linarith [rad_nonneg p q]
          have h3 : (p + rad p q) * (rad p q - p) = q ^ 2 := by nlinarith [rad_sq p q]
          have h4 := congrArg Real.log h3
          rw [Real.log_mul h1.ne' h2.ne', Real.log_pow] at h4
          push_cast at h4
          have : Real.log (p + rad p q) = 2 * Real.log q - Real.log (rad p q - p) := by linarith
          rw [this]; ring
      rw [e]
      apply Continuous.sub
      · exact continuous_const.mul Real.continuous_mul_log
      · exact continuous_id.mul ((hc.sub continuous_const).log fun q => by
          have := rad_nonneg p q
          intro hh; simp only [Pi.sub_apply, Pi.add_apply] at hh; linarith)
    · exact continuous_id.mul ((continuous_const.add hc).log fun q => by
        have := rad_nonneg p q
        intro hh; simp only [Pi.sub_apply, Pi.add_apply] at hh; linarith)

/-- Inner integral. -/
lemma integral_inv_rad {q : ℝ} (hq : q ≠ 0) (x X : ℝ) :
    ∫ p in x..X, 1 / rad p q = Real.log (X + rad X q) - Real.log (x + rad x q) := by
  apply intervalIntegral.integral_eq_sub_of_hasDerivAt
  · intro p _; exact hasDerivAt_log_fst hq
  · apply Continuous.intervalIntegrable
    apply Continuous.div continuous_const
    · have := continuous_rad q
      simpa only [rad_comm] using this
    · intro p; exact (rad_pos (.inr hq)).ne'

lemma integral_inv_rad_nonneg (q : ℝ) {x X : ℝ} (h : x ≤ X) : 0 ≤ ∫ p in x..X, 1 / rad p q :=
  intervalIntegral.integral_nonneg h fun p _ => by have := rad_nonneg p q; positivity

/-- The double integral of `1/r` over a rectangle none of whose sides lies on an axis. -/
lemma integral_love {x X y Y : ℝ} (hx : x ≠ 0) (hX : X ≠ 0) (hxX : x ≤ X) (hyY : y ≤ Y) :
    ∫ q in y..Y, ∫ p in x..X, 1 / rad p q
      = loveP X Y - loveP X y - loveP x Y + loveP x y := by
  have hcont : Continuous fun q => loveP X q - loveP x q := (continuous_loveP hX).sub (continuous_loveP hx)
  have hder : ∀ q, q ≠ 0 → HasDerivAt (fun q => loveP X q - loveP x q) (∫ p in x..X, 1 / rad p q) q := by
    intro q hq
    have := (hasDerivAt_loveP hX hq).sub (hasDerivAt_loveP hx hq)
    rw [integral_inv_rad hq]
    have e : Real.log (X + rad X q) + 1 - (Real.log (x + rad x q) + 1)
      = Real.log (X + rad X q) - Real.log (x + rad x q) := by ring
    rw [e] at this
    exact this
  have hint : ∀ a b, 0 ≤ a ∧ 0 ≤ b ∨ a ≤ 0 ∧ b ≤ 0 →
      IntervalIntegrable (fun q => ∫ p in x..X, 1 / rad p q) volume a b := by
    intro a b hab
    apply intervalIntegral.intervalIntegrable_deriv_of_nonneg hcont.continuousOn
    · intro q hq
      apply hder
      rintro rfl
      rcases hab with ⟨h1, h2⟩ | ⟨h1, h2⟩
      · have := hq.1
        simp at this
        rcases this with h | h <;> linarith
      · have := hq.2
        simp at this
        rcases this with h | h <;> linarith
    · intro q _; exact integral_inv_rad_nonneg q hxX
  have hi : IntervalIntegrable (fun q => ∫ p in x..X, 1 / rad p q) volume y Y := by
    by_cases h1 : 0 ≤ y
    · exact hint y Y (.inl ⟨h1, h1.trans hyY⟩)
    · by_cases h2 : Y ≤ 0
      · exact hint y Y (.inr ⟨by linarith, h2⟩)
      · push Not at h1 h2
        exact (hint y 0 (.inr ⟨h1.le, le_refl _⟩)).trans (hint 0 Y (.inl ⟨le_refl _, h2.le⟩))
  have := integral_eq_of_hasDerivAt_off_countable_of_le (fun q => loveP X q - loveP x q)
    (fun q => ∫ p in x..X, 1 / rad p q) hyY (s := {0}) (countable_singleton 0) hcont.continuousOn
    (fun q hq => hder q (by simpa using hq.2)) hi
  rw [this]; ring

lemma loveKernel_eq {E a b x y : ℝ} (h1 : x + a ≠ 0) (h2 : x - a ≠ 0) (h3 : y + b ≠ 0) (h4 : y - b ≠ 0) :
    loveKernel E a b x y = 1 / (Real.pi * E) *
      (loveP (x + a) (y + b) - loveP (x + a) (y - b) - loveP (x - a) (y + b) + loveP (x - a) (y - b)) := by
  unfold loveKernel
  congr 1
  have e : ∀ p q : ℝ, Real.sqrt (q * q + p * p) = rad p q := fun _ _ => rfl
  simp only [e]
  rw [Real.log_div (add_rad_pos _ h1).ne' (add_rad_pos _ h1).ne',
    Real.log_div (add_rad_pos' _ h3).ne' (add_rad_pos' _ h3).ne',
    Real.log_div (add_rad_pos _ h2).ne' (add_rad_pos _ h2).ne',
    Real.log_div (add_rad_pos' _ h4).ne' (add_rad_pos' _ h4).ne']
  unfold loveP
  ring

end CM.HS
