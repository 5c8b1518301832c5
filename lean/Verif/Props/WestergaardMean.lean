import Verif.Props.Westergaard
import Mathlib.MeasureTheory.Integral.IntervalIntegral.FundThmCalculus
import Mathlib.MeasureTheory.Measure.Prod
import Mathlib.MeasureTheory.Function.SpecialFunctions.Basic
/-!
# Westergaard solution: mean displacement (C133)
-/
namespace CM.Ref.Westergaard

open Real MeasureTheory Set

/-- Integral of a nonnegative derivative. -/
theorem lint_ftc {g g' : ℝ → ℝ} {a b : ℝ} (hab : a ≤ b) (hc : ContinuousOn g (Icc a b)) (hd : ∀ x ∈ Ioo a b, HasDerivAt g (g' x) x)
    (h0 : ∀ x ∈ Ioo a b, 0 ≤ g' x) : ∫⁻ x in Ioo a b, ENNReal.ofReal (g' x) = ENNReal.ofReal (g b - g a) := by
  have hi : IntegrableOn g' (Ioc a b) := intervalIntegral.integrableOn_deriv_of_nonneg hc hd h0
  have he := intervalIntegral.integral_eq_sub_of_hasDerivAt_of_le hab hc hd ((intervalIntegrable_iff_integrableOn_Ioc_of_le hab).mpr hi)
  rw [← he, intervalIntegral.integral_of_le hab, integral_Ioc_eq_integral_Ioo, ofReal_integral_eq_lintegral_ofReal (hi.mono_set Ioo_subset_Ioc_self)]
  filter_upwards [ae_restrict_mem measurableSet_Ioo] with x hx
  exact h0 x hx

/-- Exchange of the integrations over a triangle. -/
theorem tri_swap {a c : ℝ} {k : ℝ → ℝ → ENNReal} (hk : Measurable fun p : ℝ × ℝ => k p.1 p.2) :
    ∫⁻ x in Ioo a c, ∫⁻ b in Ioo a x, k x b = ∫⁻ b in Ioo a c, ∫⁻ x in Ioo b c, k x b := by
  have hm : Measurable (Function.uncurry fun x b : ℝ => (Ioi b).indicator (fun x => k x b) x) := by
    have : (Function.uncurry fun x b : ℝ => (Ioi b).indicator (fun x => k x b) x) = {p : ℝ × ℝ | p.2 < p.1}.indicator fun p => k p.1 p.2 := by
      funext p
      simp only [Function.uncurry, indicator, mem_Ioi, mem_ofPred_eq]
    rw [this]
    exact hk.indicator (measurableSet_lt measurable_snd measurable_fst)
  have h1 : ∫⁻ x in Ioo a c, ∫⁻ b in Ioo a x, k x b = ∫⁻ x in Ioo a c, ∫⁻ b in Ioo a c, (Ioi b).indicator (fun x => k x b) x := by
    refine setLIntegral_congr_fun measurableSet_Ioo fun x hx => ?_
    have e : (fun b => (Ioi b).indicator (fun x => k x b) x) = (Iio x).indicator fun b => k x b := by
      funext b; simp only [indicator, mem_Ioi, mem_Iio]
    rw [e, setLIntegral_indicator measurableSet_Iio]
    congr 2
    ext b
    simp only [mem_inter_iff, mem_Iio, mem_Ioo]
    exact ⟨fun h => ⟨h.2, h.1, h.2.trans hx.2⟩, fun h => ⟨h.2.1, h.1⟩⟩
  have h2 : ∫⁻ b in Ioo a c, ∫⁻ x in Ioo b c, k x b = ∫⁻ b in Ioo a c, ∫⁻ x in Ioo a c, (Ioi b).indicator (fun x => k x b) x := by
    refine setLIntegral_congr_fun measurableSet_Ioo fun b hb => ?_
    rw [setLIntegral_indicator measurableSet_Ioi]
    congr 2
    ext x
    simp only [mem_inter_iff, mem_Ioi, mem_Ioo]
    exact ⟨fun h => ⟨h.1, hb.1.trans h.1, h.2⟩, fun h => ⟨h.1, h.2.2⟩⟩
  rw [h1, h2]
  exact lintegral_lintegral_swap hm.aemeasurable

/-! ## The two kernels -/

/-- Hyperbolic angle outside the contact. -/
noncomputable def ang (x b : ℝ) : ℝ := log ((sin (π * x) + √(sin (π * x) ^ 2 - sin (π * b) ^ 2)) / sin (π * b))

/-- Gap outside the contact. -/
noncomputable def opn (x b : ℝ) : ℝ := sin (π * x) * √(sin (π * x) ^ 2 - sin (π * b) ^ 2) - sin (π * b) ^ 2 * ang x b

theorem sin_deriv (x : ℝ) : HasDerivAt (fun x : ℝ => sin (π * x)) (cos (π * x) * π) x := by
  have hpi : HasDerivAt (fun x : ℝ => π * x) π x := by simpa using (hasDerivAt_id x).const_mul π
  exact hpi.sin

theorem cos_deriv (x : ℝ) : HasDerivAt (fun x : ℝ => cos (π * x)) (-sin (π * x) * π) x := by
  have hpi : HasDerivAt (fun x : ℝ => π * x) π x := by simpa using (hasDerivAt_id x).const_mul π
  exact hpi.cos

theorem cos_pos' {a : ℝ} (h0 : 0 < a) (h1 : a < 1 / 2) : 0 < cos (π * a) := cos_pos_of_mem_Ioo ⟨by nlinarith [pi_pos], by nlinarith [pi_pos]⟩

theorem ang_deriv {x b : ℝ} (hb : 0 < b) (hbx : b < x) (hx : x ≤ 1 / 2) :
    HasDerivAt (fun b => ang x b) (-(cos (π * b) * π * sin (π * x) / (sin (π * b) * √(sin (π * x) ^ 2 - sin (π * b) ^ 2)))) b := by
  have hB := sin_a_pos hb (show b < 1 by linarith)
  have hlt := sin_lt hb hbx hx
  have hq : 0 < sin (π * x) ^ 2 - sin (π * b) ^ 2 := by nlinarith
  have hr := sqrt_pos.mpr hq
  have hs2 : √(sin (π * x) ^ 2 - sin (π * b) ^ 2) ^ 2 = sin (π * x) ^ 2 - sin (π * b) ^ 2 := sq_sqrt hq.le
  have hd := (sin_deriv b)
  have h1 := (((hd.fun_pow 2).const_sub (sin (π * x) ^ 2)).sqrt hq.ne').const_add (sin (π * x))
  have hX : 0 < sin (π * x) := hB.trans hlt
  have h2 := (h1.div hd hB.ne').log (div_pos (add_pos hX hr) hB).ne'
  refine HasDerivAt.congr_deriv h2 ?_
  norm_num
  generalize √(sin (π * x) ^ 2 - sin (π * b) ^ 2) = r at *
  have : 0 < sin (π * x) + r := by linarith
  field_simp
  have hs3 : sin (π * b) ^ 2 = sin (π * x) ^ 2 - r ^ 2 := by linarith
  rw [hs3]; ring

theorem ang_self (b : ℝ) (hb : 0 < b) (h1 : b < 1) : ang b b = 0 := by
  unfold ang; rw [sub_self, sqrt_zero, add_zero, div_self (sin_a_pos hb h1).ne', log_one]

theorem ang_cont {a x : ℝ} (ha : 0 < a) (hx : x < 1) : ContinuousOn (fun b => ang x b) (Icc a x) := by
  intro b hb
  have hB := sin_a_pos (lt_of_lt_of_le ha hb.1) (lt_of_le_of_lt hb.2 hx)
  have hX := sin_a_pos (lt_of_lt_of_le ha (hb.1.trans hb.2)) hx
  unfold ang
  refine ContinuousAt.continuousWithinAt (ContinuousAt.log (by fun_prop (disch := positivity)) ?_)
  positivity

theorem opn_deriv {x b : ℝ} (hb : 0 < b) (hbx : b < x) (hx : x ≤ 1 / 2) :
    HasDerivAt (fun b => opn x b) (-(2 * sin (π * b) * (cos (π * b) * π) * ang x b)) b := by
  have hB := sin_a_pos hb (show b < 1 by linarith)
  have hlt := sin_lt hb hbx hx
  have hq : 0 < sin (π * x) ^ 2 - sin (π * b) ^ 2 := by nlinarith
  have hr := sqrt_pos.mpr hq
  have hd := (sin_deriv b)
  have h1 := (((hd.fun_pow 2).const_sub (sin (π * x) ^ 2)).sqrt hq.ne').const_mul (sin (π * x))
  have h2 := h1.sub ((hd.fun_pow 2).mul (ang_deriv hb hbx hx))
  refine HasDerivAt.congr_deriv h2 ?_
  norm_num
  field_simp
  ring

theorem ang_nonneg {x b : ℝ} (hb : 0 < b) (hbx : b < x) (hx : x ≤ 1 / 2) : 0 ≤ ang x b := by
  obtain ⟨t, ht, -, -, hl⟩ := hyper (sin_a_pos hb (show b < 1 by linarith)) (sin_lt hb hbx hx)
  unfold ang; rw [hl]; exact ht.le

theorem meas_ang : Measurable fun p : ℝ × ℝ => ang p.1 p.2 := by
  unfold ang
  refine Measurable.log ?_
  refine Measurable.div (Measurable.add ?_ (Measurable.sqrt ?_)) ?_ <;> fun_prop

/-- The integral of the angle outside the contact. -/
theorem int_ang {a : ℝ} (h0 : 0 < a) (h1 : a < 1 / 2) : ∫⁻ x in Ioo a (1 / 2), ENNReal.ofReal (ang x a) = ENNReal.ofReal (-(1 / 2) * log (sin (π * a))) := by
  set k : ℝ → ℝ → ℝ := fun x b => cos (π * b) * π * sin (π * x) / (sin (π * b) * √(sin (π * x) ^ 2 - sin (π * b) ^ 2)) with hk
  have hmeas : Measurable fun p : ℝ × ℝ => ENNReal.ofReal (k p.1 p.2) := by
    refine Measurable.ennreal_ofReal ?_
    rw [hk]
    refine Measurable.div (by fun_prop) (Measurable.mul (by fun_prop) (Measurable.sqrt (by fun_prop)))
  have hk0 : ∀ x b, 0 < b → b < x → x ≤ 1 / 2 → 0 ≤ k x b := by
    intro x b hb hbx hx
    have hB := sin_a_pos hb (show b < 1 by linarith)
    have hX := sin_a_pos (show 0 < x by linarith) (show x < 1 by linarith)
    have hc := cos_pos' hb (show b < 1 / 2 by linarith)
    rw [hk]; positivity
  have e1 : ∫⁻ x in Ioo a (1 / 2), ENNReal.ofReal (ang x a) = ∫⁻ x in Ioo a (1 / 2), ∫⁻ b in Ioo a x, ENNReal.ofReal (k x b) := by
    refine setLIntegral_congr_fun measurableSet_Ioo fun x hx => ?_
    have h := lint_ftc (g := fun b => -ang x b) (g' := k x) hx.1.le ((ang_cont h0 (by linarith [hx.2])).neg) (fun b hb => by
      exact HasDerivAt.congr_deriv ((ang_deriv (lt_trans h0 hb.1) hb.2 hx.2.le).fun_neg) (neg_neg _)) (fun b hb => hk0 x b (lt_trans h0 hb.1) hb.2 hx.2.le)
    rw [h, ang_self x (by linarith [hx.1]) (by linarith [hx.2])]
    congr 1; ring
  rw [e1, tri_swap hmeas]
  have e2 : ∫⁻ b in Ioo a (1 / 2), ∫⁻ x in Ioo b (1 / 2), ENNReal.ofReal (k x b) = ∫⁻ b in Ioo a (1 / 2), ENNReal.ofReal (1 / 2 * (cos (π * b) * π / sin (π * b))) := by
    refine setLIntegral_congr_fun measurableSet_Ioo fun b hb => ?_
    have hb0 : 0 < b := lt_trans h0 hb.1
    have hB := sin_a_pos hb0 (show b < 1 by linarith [hb.2])
    have hc := cos_pos' hb0 hb.2
    have h := lint_ftc (g := fun x => -(cos (π * b) / sin (π * b) * arcsin (cos (π * x) / cos (π * b)))) (g' := fun x => k x b) hb.2.le
      (by
        refine Continuous.continuousOn ?_
        exact (continuous_const.mul (continuous_arcsin.comp (by fun_prop))).neg) (fun x hx => by
        have hlt := sin_lt hb0 hx.1 hx.2.le
        have hx0 := cos_pos' (lt_trans hb0 hx.1) hx.2
        have hX := sin_a_pos (lt_trans hb0 hx.1) (show x < 1 by linarith [hx.2])
        have hcl : cos (π * x) < cos (π * b) := cos_lt_cos_of_nonneg_of_le_pi (by positivity) (by nlinarith [pi_pos, hx.2]) (by nlinarith [pi_pos, hx.1])
        have hr1 : cos (π * x) / cos (π * b) < 1 := by rw [div_lt_one hc]; exact hcl
        have hr0 : 0 < cos (π * x) / cos (π * b) := by positivity
        have hda := (hasDerivAt_arcsin (x := cos (π * x) / cos (π * b)) (by linarith) hr1.ne).comp x ((cos_deriv x).div_const (cos (π * b)))
        have hq : √(sin (π * x) ^ 2 - sin (π * b) ^ 2) = cos (π * b) * √(1 - (cos (π * x) / cos (π * b)) ^ 2) := by
          rw [show sin (π * x) ^ 2 - sin (π * b) ^ 2 = cos (π * b) ^ 2 * (1 - (cos (π * x) / cos (π * b)) ^ 2) by
            rw [sin_sq, sin_sq]; field_simp; ring, sqrt_mul (by positivity), sqrt_sq hc.le]
        have hq0 : 0 < √(1 - (cos (π * x) / cos (π * b)) ^ 2) := sqrt_pos.mpr (by nlinarith)
        refine HasDerivAt.congr_deriv ((hda.const_mul (cos (π * b) / sin (π * b))).fun_neg) ?_
        simp only [hk]
        rw [hq]
        field_simp) (fun x hx => hk0 x b hb0 hx.1 hx.2.le)
    rw [h]
    congr 1
    rw [show π * (1 / 2) = π / 2 by ring, cos_pi_div_two, zero_div, arcsin_zero, div_self hc.ne', arcsin_one]
    field_simp; ring
  rw [e2]
  have h := lint_ftc (g := fun b => 1 / 2 * log (sin (π * b))) (g' := fun b => 1 / 2 * (cos (π * b) * π / sin (π * b))) h1.le
    (by
      intro b hb
      have hB := sin_a_pos (lt_of_lt_of_le h0 hb.1) (show b < 1 by linarith [hb.2])
      exact ContinuousAt.continuousWithinAt (continuousAt_const.mul (ContinuousAt.log (by fun_prop) hB.ne'))) (fun b hb => by
      have hB := sin_a_pos (lt_trans h0 hb.1) (show b < 1 by linarith [hb.2])
      exact ((sin_deriv b).log hB.ne').const_mul _) (fun b hb => by
      have hB := sin_a_pos (lt_trans h0 hb.1) (show b < 1 by linarith [hb.2])
      have hc := cos_pos' (lt_trans h0 hb.1) hb.2
      positivity)
  rw [h]
  congr 1
  rw [show π * (1 / 2) = π / 2 by ring, sin_pi_div_two, log_one]; ring

/-- The integral of the gap over half a period. -/
theorem int_opn {a : ℝ} (h0 : 0 < a) (h1 : a < 1 / 2) : ∫⁻ x in Ioo a (1 / 2), ENNReal.ofReal (opn x a) =
    ENNReal.ofReal (1 / 4 * cos (π * a) ^ 2 + 1 / 2 * sin (π * a) ^ 2 * log (sin (π * a))) := by
  set k : ℝ → ℝ → ℝ := fun x b => 2 * sin (π * b) * (cos (π * b) * π) * ang x b with hk
  have hmeas : Measurable fun p : ℝ × ℝ => ENNReal.ofReal (k p.1 p.2) := by
    refine Measurable.ennreal_ofReal ?_
    rw [hk]
    exact Measurable.mul (by fun_prop) meas_ang
  have hcoef : ∀ b, 0 < b → b < 1 / 2 → 0 < 2 * sin (π * b) * (cos (π * b) * π) := by
    intro b hb hb'
    have hB := sin_a_pos hb (show b < 1 by linarith)
    have hc := cos_pos' hb hb'
    positivity
  have e1 : ∫⁻ x in Ioo a (1 / 2), ENNReal.ofReal (opn x a) = ∫⁻ x in Ioo a (1 / 2), ∫⁻ b in Ioo a x, ENNReal.ofReal (k x b) := by
    refine setLIntegral_congr_fun measurableSet_Ioo fun x hx => ?_
    have hx1 : x < 1 := by linarith [hx.2]
    have hcont : ContinuousOn (fun b => opn x b) (Icc a x) := by
      unfold opn
      exact ContinuousOn.sub (Continuous.continuousOn (by fun_prop)) ((Continuous.continuousOn (by fun_prop)).mul (ang_cont h0 hx1))
    have h := lint_ftc (g := fun b => -opn x b) (g' := k x) hx.1.le hcont.neg (fun b hb => by
      exact HasDerivAt.congr_deriv ((opn_deriv (lt_trans h0 hb.1) hb.2 hx.2.le).fun_neg) (neg_neg _)) (fun b hb => mul_nonneg (hcoef b (lt_trans h0 hb.1) (hb.2.trans hx.2)).le (ang_nonneg (lt_trans h0 hb.1) hb.2 hx.2.le))
    rw [h]
    have : opn x x = 0 := by unfold opn; rw [sub_self, sqrt_zero, ang_self x (by linarith [hx.1]) hx1]; ring
    rw [this]; congr 1; ring
  rw [e1, tri_swap hmeas]
  have e2 : ∫⁻ b in Ioo a (1 / 2), ∫⁻ x in Ioo b (1 / 2), ENNReal.ofReal (k x b) = ∫⁻ b in Ioo a (1 / 2), ENNReal.ofReal (-(sin (π * b) * (cos (π * b) * π) * log (sin (π * b)))) := by
    refine setLIntegral_congr_fun measurableSet_Ioo fun b hb => ?_
    have hb0 : 0 < b := lt_trans h0 hb.1
    have hco := hcoef b hb0 hb.2
    have : ∀ x, ENNReal.ofReal (k x b) = ENNReal.ofReal (2 * sin (π * b) * (cos (π * b) * π)) * ENNReal.ofReal (ang x b) := fun x =>
      ENNReal.ofReal_mul hco.le
    simp only [this]
    have hmb : Measurable fun x => ENNReal.ofReal (ang x b) :=
      (Measurable.comp (g := fun p : ℝ × ℝ => ang p.1 p.2) (f := fun x => (x, b)) meas_ang (by fun_prop)).ennreal_ofReal
    rw [lintegral_const_mul _ hmb, int_ang hb0 hb.2, ← ENNReal.ofReal_mul hco.le]
    congr 1; ring
  rw [e2]
  have h := lint_ftc (g := fun b => 1 / 4 * sin (π * b) ^ 2 - 1 / 2 * sin (π * b) ^ 2 * log (sin (π * b)))
    (g' := fun b => -(sin (π * b) * (cos (π * b) * π) * log (sin (π * b)))) h1.le
    (by
      intro b hb
      have hB := sin_a_pos (lt_of_lt_of_le h0 hb.1) (show b < 1 by linarith [hb.2])
      refine ContinuousAt.continuousWithinAt (ContinuousAt.sub (by fun_prop) (ContinuousAt.mul (by fun_prop) (ContinuousAt.log (by fun_prop) hB.ne')))) (fun b hb => by
      have hB := sin_a_pos (lt_trans h0 hb.1) (show b < 1 by linarith [hb.2])
      have hd := sin_deriv b
      refine HasDerivAt.congr_deriv (((hd.fun_pow 2).const_mul (1 / 4)).sub (((hd.fun_pow 2).const_mul (1 / 2)).mul (hd.log hB.ne'))) ?_
      norm_num
      field_simp; ring) (fun b hb => by
      have hB := sin_a_pos (lt_trans h0 hb.1) (show b < 1 by linarith [hb.2])
      have hc := cos_pos' (lt_trans h0 hb.1) hb.2
      have hl : log (sin (π * b)) ≤ 0 := log_nonpos hB.le (sin_le_one _)
      have : 0 < sin (π * b) * (cos (π * b) * π) := by positivity
      nlinarith)
  rw [h]
  congr 1
  rw [show π * (1 / 2) = π / 2 by ring, sin_pi_div_two, log_one, cos_sq']; ring

/-- **C133** `mean_displacement` is the mean of `displacements` over one period, for every contact radius. -/
theorem C133_mean {a : ℝ} (h0 : 0 < a) (h1 : a < 1 / 2) :
    meanDisplacement a = some (∫ x in (-(1 / 2))..(1 / 2), displacements x a) := by
  rw [meanDisplacement_eq h0 (by linarith)]
  congr 1
  have hA := sin_a_pos h0 (show a < 1 by linarith)
  -- the gap on one half of the period
  have hgap : ∀ x, 0 ≤ x → x ≤ 1 / 2 → gap x a = (Ioi a).indicator (fun x => opn x a) x := by
    intro x hx hx'
    rw [gap_eq, fold_small (by linarith) hx', abs_of_nonneg hx]
    unfold chi2 chi1 indicator opn ang
    by_cases h : a < x
    · rw [if_pos ⟨h, by linarith⟩, if_pos ⟨h, by linarith⟩, if_pos (mem_Ioi.mpr h)]; ring
    · rw [if_neg (fun hc => h hc.1), if_neg (fun hc => h hc.1), if_neg (show ¬ x ∈ Ioi a from h)]; ring
  have hcont : ContinuousOn (fun x => opn x a) (Icc a (1 / 2)) := by
    intro x hx
    have hX := sin_a_pos (lt_of_lt_of_le h0 hx.1) (show x < 1 by linarith [hx.2])
    unfold opn ang
    refine ContinuousAt.continuousWithinAt (ContinuousAt.sub (by fun_prop) (ContinuousAt.mul (by fun_prop) (ContinuousAt.log (by fun_prop (disch := positivity)) ?_)))
    positivity
  have hion : IntegrableOn (fun x => opn x a) (Ioc a (1 / 2)) := (hcont.integrableOn_Icc).mono_set Ioc_subset_Icc_self
  have hset : Ioc 0 (1 / 2) ∩ Ioi a = Ioc a (1 / 2) := by
    ext x; simp only [mem_inter_iff, mem_Ioc, mem_Ioi]
    exact ⟨fun h => ⟨h.2, h.1.2⟩, fun h => ⟨⟨h0.trans h.1, h.2⟩, h.1⟩⟩
  have hint : IntervalIntegrable (fun x => gap x a) volume 0 (1 / 2) := by
    rw [intervalIntegrable_iff_integrableOn_Ioc_of_le (by norm_num)]
    have : IntegrableOn ((Ioi a).indicator fun x => opn x a) (Ioc 0 (1 / 2)) := by
      rw [IntegrableOn, integrable_indicator_iff measurableSet_Ioi, IntegrableOn, Measure.restrict_restrict measurableSet_Ioi, inter_comm, hset]
      exact hion
    refine this.congr_fun (fun x hx => ?_) measurableSet_Ioc
    exact (hgap x hx.1.le hx.2).symm
  have hhalf : ∫ x in (0 : ℝ)..(1 / 2), gap x a = 1 / 4 * cos (π * a) ^ 2 + 1 / 2 * sin (π * a) ^ 2 * log (sin (π * a)) := by
    rw [intervalIntegral.integral_of_le (by norm_num)]
    rw [setIntegral_congr_fun measurableSet_Ioc (fun x hx => hgap x hx.1.le hx.2), setIntegral_indicator measurableSet_Ioi, hset,
      integral_Ioc_eq_integral_Ioo]
    have hpos : 0 ≤ᵐ[volume.restrict (Ioo a (1 / 2))] fun x => opn x a := by
      filter_upwards [ae_restrict_mem measurableSet_Ioo] with x hx
      have := (C91_contact h0 h1 x).2 (fun k => by
        by_contra hc
        have h2 := (fold_le_iff h1).mpr ⟨k, not_lt.mp hc⟩
        rw [fold_small (by linarith [hx.1]) hx.2.le, abs_of_pos (by linarith [hx.1])] at h2
        linarith [hx.1])
      rw [hgap x (by linarith [hx.1]) hx.2.le, indicator_of_mem (mem_Ioi.mpr hx.1)] at this
      exact this.le
    rw [integral_eq_lintegral_of_nonneg_ae hpos ((hion.mono_set Ioo_subset_Ioc_self).aestronglyMeasurable), int_opn h0 h1]
    refine ENNReal.toReal_ofReal ?_
    have hcs : cos (π * a) ^ 2 = 1 - sin (π * a) ^ 2 := cos_sq' _
    have hl : -(log (sin (π * a) ^ 2)) ≤ 1 / sin (π * a) ^ 2 - 1 := by
      have := log_le_sub_one_of_pos (x := 1 / sin (π * a) ^ 2) (by positivity)
      rw [log_div one_ne_zero (by positivity), log_one, zero_sub] at this
      exact this
    rw [log_pow] at hl
    push_cast at hl
    have h2 : sin (π * a) ^ 2 * (2 * log (sin (π * a))) ≥ -(1 - sin (π * a) ^ 2) := by
      have h3 := mul_le_mul_of_nonneg_left hl (sq_nonneg (sin (π * a)))
      have h4 : sin (π * a) ^ 2 * (1 / sin (π * a) ^ 2 - 1) = 1 - sin (π * a) ^ 2 := by field_simp
      rw [h4] at h3; linarith
    rw [hcs]; nlinarith
  have heven : ∀ x, gap (-x) a = gap x a := fun x => (C91_symmetry x a 0 none none).2.2.2.1
  have hother : ∫ x in (-(1 / 2 : ℝ))..0, gap x a = ∫ x in (0 : ℝ)..(1 / 2), gap x a := by
    have := intervalIntegral.integral_comp_neg (a := (0 : ℝ)) (b := 1 / 2) (fun x => gap x a)
    simp only [heven, neg_zero] at this
    exact this.symm
  have hint' : IntervalIntegrable (fun x => gap x a) volume (-(1 / 2)) 0 := by
    have := (IntervalIntegrable.iff_comp_neg (by simp)).mp hint
    simp only [heven, neg_zero] at this
    exact this.symm
  have hsin : ∫ x in (-(1 / 2 : ℝ))..(1 / 2), sin (π * x) ^ 2 = 1 / 2 := by
    have h := intervalIntegral.integral_comp_mul_left (a := -(1 / 2)) (b := 1 / 2) (fun x => sin x ^ 2) pi_ne_zero
    rw [h, integral_sin_sq]
    have e1 : π * -(1 / 2) = -(π / 2) := by ring
    have e2 : π * (1 / 2) = π / 2 := by ring
    rw [e1, e2, cos_neg, cos_pi_div_two]
    simp only [mul_zero, sub_zero, zero_add, smul_eq_mul]
    field_simp; ring
  have hd : ∀ x, displacements x a = gap x a - sin (π * x) ^ 2 := fun x => by unfold gap; ring
  simp only [hd]
  rw [intervalIntegral.integral_sub (hint'.trans hint) (Continuous.intervalIntegrable (by fun_prop) _ _),
    ← intervalIntegral.integral_add_adjacent_intervals hint' hint, hother, hhalf, hsin]
  ring

example : ∃ D, meanDisplacement 0.25 = some D ∧ D = ∫ x in (-(1 / 2))..(1 / 2), displacements x 0.25 :=
  ⟨_, C133_mean (by norm_num) (by norm_num), rfl⟩

end CM.Ref.Westergaard
