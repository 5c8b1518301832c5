import Verif.Model.Reference
import Verif.Spec.Cone
import Mathlib.Analysis.SpecialFunctions.Integrals.Basic
import Mathlib.Analysis.SpecialFunctions.Trigonometric.DerivHyp
import Mathlib.Analysis.SpecialFunctions.Trigonometric.InverseDeriv
import Mathlib.Analysis.SpecialFunctions.Log.NegMulLog
import Mathlib.Analysis.Real.Pi.Bounds
import Mathlib.Analysis.SpecialFunctions.Trigonometric.Bounds
/-!
# Cone (C94, C95, C135) and vectors of integers (C136)
-/
namespace CM.Ref.Cone

open Real

theorem tan_beta (alpha : ℝ) : tan (beta alpha) = coneSlope alpha := by
  unfold beta coneSlope; rw [tan_pi_div_two_sub, one_div]

theorem radius_eq (alpha : ℝ) : radius alpha = coneRadius alpha := by
  unfold radius coneRadius
  rw [tan_beta]; unfold coneSlope
  rw [mul_one_div, div_div_eq_mul_div, mul_div_right_comm]

theorem slope_pos {alpha : ℝ} (h0 : 0 < alpha) (h1 : alpha < π / 2) : 0 < coneSlope alpha :=
  one_div_pos.mpr (tan_pos_of_pos_of_lt_pi_div_two h0 h1)

theorem radius_pos {alpha : ℝ} (h0 : 0 < alpha) (h1 : alpha < π / 2) : 0 < coneRadius alpha := by
  have := tan_pos_of_pos_of_lt_pi_div_two h0 h1
  unfold coneRadius; positivity

theorem radius_tan {alpha : ℝ} (h0 : 0 < alpha) (h1 : alpha < π / 2) : coneRadius alpha * coneSlope alpha = 2 / π := by
  have := tan_pos_of_pos_of_lt_pi_div_two h0 h1
  unfold coneRadius coneSlope; field_simp

theorem pressureAt_eq (alpha r : ℝ) : pressureAt alpha r =
    if r ≤ coneRadius alpha then (if r = 0 then none else some (arcosh (coneRadius alpha / r))) else some 0 := by
  unfold pressureAt; simp only [radius_eq]

/-- **C94** REFUTED: the second result of `contact_radius_and_area` is `π R/D`, not the documented `A/D² = π (R/D)²`; the two agree for one cone
angle only. -/
theorem C94_area_partial {alpha : ℝ} (h0 : 0 < alpha) (h1 : alpha < π / 2) :
    (radiusAndArea alpha).1 = coneRadius alpha ∧ (radiusAndArea alpha).2 = π * coneRadius alpha ∧
    ((radiusAndArea alpha).2 = π * (radiusAndArea alpha).1 ^ 2 ↔ coneSlope alpha = 2 / π) := by
  refine ⟨radius_eq _, by rw [← radius_eq]; rfl, ?_⟩
  have hr := radius_pos h0 h1
  have ht := slope_pos h0 h1
  have hrt := radius_tan h0 h1
  unfold radiusAndArea
  simp only [radius_eq]
  constructor
  · intro h
    have : coneRadius alpha = 1 := by
      have h2 : coneRadius alpha = coneRadius alpha ^ 2 := mul_left_cancel₀ pi_pos.ne' h
      nlinarith
    rw [this, one_mul] at hrt; exact hrt
  · intro h
    have h2 : (coneRadius alpha - 1) * (2 / π) = 0 := by rw [← h]; linarith
    have h3 : coneRadius alpha = 1 := by
      rcases mul_eq_zero.mp h2 with h4 | h4
      · linarith
      · exact absurd h4 (by positivity)
    simp only [h3]; ring

/-- The formula is wrong for the cone with half angle `π/4`. -/
example : (radiusAndArea (π / 4)).2 ≠ π * (radiusAndArea (π / 4)).1 ^ 2 := by
  rw [ne_eq, (C94_area_partial (by positivity) (by linarith [pi_pos])).2.2]
  unfold coneSlope
  rw [tan_pi_div_four, div_one]
  intro h
  rw [eq_div_iff pi_pos.ne'] at h
  linarith [pi_gt_three]

/-! ## Pressure -/

/-- **C95** The pressure is zero at the contact radius and outside, positive inside, and continuous at the contact radius. -/
theorem C95_pressure {alpha : ℝ} (h0 : 0 < alpha) (h1 : alpha < π / 2) :
    (∀ r, coneRadius alpha ≤ r → pressureAt alpha r = some 0) ∧ (∀ r, 0 < r → r < coneRadius alpha → ∃ p, pressureAt alpha r = some p ∧ 0 < p) ∧
    pressureAt alpha 0 = none ∧ ContinuousAt (fun r => (pressureAt alpha r).getD 0) (coneRadius alpha) := by
  have hr := radius_pos h0 h1
  have hout : ∀ r, coneRadius alpha ≤ r → pressureAt alpha r = some 0 := by
    intro r h
    rw [pressureAt_eq]
    rcases h.eq_or_lt with e | e
    · rw [if_pos e.symm.le, if_neg (by rw [← e]; exact hr.ne'), ← e, div_self hr.ne', arcosh_zero]
    · rw [if_neg (not_le.mpr e)]
  refine ⟨hout, fun r h h' => ?_, ?_, ?_⟩
  · rw [pressureAt_eq]
    rw [if_pos h'.le, if_neg h.ne']
    exact ⟨_, rfl, arcosh_pos (by rw [lt_div_iff₀ h]; linarith)⟩
  · rw [pressureAt_eq]; rw [if_pos hr.le, if_pos rfl]
  · have hc : ContinuousAt (fun r => if r ≤ coneRadius alpha then arcosh (coneRadius alpha / r) else 0) (coneRadius alpha) := by
      have : (fun r => if r ≤ coneRadius alpha then arcosh (coneRadius alpha / r) else 0) =ᶠ[nhds (coneRadius alpha)] fun r => arcosh (max 1 (coneRadius alpha / r)) := by
        filter_upwards [lt_mem_nhds hr] with r h
        split_ifs with hle
        · rw [max_eq_right (by rw [le_div_iff₀ h]; linarith)]
        · rw [max_eq_left (by rw [div_le_iff₀ h]; linarith), arcosh_zero]
      refine ContinuousAt.congr ?_ this.symm
      have hm : ContinuousAt (fun r => max 1 (coneRadius alpha / r)) (coneRadius alpha) := by
        refine continuousAt_const.max (continuousAt_const.div continuousAt_id hr.ne')
      have hcos := continuousOn_arcosh.continuousWithinAt (x := max 1 (coneRadius alpha / coneRadius alpha)) (Set.mem_Ici.mpr (le_max_left _ _))
      exact hcos.tendsto.comp (tendsto_nhdsWithin_iff.mpr ⟨hm.tendsto, Filter.Eventually.of_forall fun r => Set.mem_Ici.mpr (le_max_left _ _)⟩)
    refine hc.congr ?_
    filter_upwards [lt_mem_nhds hr] with r h
    rw [pressureAt_eq]
    split_ifs with h2 h3
    · exact absurd h3 h.ne'
    · rfl
    · rfl


/-- The integral of the pressure over the part of the disc within distance `t` of the axis, in units of the contact radius. -/
theorem arcosh_int : ∫ t in (0 : ℝ)..1, t * arcosh (1 / t) = 1 / 2 := by
  set g : ℝ → ℝ := fun t => t ^ 2 / 2 * log ((1 + √(1 - t ^ 2)) / t) - 1 / 2 * √(1 - t ^ 2) with hg
  have hac : ∀ t, 0 < t → t ≤ 1 → arcosh (1 / t) = log ((1 + √(1 - t ^ 2)) / t) := by
    intro t h0 h1
    have hge : 1 ≤ 1 / t := by rw [le_div_iff₀ h0]; linarith
    have h2 : 1 / t + √((1 / t) ^ 2 - 1) = (1 + √(1 - t ^ 2)) / t := by
      have : √((1 / t) ^ 2 - 1) = √(1 - t ^ 2) / t := by
        rw [show (1 / t) ^ 2 - 1 = (1 - t ^ 2) / t ^ 2 by field_simp, sqrt_div' _ (sq_nonneg t), sqrt_sq h0.le]
      rw [this]; ring
    rw [← h2, ← exp_arcosh hge, log_exp]
  have hd : ∀ t ∈ Set.Ioo (0 : ℝ) 1, HasDerivAt g (t * arcosh (1 / t)) t := by
    intro t ht
    have h0 := ht.1
    have hq : 0 < 1 - t ^ 2 := by nlinarith [ht.2]
    have hr := sqrt_pos.mpr hq
    have hs2 : √(1 - t ^ 2) ^ 2 = 1 - t ^ 2 := sq_sqrt hq.le
    have hsd : HasDerivAt (fun t : ℝ => √(1 - t ^ 2)) (-(2 * t) / (2 * √(1 - t ^ 2))) t := by
      have := ((hasDerivAt_pow 2 t).const_sub 1).sqrt hq.ne'
      simpa using this
    have hl := ((hsd.const_add 1).div (hasDerivAt_id t) h0.ne').log (div_pos (by positivity) h0).ne'
    have hp : HasDerivAt (fun t : ℝ => t ^ 2 / 2) t t := by
      have := (hasDerivAt_pow 2 t).div_const 2
      refine HasDerivAt.congr_deriv this ?_
      norm_num
    refine HasDerivAt.congr_deriv ((hp.mul hl).sub (hsd.const_mul (1 / 2))) ?_
    rw [hac t h0 ht.2.le]
    norm_num
    generalize √(1 - t ^ 2) = r at *
    have h3 : 0 < 1 + r := by linarith
    have ht2 : t ^ 2 = 1 - r ^ 2 := by linarith
    field_simp
    rw [ht2]; ring
  have hc : ContinuousOn g (Set.Icc 0 1) := by
    have hlog : ∀ t, g t = t ^ 2 / 2 * log (1 + √(1 - t ^ 2)) - t / 2 * (t * log t) - 1 / 2 * √(1 - t ^ 2) := by
      intro t
      rcases eq_or_ne t 0 with h | h
      · simp only [hg, h]; norm_num
      · simp only [hg]
        rw [log_div (by positivity) h]; ring
    have : g = fun t => t ^ 2 / 2 * log (1 + √(1 - t ^ 2)) - t / 2 * (t * log t) - 1 / 2 * √(1 - t ^ 2) := funext hlog
    rw [this]
    refine Continuous.continuousOn ?_
    refine ((Continuous.mul (by fun_prop) (Continuous.log (by fun_prop) fun t => by positivity)).sub ((by fun_prop : Continuous fun t : ℝ => t / 2).mul continuous_mul_log)).sub (by fun_prop)
  have h0 : ∀ t ∈ Set.Ioo (0 : ℝ) 1, 0 ≤ t * arcosh (1 / t) := fun t ht =>
    mul_nonneg ht.1.le (arcosh_nonneg (by rw [le_div_iff₀ ht.1]; linarith [ht.2]))
  have hi := intervalIntegral.integrableOn_deriv_of_nonneg hc hd h0
  rw [intervalIntegral.integral_eq_sub_of_hasDerivAt_of_le zero_le_one hc hd ((intervalIntegrable_iff_integrableOn_Ioc_of_le zero_le_one).mpr hi)]
  simp only [hg]; norm_num

/-- **C135** `pressure` is the pressure divided by its mean over the contact: integrated over the contact circle it gives the area of the
circle. -/
theorem C135_unit_mean {alpha : ℝ} (h0 : 0 < alpha) (h1 : alpha < π / 2) :
    ∫ r in (0 : ℝ)..coneRadius alpha, 2 * π * r * (pressureAt alpha r).getD 0 = π * coneRadius alpha ^ 2 := by
  have hr := radius_pos h0 h1
  have e : ∫ r in (0 : ℝ)..coneRadius alpha, 2 * π * r * (pressureAt alpha r).getD 0 = ∫ r in (0 : ℝ)..coneRadius alpha, 2 * π * coneRadius alpha * (r / coneRadius alpha * arcosh (1 / (r / coneRadius alpha))) := by
    refine intervalIntegral.integral_congr fun r hx => ?_
    rw [Set.uIcc_of_le hr.le] at hx
    rw [pressureAt_eq]
    rw [if_pos hx.2]
    split_ifs with h
    · rw [h]; simp
    · simp only [Option.getD_some]
      rw [one_div_div]; field_simp
  rw [e, intervalIntegral.integral_const_mul, intervalIntegral.integral_comp_div (fun t => t * arcosh (1 / t)) hr.ne', zero_div, div_self hr.ne', arcosh_int]
  simp only [smul_eq_mul]; ring

/-- **C135** The load is the mean pressure times the area of the contact circle, whatever the unit `E` of stress and the penetration `D`: the
first result of `load_and_mean_pressure` is a load divided by `E` and the area, the second a pressure divided by `E`. -/
theorem C135_load {alpha E D : ℝ} (h0 : 0 < alpha) (h1 : alpha < π / 2) :
    (loadAndMeanPressure alpha).1 * (E * (π * (coneRadius alpha * D) ^ 2)) =
      D ^ 2 * ∫ r in (0 : ℝ)..coneRadius alpha, 2 * π * r * ((loadAndMeanPressure alpha).2 * E * (pressureAt alpha r).getD 0) := by
  have e : (fun r => 2 * π * r * ((loadAndMeanPressure alpha).2 * E * (pressureAt alpha r).getD 0)) =
      fun r => (loadAndMeanPressure alpha).2 * E * (2 * π * r * (pressureAt alpha r).getD 0) := by funext r; ring
  rw [e, intervalIntegral.integral_const_mul, C135_unit_mean h0 h1]
  unfold loadAndMeanPressure; ring

/-- **C135** Sneddon's load: with Sneddon's relation between penetration and contact radius, the load at
penetration `D` is `2/π · E D² tan α`. -/
theorem C135_sneddon {alpha E D : ℝ} (h0 : 0 < alpha) (h1 : alpha < π / 2) :
    (loadAndMeanPressure alpha).1 * (E * (π * (coneRadius alpha * D) ^ 2)) = 2 / π * E * D ^ 2 * tan alpha := by
  have ht := tan_pos_of_pos_of_lt_pi_div_two h0 h1
  unfold loadAndMeanPressure
  rw [tan_beta]; unfold coneSlope coneRadius
  field_simp

/-! ## Deformation -/

theorem deformationAt_eq {alpha top r : ℝ} (h0 : 0 < alpha) (h1 : alpha < π / 2) :
    deformationAt alpha top r = if r < coneRadius alpha then sneddon alpha r - (coneRadius alpha - top) * coneSlope alpha else sneddon alpha r := by
  have hr := radius_pos h0 h1
  have hrt := radius_tan h0 h1
  unfold deformationAt sneddon
  simp only [radius_eq, tan_beta]
  rcases lt_trichotomy r (coneRadius alpha) with h | h | h
  · rw [if_neg (not_le.mpr h), if_pos h, if_pos h.le]
    have : 2 / π = coneRadius alpha * coneSlope alpha := hrt.symm
    rw [this]; ring
  · rw [if_pos h.symm.le, if_neg (by rw [h]; exact lt_irrefl _), if_pos h.le, h, div_self hr.ne', arcsin_one, hrt]
    norm_num
    field_simp
  · rw [if_pos h.le, if_neg (by linarith), if_neg (by linarith)]; ring

theorem npmax_top {l : List ℝ} {x : ℝ} (hx : x ∈ l) (h : ∀ y ∈ l, y ≤ x) : npmax l = .ok x := by
  cases l with
  | nil => simp at hx
  | cons a t =>
    have key : ∀ (t : List ℝ) (a : ℝ), (∀ y ∈ t, y ≤ x) → a ≤ x → (x = a ∨ x ∈ t) → t.foldl max a = x := by
      intro t
      induction t with
      | nil => rintro a - - (rfl | h) <;> simp_all
      | cons b t ih =>
        rintro a hle ha hm
        rw [List.foldl_cons]
        refine ih _ (fun y hy => hle y (List.mem_cons_of_mem _ hy)) (max_le ha (hle b List.mem_cons_self)) ?_
        rcases hm with rfl | hm
        · left; exact (max_eq_left (hle b List.mem_cons_self)).symm
        · rcases List.mem_cons.mp hm with rfl | hm
          · left; exact (max_eq_right ha).symm
          · right; exact hm
    exact congrArg Except.ok (key t a (fun y hy => h y (List.mem_cons_of_mem _ hy)) (h a List.mem_cons_self) (List.mem_cons.mp hx))

/-- **C95** REFUTED: with floating point positions, let `top` be the largest one within the contact.  Every value inside the contact is too small by
`(R - top) / tan α`, where `R` is the contact radius; only a sampling that contains the contact radius gives the cone. -/
theorem C95_sampling_partial {alpha : ℝ} (h0 : 0 < alpha) (h1 : alpha < π / 2) {l : List ℝ} {top : ℝ} (ht : top ∈ l) (htr : top ≤ coneRadius alpha)
    (hmax : ∀ r ∈ l, r ≤ coneRadius alpha → r ≤ top) :
    deformation false l alpha = .ok (l.map fun r => if r < coneRadius alpha then sneddon alpha r - (coneRadius alpha - top) * coneSlope alpha else sneddon alpha r) ∧
    (deformation false l alpha = .ok (l.map (sneddon alpha)) ↔ top = coneRadius alpha) := by
  have hn : npmax (l.filter fun r => decide (r ≤ coneRadius alpha)) = .ok top := by
    apply npmax_top
    · simp only [List.mem_filter, decide_eq_true_eq]; exact ⟨ht, htr⟩
    · intro y hy
      simp only [List.mem_filter, decide_eq_true_eq] at hy
      exact hmax y hy.1 hy.2
  have hm : deformation false l alpha = .ok (l.map fun r => if r < coneRadius alpha then sneddon alpha r - (coneRadius alpha - top) * coneSlope alpha else sneddon alpha r) := by
    unfold deformation
    simp only [radius_eq]
    rw [hn]
    simp only [bind, Except.bind, pure, Except.pure, elementwise, stored, Bool.false_eq_true, if_false, deformationAt_eq h0 h1]
  refine ⟨hm, ?_⟩
  rw [hm, Except.ok.injEq]
  constructor
  · intro h
    by_contra hne
    have hlt : top < coneRadius alpha := lt_of_le_of_ne htr hne
    have h2 := List.map_inj_left.mp h top ht
    rw [if_pos hlt] at h2
    have := mul_pos (sub_pos.mpr hlt) (slope_pos h0 h1)
    linarith
  · intro h
    rw [h]
    refine List.map_inj_left.mpr fun r _ => ?_
    split_ifs <;> simp

/-- **C95** REFUTED: without a sample inside the contact, `deformation` raises `ValueError`. -/
theorem C95_outside_partial {alpha : ℝ} {l : List ℝ} (ints : Bool) (h : ∀ r ∈ l, coneRadius alpha < r) : deformation ints l alpha = .error .valueError := by
  have : l.filter (fun r => decide (r ≤ coneRadius alpha)) = [] := by
    rw [List.filter_eq_nil_iff]
    intro r hr
    simpa using h r hr
  unfold deformation; simp only [radius_eq]; rw [this]; rfl

/-- **C95** What the samples outside the contact show, whatever the sampling: the displaced surface is continuous at the contact radius with the
cone, and stays clear of the cone outside. -/
theorem C95_deformation {alpha : ℝ} (h0 : 0 < alpha) (h1 : alpha < π / 2) :
    (∀ top r, coneRadius alpha ≤ r → deformationAt alpha top r = sneddon alpha r) ∧ ContinuousAt (sneddon alpha) (coneRadius alpha) ∧
    (∀ r, 0 ≤ r → 1 - r * coneSlope alpha ≤ sneddon alpha r) ∧ (∀ r, coneRadius alpha < r → 1 - r * coneSlope alpha < sneddon alpha r) := by
  have hr := radius_pos h0 h1
  have hrt := radius_tan h0 h1
  have hlt : ∀ r, coneRadius alpha < r → 1 - r * coneSlope alpha < sneddon alpha r := by
    intro r h
    have hr0 : 0 < r := hr.trans h
    unfold sneddon
    rw [if_neg (not_le.mpr h)]
    have e1 : r * coneSlope alpha = 2 / π * (r / coneRadius alpha) := by
      rw [← hrt]; field_simp
    rw [e1]
    have hq1 : coneRadius alpha / r < 1 := by rw [div_lt_one hr0]; exact h
    have hq0 : 0 < coneRadius alpha / r := by positivity
    have hth : arccos (coneRadius alpha / r) < tan (arccos (coneRadius alpha / r)) := lt_tan (arccos_pos.mpr hq1) (arccos_lt_pi_div_two.mpr hq0)
    rw [tan_arccos] at hth
    have e2 : √(1 - (coneRadius alpha / r) ^ 2) / (coneRadius alpha / r) = √((r / coneRadius alpha) ^ 2 - 1) := by
      rw [show (r / coneRadius alpha) ^ 2 - 1 = (1 - (coneRadius alpha / r) ^ 2) / (coneRadius alpha / r) ^ 2 by field_simp, sqrt_div' _ (sq_nonneg _), sqrt_sq hq0.le]
    rw [e2] at hth
    unfold arccos at hth
    have h3 : 1 = 2 / π * (π / 2) := by field_simp
    nth_rewrite 1 [h3]
    rw [← mul_sub]
    refine mul_lt_mul_of_pos_left ?_ (by positivity)
    linarith
  refine ⟨fun top r h => ?_, ?_, fun r _ => ?_, hlt⟩
  · rw [deformationAt_eq h0 h1, if_neg (not_lt.mpr h)]
  · have hc1 : ContinuousAt (fun r => 1 - r * coneSlope alpha) (coneRadius alpha) := by fun_prop
    have hc2 : ContinuousAt (fun r => 2 / π * (arcsin (coneRadius alpha / r) - r / coneRadius alpha + √((r / coneRadius alpha) ^ 2 - 1))) (coneRadius alpha) := by
      refine continuousAt_const.mul (((continuous_arcsin.continuousAt.comp (continuousAt_const.div continuousAt_id hr.ne')).sub (by fun_prop)).add (by fun_prop))
    have hv : 2 / π * (arcsin (coneRadius alpha / coneRadius alpha) - coneRadius alpha / coneRadius alpha + √((coneRadius alpha / coneRadius alpha) ^ 2 - 1)) = 1 - coneRadius alpha * coneSlope alpha := by
      rw [div_self hr.ne', arcsin_one, hrt]; norm_num; field_simp
    have hs : sneddon alpha (coneRadius alpha) = 1 - coneRadius alpha * coneSlope alpha := by unfold sneddon; rw [if_pos le_rfl]
    rw [Metric.continuousAt_iff] at hc1 hc2 ⊢
    intro ε hε
    obtain ⟨d1, hd1, k1⟩ := hc1 ε hε
    obtain ⟨d2, hd2, k2⟩ := hc2 ε hε
    refine ⟨min d1 d2, lt_min hd1 hd2, fun {r} h => ?_⟩
    have k1' := k1 (lt_of_lt_of_le h (min_le_left _ _))
    have k2' := k2 (lt_of_lt_of_le h (min_le_right _ _))
    rw [hv] at k2'
    rw [hs]
    unfold sneddon
    split_ifs
    · exact k1'
    · exact k2'
  · rcases le_or_gt r (coneRadius alpha) with h | h
    · unfold sneddon; rw [if_pos h]
    · exact (hlt r h).le

/-- A grid with a point inside the contact that misses the contact radius gives a wrong value there. -/
example {alpha : ℝ} (h0 : 0 < alpha) (h1 : alpha < π / 2) : deformation false [coneRadius alpha / 2] alpha ≠ .ok ([coneRadius alpha / 2].map (sneddon alpha)) := by
  have hr := radius_pos h0 h1
  rw [ne_eq, (C95_sampling_partial h0 h1 (l := [coneRadius alpha / 2]) (top := coneRadius alpha / 2) (by simp) (by linarith) (by simp)).2]
  linarith

end CM.Ref.Cone

namespace CM.Ref

open Real

/-! ## Vectors of integers -/

theorem stored_floats (f : ℝ → ℝ) (l : List ℝ) : elementwise false f l = l.map f := by
  unfold elementwise stored; simp

/-- **C136** REFUTED: for a vector of integers `surface_displacements` returns other values than for the same positions as floats: the displacement
at the axis, `-π/2`, becomes `-1`. -/
theorem C136_displacements_partial : elementwise true Hertz.surfaceDisp [0] = [-1] ∧ elementwise false Hertz.surfaceDisp [0] = [-(π / 2)] := by
  have h : Hertz.surfaceDisp 0 = -(π / 2) := by unfold Hertz.surfaceDisp; rw [if_pos (by norm_num)]; ring
  constructor
  · simp only [elementwise, stored, List.map, h, if_true]
    rw [if_neg (by linarith [pi_pos])]
    have : ⌈-(π / 2)⌉ = -1 := by
      rw [Int.ceil_eq_iff]; push_cast
      constructor <;> linarith [pi_gt_three, pi_lt_four]
    rw [this]; norm_num
  · rw [stored_floats]; simp [h]

/-- **C136** REFUTED: for integer distances the tail of the pressure and of the surface stress is lost: `surface_stress` of integer distances
`r ≥ 2` returns zero stresses for every Poisson number between zero and one, although the radial stress is `(1 - 2ν) / 3r²`. -/
theorem C136_stress_partial {nu r : ℝ} (h0 : 0 ≤ nu) (h1 : nu ≤ 1) (hr : 2 ≤ r) :
    elementwise true (fun r => (Hertz.surfaceStress nu r).sr) [r] = [0] ∧ elementwise false (fun r => (Hertz.surfaceStress nu r).sr) [r] = [(1 - 2 * nu) / (3 * r ^ 2)] := by
  have h : (Hertz.surfaceStress nu r).sr = (1 - 2 * nu) / (3 * r ^ 2) := by
    unfold Hertz.surfaceStress
    rw [if_neg, if_neg (by linarith)]
    rw [abs_of_nonneg (by linarith)]; norm_num; linarith
  constructor
  · simp only [elementwise, stored, List.map, h, if_true]
    have hp : 0 < 3 * r ^ 2 := by positivity
    have hr2 : 4 ≤ r ^ 2 := by nlinarith
    split_ifs with h2
    · have : ⌊(1 - 2 * nu) / (3 * r ^ 2)⌋ = 0 := by
        rw [Int.floor_eq_zero_iff]
        exact ⟨h2, by rw [div_lt_one hp]; linarith⟩
      rw [this]; norm_num
    · have : ⌈(1 - 2 * nu) / (3 * r ^ 2)⌉ = 0 := by
        rw [Int.ceil_eq_zero_iff]
        refine ⟨?_, (not_le.mp h2).le⟩
        rw [lt_div_iff₀ hp]; linarith
      rw [this]; norm_num
  · rw [stored_floats]; simp [h]

end CM.Ref
