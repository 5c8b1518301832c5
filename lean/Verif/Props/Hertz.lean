import Verif.Spec.Reference
import Mathlib.Analysis.SpecialFunctions.Integrals.Basic
import Mathlib.Analysis.SpecialFunctions.Trigonometric.InverseDeriv
import Mathlib.Analysis.SpecialFunctions.Trigonometric.ArctanDeriv
import Mathlib.Analysis.SpecialFunctions.Pow.Deriv
import Mathlib.Analysis.Calculus.LHopital
import Mathlib.MeasureTheory.Integral.IntervalIntegral.FundThmCalculus
/-!
# Hertz: relations between load, penetration, contact radius, energy and surface fields (C86, C87, C88, C129)
-/
namespace CM.Ref.Hertz

open Real

theorem cbrt_cube {x : ℝ} (hx : 0 ≤ x) : (x ^ 3) ^ (1 / 3 : ℝ) = x := by
  rw [← rpow_natCast, ← rpow_mul hx]; norm_num

theorem penetration_nonneg {N R Es : ℝ} (hR : 0 < R) : 0 ≤ penetration N R Es := by
  unfold penetration; positivity

theorem penetration_cube {N R Es : ℝ} (hR : 0 < R) : penetration N R Es ^ 3 = 9 * N ^ 2 / (16 * R * Es ^ 2) := by
  unfold penetration
  rw [← rpow_natCast, ← rpow_mul (by positivity)]; norm_num

theorem normalLoad_sq {d R Es : ℝ} (hd : 0 ≤ d) (hR : 0 < R) : normalLoad d R Es ^ 2 = 16 / 9 * Es ^ 2 * (d ^ 3 * R) := by
  unfold normalLoad; rw [mul_pow, sq_sqrt (by positivity)]; ring

/-- **C86** Load and penetration are inverse functions of each other. -/
theorem C86_inverse {R Es : ℝ} (hR : 0 < R) (hE : 0 < Es) :
    (∀ N, 0 ≤ N → normalLoad (penetration N R Es) R Es = N) ∧ (∀ d, 0 ≤ d → penetration (normalLoad d R Es) R Es = d) := by
  constructor
  · intro N hN
    have h0 : 0 ≤ normalLoad (penetration N R Es) R Es := by unfold normalLoad; positivity
    have h := normalLoad_sq (Es := Es) (penetration_nonneg (N := N) (Es := Es) hR) hR
    rw [penetration_cube hR] at h
    have h2 : normalLoad (penetration N R Es) R Es ^ 2 = N ^ 2 := by rw [h]; field_simp
    exact (sq_eq_sq₀ h0 hN).mp h2
  · intro d hd
    have : 9 * normalLoad d R Es ^ 2 / (16 * R * Es ^ 2) = d ^ 3 := by rw [normalLoad_sq hd hR]; field_simp
    unfold penetration; rw [this, cbrt_cube hd]

theorem radius_load {d R Es : ℝ} (hd : 0 ≤ d) (hR : 0 < R) (hE : 0 < Es) : radius (normalLoad d R Es) R Es = √(R * d) := by
  have h : 3 / 4 * (normalLoad d R Es / (Es * R ^ 2)) = (√(d / R)) ^ 3 := by
    have h1 : √(d ^ 3 * R) = R ^ 2 * (√(d / R)) ^ 3 := by
      rw [sqrt_eq_iff_mul_self_eq (by positivity) (by positivity)]
      have : (√(d / R)) ^ 2 = d / R := sq_sqrt (by positivity)
      symm
      calc R ^ 2 * √(d / R) ^ 3 * (R ^ 2 * √(d / R) ^ 3) = R ^ 4 * (√(d / R) ^ 2) ^ 3 := by ring
        _ = d ^ 3 * R := by rw [this]; field_simp
    unfold normalLoad; rw [h1]; field_simp
  unfold radius; rw [h, cbrt_cube (sqrt_nonneg _)]
  rw [eq_comm, sqrt_eq_iff_mul_self_eq (by positivity) (by positivity)]
  have : (√(d / R)) ^ 2 = d / R := sq_sqrt (by positivity)
  symm
  calc R * √(d / R) * (R * √(d / R)) = R ^ 2 * (√(d / R) ^ 2) := by ring
    _ = R * d := by rw [this]; field_simp

/-- **C86** The contact radius of the load at penetration `d` satisfies `a² = R d`, and its peak pressure is the one computed from the
penetration. -/
theorem C86_radius_pressure {d R Es : ℝ} (hd : 0 < d) (hR : 0 < R) (hE : 0 < Es) :
    (radiusAndPressure (normalLoad d R Es) R Es).1 ^ 2 = R * d ∧ 0 < (radiusAndPressure (normalLoad d R Es) R Es).1 ∧
    (radiusAndPressure (normalLoad d R Es) R Es).2 = maxPressure d R Es := by
  refine ⟨?_, ?_, ?_⟩
  · show radius _ _ _ ^ 2 = _
    rw [radius_load hd.le hR hE, sq_sqrt (by positivity)]
  · show 0 < radius _ _ _
    rw [radius_load hd.le hR hE]; positivity
  · show peak _ _ _ = _
    unfold peak maxPressure
    rw [radius_load hd.le hR hE]
    have h1 : √(d ^ 3 * R) = R * d * √(d / R) := by
      rw [sqrt_eq_iff_mul_self_eq (by positivity) (by positivity)]
      have : (√(d / R)) ^ 2 = d / R := sq_sqrt (by positivity)
      symm
      calc R * d * √(d / R) * (R * d * √(d / R)) = (R * d) ^ 2 * (√(d / R) ^ 2) := by ring
        _ = d ^ 3 * R := by rw [this]; field_simp
    have h2 : 2 * π * √(R * d) * √(R * d) = 2 * π * (R * d) := by rw [mul_assoc, mul_self_sqrt (by positivity)]
    unfold normalLoad; rw [h1, h2]; field_simp; norm_num

example : radiusAndPressure (normalLoad 4 1 1) 1 1 = (2, 4 / π) := by
  have h := C86_radius_pressure (d := 4) (R := 1) (Es := 1) (by norm_num) one_pos one_pos
  refine Prod.ext ?_ ?_
  · have := h.1; nlinarith [h.2.1]
  · rw [h.2.2]; unfold maxPressure
    rw [show (4 : ℝ) / 1 = 2 ^ 2 by norm_num, sqrt_sq (by norm_num)]; ring

theorem energy_deriv {d R Es : ℝ} (hd : 0 ≤ d) (_hR : 0 ≤ R) : HasDerivAt (fun d => elasticEnergy d R Es) (normalLoad d R Es) d := by
  have h := (hasDerivAt_rpow_const (x := d) (p := (5 / 2 : ℝ)) (Or.inr (by norm_num))).const_mul (8 / 15 * √R * Es)
  have e : 8 / 15 * √R * Es * (5 / 2 * d ^ (5 / 2 - 1 : ℝ)) = normalLoad d R Es := by
    have h3 : d ^ (5 / 2 - 1 : ℝ) = √(d ^ 3) := by
      rw [sqrt_eq_rpow, ← rpow_natCast, ← rpow_mul hd]; norm_num
    unfold normalLoad; rw [h3, sqrt_mul (by positivity)]; ring
  rw [e] at h; exact h

/-- **C87** The load is the derivative of the energy, at every penetration. -/
theorem C87_derivative {d R Es : ℝ} (hd : 0 ≤ d) (hR : 0 ≤ R) : HasDerivAt (fun d => elasticEnergy d R Es) (normalLoad d R Es) d := energy_deriv hd hR

/-- **C87** The energy is the work done by the load from first touch. -/
theorem C87_work {d R Es : ℝ} (hd : 0 ≤ d) (hR : 0 ≤ R) : elasticEnergy d R Es = ∫ x in (0 : ℝ)..d, normalLoad x R Es := by
  rw [intervalIntegral.integral_eq_sub_of_hasDerivAt (f := fun d => elasticEnergy d R Es)]
  · simp [elasticEnergy, zero_rpow]
  · intro x hx
    rw [Set.uIcc_of_le hd] at hx
    exact energy_deriv hx.1 hR
  · refine Continuous.intervalIntegrable ?_ _ _
    unfold normalLoad; fun_prop

/-- **C87** Two fifths of load times penetration. -/
theorem C87_two_fifths {d R Es : ℝ} (hd : 0 ≤ d) (_hR : 0 ≤ R) : elasticEnergy d R Es = 2 / 5 * normalLoad d R Es * d := by
  have h3 : d ^ (5 / 2 : ℝ) = √(d ^ 3) * d := by
    rcases hd.eq_or_lt with h | h
    · rw [← h]; simp [zero_rpow]
    · rw [sqrt_eq_rpow, ← rpow_natCast, ← rpow_mul hd, ← rpow_add_one h.ne']; norm_num
  unfold elasticEnergy normalLoad
  rw [h3, sqrt_mul (by positivity)]; ring

example : elasticEnergy 4 1 15 = 256 := by
  rw [C87_two_fifths (by norm_num) (by norm_num)]
  unfold normalLoad
  rw [show (4 : ℝ) ^ 3 * 1 = 8 ^ 2 by norm_num, sqrt_sq (by norm_num)]; norm_num

/-! ## Surface fields -/

theorem arcsin_inv_deriv {r : ℝ} (hr : 1 < r) : HasDerivAt (fun r => arcsin (1 / r)) (-(1 / (r * √(r ^ 2 - 1)))) r := by
  have hr0 : 0 < r := by linarith
  have h1 : 1 / r < 1 := by rw [div_lt_one hr0]; exact hr
  have h2 : 0 < 1 / r := by positivity
  have hs : √(1 - (1 / r) ^ 2) = √(r ^ 2 - 1) / r := by
    rw [show 1 - (1 / r) ^ 2 = (r ^ 2 - 1) / r ^ 2 by field_simp, sqrt_div (by nlinarith), sqrt_sq hr0.le]
  have h := HasDerivAt.comp (h := fun r : ℝ => r⁻¹) r (hasDerivAt_arcsin (x := r⁻¹) (by rw [← one_div]; linarith) (by rw [← one_div]; exact h1.ne)) (hasDerivAt_inv hr0.ne')
  have hq : 0 < √(r ^ 2 - 1) := sqrt_pos.mpr (by nlinarith)
  have e : 1 / √(1 - r⁻¹ ^ 2) * -(r ^ 2)⁻¹ = -(1 / (r * √(r ^ 2 - 1))) := by rw [← one_div r, hs]; field_simp
  rw [e] at h
  refine h.congr_of_eventuallyEq (Filter.Eventually.of_forall fun x => ?_)
  simp

/-- The formula outside the contact, without the division. -/
theorem surfaceDisp_out {r : ℝ} (hr : 1 ≤ r) : surfaceDisp r = (-(2 - r ^ 2) * arcsin (1 / r) - √(r ^ 2 - 1)) / 2 := by
  have hr0 : 0 < r := by linarith
  unfold surfaceDisp
  rw [if_neg (not_lt.mpr hr), show 1 - (1 / r) ^ 2 = (r ^ 2 - 1) / r ^ 2 by field_simp, sqrt_div (by nlinarith), sqrt_sq hr0.le]
  congr 2; field_simp

theorem out_deriv {r : ℝ} (hr : 1 < r) : HasDerivAt (fun r => (-(2 - r ^ 2) * arcsin (1 / r) - √(r ^ 2 - 1)) / 2) (r * arcsin (1 / r) - √(r ^ 2 - 1) / r) r := by
  have hr0 : 0 < r := by linarith
  have hq : 0 < r ^ 2 - 1 := by nlinarith
  have hs : 0 < √(r ^ 2 - 1) := sqrt_pos.mpr hq
  have h1 : HasDerivAt (fun r : ℝ => -(2 - r ^ 2)) (2 * r) r := by
    have := ((hasDerivAt_pow 2 r).const_sub 2).fun_neg
    have e : -(-(((2 : ℕ) : ℝ) * r ^ (2 - 1))) = 2 * r := by norm_num
    rw [e] at this; exact this
  have h2 : HasDerivAt (fun r : ℝ => √(r ^ 2 - 1)) (r / √(r ^ 2 - 1)) r := by
    have := (((hasDerivAt_pow 2 r).sub_const 1).sqrt hq.ne')
    have e : ((2 : ℕ) : ℝ) * r ^ (2 - 1) / (2 * √(r ^ 2 - 1)) = r / √(r ^ 2 - 1) := by norm_num; field_simp
    rw [e] at this; exact this
  have h := ((h1.mul (arcsin_inv_deriv hr)).sub h2).div_const 2
  have hss : √(r ^ 2 - 1) ^ 2 = r ^ 2 - 1 := sq_sqrt hq.le
  have e : (2 * r * arcsin (1 / r) + -(2 - r ^ 2) * -(1 / (r * √(r ^ 2 - 1))) - r / √(r ^ 2 - 1)) / 2 = r * arcsin (1 / r) - √(r ^ 2 - 1) / r := by
    field_simp
    linear_combination 2 * hss
  rw [e] at h; exact h

/-- **C88** The surface displacement is continuous, the contact edge included. -/
theorem C88_displacement_continuous : ContinuousOn surfaceDisp (Set.Ici 0) := by
  have h : ∀ r, 0 ≤ r → surfaceDisp r = if r ≤ 1 then -π * (2 - r ^ 2) / 4 else (-(2 - r ^ 2) * arcsin (1 / max 1 r) - √(r ^ 2 - 1)) / 2 := by
    intro r _
    rcases lt_trichotomy r 1 with h | h | h
    · rw [if_pos h.le]; unfold surfaceDisp; rw [if_pos h]
    · subst h; simp [surfaceDisp]; ring
    · rw [if_neg (not_le.mpr h), surfaceDisp_out h.le, max_eq_right h.le]
  refine ContinuousOn.congr (f := fun r => if r ≤ 1 then -π * (2 - r ^ 2) / 4 else (-(2 - r ^ 2) * arcsin (1 / max 1 r) - √(r ^ 2 - 1)) / 2) ?_ fun r hr => h r hr
  refine Continuous.continuousOn (Continuous.if_le (by fun_prop) ?_ continuous_id continuous_const ?_)
  · have : Continuous fun r : ℝ => arcsin (1 / max 1 r) := continuous_arcsin.comp (continuous_const.div (by fun_prop) fun r => by positivity)
    fun_prop
  · intro r hr
    have hr : r = 1 := hr
    subst hr; simp; ring

/-- The radial stress in one formula, valid inside and outside. -/
theorem surfaceStress_mid {nu r : ℝ} (hr : 1e-6 ≤ r) :
    surfaceStress nu r = ⟨√(1 - r ^ 2), (1 - 2 * nu) / (3 * r ^ 2) * (1 - √(1 - r ^ 2) ^ 3) - √(1 - r ^ 2),
      -(1 - 2 * nu) / (3 * r ^ 2) * (1 - √(1 - r ^ 2) ^ 3) - 2 * nu * √(1 - r ^ 2)⟩ := by
  have hr0 : 0 < r := by linarith [show (0 : ℝ) < 1e-6 by norm_num]
  unfold surfaceStress
  rw [if_neg (by rw [abs_of_pos hr0]; linarith)]
  by_cases h : r < 1
  · rw [if_pos h]
    have h1 : 0 ≤ 1 - r ^ 2 := by nlinarith
    have : (1 - r ^ 2) ^ (3 / 2 : ℝ) = √(1 - r ^ 2) ^ 3 := by
      rw [sqrt_eq_rpow, ← rpow_natCast _ 3, ← rpow_mul h1]; norm_num
    rw [this]
  · rw [if_neg h]
    have h1 : √(1 - r ^ 2) = 0 := sqrt_eq_zero_of_nonpos (by nlinarith [not_lt.mp h])
    rw [h1]; congr 1 <;> ring

/-- **C88** Pressure and in-plane stresses are continuous at every distance above the small-distance cut-off `1e-6`, the contact edge
included, and there is no pressure outside the contact. -/
theorem C88_stress_continuous (nu : ℝ) :
    (∀ r, 1e-6 < r → ContinuousAt (fun r => (surfaceStress nu r).pz) r ∧ ContinuousAt (fun r => (surfaceStress nu r).sr) r ∧
      ContinuousAt (fun r => (surfaceStress nu r).st) r) ∧ ∀ r, 1 ≤ r → (surfaceStress nu r).pz = 0 := by
  constructor
  · intro r hr
    have hr0 : 0 < r := by linarith [show (0 : ℝ) < 1e-6 by norm_num]
    have hev : ∀ᶠ x in nhds r, 1e-6 ≤ x := (lt_mem_nhds hr).mono fun x hx => le_of_lt hx
    have h3 : ContinuousAt (fun r : ℝ => 3 * r ^ 2) r := by fun_prop
    have hne : 3 * r ^ 2 ≠ 0 := by positivity
    refine ⟨ContinuousAt.congr (f := fun r => √(1 - r ^ 2)) (by fun_prop) (hev.mono fun x hx => by dsimp only; rw [surfaceStress_mid hx]), ?_, ?_⟩
    · refine ContinuousAt.congr (f := fun r => (1 - 2 * nu) / (3 * r ^ 2) * (1 - √(1 - r ^ 2) ^ 3) - √(1 - r ^ 2)) ?_ (hev.mono fun x hx => by dsimp only; rw [surfaceStress_mid hx])
      exact ((continuousAt_const.div h3 hne).mul (by fun_prop)).sub (by fun_prop)
    · refine ContinuousAt.congr (f := fun r => -(1 - 2 * nu) / (3 * r ^ 2) * (1 - √(1 - r ^ 2) ^ 3) - 2 * nu * √(1 - r ^ 2)) ?_ (hev.mono fun x hx => by dsimp only; rw [surfaceStress_mid hx])
      exact ((continuousAt_const.div h3 hne).mul (by fun_prop)).sub (by fun_prop)
  · intro r hr
    rw [surfaceStress_mid (by linarith [show (1e-6 : ℝ) < 1 by norm_num])]
    exact sqrt_eq_zero_of_nonpos (by nlinarith)

/-- **C88** (refuted without the restriction) At the cut-off the pressure jumps. -/
theorem C88_cutoff_jump_partial (nu : ℝ) : ¬ ContinuousAt (fun r => (surfaceStress nu r).pz) 1e-6 := by
  intro h
  have h1 : Filter.Tendsto (fun r => (surfaceStress nu r).pz) (nhdsWithin 1e-6 (Set.Iio 1e-6)) (nhds √(1 - (1e-6) ^ 2)) := by
    have := h.tendsto.mono_left (nhdsWithin_le_nhds (s := Set.Iio 1e-6))
    rwa [surfaceStress_mid (le_refl _)] at this
  have h2 : Filter.Tendsto (fun r => (surfaceStress nu r).pz) (nhdsWithin 1e-6 (Set.Iio 1e-6)) (nhds 1) := by
    refine tendsto_const_nhds.congr' ?_
    have hev : ∀ᶠ x : ℝ in nhdsWithin 1e-6 (Set.Iio 1e-6), 0 < x := Filter.Eventually.filter_mono nhdsWithin_le_nhds (lt_mem_nhds (by norm_num))
    filter_upwards [hev, self_mem_nhdsWithin] with x hx hx2
    unfold surfaceStress; rw [if_pos (by rw [abs_of_pos hx]; exact hx2)]
  have h3 := tendsto_nhds_unique h1 h2
  have : (1 : ℝ) - 1e-6 ^ 2 = 1 := by
    have := congrArg (· ^ 2) h3
    rw [sq_sqrt (by norm_num)] at this; linarith
  norm_num at this

theorem hemisphere_deriv {x : ℝ} (hx : x ^ 2 < 1) : HasDerivAt (fun x : ℝ => -(√(1 - x ^ 2) ^ 3) / 3) (x * √(1 - x ^ 2)) x := by
  have hq : 0 < 1 - x ^ 2 := by linarith
  have hs : 0 < √(1 - x ^ 2) := sqrt_pos.mpr hq
  have := (((((hasDerivAt_pow 2 x).const_sub 1).sqrt hq.ne').pow 3).neg).div_const 3
  have e : -(((3 : ℕ) : ℝ) * √(1 - x ^ 2) ^ (3 - 1) * (-(((2 : ℕ) : ℝ) * x ^ (2 - 1)) / (2 * √(1 - x ^ 2)))) / 3 = x * √(1 - x ^ 2) := by
    norm_num; field_simp
  rw [e] at this; exact this

theorem hemisphere_integral {c : ℝ} (h0 : 0 ≤ c) (h1 : c ≤ 1) : ∫ x in c..1, x * √(1 - x ^ 2) = √(1 - c ^ 2) ^ 3 / 3 := by
  rw [intervalIntegral.integral_eq_sub_of_hasDerivAt_of_le (f := fun x : ℝ => -(√(1 - x ^ 2) ^ 3) / 3) h1 (by fun_prop)]
  · simp; ring
  · intro x hx; exact hemisphere_deriv (by nlinarith [hx.1, hx.2])
  · exact Continuous.intervalIntegrable (by fun_prop) _ _

/-- The dimensionless pressure integrated over the contact circle. -/
theorem pressure_integral (nu : ℝ) : ∫ x in (0 : ℝ)..1, x * (surfaceStress nu x).pz = (1e-6) ^ 2 / 2 + √(1 - (1e-6) ^ 2) ^ 3 / 3 := by
  have e1 : Set.EqOn (fun x => x * (surfaceStress nu x).pz) (fun x => x) (Set.Ico (0 : ℝ) 1e-6) := by
    intro x hx; unfold surfaceStress; dsimp only; rw [if_pos (by rw [abs_of_nonneg hx.1]; exact hx.2)]; simp
  have e2 : Set.EqOn (fun x => x * (surfaceStress nu x).pz) (fun x => x * √(1 - x ^ 2)) (Set.uIcc (1e-6 : ℝ) 1) := by
    intro x hx; rw [Set.uIcc_of_le (by norm_num)] at hx; dsimp only; rw [surfaceStress_mid hx.1]
  have i1 : ∫ x in (0 : ℝ)..1e-6, x * (surfaceStress nu x).pz = (1e-6) ^ 2 / 2 := by
    rw [intervalIntegral.integral_congr_uIoo (g := fun x => x)]
    · rw [integral_id]; norm_num
    · intro x hx; rw [Set.uIoo_of_le (by norm_num)] at hx; exact e1 ⟨hx.1.le, hx.2⟩
  have i2 : ∫ x in (1e-6 : ℝ)..1, x * (surfaceStress nu x).pz = √(1 - (1e-6) ^ 2) ^ 3 / 3 := by
    rw [intervalIntegral.integral_congr e2, hemisphere_integral (by norm_num) (by norm_num)]
  rw [← i1, ← i2, intervalIntegral.integral_add_adjacent_intervals]
  · refine (Continuous.intervalIntegrable continuous_id 0 1e-6).congr_uIoo ?_
    intro x hx; rw [Set.uIoo_of_le (by norm_num)] at hx; exact (e1 ⟨hx.1.le, hx.2⟩).symm
  · refine (Continuous.intervalIntegrable (u := fun x : ℝ => x * √(1 - x ^ 2)) (by fun_prop) 1e-6 1).congr_uIoo ?_
    intro x hx; exact (e2 (Set.Ioo_subset_Icc_self hx)).symm

theorem radius_pos {N R Es : ℝ} (hN : 0 < N) (hR : 0 < R) (hE : 0 < Es) : 0 < radius N R Es := by
  unfold radius; positivity

/-- **C88** The pressure `p0 * pz(r / a)`, integrated over the contact circle, is the load, up to a relative excess of at most `1e-24` caused by the
small-distance cut-off. -/
theorem C88_load {N R Es : ℝ} (nu : ℝ) (hN : 0 < N) (hR : 0 < R) (hE : 0 < Es) :
    N < (∫ r in (0 : ℝ)..(radiusAndPressure N R Es).1,
      2 * π * r * ((radiusAndPressure N R Es).2 * (surfaceStress nu (r / (radiusAndPressure N R Es).1)).pz)) ∧
    (∫ r in (0 : ℝ)..(radiusAndPressure N R Es).1,
      2 * π * r * ((radiusAndPressure N R Es).2 * (surfaceStress nu (r / (radiusAndPressure N R Es).1)).pz)) ≤ N * (1 + 1e-24) := by
  have ha := radius_pos hN hR hE
  have e : (∫ r in (0 : ℝ)..(radiusAndPressure N R Es).1,
      2 * π * r * ((radiusAndPressure N R Es).2 * (surfaceStress nu (r / (radiusAndPressure N R Es).1)).pz)) =
      N * (3 * ((1e-6) ^ 2 / 2 + √(1 - (1e-6) ^ 2) ^ 3 / 3)) := by
    have e1 : ∀ r, 2 * π * r * ((radiusAndPressure N R Es).2 * (surfaceStress nu (r / (radiusAndPressure N R Es).1)).pz) =
        2 * π * radius N R Es * peak N R Es * ((fun x => x * (surfaceStress nu x).pz) (r / radius N R Es)) := by
      intro r
      show 2 * π * r * (peak N R Es * (surfaceStress nu (r / radius N R Es)).pz) = _
      dsimp only; field_simp
    simp only [e1]
    show (∫ r in (0 : ℝ)..radius N R Es, _) = _
    rw [intervalIntegral.integral_const_mul, intervalIntegral.integral_comp_div (fun x => x * (surfaceStress nu x).pz) ha.ne', zero_div, div_self ha.ne', pressure_integral nu]
    unfold peak; simp only [smul_eq_mul]; field_simp
  rw [e]
  have hs := sqrt_nonneg (1 - (1e-6 : ℝ) ^ 2)
  have hq : √(1 - (1e-6 : ℝ) ^ 2) ^ 2 = 1 - (1e-6) ^ 2 := sq_sqrt (by norm_num)
  set s := √(1 - (1e-6 : ℝ) ^ 2) with hsdef
  have hup : s ≤ 1 - (1e-6) ^ 2 / 2 := by
    refine abs_le_of_sq_le_sq' ?_ (by norm_num) |>.2
    rw [hq]; norm_num
  have hlo : 1 - (1e-6) ^ 2 / 2 - (1e-6) ^ 4 / 4 ≤ s := by
    refine abs_le_of_sq_le_sq' ?_ hs |>.2
    rw [hq]; norm_num
  have h3 : s ^ 3 = s * (1 - (1e-6) ^ 2) := by rw [← hq]; ring
  rw [h3]
  norm_num at hup hlo ⊢
  constructor <;> nlinarith

example : ∃ N R Es : ℝ, 0 < N ∧ 0 < R ∧ 0 < Es := ⟨1, 1, 1, one_pos, one_pos, one_pos⟩

/-! ## Contact conditions -/

theorem scale_eq {d R Es : ℝ} (hd : 0 < d) (hR : 0 < R) (hE : 0 < Es) : maxPressure d R Es * √(R * d) / Es = 2 * d / π := by
  have h : √(d / R) * √(R * d) = d := by
    rw [← sqrt_mul (by positivity), show d / R * (R * d) = d ^ 2 by field_simp, sqrt_sq hd.le]
  unfold maxPressure
  calc 2 * Es / π * √(d / R) * √(R * d) / Es = 2 * Es / π * (√(d / R) * √(R * d)) / Es := by ring
    _ = 2 * d / π := by rw [h]; field_simp

theorem hertzGap_eq {d R Es r : ℝ} (hd : 0 < d) (hR : 0 < R) (hE : 0 < Es) :
    hertzGap d R Es r = d * ((r / √(R * d)) ^ 2 / 2 - 1 - 2 / π * surfaceDisp (r / √(R * d))) := by
  unfold hertzGap; rw [scale_eq hd hR hE, div_pow, sq_sqrt (by positivity)]; field_simp

/-- The dimensionless gap grows outside the contact. -/
theorem gap_out {x : ℝ} (hx : 1 < x) : 0 < x ^ 2 / 2 - 1 - 2 / π * surfaceDisp x := by
  have h : StrictMonoOn (fun x => x ^ 2 / 2 - 1 - 2 / π * ((-(2 - x ^ 2) * arcsin (1 / x) - √(x ^ 2 - 1)) / 2)) (Set.Ici 1) := by
    refine strictMonoOn_of_deriv_pos (convex_Ici 1) ?_ ?_
    · have : ContinuousOn (fun r : ℝ => arcsin (1 / r)) (Set.Ici 1) :=
        continuous_arcsin.comp_continuousOn (continuousOn_const.div continuousOn_id fun r hr => by
          have : (1 : ℝ) ≤ r := hr
          exact (by linarith : (0 : ℝ) < r).ne')
      fun_prop
    · intro r hr
      rw [interior_Ici, Set.mem_Ioi] at hr
      have hd := (((hasDerivAt_pow 2 r).div_const 2).sub_const 1).sub ((out_deriv hr).const_mul (2 / π))
      have hdd := hd.deriv
      have e : deriv (fun x => x ^ 2 / 2 - 1 - 2 / π * ((-(2 - x ^ 2) * arcsin (1 / x) - √(x ^ 2 - 1)) / 2)) r = _ := hdd
      rw [e]
      have hr0 : 0 < r := by linarith
      have h1 : arcsin (1 / r) ≤ π / 2 := arcsin_le_pi_div_two _
      have h2 : 0 < √(r ^ 2 - 1) := sqrt_pos.mpr (by nlinarith)
      have h3 : 2 / π * (r * arcsin (1 / r)) ≤ r := by
        calc 2 / π * (r * arcsin (1 / r)) ≤ 2 / π * (r * (π / 2)) := by gcongr
          _ = r := by field_simp
      have h4 : 0 < 2 / π * (√(r ^ 2 - 1) / r) := by positivity
      norm_num
      rw [mul_sub, ← one_div]
      linarith
  have h1 := h (Set.mem_Ici.mpr le_rfl) (Set.mem_Ici.mpr hx.le) hx
  rw [surfaceDisp_out hx.le]
  refine lt_of_le_of_lt (le_of_eq ?_) h1
  norm_num; field_simp; norm_num

/-- **C129** The sphere and the deformed surface touch inside the contact circle, of radius `√(R d)`, and are apart outside; the pressure is not
negative and acts only where they touch. -/
theorem C129_contact {d R Es nu : ℝ} (hd : 0 < d) (hR : 0 < R) (hE : 0 < Es) :
    ∀ r, 0 ≤ r → (r ≤ √(R * d) → hertzGap d R Es r = 0) ∧ (√(R * d) < r → 0 < hertzGap d R Es r) ∧ 0 ≤ hertzPressure nu d R Es r ∧
      hertzPressure nu d R Es r * hertzGap d R Es r = 0 ∧ (r < √(R * d) → 0 < hertzPressure nu d R Es r) := by
  intro r hr
  have ha : 0 < √(R * d) := by positivity
  have hp : 0 < maxPressure d R Es := by unfold maxPressure; positivity
  have hz : r ≤ √(R * d) → hertzGap d R Es r = 0 := by
    intro h
    rw [hertzGap_eq hd hR hE]
    have hx : r / √(R * d) ≤ 1 := (div_le_one ha).mpr h
    rcases hx.eq_or_lt with h1 | h1
    · rw [h1]; simp [surfaceDisp]; right; field_simp; norm_num
    · unfold surfaceDisp; rw [if_pos h1]; field_simp; ring
  have hpos : 0 ≤ (surfaceStress nu (r / √(R * d))).pz := by
    unfold surfaceStress; split_ifs <;> simp
  have hout : √(R * d) ≤ r → hertzPressure nu d R Es r = 0 := by
    intro h
    unfold hertzPressure
    rw [(C88_stress_continuous nu).2 _ ((one_le_div ha).mpr h), mul_zero]
  refine ⟨hz, ?_, mul_nonneg hp.le hpos, ?_, ?_⟩
  · intro h
    rw [hertzGap_eq hd hR hE]
    exact mul_pos hd (gap_out ((one_lt_div ha).mpr h))
  · rcases le_total r √(R * d) with h | h
    · rw [hz h, mul_zero]
    · rw [hout h, zero_mul]
  · intro h
    refine mul_pos hp ?_
    have hx : r / √(R * d) < 1 := (div_lt_one ha).mpr h
    have hx0 : 0 ≤ r / √(R * d) := by positivity
    unfold surfaceStress; split_ifs
    · simp
    · exact sqrt_pos.mpr (by nlinarith)

example : hertzGap 1 1 1 1 = 0 := ((C129_contact (nu := 0) one_pos one_pos one_pos) 1 zero_le_one).1 (by simp)

/-- **C129** Far from the contact the surface displacement is that of a point load: `r uz → -2/3`, which is `-N / (π Es)` in the units of
`surface_displacements`. -/
theorem C129_far_field : Filter.Tendsto (fun r => r * surfaceDisp r) Filter.atTop (nhds (-(2 / 3))) := by
  have key : Filter.Tendsto (fun t : ℝ => ((2 * t ^ 2 - 1) * arcsin t + t * √(1 - t ^ 2)) / (2 * t ^ 3)) (nhdsWithin 0 (Set.Ioi 0)) (nhds (2 / 3)) := by
    have hd : ∀ t ∈ Set.Ioo (0 : ℝ) 1, HasDerivAt (fun t : ℝ => (2 * t ^ 2 - 1) * arcsin t + t * √(1 - t ^ 2)) (4 * t * arcsin t) t := by
      intro t ht
      have hq : 0 < 1 - t ^ 2 := by nlinarith [ht.1, ht.2]
      have hs : 0 < √(1 - t ^ 2) := sqrt_pos.mpr hq
      have hss : √(1 - t ^ 2) ^ 2 = 1 - t ^ 2 := sq_sqrt hq.le
      have h1 := ((((hasDerivAt_pow 2 t).const_mul 2).sub_const 1).mul (hasDerivAt_arcsin (by linarith [ht.1]) ht.2.ne)).add
        ((hasDerivAt_id t).mul (((hasDerivAt_pow 2 t).const_sub 1).sqrt hq.ne'))
      have e : 2 * (((2 : ℕ) : ℝ) * t ^ (2 - 1)) * arcsin t + (2 * t ^ 2 - 1) * (1 / √(1 - t ^ 2)) +
          (1 * √(1 - t ^ 2) + id t * (-(((2 : ℕ) : ℝ) * t ^ (2 - 1)) / (2 * √(1 - t ^ 2)))) = 4 * t * arcsin t := by
        norm_num; field_simp; linear_combination hss
      rw [e] at h1; exact h1
    have hg : ∀ t ∈ Set.Ioo (0 : ℝ) 1, HasDerivAt (fun t : ℝ => 2 * t ^ 3) (6 * t ^ 2) t := by
      intro t _
      have := (hasDerivAt_pow 3 t).const_mul 2
      have e : 2 * (((3 : ℕ) : ℝ) * t ^ (3 - 1)) = 6 * t ^ 2 := by norm_num; ring
      rw [e] at this; exact this
    refine HasDerivAt.lhopital_zero_right_on_Ioo one_pos hd hg ?_ ?_ ?_ ?_
    · intro t ht; have := ht.1; positivity
    · have : Continuous fun t : ℝ => (2 * t ^ 2 - 1) * arcsin t + t * √(1 - t ^ 2) := by have := continuous_arcsin; fun_prop
      have := (this.tendsto 0).mono_left (nhdsWithin_le_nhds (s := Set.Ioi 0))
      simpa using this
    · have : Continuous fun t : ℝ => 2 * t ^ 3 := by fun_prop
      have := (this.tendsto 0).mono_left (nhdsWithin_le_nhds (s := Set.Ioi 0))
      simpa using this
    · have h1 := (hasDerivAt_arcsin (x := 0) (by norm_num) (by norm_num)).tendsto_slope
      have h2 := (h1.mono_left (nhdsWithin_mono 0 (fun x (hx : 0 < x) => hx.ne' : Set.Ioi (0 : ℝ) ⊆ {0}ᶜ))).const_mul (2 / 3)
      norm_num at h2
      refine h2.congr' ?_
      filter_upwards [self_mem_nhdsWithin] with t ht
      have ht : 0 < t := ht
      rw [slope_def_field]; simp only [arcsin_zero, sub_zero]
      field_simp; ring
  have h2 := (key.comp tendsto_inv_atTop_nhdsGT_zero).neg
  refine h2.congr' ?_
  filter_upwards [Filter.eventually_ge_atTop 1] with r hr
  have hr0 : 0 < r := by linarith
  show -(((2 * r⁻¹ ^ 2 - 1) * arcsin r⁻¹ + r⁻¹ * √(1 - r⁻¹ ^ 2)) / (2 * r⁻¹ ^ 3)) = _
  unfold surfaceDisp
  rw [if_neg (not_lt.mpr hr), one_div]
  field_simp
  ring

end CM.Ref.Hertz
