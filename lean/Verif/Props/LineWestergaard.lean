import Verif.Props.LineContinuum
import Verif.Props.WestergaardMean
import Verif.Props.WestergaardResponse
import Verif.Props.Indentation
import Mathlib.Analysis.Normed.Group.AddCircle
/-!
# Simulated contacts with a sine wave converge to Westergaard's solution (C196)
-/
namespace CM.Disc
open Real MeasureTheory Set Topology CM.Ref CM.Ref.Westergaard CM.Spec CM.HS CM.FFT CM.System CM.Pipe

variable {sx sy : ℝ}

lemma fold_continuous : Continuous fold := by
  have h : Continuous fun x : ℝ => ‖(x : UnitAddCircle)‖ := continuous_norm.comp (AddCircle.continuous_mk' 1)
  refine h.congr fun x => ?_
  rw [UnitAddCircle.norm_eq, round_eq]
  unfold fold
  rw [Int.fract]
  congr 1
  ring

lemma fold_fold (x : ℝ) : fold (fold x) = fold x := by
  rw [fold_small (by linarith [fold_nonneg x]) (fold_le x), abs_of_nonneg (fold_nonneg x)]

/-- Westergaard's pressure for a wave of amplitude `h` and wavelength `sx`, contact modulus one. -/
noncomputable def wavePressure (sx h a X : ℝ) : ℝ := π * 1 * h / sx * (meanPressure a * pressureAt (fold (X / sx)) (π * a))

/-- The offset at contact radius `a`. -/
noncomputable def waveOffset (sx sy h a : ℝ) : ℝ := π * h / sx * meanPressure a * (2 / (π * (1 / sx + 1 / sy))) - 2 * h * (meanDisplacement a).getD 0

/-- Westergaard's displacements. -/
noncomputable def waveDisp (sx sy h a X : ℝ) : ℝ := 2 * h * displacements (X / sx) a + waveOffset sx sy h a

lemma press_fold {a : ℝ} (h0 : 0 < a) (h1 : a < 1 / 2) (y : ℝ) : pressureAt (fold y) (π * a) = inn a (fold y) / (2 * sin (π * a) ^ 2) := by
  have hA := sin_a_pos h0 (show a < 1 by linarith)
  have := press_eq h0 h1 (fold_nonneg y) (fold_le y)
  rw [fold_fold] at this
  rw [← this]; field_simp

lemma disp_fold {a : ℝ} (h0 : 0 < a) (h1 : a < 1 / 2) (y : ℝ) : displacements y a = -sin (π * fold y) ^ 2 + opn (max (fold y) a) a := by
  rw [← disp_eq h0 h1 (fold_nonneg y) (fold_le y)]
  unfold displacements
  rw [fold_fold]

lemma press_continuous {a : ℝ} (h0 : 0 < a) (h1 : a < 1 / 2) : Continuous fun y => pressureAt (fold y) (π * a) := by
  have hf := fold_continuous
  have : Continuous fun y => inn a (fold y) / (2 * sin (π * a) ^ 2) := by unfold inn; fun_prop
  exact this.congr fun y => (press_fold h0 h1 y).symm

lemma disp_continuous {a : ℝ} (h0 : 0 < a) (h1 : a < 1 / 2) : Continuous fun y => displacements y a := by
  have hf := fold_continuous
  have h2 : Continuous fun y => opn (max (fold y) a) a := (opn_cont h0 h1).comp_continuous hf fun y => ⟨fold_nonneg y, fold_le y⟩
  have : Continuous fun y => -sin (π * fold y) ^ 2 + opn (max (fold y) a) a := by fun_prop
  exact this.congr fun y => (disp_fold h0 h1 y).symm

/-- Integrals over a period. -/
lemma period_integral {f : ℝ → ℝ} (hf : Function.Periodic f 1) (hs : sx ≠ 0) : ∫ X in (0 : ℝ)..sx, f (X / sx) = sx * ∫ x in (-(1 / 2) : ℝ)..1 / 2, f x := by
  have h := intervalIntegral.integral_comp_div (a := 0) (b := sx) f hs
  rw [zero_div, div_self hs, smul_eq_mul] at h
  rw [h]
  congr 1
  have := hf.intervalIntegral_add_eq 0 (-(1 / 2))
  rw [zero_add, show (-(1 / 2) : ℝ) + 1 = 1 / 2 by norm_num] at this
  exact this

lemma disp_periodic (a : ℝ) : Function.Periodic (fun y => displacements y a) 1 := fun y => by
  have := (C91_symmetry y a 1 none none).1
  rwa [Int.cast_one] at this

lemma press_periodic (a : ℝ) : Function.Periodic (fun y => pressureAt (fold y) (π * a)) 1 := fun y => by
  have := fold_periodic y 1
  rw [Int.cast_one] at this
  beta_reduce
  rw [this]

lemma wave_load {a h : ℝ} (h0 : 0 < a) (h1 : a < 1 / 2) (hs : 0 < sx) : ∫ X in (0 : ℝ)..sx, wavePressure sx h a X = π * h * meanPressure a := by
  unfold wavePressure
  rw [intervalIntegral.integral_const_mul, intervalIntegral.integral_const_mul, period_integral (press_periodic a) hs.ne', (C132_unit_mean h0 h1).2]
  field_simp

lemma harmonic_cos {n : ℤ} (hn : n ≠ 0) (hs : 0 < sx) : ∫ X in (0 : ℝ)..sx, cos (2 * π * n * X / sx) = 0 := by
  have hn' : (n : ℝ) ≠ 0 := by exact_mod_cast hn
  have hc : 2 * π * n / sx ≠ 0 := by have := pi_pos; positivity
  have e : ∀ X, 2 * π * n * X / sx = 2 * π * n / sx * X := fun X => by ring
  simp only [e]
  rw [intervalIntegral.integral_comp_mul_left (fun x => cos x) hc, integral_cos, mul_zero, sin_zero, div_mul_cancel₀ _ hs.ne', show 2 * π * (n : ℝ) = n * (2 * π) by ring]
  have := sin_int_mul_pi (n * 2)
  push_cast at this
  rw [show (n : ℝ) * (2 * π) = n * 2 * π by ring, this]; simp

lemma harmonic_sin (n : ℤ) (hs : 0 < sx) : ∫ X in (0 : ℝ)..sx, sin (2 * π * n * X / sx) = 0 := by
  by_cases hn : n = 0
  · simp [hn]
  have hn' : (n : ℝ) ≠ 0 := by exact_mod_cast hn
  have hc : 2 * π * n / sx ≠ 0 := by have := pi_pos; positivity
  have e : ∀ X, 2 * π * n * X / sx = 2 * π * n / sx * X := fun X => by ring
  simp only [e]
  rw [intervalIntegral.integral_comp_mul_left (fun x => sin x) hc, integral_sin, mul_zero, cos_zero, div_mul_cancel₀ _ hs.ne', show 2 * π * (n : ℝ) = n * (2 * π) by ring, cos_int_mul_two_pi]
  simp

/-- Westergaard's solution is the answer of the continuous periodic half-space. -/
lemma wave_response {a h : ℝ} (h0 : 0 < a) (h1 : a < 1 / 2) (hs : 0 < sx) (hs' : 0 < sy) : LineResponse (cell sx sy) (wavePressure sx h a) (waveDisp sx sy h a) := by
  have hpi := pi_pos
  have hPc : Continuous (wavePressure sx h a) := by
    unfold wavePressure
    exact ((continuous_const.mul ((press_continuous h0 h1).comp (continuous_id.div_const sx))).const_smul (π * 1 * h / sx) :)
  have hUc : Continuous (waveDisp sx sy h a) := by
    unfold waveDisp
    exact (continuous_const.mul ((disp_continuous h0 h1).comp (continuous_id.div_const sx))).add continuous_const
  have hst : ∀ n : ℤ, n ≠ 0 → cellStiffness (cell sx sy) (n, 0) = 1 / 2 * |2 * π * n / sx| := by
    intro n hn
    unfold cellStiffness
    rw [if_neg (fun h => hn (congrArg Prod.fst h)), cell_modulus, cell_size0, cell_size1]
    show 1 / 2 * cellNumber sx sy (n, 0) * 1 = _
    unfold cellNumber
    simp only [Int.cast_zero, mul_zero, zero_div]
    rw [zero_pow two_ne_zero, add_zero, sqrt_sq_eq_abs, mul_one]
  have hz : cellStiffness (cell sx sy) (0, 0) = π * (1 / sx + 1 / sy) / 2 := by
    unfold cellStiffness
    rw [if_pos (show ((0 : ℤ), (0 : ℤ)) = 0 from rfl), cell_gamma]
  have hdisp : ∀ g : ℝ → ℝ, Continuous g → ∫ X in (0 : ℝ)..sx, waveDisp sx sy h a X * g X = (∫ X in (0 : ℝ)..sx, 2 * h * displacements (X / sx) a * g X) + waveOffset sx sy h a * ∫ X in (0 : ℝ)..sx, g X := by
    intro g hg
    have hd := (disp_continuous h0 h1).comp (continuous_id.div_const sx)
    have hd' : Continuous fun X => displacements (X / sx) a := hd
    rw [← intervalIntegral.integral_const_mul, ← intervalIntegral.integral_add (Continuous.intervalIntegrable (by fun_prop) _ _) (Continuous.intervalIntegrable (by fun_prop) _ _)]
    refine intervalIntegral.integral_congr fun X _ => ?_
    unfold waveDisp
    ring
  refine ⟨hPc, hUc, ?_, ?_, ?_, ?_⟩
  · intro X
    rw [cell_size0]
    unfold wavePressure
    rw [add_div, div_self hs.ne']
    have := press_periodic a (X / sx)
    beta_reduce at this
    rw [this]
  · intro X
    rw [cell_size0]
    unfold waveDisp
    rw [add_div, div_self hs.ne']
    have := disp_periodic a (X / sx)
    beta_reduce at this
    rw [this]
  · intro n
    rw [cell_size0]
    by_cases hn : n = 0
    · subst hn
      rw [hz]
      simp only [Int.cast_zero, mul_zero, zero_mul, zero_div, cos_zero, mul_one]
      rw [wave_load h0 h1 hs]
      have e := hdisp (fun _ => 1) continuous_const
      simp only [mul_one] at e
      rw [e, intervalIntegral.integral_const_mul, period_integral (disp_periodic a) hs.ne', intervalIntegral.integral_const, smul_eq_mul, mul_one, sub_zero]
      have hm : (meanDisplacement a).getD 0 = ∫ x in (-(1 / 2) : ℝ)..1 / 2, displacements x a := by rw [C133_mean h0 h1]; rfl
      unfold waveOffset
      rw [hm]
      field_simp
      ring
    · rw [hst n hn, hdisp _ (by fun_prop), harmonic_cos hn hs, mul_zero, add_zero]
      have := (C182_response h0 h1 (Es := 1) (h := h) (lam := sx) one_pos hs (P := wavePressure sx h a) (U := fun X => 2 * h * displacements (X / sx) a) (fun X => rfl) (fun X => ⟨_, rfl, rfl⟩) hn rfl).1
      have e : ∀ X : ℝ, 2 * π * n / sx * X = 2 * π * n * X / sx := fun X => by ring
      simp only [e] at this
      exact this
  · intro n
    rw [cell_size0]
    by_cases hn : n = 0
    · subst hn
      simp
    · rw [hst n hn, hdisp _ (by fun_prop), harmonic_sin n hs, mul_zero, add_zero]
      have := (C182_response h0 h1 (Es := 1) (h := h) (lam := sx) one_pos hs (P := wavePressure sx h a) (U := fun X => 2 * h * displacements (X / sx) a) (fun X => rfl) (fun X => ⟨_, rfl, rfl⟩) hn rfl).2
      have e : ∀ X : ℝ, 2 * π * n / sx * X = 2 * π * n * X / sx := fun X => by ring
      simp only [e] at this
      exact this

/-- Westergaard's solution solves the contact problem of a sine wave. -/
lemma wave_continuum {a h : ℝ} (h0 : 0 < a) (h1 : a < 1 / 2) (hh : 0 < h) (hs : 0 < sx) (hs' : 0 < sy) :
    LineContinuum sx sy (fun X => -(2 * h * sin (π * (X / sx)) ^ 2)) (waveOffset sx sy h a) (wavePressure sx h a) (waveDisp sx sy h a) := by
  have hpi := pi_pos
  have hA := sin_a_pos h0 (show a < 1 by linarith)
  have gap_ge : ∀ x, 0 ≤ gap x a := by
    intro x
    by_cases hx : ∃ k : ℤ, |x - k| ≤ a
    · rw [(C91_contact h0 h1 x).1 hx]
    · push Not at hx
      exact ((C91_contact h0 h1 x).2 hx).le
  refine ⟨wave_response h0 h1 hs hs', fun x => ?_, fun x => ?_, fun x hx => ?_⟩
  · have : 0 ≤ pressureAt (fold (x / sx)) (π * a) := by
      rw [press_fold h0 h1]
      unfold inn
      have : 0 ≤ cos (π * fold (x / sx)) := cos_nonneg_of_mem_Icc ⟨by nlinarith [fold_nonneg (x / sx)], by nlinarith [fold_le (x / sx)]⟩
      positivity
    unfold wavePressure meanPressure
    positivity
  · have := gap_ge (x / sx)
    unfold gap at this
    unfold waveDisp
    nlinarith
  · have hne : pressureAt (fold (x / sx)) (π * a) ≠ 0 := fun h => hx (by unfold wavePressure; rw [h]; ring)
    obtain ⟨v, hv, -, hv2⟩ := C91_pressure h0 h1 (x / sx) none
    have ev : pressureAt (fold (x / sx)) (π * a) = v := by injection hv
    have hk : ∃ k : ℤ, |x / sx - k| ≤ a := by
      by_contra hc
      push Not at hc
      exact hne (ev.trans (hv2 fun k => (hc k).le))
    have := (C91_contact h0 h1 (x / sx)).1 hk
    unfold gap at this
    unfold waveDisp
    rw [show displacements (x / sx) a = -sin (π * (x / sx)) ^ 2 by linarith]
    ring

/-- The offset as a function of the mean pressure. -/
lemma offset_eq {a : ℝ} (h : ℝ) (h0 : 0 < a) (h1 : a < 1 / 2) :
    waveOffset sx sy h a = π * h / sx * meanPressure a * (2 / (π * (1 / sx + 1 / sy))) + h * (meanPressure a - meanPressure a * log (meanPressure a)) := by
  have hA := sin_a_pos h0 (show a < 1 by linarith)
  unfold waveOffset
  rw [meanDisplacement_eq h0 (by linarith)]
  unfold meanPressure
  rw [log_pow, cos_sq', Option.getD_some]
  push_cast
  ring

lemma meanPressure_lt {a b : ℝ} (h0 : 0 < a) (hab : a < b) (h1 : b < 1 / 2) : meanPressure a < meanPressure b := by
  unfold meanPressure
  have hA := sin_a_pos h0 (show a < 1 by linarith)
  have := sin_lt h0 hab h1.le
  gcongr

lemma entropy_mono {s t : ℝ} (hs : 0 < s) (hst : s < t) (ht : t ≤ 1) : s - s * log s ≤ t - t * log t := by
  have h1 : log t ≤ 0 := log_nonpos (hs.trans hst).le ht
  have h2 := one_sub_inv_le_log_of_pos (div_pos hs (hs.trans hst))
  rw [log_div hs.ne' (hs.trans hst).ne', inv_div] at h2
  have h3 := mul_le_mul_of_nonneg_left h2 hs.le
  rw [mul_sub, mul_one, mul_div_cancel₀ _ hs.ne'] at h3
  nlinarith

lemma offset_lt {a b h : ℝ} (h0 : 0 < a) (hab : a < b) (h1 : b < 1 / 2) (hh : 0 < h) (hs : 0 < sx) (hs' : 0 < sy) : waveOffset sx sy h a < waveOffset sx sy h b := by
  have hpi := pi_pos
  rw [offset_eq h h0 (by linarith), offset_eq h (h0.trans hab) h1]
  have hlt := meanPressure_lt h0 hab h1
  have hp : 0 < meanPressure a := by
    unfold meanPressure
    have hA := sin_a_pos h0 (show a < 1 by linarith)
    positivity
  have hle : meanPressure b ≤ 1 := by unfold meanPressure; exact sin_sq_le_one _
  have := entropy_mono hp hlt hle
  have e1 : π * h / sx * meanPressure a * (2 / (π * (1 / sx + 1 / sy))) < π * h / sx * meanPressure b * (2 / (π * (1 / sx + 1 / sy))) := by gcongr
  have e2 := mul_le_mul_of_nonneg_left this hh.le
  linarith

lemma offset_continuous {a : ℝ} (h : ℝ) (h0 : 0 < a) (h1 : a < 1 / 2) : ContinuousAt (waveOffset sx sy h) a := by
  have hm : Continuous meanPressure := by unfold meanPressure; fun_prop
  have hl : Continuous fun a => meanPressure a * log (meanPressure a) := continuous_mul_log.comp hm
  have : Continuous fun a => π * h / sx * meanPressure a * (2 / (π * (1 / sx + 1 / sy))) + h * (meanPressure a - meanPressure a * log (meanPressure a)) := by fun_prop
  refine this.continuousAt.congr ?_
  filter_upwards [Ioo_mem_nhds h0 h1] with b hb
  exact (offset_eq h hb.1 hb.2).symm

lemma near_radius {a : ℝ} (h0 : 0 < a) (h1 : a < 1 / 2) : ∃ ρ > 0, ∀ t, |t - a| < ρ → 0 < t ∧ t < 1 / 2 :=
  ⟨min a (1 / 2 - a), lt_min h0 (by linarith), fun t ht => by
    have h2 := abs_lt.1 ht
    have := min_le_left a (1 / 2 - a)
    have := min_le_right a (1 / 2 - a)
    constructor <;> linarith [h2.1, h2.2]⟩

lemma wave_load_continuous {a h : ℝ} (h0 : 0 < a) (h1 : a < 1 / 2) (hs : 0 < sx) : ContinuousAt (fun t => ∫ y in (0 : ℝ)..sx, wavePressure sx h t y) a := by
  have : Continuous fun t => π * h * meanPressure t := by unfold meanPressure; fun_prop
  refine this.continuousAt.congr ?_
  filter_upwards [Ioo_mem_nhds h0 h1] with b hb
  exact (wave_load hb.1 hb.2 hs).symm

/-- **C196** A sine wave of amplitude `h` whose wavelength is the length `sx` of the periodic substrate of `contact_mechanics`, pressed to the contact radius `a` (in wavelengths): the offset that
belongs to it is `2 h` times minus the mean displacement of the reference solution, plus the displacement of the uniform mean pressure.  At this offset, as the grid is refined along x and the tolerance
shrinks, the mean pressure converges to `mean_pressure` (in units of `π h/sx`) and the displacements converge, in the mean square, to `displacements` (in units of `2 h`, from the offset). -/
theorem C196_westergaard {a h : ℝ} (h0 : 0 < a) (h1 : a < 1 / 2) (hh : 0 < h) (hsx : 0 < sx) (hsy : 0 < sy) {m : ℝ} (hm : meanDisplacement a = some m) {o : ℝ}
    (ho : o = π * h / sx * meanPressure a * (2 / (π * (1 / sx + 1 / sy))) - 2 * h * m) {η : ℝ} (hη : 0 < η) :
    ∃ δ > 0, ∀ (T : Topo) (k : Option String) (nx ny : ℕ) (p u : Fin nx × Fin ny → ℝ), ValidTopo T nx ny sx sy → (k = some "periodic" ∨ (k = none ∧ T.isPeriodic = true)) →
      (∀ i j, i < nx → j < ny → T.heights.get [i, j] = -(2 * h * sin (π * (i * (sx / nx) / sx)) ^ 2)) → sx / nx < δ → NearContact T k nx ny sx sy o δ p u →
      |avg p - π * h / sx * meanPressure a| ≤ η ∧ avg (fun x => (u x - (2 * h * displacements (x.1 * (sx / nx) / sx) a + o)) ^ 2) ≤ η := by
  obtain ⟨ρ, hρ, hr⟩ := near_radius h0 h1
  have eo : o = waveOffset sx sy h a := by rw [ho, waveOffset, hm]; rfl
  subst eo
  have hq : ∀ t, |t - a| < ρ → LineContinuum sx sy (fun X => -(2 * h * sin (π * (X / sx)) ^ 2)) (waveOffset sx sy h t) (wavePressure sx h t) (waveDisp sx sy h t) := fun t ht =>
    wave_continuum (hr t ht).1 (hr t ht).2 hh hsx hsy
  have hup : ∀ t, a < t → t < a + ρ → waveOffset sx sy h a < waveOffset sx sy h t := fun t ht ht' =>
    offset_lt h0 ht (hr t (by rw [abs_of_pos (by linarith)]; linarith)).2 hh hsx hsy
  have hdn : ∀ t, t < a → a - ρ < t → waveOffset sx sy h t < waveOffset sx sy h a := fun t ht ht' =>
    offset_lt (hr t (by rw [abs_of_neg (by linarith)]; linarith)).1 ht h1 hh hsx hsy
  obtain ⟨d1, hd1, g1⟩ := C196_load hρ hsx hsy hq hup hdn (wave_load_continuous h0 h1 hsx) (mul_pos hη hsx)
  obtain ⟨d2, hd2, g2⟩ := C196_displacements hρ hsx hsy hq hup hdn (wave_load_continuous h0 h1 hsx) hη
  refine ⟨min d1 d2, lt_min hd1 hd2, fun T k nx ny p u hT hk hH hx hn => ⟨?_, ?_⟩⟩
  · have := g1 T k nx ny p u hT hk (fun i j hi hj => hH i j hi hj) (hx.trans_le (min_le_left _ _))
      ⟨hn.response, hn.noTension, fun x => (hn.penetration x).trans (min_le_left _ _), fun x hx => (hn.gap x hx).trans (min_le_left _ _)⟩
    rw [wave_load h0 h1 hsx, show avg p * sx - π * h * meanPressure a = (avg p - π * h / sx * meanPressure a) * sx by field_simp, abs_mul, abs_of_pos hsx] at this
    exact le_of_mul_le_mul_right this hsx
  · exact g2 T k nx ny p u hT hk (fun i j hi hj => hH i j hi hj) (hx.trans_le (min_le_right _ _))
      ⟨hn.response, hn.noTension, fun x => (hn.penetration x).trans (min_le_right _ _), fun x hx => (hn.gap x hx).trans (min_le_right _ _)⟩

/-- **C196** Under load: pressed with the mean pressure `P` (in units of `π h/sx`, below one), the wave sinks in as deep as the reference solution says for the contact radius `contact_radius(P)`. -/
theorem C196_pressed {P h : ℝ} (hP0 : 0 < P) (hP1 : P < 1) (hh : 0 < h) (hsx : 0 < sx) (hsy : 0 < sy) {m : ℝ} (hm : meanDisplacement (contactRadius P) = some m) {η : ℝ} (hη : 0 < η) :
    ∃ δ > 0, ∀ (T : Topo) (k : Option String) (nx ny : ℕ) (o : ℝ) (p u : Fin nx × Fin ny → ℝ), ValidTopo T nx ny sx sy → (k = some "periodic" ∨ (k = none ∧ T.isPeriodic = true)) →
      (∀ i j, i < nx → j < ny → T.heights.get [i, j] = -(2 * h * sin (π * (i * (sx / nx) / sx)) ^ 2)) → sx / nx < δ → NearContact T k nx ny sx sy o δ p u →
      |avg p - π * h / sx * P| ≤ δ → |o - (π * h / sx * P * (2 / (π * (1 / sx + 1 / sy))) - 2 * h * m)| ≤ η := by
  have hpi := pi_pos
  set a := contactRadius P with ha
  have hmp : meanPressure a = P := C90_inverse.2 P hP0.le hP1.le
  have h0 : 0 < a := by
    rw [ha]; unfold contactRadius
    have : 0 < arcsin √P := arcsin_pos.2 (sqrt_pos.2 hP0)
    positivity
  have h1 : a < 1 / 2 := by
    rw [ha]; unfold contactRadius
    have : arcsin √P < π / 2 := arcsin_lt_pi_div_two.2 (by rw [sqrt_lt' one_pos]; simpa using hP1)
    rw [one_div, inv_mul_lt_iff₀ hpi]
    linarith
  obtain ⟨ρ, hρ, hr⟩ := near_radius h0 h1
  have hq : ∀ t, |t - a| < ρ → LineContinuum sx sy (fun X => -(2 * h * sin (π * (X / sx)) ^ 2)) (waveOffset sx sy h t) (wavePressure sx h t) (waveDisp sx sy h t) := fun t ht =>
    wave_continuum (hr t ht).1 (hr t ht).2 hh hsx hsy
  obtain ⟨d, hd, g⟩ := C196_offset hρ hsx hsy hq (offset_continuous h h0 h1)
    (fun t ht ht' => by
      have htt := hr t (by rw [abs_of_pos (by linarith)]; linarith)
      rw [wave_load h0 h1 hsx, wave_load htt.1 htt.2 hsx]
      exact mul_lt_mul_of_pos_left (meanPressure_lt h0 ht htt.2) (by positivity))
    (fun t ht ht' => by
      have htt := hr t (by rw [abs_of_neg (by linarith)]; linarith)
      rw [wave_load h0 h1 hsx, wave_load htt.1 htt.2 hsx]
      exact mul_lt_mul_of_pos_left (meanPressure_lt htt.1 ht h1) (by positivity)) hη
  refine ⟨min d (d / sx), lt_min hd (div_pos hd hsx), fun T k nx ny o p u hT hk hH hx hn hl => ?_⟩
  have := g T k nx ny o p u hT hk (fun i j hi hj => hH i j hi hj) (hx.trans_le (min_le_left _ _))
    ⟨hn.response, hn.noTension, fun x => (hn.penetration x).trans (min_le_left _ _), fun x hx => (hn.gap x hx).trans (min_le_left _ _)⟩ (by
      rw [wave_load h0 h1 hsx, show avg p * sx - π * h * meanPressure a = (avg p - π * h / sx * P) * sx by rw [hmp]; field_simp, abs_mul, abs_of_pos hsx, ← le_div_iff₀ hsx]
      exact hl.trans (min_le_right _ _))
  have e : waveOffset sx sy h a = π * h / sx * P * (2 / (π * (1 / sx + 1 / sy))) - 2 * h * m := by rw [waveOffset, hm, hmp]; rfl
  rwa [e] at this

/-! ## Calculations -/

lemma made_of_report {T : Topo} {rms : NdArray ℝ → ℝ} {bisect : Bisect} {A : PipeArgs} {out : Except PyErr Result} {reps : List Report} (h : contactMechanicsCCG T rms bisect A = (out, reps))
    {rep : Report} (hrep : rep ∈ reps) : ∃ sub, makeSubstrate T A.substrate = .ok sub := by
  cases hm : makeSubstrate T A.substrate with
  | ok sub => exact ⟨sub, rfl⟩
  | error e =>
    exfalso
    have e1 : makePipeSystem T A = .error e := by unfold makePipeSystem; rw [hm]; rfl
    unfold contactMechanicsCCG contactMechanics at h
    rw [e1] at h
    cases hv : validate A with
    | ok _ =>
      rw [hv] at h
      have : reps = [] := (Prod.ext_iff.1 h).2.symm
      rw [this] at hrep; cases hrep
    | error e' =>
      rw [hv] at h
      have : reps = [] := (Prod.ext_iff.1 h).2.symm
      rw [this] at hrep; cases hrep

/-- **C196** For the fields a callback of `contact_mechanics` receives: an elastic step at this offset on a fine periodic grid whose reported pressures are not tensile, whose penetration is at most `δ` and
whose gap under pressure is at most `δ`, reports Westergaard's mean pressure. -/
theorem C196_calculation {a h : ℝ} (h0 : 0 < a) (h1 : a < 1 / 2) (hh : 0 < h) (hsx : 0 < sx) (hsy : 0 < sy) {m : ℝ} (hm : meanDisplacement a = some m) {o : ℝ}
    (ho : o = π * h / sx * meanPressure a * (2 / (π * (1 / sx + 1 / sy))) - 2 * h * m) {η : ℝ} (hη : 0 < η) :
    ∃ δ > 0, ∀ (T : Topo) (nx ny : ℕ) (rms : NdArray ℝ → ℝ) (bisect : Bisect) (A : PipeArgs) (out : Except PyErr Result) (reps : List Report) (rep : Report), ValidTopo T nx ny sx sy →
      (A.substrate = some "periodic" ∨ (A.substrate = none ∧ T.isPeriodic = true)) → (∀ H, A.hardness = some H → H ≤ 0) →
      (∀ i j, i < nx → j < ny → T.heights.get [i, j] = -(2 * h * sin (π * (i * (sx / nx) / sx)) ^ 2)) → sx / nx < δ →
      contactMechanicsCCG T rms bisect A = (out, reps) → rep ∈ reps → rep.meanDisplacement = o → (∀ x, 0 ≤ field nx ny rep.pressure x) →
      (∀ x, wall T nx ny o x - field nx ny rep.displacement x ≤ δ) → (∀ x, field nx ny rep.pressure x ≠ 0 → field nx ny rep.gap x ≤ δ) →
      |rep.meanPressure - π * h / sx * meanPressure a| ≤ η := by
  obtain ⟨δ, hδ, g⟩ := C196_westergaard h0 h1 hh hsx hsy hm ho hη
  refine ⟨δ, hδ, fun T nx ny rms bisect A out reps rep hT hk hel hH hx hrun hrep ho' hp hpen hgap => ?_⟩
  obtain ⟨sub, hs⟩ := made_of_report hrun hrep
  obtain ⟨r1, r2, r3⟩ := report_state hT hel hrun hrep hs
  rw [r3]
  refine (g T A.substrate nx ny _ _ hT hk hH hx ⟨⟨sub, hs, r1⟩, hp, hpen, fun x hx => ?_⟩).1
  have := hgap x hx
  rw [r2, ho'] at this
  exact (le_max_right _ _).trans this

/-! ## The hypotheses can be met -/

/-- A sine wave on `n × 2` points. -/
noncomputable def waveTopo (n : ℕ) : Topo :=
  ⟨⟨[n, 2], fun x => match x with | [i, _] => -(2 * 1 * sin (π * (i * (1 / n) / 1)) ^ 2) | _ => 0⟩, [1, 1], true, 0⟩

/-- The conditions of `C195_line` are met by Westergaard's pressure, those of `C196_westergaard` by a sine wave: on every grid, however fine, there is a state as required. -/
example : LineResponse (cell 1 1) (wavePressure 1 1 (1 / 4)) (waveDisp 1 1 1 (1 / 4)) ∧ ∃ m o, meanDisplacement (1 / 4) = some m ∧
    o = π * 1 / 1 * meanPressure (1 / 4) * (2 / (π * (1 / 1 + 1 / 1))) - 2 * 1 * m ∧ ∀ δ > 0, ∃ n p u, ValidTopo (waveTopo n) n 2 1 1 ∧ (waveTopo n).isPeriodic = true ∧
    (∀ i j, i < n → j < 2 → (waveTopo n).heights.get [i, j] = -(2 * 1 * sin (π * (i * (1 / n) / 1)) ^ 2)) ∧ (1 : ℝ) / n < δ ∧ NearContact (waveTopo n) none n 2 1 1 o δ p u := by
  refine ⟨wave_response (by norm_num) (by norm_num) one_pos one_pos, _, _, meanDisplacement_eq (by norm_num) (by norm_num), rfl, fun δ hδ => ?_⟩
  obtain ⟨n, hn⟩ := exists_nat_one_div_lt hδ
  have hT : ValidTopo (waveTopo (n + 2)) (n + 2) 2 1 1 := by constructor <;> first | rfl | norm_num
  obtain ⟨sub, hm⟩ : ∃ sub, makeSubstrate (waveTopo (n + 2)) none = .ok sub := by
    have hn : substrateName (waveTopo (n + 2)) none = "periodic" := rfl
    rcases make_cases hT none with ⟨-, h0, -⟩ | ⟨-, -, s, -, hs⟩ | ⟨h0, -⟩ | ⟨h0, -⟩
    · exact absurd ⟨by omega, by omega⟩ h0
    · exact ⟨_, hs⟩
    · rw [hn] at h0; exact absurd h0 (by decide)
    · exact absurd hn h0
  obtain ⟨p, hp⟩ := C156_solvable_at_offset hT hm _
  refine ⟨n + 2, p, _, hT, rfl, fun i j _ _ => rfl, ?_, near_of_exact hδ.le ⟨sub, hm, rfl, hp⟩⟩
  refine lt_of_le_of_lt ?_ hn
  push_cast
  gcongr
  norm_num

end CM.Disc
