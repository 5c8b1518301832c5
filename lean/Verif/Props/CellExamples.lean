import Verif.Props.CellContinuum
import Verif.Props.ReportNear
import Verif.Props.LineWestergaard
import Verif.Props.Indentation
import Mathlib.Analysis.SpecialFunctions.Integrals.Basic
/-!
# Continuous periodic contacts: reports of `contact_mechanics`, profiles, full contact, uniqueness (C199)
-/
namespace CM.Disc
open Real MeasureTheory Set Topology CM.Ref CM.Spec CM.HS CM.FFT CM.System CM.Pipe CM.Smooth
open scoped ComplexConjugate

variable {nx ny : ℕ} {sx sy : ℝ} {T : Topo}

/-- **C199** For the fields a callback of `contact_mechanics` receives: an elastic step at the offset of the continuous contact on a fine grid whose reported pressures are not tensile, whose penetration is
at most `h` and whose gap under pressure is at most `h`, reports the mean pressure of the continuous contact, its displacements in the mean square and its pressures weakly. -/
theorem C199_calculation {H q v φ : ℝ × ℝ → ℝ} {d : ℝ} (hq : CellContinuum sx sy H d q v) (hφ : Continuous φ) (hφr : Repeats sx sy φ) (hsx : 0 < sx) (hsy : 0 < sy) {η : ℝ} (hη : 0 < η) :
    ∃ h > 0, ∀ (T : Topo) (nx ny : ℕ) (rms : NdArray ℝ → ℝ) (bisect : Bisect) (A : PipeArgs) (out : Except PyErr Result) (reps : List Report) (rep : Report), ValidTopo T nx ny sx sy →
      (A.substrate = some "periodic" ∨ (A.substrate = none ∧ T.isPeriodic = true)) → (∀ h, A.hardness = some h → h ≤ 0) → HeightsOf H T nx ny sx sy → sx / nx < h → sy / ny < h →
      contactMechanicsCCG T rms bisect A = (out, reps) → rep ∈ reps → rep.meanDisplacement = d → (∀ x, 0 ≤ field nx ny rep.pressure x) →
      (∀ x, wall T nx ny d x - field nx ny rep.displacement x ≤ h) → (∀ x, field nx ny rep.pressure x ≠ 0 → field nx ny rep.gap x ≤ h) →
      |rep.meanPressure * (sx * sy) - overCell sx sy q| ≤ η ∧ avg (fun x => (field nx ny rep.displacement x - v (gridPoint (sx / nx) (sy / ny) x.1 x.2)) ^ 2) ≤ η ∧
        |avg (fun x => field nx ny rep.pressure x * φ (gridPoint (sx / nx) (sy / ny) x.1 x.2)) * (sx * sy) - overCell sx sy (fun x => q x * φ x)| ≤ η := by
  obtain ⟨h1, hh1, g1⟩ := C199_load hq hsx hsy hη
  obtain ⟨h2, hh2, g2⟩ := C199_displacements hq hsx hsy hη
  obtain ⟨h3, hh3, g3⟩ := C199_pressures hq hφ hφr hsx hsy hη
  refine ⟨min h1 (min h2 h3), lt_min hh1 (lt_min hh2 hh3), fun T nx ny rms bisect A out reps rep hT hk hel hH hx hy hrun hrep ho hp hpen hgap => ?_⟩
  have l1 : min h1 (min h2 h3) ≤ h1 := min_le_left _ _
  have l2 : min h1 (min h2 h3) ≤ h2 := (min_le_right _ _).trans (min_le_left _ _)
  have l3 : min h1 (min h2 h3) ≤ h3 := (min_le_right _ _).trans (min_le_right _ _)
  subst ho
  obtain ⟨n, hmean⟩ := report_near hT hel hrun hrep hp hpen hgap
  rw [hmean]
  exact ⟨g1 T _ nx ny _ _ hT hk hH (hx.trans_le l1) (hy.trans_le l1) (n.weaken l1), g2 T _ nx ny _ _ hT hk hH (hx.trans_le l2) (hy.trans_le l2) (n.weaken l2),
    g3 T _ nx ny _ _ hT hk hH (hx.trans_le l3) (hy.trans_le l3) (n.weaken l3)⟩

/-- **C199** Under a load: an elastic step whose reported mean pressure is that of the continuous contact up to `h` (and is positive), whose reported pressures are not tensile, whose penetration is at
most `h` and whose gap under pressure is at most `h`, reports the offset of the continuous contact, its displacements in the mean square and its pressures weakly. -/
theorem C199_pressed {H q v φ : ℝ × ℝ → ℝ} {d : ℝ} (hq : CellContinuum sx sy H d q v) (hφ : Continuous φ) (hφr : Repeats sx sy φ) (hpos : 0 < overCell sx sy q) (hsx : 0 < sx) (hsy : 0 < sy) {η : ℝ} (hη : 0 < η) :
    ∃ h > 0, ∀ (T : Topo) (nx ny : ℕ) (rms : NdArray ℝ → ℝ) (bisect : Bisect) (A : PipeArgs) (out : Except PyErr Result) (reps : List Report) (rep : Report), ValidTopo T nx ny sx sy →
      (A.substrate = some "periodic" ∨ (A.substrate = none ∧ T.isPeriodic = true)) → (∀ h, A.hardness = some h → h ≤ 0) → HeightsOf H T nx ny sx sy → sx / nx < h → sy / ny < h →
      contactMechanicsCCG T rms bisect A = (out, reps) → rep ∈ reps → |rep.meanPressure * (sx * sy) - overCell sx sy q| ≤ h → (∀ x, 0 ≤ field nx ny rep.pressure x) →
      (∀ x, wall T nx ny rep.meanDisplacement x - field nx ny rep.displacement x ≤ h) → (∀ x, field nx ny rep.pressure x ≠ 0 → field nx ny rep.gap x ≤ h) →
      |rep.meanDisplacement - d| ≤ η ∧ avg (fun x => (field nx ny rep.displacement x - v (gridPoint (sx / nx) (sy / ny) x.1 x.2)) ^ 2) ≤ η ∧
        |avg (fun x => field nx ny rep.pressure x * φ (gridPoint (sx / nx) (sy / ny) x.1 x.2)) * (sx * sy) - overCell sx sy (fun x => q x * φ x)| ≤ η := by
  obtain ⟨h2, hh2, g2⟩ := C199_displacements hq hsx hsy hη
  obtain ⟨h3, hh3, g3⟩ := C199_pressures hq hφ hφr hsx hsy hη
  have hm : 0 < min h2 h3 := lt_min hh2 hh3
  obtain ⟨h1, hh1, g1⟩ := C199_offset hq hpos hsx hsy (lt_min hη (half_pos hm))
  refine ⟨min h1 (min h2 h3 / 2), lt_min hh1 (half_pos hm), fun T nx ny rms bisect A out reps rep hT hk hel hH hx hy hrun hrep ho hp hpen hgap => ?_⟩
  have l1 : min h1 (min h2 h3 / 2) ≤ h1 := min_le_left _ _
  have l0 : min h1 (min h2 h3 / 2) ≤ min h2 h3 / 2 := min_le_right _ _
  have l2 : min h2 h3 ≤ h2 := min_le_left _ _
  have l3 : min h2 h3 ≤ h3 := min_le_right _ _
  obtain ⟨n, hmean⟩ := report_near hT hel hrun hrep hp hpen hgap
  rw [hmean] at ho
  have a1 := g1 T _ nx ny _ _ _ hT hk hH (hx.trans_le l1) (hy.trans_le l1) (n.weaken l1) (ho.trans l1)
  have a2 := (n.at_offset (a1.trans (min_le_right _ _))).weaken (show min h1 (min h2 h3 / 2) + min h2 h3 / 2 ≤ min h2 h3 by linarith)
  have l2' : min h1 (min h2 h3 / 2) ≤ h2 := by linarith
  have l3' : min h1 (min h2 h3 / 2) ≤ h3 := by linarith
  exact ⟨a1.trans (min_le_left _ _), g2 T _ nx ny _ _ hT hk hH (hx.trans_le l2') (hy.trans_le l2') (a2.weaken l2), g3 T _ nx ny _ _ hT hk hH (hx.trans_le l3') (hy.trans_le l3') (a2.weaken l3)⟩

/-! ## Waves are orthogonal -/

lemma wave_mean {s : ℝ} (hs : 0 < s) {k : ℤ} (hk : k ≠ 0) : ∫ x in (0 : ℝ)..s, e s k x = 0 := by
  have hpi := pi_pos
  have hc : (2 * π * k / s * Complex.I : ℂ) ≠ 0 := by
    have h1 : (s : ℂ) ≠ 0 := by exact_mod_cast hs.ne'
    have h2 : (k : ℂ) ≠ 0 := by exact_mod_cast hk
    have h3 : (π : ℂ) ≠ 0 := by exact_mod_cast hpi.ne'
    simp [h1, h2, h3]
  have h := integral_exp_mul_complex (a := 0) (b := s) hc
  have e1 : ∀ x : ℝ, e s k x = Complex.exp (2 * π * k / s * Complex.I * x) := fun x => by
    unfold e; congr 1; ring
  simp only [e1]
  rw [h]
  have e2 := e_periodic hs.ne' k 0
  rw [zero_add, e1, e1] at e2
  rw [e2, sub_self, zero_div]

lemma wave_orth {s : ℝ} (hs : 0 < s) (j k : ℤ) : ∫ x in (0 : ℝ)..s, e s j x * conj (e s k x) = if j = k then (s : ℂ) else 0 := by
  have e1 : ∀ x, e s j x * conj (e s k x) = e s (j - k) x := by
    intro x
    rw [e_conj, sub_eq_add_neg, e_mul]
    congr 1
    unfold e
    congr 1
    push_cast
    ring
  simp only [e1]
  split_ifs with h
  · rw [h, sub_self]
    simp [e_zero]
  · exact wave_mean hs (sub_ne_zero.2 h)

/-! ## Profiles -/

lemma coefficient_along (q : ℝ → ℝ) (k : ℤ × ℤ) :
    coefficient sx sy (along q) k = (∫ x in (0 : ℝ)..sx, (q x : ℂ) * conj (e sx k.1 x)) * ∫ y in (0 : ℝ)..sy, conj (e sy k.2 y) := by
  unfold coefficient along
  rw [← intervalIntegral.integral_mul_const]
  refine intervalIntegral.integral_congr fun x _ => ?_
  simp only
  rw [← intervalIntegral.integral_const_mul]
  refine intervalIntegral.integral_congr fun y _ => ?_
  simp only [wave_split, map_mul]
  ring

lemma conj_mean (hsy : 0 < sy) (l : ℤ) : ∫ y in (0 : ℝ)..sy, conj (e sy l y) = if l = 0 then (sy : ℂ) else 0 := by
  have := wave_orth hsy 0 l
  simp only [e_zero, one_mul] at this
  rw [this]
  simp only [eq_comm]

lemma line_coefficient {q : ℝ → ℝ} (hq : Continuous q) (n : ℤ) :
    ∫ x in (0 : ℝ)..sx, (q x : ℂ) * conj (e sx n x) = (∫ x in (0 : ℝ)..sx, q x * cos (2 * π * n * x / sx) : ℝ) - (∫ x in (0 : ℝ)..sx, q x * sin (2 * π * n * x / sx) : ℝ) * Complex.I := by
  rw [← intervalIntegral.integral_ofReal, ← intervalIntegral.integral_ofReal, ← intervalIntegral.integral_mul_const, ← intervalIntegral.integral_sub]
  · refine intervalIntegral.integral_congr fun x _ => ?_
    beta_reduce
    rw [e_conj, e_real, Complex.exp_mul_I, ← Complex.ofReal_cos, ← Complex.ofReal_sin, show 2 * π * (n * -x / sx) = -(2 * π * n * x / sx) by ring, cos_neg, sin_neg]
    push_cast
    ring
  · exact Continuous.intervalIntegrable (by fun_prop) _ _
  · exact Continuous.intervalIntegrable (by fun_prop) _ _

/-- The answer to a line pressure is the answer to the pressure on the surface. -/
lemma line_response {q v : ℝ → ℝ} (hsy : 0 < sy) (h : LineResponse (cell sx sy) q v) : CellResponse (cell sx sy) (along q) (along v) := by
  refine ⟨h.pressure_continuous.comp continuous_fst, h.displacement_continuous.comp continuous_fst, ⟨fun x _ => h.pressure_periodic x, fun _ _ => rfl⟩,
    ⟨fun x _ => h.displacement_periodic x, fun _ _ => rfl⟩, fun k => ?_⟩
  rw [cell_size0, cell_size1, coefficient_along, coefficient_along, conj_mean hsy]
  split_ifs with hk
  · have e1 := h.cos k.1
    have e2 := h.sin k.1
    rw [cell_size0] at e1 e2
    rw [line_coefficient h.pressure_continuous, line_coefficient h.displacement_continuous, ← e1, ← e2, show k = (k.1, 0) from Prod.ext rfl hk]
    push_cast
    ring
  · simp

/-- The contact of a profile is the contact of a surface. -/
lemma line_continuum {H q v : ℝ → ℝ} {d : ℝ} (hsy : 0 < sy) (h : LineContinuum sx sy H d q v) : CellContinuum sx sy (along H) d (along q) (along v) :=
  ⟨line_response hsy h.response, fun x => h.noTension _, fun x => h.noPenetration _, fun x hx => h.touching _ hx⟩

/-! ## Sums of waves -/

lemma coefficient_add {f g : ℝ × ℝ → ℝ} (hf : Continuous f) (hg : Continuous g) (a b : ℝ) (k : ℤ × ℤ) :
    coefficient sx sy (fun x => a * f x + b * g x) k = a * coefficient sx sy f k + b * coefficient sx sy g k := by
  have hw : Continuous fun x : ℝ × ℝ => conj (cellWave sx sy k x.1 x.2) := by
    have h1 := e_continuous sx k.1
    have h2 := e_continuous sy k.2
    simp only [wave_split]
    exact Complex.continuous_conj.comp ((h1.comp continuous_fst).mul (h2.comp continuous_snd))
  have hF : ∀ {f : ℝ × ℝ → ℝ}, Continuous f → Continuous fun x : ℝ × ℝ => (f (x.1, x.2) : ℂ) * conj (cellWave sx sy k x.1 x.2) := fun hf => (Complex.continuous_ofReal.comp hf).mul hw
  have hin : ∀ {f : ℝ × ℝ → ℝ}, Continuous f → Continuous fun x => ∫ y in (0 : ℝ)..sy, (f (x, y) : ℂ) * conj (cellWave sx sy k x y) := fun {f} hf =>
    intervalIntegral.continuous_parametric_intervalIntegral_of_continuous' (f := fun x y => (f (x, y) : ℂ) * conj (cellWave sx sy k x y)) (hF hf) 0 sy
  unfold coefficient
  rw [← intervalIntegral.integral_const_mul, ← intervalIntegral.integral_const_mul, ← intervalIntegral.integral_add]
  · refine intervalIntegral.integral_congr fun x _ => ?_
    simp only
    rw [← intervalIntegral.integral_const_mul, ← intervalIntegral.integral_const_mul, ← intervalIntegral.integral_add]
    · refine intervalIntegral.integral_congr fun y _ => ?_
      beta_reduce
      push_cast
      ring
    · exact Continuous.intervalIntegrable (continuous_const.mul ((hF hf).comp (by fun_prop : Continuous fun y => (x, y)))) _ _
    · exact Continuous.intervalIntegrable (continuous_const.mul ((hF hg).comp (by fun_prop : Continuous fun y => (x, y)))) _ _
  · exact Continuous.intervalIntegrable (continuous_const.mul (hin hf)) _ _
  · exact Continuous.intervalIntegrable (continuous_const.mul (hin hg)) _ _

/-- Answers add up. -/
lemma CellResponse.comb {A : Args} {q₁ v₁ q₂ v₂ : ℝ × ℝ → ℝ} (h₁ : CellResponse A q₁ v₁) (h₂ : CellResponse A q₂ v₂) (a b : ℝ) :
    CellResponse A (fun x => a * q₁ x + b * q₂ x) (fun x => a * v₁ x + b * v₂ x) := by
  refine ⟨(continuous_const.mul h₁.pressure_continuous).add (continuous_const.mul h₂.pressure_continuous), (continuous_const.mul h₁.displacement_continuous).add (continuous_const.mul h₂.displacement_continuous),
    ⟨fun x y => by rw [h₁.pressure_repeats.x, h₂.pressure_repeats.x], fun x y => by rw [h₁.pressure_repeats.y, h₂.pressure_repeats.y]⟩,
    ⟨fun x y => by rw [h₁.displacement_repeats.x, h₂.displacement_repeats.x], fun x y => by rw [h₁.displacement_repeats.y, h₂.displacement_repeats.y]⟩, fun k => ?_⟩
  rw [coefficient_add h₁.pressure_continuous h₂.pressure_continuous, coefficient_add h₁.displacement_continuous h₂.displacement_continuous, ← h₁.waves, ← h₂.waves]
  ring

lemma cos_orth {s : ℝ} (hs : 0 < s) (m k : ℤ) (hk : k ≠ m) (hk' : k ≠ -m) : ∫ x in (0 : ℝ)..s, ((cos (2 * π * m * x / s) : ℝ) : ℂ) * conj (e s k x) = 0 := by
  have e1 : ∀ x : ℝ, ((cos (2 * π * m * x / s) : ℝ) : ℂ) * conj (e s k x) = 1 / 2 * (e s m x * conj (e s k x)) + 1 / 2 * (e s (-m) x * conj (e s k x)) := by
    intro x
    have : ((cos (2 * π * m * x / s) : ℝ) : ℂ) = 1 / 2 * e s m x + 1 / 2 * e s (-m) x := by
      rw [Complex.ofReal_cos, Complex.cos, e, e]
      push_cast
      rw [show (2 * π * (m * x / s) * Complex.I : ℂ) = 2 * π * m * x / s * Complex.I by ring, show (2 * π * (-m * x / s) * Complex.I : ℂ) = -(2 * π * m * x / s) * Complex.I by ring]
      ring
    rw [this]
    ring
  simp only [e1]
  have hc : ∀ j : ℤ, Continuous fun x => 1 / 2 * (e s j x * conj (e s k x)) := fun j => continuous_const.mul ((e_continuous s j).mul (Complex.continuous_conj.comp (e_continuous s k)))
  rw [intervalIntegral.integral_add ((hc m).intervalIntegrable _ _) ((hc (-m)).intervalIntegrable _ _), intervalIntegral.integral_const_mul, intervalIntegral.integral_const_mul, wave_orth hs, wave_orth hs,
    if_neg (Ne.symm hk), if_neg (Ne.symm hk')]
  simp

/-- A product of cosines. -/
noncomputable def waves (sx sy : ℝ) (m n : ℤ) : ℝ × ℝ → ℝ := fun x => cos (2 * π * m * x.1 / sx) * cos (2 * π * n * x.2 / sy)

lemma waves_continuous (m n : ℤ) : Continuous (waves sx sy m n) := by unfold waves; fun_prop

lemma waves_repeats (hsx : 0 < sx) (hsy : 0 < sy) (m n : ℤ) : Repeats sx sy (waves sx sy m n) := by
  constructor
  · intro x y
    unfold waves
    dsimp only
    rw [show 2 * π * m * (x + sx) / sx = 2 * π * m * x / sx + m * (2 * π) by field_simp, cos_add_int_mul_two_pi]
  · intro x y
    unfold waves
    dsimp only
    rw [show 2 * π * n * (y + sy) / sy = 2 * π * n * y / sy + n * (2 * π) by field_simp, cos_add_int_mul_two_pi]

lemma coefficient_waves (m n : ℤ) (k : ℤ × ℤ) : coefficient sx sy (waves sx sy m n) k =
    (∫ x in (0 : ℝ)..sx, ((cos (2 * π * m * x / sx) : ℝ) : ℂ) * conj (e sx k.1 x)) * ∫ y in (0 : ℝ)..sy, ((cos (2 * π * n * y / sy) : ℝ) : ℂ) * conj (e sy k.2 y) := by
  unfold coefficient waves
  rw [← intervalIntegral.integral_mul_const]
  refine intervalIntegral.integral_congr fun x _ => ?_
  beta_reduce
  rw [← intervalIntegral.integral_const_mul]
  refine intervalIntegral.integral_congr fun y _ => ?_
  simp only [wave_split, map_mul]
  push_cast
  ring

/-- The continuous half-space answers a product of cosines with the same product, divided by its stiffness. -/
lemma waves_response (hsx : 0 < sx) (hsy : 0 < sy) (m n : ℤ) : CellResponse (cell sx sy) (fun x => cellStiffness (cell sx sy) (m, n) * waves sx sy m n x) (waves sx sy m n) := by
  have hr := waves_repeats hsx hsy m n
  refine ⟨continuous_const.mul (waves_continuous m n), waves_continuous m n, ?_, ?_, fun k => ?_⟩
  · rw [cell_size0, cell_size1]
    exact ⟨fun x y => by rw [hr.x], fun x y => by rw [hr.y]⟩
  · rw [cell_size0, cell_size1]
    exact hr
  rw [cell_size0, cell_size1]
  have e1 := coefficient_add (sx := sx) (sy := sy) (waves_continuous (sx := sx) (sy := sy) m n) (waves_continuous (sx := sx) (sy := sy) m n) (cellStiffness (cell sx sy) (m, n)) 0 k
  simp only [zero_mul, add_zero, Complex.ofReal_zero] at e1
  rw [e1]
  by_cases h1 : k.1 = m ∨ k.1 = -m
  swap
  · rw [not_or] at h1
    rw [coefficient_waves, cos_orth hsx m k.1 h1.1 h1.2]
    simp
  by_cases h2 : k.2 = n ∨ k.2 = -n
  swap
  · rw [not_or] at h2
    rw [coefficient_waves, cos_orth hsy n k.2 h2.1 h2.2]
    simp
  have a1 : ((k.1 : ℤ) : ℝ) ^ 2 = (m : ℝ) ^ 2 := by rcases h1 with h | h <;> rw [h] <;> push_cast <;> ring
  have a2 : ((k.2 : ℤ) : ℝ) ^ 2 = (n : ℝ) ^ 2 := by rcases h2 with h | h <;> rw [h] <;> push_cast <;> ring
  have hz : k = 0 ↔ ((m, n) : ℤ × ℤ) = 0 := by
    rw [Prod.ext_iff, Prod.ext_iff]
    simp only [Prod.fst_zero, Prod.snd_zero]
    constructor <;> rintro ⟨b1, b2⟩ <;> constructor <;> omega
  have hn : cellNumber sx sy k = cellNumber sx sy (m, n) := by
    unfold cellNumber
    congr 1
    have b1 : ∀ (c : ℤ) (s : ℝ), (2 * π * (c : ℝ) / s) ^ 2 = (2 * π) ^ 2 * (c : ℝ) ^ 2 / s ^ 2 := fun c s => by ring
    rw [b1, b1, b1, b1, a1, a2]
  have hK : cellStiffness (cell sx sy) k = cellStiffness (cell sx sy) (m, n) := by
    unfold cellStiffness
    rw [cell_size0, cell_size1, hn]
    simp only [hz]
  rw [hK]

lemma uniform_response (hsx : 0 < sx) (hsy : 0 < sy) (c : ℝ) : CellResponse (cell sx sy) (fun _ => π * (1 / sx + 1 / sy) / 2 * c) (fun _ => c) := by
  have h := (waves_response hsx hsy 0 0).comb (waves_response hsx hsy 0 0) c 0
  have e1 : ∀ x, waves sx sy 0 0 x = 1 := fun x => by simp [waves]
  have e2 : cellStiffness (cell sx sy) (0, 0) = π * (1 / sx + 1 / sy) / 2 := by
    unfold cellStiffness
    rw [if_pos Prod.mk_zero_zero, cell_gamma]
  simp only [e1, e2, mul_one, zero_mul, add_zero] at h
  convert h using 2
  ring

/-- Full contact of a wavy surface that is pressed on strongly enough. -/
lemma full_contact (hsx : 0 < sx) (hsy : 0 < sy) (m n : ℤ) {h d : ℝ} (hd : |h| * cellStiffness (cell sx sy) (m, n) ≤ π * (1 / sx + 1 / sy) / 2 * d) (hK : 0 ≤ cellStiffness (cell sx sy) (m, n)) :
    CellContinuum sx sy (fun x => h * waves sx sy m n x) d (fun x => π * (1 / sx + 1 / sy) / 2 * d + h * (cellStiffness (cell sx sy) (m, n) * waves sx sy m n x)) (fun x => h * waves sx sy m n x + d) := by
  refine ⟨?_, fun x => ?_, fun x => le_rfl, fun x _ => rfl⟩
  · have := (uniform_response hsx hsy d).comb (waves_response hsx hsy m n) 1 h
    simp only [one_mul] at this
    convert this using 2
    ring
  · have h1 : |waves sx sy m n x| ≤ 1 := by
      unfold waves
      rw [abs_mul]
      exact mul_le_one₀ (abs_cos_le_one _) (abs_nonneg _) (abs_cos_le_one _)
    have h2 : |h * (cellStiffness (cell sx sy) (m, n) * waves sx sy m n x)| ≤ |h| * cellStiffness (cell sx sy) (m, n) := by
      rw [abs_mul, abs_mul, abs_of_nonneg hK]
      exact mul_le_mul_of_nonneg_left (mul_le_of_le_one_right hK h1) (abs_nonneg _)
    have := neg_abs_le (h * (cellStiffness (cell sx sy) (m, n) * waves sx sy m n x))
    linarith

/-! ## Uniqueness -/

lemma zero_of_coefficients (hsx : 0 < sx) (hsy : 0 < sy) {f : ℝ × ℝ → ℝ} (hr : Repeats sx sy f) (hf : Continuous f) (h : ∀ k, coefficient sx sy f k = 0) (x : ℝ × ℝ) : f x = 0 := by
  have key : ∀ ε > 0, |f x| ≤ ε := by
    intro ε hε
    obtain ⟨-, -, hm1⟩ := hr.modulus hsx hsy hf
    obtain ⟨A, hA0, m1⟩ := hm1 (ε / 4) (by positivity)
    set δ := ε / 4 / (A + 1) with hδ
    have hδ0 : 0 < δ := by positivity
    have hAδ : A * δ ≤ ε / 4 := by
      rw [hδ, ← mul_div_assoc, div_le_iff₀ (by positivity)]
      nlinarith
    obtain ⟨t₁, a₁, s₁⟩ := exists_smoothing hsx hδ0
    obtain ⟨t₂, a₂, s₂⟩ := exists_smoothing hsy hδ0
    have := smooth_cell s₁ s₂ hr hf hA0 m1 x.1 x.2
    simp only [h, mul_zero, zero_mul, Complex.zero_re, Finset.sum_const_zero, zero_sub, abs_neg] at this
    exact this.trans (by linarith)
  have := le_of_forall_pos_le_add fun ε hε => (key ε hε).trans (by linarith : ε ≤ 0 + ε)
  exact abs_eq_zero.1 (le_antisymm this (abs_nonneg _))

lemma zero_of_square (hsx : 0 < sx) (hsy : 0 < sy) {f : ℝ × ℝ → ℝ} (hr : Repeats sx sy f) (hf : Continuous f) (h : overCell sx sy (fun x => f x ^ 2) ≤ 0) (x : ℝ × ℝ) : f x = 0 := by
  have hR : Continuous fun x => ∫ y in (0 : ℝ)..sy, f (x, y) ^ 2 := intervalIntegral.continuous_parametric_intervalIntegral_of_continuous' (f := fun x y => f (x, y) ^ 2) (by show Continuous fun p : ℝ × ℝ => f (p.1, p.2) ^ 2; fun_prop) 0 sy
  have hcell : ∀ x ∈ Icc 0 sx, ∀ y ∈ Icc 0 sy, f (x, y) = 0 := by
    intro x hx y hy
    by_contra hne
    have h1 : 0 < ∫ y in (0 : ℝ)..sy, f (x, y) ^ 2 := intervalIntegral.integral_pos hsy (by fun_prop) (fun _ _ => sq_nonneg _) ⟨y, hy, by positivity⟩
    have h2 : 0 < ∫ x in (0 : ℝ)..sx, ∫ y in (0 : ℝ)..sy, f (x, y) ^ 2 :=
      intervalIntegral.integral_pos hsx hR.continuousOn (fun _ _ => intervalIntegral.integral_nonneg hsy.le fun _ _ => sq_nonneg _) ⟨x, hx, h1⟩
    unfold overCell at h
    linarith
  have h1 := Int.floor_le (x.1 / sx)
  have h2 := Int.lt_floor_add_one (x.1 / sx)
  have h3 := Int.floor_le (x.2 / sy)
  have h4 := Int.lt_floor_add_one (x.2 / sy)
  rw [le_div_iff₀ hsx] at h1
  rw [div_lt_iff₀ hsx] at h2
  rw [le_div_iff₀ hsy] at h3
  rw [div_lt_iff₀ hsy] at h4
  rw [← hr.zsmul ⌊x.1 / sx⌋ ⌊x.2 / sy⌋]
  exact hcell _ ⟨by linarith, by linarith⟩ _ ⟨by linarith, by linarith⟩

/-- The heights of a surface on `n × n` points. -/
noncomputable def sampled (sx sy : ℝ) (H : ℝ × ℝ → ℝ) (n : ℕ) : Topo :=
  ⟨⟨[n, n], fun x => match x with | [i, j] => H (gridPoint (sx / n) (sy / n) i j) | _ => 0⟩, [sx, sy], true, 0⟩

/-- On every fine grid there is a state that solves the contact problem of the heights of a surface. -/
lemma exists_state (hsx : 0 < sx) (hsy : 0 < sy) (H : ℝ × ℝ → ℝ) (d : ℝ) {h : ℝ} (hh : 0 < h) :
    ∃ (n : ℕ) (p u : Fin n × Fin n → ℝ), ValidTopo (sampled sx sy H n) n n sx sy ∧ (sampled sx sy H n).isPeriodic = true ∧ HeightsOf H (sampled sx sy H n) n n sx sy ∧ sx / n < h ∧ sy / n < h ∧
      NearContact (sampled sx sy H n) none n n sx sy d h p u := by
  obtain ⟨N, hN⟩ := exists_nat_gt (max (sx / h) (sy / h))
  have n1 : sx / h < N := (le_max_left _ _).trans_lt hN
  have n2 : sy / h < N := (le_max_right _ _).trans_lt hN
  have hT : ValidTopo (sampled sx sy H (N + 2)) (N + 2) (N + 2) sx sy := ⟨rfl, rfl, by omega, by omega, hsx, hsy⟩
  obtain ⟨sub, hm⟩ : ∃ sub, makeSubstrate (sampled sx sy H (N + 2)) none = .ok sub := by
    have hn : substrateName (sampled sx sy H (N + 2)) none = "periodic" := rfl
    rcases make_cases hT none with ⟨-, h0, -⟩ | ⟨-, -, s, -, hs⟩ | ⟨h0, -⟩ | ⟨h0, -⟩
    · exact absurd ⟨by omega, by omega⟩ h0
    · exact ⟨_, hs⟩
    · rw [hn] at h0; exact absurd h0 (by decide)
    · exact absurd hn h0
  obtain ⟨p, hp⟩ := C156_solvable_at_offset hT hm d
  refine ⟨N + 2, p, _, hT, rfl, fun i j _ _ => rfl, ?_, ?_, near_of_exact hh.le ⟨sub, hm, rfl, hp⟩⟩
  · rw [div_lt_iff₀ hh] at n1
    rw [div_lt_iff₀ (by positivity)]
    push_cast
    nlinarith
  · rw [div_lt_iff₀ hh] at n2
    rw [div_lt_iff₀ (by positivity)]
    push_cast
    nlinarith

lemma near_weaken {k : Option String} {o τ τ' : ℝ} {p u : Fin nx × Fin ny → ℝ} (h : NearContact T k nx ny sx sy o τ p u) (hτ : τ ≤ τ') : NearContact T k nx ny sx sy o τ' p u :=
  ⟨h.response, h.noTension, fun x => (h.penetration x).trans hτ, fun x hx => (h.gap x hx).trans hτ⟩

/-- **C199** (the limit is unique). The continuous contact problem has at most one solution at each offset, and contacts of one surface that carry the same load have the same offset. -/
theorem C199_unique {H q v q' v' : ℝ × ℝ → ℝ} {d d' : ℝ} (hq : CellContinuum sx sy H d q v) (hq' : CellContinuum sx sy H d' q' v') (hsx : 0 < sx) (hsy : 0 < sy) :
    (d = d' → q = q' ∧ v = v') ∧ (overCell sx sy q = overCell sx sy q' → 0 < overCell sx sy q → d = d') := by
  have hr1 := hq.response.displacement_repeats
  have hr2 := hq'.response.displacement_repeats
  have hr3 := hq.response.pressure_repeats
  have hr4 := hq'.response.pressure_repeats
  rw [cell_size0, cell_size1] at hr1 hr2 hr3 hr4
  constructor
  · rintro rfl
    set w : ℝ × ℝ → ℝ := fun x => v x - v' x with hw
    have hwr : Repeats sx sy w := ⟨fun x y => by simp only [hw]; rw [hr1.x, hr2.x], fun x y => by simp only [hw]; rw [hr1.y, hr2.y]⟩
    have hwc : Continuous w := hq.response.displacement_continuous.sub hq'.response.displacement_continuous
    have hz : overCell sx sy (fun x => w x ^ 2) ≤ 0 := by
      refine le_of_forall_pos_le_add fun ε hε => ?_
      have hA : 0 < sx * sy := by positivity
      obtain ⟨h1, hh1, g1⟩ := C199_displacements hq hsx hsy (show 0 < ε / (8 * (sx * sy)) by positivity)
      obtain ⟨h2, hh2, g2⟩ := C199_displacements hq' hsx hsy (show 0 < ε / (8 * (sx * sy)) by positivity)
      obtain ⟨h3, hh3, g3⟩ := fine_mean (q := fun x => w x ^ 2) (sx := sx) (sy := sy) ⟨fun x y => by rw [hwr.x], fun x y => by rw [hwr.y]⟩ (hwc.pow 2) hsx hsy (half_pos hε)
      obtain ⟨n, p, u, hT, hper, hH, l1, l2, hnear⟩ := exists_state hsx hsy H d (lt_min hh1 (lt_min hh2 hh3))
      have m1 : min h1 (min h2 h3) ≤ h1 := min_le_left _ _
      have m2 : min h1 (min h2 h3) ≤ h2 := (min_le_right _ _).trans (min_le_left _ _)
      have m3 : min h1 (min h2 h3) ≤ h3 := (min_le_right _ _).trans (min_le_right _ _)
      have a1 := g1 _ none n n p u hT (Or.inr ⟨rfl, hper⟩) hH (l1.trans_le m1) (l2.trans_le m1) (near_weaken hnear m1)
      have a2 := g2 _ none n n p u hT (Or.inr ⟨rfl, hper⟩) hH (l1.trans_le m2) (l2.trans_le m2) (near_weaken hnear m2)
      have a3 := g3 n n hT.nx_pos hT.ny_pos (l1.trans_le m3) (l2.trans_le m3)
      have a4 : avg (onGrid n n sx sy fun x => w x ^ 2) ≤ 2 * avg (fun x => (u x - v (gridPoint (sx / n) (sy / n) x.1 x.2)) ^ 2) + 2 * avg (fun x => (u x - v' (gridPoint (sx / n) (sy / n) x.1 x.2)) ^ 2) := by
        rw [← avg_const_mul, ← avg_const_mul, ← avg_add]
        refine avg_mono fun x => ?_
        show (v (gridPoint (sx / n) (sy / n) x.1 x.2) - v' (gridPoint (sx / n) (sy / n) x.1 x.2)) ^ 2 ≤ _
        nlinarith [sq_nonneg (u x - v (gridPoint (sx / n) (sy / n) x.1 x.2) + (u x - v' (gridPoint (sx / n) (sy / n) x.1 x.2)))]
      have a5 : avg (onGrid n n sx sy fun x => w x ^ 2) * (sx * sy) ≤ ε / 2 := by
        have := mul_le_mul_of_nonneg_right (a4.trans (add_le_add (mul_le_mul_of_nonneg_left a1 zero_le_two) (mul_le_mul_of_nonneg_left a2 zero_le_two))) hA.le
        refine this.trans (le_of_eq ?_)
        field_simp
        ring
      have := (abs_le.1 a3).1
      linarith
    have hv : v = v' := by
      funext x
      have := zero_of_square hsx hsy hwr hwc hz x
      simp only [hw] at this
      linarith
    refine ⟨?_, hv⟩
    funext x
    have hc := zero_of_coefficients hsx hsy (f := fun x => 1 * q x + (-1) * q' x) ⟨fun x y => by rw [hr3.x, hr4.x], fun x y => by rw [hr3.y, hr4.y]⟩
      ((continuous_const.mul hq.response.pressure_continuous).add (continuous_const.mul hq'.response.pressure_continuous)) (fun k => by
        rw [coefficient_add hq.response.pressure_continuous hq'.response.pressure_continuous]
        have e1 := hq.response.waves k
        have e2 := hq'.response.waves k
        rw [cell_size0, cell_size1] at e1 e2
        rw [← e1, ← e2, hv]
        push_cast
        ring) x
    beta_reduce at hc
    linarith
  · intro hl hpos
    refine eq_of_forall_dist_le fun η hη => ?_
    rw [Real.dist_eq]
    obtain ⟨h1, hh1, g1⟩ := C199_offset hq' (hl ▸ hpos) hsx hsy hη
    obtain ⟨h2, hh2, g2⟩ := C199_load hq hsx hsy hh1
    obtain ⟨n, p, u, hT, hper, hH, l1, l2, hnear⟩ := exists_state hsx hsy H d (lt_min hh1 hh2)
    have m1 : min h1 h2 ≤ h1 := min_le_left _ _
    have m2 : min h1 h2 ≤ h2 := min_le_right _ _
    have a2 := g2 _ none n n p u hT (Or.inr ⟨rfl, hper⟩) hH (l1.trans_le m2) (l2.trans_le m2) (near_weaken hnear m2)
    rw [hl] at a2
    exact g1 _ none n n d p u hT (Or.inr ⟨rfl, hper⟩) hH (l1.trans_le m1) (l2.trans_le m1) (near_weaken hnear m1) a2

/-! ## The hypotheses can be met -/

/-- Partial contact: Westergaard's sinusoidal profile. Full contact: an egg-box surface that is pressed on strongly. On every grid, however fine, there is a state as required. -/
example : CellContinuum 1 1 (along fun X => -(2 * 1 * sin (π * (X / 1)) ^ 2)) (waveOffset 1 1 1 (1 / 4)) (along (wavePressure 1 1 (1 / 4))) (along (waveDisp 1 1 1 (1 / 4))) ∧
    (CellContinuum 1 1 (fun x => 1 * waves 1 1 1 1 x) 2 (fun x => π * (1 / 1 + 1 / 1) / 2 * 2 + 1 * (cellStiffness (cell 1 1) (1, 1) * waves 1 1 1 1 x)) (fun x => 1 * waves 1 1 1 1 x + 2) ∧
      cellStiffness (cell 1 1) (1, 1) = π * √2) ∧
    ∀ h > 0, ∃ (n : ℕ) (p u : Fin n × Fin n → ℝ), ValidTopo (sampled 1 1 (fun x => 1 * waves 1 1 1 1 x) n) n n 1 1 ∧ HeightsOf (fun x => 1 * waves 1 1 1 1 x) (sampled 1 1 (fun x => 1 * waves 1 1 1 1 x) n) n n 1 1 ∧
      (1 : ℝ) / n < h ∧ NearContact (sampled 1 1 (fun x => 1 * waves 1 1 1 1 x) n) none n n 1 1 2 h p u := by
  have hpi := pi_pos
  have hK : cellStiffness (cell 1 1) (1, 1) = π * √2 := by
    unfold cellStiffness
    rw [if_neg (by decide), cell_size0, cell_size1, cell_modulus]
    show 1 / 2 * cellNumber 1 1 (1, 1) * 1 = _
    unfold cellNumber
    rw [show ((2 * π * ((1 : ℤ) : ℝ) / 1) ^ 2 + (2 * π * ((1 : ℤ) : ℝ) / 1) ^ 2 : ℝ) = (2 * π) ^ 2 * 2 by push_cast; ring, sqrt_mul (by positivity), sqrt_sq (by positivity)]
    ring
  have h2 : √2 ≤ 2 := by rw [sqrt_le_left (by norm_num)]; norm_num
  refine ⟨line_continuum one_pos (wave_continuum (by norm_num) (by norm_num) one_pos one_pos one_pos), ⟨full_contact one_pos one_pos 1 1 ?_ ?_, hK⟩, fun h hh => ?_⟩
  · rw [hK, abs_one]; nlinarith
  · rw [hK]; positivity
  · obtain ⟨n, p, u, a, -, b, c, -, e⟩ := exists_state one_pos one_pos (fun x => 1 * waves 1 1 1 1 x) 2 hh
    exact ⟨n, p, u, a, b, c, e⟩

end CM.Disc
