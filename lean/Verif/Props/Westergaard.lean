import Verif.Model.Reference
import Mathlib.Analysis.SpecialFunctions.Integrals.Basic
import Mathlib.Analysis.SpecialFunctions.Trigonometric.DerivHyp
import Mathlib.Analysis.SpecialFunctions.Log.Deriv
import Mathlib.Analysis.SpecialFunctions.Trigonometric.InverseDeriv
/-!
# Westergaard solution (C90 - C93, C132, C134)
-/
namespace CM.Ref.Westergaard

open Real

/-! ## C90 -/

/-- **C90** `contact_radius` and `mean_pressure` are inverse to each other. -/
theorem C90_inverse : (∀ a, 0 ≤ a → a ≤ 1 / 2 → contactRadius (meanPressure a) = a) ∧ (∀ p, 0 ≤ p → p ≤ 1 → meanPressure (contactRadius p) = p) := by
  constructor
  · intro a h0 h1
    have hs : 0 ≤ sin (π * a) := sin_nonneg_of_nonneg_of_le_pi (by positivity) (by nlinarith [pi_pos])
    unfold contactRadius meanPressure
    rw [sqrt_sq hs, arcsin_sin (by nlinarith [pi_pos]) (by nlinarith [pi_pos])]
    field_simp
  · intro p h0 h1
    unfold contactRadius meanPressure
    have hq : √p ≤ 1 := by rw [← sqrt_one]; exact sqrt_le_sqrt h1
    have e : π * (1 / π * arcsin √p) = arcsin √p := by field_simp
    rw [e, sin_arcsin (by linarith [sqrt_nonneg p]) hq, sq_sqrt h0]

/-- **C90** The two energy functions agree, for every contact radius; the assertion of `elastic_energy` never fires on a mean pressure computed
from a contact radius, and fires for every pressure above one. -/
theorem C90_energy : (∀ a, elasticEnergy (meanPressure a) = .ok (elasticEnergyA a)) ∧ (∀ p, 1 < p → elasticEnergy p = .error .assertionError) ∧
    (∀ a, 0 < a → a < 1 → elasticEnergyA a = some ((1 / 4 - log (sin (π * a))) * sin (π * a) ^ 4)) := by
  refine ⟨fun a => ?_, fun p hp => ?_, fun a h0 h1 => ?_⟩
  · unfold elasticEnergy elasticEnergyA meanPressure
    have : sin (π * a) ^ 2 ≤ 1 := sin_sq_le_one _
    rw [if_pos this]
    congr 2; funext l; ring_nf
  · unfold elasticEnergy; rw [if_neg (by linarith)]
  · have hs : 0 < sin (π * a) := sin_pos_of_pos_of_lt_pi (by positivity) (by nlinarith [pi_pos])
    unfold elasticEnergyA nlog
    rw [if_pos (by positivity)]
    simp only [Option.bind_eq_bind, Option.bind_some, log_pow]
    congr 1; push_cast; ring

/-- **C90** REFUTED at the end of the range: without contact the energy is `nan`, although it tends to zero. -/
theorem C90_zero_partial : elasticEnergy 0 = .ok none ∧ elasticEnergyA 0 = none ∧ meanDisplacement 0 = none ∧ meanPressure 0 = 0 := by
  refine ⟨?_, ?_, ?_, ?_⟩
  · unfold elasticEnergy nlog; simp
  · unfold elasticEnergyA nlog; simp
  · unfold meanDisplacement nlog; simp
  · unfold meanPressure; simp

example : contactRadius 1 = 1 / 2 := by
  have := C90_inverse.1 (1 / 2) (by norm_num) le_rfl
  unfold meanPressure at this
  rw [show π * (1 / 2) = π / 2 by ring, sin_pi_div_two] at this
  simpa using this

/-! ## C91 -/

theorem fold_nonneg (x : ℝ) : 0 ≤ fold x := abs_nonneg _

theorem fold_le (x : ℝ) : fold x ≤ 1 / 2 := by
  unfold fold
  rw [abs_le]; constructor <;> linarith [Int.fract_nonneg (x + 1 / 2), Int.fract_lt_one (x + 1 / 2)]

theorem fold_periodic (x : ℝ) (k : ℤ) : fold (x + k) = fold x := by
  unfold fold
  rw [show x + k + 1 / 2 = x + 1 / 2 + k by ring, Int.fract_add_intCast]

theorem fold_small {x : ℝ} (h1 : -(1 / 2) ≤ x) (h2 : x ≤ 1 / 2) : fold x = |x| := by
  unfold fold
  rcases h2.eq_or_lt with h | h
  · subst h; norm_num
  · have : Int.fract (x + 1 / 2) = x + 1 / 2 := Int.fract_eq_self.mpr ⟨by linarith, by linarith⟩
    rw [this]; congr 1; ring

/-- Every position is a small position plus a whole number of periods. -/
theorem exists_small (x : ℝ) : ∃ (y : ℝ) (k : ℤ), x = y + k ∧ -(1 / 2) ≤ y ∧ y ≤ 1 / 2 :=
  ⟨Int.fract (x + 1 / 2) - 1 / 2, ⌊x + 1 / 2⌋, by have := Int.fract_add_floor (x + 1 / 2); linarith,
    by linarith [Int.fract_nonneg (x + 1 / 2)], by linarith [Int.fract_lt_one (x + 1 / 2)]⟩

theorem fold_even (x : ℝ) : fold (-x) = fold x := by
  obtain ⟨y, k, rfl, h1, h2⟩ := exists_small x
  rw [fold_periodic, show -(y + (k : ℝ)) = -y + ((-k : ℤ) : ℝ) by push_cast; ring, fold_periodic, fold_small h1 h2,
    fold_small (by linarith) (by linarith), abs_neg]

/-- The folded position is the distance to the nearest summit. -/
theorem fold_le_iff {x a : ℝ} (ha : a < 1 / 2) : fold x ≤ a ↔ ∃ k : ℤ, |x - k| ≤ a := by
  obtain ⟨y, k, rfl, h1, h2⟩ := exists_small x
  rw [fold_periodic, fold_small h1 h2]
  constructor
  · intro h; exact ⟨k, by rw [show y + (k : ℝ) - k = y by ring]; exact h⟩
  · rintro ⟨j, hj⟩
    have e : y + (k : ℝ) - j = y + ((k - j : ℤ) : ℝ) := by push_cast; ring
    rw [e] at hj
    rcases eq_or_ne (k - j) 0 with h0 | h0
    · rw [h0] at hj; simpa using hj
    · have : (1 : ℝ) ≤ |((k - j : ℤ) : ℝ)| := by exact_mod_cast Int.one_le_abs h0
      have h3 : |y| ≤ 1 / 2 := abs_le.mpr ⟨by linarith, h2⟩
      have := abs_sub_abs_le_abs_sub (((k - j : ℤ) : ℝ)) (-y)
      rw [abs_neg, sub_neg_eq_add, add_comm] at this
      linarith

theorem sin_fold_sq (x : ℝ) : sin (π * fold x) ^ 2 = sin (π * x) ^ 2 := by
  obtain ⟨y, k, rfl, h1, h2⟩ := exists_small x
  rw [fold_periodic, fold_small h1 h2]
  have e1 : sin (π * (y + k)) ^ 2 = sin (π * y) ^ 2 := by
    rw [show π * (y + (k : ℝ)) = π * y + k * π by ring, sin_add_int_mul_pi, mul_pow]
    have : ((-1 : ℝ) ^ k) ^ 2 = 1 := by rw [← zpow_natCast, ← zpow_mul, mul_comm, zpow_mul]; norm_num
    rw [this, one_mul]
  rw [e1]
  rcases abs_cases y with ⟨h, -⟩ | ⟨h, -⟩ <;> rw [h]
  rw [mul_neg, sin_neg, neg_sq]

/-- **C91** The fields repeat with the period of the indenter and are even. -/
theorem C91_symmetry (x a : ℝ) (k : ℤ) (q : Option ℝ) (p : Option ℝ) :
    displacements (x + k) a = displacements x a ∧ displacements (-x) a = displacements x a ∧ gap (x + k) a = gap x a ∧ gap (-x) a = gap x a ∧
    pressure (x + k) q p = pressure x q p ∧ pressure (-x) q p = pressure x q p := by
  have e1 : sin (π * (x + k)) ^ 2 = sin (π * x) ^ 2 := by rw [← sin_fold_sq (x + k), fold_periodic, sin_fold_sq]
  have e2 : sin (π * -x) ^ 2 = sin (π * x) ^ 2 := by rw [mul_neg, sin_neg, neg_sq]
  refine ⟨?_, ?_, ?_, ?_, ?_, ?_⟩
  · unfold displacements; rw [fold_periodic]
  · unfold displacements; rw [fold_even]
  · unfold gap displacements; rw [fold_periodic, e1]
  · unfold gap displacements; rw [fold_even, e2]
  · unfold pressure; rw [fold_periodic]
  · unfold pressure; rw [fold_even]

/-- Hyperbolic angle of the solution outside the contact. -/
theorem hyper {A s : ℝ} (hA : 0 < A) (hs : A < s) :
    ∃ t, 0 < t ∧ s = A * cosh t ∧ √(s ^ 2 - A ^ 2) = A * sinh t ∧ log ((s + √(s ^ 2 - A ^ 2)) / A) = t := by
  have h1 : 1 < s / A := by rw [lt_div_iff₀ hA]; linarith
  have hc : s = A * cosh (arcosh (s / A)) := by rw [cosh_arcosh h1.le]; field_simp
  have hp : 0 < arcosh (s / A) := arcosh_pos h1
  have hq : √(s ^ 2 - A ^ 2) = A * sinh (arcosh (s / A)) := by
    have hsh : 0 ≤ sinh (arcosh (s / A)) := sinh_nonneg_iff.mpr hp.le
    rw [show s ^ 2 - A ^ 2 = (A * sinh (arcosh (s / A))) ^ 2 by
      rw [mul_pow, sinh_sq]; nth_rewrite 1 [hc]; ring]
    exact sqrt_sq (by positivity)
  refine ⟨_, hp, hc, hq, ?_⟩
  rw [hq]; nth_rewrite 1 [hc]
  rw [← mul_add, mul_div_cancel_left₀ _ hA.ne', cosh_add_sinh, log_exp]

theorem gap_eq (x a : ℝ) : gap x a = chi1 (fold x) a * sin (π * fold x) - sin (π * a) ^ 2 * chi2 (fold x) a := by
  unfold gap displacements
  rw [sin_fold_sq]; ring

theorem sin_lt {a x : ℝ} (h0 : 0 < a) (h1 : a < x) (h2 : x ≤ 1 / 2) : sin (π * a) < sin (π * x) := by
  apply sin_lt_sin_of_lt_of_le_pi_div_two
  · nlinarith [pi_pos]
  · nlinarith [pi_pos]
  · nlinarith [pi_pos]

theorem sin_a_pos {a : ℝ} (h0 : 0 < a) (h1 : a < 1) : 0 < sin (π * a) := sin_pos_of_pos_of_lt_pi (by positivity) (by nlinarith [pi_pos])

/-- **C91** The surfaces touch exactly within the contact radius of a summit, and are separated everywhere else. -/
theorem C91_contact {a : ℝ} (h0 : 0 < a) (h1 : a < 1 / 2) (x : ℝ) : ((∃ k : ℤ, |x - k| ≤ a) → gap x a = 0) ∧ ((∀ k : ℤ, a < |x - k|) → 0 < gap x a) := by
  constructor
  · intro h
    rw [← fold_le_iff h1] at h
    rw [gap_eq]; unfold chi1 chi2
    rw [if_neg (by rintro ⟨h', -⟩; linarith), if_neg (by rintro ⟨h', -⟩; linarith)]
    ring
  · intro h
    have hf : a < fold x := by
      by_contra hc
      obtain ⟨k, hk⟩ := (fold_le_iff h1).mp (not_lt.mp hc)
      linarith [h k]
    have hin : a < fold x ∧ fold x < 1 - a := ⟨hf, by linarith [fold_le x]⟩
    obtain ⟨t, ht, hs, hq, hl⟩ := hyper (sin_a_pos h0 (by linarith)) (sin_lt h0 hf (fold_le x))
    rw [gap_eq]; unfold chi2 chi1
    rw [if_pos hin, if_pos hin, hl, hq]
    have hsh : t < sinh t := self_lt_sinh_iff.mpr ht
    have hch : 1 ≤ cosh t := one_le_cosh t
    rw [hs]
    have hA := sin_a_pos h0 (show a < 1 by linarith)
    have : 0 < sin (π * a) ^ 2 * (sinh t * cosh t - t) := by
      have : 0 < sinh t * cosh t - t := by nlinarith
      positivity
    linarith

/-- **C91** The pressure is positive strictly inside the contact and zero everywhere else. -/
theorem C91_pressure {a : ℝ} (h0 : 0 < a) (h1 : a < 1 / 2) (x : ℝ) (p : Option ℝ) :
    ∃ v, pressure x (some a) p = .ok v ∧ ((∃ k : ℤ, |x - k| < a) → 0 < v) ∧ ((∀ k : ℤ, a ≤ |x - k|) → v = 0) := by
  refine ⟨_, rfl, ?_, ?_⟩
  · rintro ⟨k, hk⟩
    have hf : fold x < a := by
      by_contra hc
      have := (fold_le_iff (x := x) (a := |x - k|) (by linarith)).mpr ⟨k, le_rfl⟩
      linarith
    have hx0 := fold_nonneg x
    have hA := sin_a_pos h0 (show a < 1 by linarith)
    have hs0 : 0 ≤ sin (π * fold x) := sin_nonneg_of_nonneg_of_le_pi (by positivity) (by nlinarith [pi_pos])
    have hcos : cos (π * a) < cos (π * fold x) := cos_lt_cos_of_nonneg_of_le_pi (by positivity) (by nlinarith [pi_pos]) (by nlinarith [pi_pos])
    have hc0 : 0 < cos (π * a) := cos_pos_of_mem_Ioo ⟨by nlinarith [pi_pos], by nlinarith [pi_pos]⟩
    unfold pressureAt
    rw [if_pos hcos]
    have : 0 < √(sin (π * a) ^ 2 - sin (π * fold x) ^ 2) := by
      apply sqrt_pos.mpr
      rw [sin_sq, sin_sq]; nlinarith
    have : 0 < cos (π * fold x) := by linarith
    positivity
  · intro h
    have hf : a ≤ fold x := by
      by_contra hc
      obtain ⟨k, hk⟩ := (fold_le_iff (x := x) (a := fold x) (by linarith)).mp le_rfl
      linarith [h k]
    unfold pressureAt
    rw [if_neg]
    rw [not_lt]
    exact cos_le_cos_of_nonneg_of_le_pi (by positivity) (by nlinarith [pi_pos, fold_le x]) (by nlinarith [pi_pos])

example : 0 < gap 0.5 0.1 := (C91_contact (by norm_num) (by norm_num) 0.5).2 (fun k => by
  rcases le_or_gt k 0 with h | h
  · have : (k : ℝ) ≤ 0 := by exact_mod_cast h
    rw [abs_of_pos (by linarith)]; norm_num; linarith
  · have : (1 : ℝ) ≤ k := by exact_mod_cast h
    rw [abs_of_neg (by linarith)]; linarith)

/-! ## C92 -/

theorem meanDisplacement_eq {a : ℝ} (h0 : 0 < a) (h1 : a < 1) :
    meanDisplacement a = some (-1 / 2 + 1 / 2 * cos (π * a) ^ 2 + sin (π * a) ^ 2 * log (sin (π * a))) := by
  unfold meanDisplacement nlog
  rw [if_pos (sin_a_pos h0 h1)]; rfl

/-- **C92** Along the equilibrium curve a change of the contact radius changes the energy by the work of the mean pressure: displacements are in
units of `2 h` and energies in units of `h p_wfc`. -/
theorem C92_work {a : ℝ} (h0 : 0 < a) (h1 : a < 1 / 2) : ∃ e d : ℝ, (∃ E D, elasticEnergyA a = some E ∧ meanDisplacement a = some D) ∧
    HasDerivAt (fun a => (elasticEnergyA a).getD 0) e a ∧ HasDerivAt (fun a => (meanDisplacement a).getD 0) d a ∧
    e = -meanPressure a * (2 * d) ∧ d ≠ 0 := by
  have hA := sin_a_pos h0 (show a < 1 by linarith)
  have hc0 : 0 < cos (π * a) := cos_pos_of_mem_Ioo ⟨by nlinarith [pi_pos], by nlinarith [pi_pos]⟩
  have hpi : HasDerivAt (fun a : ℝ => π * a) π a := by simpa using (hasDerivAt_id a).const_mul π
  have hs : HasDerivAt (fun a : ℝ => sin (π * a)) (cos (π * a) * π) a := hpi.sin
  have hc : HasDerivAt (fun a : ℝ => cos (π * a)) (-sin (π * a) * π) a := hpi.cos
  have hl : HasDerivAt (fun a : ℝ => log (sin (π * a))) (cos (π * a) * π / sin (π * a)) a := hs.log hA.ne'
  have nb : ∀ᶠ b in nhds a, 0 < b ∧ b < 1 := by
    filter_upwards [lt_mem_nhds h0, gt_mem_nhds (show a < 1 by linarith)] with b hb hb'
    exact ⟨hb, hb'⟩
  refine ⟨_, _, ⟨_, _, C90_energy.2.2 a h0 (by linarith), meanDisplacement_eq h0 (by linarith)⟩,
    HasDerivAt.congr_of_eventuallyEq ((hl.const_sub (1 / 4)).mul (hs.fun_pow 4)) ?_,
    HasDerivAt.congr_of_eventuallyEq (((hc.fun_pow 2).const_mul (1 / 2) |>.const_add (-1 / 2)).add ((hs.fun_pow 2).mul hl)) ?_, ?_, ?_⟩
  · filter_upwards [nb] with b hb
    rw [C90_energy.2.2 b hb.1 hb.2]; rfl
  · filter_upwards [nb] with b hb
    rw [meanDisplacement_eq hb.1 hb.2]; rfl
  · unfold meanPressure
    norm_num
    field_simp
    ring
  · have hlog : log (sin (π * a)) < 0 := log_neg hA (by
      have := sin_lt h0 (show a < 1 / 2 by linarith) le_rfl
      rw [show π * (1 / 2) = π / 2 by ring, sin_pi_div_two] at this; exact this)
    norm_num
    have e : -(1 / 2 * (2 * cos (π * a) * (sin (π * a) * π))) + (2 * sin (π * a) * (cos (π * a) * π) * log (sin (π * a)) + sin (π * a) ^ 2 * (cos (π * a) * π / sin (π * a))) =
        2 * (sin (π * a) * (cos (π * a) * π)) * log (sin (π * a)) := by field_simp; ring
    rw [e]
    have : 0 < 2 * (sin (π * a) * (cos (π * a) * π)) := by positivity
    exact (mul_neg_of_pos_of_neg this hlog).ne

example : ∃ e d : ℝ, HasDerivAt (fun a => (elasticEnergyA a).getD 0) e 0.25 ∧ HasDerivAt (fun a => (meanDisplacement a).getD 0) d 0.25 ∧ e ≠ 0 := by
  obtain ⟨e, d, -, h1, h2, h3, h4⟩ := C92_work (a := 0.25) (by norm_num) (by norm_num)
  refine ⟨e, d, h1, h2, ?_⟩
  rw [h3]
  have := sin_a_pos (a := 0.25) (by norm_num) (by norm_num)
  unfold meanPressure
  exact mul_ne_zero (neg_ne_zero.mpr (by positivity)) (mul_ne_zero two_ne_zero h4)

/-! ## C93 -/

/-- **C93** REFUTED: for every mean pressure in the range of the other functions, `_pressure` called with that mean pressure returns another
pressure at the summit than `_pressure` called with the contact radius that belongs to it.  The two agree when the mean pressure is multiplied by
`π`: the docstring's unit is the one of the contact radius, the code's unit is not. -/
theorem C93_normalisation_partial {p : ℝ} (h0 : 0 < p) (h1 : p ≤ 1) :
    pressure 0 none (some p) ≠ pressure 0 (some (contactRadius p)) none ∧
    (∀ x, pressure x none (some (π * p)) = pressure x (some (contactRadius p)) none) := by
  have hq : √p ≤ 1 := by rw [← sqrt_one]; exact sqrt_le_sqrt h1
  have hq0 : 0 < √p := sqrt_pos.mpr h0
  have e1 : π * contactRadius p = arcsin √p := by unfold contactRadius; field_simp
  constructor
  · have hpp : p / π < p := by rw [div_lt_iff₀ pi_pos]; nlinarith [two_le_pi]
    have hp1 : √(p / π) < √p := sqrt_lt_sqrt (by positivity) hpp
    have hp0 : 0 < √(p / π) := sqrt_pos.mpr (by positivity)
    have f0 : fold 0 = 0 := by rw [fold_small (by norm_num) (by norm_num), abs_zero]
    have at0 : ∀ q : ℝ, 0 < q → q ≤ 1 → pressureAt 0 (arcsin q) = 2 / q := by
      intro q hq0 hq1
      unfold pressureAt
      have hc : cos (arcsin q) < 1 := by
        rw [cos_arcsin, ← sqrt_one]
        exact sqrt_lt_sqrt (by rw [sqrt_one]; nlinarith) (by rw [sqrt_one]; nlinarith)
      rw [mul_zero, cos_zero, sin_zero, if_pos hc, sin_arcsin (by linarith) hq1]
      rw [zero_pow two_ne_zero, sub_zero, sqrt_sq hq0.le]; field_simp
    unfold pressure
    dsimp only
    rw [f0, e1, at0 _ hp0 (by linarith), at0 _ hq0 hq]
    simp only [ne_eq, Except.ok.injEq]
    intro hc
    rw [div_eq_div_iff hp0.ne' hq0.ne'] at hc
    linarith
  · intro x
    unfold pressure
    dsimp only
    rw [e1]
    have : π * p / π = p := by field_simp
    simp only [this]

/-! ## Integrals over the contact -/

theorem pressureAt_eq {a x : ℝ} (h0 : 0 < a) (h1 : a < 1 / 2) (hx : -(1 / 2) ≤ x) (hx' : x ≤ 1 / 2) :
    pressureAt (fold x) (π * a) = if |x| < a then 2 / sin (π * a) * √(1 - (sin (π * x) / sin (π * a)) ^ 2) * cos (π * x) else 0 := by
  rw [fold_small hx hx']
  have hA := sin_a_pos h0 (show a < 1 by linarith)
  have hax : |x| ≤ 1 / 2 := abs_le.mpr ⟨by linarith, hx'⟩
  have e2 : cos (π * |x|) = cos (π * x) := by
    rcases abs_cases x with ⟨h, -⟩ | ⟨h, -⟩ <;> rw [h]
    rw [mul_neg, cos_neg]
  have e3 : sin (π * |x|) ^ 2 = sin (π * x) ^ 2 := by
    rcases abs_cases x with ⟨h, -⟩ | ⟨h, -⟩ <;> rw [h]
    rw [mul_neg, sin_neg, neg_sq]
  unfold pressureAt
  by_cases h : |x| < a
  · have hcos : cos (π * a) < cos (π * |x|) := cos_lt_cos_of_nonneg_of_le_pi (by positivity) (by nlinarith [pi_pos]) (by nlinarith [pi_pos])
    rw [if_pos hcos, if_pos h, e2, e3]
    have : √(sin (π * a) ^ 2 - sin (π * x) ^ 2) = sin (π * a) * √(1 - (sin (π * x) / sin (π * a)) ^ 2) := by
      rw [show sin (π * a) ^ 2 - sin (π * x) ^ 2 = sin (π * a) ^ 2 * (1 - (sin (π * x) / sin (π * a)) ^ 2) by field_simp, sqrt_mul (by positivity), sqrt_sq hA.le]
    rw [this]; field_simp
  · have hcos : ¬ cos (π * a) < cos (π * |x|) := by
      rw [not_lt]
      exact cos_le_cos_of_nonneg_of_le_pi (by positivity) (by nlinarith [pi_pos]) (by nlinarith [pi_pos])
    rw [if_neg hcos, if_neg h]

/-- Integrals over the contact, with the position on the indenter as variable. -/
theorem integral_contact {a : ℝ} (h0 : 0 < a) (h1 : a < 1 / 2) {g : ℝ → ℝ} (hg : Continuous g) :
    ∫ x in (-a)..a, g (sin (π * x) / sin (π * a)) * cos (π * x) = sin (π * a) / π * ∫ u in (-1)..1, g u := by
  have hA := sin_a_pos h0 (show a < 1 by linarith)
  have hd : ∀ x ∈ Set.uIcc (-a) a, HasDerivAt (fun x => sin (π * x) / sin (π * a)) (cos (π * x) * π / sin (π * a)) x := by
    intro x _
    have hpi : HasDerivAt (fun x : ℝ => π * x) π x := by simpa using (hasDerivAt_id x).const_mul π
    exact hpi.sin.div_const _
  have h := intervalIntegral.integral_comp_mul_deriv (g := g) hd (by fun_prop) hg
  have e1 : sin (π * a) / sin (π * a) = 1 := div_self hA.ne'
  have e2 : sin (π * -a) / sin (π * a) = -1 := by rw [mul_neg, sin_neg, neg_div, e1]
  simp only [e1, e2, Function.comp_apply] at h
  rw [← h, ← intervalIntegral.integral_const_mul]
  congr 1; funext x
  field_simp

theorem integral_period {a : ℝ} (h0 : 0 < a) (h1 : a < 1 / 2) (k : ℝ → ℝ) (hk : Continuous k) :
    ∫ x in (-(1 / 2))..(1 / 2), pressureAt (fold x) (π * a) * k (sin (π * x) / sin (π * a)) = 2 / π * ∫ u in (-1)..1, √(1 - u ^ 2) * k u := by
  have hA := sin_a_pos h0 (show a < 1 by linarith)
  set f : ℝ → ℝ := fun x => 2 / sin (π * a) * (√(1 - (sin (π * x) / sin (π * a)) ^ 2) * k (sin (π * x) / sin (π * a)) * cos (π * x)) with hf
  have hfc : Continuous f := by rw [hf]; fun_prop
  have hI : ∫ x in (-(1 / 2))..(1 / 2), pressureAt (fold x) (π * a) * k (sin (π * x) / sin (π * a)) = ∫ x in (-(1 / 2))..(1 / 2), (if |x| < a then f x else 0) := by
    refine intervalIntegral.integral_congr fun x hx => ?_
    rw [Set.uIcc_of_le (by norm_num)] at hx
    rw [pressureAt_eq h0 h1 hx.1 hx.2]
    split_ifs
    · simp only [hf]; ring
    · ring
  rw [hI]
  have key : ∫ x in (-(1 / 2))..(1 / 2), (if |x| < a then f x else 0) = ∫ x in (-a)..a, f x := by
    rw [intervalIntegral.integral_of_le (by norm_num), intervalIntegral.integral_of_le (by linarith)]
    have e : (fun x => if |x| < a then f x else 0) = Set.indicator (Set.Ioo (-a) a) f := by
      funext x
      simp only [Set.indicator, Set.mem_Ioo, abs_lt]
    rw [e, MeasureTheory.setIntegral_indicator measurableSet_Ioo]
    have e2 : Set.Ioc (-(1 / 2)) (1 / 2) ∩ Set.Ioo (-a) a = Set.Ioo (-a) a := by
      apply Set.inter_eq_right.mpr
      intro x hx
      exact ⟨by linarith [hx.1], by linarith [hx.2]⟩
    rw [e2, MeasureTheory.integral_Ioc_eq_integral_Ioo]
  rw [key, hf, intervalIntegral.integral_const_mul]
  have h := integral_contact (g := fun u => √(1 - u ^ 2) * k u) h0 h1 (by fun_prop)
  rw [h]; field_simp

theorem quarter : ∫ u in (-1 : ℝ)..1, √(1 - u ^ 2) * u ^ 2 = π / 8 := by
  have hd : ∀ t ∈ Set.uIcc (-(π / 2)) (π / 2), HasDerivAt sin (cos t) t := fun t _ => hasDerivAt_sin t
  have h := intervalIntegral.integral_comp_mul_deriv (g := fun u => √(1 - u ^ 2) * u ^ 2) hd (by fun_prop) (by fun_prop)
  rw [sin_neg, sin_pi_div_two] at h
  rw [← h]
  have e : ∫ t in (-(π / 2))..(π / 2), ((fun u => √(1 - u ^ 2) * u ^ 2) ∘ sin) t * cos t = ∫ t in (-(π / 2))..(π / 2), sin t ^ 2 * cos t ^ 2 := by
    refine intervalIntegral.integral_congr fun t ht => ?_
    rw [Set.uIcc_of_le (by linarith [pi_pos])] at ht
    have hc : 0 ≤ cos t := cos_nonneg_of_mem_Icc ht
    simp only [Function.comp_apply]
    rw [← cos_sq', sqrt_sq hc]; ring
  rw [e, integral_sin_sq_mul_cos_sq]
  have : sin (4 * (π / 2)) = 0 := by rw [show 4 * (π / 2) = 2 * π by ring, sin_two_pi]
  have h2 : sin (4 * -(π / 2)) = 0 := by rw [show 4 * -(π / 2) = -(2 * π) by ring, sin_neg, sin_two_pi, neg_zero]
  rw [this, h2]; ring

/-- **C132** `_pressure` is the pressure divided by its mean: its integral over one period is one, for every contact radius. -/
theorem C132_unit_mean {a : ℝ} (h0 : 0 < a) (h1 : a < 1 / 2) :
    (∀ x, pressure x (some a) none = .ok (pressureAt (fold x) (π * a))) ∧ ∫ x in (-(1 / 2))..(1 / 2), pressureAt (fold x) (π * a) = 1 := by
  refine ⟨fun x => rfl, ?_⟩
  have h := integral_period h0 h1 (fun _ => 1) continuous_const
  simp only [mul_one] at h
  rw [h, integral_sqrt_one_sub_sq]; field_simp

/-- **C134** The energy of `elastic_energy_a` is the work stored in the solid: the mean over one period of half the pressure times the
displacement measured from its mean (pressures in units of `p_wfc`, displacements in units of `2 h`, energies in units of `h p_wfc`). -/
theorem C134_energy {a : ℝ} (h0 : 0 < a) (h1 : a < 1 / 2) : ∃ E D, elasticEnergyA a = some E ∧ meanDisplacement a = some D ∧
    E = 1 / 2 * ∫ x in (-(1 / 2))..(1 / 2), meanPressure a * pressureAt (fold x) (π * a) * (2 * (displacements x a - D)) := by
  refine ⟨_, _, C90_energy.2.2 a h0 (by linarith), meanDisplacement_eq h0 (by linarith), ?_⟩
  set D := -1 / 2 + 1 / 2 * cos (π * a) ^ 2 + sin (π * a) ^ 2 * log (sin (π * a)) with hD
  have hA := sin_a_pos h0 (show a < 1 by linarith)
  have e : ∫ x in (-(1 / 2))..(1 / 2), meanPressure a * pressureAt (fold x) (π * a) * (2 * (displacements x a - D)) =
      ∫ x in (-(1 / 2))..(1 / 2), pressureAt (fold x) (π * a) * (fun u => -2 * sin (π * a) ^ 4 * u ^ 2 - 2 * sin (π * a) ^ 2 * D) (sin (π * x) / sin (π * a)) := by
    refine intervalIntegral.integral_congr fun x hx => ?_
    rw [Set.uIcc_of_le (by norm_num)] at hx
    simp only
    by_cases h : |x| < a
    · have hu : displacements x a = -sin (π * x) ^ 2 := by
        have hg := (C91_contact h0 h1 x).1 ⟨0, by simpa using h.le⟩
        unfold gap at hg; linarith
      rw [hu]; unfold meanPressure; field_simp
    · have : pressureAt (fold x) (π * a) = 0 := by rw [pressureAt_eq h0 h1 hx.1 hx.2, if_neg h]
      rw [this]; ring
  rw [e, integral_period h0 h1 (fun u => -2 * sin (π * a) ^ 4 * u ^ 2 - 2 * sin (π * a) ^ 2 * D) (by fun_prop)]
  have e3 : ∫ u in (-1 : ℝ)..1, √(1 - u ^ 2) * (-2 * sin (π * a) ^ 4 * u ^ 2 - 2 * sin (π * a) ^ 2 * D) =
      -2 * sin (π * a) ^ 4 * (π / 8) - 2 * sin (π * a) ^ 2 * D * (π / 2) := by
    rw [← quarter, ← integral_sqrt_one_sub_sq, ← intervalIntegral.integral_const_mul, ← intervalIntegral.integral_const_mul, ← intervalIntegral.integral_sub]
    · congr 1; funext u; ring
    · exact (Continuous.intervalIntegrable (by fun_prop) _ _)
    · exact (Continuous.intervalIntegrable (by fun_prop) _ _)
  rw [e3, hD, cos_sq']
  field_simp; ring

end CM.Ref.Westergaard
