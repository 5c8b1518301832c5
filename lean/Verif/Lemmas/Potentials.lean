import Verif.Props.FreeContinuum2
import Mathlib.Topology.ContinuousMap.StoneWeierstrass
import Mathlib.Analysis.SpecialFunctions.Exponential
import Mathlib.Analysis.SpecialFunctions.Integrals.Basic
/-!
# The displacements of continuous pressures are dense in the continuous functions (C200)
-/
namespace CM.Disc
open Real MeasureTheory Set Topology CM.Ref
open scoped ENNReal

/-- The integral along a diameter. -/
noncomputable def chordConst (k : ℕ) : ℝ := ∫ u in (-1 : ℝ)..1, √(1 - u ^ 2) ^ (2 * k + 1)

lemma chordConst_pos (k : ℕ) : 0 < chordConst k := by
  refine intervalIntegral.intervalIntegral_pos_of_pos_on (Continuous.intervalIntegrable (by fun_prop) _ _) (fun u hu => ?_) (by norm_num)
  have : 0 < 1 - u ^ 2 := by nlinarith [hu.1, hu.2]
  positivity

/-- The integral of a bump along a chord. -/
lemma chord_bump (k : ℕ) (B b : ℝ) : ∫⁻ r : ℝ, ENNReal.ofReal (√(B - (b ^ 2 + r ^ 2)) ^ (2 * k + 1)) = ENNReal.ofReal (chordConst k * max (B - b ^ 2) 0 ^ (k + 1)) := by
  have hz : ∀ t : ℝ, t ≤ 0 → √t ^ (2 * k + 1) = 0 := fun t ht => by rw [sqrt_eq_zero_of_nonpos ht, zero_pow (by omega)]
  rcases le_or_gt B (b ^ 2) with h | h
  · have e : ∀ r : ℝ, ENNReal.ofReal (√(B - (b ^ 2 + r ^ 2)) ^ (2 * k + 1)) = 0 := fun r => by
      rw [hz _ (by nlinarith [sq_nonneg r]), ENNReal.ofReal_zero]
    rw [lintegral_congr e, lintegral_zero, max_eq_right (by linarith), zero_pow (by omega), mul_zero, ENNReal.ofReal_zero]
  · set c := √(B - b ^ 2) with hc
    have hc0 : 0 < c := sqrt_pos.mpr (by linarith)
    have hcs : c ^ 2 = B - b ^ 2 := sq_sqrt (by linarith)
    have hint : ∫ r in (-c)..c, √(B - (b ^ 2 + r ^ 2)) ^ (2 * k + 1) = chordConst k * (c ^ 2) ^ (k + 1) := by
      have h2 := intervalIntegral.integral_comp_div (a := -c) (b := c) (fun u => c ^ (2 * k + 1) * √(1 - u ^ 2) ^ (2 * k + 1)) hc0.ne'
      rw [neg_div, div_self hc0.ne', intervalIntegral.integral_const_mul (c ^ (2 * k + 1)) (fun u => √(1 - u ^ 2) ^ (2 * k + 1)) (a := -1), smul_eq_mul] at h2
      rw [show chordConst k * (c ^ 2) ^ (k + 1) = c * (c ^ (2 * k + 1) * chordConst k) by ring, chordConst, ← h2]
      refine intervalIntegral.integral_congr fun r _ => ?_
      have e : B - (b ^ 2 + r ^ 2) = c ^ 2 * (1 - (r / c) ^ 2) := by
        rw [mul_sub, div_pow, mul_div_cancel₀ _ (pow_ne_zero 2 hc0.ne'), hcs]; ring
      rw [e, sqrt_mul (by positivity), sqrt_sq hc0.le, mul_pow]
    have hsupp : ∀ r : ℝ, ENNReal.ofReal (√(B - (b ^ 2 + r ^ 2)) ^ (2 * k + 1)) = (Ioc (-c) c).indicator (fun r => ENNReal.ofReal (√(B - (b ^ 2 + r ^ 2)) ^ (2 * k + 1))) r := by
      intro r
      by_cases hr : r ∈ Ioc (-c) c
      · rw [indicator_of_mem hr]
      · rw [indicator_of_notMem hr]
        have : c ^ 2 ≤ r ^ 2 := by
          rw [mem_Ioc, not_and_or, not_lt, not_le] at hr
          rcases hr with hr | hr <;> nlinarith
        rw [hz _ (by linarith), ENNReal.ofReal_zero]
    rw [lintegral_congr hsupp, lintegral_indicator measurableSet_Ioc, max_eq_left (by linarith), ← hcs, ← hint, intervalIntegral.integral_of_le (by linarith),
      ofReal_integral_eq_lintegral_ofReal]
    · exact (Continuous.intervalIntegrable (by fun_prop) (-c) c).1
    · exact Filter.Eventually.of_forall fun r => by positivity

/-- A bump of pressure around `c`. -/
noncomputable def bump (k : ℕ) (B : ℝ) (c y : ℝ × ℝ) : ℝ := √(B - ((y.1 - c.1) ^ 2 + (y.2 - c.2) ^ 2)) ^ (2 * k + 1)

lemma bump_continuous (k : ℕ) (B : ℝ) (c : ℝ × ℝ) : Continuous (bump k B c) := by unfold bump; fun_prop

lemma bump_compact (k : ℕ) (B : ℝ) (c : ℝ × ℝ) : HasCompactSupport (bump k B c) := by
  refine HasCompactSupport.of_support_subset_isCompact (isCompact_closedBall c √B) fun y hy => ?_
  have h : 0 < B - ((y.1 - c.1) ^ 2 + (y.2 - c.2) ^ 2) := by
    by_contra h
    exact hy (by unfold bump; rw [sqrt_eq_zero_of_nonpos (not_lt.1 h), zero_pow (by omega)])
  rw [Metric.mem_closedBall, Prod.dist_eq, Real.dist_eq, Real.dist_eq]
  exact max_le (abs_le_sqrt (by nlinarith [sq_nonneg (y.2 - c.2)])) (abs_le_sqrt (by nlinarith [sq_nonneg (y.1 - c.1)]))

/-- Inside its circle a bump displaces the surface by a polynomial of the squared distance. -/
lemma bump_potential (k : ℕ) {B : ℝ} (c x : ℝ × ℝ) (hx : (x.1 - c.1) ^ 2 + (x.2 - c.2) ^ 2 ≤ B) :
    boussinesq 1 (bump k B c) x = chordConst k / π * ∫ θ in (0 : ℝ)..π, (B - ((x.1 - c.1) ^ 2 + (x.2 - c.2) ^ 2) * sin θ ^ 2) ^ (k + 1) := by
  have e0 : bump k B c = fun y => bump k B (0, 0) (y - c) := by
    funext y
    unfold bump
    simp only [Prod.fst_sub, Prod.snd_sub, sub_zero]
  rw [e0, boussinesq_shift]
  set z := x - c with hz
  have hz1 : z.1 = x.1 - c.1 := rfl
  have hz2 : z.2 = x.2 - c.2 := rfl
  rw [← hz1, ← hz2] at hx ⊢
  have hpos := chordConst_pos k
  set g : ℝ → ℝ := fun t => chordConst k * max (B - t) 0 ^ (k + 1) with hg
  have key : ∫⁻ y : ℝ × ℝ, ENNReal.ofReal (bump k B (0, 0) y) / ENNReal.ofReal (away z y) = ENNReal.ofReal (∫ θ in (0 : ℝ)..π, g ((√(z.1 ^ 2 + z.2 ^ 2) * sin θ) ^ 2)) := by
    have h1 := lint_chords (f := fun t => ENNReal.ofReal (√(B - t) ^ (2 * k + 1))) (by fun_prop) z
    rw [lintegral_congr fun θ => chord_bump k B _, lint_dir (g := g) (by fun_prop) (fun t => by positivity)] at h1
    rw [← h1]
    refine lintegral_congr fun y => ?_
    unfold bump away
    simp only [sub_zero]
  have hV : 0 ≤ ∫ θ in (0 : ℝ)..π, g ((√(z.1 ^ 2 + z.2 ^ 2) * sin θ) ^ 2) := intervalIntegral.integral_nonneg pi_pos.le fun θ _ => by positivity
  obtain ⟨-, h2⟩ := real_of_lint (bump_continuous k B (0, 0)).measurable (fun y => by unfold bump; positivity) hV key
  unfold boussinesq
  rw [h2, hg, intervalIntegral.integral_const_mul]
  rw [mul_one, ← mul_assoc, one_div, mul_comm π⁻¹, ← div_eq_mul_inv]
  congr 1
  refine intervalIntegral.integral_congr fun θ _ => ?_
  rw [mul_pow, sq_sqrt (by positivity), max_eq_left]
  have : sin θ ^ 2 ≤ 1 := sin_sq_le_one θ
  nlinarith [sq_nonneg z.1, sq_nonneg z.2]

lemma sub_mul_pow_sum (k : ℕ) (B t s : ℝ) : (B - t * s) ^ k = ∑ j ∈ Finset.range (k + 1), (k.choose j * B ^ (k - j) * (-1) ^ j * t ^ j) * s ^ j := by
  rw [sub_eq_neg_add, add_pow]
  refine Finset.sum_congr rfl fun j _ => ?_
  rw [neg_eq_neg_one_mul, mul_pow, mul_pow]
  ring

/-- The mean of an even power of the sine. -/
noncomputable def sinMean (j : ℕ) : ℝ := ∫ θ in (0 : ℝ)..π, (sin θ ^ 2) ^ j

lemma sinMean_pos (j : ℕ) : 0 < sinMean j := by
  unfold sinMean
  simp only [← pow_mul]
  exact integral_sin_pow_pos _

lemma bump_poly (k : ℕ) (B t : ℝ) : ∫ θ in (0 : ℝ)..π, (B - t * sin θ ^ 2) ^ k = ∑ j ∈ Finset.range (k + 1), (k.choose j * B ^ (k - j) * (-1) ^ j * sinMean j) * t ^ j := by
  simp only [sub_mul_pow_sum]
  rw [intervalIntegral.integral_finsetSum fun j _ => Continuous.intervalIntegrable (by fun_prop) _ _]
  refine Finset.sum_congr rfl fun j _ => ?_
  rw [intervalIntegral.integral_const_mul]
  unfold sinMean
  ring

/-! ## The space of displacements -/

section
variable (s : Set (ℝ × ℝ))

lemma boussinesq_combine {ψ ψ' : ℝ × ℝ → ℝ} (h : Continuous ψ) (hc : HasCompactSupport ψ) (h' : Continuous ψ') (hc' : HasCompactSupport ψ') (a : ℝ) (x : ℝ × ℝ) :
    boussinesq 1 (fun y => ψ y + a * ψ' y) x = boussinesq 1 ψ x + a * boussinesq 1 ψ' x := by
  have int : ∀ {ψ : ℝ × ℝ → ℝ}, Continuous ψ → HasCompactSupport ψ → Integrable fun y => ψ y / away x y := by
    intro ψ h hc
    obtain ⟨r, hr0, hr⟩ := support_radius hc
    obtain ⟨M, hM⟩ := hc.exists_bound_of_continuous h
    exact (weighted_integrable h.measurable hM (show 0 < 2 * r + 1 by positivity) (fun y hy => away_lt (hr y hy).1 (hr y hy).2) x).1
  unfold boussinesq
  rw [mul_left_comm a, ← mul_add]
  congr 1
  rw [← integral_const_mul a, ← integral_add (int h hc) ((int h' hc').const_mul a)]
  refine integral_congr_ae (Filter.Eventually.of_forall fun y => ?_)
  beta_reduce
  rw [add_div, mul_div_assoc]

/-- The displacements of continuous pressures with compact support, on a part of the surface. -/
def potentials : Submodule ℝ C(s, ℝ) where
  carrier := {f | ∃ ψ : ℝ × ℝ → ℝ, Continuous ψ ∧ HasCompactSupport ψ ∧ ∀ x : s, f x = boussinesq 1 ψ x}
  zero_mem' := ⟨fun _ => 0, continuous_const, HasCompactSupport.zero, fun x => by unfold boussinesq; simp⟩
  add_mem' := by
    rintro f g ⟨ψ, h1, h2, h3⟩ ⟨ψ', h1', h2', h3'⟩
    refine ⟨fun y => ψ y + 1 * ψ' y, by fun_prop, h2.add (h2'.mul_left), fun x => ?_⟩
    rw [boussinesq_combine h1 h2 h1' h2', one_mul, ContinuousMap.add_apply, h3, h3']
  smul_mem' := by
    rintro a f ⟨ψ, h1, h2, h3⟩
    refine ⟨fun y => (fun _ => (0 : ℝ)) y + a * ψ y, by fun_prop, HasCompactSupport.zero.add (h2.mul_left), fun x => ?_⟩
    have hz : boussinesq 1 (fun _ => (0 : ℝ)) x = 0 := by unfold boussinesq; simp
    rw [boussinesq_combine (ψ := fun _ => (0 : ℝ)) continuous_const HasCompactSupport.zero h1 h2, hz, zero_add, ContinuousMap.smul_apply, h3, smul_eq_mul]

/-- The squared distance from a point. -/
def distSq (c : ℝ × ℝ) : C(s, ℝ) := ⟨fun x => (x.1.1 - c.1) ^ 2 + (x.1.2 - c.2) ^ 2, by fun_prop⟩

lemma distSq_bound [CompactSpace s] (c : ℝ × ℝ) : ∃ B, 0 ≤ B ∧ ∀ x : s, (x.1.1 - c.1) ^ 2 + (x.1.2 - c.2) ^ 2 ≤ B :=
  ⟨‖distSq s c‖, norm_nonneg _, fun x => (le_abs_self _).trans ((distSq s c).norm_coe_le_norm x)⟩

/-- Polynomials of the squared distance that bumps produce. -/
lemma bump_mem (k : ℕ) {B : ℝ} {c : ℝ × ℝ} (hB : ∀ x : s, (x.1.1 - c.1) ^ 2 + (x.1.2 - c.2) ^ 2 ≤ B) :
    ∑ j ∈ Finset.range (k + 1 + 1), ((k + 1).choose j * B ^ (k + 1 - j) * (-1) ^ j * sinMean j : ℝ) • distSq s c ^ j ∈ potentials s := by
  have hp := chordConst_pos k
  have hpi := pi_pos
  have h : (chordConst k / π) • ∑ j ∈ Finset.range (k + 1 + 1), ((k + 1).choose j * B ^ (k + 1 - j) * (-1) ^ j * sinMean j : ℝ) • distSq s c ^ j ∈ potentials s := by
    refine ⟨bump k B c, bump_continuous k B c, bump_compact k B c, fun x => ?_⟩
    rw [bump_potential k c x (hB x), bump_poly, ContinuousMap.smul_apply, smul_eq_mul, ContinuousMap.sum_apply]
    congr 1
  have := (potentials s).smul_mem (chordConst k / π)⁻¹ h
  rwa [smul_smul, inv_mul_cancel₀ (by positivity), one_smul] at this

variable [CompactSpace s]

lemma one_mem_potentials : (1 : C(s, ℝ)) ∈ potentials s := by
  obtain ⟨B, hB0, hB⟩ := distSq_bound s (0, 0)
  have h1 := bump_mem s 0 (c := (0, 0)) hB
  have h2 := bump_mem s 0 (c := (0, 0)) (B := B + 1) fun x => (hB x).trans (by linarith)
  have h3 := (potentials s).smul_mem (sinMean 0)⁻¹ ((potentials s).sub_mem h2 h1)
  have hs := sinMean_pos 0
  convert h3 using 1
  ext x
  simp [Finset.sum_range_succ]
  field_simp
  ring

lemma pow_mem_potentials (c : ℝ × ℝ) (m : ℕ) : distSq s c ^ m ∈ potentials s := by
  induction m using Nat.strong_induction_on with
  | _ m ih =>
    rcases m with - | k
    · rw [pow_zero]; exact one_mem_potentials s
    · obtain ⟨B, -, hB⟩ := distSq_bound s c
      have h := bump_mem s k hB
      rw [Finset.sum_range_succ] at h
      have h1 : ∑ j ∈ Finset.range (k + 1), ((k + 1).choose j * B ^ (k + 1 - j) * (-1) ^ j * sinMean j : ℝ) • distSq s c ^ j ∈ potentials s :=
        (potentials s).sum_mem fun j hj => (potentials s).smul_mem _ (ih j (Finset.mem_range.1 hj))
      have h2 := ((potentials s).add_mem_iff_right h1).1 h
      have hs := sinMean_pos (k + 1)
      have hne : ((k + 1).choose (k + 1) * B ^ (k + 1 - (k + 1)) * (-1) ^ (k + 1) * sinMean (k + 1) : ℝ) ≠ 0 := by
        rw [Nat.choose_self, Nat.sub_self, pow_zero, Nat.cast_one, mul_one, one_mul]
        exact mul_ne_zero (pow_ne_zero _ (by norm_num)) hs.ne'
      exact ((potentials s).smul_mem_iff hne).1 h2

/-- Gaussians. -/
lemma gauss_mem (c : ℝ × ℝ) (t : ℝ) (f : C(s, ℝ)) (hf : ∀ x, f x = exp (-t * ((x.1.1 - c.1) ^ 2 + (x.1.2 - c.2) ^ 2))) : f ∈ (potentials s).topologicalClosure := by
  have h := NormedSpace.exp_series_hasSum_exp' (𝕂 := ℝ) ((-t) • distSq s c)
  have e : NormedSpace.exp ((-t) • distSq s c) = f := by
    ext x
    have := NormedSpace.map_exp (ContinuousMap.evalAlgHom ℝ ℝ x) (continuous_eval_const x) ((-t) • distSq s c)
    rw [hf]
    refine this.trans ?_
    rw [← Real.exp_eq_exp_ℝ]
    rfl
  rw [e] at h
  refine (potentials s).isClosed_topologicalClosure.mem_of_tendsto h.tendsto_sum_nat (Filter.Eventually.of_forall fun n => (potentials s).le_topologicalClosure ?_)
  refine (potentials s).sum_mem fun j _ => (potentials s).smul_mem _ ?_
  rw [smul_pow]
  exact (potentials s).smul_mem _ (pow_mem_potentials s c j)

/-- Exponentials of quadratic polynomials: closed under multiplication. -/
def gaussians : Submonoid C(s, ℝ) where
  carrier := {f | ∃ t b1 b2 : ℝ, (0 < t ∨ t = 0 ∧ b1 = 0 ∧ b2 = 0) ∧ ∀ x : s, f x = exp (-t * (x.1.1 ^ 2 + x.1.2 ^ 2) + b1 * x.1.1 + b2 * x.1.2)}
  one_mem' := ⟨0, 0, 0, Or.inr ⟨rfl, rfl, rfl⟩, fun x => by simp⟩
  mul_mem' := by
    rintro f g ⟨t, b1, b2, h, hf⟩ ⟨t', b1', b2', h', hg⟩
    refine ⟨t + t', b1 + b1', b2 + b2', ?_, fun x => ?_⟩
    · rcases h with h | ⟨rfl, rfl, rfl⟩ <;> rcases h' with h' | ⟨rfl, rfl, rfl⟩
      · exact Or.inl (by linarith)
      · exact Or.inl (by linarith)
      · exact Or.inl (by linarith)
      · exact Or.inr ⟨by simp, by simp, by simp⟩
    · rw [ContinuousMap.mul_apply, hf, hg, ← exp_add]
      congr 1
      ring

lemma gaussians_mem {f : C(s, ℝ)} (hf : f ∈ gaussians s) : f ∈ (potentials s).topologicalClosure := by
  obtain ⟨t, b1, b2, h, hf⟩ := hf
  rcases h with h | ⟨rfl, rfl, rfl⟩
  · set a := exp ((b1 ^ 2 + b2 ^ 2) / (4 * t)) with ha
    have ha0 : a ≠ 0 := (exp_pos _).ne'
    have := gauss_mem s (b1 / (2 * t), b2 / (2 * t)) t (a⁻¹ • f) fun x => by
      rw [ContinuousMap.smul_apply, hf, smul_eq_mul, ha, ← exp_neg, ← exp_add]
      congr 1
      field_simp
      ring
    exact ((potentials s).topologicalClosure.smul_mem_iff (inv_ne_zero ha0)).1 this
  · have : f = 1 := by ext x; rw [hf]; simp
    rw [this]
    exact (potentials s).le_topologicalClosure (one_mem_potentials s)

lemma potentials_top : (potentials s).topologicalClosure = ⊤ := by
  set A : Subalgebra ℝ C(s, ℝ) := Algebra.adjoin ℝ (gaussians s : Set C(s, ℝ)) with hA
  have hle : A.toSubmodule ≤ (potentials s).topologicalClosure := by
    rw [hA, Algebra.adjoin_eq_span, Submonoid.closure_eq]
    exact Submodule.span_le.2 fun f hf => gaussians_mem s hf
  have hsep : A.SeparatesPoints := by
    intro x y hxy
    by_contra hno
    push Not at hno
    have hg : ∀ b1 b2 : ℝ, -1 * (x.1.1 ^ 2 + x.1.2 ^ 2) + b1 * x.1.1 + b2 * x.1.2 = -1 * (y.1.1 ^ 2 + y.1.2 ^ 2) + b1 * y.1.1 + b2 * y.1.2 := by
      intro b1 b2
      set f : C(s, ℝ) := ⟨fun x => exp (-1 * (x.1.1 ^ 2 + x.1.2 ^ 2) + b1 * x.1.1 + b2 * x.1.2), by fun_prop⟩ with hf
      have hm : f ∈ A := Algebra.subset_adjoin ⟨1, b1, b2, Or.inl one_pos, fun x => rfl⟩
      exact exp_injective (hno f ⟨f, hm, rfl⟩)
    have h0 := hg 0 0
    have h1 := hg 1 0
    have h2 := hg 0 1
    exact hxy (Subtype.ext (Prod.ext (by linarith) (by linarith)))
  have htop := ContinuousMap.subalgebra_topologicalClosure_eq_top_of_separatesPoints A hsep
  rw [eq_top_iff]
  intro f _
  have hf : f ∈ A.topologicalClosure := by rw [htop]; trivial
  have : f ∈ closure (A : Set C(s, ℝ)) := hf
  exact closure_minimal (fun g hg => hle hg) (potentials s).isClosed_topologicalClosure this

end

/-- Every continuous function is on bounded parts of the surface, up to an arbitrarily small error, the displacement that some pressure causes. -/
theorem potentials_dense {s : Set (ℝ × ℝ)} (hs : IsCompact s) {φ : ℝ × ℝ → ℝ} (hφ : Continuous φ) {ε : ℝ} (hε : 0 < ε) :
    ∃ ψ : ℝ × ℝ → ℝ, Continuous ψ ∧ HasCompactSupport ψ ∧ ∀ x ∈ s, |boussinesq 1 ψ x - φ x| ≤ ε := by
  have := isCompact_iff_compactSpace.1 hs
  have h : (⟨fun x : s => φ x, by fun_prop⟩ : C(s, ℝ)) ∈ (potentials s).topologicalClosure := by rw [potentials_top]; trivial
  obtain ⟨g, ⟨ψ, h1, h2, h3⟩, hd⟩ := Metric.mem_closure_iff.1 h ε hε
  refine ⟨ψ, h1, h2, fun x hx => ?_⟩
  have := (ContinuousMap.dist_apply_le_dist (f := _) (g := g) ⟨x, hx⟩).trans hd.le
  rw [Real.dist_eq, h3, abs_sub_comm] at this
  exact this

end CM.Disc
