import Verif.Props.FreeContinuum
/-!
# Nonperiodic contacts: pressures, calculations, uniqueness (C200)
-/
namespace CM.Disc
open Real MeasureTheory Set Topology CM.Ref CM.Spec CM.HS CM.FFT CM.System CM.Pipe

variable {nx ny : ℕ} {sx sy : ℝ} {T : Topo}

/-! ## Displacements of continuous pressures are continuous -/

lemma weighted_integrable {g : ℝ × ℝ → ℝ} (hg : Measurable g) {ω D : ℝ} (hω : ∀ y, |g y| ≤ ω) (hD : 0 < D) (hs : ∀ y, g y ≠ 0 → away (0, 0) y < D) (x : ℝ × ℝ) :
    Integrable (fun y => g y / away x y) ∧ ∫ y, |g y / away x y| ≤ ω * (2 * π * D) := by
  obtain ⟨i1, i2⟩ := disc_potential hD (0, 0) x
  have hset : MeasurableSet {y : ℝ × ℝ | away (0, 0) y < D} := measurableSet_lt (away_meas (0, 0)) measurable_const
  have hω0 : 0 ≤ ω := (abs_nonneg _).trans (hω 0)
  have i1' : IntegrableOn (fun y => ω * (1 / away x y)) {y : ℝ × ℝ | away (0, 0) y < D} := Integrable.const_mul i1 ω
  have i3 : Integrable (({y : ℝ × ℝ | away (0, 0) y < D}).indicator fun y => ω * (1 / away x y)) := (integrable_indicator_iff hset).2 i1'
  have hb : ∀ y, |g y / away x y| ≤ ({y : ℝ × ℝ | away (0, 0) y < D}).indicator (fun y => ω * (1 / away x y)) y := by
    intro y
    have ha := away_nonneg x y
    by_cases h : g y = 0
    · rw [h, zero_div, abs_zero]
      exact Set.indicator_nonneg (fun y _ => by have := away_nonneg x y; positivity) y
    · rw [Set.indicator_of_mem (show y ∈ {y : ℝ × ℝ | away (0, 0) y < D} from hs y h), abs_div, abs_of_nonneg ha, mul_one_div]
      exact div_le_div_of_nonneg_right (hω y) ha
  have i4 : Integrable fun y => g y / away x y :=
    i3.mono' (hg.div (away_meas x)).aestronglyMeasurable (Filter.Eventually.of_forall fun y => by rw [norm_eq_abs]; exact hb y)
  refine ⟨i4, (integral_mono i4.abs i3 hb).trans ?_⟩
  rw [integral_indicator hset, integral_const_mul]
  exact mul_le_mul_of_nonneg_left i2 hω0

lemma support_radius {ψ : ℝ × ℝ → ℝ} (hc : HasCompactSupport ψ) : ∃ r : ℝ, 0 ≤ r ∧ ∀ y, ψ y ≠ 0 → |y.1| ≤ r ∧ |y.2| ≤ r := by
  obtain ⟨r, hr⟩ := (HasCompactSupport.isCompact hc).isBounded.subset_closedBall 0
  refine ⟨max r 0, le_max_right _ _, fun y hy => ?_⟩
  have hb := hr (subset_tsupport ψ hy)
  rw [mem_closedBall_zero_iff, Prod.norm_def, norm_eq_abs, norm_eq_abs] at hb
  exact ⟨((le_max_left _ _).trans hb).trans (le_max_left _ _), ((le_max_right _ _).trans hb).trans (le_max_left _ _)⟩

lemma away_lt {y : ℝ × ℝ} {a : ℝ} (h1 : |y.1| ≤ a) (h2 : |y.2| ≤ a) : away (0, 0) y < 2 * a + 1 := by
  have h0 : 0 ≤ a := (abs_nonneg _).trans h1
  unfold away
  rw [sqrt_lt' (by linarith)]
  have b1 := abs_le.1 h1
  have b2 := abs_le.1 h2
  have c1 : y.1 ^ 2 ≤ a ^ 2 := sq_le_sq' b1.1 b1.2
  have c2 : y.2 ^ 2 ≤ a ^ 2 := sq_le_sq' b2.1 b2.2
  simp only [zero_sub, neg_sq]
  nlinarith

lemma boussinesq_continuous {ψ : ℝ × ℝ → ℝ} (hψ : Continuous ψ) (hc : HasCompactSupport ψ) : Continuous (boussinesq 1 ψ) := by
  obtain ⟨r, hr0, hr⟩ := support_radius hc
  obtain ⟨M, hM⟩ := hc.exists_bound_of_continuous hψ
  simp only [norm_eq_abs] at hM
  have hu := hc.uniformContinuous_of_continuous hψ
  rw [Metric.uniformContinuous_iff] at hu
  set D := 2 * (r + 1) + 1 with hD
  have hD0 : 0 < D := by positivity
  have hpi := pi_pos
  rw [Metric.continuous_iff]
  intro x ε hε
  obtain ⟨δ, hδ, hcl⟩ := hu (ε / (4 * D)) (by positivity)
  refine ⟨min δ 1, lt_min hδ one_pos, fun x' hx' => ?_⟩
  have hd1 : dist x' x < δ := hx'.trans_le (min_le_left _ _)
  have hd2 : dist x' x < 1 := hx'.trans_le (min_le_right _ _)
  set c := x - x' with hcd
  have e1 : boussinesq 1 ψ x' = boussinesq 1 (fun y => ψ (y - c)) x := by
    rw [boussinesq_shift]
    congr 1
    rw [hcd, sub_sub_cancel]
  rw [Prod.dist_eq, Real.dist_eq, Real.dist_eq] at hd2
  have hc1 : |c.1| ≤ 1 := by rw [hcd, Prod.fst_sub, abs_sub_comm]; exact ((le_max_left _ _).trans_lt hd2).le
  have hc2 : |c.2| ≤ 1 := by rw [hcd, Prod.snd_sub, abs_sub_comm]; exact ((le_max_right _ _).trans_lt hd2).le
  have s1 : ∀ y, ψ y ≠ 0 → away (0, 0) y < D := fun y hy => away_lt ((hr y hy).1.trans (by linarith)) ((hr y hy).2.trans (by linarith))
  have s2 : ∀ y, ψ (y - c) ≠ 0 → away (0, 0) y < D := fun y hy => by
    obtain ⟨h1, h2⟩ := hr _ hy
    refine away_lt ?_ ?_
    · have := abs_add_le (y - c).1 c.1
      rw [Prod.fst_sub, sub_add_cancel] at this
      rw [Prod.fst_sub] at h1
      linarith
    · have := abs_add_le (y - c).2 c.2
      rw [Prod.snd_sub, sub_add_cancel] at this
      rw [Prod.snd_sub] at h2
      linarith
  have m2 : Continuous fun y => ψ (y - c) := hψ.comp (continuous_id.sub continuous_const)
  have i1 := (weighted_integrable hψ.measurable hM hD0 s1 x).1
  have i2 := (weighted_integrable m2.measurable (fun y => hM _) hD0 s2 x).1
  have hdiff : ∀ y, |ψ (y - c) - ψ y| ≤ ε / (4 * D) := fun y => by
    have := hcl (a := y - c) (b := y) (by
      rw [dist_eq_norm, sub_sub_cancel_left, norm_neg, hcd, ← dist_eq_norm, dist_comm]
      exact hd1)
    rw [Real.dist_eq] at this
    exact this.le
  have b := (weighted_integrable (m2.sub hψ).measurable hdiff hD0 (fun y hy => by
    by_cases h : ψ y = 0
    · exact s2 y fun h' => hy (by rw [Pi.sub_apply, h, h', sub_zero])
    · exact s1 y h) x).2
  rw [e1, Real.dist_eq]
  have e2 : boussinesq 1 (fun y => ψ (y - c)) x - boussinesq 1 ψ x = 1 / π * ∫ y, (ψ (y - c) - ψ y) / away x y := by
    unfold boussinesq
    rw [← mul_sub, ← integral_sub i2 i1, mul_one]
    congr 1
    exact integral_congr_ae (Filter.Eventually.of_forall fun y => (sub_div _ _ _).symm)
  rw [e2, abs_mul, abs_of_pos (by positivity)]
  calc 1 / π * |∫ y, (ψ (y - c) - ψ y) / away x y| ≤ 1 / π * (ε / (4 * D) * (2 * π * D)) :=
        mul_le_mul_of_nonneg_left (abs_integral_le_integral_abs.trans b) (by positivity)
    _ = ε / 2 := by field_simp; norm_num
    _ < ε := by linarith

/-! ## Pressures -/

/-- Under the same conditions the work that the pressures of the simulated contact do on the displacements of any other continuous pressure converges to the work of the pressures of the continuous
contact. -/
theorem free_work {H : ℝ × ℝ → ℝ} {q ψ : ℝ × ℝ → ℝ} {d : ℝ} (hq : Continuum H d q) (hin : tsupport q ⊆ inside sx sy) (hψ : Continuous ψ) (hc : HasCompactSupport ψ)
    (hsx : 0 < sx) (hsy : 0 < sy) {η : ℝ} (hη : 0 < η) :
    ∃ h > 0, ∀ (T : Topo) (k : Option String) (nx ny : ℕ) (p u : Fin nx × Fin ny → ℝ), ValidTopo T nx ny sx sy → (k = some "nonperiodic" ∨ (k = none ∧ T.isPeriodic = false)) →
      HeightsOf H T nx ny sx sy → sx / nx < h → sy / ny < h → NearContact T k nx ny sx sy d h p u →
      |avg (fun x => p x * boussinesq 1 ψ (gridPoint (sx / nx) (sy / ny) x.1 x.2)) * (sx * sy) - ∫ y, q y * boussinesq 1 ψ y| ≤ η := by
  have hA : 0 < sx * sy := mul_pos hsx hsy
  set A := sx * sy with hAd
  set L := ∫ y, q y with hL
  have hL0 : 0 ≤ L := integral_nonneg hq.noTension
  have hV := boussinesq_continuous hψ hc
  set g : ℝ × ℝ → ℝ := fun y => q y * boussinesq 1 ψ y with hg
  have gc : Continuous g := hq.continuous.mul hV
  have gs : HasCompactSupport g := hq.compact.mul_right
  have gin : tsupport g ⊆ inside sx sy := (tsupport_mul_subset_left (f := q) (g := boussinesq 1 ψ)).trans hin
  obtain ⟨C, hC, ht⟩ := free_test hψ hc hsx hsy
  set B := 2 * ((L + 1) / A) + 1 with hB
  have hB0 : 0 < B := by positivity
  set ε := η / (4 * A * B) with hε
  have hε0 : 0 < ε := by positivity
  set t := min 1 (η / (4 * A * (C + 1))) with htd
  have ht0 : 0 < t := lt_min one_pos (by positivity)
  have ht1 : t ≤ 1 := min_le_left _ _
  have ht2 : t * (4 * A * (C + 1)) ≤ η := by rw [← le_div_iff₀ (by positivity)]; exact min_le_right _ _
  have htt : t ^ 2 ≤ 1 := by nlinarith
  obtain ⟨h1, hh1, g1⟩ := ht ε hε0
  obtain ⟨h2, hh2, g2⟩ := free_close hq hin hsx hsy (η := t ^ 2) (by positivity)
  obtain ⟨h3, hh3, g3⟩ := fine_grid gc gs gin (show 0 < η / 2 by positivity) hsx hsy
  refine ⟨min h1 (min h2 h3), lt_min hh1 (lt_min hh2 hh3), fun T k nx ny p u hT hk hH hx hy hnear => ?_⟩
  have m1 : min h1 (min h2 h3) ≤ h1 := min_le_left _ _
  have m2 : min h1 (min h2 h3) ≤ h2 := (min_le_right _ _).trans (min_le_left _ _)
  have m3 : min h1 (min h2 h3) ≤ h3 := (min_le_right _ _).trans (min_le_right _ _)
  obtain ⟨-, a1, a2, -, a3⟩ := g2 T k nx ny p u hT hk hH (hx.trans_le m2) (hy.trans_le m2)
    ⟨hnear.response, hnear.noTension, fun x => (hnear.penetration x).trans m2, fun x hx => (hnear.gap x hx).trans m2⟩
  obtain ⟨sub, hm, -⟩ := hnear.response
  obtain ⟨-, a4⟩ := g3 T k nx ny sub hT hk hm (hx.trans_le m3) (hy.trans_le m3)
  have a5 := g1 nx ny hT.nx_pos hT.ny_pos (hx.trans_le m1) (hy.trans_le m1) fun x => p x - onGrid nx ny sx sy q x
  set Q := avg (onGrid nx ny sx sy q) with hQ
  have hQB : Q ≤ (L + 1) / A := by
    rw [le_div_iff₀ hA]
    have := (abs_le.1 a3).2
    linarith
  have ab := avg_abs_le_free hnear.noTension (q := onGrid nx ny sx sy q) fun x => hq.noTension _
  have hPB : avg p ≤ (L + 1) / A + 1 := by
    have := (abs_le.1 a1).2
    linarith
  have s1 : √(avg fun x => (p x - onGrid nx ny sx sy q x) * freeSum sx sy nx ny (fun i => p i - onGrid nx ny sx sy q i) x) ≤ t := by
    rw [sqrt_le_left ht0.le]
    exact a2
  have s2 : |avg fun x => (p x - onGrid nx ny sx sy q x) * boussinesq 1 ψ (gridPoint (sx / nx) (sy / ny) x.1 x.2)| ≤ ε * B + C * t := by
    refine a5.trans (add_le_add (mul_le_mul_of_nonneg_left (ab.trans ?_) hε0.le) (mul_le_mul_of_nonneg_left s1 hC))
    linarith
  have e1 : avg (fun x => (p x - onGrid nx ny sx sy q x) * boussinesq 1 ψ (gridPoint (sx / nx) (sy / ny) x.1 x.2)) =
      avg (fun x => p x * boussinesq 1 ψ (gridPoint (sx / nx) (sy / ny) x.1 x.2)) - avg (onGrid nx ny sx sy g) := by
    rw [← avg_minus]
    congr 1
    funext x
    rw [hg]
    unfold onGrid
    ring
  rw [e1] at s2
  have e2 : ε * B * A = η / 4 := by
    rw [hε]
    field_simp
  have e3 : C * t * A ≤ η / 4 := by
    have : 0 ≤ t * A := by positivity
    nlinarith
  have s3 : |avg (fun x => p x * boussinesq 1 ψ (gridPoint (sx / nx) (sy / ny) x.1 x.2)) * A - avg (onGrid nx ny sx sy g) * A| ≤ η / 2 := by
    rw [← sub_mul, abs_mul, abs_of_pos hA]
    refine (mul_le_mul_of_nonneg_right s2 hA.le).trans ?_
    linarith
  have := abs_sub_le (avg (fun x => p x * boussinesq 1 ψ (gridPoint (sx / nx) (sy / ny) x.1 x.2)) * A) (avg (onGrid nx ny sx sy g) * A) (∫ y, g y)
  linarith

/-! ## States on fine grids -/

/-- A nonperiodic topography with the heights of a surface. -/
noncomputable def freeSampled (sx sy : ℝ) (H : ℝ × ℝ → ℝ) (n : ℕ) : Topo :=
  ⟨⟨[n, n], fun x => match x with | [i, j] => H (gridPoint (sx / n) (sy / n) i j) | _ => 0⟩, [sx, sy], false, 0⟩

/-- On every fine grid there is a state that solves the contact problem of the heights of a surface. -/
lemma exists_free_state (hsx : 0 < sx) (hsy : 0 < sy) (H : ℝ × ℝ → ℝ) (d : ℝ) {h : ℝ} (hh : 0 < h) :
    ∃ (n : ℕ) (p u : Fin n × Fin n → ℝ), ValidTopo (freeSampled sx sy H n) n n sx sy ∧ HeightsOf H (freeSampled sx sy H n) n n sx sy ∧ sx / n < h ∧ sy / n < h ∧
      ∀ τ, 0 ≤ τ → NearContact (freeSampled sx sy H n) none n n sx sy d τ p u := by
  obtain ⟨N, hN⟩ := exists_nat_gt (max (sx / h) (sy / h))
  have n1 : sx / h < N := (le_max_left _ _).trans_lt hN
  have n2 : sy / h < N := (le_max_right _ _).trans_lt hN
  have hT : ValidTopo (freeSampled sx sy H (N + 2)) (N + 2) (N + 2) sx sy := ⟨rfl, rfl, by omega, by omega, hsx, hsy⟩
  obtain ⟨sub, hm⟩ : ∃ sub, makeSubstrate (freeSampled sx sy H (N + 2)) none = .ok sub := by
    have hn : substrateName (freeSampled sx sy H (N + 2)) none = "nonperiodic" := rfl
    rcases make_cases hT none with ⟨h0, -⟩ | ⟨h0, -⟩ | ⟨-, s, -, hs⟩ | ⟨-, h0, -⟩
    · rw [hn] at h0; exact absurd h0 (by decide)
    · rw [hn] at h0; exact absurd h0 (by decide)
    · exact ⟨_, hs⟩
    · exact absurd hn h0
  obtain ⟨p, hp⟩ := C156_solvable_at_offset hT hm d
  refine ⟨N + 2, p, _, hT, fun i j _ _ => rfl, ?_, ?_, fun τ hτ => near_of_exact hτ ⟨sub, hm, rfl, hp⟩⟩
  · rw [div_lt_iff₀ hh] at n1
    rw [div_lt_iff₀ (by positivity)]
    push_cast
    nlinarith
  · rw [div_lt_iff₀ hh] at n2
    rw [div_lt_iff₀ (by positivity)]
    push_cast
    nlinarith

/-! ## The hypotheses can be met -/

/-- A sphere pressed into the middle of a square meets the conditions of the theorems of this file: it solves the continuous problem inside the square under a positive load, and on every grid, however
fine, there is a state as required. -/
example : Continuum (sphere (1 / 2, 1 / 2) 1) (1 / 25) (ellipse (1 / 2, 1 / 2) 1 (1 / 25)) ∧ tsupport (ellipse (1 / 2, 1 / 2) 1 (1 / 25)) ⊆ inside 1 1 ∧
    0 < ∫ y, ellipse (1 / 2, 1 / 2) 1 (1 / 25) y ∧ ∀ h > 0, ∃ n p u, ValidTopo (freeSampled 1 1 (sphere (1 / 2, 1 / 2) 1) n) n n 1 1 ∧ HeightsOf (sphere (1 / 2, 1 / 2) 1) (freeSampled 1 1 (sphere (1 / 2, 1 / 2) 1) n) n n 1 1 ∧
      (1 : ℝ) / n < h ∧ NearContact (freeSampled 1 1 (sphere (1 / 2, 1 / 2) 1) n) none n n 1 1 (1 / 25) h p u := by
  refine ⟨hertz_continuum _ one_pos (by norm_num), (ellipse_tsupport one_pos (by norm_num)).trans fun y hy => ?_, ?_, fun h hh => ?_⟩
  · rw [Set.mem_ofPred_eq, show (1 : ℝ) * (1 / 25) = (1 / 5) ^ 2 by norm_num, sqrt_sq (by norm_num)] at hy
    obtain ⟨h1, h2⟩ := away_coord (1 / 2, 1 / 2) y
    have b1 := abs_le.1 (h1.trans hy)
    have b2 := abs_le.1 (h2.trans hy)
    simp only at b1 b2
    exact ⟨⟨by linarith, by linarith⟩, by linarith, by linarith⟩
  · rw [ellipse_load _ one_pos (by norm_num)]
    unfold Hertz.normalLoad
    positivity
  · obtain ⟨n, p, u, a, b, c, -, e⟩ := exists_free_state one_pos one_pos (sphere (1 / 2, 1 / 2) 1) (1 / 25) hh
    exact ⟨n, p, u, a, b, c, e h hh.le⟩

end CM.Disc
