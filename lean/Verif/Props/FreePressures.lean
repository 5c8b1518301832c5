import Verif.Lemmas.Potentials
import Verif.Props.ReportNear
/-!
# Nonperiodic contacts: weak convergence of the pressures, uniqueness of the continuous solution (C200)
-/
namespace CM.Disc
open Real MeasureTheory Set Topology CM.Ref CM.Spec CM.HS CM.FFT CM.System CM.Pipe

variable {nx ny : ℕ} {sx sy : ℝ} {T : Topo}

lemma grid_in_cell (hnx : 0 < nx) (hny : 0 < ny) (hsx : 0 < sx) (hsy : 0 < sy) (x : Fin nx × Fin ny) : gridPoint (sx / nx) (sy / ny) x.1 x.2 ∈ Icc 0 sx ×ˢ Icc 0 sy := by
  have h1 : ((x.1 : ℕ) : ℝ) ≤ nx := by exact_mod_cast x.1.2.le
  have h2 : ((x.2 : ℕ) : ℝ) ≤ ny := by exact_mod_cast x.2.2.le
  have n1 : (0 : ℝ) < nx := by exact_mod_cast hnx
  have n2 : (0 : ℝ) < ny := by exact_mod_cast hny
  unfold gridPoint
  refine ⟨⟨by positivity, ?_⟩, by positivity, ?_⟩
  · dsimp only
    rw [mul_div_assoc', div_le_iff₀ n1, mul_comm sx]
    exact mul_le_mul_of_nonneg_right h1 hsx.le
  · dsimp only
    rw [mul_div_assoc', div_le_iff₀ n2, mul_comm sy]
    exact mul_le_mul_of_nonneg_right h2 hsy.le

/-- **C200** (pressures). Under the same conditions the pressures of the simulated contact converge weakly: their integrals with every continuous function converge to those of the pressure of the
continuous contact. -/
theorem C200_pressures {H : ℝ × ℝ → ℝ} {q φ : ℝ × ℝ → ℝ} {d : ℝ} (hq : Continuum H d q) (hin : tsupport q ⊆ inside sx sy) (hφ : Continuous φ)
    (hsx : 0 < sx) (hsy : 0 < sy) {η : ℝ} (hη : 0 < η) :
    ∃ h > 0, ∀ (T : Topo) (k : Option String) (nx ny : ℕ) (p u : Fin nx × Fin ny → ℝ), ValidTopo T nx ny sx sy → (k = some "nonperiodic" ∨ (k = none ∧ T.isPeriodic = false)) →
      HeightsOf H T nx ny sx sy → sx / nx < h → sy / ny < h → NearContact T k nx ny sx sy d h p u →
      |avg (fun x => p x * φ (gridPoint (sx / nx) (sy / ny) x.1 x.2)) * (sx * sy) - ∫ y, q y * φ y| ≤ η := by
  have hA : 0 < sx * sy := mul_pos hsx hsy
  set L := ∫ y, q y with hL
  have hL0 : 0 ≤ L := integral_nonneg hq.noTension
  set ε := η / (4 * (L + 1)) with hε
  have hε0 : 0 < ε := by positivity
  have hεL : ε * (L + 1) = η / 4 := by rw [hε]; field_simp
  obtain ⟨ψ, hψ, hc, happ⟩ := potentials_dense ((isCompact_Icc (a := (0 : ℝ)) (b := sx)).prod (isCompact_Icc (a := (0 : ℝ)) (b := sy))) hφ hε0
  have hV := boussinesq_continuous hψ hc
  obtain ⟨h1, hh1, g1⟩ := C200_load hq hin hsx hsy one_pos
  obtain ⟨h2, hh2, g2⟩ := free_work hq hin hψ hc hsx hsy (half_pos hη)
  refine ⟨min h1 h2, lt_min hh1 hh2, fun T k nx ny p u hT hk hH hx hy hnear => ?_⟩
  have m1 : min h1 h2 ≤ h1 := min_le_left _ _
  have m2 : min h1 h2 ≤ h2 := min_le_right _ _
  have a1 := g1 T k nx ny p u hT hk hH (hx.trans_le m1) (hy.trans_le m1)
    ⟨hnear.response, hnear.noTension, fun x => (hnear.penetration x).trans m1, fun x hx => (hnear.gap x hx).trans m1⟩
  have a2 := g2 T k nx ny p u hT hk hH (hx.trans_le m2) (hy.trans_le m2)
    ⟨hnear.response, hnear.noTension, fun x => (hnear.penetration x).trans m2, fun x hx => (hnear.gap x hx).trans m2⟩
  -- the error on the grid
  have b1 : |avg (fun x => p x * φ (gridPoint (sx / nx) (sy / ny) x.1 x.2)) - avg (fun x => p x * boussinesq 1 ψ (gridPoint (sx / nx) (sy / ny) x.1 x.2))| ≤ ε * avg p := by
    rw [← avg_minus, ← avg_const_mul]
    refine abs_le.2 ⟨?_, avg_mono fun x => ?_⟩
    · rw [neg_le]
      have : -avg (fun x => p x * φ (gridPoint (sx / nx) (sy / ny) x.1 x.2) - p x * boussinesq 1 ψ (gridPoint (sx / nx) (sy / ny) x.1 x.2)) =
          avg (fun x => p x * boussinesq 1 ψ (gridPoint (sx / nx) (sy / ny) x.1 x.2) - p x * φ (gridPoint (sx / nx) (sy / ny) x.1 x.2)) := by
        rw [avg_minus, avg_minus, neg_sub]
      rw [this]
      refine avg_mono fun x => ?_
      have := (abs_le.1 (happ _ (grid_in_cell hT.nx_pos hT.ny_pos hsx hsy x))).2
      have hp := hnear.noTension x
      rw [← mul_sub, mul_comm ε]
      exact mul_le_mul_of_nonneg_left this hp
    · have := (abs_le.1 (happ _ (grid_in_cell hT.nx_pos hT.ny_pos hsx hsy x))).1
      have hp := hnear.noTension x
      rw [← mul_sub, mul_comm ε]
      exact mul_le_mul_of_nonneg_left (by linarith) hp
  have hP : avg p * (sx * sy) ≤ L + 1 := by have := (abs_le.1 a1).2; linarith
  have b2 : |avg (fun x => p x * φ (gridPoint (sx / nx) (sy / ny) x.1 x.2)) * (sx * sy) - avg (fun x => p x * boussinesq 1 ψ (gridPoint (sx / nx) (sy / ny) x.1 x.2)) * (sx * sy)| ≤ η / 4 := by
    rw [← sub_mul, abs_mul, abs_of_pos hA, ← hεL]
    refine (mul_le_mul_of_nonneg_right b1 hA.le).trans ?_
    rw [mul_assoc]
    exact mul_le_mul_of_nonneg_left hP hε0.le
  -- the error in the continuum
  have i0 : Integrable q := hq.continuous.integrable_of_hasCompactSupport hq.compact
  have i1 : Integrable fun y => q y * φ y := (hq.continuous.mul hφ).integrable_of_hasCompactSupport hq.compact.mul_right
  have i2 : Integrable fun y => q y * boussinesq 1 ψ y := (hq.continuous.mul hV).integrable_of_hasCompactSupport hq.compact.mul_right
  have b3 : |(∫ y, q y * boussinesq 1 ψ y) - ∫ y, q y * φ y| ≤ η / 4 := by
    rw [← integral_sub i2 i1]
    refine (abs_integral_le_integral_abs).trans ?_
    have : ∫ y, |q y * boussinesq 1 ψ y - q y * φ y| ≤ ∫ y, ε * q y := by
      refine integral_mono (i2.sub i1).abs (i0.const_mul ε) fun y => ?_
      beta_reduce
      rw [← mul_sub, abs_mul, abs_of_nonneg (hq.noTension y), mul_comm ε]
      by_cases h : q y = 0
      · rw [h, zero_mul, zero_mul]
      · have hy := hin (subset_tsupport q h)
        exact mul_le_mul_of_nonneg_left (happ y ⟨⟨hy.1.1.le, hy.1.2.le⟩, hy.2.1.le, hy.2.2.le⟩) (hq.noTension y)
    refine this.trans ?_
    rw [integral_const_mul, ← hεL]
    exact mul_le_mul_of_nonneg_left (by linarith) hε0.le
  have t1 := abs_sub_le (avg (fun x => p x * φ (gridPoint (sx / nx) (sy / ny) x.1 x.2)) * (sx * sy)) (avg (fun x => p x * boussinesq 1 ψ (gridPoint (sx / nx) (sy / ny) x.1 x.2)) * (sx * sy)) (∫ y, q y * φ y)
  have t2 := abs_sub_le (avg (fun x => p x * boussinesq 1 ψ (gridPoint (sx / nx) (sy / ny) x.1 x.2)) * (sx * sy)) (∫ y, q y * boussinesq 1 ψ y) (∫ y, q y * φ y)
  linarith

/-! ## Calculations -/

/-- **C200** For the fields a callback of `contact_mechanics` receives: an elastic step at the offset of the continuous contact on a fine grid whose reported pressures are not tensile, whose penetration is
at most `h` and whose gap under pressure is at most `h`, reports the mean pressure of the continuous contact, its displacements in the mean square and its pressures weakly. -/
theorem C200_calculation {H : ℝ × ℝ → ℝ} {q φ : ℝ × ℝ → ℝ} {d : ℝ} (hq : Continuum H d q) (hin : tsupport q ⊆ inside sx sy) (hφ : Continuous φ) (hsx : 0 < sx) (hsy : 0 < sy) {η : ℝ} (hη : 0 < η) :
    ∃ h > 0, ∀ (T : Topo) (nx ny : ℕ) (rms : NdArray ℝ → ℝ) (bisect : Bisect) (A : PipeArgs) (out : Except PyErr Result) (reps : List Report) (rep : Report), ValidTopo T nx ny sx sy →
      (A.substrate = some "nonperiodic" ∨ (A.substrate = none ∧ T.isPeriodic = false)) → (∀ h, A.hardness = some h → h ≤ 0) → HeightsOf H T nx ny sx sy → sx / nx < h → sy / ny < h →
      contactMechanicsCCG T rms bisect A = (out, reps) → rep ∈ reps → rep.meanDisplacement = d → (∀ x, 0 ≤ field nx ny rep.pressure x) →
      (∀ x, wall T nx ny d x - field nx ny rep.displacement x ≤ h) → (∀ x, field nx ny rep.pressure x ≠ 0 → field nx ny rep.gap x ≤ h) →
      |rep.meanPressure * (sx * sy) - ∫ y, q y| ≤ η ∧ avg (fun x => (field nx ny rep.displacement x - boussinesq 1 q (gridPoint (sx / nx) (sy / ny) x.1 x.2)) ^ 2) ≤ η ∧
        |avg (fun x => field nx ny rep.pressure x * φ (gridPoint (sx / nx) (sy / ny) x.1 x.2)) * (sx * sy) - ∫ y, q y * φ y| ≤ η := by
  obtain ⟨h1, hh1, g1⟩ := C200_load hq hin hsx hsy hη
  obtain ⟨h2, hh2, g2⟩ := C200_displacements hq hin hsx hsy hη
  obtain ⟨h3, hh3, g3⟩ := C200_pressures hq hin hφ hsx hsy hη
  refine ⟨min h1 (min h2 h3), lt_min hh1 (lt_min hh2 hh3), fun T nx ny rms bisect A out reps rep hT hk hel hH hx hy hrun hrep ho hp hpen hgap => ?_⟩
  have l1 : min h1 (min h2 h3) ≤ h1 := min_le_left _ _
  have l2 : min h1 (min h2 h3) ≤ h2 := (min_le_right _ _).trans (min_le_left _ _)
  have l3 : min h1 (min h2 h3) ≤ h3 := (min_le_right _ _).trans (min_le_right _ _)
  subst ho
  obtain ⟨n, hmean⟩ := report_near hT hel hrun hrep hp hpen hgap
  rw [hmean]
  exact ⟨g1 T _ nx ny _ _ hT hk hH (hx.trans_le l1) (hy.trans_le l1) (n.weaken l1), g2 T _ nx ny _ _ hT hk hH (hx.trans_le l2) (hy.trans_le l2) (n.weaken l2),
    g3 T _ nx ny _ _ hT hk hH (hx.trans_le l3) (hy.trans_le l3) (n.weaken l3)⟩

/-- **C200** Under a load: an elastic step whose reported mean pressure is that of the continuous contact up to `h` (and is positive), whose reported pressures are not tensile, whose penetration is at
most `h` and whose gap under pressure is at most `h`, reports the offset of the continuous contact, its displacements in the mean square and its pressures weakly. -/
theorem C200_pressed {H : ℝ × ℝ → ℝ} {q φ : ℝ × ℝ → ℝ} {d : ℝ} (hq : Continuum H d q) (hin : tsupport q ⊆ inside sx sy) (hφ : Continuous φ) (hpos : 0 < ∫ y, q y) (hsx : 0 < sx) (hsy : 0 < sy) {η : ℝ} (hη : 0 < η) :
    ∃ h > 0, ∀ (T : Topo) (nx ny : ℕ) (rms : NdArray ℝ → ℝ) (bisect : Bisect) (A : PipeArgs) (out : Except PyErr Result) (reps : List Report) (rep : Report), ValidTopo T nx ny sx sy →
      (A.substrate = some "nonperiodic" ∨ (A.substrate = none ∧ T.isPeriodic = false)) → (∀ h, A.hardness = some h → h ≤ 0) → HeightsOf H T nx ny sx sy → sx / nx < h → sy / ny < h →
      contactMechanicsCCG T rms bisect A = (out, reps) → rep ∈ reps → |rep.meanPressure * (sx * sy) - ∫ y, q y| ≤ h → (∀ x, 0 ≤ field nx ny rep.pressure x) →
      (∀ x, wall T nx ny rep.meanDisplacement x - field nx ny rep.displacement x ≤ h) → (∀ x, field nx ny rep.pressure x ≠ 0 → field nx ny rep.gap x ≤ h) →
      |rep.meanDisplacement - d| ≤ η ∧ avg (fun x => (field nx ny rep.displacement x - boussinesq 1 q (gridPoint (sx / nx) (sy / ny) x.1 x.2)) ^ 2) ≤ η ∧
        |avg (fun x => field nx ny rep.pressure x * φ (gridPoint (sx / nx) (sy / ny) x.1 x.2)) * (sx * sy) - ∫ y, q y * φ y| ≤ η := by
  obtain ⟨h2, hh2, g2⟩ := C200_displacements hq hin hsx hsy hη
  obtain ⟨h3, hh3, g3⟩ := C200_pressures hq hin hφ hsx hsy hη
  have hm : 0 < min h2 h3 := lt_min hh2 hh3
  obtain ⟨h1, hh1, g1⟩ := C200_offset hq hin hpos hsx hsy (lt_min hη (half_pos hm))
  refine ⟨min h1 (min h2 h3 / 2), lt_min hh1 (half_pos hm), fun T nx ny rms bisect A out reps rep hT hk hel hH hx hy hrun hrep ho hp hpen hgap => ?_⟩
  have l1 : min h1 (min h2 h3 / 2) ≤ h1 := min_le_left _ _
  have l0 : min h1 (min h2 h3 / 2) ≤ min h2 h3 / 2 := min_le_right _ _
  have l2 : min h2 h3 ≤ h2 := min_le_left _ _
  have l3 : min h2 h3 ≤ h3 := min_le_right _ _
  obtain ⟨n, hmean⟩ := report_near hT hel hrun hrep hp hpen hgap
  rw [hmean] at ho
  have a1 := g1 T _ nx ny _ _ _ hT hk hH (hx.trans_le l1) (hy.trans_le l1) (n.weaken l1) (ho.trans l1)
  have a2 := (n.at_offset (a1.trans (min_le_right _ _))).weaken (show min h1 (min h2 h3 / 2) + min h2 h3 / 2 ≤ min h2 h3 by linarith)
  have l2' : min h1 (min h2 h3 / 2) ≤ h2 := by linarith
  have l3' : min h1 (min h2 h3 / 2) ≤ h3 := by linarith
  exact ⟨a1.trans (min_le_left _ _), g2 T _ nx ny _ _ hT hk hH (hx.trans_le l2') (hy.trans_le l2') (a2.weaken l2), g3 T _ nx ny _ _ hT hk hH (hx.trans_le l3') (hy.trans_le l3') (a2.weaken l3)⟩

/-! ## Uniqueness -/

/-- **C200** (uniqueness). The contact of a surface and the continuous half-space has at most one continuous solution at an offset; a positive load determines the offset and the pressures. -/
theorem C200_unique {H : ℝ × ℝ → ℝ} {q q' : ℝ × ℝ → ℝ} {d d' : ℝ} (hq : Continuum H d q) (hq' : Continuum H d' q') :
    (d = d' → q = q') ∧ (∫ y, q y = ∫ y, q' y → 0 < ∫ y, q y → d = d' ∧ q = q') := by
  -- a cell that holds both contacts, after a shift
  obtain ⟨r, hr0, hr⟩ := support_radius hq.compact
  obtain ⟨r', hr0', hr'⟩ := support_radius hq'.compact
  set R := r + r' + 1 with hR
  set s : ℝ × ℝ := (R, R) with hs
  have shift : ∀ {q : ℝ × ℝ → ℝ} {d : ℝ} {ρ : ℝ}, Continuum H d q → 0 ≤ ρ → ρ + 1 ≤ R → (∀ y, q y ≠ 0 → |y.1| ≤ ρ ∧ |y.2| ≤ ρ) →
      Continuum (fun y => H (y - s)) d (fun y => q (y - s)) ∧ tsupport (fun y => q (y - s)) ⊆ inside (2 * R) (2 * R) ∧ ∫ y, q (y - s) = ∫ y, q y := by
    intro q d ρ hq hρ hρR hsup
    refine ⟨⟨hq.continuous.comp (continuous_id.sub continuous_const), hq.compact.comp_homeomorph (Homeomorph.subRight s), fun y => hq.noTension _, fun y => ?_, fun y hy => ?_⟩, ?_, ?_⟩
    · rw [boussinesq_shift]; exact hq.noPenetration _
    · rw [boussinesq_shift]; exact hq.touching _ hy
    · have hcl : IsClosed {y : ℝ × ℝ | |(y - s).1| ≤ ρ ∧ |(y - s).2| ≤ ρ} :=
        IsClosed.inter (isClosed_le (f := fun y : ℝ × ℝ => |(y - s).1|) (by fun_prop) continuous_const)
          (isClosed_le (f := fun y : ℝ × ℝ => |(y - s).2|) (by fun_prop) continuous_const)
      refine (closure_minimal (fun y hy => hsup _ hy) hcl).trans fun y hy => ?_
      obtain ⟨h1, h2⟩ := hy
      have b1 := abs_le.1 h1
      have b2 := abs_le.1 h2
      simp only [hs, Prod.fst_sub, Prod.snd_sub] at b1 b2
      exact ⟨⟨by linarith, by linarith⟩, by linarith, by linarith⟩
    · exact integral_sub_right_eq_self q s
  obtain ⟨c1, in1, e1⟩ := shift hq hr0 (by linarith) hr
  obtain ⟨c2, in2, e2⟩ := shift hq' hr0' (by linarith) hr'
  have hRR : 0 < 2 * R := by positivity
  -- equal offsets
  have same : d = d' → q = q' := by
    rintro rfl
    set f : ℝ × ℝ → ℝ := fun y => q (y - s) - q' (y - s) with hf
    have k1 : Continuous fun y => q (y - s) := c1.continuous
    have k2 : Continuous fun y => q' (y - s) := c2.continuous
    have hfc : Continuous f := k1.sub k2
    have heq : ∫ y, q (y - s) * f y = ∫ y, q' (y - s) * f y := by
      refine eq_of_forall_dist_le fun η hη => ?_
      rw [Real.dist_eq]
      obtain ⟨h1, hh1, g1⟩ := C200_pressures c1 in1 hfc hRR hRR (half_pos hη)
      obtain ⟨h2, hh2, g2⟩ := C200_pressures c2 in2 hfc hRR hRR (half_pos hη)
      obtain ⟨n, p, u, hT, hH, l1, l2, hnear⟩ := exists_free_state hRR hRR (fun y => H (y - s)) d (lt_min hh1 hh2)
      have m1 : min h1 h2 ≤ h1 := min_le_left _ _
      have m2 : min h1 h2 ≤ h2 := min_le_right _ _
      have a1 := g1 _ none n n p u hT (Or.inr ⟨rfl, rfl⟩) hH (l1.trans_le m1) (l2.trans_le m1) (hnear h1 hh1.le)
      have a2 := g2 _ none n n p u hT (Or.inr ⟨rfl, rfl⟩) hH (l1.trans_le m2) (l2.trans_le m2) (hnear h2 hh2.le)
      rw [abs_sub_comm] at a1
      have := abs_sub_le (∫ y, q (y - s) * f y) (avg (fun x => p x * f (gridPoint (2 * R / n) (2 * R / n) x.1 x.2)) * (2 * R * (2 * R))) (∫ y, q' (y - s) * f y)
      linarith
    have i1 : Integrable fun y => q (y - s) * f y := (k1.mul hfc).integrable_of_hasCompactSupport c1.compact.mul_right
    have i2 : Integrable fun y => q' (y - s) * f y := (k2.mul hfc).integrable_of_hasCompactSupport c2.compact.mul_right
    have h0 : ∫ y, f y ^ 2 = 0 := by
      rw [← sub_eq_zero, ← integral_sub i1 i2] at heq
      rw [← heq]
      refine integral_congr_ae (Filter.Eventually.of_forall fun y => ?_)
      rw [hf]
      ring
    have i3 : Integrable fun y => f y ^ 2 := by
      refine (i1.sub i2).congr (Filter.Eventually.of_forall fun y => ?_)
      rw [Pi.sub_apply, hf]
      ring
    have hz := (integral_eq_zero_iff_of_nonneg (fun y => sq_nonneg (f y)) i3).1 h0
    have hz' := (Continuous.ae_eq_iff_eq volume (hfc.pow 2) continuous_const).1 hz
    funext y
    have h2 : f (y + s) ^ 2 = 0 := congrFun hz' (y + s)
    have h3 : f (y + s) = 0 := pow_eq_zero_iff two_ne_zero |>.1 h2
    rw [hf] at h3
    beta_reduce at h3
    rw [add_sub_cancel_right] at h3
    exact sub_eq_zero.1 h3
  refine ⟨same, fun hl hpos => ?_⟩
  rw [← e1, ← e2] at hl
  rw [← e1] at hpos
  have hd : d = d' := by
    refine eq_of_forall_dist_le fun η hη => ?_
    rw [Real.dist_eq]
    obtain ⟨h1, hh1, g1⟩ := C200_offset c2 in2 (hl ▸ hpos) hRR hRR hη
    obtain ⟨h2, hh2, g2⟩ := C200_load c1 in1 hRR hRR hh1
    obtain ⟨n, p, u, hT, hH, l1, l2, hnear⟩ := exists_free_state hRR hRR (fun y => H (y - s)) d (lt_min hh1 hh2)
    have m1 : min h1 h2 ≤ h1 := min_le_left _ _
    have m2 : min h1 h2 ≤ h2 := min_le_right _ _
    have a2 := g2 _ none n n p u hT (Or.inr ⟨rfl, rfl⟩) hH (l1.trans_le m2) (l2.trans_le m2) (hnear h2 hh2.le)
    rw [hl] at a2
    exact g1 _ none n n d p u hT (Or.inr ⟨rfl, rfl⟩) hH (l1.trans_le m1) (l2.trans_le m1) (hnear h1 hh1.le) a2
  exact ⟨hd, same hd⟩

end CM.Disc
