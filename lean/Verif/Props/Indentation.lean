import Verif.Props.Continuum
/-!
# Indentation of a sphere (C191)
-/
namespace CM.Disc
open Real MeasureTheory Set Topology CM.Ref CM.Spec CM.HS CM.FFT CM.System CM.Pipe

variable {sx sy : ℝ}

/-- A sphere of radius `R` above the point `c`. -/
noncomputable def sphere (c : ℝ × ℝ) (R : ℝ) (x : ℝ × ℝ) : ℝ := -(away c x ^ 2 / (2 * R))

/-- Hertz' pressure around the point `c`. -/
noncomputable def ellipse (c : ℝ × ℝ) (R d : ℝ) (y : ℝ × ℝ) : ℝ := Hertz.maxPressure d R 1 * √(1 - (axis (y - c) / √(R * d)) ^ 2)

lemma unit_load : ∫ y : ℝ × ℝ, √(1 - axis y ^ 2) = 2 * π / 3 := by
  rw [← integral_comp_polarCoord_symm, polarCoord_target]
  have e : ∀ p ∈ Ioi (0 : ℝ) ×ˢ Ioo (-π) π, p.1 • √(1 - axis (polarCoord.symm p) ^ 2) = (p.1 * √(1 - p.1 ^ 2)) * (fun _ => (1 : ℝ)) p.2 := by
    rintro ⟨r, θ⟩ -
    rw [axis_sq, polarCoord_symm_apply]
    simp only [smul_eq_mul, mul_one]
    congr 3
    nlinarith [sin_sq_add_cos_sq θ]
  rw [setIntegral_congr_fun (measurableSet_Ioi.prod measurableSet_Ioo) e, Measure.volume_eq_prod, setIntegral_prod_mul (fun r : ℝ => r * √(1 - r ^ 2)) (fun _ => (1 : ℝ))]
  have e1 : ∫ r in Ioi (0 : ℝ), r * √(1 - r ^ 2) = 1 / 3 := by
    have h := Hertz.hemisphere_integral le_rfl zero_le_one
    rw [intervalIntegral.integral_of_le zero_le_one] at h
    have h' : ∫ r in Ioc (0 : ℝ) 1, r * √(1 - r ^ 2) = 1 / 3 := h.trans (by norm_num)
    rw [← h']
    refine (setIntegral_eq_of_subset_of_forall_sdiff_eq_zero measurableSet_Ioi Ioc_subset_Ioi_self fun r hr => ?_)
    have hr1 : 1 < r := by
      by_contra hc
      exact hr.2 ⟨hr.1, not_lt.1 hc⟩
    rw [sqrt_eq_zero_of_nonpos (by nlinarith), mul_zero]
  rw [e1]
  simp
  rw [max_eq_left (by have := pi_pos; linarith)]
  ring

lemma ellipse_load (c : ℝ × ℝ) {R d : ℝ} (hR : 0 < R) (hd : 0 < d) : ∫ y, ellipse c R d y = Hertz.normalLoad d R 1 := by
  unfold ellipse
  rw [integral_const_mul, integral_sub_right_eq_self (fun y : ℝ × ℝ => √(1 - (axis y / √(R * d)) ^ 2)) c]
  have ha : 0 < √(R * d) := by positivity
  have e := Measure.integral_comp_inv_smul volume (fun y : ℝ × ℝ => √(1 - axis y ^ 2)) (√(R * d))
  simp only [axis_scale ha] at e
  rw [e, unit_load]
  simp only [Module.finrank_prod, Module.finrank_self, smul_eq_mul]
  rw [abs_of_nonneg (by positivity), show 1 + 1 = 2 from rfl, sq_sqrt (by positivity)]
  unfold Hertz.maxPressure Hertz.normalLoad
  have h : √(d ^ 3 * R) = √(d / R) * (R * d) := by
    rw [show d ^ 3 * R = d / R * (R * d) ^ 2 by field_simp, sqrt_mul (by positivity), sqrt_sq (by positivity)]
  rw [h]
  have := pi_ne_zero
  field_simp
  ring

lemma ellipse_support {c : ℝ × ℝ} {R d : ℝ} (hR : 0 < R) (hd : 0 < d) {y : ℝ × ℝ} (h : ellipse c R d y ≠ 0) : away c y < √(R * d) := by
  by_contra hc
  push Not at hc
  have ha : 0 < √(R * d) := by positivity
  refine h ?_
  unfold ellipse
  rw [axis_sub, sqrt_eq_zero_of_nonpos, mul_zero]
  have : 1 ≤ away c y / √(R * d) := by rw [le_div_iff₀ ha]; linarith
  nlinarith

lemma away_cont (c : ℝ × ℝ) : Continuous (away c) := by unfold away; fun_prop

lemma ellipse_tsupport {c : ℝ × ℝ} {R d : ℝ} (hR : 0 < R) (hd : 0 < d) : tsupport (ellipse c R d) ⊆ {y | away c y ≤ √(R * d)} :=
  closure_minimal (fun _ hy => (ellipse_support hR hd hy).le) (isClosed_le (away_cont c) continuous_const)

/-- Hertz' solution solves the contact problem of the continuous half-space. -/
lemma hertz_continuum (c : ℝ × ℝ) {R d : ℝ} (hR : 0 < R) (hd : 0 < d) : Continuum (sphere c R) d (ellipse c R d) := by
  have ha : 0 < √(R * d) := by positivity
  have hU : ∀ x, boussinesq 1 (ellipse c R d) x - (sphere c R x + d) = Hertz.hertzGap d R 1 (away c x) := by
    intro x
    have e : boussinesq 1 (ellipse c R d) x = boussinesq 1 (fun y => Hertz.maxPressure d R 1 * √(1 - (axis y / √(R * d)) ^ 2)) (x - c) := by
      rw [← boussinesq_shift]
      rfl
    rw [e, C183_exact hd hR one_pos, axis_sub]
    unfold sphere Hertz.hertzGap
    ring
  have hc := Hertz.C129_contact (nu := 0) hd hR one_pos
  refine ⟨?_, ?_, ?_, ?_, ?_⟩
  · unfold ellipse axis
    simp only [Prod.fst_sub, Prod.snd_sub]
    fun_prop
  · refine HasCompactSupport.intro (K := Icc (c.1 - √(R * d)) (c.1 + √(R * d)) ×ˢ Icc (c.2 - √(R * d)) (c.2 + √(R * d))) (isCompact_Icc.prod isCompact_Icc) fun y hy => ?_
    by_contra h
    have h0 := ellipse_support hR hd h
    obtain ⟨h1, h2⟩ := away_coord c y
    have h3 := abs_le.1 (h1.trans h0.le)
    have h4 := abs_le.1 (h2.trans h0.le)
    exact hy ⟨⟨by linarith [h3.2], by linarith [h3.1]⟩, by linarith [h4.2], by linarith [h4.1]⟩
  · intro x
    unfold ellipse Hertz.maxPressure
    positivity
  · intro x
    have h1 := hU x
    have h2 : 0 ≤ Hertz.hertzGap d R 1 (away c x) := by
      rcases le_or_gt (away c x) √(R * d) with h | h
      · exact ((hc _ (away_nonneg c x)).1 h).ge
      · exact ((hc _ (away_nonneg c x)).2.1 h).le
    linarith
  · intro x hx
    have h1 := hU x
    rw [(hc _ (away_nonneg c x)).1 (ellipse_support hR hd hx).le] at h1
    linarith

/-- The contact stays inside the simulated surface for offsets near `o`. -/
lemma hertz_near {c : ℝ × ℝ} {R o : ℝ} (hR : 0 < R) (ho : 0 < o) (h1 : √(R * o) < c.1) (h2 : c.1 + √(R * o) < sx) (h3 : √(R * o) < c.2) (h4 : c.2 + √(R * o) < sy) :
    ∃ ρ > 0, ∀ d, |d - o| < ρ → 0 < d ∧ Continuum (sphere c R) d (ellipse c R d) ∧ tsupport (ellipse c R d) ⊆ inside sx sy := by
  set m := min (min c.1 (sx - c.1)) (min c.2 (sy - c.2)) with hm
  have hm0 : √(R * o) < m := lt_min (lt_min h1 (by linarith)) (lt_min h3 (by linarith))
  have hm1 : m ≤ c.1 := (min_le_left _ _).trans (min_le_left _ _)
  have hm2 : m ≤ sx - c.1 := (min_le_left _ _).trans (min_le_right _ _)
  have hm3 : m ≤ c.2 := (min_le_right _ _).trans (min_le_left _ _)
  have hm4 : m ≤ sy - c.2 := (min_le_right _ _).trans (min_le_right _ _)
  have hpos : 0 < m := (sqrt_nonneg _).trans_lt hm0
  have hlt : R * o < m ^ 2 := (sqrt_lt' hpos).1 hm0
  refine ⟨min o (m ^ 2 / R - o), lt_min ho (by rw [sub_pos, lt_div_iff₀ hR]; linarith), fun d hd => ?_⟩
  have b1 := (abs_lt.1 (hd.trans_le (min_le_left _ _))).1
  have b2 := (abs_lt.1 (hd.trans_le (min_le_right _ _))).2
  have hd0 : 0 < d := by linarith
  have hd1 : √(R * d) < m := by
    rw [sqrt_lt' hpos]
    have : d < m ^ 2 / R := by linarith
    rw [lt_div_iff₀ hR] at this
    linarith
  refine ⟨hd0, hertz_continuum c hR hd0, fun y hy => ?_⟩
  have h0 : away c y < m := lt_of_le_of_lt (ellipse_tsupport hR hd0 hy) hd1
  obtain ⟨g1, g2⟩ := away_coord c y
  have g3 := abs_lt.1 (g1.trans_lt h0)
  have g4 := abs_lt.1 (g2.trans_lt h0)
  exact ⟨⟨by linarith [g3.2], by linarith [g3.1]⟩, by linarith [g4.2], by linarith [g4.1]⟩

/-- **C191** Indentation of a sphere follows Hertz' law.  A sphere of radius `R` is pressed `o` deep into the nonperiodic half-space of `contact_mechanics`, its contact circle inside the simulated surface.
For every bound there is an `h > 0` such that on every grid with pixels smaller than `h`, every state that solves the contact problem of the heights of the sphere at the grid points within the tolerance
`h` carries the load `normal_load` of the reference solution up to the bound, and its displacements are those of `surface_displacements`, up to the bound in the mean square. -/
theorem C191_hertz {c : ℝ × ℝ} {R o : ℝ} (hR : 0 < R) (ho : 0 < o) (h1 : √(R * o) < c.1) (h2 : c.1 + √(R * o) < sx) (h3 : √(R * o) < c.2) (h4 : c.2 + √(R * o) < sy) {η : ℝ} (hη : 0 < η) :
    ∃ h > 0, ∀ (T : Topo) (k : Option String) (nx ny : ℕ) (p u : Fin nx × Fin ny → ℝ), ValidTopo T nx ny sx sy → (k = some "nonperiodic" ∨ (k = none ∧ T.isPeriodic = false)) →
      (∀ i j, i < nx → j < ny → T.heights.get [i, j] = -(away c (gridPoint (sx / nx) (sy / ny) i j) ^ 2 / (2 * R))) → sx / nx < h → sy / ny < h → NearContact T k nx ny sx sy o h p u →
      |avg p * (sx * sy) - Hertz.normalLoad o R 1| ≤ η ∧
      avg (fun x => (u x - -(Hertz.maxPressure o R 1 * √(R * o) * Hertz.surfaceDisp (away c (gridPoint (sx / nx) (sy / ny) x.1 x.2) / √(R * o)))) ^ 2) ≤ η := by
  have hr := sqrt_nonneg (R * o)
  obtain ⟨ρ, hρ, hq⟩ := hertz_near hR ho h1 h2 h3 h4
  have hF : ContinuousAt (fun d => ∫ y, ellipse c R d y) o := by
    have hc : ContinuousAt (fun d => Hertz.normalLoad d R 1) o := by
      unfold Hertz.normalLoad
      fun_prop
    refine hc.congr (Metric.eventually_nhds_iff.2 ⟨ρ, hρ, fun d hd => ?_⟩)
    rw [Real.dist_eq] at hd
    exact (ellipse_load c hR (hq d hd).1).symm
  have hsx : 0 < sx := by linarith
  have hsy : 0 < sy := by linarith
  obtain ⟨a, ha, ga⟩ := C191_load hρ hsx hsy (fun d hd => (hq d hd).2) hF hη
  obtain ⟨b, hb, gb⟩ := C191_displacements hρ hsx hsy (fun d hd => (hq d hd).2) hF hη
  refine ⟨min a b, lt_min ha hb, fun T k nx ny p u hT hk hH hx hy hn => ⟨?_, ?_⟩⟩
  · rw [← ellipse_load c hR ho]
    exact ga T k nx ny p u hT hk hH (hx.trans_le (min_le_left _ _)) (hy.trans_le (min_le_left _ _))
      ⟨hn.response, hn.noTension, fun x => (hn.penetration x).trans (min_le_left _ _), fun x hx => (hn.gap x hx).trans (min_le_left _ _)⟩
  · have := gb T k nx ny p u hT hk hH (hx.trans_le (min_le_right _ _)) (hy.trans_le (min_le_right _ _))
      ⟨hn.response, hn.noTension, fun x => (hn.penetration x).trans (min_le_right _ _), fun x hx => (hn.gap x hx).trans (min_le_right _ _)⟩
    have e : ∀ x : ℝ × ℝ, boussinesq 1 (ellipse c R o) x = -(Hertz.maxPressure o R 1 * √(R * o) * Hertz.surfaceDisp (away c x / √(R * o))) := by
      intro x
      have e : boussinesq 1 (ellipse c R o) x = boussinesq 1 (fun y => Hertz.maxPressure o R 1 * √(1 - (axis y / √(R * o)) ^ 2)) (x - c) := by
        rw [← boussinesq_shift]
        rfl
      rw [e, C183_exact ho hR one_pos, axis_sub, div_one]
    simpa only [e] using this

/-- **C191** Under load: pressed with the load `N`, the sphere sinks in as deep as `penetration` of the reference solution says, in the limit of fine grids. -/
theorem C191_penetration {c : ℝ × ℝ} {R N : ℝ} (hR : 0 < R) (hN : 0 < N) (h1 : √(R * Hertz.penetration N R 1) < c.1) (h2 : c.1 + √(R * Hertz.penetration N R 1) < sx)
    (h3 : √(R * Hertz.penetration N R 1) < c.2) (h4 : c.2 + √(R * Hertz.penetration N R 1) < sy) {η : ℝ} (hη : 0 < η) :
    ∃ h > 0, ∀ (T : Topo) (k : Option String) (nx ny : ℕ) (o : ℝ) (p u : Fin nx × Fin ny → ℝ), ValidTopo T nx ny sx sy → (k = some "nonperiodic" ∨ (k = none ∧ T.isPeriodic = false)) →
      (∀ i j, i < nx → j < ny → T.heights.get [i, j] = -(away c (gridPoint (sx / nx) (sy / ny) i j) ^ 2 / (2 * R))) → sx / nx < h → sy / ny < h → NearContact T k nx ny sx sy o h p u →
      |avg p * (sx * sy) - N| ≤ h → |o - Hertz.penetration N R 1| ≤ η := by
  set d := Hertz.penetration N R 1 with hd
  have hr := sqrt_nonneg (R * d)
  have hinv := Hertz.C86_inverse hR (one_pos (α := ℝ))
  have hload : Hertz.normalLoad d R 1 = N := hinv.1 N hN.le
  have hd0 : 0 < d := by
    rcases (Hertz.penetration_nonneg (N := N) (Es := 1) hR).eq_or_lt with h | h
    · rw [← hd] at h
      rw [← h] at hload
      norm_num [Hertz.normalLoad] at hload
      linarith
    · exact h
  obtain ⟨ρ, hρ, hq⟩ := hertz_near hR hd0 h1 h2 h3 h4
  have hmono : ∀ a b, 0 < a → a < b → Hertz.normalLoad a R 1 < Hertz.normalLoad b R 1 := by
    intro a b ha hab
    unfold Hertz.normalLoad
    have hb := ha.trans hab
    have : √(a ^ 3 * R) < √(b ^ 3 * R) := sqrt_lt_sqrt (by positivity) (mul_lt_mul_of_pos_right (by gcongr) hR)
    linarith
  have hpos : ∀ x, |x - d| < ρ → ∫ y, ellipse c R x y = Hertz.normalLoad x R 1 := fun x hx => ellipse_load c hR (hq x hx).1
  have e0 := hpos d (by simpa using hρ)
  obtain ⟨h, hh, g⟩ := C191_offset hρ (by linarith : 0 < sx) (by linarith : 0 < sy) (fun x hx => (hq x hx).2)
    (fun x hx hx' => by
      rw [e0, hpos x (by rw [abs_lt]; constructor <;> linarith)]
      exact hmono _ _ hd0 hx)
    (fun x hx hx' => by
      have hxd : |x - d| < ρ := by rw [abs_lt]; constructor <;> linarith
      rw [e0, hpos x hxd]
      exact hmono _ _ (hq x hxd).1 hx) hη
  refine ⟨h, hh, fun T k nx ny o p u hT hk hH hx hy hn hl => g T k nx ny o p u hT hk hH hx hy hn ?_⟩
  rw [e0, hload]
  exact hl

/-! ## Exact solutions and calculations -/

section
variable {T : Topo} {nx ny : ℕ}

lemma near_of_exact {k : Option String} {o h : ℝ} (hh : 0 ≤ h) {p u : Fin nx × Fin ny → ℝ} (hex : ExactContact T k nx ny sx sy o p u) : NearContact T k nx ny sx sy o h p u := by
  obtain ⟨sub, hm, rfl, hw⟩ := hex.solves
  refine ⟨⟨sub, hm, rfl⟩, hw.noTension, fun x => ?_, fun x hx => ?_⟩
  · have := hw.noPenetration x
    linarith
  · have := hw.touching x hx
    linarith

lemma near_of_report (hT : ValidTopo T nx ny sx sy) {rms : NdArray ℝ → ℝ} {bisect : Bisect} {A : PipeArgs} (hel : ∀ H, A.hardness = some H → H ≤ 0)
    (hk : A.substrate = some "nonperiodic" ∨ (A.substrate = none ∧ T.isPeriodic = false)) {out : Except PyErr Result} {reps : List Report}
    (h : contactMechanicsCCG T rms bisect A = (out, reps)) {rep : Report} (hrep : rep ∈ reps) {τ : ℝ} (hp : ∀ x, 0 ≤ field nx ny rep.pressure x)
    (hpen : ∀ x, wall T nx ny rep.meanDisplacement x - field nx ny rep.displacement x ≤ τ) (hgap : ∀ x, field nx ny rep.pressure x ≠ 0 → field nx ny rep.gap x ≤ τ) :
    NearContact T A.substrate nx ny sx sy rep.meanDisplacement τ (field nx ny rep.pressure) (field nx ny rep.displacement) ∧ rep.meanPressure = avg (field nx ny rep.pressure) := by
  obtain ⟨sub, hm⟩ : ∃ sub, makeSubstrate T A.substrate = .ok sub := by
    have hn : substrateName T A.substrate = "nonperiodic" := by
      unfold substrateName
      rcases hk with h | ⟨h, h'⟩
      · rw [h]; rfl
      · rw [h]; simp [h']
    rcases make_cases hT A.substrate with ⟨h0, -⟩ | ⟨h0, -⟩ | ⟨-, s, -, hs⟩ | ⟨-, h0, -⟩
    · rw [hn] at h0; exact absurd h0 (by decide)
    · rw [hn] at h0; exact absurd h0 (by decide)
    · exact ⟨_, hs⟩
    · exact absurd hn h0
  obtain ⟨h1, h2, h3⟩ := report_state hT hel h hrep hm
  refine ⟨⟨⟨sub, hm, h1⟩, hp, hpen, fun x hx => ?_⟩, h3⟩
  have := hgap x hx
  rw [h2] at this
  exact (le_max_right _ _).trans this

end

/-- **C191** For the exact solution of the contact problem on the grid (of which there is exactly one, C156). -/
theorem C191_exact {c : ℝ × ℝ} {R o : ℝ} (hR : 0 < R) (ho : 0 < o) (h1 : √(R * o) < c.1) (h2 : c.1 + √(R * o) < sx) (h3 : √(R * o) < c.2) (h4 : c.2 + √(R * o) < sy) {η : ℝ} (hη : 0 < η) :
    ∃ h > 0, ∀ (T : Topo) (k : Option String) (nx ny : ℕ) (p u : Fin nx × Fin ny → ℝ), ValidTopo T nx ny sx sy → (k = some "nonperiodic" ∨ (k = none ∧ T.isPeriodic = false)) →
      (∀ i j, i < nx → j < ny → T.heights.get [i, j] = -(away c (gridPoint (sx / nx) (sy / ny) i j) ^ 2 / (2 * R))) → sx / nx < h → sy / ny < h → ExactContact T k nx ny sx sy o p u →
      |avg p * (sx * sy) - Hertz.normalLoad o R 1| ≤ η := by
  obtain ⟨h, hh, g⟩ := C191_hertz hR ho h1 h2 h3 h4 hη
  exact ⟨h, hh, fun T k nx ny p u hT hk hH hx hy hex => (g T k nx ny p u hT hk hH hx hy (near_of_exact hh.le hex)).1⟩

/-- **C191** For the fields a callback of `contact_mechanics` receives: an elastic step at offset `o` on a fine grid whose reported pressures are not tensile, whose penetration is at most `h` and whose
gap under pressure is at most `h`, reports the mean pressure of Hertz' load. -/
theorem C191_calculation {c : ℝ × ℝ} {R o : ℝ} (hR : 0 < R) (ho : 0 < o) (h1 : √(R * o) < c.1) (h2 : c.1 + √(R * o) < sx) (h3 : √(R * o) < c.2) (h4 : c.2 + √(R * o) < sy) {η : ℝ} (hη : 0 < η) :
    ∃ h > 0, ∀ (T : Topo) (nx ny : ℕ) (rms : NdArray ℝ → ℝ) (bisect : Bisect) (A : PipeArgs) (out : Except PyErr Result) (reps : List Report) (rep : Report), ValidTopo T nx ny sx sy →
      (A.substrate = some "nonperiodic" ∨ (A.substrate = none ∧ T.isPeriodic = false)) → (∀ H, A.hardness = some H → H ≤ 0) →
      (∀ i j, i < nx → j < ny → T.heights.get [i, j] = -(away c (gridPoint (sx / nx) (sy / ny) i j) ^ 2 / (2 * R))) → sx / nx < h → sy / ny < h →
      contactMechanicsCCG T rms bisect A = (out, reps) → rep ∈ reps → rep.meanDisplacement = o → (∀ x, 0 ≤ field nx ny rep.pressure x) →
      (∀ x, wall T nx ny o x - field nx ny rep.displacement x ≤ h) → (∀ x, field nx ny rep.pressure x ≠ 0 → field nx ny rep.gap x ≤ h) →
      |rep.meanPressure * (sx * sy) - Hertz.normalLoad o R 1| ≤ η := by
  obtain ⟨h, hh, g⟩ := C191_hertz hR ho h1 h2 h3 h4 hη
  refine ⟨h, hh, fun T nx ny rms bisect A out reps rep hT hk hel hH hx hy hrun hrep ho' hp hpen hgap => ?_⟩
  subst ho'
  obtain ⟨hn, hmean⟩ := near_of_report hT hel hk hrun hrep hp hpen hgap
  rw [hmean]
  exact (g T A.substrate nx ny _ _ hT hk hH hx hy hn).1

/-! ## The hypotheses can be met -/

/-- A sphere in the middle of a square of `n × n` points. -/
noncomputable def sphereTopo (n : ℕ) : Topo :=
  ⟨⟨[n, n], fun x => match x with | [i, j] => sphere (1 / 2, 1 / 2) 1 (gridPoint (1 / n) (1 / n) i j) | _ => 0⟩, [1, 1], false, 0⟩

/-- The conditions of `C191_hertz` and `C191_exact` are met by a sphere pressed into the middle of a square: on every grid, however fine, there is a state as required. -/
example : (√(1 * (1 / 25)) < (1 / 2 : ℝ) ∧ (1 / 2 : ℝ) + √(1 * (1 / 25)) < 1) ∧ ∀ h > 0, ∃ n p u, ValidTopo (sphereTopo n) n n 1 1 ∧ (sphereTopo n).isPeriodic = false ∧
    (∀ i j, i < n → j < n → (sphereTopo n).heights.get [i, j] = -(away (1 / 2, 1 / 2) (gridPoint (1 / n) (1 / n) i j) ^ 2 / (2 * 1))) ∧ (1 : ℝ) / n < h ∧
    ExactContact (sphereTopo n) none n n 1 1 (1 / 25) p u ∧ NearContact (sphereTopo n) none n n 1 1 (1 / 25) h p u := by
  constructor
  · rw [show (1 : ℝ) * (1 / 25) = (1 / 5) ^ 2 by norm_num, sqrt_sq (by norm_num)]
    norm_num
  · intro h hh
    obtain ⟨n, hn⟩ := exists_nat_one_div_lt hh
    have hT : ValidTopo (sphereTopo (n + 1)) (n + 1) (n + 1) 1 1 := by constructor <;> first | rfl | norm_num
    obtain ⟨sub, hm⟩ : ∃ sub, makeSubstrate (sphereTopo (n + 1)) none = .ok sub := by
      have hn : substrateName (sphereTopo (n + 1)) none = "nonperiodic" := rfl
      rcases make_cases hT none with ⟨h0, -⟩ | ⟨h0, -⟩ | ⟨-, s, -, hs⟩ | ⟨-, h0, -⟩
      · rw [hn] at h0; exact absurd h0 (by decide)
      · rw [hn] at h0; exact absurd h0 (by decide)
      · exact ⟨_, hs⟩
      · exact absurd hn h0
    obtain ⟨p, hp⟩ := C156_solvable_at_offset hT hm (1 / 25)
    have hex : ExactContact (sphereTopo (n + 1)) none (n + 1) (n + 1) 1 1 (1 / 25) p _ := ⟨sub, hm, rfl, hp⟩
    exact ⟨n + 1, p, _, hT, rfl, fun i j _ _ => rfl, by push_cast; exact hn, hex, near_of_exact hh.le hex⟩

end CM.Disc
