import Verif.Props.FreePressures
/-!
# Hertz' law for steps of calculations: displacements, pressures, offset (C191)
-/
namespace CM.Disc
open Real MeasureTheory Set Topology CM.Ref CM.Ref.Westergaard CM.Spec CM.HS CM.FFT CM.System CM.Pipe

variable {nx ny : ℕ} {sx sy : ℝ} {T : Topo}

lemma boussinesq_ellipse (c : ℝ × ℝ) {R o : ℝ} (hR : 0 < R) (ho : 0 < o) (x : ℝ × ℝ) :
    boussinesq 1 (ellipse c R o) x = -(Hertz.maxPressure o R 1 * √(R * o) * Hertz.surfaceDisp (away c x / √(R * o))) := by
  have e : boussinesq 1 (ellipse c R o) x = boussinesq 1 (fun y => Hertz.maxPressure o R 1 * √(1 - (axis y / √(R * o)) ^ 2)) (x - c) := by
    rw [← boussinesq_shift]
    rfl
  rw [e, C183_exact ho hR one_pos, axis_sub, div_one]

/-- **C191** For the fields a callback of `contact_mechanics` receives: an elastic step with a sphere at the offset `o` on a fine grid whose reported pressures are not tensile, whose penetration is at most
`h` and whose gap under pressure is at most `h`, reports the load `normal_load` and, in the mean square, the displacements `surface_displacements`. -/
theorem C191_reported {c : ℝ × ℝ} {R o : ℝ} (hR : 0 < R) (ho : 0 < o) (h1 : √(R * o) < c.1) (h2 : c.1 + √(R * o) < sx) (h3 : √(R * o) < c.2) (h4 : c.2 + √(R * o) < sy) {η : ℝ} (hη : 0 < η) :
    ∃ h > 0, ∀ (T : Topo) (nx ny : ℕ) (rms : NdArray ℝ → ℝ) (bisect : Bisect) (A : PipeArgs) (out : Except PyErr Result) (reps : List Report) (rep : Report), ValidTopo T nx ny sx sy →
      (A.substrate = some "nonperiodic" ∨ (A.substrate = none ∧ T.isPeriodic = false)) → (∀ H, A.hardness = some H → H ≤ 0) →
      (∀ i j, i < nx → j < ny → T.heights.get [i, j] = -(away c (gridPoint (sx / nx) (sy / ny) i j) ^ 2 / (2 * R))) → sx / nx < h → sy / ny < h →
      contactMechanicsCCG T rms bisect A = (out, reps) → rep ∈ reps → rep.meanDisplacement = o → (∀ x, 0 ≤ field nx ny rep.pressure x) →
      (∀ x, wall T nx ny o x - field nx ny rep.displacement x ≤ h) → (∀ x, field nx ny rep.pressure x ≠ 0 → field nx ny rep.gap x ≤ h) →
      |rep.meanPressure * (sx * sy) - Hertz.normalLoad o R 1| ≤ η ∧
      avg (fun x => (field nx ny rep.displacement x - -(Hertz.maxPressure o R 1 * √(R * o) * Hertz.surfaceDisp (away c (gridPoint (sx / nx) (sy / ny) x.1 x.2) / √(R * o)))) ^ 2) ≤ η := by
  have hr := sqrt_nonneg (R * o)
  obtain ⟨ρ, hρ, hq⟩ := hertz_near hR ho h1 h2 h3 h4
  obtain ⟨-, hc, hin⟩ := hq o (by simpa using hρ)
  obtain ⟨h, hh, g⟩ := C200_calculation hc hin continuous_zero (by linarith : 0 < sx) (by linarith : 0 < sy) hη
  refine ⟨h, hh, fun T nx ny rms bisect A out reps rep hT hk hel hH hx hy hrun hrep hoff hp hpen hgap => ?_⟩
  obtain ⟨a1, a2, -⟩ := g T nx ny rms bisect A out reps rep hT hk hel hH hx hy hrun hrep hoff hp hpen hgap
  rw [ellipse_load c hR ho] at a1
  simp only [boussinesq_ellipse c hR ho] at a2
  exact ⟨a1, a2⟩

/-- **C191** Under load: an elastic step with a sphere whose reported load is `N` up to `h` (other conditions as before) reports the offset `penetration` and, in the mean square, the displacements
`surface_displacements` that belong to it. -/
theorem C191_reported_pressed {c : ℝ × ℝ} {R N : ℝ} (hR : 0 < R) (hN : 0 < N) (h1 : √(R * Hertz.penetration N R 1) < c.1) (h2 : c.1 + √(R * Hertz.penetration N R 1) < sx)
    (h3 : √(R * Hertz.penetration N R 1) < c.2) (h4 : c.2 + √(R * Hertz.penetration N R 1) < sy) {η : ℝ} (hη : 0 < η) :
    ∃ h > 0, ∀ (T : Topo) (nx ny : ℕ) (rms : NdArray ℝ → ℝ) (bisect : Bisect) (A : PipeArgs) (out : Except PyErr Result) (reps : List Report) (rep : Report), ValidTopo T nx ny sx sy →
      (A.substrate = some "nonperiodic" ∨ (A.substrate = none ∧ T.isPeriodic = false)) → (∀ H, A.hardness = some H → H ≤ 0) →
      (∀ i j, i < nx → j < ny → T.heights.get [i, j] = -(away c (gridPoint (sx / nx) (sy / ny) i j) ^ 2 / (2 * R))) → sx / nx < h → sy / ny < h →
      contactMechanicsCCG T rms bisect A = (out, reps) → rep ∈ reps → |rep.meanPressure * (sx * sy) - N| ≤ h → (∀ x, 0 ≤ field nx ny rep.pressure x) →
      (∀ x, wall T nx ny rep.meanDisplacement x - field nx ny rep.displacement x ≤ h) → (∀ x, field nx ny rep.pressure x ≠ 0 → field nx ny rep.gap x ≤ h) →
      |rep.meanDisplacement - Hertz.penetration N R 1| ≤ η ∧
      avg (fun x => (field nx ny rep.displacement x - -(Hertz.maxPressure (Hertz.penetration N R 1) R 1 * √(R * Hertz.penetration N R 1) *
        Hertz.surfaceDisp (away c (gridPoint (sx / nx) (sy / ny) x.1 x.2) / √(R * Hertz.penetration N R 1)))) ^ 2) ≤ η := by
  set d := Hertz.penetration N R 1 with hd
  have hr := sqrt_nonneg (R * d)
  have hload : Hertz.normalLoad d R 1 = N := (Hertz.C86_inverse hR (one_pos (α := ℝ))).1 N hN.le
  have hd0 : 0 < d := by
    rcases (Hertz.penetration_nonneg (N := N) (Es := 1) hR).eq_or_lt with h | h
    · rw [← hd] at h
      rw [← h] at hload
      norm_num [Hertz.normalLoad] at hload
      linarith
    · exact h
  obtain ⟨ρ, hρ, hq⟩ := hertz_near hR hd0 h1 h2 h3 h4
  obtain ⟨-, hc, hin⟩ := hq d (by simpa using hρ)
  have hl : ∫ y, ellipse c R d y = N := by rw [ellipse_load c hR hd0, hload]
  obtain ⟨h, hh, g⟩ := C200_pressed hc hin continuous_zero (by rw [hl]; exact hN) (by linarith : 0 < sx) (by linarith : 0 < sy) hη
  refine ⟨h, hh, fun T nx ny rms bisect A out reps rep hT hk hel hH hx hy hrun hrep hoff hp hpen hgap => ?_⟩
  obtain ⟨a1, a2, -⟩ := g T nx ny rms bisect A out reps rep hT hk hel hH hx hy hrun hrep (by rw [hl]; exact hoff) hp hpen hgap
  simp only [boussinesq_ellipse c hR hd0] at a2
  exact ⟨a1, a2⟩

/-! ## Sine waves (C196) -/

/-- **C196** For the fields a callback of `contact_mechanics` receives: an elastic step at the offset that belongs to a contact radius, on a grid that is fine along the wave, whose reported pressures are
not tensile, whose penetration is at most `δ` and whose gap under pressure is at most `δ`, reports the mean pressure and, in the mean square, the displacements of the reference solution. -/
theorem C196_reported {a h : ℝ} (h0 : 0 < a) (h1 : a < 1 / 2) (hh : 0 < h) (hsx : 0 < sx) (hsy : 0 < sy) {m : ℝ} (hm : meanDisplacement a = some m) {o : ℝ}
    (ho : o = π * h / sx * meanPressure a * (2 / (π * (1 / sx + 1 / sy))) - 2 * h * m) {η : ℝ} (hη : 0 < η) :
    ∃ δ > 0, ∀ (T : Topo) (nx ny : ℕ) (rms : NdArray ℝ → ℝ) (bisect : Bisect) (A : PipeArgs) (out : Except PyErr Result) (reps : List Report) (rep : Report), ValidTopo T nx ny sx sy →
      (A.substrate = some "periodic" ∨ (A.substrate = none ∧ T.isPeriodic = true)) → (∀ H, A.hardness = some H → H ≤ 0) →
      (∀ i j, i < nx → j < ny → T.heights.get [i, j] = -(2 * h * sin (π * (i * (sx / nx) / sx)) ^ 2)) → sx / nx < δ →
      contactMechanicsCCG T rms bisect A = (out, reps) → rep ∈ reps → rep.meanDisplacement = o → (∀ x, 0 ≤ field nx ny rep.pressure x) →
      (∀ x, wall T nx ny o x - field nx ny rep.displacement x ≤ δ) → (∀ x, field nx ny rep.pressure x ≠ 0 → field nx ny rep.gap x ≤ δ) →
      |rep.meanPressure - π * h / sx * meanPressure a| ≤ η ∧ avg (fun x => (field nx ny rep.displacement x - (2 * h * displacements (x.1 * (sx / nx) / sx) a + o)) ^ 2) ≤ η := by
  obtain ⟨δ, hδ, g⟩ := C196_westergaard h0 h1 hh hsx hsy hm ho hη
  refine ⟨δ, hδ, fun T nx ny rms bisect A out reps rep hT hk hel hH hx hrun hrep hoff hp hpen hgap => ?_⟩
  rw [← hoff] at hpen
  obtain ⟨n, hmean⟩ := report_near hT hel hrun hrep hp hpen hgap
  rw [hmean]
  exact g T _ nx ny _ _ hT hk hH hx (hoff ▸ n)

/-- **C196** Under a pressure: an elastic step whose reported mean pressure is the given one up to `δ` (other conditions as before) reports the offset that belongs to `contact_radius` of this pressure. -/
theorem C196_reported_pressed {P h : ℝ} (hP0 : 0 < P) (hP1 : P < 1) (hh : 0 < h) (hsx : 0 < sx) (hsy : 0 < sy) {m : ℝ} (hm : meanDisplacement (contactRadius P) = some m) {η : ℝ} (hη : 0 < η) :
    ∃ δ > 0, ∀ (T : Topo) (nx ny : ℕ) (rms : NdArray ℝ → ℝ) (bisect : Bisect) (A : PipeArgs) (out : Except PyErr Result) (reps : List Report) (rep : Report), ValidTopo T nx ny sx sy →
      (A.substrate = some "periodic" ∨ (A.substrate = none ∧ T.isPeriodic = true)) → (∀ H, A.hardness = some H → H ≤ 0) →
      (∀ i j, i < nx → j < ny → T.heights.get [i, j] = -(2 * h * sin (π * (i * (sx / nx) / sx)) ^ 2)) → sx / nx < δ →
      contactMechanicsCCG T rms bisect A = (out, reps) → rep ∈ reps → |rep.meanPressure - π * h / sx * P| ≤ δ → (∀ x, 0 ≤ field nx ny rep.pressure x) →
      (∀ x, wall T nx ny rep.meanDisplacement x - field nx ny rep.displacement x ≤ δ) → (∀ x, field nx ny rep.pressure x ≠ 0 → field nx ny rep.gap x ≤ δ) →
      |rep.meanDisplacement - (π * h / sx * P * (2 / (π * (1 / sx + 1 / sy))) - 2 * h * m)| ≤ η := by
  obtain ⟨δ, hδ, g⟩ := C196_pressed hP0 hP1 hh hsx hsy hm hη
  refine ⟨δ, hδ, fun T nx ny rms bisect A out reps rep hT hk hel hH hx hrun hrep hoff hp hpen hgap => ?_⟩
  obtain ⟨n, hmean⟩ := report_near hT hel hrun hrep hp hpen hgap
  rw [hmean] at hoff
  exact g T _ nx ny _ _ _ hT hk hH hx n hoff

end CM.Disc
