import Verif.Props.HardWall2
import Verif.Props.LoveWork
import Verif.Props.EndToEnd2
/-!
# C156-C158: the contact problem behind `contact_mechanics`
-/
namespace CM.Pipe
open Finset CM.HS CM.FFT CM.System CM.Spec CM.Fourier

variable {nx ny : ℕ} {sx sy : ℝ} {T : Topo}

/-- Every substrate is linear, reciprocal and positive definite. -/
lemma answer_posDef (hT : ValidTopo T nx ny sx sy) {k : Option String} {sub : Substrate} (hm : makeSubstrate T k = .ok sub) :
    Reciprocal (answer sub (sx * sy / (nx * ny)) nx ny) ∧ PosDef (answer sub (sx * sy / (nx * ny)) nx ny) := by
  rcases make_cases hT k with ⟨-, -, h⟩ | ⟨-, hg, s, hs, h⟩ | ⟨-, s, hs, h⟩ | ⟨-, -, h⟩
  · rw [h] at hm; cases hm
  · rw [h] at hm; cases hm
    have := answer_periodic hg.1 hg.2 hT.sx_pos hT.sy_pos hs
    exact ⟨this.recip, this.pos⟩
  · rw [h] at hm; cases hm
    rw [answer_free hT.nx_pos hT.ny_pos hT.sx_pos hT.sy_pos hs]
    exact ⟨freeSum_reciprocal, freeSum_posDef hT.nx_pos hT.ny_pos hT.sx_pos hT.sy_pos⟩
  · rw [h] at hm; cases hm

/-- Every substrate is linear, reciprocal, and compressive pressures do positive work. -/
lemma answer_any (hT : ValidTopo T nx ny sx sy) {k : Option String} {sub : Substrate} (hm : makeSubstrate T k = .ok sub) :
    Reciprocal (answer sub (sx * sy / (nx * ny)) nx ny) ∧ Copositive (answer sub (sx * sy / (nx * ny)) nx ny) :=
  ⟨(answer_posDef hT hm).1, (answer_posDef hT hm).2.copositive⟩

lemma answer_per (hT : ValidTopo T nx ny sx sy) {k : Option String} {sub : Substrate} (hm : makeSubstrate T k = .ok sub)
    (hp : sub.free = false) : PeriodicAnswer (answer sub (sx * sy / (nx * ny)) nx ny) sx sy := by
  rcases make_cases hT k with ⟨-, -, h⟩ | ⟨-, hg, s, hs, h⟩ | ⟨-, s, hs, h⟩ | ⟨-, -, h⟩
  · rw [h] at hm; cases hm
  · rw [h] at hm; cases hm
    exact answer_periodic hg.1 hg.2 hT.sx_pos hT.sy_pos hs
  · rw [h] at hm; cases hm; cases hp
  · rw [h] at hm; cases hm

lemma periodic_not_free (hT : ValidTopo T nx ny sx sy) {k : Option String} {sub : Substrate}
    (hks : k = some "periodic" ∨ (k = none ∧ T.isPeriodic = true)) (hm : makeSubstrate T k = .ok sub) : sub.free = false := by
  have hn : substrateName T k = "periodic" := by
    unfold substrateName
    rcases hks with rfl | ⟨rfl, h⟩
    · rfl
    · simp [h]
  rcases make_cases hT k with ⟨-, -, h⟩ | ⟨-, hg, s, hs, h⟩ | ⟨h0, s, hs, h⟩ | ⟨-, -, h⟩
  · rw [h] at hm; cases hm
  · rw [h] at hm; cases hm; rfl
  · rw [hn] at h0; exact absurd h0 (by decide)
  · rw [h] at hm; cases hm

lemma card_grid : (Fintype.card (Fin nx × Fin ny) : ℝ) = (nx : ℝ) * ny := by simp [Fintype.card_prod]

/-! ## C156 -/

/-- **C156** The contact problem of every substrate `contact_mechanics` builds is solvable at every offset. -/
theorem C156_solvable_at_offset (hT : ValidTopo T nx ny sx sy) {k : Option String} {sub : Substrate} (hm : makeSubstrate T k = .ok sub) (o : ℝ) :
    ∃ p, HardWall (answer sub (sx * sy / (nx * ny)) nx ny) (wall T nx ny o) p :=
  hardWall_exists (answer_any hT hm).1 (answer_any hT hm).2 _

/-- **C156** ... and under every positive mean pressure: there is an offset and pressures with that mean. -/
theorem C156_solvable_under_load (hT : ValidTopo T nx ny sx sy) {k : Option String} {sub : Substrate} (hm : makeSubstrate T k = .ok sub)
    {m : ℝ} (hpos : 0 < m) :
    ∃ o p, HardWall (answer sub (sx * sy / (nx * ny)) nx ny) (wall T nx ny o) p ∧ avg p = m := by
  have hx := hT.nx_pos
  have hy := hT.ny_pos
  have : Nonempty (Fin nx × Fin ny) := ⟨(⟨0, hx⟩, ⟨0, hy⟩)⟩
  have h3 : (0 : ℝ) < nx := by exact_mod_cast hx
  have h4 : (0 : ℝ) < ny := by exact_mod_cast hy
  obtain ⟨o, p, h, hs⟩ := hardWall_load_exists (answer_any hT hm).1 (fun x : Fin nx × Fin ny => T.heights.get [x.1, x.2])
    (F := m * (nx * ny)) (by positivity)
  refine ⟨o, p, h, ?_⟩
  unfold avg
  rw [hs, card_grid]
  field_simp

/-- **C156** The solution is unique, at every offset and under every load; the load determines the offset. -/
theorem C156_unique (hT : ValidTopo T nx ny sx sy) {k : Option String} {sub : Substrate} (hm : makeSubstrate T k = .ok sub)
    {o o' : ℝ} {p p' : Fin nx × Fin ny → ℝ}
    (h : HardWall (answer sub (sx * sy / (nx * ny)) nx ny) (wall T nx ny o) p)
    (h' : HardWall (answer sub (sx * sy / (nx * ny)) nx ny) (wall T nx ny o') p') :
    (o = o' → p = p') ∧ (avg p = avg p' → 0 < avg p → p = p' ∧ o = o') := by
  obtain ⟨R, P⟩ := answer_posDef hT hm
  constructor
  · rintro rfl; exact hardWall_unique R P h h'
  · intro ha hpos
    have h3 : (0 : ℝ) < nx := by exact_mod_cast hT.nx_pos
    have h4 : (0 : ℝ) < ny := by exact_mod_cast hT.ny_pos
    have hc : (0 : ℝ) < Fintype.card (Fin nx × Fin ny) := by rw [card_grid]; positivity
    refine hardWall_load_unique R P h h' ?_ ?_
    · unfold avg at ha
      exact (div_left_inj' hc.ne').1 ha
    · intro h0
      unfold avg at hpos
      rw [h0, zero_div] at hpos
      exact lt_irrefl _ hpos

/-! ## C158 -/

/-- **C158** Pressing the rigid surface deeper never lowers the mean pressure, and raises it as soon as any pressure changes, on every
substrate. -/
theorem C158_monotone (hT : ValidTopo T nx ny sx sy) {k : Option String} {sub : Substrate} (hm : makeSubstrate T k = .ok sub)
    {o o' : ℝ} (hlt : o < o') {p p' : Fin nx × Fin ny → ℝ}
    (h : HardWall (answer sub (sx * sy / (nx * ny)) nx ny) (wall T nx ny o) p)
    (h' : HardWall (answer sub (sx * sy / (nx * ny)) nx ny) (wall T nx ny o') p') :
    avg p ≤ avg p' ∧ (p ≠ p' → avg p < avg p') := by
  obtain ⟨R, P⟩ := answer_posDef hT hm
  have h3 : (0 : ℝ) < nx := by exact_mod_cast hT.nx_pos
  have h4 : (0 : ℝ) < ny := by exact_mod_cast hT.ny_pos
  have hc : (0 : ℝ) < Fintype.card (Fin nx × Fin ny) := by rw [card_grid]; positivity
  have hstrict : p ≠ p' → avg p < avg p' := by
    intro hne
    have hw := two_solutions h h'
    rw [U_sub R] at hw
    have hx : ∃ i, p i - p' i ≠ 0 := by
      by_contra hall; push Not at hall
      exact hne (funext fun i => sub_eq_zero.1 (hall i))
    have hpos := (P _ hx).trans_le hw
    have hs : ∑ i, p i - ∑ i, p' i < 0 := by
      by_contra hcon; push Not at hcon
      have := mul_nonneg (sub_nonneg.2 hlt.le) hcon
      linarith
    unfold avg
    exact div_lt_div_of_pos_right (by linarith) hc
  refine ⟨?_, hstrict⟩
  by_cases hne : p = p'
  · rw [hne]
  · exact (hstrict hne).le

/-- **C158** The load-displacement curve of a periodic surface: pressing the rigid surface deeper never lowers the mean pressure, and
raises it at most as fast as in full contact (where it is the displacement times the stiffness `π (1/sx + 1/sy) / 2`). -/
theorem C158_load_curve (hT : ValidTopo T nx ny sx sy) {k : Option String} {sub : Substrate} (hm : makeSubstrate T k = .ok sub)
    (hp : sub.free = false) {o o' : ℝ} (hle : o ≤ o') {p p' : Fin nx × Fin ny → ℝ}
    (h : HardWall (answer sub (sx * sy / (nx * ny)) nx ny) (wall T nx ny o) p)
    (h' : HardWall (answer sub (sx * sy / (nx * ny)) nx ny) (wall T nx ny o') p') :
    avg p ≤ avg p' ∧ avg p' - avg p ≤ (o' - o) * (Real.pi * (1 / sx + 1 / sy) / 2) := by
  have P := answer_per hT hm hp
  have h1 := hT.sx_pos
  have h2 := hT.sy_pos
  have h3 : (0 : ℝ) < nx := by exact_mod_cast hT.nx_pos
  have h4 : (0 : ℝ) < ny := by exact_mod_cast hT.ny_pos
  have hpi := Real.pi_pos
  have hc : (0 : ℝ) < Fintype.card (Fin nx × Fin ny) := by rw [card_grid]; positivity
  have hw := two_solutions h h'
  have hmean := work_mean P.recip (fun f => by
    by_cases hz : ∃ i, f i ≠ 0
    · exact (P.pos f hz).le
    · push Not at hz; simp [dot, hz]) P.uniform (fun i => p i - p' i)
  rw [U_sub P.recip] at hw
  have e1 : avg (fun i => p i - p' i) = avg p - avg p' := by unfold avg; rw [sum_sub_distrib, sub_div]
  have e2 : avg (fun i => (p i - p' i) * answer sub (sx * sy / (nx * ny)) nx ny (fun i => p i - p' i) i) ≤ (o - o') * (avg p - avg p') := by
    show dot _ _ / _ ≤ _
    rw [div_le_iff₀ hc]
    refine hw.trans (le_of_eq ?_)
    unfold avg; field_simp
  rw [e1] at hmean
  have key := hmean.trans e2
  set κ := 2 / (Real.pi * (1 / sx + 1 / sy)) with hκ
  have hκ0 : 0 < κ := by positivity
  have hinv : Real.pi * (1 / sx + 1 / sy) / 2 = 1 / κ := by rw [hκ]; field_simp
  have hmono : avg p ≤ avg p' := by
    by_contra hlt; push Not at hlt
    have a1 : 0 < κ * (avg p - avg p') ^ 2 := mul_pos hκ0 (pow_pos (sub_pos.2 hlt) 2)
    have a2 : (o - o') * (avg p - avg p') ≤ 0 := mul_nonpos_of_nonpos_of_nonneg (sub_nonpos.2 hle) (sub_pos.2 hlt).le
    linarith
  refine ⟨hmono, ?_⟩
  rw [hinv, mul_one_div, le_div_iff₀ hκ0]
  rcases hmono.eq_or_lt with heq | hlt
  · rw [heq]; linarith
  · have h5 : 0 < avg p' - avg p := sub_pos.2 hlt
    have : (avg p' - avg p) * ((avg p' - avg p) * κ) ≤ (avg p' - avg p) * (o' - o) := by nlinarith
    exact le_of_mul_le_mul_left this h5

/-! ## C157 -/

/-- Only the forces at the grid points matter. -/
lemma evaluateDisp_congr (hT : ValidTopo T nx ny sx sy) {k : Option String} {sub : Substrate} (hm : makeSubstrate T k = .ok sub)
    {f g : NdArray ℝ} (hf : f.shape = [nx, ny]) (hg : g.shape = [nx, ny]) (heq : ∀ i < nx, ∀ j < ny, f.get [i, j] = g.get [i, j]) :
    ∃ u v, sub.evaluateDisp f = .ok u ∧ sub.evaluateDisp g = .ok v ∧ ∀ i < nx, ∀ j < ny, u.get [i, j] = v.get [i, j] := by
  rcases make_cases hT k with ⟨-, -, h⟩ | ⟨-, hgr, s, hs, h⟩ | ⟨-, s, hs, h⟩ | ⟨-, -, h⟩
  · rw [h] at hm; cases hm
  · rw [h] at hm; cases hm
    have hv : ValidArgs ⟨[nx, ny], 1, [sx, sy], none, none, 0, none⟩ := by constructor <;> simp [hT.sx_pos, hT.sy_pos]
    obtain ⟨_, _, P⟩ := per_of_construct hv hs rfl
    obtain ⟨u, hu, -, hu'⟩ := P.disp hf
    obtain ⟨v, hv, -, hv'⟩ := P.disp hg
    refine ⟨u, v, hu, hv, fun i hi j hj => ?_⟩
    rw [hu', hv', CM.System.tor_congr (f := fun i j => f.get [i, j]) (g := fun i j => g.get [i, j]) fun i j hi hj => heq i hi j hj]
  · rw [h] at hm; cases hm
    have hv : ValidFree ⟨[nx, ny], 1, [sx, sy], none⟩ := by constructor <;> simp [hT.sx_pos, hT.sy_pos]
    obtain ⟨u, hu, -, hu'⟩ := C19_free_direct_sum hv hs rfl f hf
    obtain ⟨v, hv, -, hv'⟩ := C19_free_direct_sum hv hs rfl g hg
    refine ⟨u, v, hu, hv, fun i hi j hj => ?_⟩
    rw [hu' i j hi hj, hv' i j hi hj]
    unfold directSum
    refine congrArg _ (sum_congr rfl fun a ha => sum_congr rfl fun b hb => ?_)
    rw [heq a (mem_range.1 ha) b (mem_range.1 hb)]
  · rw [h] at hm; cases hm

/-- What a callback of an elastic calculation contains. -/
lemma report_state (hT : ValidTopo T nx ny sx sy) {rms : NdArray ℝ → ℝ} {bisect : Bisect} {A : PipeArgs}
    (hel : ∀ H, A.hardness = some H → H ≤ 0) {out : Except PyErr Result} {reps : List Report}
    (h : contactMechanicsCCG T rms bisect A = (out, reps)) {rep : Report} (hrep : rep ∈ reps)
    {sub : Substrate} (hm : makeSubstrate T A.substrate = .ok sub) :
    field nx ny rep.displacement = answer sub (sx * sy / (nx * ny)) nx ny (field nx ny rep.pressure) ∧
    (∀ x, field nx ny rep.gap x = max 0 (field nx ny rep.displacement x - wall T nx ny rep.meanDisplacement x)) ∧
    rep.meanPressure = avg (field nx ny rep.pressure) := by
  have heff : effectiveHardness A = none := by
    unfold effectiveHardness
    cases hA : A.hardness with
    | none => rfl
    | some H => simp [hel H hA]
  obtain ⟨d, rfl, hs, -, hr, hb⟩ := report_step hT _ (default_fits hT rms bisect A) A h rep hrep
  refine ⟨?_, ?_, ?_⟩
  · obtain ⟨sub', u, hm', hu, -, -, hux⟩ := C147_reported_displacement hT rms bisect A h _ hrep
    rw [hm] at hm'; cases hm'
    funext x
    unfold field answer
    have e : (⟨[nx, ny], fun x => -(d.report.pressure.get x * (sx * sy / (nx * ny)))⟩ : NdArray ℝ).shape = [nx, ny] := rfl
    have hcong := evaluateDisp_congr hT hm (f := ⟨[nx, ny], fun x => -(d.report.pressure.get x * (sx * sy / (nx * ny)))⟩)
      (g := fieldArray nx ny fun y => -(d.report.pressure.get [y.1, y.2] * (sx * sy / (nx * ny)))) rfl rfl
      (fun i hi j hj => by rw [fieldArray_get _ hi hj])
    obtain ⟨u1, u2, k1, k2, k3⟩ := hcong
    rw [hu] at k1; cases k1
    rw [k2]
    show _ = u2.get [x.1, x.2]
    rw [hux _ x.1.isLt _ x.2.isLt, k3 _ x.1.isLt _ x.2.isLt]
  · intro x
    unfold field wall
    rw [hr.gap _ x.1.isLt _ x.2.isLt, hr.displacement _ x.1.isLt _ x.2.isLt, hr.meanDisplacement, heff]
    simp only [heightAfter, Option.isSome_none, Bool.false_and, Bool.false_eq_true, if_false, hb heff]
  · have := (C64_fields hT _ (default_fits hT rms bisect A) A h _ hrep).2.1
    rw [this]
    unfold avg
    rw [card_grid, Fintype.sum_prod_type]
    unfold mean field
    rw [← Fin.sum_univ_eq_sum_range (fun i => ∑ j ∈ range ny, d.report.pressure.get [i, j])]
    congr 1
    refine sum_congr rfl fun i _ => ?_
    rw [← Fin.sum_univ_eq_sum_range (fun j => d.report.pressure.get [i.val, j])]

/-- Work of the difference of two states, on average. -/
lemma avg_two {ι : Type} [Fintype ι] {U : (ι → ℝ) → (ι → ℝ)} {b p q : ι → ℝ} {o₁ o₂ δ₁ δ₂ : ℝ} (hp : ∀ i, 0 ≤ p i) (hq : ∀ i, 0 ≤ q i)
    (h₁ : ∀ i, b i + o₁ - U p i ≤ δ₁) (h₂ : ∀ i, b i + o₂ - U q i ≤ δ₂) :
    avg (fun i => (p i - q i) * (U p i - U q i)) ≤ (o₁ - o₂) * (avg p - avg q) + avg (fun i => p i * max 0 (U p i - (b i + o₁)))
      + avg (fun i => q i * max 0 (U q i - (b i + o₂))) + δ₂ * avg p + δ₁ * avg q := by
  have h := two_states (U := U) hp hq h₁ h₂
  have hc : (0 : ℝ) ≤ Fintype.card ι := by positivity
  have := div_le_div_of_nonneg_right h hc
  refine this.trans (le_of_eq ?_)
  unfold avg
  ring

/-- The work of a difference of pressures bounds its mean and the displacements. -/
lemma avg_bounds {U : (Fin nx × Fin ny → ℝ) → (Fin nx × Fin ny → ℝ)} (P : PeriodicAnswer U sx sy) (p q : Fin nx × Fin ny → ℝ) :
    2 / (Real.pi * (1 / sx + 1 / sy)) * (avg p - avg q) ^ 2 ≤ avg (fun i => (p i - q i) * (U p i - U q i)) ∧
    avg (fun i => (U p i - U q i) ^ 2) ≤ max sx sy / Real.pi * avg (fun i => (p i - q i) * (U p i - U q i)) := by
  have hU := U_sub P.recip p q
  have hpsd : ∀ f, 0 ≤ dot f (U f) := fun f => by
    by_cases hz : ∃ i, f i ≠ 0
    · exact (P.pos f hz).le
    · push Not at hz; simp [dot, hz]
  have e : (fun i => (p i - q i) * (U p i - U q i)) = fun i => (p i - q i) * U (fun i => p i - q i) i := by
    funext i; rw [← hU]
  have e2 : (fun i => (U p i - U q i) ^ 2) = fun i => U (fun i => p i - q i) i * U (fun i => p i - q i) i := by
    funext i; rw [← hU]; ring
  rw [e, e2]
  constructor
  · have h := work_mean P.recip hpsd P.uniform (fun i => p i - q i)
    have e1 : avg (fun i => p i - q i) = avg p - avg q := by unfold avg; rw [sum_sub_distrib, sub_div]
    rwa [e1] at h
  · have h := P.bound (fun i => p i - q i)
    have hc : (0 : ℝ) ≤ Fintype.card (Fin nx × Fin ny) := by positivity
    refine (div_le_div_of_nonneg_right h hc).trans (le_of_eq ?_)
    unfold avg dot
    ring

/-- **C157** How far the fields handed to the callback can be from the exact solution, in terms of the fields themselves: if the
reported pressures are not tensile and the reported displacements penetrate the rigid surface by at most `δ`, then the work of the
errors is at most the reported pressures times the reported gaps, plus `δ` times the exact mean pressure (all on average). The
offset of the exact solution may be any; at the reported offset the first term vanishes. -/
theorem C157_error_bound (hT : ValidTopo T nx ny sx sy) {rms : NdArray ℝ → ℝ} {bisect : Bisect} {A : PipeArgs}
    (hel : ∀ H, A.hardness = some H → H ≤ 0) {out : Except PyErr Result} {reps : List Report}
    (h : contactMechanicsCCG T rms bisect A = (out, reps)) {rep : Report} (hrep : rep ∈ reps)
    (hp : ∀ x, 0 ≤ field nx ny rep.pressure x) {δ : ℝ}
    (hδ : ∀ x, wall T nx ny rep.meanDisplacement x - field nx ny rep.displacement x ≤ δ)
    {o : ℝ} {p u : Fin nx × Fin ny → ℝ} (hex : ExactContact T A.substrate nx ny sx sy o p u) :
    avg (fun x => (field nx ny rep.pressure x - p x) * (field nx ny rep.displacement x - u x)) ≤
      (rep.meanDisplacement - o) * (rep.meanPressure - avg p) + avg (fun x => field nx ny rep.pressure x * field nx ny rep.gap x) + δ * avg p := by
  obtain ⟨sub, hm, rfl, hw⟩ := hex.solves
  obtain ⟨h1, h2, h3⟩ := report_state hT hel h hrep hm
  have key := avg_two (U := answer sub (sx * sy / (nx * ny)) nx ny) (b := fun x : Fin nx × Fin ny => T.heights.get [x.1, x.2]) (δ₁ := δ) (δ₂ := 0)
    (o₁ := rep.meanDisplacement) (o₂ := o) hp hw.noTension (fun i => by rw [← h1]; exact hδ i) (fun i => sub_nonpos.2 (hw.noPenetration i))
  have hz : avg (fun i => p i * max 0 (answer sub (sx * sy / (nx * ny)) nx ny p i - (T.heights.get [i.1, i.2] + o))) = 0 := by
    unfold avg; rw [show (∑ i : Fin nx × Fin ny, p i * max 0 (answer sub (sx * sy / (nx * ny)) nx ny p i - (T.heights.get [i.1, i.2] + o))) = 0 from touching_zero hw, zero_div]
  rw [hz, ← h1] at key
  rw [h3]
  refine key.trans (le_of_eq ?_)
  have e : (fun x => field nx ny rep.pressure x * field nx ny rep.gap x) =
      fun i => field nx ny rep.pressure i * max 0 (field nx ny rep.displacement i - (T.heights.get [i.1, i.2] + rep.meanDisplacement)) := by
    funext x; rw [h2]; rfl
  rw [e]; ring

/-- **C157** On a periodic substrate this bounds the error of the reported mean pressure and the mean square error of the reported
displacements, against the exact solution at the reported offset. -/
theorem C157_periodic_error (hT : ValidTopo T nx ny sx sy) {rms : NdArray ℝ → ℝ} {bisect : Bisect} {A : PipeArgs}
    (hks : A.substrate = some "periodic" ∨ (A.substrate = none ∧ T.isPeriodic = true))
    (hel : ∀ H, A.hardness = some H → H ≤ 0) {out : Except PyErr Result} {reps : List Report}
    (h : contactMechanicsCCG T rms bisect A = (out, reps)) {rep : Report} (hrep : rep ∈ reps)
    (hp : ∀ x, 0 ≤ field nx ny rep.pressure x) {δ : ℝ}
    (hδ : ∀ x, wall T nx ny rep.meanDisplacement x - field nx ny rep.displacement x ≤ δ)
    {p u : Fin nx × Fin ny → ℝ} (hex : ExactContact T A.substrate nx ny sx sy rep.meanDisplacement p u) :
    (rep.meanPressure - avg p) ^ 2 ≤ Real.pi * (1 / sx + 1 / sy) / 2 *
        (avg (fun x => field nx ny rep.pressure x * field nx ny rep.gap x) + δ * avg p) ∧
    avg (fun x => (field nx ny rep.displacement x - u x) ^ 2) ≤ max sx sy / Real.pi *
        (avg (fun x => field nx ny rep.pressure x * field nx ny rep.gap x) + δ * avg p) := by
  have key := C157_error_bound hT hel h hrep hp hδ hex
  rw [sub_self, zero_mul, zero_add] at key
  obtain ⟨sub, hm, rfl, hw⟩ := hex.solves
  obtain ⟨h1, h2, h3⟩ := report_state hT hel h hrep hm
  have P := answer_per hT hm (periodic_not_free hT hks hm)
  obtain ⟨b1, b2⟩ := avg_bounds P (field nx ny rep.pressure) p
  rw [← h1] at b1 b2
  have h4 := hT.sx_pos
  have h5 := hT.sy_pos
  have hpi := Real.pi_pos
  have hm0 : 0 < max sx sy := lt_max_of_lt_left h4
  constructor
  · have b3 := b1.trans key
    rw [← h3, div_mul_eq_mul_div, div_le_iff₀ (by positivity)] at b3
    linarith
  · exact b2.trans (mul_le_mul_of_nonneg_left key (by positivity))

/-- **C157** Two calculations on the same surface: how much their fields can differ. -/
theorem C157_two_calculations (hT : ValidTopo T nx ny sx sy) {rms rms' : NdArray ℝ → ℝ} {bisect bisect' : Bisect} {A A' : PipeArgs}
    (hsub : A.substrate = A'.substrate)
    (hel : ∀ H, A.hardness = some H → H ≤ 0) (hel' : ∀ H, A'.hardness = some H → H ≤ 0) {out out' : Except PyErr Result} {reps reps' : List Report}
    (h : contactMechanicsCCG T rms bisect A = (out, reps)) (h' : contactMechanicsCCG T rms' bisect' A' = (out', reps'))
    {rep rep' : Report} (hrep : rep ∈ reps) (hrep' : rep' ∈ reps')
    (hp : ∀ x, 0 ≤ field nx ny rep.pressure x) (hp' : ∀ x, 0 ≤ field nx ny rep'.pressure x) {δ δ' : ℝ}
    (hδ : ∀ x, wall T nx ny rep.meanDisplacement x - field nx ny rep.displacement x ≤ δ)
    (hδ' : ∀ x, wall T nx ny rep'.meanDisplacement x - field nx ny rep'.displacement x ≤ δ') :
    avg (fun x => (field nx ny rep.pressure x - field nx ny rep'.pressure x) * (field nx ny rep.displacement x - field nx ny rep'.displacement x)) ≤
      (rep.meanDisplacement - rep'.meanDisplacement) * (rep.meanPressure - rep'.meanPressure)
        + avg (fun x => field nx ny rep.pressure x * field nx ny rep.gap x) + avg (fun x => field nx ny rep'.pressure x * field nx ny rep'.gap x)
        + δ' * rep.meanPressure + δ * rep'.meanPressure := by
  obtain ⟨sub, u, hm, -⟩ := C147_reported_displacement hT rms bisect A h _ hrep
  obtain ⟨h1, h2, h3⟩ := report_state hT hel h hrep hm
  obtain ⟨h1', h2', h3'⟩ := report_state hT hel' h' hrep' (hsub ▸ hm)
  have key := avg_two (U := answer sub (sx * sy / (nx * ny)) nx ny) (b := fun x : Fin nx × Fin ny => T.heights.get [x.1, x.2]) (δ₁ := δ) (δ₂ := δ')
    (o₁ := rep.meanDisplacement) (o₂ := rep'.meanDisplacement) hp hp' (fun i => by rw [← h1]; exact hδ i) (fun i => by rw [← h1']; exact hδ' i)
  rw [← h1, ← h1', ← h3, ← h3'] at key
  have e : (fun x => field nx ny rep.pressure x * field nx ny rep.gap x) =
      fun i => field nx ny rep.pressure i * max 0 (field nx ny rep.displacement i - (T.heights.get [i.1, i.2] + rep.meanDisplacement)) := by
    funext x; rw [h2]; rfl
  have e' : (fun x => field nx ny rep'.pressure x * field nx ny rep'.gap x) =
      fun i => field nx ny rep'.pressure i * max 0 (field nx ny rep'.displacement i - (T.heights.get [i.1, i.2] + rep'.meanDisplacement)) := by
    funext x; rw [h2']; rfl
  rw [e, e']; exact key

/-! ## The hypotheses can be met -/

/-- A flat `3 × 4` surface at height `7`. -/
noncomputable def flatTopo7 : Topo := ⟨⟨[3, 4], fun _ => 7⟩, [1, 2], true, 0⟩

lemma flatTopo7_valid : ValidTopo flatTopo7 3 4 1 2 := by constructor <;> first | rfl | norm_num

/-- Pressing the flat surface: the callback sees compressive pressures, some penetration `δ`, and the exact solution at the reported
offset exists, so that `C157_error_bound` and `C157_periodic_error` apply; and so do `C156` and `C158`. -/
example (rms : NdArray ℝ → ℝ) (bisect : Bisect) : ∃ out reps rep δ p u,
    contactMechanicsCCG flatTopo7 rms bisect { pressures := some [1, 5], callback := true } = (out, reps) ∧ rep ∈ reps ∧
      (∀ x, 0 ≤ field 3 4 rep.pressure x) ∧ (∀ x, wall flatTopo7 3 4 rep.meanDisplacement x - field 3 4 rep.displacement x ≤ δ) ∧
      ExactContact flatTopo7 none 3 4 1 2 rep.meanDisplacement p u := by
  obtain ⟨R, reps, h1, -, -, -, h4, h5⟩ := C149_flat_surface flatTopo7_valid (by norm_num) (by norm_num) rms bisect
    { pressures := some [1, 5], callback := true } (by norm_num) (by norm_num) (by simp) (by norm_num) (.inr ⟨rfl, rfl⟩) (by simp [ExactlyOne]) [1, 5] rfl (by simp)
    (by intro p hp; simp at hp; rcases hp with rfl | rfl <;> norm_num) (h0 := 7) (fun _ _ _ _ => rfl)
  have hl : reps.length = 2 := h4 rfl
  have hr : reps[1]? = some (reps[1]'(by omega)) := List.getElem?_eq_getElem (by omega)
  generalize (reps[1]'(by omega)) = rep at hr
  have hmem := List.mem_of_getElem? hr
  obtain ⟨sub, -, hm, -⟩ := C147_reported_displacement flatTopo7_valid rms bisect _ h1 rep hmem
  obtain ⟨p, hp⟩ := C156_solvable_at_offset flatTopo7_valid hm rep.meanDisplacement
  refine ⟨_, reps, rep, 7 + rep.meanDisplacement - 5 * (2 / (Real.pi * (1 / 1 + 1 / 2))), p, _, h1, hmem, fun x => ?_, fun x => ?_, ⟨sub, hm, rfl, hp⟩⟩
  · have := (h5 1 rep 5 hr rfl x.1 x.1.isLt x.2 x.2.isLt).1
    show 0 ≤ rep.pressure.get [x.1, x.2]
    rw [this]; norm_num
  · have := (h5 1 rep 5 hr rfl x.1 x.1.isLt x.2 x.2.isLt).2.1
    show (7 : ℝ) + rep.meanDisplacement - rep.displacement.get [x.1, x.2] ≤ _
    rw [this]

end CM.Pipe
