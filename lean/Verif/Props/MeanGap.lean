import Verif.Props.Pipeline3
/-!
# C220: the mean gap of the table and the gap fields of the callback
-/
namespace CM.Pipe
open Finset CM.HS CM.FFT CM.System CM.Spec

variable {nx ny : ℕ} {sx sy : ℝ} {T : Topo}

lemma mean_congr {f g : NdArray ℝ} (h : ∀ i < nx, ∀ j < ny, f.get [i, j] = g.get [i, j]) :
    mean nx ny f = mean nx ny g := by
  unfold mean
  congr 1
  exact Finset.sum_congr rfl fun i hi => Finset.sum_congr rfl fun j hj =>
    h i (by simpa using hi) j (by simpa using hj)

lemma mean_mono {f g : NdArray ℝ} (h : ∀ i < nx, ∀ j < ny, f.get [i, j] ≤ g.get [i, j]) :
    mean nx ny f ≤ mean nx ny g := by
  unfold mean
  refine div_le_div_of_nonneg_right ?_ (by positivity)
  exact Finset.sum_le_sum fun i hi => Finset.sum_le_sum fun j hj =>
    h i (by simpa using hi) j (by simpa using hj)

/-- The mean of `x - h - o` point by point. -/
lemma mean_sub_sub (hx : 0 < nx) (hy : 0 < ny) (x h : NdArray ℝ) (o : ℝ) (s : List ℕ) :
    mean nx ny ⟨s, fun p => x.get p - h.get p - o⟩ = mean nx ny x - mean nx ny h - o := by
  have h1 : (0 : ℝ) < nx := by exact_mod_cast hx
  have h2 : (0 : ℝ) < ny := by exact_mod_cast hy
  simp only [mean, Finset.sum_sub_distrib, Finset.sum_const, Finset.card_range, nsmul_eq_mul]
  field_simp

/-- The rows and callbacks of a calculation that returned, in any mode. -/
lemma steps_of (hT : ValidTopo T nx ny sx sy) (solver : Solver) (hfit : ∀ c r, solver c = .ok r → Fits nx ny r) (A : PipeArgs)
    (hcb : A.callback = true) {R : Result} {reps : List Report} (h : contactMechanics T solver A = (.ok R, reps)) :
    ∃ (D : List StepData) (fresh : Bool) (ask : ℕ → List Record → Option ℝ → Option ℝ → Prop),
      (A.nsteps.isSome = true → fresh = true) ∧ IsRun T nx ny sx sy A solver fresh ask D ∧
      R = columns (D.map (StepData.record nx ny sx sy)) ∧ reps = D.map StepData.report := by
  have hA : ExactlyOne A := by
    by_contra hc
    rw [C59_argument_validation T solver A hc] at h; cases h
  rcases hA with ⟨h1, -, -⟩ | ⟨h0, h1, -⟩ | ⟨h0, -, h1⟩
  · obtain ⟨n, hn⟩ := Option.isSome_iff_exists.1 h1
    obtain ⟨D, -, hr, h3, h4⟩ := C62_automatic_offsets hT solver hfit A n hn h
    exact ⟨D, _, _, fun _ => rfl, hr, h3, by rw [h4, if_pos hcb]⟩
  · obtain ⟨n, hn⟩ := Option.isSome_iff_exists.1 h1
    obtain ⟨D, -, hr, h3, h4⟩ := C60_offsets hT solver hfit A n hn h
    exact ⟨D, _, _, by simp [h0], hr, h3, by rw [h4, if_pos hcb]⟩
  · obtain ⟨n, hn⟩ := Option.isSome_iff_exists.1 h1
    obtain ⟨D, -, hr, h3, h4⟩ := C60_pressures hT solver hfit A n hn h
    exact ⟨D, _, _, by simp [h0], hr, h3, by rw [h4, if_pos hcb]⟩

/-- Row `k` of the table belongs to callback `k`. -/
lemma step_of {D : List StepData} {R : Result} {reps : List Report} (hR : R = columns (D.map (StepData.record nx ny sx sy)))
    (hreps : reps = D.map StepData.report) {k : ℕ} {rep : Report} {m : ℝ} (hk : reps[k]? = some rep) (hm : R.meanGap[k]? = some m) :
    ∃ d ∈ D, D[k]? = some d ∧ rep = d.report ∧ m = (recordOf nx ny sx sy d.before d.result).gap := by
  subst hR hreps
  simp only [List.getElem?_map, Option.map_eq_some_iff] at hk
  obtain ⟨d, hd, rfl⟩ := hk
  simp only [columns, List.map_map, List.getElem?_map, hd, Option.map_some, Option.some.injEq] at hm
  exact ⟨d, List.mem_of_getElem? hd, hd, rfl, by rw [← hm]; rfl⟩

/-- **C220** In every mode the mean gap of a step of an elastic calculation, and of every step of an automatic one, is the mean
displacement of the callback minus the mean height of the topography handed in minus the offset of the callback; every row has its
callback and every callback its row. -/
theorem C220_table (hT : ValidTopo T nx ny sx sy) (solver : Solver) (hfit : ∀ c r, solver c = .ok r → Fits nx ny r) (A : PipeArgs)
    (hcb : A.callback = true) (hel : effectiveHardness A = none ∨ A.nsteps.isSome = true)
    {R : Result} {reps : List Report} (h : contactMechanics T solver A = (.ok R, reps)) :
    R.meanGap.length = reps.length ∧ ∀ (k : ℕ) (rep : Report) (m : ℝ), reps[k]? = some rep → R.meanGap[k]? = some m →
      m = mean nx ny rep.displacement - mean nx ny T.heights - rep.meanDisplacement := by
  obtain ⟨D, fresh, ask, hf, hr, hR, hreps⟩ := steps_of hT solver hfit A hcb h
  refine ⟨by rw [hR, hreps]; simp [columns], fun k rep m hk hm => ?_⟩
  obtain ⟨d, hd, -, rfl, rfl⟩ := step_of hR hreps hk hm
  have hb : d.before = T.heights := hr.fresh (hel.elim .inr fun h => .inl (hf h)) d hd
  have hrep := hr.report d hd
  rw [recordOf, hrep.meanDisplacement, mean_congr hrep.displacement, hb]

/-- **C220** Elastic calculations, in every mode and whatever the solver returns: the mean of the gap field the callback receives is
at least the mean gap of the table, and exceeds it by no more than the deepest penetration the solver left. -/
theorem C220_elastic (hT : ValidTopo T nx ny sx sy) (solver : Solver) (hfit : ∀ c r, solver c = .ok r → Fits nx ny r) (A : PipeArgs)
    (hcb : A.callback = true) (hel : effectiveHardness A = none)
    {R : Result} {reps : List Report} (h : contactMechanics T solver A = (.ok R, reps)) :
    ∀ (k : ℕ) (rep : Report) (m : ℝ), reps[k]? = some rep → R.meanGap[k]? = some m →
      m ≤ mean nx ny rep.gap ∧
      ∀ ε, 0 ≤ ε → (∀ i < nx, ∀ j < ny, T.heights.get [i, j] + rep.meanDisplacement - rep.displacement.get [i, j] ≤ ε) →
        mean nx ny rep.gap ≤ m + ε := by
  intro k rep m hk hm
  have ht := (C220_table hT solver hfit A hcb (.inl hel) h).2 k rep m hk hm
  obtain ⟨D, fresh, ask, hf, hr, hR, hreps⟩ := steps_of hT solver hfit A hcb h
  obtain ⟨d, hd, -, rfl, -⟩ := step_of hR hreps hk hm
  have hb : d.before = T.heights := hr.fresh (.inr hel) d hd
  have hrep := hr.report d hd
  have hg : ∀ i < nx, ∀ j < ny, d.report.gap.get [i, j] =
      max 0 (d.report.displacement.get [i, j] - T.heights.get [i, j] - d.report.meanDisplacement) := by
    intro i hi j hj
    rw [hrep.gap i hi j hj, hrep.displacement i hi j hj, hrep.meanDisplacement, hel, ← hb]
    simp [heightAfter, sub_sub]
  rw [← mean_sub_sub hT.nx_pos hT.ny_pos _ _ _ [nx, ny]] at ht
  refine ⟨?_, fun ε hε hp => ?_⟩
  · rw [ht]
    refine mean_mono fun i hi j hj => ?_
    rw [hg i hi j hj]
    exact le_max_right _ _
  · have hc : m + ε = mean nx ny ⟨[nx, ny], fun p => d.report.displacement.get p - T.heights.get p - (d.report.meanDisplacement - ε)⟩ := by
      rw [ht, mean_sub_sub hT.nx_pos hT.ny_pos, mean_sub_sub hT.nx_pos hT.ny_pos]; ring
    rw [hc]
    refine mean_mono fun i hi j hj => ?_
    rw [hg i hi j hj]
    have := hp i hi j hj
    exact max_le (by simp only; linarith) (by simp only; linarith)

/-- **C220** A solver that leaves no penetration: table and callback agree exactly. -/
theorem C220_exact (hT : ValidTopo T nx ny sx sy) (solver : Solver) (hfit : ∀ c r, solver c = .ok r → Fits nx ny r) (A : PipeArgs)
    (hcb : A.callback = true) (hel : effectiveHardness A = none)
    (hpen : ∀ c r, solver c = .ok r → ∀ i < nx, ∀ j < ny, c.heights.get [i, j] + r.offset ≤ r.x.get [i, j])
    {R : Result} {reps : List Report} (h : contactMechanics T solver A = (.ok R, reps)) :
    ∀ (k : ℕ) (rep : Report) (m : ℝ), reps[k]? = some rep → R.meanGap[k]? = some m → m = mean nx ny rep.gap := by
  intro k rep m hk hm
  obtain ⟨h1, h2⟩ := C220_elastic hT solver hfit A hcb hel h k rep m hk hm
  obtain ⟨D, fresh, ask, hf, hr, hR, hreps⟩ := steps_of hT solver hfit A hcb h
  obtain ⟨d, hd, hdk, rfl, -⟩ := step_of hR hreps hk hm
  have hrep := hr.report d hd
  have hb : d.before = T.heights := hr.fresh (.inr hel) d hd
  refine le_antisymm h1 ?_
  have := h2 0 le_rfl fun i hi j hj => ?_
  · simpa using this
  · rw [hrep.displacement i hi j hj, hrep.meanDisplacement]
    have h3 := hpen _ _ (hr.solved d hd) i hi j hj
    obtain ⟨o, F, -, hcall⟩ := hr.call k d hdk
    rw [hcall] at h3
    rw [← hb]
    simpa using h3

/-- A solver that presses every point one below the surface it finds and calls all of them plastic. -/
noncomputable def flatteningSolver : Solver := fun c =>
  .ok ⟨true, ⟨[3, 4], fun p => c.heights.get p + c.offset.getD 0 - 1⟩, ⟨[3, 4], fun _ => 1⟩, c.offset.getD 0,
    ⟨[3, 4], fun _ => true⟩, ⟨[3, 4], fun _ => true⟩⟩

/-- **C220** REFUTED for plastic calculations.  There is a calculation at a single offset, with positive hardness, that returns a
table with mean gap `-1` while the gap field of its only callback vanishes everywhere: the table subtracts the surface found *before*
the step, the field the surface left by it, so no bound in terms of the field's penetration relates them. -/
theorem C220_plastic_partial : ∃ (T : Topo) (solver : Solver) (A : PipeArgs) (R : Result) (reps : List Report) (rep : Report),
    ValidTopo T 3 4 1 2 ∧ (∀ c r, solver c = .ok r → Fits 3 4 r) ∧ A.hardness = some 1 ∧ A.offsets = some [0] ∧ A.callback = true ∧
    contactMechanics T solver A = (.ok R, reps) ∧ R.converged = [true] ∧ reps = [rep] ∧
    R.meanGap = [-1] ∧ (∀ i < 3, ∀ j < 4, rep.gap.get [i, j] = 0) ∧ mean 3 4 rep.gap = 0 := by
  have hfit : ∀ c r, flatteningSolver c = .ok r → Fits 3 4 r := by
    intro c r h
    cases h
    exact ⟨rfl, ⟨3, 4, rfl, le_rfl, le_rfl⟩, rfl⟩
  obtain ⟨R, reps, h⟩ := C60_returns demoTopo_valid (by norm_num) (by norm_num) flatteningSolver hfit (fun c => ⟨_, rfl⟩)
    { offsets := some [0], callback := true, hardness := some 1 } (by simp [ExactlyOne]) (.inl rfl) (by simp [nbSteps])
  obtain ⟨D, hl, hr, hR, hreps⟩ := C60_offsets demoTopo_valid flatteningSolver hfit _ [0] rfl h
  rw [if_pos rfl] at hreps
  obtain ⟨d, rfl⟩ := List.length_eq_one_iff.1 (by simpa using hl)
  have hs := hr.solved d (by simp)
  have hrep := hr.report d (by simp)
  have hfirst := hr.first d (by simp)
  obtain ⟨o, F, ⟨ho, -⟩, hcall⟩ := hr.call 0 d (by simp)
  obtain rfl : o = some 0 := by simpa using ho
  have hres : d.result = ⟨true, ⟨[3, 4], fun p => d.before.get p + 0 - 1⟩, ⟨[3, 4], fun _ => 1⟩, 0,
      ⟨[3, 4], fun _ => true⟩, ⟨[3, 4], fun _ => true⟩⟩ := by
    rw [hcall] at hs
    exact (Except.ok.inj hs).symm
  have hH : (effectiveHardness { offsets := some [0], callback := true, hardness := some (1 : ℝ) }).isSome = true := by
    simp [effectiveHardness]
  have hg : ∀ i < 3, ∀ j < 4, d.report.gap.get [i, j] = 0 := by
    intro i hi j hj
    rw [hrep.gap i hi j hj, hH, heightAfter, hres]
    simp
  refine ⟨_, _, _, R, reps, d.report, demoTopo_valid, hfit, rfl, rfl, rfl, h, ?_, by simpa using hreps, ?_, hg, ?_⟩
  · rw [hR]; simp [columns, StepData.record, recordOf, hres]
  · rw [hR]
    simp only [columns, StepData.record, List.map_cons, List.map_nil, recordOf, List.cons.injEq, and_true]
    have := mean_sub_sub (nx := 3) (ny := 4) (by norm_num) (by norm_num) d.result.x d.before d.result.offset [3, 4]
    rw [← this, hres]
    simp [mean]
  · unfold mean
    rw [Finset.sum_eq_zero fun i hi => Finset.sum_eq_zero fun j hj => hg i (by simpa using hi) j (by simpa using hj)]
    simp

/-- Hypotheses of C220_elastic and C220_exact: a solver that never penetrates, two offsets. -/
example : ∃ (solver : Solver) (R : Result) (reps : List Report), (∀ c r, solver c = .ok r → Fits 3 4 r) ∧
    (∀ c r, solver c = .ok r → ∀ i < 3, ∀ j < 4, c.heights.get [i, j] + r.offset ≤ r.x.get [i, j]) ∧
    contactMechanics demoTopo solver { offsets := some [1, -2], callback := true } = (.ok R, reps) ∧ reps.length = 2 ∧
    effectiveHardness { offsets := some [1, -2], callback := true } = none := by
  let solver : Solver := fun c =>
    .ok ⟨true, ⟨[3, 4], fun p => c.heights.get p + c.offset.getD 0 + p.length⟩, ⟨[3, 4], fun _ => 1⟩, c.offset.getD 0,
      ⟨[3, 4], fun _ => true⟩, ⟨[3, 4], fun _ => true⟩⟩
  have hfit : ∀ c r, solver c = .ok r → Fits 3 4 r := by
    intro c r h
    cases h
    exact ⟨rfl, ⟨3, 4, rfl, le_rfl, le_rfl⟩, rfl⟩
  obtain ⟨R, reps, h⟩ := C60_returns demoTopo_valid (by norm_num) (by norm_num) solver hfit (fun c => ⟨_, rfl⟩)
    { offsets := some [1, -2], callback := true } (by simp [ExactlyOne]) (.inl rfl) (by simp [nbSteps])
  obtain ⟨D, hl, -, -, hreps⟩ := C60_offsets demoTopo_valid solver hfit _ [1, -2] rfl h
  refine ⟨solver, R, reps, hfit, ?_, h, by rw [hreps]; simp [hl], by simp [effectiveHardness]⟩
  intro c r h i _ j _
  cases h
  simp

end CM.Pipe
