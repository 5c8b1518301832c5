import Verif.Props.Plastic2
import Verif.Props.FullContact
/-!
# C180 plastic contacts under load control: whole calculations
-/
namespace CM.Pipe
open Finset CM.HS CM.FFT CM.System CM.Spec
variable {T : Topo} {nx ny : ℕ} {sx sy : ℝ} {kw : OptimizerKwargs}

lemma ccg_error {sub : Substrate} {rms : NdArray ℝ → ℝ} {bisect : Bisect} {c : Call} {e : PyErr} {d0 d1 : ℕ} (g : Grid sub nx ny d0 d1) :
    ccgSolver sub rms bisect kw c = .error e ↔
      CCG.solve (ccgProblem sub rms d0 d1 nx ny c.heights) (ccgOptions bisect kw _ c) = .error e := by
  unfold ccgSolver
  rw [g.dom, g.topo]
  dsimp only
  cases CCG.solve (ccgProblem sub rms d0 d1 nx ny c.heights) (ccgOptions bisect kw _ c) <;> simp

/-- The solver on a surface that does not rise above the undeformed substrate, under load. -/
lemma low_call {sub : Substrate} (rms : NdArray ℝ → ℝ) {d0 d1 : ℕ} (g : Grid sub nx ny d0 d1)
    {h : NdArray ℝ} {H F pt hmin : ℝ} (hH : 0 ≤ H) (hF : 0 < F) {mi : ℤ} (hm : 1 ≤ mi) (hlow : ∀ i < nx, ∀ j < ny, h.get [i, j] ≤ 0)
    (hex : ∃ i < nx, ∃ j < ny, h.get [i, j] = hmin) (hle : ∀ i < nx, ∀ j < ny, hmin ≤ h.get [i, j])
    (hbear : (#{q ∈ range nx ×ˢ range ny | hmin < h.get [q.1, q.2]} : ℝ) * H < F) :
    ccgSolver sub rms CCG.scipyBisect kw ⟨h, some H, none, some F, some pt, mi⟩ = .error .valueError := by
  rw [ccg_error g]
  obtain ⟨i, hi, j, hj, e⟩ := hex
  have hcomp : ∀ p : Fin d0 × Fin d1, (ccgProblem sub rms d0 d1 nx ny h).comp p = true ↔ p.1.val < nx ∧ p.2.val < ny := by
    intro p; simp [ccgProblem]
  refine CCG.C180_low_surface_partial (H := H) (F := F) (pentol := pt) (j := (⟨i, lt_of_lt_of_le hi g.lex⟩, ⟨j, lt_of_lt_of_le hj g.ley⟩))
    rfl rfl rfl hF rfl (by show 1 ≤ mi.toNat; omega) (onGrid_zero g.zeroF) rfl rfl ?_ ((hcomp _).2 ⟨hi, hj⟩) ?_ ?_
  · intro p hp
    show h.get [p.1.val, p.2.val] + 0 ≤ 0
    rw [add_zero]
    exact hlow _ ((hcomp p).1 hp).1 _ ((hcomp p).1 hp).2
  · intro p hp
    show h.get [i, j] ≤ h.get [p.1.val, p.2.val]
    rw [e]
    exact hle _ ((hcomp p).1 hp).1 _ ((hcomp p).1 hp).2
  · refine lt_of_le_of_lt (mul_le_mul_of_nonneg_right ?_ hH) hbear
    have : #{p : Fin d0 × Fin d1 | (ccgProblem sub rms d0 d1 nx ny h).comp p = true ∧ h.get [i, j] < h.get [p.1.val, p.2.val]} ≤
        #{q ∈ range nx ×ˢ range ny | hmin < h.get [q.1, q.2]} := by
      refine card_le_card_of_injOn (fun p => (p.1.val, p.2.val)) ?_ ?_
      · intro p hp
        simp only [coe_filter, Set.mem_ofPred_eq, mem_univ, true_and, hcomp, e] at hp
        simp only [coe_filter, Set.mem_ofPred_eq, mem_product, mem_range]
        exact hp
      · intro p _ q _ hpq
        simp only [Prod.mk.injEq] at hpq
        exact Prod.ext (Fin.ext hpq.1) (Fin.ext hpq.2)
    exact_mod_cast this

/-- **C180** (refuted, whole calculations) A plastic calculation under load control raises `ValueError` in its first step -- nothing is returned or reported -- on every surface that does not
rise above height zero, if the pressure exceeds the hardness times the fraction of the points above the lowest height, e.g. on every flat surface of
height at most zero, at every pressure and hardness. -/
theorem C180_low_topography_partial (hT : ValidTopo T nx ny sx sy) (hx : 1 < nx) (hy : 1 < ny) (rms : NdArray ℝ → ℝ) (A : PipeArgs)
    (hks : KnownSubstrate A) (hA : ExactlyOne A) (hm : 1 ≤ A.maxiter) {H p : ℝ} (hH : A.hardness = some H) (hH0 : 0 < H) {ps : List ℝ}
    (hps : A.pressures = some (p :: ps)) (hp : 0 < p) (hlow : ∀ i < nx, ∀ j < ny, T.heights.get [i, j] ≤ 0) {hmin : ℝ}
    (hex : ∃ i < nx, ∃ j < ny, T.heights.get [i, j] = hmin) (hle : ∀ i < nx, ∀ j < ny, hmin ≤ T.heights.get [i, j])
    (hbear : H * (#{q ∈ range nx ×ˢ range ny | hmin < T.heights.get [q.1, q.2]} / (nx * ny)) < p) :
    contactMechanicsCCG T rms CCG.scipyBisect A = (.error .valueError, []) := by
  obtain ⟨Y, hY⟩ := system_ok hT hx hy A hks
  have hu : usedHardness A = some H := by unfold usedHardness; rw [hH]; simp [hH0]
  have hY' := hY
  unfold makePipeSystem at hY
  cases hmk : makeSubstrate T A.substrate with
  | error e => rw [hmk] at hY; cases hY
  | ok sub =>
    rw [hmk, hu] at hY
    cases hS : mkSystem sub T.heights with
    | error e => simp only [bind, Except.bind, hS] at hY; cases hY
    | ok S =>
      simp only [bind, Except.bind, hS, pure, Except.pure, Except.ok.injEq] at hY
      have hSh : S.heights = T.heights := by
        unfold mkSystem at hS
        simp only [bind, Except.bind] at hS
        split at hS
        · cases hS
        · split_ifs at hS
          · cases hS; rfl
      obtain ⟨d0, d1, g⟩ := grid_of_make hT hmk
      have hnx : (0 : ℝ) < nx := by exact_mod_cast hT.nx_pos
      have hny : (0 : ℝ) < ny := by exact_mod_cast hT.ny_pos
      have ha : T.areaPerPt = sx * sy / (nx * ny) := by
        unfold Topo.areaPerPt; rw [hT.sizes, hT.heights]; simp
      have hsz : T.physicalSizes.prod = sx * sy := by rw [hT.sizes]; simp
      have hss : 0 < sx * sy := mul_pos hT.sx_pos hT.sy_pos
      have hcall := low_call (kw := A.optimizerKwargs) rms g (h := T.heights) (H := H * T.areaPerPt) (F := p * T.physicalSizes.prod) (pt := pipePentol T)
        (mi := A.maxiter) (by rw [ha]; positivity) (by rw [hsz]; positivity) hm hlow hex hle (by
          rw [ha, hsz]
          have := mul_lt_mul_of_pos_right hbear hss
          calc _ = _ := by ring
            _ < _ := this)
      have hreq : requests T A = .force (p * T.physicalSizes.prod) :: ps.map fun p => .force (p * T.physicalSizes.prod) := by
        have ho : A.offsets = none := by
          rcases hA with h | h | h
          · exact h.2.1
          · rw [hps] at h; simp at h
          · exact h.2.1
        unfold requests; rw [ho, hps]; rfl
      unfold contactMechanicsCCG contactMechanics
      rw [(validate_iff A).2 hA]
      simp only [bind, Except.bind, hY', hreq, ← hY]
      simp only [runSteps, runStep, contactCalculation, AnySys.minimize, plasticMinimizeProxy, minimizeProxy, defaultSolver, hmk, hSh, hcall]

/-- **C180** (whole calculations) A plastic calculation with at least one positive pressure, at least one iteration and a known substrate returns, or raises `ValueError` or `RuntimeError`
(`C180_raises` says when). -/
theorem C180_pressures_return (hT : ValidTopo T nx ny sx sy) (hx : 1 < nx) (hy : 1 < ny) (rms : NdArray ℝ → ℝ) (A : PipeArgs)
    (hks : KnownSubstrate A) (hA : ExactlyOne A) (hm : 1 ≤ A.maxiter) {ps : List ℝ} (hps : A.pressures = some ps) (hne : ps ≠ []) (hp : ∀ p ∈ ps, 0 < p) :
    (∃ R reps, contactMechanicsCCG T rms CCG.scipyBisect A = (.ok R, reps)) ∨
    ∃ reps, contactMechanicsCCG T rms CCG.scipyBisect A = (.error .valueError, reps) ∨
      contactMechanicsCCG T rms CCG.scipyBisect A = (.error .runtimeError, reps) := by
  by_cases hel : ∀ H, A.hardness = some H → H ≤ 0
  · left
    refine C161_returns hT hx hy rms _ A (.inl hel) hm hks hA ?_
    have : A.offsets = none ∧ A.nsteps = none := by
      rcases hA with h | h | h
      · rw [hps] at h; simp at h
      · rw [hps] at h; simp at h
      · exact ⟨h.2.1, h.1⟩
    unfold nbSteps
    rw [hps, this.1, this.2]
    simpa using List.length_pos_iff.2 hne
  push Not at hel
  obtain ⟨H, hH, hH0⟩ := hel
  have hu : usedHardness A = some H := by unfold usedHardness; rw [hH]; simp [hH0]
  obtain ⟨Y, hY⟩ := system_ok hT hx hy A hks
  have hreq : requests T A = ps.map fun p => .force (p * T.physicalSizes.prod) := by
    have ho : A.offsets = none := by
      rcases hA with h | h | h
      · exact h.2.1
      · rw [hps] at h; simp at h
      · exact h.2.1
    unfold requests; rw [ho, hps]
  rcases run_cases hT _ (default_fits hT rms CCG.scipyBisect A) A hA with
    ⟨e, -, h2⟩ | ⟨Y', ds, reps', -, e1, ⟨h2, hc⟩ | ⟨e, q, rest, done, c, hd, hcm, -, hce, ho, hF, hcH, hpt, hmi, -⟩⟩
  · rw [hY] at h2; cases h2
  · have hl := hc.length
    rw [hreq, List.length_map] at hl
    rw [if_neg (by rintro rfl; simp at hl; exact hne (List.length_eq_zero_iff.1 hl.symm))] at h2
    exact .inl ⟨_, _, h2⟩
  · right
    refine ⟨reps', ?_⟩
    have hq : q ∈ requests T A := by rw [hd]; simp
    rw [hreq] at hq
    obtain ⟨p, hpm, rfl⟩ := List.mem_map.1 hq
    have hF' : c.externalForce = some (p * T.physicalSizes.prod) := hF
    unfold defaultSolver at hce
    cases hmk : makeSubstrate T A.substrate with
    | error e =>
      have : makePipeSystem T A = .error e := by unfold makePipeSystem; rw [hmk]; rfl
      rw [this] at hY; cases hY
    | ok sub =>
      rw [hmk] at hce
      obtain ⟨d0, d1, g⟩ := grid_of_make hT hmk
      have hce' := (ccg_error g).1 hce
      rw [hu] at hcH
      have hcH' : c.hardness = some (H * (sx * sy / (nx * ny))) := hcH
      have hsz : 0 < T.physicalSizes.prod := by rw [hT.sizes]; simpa using mul_pos hT.sx_pos hT.sy_pos
      obtain ⟨k, s, -, ⟨rfl, -⟩ | ⟨rfl, -⟩⟩ := CCG.C180_raises (P := ccgProblem sub rms d0 d1 nx ny c.heights)
        (o := ccgOptions CCG.scipyBisect A.optimizerKwargs _ c) (H := H * (sx * sy / (nx * ny))) (F := p * T.physicalSizes.prod) (pentol := pipePentol T)
        rfl (by simp only [ccgOptions, hcH']) hF' (mul_pos (hp p hpm) hsz)
        ⟨(⟨0, lt_of_lt_of_le hT.nx_pos g.lex⟩, ⟨0, lt_of_lt_of_le hT.ny_pos g.ley⟩), by simp [ccgProblem, hT.nx_pos, hT.ny_pos]⟩
        (by unfold CCG.pentolOf ccgOptions; simp only [hpt]) (by show 1 ≤ c.maxiter.toNat; rw [hmi]; omega) hce'
      · exact .inl hcm
      · exact .inr hcm

/-- A plastic calculation on the demonstration surface. -/
example (rms : NdArray ℝ → ℝ) :
    (∃ R reps, contactMechanicsCCG demoTopo rms CCG.scipyBisect { pressures := some [1, 2], hardness := some 5 } = (.ok R, reps)) ∨
    ∃ reps, contactMechanicsCCG demoTopo rms CCG.scipyBisect { pressures := some [1, 2], hardness := some 5 } = (.error .valueError, reps) ∨
      contactMechanicsCCG demoTopo rms CCG.scipyBisect { pressures := some [1, 2], hardness := some 5 } = (.error .runtimeError, reps) :=
  C180_pressures_return demoTopo_valid (by norm_num) (by norm_num) rms _ (by simp [KnownSubstrate]) (by simp [ExactlyOne]) (by norm_num) rfl (by simp)
    (by simp)

/-- The flat surface of height zero on `3 x 4` points, at a tenth of the hardness. -/
noncomputable def flatTopo180 : Topo := ⟨⟨[3, 4], fun _ => 0⟩, [1, 2], true, 0⟩

example (rms : NdArray ℝ → ℝ) (s : String) (hs : s = "periodic" ∨ s = "nonperiodic") :
    contactMechanicsCCG flatTopo180 rms CCG.scipyBisect { pressures := some [1], hardness := some 10, substrate := some s } = (.error .valueError, []) :=
  C180_low_topography_partial (nx := 3) (ny := 4) (sx := 1) (sy := 2) (by constructor <;> first | rfl | norm_num) (by norm_num) (by norm_num) rms _
    (by rcases hs with rfl | rfl <;> simp [KnownSubstrate]) (by simp [ExactlyOne]) (by norm_num) rfl (by norm_num) rfl (by norm_num)
    (fun _ _ _ _ => le_rfl) (hmin := 0) ⟨0, by norm_num, 0, by norm_num, rfl⟩ (fun _ _ _ _ => le_rfl) (by simp [flatTopo180])

end CM.Pipe
