import Verif.Props.CLI
/-!
# The command line front-end: agreement with `contact_mechanics` (C113), log lines (C115), arguments (C116)
-/
set_option linter.unusedSimpArgs false
namespace CM.Cli
open Finset CM.HS CM.FFT CM.System CM.Spec CM.Pipe

variable {nx ny : ℕ} {sx sy : ℝ} {T : Topo}

/-! ## C113 -/

lemma same_loop {base : NdArray ℝ} (hb : base.shape = [nx, ny]) (hx : 0 < nx) (hy : 0 < ny) (hsx : 0 < sx) (hsy : 0 < sy) (A : CliArgs)
    (solver : Solver) (hfit : ∀ c r, solver c = .ok r → Fits nx ny r) (hkeep : KeepsOffset solver) (N : ℕ) (cb : Bool) :
    ∀ (k : ℕ) (Y1 Y2 : AnySys) (o1 o2 : Option History) (prev : List Record), Ready nx ny sx sy base none Y1 → Ready nx ny sx sy base none Y2 →
    Holds o1 prev → Holds o2 (byArea prev) →
    ∃ rs : List Record, (autoLoop [sx, sy] (sx * sy / (nx * ny)) solver A N k prev.length Y2 o2).2.map Output.frame =
        rs.map (fun r => (r.displacement, r.pressure, r.area)) ∧
      ((∃ o1' o2', (runSteps [sx, sy] solver A.pentol A.maxiter cb Y1 o1 (List.replicate k .auto)).1 = .ok o1' ∧
          (autoLoop [sx, sy] (sx * sy / (nx * ny)) solver A N k prev.length Y2 o2).1 = .ok o2' ∧ rs.length = k ∧
          Holds o1' (prev ++ rs) ∧ Holds o2' (byArea (prev ++ rs)) ∧ (k ≠ 0 → o1'.isSome ∧ o2'.isSome)) ∨
       (∃ e, (runSteps [sx, sy] solver A.pentol A.maxiter cb Y1 o1 (List.replicate k .auto)).1 = .error e ∧
          (autoLoop [sx, sy] (sx * sy / (nx * ny)) solver A N k prev.length Y2 o2).1 = .error e)) := by
  intro k
  induction k with
  | zero =>
    intro Y1 Y2 o1 o2 prev _ _ h1 h2
    exact ⟨[], rfl, .inl ⟨o1, o2, rfl, rfl, rfl, by simpa using h1, by simpa using h2, by simp⟩⟩
  | succ k ih =>
    intro Y1 Y2 o1 o2 prev hY1 hY2 h1 h2
    have hh2 : Y2.heights = base := hY2.elastic_heights rfl
    have hcall : (⟨Y2.heights, forceHardness nx ny sx sy none, some (nextOffset Y2.heights (some (histOf prev))), none, A.pentol, A.maxiter⟩ : Call) =
        ⟨base, forceHardness nx ny sx sy none, (asks base prev .auto).1, (asks base prev .auto).2, A.pentol, A.maxiter⟩ := by
      rw [hh2]; rfl
    rcases nextStep_ready hb hY2 solver hfit hkeep A.pentol A.maxiter o2 prev h2 with ⟨e, Y', k1, k2⟩ | ⟨r, Y', k1, k2, k3, k4, k5, k6⟩
    · rw [hcall] at k2
      refine ⟨[], ?_, .inr ⟨e, ?_, ?_⟩⟩
      · simp only [autoLoop, k1, List.map_nil]
      · rcases step_ready hb hx hy hsx hsy hY1 solver hfit A.pentol A.maxiter o1 prev h1 .auto with ⟨e', h3, h0, h4, h5⟩ | ⟨d, h', Y'', h3, h4, -⟩
        · rw [h4 (.inl rfl), k2] at h5
          cases h5
          cases hr : runStep [sx, sy] solver A.pentol A.maxiter Y1 o1 .auto with
          | mk a b =>
            rw [hr] at h3
            dsimp only at h3
            subst h3
            simp only [List.replicate_succ, runSteps, hr]
        · have := h4.solved
          rw [h4.call, h4.auto (.inl rfl), k2] at this
          cases this
      · simp only [autoLoop, k1]
    · rw [hcall] at k2
      rcases step_ready hb hx hy hsx hsy hY1 solver hfit A.pentol A.maxiter o1 prev h1 .auto with ⟨e', h3, h0, h4, h5⟩ | ⟨d, h', Y'', h3, h4, -, h6, h7, -⟩
      · rw [h4 (.inl rfl), k2] at h5; cases h5
      · have hbase := h4.auto (.inl rfl)
        have hs := h4.solved
        rw [h4.call, hbase, k2] at hs
        have hrr : r = d.result := by injection hs
        obtain ⟨rs, i1, i2⟩ := ih Y'' Y' (some h') (some (histOf (byArea (prev ++ [recordOf nx ny sx sy Y2.heights r]))))
          (prev ++ [recordOf nx ny sx sy base r]) h7 k5 (by rw [h6, hbase, ← hrr]; rfl) (by rw [hh2]; rfl)
        rw [List.length_append, List.length_singleton] at i1 i2
        refine ⟨recordOf nx ny sx sy base r :: rs, ?_, ?_⟩
        · simp only [autoLoop, k1, List.map_cons]
          rw [i1]
          rfl
        · rcases i2 with ⟨o1', o2', j1, j2, j3, j4, j5, j6⟩ | ⟨e, j1, j2⟩
          · left
            refine ⟨o1', o2', ?_, ?_, by simp [j3], by simpa using j4, by simpa using j5, fun _ => ?_⟩
            · simp only [List.replicate_succ, runSteps, h3, j1]
            · simp only [autoLoop, k1, j2]
            · cases k with
              | zero =>
                simp only [List.replicate_zero, runSteps, Except.ok.injEq] at j1
                simp only [autoLoop, Except.ok.injEq] at j2
                rw [← j1, ← j2]; simp
              | succ k => exact j6 (by simp)
          · right
            refine ⟨e, ?_, ?_⟩
            · simp only [List.replicate_succ, runSteps, h3, j1]
            · simp only [autoLoop, k1, j2]

/-- The command line settings that correspond to the defaults of `contact_mechanics` for this topography. -/
structure _root_.CM.Spec.LikePipeline (T : Topo) (nx ny : ℕ) (A : CliArgs) (B : PipeArgs) (n : ℕ) : Prop where
  boundary : A.boundary = if T.isPeriodic then "periodic" else "nonperiodic"
  modulus : A.modulus = 1
  poisson : A.poisson = 0
  thickness : A.thickness = none
  hardness : A.hardness = none ∧ B.hardness = none
  pentol : A.pentol = some (max (T.rmsHeight / (10 * ((nx + ny) / 2))) 1e-12)
  maxiter : B.maxiter = A.maxiter
  substrate : B.substrate = none
  steps : B.nsteps = some (n : ℤ) ∧ B.offsets = none ∧ B.pressures = none

lemma same_system {A : CliArgs} {B : PipeArgs} {n : ℕ} (h : LikePipeline T nx ny A B n) : cliSystem T A = makePipeSystem T B := by
  have hs : cliSubstrate T A = makeSubstrate T B.substrate := by
    unfold cliSubstrate makeSubstrate
    rw [h.boundary, h.modulus, h.poisson, h.thickness, h.substrate]
    cases T.isPeriodic <;> simp
  unfold cliSystem makePipeSystem
  rw [hs, h.hardness.1]
  have : usedHardness B = none := by unfold usedHardness; rw [h.hardness.2]
  rw [this]

/-- **C113** The automatic mode of the command line and `contact_mechanics(nsteps=n)` do the same elastic calculation: with the
same settings they either both raise the same exception, or both return; then the command line has written, step by step, the
offsets, mean pressures and areas that `contact_mechanics` returns, and its history is that table sorted by area. -/
theorem C113_same_as_pipeline (hT : ValidTopo T nx ny sx sy) (solver : Solver) (hfit : ∀ c r, solver c = .ok r → Fits nx ny r)
    (hkeep : KeepsOffset solver) (A : CliArgs) (B : PipeArgs) (n N : ℕ) (hn : 0 < n) (h : LikePipeline T nx ny A B n) {Y : AnySys}
    (hY : cliSystem T A = .ok Y) :
    (∃ e, (contactMechanics T solver B).1 = .error e ∧ (autoLoop T.physicalSizes T.areaPerPt solver A N n 0 Y none).1 = .error e) ∨
    (∃ rows sorted : List Record, (contactMechanics T solver B).1 = .ok (columns rows) ∧
      (autoLoop T.physicalSizes T.areaPerPt solver A N n 0 Y none).1 =
        .ok (some ⟨sorted.map (·.displacement), sorted.map (·.gap), sorted.map (·.pressure), sorted.map (·.area), sorted.map (·.converged)⟩) ∧
      (autoLoop T.physicalSizes T.areaPerPt solver A N n 0 Y none).2.map Output.frame =
        rows.map (fun r => (r.displacement, r.pressure, r.area)) ∧
      rows.length = n ∧ sorted.Perm rows ∧ sorted.Pairwise (fun a b => a.area ≤ b.area)) := by
  have hA : ValidCli A := by
    refine ⟨by rw [h.modulus]; norm_num, by rw [h.poisson]; norm_num, by rw [h.poisson]; norm_num, ?_⟩
    intro x hx; rw [h.thickness] at hx; cases hx
  obtain ⟨hr, hh⟩ := cli_system_ready hT hA hY
  rw [h.hardness.1] at hr
  have hap : T.areaPerPt = sx * sy / (nx * ny) := by simp [Topo.areaPerPt, hT.sizes, hT.heights]
  have hB : makePipeSystem T B = .ok Y := by rw [← same_system h]; exact hY
  have hv : ExactlyOne B := .inl ⟨by rw [h.steps.1]; rfl, h.steps.2⟩
  have hq : requests T B = List.replicate n .auto := by unfold requests; rw [h.steps.1, h.steps.2.1, h.steps.2.2]; rfl
  have hcm : (contactMechanics T solver B).1 = match (generalizing := false)
      (runSteps [sx, sy] solver A.pentol A.maxiter B.callback Y none (List.replicate n .auto)).1 with
      | .error e => .error e
      | .ok none => .error .typeError
      | .ok (some h) => .ok ⟨h.pressure, h.area, h.disp, h.gap, h.converged⟩ := by
    unfold contactMechanics
    rw [(validate_iff B).2 hv]
    simp only [bind, Except.bind, hB, hT.sizes, hq, pentol_eq hT, ← h.pentol, h.maxiter]
    cases runSteps [sx, sy] solver A.pentol A.maxiter B.callback Y none (List.replicate n .auto) with
    | mk r reps =>
      cases r with
      | error e => rfl
      | ok o => cases o <;> rfl
  obtain ⟨rs, h1, h2⟩ := same_loop (sx := sx) (sy := sy) hT.heights hT.nx_pos hT.ny_pos hT.sx_pos hT.sy_pos A solver hfit hkeep N B.callback n Y Y none none []
    hr hr rfl rfl
  rw [List.length_nil] at h1 h2
  rw [hcm, hT.sizes, hap]
  rcases h2 with ⟨o1', o2', j1, j2, j3, j4, j5, j6⟩ | ⟨e, j1, j2⟩
  · right
    obtain ⟨i1, i2⟩ := j6 (by omega)
    obtain ⟨x1, rfl⟩ := Option.isSome_iff_exists.1 i1
    obtain ⟨x2, rfl⟩ := Option.isSome_iff_exists.1 i2
    have e1 : x1 = histOf rs := j4
    have e2 : x2 = histOf (byArea rs) := j5
    refine ⟨rs, byArea rs, ?_, ?_, h1, j3, sortedBy_perm _ _, sortedBy_sorted _ _⟩
    · rw [j1, e1]; rfl
    · rw [j2, e2]; rfl
  · left
    refine ⟨e, ?_, j2⟩
    rw [j1]

/-! ## C115 -/

/-- Every output of every run belongs to a call of the solver. -/
lemma outputs_steps (hT : ValidTopo T nx ny sx sy) (A : CliArgs) (hA : ValidCli A) (solver : Solver)
    (hfit : ∀ c r, solver c = .ok r → Fits nx ny r) (hkeep : KeepsOffset solver) (kw : List String) :
    ∀ out ∈ (hardWall T kw solver A).2, ∃ (d : CliStep) (l : ℝ) (n k : ℕ), d.output = out ∧ solver d.call = .ok d.result ∧ (∃ o F, d.call = ⟨d.before, forceHardness nx ny sx sy A.hardness, o, F, A.pentol, A.maxiter⟩) ∧
      OutputMatches nx ny sx sy A.maps n k (heightAfter A.hardness.isSome d.before d.result) d.result l out := by
  have hap : T.areaPerPt = sx * sy / (nx * ny) := by simp [Topo.areaPerPt, hT.sizes, hT.heights]
  have fin : ∀ {n : ℕ} {ask : ℕ → List Record → NdArray ℝ → Option ℝ → Option ℝ → Prop} {load : ℕ → OptResult → ℝ → Prop} {ds : List CliStep} {outs : List Output},
      outs = ds.map CliStep.output → IsCliRun T nx ny sx sy A solver n ask load ds → ∀ out ∈ outs, ∃ (d : CliStep) (l : ℝ) (n k : ℕ), d.output = out ∧ solver d.call = .ok d.result ∧ (∃ o F, d.call = ⟨d.before, forceHardness nx ny sx sy A.hardness, o, F, A.pentol, A.maxiter⟩) ∧
      OutputMatches nx ny sx sy A.maps n k (heightAfter A.hardness.isSome d.before d.result) d.result l out := by
    intro n ask load ds outs e hR out ho
    rw [e, List.mem_map] at ho
    obtain ⟨d, hd, rfl⟩ := ho
    obtain ⟨k, hk⟩ := List.mem_iff_getElem?.1 hd
    obtain ⟨l, -, hl⟩ := hR.output k d hk
    obtain ⟨o, F, -, hc⟩ := hR.call k d hk
    exact ⟨d, l, n, k, rfl, hR.solved d hd, ⟨o, F, hc⟩, hl⟩
  intro out h
  by_cases hd : A.displacement = none
  · unfold hardWall at h
    cases hY : cliSystem T A with
    | error e => rw [hY] at h; simp at h
    | ok Y =>
      obtain ⟨hr, hh⟩ := cli_system_ready hT hA hY
      have hpl : ∀ ps : List ℝ, ∀ out ∈ (pressureLoop T.physicalSizes T.areaPerPt solver A ps.length 0 Y ps).2, ∃ (d : CliStep) (l : ℝ) (n k : ℕ), d.output = out ∧ solver d.call = .ok d.result ∧ (∃ o F, d.call = ⟨d.before, forceHardness nx ny sx sy A.hardness, o, F, A.pentol, A.maxiter⟩) ∧
      OutputMatches nx ny sx sy A.maps n k (heightAfter A.hardness.isSome d.before d.result) d.result l out := by
        intro ps
        obtain ⟨ds, e1, e2, -⟩ := pressure_chain (nx := nx) (ny := ny) (sx := sx) (sy := sy) hT.heights A solver hfit ps.length ps ps Y [] T.heights.get
          rfl hr (by rw [hh]; intro i _ j _; rfl)
        rw [hT.sizes, hap]
        exact fin e1 e2.run
      rw [hY] at h
      simp only [mainModes, hd, Option.isSome_none, Bool.false_eq_true, if_false] at h
      split at h
      · split at h
        · split at h
          · simp at h
          · exact hpl _ out h
        · split at h
          · exact hpl _ out h
          · simp at h
      · have hm : out ∈ (autoLoop T.physicalSizes T.areaPerPt solver A autoSteps autoSteps 0 Y none).2 := by
          cases hl : autoLoop T.physicalSizes T.areaPerPt solver A autoSteps autoSteps 0 Y none with
          | mk r outs => rw [hl] at h; cases r <;> exact h
        obtain ⟨ds, e1, e2, -⟩ := auto_chain hT.heights hT.nx_pos hT.ny_pos A solver hfit hkeep autoSteps autoSteps Y none [] T.heights.get hr rfl
          (by rw [hh]; intro i _ j _; rfl)
        rw [hT.sizes, hap] at hm
        exact fin e1 e2.run out hm
  · obtain ⟨d, hd⟩ := Option.ne_none_iff_exists'.1 hd
    obtain ⟨e, he⟩ := C66_displacement_mode_fails T kw solver A d hd
    rw [he] at h
    simp at h

/-- Every output of every run belongs to a solver result. -/
lemma outputs_match (hT : ValidTopo T nx ny sx sy) (A : CliArgs) (hA : ValidCli A) (solver : Solver)
    (hfit : ∀ c r, solver c = .ok r → Fits nx ny r) (hkeep : KeepsOffset solver) (kw : List String) :
    ∀ out ∈ (hardWall T kw solver A).2, ∃ h r l n k, OutputMatches nx ny sx sy A.maps n k h r l out := by
  intro out ho
  obtain ⟨d, l, n, k, -, -, -, h⟩ := outputs_steps hT A hA solver hfit hkeep kw out ho
  exact ⟨_, _, _, _, _, h⟩

/-- **C115** Every log line is consistent in itself and with the NetCDF frame of the same step: mean gap is mean elastic minus mean
rigid displacement, load is mean pressure times apparent area, contact area is fractional area times apparent area, and the
fractional area -- the one in the frame -- lies between 0 and 1. -/
theorem C115_log_line (hT : ValidTopo T nx ny sx sy) (A : CliArgs) (hA : ValidCli A) (solver : Solver)
    (hfit : ∀ c r, solver c = .ok r → Fits nx ny r) (hkeep : KeepsOffset solver) (kw : List String) :
    ∀ out ∈ (hardWall T kw solver A).2, ∃ elastic rigid gap load pressure area fraction : ℝ,
      out.log = [elastic, rigid, gap, load, pressure, area, fraction] ∧ gap = elastic - rigid ∧ load = pressure * (sx * sy) ∧
      area = fraction * (sx * sy) ∧ out.frame.2.2 = fraction ∧ 0 ≤ fraction ∧ fraction ≤ 1 := by
  intro out ho
  obtain ⟨h, r, l, n, k, hm⟩ := outputs_match hT A hA solver hfit hkeep kw out ho
  have hx := hT.sx_pos
  have hy := hT.sy_pos
  have hnx : (0 : ℝ) < nx := by exact_mod_cast hT.nx_pos
  have hny : (0 : ℝ) < ny := by exact_mod_cast hT.ny_pos
  refine ⟨_, _, _, _, _, _, _, hm.log, rfl, ?_, ?_, ?_, ?_, ?_⟩
  · field_simp
  · field_simp
  · rw [hm.frame]
  · positivity
  · rw [div_le_one (by positivity)]
    have : nbPos nx ny r.jac ≤ nx * ny := by
      unfold nbPos
      refine (card_filter_le _ _).trans ?_
      simp
    exact_mod_cast this

/-! ## C116 -/

/-- **C116** Arguments that cannot be honoured are refused with `ValueError` before anything is calculated or written: an unknown kind of
boundary, a thickness with nonperiodic boundaries, and displacements together with pressures (once the system is set up). -/
theorem C116_refused (T : Topo) (kw : List String) (solver : Solver) (A : CliArgs) :
    ((A.boundary ≠ "periodic" ∧ A.boundary ≠ "nonperiodic") → hardWall T kw solver A = (.error .valueError, [])) ∧
    (A.boundary = "nonperiodic" → A.thickness.isSome → hardWall T kw solver A = (.error .valueError, [])) ∧
    (∀ Y, cliSystem T A = .ok Y → A.displacement.isSome → (A.pressure.isSome ∨ A.pressureFile.isSome) →
      hardWall T kw solver A = (.error .valueError, [])) := by
  refine ⟨?_, ?_, ?_⟩
  · rintro ⟨h1, h2⟩
    unfold hardWall cliSystem cliSubstrate
    rw [if_neg h1, if_neg h2]
    rfl
  · intro h1 h2
    unfold hardWall cliSystem cliSubstrate
    rw [h1, if_neg (by decide), if_pos rfl, if_pos h2]
    rfl
  · intro Y hY h1 h2
    unfold hardWall
    rw [hY]
    unfold mainModes
    dsimp only
    rw [if_pos h2, if_pos h1]

/-- **C116** (otherwise a system is set up) With a grid of at least two points per direction and a known boundary kind
every other setting of the elastic constants is accepted. -/
theorem C116_accepted (hT : ValidTopo T nx ny sx sy) (hx : 1 < nx) (hy : 1 < ny) (A : CliArgs) (hA : ValidCli A)
    (hb : A.boundary = "periodic" ∨ (A.boundary = "nonperiodic" ∧ A.thickness = none)) : ∃ Y, cliSystem T A = .ok Y := by
  have hsz : T.physicalSizes = [sx, sy] := hT.sizes
  have h1 : 0 < 1 - A.poisson ^ 2 := by nlinarith [hA.poisson_low, hA.poisson_high]
  have hsub : ∃ sub, cliSubstrate T A = .ok sub := by
    unfold cliSubstrate
    rcases hb with e | ⟨e, ht⟩
    · rw [if_pos e]
      obtain ⟨s, hs⟩ := (C13_construct_ok_iff ⟨T.heights.shape, A.modulus, T.physicalSizes, none, A.thickness, A.poisson, none⟩).2 (by
        simp only [hT.heights, hsz]
        refine ⟨by simp, by simp, by simp, by simp; omega, h1.ne', by simp, by simp; omega, by simp⟩)
      rw [hs]; exact ⟨_, rfl⟩
    · rw [if_neg (by rw [e]; decide), if_pos e, ht]
      rw [if_neg (by simp), if_neg h1.ne']
      have := initAttrs_ok (a := FreeArgs.base ⟨T.heights.shape, A.modulus / (1 - A.poisson ^ 2), T.physicalSizes, none⟩)
          (dom := T.heights.shape.map (2 * ·)) |>.mpr
        ⟨by simp [FreeArgs.base, hT.heights], .inl rfl, by simp [FreeArgs.base, hsz],
          by simp [FreeArgs.base, hT.heights]; omega, by simp [FreeArgs.base], by simp [FreeArgs.base], rfl⟩
      unfold constructFree
      dsimp only
      rw [this]
      simp only [bind, Except.bind, FreeArgs.base, hT.heights, hsz, List.length_cons, List.length_nil]
      exact ⟨_, rfl⟩
  obtain ⟨sub, hsub⟩ := hsub
  obtain ⟨h1, -⟩ := cli_substrate_ready hT hA hsub
  obtain ⟨S, k1, -⟩ := (C56_incompatible_resolution_iff sub T.heights).2 (hT.heights.trans h1.symm)
  unfold cliSystem
  rw [hsub]
  simp only [bind, Except.bind, k1]
  cases A.hardness <;> exact ⟨_, rfl⟩

/-! ## Concrete calculations -/

lemma demoSolver_keeps : KeepsOffset demoSolver := by
  intro c r o h1 h2 _
  cases h1
  simp [h2]

lemma default_valid : ValidCli {} := by
  constructor <;> simp

/-- Hypotheses of C65: an automatic run returns and writes twenty outputs. -/
example : ∃ outs, hardWall demoTopo solverKeywords demoSolver {} = (.ok (), outs) ∧ outs.length = 20 := by
  obtain ⟨Y, hY⟩ := C116_accepted demoTopo_valid (by norm_num) (by norm_num) {} default_valid (.inl rfl)
  have hok : ∃ outs, hardWall demoTopo solverKeywords demoSolver {} = (.ok (), outs) := by
    unfold hardWall
    rw [hY]
    simp only [mainModes, Option.isSome_none, Bool.false_eq_true, or_self, if_false]
    cases hl : autoLoop demoTopo.physicalSizes demoTopo.areaPerPt demoSolver {} autoSteps autoSteps 0 Y none with
    | mk r outs =>
      cases r with
      | ok o => exact ⟨outs, rfl⟩
      | error e =>
        exfalso
        obtain ⟨D, -, -, -, _, _, _, _, _, h⟩ := C65_exception demoTopo_valid {} default_valid demoSolver demoSolver_fits demoSolver_keeps hY _ _ hl
        cases h
  obtain ⟨outs, h⟩ := hok
  obtain ⟨D, h1, h2, -⟩ := C65_automatic_run demoTopo_valid {} default_valid demoSolver demoSolver_fits demoSolver_keeps solverKeywords rfl rfl rfl h
  exact ⟨outs, h, by rw [h2, List.length_map, h1]⟩

/-- Command line of a plastic calculation at three pressures with two maps. -/
def demoPressure : CliArgs :=
  { pressure := some [⟨some 1, some 1⟩, ⟨some 3, some 3⟩, ⟨some 3, some 3⟩], maps := [some "c", none, none, some "g"], hardness := some 2 }

lemma demoPressure_asks : AsksPressures demoPressure [1, 2, 3] := by
  refine .inr (.inl ⟨_, _, _, 1, 3, 3, rfl, rfl, rfl, rfl, rfl, ?_⟩)
  intro k hk
  simp only [List.length_cons, List.length_nil] at hk
  interval_cases k <;> norm_num

/-- Hypotheses of C114, C115 and C67: a plastic pressure run returns three outputs with two map files each; the second file of
the second step is `g.1` and carries no data, although the log line has some. -/
example : ∃ outs, hardWall demoTopo solverKeywords demoSolver demoPressure = (.ok (), outs) ∧ outs.length = 3 ∧
    ∃ out, outs[1]? = some out ∧ out.files[1]? = some ("g.1", []) ∧ out.log ≠ [] := by
  have hv : ValidCli demoPressure := by constructor <;> simp [demoPressure]
  obtain ⟨Y, hY⟩ := C116_accepted demoTopo_valid (by norm_num) (by norm_num) demoPressure hv (.inl rfl)
  have hok : ∃ outs, hardWall demoTopo solverKeywords demoSolver demoPressure = (.ok (), outs) := by
    cases hl : hardWall demoTopo solverKeywords demoSolver demoPressure with
    | mk r outs =>
      cases r with
      | ok o => exact ⟨outs, rfl⟩
      | error e =>
        exfalso
        obtain ⟨D, -, -, ⟨_, _, _, _, _, h⟩, -⟩ := C114_pressure_exception demoTopo_valid demoPressure hv demoSolver demoSolver_fits solverKeywords _ demoPressure_asks rfl hY hl
        cases h
  obtain ⟨outs, h⟩ := hok
  obtain ⟨D, h1, h2, h3⟩ := C114_pressure_run demoTopo_valid demoPressure hv demoSolver demoSolver_fits solverKeywords _ demoPressure_asks rfl h
  have hl : D.length = 3 := h1
  have hD : D[1]? = some (D[1]'(by omega)) := List.getElem?_eq_getElem _
  obtain ⟨l, -, hm⟩ := h3.output 1 _ hD
  have ho : outs[1]? = some (D[1]'(by omega)).output := by rw [h2, List.getElem?_map, hD]; rfl
  refine ⟨outs, h, by rw [h2, List.length_map, hl], _, ho, ?_, by rw [hm.log]; simp [logLine]⟩
  have hn := hm.names
  have e1 : ((demoPressure.maps.filterMap id).map (· ++ fileEnding [(1 : ℝ), 2, 3].length 1))[1]? = some "g.1" := by
    simp [demoPressure, fileEnding]
    decide
  rw [← hn, List.getElem?_map, Option.map_eq_some_iff] at e1
  obtain ⟨p, hp, hp1⟩ := e1
  have := C67_only_first_map_has_data demoTopo solverKeywords demoSolver demoPressure (D[1]'(by omega)).output
    (by rw [h]; exact List.mem_of_getElem? ho) 1 p hp
  rw [hp]
  simp only [one_ne_zero, if_false] at this
  rw [← hp1, ← this]

/-- Hypotheses of C66. -/
example : ∃ Y, cliSystem demoTopo { displacement := some [⟨some 1, some 1⟩] } = .ok Y :=
  C116_accepted demoTopo_valid (by norm_num) (by norm_num) _ (by constructor <;> simp) (.inl rfl)

/-- Hypotheses of C113. -/
example : LikePipeline demoTopo 3 4 { pentol := some (max (2 / (10 * ((3 + 4) / 2))) 1e-12) } { nsteps := some (7 : ℕ), maxiter := 1000 } 7 := by
  constructor <;> simp [demoTopo]

end CM.Cli
