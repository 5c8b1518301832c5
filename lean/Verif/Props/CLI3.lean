import Verif.Model.CLIRun
import Verif.Props.CLI2
import Verif.Props.Modulus
/-!
# The command line front-end: units (C162, C164), agreement with `contact_mechanics` under load control (C165), map files (C166)
-/
set_option linter.unusedSimpArgs false
namespace CM.Cli
open Finset CM.HS CM.FFT CM.System CM.Spec CM.Pipe

variable {nx ny : ℕ} {sx sy : ℝ} {T : Topo}

/-! ## C162 -/

/-- Length in metres of the units the front-end knows; `unknown` counts as metres. -/
inductive _root_.CM.Spec.UnitIs : String → ℝ → Prop
  | angstrom : UnitIs "A" 1e-10
  | nanometre : UnitIs "nm" 1e-9
  | micrometre : UnitIs "µm" 1e-6
  | millimetre : UnitIs "mm" 1e-3
  | metre : UnitIs "m" 1
  | unknown : UnitIs "unknown" 1

lemma unit_iff (s : String) (x : ℝ) : unitToMeters s = .ok x ↔ UnitIs s x := by
  constructor
  · intro h
    unfold unitToMeters at h
    split_ifs at h with h1 h2 h3 h4 h5 h6 <;> simp only [Except.ok.injEq] at h <;> subst h
    · subst h1; convert UnitIs.angstrom using 1; norm_num
    · subst h2; convert UnitIs.nanometre using 1; norm_num
    · subst h3; convert UnitIs.micrometre using 1; norm_num
    · subst h4; convert UnitIs.millimetre using 1; norm_num
    · subst h5; exact .metre
    · subst h6; exact .unknown
  · intro h
    cases h <;> simp [unitToMeters] <;> norm_num

lemma unit_pos {s : String} {x : ℝ} (h : UnitIs s x) : 0 < x := by cases h <;> norm_num

/-- **C162** Heights given in the unit of `--height-unit`, multiplied by `--height-fac`, enter the calculation in the unit of the
topography: the physical length (number times length of the unit) of every height is the one given in the file times
the factor. -/
theorem C162_height_unit {A : UnitArgs} {fileUnit : Option String} {h h' : NdArray ℝ} {hu : String} (h1 : A.heightUnit = some hu)
    (hs : scaledHeights fileUnit A h = .ok h') : ∃ a b, UnitIs hu a ∧ UnitIs (surfaceUnit fileUnit A) b ∧ h'.shape = h.shape ∧
      ∀ x, h'.get x * b = A.heightFac.getD 1 * (h.get x * a) := by
  unfold scaledHeights heightFactor at hs
  rw [if_pos (.inr (by rw [h1]; rfl)), h1] at hs
  dsimp only at hs
  cases ha : unitToMeters hu with
  | error e => rw [ha] at hs; cases hs
  | ok a =>
    cases hb : unitToMeters (surfaceUnit fileUnit A) with
    | error e => rw [ha, hb] at hs; cases hs
    | ok b =>
      rw [ha, hb] at hs
      cases hs
      rw [unit_iff] at ha hb
      have := unit_pos hb
      refine ⟨a, b, ha, hb, rfl, fun x => ?_⟩
      simp only [NdArray.map]
      cases A.heightFac <;> simp <;> field_simp

/-- **C162** Without `--height-unit` heights are multiplied by `--height-fac`, and without either option they are unchanged. -/
theorem C162_height_factor {A : UnitArgs} (fileUnit : Option String) (h : NdArray ℝ) (h1 : A.heightUnit = none) :
    ∃ h', scaledHeights fileUnit A h = .ok h' ∧ h'.shape = h.shape ∧ ∀ x, h'.get x = A.heightFac.getD 1 * h.get x := by
  unfold scaledHeights heightFactor
  rw [h1]
  cases hf : A.heightFac with
  | none => exact ⟨h, by simp, rfl, fun x => by simp⟩
  | some y =>
    refine ⟨h.map (1 * y * ·), by simp [bind, Except.bind, pure, Except.pure], rfl, fun x => ?_⟩
    simp [NdArray.map]

/-- **C162** (exceptions) The only exception is `KeyError`, raised exactly if `--height-unit` is given and it or the unit of the topography is
not one of the six known names. -/
theorem C162_unknown_unit (A : UnitArgs) (fileUnit : Option String) (h : NdArray ℝ) (e : PyErr) :
    scaledHeights fileUnit A h = .error e ↔ e = .keyError ∧ ∃ hu, A.heightUnit = some hu ∧
      ((∀ x, ¬ UnitIs hu x) ∨ ∀ x, ¬ UnitIs (surfaceUnit fileUnit A) x) := by
  have key : ∀ s e, unitToMeters s = .error e → e = .keyError := by
    intro s e h
    unfold unitToMeters at h
    split_ifs at h; cases h; rfl
  cases hu : A.heightUnit with
  | none =>
    obtain ⟨h', k, -⟩ := C162_height_factor fileUnit h hu
    rw [k]
    simp
  | some u =>
    unfold scaledHeights heightFactor
    rw [if_pos (.inr (by rw [hu]; rfl)), hu]
    dsimp only
    simp only [← unit_iff]
    cases ha : unitToMeters u with
    | error e1 =>
      have := key _ _ ha
      subst this
      constructor
      · intro h; cases h
        exact ⟨rfl, u, rfl, .inl fun x => by rw [ha]; simp⟩
      · rintro ⟨rfl, -⟩; rfl
    | ok a =>
      cases hb : unitToMeters (surfaceUnit fileUnit A) with
      | error e2 =>
        have := key _ _ hb
        subst this
        constructor
        · intro h; cases h
          exact ⟨rfl, u, rfl, .inr fun x => by simp⟩
        · rintro ⟨rfl, -⟩; rfl
      | ok b =>
        constructor
        · intro h; cases h
        · rintro ⟨-, v, hv, hc | hc⟩
          · cases hv; exact absurd ha (hc a)
          · exact absurd rfl (hc b)

/-- **C162 is false of the code**: for a file without a unit, and without `--physical_sizes-unit`, every `--height-unit`, known or not,
raises `KeyError`: the topography has the unit `N/A`, which is not in the table. -/
theorem C162_no_unit_partial (A : UnitArgs) (h : NdArray ℝ) (h1 : A.sizeUnit = none) (hu : A.heightUnit.isSome) :
    scaledHeights none A h = .error .keyError := by
  rw [C162_unknown_unit]
  obtain ⟨u, hu⟩ := Option.isSome_iff_exists.1 hu
  refine ⟨rfl, u, hu, .inr ?_⟩
  have : surfaceUnit none A = "N/A" := by unfold surfaceUnit; rw [h1]
  rw [this]
  intro x hx
  rw [← unit_iff] at hx
  simp [unitToMeters] at hx

/-- Hypotheses of C162: heights in nanometres on a topography in micrometres, doubled. -/
example : scaledHeights (some "µm") { heightFac := some 2, heightUnit := some "nm" } ⟨[1], fun _ => 5⟩ = .ok ⟨[1], fun _ => 1 / 100⟩ := by
  have h1 : unitToMeters "nm" = .ok (1 / 1000000000) := by simp [unitToMeters]; norm_num
  have h2 : unitToMeters "µm" = .ok (1 / 1000000) := by simp [unitToMeters]; norm_num
  simp only [scaledHeights, heightFactor, surfaceUnit, h1, h2, Option.isSome_some, true_or, if_true, bind, Except.bind, pure, Except.pure, NdArray.map]
  congr 3
  funext x
  norm_num

/-! ## C164 -/

/-- The contact modulus the headers state: 1 for "in units of E*". -/
noncomputable def _root_.CM.Spec.statedE (sub : Substrate) : ℝ := (statedModulus sub).getD 1

lemma statedE_eq (sub : Substrate) : statedE sub = sub.hs.mat.young := by
  unfold statedE statedModulus
  split_ifs with h <;> simp [h]

/-- Half-space with contact modulus `E` on the grid of the topography. -/
noncomputable def _root_.CM.Spec.referenceArgs (T : Topo) (E : ℝ) : Args := ⟨T.heights.shape, E, T.physicalSizes, none, none, 0, none⟩

/-- The constructor calls of `cliSubstrate`. -/
lemma cli_cases (hT : ValidTopo T nx ny sx sy) {A : CliArgs} (hA : ValidCli A) {sub : Substrate} (h : cliSubstrate T A = .ok sub) :
    (A.boundary = "periodic" ∧ sub.free = false ∧ sub.checkFlag = false ∧
      construct ⟨T.heights.shape, A.modulus, T.physicalSizes, none, A.thickness, A.poisson, none⟩ = .ok sub.hs ∧
      ValidArgs ⟨T.heights.shape, A.modulus, T.physicalSizes, none, A.thickness, A.poisson, none⟩) ∨
    (A.boundary = "nonperiodic" ∧ A.thickness = none ∧ sub.free = true ∧ sub.checkFlag = false ∧
      constructFree ⟨T.heights.shape, A.modulus / (1 - A.poisson ^ 2), T.physicalSizes, none⟩ = .ok sub.hs ∧
      ValidFree ⟨T.heights.shape, A.modulus / (1 - A.poisson ^ 2), T.physicalSizes, none⟩) := by
  have hsz : T.physicalSizes = [sx, sy] := hT.sizes
  unfold cliSubstrate at h
  split at h
  · next hb =>
    cases hc : construct ⟨T.heights.shape, A.modulus, T.physicalSizes, none, A.thickness, A.poisson, none⟩ with
    | error e => rw [hc] at h; cases h
    | ok s =>
      rw [hc] at h
      cases h
      exact .inl ⟨hb, rfl, rfl, rfl, by simp [hsz, hT.sx_pos, hT.sy_pos], hA.modulus_pos, hA.poisson_low, hA.poisson_high, hA.thickness⟩
  · split at h
    · next hb =>
      split at h
      · cases h
      · next ht =>
        split at h
        · cases h
        · cases hc : constructFree ⟨T.heights.shape, A.modulus / (1 - A.poisson ^ 2), T.physicalSizes, none⟩ with
          | error e => rw [hc] at h; cases h
          | ok s =>
            rw [hc] at h
            cases h
            have h1 : 0 < 1 - A.poisson ^ 2 := by nlinarith [hA.poisson_low, hA.poisson_high]
            have := hA.modulus_pos
            refine .inr ⟨hb, by simpa using ht, rfl, rfl, rfl, by simp [hsz, hT.sx_pos, hT.sy_pos], ?_⟩
            show 0 < A.modulus / (1 - A.poisson ^ 2); positivity
    · cases h

/-- **C164** (nonperiodic) The contact modulus stated in the headers is the one of the half-space that was simulated: the substrate is the
one built for the stated number. -/
theorem C164_nonperiodic (hT : ValidTopo T nx ny sx sy) {A : CliArgs} (hA : ValidCli A) (hb : A.boundary = "nonperiodic") {sub : Substrate}
    (h : cliSubstrate T A = .ok sub) :
    constructFree ⟨T.heights.shape, statedE sub, T.physicalSizes, none⟩ = .ok sub.hs ∧ statedE sub = A.modulus / (1 - A.poisson ^ 2) := by
  rcases cli_cases hT hA h with ⟨hb', -⟩ | ⟨-, -, -, -, hc, hv⟩
  · rw [hb] at hb'; exact absurd hb' (by decide)
  · obtain ⟨_, _, P⟩ := free_of_construct hv hc hT.heights
    have : statedE sub = A.modulus / (1 - A.poisson ^ 2) := by rw [statedE_eq]; exact P.young
    rw [this]
    exact ⟨hc, rfl⟩

/-- **C164 (partial).** (periodic half-space, Poisson number 0) The stated contact modulus is the simulated one. -/
theorem C164_periodic_partial (hT : ValidTopo T nx ny sx sy) {A : CliArgs} (hA : ValidCli A) (hb : A.boundary = "periodic")
    (ht : A.thickness = none) (hn : A.poisson = 0) {sub : Substrate} (h : cliSubstrate T A = .ok sub) :
    construct (referenceArgs T (statedE sub)) = .ok sub.hs := by
  rcases cli_cases hT hA h with ⟨-, -, -, hc, hv⟩ | ⟨hb', -⟩
  · obtain ⟨_, _, P⟩ := per_of_construct hv hc hT.heights
    have : statedE sub = A.modulus := by rw [statedE_eq, P.mat]
    rw [this, ← hc, ht, hn]
    rfl
  · rw [hb] at hb'; exact absurd hb' (by decide)

/-- **C164 is false of the code**: for a periodic half-space the headers state Young's modulus, not the contact modulus
`modulus / (1 - poisson²)`.  Under any forces the simulated displacements are the fraction `1 - poisson²` of those of a half-space with the
contact modulus stated. -/
theorem C164_periodic_poisson_partial (hT : ValidTopo T nx ny sx sy) {A : CliArgs} (hA : ValidCli A) (hb : A.boundary = "periodic")
    (ht : A.thickness = none) {sub : Substrate} (h : cliSubstrate T A = .ok sub) {ref : HalfSpace}
    (hr : construct (referenceArgs T (statedE sub)) = .ok ref) (f : NdArray ℝ) (hf : f.shape = [nx, ny]) :
    statedE sub = A.modulus ∧ ∃ u u', HS.evaluateDisp ref f = .ok u ∧ sub.evaluateDisp f = .ok u' ∧ u.shape = [nx, ny] ∧ u'.shape = [nx, ny] ∧
      ∀ i j, u'.get [i, j] = (1 - A.poisson ^ 2) * u.get [i, j] := by
  rcases cli_cases hT hA h with ⟨-, hfree, -, hc, hv⟩ | ⟨hb', -⟩
  · obtain ⟨_, _, P⟩ := per_of_construct hv hc hT.heights
    have hE : statedE sub = A.modulus := by rw [statedE_eq, P.mat]
    have h1 : 0 < 1 - A.poisson ^ 2 := by nlinarith [hA.poisson_low, hA.poisson_high]
    have hvr : ValidArgs (referenceArgs T (statedE sub)) := by
      rw [hE]
      have := hA.modulus_pos
      constructor <;> simp [referenceArgs, hT.sizes, hT.sx_pos, hT.sy_pos, this]
    refine ⟨hE, ?_⟩
    obtain ⟨u, u', k1, k2, k3, k4, k5⟩ := (C163_stiffer_substrate (c := (1 - A.poisson ^ 2)⁻¹) (inv_pos.2 h1) hvr hv
      ⟨rfl, rfl, .inl ⟨rfl, ht, by simp [contactModulus, referenceArgs, hE, div_eq_inv_mul], rfl⟩⟩ hr hc hT.heights f hf).1
    refine ⟨u, u', k1, ?_, k3, k4, fun i j => ?_⟩
    · rw [← k2]; unfold Substrate.evaluateDisp; rw [hfree]; rfl
    · rw [k5, div_inv_eq_mul, mul_comm]
  · rw [hb] at hb'; exact absurd hb' (by decide)

/-- Hypotheses of C164: a Poisson number that matters. -/
example : ValidCli { poisson := 1 / 2 } ∧ (∃ sub, cliSubstrate demoTopo { poisson := 1 / 2 } = .ok sub) ∧
    (∃ ref, construct (referenceArgs demoTopo 1) = .ok ref) := by
  have hv : ValidCli { poisson := 1 / 2 } := by
    refine ⟨?_, ?_, ?_, ?_⟩ <;> norm_num
    simp
  refine ⟨hv, ?_, ?_⟩
  · obtain ⟨Y, hY⟩ := C116_accepted demoTopo_valid (by norm_num) (by norm_num) { poisson := 1 / 2 } hv (.inl rfl)
    unfold cliSystem at hY
    cases hc : cliSubstrate demoTopo { poisson := 1 / 2 } with
    | error e => rw [hc] at hY; cases hY
    | ok s => exact ⟨s, rfl⟩
  · rw [C13_construct_ok_iff]; simp [referenceArgs, demoTopo, demoHeights]

/-! ## C165 -/

/-- Command line settings that correspond to `contact_mechanics(pressures=ps)` on this topography. -/
structure _root_.CM.Spec.LikePressures (T : Topo) (nx ny : ℕ) (A : CliArgs) (B : PipeArgs) (ps : List ℝ) : Prop where
  boundary : A.boundary = if T.isPeriodic then "periodic" else "nonperiodic"
  modulus : A.modulus = 1
  poisson : A.poisson = 0
  thickness : A.thickness = none
  hardness : A.hardness = B.hardness ∧ ∀ H, B.hardness = some H → 0 < H
  pentol : A.pentol = some (max (T.rmsHeight / (10 * ((nx + ny) / 2))) 1e-12)
  maxiter : B.maxiter = A.maxiter
  substrate : B.substrate = none
  asks : AsksPressures A ps ∧ A.displacement = none
  steps : B.nsteps = none ∧ B.offsets = none ∧ B.pressures = some ps

/-- One step of both programs: the pressure asked for, the row of the table and the callback of the library, the output of the command line. -/
structure _root_.CM.Spec.BothSteps where
  pressure : ℝ
  row : Record
  report : Report
  output : Output

/-- The output of the command line shows what the library returned for the step: offset, area, mean pressure, displacements and forces
(as pressures), and -- for elastic calculations -- the mean gap. -/
structure _root_.CM.Spec.SameStep (nx ny : ℕ) (sx sy : ℝ) (elastic : Bool) (d : BothSteps) : Prop where
  frame : d.output.frame = (d.row.displacement, d.pressure, d.row.area)
  meanPressure : d.output.log[4]? = some d.row.pressure
  gap : elastic = true → d.output.log[2]? = some d.row.gap
  report : d.report.meanDisplacement = d.row.displacement ∧ d.report.meanPressure = d.row.pressure ∧ d.report.totalContactArea = d.row.area
  displ : ∀ i < nx, ∀ j < ny, d.output.frameFields.1.get [i, j] = d.report.displacement.get [i, j]
  forces : ∀ i < nx, ∀ j < ny, d.output.frameFields.2.get [i, j] = d.report.pressure.get [i, j] * (sx * sy / (nx * ny))

lemma calc_state (sizes : List ℝ) (solver : Solver) (Y : AnySys) (off ext : Option ℝ) (o : Option History) (pt : Option ℝ) (mi : ℤ) :
    (contactCalculation sizes solver Y off ext o pt mi).2 = (Y.minimize solver off ext pt mi).2 := by
  unfold contactCalculation
  dsimp only
  cases Y.minimize solver off ext pt mi with
  | mk r Y' => cases r <;> rfl

lemma same_pressures {base : NdArray ℝ} (hb : base.shape = [nx, ny]) (hx : 0 < nx) (hy : 0 < ny) (hsx : 0 < sx) (hsy : 0 < sy) (A : CliArgs)
    (solver : Solver) (hfit : ∀ c r, solver c = .ok r → Fits nx ny r) (n : ℕ) (cb : Bool) :
    ∀ (ps : List ℝ) (i : ℕ) (Y : AnySys) (o : Option History) (prev : List Record), Ready nx ny sx sy base A.hardness Y → Holds o prev →
    (∃ e, (runSteps [sx, sy] solver A.pentol A.maxiter cb Y o (ps.map fun p => .force (p * [sx, sy].prod))).1 = .error e ∧
      (pressureLoop [sx, sy] (sx * sy / (nx * ny)) solver A n i Y ps).1 = .error e) ∨
    (∃ (L : List BothSteps) (o' : Option History),
      runSteps [sx, sy] solver A.pentol A.maxiter cb Y o (ps.map fun p => .force (p * [sx, sy].prod)) =
        (.ok o', if cb then L.map BothSteps.report else []) ∧
      pressureLoop [sx, sy] (sx * sy / (nx * ny)) solver A n i Y ps = (.ok (), L.map BothSteps.output) ∧
      L.map BothSteps.pressure = ps ∧ Holds o' (prev ++ L.map BothSteps.row) ∧ (ps ≠ [] → o'.isSome) ∧
      ∀ d ∈ L, SameStep nx ny sx sy A.hardness.isNone d) := by
  intro ps
  induction ps with
  | nil =>
    intro i Y o prev hY ho
    exact .inr ⟨[], o, by cases cb <;> rfl, rfl, rfl, by simpa using ho, by simp, by simp⟩
  | cons p ps ih =>
    intro i Y o prev hY ho
    rcases cut_ready hY solver hfit none (some (p * [sx, sy].prod)) A.pentol A.maxiter with ⟨e, Y', h1, h2⟩ | ⟨r, Y', h1, h2, h4, h5, h6⟩
    · left
      refine ⟨e, ?_, ?_⟩
      · simp only [List.map_cons, runSteps, runStep, contactCalculation, h1]
      · simp only [pressureLoop, h1]
    · rcases step_ready hb hx hy hsx hsy hY solver hfit A.pentol A.maxiter o prev ho (.force (p * [sx, sy].prod)) with
        ⟨e, k1, k2⟩ | ⟨d, h', Y'', k1, k2, k3, k4, k5, k6⟩
      · exfalso
        have hc : ∃ rep h', (contactCalculation [sx, sy] solver Y none (some (p * [sx, sy].prod)) o A.pentol A.maxiter).1 = .ok (rep, h') := by
          obtain ⟨-, c2⟩ := calc_ready hb hx hy hsx hsy hY solver none (some (p * [sx, sy].prod)) A.pentol A.maxiter o
          obtain ⟨rep, Y3, c3, -⟩ := c2 r h2 h4
          exact ⟨rep, _, by rw [c3]⟩
        obtain ⟨rep, h', hc⟩ := hc
        have k1' : (contactCalculation [sx, sy] solver Y none (some (p * [sx, sy].prod)) o A.pentol A.maxiter).1 = .error e := k1
        rw [hc] at k1'
        cases k1'
      · have hY'' : Y'' = Y' := by
          have := calc_state [sx, sy] solver Y none (some (p * [sx, sy].prod)) o A.pentol A.maxiter
          rw [h1] at this
          have k1' : contactCalculation [sx, sy] solver Y none (some (p * [sx, sy].prod)) o A.pentol A.maxiter = (.ok (d.report, h'), Y'') := k1
          rw [k1'] at this
          exact this
        subst hY''
        have hbef := k3 (by simp)
        have hr : d.result = r := by
          have := k2.solved
          rw [k2.call, hbef] at this
          have h2' : solver ⟨Y.heights, forceHardness nx ny sx sy A.hardness, none, some (p * [sx, sy].prod), A.pentol, A.maxiter⟩ = .ok d.result := this
          rw [h2] at h2'
          injection h2' with h; exact h.symm
        set out : Output := ⟨logLine nx ny sx sy (heightAfter A.hardness.isSome Y.heights r) r,
          (r.offset, p, (nbPos nx ny r.jac : ℝ) / (nx * ny)),
          writeMaps (suffix n i) A.maps (logLine nx ny sx sy (heightAfter A.hardness.isSome Y.heights r) r),
          (⟨[nx, ny], r.x.get⟩, r.jac), writeFields (suffix n i) A.maps
            (mapFields (sx * sy / (nx * ny)) Y''.heights r.activeSet ⟨[nx, ny], r.x.get⟩ r.jac r.offset)⟩ with hout
        set row := recordOf nx ny sx sy Y.heights r with hrow
        have hloop : pressureLoop [sx, sy] (sx * sy / (nx * ny)) solver A n i Y (p :: ps) =
            ((pressureLoop [sx, sy] (sx * sy / (nx * ny)) solver A n (i + 1) Y'' ps).1,
              out :: (pressureLoop [sx, sy] (sx * sy / (nx * ny)) solver A n (i + 1) Y'' ps).2) := by
          simp only [pressureLoop, h1, cut_fits h4, dump_eq (h5.shape hb) h6 h4, countPositive2 h4.jac, h5.shape hb]
          simp [hout]
        have hrun : runSteps [sx, sy] solver A.pentol A.maxiter cb Y o ((p :: ps).map fun p => .force (p * [sx, sy].prod)) =
            ((runSteps [sx, sy] solver A.pentol A.maxiter cb Y'' (some h') (ps.map fun p => .force (p * [sx, sy].prod))).1,
              if cb then d.report :: (runSteps [sx, sy] solver A.pentol A.maxiter cb Y'' (some h') (ps.map fun p => .force (p * [sx, sy].prod))).2
              else (runSteps [sx, sy] solver A.pentol A.maxiter cb Y'' (some h') (ps.map fun p => .force (p * [sx, sy].prod))).2) := by
          simp only [List.map_cons, runSteps, k1]
        have hh' : Holds (some h') (prev ++ [row]) := by
          rw [k4, hbef, hr]; rfl
        rcases ih (i + 1) Y'' (some h') (prev ++ [row]) h5 hh' with ⟨e, j1, j2⟩ | ⟨L, o', j1, j2, j3, j4, j5, j6⟩
        · left
          exact ⟨e, by rw [hrun]; exact j1, by rw [hloop]; exact j2⟩
        · right
          refine ⟨⟨p, row, d.report, out⟩ :: L, o', ?_, ?_, by simp [j3], by simpa using j4, ?_, ?_⟩
          · rw [hrun, j1]; cases cb <;> rfl
          · rw [hloop, j2]; rfl
          · intro _
            cases ps with
            | nil =>
              simp only [List.map_nil, runSteps, Prod.mk.injEq, Except.ok.injEq] at j1
              rw [← j1.1]; rfl
            | cons q qs => exact j5 (by simp)
          · intro x hxm
            rcases List.mem_cons.1 hxm with rfl | hxm
            · have hm := k2.report
              rw [hr] at hm
              refine ⟨rfl, rfl, ?_, ⟨hm.meanDisplacement, hm.meanPressure, hm.area⟩, ?_, ?_⟩
              · intro he
                have hn : A.hardness = none := by simpa using he
                have hsurf : ∀ x, heightAfter A.hardness.isSome Y.heights r x = Y.heights.get x := by
                  intro x; simp [heightAfter, hn]
                show some (mean nx ny r.x - (mean nx ny ⟨[nx, ny], heightAfter A.hardness.isSome Y.heights r⟩ + r.offset)) =
                  some (mean nx ny r.x - mean nx ny Y.heights - r.offset)
                have : mean nx ny (⟨[nx, ny], heightAfter A.hardness.isSome Y.heights r⟩ : NdArray ℝ) = mean nx ny Y.heights := by
                  unfold mean; simp only [hsurf]
                rw [this]
                congr 1; ring
              · intro i hi j hj
                exact (hm.displacement i hi j hj).symm
              · intro i hi j hj
                show r.jac.get [i, j] = d.report.pressure.get [i, j] * _
                rw [hm.pressure i hi j hj]
                have hx' : (0 : ℝ) < nx := by exact_mod_cast hx
                have hy' : (0 : ℝ) < ny := by exact_mod_cast hy
                field_simp
            · exact j6 x hxm

/-- **C165** With the same settings, a pressure run of the command line and `contact_mechanics(pressures=ps)` do the same calculation,
elastic or plastic, whatever the solver: either both raise the same exception, or both return; then they have made one step per
pressure, and for every step the offset, area, mean pressure (and mean gap, if elastic) the command line writes are those in the table of
`contact_mechanics`, and the displacements and forces it writes are those its callback receives. -/
theorem C165_pressures_same_as_pipeline (hT : ValidTopo T nx ny sx sy) (solver : Solver) (hfit : ∀ c r, solver c = .ok r → Fits nx ny r)
    (kw : List String) (A : CliArgs) (B : PipeArgs) (ps : List ℝ) (hps : ps ≠ []) (h : LikePressures T nx ny A B ps) :
    (∃ e, (contactMechanics T solver B).1 = .error e ∧ (hardWall T kw solver A).1 = .error e) ∨
    (∃ L : List BothSteps, contactMechanics T solver B = (.ok (columns (L.map BothSteps.row)), if B.callback then L.map BothSteps.report else []) ∧
      hardWall T kw solver A = (.ok (), L.map BothSteps.output) ∧ L.map BothSteps.pressure = ps ∧
      ∀ d ∈ L, SameStep nx ny sx sy A.hardness.isNone d) := by
  have hA : ValidCli A := by
    refine ⟨by rw [h.modulus]; norm_num, by rw [h.poisson]; norm_num, by rw [h.poisson]; norm_num, ?_⟩
    intro x hx; rw [h.thickness] at hx; cases hx
  have hsub : cliSubstrate T A = makeSubstrate T B.substrate := by
    unfold cliSubstrate makeSubstrate
    rw [h.boundary, h.modulus, h.poisson, h.thickness, h.substrate]
    cases T.isPeriodic <;> simp
  have hused : usedHardness B = A.hardness := by
    unfold usedHardness
    rw [h.hardness.1]
    cases hB : B.hardness with
    | none => rfl
    | some H => simp [h.hardness.2 H hB]
  have hsys : cliSystem T A = makePipeSystem T B := by
    unfold cliSystem makePipeSystem
    rw [hsub, hused]
    cases A.hardness <;> rfl
  have hap : T.areaPerPt = sx * sy / (nx * ny) := by simp [Topo.areaPerPt, hT.sizes, hT.heights]
  have hv : ExactlyOne B := .inr (.inr ⟨h.steps.1, h.steps.2.1, by rw [h.steps.2.2]; rfl⟩)
  have hq : requests T B = ps.map fun p => .force (p * [sx, sy].prod) := by
    unfold requests; rw [h.steps.2.1, h.steps.2.2, hT.sizes]
  unfold contactMechanics hardWall
  rw [(validate_iff B).2 hv]
  simp only [bind, Except.bind]
  rw [← hsys]
  cases hY : cliSystem T A with
  | error e => exact .inl ⟨e, rfl, rfl⟩
  | ok Y =>
    obtain ⟨hr, hh⟩ := cli_system_ready hT hA hY
    simp only [asks_main h.asks.1 h.asks.2, hT.sizes, hap, hq, pentol_eq hT, ← h.pentol, h.maxiter]
    rcases same_pressures hT.heights hT.nx_pos hT.ny_pos hT.sx_pos hT.sy_pos A solver hfit ps.length B.callback ps 0 Y none [] hr rfl with
      ⟨e, j1, j2⟩ | ⟨L, o', j1, j2, j3, j4, j5, j6⟩
    · left
      refine ⟨e, ?_, j2⟩
      cases hs : runSteps [sx, sy] solver A.pentol A.maxiter B.callback Y none (ps.map fun p => .force (p * [sx, sy].prod)) with
      | mk a b => rw [hs] at j1; dsimp only at j1; subst j1; rfl
    · right
      obtain ⟨x, rfl⟩ := Option.isSome_iff_exists.1 (j5 hps)
      refine ⟨L, ?_, j2, j3, j6⟩
      rw [j1]
      have : x = histOf (L.map BothSteps.row) := j4
      rw [this]
      rfl

/-- Hypotheses of C165: a plastic run at two pressures. -/
example : LikePressures demoTopo 3 4 { pressureFile := some [1, 2], hardness := some 3, pentol := some (max (2 / (10 * ((3 + 4) / 2))) 1e-12) }
    { pressures := some [1, 2], hardness := some 3, maxiter := 1000 } [1, 2] := by
  constructor <;> simp [demoTopo]
  exact .inr (.inr ⟨rfl, rfl⟩)

/-! ## C166 -/

lemma mean_congr {a b : NdArray ℝ} (h : ∀ i < nx, ∀ j < ny, a.get [i, j] = b.get [i, j]) : mean nx ny a = mean nx ny b := by
  unfold mean
  congr 1
  exact sum_congr rfl fun i hi => sum_congr rfl fun j hj => h i (mem_range.1 hi) j (mem_range.1 hj)

lemma total_congr {a b : NdArray ℝ} (h : ∀ i < nx, ∀ j < ny, a.get [i, j] = b.get [i, j]) : total nx ny a = total nx ny b := by
  unfold total
  exact sum_congr rfl fun i hi => sum_congr rfl fun j hj => h i (mem_range.1 hi) j (mem_range.1 hj)

lemma nbPos_congr {a b : NdArray ℝ} (h : ∀ i < nx, ∀ j < ny, (0 < a.get [i, j] ↔ 0 < b.get [i, j])) : nbPos nx ny a = nbPos nx ny b := by
  unfold nbPos
  congr 1
  apply filter_congr
  rintro ⟨i, j⟩ hp
  rw [mem_product, mem_range, mem_range] at hp
  exact h i hp.1 j hp.2

/-- **C166** The map files of every step agree with the log line `[elastic, rigid, gap, load, pressure, area, fraction]` of that step, whatever the
solver and the mode: the mean of the displacement map is the mean elastic displacement, the mean of the gap map is the mean
gap, the mean of the pressure map is the mean pressure and the fraction of points with positive pressure is the fractional
area; the displacements and forces of the NetCDF frame have the logged mean and sum, and they are the displacement map and the
pressure map times the area per point. -/
theorem C166_maps_match_log (hT : ValidTopo T nx ny sx sy) (A : CliArgs) (hA : ValidCli A) (solver : Solver)
    (hfit : ∀ c r, solver c = .ok r → Fits nx ny r) (hkeep : KeepsOffset solver) (kw : List String) :
    ∀ out ∈ (hardWall T kw solver A).2, ∃ (ending : String) (elastic rigid gap load pressure area fraction : ℝ),
      out.log = [elastic, rigid, gap, load, pressure, area, fraction] ∧
      mean nx ny out.frameFields.1 = elastic ∧ total nx ny out.frameFields.2 = load ∧
      (∀ fn, A.maps[1]? = some (some fn) → ∃ a, (fn ++ ending, a) ∈ out.fields ∧ a.shape = [nx, ny] ∧ mean nx ny a = pressure ∧
        (nbPos nx ny a : ℝ) / (nx * ny) = fraction ∧ ∀ i < nx, ∀ j < ny, a.get [i, j] * (sx * sy / (nx * ny)) = out.frameFields.2.get [i, j]) ∧
      (∀ fn, A.maps[2]? = some (some fn) → ∃ a, (fn ++ ending, a) ∈ out.fields ∧ a.shape = [nx, ny] ∧ mean nx ny a = elastic ∧
        ∀ i < nx, ∀ j < ny, a.get [i, j] = out.frameFields.1.get [i, j]) ∧
      (∀ fn, A.maps[3]? = some (some fn) → ∃ a, (fn ++ ending, a) ∈ out.fields ∧ a.shape = [nx, ny] ∧ mean nx ny a = gap) := by
  intro out ho
  obtain ⟨h, r, l, n, k, hm⟩ := outputs_match hT A hA solver hfit hkeep kw out ho
  have hx := hT.sx_pos
  have hy := hT.sy_pos
  have hnx : (0 : ℝ) < nx := by exact_mod_cast hT.nx_pos
  have hny : (0 : ℝ) < ny := by exact_mod_cast hT.ny_pos
  refine ⟨fileEnding n k, _, _, _, _, _, _, _, hm.log, mean_congr hm.frameDispl.2, total_congr hm.frameForces.2, ?_, ?_, ?_⟩
  · intro fn hfn
    obtain ⟨a, h1, h2, h3⟩ := hm.fields 1 fn (by norm_num) hfn
    refine ⟨a, h1, h2, ?_, ?_, ?_⟩
    · have e : mean nx ny a = total nx ny a / (nx * ny) := rfl
      have e2 : total nx ny a = total nx ny r.jac / (sx * sy / (nx * ny)) := by
        unfold total
        rw [sum_div]
        refine sum_congr rfl fun i hi => ?_
        rw [sum_div]
        exact sum_congr rfl fun j hj => h3 i (mem_range.1 hi) j (mem_range.1 hj)
      rw [e, e2]
      field_simp
    · congr 2
      apply nbPos_congr
      intro i hi j hj
      rw [h3 i hi j hj]
      exact div_pos_iff_of_pos_right (by positivity)
    · intro i hi j hj
      rw [h3 i hi j hj, hm.frameForces.2 i hi j hj]
      field_simp
  · intro fn hfn
    obtain ⟨a, h1, h2, h3⟩ := hm.fields 2 fn (by norm_num) hfn
    refine ⟨a, h1, h2, mean_congr h3, ?_⟩
    intro i hi j hj
    rw [h3 i hi j hj, hm.frameDispl.2 i hi j hj]
  · intro fn hfn
    obtain ⟨a, h1, h2, h3⟩ := hm.fields 3 fn (by norm_num) hfn
    refine ⟨a, h1, h2, ?_⟩
    have e2 : mean nx ny a = mean nx ny r.x - (mean nx ny ⟨[nx, ny], h⟩ + r.offset) := by
      unfold mean
      have : ∑ i ∈ range nx, ∑ j ∈ range ny, a.get [i, j] =
          ∑ i ∈ range nx, ∑ j ∈ range ny, r.x.get [i, j] - (∑ i ∈ range nx, ∑ j ∈ range ny, h [i, j] + nx * ny * r.offset) := by
        have e : (nx : ℝ) * ny * r.offset = ∑ i ∈ range nx, ∑ j ∈ range ny, r.offset := by
          simp; ring
        rw [e, ← sum_add_distrib, ← sum_sub_distrib]
        refine sum_congr rfl fun i hi => ?_
        rw [← sum_add_distrib, ← sum_sub_distrib]
        exact sum_congr rfl fun j hj => h3 i (mem_range.1 hi) j (mem_range.1 hj)
      rw [this]
      field_simp
    exact e2

/-! ### The package's own solver -/

lemma cli_grid (hT : ValidTopo T nx ny sx sy) {A : CliArgs} (hA : ValidCli A) {sub : Substrate} (h : cliSubstrate T A = .ok sub) :
    (A.boundary = "periodic" ∧ Grid sub nx ny nx ny) ∨ (A.boundary = "nonperiodic" ∧ Grid sub nx ny (2 * nx) (2 * ny)) := by
  obtain ⟨hs, fr, ck⟩ := sub
  rcases cli_cases hT hA h with ⟨hb, h1, h2, hc, hv⟩ | ⟨hb, -, h1, h2, hc, hv⟩
  · dsimp only at h1 h2; subst h1; subst h2
    exact .inl ⟨hb, grid_of_per hv hc hT.heights⟩
  · dsimp only at h1 h2; subst h1; subst h2
    exact .inr ⟨hb, grid_of_free hv hc hT.heights⟩

lemma cli_fits (hT : ValidTopo T nx ny sx sy) {A : CliArgs} (hA : ValidCli A) (rms : NdArray ℝ → ℝ) (bisect : Bisect) :
    ∀ c r, cliSolver T rms bisect A c = .ok r → Fits nx ny r := by
  intro c r h
  unfold cliSolver at h
  cases hs : cliSubstrate T A with
  | error e => rw [hs] at h; cases h
  | ok sub =>
    rw [hs] at h
    rcases cli_grid hT hA hs with ⟨-, g⟩ | ⟨-, g⟩ <;> exact ccg_fits g c r h

lemma ccg_keeps {sub : Substrate} {rms : NdArray ℝ → ℝ} {bisect : Bisect} {kw : OptimizerKwargs} {d0 d1 : ℕ} (g : Grid sub nx ny d0 d1) :
    KeepsOffset (ccgSolver sub rms bisect kw) := by
  intro c r o h ho hF
  obtain ⟨q, hq, rfl⟩ := (ccg_ok g).1 h
  have := CCG.C41_offset_kept (o := ccgOptions bisect kw _ c) hF hq
  show q.offset = o
  rw [this]
  show c.offset.getD 0 = o
  rw [ho]; rfl

lemma cli_keeps (hT : ValidTopo T nx ny sx sy) {A : CliArgs} (hA : ValidCli A) (rms : NdArray ℝ → ℝ) (bisect : Bisect) :
    KeepsOffset (cliSolver T rms bisect A) := by
  unfold cliSolver
  cases hs : cliSubstrate T A with
  | error e => intro c r o h; cases h
  | ok sub =>
    rcases cli_grid hT hA hs with ⟨-, g⟩ | ⟨-, g⟩ <;> exact ccg_keeps g

lemma cli_ok (hT : ValidTopo T nx ny sx sy) {A : CliArgs} (hA : ValidCli A) {rms : NdArray ℝ → ℝ} {bisect : Bisect} {c : Call} {r : OptResult}
    (h : cliSolver T rms bisect A c = .ok r) : ∃ sub d0 d1 q, cliSubstrate T A = .ok sub ∧ Grid sub nx ny d0 d1 ∧
      ((A.boundary = "periodic" ∧ d0 = nx ∧ d1 = ny) ∨ (A.boundary = "nonperiodic" ∧ d0 = 2 * nx ∧ d1 = 2 * ny)) ∧
      CCG.solve (ccgProblem sub rms d0 d1 nx ny c.heights) (ccgOptions bisect {} _ c) = .ok q ∧ r = ccgResult nx ny q := by
  unfold cliSolver at h
  cases hs : cliSubstrate T A with
  | error e => rw [hs] at h; cases h
  | ok sub =>
    rw [hs] at h
    rcases cli_grid hT hA hs with ⟨hb, g⟩ | ⟨hb, g⟩
    · obtain ⟨q, h1, h2⟩ := (ccg_ok g).1 h
      exact ⟨sub, _, _, q, rfl, g, .inl ⟨hb, rfl, rfl⟩, h1, h2⟩
    · obtain ⟨q, h1, h2⟩ := (ccg_ok g).1 h
      exact ⟨sub, _, _, q, rfl, g, .inr ⟨hb, rfl, rfl⟩, h1, h2⟩

/-- **C166 (partial).** (contact map, periodic boundaries) The contact map has one entry, 0 or 1, per point of the topography.  Missing: nonperiodic
boundaries, and that the entries are those of the points that carry force; both are false of the code. -/
theorem C166_contact_map_periodic_partial (hT : ValidTopo T nx ny sx sy) (A : CliArgs) (hA : ValidCli A) (hb : A.boundary = "periodic")
    (rms : NdArray ℝ → ℝ) (bisect : Bisect) {fn : String} (hm : A.maps[0]? = some (some fn)) :
    ∀ out ∈ (hardWallCCG T rms bisect A).2, ∃ ending a, (fn ++ ending, a) ∈ out.fields ∧ a.shape = [nx, ny] ∧ ∀ x, a.get x = 0 ∨ a.get x = 1 := by
  intro out ho
  obtain ⟨d, l, n, k, -, hs, -, h⟩ := outputs_steps hT A hA _ (cli_fits hT hA rms bisect) (cli_keeps hT hA rms bisect) solverKeywords out ho
  obtain ⟨a, h1, h2, h3⟩ := h.fields 0 fn (by norm_num) hm
  obtain ⟨sub, d0, d1, q, -, -, hd, -, hr⟩ := cli_ok hT hA hs
  refine ⟨_, a, h1, ?_, fun x => ?_⟩
  · rw [h2, hr]
    rcases hd with ⟨-, rfl, rfl⟩ | ⟨hb', -⟩
    · rfl
    · rw [hb] at hb'; exact absurd hb' (by decide)
  · rw [h3]
    split_ifs <;> simp

/-- **C166 is false of the code** for the contact map: with nonperiodic boundaries the file of the contact map has four times as many
entries as the topography has points -- it shows the active set on the padded grid of `2 nx × 2 ny` points --, while the pressure map of
the same step has `nx × ny`. -/
theorem C166_contact_map_padded_partial (hT : ValidTopo T nx ny sx sy) (A : CliArgs) (hA : ValidCli A) (hb : A.boundary = "nonperiodic")
    (rms : NdArray ℝ → ℝ) (bisect : Bisect) {fn : String} (hm : A.maps[0]? = some (some fn)) :
    ∀ out ∈ (hardWallCCG T rms bisect A).2, ∃ ending a, (fn ++ ending, a) ∈ out.fields ∧ a.shape = [2 * nx, 2 * ny] ∧
      ∀ fn', A.maps[1]? = some (some fn') → ∃ b, (fn' ++ ending, b) ∈ out.fields ∧ b.shape = [nx, ny] := by
  intro out ho
  obtain ⟨d, l, n, k, -, hs, -, h⟩ := outputs_steps hT A hA _ (cli_fits hT hA rms bisect) (cli_keeps hT hA rms bisect) solverKeywords out ho
  obtain ⟨a, h1, h2, h3⟩ := h.fields 0 fn (by norm_num) hm
  obtain ⟨sub, d0, d1, q, -, -, hd, -, hr⟩ := cli_ok hT hA hs
  refine ⟨_, a, h1, ?_, fun fn' hm' => ?_⟩
  · rw [h2, hr]
    rcases hd with ⟨hb', -⟩ | ⟨-, rfl, rfl⟩
    · rw [hb] at hb'; exact absurd hb' (by decide)
    · rfl
  · obtain ⟨b, k1, k2, -⟩ := h.fields 1 fn' (by norm_num) hm'
    exact ⟨b, k1, k2⟩

/-! ## C169 -/

lemma force_hardness_nonneg (hT : ValidTopo T nx ny sx sy) {A : CliArgs} (hH : ∀ H, A.hardness = some H → 0 ≤ H) {c : Call} {h : NdArray ℝ} {o F pt : Option ℝ} {mi : ℤ}
    (hc : c = ⟨h, forceHardness nx ny sx sy A.hardness, o, F, pt, mi⟩) : ∀ H, c.hardness = some H → 0 ≤ H := by
  intro H hH'
  rw [hc] at hH'
  simp only [forceHardness, Option.map_eq_some_iff] at hH'
  obtain ⟨K, hK, rfl⟩ := hH'
  have h1 := hT.sx_pos
  have h2 := hT.sy_pos
  have h3 : (0 : ℝ) < nx := by exact_mod_cast hT.nx_pos
  have h4 : (0 : ℝ) < ny := by exact_mod_cast hT.ny_pos
  have := hH K hK
  positivity

/-- **C169** The command line with the package's own solver writes mechanical states: in every output of every run -- any mode, converged or
not, even if a later step raises -- the displacements in the NetCDF frame are exactly what the substrate of the run answers to the forces in that
frame (with the sign of the substrate, compression negative). -/
theorem C169_written_displacements (hT : ValidTopo T nx ny sx sy) (A : CliArgs) (hA : ValidCli A) (hH : ∀ H, A.hardness = some H → 0 ≤ H)
    (rms : NdArray ℝ → ℝ) (bisect : Bisect) :
    ∀ out ∈ (hardWallCCG T rms bisect A).2, ∃ sub u, cliSubstrate T A = .ok sub ∧
      sub.evaluateDisp ⟨[nx, ny], fun x => -(out.frameFields.2.get x)⟩ = .ok u ∧ out.frameFields.1.shape = [nx, ny] ∧ u.shape = [nx, ny] ∧
      ∀ i < nx, ∀ j < ny, out.frameFields.1.get [i, j] = u.get [i, j] := by
  intro out ho
  obtain ⟨d, l, n, k, -, hs, ⟨o, F, hc⟩, h⟩ := outputs_steps hT A hA _ (cli_fits hT hA rms bisect) (cli_keeps hT hA rms bisect) solverKeywords out ho
  obtain ⟨sub, d0, d1, q, hm, g, -, hq, hres⟩ := cli_ok hT hA hs
  obtain ⟨u, hu, hsh, hux⟩ := ccg_response g (force_hardness_nonneg hT hH hc) hq
    (f := ⟨[nx, ny], fun x => -(out.frameFields.2.get x)⟩) rfl (by
      intro i hi j hj
      show -(out.frameFields.2.get [i, j]) = _
      rw [h.frameForces.2 i hi j hj, hres])
  exact ⟨sub, u, hm, hu, h.frameDispl.1, hsh, fun i hi j hj => by rw [h.frameDispl.2 i hi j hj, hres, hux i hi j hj]⟩

end CM.Cli
