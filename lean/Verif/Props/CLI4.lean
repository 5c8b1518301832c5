import Verif.Props.CLI3
import Verif.Props.FullContact
/-!
# The command line front-end with the package's own solver: runs return (C170)
-/
namespace CM.Cli
open Finset CM.HS CM.FFT CM.System CM.Spec CM.Pipe

variable {nx ny : ℕ} {sx sy : ℝ} {T : Topo}

/-! ## C170 -/

/-- A boundary condition the front-end knows. -/
def _root_.CM.Spec.KnownBoundary (A : CliArgs) : Prop := A.boundary = "periodic" ∨ (A.boundary = "nonperiodic" ∧ A.thickness = none)

lemma cli_substrate_ok {A : CliArgs} {Y : AnySys} (hY : cliSystem T A = .ok Y) : ∃ sub, cliSubstrate T A = .ok sub := by
  unfold cliSystem at hY
  cases hc : cliSubstrate T A with
  | error e => rw [hc] at hY; cases hY
  | ok s => exact ⟨s, rfl⟩

/-- A call of the solver returns if the tolerance can be determined. -/
lemma cli_call_returns (hT : ValidTopo T nx ny sx sy) {A : CliArgs} (hA : ValidCli A) {Y : AnySys} (hY : cliSystem T A = .ok Y)
    (rms : NdArray ℝ → ℝ) (bisect : Bisect) (c : Call) (hm : 1 ≤ c.maxiter) (hF : c.hardness = none ∨ c.externalForce = none)
    (hp : c.pentol.isSome ∨ c.offset.isSome ∨ 0 < rms c.heights) : ∃ r, cliSolver T rms bisect A c = .ok r := by
  obtain ⟨sub, hs⟩ := cli_substrate_ok hY
  have key : ∀ d0 d1, Grid sub nx ny d0 d1 → ∃ r, cliSolver T rms bisect A c = .ok r := by
    intro d0 d1 g
    have hmax : 1 ≤ (ccgOptions bisect {} (Fin d0 × Fin d1) c).maxiter := by
      show 1 ≤ c.maxiter.toNat
      omega
    have hpt : ∃ p, CCG.pentolOf (ccgProblem sub rms d0 d1 nx ny c.heights) (ccgOptions bisect {} _ c) = .ok p := by
      cases hc : c.pentol with
      | some p => exact ⟨p, by simp only [CCG.pentolOf, ccgOptions, hc]⟩
      | none =>
        cases ho : c.offset with
        | some x =>
          simp only [CCG.pentolOf, ccgOptions, hc, ho]
          split_ifs
          · exact ⟨_, rfl⟩
          · exact ⟨_, rfl⟩
          · exact ⟨_, rfl⟩
        | none =>
          rw [hc, ho] at hp
          simp only [Option.isSome_none, Bool.false_eq_true, false_or] at hp
          have hnx : (0 : ℝ) < nx := by exact_mod_cast hT.nx_pos
          have hny : (0 : ℝ) < ny := by exact_mod_cast hT.ny_pos
          obtain ⟨p, h, -⟩ := CCG.C47_default_pentol_partial (P := ccgProblem sub rms d0 d1 nx ny c.heights) (o := ccgOptions bisect {} _ c)
            hc hp (show (0 : ℝ) < ((nx : ℝ) + ny) / 2 by positivity)
          exact ⟨p, h⟩
    obtain ⟨p, hpt⟩ := hpt
    have : ∃ r, CCG.solve (ccgProblem sub rms d0 d1 nx ny c.heights) (ccgOptions bisect {} _ c) = .ok r := by
      cases hcH : c.hardness with
      | none => exact CCG.C161_elastic_solver_returns (by simp only [ccgOptions, hcH]) hpt hmax
      | some H =>
        rcases hF with hF | hF
        · rw [hF] at hcH; cases hcH
        · exact CCG.C46_scalar_hardness_partial (H := H) (by simp only [ccgOptions, hcH]) hF hpt hmax
    obtain ⟨r, hr⟩ := this
    refine ⟨ccgResult nx ny r, ?_⟩
    unfold cliSolver
    rw [hs]
    exact (ccg_ok g).2 ⟨r, hr, rfl⟩
  rcases cli_grid hT hA hs with ⟨-, g⟩ | ⟨-, g⟩ <;> exact key _ _ g

/-- **C170** (automatic mode) With at least one iteration and a known boundary condition the front-end runs to its end, elastic or plastic, and writes
all twenty steps. -/
theorem C170_automatic_returns (hT : ValidTopo T nx ny sx sy) (hx : 1 < nx) (hy : 1 < ny) (A : CliArgs) (hA : ValidCli A) (hb : KnownBoundary A)
    (hm : 1 ≤ A.maxiter) (h1 : A.pressure = none) (h2 : A.pressureFile = none) (h3 : A.displacement = none)
    (rms : NdArray ℝ → ℝ) (bisect : Bisect) : ∃ outs, hardWallCCG T rms bisect A = (.ok (), outs) ∧ outs.length = 20 := by
  obtain ⟨Y, hY⟩ := C116_accepted hT hx hy A hA hb
  have hfit := cli_fits hT hA rms bisect
  have hkeep := cli_keeps hT hA rms bisect
  have hmain : hardWallCCG T rms bisect A = match autoLoop T.physicalSizes T.areaPerPt (cliSolver T rms bisect A) A autoSteps autoSteps 0 Y none with
      | (.error e, outs) => (.error e, outs)
      | (.ok _, outs) => (.ok (), outs) := by
    unfold hardWallCCG hardWall
    rw [hY]
    simp only [mainModes, h1, h2, h3, Option.isSome_none, Bool.false_eq_true, or_self, if_false]
    rfl
  cases hr : autoLoop T.physicalSizes T.areaPerPt (cliSolver T rms bisect A) A autoSteps autoSteps 0 Y none with
  | mk r outs =>
    rw [hr] at hmain
    cases r with
    | ok o =>
      refine ⟨outs, hmain, ?_⟩
      obtain ⟨D, hD, ho, -⟩ := C65_automatic_run hT A hA _ hfit hkeep solverKeywords h1 h2 h3 (outs := outs) hmain
      rw [ho, List.length_map, hD]
    | error e =>
      exfalso
      obtain ⟨D, -, -, -, h, o, F, ⟨⟨x, rfl, -⟩, rfl⟩, -, he⟩ := C65_exception hT A hA _ hfit hkeep hY autoSteps autoSteps hr
      obtain ⟨r, hr⟩ := cli_call_returns hT hA hY rms bisect ⟨h, forceHardness nx ny sx sy A.hardness, some x, none, A.pentol, A.maxiter⟩
        hm (.inr rfl) (.inr (.inl rfl))
      rw [hr] at he
      cases he

/-- **C170** (pressure mode) An elastic run under load control ends and writes one step per pressure, if a tolerance is given or the surface is rough. -/
theorem C170_pressures_return (hT : ValidTopo T nx ny sx sy) (hx : 1 < nx) (hy : 1 < ny) (A : CliArgs) (hA : ValidCli A) (hb : KnownBoundary A)
    (hm : 1 ≤ A.maxiter) (hH : A.hardness = none) (ps : List ℝ) (hp : AsksPressures A ps) (h3 : A.displacement = none)
    (rms : NdArray ℝ → ℝ) (hrms : A.pentol.isSome ∨ 0 < rms T.heights) (bisect : Bisect) :
    ∃ outs, hardWallCCG T rms bisect A = (.ok (), outs) ∧ outs.length = ps.length := by
  obtain ⟨Y, hY⟩ := C116_accepted hT hx hy A hA hb
  have hfit := cli_fits hT hA rms bisect
  cases hr : hardWallCCG T rms bisect A with
  | mk r outs =>
    cases r with
    | ok o =>
      refine ⟨outs, rfl, ?_⟩
      obtain ⟨D, hD, ho, -⟩ := C114_pressure_run hT A hA _ hfit solverKeywords ps hp h3 (outs := outs) hr
      rw [ho, List.length_map, hD]
    | error e =>
      exfalso
      obtain ⟨D, -, -, ⟨h, o, F, -, hh, he⟩, -⟩ := C114_pressure_exception hT A hA _ hfit solverKeywords ps hp h3 hY hr
      obtain ⟨r, hr⟩ := cli_call_returns hT hA hY rms bisect ⟨h, forceHardness nx ny sx sy A.hardness, o, F, A.pentol, A.maxiter⟩
        hm (.inl (by simp [forceHardness, hH])) (by
          rcases hrms with k | k
          · exact .inl k
          · exact .inr (.inr (by rw [← hh hH] at k; exact k)))
      rw [hr] at he
      cases he

/-- **C170 is false of the code** for flat surfaces: under load control and without `--pentol` an elastic or plastic run on a surface without roughness ends with
`TypeError` before the first step is written, whatever the pressures. -/
theorem C170_flat_pressure_partial (hT : ValidTopo T nx ny sx sy) (A : CliArgs) (hA : ValidCli A)
    (hpt : A.pentol = none) (p : ℝ) (ps : List ℝ) (hp : AsksPressures A (p :: ps)) (h3 : A.displacement = none)
    (rms : NdArray ℝ → ℝ) (hrms : rms T.heights = 0) (bisect : Bisect) {Y : AnySys} (hY : cliSystem T A = .ok Y) :
    hardWallCCG T rms bisect A = (.error .typeError, []) := by
  have hfit := cli_fits hT hA rms bisect
  obtain ⟨sub, hs⟩ := cli_substrate_ok hY
  have hfail : ∀ c : Call, c.heights = T.heights → c.pentol = none → c.offset = none → cliSolver T rms bisect A c = .error .typeError := by
    intro c hc1 hc2 hc3
    have key : ∀ d0 d1, Grid sub nx ny d0 d1 → cliSolver T rms bisect A c = .error .typeError := by
      intro d0 d1 g
      have := CCG.C47_flat_no_offset_fails (P := ccgProblem sub rms d0 d1 nx ny c.heights) (o := ccgOptions bisect {} _ c)
        hc2 (by show rms c.heights = 0; rw [hc1, hrms]) hc3
      unfold cliSolver
      rw [hs]
      dsimp only
      unfold ccgSolver
      rw [g.dom, g.topo]
      dsimp only
      rw [this]
    rcases cli_grid hT hA hs with ⟨-, g⟩ | ⟨-, g⟩ <;> exact key _ _ g
  unfold hardWallCCG hardWall
  rw [hY]
  dsimp only
  rw [asks_main hp h3]
  obtain ⟨hr, hh⟩ := cli_system_ready hT hA hY
  have hmin : (Y.minimize (cliSolver T rms bisect A) none (some (p * T.physicalSizes.prod)) A.pentol A.maxiter).1 = .error .typeError := by
    cases Y with
    | elastic S =>
      have hh' : S.heights = T.heights := hh
      simp only [AnySys.minimize]
      rw [hfail _ hh' hpt rfl]
      rfl
    | plastic Y =>
      have hh' : Y.sys.heights = T.heights := hh
      simp only [AnySys.minimize]
      unfold plasticMinimizeProxy
      dsimp only
      rw [hfail _ hh' hpt rfl]
      rfl
  unfold pressureLoop
  cases hmm : Y.minimize (cliSolver T rms bisect A) none (some (p * T.physicalSizes.prod)) A.pentol A.maxiter with
  | mk r Y' =>
    rw [hmm] at hmin
    dsimp only at hmin
    subst hmin
    rfl

/-- Hypotheses of C170: plastic, automatic, nonperiodic, with maps; elastic under load control; a flat surface. -/
example (rms : NdArray ℝ → ℝ) (bisect : Bisect) :
    (∃ outs, hardWallCCG demoTopo rms bisect { boundary := "nonperiodic", hardness := some 2, maps := [some "c", some "p", none, some "g"] } = (.ok (), outs) ∧
      outs.length = 20) ∧
    (∃ outs, hardWallCCG demoTopo rms bisect { pentol := some 1, pressureFile := some [1, 2] } = (.ok (), outs) ∧ outs.length = 2) ∧
    hardWallCCG demoTopo (fun _ => 0) bisect { pressureFile := some [1, 2] } = (.error .typeError, []) := by
  have hv : ∀ (b : String) (h : Option ℝ) (p : Option ℝ) (m : List (Option String)) (f : Option (List ℝ)),
      ValidCli { boundary := b, hardness := h, pentol := p, maps := m, pressureFile := f } := by
    intro b h p m f
    refine ⟨?_, ?_, ?_, ?_⟩ <;> norm_num
    simp
  refine ⟨?_, ?_, ?_⟩
  · exact C170_automatic_returns demoTopo_valid (by norm_num) (by norm_num) _ (hv _ _ none _ none) (.inr ⟨rfl, rfl⟩) (by norm_num) rfl rfl rfl _ _
  · exact C170_pressures_return demoTopo_valid (by norm_num) (by norm_num) _ (hv _ none _ _ _) (.inl rfl) (by norm_num) rfl [1, 2]
      (.inr (.inr ⟨rfl, rfl⟩)) rfl _ (.inl rfl) _
  · obtain ⟨Y, hY⟩ := C116_accepted demoTopo_valid (by norm_num) (by norm_num) { pressureFile := some [1, 2] } (hv "periodic" none none [none, none, none, none] _) (.inl rfl)
    exact C170_flat_pressure_partial demoTopo_valid _ (hv _ none none _ _) rfl 1 [2] (.inr (.inr ⟨rfl, rfl⟩)) rfl _ rfl _ hY

/-- Hypotheses of C166 and C169: a run with all four maps, all of whose steps were written. -/
example (rms : NdArray ℝ → ℝ) (bisect : Bisect) : ∃ out ∈ (hardWallCCG demoTopo rms bisect
    { boundary := "nonperiodic", hardness := some 2, maps := [some "c", some "p", some "d", some "g"] }).2,
    ∃ ending a, ("c" ++ ending, a) ∈ out.fields := by
  have hv : ValidCli { boundary := "nonperiodic", hardness := some 2, maps := [some "c", some "p", some "d", some "g"] } := by
    refine ⟨?_, ?_, ?_, ?_⟩ <;> norm_num
    simp
  obtain ⟨outs, h1, h2⟩ := C170_automatic_returns demoTopo_valid (by norm_num) (by norm_num) _ hv (.inr ⟨rfl, rfl⟩) (by norm_num) rfl rfl rfl rms bisect
  rw [h1]
  cases outs with
  | nil => simp at h2
  | cons out outs =>
    refine ⟨out, by simp, ?_⟩
    obtain ⟨ending, a, h, -⟩ := C166_contact_map_padded_partial demoTopo_valid _ hv rfl rms bisect (fn := "c") rfl out (by rw [h1]; simp)
    exact ⟨ending, a, h⟩

/-! ## C169, load -/

/-- **C169** (pressure mode) The forces written for a step whose solver call converged carry the pressure asked for, and recorded in the NetCDF frame, up to the
relative tolerance `10⁻⁶`. -/
theorem C169_written_load (hT : ValidTopo T nx ny sx sy) (A : CliArgs) (hA : ValidCli A) (hH : ∀ H, A.hardness = some H → 0 ≤ H) (ps : List ℝ)
    (hp : AsksPressures A ps) (h3 : A.displacement = none) (rms : NdArray ℝ → ℝ) (bisect : Bisect) {outs : List Output}
    (h : hardWallCCG T rms bisect A = (.ok (), outs)) :
    outs.length = ps.length ∧ ∃ D : List CliStep, outs = D.map CliStep.output ∧ (∀ d ∈ D, cliSolver T rms bisect A d.call = .ok d.result) ∧
      ∀ (k : ℕ) (p : ℝ) (d : CliStep), ps[k]? = some p → D[k]? = some d → d.output.frame.2.1 = p ∧
        (d.result.success = true → ∃ m, m = total nx ny d.output.frameFields.2 / (sx * sy) ∧ d.output.log[4]? = some m ∧ m ≠ 0 ∧ |m - p| < 1e-6 * |m|) := by
  obtain ⟨D, hl, ho, hR⟩ := C114_pressure_run hT A hA _ (cli_fits hT hA rms bisect) solverKeywords ps hp h3 h
  refine ⟨by rw [ho, List.length_map, hl], D, ho, hR.solved, fun k p d hpk hd => ?_⟩
  obtain ⟨l, hl', hm⟩ := hR.output k d hd
  have hlp : l = p := by
    have : ps[k]? = some l := hl'
    rw [hpk] at this; cases this; rfl
  refine ⟨by rw [hm.frame]; exact hlp, fun hs => ?_⟩
  obtain ⟨o, F, ⟨rfl, hF⟩, hc⟩ := hR.call k d hd
  rw [hpk] at hF
  obtain ⟨sub, d0, d1, q, -, g, -, hq, hres⟩ := cli_ok hT hA (hR.solved d (List.mem_of_getElem? hd))
  have hHn := hardness_nonneg (kw := {}) (bisect := bisect) (ι := Fin d0 × Fin d1) (force_hardness_nonneg hT hH hc)
  have hF' : (ccgOptions bisect {} (Fin d0 × Fin d1) d.call).externalForce = some (p * (sx * sy)) := by
    show d.call.externalForce = _
    rw [hc, hF]; rfl
  have hsucc : q.success = true := by rw [hres] at hs; exact hs
  obtain ⟨hn, hlt⟩ := CCG.C34_load_met hHn (fun _ h => h) hq hF' hsucc
  have hoff : ∀ p : Fin d0 × Fin d1, ¬ (p.1.val < nx ∧ p.2.val < ny) → q.jac p = 0 := by
    intro p hp
    exact CCG.jac_off hHn hq p (by simp only [ccgProblem, ← Bool.decide_and]; simpa using hp)
  rw [sum_grid g.lex g.ley _ hoff] at hn hlt
  have hA : 0 < sx * sy := mul_pos hT.sx_pos hT.sy_pos
  have ht : total nx ny d.output.frameFields.2 = total nx ny (fieldArray d0 d1 q.jac) := by
    rw [total_congr hm.frameForces.2, hres]; rfl
  refine ⟨_, rfl, ?_, ?_, ?_⟩
  · rw [hm.log]
    simp only [logLine, List.getElem?_cons_succ, List.getElem?_cons_zero]
    rw [total_congr hm.frameForces.2]
  · rw [ht]; exact div_ne_zero hn hA.ne'
  · rw [ht]
    have e1 : total nx ny (fieldArray d0 d1 q.jac) / (sx * sy) - p
        = (total nx ny (fieldArray d0 d1 q.jac) - p * (sx * sy)) / (sx * sy) := by
      rw [sub_div, mul_div_assoc, div_self hA.ne', mul_one]
    rw [e1, abs_div, abs_div, abs_of_pos hA, div_lt_iff₀ hA]
    have e2 : (ccgOptions bisect {} (Fin d0 × Fin d1) d.call).thermotol = 1e-6 := by
      show (1 / 1000000 : ℝ) = 1e-6
      norm_num
    rw [e2] at hlt
    calc _ < _ := hlt
      _ = _ := by rw [mul_assoc, div_mul_cancel₀ _ hA.ne']

end CM.Cli
