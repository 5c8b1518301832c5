import Verif.Props.CLI4
import Verif.Props.Plastic3
/-!
# C170 plastic runs of the command line under load control
-/
namespace CM.Cli
open Finset CM.HS CM.FFT CM.System CM.Spec CM.Pipe

variable {nx ny : ℕ} {sx sy : ℝ} {T : Topo}

/-- Why a bisection for the rigid body displacement fails: `gap` is the overlap at the points of the grid, `H` the largest and `F` the total force. `ValueError`: the points below the
highest overlap cannot carry the load. `RuntimeError`: two overlaps are `2¹⁰⁰` tolerances apart. -/
def _root_.CM.Spec.BisectionFails (nx ny : ℕ) (gap : ℕ → ℕ → ℝ) (H F : ℝ) (e : PyErr) : Prop :=
  (e = .valueError ∧ ∃ i < nx, ∃ j < ny, (∀ i' < nx, ∀ j' < ny, gap i' j' ≤ gap i j) ∧
    (#{q ∈ range nx ×ˢ range ny | gap q.1 q.2 < gap i j} : ℝ) * H < F) ∨
  (e = .runtimeError ∧ ∃ i < nx, ∃ j < ny, ∃ i' < nx, ∃ j' < ny, 2 / 10 ^ 12 * 2 ^ 100 ≤ gap i' j' - gap i j)

/-- A plastic call under load that does not return. -/
lemma plastic_call_fails {sub : Substrate} {rms : NdArray ℝ → ℝ} {d0 d1 : ℕ} (g : Grid sub nx ny d0 d1) (hnx : 0 < nx) (hny : 0 < ny)
    {h : NdArray ℝ} {H F pt : ℝ} (hF : 0 < F) {mi : ℤ} (hm : 1 ≤ mi) {kw : OptimizerKwargs} {e : PyErr}
    (he : ccgSolver sub rms CCG.scipyBisect kw ⟨h, some H, none, some F, some pt, mi⟩ = .error e) :
    ∃ (n : ℕ) (s : CCG.State (Fin d0 × Fin d1) ℝ) (u : ℕ → ℕ → ℝ),
      CCG.Reach (ccgProblem sub rms d0 d1 nx ny h) (ccgOptions CCG.scipyBisect kw _ ⟨h, some H, none, some F, some pt, mi⟩) pt n s ∧
      (∀ p : Fin d0 × Fin d1, s.u p = u p.1 p.2) ∧ BisectionFails nx ny (fun i j => u i j - h.get [i, j]) H F e := by
  have hce := (ccg_error g).1 he
  obtain ⟨n, s, h1, h2⟩ := CCG.C180_raises (P := ccgProblem sub rms d0 d1 nx ny h)
    (o := ccgOptions CCG.scipyBisect kw _ ⟨h, some H, none, some F, some pt, mi⟩) (H := H) (F := F) (pentol := pt) rfl rfl rfl hF
    ⟨(⟨0, lt_of_lt_of_le hnx g.lex⟩, ⟨0, lt_of_lt_of_le hny g.ley⟩), by simp [ccgProblem, hnx, hny]⟩
    rfl (by show 1 ≤ mi.toNat; omega) hce
  have hcomp : ∀ p : Fin d0 × Fin d1, (ccgProblem sub rms d0 d1 nx ny h).comp p = true ↔ p.1.val < nx ∧ p.2.val < ny := by
    intro p; simp [ccgProblem]
  obtain ⟨U, hv⟩ : ∃ U : ℕ → ℕ → ℝ, ∀ p : Fin d0 × Fin d1, s.u p = U p.1.val p.2.val :=
    ⟨fun i j => if h : i < d0 ∧ j < d1 then s.u (⟨i, h.1⟩, ⟨j, h.2⟩) else 0, fun p => by simp⟩
  simp only [hv] at h2
  refine ⟨n, s, U, h1, hv, ?_⟩
  rcases h2 with ⟨rfl, j, hj, hmax, hb⟩ | ⟨rfl, i, j, hi, hj, hw⟩
  · refine .inl ⟨rfl, j.1, ((hcomp j).1 hj).1, j.2, ((hcomp j).1 hj).2, ?_, ?_⟩
    · intro i' hi' j' hj'
      have := hmax (⟨i', lt_of_lt_of_le hi' g.lex⟩, ⟨j', lt_of_lt_of_le hj' g.ley⟩) ((hcomp _).2 ⟨hi', hj'⟩)
      exact this
    · refine lt_of_eq_of_lt (congrArg (fun n : ℕ => (n : ℝ) * H) ?_) hb
      symm
      refine card_bij (fun p _ => (p.1.val, p.2.val)) ?_ ?_ ?_
      · intro p hp
        simp only [mem_filter, mem_univ, true_and, hcomp] at hp
        simp only [mem_filter, mem_product, mem_range]
        exact hp
      · intro p _ q _ hpq
        simp only [Prod.mk.injEq] at hpq
        exact Prod.ext (Fin.ext hpq.1) (Fin.ext hpq.2)
      · intro q hq
        simp only [mem_filter, mem_product, mem_range] at hq
        refine ⟨(⟨q.1, lt_of_lt_of_le hq.1.1 g.lex⟩, ⟨q.2, lt_of_lt_of_le hq.1.2 g.ley⟩), ?_, rfl⟩
        simp only [mem_filter, mem_univ, true_and, hcomp]
        exact hq
  · refine .inr ⟨rfl, i.1, ((hcomp i).1 hi).1, i.2, ((hcomp i).1 hi).2, j.1, ((hcomp j).1 hj).1, j.2, ((hcomp j).1 hj).2, ?_⟩
    exact hw

/-- **C170** (plastic, pressure mode) A plastic run at positive pressures with a tolerance ends with one written step per pressure; or it ends with `ValueError` or `RuntimeError`,
having written the steps before the one that failed, where the solver reached displacements `u` for which the bisection for the rigid body displacement has no solution in the bracket or does not converge:
the points below the highest overlap cannot carry the load, or two overlaps are `2¹⁰⁰` tolerances apart. -/
theorem C170_plastic_pressures (hT : ValidTopo T nx ny sx sy) (hx : 1 < nx) (hy : 1 < ny) (A : CliArgs) (hA : ValidCli A) (hb : KnownBoundary A)
    (hm : 1 ≤ A.maxiter) {H : ℝ} (hH : A.hardness = some H) (ps : List ℝ) (hpos : ∀ p ∈ ps, 0 < p) (hp : AsksPressures A ps) (h3 : A.displacement = none)
    (rms : NdArray ℝ → ℝ) {pt : ℝ} (hpt : A.pentol = some pt) :
    ∃ r outs, hardWallCCG T rms CCG.scipyBisect A = (r, outs) ∧
      ((r = .ok () ∧ outs.length = ps.length) ∨
       ∃ e, r = .error e ∧ ∃ p, ps[outs.length]? = some p ∧ ∃ sub d0 d1 h n s, ∃ u : ℕ → ℕ → ℝ, cliSubstrate T A = .ok sub ∧ Grid sub nx ny d0 d1 ∧
        CCG.Reach (ccgProblem sub rms d0 d1 nx ny h) (ccgOptions CCG.scipyBisect {} (Fin d0 × Fin d1)
          ⟨h, forceHardness nx ny sx sy A.hardness, none, some (p * (sx * sy)), A.pentol, A.maxiter⟩) pt n s ∧
        (∀ q : Fin d0 × Fin d1, s.u q = u q.1 q.2) ∧
        BisectionFails nx ny (fun i j => u i j - h.get [i, j]) (H * (sx * sy / (nx * ny))) (p * (sx * sy)) e) := by
  obtain ⟨Y, hY⟩ := C116_accepted hT hx hy A hA hb
  have hfit := cli_fits hT hA rms CCG.scipyBisect
  cases hr : hardWallCCG T rms CCG.scipyBisect A with
  | mk r outs =>
    refine ⟨r, outs, rfl, ?_⟩
    cases r with
    | ok o =>
      refine .inl ⟨rfl, ?_⟩
      obtain ⟨D, hD, ho, -⟩ := C114_pressure_run hT A hA _ hfit solverKeywords ps hp h3 (outs := outs) hr
      rw [ho, List.length_map, hD]
    | error e =>
      right
      obtain ⟨D, hD, ho, ⟨h, o, F, ⟨rfl, hF⟩, -, he⟩, -⟩ := C114_pressure_exception hT A hA _ hfit solverKeywords ps hp h3 hY hr
      have hl : outs.length = D.length := by rw [ho, List.length_map]
      obtain ⟨sub, hs⟩ := cli_substrate_ok hY
      refine ⟨e, rfl, ps[D.length], by rw [hl]; exact List.getElem?_eq_getElem hD, ?_⟩
      rw [List.getElem?_eq_getElem hD] at hF
      unfold cliSolver at he
      rw [hs] at he
      dsimp only at he
      rw [hF, hpt, hH] at he
      have hF0 : 0 < ps[D.length] * (sx * sy) := mul_pos (hpos _ (List.getElem_mem hD)) (mul_pos hT.sx_pos hT.sy_pos)
      rcases cli_grid hT hA hs with ⟨-, g⟩ | ⟨-, g⟩
      all_goals
        obtain ⟨n, s, u, hR, hu, hB⟩ := plastic_call_fails g hT.nx_pos hT.ny_pos hF0 hm he
        refine ⟨sub, _, _, h, n, s, u, hs, g, ?_, hu, hB⟩
        rw [hpt, hH]
        exact hR

/-- **C170 is false of the code** for plastic runs under load control: on every surface that does not rise above height zero the run ends with `ValueError` before the first step is
written, if the pressure exceeds the hardness times the fraction of the points above the lowest height. -/
theorem C170_low_surface_partial (hT : ValidTopo T nx ny sx sy) (A : CliArgs) (hA : ValidCli A)
    (hm : 1 ≤ A.maxiter) {H : ℝ} (hH : A.hardness = some H) (hH0 : 0 ≤ H) {pt : ℝ} (hpt : A.pentol = some pt) {p : ℝ} {ps : List ℝ} (hp0 : 0 < p)
    (hp : AsksPressures A (p :: ps)) (h3 : A.displacement = none) (rms : NdArray ℝ → ℝ) {Y : AnySys} (hY : cliSystem T A = .ok Y)
    (hlow : ∀ i < nx, ∀ j < ny, T.heights.get [i, j] ≤ 0) {hmin : ℝ}
    (hex : ∃ i < nx, ∃ j < ny, T.heights.get [i, j] = hmin) (hle : ∀ i < nx, ∀ j < ny, hmin ≤ T.heights.get [i, j])
    (hbear : H * (#{q ∈ range nx ×ˢ range ny | hmin < T.heights.get [q.1, q.2]} / (nx * ny)) < p) :
    hardWallCCG T rms CCG.scipyBisect A = (.error .valueError, []) := by
  obtain ⟨sub, hs⟩ := cli_substrate_ok hY
  have hss : 0 < sx * sy := mul_pos hT.sx_pos hT.sy_pos
  have hap : T.areaPerPt = sx * sy / (nx * ny) := by simp [Topo.areaPerPt, hT.sizes, hT.heights]
  have hsz : T.physicalSizes.prod = sx * sy := by rw [hT.sizes]; simp
  have hcall : cliSolver T rms CCG.scipyBisect A ⟨T.heights, some (H * T.areaPerPt), none, some (p * T.physicalSizes.prod), A.pentol, A.maxiter⟩ = .error .valueError := by
    unfold cliSolver
    rw [hs, hpt]
    have hc : ∀ d0 d1, Grid sub nx ny d0 d1 → ccgSolver sub rms CCG.scipyBisect {}
        ⟨T.heights, some (H * T.areaPerPt), none, some (p * T.physicalSizes.prod), some pt, A.maxiter⟩ = .error .valueError := by
      intro d0 d1 g
      refine low_call rms g ?_ ?_ hm hlow hex hle ?_
      · rw [hap]; positivity
      · rw [hsz]; positivity
      · rw [hap, hsz]
        have := mul_lt_mul_of_pos_right hbear hss
        calc _ = _ := by ring
          _ < _ := this
    rcases cli_grid hT hA hs with ⟨-, g⟩ | ⟨-, g⟩ <;> exact hc _ _ g
  unfold hardWallCCG hardWall
  rw [hY]
  dsimp only
  rw [asks_main hp h3]
  obtain ⟨hr, hh⟩ := cli_system_ready hT hA hY
  have hmin : (Y.minimize (cliSolver T rms CCG.scipyBisect A) none (some (p * T.physicalSizes.prod)) A.pentol A.maxiter).1 = .error .valueError := by
    cases Y with
    | elastic S => 
      exfalso
      unfold cliSystem at hY
      rw [hs, hH] at hY
      simp only [bind, Except.bind] at hY
      split at hY <;> cases hY
    | plastic Y =>
      have hh' : Y.sys.heights = T.heights := hh
      have hYh : Y.hardness = H := by
        unfold cliSystem at hY
        rw [hs, hH] at hY
        simp only [bind, Except.bind] at hY
        split at hY <;> cases hY
        rfl
      simp only [AnySys.minimize]
      unfold plasticMinimizeProxy
      dsimp only
      have hYa : Y.areaPerPt = T.areaPerPt := by
        unfold cliSystem at hY
        rw [hs, hH] at hY
        simp only [bind, Except.bind] at hY
        split at hY <;> cases hY
        rfl
      rw [hh', hYh, hYa, hcall]
      rfl
  unfold pressureLoop
  cases hmm : Y.minimize (cliSolver T rms CCG.scipyBisect A) none (some (p * T.physicalSizes.prod)) A.pentol A.maxiter with
  | mk r Y' =>
    rw [hmm] at hmin
    dsimp only at hmin
    subst hmin
    rfl

/-- Hypotheses of C170 (plastic): three pressures from the command line, nonperiodic. -/
example (rms : NdArray ℝ → ℝ) : ∃ r outs, hardWallCCG demoTopo rms CCG.scipyBisect
    { boundary := "nonperiodic", hardness := some 2, pentol := some 1, pressureFile := some [1, 2, 3] } = (r, outs) ∧
    (r = .ok () ∧ outs.length = 3 ∨ r = .error .valueError ∨ r = .error .runtimeError) := by
  have hv : ValidCli { boundary := "nonperiodic", hardness := some 2, pentol := some 1, pressureFile := some [1, 2, 3] } := by
    refine ⟨?_, ?_, ?_, ?_⟩ <;> norm_num
    simp
  obtain ⟨r, outs, h1, h2⟩ := C170_plastic_pressures demoTopo_valid (by norm_num) (by norm_num) _ hv (.inr ⟨rfl, rfl⟩) (by norm_num) (H := 2) rfl [1, 2, 3]
    (by simp) (.inr (.inr ⟨rfl, rfl⟩)) rfl rms (pt := 1) rfl
  refine ⟨r, outs, h1, ?_⟩
  rcases h2 with ⟨h, h'⟩ | ⟨e, rfl, p, -, sub, d0, d1, h, n, s, u, -, -, -, -, ⟨rfl, -⟩ | ⟨rfl, -⟩⟩
  · exact .inl ⟨h, h'⟩
  · exact .inr (.inl rfl)
  · exact .inr (.inr rfl)

/-- The flat surface of height zero, at a tenth of the hardness. -/
example (rms : NdArray ℝ → ℝ) : hardWallCCG flatTopo180 rms CCG.scipyBisect
    { hardness := some 10, pentol := some 1, pressureFile := some [1] } = (.error .valueError, []) := by
  have hv : ValidCli { hardness := some 10, pentol := some 1, pressureFile := some [1] } := by
    refine ⟨?_, ?_, ?_, ?_⟩ <;> norm_num
    simp
  have hT : ValidTopo flatTopo180 3 4 1 2 := by constructor <;> first | rfl | norm_num
  obtain ⟨Y, hY⟩ := C116_accepted hT (by norm_num) (by norm_num) _ hv (.inl rfl)
  exact C170_low_surface_partial hT _ hv (by norm_num) (H := 10) rfl (by norm_num) (pt := 1) rfl (p := 1) (ps := []) (by norm_num) (.inr (.inr ⟨rfl, rfl⟩)) rfl
    rms hY (fun _ _ _ _ => le_rfl) (hmin := 0) ⟨0, by norm_num, 0, by norm_num, rfl⟩ (fun _ _ _ _ => le_rfl) (by simp [flatTopo180])

end CM.Cli
