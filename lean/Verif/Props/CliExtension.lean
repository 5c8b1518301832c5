import Verif.Spec.CliExtension
import Verif.Props.CLI4
/-!
# C207: command line runs can be extended
-/
namespace CM.Cli
open CM.HS CM.FFT CM.System CM.Spec CM.Pipe

lemma pressureLoop_cons (sizes : List ℝ) (a : ℝ) (solver : Solver) (A : CliArgs) (n i : ℕ) (Y : AnySys) (p : ℝ) (ps : List ℝ) :
    pressureLoop sizes a solver A n i Y (p :: ps) = match Y.minimize solver none (some (p * sizes.prod)) A.pentol A.maxiter with
    | (.error e, _) => (.error e, [])
    | (.ok opt, Y') =>
      match cutToForce opt.x opt.jac with
      | .error e => (.error e, [])
      | .ok u => ((pressureLoop sizes a solver A n (i + 1) Y' ps).1,
          ⟨dump sizes a Y'.heights u opt.jac opt.offset, (opt.offset, p, (countPositive opt.jac : ℝ) / (Y'.heights.shape.prod : ℕ)), writeMaps (suffix n i) A.maps (dump sizes a Y'.heights u opt.jac opt.offset), (u, opt.jac),
            writeFields (suffix n i) A.maps (mapFields a Y'.heights opt.activeSet u opt.jac opt.offset)⟩ :: (pressureLoop sizes a solver A n (i + 1) Y' ps).2) := by
  rw [pressureLoop]
  split
  · rename_i e; rw [e]
  · rename_i opt Y' e
    rw [e]
    dsimp only
    split
    · rename_i e'; rw [e']
    · rename_i u e'; rw [e']

lemma writeMaps_snd {α : Type} (s s' : String) : ∀ (ns : List (Option String)) (d : List α), (writeMaps s ns d).map Prod.snd = (writeMaps s' ns d).map Prod.snd := by
  intro ns
  induction ns with
  | nil => intro d; rfl
  | cons n ns ih =>
    intro d
    cases n with
    | none => exact ih d
    | some fn => simp [writeMaps, ih []]

lemma writeFields_snd (s s' : String) : ∀ (ns : List (Option String)) (d : List (NdArray ℝ)), (writeFields s ns d).map Prod.snd = (writeFields s' ns d).map Prod.snd := by
  intro ns
  induction ns with
  | nil => intro d; simp [writeFields]
  | cons n ns ih =>
    intro d
    cases d with
    | nil => cases n <;> simp [writeFields]
    | cons a d =>
      cases n with
      | none => simp [writeFields, ih d]
      | some fn => simp [writeFields, ih d]

/-- The loop does not depend on the pressures named in the arguments, and on the number of steps only through the names of the files. -/
lemma pressureLoop_congr (sizes : List ℝ) (a : ℝ) (solver : Solver) (A B : CliArgs) (h1 : A.pentol = B.pentol) (h2 : A.maxiter = B.maxiter) (h3 : A.maps = B.maps) (n m : ℕ) :
    ∀ (ps : List ℝ) (i : ℕ) (Y : AnySys), (pressureLoop sizes a solver A n i Y ps).1 = (pressureLoop sizes a solver B m i Y ps).1
      ∧ (pressureLoop sizes a solver A n i Y ps).2.map Written = (pressureLoop sizes a solver B m i Y ps).2.map Written
      ∧ ((∀ j, suffix n j = suffix m j) → (pressureLoop sizes a solver A n i Y ps).2 = (pressureLoop sizes a solver B m i Y ps).2) := by
  intro ps
  induction ps with
  | nil => intro i Y; exact ⟨rfl, rfl, fun _ => rfl⟩
  | cons p ps ih =>
    intro i Y
    rw [pressureLoop_cons, pressureLoop_cons, h1, h2, h3]
    split
    · exact ⟨rfl, rfl, fun _ => rfl⟩
    · rename_i opt Y' _
      split
      · exact ⟨rfl, rfl, fun _ => rfl⟩
      · rename_i u _
        obtain ⟨i1, i2, i3⟩ := ih (i + 1) Y'
        refine ⟨i1, ?_, fun hs => ?_⟩
        · simp only [List.map_cons, i2, List.cons.injEq, and_true]
          simp only [Written, Prod.mk.injEq, true_and]
          exact ⟨writeMaps_snd _ _ _ _, writeFields_snd _ _ _ _⟩
        · rw [i3 hs, hs i]

/-- The loop over more pressures is the loop over the first ones, and then over the rest. -/
lemma pressureLoop_append (sizes : List ℝ) (a : ℝ) (solver : Solver) (A : CliArgs) (n : ℕ) (more : List ℝ) : ∀ (ps : List ℝ) (i : ℕ) (Y : AnySys),
    (∀ e outs, pressureLoop sizes a solver A n i Y ps = (.error e, outs) → pressureLoop sizes a solver A n i Y (ps ++ more) = (.error e, outs))
    ∧ ∀ outs, pressureLoop sizes a solver A n i Y ps = (.ok (), outs) → ∃ Y', pressureLoop sizes a solver A n i Y (ps ++ more)
      = ((pressureLoop sizes a solver A n (i + ps.length) Y' more).1, outs ++ (pressureLoop sizes a solver A n (i + ps.length) Y' more).2) := by
  intro ps
  induction ps with
  | nil =>
    intro i Y
    refine ⟨fun e outs h => ?_, fun outs h => ?_⟩
    · simp [pressureLoop] at h
    · simp only [pressureLoop, Prod.mk.injEq, true_and] at h
      subst h
      exact ⟨Y, rfl⟩
  | cons p ps ih =>
    intro i Y
    rw [List.cons_append, pressureLoop_cons, pressureLoop_cons]
    split
    · exact ⟨fun e outs h => h, fun outs h => (by injection h with h _; cases h)⟩
    · rename_i opt Y' _
      split
      · exact ⟨fun e outs h => h, fun outs h => (by injection h with h _; cases h)⟩
      · rename_i u _
        obtain ⟨i1, i2⟩ := ih (i + 1) Y'
        cases hr : pressureLoop sizes a solver A n (i + 1) Y' ps with
        | mk r outs =>
          cases r with
          | error e =>
            rw [i1 e outs hr]
            exact ⟨fun e' outs' h => h, fun outs' h => (by injection h with h _; cases h)⟩
          | ok v =>
            obtain ⟨Y'', e⟩ := i2 outs hr
            rw [e]
            refine ⟨fun e' outs' h => (by injection h with h _; cases h), fun outs' h => ⟨Y'', ?_⟩⟩
            injection h with _ h
            subst h
            rw [List.length_cons, show i + (ps.length + 1) = i + 1 + ps.length by ring]
            rfl

lemma pressureLoop_one_error (sizes : List ℝ) (a : ℝ) (solver : Solver) (A : CliArgs) (n i : ℕ) (Y : AnySys) (p : ℝ) (e : PyErr) (outs : List Output)
    (h : pressureLoop sizes a solver A n i Y [p] = (.error e, outs)) : outs = [] := by
  rw [pressureLoop_cons] at h
  split at h
  · injection h with _ h; exact h.symm
  · split at h
    · injection h with _ h; exact h.symm
    · injection h with h _; simp [pressureLoop] at h

lemma hardWall_pressureFile (T : Topo) (acc : List String) (solver : Solver) (A : CliArgs) (ps : List ℝ) (h1 : A.pressure = none) (h2 : A.displacement = none) (h3 : A.pressureFile = some ps) :
    hardWall T acc solver A = match cliSystem T A with
      | .error e => (.error e, [])
      | .ok Y => pressureLoop T.physicalSizes T.areaPerPt solver A ps.length 0 Y ps := by
  unfold hardWall mainModes
  simp [h1, h2, h3]
  cases cliSystem T A <;> rfl

/-- **C207.**  `ce_hard_wall` with the pressures of a file: a run with further pressures at the end of the file writes first what the run without them writes -- log line, NetCDF frame and map files, step
by step -- then the steps of the further pressures; … -/
theorem C207_begins (T : Topo) (acc : List String) (solver : Solver) (A : CliArgs) (ps more : List ℝ) (h1 : A.pressure = none) (h2 : A.displacement = none) (h3 : A.pressureFile = some ps)
    (outs : List Output) (h : hardWall T acc solver A = (.ok (), outs)) :
    ∃ first rest, (hardWall T acc solver { A with pressureFile := some (ps ++ more) }).2 = first ++ rest ∧ first.map Written = outs.map Written ∧ (2 ≤ ps.length → first = outs) := by
  rw [hardWall_pressureFile T acc solver A ps h1 h2 h3] at h
  rw [hardWall_pressureFile T acc solver { A with pressureFile := some (ps ++ more) } (ps ++ more) h1 h2 rfl]
  have hY : cliSystem T { A with pressureFile := some (ps ++ more) } = cliSystem T A := rfl
  rw [hY]
  cases hs : cliSystem T A with
  | error e => rw [hs] at h; injection h with h _; cases h
  | ok Y =>
    rw [hs] at h
    dsimp only at h ⊢
    obtain ⟨c1, c2, c3⟩ := pressureLoop_congr T.physicalSizes T.areaPerPt solver { A with pressureFile := some (ps ++ more) } A rfl rfl rfl (ps ++ more).length ps.length ps 0 Y
    rw [h] at c1 c2 c3
    cases hr : pressureLoop T.physicalSizes T.areaPerPt solver { A with pressureFile := some (ps ++ more) } (ps ++ more).length 0 Y ps with
    | mk r first =>
      rw [hr] at c1 c2 c3
      obtain ⟨Y', e⟩ := (pressureLoop_append T.physicalSizes T.areaPerPt solver { A with pressureFile := some (ps ++ more) } (ps ++ more).length more ps 0 Y).2 first (by rw [hr]; exact congrArg (·, first) c1)
      refine ⟨first, _, by rw [e], c2, fun hl => c3 fun j => ?_⟩
      simp only [suffix, List.length_append]
      rw [if_neg (by omega), if_neg (by omega)]

/-- **C207.**  … if the shorter run raises, so does the longer one, the same exception after the same output. -/
theorem C207_raises (T : Topo) (acc : List String) (solver : Solver) (A : CliArgs) (ps more : List ℝ) (h1 : A.pressure = none) (h2 : A.displacement = none) (h3 : A.pressureFile = some ps)
    (e : PyErr) (outs : List Output) (h : hardWall T acc solver A = (.error e, outs)) :
    hardWall T acc solver { A with pressureFile := some (ps ++ more) } = (.error e, outs) := by
  rw [hardWall_pressureFile T acc solver A ps h1 h2 h3] at h
  rw [hardWall_pressureFile T acc solver { A with pressureFile := some (ps ++ more) } (ps ++ more) h1 h2 rfl]
  have hY : cliSystem T { A with pressureFile := some (ps ++ more) } = cliSystem T A := rfl
  rw [hY]
  cases hs : cliSystem T A with
  | error e => rw [hs] at h; exact h
  | ok Y =>
    rw [hs] at h
    dsimp only at h ⊢
    obtain ⟨c1, c2, c3⟩ := pressureLoop_congr T.physicalSizes T.areaPerPt solver { A with pressureFile := some (ps ++ more) } A rfl rfl rfl (ps ++ more).length ps.length ps 0 Y
    refine (pressureLoop_append T.physicalSizes T.areaPerPt solver { A with pressureFile := some (ps ++ more) } (ps ++ more).length more ps 0 Y).1 e outs ?_
    rw [h] at c1 c2 c3
    refine Prod.ext c1 ?_
    match ps, h, c2, c3 with
    | [], h, _, _ => simp [pressureLoop] at h
    | [p], h, c2, _ =>
      have ho := pressureLoop_one_error _ _ _ _ _ _ _ _ _ _ h
      rw [ho] at c2
      rw [ho]
      simpa using c2
    | p :: q :: ps, h, _, c3 =>
      refine c3 fun j => ?_
      simp only [suffix, List.length_append, List.length_cons]
      rw [if_neg (by omega), if_neg (by omega)]

/-- **C207** (with the solver of the package). -/
theorem C207_calculation (T : Topo) (rms : NdArray ℝ → ℝ) (bisect : Bisect) (A : CliArgs) (ps more : List ℝ) (h1 : A.pressure = none) (h2 : A.displacement = none) (h3 : A.pressureFile = some ps) :
    (∀ outs, hardWallCCG T rms bisect A = (.ok (), outs) →
      ∃ first rest, (hardWallCCG T rms bisect { A with pressureFile := some (ps ++ more) }).2 = first ++ rest ∧ first.map Written = outs.map Written ∧ (2 ≤ ps.length → first = outs)) ∧
    ∀ e outs, hardWallCCG T rms bisect A = (.error e, outs) → hardWallCCG T rms bisect { A with pressureFile := some (ps ++ more) } = (.error e, outs) :=
  ⟨fun outs h => C207_begins T _ _ A ps more h1 h2 h3 outs h, fun e outs h => C207_raises T _ _ A ps more h1 h2 h3 e outs h⟩

/-- Runs to which the theorems apply: one that returns, with one written step per pressure, and one that raises. -/
example (rms : NdArray ℝ → ℝ) (bisect : Bisect) :
    (∃ outs, hardWallCCG demoTopo rms bisect { pentol := some 1, pressureFile := some [1, 2], maps := [some "c", none, none, none] } = (.ok (), outs) ∧ outs.length = 2) ∧
    hardWallCCG demoTopo (fun _ => 0) bisect { pressureFile := some [1, 2] } = (.error .typeError, []) := by
  have hv : ∀ (b : String) (h : Option ℝ) (p : Option ℝ) (m : List (Option String)) (f : Option (List ℝ)),
      ValidCli { boundary := b, hardness := h, pentol := p, maps := m, pressureFile := f } := by
    intro b h p m f
    refine ⟨?_, ?_, ?_, ?_⟩ <;> norm_num
    simp
  refine ⟨?_, ?_⟩
  · exact C170_pressures_return demoTopo_valid (by norm_num) (by norm_num) _ (hv _ none _ _ _) (.inl rfl) (by norm_num) rfl [1, 2]
      (.inr (.inr ⟨rfl, rfl⟩)) rfl _ (.inl rfl) _
  · obtain ⟨Y, hY⟩ := C116_accepted demoTopo_valid (by norm_num) (by norm_num) { pressureFile := some [1, 2] } (hv "periodic" none none [none, none, none, none] _) (.inl rfl)
    exact C170_flat_pressure_partial demoTopo_valid _ (hv _ none none _ _) rfl 1 [2] (.inr (.inr ⟨rfl, rfl⟩)) rfl _ rfl _ hY

end CM.Cli
