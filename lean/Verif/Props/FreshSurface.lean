import Verif.Spec.FreshSurface
import Verif.Props.CLI4
/-!
# C214: automatic plastic steps and the undeformed surface
-/
namespace CM.Cli
open CM.HS CM.FFT CM.System CM.Spec CM.Pipe

/-- The surface the system was made of. -/
def baseOf : AnySys → NdArray ℝ
  | .elastic S => S.heights
  | .plastic P => P.base

lemma reset_heights (Y : AnySys) : Y.resetPlastic.heights = baseOf Y := by
  cases Y with
  | elastic S => rfl
  | plastic P =>
    show (⟨P.base.shape, fun x => P.base.get x + (P.plasticDispl.map fun _ => (0 : ℝ)).get x⟩ : NdArray ℝ) = P.base
    simp [NdArray.map]

lemma reset_base (Y : AnySys) : baseOf Y.resetPlastic = baseOf Y := by cases Y <;> rfl

lemma minimizeProxy_heights (S : Sys) (x : Except PyErr OptResult) : (minimizeProxy S x).2.heights = S.heights := by
  unfold minimizeProxy
  cases x with
  | error e => rfl
  | ok r =>
    dsimp only
    by_cases hs : r.success = true
    · rw [if_pos hs]
      split <;> rfl
    · rw [if_neg hs]; rfl

lemma minimize_base (Y : AnySys) (solver : Solver) (off ext pt : Option ℝ) (mi : ℤ) : baseOf (Y.minimize solver off ext pt mi).2 = baseOf Y := by
  cases Y with
  | elastic S => exact minimizeProxy_heights S _
  | plastic P =>
    have h : ∀ f, (plasticMinimizeProxy P f).2.base = P.base := by
      intro f
      unfold plasticMinimizeProxy
      dsimp only
      split
      · rfl
      · split_ifs
        · split <;> rfl
        · rfl
    have h' := h fun H => solver ⟨P.sys.heights, some H, off, ext, pt, mi⟩
    unfold AnySys.minimize
    dsimp only
    generalize plasticMinimizeProxy P (fun H => solver ⟨P.sys.heights, some H, off, ext, pt, mi⟩) = z at *
    obtain ⟨r, P'⟩ := z
    exact h'

lemma minimize_congr {Y : AnySys} {s s' : Solver} (h : ∀ c, c.heights = Y.heights → s c = s' c) (off ext pt : Option ℝ) (mi : ℤ) :
    Y.minimize s off ext pt mi = Y.minimize s' off ext pt mi := by
  cases Y with
  | elastic S =>
    unfold AnySys.minimize
    dsimp only
    rw [h _ rfl]
  | plastic P =>
    have : (fun H => s ⟨P.sys.heights, some H, off, ext, pt, mi⟩) = fun H => s' ⟨P.sys.heights, some H, off, ext, pt, mi⟩ := by
      funext H; exact h _ rfl
    unfold AnySys.minimize
    dsimp only
    rw [this]

lemma nextContactStep_congr {T : Topo} {Y : AnySys} {s s' : Solver} (hY : baseOf Y = T.heights) (h : AgreeUndeformed T s s') (sizes : List ℝ) (hist : Option History)
    (pt : Option ℝ) (mi : ℤ) : nextContactStep sizes s Y hist pt mi = nextContactStep sizes s' Y hist pt mi ∧ baseOf (nextContactStep sizes s Y hist pt mi).2 = T.heights := by
  unfold nextContactStep contactCalculation
  dsimp only
  rw [minimize_congr (s' := s') (fun c hc => h c (by rw [hc, reset_heights, hY]))]
  refine ⟨rfl, ?_⟩
  have := minimize_base Y.resetPlastic s' (some (nextOffset Y.resetPlastic.heights hist)) none pt mi
  rw [reset_base, hY] at this
  generalize Y.resetPlastic.minimize s' (some (nextOffset Y.resetPlastic.heights hist)) none pt mi = z at *
  obtain ⟨r, Y'⟩ := z
  cases r with
  | error e => exact this
  | ok r => exact this

lemma runSteps_congr {T : Topo} {s s' : Solver} (h : AgreeUndeformed T s s') (sizes : List ℝ) (pt : Option ℝ) (mi : ℤ) (cb : Bool) : ∀ (n : ℕ) (Y : AnySys) (hist : Option History),
    baseOf Y = T.heights → runSteps sizes s pt mi cb Y hist (List.replicate n .auto) = runSteps sizes s' pt mi cb Y hist (List.replicate n .auto) := by
  intro n
  induction n with
  | zero => intro Y hist _; rfl
  | succ n ih =>
    intro Y hist hY
    obtain ⟨h1, h2⟩ := nextContactStep_congr hY h sizes hist pt mi
    rw [List.replicate_succ, runSteps, runSteps, runStep, runStep, ← h1]
    generalize nextContactStep sizes s Y hist pt mi = z at *
    obtain ⟨r, Y'⟩ := z
    cases r with
    | error e => rfl
    | ok r =>
      obtain ⟨rep, hh⟩ := r
      simp only [ih Y' (some hh) h2]

/-- **C214, `contact_mechanics`.**  All automatic steps, elastic or plastic, are calculations of the undeformed surface: results, exception and callbacks do not depend on what the solver does with any
other surface. -/
theorem C214_function_undeformed {T : Topo} {s s' : Solver} (h : AgreeUndeformed T s s') (A : PipeArgs) (h1 : A.offsets = none) (h2 : A.pressures = none) :
    contactMechanics T s A = contactMechanics T s' A := by
  unfold contactMechanics
  have hq : requests T A = List.replicate (A.nsteps.getD 0).toNat .auto := by unfold requests; rw [h1, h2]
  cases hY : (do validate A; makePipeSystem T A : Except PyErr AnySys) with
  | error e => rfl
  | ok Y =>
    dsimp only
    have hb : baseOf Y = T.heights := by
      have : makePipeSystem T A = .ok Y := by
        cases hv : validate A with
        | error e => rw [hv] at hY; cases hY
        | ok u => rw [hv] at hY; exact hY
      unfold makePipeSystem at this
      cases hs : makeSubstrate T A.substrate with
      | error e => rw [hs] at this; cases this
      | ok sub =>
        rw [hs] at this
        simp only [bind, Except.bind] at this
        cases hm : mkSystem sub T.heights with
        | error e => rw [hm] at this; cases this
        | ok S =>
          rw [hm] at this
          have hS : S.heights = T.heights := by
            unfold mkSystem at hm
            cases hc : compareContainers (tupleOf T.heights.shape) (tupleOf sub.hs.nbGridPts) with
            | error e => rw [hc] at hm; cases hm
            | ok b =>
              rw [hc] at hm
              simp only [bind, Except.bind] at hm
              split at hm
              · cases hm; rfl
              · cases hm
          dsimp only at this
          split at this
          · cases this; rfl
          · cases this; exact hS
    rw [hq, runSteps_congr h _ _ _ _ _ _ _ hb]

/-- **C214, the command line: false of the code.**  On every surface, with a hardness, the automatic mode can come out differently with two solvers that agree on the undeformed surface:
the second step gets the surface as the first one left it. -/
theorem C214_command_line_partial {T : Topo} {nx ny : ℕ} {sx sy : ℝ} (hT : ValidTopo T nx ny sx sy) {A : CliArgs} (hA : ValidCli A) {H : ℝ} (hH : A.hardness = some H)
    (h1 : A.pressure = none) (h2 : A.pressureFile = none) (h3 : A.displacement = none) {Y : AnySys} (hY : cliSystem T A = .ok Y) (acc : List String) :
    ∃ s s' : Solver, AgreeUndeformed T s s' ∧ hardWall T acc s A ≠ hardWall T acc s' A := by
  classical
  set r : OptResult := ⟨true, ⟨[nx, ny], fun x => T.heights.get x - 1⟩, ⟨[nx, ny], fun _ => 0⟩, 0, ⟨[nx, ny], fun _ => true⟩, ⟨[nx, ny], fun _ => false⟩⟩ with hr
  set S : PyErr → Solver := fun e c => if c.heights = T.heights then .ok r else .error e with hS
  have hfit : Fits nx ny r := ⟨rfl, ⟨nx, ny, rfl, le_refl _, le_refl _⟩, rfl⟩
  obtain ⟨hR, hh⟩ := cli_system_ready hT hA hY
  rw [hH] at hR
  have key : ∀ e, (hardWall T acc (S e) A).1 = .error e := by
    intro e
    have e1 : ∀ pt mi off, (Y.minimize (S e) off none pt mi).1 = .ok r ∧ Ready nx ny sx sy T.heights (some H) (Y.minimize (S e) off none pt mi).2 ∧
        (Y.minimize (S e) off none pt mi).2.heights ≠ T.heights := by
      intro pt mi off
      obtain ⟨a, b, c⟩ := (minimize_ready hR (S e) off none pt mi).2 r (by simp [hS, hh]) hfit
      refine ⟨a, b, fun hc => ?_⟩
      have := c 0 hT.nx_pos 0 hT.ny_pos
      rw [hc] at this
      simp [heightAfter, hr] at this
      linarith
    have hcut : ∃ u, cutToForce r.x r.jac = .ok u := ⟨_, cut_fits hfit⟩
    obtain ⟨u, hu⟩ := hcut
    have hn : ∀ hist, ∃ o h, (nextStep T.physicalSizes (S e) Y hist A.pentol A.maxiter).1 = .ok (o, h) ∧
        Ready nx ny sx sy T.heights (some H) (nextStep T.physicalSizes (S e) Y hist A.pentol A.maxiter).2 ∧
        (nextStep T.physicalSizes (S e) Y hist A.pentol A.maxiter).2.heights ≠ T.heights := by
      intro hist
      obtain ⟨a, b, c⟩ := e1 A.pentol A.maxiter (some (cliOffset Y.heights hist))
      unfold nextStep
      dsimp only
      generalize Y.minimize (S e) (some (cliOffset Y.heights hist)) none A.pentol A.maxiter = z at *
      obtain ⟨q, Y'⟩ := z
      dsimp only at a b c
      subst a
      simp only [hu]
      exact ⟨_, _, rfl, b, c⟩
    have hn2 : ∀ Y' hist, Ready nx ny sx sy T.heights (some H) Y' → Y'.heights ≠ T.heights →
        (nextStep T.physicalSizes (S e) Y' hist A.pentol A.maxiter).1 = .error e := by
      intro Y' hist b c
      have a := (minimize_ready b (S e) (some (cliOffset Y'.heights hist)) none A.pentol A.maxiter).1 e (by simp [hS, c])
      unfold nextStep
      dsimp only
      generalize Y'.minimize (S e) (some (cliOffset Y'.heights hist)) none A.pentol A.maxiter = z at *
      obtain ⟨q, Y''⟩ := z
      dsimp only at a
      subst a
      rfl
    unfold hardWall
    rw [hY]
    unfold mainModes
    simp only [h1, h2, h3, Option.isSome_none, Bool.false_eq_true, or_self, if_false]
    have hauto : (autoLoop T.physicalSizes T.areaPerPt (S e) A autoSteps autoSteps 0 Y none).1 = .error e := by
      show (autoLoop T.physicalSizes T.areaPerPt (S e) A 20 (18 + 1 + 1) 0 Y none).1 = .error e
      rw [autoLoop]
      obtain ⟨o, h, a, b, c⟩ := hn none
      generalize nextStep T.physicalSizes (S e) Y none A.pentol A.maxiter = z at *
      obtain ⟨q, Y'⟩ := z
      dsimp only at a b c
      subst a
      dsimp only
      rw [autoLoop]
      have d := hn2 Y' (some h) b c
      generalize nextStep T.physicalSizes (S e) Y' (some h) A.pentol A.maxiter = z at *
      obtain ⟨q, Y''⟩ := z
      dsimp only at d
      subst d
      rfl
    generalize autoLoop T.physicalSizes T.areaPerPt (S e) A autoSteps autoSteps 0 Y none = z at *
    obtain ⟨q, outs⟩ := z
    dsimp only at hauto
    subst hauto
    rfl
  refine ⟨S .valueError, S .runtimeError, ?_, ?_⟩
  · intro c hc
    simp [hS, hc]
  · intro hc
    have := congrArg Prod.fst hc
    rw [key, key] at this
    cases this

/-- A concrete surface, with hardness one. -/
example : ∃ s s' : Solver, AgreeUndeformed demoTopo s s' ∧ hardWall demoTopo [] s { hardness := some 1 } ≠ hardWall demoTopo [] s' { hardness := some 1 } := by
  have hA : ValidCli { hardness := some 1 } := by constructor <;> simp
  obtain ⟨Y, hY⟩ := C116_accepted demoTopo_valid (by norm_num) (by norm_num) { hardness := some 1 } hA (.inl rfl)
  exact C214_command_line_partial demoTopo_valid hA rfl rfl rfl rfl hY []

/-- `contact_mechanics` on the same surface. -/
example {s s' : Solver} (h : AgreeUndeformed demoTopo s s') : contactMechanics demoTopo s { nsteps := some 7, hardness := some 1, callback := true } =
    contactMechanics demoTopo s' { nsteps := some 7, hardness := some 1, callback := true } :=
  C214_function_undeformed h _ rfl rfl

end CM.Cli
