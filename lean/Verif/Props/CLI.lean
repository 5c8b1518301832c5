import Verif.Lemmas.CLI
/-!
# The command line front-end: C65-C67, C113-C115
-/
set_option linter.unusedSimpArgs false
namespace CM.Cli
open Finset CM.HS CM.FFT CM.System CM.Spec CM.Pipe

variable {nx ny : ℕ} {sx sy : ℝ} {T : Topo}

/-! ## Runs, recursively -/

/-- One step after the rows `prev`. -/
structure CStep (nx ny : ℕ) (sx sy : ℝ) (base : NdArray ℝ) (A : CliArgs) (solver : Solver) (n : ℕ)
    (ask : ℕ → List Record → NdArray ℝ → Option ℝ → Option ℝ → Prop) (load : ℕ → OptResult → ℝ → Prop) (prev : List Record) (d : CliStep) : Prop where
  call : ∃ o F, ask prev.length prev d.before o F ∧
    d.call = ⟨d.before, forceHardness nx ny sx sy A.hardness, o, F, A.pentol, A.maxiter⟩
  solved : solver d.call = .ok d.result
  output : ∃ l, load prev.length d.result l ∧
    OutputMatches nx ny sx sy A.maps n prev.length (heightAfter A.hardness.isSome d.before d.result) d.result l d.output
  elastic : A.hardness = none → d.before = base

/-- Steps following each other. -/
def CChain (nx ny : ℕ) (sx sy : ℝ) (base : NdArray ℝ) (A : CliArgs) (solver : Solver) (n : ℕ)
    (ask : ℕ → List Record → NdArray ℝ → Option ℝ → Option ℝ → Prop) (load : ℕ → OptResult → ℝ → Prop) :
    List Record → (List ℕ → ℝ) → List CliStep → Prop
  | _, _, [] => True
  | prev, cur, d :: ds => CStep nx ny sx sy base A solver n ask load prev d ∧ AgreeOn nx ny d.before cur ∧
      CChain nx ny sx sy base A solver n ask load (prev ++ [d.record nx ny sx sy]) (heightAfter A.hardness.isSome d.before d.result) ds

lemma CChain.get {base : NdArray ℝ} {A : CliArgs} {solver : Solver} {n : ℕ}
    {ask : ℕ → List Record → NdArray ℝ → Option ℝ → Option ℝ → Prop} {load : ℕ → OptResult → ℝ → Prop} :
    ∀ {ds : List CliStep} {prev : List Record} {cur : List ℕ → ℝ}, CChain nx ny sx sy base A solver n ask load prev cur ds →
    ∀ (k : ℕ) (d : CliStep), ds[k]? = some d →
      CStep nx ny sx sy base A solver n ask load (prev ++ (ds.take k).map (CliStep.record nx ny sx sy)) d ∧
      AgreeOn nx ny d.before (match k with
        | 0 => cur
        | k + 1 => match ds[k]? with
          | some d' => heightAfter A.hardness.isSome d'.before d'.result
          | none => cur)
  | [], _, _, _, k, d, h => by simp at h
  | d :: ds, prev, cur, h, 0, d', e => by
    simp only [List.getElem?_cons_zero, Option.some.injEq] at e
    subst e
    exact ⟨by simpa using h.1, h.2.1⟩
  | d :: ds, prev, cur, h, k + 1, d', e => by
    simp only [List.getElem?_cons_succ] at e
    obtain ⟨h1, h2⟩ := CChain.get h.2.2 k d' e
    refine ⟨by simpa using h1, ?_⟩
    cases k with
    | zero => simpa using h2
    | succ k =>
      simp only [List.getElem?_cons_succ]
      have : k < ds.length := by
        by_contra hc
        rw [List.getElem?_eq_none (by omega)] at e
        cases e
      simpa [List.getElem?_eq_getElem this] using h2

lemma CChain.run {A : CliArgs} {solver : Solver} {n : ℕ}
    {ask : ℕ → List Record → NdArray ℝ → Option ℝ → Option ℝ → Prop} {load : ℕ → OptResult → ℝ → Prop} {ds : List CliStep}
    (h : CChain nx ny sx sy T.heights A solver n ask load [] T.heights.get ds) : IsCliRun T nx ny sx sy A solver n ask load ds := by
  have hlen : ∀ (k : ℕ) (d : CliStep), ds[k]? = some d → ((ds.take k).map (CliStep.record nx ny sx sy)).length = k := by
    intro k d hd
    have : k < ds.length := by by_contra hc; rw [List.getElem?_eq_none (by omega)] at hd; cases hd
    simp; omega
  refine ⟨?_, ?_, ?_, ?_, ?_, ?_⟩
  · intro k d hd
    obtain ⟨o, F, h1, h2⟩ := (h.get k d hd).1.call
    rw [List.nil_append, hlen k d hd] at h1
    exact ⟨o, F, h1, h2⟩
  · intro d hd
    obtain ⟨k, hk⟩ := List.mem_iff_getElem?.1 hd
    exact (h.get k d hk).1.solved
  · intro k d hd
    have := (h.get k d hd).1.output
    rwa [List.nil_append, hlen k d hd] at this
  · intro d hd
    exact (h.get 0 d hd).2
  · intro k d d' hd hd'
    have := (h.get (k + 1) d' hd').2
    simpa only [hd] using this
  · intro hA d hd
    obtain ⟨k, hk⟩ := List.mem_iff_getElem?.1 hd
    exact (h.get k d hk).1.elastic hA

/-! ## One automatic step -/

lemma cut_ready {base : NdArray ℝ} {H : Option ℝ} {Y : AnySys} (h : Ready nx ny sx sy base H Y) (solver : Solver)
    (hfit : ∀ c r, solver c = .ok r → Fits nx ny r) (off ext pt : Option ℝ) (mi : ℤ) :
    (∃ e Y', Y.minimize solver off ext pt mi = (.error e, Y') ∧ solver ⟨Y.heights, forceHardness nx ny sx sy H, off, ext, pt, mi⟩ = .error e) ∨
    (∃ r Y', Y.minimize solver off ext pt mi = (.ok r, Y') ∧ solver ⟨Y.heights, forceHardness nx ny sx sy H, off, ext, pt, mi⟩ = .ok r ∧
      Fits nx ny r ∧ Ready nx ny sx sy base H Y' ∧ AgreeOn nx ny Y'.heights (heightAfter H.isSome Y.heights r)) := by
  obtain ⟨m1, m2⟩ := minimize_ready h solver off ext pt mi
  cases hs : solver ⟨Y.heights, forceHardness nx ny sx sy H, off, ext, pt, mi⟩ with
  | error e =>
    left
    have := m1 e hs
    cases hm : Y.minimize solver off ext pt mi with
    | mk o Y' => rw [hm] at this; dsimp only at this; subst this; exact ⟨e, Y', rfl, rfl⟩
  | ok r =>
    right
    obtain ⟨k1, k2, k3⟩ := m2 r hs (hfit _ _ hs)
    cases hm : Y.minimize solver off ext pt mi with
    | mk o Y' =>
      rw [hm] at k1 k2 k3
      dsimp only at k1 k2 k3
      subst k1
      exact ⟨r, Y', rfl, rfl, hfit _ _ hs, k2, k3⟩

lemma nextStep_ready {base : NdArray ℝ} {H : Option ℝ} {Y : AnySys} (hb : base.shape = [nx, ny])
    (h : Ready nx ny sx sy base H Y) (solver : Solver) (hfit : ∀ c r, solver c = .ok r → Fits nx ny r) (hkeep : KeepsOffset solver)
    (pt : Option ℝ) (mi : ℤ) (o : Option History) (l : List Record) (ho : Holds o (byArea l)) :
    (∃ e Y', nextStep [sx, sy] solver Y o pt mi = (.error e, Y') ∧
      solver ⟨Y.heights, forceHardness nx ny sx sy H, some (nextOffset Y.heights (some (histOf l))), none, pt, mi⟩ = .error e) ∨
    (∃ r Y', nextStep [sx, sy] solver Y o pt mi = (.ok (⟨r.activeSet, ⟨[nx, ny], r.x.get⟩, r.jac, r.offset, total nx ny r.jac / (sx * sy),
          (nbPos nx ny r.jac : ℝ) / (nx * ny)⟩, histOf (byArea (l ++ [recordOf nx ny sx sy Y.heights r]))), Y') ∧
      solver ⟨Y.heights, forceHardness nx ny sx sy H, some (nextOffset Y.heights (some (histOf l))), none, pt, mi⟩ = .ok r ∧
      r.offset = nextOffset Y.heights (some (histOf l)) ∧
      Fits nx ny r ∧ Ready nx ny sx sy base H Y' ∧ AgreeOn nx ny Y'.heights (heightAfter H.isSome Y.heights r)) := by
  have hoff : cliOffset Y.heights o = nextOffset Y.heights (some (histOf l)) := by
    rw [cliOffset_holds ho, nextOffset_sorted]
  unfold nextStep
  dsimp only
  rw [hoff]
  rcases cut_ready h solver hfit (some (nextOffset Y.heights (some (histOf l)))) none pt mi with ⟨e, Y', h1, h2⟩ | ⟨r, Y', h1, h2, h3, h4, h5⟩
  · left
    refine ⟨e, Y', ?_, h2⟩
    rw [h1]
  · right
    have hd := hkeep _ r _ h2 rfl rfl
    refine ⟨r, Y', ?_, h2, hd, h3, h4, h5⟩
    rw [h1]
    simp only [cut_fits h3, bind, Except.bind, pure, Except.pure]
    have hH : (if o.isNone = true ∨ (o.getD History.empty).disp = [] then History.empty else o.getD History.empty) = histOf (byArea l) := by
      split
      · next hc =>
        rcases hc with hc | hc
        · cases o with
          | none => exact ho
          | some x => simp at hc
        · rw [show o.getD History.empty = histOf (byArea l) from ho] at hc
          have : byArea l = [] := by simpa [histOf] using hc
          rw [this]; rfl
      · exact ho
    rw [hH]
    have hrec : ({ disp := (histOf (byArea l)).disp ++ [nextOffset Y.heights (some (histOf l))]
                   gap := (histOf (byArea l)).gap ++ [npMean ⟨[nx, ny], r.x.get⟩ - npMean Y.heights - nextOffset Y.heights (some (histOf l))]
                   pressure := (histOf (byArea l)).pressure ++ [r.jac.sum / [sx, sy].prod]
                   area := (histOf (byArea l)).area ++ [(countPositive r.jac : ℝ) / ((Y.heights.shape.prod : ℕ) : ℝ)]
                   converged := (histOf (byArea l)).converged ++ [r.success] } : History) =
        histOf (byArea l ++ [recordOf nx ny sx sy Y.heights r]) := by
      rw [← histOf_push]
      unfold History.push recordOf
      dsimp only
      rw [npMean2 rfl, npMean2 (h.shape hb), sum2 h3.jac, countPositive2 h3.jac, h.shape hb, ← hd]
      simp
      rfl
    rw [hrec, columns_sorted]
    have hst : byArea (byArea l ++ [recordOf nx ny sx sy Y.heights r]) = byArea (l ++ [recordOf nx ny sx sy Y.heights r]) :=
      sortedBy_step _ _ _
    rw [hst, ← hd, sum2 h3.jac, countPositive2 h3.jac, h.shape hb]
    simp

/-! ## The automatic mode -/

lemma auto_chain (hb : T.heights.shape = [nx, ny]) (hx : 0 < nx) (hy : 0 < ny) (A : CliArgs) (solver : Solver)
    (hfit : ∀ c r, solver c = .ok r → Fits nx ny r) (hkeep : KeepsOffset solver) (n : ℕ) :
    ∀ (k : ℕ) (Y : AnySys) (o : Option History) (prev : List Record) (cur : List ℕ → ℝ),
    Ready nx ny sx sy T.heights A.hardness Y → Holds o (byArea prev) → AgreeOn nx ny Y.heights cur →
    ∃ ds : List CliStep, (autoLoop [sx, sy] (sx * sy / (nx * ny)) solver A n k prev.length Y o).2 = ds.map CliStep.output ∧
      CChain nx ny sx sy T.heights A solver n (autoAsk nx ny) (autoLoad nx ny sx sy) prev cur ds ∧
      ((∃ o', (autoLoop [sx, sy] (sx * sy / (nx * ny)) solver A n k prev.length Y o).1 = .ok o' ∧ ds.length = k ∧
          (k ≠ 0 → o'.isSome) ∧ Holds o' (byArea (prev ++ ds.map (CliStep.record nx ny sx sy)))) ∨
       (∃ e, (autoLoop [sx, sy] (sx * sy / (nx * ny)) solver A n k prev.length Y o).1 = .error e ∧ ds.length < k ∧
          FailedCall T nx ny sx sy A solver (autoAsk nx ny) (prev ++ ds.map (CliStep.record nx ny sx sy)) (prev.length + ds.length) e)) := by
  intro k
  induction k with
  | zero =>
    intro Y o prev cur hY ho hcur
    exact ⟨[], rfl, trivial, .inl ⟨o, rfl, rfl, by simp, by simpa using ho⟩⟩
  | succ k ih =>
    intro Y o prev cur hY ho hcur
    rcases nextStep_ready hb hY solver hfit hkeep A.pentol A.maxiter o prev ho with ⟨e, Y', h1, h2⟩ | ⟨r, Y', h1, h2, h3, h4, h5, h6⟩
    · refine ⟨[], ?_, trivial, .inr ⟨e, ?_, by simp, Y.heights, _, none, ⟨⟨_, rfl, ?_⟩, rfl⟩, fun hH => hY.elastic_heights hH, h2⟩⟩
      · simp only [autoLoop, h1, List.map_nil]
      · simp only [autoLoop, h1]
      · simpa using nextOffset_choice (T := ⟨Y.heights, [], false, 0⟩) (hY.shape hb) hx hy prev
    · set d : CliStep := ⟨Y.heights, ⟨Y.heights, forceHardness nx ny sx sy A.hardness, some (nextOffset Y.heights (some (histOf prev))), none,
          A.pentol, A.maxiter⟩, r, ⟨logLine nx ny sx sy (heightAfter A.hardness.isSome Y.heights r) r,
          (r.offset, total nx ny r.jac / (sx * sy), (nbPos nx ny r.jac : ℝ) / (nx * ny)),
          writeMaps (suffix n prev.length) A.maps (logLine nx ny sx sy (heightAfter A.hardness.isSome Y.heights r) r),
          (⟨[nx, ny], r.x.get⟩, r.jac), writeFields (suffix n prev.length) A.maps
            (mapFields (sx * sy / (nx * ny)) Y'.heights r.activeSet ⟨[nx, ny], r.x.get⟩ r.jac r.offset)⟩⟩ with hd
      obtain ⟨ds, e1, e2, e3⟩ := ih Y' (some (histOf (byArea (prev ++ [recordOf nx ny sx sy Y.heights r])))) (prev ++ [d.record nx ny sx sy])
        (heightAfter A.hardness.isSome Y.heights r) h5 rfl h6
      have hstep : CStep nx ny sx sy T.heights A solver n (autoAsk nx ny) (autoLoad nx ny sx sy) prev d := by
        refine ⟨⟨_, none, ⟨⟨_, rfl, ?_⟩, rfl⟩, rfl⟩, h2, ⟨_, rfl, rfl, rfl, writeMaps_names _ _ _, ⟨rfl, fun _ _ _ _ => rfl⟩, ⟨h4.jac, fun _ _ _ _ => rfl⟩, fields_show h6 h4 _ _⟩, fun hH => hY.elastic_heights hH⟩
        exact nextOffset_choice (T := ⟨Y.heights, [], false, 0⟩) (hY.shape hb) hx hy prev
      have hlen : (prev ++ [d.record nx ny sx sy]).length = prev.length + 1 := by simp
      rw [hlen] at e1 e3
      have hloop : autoLoop [sx, sy] (sx * sy / (nx * ny)) solver A n (k + 1) prev.length Y o =
          ((autoLoop [sx, sy] (sx * sy / (nx * ny)) solver A n k (prev.length + 1) Y'
              (some (histOf (byArea (prev ++ [recordOf nx ny sx sy Y.heights r]))))).1,
            d.output :: (autoLoop [sx, sy] (sx * sy / (nx * ny)) solver A n k (prev.length + 1) Y'
              (some (histOf (byArea (prev ++ [recordOf nx ny sx sy Y.heights r]))))).2) := by
        simp only [autoLoop, h1, dump_eq (h5.shape hb) h6 h4]
        rfl
      rw [hloop]
      refine ⟨d :: ds, ?_, ⟨hstep, hcur, e2⟩, ?_⟩
      · rw [e1]; rfl
      · rcases e3 with ⟨o', k1, k2, k3, k4⟩ | ⟨e, k1, k2, k3⟩
        · left
          refine ⟨o', k1, by simp [k2], fun _ => ?_, ?_⟩
          · cases k with
            | zero =>
              simp only [autoLoop] at k1
              cases k1; rfl
            | succ k => exact k3 (by simp)
          · simpa using k4
        · right
          exact ⟨e, k1, by simpa using k2, by simpa [Nat.add_assoc, Nat.add_comm 1] using k3⟩

/-- **C65** After any number `n` of automatic steps of a command line calculation that did not raise, there are steps `D`, one per
output, with offsets chosen as documented from the rows so far, such that the history consists of the five columns of
a list of rows that is sorted by area and contains the row of every step exactly once; rows with equal
area stay in the order in which they were computed. -/
theorem C65_history_sorted (hT : ValidTopo T nx ny sx sy) (A : CliArgs) (hA : ValidCli A) (solver : Solver)
    (hfit : ∀ c r, solver c = .ok r → Fits nx ny r) (hkeep : KeepsOffset solver) {Y : AnySys} (hY : cliSystem T A = .ok Y) (n N : ℕ) (hn : 0 < n)
    {o : Option History} {outs : List Output} (h : autoLoop T.physicalSizes T.areaPerPt solver A N n 0 Y none = (.ok o, outs)) :
    ∃ (D : List CliStep) (rows : List Record), D.length = n ∧ outs = D.map CliStep.output ∧
      IsCliRun T nx ny sx sy A solver N (autoAsk nx ny) (autoLoad nx ny sx sy) D ∧
      rows.Perm (D.map (CliStep.record nx ny sx sy)) ∧ rows.Pairwise (fun a b => a.area ≤ b.area) ∧
      (∀ a, rows.filter (fun r => decide (r.area = a)) = (D.map (CliStep.record nx ny sx sy)).filter fun r => decide (r.area = a)) ∧
      o = some ⟨rows.map (·.displacement), rows.map (·.gap), rows.map (·.pressure), rows.map (·.area), rows.map (·.converged)⟩ := by
  obtain ⟨hr, hh⟩ := cli_system_ready hT hA hY
  have hap : T.areaPerPt = sx * sy / (nx * ny) := by simp [Topo.areaPerPt, hT.sizes, hT.heights]
  obtain ⟨ds, e1, e2, e3⟩ := auto_chain hT.heights hT.nx_pos hT.ny_pos A solver hfit hkeep N n Y none [] T.heights.get hr rfl
    (by rw [hh]; intro i _ j _; rfl)
  rw [hT.sizes, hap] at h
  rw [List.length_nil, h] at e1 e3
  rcases e3 with ⟨o', k1, k2, k3, k4⟩ | ⟨e, k1, -⟩
  · cases k1
    refine ⟨ds, byArea (ds.map (CliStep.record nx ny sx sy)), k2, e1, e2.run, sortedBy_perm _ _, sortedBy_sorted _ _, ?_, ?_⟩
    · intro a
      exact filter_sortedBy _ _ _
    · have := k3 (by omega)
      cases o with
      | none => simp at this
      | some h' =>
        have : h' = histOf (byArea (ds.map (CliStep.record nx ny sx sy))) := by simpa [Holds] using k4
        rw [this]; rfl
  · cases k1

/-- **C65** (exceptions) If an automatic calculation raises, the solver, called for the next step, raised that exception; the output of
the steps before is complete. -/
theorem C65_exception (hT : ValidTopo T nx ny sx sy) (A : CliArgs) (hA : ValidCli A) (solver : Solver)
    (hfit : ∀ c r, solver c = .ok r → Fits nx ny r) (hkeep : KeepsOffset solver) {Y : AnySys} (hY : cliSystem T A = .ok Y) (n N : ℕ)
    {e : PyErr} {outs : List Output} (h : autoLoop T.physicalSizes T.areaPerPt solver A N n 0 Y none = (.error e, outs)) :
    ∃ D : List CliStep, D.length < n ∧ outs = D.map CliStep.output ∧
      IsCliRun T nx ny sx sy A solver N (autoAsk nx ny) (autoLoad nx ny sx sy) D ∧
      FailedCall T nx ny sx sy A solver (autoAsk nx ny) (D.map (CliStep.record nx ny sx sy)) D.length e := by
  obtain ⟨hr, hh⟩ := cli_system_ready hT hA hY
  have hap : T.areaPerPt = sx * sy / (nx * ny) := by simp [Topo.areaPerPt, hT.sizes, hT.heights]
  obtain ⟨ds, e1, e2, e3⟩ := auto_chain hT.heights hT.nx_pos hT.ny_pos A solver hfit hkeep N n Y none [] T.heights.get hr rfl
    (by rw [hh]; intro i _ j _; rfl)
  rw [hT.sizes, hap] at h
  rw [List.length_nil, h] at e1 e3
  rcases e3 with ⟨o', k1, -⟩ | ⟨e, k1, k2, k3⟩
  · cases k1
  · cases k1
    exact ⟨ds, k2, e1, e2.run, by simpa using k3⟩

/-- **C65** (whole program) A run without `--pressure`, `--pressure-from-file` and `--displacement` that ends normally
has written the output of twenty steps. -/
theorem C65_automatic_run (hT : ValidTopo T nx ny sx sy) (A : CliArgs) (hA : ValidCli A) (solver : Solver)
    (hfit : ∀ c r, solver c = .ok r → Fits nx ny r) (hkeep : KeepsOffset solver) (kw : List String)
    (h1 : A.pressure = none) (h2 : A.pressureFile = none) (h3 : A.displacement = none) {outs : List Output}
    (h : hardWall T kw solver A = (.ok (), outs)) :
    ∃ D : List CliStep, D.length = 20 ∧ outs = D.map CliStep.output ∧
      IsCliRun T nx ny sx sy A solver 20 (autoAsk nx ny) (autoLoad nx ny sx sy) D := by
  unfold hardWall at h
  cases hY : cliSystem T A with
  | error e => rw [hY] at h; cases h
  | ok Y =>
    rw [hY] at h
    simp only [mainModes, h1, h2, h3, autoSteps, Option.isSome_none, Bool.false_eq_true, or_self, if_false] at h
    cases hl : autoLoop T.physicalSizes T.areaPerPt solver A 20 20 0 Y none with
    | mk r outs' =>
      rw [hl] at h
      cases r with
      | error e => cases h
      | ok o =>
        cases h
        obtain ⟨D, -, k1, k2, k3, -⟩ := C65_history_sorted hT A hA solver hfit hkeep hY 20 20 (by norm_num) hl
        exact ⟨D, k1, k2, k3⟩

/-! ## The pressure mode -/

/-- What step `k` of the pressure mode asks for: no offset, and the pressure times the apparent area as force. -/
def _root_.CM.Spec.pressureAsk (sx sy : ℝ) (ps : List ℝ) : ℕ → List Record → NdArray ℝ → Option ℝ → Option ℝ → Prop :=
  fun k _ _ o F => o = none ∧ F = ps[k]?.map (· * (sx * sy))

/-- The load written in pressure mode is the pressure asked for. -/
def _root_.CM.Spec.pressureLoad (ps : List ℝ) : ℕ → OptResult → ℝ → Prop := fun k _ l => ps[k]? = some l

lemma pressure_chain (hb : T.heights.shape = [nx, ny]) (A : CliArgs) (solver : Solver)
    (hfit : ∀ c r, solver c = .ok r → Fits nx ny r) (n : ℕ) (all : List ℝ) :
    ∀ (ps : List ℝ) (Y : AnySys) (prev : List Record) (cur : List ℕ → ℝ), all.drop prev.length = ps →
    Ready nx ny sx sy T.heights A.hardness Y → AgreeOn nx ny Y.heights cur →
    ∃ ds : List CliStep, (pressureLoop [sx, sy] (sx * sy / (nx * ny)) solver A n prev.length Y ps).2 = ds.map CliStep.output ∧
      CChain nx ny sx sy T.heights A solver n (pressureAsk sx sy all) (pressureLoad all) prev cur ds ∧
      (((pressureLoop [sx, sy] (sx * sy / (nx * ny)) solver A n prev.length Y ps).1 = .ok () ∧ ds.length = ps.length) ∨
       (∃ e, (pressureLoop [sx, sy] (sx * sy / (nx * ny)) solver A n prev.length Y ps).1 = .error e ∧ ds.length < ps.length ∧
          FailedCall T nx ny sx sy A solver (pressureAsk sx sy all) (prev ++ ds.map (CliStep.record nx ny sx sy)) (prev.length + ds.length) e)) := by
  intro ps
  induction ps with
  | nil =>
    intro Y prev cur _ hY hcur
    exact ⟨[], rfl, trivial, .inl ⟨rfl, rfl⟩⟩
  | cons p ps ih =>
    intro Y prev cur hall hY hcur
    have hp : all[prev.length]? = some p := by
      have := congrArg List.head? hall
      simpa [List.head?_drop] using this
    rcases cut_ready hY solver hfit none (some (p * [sx, sy].prod)) A.pentol A.maxiter with ⟨e, Y', h1, h2⟩ | ⟨r, Y', h1, h2, h4, h5, h6⟩
    · refine ⟨[], ?_, trivial, .inr ⟨e, ?_, by simp, Y.heights, none, _, ⟨rfl, ?_⟩, fun hH => hY.elastic_heights hH, h2⟩⟩
      · simp only [pressureLoop, h1, List.map_nil]
      · simp only [pressureLoop, h1]
      · simp [hp]
    · set d : CliStep := ⟨Y.heights, ⟨Y.heights, forceHardness nx ny sx sy A.hardness, none, some (p * [sx, sy].prod),
          A.pentol, A.maxiter⟩, r, ⟨logLine nx ny sx sy (heightAfter A.hardness.isSome Y.heights r) r,
          (r.offset, p, (nbPos nx ny r.jac : ℝ) / (nx * ny)),
          writeMaps (suffix n prev.length) A.maps (logLine nx ny sx sy (heightAfter A.hardness.isSome Y.heights r) r),
          (⟨[nx, ny], r.x.get⟩, r.jac), writeFields (suffix n prev.length) A.maps
            (mapFields (sx * sy / (nx * ny)) Y'.heights r.activeSet ⟨[nx, ny], r.x.get⟩ r.jac r.offset)⟩⟩ with hd
      have hlen : (prev ++ [d.record nx ny sx sy]).length = prev.length + 1 := by simp
      obtain ⟨ds, e1, e2, e3⟩ := ih Y' (prev ++ [d.record nx ny sx sy])
        (heightAfter A.hardness.isSome Y.heights r) (by rw [hlen, ← List.drop_drop, hall]; rfl) h5 h6
      have hstep : CStep nx ny sx sy T.heights A solver n (pressureAsk sx sy all) (pressureLoad all) prev d := by
        refine ⟨⟨none, _, ⟨rfl, rfl⟩, ?_⟩, h2, ⟨p, hp, rfl, rfl, writeMaps_names _ _ _, ⟨rfl, fun _ _ _ _ => rfl⟩, ⟨h4.jac, fun _ _ _ _ => rfl⟩, fields_show h6 h4 _ _⟩, fun hH => hY.elastic_heights hH⟩
        simp [hd, hp]
      rw [hlen] at e1 e3
      have hloop : pressureLoop [sx, sy] (sx * sy / (nx * ny)) solver A n prev.length Y (p :: ps) =
          ((pressureLoop [sx, sy] (sx * sy / (nx * ny)) solver A n (prev.length + 1) Y' ps).1,
            d.output :: (pressureLoop [sx, sy] (sx * sy / (nx * ny)) solver A n (prev.length + 1) Y' ps).2) := by
        simp only [pressureLoop, h1, cut_fits h4, dump_eq (h5.shape hb) h6 h4, countPositive2 h4.jac, h5.shape hb]
        simp [hd]
      rw [hloop]
      refine ⟨d :: ds, ?_, ⟨hstep, hcur, e2⟩, ?_⟩
      · rw [e1]; rfl
      · rcases e3 with ⟨k1, k2⟩ | ⟨e, k1, k2, k3⟩
        · exact .inl ⟨k1, by simp [k2]⟩
        · exact .inr ⟨e, k1, by simpa using k2, by simpa [Nat.add_assoc, Nat.add_comm 1] using k3⟩

/-- The pressures a command line asks for: the single value, `n` equally spaced values from `a` to `b`, or the contents of the
file. -/
def _root_.CM.Spec.AsksPressures (A : CliArgs) (ps : List ℝ) : Prop :=
  (∃ p : Part, A.pressure = some [p] ∧ p.asFloat.map (fun x => [x]) = some ps) ∨
  (∃ (p q r : Part) (a b : ℝ) (n : ℕ), A.pressure = some [p, q, r] ∧ p.asFloat = some a ∧ q.asFloat = some b ∧ r.asInt = some (n : ℤ) ∧ ps.length = n ∧
    (∀ k (hk : k < ps.length), ps[k] = a + (b - a) * (k / (n - 1)))) ∨
  (A.pressure = none ∧ A.pressureFile = some ps)

lemma asks_main {A : CliArgs} {ps : List ℝ} (h : AsksPressures A ps) (hd : A.displacement = none) (sizes : List ℝ) (ap : ℝ) (kw : List String)
    (solver : Solver) (Y : AnySys) : mainModes sizes ap kw solver A Y = pressureLoop sizes ap solver A ps.length 0 Y ps := by
  unfold mainModes
  rcases h with ⟨p, h1, h2⟩ | ⟨p, q, r, a, b, n, h1, h2, h3, h4, h5, h6⟩ | ⟨h1, h2⟩
  · cases hp : p.asFloat with
    | none => rw [hp] at h2; cases h2
    | some x =>
      rw [hp] at h2
      cases h2
      simp [h1, hd, parsePressure, hp]
  · have hl : linspace a b n = .ok ps := by
      unfold linspace
      rw [if_neg (by omega)]
      congr 1
      apply List.ext_getElem
      · simp [h5]
      · intro k hk hk'
        simp only [List.getElem_map, List.getElem_range]
        rw [h6 k hk']
        push_cast
        ring
    simp [h1, hd, parsePressure, h2, h3, h4, hl]
  · simp [h1, h2, hd]

/-- **C114** A run with `--pressure` or `--pressure-from-file` that ends normally writes the output of exactly one step per pressure,
in order: step `k` asked the solver for the `k`-th pressure times the apparent area, and its log line, NetCDF
frame and files belong to the solver's answer. -/
theorem C114_pressure_run (hT : ValidTopo T nx ny sx sy) (A : CliArgs) (hA : ValidCli A) (solver : Solver)
    (hfit : ∀ c r, solver c = .ok r → Fits nx ny r) (kw : List String) (ps : List ℝ) (hp : AsksPressures A ps)
    (hd : A.displacement = none) {outs : List Output} (h : hardWall T kw solver A = (.ok (), outs)) :
    ∃ D : List CliStep, D.length = ps.length ∧ outs = D.map CliStep.output ∧
      IsCliRun T nx ny sx sy A solver ps.length (pressureAsk sx sy ps) (pressureLoad ps) D := by
  unfold hardWall at h
  cases hY : cliSystem T A with
  | error e => rw [hY] at h; cases h
  | ok Y =>
    rw [hY] at h
    dsimp only at h
    have hap : T.areaPerPt = sx * sy / (nx * ny) := by simp [Topo.areaPerPt, hT.sizes, hT.heights]
    rw [asks_main hp hd, hT.sizes, hap] at h
    obtain ⟨hr, hh⟩ := cli_system_ready hT hA hY
    obtain ⟨ds, e1, e2, e3⟩ := pressure_chain (nx := nx) (ny := ny) (sx := sx) (sy := sy) hT.heights A solver hfit ps.length ps ps Y [] T.heights.get
      rfl hr (by rw [hh]; intro i _ j _; rfl)
    rw [List.length_nil, h] at e1 e3
    rcases e3 with ⟨-, k2⟩ | ⟨e, k1, -⟩
    · exact ⟨ds, k2, e1, e2.run⟩
    · cases k1

/-- **C114** (exceptions) If a pressure run raises although the system could be set up, the solver, called for the next pressure, raised that
exception; the output of the steps before is complete. -/
theorem C114_pressure_exception (hT : ValidTopo T nx ny sx sy) (A : CliArgs) (hA : ValidCli A) (solver : Solver)
    (hfit : ∀ c r, solver c = .ok r → Fits nx ny r) (kw : List String) (ps : List ℝ) (hp : AsksPressures A ps)
    (hd : A.displacement = none) {Y : AnySys} (hY : cliSystem T A = .ok Y) {e : PyErr} {outs : List Output}
    (h : hardWall T kw solver A = (.error e, outs)) :
    ∃ D : List CliStep, D.length < ps.length ∧ outs = D.map CliStep.output ∧
      FailedCall T nx ny sx sy A solver (pressureAsk sx sy ps) (D.map (CliStep.record nx ny sx sy)) D.length e ∧
      IsCliRun T nx ny sx sy A solver ps.length (pressureAsk sx sy ps) (pressureLoad ps) D := by
  unfold hardWall at h
  rw [hY] at h
  dsimp only at h
  have hap : T.areaPerPt = sx * sy / (nx * ny) := by simp [Topo.areaPerPt, hT.sizes, hT.heights]
  rw [asks_main hp hd, hT.sizes, hap] at h
  obtain ⟨hr, hh⟩ := cli_system_ready hT hA hY
  obtain ⟨ds, e1, e2, e3⟩ := pressure_chain (nx := nx) (ny := ny) (sx := sx) (sy := sy) hT.heights A solver hfit ps.length ps ps Y [] T.heights.get
    rfl hr (by rw [hh]; intro i _ j _; rfl)
  rw [List.length_nil, h] at e1 e3
  rcases e3 with ⟨k1, -⟩ | ⟨e, k1, k2, k3⟩
  · cases k1
  · cases k1
    exact ⟨ds, k2, e1, by simpa using k3, e2.run⟩

/-- **C114** (range) A pressure range `a,b,n` with `n ≥ 2` starts at `a` and ends at `b`. -/
theorem C114_range_ends (A : CliArgs) (p q r : Part) (a b : ℝ) (n : ℕ) (hn : 2 ≤ n) (h0 : A.pressure = some [p, q, r])
    (h1 : p.asFloat = some a) (h2 : q.asFloat = some b) (h3 : r.asInt = some (n : ℤ)) (ps : List ℝ) (h : AsksPressures A ps) :
    ps.length = n ∧ ps.head? = some a ∧ ps.getLast? = some b := by
  rcases h with ⟨p', e, -⟩ | ⟨p', q', r', a', b', n', e, k1, k2, k3, k4, k5⟩ | ⟨e, -⟩
  · rw [h0] at e; simp at e
  · rw [h0] at e
    simp only [Option.some.injEq, List.cons.injEq, and_true] at e
    obtain ⟨rfl, rfl, rfl⟩ := e
    rw [h1] at k1; rw [h2] at k2; rw [h3] at k3
    cases k1; cases k2
    have : n = n' := by simpa using k3
    subst this
    have hn1 : ((n : ℝ) - 1) ≠ 0 := by
      have : (2 : ℝ) ≤ n := by exact_mod_cast hn
      linarith
    refine ⟨k4, ?_, ?_⟩
    · rw [List.head?_eq_getElem?, List.getElem?_eq_getElem (by omega), k5 0 (by omega)]; simp
    · rw [List.getLast?_eq_getElem?, List.getElem?_eq_getElem (by omega), k5 _ (by omega)]
      rw [k4, Nat.cast_sub (by omega)]
      simp [hn1]
  · rw [h0] at e; cases e

/-- **C114** (files) Different steps of a run never write the same map file: for one map name the file names of two steps differ. -/
theorem C114_file_names_differ (n i j : ℕ) (hi : i < n) (hj : j < n) (hij : i ≠ j) (fn : String) :
    fn ++ fileEnding n i ≠ fn ++ fileEnding n j := by
  have hn : n ≠ 1 := by omega
  unfold fileEnding
  rw [if_neg hn, if_neg hn]
  intro h
  rw [String.append_right_inj, String.append_right_inj] at h
  exact hij (Nat.repr_injective h)

/-! ## The displacement mode -/

/-- **C66** is false of the code: whatever is given with `--displacement`, the run ends with an exception and without any
output -- for every topography, every solver, and whichever keywords the solver accepts. -/
theorem C66_displacement_mode_fails (T : Topo) (kw : List String) (solver : Solver) (A : CliArgs) (d : List Part)
    (hd : A.displacement = some d) : ∃ e, hardWall T kw solver A = (.error e, []) := by
  unfold hardWall
  cases hY : cliSystem T A with
  | error e => exact ⟨e, rfl⟩
  | ok Y =>
    dsimp only
    unfold mainModes
    split
    · rw [hd]; exact ⟨_, rfl⟩
    · rw [hd]
      dsimp only
      cases hp : parseDisplacement d with
      | error e => exact ⟨e, rfl⟩
      | ok ds =>
        dsimp only
        have hne : ∃ x, ds = [x] := by
          unfold parseDisplacement at hp
          split at hp
          · split at hp
            · cases hp; exact ⟨_, rfl⟩
            · cases hp
          · split at hp <;> cases hp
          · cases hp
        obtain ⟨x, rfl⟩ := hne
        unfold displacementLoop
        cases callKeywords kw displacementKeywords with
        | error e => exact ⟨e, rfl⟩
        | ok _ =>
          dsimp only
          cases Y.minimize solver (some x) none A.pentol A.maxiter with
          | mk r Y' =>
            cases r with
            | error e => exact ⟨e, rfl⟩
            | ok opt =>
              dsimp only
              cases cutToForce opt.x opt.jac with
              | error e => exact ⟨e, rfl⟩
              | ok _ => exact ⟨_, rfl⟩

/-- **C66** (the exception) With the keywords of the solver as it is, a single displacement and a well-formed range both give
`TypeError`. -/
theorem C66_type_error (T : Topo) (solver : Solver) (A : CliArgs) (hp : A.pressure = none) (hf : A.pressureFile = none) {Y : AnySys}
    (hY : cliSystem T A = .ok Y) (d : List Part) (hd : A.displacement = some d)
    (hl : d.length = 1 ∨ d.length = 3) (hnum : ∀ p ∈ d, p.asFloat.isSome) :
    hardWall T solverKeywords solver A = (.error .typeError, []) := by
  unfold hardWall
  rw [hY]
  simp only [mainModes, hp, hf, hd, Option.isSome_none, Bool.false_eq_true, or_self, if_false]
  match d, hl, hnum with
  | [p], _, hnum =>
    obtain ⟨x, hx⟩ := Option.isSome_iff_exists.1 (hnum p (by simp))
    simp [parseDisplacement, hx, displacementLoop, callKeywords, displacementKeywords, solverKeywords]
  | [p, q, r], _, hnum =>
    obtain ⟨x, hx⟩ := Option.isSome_iff_exists.1 (hnum p (by simp))
    obtain ⟨y, hy⟩ := Option.isSome_iff_exists.1 (hnum q (by simp))
    obtain ⟨z, hz⟩ := Option.isSome_iff_exists.1 (hnum r (by simp))
    simp [parseDisplacement, hx, hy, hz]

/-! ## Map headers -/

lemma writeMaps_nil {α : Type} (s : String) : ∀ (m : List (Option String)) p, p ∈ writeMaps s m ([] : List α) → p.2 = []
  | [], p, h => by simp [writeMaps] at h
  | none :: m, p, h => writeMaps_nil s m p h
  | some f :: m, p, h => by
    rcases List.mem_cons.1 h with rfl | h
    · rfl
    · exact writeMaps_nil s m p h

lemma writeMaps_head {α : Type} (s : String) : ∀ (m : List (Option String)) (d : List α) (k : ℕ) p, (writeMaps s m d)[k]? = some p →
    p.2 = if k = 0 then d else []
  | [], d, k, p, h => by simp [writeMaps] at h
  | none :: m, d, k, p, h => writeMaps_head s m d k p h
  | some f :: m, d, 0, p, h => by
    simp only [writeMaps, List.getElem?_cons_zero, Option.some.injEq] at h
    rw [← h]; rfl
  | some f :: m, d, k + 1, p, h => by
    simp only [writeMaps, List.getElem?_cons_succ] at h
    rw [writeMaps_nil s m p (List.mem_of_getElem? h)]; simp

lemma pressureLoop_files {sizes : List ℝ} {ap : ℝ} {solver : Solver} {A : CliArgs} {n : ℕ} : ∀ {ps : List ℝ} {i : ℕ} {Y : AnySys},
    ∀ out ∈ (pressureLoop sizes ap solver A n i Y ps).2, ∃ i, out.files = writeMaps (suffix n i) A.maps out.log
  | [], i, Y, out, h => by simp [pressureLoop] at h
  | p :: ps, i, Y, out, h => by
    unfold pressureLoop at h
    cases hm : Y.minimize solver none (some (p * sizes.prod)) A.pentol A.maxiter with
    | mk r Y' =>
      rw [hm] at h
      cases r with
      | error e => simp at h
      | ok opt =>
        dsimp only at h
        cases hc : cutToForce opt.x opt.jac with
        | error e => rw [hc] at h; simp at h
        | ok u =>
          rw [hc] at h
          simp only [List.mem_cons] at h
          rcases h with rfl | h
          · exact ⟨i, rfl⟩
          · exact pressureLoop_files out h

lemma autoLoop_files {sizes : List ℝ} {ap : ℝ} {solver : Solver} {A : CliArgs} {n : ℕ} : ∀ {k i : ℕ} {Y : AnySys} {o : Option History},
    ∀ out ∈ (autoLoop sizes ap solver A n k i Y o).2, ∃ i, out.files = writeMaps (suffix n i) A.maps out.log
  | 0, i, Y, o, out, h => by simp [autoLoop] at h
  | k + 1, i, Y, o, out, h => by
    unfold autoLoop at h
    cases hm : nextStep sizes solver Y o A.pentol A.maxiter with
    | mk r Y' =>
      rw [hm] at h
      cases r with
      | error e => simp at h
      | ok x =>
        simp only [List.mem_cons] at h
        rcases h with rfl | h
        · exact ⟨i, rfl⟩
        · exact autoLoop_files out h

/-- Every step writes its maps with the numbers of its log line. -/
lemma hardWall_files (T : Topo) (kw : List String) (solver : Solver) (A : CliArgs) :
    ∀ out ∈ (hardWall T kw solver A).2, ∃ s, out.files = writeMaps s A.maps out.log := by
  intro out h
  unfold hardWall at h
  cases hY : cliSystem T A with
  | error e => rw [hY] at h; simp at h
  | ok Y =>
    by_cases hd : A.displacement = none
    · rw [hY] at h
      simp only [mainModes, hd, Option.isSome_none, Bool.false_eq_true, if_false] at h
      split at h
      · split at h
        · split at h
          · simp at h
          · obtain ⟨i, hi⟩ := pressureLoop_files out h; exact ⟨_, hi⟩
        · split at h
          · obtain ⟨i, hi⟩ := pressureLoop_files out h; exact ⟨_, hi⟩
          · simp at h
      · cases hl : autoLoop T.physicalSizes T.areaPerPt solver A autoSteps autoSteps 0 Y none with
        | mk r outs =>
          rw [hl] at h
          have hm : out ∈ outs := by cases r <;> exact h
          have := autoLoop_files (sizes := T.physicalSizes) (ap := T.areaPerPt) (solver := solver) (A := A) (n := autoSteps) (k := autoSteps)
            (i := 0) (Y := Y) (o := none) out (by rw [hl]; exact hm)
          obtain ⟨i, hi⟩ := this
          exact ⟨_, hi⟩
    · obtain ⟨d, hd⟩ := Option.ne_none_iff_exists'.1 hd
      obtain ⟨e, he⟩ := C66_displacement_mode_fails T kw solver A d hd
      unfold hardWall at he
      rw [he] at h
      simp at h

/-- **C67** is false of the code: in every run and every step, the first map file written carries the macroscopic data (the seven
numbers of the log line), and every further one carries none. -/
theorem C67_only_first_map_has_data (T : Topo) (kw : List String) (solver : Solver) (A : CliArgs) :
    ∀ out ∈ (hardWall T kw solver A).2, ∀ k p, out.files[k]? = some p → p.2 = if k = 0 then out.log else [] := by
  intro out h k p hk
  obtain ⟨s, hs⟩ := hardWall_files T kw solver A out h
  rw [hs] at hk
  exact writeMaps_head s A.maps out.log k p hk

/-- **C67** holds when at most one map is asked for. -/
theorem C67_single_map_partial (T : Topo) (kw : List String) (solver : Solver) (A : CliArgs) (hone : (A.maps.filterMap id).length ≤ 1) :
    ∀ out ∈ (hardWall T kw solver A).2, ∀ p ∈ out.files, p.2 = out.log := by
  intro out h p hp
  obtain ⟨s, hs⟩ := hardWall_files T kw solver A out h
  obtain ⟨k, hk⟩ := List.mem_iff_getElem?.1 hp
  have hl : out.files.length ≤ 1 := by
    have := congrArg List.length (writeMaps_names s A.maps out.log)
    rw [← hs] at this
    simp only [List.length_map] at this
    omega
  have hk0 : k = 0 := by
    by_contra hc
    rw [List.getElem?_eq_none (by omega)] at hk; cases hk
  rw [C67_only_first_map_has_data T kw solver A out h k p hk, if_pos hk0]

end CM.Cli
