import Verif.Lemmas.Pipeline
import Verif.Lemmas.Argmax
/-!
# The automated pipeline: C59-C64
-/
set_option linter.unusedSimpArgs false
namespace CM.Pipe
open Finset CM.HS CM.FFT CM.System CM.Spec

variable {nx ny : ℕ} {sx sy : ℝ} {T : Topo}

/-! ## C59 -/

lemma validate_iff (A : PipeArgs) : validate A = .ok () ↔ ExactlyOne A := by
  unfold validate ExactlyOne
  cases A.nsteps <;> cases A.offsets <;> cases A.pressures <;> simp

lemma validate_err (A : PipeArgs) (h : ¬ ExactlyOne A) : validate A = .error .valueError := by
  unfold ExactlyOne at h
  unfold validate
  revert h
  cases A.nsteps <;> cases A.offsets <;> cases A.pressures <;> simp

/-- **C59** Unless exactly one of `nsteps`, `offsets`, `pressures` is given, `contact_mechanics` raises
`ValueError` and has called neither the solver nor the callback: the outcome is the same for every
topography and every solver. -/
theorem C59_argument_validation (T : Topo) (solver : Solver) (A : PipeArgs) (h : ¬ ExactlyOne A) :
    contactMechanics T solver A = (.error .valueError, []) := by
  unfold contactMechanics
  rw [validate_err A h]
  rfl

/-! ## Setting up -/

lemma substrate_ready (hT : ValidTopo T nx ny sx sy) {o : Option String} {sub : Substrate} (h : makeSubstrate T o = .ok sub) :
    sub.topo = [nx, ny] ∧ sub.hs.physicalSizes = [sx, sy] ∧ sub.checkFlag = false := by
  have hsz : T.physicalSizes = [sx, sy] := hT.sizes
  unfold makeSubstrate at h
  split at h
  · cases hc : construct ⟨T.heights.shape, 1, T.physicalSizes, none, none, 0, none⟩ with
    | error e => rw [hc] at h; cases h
    | ok s =>
      rw [hc] at h
      cases h
      have hv : ValidArgs ⟨T.heights.shape, 1, T.physicalSizes, none, none, 0, none⟩ := by
        constructor <;> simp [hsz, hT.sx_pos, hT.sy_pos]
      obtain ⟨_, _, P⟩ := per_of_construct hv hc hT.heights
      refine ⟨P.grid, ?_, rfl⟩
      rw [P.sizes]; simp [size, hsz]
  · cases hc : constructFree ⟨T.heights.shape, 1, T.physicalSizes, none⟩ with
    | error e => rw [hc] at h; cases h
    | ok s =>
      rw [hc] at h
      cases h
      have hv : ValidFree ⟨T.heights.shape, 1, T.physicalSizes, none⟩ := by
        constructor <;> simp [hsz, hT.sx_pos, hT.sy_pos]
      obtain ⟨_, _, P⟩ := free_of_construct hv hc hT.heights
      refine ⟨P.grid, ?_, rfl⟩
      rw [P.sizes]; simp [sizeF, hsz]
  · cases h

lemma system_ready (hT : ValidTopo T nx ny sx sy) {A : PipeArgs} {Y : AnySys} (h : makePipeSystem T A = .ok Y) :
    Ready nx ny sx sy T.heights (usedHardness A) Y ∧ Y.heights = T.heights := by
  unfold makePipeSystem at h
  cases hs : makeSubstrate T A.substrate with
  | error e => rw [hs] at h; cases h
  | ok sub =>
    obtain ⟨h1, h2, h3⟩ := substrate_ready hT hs
    obtain ⟨S, k1, k2, k3, -⟩ := (C56_incompatible_resolution_iff sub T.heights).2 (hT.heights.trans h1.symm)
    rw [hs] at h
    simp only [bind, Except.bind, k1] at h
    cases hh : usedHardness A with
    | none =>
      rw [hh] at h
      cases h
      exact ⟨⟨by rw [← k2] at h1; exact h1, by rw [← k2] at h2; exact h2, by rw [← k2] at h3; exact h3, ⟨S, rfl, k3⟩⟩, k3⟩
    | some H =>
      rw [hh] at h
      cases h
      have ht : S.sub.topo = [nx, ny] := by rw [k2]; exact h1
      refine ⟨⟨ht, by rw [← k2] at h2; exact h2, by rw [← k2] at h3; exact h3, ⟨_, rfl, ⟨?_, ?_, ?_, ?_⟩, rfl, rfl, ?_⟩⟩, k3⟩
      · show S.heights.shape = S.sub.topo
        rw [k3, ht]; exact hT.heights
      · show T.heights.shape = S.sub.topo
        rw [ht]; exact hT.heights
      · show T.heights.shape = S.sub.topo
        rw [ht]; exact hT.heights
      · intro x _
        simp [k3, NdArray.map]
      · simp [Topo.areaPerPt, hT.sizes, hT.heights]

/-- The system can be set up on every grid with at least two points per direction. -/
lemma system_ok (hT : ValidTopo T nx ny sx sy) (hx : 1 < nx) (hy : 1 < ny) (A : PipeArgs)
    (hs : A.substrate = none ∨ A.substrate = some "periodic" ∨ A.substrate = some "nonperiodic") :
    ∃ Y, makePipeSystem T A = .ok Y := by
  have hsz : T.physicalSizes = [sx, sy] := hT.sizes
  have hcp : ∃ s, construct ⟨T.heights.shape, 1, T.physicalSizes, none, none, 0, none⟩ = .ok s := by
    rw [C13_construct_ok_iff]
    simp only [hT.heights, hsz]
    simp; omega
  have hcf : ∃ s, constructFree ⟨T.heights.shape, 1, T.physicalSizes, none⟩ = .ok s := by
    have := initAttrs_ok (a := FreeArgs.base ⟨T.heights.shape, 1, T.physicalSizes, none⟩) (dom := T.heights.shape.map (2 * ·)) |>.mpr
      ⟨by simp [FreeArgs.base, hT.heights], .inl rfl, by simp [FreeArgs.base, hsz],
        by simp [FreeArgs.base, hT.heights]; omega, by simp [FreeArgs.base], by simp [FreeArgs.base], rfl⟩
    unfold constructFree
    dsimp only
    rw [this]
    simp only [bind, Except.bind, FreeArgs.base, hT.heights, hsz, List.length_cons, List.length_nil]
    exact ⟨_, rfl⟩
  have hsub : ∃ sub, makeSubstrate T A.substrate = .ok sub := by
    obtain ⟨s, hs1⟩ := hcp
    obtain ⟨s', hs2⟩ := hcf
    unfold makeSubstrate
    rcases hs with e | e | e <;> rw [e]
    · cases T.isPeriodic
      · simp only [Option.getD_none, Bool.false_eq_true, if_false, hs2]; exact ⟨_, rfl⟩
      · simp only [Option.getD_none, if_true, hs1]; exact ⟨_, rfl⟩
    · simp only [Option.getD_some, hs1]; exact ⟨_, rfl⟩
    · simp only [Option.getD_some, hs2]; exact ⟨_, rfl⟩
  obtain ⟨sub, hsub⟩ := hsub
  obtain ⟨h1, -⟩ := substrate_ready hT hsub
  obtain ⟨S, k1, -⟩ := (C56_incompatible_resolution_iff sub T.heights).2 (hT.heights.trans h1.symm)
  unfold makePipeSystem
  rw [hsub]
  simp only [bind, Except.bind, k1]
  cases usedHardness A <;> exact ⟨_, rfl⟩

/-! ## The loop -/

/-- Offset and force a step asks the solver for. -/
noncomputable def asks (base : NdArray ℝ) (prev : List Record) : Request → Option ℝ × Option ℝ
  | .offset o => (some o, none)
  | .force F => (none, some F)
  | .auto => (some (nextOffset base (some ⟨prev.map (·.displacement), prev.map (·.gap), prev.map (·.pressure),
      prev.map (·.area), prev.map (·.converged)⟩)), none)

/-- History with the given rows. -/
def histOf (l : List Record) : History :=
  ⟨l.map (·.displacement), l.map (·.gap), l.map (·.pressure), l.map (·.area), l.map (·.converged)⟩

lemma histOf_push (l : List Record) (r : Record) : (histOf l).push r = histOf (l ++ [r]) := by
  simp [histOf, History.push]

/-- The history variable holds the rows `l`. -/
def Holds (o : Option History) (l : List Record) : Prop := o.getD .empty = histOf l

lemma nextOffset_holds {base : NdArray ℝ} {o : Option History} {l : List Record} (h : Holds o l) :
    nextOffset base o = nextOffset base (some (histOf l)) := by
  cases o with
  | none =>
    have : histOf l = History.empty := h.symm
    rw [this]
    simp [nextOffset, History.empty]
  | some x =>
    have : x = histOf l := h
    rw [this]

lemma Ready.elastic_heights {base : NdArray ℝ} {H : Option ℝ} {Y : AnySys} (h : Ready nx ny sx sy base H Y) (hH : H = none) :
    Y.heights = base := by
  subst hH
  obtain ⟨S, rfl, e⟩ := h.kind
  exact e

/-- One step of the loop. -/
structure IsStep (nx ny : ℕ) (sx sy : ℝ) (base : NdArray ℝ) (H pt : Option ℝ) (mi : ℤ) (solver : Solver) (prev : List Record)
    (q : Request) (d : StepData) : Prop where
  call : d.call = ⟨d.before, forceHardness nx ny sx sy H, (asks base prev q).1, (asks base prev q).2, pt, mi⟩
  solved : solver d.call = .ok d.result
  report : ReportMatches nx ny sx sy (heightAfter H.isSome d.before d.result) d.result d.report
  auto : q = .auto ∨ H = none → d.before = base

lemma step_ready {base : NdArray ℝ} {H : Option ℝ} {Y : AnySys} (hb : base.shape = [nx, ny]) (hnx : 0 < nx) (hny : 0 < ny) (hsx : 0 < sx)
    (hsy : 0 < sy) (h : Ready nx ny sx sy base H Y) (solver : Solver) (hfit : ∀ c r, solver c = .ok r → Fits nx ny r)
    (pt : Option ℝ) (mi : ℤ) (o : Option History) (prev : List Record) (ho : Holds o prev) (q : Request) :
    (∃ e, (runStep [sx, sy] solver pt mi Y o q).1 = .error e ∧
      ∃ h0, (q = .auto ∨ H = none → h0 = base) ∧
        solver ⟨h0, forceHardness nx ny sx sy H, (asks base prev q).1, (asks base prev q).2, pt, mi⟩ = .error e) ∨
    (∃ d h' Y', runStep [sx, sy] solver pt mi Y o q = (.ok (d.report, h'), Y') ∧ IsStep nx ny sx sy base H pt mi solver prev q d ∧
      (q ≠ .auto → d.before = Y.heights) ∧ h' = histOf (prev ++ [recordOf nx ny sx sy d.before d.result]) ∧
      Ready nx ny sx sy base H Y' ∧ AgreeOn nx ny Y'.heights (heightAfter H.isSome d.before d.result)) := by
  have key : ∀ (Y : AnySys) (off ext : Option ℝ), Ready nx ny sx sy base H Y →
      (asks base prev q) = (off, ext) → runStep [sx, sy] solver pt mi Y o q = contactCalculation [sx, sy] solver Y off ext o pt mi →
      (q = .auto → Y.heights = base) →
      (∃ e, (runStep [sx, sy] solver pt mi Y o q).1 = .error e ∧
        solver ⟨Y.heights, forceHardness nx ny sx sy H, (asks base prev q).1, (asks base prev q).2, pt, mi⟩ = .error e) ∨
      (∃ d h' Y', runStep [sx, sy] solver pt mi Y o q = (.ok (d.report, h'), Y') ∧ IsStep nx ny sx sy base H pt mi solver prev q d ∧
        d.before = Y.heights ∧ h' = histOf (prev ++ [recordOf nx ny sx sy d.before d.result]) ∧
        Ready nx ny sx sy base H Y' ∧ AgreeOn nx ny Y'.heights (heightAfter H.isSome d.before d.result)) := by
    intro Y off ext h ha hrun hbase
    have hbase : q = .auto ∨ H = none → Y.heights = base := fun hq => hq.elim hbase h.elastic_heights
    obtain ⟨c1, c2⟩ := calc_ready hb hnx hny hsx hsy h solver off ext pt mi o
    rw [hrun, ha]
    cases hs : solver ⟨Y.heights, forceHardness nx ny sx sy H, off, ext, pt, mi⟩ with
    | error e => exact .inl ⟨e, c1 e hs, rfl⟩
    | ok r =>
      obtain ⟨rep, Y', k1, k2, k3, k4⟩ := c2 r hs (hfit _ _ hs)
      refine .inr ⟨⟨Y.heights, ⟨Y.heights, forceHardness nx ny sx sy H, off, ext, pt, mi⟩, r, rep⟩, _, Y', k1, ⟨?_, hs, k4, hbase⟩, rfl, ?_, k2, k3⟩
      · rw [ha]
      · rw [show o.getD .empty = histOf prev from ho, histOf_push]
  cases q with
  | offset x =>
    rcases key Y (some x) none h rfl rfl (by simp) with ⟨e, h1, h2⟩ | ⟨d, h', Y', h1, h2, h3, h4⟩
    · exact .inl ⟨e, h1, Y.heights, fun hq => hq.elim (by simp) h.elastic_heights, h2⟩
    · exact .inr ⟨d, h', Y', h1, h2, fun _ => h3, h4⟩
  | force F =>
    rcases key Y none (some F) h rfl rfl (by simp) with ⟨e, h1, h2⟩ | ⟨d, h', Y', h1, h2, h3, h4⟩
    · exact .inl ⟨e, h1, Y.heights, fun hq => hq.elim (by simp) h.elastic_heights, h2⟩
    · exact .inr ⟨d, h', Y', h1, h2, fun _ => h3, h4⟩
  | auto =>
    obtain ⟨r1, r2⟩ := reset_ready hb h
    have hr : Y.resetPlastic.resetPlastic = Y.resetPlastic := by
      cases Y <;> simp [AnySys.resetPlastic, NdArray.map]
    have hrun : runStep [sx, sy] solver pt mi Y o .auto = runStep [sx, sy] solver pt mi Y.resetPlastic o .auto := by
      show contactCalculation _ _ Y.resetPlastic _ _ _ _ _ = contactCalculation _ _ Y.resetPlastic.resetPlastic _ _ _ _ _
      rw [hr]
    rw [hrun]
    rcases key Y.resetPlastic (some (nextOffset base (some (histOf prev)))) none r1 rfl (by
        show contactCalculation _ _ Y.resetPlastic.resetPlastic _ _ _ _ _ = _
        rw [hr, r2, nextOffset_holds ho]) (fun _ => r2) with ⟨e, h1, h2⟩ | ⟨d, h', Y', h1, h2, h3, h4⟩
    · exact .inl ⟨e, h1, _, fun _ => r2, h2⟩
    · exact .inr ⟨d, h', Y', h1, h2, by simp, h4⟩

/-- Steps following each other: the surface a step finds is the one the step before left behind, except that
automatic steps start from the undeformed surface. -/
def Chain (nx ny : ℕ) (sx sy : ℝ) (base : NdArray ℝ) (H pt : Option ℝ) (mi : ℤ) (solver : Solver) :
    List Record → (List ℕ → ℝ) → List Request → List StepData → Prop
  | _, _, [], [] => True
  | prev, cur, q :: qs, d :: ds => IsStep nx ny sx sy base H pt mi solver prev q d ∧
      (q ≠ .auto → AgreeOn nx ny d.before cur) ∧
      Chain nx ny sx sy base H pt mi solver (prev ++ [recordOf nx ny sx sy d.before d.result])
        (heightAfter H.isSome d.before d.result) qs ds
  | _, _, _, _ => False

lemma runSteps_chain {base : NdArray ℝ} {H : Option ℝ} (hb : base.shape = [nx, ny]) (hnx : 0 < nx) (hny : 0 < ny) (hsx : 0 < sx)
    (hsy : 0 < sy) (solver : Solver) (hfit : ∀ c r, solver c = .ok r → Fits nx ny r)
    (pt : Option ℝ) (mi : ℤ) (cb : Bool) (qs : List Request) : ∀ (Y : AnySys) (o : Option History) (prev : List Record) (cur : List ℕ → ℝ),
    Ready nx ny sx sy base H Y → Holds o prev → AgreeOn nx ny Y.heights cur →
    ∃ ds reps, reps = (if cb then ds.map StepData.report else []) ∧
      ((∃ o', runSteps [sx, sy] solver pt mi cb Y o qs = (.ok o', reps) ∧
        Chain nx ny sx sy base H pt mi solver prev cur qs ds ∧ (qs ≠ [] → o'.isSome) ∧ (qs = [] → o' = o) ∧
        Holds o' (prev ++ ds.map fun d => recordOf nx ny sx sy d.before d.result)) ∨
      (∃ e q rest done c, qs = done ++ q :: rest ∧ runSteps [sx, sy] solver pt mi cb Y o qs = (.error e, reps) ∧
        Chain nx ny sx sy base H pt mi solver prev cur done ds ∧ solver c = .error e ∧
        c.offset = (asks base (prev ++ ds.map fun d => recordOf nx ny sx sy d.before d.result) q).1 ∧
        c.externalForce = (asks base (prev ++ ds.map fun d => recordOf nx ny sx sy d.before d.result) q).2 ∧
        c.hardness = forceHardness nx ny sx sy H ∧ c.pentol = pt ∧ c.maxiter = mi ∧ (q = .auto ∨ H = none → c.heights = base))) := by
  induction qs with
  | nil =>
    intro Y o prev cur hY ho hcur
    exact ⟨[], [], by simp, .inl ⟨o, rfl, trivial, by simp, fun _ => rfl, by simpa using ho⟩⟩
  | cons q qs ih =>
    intro Y o prev cur hY ho hcur
    rcases step_ready hb hnx hny hsx hsy hY solver hfit pt mi o prev ho q with ⟨e, h1, h0, hb0, h2⟩ | ⟨d, h', Y', h1, h2, h3, h4, h5, h6⟩
    · refine ⟨[], [], by simp, .inr ⟨e, q, qs, [], _, rfl, ?_, trivial, h2, by simp, by simp, rfl, rfl, rfl, hb0⟩⟩
      cases hr : runStep [sx, sy] solver pt mi Y o q with
      | mk a b =>
        rw [hr] at h1
        dsimp only at h1
        subst h1
        simp only [runSteps, hr]
    · have hd : (q ≠ .auto → AgreeOn nx ny d.before cur) := fun hq => by rw [h3 hq]; exact hcur
      obtain ⟨ds, reps, e1, hc⟩ := ih Y' (some h') (prev ++ [recordOf nx ny sx sy d.before d.result]) _ h5 h4 h6
      refine ⟨d :: ds, if cb then d.report :: reps else reps, by rw [e1]; cases cb <;> rfl, ?_⟩
      rcases hc with ⟨o', k1, k2, k3, k4, k5⟩ | ⟨e, q', rest, done, c, rfl, k1, k2, k3, k4, k5, k6⟩
      · left
        refine ⟨o', ?_, ⟨h2, hd, k2⟩, fun _ => ?_, by simp, by simpa using k5⟩
        · simp only [runSteps, h1, k1]
        · cases qs with
          | nil => rw [k4 rfl]; rfl
          | cons a l => exact k3 (by simp)
      · right
        refine ⟨e, q', rest, q :: done, c, rfl, ?_, ⟨h2, hd, k2⟩, k3, by simpa using k4, by simpa using k5, k6⟩
        simp only [List.append_eq, runSteps, h1, k1]

lemma Chain.length {base : NdArray ℝ} {H pt : Option ℝ} {mi : ℤ} {solver : Solver} : ∀ {qs : List Request} {ds : List StepData} {prev : List Record}
    {cur : List ℕ → ℝ}, Chain nx ny sx sy base H pt mi solver prev cur qs ds → ds.length = qs.length
  | [], [], _, _, _ => rfl
  | [], _ :: _, _, _, h => h.elim
  | _ :: _, [], _, _, h => h.elim
  | q :: qs, d :: ds, _, _, h => by simp [Chain.length h.2.2]

lemma Chain.get {base : NdArray ℝ} {H pt : Option ℝ} {mi : ℤ} {solver : Solver} : ∀ {qs : List Request} {ds : List StepData} {prev : List Record}
    {cur : List ℕ → ℝ}, Chain nx ny sx sy base H pt mi solver prev cur qs ds → ∀ k q d, qs[k]? = some q → ds[k]? = some d →
      IsStep nx ny sx sy base H pt mi solver (prev ++ (ds.take k).map fun d => recordOf nx ny sx sy d.before d.result) q d ∧
      (q ≠ .auto → AgreeOn nx ny d.before (match k with
        | 0 => cur
        | k + 1 => match ds[k]? with
          | some d' => heightAfter H.isSome d'.before d'.result
          | none => cur))
  | [], [], _, _, _, k, q, d, h, _ => by simp at h
  | [], _ :: _, _, _, h, _, _, _, _, _ => h.elim
  | _ :: _, [], _, _, h, _, _, _, _, _ => h.elim
  | q :: qs, d :: ds, prev, cur, h, 0, q', d', e1, e2 => by
    simp only [List.getElem?_cons_zero, Option.some.injEq] at e1 e2
    subst e1 e2
    exact ⟨by simpa using h.1, h.2.1⟩
  | q :: qs, d :: ds, prev, cur, h, k + 1, q', d', e1, e2 => by
    simp only [List.getElem?_cons_succ] at e1 e2
    obtain ⟨h1, h2⟩ := Chain.get h.2.2 k q' d' e1 e2
    refine ⟨by simpa using h1, fun hq => ?_⟩
    have := h2 hq
    cases k with
    | zero => simpa using this
    | succ k =>
      simp only [List.getElem?_cons_succ]
      cases hd : ds[k]? with
      | some x => simp only [hd] at this; exact this
      | none =>
        have := List.getElem?_eq_none_iff.1 hd
        have h3 : k + 1 < ds.length := by
          by_contra hcon
          rw [List.getElem?_eq_none (by omega)] at e2; cases e2
        omega

end CM.Pipe
