import Verif.Props.Pipeline
/-!
# The automated pipeline: C60-C64
-/
set_option linter.unusedSimpArgs false
namespace CM.Pipe
open Finset CM.HS CM.FFT CM.System CM.Spec

variable {nx ny : ℕ} {sx sy : ℝ} {T : Topo}

lemma hardness_eq (A : PipeArgs) : usedHardness A = effectiveHardness A := by
  unfold usedHardness effectiveHardness
  cases A.hardness with
  | none => rfl
  | some H => by_cases h : 0 < H <;> simp [h, Option.filter]

lemma pentol_eq (hT : ValidTopo T nx ny sx sy) : pipePentol T = max (T.rmsHeight / (10 * ((nx + ny) / 2))) 1e-12 := by
  unfold pipePentol
  rw [hT.heights]
  congr 1
  · simp
  · norm_num

/-- Unfolded run: setting up, the loop, the result. -/
lemma run_cases (hT : ValidTopo T nx ny sx sy) (solver : Solver) (hfit : ∀ c r, solver c = .ok r → Fits nx ny r) (A : PipeArgs)
    (hA : ExactlyOne A) :
    (∃ e, contactMechanics T solver A = (.error e, []) ∧ makePipeSystem T A = .error e) ∨
    (∃ Y ds reps, makePipeSystem T A = .ok Y ∧ reps = (if A.callback then ds.map StepData.report else []) ∧
      ((contactMechanics T solver A = ((if ds = [] then .error .typeError else .ok (columns (ds.map (StepData.record nx ny sx sy)))), reps) ∧
        Chain nx ny sx sy T.heights (usedHardness A) (some (pipePentol T)) A.maxiter solver [] T.heights.get (requests T A) ds) ∨
      (∃ e q rest done c, requests T A = done ++ q :: rest ∧ contactMechanics T solver A = (.error e, reps) ∧
        Chain nx ny sx sy T.heights (usedHardness A) (some (pipePentol T)) A.maxiter solver [] T.heights.get done ds ∧
        solver c = .error e ∧ c.offset = (asks T.heights (ds.map (StepData.record nx ny sx sy)) q).1 ∧
        c.externalForce = (asks T.heights (ds.map (StepData.record nx ny sx sy)) q).2 ∧
        c.hardness = forceHardness nx ny sx sy (usedHardness A) ∧ c.pentol = some (pipePentol T) ∧ c.maxiter = A.maxiter ∧
        (q = .auto ∨ usedHardness A = none → c.heights = T.heights)))) := by
  cases hY : makePipeSystem T A with
  | error e =>
    left
    refine ⟨e, ?_, rfl⟩
    unfold contactMechanics
    rw [(validate_iff A).2 hA]
    simp only [bind, Except.bind, hY]
  | ok Y =>
    right
    obtain ⟨hr, hh⟩ := system_ready hT hY
    obtain ⟨ds, reps, e1, h⟩ := runSteps_chain hT.heights hT.nx_pos hT.ny_pos hT.sx_pos hT.sy_pos solver hfit (some (pipePentol T)) A.maxiter
      A.callback (requests T A) Y none [] T.heights.get hr rfl (by rw [hh]; intro i _ j _; rfl)
    refine ⟨Y, ds, reps, rfl, e1, ?_⟩
    have hcm : ∀ x, runSteps [sx, sy] solver (some (pipePentol T)) A.maxiter A.callback Y none (requests T A) = x →
        contactMechanics T solver A = match (generalizing := false) x with
        | (.error e, reps) => (.error e, reps)
        | (.ok none, reps) => (.error .typeError, reps)
        | (.ok (some h), reps) => (.ok ⟨h.pressure, h.area, h.disp, h.gap, h.converged⟩, reps) := by
      rintro x rfl
      unfold contactMechanics
      rw [(validate_iff A).2 hA]
      simp only [bind, Except.bind, hY, hT.sizes]
      rfl
    rcases h with ⟨o', k1, k2, k3, k4, k5⟩ | ⟨e, q, rest, done, c, k1, k2, k3, k4, k5, k6, k7⟩
    · left
      refine ⟨?_, k2⟩
      rw [hcm _ k1]
      cases o' with
      | none =>
        have : requests T A = [] := by by_contra hne; simpa using k3 hne
        rw [this] at k2
        have hl := k2.length
        have : ds = [] := by simpa using hl
        simp [this]
      | some o' =>
        have hne : ds ≠ [] := by
          rintro rfl
          have hl := k2.length
          have : requests T A = [] := by simpa using hl.symm
          have := k4 this
          cases this
        rw [if_neg hne]
        have : o' = histOf (ds.map (StepData.record nx ny sx sy)) := k5
        rw [this]
        rfl
    · right
      refine ⟨e, q, rest, done, c, k1, ?_, k3, k4, k5, k6, k7⟩
      rw [hcm _ k2]

/-- From the loop invariant to the specification. -/
lemma chain_run (hT : ValidTopo T nx ny sx sy) {A : PipeArgs} {solver : Solver} {qs : List Request} {ds : List StepData}
    (h : Chain nx ny sx sy T.heights (usedHardness A) (some (pipePentol T)) A.maxiter solver [] T.heights.get qs ds)
    (fresh : Bool) (hfr : ∀ q ∈ qs, (fresh = true ↔ q = .auto)) (ask : ℕ → List Record → Option ℝ → Option ℝ → Prop)
    (hask : ∀ k q, qs[k]? = some q → ∀ prev : List Record, prev.length = k → ask k prev (asks T.heights prev q).1 (asks T.heights prev q).2) :
    IsRun T nx ny sx sy A solver fresh ask ds := by
  have hl := h.length
  have hq : ∀ (k : ℕ) (d : StepData), ds[k]? = some d → ∃ q, qs[k]? = some q ∧ q ∈ qs := by
    intro k d hd
    have : k < ds.length := by by_contra hc; rw [List.getElem?_eq_none (by omega)] at hd; cases hd
    exact ⟨qs[k], List.getElem?_eq_getElem (by omega), by simp⟩
  have hidx : ∀ d ∈ ds, ∃ (k : ℕ) (q : Request), ds[k]? = some d ∧ qs[k]? = some q ∧ q ∈ qs := by
    intro d hd
    obtain ⟨k, hk⟩ := List.mem_iff_getElem?.1 hd
    obtain ⟨q, h1, h2⟩ := hq k d hk
    exact ⟨k, q, hk, h1, h2⟩
  refine ⟨?_, ?_, ?_, ?_, ?_, ?_⟩
  · intro k d hd
    obtain ⟨q, h1, -⟩ := hq k d hd
    obtain ⟨hs, -⟩ := h.get k q d h1 hd
    refine ⟨_, _, hask k q h1 ((ds.take k).map (StepData.record nx ny sx sy)) ?_, ?_⟩
    · have : k < ds.length := by by_contra hc; rw [List.getElem?_eq_none (by omega)] at hd; cases hd
      simp; omega
    · have := hs.call
      rw [pentol_eq hT, hardness_eq] at this
      rw [this]; rfl
  · intro d hd
    obtain ⟨k, q, h1, h2, -⟩ := hidx d hd
    exact (h.get k q d h2 h1).1.solved
  · intro d hd
    obtain ⟨k, q, h1, h2, -⟩ := hidx d hd
    rw [← hardness_eq]
    exact (h.get k q d h2 h1).1.report
  · intro d hd
    obtain ⟨q, h1, -⟩ := hq 0 d hd
    obtain ⟨hs, hn⟩ := h.get 0 q d h1 hd
    by_cases ha : q = .auto
    · rw [hs.auto (.inl ha)]; intro i _ j _; rfl
    · exact hn ha
  · intro hf k d d' hd hd'
    obtain ⟨q, h1, hm⟩ := hq (k + 1) d' hd'
    obtain ⟨hs, hn⟩ := h.get (k + 1) q d' h1 hd'
    have hna : q ≠ .auto := fun e => by have := (hfr q hm).2 e; rw [hf] at this; cases this
    have := hn hna
    simp only [hd] at this
    rw [← hardness_eq]; exact this
  · intro hf d hd
    obtain ⟨k, q, h1, h2, hm⟩ := hidx d hd
    refine (h.get k q d h2 h1).1.auto ?_
    rcases hf with hf | hf
    · exact .inl ((hfr q hm).1 hf)
    · exact .inr (by rw [hardness_eq]; exact hf)

/-- **C60** With a list of offsets: the calculation returns one row per offset, in order.  There are steps `D`, one per
offset, such that step `k` asked the solver for `offsets[k]` (no external force), the five returned arrays are the five
columns of the steps' rows, and the callback was called once per step, in the same order, with the data of
the step. -/
theorem C60_offsets (hT : ValidTopo T nx ny sx sy) (solver : Solver) (hfit : ∀ c r, solver c = .ok r → Fits nx ny r) (A : PipeArgs)
    (os : List ℝ) (h1 : A.offsets = some os) {R : Result} {reps : List Report} (h : contactMechanics T solver A = (.ok R, reps)) :
    ∃ D, D.length = os.length ∧
      IsRun T nx ny sx sy A solver false (fun k _ o F => o = os[k]? ∧ F = none) D ∧
      R = columns (D.map (StepData.record nx ny sx sy)) ∧ reps = (if A.callback then D.map StepData.report else []) := by
  have hA : ExactlyOne A := by
    by_contra hc
    rw [C59_argument_validation T solver A hc] at h; cases h
  have hq : requests T A = os.map .offset := by unfold requests; rw [h1]
  rcases run_cases hT solver hfit A hA with ⟨e, h2, -⟩ | ⟨Y, ds, reps', -, e1, ⟨h2, hc⟩ | ⟨e, q, rest, done, c, -, h2, -⟩⟩
  · rw [h2] at h; cases h
  · rw [h2] at h
    by_cases hn : ds = []
    · rw [if_pos hn] at h; cases h
    rw [if_neg hn] at h
    simp only [Prod.mk.injEq, Except.ok.injEq] at h
    rw [hq] at hc
    refine ⟨ds, by simpa using hc.length, chain_run hT hc false ?_ _ ?_, h.1.symm, by rw [← h.2, e1]⟩
    · intro q hq; simp at hq; obtain ⟨x, -, rfl⟩ := hq; simp
    · intro k q hk prev _
      simp only [List.getElem?_map, Option.map_eq_some_iff] at hk
      obtain ⟨x, hx, rfl⟩ := hk
      exact ⟨hx.symm, rfl⟩
  · rw [h2] at h; cases h

/-- **C60** With a list of pressures: the same, step `k` asking for the external force `pressures[k]·sx·sy`. -/
theorem C60_pressures (hT : ValidTopo T nx ny sx sy) (solver : Solver) (hfit : ∀ c r, solver c = .ok r → Fits nx ny r) (A : PipeArgs)
    (ps : List ℝ) (h1 : A.pressures = some ps) {R : Result} {reps : List Report} (h : contactMechanics T solver A = (.ok R, reps)) :
    ∃ D, D.length = ps.length ∧
      IsRun T nx ny sx sy A solver false (fun k _ o F => o = none ∧ F = ps[k]?.map fun p => p * (sx * sy)) D ∧
      R = columns (D.map (StepData.record nx ny sx sy)) ∧ reps = (if A.callback then D.map StepData.report else []) := by
  have hA : ExactlyOne A := by
    by_contra hc
    rw [C59_argument_validation T solver A hc] at h; cases h
  have ho : A.offsets = none := by unfold ExactlyOne at hA; rw [h1] at hA; simp at hA; exact hA.2
  have hq : requests T A = ps.map fun p => .force (p * (sx * sy)) := by unfold requests; rw [h1, ho, hT.sizes]; simp
  rcases run_cases hT solver hfit A hA with ⟨e, h2, -⟩ | ⟨Y, ds, reps', -, e1, ⟨h2, hc⟩ | ⟨e, q, rest, done, c, -, h2, -⟩⟩
  · rw [h2] at h; cases h
  · rw [h2] at h
    by_cases hn : ds = []
    · rw [if_pos hn] at h; cases h
    rw [if_neg hn] at h
    simp only [Prod.mk.injEq, Except.ok.injEq] at h
    rw [hq] at hc
    refine ⟨ds, by simpa using hc.length, chain_run hT hc false ?_ _ ?_, h.1.symm, by rw [← h.2, e1]⟩
    · intro q hq; simp at hq; obtain ⟨x, -, rfl⟩ := hq; simp
    · intro k q hk prev _
      simp only [List.getElem?_map, Option.map_eq_some_iff] at hk
      obtain ⟨x, hx, rfl⟩ := hk
      exact ⟨rfl, by simp [asks, hx]⟩
  · rw [h2] at h; cases h

lemma nextOffset_choice (hb : T.heights.shape = [nx, ny]) (hx : 0 < nx) (hy : 0 < ny) (prev : List Record) :
    AutoChoice nx ny T.heights (prev.map fun r => (r.displacement, r.area)) (nextOffset T.heights (some (histOf prev))) := by
  match hp : prev with
  | [] => simp [AutoChoice, nextOffset, histOf, npMean2 hb]
  | [r] =>
    refine ⟨npMax T.heights, npMax_top hb hx hy, ?_⟩
    simp only [nextOffset, histOf, List.map_cons, List.map_nil, List.length_cons, List.length_nil]
    norm_num [npMean2 hb]
    ring
  | r :: r' :: l =>
    rw [← hp]
    have hz : (histOf prev).disp.zip (histOf prev).area = prev.map fun r => (r.displacement, r.area) := by
      simp [histOf, List.zip_map']
    set rows := sortedBy Prod.snd (prev.map fun r => (r.displacement, r.area)) with hrows
    have hperm := sortedBy_perm Prod.snd (prev.map fun r => (r.displacement, r.area))
    have hlen : rows.length = prev.length := by rw [hrows, hperm.length_eq]; simp
    have h2 : 2 ≤ prev.length := by rw [hp]; simp
    have hne : rows.map Prod.snd ≠ [] := by
      intro e; have : rows.length = 0 := by simpa using congrArg List.length e
      omega
    have hd : dArea (nx * ny) (rows.map Prod.snd) ≠ [] := by
      intro e; have := congrArg List.length e; rw [dArea_length _ _ hne] at this; simp at this; rw [this] at hne; simp at hne
    obtain ⟨a1, a2, a3⟩ := argmax_spec hd
    rw [dArea_length _ _ hne, List.length_map] at a1 a2
    have hgap : ∀ k < rows.length, (dArea (nx * ny) (rows.map Prod.snd)).getD k 0 = areaGap (nx * ny) rows k :=
      fun k hk => dArea_getD _ _ _ hk
    have hsp : T.heights.shape.prod = nx * ny := by rw [hb]; simp
    have hgoal : ∃ bot rows k, IsMinHeight nx ny T.heights bot ∧ rows.Perm (prev.map fun r => (r.displacement, r.area)) ∧
        rows.Pairwise (fun a b => a.2 ≤ b.2) ∧ k < rows.length ∧
        (∀ l < rows.length, areaGap (nx * ny) rows l ≤ areaGap (nx * ny) rows k) ∧
        (∀ l < k, areaGap (nx * ny) rows l < areaGap (nx * ny) rows k) ∧
        ((k + 1 < rows.length ∧ nextOffset T.heights (some (histOf prev)) = ((rows.getD k (0, 0)).1 + (rows.getD (k + 1) (0, 0)).1) / 2) ∨
         (k + 1 = rows.length ∧ nextOffset T.heights (some (histOf prev)) = bot + 2 * ((rows.getD k (0, 0)).1 - bot))) := by
      refine ⟨npMin T.heights, rows, argmax (dArea (nx * ny) (rows.map Prod.snd)), npMin_bottom hb hx hy, hperm, sortedBy_sorted _ _, a1, ?_, ?_, ?_⟩
      · intro l hl; rw [← hgap l hl, ← hgap _ a1]; exact a2 l hl
      · intro l hl; rw [← hgap l (by omega), ← hgap _ a1]; exact a3 l hl
      · have hst : (histOf prev).disp.length = prev.length := by simp [histOf]
        have hget : ∀ k < rows.length, (rows.map Prod.fst).getD k 0 = (rows.getD k (0, 0)).1 := by
          intro k hk
          rw [List.getD_eq_getElem _ _ (by simpa using hk), List.getD_eq_getElem _ _ hk]; simp
        have hval : nextOffset T.heights (some (histOf prev)) =
            if argmax (dArea (nx * ny) (rows.map Prod.snd)) = prev.length - 1 then
              npMin T.heights + 2 * ((rows.map Prod.fst).getLastD 0 - npMin T.heights)
            else ((rows.map Prod.fst).getD (argmax (dArea (nx * ny) (rows.map Prod.snd))) 0 +
              (rows.map Prod.fst).getD (argmax (dArea (nx * ny) (rows.map Prod.snd)) + 1) 0) / 2 := by
          unfold nextOffset
          dsimp only
          rw [hst, if_neg (by omega), if_neg (by omega), hz, hsp]
        rw [hval]
        by_cases hlast : argmax (dArea (nx * ny) (rows.map Prod.snd)) = prev.length - 1
        · right
          rw [if_pos hlast]
          refine ⟨by omega, ?_⟩
          have hl0 : rows.map Prod.fst ≠ [] := by
            intro e; have := congrArg List.length e; simp at this; rw [this] at hne; simp at hne
          rw [← hget _ a1, List.getLastD_eq_getLast?, List.getLast?_eq_getLast_of_ne_nil hl0, Option.getD_some, List.getLast_eq_getElem,
            List.getD_eq_getElem _ _ (by simpa using a1)]
          congr 3
          simp only [List.length_map]
          congr 1
          omega
        · left
          rw [if_neg hlast, hget _ a1, hget _ (by omega)]
          exact ⟨by omega, rfl⟩
    have : prev.map (fun r => (r.displacement, r.area)) = (r.displacement, r.area) :: (r'.displacement, r'.area) :: l.map (fun r => (r.displacement, r.area)) := by
      rw [hp]; rfl
    unfold AutoChoice
    rw [this] at hgoal ⊢
    exact hgoal

/-- **C62** and **C60** in automatic mode: one row per step (a non-positive number of steps gives none), the offset of every step
is the documented choice from the previous rows, and -- **C61** -- every step finds the undeformed surface, also in
a plastic calculation. -/
theorem C62_automatic_offsets (hT : ValidTopo T nx ny sx sy) (solver : Solver) (hfit : ∀ c r, solver c = .ok r → Fits nx ny r) (A : PipeArgs)
    (n : ℤ) (h1 : A.nsteps = some n) {R : Result} {reps : List Report} (h : contactMechanics T solver A = (.ok R, reps)) :
    ∃ D : List StepData, (D.length : ℤ) = n ∧
      IsRun T nx ny sx sy A solver true (fun _ rows o F =>
        (∃ x, o = some x ∧ AutoChoice nx ny T.heights (rows.map fun r => (r.displacement, r.area)) x) ∧ F = none) D ∧
      R = columns (D.map (StepData.record nx ny sx sy)) ∧ reps = (if A.callback then D.map StepData.report else []) := by
  have hA : ExactlyOne A := by
    by_contra hc
    rw [C59_argument_validation T solver A hc] at h; cases h
  have ho : A.offsets = none ∧ A.pressures = none := by unfold ExactlyOne at hA; rw [h1] at hA; simp at hA; exact hA
  have hq : requests T A = List.replicate n.toNat .auto := by unfold requests; rw [h1, ho.1, ho.2]; rfl
  rcases run_cases hT solver hfit A hA with ⟨e, h2, -⟩ | ⟨Y, ds, reps', -, e1, ⟨h2, hc⟩ | ⟨e, q, rest, done, c, -, h2, -⟩⟩
  · rw [h2] at h; cases h
  · rw [h2] at h
    by_cases hn : ds = []
    · rw [if_pos hn] at h; cases h
    rw [if_neg hn] at h
    simp only [Prod.mk.injEq, Except.ok.injEq] at h
    rw [hq] at hc
    have hl := hc.length
    have h0 : 0 < ds.length := List.length_pos_iff.2 hn
    refine ⟨ds, by rw [hl] at h0 ⊢; simp at h0 ⊢; omega, chain_run hT hc true ?_ _ ?_, h.1.symm, by rw [← h.2, e1]⟩
    · intro q hq; simp [List.mem_replicate] at hq; simp [hq]
    · intro k q hk prev _
      have : q = .auto := by
        have := List.mem_of_getElem? hk
        simp [List.mem_replicate] at this; exact this.2
      subst this
      exact ⟨⟨_, rfl, nextOffset_choice hT.heights hT.nx_pos hT.ny_pos prev⟩, rfl⟩
  · rw [h2] at h; cases h

end CM.Pipe
