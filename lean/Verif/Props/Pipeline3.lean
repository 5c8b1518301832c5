import Verif.Props.Pipeline2
/-!
# The automated pipeline: totality and exceptions (C60), order (C61), no steps (C63), fields (C64)
-/
set_option linter.unusedSimpArgs false
namespace CM.Pipe
open Finset CM.HS CM.FFT CM.System CM.Spec

variable {nx ny : ℕ} {sx sy : ℝ} {T : Topo}

/-- Number of steps asked for. -/
def _root_.CM.Spec.nbSteps (A : PipeArgs) : ℕ :=
  match A.nsteps, A.offsets, A.pressures with
  | some n, none, none => n.toNat
  | none, some os, none => os.length
  | none, none, some ps => ps.length
  | _, _, _ => 0

/-- The substrate is left to the topography or named correctly. -/
def _root_.CM.Spec.KnownSubstrate (A : PipeArgs) : Prop :=
  A.substrate = none ∨ A.substrate = some "periodic" ∨ A.substrate = some "nonperiodic"

lemma requests_length (A : PipeArgs) (hA : ExactlyOne A) : (requests T A).length = nbSteps A := by
  unfold ExactlyOne at hA
  unfold requests nbSteps
  cases h1 : A.nsteps <;> cases h2 : A.offsets <;> cases h3 : A.pressures <;> simp [h1, h2, h3] at hA ⊢

/-- **C60** (totality) On a grid with at least two points per direction, with exactly one of `nsteps`, `offsets`,
`pressures` asking for at least one step, and a solver that returns arrays of the documented shapes, the calculation
returns -- converged or not. -/
theorem C60_returns (hT : ValidTopo T nx ny sx sy) (hx : 1 < nx) (hy : 1 < ny) (solver : Solver)
    (hfit : ∀ c r, solver c = .ok r → Fits nx ny r) (hok : ∀ c, ∃ r, solver c = .ok r) (A : PipeArgs) (hA : ExactlyOne A)
    (hs : KnownSubstrate A) (hn : 0 < nbSteps A) : ∃ R reps, contactMechanics T solver A = (.ok R, reps) := by
  obtain ⟨Y, hY⟩ := system_ok hT hx hy A hs
  rcases run_cases hT solver hfit A hA with ⟨e, -, h2⟩ | ⟨Y, ds, reps', -, e1, ⟨h2, hc⟩ | ⟨e, q, rest, done, c, -, -, -, h2, -⟩⟩
  · rw [hY] at h2; cases h2
  · have hl := hc.length
    rw [requests_length A hA] at hl
    rw [if_neg (by rintro rfl; simp at hl; omega)] at h2
    exact ⟨_, _, h2⟩
  · obtain ⟨r, hr⟩ := hok c
    rw [hr] at h2; cases h2

/-- **C60** (exceptions) If a calculation with offsets raises although it could be set up, the solver raised the same exception at some
step `k`; it was asked for `offsets[k]`; the callback has received the data of exactly the `k` steps before. -/
theorem C60_exception (hT : ValidTopo T nx ny sx sy) (hx : 1 < nx) (hy : 1 < ny) (solver : Solver)
    (hfit : ∀ c r, solver c = .ok r → Fits nx ny r) (A : PipeArgs) (hA : ExactlyOne A) (hs : KnownSubstrate A) (os : List ℝ)
    (h1 : A.offsets = some os) (hne : os ≠ []) {e : PyErr} {reps : List Report} (h : contactMechanics T solver A = (.error e, reps)) :
    ∃ D c, D.length < os.length ∧ solver c = .error e ∧ c.offset = os[D.length]? ∧ c.externalForce = none ∧
      IsRun T nx ny sx sy A solver false (fun k _ o F => o = os[k]? ∧ F = none) D ∧
      reps = (if A.callback then D.map StepData.report else []) := by
  obtain ⟨Y, hY⟩ := system_ok hT hx hy A hs
  have hq : requests T A = os.map .offset := by unfold requests; rw [h1]
  rcases run_cases hT solver hfit A hA with ⟨e, -, h2⟩ | ⟨Y, ds, reps', -, e1, ⟨h2, hc⟩ | ⟨e', q, rest, done, c, hd, h2, hc, hce, ho, hF, -⟩⟩
  · rw [hY] at h2; cases h2
  · have hl := hc.length
    rw [hq] at hl
    have : ds ≠ [] := by rintro rfl; simp at hl; exact hne (List.length_eq_zero_iff.1 hl.symm)
    rw [if_neg this] at h2
    rw [h2] at h; cases h
  · rw [h2] at h
    simp only [Prod.mk.injEq, Except.error.injEq] at h
    obtain ⟨rfl, rfl⟩ := h
    have hlen := hc.length
    rw [hq] at hd
    have hqk : (os.map Request.offset)[done.length]? = some q := by rw [hd]; simp
    simp only [List.getElem?_map, Option.map_eq_some_iff] at hqk
    obtain ⟨x, hxk, rfl⟩ := hqk
    have hdone : ∀ (k : ℕ) (q' : Request), done[k]? = some q' → ∃ x, os[k]? = some x ∧ q' = Request.offset x := by
      intro k q' hk
      have hlt : k < done.length := by by_contra hcon; rw [List.getElem?_eq_none (by omega)] at hk; cases hk
      have : (os.map Request.offset)[k]? = some q' := by rw [hd, List.getElem?_append_left hlt]; exact hk
      simp only [List.getElem?_map, Option.map_eq_some_iff] at this
      obtain ⟨x, h1, rfl⟩ := this
      exact ⟨x, h1, rfl⟩
    refine ⟨ds, c, ?_, hce, ?_, hF, chain_run hT hc false ?_ _ ?_, e1⟩
    · rw [hlen]; by_contra hcon; rw [List.getElem?_eq_none (by omega)] at hxk; cases hxk
    · rw [hlen, hxk]; exact ho
    · intro q' hq'
      obtain ⟨k, hk⟩ := List.mem_iff_getElem?.1 hq'
      obtain ⟨x, -, rfl⟩ := hdone k q' hk
      simp
    · intro k q' hk prev _
      obtain ⟨x, hx, rfl⟩ := hdone k q' hk
      exact ⟨hx.symm, rfl⟩

/-- **C60** (offsets come back unchanged) With a solver that keeps a prescribed offset, the returned displacements are
the offsets asked for. -/
theorem C60_offsets_unchanged (hT : ValidTopo T nx ny sx sy) (solver : Solver) (hfit : ∀ c r, solver c = .ok r → Fits nx ny r)
    (hkeep : ∀ c r o, solver c = .ok r → c.offset = some o → c.externalForce = none → r.offset = o) (A : PipeArgs)
    (os : List ℝ) (h1 : A.offsets = some os) {R : Result} {reps : List Report} (h : contactMechanics T solver A = (.ok R, reps)) :
    R.meanDisplacement = os ∧ (A.callback = true → reps.map (·.meanDisplacement) = os) := by
  obtain ⟨D, hl, hr, rfl, rfl⟩ := C60_offsets hT solver hfit A os h1 h
  have key : ∀ (k : ℕ) d, D[k]? = some d → os[k]? = some d.result.offset := by
    intro k d hd
    obtain ⟨o, F, ⟨h2, h3⟩, h4⟩ := hr.call k d hd
    have hk : k < D.length := by by_contra hc; rw [List.getElem?_eq_none (by omega)] at hd; cases hd
    have hs := hr.solved d (List.mem_of_getElem? hd)
    rw [List.getElem?_eq_getElem (by omega)] at h2 ⊢
    rw [hkeep d.call d.result os[k] hs (by rw [h4]; exact h2) (by rw [h4]; exact h3)]
  have hoff : D.map (fun d => d.result.offset) = os := by
    apply List.ext_getElem?
    intro k
    rw [List.getElem?_map]
    cases hd : D[k]? with
    | some d => rw [key k d hd]; rfl
    | none =>
      have := List.getElem?_eq_none_iff.1 hd
      rw [List.getElem?_eq_none (by omega)]; rfl
  constructor
  · show ((D.map (StepData.record nx ny sx sy)).map (·.displacement)) = os
    rw [List.map_map]; exact hoff
  · intro hcb
    rw [if_pos hcb, List.map_map]
    rw [← hoff]
    apply List.map_congr_left
    intro d hd
    exact (hr.report d hd).meanDisplacement

/-! ## C61 -/

/-- **C61** In an elastic calculation the row of an offset depends on that offset only: if the calculation with
`offsets` returns, then so does every calculation with the same settings and any non-empty list `offsets'` of these
offsets -- in another order, repeated, or fewer of them -- and both tables are obtained row by row by the same
function `F`, the record of the solver's answer for that offset on the undeformed surface. -/
theorem C61_order_independent (hT : ValidTopo T nx ny sx sy) (solver : Solver) (hfit : ∀ c r, solver c = .ok r → Fits nx ny r)
    (A : PipeArgs) (hel : ∀ H, A.hardness = some H → H ≤ 0) (os os' : List ℝ) (h1 : A.offsets = some os) (hsub : ∀ o ∈ os', o ∈ os)
    (hne : os' ≠ []) {R : Result} {reps : List Report} (h : contactMechanics T solver A = (.ok R, reps)) :
    ∃ F : ℝ → Record,
      (∀ o ∈ os, ∃ r, solver ⟨T.heights, none, some o, none, some (max (T.rmsHeight / (10 * ((nx + ny) / 2))) 1e-12), A.maxiter⟩ = .ok r ∧
        F o = recordOf nx ny sx sy T.heights r) ∧
      R = columns (os.map F) ∧
      ∃ reps', contactMechanics T solver { A with offsets := some os' } = (.ok (columns (os'.map F)), reps') := by
  classical
  have hA : ExactlyOne A := by
    by_contra hc
    rw [C59_argument_validation T solver A hc] at h; cases h
  have heff : effectiveHardness A = none := by
    unfold effectiveHardness
    cases hh : A.hardness with
    | none => rfl
    | some H => simp [Option.filter, hel H hh]
  set tol := max (T.rmsHeight / (10 * (((nx : ℝ) + ny) / 2))) 1e-12 with htol
  let call (o : ℝ) : Call := ⟨T.heights, none, some o, none, some tol, A.maxiter⟩
  let F : ℝ → Record := fun o => if hr : ∃ r, solver (call o) = .ok r then recordOf nx ny sx sy T.heights hr.choose else default
  have hFr : ∀ o r, solver (call o) = .ok r → F o = recordOf nx ny sx sy T.heights r := by
    intro o r hr
    have hex : ∃ r, solver (call o) = .ok r := ⟨r, hr⟩
    have := hex.choose_spec
    simp only [F, dif_pos hex]
    rw [Except.ok.inj (this.symm.trans hr)]
  -- rows of a run with offsets `l`
  have rows : ∀ (B : PipeArgs) (l : List ℝ) (D : List StepData), B.maxiter = A.maxiter → effectiveHardness B = none → D.length = l.length →
      IsRun T nx ny sx sy B solver false (fun k _ o F => o = l[k]? ∧ F = none) D →
      D.map (StepData.record nx ny sx sy) = l.map F ∧ ∀ o ∈ l, ∃ r, solver (call o) = .ok r := by
    intro B l D hmi hB hl hr
    have key : ∀ (k : ℕ) d, D[k]? = some d → ∃ o, l[k]? = some o ∧ solver (call o) = .ok d.result ∧ d.before = T.heights := by
      intro k d hd
      have hk : k < D.length := by by_contra hc; rw [List.getElem?_eq_none (by omega)] at hd; cases hd
      obtain ⟨o, G, ⟨h2, h3⟩, h4⟩ := hr.call k d hd
      have hb := hr.fresh (.inr hB) d (List.mem_of_getElem? hd)
      have hs := hr.solved d (List.mem_of_getElem? hd)
      rw [List.getElem?_eq_getElem (by omega)] at h2 ⊢
      refine ⟨l[k], rfl, ?_, hb⟩
      rw [← hs, h4, hb, h2, h3, hB, hmi]
      rfl
    constructor
    · apply List.ext_getElem?
      intro k
      rw [List.getElem?_map, List.getElem?_map]
      cases hd : D[k]? with
      | some d =>
        obtain ⟨o, h2, h3, h4⟩ := key k d hd
        rw [h2]
        simp only [Option.map_some, StepData.record]
        rw [hFr o _ h3, h4]
      | none =>
        have := List.getElem?_eq_none_iff.1 hd
        rw [List.getElem?_eq_none (by omega)]; rfl
    · intro o ho
      obtain ⟨k, hk, rfl⟩ := List.mem_iff_getElem.1 ho
      obtain ⟨o, h2, h3, -⟩ := key k D[k] (List.getElem?_eq_getElem (by omega))
      rw [List.getElem?_eq_getElem hk] at h2
      cases h2
      exact ⟨_, h3⟩
  obtain ⟨D, hl, hr, hR, -⟩ := C60_offsets hT solver hfit A os h1 h
  obtain ⟨r1, r2⟩ := rows A os D rfl heff hl hr
  refine ⟨F, fun o ho => ?_, by rw [hR, r1], ?_⟩
  · obtain ⟨r, hr⟩ := r2 o ho
    exact ⟨r, hr, hFr o r hr⟩
  · set B : PipeArgs := { A with offsets := some os' } with hB
    have hBA : ExactlyOne B := by
      have := hA
      unfold ExactlyOne at this ⊢
      rw [h1] at this
      simpa [hB] using this
    have hYB : makePipeSystem T B = makePipeSystem T A := rfl
    obtain ⟨Y, hY⟩ : ∃ Y, makePipeSystem T A = .ok Y := by
      rcases run_cases hT solver hfit A hA with ⟨e, h2, -⟩ | ⟨Y, -, -, hY, -⟩
      · rw [h2] at h; cases h
      · exact ⟨Y, hY⟩
    rcases run_cases hT solver hfit B hBA with ⟨e, -, h2⟩ | ⟨Y, ds, reps', -, e1, ⟨h2, hc⟩ | ⟨e, q, rest, done, c, hd, h2, hc, hce, ho, hF, hH, hp, hm, hh⟩⟩
    · rw [hYB, hY] at h2; cases h2
    · have hlen := hc.length
      rw [requests_length B hBA] at hlen
      have hos : nbSteps B = os'.length := by rw [← requests_length (T := T) B hBA]; simp [requests, hB]
      have : ds ≠ [] := by
        rintro rfl
        rw [hos] at hlen
        exact hne (List.length_eq_zero_iff.1 hlen.symm)
      rw [if_neg this] at h2
      obtain ⟨D', hl', hr', hR', -⟩ := C60_offsets hT solver hfit B os' rfl h2
      obtain ⟨r1', -⟩ := rows B os' D' rfl heff hl' hr'
      exact ⟨reps', by rw [h2, hR', r1']⟩
    · exfalso
      have hq : q ∈ requests T B := by rw [hd]; simp
      have hq : q ∈ os'.map Request.offset := by simpa [requests, hB] using hq
      obtain ⟨x, hx, rfl⟩ := List.mem_map.1 hq
      obtain ⟨r, hr⟩ := r2 x (hsub x hx)
      have hcc : c = call x := by
        have e1 : usedHardness B = none := by rw [hardness_eq]; exact heff
        have e2 := hh (.inr e1)
        rw [e1] at hH
        rw [pentol_eq hT] at hp
        cases c
        simp only at e2 ho hF hH hp hm
        subst e2 ho hF hH hp hm
        rfl
      rw [hcc, hr] at hce
      cases hce

/-! ## C63 -/

/-- **C63** (refuted) A calculation with no steps -- `nsteps ≤ 0` or an empty list -- does not return empty arrays: it raises
`TypeError`, on every topography on which calculations with steps work. -/
theorem C63_no_steps_raise (hT : ValidTopo T nx ny sx sy) (hx : 1 < nx) (hy : 1 < ny) (solver : Solver)
    (hfit : ∀ c r, solver c = .ok r → Fits nx ny r) (A : PipeArgs) (hA : ExactlyOne A) (hs : KnownSubstrate A) (hn : nbSteps A = 0) :
    contactMechanics T solver A = (.error .typeError, []) := by
  obtain ⟨Y, hY⟩ := system_ok hT hx hy A hs
  have hq : requests T A = [] := List.length_eq_zero_iff.1 (by rw [requests_length A hA, hn])
  rcases run_cases hT solver hfit A hA with ⟨e, -, h2⟩ | ⟨Y, ds, reps', -, e1, ⟨h2, hc⟩ | ⟨e, q, rest, done, c, hd, -⟩⟩
  · rw [hY] at h2; cases h2
  · rw [hq] at hc
    have : ds = [] := by simpa using hc.length
    subst this
    rw [h2, e1]; simp
  · rw [hq] at hd; simp at hd

/-! ## C64 -/

/-- **C64** Whatever the solver does -- and even if it raises later -- every callback of every calculation receives
physical data: no negative gap, contacting points exactly where the pressure is positive, mean pressure equal to the mean of the
pressure field, that is total force over apparent area, and fractional contact area equal to the fraction of contacting
points, between 0 and 1. -/
theorem C64_fields (hT : ValidTopo T nx ny sx sy) (solver : Solver) (hfit : ∀ c r, solver c = .ok r → Fits nx ny r)
    (A : PipeArgs) {out : Except PyErr Result} {reps : List Report} (h : contactMechanics T solver A = (out, reps)) :
    ∀ rep ∈ reps,
      (∀ i < nx, ∀ j < ny, 0 ≤ rep.gap.get [i, j] ∧ (rep.contacting.get [i, j] = true ↔ 0 < rep.pressure.get [i, j])) ∧
      rep.meanPressure = mean nx ny rep.pressure ∧
      rep.meanPressure * (sx * sy) = ∑ i ∈ range nx, ∑ j ∈ range ny, rep.pressure.get [i, j] * (sx * sy / (nx * ny)) ∧
      rep.totalContactArea = ((range nx ×ˢ range ny).filter fun p => rep.contacting.get [p.1, p.2] = true).card / ((nx : ℝ) * ny) ∧
      0 ≤ rep.totalContactArea ∧ rep.totalContactArea ≤ 1 := by
  have hm : ∀ rep ∈ reps, ∃ (g : List ℕ → ℝ) (r : OptResult), ReportMatches nx ny sx sy g r rep := by
    by_cases hA : ExactlyOne A
    · have : ∀ ds : List StepData, ∀ qs, Chain nx ny sx sy T.heights (usedHardness A) (some (pipePentol T)) A.maxiter solver [] T.heights.get qs ds →
          ∀ rep ∈ (if A.callback then ds.map StepData.report else []), ∃ (g : List ℕ → ℝ) (r : OptResult), ReportMatches nx ny sx sy g r rep := by
        intro ds qs hc rep hrep
        have hrep : rep ∈ ds.map StepData.report := by
          by_cases hcb : A.callback = true
          · rw [if_pos hcb] at hrep; exact hrep
          · rw [if_neg hcb] at hrep; cases hrep
        obtain ⟨d, hd, rfl⟩ := List.mem_map.1 hrep
        obtain ⟨k, hk⟩ := List.mem_iff_getElem?.1 hd
        have hlt : k < ds.length := by by_contra hcon; rw [List.getElem?_eq_none (by omega)] at hk; cases hk
        have hlt' : k < qs.length := by rw [← hc.length]; exact hlt
        exact ⟨_, _, (hc.get k qs[k] d (List.getElem?_eq_getElem hlt') hk).1.report⟩
      rcases run_cases hT solver hfit A hA with ⟨e, h2, -⟩ | ⟨Y, ds, reps', -, e1, ⟨h2, hc⟩ | ⟨e, q, rest, done, c, -, h2, hc, -⟩⟩
      · rw [h2] at h; cases h; simp
      · rw [h2] at h
        rw [← (Prod.mk.inj h).2, e1]
        exact this ds _ hc
      · rw [h2] at h
        rw [← (Prod.mk.inj h).2, e1]
        exact this ds _ hc
    · rw [C59_argument_validation T solver A hA] at h; cases h; simp
  intro rep hrep
  obtain ⟨g, r, hr⟩ := hm rep hrep
  have hsx := hT.sx_pos
  have hsy := hT.sy_pos
  have hnx : (0 : ℝ) < nx := by exact_mod_cast hT.nx_pos
  have hny : (0 : ℝ) < ny := by exact_mod_cast hT.ny_pos
  have hap : 0 < sx * sy / ((nx : ℝ) * ny) := by positivity
  have hsum : ∑ i ∈ range nx, ∑ j ∈ range ny, rep.pressure.get [i, j] = total nx ny r.jac / (sx * sy / (nx * ny)) := by
    unfold total
    rw [Finset.sum_div]
    refine Finset.sum_congr rfl fun i hi => ?_
    rw [Finset.sum_div]
    exact Finset.sum_congr rfl fun j hj => hr.pressure i (by simpa using hi) j (by simpa using hj)
  have harea : rep.totalContactArea = ((range nx ×ˢ range ny).filter fun p => rep.contacting.get [p.1, p.2] = true).card / ((nx : ℝ) * ny) := by
    rw [hr.area, nbPos]
    congr 3
    apply Finset.filter_congr
    intro p hp
    simp only [Finset.mem_product, Finset.mem_range] at hp
    rw [hr.contacting _ hp.1 _ hp.2, hr.pressure _ hp.1 _ hp.2, div_pos_iff_of_pos_right hap]
  refine ⟨fun i hi j hj => ⟨?_, hr.contacting i hi j hj⟩, ?_, ?_, harea, ?_, ?_⟩
  · rw [hr.gap i hi j hj]; exact le_max_left _ _
  · rw [hr.meanPressure, mean, hsum]
    field_simp
  · simp only [← Finset.sum_mul]
    rw [hsum, hr.meanPressure]
    field_simp
  · rw [harea]; positivity
  · rw [harea, div_le_one (by positivity)]
    have := Finset.card_filter_le (range nx ×ˢ range ny) fun p => rep.contacting.get [p.1, p.2] = true
    rw [Finset.card_product, Finset.card_range, Finset.card_range] at this
    exact_mod_cast this

/-! ## A concrete calculation -/

/-- A wavy periodic surface of 3×4 points and size 1×2. -/
noncomputable def demoTopo : Topo := ⟨demoHeights [3, 4], [1, 2], true, 2⟩

lemma demoTopo_valid : ValidTopo demoTopo 3 4 1 2 := by
  constructor <;> first | rfl | norm_num

/-- A solver that answers every call: pressure one at one point, displacement zero, the offset asked for. -/
noncomputable def demoSolver : Solver := fun c =>
  .ok ⟨true, ⟨[3, 4], fun _ => 0⟩, ⟨[3, 4], fun x => if x = [1, 2] then 1 else 0⟩, c.offset.getD 0, ⟨[3, 4], fun _ => false⟩, ⟨[3, 4], fun x => x == [1, 2]⟩⟩

lemma demoSolver_fits : ∀ c r, demoSolver c = .ok r → Fits 3 4 r := by
  intro c r h
  cases h
  exact ⟨rfl, ⟨3, 4, rfl, le_rfl, le_rfl⟩, rfl⟩

/-- Hypotheses of C60-C62, C64 in all three modes, elastic and plastic, and what C60 says about the result. -/
example : ∃ R reps, contactMechanics demoTopo demoSolver { offsets := some [1, -2, 1], callback := true } = (.ok R, reps) ∧
    R.meanDisplacement = [1, -2, 1] ∧ reps.map (·.meanDisplacement) = [1, -2, 1] := by
  obtain ⟨R, reps, h⟩ := C60_returns demoTopo_valid (by norm_num) (by norm_num) demoSolver demoSolver_fits (fun c => ⟨_, rfl⟩)
    { offsets := some [1, -2, 1], callback := true } (by simp [ExactlyOne]) (.inl rfl) (by simp [nbSteps])
  have := C60_offsets_unchanged demoTopo_valid demoSolver demoSolver_fits (by
    intro c r o h1 h2 _; cases h1; simp [h2]) _ [1, -2, 1] rfl h
  exact ⟨R, reps, h, this.1, this.2 rfl⟩

example : ∃ R reps, contactMechanics demoTopo demoSolver { nsteps := some 5, hardness := some 3, callback := true } = (.ok R, reps) :=
  C60_returns demoTopo_valid (by norm_num) (by norm_num) demoSolver demoSolver_fits (fun c => ⟨_, rfl⟩) _ (by simp [ExactlyOne]) (.inl rfl) (by simp [nbSteps])

example : ∃ R reps, contactMechanics demoTopo demoSolver { pressures := some [1, 2], substrate := some "nonperiodic" } = (.ok R, reps) :=
  C60_returns demoTopo_valid (by norm_num) (by norm_num) demoSolver demoSolver_fits (fun c => ⟨_, rfl⟩) _ (by simp [ExactlyOne]) (.inr (.inr rfl)) (by simp [nbSteps])

/-- Hypotheses of C63 and of C59. -/
example : ExactlyOne { nsteps := some 0 } ∧ nbSteps { nsteps := some 0 } = 0 ∧ KnownSubstrate { nsteps := some 0 } ∧
    ¬ ExactlyOne { nsteps := some 3, offsets := some [1] } ∧ ¬ ExactlyOne {} := by
  refine ⟨by simp [ExactlyOne], rfl, .inl rfl, by simp [ExactlyOne], by simp [ExactlyOne]⟩

/-- Hypotheses of C60_exception: a solver that raises for positive offsets. -/
example : ∃ (solver : Solver) (e : PyErr) (reps : List Report), (∀ c r, solver c = .ok r → Fits 3 4 r) ∧
    contactMechanics demoTopo solver { offsets := some [-1, 2, -3], callback := true } = (.error e, reps) := by
  classical
  let solver : Solver := fun c => if 0 < c.offset.getD 0 then .error .runtimeError else demoSolver c
  have hfit : ∀ c r, solver c = .ok r → Fits 3 4 r := by
    intro c r h
    simp only [solver] at h
    split at h
    · cases h
    · exact demoSolver_fits c r h
  cases h : contactMechanics demoTopo solver { offsets := some [-1, 2, -3], callback := true } with
  | mk out reps =>
    cases out with
    | error e => exact ⟨solver, e, reps, hfit, h⟩
    | ok R =>
      exfalso
      obtain ⟨D, hl, hr, -⟩ := C60_offsets demoTopo_valid solver hfit _ [-1, 2, -3] rfl h
      have hD : D[1]? = some (D[1]'(by rw [hl]; norm_num)) := List.getElem?_eq_getElem _
      obtain ⟨o, F, ⟨h1, -⟩, h2⟩ := hr.call 1 _ hD
      have hs := hr.solved _ (List.mem_of_getElem? hD)
      have h1 : o = some 2 := h1
      rw [h2, h1] at hs
      simp [solver] at hs

end CM.Pipe
