import Verif.Props.CCGDemo
import Verif.Spec.Contact
import Mathlib.Analysis.SpecialFunctions.Sqrt
/-!
# Properties C32 - C47 of the constrained conjugate gradient solver
-/
set_option linter.unusedSectionVars false

namespace CM.CCG
open Finset CM.Spec

section general
variable {ι K : Type} [Fintype ι] [Field K] [LinearOrder K] [IsStrictOrderedRing K]
variable {P : Problem ι K} {o : Options ι K} {r : Result ι K}

/-! ## C32 -/

/-- **C32.** No force outside the topography: whatever the run does, the callback only ever sees
forces that vanish on padding and undefined points (`comp = false`), and so do the returned ones. -/
theorem C32_no_force_off_topography {cb : List (ℕ × (ι → K))}
    (hH : ∀ i, 0 ≤ o.hardness.at i) (h : solveCb P o = .ok (r, cb)) :
    (∀ i, P.comp i = false → r.jac i = 0) ∧
      ∀ e ∈ cb, ∀ i, P.comp i = false → e.2 i = 0 := by
  obtain ⟨pentol, k, s, w, _, hR, hst, rfl, _, _, _, hcb⟩ := solveCb_spec h
  refine ⟨fun i hi => ?_, fun e he i hi => ?_⟩
  · have := (offZero_step hH (offZero_reach hH hR) hst i hi).1
    simp [mkResult, this]
  · obtain ⟨s', hR', hf⟩ := hcb e he
    rw [← hf]
    exact (offZero_reach hH hR' i hi).1

example : ∃ r cb, solveCb (demo ![5, 8, 0]) demoOpt = .ok (r, cb) ∧ cb.length = 2 ∧
    (demo ![5, 8, 0]).comp 2 = false ∧ demoOpt.initialForces.map (fun f => f 2) = some (-1) := by
  obtain ⟨r, cb, h, _, _, _, _, _, _, _, h2⟩ := demo_run
  exact ⟨r, cb, h, h2, by decide, by decide⟩

/-! ## C33 -/

/-- Forces in the final state are minus the returned ones. -/
theorem final_force {pentol : K} {k : ℕ} {s : State ι K} {w : StepOut ι K}
    (hH : ∀ i, 0 ≤ o.hardness.at i) (hsl : ∀ i, P.comp i = true → P.slice i = true)
    (hR : Reach P o pentol k s) (hst : CCG.step P o pentol s = .ok w) (n : ℕ) (b : Bool) :
    (fun i => -((mkResult P o n b w).jac i)) = w.next.f := by
  funext i
  simp only [mkResult]
  split_ifs with hs
  · simp
  · have hc : P.comp i = false := by
      cases hc : P.comp i with
      | false => rfl
      | true => exact absurd (hsl i hc) hs
    rw [(offZero_step hH (offZero_reach hH hR) hst i hc).1]; simp

/-- **C33.** The returned displacements are exactly the elastic response to the returned forces
(embedded in zeros), and the returned energy is half the work `½ Σ jac·x`; both on success and
when `maxiter` is reached. -/
theorem C33_displacements_are_response (hH : ∀ i, 0 ≤ o.hardness.at i)
    (hsl : ∀ i, P.comp i = true → P.slice i = true) (h : solve P o = .ok r) :
    r.x = P.disp (fun i => -(r.jac i)) ∧ r.fun_ = (∑ i, r.jac i * r.x i) / 2 := by
  obtain ⟨pentol, k, s, w, _, hR, hst, rfl, _, _⟩ := solve_spec h
  have hf := final_force hH hsl hR hst (k + 1) w.converged
  constructor
  · rw [hf]
    obtain ⟨m, hard, _, _, rfl⟩ := step_mid hst
    rfl
  · have hfi : ∀ i, (mkResult P o (k + 1) w.converged w).jac i = -(w.next.f i) := by
      intro i; rw [← congrFun hf i, neg_neg]
    simp only [hfi]
    simp only [mkResult, sumOver]
    congr 1
    rw [← Finset.sum_neg_distrib]
    apply Finset.sum_congr rfl
    intro i _
    split_ifs with hs
    · ring
    · have := hfi i
      simp only [mkResult, hs] at this
      simp at this
      rw [this]; ring

example : ∃ r, solve (demo ![5, 8, 0]) demoOpt = .ok r ∧ r.jac = ![1, 2, 0] ∧ r.x = ![6, 9, 3] := by
  obtain ⟨r, cb, h, _, h1, h2, _⟩ := demo_run
  exact ⟨r, by simp [solve, h, Except.map], h1, h2⟩

/-! ## C34 -/

theorem total_eq {pentol : K} {k : ℕ} {s : State ι K} {w : StepOut ι K}
    (hH : ∀ i, 0 ≤ o.hardness.at i) (hsl : ∀ i, P.comp i = true → P.slice i = true)
    (hR : Reach P o pentol k s) (hst : CCG.step P o pentol s = .ok w) (n : ℕ) (b : Bool) :
    ∑ i, (mkResult P o n b w).jac i = w.totalForce := by
  have hf := final_force hH hsl hR hst n b
  have h0 := offZero_step hH (offZero_reach hH hR) hst
  obtain ⟨m, hard, _, _, rfl⟩ := step_mid hst
  have : (finish P o pentol s m hard).totalForce =
      -(sumOver P.comp (finish P o pentol s m hard).next.f) := rfl
  rw [this, sumOver_eq_sum_of_support (fun i hi => (h0 i hi).1), ← Finset.sum_neg_distrib]
  apply Finset.sum_congr rfl
  intro i _
  rw [← congrFun hf i, neg_neg]

/-- **C34.** Load control: success implies that the total normal force is non-zero and meets the
prescribed load within the relative tolerance. -/
theorem C34_load_met (hH : ∀ i, 0 ≤ o.hardness.at i)
    (hsl : ∀ i, P.comp i = true → P.slice i = true) (h : solve P o = .ok r)
    {F : K} (hF : o.externalForce = some F) (hs : r.success = true) :
    ∑ i, r.jac i ≠ 0 ∧ |∑ i, r.jac i - F| < o.thermotol * |∑ i, r.jac i| := by
  obtain ⟨pentol, k, s, w, _, hR, hst, rfl, _, _⟩ := solve_spec h
  rw [total_eq hH hsl hR hst]
  obtain ⟨m, hard, _, _, hw⟩ := step_mid hst
  have hc : w.converged = true := hs
  have := (finish_conv hw hc).1
  unfold convForce at this
  rw [hF] at this
  exact relLt_iff.1 this

theorem status_cg_nc {m : Mid ι K} (h : stepStatus P o m = .cg) :
    ∀ i, newContact P o m i = false := by
  unfold stepStatus at h
  split_ifs at h with h1 h2
  · exact count_eq_zero.1 h2

/-- **C34, exact part.** Without hardness, if the final iteration added no contact points, the sum
of the returned forces is exactly the prescribed load (also when the run did not converge).  The
topography has no undefined points (`nSurf` is the number of points where forces act). -/
theorem C34_load_exact (hsl : ∀ i, P.comp i = true → P.slice i = true)
    (hH : o.hardness = .none) (hn : P.nSurf = (count P.comp : K)) (hn0 : 0 < count P.comp)
    (h : solve P o = .ok r) {F : K} (hF : o.externalForce = some F) (hs : r.status = .cg) :
    ∑ i, r.jac i = F := by
  have hH' : ∀ i, 0 ≤ o.hardness.at i := by intro i; rw [hH]; exact le_rfl
  obtain ⟨pentol, k, s, w, _, hR, hst, rfl, _, _⟩ := solve_spec h
  rw [total_eq hH' hsl hR hst]
  obtain ⟨m, hard, _, _, rfl⟩ := step_mid hst
  have hnc := status_cg_nc (P := P) (o := o) (m := m) hs
  have hforce : stepForce P o m = rescale P o (clip m) := by
    funext i
    unfold stepForce addContact
    simp only [hnc i, Bool.false_eq_true, and_false, if_false]
    unfold truncate flowing
    simp [hH, Hardness.isSome]
  change -(sumOver P.comp (stepForce P o m)) = F
  rw [hforce]
  unfold rescale
  rw [hF]
  simp only
  split_ifs with h0
  · have : sumOver P.comp (fun i => clip m i * (F / -sumOver P.comp (clip m))) =
        sumOver P.comp (clip m) * (F / -sumOver P.comp (clip m)) := by
      unfold sumOver
      rw [Finset.sum_mul]
      apply Finset.sum_congr rfl
      intro i _
      split_ifs <;> simp
    rw [this]
    have h1 : sumOver P.comp (clip m) ≠ 0 := by intro h2; rw [h2] at h0; simp at h0
    field_simp
  · have : sumOver P.comp (fun i => if P.comp i then -F / P.nSurf else 0) =
        (count P.comp : K) * (-F / P.nSurf) := by
      unfold sumOver count
      rw [← nsmul_eq_mul, ← Finset.sum_const, Finset.sum_filter]
      apply Finset.sum_congr rfl
      intro i _
      split_ifs with hc <;> simp [hc]
    rw [this, hn]
    have : (count P.comp : K) ≠ 0 := by exact_mod_cast hn0.ne'
    field_simp

/-! ## C39, C40, C41, C43 -/

theorem nfev_reach {pentol : K} (hH : o.hardness = .none) {k : ℕ} {s : State ι K}
    (h : Reach P o pentol k s) : s.nfev = 1 + 2 * k := by
  induction h with
  | init => simp [initState]
  | @step k s w _ hst _ ih =>
    obtain ⟨m, hard, hm, _, rfl⟩ := step_mid hst
    rcases branch_cases hm with ⟨_, rfl⟩ | ⟨hd, _⟩
    · simp only [finish, cgBranch, ih]; omega
    · simp [doCG, hH, Hardness.isSome] at hd

/-- **C39.** Iteration accounting: at least one and at most `maxiter` iterations are performed, an
unsuccessful return means exactly `maxiter`, the callback is called once per iteration that did not
converge (numbered 1, 2, ...), and an elastic run evaluates the substrate exactly `1 + 2*nit`
times. -/
theorem C39_iteration_accounting {cb : List (ℕ × (ι → K))} (h : solveCb P o = .ok (r, cb)) :
    1 ≤ r.nit ∧ r.nit ≤ o.maxiter ∧ (r.success = false → r.nit = o.maxiter) ∧
      cb.map Prod.fst = (List.range (if r.success then r.nit - 1 else r.nit)).map (· + 1) ∧
      (o.hardness = .none → r.nfev = 1 + 2 * r.nit) := by
  obtain ⟨pentol, k, s, w, _, hR, hst, rfl, hk, hk2, hcb, _⟩ := solveCb_spec h
  refine ⟨by simp [mkResult], hk, hk2, by simpa [mkResult] using hcb, fun hH => ?_⟩
  have hn := nfev_reach hH hR
  obtain ⟨m, hard, hm, _, rfl⟩ := step_mid hst
  rcases branch_cases hm with ⟨_, rfl⟩ | ⟨hd, _⟩
  · simp only [mkResult, finish, cgBranch, hn]; omega
  · simp [doCG, hH, Hardness.isSome] at hd

example : ∃ r cb, solveCb (demo ![5, 8, 0]) demoOpt = .ok (r, cb) ∧ r.nit = 3 ∧ r.nfev = 7 := by
  obtain ⟨r, cb, h, _, _, _, h1, h2, _⟩ := demo_run
  exact ⟨r, cb, h, h1, h2⟩

/-- **C39, soundness of the success flag.** Success is only reported if the last displacement update
and (unless it was a mixing step) the penetration of contacting points are below `pentol`, and
tensile/padding forces before clipping below `forcetol`. -/
theorem C39_success_only_by_convergence_test (h : solve P o = .ok r) (hs : r.success = true) :
    ∃ pentol, pentolOf P o = .ok pentol ∧ r.maxPres < o.forcetol ∧
      (r.status ≠ .mix → r.maxPen < pentol) := by
  obtain ⟨pentol, k, s, w, hp, hR, hst, rfl, _, _⟩ := solve_spec h
  obtain ⟨m, hard, _, _, hw⟩ := step_mid hst
  have hc : w.converged = true := hs
  obtain ⟨_, _, h2, _, h3⟩ := finish_conv hw hc
  exact ⟨pentol, hp, h2, fun h => (h3 h).1⟩

/-- **C40 is false of the code.** With `maxiter = 0` the solver never returns an unconverged result:
it raises `UnboundLocalError` (line 494 reads `log_values`), or fails even earlier while deriving
`pentol`. -/
theorem C40_maxiter_zero_fails (h0 : o.maxiter = 0) :
    (∀ p, pentolOf P o = .ok p → solve P o = .error .unboundLocal) ∧
      ¬ ∃ r, solve P o = .ok r := by
  have key : ∀ p, pentolOf P o = .ok p → solve P o = .error .unboundLocal := by
    intro p hp
    simp [solve, solveCb, hp, h0, loop, Except.map]
  refine ⟨key, ?_⟩
  rintro ⟨r, hr⟩
  obtain ⟨pentol, _, _, _, hp, _⟩ := solve_spec hr
  rw [key pentol hp] at hr
  simp at hr

theorem offset_reach {pentol : K} (hF : o.externalForce = none) {k : ℕ} {s : State ι K}
    (h : Reach P o pentol k s) : s.offset = o.offset.getD 0 := by
  induction h with
  | init => simp [initState]
  | @step k s w _ hst _ ih =>
    obtain ⟨m, hard, hm, _, rfl⟩ := step_mid hst
    rcases branch_cases hm with ⟨_, rfl⟩ | ⟨_, hm⟩
    · simp [finish, cgBranch, cgOffset, hF, ih]
    · simp only [mixBranch, hF, Except.ok.injEq] at hm
      rw [← hm]; simp [finish, ih]

/-- **C41, displacement control.** Without an external force the returned offset is exactly the
given one (0 if `None`). -/
theorem C41_offset_kept (hF : o.externalForce = none) (h : solve P o = .ok r) :
    r.offset = o.offset.getD 0 := by
  obtain ⟨pentol, k, s, w, _, hR, hst, rfl, _, _⟩ := solve_spec h
  have ih := offset_reach hF hR
  obtain ⟨m, hard, hm, _, rfl⟩ := step_mid hst
  rcases branch_cases hm with ⟨_, rfl⟩ | ⟨_, hm⟩
  · simp [mkResult, finish, cgBranch, cgOffset, hF, ih]
  · simp only [mixBranch, hF, Except.ok.injEq] at hm
    rw [← hm]; simp [mkResult, finish, ih]

example : ∃ r, solve (demo ![5, 8, 0]) demoOpt = .ok r ∧ r.offset = 1 := by
  obtain ⟨r, cb, h, _, _, _, _, _, _, h1, _⟩ := demo_run
  exact ⟨r, by simp [solve, h, Except.map], h1⟩

/-- Under load control the loop does not read the offset argument. -/
theorem step_offset_irrelevant {F : K} (hF : o.externalForce = some F) (pentol : K)
    (s : State ι K) (a : K) (b : Option K) :
    CCG.step P { o with offset := b } pentol { s with offset := a } = CCG.step P o pentol s := by
  have hb : branch P { o with offset := b } { s with offset := a } = branch P o s := by
    cases o; simp only at hF; subst hF; rfl
  unfold CCG.step
  rw [hb]
  rfl

theorem loop_offset_irrelevant {F : K} (hF : o.externalForce = some F) (pentol : K)
    (b : Option K) : ∀ (fuel it : ℕ) (s : State ι K) (a : K) (cb prev),
    loop P { o with offset := b } pentol fuel it { s with offset := a } cb prev =
      loop P o pentol fuel it s cb prev := by
  intro fuel
  induction fuel with
  | zero =>
    intro it s a cb prev
    cases prev <;> rfl
  | succ n ih =>
    intro it s a cb prev
    rw [loop, loop, step_offset_irrelevant hF]
    cases CCG.step P o pentol s with
    | error e => rfl
    | ok w =>
      simp only
      split_ifs
      · rfl
      · have := ih (it + 1) w.next w.next.offset (cb ++ [(it + 1, w.next.f)]) (some w)
        exact this

/-- **C41, load control.** With an external force, a given `pentol` and explicit initial forces, the
given offset has no influence on anything the solver returns or passes to the callback. -/
theorem C41_offset_ignored_under_load {F p : K} {f0 : ι → K} (hF : o.externalForce = some F)
    (hp : o.pentol = some p) (hf : o.initialForces = some f0) (b : Option K) :
    solveCb P { o with offset := b } = solveCb P o := by
  have h1 : pentolOf P { o with offset := b } = .ok p := by simp [pentolOf, hp]
  have h2 : pentolOf P o = .ok p := by simp [pentolOf, hp]
  unfold solveCb
  rw [h1, h2]
  have : initState P { o with offset := b } =
      { initState P o with offset := b.getD 0 } := by
    simp [initState, hf]
  simp only [this]
  exact loop_offset_irrelevant hF p b _ _ _ _ _ _

theorem lastTotal_reach {pentol : K} {k : ℕ} {s : State ι K} (h : Reach P o pentol k s)
    (hk : 1 ≤ k) : ∃ l, s.lastTotalForce = some l := by
  cases h with
  | init => omega
  | step _ hst _ =>
    obtain ⟨m, hard, hm, _, rfl⟩ := step_mid hst
    exact ⟨_, rfl⟩

/-- **C43.** At fixed offset, success in the second or a later iteration implies a non-zero total
force: a run that has left the initial state cannot be reported converged at zero load. -/
theorem C43_zero_load_only_first_iteration (hH : ∀ i, 0 ≤ o.hardness.at i)
    (hsl : ∀ i, P.comp i = true → P.slice i = true) (hF : o.externalForce = none)
    (h : solve P o = .ok r) (hs : r.success = true) (hn : 2 ≤ r.nit) : ∑ i, r.jac i ≠ 0 := by
  obtain ⟨pentol, k, s, w, _, hR, hst, rfl, _, _⟩ := solve_spec h
  rw [total_eq hH hsl hR hst]
  have hk : 1 ≤ k := by simp [mkResult] at hn; omega
  obtain ⟨l, hl⟩ := lastTotal_reach hR hk
  obtain ⟨m, hard, _, _, hw⟩ := step_mid hst
  have hc : w.converged = true := hs
  have := (finish_conv hw hc).1
  unfold convForce at this
  rw [hF, hl] at this
  exact (relLt_iff.1 this).1

example : ∃ r, solve (demo ![5, 8, 0]) demoOpt = .ok r ∧ r.success = true ∧ 2 ≤ r.nit ∧
    demoOpt.externalForce = none := by
  obtain ⟨r, cb, h, hs, _, _, h1, _⟩ := demo_run
  exact ⟨r, by simp [solve, h, Except.map], hs, by omega, rfl⟩

end general

end CM.CCG
