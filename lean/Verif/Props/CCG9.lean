import Verif.Props.CCG3
/-!
# C167: the active set the solver returns
-/
set_option linter.unusedSectionVars false

namespace CM.CCG
open Finset CM.Spec

section
variable {ι K : Type} [Fintype ι] [Field K] [LinearOrder K] [IsStrictOrderedRing K]
variable {P : Problem ι K} {o : Options ι K} {r : Result ι K}

/-- **C167 (partial).** The documentation calls `active_set` the "points where forces are not constrained to 0 or
hardness".  At a prescribed offset, and when the last iteration was a conjugate gradient step (no point was added to the
contact), every point outside the returned active set has force zero or, in a plastic calculation, the hardness.  Missing: the other
direction and the other kinds of last iteration, where the code differs (`C167_active_set_differs_partial`). -/
theorem C167_outside_active_set_partial (hF : o.externalForce = none)
    (h : solve P o = .ok r) (hst : r.status = .cg) :
    ∀ i, r.activeSet i = false → r.jac i = 0 ∨ (o.hardness.isSome = true ∧ r.jac i = o.hardness.at i) := by
  intro i hi
  obtain ⟨pentol', k, s, w, hp', hR, hstep, rfl, _, _⟩ := solve_spec h
  obtain ⟨m, hard, hm, _, hw⟩ := step_mid hstep
  subst hw
  have hcg : stepStatus P o m = .cg := hst
  have hnm : stepStatus P o m ≠ .mix := by rw [hcg]; simp
  obtain ⟨_, hmm⟩ := status_ne_mix hm hnm
  have hnc := status_cg_nc hcg i
  have hact : (mkResult P o (k + 1) (finish P o pentol' s m hard).converged
      (finish P o pentol' s m hard)).activeSet = cgSet o s := by
    simp only [mkResult]
    rw [if_neg (by rintro ⟨_, h⟩; exact hnm h)]
    change m.c = _; rw [hmm]; rfl
  rw [hact] at hi
  have hmf : m.f i = s.f i := by
    rw [hmm]; simp only [cgBranch, hi, Bool.false_eq_true, if_false]
  simp only [mkResult]
  by_cases hs : P.slice i = true
  · rw [if_pos hs]
    change -(stepForce P o m i) = 0 ∨ (_ ∧ -(stepForce P o m i) = _)
    have hforce : stepForce P o m i = if flowing o m i then -(o.hardness.at i) else clip m i := by
      unfold stepForce addContact
      rw [if_neg (by rw [hnc]; simp)]
      unfold truncate rescale
      rw [hF]
    rw [hforce]
    by_cases hfl : flowing o m i = true
    · right
      rw [if_pos hfl, neg_neg]
      refine ⟨?_, rfl⟩
      unfold flowing at hfl
      simp only [Bool.and_eq_true] at hfl
      exact hfl.1
    · left
      rw [if_neg hfl]
      have : tensile m i = true := by
        unfold tensile
        rw [hmf, decide_eq_true_eq]
        by_contra hc
        push Not at hc
        simp only [cgSet, hc, decide_true, Bool.true_and, Bool.or_eq_false_iff, Bool.not_eq_false', decide_eq_false_iff_not, not_lt] at hi
        apply hfl
        simp only [flowing, hi.1, Bool.true_and, hmf, decide_eq_true_eq]
        exact hi.2
      simp [clip, this]
  · left
    rw [if_neg hs]

end

/-- **C167 is false of the code**: with the default tolerances, on an elastic two-point periodic substrate, a call that reports success
returns (1) an active set with a point whose force is constrained to zero, and (2) an active set without a point that
carries a positive force.  (It is the set of points with compressive force at the beginning of the last iteration.) -/
theorem C167_active_set_differs_partial : ElasticResponse (prob2 ![4, 3]).disp ∧
    (∃ r, solve (prob2 ![4, 3 - 1 / 10000000]) (opt2 ![-1, -1 / 1000000000]) = .ok r ∧ r.success = true ∧
      r.activeSet 1 = true ∧ r.jac 1 = 0) ∧
    (∃ r, solve (prob2 ![4 - 1 / 10000000, 3 + 1 / 10000000]) (opt2 ![-1, 0]) = .ok r ∧ r.success = true ∧
      r.activeSet 1 = false ∧ 0 < r.jac 1) := by
  refine ⟨circ2_elastic, ?_, ?_⟩
  · obtain ⟨w, h, hw⟩ := loop_last (P := prob2 ![4, 3 - 1 / 10000000]) (o := opt2 ![-1, -1 / 1000000000]) (p := 1/1000)
      (s := initState (prob2 ![4, 3 - 1 / 10000000]) (opt2 ![-1, -1 / 1000000000]))
      (q := fun w => decide (w.next.status ≠ .mix ∧ w.c 1 = true ∧ w.next.f 1 = 0))
      (by decide +kernel) 99999 0 [] none
    simp only [decide_eq_true_eq] at hw
    refine ⟨mkResult (prob2 ![4, 3 - 1 / 10000000]) (opt2 ![-1, -1 / 1000000000]) 1 true w, ?_, rfl, ?_, ?_⟩
    · unfold solve
      have h0 : solveCb (prob2 ![4, 3 - 1 / 10000000]) (opt2 ![-1, -1 / 1000000000]) =
        loop (prob2 ![4, 3 - 1 / 10000000]) (opt2 ![-1, -1 / 1000000000]) (1/1000) (99999 + 1) 0
        (initState (prob2 ![4, 3 - 1 / 10000000]) (opt2 ![-1, -1 / 1000000000])) [] none := rfl
      rw [h0, h]; rfl
    · simp only [mkResult]
      rw [if_neg (by rintro ⟨_, h⟩; exact hw.1 h)]
      exact hw.2.1
    · simp [mkResult, prob2, hw.2.2]
  · obtain ⟨w, h, hw⟩ := loop_last (P := prob2 ![4 - 1 / 10000000, 3 + 1 / 10000000]) (o := opt2 ![-1, 0]) (p := 1/1000)
      (s := initState (prob2 ![4 - 1 / 10000000, 3 + 1 / 10000000]) (opt2 ![-1, 0]))
      (q := fun w => decide (w.next.status ≠ .mix ∧ w.c 1 = false ∧ w.next.f 1 < 0))
      (by decide +kernel) 99999 0 [] none
    simp only [decide_eq_true_eq] at hw
    refine ⟨mkResult (prob2 ![4 - 1 / 10000000, 3 + 1 / 10000000]) (opt2 ![-1, 0]) 1 true w, ?_, rfl, ?_, ?_⟩
    · unfold solve
      have h0 : solveCb (prob2 ![4 - 1 / 10000000, 3 + 1 / 10000000]) (opt2 ![-1, 0]) =
        loop (prob2 ![4 - 1 / 10000000, 3 + 1 / 10000000]) (opt2 ![-1, 0]) (1/1000) (99999 + 1) 0
        (initState (prob2 ![4 - 1 / 10000000, 3 + 1 / 10000000]) (opt2 ![-1, 0])) [] none := rfl
      rw [h0, h]; rfl
    · simp only [mkResult]
      rw [if_neg (by rintro ⟨_, h⟩; exact hw.1 h)]
      exact hw.2.1
    · simp only [mkResult, prob2, if_true]
      linarith [hw.2.2]

/-- Hypotheses of `C167_outside_active_set_partial`: a point outside the active set, and last iteration a conjugate gradient step. -/
example : ∃ r, solve (prob2 ![4 - 1 / 10000000, 3]) (opt2 ![-1, 0]) = .ok r ∧ r.status = .cg ∧ (opt2 ![-1, 0]).externalForce = none ∧
    r.activeSet 1 = false ∧ r.activeSet 0 = true := by
  obtain ⟨w, h, hw⟩ := loop_last (P := prob2 ![4 - 1 / 10000000, 3]) (o := opt2 ![-1, 0]) (p := 1/1000)
    (s := initState (prob2 ![4 - 1 / 10000000, 3]) (opt2 ![-1, 0]))
    (q := fun w => decide (w.next.status = .cg ∧ w.c 1 = false ∧ w.c 0 = true)) (by decide +kernel) 99999 0 [] none
  simp only [decide_eq_true_eq] at hw
  refine ⟨mkResult (prob2 ![4 - 1 / 10000000, 3]) (opt2 ![-1, 0]) 1 true w, ?_, hw.1, rfl, ?_, ?_⟩
  · unfold solve
    have h0 : solveCb (prob2 ![4 - 1 / 10000000, 3]) (opt2 ![-1, 0]) =
      loop (prob2 ![4 - 1 / 10000000, 3]) (opt2 ![-1, 0]) (1/1000) (99999 + 1) 0
      (initState (prob2 ![4 - 1 / 10000000, 3]) (opt2 ![-1, 0])) [] none := rfl
    rw [h0, h]; rfl
  · simp only [mkResult]
    rw [if_neg (by rintro ⟨_, h⟩; rw [hw.1] at h; cases h)]
    exact hw.2.1
  · simp only [mkResult]
    rw [if_neg (by rintro ⟨_, h⟩; rw [hw.1] at h; cases h)]
    exact hw.2.2

end CM.CCG
