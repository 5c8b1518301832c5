import Verif.Lemmas.CCGRounded
/-!
# Properties C208, C209: the solver's guarantees in rounded arithmetic
-/
set_option linter.unusedSectionVars false

namespace CM.CCG.Arith
open Finset

variable {ι : Type} [Fintype ι]

/-! ## Exact arithmetic is a special case -/

theorem sqrt_lt_iff (x p : ℝ) : decide (Real.sqrt x < p) = sqrtLt x p := by
  unfold sqrtLt
  rw [← Bool.decide_and, decide_eq_decide]
  constructor
  · intro h
    have hp : 0 < p := lt_of_le_of_lt (Real.sqrt_nonneg x) h
    exact ⟨hp, by rw [← sq]; exact (Real.sqrt_lt' hp).1 h⟩
  · rintro ⟨hp, h⟩
    exact (Real.sqrt_lt' hp).2 (by rw [sq]; exact h)

theorem exact_rnd (x : ℝ) : (exact ι).rnd x = x := rfl

theorem exact_sum (p : ι → Bool) (a : ι → ℝ) : (exact ι).sum p a = sumOver p a := rfl

theorem exact_cgDir (P : Problem ι ℝ) (s : State ι ℝ) (c : ι → Bool) (g : ι → ℝ) (G : ℝ) :
    (exact ι).cgDir P s c g G = CCG.cgDir P s c g G := by
  unfold Arith.cgDir CCG.cgDir
  simp only [exact_rnd]

theorem exact_cgOffset (P : Problem ι ℝ) (o : Options ι ℝ) (s : State ι ℝ) : (exact ι).cgOffset P o s = CCG.cgOffset P o s := by
  unfold Arith.cgOffset CCG.cgOffset
  simp only [exact_rnd, exact_sum]
  cases o.externalForce with
  | none => rfl
  | some F => simp only

theorem exact_branch (P : Problem ι ℝ) (o : Options ι ℝ) (s : State ι ℝ) :
    (exact ι).branch P o s = CCG.branch P o s := by
  unfold Arith.branch CCG.branch
  have h1 : (exact ι).doCG o s = CCG.doCG o s := rfl
  have h2 : (exact ι).cgBranch P o s = CCG.cgBranch P o s := by
    unfold Arith.cgBranch CCG.cgBranch
    simp only [exact_rnd, exact_sum, exact_cgDir, exact_cgOffset]
  have h3 : (exact ι).mixBranch P o s = CCG.mixBranch P o s := by
    unfold Arith.mixBranch CCG.mixBranch
    simp only [exact_rnd, mul_ite, mul_zero]
    cases o.externalForce with
    | none => rfl
    | some F =>
      cases o.hardness with
      | none => rfl
      | array H => rfl
      | scalar H =>
        simp only
        congr!
        funext motive e h1 h2
        cases e <;> rfl
  rw [h1, h2, h3]

theorem exact_finish (P : Problem ι ℝ) (o : Options ι ℝ) (pentol : ℝ) (s : State ι ℝ) (m : Mid ι ℝ) (hard : Bool) :
    (exact ι).finish P o pentol s m hard = CCG.finish P o pentol s m hard := by
  have h1 : (exact ι).stepForce P o m = CCG.stepForce P o m := by
    unfold Arith.stepForce CCG.stepForce
    have a : ∀ nc f, (exact ι).addContact m nc f = CCG.addContact m nc f := fun nc f => rfl
    have b : ∀ f, (exact ι).rescale P o f = CCG.rescale P o f := by
      intro f
      unfold Arith.rescale CCG.rescale
      simp only [exact_rnd, exact_sum]
      cases o.externalForce with
      | none => rfl
      | some F => simp only; congr!
    rw [a, b]
  have h2 : (exact ι).maxPres o m hard = CCG.maxPres o m hard := rfl
  have h3 : ∀ u, (exact ι).maxPen P m u = CCG.maxPen P m u := fun u => rfl
  have h5 : ∀ a b t, (exact ι).relLt a b t = CCG.relLt a b t := fun a b t => by
    unfold Arith.relLt CCG.relLt
    simp only [exact_rnd]
    rfl
  have h4 : ∀ x, (exact ι).convForce o s x = CCG.convForce o s x := fun x => by
    unfold Arith.convForce CCG.convForce
    simp only [h5]
    cases o.externalForce <;> cases s.lastTotalForce <;> rfl
  have h6 : ∀ x, (exact ι).convHeight o s x = CCG.convHeight o s x := fun x => by
    unfold Arith.convHeight CCG.convHeight
    simp only [h5]
    cases o.externalForce <;> cases s.lastMaxHeight <;> rfl
  unfold Arith.finish CCG.finish
  simp only [h1, h2, h3, h4, h6, exact_rnd, exact_sum]
  congr!
  exact sqrt_lt_iff _ _

theorem exact_step (P : Problem ι ℝ) (o : Options ι ℝ) (pentol : ℝ) (s : State ι ℝ) :
    (exact ι).step P o pentol s = CCG.step P o pentol s := by
  unfold Arith.step CCG.step
  rw [exact_branch]
  cases CCG.branch P o s with
  | error e => rfl
  | ok m =>
    simp only
    cases o.hardness.truth with
    | error e => rfl
    | ok hard => simp only [exact_finish]

theorem exact_loop (P : Problem ι ℝ) (o : Options ι ℝ) (pentol : ℝ) : ∀ fuel it s cb prev,
    (exact ι).loop P o pentol fuel it s cb prev = CCG.loop P o pentol fuel it s cb prev := by
  intro fuel
  induction fuel with
  | zero => intro it s cb prev; cases prev <;> rfl
  | succ n ih =>
    intro it s cb prev
    rw [Arith.loop, CCG.loop, exact_step]
    cases CCG.step P o pentol s with
    | error e => rfl
    | ok w =>
      simp only [ih]
      rfl

/-- **C208, exact arithmetic.** With exact operations the rounded solver is the solver of C32-C47: same exceptions, results and callback calls. -/
theorem C208_exact (P : Problem ι ℝ) (o : Options ι ℝ) : (exact ι).solveCb P o = CCG.solveCb P o := by
  have h : (exact ι).pentolOf P o = CCG.pentolOf P o := by
    unfold Arith.pentolOf CCG.pentolOf
    simp only [exact_rnd, exact_sum]
    cases o.pentol with
    | some p => rfl
    | none =>
      simp only
      cases o.offset <;> simp only <;> congr!
  unfold Arith.solveCb CCG.solveCb
  rw [h]
  cases CCG.pentolOf P o with
  | error e => rfl
  | ok p =>
    simp only [exact_loop]
    have hu : (exact ι).initU P o = CCG.initU P o := by
      unfold Arith.initU CCG.initU
      simp only [exact_rnd]
      congr!
    have hi : (exact ι).initState P o = CCG.initState P o := by
      unfold Arith.initState CCG.initState
      rw [hu]
      cases o.initialForces <;> rfl
    rw [hi]

variable {A : Arith ι} {P : Problem ι ℝ} {o : Options ι ℝ} {r : Result ι ℝ}

/-! ## C208: what rounding cannot break -/

/-- **C208, support.** Forces vanish exactly on padding and undefined points, in the result and in every callback. -/
theorem C208_no_force_off_topography (hA : A.Sound) {cb : List (ℕ × (ι → ℝ))}
    (hH : ∀ i, 0 ≤ o.hardness.at i) (h : A.solveCb P o = .ok (r, cb)) :
    (∀ i, P.comp i = false → r.jac i = 0) ∧ ∀ e ∈ cb, ∀ i, P.comp i = false → e.2 i = 0 := by
  obtain ⟨pentol, k, s, w, _, hR, hst, rfl, _, _, _, hcb⟩ := solveCb_spec h
  refine ⟨fun i hi => ?_, fun e he i hi => ?_⟩
  · have := (offZero_step hA.zero hH (offZero_reach hA.zero hH hR) hst i hi).1
    simp [Arith.mkResult, CCG.mkResult, this]
  · obtain ⟨s', hR', hf⟩ := hcb e he
    rw [← hf]
    exact (offZero_reach hA.zero hH hR' i hi).1

theorem final_force (hA : A.Sound) {pentol : ℝ} {k : ℕ} {s : State ι ℝ} {w : StepOut ι ℝ}
    (hH : ∀ i, 0 ≤ o.hardness.at i) (hsl : ∀ i, P.comp i = true → P.slice i = true)
    (hR : Reach A P o pentol k s) (hst : A.step P o pentol s = .ok w) (n : ℕ) (b : Bool) :
    (fun i => -((A.mkResult P o n b w).jac i)) = w.next.f := by
  funext i
  simp only [Arith.mkResult, CCG.mkResult]
  split_ifs with hs
  · simp
  · have hc : P.comp i = false := by
      cases hc : P.comp i with
      | false => rfl
      | true => exact absurd (hsl i hc) hs
    rw [(offZero_step hA.zero hH (offZero_reach hA.zero hH hR) hst i hc).1]; simp

/-- **C208, response.** The returned displacements are, bit for bit, what the substrate returns for the returned forces. -/
theorem C208_displacements_are_response (hA : A.Sound) (hH : ∀ i, 0 ≤ o.hardness.at i)
    (hsl : ∀ i, P.comp i = true → P.slice i = true) (h : A.solve P o = .ok r) :
    r.x = P.disp (fun i => -(r.jac i)) := by
  obtain ⟨pentol, k, s, w, _, hR, hst, rfl, _, _⟩ := solve_spec h
  rw [final_force hA hH hsl hR hst (k + 1) w.converged]
  obtain ⟨m, hard, _, _, rfl⟩ := step_mid hst
  rfl

theorem nfev_reach {pentol : ℝ} (hH : o.hardness = .none) {k : ℕ} {s : State ι ℝ}
    (h : Reach A P o pentol k s) : s.nfev = 1 + 2 * k := by
  induction h with
  | init => simp [Arith.initState]
  | @step k s w _ hst _ ih =>
    obtain ⟨m, hard, hm, _, rfl⟩ := step_mid hst
    rcases branch_cases hm with ⟨_, rfl⟩ | ⟨hd, _⟩
    · simp only [Arith.finish, Arith.cgBranch, ih]; omega
    · simp [Arith.doCG, hH, Hardness.isSome] at hd

/-- **C208, accounting.** Iterations, evaluations and callbacks are counted as in C39, whatever the arithmetic. -/
theorem C208_iteration_accounting {cb : List (ℕ × (ι → ℝ))} (h : A.solveCb P o = .ok (r, cb)) :
    1 ≤ r.nit ∧ r.nit ≤ o.maxiter ∧ (r.success = false → r.nit = o.maxiter) ∧
      cb.map Prod.fst = (List.range (if r.success then r.nit - 1 else r.nit)).map (· + 1) ∧
      (o.hardness = .none → r.nfev = 1 + 2 * r.nit) := by
  obtain ⟨pentol, k, s, w, _, hR, hst, rfl, hk, hk2, hcb, _⟩ := solveCb_spec h
  refine ⟨by simp [Arith.mkResult, CCG.mkResult], hk, hk2, by simpa [Arith.mkResult, CCG.mkResult] using hcb, fun hH => ?_⟩
  have hn := nfev_reach hH hR
  obtain ⟨m, hard, hm, _, rfl⟩ := step_mid hst
  rcases branch_cases hm with ⟨_, rfl⟩ | ⟨hd, _⟩
  · simp only [Arith.mkResult, CCG.mkResult, Arith.finish, Arith.cgBranch, hn]; omega
  · simp [Arith.doCG, hH, Hardness.isSome] at hd

theorem offset_reach {pentol : ℝ} (hF : o.externalForce = none) {k : ℕ} {s : State ι ℝ}
    (h : Reach A P o pentol k s) : s.offset = o.offset.getD 0 := by
  induction h with
  | init => simp [Arith.initState]
  | @step k s w _ hst _ ih =>
    obtain ⟨m, hard, hm, _, rfl⟩ := step_mid hst
    rcases branch_cases hm with ⟨_, rfl⟩ | ⟨_, hm⟩
    · simp [Arith.finish, Arith.cgBranch, Arith.cgOffset, hF, ih]
    · simp only [Arith.mixBranch, hF, Except.ok.injEq] at hm
      rw [← hm]; simp [Arith.finish, ih]

/-- **C208, offset.** At fixed offset the returned offset is the given one, bit for bit. -/
theorem C208_offset_kept (hF : o.externalForce = none) (h : A.solve P o = .ok r) :
    r.offset = o.offset.getD 0 := by
  obtain ⟨pentol, k, s, w, _, hR, hst, rfl, _, _⟩ := solve_spec h
  have ih := offset_reach hF hR
  obtain ⟨m, hard, hm, _, rfl⟩ := step_mid hst
  rcases branch_cases hm with ⟨_, rfl⟩ | ⟨_, hm⟩
  · simp [Arith.mkResult, CCG.mkResult, Arith.finish, Arith.cgBranch, Arith.cgOffset, hF, ih]
  · simp only [Arith.mixBranch, hF, Except.ok.injEq] at hm
    rw [← hm]; simp [Arith.mkResult, CCG.mkResult, Arith.finish, ih]

theorem rnd_nonpos (hA : A.Sound) {x : ℝ} (h : x ≤ 0) : A.rnd x ≤ 0 := by rw [← hA.zero]; exact hA.mono h

theorem rnd_nonneg (hA : A.Sound) {x : ℝ} (h : 0 ≤ x) : 0 ≤ A.rnd x := by rw [← hA.zero]; exact hA.mono h

theorem rescale_nonpos (hA : A.Sound) (hF : ∀ F, o.externalForce = some F → 0 ≤ F) (hn : 0 ≤ P.nSurf)
    (m : Mid ι ℝ) (i : ι) : A.rescale P o (clip m) i ≤ 0 := by
  unfold Arith.rescale
  cases hE : o.externalForce with
  | none => exact clip_nonpos m i
  | some F =>
    have h0 := hF F hE
    simp only
    split_ifs with h1
    · have h2 : 0 ≤ -A.sum P.comp (clip m) := by
        have := hA.sum_nonpos P.comp (clip m) fun j _ => clip_nonpos m j
        linarith
      exact rnd_nonpos hA (mul_nonpos_of_nonpos_of_nonneg (clip_nonpos m i) (rnd_nonneg hA (div_nonneg h0 h2)))
    · change (if P.comp i then A.rnd (-F / P.nSurf) else 0) ≤ 0
      split_ifs
      · exact rnd_nonpos hA (div_nonpos_of_nonpos_of_nonneg (by linarith) hn)
      · exact le_rfl

/-- **C208, sign.** Under the conditions of C37 no rounding error makes a returned force tensile. -/
theorem C208_never_tensile (hA : A.Sound) (hF : ∀ F, o.externalForce = some F → 0 ≤ F)
    (hn : 0 ≤ P.nSurf) (hH : ∀ i, 0 ≤ o.hardness.at i) (h : A.solve P o = .ok r)
    (hs : r.status ≠ .sd ∨ (o.hardness = .none ∧ 0 ≤ r.tau)) : ∀ i, 0 ≤ r.jac i := by
  intro i
  obtain ⟨pentol, k, s, w, _, hR, hst, rfl, _, _⟩ := solve_spec h
  obtain ⟨m, hard, hm, _, rfl⟩ := step_mid hst
  change 0 ≤ if P.slice i then -(A.stepForce P o m i) else 0
  split_ifs
  · rw [neg_nonneg]
    have h1 : truncate o m (A.rescale P o (clip m)) i ≤ 0 := by
      unfold truncate
      split_ifs
      · linarith [hH i]
      · exact rescale_nonpos hA hF hn m i
    unfold Arith.stepForce Arith.addContact
    split_ifs with h2
    · rcases hs with hs | ⟨hH', hs⟩
      · exfalso
        apply hs
        change stepStatus P o m = .sd
        unfold stepStatus
        rw [if_neg h2.1, if_pos (count_pos.2 ⟨i, h2.2⟩)]
      · have hg : m.g i < 0 := by
          have := h2.2
          simp only [newContact, flowing, hH', Hardness.isSome, Bool.and_eq_true, Bool.or_eq_true,
            decide_eq_true_eq, Bool.false_and, Bool.false_eq_true, or_false] at this
          exact this.2.2
        have ht : 0 ≤ m.tau := hs
        have h3 := rnd_nonpos hA (mul_nonpos_of_nonneg_of_nonpos ht hg.le)
        exact rnd_nonpos hA (by linarith)
    · exact h1
  · exact le_rfl

/-- The first iteration of an elastic calculation never produces tensile forces. -/
theorem C208_first_iteration (hA : A.Sound) (hF : ∀ F, o.externalForce = some F → 0 ≤ F)
    (hn : 0 ≤ P.nSurf) (hH : o.hardness = .none) (h : A.solve P o = .ok r) (hnit : r.nit = 1) :
    ∀ i, 0 ≤ r.jac i := by
  apply C208_never_tensile hA hF hn (by intro i; rw [hH]; exact le_rfl) h
  right
  refine ⟨hH, ?_⟩
  obtain ⟨pentol, k, s, w, _, hR, hst, rfl, _, _⟩ := solve_spec h
  have hk : k = 0 := by simpa [Arith.mkResult, CCG.mkResult] using hnit
  subst hk
  cases hR
  obtain ⟨m, hard, hm, _, rfl⟩ := step_mid hst
  rcases branch_cases hm with ⟨_, rfl⟩ | ⟨hd, _⟩
  · change 0 ≤ (A.cgBranch P o (A.initState P o)).tau
    simp only [Arith.cgBranch]
    split_ifs with hx
    · apply rnd_nonneg hA
      apply div_nonneg _ hx.2.le
      apply hA.sum_nonneg
      intro i hi
      simp only [Bool.and_eq_true] at hi
      have hd : (A.initState P o).delta = false := rfl
      apply rnd_nonneg hA
      simp only [Arith.cgDir, hi.1, hi.2, hd, Bool.false_and, Bool.false_eq_true, if_false, if_true]
      exact mul_self_nonneg _
    · exact le_rfl
  · simp [Arith.doCG, hH, Hardness.isSome] at hd

/-- **C208, hardness.** Under the conditions of C38 no rounding error lifts a returned force above the hardness. -/
theorem C208_bounded_by_hardness {H : ℝ} (hF : o.externalForce = none)
    (hH : o.hardness = .scalar H) (hH0 : 0 ≤ H) (h : A.solve P o = .ok r)
    (hs : r.status ≠ .sd) : ∀ i, r.jac i ≤ H := by
  intro i
  obtain ⟨pentol, k, s, w, _, hR, hst, rfl, _, _⟩ := solve_spec h
  obtain ⟨m, hard, hm, _, rfl⟩ := step_mid hst
  change (if P.slice i then -(A.stepForce P o m i) else 0) ≤ H
  split_ifs
  · unfold Arith.stepForce Arith.addContact
    split_ifs with h2
    · exfalso
      apply hs
      change stepStatus P o m = .sd
      unfold stepStatus
      rw [if_neg h2.1, if_pos (count_pos.2 ⟨i, h2.2⟩)]
    · unfold truncate
      split_ifs with h3
      · simp [hH, Hardness.at]
      · simp only [flowing, hH, Hardness.isSome, Hardness.at, Bool.true_and, decide_eq_true_eq,
          not_le] at h3
        simp only [Arith.rescale, hF, clip]
        split_ifs <;> linarith
  · exact hH0

/-! ## C209: how far rounding can shift the converged quantities -/

theorem total_err (hA : A.Sound) {ε η δ : ℝ} (hE : A.Accurate ε η δ) {pentol : ℝ} {k : ℕ} {s : State ι ℝ} {w : StepOut ι ℝ}
    (hH : ∀ i, 0 ≤ o.hardness.at i) (hsl : ∀ i, P.comp i = true → P.slice i = true)
    (hR : Reach A P o pentol k s) (hst : A.step P o pentol s = .ok w) (n : ℕ) (b : Bool) :
    |w.totalForce - ∑ i, (A.mkResult P o n b w).jac i| ≤ δ * ∑ i, |(A.mkResult P o n b w).jac i| := by
  have hf := final_force hA hH hsl hR hst n b
  have h0 := offZero_step hA.zero hH (offZero_reach hA.zero hH hR) hst
  obtain ⟨m, hard, _, _, rfl⟩ := step_mid hst
  have ht : (A.finish P o pentol s m hard).totalForce = -(A.sum P.comp (A.finish P o pentol s m hard).next.f) := rfl
  have h1 := hE.sum_err P.comp (A.finish P o pentol s m hard).next.f
  have e1 := sumOver_eq_sum_of_support (p := P.comp) (a := (A.finish P o pentol s m hard).next.f) (fun i hi => (h0 i hi).1)
  have e2 := sumOver_eq_sum_of_support (p := P.comp) (a := fun i => |(A.finish P o pentol s m hard).next.f i|)
    (fun i hi => by simp [(h0 i hi).1])
  unfold sumOver at e1 e2
  rw [e1, e2] at h1
  have hj : ∀ i, (A.mkResult P o n b (A.finish P o pentol s m hard)).jac i = -((A.finish P o pentol s m hard).next.f i) := by
    intro i; rw [← congrFun hf i, neg_neg]
  simp only [hj, abs_neg, Finset.sum_neg_distrib]
  rw [ht, ← abs_neg]
  convert h1 using 2
  ring

/-- The test of line 418 in rounded arithmetic. -/
theorem relLt_bound {ε η δ : ℝ} (hE : A.Accurate ε η δ) {a b tol : ℝ} (h : A.relLt a b tol = true) :
    a ≠ 0 ∧ (1 - ε) ^ 2 * |a - b| < (tol + η) * |a| + (1 - ε) * η := by
  unfold Arith.relLt at h
  simp only [Bool.and_eq_true, decide_eq_true_eq, pabs_eq] at h
  obtain ⟨ha, h⟩ := h
  refine ⟨ha, ?_⟩
  have ha' := abs_pos.2 ha
  have he := hE.eps_lt
  have h1 := hE.rnd_err (a - b)
  have h2 := hE.rnd_err (A.rnd (a - b) / a)
  generalize A.rnd (a - b) = d at *
  generalize A.rnd (d / a) = q at *
  have h3 : (1 - ε) * |a - b| - η ≤ |d| := by
    have := abs_sub_abs_le_abs_sub (a - b) d
    rw [abs_sub_comm (a - b) d] at this
    nlinarith
  have h4 : (1 - ε) * |d / a| - η ≤ |q| := by
    have := abs_sub_abs_le_abs_sub (d / a) q
    rw [abs_sub_comm] at this
    nlinarith
  rw [abs_div] at h4
  have h5 : (1 - ε) * |d| < (tol + η) * |a| := by
    have h6 : (1 - ε) * (|d| / |a|) < tol + η := by linarith
    have h7 : (1 - ε) * |d| = (1 - ε) * (|d| / |a|) * |a| := by field_simp
    rw [h7]
    exact mul_lt_mul_of_pos_right h6 ha'
  nlinarith

/-- **C209, load.** Under load control, success means that the exact sum of the returned forces meets the prescribed load up to the tolerance and the rounding errors of
the sum and of the comparison. -/
theorem C209_load_met (hA : A.Sound) {ε η δ : ℝ} (hE : A.Accurate ε η δ) (hH : ∀ i, 0 ≤ o.hardness.at i)
    (hsl : ∀ i, P.comp i = true → P.slice i = true) (h : A.solve P o = .ok r)
    {F : ℝ} (hF : o.externalForce = some F) (hs : r.success = true) (htol : 0 ≤ o.thermotol) :
    (1 - ε) ^ 2 * |∑ i, r.jac i - F| < ((o.thermotol + η) * (1 + δ) + δ) * ∑ i, |r.jac i| + (1 - ε) * η ∧ ∃ i, r.jac i ≠ 0 := by
  obtain ⟨pentol, k, s, w, _, hR, hst, rfl, _, _⟩ := solve_spec h
  have h1 := total_err hA hE hH hsl hR hst (k + 1) w.converged
  obtain ⟨m, hard, _, _, hw⟩ := step_mid hst
  have hc : w.converged = true := hs
  have hconv := (finish_conv hw hc).1
  unfold Arith.convForce at hconv
  rw [hF] at hconv
  obtain ⟨h0, h2⟩ := relLt_bound hE hconv
  have hδ := hE.delta_nonneg
  have he0 := hE.eps_nonneg
  have he1 := hE.eps_lt
  have hη := hE.eta_nonneg
  generalize (A.mkResult P o (k + 1) w.converged w).jac = j at *
  have hS : |∑ i, j i| ≤ ∑ i, |j i| := Finset.abs_sum_le_sum_abs _ _
  have hS0 : 0 ≤ ∑ i, |j i| := Finset.sum_nonneg fun i _ => abs_nonneg _
  have h3 : |w.totalForce| ≤ (1 + δ) * ∑ i, |j i| := by
    have := abs_sub_abs_le_abs_sub w.totalForce (∑ i, j i)
    linarith
  constructor
  · have h4 : |∑ i, j i - F| ≤ |w.totalForce - F| + |w.totalForce - ∑ i, j i| := by
      have : ∑ i, j i - F = (w.totalForce - F) - (w.totalForce - ∑ i, j i) := by ring
      rw [this]; exact abs_sub _ _
    have h5 : (1 - ε) ^ 2 ≤ 1 := by nlinarith
    have h6 : (1 - ε) ^ 2 * |∑ i, j i - F| ≤ (1 - ε) ^ 2 * |w.totalForce - F| + |w.totalForce - ∑ i, j i| := by
      have h7 : (1 - ε) ^ 2 * |w.totalForce - ∑ i, j i| ≤ |w.totalForce - ∑ i, j i| :=
        mul_le_of_le_one_left (abs_nonneg _) h5
      have h8 := mul_le_mul_of_nonneg_left h4 (sq_nonneg (1 - ε))
      linarith
    have h9 : (o.thermotol + η) * |w.totalForce| ≤ (o.thermotol + η) * ((1 + δ) * ∑ i, |j i|) :=
      mul_le_mul_of_nonneg_left h3 (by linarith)
    nlinarith
  · by_contra hall
    push Not at hall
    have hz : ∑ i, |j i| = 0 := Finset.sum_eq_zero fun i _ => by simp [hall i]
    rw [hz] at h3
    apply h0
    have := abs_nonneg w.totalForce
    apply abs_eq_zero.1
    linarith

theorem rnd_lt {ε η δ : ℝ} (hE : A.Accurate ε η δ) {x p : ℝ} (hp : 0 ≤ p) (h : A.rnd x < p) : x < (p + η) / (1 - ε) := by
  have he1 := hE.eps_lt
  have he0 := hE.eps_nonneg
  have hη := hE.eta_nonneg
  rw [lt_div_iff₀ (by linarith)]
  have h1 := (abs_le.1 (hE.rnd_err x)).1
  rcases le_or_gt 0 x with hx | hx
  · rw [abs_of_nonneg hx] at h1; nlinarith
  · have : x * (1 - ε) < 0 := mul_neg_of_neg_of_pos hx (by linarith)
    linarith

theorem rnd_abs_lt {ε η δ : ℝ} (hE : A.Accurate ε η δ) {x p : ℝ} (h : |A.rnd x| < p) : |x| < (p + η) / (1 - ε) := by
  have he1 := hE.eps_lt
  rw [lt_div_iff₀ (by linarith)]
  have h1 := hE.rnd_err x
  have h2 := abs_sub_abs_le_abs_sub x (A.rnd x)
  rw [abs_sub_comm] at h2
  nlinarith

/-- **C209, penetration.** If the run succeeds and its final iteration added no contact points, then at every topography point the penetration is below
`pentol` plus rounding errors proportional to the numbers compared, or the point carries exactly the hardness. -/
theorem C209_no_penetration {ε η δ : ℝ} (hE : A.Accurate ε η δ)
    (hsl : ∀ i, P.comp i = true → P.slice i = true) (h : A.solve P o = .ok r)
    (hs : r.success = true) (hcg : r.status = .cg) {pentol : ℝ} (hp : A.pentolOf P o = .ok pentol) :
    ∀ i, P.comp i = true →
      P.h i + r.offset - r.x i < (1 + ε) * ((pentol + η) / (1 - ε)) + ε * (|r.x i - P.h i| + |P.h i + r.offset|) + (η + η / (1 - ε)) ∨
      (o.hardness.isSome = true ∧ r.jac i = o.hardness.at i) := by
  intro i hi
  obtain ⟨pentol', k, s, w, hp', hR, hst, rfl, _, _⟩ := solve_spec h
  rw [hp] at hp'; cases hp'
  obtain ⟨m, hard, hm, _, hw⟩ := step_mid hst
  have hc : w.converged = true := hs
  obtain ⟨_, hdu, _, _, hpen⟩ := finish_conv hw hc
  subst hw
  have hcg' : stepStatus P o m = .cg := hcg
  have hnm : stepStatus P o m ≠ .mix := by rw [hcg']; simp
  have hnc := status_cg_nc hcg' i
  obtain ⟨_, hmm⟩ := status_ne_mix hm hnm
  have hpen' := hpen hnm
  have he0 := hE.eps_nonneg
  have he1 := hE.eps_lt
  have hη := hE.eta_nonneg
  have hp0 : 0 < pentol := by
    have : 0 ≤ (A.finish P o pentol s m hard).maxPen := le_max_left _ _
    linarith
  have hD0 : 0 < (pentol + η) / (1 - ε) := div_pos (by linarith) (by linarith)
  have hη1 : 0 ≤ η / (1 - ε) := div_nonneg hη (by linarith)
  set u := (A.finish P o pentol s m hard).next.u with hu
  change P.h i + m.offset - u i < (1 + ε) * ((pentol + η) / (1 - ε)) + ε * (|u i - P.h i| + |P.h i + m.offset|) + (η + η / (1 - ε)) ∨ _
  by_cases hci : cgSet o s i = true
  · left
    have h1 : (if m.c i then A.rnd (A.rnd (P.h i + m.offset) - u i) else 0) ≤
        maxOver P.comp (fun i => if m.c i then A.rnd (A.rnd (P.h i + m.offset) - u i) else 0) :=
      le_maxOver (a := fun i => if m.c i then A.rnd (A.rnd (P.h i + m.offset) - u i) else 0) hi
    have h2 : m.c i = true := by rw [hmm]; exact hci
    rw [h2, if_pos rfl] at h1
    have h3 : A.rnd (A.rnd (P.h i + m.offset) - u i) < pentol :=
      lt_of_le_of_lt (le_trans h1 (le_max_right _ _)) hpen'
    have h4 := rnd_lt hE hp0.le h3
    have h5 := (abs_le.1 (hE.rnd_err (P.h i + m.offset))).1
    have h6 : 0 ≤ ε * |u i - P.h i| := mul_nonneg he0 (abs_nonneg _)
    nlinarith
  · have hci' : cgSet o s i = false := by simpa using hci
    have hmf : m.f i = s.f i := by rw [hmm]; simp [Arith.cgBranch, hci']
    by_cases hneg : s.f i < 0
    · right
      simp only [cgSet, hneg, decide_true, Bool.true_and, Bool.or_eq_false_iff,
        Bool.not_eq_false', decide_eq_false_iff_not, not_lt] at hci'
      obtain ⟨hsome, hle⟩ := hci'
      refine ⟨hsome, ?_⟩
      have hfl : flowing o m i = true := by simp [flowing, hsome, hmf, hle]
      change (if P.slice i then -(A.stepForce P o m i) else 0) = _
      rw [if_pos (hsl i hi)]
      unfold Arith.stepForce Arith.addContact
      simp [hnc, truncate, hfl]
    · left
      have hten : tensile m i = true := by simp [tensile, hmf, not_lt.1 hneg]
      have hg : 0 ≤ m.g i := by
        by_contra hg
        have : newContact P o m i = true := by simp [newContact, hi, hten, lt_of_not_ge hg]
        rw [hnc] at this; simp at this
      have hge : m.g i = A.rnd (A.rnd (s.u i - P.h i) - m.offset) := by rw [hmm]; rfl
      rw [hge] at hg
      have hdui : |A.rnd (u i - s.u i)| < pentol := by
        have : pabs (A.rnd (u i - s.u i)) ≤ (A.finish P o pentol s m hard).maxdu :=
          le_maxOver (p := fun _ => true) (a := fun i => pabs (A.rnd (u i - s.u i))) rfl
        rw [pabs_eq] at this
        exact lt_of_le_of_lt this hdu
      have h3 := rnd_abs_lt hE hdui
      set D := (pentol + η) / (1 - ε)
      have h4 : -(η / (1 - ε)) ≤ A.rnd (s.u i - P.h i) - m.offset := by
        generalize A.rnd (s.u i - P.h i) - m.offset = z at *
        rcases le_or_gt 0 z with hz | hz
        · linarith
        · have h5 := (abs_le.1 (hE.rnd_err z)).2
          rw [abs_of_neg hz] at h5
          rw [neg_le, le_div_iff₀ (by linarith)]
          nlinarith
      have h5 := (abs_le.1 (hE.rnd_err (s.u i - P.h i))).2
      have h6 : |s.u i - P.h i| ≤ |u i - P.h i| + D := by
        have : s.u i - P.h i = (u i - P.h i) - (u i - s.u i) := by ring
        rw [this]
        exact le_trans (abs_sub _ _) (by linarith)
      have h7 := mul_le_mul_of_nonneg_left h6 he0
      have h8 : 0 ≤ ε * |P.h i + m.offset| := mul_nonneg he0 (abs_nonneg _)
      have h9 := (abs_lt.1 h3).1
      nlinarith

/-- **C209, enforced load.** Without hardness and without underflow, if the final iteration added no contact points, the exact sum of the returned forces is the
prescribed load up to the rounding errors of one sum, one quotient and one product, also when the run did not converge. -/
theorem C209_load_enforced (hA : A.Sound) {ε δ : ℝ} (hE : A.Accurate ε 0 δ) (hδ1 : δ < 1)
    (hsl : ∀ i, P.comp i = true → P.slice i = true) (hH : o.hardness = .none)
    (hn : P.nSurf = (count P.comp : ℝ)) (hn0 : 0 < count P.comp)
    (h : A.solve P o = .ok r) {F : ℝ} (hF : o.externalForce = some F) (hF0 : 0 ≤ F) (hs : r.status = .cg) :
    (1 - ε) ^ 2 / (1 + δ) * F ≤ ∑ i, r.jac i ∧ ∑ i, r.jac i ≤ (1 + ε) ^ 2 / (1 - δ) * F := by
  have hH' : ∀ i, 0 ≤ o.hardness.at i := by intro i; rw [hH]; exact le_rfl
  obtain ⟨pentol, k, s, w, _, hR, hst, rfl, _, _⟩ := solve_spec h
  have hf := final_force hA hH' hsl hR hst (k + 1) w.converged
  have hj : ∀ i, (A.mkResult P o (k + 1) w.converged w).jac i = -(w.next.f i) := by
    intro i; rw [← congrFun hf i, neg_neg]
  have h0 := offZero_step hA.zero hH' (offZero_reach hA.zero hH' hR) hst
  obtain ⟨m, hard, hm, _, rfl⟩ := step_mid hst
  have hnc := status_cg_nc (P := P) (o := o) (m := m) hs
  have hforce : A.stepForce P o m = A.rescale P o (clip m) := by
    funext i
    unfold Arith.stepForce Arith.addContact
    simp only [hnc i, Bool.false_eq_true, and_false, if_false]
    unfold truncate flowing
    simp [hH, Hardness.isSome]
  have hsum : ∑ i, (A.mkResult P o (k + 1) (A.finish P o pentol s m hard).converged (A.finish P o pentol s m hard)).jac i =
      ∑ i, if P.comp i then -(A.rescale P o (clip m) i) else 0 := by
    apply Finset.sum_congr rfl
    intro i _
    rw [hj i]
    split_ifs with hc
    · rw [← hforce]; rfl
    · rw [(h0 i (by simpa using hc)).1]; simp
  rw [hsum]
  have he0 := hE.eps_nonneg
  have he1 := hE.eps_lt
  have hδ := hE.delta_nonneg
  have d1 : 0 < 1 - δ := by linarith
  have d2 : 0 < 1 + δ := by linarith
  have hlo : (1 - ε) ^ 2 / (1 + δ) ≤ 1 - ε := by
    rw [div_le_iff₀ d2]; nlinarith
  have hhi : 1 + ε ≤ (1 + ε) ^ 2 / (1 - δ) := by
    rw [le_div_iff₀ d1]; nlinarith
  have key : ∀ S q : ℝ, 0 ≤ S → 0 ≤ q → (∑ i, if P.comp i then -(A.rescale P o (clip m) i) else 0) ∈ Set.Icc ((1 - ε) * (S * q)) ((1 + ε) * (S * q)) →
      (1 - ε) / (1 + δ) * F ≤ S * q → S * q ≤ (1 + ε) / (1 - δ) * F →
      (1 - ε) ^ 2 / (1 + δ) * F ≤ (∑ i, if P.comp i then -(A.rescale P o (clip m) i) else 0) ∧
      (∑ i, if P.comp i then -(A.rescale P o (clip m) i) else 0) ≤ (1 + ε) ^ 2 / (1 - δ) * F := by
    intro S q _ _ hI h1 h2
    constructor
    · refine le_trans ?_ hI.1
      calc (1 - ε) ^ 2 / (1 + δ) * F = (1 - ε) * ((1 - ε) / (1 + δ) * F) := by ring
        _ ≤ _ := mul_le_mul_of_nonneg_left h1 (by linarith)
    · refine le_trans hI.2 ?_
      calc (1 + ε) * (S * q) ≤ (1 + ε) * ((1 + ε) / (1 - δ) * F) := mul_le_mul_of_nonneg_left h2 (by linarith)
        _ = _ := by ring
  have hsumI : ∀ (c : ι → ℝ) (q : ℝ), (∀ i, 0 ≤ c i) → 0 ≤ q →
      (∀ i, P.comp i = true → |-(A.rescale P o (clip m) i) - c i * q| ≤ ε * (c i * q)) →
      (∑ i, if P.comp i then -(A.rescale P o (clip m) i) else 0) ∈
        Set.Icc ((1 - ε) * ((∑ i, if P.comp i then c i else 0) * q)) ((1 + ε) * ((∑ i, if P.comp i then c i else 0) * q)) := by
    intro c q hc hq hi
    rw [Finset.sum_mul, Finset.mul_sum, Finset.mul_sum]
    constructor
    · apply Finset.sum_le_sum
      intro i _
      split_ifs with hp
      · have := (abs_le.1 (hi i hp)).1; linarith
      · simp
    · apply Finset.sum_le_sum
      intro i _
      split_ifs with hp
      · have := (abs_le.1 (hi i hp)).2; linarith
      · simp
  by_cases ht0 : -(A.sum P.comp (clip m)) ≠ 0
  · have hre : ∀ i, A.rescale P o (clip m) i = A.rnd (clip m i * A.rnd (F / -(A.sum P.comp (clip m)))) := by
      intro i; unfold Arith.rescale; simp only [hF]; rw [if_pos ht0]
    have hc : ∀ i, 0 ≤ -(clip m i) := fun i => by linarith [clip_nonpos m i]
    have htn : 0 ≤ -(A.sum P.comp (clip m)) := by linarith [hA.sum_nonpos P.comp (clip m) fun j _ => clip_nonpos m j]
    have herr := hE.sum_err P.comp (clip m)
    set t := -(A.sum P.comp (clip m)) with ht
    have htp : 0 < t := lt_of_le_of_ne htn (Ne.symm ht0)
    set S := ∑ i, if P.comp i then -(clip m i) else 0 with hS
    have hS1 : (∑ i, if P.comp i then clip m i else 0) = -S := by
      rw [hS, ← Finset.sum_neg_distrib]
      apply Finset.sum_congr rfl; intro i _; split_ifs <;> simp
    have hS2 : (∑ i, if P.comp i then |clip m i| else 0) = S := by
      apply Finset.sum_congr rfl; intro i _
      split_ifs
      · exact abs_of_nonpos (clip_nonpos m i)
      · rfl
    have hS0 : 0 ≤ S := by
      apply Finset.sum_nonneg; intro i _
      split_ifs
      · exact hc i
      · exact le_rfl
    rw [hS1, hS2] at herr
    have herr' : |t - S| ≤ δ * S := by
      have e : A.sum P.comp (clip m) - -S = -(t - S) := by rw [ht]; ring
      rwa [e, abs_neg] at herr
    have hq0 : 0 ≤ A.rnd (F / t) := rnd_nonneg hA (div_nonneg hF0 htn)
    have hq := hE.rnd_err (F / t)
    rw [abs_of_nonneg (div_nonneg hF0 htn), add_zero] at hq
    set q := A.rnd (F / t) with hqd
    have hFt : 0 ≤ F / t := div_nonneg hF0 htn
    obtain ⟨ha, hb⟩ := abs_le.1 herr'
    obtain ⟨hc1, hc2⟩ := abs_le.1 hq
    have hSt1 : F ≤ (1 + δ) * (S * (F / t)) := by
      have : F = t * (F / t) := by field_simp
      calc F = t * (F / t) := this
        _ ≤ ((1 + δ) * S) * (F / t) := mul_le_mul_of_nonneg_right (by linarith) hFt
        _ = _ := by ring
    have hSt2 : (1 - δ) * (S * (F / t)) ≤ F := by
      have : F = t * (F / t) := by field_simp
      calc (1 - δ) * (S * (F / t)) = ((1 - δ) * S) * (F / t) := by ring
        _ ≤ t * (F / t) := mul_le_mul_of_nonneg_right (by linarith) hFt
        _ = F := this.symm
    apply key S q hS0 hq0
    · apply hsumI (fun i => -(clip m i)) q hc hq0
      intro i _
      rw [hre i]
      have := hE.rnd_err (clip m i * q)
      have e : |clip m i * q| = -(clip m i) * q := by
        rw [abs_of_nonpos (mul_nonpos_of_nonpos_of_nonneg (clip_nonpos m i) hq0)]; ring
      rw [e, add_zero] at this
      have e2 : -(A.rnd (clip m i * q)) - -(clip m i) * q = -(A.rnd (clip m i * q) - clip m i * q) := by ring
      rw [e2, abs_neg]
      exact this
    · have h1 : (1 - ε) * (F / t) ≤ q := by linarith
      have h2 : S * ((1 - ε) * (F / t)) ≤ S * q := mul_le_mul_of_nonneg_left h1 hS0
      rw [div_mul_eq_mul_div, div_le_iff₀ d2]
      have h3 := mul_le_mul_of_nonneg_left hSt1 (show 0 ≤ 1 - ε by linarith)
      nlinarith
    · have h1 : q ≤ (1 + ε) * (F / t) := by linarith
      have h2 : S * q ≤ S * ((1 + ε) * (F / t)) := mul_le_mul_of_nonneg_left h1 hS0
      rw [div_mul_eq_mul_div, le_div_iff₀ d1]
      have h3 := mul_le_mul_of_nonneg_left hSt2 (show 0 ≤ 1 + ε by linarith)
      nlinarith
  · have hre : ∀ i, P.comp i = true → A.rescale P o (clip m) i = A.rnd (-F / P.nSurf) := by
      intro i hi; unfold Arith.rescale; simp only [hF]; rw [if_neg ht0]; simp [hi]
    have hnp : (0 : ℝ) < P.nSurf := by rw [hn]; exact_mod_cast hn0
    have hq0 : 0 ≤ F / P.nSurf := div_nonneg hF0 hnp.le
    have hI := hsumI (fun _ => 1) (F / P.nSurf) (fun _ => zero_le_one) hq0 (by
      intro i hi
      rw [hre i hi]
      have := hE.rnd_err (-F / P.nSurf)
      have e : |-F / P.nSurf| = F / P.nSurf := by rw [neg_div, abs_neg, abs_of_nonneg hq0]
      rw [e, add_zero] at this
      have e2 : -(A.rnd (-F / P.nSurf)) - 1 * (F / P.nSurf) = -(A.rnd (-F / P.nSurf) - -F / P.nSurf) := by ring
      rw [e2, abs_neg, one_mul]
      exact this)
    have hcnt : (∑ i, if P.comp i then (1 : ℝ) else 0) = P.nSurf := by
      rw [hn, count, Finset.sum_boole]
    rw [hcnt] at hI
    have e : P.nSurf * (F / P.nSurf) = F := by field_simp
    rw [e] at hI
    exact ⟨le_trans (mul_le_mul_of_nonneg_right hlo hF0) hI.1, le_trans hI.2 (mul_le_mul_of_nonneg_right hhi hF0)⟩

/-! ## The hypotheses are met -/

/-- One grid point under the load `1`. -/
noncomputable def onePoint : Problem (Fin 1) ℝ where
  disp := fun f i => -f i
  force := fun u i => -u i
  comp := fun _ => true
  slice := fun _ => true
  h := fun _ => 0
  nSurf := 1
  rmsHeight := 0
  meanGrid := 1

/-- Default tolerances, a warm start under load control. -/
noncomputable def onePointOpt : Options (Fin 1) ℝ where
  externalForce := some 1
  pentol := some (1 / 1000)
  initialForces := some fun _ => -1
  forcetol := 1 / 100000
  thermotol := 1 / 1000000
  mixfac := 1 / 10
  mixdecfac := 19 / 20
  maxiter := 20
  bisect := fun _ a _ => .ok a

/-- Double precision: `53` significant digits, chopped, summed from left to right. -/
noncomputable def double (n : ℕ) : Arith (Fin n) := seq (chop 52)

theorem double_sound (n : ℕ) : (double n).Sound := seq_sound (chop_zero 52) (chop_mono 52)

theorem double_accurate (n : ℕ) : (double n).Accurate ((1 / 2) ^ 52) 0 ((1 + (1 / 2) ^ 52) ^ n - 1) :=
  seq_accurate (by positivity) (by norm_num) (chop_err 52)

theorem chop_one (p : ℕ) : chop p 1 = 1 := by
  unfold chop
  rw [if_pos one_pos]
  apply le_antisymm chopPos_le
  have := le_chopPos (p := p) (x := 1) one_pos
  simpa using this

theorem chop_neg_one (p : ℕ) : chop p (-1) = -1 := by
  have := chop_one p
  unfold chop at this ⊢
  rw [if_pos one_pos] at this
  rw [if_neg (by norm_num), if_pos (by norm_num), neg_neg, this]

theorem double_rnd0 (n : ℕ) : (double n).rnd 0 = 0 := chop_zero 52
theorem double_rnd1 (n : ℕ) : (double n).rnd 1 = 1 := chop_one 52
theorem double_rndm (n : ℕ) : (double n).rnd (-1) = -1 := chop_neg_one 52
theorem double_sum (p : Fin 1 → Bool) (a : Fin 1 → ℝ) : (double 1).sum p a = if p 0 then chop 52 (a 0) else 0 := by
  simp [double, seq, List.finRange]

theorem count_true : count (fun _ : Fin 1 => true) = 1 := by simp [count]
theorem maxOver_true (a : Fin 1 → ℝ) : maxOver (fun _ : Fin 1 => true) a = a 0 := by simp [maxOver]

theorem onePoint_run : ∃ r, (double 1).solve onePoint onePointOpt = .ok r ∧ r.success = true ∧ r.status = .cg ∧
    r.nit = 1 ∧ r.jac 0 = 1 := by
  have hs : (double 1).initState onePoint onePointOpt =
      { f := fun _ => -1, u := fun _ => 1, t := fun _ => 0, delta := false, status := .reset, Gold := 1, mixfacCur := 1 / 10, mixsteps := 0,
        lastMaxHeight := none, lastTotalForce := none, offset := 0, nfev := 1 } := by
    simp [Arith.initState, onePoint, onePointOpt]
  have hc : cgSet onePointOpt ((double 1).initState onePoint onePointOpt) = fun _ => true := by
    rw [hs]; funext i; simp [cgSet, onePointOpt, Hardness.isSome]
  have ho : (double 1).cgOffset onePoint onePointOpt ((double 1).initState onePoint onePointOpt) = 1 := by
    simp only [Arith.cgOffset, hc, count_true, double_sum]
    rw [hs]
    simp [onePoint, onePointOpt, double_rnd1, chop_one]
  have hd : (double 1).doCG onePointOpt ((double 1).initState onePoint onePointOpt) = true := by
    simp [Arith.doCG, onePointOpt, Hardness.isSome]
  have hb : (double 1).branch onePoint onePointOpt ((double 1).initState onePoint onePointOpt) =
      .ok { f := fun _ => -1, t := fun _ => 0, g := fun _ => 0, c := fun _ => true, offset := 1, G := 0, tau := 0, status := .reset, mixfacCur := 1 / 10, mixsteps := 0, nfev := 2 } := by
    simp only [Arith.branch, hd, if_true, Arith.cgBranch, hc, ho, Arith.cgDir, count_true, double_sum]
    rw [hs]
    simp [onePoint, onePointOpt, double_rnd0, double_rnd1, double_rndm, chop_zero, funext_iff, Arith.cgDir]
  have hst : ∃ w, (double 1).step onePoint onePointOpt (1 / 1000) ((double 1).initState onePoint onePointOpt) = .ok w ∧
      w.converged = true ∧ w.next.status = .cg ∧ w.next.f = fun _ => -1 := by
    have hn : ∀ m : Mid (Fin 1) ℝ, m.f = (fun _ => -1) → newContact onePoint onePointOpt m = fun _ => false := by
      intro m hm; funext i; simp [newContact, tensile, flowing, hm, onePointOpt, Hardness.isSome]
    have hk : ∀ m : Mid (Fin 1) ℝ, m.f = (fun _ => -1) → clip m = fun _ => -1 := by
      intro m hm; funext i; simp [clip, tensile, hm]
    have ht : ∀ m : Mid (Fin 1) ℝ, m.f = (fun _ => -1) → tensile m = fun _ => false := by
      intro m hm; funext i; simp [tensile, hm]
    have hcf : count (fun _ : Fin 1 => false) = 0 := by simp [count]
    have hr : (double 1).rescale onePoint onePointOpt (fun _ => -1) = fun _ => -1 := by
      simp [Arith.rescale, onePointOpt, onePoint, double_sum, chop_neg_one, double_rnd1, double_rndm]
    have hf : ∀ m : Mid (Fin 1) ℝ, m.f = (fun _ => -1) → (double 1).stepForce onePoint onePointOpt m = fun _ => -1 := by
      intro m hm
      unfold Arith.stepForce
      rw [hk m hm, hn m hm, hr]
      funext i
      simp [Arith.addContact, truncate, flowing, onePointOpt, Hardness.isSome]
    refine ⟨_, by unfold Arith.step; rw [hb]; rfl, ?_, ?_, ?_⟩
    · simp only [Arith.finish, stepStatus, hn, hf, Arith.maxPres, ht, hcf, Arith.maxPen, hc, count_true]
      rw [hs]
      simp [onePoint, onePointOpt, maxOver_true, hcf, double_rnd0, double_rnd1, double_sum, chop_neg_one, Arith.convForce, Arith.convHeight, Arith.relLt, pabs]
    · simp [Arith.finish, stepStatus, hn, hcf]
    · simp [Arith.finish, hf]
  obtain ⟨w, hw, h1, h2, h3⟩ := hst
  refine ⟨(double 1).mkResult onePoint onePointOpt 1 true w, ?_, rfl, h2, rfl, ?_⟩
  · have hp : (double 1).pentolOf onePoint onePointOpt = .ok (1 / 1000) := rfl
    have hm : onePointOpt.maxiter = 19 + 1 := rfl
    simp only [Arith.solve, Arith.solveCb, hp, hm, Arith.loop, hw, h1, if_true, Except.map]
  · simp [Arith.mkResult, CCG.mkResult, onePoint, h3]

example : ∃ r, (double 1).solve onePoint onePointOpt = .ok r ∧ r.success = true ∧ r.status = .cg ∧
    onePointOpt.externalForce = some 1 ∧ (∀ i, 0 ≤ onePointOpt.hardness.at i) ∧
    (∀ i, onePoint.comp i = true → onePoint.slice i = true) ∧ (double 1).Sound ∧
    (double 1).Accurate ((1 / 2) ^ 52) 0 ((1 + (1 / 2) ^ 52) ^ 1 - 1) := by
  obtain ⟨r, h, hs, hc, _⟩ := onePoint_run
  exact ⟨r, h, hs, hc, rfl, fun _ => le_rfl, fun _ _ => rfl, double_sound 1, double_accurate 1⟩

end CM.CCG.Arith
