import Verif.Props.CCG
import Mathlib.Tactic.FinCases
import Mathlib.Tactic.NormNum
/-!
# Properties C35 - C38, C42, C44 - C47 of the constrained conjugate gradient solver
-/
set_option linter.unusedSectionVars false

namespace CM.CCG
open Finset CM.Spec

section general
variable {ι K : Type} [Fintype ι] [Field K] [LinearOrder K] [IsStrictOrderedRing K]
variable {P : Problem ι K} {o : Options ι K} {r : Result ι K}

theorem status_ne_mix {s : State ι K} {m : Mid ι K} (hm : branch P o s = .ok m)
    (h : stepStatus P o m ≠ .mix) : doCG o s = true ∧ m = cgBranch P o s := by
  rcases branch_cases hm with h1 | ⟨_, hm⟩
  · exact h1
  · exfalso
    apply h
    unfold mixBranch at hm
    simp only at hm
    split at hm
    · simp at hm
    · simp only [Except.ok.injEq] at hm
      subst hm
      simp [stepStatus]

theorem abs_du_lt {pentol : K} {s : State ι K} {m : Mid ι K} {hard : Bool}
    (h : (finish P o pentol s m hard).maxdu < pentol) (i : ι) :
    |(finish P o pentol s m hard).next.u i - s.u i| < pentol := by
  have : pabs ((finish P o pentol s m hard).next.u i - s.u i) ≤ (finish P o pentol s m hard).maxdu :=
    le_maxOver (p := fun _ => true)
      (a := fun i => pabs ((finish P o pentol s m hard).next.u i - s.u i)) rfl
  rw [pabs_eq] at this
  exact lt_of_le_of_lt this h

/-! ## C35 -/

/-- **C35 (partial).** If the run succeeds and the final iteration added no contact points (its log
status is `cg`), then at every topography point the substrate penetrates the rigid surface by less
than `pentol`, or the point carries exactly the hardness.  Missing with respect to the full
property: the case where points were added in the converging iteration, see
`C35_fails_zero_initial_forces`. -/
theorem C35_no_penetration_partial
    (hsl : ∀ i, P.comp i = true → P.slice i = true) (h : solve P o = .ok r)
    (hs : r.success = true) (hcg : r.status = .cg) {pentol : K}
    (hp : pentolOf P o = .ok pentol) :
    ∀ i, P.comp i = true → P.h i + r.offset - r.x i < pentol ∨
      (o.hardness.isSome = true ∧ r.jac i = o.hardness.at i) := by
  intro i hi
  obtain ⟨pentol', k, s, w, hp', hR, hst, rfl, _, _⟩ := solve_spec h
  rw [hp] at hp'; cases hp'
  obtain ⟨m, hard, hm, _, hw⟩ := step_mid hst
  have hc : w.converged = true := hs
  obtain ⟨_, hdu, _, _, hpen⟩ := finish_conv hw hc
  subst hw
  have hcg' : stepStatus P o m = .cg := hcg
  have hnm : stepStatus P o m ≠ .mix := by rw [hcg']; simp
  have hnc := status_cg_nc hcg' i
  obtain ⟨_, hmm⟩ := status_ne_mix hm hnm
  have hpen' := (hpen hnm).1
  by_cases hci : cgSet o s i = true
  · left
    have h1 : (if m.c i then P.h i + m.offset - (finish P o pentol s m hard).next.u i else 0) ≤
        maxOver P.comp (fun i => if m.c i then P.h i + m.offset -
          (finish P o pentol s m hard).next.u i else 0) :=
      le_maxOver (a := fun i => if m.c i then P.h i + m.offset -
          (finish P o pentol s m hard).next.u i else 0) hi
    have h2 : m.c i = true := by rw [hmm]; exact hci
    rw [h2, if_pos rfl] at h1
    exact lt_of_le_of_lt (le_trans h1 (le_max_right _ _)) hpen'
  · have hci' : cgSet o s i = false := by simpa using hci
    have hmf : m.f i = s.f i := by rw [hmm]; simp [cgBranch, hci']
    by_cases hneg : s.f i < 0
    · right
      simp only [cgSet, hneg, decide_true, Bool.true_and, Bool.or_eq_false_iff,
        Bool.not_eq_false', decide_eq_false_iff_not, not_lt] at hci'
      obtain ⟨hsome, hle⟩ := hci'
      refine ⟨hsome, ?_⟩
      have hfl : flowing o m i = true := by simp [flowing, hsome, hmf, hle]
      change (if P.slice i then -(stepForce P o m i) else 0) = _
      rw [if_pos (hsl i hi)]
      unfold stepForce addContact
      simp [hnc, truncate, hfl]
    · left
      have hten : tensile m i = true := by simp [tensile, hmf, not_lt.1 hneg]
      have hg : 0 ≤ m.g i := by
        by_contra hg
        have : newContact P o m i = true := by simp [newContact, hi, hten, lt_of_not_ge hg]
        rw [hnc] at this; simp at this
      have hdui := abs_du_lt hdu i
      have hge : m.g i = s.u i - P.h i - m.offset := by rw [hmm]; rfl
      have h3 := (abs_lt.1 hdui).1
      change P.h i + m.offset - (finish P o pentol s m hard).next.u i < pentol
      linarith

example : ∃ r, solve (demo ![5, 8, 0]) demoOpt = .ok r ∧ r.success = true ∧ r.status = .cg ∧
    (∀ i, (demo ![5, 8, 0]).comp i = true → (demo ![5, 8, 0]).slice i = true) := by
  obtain ⟨r, cb, h, hs, _, _, _, _, h1, _⟩ := demo_run
  exact ⟨r, by simp [solve, h, Except.map], hs, h1, fun i h => h⟩

/-- An iteration of the elastic solver that starts from zero force and zero displacement. -/
theorem zero_step {pentol : K} {s : State ι K} (hdisp : P.disp (fun _ => 0) = fun _ => 0)
    (hF : o.externalForce = none) (hp : 0 < pentol) (hft : 0 < o.forcetol)
    (hf : ∀ i, s.f i = 0) (hu : ∀ i, s.u i = 0) (hlast : s.lastTotalForce = none)
    (hH : o.hardness = .none ∨
      (∃ H, 0 < H ∧ o.hardness = .scalar H) ∧ ∀ i, P.comp i = true → P.h i + s.offset ≤ 0) :
    ∃ w, CCG.step P o pentol s = .ok w ∧ w.converged = true ∧ w.next.f = (fun _ => 0) ∧
      w.next.u = fun _ => 0 := by
  have hc : ∀ i, cgSet o s i = false := fun i => by simp [cgSet, hf i]
  have hcount : ¬ 0 < count (cgSet o s) := count_eq_zero.2 hc
  -- the intermediate state has zero force, zero step, zero `G`
  have key : ∀ m : Mid ι K, ∀ hard, branch P o s = .ok m → o.hardness.truth = .ok hard →
      (∀ i, m.f i = 0) → m.tau = 0 → m.G = 0 → (∀ i, m.c i = false) →
      (∀ i, flowing o m i = false) →
      ∃ w, CCG.step P o pentol s = .ok w ∧ w.converged = true ∧ w.next.f = (fun _ => 0) ∧
      w.next.u = fun _ => 0 := by
    intro m hard hm ht hmf htau hG hmc hfl
    have hsf : stepForce P o m = fun _ => 0 := by
      funext i
      unfold stepForce addContact
      have h1 : clip m i = 0 := by unfold clip; split_ifs <;> simp [hmf]
      have h2 : truncate o m (rescale P o (clip m)) i = 0 := by
        unfold truncate; simp [hfl i, rescale, hF, h1]
      rw [h2, htau]; simp
    refine ⟨finish P o pentol s m hard, by simp [CCG.step, hm, ht], ?_, hsf, by
      change P.disp (stepForce P o m) = _; rw [hsf, hdisp]⟩
    have hpad : (if 0 < count (fun i => !P.comp i) then
        maxOver (fun i => !P.comp i) (fun i => pabs (m.f i)) else 0) = 0 := by
      split_ifs
      · apply maxOver_eq_zero; intro i _; rw [hmf]; simp [pabs]
      · rfl
    have hmp : maxPres o m hard = 0 := by
      unfold maxPres
      have h0 : ¬ 0 < count (flowing o m) := count_eq_zero.2 hfl
      simp only [h0, and_false, if_false]
      split_ifs
      · apply maxOver_eq_zero; intro i _; exact hmf i
      · rfl
    have hpen : ∀ u, maxPen P m u = 0 := by
      intro u
      unfold maxPen
      rw [maxOver_eq_zero]
      · simp
      · intro i _; simp [hmc i]
    have hdu : maxOver (fun _ => true) (fun i => pabs (P.disp (stepForce P o m) i - s.u i)) = 0 := by
      apply maxOver_eq_zero; intro i _; rw [hsf, hdisp, hu]; simp [pabs]
    simp only [finish, convForce, convHeight, hF, hlast, hpad, hmp, hpen, hdu, hG]
    have : sqrtLt (if 0 < count (cgSet o s) then (0 : K) / (count (cgSet o s) : K) else 0) pentol
        = true := by
      rw [if_neg hcount]; simp [sqrtLt, hp]
    rw [this]
    split_ifs <;> simp [hp, hft]
  rcases hH with hH | ⟨⟨H, hHp, hH⟩, hpen⟩
  · have hd : doCG o s = true := by simp [doCG, hH, Hardness.isSome]
    refine key (cgBranch P o s) false (by simp [branch, hd]) (by simp [hH, Hardness.truth])
      ?_ ?_ ?_ hc ?_
    · intro i; simp [cgBranch, hc i, hf i]
    · simp [cgBranch, hcount]
    · simp only [cgBranch]
      rw [if_neg (by simp [hcount])]
      unfold sumOver; apply Finset.sum_eq_zero; intro i _; simp [hc i]
    · intro i; simp [flowing, hH, Hardness.isSome]
  · have hco : ¬ 0 < count (contact s) := count_eq_zero.2 fun i => by simp [contact, hf i]
    have hd : doCG o s = false := by
      have : count (contact s) = 0 := by omega
      simp [doCG, hH, Hardness.isSome, this]
    have hmix : ∃ m, mixBranch P o s = .ok m ∧ (∀ i, m.f i = 0) ∧ m.tau = 0 ∧ m.G = 0 ∧
        (∀ i, m.c i = false) := by
      simp only [mixBranch, hF]
      have hc2 : ∀ i, (if P.comp i = true then decide (s.u i - P.h i - s.offset < 0)
          else cgSet o s i) = false := by
        intro i
        split_ifs with hi
        · have := hpen i hi
          rw [hu i]; simp only [decide_eq_false_iff_not, not_lt]; linarith
        · exact hc i
      refine ⟨_, rfl, ?_, rfl, rfl, hc2⟩
      intro i
      simp only [hc2 i, hf i]; simp
    obtain ⟨m, hm, h1, h2, h3, h4⟩ := hmix
    refine key m true (by simp [branch, hd, hm]) (by simp [hH, Hardness.truth, hHp.ne']) h1 h2 h3 h4 ?_
    intro i
    simp [flowing, hH, Hardness.isSome, Hardness.at, h1 i, hHp]

theorem solve_first_step {pentol : K} {w : StepOut ι K} (hp : pentolOf P o = .ok pentol)
    (hmax : 1 ≤ o.maxiter) (hst : CCG.step P o pentol (initState P o) = .ok w)
    (hc : w.converged = true) : solve P o = .ok (mkResult P o 1 true w) := by
  obtain ⟨n, hn⟩ : ∃ n, o.maxiter = n + 1 := ⟨o.maxiter - 1, by omega⟩
  simp [solve, solveCb, hp, hn, loop, hst, hc, Except.map]

/-- **C35 is false of the code.** For *every* elastic problem at fixed offset, starting from zero
initial forces makes the solver report success in the first iteration with zero forces and zero
displacements, no matter how deep the rigid surface penetrates the substrate. -/
theorem C35_fails_zero_initial_forces {pentol : K} (hdisp : P.disp (fun _ => 0) = fun _ => 0)
    (hF : o.externalForce = none) (hH : o.hardness = .none)
    (hi : o.initialForces = some fun _ => 0) (hp : o.pentol = some pentol) (hp0 : 0 < pentol)
    (hft : 0 < o.forcetol) (hmax : 1 ≤ o.maxiter) :
    ∃ r, solve P o = .ok r ∧ r.success = true ∧ r.x = fun _ => 0 := by
  obtain ⟨w, hw, hc, _, hu⟩ := zero_step (P := P) (o := o) (s := initState P o) hdisp hF hp0 hft
    (by intro i; simp [initState, hi]) (by intro i; simp [initState, hi, hdisp])
    (by simp [initState]) (Or.inl hH)
  exact ⟨_, solve_first_step (by simp [pentolOf, hp]) hmax hw hc, rfl, hu⟩

/-- Concrete instance of `C35_fails_zero_initial_forces`: penetration by 100 with tolerance
1/1000. -/
example : ∃ r, solve (demo ![99, 0, 0]) { demoOpt with initialForces := some fun _ => 0 } = .ok r ∧
    r.success = true ∧ ∃ i, (demo ![99, 0, 0]).comp i = true ∧
      (demo ![99, 0, 0]).h i + r.offset - r.x i = 100 := by
  obtain ⟨r, h, hs, hx⟩ := C35_fails_zero_initial_forces (P := demo ![99, 0, 0])
    (o := { demoOpt with initialForces := some fun _ => 0 }) (pentol := 1 / 1000)
    (by funext i; simp [demo, matDisp]) rfl rfl rfl rfl (by norm_num)
    (by norm_num [demoOpt]) (by decide)
  have ho := C41_offset_kept (P := demo ![99, 0, 0])
    (o := { demoOpt with initialForces := some fun _ => 0 }) rfl h
  refine ⟨r, h, hs, 0, by decide, ?_⟩
  rw [ho, hx]
  norm_num [demo, demoOpt]

/-! ## C42 -/

/-- **C42.** If the rigid surface nowhere reaches the undeformed substrate, the cold-started solver
(elastic, or with a positive hardness) succeeds in one iteration with zero force and displacement. -/
theorem C42_separated_surfaces {pentol : K} (hdisp : P.disp (fun _ => 0) = fun _ => 0)
    (hforce : P.force (fun _ => 0) = fun _ => 0)
    (hF : o.externalForce = none)
    (hH : o.hardness = .none ∨ ∃ H, 0 < H ∧ o.hardness = .scalar H)
    (hi : o.initialForces = none) (hd : o.initialDisplacements = none)
    (hp : pentolOf P o = .ok pentol) (hp0 : 0 < pentol)
    (hft : 0 < o.forcetol) (hmax : 1 ≤ o.maxiter)
    (hsep : ∀ i, P.comp i = true → P.h i + o.offset.getD 0 ≤ 0) :
    ∃ r, solve P o = .ok r ∧ r.success = true ∧ r.nit = 1 ∧ r.x = (fun _ => 0) ∧
      r.jac = fun _ => 0 := by
  have hU : initU P o = fun _ => 0 := by
    funext i
    simp only [initU, hd, Option.getD_none]
    split_ifs with h1 h2
    · exact absurd h2 (not_lt.2 (hsep i h1))
    · rfl
    · rfl
  obtain ⟨w, hw, hc, hf, hu⟩ := zero_step (P := P) (o := o) (s := initState P o) hdisp hF hp0 hft
    (by intro i; simp [initState, hi, hU, hforce]) (by intro i; simp [initState, hi, hU])
    (by simp [initState])
    (hH.imp id fun h => ⟨h, by simpa [initState] using hsep⟩)
  refine ⟨_, solve_first_step hp hmax hw hc, rfl, rfl, hu, ?_⟩
  funext i
  simp [mkResult, hf]

example : ∃ r, solve (demo ![-5, -1, 0]) { demoOpt with initialForces := none } = .ok r ∧
    r.success = true ∧ r.jac = fun _ => 0 := by
  obtain ⟨r, h, hs, _, _, hj⟩ := C42_separated_surfaces (P := demo ![-5, -1, 0])
    (o := { demoOpt with initialForces := none }) (pentol := 1 / 1000)
    (by funext i; simp [demo, matDisp]) (by funext i; simp [demo, matDisp]) rfl (Or.inl rfl) rfl rfl
    rfl (by norm_num) (by norm_num [demoOpt]) (by decide)
    (by intro i _; fin_cases i <;> simp [demo, demoOpt] at *)
  exact ⟨r, h, hs, hj⟩

/-! ## C37, C38 -/

theorem clip_nonpos (m : Mid ι K) (i : ι) : clip m i ≤ 0 := by
  unfold clip tensile
  split_ifs with h
  · exact le_rfl
  · simp only [decide_eq_true_eq, not_le] at h; exact h.le

theorem rescale_nonpos (hF : ∀ F, o.externalForce = some F → 0 ≤ F) (hn : 0 ≤ P.nSurf)
    (m : Mid ι K) (i : ι) : rescale P o (clip m) i ≤ 0 := by
  unfold rescale
  cases hE : o.externalForce with
  | none => exact clip_nonpos m i
  | some F =>
    have h0 := hF F hE
    simp only
    split_ifs with h1
    · have : 0 ≤ -sumOver P.comp (clip m) := by
        have : sumOver P.comp (clip m) ≤ 0 := by
          unfold sumOver
          apply Finset.sum_nonpos
          intro j _
          split_ifs
          · exact clip_nonpos m j
          · exact le_rfl
        linarith
      exact mul_nonpos_of_nonpos_of_nonneg (clip_nonpos m i) (div_nonneg h0 this)
    · have h3 : -F / P.nSurf = -(F / P.nSurf) := by ring
      have h4 := div_nonneg h0 hn
      change (if P.comp i then -F / P.nSurf else 0) ≤ 0
      split_ifs
      · rw [h3]; linarith
      · exact le_rfl

theorem truncate_nonpos (hF : ∀ F, o.externalForce = some F → 0 ≤ F) (hn : 0 ≤ P.nSurf)
    (hH : ∀ i, 0 ≤ o.hardness.at i) (m : Mid ι K) (i : ι) :
    truncate o m (rescale P o (clip m)) i ≤ 0 := by
  unfold truncate
  split_ifs
  · linarith [hH i]
  · exact rescale_nonpos hF hn m i

/-- **C37 (partial).** Returned forces are compressive (`jac ≥ 0`) if the final iteration added no
contact points (log status `cg` or `mix`), or if the problem is elastic and the final step length
is non-negative.  Missing: a negative step length (possible after a tensile point was clipped
without a reset) makes points added in that iteration tensile, see `C37_fails_tensile`. -/
theorem C37_never_tensile_partial (hF : ∀ F, o.externalForce = some F → 0 ≤ F)
    (hn : 0 ≤ P.nSurf) (hH : ∀ i, 0 ≤ o.hardness.at i) (h : solve P o = .ok r)
    (hs : r.status ≠ .sd ∨ (o.hardness = .none ∧ 0 ≤ r.tau)) : ∀ i, 0 ≤ r.jac i := by
  intro i
  obtain ⟨pentol, k, s, w, _, hR, hst, rfl, _, _⟩ := solve_spec h
  obtain ⟨m, hard, hm, _, rfl⟩ := step_mid hst
  change 0 ≤ if P.slice i then -(stepForce P o m i) else 0
  split_ifs
  · rw [neg_nonneg]
    have h1 := truncate_nonpos hF hn hH m i (P := P)
    unfold stepForce addContact
    split_ifs with h2
    · rcases hs with hs | ⟨hH', hs⟩
      · exfalso
        apply hs
        change stepStatus P o m = .sd
        unfold stepStatus
        rw [if_neg h2.1, if_pos (count_pos.2 ⟨i, h2.2⟩)]
      · have hg : m.g i < 0 := by
          have := h2.2
          simp only [newContact, flowing, hH', Hardness.isSome, Bool.and_eq_true, Bool.or_eq_true,
            decide_eq_true_eq, Bool.false_and, Bool.false_eq_true, or_false] at this
          exact this.2.2
        have ht : 0 ≤ m.tau := hs
        have := mul_nonneg_of_nonpos_of_nonpos (a := -m.tau) (b := m.g i) (by linarith) hg.le
        nlinarith
    · exact h1
  · exact le_rfl

/-- The step length of an iteration that starts in steepest-descent mode is non-negative; in
particular the first iteration never produces tensile forces. -/
theorem C37_first_iteration_partial (hF : ∀ F, o.externalForce = some F → 0 ≤ F)
    (hn : 0 ≤ P.nSurf) (hH : o.hardness = .none) (h : solve P o = .ok r) (hnit : r.nit = 1) :
    ∀ i, 0 ≤ r.jac i := by
  apply C37_never_tensile_partial hF hn (by intro i; rw [hH]; exact le_rfl) h
  right
  refine ⟨hH, ?_⟩
  obtain ⟨pentol, k, s, w, _, hR, hst, rfl, _, _⟩ := solve_spec h
  have hk : k = 0 := by simpa [mkResult] using hnit
  subst hk
  cases hR
  obtain ⟨m, hard, hm, _, rfl⟩ := step_mid hst
  rcases branch_cases hm with ⟨_, rfl⟩ | ⟨hd, _⟩
  · change 0 ≤ (cgBranch P o (initState P o)).tau
    simp only [cgBranch]
    split_ifs with hx
    · apply div_nonneg _ hx.2.le
      apply sumOver_nonneg
      intro i hi
      simp only [Bool.and_eq_true] at hi
      have : cgDir P (initState P o) (cgSet o (initState P o))
          (fun i => (initState P o).u i - P.h i - cgOffset P o (initState P o))
          (sumOver (fun i => cgSet o (initState P o) i && P.comp i) fun i =>
            ((initState P o).u i - P.h i - cgOffset P o (initState P o)) *
            ((initState P o).u i - P.h i - cgOffset P o (initState P o))) i =
          (initState P o).u i - P.h i - cgOffset P o (initState P o) := by
        have hd : (initState P o).delta = false := rfl
        simp [cgDir, hi.1, hi.2, hd]
      rw [this]
      exact mul_self_nonneg _
    · exact le_rfl
  · simp [doCG, hH, Hardness.isSome] at hd

/-- **C38 (partial).** At fixed offset, every returned force is at most the hardness if the final
iteration added no contact points (log status `cg` or `mix`).  Missing: points added in the last
iteration and load control, see `C38_fails_load_control` and `C38_fails_added_points`. -/
theorem C38_bounded_by_hardness_partial {H : K} (hF : o.externalForce = none)
    (hH : o.hardness = .scalar H) (hH0 : 0 ≤ H) (h : solve P o = .ok r)
    (hs : r.status ≠ .sd) : ∀ i, r.jac i ≤ H := by
  intro i
  obtain ⟨pentol, k, s, w, _, hR, hst, rfl, _, _⟩ := solve_spec h
  obtain ⟨m, hard, hm, _, rfl⟩ := step_mid hst
  change (if P.slice i then -(stepForce P o m i) else 0) ≤ H
  split_ifs
  · unfold stepForce addContact
    split_ifs with h2
    · exfalso
      apply hs
      change stepStatus P o m = .sd
      unfold stepStatus
      rw [if_neg h2.1, if_pos (count_pos.2 ⟨i, h2.2⟩)]
    · unfold truncate
      split_ifs with h3
      · simp [hH, Hardness.at]
      · simp only [flowing, hH, Hardness.isSome, Hardness.at, Bool.true_and, decide_eq_true_eq,
          not_le] at h3
        simp only [rescale, hF, clip]
        split_ifs <;> linarith
  · exact hH0

end general

end CM.CCG
