import Verif.Lemmas.Rounding
import Verif.Props.CCG2
/-!
Reachable states of the solver in rounded arithmetic (as `Lemmas/CCG` for exact arithmetic), and invariants.
-/
set_option linter.unusedSectionVars false

namespace CM.CCG.Arith
open Finset

variable {ι : Type} [Fintype ι]

/-- `Reach A P o pentol k s`: after `k` unconverged iterations the loop variables are `s`. -/
inductive Reach (A : Arith ι) (P : Problem ι ℝ) (o : Options ι ℝ) (pentol : ℝ) : ℕ → State ι ℝ → Prop
  | init : Reach A P o pentol 0 (A.initState P o)
  | step {k s w} : Reach A P o pentol k s → A.step P o pentol s = .ok w → w.converged = false →
      Reach A P o pentol (k + 1) w.next

theorem loop_spec (A : Arith ι) (P : Problem ι ℝ) (o : Options ι ℝ) (pentol : ℝ) :
    ∀ (fuel it : ℕ) (s : State ι ℝ) (cb : List (ℕ × (ι → ℝ))) (prev : Option (StepOut ι ℝ))
      (r : Result ι ℝ) (cb' : List (ℕ × (ι → ℝ))),
      Reach A P o pentol it s →
      (∀ w, prev = some w → ∃ k s', it = k + 1 ∧ Reach A P o pentol k s' ∧
        A.step P o pentol s' = .ok w ∧ w.converged = false) →
      (cb.map Prod.fst = (List.range it).map (· + 1)) →
      (∀ e ∈ cb, ∃ s', Reach A P o pentol e.1 s' ∧ s'.f = e.2) →
      A.loop P o pentol fuel it s cb prev = .ok (r, cb') →
      ∃ k s' w, Reach A P o pentol k s' ∧ A.step P o pentol s' = .ok w ∧
        r = A.mkResult P o (k + 1) w.converged w ∧ k + 1 ≤ it + fuel ∧
        (w.converged = false → k + 1 = it + fuel) ∧
        (cb'.map Prod.fst = (List.range (if w.converged then k else k + 1)).map (· + 1)) ∧
        (∀ e ∈ cb', ∃ s', Reach A P o pentol e.1 s' ∧ s'.f = e.2) := by
  intro fuel
  induction fuel with
  | zero =>
    intro it s cb prev r cb' hR hprev hcb hcb2 hl
    cases prev with
    | none => simp [Arith.loop] at hl
    | some w =>
      simp only [Arith.loop, Except.ok.injEq, Prod.mk.injEq] at hl
      obtain ⟨k, s', hk, hRk, hst, hconv⟩ := hprev w rfl
      refine ⟨k, s', w, hRk, hst, ?_, by omega, by intro _; omega, ?_, ?_⟩
      · rw [← hl.1, hk, hconv]
      · rw [← hl.2, hconv]; simpa [hk] using hcb
      · rw [← hl.2]; exact hcb2
  | succ fuel ih =>
    intro it s cb prev r cb' hR hprev hcb hcb2 hl
    rw [Arith.loop] at hl
    cases hst : A.step P o pentol s with
    | error e => rw [hst] at hl; simp at hl
    | ok w =>
      rw [hst] at hl
      by_cases hc : w.converged = true
      · simp only [hc, if_true, Except.ok.injEq, Prod.mk.injEq] at hl
        refine ⟨it, s, w, hR, hst, ?_, by omega, ?_, ?_, ?_⟩
        · rw [← hl.1, hc]
        · intro h; rw [hc] at h; simp at h
        · rw [← hl.2]; simpa [hc] using hcb
        · rw [← hl.2]; exact hcb2
      · have hc' : w.converged = false := by simpa using hc
        simp only [hc', Bool.false_eq_true, if_false] at hl
        have := ih (it + 1) w.next _ (some w) r cb' (Reach.step hR hst hc')
          (by intro w' hw'; cases hw'; exact ⟨it, s, rfl, hR, hst, hc'⟩)
          (by rw [List.map_append, hcb, List.range_succ, List.map_append]; simp)
          (by
            intro e he
            rcases List.mem_append.1 he with h | h
            · exact hcb2 e h
            · simp only [List.mem_singleton] at h; subst h
              exact ⟨w.next, Reach.step hR hst hc', rfl⟩) hl
        obtain ⟨k, s', w', h1, h2, h3, h4, h5, h6⟩ := this
        refine ⟨k, s', w', h1, h2, h3, by omega, ?_, h6⟩
        intro h; have := h5 h; omega

/-- Every result comes from an iteration started in a reachable state. -/
theorem solveCb_spec {A : Arith ι} {P : Problem ι ℝ} {o : Options ι ℝ} {r : Result ι ℝ}
    {cb : List (ℕ × (ι → ℝ))} (h : A.solveCb P o = .ok (r, cb)) :
    ∃ pentol k s w, A.pentolOf P o = .ok pentol ∧ Reach A P o pentol k s ∧
      A.step P o pentol s = .ok w ∧ r = A.mkResult P o (k + 1) w.converged w ∧
      k + 1 ≤ o.maxiter ∧ (w.converged = false → k + 1 = o.maxiter) ∧
      (cb.map Prod.fst = (List.range (if w.converged then k else k + 1)).map (· + 1)) ∧
      (∀ e ∈ cb, ∃ s', Reach A P o pentol e.1 s' ∧ s'.f = e.2) := by
  unfold Arith.solveCb at h
  cases hp : A.pentolOf P o with
  | error e => rw [hp] at h; simp at h
  | ok pentol =>
    rw [hp] at h
    obtain ⟨k, s, w, h1, h2, h3, h4, h5, h6, h7⟩ :=
      loop_spec A P o pentol o.maxiter 0 (A.initState P o) [] none r cb Reach.init
        (by simp) (by simp) (by simp) h
    exact ⟨pentol, k, s, w, rfl, h1, h2, h3, by omega, by intro h; have := h5 h; omega, h6, h7⟩

theorem solve_spec {A : Arith ι} {P : Problem ι ℝ} {o : Options ι ℝ} {r : Result ι ℝ}
    (h : A.solve P o = .ok r) :
    ∃ pentol k s w, A.pentolOf P o = .ok pentol ∧ Reach A P o pentol k s ∧
      A.step P o pentol s = .ok w ∧ r = A.mkResult P o (k + 1) w.converged w ∧
      k + 1 ≤ o.maxiter ∧ (w.converged = false → k + 1 = o.maxiter) := by
  unfold Arith.solve at h
  cases hs : A.solveCb P o with
  | error e => rw [hs] at h; simp [Except.map] at h
  | ok rc =>
    rw [hs] at h
    simp only [Except.map, Except.ok.injEq] at h
    obtain ⟨r', cb⟩ := rc
    obtain ⟨a, b, c, d, h1, h2, h3, h4, h5, h6, _⟩ := solveCb_spec hs
    simp only at h; subst h
    exact ⟨a, b, c, d, h1, h2, h3, h4, h5, h6⟩

/-- The intermediate quantities of a successful iteration. -/
theorem step_mid {A : Arith ι} {P : Problem ι ℝ} {o : Options ι ℝ} {pentol : ℝ} {s : State ι ℝ}
    {w : StepOut ι ℝ} (h : A.step P o pentol s = .ok w) :
    ∃ m : Mid ι ℝ, ∃ hard : Bool, A.branch P o s = .ok m ∧ o.hardness.truth = .ok hard ∧
      w = A.finish P o pentol s m hard := by
  unfold Arith.step at h
  cases hm : A.branch P o s with
  | error e => rw [hm] at h; simp at h
  | ok m =>
    rw [hm] at h
    simp only at h
    cases ht : o.hardness.truth with
    | error e => rw [ht] at h; simp at h
    | ok hard =>
      rw [ht] at h
      simp only [Except.ok.injEq] at h
      exact ⟨m, hard, rfl, rfl, h.symm⟩

theorem branch_cases {A : Arith ι} {P : Problem ι ℝ} {o : Options ι ℝ} {s : State ι ℝ} {m : Mid ι ℝ}
    (h : A.branch P o s = .ok m) :
    (A.doCG o s = true ∧ m = A.cgBranch P o s) ∨ (A.doCG o s = false ∧ A.mixBranch P o s = .ok m) := by
  unfold Arith.branch at h
  by_cases hd : A.doCG o s = true
  · rw [if_pos hd] at h
    simp only [Except.ok.injEq] at h
    exact Or.inl ⟨hd, h.symm⟩
  · rw [if_neg hd] at h
    exact Or.inr ⟨by simpa using hd, h⟩


/-- What the convergence flag means (lines 415-434). -/
theorem finish_conv {A : Arith ι} {P : Problem ι ℝ} {o : Options ι ℝ} {pentol : ℝ} {s : State ι ℝ}
    {m : Mid ι ℝ} {hard : Bool} {w : StepOut ι ℝ} (hw : w = A.finish P o pentol s m hard)
    (hc : w.converged = true) :
    A.convForce o s w.totalForce = true ∧
    w.maxdu < pentol ∧ w.maxPres < o.forcetol ∧ w.padPres < o.forcetol ∧
    (w.next.status ≠ .mix → w.maxPen < pentol) := by
  subst hw
  simp only [Arith.finish, Bool.and_eq_true] at hc ⊢
  obtain ⟨⟨h1, _⟩, h3⟩ := hc
  refine ⟨h1, ?_⟩
  by_cases hs : stepStatus P o m = .mix
  · simp only [hs, if_true, Bool.and_eq_true, decide_eq_true_eq] at h3
    exact ⟨h3.1.1, h3.1.2, h3.2, by intro h; exact absurd hs h⟩
  · simp only [hs, if_false, Bool.and_eq_true, decide_eq_true_eq] at h3
    obtain ⟨⟨⟨⟨a, b⟩, c⟩, d⟩, e⟩ := h3
    exact ⟨c, d, e, fun _ => b⟩

theorem mid_offZero {A : Arith ι} (h0 : A.rnd 0 = 0) {P : Problem ι ℝ} {o : Options ι ℝ} {s : State ι ℝ} {m : Mid ι ℝ}
    (hs : OffZero P s) (hm : A.branch P o s = .ok m) :
    ∀ i, P.comp i = false → m.f i = 0 ∧ m.t i = 0 := by
  intro i hi
  obtain ⟨hf, ht⟩ := hs i hi
  have hc : cgSet o s i = false := by simp [cgSet, hf]
  rcases branch_cases hm with ⟨_, rfl⟩ | ⟨_, hm⟩
  · constructor
    · simp [Arith.cgBranch, hc, hf]
    · simp [Arith.cgBranch, Arith.cgDir, hi, ht]
  · unfold Arith.mixBranch at hm
    simp only at hm
    split at hm
    · simp at hm
    · simp only [Except.ok.injEq] at hm
      subst hm
      simp [hi, hc, hf, ht, h0]

theorem stepForce_offZero {A : Arith ι} (h0 : A.rnd 0 = 0) {P : Problem ι ℝ} {o : Options ι ℝ} {m : Mid ι ℝ}
    (hH : HardNonneg o) {i : ι} (hi : P.comp i = false) (hf : m.f i = 0) :
    A.stepForce P o m i = 0 := by
  have h1 : newContact P o m i = false := by simp [newContact, hi]
  have h2 : clip m i = 0 := by unfold clip; split_ifs <;> simp [hf]
  have h3 : A.rescale P o (clip m) i = 0 := by
    unfold Arith.rescale
    cases o.externalForce with
    | none => exact h2
    | some F => simp only; split_ifs <;> simp [h2, hi, h0]
  unfold Arith.stepForce Arith.addContact
  rw [h1]
  simp only [Bool.false_eq_true, and_false, if_false]
  unfold truncate
  split_ifs with h
  · unfold flowing at h
    simp only [Bool.and_eq_true, decide_eq_true_eq, hf] at h
    have := hH i
    linarith [h.2]
  · exact h3

theorem offZero_step {A : Arith ι} (h0 : A.rnd 0 = 0) {P : Problem ι ℝ} {o : Options ι ℝ} {pentol : ℝ} {s : State ι ℝ}
    {w : StepOut ι ℝ} (hH : HardNonneg o) (hs : OffZero P s)
    (h : A.step P o pentol s = .ok w) : OffZero P w.next := by
  obtain ⟨m, hard, hm, _, rfl⟩ := step_mid h
  intro i hi
  have := mid_offZero h0 hs hm i hi
  exact ⟨stepForce_offZero h0 hH hi this.1, this.2⟩

theorem offZero_reach {A : Arith ι} (h0 : A.rnd 0 = 0) {P : Problem ι ℝ} {o : Options ι ℝ} {pentol : ℝ} (hH : HardNonneg o)
    {k : ℕ} {s : State ι ℝ} (h : Reach A P o pentol k s) : OffZero P s := by
  induction h with
  | init => intro i hi; simp [Arith.initState, hi]
  | step _ hst _ ih => exact offZero_step h0 hH ih hst

theorem status_ne_mix {A : Arith ι} {P : Problem ι ℝ} {o : Options ι ℝ} {s : State ι ℝ} {m : Mid ι ℝ} (hm : A.branch P o s = .ok m)
    (h : stepStatus P o m ≠ .mix) : A.doCG o s = true ∧ m = A.cgBranch P o s := by
  rcases branch_cases hm with h1 | ⟨_, hm⟩
  · exact h1
  · exfalso
    apply h
    unfold Arith.mixBranch at hm
    simp only at hm
    split at hm
    · simp at hm
    · simp only [Except.ok.injEq] at hm
      subst hm
      simp [stepStatus]

end CM.CCG.Arith
