import Verif.Model.CCG
import Mathlib.Tactic.Linarith
import Mathlib.Tactic.Ring
import Mathlib.Tactic.FieldSimp
import Mathlib.Tactic.Positivity
/-!
Auxiliary facts about the solver model: reachable states, the shape of a result, invariants.
-/
set_option linter.unusedSectionVars false

namespace CM.CCG
open Finset

section
variable {ι K : Type} [Fintype ι] [Field K] [LinearOrder K]

/-- `Reach P o pentol k s`: after `k` unconverged iterations the loop variables are `s`. -/
inductive Reach (P : Problem ι K) (o : Options ι K) (pentol : K) : ℕ → State ι K → Prop
  | init : Reach P o pentol 0 (initState P o)
  | step {k s w} : Reach P o pentol k s → step P o pentol s = .ok w → w.converged = false →
      Reach P o pentol (k + 1) w.next

theorem loop_spec (P : Problem ι K) (o : Options ι K) (pentol : K) :
    ∀ (fuel it : ℕ) (s : State ι K) (cb : List (ℕ × (ι → K))) (prev : Option (StepOut ι K))
      (r : Result ι K) (cb' : List (ℕ × (ι → K))),
      Reach P o pentol it s →
      (∀ w, prev = some w → ∃ k s', it = k + 1 ∧ Reach P o pentol k s' ∧
        CCG.step P o pentol s' = .ok w ∧ w.converged = false) →
      (cb.map Prod.fst = (List.range it).map (· + 1)) →
      (∀ e ∈ cb, ∃ s', Reach P o pentol e.1 s' ∧ s'.f = e.2) →
      loop P o pentol fuel it s cb prev = .ok (r, cb') →
      ∃ k s' w, Reach P o pentol k s' ∧ CCG.step P o pentol s' = .ok w ∧
        r = mkResult P o (k + 1) w.converged w ∧ k + 1 ≤ it + fuel ∧
        (w.converged = false → k + 1 = it + fuel) ∧
        (cb'.map Prod.fst = (List.range (if w.converged then k else k + 1)).map (· + 1)) ∧
        (∀ e ∈ cb', ∃ s', Reach P o pentol e.1 s' ∧ s'.f = e.2) := by
  intro fuel
  induction fuel with
  | zero =>
    intro it s cb prev r cb' hR hprev hcb hcb2 hl
    cases prev with
    | none => simp [loop] at hl
    | some w =>
      simp only [loop, Except.ok.injEq, Prod.mk.injEq] at hl
      obtain ⟨k, s', hk, hRk, hst, hconv⟩ := hprev w rfl
      refine ⟨k, s', w, hRk, hst, ?_, by omega, by intro _; omega, ?_, ?_⟩
      · rw [← hl.1, hk, hconv]
      · rw [← hl.2, hconv]; simpa [hk] using hcb
      · rw [← hl.2]; exact hcb2
  | succ fuel ih =>
    intro it s cb prev r cb' hR hprev hcb hcb2 hl
    rw [loop] at hl
    cases hst : CCG.step P o pentol s with
    | error e => rw [hst] at hl; simp at hl
    | ok w =>
      rw [hst] at hl
      by_cases hc : w.converged = true
      · simp only [hc, if_true, Except.ok.injEq, Prod.mk.injEq] at hl
        refine ⟨it, s, w, hR, hst, ?_, by omega, ?_, ?_, ?_⟩
        · rw [← hl.1, hc]
        · intro h; rw [hc] at h; simp at h
        · rw [← hl.2]; simpa [hc] using hcb
        · rw [← hl.2]; exact hcb2
      · have hc' : w.converged = false := by simpa using hc
        simp only [hc', Bool.false_eq_true, if_false] at hl
        have := ih (it + 1) w.next _ (some w) r cb' (Reach.step hR hst hc')
          (by intro w' hw'; cases hw'; exact ⟨it, s, rfl, hR, hst, hc'⟩)
          (by rw [List.map_append, hcb, List.range_succ, List.map_append]; simp)
          (by
            intro e he
            rcases List.mem_append.1 he with h | h
            · exact hcb2 e h
            · simp only [List.mem_singleton] at h; subst h
              exact ⟨w.next, Reach.step hR hst hc', rfl⟩) hl
        obtain ⟨k, s', w', h1, h2, h3, h4, h5, h6⟩ := this
        refine ⟨k, s', w', h1, h2, h3, by omega, ?_, h6⟩
        intro h; have := h5 h; omega

/-- Every result comes from an iteration started in a reachable state. -/
theorem solveCb_spec {P : Problem ι K} {o : Options ι K} {r : Result ι K}
    {cb : List (ℕ × (ι → K))} (h : solveCb P o = .ok (r, cb)) :
    ∃ pentol k s w, pentolOf P o = .ok pentol ∧ Reach P o pentol k s ∧
      CCG.step P o pentol s = .ok w ∧ r = mkResult P o (k + 1) w.converged w ∧
      k + 1 ≤ o.maxiter ∧ (w.converged = false → k + 1 = o.maxiter) ∧
      (cb.map Prod.fst = (List.range (if w.converged then k else k + 1)).map (· + 1)) ∧
      (∀ e ∈ cb, ∃ s', Reach P o pentol e.1 s' ∧ s'.f = e.2) := by
  unfold solveCb at h
  cases hp : pentolOf P o with
  | error e => rw [hp] at h; simp at h
  | ok pentol =>
    rw [hp] at h
    obtain ⟨k, s, w, h1, h2, h3, h4, h5, h6, h7⟩ :=
      loop_spec P o pentol o.maxiter 0 (initState P o) [] none r cb Reach.init
        (by simp) (by simp) (by simp) h
    exact ⟨pentol, k, s, w, rfl, h1, h2, h3, by omega, by intro h; have := h5 h; omega, h6, h7⟩

theorem solve_spec {P : Problem ι K} {o : Options ι K} {r : Result ι K}
    (h : solve P o = .ok r) :
    ∃ pentol k s w, pentolOf P o = .ok pentol ∧ Reach P o pentol k s ∧
      CCG.step P o pentol s = .ok w ∧ r = mkResult P o (k + 1) w.converged w ∧
      k + 1 ≤ o.maxiter ∧ (w.converged = false → k + 1 = o.maxiter) := by
  unfold solve at h
  cases hs : solveCb P o with
  | error e => rw [hs] at h; simp [Except.map] at h
  | ok rc =>
    rw [hs] at h
    simp only [Except.map, Except.ok.injEq] at h
    obtain ⟨r', cb⟩ := rc
    obtain ⟨a, b, c, d, h1, h2, h3, h4, h5, h6, _⟩ := solveCb_spec hs
    simp only at h; subst h
    exact ⟨a, b, c, d, h1, h2, h3, h4, h5, h6⟩

/-- The intermediate quantities of a successful iteration. -/
theorem step_mid {P : Problem ι K} {o : Options ι K} {pentol : K} {s : State ι K}
    {w : StepOut ι K} (h : CCG.step P o pentol s = .ok w) :
    ∃ m : Mid ι K, ∃ hard : Bool, branch P o s = .ok m ∧ o.hardness.truth = .ok hard ∧
      w = finish P o pentol s m hard := by
  unfold CCG.step at h
  cases hm : branch P o s with
  | error e => rw [hm] at h; simp at h
  | ok m =>
    rw [hm] at h
    simp only at h
    cases ht : o.hardness.truth with
    | error e => rw [ht] at h; simp at h
    | ok hard =>
      rw [ht] at h
      simp only [Except.ok.injEq] at h
      exact ⟨m, hard, rfl, rfl, h.symm⟩

theorem branch_cases {P : Problem ι K} {o : Options ι K} {s : State ι K} {m : Mid ι K}
    (h : branch P o s = .ok m) :
    (doCG o s = true ∧ m = cgBranch P o s) ∨ (doCG o s = false ∧ mixBranch P o s = .ok m) := by
  unfold branch at h
  by_cases hd : doCG o s = true
  · rw [if_pos hd] at h
    simp only [Except.ok.injEq] at h
    exact Or.inl ⟨hd, h.symm⟩
  · rw [if_neg hd] at h
    exact Or.inr ⟨by simpa using hd, h⟩

/-- What the convergence flag means (lines 415-434). -/
theorem finish_conv {P : Problem ι K} {o : Options ι K} {pentol : K} {s : State ι K}
    {m : Mid ι K} {hard : Bool} {w : StepOut ι K} (hw : w = finish P o pentol s m hard)
    (hc : w.converged = true) :
    convForce o s w.totalForce = true ∧
    w.maxdu < pentol ∧ w.maxPres < o.forcetol ∧ w.padPres < o.forcetol ∧
    (w.next.status ≠ .mix → w.maxPen < pentol ∧
      sqrtLt (if 0 < w.Acg then w.G / (w.Acg : K) else w.G) pentol = true) := by
  subst hw
  simp only [finish, Bool.and_eq_true] at hc ⊢
  obtain ⟨⟨h1, _⟩, h3⟩ := hc
  refine ⟨h1, ?_⟩
  by_cases hs : stepStatus P o m = .mix
  · simp only [hs, if_true, Bool.and_eq_true, decide_eq_true_eq] at h3
    exact ⟨h3.1.1, h3.1.2, h3.2, by intro h; exact absurd hs h⟩
  · simp only [hs, if_false, Bool.and_eq_true, decide_eq_true_eq] at h3
    obtain ⟨⟨⟨⟨a, b⟩, c⟩, d⟩, e⟩ := h3
    exact ⟨c, d, e, fun _ => ⟨b, a⟩⟩

end

section order
variable {ι K : Type} [Fintype ι] [Field K] [LinearOrder K] [IsStrictOrderedRing K]

theorem le_maxOver {p : ι → Bool} {a : ι → K} {i : ι} (h : p i = true) : a i ≤ maxOver p a := by
  unfold maxOver
  have hi : i ∈ univ.filter fun i => p i = true := by simp [h]
  rw [dif_pos ⟨i, hi⟩]
  exact Finset.le_sup' a hi

theorem maxOver_eq_zero {p : ι → Bool} {a : ι → K} (h : ∀ i, p i = true → a i = 0) :
    maxOver p a = 0 := by
  unfold maxOver
  split_ifs with hn
  · apply le_antisymm
    · apply Finset.sup'_le; intro i hi; simp at hi; exact (h i hi).le
    · obtain ⟨i, hi⟩ := hn
      have := Finset.le_sup' a hi
      simp at hi; rw [h i hi] at this; exact this
  · rfl

theorem pabs_eq (x : K) : pabs x = |x| := by
  unfold pabs
  split_ifs with h
  · exact (abs_of_nonneg h).symm
  · exact (abs_of_neg (lt_of_not_ge h)).symm

theorem relLt_iff {a b tol : K} : relLt a b tol = true ↔ a ≠ 0 ∧ |a - b| < tol * |a| := by
  unfold relLt
  simp only [Bool.and_eq_true, decide_eq_true_eq, pabs_eq]
  constructor
  · rintro ⟨h, h2⟩
    refine ⟨h, ?_⟩
    rw [abs_div, div_lt_iff₀ (abs_pos.2 h)] at h2
    exact h2
  · rintro ⟨h, h2⟩
    refine ⟨h, ?_⟩
    rw [abs_div, div_lt_iff₀ (abs_pos.2 h)]
    exact h2

theorem sumOver_eq_sum_of_support {p : ι → Bool} {a : ι → K} (h : ∀ i, p i = false → a i = 0) :
    sumOver p a = ∑ i, a i := by
  unfold sumOver
  apply Finset.sum_congr rfl
  intro i _
  cases hp : p i with
  | true => simp
  | false => simp [h i hp]

theorem sumOver_nonneg {p : ι → Bool} {a : ι → K} (h : ∀ i, p i = true → 0 ≤ a i) :
    0 ≤ sumOver p a := by
  unfold sumOver
  apply Finset.sum_nonneg
  intro i _
  split_ifs with hp
  · exact h i hp
  · exact le_rfl

theorem le_sumOver {p : ι → Bool} {a : ι → K} (h : ∀ i, p i = true → 0 ≤ a i) {j : ι}
    (hj : p j = true) : a j ≤ sumOver p a := by
  unfold sumOver
  have := Finset.single_le_sum (f := fun i => if p i then a i else 0) (s := univ)
    (fun i _ => by
      split_ifs with hp
      · exact h i hp
      · exact le_rfl) (mem_univ j)
  simpa [hj] using this

theorem count_pos {p : ι → Bool} : 0 < count p ↔ ∃ i, p i = true := by
  unfold count
  rw [Finset.card_pos]
  constructor
  · rintro ⟨i, hi⟩; exact ⟨i, by simpa using hi⟩
  · rintro ⟨i, hi⟩; exact ⟨i, by simpa using hi⟩

theorem count_eq_zero {p : ι → Bool} : ¬ 0 < count p ↔ ∀ i, p i = false := by
  rw [count_pos]; push Not; simp

/-- A positive hardness: absent counts as unconstrained. -/
def HardNonneg (o : Options ι K) : Prop := ∀ i, 0 ≤ o.hardness.at i

/-- Invariant of property C32: forces and search direction vanish off the topography. -/
def OffZero (P : Problem ι K) (s : State ι K) : Prop :=
  ∀ i, P.comp i = false → s.f i = 0 ∧ s.t i = 0

theorem offZero_init (P : Problem ι K) (o : Options ι K) : OffZero P (initState P o) := by
  intro i hi
  simp [initState, hi]

theorem mid_offZero {P : Problem ι K} {o : Options ι K} {s : State ι K} {m : Mid ι K}
    (hs : OffZero P s)
    (hm : branch P o s = .ok m) :
    ∀ i, P.comp i = false → m.f i = 0 ∧ m.t i = 0 := by
  intro i hi
  obtain ⟨hf, ht⟩ := hs i hi
  have hc : cgSet o s i = false := by simp [cgSet, hf]
  rcases branch_cases hm with ⟨_, rfl⟩ | ⟨_, hm⟩
  · constructor
    · simp [cgBranch, hc, hf]
    · simp [cgBranch, cgDir, hi, ht]
  · unfold mixBranch at hm
    simp only at hm
    split at hm
    · simp at hm
    · simp only [Except.ok.injEq] at hm
      subst hm
      simp [hi, hc, hf, ht]

theorem stepForce_offZero {P : Problem ι K} {o : Options ι K} {m : Mid ι K}
    (hH : HardNonneg o) {i : ι} (hi : P.comp i = false) (hf : m.f i = 0) :
    stepForce P o m i = 0 := by
  have h1 : newContact P o m i = false := by simp [newContact, hi]
  have h2 : clip m i = 0 := by unfold clip; split_ifs <;> simp [hf]
  have h3 : rescale P o (clip m) i = 0 := by
    unfold rescale
    cases o.externalForce with
    | none => exact h2
    | some F => simp only; split_ifs <;> simp [h2, hi]
  unfold stepForce addContact
  rw [h1]
  simp only [Bool.false_eq_true, and_false, if_false]
  unfold truncate
  split_ifs with h
  · unfold flowing at h
    simp only [Bool.and_eq_true, decide_eq_true_eq, hf] at h
    have := hH i
    linarith [h.2]
  · exact h3

theorem offZero_step {P : Problem ι K} {o : Options ι K} {pentol : K} {s : State ι K}
    {w : StepOut ι K} (hH : HardNonneg o) (hs : OffZero P s)
    (h : CCG.step P o pentol s = .ok w) : OffZero P w.next := by
  obtain ⟨m, hard, hm, _, rfl⟩ := step_mid h
  intro i hi
  have := mid_offZero hs hm i hi
  exact ⟨stepForce_offZero hH hi this.1, this.2⟩

theorem offZero_reach {P : Problem ι K} {o : Options ι K} {pentol : K} (hH : HardNonneg o)
    {k : ℕ} {s : State ι K} (h : Reach P o pentol k s) : OffZero P s := by
  induction h with
  | init => exact offZero_init P o
  | step _ hst _ ih => exact offZero_step hH ih hst

end order
end CM.CCG
