import Verif.Lemmas.CCGNan
import Verif.Lemmas.CCG
/-!
# Properties C210 - C212: `nan` in the solver
-/
set_option linter.unusedSectionVars false

namespace CM.CCG.Nan
open PyFloat
variable {ι : Type} [Fintype ι] {P : Problem ι PyFloat} {o : Options ι PyFloat} {r : Result ι PyFloat}

/-! ## C210 -/

/-- **C210.** A reported success contains no `nan`: displacements, forces and energy are numbers. -/
theorem C210_success_numbers (hd : Keeps P.disp) (h : solve P o = .ok r) (hs : r.success = true) :
    (∀ i, (r.x i).IsNum) ∧ (∀ i, (r.jac i).IsNum) ∧ r.fun_.IsNum := by
  obtain ⟨pentol, s, w, n, hst, rfl, hc⟩ := solve_spec h hs
  obtain ⟨m, hard, hm, _, rfl⟩ := step_mid hst
  have hu := fun i => (maxdu_isNum (finish_conv hc) i).1
  have hf : ∀ i, ((finish P o pentol s m hard).next.f i).IsNum := by
    by_contra hn
    push Not at hn
    obtain ⟨i, hi⟩ := hd _ hn
    exact hi (hu i)
  refine ⟨hu, fun i => ?_, ?_⟩
  · simp only [mkResult]
    split_ifs
    · exact isNum_neg (hf i)
    · exact isNum_zero
  · simp only [mkResult]
    obtain ⟨x, hx⟩ := fsum_isNum (p := P.slice)
      (a := fun i => (finish P o pentol s m hard).next.f i * (finish P o pentol s m hard).next.u i) fun i _ => isNum_mul (hf i) (hu i)
    rw [hx, neg_num, num_div (by norm_num)]
    exact isNum_num _

/-- **C210, arguments.** If the last iteration was no mixing step (always in an elastic calculation), the heights and the offset are numbers too. -/
theorem C210_arguments_numbers (hd : Keeps P.disp) (h : solve P o = .ok r) (hs : r.success = true) (hm : r.status ≠ .mix) :
    ∀ i, P.comp i = true → (P.h i).IsNum ∧ r.offset.IsNum := by
  intro i hi
  obtain ⟨pentol, s, w, n, hst, rfl, hc⟩ := solve_spec h hs
  obtain ⟨m, hard, hb, _, rfl⟩ := step_mid hst
  have hmm := status_ne_mix hb hm
  have hu := fun i => (maxdu_isNum (finish_conv hc) i).1
  have hf : ∀ i, ((finish P o pentol s m hard).next.f i).IsNum := by
    by_contra hn
    push Not at hn
    obtain ⟨i, hi⟩ := hd _ hn
    exact hi (hu i)
  have hg : (s.u i - P.h i - cgOffset P o s).IsNum := by
    apply isNum_of_ne
    intro hg
    have h1 : m.f i = nan := by rw [hmm]; exact cg_force_nan hi (Or.inr hg)
    have h2 : (finish P o pentol s m hard).next.f i = nan := stepForce_nan hi h1
    have := hf i
    rw [h2] at this
    exact not_isNum_nan this
  obtain ⟨h1, h2⟩ := isNum_sub hg
  refine ⟨(isNum_sub h1).2, ?_⟩
  have : (mkResult P o n true (finish P o pentol s m hard)).offset = cgOffset P o s := by
    rw [hmm]; rfl
  rw [this]
  exact h2

theorem status_elastic (hH : o.hardness = .none) (h : solve P o = .ok r) (hs : r.success = true) : r.status ≠ .mix := by
  obtain ⟨pentol, s, w, n, hst, rfl, hc⟩ := solve_spec h hs
  obtain ⟨m, hard, hb, _, rfl⟩ := step_mid hst
  have hm : ∀ s : State ι PyFloat, (cgBranch P o s).status ≠ .mix := by
    intro s
    simp only [cgBranch]
    split_ifs with h
    · simp
    · exact h
  unfold branch at hb
  rw [if_pos (by simp [doCG, hH, Hardness.isSome])] at hb
  simp only [Except.ok.injEq] at hb
  subst hb
  change stepStatus P o (cgBranch P o s) ≠ .mix
  unfold stepStatus
  rw [if_neg (hm s)]
  split_ifs <;> simp

/-! ## C212 -/

section
variable {pentol : PyFloat} {s : State ι PyFloat}

/-- Off the topography forces are zero or `nan`, and the search direction is zero. -/
def Off (P : Problem ι PyFloat) (s : State ι PyFloat) : Prop :=
  ∀ i, P.comp i = false → (s.f i = num 0 ∨ s.f i = nan) ∧ s.t i = num 0

theorem elastic_branch (hH : o.hardness = .none) : branch P o s = .ok (cgBranch P o s) := by
  unfold branch
  rw [if_pos (by simp [doCG, hH, Hardness.isSome])]

theorem elastic_step (hH : o.hardness = .none) : step P o pentol s = .ok (finish P o pentol s (cgBranch P o s) false) := by
  unfold step
  rw [elastic_branch hH]
  simp [hardTruth, hH]

theorem zero_or {x : PyFloat} (y : PyFloat) (h : x = num 0 ∨ x = nan) : x * y = num 0 ∨ x * y = nan := by
  rcases h with rfl | rfl
  · cases y <;> simp
  · simp

theorem off_step (hH : o.hardness = .none) (hs : Off P s) : Off P (finish P o pentol s (cgBranch P o s) false).next := by
  intro i hi
  obtain ⟨hf, ht⟩ := hs i hi
  have ht' : (cgBranch P o s).t i = num 0 := by simp [cgBranch, cgDir, hi, ht]
  refine ⟨?_, ht'⟩
  have hc : cgSet o s i = false := by
    rcases hf with h | h <;> simp [cgSet, h, zero_def, PyFloat.lt]
  have hm : (cgBranch P o s).f i = num 0 ∨ (cgBranch P o s).f i = nan := by
    have e : (cgBranch P o s).f i = s.f i + ((cgBranch P o s).tau.mask (cgSet o s i)) * (cgBranch P o s).t i := rfl
    rw [e, ht', hc]
    rcases hf with h | h
    · rw [h]; cases (cgBranch P o s).tau <;> simp
    · right; rw [h, nan_add]
  change stepForce P o (cgBranch P o s) i = num 0 ∨ stepForce P o (cgBranch P o s) i = nan
  generalize cgBranch P o s = m at *
  have h1 : clip m i = num 0 ∨ clip m i = nan := by
    unfold clip
    split_ifs
    · left; rfl
    · exact hm
  have h2 : rescale P o (clip m) i = num 0 ∨ rescale P o (clip m) i = nan := by
    unfold rescale
    cases o.externalForce with
    | none => exact h1
    | some F =>
      simp only
      split_ifs
      · exact zero_or _ h1
      · left; simp [hi]; rfl
  have h3 : stepForce P o m i = rescale P o (clip m) i := by
    simp [stepForce, addContact, truncate, flowing, hH, Hardness.isSome, hi]
  rw [h3]
  exact h2

theorem not_converged {m : Mid ι PyFloat} {hard : Bool} (hd : Spreads P.disp) (i : ι) (h : stepForce P o m i = nan) :
    (finish P o pentol s m hard).converged = false ∧ ∀ j, (finish P o pentol s m hard).next.u j = nan := by
  have hu : ∀ j, ¬ (P.disp (stepForce P o m) j).IsNum := hd _ ⟨i, by rw [h]; exact not_isNum_nan⟩
  refine ⟨?_, fun j => eq_nan (hu j)⟩
  by_contra hc
  exact hu i (maxdu_isNum (finish_conv (by simpa using hc)) i).1

/-- After a `nan` in the force or in the gap of the topography every displacement is `nan`. -/
theorem bad_step (hd : Spreads P.disp) {i : ι} (hi : P.comp i = true)
    (h : s.f i = nan ∨ s.u i - P.h i - cgOffset P o s = nan) :
    (finish P o pentol s (cgBranch P o s) false).converged = false ∧
      (∀ j, (finish P o pentol s (cgBranch P o s) false).next.u j = nan) ∧
      (finish P o pentol s (cgBranch P o s) false).next.f i = nan := by
  have h1 := stepForce_nan (o := o) hi (cg_force_nan (o := o) hi h)
  obtain ⟨h2, h3⟩ := not_converged (pentol := pentol) (s := s) (hard := false) hd i h1
  exact ⟨h2, h3, h1⟩

/-- If no topography point has a force that is a number, `nan` displacements are detected. -/
theorem detect (hs : Off P s) (hu : ∀ j, s.u j = nan) (hf : ∀ j, P.comp j = true → s.f j = nan) {i : ι} (hi : P.comp i = true) :
    nanFound (finish P o pentol s (cgBranch P o s) false) := by
  left
  have hc : ¬ 0 < count (cgSet o s) := by
    apply count_eq_zero.2
    intro j
    cases hj : P.comp j with
    | true => simp [cgSet, hf j hj]
    | false => rcases (hs j hj).1 with h | h <;> simp [cgSet, h, zero_def, PyFloat.lt]
  change ¬ (cgBranch P o s).G.IsNum
  simp only [cgBranch, hc, false_and, if_false]
  rw [fsum_nan hi (by simp [hu i])]
  exact not_isNum_nan

theorem loop_elastic (hH : o.hardness = .none) (fuel it : ℕ) (prev : Option (StepOut ι PyFloat))
    (hc : (finish P o pentol s (cgBranch P o s) false).converged = false) :
    loop P o pentol (fuel + 1) it s prev = .error .runtimeError ∨
      loop P o pentol (fuel + 1) it s prev =
        loop P o pentol fuel (it + 1) (finish P o pentol s (cgBranch P o s) false).next (some (finish P o pentol s (cgBranch P o s) false)) ∧
        ¬ nanFound (finish P o pentol s (cgBranch P o s) false) := by
  rw [loop, elastic_step hH]
  simp only [hc, Bool.false_eq_true, if_false]
  split_ifs with h
  · left; rfl
  · right; exact ⟨rfl, h⟩

/-- From `nan` displacements the run raises within two iterations. -/
theorem raises_two (hd : Spreads P.disp) (hH : o.hardness = .none) (hs : Off P s) (hu : ∀ j, s.u j = nan) {i : ι} (hi : P.comp i = true)
    (fuel it : ℕ) (prev : Option (StepOut ι PyFloat)) : loop P o pentol (fuel + 2) it s prev = .error .runtimeError := by
  have hbad : ∀ j, P.comp j = true → s.f j = nan ∨ s.u j - P.h j - cgOffset P o s = nan := fun j _ => Or.inr (by simp [hu j])
  obtain ⟨h1, h2, _⟩ := bad_step (pentol := pentol) hd hi (hbad i hi)
  rcases loop_elastic hH (fuel + 1) it prev h1 with h | ⟨h, _⟩
  · exact h
  · rw [h]
    have hf : ∀ j, P.comp j = true → (finish P o pentol s (cgBranch P o s) false).next.f j = nan :=
      fun j hj => (bad_step (pentol := pentol) hd hj (hbad j hj)).2.2
    have ho := off_step (pentol := pentol) hH hs
    generalize (finish P o pentol s (cgBranch P o s) false).next = s' at *
    obtain ⟨h3, _, _⟩ := bad_step (o := o) (pentol := pentol) (s := s') hd hi (Or.inl (hf i hi))
    rcases loop_elastic hH fuel (it + 1) _ h3 with h | ⟨_, h⟩
    · exact h
    · exact absurd (detect ho h2 hf hi) h

theorem off_init : Off P (initState P o) := by
  intro i hi
  exact ⟨Or.inl (by simp [initState, hi]; rfl), rfl⟩

theorem init_bad (hd : Spreads P.disp) (hf : Spreads P.force) {i : ι} (hi : P.comp i = true) (hbad : NanInput P o) :
    (∃ j, P.comp j = true ∧ ((initState P o).f j = nan ∨ (initState P o).u j - P.h j - cgOffset P o (initState P o) = nan)) ∨
      ∃ F, o.externalForce = some F ∧ F = nan := by
  rcases hbad with ⟨j, hj, h⟩ | ⟨hF, z, hz, h⟩ | ⟨F, hF, h⟩ | ⟨h0, u, hu, j, h⟩ | ⟨f, hf0, j, h⟩
  · exact Or.inl ⟨j, hj, Or.inr (by rw [eq_nan h]; simp)⟩
  · refine Or.inl ⟨i, hi, Or.inr ?_⟩
    have : cgOffset P o (initState P o) = nan := by simp [cgOffset, hF, initState, hz, eq_nan h]
    rw [this, sub_nan]
  · exact Or.inr ⟨F, hF, eq_nan h⟩
  · refine Or.inl ⟨i, hi, Or.inl ?_⟩
    have e : (initState P o).f i = P.force (initU P o) i := by simp [initState, hi, h0]
    rw [e]
    apply eq_nan
    apply hf
    refine ⟨j, ?_⟩
    have : initU P o j = nan := by simp [initU, hu, eq_nan h]
    rw [this]
    exact not_isNum_nan
  · refine Or.inl ⟨i, hi, Or.inr ?_⟩
    have e : (initState P o).u i = P.disp f i := by simp [initState, hf0]
    rw [e, eq_nan (hd f ⟨j, h⟩ i)]
    simp

/-- **C212.** In an elastic calculation on a substrate that spreads `nan`, a `nan` in the arguments raises `RuntimeError` (within three iterations). -/
theorem C212_raises (hd : Spreads P.disp) (hf : Spreads P.force) (hH : o.hardness = .none) {pentol : PyFloat}
    (hp : pentolOf P o = .ok pentol) (hc : ∃ i, P.comp i = true) (hm : 3 ≤ o.maxiter) (hbad : NanInput P o) :
    solve P o = .error .runtimeError := by
  obtain ⟨i, hi⟩ := hc
  obtain ⟨n, hn⟩ : ∃ n, o.maxiter = n + 2 + 1 := ⟨o.maxiter - 3, by omega⟩
  unfold solve
  rw [hp, hn]
  simp only
  have key : (finish P o pentol (initState P o) (cgBranch P o (initState P o)) false).converged = false ∧
      ∀ j, (finish P o pentol (initState P o) (cgBranch P o (initState P o)) false).next.u j = nan := by
    rcases init_bad hd hf hi hbad with ⟨j, hj, h⟩ | ⟨F, hF, hFn⟩
    · obtain ⟨h1, h2, _⟩ := bad_step (pentol := pentol) hd hj h
      exact ⟨h1, h2⟩
    · apply not_converged hd i
      have hr : rescale P o (clip (cgBranch P o (initState P o))) i = nan := by
        unfold rescale
        rw [hF, hFn]
        simp only
        split_ifs
        · simp
        · simp [hi]
      have ht : truncate o (cgBranch P o (initState P o)) (rescale P o (clip (cgBranch P o (initState P o)))) i = nan := by
        simp [truncate, flowing, hH, Hardness.isSome, hr]
      unfold stepForce addContact
      split_ifs
      · rw [ht, nan_add]
      · exact ht
  rcases loop_elastic hH (n + 2) 0 none key.1 with h | ⟨h, _⟩
  · exact h
  · rw [h]
    exact raises_two hd hH (off_step hH off_init) key.2 hi n _ _

end

end CM.CCG.Nan
