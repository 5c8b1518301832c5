import Verif.Props.CCGNanFree
/-!
# Property C211: `nan` in a plastic calculation; examples for C210 - C212
-/
set_option linter.unusedSectionVars false

namespace CM.CCG.Nan
open PyFloat
variable {ι : Type} [Fintype ι] {P : Problem ι PyFloat} {o : Options ι PyFloat}

/-- The surfaces do not touch as far as the comparisons of the code can tell: height plus offset is not positive, or `nan`. -/
def NotTouching (P : Problem ι PyFloat) (z : PyFloat) : Prop :=
  ∀ i, P.comp i = true → P.h i + z = nan ∨ ∃ x ≤ 0, P.h i + z = num x

theorem notTouching_lt {h z : PyFloat} (H : h + z = nan ∨ ∃ x ≤ 0, h + z = num x) : (num 0 - h - z).lt 0 = false ∧ (num 0).lt (h + z) = false := by
  rcases H with H | ⟨x, hx, H⟩
  · refine ⟨?_, by rw [H]; rfl⟩
    cases h with
    | nan => rfl
    | num h =>
      cases z with
      | nan => rfl
      | num z => cases H
  · refine ⟨?_, by rw [H, lt_num]; simpa using hx⟩
    cases h with
    | nan => cases H
    | num h =>
      cases z with
      | nan => cases H
      | num z =>
        simp only [num_add, num.injEq] at H
        simp only [num_sub, zero_def, lt_num, decide_eq_false_iff_not, not_lt]
        linarith

/-- **C211 is false of the code.** A plastic calculation at a prescribed offset whose heights or offset are `nan` (and whose other points do not touch) is reported as a success with zero force,
after one iteration; the reported offset is the `nan`. -/
theorem C211_plastic_nan_partial {H : ℝ} {z : PyFloat} {pentol forcetol mixfac : ℝ} (hH : o.hardness = .scalar (num H)) (hH0 : 0 < H)
    (hF : o.externalForce = none) (hz : o.offset = some z) (hu : o.initialDisplacements = none) (hf : o.initialForces = none)
    (hp : pentolOf P o = .ok (num pentol)) (hp0 : 0 < pentol) (ht : o.forcetol = num forcetol) (ht0 : 0 < forcetol)
    (hmix : o.mixfac = num mixfac) (hm : 1 ≤ o.maxiter) (hd : P.disp (fun _ => num 0) = fun _ => num 0) (hP : P.force (fun _ => num 0) = fun _ => num 0)
    (hn : NotTouching P z) :
    ∃ r, solve P o = .ok r ∧ r.success = true ∧ r.nit = 1 ∧ r.offset = z ∧ (∀ i, r.jac i = num 0) ∧ ∀ i, r.x i = num 0 := by
  have hU : initU P o = fun _ => num 0 := by
    funext i
    unfold initU
    simp only [hu, hz, Option.getD_none, Option.getD_some]
    by_cases hc : P.comp i = true
    · rw [if_pos hc, zero_def, (notTouching_lt (hn i hc)).2]; rfl
    · rw [if_neg hc]; rfl
  set s := initState P o with hs
  have hsf : s.f = fun _ => num 0 := by
    rw [hs]; unfold initState; simp only [hf, hU, hP]
    funext i; split_ifs <;> rfl
  have hsu : s.u = fun _ => num 0 := by rw [hs]; unfold initState; simp only [hf, hU]
  have hso : s.offset = z := by rw [hs]; unfold initState; simp [hz]
  have hsm : s.mixfacCur = num mixfac := by rw [hs]; exact hmix
  have hst : s.status = .reset := rfl
  have hsl : s.lastTotalForce = none := rfl
  have hcg : cgSet o s = fun _ => false := by
    funext i; simp [cgSet, hsf, zero_def, lt_num]
  have hdo : doCG o s = false := by
    have : count (contact s) = 0 := by
      have : contact s = fun _ => false := by funext i; simp [contact, hsf, zero_def, lt_num]
      rw [this]; simp [count]
    simp [doCG, hH, Hardness.isSome, this]
  have hmf : ∀ i : ι, (num 1 - num mixfac) * num 0 - (num mixfac * hardAt o i).mask (if P.comp i = true then (num 0 - P.h i - z).lt 0 else false) = num 0 := by
    intro i
    have : (if P.comp i = true then (num 0 - P.h i - z).lt 0 else false) = false := by
      split_ifs with hc
      · exact (notTouching_lt (hn i hc)).1
      · rfl
    rw [this]
    simp [hardAt, hH]
  obtain ⟨m, hb, hmf', hmo, hms, hmg⟩ : ∃ m, branch P o s = .ok m ∧ m.f = (fun _ => num 0) ∧ m.offset = z ∧ m.status = .mix ∧ m.g = fun i => num 0 - P.h i - z := by
    unfold branch
    rw [hdo]
    unfold mixBranch
    simp only [hF, hso, hsu, hsm, hsf, hcg]
    refine ⟨_, rfl, ?_, rfl, rfl, rfl⟩
    funext i; exact hmf i
  have htr : hardTruth o = .ok true := by
    simp only [hardTruth, hH, ne0_num]; simp [hH0.ne']
  have hten : tensile m = fun _ => true := by
    funext i; simp [tensile, hmf', zero_def, le_num]
  have hflow : flowing o m = fun _ => false := by
    funext i; simp [flowing, hmf', hardAt, hH, le_num, hH0]
  have hnew : newContact P o m = fun _ => false := by
    funext i
    unfold newContact
    rw [hten, hflow, hmg]
    by_cases hc : P.comp i = true
    · simp [hc, (notTouching_lt (hn i hc)).1]
    · simp [hc]
  have hss : stepStatus P o m = .mix := by simp [stepStatus, hms]
  have hsF : stepForce P o m = fun _ => num 0 := by
    funext i
    unfold stepForce addContact truncate rescale clip
    rw [hss, hflow, hF, hten]
    simp [zero_def]
  have hmp : maxPres o m true = num 0 := by
    unfold maxPres
    rw [hflow, hten, hmf']
    have : ¬ 0 < count (fun _ : ι => false) := by simp [count]
    simp only [this, and_false, if_false]
    split_ifs
    · rw [fmax_nums, maxOver_eq_zero]; simp
    · rfl
  have hpad : (if 0 < count (fun i => !P.comp i) then fmax (fun i => !P.comp i) (fun i => (m.f i).abs) else 0) = num 0 := by
    rw [hmf']
    split_ifs
    · have : (fun _ : ι => (num 0).abs) = fun _ => num 0 := by funext i; simp [abs_num, pabs]
      rw [this, fmax_nums, maxOver_eq_zero]; simp
    · rfl
  have hdu : (fmax (fun _ => true) fun i => (P.disp (stepForce P o m) i - s.u i).abs) = num 0 := by
    have : (fun i => (P.disp (stepForce P o m) i - s.u i).abs) = fun _ => num 0 := by
      funext i; rw [hsF, hd, hsu]; simp [abs_num, pabs]
    rw [this, fmax_nums, maxOver_eq_zero]; simp
  have hconv : (finish P o (num pentol) s m true).converged = true := by
    unfold finish
    simp only [hss, if_true, hdu, hmp, hpad, ht, lt_num, hp0, ht0, decide_true, Bool.and_self, Bool.and_true]
    simp [convForce, convHeight, hF, hsl]
  obtain ⟨n, hn'⟩ : ∃ n, o.maxiter = n + 1 := ⟨o.maxiter - 1, by omega⟩
  refine ⟨mkResult P o 1 true (finish P o (num pentol) s m true), ?_, rfl, rfl, hmo, ?_, ?_⟩
  · unfold solve
    rw [hp, hn', ← hs]
    simp only
    rw [loop, step, hb, htr]
    simp only [hconv, if_true]
  · intro i
    change (if P.slice i = true then -(stepForce P o m i) else 0) = num 0
    rw [hsF]
    split_ifs
    · simp
    · rfl
  · intro i
    change P.disp (stepForce P o m) i = num 0
    rw [hsF, hd]

/-! ## Concrete cases -/

theorem matrix_spreads [Nonempty ι] (A : ι → ι → ℝ) : Spreads (matrix A : (ι → PyFloat) → ι → PyFloat) := by
  rintro f ⟨j, hj⟩ i
  unfold matrix
  rw [fsum_nan (i := j) rfl (by rw [eq_nan hj]; simp)]
  exact not_isNum_nan

theorem Spreads.keeps [Nonempty ι] {d : (ι → PyFloat) → ι → PyFloat} (h : Spreads d) : Keeps d := fun f hf => by
  obtain ⟨i⟩ := ‹Nonempty ι›
  exact ⟨i, h f hf i⟩

theorem matrix_nums (A : ι → ι → ℝ) (f : ι → ℝ) : matrix A (nums f) = nums fun i => -(sumOver (fun _ => true) fun j => A i j * f j) := by
  funext i
  unfold matrix nums
  simp only [num_mul, fsum_nums, neg_num]

section examples

/-- Two points on a matrix substrate, heights `h`. -/
noncomputable def exProblem (A B : Fin 2 → Fin 2 → ℝ) (h : Fin 2 → PyFloat) : Problem (Fin 2) PyFloat :=
  { disp := matrix A, force := matrix B, comp := fun _ => true, slice := fun _ => true, h := h, nSurf := num 2, rmsHeight := num 1, meanGrid := num 1 }

/-- The problem of numbers. -/
noncomputable def exReal (A B : Fin 2 → Fin 2 → ℝ) (h : Fin 2 → ℝ) : Problem (Fin 2) ℝ :=
  { disp := fun f i => -(sumOver (fun _ => true) fun j => A i j * f j), force := fun f i => -(sumOver (fun _ => true) fun j => B i j * f j),
    comp := fun _ => true, slice := fun _ => true, h := h, nSurf := 2, rmsHeight := 1, meanGrid := 1 }

theorem exProblem_same (A B : Fin 2 → Fin 2 → ℝ) (h : Fin 2 → ℝ) : SameProblem (exReal A B h) (exProblem A B (nums h)) where
  disp f := matrix_nums A f
  force f := matrix_nums B f
  comp := rfl
  slice := rfl
  h := rfl
  nSurf := rfl
  nSurf_ne := by norm_num [exReal]
  rmsHeight := rfl
  meanGrid := rfl
  meanGrid_ne := by norm_num [exReal]

/-- Arguments: prescribed offset `z`, hardness `H`. -/
noncomputable def exOptions (H : Hardness (Fin 2) PyFloat) (z : PyFloat) : Options (Fin 2) PyFloat :=
  { hardness := H, offset := some z, pentol := some (num 1), forcetol := num 1, thermotol := num 1, mixfac := num (1 / 10), mixdecfac := num (9 / 10),
    bisect := fun _ _ _ => .error .valueError }

noncomputable def exOptionsReal (z : ℝ) : Options (Fin 2) ℝ :=
  { hardness := .none, offset := some z, pentol := some 1, forcetol := 1, thermotol := 1, mixfac := 1 / 10, mixdecfac := 9 / 10,
    bisect := fun _ _ _ => .error .valueError }

theorem exOptions_same (z : ℝ) : SameOptions (exOptionsReal z) (exOptions .none (num z)) where
  hardness := rfl
  scalar H h := by cases h
  externalForce := rfl
  offset := rfl
  initialDisplacements := rfl
  initialForces := rfl
  pentol := rfl
  forcetol := rfl
  thermotol := rfl
  mixfac := rfl
  mixdecfac := rfl
  minmixsteps := rfl
  maxiter := rfl
  bisect _ _ _ _ _ := rfl

/-- C212: a `nan` height raises. -/
example (A B : Fin 2 → Fin 2 → ℝ) : solve (exProblem A B fun i => if i = 0 then nan else num 1) (exOptions .none (num 0)) = .error .runtimeError :=
  C212_raises (matrix_spreads A) (matrix_spreads B) rfl rfl ⟨0, rfl⟩ (by simp [exOptions])
    (Or.inl ⟨0, rfl, not_isNum_nan⟩)

/-- C212: a `nan` offset raises. -/
example (A B : Fin 2 → Fin 2 → ℝ) (h : Fin 2 → ℝ) : solve (exProblem A B (nums h)) (exOptions .none nan) = .error .runtimeError :=
  C212_raises (matrix_spreads A) (matrix_spreads B) rfl rfl ⟨0, rfl⟩ (by simp [exOptions])
    (Or.inr (Or.inl ⟨rfl, nan, rfl, not_isNum_nan⟩))

/-- C211: the same offset in a plastic calculation is reported as a success. -/
example (A B : Fin 2 → Fin 2 → ℝ) (h : Fin 2 → ℝ) :
    ∃ r, solve (exProblem A B (nums h)) (exOptions (.scalar (num 1)) nan) = .ok r ∧ r.success = true ∧ r.offset = nan := by
  have e : ∀ A : Fin 2 → Fin 2 → ℝ, matrix A (fun _ => num 0) = fun _ => num 0 := fun A => by
    refine (matrix_nums A fun _ => (0 : ℝ)).trans ?_
    funext i
    simp [sumOver, nums]
  obtain ⟨r, h1, h2, _, h3, _⟩ := C211_plastic_nan_partial (P := exProblem A B (nums h)) (o := exOptions (.scalar (num 1)) nan) (H := 1) (z := nan) (pentol := 1) (forcetol := 1)
    (mixfac := 1 / 10) rfl one_pos rfl rfl rfl rfl rfl one_pos rfl one_pos rfl (by simp [exOptions]) (e A) (e B) (fun i _ => Or.inl (by simp))
  exact ⟨r, h1, h2, h3⟩

/-- C210: there are reported successes (nothing touches). -/
example (A B : Fin 2 → Fin 2 → ℝ) : ∃ r, solve (exProblem A B fun _ => num (-1)) (exOptions (.scalar (num 1)) (num 0)) = .ok r ∧ r.success = true := by
  have e : ∀ A : Fin 2 → Fin 2 → ℝ, matrix A (fun _ => num 0) = fun _ => num 0 := fun A => by
    refine (matrix_nums A fun _ => (0 : ℝ)).trans ?_
    funext i
    simp [sumOver, nums]
  obtain ⟨r, h1, h2, _⟩ := C211_plastic_nan_partial (P := exProblem A B fun _ => num (-1)) (o := exOptions (.scalar (num 1)) (num 0)) (H := 1) (z := num 0) (pentol := 1) (forcetol := 1)
    (mixfac := 1 / 10) rfl one_pos rfl rfl rfl rfl rfl one_pos rfl one_pos rfl (by simp [exOptions]) (e A) (e B)
    (fun i _ => Or.inr ⟨-1, by norm_num, by simp [exProblem]⟩)
  exact ⟨r, h1, h2⟩

/-- C210: the refinement applies. -/
example (A B : Fin 2 → Fin 2 → ℝ) (h : Fin 2 → ℝ) (z : ℝ) :
    solve (exProblem A B (nums h)) (exOptions .none (num z)) = (CCG.solve (exReal A B h) (exOptionsReal z)).map numResult :=
  C210_without_nan (exProblem_same A B h) (exOptions_same z)

end examples

end CM.CCG.Nan
