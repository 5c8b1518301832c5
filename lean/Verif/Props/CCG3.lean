import Verif.Props.CCG2
/-!
# Properties C36, C44 - C47, and counterexamples to C36 - C38
-/
set_option linter.unusedSectionVars false

namespace CM.CCG
open Finset CM.Spec

/-- The model's `sqrtLt` is `sqrt(x) < p` for real numbers. -/
theorem sqrtLt_iff (x p : ℝ) : sqrtLt x p = true ↔ Real.sqrt x < p := by
  unfold sqrtLt
  simp only [Bool.and_eq_true, decide_eq_true_eq]
  constructor
  · rintro ⟨hp, h⟩
    rw [Real.sqrt_lt' hp]; nlinarith
  · intro h
    have hp : 0 < p := lt_of_le_of_lt (Real.sqrt_nonneg x) h
    refine ⟨hp, ?_⟩
    rw [Real.sqrt_lt' hp] at h; nlinarith

/-! ## Small symmetric positive definite substrates used as witnesses -/

theorem matDisp_elastic {n : ℕ} (A : Fin n → Fin n → ℚ) (hs : ∀ i j, A i j = A j i)
    (hpd : ∀ x : Fin n → ℚ, (∃ i, x i ≠ 0) → 0 < ∑ i, x i * ∑ j, A i j * x j) :
    ElasticResponse (matDisp A) where
  add := by
    intro f g i
    simp only [matDisp, mul_add, Finset.sum_add_distrib]; ring
  smul := by
    intro c f i
    simp only [matDisp, mul_neg, Finset.mul_sum]
    congr 1
    apply Finset.sum_congr rfl; intro j _; ring
  symm := by
    intro f g
    simp only [dot, matDisp, mul_neg, Finset.mul_sum, Finset.sum_neg_distrib]
    rw [Finset.sum_comm]
    congr 1
    apply Finset.sum_congr rfl; intro i _
    apply Finset.sum_congr rfl; intro j _
    rw [hs]; ring
  posdef := by
    intro f hf
    have := hpd f hf
    simp only [dot, matDisp, mul_neg, Finset.sum_neg_distrib]
    linarith

/-- Compliance of a two-point periodic substrate (circulant). -/
def circ2 : Fin 2 → Fin 2 → ℚ := fun i j => if i = j then 4 else 3

theorem circ2_elastic : ElasticResponse (matDisp circ2) := by
  apply matDisp_elastic
  · intro i j; fin_cases i <;> fin_cases j <;> rfl
  · intro x hx
    simp only [Fin.sum_univ_two, circ2]
    norm_num
    have : x 0 ≠ 0 ∨ x 1 ≠ 0 := by
      obtain ⟨i, hi⟩ := hx
      fin_cases i
      · exact Or.inl hi
      · exact Or.inr hi
    have h1 : 0 < x 0 ^ 2 + x 1 ^ 2 := by
      rcases this with h | h
      · have := sq_nonneg (x 1); positivity
      · have := sq_nonneg (x 0); positivity
    nlinarith [sq_nonneg (x 0 + x 1)]

def prob2 (h : Fin 2 → ℚ) : Problem (Fin 2) ℚ where
  disp := matDisp circ2
  force := matDisp fun i j => if i = j then 4 / 7 else -3 / 7
  comp := fun _ => true
  slice := fun _ => true
  h := h
  nSurf := 2
  rmsHeight := 1
  meanGrid := 1

def opt2 (f0 : Fin 2 → ℚ) : Options (Fin 2) ℚ where
  pentol := some (1 / 1000)
  initialForces := some f0
  forcetol := 1 / 100000
  thermotol := 1 / 1000000
  mixfac := 1 / 10
  mixdecfac := 19 / 20
  maxiter := 100000
  bisect := fun _ a _ => .ok a

/-- State after the first iteration of the counterexample to C36: the second point was clipped. -/
def c36S1 : State (Fin 2) ℚ :=
  ⟨![-2, 0], ![8, 6], ![-1, 1], true, .cg, 2, 1/10, 0, some 6, some 2, 0, 3⟩

/-- **C36 is false of the code.** On an elastic two-point periodic substrate, with the default
tolerances and `pentol = 1/1000`, the solver reports success in iteration 2 although a point that
carries the force 2 is a distance 2 above the rigid surface: after a tensile point has been clipped
(without resetting the CG direction) the new search direction cancels exactly, `x = 0`, and the
penetration measure `G` is overwritten by 0 (line 294). -/
theorem C36_fails_loaded_gap : ElasticResponse (prob2 ![6, 10/3]).disp ∧
    ∃ r, solve (prob2 ![6, 10/3]) (opt2 ![-1, -1/3]) = .ok r ∧ r.success = true ∧
      r.jac 0 = 2 ∧ r.activeSet 0 = true ∧
      r.x 0 - ((prob2 ![6, 10/3]).h 0 + r.offset) = 2 := by
  refine ⟨circ2_elastic, ?_⟩
  have h0 : solveCb (prob2 ![6, 10/3]) (opt2 ![-1, -1/3]) =
      loop (prob2 ![6, 10/3]) (opt2 ![-1, -1/3]) (1/1000) (99998 + 1 + 1) 0
      (initState (prob2 ![6, 10/3]) (opt2 ![-1, -1/3])) [] none := rfl
  obtain ⟨w1, h1, _⟩ := loop_stepsTo (P := prob2 ![6, 10/3]) (o := opt2 ![-1, -1/3]) (p := 1/1000)
    (s := initState (prob2 ![6, 10/3]) (opt2 ![-1, -1/3])) (s' := c36S1) (by decide +kernel)
    (99998 + 1) 0 [] none
  obtain ⟨w2, h2, hw⟩ := loop_last (P := prob2 ![6, 10/3]) (o := opt2 ![-1, -1/3]) (p := 1/1000)
    (s := c36S1) (q := fun w => decide (w.next.f 0 = -2 ∧ w.c 0 = true ∧ w.next.u 0 = 8 ∧
        w.next.offset = 0 ∧ w.next.status ≠ .mix))
    (by decide +kernel) 99998 1 ([] ++ [(1, c36S1.f)]) (some w1)
  simp only [decide_eq_true_eq] at hw
  refine ⟨mkResult (prob2 ![6, 10/3]) (opt2 ![-1, -1/3]) 2 true w2, ?_, rfl, ?_, ?_, ?_⟩
  · unfold solve; rw [h0, h1, h2]; rfl
  · simp [mkResult, prob2, hw.1]
  · simp only [mkResult]
    rw [if_neg (by rintro ⟨_, h⟩; exact hw.2.2.2.2 h)]
    exact hw.2.1
  · simp [mkResult, prob2, hw.2.2.1, hw.2.2.2.1]; norm_num

section real
variable {ι K : Type} [Fintype ι] [Field K] [LinearOrder K] [IsStrictOrderedRing K]
variable {P : Problem ι K} {o : Options ι K} {r : Result ι K}

/-- **C36 (partial).** If the run succeeds with a CG or steepest-descent step of non-zero length,
every point of the returned active set has a gap between `-pentol` and `(1 + √A) pentol`, where
`A` is the number of active points (stated without square roots, see the next theorem for reals).  Missing: final iterations with zero step length, where the
bound can fail (`C36_fails_loaded_gap`). -/
theorem C36_complementarity_partial (hH : ∀ i, 0 ≤ o.hardness.at i) (h : solve P o = .ok r)
    (hs : r.success = true) (hst : r.status ≠ .mix) (htau : r.tau ≠ 0) {pentol : K}
    (hp : pentolOf P o = .ok pentol) :
    ∀ i, r.activeSet i = true →
      -pentol < r.x i - (P.h i + r.offset) ∧
      (r.x i - (P.h i + r.offset) < pentol ∨
        (r.x i - (P.h i + r.offset) - pentol) ^ 2 <
          ((univ.filter fun i => r.activeSet i = true).card : K) * pentol ^ 2) := by
  intro i hi
  obtain ⟨pentol', k, s, w, hp', hR, hstep, rfl, _, _⟩ := solve_spec h
  rw [hp] at hp'; cases hp'
  have hoff := offZero_reach hH hR
  obtain ⟨m, hard, hm, _, hw⟩ := step_mid hstep
  have hc : w.converged = true := hs
  obtain ⟨_, hdu, _, _, hpen⟩ := finish_conv hw hc
  subst hw
  have hnm : stepStatus P o m ≠ .mix := hst
  obtain ⟨_, hmm⟩ := status_ne_mix hm hnm
  obtain ⟨hpen', hrms⟩ := hpen hnm
  have hact : (mkResult P o (k + 1) (finish P o pentol s m hard).converged
      (finish P o pentol s m hard)).activeSet = cgSet o s := by
    simp only [mkResult]
    rw [if_neg (by rintro ⟨_, h⟩; exact hst h)]
    change m.c = _; rw [hmm]; rfl
  rw [hact] at hi ⊢
  have hcomp : P.comp i = true := by
    cases hci : P.comp i with
    | true => rfl
    | false =>
      have := (hoff i hci).1
      simp [cgSet, this] at hi
  have hmc : m.c i = true := by rw [hmm]; exact hi
  have hge : ∀ j, m.g j = s.u j - P.h j - m.offset := by intro j; rw [hmm]; rfl
  -- lower bound
  have h1 : (if m.c i then P.h i + m.offset - (finish P o pentol s m hard).next.u i else 0) ≤
      maxOver P.comp (fun i => if m.c i then P.h i + m.offset -
        (finish P o pentol s m hard).next.u i else 0) :=
    le_maxOver (a := fun i => if m.c i then P.h i + m.offset -
        (finish P o pentol s m hard).next.u i else 0) hcomp
  rw [hmc, if_pos rfl] at h1
  have h2 := lt_of_le_of_lt (le_trans h1 (le_max_right _ _)) hpen'
  have hdui := abs_lt.1 (abs_du_lt hdu i)
  -- value of G
  have hG : m.G = sumOver (fun i => cgSet o s i && P.comp i) fun i => m.g i * m.g i := by
    have ht : m.tau ≠ 0 := htau
    have key : (cgBranch P o s).tau ≠ 0 → (cgBranch P o s).G =
        sumOver (fun i => cgSet o s i && P.comp i)
          fun i => (cgBranch P o s).g i * (cgBranch P o s).g i := by
      intro ht
      simp only [cgBranch] at ht ⊢
      split_ifs at ht with h3
      · rw [if_neg (fun h4 => h4.2 h3.2)]
      · exact absurd rfl ht
    rw [hmm]; rw [hmm] at ht; exact key ht
  have hA : 0 < count (cgSet o s) := count_pos.2 ⟨i, hi⟩
  have hAr : (0 : K) < (count (cgSet o s) : K) := by exact_mod_cast hA
  have hgi : m.g i * m.g i ≤ m.G := by
    rw [hG]
    exact le_sumOver (a := fun i => m.g i * m.g i) (fun j _ => mul_self_nonneg _)
      (by simp [hi, hcomp])
  have hrms' : sqrtLt (m.G / (count (cgSet o s) : K)) pentol = true := by
    have h5 : sqrtLt (if 0 < count (cgSet o s) then m.G / (count (cgSet o s) : K) else m.G) pentol
        = true := hrms
    rwa [if_pos hA] at h5
  simp only [sqrtLt, Bool.and_eq_true, decide_eq_true_eq] at hrms'
  obtain ⟨hp0, hlt⟩ := hrms'
  have hG2 : m.g i * m.g i < (count (cgSet o s) : K) * pentol ^ 2 := by
    rw [div_lt_iff₀ hAr] at hlt
    nlinarith
  have hgei := hge i
  constructor
  · change -pentol < (finish P o pentol s m hard).next.u i - (P.h i + m.offset)
    linarith
  · change (finish P o pentol s m hard).next.u i - (P.h i + m.offset) < pentol ∨
      ((finish P o pentol s m hard).next.u i - (P.h i + m.offset) - pentol) ^ 2 <
        (count (cgSet o s) : K) * pentol ^ 2
    by_cases hlt2 : (finish P o pentol s m hard).next.u i - (P.h i + m.offset) < pentol
    · exact Or.inl hlt2
    · right
      push Not at hlt2
      have h3 : 0 ≤ (finish P o pentol s m hard).next.u i - (P.h i + m.offset) - pentol := by linarith
      have h4 : (finish P o pentol s m hard).next.u i - (P.h i + m.offset) - pentol ≤ m.g i := by
        rw [hgei]; linarith [hdui.2]
      nlinarith

/-- The same bound over the reals, with the square root. -/
theorem C36_complementarity_real_partial {P : Problem ι ℝ} {o : Options ι ℝ} {r : Result ι ℝ}
    (hH : ∀ i, 0 ≤ o.hardness.at i) (h : solve P o = .ok r)
    (hs : r.success = true) (hst : r.status ≠ .mix) (htau : r.tau ≠ 0) {pentol : ℝ}
    (hp : pentolOf P o = .ok pentol) (hp0 : 0 < pentol) :
    ∀ i, r.activeSet i = true →
      -pentol < r.x i - (P.h i + r.offset) ∧
      r.x i - (P.h i + r.offset) <
        (1 + Real.sqrt ((univ.filter fun i => r.activeSet i = true).card : ℝ)) * pentol := by
  intro i hi
  obtain ⟨h1, h2⟩ := C36_complementarity_partial hH h hs hst htau hp i hi
  refine ⟨h1, ?_⟩
  set A : ℝ := ((univ.filter fun i => r.activeSet i = true).card : ℝ)
  set d := r.x i - (P.h i + r.offset)
  have hcard : 0 < (univ.filter fun i => r.activeSet i = true).card :=
    Finset.card_pos.2 ⟨i, by simp [hi]⟩
  have hA : 0 < A := Nat.cast_pos.2 hcard
  have hsq : 0 < Real.sqrt A := Real.sqrt_pos.2 hA
  rcases h2 with h2 | h2
  · nlinarith
  · have h3 : (d - pentol) ^ 2 < (Real.sqrt A * pentol) ^ 2 := by
      rw [mul_pow, Real.sq_sqrt hA.le]; exact h2
    have h4 := abs_lt_of_sq_lt_sq h3 (by positivity)
    linarith [(abs_lt.1 h4).2]

end real

/-- Warm start close to the solution of the demonstration problem. -/
def demoOptB : Options (Fin 3) ℚ :=
  { demoOpt with initialForces := some ![-10001/10000, -20001/10000, 0] }

/-- A run that converges with a non-zero step length (in its first iteration): hypotheses of C36. -/
example : ∃ r, solve (demo ![5, 8, 0]) demoOptB = .ok r ∧
    r.success = true ∧ r.status ≠ .mix ∧ r.tau ≠ 0 ∧ r.activeSet 0 = true := by
  obtain ⟨w, h, hw⟩ := loop_last (P := demo ![5, 8, 0])
    (o := demoOptB) (p := 1/1000) (s := initState (demo ![5, 8, 0]) demoOptB)
    (q := fun w => decide (w.next.status ≠ .mix ∧ w.tau ≠ 0 ∧ w.c 0 = true))
    (by decide +kernel) 19 0 [] none
  simp only [decide_eq_true_eq] at hw
  refine ⟨mkResult (demo ![5, 8, 0]) demoOptB 1 true w, ?_, rfl, hw.1, hw.2.1, ?_⟩
  · unfold solve
    have h0 : solveCb (demo ![5, 8, 0]) demoOptB = loop (demo ![5, 8, 0]) demoOptB (1/1000) (19 + 1) 0
      (initState (demo ![5, 8, 0]) demoOptB) [] none := rfl
    rw [h0, h]; rfl
  · simp only [mkResult]
    rw [if_neg (by rintro ⟨_, h⟩; exact hw.1 h)]
    exact hw.2.2

/-- Load control. -/
def opt34 : Options (Fin 2) ℚ := { opt2 ![-7/2, -5/2] with externalForce := some 6 }

/-- Load-controlled elastic run meeting the hypotheses of C34. -/
example : ∃ r, solve (prob2 ![2, 1]) opt34 = .ok r ∧
    r.success = true ∧ r.status = .cg ∧ r.jac 0 = 7/2 := by
  obtain ⟨w, h, hw⟩ := loop_last (P := prob2 ![2, 1])
    (o := opt34) (p := 1/1000) (s := initState (prob2 ![2, 1]) opt34)
    (q := fun w => decide (w.next.status = .cg ∧ w.next.f 0 = -7/2))
    (by decide +kernel) 99999 0 [] none
  simp only [decide_eq_true_eq] at hw
  refine ⟨mkResult (prob2 ![2, 1]) opt34 1 true w, ?_, rfl, hw.1, ?_⟩
  · unfold solve
    have h0 : solveCb (prob2 ![2, 1]) opt34 =
      loop (prob2 ![2, 1]) opt34 (1/1000) (99999 + 1) 0
      (initState (prob2 ![2, 1]) opt34) [] none := rfl
    rw [h0, h]; rfl
  · simp [mkResult, prob2, hw.2]; norm_num

/-! ## Counterexamples to C37 and C38 -/

/-- Compliance for the counterexample to C37. -/
def mat3 : Fin 3 → Fin 3 → ℚ := ![![4, 2, 3], ![2, 4, 0], ![3, 0, 4]]

theorem mat3_elastic : ElasticResponse (matDisp mat3) := by
  apply matDisp_elastic
  · intro i j; fin_cases i <;> fin_cases j <;> rfl
  · intro x hx
    rw [Fin.sum_univ_three, Fin.sum_univ_three, Fin.sum_univ_three, Fin.sum_univ_three]
    change 0 < x 0 * (4 * x 0 + 2 * x 1 + 3 * x 2) + x 1 * (2 * x 0 + 4 * x 1 + 0 * x 2) +
      x 2 * (3 * x 0 + 0 * x 1 + 4 * x 2)
    have h1 : 0 < x 0 ^ 2 + x 1 ^ 2 + x 2 ^ 2 := by
      obtain ⟨i, hi⟩ := hx
      have a := sq_nonneg (x 0); have b := sq_nonneg (x 1); have c := sq_nonneg (x 2)
      fin_cases i <;> simp at hi
      · have : 0 < x 0 ^ 2 := by positivity
        linarith
      · have : 0 < x 1 ^ 2 := by positivity
        linarith
      · have : 0 < x 2 ^ 2 := by positivity
        linarith
    have key : x 0 * (4 * x 0 + 2 * x 1 + 3 * x 2) + x 1 * (2 * x 0 + 4 * x 1 + 0 * x 2) +
        x 2 * (3 * x 0 + 0 * x 1 + 4 * x 2) =
        (2 * x 0 + x 1 + 3 / 2 * x 2) ^ 2 + 3 * (x 1 - x 2 / 2) ^ 2 + x 2 ^ 2 := by ring
    rw [key]
    by_contra hcon
    push Not at hcon
    have e1 := sq_nonneg (2 * x 0 + x 1 + 3 / 2 * x 2)
    have e2 := sq_nonneg (x 1 - x 2 / 2)
    have e3 := sq_nonneg (x 2)
    have z2 : x 2 = 0 := by
      have : x 2 ^ 2 = 0 := by linarith
      simpa using this
    have z1 : x 1 = 0 := by
      have : (x 1 - x 2 / 2) ^ 2 = 0 := by linarith
      rw [z2] at this; simpa using this
    have z0 : x 0 = 0 := by
      have : (2 * x 0 + x 1 + 3 / 2 * x 2) ^ 2 = 0 := by linarith
      rw [z2, z1] at this; simpa using this
    rw [z0, z1, z2] at h1; simp at h1

def prob3 (h : Fin 3 → ℚ) : Problem (Fin 3) ℚ where
  disp := matDisp mat3
  force := matDisp mat3
  comp := fun _ => true
  slice := fun _ => true
  h := h
  nSurf := 3
  rmsHeight := 1
  meanGrid := 1

def opt3 : Options (Fin 3) ℚ where
  pentol := some (1 / 1000)
  initialForces := some ![-4, 0, -3]
  forcetol := 1 / 100000
  thermotol := 1 / 1000000
  mixfac := 1 / 10
  mixdecfac := 19 / 20
  maxiter := 3
  bisect := fun _ a _ => .ok a

/-- States of the counterexample to C37 after iterations 1 and 2. -/
def c37S1 : State (Fin 3) ℚ :=
  ⟨![-29/53, 0, -13/106], ![271/106, 58/53, 113/53], ![24, 0, 20], true, .cg, 976, 1/10, 0,
    some 4, some (71/106), 0, 3⟩

@[inherit_doc c37S1]
def c37S2 : State (Fin 3) ℚ :=
  ⟨![0, 0, -13/7], ![39/7, 0, 52/7], ![38247/22472, 0, -78507/44944], true, .cg, 66429/11236,
    1/10, 0, some 4, some (13/7), 0, 5⟩

/-- **C37 is false of the code.** On an elastic substrate (symmetric positive definite compliance),
at fixed offset and starting from compressive forces, the third iteration has a negative step length
(the second one clipped a tensile point but kept the CG direction) and returns the *tensile* force
`-77/4` on a point added to the contact. -/
theorem C37_fails_tensile : ElasticResponse (prob3 ![1, 1, 4]).disp ∧
    ∃ r, solve (prob3 ![1, 1, 4]) opt3 = .ok r ∧ r.jac 1 = -77/4 := by
  refine ⟨mat3_elastic, ?_⟩
  have h0 : solveCb (prob3 ![1, 1, 4]) opt3 =
      loop (prob3 ![1, 1, 4]) opt3 (1/1000) 3 0 (initState (prob3 ![1, 1, 4]) opt3) [] none := rfl
  obtain ⟨w1, h1, _⟩ := loop_stepsTo (P := prob3 ![1, 1, 4]) (o := opt3) (p := 1/1000)
    (s := initState (prob3 ![1, 1, 4]) opt3) (s' := c37S1) (by decide +kernel) 2 0 [] none
  obtain ⟨w2, h2, _⟩ := loop_stepsTo (P := prob3 ![1, 1, 4]) (o := opt3) (p := 1/1000)
    (s := c37S1) (s' := c37S2) (by decide +kernel) 1 1 ([] ++ [(1, c37S1.f)]) (some w1)
  obtain ⟨w3, h3, hw⟩ := loop_maxed (P := prob3 ![1, 1, 4]) (o := opt3) (p := 1/1000)
    (s := c37S2) (q := fun w => decide (w.next.f 1 = 77/4)) (by decide +kernel) 2
    ([] ++ [(1, c37S1.f)] ++ [(2, c37S2.f)]) (some w2)
  simp only [decide_eq_true_eq] at hw
  refine ⟨mkResult (prob3 ![1, 1, 4]) opt3 3 false w3, ?_, ?_⟩
  · unfold solve; rw [h0, h1, h2, h3]; rfl
  · simp [mkResult, prob3, hw]; norm_num

/-- Options of the counterexample to C38 under load control. -/
def opt38 : Options (Fin 2) ℚ :=
  { opt2 ![-39/10, -19/10] with hardness := .scalar 4, externalForce := some 6, pentol := some 1 }

/-- Two independent springs. -/
def springs (h : Fin 2 → ℚ) : Problem (Fin 2) ℚ where
  disp := matDisp fun i j => if i = j then 1 else 0
  force := matDisp fun i j => if i = j then 1 else 0
  comp := fun _ => true
  slice := fun _ => true
  h := h
  nSurf := 2
  rmsHeight := 1
  meanGrid := 1

/-- **C38 is false of the code (load control).** The mask of flowing points is computed before the
forces are rescaled to the external force; a successful run returns a force above the hardness 4. -/
theorem C38_fails_load_control :
    ∃ r, solve (springs ![2, 0]) opt38 = .ok r ∧ r.success = true ∧ r.jac 0 = 117/29 ∧
      (4 : ℚ) < 117/29 := by
  obtain ⟨w, h, hw⟩ := loop_last (P := springs ![2, 0]) (o := opt38) (p := 1)
    (s := initState (springs ![2, 0]) opt38) (q := fun w => decide (w.next.f 0 = -117/29))
    (by decide +kernel) 99999 0 [] none
  have h0 : solveCb (springs ![2, 0]) opt38 =
      loop (springs ![2, 0]) opt38 1 (99999 + 1) 0 (initState (springs ![2, 0]) opt38) [] none := rfl
  simp only [decide_eq_true_eq] at hw
  refine ⟨mkResult (springs ![2, 0]) opt38 1 true w, ?_, rfl, ?_, by norm_num⟩
  · unfold solve; rw [h0, h]; rfl
  · simp [mkResult, springs, hw]; norm_num

/-- Options of the counterexample to C38 at fixed offset. -/
def opt38b : Options (Fin 2) ℚ :=
  { opt2 ![-1, 0] with hardness := .scalar 10, maxiter := 1 }

/-- **C38 is false of the code (fixed offset).** Points added in the last iteration get
`tau * gap` without being truncated at the hardness (here 10). -/
theorem C38_fails_added_points :
    ∃ r, solve (prob2 ![8, 100]) opt38b = .ok r ∧ r.jac 1 = 97/4 ∧ (10 : ℚ) < 97/4 := by
  obtain ⟨w, h, hw⟩ := loop_maxed (P := prob2 ![8, 100]) (o := opt38b) (p := 1/1000)
    (s := initState (prob2 ![8, 100]) opt38b) (q := fun w => decide (w.next.f 1 = -97/4))
    (by decide +kernel) 0 [] none
  have h0 : solveCb (prob2 ![8, 100]) opt38b =
      loop (prob2 ![8, 100]) opt38b (1/1000) 1 0 (initState (prob2 ![8, 100]) opt38b) [] none := rfl
  simp only [decide_eq_true_eq] at hw
  refine ⟨mkResult (prob2 ![8, 100]) opt38b 1 false w, ?_, ?_, by norm_num⟩
  · unfold solve; rw [h0, h]; rfl
  · simp [mkResult, prob2, hw]; norm_num

section general
variable {ι K : Type} [Fintype ι] [Field K] [LinearOrder K] [IsStrictOrderedRing K]
variable {P : Problem ι K} {o : Options ι K} {r : Result ι K}

/-! ## C44 -/

theorem u_reach {pentol : K} {k : ℕ} {s : State ι K} (h : Reach P o pentol k s) (hk : 1 ≤ k) :
    s.u = P.disp s.f := by
  cases h with
  | init => omega
  | step _ hst _ =>
    obtain ⟨m, hard, hm, _, rfl⟩ := step_mid hst
    rfl

/-- Dual energy along a line, for an elastic response. -/
theorem dualEnergy_line {D : (ι → K) → (ι → K)} {S : ι → Bool} (hD : ElasticOn S D) (b : ι → K) {f t : ι → K} (hf : ∀ i, S i = false → f i = 0)
    (ht : ∀ i, S i = false → t i = 0) (σ : K) :
    dualEnergy D b (fun i => -(f i + σ * t i)) =
      dualEnergy D b (fun i => -(f i)) - σ * dot (fun i => D f i - b i) t
        - σ ^ 2 / 2 * dot t (D t) := by
  have h1 : (fun i => - -(f i + σ * t i)) = fun i => f i + σ * t i := by funext i; ring
  have h2 : D (fun i => f i + σ * t i) = fun i => D f i + σ * D t i := by
    funext i
    rw [hD.add f (fun j => σ * t j), hD.smul]
  have h3 : (fun i => - -(f i)) = f := by funext i; ring
  have hs := hD.symm f t hf ht
  unfold dualEnergy elasticEnergyOfPressure
  rw [h1, h2, h3]
  have e1 : dot (fun i => -(f i + σ * t i)) (fun i => D f i + σ * D t i) =
      -(dot f (D f) + σ * dot f (D t) + σ * dot t (D f) + σ ^ 2 * dot t (D t)) := by
    simp only [dot, Finset.mul_sum, ← Finset.sum_add_distrib, ← Finset.sum_neg_distrib]
    apply Finset.sum_congr rfl; intro i _; ring
  have e2 : dot (fun i => -(f i)) (D f) = -dot f (D f) := by
    simp only [dot, ← Finset.sum_neg_distrib]
    apply Finset.sum_congr rfl; intro i _; ring
  have e3 : dot (fun i => -(f i + σ * t i)) b = -(dot f b + σ * dot t b) := by
    simp only [dot, Finset.mul_sum, ← Finset.sum_add_distrib, ← Finset.sum_neg_distrib]
    apply Finset.sum_congr rfl; intro i _; ring
  have e4 : dot (fun i => -(f i)) b = -dot f b := by
    simp only [dot, ← Finset.sum_neg_distrib]
    apply Finset.sum_congr rfl; intro i _; ring
  have e5 : dot (fun i => D f i - b i) t = dot t (D f) - dot t b := by
    simp only [dot, ← Finset.sum_sub_distrib]
    apply Finset.sum_congr rfl; intro i _; ring
  rw [e1, e2, e3, e4, e5, hs]
  ring

/-- **C44.** In every iteration after the first of an elastic run at fixed offset, with `f` the
forces at the start, `t` the search direction and `f'` the forces after line 296 (before clipping):
`f' = f + tau*t`, and no other step along `t` gives a lower dual energy
`½ p·u(p) - p·(h+offset)`.  (In the first iteration the same holds if the initial displacements
belong to the initial forces, hypothesis `hu`.) -/
theorem C44_exact_line_search (hD : ElasticOn P.comp P.disp) (hH : o.hardness = .none)
    (hF : o.externalForce = none) {pentol : K} {k : ℕ} {s : State ι K}
    (hR : Reach P o pentol k s) (hu : k = 0 → s.u = P.disp s.f) :
    (∀ i, (cgBranch P o s).f i = s.f i + (cgBranch P o s).tau * (cgBranch P o s).t i) ∧
    ∀ σ : K, dualEnergy P.disp (fun i => P.h i + o.offset.getD 0)
        (fun i => -((cgBranch P o s).f i)) ≤
      dualEnergy P.disp (fun i => P.h i + o.offset.getD 0)
        (fun i => -(s.f i + σ * (cgBranch P o s).t i)) := by
  have hH' : ∀ i, 0 ≤ o.hardness.at i := by intro i; rw [hH]; exact le_rfl
  have hoff := offZero_reach hH' hR
  have hso := offset_reach hF hR
  have hu' : s.u = P.disp s.f := by
    rcases Nat.eq_zero_or_pos k with h | h
    · exact hu h
    · exact u_reach hR h
  set m := cgBranch P o s with hmdef
  -- the direction vanishes off the contact set
  have ht0 : ∀ i, cgSet o s i = false → m.t i = 0 := by
    intro i hi
    simp only [hmdef, cgBranch, cgDir]
    cases hc : P.comp i with
    | true => simp [hi]
    | false => simpa using (hoff i hc).2
  have hcomp : ∀ i, P.comp i = false → cgSet o s i = false := by
    intro i hi; simp [cgSet, (hoff i hi).1]
  have hf : ∀ i, m.f i = s.f i + m.tau * m.t i := by
    intro i
    change (if cgSet o s i then s.f i + m.tau * m.t i else s.f i) = _
    split_ifs with hc
    · rfl
    · rw [ht0 i (by simpa using hc)]; ring
  refine ⟨hf, fun σ => ?_⟩
  have hfe : (fun i => -(m.f i)) = fun i => -(s.f i + m.tau * m.t i) := by
    funext i; rw [hf]
  have hfz : ∀ i, P.comp i = false → s.f i = 0 := fun i hi => (hoff i hi).1
  have htz0 : ∀ i, P.comp i = false → m.t i = 0 := fun i hi => ht0 i (hcomp i hi)
  rw [hfe, dualEnergy_line hD _ hfz htz0, dualEnergy_line hD _ hfz htz0]
  -- identify the slope and the curvature with what the code computes
  have hmo : m.offset = o.offset.getD 0 := by
    change cgOffset P o s = _
    simp [cgOffset, hF, hso]
  have hslope : dot (fun i => P.disp s.f i - (P.h i + o.offset.getD 0)) m.t =
      sumOver (fun i => cgSet o s i && P.comp i) (fun i => m.g i * m.t i) := by
    unfold dot sumOver
    apply Finset.sum_congr rfl
    intro i _
    have hg : m.g i = s.u i - P.h i - m.offset := rfl
    beta_reduce
    split_ifs with hc
    · rw [hg, hu', hmo]; ring
    · have : cgSet o s i = false := by
        cases h1 : cgSet o s i with
        | false => rfl
        | true =>
          cases h2 : P.comp i with
          | false => rw [hcomp i h2] at h1; simp at h1
          | true => simp [h1, h2] at hc
      rw [ht0 i this]; ring
  have hcurv : dot m.t (P.disp m.t) = sumOver (cgSet o s) (fun i => P.disp m.t i * m.t i) := by
    unfold dot sumOver
    apply Finset.sum_congr rfl
    intro i _
    split_ifs with hc
    · ring
    · rw [ht0 i (by simpa using hc)]; ring
  set y := sumOver (fun i => cgSet o s i && P.comp i) (fun i => m.g i * m.t i) with hy
  set x := -(sumOver (cgSet o s) fun i => P.disp m.t i * m.t i) with hx
  have htau : m.tau = if 0 < count (cgSet o s) ∧ 0 < x then y / x else 0 := rfl
  rw [hslope]
  have hcurv' : dot m.t (P.disp m.t) = -x := by rw [hcurv, hx]; ring
  rw [hcurv']
  by_cases hx0 : 0 < count (cgSet o s) ∧ 0 < x
  · rw [htau, if_pos hx0]
    have hx1 := hx0.2
    have : (-(σ * y) - σ ^ 2 / 2 * -x) - (-(y / x * y) - (y / x) ^ 2 / 2 * -x) =
        x / 2 * (σ - y / x) ^ 2 := by field_simp; ring
    have h3 : 0 ≤ x / 2 * (σ - y / x) ^ 2 := by positivity
    linarith
  · -- the direction is zero
    have htz : ∀ i, m.t i = 0 := by
      by_contra hcon
      push Not at hcon
      have := hD.posdef m.t htz0 hcon
      rw [hcurv'] at this
      apply hx0
      refine ⟨?_, by linarith⟩
      by_contra hcnt
      obtain ⟨i, hi⟩ := hcon
      exact hi (ht0 i (count_eq_zero.1 hcnt i))
    have hy0 : y = 0 := by
      rw [hy]; unfold sumOver; apply Finset.sum_eq_zero; intro i _; simp [htz i]
    have hx0' : x = 0 := by
      rw [hx]; unfold sumOver; simp [htz]
    rw [hy0, hx0']; simp

/-- Corollary of C44 (`σ = 0`): the step before clipping never increases the dual energy. -/
theorem C44_energy_never_increases (hD : ElasticOn P.comp P.disp) (hH : o.hardness = .none)
    (hF : o.externalForce = none) {pentol : K} {k : ℕ} {s : State ι K}
    (hR : Reach P o pentol k s) (hu : k = 0 → s.u = P.disp s.f) :
    dualEnergy P.disp (fun i => P.h i + o.offset.getD 0) (fun i => -((cgBranch P o s).f i)) ≤
      dualEnergy P.disp (fun i => P.h i + o.offset.getD 0) (fun i => -(s.f i)) := by
  have := (C44_exact_line_search hD hH hF hR hu).2 0
  simpa using this

/-! ## C45 -/

theorem dot_neg_left (a b : ι → K) : dot (fun i => -(a i)) b = -dot a b := by
  simp only [dot, ← Finset.sum_neg_distrib]
  apply Finset.sum_congr rfl; intro i _; ring

theorem jac_off (hH : ∀ i, 0 ≤ o.hardness.at i) (h : solve P o = .ok r) :
    ∀ i, P.comp i = false → r.jac i = 0 := by
  unfold solve at h
  cases hs : solveCb P o with
  | error e => rw [hs] at h; simp [Except.map] at h
  | ok rc =>
    rw [hs] at h
    simp only [Except.map, Except.ok.injEq] at h
    obtain ⟨r', cb⟩ := rc
    simp only at h; subst h
    exact (C32_no_force_off_topography hH hs).1

/-- **C45, dual.** If the returned forces are non-negative, vanish off the topography, the gap is
zero at every loaded point and nowhere negative, then they are the unique minimiser of the dual
energy among all non-negative forces on the topography. -/
theorem C45_dual_optimal (hD : ElasticOn P.comp P.disp) (hH : ∀ i, 0 ≤ o.hardness.at i)
    (hsl : ∀ i, P.comp i = true → P.slice i = true) (h : solve P o = .ok r)
    (hpos : ∀ i, 0 ≤ r.jac i)
    (hgap : ∀ i, P.comp i = true → P.h i + r.offset ≤ r.x i)
    (hcontact : ∀ i, r.jac i ≠ 0 → r.x i = P.h i + r.offset) :
    ((∀ i, 0 ≤ r.jac i) ∧ ∀ i, P.comp i = false → r.jac i = 0) ∧
    ∀ q : ι → K, (∀ i, 0 ≤ q i) → (∀ i, P.comp i = false → q i = 0) →
      dualEnergy P.disp (fun i => P.h i + r.offset) r.jac ≤
        dualEnergy P.disp (fun i => P.h i + r.offset) q ∧
      (dualEnergy P.disp (fun i => P.h i + r.offset) q =
        dualEnergy P.disp (fun i => P.h i + r.offset) r.jac → q = r.jac) := by
  refine ⟨⟨hpos, jac_off hH h⟩, ?_⟩
  intro q hq hq0
  have hx := (C33_displacements_are_response hH hsl h).1
  set b : ι → K := fun i => P.h i + r.offset
  have e1 : (fun i => -(-(r.jac i) + 1 * (r.jac i - q i))) = q := by funext i; ring
  have e2 : (fun i => - -(r.jac i)) = r.jac := by funext i; ring
  have hj0 := jac_off hH h
  have hdz : ∀ i, P.comp i = false → r.jac i - q i = 0 := fun i hi => by rw [hj0 i hi, hq0 i hi, sub_zero]
  have hline := dualEnergy_line hD b (f := fun i => -(r.jac i)) (t := fun i => r.jac i - q i) (fun i hi => by rw [hj0 i hi, neg_zero]) hdz 1
  rw [e1, e2, ← hx] at hline
  have hslope : dot (fun i => r.x i - b i) (fun i => r.jac i - q i) ≤ 0 := by
    unfold dot
    apply Finset.sum_nonpos
    intro i _
    beta_reduce
    by_cases hj : r.jac i = 0
    · rw [hj]
      cases hc : P.comp i with
      | true =>
        have := hgap i hc
        have h1 := hq i
        have h2 : 0 ≤ r.x i - b i := sub_nonneg.2 this
        nlinarith
      | false => rw [hq0 i hc]; simp
    · rw [hcontact i hj]; simp [b]
  have hnn : ∀ t : ι → K, (∀ i, P.comp i = false → t i = 0) → dot t (P.disp t) ≤ 0 := by
    intro t htz
    by_cases ht : ∃ i, t i ≠ 0
    · exact (hD.posdef t htz ht).le
    · push Not at ht
      simp [dot, ht]
  constructor
  · have := hnn (fun i => r.jac i - q i) hdz
    rw [hline]; linarith
  · intro heq
    funext i
    by_contra hne
    have := hD.posdef (fun i => r.jac i - q i) hdz ⟨i, fun h0 => hne (sub_eq_zero.1 h0).symm⟩
    rw [hline] at heq
    linarith

/-- **C45, primal.** Under the same conditions, if `evaluate_force` inverts `evaluate_disp`, the
returned displacement field is the unique minimiser of the elastic energy among all fields that do
not penetrate the rigid surface. -/
theorem C45_primal_optimal (hD : ElasticResponse P.disp) (hH : ∀ i, 0 ≤ o.hardness.at i)
    (hsl : ∀ i, P.comp i = true → P.slice i = true)
    (hinv : ∀ v, P.disp (P.force v) = v) (hinv' : ∀ f, P.force (P.disp f) = f)
    (h : solve P o = .ok r)
    (hpos : ∀ i, 0 ≤ r.jac i)
    (hcontact : ∀ i, r.jac i ≠ 0 → r.x i = P.h i + r.offset) :
    ∀ v : ι → K, (∀ i, P.comp i = true → P.h i + r.offset ≤ v i) →
      elasticEnergy P.force r.x ≤ elasticEnergy P.force v ∧
      (elasticEnergy P.force v = elasticEnergy P.force r.x → v = r.x) := by
  intro v hv
  have hx := (C33_displacements_are_response hH hsl h).1
  have hoff := jac_off hH h
  -- forces of the difference field
  set w := P.force v with hw
  have hvw : v = P.disp w := (hinv v).symm
  have hd : P.disp (fun i => w i + r.jac i) = fun i => v i - r.x i := by
    funext i
    rw [hD.add, hx, hvw]
    have := hD.smul (-1) r.jac i
    have e : (fun j => -1 * r.jac j) = fun j => -(r.jac j) := by funext j; ring
    rw [e] at this
    rw [this]; ring
  have hE : elasticEnergy P.force v = elasticEnergy P.force r.x +
      dot r.jac (fun i => v i - r.x i) - dot (fun i => w i + r.jac i)
        (P.disp (fun i => w i + r.jac i)) / 2 := by
    have hfx : P.force r.x = fun i => -(r.jac i) := by rw [hx, hinv']
    have hsym : dot w r.x = -dot r.jac v := by
      have := hD.symm w (fun i => -(r.jac i))
      rw [← hx, ← hvw] at this
      rw [this, dot_neg_left]
    unfold elasticEnergy
    rw [hfx, dot_neg_left, ← hw, hd]
    have e1 : dot r.jac (fun i => v i - r.x i) = dot r.jac v - dot r.jac r.x := by
      simp only [dot, ← Finset.sum_sub_distrib]
      apply Finset.sum_congr rfl; intro i _; ring
    have e2 : dot (fun i => w i + r.jac i) (fun i => v i - r.x i) =
        dot w v - dot w r.x + dot r.jac v - dot r.jac r.x := by
      simp only [dot, ← Finset.sum_sub_distrib, ← Finset.sum_add_distrib]
      apply Finset.sum_congr rfl; intro i _; ring
    rw [e1, e2, hsym]; ring
  have hwork : 0 ≤ dot r.jac (fun i => v i - r.x i) := by
    unfold dot
    apply Finset.sum_nonneg
    intro i _
    beta_reduce
    by_cases hj : r.jac i = 0
    · rw [hj]; simp
    · cases hc : P.comp i with
      | true =>
        rw [hcontact i hj]
        exact mul_nonneg (hpos i) (sub_nonneg.2 (hv i hc))
      | false => exact absurd (hoff i hc) hj
  have hnn : dot (fun i => w i + r.jac i) (P.disp (fun i => w i + r.jac i)) ≤ 0 := by
    by_cases ht : ∃ i, w i + r.jac i ≠ 0
    · exact (hD.posdef _ ht).le
    · push Not at ht
      simp [dot, ht]
  constructor
  · rw [hE]; linarith
  · intro heq
    have hz : ¬ ∃ i, w i + r.jac i ≠ 0 := by
      intro ht
      have := hD.posdef _ ht
      rw [hE] at heq; linarith
    push Not at hz
    rw [hvw, hx]
    congr 1
    funext i
    have := hz i
    linarith

/-! ## C46 -/

/-- **C46 is false of the code.** A per-pixel array hardness (with more than one entry) makes every
call fail: no such call with `maxiter ≥ 1` ever returns a result. -/
theorem C46_array_hardness_fails {H : ι → K} (hH : o.hardness = .array H)
    (hcard : Fintype.card ι ≠ 1) : ¬ ∃ r, solve P o = .ok r := by
  rintro ⟨r, hr⟩
  obtain ⟨pentol, k, s, w, _, hR, hst, _⟩ := solve_spec hr
  obtain ⟨m, hard, _, ht, _⟩ := step_mid hst
  simp [hH, Hardness.truth, hcard] at ht

/-- **C46 (partial).** A scalar hardness never raises at fixed offset: every such call with
`maxiter ≥ 1` and a resolvable `pentol` returns a result. -/
theorem C46_scalar_hardness_partial {H pentol : K} (hH : o.hardness = .scalar H)
    (hF : o.externalForce = none) (hp : pentolOf P o = .ok pentol) (hmax : 1 ≤ o.maxiter) :
    ∃ r, solve P o = .ok r := by
  have hstep : ∀ s, ∃ w, CCG.step P o pentol s = .ok w := by
    intro s
    have hb : ∃ m, branch P o s = .ok m := by
      unfold branch
      split_ifs
      · exact ⟨_, rfl⟩
      · simp only [mixBranch, hF]; exact ⟨_, rfl⟩
    obtain ⟨m, hm⟩ := hb
    exact ⟨_, by simp [CCG.step, hm, hH, Hardness.truth]; rfl⟩
  have hloop : ∀ fuel it s cb prev, (1 ≤ fuel ∨ ∃ w, prev = some w) →
      ∃ x, loop P o pentol fuel it s cb prev = .ok x := by
    intro fuel
    induction fuel with
    | zero =>
      intro it s cb prev h
      rcases h with h | ⟨w, rfl⟩
      · omega
      · exact ⟨_, rfl⟩
    | succ n ih =>
      intro it s cb prev _
      obtain ⟨w, hw⟩ := hstep s
      rw [loop, hw]
      simp only
      split_ifs
      · exact ⟨_, rfl⟩
      · exact ih _ _ _ _ (Or.inr ⟨w, rfl⟩)
  obtain ⟨x, hx⟩ := hloop o.maxiter 0 (initState P o) [] none (Or.inl hmax)
  exact ⟨x.1, by simp [solve, solveCb, hp, hx, Except.map]⟩

/-! ## C47 -/

/-- **C47 (partial).** For a topography with positive rms height the derived tolerance is positive,
whatever the offset, in load and displacement control. -/
theorem C47_default_pentol_partial (hp : o.pentol = none) (hr : 0 < P.rmsHeight)
    (hg : 0 < P.meanGrid) : ∃ p, pentolOf P o = .ok p ∧ 0 < p := by
  have h1 : 0 < P.rmsHeight / (10 * P.meanGrid) := by positivity
  exact ⟨_, by simp only [pentolOf, hp, ne_eq, h1.ne', not_false_eq_true, if_true], h1⟩

/-- **C47 is false of the code (1).** For a flat topography without an offset argument the call
fails with `TypeError` (`None + float`). -/
theorem C47_flat_no_offset_fails (hp : o.pentol = none) (hr : P.rmsHeight = 0)
    (ho : o.offset = none) : solve P o = .error .typeError := by
  simp [solve, solveCb, pentolOf, hp, hr, ho, Except.map]

/-- **C47 is false of the code (2).** For a flat punch whose mean height plus offset is negative
the derived tolerance is negative, and then no run can ever succeed. -/
theorem C47_flat_negative_offset_fails {off : K} (hp : o.pentol = none) (hr : P.rmsHeight = 0)
    (ho : o.offset = some off) (hneg : off + sumOver P.comp P.h / P.nSurf < 0) :
    (∃ p, pentolOf P o = .ok p ∧ p < 0) ∧ ∀ r, solve P o = .ok r → r.success = false := by
  have h1 : (off + sumOver P.comp P.h / P.nSurf) / 1000 < 0 := by
    apply div_neg_of_neg_of_pos hneg; norm_num
  have h2 : pentolOf P o = .ok ((off + sumOver P.comp P.h / P.nSurf) / 1000) := by
    have : ¬ (off + sumOver P.comp P.h / P.nSurf) / 1000 = 0 := h1.ne
    simp only [pentolOf, hp, hr, zero_div, ne_eq, not_true_eq_false, if_false, ho, this,
      not_false_eq_true, if_true]
  refine ⟨⟨_, h2, h1⟩, fun r hr => ?_⟩
  obtain ⟨pentol, k, s, w, hp', hR, hst, rfl, _, _⟩ := solve_spec hr
  rw [h2] at hp'; cases hp'
  obtain ⟨m, hard, hm, _, hw⟩ := step_mid hst
  change w.converged = false
  cases hc : w.converged with
  | false => rfl
  | true =>
    exfalso
    obtain ⟨_, hdu, _⟩ := finish_conv hw hc
    have : 0 ≤ w.maxdu := by
      rw [hw]
      change 0 ≤ maxOver _ _
      unfold maxOver
      split_ifs with hn
      · obtain ⟨i, hi⟩ := hn
        refine le_trans ?_ (Finset.le_sup' _ hi)
        rw [pabs_eq]; exact abs_nonneg _
      · exact le_rfl
    linarith

example : pentolOf { demo ![0, 0, 0] with rmsHeight := 0 } { demoOpt with pentol := none, offset := some (-2) }
    = .ok (-2 / 1000) := by decide +kernel

end general

/-- The demonstration run satisfies the hypotheses of C44 and C45. -/
example : ElasticResponse (prob2 ![6, 10/3]).disp ∧
    Reach (prob2 ![6, 10/3]) (opt2 ![-1, -1/3]) (1/1000) 0
      (initState (prob2 ![6, 10/3]) (opt2 ![-1, -1/3])) ∧
    (initState (prob2 ![6, 10/3]) (opt2 ![-1, -1/3])).u =
      (prob2 ![6, 10/3]).disp (initState (prob2 ![6, 10/3]) (opt2 ![-1, -1/3])).f ∧
    (cgBranch (prob2 ![6, 10/3]) (opt2 ![-1, -1/3])
      (initState (prob2 ![6, 10/3]) (opt2 ![-1, -1/3]))).tau = 1 :=
  ⟨circ2_elastic, Reach.init, by decide +kernel, by decide +kernel⟩

theorem demo_elastic (h : Fin 3 → ℚ) : ElasticResponse (demo h).disp := by
  apply matDisp_elastic
  · intro i j; fin_cases i <;> fin_cases j <;> rfl
  · intro x hx
    rw [Fin.sum_univ_three, Fin.sum_univ_three, Fin.sum_univ_three, Fin.sum_univ_three]
    change 0 < x 0 * (4 * x 0 + 1 * x 1 + 1 * x 2) + x 1 * (1 * x 0 + 4 * x 1 + 1 * x 2) +
      x 2 * (1 * x 0 + 1 * x 1 + 4 * x 2)
    have h1 : 0 < x 0 ^ 2 + x 1 ^ 2 + x 2 ^ 2 := by
      obtain ⟨i, hi⟩ := hx
      have a := sq_nonneg (x 0); have b := sq_nonneg (x 1); have c := sq_nonneg (x 2)
      fin_cases i <;> simp at hi
      · have : 0 < x 0 ^ 2 := by positivity
        linarith
      · have : 0 < x 1 ^ 2 := by positivity
        linarith
      · have : 0 < x 2 ^ 2 := by positivity
        linarith
    nlinarith [sq_nonneg (x 0 + x 1 + x 2)]

/-- C45 applies to the demonstration run: its result is the unique dual optimum. -/
example : ∃ r, solve (demo ![5, 8, 0]) demoOpt = .ok r ∧
    ∀ q : Fin 3 → ℚ, (∀ i, 0 ≤ q i) → (∀ i, (demo ![5, 8, 0]).comp i = false → q i = 0) →
      dualEnergy (demo ![5, 8, 0]).disp (fun i => (demo ![5, 8, 0]).h i + r.offset) r.jac ≤
        dualEnergy (demo ![5, 8, 0]).disp (fun i => (demo ![5, 8, 0]).h i + r.offset) q := by
  obtain ⟨r, cb, h, hs, hj, hx, _, _, _, ho, _⟩ := demo_run
  have h' : solve (demo ![5, 8, 0]) demoOpt = .ok r := by simp [solve, h, Except.map]
  refine ⟨r, h', fun q hq hq0 => ?_⟩
  refine ((C45_dual_optimal ((demo_elastic _).on _) (fun i => le_rfl) (fun i h => h) h' ?_ ?_ ?_).2 q hq hq0).1
  · rw [hj]; intro i; fin_cases i <;> decide
  · rw [hx, ho]; decide +kernel
  · rw [hj, hx, ho]; decide +kernel

end CM.CCG
