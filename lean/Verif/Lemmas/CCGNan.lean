import Verif.Spec.NanInputs
import Mathlib.Tactic.Ring
/-!
Arithmetic with `nan`, and one iteration of the solver.
-/
namespace CM.CCG
namespace PyFloat

theorem isNum_num (x : ℝ) : (num x).IsNum := ⟨x, rfl⟩
theorem not_isNum_nan : ¬ nan.IsNum := by rintro ⟨r, h⟩; cases h
theorem eq_nan {x : PyFloat} (h : ¬ x.IsNum) : x = nan := by
  cases x with
  | num r => exact absurd ⟨r, rfl⟩ h
  | nan => rfl
theorem isNum_zero : (0 : PyFloat).IsNum := ⟨0, rfl⟩
theorem isNum_of_ne {x : PyFloat} (h : x ≠ nan) : x.IsNum := by
  cases x with
  | num r => exact ⟨r, rfl⟩
  | nan => exact absurd rfl h

@[simp] theorem nan_add (x : PyFloat) : nan + x = nan := rfl
@[simp] theorem add_nan (x : PyFloat) : x + nan = nan := by cases x <;> rfl
@[simp] theorem nan_sub (x : PyFloat) : nan - x = nan := rfl
@[simp] theorem sub_nan (x : PyFloat) : x - nan = nan := by cases x <;> rfl
@[simp] theorem nan_mul (x : PyFloat) : nan * x = nan := rfl
@[simp] theorem mul_nan (x : PyFloat) : x * nan = nan := by cases x <;> rfl
@[simp] theorem nan_div (x : PyFloat) : nan / x = nan := rfl
@[simp] theorem div_nan (x : PyFloat) : x / nan = nan := by cases x <;> rfl
@[simp] theorem neg_nan : -nan = nan := rfl
@[simp] theorem abs_nan : nan.abs = nan := rfl
@[simp] theorem mask_nan (b : Bool) : nan.mask b = nan := rfl
@[simp] theorem sqrt_nan : nan.sqrt = nan := rfl
@[simp] theorem nan_lt (x : PyFloat) : nan.lt x = false := rfl
@[simp] theorem lt_nan (x : PyFloat) : x.lt nan = false := by cases x <;> rfl
@[simp] theorem nan_le (x : PyFloat) : nan.le x = false := rfl
@[simp] theorem le_nan (x : PyFloat) : x.le nan = false := by cases x <;> rfl
@[simp] theorem ne0_nan : nan.ne0 = true := rfl
@[simp] theorem num_add (x y : ℝ) : num x + num y = num (x + y) := rfl
@[simp] theorem num_sub (x y : ℝ) : num x - num y = num (x - y) := rfl
@[simp] theorem num_mul (x y : ℝ) : num x * num y = num (x * y) := rfl
@[simp] theorem neg_num (x : ℝ) : -num x = num (-x) := rfl
@[simp] theorem mask_num (b : Bool) (x : ℝ) : (num x).mask b = num (if b then x else 0) := rfl
theorem zero_def : (0 : PyFloat) = num 0 := rfl
theorem one_def : (1 : PyFloat) = num 1 := rfl
theorem num_div {x y : ℝ} (h : y ≠ 0) : num x / num y = num (x / y) := by
  change (if y = 0 then nan else num (x / y)) = _
  rw [if_neg h]

theorem isNum_of_lt {x y : PyFloat} (h : x.lt y = true) : x.IsNum := by
  cases x with
  | num r => exact ⟨r, rfl⟩
  | nan => simp at h
theorem isNum_abs {x : PyFloat} (h : x.abs.IsNum) : x.IsNum := isNum_of_ne fun e => by subst e; exact not_isNum_nan h
theorem isNum_sub {x y : PyFloat} (h : (x - y).IsNum) : x.IsNum ∧ y.IsNum :=
  ⟨isNum_of_ne fun e => by subst e; exact not_isNum_nan h, isNum_of_ne fun e => by subst e; simp [not_isNum_nan] at h⟩
theorem isNum_neg {x : PyFloat} (h : x.IsNum) : (-x).IsNum := by obtain ⟨r, rfl⟩ := h; exact ⟨-r, rfl⟩
theorem isNum_mul {x y : PyFloat} (h : x.IsNum) (h' : y.IsNum) : (x * y).IsNum := by
  obtain ⟨r, rfl⟩ := h; obtain ⟨s, rfl⟩ := h'; exact ⟨r * s, rfl⟩

end PyFloat

open PyFloat
variable {ι : Type} [Fintype ι]

theorem fsum_nan {p : ι → Bool} {a : ι → PyFloat} {i : ι} (hi : p i = true) (h : a i = nan) : fsum p a = nan := by
  unfold fsum
  rw [if_neg]
  intro h'
  have := h' i hi
  rw [h] at this
  exact not_isNum_nan this

theorem fsum_isNum {p : ι → Bool} {a : ι → PyFloat} (h : ∀ i, p i = true → (a i).IsNum) : (fsum p a).IsNum := by
  unfold fsum; rw [if_pos h]; exact ⟨_, rfl⟩

theorem fmax_isNum {p : ι → Bool} {a : ι → PyFloat} (h : (fmax p a).IsNum) : ∀ i, p i = true → (a i).IsNum := by
  unfold fmax at h
  split_ifs at h with h'
  · exact h'
  · exact absurd h not_isNum_nan

namespace Nan

variable {P : Problem ι PyFloat} {o : Options ι PyFloat} {pentol : PyFloat} {s : State ι PyFloat} {w : StepOut ι PyFloat}

theorem step_mid (h : step P o pentol s = .ok w) :
    ∃ m : Mid ι PyFloat, ∃ hard : Bool, branch P o s = .ok m ∧ hardTruth o = .ok hard ∧ w = finish P o pentol s m hard := by
  unfold step at h
  cases hm : branch P o s with
  | error e => rw [hm] at h; simp at h
  | ok m =>
    rw [hm] at h
    simp only at h
    cases ht : hardTruth o with
    | error e => rw [ht] at h; simp at h
    | ok hard =>
      rw [ht] at h
      simp only [Except.ok.injEq] at h
      exact ⟨m, hard, rfl, rfl, h.symm⟩

theorem status_ne_mix {m : Mid ι PyFloat} (hm : branch P o s = .ok m) (h : stepStatus P o m ≠ .mix) : m = cgBranch P o s := by
  unfold branch at hm
  by_cases hd : doCG o s = true
  · rw [if_pos hd] at hm
    simpa using hm.symm
  · rw [if_neg hd] at hm
    exfalso
    apply h
    unfold mixBranch at hm
    simp only at hm
    split at hm
    · simp at hm
    · simp only [Except.ok.injEq] at hm
      subst hm
      simp [stepStatus]

/-- A `nan` in the force stays. -/
theorem stepForce_nan {m : Mid ι PyFloat} {i : ι} (hi : P.comp i = true) (h : m.f i = nan) : stepForce P o m i = nan := by
  have h1 : clip m i = nan := by simp [clip, tensile, h]
  have h2 : rescale P o (clip m) i = nan := by
    unfold rescale
    cases o.externalForce with
    | none => exact h1
    | some F =>
      simp only
      rw [fsum_nan hi h1]
      simp
  have h3 : truncate o m (rescale P o (clip m)) i = nan := by simp [truncate, flowing, h, h2]
  unfold stepForce addContact
  split_ifs
  · rw [h3, nan_add]
  · exact h3

/-- A `nan` in the gap reaches the force. -/
theorem cg_force_nan {i : ι} (hi : P.comp i = true)
    (h : s.f i = nan ∨ s.u i - P.h i - cgOffset P o s = nan) : (cgBranch P o s).f i = nan := by
  rcases h with h | h
  · simp [cgBranch, h]
  · simp only [cgBranch, cgDir, hi, if_true, h]
    split_ifs <;> simp

/-- What a success tells. -/
theorem finish_conv {m : Mid ι PyFloat} {hard : Bool} (hc : (finish P o pentol s m hard).converged = true) :
    (finish P o pentol s m hard).maxdu.IsNum := by
  simp only [finish, Bool.and_eq_true] at hc ⊢
  have h3 := hc.2
  by_cases hs : stepStatus P o m = .mix
  · rw [if_pos hs] at h3
    simp only [Bool.and_eq_true] at h3
    exact isNum_of_lt h3.1.1
  · rw [if_neg hs] at h3
    simp only [Bool.and_eq_true] at h3
    exact isNum_of_lt h3.1.1.2

theorem maxdu_isNum {m : Mid ι PyFloat} {hard : Bool} (hc : (finish P o pentol s m hard).maxdu.IsNum) (i : ι) :
    ((finish P o pentol s m hard).next.u i).IsNum ∧ (s.u i).IsNum := by
  exact isNum_sub (isNum_abs (fmax_isNum hc i rfl))

/-- Every result comes from an iteration. -/
theorem loop_spec : ∀ (fuel it : ℕ) (s : State ι PyFloat) (prev : Option (StepOut ι PyFloat)) (r : Result ι PyFloat),
    (∀ w, prev = some w → ∃ s, step P o pentol s = .ok w) → loop P o pentol fuel it s prev = .ok r →
    ∃ s' w n, step P o pentol s' = .ok w ∧ ((r = mkResult P o n true w ∧ w.converged = true) ∨ r = mkResult P o n false w) := by
  intro fuel
  induction fuel with
  | zero =>
    intro it s prev r hp h
    cases prev with
    | none => simp [loop] at h
    | some w =>
      simp only [loop, Except.ok.injEq] at h
      obtain ⟨s', hs⟩ := hp w rfl
      exact ⟨s', w, it, hs, Or.inr h.symm⟩
  | succ n ih =>
    intro it s prev r hp h
    rw [loop] at h
    cases hst : step P o pentol s with
    | error e => rw [hst] at h; simp at h
    | ok w =>
      rw [hst] at h
      simp only at h
      split_ifs at h with hc hn
      · simp only [Except.ok.injEq] at h
        exact ⟨s, w, it + 1, hst, Or.inl ⟨h.symm, hc⟩⟩
      · exact ih (it + 1) w.next (some w) r (by rintro w' hw'; cases hw'; exact ⟨s, hst⟩) h

theorem solve_spec {r : Result ι PyFloat} (h : solve P o = .ok r) (hs : r.success = true) :
    ∃ pentol s w n, step P o pentol s = .ok w ∧ r = mkResult P o n true w ∧ w.converged = true := by
  unfold solve at h
  cases hp : pentolOf P o with
  | error e => rw [hp] at h; simp at h
  | ok pentol =>
    rw [hp] at h
    obtain ⟨s, w, n, h1, h2⟩ := loop_spec _ _ _ _ _ (by simp) h
    rcases h2 with ⟨h2, h3⟩ | h2
    · exact ⟨pentol, s, w, n, h1, h2, h3⟩
    · rw [h2] at hs; simp [mkResult] at hs

end Nan
end CM.CCG
