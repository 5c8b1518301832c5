import Verif.Model.Bisect
import Verif.Props.CCG9
import Verif.Props.CCG3
import Mathlib.Tactic.FieldSimp
/-!
# C180 plastic contacts under load control
-/
set_option linter.unusedSectionVars false

namespace CM.CCG
open Finset

section bisect
variable {K : Type} [Field K] [LinearOrder K] [IsStrictOrderedRing K]

lemma scipyXtol_pos : (0 : K) < scipyXtol := by unfold scipyXtol; positivity
lemma scipyRtol_pos : (0 : K) < scipyRtol := by unfold scipyRtol; positivity

/-- The loop of the bisection on an interval at whose ends the function has opposite signs. -/
lemma bisectLoop_spec (f : K → K) (fa : K) : ∀ (n : ℕ) (xa dm : K), 0 < fa * f xa → fa * f (xa + dm) < 0 →
    (∃ x, bisectLoop f fa n xa dm = .ok x ∧ (f x = 0 ∨ ∃ y, |y - x| < scipyXtol + scipyRtol * |x| ∧ f x * f y < 0)) ∨
      (bisectLoop f fa n xa dm = .error .runtimeError ∧ (0 < n → scipyXtol * 2 ^ n ≤ |dm|)) := by
  intro n
  induction n with
  | zero => intro xa dm _ _; exact .inr ⟨rfl, fun h => absurd h (lt_irrefl _)⟩
  | succ n ih =>
    intro xa dm h1 h2
    have hfa : fa ≠ 0 := by rintro rfl; simp at h1
    rw [bisectLoop]
    simp only [pabs_eq]
    by_cases h0 : f (xa + dm / 2) = 0
    · rw [if_pos (.inl h0)]
      exact .inl ⟨_, rfl, .inl h0⟩
    have hsame : decide (f (xa + dm / 2) < 0) = decide (fa < 0) ↔ 0 < fa * f (xa + dm / 2) := by
      rw [decide_eq_decide, mul_pos_iff]
      rcases lt_or_gt_of_ne hfa with h | h <;> rcases lt_or_gt_of_ne h0 with h' | h' <;> simp [h, h', h.not_gt, h'.not_gt]
    have hdiff : ¬ 0 < fa * f (xa + dm / 2) → fa * f (xa + dm / 2) < 0 := fun h =>
      lt_of_le_of_ne (not_lt.1 h) (mul_ne_zero hfa h0)
    have e : xa + dm / 2 + dm / 2 = xa + dm := by ring
    by_cases hs : |dm / 2| < scipyXtol + scipyRtol * |xa + dm / 2|
    · rw [if_pos (.inr hs)]
      refine .inl ⟨_, rfl, .inr ?_⟩
      by_cases hc : 0 < fa * f (xa + dm / 2)
      · refine ⟨xa + dm, ?_, ?_⟩
        · rwa [show xa + dm - (xa + dm / 2) = dm / 2 by ring]
        · by_contra hn
          have := mul_nonneg (sq_nonneg fa) (not_lt.1 hn)
          have := mul_neg_of_pos_of_neg hc h2
          nlinarith
      · refine ⟨xa, ?_, ?_⟩
        · rwa [show xa - (xa + dm / 2) = -(dm / 2) by ring, abs_neg]
        · by_contra hn
          have := mul_nonneg (sq_nonneg fa) (not_lt.1 hn)
          have := mul_neg_of_neg_of_pos (hdiff hc) h1
          nlinarith
    · rw [if_neg (by tauto)]
      have hlen : 0 < n → scipyXtol * 2 ^ n ≤ |dm / 2| → scipyXtol * 2 ^ (n + 1) ≤ |dm| := by
        intro _ h
        rw [abs_div, abs_two, le_div_iff₀ (by norm_num)] at h
        rw [pow_succ]; linarith
      have hlast : n = 0 → scipyXtol * 2 ^ (n + 1) ≤ |dm| := by
        rintro rfl
        have h1 : 0 ≤ scipyRtol * |xa + dm / 2| := mul_nonneg scipyRtol_pos.le (abs_nonneg _)
        have h2 := not_lt.1 hs
        rw [abs_div, abs_two, le_div_iff₀ (by norm_num)] at h2
        rw [zero_add, pow_one]; nlinarith
      have hstep := ih (if decide (f (xa + dm / 2) < 0) = decide (fa < 0) then xa + dm / 2 else xa) (dm / 2)
        (by split_ifs with hc
            · exact hsame.1 hc
            · exact h1)
        (by split_ifs with hc
            · rw [e]; exact h2
            · exact hdiff fun h => hc (hsame.2 h))
      rcases hstep with ⟨x, hx, hx2⟩ | ⟨hx, hx2⟩
      · exact .inl ⟨x, hx, hx2⟩
      · refine .inr ⟨hx, fun _ => ?_⟩
        rcases Nat.eq_zero_or_pos n with hn | hn
        · exact hlast hn
        · exact hlen hn (hx2 hn)

/-- **C180** (bisection) The bisection returns a zero or a point next to which the function changes its sign; it raises `ValueError` exactly if the function has the same sign
at both ends, and `RuntimeError` only on intervals longer than `2e-12 * 2 ** 100`. -/
theorem C180_bisect (f : K → K) (a b : K) :
    (∀ x, scipyBisect f a b = .ok x → f x = 0 ∨ ∃ y, |y - x| < 2 / 10 ^ 12 + 1 / 2 ^ 50 * |x| ∧ f x * f y < 0) ∧
    (scipyBisect f a b = .error .valueError ↔ 0 < f a * f b) ∧
    ∀ e, scipyBisect f a b = .error e → e = .valueError ∨ (e = .runtimeError ∧ 2 / 10 ^ 12 * 2 ^ 100 ≤ |b - a|) := by
  unfold scipyBisect
  by_cases ha : f a = 0
  · rw [if_pos ha]
    exact ⟨fun x h => .inl (by cases h; exact ha), by simp [ha], by simp⟩
  rw [if_neg ha]
  by_cases hb : f b = 0
  · rw [if_pos hb]
    exact ⟨fun x h => .inl (by cases h; exact hb), by simp [hb], by simp⟩
  rw [if_neg hb]
  have hs : decide (f a < 0) = decide (f b < 0) ↔ 0 < f a * f b := by
    rw [decide_eq_decide, mul_pos_iff]
    rcases lt_or_gt_of_ne ha with h | h <;> rcases lt_or_gt_of_ne hb with h' | h' <;> simp [h, h', h.not_gt, h'.not_gt]
  by_cases hc : 0 < f a * f b
  · rw [if_pos (hs.2 hc)]
    exact ⟨by simp, by simp [hc], fun e h => .inl (by cases h; rfl)⟩
  · rw [if_neg fun h => hc (hs.1 h)]
    have hneg : f a * f (a + (b - a)) < 0 := by
      rw [add_sub_cancel]; exact lt_of_le_of_ne (not_lt.1 hc) (mul_ne_zero ha hb)
    have hpos : 0 < f a * f a := mul_self_pos.2 ha
    rcases bisectLoop_spec f (f a) 100 a (b - a) hpos hneg with ⟨x, hx, h⟩ | ⟨hx, h⟩
    · rw [hx]
      exact ⟨fun y h' => by cases h'; exact h, by simp [hc], by simp⟩
    · rw [hx]
      exact ⟨by simp, by simp [hc], fun e h' => .inr (by cases h'; exact ⟨rfl, h (by norm_num)⟩)⟩

end bisect

section solver
variable {ι K : Type} [Fintype ι] [Field K] [LinearOrder K] [IsStrictOrderedRing K]
variable {P : Problem ι K} {o : Options ι K} {r : Result ι K}

/-- What the bisection says about the bearing area. -/
lemma bearing {g : ι → K} {c : ι → Bool} {H F a b x : K} (hH : 0 < H)
    (h : scipyBisect (fun x => (count (fun i => c i && decide (g i - x < 0)) : K) * H - F) a b = .ok x) :
    |(#{i | c i = true ∧ g i - x < 0} : K) * H - F| ≤ H * #{i | c i = true ∧ |g i - x| < 2 / 10 ^ 12 + 1 / 2 ^ 50 * |x|} := by
  classical
  have hN : ∀ y, count (fun i => c i && decide (g i - y < 0)) = #{i | c i = true ∧ g i - y < 0} := by
    intro y; unfold count; congr 1; ext i; simp
  have hle : ∀ (y z : K), #{i | c i = true ∧ g i - y < 0} ≤ #{i | c i = true ∧ g i - z < 0} + #{i | c i = true ∧ z ≤ g i ∧ g i < y} := by
    intro y z
    refine le_trans (card_le_card ?_) (card_union_le _ _)
    intro i hi
    simp only [mem_filter, mem_univ, true_and, mem_union] at hi ⊢
    rcases lt_or_ge (g i) z with h | h
    · exact .inl ⟨hi.1, by linarith⟩
    · exact .inr ⟨hi.1, h, by linarith [hi.2]⟩
  simp only [hN] at h
  rcases (C180_bisect _ a b).1 x h with h0 | ⟨y, hy, hs⟩
  · rw [h0, abs_zero]; positivity
  · have hb : ∀ (S : Finset ι), S ⊆ univ.filter (fun i => c i = true ∧ |g i - x| < 2 / 10 ^ 12 + 1 / 2 ^ 50 * |x|) → H * (#S : K) ≤
        H * #{i | c i = true ∧ |g i - x| < 2 / 10 ^ 12 + 1 / 2 ^ 50 * |x|} := fun S hS =>
      mul_le_mul_of_nonneg_left (by exact_mod_cast card_le_card hS) hH.le
    rw [abs_lt] at hy
    rcases mul_neg_iff.1 hs with ⟨p, n⟩ | ⟨n, p⟩
    · rw [abs_of_pos p]
      have h1 : (#{i | c i = true ∧ g i - x < 0} : K) ≤ #{i | c i = true ∧ g i - y < 0} + #{i | c i = true ∧ y ≤ g i ∧ g i < x} := by
        exact_mod_cast hle x y
      have h2 := hb (univ.filter fun i => c i = true ∧ y ≤ g i ∧ g i < x) (by
        intro i hi
        simp only [mem_filter, mem_univ, true_and] at hi ⊢
        refine ⟨hi.1, ?_⟩
        rw [abs_lt]; constructor <;> linarith [hi.2.1, hi.2.2])
      have h3 := mul_le_mul_of_nonneg_right h1 hH.le
      linarith
    · rw [abs_of_neg n]
      have h1 : (#{i | c i = true ∧ g i - y < 0} : K) ≤ #{i | c i = true ∧ g i - x < 0} + #{i | c i = true ∧ x ≤ g i ∧ g i < y} := by
        exact_mod_cast hle y x
      have h2 := hb (univ.filter fun i => c i = true ∧ x ≤ g i ∧ g i < y) (by
        intro i hi
        simp only [mem_filter, mem_univ, true_and] at hi ⊢
        refine ⟨hi.1, ?_⟩
        rw [abs_lt]; constructor <;> linarith [hi.2.1, hi.2.2])
      have h3 := mul_le_mul_of_nonneg_right h1 hH.le
      linarith

/-- The offset of a mixing step under load control. -/
lemma mix_offset {s : State ι K} {m : Mid ι K} {H F : K} (hH : o.hardness = .scalar H) (hF : o.externalForce = some F)
    (h : mixBranch P o s = .ok m) :
    o.bisect (fun x => (count (fun i => P.comp i && decide (s.u i - P.h i - x < 0)) : K) * H - F)
      (maxOver P.comp fun i => s.u i - P.h i) (minOver P.comp fun i => s.u i - P.h i) = .ok m.offset ∧
    (m.g = fun i => s.u i - P.h i - m.offset) := by
  unfold mixBranch at h
  simp only [hF, hH] at h
  split at h
  · cases h
  · next off hoff =>
    simp only [Except.ok.injEq] at h
    subst h
    exact ⟨hoff, rfl⟩

/-- **C180** (bearing area) A calculation with hardness `H` under the load `F` that has converged while mixing forces (the status written to the log): the points reported
as plastic are those that penetrate the rigid surface -- all that penetrate by the penetration tolerance and none that is separated by it -- and, each
carrying the hardness, they carry the load, up to those points that are within the tolerances of touching. -/
theorem C180_bearing_area {H F pentol : K} (hb : o.bisect = scipyBisect) (hH : o.hardness = .scalar H) (h0 : 0 < H)
    (hF : o.externalForce = some F) (hsl : ∀ i, P.comp i = true → P.slice i = true) (hp : pentolOf P o = .ok pentol)
    (h : solve P o = .ok r) (hs : r.success = true) (hm : r.status = .mix) :
    ∃ q, r.plastic = some q ∧
      (∀ i, q i = true → P.comp i = true ∧ r.x i - P.h i - r.offset < pentol) ∧
      (∀ i, P.comp i = true → r.x i - P.h i - r.offset ≤ -pentol → q i = true) ∧
      |(#{i | q i = true} : K) * H - F| ≤
        H * #{i | P.comp i = true ∧ |r.x i - P.h i - r.offset| < pentol + (2 / 10 ^ 12 + 1 / 2 ^ 50 * |r.offset|)} := by
  obtain ⟨pt, k, s, w, hp', -, hst, rfl, -⟩ := solve_spec h
  rw [hp] at hp'
  cases hp'
  obtain ⟨m, hard, hbr, -, rfl⟩ := step_mid hst
  have hconv : (finish P o pentol s m hard).converged = true := hs
  obtain ⟨-, hdu, -⟩ := finish_conv rfl hconv
  have hmix : m.status = .mix := by
    by_contra hne
    have : stepStatus P o m = .mix := hm
    unfold stepStatus at this
    rw [if_neg hne] at this
    split_ifs at this
  have hd : ∀ i, |(P.disp (stepForce P o m)) i - s.u i| < pentol := by
    intro i
    refine lt_of_le_of_lt ?_ hdu
    show _ ≤ maxOver (fun _ => true) fun i => pabs (P.disp (stepForce P o m) i - s.u i)
    rw [← pabs_eq]
    exact le_maxOver (p := fun _ => true) (a := fun i => pabs (P.disp (stepForce P o m) i - s.u i)) rfl
  rcases branch_cases hbr with ⟨-, rfl⟩ | ⟨-, hmx⟩
  · exfalso
    simp only [cgBranch] at hmix
    split_ifs at hmix
    contradiction
  obtain ⟨hoff, hg⟩ := mix_offset hH hF hmx
  rw [hb] at hoff
  have hbear := bearing (g := fun i => s.u i - P.h i) h0 hoff
  refine ⟨fun i => P.slice i && P.comp i && decide (m.g i < 0), ?_, ?_, ?_, ?_⟩
  · show (if (finish P o pentol s m hard).converged = true ∧ o.hardness.isSome = true then _ else _) = _
    rw [if_pos ⟨hconv, by rw [hH]; rfl⟩]
    rfl
  · intro i hi
    simp only [hg, Bool.and_eq_true, decide_eq_true_eq] at hi
    refine ⟨hi.1.2, ?_⟩
    show P.disp (stepForce P o m) i - P.h i - m.offset < pentol
    linarith [(abs_lt.1 (hd i)).2, hi.2]
  · intro i hc hi
    have hi' : P.disp (stepForce P o m) i - P.h i - m.offset ≤ -pentol := hi
    simp only [hg, Bool.and_eq_true, decide_eq_true_eq]
    exact ⟨⟨hsl i hc, hc⟩, by linarith [(abs_lt.1 (hd i)).1]⟩
  · have e : (univ.filter fun i => (P.slice i && P.comp i && decide (m.g i < 0)) = true) =
        univ.filter fun i => P.comp i = true ∧ s.u i - P.h i - m.offset < 0 := by
      ext i
      simp only [hg, mem_filter, mem_univ, true_and, Bool.and_eq_true, decide_eq_true_eq]
      exact ⟨fun h => ⟨h.1.2, h.2⟩, fun h => ⟨⟨hsl i h.1, h.1⟩, h.2⟩⟩
    rw [e]
    refine le_trans hbear (mul_le_mul_of_nonneg_left ?_ h0.le)
    have : (univ.filter fun i => P.comp i = true ∧ |s.u i - P.h i - m.offset| < 2 / 10 ^ 12 + 1 / 2 ^ 50 * |m.offset|) ⊆
        univ.filter fun i => P.comp i = true ∧ |P.disp (stepForce P o m) i - P.h i - m.offset| < pentol + (2 / 10 ^ 12 + 1 / 2 ^ 50 * |m.offset|) := by
      intro i hi
      simp only [mem_filter, mem_univ, true_and] at hi ⊢
      refine ⟨hi.1, ?_⟩
      have h1 := abs_lt.1 (hd i)
      have h2 := abs_lt.1 hi.2
      rw [abs_lt]; constructor <;> linarith [h1.1, h1.2, h2.1, h2.2]
    exact_mod_cast card_le_card this

/-- A run that raises does so in some iteration. -/
lemma loop_error {pentol : K} : ∀ (fuel it : ℕ) (s : State ι K) (cb : List (ℕ × (ι → K))) (prev : Option (StepOut ι K)) (e : PyErr),
    Reach P o pentol it s → (prev = none → 0 < fuel) → loop P o pentol fuel it s cb prev = .error e →
    ∃ k s', Reach P o pentol k s' ∧ CCG.step P o pentol s' = .error e := by
  intro fuel
  induction fuel with
  | zero =>
    intro it s cb prev e _ hp h
    cases prev with
    | none => exact absurd (hp rfl) (lt_irrefl _)
    | some w => simp [loop] at h
  | succ fuel ih =>
    intro it s cb prev e hR _ h
    rw [loop] at h
    cases hst : CCG.step P o pentol s with
    | error e' =>
      rw [hst] at h
      simp only [Except.error.injEq] at h
      subst h
      exact ⟨it, s, hR, hst⟩
    | ok w =>
      rw [hst] at h
      by_cases hc : w.converged = true
      · simp [hc] at h
      · have hc' : w.converged = false := by simpa using hc
        simp only [hc', Bool.false_eq_true, if_false] at h
        exact ih _ _ _ _ e (Reach.step hR hst hc') (by simp) h

lemma solve_error {pentol : K} {e : PyErr} (hp : pentolOf P o = .ok pentol) (hmax : 1 ≤ o.maxiter) (h : solve P o = .error e) :
    ∃ k s, Reach P o pentol k s ∧ CCG.step P o pentol s = .error e := by
  unfold solve solveCb at h
  rw [hp] at h
  cases hl : loop P o pentol o.maxiter 0 (initState P o) [] none with
  | ok x => simp only [hl, Except.map] at h; cases h
  | error e' =>
    simp only [hl, Except.map, Except.error.injEq] at h
    subst h
    exact loop_error _ _ _ _ _ _ Reach.init (fun _ => hmax) hl

lemma maxOver_attained {p : ι → Bool} {a : ι → K} (h : ∃ i, p i = true) : ∃ i, p i = true ∧ maxOver p a = a i := by
  have hn : (univ.filter fun i => p i = true).Nonempty := by
    obtain ⟨i, hi⟩ := h
    exact ⟨i, by simpa using hi⟩
  obtain ⟨i, hi, e⟩ := exists_mem_eq_sup' hn a
  refine ⟨i, by simpa using hi, ?_⟩
  unfold maxOver
  rw [dif_pos hn, e]

lemma minOver_attained {p : ι → Bool} {a : ι → K} (h : ∃ i, p i = true) : (∃ i, p i = true ∧ minOver p a = a i) ∧
    ∀ i, p i = true → minOver p a ≤ a i := by
  have hn : (univ.filter fun i => p i = true).Nonempty := by
    obtain ⟨i, hi⟩ := h
    exact ⟨i, by simpa using hi⟩
  obtain ⟨i, hi, e⟩ := exists_mem_eq_inf' hn a
  constructor
  · refine ⟨i, by simpa using hi, ?_⟩
    unfold minOver
    rw [dif_pos hn, e]
  · intro j hj
    unfold minOver
    rw [dif_pos hn]
    exact inf'_le _ (by simpa using hj)

/-- A mixing step under load raises `ValueError` exactly if the points that are not the most distant ones cannot carry the load. -/
lemma mix_raises {s : State ι K} {H F : K} (hb : o.bisect = scipyBisect) (hH : o.hardness = .scalar H) (hF : o.externalForce = some F)
    (hF0 : 0 < F) (hne : ∃ i, P.comp i = true) {e : PyErr} (h : mixBranch P o s = .error e) :
    (e = .valueError ∧ ∃ j, P.comp j = true ∧ (∀ i, P.comp i = true → s.u i - P.h i ≤ s.u j - P.h j) ∧
      (#{i | P.comp i = true ∧ s.u i - P.h i < s.u j - P.h j} : K) * H < F) ∨
    (e = .runtimeError ∧ ∃ i j, P.comp i = true ∧ P.comp j = true ∧ 2 / 10 ^ 12 * 2 ^ 100 ≤ (s.u j - P.h j) - (s.u i - P.h i)) := by
  unfold mixBranch at h
  simp only [hF, hH, hb] at h
  obtain ⟨j, hj, ej⟩ := maxOver_attained (a := fun i => s.u i - P.h i) hne
  obtain ⟨⟨k, hk, ek⟩, hmin⟩ := minOver_attained (a := fun i => s.u i - P.h i) hne
  have hmax : ∀ i, P.comp i = true → s.u i - P.h i ≤ s.u j - P.h j := fun i hi => by
    have := le_maxOver (a := fun i => s.u i - P.h i) hi
    rwa [ej] at this
  rw [ej, ek] at h
  have hmin' : ∀ i, P.comp i = true → s.u k - P.h k ≤ s.u i - P.h i := fun i hi => by rw [← ek]; exact hmin i hi
  split at h
  · next e' he =>
    simp only [Except.error.injEq] at h
    subst h
    have hspec := C180_bisect (fun x => (count (fun i => P.comp i && decide (s.u i - P.h i - x < 0)) : K) * H - F) (s.u j - P.h j) (s.u k - P.h k)
    rcases hspec.2.2 _ he with rfl | ⟨rfl, hlen⟩
    · refine .inl ⟨rfl, j, hj, hmax, ?_⟩
      have h1 := hspec.2.1.1 he
      have hN : ∀ y, count (fun i => P.comp i && decide (s.u i - P.h i - y < 0)) = #{i | P.comp i = true ∧ s.u i - P.h i < y} := by
        intro y; unfold count; congr 1; ext i; simp
      simp only [hN] at h1
      have hz : #{i | P.comp i = true ∧ s.u i - P.h i < s.u k - P.h k} = 0 := by
        rw [card_eq_zero, filter_eq_empty_iff]
        rintro i - ⟨hi, hlt⟩
        exact absurd (hmin' i hi) (not_le.2 hlt)
      rw [hz] at h1
      by_contra hn
      have := mul_nonneg (sub_nonneg.2 (not_lt.1 hn)) hF0.le
      push_cast at h1
      nlinarith
    · refine .inr ⟨rfl, k, j, hk, hj, ?_⟩
      rw [abs_sub_comm, abs_of_nonneg (by linarith [hmax k hk])] at hlen
      exact hlen
  · cases h

/-- **C180** (exceptions) With a hardness `H` and under a positive load `F` the solver raises nothing but `ValueError` and `RuntimeError`, and only in an iteration that starts
from displacements `u` (after `k` iterations) where, respectively, the points that are not the most distant ones of the gap `u - h` cannot carry the load although each carries the hardness, or
the gap varies by more than `2e-12 * 2 ** 100`. -/
theorem C180_raises {H F pentol : K} (hb : o.bisect = scipyBisect) (hH : o.hardness = .scalar H)
    (hF : o.externalForce = some F) (hF0 : 0 < F) (hne : ∃ i, P.comp i = true) (hp : pentolOf P o = .ok pentol) (hmax : 1 ≤ o.maxiter)
    {e : PyErr} (h : solve P o = .error e) :
    ∃ k s, Reach P o pentol k s ∧
      ((e = .valueError ∧ ∃ j, P.comp j = true ∧ (∀ i, P.comp i = true → s.u i - P.h i ≤ s.u j - P.h j) ∧
        (#{i | P.comp i = true ∧ s.u i - P.h i < s.u j - P.h j} : K) * H < F) ∨
      (e = .runtimeError ∧ ∃ i j, P.comp i = true ∧ P.comp j = true ∧ 2 / 10 ^ 12 * 2 ^ 100 ≤ (s.u j - P.h j) - (s.u i - P.h i))) := by
  obtain ⟨k, s, hR, hst⟩ := solve_error hp hmax h
  refine ⟨k, s, hR, ?_⟩
  unfold CCG.step at hst
  cases hbr : branch P o s with
  | error e' =>
    rw [hbr] at hst
    simp only [Except.error.injEq] at hst
    subst hst
    unfold branch at hbr
    split_ifs at hbr
    exact mix_raises hb hH hF hF0 hne hbr
  | ok m =>
    rw [hbr, hH] at hst
    simp [Hardness.truth] at hst

/-- **C180** (refuted) A surface that does not rise above the undeformed substrate cannot be loaded by `F` if its points above the lowest ones cannot carry `F` at the
hardness: the solver raises `ValueError` in the first iteration, although in contact with the lowest points too the surface could carry it. -/
theorem C180_low_surface_partial {H F pentol : K} (hb : o.bisect = scipyBisect) (hH : o.hardness = .scalar H)
    (hF : o.externalForce = some F) (hF0 : 0 < F) (hp : pentolOf P o = .ok pentol) (hmax : 1 ≤ o.maxiter)
    (hdisp : P.force (fun _ => 0) = fun _ => 0) (hi : o.initialForces = none) (hd : o.initialDisplacements = none)
    (hlow : ∀ i, P.comp i = true → P.h i + o.offset.getD 0 ≤ 0) {j : ι} (hj : P.comp j = true) (hjm : ∀ i, P.comp i = true → P.h j ≤ P.h i)
    (hbear : (#{i | P.comp i = true ∧ P.h j < P.h i} : K) * H < F) :
    solve P o = .error .valueError := by
  have hU : initU P o = fun _ => 0 := by
    funext i
    simp only [initU, hd, Option.getD_none]
    split_ifs with h1 h2
    · exact absurd h2 (not_lt.2 (hlow i h1))
    · rfl
    · rfl
  have hf : (initState P o).f = fun _ => 0 := by simp [initState, hi, hU, hdisp]
  have hu : (initState P o).u = fun _ => 0 := by simp [initState, hi, hU]
  have hcg : doCG o (initState P o) = false := by
    have : count (contact (initState P o)) = 0 := by
      unfold count contact; rw [hf]; simp
    simp [doCG, this, hH, Hardness.isSome]
  have hmx : maxOver P.comp (fun i => (initState P o).u i - P.h i) = -P.h j := by
    obtain ⟨k, hk, e⟩ := maxOver_attained (a := fun i => (initState P o).u i - P.h i) ⟨j, hj⟩
    refine le_antisymm ?_ ?_
    · rw [e, hu]; simp only [zero_sub, neg_le_neg_iff]; exact hjm k hk
    · have := le_maxOver (a := fun i => (initState P o).u i - P.h i) hj
      rw [hu] at this ⊢
      simpa using this
  have hval : mixBranch P o (initState P o) = .error .valueError := by
    unfold mixBranch
    simp only [hF, hH, hb]
    rw [hmx]
    obtain ⟨⟨k, hk, e⟩, hmin⟩ := minOver_attained (a := fun i => (initState P o).u i - P.h i) ⟨j, hj⟩
    rw [e]
    rw [((C180_bisect (fun x => (count (fun i => P.comp i && decide ((initState P o).u i - P.h i - x < 0)) : K) * H - F) (-P.h j)
      ((initState P o).u k - P.h k)).2.1).2 ?_]
    have hN : ∀ y, count (fun i => P.comp i && decide ((initState P o).u i - P.h i - y < 0)) = #{i | P.comp i = true ∧ -P.h i < y} := by
      intro y; unfold count; congr 1; ext i; simp [hu]
    simp only [hN]
    have hz : #{i | P.comp i = true ∧ -P.h i < (initState P o).u k - P.h k} = 0 := by
      rw [card_eq_zero, filter_eq_empty_iff]
      rintro i - ⟨hi, hlt⟩
      have := hmin i hi
      rw [e, hu] at this
      rw [hu] at hlt
      simp only [zero_sub] at this hlt
      exact absurd this (not_le.2 hlt)
    rw [hz]
    have h1 : (#{i | P.comp i = true ∧ -P.h i < -P.h j} : K) * H - F < 0 := by
      simpa only [neg_lt_neg_iff, sub_neg] using hbear
    have : ((0 : ℕ) : K) * H - F < 0 := by simpa using hF0
    exact mul_pos_of_neg_of_neg h1 this
  have hst : CCG.step P o pentol (initState P o) = .error .valueError := by
    unfold CCG.step branch
    rw [hcg]
    simp only [Bool.false_eq_true, if_false, hval]
  obtain ⟨n, hn⟩ := Nat.exists_eq_succ_of_ne_zero (Nat.one_le_iff_ne_zero.1 hmax)
  unfold solve solveCb
  rw [hp, hn]
  simp only [loop, hst, Except.map]

end solver

/-- Two springs of hardness 1 under the load 1, first from the height `0` and `-1`, pressed by bisection. -/
def opt180 : Options (Fin 2) ℚ :=
  { opt2 ![0, 0] with hardness := .scalar 1, externalForce := some 1, pentol := some 2, initialForces := none, bisect := scipyBisect }

/-- A run that converges while mixing, one plastic point carrying the load: hypotheses of `C180_bearing_area`. -/
example : ∃ r, solve (springs ![0, -1]) opt180 = .ok r ∧ r.success = true ∧ r.status = .mix ∧ r.offset = 1 ∧ r.jac 0 = 1 := by
  obtain ⟨w, h, hw⟩ := loop_last (P := springs ![0, -1]) (o := opt180) (p := 2)
    (s := initState (springs ![0, -1]) opt180) (q := fun w => decide (w.next.f 0 = -1 ∧ w.next.status = .mix ∧ w.next.offset = 1))
    (by decide +kernel) 99999 0 [] none
  have h0 : solveCb (springs ![0, -1]) opt180 =
      loop (springs ![0, -1]) opt180 2 (99999 + 1) 0 (initState (springs ![0, -1]) opt180) [] none := rfl
  simp only [decide_eq_true_eq] at hw
  refine ⟨mkResult (springs ![0, -1]) opt180 1 true w, ?_, rfl, hw.2.1, hw.2.2, ?_⟩
  · unfold solve; rw [h0, h]; rfl
  · simp [mkResult, springs, hw.1]

/-- Bisection proper: `3 * #{g < x} - 2` on three points with gaps `0`, `1`, `1`. -/
example : ∃ x : ℚ, scipyBisect (fun x => ((if 0 < x then 1 else 0) + (if 1 < x then 2 else 0)) * 3 - 2) 1 0 = .ok x ∧ |x| < 1 / 10 ^ 6 := by
  refine ⟨1 / 2 ^ 39, by decide +kernel, by norm_num⟩

/-- The flat surface of height zero cannot be loaded, at any hardness: `C180_low_surface_partial`. -/
example : solve (springs ![0, 0]) opt180 = .error .valueError :=
  C180_low_surface_partial (H := 1) (F := 1) (pentol := 2) (j := 0) rfl rfl rfl (by norm_num) rfl (by decide)
    (by funext i; simp [springs, matDisp]) rfl rfl (by intro i _; fin_cases i <;> simp [springs, opt180, opt2]) rfl
    (by intro i _; fin_cases i <;> simp [springs]) (by decide +kernel)

end CM.CCG
