import Verif.Spec.Rounding
import Mathlib.Algebra.BigOperators.Fin
/-!
The example arithmetics meet the conditions of `Spec/Rounding`.
-/
namespace CM.CCG.Arith
open Finset

theorem chopPos_le {p : ℕ} {x : ℝ} : chopPos p x ≤ x := by
  unfold chopPos
  have h : (0 : ℝ) < 2 ^ (Int.log 2 x - p) := zpow_pos (by norm_num) _
  calc _ ≤ x / 2 ^ (Int.log 2 x - p) * 2 ^ (Int.log 2 x - p) := by
        apply mul_le_mul_of_nonneg_right (Int.floor_le _) h.le
    _ = x := by field_simp

theorem le_chopPos {p : ℕ} {x : ℝ} (hx : 0 < x) : (2 : ℝ) ^ Int.log 2 x ≤ chopPos p x := by
  unfold chopPos
  have h : (0 : ℝ) < 2 ^ (Int.log 2 x - p) := zpow_pos (by norm_num) _
  have h1 : ((2 : ℝ) ^ Int.log 2 x) ≤ x := by
    have := Int.zpow_log_le_self (b := 2) (by norm_num) hx
    exact_mod_cast this
  have h2 : (2 : ℝ) ^ Int.log 2 x = ((2 ^ p : ℤ) : ℝ) * 2 ^ (Int.log 2 x - p) := by
    rw [zpow_sub₀ (by norm_num)]; push_cast; field_simp; simp
  have h3 : ((2 ^ p : ℤ) : ℝ) ≤ (⌊x / 2 ^ (Int.log 2 x - p)⌋ : ℝ) := by
    apply Int.cast_le.2
    apply Int.le_floor.2
    rw [le_div_iff₀ h, ← h2]
    exact h1
  rw [h2]
  exact mul_le_mul_of_nonneg_right h3 h.le

theorem chopPos_pos {p : ℕ} {x : ℝ} (hx : 0 < x) : 0 < chopPos p x :=
  lt_of_lt_of_le (zpow_pos (by norm_num) _) (le_chopPos hx)

theorem chopPos_err {p : ℕ} {x : ℝ} (hx : 0 < x) : x - chopPos p x ≤ (1 / 2) ^ p * x := by
  unfold chopPos
  have h : (0 : ℝ) < 2 ^ (Int.log 2 x - p) := zpow_pos (by norm_num) _
  have h1 : ((2 : ℝ) ^ Int.log 2 x) ≤ x := by
    have := Int.zpow_log_le_self (b := 2) (by norm_num) hx
    exact_mod_cast this
  have h2 : (2 : ℝ) ^ (Int.log 2 x - p) = (1 / 2) ^ p * 2 ^ Int.log 2 x := by
    rw [zpow_sub₀ (by norm_num)]; simp; field_simp
  have h4 : x < (⌊x / 2 ^ (Int.log 2 x - p)⌋ + 1 : ℝ) * 2 ^ (Int.log 2 x - p) := by
    rw [← div_lt_iff₀ h]; exact Int.lt_floor_add_one _
  have h5 : (2 : ℝ) ^ (Int.log 2 x - p) ≤ (1 / 2) ^ p * x := by
    rw [h2]; exact mul_le_mul_of_nonneg_left h1 (by positivity)
  nlinarith

theorem chopPos_mono {p : ℕ} {x y : ℝ} (hx : 0 < x) (h : x ≤ y) : chopPos p x ≤ chopPos p y := by
  have hy : 0 < y := lt_of_lt_of_le hx h
  have hl : Int.log 2 x ≤ Int.log 2 y := Int.log_mono_right hx h
  rcases hl.lt_or_eq with hl | hl
  · have h1 : x < (2 : ℝ) ^ (Int.log 2 x + 1) := by
      have := Int.lt_zpow_succ_log_self (b := 2) (by norm_num) x
      exact_mod_cast this
    have h2 : (2 : ℝ) ^ (Int.log 2 x + 1) ≤ 2 ^ Int.log 2 y :=
      zpow_le_zpow_right₀ (by norm_num) (by omega)
    exact le_trans chopPos_le (le_trans h1.le (le_trans h2 (le_chopPos hy)))
  · unfold chopPos
    rw [hl]
    have hp : (0 : ℝ) < 2 ^ (Int.log 2 y - p) := zpow_pos (by norm_num) _
    apply mul_le_mul_of_nonneg_right _ hp.le
    exact_mod_cast Int.floor_le_floor (div_le_div_of_nonneg_right h hp.le)

theorem chop_zero (p : ℕ) : chop p 0 = 0 := by simp [chop]

theorem chop_mono (p : ℕ) : Monotone (chop p) := by
  intro x y h
  unfold chop
  rcases lt_trichotomy x 0 with hx | hx | hx
  · rw [if_neg (by linarith), if_pos hx]
    have hx' := chopPos_pos (p := p) (x := -x) (by linarith)
    rcases lt_trichotomy y 0 with hy | hy | hy
    · rw [if_neg (by linarith), if_pos hy]
      have := chopPos_mono (p := p) (x := -y) (y := -x) (by linarith) (by linarith)
      linarith
    · rw [if_neg (by linarith), if_neg (by linarith)]; linarith
    · rw [if_pos hy]; linarith [chopPos_pos (p := p) hy]
  · subst hx
    simp only [lt_irrefl, if_false]
    rcases h.lt_or_eq with hy | hy
    · rw [if_pos hy]; exact (chopPos_pos hy).le
    · subst hy; simp
  · rw [if_pos hx, if_pos (lt_of_lt_of_le hx h)]
    exact chopPos_mono hx h

theorem chop_err (p : ℕ) (x : ℝ) : |chop p x - x| ≤ (1 / 2) ^ p * |x| := by
  unfold chop
  rcases lt_trichotomy x 0 with hx | hx | hx
  · rw [if_neg (by linarith), if_pos hx, abs_of_neg hx]
    have h1 := chopPos_err (p := p) (x := -x) (by linarith)
    have h2 := chopPos_le (p := p) (x := -x)
    rw [abs_of_nonneg (by linarith)]
    linarith
  · subst hx; simp
  · rw [if_pos hx, abs_of_pos hx]
    have h1 := chopPos_err (p := p) hx
    have h2 := chopPos_le (p := p) (x := x)
    rw [abs_of_nonpos (by linarith)]
    linarith

section seq
variable {n : ℕ} {rnd : ℝ → ℝ}

theorem fold_nonneg (h0 : rnd 0 = 0) (hm : Monotone rnd) {p : Fin n → Bool} {a : Fin n → ℝ}
    (ha : ∀ i, p i = true → 0 ≤ a i) : ∀ (l : List (Fin n)) (s : ℝ), 0 ≤ s →
      0 ≤ l.foldl (fun s i => if p i then rnd (s + a i) else s) s
  | [], s, hs => hs
  | i :: l, s, hs => by
    simp only [List.foldl_cons]
    apply fold_nonneg h0 hm ha
    split_ifs with hp
    · rw [← h0]; exact hm (by linarith [ha i hp])
    · exact hs

theorem fold_nonpos (h0 : rnd 0 = 0) (hm : Monotone rnd) {p : Fin n → Bool} {a : Fin n → ℝ}
    (ha : ∀ i, p i = true → a i ≤ 0) : ∀ (l : List (Fin n)) (s : ℝ), s ≤ 0 →
      l.foldl (fun s i => if p i then rnd (s + a i) else s) s ≤ 0
  | [], s, hs => hs
  | i :: l, s, hs => by
    simp only [List.foldl_cons]
    apply fold_nonpos h0 hm ha
    split_ifs with hp
    · rw [← h0]; exact hm (by linarith [ha i hp])
    · exact hs

theorem fold_err {ε : ℝ} (he : 0 ≤ ε) (hr : ∀ x, |rnd x - x| ≤ ε * |x|) (p : Fin n → Bool) (a : Fin n → ℝ) :
    ∀ (l : List (Fin n)) (k : ℕ) (s S T : ℝ), |S| ≤ T → |s - S| ≤ ((1 + ε) ^ k - 1) * T →
      |l.foldl (fun s i => if p i then rnd (s + a i) else s) s - (S + (l.map fun i => if p i then a i else 0).sum)| ≤
        ((1 + ε) ^ (k + l.length) - 1) * (T + (l.map fun i => if p i then |a i| else 0).sum)
  | [], k, s, S, T, _, h => by simpa using h
  | i :: l, k, s, S, T, hT, h => by
    have hT0 : 0 ≤ T := le_trans (abs_nonneg _) hT
    have hpow : 1 ≤ (1 + ε) ^ k := one_le_pow₀ (by linarith)
    have hpow1 : (1 + ε) ^ (k + 1) = (1 + ε) * (1 + ε) ^ k := by ring
    have key := fold_err he hr p a l (k + 1) (if p i then rnd (s + a i) else s)
      (S + if p i then a i else 0) (T + if p i then |a i| else 0)
      (by
        split_ifs
        · exact le_trans (abs_add_le _ _) (by linarith)
        · simpa using hT)
      (by
        split_ifs with hp
        · have h1 := hr (s + a i)
          have h2 : |s + a i| ≤ |s - S| + T + |a i| := by
            have : s + a i = (s - S) + S + a i := by ring
            rw [this]
            exact le_trans (abs_add_le _ _) (by linarith [abs_add_le (s - S) S])
          have h3 : |rnd (s + a i) - (S + a i)| ≤ |rnd (s + a i) - (s + a i)| + |s - S| := by
            have : rnd (s + a i) - (S + a i) = (rnd (s + a i) - (s + a i)) + (s - S) := by ring
            rw [this]; exact abs_add_le _ _
          have h4 : ε * |s + a i| ≤ ε * (|s - S| + T + |a i|) := mul_le_mul_of_nonneg_left h2 he
          have h5 : (1 + ε) * |s - S| ≤ (1 + ε) * (((1 + ε) ^ k - 1) * T) :=
            mul_le_mul_of_nonneg_left h (by linarith)
          have h6 : ε * |a i| ≤ ((1 + ε) ^ (k + 1) - 1) * |a i| := by
            apply mul_le_mul_of_nonneg_right _ (abs_nonneg _)
            rw [hpow1]; nlinarith
          rw [hpow1] at h6 ⊢
          nlinarith
        · simp only [add_zero]
          refine le_trans h ?_
          apply mul_le_mul_of_nonneg_right _ hT0
          rw [hpow1]; nlinarith)
    simp only [List.foldl_cons, List.map_cons, List.sum_cons, List.length_cons]
    have e1 : k + (l.length + 1) = k + 1 + l.length := by ring
    rw [e1, ← add_assoc, ← add_assoc]
    exact key

theorem seq_sound (h0 : rnd 0 = 0) (hm : Monotone rnd) : (seq (n := n) rnd).Sound where
  zero := h0
  mono := hm
  sum_nonneg _ _ h := fold_nonneg h0 hm h _ _ le_rfl
  sum_nonpos _ _ h := fold_nonpos h0 hm h _ _ le_rfl

theorem seq_accurate {ε : ℝ} (he : 0 ≤ ε) (he1 : ε < 1) (hr : ∀ x, |rnd x - x| ≤ ε * |x|) :
    (seq (n := n) rnd).Accurate ε 0 ((1 + ε) ^ n - 1) where
  eps_nonneg := he
  eps_lt := he1
  eta_nonneg := le_rfl
  delta_nonneg := by linarith [one_le_pow₀ (n := n) (show 1 ≤ 1 + ε by linarith)]
  rnd_err x := by simpa [seq] using hr x
  sum_err p a := by
    have := fold_err he hr p a (List.finRange n) 0 0 0 0 (by simp) (by simp)
    simp only [zero_add, List.length_finRange] at this
    rw [← List.ofFn_eq_map, ← List.ofFn_eq_map, List.sum_ofFn, List.sum_ofFn] at this
    exact this

end seq

theorem exact_sound (ι : Type) [Fintype ι] : (exact ι).Sound where
  zero := rfl
  mono := fun _ _ h => h
  sum_nonneg p a h := Finset.sum_nonneg fun i _ => by split_ifs with hp; exacts [h i hp, le_rfl]
  sum_nonpos p a h := Finset.sum_nonpos fun i _ => by split_ifs with hp; exacts [h i hp, le_rfl]

theorem exact_accurate (ι : Type) [Fintype ι] : (exact ι).Accurate 0 0 0 where
  eps_nonneg := le_rfl
  eps_lt := one_pos
  eta_nonneg := le_rfl
  delta_nonneg := le_rfl
  rnd_err x := by simp [exact]
  sum_err p a := by simp [exact]

end CM.CCG.Arith
