import Verif.Props.HalfSpace1D
/-!
# Green's functions on distributed grids (C102)
-/
namespace CM.HS
open CM.FFT CM.Spec

variable {m : Mat} {nx ny : ℕ} {sx sy : ℝ} {loc nf : ℕ × ℕ}

/-- **C102** In two dimensions the block of the Green's function a process computes from its own
location and extent is the corresponding part of the Green's function of a serial run. -/
theorem C102_block_equals_serial_partial {G B : ℕ → ℕ → ℝ}
    (hG : greensBlock2 m nx ny sx sy (0, 0) (nx / 2 + 1, ny) = .ok G)
    (hB : greensBlock2 m nx ny sx sy loc nf = .ok B)
    (hx : loc.1 + nf.1 ≤ nx / 2 + 1) (hy : loc.2 + nf.2 ≤ ny) (i j : ℕ) (hi : i < nf.1) (hj : j < nf.2) :
    B i j = G (loc.1 + i) (loc.2 + j) := by
  obtain ⟨l1, l2⟩ := loc
  obtain ⟨n1, n2⟩ := nf
  simp only at *
  have hnf : ¬ n1 * n2 = 0 := by
    intro h; rcases Nat.mul_eq_zero.mp h with h | h <;> omega
  have hn : ¬ (nx / 2 + 1) * ny = 0 := by
    intro h; rcases Nat.mul_eq_zero.mp h with h | h <;> omega
  unfold greensBlock2 at hG hB
  simp only [if_neg hnf, if_neg hn] at hG hB
  unfold stiffnessBlock2 at hG hB
  rw [if_pos rfl] at hG
  by_cases hl : (l1, l2) = (0, 0)
  · have h1 := (Prod.mk.inj hl).1
    have h2 := (Prod.mk.inj hl).2
    subst h1 h2
    rw [if_pos rfl] at hB
    cases ht : m.thickness with
    | some h =>
      simp only [ht, bind, Except.bind, true_and] at hG hB
      by_cases hq : m.q0 = some 0
      · simp only [hq, if_true, pure, Except.pure, Except.ok.injEq] at hG hB
        subst hG hB; simp
      · simp only [hq, if_false, pure, Except.pure, Except.ok.injEq] at hG hB
        subst hG hB; simp
    | none =>
      simp only [ht] at hG hB
      cases hq : m.q0 with
      | none =>
        simp only [hq] at hG hB
        by_cases hc : n1 ≤ 1 ∨ n2 ≤ 1
        · rw [if_pos hc] at hB; simp [bind, Except.bind] at hB
        · have hc' : ¬ (nx / 2 + 1 ≤ 1 ∨ ny ≤ 1) := by omega
          rw [if_neg hc] at hB
          rw [if_neg hc'] at hG
          simp only [bind, Except.bind, pure, Except.pure, Except.ok.injEq, true_and, reduceCtorEq, if_false] at hG hB
          subst hG hB; simp
      | some q =>
        simp only [hq] at hG hB
        by_cases hq0 : q = 0
        · simp only [hq0, if_true, bind, Except.bind, pure, Except.pure, Except.ok.injEq, and_self] at hG hB
          subst hG hB; simp
        · simp only [hq0, if_false, bind, Except.bind, pure, Except.pure, Except.ok.injEq, Option.some.injEq,
            and_false] at hG hB
          subst hG hB; simp
  · have hne : ∀ i j, ¬ (l1 + i = 0 ∧ l2 + j = 0) := by
      rintro i j ⟨h1, h2⟩; exact hl (by rw [show l1 = 0 by omega, show l2 = 0 by omega])
    rw [if_neg hl] at hB
    simp only [bind, Except.bind, hl, false_and, if_false, pure, Except.pure, Except.ok.injEq] at hB
    subst hB
    have hkey : ∀ S : ℕ → ℕ → ℝ, (∀ a b, ¬ (a = 0 ∧ b = 0) → S a b = stiffnessOfFreq m (freq2 nx ny sx sy a b)) →
        (Except.bind (Except.ok S : Except PyErr (ℕ → ℕ → ℝ)) fun S => if True ∧ m.q0 = some 0 then
          pure fun i j => if i = 0 ∧ j = 0 then 0 else 1 / S i j else pure fun i j => 1 / S i j) = Except.ok G →
        1 / stiffnessOfFreq m (freq2 nx ny sx sy (l1 + i) (l2 + j)) = G (l1 + i) (l2 + j) := by
      intro S hS hG
      simp only [Except.bind, true_and] at hG
      by_cases hq : m.q0 = some 0
      · simp only [hq, if_true, pure, Except.pure, Except.ok.injEq] at hG
        subst hG
        simp only [hne i j, if_false, hS _ _ (hne i j)]
      · simp only [hq, if_false, pure, Except.pure, Except.ok.injEq] at hG
        subst hG
        simp only [hS _ _ (hne i j)]
    cases ht : m.thickness with
    | some h =>
      simp only [ht] at hG
      exact hkey _ (fun a b hab => by simp [hab]) hG
    | none =>
      simp only [ht] at hG
      cases hq : m.q0 with
      | none =>
        simp only [hq] at hG
        by_cases hc : nx / 2 + 1 ≤ 1 ∨ ny ≤ 1
        · rw [if_pos hc] at hG; simp [bind, Except.bind] at hG
        · rw [if_neg hc] at hG
          refine hkey _ ?_ (by rw [hq]; exact hG)
          intro a b hab; simp [hab]
      | some q =>
        simp only [hq] at hG
        by_cases hq0 : q = 0
        · rw [if_pos hq0] at hG
          refine hkey _ ?_ (by rw [hq]; exact hG)
          intro a b hab; simp [hab]
        · rw [if_neg hq0] at hG
          refine hkey _ ?_ (by rw [hq]; exact hG)
          intro a b hab; simp [hab]

/-- **C102** (finding) With the default Gamma stiffness the decomposition matters: a process that holds
the origin but only one row or one column of the spectrum raises `IndexError`, although the serial
run succeeds. -/
theorem C102_thin_first_block_fails (ht : m.thickness = none) (hq : m.q0 = none)
    (hne : nf.1 * nf.2 ≠ 0) (hthin : nf.1 = 1 ∨ nf.2 = 1) :
    greensBlock2 m nx ny sx sy (0, 0) nf = .error .indexError := by
  unfold greensBlock2 stiffnessBlock2
  rw [if_neg hne]
  simp only [ht, hq, if_true]
  rw [if_pos (by omega)]
  rfl

/-- Two processes, each with one row of a 2×3 grid: the first fails, the serial run does not. -/
example : greensBlock2 ⟨1, 0, 1, none, none⟩ 2 3 1 1 (0, 0) (1, 3) = .error .indexError ∧
    ∃ G, greensBlock2 ⟨1, 0, 1, none, none⟩ 2 3 1 1 (0, 0) (2, 3) = .ok G :=
  ⟨C102_thin_first_block_fails rfl rfl (by norm_num) (.inl rfl), by
    simp [greensBlock2, stiffnessBlock2, bind, Except.bind, pure, Except.pure]⟩

/-- **C102** (finding) One-dimensional grids are not decomposed correctly: a process whose block does not
start at the origin overwrites its first entry with the Gamma value. -/
theorem C102_1d_block_fails {loc n : ℕ} {q : ℝ} (hq : m.q0 = some q) (hq0 : q ≠ 0)
    (hn : 0 < n) (hl : 0 < loc) (hx : loc + n ≤ nx / 2 + 1) (hdiff : q ≠ Real.pi * m.Estar * (loc / sx)) :
    ∃ G B, greensBlock1 m nx sx 0 (nx / 2 + 1) = .ok G ∧ greensBlock1 m nx sx loc n = .ok B ∧ B 0 ≠ G loc := by
  refine ⟨_, _, by simp [greensBlock1, hq, hq0]; rfl, by simp [greensBlock1, hq, hq0, hn.ne']; rfl, ?_⟩
  simp only [if_true, hl.ne', if_false]
  rw [freq, if_pos (by omega)]
  intro h
  apply hdiff
  have h1 : (loc : ℝ) ≠ 0 := by exact_mod_cast hl.ne'
  have := Real.pi_ne_zero
  exact inv_injective h

example : ∃ G B, greensBlock1 ⟨1, 0, 1, some 1, none⟩ 8 1 0 5 = .ok G ∧
    greensBlock1 ⟨1, 0, 1, some 1, none⟩ 8 1 3 2 = .ok B ∧ B 0 ≠ G 3 :=
  C102_1d_block_fails (nx := 8) rfl (by norm_num) (by norm_num) (by norm_num)
    (by norm_num) (by have := Real.two_le_pi; push_cast; intro h; linarith)

end CM.HS
