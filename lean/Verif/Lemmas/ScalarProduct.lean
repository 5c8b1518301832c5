import Verif.Lemmas.HalfSpace
/-!
# The Fourier-space scalar product, block by block
-/
set_option linter.unusedSimpArgs false
namespace CM.HS
open Finset Complex CM.FFT CM.Fourier
open scoped ComplexConjugate

/-- The three-factor formula of the code counts every local row with its multiplicity. -/
lemma scalarProductLocal_eq (n0 total : ℕ) (b : Block) (ka kb : ℕ → ℕ → ℂ)
    (hb : 0 < b.n0 * b.n1 → b.loc0 + b.n0 ≤ n0 / 2 + 1) :
    scalarProductLocal n0 total b ka kb
      = (∑ i ∈ range b.n0, weight n0 (b.loc0 + i) * rowDot b ka kb i) / total := by
  unfold scalarProductLocal
  by_cases h : 0 < b.n0 * b.n1
  · rw [if_pos h]
    have hb := hb h
    have h0 : 0 < b.n0 := Nat.pos_of_mul_pos_right h
    simp only
    congr 1
    by_cases h1 : b.n0 = 1
    · rw [h1] at hb ⊢
      have hI : Ico 1 (1 - 1) = (∅ : Finset ℕ) := by simp
      simp only [hI, sum_empty, mul_zero, zero_add, Nat.sub_self, range_one, sum_singleton, add_zero,
        Nat.lt_irrefl, if_false, and_true, Nat.add_sub_cancel]
      rw [← add_mul]
      congr 1
      unfold weight
      by_cases h2 : b.loc0 = 0
      · simp [h2]
      · by_cases h3 : n0 % 2 = 1
        · have : ¬ (b.loc0 = 0 ∨ 2 * b.loc0 = n0) := by omega
          rw [if_neg this, if_neg h2, if_neg h2, if_pos h3, zero_add]
        · by_cases h4 : b.loc0 = n0 / 2
          · have : b.loc0 = 0 ∨ 2 * b.loc0 = n0 := by omega
            rw [if_pos this, if_neg h2, if_neg h2, if_neg h3, if_pos h4, zero_add]
          · have : ¬ (b.loc0 = 0 ∨ 2 * b.loc0 = n0) := by omega
            rw [if_neg this, if_neg h2, if_neg h2, if_neg h3, if_neg h4, zero_add]
    · obtain ⟨n, hn⟩ : ∃ n, b.n0 = n + 2 := ⟨b.n0 - 2, by omega⟩
      rw [hn] at hb ⊢
      have hs : ∑ i ∈ range (n + 2), weight n0 (b.loc0 + i) * rowDot b ka kb i
          = weight n0 b.loc0 * rowDot b ka kb 0
            + ∑ i ∈ Ico 1 (n + 1), weight n0 (b.loc0 + i) * rowDot b ka kb i
            + weight n0 (b.loc0 + (n + 1)) * rowDot b ka kb (n + 1) := by
        rw [sum_range_succ, range_eq_Ico, Finset.sum_eq_sum_Ico_succ_bot (by omega)]
        simp
      rw [hs]
      have hw0 : weight n0 b.loc0 = if b.loc0 = 0 then 1 else 2 := by
        unfold weight
        by_cases h2 : b.loc0 = 0
        · simp [h2]
        · have : ¬ (b.loc0 = 0 ∨ 2 * b.loc0 = n0) := by omega
          rw [if_neg this, if_neg h2]
      have hwe : weight n0 (b.loc0 + (n + 1)) = if n0 % 2 = 1 then 2 else if b.loc0 + (n + 1) = n0 / 2 then 1 else 2 := by
        unfold weight
        by_cases h3 : n0 % 2 = 1
        · have : ¬ (b.loc0 + (n + 1) = 0 ∨ 2 * (b.loc0 + (n + 1)) = n0) := by omega
          rw [if_neg this, if_pos h3]
        · rw [if_neg h3]
          by_cases h4 : b.loc0 + (n + 1) = n0 / 2
          · rw [if_pos h4, if_pos (by omega)]
          · rw [if_neg h4, if_neg (by omega)]
      have hm : ∑ i ∈ Ico 1 (n + 1), weight n0 (b.loc0 + i) * rowDot b ka kb i
          = 2 * ∑ i ∈ Ico 1 (n + 1), rowDot b ka kb i := by
        rw [mul_sum]
        refine sum_congr rfl fun i hi => ?_
        rw [mem_Ico] at hi
        unfold weight
        rw [if_neg (by omega)]
      have hm2 : (if 2 < n + 2 then (2 : ℝ) else 0) * ∑ i ∈ Ico 1 (n + 1), rowDot b ka kb i
          = 2 * ∑ i ∈ Ico 1 (n + 1), rowDot b ka kb i := by
        by_cases hn0 : n = 0
        · subst hn0; simp
        · rw [if_pos (by omega)]
      have e1 : n + 2 - 1 = n + 1 := by omega
      have e2 : b.loc0 + (n + 2) - 1 = b.loc0 + (n + 1) := by omega
      rw [hw0, hwe, hm, e1, e2, hm2]
      rw [if_pos (show 1 < n + 2 by omega), if_neg (show ¬ (b.loc0 = 0 ∧ n + 2 = 1) by omega)]
      ring
  · rw [if_neg h]
    have : b.n0 = 0 ∨ b.n1 = 0 := by
      by_contra hc; push Not at hc
      exact h (Nat.mul_pos (Nat.pos_of_ne_zero hc.1) (Nat.pos_of_ne_zero hc.2))
    rcases this with h0 | h0
    · simp [h0]
    · simp [rowDot, h0]

/-- Serial scalar product of two-dimensional half spectra. -/
lemma scalarProduct_serial (nx ny : ℕ) (ka kb : ℕ → ℕ → ℂ) :
    scalarProduct nx (nx * ny) [⟨0, nx / 2 + 1, 0, ny⟩] ka kb
      = (∑ kx ∈ range (nx / 2 + 1), weight nx kx *
          ∑ ky ∈ range ny, (conj (ka kx ky) * kb kx ky).re) / (nx * ny : ℕ) := by
  unfold scalarProduct
  simp only [List.map_cons, List.map_nil, List.sum_cons, List.sum_nil, add_zero, Nat.zero_add]
  rw [scalarProductLocal_eq _ _ _ _ _ (fun _ => by simp)]
  simp only [Nat.zero_add, rowDot]

end CM.HS
