import Verif.Spec.Pipeline
import Verif.Lemmas.Array
import Mathlib.Data.List.Sort
import Mathlib.Data.List.GetD
/-!
# Sorting, maxima and the automatic choice of offsets
-/
set_option linter.unusedSimpArgs false
namespace CM.Pipe
open Finset CM.HS CM.FFT CM.System CM.Spec

lemma foldl_max_spec : ∀ (l : List ℝ) (x : ℝ), (l.foldl max x = x ∨ l.foldl max x ∈ l) ∧ x ≤ l.foldl max x ∧
    ∀ y ∈ l, y ≤ l.foldl max x := by
  intro l
  induction l with
  | nil => intro x; simp
  | cons a l ih =>
    intro x
    obtain ⟨h1, h2, h3⟩ := ih (max x a)
    simp only [List.foldl_cons]
    refine ⟨?_, (le_max_left _ _).trans h2, ?_⟩
    · rcases h1 with h1 | h1
      · rw [h1]
        rcases max_cases x a with ⟨e, -⟩ | ⟨e, -⟩ <;> simp [e]
      · right; simp [h1]
    · intro y hy
      rcases List.mem_cons.1 hy with rfl | hy
      · exact (le_max_right _ _).trans h2
      · exact h3 y hy

lemma foldl_min_spec : ∀ (l : List ℝ) (x : ℝ), (l.foldl min x = x ∨ l.foldl min x ∈ l) ∧ l.foldl min x ≤ x ∧
    ∀ y ∈ l, l.foldl min x ≤ y := by
  intro l
  induction l with
  | nil => intro x; simp
  | cons a l ih =>
    intro x
    obtain ⟨h1, h2, h3⟩ := ih (min x a)
    simp only [List.foldl_cons]
    refine ⟨?_, h2.trans (min_le_left _ _), ?_⟩
    · rcases h1 with h1 | h1
      · rw [h1]
        rcases min_cases x a with ⟨e, -⟩ | ⟨e, -⟩ <;> simp [e]
      · right; simp [h1]
    · intro y hy
      rcases List.mem_cons.1 hy with rfl | hy
      · exact h2.trans (min_le_right _ _)
      · exact h3 y hy

lemma mem_entries {nx ny : ℕ} {h : NdArray ℝ} (hs : h.shape = [nx, ny]) (v : ℝ) :
    v ∈ entries h ↔ ∃ i < nx, ∃ j < ny, h.get [i, j] = v := by
  unfold entries
  simp only [List.mem_map, List.mem_range]
  constructor
  · rintro ⟨k, hk, rfl⟩
    have hk : k < h.shape.prod := hk
    rw [hs] at hk
    obtain ⟨i, j, e, hi, hj⟩ := valid2.1 (validIndex_unflat hk)
    exact ⟨i, hi, j, hj, by unfold NdArray.flat; rw [hs, e]⟩
  · rintro ⟨i, hi, j, hj, rfl⟩
    have hv : validIndex [nx, ny] [i, j] := valid2.2 ⟨i, j, rfl, hi, hj⟩
    refine ⟨flatIndex [nx, ny] [i, j], ?_, ?_⟩
    · show _ < h.shape.prod
      rw [hs]; exact flatIndex_lt hv
    · rw [flat_flatIndex hs hv]

lemma npMax_top {nx ny : ℕ} {h : NdArray ℝ} (hs : h.shape = [nx, ny]) (hx : 0 < nx) (hy : 0 < ny) : IsMaxHeight nx ny h (npMax h) := by
  have h0 := (mem_entries hs (h.get [0, 0])).2 ⟨0, hx, 0, hy, rfl⟩
  unfold npMax IsMaxHeight
  cases he : entries h with
  | nil => rw [he] at h0; cases h0
  | cons a l =>
    obtain ⟨h1, h2, h3⟩ := foldl_max_spec l a
    constructor
    · apply (mem_entries hs _).1
      rw [he]
      rcases h1 with h1 | h1
      · dsimp only; rw [h1]; simp
      · exact List.mem_cons_of_mem _ h1
    · intro i hi j hj
      have := (mem_entries hs _).2 ⟨i, hi, j, hj, rfl⟩
      rw [he] at this
      rcases List.mem_cons.1 this with e | e
      · rw [e]; exact h2
      · exact h3 _ e

lemma npMin_bottom {nx ny : ℕ} {h : NdArray ℝ} (hs : h.shape = [nx, ny]) (hx : 0 < nx) (hy : 0 < ny) : IsMinHeight nx ny h (npMin h) := by
  have h0 := (mem_entries hs (h.get [0, 0])).2 ⟨0, hx, 0, hy, rfl⟩
  unfold npMin IsMinHeight
  cases he : entries h with
  | nil => rw [he] at h0; cases h0
  | cons a l =>
    obtain ⟨h1, h2, h3⟩ := foldl_min_spec l a
    constructor
    · apply (mem_entries hs _).1
      rw [he]
      rcases h1 with h1 | h1
      · dsimp only; rw [h1]; simp
      · exact List.mem_cons_of_mem _ h1
    · intro i hi j hj
      have := (mem_entries hs _).2 ⟨i, hi, j, hj, rfl⟩
      rw [he] at this
      rcases List.mem_cons.1 this with e | e
      · rw [e]; exact h2
      · exact h3 _ e

lemma argmaxFrom_spec : ∀ (l pre : List ℝ) (i : ℕ) (m : ℝ), i < pre.length → pre.getD i 0 = m →
    (∀ k < pre.length, pre.getD k 0 ≤ m) → (∀ k < i, pre.getD k 0 < m) →
    argmaxFrom i m pre.length l < (pre ++ l).length ∧
    (∀ k < (pre ++ l).length, (pre ++ l).getD k 0 ≤ (pre ++ l).getD (argmaxFrom i m pre.length l) 0) ∧
    (∀ k < argmaxFrom i m pre.length l, (pre ++ l).getD k 0 < (pre ++ l).getD (argmaxFrom i m pre.length l) 0) := by
  intro l
  induction l with
  | nil =>
    intro pre i m hi hm h1 h2
    simp only [argmaxFrom, List.append_nil]
    exact ⟨hi, by rw [hm]; exact h1, by rw [hm]; exact h2⟩
  | cons x l ih =>
    intro pre i m hi hm h1 h2
    have hl : (pre ++ [x]).length = pre.length + 1 := by simp
    have e : pre ++ x :: l = (pre ++ [x]) ++ l := by simp
    have hget : ∀ k < pre.length, (pre ++ [x]).getD k 0 = pre.getD k 0 := by
      intro k hk; rw [List.getD_append _ _ _ _ hk]
    have hlast : (pre ++ [x]).getD pre.length 0 = x := by simp [List.getD]
    rw [e, argmaxFrom, ← hl]
    split_ifs with hx
    · refine ih (pre ++ [x]) pre.length x (by simp) hlast ?_ ?_
      · intro k hk
        rcases Nat.lt_or_ge k pre.length with hk' | hk'
        · rw [hget k hk']; exact (h1 k hk').trans hx.le
        · have : k = pre.length := by omega
          rw [this, hlast]
      · intro k hk
        rw [hget k hk]; exact (h1 k hk).trans_lt hx
    · refine ih (pre ++ [x]) i m (by omega) (by rw [hget i hi]; exact hm) ?_ ?_
      · intro k hk
        rcases Nat.lt_or_ge k pre.length with hk' | hk'
        · rw [hget k hk']; exact h1 k hk'
        · have : k = pre.length := by omega
          rw [this, hlast]; exact not_lt.1 hx
      · intro k hk
        rw [hget k (by omega)]; exact h2 k hk

lemma argmax_spec {l : List ℝ} (h : l ≠ []) : argmax l < l.length ∧ (∀ k < l.length, l.getD k 0 ≤ l.getD (argmax l) 0) ∧
    ∀ k < argmax l, l.getD k 0 < l.getD (argmax l) 0 := by
  cases l with
  | nil => exact absurd rfl h
  | cons x l => exact argmaxFrom_spec l [x] 0 x (by simp) (by simp) (by intro k hk; simp at hk; simp [hk]) (by simp)

lemma sortedBy_perm {α : Type} (key : α → ℝ) (l : List α) : (sortedBy key l).Perm l := List.perm_insertionSort _ _

lemma sortedBy_sorted {α : Type} (key : α → ℝ) (l : List α) : (sortedBy key l).Pairwise fun a b => key a ≤ key b := by
  have : Std.Total fun a b : α => key a ≤ key b := ⟨fun a b => le_total _ _⟩
  have : IsTrans α fun a b : α => key a ≤ key b := ⟨fun a b c h h' => le_trans h h'⟩
  exact List.pairwise_insertionSort (r := fun a b : α => key a ≤ key b) l

lemma dArea_length (N : ℕ) (l : List ℝ) (h : l ≠ []) : (dArea N l).length = l.length := by
  have : 0 < l.length := List.length_pos_iff.2 h
  simp [dArea]; omega

lemma dArea_getD (N : ℕ) (rows : List (ℝ × ℝ)) (k : ℕ) (hk : k < rows.length) :
    (dArea N (rows.map Prod.snd)).getD k 0 = areaGap N rows k := by
  have hne : rows ≠ [] := by rintro rfl; simp at hk
  have hl : (List.map (fun a => Real.logb 10 (a + 1 / (N : ℝ))) (rows.map Prod.snd)).length = rows.length := by simp
  unfold dArea areaGap
  dsimp only
  set ref := List.map (fun a => Real.logb 10 (a + 1 / (N : ℝ))) (rows.map Prod.snd) with href
  have hr : ∀ j (hj : j < rows.length), ref[j]'(by rw [hl]; exact hj) = logArea N (rows.getD j (0, 0)).2 := by
    intro j hj
    simp [href, logArea, List.getD, List.getElem?_eq_getElem hj]
  by_cases h : k + 1 < rows.length
  · rw [if_pos h, List.getD_append _ _ _ _ (by simp [hl]; omega), ← hr (k + 1) h, ← hr k hk]
    rw [List.getD_eq_getElem _ _ (by simp [hl]; omega)]
    simp
  · have hk' : k = rows.length - 1 := by omega
    rw [if_neg h, List.getD_append_right _ _ _ _ (by simp [hl]; omega)]
    have : k - (List.zipWith (· - ·) ref.tail ref).length = 0 := by simp [hl]; omega
    rw [this, ← hr k hk]
    have hl0 : ref ≠ [] := by intro e; rw [e] at hl; simp at hl; omega
    simp only [List.getD_cons_zero, zero_sub, neg_inj]
    rw [List.getLastD_eq_getLast?, List.getLast?_eq_getLast_of_ne_nil hl0]
    simp only [Option.getD_some]
    rw [List.getLast_eq_getElem]
    congr 1
    omega

end CM.Pipe
