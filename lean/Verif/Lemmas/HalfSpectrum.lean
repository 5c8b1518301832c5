import Verif.Model.FFT
import Verif.Lemmas.Fourier
/-!
# From the stored half spectrum to the full discrete Fourier transform
-/
namespace CM.FFT
open Finset Complex CM.Fourier
open scoped ComplexConjugate

/-- Sums over `ZMod n` are sums over `range n`. -/
lemma sum_zmod {M : Type} [AddCommMonoid M] (n : ℕ) [NeZero n] (F : ZMod n → M) :
    ∑ k, F k = ∑ k ∈ range n, F (k : ZMod n) := by
  refine Finset.sum_bij' (fun k _ => k.val) (fun k _ => (k : ZMod n)) ?_ ?_ ?_ ?_ ?_
  · intro k _; exact mem_range.mpr (ZMod.val_lt k)
  · intros; exact mem_univ _
  · intro k _; exact ZMod.natCast_zmod_val k
  · intro k hk; exact ZMod.val_cast_of_lt (mem_range.mp hk)
  · intro k _; rw [ZMod.natCast_zmod_val]

/-- Folding an even sum to the stored rows. -/
lemma fold_range (n : ℕ) (hn : 0 < n) (f : ℕ → ℝ) (hf : ∀ k, 0 < k → k < n → f (n - k) = f k) :
    ∑ k ∈ range n, f k = ∑ k ∈ range (n / 2 + 1), weight n k * f k := by
  have hsplit : ∑ k ∈ range n, f k = ∑ k ∈ range (n / 2 + 1), f k +
      ∑ k ∈ (range (n / 2 + 1)).filter (fun k => ¬ (k = 0 ∨ 2 * k = n)), f k := by
    have h1 : range n = (range n).filter (· < n / 2 + 1) ∪ (range n).filter (fun k => ¬ k < n / 2 + 1) :=
      (filter_union_filter_not_eq _ _).symm
    by_cases hn1 : n = 1
    · subst hn1; simp [Finset.sum_filter]
    rw [h1, sum_union (disjoint_filter_filter_not _ _ _)]
    congr 1
    · apply sum_congr _ (fun _ _ => rfl)
      ext k; simp only [mem_filter, mem_range]; omega
    · refine Finset.sum_bij' (fun k _ => n - k) (fun k _ => n - k) ?_ ?_ ?_ ?_ ?_
      · intro k hk; simp only [mem_filter, mem_range] at hk ⊢; omega
      · intro k hk; simp only [mem_filter, mem_range] at hk ⊢; omega
      · intro k hk; simp only [mem_filter, mem_range] at hk ⊢; omega
      · intro k hk; simp only [mem_filter, mem_range] at hk ⊢; omega
      · intro k hk; simp only [mem_filter, mem_range] at hk
        exact (hf k (by omega) (by omega)).symm
  rw [hsplit, sum_filter, ← sum_add_distrib]
  refine sum_congr rfl fun k _ => ?_
  unfold weight
  by_cases h : k = 0 ∨ 2 * k = n
  · simp [h]
  · simp [h]; ring

lemma fold_zmod (n : ℕ) [NeZero n] (F : ZMod n → ℝ) (hF : ∀ k, F (-k) = F k) :
    ∑ k, F k = ∑ k ∈ range (n / 2 + 1), weight n k * F (k : ZMod n) := by
  rw [sum_zmod, fold_range n (Nat.pos_of_ne_zero (NeZero.ne n)) (fun k => F (k : ZMod n))]
  intro k _ hk
  rw [Nat.cast_sub hk.le, ZMod.natCast_self, zero_sub, hF]

lemma cis_char (n : ℕ) [NeZero n] (k x : ℤ) : cis n (k * x) = (pairZ n).χ (k : ZMod n) (x : ZMod n) := by
  unfold cis pairZ
  change _ = ZMod.stdAddChar ((k : ZMod n) * (x : ZMod n))
  rw [← Int.cast_mul, ZMod.stdAddChar_coe]

/-- Two-dimensional pairing. -/
noncomputable abbrev pair2 (nx ny : ℕ) [NeZero nx] [NeZero ny] : Pairing (ZMod nx × ZMod ny) :=
  pairProd (pairZ nx) (pairZ ny)

/-- A two-dimensional array as a function on the torus. -/
def tor (nx ny : ℕ) (a : ℕ → ℕ → ℝ) (p : ZMod nx × ZMod ny) : ℝ := a p.1.val p.2.val

lemma tor_cast {nx ny : ℕ} [NeZero nx] [NeZero ny] (a : ℕ → ℕ → ℝ) {x y : ℕ} (hx : x < nx)
    (hy : y < ny) : tor nx ny a ((x : ZMod nx), (y : ZMod ny)) = a x y := by
  simp [tor, ZMod.val_cast_of_lt hx, ZMod.val_cast_of_lt hy]

lemma sum_torus {M : Type} [AddCommMonoid M] (nx ny : ℕ) [NeZero nx] [NeZero ny]
    (F : ZMod nx × ZMod ny → M) :
    ∑ p, F p = ∑ x ∈ range nx, ∑ y ∈ range ny, F ((x : ZMod nx), (y : ZMod ny)) := by
  rw [Fintype.sum_prod_type, sum_zmod]
  exact sum_congr rfl fun x _ => sum_zmod _ _

lemma card_torus (nx ny : ℕ) [NeZero nx] [NeZero ny] :
    Fintype.card (ZMod nx × ZMod ny) = nx * ny := by
  rw [Fintype.card_prod, ZMod.card, ZMod.card]

lemma pair2_cis (nx ny : ℕ) [NeZero nx] [NeZero ny] (kx ky x y : ℤ) :
    cis nx (kx * x) * cis ny (ky * y)
      = (pair2 nx ny).χ ((kx : ZMod nx), (ky : ZMod ny)) ((x : ZMod nx), (y : ZMod ny)) := by
  rw [cis_char, cis_char]; rfl

lemma rfft2_eq (nx ny : ℕ) [NeZero nx] [NeZero ny] (a : ℕ → ℕ → ℝ) (kx ky : ℕ) :
    rfft2 nx ny a kx ky
      = (pair2 nx ny).ft (fun p => (tor nx ny a p : ℂ)) ((kx : ZMod nx), (ky : ZMod ny)) := by
  unfold rfft2 Pairing.ft
  rw [sum_torus]
  refine sum_congr rfl fun x hx => sum_congr rfl fun y hy => ?_
  beta_reduce
  rw [tor_cast a (mem_range.mp hx) (mem_range.mp hy)]
  have := pair2_cis nx ny kx ky (-x) (-y)
  rw [mul_neg, mul_neg] at this
  rw [this]
  simp only [Int.cast_neg, Int.cast_natCast, Prod.neg_mk]

/-- The complex-to-real transform of the stored half of a Hermitian spectrum is the full inverse
transform. -/
lemma irfft2_eq (nx ny : ℕ) [NeZero nx] [NeZero ny] (H : ℕ → ℕ → ℂ) (F : ZMod nx × ZMod ny → ℂ)
    (hF : Pairing.Herm F)
    (hH : ∀ kx ky, kx ≤ nx / 2 → ky < ny → H kx ky = F ((kx : ZMod nx), (ky : ZMod ny))) (x y : ℕ) :
    irfft2 nx ny H x y = ((pair2 nx ny).ift F ((x : ZMod nx), (y : ZMod ny))).re := by
  unfold irfft2 Pairing.ift
  rw [Fintype.sum_prod_type, re_sum]
  rw [fold_zmod nx (fun k => (∑ l, F (k, l) * (pair2 nx ny).χ (k, l) ((x : ZMod nx), (y : ZMod ny))).re)]
  · refine sum_congr rfl fun kx hkx => ?_
    congr 2
    rw [sum_zmod]
    refine sum_congr rfl fun ky hky => ?_
    rw [hH kx ky (Nat.lt_succ_iff.mp (mem_range.mp hkx)) (mem_range.mp hky)]
    have := pair2_cis nx ny kx ky x y
    simp only [Int.cast_natCast] at this
    rw [this]
  · intro k
    rw [← Equiv.sum_comp (Equiv.neg (ZMod ny))]
    rw [← conj_re, map_sum]
    congr 1
    refine sum_congr rfl fun l _ => ?_
    simp only [Equiv.neg_apply]
    rw [← Prod.neg_mk, hF, (pair2 nx ny).cj, ← map_mul, conj_conj]

/-- Filtering in Fourier space, as the code does it, is the action of the full multiplier. -/
lemma filter2 (nx ny : ℕ) [NeZero nx] [NeZero ny] (M : ℕ → ℕ → ℂ) (S : ZMod nx × ZMod ny → ℂ)
    (hS : Pairing.Herm S)
    (hM : ∀ kx ky, kx ≤ nx / 2 → ky < ny → M kx ky = S ((kx : ZMod nx), (ky : ZMod ny)))
    (a : ℕ → ℕ → ℝ) (x y : ℕ) :
    irfft2 nx ny (fun kx ky => rfft2 nx ny a kx ky * M kx ky) x y / (nx * ny : ℝ)
      = (pair2 nx ny).act S (tor nx ny a) ((x : ZMod nx), (y : ZMod ny)) := by
  rw [irfft2_eq nx ny _ (fun k => S k * (pair2 nx ny).ft (fun p => (tor nx ny a p : ℂ)) k)]
  · unfold Pairing.act
    rw [card_torus]; push_cast; rfl
  · intro k; beta_reduce; rw [hS k, (pair2 nx ny).ft_neg, map_mul]
  · intro kx ky hx hy; rw [hM kx ky hx hy, rfft2_eq, mul_comm]

/-- Power theorem for stored half spectra. -/
lemma parseval2 (nx ny : ℕ) [NeZero nx] [NeZero ny] (a b : ℕ → ℕ → ℝ) :
    ∑ kx ∈ range (nx / 2 + 1), weight nx kx *
      ∑ ky ∈ range ny, (conj (rfft2 nx ny a kx ky) * rfft2 nx ny b kx ky).re
      = nx * ny * ∑ x ∈ range nx, ∑ y ∈ range ny, a x y * b x y := by
  have h := (pair2 nx ny).parseval (fun p => (tor nx ny a p : ℂ)) (fun p => (tor nx ny b p : ℂ))
  have h2 := congrArg Complex.re h
  rw [re_sum, card_torus, Fintype.sum_prod_type] at h2
  rw [fold_zmod nx (fun k => ∑ l, (conj ((pair2 nx ny).ft (fun p => (tor nx ny a p : ℂ)) (k, l)) *
      (pair2 nx ny).ft (fun p => (tor nx ny b p : ℂ)) (k, l)).re)] at h2
  · have e : (∑ p, conj (tor nx ny a p : ℂ) * (tor nx ny b p : ℂ))
        = ((∑ p, tor nx ny a p * tor nx ny b p : ℝ) : ℂ) := by
      push_cast; simp only [conj_ofReal]
    rw [e, ← ofReal_natCast, ← ofReal_mul, ofReal_re, sum_torus, Nat.cast_mul] at h2
    have e2 : ∑ x ∈ range nx, ∑ y ∈ range ny, a x y * b x y
        = ∑ x ∈ range nx, ∑ y ∈ range ny, tor nx ny a ((x : ZMod nx), (y : ZMod ny))
            * tor nx ny b ((x : ZMod nx), (y : ZMod ny)) :=
      sum_congr rfl fun x hx => sum_congr rfl fun y hy => by
        rw [tor_cast a (mem_range.mp hx) (mem_range.mp hy), tor_cast b (mem_range.mp hx) (mem_range.mp hy)]
    rw [e2, ← h2]
    refine sum_congr rfl fun kx _ => ?_
    rw [sum_zmod]
    congr 1
    exact sum_congr rfl fun ky _ => by rw [rfft2_eq, rfft2_eq]
  · intro k
    rw [← Equiv.sum_comp (Equiv.neg (ZMod ny))]
    refine sum_congr rfl fun l _ => ?_
    simp only [Equiv.neg_apply]
    rw [← Prod.neg_mk, (pair2 nx ny).ft_neg, (pair2 nx ny).ft_neg, ← map_mul, conj_re]

/-! ### One dimension -/

def tor1 (nx : ℕ) (a : ℕ → ℝ) (p : ZMod nx) : ℝ := a p.val

lemma tor1_cast {nx : ℕ} [NeZero nx] (a : ℕ → ℝ) {x : ℕ} (hx : x < nx) :
    tor1 nx a (x : ZMod nx) = a x := by simp [tor1, ZMod.val_cast_of_lt hx]

lemma rfft1_eq (nx : ℕ) [NeZero nx] (a : ℕ → ℝ) (kx : ℕ) :
    rfft1 nx a kx = (pairZ nx).ft (fun p => (tor1 nx a p : ℂ)) (kx : ZMod nx) := by
  unfold rfft1 Pairing.ft
  rw [sum_zmod]
  refine sum_congr rfl fun x hx => ?_
  beta_reduce
  rw [tor1_cast a (mem_range.mp hx)]
  have := cis_char nx kx (-x)
  rw [mul_neg] at this
  rw [this]
  simp only [Int.cast_neg, Int.cast_natCast]

lemma irfft1_eq (nx : ℕ) [NeZero nx] (H : ℕ → ℂ) (F : ZMod nx → ℂ) (hF : Pairing.Herm F)
    (hH : ∀ kx, kx ≤ nx / 2 → H kx = F (kx : ZMod nx)) (x : ℕ) :
    irfft1 nx H x = ((pairZ nx).ift F (x : ZMod nx)).re := by
  unfold irfft1 Pairing.ift
  rw [re_sum, fold_zmod nx (fun k => (F k * (pairZ nx).χ k (x : ZMod nx)).re)]
  · refine sum_congr rfl fun kx hkx => ?_
    rw [hH kx (Nat.lt_succ_iff.mp (mem_range.mp hkx))]
    have := cis_char nx kx x
    simp only [Int.cast_natCast] at this
    rw [this]
  · intro k
    rw [hF, (pairZ nx).cj, ← map_mul, conj_re]

lemma filter1 (nx : ℕ) [NeZero nx] (M : ℕ → ℂ) (S : ZMod nx → ℂ) (hS : Pairing.Herm S)
    (hM : ∀ kx, kx ≤ nx / 2 → M kx = S (kx : ZMod nx)) (a : ℕ → ℝ) (x : ℕ) :
    irfft1 nx (fun kx => rfft1 nx a kx * M kx) x / (nx : ℝ)
      = (pairZ nx).act S (tor1 nx a) (x : ZMod nx) := by
  rw [irfft1_eq nx _ (fun k => S k * (pairZ nx).ft (fun p => (tor1 nx a p : ℂ)) k)]
  · unfold Pairing.act
    rw [ZMod.card]
  · intro k; beta_reduce; rw [hS k, (pairZ nx).ft_neg, map_mul]
  · intro kx hx; rw [hM kx hx, rfft1_eq, mul_comm]

end CM.FFT
