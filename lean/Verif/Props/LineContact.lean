import Verif.Spec.LineContact
import Verif.Props.Spectral
import Verif.Lemmas.LineSeries
import Mathlib.NumberTheory.ZetaValues
/-!
# Line pressures converge at every grid point (C195)
-/
namespace CM.HS
open Finset CM.FFT CM.Fourier CM.Spec CM.Series
open scoped ComplexConjugate

variable {a : Args} {s : HalfSpace} {nx ny : ℕ}

/-! ## The grid -/

lemma ft_line [NeZero nx] [NeZero ny] (g : ZMod nx → ℝ) (k : ZMod nx × ZMod ny) :
    (pair2 nx ny).ft (fun y => ((g y.1 : ℝ) : ℂ)) k = (pairZ nx).ft (fun y => (g y : ℂ)) k.1 * (if k.2 = 0 then (ny : ℂ) else 0) := by
  have h := (pairZ ny).orth' k.2
  rw [← Equiv.sum_comp (Equiv.neg (ZMod ny)), ZMod.card] at h
  rw [← h]
  unfold Pairing.ft
  rw [Fintype.sum_prod_type, Finset.sum_mul_sum]
  refine sum_congr rfl fun x _ => sum_congr rfl fun y _ => ?_
  show (g x : ℂ) * ((pairZ nx).χ k.1 (-x) * (pairZ ny).χ k.2 (-y)) = _
  rw [Equiv.neg_apply]
  ring

lemma chi_norm {G : Type} [AddCommGroup G] [Fintype G] [DecidableEq G] (P : Pairing G) (k x : G) : ‖P.χ k x‖ = 1 := by
  have h := P.mul_conj k x
  rw [Complex.mul_conj] at h
  have h2 : Complex.normSq (P.χ k x) = 1 := by exact_mod_cast h
  rw [Complex.normSq_eq_norm_sq] at h2
  have := norm_nonneg (P.χ k x)
  nlinarith [sq_nonneg (‖P.χ k x‖ - 1), sq_nonneg (‖P.χ k x‖ + 1)]

lemma ft_square {n : ℕ} [NeZero n] (g : ZMod n → ℝ) {G : ℝ} (hG : ∀ x, |g x| ≤ G) : ∑ k, ‖(pairZ n).ft (fun y => (g y : ℂ)) k‖ ^ 2 ≤ (n * G) ^ 2 := by
  have h := (pairZ n).energy (fun _ => 1) (fun _ => rfl) g
  simp only [one_mul, Complex.ofReal_one, (pairZ n).act_one, Complex.normSq_eq_norm_sq, ZMod.card] at h
  rw [← h]
  have h2 : ∑ x, g x * g x ≤ ∑ _x : ZMod n, G ^ 2 := sum_le_sum fun x _ => by
    rw [← sq, ← sq_abs]
    exact pow_le_pow_left₀ (abs_nonneg _) (hG x) 2
  rw [sum_const, card_univ, ZMod.card, nsmul_eq_mul] at h2
  have hn : (0 : ℝ) ≤ n := Nat.cast_nonneg n
  calc (n : ℝ) * ∑ x, g x * g x ≤ n * (n * G ^ 2) := by gcongr
    _ = _ := by ring

/-- The answer to a line pressure, bounded by the squares of the compliances along x. -/
lemma act_line_bound [NeZero nx] [NeZero ny] (M : ZMod nx × ZMod ny → ℝ) {g : ZMod nx → ℝ} {G B : ℝ} (hG : ∀ x, |g x| ≤ G) (hB : ∑ k : ZMod nx, M (k, 0) ^ 2 ≤ B) (x : ZMod nx × ZMod ny) :
    |(pair2 nx ny).act (fun k => (M k : ℂ)) (fun y => g y.1) x| ≤ √B * G := by
  have hG0 : 0 ≤ G := (abs_nonneg _).trans (hG 0)
  have hn1 : (0 : ℝ) < nx := by exact_mod_cast Nat.pos_of_ne_zero (NeZero.ne nx)
  have hn2 : (0 : ℝ) < ny := by exact_mod_cast Nat.pos_of_ne_zero (NeZero.ne ny)
  unfold Pairing.act
  rw [Fintype.card_prod, ZMod.card, ZMod.card, abs_div, Nat.cast_mul, abs_of_pos (mul_pos hn1 hn2), div_le_iff₀ (mul_pos hn1 hn2)]
  refine (Complex.abs_re_le_norm _).trans ?_
  unfold Pairing.ift
  refine (norm_sum_le _ _).trans ?_
  have e : ∀ k : ZMod nx × ZMod ny, ‖(M k : ℂ) * (pair2 nx ny).ft (fun y => ((g y.1 : ℝ) : ℂ)) k * (pair2 nx ny).χ k x‖ =
      if k.2 = 0 then ny * (|M (k.1, 0)| * ‖(pairZ nx).ft (fun y => (g y : ℂ)) k.1‖) else 0 := by
    intro k
    rw [norm_mul, chi_norm, mul_one, norm_mul, Complex.norm_real, Real.norm_eq_abs, ft_line, norm_mul]
    split_ifs with h
    · rw [show k = (k.1, 0) from Prod.ext rfl h]
      simp only [Complex.norm_natCast]
      ring
    · simp
  simp only [e]
  rw [Fintype.sum_prod_type]
  simp only [sum_ite_eq', mem_univ, if_true]
  rw [← mul_sum]
  have h := Real.sum_mul_le_sqrt_mul_sqrt univ (fun k : ZMod nx => |M (k, 0)|) fun k => ‖(pairZ nx).ft (fun y => (g y : ℂ)) k‖
  simp only [sq_abs] at h
  have h2 : √(∑ k, ‖(pairZ nx).ft (fun y => (g y : ℂ)) k‖ ^ 2) ≤ nx * G := by
    rw [← Real.sqrt_sq (mul_nonneg hn1.le hG0)]
    exact Real.sqrt_le_sqrt (ft_square g hG)
  have h3 := h.trans (mul_le_mul (Real.sqrt_le_sqrt hB) h2 (Real.sqrt_nonneg _) (Real.sqrt_nonneg _))
  calc (ny : ℝ) * ∑ k : ZMod nx, |M (k, 0)| * ‖(pairZ nx).ft (fun y => (g y : ℂ)) k‖ ≤ ny * (√B * (nx * G)) := by gcongr
    _ = _ := by ring

/-! ## Squares of the compliances along x -/

/-- A bound for the sum of the squares of the compliances along x, the same for all grids. -/
noncomputable def lineBound (a : Args) : ℝ := (gammaStiffness a)⁻¹ ^ 2 + 2 * (size a 0 / (Real.pi * contactModulus a)) ^ 2 * (Real.pi ^ 2 / 6)

lemma square_sums (s : Finset ℕ) : ∑ k ∈ s, (1 : ℝ) / (k : ℝ) ^ 2 ≤ Real.pi ^ 2 / 6 := sum_le_hasSum s (fun _ _ => by positivity) hasSum_zeta_two

lemma inv_sq_le (hv : ValidArgs a) (hx : 0 < size a 0) {m K : ℝ} (hm : 0 < m) (hK : Real.pi * contactModulus a * (m / size a 0) ≤ K) :
    K⁻¹ ^ 2 ≤ (size a 0 / (Real.pi * contactModulus a)) ^ 2 * (1 / m ^ 2) := by
  have hE := modulus_pos hv
  have hpi := Real.pi_pos
  have h0 : 0 < Real.pi * contactModulus a * (m / size a 0) := by positivity
  have h1 : K⁻¹ ≤ (Real.pi * contactModulus a * (m / size a 0))⁻¹ := inv_anti₀ h0 hK
  have h2 : 0 ≤ K⁻¹ := inv_nonneg.2 (h0.le.trans hK)
  refine (pow_le_pow_left₀ h2 h1 2).trans (le_of_eq ?_)
  field_simp

lemma cell_squares (hv : ValidArgs a) (hx : 0 < size a 0) (t : Finset ℤ) : ∑ n ∈ t, (cellStiffness a (n, 0))⁻¹ ^ 2 ≤ lineBound a := by
  have hE := modulus_pos hv
  have hpi := Real.pi_pos
  set C := (size a 0 / (Real.pi * contactModulus a)) ^ 2 with hC
  have hone : ∀ n : ℤ, (cellStiffness a (n, 0))⁻¹ ^ 2 ≤ (if n = 0 then (gammaStiffness a)⁻¹ ^ 2 else 0) + C * (1 / ((n.natAbs : ℕ) : ℝ) ^ 2) := by
    intro n
    by_cases hn : n = 0
    · subst hn
      simp [cellStiffness]
    · rw [if_neg hn, zero_add]
      have hna : (0 : ℝ) < ((n.natAbs : ℕ) : ℝ) := by exact_mod_cast Int.natAbs_pos.2 hn
      refine inv_sq_le hv hx hna ?_
      unfold cellStiffness
      rw [if_neg (fun h => hn (by simpa using congrArg Prod.fst h))]
      have hq : cellNumber (size a 0) (size a 1) (n, 0) = 2 * Real.pi * (((n.natAbs : ℕ) : ℝ) / size a 0) := by
        unfold cellNumber
        have : ((n.natAbs : ℕ) : ℝ) = |(n : ℝ)| := by rw [Nat.cast_natAbs, Int.cast_abs]
        simp only [Int.cast_zero, mul_zero, zero_div, ne_eq, OfNat.ofNat_ne_zero, not_false_eq_true, zero_pow, add_zero]
        rw [Real.sqrt_sq_eq_abs, abs_div, abs_mul, abs_of_pos hx, abs_of_pos (show 0 < 2 * Real.pi by positivity), this]
        ring
      have hq0 : 0 < cellNumber (size a 0) (size a 1) (n, 0) := by rw [hq]; positivity
      have hf := factor_ge hv hq0
      simp only [layerFactor_eq]
      calc Real.pi * contactModulus a * (((n.natAbs : ℕ) : ℝ) / size a 0) = contactModulus a / 2 * cellNumber (size a 0) (size a 1) (n, 0) := by rw [hq]; ring
        _ ≤ _ := le_mul_of_one_le_right (by positivity) hf
  refine (sum_le_sum fun n _ => hone n).trans ?_
  rw [sum_add_distrib, ← mul_sum]
  unfold lineBound
  refine add_le_add ?_ ?_
  · rw [sum_ite_eq']
    split_ifs
    · exact le_rfl
    · positivity
  · have hsq : ∑ n ∈ t, 1 / ((n.natAbs : ℕ) : ℝ) ^ 2 ≤ 2 * (Real.pi ^ 2 / 6) := by
      have hsub : t ⊆ (t.filter (0 ≤ ·)) ∪ (t.filter (· < 0)) := fun n hn => by
        rcases le_or_gt 0 n with h | h
        · exact mem_union_left _ (mem_filter.2 ⟨hn, h⟩)
        · exact mem_union_right _ (mem_filter.2 ⟨hn, h⟩)
      have hi1 : ∑ n ∈ t.filter (0 ≤ ·), 1 / ((n.natAbs : ℕ) : ℝ) ^ 2 ≤ Real.pi ^ 2 / 6 := by
        rw [← sum_image (s := t.filter (0 ≤ ·)) (g := Int.natAbs) (f := fun k : ℕ => 1 / (k : ℝ) ^ 2)]
        · exact square_sums _
        · intro x hx y hy h
          have h1 := (mem_filter.1 hx).2
          have h2 := (mem_filter.1 hy).2
          omega
      have hi2 : ∑ n ∈ t.filter (· < 0), 1 / ((n.natAbs : ℕ) : ℝ) ^ 2 ≤ Real.pi ^ 2 / 6 := by
        rw [← sum_image (s := t.filter (· < 0)) (g := Int.natAbs) (f := fun k : ℕ => 1 / (k : ℝ) ^ 2)]
        · exact square_sums _
        · intro x hx y hy h
          have h1 := (mem_filter.1 hx).2
          have h2 := (mem_filter.1 hy).2
          omega
      calc ∑ n ∈ t, 1 / ((n.natAbs : ℕ) : ℝ) ^ 2 ≤ ∑ n ∈ (t.filter (0 ≤ ·)) ∪ (t.filter (· < 0)), 1 / ((n.natAbs : ℕ) : ℝ) ^ 2 :=
            sum_le_sum_of_subset_of_nonneg hsub fun _ _ _ => by positivity
        _ ≤ ∑ n ∈ t.filter (0 ≤ ·), 1 / ((n.natAbs : ℕ) : ℝ) ^ 2 + ∑ n ∈ t.filter (· < 0), 1 / ((n.natAbs : ℕ) : ℝ) ^ 2 := by
            rw [← sum_union_inter]
            have : 0 ≤ ∑ n ∈ (t.filter (0 ≤ ·)) ∩ (t.filter (· < 0)), 1 / ((n.natAbs : ℕ) : ℝ) ^ 2 := sum_nonneg fun _ _ => by positivity
            linarith
        _ ≤ _ := by linarith
    calc C * ∑ n ∈ t, 1 / ((n.natAbs : ℕ) : ℝ) ^ 2 ≤ C * (2 * (Real.pi ^ 2 / 6)) := by gcongr
      _ = _ := by ring

lemma grid_squares [NeZero nx] [NeZero ny] (hv : ValidArgs a) (P : Per a s nx ny) : ∑ k : ZMod nx, (P.S (k, 0))⁻¹ ^ 2 ≤ lineBound a := by
  have hE := modulus_pos hv
  have hpi := Real.pi_pos
  have hx := P.sx_pos
  set C := (size a 0 / (Real.pi * contactModulus a)) ^ 2 with hC
  have hone : ∀ k : ZMod nx, (P.S (k, 0))⁻¹ ^ 2 ≤ (if k = 0 then (gammaStiffness a)⁻¹ ^ 2 else 0) + (C * (1 / ((k.val : ℕ) : ℝ) ^ 2) + C * (1 / (((-k).val : ℕ) : ℝ) ^ 2)) := by
    intro k
    by_cases hk : k = 0
    · subst hk
      simp only [if_true, neg_zero, ZMod.val_zero, Nat.cast_zero, ne_eq, OfNat.ofNat_ne_zero, not_false_eq_true, zero_pow, div_zero, mul_zero, add_zero]
      unfold Per.S fullStiff
      rw [if_pos Prod.mk_zero_zero]
    · rw [if_neg hk, zero_add]
      have hlt := ZMod.val_lt k
      have hk0 : 0 < k.val := Nat.pos_of_ne_zero fun h => hk ((ZMod.val_eq_zero k).1 h)
      have hneg : (-k).val = nx - k.val := by
        have : NeZero k := ⟨hk⟩
        exact ZMod.val_neg_of_ne_zero k
      have hf : freq2 nx ny (size a 0) (size a 1) k.val (0 : ZMod ny).val = freq nx (size a 0) k.val := by
        have hn : 0 ≤ freq nx (size a 0) k.val := by
          have := freq_low' hx hlt hk0.ne'
          exact le_trans (by positivity) this
        unfold freq2
        rw [ZMod.val_zero, show freq ny (size a 1) 0 = 0 by simp [freq], mul_zero, add_zero, Real.sqrt_mul_self hn]
      have hS : ∀ m : ℝ, 0 < m → freq nx (size a 0) k.val = m / size a 0 → (P.S (k, 0))⁻¹ ^ 2 ≤ C * (1 / m ^ 2) := by
        intro m hm hfm
        refine inv_sq_le hv hx hm ?_
        unfold Per.S fullStiff
        rw [if_neg (fun h => hk (congrArg Prod.fst h)), hf, hfm, P.mat]
        have hg := factor_ge hv (q := 2 * Real.pi * (m / size a 0)) (by positivity)
        unfold stiffnessOfFreq
        cases ht : a.thickness with
        | none => exact le_rfl
        | some h =>
          rw [ht] at hg
          simp only at hg ⊢
          rw [show m / size a 0 * (2 * Real.pi * h) = 2 * Real.pi * (m / size a 0) * h by ring]
          exact le_mul_of_one_le_right (by positivity) hg
      have hn1 : 0 ≤ C * (1 / ((k.val : ℕ) : ℝ) ^ 2) := by positivity
      have hn2 : 0 ≤ C * (1 / (((-k).val : ℕ) : ℝ) ^ 2) := by positivity
      by_cases hh : k.val ≤ nx / 2
      · have := hS k.val (by exact_mod_cast hk0) (by unfold freq; rw [if_pos hh])
        linarith
      · have := hS ((-k).val : ℕ) (by rw [hneg]; exact_mod_cast (by omega : 0 < nx - k.val)) (by
          unfold freq; rw [if_neg hh, hneg, Nat.cast_sub hlt.le])
        linarith
  refine (sum_le_sum fun n _ => hone n).trans ?_
  have hz : ∑ k : ZMod nx, 1 / ((k.val : ℕ) : ℝ) ^ 2 ≤ Real.pi ^ 2 / 6 := by
    rw [← sum_image (s := univ) (g := fun k : ZMod nx => k.val) (f := fun k : ℕ => 1 / (k : ℝ) ^ 2)]
    · exact square_sums _
    · intro x _ y _ h
      exact ZMod.val_injective nx h
  have hz2 : ∑ k : ZMod nx, 1 / (((-k).val : ℕ) : ℝ) ^ 2 ≤ Real.pi ^ 2 / 6 := by
    exact (Equiv.sum_comp (Equiv.neg (ZMod nx)) fun k : ZMod nx => 1 / ((k.val : ℕ) : ℝ) ^ 2).trans_le hz
  rw [sum_add_distrib, sum_add_distrib, ← mul_sum, ← mul_sum, sum_ite_eq', if_pos (mem_univ _)]
  unfold lineBound
  have hC0 : 0 ≤ C := sq_nonneg _
  have := mul_le_mul_of_nonneg_left hz hC0
  have := mul_le_mul_of_nonneg_left hz2 hC0
  linarith

/-! ## Fourier coefficients -/

/-- A periodic function on the circle. -/
noncomputable def onCircle {T : ℝ} {f : ℝ → ℝ} (hf : Continuous f) (hp : Function.Periodic f T) : C(AddCircle T, ℂ) :=
  ⟨fun x => ((hp.lift x : ℝ) : ℂ), Complex.continuous_ofReal.comp (continuous_quot_lift _ hf)⟩

lemma onCircle_coe {T : ℝ} {f : ℝ → ℝ} (hf : Continuous f) (hp : Function.Periodic f T) (x : ℝ) : onCircle hf hp (x : AddCircle T) = ((f x : ℝ) : ℂ) := rfl

lemma coeff_onCircle {T : ℝ} [hT : Fact (0 < T)] {f : ℝ → ℝ} (hf : Continuous f) (hp : Function.Periodic f T) (n : ℤ) :
    fourierCoeff (onCircle hf hp) n = (1 / T : ℝ) * ((∫ x in (0 : ℝ)..T, f x * Real.cos (2 * Real.pi * n * x / T) : ℝ) - (∫ x in (0 : ℝ)..T, f x * Real.sin (2 * Real.pi * n * x / T) : ℝ) * Complex.I) := by
  rw [fourierCoeff_eq_intervalIntegral _ n 0, zero_add, Complex.real_smul]
  congr 1
  rw [← intervalIntegral.integral_ofReal, ← intervalIntegral.integral_ofReal, ← intervalIntegral.integral_mul_const, ← intervalIntegral.integral_sub]
  · refine intervalIntegral.integral_congr fun x _ => ?_
    rw [fourier_coe_apply, onCircle_coe, smul_eq_mul,
      show (2 * Real.pi * Complex.I * (-n : ℤ) * x / T : ℂ) = ((-(2 * Real.pi * n * x / T) : ℝ) : ℂ) * Complex.I by push_cast; ring,
      Complex.exp_mul_I, ← Complex.ofReal_cos, ← Complex.ofReal_sin, Real.cos_neg, Real.sin_neg]
    push_cast
    ring
  · exact Continuous.intervalIntegrable (by fun_prop) _ _
  · exact Continuous.intervalIntegrable (by fun_prop) _ _

lemma coeff_response {p u : ℝ → ℝ} (hr : LineResponse a p u) [hT : Fact (0 < size a 0)] (n : ℤ) :
    (cellStiffness a (n, 0) : ℂ) * fourierCoeff (onCircle hr.displacement_continuous hr.displacement_periodic) n = fourierCoeff (onCircle hr.pressure_continuous hr.pressure_periodic) n := by
  rw [coeff_onCircle, coeff_onCircle, ← hr.cos, ← hr.sin]
  push_cast
  ring

/-! ## Convergence -/

lemma poly_spectrum {sx sy : ℝ} (b : ℤ → ℂ) (t : Finset ℤ) : Spectrum sx sy (fun k => if k.2 = 0 ∧ k.1 ∈ t then b k.1 else 0) (fun x y => ∑ n ∈ t, (b n * cellWave sx sy (n, 0) x y).re) := by
  have hz : ∀ k : ℤ × ℤ, k ∉ t ×ˢ ({0} : Finset ℤ) → (if k.2 = 0 ∧ k.1 ∈ t then b k.1 else 0) = 0 := by
    intro k hk
    rw [if_neg]
    rintro ⟨h1, h2⟩
    exact hk (mem_product.2 ⟨h2, mem_singleton.2 h1⟩)
  refine ⟨summable_of_ne_finset_zero (s := t ×ˢ {0}) fun k hk => by rw [hz k hk, norm_zero], fun x y => ?_⟩
  rw [tsum_eq_sum (s := t ×ˢ {0}) fun k hk => by rw [hz k hk, zero_mul, Complex.zero_re], sum_product]
  refine sum_congr rfl fun n hn => ?_
  rw [sum_singleton, if_pos ⟨rfl, hn⟩]

lemma wave_fourier {T sy : ℝ} (n : ℤ) (x y : ℝ) : cellWave T sy (n, 0) x y = fourier n (x : AddCircle T) := by
  rw [fourier_coe_apply]
  unfold cellWave
  congr 1
  push_cast
  ring

lemma kStiff_ne (hv : ValidArgs a) (hx : 0 < size a 0) (hK : gammaStiffness a ≠ 0) (n : ℤ) : cellStiffness a (n, 0) ≠ 0 := by
  unfold cellStiffness
  split_ifs with h
  · exact hK
  · have hn : n ≠ 0 := fun h0 => h (by rw [h0]; rfl)
    have hq : 0 < cellNumber (size a 0) (size a 1) (n, 0) := by
      unfold cellNumber
      have hpi := Real.pi_pos
      have : (n : ℝ) ≠ 0 := by exact_mod_cast hn
      have : 0 < (2 * Real.pi * n / size a 0) ^ 2 := by positivity
      exact Real.sqrt_pos.2 (by positivity)
    have hf := factor_ge hv hq
    have hE := modulus_pos hv
    simp only [layerFactor_eq]
    exact (mul_pos (by positivity) (lt_of_lt_of_le one_pos hf)).ne'

/-- **C195** Line pressures: if the continuous substrate answers the continuous line pressure `p` with the displacement `u`, then for every bound there is a resolution along x from which on every
grid answers the pressure with this displacement up to the bound, at every grid point. -/
theorem C195_line (hv : ValidArgs a) (hK : gammaStiffness a ≠ 0) {p u : ℝ → ℝ} (hr : LineResponse a p u) {ε : ℝ} (hε : 0 < ε) :
    ∃ N : ℕ, ∀ (nx ny : ℕ) (s : HalfSpace) (f : NdArray ℝ), N ≤ nx → construct { a with nbGridPts := [nx, ny] } = .ok s →
      PressureArray nx ny (size a 0) (size a 1) (fun x _ => p x) f →
      ∃ w, evaluateDisp s f = .ok w ∧ ∀ i j, i < nx → j < ny → |w.get [i, j] - u (i * (size a 0 / nx))| ≤ ε := by
  have hv' : ∀ nx ny, ValidArgs { a with nbGridPts := [nx, ny] } := fun nx ny => ⟨hv.1, hv.2, hv.3, hv.4, hv.5⟩
  by_cases hx : 0 < size a 0
  swap
  · refine ⟨0, fun nx ny s f _ hs _ => ?_⟩
    obtain ⟨_, _, P⟩ := per_of_construct (hv' nx ny) hs rfl
    exact absurd P.sx_pos hx
  have hT : Fact (0 < size a 0) := ⟨hx⟩
  set B := lineBound a with hB
  set δ := ε / (2 * √B + 1) with hδ
  have hδ0 : 0 < δ := by positivity
  set Pc := onCircle hr.pressure_continuous hr.pressure_periodic with hPc
  obtain ⟨b, t, hbt⟩ := exists_poly Pc hδ0
  set c : ℤ × ℤ → ℂ := fun k => if k.2 = 0 ∧ k.1 ∈ t then b k.1 else 0 with hc
  set Q : ℝ → ℝ → ℝ := fun x y => ∑ n ∈ t, (b n * cellWave (size a 0) (size a 1) (n, 0) x y).re with hQ
  set V : ℝ → ℝ → ℝ := fun x y => ∑ n ∈ t, (b n / cellStiffness a (n, 0) * cellWave (size a 0) (size a 1) (n, 0) x y).re with hV
  have hsQ : Spectrum (size a 0) (size a 1) c Q := poly_spectrum b t
  have hsV : Spectrum (size a 0) (size a 1) (fun k => c k / cellStiffness a k) V := by
    have h := poly_spectrum (sx := size a 0) (sy := size a 1) (fun n => b n / cellStiffness a (n, 0)) t
    refine ⟨?_, ?_⟩
    · refine h.summable.congr fun k => ?_
      simp only [hc]
      split_ifs with hk
      · rw [show k = (k.1, 0) from Prod.ext rfl hk.1]
      · simp
    · intro x y
      rw [hV]
      refine (h.sum x y).trans (tsum_congr fun k => ?_)
      simp only [hc]
      split_ifs with hk
      · rw [show k = (k.1, 0) from Prod.ext rfl hk.1]
      · simp
  have hpQ : ∀ x y, |p x - Q x y| ≤ δ := by
    intro x y
    have h := (ContinuousMap.norm_coe_le_norm (Pc - ∑ i ∈ t, b i • fourier (T := size a 0) i) (x : AddCircle (size a 0))).trans hbt.le
    have e : p x - Q x y = ((Pc - ∑ i ∈ t, b i • fourier (T := size a 0) i) (x : AddCircle (size a 0))).re := by
      rw [ContinuousMap.sub_apply, Complex.sub_re, hPc, onCircle_coe, Complex.ofReal_re, ContinuousMap.sum_apply, Complex.re_sum]
      simp only [hQ, wave_fourier]
      rfl
    rw [e]
    exact (Complex.abs_re_le_norm _).trans h
  have huV : ∀ x y, |V x y - u x| ≤ √B * δ := by
    intro x y
    have h := series_near (kStiff_ne hv hx hK) (cell_squares hv hx) (coeff_response hr) b t (x : AddCircle (size a 0))
    have e : u x - V x y = (onCircle hr.displacement_continuous hr.displacement_periodic (x : AddCircle (size a 0)) - ∑ n ∈ t, b n / cellStiffness a (n, 0) * fourier n (x : AddCircle (size a 0))).re := by
      rw [Complex.sub_re, onCircle_coe, Complex.ofReal_re, Complex.re_sum]
      simp only [hV, wave_fourier]
    rw [abs_sub_comm, e]
    refine (Complex.abs_re_le_norm _).trans (h.trans ?_)
    exact mul_le_mul_of_nonneg_left hbt.le (Real.sqrt_nonneg _)
  refine ⟨2 * t.sup Int.natAbs + 1, fun nx ny s f hN hs hf => ?_⟩
  obtain ⟨i1, i2, P⟩ := per_of_construct (hv' nx ny) hs rfl
  have hny : 0 < ny := Nat.pos_of_ne_zero (NeZero.ne ny)
  set fQ : NdArray ℝ := ⟨[nx, ny], fun x => match x with
    | [i, j] => -(Q (i * (size a 0 / nx)) (j * (size a 1 / ny)) * (size a 0 * size a 1 / (nx * ny)))
    | _ => 0⟩ with hfQ
  have hfQ' : PressureArray nx ny (size a 0) (size a 1) Q fQ := ⟨rfl, fun i j _ _ => rfl⟩
  obtain ⟨wQ, hw1, -, hw2⟩ := C194_exact (a := { a with nbGridPts := [nx, ny] }) (hv' nx ny) hs rfl (c := c) (p := Q) (v := V) hsQ hsV (fun k hk => by
    simp only [hc] at hk
    split_ifs at hk with h
    · have h1 : k.1.natAbs ≤ t.sup Int.natAbs := Finset.le_sup (f := Int.natAbs) h.2
      constructor
      · rw [Int.abs_eq_natAbs]
        exact_mod_cast (by omega : 2 * k.1.natAbs < nx)
      · rw [h.1]
        simpa using hny
    · exact absurd rfl hk) hfQ'
  obtain ⟨w, h1, -, h3⟩ := P.disp hf.shape
  obtain ⟨wQ', h1', -, h3'⟩ := P.disp hfQ'.shape
  have : wQ' = wQ := by rw [h1'] at hw1; injection hw1
  subst this
  refine ⟨w, h1, fun i j hi hj => ?_⟩
  have hA := P.area_pos
  set F : ZMod nx × ZMod ny → ℝ := fun x => p (x.1.val * (size a 0 / nx)) - Q (x.1.val * (size a 0 / nx)) 0 with hF
  have hQy : ∀ x y, Q x y = Q x 0 := by
    intro x y
    simp only [hQ, wave_fourier]
  have et : (tor nx ny fun i j => f.get [i, j]) = fun x => (-s.areaPerPt) * F x + 1 * (tor nx ny fun i j => fQ.get [i, j]) x := by
    funext x
    unfold tor
    beta_reduce
    rw [hf.get _ _ (ZMod.val_lt _) (ZMod.val_lt _), hfQ'.get _ _ (ZMod.val_lt _) (ZMod.val_lt _), P.area, hQy _ (x.2.val * (size a 1 / ny))]
    simp only [hF]
    show _ = -(size a 0 * size a 1 / (nx * ny)) * _ + _
    ring
  have hwd : w.get [i, j] - wQ'.get [i, j] = (pair2 nx ny).act (fun k => (((P.S k)⁻¹ : ℝ) : ℂ)) F ((i : ZMod nx), (j : ZMod ny)) := by
    rw [h3, h3', et, (pair2 nx ny).act_lin]
    field_simp
    ring
  have hbd : |w.get [i, j] - wQ'.get [i, j]| ≤ √B * δ := by
    rw [hwd]
    exact act_line_bound (fun k => (P.S k)⁻¹) (g := fun x => p (x.val * (size a 0 / nx)) - Q (x.val * (size a 0 / nx)) 0) (fun x => hpQ _ _) (grid_squares (hv' nx ny) P) _
  have e2 := hw2 i j hi hj
  have e3 := huV (i * (size a 0 / nx)) (j * (size a 1 / ny))
  have hfin : 2 * √B * δ ≤ ε := by
    rw [hδ, ← mul_div_assoc, div_le_iff₀ (by positivity)]
    nlinarith [Real.sqrt_nonneg B]
  have e2' : wQ'.get [i, j] = V (i * (size a 0 / nx)) (j * (size a 1 / ny)) := e2
  have : w.get [i, j] - u (i * (size a 0 / nx)) = (w.get [i, j] - wQ'.get [i, j]) + (V (i * (size a 0 / nx)) (j * (size a 1 / ny)) - u (i * (size a 0 / nx))) := by rw [e2']; ring
  rw [this]
  refine (abs_add_le _ _).trans ?_
  linarith

end CM.HS
