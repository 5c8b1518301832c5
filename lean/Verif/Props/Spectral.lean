import Verif.Spec.Spectral
import Verif.Props.HalfSpace4
import Mathlib.Analysis.Normed.Group.InfiniteSum
import Mathlib.Topology.Algebra.InfiniteSum.Real
import Mathlib.Topology.Algebra.InfiniteSum.ENNReal
/-!
# Band-limited pressures are answered exactly; all other pressures with an error bounded by their unresolved waves (C194)
-/
namespace CM.HS
open Finset Complex CM.FFT CM.Fourier CM.Spec
open scoped ComplexConjugate

variable {a : Args} {s : HalfSpace} {nx ny : ℕ}

/-! ## Waves on the grid -/

lemma wave_grid [NeZero nx] [NeZero ny] {sx sy : ℝ} (hx : sx ≠ 0) (hy : sy ≠ 0) (k : ℤ × ℤ) (i j : ℕ) :
    cellWave sx sy k (i * (sx / nx)) (j * (sy / ny)) = (pair2 nx ny).χ ((k.1 : ZMod nx), (k.2 : ZMod ny)) ((i : ZMod nx), (j : ZMod ny)) := by
  have h := pair2_cis nx ny k.1 k.2 i j
  simp only [Int.cast_natCast] at h
  rw [← h]
  simp only [cis, cellWave]
  rw [← Complex.exp_add]
  congr 1
  have h1 : (nx : ℂ) ≠ 0 := by exact_mod_cast NeZero.ne nx
  have h2 : (ny : ℂ) ≠ 0 := by exact_mod_cast NeZero.ne ny
  have h3 : (sx : ℂ) ≠ 0 := by exact_mod_cast hx
  have h4 : (sy : ℂ) ≠ 0 := by exact_mod_cast hy
  push_cast
  field_simp

lemma wave_norm (sx sy : ℝ) (k : ℤ × ℤ) (x y : ℝ) : ‖cellWave sx sy k x y‖ = 1 := by
  unfold cellWave
  rw [show (2 * Real.pi * (k.1 * x / sx + k.2 * y / sy) * I : ℂ) = ((2 * Real.pi * (k.1 * x / sx + k.2 * y / sy) : ℝ) : ℂ) * I by push_cast; ring]
  exact Complex.norm_exp_ofReal_mul_I _

/-- The frequency of a resolved wave is its own. -/
lemma freq_resolved {n : ℕ} [NeZero n] {l : ℝ} {k : ℤ} (hk : 2 * |k| < n) : freq n l (k : ZMod n).val ^ 2 = ((k : ℝ) / l) ^ 2 := by
  rcases le_or_gt 0 k with h | h
  · have h1 : 2 * k < n := by rwa [abs_of_nonneg h] at hk
    obtain ⟨m, rfl⟩ := Int.eq_ofNat_of_zero_le h
    have hm : m < n := by omega
    rw [Int.cast_natCast, ZMod.val_cast_of_lt hm]
    unfold freq
    rw [if_pos (by omega)]
    push_cast
    rfl
  · have h1 : 2 * (-k) < n := by rwa [abs_of_neg h] at hk
    have h2 : ((k : ZMod n)) = ((n + k).toNat : ZMod n) := by
      have : (((n + k).toNat : ℤ) : ZMod n) = ((n + k : ℤ) : ZMod n) := by rw [Int.toNat_of_nonneg (by omega)]
      rw [← Int.cast_natCast, this]
      push_cast
      simp
    rw [h2, ZMod.val_cast_of_lt (by omega)]
    unfold freq
    rw [if_neg (by omega)]
    have h3 : (((n + k).toNat : ℕ) : ℝ) = n + k := by
      have : (((n + k).toNat : ℤ) : ℝ) = ((n + k : ℤ) : ℝ) := by rw [Int.toNat_of_nonneg (by omega)]
      push_cast at this
      exact this
    rw [h3]
    ring

lemma cast_zero_resolved {n : ℕ} [NeZero n] {k : ℤ} (hk : 2 * |k| < n) : (k : ZMod n) = 0 ↔ k = 0 := by
  rw [ZMod.intCast_zmod_eq_zero_iff_dvd]
  constructor
  · intro h
    by_contra h0
    have := Int.le_of_dvd (abs_pos.2 h0) ((dvd_abs _ _).2 h)
    have := abs_pos.2 h0
    omega
  · rintro rfl
    exact dvd_zero _

lemma layerFactor_eq (nu Q : ℝ) : layerFactor nu Q = layerCorr nu Q := by
  unfold layerFactor layerCorr
  simp only
  congr 2
  ring

lemma stiff_resolved [NeZero nx] [NeZero ny] (P : Per a s nx ny) {k : ℤ × ℤ} (hk : Resolved nx ny k) : P.S ((k.1 : ZMod nx), (k.2 : ZMod ny)) = cellStiffness a k := by
  have hz : (((k.1 : ZMod nx), (k.2 : ZMod ny)) = (0 : ZMod nx × ZMod ny)) ↔ k = 0 := by
    rw [Prod.ext_iff, Prod.ext_iff]
    simp only [Prod.fst_zero, Prod.snd_zero]
    rw [cast_zero_resolved hk.1, cast_zero_resolved hk.2]
  have hf : 2 * Real.pi * freq2 nx ny (size a 0) (size a 1) (k.1 : ZMod nx).val (k.2 : ZMod ny).val = cellNumber (size a 0) (size a 1) k := by
    unfold freq2 cellNumber
    rw [← sq, ← sq, freq_resolved hk.1, freq_resolved hk.2]
    rw [show (2 * Real.pi * k.1 / size a 0) ^ 2 + (2 * Real.pi * k.2 / size a 1) ^ 2 = (2 * Real.pi) ^ 2 * ((k.1 / size a 0) ^ 2 + (k.2 / size a 1) ^ 2) by ring,
      Real.sqrt_mul (by positivity), Real.sqrt_sq (by positivity)]
  unfold Per.S fullStiff cellStiffness
  by_cases h0 : k = 0
  · rw [if_pos (hz.2 h0), if_pos h0]
  · rw [if_neg (fun h => h0 (hz.1 h)), if_neg h0, P.mat, ← hf]
    unfold stiffnessOfFreq
    cases a.thickness with
    | none => simp only; ring
    | some h =>
      simp only
      rw [layerFactor_eq, show freq2 nx ny (size a 0) (size a 1) (k.1 : ZMod nx).val (k.2 : ZMod ny).val * (2 * Real.pi * h) =
        2 * Real.pi * freq2 nx ny (size a 0) (size a 1) (k.1 : ZMod nx).val (k.2 : ZMod ny).val * h by ring]
      ring

/-! ## Compliances are bounded -/

lemma modulus_pos (hv : ValidArgs a) : 0 < contactModulus a := by
  unfold contactModulus
  have := hv.young_pos
  have := hv.poisson_low
  have := hv.poisson_high
  exact div_pos hv.young_pos (by nlinarith)

lemma compliance_bound (hv : ValidArgs a) {q K m : ℝ} (hm : 0 < m) (hq : 2 * Real.pi / m ≤ q) (hK : contactModulus a / 2 * q ≤ K) : |K⁻¹| ≤ m / (Real.pi * contactModulus a) := by
  have hE := modulus_pos hv
  have hpi := Real.pi_pos
  have h1 : contactModulus a * Real.pi / m ≤ K := by
    refine le_trans ?_ hK
    have := mul_le_mul_of_nonneg_left hq (show 0 ≤ contactModulus a / 2 by positivity)
    refine le_trans (le_of_eq ?_) this
    ring
  have h2 : 0 < contactModulus a * Real.pi / m := by positivity
  rw [abs_of_pos (inv_pos.2 (h2.trans_le h1))]
  calc K⁻¹ ≤ (contactModulus a * Real.pi / m)⁻¹ := inv_anti₀ h2 h1
    _ = _ := by rw [inv_div, mul_comm Real.pi]

lemma factor_ge (hv : ValidArgs a) {q : ℝ} (hq : 0 < q) : 1 ≤ (match a.thickness with | none => (1 : ℝ) | some h => layerCorr a.poisson (q * h)) := by
  split
  · exact le_rfl
  · rename_i h ht
    exact (one_lt_layerCorr (hv.thickness h ht).2 (mul_pos hq (hv.thickness h ht).1)).le

lemma cell_compliance (hv : ValidArgs a) (hx : 0 < size a 0) (hy : 0 < size a 1) (k : ℤ × ℤ) : |(cellStiffness a k)⁻¹| ≤ maxCompliance a := by
  unfold cellStiffness maxCompliance
  by_cases h0 : k = 0
  · rw [if_pos h0, abs_inv]
    exact le_max_left _ _
  · rw [if_neg h0]
    refine le_trans ?_ (le_max_right _ _)
    have hpi := Real.pi_pos
    have hm : 0 < max (size a 0) (size a 1) := lt_max_of_lt_left hx
    have hq : 2 * Real.pi / max (size a 0) (size a 1) ≤ cellNumber (size a 0) (size a 1) k := by
      unfold cellNumber
      refine Real.le_sqrt_of_sq_le ?_
      have key : ∀ (n : ℤ) (l : ℝ), 0 < l → l ≤ max (size a 0) (size a 1) → n ≠ 0 → (2 * Real.pi / max (size a 0) (size a 1)) ^ 2 ≤ (2 * Real.pi * n / l) ^ 2 := by
        intro n l hl hlm hn
        have h1 : (1 : ℝ) ≤ |(n : ℝ)| := by exact_mod_cast Int.one_le_abs hn
        rw [← sq_abs (2 * Real.pi * n / l), abs_div, abs_mul, abs_of_pos hl, abs_of_pos (show 0 < 2 * Real.pi by positivity)]
        have h2 : 2 * Real.pi / max (size a 0) (size a 1) ≤ 2 * Real.pi * |(n : ℝ)| / l := by
          refine div_le_div₀ (by positivity) ?_ hl hlm
          nlinarith
        exact pow_le_pow_left₀ (by positivity) h2 2
      rcases not_and_or.1 (fun h => h0 (Prod.ext h.1 h.2) : ¬ (k.1 = 0 ∧ k.2 = 0)) with h | h
      · have := key k.1 _ hx (le_max_left _ _) h
        nlinarith [sq_nonneg (2 * Real.pi * k.2 / size a 1)]
      · have := key k.2 _ hy (le_max_right _ _) h
        nlinarith [sq_nonneg (2 * Real.pi * k.1 / size a 0)]
    refine compliance_bound hv hm hq ?_
    have hq0 : 0 < cellNumber (size a 0) (size a 1) k := lt_of_lt_of_le (by positivity) hq
    have := factor_ge hv hq0
    simp only [layerFactor_eq]
    have hE := modulus_pos hv
    exact le_mul_of_one_le_right (by positivity) this

lemma freq_low' {n : ℕ} {s : ℝ} (hs : 0 < s) {k : ℕ} (hk : k < n) (h0 : k ≠ 0) : 1 / s ≤ freq n s k := by
  unfold freq
  have hk1 : (1 : ℝ) ≤ k := by exact_mod_cast Nat.one_le_iff_ne_zero.2 h0
  have hk2 : (k : ℝ) + 1 ≤ n := by exact_mod_cast hk
  split_ifs
  · gcongr
  · gcongr; linarith

lemma grid_compliance [NeZero nx] [NeZero ny] (hv : ValidArgs a) (P : Per a s nx ny) (k : ZMod nx × ZMod ny) : |(P.S k)⁻¹| ≤ maxCompliance a := by
  have hx := P.sx_pos
  have hy := P.sy_pos
  have hpi := Real.pi_pos
  unfold Per.S fullStiff maxCompliance
  by_cases h0 : k = 0
  · rw [if_pos h0, abs_inv]
    exact le_max_left _ _
  · rw [if_neg h0]
    refine le_trans ?_ (le_max_right _ _)
    set m := max (size a 0) (size a 1) with hmd
    have hm : 0 < m := lt_max_of_lt_left hx
    have i1 : 1 / m ≤ 1 / size a 0 := one_div_le_one_div_of_le hx (le_max_left _ _)
    have i2 : 1 / m ≤ 1 / size a 1 := one_div_le_one_div_of_le hy (le_max_right _ _)
    have hf : 1 / m ≤ freq2 nx ny (size a 0) (size a 1) k.1.val k.2.val := by
      unfold freq2
      refine Real.le_sqrt_of_sq_le ?_
      have hor : k.1 ≠ 0 ∨ k.2 ≠ 0 := by
        by_contra hc; push Not at hc; exact h0 (Prod.ext hc.1 hc.2)
      have hm1 : 0 < 1 / m := by positivity
      rcases hor with h | h
      · have a := freq_low' hx (ZMod.val_lt k.1) (by rwa [ne_eq, ZMod.val_eq_zero])
        nlinarith [mul_self_nonneg (freq ny (size ‹Args› 1) k.2.val)]
      · have a := freq_low' hy (ZMod.val_lt k.2) (by rwa [ne_eq, ZMod.val_eq_zero])
        nlinarith [mul_self_nonneg (freq nx (size ‹Args› 0) k.1.val)]
    set q := freq2 nx ny (size a 0) (size a 1) k.1.val k.2.val with hqd
    have hq0 : 0 < q := lt_of_lt_of_le (by positivity) hf
    refine compliance_bound hv hm (q := 2 * Real.pi * q) (by
      calc 2 * Real.pi / m = 2 * Real.pi * (1 / m) := by ring
        _ ≤ _ := by gcongr) ?_
    have := factor_ge hv (q := 2 * Real.pi * q) (by positivity)
    have hE := modulus_pos hv
    rw [P.mat]
    unfold stiffnessOfFreq
    cases ht : a.thickness with
    | none => simp only; apply le_of_eq; ring
    | some h =>
      rw [ht] at this
      simp only at this ⊢
      rw [show q * (2 * Real.pi * h) = 2 * Real.pi * q * h by ring, show contactModulus a / 2 * (2 * Real.pi * q) = Real.pi * contactModulus a * q by ring]
      exact le_mul_of_one_le_right (by positivity) this

/-! ## The answer of the grid -/

/-- The action of a real even multiplier on a sum of waves, wave by wave. -/
lemma act_hasSum [NeZero nx] [NeZero ny] (M : ZMod nx × ZMod ny → ℝ) (hM : ∀ k, M (-k) = M k) {c : ℤ × ℤ → ℂ} {F : ZMod nx × ZMod ny → ℝ}
    (hF : ∀ x, HasSum (fun k : ℤ × ℤ => (c k * (pair2 nx ny).χ ((k.1 : ZMod nx), (k.2 : ZMod ny)) x).re) (F x)) (x : ZMod nx × ZMod ny) :
    HasSum (fun k : ℤ × ℤ => M ((k.1 : ZMod nx), (k.2 : ZMod ny)) * (c k * (pair2 nx ny).χ ((k.1 : ZMod nx), (k.2 : ZMod ny)) x).re) ((pair2 nx ny).act (fun k => (M k : ℂ)) F x) := by
  rw [(pair2 nx ny).act_eq_ker]
  have h := hasSum_sum (s := univ) fun (y : ZMod nx × ZMod ny) _ => (hF y).mul_left ((pair2 nx ny).ker (fun k => (M k : ℂ)) (x - y))
  refine h.congr_fun ?_
  intro k
  rw [← (pair2 nx ny).act_char M hM, (pair2 nx ny).act_eq_ker]

lemma spectrum_hasSum {sx sy : ℝ} {c : ℤ × ℤ → ℂ} {p : ℝ → ℝ → ℝ} (h : Spectrum sx sy c p) (x y : ℝ) : HasSum (fun k => (c k * cellWave sx sy k x y).re) (p x y) := by
  rw [h.sum]
  refine Summable.hasSum (Summable.of_norm_bounded h.summable fun k => ?_)
  refine (Complex.abs_re_le_norm _).trans ?_
  rw [norm_mul, wave_norm, mul_one]

lemma Spectrum.response (hv : ValidArgs a) (hx : 0 < size a 0) (hy : 0 < size a 1) {c : ℤ × ℤ → ℂ} {p : ℝ → ℝ → ℝ} (hp : Spectrum (size a 0) (size a 1) c p) :
    Spectrum (size a 0) (size a 1) (fun k => c k / cellStiffness a k) (fun x y => ∑' k, (c k / cellStiffness a k * cellWave (size a 0) (size a 1) k x y).re) := by
  refine ⟨Summable.of_nonneg_of_le (fun _ => norm_nonneg _) (fun k => ?_) (hp.summable.mul_left (maxCompliance a)), fun _ _ => rfl⟩
  rw [norm_div, div_eq_mul_inv, mul_comm, ← norm_inv, ← ofReal_inv, norm_real, Real.norm_eq_abs]
  exact mul_le_mul_of_nonneg_right (cell_compliance hv hx hy k) (norm_nonneg _)

lemma tsum_sub (Q : ℤ × ℤ → Prop) (g : ℤ × ℤ → ℝ) : ∑' k : {k // Q k}, g k = ∑' k, {k | Q k}.indicator g k := tsum_subtype {k | Q k} g

lemma term_bound {c w : ℂ} {M K G : ℝ} (hw : ‖w‖ = 1) (hM : |M| ≤ G) (hK : |K⁻¹| ≤ G) : |M * (c * w).re - (c / K * w).re| ≤ 2 * G * ‖c‖ := by
  have e : (c / K * w).re = K⁻¹ * (c * w).re := by
    rw [← re_ofReal_mul]
    congr 1
    push_cast
    ring
  have h1 : |(c * w).re| ≤ ‖c‖ := by
    refine (Complex.abs_re_le_norm _).trans ?_
    rw [norm_mul, hw, mul_one]
  rw [e, ← sub_mul, abs_mul]
  refine mul_le_mul ?_ h1 (abs_nonneg _) (by have := abs_nonneg M; linarith)
  have := abs_sub M K⁻¹
  linarith

/-- The difference of the answers of the grid and of the continuous substrate. -/
lemma answer_error [NeZero nx] [NeZero ny] (hv : ValidArgs a) (P : Per a s nx ny) {c : ℤ × ℤ → ℂ} {p v : ℝ → ℝ → ℝ} (hp : Spectrum (size a 0) (size a 1) c p)
    (hu : Spectrum (size a 0) (size a 1) (fun k => c k / cellStiffness a k) v) {f : NdArray ℝ} (hf : PressureArray nx ny (size a 0) (size a 1) p f) :
    ∃ u, evaluateDisp s f = .ok u ∧ u.shape = [nx, ny] ∧ ∀ i j, i < nx → j < ny →
      |u.get [i, j] - v (i * (size a 0 / nx)) (j * (size a 1 / ny))| ≤ 2 * maxCompliance a * ∑' k : {k // ¬ Resolved nx ny k}, ‖c k‖ := by
  have hx := P.sx_pos
  have hy := P.sy_pos
  obtain ⟨u, hu1, hu2, hu3⟩ := P.disp hf.shape
  refine ⟨u, hu1, hu2, fun i j hi hj => ?_⟩
  have hn1 : (0 : ℝ) < nx := by exact_mod_cast Nat.pos_of_ne_zero (NeZero.ne nx)
  have hn2 : (0 : ℝ) < ny := by exact_mod_cast Nat.pos_of_ne_zero (NeZero.ne ny)
  have hA : s.areaPerPt ≠ 0 := P.area_pos.ne'
  set F : ZMod nx × ZMod ny → ℝ := fun x => p (x.1.val * (size a 0 / nx)) (x.2.val * (size a 1 / ny)) with hF
  have hFs : ∀ x, HasSum (fun k : ℤ × ℤ => (c k * (pair2 nx ny).χ ((k.1 : ZMod nx), (k.2 : ZMod ny)) x).re) (F x) := by
    intro x
    have h := spectrum_hasSum hp (x.1.val * (size a 0 / nx)) (x.2.val * (size a 1 / ny))
    simp only [wave_grid hx.ne' hy.ne', ZMod.natCast_zmod_val] at h
    exact h
  have et : (tor nx ny fun i j => f.get [i, j]) = fun x => (-s.areaPerPt) * F x + 0 * F x := by
    funext x
    unfold tor
    beta_reduce
    rw [hf.get _ _ (ZMod.val_lt _) (ZMod.val_lt _), P.area]
    simp only [hF]
    ring
  have hus : HasSum (fun k : ℤ × ℤ => (P.S ((k.1 : ZMod nx), (k.2 : ZMod ny)))⁻¹ * (c k * cellWave (size a 0) (size a 1) k (i * (size a 0 / nx)) (j * (size a 1 / ny))).re) (u.get [i, j]) := by
    have h := act_hasSum (fun k => (P.S k)⁻¹) (fun k => by rw [P.S_neg]) hFs ((i : ZMod nx), (j : ZMod ny))
    rw [hu3, et, (pair2 nx ny).act_lin]
    rw [show -(-s.areaPerPt * (pair2 nx ny).act (fun k => (((P.S k)⁻¹ : ℝ) : ℂ)) F ((i : ZMod nx), (j : ZMod ny)) +
      0 * (pair2 nx ny).act (fun k => (((P.S k)⁻¹ : ℝ) : ℂ)) F ((i : ZMod nx), (j : ZMod ny))) / s.areaPerPt
      = (pair2 nx ny).act (fun k => (((P.S k)⁻¹ : ℝ) : ℂ)) F ((i : ZMod nx), (j : ZMod ny)) by field_simp; ring]
    simp only [wave_grid hx.ne' hy.ne']
    exact h
  have hd := hus.sub (spectrum_hasSum hu (i * (size a 0 / nx)) (j * (size a 1 / ny)))
  rw [← hd.tsum_eq, ← tsum_mul_left, tsum_sub (fun k => ¬ Resolved nx ny k) fun k => 2 * maxCompliance a * ‖c k‖]
  have hsum : Summable ({k | ¬ Resolved nx ny k}.indicator fun k => 2 * maxCompliance a * ‖c k‖) := (hp.summable.mul_left _).indicator _
  rw [← Real.norm_eq_abs]
  refine tsum_of_norm_bounded hsum.hasSum fun k => ?_
  rw [Real.norm_eq_abs]
  by_cases hk : Resolved nx ny k
  · rw [Set.indicator_of_notMem (by simpa using hk), stiff_resolved P hk]
    refine le_of_eq ?_
    rw [abs_eq_zero, sub_eq_zero, ← re_ofReal_mul]
    congr 1
    push_cast
    ring
  · rw [Set.indicator_of_mem (by simpa using hk)]
    exact term_bound (wave_norm _ _ _ _ _) (grid_compliance hv P _) (cell_compliance hv hx hy k)

section
variable (hv : ValidArgs a) (hs : construct a = .ok s) (hg : a.nbGridPts = [nx, ny])

include hv hs hg in
/-- **C194** (error bound). A pressure with summable plane waves, put on the grid, is answered by `evaluate_disp` at every grid point like the continuous substrate answers it there, up to twice the
largest compliance times the sum of the amplitudes of the waves that the grid does not resolve. -/
theorem C194_error {c : ℤ × ℤ → ℂ} {p v : ℝ → ℝ → ℝ} (hp : Spectrum (size a 0) (size a 1) c p)
    (hu : Spectrum (size a 0) (size a 1) (fun k => c k / cellStiffness a k) v) {f : NdArray ℝ} (hf : PressureArray nx ny (size a 0) (size a 1) p f) :
    ∃ u, evaluateDisp s f = .ok u ∧ u.shape = [nx, ny] ∧ ∀ i j, i < nx → j < ny →
      |u.get [i, j] - v (i * (size a 0 / nx)) (j * (size a 1 / ny))| ≤ 2 * maxCompliance a * ∑' k : {k // ¬ Resolved nx ny k}, ‖c k‖ := by
  obtain ⟨_, _, P⟩ := per_of_construct hv hs hg
  exact answer_error hv P hp hu hf

include hv hs hg in
/-- **C194** (exactness). A pressure made of waves that the grid resolves is answered exactly: the displacements at the grid points are those of the continuous substrate. -/
theorem C194_exact {c : ℤ × ℤ → ℂ} {p v : ℝ → ℝ → ℝ} (hp : Spectrum (size a 0) (size a 1) c p)
    (hu : Spectrum (size a 0) (size a 1) (fun k => c k / cellStiffness a k) v) (hc : ∀ k, c k ≠ 0 → Resolved nx ny k) {f : NdArray ℝ}
    (hf : PressureArray nx ny (size a 0) (size a 1) p f) :
    ∃ u, evaluateDisp s f = .ok u ∧ u.shape = [nx, ny] ∧ ∀ i j, i < nx → j < ny → u.get [i, j] = v (i * (size a 0 / nx)) (j * (size a 1 / ny)) := by
  obtain ⟨u, h1, h2, h3⟩ := C194_error hv hs hg hp hu hf
  refine ⟨u, h1, h2, fun i j hi hj => ?_⟩
  have h := h3 i j hi hj
  have hz : ∑' k : {k // ¬ Resolved nx ny k}, ‖c k‖ = 0 := by
    have : ∀ k : {k // ¬ Resolved nx ny k}, ‖c k‖ = 0 := fun k => by
      rw [norm_eq_zero]
      by_contra hk
      exact k.2 (hc _ hk)
    simp only [this, tsum_zero]
  rw [hz, mul_zero] at h
  exact sub_eq_zero.1 (abs_eq_zero.1 (le_antisymm h (abs_nonneg _)))
end

lemma sizes_grid (nx ny : ℕ) (i : ℕ) : size { a with nbGridPts := [nx, ny] } i = size a i := rfl

/-- **C194** (convergence). For every pressure with summable plane waves and every bound there is a resolution from which on all grids, with any numbers of points along the two axes, answer the
pressure up to the bound at every grid point. -/
theorem C194_convergence (hv : ValidArgs a) {c : ℤ × ℤ → ℂ} {p v : ℝ → ℝ → ℝ} (hp : Spectrum (size a 0) (size a 1) c p)
    (hu : Spectrum (size a 0) (size a 1) (fun k => c k / cellStiffness a k) v) {ε : ℝ} (hε : 0 < ε) :
    ∃ N : ℕ, ∀ (nx ny : ℕ) (s : HalfSpace) (f : NdArray ℝ), N ≤ nx → N ≤ ny → construct { a with nbGridPts := [nx, ny] } = .ok s →
      PressureArray nx ny (size a 0) (size a 1) p f →
      ∃ u, evaluateDisp s f = .ok u ∧ ∀ i j, i < nx → j < ny → |u.get [i, j] - v (i * (size a 0 / nx)) (j * (size a 1 / ny))| ≤ ε := by
  have hG : 0 ≤ maxCompliance a := le_trans (by positivity) (le_max_left _ _)
  obtain ⟨t, ht⟩ := Filter.eventually_atTop.1 ((tendsto_tsum_compl_atTop_zero fun k => ‖c k‖).eventually (gt_mem_nhds (show 0 < ε / (2 * maxCompliance a + 1) by positivity)))
  obtain ⟨B, hB⟩ : ∃ B : ℕ, ∀ k ∈ t, |k.1| ≤ B ∧ |k.2| ≤ B := by
    refine ⟨t.sup fun k => max k.1.natAbs k.2.natAbs, fun k hk => ?_⟩
    have h : max k.1.natAbs k.2.natAbs ≤ t.sup fun k => max k.1.natAbs k.2.natAbs := Finset.le_sup (f := fun k : ℤ × ℤ => max k.1.natAbs k.2.natAbs) hk
    have h1 := (le_max_left _ _).trans h
    have h2 := (le_max_right _ _).trans h
    rw [Int.abs_eq_natAbs, Int.abs_eq_natAbs]
    exact ⟨by exact_mod_cast h1, by exact_mod_cast h2⟩
  refine ⟨2 * B + 1, fun nx ny s f hx hy hs hf => ?_⟩
  have hv' : ValidArgs { a with nbGridPts := [nx, ny] } := ⟨hv.1, hv.2, hv.3, hv.4, hv.5⟩
  obtain ⟨u, h1, -, h3⟩ := C194_error (a := { a with nbGridPts := [nx, ny] }) hv' hs rfl (c := c) (p := p) (v := v) hp hu hf
  refine ⟨u, h1, fun i j hi hj => (h3 i j hi hj).trans ?_⟩
  have hle : ∑' k : {k // ¬ Resolved nx ny k}, ‖c k‖ ≤ ∑' k : {k // k ∉ t}, ‖c k‖ := by
    rw [tsum_sub (fun k => ¬ Resolved nx ny k) fun k => ‖c k‖, tsum_sub (fun k => k ∉ t) fun k => ‖c k‖]
    refine Summable.tsum_le_tsum (fun k => ?_) (hp.summable.indicator _) (hp.summable.indicator _)
    have hsub : {k : ℤ × ℤ | ¬ Resolved nx ny k} ⊆ {k | k ∉ t} := by
      intro k (hk : ¬ Resolved nx ny k)
      show k ∉ t
      intro hkt
      refine hk ?_
      obtain ⟨b1, b2⟩ := hB k hkt
      constructor
      · have : ((2 * B + 1 : ℕ) : ℤ) ≤ nx := by exact_mod_cast hx
        push_cast at this
        linarith
      · have : ((2 * B + 1 : ℕ) : ℤ) ≤ ny := by exact_mod_cast hy
        push_cast at this
        linarith
    exact Set.indicator_le_indicator_of_subset hsub (fun _ => norm_nonneg _) k
  have h4 := hle.trans (ht t le_rfl).le
  show 2 * maxCompliance a * _ ≤ ε
  calc 2 * maxCompliance a * ∑' k : {k // ¬ Resolved nx ny k}, ‖c k‖ ≤ 2 * maxCompliance a * (ε / (2 * maxCompliance a + 1)) := by gcongr
    _ ≤ ε := by
      rw [← mul_div_assoc, div_le_iff₀ (by positivity)]
      nlinarith

/-- The hypotheses are met: the pressure `1 + cos(2πx/sx) / 2` on a half-space, whose spectrum has three waves. -/
example : ∃ c : ℤ × ℤ → ℂ, Spectrum 2 3 c (fun x _ => 1 + Real.cos (2 * Real.pi * x / 2) / 2) ∧ ∀ k, c k ≠ 0 → Resolved 3 3 k := by
  refine ⟨fun k => if k = 0 then 1 else if k = (1, 0) then 1 / 2 else 0, ⟨?_, fun x y => ?_⟩, fun k hk => ?_⟩
  · refine summable_of_ne_finset_zero (s := {0, (1, 0)}) fun k hk => ?_
    simp only [Finset.mem_insert, Finset.mem_singleton, not_or] at hk
    rw [if_neg hk.1, if_neg hk.2, norm_zero]
  · rw [tsum_eq_sum (s := {0, (1, 0)})]
    · rw [Finset.sum_insert (by simp [Prod.ext_iff]), Finset.sum_singleton, if_pos rfl, if_neg (by simp [Prod.ext_iff]), if_pos rfl]
      unfold cellWave
      rw [show (2 * (Real.pi : ℂ) * (((1, 0) : ℤ × ℤ).1 * (x : ℂ) / (2 : ℝ) + ((1, 0) : ℤ × ℤ).2 * (y : ℂ) / (3 : ℝ)) * I) = ((2 * Real.pi * x / 2 : ℝ) : ℂ) * I by push_cast; ring,
        show (1 / 2 : ℂ) = ((1 / 2 : ℝ) : ℂ) by push_cast; ring, re_ofReal_mul, exp_ofReal_mul_I_re]
      simp
      ring
    · intro k hk
      simp only [Finset.mem_insert, Finset.mem_singleton, not_or] at hk
      rw [if_neg hk.1, if_neg hk.2, zero_mul, zero_re]
  · simp only at hk
    split_ifs at hk with h1 h2
    · rw [h1]; constructor <;> norm_num
    · rw [h2]; constructor <;> norm_num
    · exact absurd rfl hk

end CM.HS
