import Verif.Spec.Greens
import Verif.Model.HalfSpace
import Mathlib.LinearAlgebra.Matrix.ToLinearEquiv
import Mathlib.Tactic.Ring
import Mathlib.Tactic.Linarith
import Mathlib.Tactic.FieldSimp
import Mathlib.Tactic.Positivity
import Mathlib.Tactic.LinearCombination
import Mathlib.Tactic.FinCases
/-!
# Properties of the isotropic Green's function (C79-C81, C120-C122)
-/
namespace CM.Greens

open Matrix

lemma sqrt_sum_pos {qx qy : ℝ} (h : qx ≠ 0 ∨ qy ≠ 0) : 0 < √(qx ^ 2 + qy ^ 2) := by
  apply Real.sqrt_pos.2
  rcases h with h | h
  · have := sq_nonneg qy; positivity
  · have := sq_nonneg qx; positivity

/-- The matrix in terms of the direction of the wavevector. -/
noncomputable def dirG (nu c s : ℝ) : M3 :=
  !![((1 - nu * c ^ 2 : ℝ) : ℂ), ((-nu * c * s : ℝ) : ℂ), Complex.I * (((1 - 2 * nu) / 2 * c : ℝ) : ℂ);
    ((-nu * c * s : ℝ) : ℂ), ((1 - nu * s ^ 2 : ℝ) : ℂ), Complex.I * (((1 - 2 * nu) / 2 * s : ℝ) : ℂ);
    -Complex.I * (((1 - 2 * nu) / 2 * c : ℝ) : ℂ), -Complex.I * (((1 - 2 * nu) / 2 * s : ℝ) : ℂ), ((1 - nu : ℝ) : ℂ)]

lemma isoG_eq (mu nu qx qy : ℝ) (hmu : mu ≠ 0) (h : qx ≠ 0 ∨ qy ≠ 0) :
    isoG mu nu qx qy = ((1 / (mu * √(qx ^ 2 + qy ^ 2)) : ℝ) : ℂ) • dirG nu (qx / √(qx ^ 2 + qy ^ 2)) (qy / √(qx ^ 2 + qy ^ 2)) := by
  have hq := sqrt_sum_pos h
  unfold isoG dirG
  simp only
  generalize √(qx ^ 2 + qy ^ 2) = q at hq ⊢
  have hq0 : q ≠ 0 := hq.ne'
  have hqc : (q : ℂ) ≠ 0 := by exact_mod_cast hq0
  have hmc : (mu : ℂ) ≠ 0 := by exact_mod_cast hmu
  ext i j
  fin_cases i <;> fin_cases j <;> simp <;> field_simp

lemma dir_norm {qx qy : ℝ} (h : qx ≠ 0 ∨ qy ≠ 0) : (qx / √(qx ^ 2 + qy ^ 2)) ^ 2 + (qy / √(qx ^ 2 + qy ^ 2)) ^ 2 = 1 := by
  have hq := sqrt_sum_pos h
  have hs : √(qx ^ 2 + qy ^ 2) ^ 2 = qx ^ 2 + qy ^ 2 := Real.sq_sqrt (by positivity)
  rw [div_pow, div_pow, ← add_div, hs, div_self]
  rw [← hs]
  positivity

/-- The energy, in the directions along, across and normal to the wave. -/
lemma dirG_form (nu c s : ℝ) (hcs : c ^ 2 + s ^ 2 = 1) (x : Fin 3 → ℂ) :
    (∑ i, ∑ j, (starRingEnd ℂ) (x i) * dirG nu c s i j * x j).re
      = (-(s * (x 0).re) + c * (x 1).re) ^ 2 + (-(s * (x 0).im) + c * (x 1).im) ^ 2
        + (3 / 4 - nu) * ((c * (x 0).re + s * (x 1).re - (x 2).im) ^ 2 + (c * (x 0).im + s * (x 1).im + (x 2).re) ^ 2)
        + 1 / 4 * ((c * (x 0).re + s * (x 1).re + (x 2).im) ^ 2 + (c * (x 0).im + s * (x 1).im - (x 2).re) ^ 2) := by
  simp [Fin.sum_univ_three, dirG, Complex.mul_re, Complex.mul_im, pow_two]
  have hs : s ^ 2 = 1 - c ^ 2 := by linarith
  ring_nf
  simp only [hs]
  ring

lemma posDef_smul (a : ℝ) (ha : 0 < a) (A : M3) (h : PositiveDefinite A) : PositiveDefinite ((a : ℂ) • A) := by
  intro x hx
  have e : ∑ i, ∑ j, (starRingEnd ℂ) (x i) * ((a : ℂ) • A) i j * x j = (a : ℂ) * ∑ i, ∑ j, (starRingEnd ℂ) (x i) * A i j * x j := by
    rw [Finset.mul_sum]
    refine Finset.sum_congr rfl fun i _ => ?_
    rw [Finset.mul_sum]
    refine Finset.sum_congr rfl fun j _ => ?_
    rw [Matrix.smul_apply, smul_eq_mul]
    ring
  rw [e, Complex.re_ofReal_mul]
  exact mul_pos ha (h x hx)

lemma dirG_posDef (nu c s : ℝ) (hcs : c ^ 2 + s ^ 2 = 1) (hnu : nu < 3 / 4) : PositiveDefinite (dirG nu c s) := by
  intro x hx
  rw [dirG_form nu c s hcs]
  have h0 : 0 < 3 / 4 - nu := by linarith
  by_contra hcon
  push Not at hcon
  set T1 := -(s * (x 0).re) + c * (x 1).re with hT1
  set T2 := -(s * (x 0).im) + c * (x 1).im with hT2
  set L1 := c * (x 0).re + s * (x 1).re with hL1
  set L2 := c * (x 0).im + s * (x 1).im with hL2
  have n1 := sq_nonneg T1
  have n2 := sq_nonneg T2
  have n3 := mul_nonneg h0.le (add_nonneg (sq_nonneg (L1 - (x 2).im)) (sq_nonneg (L2 + (x 2).re)))
  have n4 := sq_nonneg (L1 + (x 2).im)
  have n5 := sq_nonneg (L2 - (x 2).re)
  have e1 : T1 = 0 := pow_eq_zero_iff (n := 2) two_ne_zero |>.1 (by linarith)
  have e2 : T2 = 0 := pow_eq_zero_iff (n := 2) two_ne_zero |>.1 (by linarith)
  have e3 : L1 + (x 2).im = 0 := pow_eq_zero_iff (n := 2) two_ne_zero |>.1 (by linarith)
  have e4 : L2 - (x 2).re = 0 := pow_eq_zero_iff (n := 2) two_ne_zero |>.1 (by linarith)
  have hsum : (L1 - (x 2).im) ^ 2 + (L2 + (x 2).re) ^ 2 = 0 := by
    have : (3 / 4 - nu) * ((L1 - (x 2).im) ^ 2 + (L2 + (x 2).re) ^ 2) = 0 := by linarith
    exact (mul_eq_zero.1 this).resolve_left h0.ne'
  have n6 := sq_nonneg (L1 - (x 2).im)
  have n7 := sq_nonneg (L2 + (x 2).re)
  have e5 : L1 - (x 2).im = 0 := pow_eq_zero_iff (n := 2) two_ne_zero |>.1 (by linarith)
  have e6 : L2 + (x 2).re = 0 := pow_eq_zero_iff (n := 2) two_ne_zero |>.1 (by linarith)
  apply hx
  have l1 : L1 = 0 := by linarith
  have l2 : L2 = 0 := by linarith
  have z1 : (x 2).im = 0 := by linarith
  have z2 : (x 2).re = 0 := by linarith
  have a1 : (x 0).re = 0 := by linear_combination c * l1 - s * e1 - (x 0).re * hcs
  have a2 : (x 0).im = 0 := by linear_combination c * l2 - s * e2 - (x 0).im * hcs
  have b1 : (x 1).re = 0 := by linear_combination s * l1 + c * e1 - (x 1).re * hcs
  have b2 : (x 1).im = 0 := by linear_combination s * l2 + c * e2 - (x 1).im * hcs
  funext i
  fin_cases i
  · exact Complex.ext a1 a2
  · exact Complex.ext b1 b2
  · exact Complex.ext z2 z1

/-- A positive definite matrix is invertible. -/
lemma det_ne_zero_of_posDef (A : M3) (h : PositiveDefinite A) : A.det ≠ 0 := by
  intro hdet
  obtain ⟨v, hv, hv0⟩ := Matrix.exists_mulVec_eq_zero_iff.2 hdet
  have := h v hv
  have e : ∑ i, ∑ j, (starRingEnd ℂ) (v i) * A i j * v j = 0 := by
    refine Finset.sum_eq_zero fun i _ => ?_
    have hi : ∑ j, A i j * v j = 0 := congrFun hv0 i
    calc ∑ j, (starRingEnd ℂ) (v i) * A i j * v j = (starRingEnd ℂ) (v i) * ∑ j, A i j * v j := by
          rw [Finset.mul_sum]; exact Finset.sum_congr rfl fun j _ => by ring
      _ = 0 := by rw [hi, mul_zero]
  rw [e] at this
  simp at this

lemma inv_ok (A : M3) (h : A.det ≠ 0) : inv A = .ok A⁻¹ ∧ Inverses A A⁻¹ := by
  refine ⟨if_neg h, Matrix.mul_nonsing_inv A (isUnit_iff_ne_zero.2 h), Matrix.nonsing_inv_mul A (isUnit_iff_ne_zero.2 h)⟩

/-! ## C79 -/

/-- **C79.** For every wavevector and all admissible constants the Green's function is Hermitian and positive definite (a Poisson ratio below 3/4 is enough). -/
theorem C79_hermitian_positive (mu nu qx qy : ℝ) (hmu : 0 < mu) (hnu : nu < 3 / 4) (h : qx ≠ 0 ∨ qy ≠ 0) :
    Hermitian (isoG mu nu qx qy) ∧ PositiveDefinite (isoG mu nu qx qy) := by
  have hq := sqrt_sum_pos h
  rw [isoG_eq mu nu qx qy hmu.ne' h]
  refine ⟨fun i j => ?_, posDef_smul _ (by positivity) _ (dirG_posDef nu _ _ (dir_norm h) hnu)⟩
  fin_cases i <;> fin_cases j <;> simp [dirG, map_ofNat]

/-- **C79.** The stiffness is the inverse of the Green's function, unless both components of the wavevector are below the cut-off. -/
theorem C79_inverse_partial (mu nu qx qy : ℝ) (hmu : 0 < mu) (hnu : nu < 3 / 4) (h : 1e-6 ≤ |qx| ∨ 1e-6 ≤ |qy|) :
    ∃ K, isoK mu nu qx qy = .ok K ∧ Inverses (isoG mu nu qx qy) K := by
  have h' : qx ≠ 0 ∨ qy ≠ 0 := by
    rcases h with h | h
    · left; rintro rfl; norm_num at h
    · right; rintro rfl; norm_num at h
  have hd := det_ne_zero_of_posDef _ (C79_hermitian_positive mu nu qx qy hmu hnu h').2
  obtain ⟨h1, h2⟩ := inv_ok _ hd
  refine ⟨_, ?_, h2⟩
  unfold isoK
  rw [if_neg, h1]
  rintro ⟨a, b⟩
  rcases h with h | h <;> linarith

example : (1e-6 : ℝ) ≤ |1| ∨ (1e-6 : ℝ) ≤ |(0 : ℝ)| := by left; norm_num

/-- **C79, refuted below the cut-off.** The stiffness is the zero matrix there, which is not the inverse of anything. -/
theorem C79_cutoff_partial (mu nu qx qy : ℝ) (h : |qx| < 1e-6 ∧ |qy| < 1e-6) : isoK mu nu qx qy = .ok 0 ∧ ¬ Inverses (isoG mu nu qx qy) 0 := by
  refine ⟨if_pos h, fun hi => ?_⟩
  have := hi.1
  rw [mul_zero] at this
  have h00 := congrFun (congrFun this 0) 0
  simp at h00

lemma sqrt_scale (t qx qy : ℝ) (ht : 0 < t) : √((t * qx) ^ 2 + (t * qy) ^ 2) = t * √(qx ^ 2 + qy ^ 2) := by
  have : (t * qx) ^ 2 + (t * qy) ^ 2 = t ^ 2 * (qx ^ 2 + qy ^ 2) := by ring
  rw [this, Real.sqrt_mul (by positivity), Real.sqrt_sq ht.le]

/-! ## C80 -/

/-- **C80.** The normal component is the Green's function of the periodic half-space, `2 / (E* |q|)` with the contact modulus `E* = E / (1 - nu^2)` of Young's modulus `E = 2 mu (1 + nu)`. -/
theorem C80_normal (mu nu qx qy : ℝ) (hmu : mu ≠ 0) (hnu : nu ≠ 1) (hnu' : nu ≠ -1) (h : qx ≠ 0 ∨ qy ≠ 0) :
    isoG mu nu qx qy 2 2 = ((2 / ((2 * mu * (1 + nu)) / (1 - nu ^ 2) * √(qx ^ 2 + qy ^ 2)) : ℝ) : ℂ) := by
  have hq := (sqrt_sum_pos h).ne'
  have h1 : 1 - nu ≠ 0 := sub_ne_zero.2 hnu.symm
  have h2 : 1 + nu ≠ 0 := fun h => hnu' (by linarith)
  have h3 : 1 - nu ^ 2 ≠ 0 := by
    have : 1 - nu ^ 2 = (1 - nu) * (1 + nu) := by ring
    rw [this]
    exact mul_ne_zero h1 h2
  unfold isoG
  simp only [Matrix.smul_apply, smul_eq_mul]
  simp only [Matrix.of_apply, Matrix.cons_val', Matrix.cons_val_one, Matrix.cons_val, Matrix.cons_val_fin_one]
  rw [← Complex.ofReal_mul]
  congr 1
  generalize √(qx ^ 2 + qy ^ 2) = q at hq
  field_simp
  ring

/-- **C80.** At every wavevector of the grid of a periodic half-space the two classes agree: entry `(i, j)` of the Green's function that the half-space computes is the normal component of the isotropic
Green's function at the wavevector `2 pi (1 / lambda)`, with the shear modulus of the half-space's Young's modulus and Poisson ratio. -/
theorem C80_periodic (E nu : ℝ) (q0 : Option ℝ) (nx ny : ℕ) (sx sy : ℝ) (nf : ℕ × ℕ) (G : ℕ → ℕ → ℝ) (hE : E ≠ 0) (hnu : nu ≠ 1) (hnu' : nu ≠ -1)
    (hG : HS.greensBlock2 ⟨E, nu, E / (1 - nu ^ 2), q0, none⟩ nx ny sx sy (0, 0) nf = .ok G) (hn : nf.1 * nf.2 ≠ 0) (i j : ℕ) (hij : ¬ (i = 0 ∧ j = 0))
    (hq : HS.freq nx sx i ≠ 0 ∨ HS.freq ny sy j ≠ 0) :
    ((G i j : ℝ) : ℂ) = isoG (E / (2 * (1 + nu))) nu (2 * Real.pi * HS.freq nx sx i) (2 * Real.pi * HS.freq ny sy j) 2 2 := by
  have h1 : 1 - nu ≠ 0 := sub_ne_zero.2 hnu.symm
  have h2 : 1 + nu ≠ 0 := fun h => hnu' (by linarith)
  have h3 : 1 - nu ^ 2 ≠ 0 := by
    have : 1 - nu ^ 2 = (1 - nu) * (1 + nu) := by ring
    rw [this]
    exact mul_ne_zero h1 h2
  have hpi := Real.pi_ne_zero
  rw [C80_normal _ nu _ _ (div_ne_zero hE (mul_ne_zero two_ne_zero h2)) hnu hnu' (hq.imp (mul_ne_zero (by positivity)) (mul_ne_zero (by positivity))), sqrt_scale (2 * Real.pi) _ _ (by positivity)]
  have hval : G i j = 1 / (Real.pi * (E / (1 - nu ^ 2)) * HS.freq2 nx ny sx sy i j) := by
    unfold HS.greensBlock2 at hG
    rw [if_neg hn] at hG
    unfold HS.stiffnessBlock2 at hG
    simp only [if_true, zero_add, true_and] at hG
    have fin : ∀ g : ℝ, (fun i j => 1 / (if i = 0 ∧ j = 0 then g else HS.stiffnessOfFreq ⟨E, nu, E / (1 - nu ^ 2), q0, none⟩ (HS.freq2 nx ny sx sy i j)) : ℕ → ℕ → ℝ) i j
        = 1 / (Real.pi * (E / (1 - nu ^ 2)) * HS.freq2 nx ny sx sy i j) := by
      intro g
      simp only
      rw [if_neg hij]
      rfl
    cases q0 with
    | none =>
      simp only at hG
      by_cases hs : nf.1 ≤ 1 ∨ nf.2 ≤ 1
      · rw [if_pos hs] at hG; cases hG
      · rw [if_neg hs] at hG
        simp only [reduceCtorEq, if_false] at hG
        injection hG with hG
        rw [← hG]
        exact fin _
    | some q =>
      simp only [Option.some.injEq] at hG
      by_cases h0 : q = 0
      · rw [if_pos h0] at hG
        simp only [bind, Except.bind] at hG
        rw [if_pos h0] at hG
        injection hG with hG
        rw [← hG]
        simp only
        rw [if_neg hij]
        exact fin _
      · rw [if_neg h0] at hG
        simp only [bind, Except.bind] at hG
        rw [if_neg h0] at hG
        injection hG with hG
        rw [← hG]
        exact fin _
  have hf : HS.freq2 nx ny sx sy i j = √(HS.freq nx sx i ^ 2 + HS.freq ny sy j ^ 2) := by
    unfold HS.freq2
    rw [pow_two, pow_two]
  rw [hval, hf]
  have hq' := (sqrt_sum_pos hq).ne'
  congr 1
  generalize √(HS.freq nx sx i ^ 2 + HS.freq ny sy j ^ 2) = q at hq'
  field_simp

/-! ## C81 -/

/-- **C81.** The Green's function is homogeneous: a wavevector that is longer by a factor gives a matrix that is smaller by the same factor. -/
theorem C81_greens (mu nu qx qy t : ℝ) (hmu : mu ≠ 0) (ht : 0 < t) (h : qx ≠ 0 ∨ qy ≠ 0) :
    isoG mu nu (t * qx) (t * qy) = ((1 / t : ℝ) : ℂ) • isoG mu nu qx qy := by
  have h' : t * qx ≠ 0 ∨ t * qy ≠ 0 := h.imp (mul_ne_zero ht.ne') (mul_ne_zero ht.ne')
  have hq := (sqrt_sum_pos h).ne'
  rw [isoG_eq mu nu _ _ hmu h', isoG_eq mu nu qx qy hmu h, sqrt_scale t qx qy ht, smul_smul, ← Complex.ofReal_mul]
  congr 1
  · congr 1
    field_simp
  · rw [mul_div_mul_left _ _ ht.ne', mul_div_mul_left _ _ ht.ne']

/-- **C81.** So is the stiffness, as long as both wavevectors are outside the cut-off … -/
theorem C81_stiffness_partial (mu nu qx qy t : ℝ) (hmu : 0 < mu) (hnu : nu < 3 / 4) (ht : 0 < t) (h : 1e-6 ≤ |qx| ∨ 1e-6 ≤ |qy|) (h' : 1e-6 ≤ |t * qx| ∨ 1e-6 ≤ |t * qy|) :
    ∃ K K', isoK mu nu qx qy = .ok K ∧ isoK mu nu (t * qx) (t * qy) = .ok K' ∧ K' = (t : ℂ) • K := by
  have h0 : qx ≠ 0 ∨ qy ≠ 0 := by
    rcases h with h | h
    · left; rintro rfl; norm_num at h
    · right; rintro rfl; norm_num at h
  obtain ⟨K, k1, k2⟩ := C79_inverse_partial mu nu qx qy hmu hnu h
  obtain ⟨K', k1', k2'⟩ := C79_inverse_partial mu nu (t * qx) (t * qy) hmu hnu h'
  refine ⟨K, K', k1, k1', ?_⟩
  have e := k2'.1
  rw [C81_greens mu nu qx qy t hmu.ne' ht h0, Matrix.smul_mul] at e
  have htc : (t : ℂ) ≠ 0 := by exact_mod_cast ht.ne'
  have e2 : isoG mu nu qx qy * K' = (t : ℂ) • (1 : M3) := by
    rw [← e, smul_smul, ← Complex.ofReal_mul, mul_one_div_cancel ht.ne', Complex.ofReal_one, one_smul]
  calc K' = 1 * K' := (one_mul _).symm
    _ = (K * isoG mu nu qx qy) * K' := by rw [k2.2]
    _ = K * (isoG mu nu qx qy * K') := mul_assoc _ _ _
    _ = (t : ℂ) • K := by rw [e2, Matrix.mul_smul, mul_one]

/-- … **C81, refuted.** For every wavevector there are scale factors that bring it below the absolute cut-off, where the stiffness vanishes, although the scaled stiffness does not. -/
theorem C81_cutoff_partial (mu nu qx qy : ℝ) (hmu : 0 < mu) (hnu : nu < 3 / 4) (h : 1e-6 ≤ |qx| ∨ 1e-6 ≤ |qy|) :
    ∃ t : ℝ, 0 < t ∧ ∃ K, isoK mu nu qx qy = .ok K ∧ isoK mu nu (t * qx) (t * qy) = .ok 0 ∧ (t : ℂ) • K ≠ 0 := by
  set B := |qx| + |qy| + 1 with hB
  have hB0 : 0 < B := by positivity
  refine ⟨1e-6 / (2 * B), by positivity, ?_⟩
  obtain ⟨K, k1, k2⟩ := C79_inverse_partial mu nu qx qy hmu hnu h
  have hs : ∀ q : ℝ, |q| ≤ B → |1e-6 / (2 * B) * q| < 1e-6 := by
    intro q hq
    rw [abs_mul, abs_of_pos (by positivity), div_mul_eq_mul_div, div_lt_iff₀ (by positivity)]
    nlinarith
  have b1 : |qx| ≤ B := by have := abs_nonneg qy; rw [hB]; linarith
  have b2 : |qy| ≤ B := by have := abs_nonneg qx; rw [hB]; linarith
  refine ⟨K, k1, if_pos ⟨hs qx b1, hs qy b2⟩, fun h0 => ?_⟩
  · have htc : ((1e-6 / (2 * B) : ℝ) : ℂ) ≠ 0 := by
      have : (0 : ℝ) < 1e-6 / (2 * B) := by positivity
      exact_mod_cast this.ne'
    have hK : K = 0 := (smul_eq_zero.1 h0).resolve_left htc
    have := k2.1
    rw [hK, mul_zero] at this
    have h00 := congrFun (congrFun this 0) 0
    simp at h00

/-! ## C120: real fields -/

/-- **C120.** The matrix of the opposite wavevector is the complex conjugate, so real loads give real displacements. -/
theorem C120_conjugate (mu nu qx qy : ℝ) (i j : Fin 3) : isoG mu nu (-qx) (-qy) i j = (starRingEnd ℂ) (isoG mu nu qx qy i j) := by
  unfold isoG
  simp only [neg_sq]
  fin_cases i <;> fin_cases j <;> simp [map_ofNat]

/-- **C120.** The same holds for the stiffness. -/
theorem C120_conjugate_stiffness (mu nu qx qy : ℝ) (K : M3) (h : isoK mu nu qx qy = .ok K) : isoK mu nu (-qx) (-qy) = .ok (K.map (starRingEnd ℂ)) := by
  unfold isoK at h ⊢
  rw [abs_neg, abs_neg]
  by_cases hc : |qx| < 1e-6 ∧ |qy| < 1e-6
  · rw [if_pos hc] at h ⊢
    injection h with h
    rw [← h]
    congr 1
    ext i j
    simp
  · rw [if_neg hc] at h ⊢
    have hm : isoG mu nu (-qx) (-qy) = (isoG mu nu qx qy).map (starRingEnd ℂ) := by
      ext i j
      exact C120_conjugate mu nu qx qy i j
    unfold inv at h ⊢
    rw [hm]
    have hdet : ((isoG mu nu qx qy).map (starRingEnd ℂ)).det = (starRingEnd ℂ) (isoG mu nu qx qy).det := by
      rw [← RingHom.mapMatrix_apply, ← RingHom.map_det]
    split_ifs at h with h0
    injection h with h
    rw [hdet, if_neg (by simpa using h0), ← h]
    congr 1
    refine Matrix.inv_eq_right_inv ?_
    rw [← RingHom.mapMatrix_apply, ← RingHom.mapMatrix_apply, ← map_mul, Matrix.mul_nonsing_inv _ (isUnit_iff_ne_zero.2 h0), map_one]

/-! ## C121: isotropy -/

/-- **C121.** Turning the wavevector about the surface normal turns the matrix. -/
theorem C121_turn (mu nu qx qy c s : ℝ) (hmu : mu ≠ 0) (hcs : c ^ 2 + s ^ 2 = 1) (h : qx ≠ 0 ∨ qy ≠ 0) :
    isoG mu nu (c * qx - s * qy) (s * qx + c * qy) = turn c s * isoG mu nu qx qy * (turn c s)ᵀ := by
  have hn : (c * qx - s * qy) ^ 2 + (s * qx + c * qy) ^ 2 = qx ^ 2 + qy ^ 2 := by linear_combination (qx ^ 2 + qy ^ 2) * hcs
  have hq := (sqrt_sum_pos h).ne'
  have h' : c * qx - s * qy ≠ 0 ∨ s * qx + c * qy ≠ 0 := by
    by_contra hcon
    push Not at hcon
    rw [hcon.1, hcon.2] at hn
    apply hq
    rw [← hn]
    simp
  rw [isoG_eq mu nu _ _ hmu h', isoG_eq mu nu _ _ hmu h, hn, Matrix.mul_smul, Matrix.smul_mul]
  congr 1
  generalize √(qx ^ 2 + qy ^ 2) = q at hq
  have e1 : (c * qx - s * qy) / q = c * (qx / q) - s * (qy / q) := by ring
  have e2 : (s * qx + c * qy) / q = s * (qx / q) + c * (qy / q) := by ring
  rw [e1, e2]
  generalize qx / q = a
  generalize qy / q = b
  have hcsc : (c : ℂ) ^ 2 + (s : ℂ) ^ 2 = 1 := by exact_mod_cast hcs
  ext i j
  fin_cases i <;> fin_cases j <;> simp [dirG, turn, Matrix.mul_apply, Fin.sum_univ_three]
  · linear_combination -hcsc
  · ring
  · ring
  · ring
  · linear_combination -hcsc
  · ring
  · ring
  · ring

/-! ## C122: vectors of wavevectors -/

/-- **C122.** With vectors, each matrix of the result belongs to one wavevector, in order … -/
theorem C122_vectors (mu nu : ℝ) (xs ys : List ℝ) (hl : xs.length = ys.length) :
    ∃ l, isoGreens mu nu (.vec xs) (.vec ys) = .ok (.many l) ∧ l.length = xs.length
      ∧ ∀ k (h : k < xs.length) (h' : k < ys.length) (h'' : k < l.length), l[k] = isoG mu nu xs[k] ys[k] := by
  have hm : ∀ ps : List (ℝ × ℝ), (ps.mapM fun p => (Except.ok (isoG mu nu p.1 p.2) : Except PyErr M3)) = .ok (ps.map fun p => isoG mu nu p.1 p.2) := by
    intro ps
    induction ps with
    | nil => rfl
    | cons p ps ih => rw [List.mapM_cons, ih]; rfl
  refine ⟨(xs.zip ys).map fun p => isoG mu nu p.1 p.2, ?_, by simp [hl], fun k h h' h'' => by simp⟩
  unfold isoGreens overWaves
  simp only
  rw [hm]
  rfl

/-- **C122, refuted for vectors of different lengths.** The surplus wavevectors are dropped without an exception. -/
theorem C122_dropped_partial (mu nu : ℝ) (xs ys rest : List ℝ) (hl : xs.length = ys.length) :
    isoGreens mu nu (.vec (xs ++ rest)) (.vec ys) = isoGreens mu nu (.vec xs) (.vec ys)
    ∧ isoStiffness mu nu (.vec (xs ++ rest)) (.vec ys) = isoStiffness mu nu (.vec xs) (.vec ys) := by
  have : (xs ++ rest).zip ys = xs.zip ys := by
    have := List.zip_append (l₁ := xs) (r₁ := rest) (l₂ := ys) (r₂ := []) hl
    simpa using this
  unfold isoGreens isoStiffness overWaves
  simp only [this]
  exact ⟨trivial, trivial⟩

/-- Numbers and vectors must not be mixed. -/
theorem C122_mixed (mu nu x : ℝ) (ys : List ℝ) :
    isoGreens mu nu (.num x) (.vec ys) = .error .typeError ∧ isoGreens mu nu (.vec ys) (.num x) = .error .typeError := ⟨rfl, rfl⟩

end CM.Greens
