import Verif.Props.Greens4
import Mathlib.Algebra.Polynomial.Eval.Degree
import Mathlib.LinearAlgebra.Matrix.Polynomial
import Mathlib.Tactic.ComputeDegree
import Mathlib.Topology.Order.IntermediateValue
import Mathlib.Topology.Instances.Matrix
/-!
# C124 in every orientation

In orientations without mirror plane the coefficients `find_eigenvalues` recovers are not those of the determinant (C83), but their
real parts are the coefficients of its even part, which does not vanish on the imaginary axis.
-/
namespace CM.Greens
open Matrix Polynomial

/-- The determinant is a polynomial of degree at most six in the normal component. -/
lemma det_poly (A : Aniso) (qx qy : ℂ) : ∃ m : ℕ → ℂ, ∀ z : ℂ, (bulkop A qx qy z).det
    = m 0 + m 1 * z + m 2 * z ^ 2 + m 3 * z ^ 3 + m 4 * z ^ 4 + m 5 * z ^ 5 + m 6 * z ^ 6 := by
  let a : Fin 3 → Fin 3 → ℂ := fun i l => -(tensor A.C i 0 0 l * qx * qx + tensor A.C i 0 1 l * qx * qy + tensor A.C i 1 0 l * qy * qx + tensor A.C i 1 1 l * qy * qy)
  let b : Fin 3 → Fin 3 → ℂ := fun i l => -((tensor A.C i 0 2 l + tensor A.C i 2 0 l) * qx + (tensor A.C i 1 2 l + tensor A.C i 2 1 l) * qy)
  let c : Fin 3 → Fin 3 → ℂ := fun i l => -(tensor A.C i 2 2 l : ℂ)
  have ent : ∀ z i l, bulkop A qx qy z i l = a i l + b i l * z + c i l * z ^ 2 := by
    intro z i l
    rw [bulkop_entry]
    simp only [a, b, c]
    ring
  let M : Matrix (Fin 3) (Fin 3) ℂ[X] := fun i l => C (a i l) + C (b i l) * X + C (c i l) * X ^ 2
  have hM : ∀ z, (bulkop A qx qy z).det = M.det.eval z := by
    intro z
    rw [Matrix.det_fin_three, Matrix.det_fin_three]
    simp only [ent, M, eval_add, eval_sub, eval_mul, eval_C, eval_X, eval_pow]
  have hd : M.det.natDegree ≤ 6 := by
    rw [Matrix.det_fin_three]
    simp only [M]
    compute_degree
  refine ⟨fun k => M.det.coeff k, fun z => ?_⟩
  rw [hM, eval_eq_sum_range' (n := 7) (by omega)]
  simp only [Finset.sum_range_succ, Finset.sum_range_zero]
  ring

/-- For real wavevectors the determinant at the conjugate is the conjugate. -/
lemma det_conj (A : Aniso) (qx qy : ℝ) (z : ℂ) : (starRingEnd ℂ) (bulkop A qx qy z).det = (bulkop A qx qy ((starRingEnd ℂ) z)).det := by
  rw [RingHom.map_det]
  congr 1
  ext i l
  rw [RingHom.mapMatrix_apply, Matrix.map_apply, bulkop_entry, bulkop_entry]
  simp only [map_neg, map_add, map_mul, Complex.conj_ofReal]

/-- The even part of the determinant does not vanish at imaginary values. -/
lemma even_part_ne_zero {A : Aniso} {qx qy : ℝ} (hell : ∀ t : ℝ, (bulkop A qx qy t).det ≠ 0) (t : ℝ) :
    (bulkop A qx qy (t : ℂ)).det + (bulkop A qx qy (-t : ℂ)).det ≠ 0 := by
  have hre : ∀ s : ℝ, (bulkop A qx qy (s : ℂ)).det = (((bulkop A qx qy (s : ℂ)).det.re : ℝ) : ℂ) := by
    intro s
    have := det_conj A qx qy (s : ℂ)
    rw [Complex.conj_ofReal] at this
    exact (Complex.conj_eq_iff_real.1 this).elim fun r hr => by rw [hr, Complex.ofReal_re]
  let f : ℝ → ℝ := fun s => (bulkop A qx qy (s : ℂ)).det.re
  have hf0 : ∀ s, f s ≠ 0 := fun s h => hell s (by rw [hre s]; show ((f s : ℝ) : ℂ) = 0; rw [h]; rfl)
  have hc : Continuous f := by
    obtain ⟨m, hm⟩ := det_poly A qx qy
    have : f = fun s : ℝ => (m 0 + m 1 * (s : ℂ) + m 2 * (s : ℂ) ^ 2 + m 3 * (s : ℂ) ^ 3 + m 4 * (s : ℂ) ^ 4 + m 5 * (s : ℂ) ^ 5 + m 6 * (s : ℂ) ^ 6).re := by
      funext s; show (bulkop A qx qy (s : ℂ)).det.re = _; rw [hm]
    rw [this]
    fun_prop
  have hsum : f t + f (-t) ≠ 0 := by
    intro h
    rcases lt_or_gt_of_ne (hf0 t) with h1 | h1
    · obtain ⟨s, hs⟩ := mem_range_of_exists_le_of_exists_ge (c := (0 : ℝ)) hc ⟨t, h1.le⟩ ⟨-t, by linarith⟩
      exact hf0 s hs
    · obtain ⟨s, hs⟩ := mem_range_of_exists_le_of_exists_ge (c := (0 : ℝ)) hc ⟨-t, by linarith⟩ ⟨t, h1.le⟩
      exact hf0 s hs
  intro h
  have h' : (((f t + f (-t) : ℝ)) : ℂ) = 0 := by
    rw [Complex.ofReal_add]
    have e1 := hre t
    have e2 := hre (-t)
    rw [Complex.ofReal_neg] at e2
    show (((bulkop A qx qy (t : ℂ)).det.re : ℝ) : ℂ) + (((bulkop A qx qy ((-t : ℝ) : ℂ)).det.re : ℝ) : ℂ) = 0
    rw [← e1, Complex.ofReal_neg, ← e2]
    exact h
  exact hsum (by exact_mod_cast h')

/-- **C124.** Every value `find_eigenvalues` returns for a stable crystal has a positive real part, whatever its orientation. -/
theorem C124_decay (L : Lapack) (hL : L.Ok) (k : Constants) (hk : k.ints = false) (hs : Stable k) (thickness : Option ℝ) (R : Fin 3 → Fin 3 → ℝ) (hR : Rotation R) (A : Aniso)
    (h : construct k thickness R = .ok A) (qx qy : ℝ) (hq : qx ≠ 0 ∨ qy ≠ 0) (Q : ℂ) (hQ : Q ∈ findEigenvalues L A qx qy) : 0 < Q.re := by
  have hell : ∀ t : ℝ, (bulkop A qx qy t).det ≠ 0 := fun t => C124_elliptic k hk hs thickness R hR A h qx qy t (by
    rintro ⟨a, b, _⟩
    rcases hq with h | h
    · exact h a
    · exact h b)
  unfold findEigenvalues at hQ
  rw [List.mem_map] at hQ
  obtain ⟨r, hr, rfl⟩ := hQ
  refine lt_of_le_of_ne (hL.re r) fun h0 => ?_
  have hroot := hL.root _ r hr
  have hsq := hL.sq r
  set t : ℝ := (L.sqrt r).im with ht
  have hQt : L.sqrt r = Complex.I * t := by
    apply Complex.ext <;> simp [← h0, ht]
  have hrt : r = ((-(t ^ 2) : ℝ) : ℂ) := by
    rw [← hsq, hQt, mul_pow, Complex.I_sq]; push_cast; ring
  obtain ⟨m, hm⟩ := det_poly A qx qy
  have hI : Complex.I ^ 2 = -1 := Complex.I_sq
  have hI3 : Complex.I ^ 3 = -Complex.I := Complex.I_pow_three
  have hI4 : Complex.I ^ 4 = 1 := Complex.I_pow_four
  have hI5 : Complex.I ^ 5 = Complex.I := by rw [pow_succ, hI4, one_mul]
  have hI6 : Complex.I ^ 6 = -1 := by rw [show (6 : ℕ) = 4 + 2 from rfl, pow_add, hI4, hI]; ring
  let p : Fin 4 → ℂ := ![-(m 6), m 4, -(m 2), m 0]
  -- the even part
  have heven : ∀ z : ℂ, (bulkop A qx qy (Complex.I * z)).det + (bulkop A qx qy (-(Complex.I * z))).det
      = 2 * (p 0 * z ^ 6 + p 1 * z ^ 4 + p 2 * z ^ 2 + p 3) := by
    intro z
    rw [hm, hm]
    show _ = 2 * (-(m 6) * z ^ 6 + m 4 * z ^ 4 + -(m 2) * z ^ 2 + m 0)
    linear_combination 2 * m 6 * z ^ 6 * hI6 + 2 * m 4 * z ^ 4 * hI4 + 2 * m 2 * z ^ 2 * hI
  set c := coefficients A qx qy with hc
  -- the coefficients solve the system
  let d : Fin 4 → ℂ := ![(bulkop A qx qy 0).det, (bulkop A qx qy Complex.I).det, (bulkop A qx qy (Complex.I * 2)).det, (bulkop A qx qy (Complex.I * 3)).det]
  have hSd : sampleMatrix *ᵥ c = d := by
    rw [hc]
    unfold coefficients
    rw [Matrix.mulVec_mulVec, mul_eq_one_comm.1 sampleMatrix_inv, Matrix.one_mulVec]
  have hsum : ∀ i, c i + (starRingEnd ℂ) (c i) = 2 * p i := by
    have hconj : sampleMatrix *ᵥ (fun i => c i + (starRingEnd ℂ) (c i)) = sampleMatrix *ᵥ fun i => 2 * p i := by
      have e1 : ∀ i, (sampleMatrix *ᵥ fun i => (starRingEnd ℂ) (c i)) i = (starRingEnd ℂ) (d i) := by
        intro i
        rw [← hSd]
        fin_cases i <;> simp [sampleMatrix, Matrix.mulVec, dotProduct, Fin.sum_univ_four, Complex.conj_ofNat]
      have e2 : (sampleMatrix *ᵥ fun i => c i + (starRingEnd ℂ) (c i)) = fun i => d i + (starRingEnd ℂ) (d i) := by
        have : (fun i => c i + (starRingEnd ℂ) (c i)) = c + fun i => (starRingEnd ℂ) (c i) := rfl
        rw [this, Matrix.mulVec_add, hSd]
        funext i
        rw [Pi.add_apply, e1]
      rw [e2]
      have hdc : ∀ x : ℝ, (bulkop A qx qy (Complex.I * x)).det + (starRingEnd ℂ) (bulkop A qx qy (Complex.I * x)).det
          = 2 * (p 0 * x ^ 6 + p 1 * x ^ 4 + p 2 * x ^ 2 + p 3) := by
        intro x
        rw [det_conj, ← heven]
        congr 4
        simp
      funext i
      have h0 := hdc 0
      have h1 := hdc 1
      have h2 := hdc 2
      have h3 := hdc 3
      simp only [Complex.ofReal_zero, Complex.ofReal_one, Complex.ofReal_ofNat, mul_zero, mul_one] at h0 h1 h2 h3
      fin_cases i
      · simp [d, sampleMatrix, Matrix.mulVec, dotProduct, Fin.sum_univ_four] at h0 ⊢
        rw [h0]
      · simp [d, sampleMatrix, Matrix.mulVec, dotProduct, Fin.sum_univ_four] at h1 ⊢
        rw [h1]; ring
      · simp [d, sampleMatrix, Matrix.mulVec, dotProduct, Fin.sum_univ_four] at h2 ⊢
        rw [h2]; ring
      · simp [d, sampleMatrix, Matrix.mulVec, dotProduct, Fin.sum_univ_four] at h3 ⊢
        rw [h3]; ring
    have := congrArg (fun v => sampleMatrix⁻¹ *ᵥ v) hconj
    simp only [Matrix.mulVec_mulVec, sampleMatrix_inv, Matrix.one_mulVec] at this
    exact fun i => congrFun this i
  have hroot' : (starRingEnd ℂ) (c 0) * r ^ 3 + (starRingEnd ℂ) (c 1) * r ^ 2 + (starRingEnd ℂ) (c 2) * r + (starRingEnd ℂ) (c 3) = 0 := by
    have hrc : (starRingEnd ℂ) r = r := by rw [hrt, Complex.conj_ofReal]
    have := congrArg (starRingEnd ℂ) hroot
    simpa [map_add, map_mul, map_pow, hrc] using this
  have hz : p 0 * (L.sqrt r) ^ 6 + p 1 * (L.sqrt r) ^ 4 + p 2 * (L.sqrt r) ^ 2 + p 3 = 0 := by
    have e4 : (L.sqrt r) ^ 4 = r ^ 2 := by
      rw [show (L.sqrt r) ^ 4 = ((L.sqrt r) ^ 2) ^ 2 by ring, hsq]
    have e6 : (L.sqrt r) ^ 6 = r ^ 3 := by
      rw [show (L.sqrt r) ^ 6 = ((L.sqrt r) ^ 2) ^ 3 by ring, hsq]
    rw [e4, e6, hsq]
    linear_combination (1 / 2) * hroot + (1 / 2) * hroot' - (1 / 2) * (r ^ 3 * hsum 0 + r ^ 2 * hsum 1 + r * hsum 2 + hsum 3)
  have := heven (L.sqrt r)
  rw [hz, mul_zero] at this
  refine even_part_ne_zero hell t ?_
  rw [add_comm]
  have e : Complex.I * L.sqrt r = -(t : ℂ) := by rw [hQt, ← mul_assoc, Complex.I_mul_I]; ring
  rw [e, neg_neg] at this
  exact this

/-- Aluminium turned about an axis in the surface, an orientation without mirror plane. -/
example : Stable ⟨108, 61, 28, false⟩ ∧ Rotation (fun i j => !![1, 0, 0; 0, (3 / 5 : ℝ), -(4 / 5); 0, 4 / 5, 3 / 5] i j) ∧
    ∃ A, construct ⟨108, 61, 28, false⟩ none (fun i j => !![1, 0, 0; 0, (3 / 5 : ℝ), -(4 / 5); 0, 4 / 5, 3 / 5] i j) = .ok A := by
  obtain ⟨h, A, hA, -⟩ := C83_turned_partial ⟨108, 61, 28, false⟩ rfl (by norm_num) (by norm_num) (by norm_num) none
  exact ⟨⟨by norm_num, by norm_num, by norm_num⟩, h, A, hA⟩

end CM.Greens
