import Verif.Props.Greens
import Verif.Spec.Elastic
import Mathlib.Analysis.SpecialFunctions.Exp
import Mathlib.Analysis.SpecialFunctions.ExpDeriv
/-!
# The isotropic Green's function is the response of an elastic half-space (C123)
-/
namespace CM.Greens

open Matrix Filter

/-- Amplitude `(a + b z) exp(q z)`. -/
noncomputable def amp (q : ℝ) (a b : Fin 3 → ℂ) (z : ℝ) : Fin 3 → ℂ := fun i => (a i + b i * z) * (Real.exp (q * z) : ℝ)

lemma hasDerivAt_amp (q : ℝ) (a b : Fin 3 → ℂ) (z : ℝ) (i : Fin 3) :
    HasDerivAt (fun z => amp q a b z i) (amp q (fun i => b i + q * a i) (fun i => q * b i) z i) z := by
  unfold amp
  have h1 : HasDerivAt (fun z : ℝ => a i + b i * (z : ℂ)) (b i) z := by
    have := (Complex.ofRealCLM.hasDerivAt (x := z)).const_mul (b i) |>.const_add (a i)
    simpa using this
  have h2 : HasDerivAt (fun z : ℝ => ((Real.exp (q * z) : ℝ) : ℂ)) ((Real.exp (q * z) * q : ℝ) : ℂ) z := by
    have h : HasDerivAt (fun z : ℝ => Real.exp (q * z)) (Real.exp (q * z) * q) z := by
      have := (hasDerivAt_id z).const_mul q |>.exp
      simpa using this
    exact h.ofReal_comp
  have hm := h1.mul h2
  have e : ((fun i => b i + (q : ℂ) * a i) i + (fun i => (q : ℂ) * b i) i * (z : ℂ)) * ((Real.exp (q * z) : ℝ) : ℂ) = b i * ((Real.exp (q * z) : ℝ) : ℂ) + (a i + b i * z) * ((Real.exp (q * z) * q : ℝ) : ℂ) := by
    rw [Complex.ofReal_mul]
    ring
  rw [e]
  exact hm

lemma amp_decay (q : ℝ) (hq : 0 < q) (a b : Fin 3 → ℂ) (i : Fin 3) : Tendsto (fun z => amp q a b z i) atBot (nhds 0) := by
  have e0 : Tendsto (fun z : ℝ => Real.exp (q * z)) atBot (nhds 0) := Real.tendsto_exp_atBot.comp (tendsto_id.const_mul_atBot hq)
  have e1 : Tendsto (fun z : ℝ => z * Real.exp (q * z)) atBot (nhds 0) := by
    have h := (Real.tendsto_pow_mul_exp_neg_atTop_nhds_zero 1).comp (tendsto_id.const_mul_atBot_of_neg (show -q < 0 by linarith) : Tendsto (fun z : ℝ => -q * z) atBot atTop)
    have h' := h.const_mul (-1 / q)
    rw [mul_zero] at h'
    refine h'.congr fun z => ?_
    simp only [Function.comp, pow_one]
    have hq0 := hq.ne'
    have : -(-q * z) = q * z := by ring
    rw [this]
    field_simp
  have c0 : Tendsto (fun z : ℝ => ((Real.exp (q * z) : ℝ) : ℂ)) atBot (nhds 0) := by
    have := (Complex.continuous_ofReal.tendsto 0).comp e0
    rwa [Complex.ofReal_zero] at this
  have c1 : Tendsto (fun z : ℝ => ((z * Real.exp (q * z) : ℝ) : ℂ)) atBot (nhds 0) := by
    have := (Complex.continuous_ofReal.tendsto 0).comp e1
    rwa [Complex.ofReal_zero] at this
  have := (c0.const_mul (a i)).add (c1.const_mul (b i))
  simp only [mul_zero, add_zero] at this
  refine this.congr fun z => ?_
  unfold amp
  push_cast
  ring

/-- Growth rate of the amplitude. -/
noncomputable def beta (mu c s : ℝ) (t : Fin 3 → ℂ) : ℂ := (Complex.I * (c * t 0 + s * t 1) + t 2) / (2 * mu)

/-- Coefficient of `z` of the amplitude. -/
noncomputable def slope (mu c s : ℝ) (t : Fin 3 → ℂ) : Fin 3 → ℂ := ![-Complex.I * c * beta mu c s t, -Complex.I * s * beta mu c s t, -beta mu c s t]

/-- **C123.** The isotropic Green's function is the response of an elastic half-space: for every traction with wavevector `q` there is a displacement field in equilibrium that dies out with depth, with
that traction at the surface, and whose surface displacement is the product of the traction with the *transposed* matrix.  (The matrix that is returned is the one for waves `exp(-i q x)`, see `C123_conjugate`.) -/
theorem C123_response (mu nu qx qy : ℝ) (hmu : mu ≠ 0) (hnu : nu ≠ 1 / 2) (h : qx ≠ 0 ∨ qy ≠ 0) (t : Fin 3 → ℂ) :
    ∃ w, Elastic.Solution (2 * mu * nu / (1 - 2 * nu)) mu qx qy t w ∧ w 0 = (isoG mu nu qx qy)ᵀ *ᵥ t := by
  have hq := sqrt_sum_pos h
  have hcs := dir_norm h
  set q := √(qx ^ 2 + qy ^ 2) with hqdef
  have hq0 : q ≠ 0 := hq.ne'
  have hs : q ^ 2 = qx ^ 2 + qy ^ 2 := Real.sq_sqrt (by positivity)
  have hx : qx = q * (qx / q) := by field_simp
  have hy : qy = q * (qy / q) := by field_simp
  have hG : isoG mu nu qx qy = ((1 / (mu * q) : ℝ) : ℂ) • dirG nu (qx / q) (qy / q) := isoG_eq mu nu qx qy hmu h
  generalize qx / q = c at *
  generalize qy / q = s at *
  have hnu' : (1 - 2 * nu : ℝ) ≠ 0 := fun h' => hnu (by linarith)
  have hqc : (q : ℂ) ≠ 0 := by exact_mod_cast hq0
  have hmc : (mu : ℂ) ≠ 0 := by exact_mod_cast hmu
  have hnc : (1 - 2 * (nu : ℂ)) ≠ 0 := by exact_mod_cast hnu'
  have hc : (c : ℂ) ^ 2 + (s : ℂ) ^ 2 = 1 := by exact_mod_cast hcs
  have hI := Complex.I_sq
  set a := (isoG mu nu qx qy)ᵀ *ᵥ t with ha
  set b := slope mu c s t with hb
  have a0 : (mu * q : ℂ) * a 0 = (1 - nu * c ^ 2) * t 0 - nu * c * s * t 1 - Complex.I * ((1 - 2 * nu) / 2 * c) * t 2 := by
    rw [ha, hG]
    simp [dirG, Matrix.mulVec, dotProduct, Fin.sum_univ_three, Matrix.transpose_apply]
    field_simp
    ring
  have a1 : (mu * q : ℂ) * a 1 = - nu * c * s * t 0 + (1 - nu * s ^ 2) * t 1 - Complex.I * ((1 - 2 * nu) / 2 * s) * t 2 := by
    rw [ha, hG]
    simp [dirG, Matrix.mulVec, dotProduct, Fin.sum_univ_three, Matrix.transpose_apply]
    field_simp
    ring
  have a2 : (mu * q : ℂ) * a 2 = Complex.I * ((1 - 2 * nu) / 2 * c) * t 0 + Complex.I * ((1 - 2 * nu) / 2 * s) * t 1 + (1 - nu) * t 2 := by
    rw [ha, hG]
    simp [dirG, Matrix.mulVec, dotProduct, Fin.sum_univ_three, Matrix.transpose_apply]
    field_simp
  have hbeta : (2 * mu : ℂ) * beta mu c s t = Complex.I * (c * t 0 + s * t 1) + t 2 := by
    unfold beta; field_simp
  have b0 : b 0 = -Complex.I * c * beta mu c s t := rfl
  have b1 : b 1 = -Complex.I * s * beta mu c s t := rfl
  have b2 : b 2 = -beta mu c s t := rfl
  generalize beta mu c s t = B at hbeta b0 b1 b2
  have key : (q : ℂ) * (Complex.I * c * a 0 + Complex.I * s * a 1 + a 2) = B * (3 - 4 * nu) := by
    have : (2 * mu : ℂ) * ((q : ℂ) * (Complex.I * c * a 0 + Complex.I * s * a 1 + a 2)) = (2 * mu : ℂ) * (B * (3 - 4 * nu)) := by
      linear_combination (2 * Complex.I * c) * a0 + (2 * Complex.I * s) * a1 + 2 * a2 - (3 - 4 * nu) * hbeta
        + (- 2 * Complex.I * nu * (c * t 0 + s * t 1) - Complex.I ^ 2 * (1 - 2 * nu) * t 2) * hc - (1 - 2 * nu) * t 2 * hI
    exact mul_left_cancel₀ (by simpa using hmc) this
  refine ⟨amp q a b, ⟨amp q (fun i => b i + q * a i) (fun i => q * b i), amp q (fun i => q * b i + q * (b i + q * a i)) (fun i => q * (q * b i)), hasDerivAt_amp q a b, hasDerivAt_amp q _ _, ?_, ?_, amp_decay q hq a b, amp_decay q hq _ _⟩, ?_⟩
  · intro z
    have hdiv : ∀ E : ℂ, Complex.I * qx * ((a 0 + b 0 * z) * E) + Complex.I * qy * ((a 1 + b 1 * z) * E) + (b 2 + q * a 2 + q * b 2 * z) * E = 2 * (1 - 2 * nu) * B * E := by
      intro E
      rw [hx, hy, b0, b1, b2]
      push_cast
      linear_combination E * key - E * q * B * z * Complex.I ^ 2 * hc - E * q * B * z * hI
    have hdiv' : ∀ E : ℂ, Complex.I * qx * ((b 0 + q * a 0 + q * b 0 * z) * E) + Complex.I * qy * ((b 1 + q * a 1 + q * b 1 * z) * E) + (q * b 2 + q * (b 2 + q * a 2) + q * (q * b 2) * z) * E
        = 2 * (1 - 2 * nu) * B * q * E := by
      intro E
      rw [hx, hy, b0, b1, b2]
      push_cast
      linear_combination E * q * key - E * q * B * Complex.I ^ 2 * hc - E * q * B * hI - E * q ^ 2 * B * z * Complex.I ^ 2 * hc - E * q ^ 2 * B * z * hI
    have hl : ((2 * mu * nu / (1 - 2 * nu) + mu : ℝ) : ℂ) = mu / (1 - 2 * nu) := by
      push_cast
      field_simp
      ring
    have hs' : ((qx ^ 2 + qy ^ 2 : ℝ) : ℂ) = q ^ 2 := by rw [← hs]; push_cast; rfl
    intro i
    rw [hl, hs']
    fin_cases i
    · simp only [Elastic.gradDiv, Elastic.div, amp, Fin.zero_eta, Fin.isValue, Matrix.cons_val_zero]
      rw [hdiv, b0, hx]
      push_cast
      field_simp
      ring
    · simp only [Elastic.gradDiv, Elastic.div, amp, Fin.mk_one, Fin.isValue, Matrix.cons_val_one, Matrix.cons_val_zero]
      rw [hdiv, b1, hy]
      push_cast
      field_simp
      ring
    · simp only [Elastic.gradDiv, Elastic.div, amp, Fin.reduceFinMk, Fin.isValue, Matrix.cons_val]
      rw [hdiv', b2]
      field_simp
      ring
  · have hB : ∀ i, amp q a b 0 i = a i := by intro i; simp [amp]
    have hB' : ∀ i, amp q (fun i => b i + q * a i) (fun i => q * b i) 0 i = b i + q * a i := by intro i; simp [amp]
    funext i
    fin_cases i
    · simp only [Elastic.stress, hB, hB', Fin.zero_eta, Fin.isValue, Matrix.cons_val_zero]
      rw [hx, b0]
      push_cast
      linear_combination a0 + Complex.I * c * a2 - Complex.I * c / 2 * hbeta - nu * c * (c * t 0 + s * t 1) * hI
    · simp only [Elastic.stress, hB, hB', Fin.mk_one, Fin.isValue, Matrix.cons_val_one, Matrix.cons_val_zero]
      rw [hy, b1]
      push_cast
      linear_combination a1 + Complex.I * s * a2 - Complex.I * s / 2 * hbeta - nu * s * (c * t 0 + s * t 1) * hI
    · simp only [Elastic.stress, Elastic.div, hB, hB', Fin.reduceFinMk, Fin.isValue, Matrix.cons_val]
      have hd : Complex.I * (qx : ℂ) * a 0 + Complex.I * qy * a 1 + (b 2 + q * a 2) = 2 * (1 - 2 * nu) * B := by
        rw [hx, hy, b2]
        push_cast
        linear_combination key
      have hl : ((2 * mu * nu / (1 - 2 * nu) : ℝ) : ℂ) * (2 * (1 - 2 * nu) * B) = 4 * mu * nu * B := by
        push_cast
        field_simp
        ring
      rw [hd, hl, b2]
      linear_combination 2 * a2 - (1 - 2 * nu) * hbeta
  · funext i; simp [amp]

example : (1 : ℝ) ≠ 0 ∧ (3 / 10 : ℝ) ≠ 1 / 2 ∧ ((2 : ℝ) ≠ 0 ∨ (1 : ℝ) ≠ 0) := by norm_num

/-- **C123.** Without transposing, the matrix that is returned is the response to waves `exp(-i q x)`. -/
theorem C123_conjugate (mu nu qx qy : ℝ) (hmu : mu ≠ 0) (hnu : nu ≠ 1 / 2) (h : qx ≠ 0 ∨ qy ≠ 0) (t : Fin 3 → ℂ) :
    ∃ w, Elastic.Solution (2 * mu * nu / (1 - 2 * nu)) mu (-qx) (-qy) t w ∧ w 0 = isoG mu nu qx qy *ᵥ t := by
  obtain ⟨w, h1, h2⟩ := C123_response mu nu (-qx) (-qy) hmu hnu (by simpa using h) t
  refine ⟨w, h1, ?_⟩
  rw [h2]
  congr 1
  ext i j
  rw [Matrix.transpose_apply, C120_conjugate]
  unfold isoG
  fin_cases i <;> fin_cases j <;> simp [map_ofNat]

/-- Betti's reciprocity: the mutual work of two waves with opposite wavevectors does not depend on the depth. -/
lemma betti (lam mu qx qy : ℝ) (w w' w'' v v' v'' : ℝ → Fin 3 → ℂ) (hw : ∀ z i, HasDerivAt (fun z => w z i) (w' z i) z) (hw' : ∀ z i, HasDerivAt (fun z => w' z i) (w'' z i) z)
    (hv : ∀ z i, HasDerivAt (fun z => v z i) (v' z i) z) (hv' : ∀ z i, HasDerivAt (fun z => v' z i) (v'' z i) z)
    (nw : ∀ z, Elastic.Navier lam mu qx qy (w z) (w' z) (w'' z)) (nv : ∀ z, Elastic.Navier lam mu (-qx) (-qy) (v z) (v' z) (v'' z)) (z : ℝ) :
    HasDerivAt (fun z => ∑ i, (v z i * Elastic.stress lam mu qx qy (w z) (w' z) i - w z i * Elastic.stress lam mu (-qx) (-qy) (v z) (v' z) i)) 0 z := by
  have hI := Complex.I_sq
  have sw : ∀ i, HasDerivAt (fun z => Elastic.stress lam mu qx qy (w z) (w' z) i) (Elastic.stress lam mu qx qy (w' z) (w'' z) i) z := by
    intro i
    fin_cases i
    · exact ((hw' z 0).add ((hw z 2).const_mul _)).const_mul _
    · exact ((hw' z 1).add ((hw z 2).const_mul _)).const_mul _
    · exact (((((hw z 0).const_mul _).add ((hw z 1).const_mul _)).add (hw' z 2)).const_mul _).add ((hw' z 2).const_mul _)
  have sv : ∀ i, HasDerivAt (fun z => Elastic.stress lam mu (-qx) (-qy) (v z) (v' z) i) (Elastic.stress lam mu (-qx) (-qy) (v' z) (v'' z) i) z := by
    intro i
    fin_cases i
    · exact ((hv' z 0).add ((hv z 2).const_mul _)).const_mul _
    · exact ((hv' z 1).add ((hv z 2).const_mul _)).const_mul _
    · exact (((((hv z 0).const_mul _).add ((hv z 1).const_mul _)).add (hv' z 2)).const_mul _).add ((hv' z 2).const_mul _)
  have hsum := HasDerivAt.fun_sum (u := Finset.univ) fun i _ => (((hv z i).mul (sw i)).sub ((hw z i).mul (sv i)))
  have hz : ∑ i, (v' z i * Elastic.stress lam mu qx qy (w z) (w' z) i + v z i * Elastic.stress lam mu qx qy (w' z) (w'' z) i
      - (w' z i * Elastic.stress lam mu (-qx) (-qy) (v z) (v' z) i + w z i * Elastic.stress lam mu (-qx) (-qy) (v' z) (v'' z) i)) = 0 := by
    have n0 := nw z 0
    have n1 := nw z 1
    have n2 := nw z 2
    have m0 := nv z 0
    have m1 := nv z 1
    have m2 := nv z 2
    simp only [Elastic.gradDiv, Elastic.div, Fin.isValue, Matrix.cons_val] at n0 n1 n2 m0 m1 m2
    simp only [Fin.sum_univ_three, Elastic.stress, Elastic.div, Fin.isValue, Matrix.cons_val]
    push_cast at *
    linear_combination v z 0 * n0 + v z 1 * n1 + v z 2 * n2 - w z 0 * m0 - w z 1 * m1 - w z 2 * m2
  rw [hz] at hsum
  exact hsum

/-- **C123.** It is the only response: whenever the surface of a half-space in equilibrium is loaded by a traction and displacements and strains die out with depth, the displacement of the surface is given by this matrix. -/
theorem C123_unique (mu nu qx qy : ℝ) (hmu : mu ≠ 0) (hnu : nu ≠ 1 / 2) (h : qx ≠ 0 ∨ qy ≠ 0) (t : Fin 3 → ℂ) (w : ℝ → Fin 3 → ℂ)
    (hw : Elastic.Solution (2 * mu * nu / (1 - 2 * nu)) mu qx qy t w) : w 0 = (isoG mu nu qx qy)ᵀ *ᵥ t := by
  obtain ⟨w', w'', d1, d2, nw, tw, l1, l2⟩ := hw
  funext j
  obtain ⟨v, ⟨v', v'', e1, e2, nv, tv, k1, k2⟩, v0⟩ := C123_conjugate mu nu qx qy hmu hnu h (Pi.single j 1)
  have hb := betti _ mu qx qy w w' w'' v v' v'' d1 d2 e1 e2 nw nv
  set f := fun z => ∑ i, (v z i * Elastic.stress (2 * mu * nu / (1 - 2 * nu)) mu qx qy (w z) (w' z) i - w z i * Elastic.stress (2 * mu * nu / (1 - 2 * nu)) mu (-qx) (-qy) (v z) (v' z) i) with hf
  have hconst : ∀ z, f z = f 0 := fun z => is_const_of_deriv_eq_zero (fun z => (hb z).differentiableAt) (fun z => (hb z).deriv) z 0
  have slim : ∀ (Qx Qy : ℝ) (u u' : ℝ → Fin 3 → ℂ), (∀ i, Tendsto (fun z => u z i) atBot (nhds 0)) → (∀ i, Tendsto (fun z => u' z i) atBot (nhds 0)) →
      ∀ i, Tendsto (fun z => Elastic.stress (2 * mu * nu / (1 - 2 * nu)) mu Qx Qy (u z) (u' z) i) atBot (nhds 0) := by
    intro Qx Qy u u' h1 h2 i
    fin_cases i
    · have := ((h2 0).add ((h1 2).const_mul (Complex.I * Qx))).const_mul (mu : ℂ)
      simp only [mul_zero, add_zero] at this
      exact this
    · have := ((h2 1).add ((h1 2).const_mul (Complex.I * Qy))).const_mul (mu : ℂ)
      simp only [mul_zero, add_zero] at this
      exact this
    · have := (((((h1 0).const_mul (Complex.I * Qx)).add ((h1 1).const_mul (Complex.I * Qy))).add (h2 2)).const_mul ((2 * mu * nu / (1 - 2 * nu) : ℝ) : ℂ)).add ((h2 2).const_mul (2 * (mu : ℂ)))
      simp only [mul_zero, add_zero] at this
      exact this
  have hlim : Tendsto f atBot (nhds 0) := by
    have := tendsto_finsetSum (s := (Finset.univ : Finset (Fin 3))) fun i _ => ((k1 i).mul (slim qx qy w w' l1 l2 i)).sub ((l1 i).mul (slim (-qx) (-qy) v v' k1 k2 i))
    simp only [mul_zero, sub_zero, Finset.sum_const_zero] at this
    exact this
  have h0 : f 0 = 0 := by
    have hc : Tendsto f atBot (nhds (f 0)) := by
      have : f = fun _ => f 0 := funext hconst
      rw [this]
      exact tendsto_const_nhds
    exact tendsto_nhds_unique hc hlim
  rw [hf] at h0
  simp only [tw, tv] at h0
  simp only [v0] at h0
  have : w 0 j = ∑ i, isoG mu nu qx qy i j * t i := by
    have hs : ∑ i, w 0 i * (Pi.single j 1 : Fin 3 → ℂ) i = w 0 j := by simp [Pi.single_apply]
    rw [Finset.sum_sub_distrib, hs] at h0
    rw [← sub_eq_zero.1 h0]
    refine Finset.sum_congr rfl fun i _ => ?_
    congr 1
    simp [Matrix.mulVec, dotProduct, Pi.single_apply]
  rw [this]
  rfl

/-- **C123.** In particular the periodic half-space is the exact solution of the equations of elasticity: its Green's function at a wavevector of the grid is the normal displacement of the surface under the
unit frictionless normal load with that wavevector. -/
theorem C123_periodic (E nu : ℝ) (q0 : Option ℝ) (nx ny : ℕ) (sx sy : ℝ) (nf : ℕ × ℕ) (G : ℕ → ℕ → ℝ) (hE : E ≠ 0) (hnu : nu ≠ 1) (hnu' : nu ≠ -1) (hnu2 : nu ≠ 1 / 2)
    (hG : HS.greensBlock2 ⟨E, nu, E / (1 - nu ^ 2), q0, none⟩ nx ny sx sy (0, 0) nf = .ok G) (hn : nf.1 * nf.2 ≠ 0) (i j : ℕ) (hij : ¬ (i = 0 ∧ j = 0))
    (hq : HS.freq nx sx i ≠ 0 ∨ HS.freq ny sy j ≠ 0) (w : ℝ → Fin 3 → ℂ)
    (hw : Elastic.Solution (E * nu / ((1 + nu) * (1 - 2 * nu))) (E / (2 * (1 + nu))) (2 * Real.pi * HS.freq nx sx i) (2 * Real.pi * HS.freq ny sy j) ![0, 0, 1] w) :
    w 0 2 = ((G i j : ℝ) : ℂ) := by
  have h2 : 1 + nu ≠ 0 := fun h => hnu' (by linarith)
  have h3 : 1 - 2 * nu ≠ 0 := fun h => hnu2 (by linarith)
  have hpi := Real.pi_ne_zero
  have hl : E * nu / ((1 + nu) * (1 - 2 * nu)) = 2 * (E / (2 * (1 + nu))) * nu / (1 - 2 * nu) := by field_simp
  rw [hl] at hw
  rw [C80_periodic E nu q0 nx ny sx sy nf G hE hnu hnu' hG hn i j hij hq,
    C123_unique _ nu _ _ (div_ne_zero hE (mul_ne_zero two_ne_zero h2)) hnu2 (hq.imp (mul_ne_zero (by positivity)) (mul_ne_zero (by positivity))) _ w hw]
  simp [Matrix.mulVec, dotProduct, Fin.sum_univ_three]

end CM.Greens
