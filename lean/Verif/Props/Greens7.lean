import Verif.Props.GreensIso
import Mathlib.Analysis.SpecialFunctions.Trigonometric.Deriv
import Mathlib.Analysis.SpecialFunctions.Trigonometric.DerivHyp
/-!
# Layers that the anisotropic class takes for a half-space (C126)

`_make_U_and_F` takes a layer for infinitely thick as soon as the *largest* of the three decay rates, times the thickness, exceeds 100.  Here is a family of stable crystals with one fast and one slow decay rate:
the response of the layer is controlled by the slow one, and the returned matrix overestimates it by an arbitrary factor.
-/
namespace CM.Greens

open Matrix Filter

/-- A stiff crystal with weak shear: the decay rates along a cube axis are `κ`, `1` and `1 / κ`. -/
def weakShear (κ : ℝ) : Constants := ⟨κ ^ 2, -1, 1, false⟩

lemma weakShear_stable (κ : ℝ) (h : 2 ≤ κ) : Stable (weakShear κ) := by
  refine ⟨?_, ?_, ?_⟩ <;> simp only [weakShear] <;> nlinarith

lemma weakShear_det (κ : ℝ) (th : Option ℝ) (Q : ℂ) :
    (bulkop ⟨cubic (weakShear κ), th⟩ (1 : ℝ) (0 : ℝ) (Complex.I * Q)).det = (Q ^ 2 - (κ : ℂ) ^ 2) * (Q ^ 2 - 1) * ((κ : ℂ) ^ 2 * Q ^ 2 - 1) := by
  rw [Matrix.det_fin_three]
  simp only [bulkop_entry, tensor_cubic, delta, weakShear]
  simp
  have hI := Complex.I_sq
  have h4 : Complex.I ^ 4 = 1 := by rw [show (4 : ℕ) = 2 * 2 from rfl, pow_mul, hI]; ring
  have h6 : Complex.I ^ 6 = -1 := by rw [show (6 : ℕ) = 2 * 3 from rfl, pow_mul, hI]; ring
  ring_nf
  simp only [hI, h4, h6]
  ring

lemma weakShear_roots (L : Lapack) (hL : L.Ok) (κ : ℝ) (hκ : 2 ≤ κ) (th : Option ℝ) :
    (findEigenvalues L ⟨cubic (weakShear κ), th⟩ 1 0).Nodup ∧ (κ : ℂ) ∈ findEigenvalues L ⟨cubic (weakShear κ), th⟩ 1 0 := by
  have hk0 : (κ : ℂ) ≠ 0 := by exact_mod_cast (by linarith : κ ≠ 0)
  have hp : coefficients ⟨cubic (weakShear κ), th⟩ 1 0 = ![(κ : ℂ) ^ 2, -((κ : ℂ) ^ 4 + (κ : ℂ) ^ 2 + 1), (κ : ℂ) ^ 4 + (κ : ℂ) ^ 2 + 1, -(κ : ℂ) ^ 2] := by
    rw [← recover (fun Q => (bulkop ⟨cubic (weakShear κ), th⟩ (1 : ℝ) (0 : ℝ) (Complex.I * Q)).det) ![(κ : ℂ) ^ 2, -((κ : ℂ) ^ 4 + (κ : ℂ) ^ 2 + 1), (κ : ℂ) ^ 4 + (κ : ℂ) ^ 2 + 1, -(κ : ℂ) ^ 2]]
    · unfold coefficients
      simp only [mul_zero, mul_one]
    · intro Q
      rw [weakShear_det]
      simp
      ring
  obtain ⟨a, b, c, hr, hf⟩ := hL.factor (coefficients ⟨cubic (weakShear κ), th⟩ 1 0) (by rw [hp]; simpa using hk0)
  unfold findEigenvalues
  rw [hr]
  rw [hp] at hf
  simp only [Matrix.cons_val_zero, Matrix.cons_val_one, Matrix.cons_val] at hf
  have mem : ∀ z : ℂ, (z - (κ : ℂ) ^ 2) * (z - 1) * ((κ : ℂ) ^ 2 * z - 1) = 0 → z ∈ [a, b, c] := by
    intro z hz
    have h := hf z
    have h0 : (κ : ℂ) ^ 2 * (z - a) * (z - b) * (z - c) = 0 := by rw [← h, ← hz]; ring
    simp only [mul_eq_zero, pow_eq_zero_iff, ne_eq, OfNat.ofNat_ne_zero, not_false_iff, hk0, false_or, sub_eq_zero] at h0
    simp only [List.mem_cons, List.not_mem_nil, or_false]
    tauto
  have m1 := mem ((κ : ℂ) ^ 2) (by ring)
  have m2 := mem 1 (by ring)
  have m3 := mem (1 / (κ : ℂ) ^ 2) (by field_simp; ring)
  have hκ2 : (4 : ℝ) ≤ κ ^ 2 := by nlinarith
  have hsub : [(((κ ^ 2 : ℝ)) : ℂ), ((1 : ℝ) : ℂ), ((1 / κ ^ 2 : ℝ) : ℂ)] ⊆ [a, b, c] := by
    intro x hx
    simp only [List.mem_cons (a := x) (l := [((1 : ℝ) : ℂ), ((1 / κ ^ 2 : ℝ) : ℂ)]), List.mem_cons (a := x) (l := [((1 / κ ^ 2 : ℝ) : ℂ)]), List.mem_singleton] at hx
    rcases hx with rfl | rfl | rfl
    · push_cast; exact m1
    · push_cast; exact m2
    · push_cast; exact m3
  have hinv : 1 / κ ^ 2 < 1 := by rw [div_lt_one (by linarith)]; linarith
  have hnd0 : [(((κ ^ 2 : ℝ)) : ℂ), ((1 : ℝ) : ℂ), ((1 / κ ^ 2 : ℝ) : ℂ)].Nodup := by
    simp only [List.nodup_cons, List.mem_cons, List.not_mem_nil, or_false, not_or, Complex.ofReal_inj, not_false_iff, List.nodup_nil, and_true]
    refine ⟨⟨?_, ?_⟩, ?_⟩ <;> intro h <;> linarith
  have hperm := (List.subperm_of_subset hnd0 hsub).perm_of_length_le (by simp)
  have hnd : [a, b, c].Nodup := hperm.nodup_iff.1 hnd0
  constructor
  · refine hnd.map ?_
    intro u v h
    rw [← hL.sq u, ← hL.sq v, h]
  · refine List.mem_map.2 ⟨(κ : ℂ) ^ 2, m1, ?_⟩
    have h2 := hL.sq ((κ : ℂ) ^ 2)
    rcases sq_eq_sq_iff_eq_or_eq_neg.1 h2 with h | h
    · exact h
    · exfalso
      have := hL.re ((κ : ℂ) ^ 2)
      rw [h] at this
      simp at this
      linarith

/-- Stresses of a field in the plane of the wavevector. -/
lemma weakShear_hooke (κ : ℝ) (F H F' H' : ℂ) (i j : Fin 3) : Elastic.hooke (tensor (cubic (weakShear κ))) 1 0 ![F, 0, H] ![F', 0, H'] i j
    = !![(κ : ℂ) ^ 2 * (Complex.I * F) - H', 0, F' + Complex.I * H; 0, -(Complex.I * F) - H', 0; F' + Complex.I * H, 0, (κ : ℂ) ^ 2 * H' - Complex.I * F] i j := by
  unfold Elastic.hooke Elastic.grad
  simp only [tensor_cubic, delta, weakShear, Fin.sum_univ_three]
  fin_cases i <;> fin_cases j <;> simp <;> ring

/-- Equilibrium and traction of such fields. -/
lemma weakShear_field (κ : ℝ) (F H F' H' F'' H'' : ℝ → ℂ) (dF : ∀ z, HasDerivAt F (F' z) z) (dH : ∀ z, HasDerivAt H (H' z) z) (dF' : ∀ z, HasDerivAt F' (F'' z) z) (dH' : ∀ z, HasDerivAt H' (H'' z) z)
    (eF : ∀ z, F'' z = (κ : ℂ) ^ 2 * F z) (eH : ∀ z, (κ : ℂ) ^ 2 * H'' z = H z) (t0 : F' 0 + Complex.I * H 0 = 0) (t2 : (κ : ℂ) ^ 2 * H' 0 - Complex.I * F 0 = 1) :
    let w : ℝ → Fin 3 → ℂ := fun z => ![F z, 0, H z]
    let w' : ℝ → Fin 3 → ℂ := fun z => ![F' z, 0, H' z]
    let w'' : ℝ → Fin 3 → ℂ := fun z => ![F'' z, 0, H'' z]
    (∀ z i, HasDerivAt (fun z => w z i) (w' z i) z) ∧ (∀ z i, HasDerivAt (fun z => w' z i) (w'' z i) z)
    ∧ (∀ z, Elastic.Cauchy (tensor (cubic (weakShear κ))) 1 0 (w z) (w' z) (w'' z)) ∧ (∀ i, Elastic.hooke (tensor (cubic (weakShear κ))) 1 0 (w 0) (w' 0) i 2 = (Pi.single 2 1 : Fin 3 → ℂ) i) := by
  intro w w' w''
  refine ⟨?_, ?_, ?_, ?_⟩
  · intro z i
    fin_cases i
    · exact dF z
    · exact hasDerivAt_const z 0
    · exact dH z
  · intro z i
    fin_cases i
    · exact dF' z
    · exact hasDerivAt_const z 0
    · exact dH' z
  · intro z i
    rw [weakShear_hooke, weakShear_hooke, weakShear_hooke]
    have hI := Complex.I_sq
    fin_cases i
    · simp
      linear_combination eF z + (κ : ℂ) ^ 2 * F z * hI
    · simp
    · simp
      linear_combination eH z + H z * hI
  · intro i
    rw [weakShear_hooke]
    fin_cases i
    · simpa using t0
    · simp
    · simpa using t2

lemma hasDerivAt_exp_rate (q c : ℝ) (z : ℝ) : HasDerivAt (fun z : ℝ => ((c * Real.exp (q * z) : ℝ) : ℂ)) ((q * c * Real.exp (q * z) : ℝ) : ℂ) z := by
  have h : HasDerivAt (fun z : ℝ => c * Real.exp (q * z)) (q * c * Real.exp (q * z)) z := by
    have := ((hasDerivAt_id' z).const_mul q |>.exp).const_mul c
    exact this.congr_deriv (by ring)
  exact h.ofReal_comp

lemma hasDerivAt_sinh_rate (q c d : ℝ) (z : ℝ) : HasDerivAt (fun z : ℝ => ((c * Real.sinh (q * (z + d)) : ℝ) : ℂ)) ((q * c * Real.cosh (q * (z + d)) : ℝ) : ℂ) z := by
  have h : HasDerivAt (fun z : ℝ => c * Real.sinh (q * (z + d))) (q * c * Real.cosh (q * (z + d))) z := by
    have := (((hasDerivAt_id' z).add_const d).const_mul q |>.sinh).const_mul c
    exact this.congr_deriv (by ring)
  exact h.ofReal_comp

lemma hasDerivAt_cosh_rate (q c d : ℝ) (z : ℝ) : HasDerivAt (fun z : ℝ => ((c * Real.cosh (q * (z + d)) : ℝ) : ℂ)) ((q * c * Real.sinh (q * (z + d)) : ℝ) : ℂ) z := by
  have h : HasDerivAt (fun z : ℝ => c * Real.cosh (q * (z + d))) (q * c * Real.sinh (q * (z + d))) z := by
    have := (((hasDerivAt_id' z).add_const d).const_mul q |>.cosh).const_mul c
    exact this.congr_deriv (by ring)
  exact h.ofReal_comp

/-- The half-space under a normal load. -/
lemma weakShear_halfspace (κ : ℝ) (hκ : 2 ≤ κ) : ∃ w, Elastic.CrystalSolution (tensor (cubic (weakShear κ))) 1 0 (Pi.single 2 1) w ∧ w 0 2 = ((κ / (κ ^ 2 - 1) : ℝ) : ℂ) := by
  have hk : κ ≠ 0 := by linarith
  have hk2 : κ ^ 2 - 1 ≠ 0 := by nlinarith
  have hI := Complex.I_sq
  set b := κ / (κ ^ 2 - 1) with hb
  have dec : ∀ q c : ℝ, 0 < q → Tendsto (fun z : ℝ => ((c * Real.exp (q * z) : ℝ) : ℂ)) atBot (nhds 0) := by
    intro q c hq
    have h1 : Tendsto (fun z : ℝ => c * Real.exp (q * z)) atBot (nhds 0) := by
      have := (Real.tendsto_exp_atBot.comp (tendsto_id.const_mul_atBot hq)).const_mul c
      simpa using this
    have := (Complex.continuous_ofReal.tendsto 0).comp h1
    rwa [Complex.ofReal_zero] at this
  have hq1 : 0 < κ := by linarith
  have hq2 : 0 < 1 / κ := by positivity
  obtain ⟨f1, f2, f3, f4⟩ := weakShear_field κ (fun z => -Complex.I * ((b / κ * Real.exp (κ * z) : ℝ) : ℂ)) (fun z => ((b * Real.exp (1 / κ * z) : ℝ) : ℂ))
    (fun z => -Complex.I * ((κ * (b / κ) * Real.exp (κ * z) : ℝ) : ℂ)) (fun z => ((1 / κ * b * Real.exp (1 / κ * z) : ℝ) : ℂ))
    (fun z => -Complex.I * ((κ * (κ * (b / κ)) * Real.exp (κ * z) : ℝ) : ℂ)) (fun z => ((1 / κ * (1 / κ * b) * Real.exp (1 / κ * z) : ℝ) : ℂ))
    (fun z => (hasDerivAt_exp_rate _ _ z).const_mul _) (fun z => hasDerivAt_exp_rate _ _ z) (fun z => (hasDerivAt_exp_rate _ _ z).const_mul _) (fun z => hasDerivAt_exp_rate _ _ z)
    (fun z => by push_cast; ring)
    (fun z => by
      have : κ ^ 2 * (1 / κ * (1 / κ * b) * Real.exp (1 / κ * z)) = b * Real.exp (1 / κ * z) := by field_simp
      exact_mod_cast this)
    (by
      have : κ * (b / κ) * Real.exp (κ * 0) = b * Real.exp (1 / κ * 0) := by simp; field_simp
      rw [this]; ring)
    (by
      have : κ ^ 2 * (1 / κ * b * Real.exp (1 / κ * 0)) - b / κ * Real.exp (κ * 0) = 1 := by simp [hb]; field_simp
      have h' : (((κ ^ 2 * (1 / κ * b * Real.exp (1 / κ * 0)) - b / κ * Real.exp (κ * 0) : ℝ)) : ℂ) = 1 := by rw [this]; simp
      rw [← h']
      push_cast
      linear_combination ((b : ℂ) / κ * Complex.exp (κ * 0)) * hI)
  refine ⟨_, ⟨_, _, f1, f2, f3, f4, ?_, ?_⟩, ?_⟩
  · intro i
    fin_cases i
    · simpa using (dec κ (b / κ) hq1).const_mul (-Complex.I)
    · exact tendsto_const_nhds
    · exact dec (1 / κ) b hq2
  · intro i
    fin_cases i
    · simpa using (dec κ (κ * (b / κ)) hq1).const_mul (-Complex.I)
    · exact tendsto_const_nhds
    · exact dec (1 / κ) (1 / κ * b) hq2
  · simp

lemma sinh_le_cosh_mul (x : ℝ) (hx : 0 ≤ x) : Real.sinh x ≤ 2 * x * Real.cosh x := by
  rw [Real.sinh_eq, Real.cosh_eq]
  have h1 : 1 - 2 * x ≤ Real.exp (-(2 * x)) := by linarith [Real.add_one_le_exp (-(2 * x))]
  have h2 : Real.exp (-x) = Real.exp x * Real.exp (-(2 * x)) := by rw [← Real.exp_add]; ring_nf
  have h3 := Real.exp_pos x
  have h4 := Real.exp_pos (-x)
  nlinarith [mul_nonneg h3.le (sub_nonneg.2 h1), mul_nonneg hx h4.le]

/-- The layer under a normal load. -/
lemma weakShear_layer (κ d : ℝ) (hκ : 2 ≤ κ) (hd : 0 < d) :
    ∃ w, Elastic.LayerSolution (tensor (cubic (weakShear κ))) 1 0 d (Pi.single 2 1) w ∧ ∃ y : ℝ, w 0 = ![w 0 0, 0, (y : ℂ)] ∧ 0 ≤ y ∧ y ≤ 2 * d / (κ ^ 2 - 1) := by
  have hk : κ ≠ 0 := by linarith
  have hk2 : 0 < κ ^ 2 - 1 := by nlinarith
  have hI := Complex.I_sq
  have hC1 := Real.cosh_pos (κ * d)
  have hC2 := Real.cosh_pos (1 / κ * d)
  have hS1 : 0 ≤ Real.sinh (κ * d) := Real.sinh_nonneg_iff.2 (by positivity)
  have hS2 : 0 ≤ Real.sinh (1 / κ * d) := Real.sinh_nonneg_iff.2 (by positivity)
  have l1 : Real.sinh (κ * d) < Real.cosh (κ * d) := Real.sinh_lt_cosh _
  have l2 : Real.sinh (1 / κ * d) < Real.cosh (1 / κ * d) := Real.sinh_lt_cosh _
  set C1 := Real.cosh (κ * d) with hC1d
  set C2 := Real.cosh (1 / κ * d) with hC2d
  set S1 := Real.sinh (κ * d) with hS1d
  set S2 := Real.sinh (1 / κ * d) with hS2d
  set D := κ * C2 - S2 * S1 / (κ * C1) with hD
  have hlow : C2 * (κ ^ 2 - 1) / κ ≤ D := by
    rw [hD]
    have : S2 * S1 / (κ * C1) ≤ C2 / κ := by
      rw [div_le_div_iff₀ (by positivity) (by positivity)]
      have : S2 * S1 ≤ C2 * C1 := mul_le_mul l2.le l1.le hS1 hC2.le
      nlinarith
    have e : C2 * (κ ^ 2 - 1) / κ = κ * C2 - C2 / κ := by field_simp
    linarith
  have hDp : 0 < D := lt_of_lt_of_le (by positivity) hlow
  set b := 1 / D with hb
  set a := b * S2 / (κ * C1) with ha
  obtain ⟨f1, f2, f3, f4⟩ := weakShear_field κ (fun z => -Complex.I * ((a * Real.sinh (κ * (z + d)) : ℝ) : ℂ)) (fun z => ((b * Real.sinh (1 / κ * (z + d)) : ℝ) : ℂ))
    (fun z => -Complex.I * ((κ * a * Real.cosh (κ * (z + d)) : ℝ) : ℂ)) (fun z => ((1 / κ * b * Real.cosh (1 / κ * (z + d)) : ℝ) : ℂ))
    (fun z => -Complex.I * ((κ * (κ * a) * Real.sinh (κ * (z + d)) : ℝ) : ℂ)) (fun z => ((1 / κ * (1 / κ * b) * Real.sinh (1 / κ * (z + d)) : ℝ) : ℂ))
    (fun z => (hasDerivAt_sinh_rate _ _ _ z).const_mul _) (fun z => hasDerivAt_sinh_rate _ _ _ z) (fun z => (hasDerivAt_cosh_rate _ _ _ z).const_mul _) (fun z => hasDerivAt_cosh_rate _ _ _ z)
    (fun z => by push_cast; ring)
    (fun z => by
      have : κ ^ 2 * (1 / κ * (1 / κ * b) * Real.sinh (1 / κ * (z + d))) = b * Real.sinh (1 / κ * (z + d)) := by field_simp
      exact_mod_cast this)
    (by
      have : κ * a * Real.cosh (κ * (0 + d)) = b * Real.sinh (1 / κ * (0 + d)) := by
        rw [zero_add, ← hC1d, ← hS2d, ha]; field_simp
      rw [this]; ring)
    (by
      have : κ ^ 2 * (1 / κ * b * Real.cosh (1 / κ * (0 + d))) - a * Real.sinh (κ * (0 + d)) = 1 := by
        rw [zero_add, ← hC2d, ← hS1d]
        have : κ ^ 2 * (1 / κ * b * C2) - a * S1 = b * D := by rw [ha, hD]; field_simp
        rw [this, hb]; field_simp
      have h' : (((κ ^ 2 * (1 / κ * b * Real.cosh (1 / κ * (0 + d))) - a * Real.sinh (κ * (0 + d)) : ℝ)) : ℂ) = 1 := by rw [this]; simp
      rw [← h']
      push_cast
      linear_combination ((a : ℂ) * Complex.sinh (κ * (0 + d))) * hI)
  refine ⟨_, ⟨_, _, f1, f2, f3, f4, ?_⟩, b * S2, ?_, by positivity, ?_⟩
  · funext i
    fin_cases i <;> simp
  · funext i
    fin_cases i <;> simp [hS2d]
  · have h3 := sinh_le_cosh_mul (1 / κ * d) (by positivity)
    rw [← hS2d, ← hC2d] at h3
    rw [hb, one_div, inv_mul_eq_div, div_le_div_iff₀ hDp hk2]
    have h4 : S2 * (κ ^ 2 - 1) ≤ 2 * (1 / κ * d) * C2 * (κ ^ 2 - 1) := mul_le_mul_of_nonneg_right h3 hk2.le
    have h5 := mul_le_mul_of_nonneg_left hlow (by positivity : 0 ≤ 2 * d)
    have e : 2 * d * (C2 * (κ ^ 2 - 1) / κ) = 2 * (1 / κ * d) * C2 * (κ ^ 2 - 1) := by field_simp
    linarith

/-- The entry for the wavevector `(1, 0)`. -/
lemma anisoGreens_unit (L : Lapack) (A : Aniso) (d tol : ℝ) (hA : A.thickness = some d) (G : M3) (h : greens1 L A 1 0 (some d) tol = .ok G) : anisoGreens L A tol (.vec [1]) (.vec [0]) = .ok (.many [G]) := by
  have hN : absQ 1 0 = 1 := by unfold absQ; simp
  unfold anisoGreens overNormalized
  simp [hA, hN, h, Bind.bind, Except.bind, pure, Except.pure]

/-- Deep layers get the answer of the half-space. -/
lemma greens1_deep (L : Lapack) (hL : L.Ok) (k : Constants) (hk : k.ints = false) (hs : Stable k) (thickness : Option ℝ) (c s : ℝ) (hcs : c ^ 2 + s ^ 2 = 1) (A : Aniso)
    (hA : construct k thickness (fun i j => !![c, -s, 0; s, c, 0; 0, 0, 1] i j) = .ok A) (qx qy tol d : ℝ) (hq : qx ≠ 0 ∨ qy ≠ 0) (htol : ¬ (|qx| < tol ∧ |qy| < tol))
    (hnd : (findEigenvalues L A qx qy).Nodup) (hdeep : Deep (some d) (findEigenvalues L A qx qy)) : ∃ G, greens1 L A qx qy (some d) tol = .ok G ∧ greens1 L A qx qy none tol = .ok G := by
  classical
  obtain ⟨hM, h001, hE, h1, hre⟩ := aboutNormal_facts L hL k hk hs thickness c s hcs A hA qx qy hq
  obtain ⟨G, g1, g2, g3, _⟩ := C137_halfspace L hL k hk hs thickness c s hcs A hA qx qy tol hq hnd
  refine ⟨G, ?_, g1⟩
  rw [← g1]
  have en : normalWaves (some d) (findEigenvalues L A qx qy) = normalWaves none (findEigenvalues L A qx qy) := by
    unfold normalWaves
    rw [if_pos hdeep, if_pos (show Deep none _ from trivial)]
  have em : modes L A qx qy (some d) = modes L A qx qy none := by unfold modes; rw [en]
  unfold greens1
  rw [if_neg (by simpa using htol), if_neg (by simp), em]
  obtain ⟨ms, m1, m2, m3, m4⟩ := modes_exist L hL A hM h001 qx qy hnd hre none
  have h3 : ms.length = 3 := by
    rw [m4]
    unfold normalWaves
    rw [if_pos (show Deep none _ from trivial), List.length_map]
    exact (simple_zeros L hL A hM h001 qx qy hnd).1
  rw [m1]
  simp only [Bind.bind, Except.bind]
  unfold solveGreens
  rw [dif_pos h3, dif_pos h3]

/-- **C126.** REFUTED for layers of strongly anisotropic crystals: for every thickness `d` and every factor `N` there is a stable cubic crystal for which `greens_function` returns, for the wavevector `(1, 0)`, a normal
compliance more than `N` times the one of the layer (the layer has an equilibrium under a unit normal load, and in every one the surface moves by less than a fraction `1 / N` of what is returned). -/
theorem C126_deep_partial (L : Lapack) (hL : L.Ok) (d N : ℝ) (hd : 0 < d) (hN : 0 < N) : ∃ (k : Constants) (A : Aniso) (G : M3), k.ints = false ∧ Stable k
    ∧ construct k (some d) (fun i j => if i = j then 1 else 0) = .ok A ∧ anisoGreens L A 1e-6 (.vec [1]) (.vec [0]) = .ok (.many [G])
    ∧ (∃ w, Elastic.LayerSolution (tensor A.C) 1 0 d (Pi.single 2 1) w) ∧ ∀ w, Elastic.LayerSolution (tensor A.C) 1 0 d (Pi.single 2 1) w → N * ‖w 0 2‖ < (G 2 2).re := by
  obtain ⟨n, hn⟩ := exists_nat_gt (max (100 / d) (max 2 (2 * N * d)))
  obtain ⟨hn1, hn2, hn3⟩ : 100 / d < (n : ℝ) ∧ 2 < (n : ℝ) ∧ 2 * N * d < n := by simpa using hn
  set κ : ℝ := (n : ℝ) with hκd
  have hκ : 2 ≤ κ := hn2.le
  have hk2 : 0 < κ ^ 2 - 1 := by nlinarith
  have hs := weakShear_stable κ hκ
  have hA := C125_unrotated (weakShear κ) (by
    intro x hx
    simp only [List.mem_cons, List.not_mem_nil, or_false] at hx
    rcases hx with rfl | rfl | rfl
    · exact ⟨(n : ℤ) ^ 2, by simp [weakShear, hκd]⟩
    · exact ⟨-1, by simp [weakShear]⟩
    · exact ⟨1, by simp [weakShear]⟩) (some d)
  have e : (fun i j : Fin 3 => if i = j then (1 : ℝ) else 0) = fun i j => !![1, -0, 0; 0, 1, 0; 0, 0, 1] i j := by
    funext i j
    fin_cases i <;> fin_cases j <;> simp
  have hA' := hA
  rw [e] at hA'
  obtain ⟨hnd, hmem⟩ := weakShear_roots L hL κ hκ (some d)
  have htol : ¬ (|(1 : ℝ)| < 1e-6 ∧ |(0 : ℝ)| < 1e-6) := by norm_num
  obtain ⟨G, g1, g2⟩ := greens1_deep L hL _ rfl hs (some d) 1 0 (by norm_num) _ hA' 1 0 1e-6 d (by norm_num) htol hnd ⟨_, hmem, by
    rw [Complex.ofReal_re]
    rw [div_lt_iff₀ hd] at hn1
    linarith⟩
  obtain ⟨-, -, -, -, hre⟩ := aboutNormal_facts L hL _ rfl hs (some d) 1 0 (by norm_num) _ hA' 1 0 (by norm_num)
  obtain ⟨w, w1, w2⟩ := weakShear_halfspace κ hκ
  have hG := (C126_unique L hL _ _ _ _ hA' 1 0 1e-6 G g2 hre).2 _ w w1
  have hG22 : G 2 2 = ((κ / (κ ^ 2 - 1) : ℝ) : ℂ) := by
    rw [← w2, hG]
    simp [Matrix.mulVec, dotProduct, Pi.single_apply]
  obtain ⟨v, v1, y, v2, y0, y1⟩ := weakShear_layer κ d hκ hd
  refine ⟨_, _, G, rfl, hs, hA, anisoGreens_unit L _ d _ rfl G g1, ⟨v, v1⟩, fun u hu => ?_⟩
  have sy := C82_symmetries _ _ _ _ hA
  have hbasis : (fun i => (starRingEnd ℂ) ((Pi.single 2 1 : Fin 3 → ℂ) i)) = Pi.single 2 1 := by
    funext i
    by_cases hi : i = 2
    · subst hi; simp
    · simp [hi]
  have v1' := conj_layer _ _ _ _ _ _ v1
  rw [hbasis] at v1'
  have hr := layer_reciprocity _ (fun i j k l => (sy i j k l).1) (fun i j k l => (sy i j k l).2.1) (fun i j k l => (sy i j k l).2.2) 1 0 d _ _ _ _ hu v1'
  have hu2 : u 0 2 = (y : ℂ) := by
    have : u 0 2 = (starRingEnd ℂ) (v 0 2) := by simpa [Pi.single_apply] using hr.symm
    rw [this, v2]
    simp
  rw [hu2, hG22, Complex.norm_real, Real.norm_of_nonneg y0, Complex.ofReal_re]
  calc N * y ≤ N * (2 * d / (κ ^ 2 - 1)) := mul_le_mul_of_nonneg_left y1 hN.le
    _ = 2 * N * d / (κ ^ 2 - 1) := by ring
    _ < κ / (κ ^ 2 - 1) := div_lt_div_of_pos_right hn3 hk2

/-- The routines exist: the theorem is about something. -/
example : ∃ L : Lapack, L.Ok := lapack_exists

end CM.Greens
