import Verif.Props.GreensEnergy
import Mathlib.LinearAlgebra.Matrix.NonsingularInverse
import Mathlib.LinearAlgebra.Matrix.ToLinearEquiv
import Mathlib.LinearAlgebra.FiniteDimensional.Lemmas
import Mathlib.LinearAlgebra.Dimension.Constructions
/-!
# The anisotropic Green's function is defined and positive (C137)
-/
namespace CM.Greens

open Matrix Filter

/-! ## Regular boundary value problems -/

lemma hooke_decay (C : Fin 3 → Fin 3 → Fin 3 → Fin 3 → ℝ) (qx qy : ℝ) (u u' : ℝ → Fin 3 → ℂ) (g1 : ∀ i, Tendsto (fun z => u z i) atBot (nhds 0)) (g2 : ∀ i, Tendsto (fun z => u' z i) atBot (nhds 0))
    (i : Fin 3) : Tendsto (fun z => Elastic.hooke C qx qy (u z) (u' z) i 2) atBot (nhds 0) := by
  unfold Elastic.hooke
  have : ∀ k l, Tendsto (fun z => (C i 2 k l : ℂ) * Elastic.grad qx qy (u z) (u' z) k l) atBot (nhds 0) := by
    intro k l
    have hg : Tendsto (fun z => Elastic.grad qx qy (u z) (u' z) k l) atBot (nhds 0) := by
      fin_cases k
      · have := (g1 l).const_mul (Complex.I * qx)
        rwa [mul_zero] at this
      · have := (g1 l).const_mul (Complex.I * qy)
        rwa [mul_zero] at this
      · exact g2 l
    have := hg.const_mul (C i 2 k l : ℂ)
    rwa [mul_zero] at this
  have := tendsto_finsetSum (s := (Finset.univ : Finset (Fin 3))) fun k _ => tendsto_finsetSum (s := (Finset.univ : Finset (Fin 3))) fun l _ => this k l
  simpa using this

lemma power_decay (C : Fin 3 → Fin 3 → Fin 3 → Fin 3 → ℝ) (qx qy : ℝ) (u u' : ℝ → Fin 3 → ℂ) (g1 : ∀ i, Tendsto (fun z => u z i) atBot (nhds 0)) (g2 : ∀ i, Tendsto (fun z => u' z i) atBot (nhds 0)) :
    Tendsto (power C qx qy u u') atBot (nhds 0) := by
  have hc : ∀ i, Tendsto (fun z => (starRingEnd ℂ) (u z i)) atBot (nhds 0) := by
    intro i
    have := (Complex.continuous_conj.tendsto 0).comp (g1 i)
    rwa [map_zero] at this
  have := tendsto_finsetSum (s := (Finset.univ : Finset (Fin 3))) fun i _ => (hc i).mul (hooke_decay C qx qy u u' g1 g2 i)
  simp only [mul_zero, Finset.sum_const_zero] at this
  have h := (Complex.continuous_re.tendsto 0).comp this
  rwa [Complex.zero_re] at h

lemma power_mono {C : Fin 3 → Fin 3 → Fin 3 → Fin 3 → ℝ} (h1 : ∀ i j k l, C i j k l = C j i k l) (hC : StrainEnergy C) (qx qy : ℝ) (w w' w'' : ℝ → Fin 3 → ℂ)
    (hw : ∀ z i, HasDerivAt (fun z => w z i) (w' z i) z) (hw' : ∀ z i, HasDerivAt (fun z => w' z i) (w'' z i) z) (nw : ∀ z, Elastic.Cauchy C qx qy (w z) (w' z) (w'' z)) :
    Monotone (power C qx qy w w') :=
  monotone_of_hasDerivAt_nonneg (power_deriv C qx qy w w' w'' hw hw' nw) fun z => (density_nonneg h1 hC qx qy (w z) (w' z)).1

/-- Modes that carry no power through the surface vanish. -/
lemma modes_still {A : Aniso} (h1 : ∀ i j k l, tensor A.C i j k l = tensor A.C j i k l) (hC : StrainEnergy (tensor A.C)) (qx qy : ℝ) (hq : qx ≠ 0 ∨ qy ≠ 0) {n : ℕ} (m : Fin n → Mode)
    (hb : BulkModes A qx qy m) (hinj : Function.Injective fun a => (m a).1) (hne : ∀ a, (m a).2 ≠ 0) (α : Fin n → ℂ) (s t : ℝ) (hst : s < t)
    (hp : power (tensor A.C) qx qy (field m α) (field m (fun a => α a * (Complex.I * (m a).1))) t ≤ power (tensor A.C) qx qy (field m α) (field m (fun a => α a * (Complex.I * (m a).1))) s) : α = 0 := by
  have := field_zero m hinj α s t hst (still h1 hC qx qy hq _ _ _ (hasDerivAt_field m α) (hasDerivAt_field m _) (field_cauchy A qx qy m hb α) s t hp)
  funext a
  rcases smul_eq_zero.1 (this a) with h | h
  · exact h
  · exact absurd h (hne a)

lemma power_zero_traction (A : Aniso) (qx qy : ℝ) {n : ℕ} (m : Fin n → Mode) (α : Fin n → ℂ) (h : traction A qx qy m *ᵥ α = 0 ∨ makeU m *ᵥ α = 0) :
    power (tensor A.C) qx qy (field m α) (field m (fun a => α a * (Complex.I * (m a).1))) 0 = 0 := by
  unfold power
  have : ∑ i, (starRingEnd ℂ) (field m α 0 i) * Elastic.hooke (tensor A.C) qx qy (field m α 0) (field m (fun a => α a * (Complex.I * (m a).1)) 0) i 2 = 0 := by
    refine Finset.sum_eq_zero fun i _ => ?_
    rcases h with h | h
    · rw [field_traction, h]; simp
    · rw [field_surface, h]; simp
  rw [this, Complex.zero_re]

/-- Three modes that die out can carry every traction and every displacement of the surface. -/
lemma halfspace_regular {A : Aniso} (h1 : ∀ i j k l, tensor A.C i j k l = tensor A.C j i k l) (hC : StrainEnergy (tensor A.C)) (qx qy : ℝ) (hq : qx ≠ 0 ∨ qy ≠ 0) (m : Fin 3 → Mode)
    (hb : BulkModes A qx qy m) (hinj : Function.Injective fun a => (m a).1) (hne : ∀ a, (m a).2 ≠ 0) (hre : ∀ a, 0 < (Complex.I * (m a).1).re) : (traction A qx qy m).det ≠ 0 ∧ (makeU m).det ≠ 0 := by
  have key : ∀ α, traction A qx qy m *ᵥ α = 0 ∨ makeU m *ᵥ α = 0 → α = 0 := by
    intro α hα
    refine modes_still h1 hC qx qy hq m hb hinj hne α (-1) 0 (by norm_num) ?_
    rw [power_zero_traction A qx qy m α hα]
    refine le_of_tendsto (power_decay (tensor A.C) qx qy _ _ (field_decay m hre α) (field_decay m hre (fun a => α a * (Complex.I * (m a).1)))) ?_
    filter_upwards [eventually_le_atBot (-1 : ℝ)] with z hz
    exact power_mono h1 hC qx qy _ _ _ (hasDerivAt_field m α) (hasDerivAt_field m _) (field_cauchy A qx qy m hb α) hz
  constructor
  · intro hd
    obtain ⟨v, hv, h0⟩ := Matrix.exists_mulVec_eq_zero_iff.2 hd
    exact hv (key v (Or.inl h0))
  · intro hd
    obtain ⟨v, hv, h0⟩ := Matrix.exists_mulVec_eq_zero_iff.2 hd
    exact hv (key v (Or.inr h0))

lemma power_zero_bottom (A : Aniso) (qx qy d : ℝ) {n : ℕ} (m : Fin n → Mode) (α : Fin n → ℂ) (h : bottom d m *ᵥ α = 0) :
    power (tensor A.C) qx qy (field m α) (field m (fun a => α a * (Complex.I * (m a).1))) (-d) = 0 := by
  unfold power
  rw [field_bottom, h]
  simp

/-- Six modes can carry every traction on a bonded layer. -/
lemma layer_regular {A : Aniso} (h1 : ∀ i j k l, tensor A.C i j k l = tensor A.C j i k l) (hC : StrainEnergy (tensor A.C)) (qx qy d : ℝ) (hd : 0 < d) (hq : qx ≠ 0 ∨ qy ≠ 0) (m : Fin 6 → Mode)
    (hb : BulkModes A qx qy m) (hinj : Function.Injective fun a => (m a).1) (hne : ∀ a, (m a).2 ≠ 0) : (makeF6 A qx qy d m).det ≠ 0 := by
  intro hdet
  obtain ⟨v, hv, h0⟩ := Matrix.exists_mulVec_eq_zero_iff.2 hdet
  apply hv
  have htop : traction A qx qy m *ᵥ v = 0 := by
    funext i
    have := congrFun h0 (Fin.castLE (by decide) i)
    have hi : (Fin.castLE (by decide : 3 ≤ 6) i).val < 3 := i.isLt
    rw [Matrix.mulVec, dotProduct] at this ⊢
    simp only [makeF6, dif_pos hi] at this
    exact this
  have hbot : bottom d m *ᵥ v = 0 := by
    funext i
    have := congrFun h0 ⟨i.val + 3, by omega⟩
    have hi : ¬ i.val + 3 < 3 := by omega
    rw [Matrix.mulVec, dotProduct] at this ⊢
    simp only [makeF6, dif_neg hi, Nat.add_sub_cancel] at this
    exact this
  refine modes_still h1 hC qx qy hq m hb hinj hne v (-d) 0 (by linarith) ?_
  rw [power_zero_traction A qx qy m v (Or.inl htop), power_zero_bottom A qx qy d m v hbot]

/-! ## Simple eigenvalues have one eigenvector -/

/-- If two independent vectors are annihilated, the determinant has a double zero. -/
lemma double_zero (M : ℂ → M3) (x : ℂ) (hM : ∀ i j, ∃ c, HasDerivAt (fun q => M q i j) c x) (e1 e2 : Fin 3 → ℂ) (hli : LinearIndependent ℂ ![e1, e2]) (h1 : M x *ᵥ e1 = 0) (h2 : M x *ᵥ e2 = 0) :
    HasDerivAt (fun q => (M q).det) 0 x := by
  obtain ⟨e3, he3⟩ := exists_linearIndependent_cons_of_lt_finrank (R := ℂ) (M := Fin 3 → ℂ) (v := ![e1, e2]) hli (by simp)
  set P : M3 := Matrix.of (Fin.cons e3 ![e1, e2]) with hP
  have hdet : P.det ≠ 0 := by
    have : LinearIndependent ℂ P.row := he3
    rw [Matrix.linearIndependent_rows_iff_isUnit] at this
    exact ((Matrix.isUnit_iff_isUnit_det _).1 this).ne_zero
  choose M' hM' using hM
  -- the columns of the product
  have hcol : ∀ i j, HasDerivAt (fun q => (M q * Pᵀ) i j) (∑ k, M' i k * Pᵀ k j) x := by
    intro i j
    simp only [Matrix.mul_apply]
    exact HasDerivAt.fun_sum fun k _ => (hM' i k).mul_const _
  have c1 : ∀ i, (M x * Pᵀ) i 1 = 0 := fun i => congrFun h1 i
  have c2 : ∀ i, (M x * Pᵀ) i 2 = 0 := fun i => congrFun h2 i
  have hprod : HasDerivAt (fun q => (M q * Pᵀ).det) 0 x := by
    simp only [Matrix.det_fin_three]
    have := ((((((hcol 0 0).mul (hcol 1 1)).mul (hcol 2 2)).sub (((hcol 0 0).mul (hcol 1 2)).mul (hcol 2 1))).sub (((hcol 0 1).mul (hcol 1 0)).mul (hcol 2 2))).add
      (((hcol 0 1).mul (hcol 1 2)).mul (hcol 2 0))).add (((hcol 0 2).mul (hcol 1 0)).mul (hcol 2 1)) |>.sub (((hcol 0 2).mul (hcol 1 1)).mul (hcol 2 0))
    refine this.congr_deriv ?_
    simp [c1, c2]
  simp only [Matrix.det_mul, Matrix.det_transpose] at hprod
  have := hprod.mul_const (P.det)⁻¹
  rw [zero_mul] at this
  refine this.congr_of_eventuallyEq (Filter.Eventually.of_forall fun q => ?_)
  simp only
  rw [mul_assoc, mul_inv_cancel₀ hdet, mul_one]

lemma bulkop_deriv (A : Aniso) (qx qy : ℝ) (x : ℂ) (i j : Fin 3) : ∃ c, HasDerivAt (fun Q => bulkop A qx qy (Complex.I * Q) i j) c x := by
  simp only [bulkop_entry]
  refine ⟨_, DifferentiableAt.hasDerivAt ?_⟩
  fun_prop

/-- A simple zero of the determinant belongs to one vector. -/
lemma one_vector (L : Lapack) (hL : L.Ok) (A : Aniso) (qx qy : ℝ) (x c : ℂ) (hc : c ≠ 0) (h0 : (bulkop A qx qy (Complex.I * x)).det = 0)
    (hd : HasDerivAt (fun Q => (bulkop A qx qy (Complex.I * Q)).det) c x) : ∃ e, eigenvector L A qx qy (Complex.I * x) = .ok e ∧ e ≠ 0 := by
  set M := bulkop A qx qy (Complex.I * x) with hMd
  have hsp := hL.span M
  have hin := hL.independent M
  unfold eigenvector
  rw [← hMd]
  match hl : L.nullSpace M with
  | [] =>
    exfalso
    obtain ⟨v, hv, h⟩ := Matrix.exists_mulVec_eq_zero_iff.2 h0
    have := hsp v h
    rw [hl] at this
    simp at this
    exact hv this
  | [e] =>
    refine ⟨e, rfl, ?_⟩
    rw [hl] at hin
    exact hin.ne_zero ⟨0, by simp⟩
  | e1 :: e2 :: l =>
    exfalso
    rw [hl] at hin
    have hli : LinearIndependent ℂ ![e1, e2] := by
      have := hin.comp (![⟨0, by simp⟩, ⟨1, by simp⟩] : Fin 2 → Fin (e1 :: e2 :: l).length) (by
        intro a b hab
        fin_cases a <;> fin_cases b <;> simp at hab ⊢)
      convert this using 1
      funext i
      fin_cases i <;> rfl
    have := double_zero (fun Q => bulkop A qx qy (Complex.I * Q)) x (fun i j => bulkop_deriv A qx qy x i j) e1 e2 hli (hL.kernel M e1 (by rw [hl]; simp)) (hL.kernel M e2 (by rw [hl]; simp))
    exact hc (hd.unique this)

/-! ## The eigenvalues -/

/-- The leading coefficient is the determinant for a wave along the normal. -/
lemma leading (A : Aniso) (hA : Mirror A) (qx qy : ℝ) : coefficients A qx qy 0 = (bulkop A 0 0 Complex.I).det := by
  set p := coefficients A qx qy with hp
  have h := C83_even_partial A hA qx qy
  rw [← hp] at h
  have hs : ∀ t : ℂ, t ≠ 0 → (bulkop A (t * qx) (t * qy) Complex.I).det = p 0 + p 1 * t ^ 2 + p 2 * t ^ 4 + p 3 * t ^ 6 := by
    intro t ht
    have e : bulkop A (t * qx) (t * qy) Complex.I = t ^ 2 • bulkop A qx qy (Complex.I * t⁻¹) := by
      ext i l
      rw [Matrix.smul_apply, bulkop_entry, bulkop_entry, smul_eq_mul]
      field_simp
    rw [e, Matrix.det_smul, h, Fintype.card_fin]
    field_simp
  have c1 : Continuous fun t : ℂ => (bulkop A (t * qx) (t * qy) Complex.I).det := by
    simp only [Matrix.det_fin_three, bulkop_entry]
    fun_prop
  have c2 : Continuous fun t : ℂ => p 0 + p 1 * t ^ 2 + p 2 * t ^ 4 + p 3 * t ^ 6 := by fun_prop
  have hd : Dense ({0}ᶜ : Set ℂ) := dense_compl_singleton 0
  have := congrFun (Continuous.ext_on hd c1 c2 fun t ht => hs t ht) 0
  simpa using this.symm

lemma leading_ne (A : Aniso) (h : (bulkop A 0 0 1).det ≠ 0) : (bulkop A 0 0 Complex.I).det ≠ 0 := by
  have e : bulkop A 0 0 Complex.I = (-1 : ℂ) • bulkop A 0 0 1 := by
    ext i l
    rw [Matrix.smul_apply, bulkop_entry, bulkop_entry, smul_eq_mul]
    linear_combination -(tensor A.C i 2 2 l : ℂ) * Complex.I_sq
  rw [e, Matrix.det_smul]
  exact mul_ne_zero (by simp) h

/-- Three different eigenvalues are simple zeros. -/
lemma simple_zeros (L : Lapack) (hL : L.Ok) (A : Aniso) (hA : Mirror A) (h001 : (bulkop A 0 0 1).det ≠ 0) (qx qy : ℝ) (hnd : (findEigenvalues L A qx qy).Nodup) :
    (findEigenvalues L A qx qy).length = 3 ∧ ∀ Q ∈ findEigenvalues L A qx qy, Q ≠ 0 → ∀ s : ℂ, s ^ 2 = 1 →
      (bulkop A qx qy (Complex.I * (s * Q))).det = 0 ∧ ∃ c, c ≠ 0 ∧ HasDerivAt (fun Q => (bulkop A qx qy (Complex.I * Q)).det) c (s * Q) := by
  have hp0 : coefficients A qx qy 0 ≠ 0 := by rw [leading A hA]; exact leading_ne A h001
  obtain ⟨a, b, c, hr, hf⟩ := hL.factor _ hp0
  unfold findEigenvalues at hnd ⊢
  rw [hr] at hnd ⊢
  have hev := C83_even_partial A hA qx qy
  set p := coefficients A qx qy
  have hdet : ∀ Q : ℂ, (bulkop A qx qy (Complex.I * Q)).det = p 0 * (Q ^ 2 - a) * (Q ^ 2 - b) * (Q ^ 2 - c) := by
    intro Q
    rw [hev, ← hf]
    ring
  simp only [List.map_cons, List.map_nil, List.nodup_cons, List.mem_cons, List.not_mem_nil, or_false, not_or] at hnd
  have hne : a ≠ b ∧ a ≠ c ∧ b ≠ c := ⟨fun h => hnd.1.1 (by rw [h]), fun h => hnd.1.2 (by rw [h]), fun h => hnd.2.1 (by rw [h])⟩
  refine ⟨rfl, ?_⟩
  intro Q hQ hQ0 s hs
  have hs0 : s ≠ 0 := by rintro rfl; norm_num at hs
  have hder : HasDerivAt (fun Q => (bulkop A qx qy (Complex.I * Q)).det)
      (p 0 * (2 * (s * Q)) * (((s * Q) ^ 2 - b) * ((s * Q) ^ 2 - c) + ((s * Q) ^ 2 - a) * ((s * Q) ^ 2 - c) + ((s * Q) ^ 2 - a) * ((s * Q) ^ 2 - b))) (s * Q) := by
    simp only [hdet]
    have d : ∀ r : ℂ, HasDerivAt (fun Q : ℂ => Q ^ 2 - r) (2 * (s * Q)) (s * Q) := by
      intro r
      have := (hasDerivAt_pow 2 (s * Q)).sub_const r
      simpa using this
    refine ((((d a).const_mul (p 0)).mul (d b)).mul (d c)).congr_deriv ?_
    simp only [Pi.mul_apply]
    ring
  have hsq : ∀ r, L.sqrt r = Q → (s * Q) ^ 2 = r := by
    intro r hr
    rw [mul_pow, hs, one_mul, ← hr, hL.sq]
  have h2 : p 0 * (2 * (s * Q)) ≠ 0 := mul_ne_zero hp0 (mul_ne_zero two_ne_zero (mul_ne_zero hs0 hQ0))
  simp only [List.map_cons, List.map_nil, List.mem_cons, List.not_mem_nil, or_false] at hQ
  rcases hQ with h | h | h
  · have e := hsq a h.symm
    refine ⟨by rw [hdet, e]; ring, _, ?_, hder⟩
    rw [e]
    refine mul_ne_zero h2 ?_
    rw [sub_self, zero_mul, zero_mul, add_zero, add_zero]
    exact mul_ne_zero (sub_ne_zero.2 hne.1) (sub_ne_zero.2 hne.2.1)
  · have e := hsq b h.symm
    refine ⟨by rw [hdet, e]; ring, _, ?_, hder⟩
    rw [e]
    refine mul_ne_zero h2 ?_
    rw [sub_self, zero_mul, mul_zero, add_zero, zero_add]
    exact mul_ne_zero (sub_ne_zero.2 hne.1.symm) (sub_ne_zero.2 hne.2.2)
  · have e := hsq c h.symm
    refine ⟨by rw [hdet, e]; ring, _, ?_, hder⟩
    rw [e]
    refine mul_ne_zero h2 ?_
    rw [sub_self, mul_zero, mul_zero, zero_add, zero_add]
    exact mul_ne_zero (sub_ne_zero.2 hne.2.1.symm) (sub_ne_zero.2 hne.2.2.symm)

lemma find_all (L : Lapack) (A : Aniso) (qx qy : ℝ) (qz : List ℂ) (h : ∀ q ∈ qz, ∃ e, eigenvector L A qx qy q = .ok e ∧ e ≠ 0) :
    ∃ eta, findEigenvectors L A qx qy qz = .ok eta ∧ ∀ e ∈ eta, e ≠ 0 := by
  unfold findEigenvectors
  induction qz with
  | nil => exact ⟨[], rfl, by simp⟩
  | cons q qz ih =>
    obtain ⟨e, h1, h2⟩ := h q (by simp)
    obtain ⟨es, h3, h4⟩ := ih fun q hq => h q (by simp [hq])
    refine ⟨e :: es, by rw [List.mapM_cons, h1, h3]; rfl, ?_⟩
    intro x hx
    rcases List.mem_cons.1 hx with rfl | hx
    · exact h2
    · exact h4 x hx

/-- The modes exist, have different wavenumbers and do not vanish. -/
lemma modes_exist (L : Lapack) (hL : L.Ok) (A : Aniso) (hA : Mirror A) (h001 : (bulkop A 0 0 1).det ≠ 0) (qx qy : ℝ) (hnd : (findEigenvalues L A qx qy).Nodup)
    (hre : ∀ Q ∈ findEigenvalues L A qx qy, 0 < Q.re) (thickness : Option ℝ) :
    ∃ ms, modes L A qx qy thickness = .ok ms ∧ (∀ p ∈ ms, p.2 ≠ 0) ∧ (ms.map Prod.fst).Nodup ∧ ms.length = (normalWaves thickness (findEigenvalues L A qx qy)).length := by
  classical
  obtain ⟨h3, hz⟩ := simple_zeros L hL A hA h001 qx qy hnd
  have hne : ∀ Q ∈ findEigenvalues L A qx qy, Q ≠ 0 := by
    rintro Q hQ rfl
    exact lt_irrefl _ (hre 0 hQ)
  have hall : ∀ q ∈ normalWaves thickness (findEigenvalues L A qx qy), ∃ e, eigenvector L A qx qy q = .ok e ∧ e ≠ 0 := by
    have hm : ∀ Q ∈ findEigenvalues L A qx qy, ∃ e, eigenvector L A qx qy (-Complex.I * Q) = .ok e ∧ e ≠ 0 := by
      intro Q hQ
      obtain ⟨z1, c, z2, z3⟩ := hz Q hQ (hne Q hQ) (-1) (by ring)
      have := one_vector L hL A qx qy _ c z2 z1 z3
      rwa [show Complex.I * (-1 * Q) = -Complex.I * Q by ring] at this
    have hp : ∀ Q ∈ findEigenvalues L A qx qy, ∃ e, eigenvector L A qx qy (Complex.I * Q) = .ok e ∧ e ≠ 0 := by
      intro Q hQ
      obtain ⟨z1, c, z2, z3⟩ := hz Q hQ (hne Q hQ) 1 (by ring)
      have := one_vector L hL A qx qy _ c z2 z1 z3
      rwa [one_mul] at this
    intro q hq
    unfold normalWaves at hq
    split_ifs at hq
    · obtain ⟨Q, hQ, rfl⟩ := List.mem_map.1 hq
      exact hm Q hQ
    · rcases List.mem_append.1 hq with hq | hq
      · obtain ⟨Q, hQ, rfl⟩ := List.mem_map.1 hq
        exact hm Q hQ
      · obtain ⟨Q, hQ, rfl⟩ := List.mem_map.1 hq
        exact hp Q hQ
  have hnw : (normalWaves thickness (findEigenvalues L A qx qy)).Nodup := by
    have n1 : ((findEigenvalues L A qx qy).map fun q => -Complex.I * q).Nodup := hnd.map fun x y h => mul_left_cancel₀ (neg_ne_zero.2 Complex.I_ne_zero) h
    have n2 : ((findEigenvalues L A qx qy).map fun q => Complex.I * q).Nodup := hnd.map fun x y h => mul_left_cancel₀ Complex.I_ne_zero h
    unfold normalWaves
    split_ifs
    · exact n1
    · refine List.nodup_append'.2 ⟨n1, n2, ?_⟩
      intro x hx hy
      obtain ⟨P, hP, rfl⟩ := List.mem_map.1 hx
      obtain ⟨Q, hQ, e⟩ := List.mem_map.1 hy
      have : Q = -P := mul_left_cancel₀ Complex.I_ne_zero (by rw [e]; ring)
      have h1 := hre P hP
      have h2 := hre Q hQ
      rw [this, Complex.neg_re] at h2
      linarith
  obtain ⟨eta, h1, h2⟩ := find_all L A qx qy _ hall
  have hlen := (eigenvectors_kernel L hL A qx qy _ eta h1).1
  unfold modes
  rw [h1]
  refine ⟨_, rfl, ?_, ?_, ?_⟩
  · rintro ⟨q, e⟩ hp
    exact h2 e (List.of_mem_zip hp).2
  · rw [List.map_fst_zip hlen.ge]
    exact hnw
  · rw [List.length_zip, hlen, min_self]

end CM.Greens
