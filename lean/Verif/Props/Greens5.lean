import Verif.Props.Greens4
import Verif.Spec.Elastic
import Mathlib.Analysis.SpecialFunctions.ExpDeriv
import Mathlib.Analysis.SpecialFunctions.Exp
import Mathlib.Analysis.Calculus.MeanValue
/-!
# The anisotropic Green's function is the response of a crystal (C126)
-/
namespace CM.Greens

open Matrix Filter

/-- Superposition of modes. -/
noncomputable def field {n : ℕ} (m : Fin n → Mode) (α : Fin n → ℂ) (z : ℝ) : Fin 3 → ℂ := fun i => ∑ a, α a * (m a).2 i * Complex.exp (Complex.I * (m a).1 * z)

lemma hasDerivAt_mode (c q : ℂ) (z : ℝ) : HasDerivAt (fun z : ℝ => c * Complex.exp (Complex.I * q * z)) (c * (Complex.I * q) * Complex.exp (Complex.I * q * z)) z := by
  have h1 : HasDerivAt (fun z : ℝ => Complex.I * q * (z : ℂ)) (Complex.I * q) z := by
    have := (Complex.ofRealCLM.hasDerivAt (x := z)).const_mul (Complex.I * q)
    simpa using this
  have h2 := (h1.cexp).const_mul c
  have e : c * (Complex.I * q) * Complex.exp (Complex.I * q * z) = c * (Complex.exp (Complex.I * q * z) * (Complex.I * q)) := by ring
  rw [e]
  exact h2

lemma hasDerivAt_field {n : ℕ} (m : Fin n → Mode) (α : Fin n → ℂ) (z : ℝ) (i : Fin 3) :
    HasDerivAt (fun z => field m α z i) (field m (fun a => α a * (Complex.I * (m a).1)) z i) z := by
  unfold field
  have := HasDerivAt.fun_sum (u := Finset.univ) fun a (_ : a ∈ Finset.univ) => hasDerivAt_mode (α a * (m a).2 i) (m a).1 z
  have e : ∑ a, α a * (Complex.I * (m a).1) * (m a).2 i * Complex.exp (Complex.I * (m a).1 * z) = ∑ a, α a * (m a).2 i * (Complex.I * (m a).1) * Complex.exp (Complex.I * (m a).1 * z) :=
    Finset.sum_congr rfl fun a _ => by ring
  rw [e]
  exact this

lemma field_decay {n : ℕ} (m : Fin n → Mode) (hre : ∀ a, 0 < (Complex.I * (m a).1).re) (α : Fin n → ℂ) (i : Fin 3) : Tendsto (fun z => field m α z i) atBot (nhds 0) := by
  unfold field
  have : ∀ a, Tendsto (fun z : ℝ => α a * (m a).2 i * Complex.exp (Complex.I * (m a).1 * z)) atBot (nhds 0) := by
    intro a
    have h0 : Tendsto (fun z : ℝ => Complex.exp (Complex.I * (m a).1 * z)) atBot (nhds 0) := by
      rw [tendsto_zero_iff_norm_tendsto_zero]
      have e : (fun z : ℝ => ‖Complex.exp (Complex.I * (m a).1 * z)‖) = fun z : ℝ => Real.exp ((Complex.I * (m a).1).re * z) := by
        funext z
        rw [Complex.norm_exp, Complex.re_mul_ofReal]
      rw [e]
      exact Real.tendsto_exp_atBot.comp (tendsto_id.const_mul_atBot (hre a))
    have := h0.const_mul (α a * (m a).2 i)
    rwa [mul_zero] at this
  have hs := tendsto_finsetSum (s := (Finset.univ : Finset (Fin n))) fun a _ => this a
  simpa using hs

/-- The modes solve the bulk equation. -/
def BulkModes (A : Aniso) (qx qy : ℝ) {n : ℕ} (m : Fin n → Mode) : Prop := ∀ a, bulkop A qx qy (m a).1 *ᵥ (m a).2 = 0

lemma field_cauchy (A : Aniso) (qx qy : ℝ) {n : ℕ} (m : Fin n → Mode) (hm : BulkModes A qx qy m) (α : Fin n → ℂ) (z : ℝ) :
    Elastic.Cauchy (tensor A.C) qx qy (field m α z) (field m (fun a => α a * (Complex.I * (m a).1)) z) (field m (fun a => α a * (Complex.I * (m a).1) * (Complex.I * (m a).1)) z) := by
  intro i
  have hI := Complex.I_sq
  have key : ∀ a, ∑ l, bulkop A qx qy (m a).1 i l * (m a).2 l = 0 := fun a => congrFun (hm a) i
  have hsum : ∑ a, α a * Complex.exp (Complex.I * (m a).1 * z) * ∑ l, bulkop A qx qy (m a).1 i l * (m a).2 l = 0 := Finset.sum_eq_zero fun a _ => by rw [key, mul_zero]
  rw [← hsum]
  unfold Elastic.hooke Elastic.grad field
  simp only [Fin.sum_univ_three, Matrix.cons_val_zero, Matrix.cons_val_one, Matrix.cons_val, bulkop_entry, Finset.mul_sum, ← Finset.sum_add_distrib]
  refine Finset.sum_congr rfl fun a _ => ?_
  generalize Complex.exp (Complex.I * (m a).1 * z) = E
  linear_combination (α a * E * ((tensor A.C i 0 0 0 * qx * qx + tensor A.C i 0 1 0 * qx * qy + tensor A.C i 1 0 0 * qy * qx + tensor A.C i 1 1 0 * qy * qy
      + (tensor A.C i 0 2 0 + tensor A.C i 2 0 0) * qx * (m a).1 + (tensor A.C i 1 2 0 + tensor A.C i 2 1 0) * qy * (m a).1 + tensor A.C i 2 2 0 * (m a).1 * (m a).1) * (m a).2 0
    + (tensor A.C i 0 0 1 * qx * qx + tensor A.C i 0 1 1 * qx * qy + tensor A.C i 1 0 1 * qy * qx + tensor A.C i 1 1 1 * qy * qy
      + (tensor A.C i 0 2 1 + tensor A.C i 2 0 1) * qx * (m a).1 + (tensor A.C i 1 2 1 + tensor A.C i 2 1 1) * qy * (m a).1 + tensor A.C i 2 2 1 * (m a).1 * (m a).1) * (m a).2 1
    + (tensor A.C i 0 0 2 * qx * qx + tensor A.C i 0 1 2 * qx * qy + tensor A.C i 1 0 2 * qy * qx + tensor A.C i 1 1 2 * qy * qy
      + (tensor A.C i 0 2 2 + tensor A.C i 2 0 2) * qx * (m a).1 + (tensor A.C i 1 2 2 + tensor A.C i 2 1 2) * qy * (m a).1 + tensor A.C i 2 2 2 * (m a).1 * (m a).1) * (m a).2 2)) * hI

lemma field_traction (A : Aniso) (qx qy : ℝ) {n : ℕ} (m : Fin n → Mode) (α : Fin n → ℂ) (i : Fin 3) :
    Elastic.hooke (tensor A.C) qx qy (field m α 0) (field m (fun a => α a * (Complex.I * (m a).1)) 0) i 2 = (traction A qx qy m *ᵥ α) i := by
  unfold Elastic.hooke Elastic.grad field Matrix.mulVec dotProduct traction
  simp only [Fin.sum_univ_three, Matrix.cons_val_zero, Matrix.cons_val_one, Matrix.cons_val, Finset.mul_sum, ← Finset.sum_add_distrib, Complex.ofReal_zero, mul_zero, Complex.exp_zero, mul_one]
  refine Finset.sum_congr rfl fun a _ => ?_
  ring

lemma field_surface {n : ℕ} (m : Fin n → Mode) (α : Fin n → ℂ) : field m α 0 = makeU m *ᵥ α := by
  funext i
  unfold field Matrix.mulVec dotProduct makeU
  refine Finset.sum_congr rfl fun a _ => ?_
  simp [mul_comm]

lemma field_bottom {n : ℕ} (m : Fin n → Mode) (α : Fin n → ℂ) (h : ℝ) : field m α (-h) = bottom h m *ᵥ α := by
  funext i
  unfold field Matrix.mulVec dotProduct bottom
  refine Finset.sum_congr rfl fun a _ => ?_
  have : Complex.I * (m a).1 * ((-h : ℝ) : ℂ) = -Complex.I * (m a).1 * h := by push_cast; ring
  rw [this]
  ring

lemma eigenvector_kernel (L : Lapack) (hL : L.Ok) (A : Aniso) (qx qy : ℝ) (qz : ℂ) (e : Fin 3 → ℂ) (h : eigenvector L A qx qy qz = .ok e) : bulkop A qx qy qz *ᵥ e = 0 := by
  unfold eigenvector at h
  split at h
  · rename_i e' he'
    injection h with h
    subst h
    exact hL.kernel _ _ (by rw [he']; simp)
  · cases h

lemma eigenvectors_kernel (L : Lapack) (hL : L.Ok) (A : Aniso) (qx qy : ℝ) : ∀ (qz : List ℂ) (eta : List (Fin 3 → ℂ)), findEigenvectors L A qx qy qz = .ok eta →
    eta.length = qz.length ∧ ∀ p ∈ qz.zip eta, bulkop A qx qy p.1 *ᵥ p.2 = 0 := by
  intro qz
  induction qz with
  | nil =>
    intro eta h
    have : eta = [] := by
      unfold findEigenvectors at h
      rw [List.mapM_nil] at h
      injection h with h
      exact h.symm
    subst this
    exact ⟨rfl, by simp⟩
  | cons q qz ih =>
    intro eta h
    unfold findEigenvectors at h ih
    rw [List.mapM_cons] at h
    cases h1 : eigenvector L A qx qy q with
    | error e => rw [h1] at h; cases h
    | ok e =>
      cases h2 : List.mapM (eigenvector L A qx qy) qz with
      | error e => rw [h1, h2] at h; cases h
      | ok es =>
        rw [h1, h2] at h
        injection h with h
        subst h
        obtain ⟨i1, i2⟩ := ih es h2
        refine ⟨by simp [i1], ?_⟩
        intro p hp
        rw [List.zip_cons_cons, List.mem_cons] at hp
        rcases hp with rfl | hp
        · exact eigenvector_kernel L hL A qx qy q e h1
        · exact i2 p hp

/-- What `modes` returns. -/
lemma modes_spec (L : Lapack) (hL : L.Ok) (A : Aniso) (qx qy : ℝ) (thickness : Option ℝ) (ms : List Mode) (h : modes L A qx qy thickness = .ok ms) :
    (∀ p ∈ ms, bulkop A qx qy p.1 *ᵥ p.2 = 0) ∧ ms.map Prod.fst = normalWaves thickness (findEigenvalues L A qx qy) := by
  unfold modes at h
  generalize normalWaves thickness (findEigenvalues L A qx qy) = qz at h ⊢
  cases h1 : findEigenvectors L A qx qy qz with
  | error e => rw [h1] at h; cases h
  | ok eta =>
    rw [h1] at h
    have h : qz.zip eta = ms := by injection h
    obtain ⟨e1, e2⟩ := eigenvectors_kernel L hL A qx qy qz eta h1
    rw [← h]
    exact ⟨e2, List.map_fst_zip e1.ge⟩

/-- Three modes are always the ones that die out. -/
lemma three_modes (thickness : Option ℝ) (ev : List ℂ) (h : (normalWaves thickness ev).length = 3) : normalWaves thickness ev = ev.map fun q => -Complex.I * q := by
  unfold normalWaves at h ⊢
  split_ifs at h ⊢ with hd
  · rfl
  · simp at h
    omega

/-- `G = F^{-T} U^T` gives `G^T t = U (F^{-1} t)`. -/
lemma transposed_response (F U : M3) (hF : F.det ≠ 0) (t : Fin 3 → ℂ) : (Fᵀ⁻¹ * Uᵀ)ᵀ *ᵥ t = U *ᵥ (F⁻¹ *ᵥ t) ∧ F *ᵥ (F⁻¹ *ᵥ t) = t := by
  constructor
  · rw [Matrix.transpose_mul, Matrix.transpose_transpose, ← Matrix.transpose_nonsing_inv, Matrix.transpose_transpose, Matrix.mulVec_mulVec]
  · rw [Matrix.mulVec_mulVec, Matrix.mul_nonsing_inv _ (isUnit_iff_ne_zero.2 hF), Matrix.one_mulVec]

/-- **C126.** For an infinitely thick substrate the Green's function is the response of the crystal: for every traction there is a field in equilibrium that dies out with depth, with that traction at the
surface, whose surface displacement is the product of the traction with the *transposed* matrix. -/
theorem C126_response (L : Lapack) (hL : L.Ok) (A : Aniso) (qx qy tol : ℝ) (G : M3) (h : greens1 L A qx qy none tol = .ok G) (hre : ∀ Q ∈ findEigenvalues L A qx qy, 0 < Q.re) (t : Fin 3 → ℂ) :
    ∃ w, Elastic.CrystalSolution (tensor A.C) qx qy t w ∧ w 0 = Gᵀ *ᵥ t := by
  classical
  unfold greens1 at h
  rw [if_neg (by simp)] at h
  cases hm : modes L A qx qy none with
  | error e => rw [hm] at h; cases h
  | ok ms =>
    rw [hm] at h
    simp only [Bind.bind, Except.bind] at h
    obtain ⟨m1, m2⟩ := modes_spec L hL A qx qy none ms hm
    unfold solveGreens at h
    by_cases h3 : ms.length = 3
    · simp only [h3, dite_true] at h
      set m : Fin 3 → Mode := fun a => ms[a.val]'(by omega) with hmd
      by_cases hd : (traction A qx qy m).det = 0
      · rw [if_pos hd] at h; cases h
      · rw [if_neg hd] at h
        injection h with h
        have hb : BulkModes A qx qy m := fun a => m1 _ (List.getElem_mem _)
        have hdec : ∀ a, 0 < (Complex.I * (m a).1).re := by
          intro a
          have hmem : (m a).1 ∈ ms.map Prod.fst := List.mem_map_of_mem (List.getElem_mem _)
          rw [m2, three_modes _ _ (by rw [← m2, List.length_map, h3]), List.mem_map] at hmem
          obtain ⟨Q, hQ, e⟩ := hmem
          rw [← e]
          have : Complex.I * (-Complex.I * Q) = Q := by linear_combination -Q * Complex.I_sq
          rw [this]
          exact hre Q hQ
        obtain ⟨r1, r2⟩ := transposed_response (traction A qx qy m) (makeU m) hd t
        refine ⟨field m ((traction A qx qy m)⁻¹ *ᵥ t), ⟨_, _, hasDerivAt_field m _, hasDerivAt_field m _, field_cauchy A qx qy m hb _, ?_, field_decay m hdec _, field_decay m hdec _⟩, ?_⟩
        · intro i
          rw [field_traction, r2]
        · rw [field_surface, ← h, r1]
    · by_cases h6 : ms.length = 6
      · simp only [h6] at h
        cases h
      · rw [dif_neg h3, dif_neg h6] at h
        cases h

/-- **C126.** For the stable crystal in its own axes or turned about the surface normal the condition on the eigenvalues always holds, so the result is always the response. -/
theorem C126_response_cubic_partial (L : Lapack) (hL : L.Ok) (k : Constants) (hk : k.ints = false) (hs : Stable k) (thickness : Option ℝ) (c s : ℝ) (hcs : c ^ 2 + s ^ 2 = 1) (A : Aniso)
    (hA : construct k thickness (fun i j => !![c, -s, 0; s, c, 0; 0, 0, 1] i j) = .ok A) (qx qy tol : ℝ) (hq : qx ≠ 0 ∨ qy ≠ 0) (G : M3) (h : greens1 L A qx qy none tol = .ok G) (t : Fin 3 → ℂ) :
    ∃ w, Elastic.CrystalSolution (tensor A.C) qx qy t w ∧ w 0 = Gᵀ *ᵥ t := by
  have hm : Mirror A := by
    obtain ⟨A', h1, h2⟩ := mirror_aboutNormal k hk thickness c s hcs
    have h1' : construct k thickness (fun i j => !![c, -s, 0; s, c, 0; 0, 0, 1] i j) = .ok A' := h1
    rw [hA] at h1'
    injection h1' with h1'
    rw [h1']
    exact h2
  have hR : Rotation (fun i j => !![c, -s, 0; s, c, 0; 0, 0, 1] i j) := by
    refine ⟨?_, ?_, ?_⟩
    · intro i j
      fin_cases i <;> fin_cases j <;> simp [Fin.sum_univ_three] <;> linarith
    · intro i j
      fin_cases i <;> fin_cases j <;> simp [Fin.sum_univ_three] <;> linarith
    · simp [Matrix.det_fin_three]
      linarith
  exact C126_response L hL A qx qy tol G h (fun Q hQ => C124_decay_partial L hL k hk hs thickness _ hR A hA hm qx qy hq Q hQ) t

/-- **C126.** For a layer (six modes) the Green's function is the response of the layer: the field is in equilibrium, has the traction at the surface and vanishes at the bottom. -/
theorem C126_layer_partial (L : Lapack) (hL : L.Ok) (A : Aniso) (qx qy tol d : ℝ) (G : M3) (h : greens1 L A qx qy (some d) tol = .ok G) (hq : ¬ (|qx| < tol ∧ |qy| < tol))
    (hdeep : ∀ Q ∈ findEigenvalues L A qx qy, d * Q.re ≤ 100) (t : Fin 3 → ℂ) :
    ∃ w, Elastic.LayerSolution (tensor A.C) qx qy d t w ∧ w 0 = Gᵀ *ᵥ t := by
  classical
  unfold greens1 at h
  rw [if_neg (by simpa using hq)] at h
  cases hm : modes L A qx qy (some d) with
  | error e => rw [hm] at h; cases h
  | ok ms =>
    rw [hm] at h
    simp only [Bind.bind, Except.bind] at h
    obtain ⟨m1, m2⟩ := modes_spec L hL A qx qy (some d) ms hm
    have hnd : ¬ Deep (some d) (findEigenvalues L A qx qy) := by
      rintro ⟨Q, hQ, h100⟩
      exact absurd (hdeep Q hQ) (not_le.2 h100)
    unfold solveGreens at h
    by_cases h3 : ms.length = 3
    · exfalso
      have : (normalWaves (some d) (findEigenvalues L A qx qy)).length = 3 := by rw [← m2, List.length_map, h3]
      unfold normalWaves at this
      rw [if_neg hnd] at this
      simp at this
      omega
    · by_cases h6 : ms.length = 6
      · rw [dif_neg h3, dif_pos h6] at h
        simp only at h
        set m : Fin 6 → Mode := fun a => ms[a.val]'(by omega) with hmd
        by_cases hd : (makeF6 A qx qy d m).det = 0
        · rw [if_pos hd] at h; cases h
        · rw [if_neg hd] at h
          injection h with h
          have hb : BulkModes A qx qy m := fun a => m1 _ (List.getElem_mem _)
          -- the load: traction on top, nothing at the bottom
          let load : Fin 6 → ℂ := fun i => if hi : i.val < 3 then t ⟨i.val, hi⟩ else 0
          set α := (makeF6 A qx qy d m)⁻¹ *ᵥ load with hα
          have hF : makeF6 A qx qy d m *ᵥ α = load := by rw [hα, Matrix.mulVec_mulVec, Matrix.mul_nonsing_inv _ (isUnit_iff_ne_zero.2 hd), Matrix.one_mulVec]
          have htop : traction A qx qy m *ᵥ α = t := by
            funext i
            have := congrFun hF (Fin.castLE (by decide) i)
            have hi : (Fin.castLE (by decide : 3 ≤ 6) i).val < 3 := i.isLt
            simp only [load, dif_pos hi] at this
            rw [Matrix.mulVec, dotProduct] at this ⊢
            simp only [makeF6, dif_pos hi] at this
            exact this
          have hbot : bottom d m *ᵥ α = 0 := by
            funext i
            have := congrFun hF ⟨i.val + 3, by omega⟩
            have hi : ¬ i.val + 3 < 3 := by omega
            simp only [load, dif_neg hi] at this
            rw [Matrix.mulVec, dotProduct] at this ⊢
            simp only [makeF6, dif_neg hi, Nat.add_sub_cancel] at this
            exact this
          refine ⟨field m α, ⟨_, _, hasDerivAt_field m _, hasDerivAt_field m _, field_cauchy A qx qy m hb _, ?_, ?_⟩, ?_⟩
          · intro i; rw [field_traction, htop]
          · rw [field_bottom, hbot]
          · rw [field_surface, ← h]
            funext j
            have hT : ((makeF6 A qx qy d m)ᵀ⁻¹ * (makeU m)ᵀ) = (makeU m * (makeF6 A qx qy d m)⁻¹)ᵀ := by
              rw [Matrix.transpose_mul, Matrix.transpose_nonsing_inv]
            have e1 : (makeU m *ᵥ α) j = ∑ i : Fin 6, (makeU m * (makeF6 A qx qy d m)⁻¹) j i * load i := by
              rw [hα, Matrix.mulVec_mulVec]
              rfl
            rw [e1, hT]
            show _ = ∑ i : Fin 3, (makeU m * (makeF6 A qx qy d m)⁻¹) j (Fin.castLE (by decide) i) * t i
            rw [Fin.sum_univ_six, Fin.sum_univ_three]
            simp [load]
      · rw [dif_neg h3, dif_neg h6] at h
        cases h

/-! ## Uniqueness -/

/-- Betti's reciprocity for crystals. -/
lemma betti_crystal (C : Fin 3 → Fin 3 → Fin 3 → Fin 3 → ℝ) (h1 : ∀ i j k l, C i j k l = C j i k l) (h2 : ∀ i j k l, C i j k l = C i j l k) (h3 : ∀ i j k l, C i j k l = C k l i j)
    (qx qy : ℝ) (w w' w'' v v' v'' : ℝ → Fin 3 → ℂ) (hw : ∀ z i, HasDerivAt (fun z => w z i) (w' z i) z) (hw' : ∀ z i, HasDerivAt (fun z => w' z i) (w'' z i) z)
    (hv : ∀ z i, HasDerivAt (fun z => v z i) (v' z i) z) (hv' : ∀ z i, HasDerivAt (fun z => v' z i) (v'' z i) z)
    (nw : ∀ z, Elastic.Cauchy C qx qy (w z) (w' z) (w'' z)) (nv : ∀ z, Elastic.Cauchy C (-qx) (-qy) (v z) (v' z) (v'' z)) (z : ℝ) :
    HasDerivAt (fun z => ∑ i, (v z i * Elastic.hooke C qx qy (w z) (w' z) i 2 - w z i * Elastic.hooke C (-qx) (-qy) (v z) (v' z) i 2)) 0 z := by
  have dg : ∀ (Qx Qy : ℝ) (u u' u'' : ℝ → Fin 3 → ℂ), (∀ i, HasDerivAt (fun z => u z i) (u' z i) z) → (∀ i, HasDerivAt (fun z => u' z i) (u'' z i) z) →
      ∀ i, HasDerivAt (fun z => Elastic.hooke C Qx Qy (u z) (u' z) i 2) (Elastic.hooke C Qx Qy (u' z) (u'' z) i 2) z := by
    intro Qx Qy u u' u'' hu hu' i
    unfold Elastic.hooke
    refine HasDerivAt.fun_sum fun k _ => HasDerivAt.fun_sum fun l _ => HasDerivAt.const_mul _ ?_
    fin_cases k
    · exact (hu l).const_mul _
    · exact (hu l).const_mul _
    · exact hu' l
  have hsum := HasDerivAt.fun_sum (u := Finset.univ) fun i (_ : i ∈ Finset.univ) => (((hv z i).mul (dg qx qy w w' w'' (hw z) (hw' z) i)).sub ((hw z i).mul (dg (-qx) (-qy) v v' v'' (hv z) (hv' z) i)))
  have hz : ∑ i, (v' z i * Elastic.hooke C qx qy (w z) (w' z) i 2 + v z i * Elastic.hooke C qx qy (w' z) (w'' z) i 2
      - (w' z i * Elastic.hooke C (-qx) (-qy) (v z) (v' z) i 2 + w z i * Elastic.hooke C (-qx) (-qy) (v' z) (v'' z) i 2)) = 0 := by
    have ew : ∀ i, Elastic.hooke C qx qy (w' z) (w'' z) i 2 = -(Complex.I * qx * Elastic.hooke C qx qy (w z) (w' z) i 0 + Complex.I * qy * Elastic.hooke C qx qy (w z) (w' z) i 1) := by
      intro i
      have := nw z i
      linear_combination this
    have ev : ∀ i, Elastic.hooke C (-qx) (-qy) (v' z) (v'' z) i 2
        = Complex.I * qx * Elastic.hooke C (-qx) (-qy) (v z) (v' z) i 0 + Complex.I * qy * Elastic.hooke C (-qx) (-qy) (v z) (v' z) i 1 := by
      intro i
      have := nv z i
      push_cast at this
      linear_combination this
    simp only [ew, ev]
    have energy : ∀ a b : Fin 3 → Fin 3 → ℂ, ∑ i, ∑ j, a j i * ∑ k, ∑ l, (C i j k l : ℂ) * b k l = ∑ i, ∑ j, b j i * ∑ k, ∑ l, (C i j k l : ℂ) * a k l := by
      intro a b
      have s : ∀ i j k l, C i j k l = C l k j i := fun i j k l => by rw [h3, h1, h2]
      have : ∀ a b : Fin 3 → Fin 3 → ℂ, ∑ i, ∑ j, a j i * ∑ k, ∑ l, (C i j k l : ℂ) * b k l = ∑ i, ∑ j, ∑ k, ∑ l, (C i j k l : ℂ) * (a j i * b k l) := by
        intro a b
        refine Finset.sum_congr rfl fun i _ => Finset.sum_congr rfl fun j _ => ?_
        rw [Finset.mul_sum]
        refine Finset.sum_congr rfl fun k _ => ?_
        rw [Finset.mul_sum]
        exact Finset.sum_congr rfl fun l _ => by ring
      rw [this, this]
      have e1 : ∑ i, ∑ j, ∑ k, ∑ l, (C i j k l : ℂ) * (b j i * a k l) = ∑ p : (Fin 3 × Fin 3) × (Fin 3 × Fin 3), (C p.1.1 p.1.2 p.2.1 p.2.2 : ℂ) * (b p.1.2 p.1.1 * a p.2.1 p.2.2) := by
        rw [Fintype.sum_prod_type, Fintype.sum_prod_type]
        refine Finset.sum_congr rfl fun i _ => Finset.sum_congr rfl fun j _ => ?_
        rw [Fintype.sum_prod_type]
      have e2 : ∑ i, ∑ j, ∑ k, ∑ l, (C i j k l : ℂ) * (a j i * b k l) = ∑ p : (Fin 3 × Fin 3) × (Fin 3 × Fin 3), (C p.1.1 p.1.2 p.2.1 p.2.2 : ℂ) * (a p.1.2 p.1.1 * b p.2.1 p.2.2) := by
        rw [Fintype.sum_prod_type, Fintype.sum_prod_type]
        refine Finset.sum_congr rfl fun i _ => Finset.sum_congr rfl fun j _ => ?_
        rw [Fintype.sum_prod_type]
      rw [e1, e2]
      let σ : (Fin 3 × Fin 3) × (Fin 3 × Fin 3) ≃ (Fin 3 × Fin 3) × (Fin 3 × Fin 3) :=
        ⟨fun p => ((p.2.2, p.2.1), (p.1.2, p.1.1)), fun p => ((p.2.2, p.2.1), (p.1.2, p.1.1)), fun _ => rfl, fun _ => rfl⟩
      refine Fintype.sum_equiv σ _ _ fun p => ?_
      simp only [σ, Equiv.coe_fn_mk]
      rw [s p.1.1 p.1.2 p.2.1 p.2.2]
      ring
    have := energy (fun j i => Elastic.grad (-qx) (-qy) (v z) (v' z) j i) (fun j i => Elastic.grad qx qy (w z) (w' z) j i)
    have e1 : ∀ i, ∑ j, Elastic.grad (-qx) (-qy) (v z) (v' z) j i * Elastic.hooke C qx qy (w z) (w' z) i j
        = v' z i * Elastic.hooke C qx qy (w z) (w' z) i 2 - v z i * (Complex.I * qx * Elastic.hooke C qx qy (w z) (w' z) i 0 + Complex.I * qy * Elastic.hooke C qx qy (w z) (w' z) i 1) := by
      intro i
      rw [Fin.sum_univ_three]
      simp only [Elastic.grad, Matrix.cons_val_zero, Matrix.cons_val_one, Matrix.cons_val]
      push_cast
      ring
    have e2 : ∀ i, ∑ j, Elastic.grad qx qy (w z) (w' z) j i * Elastic.hooke C (-qx) (-qy) (v z) (v' z) i j
        = w' z i * Elastic.hooke C (-qx) (-qy) (v z) (v' z) i 2 + w z i * (Complex.I * qx * Elastic.hooke C (-qx) (-qy) (v z) (v' z) i 0 + Complex.I * qy * Elastic.hooke C (-qx) (-qy) (v z) (v' z) i 1) := by
      intro i
      rw [Fin.sum_univ_three]
      simp only [Elastic.grad, Matrix.cons_val_zero, Matrix.cons_val_one, Matrix.cons_val]
      ring
    have h' : ∑ i, ∑ j, Elastic.grad (-qx) (-qy) (v z) (v' z) j i * Elastic.hooke C qx qy (w z) (w' z) i j = ∑ i, ∑ j, Elastic.grad qx qy (w z) (w' z) j i * Elastic.hooke C (-qx) (-qy) (v z) (v' z) i j := this
    simp only [e1, e2] at h'
    rw [Finset.sum_sub_distrib, sub_eq_zero, ← h']
    exact Finset.sum_congr rfl fun i _ => by ring
  rw [hz] at hsum
  exact hsum

/-- Two waves with opposite wavevectors do the same work on each other at the surface. -/
lemma reciprocity (C : Fin 3 → Fin 3 → Fin 3 → Fin 3 → ℝ) (h1 : ∀ i j k l, C i j k l = C j i k l) (h2 : ∀ i j k l, C i j k l = C i j l k) (h3 : ∀ i j k l, C i j k l = C k l i j)
    (qx qy : ℝ) (t s : Fin 3 → ℂ) (w v : ℝ → Fin 3 → ℂ) (hw : Elastic.CrystalSolution C qx qy t w) (hv : Elastic.CrystalSolution C (-qx) (-qy) s v) :
    ∑ i, v 0 i * t i = ∑ i, w 0 i * s i := by
  obtain ⟨w', w'', d1, d2, nw, tw, l1, l2⟩ := hw
  obtain ⟨v', v'', e1, e2, nv, tv, k1, k2⟩ := hv
  have hb := betti_crystal C h1 h2 h3 qx qy w w' w'' v v' v'' d1 d2 e1 e2 nw nv
  set f := fun z => ∑ i, (v z i * Elastic.hooke C qx qy (w z) (w' z) i 2 - w z i * Elastic.hooke C (-qx) (-qy) (v z) (v' z) i 2) with hf
  have hconst : ∀ z, f z = f 0 := fun z => is_const_of_deriv_eq_zero (fun z => (hb z).differentiableAt) (fun z => (hb z).deriv) z 0
  have slim : ∀ (Qx Qy : ℝ) (u u' : ℝ → Fin 3 → ℂ), (∀ i, Tendsto (fun z => u z i) atBot (nhds 0)) → (∀ i, Tendsto (fun z => u' z i) atBot (nhds 0)) →
      ∀ i, Tendsto (fun z => Elastic.hooke C Qx Qy (u z) (u' z) i 2) atBot (nhds 0) := by
    intro Qx Qy u u' g1 g2 i
    unfold Elastic.hooke
    have : ∀ k l, Tendsto (fun z => (C i 2 k l : ℂ) * Elastic.grad Qx Qy (u z) (u' z) k l) atBot (nhds 0) := by
      intro k l
      have hg : Tendsto (fun z => Elastic.grad Qx Qy (u z) (u' z) k l) atBot (nhds 0) := by
        fin_cases k
        · have := (g1 l).const_mul (Complex.I * Qx)
          rwa [mul_zero] at this
        · have := (g1 l).const_mul (Complex.I * Qy)
          rwa [mul_zero] at this
        · exact g2 l
      have := hg.const_mul (C i 2 k l : ℂ)
      rwa [mul_zero] at this
    have := tendsto_finsetSum (s := (Finset.univ : Finset (Fin 3))) fun k _ => tendsto_finsetSum (s := (Finset.univ : Finset (Fin 3))) fun l _ => this k l
    simpa using this
  have hlim : Tendsto f atBot (nhds 0) := by
    have := tendsto_finsetSum (s := (Finset.univ : Finset (Fin 3))) fun i _ => ((k1 i).mul (slim qx qy w w' l1 l2 i)).sub ((l1 i).mul (slim (-qx) (-qy) v v' k1 k2 i))
    simp only [mul_zero, sub_zero, Finset.sum_const_zero] at this
    exact this
  have h0 : f 0 = 0 := by
    have hc : Tendsto f atBot (nhds (f 0)) := by
      have : f = fun _ => f 0 := funext hconst
      rw [this]
      exact tendsto_const_nhds
    exact tendsto_nhds_unique hc hlim
  rw [hf] at h0
  simp only [tw, tv] at h0
  rw [Finset.sum_sub_distrib] at h0
  exact sub_eq_zero.1 h0

/-- The complex conjugate of a wave is a wave with the opposite wavevector. -/
lemma conj_solution (C : Fin 3 → Fin 3 → Fin 3 → Fin 3 → ℝ) (qx qy : ℝ) (t : Fin 3 → ℂ) (w : ℝ → Fin 3 → ℂ) (hw : Elastic.CrystalSolution C qx qy t w) :
    Elastic.CrystalSolution C (-qx) (-qy) (fun i => (starRingEnd ℂ) (t i)) (fun z i => (starRingEnd ℂ) (w z i)) := by
  obtain ⟨w', w'', d1, d2, nw, tw, l1, l2⟩ := hw
  have dc : ∀ (f : ℝ → ℂ) (f' : ℂ) (z : ℝ), HasDerivAt f f' z → HasDerivAt (fun z => (starRingEnd ℂ) (f z)) ((starRingEnd ℂ) f') z := by
    intro f f' z h
    exact (Complex.conjCLE.hasFDerivAt (x := f z)).comp_hasDerivAt z h
  have lc : ∀ f : ℝ → ℂ, Tendsto f atBot (nhds 0) → Tendsto (fun z => (starRingEnd ℂ) (f z)) atBot (nhds 0) := by
    intro f h
    have := (Complex.continuous_conj.tendsto 0).comp h
    rwa [map_zero] at this
  have gc : ∀ (u u' : Fin 3 → ℂ) k l, Elastic.grad (-qx) (-qy) (fun i => (starRingEnd ℂ) (u i)) (fun i => (starRingEnd ℂ) (u' i)) k l = (starRingEnd ℂ) (Elastic.grad qx qy u u' k l) := by
    intro u u' k l
    unfold Elastic.grad
    fin_cases k <;> simp
  have hc : ∀ (u u' : Fin 3 → ℂ) i j, Elastic.hooke C (-qx) (-qy) (fun i => (starRingEnd ℂ) (u i)) (fun i => (starRingEnd ℂ) (u' i)) i j = (starRingEnd ℂ) (Elastic.hooke C qx qy u u' i j) := by
    intro u u' i j
    unfold Elastic.hooke
    rw [map_sum]
    refine Finset.sum_congr rfl fun k _ => ?_
    rw [map_sum]
    refine Finset.sum_congr rfl fun l _ => ?_
    rw [gc, map_mul, Complex.conj_ofReal]
  refine ⟨fun z i => (starRingEnd ℂ) (w' z i), fun z i => (starRingEnd ℂ) (w'' z i), fun z i => dc _ _ _ (d1 z i), fun z i => dc _ _ _ (d2 z i), ?_, ?_, fun i => lc _ (l1 i), fun i => lc _ (l2 i)⟩
  · intro z i
    rw [hc, hc, hc]
    have := congrArg (starRingEnd ℂ) (nw z i)
    simp only [map_add, map_mul, Complex.conj_I, Complex.conj_ofReal, map_zero] at this
    push_cast
    linear_combination this
  · intro i
    rw [hc, tw]

/-- **C126.** The Green's function of a crystal is Hermitian, and it is the only response: whenever the crystal is in equilibrium under a traction and displacements and strains die out with depth, the displacement
of the surface is given by this matrix. -/
theorem C126_unique (L : Lapack) (hL : L.Ok) (k : Constants) (thickness : Option ℝ) (R : Fin 3 → Fin 3 → ℝ) (A : Aniso) (hA : construct k thickness R = .ok A) (qx qy tol : ℝ) (G : M3)
    (h : greens1 L A qx qy none tol = .ok G) (hre : ∀ Q ∈ findEigenvalues L A qx qy, 0 < Q.re) :
    Hermitian G ∧ ∀ t w, Elastic.CrystalSolution (tensor A.C) qx qy t w → w 0 = Gᵀ *ᵥ t := by
  have sy := C82_symmetries k thickness R A hA
  have hrec := reciprocity (tensor A.C) (fun i j k l => (sy i j k l).1) (fun i j k l => (sy i j k l).2.1) (fun i j k l => (sy i j k l).2.2) qx qy
  have hbasis : ∀ b : Fin 3, (fun i => (starRingEnd ℂ) ((Pi.single b 1 : Fin 3 → ℂ) i)) = Pi.single b 1 := by
    intro b
    funext i
    by_cases hi : i = b
    · subst hi; simp
    · simp [hi]
  -- for every solution
  have all : ∀ t w, Elastic.CrystalSolution (tensor A.C) qx qy t w → ∀ b, w 0 b = ∑ i, (starRingEnd ℂ) (G b i) * t i := by
    intro t w hw b
    obtain ⟨v, v1, v2⟩ := C126_response L hL A qx qy tol G h hre (Pi.single b 1)
    have v1' := conj_solution _ _ _ _ _ v1
    rw [hbasis] at v1'
    have := hrec t _ w _ hw v1'
    rw [v2] at this
    have e1 : ∑ i, w 0 i * (Pi.single b 1 : Fin 3 → ℂ) i = w 0 b := by simp [Pi.single_apply]
    rw [e1] at this
    rw [← this]
    refine Finset.sum_congr rfl fun i _ => ?_
    congr 2
    simp [Matrix.mulVec, dotProduct, Pi.single_apply]
  have herm : Hermitian G := by
    intro a b
    obtain ⟨w, w1, w2⟩ := C126_response L hL A qx qy tol G h hre (Pi.single b 1)
    have := all _ _ w1 a
    rw [w2] at this
    simpa [Matrix.mulVec, dotProduct, Pi.single_apply] using this
  refine ⟨herm, fun t w hw => ?_⟩
  funext b
  rw [all t w hw b]
  show _ = ∑ i, G i b * t i
  refine Finset.sum_congr rfl fun i _ => ?_
  rw [herm b i]

/-! ## C127: stiffness -/

/-- **C127.** For an infinitely thick substrate the stiffness and the Green's function are inverse to each other, whenever both are computed. -/
theorem C127_inverse (L : Lapack) (A : Aniso) (qx qy tol : ℝ) (G K : M3) (hq : ¬ (|qx| < tol ∧ |qy| < tol)) (hG : greens1 L A qx qy none tol = .ok G) (hK : stiffness1 L A qx qy none tol = .ok K) :
    Inverses G K := by
  classical
  unfold greens1 at hG
  rw [if_neg (by simp)] at hG
  unfold stiffness1 at hK
  rw [if_neg hq] at hK
  cases hm : modes L A qx qy none with
  | error e => rw [hm] at hG; cases hG
  | ok ms =>
    rw [hm] at hG
    simp only [hm] at hK
    simp only [Bind.bind, Except.bind] at hG hK
    unfold solveStiffness at hK
    by_cases h3 : ms.length = 3
    · unfold solveGreens at hG
      rw [dif_pos h3] at hG hK
      simp only at hG hK
      set m : Fin 3 → Mode := fun a => ms[a.val]'(by omega) with hmd
      by_cases hu : (makeU m).det = 0
      · rw [if_pos hu] at hK; cases hK
      · by_cases hf : (traction A qx qy m).det = 0
        · rw [if_pos hf] at hG; cases hG
        · rw [if_neg hf] at hG
          rw [if_neg hu] at hK
          injection hG with hG
          injection hK with hK
          have u1 : IsUnit (makeU m)ᵀ.det := by rw [Matrix.det_transpose]; exact isUnit_iff_ne_zero.2 hu
          have f1 : IsUnit (traction A qx qy m)ᵀ.det := by rw [Matrix.det_transpose]; exact isUnit_iff_ne_zero.2 hf
          constructor
          · rw [← hG, ← hK, Matrix.mul_assoc, ← Matrix.mul_assoc _ _ (traction A qx qy m)ᵀ, Matrix.mul_nonsing_inv _ u1, Matrix.one_mul, Matrix.nonsing_inv_mul _ f1]
          · rw [← hG, ← hK, Matrix.mul_assoc, ← Matrix.mul_assoc _ _ (makeU m)ᵀ, Matrix.mul_nonsing_inv _ f1, Matrix.one_mul, Matrix.nonsing_inv_mul _ u1]
    · rw [dif_neg h3] at hK
      cases hK

/-- **C127.** The same for a layer, for every wavevector including zero. -/
theorem C127_inverse_layer (L : Lapack) (A : Aniso) (qx qy tol d : ℝ) (G K : M3) (hG : greens1 L A qx qy (some d) tol = .ok G) (hK : stiffness1 L A qx qy (some d) tol = .ok K) : Inverses G K := by
  classical
  unfold stiffness1 at hK
  have hinv : ∀ M N : M3, inv M = .ok N → Inverses M N := by
    intro M N h
    unfold inv at h
    by_cases hd : M.det = 0
    · rw [if_pos hd] at h; cases h
    · rw [if_neg hd] at h
      injection h with h
      rw [← h]
      exact (inv_ok M hd).2
  by_cases hq : |qx| < tol ∧ |qy| < tol
  · rw [if_pos hq] at hK
    unfold greens1 at hG
    rw [if_pos ⟨rfl, hq⟩] at hG
    cases ht : A.thickness with
    | none => simp only [ht] at hG; cases hG
    | some d' =>
      simp only [ht] at hG hK
      injection hK with hK
      have := hinv _ _ hG
      rw [hK] at this
      exact ⟨this.2, this.1⟩
  · rw [if_neg hq] at hK
    simp only [hG] at hK
    exact hinv _ _ hK

/-- **C127.** The stiffness at the zero wavevector is that of a uniformly sheared and compressed layer: a field that is linear in depth, in equilibrium, bonded at the bottom, has the traction `K u` when the
surface is displaced by `u`. -/
theorem C127_gamma (L : Lapack) (k : Constants) (R : Fin 3 → Fin 3 → ℝ) (d : ℝ) (hd : d ≠ 0) (A : Aniso) (hA : construct k (some d) R = .ok A) (tol : ℝ) (htol : 0 < tol) (d' : ℝ) :
    ∃ K, stiffness1 L A 0 0 (some d') tol = .ok K
      ∧ ∀ u : Fin 3 → ℂ, Elastic.LayerSolution (tensor A.C) 0 0 d (K *ᵥ u) (fun z i => (1 + z / d) * u i) := by
  have ht : A.thickness = some d := by rw [construct_ok k (some d) R A hA]
  have sy := C82_symmetries k (some d) R A hA
  have hv : ∀ I J, A.C I J = A.C J I := by
    intro I J
    have := (sy (unvoigt I).1 (unvoigt I).2 (unvoigt J).1 (unvoigt J).2).2.2
    rwa [C82_round_trip.1, C82_round_trip.1] at this
  refine ⟨gammaStiffness A d, ?_, fun u => ?_⟩
  · unfold stiffness1
    rw [if_pos (by simpa using htol)]
    simp only [ht]
  · have hdc : (d : ℂ) ≠ 0 := by exact_mod_cast hd
    have lin : ∀ (c : ℂ) (z : ℝ), HasDerivAt (fun z : ℝ => (1 + (z : ℂ) / d) * c) (1 / d * c) z := by
      intro c z
      have h1 : HasDerivAt (fun z : ℝ => (z : ℂ)) 1 z := (hasDerivAt_id z).ofReal_comp
      exact ((h1.div_const (d : ℂ)).const_add 1).mul_const c
    refine ⟨fun _ i => 1 / d * u i, fun _ _ => 0, fun z i => lin (u i) z, fun z i => hasDerivAt_const z _, ?_, ?_, ?_⟩
    · intro z i
      have : Elastic.hooke (tensor A.C) 0 0 (fun i => 1 / (d : ℂ) * u i) (fun _ => 0) i 2 = 0 := by
        unfold Elastic.hooke Elastic.grad
        refine Finset.sum_eq_zero fun k _ => Finset.sum_eq_zero fun l _ => ?_
        fin_cases k <;> simp
      simp only [Complex.ofReal_zero, mul_zero, zero_mul, zero_add]
      exact this
    · intro i
      unfold Elastic.hooke Elastic.grad
      simp only [Fin.sum_univ_three, Matrix.cons_val_zero, Matrix.cons_val_one, Matrix.cons_val, Complex.ofReal_zero, mul_zero, zero_mul, zero_add]
      have v02 : voigt 0 2 = 4 := by decide
      have v12 : voigt 1 2 = 3 := by decide
      have v22 : voigt 2 2 = 2 := by decide
      have v20 : voigt 2 0 = 4 := by decide
      have v21 : voigt 2 1 = 3 := by decide
      fin_cases i <;>
        simp [gammaStiffness, Matrix.mulVec, dotProduct, Fin.sum_univ_three, tensor, v02, v12, v22, v20, v21, hv 4 3, hv 4 2, hv 3 2] <;> field_simp
    · funext i
      have : (1 + ((-d : ℝ) : ℂ) / d) = 0 := by push_cast; field_simp; ring
      simp only [Pi.zero_apply]
      rw [this, zero_mul]

end CM.Greens
