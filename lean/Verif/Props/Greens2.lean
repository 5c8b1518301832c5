import Verif.Props.Greens
import Mathlib.Tactic.NormNum
/-!
# Properties of the anisotropic Green's function: constants and bulk equation (C82-C85, C124, C125)
-/
namespace CM.Greens

open Matrix

lemma voigt_comm (i j : Fin 3) : voigt i j = voigt j i := by revert i j; decide

lemma voigt_unvoigt (I : Fin 6) : voigt (unvoigt I).1 (unvoigt I).2 = I := by revert I; decide

lemma unvoigt_voigt (i j : Fin 3) : unvoigt (voigt i j) = (i, j) ∨ unvoigt (voigt i j) = (j, i) := by revert i j; decide

/-- Kronecker's symbol. -/
def delta (i j : Fin 3) : ℝ := if i = j then 1 else 0

lemma tensor_cubic (c : Constants) (i j k l : Fin 3) : tensor (cubic c) i j k l
    = c.c12 * (delta i j * delta k l) + c.c44 * (delta i k * delta j l + delta i l * delta j k) + (c.c11 - c.c12 - 2 * c.c44) * (delta i j * delta j k * delta k l) := by
  fin_cases i <;> fin_cases j <;> fin_cases k <;> fin_cases l <;> simp [tensor, cubic, voigt, delta] <;> ring

lemma rotated_cubic (c : Constants) (R : Fin 3 → Fin 3 → ℝ) (i j k l : Fin 3) : rotated R (tensor (cubic c)) i j k l
    = c.c12 * ((∑ g, R i g * R j g) * ∑ g, R k g * R l g)
      + c.c44 * ((∑ g, R i g * R k g) * (∑ g, R j g * R l g) + (∑ g, R i g * R l g) * ∑ g, R j g * R k g)
      + (c.c11 - c.c12 - 2 * c.c44) * ∑ g, R i g * R j g * R k g * R l g := by
  unfold rotated
  simp only [tensor_cubic, Fin.sum_univ_three]
  simp only [delta]
  simp
  ring

lemma stored_float (x : ℝ) : stored false x = x := rfl

lemma construct_ok (c : Constants) (thickness : Option ℝ) (R : Fin 3 → Fin 3 → ℝ) (A : Aniso) (h : construct c thickness R = .ok A) :
    A = ⟨fun I J => stored c.ints (rotated R (tensor (cubic c)) (unvoigt I).1 (unvoigt I).2 (unvoigt J).1 (unvoigt J).2), thickness⟩ := by
  unfold construct at h
  split_ifs at h
  injection h with h
  exact h.symm

lemma rotated_minor (c : Constants) (R : Fin 3 → Fin 3 → ℝ) (i j k l : Fin 3) :
    rotated R (tensor (cubic c)) i j k l = rotated R (tensor (cubic c)) j i k l ∧ rotated R (tensor (cubic c)) i j k l = rotated R (tensor (cubic c)) i j l k
    ∧ rotated R (tensor (cubic c)) i j k l = rotated R (tensor (cubic c)) k l i j := by
  simp only [rotated_cubic, Fin.sum_univ_three]
  refine ⟨?_, ?_, ?_⟩ <;> ring

/-! ## C82 -/

/-- **C82.** Whatever matrix and constants were passed, the elasticity tensor of the object has all minor and major symmetries. -/
theorem C82_symmetries (c : Constants) (thickness : Option ℝ) (R : Fin 3 → Fin 3 → ℝ) (A : Aniso) (h : construct c thickness R = .ok A) (i j k l : Fin 3) :
    tensor A.C i j k l = tensor A.C j i k l ∧ tensor A.C i j k l = tensor A.C i j l k ∧ tensor A.C i j k l = tensor A.C k l i j := by
  rw [construct_ok c thickness R A h]
  unfold tensor
  refine ⟨by rw [voigt_comm i j], by rw [voigt_comm k l], ?_⟩
  exact congrArg (stored c.ints) (rotated_minor c R _ _ _ _).2.2

/-- **C82.** Conversion to the tensor and back returns the matrix, for every 6x6 matrix; and conversion of a tensor with the minor symmetries to the matrix and back returns the tensor. -/
theorem C82_round_trip : (∀ (C : Fin 6 → Fin 6 → ℝ) (I J : Fin 6), tensor C (unvoigt I).1 (unvoigt I).2 (unvoigt J).1 (unvoigt J).2 = C I J)
    ∧ ∀ (T : Fin 3 → Fin 3 → Fin 3 → Fin 3 → ℝ), (∀ i j k l, T i j k l = T j i k l) → (∀ i j k l, T i j k l = T i j l k) →
      ∀ i j k l, tensor (fun I J => T (unvoigt I).1 (unvoigt I).2 (unvoigt J).1 (unvoigt J).2) i j k l = T i j k l := by
  constructor
  · intro C I J
    unfold tensor
    rw [voigt_unvoigt, voigt_unvoigt]
  · intro T h1 h2 i j k l
    unfold tensor
    beta_reduce
    rcases unvoigt_voigt i j with e | e <;> rcases unvoigt_voigt k l with e' | e' <;> rw [e, e']
    · rw [h2]
    · rw [h1]
    · rw [h1, h2]

/-- **C82.** For float constants, the tensor of the object is the rotated tensor of the crystal. -/
theorem C82_rotated (c : Constants) (hc : c.ints = false) (thickness : Option ℝ) (R : Fin 3 → Fin 3 → ℝ) (A : Aniso) (h : construct c thickness R = .ok A) (i j k l : Fin 3) :
    tensor A.C i j k l = ∑ g, ∑ h, ∑ m, ∑ n, R i g * R j h * tensor (cubic c) g h m n * R k m * R l n := by
  have e : A.C = fun I J => rotated R (tensor (cubic c)) (unvoigt I).1 (unvoigt I).2 (unvoigt J).1 (unvoigt J).2 := by
    rw [construct_ok c thickness R A h, hc]
    rfl
  rw [e]
  exact C82_round_trip.2 _ (fun i j k l => (rotated_minor c R i j k l).1) (fun i j k l => (rotated_minor c R i j k l).2.1) i j k l

lemma rotated_of_rotation (c : Constants) (R : Fin 3 → Fin 3 → ℝ) (hR : ∀ i j, ∑ k, R i k * R j k = if i = j then 1 else 0) (i j k l : Fin 3) : rotated R (tensor (cubic c)) i j k l
    = c.c12 * (delta i j * delta k l) + c.c44 * (delta i k * delta j l + delta i l * delta j k) + (c.c11 - c.c12 - 2 * c.c44) * ∑ g, R i g * R j g * R k g * R l g := by
  rw [rotated_cubic]
  simp only [hR]
  rfl

/-- **C82.** Isotropic constants are not changed by any rotation. -/
theorem C82_isotropic (c : Constants) (hc : c.ints = false) (hiso : c.c11 - c.c12 = 2 * c.c44) (thickness : Option ℝ) (R : Fin 3 → Fin 3 → ℝ) (hR : Rotation R) :
    construct c thickness R = .ok ⟨cubic c, thickness⟩ := by
  have hd : closeToOne (Matrix.det (Matrix.of R)) = true := by rw [hR.2.2]; unfold closeToOne; norm_num
  unfold construct
  rw [if_pos hd]
  congr 2
  funext I J
  rw [hc, stored_float, rotated_of_rotation c R hR.1, ← C82_round_trip.1 (cubic c) I J, tensor_cubic]
  have : c.c11 - c.c12 - 2 * c.c44 = 0 := by linarith
  rw [this]
  ring

/-- **C82.** The symmetries of the cube do not change cubic constants: matrices that permute the axes and flip signs (with determinant one). -/
theorem C82_cube (c : Constants) (hc : c.ints = false) (thickness : Option ℝ) (σ : Equiv.Perm (Fin 3)) (ε : Fin 3 → ℝ) (hε : ∀ i, ε i = 1 ∨ ε i = -1)
    (hdet : (Matrix.of fun i j => if j = σ i then ε i else 0).det = 1) :
    construct c thickness (fun i j => if j = σ i then ε i else 0) = .ok ⟨cubic c, thickness⟩ := by
  have hd : closeToOne (Matrix.det (Matrix.of fun i j => if j = σ i then ε i else 0)) = true := by rw [hdet]; unfold closeToOne; norm_num
  unfold construct
  rw [if_pos hd]
  congr 2
  funext I J
  have hsq : ∀ i, ε i * ε i = 1 := fun i => by rcases hε i with h | h <;> rw [h] <;> norm_num
  have hR : ∀ i j : Fin 3, ∑ k, (if k = σ i then ε i else 0) * (if k = σ j then ε j else 0) = if i = j then 1 else 0 := by
    intro i j
    by_cases hij : i = j
    · subst hij
      simp [hsq]
    · have : ∀ k, (if k = σ i then ε i else 0) * (if k = σ j then ε j else 0) = (0 : ℝ) := by
        intro k
        by_cases h1 : k = σ i
        · rw [if_neg (fun h2 : k = σ j => hij (σ.injective (h1.symm.trans h2))), mul_zero]
        · rw [if_neg h1, zero_mul]
      simp [this, hij]
  rw [hc, stored_float, rotated_of_rotation c _ hR, ← C82_round_trip.1 (cubic c) I J, tensor_cubic]
  generalize (unvoigt I).1 = i
  generalize (unvoigt I).2 = j
  generalize (unvoigt J).1 = k
  generalize (unvoigt J).2 = l
  congr 2
  by_cases hij : i = j
  · by_cases hjk : j = k
    · by_cases hkl : k = l
      · subst hij hjk hkl
        have : ε i * ε i * ε i * ε i = 1 := by rw [mul_assoc (ε i * ε i), hsq, mul_one]
        simp [delta, this]
      · have : ∀ g, (if g = σ i then ε i else 0) * (if g = σ j then ε j else 0) * (if g = σ k then ε k else 0) * (if g = σ l then ε l else 0) = (0 : ℝ) := by
          intro g
          by_cases h1 : g = σ k
          · rw [if_neg (fun h2 : g = σ l => hkl (σ.injective (h1.symm.trans h2))), mul_zero]
          · rw [if_neg h1]; ring
        simp only [this]
        simp [delta, hkl]
    · have : ∀ g, (if g = σ i then ε i else 0) * (if g = σ j then ε j else 0) * (if g = σ k then ε k else 0) * (if g = σ l then ε l else 0) = (0 : ℝ) := by
        intro g
        by_cases h1 : g = σ j
        · rw [if_neg (c := g = σ k) (fun h2 : g = σ k => hjk (σ.injective (h1.symm.trans h2))), mul_zero, zero_mul]
        · rw [if_neg (c := g = σ j) h1]; ring
      simp only [this]
      simp [delta, hjk]
  · have : ∀ g, (if g = σ i then ε i else 0) * (if g = σ j then ε j else 0) * (if g = σ k then ε k else 0) * (if g = σ l then ε l else 0) = (0 : ℝ) := by
      intro g
      by_cases h1 : g = σ i
      · rw [if_neg (c := g = σ j) (fun h2 : g = σ j => hij (σ.injective (h1.symm.trans h2)))]; ring
      · rw [if_neg (c := g = σ i) h1]; ring
    simp only [this]
    simp [delta, hij]

/-- A quarter turn is a case of **C82_cube**. -/
example : (Matrix.of fun i j : Fin 3 => if j = (Equiv.swap (0 : Fin 3) 1) i then (![-1, 1, 1] : Fin 3 → ℝ) i else 0).det = 1 := by
  simp [Matrix.det_fin_three, Equiv.swap_apply_def]

/-! ## C84 -/

/-- **C84.** Exactly the matrices with determinant one up to `1.001e-5` are accepted; so every improper rotation is rejected … -/
theorem C84_determinant_partial (c : Constants) (thickness : Option ℝ) (R : Fin 3 → Fin 3 → ℝ) :
    (construct c thickness R = .error .valueError ↔ 1e-8 + 1e-5 < |(Matrix.of R).det - 1|)
    ∧ ((Matrix.of R).det = -1 → construct c thickness R = .error .valueError) := by
  have h : construct c thickness R = .error .valueError ↔ 1e-8 + 1e-5 < |(Matrix.of R).det - 1| := by
    unfold construct
    by_cases h : |(Matrix.of R).det - 1| ≤ 1e-8 + 1e-5
    · have hd : closeToOne (Matrix.det (Matrix.of R)) = true := by simp only [closeToOne, h, decide_true]
      rw [if_pos hd]
      constructor
      · intro h'; cases h'
      · intro h'; exact absurd h (not_le.2 h')
    · have hd : closeToOne (Matrix.det (Matrix.of R)) = false := by simp only [closeToOne, h, decide_false]
      rw [if_neg (by rw [hd]; simp)]
      exact ⟨fun _ => not_le.1 h, fun _ => rfl⟩
  refine ⟨h, fun hdet => h.2 ?_⟩
  rw [hdet]
  norm_num

/-- … **C84, refuted.** But stretching an axis by two and compressing another by two is accepted, although it is no rotation; the first elastic constant is then multiplied by sixteen. -/
theorem C84_stretch_partial (c : Constants) (hc : c.ints = false) (thickness : Option ℝ) :
    ¬ Rotation (fun i j => if i = j then (![2, 1 / 2, 1] : Fin 3 → ℝ) i else 0)
    ∧ ∃ A, construct c thickness (fun i j => if i = j then (![2, 1 / 2, 1] : Fin 3 → ℝ) i else 0) = .ok A ∧ A.C 0 0 = 16 * c.c11 := by
  constructor
  · intro h
    have := h.1 0 0
    simp at this
    norm_num at this
  · have hdet : (Matrix.of fun i j : Fin 3 => if i = j then (![2, 1 / 2, 1] : Fin 3 → ℝ) i else 0).det = 1 := by
      simp [Matrix.det_fin_three]
    have hd : closeToOne (Matrix.det (Matrix.of fun i j : Fin 3 => if i = j then (![2, 1 / 2, 1] : Fin 3 → ℝ) i else 0)) = true := by rw [hdet]; unfold closeToOne; norm_num
    refine ⟨_, by unfold construct; rw [if_pos hd], ?_⟩
    simp only
    rw [hc, stored_float, rotated_cubic]
    simp [unvoigt, Fin.sum_univ_three]
    ring

/-! ## C85 -/

/-- **C85, refuted.** Numbers are never accepted: the branch for them cannot be reached. -/
theorem C85_scalar_partial (L : Lapack) (A : Aniso) (tol x y : ℝ) :
    anisoGreens L A tol (.num x) (.num y) = .error .typeError ∧ anisoStiffness L A tol (.num x) (.num y) = .error .typeError := ⟨rfl, rfl⟩

/-! ## C125: integer constants -/

/-- **C125.** With integer constants and no rotation the constants are kept … -/
theorem C125_unrotated (c : Constants) (hint : ∀ x ∈ [c.c11, c.c12, c.c44], ∃ n : ℤ, x = n) (thickness : Option ℝ) :
    construct c thickness (fun i j => if i = j then 1 else 0) = .ok ⟨cubic c, thickness⟩ := by
  have hI : (Matrix.of fun i j : Fin 3 => if i = j then (1 : ℝ) else 0) = 1 := by ext i j; simp [Matrix.one_apply]
  have hd : closeToOne (Matrix.det (Matrix.of fun i j : Fin 3 => if i = j then (1 : ℝ) else 0)) = true := by rw [hI, Matrix.det_one]; unfold closeToOne; norm_num
  unfold construct
  rw [if_pos hd]
  congr 2
  funext I J
  have hr : ∀ i j : Fin 3, ∑ k, (if i = k then (1 : ℝ) else 0) * (if j = k then 1 else 0) = if i = j then 1 else 0 := by
    intro i j
    by_cases h : i = j <;> simp [h, eq_comm]
  rw [rotated_of_rotation c _ hr, ← C82_round_trip.1 (cubic c) I J, tensor_cubic]
  have hg : ∀ i j k l : Fin 3, ∑ g, (if i = g then (1 : ℝ) else 0) * (if j = g then 1 else 0) * (if k = g then 1 else 0) * (if l = g then 1 else 0) = delta i j * delta j k * delta k l := by
    intro i j k l
    fin_cases i <;> fin_cases j <;> fin_cases k <;> fin_cases l <;> simp [delta, Fin.sum_univ_three]
  rw [hg, ← tensor_cubic, C82_round_trip.1]
  have hn : ∃ n : ℤ, cubic c I J = n := by
    unfold cubic
    split_ifs
    · exact hint _ (by simp)
    · exact hint _ (by simp)
    · exact hint _ (by simp)
    · exact ⟨0, by simp⟩
  obtain ⟨n, hn⟩ := hn
  rw [hn]
  unfold stored
  split_ifs <;> simp

/-- … **C125, refuted.** but a rotation of integer constants is rounded towards zero: turning the crystal with constants 2, 1, 1 about the surface normal by the angle with cosine 3/5 stores 2 instead of 1538/625. -/
theorem C125_truncated_partial (thickness : Option ℝ) :
    Rotation (fun i j => !![(3 / 5 : ℝ), -(4 / 5), 0; 4 / 5, 3 / 5, 0; 0, 0, 1] i j)
    ∧ (∃ A, construct ⟨2, 1, 1, true⟩ thickness (fun i j => !![(3 / 5 : ℝ), -(4 / 5), 0; 4 / 5, 3 / 5, 0; 0, 0, 1] i j) = .ok A ∧ A.C 0 0 = 2)
    ∧ ∃ A, construct ⟨2, 1, 1, false⟩ thickness (fun i j => !![(3 / 5 : ℝ), -(4 / 5), 0; 4 / 5, 3 / 5, 0; 0, 0, 1] i j) = .ok A ∧ A.C 0 0 = 1538 / 625 := by
  have hdet : (Matrix.of fun i j => !![(3 / 5 : ℝ), -(4 / 5), 0; 4 / 5, 3 / 5, 0; 0, 0, 1] i j).det = 1 := by
    simp [Matrix.det_fin_three]
    norm_num
  have hd : closeToOne (Matrix.det (Matrix.of fun i j => !![(3 / 5 : ℝ), -(4 / 5), 0; 4 / 5, 3 / 5, 0; 0, 0, 1] i j)) = true := by rw [hdet]; unfold closeToOne; norm_num
  have hval : ∀ b, rotated (fun i j => !![(3 / 5 : ℝ), -(4 / 5), 0; 4 / 5, 3 / 5, 0; 0, 0, 1] i j) (tensor (cubic ⟨2, 1, 1, b⟩)) 0 0 0 0 = 1538 / 625 := by
    intro b
    rw [rotated_cubic]
    simp [Fin.sum_univ_three]
    norm_num
  refine ⟨⟨?_, ?_, hdet⟩, ⟨_, by unfold construct; rw [if_pos hd], ?_⟩, ⟨_, by unfold construct; rw [if_pos hd], ?_⟩⟩
  · intro i j
    fin_cases i <;> fin_cases j <;> simp [Fin.sum_univ_three] <;> norm_num
  · intro i j
    fin_cases i <;> fin_cases j <;> simp [Fin.sum_univ_three] <;> norm_num
  · simp only [unvoigt]
    rw [hval]
    unfold stored
    have : ⌊(1538 / 625 : ℝ)⌋ = 2 := by rw [Int.floor_eq_iff]; norm_num
    rw [if_pos rfl, if_pos (by norm_num), this]
    norm_num
  · simp only [unvoigt]
    rw [hval]
    rfl

end CM.Greens
