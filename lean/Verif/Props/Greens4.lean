import Verif.Props.Greens2
/-!
# Properties of the anisotropic Green's function: the eigenvalues (C83, C124)
-/
namespace CM.Greens

open Matrix

/-- The plane of the surface is a mirror plane of the material: no constant with an odd number of indices `z`. -/
def Mirror (A : Aniso) : Prop :=
  ∀ i j k l : Fin 3, ¬ 2 ∣ ((if i = 2 then 1 else 0) + (if j = 2 then 1 else 0) + (if k = 2 then 1 else 0) + (if l = 2 then 1 else 0) : ℕ) → tensor A.C i j k l = 0

/-- Rotation about the surface normal. -/
def aboutNormal (c s : ℝ) : Fin 3 → Fin 3 → ℝ := fun i j => !![c, -s, 0; s, c, 0; 0, 0, 1] i j

lemma mirror_aboutNormal (k : Constants) (hk : k.ints = false) (thickness : Option ℝ) (c s : ℝ) (hcs : c ^ 2 + s ^ 2 = 1) :
    ∃ A, construct k thickness (aboutNormal c s) = .ok A ∧ Mirror A := by
  have hdet : (Matrix.of (aboutNormal c s)).det = 1 := by
    simp only [Matrix.det_fin_three, aboutNormal, Matrix.of_apply]
    simp
    linarith
  have hd : closeToOne (Matrix.det (Matrix.of (aboutNormal c s))) = true := by rw [hdet]; unfold closeToOne; norm_num
  refine ⟨_, by unfold construct; rw [if_pos hd], ?_⟩
  intro a b d e hodd
  have := C82_rotated k hk thickness (aboutNormal c s) _ (by unfold construct; rw [if_pos hd]) a b d e
  rw [this]
  have hr : ∑ g, ∑ h, ∑ m, ∑ n, aboutNormal c s a g * aboutNormal c s b h * tensor (cubic k) g h m n * aboutNormal c s d m * aboutNormal c s e n = rotated (aboutNormal c s) (tensor (cubic k)) a b d e := rfl
  rw [hr, rotated_cubic]
  revert hodd
  fin_cases a <;> fin_cases b <;> fin_cases d <;> fin_cases e <;> simp [Fin.sum_univ_three, aboutNormal]

lemma sampleMatrix_inv : sampleMatrix⁻¹ * sampleMatrix = 1 := by
  apply Matrix.nonsing_inv_mul
  have : sampleMatrix.det ≠ 0 := by
    unfold sampleMatrix
    simp [Matrix.det_succ_row_zero, Fin.sum_univ_succ, Fin.succAbove]
    norm_num
  exact isUnit_iff_ne_zero.2 this

/-- Four samples of an even polynomial of degree six determine its coefficients. -/
lemma recover (f : ℂ → ℂ) (p : Fin 4 → ℂ) (hf : ∀ Q : ℂ, f Q = p 0 * Q ^ 6 + p 1 * Q ^ 4 + p 2 * Q ^ 2 + p 3) : sampleMatrix⁻¹ *ᵥ ![f 0, f 1, f 2, f 3] = p := by
  have e : ![f 0, f 1, f 2, f 3] = sampleMatrix *ᵥ p := by
    funext i
    fin_cases i <;> simp [sampleMatrix, Matrix.mulVec, dotProduct, Fin.sum_univ_four, hf] <;> ring
  rw [e, Matrix.mulVec_mulVec, sampleMatrix_inv, Matrix.one_mulVec]

/-- Coefficients of the entries of the operator. -/
lemma bulkop_entry (A : Aniso) (qx qy qz : ℂ) (i l : Fin 3) : bulkop A qx qy qz i l
    = -(tensor A.C i 0 0 l * qx * qx + tensor A.C i 0 1 l * qx * qy + tensor A.C i 1 0 l * qy * qx + tensor A.C i 1 1 l * qy * qy
      + (tensor A.C i 0 2 l + tensor A.C i 2 0 l) * qx * qz + (tensor A.C i 1 2 l + tensor A.C i 2 1 l) * qy * qz + tensor A.C i 2 2 l * qz * qz) := by
  unfold bulkop
  simp only [Fin.sum_univ_three, Matrix.cons_val_zero, Matrix.cons_val_one, Matrix.cons_val]
  ring

/-- **C83.** If the surface is a mirror plane of the material, the determinant is an even polynomial of degree at most six, and `find_eigenvalues` recovers its coefficients exactly … -/
theorem C83_even_partial (A : Aniso) (hA : Mirror A) (qx qy : ℝ) :
    ∀ Q : ℂ, (bulkop A qx qy (Complex.I * Q)).det
      = coefficients A qx qy 0 * Q ^ 6 + coefficients A qx qy 1 * Q ^ 4 + coefficients A qx qy 2 * Q ^ 2 + coefficients A qx qy 3 := by
  have z : ∀ i j k l : Fin 3, ¬ 2 ∣ ((if i = 2 then 1 else 0) + (if j = 2 then 1 else 0) + (if k = 2 then 1 else 0) + (if l = 2 then 1 else 0) : ℕ) → tensor A.C i j k l = 0 := hA
  have hI : Complex.I ^ 2 = -1 := Complex.I_sq
  -- the entries
  have ent : ∃ a b : Fin 3 → Fin 3 → ℂ, (∀ Q : ℂ, ∀ i l : Fin 3, (i = 2 ↔ l = 2) → bulkop A qx qy (Complex.I * Q) i l = a i l + b i l * Q ^ 2)
      ∧ ∀ Q : ℂ, ∀ i l : Fin 3, ¬ (i = 2 ↔ l = 2) → bulkop A qx qy (Complex.I * Q) i l = b i l * Q := by
    refine ⟨fun i l => -(tensor A.C i 0 0 l * qx * qx + tensor A.C i 0 1 l * qx * qy + tensor A.C i 1 0 l * qy * qx + tensor A.C i 1 1 l * qy * qy),
      fun i l => if i = 2 ↔ l = 2 then tensor A.C i 2 2 l else -(((tensor A.C i 0 2 l : ℂ) + tensor A.C i 2 0 l) * qx * Complex.I + (tensor A.C i 1 2 l + tensor A.C i 2 1 l) * qy * Complex.I), ?_, ?_⟩
    · intro Q i l h
      have h1 : tensor A.C i 0 2 l = 0 := z _ _ _ _ (by by_cases hi : i = 2 <;> by_cases hl : l = 2 <;> simp [hi, hl] at h ⊢)
      have h2 : tensor A.C i 2 0 l = 0 := z _ _ _ _ (by by_cases hi : i = 2 <;> by_cases hl : l = 2 <;> simp [hi, hl] at h ⊢)
      have h3 : tensor A.C i 1 2 l = 0 := z _ _ _ _ (by by_cases hi : i = 2 <;> by_cases hl : l = 2 <;> simp [hi, hl] at h ⊢)
      have h4 : tensor A.C i 2 1 l = 0 := z _ _ _ _ (by by_cases hi : i = 2 <;> by_cases hl : l = 2 <;> simp [hi, hl] at h ⊢)
      rw [bulkop_entry, h1, h2, h3, h4]
      simp only [if_pos h]
      push_cast
      linear_combination -(tensor A.C i 2 2 l : ℂ) * Q ^ 2 * hI
    · intro Q i l h
      have h1 : tensor A.C i 0 0 l = 0 := z _ _ _ _ (by by_cases hi : i = 2 <;> by_cases hl : l = 2 <;> simp [hi, hl] at h ⊢)
      have h2 : tensor A.C i 0 1 l = 0 := z _ _ _ _ (by by_cases hi : i = 2 <;> by_cases hl : l = 2 <;> simp [hi, hl] at h ⊢)
      have h3 : tensor A.C i 1 0 l = 0 := z _ _ _ _ (by by_cases hi : i = 2 <;> by_cases hl : l = 2 <;> simp [hi, hl] at h ⊢)
      have h4 : tensor A.C i 1 1 l = 0 := z _ _ _ _ (by by_cases hi : i = 2 <;> by_cases hl : l = 2 <;> simp [hi, hl] at h ⊢)
      have h5 : tensor A.C i 2 2 l = 0 := z _ _ _ _ (by by_cases hi : i = 2 <;> by_cases hl : l = 2 <;> simp [hi, hl] at h ⊢)
      rw [bulkop_entry, h1, h2, h3, h4, h5]
      simp only [if_neg h]
      push_cast
      ring
  obtain ⟨a, b, e1, e2⟩ := ent
  have hp : ∃ p : Fin 4 → ℂ, ∀ Q : ℂ, (bulkop A qx qy (Complex.I * Q)).det = p 0 * Q ^ 6 + p 1 * Q ^ 4 + p 2 * Q ^ 2 + p 3 := by
    have hdet : ∀ Q : ℂ, (bulkop A qx qy (Complex.I * Q)).det
        = (a 0 0 + b 0 0 * Q ^ 2) * (a 1 1 + b 1 1 * Q ^ 2) * (a 2 2 + b 2 2 * Q ^ 2) - (a 0 0 + b 0 0 * Q ^ 2) * (b 1 2 * Q) * (b 2 1 * Q)
          - (a 0 1 + b 0 1 * Q ^ 2) * (a 1 0 + b 1 0 * Q ^ 2) * (a 2 2 + b 2 2 * Q ^ 2) + (a 0 1 + b 0 1 * Q ^ 2) * (b 1 2 * Q) * (b 2 0 * Q)
          + (b 0 2 * Q) * (a 1 0 + b 1 0 * Q ^ 2) * (b 2 1 * Q) - (b 0 2 * Q) * (a 1 1 + b 1 1 * Q ^ 2) * (b 2 0 * Q) := by
      intro Q
      rw [Matrix.det_fin_three, e1 Q 0 0 (by decide), e1 Q 0 1 (by decide), e1 Q 1 0 (by decide), e1 Q 1 1 (by decide), e1 Q 2 2 (by decide),
        e2 Q 0 2 (by decide), e2 Q 1 2 (by decide), e2 Q 2 0 (by decide), e2 Q 2 1 (by decide)]
    refine ⟨![b 0 0 * b 1 1 * b 2 2 - b 0 1 * b 1 0 * b 2 2,
      a 0 0 * b 1 1 * b 2 2 + b 0 0 * a 1 1 * b 2 2 + b 0 0 * b 1 1 * a 2 2 - b 0 0 * b 1 2 * b 2 1 - (a 0 1 * b 1 0 * b 2 2 + b 0 1 * a 1 0 * b 2 2 + b 0 1 * b 1 0 * a 2 2) + b 0 1 * b 1 2 * b 2 0 + b 0 2 * b 1 0 * b 2 1 - b 0 2 * b 1 1 * b 2 0,
      a 0 0 * a 1 1 * b 2 2 + a 0 0 * b 1 1 * a 2 2 + b 0 0 * a 1 1 * a 2 2 - a 0 0 * b 1 2 * b 2 1 - (a 0 1 * a 1 0 * b 2 2 + a 0 1 * b 1 0 * a 2 2 + b 0 1 * a 1 0 * a 2 2) + a 0 1 * b 1 2 * b 2 0 + b 0 2 * a 1 0 * b 2 1 - b 0 2 * a 1 1 * b 2 0,
      a 0 0 * a 1 1 * a 2 2 - a 0 1 * a 1 0 * a 2 2], fun Q => ?_⟩
    rw [hdet]
    simp only [Matrix.cons_val_zero, Matrix.cons_val_one, Matrix.cons_val]
    ring
  obtain ⟨p, hp⟩ := hp
  have hc : coefficients A qx qy = p := by
    rw [← recover (fun Q => (bulkop A qx qy (Complex.I * Q)).det) p hp]
    unfold coefficients
    simp only [mul_zero, mul_one]
  rw [hc]
  exact hp

/-- … so that for each returned value the bulk equation has solutions with the wavenumbers `-i Q` and `i Q` along the normal. -/
theorem C83_eigenvalues_partial (L : Lapack) (hL : L.Ok) (A : Aniso) (hA : Mirror A) (qx qy : ℝ) (Q : ℂ) (hQ : Q ∈ findEigenvalues L A qx qy) :
    (bulkop A qx qy (-Complex.I * Q)).det = 0 ∧ (bulkop A qx qy (Complex.I * Q)).det = 0 := by
  unfold findEigenvalues at hQ
  rw [List.mem_map] at hQ
  obtain ⟨r, hr, rfl⟩ := hQ
  have hroot := hL.root _ r hr
  have hsq := hL.sq r
  have h : ∀ Q : ℂ, Q ^ 2 = r → (bulkop A qx qy (Complex.I * Q)).det = 0 := by
    intro Q hQ
    rw [C83_even_partial A hA qx qy Q]
    have e4 : Q ^ 4 = r ^ 2 := by rw [← hQ]; ring
    have e6 : Q ^ 6 = r ^ 3 := by rw [← hQ]; ring
    rw [e4, e6, hQ]
    exact hroot
  refine ⟨?_, h _ hsq⟩
  have := h (-L.sqrt r) (by rw [neg_sq, hsq])
  rwa [show Complex.I * -L.sqrt r = -Complex.I * L.sqrt r by ring] at this

/-- **C83.** The crystal in its own axes, and turned about the surface normal by any angle, has that symmetry. -/
theorem C83_about_normal_partial (k : Constants) (hk : k.ints = false) (thickness : Option ℝ) (c s : ℝ) (hcs : c ^ 2 + s ^ 2 = 1) :
    ∃ A, construct k thickness (fun i j => !![c, -s, 0; s, c, 0; 0, 0, 1] i j) = .ok A
      ∧ ∀ i j k l : Fin 3, ¬ 2 ∣ ((if i = 2 then 1 else 0) + (if j = 2 then 1 else 0) + (if k = 2 then 1 else 0) + (if l = 2 then 1 else 0) : ℕ) → tensor A.C i j k l = 0 :=
  mirror_aboutNormal k hk thickness c s hcs

/-- **C83, refuted.** For a crystal turned about an axis in the surface by the angle with cosine 3/5 the determinant is not even, so no coefficients `c0`, …, `c6` describe it: the assumption of `find_eigenvalues`
fails for every cubic crystal that is not isotropic. -/
theorem C83_turned_partial (k : Constants) (hk : k.ints = false) (h44 : k.c44 ≠ 0) (h12 : k.c11 + k.c12 ≠ 0) (haniso : k.c11 - k.c12 ≠ 2 * k.c44) (thickness : Option ℝ) :
    Rotation (fun i j => !![1, 0, 0; 0, (3 / 5 : ℝ), -(4 / 5); 0, 4 / 5, 3 / 5] i j)
    ∧ ∃ A, construct k thickness (fun i j => !![1, 0, 0; 0, (3 / 5 : ℝ), -(4 / 5); 0, 4 / 5, 3 / 5] i j) = .ok A
      ∧ ¬ ∃ p : Fin 4 → ℂ, ∀ Q : ℂ, (bulkop A 0 1 (Complex.I * Q)).det = p 0 * Q ^ 6 + p 1 * Q ^ 4 + p 2 * Q ^ 2 + p 3 := by
  have hdet : (Matrix.of fun i j => !![1, 0, 0; 0, (3 / 5 : ℝ), -(4 / 5); 0, 4 / 5, 3 / 5] i j).det = 1 := by
    simp [Matrix.det_fin_three]
    norm_num
  have hd : closeToOne (Matrix.det (Matrix.of fun i j => !![1, 0, 0; 0, (3 / 5 : ℝ), -(4 / 5); 0, 4 / 5, 3 / 5] i j)) = true := by rw [hdet]; unfold closeToOne; norm_num
  refine ⟨⟨?_, ?_, hdet⟩, _, by unfold construct; rw [if_pos hd], ?_⟩
  · intro i j
    fin_cases i <;> fin_cases j <;> simp [Fin.sum_univ_three] <;> norm_num
  · intro i j
    fin_cases i <;> fin_cases j <;> simp [Fin.sum_univ_three] <;> norm_num
  · rintro ⟨p, hp⟩
    have hT := C82_rotated k hk thickness (fun i j => !![1, 0, 0; 0, (3 / 5 : ℝ), -(4 / 5); 0, 4 / 5, 3 / 5] i j) _ (by unfold construct; rw [if_pos hd])
    set A : Aniso := ⟨fun I J => stored k.ints (rotated (fun i j => !![1, 0, 0; 0, (3 / 5 : ℝ), -(4 / 5); 0, 4 / 5, 3 / 5] i j) (tensor (cubic k)) (unvoigt I).1 (unvoigt I).2 (unvoigt J).1 (unvoigt J).2), thickness⟩ with hAdef
    have hT' : ∀ i j m l, tensor A.C i j m l = rotated (fun i j => !![1, 0, 0; 0, (3 / 5 : ℝ), -(4 / 5); 0, 4 / 5, 3 / 5] i j) (tensor (cubic k)) i j m l := hT
    clear_value A
    have hI : Complex.I ^ 2 = -1 := Complex.I_sq
    have hneg := hp (-2)
    have hpos := hp 2
    have heq : (bulkop A 0 1 (Complex.I * 2)).det = (bulkop A 0 1 (Complex.I * -2)).det := by rw [hneg, hpos]; ring
    rw [Matrix.det_fin_three, Matrix.det_fin_three] at heq
    simp only [bulkop_entry, hT', rotated_cubic] at heq
    simp [Fin.sum_univ_three] at heq
    have key : ((k.c44 : ℂ) * (k.c11 + k.c12) * (k.c11 - k.c12 - 2 * k.c44)) * Complex.I = 0 := by
      have i4 : Complex.I ^ 4 = 1 := by rw [show (4 : ℕ) = 2 * 2 from rfl, pow_mul, hI]; ring
      have i5 : Complex.I ^ 5 = Complex.I := by rw [pow_succ, i4]; ring
      have i6 : Complex.I ^ 6 = -1 := by rw [show (6 : ℕ) = 4 + 2 from rfl, pow_add, i4, hI]; ring
      ring_nf at heq
      simp only [hI, i4, i5, i6] at heq
      linear_combination (625 / 10080) * heq
    have : (k.c44 : ℂ) * (k.c11 + k.c12) * (k.c11 - k.c12 - 2 * k.c44) = 0 := (mul_eq_zero.1 key).resolve_right Complex.I_ne_zero
    have hr : k.c44 * (k.c11 + k.c12) * (k.c11 - k.c12 - 2 * k.c44) = 0 := by exact_mod_cast this
    rcases mul_eq_zero.1 hr with h | h
    · rcases mul_eq_zero.1 h with h | h
      · exact h44 h
      · exact h12 h
    · exact haniso (by linarith)

/-! ## C124: the waves die out -/

/-- Elastic stability of a cubic crystal (Born). -/
def Stable (k : Constants) : Prop := 0 < k.c44 ∧ k.c12 < k.c11 ∧ 0 < k.c11 + 2 * k.c12

lemma elastic_form (k : Constants) (hk : Stable k) (p a : Fin 3 → ℝ) (hp : p ≠ 0)
    (h : k.c12 * (∑ g, a g * p g) ^ 2 + k.c44 * ((∑ g, a g * p g) ^ 2 + (∑ g, a g ^ 2) * ∑ g, p g ^ 2) + (k.c11 - k.c12 - 2 * k.c44) * ∑ g, a g ^ 2 * p g ^ 2 ≤ 0) : a = 0 := by
  obtain ⟨h1, h2, h3⟩ := hk
  simp only [Fin.sum_univ_three] at h
  have e : k.c12 * (a 0 * p 0 + a 1 * p 1 + a 2 * p 2) ^ 2 + k.c44 * ((a 0 * p 0 + a 1 * p 1 + a 2 * p 2) ^ 2 + (a 0 ^ 2 + a 1 ^ 2 + a 2 ^ 2) * (p 0 ^ 2 + p 1 ^ 2 + p 2 ^ 2))
        + (k.c11 - k.c12 - 2 * k.c44) * (a 0 ^ 2 * p 0 ^ 2 + a 1 ^ 2 * p 1 ^ 2 + a 2 ^ 2 * p 2 ^ 2)
      = (k.c11 - k.c12) / 3 * ((a 0 * p 0 - a 1 * p 1) ^ 2 + (a 1 * p 1 - a 2 * p 2) ^ 2 + (a 0 * p 0 - a 2 * p 2) ^ 2) + (k.c11 + 2 * k.c12) / 3 * (a 0 * p 0 + a 1 * p 1 + a 2 * p 2) ^ 2
        + k.c44 * ((p 0 * a 1 + p 1 * a 0) ^ 2 + (p 0 * a 2 + p 2 * a 0) ^ 2 + (p 1 * a 2 + p 2 * a 1) ^ 2) := by ring
  rw [e] at h
  have hA : 0 < (k.c11 - k.c12) / 3 := by linarith
  have hB : 0 < (k.c11 + 2 * k.c12) / 3 := by linarith
  generalize (k.c11 - k.c12) / 3 = A at *
  generalize (k.c11 + 2 * k.c12) / 3 = B at *
  have n1 := mul_nonneg hA.le (sq_nonneg (a 0 * p 0 - a 1 * p 1))
  have n2 := mul_nonneg hA.le (sq_nonneg (a 1 * p 1 - a 2 * p 2))
  have n3 := mul_nonneg hA.le (sq_nonneg (a 0 * p 0 - a 2 * p 2))
  have n4 := mul_nonneg hB.le (sq_nonneg (a 0 * p 0 + a 1 * p 1 + a 2 * p 2))
  have n5 := mul_nonneg h1.le (sq_nonneg (p 0 * a 1 + p 1 * a 0))
  have n6 := mul_nonneg h1.le (sq_nonneg (p 0 * a 2 + p 2 * a 0))
  have n7 := mul_nonneg h1.le (sq_nonneg (p 1 * a 2 + p 2 * a 1))
  have zero : ∀ x y : ℝ, 0 < x → x * y ^ 2 ≤ 0 → y = 0 := fun x y hx hxy => by
    have : y ^ 2 ≤ 0 := by
      by_contra hc
      push Not at hc
      have := mul_pos hx hc
      linarith
    exact pow_eq_zero_iff (n := 2) two_ne_zero |>.1 (le_antisymm this (sq_nonneg y))
  have z1 := zero _ _ hA (show A * (a 0 * p 0 - a 1 * p 1) ^ 2 ≤ 0 by linarith)
  have z2 := zero _ _ hA (show A * (a 1 * p 1 - a 2 * p 2) ^ 2 ≤ 0 by linarith)
  have z4 := zero _ _ hB (show B * (a 0 * p 0 + a 1 * p 1 + a 2 * p 2) ^ 2 ≤ 0 by linarith)
  have z5 := zero _ _ h1 (show k.c44 * (p 0 * a 1 + p 1 * a 0) ^ 2 ≤ 0 by linarith)
  have z6 := zero _ _ h1 (show k.c44 * (p 0 * a 2 + p 2 * a 0) ^ 2 ≤ 0 by linarith)
  have z7 := zero _ _ h1 (show k.c44 * (p 1 * a 2 + p 2 * a 1) ^ 2 ≤ 0 by linarith)
  have d0 : a 0 * p 0 = 0 := by linarith
  have d1 : a 1 * p 1 = 0 := by linarith
  have d2 : a 2 * p 2 = 0 := by linarith
  have hne : p 0 ≠ 0 ∨ p 1 ≠ 0 ∨ p 2 ≠ 0 := by
    by_contra hc
    push Not at hc
    apply hp
    funext g
    fin_cases g
    · exact hc.1
    · exact hc.2.1
    · exact hc.2.2
  have all : a 0 = 0 ∧ a 1 = 0 ∧ a 2 = 0 := by
    rcases hne with h0 | h0 | h0
    · have a0 := (mul_eq_zero.1 d0).resolve_right h0
      rw [a0, mul_zero, add_zero] at z5 z6
      exact ⟨a0, (mul_eq_zero.1 z5).resolve_left h0, (mul_eq_zero.1 z6).resolve_left h0⟩
    · have a1 := (mul_eq_zero.1 d1).resolve_right h0
      rw [a1, mul_zero, zero_add] at z5
      rw [a1, mul_zero, add_zero] at z7
      exact ⟨(mul_eq_zero.1 z5).resolve_left h0, a1, (mul_eq_zero.1 z7).resolve_left h0⟩
    · have a2 := (mul_eq_zero.1 d2).resolve_right h0
      rw [a2, mul_zero, zero_add] at z6 z7
      exact ⟨(mul_eq_zero.1 z6).resolve_left h0, (mul_eq_zero.1 z7).resolve_left h0, a2⟩
  funext g
  fin_cases g
  · exact all.1
  · exact all.2.1
  · exact all.2.2

/-- **C124.** A stable crystal carries no static plane waves, whatever its orientation: the bulk operator is invertible for every real wavevector. -/
theorem C124_elliptic (k : Constants) (hk : k.ints = false) (hs : Stable k) (thickness : Option ℝ) (R : Fin 3 → Fin 3 → ℝ) (hR : Rotation R) (A : Aniso) (h : construct k thickness R = .ok A)
    (qx qy qz : ℝ) (hq : ¬ (qx = 0 ∧ qy = 0 ∧ qz = 0)) : (bulkop A qx qy qz).det ≠ 0 := by
  have hT : ∀ i j m l, tensor A.C i j m l = rotated R (tensor (cubic k)) i j m l := C82_rotated k hk thickness R A h
  set q : Fin 3 → ℝ := ![qx, qy, qz] with hqd
  let M : Matrix (Fin 3) (Fin 3) ℝ := fun i l => ∑ j, ∑ m, -tensor A.C i j m l * q j * q m
  have hM : bulkop A qx qy qz = M.map (algebraMap ℝ ℂ) := by
    ext i l
    have e : ∀ j, ((q j : ℝ) : ℂ) = ![(qx : ℂ), qy, qz] j := by intro j; fin_cases j <;> rfl
    rw [Matrix.map_apply, Complex.coe_algebraMap]
    show bulkop A qx qy qz i l = ((∑ j, ∑ m, -tensor A.C i j m l * q j * q m : ℝ) : ℂ)
    rw [Complex.ofReal_sum]
    refine Finset.sum_congr rfl fun j _ => ?_
    rw [Complex.ofReal_sum]
    refine Finset.sum_congr rfl fun m _ => ?_
    rw [Complex.ofReal_mul, Complex.ofReal_mul, Complex.ofReal_neg, e, e]
  rw [hM, ← RingHom.mapMatrix_apply, ← RingHom.map_det, Complex.coe_algebraMap, Ne, Complex.ofReal_eq_zero]
  intro hdet
  obtain ⟨v, hv, hv0⟩ := Matrix.exists_mulVec_eq_zero_iff.2 hdet
  apply hv
  let y : Fin 3 → ℝ := fun g => ∑ i, R i g * v i
  let p : Fin 3 → ℝ := fun g => ∑ i, R i g * q i
  have back : ∀ (u : Fin 3 → ℝ), (fun g => ∑ i, R i g * u i) = 0 → u = 0 := by
    intro u hu
    funext i
    have h1 : ∑ g, R i g * ∑ j, R j g * u j = 0 := Finset.sum_eq_zero fun g _ => by
      have := congrFun hu g
      simp only [Pi.zero_apply] at this
      rw [this, mul_zero]
    have h2 : ∑ g, R i g * ∑ j, R j g * u j = ∑ j, (∑ g, R i g * R j g) * u j := by
      simp only [Finset.mul_sum, Finset.sum_mul]
      rw [Finset.sum_comm]
      exact Finset.sum_congr rfl fun j _ => Finset.sum_congr rfl fun g _ => by ring
    rw [h2] at h1
    simp only [hR.1] at h1
    simpa using h1
  have hp : p ≠ 0 := by
    intro hp
    apply hq
    have := back q hp
    exact ⟨congrFun this 0, congrFun this 1, congrFun this 2⟩
  refine back v (elastic_form k hs p y hp (le_of_eq ?_))
  have hform : ∑ i, v i * (M *ᵥ v) i = 0 := by rw [hv0]; simp
  have hexp : ∑ i, v i * (M *ᵥ v) i = -(∑ i, ∑ j, ∑ m, ∑ l, rotated R (tensor (cubic k)) i j m l * v i * q j * q m * v l) := by
    simp only [Matrix.mulVec, dotProduct, M, hT, Finset.mul_sum, Finset.sum_mul]
    rw [← Finset.sum_neg_distrib]
    refine Finset.sum_congr rfl fun i _ => ?_
    rw [Finset.sum_comm, ← Finset.sum_neg_distrib]
    refine Finset.sum_congr rfl fun j _ => ?_
    rw [Finset.sum_comm, ← Finset.sum_neg_distrib]
    refine Finset.sum_congr rfl fun m _ => ?_
    rw [← Finset.sum_neg_distrib]
    exact Finset.sum_congr rfl fun l _ => by ring
  have hval : ∑ i, ∑ j, ∑ m, ∑ l, rotated R (tensor (cubic k)) i j m l * v i * q j * q m * v l
      = k.c12 * (∑ g, y g * p g) ^ 2 + k.c44 * ((∑ g, y g * p g) ^ 2 + (∑ g, y g ^ 2) * ∑ g, p g ^ 2) + (k.c11 - k.c12 - 2 * k.c44) * ∑ g, y g ^ 2 * p g ^ 2 := by
    have fac : ∀ F G : Fin 3 → Fin 3 → ℝ, ∑ i, ∑ j, ∑ m, ∑ l, (F i j * G m l) * v i * q j * q m * v l = (∑ i, ∑ j, F i j * v i * q j) * ∑ m, ∑ l, G m l * q m * v l := by
      intro F G
      rw [Finset.sum_mul]
      refine Finset.sum_congr rfl fun i _ => ?_
      rw [Finset.sum_mul]
      refine Finset.sum_congr rfl fun j _ => ?_
      rw [Finset.mul_sum]
      refine Finset.sum_congr rfl fun m _ => ?_
      rw [Finset.mul_sum]
      exact Finset.sum_congr rfl fun l _ => by ring
    have fac2 : ∀ F G : Fin 3 → Fin 3 → ℝ, ∑ i, ∑ j, ∑ m, ∑ l, (F i m * G j l) * v i * q j * q m * v l = (∑ i, ∑ j, F i j * v i * q j) * ∑ m, ∑ l, G m l * q m * v l := by
      intro F G
      rw [← fac]
      refine Finset.sum_congr rfl fun i _ => ?_
      rw [Finset.sum_comm]
      refine Finset.sum_congr rfl fun j _ => Finset.sum_congr rfl fun m _ => Finset.sum_congr rfl fun l _ => by ring
    have fac3 : ∀ F G : Fin 3 → Fin 3 → ℝ, ∑ i, ∑ j, ∑ m, ∑ l, (F i l * G j m) * v i * q j * q m * v l = (∑ i, ∑ l, F i l * v i * v l) * ∑ j, ∑ m, G j m * q j * q m := by
      intro F G
      rw [Finset.sum_mul]
      refine Finset.sum_congr rfl fun i _ => ?_
      rw [Finset.sum_congr rfl fun j _ => Finset.sum_comm, Finset.sum_comm, Finset.sum_mul]
      refine Finset.sum_congr rfl fun j _ => ?_
      rw [Finset.mul_sum]
      refine Finset.sum_congr rfl fun m _ => ?_
      rw [Finset.mul_sum]
      exact Finset.sum_congr rfl fun l _ => by ring
    have pair : ∀ u w : Fin 3 → ℝ, ∑ i, ∑ j, (∑ g, R i g * R j g) * u i * w j = ∑ g, (∑ i, R i g * u i) * ∑ i, R i g * w i := by
      intro u w
      simp only [Fin.sum_univ_three]
      ring
    have quad : ∑ i, ∑ j, ∑ m, ∑ l, (∑ g, R i g * R j g * R m g * R l g) * v i * q j * q m * v l = ∑ g, y g ^ 2 * p g ^ 2 := by
      have one : ∀ g, ∑ i, ∑ j, ∑ m, ∑ l, (R i g * R j g * R m g * R l g) * v i * q j * q m * v l = y g ^ 2 * p g ^ 2 := by
        intro g
        have := fac (fun i j => R i g * R j g) (fun m l => R m g * R l g)
        have h1 : ∑ i, ∑ j, R i g * R j g * v i * q j = y g * p g := by
          simp only [y, p, Finset.sum_mul_sum]
          exact Finset.sum_congr rfl fun i _ => Finset.sum_congr rfl fun j _ => by ring
        have h2 : ∑ i, ∑ j, R i g * R j g * q i * v j = p g * y g := by
          simp only [y, p, Finset.sum_mul_sum]
          exact Finset.sum_congr rfl fun i _ => Finset.sum_congr rfl fun j _ => by ring
        rw [h1, h2] at this
        rw [show y g ^ 2 * p g ^ 2 = y g * p g * (p g * y g) by ring, ← this]
        exact Finset.sum_congr rfl fun i _ => Finset.sum_congr rfl fun j _ => Finset.sum_congr rfl fun m _ => Finset.sum_congr rfl fun l _ => by ring
      rw [← Finset.sum_congr rfl fun g _ => one g]
      simp only [Fin.sum_univ_three (fun g => R _ g * R _ g * R _ g * R _ g), Fin.sum_univ_three (fun g => ∑ i, ∑ j, ∑ m, ∑ l, R i g * R j g * R m g * R l g * v i * q j * q m * v l), add_mul, Finset.sum_add_distrib]
    have split : ∀ i j m l, rotated R (tensor (cubic k)) i j m l * v i * q j * q m * v l
        = k.c12 * (((∑ g, R i g * R j g) * ∑ g, R m g * R l g) * v i * q j * q m * v l) + k.c44 * (((∑ g, R i g * R m g) * ∑ g, R j g * R l g) * v i * q j * q m * v l)
          + k.c44 * (((∑ g, R i g * R l g) * ∑ g, R j g * R m g) * v i * q j * q m * v l) + (k.c11 - k.c12 - 2 * k.c44) * ((∑ g, R i g * R j g * R m g * R l g) * v i * q j * q m * v l) := by
      intro i j m l
      rw [rotated_cubic]
      ring
    simp only [split, Finset.sum_add_distrib, ← Finset.mul_sum]
    rw [fac (fun i j => ∑ g, R i g * R j g) (fun i j => ∑ g, R i g * R j g), fac2 (fun i j => ∑ g, R i g * R j g) (fun i j => ∑ g, R i g * R j g),
      fac3 (fun i j => ∑ g, R i g * R j g) (fun i j => ∑ g, R i g * R j g), quad, pair v q, pair q v, pair v v, pair q q]
    have s1 : ∑ g, p g * y g = ∑ g, y g * p g := Finset.sum_congr rfl fun g _ => by ring
    have s2 : ∀ f : Fin 3 → ℝ, ∑ g, f g * f g = ∑ g, f g ^ 2 := fun f => Finset.sum_congr rfl fun g _ => by ring
    show k.c12 * ((∑ g, y g * p g) * ∑ g, p g * y g) + k.c44 * ((∑ g, y g * p g) * ∑ g, p g * y g) + k.c44 * ((∑ g, y g * y g) * ∑ g, p g * p g) + _ = _
    rw [s1, s2, s2]
    ring
  rw [← hval]
  rw [hexp] at hform
  linarith

/-- **C124.** Hence every returned value has a positive real part: all waves used for the half-space die out with depth. -/
theorem C124_decay_partial (L : Lapack) (hL : L.Ok) (k : Constants) (hk : k.ints = false) (hs : Stable k) (thickness : Option ℝ) (R : Fin 3 → Fin 3 → ℝ) (hR : Rotation R) (A : Aniso)
    (h : construct k thickness R = .ok A) (hA : Mirror A) (qx qy : ℝ) (hq : qx ≠ 0 ∨ qy ≠ 0) (Q : ℂ) (hQ : Q ∈ findEigenvalues L A qx qy) : 0 < Q.re := by
  have h0 : 0 ≤ Q.re := by
    unfold findEigenvalues at hQ
    rw [List.mem_map] at hQ
    obtain ⟨r, _, rfl⟩ := hQ
    exact hL.re r
  rcases h0.lt_or_eq with h1 | h1
  · exact h1
  · exfalso
    have hdet := (C83_eigenvalues_partial L hL A hA qx qy Q hQ).1
    have hz : -Complex.I * Q = ((Q.im : ℝ) : ℂ) := by
      apply Complex.ext <;> simp [← h1]
    rw [hz] at hdet
    refine C124_elliptic k hk hs thickness R hR A h qx qy Q.im ?_ hdet
    rintro ⟨a, b, _⟩
    rcases hq with h | h
    · exact h a
    · exact h b

/-- Aluminium (GPa) is stable and not isotropic. -/
example : Stable ⟨108, 61, 28, false⟩ ∧ (108 : ℝ) - 61 ≠ 2 * 28 := by
  refine ⟨⟨by norm_num, by norm_num, by norm_num⟩, by norm_num⟩

end CM.Greens
