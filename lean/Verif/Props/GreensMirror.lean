import Verif.Props.GreensPositive
import Verif.Props.Greens6
/-!
# Which orientations the anisotropic Green's function supports

C83, C126, C137: the surface is a mirror plane of the (anisotropic cubic) crystal exactly if its normal is a cube axis or a face diagonal; in these
orientations the Green's function is defined, and in every orientation in which a result is returned it is the response of the crystal.
-/
namespace CM.Greens
open Matrix

/-- The normal of the surface (the third row of the rotation matrix: the components with respect to the axes of the crystal) is a cube axis or a diagonal of a face of the cube. -/
def MirrorNormal (R : Fin 3 → Fin 3 → ℝ) : Prop :=
  (∃ a, ∀ g, g ≠ a → R 2 g = 0) ∨ ∃ a b, a ≠ b ∧ |R 2 a| = |R 2 b| ∧ ∀ g, g ≠ a → g ≠ b → R 2 g = 0

/-- Number of indices that are the surface normal. -/
def normals (i j k l : Fin 3) : ℕ := (if i = 2 then 1 else 0) + (if j = 2 then 1 else 0) + (if k = 2 then 1 else 0) + (if l = 2 then 1 else 0)

/-- The anisotropic part of the rotated tensor. -/
def quartic (R : Fin 3 → Fin 3 → ℝ) (i j k l : Fin 3) : ℝ := ∑ g, R i g * R j g * R k g * R l g

lemma mirror_iff (k : Constants) (hk : k.ints = false) (hiso : k.c11 - k.c12 ≠ 2 * k.c44) (thickness : Option ℝ) (R : Fin 3 → Fin 3 → ℝ) (hR : Rotation R) (A : Aniso)
    (h : construct k thickness R = .ok A) : Mirror A ↔ ∀ i j m l, ¬ 2 ∣ normals i j m l → quartic R i j m l = 0 := by
  have e : ∀ i j m l, ¬ 2 ∣ normals i j m l → tensor A.C i j m l = (k.c11 - k.c12 - 2 * k.c44) * quartic R i j m l := by
    intro i j m l hodd
    have e1 : tensor A.C i j m l = rotated R (tensor (cubic k)) i j m l := C82_rotated k hk thickness R A h i j m l
    rw [e1, rotated_of_rotation k R hR.1, quartic]
    have : k.c12 * (delta i j * delta m l) + k.c44 * (delta i m * delta j l + delta i l * delta j m) = 0 := by
      revert hodd
      unfold normals
      fin_cases i <;> fin_cases j <;> fin_cases m <;> fin_cases l <;> simp [delta]
    rw [this, zero_add]
  have hne : k.c11 - k.c12 - 2 * k.c44 ≠ 0 := fun h => hiso (by linarith)
  constructor
  · intro hM i j m l hodd
    have := hM i j m l hodd
    rw [e i j m l hodd] at this
    exact (mul_eq_zero.1 this).resolve_left hne
  · intro hq i j m l hodd
    rw [e i j m l hodd, hq i j m l hodd, mul_zero]

lemma quartic_of_normal (R : Fin 3 → Fin 3 → ℝ) (hR : Rotation R) (hn : MirrorNormal R) (i j k l : Fin 3) (hodd : ¬ 2 ∣ normals i j k l) : quartic R i j k l = 0 := by
  have hnn : ∑ g, R 2 g * R 2 g = 1 := by rw [hR.1 2 2]; simp
  have hnt : ∀ i, i ≠ 2 → ∑ g, R i g * R 2 g = 0 := fun i hi => by rw [hR.1 i 2, if_neg hi]
  have hsome : i = 2 ∨ j = 2 ∨ k = 2 ∨ l = 2 := by
    by_contra hc
    push Not at hc
    exact hodd (by simp [normals, hc])
  have hother : i ≠ 2 ∨ j ≠ 2 ∨ k ≠ 2 ∨ l ≠ 2 := by
    by_contra hc
    push Not at hc
    obtain ⟨rfl, rfl, rfl, rfl⟩ := hc
    exact hodd (by simp [normals])
  have hzero : ∀ g, R 2 g = 0 → R i g * R j g * R k g * R l g = 0 := by
    intro g hg
    rcases hsome with rfl | rfl | rfl | rfl <;> simp [hg]
  unfold quartic
  rcases hn with ⟨a, ha⟩ | ⟨a, b, hab, habs, hg⟩
  · have hna : R 2 a * R 2 a = 1 := by
      rw [← hnn, Finset.sum_eq_single (f := fun g => R 2 g * R 2 g) a (fun g _ h => by rw [ha g h, zero_mul]) (by simp)]
    have hne : R 2 a ≠ 0 := fun h => by rw [h, zero_mul] at hna; exact zero_ne_one hna
    have ht : ∀ i, i ≠ 2 → R i a = 0 := by
      intro i hi
      have := hnt i hi
      rw [Finset.sum_eq_single a (fun g _ h => by rw [ha g h, mul_zero]) (by simp)] at this
      exact (mul_eq_zero.1 this).resolve_right hne
    refine Finset.sum_eq_zero fun g _ => ?_
    by_cases hga : g = a
    · subst hga
      rcases hother with h | h | h | h <;> simp [ht _ h]
    · exact hzero g (ha g hga)
  · have hs2 : ∀ f : Fin 3 → ℝ, (∀ g, R 2 g = 0 → f g = 0) → ∑ g, f g = f a + f b := fun f hf =>
      Finset.sum_eq_add a b hab (fun c _ hc => hf c (hg c hc.1 hc.2)) (by simp) (by simp)
    have hna : R 2 a * R 2 a + R 2 b * R 2 b = 1 := by rw [← hnn, hs2 _ fun g h => by rw [h, zero_mul]]
    have hsq : R 2 a * R 2 a = R 2 b * R 2 b := by
      rw [← abs_mul_abs_self, habs, abs_mul_abs_self]
    have hne : R 2 a ≠ 0 := fun h => by rw [h] at hna hsq; rw [← hsq] at hna; norm_num at hna
    obtain ⟨σ, hσ, hb⟩ : ∃ σ : ℝ, σ * σ = 1 ∧ R 2 b = σ * R 2 a := by
      rcases abs_eq_abs.1 habs with h | h
      · exact ⟨1, by norm_num, by rw [h, one_mul]⟩
      · exact ⟨-1, by norm_num, by rw [h]; ring⟩
    have ht : ∀ i, i ≠ 2 → R i b = -σ * R i a := by
      intro i hi
      have := hnt i hi
      rw [hs2 _ fun g h => by rw [h, mul_zero], hb] at this
      have h2 : (R i a + R i b * σ) * R 2 a = 0 := by linear_combination this
      have h3 := (mul_eq_zero.1 h2).resolve_right hne
      linear_combination σ * h3 - R i b * hσ
    have hall : ∀ i, R i b = (if i = 2 then σ else -σ) * R i a := by
      intro i
      split_ifs with h
      · rw [h, hb]
      · exact ht i h
    rw [hs2 _ hzero, hall i, hall j, hall k, hall l]
    have hsign : (if i = 2 then σ else -σ) * (if j = 2 then σ else -σ) * (if k = 2 then σ else -σ) * (if l = 2 then σ else -σ) = -1 := by
      have h4 : σ * σ * σ * σ = 1 := by rw [hσ, one_mul, hσ]
      revert hodd
      unfold normals
      by_cases h1 : i = 2 <;> by_cases h2 : j = 2 <;> by_cases h3 : k = 2 <;> by_cases h5 : l = 2 <;> simp [h1, h2, h3, h5] <;> linarith
    linear_combination R i a * R j a * R k a * R l a * hsign

lemma normal_of_quartic (R : Fin 3 → Fin 3 → ℝ) (hR : Rotation R) (hq : ∀ i j k l, ¬ 2 ∣ normals i j k l → quartic R i j k l = 0) : MirrorNormal R := by
  have hnn : ∑ g, R 2 g * R 2 g = 1 := by rw [hR.1 2 2]; simp
  rw [Fin.sum_univ_three] at hnn
  have exp : ∀ (v : Fin 3 → ℝ) g, v g = R 0 g * (∑ h, R 0 h * v h) + R 1 g * (∑ h, R 1 h * v h) + R 2 g * ∑ h, R 2 h * v h := by
    intro v g
    have c0 := hR.2.1 g 0
    have c1 := hR.2.1 g 1
    have c2 := hR.2.1 g 2
    rw [Fin.sum_univ_three] at c0 c1 c2
    simp only [Fin.sum_univ_three]
    have : v g = v 0 * (if g = 0 then 1 else 0) + v 1 * (if g = 1 then 1 else 0) + v 2 * (if g = 2 then 1 else 0) := by fin_cases g <;> simp
    rw [this, ← c0, ← c1, ← c2]
    ring
  set lam := ∑ h, R 2 h * R 2 h ^ 3 with hlam
  have cube : ∀ g, R 2 g ^ 3 = lam * R 2 g := by
    intro g
    have := exp (fun h => R 2 h ^ 3) g
    have z0 : ∑ h, R 0 h * R 2 h ^ 3 = 0 := by
      rw [← hq 0 2 2 2 (by simp [normals]), quartic]; exact Finset.sum_congr rfl fun g _ => by ring
    have z1 : ∑ h, R 1 h * R 2 h ^ 3 = 0 := by
      rw [← hq 1 2 2 2 (by simp [normals]), quartic]; exact Finset.sum_congr rfl fun g _ => by ring
    simp only [z0, z1] at this
    rw [this]; ring
  have sq : ∀ g, R 2 g ≠ 0 → R 2 g ^ 2 = lam := by
    intro g hg
    exact mul_right_cancel₀ hg (by rw [← cube g]; ring)
  have eqabs : ∀ a b, R 2 a ≠ 0 → R 2 b ≠ 0 → |R 2 a| = |R 2 b| := by
    intro a b ha hb
    rw [← sq_eq_sq_iff_abs_eq_abs, sq a ha, sq b hb]
  have f3 : ∀ g : Fin 3, g = 0 ∨ g = 1 ∨ g = 2 := by decide
  by_cases h0 : R 2 0 = 0
  · by_cases h1 : R 2 1 = 0
    · exact .inl ⟨2, fun g hg => by rcases f3 g with rfl | rfl | rfl <;> first | assumption | exact absurd rfl hg⟩
    · by_cases h2 : R 2 2 = 0
      · exact .inl ⟨1, fun g hg => by rcases f3 g with rfl | rfl | rfl <;> first | assumption | exact absurd rfl hg⟩
      · exact .inr ⟨1, 2, by decide, eqabs 1 2 h1 h2, fun g hg hg' => by rcases f3 g with rfl | rfl | rfl <;> first | assumption | exact absurd rfl hg | exact absurd rfl hg'⟩
  · by_cases h1 : R 2 1 = 0
    · by_cases h2 : R 2 2 = 0
      · exact .inl ⟨0, fun g hg => by rcases f3 g with rfl | rfl | rfl <;> first | assumption | exact absurd rfl hg⟩
      · exact .inr ⟨0, 2, by decide, eqabs 0 2 h0 h2, fun g hg hg' => by rcases f3 g with rfl | rfl | rfl <;> first | assumption | exact absurd rfl hg | exact absurd rfl hg'⟩
    · by_cases h2 : R 2 2 = 0
      · exact .inr ⟨0, 1, by decide, eqabs 0 1 h0 h1, fun g hg hg' => by rcases f3 g with rfl | rfl | rfl <;> first | assumption | exact absurd rfl hg | exact absurd rfl hg'⟩
      · exfalso
        have s0 := sq 0 h0
        have s1 := sq 1 h1
        have s2 := sq 2 h2
        let t : Fin 3 → ℝ := ![R 2 0, R 2 1, -2 * R 2 2]
        have ht2 : ∑ h, R 2 h * t h = 0 := by
          simp only [Fin.sum_univ_three, t, Matrix.cons_val_zero, Matrix.cons_val_one, Matrix.cons_val]
          linear_combination s0 + s1 - 2 * s2
        have ht : ∀ g, t g = R 0 g * (∑ h, R 0 h * t h) + R 1 g * (∑ h, R 1 h * t h) := fun g => by
          have := exp t g
          rw [ht2, mul_zero, add_zero] at this
          exact this
        have q0 := hq 2 0 0 0 (by simp [normals])
        have q1 := hq 2 0 0 1 (by simp [normals])
        have q2 := hq 2 0 1 1 (by simp [normals])
        have q3 := hq 2 1 1 1 (by simp [normals])
        have hsum : ∑ g, R 2 g * t g ^ 3 = 0 := by
          set τ0 := ∑ h, R 0 h * t h
          set τ1 := ∑ h, R 1 h * t h
          have : ∑ g, R 2 g * t g ^ 3 = τ0 ^ 3 * quartic R 2 0 0 0 + 3 * τ0 ^ 2 * τ1 * quartic R 2 0 0 1 + 3 * τ0 * τ1 ^ 2 * quartic R 2 0 1 1 + τ1 ^ 3 * quartic R 2 1 1 1 := by
            simp only [ht, quartic, Finset.mul_sum, ← Finset.sum_add_distrib]
            exact Finset.sum_congr rfl fun g _ => by ring
          rw [this, q0, q1, q2, q3]; ring
        simp only [Fin.sum_univ_three, t, Matrix.cons_val_zero, Matrix.cons_val_one, Matrix.cons_val] at hsum
        have hl : -6 * lam ^ 2 = 0 := by
          have e0 : R 2 0 * R 2 0 ^ 3 = lam ^ 2 := by rw [← s0]; ring
          have e1 : R 2 1 * R 2 1 ^ 3 = lam ^ 2 := by rw [← s1]; ring
          have e2 : R 2 2 * (-2 * R 2 2) ^ 3 = -8 * lam ^ 2 := by rw [← s2]; ring
          rw [e0, e1, e2] at hsum
          linarith
        have : lam = 0 := by nlinarith
        rw [this] at s0
        exact h0 (pow_eq_zero_iff (two_ne_zero)|>.1 s0)

/-- **C83.** The surface of an anisotropic cubic crystal is a mirror plane, so that `find_eigenvalues` recovers the coefficients of the determinant, exactly if its normal is a cube axis or a face diagonal. -/
theorem C83_orientations_partial (k : Constants) (hk : k.ints = false) (hiso : k.c11 - k.c12 ≠ 2 * k.c44) (thickness : Option ℝ) (R : Fin 3 → Fin 3 → ℝ) (hR : Rotation R) (A : Aniso)
    (h : construct k thickness R = .ok A) : Mirror A ↔ MirrorNormal R := by
  rw [mirror_iff k hk hiso thickness R hR A h]
  exact ⟨normal_of_quartic R hR, fun hn i j m l hodd => quartic_of_normal R hR hn i j m l hodd⟩

lemma mirror_of_normal (k : Constants) (hk : k.ints = false) (thickness : Option ℝ) (R : Fin 3 → Fin 3 → ℝ) (hR : Rotation R) (hn : MirrorNormal R) (A : Aniso)
    (h : construct k thickness R = .ok A) : Mirror A := by
  by_cases hiso : k.c11 - k.c12 = 2 * k.c44
  · intro i j m l hodd
    have e1 : tensor A.C i j m l = rotated R (tensor (cubic k)) i j m l := C82_rotated k hk thickness R A h i j m l
    rw [e1, rotated_of_rotation k R hR.1, show k.c11 - k.c12 - 2 * k.c44 = 0 by linarith, zero_mul, add_zero]
    revert hodd
    fin_cases i <;> fin_cases j <;> fin_cases m <;> fin_cases l <;> simp [delta]
  · exact (C83_orientations_partial k hk hiso thickness R hR A h).2 hn

/-- **C137.** Half-space and layer, for stable crystals whose surface is normal to a cube axis or to a face diagonal. -/
theorem C137_orientations (L : Lapack) (hL : L.Ok) (k : Constants) (hk : k.ints = false) (hs : Stable k) (thickness : Option ℝ) (R : Fin 3 → Fin 3 → ℝ) (hR : Rotation R) (hn : MirrorNormal R) (A : Aniso)
    (hA : construct k thickness R = .ok A) (qx qy tol : ℝ) (hq : qx ≠ 0 ∨ qy ≠ 0) (hnd : (findEigenvalues L A qx qy).Nodup) :
    (∃ G, greens1 L A qx qy none tol = .ok G ∧ Hermitian G ∧ PositiveDefinite G
      ∧ (¬ (|qx| < tol ∧ |qy| < tol) → ∃ K, stiffness1 L A qx qy none tol = .ok K ∧ Inverses G K))
    ∧ ∀ d, 0 < d → ¬ (|qx| < tol ∧ |qy| < tol) →
      ∃ G K, greens1 L A qx qy (some d) tol = .ok G ∧ stiffness1 L A qx qy (some d) tol = .ok K ∧ Hermitian G ∧ PositiveDefinite G ∧ Inverses G K :=
  have hM := mirror_of_normal k hk thickness R hR hn A hA
  ⟨C137_halfspace_mirror L hL k hk hs thickness R hR A hA hM qx qy tol hq hnd,
    fun d hd htol => C137_layer_mirror L hL k hk hs thickness R hR A hA hM qx qy tol d hd hq htol hnd⟩

/-- **C126.** For a stable crystal in any orientation: whatever is returned is Hermitian and the unique response. -/
theorem C126_response_stable (L : Lapack) (hL : L.Ok) (k : Constants) (hk : k.ints = false) (hs : Stable k) (thickness : Option ℝ) (R : Fin 3 → Fin 3 → ℝ) (hR : Rotation R) (A : Aniso)
    (hA : construct k thickness R = .ok A) (qx qy tol : ℝ) (hq : qx ≠ 0 ∨ qy ≠ 0) (G : M3) (h : greens1 L A qx qy none tol = .ok G) :
    Hermitian G ∧ ∀ t, (∃ w, Elastic.CrystalSolution (tensor A.C) qx qy t w ∧ w 0 = Gᵀ *ᵥ t) ∧ ∀ w, Elastic.CrystalSolution (tensor A.C) qx qy t w → w 0 = Gᵀ *ᵥ t := by
  have hre : ∀ Q ∈ findEigenvalues L A qx qy, 0 < Q.re := fun Q hQ => C124_decay L hL k hk hs thickness R hR A hA qx qy hq Q hQ
  obtain ⟨u1, u2⟩ := C126_unique L hL k thickness R A hA qx qy tol G h hre
  exact ⟨u1, fun t => ⟨C126_response L hL A qx qy tol G h hre t, u2 t⟩⟩

/-- **C126.** As returned by `greens_function` for vectors of wavevectors, in any orientation. -/
theorem C126_vectors (L : Lapack) (hL : L.Ok) (k : Constants) (hk : k.ints = false) (hs : Stable k) (R : Fin 3 → Fin 3 → ℝ) (hR : Rotation R) (A : Aniso)
    (hA : construct k none R = .ok A) (tol : ℝ) (xs ys : List ℝ) (hl : xs.length = ys.length) (r : Res) (h : anisoGreens L A tol (.vec xs) (.vec ys) = .ok r) :
    ∃ l, r = .many l ∧ l.length = xs.length ∧ ∀ n (h1 : n < xs.length) (h2 : n < ys.length) (h3 : n < l.length), (xs[n] ≠ 0 ∨ ys[n] ≠ 0) →
      ∀ t, ∃ w, Elastic.CrystalSolution (tensor A.C) xs[n] ys[n] t w ∧ w 0 = l[n]ᵀ *ᵥ t := by
  have ht : A.thickness = none := by rw [construct_ok k none _ A hA]
  unfold anisoGreens overNormalized at h
  simp only at h
  rw [if_pos (Or.inl hl)] at h
  cases hm : (xs.zip ys).mapM (fun p => do
        let M ← greens1 L A (p.1 / absQ p.1 p.2) (p.2 / absQ p.1 p.2) (A.thickness.map (· * absQ p.1 p.2)) tol
        pure (((1 / absQ p.1 p.2 : ℝ) : ℂ) • M)) with
  | error e => rw [hm] at h; cases h
  | ok l =>
    rw [hm] at h
    have h : Res.many l = r := by injection h
    obtain ⟨m1, m2⟩ := mapM_ok _ _ l hm
    refine ⟨l, h.symm, by rw [m1]; simp [hl], ?_⟩
    intro n h1 h2 h3 hq t
    have := m2 n (by simp [hl, h2]) h3
    simp only [List.getElem_zip, ht, Option.map_none] at this
    set N := absQ xs[n] ys[n] with hN
    have hNp : 0 < N := absQ_pos _ _
    cases hg : greens1 L A (xs[n] / N) (ys[n] / N) none tol with
    | error e => rw [hg] at this; cases this
    | ok M =>
      rw [hg] at this
      have e : ((1 / N : ℝ) : ℂ) • M = l[n] := by injection this
      obtain ⟨w, w1, w2⟩ := ((C126_response_stable L hL k hk hs none R hR A hA _ _ tol (hq.imp (fun h => div_ne_zero h hNp.ne') (fun h => div_ne_zero h hNp.ne')) M hg).2 t).1
      refine ⟨_, scale_solution _ _ _ N hNp t w w1, ?_⟩
      rw [← e, Matrix.transpose_smul, Matrix.smul_mulVec, ← w2]
      funext i
      simp

/-- A (110) surface of aluminium meets the hypotheses. -/
example : let R : Fin 3 → Fin 3 → ℝ := fun i j => !![0, 0, 1; (√2)⁻¹, -(√2)⁻¹, 0; (√2)⁻¹, (√2)⁻¹, 0] i j
    Rotation R ∧ MirrorNormal R ∧ Stable ⟨108, 61, 28, false⟩ ∧ ∃ A, construct ⟨108, 61, 28, false⟩ none R = .ok A := by
  intro R
  have h2 : (√2)⁻¹ * (√2)⁻¹ = (1 / 2 : ℝ) := by rw [← mul_inv, Real.mul_self_sqrt (by norm_num)]; norm_num
  have hdet : (Matrix.of R).det = 1 := by
    simp [Matrix.det_fin_three, R]; linarith
  refine ⟨⟨?_, ?_, hdet⟩, .inr ⟨0, 1, by decide, by simp [R], ?_⟩, ⟨by norm_num, by norm_num, by norm_num⟩, ?_⟩
  · intro i j; fin_cases i <;> fin_cases j <;> simp [R, Fin.sum_univ_three] <;> linarith
  · intro i j; fin_cases i <;> fin_cases j <;> simp [R, Fin.sum_univ_three] <;> linarith
  · intro g h0 h1; fin_cases g <;> simp_all [R]
  · unfold construct
    rw [if_pos (by rw [hdet]; unfold closeToOne; norm_num)]
    exact ⟨_, rfl⟩

end CM.Greens
