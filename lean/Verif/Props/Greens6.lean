import Verif.Props.Greens5
/-!
# The anisotropic Green's function for vectors of wavevectors (C126, C128)
-/
namespace CM.Greens

open Matrix Filter

lemma mapM_ok {α β : Type} (f : α → Except PyErr β) : ∀ (xs : List α) (l : List β), xs.mapM f = .ok l → l.length = xs.length ∧ ∀ n (h : n < xs.length) (h' : n < l.length), f xs[n] = .ok l[n] := by
  intro xs
  induction xs with
  | nil =>
    intro l h
    rw [List.mapM_nil] at h
    injection h with h
    subst h
    exact ⟨rfl, fun n h => absurd h (by simp)⟩
  | cons x xs ih =>
    intro l h
    rw [List.mapM_cons] at h
    cases h1 : f x with
    | error e => rw [h1] at h; cases h
    | ok y =>
      cases h2 : xs.mapM f with
      | error e => rw [h1, h2] at h; cases h
      | ok ys =>
        rw [h1, h2] at h
        injection h with h
        subst h
        obtain ⟨i1, i2⟩ := ih ys h2
        refine ⟨by simp [i1], fun n h h' => ?_⟩
        cases n with
        | zero => exact h1
        | succ n => exact i2 n (by simpa using h) (by simpa using h')

lemma absQ_pos (qx qy : ℝ) : 0 < absQ qx qy := by
  unfold absQ
  split_ifs with h
  · exact one_pos
  · exact lt_of_le_of_ne (Real.sqrt_nonneg _) (Ne.symm h)

/-- Stretching a wave. -/
lemma scale_solution (C : Fin 3 → Fin 3 → Fin 3 → Fin 3 → ℝ) (qx qy n : ℝ) (hn : 0 < n) (t : Fin 3 → ℂ) (w : ℝ → Fin 3 → ℂ) (hw : Elastic.CrystalSolution C (qx / n) (qy / n) t w) :
    Elastic.CrystalSolution C qx qy t (fun z i => ((1 / n : ℝ) : ℂ) * w (n * z) i) := by
  obtain ⟨w', w'', d1, d2, nw, tw, l1, l2⟩ := hw
  have hnc : (n : ℂ) ≠ 0 := by exact_mod_cast hn.ne'
  have lin : ∀ z : ℝ, HasDerivAt (fun z : ℝ => n * z) n z := fun z => by simpa using (hasDerivAt_id z).const_mul n
  have ch : ∀ (f : ℝ → ℂ) (f' : ℂ) (z : ℝ), HasDerivAt f f' (n * z) → HasDerivAt (fun z => f (n * z)) ((n : ℂ) * f') z := by
    intro f f' z h
    have := h.scomp z (lin z)
    rwa [Complex.real_smul] at this
  have hbot : Tendsto (fun z : ℝ => n * z) atBot atBot := tendsto_id.const_mul_atBot hn
  have g1 : ∀ z k l, Elastic.grad qx qy (fun i => ((1 / n : ℝ) : ℂ) * w (n * z) i) (fun i => w' (n * z) i) k l = Elastic.grad (qx / n) (qy / n) (w (n * z)) (w' (n * z)) k l := by
    intro z k l
    unfold Elastic.grad
    fin_cases k <;> simp <;> field_simp
  have g2 : ∀ z k l, Elastic.grad qx qy (fun i => w' (n * z) i) (fun i => (n : ℂ) * w'' (n * z) i) k l = n * Elastic.grad (qx / n) (qy / n) (w' (n * z)) (w'' (n * z)) k l := by
    intro z k l
    unfold Elastic.grad
    fin_cases k <;> simp <;> field_simp
  have k1 : ∀ z i j, Elastic.hooke C qx qy (fun i => ((1 / n : ℝ) : ℂ) * w (n * z) i) (fun i => w' (n * z) i) i j = Elastic.hooke C (qx / n) (qy / n) (w (n * z)) (w' (n * z)) i j := by
    intro z i j
    unfold Elastic.hooke
    simp only [g1]
  have k2 : ∀ z i j, Elastic.hooke C qx qy (fun i => w' (n * z) i) (fun i => (n : ℂ) * w'' (n * z) i) i j = n * Elastic.hooke C (qx / n) (qy / n) (w' (n * z)) (w'' (n * z)) i j := by
    intro z i j
    unfold Elastic.hooke
    simp only [g2, Finset.mul_sum]
    refine Finset.sum_congr rfl fun k _ => Finset.sum_congr rfl fun l _ => by ring
  refine ⟨fun z i => w' (n * z) i, fun z i => (n : ℂ) * w'' (n * z) i, ?_, fun z i => ch (fun z => w' z i) _ z (d2 _ i), ?_, ?_, ?_, fun i => (l2 i).comp hbot⟩
  · intro z i
    have := (ch (fun z => w z i) _ z (d1 _ i)).const_mul ((1 / n : ℝ) : ℂ)
    have e : ((1 / n : ℝ) : ℂ) * ((n : ℂ) * w' (n * z) i) = w' (n * z) i := by push_cast; field_simp
    rwa [e] at this
  · intro z i
    have := nw (n * z) i
    rw [k1, k1, k2]
    push_cast at this
    have e : (n : ℂ) * (Complex.I * (qx / n) * Elastic.hooke C (qx / n) (qy / n) (w (n * z)) (w' (n * z)) i 0 + Complex.I * (qy / n) * Elastic.hooke C (qx / n) (qy / n) (w (n * z)) (w' (n * z)) i 1
        + Elastic.hooke C (qx / n) (qy / n) (w' (n * z)) (w'' (n * z)) i 2) = 0 := by rw [this, mul_zero]
    rw [← e]
    field_simp
  · intro i
    have h0 := k1 0 i 2
    rw [mul_zero] at h0
    show Elastic.hooke C qx qy (fun i => ((1 / n : ℝ) : ℂ) * w (n * 0) i) (fun i => w' (n * 0) i) i 2 = t i
    rw [mul_zero, h0]
    exact tw i
  · intro i
    have := ((l1 i).comp hbot).const_mul ((1 / n : ℝ) : ℂ)
    rwa [mul_zero] at this

/-- **C126.** As returned by `greens_function` for vectors of wavevectors, for a stable crystal that may be turned about the surface normal: entry `n` is, transposed, the response of the crystal at the wavevector
`(xs[n], ys[n])`. -/
theorem C126_vectors_partial (L : Lapack) (hL : L.Ok) (k : Constants) (hk : k.ints = false) (hs : Stable k) (c s : ℝ) (hcs : c ^ 2 + s ^ 2 = 1) (A : Aniso)
    (hA : construct k none (fun i j => !![c, -s, 0; s, c, 0; 0, 0, 1] i j) = .ok A) (tol : ℝ) (xs ys : List ℝ) (hl : xs.length = ys.length) (r : Res) (h : anisoGreens L A tol (.vec xs) (.vec ys) = .ok r) :
    ∃ l, r = .many l ∧ l.length = xs.length ∧ ∀ n (h1 : n < xs.length) (h2 : n < ys.length) (h3 : n < l.length), (xs[n] ≠ 0 ∨ ys[n] ≠ 0) →
      ∀ t, ∃ w, Elastic.CrystalSolution (tensor A.C) xs[n] ys[n] t w ∧ w 0 = l[n]ᵀ *ᵥ t := by
  have ht : A.thickness = none := by rw [construct_ok k none _ A hA]
  unfold anisoGreens overNormalized at h
  simp only at h
  rw [if_pos (Or.inl hl)] at h
  cases hm : (xs.zip ys).mapM (fun p => do
        let M ← greens1 L A (p.1 / absQ p.1 p.2) (p.2 / absQ p.1 p.2) (A.thickness.map (· * absQ p.1 p.2)) tol
        pure (((1 / absQ p.1 p.2 : ℝ) : ℂ) • M)) with
  | error e => rw [hm] at h; cases h
  | ok l =>
    rw [hm] at h
    have h : Res.many l = r := by injection h
    obtain ⟨m1, m2⟩ := mapM_ok _ _ l hm
    refine ⟨l, h.symm, by rw [m1]; simp [hl], ?_⟩
    intro n h1 h2 h3 hq t
    have := m2 n (by simp [hl, h2]) h3
    simp only [List.getElem_zip, ht, Option.map_none] at this
    set N := absQ xs[n] ys[n] with hN
    have hNp : 0 < N := absQ_pos _ _
    cases hg : greens1 L A (xs[n] / N) (ys[n] / N) none tol with
    | error e => rw [hg] at this; cases this
    | ok M =>
      rw [hg] at this
      have e : ((1 / N : ℝ) : ℂ) • M = l[n] := by injection this
      obtain ⟨w, w1, w2⟩ := C126_response_cubic_partial L hL k hk hs none c s hcs A hA _ _ tol (hq.imp (fun h => div_ne_zero h hNp.ne') (fun h => div_ne_zero h hNp.ne')) M hg t
      refine ⟨_, scale_solution _ _ _ N hNp t w w1, ?_⟩
      rw [← e, Matrix.transpose_smul, Matrix.smul_mulVec, ← w2]
      funext i
      simp

/-! ## C128 -/

lemma absQ_scale (s qx qy : ℝ) (hs : 0 < s) (h : qx ≠ 0 ∨ qy ≠ 0) : absQ (s * qx) (s * qy) = s * absQ qx qy := by
  have h0 := (sqrt_sum_pos h).ne'
  unfold absQ
  rw [sqrt_scale s qx qy hs, if_neg (mul_ne_zero hs.ne' h0), if_neg h0]

/-- Multiplies all returned matrices. -/
noncomputable def Res.smul (a : ℂ) : Res → Res
  | .one A => .one (a • A)
  | .many l => .many (l.map (a • ·))

lemma mapM_smul {α : Type} (a : ℂ) (f g : α → Except PyErr M3) (l : List α) (h : ∀ x ∈ l, g x = (f x).map (a • ·)) : l.mapM g = (l.mapM f).map (List.map (a • ·)) := by
  induction l with
  | nil => rfl
  | cons x l ih =>
    rw [List.mapM_cons, List.mapM_cons, h x (by simp), ih fun y hy => h y (by simp [hy])]
    cases f x with
    | error e => rfl
    | ok y =>
      cases l.mapM f with
      | error e => rfl
      | ok ys => rfl

/-- **C128.** For an infinitely thick substrate the anisotropic stiffness and Green's function are homogeneous without any cut-off, in contrast to the isotropic ones (C81): wavevectors that are longer by a factor give
matrices that are larger, or smaller, by the same factor. -/
theorem C128_homogeneous (L : Lapack) (A : Aniso) (ht : A.thickness = none) (tol s : ℝ) (hs : 0 < s) (xs ys : List ℝ) (hl : xs.length = ys.length) (hq : ∀ p ∈ xs.zip ys, p.1 ≠ 0 ∨ p.2 ≠ 0) :
    anisoStiffness L A tol (.vec (xs.map (s * ·))) (.vec (ys.map (s * ·))) = (anisoStiffness L A tol (.vec xs) (.vec ys)).map (Res.smul (s : ℂ))
    ∧ anisoGreens L A tol (.vec (xs.map (s * ·))) (.vec (ys.map (s * ·))) = (anisoGreens L A tol (.vec xs) (.vec ys)).map (Res.smul ((1 / s : ℝ) : ℂ)) := by
  have gen : ∀ (f : ℝ → ℝ → Option ℝ → Except PyErr M3) (scale : ℝ → ℂ) (a : ℂ), (∀ q, scale (s * q) = a * scale q) →
      overNormalized A f scale (.vec (xs.map (s * ·))) (.vec (ys.map (s * ·))) = (overNormalized A f scale (.vec xs) (.vec ys)).map (Res.smul a) := by
    intro f scale a hsc
    set F : ℝ × ℝ → Except PyErr M3 := fun p => do
        let M ← f (p.1 / absQ p.1 p.2) (p.2 / absQ p.1 p.2) (A.thickness.map (· * absQ p.1 p.2))
        pure (scale (absQ p.1 p.2) • M) with hF
    have e : ∀ xs ys : List ℝ, xs.length = ys.length → overNormalized A f scale (.vec xs) (.vec ys) = ((xs.zip ys).mapM F).map Res.many := by
      intro xs ys hl
      unfold overNormalized
      simp only
      rw [if_pos (Or.inl hl)]
      cases h : (xs.zip ys).mapM F with
      | error e => rfl
      | ok l => rfl
    rw [e _ _ (by simp [hl]), e _ _ hl, List.zip_map, List.mapM_map, mapM_smul a F]
    · cases (xs.zip ys).mapM F with
      | error e => rfl
      | ok l => rfl
    · intro p hp
      simp only [hF, Function.comp, Prod.map]
      rw [absQ_scale s p.1 p.2 hs (hq p hp), mul_div_mul_left _ _ hs.ne', mul_div_mul_left _ _ hs.ne', ht]
      simp only [Option.map_none, hsc]
      cases f (p.1 / absQ p.1 p.2) (p.2 / absQ p.1 p.2) none with
      | error e => rfl
      | ok M =>
        show Except.ok _ = Except.ok (a • (scale (absQ p.1 p.2) • M))
        rw [smul_smul]
  refine ⟨gen _ _ _ fun q => by push_cast; ring, gen _ _ _ fun q => ?_⟩
  rw [← Complex.ofReal_mul]
  congr 1
  rw [one_div_mul_one_div]

end CM.Greens
