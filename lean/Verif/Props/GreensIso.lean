import Verif.Props.GreensPositive
import Verif.Props.Greens6
import Mathlib.Algebra.CubicDiscriminant
import Mathlib.FieldTheory.IsAlgClosed.Basic
import Mathlib.Analysis.Complex.Polynomial.Basic
import Mathlib.LinearAlgebra.Dimension.Free
/-!
# Isotropic constants in the anisotropic class (C138); examples for C126, C137
-/
namespace CM.Greens

open Matrix Filter

/-! ## The external routines can be provided -/

lemma cubic_roots (p : Fin 4 → ℂ) (h : p 0 ≠ 0) : ∃ a b c, ∀ z, p 0 * z ^ 3 + p 1 * z ^ 2 + p 2 * z + p 3 = p 0 * (z - a) * (z - b) * (z - c) := by
  obtain ⟨a, ha⟩ := IsAlgClosed.exists_root (Cubic.toPoly ⟨p 0, p 1, p 2, p 3⟩) (by rw [Cubic.degree_of_a_ne_zero (by exact h)]; decide)
  have ha' : p 0 * a ^ 3 + p 1 * a ^ 2 + p 2 * a + p 3 = 0 := by
    simpa [Polynomial.IsRoot, Cubic.toPoly] using ha
  set B := p 1 + p 0 * a with hB
  set D := p 2 + p 1 * a + p 0 * a ^ 2 with hD
  obtain ⟨s, hs⟩ := IsAlgClosed.exists_pow_nat_eq (B ^ 2 - 4 * p 0 * D) (n := 2) (by norm_num)
  refine ⟨a, (-B + s) / (2 * p 0), (-B - s) / (2 * p 0), fun z => ?_⟩
  have e : p 0 * (z - a) * (z - (-B + s) / (2 * p 0)) * (z - (-B - s) / (2 * p 0)) = (z - a) * (p 0 * z ^ 2 + B * z + (B ^ 2 - s ^ 2) / (4 * p 0)) := by
    field_simp
    ring
  rw [e, hs]
  have : (B ^ 2 - (B ^ 2 - 4 * p 0 * D)) / (4 * p 0) = D := by field_simp; ring
  rw [this, hB, hD]
  linear_combination ha'

lemma sqrt_exists (z : ℂ) : ∃ w : ℂ, w ^ 2 = z ∧ 0 ≤ w.re := by
  obtain ⟨w, hw⟩ := IsAlgClosed.exists_pow_nat_eq z (n := 2) (by norm_num)
  rcases le_total 0 w.re with h | h
  · exact ⟨w, hw, h⟩
  · exact ⟨-w, by rw [neg_sq, hw], by simpa using h⟩

/-- Routines that do what is expected of `np.roots`, `np.sqrt` and `scipy.linalg.null_space` exist. -/
theorem lapack_exists : ∃ L : Lapack, L.Ok := by
  classical
  choose f hf using cubic_roots
  choose g hg using hf
  choose c hc using hg
  choose q hq using sqrt_exists
  refine ⟨⟨fun p => if h : p 0 ≠ 0 then [f p h, g p h, c p h] else [], q, fun M => List.ofFn fun i => ((Module.finBasis ℂ (LinearMap.ker M.mulVecLin)) i : Fin 3 → ℂ)⟩, ?_⟩
  constructor
  · intro p z hz
    simp only at hz
    split_ifs at hz with h
    · rw [hc p h]
      simp only [List.mem_cons, List.not_mem_nil, or_false] at hz
      rcases hz with rfl | rfl | rfl <;> ring
    · simp at hz
  · intro p h
    exact ⟨f p h, g p h, c p h, by simp only; rw [dif_pos h], hc p h⟩
  · exact fun z => (hq z).1
  · exact fun z => (hq z).2
  · intro M e he
    obtain ⟨i, rfl⟩ := (List.mem_ofFn' _ _).1 he
    exact ((Module.finBasis ℂ (LinearMap.ker M.mulVecLin)) i).2
  · intro M v hv
    set b := Module.finBasis ℂ (LinearMap.ker M.mulVecLin) with hb
    have hm : v ∈ LinearMap.ker M.mulVecLin := hv
    have := b.mem_span ⟨v, hm⟩
    have := Submodule.mem_map_of_mem (f := (LinearMap.ker M.mulVecLin).subtype) this
    rw [Submodule.map_span] at this
    refine Submodule.span_mono ?_ this
    rintro _ ⟨_, ⟨i, rfl⟩, rfl⟩
    exact (List.mem_ofFn' _ _).2 ⟨i, rfl⟩
  · intro M
    set b := Module.finBasis ℂ (LinearMap.ker M.mulVecLin) with hb
    have h1 : LinearIndependent ℂ fun i => ((b i : LinearMap.ker M.mulVecLin) : Fin 3 → ℂ) := b.linearIndependent.map' (LinearMap.ker M.mulVecLin).subtype (Submodule.ker_subtype _)
    have := h1.comp (Fin.cast (List.length_ofFn (f := fun i => ((b i : LinearMap.ker M.mulVecLin) : Fin 3 → ℂ)))) (Fin.cast_injective _)
    convert this using 1
    funext i
    simp
    rfl

/-! ## C138 -/

lemma mirror_cubic (c : Constants) (thickness : Option ℝ) : Mirror ⟨cubic c, thickness⟩ := by
  intro i j k l h
  simp only [tensor_cubic, delta]
  fin_cases i <;> fin_cases j <;> fin_cases k <;> fin_cases l <;> simp at h ⊢

lemma bulkop_iso (c : Constants) (hiso : c.c11 - c.c12 = 2 * c.c44) (thickness : Option ℝ) (q : Fin 3 → ℂ) (i l : Fin 3) :
    bulkop ⟨cubic c, thickness⟩ (q 0) (q 1) (q 2) i l = -((c.c44 : ℂ) * (q 0 ^ 2 + q 1 ^ 2 + q 2 ^ 2) * (if i = l then 1 else 0) + ((c.c12 : ℂ) + c.c44) * q i * q l) := by
  have h11 : c.c11 = c.c12 + 2 * c.c44 := by linarith
  simp only [bulkop_entry, tensor_cubic, delta, h11]
  fin_cases i <;> fin_cases l <;> simp <;> ring

lemma iso_det (c : Constants) (hiso : c.c11 - c.c12 = 2 * c.c44) (thickness : Option ℝ) (x y z : ℂ) :
    (bulkop ⟨cubic c, thickness⟩ x y z).det = -((c.c44 : ℂ) ^ 2 * (c.c12 + 2 * c.c44) * (x ^ 2 + y ^ 2 + z ^ 2) ^ 3) := by
  have h := bulkop_iso c hiso thickness ![x, y, z]
  simp only [Matrix.cons_val_zero, Matrix.cons_val_one, Matrix.cons_val] at h
  rw [Matrix.det_fin_three]
  simp only [h]
  simp
  ring

/-- The double null space. -/
lemma iso_degenerate (L : Lapack) (hL : L.Ok) (c : Constants) (hiso : c.c11 - c.c12 = 2 * c.c44) (thickness : Option ℝ) (qx qy : ℝ) (hq : qx ≠ 0 ∨ qy ≠ 0) (z : ℂ)
    (hz : (qx : ℂ) ^ 2 + (qy : ℂ) ^ 2 + z ^ 2 = 0) : eigenvector L ⟨cubic c, thickness⟩ qx qy z = .error .runtimeError := by
  set M := bulkop ⟨cubic c, thickness⟩ qx qy z with hM
  have h := bulkop_iso c hiso thickness ![(qx : ℂ), qy, z]
  simp only [Matrix.cons_val_zero, Matrix.cons_val_one, Matrix.cons_val, hz, ← hM] at h
  have k1 : M *ᵥ ![-(qy : ℂ), qx, 0] = 0 := by
    funext i
    simp only [Matrix.mulVec, dotProduct, Fin.sum_univ_three, h]
    simp
    ring
  have k2 : M *ᵥ ![(qx : ℂ), qy, z] = 0 := by
    funext i
    simp only [Matrix.mulVec, dotProduct, Fin.sum_univ_three, h]
    simp
    linear_combination -((c.c12 : ℂ) + c.c44) * (![(qx : ℂ), qy, z] i) * hz
  have hzne : z ≠ 0 := by
    rintro rfl
    have : ((qx ^ 2 + qy ^ 2 : ℝ) : ℂ) = 0 := by push_cast; linear_combination hz
    have := Complex.ofReal_eq_zero.1 this
    rcases hq with h | h
    · have := pow_pos (abs_pos.2 h) 2; rw [sq_abs] at this; nlinarith [sq_nonneg qy]
    · have := pow_pos (abs_pos.2 h) 2; rw [sq_abs] at this; nlinarith [sq_nonneg qx]
  unfold eigenvector
  rw [← hM]
  match hl : L.nullSpace M with
  | [] => rfl
  | [e] =>
    exfalso
    have s1 := hL.span M _ k1
    have s2 := hL.span M _ k2
    rw [hl] at s1 s2
    simp only [List.mem_singleton, Set.ofPred_eq_eq_singleton] at s1 s2
    obtain ⟨a, ha⟩ := Submodule.mem_span_singleton.1 s1
    obtain ⟨b, hb⟩ := Submodule.mem_span_singleton.1 s2
    have a0 := congrFun ha 0
    have a1 := congrFun ha 1
    have a2 := congrFun ha 2
    have b2 := congrFun hb 2
    simp at a0 a1 a2 b2
    have : a = 0 := by
      rcases a2 with h | h
      · exact h
      · rw [h, mul_zero] at b2; exact absurd b2.symm hzne
    rw [this] at a0 a1
    simp at a0 a1
    rcases hq with h | h
    · exact h (by exact_mod_cast a1.symm)
    · exact h a0
  | e1 :: e2 :: l => rfl

lemma iso_modes (L : Lapack) (hL : L.Ok) (c : Constants) (hiso : c.c11 - c.c12 = 2 * c.c44) (h44 : c.c44 ≠ 0) (h12 : c.c12 + 2 * c.c44 ≠ 0) (th thickness : Option ℝ) (qx qy : ℝ) (hq : qx ≠ 0 ∨ qy ≠ 0) :
    modes L ⟨cubic c, th⟩ qx qy thickness = .error .runtimeError := by
  have hne : (c.c44 : ℂ) ^ 2 * ((c.c12 : ℂ) + 2 * c.c44) ≠ 0 := by
    refine mul_ne_zero (pow_ne_zero 2 (by exact_mod_cast h44)) ?_
    exact_mod_cast h12
  have hp0 : coefficients ⟨cubic c, th⟩ qx qy 0 ≠ 0 := by
    rw [leading _ (mirror_cubic c th), iso_det c hiso]
    refine neg_ne_zero.2 (mul_ne_zero hne ?_)
    simp
  obtain ⟨x, y, z, hr, -⟩ := hL.factor _ hp0
  have hmem : L.sqrt x ∈ findEigenvalues L ⟨cubic c, th⟩ qx qy := by
    unfold findEigenvalues
    rw [hr]
    simp
  have h0 := (C83_eigenvalues_partial L hL _ (mirror_cubic c th) qx qy _ hmem).1
  rw [iso_det c hiso] at h0
  have h0 := pow_eq_zero_iff (n := 3) (by norm_num) |>.1 ((mul_eq_zero.1 (neg_eq_zero.1 h0)).resolve_left hne)
  have he := iso_degenerate L hL c hiso th qx qy hq _ h0
  obtain ⟨rest, hw⟩ : ∃ rest, normalWaves thickness (findEigenvalues L ⟨cubic c, th⟩ qx qy) = (-Complex.I * L.sqrt x) :: rest := by
    classical
    unfold normalWaves findEigenvalues
    rw [hr]
    split_ifs
    · exact ⟨_, rfl⟩
    · exact ⟨_, rfl⟩
  unfold modes findEigenvectors
  rw [hw, List.mapM_cons, he]
  rfl

/-- **C138.** With isotropic constants the anisotropic class raises `RuntimeError` for every wavevector but the zero one, for half-spaces and layers, whatever the rotation: it does not return a wrong matrix. -/
theorem C138_isotropic (L : Lapack) (hL : L.Ok) (c : Constants) (hc : c.ints = false) (hiso : c.c11 - c.c12 = 2 * c.c44) (hs : Stable c) (thickness : Option ℝ) (R : Fin 3 → Fin 3 → ℝ) (hR : Rotation R)
    (A : Aniso) (hA : construct c thickness R = .ok A) (tol : ℝ) (htol : tol ≤ 1 / 2) (x y : ℝ) (xs ys : List ℝ) (hl : xs.length = ys.length) (hq : x ≠ 0 ∨ y ≠ 0) :
    anisoGreens L A tol (.vec (x :: xs)) (.vec (y :: ys)) = .error .runtimeError ∧ anisoStiffness L A tol (.vec (x :: xs)) (.vec (y :: ys)) = .error .runtimeError := by
  have hA' := C82_isotropic c hc hiso thickness R hR
  rw [hA] at hA'
  injection hA' with hA'
  subst hA'
  have h44 : c.c44 ≠ 0 := hs.1.ne'
  have h12 : c.c12 + 2 * c.c44 ≠ 0 := by
    obtain ⟨h1, h2, h3⟩ := hs
    have : c.c11 = c.c12 + 2 * c.c44 := by linarith
    rw [this] at h3
    intro h
    nlinarith
  set N := absQ x y with hN
  have hNp : 0 < N := absQ_pos x y
  have hN2 : N ^ 2 = x ^ 2 + y ^ 2 := by
    rw [hN]
    unfold absQ
    rw [if_neg (sqrt_sum_pos hq).ne', Real.sq_sqrt (by positivity)]
  have hq' : x / N ≠ 0 ∨ y / N ≠ 0 := hq.imp (fun h => div_ne_zero h hNp.ne') (fun h => div_ne_zero h hNp.ne')
  have hnt : ¬ (|x / N| < tol ∧ |y / N| < tol) := by
    rintro ⟨h1, h2⟩
    have e : (x / N) ^ 2 + (y / N) ^ 2 = 1 := by
      rw [div_pow, div_pow, ← add_div, ← hN2, div_self (by positivity)]
    rw [← sq_abs (x / N), ← sq_abs (y / N)] at e
    nlinarith [abs_nonneg (x / N), abs_nonneg (y / N)]
  have hm : ∀ t, modes L ⟨cubic c, thickness⟩ (x / N) (y / N) t = .error .runtimeError := fun t => iso_modes L hL c hiso h44 h12 thickness t _ _ hq'
  have hg : ∀ t, greens1 L ⟨cubic c, thickness⟩ (x / N) (y / N) t tol = .error .runtimeError := by
    intro t
    unfold greens1
    rw [if_neg (fun h => hnt h.2), hm]
    rfl
  have hk : ∀ t, stiffness1 L ⟨cubic c, thickness⟩ (x / N) (y / N) t tol = .error .runtimeError := by
    intro t
    unfold stiffness1
    rw [if_neg hnt]
    cases t with
    | none => simp only [hm]; rfl
    | some t => simp only [hg]; rfl
  have gen : ∀ (f : ℝ → ℝ → Option ℝ → Except PyErr M3) (scale : ℝ → ℂ), (∀ t, f (x / N) (y / N) t = .error .runtimeError) →
      overNormalized ⟨cubic c, thickness⟩ f scale (.vec (x :: xs)) (.vec (y :: ys)) = .error .runtimeError := by
    intro f scale hf
    unfold overNormalized
    simp only
    rw [if_pos (Or.inl (by simp [hl])), List.zip_cons_cons, List.mapM_cons]
    simp only [← hN, hf]
    rfl
  exact ⟨gen _ _ hg, gen _ _ hk⟩

/-- Steel-like isotropic constants. -/
example : Stable ⟨3, 1, 1, false⟩ ∧ (3 : ℝ) - 1 = 2 * 1 := by
  refine ⟨⟨?_, ?_, ?_⟩, ?_⟩ <;> norm_num

/-! ## An example for C137 -/

lemma no_double (x y : ℂ) (h1 : 2 * x + y = 839 / 336) (h2 : x ^ 2 + 2 * x * y = 839 / 336) (h3 : x ^ 2 * y = 1) : False := by
  have hy : y = 839 / 336 - 2 * x := by linear_combination h1
  subst hy
  have f : 3 * x ^ 2 - 2 * (839 / 336) * x + 839 / 336 = 0 := by linear_combination -h2
  have g : 2 * x ^ 3 - 839 / 336 * x ^ 2 + 1 = 0 := by linear_combination -h3
  have : (1 : ℂ) = 0 := by
    linear_combination (-320513088 / 33559175 + 568318464 / 33559175 * x) * g + (141797712 / 33559175 + 55997088 / 33559175 * x - 378878976 / 33559175 * x ^ 2) * f
  exact one_ne_zero this

/-- Aluminium: the three eigenvalues of the wave along a cube axis differ, so C137 applies. -/
theorem aluminium_distinct (L : Lapack) (hL : L.Ok) (thickness : Option ℝ) : (findEigenvalues L ⟨cubic ⟨108, 61, 28, false⟩, thickness⟩ 1 0).Nodup := by
  set A : Aniso := ⟨cubic ⟨108, 61, 28, false⟩, thickness⟩ with hA
  have hm : Mirror A := mirror_cubic _ _
  have hdet : ∀ Q : ℂ, (bulkop A (1 : ℝ) (0 : ℝ) (Complex.I * Q)).det = 84672 * (Q ^ 6 - 839 / 336 * Q ^ 4 + 839 / 336 * Q ^ 2 - 1) := by
    intro Q
    rw [Matrix.det_fin_three]
    simp only [bulkop_entry, hA, tensor_cubic, delta]
    simp
    have hI := Complex.I_sq
    linear_combination (-(Q ^ 2 * 211428) - Q ^ 4 * 211428 * (Complex.I ^ 2 - 1) - Q ^ 6 * 84672 * (Complex.I ^ 4 - Complex.I ^ 2 + 1)) * hI
  have hp : coefficients A 1 0 = ![84672, -84672 * (839 / 336), 84672 * (839 / 336), -84672] := by
    rw [← recover (fun Q => (bulkop A (1 : ℝ) (0 : ℝ) (Complex.I * Q)).det) ![84672, -84672 * (839 / 336), 84672 * (839 / 336), -84672]]
    · unfold coefficients
      simp only [mul_zero, mul_one]
    · intro Q
      rw [hdet]
      simp
      ring
  obtain ⟨a, b, c, hr, hf⟩ := hL.factor (coefficients A 1 0) (by rw [hp]; simp)
  unfold findEigenvalues
  rw [hr]
  rw [hp] at hf
  simp only [Matrix.cons_val_zero, Matrix.cons_val_one, Matrix.cons_val] at hf
  have z0 := hf 0
  have z1 := hf 1
  have z2 := hf (-1)
  have v1 : a + b + c = 839 / 336 := by linear_combination (1 / 84672) * ((z1 + z2) / 2 - z0)
  have v2 : a * b + b * c + c * a = 839 / 336 := by linear_combination (1 / 84672) * ((z2 - z1) / 2)
  have v3 : a * b * c = 1 := by linear_combination (1 / 84672) * z0
  have sq : ∀ u v, L.sqrt u = L.sqrt v → u = v := by
    intro u v h
    rw [← hL.sq u, ← hL.sq v, h]
  simp only [List.map_cons, List.map_nil, List.nodup_cons, List.mem_cons, List.not_mem_nil, or_false, not_or, not_false_iff, and_true, List.nodup_nil]
  refine ⟨⟨fun h => ?_, fun h => ?_⟩, fun h => ?_⟩
  · have := sq _ _ h
    subst this
    exact no_double a c (by linear_combination v1) (by linear_combination v2) (by linear_combination v3)
  · have := sq _ _ h
    subst this
    exact no_double a b (by linear_combination v1) (by linear_combination v2) (by linear_combination v3)
  · have := sq _ _ h
    subst this
    exact no_double b a (by linear_combination v1) (by linear_combination v2) (by linear_combination v3)

/-- All hypotheses of C137 are met by aluminium. -/
example : ∃ L : Lapack, L.Ok ∧ ∃ A, construct ⟨108, 61, 28, false⟩ none (fun i j => !![1, -0, 0; 0, 1, 0; 0, 0, 1] i j) = .ok A ∧ Stable ⟨108, 61, 28, false⟩ ∧ (findEigenvalues L A 1 0).Nodup
    ∧ ∃ G, greens1 L A 1 0 none 1e-6 = .ok G ∧ PositiveDefinite G := by
  obtain ⟨L, hL⟩ := lapack_exists
  have hs : Stable ⟨108, 61, 28, false⟩ := by refine ⟨?_, ?_, ?_⟩ <;> norm_num
  have hA := C125_unrotated ⟨108, 61, 28, false⟩ (by
    intro x hx
    simp only [List.mem_cons, List.not_mem_nil, or_false] at hx
    rcases hx with rfl | rfl | rfl
    · exact ⟨108, by norm_num⟩
    · exact ⟨61, by norm_num⟩
    · exact ⟨28, by norm_num⟩) none
  have e : (fun i j : Fin 3 => if i = j then (1 : ℝ) else 0) = fun i j => !![1, -0, 0; 0, 1, 0; 0, 0, 1] i j := by
    funext i j
    fin_cases i <;> fin_cases j <;> simp
  rw [e] at hA
  have hnd := aluminium_distinct L hL none
  obtain ⟨G, g1, -, g3, -⟩ := C137_halfspace L hL _ rfl hs none 1 0 (by norm_num) _ hA 1 0 1e-6 (by norm_num) hnd
  exact ⟨L, hL, _, hA, hs, hnd, G, g1, g3⟩

/-! ## Zero wavevector, vectors -/

/-- **C127.** A half-space has no stiffness against uniform displacement. -/
theorem C127_zero (L : Lapack) (A : Aniso) (hA : A.thickness = none) (tol : ℝ) (htol : 0 < tol) : anisoStiffness L A tol (.vec [0]) (.vec [0]) = .ok (.many [0]) := by
  unfold anisoStiffness overNormalized
  simp only [List.length_cons, List.length_nil, true_or, if_true, List.zip_cons_cons, List.zip_nil_left, List.mapM_cons, List.mapM_nil, hA, Option.map_none, zero_div]
  unfold stiffness1
  rw [if_pos (by simp [htol])]
  simp [Bind.bind, Except.bind, pure, Except.pure]

/-- **C122.** The stiffnesses for vectors of wavevectors are, one by one, inverse to the Green's functions. -/
theorem C122_stiffness (mu nu : ℝ) (hmu : 0 < mu) (hnu : nu < 3 / 4) (xs ys : List ℝ) (hl : xs.length = ys.length) (hq : ∀ p ∈ xs.zip ys, 1e-6 ≤ |p.1| ∨ 1e-6 ≤ |p.2|) :
    ∃ l k, isoGreens mu nu (.vec xs) (.vec ys) = .ok (.many l) ∧ isoStiffness mu nu (.vec xs) (.vec ys) = .ok (.many k) ∧ l.length = xs.length ∧ k.length = xs.length
      ∧ ∀ n (h1 : n < l.length) (h2 : n < k.length), Inverses l[n] k[n] := by
  induction xs generalizing ys with
  | nil =>
    obtain rfl : ys = [] := List.length_eq_zero_iff.1 hl.symm
    exact ⟨[], [], rfl, rfl, rfl, rfl, fun n h => absurd h (by simp)⟩
  | cons x xs ih =>
    cases ys with
    | nil => simp at hl
    | cons y ys =>
      obtain ⟨l, k, e1, e2, l1, l2, e3⟩ := ih ys (by simpa using hl) fun p hp => hq p (by simp [hp])
      obtain ⟨K, hK, hI⟩ := C79_inverse_partial mu nu x y hmu hnu (hq (x, y) (by simp))
      refine ⟨isoG mu nu x y :: l, K :: k, ?_, ?_, by simp [l1], by simp [l2], ?_⟩
      · unfold isoGreens overWaves at e1 ⊢
        simp only [List.zip_cons_cons, List.mapM_cons] at e1 ⊢
        cases h : List.mapM (fun p : ℝ × ℝ => (Except.ok (isoG mu nu p.1 p.2) : Except PyErr M3)) (xs.zip ys) with
        | error e => rw [h] at e1; cases e1
        | ok l' =>
          rw [h] at e1
          have : Res.many l' = .many l := by injection e1
          injection this with this
          subst this
          rfl
      · unfold isoStiffness overWaves at e2 ⊢
        simp only [List.zip_cons_cons, List.mapM_cons, hK] at e2 ⊢
        cases h : List.mapM (fun p : ℝ × ℝ => isoK mu nu p.1 p.2) (xs.zip ys) with
        | error e => rw [h] at e2; cases e2
        | ok l' =>
          rw [h] at e2
          have : Res.many l' = .many k := by injection e2
          injection this with this
          subst this
          rfl
      · intro n h1 h2
        cases n with
        | zero => exact hI
        | succ n => exact e3 n (by simpa using h1) (by simpa using h2)

end CM.Greens
