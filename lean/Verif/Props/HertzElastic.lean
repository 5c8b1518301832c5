import Verif.Props.HertzStress
/-!
# Hertz: the interior stress is an elastic solution (C130)
-/
set_option linter.unusedSimpArgs false
set_option maxRecDepth 20000

namespace CM.Ref.Hertz

open Real

noncomputable def eXX (nu : ℝ) : Ex := Ex.v .iR * (Ex.v .x ^ 2 * eRR nu + Ex.v .y ^ 2 * eTT nu)
noncomputable def eYY (nu : ℝ) : Ex := Ex.v .iR * (Ex.v .y ^ 2 * eRR nu + Ex.v .x ^ 2 * eTT nu)
noncomputable def eXY (nu : ℝ) : Ex := Ex.v .iR * (Ex.v .x * Ex.v .y * (eRR nu - eTT nu))
noncomputable def eXZ : Ex := Ex.v .x * eRZ
noncomputable def eYZ : Ex := Ex.v .y * eRZ

theorem off_edge {x y z : ℝ} (hz : 0 < z) : ¬ (x ^ 2 + y ^ 2 = 1 ∧ z = 0) := fun h => hz.ne' h.2

theorem cart_form {nu x y z : ℝ} (hr : 0 < x ^ 2 + y ^ 2) (hz : 0 < z) :
    (cartesian nu x y z).xx = (eXX nu).eval x y z ∧ (cartesian nu x y z).yy = (eYY nu).eval x y z ∧ (cartesian nu x y z).zz = eZZ.eval x y z ∧
    (cartesian nu x y z).yz = eYZ.eval x y z ∧ (cartesian nu x y z).xz = eXZ.eval x y z ∧ (cartesian nu x y z).xy = (eXY nu).eval x y z := by
  obtain ⟨g1, g2, g3, g4, g5, g6⟩ := hamilton_form (nu := nu) hr hz.le (off_edge hz)
  refine ⟨g1.trans ?_, g2.trans ?_, g3, g4, g5, g6.trans ?_⟩ <;>
    simp only [eXX, eYY, eXY, eval_add, eval_mul, eval_sub, eval_pow, Ex.eval, V.val] <;> rw [div_eq_inv_mul]

/-- A component given by an expression has the symbolic derivatives. -/
theorem comp_deriv {f : ℝ → ℝ → ℝ → ℝ} {e : Ex} (h : ∀ x y z, 0 < x ^ 2 + y ^ 2 → 0 < z → f x y z = e.eval x y z) {x y z : ℝ}
    (hr : 0 < x ^ 2 + y ^ 2) (hz : 0 < z) :
    HasDerivAt (fun t => f t y z) ((e.d .x).eval x y z) x ∧ HasDerivAt (fun t => f x t z) ((e.d .y).eval x y z) y ∧
    HasDerivAt (fun t => f x y t) ((e.d .z).eval x y z) z := by
  refine ⟨?_, ?_, ?_⟩
  · refine (Ex_deriv hr hz .x e).congr_of_eventuallyEq ?_
    have : ContinuousAt (fun t : ℝ => t ^ 2 + y ^ 2) x := by fun_prop
    filter_upwards [this.eventually (lt_mem_nhds hr)] with t ht
    exact h t y z ht hz
  · refine (Ex_deriv hr hz .y e).congr_of_eventuallyEq ?_
    have : ContinuousAt (fun t : ℝ => x ^ 2 + t ^ 2) y := by fun_prop
    filter_upwards [this.eventually (lt_mem_nhds hr)] with t ht
    exact h x t z ht hz
  · refine (Ex_deriv hr hz .z e).congr_of_eventuallyEq ?_
    filter_upwards [lt_mem_nhds hz] with t ht
    exact h x y t hr ht

/-- Equality of expressions in the coordinates. -/
theorem ident {x y z : ℝ} (hr : 0 < x ^ 2 + y ^ 2) (hz : 0 < z) (e : Ex)
    (h : ∀ m n p : ℝ, 0 < m → 0 < n → 1 - n ^ 2 ≠ 0 → y ^ 2 = (1 + m ^ 2) * (1 - n ^ 2) - x ^ 2 → x ^ 2 + y ^ 2 = (1 + m ^ 2) * (1 - n ^ 2) →
      (∀ a : V, a.val x y z = match a with
        | .x => x | .y => y | .z => m * n | .M => m | .N => n | .iS => (m ^ 2 + n ^ 2)⁻¹ | .iR => ((1 + m ^ 2) * (1 - n ^ 2))⁻¹
        | .W => (1 + m ^ 2)⁻¹ | .phi => p) → e.eval x y z = 0) : e.eval x y z = 0 := by
  obtain ⟨m, n, hM, hN, hm, hn, hn1, hs, hmn, hy, hS, hA, hR, hpos⟩ := coords hr hz.le (off_edge hz)
  refine h m n (arctan2one m) (hpos hz).1 (hpos hz).2 (by nlinarith) hy hR ?_
  intro a
  cases a <;> simp only [V.val, hM, hN, hS] <;> first | rw [hR] | exact hmn

theorem balance_x {nu x y z : ℝ} (hr : 0 < x ^ 2 + y ^ 2) (hz : 0 < z) : ((eXX nu).d .x + (eXY nu).d .y + eXZ.d .z).eval x y z = 0 := by
  refine ident hr hz _ fun m n p hm hn h1n hy hR hv => ?_
  have h1m : 1 + m ^ 2 ≠ 0 := by positivity
  have hs : m ^ 2 + n ^ 2 ≠ 0 := by positivity
  have hy3 : y ^ 3 = y * ((1 + m ^ 2) * (1 - n ^ 2) - x ^ 2) := by rw [← hy]; ring
  have hy4 : y ^ 4 = ((1 + m ^ 2) * (1 - n ^ 2) - x ^ 2) ^ 2 := by rw [← hy]; ring
  have hy5 : y ^ 5 = y * ((1 + m ^ 2) * (1 - n ^ 2) - x ^ 2) ^ 2 := by rw [← hy]; ring
  simp only [eXX, eYY, eZZ, eXY, eXZ, eYZ, eRR, eTT, eRZ, d_add, d_mul, d_sub, d_neg, d_pow, Ex.d, V.d, dM, dN, eval_add, eval_mul, eval_sub, eval_neg, eval_pow, Ex.eval, hv]
  norm_num
  field_simp
  ring_nf
  simp only [hy, hy3, hy4, hy5]
  ring

theorem balance_y {nu x y z : ℝ} (hr : 0 < x ^ 2 + y ^ 2) (hz : 0 < z) : ((eXY nu).d .x + (eYY nu).d .y + eYZ.d .z).eval x y z = 0 := by
  refine ident hr hz _ fun m n p hm hn h1n hy hR hv => ?_
  have h1m : 1 + m ^ 2 ≠ 0 := by positivity
  have hs : m ^ 2 + n ^ 2 ≠ 0 := by positivity
  have hy3 : y ^ 3 = y * ((1 + m ^ 2) * (1 - n ^ 2) - x ^ 2) := by rw [← hy]; ring
  have hy4 : y ^ 4 = ((1 + m ^ 2) * (1 - n ^ 2) - x ^ 2) ^ 2 := by rw [← hy]; ring
  have hy5 : y ^ 5 = y * ((1 + m ^ 2) * (1 - n ^ 2) - x ^ 2) ^ 2 := by rw [← hy]; ring
  simp only [eXX, eYY, eZZ, eXY, eXZ, eYZ, eRR, eTT, eRZ, d_add, d_mul, d_sub, d_neg, d_pow, Ex.d, V.d, dM, dN, eval_add, eval_mul, eval_sub, eval_neg, eval_pow, Ex.eval, hv]
  norm_num
  field_simp
  ring_nf
  simp only [hy, hy3, hy4, hy5]
  ring

theorem balance_z {x y z : ℝ} (hr : 0 < x ^ 2 + y ^ 2) (hz : 0 < z) : (eXZ.d .x + eYZ.d .y + eZZ.d .z).eval x y z = 0 := by
  refine ident hr hz _ fun m n p hm hn h1n hy hR hv => ?_
  have h1m : 1 + m ^ 2 ≠ 0 := by positivity
  have hs : m ^ 2 + n ^ 2 ≠ 0 := by positivity
  have hy3 : y ^ 3 = y * ((1 + m ^ 2) * (1 - n ^ 2) - x ^ 2) := by rw [← hy]; ring
  have hy4 : y ^ 4 = ((1 + m ^ 2) * (1 - n ^ 2) - x ^ 2) ^ 2 := by rw [← hy]; ring
  have hy5 : y ^ 5 = y * ((1 + m ^ 2) * (1 - n ^ 2) - x ^ 2) ^ 2 := by rw [← hy]; ring
  simp only [eXX, eYY, eZZ, eXY, eXZ, eYZ, eRR, eTT, eRZ, d_add, d_mul, d_sub, d_neg, d_pow, Ex.d, V.d, dM, dN, eval_add, eval_mul, eval_sub, eval_neg, eval_pow, Ex.eval, hv]
  norm_num
  field_simp
  ring_nf
  simp only [hy, hy3, hy4, hy5]
  ring

/-- **C130** (balance) The interior stress is in equilibrium. -/
theorem balanced {nu x y z : ℝ} (hr : 0 < x ^ 2 + y ^ 2) (hz : 0 < z) : Balanced (cartesian nu) x y z := by
  have hxx := comp_deriv (f := fun x y z => (cartesian nu x y z).xx) (fun x y z hr hz => (cart_form (nu := nu) hr hz).1) hr hz
  have hyy := comp_deriv (f := fun x y z => (cartesian nu x y z).yy) (fun x y z hr hz => (cart_form (nu := nu) hr hz).2.1) hr hz
  have hzz := comp_deriv (f := fun x y z => (cartesian nu x y z).zz) (fun x y z hr hz => (cart_form (nu := nu) hr hz).2.2.1) hr hz
  have hyz := comp_deriv (f := fun x y z => (cartesian nu x y z).yz) (fun x y z hr hz => (cart_form (nu := nu) hr hz).2.2.2.1) hr hz
  have hxz := comp_deriv (f := fun x y z => (cartesian nu x y z).xz) (fun x y z hr hz => (cart_form (nu := nu) hr hz).2.2.2.2.1) hr hz
  have hxy := comp_deriv (f := fun x y z => (cartesian nu x y z).xy) (fun x y z hr hz => (cart_form (nu := nu) hr hz).2.2.2.2.2) hr hz
  exact ⟨⟨_, _, _, hxx.1, hxy.2.1, hxz.2.2, balance_x hr hz⟩, ⟨_, _, _, hxy.1, hyy.2.1, hyz.2.2, balance_y hr hz⟩,
    ⟨_, _, _, hxz.1, hyz.2.1, hzz.2.2, balance_z hr hz⟩⟩

/-! ## Displacement -/

/-- Radial displacement divided by the distance from the axis. -/
noncomputable def eF (nu : ℝ) : Ex := -(Ex.c ((1 - 2 * nu) / (3 * (1 - nu))) * (Ex.c 1 - Ex.v .N ^ 3) * Ex.v .iR) -
  Ex.v .N * (Ex.v .M ^ 2 * Ex.v .W - Ex.v .M * Ex.v .phi)
noncomputable def eUX (nu : ℝ) : Ex := Ex.v .x * eF nu
noncomputable def eUY (nu : ℝ) : Ex := Ex.v .y * eF nu

/-- Displacement along the depth. -/
noncomputable def eUZ (nu : ℝ) : Ex := Ex.v .phi - Ex.c (1 / 2) * (Ex.v .x ^ 2 + Ex.v .y ^ 2) * (Ex.v .phi - Ex.v .M * Ex.v .W) - Ex.v .z * Ex.v .N +
  Ex.v .z ^ 2 * Ex.v .phi + Ex.c (1 / (1 - nu)) * Ex.v .z * (Ex.v .N - Ex.v .z * Ex.v .phi)

/-- The displacement field. -/
noncomputable def hertzField (nu : ℝ) : Field := ⟨fun x y z => (eUX nu).eval x y z, fun x y z => (eUY nu).eval x y z, fun x y z => (eUZ nu).eval x y z⟩

theorem hooke_xx {nu x y z : ℝ} (hr : 0 < x ^ 2 + y ^ 2) (hz : 0 < z) (h1 : 1 - nu ≠ 0) : (Ex.c (1 - nu ^ 2) * (eUX nu).d .x - (eXX nu - Ex.c nu * (eYY nu + eZZ))).eval x y z = 0 := by
  refine ident hr hz _ fun m n p hm hn h1n hy hR hv => ?_
  have h1m : 1 + m ^ 2 ≠ 0 := by positivity
  have hs : m ^ 2 + n ^ 2 ≠ 0 := by positivity
  have hy3 : y ^ 3 = y * ((1 + m ^ 2) * (1 - n ^ 2) - x ^ 2) := by rw [← hy]; ring
  have hy4 : y ^ 4 = ((1 + m ^ 2) * (1 - n ^ 2) - x ^ 2) ^ 2 := by rw [← hy]; ring
  have hy5 : y ^ 5 = y * ((1 + m ^ 2) * (1 - n ^ 2) - x ^ 2) ^ 2 := by rw [← hy]; ring
  simp only [eXX, eYY, eZZ, eXY, eXZ, eYZ, eRR, eTT, eRZ, eUX, eUY, eUZ, eF, d_add, d_mul, d_sub, d_neg, d_pow, Ex.d, V.d, dM, dN, eval_add, eval_mul, eval_sub, eval_neg, eval_pow, Ex.eval, hv]
  norm_num
  field_simp
  ring_nf
  simp only [hy, hy3, hy4, hy5]
  ring

theorem hooke_yy {nu x y z : ℝ} (hr : 0 < x ^ 2 + y ^ 2) (hz : 0 < z) (h1 : 1 - nu ≠ 0) : (Ex.c (1 - nu ^ 2) * (eUY nu).d .y - (eYY nu - Ex.c nu * (eXX nu + eZZ))).eval x y z = 0 := by
  refine ident hr hz _ fun m n p hm hn h1n hy hR hv => ?_
  have h1m : 1 + m ^ 2 ≠ 0 := by positivity
  have hs : m ^ 2 + n ^ 2 ≠ 0 := by positivity
  have hy3 : y ^ 3 = y * ((1 + m ^ 2) * (1 - n ^ 2) - x ^ 2) := by rw [← hy]; ring
  have hy4 : y ^ 4 = ((1 + m ^ 2) * (1 - n ^ 2) - x ^ 2) ^ 2 := by rw [← hy]; ring
  have hy5 : y ^ 5 = y * ((1 + m ^ 2) * (1 - n ^ 2) - x ^ 2) ^ 2 := by rw [← hy]; ring
  simp only [eXX, eYY, eZZ, eXY, eXZ, eYZ, eRR, eTT, eRZ, eUX, eUY, eUZ, eF, d_add, d_mul, d_sub, d_neg, d_pow, Ex.d, V.d, dM, dN, eval_add, eval_mul, eval_sub, eval_neg, eval_pow, Ex.eval, hv]
  norm_num
  field_simp
  ring_nf
  simp only [hy, hy3, hy4, hy5]
  ring

theorem hooke_zz {nu x y z : ℝ} (hr : 0 < x ^ 2 + y ^ 2) (hz : 0 < z) (h1 : 1 - nu ≠ 0) : (Ex.c (1 - nu ^ 2) * (eUZ nu).d .z - (eZZ - Ex.c nu * (eXX nu + eYY nu))).eval x y z = 0 := by
  refine ident hr hz _ fun m n p hm hn h1n hy hR hv => ?_
  have h1m : 1 + m ^ 2 ≠ 0 := by positivity
  have hs : m ^ 2 + n ^ 2 ≠ 0 := by positivity
  have hy3 : y ^ 3 = y * ((1 + m ^ 2) * (1 - n ^ 2) - x ^ 2) := by rw [← hy]; ring
  have hy4 : y ^ 4 = ((1 + m ^ 2) * (1 - n ^ 2) - x ^ 2) ^ 2 := by rw [← hy]; ring
  have hy5 : y ^ 5 = y * ((1 + m ^ 2) * (1 - n ^ 2) - x ^ 2) ^ 2 := by rw [← hy]; ring
  simp only [eXX, eYY, eZZ, eXY, eXZ, eYZ, eRR, eTT, eRZ, eUX, eUY, eUZ, eF, d_add, d_mul, d_sub, d_neg, d_pow, Ex.d, V.d, dM, dN, eval_add, eval_mul, eval_sub, eval_neg, eval_pow, Ex.eval, hv]
  norm_num
  field_simp
  ring_nf
  simp only [hy, hy3, hy4, hy5]
  ring

theorem hooke_xy {nu x y z : ℝ} (hr : 0 < x ^ 2 + y ^ 2) (hz : 0 < z) (h1 : 1 - nu ≠ 0) : (Ex.c (1 - nu ^ 2) * (Ex.c (1 / 2) * ((eUX nu).d .y + (eUY nu).d .x)) - Ex.c (1 + nu) * eXY nu).eval x y z = 0 := by
  refine ident hr hz _ fun m n p hm hn h1n hy hR hv => ?_
  have h1m : 1 + m ^ 2 ≠ 0 := by positivity
  have hs : m ^ 2 + n ^ 2 ≠ 0 := by positivity
  have hy3 : y ^ 3 = y * ((1 + m ^ 2) * (1 - n ^ 2) - x ^ 2) := by rw [← hy]; ring
  have hy4 : y ^ 4 = ((1 + m ^ 2) * (1 - n ^ 2) - x ^ 2) ^ 2 := by rw [← hy]; ring
  have hy5 : y ^ 5 = y * ((1 + m ^ 2) * (1 - n ^ 2) - x ^ 2) ^ 2 := by rw [← hy]; ring
  simp only [eXX, eYY, eZZ, eXY, eXZ, eYZ, eRR, eTT, eRZ, eUX, eUY, eUZ, eF, d_add, d_mul, d_sub, d_neg, d_pow, Ex.d, V.d, dM, dN, eval_add, eval_mul, eval_sub, eval_neg, eval_pow, Ex.eval, hv]
  norm_num
  field_simp
  ring

theorem hooke_xz {nu x y z : ℝ} (hr : 0 < x ^ 2 + y ^ 2) (hz : 0 < z) (h1 : 1 - nu ≠ 0) : (Ex.c (1 - nu ^ 2) * (Ex.c (1 / 2) * ((eUX nu).d .z + (eUZ nu).d .x)) - Ex.c (1 + nu) * eXZ).eval x y z = 0 := by
  refine ident hr hz _ fun m n p hm hn h1n hy hR hv => ?_
  have h1m : 1 + m ^ 2 ≠ 0 := by positivity
  have hs : m ^ 2 + n ^ 2 ≠ 0 := by positivity
  have hy3 : y ^ 3 = y * ((1 + m ^ 2) * (1 - n ^ 2) - x ^ 2) := by rw [← hy]; ring
  have hy4 : y ^ 4 = ((1 + m ^ 2) * (1 - n ^ 2) - x ^ 2) ^ 2 := by rw [← hy]; ring
  have hy5 : y ^ 5 = y * ((1 + m ^ 2) * (1 - n ^ 2) - x ^ 2) ^ 2 := by rw [← hy]; ring
  simp only [eXX, eYY, eZZ, eXY, eXZ, eYZ, eRR, eTT, eRZ, eUX, eUY, eUZ, eF, d_add, d_mul, d_sub, d_neg, d_pow, Ex.d, V.d, dM, dN, eval_add, eval_mul, eval_sub, eval_neg, eval_pow, Ex.eval, hv]
  norm_num
  field_simp
  ring_nf
  simp only [hy, hy3, hy4, hy5]
  ring

theorem hooke_yz {nu x y z : ℝ} (hr : 0 < x ^ 2 + y ^ 2) (hz : 0 < z) (h1 : 1 - nu ≠ 0) : (Ex.c (1 - nu ^ 2) * (Ex.c (1 / 2) * ((eUY nu).d .z + (eUZ nu).d .y)) - Ex.c (1 + nu) * eYZ).eval x y z = 0 := by
  refine ident hr hz _ fun m n p hm hn h1n hy hR hv => ?_
  have h1m : 1 + m ^ 2 ≠ 0 := by positivity
  have hs : m ^ 2 + n ^ 2 ≠ 0 := by positivity
  have hy3 : y ^ 3 = y * ((1 + m ^ 2) * (1 - n ^ 2) - x ^ 2) := by rw [← hy]; ring
  have hy4 : y ^ 4 = ((1 + m ^ 2) * (1 - n ^ 2) - x ^ 2) ^ 2 := by rw [← hy]; ring
  have hy5 : y ^ 5 = y * ((1 + m ^ 2) * (1 - n ^ 2) - x ^ 2) ^ 2 := by rw [← hy]; ring
  simp only [eXX, eYY, eZZ, eXY, eXZ, eYZ, eRR, eTT, eRZ, eUX, eUY, eUZ, eF, d_add, d_mul, d_sub, d_neg, d_pow, Ex.d, V.d, dM, dN, eval_add, eval_mul, eval_sub, eval_neg, eval_pow, Ex.eval, hv]
  norm_num
  field_simp
  ring_nf
  simp only [hy, hy3, hy4, hy5]
  ring

theorem hooke {nu x y z : ℝ} (h1 : 1 - nu ≠ 0) (hr : 0 < x ^ 2 + y ^ 2) (hz : 0 < z) : Hooke nu (hertzField nu) (cartesian nu) x y z := by
  have ux := comp_deriv (f := (hertzField nu).ux) (e := eUX nu) (fun _ _ _ _ _ => rfl) hr hz
  have uy := comp_deriv (f := (hertzField nu).uy) (e := eUY nu) (fun _ _ _ _ _ => rfl) hr hz
  have uz := comp_deriv (f := (hertzField nu).uz) (e := eUZ nu) (fun _ _ _ _ _ => rfl) hr hz
  obtain ⟨g1, g2, g3, g4, g5, g6⟩ := cart_form (nu := nu) hr hz
  refine ⟨_, _, _, _, _, _, _, _, _, ux.1, ux.2.1, ux.2.2, uy.1, uy.2.1, uy.2.2, uz.1, uz.2.1, uz.2.2, ?_, ?_, ?_, ?_, ?_, ?_⟩
  · have := hooke_xx hr hz h1
    simp only [eval_sub, eval_mul, eval_add, Ex.eval] at this
    rw [g1, g2, g3]; linarith
  · have := hooke_yy hr hz h1
    simp only [eval_sub, eval_mul, eval_add, Ex.eval] at this
    rw [g1, g2, g3]; linarith
  · have := hooke_zz hr hz h1
    simp only [eval_sub, eval_mul, eval_add, Ex.eval] at this
    rw [g1, g2, g3]; linarith
  · have := hooke_xy hr hz h1
    simp only [eval_sub, eval_mul, eval_add, Ex.eval] at this
    rw [g6]; linarith
  · have := hooke_xz hr hz h1
    simp only [eval_sub, eval_mul, eval_add, Ex.eval] at this
    rw [g5]; linarith
  · have := hooke_yz hr hz h1
    simp only [eval_sub, eval_mul, eval_add, Ex.eval] at this
    rw [g4]; linarith

/-! ## Boundary values -/

theorem arctan2one_eq {m : ℝ} (hm : 0 ≤ m) : arctan2one m = π / 2 - arctan m := by
  rcases hm.eq_or_lt with h | h
  · rw [← h]; simp [arctan2one]
  · rw [arctan2one_pos h, one_div, arctan_inv_of_pos h]

/-- Variables other than `1/S` are continuous down to the surface, and `1/S` off the contact edge. -/
theorem V_cont {x y : ℝ} (a : V) (h : a = .iS → x ^ 2 + y ^ 2 ≠ 1) : ContinuousAt (fun t => a.val x y t) 0 := by
  have hA : Continuous fun t => hamA (x ^ 2 + y ^ 2) t := by unfold hamA; fun_prop
  have hS : Continuous fun t => hamS (x ^ 2 + y ^ 2) t := by unfold hamS; fun_prop
  have hM : Continuous fun t => hamM (x ^ 2 + y ^ 2) t := by unfold hamM; fun_prop
  have hN : Continuous fun t => hamN (x ^ 2 + y ^ 2) t := by unfold hamN; fun_prop
  cases a with
  | x => exact continuousAt_const
  | y => exact continuousAt_const
  | z => exact continuousAt_id
  | M => exact hM.continuousAt
  | N => exact hN.continuousAt
  | iS => exact hS.continuousAt.inv₀ (nondeg_S le_rfl (fun hc => h rfl hc.1)).ne'
  | iR => exact continuousAt_const
  | W =>
    refine ContinuousAt.inv₀ (by fun_prop) ?_
    positivity
  | phi =>
    have : (fun t => V.phi.val x y t) = fun t => π / 2 - arctan (hamM (x ^ 2 + y ^ 2) t) := by
      funext t; exact arctan2one_eq (hamM_nonneg _ _)
    rw [this]
    exact (continuous_const.sub (continuous_arctan.comp hM)).continuousAt

/-- Does the expression mention `1/S`? -/
def Ex.hasS : Ex → Prop
  | .v a => a = .iS
  | .c _ => False
  | .add a b => a.hasS ∨ b.hasS
  | .mul a b => a.hasS ∨ b.hasS
  | .sub a b => a.hasS ∨ b.hasS
  | .neg a => a.hasS
  | .pow a _ => a.hasS

theorem Ex_cont {x y : ℝ} (e : Ex) (h : e.hasS → x ^ 2 + y ^ 2 ≠ 1) : ContinuousAt (fun t => e.eval x y t) 0 := by
  induction e with
  | v a => exact V_cont a h
  | c q => exact continuousAt_const
  | add a b ha hb => exact (ha fun k => h (Or.inl k)).add (hb fun k => h (Or.inr k))
  | mul a b ha hb => exact (ha fun k => h (Or.inl k)).mul (hb fun k => h (Or.inr k))
  | sub a b ha hb => exact (ha fun k => h (Or.inl k)).sub (hb fun k => h (Or.inr k))
  | neg a ha => exact (ha h).neg
  | pow a n ha => exact (ha h).pow n

/-- The coordinates on the surface. -/
theorem surface_coords {x y : ℝ} : hamM (x ^ 2 + y ^ 2) 0 = √(x ^ 2 + y ^ 2 - 1) ∧ hamN (x ^ 2 + y ^ 2) 0 = √(1 - (x ^ 2 + y ^ 2)) := by
  rcases le_total (x ^ 2 + y ^ 2) 1 with h | h
  · have h0 : √(x ^ 2 + y ^ 2 - 1) = 0 := sqrt_eq_zero_of_nonpos (by linarith)
    rw [h0]
    exact ham_unique le_rfl (sqrt_nonneg _) (by ring) (by rw [sq_sqrt (by linarith)]; ring)
  · have h0 : √(1 - (x ^ 2 + y ^ 2)) = 0 := sqrt_eq_zero_of_nonpos (by linarith)
    rw [h0]
    exact ham_unique (sqrt_nonneg _) le_rfl (by ring) (by rw [sq_sqrt (by linarith)]; ring)

theorem uz_surface {nu x y : ℝ} (hr : 0 < x ^ 2 + y ^ 2) : (eUZ nu).eval x y 0 = -surfaceDisp √(x ^ 2 + y ^ 2) := by
  have hq : √(x ^ 2 + y ^ 2) ^ 2 = x ^ 2 + y ^ 2 := sq_sqrt hr.le
  have hq0 : 0 < √(x ^ 2 + y ^ 2) := sqrt_pos.mpr hr
  simp only [eUZ, eval_add, eval_mul, eval_sub, eval_neg, eval_pow, Ex.eval, V.val, surface_coords]
  by_cases h : x ^ 2 + y ^ 2 < 1
  · have h1 : √(x ^ 2 + y ^ 2) < 1 := by nlinarith
    have h0 : √(x ^ 2 + y ^ 2 - 1) = 0 := sqrt_eq_zero_of_nonpos (by linarith)
    unfold surfaceDisp
    rw [if_pos h1, hq, h0]
    simp only [arctan2one, if_true]; ring
  · have h := not_lt.mp h
    have h1 : 1 ≤ √(x ^ 2 + y ^ 2) := by nlinarith
    rw [surfaceDisp_out h1, hq, sq_sqrt (by linarith)]
    have hphi : arctan2one √(x ^ 2 + y ^ 2 - 1) = arcsin (1 / √(x ^ 2 + y ^ 2)) := by
      rcases h.eq_or_lt with he | hl
      · rw [← he]; simp [arctan2one]
      · have hp : 0 < √(x ^ 2 + y ^ 2 - 1) := sqrt_pos.mpr (by linarith)
        have hl1 : 1 < √(x ^ 2 + y ^ 2) := by nlinarith
        have h00 : 0 < 1 / √(x ^ 2 + y ^ 2) := by positivity
        have hm : 1 / √(x ^ 2 + y ^ 2) ∈ Set.Ioo (-1 : ℝ) 1 := ⟨by linarith, by rw [div_lt_one hq0]; exact hl1⟩
        rw [arctan2one_pos hp, arcsin_eq_arctan hm]
        congr 1
        have : √(1 - (1 / √(x ^ 2 + y ^ 2)) ^ 2) = √(x ^ 2 + y ^ 2 - 1) / √(x ^ 2 + y ^ 2) := by
          rw [div_pow, hq, ← sqrt_div (by linarith)]; congr 1; field_simp
        rw [this]; field_simp
    rw [hphi]; field_simp; ring

/-! ## Decay -/

theorem arctan_lower {t : ℝ} (ht : 0 ≤ t) : t / (1 + t ^ 2) ≤ arctan t := by
  have hm : MonotoneOn (fun t : ℝ => arctan t - t / (1 + t ^ 2)) (Set.Ici 0) := by
    refine monotoneOn_of_deriv_nonneg (convex_Ici 0) ?_ ?_ ?_
    · refine Continuous.continuousOn ?_
      refine continuous_arctan.sub (continuous_id.div (by fun_prop) fun t => by positivity)
    · intro t _
      refine DifferentiableAt.differentiableWithinAt ?_
      exact differentiable_arctan.differentiableAt.sub (differentiableAt_id.div (by fun_prop) (by positivity))
    · intro t _
      have h1 : (1 + t ^ 2) ≠ 0 := by positivity
      have hd := (hasDerivAt_arctan t).sub ((hasDerivAt_id t).div ((hasDerivAt_pow 2 t).const_add 1) h1)
      have e : deriv (fun t : ℝ => arctan t - t / (1 + t ^ 2)) t = _ := hd.deriv
      rw [e]
      have : 1 / (1 + t ^ 2) - (1 * (1 + t ^ 2) - id t * (((2 : ℕ) : ℝ) * t ^ (2 - 1))) / (1 + t ^ 2) ^ 2 = 2 * t ^ 2 / (1 + t ^ 2) ^ 2 := by
        norm_num; field_simp; ring
      rw [this]; positivity
  have := hm (Set.mem_Ici.mpr le_rfl) (Set.mem_Ici.mpr ht) ht
  simp at this; linarith

theorem arctan_upper {t : ℝ} (ht : 0 ≤ t) : arctan t ≤ t := by
  have hm : MonotoneOn (fun t : ℝ => t - arctan t) (Set.Ici 0) := by
    refine monotoneOn_of_deriv_nonneg (convex_Ici 0) ?_ ?_ ?_
    · exact (continuous_id.sub continuous_arctan).continuousOn
    · intro t _
      exact (differentiableAt_id.sub differentiable_arctan.differentiableAt).differentiableWithinAt
    · intro t _
      have hd := (hasDerivAt_id t).sub (hasDerivAt_arctan t)
      have e : deriv (fun t : ℝ => t - arctan t) t = _ := hd.deriv
      rw [e]
      have : 1 / (1 + t ^ 2) ≤ 1 := by rw [div_le_one (by positivity)]; nlinarith [sq_nonneg t]
      linarith
  have := hm (Set.mem_Ici.mpr le_rfl) (Set.mem_Ici.mpr ht) ht
  simp at this; linarith

theorem phi_bounds {m : ℝ} (hm : 0 < m) : m / (1 + m ^ 2) ≤ arctan2one m ∧ arctan2one m ≤ 1 / m := by
  rw [arctan2one_pos hm]
  constructor
  · have := arctan_lower (t := 1 / m) (by positivity)
    refine le_trans (le_of_eq ?_) this
    field_simp; ring
  · have : 0 < 1 / m := by positivity
    exact arctan_upper this.le

/-- Everything decays like `1 / M`. -/
theorem field_bound {nu x y z : ℝ} (hr : 0 < x ^ 2 + y ^ 2) (hz : 0 < z) :
    |(eUX nu).eval x y z| ≤ (3 * |(1 - 2 * nu) / (3 * (1 - nu))| + 1) / hamM (x ^ 2 + y ^ 2) z ∧
    |(eUY nu).eval x y z| ≤ (3 * |(1 - 2 * nu) / (3 * (1 - nu))| + 1) / hamM (x ^ 2 + y ^ 2) z ∧
    |(eUZ nu).eval x y z| ≤ (3 + |1 / (1 - nu)|) / hamM (x ^ 2 + y ^ 2) z := by
  obtain ⟨m, n, hM, hN, hm, hn, hn1, hs, rfl, hy, hS, hA, hR, hpos⟩ := coords hr hz.le (off_edge hz)
  obtain ⟨hm0, hn0⟩ := hpos hz
  obtain ⟨p1, p2⟩ := phi_bounds hm0
  rw [hM]
  simp only [eUX, eUY, eUZ, eF, eval_add, eval_mul, eval_sub, eval_neg, eval_pow, Ex.eval, V.val, hM, hN]
  simp only [hR]
  generalize arctan2one m = p at *
  have h1m : 0 < 1 + m ^ 2 := by positivity
  have h1n : 0 < 1 - n ^ 2 := by nlinarith
  have hmp : m * p ≤ 1 := by
    calc m * p ≤ m * (1 / m) := by gcongr
      _ = 1 := by field_simp
  have hmp' : m ^ 2 * (1 + m ^ 2)⁻¹ ≤ m * p := by
    calc m ^ 2 * (1 + m ^ 2)⁻¹ = m * (m / (1 + m ^ 2)) := by field_simp
      _ ≤ m * p := by gcongr
  have hW : 1 - m ^ 2 * (1 + m ^ 2)⁻¹ = (1 + m ^ 2)⁻¹ := by field_simp; ring
  -- the common factor of the in-plane components
  have hf : ∀ w, w ^ 2 ≤ x ^ 2 + y ^ 2 → |w * (-((1 - 2 * nu) / (3 * (1 - nu)) * (1 - n ^ 3) * ((1 + m ^ 2) * (1 - n ^ 2))⁻¹) -
      n * (m ^ 2 * (1 + m ^ 2)⁻¹ - m * p))| ≤ (3 * |(1 - 2 * nu) / (3 * (1 - nu))| + 1) / m := by
    intro w hw
    have hwm : |w| ≤ (1 + m ^ 2) / m := by
      refine abs_le_of_sq_le_sq ?_ (by positivity)
      rw [hR] at hw
      have : (1 + m ^ 2) * (1 - n ^ 2) ≤ 1 + m ^ 2 := by nlinarith [mul_nonneg h1m.le (sq_nonneg n)]
      refine le_trans (hw.trans this) ?_
      rw [div_pow, le_div_iff₀ (by positivity)]
      nlinarith [sq_nonneg m]
    have e1 : (1 - n ^ 3) * ((1 + m ^ 2) * (1 - n ^ 2))⁻¹ ≤ 3 * (1 + m ^ 2)⁻¹ := by
      rw [mul_inv, mul_comm ((1 + m ^ 2)⁻¹), ← mul_assoc]
      refine mul_le_mul_of_nonneg_right ?_ (by positivity)
      rw [← div_eq_mul_inv, div_le_iff₀ h1n]; nlinarith [mul_nonneg hn (sub_nonneg.mpr hn1.le), mul_nonneg (mul_nonneg hn hn) (sub_nonneg.mpr hn1.le)]
    have e0 : 0 ≤ (1 - n ^ 3) * ((1 + m ^ 2) * (1 - n ^ 2))⁻¹ := by
      have : 0 ≤ 1 - n ^ 3 := by nlinarith [mul_nonneg hn (sub_nonneg.mpr hn1.le), mul_nonneg (mul_nonneg hn hn) (sub_nonneg.mpr hn1.le)]
      positivity
    have e2 : |n * (m ^ 2 * (1 + m ^ 2)⁻¹ - m * p)| ≤ (1 + m ^ 2)⁻¹ := by
      rw [abs_mul, abs_of_nonneg hn, abs_sub_comm, abs_of_nonneg (by linarith)]
      have : m * p - m ^ 2 * (1 + m ^ 2)⁻¹ ≤ (1 + m ^ 2)⁻¹ := by linarith
      calc n * (m * p - m ^ 2 * (1 + m ^ 2)⁻¹) ≤ 1 * (1 + m ^ 2)⁻¹ := mul_le_mul hn1.le this (by linarith) zero_le_one
        _ = _ := one_mul _
    rw [abs_mul]
    have e3 : |-((1 - 2 * nu) / (3 * (1 - nu)) * (1 - n ^ 3) * ((1 + m ^ 2) * (1 - n ^ 2))⁻¹) - n * (m ^ 2 * (1 + m ^ 2)⁻¹ - m * p)| ≤
        (3 * |(1 - 2 * nu) / (3 * (1 - nu))| + 1) * (1 + m ^ 2)⁻¹ := by
      refine (abs_sub _ _).trans ?_
      rw [abs_neg, mul_assoc, abs_mul, abs_of_nonneg e0]
      have := mul_le_mul_of_nonneg_left e1 (abs_nonneg ((1 - 2 * nu) / (3 * (1 - nu))))
      nlinarith
    calc _ ≤ (1 + m ^ 2) / m * ((3 * |(1 - 2 * nu) / (3 * (1 - nu))| + 1) * (1 + m ^ 2)⁻¹) := mul_le_mul hwm e3 (abs_nonneg _) (by positivity)
      _ = _ := by field_simp
  refine ⟨hf x (by nlinarith [sq_nonneg y]), hf y (by nlinarith [sq_nonneg x]), ?_⟩
  have hp0 : 0 ≤ p := le_trans (by positivity) p1
  have a1 : |p| ≤ 1 / m := by rw [abs_of_nonneg hp0]; exact p2
  have a2 : |1 / 2 * ((1 + m ^ 2) * (1 - n ^ 2)) * (p - m * (1 + m ^ 2)⁻¹)| ≤ 1 / m := by
    have h0 : 0 ≤ p - m * (1 + m ^ 2)⁻¹ := by rw [← div_eq_mul_inv]; linarith
    rw [abs_of_nonneg (by positivity)]
    have h1 : p - m * (1 + m ^ 2)⁻¹ ≤ 1 / m * (1 + m ^ 2)⁻¹ := by
      have : 1 / m * (1 + m ^ 2)⁻¹ = 1 / m - m * (1 + m ^ 2)⁻¹ := by field_simp; ring
      rw [this]; linarith
    calc 1 / 2 * ((1 + m ^ 2) * (1 - n ^ 2)) * (p - m * (1 + m ^ 2)⁻¹) ≤ 1 * ((1 + m ^ 2) * 1) * (1 / m * (1 + m ^ 2)⁻¹) := by
          gcongr
          · norm_num
          · nlinarith [sq_nonneg n]
      _ = 1 / m := by field_simp
  have b0 : 0 ≤ 1 - m * p := by linarith
  have b1 : 1 - m * p ≤ (1 + m ^ 2)⁻¹ := by rw [← hW]; linarith
  have a3 : |m * n * n * (1 - m * p)| ≤ 1 / m := by
    rw [abs_of_nonneg (by positivity)]
    calc m * n * n * (1 - m * p) ≤ m * 1 * 1 * (1 + m ^ 2)⁻¹ := by gcongr
      _ ≤ 1 / m := by rw [← div_eq_mul_inv, div_le_div_iff₀ h1m hm0]; nlinarith
  have e : p - 1 / 2 * ((1 + m ^ 2) * (1 - n ^ 2)) * (p - m * (1 + m ^ 2)⁻¹) - m * n * n + (m * n) ^ 2 * p + 1 / (1 - nu) * (m * n) * (n - m * n * p) =
      p - 1 / 2 * ((1 + m ^ 2) * (1 - n ^ 2)) * (p - m * (1 + m ^ 2)⁻¹) - m * n * n * (1 - m * p) + 1 / (1 - nu) * (m * n * n * (1 - m * p)) := by ring
  have hR' : x ^ 2 + y ^ 2 = (1 + m ^ 2) * (1 - n ^ 2) := hR
  rw [e]
  have c1 := abs_add_le (p - 1 / 2 * ((1 + m ^ 2) * (1 - n ^ 2)) * (p - m * (1 + m ^ 2)⁻¹) - m * n * n * (1 - m * p)) (1 / (1 - nu) * (m * n * n * (1 - m * p)))
  have c2 := abs_sub (p - 1 / 2 * ((1 + m ^ 2) * (1 - n ^ 2)) * (p - m * (1 + m ^ 2)⁻¹)) (m * n * n * (1 - m * p))
  have c3 := abs_sub p (1 / 2 * ((1 + m ^ 2) * (1 - n ^ 2)) * (p - m * (1 + m ^ 2)⁻¹))
  have c4 : |1 / (1 - nu) * (m * n * n * (1 - m * p))| ≤ |1 / (1 - nu)| * (1 / m) := by
    rw [abs_mul]; exact mul_le_mul_of_nonneg_left a3 (abs_nonneg _)
  calc _ ≤ 1 / m + 1 / m + 1 / m + |1 / (1 - nu)| * (1 / m) := by linarith
    _ = _ := by field_simp; ring

/-- Far from the contact, `M` is large. -/
theorem hamM_far {x y z : ℝ} : x ^ 2 + y ^ 2 + z ^ 2 - 1 ≤ hamM (x ^ 2 + y ^ 2) z ^ 2 := by
  have h := hamA_eq (x ^ 2 + y ^ 2) z
  unfold hamA at h
  nlinarith [sq_nonneg (hamN (x ^ 2 + y ^ 2) z)]

/-- **C130** For every Poisson number but one the interior stress is the elastic response of a half-space to the Hertz pressure: there is a
displacement field that gives the stress by Hooke's law at every point off the axis, the stress is in balance there, the displacement tends to
zero far away, at the surface the stress tends to the Hertz pressure `√(1 - r²)` (zero outside the contact) without shear, and the normal
displacement tends to minus the value of `surface_displacements` (which counts upwards). -/
theorem C130_elastic {nu : ℝ} (h1 : nu ≠ 1) : ∃ u : Field,
    (∀ x y z, 0 < x ^ 2 + y ^ 2 → 0 < z → Hooke nu u (cartesian nu) x y z ∧ Balanced (cartesian nu) x y z) ∧
    (∀ ε > 0, ∃ ρ, ∀ x y z, 0 < x ^ 2 + y ^ 2 → 0 < z → ρ ≤ x ^ 2 + y ^ 2 + z ^ 2 → |u.ux x y z| ≤ ε ∧ |u.uy x y z| ≤ ε ∧ |u.uz x y z| ≤ ε) ∧
    (∀ x y, 0 < x ^ 2 + y ^ 2 → Filter.Tendsto (fun z => u.uz x y z) (nhdsWithin 0 (Set.Ioi 0)) (nhds (-surfaceDisp √(x ^ 2 + y ^ 2)))) ∧
    (∀ x y, 0 < x ^ 2 + y ^ 2 → x ^ 2 + y ^ 2 ≠ 1 →
      Filter.Tendsto (fun z => (cartesian nu x y z).zz) (nhdsWithin 0 (Set.Ioi 0)) (nhds (-√(1 - (x ^ 2 + y ^ 2)))) ∧
      Filter.Tendsto (fun z => (cartesian nu x y z).xz) (nhdsWithin 0 (Set.Ioi 0)) (nhds 0) ∧
      Filter.Tendsto (fun z => (cartesian nu x y z).yz) (nhdsWithin 0 (Set.Ioi 0)) (nhds 0)) := by
  have h1' : 1 - nu ≠ 0 := sub_ne_zero.mpr (Ne.symm h1)
  refine ⟨hertzField nu, fun x y z hr hz => ⟨hooke h1' hr hz, balanced hr hz⟩, ?_, ?_, ?_⟩
  · intro ε hε
    set C := max (3 * |(1 - 2 * nu) / (3 * (1 - nu))| + 1) (3 + |1 / (1 - nu)|) with hC
    have hC0 : 0 < C := lt_max_of_lt_left (by positivity)
    refine ⟨(C / ε) ^ 2 + 1, fun x y z hr hz hρ => ?_⟩
    have hm := hamM_far (x := x) (y := y) (z := z)
    have hm0 := hamM_pos (r2 := x ^ 2 + y ^ 2) hz
    have hle : C / ε ≤ hamM (x ^ 2 + y ^ 2) z := by
      have : (C / ε) ^ 2 ≤ hamM (x ^ 2 + y ^ 2) z ^ 2 := by linarith
      exact abs_le_of_sq_le_sq' this hm0.le |>.2
    have hb : C / hamM (x ^ 2 + y ^ 2) z ≤ ε := by
      rw [div_le_iff₀ hm0]; rw [div_le_iff₀ hε] at hle; linarith
    obtain ⟨b1, b2, b3⟩ := field_bound (nu := nu) hr hz
    refine ⟨b1.trans (le_trans ?_ hb), b2.trans (le_trans ?_ hb), b3.trans (le_trans ?_ hb)⟩
    · exact div_le_div_of_nonneg_right (le_max_left _ _) hm0.le
    · exact div_le_div_of_nonneg_right (le_max_left _ _) hm0.le
    · exact div_le_div_of_nonneg_right (le_max_right _ _) hm0.le
  · intro x y hr
    have h := (Ex_cont (x := x) (y := y) (eUZ nu) (fun hc => by
      exfalso; revert hc; simp only [eUZ, HAdd.hAdd, HSub.hSub, HMul.hMul, HPow.hPow, Add.add, Sub.sub, Mul.mul, Pow.pow, Ex.hasS]; simp
      exact ⟨⟨fun h => absurd (show V.x = V.iS from h) (by simp), fun h => absurd (show V.y = V.iS from h) (by simp)⟩,
        fun h => absurd (show V.z = V.iS from h) (by simp)⟩)).tendsto
    rw [uz_surface hr] at h
    exact h.mono_left nhdsWithin_le_nhds
  · intro x y hr hne
    have key : ∀ e : Ex, ∀ f : ℝ → ℝ, (∀ z, 0 < z → f z = e.eval x y z) → Filter.Tendsto f (nhdsWithin 0 (Set.Ioi 0)) (nhds (e.eval x y 0)) := by
      intro e f hf
      have h := (Ex_cont (x := x) (y := y) e fun _ => hne).tendsto.mono_left (nhdsWithin_le_nhds (s := Set.Ioi 0))
      refine h.congr' ?_
      filter_upwards [self_mem_nhdsWithin] with t ht
      exact (hf t ht).symm
    have hS := hamS_eq (x ^ 2 + y ^ 2) 0
    have hS0 := nondeg_S (r2 := x ^ 2 + y ^ 2) (z := 0) le_rfl (fun hc => hne hc.1)
    obtain ⟨cM, cN⟩ := surface_coords (x := x) (y := y)
    have hMN : hamM (x ^ 2 + y ^ 2) 0 * hamN (x ^ 2 + y ^ 2) 0 = 0 := (ham_prod le_rfl).symm
    have z1 : eZZ.eval x y 0 = -√(1 - (x ^ 2 + y ^ 2)) := by
      simp only [eZZ, eval_mul, eval_neg, eval_pow, Ex.eval, V.val, ← cN]
      rcases mul_eq_zero.mp hMN with h | h
      · rw [hS, h]; rw [hS, h] at hS0
        have : hamN (x ^ 2 + y ^ 2) 0 ≠ 0 := fun hc => by rw [hc] at hS0; norm_num at hS0
        field_simp; norm_num
      · rw [h]; norm_num
    have z2 : eRZ.eval x y 0 = 0 := by
      simp only [eRZ, eval_mul, eval_neg, eval_pow, Ex.eval, V.val]
      have : hamN (x ^ 2 + y ^ 2) 0 ^ 2 * (hamS (x ^ 2 + y ^ 2) 0)⁻¹ * hamM (x ^ 2 + y ^ 2) 0 =
        hamM (x ^ 2 + y ^ 2) 0 * hamN (x ^ 2 + y ^ 2) 0 * (hamN (x ^ 2 + y ^ 2) 0 * (hamS (x ^ 2 + y ^ 2) 0)⁻¹) := by ring
      rw [this, hMN]; ring
    refine ⟨?_, ?_, ?_⟩
    · rw [← z1]; exact key _ _ fun z hz => (cart_form (nu := nu) hr hz).2.2.1
    · have : eXZ.eval x y 0 = 0 := by simp only [eXZ, eval_mul, Ex.eval]; rw [z2, mul_zero]
      have k := key eXZ (fun z => (cartesian nu x y z).xz) fun z hz => (cart_form (nu := nu) hr hz).2.2.2.2.1
      rwa [this] at k
    · have : eYZ.eval x y 0 = 0 := by simp only [eYZ, eval_mul, Ex.eval]; rw [z2, mul_zero]
      have k := key eYZ (fun z => (cartesian nu x y z).yz) fun z hz => (cart_form (nu := nu) hr hz).2.2.2.1
      rwa [this] at k

end CM.Ref.Hertz
