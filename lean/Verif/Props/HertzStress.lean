import Verif.Lemmas.Symbolic
import Verif.Props.Hertz
/-!
# Hertz: interior stresses (C89, C130)
-/
set_option linter.unusedSimpArgs false

namespace CM.Ref.Hertz

open Real

/-! ## Common form of both solutions -/

/-- Circumferential stress. -/
noncomputable def eTT (nu : ℝ) : Ex := -(Ex.c ((1 - 2 * nu) / 3) * (Ex.c 1 - Ex.v .N ^ 3) * Ex.v .iR +
  Ex.v .N * (Ex.c (2 * nu) + Ex.c (1 - nu) * Ex.v .M ^ 2 * Ex.v .W - Ex.c (1 + nu) * Ex.v .M * Ex.v .phi))

/-- Radial stress. -/
noncomputable def eRR (nu : ℝ) : Ex := Ex.c ((1 - 2 * nu) / 3) * (Ex.c 1 - Ex.v .N ^ 3) * Ex.v .iR + Ex.v .N ^ 3 * Ex.v .iS +
  Ex.v .N * (Ex.c (1 - nu) * Ex.v .M ^ 2 * Ex.v .W + Ex.c (1 + nu) * Ex.v .M * Ex.v .phi - Ex.c 2)

/-- Normal stress. -/
noncomputable def eZZ : Ex := -(Ex.v .N ^ 3 * Ex.v .iS)

/-- Shear stress divided by the distance from the axis. -/
noncomputable def eRZ : Ex := -(Ex.v .N ^ 2 * Ex.v .iS * Ex.v .M * Ex.v .W)

theorem nondeg_S {r2 z : ℝ} (hz : 0 ≤ z) (h : ¬ (r2 = 1 ∧ z = 0)) : 0 < hamS r2 z := by
  refine lt_of_le_of_ne (sqrt_nonneg _) fun hc => h ?_
  have h1 := hamS_sq r2 z
  have h2 : hamS r2 z = 0 := hc.symm
  rw [h2] at h1
  have h3 : z = 0 := by nlinarith [sq_nonneg (hamA r2 z), sq_nonneg z]
  refine ⟨?_, h3⟩
  unfold hamA at h1; rw [h3] at h1; nlinarith [sq_nonneg (r2 + 0 ^ 2 - 1)]

/-- Replaces the quantities of the code by the two coordinates. -/
theorem coords {x y z : ℝ} (hr : 0 < x ^ 2 + y ^ 2) (hz : 0 ≤ z) (h : ¬ (x ^ 2 + y ^ 2 = 1 ∧ z = 0)) :
    ∃ m n : ℝ, hamM (x ^ 2 + y ^ 2) z = m ∧ hamN (x ^ 2 + y ^ 2) z = n ∧ 0 ≤ m ∧ 0 ≤ n ∧ n < 1 ∧ 0 < m ^ 2 + n ^ 2 ∧ z = m * n ∧
      y ^ 2 = (1 + m ^ 2) * (1 - n ^ 2) - x ^ 2 ∧ hamS (x ^ 2 + y ^ 2) z = m ^ 2 + n ^ 2 ∧ hamA (x ^ 2 + y ^ 2) z = m ^ 2 - n ^ 2 ∧
      x ^ 2 + y ^ 2 = (1 + m ^ 2) * (1 - n ^ 2) ∧ (0 < z → 0 < m ∧ 0 < n) :=
  ⟨_, _, rfl, rfl, hamM_nonneg _ _, hamN_nonneg _ _, hamN_lt_one hr hz, by rw [← hamS_eq]; exact nondeg_S hz h, ham_prod hz,
    by have := ham_r2 (r2 := x ^ 2 + y ^ 2) hz; linarith, hamS_eq _ _, hamA_eq _ _, ham_r2 hz, fun hz => ⟨hamM_pos hz, hamN_pos hz⟩⟩

theorem huber_form {nu r z : ℝ} (hr : 0 < r) (hz : 0 ≤ z) (h : ¬ (r ^ 2 = 1 ∧ z = 0)) :
    (stress nu r z).tt = (eTT nu).eval r 0 z ∧ (stress nu r z).rr = (eRR nu).eval r 0 z ∧ (stress nu r z).zz = eZZ.eval r 0 z ∧
    (stress nu r z).rz = r * eRZ.eval r 0 z := by
  have hr2 : 0 < r ^ 2 := by positivity
  have e0 : r ^ 2 + (0 : ℝ) ^ 2 = r ^ 2 := by ring
  have hW : 0 < 1 + hamM (r ^ 2) z ^ 2 := by positivity
  have hR : 0 < huberR r z := by unfold huberR; rw [huberU_eq]; positivity
  have hS := nondeg_S hz h
  have hS2 := hamS_eq (r ^ 2) z
  have hat : huberAt r z = hamM (r ^ 2) z * arctan2one (hamM (r ^ 2) z) := by
    unfold huberAt arctan2one; rw [sqrt_huberU]
    split_ifs with h0
    · rw [h0]; simp
    · rfl
  have hone : huberOne r z = (1 - hamN (r ^ 2) z ^ 3) * (1 + hamM (r ^ 2) z ^ 2) / r ^ 2 := by
    unfold huberOne; rw [if_pos hR, huberZ_eq hz, huberR_sq]; field_simp
  have hQ : huberQ r z = hamN (r ^ 2) z ^ 2 / hamS (r ^ 2) z := by
    unfold huberQ; rw [huberU_eq, huberZ_eq hz, ← hS2, if_pos hS]
  refine ⟨?_, ?_, ?_, ?_⟩
  · unfold stress eTT
    simp only [hat, hone, huberZ_eq hz, huberU_eq, eval_add, eval_mul, eval_sub, eval_neg, eval_pow, Ex.eval, V.val, e0]
    field_simp
  · unfold stress eRR
    simp only [hat, hone, hQ, huberZ_eq hz, huberU_eq, eval_add, eval_mul, eval_sub, eval_neg, eval_pow, Ex.eval, V.val, e0]
    field_simp
  · unfold stress eZZ
    simp only [hQ, huberZ_eq hz, eval_mul, eval_neg, eval_pow, Ex.eval, V.val, e0]
    field_simp
  · unfold stress eRZ
    simp only [hQ, sqrt_huberU, eval_mul, eval_neg, eval_pow, Ex.eval, V.val, e0]
    unfold huberR; rw [huberU_eq]
    have hq : √(1 + hamM (r ^ 2) z ^ 2) ^ 2 = 1 + hamM (r ^ 2) z ^ 2 := sq_sqrt hW.le
    have hq0 : 0 < √(1 + hamM (r ^ 2) z ^ 2) := sqrt_pos.mpr hW
    field_simp
    rw [hq]

/-- Value of the common form depends on `x² + y²` only. -/
theorem hamilton_form {nu x y z : ℝ} (hr : 0 < x ^ 2 + y ^ 2) (hz : 0 ≤ z) (h : ¬ (x ^ 2 + y ^ 2 = 1 ∧ z = 0)) :
    (cartesian nu x y z).xx = (x ^ 2 * (eRR nu).eval x y z + y ^ 2 * (eTT nu).eval x y z) / (x ^ 2 + y ^ 2) ∧
    (cartesian nu x y z).yy = (y ^ 2 * (eRR nu).eval x y z + x ^ 2 * (eTT nu).eval x y z) / (x ^ 2 + y ^ 2) ∧
    (cartesian nu x y z).zz = eZZ.eval x y z ∧
    (cartesian nu x y z).yz = y * eRZ.eval x y z ∧
    (cartesian nu x y z).xz = x * eRZ.eval x y z ∧
    (cartesian nu x y z).xy = x * y * ((eRR nu).eval x y z - (eTT nu).eval x y z) / (x ^ 2 + y ^ 2) := by
  obtain ⟨m, n, hM, hN, hm, hn, hn1, hs, rfl, hy, hS, hA, hR, -⟩ := coords hr hz h
  have hGH : hamG (m * n) m n ^ 2 + hamH (m * n) m n ^ 2 = (m ^ 2 + n ^ 2) * ((1 + n) ^ 2 * (1 + m ^ 2)) := by unfold hamG hamH; ring
  have hH : hamH (m * n) m n = m * (1 + n) ^ 2 := by unfold hamH; ring
  have h1n : 1 - n ^ 2 ≠ 0 := by nlinarith
  have h1m : 1 + m ^ 2 ≠ 0 := by positivity
  have hsne := hs.ne'
  have hn1' : 1 + n ≠ 0 := by positivity
  unfold cartesian offcenter
  rw [if_pos hr, hS, hA, hM, hN]
  simp only [hGH]
  simp only [hH, hS, hA, hM, hN, eRR, eTT, eZZ, eRZ, eval_add, eval_mul, eval_sub, eval_neg, eval_pow, Ex.eval, V.val]
  simp only [hR, hM, hN, hS, hA]
  simp only [hy]
  generalize arctan2one m = p
  refine ⟨?_, ?_, ?_, ?_, ?_, ?_⟩ <;> field_simp <;> ring

/-- The common form depends on the distance from the axis only. -/
theorem eval_axisym {x y z : ℝ} (nu : ℝ) :
    (eTT nu).eval √(x ^ 2 + y ^ 2) 0 z = (eTT nu).eval x y z ∧ (eRR nu).eval √(x ^ 2 + y ^ 2) 0 z = (eRR nu).eval x y z ∧
    eZZ.eval √(x ^ 2 + y ^ 2) 0 z = eZZ.eval x y z ∧ eRZ.eval √(x ^ 2 + y ^ 2) 0 z = eRZ.eval x y z := by
  have e : √(x ^ 2 + y ^ 2) ^ 2 + (0 : ℝ) ^ 2 = x ^ 2 + y ^ 2 := by rw [sq_sqrt (by positivity)]; ring
  refine ⟨?_, ?_, ?_, ?_⟩ <;> simp only [eRR, eTT, eZZ, eRZ, eval_add, eval_mul, eval_sub, eval_neg, eval_pow, Ex.eval, V.val, e]

/-- **C89** The two formulations of the interior stress agree at every point of the solid and of its surface, except on the contact edge: the
Cartesian components are the cylindrical components rotated. -/
theorem C89_cylindrical {nu x y z : ℝ} (hr : 0 < x ^ 2 + y ^ 2) (hz : 0 ≤ z) (h : ¬ (x ^ 2 + y ^ 2 = 1 ∧ z = 0)) :
    cartesian nu x y z = rotate (x / √(x ^ 2 + y ^ 2)) (y / √(x ^ 2 + y ^ 2)) (stress nu √(x ^ 2 + y ^ 2) z) := by
  have hq : √(x ^ 2 + y ^ 2) ^ 2 = x ^ 2 + y ^ 2 := sq_sqrt hr.le
  have hq0 : 0 < √(x ^ 2 + y ^ 2) := sqrt_pos.mpr hr
  obtain ⟨h1, h2, h3, h4⟩ := huber_form (nu := nu) hq0 hz (by rw [hq]; exact h)
  obtain ⟨g1, g2, g3, g4, g5, g6⟩ := hamilton_form (nu := nu) hr hz h
  obtain ⟨a1, a2, a3, a4⟩ := eval_axisym (x := x) (y := y) (z := z) nu
  rw [a1] at h1; rw [a2] at h2; rw [a3] at h3; rw [a4] at h4
  unfold rotate
  generalize stress nu √(x ^ 2 + y ^ 2) z = s at *
  generalize cartesian nu x y z = c at *
  obtain ⟨xx, yy, zz, yz, xz, xy⟩ := c
  simp only [div_pow, hq, h1, h2, h3, h4] at g1 g2 g3 g4 g5 g6 ⊢
  simp only [Cart.mk.injEq]
  refine ⟨by rw [g1]; field_simp, by rw [g2]; field_simp, g3, by rw [g4]; field_simp, by rw [g5]; field_simp, ?_⟩
  rw [g6, div_mul_div_comm, ← pow_two, hq]; ring

/-- **C89** On the axis the three formulations agree, at every depth. -/
theorem C89_axis {nu z : ℝ} (hz : 0 < z) :
    (stress nu 0 z).rr = (centerline nu z).1 ∧ (stress nu 0 z).tt = (centerline nu z).1 ∧ (stress nu 0 z).zz = (centerline nu z).2 ∧
    (stress nu 0 z).rz = 0 ∧ cartesian nu 0 0 z = ⟨(centerline nu z).1, (centerline nu z).1, (centerline nu z).2, 0, 0, 0⟩ := by
  have hMN := ham_unique (r2 := (0 : ℝ) ^ 2) (z := z) (m := z) (n := 1) hz.le zero_le_one (by ring) (by ring)
  have hu : huberU 0 z = z ^ 2 := by rw [huberU_eq, hMN.1]
  have hZ : huberZ 0 z = 1 := by rw [huberZ_eq hz.le, hMN.2]
  have hR : huberR 0 z = 0 := by unfold huberR; simp
  have hat : huberAt 0 z = z * arctan (1 / z) := by unfold huberAt; rw [hu, sqrt_sq hz.le]
  have hone : huberOne 0 z = 3 / 2 := by unfold huberOne; rw [hR, if_neg (lt_irrefl _)]
  have hQ : huberQ 0 z = 1 / (z ^ 2 + 1) := by unfold huberQ; rw [hu, hZ, if_pos (by positivity)]; norm_num
  have hz1 : 1 + z ^ 2 ≠ 0 := by positivity
  unfold stress centerline
  simp only [hu, hZ, hR, hat, hone, hQ]
  refine ⟨by field_simp; ring, by field_simp; ring, by field_simp; ring, by simp, ?_⟩
  unfold cartesian oncenter
  rw [if_neg (by norm_num), arctan2one_pos hz]
  simp only [Cart.mk.injEq, and_true, and_self]
  ring

example : (stress 0.3 0 1).zz = -1 / 2 := by
  rw [(C89_axis (nu := 0.3) one_pos).2.2.1]; unfold centerline; norm_num

/-- **C89** On the surface the interior solution has the stresses of `surface_stress` and no shear stress. -/
theorem C89_surface {nu r : ℝ} (hr : 1e-6 ≤ r) (h1 : r ≠ 1) :
    (stress nu r 0).zz = -(surfaceStress nu r).pz ∧ (stress nu r 0).rr = (surfaceStress nu r).sr ∧ (stress nu r 0).tt = (surfaceStress nu r).st ∧
    (stress nu r 0).rz = 0 := by
  have hr0 : 0 < r := by linarith [show (0 : ℝ) < 1e-6 by norm_num]
  have hne : ¬ (r ^ 2 = 1 ∧ (0 : ℝ) = 0) := by
    rintro ⟨h, -⟩; exact h1 (by nlinarith)
  obtain ⟨g1, g2, g3, g4⟩ := huber_form (nu := nu) hr0 le_rfl hne
  rw [g1, g2, g3, g4, surfaceStress_mid hr]
  have e0 : r ^ 2 + (0 : ℝ) ^ 2 = r ^ 2 := by ring
  simp only [eRR, eTT, eZZ, eRZ, eval_add, eval_mul, eval_sub, eval_neg, eval_pow, Ex.eval, V.val, e0]
  rcases lt_or_gt_of_ne h1 with hl | hl
  · have hq : 0 < 1 - r ^ 2 := by nlinarith
    have hs : √(1 - r ^ 2) ^ 2 = 1 - r ^ 2 := sq_sqrt hq.le
    have hs0 : 0 < √(1 - r ^ 2) := sqrt_pos.mpr hq
    obtain ⟨hM, hN⟩ := ham_unique (r2 := r ^ 2) (z := 0) (m := 0) (n := √(1 - r ^ 2)) le_rfl hs0.le (by ring) (by rw [hs]; ring)
    rw [hamS_eq, hM, hN]
    refine ⟨by field_simp; ring, by field_simp; ring, by field_simp; ring, by ring⟩
  · have hq : 0 < r ^ 2 - 1 := by nlinarith
    have hs : √(r ^ 2 - 1) ^ 2 = r ^ 2 - 1 := sq_sqrt hq.le
    have hs0 : 0 < √(r ^ 2 - 1) := sqrt_pos.mpr hq
    obtain ⟨hM, hN⟩ := ham_unique (r2 := r ^ 2) (z := 0) (m := √(r ^ 2 - 1)) (n := 0) hs0.le le_rfl (by ring) (by rw [hs]; ring)
    have h0 : √(1 - r ^ 2) = 0 := sqrt_eq_zero_of_nonpos (by linarith)
    rw [hamS_eq, hM, hN, h0]
    refine ⟨by ring, by field_simp; ring, by field_simp; ring, by ring⟩

end CM.Ref.Hertz
