import Verif.Props.HertzElastic
/-!
# Hertz: tangential loading (C131)
-/
set_option linter.unusedSimpArgs false
set_option maxRecDepth 20000

namespace CM.Ref.Hertz

open Real

/-- `A`, `S`, `r²` of the code as expressions. -/
noncomputable def eA : Ex := Ex.v .M ^ 2 - Ex.v .N ^ 2
noncomputable def eS : Ex := Ex.v .M ^ 2 + Ex.v .N ^ 2
noncomputable def eR : Ex := Ex.v .x ^ 2 + Ex.v .y ^ 2

section
local notation "X" => Ex.v V.x
local notation "Y" => Ex.v V.y
local notation "Z" => Ex.v V.z
local notation "MM" => Ex.v V.M
local notation "NN" => Ex.v V.N
local notation "P" => Ex.v V.phi
local notation "I" => Ex.v V.iR
local notation "J" => Ex.v V.iS

noncomputable def tXX (nu : ℝ) : Ex := Ex.c (-(nu/4+1))*X*P+X*MM*I^2*((Ex.c (3/2)-Ex.c 2*X^2*I)*(eS*Ex.c nu-Ex.c (2*nu)*eA+Z^2)+X^2*Z^2*J+Ex.c (7*nu/4)*eR-Ex.c (2*nu)*X^2+eR)+X*Z*NN*I^2*((Ex.c (3/2)-Ex.c 2*X^2*I)*(Ex.c (-(1-2*nu)/6)*eS-Ex.c ((1-2*nu)/3)*eA-Ex.c (1/2)*(Z^2+Ex.c 3))+X^2*J-Ex.c (nu/4)*eR-Ex.c (7/4)*eR)+Ex.c (4/3*(1-2*nu))*X*Z*I^2*(Ex.c (3/2)-Ex.c 2*X^2*I)
noncomputable def tYY (nu : ℝ) : Ex := Ex.c (-3*nu/4)*X*P+X*MM*I^2*((Ex.c (1/2)-Ex.c 2*Y^2*I)*(Ex.c nu*(eS-Ex.c 2*eA+eR)+Z^2)+Y^2*Z^2*J+Ex.c (3/4*nu)*eR)+Z*X*NN*I^2*((Ex.c (1/2)-Ex.c 2*Y^2*I)*(Ex.c (-(1-2*nu)/6)*eS-Ex.c ((1-2*nu)/3)*eA-Ex.c (1/2)*Z^2-Ex.c (3/2))+Y^2*J-Ex.c (3/4*nu)*eR-Ex.c (1/4)*eR)+Ex.c (4/3*(1-2*nu))*Z*X*I^2*(Ex.c (1/2)-Ex.c 2*Y^2*I)
noncomputable def tZZ : Ex := Ex.c (1/2)*Z*X*NN*I*(Ex.c 1-(eR+Z^2+Ex.c 1)*J)
noncomputable def tYZ : Ex := Ex.c (1/2)*X*Y*Z*I^2*(MM*(Ex.c (1/2)+J*(Ex.c (1/2)*Z^2-Ex.c (3/2)-Ex.c (1/2)*eR))+Ex.c (1/2)*Z*NN*(Ex.c (-3)+J*(Ex.c 5+Z^2+eR)))
noncomputable def tXZ : Ex := Ex.c (3/2)*Z*P+Z*MM*I*(Ex.c 1+X^2*I-X^2*J)+NN*I*(Ex.c (-3/4)*(eS+Ex.c 2*eA)+Z^2-Ex.c (3/4)-Ex.c (1/4)*eR+Ex.c (1/2)*Z^2*(Ex.c (1/2)-Ex.c 2*X^2*I))
noncomputable def tXY (nu : ℝ) : Ex := Ex.c ((nu/2-1)/2)*Y*P+Y*MM*I^2*(X^2*Z^2*J+Ex.c nu*((eS-Ex.c 2*eA)*(Ex.c (1/2)-Ex.c 2*X^2*I)-Ex.c 2*X^2+Ex.c (1/4)*eR)+Ex.c (1/2)*eR+Z^2*(Ex.c (1/2)-Ex.c 2*X^2*I))+Y*Z*NN*I^2*((Ex.c (1/2)-Ex.c 2*X^2*I)*(Ex.c (2*nu-1)*(Ex.c (1/6)*eS+Ex.c (1/3)*eA)-Ex.c (1/2)*Z^2-Ex.c (3/2)-Ex.c (1/2)*eR)+Ex.c (nu/4)*eR+X^2*J-Ex.c (1/2)*Y^2-Ex.c (3/2)*X^2)+Ex.c (4/3*(1-2*nu))*Y*Z*I^2*(Ex.c (1/2)-Ex.c 2*X^2*I)

/-- The potential of the pressure. -/
noncomputable def pV : Ex := P*(Ex.c 1-Ex.c (1/2)*eR+Z^2)+Ex.c (1/2)*MM*(Ex.c 1-NN^2)-MM*NN^2
noncomputable def pVz : Ex := Ex.c 2*Z*P-Ex.c 2*NN
/-- Minus the derivative of the potential along `x`, divided by `x`. -/
noncomputable def pVx : Ex := P-MM*Ex.v V.W
noncomputable def pG : Ex := Ex.c (2/3)*(Ex.c 1-NN^3)*I-Z*pVx
noncomputable def pH : Ex := -(P*(Ex.c (1/2)-Ex.c (1/8)*eR+Ex.c (1/2)*Z^2)+I*MM*(Ex.c (3/8)-Ex.c (1/4)*NN^2+Ex.c (13/24)*NN^4+MM^2*(Ex.c (1/8)-Ex.c (3/4)*NN^2+Ex.c (5/8)*NN^4)-Ex.c (2/3)*NN))
noncomputable def tUX (nu : ℝ) : Ex := Ex.c (1/(2*(1-nu)))*(Ex.c 2*pV+Ex.c (2*nu)*(pH-X^2*I*(pV+Ex.c 2*pH))-Z*(pG-X^2*I*(pVz+Ex.c 2*pG)))
noncomputable def tUY (nu : ℝ) : Ex := Ex.c (1/(2*(1-nu)))*(X*Y*I*(Z*(pVz+Ex.c 2*pG)-Ex.c (2*nu)*(pV+Ex.c 2*pH)))
noncomputable def tUZ (nu : ℝ) : Ex := Ex.c (1/(2*(1-nu)))*X*(Ex.c (1-2*nu)*pG+Z*pVx)
end

theorem tang_form {nu x y z : ℝ} (hr : 0 < x ^ 2 + y ^ 2) :
    (tangential nu x y z).xx = (tXX nu).eval x y z ∧ (tangential nu x y z).yy = (tYY nu).eval x y z ∧ (tangential nu x y z).zz = tZZ.eval x y z ∧
    (tangential nu x y z).yz = tYZ.eval x y z ∧ (tangential nu x y z).xz = tXZ.eval x y z ∧ (tangential nu x y z).xy = (tXY nu).eval x y z := by
  have hS := hamS_eq (x ^ 2 + y ^ 2) z
  have hA := hamA_eq (x ^ 2 + y ^ 2) z
  unfold tangential toffcenter
  rw [if_pos hr]
  simp only [tXX, tYY, tZZ, tYZ, tXZ, tXY, eA, eS, eR, eval_add, eval_mul, eval_sub, eval_neg, eval_pow, Ex.eval, V.val, hA]
  generalize hamM (x ^ 2 + y ^ 2) z = m at *
  generalize hamN (x ^ 2 + y ^ 2) z = n at *
  generalize hamS (x ^ 2 + y ^ 2) z = s at *
  generalize arctan2one m = p at *
  simp only [← hS, div_eq_mul_inv, mul_inv, ← inv_pow]
  generalize (x ^ 2 + y ^ 2)⁻¹ = i
  refine ⟨?_, ?_, ?_, ?_, ?_, ?_⟩ <;> ring

theorem tbalance_x {nu x y z : ℝ} (hr : 0 < x ^ 2 + y ^ 2) (hz : 0 < z) : ((tXX nu).d .x + (tXY nu).d .y + tXZ.d .z).eval x y z = 0 := by
  refine ident hr hz _ fun m n p hm hn h1n hy hR hv => ?_
  have h1m : 1 + m ^ 2 ≠ 0 := by positivity
  have hs : m ^ 2 + n ^ 2 ≠ 0 := by positivity
  simp only [tXX, tYY, tZZ, tXY, tXZ, tYZ, eA, eS, eR, d_add, d_mul, d_sub, d_neg, d_pow, Ex.d, V.d, dM, dN, eval_add, eval_mul, eval_sub, eval_neg, eval_pow, Ex.eval, hv]
  norm_num
  simp only [hy]
  field_simp
  ring_nf
  have hy3 : y ^ 3 = y * ((1 + m ^ 2) * (1 - n ^ 2) - x ^ 2) := by rw [← hy]; ring
  have hy4 : y ^ 4 = ((1 + m ^ 2) * (1 - n ^ 2) - x ^ 2) ^ 2 := by rw [← hy]; ring
  have hy5 : y ^ 5 = y * ((1 + m ^ 2) * (1 - n ^ 2) - x ^ 2) ^ 2 := by rw [← hy]; ring
  simp only [hy, hy3, hy4, hy5]
  ring

theorem tbalance_y {nu x y z : ℝ} (hr : 0 < x ^ 2 + y ^ 2) (hz : 0 < z) : ((tXY nu).d .x + (tYY nu).d .y + tYZ.d .z).eval x y z = 0 := by
  refine ident hr hz _ fun m n p hm hn h1n hy hR hv => ?_
  have h1m : 1 + m ^ 2 ≠ 0 := by positivity
  have hs : m ^ 2 + n ^ 2 ≠ 0 := by positivity
  simp only [tXX, tYY, tZZ, tXY, tXZ, tYZ, eA, eS, eR, d_add, d_mul, d_sub, d_neg, d_pow, Ex.d, V.d, dM, dN, eval_add, eval_mul, eval_sub, eval_neg, eval_pow, Ex.eval, hv]
  norm_num
  simp only [hy]
  field_simp
  ring_nf

theorem tbalance_z {x y z : ℝ} (hr : 0 < x ^ 2 + y ^ 2) (hz : 0 < z) : (tXZ.d .x + tYZ.d .y + tZZ.d .z).eval x y z = 0 := by
  refine ident hr hz _ fun m n p hm hn h1n hy hR hv => ?_
  have h1m : 1 + m ^ 2 ≠ 0 := by positivity
  have hs : m ^ 2 + n ^ 2 ≠ 0 := by positivity
  simp only [tXX, tYY, tZZ, tXY, tXZ, tYZ, eA, eS, eR, d_add, d_mul, d_sub, d_neg, d_pow, Ex.d, V.d, dM, dN, eval_add, eval_mul, eval_sub, eval_neg, eval_pow, Ex.eval, hv]
  norm_num
  simp only [hy]
  field_simp
  ring_nf
  have hy3 : y ^ 3 = y * ((1 + m ^ 2) * (1 - n ^ 2) - x ^ 2) := by rw [← hy]; ring
  have hy4 : y ^ 4 = ((1 + m ^ 2) * (1 - n ^ 2) - x ^ 2) ^ 2 := by rw [← hy]; ring
  have hy5 : y ^ 5 = y * ((1 + m ^ 2) * (1 - n ^ 2) - x ^ 2) ^ 2 := by rw [← hy]; ring
  simp only [hy, hy3, hy4, hy5]
  ring

theorem thooke_xx {nu x y z : ℝ} (hr : 0 < x ^ 2 + y ^ 2) (hz : 0 < z) (h1 : 1 - nu ≠ 0) : (Ex.c (1 - nu ^ 2) * (tUX nu).d .x - ((tXX nu) - Ex.c nu * ((tYY nu) + tZZ))).eval x y z = 0 := by
  refine ident hr hz _ fun m n p hm hn h1n hy hR hv => ?_
  have h1m : 1 + m ^ 2 ≠ 0 := by positivity
  have hs : m ^ 2 + n ^ 2 ≠ 0 := by positivity
  simp only [tXX, tYY, tZZ, tXY, tXZ, tYZ, eA, eS, eR, tUX, tUY, tUZ, pV, pVz, pVx, pG, pH, d_add, d_mul, d_sub, d_neg, d_pow, Ex.d, V.d, dM, dN, eval_add, eval_mul, eval_sub, eval_neg, eval_pow, Ex.eval, hv]
  norm_num
  simp only [hy]
  field_simp
  ring_nf

theorem thooke_yy {nu x y z : ℝ} (hr : 0 < x ^ 2 + y ^ 2) (hz : 0 < z) (h1 : 1 - nu ≠ 0) : (Ex.c (1 - nu ^ 2) * (tUY nu).d .y - ((tYY nu) - Ex.c nu * ((tXX nu) + tZZ))).eval x y z = 0 := by
  refine ident hr hz _ fun m n p hm hn h1n hy hR hv => ?_
  have h1m : 1 + m ^ 2 ≠ 0 := by positivity
  have hs : m ^ 2 + n ^ 2 ≠ 0 := by positivity
  simp only [tXX, tYY, tZZ, tXY, tXZ, tYZ, eA, eS, eR, tUX, tUY, tUZ, pV, pVz, pVx, pG, pH, d_add, d_mul, d_sub, d_neg, d_pow, Ex.d, V.d, dM, dN, eval_add, eval_mul, eval_sub, eval_neg, eval_pow, Ex.eval, hv]
  norm_num
  simp only [hy]
  field_simp
  ring_nf
  have hy3 : y ^ 3 = y * ((1 + m ^ 2) * (1 - n ^ 2) - x ^ 2) := by rw [← hy]; ring
  have hy4 : y ^ 4 = ((1 + m ^ 2) * (1 - n ^ 2) - x ^ 2) ^ 2 := by rw [← hy]; ring
  have hy5 : y ^ 5 = y * ((1 + m ^ 2) * (1 - n ^ 2) - x ^ 2) ^ 2 := by rw [← hy]; ring
  simp only [hy, hy3, hy4, hy5]
  ring

theorem thooke_zz {nu x y z : ℝ} (hr : 0 < x ^ 2 + y ^ 2) (hz : 0 < z) (h1 : 1 - nu ≠ 0) : (Ex.c (1 - nu ^ 2) * (tUZ nu).d .z - (tZZ - Ex.c nu * ((tXX nu) + (tYY nu)))).eval x y z = 0 := by
  refine ident hr hz _ fun m n p hm hn h1n hy hR hv => ?_
  have h1m : 1 + m ^ 2 ≠ 0 := by positivity
  have hs : m ^ 2 + n ^ 2 ≠ 0 := by positivity
  simp only [tXX, tYY, tZZ, tXY, tXZ, tYZ, eA, eS, eR, tUX, tUY, tUZ, pV, pVz, pVx, pG, pH, d_add, d_mul, d_sub, d_neg, d_pow, Ex.d, V.d, dM, dN, eval_add, eval_mul, eval_sub, eval_neg, eval_pow, Ex.eval, hv]
  norm_num
  simp only [hy]
  field_simp
  ring_nf

theorem thooke_xy {nu x y z : ℝ} (hr : 0 < x ^ 2 + y ^ 2) (hz : 0 < z) (h1 : 1 - nu ≠ 0) : (Ex.c (1 - nu ^ 2) * (Ex.c (1 / 2) * ((tUX nu).d .y + (tUY nu).d .x)) - Ex.c (1 + nu) * tXY nu).eval x y z = 0 := by
  refine ident hr hz _ fun m n p hm hn h1n hy hR hv => ?_
  have h1m : 1 + m ^ 2 ≠ 0 := by positivity
  have hs : m ^ 2 + n ^ 2 ≠ 0 := by positivity
  simp only [tXX, tYY, tZZ, tXY, tXZ, tYZ, eA, eS, eR, tUX, tUY, tUZ, pV, pVz, pVx, pG, pH, d_add, d_mul, d_sub, d_neg, d_pow, Ex.d, V.d, dM, dN, eval_add, eval_mul, eval_sub, eval_neg, eval_pow, Ex.eval, hv]
  norm_num
  simp only [hy]
  field_simp
  ring_nf

theorem thooke_xz {nu x y z : ℝ} (hr : 0 < x ^ 2 + y ^ 2) (hz : 0 < z) (h1 : 1 - nu ≠ 0) : (Ex.c (1 - nu ^ 2) * (Ex.c (1 / 2) * ((tUX nu).d .z + (tUZ nu).d .x)) - Ex.c (1 + nu) * tXZ).eval x y z = 0 := by
  refine ident hr hz _ fun m n p hm hn h1n hy hR hv => ?_
  have h1m : 1 + m ^ 2 ≠ 0 := by positivity
  have hs : m ^ 2 + n ^ 2 ≠ 0 := by positivity
  simp only [tXX, tYY, tZZ, tXY, tXZ, tYZ, eA, eS, eR, tUX, tUY, tUZ, pV, pVz, pVx, pG, pH, d_add, d_mul, d_sub, d_neg, d_pow, Ex.d, V.d, dM, dN, eval_add, eval_mul, eval_sub, eval_neg, eval_pow, Ex.eval, hv]
  norm_num
  simp only [hy]
  field_simp
  ring_nf

theorem thooke_yz {nu x y z : ℝ} (hr : 0 < x ^ 2 + y ^ 2) (hz : 0 < z) (h1 : 1 - nu ≠ 0) : (Ex.c (1 - nu ^ 2) * (Ex.c (1 / 2) * ((tUY nu).d .z + (tUZ nu).d .y)) - Ex.c (1 + nu) * tYZ).eval x y z = 0 := by
  refine ident hr hz _ fun m n p hm hn h1n hy hR hv => ?_
  have h1m : 1 + m ^ 2 ≠ 0 := by positivity
  have hs : m ^ 2 + n ^ 2 ≠ 0 := by positivity
  simp only [tXX, tYY, tZZ, tXY, tXZ, tYZ, eA, eS, eR, tUX, tUY, tUZ, pV, pVz, pVx, pG, pH, d_add, d_mul, d_sub, d_neg, d_pow, Ex.d, V.d, dM, dN, eval_add, eval_mul, eval_sub, eval_neg, eval_pow, Ex.eval, hv]
  norm_num
  simp only [hy]
  field_simp
  ring_nf

/-! ## Regular forms

The quotients by `r²` cancel: both solutions are given by expressions that are regular on the axis. -/

/-- Coefficient of the quadratic terms of the tangential solution. -/
noncomputable def regB (nu m n : ℝ) : ℝ := (m * n ^ 2 + (-2) * nu * m * n ^ 2 + (1/3) * m * n ^ 3 + (-2/3) * nu * m * n ^ 3 + (-2) * nu * m ^ 3 + (-8/3) * m ^ 3 * n + (-2/3) * nu * m ^ 3 * n + (-3) * m ^ 3 * n ^ 2 + (-1) * m ^ 3 * n ^ 3) / ((1 + m ^ 2) ^ 3 * (1 + n) ^ 3 * (m ^ 2 + n ^ 2))

/-- The tangential solution without quotients by the distance from the axis. -/
noncomputable def regT (nu m n p x y : ℝ) : Cart where
  xx := x * (-(nu / 4 + 1) * p + (m + (7/4) * nu * m + 4 * m * n + (-1/2) * nu * m * n + 2 * m * n ^ 2 + (-1/4) * nu * m * n ^ 2 + m ^ 3 + (1/4) * nu * m ^ 3 + 2 * m ^ 3 * n + (1/2) * nu * m ^ 3 * n + m ^ 3 * n ^ 2 + (1/4) * nu * m ^ 3 * n ^ 2) / ((1 + m ^ 2) ^ 2 * (1 + n) ^ 2) + x ^ 2 * regB nu m n)
  yy := x * (-3 * nu / 4 * p + ((5/4) * nu * m + (2/3) * m * n + (7/6) * nu * m * n + (1/3) * m * n ^ 2 + (7/12) * nu * m * n ^ 2 + (3/4) * nu * m ^ 3 + (3/2) * nu * m ^ 3 * n + (3/4) * nu * m ^ 3 * n ^ 2) / ((1 + m ^ 2) ^ 2 * (1 + n) ^ 2) + y ^ 2 * regB nu m n)
  zz := -(x * m * n * n) / ((1 + m ^ 2) * (m ^ 2 + n ^ 2))
  yz := -(x * y * m * n * m) / ((1 + m ^ 2) ^ 2 * (m ^ 2 + n ^ 2))
  xz := 3 / 2 * (m * n) * p - n * (3 * m ^ 2 + 2) / (2 * (1 + m ^ 2)) - x ^ 2 * m ^ 2 * n / ((1 + m ^ 2) ^ 2 * (m ^ 2 + n ^ 2))
  xy := y * ((nu / 2 - 1) / 2 * p + ((1/2) * m + (1/4) * nu * m + (5/3) * m * n + (-5/6) * nu * m * n + (5/6) * m * n ^ 2 + (-5/12) * nu * m * n ^ 2 + (1/2) * m ^ 3 + (-1/4) * nu * m ^ 3 + m ^ 3 * n + (-1/2) * nu * m ^ 3 * n + (1/2) * m ^ 3 * n ^ 2 + (-1/4) * nu * m ^ 3 * n ^ 2) / ((1 + m ^ 2) ^ 2 * (1 + n) ^ 2) + x ^ 2 * regB nu m n)

/-- Difference of radial and circumferential stress divided by `r²`. -/
noncomputable def regD (nu m n : ℝ) : ℝ := ((2/3) * n ^ 2 + (-4/3) * nu * n ^ 2 + (1/3) * n ^ 3 + (-2/3) * nu * n ^ 3 + (2/3) * m ^ 2 + (-4/3) * nu * m ^ 2 + (-2/3) * m ^ 2 * n + (-2/3) * nu * m ^ 2 * n + (-2) * m ^ 2 * n ^ 2 + (-1) * m ^ 2 * n ^ 3) / ((1 + m ^ 2) ^ 2 * (1 + n) ^ 2 * (m ^ 2 + n ^ 2))

/-- Circumferential stress. -/
noncomputable def regTT (nu m n p : ℝ) : ℝ := -((1 - 2 * nu) / 3 * (1 + n + n ^ 2) / ((1 + m ^ 2) * (1 + n)) + n * (2 * nu + (1 - nu) * m ^ 2 / (1 + m ^ 2) - (1 + nu) * m * p))

/-- The normal solution without quotients by the distance from the axis. -/
noncomputable def regN (nu m n p x y : ℝ) : Cart where
  xx := regTT nu m n p + x ^ 2 * regD nu m n
  yy := regTT nu m n p + y ^ 2 * regD nu m n
  zz := -n ^ 3 / (m ^ 2 + n ^ 2)
  yz := -y * (n ^ 2 * m / ((m ^ 2 + n ^ 2) * (1 + m ^ 2)))
  xz := -x * (n ^ 2 * m / ((m ^ 2 + n ^ 2) * (1 + m ^ 2)))
  xy := x * y * regD nu m n

theorem on_axis {x y z : ℝ} (h : ¬ 0 < x ^ 2 + y ^ 2) (hz : 0 ≤ z) : x = 0 ∧ y = 0 ∧ hamM (x ^ 2 + y ^ 2) z = z ∧ hamN (x ^ 2 + y ^ 2) z = 1 := by
  have hx : x = 0 := by nlinarith [sq_nonneg x, sq_nonneg y]
  have hy : y = 0 := by nlinarith [sq_nonneg x, sq_nonneg y]
  subst hx; subst hy
  exact ⟨rfl, rfl, ham_unique hz zero_le_one (by ring) (by ring)⟩

theorem tangential_regular {nu x y z : ℝ} (hz : 0 < z) :
    tangential nu x y z = regT nu (hamM (x ^ 2 + y ^ 2) z) (hamN (x ^ 2 + y ^ 2) z) (arctan2one (hamM (x ^ 2 + y ^ 2) z)) x y := by
  by_cases hr : 0 < x ^ 2 + y ^ 2
  · obtain ⟨g1, g2, g3, g4, g5, g6⟩ := tang_form (nu := nu) (z := z) hr
    obtain ⟨m, n, hM, hN, hm, hn, hn1, hs, hmn, hy, hS, hA, hR, hpos⟩ := coords hr hz.le (off_edge hz)
    rw [hM, hN]
    have h1n : 1 - n ≠ 0 := by linarith
    have h1n' : 1 + n ≠ 0 := by linarith
    have e1 : 1 - n ^ 2 = (1 - n) * (1 + n) := by ring
    have h1m : 1 + m ^ 2 ≠ 0 := by positivity
    have hsne := hs.ne'
    generalize tangential nu x y z = c at *
    obtain ⟨xx, yy, zz, yz, xz, xy⟩ := c
    simp only at g1 g2 g3 g4 g5 g6
    subst g1 g2 g3 g4 g5 g6
    unfold regT
    simp only [tXX, tYY, tZZ, tYZ, tXZ, tXY, eA, eS, eR, eval_add, eval_mul, eval_sub, eval_neg, eval_pow, Ex.eval, V.val, Cart.mk.injEq, hM, hN, hS, regB]
    simp only [hR, hmn]
    rw [e1]
    generalize arctan2one m = p
    refine ⟨?_, ?_, ?_, ?_, ?_, ?_⟩
    · field_simp; ring
    · simp only [hy, e1]; field_simp; ring
    · field_simp; ring
    · field_simp; ring
    · field_simp; ring
    · simp only [hy, e1]; field_simp; ring
  · obtain ⟨rfl, rfl, hM, hN⟩ := on_axis hr hz.le
    rw [hM, hN]
    unfold tangential toncenter regT
    rw [if_neg hr]
    have : 1 + z ^ 2 ≠ 0 := by positivity
    simp only [Cart.mk.injEq]
    refine ⟨by ring, by ring, by ring, by ring, ?_, by ring⟩
    field_simp; ring

theorem cartesian_regular {nu x y z : ℝ} (hz : 0 < z) :
    cartesian nu x y z = regN nu (hamM (x ^ 2 + y ^ 2) z) (hamN (x ^ 2 + y ^ 2) z) (arctan2one (hamM (x ^ 2 + y ^ 2) z)) x y := by
  by_cases hr : 0 < x ^ 2 + y ^ 2
  · obtain ⟨g1, g2, g3, g4, g5, g6⟩ := hamilton_form (nu := nu) (z := z) hr hz.le (off_edge hz)
    obtain ⟨m, n, hM, hN, hm, hn, hn1, hs, hmn, hy, hS, hA, hR, hpos⟩ := coords hr hz.le (off_edge hz)
    rw [hM, hN]
    have h1n : 1 - n ≠ 0 := by linarith
    have h1n' : 1 + n ≠ 0 := by linarith
    have e1 : 1 - n ^ 2 = (1 - n) * (1 + n) := by ring
    have h1m : 1 + m ^ 2 ≠ 0 := by positivity
    have hsne := hs.ne'
    generalize cartesian nu x y z = c at *
    obtain ⟨xx, yy, zz, yz, xz, xy⟩ := c
    simp only at g1 g2 g3 g4 g5 g6
    subst g1 g2 g3 g4 g5 g6
    unfold regN
    simp only [eRR, eTT, eZZ, eRZ, eval_add, eval_mul, eval_sub, eval_neg, eval_pow, Ex.eval, V.val, Cart.mk.injEq, hM, hN, hS, regD, regTT]
    simp only [hR]
    rw [e1]
    generalize arctan2one m = p
    refine ⟨?_, ?_, ?_, ?_, ?_, ?_⟩
    · simp only [hy, e1]; field_simp; ring
    · simp only [hy, e1]; field_simp; ring
    · field_simp
    · field_simp
    · field_simp
    · field_simp; ring
  · obtain ⟨rfl, rfl, hM, hN⟩ := on_axis hr hz.le
    rw [hM, hN]
    unfold cartesian oncenter regN
    rw [if_neg hr]
    have : 1 + z ^ 2 ≠ 0 := by positivity
    simp only [Cart.mk.injEq, regTT]
    refine ⟨?_, ?_, ?_, by ring, by ring, by ring⟩ <;> field_simp <;> ring


theorem coords_cont (x y z : ℝ) :
    ContinuousAt (fun q : ℝ × ℝ => hamM (q.1 ^ 2 + q.2 ^ 2) z) (x, y) ∧ ContinuousAt (fun q : ℝ × ℝ => hamN (q.1 ^ 2 + q.2 ^ 2) z) (x, y) ∧
    ContinuousAt (fun q : ℝ × ℝ => arctan2one (hamM (q.1 ^ 2 + q.2 ^ 2) z)) (x, y) := by
  have hM : Continuous fun q : ℝ × ℝ => hamM (q.1 ^ 2 + q.2 ^ 2) z := by unfold hamM hamS hamA; fun_prop
  have hN : Continuous fun q : ℝ × ℝ => hamN (q.1 ^ 2 + q.2 ^ 2) z := by unfold hamN hamS hamA; fun_prop
  refine ⟨hM.continuousAt, hN.continuousAt, ?_⟩
  have : (fun q : ℝ × ℝ => arctan2one (hamM (q.1 ^ 2 + q.2 ^ 2) z)) = fun q => π / 2 - arctan (hamM (q.1 ^ 2 + q.2 ^ 2) z) := by
    funext q; exact arctan2one_eq (hamM_nonneg _ _)
  rw [this]
  exact (continuous_const.sub (continuous_arctan.comp hM)).continuousAt

/-- Components of a stress. -/
def comps (t : Cart) : ℝ × ℝ × ℝ × ℝ × ℝ × ℝ := (t.xx, t.yy, t.zz, t.yz, t.xz, t.xy)

theorem reg_cont {f : ℝ → ℝ → ℝ → ℝ → ℝ → ℝ} (hf : ∀ m n p x y : ℝ, 0 < m → 0 < n →
    ContinuousAt (fun q : ℝ × ℝ × ℝ × ℝ × ℝ => f q.1 q.2.1 q.2.2.1 q.2.2.2.1 q.2.2.2.2) (m, n, p, x, y)) (x y : ℝ) {z : ℝ} (hz : 0 < z) :
    ContinuousAt (fun q : ℝ × ℝ => f (hamM (q.1 ^ 2 + q.2 ^ 2) z) (hamN (q.1 ^ 2 + q.2 ^ 2) z) (arctan2one (hamM (q.1 ^ 2 + q.2 ^ 2) z)) q.1 q.2) (x, y) := by
  obtain ⟨h1, h2, h3⟩ := coords_cont x y z
  have h := hf (hamM (x ^ 2 + y ^ 2) z) (hamN (x ^ 2 + y ^ 2) z) (arctan2one (hamM (x ^ 2 + y ^ 2) z)) x y (hamM_pos hz) (hamN_pos hz)
  have hc : ContinuousAt (fun q : ℝ × ℝ => (hamM (q.1 ^ 2 + q.2 ^ 2) z, hamN (q.1 ^ 2 + q.2 ^ 2) z, arctan2one (hamM (q.1 ^ 2 + q.2 ^ 2) z), q.1, q.2)) (x, y) :=
    h1.prodMk (h2.prodMk (h3.prodMk (continuousAt_fst.prodMk continuousAt_snd)))
  exact ContinuousAt.comp (f := fun q : ℝ × ℝ => (hamM (q.1 ^ 2 + q.2 ^ 2) z, hamN (q.1 ^ 2 + q.2 ^ 2) z, arctan2one (hamM (q.1 ^ 2 + q.2 ^ 2) z), q.1, q.2))
    (g := fun q : ℝ × ℝ × ℝ × ℝ × ℝ => f q.1 q.2.1 q.2.2.1 q.2.2.2.1 q.2.2.2.2) h hc

/-- **C130** Below the surface the interior stress of the normal solution is continuous at every point of a horizontal plane, on the axis too,
where the code switches to another formula. -/
theorem C130_continuous {nu z : ℝ} (hz : 0 < z) : Continuous fun q : ℝ × ℝ => comps (cartesian nu q.1 q.2 z) := by
  rw [continuous_iff_continuousAt]
  rintro ⟨x, y⟩
  simp only [cartesian_regular hz, comps, regN]
  refine ContinuousAt.prodMk ?_ (ContinuousAt.prodMk ?_ (ContinuousAt.prodMk ?_ (ContinuousAt.prodMk ?_ (ContinuousAt.prodMk ?_ ?_))))
  · refine reg_cont (f := fun m n p x y => regTT nu m n p + x ^ 2 * regD nu m n) (fun m n p x y hm hn => ?_) x y hz
    unfold regTT regD
    fun_prop (disch := positivity)
  · refine reg_cont (f := fun m n p x y => regTT nu m n p + y ^ 2 * regD nu m n) (fun m n p x y hm hn => ?_) x y hz
    unfold regTT regD
    fun_prop (disch := positivity)
  · refine reg_cont (f := fun m n p x y => -n ^ 3 / (m ^ 2 + n ^ 2)) (fun m n p x y hm hn => ?_) x y hz
    fun_prop (disch := positivity)
  · refine reg_cont (f := fun m n p x y => -y * (n ^ 2 * m / ((m ^ 2 + n ^ 2) * (1 + m ^ 2)))) (fun m n p x y hm hn => ?_) x y hz
    fun_prop (disch := positivity)
  · refine reg_cont (f := fun m n p x y => -x * (n ^ 2 * m / ((m ^ 2 + n ^ 2) * (1 + m ^ 2)))) (fun m n p x y hm hn => ?_) x y hz
    fun_prop (disch := positivity)
  · refine reg_cont (f := fun m n p x y => x * y * regD nu m n) (fun m n p x y hm hn => ?_) x y hz
    unfold regD
    fun_prop (disch := positivity)

/-- **C131** The stress of the tangential solution is continuous in every horizontal plane below the surface, on the axis too. -/
theorem C131_continuous {nu z : ℝ} (hz : 0 < z) : Continuous fun q : ℝ × ℝ => comps (tangential nu q.1 q.2 z) := by
  rw [continuous_iff_continuousAt]
  rintro ⟨x, y⟩
  have : (fun q : ℝ × ℝ => comps (tangential nu q.1 q.2 z)) = fun q : ℝ × ℝ =>
      (fun t : ℝ × ℝ × ℝ × ℝ × ℝ => comps (regT nu t.1 t.2.1 t.2.2.1 t.2.2.2.1 t.2.2.2.2))
        (hamM (q.1 ^ 2 + q.2 ^ 2) z, hamN (q.1 ^ 2 + q.2 ^ 2) z, arctan2one (hamM (q.1 ^ 2 + q.2 ^ 2) z), q.1, q.2) := by
    funext q; rw [tangential_regular hz]
  obtain ⟨h1, h2, h3⟩ := coords_cont x y z
  have hc : ContinuousAt (fun q : ℝ × ℝ => (hamM (q.1 ^ 2 + q.2 ^ 2) z, hamN (q.1 ^ 2 + q.2 ^ 2) z, arctan2one (hamM (q.1 ^ 2 + q.2 ^ 2) z), q.1, q.2)) (x, y) :=
    h1.prodMk (h2.prodMk (h3.prodMk (continuousAt_fst.prodMk continuousAt_snd)))
  rw [this]
  refine ContinuousAt.comp (g := fun t : ℝ × ℝ × ℝ × ℝ × ℝ => comps (regT nu t.1 t.2.1 t.2.2.1 t.2.2.2.1 t.2.2.2.2)) ?_ hc
  have hm := hamM_pos (r2 := x ^ 2 + y ^ 2) hz
  have hn := hamN_pos (r2 := x ^ 2 + y ^ 2) hz
  generalize hamM (x ^ 2 + y ^ 2) z = m at *
  generalize hamN (x ^ 2 + y ^ 2) z = n at *
  generalize arctan2one m = p
  unfold comps regT regB
  refine ContinuousAt.prodMk ?_ (ContinuousAt.prodMk ?_ (ContinuousAt.prodMk ?_ (ContinuousAt.prodMk ?_ (ContinuousAt.prodMk ?_ ?_)))) <;>
    fun_prop (disch := positivity)

theorem thooke {nu x y z : ℝ} (h1 : 1 - nu ≠ 0) (hr : 0 < x ^ 2 + y ^ 2) (hz : 0 < z) :
    Hooke nu ⟨fun x y z => (tUX nu).eval x y z, fun x y z => (tUY nu).eval x y z, fun x y z => (tUZ nu).eval x y z⟩ (tangential nu) x y z := by
  have ux := comp_deriv (f := fun x y z => (tUX nu).eval x y z) (e := tUX nu) (fun _ _ _ _ _ => rfl) hr hz
  have uy := comp_deriv (f := fun x y z => (tUY nu).eval x y z) (e := tUY nu) (fun _ _ _ _ _ => rfl) hr hz
  have uz := comp_deriv (f := fun x y z => (tUZ nu).eval x y z) (e := tUZ nu) (fun _ _ _ _ _ => rfl) hr hz
  obtain ⟨g1, g2, g3, g4, g5, g6⟩ := tang_form (nu := nu) (z := z) hr
  refine ⟨_, _, _, _, _, _, _, _, _, ux.1, ux.2.1, ux.2.2, uy.1, uy.2.1, uy.2.2, uz.1, uz.2.1, uz.2.2, ?_, ?_, ?_, ?_, ?_, ?_⟩
  · have := thooke_xx hr hz h1
    simp only [eval_sub, eval_mul, eval_add, Ex.eval] at this
    rw [g1, g2, g3]; linarith
  · have := thooke_yy hr hz h1
    simp only [eval_sub, eval_mul, eval_add, Ex.eval] at this
    rw [g1, g2, g3]; linarith
  · have := thooke_zz hr hz h1
    simp only [eval_sub, eval_mul, eval_add, Ex.eval] at this
    rw [g1, g2, g3]; linarith
  · have := thooke_xy hr hz h1
    simp only [eval_sub, eval_mul, eval_add, Ex.eval] at this
    rw [g6]; linarith
  · have := thooke_xz hr hz h1
    simp only [eval_sub, eval_mul, eval_add, Ex.eval] at this
    rw [g5]; linarith
  · have := thooke_yz hr hz h1
    simp only [eval_sub, eval_mul, eval_add, Ex.eval] at this
    rw [g4]; linarith

theorem tbalanced {nu x y z : ℝ} (hr : 0 < x ^ 2 + y ^ 2) (hz : 0 < z) : Balanced (tangential nu) x y z := by
  have hxx := comp_deriv (f := fun x y z => (tangential nu x y z).xx) (fun x y z hr _ => (tang_form (nu := nu) (z := z) hr).1) hr hz
  have hyy := comp_deriv (f := fun x y z => (tangential nu x y z).yy) (fun x y z hr _ => (tang_form (nu := nu) (z := z) hr).2.1) hr hz
  have hzz := comp_deriv (f := fun x y z => (tangential nu x y z).zz) (fun x y z hr _ => (tang_form (nu := nu) (z := z) hr).2.2.1) hr hz
  have hyz := comp_deriv (f := fun x y z => (tangential nu x y z).yz) (fun x y z hr _ => (tang_form (nu := nu) (z := z) hr).2.2.2.1) hr hz
  have hxz := comp_deriv (f := fun x y z => (tangential nu x y z).xz) (fun x y z hr _ => (tang_form (nu := nu) (z := z) hr).2.2.2.2.1) hr hz
  have hxy := comp_deriv (f := fun x y z => (tangential nu x y z).xy) (fun x y z hr _ => (tang_form (nu := nu) (z := z) hr).2.2.2.2.2) hr hz
  exact ⟨⟨_, _, _, hxx.1, hxy.2.1, hxz.2.2, tbalance_x hr hz⟩, ⟨_, _, _, hxy.1, hyy.2.1, hyz.2.2, tbalance_y hr hz⟩,
    ⟨_, _, _, hxz.1, hyz.2.1, hzz.2.2, tbalance_z hr hz⟩⟩

/-! ## Decay -/

theorem le_inv_m {m c : ℝ} (hm : 0 < m) (hc : 0 ≤ c) : c * m * (1 + m ^ 2)⁻¹ ≤ c / m := by
  rw [← div_eq_mul_inv, div_le_div_iff₀ (by positivity) hm]; nlinarith [mul_nonneg hc (sq_nonneg m)]

set_option maxHeartbeats 2000000 in
/-- All parts of the displacement decay like `1 / M`. -/
theorem parts_bound {x y z : ℝ} (hr : 0 < x ^ 2 + y ^ 2) (hz : 0 < z) :
    |pV.eval x y z| ≤ 3 / hamM (x ^ 2 + y ^ 2) z ∧ |pH.eval x y z| ≤ 4 / hamM (x ^ 2 + y ^ 2) z ∧ |z * pG.eval x y z| ≤ 3 / hamM (x ^ 2 + y ^ 2) z ∧
    |z * pVz.eval x y z| ≤ 2 / hamM (x ^ 2 + y ^ 2) z ∧ |x * pG.eval x y z| ≤ 4 / hamM (x ^ 2 + y ^ 2) z ∧ |x * (z * pVx.eval x y z)| ≤ 1 / hamM (x ^ 2 + y ^ 2) z := by
  obtain ⟨m, n, hM, hN, hm, hn, hn1, hs, rfl, hy, hS, hA, hR, hpos⟩ := coords hr hz.le (off_edge hz)
  obtain ⟨hm0, hn0⟩ := hpos hz
  obtain ⟨p1, p2⟩ := phi_bounds hm0
  rw [hM]
  simp only [pV, pVz, pVx, pG, pH, eR, eval_add, eval_mul, eval_sub, eval_neg, eval_pow, Ex.eval, V.val, hM, hN]
  simp only [hR]
  generalize arctan2one m = p at *
  have h1m : 0 < 1 + m ^ 2 := by positivity
  have hn2 : n ^ 2 ≤ 1 := by nlinarith
  have h1n : 0 < 1 - n ^ 2 := by nlinarith
  set w := (1 + m ^ 2)⁻¹ with hw
  have hw0 : 0 < w := by positivity
  have hww : (1 + m ^ 2) * w = 1 := by rw [hw]; field_simp
  have hmw : m * w ≤ 1 / m := by have := le_inv_m hm0 zero_le_one; rw [one_mul] at this; exact this
  have hp0 : 0 ≤ p := le_trans (by positivity) p1
  have hmp : m * p ≤ 1 := by
    calc m * p ≤ m * (1 / m) := by gcongr
      _ = 1 := by field_simp
  -- `d = φ - m / (1 + m²)`
  obtain ⟨d, hd⟩ : ∃ d, d = p - m * w := ⟨_, rfl⟩
  have hd0 : 0 ≤ d := by rw [hd, hw, ← div_eq_mul_inv]; linarith
  have hmd : m * d ≤ w := by rw [hd]; nlinarith
  have hd1 : d ≤ 1 / m * w := by
    rw [div_mul_eq_mul_div, one_mul, le_div_iff₀ hm0]; linarith
  have hx2 : x ^ 2 ≤ (1 + m ^ 2) * (1 - n ^ 2) := by rw [← hR]; nlinarith [sq_nonneg y]
  have hxm : |x| ≤ (1 + m ^ 2) / m := by
    refine abs_le_of_sq_le_sq ?_ (by positivity)
    have : (1 + m ^ 2) * (1 - n ^ 2) ≤ 1 + m ^ 2 := by nlinarith [mul_nonneg h1m.le (sq_nonneg n)]
    refine le_trans (hx2.trans this) ?_
    rw [div_pow, le_div_iff₀ (by positivity)]
    nlinarith [sq_nonneg m]
  have hn3 : 0 ≤ 1 - n ^ 3 := by nlinarith [mul_nonneg hn (sub_nonneg.mpr hn1.le), mul_nonneg (mul_nonneg hn hn) (sub_nonneg.mpr hn1.le)]
  have hq : 2 / 3 * (1 - n ^ 3) * ((1 + m ^ 2) * (1 - n ^ 2))⁻¹ ≤ 2 * w ∧ 0 ≤ 2 / 3 * (1 - n ^ 3) * ((1 + m ^ 2) * (1 - n ^ 2))⁻¹ := by
    refine ⟨?_, by positivity⟩
    rw [mul_inv, ← hw, mul_comm w, ← mul_assoc]
    refine mul_le_mul_of_nonneg_right ?_ hw0.le
    rw [← div_eq_mul_inv, div_le_iff₀ h1n]; nlinarith [mul_nonneg hn (sub_nonneg.mpr hn1.le), mul_nonneg (mul_nonneg hn hn) (sub_nonneg.mpr hn1.le)]
  obtain ⟨hq1, hq0⟩ := hq
  set q := 2 / 3 * (1 - n ^ 3) * ((1 + m ^ 2) * (1 - n ^ 2))⁻¹ with hqd
  have hpd : p = d + m * w := by rw [hd]; ring
  have hm1 : m * (w * 1) ≤ 1 / m := by rw [mul_one]; exact hmw
  have hnn : n * n ≤ 1 := by nlinarith
  have hmpw : 1 - m * p ≤ w := by
    have h1 : m * p = m * d + m ^ 2 * w := by rw [hpd]; ring
    have h2 : m ^ 2 * w = 1 - w := by linarith
    have h3 : 0 ≤ m * d := by positivity
    linarith
  refine ⟨?_, ?_, ?_, ?_, ?_, ?_⟩
  · have e : p * (1 - 1 / 2 * ((1 + m ^ 2) * (1 - n ^ 2)) + (m * n) ^ 2) + 1 / 2 * m * (1 - n ^ 2) - m * n ^ 2 =
        p - 1 / 2 * (1 + m ^ 2) * (1 - n ^ 2) * d - m * n ^ 2 * (1 - m * p) := by
      have : m * w * (1 + m ^ 2) = m := by rw [mul_assoc, mul_comm w, hww, mul_one]
      have h2 : (1 + m ^ 2) * d = (1 + m ^ 2) * p - m := by rw [hd]; linear_combination (-1 : ℝ) * this
      linear_combination (1 / 2 * (1 - n ^ 2)) * h2
    rw [e]
    have b1 : 0 ≤ 1 / 2 * (1 + m ^ 2) * (1 - n ^ 2) * d := by positivity
    have b2 : 1 / 2 * (1 + m ^ 2) * (1 - n ^ 2) * d ≤ 1 / m := by
      calc 1 / 2 * (1 + m ^ 2) * (1 - n ^ 2) * d ≤ 1 * (1 + m ^ 2) * 1 * (1 / m * w) := by
            gcongr
            · norm_num
            · linarith [sq_nonneg n]
        _ = 1 / m * ((1 + m ^ 2) * w) := by ring
        _ = 1 / m := by rw [hww, mul_one]
    have b3 : 0 ≤ m * n ^ 2 * (1 - m * p) := by
      have : 0 ≤ 1 - m * p := by linarith
      positivity
    have b4 : m * n ^ 2 * (1 - m * p) ≤ 1 / m := by
      have h1 : 1 - m * p ≤ w := hmpw
      calc m * n ^ 2 * (1 - m * p) ≤ m * 1 * w := by gcongr
        _ ≤ 1 / m := by rw [mul_one]; exact hmw
    rw [abs_le]
    have : 3 / m = 1 / m + 1 / m + 1 / m := by field_simp; ring
    rw [this]
    have : 0 < 1 / m := by positivity
    constructor <;> linarith
  · have e : ((1 + m ^ 2) * (1 - n ^ 2))⁻¹ * m * (3 / 8 - 1 / 4 * n ^ 2 + 13 / 24 * n ^ 4 + m ^ 2 * (1 / 8 - 3 / 4 * n ^ 2 + 5 / 8 * n ^ 4) - 2 / 3 * n) =
        m * w * ((9 - 7 * n - 13 * n ^ 2 - 13 * n ^ 3) / (24 * (1 + n)) + m ^ 2 * (1 - 5 * n ^ 2) / 8) := by
      rw [hw]
      have h1 : 1 - n ≠ 0 := by linarith
      have h2 : 1 + n ≠ 0 := by linarith
      rw [show 1 - n ^ 2 = (1 - n) * (1 + n) by ring]
      field_simp; ring
    rw [e]
    have e2 : p * (1 / 2 - 1 / 8 * ((1 + m ^ 2) * (1 - n ^ 2)) + 1 / 2 * (m * n) ^ 2) +
        m * w * ((9 - 7 * n - 13 * n ^ 2 - 13 * n ^ 3) / (24 * (1 + n)) + m ^ 2 * (1 - 5 * n ^ 2) / 8) =
        p * (3 + n ^ 2) / 8 - m ^ 2 * (1 - 5 * n ^ 2) / 8 * d + m * w * ((9 - 7 * n - 13 * n ^ 2 - 13 * n ^ 3) / (24 * (1 + n))) := by
      rw [hd]; ring
    rw [abs_neg, e2]
    have hk : |(9 - 7 * n - 13 * n ^ 2 - 13 * n ^ 3) / (24 * (1 + n))| ≤ 2 := by
      have : 0 ≤ n ^ 2 := sq_nonneg n
      have : 0 ≤ n ^ 3 := by positivity
      have : n ^ 3 ≤ 1 := by linarith
      rw [abs_div, abs_of_pos (by positivity : 0 < 24 * (1 + n)), div_le_iff₀ (by positivity), abs_le]
      constructor <;> linarith
    have b1 : |p * (3 + n ^ 2) / 8| ≤ 1 / m := by
      rw [abs_of_nonneg (by positivity)]
      calc p * (3 + n ^ 2) / 8 ≤ p * (3 + 1) / 8 := by gcongr
        _ ≤ p := by linarith
        _ ≤ 1 / m := p2
    have b2 : |m ^ 2 * (1 - 5 * n ^ 2) / 8 * d| ≤ 1 / m := by
      have : m ^ 2 * (1 - 5 * n ^ 2) / 8 * d = (1 - 5 * n ^ 2) / 8 * (m * (m * d)) := by ring
      rw [this, abs_mul]
      have h5 : |(1 - 5 * n ^ 2) / 8| ≤ 1 := by rw [abs_le]; constructor <;> linarith [sq_nonneg n]
      have h6 : |m * (m * d)| ≤ 1 / m := by
        rw [abs_of_nonneg (by positivity)]
        exact le_trans (by gcongr) hmw
      calc _ ≤ 1 * (1 / m) := mul_le_mul h5 h6 (abs_nonneg _) zero_le_one
        _ = _ := one_mul _
    have b3 : |m * w * ((9 - 7 * n - 13 * n ^ 2 - 13 * n ^ 3) / (24 * (1 + n)))| ≤ 1 / m * 2 := by
      rw [abs_mul, abs_of_nonneg (by positivity : 0 ≤ m * w)]
      exact mul_le_mul hmw hk (abs_nonneg _) (by positivity)
    have c1 := abs_add_le (p * (3 + n ^ 2) / 8 - m ^ 2 * (1 - 5 * n ^ 2) / 8 * d) (m * w * ((9 - 7 * n - 13 * n ^ 2 - 13 * n ^ 3) / (24 * (1 + n))))
    have c2 := abs_sub (p * (3 + n ^ 2) / 8) (m ^ 2 * (1 - 5 * n ^ 2) / 8 * d)
    have : 4 / m = 1 / m + 1 / m + 1 / m * 2 := by field_simp; ring
    rw [this]; linarith
  · rw [← hd]
    have b1 : |m * n * q| ≤ 1 / m * 2 := by
      rw [abs_of_nonneg (by positivity)]
      calc m * n * q ≤ m * 1 * (2 * w) := by gcongr
        _ = m * w * 2 := by ring
        _ ≤ 1 / m * 2 := by gcongr
    have b2 : |m * n * (m * n * d)| ≤ 1 / m := by
      rw [abs_of_nonneg (by positivity)]
      calc m * n * (m * n * d) = n * n * (m * (m * d)) := by ring
        _ ≤ 1 * (m * w) := by gcongr
        _ ≤ 1 / m := by rw [one_mul]; exact hmw
    have c1 := abs_sub (m * n * q) (m * n * (m * n * d))
    have : 3 / m = 1 / m * 2 + 1 / m := by field_simp; ring
    rw [mul_sub, this]; linarith
  · have e : m * n * (2 * (m * n) * p - 2 * n) = -(2 * (m * (n * n) * (1 - m * p))) := by ring
    rw [e, abs_neg]
    have h0 : 0 ≤ 1 - m * p := by linarith
    rw [abs_of_nonneg (by positivity)]
    have h1 : 1 - m * p ≤ w := hmpw
    calc 2 * (m * (n * n) * (1 - m * p)) ≤ 2 * (m * 1 * w) := by gcongr
      _ = 2 * (m * w) := by ring
      _ ≤ 2 * (1 / m) := by gcongr
      _ = 2 / m := by ring
  · rw [← hd, abs_mul]
    have b1 : |q - m * n * d| ≤ 3 * w := by
      have h1 : m * n * d ≤ w := by
        calc m * n * d = n * (m * d) := by ring
          _ ≤ 1 * w := by gcongr
          _ = w := one_mul _
      have h2 : 0 ≤ m * n * d := by positivity
      rw [abs_le]; constructor <;> linarith
    calc |x| * |q - m * n * d| ≤ (1 + m ^ 2) / m * (3 * w) := mul_le_mul hxm b1 (abs_nonneg _) (by positivity)
      _ = 3 / m * ((1 + m ^ 2) * w) := by ring
      _ = 3 / m := by rw [hww, mul_one]
      _ ≤ 4 / m := by gcongr; norm_num
  · rw [← hd, abs_mul, abs_of_nonneg (by positivity : 0 ≤ m * n * d)]
    have h1 : m * n * d ≤ w := by
      calc m * n * d = n * (m * d) := by ring
        _ ≤ 1 * w := by gcongr
        _ = w := one_mul _
    calc |x| * (m * n * d) ≤ (1 + m ^ 2) / m * w := mul_le_mul hxm h1 (by positivity) (by positivity)
      _ = 1 / m * ((1 + m ^ 2) * w) := by ring
      _ = 1 / m := by rw [hww, mul_one]

end CM.Ref.Hertz
