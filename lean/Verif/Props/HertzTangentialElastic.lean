import Verif.Props.HertzTangential
/-!
# Hertz: the tangential solution is an elastic solution (C131)
-/
set_option linter.unusedSimpArgs false

namespace CM.Ref.Hertz

open Real

theorem ratio_le_one {x y : ℝ} (hr : 0 < x ^ 2 + y ^ 2) : |x ^ 2 * (x ^ 2 + y ^ 2)⁻¹| ≤ 1 ∧ |x * y * (x ^ 2 + y ^ 2)⁻¹| ≤ 1 := by
  rw [← div_eq_mul_inv, ← div_eq_mul_inv, abs_div, abs_div, abs_of_pos hr, div_le_one hr, div_le_one hr]
  refine ⟨by rw [abs_of_nonneg (sq_nonneg x)]; nlinarith [sq_nonneg y], ?_⟩
  rw [abs_le]; constructor <;> nlinarith [sq_nonneg (x + y), sq_nonneg (x - y)]

theorem tfield_bound {nu x y z : ℝ} (hr : 0 < x ^ 2 + y ^ 2) (hz : 0 < z) :
    |(tUX nu).eval x y z| ≤ |1 / (2 * (1 - nu))| * (17 + |2 * nu| * 15) / hamM (x ^ 2 + y ^ 2) z ∧
    |(tUY nu).eval x y z| ≤ |1 / (2 * (1 - nu))| * (8 + |2 * nu| * 11) / hamM (x ^ 2 + y ^ 2) z ∧
    |(tUZ nu).eval x y z| ≤ |1 / (2 * (1 - nu))| * (|1 - 2 * nu| * 4 + 1) / hamM (x ^ 2 + y ^ 2) z := by
  obtain ⟨bV, bH, bG, bZ, bxG, bxV⟩ := parts_bound hr hz
  obtain ⟨r1, r2⟩ := ratio_le_one hr
  have hm := hamM_pos (r2 := x ^ 2 + y ^ 2) hz
  simp only [tUX, tUY, tUZ, eval_add, eval_mul, eval_sub, eval_neg, eval_pow, Ex.eval, V.val]
  generalize hamM (x ^ 2 + y ^ 2) z = m at *
  generalize pV.eval x y z = v at *
  generalize pH.eval x y z = h at *
  generalize pG.eval x y z = g at *
  generalize pVz.eval x y z = vz at *
  generalize pVx.eval x y z = vx at *
  generalize 1 / (2 * (1 - nu)) = c at *
  have hu : ∀ k : ℝ, k / m = k * (1 / m) := fun k => by ring
  rw [hu] at bV bH bG bZ bxG bxV
  have hi : 0 < 1 / m := by positivity
  generalize 1 / m = i at *
  have hvh : |v + 2 * h| ≤ 11 * i := by
    have := abs_add_le v (2 * h); rw [abs_mul 2 h, abs_of_pos (by norm_num : (0 : ℝ) < 2)] at this; linarith
  have hzg : |z * (vz + 2 * g)| ≤ 8 * i := by
    have := abs_add_le (z * vz) (2 * (z * g)); rw [abs_mul 2, abs_of_pos (by norm_num : (0 : ℝ) < 2)] at this
    rw [show z * (vz + 2 * g) = z * vz + 2 * (z * g) by ring]; linarith
  have one : ∀ a b k : ℝ, |a| ≤ 1 → |b| ≤ k → |a * b| ≤ k := fun a b k ha hb => by
    rw [abs_mul]; nlinarith [abs_nonneg a, abs_nonneg b]
  refine ⟨?_, ?_, ?_⟩
  · rw [abs_mul, mul_div_assoc]
    refine mul_le_mul_of_nonneg_left ?_ (abs_nonneg _)
    rw [hu (17 + _)]
    have e : 2 * v + 2 * nu * (h - x ^ 2 * (x ^ 2 + y ^ 2)⁻¹ * (v + 2 * h)) - z * (g - x ^ 2 * (x ^ 2 + y ^ 2)⁻¹ * (vz + 2 * g)) =
        2 * v + 2 * nu * (h - x ^ 2 * (x ^ 2 + y ^ 2)⁻¹ * (v + 2 * h)) - (z * g - x ^ 2 * (x ^ 2 + y ^ 2)⁻¹ * (z * (vz + 2 * g))) := by ring
    rw [e]
    have a1 := abs_sub h (x ^ 2 * (x ^ 2 + y ^ 2)⁻¹ * (v + 2 * h))
    have a2 := one _ _ _ r1 hvh
    have a3 := abs_sub (z * g) (x ^ 2 * (x ^ 2 + y ^ 2)⁻¹ * (z * (vz + 2 * g)))
    have a4 := one _ _ _ r1 hzg
    have a5 := abs_sub (2 * v + 2 * nu * (h - x ^ 2 * (x ^ 2 + y ^ 2)⁻¹ * (v + 2 * h))) (z * g - x ^ 2 * (x ^ 2 + y ^ 2)⁻¹ * (z * (vz + 2 * g)))
    have a6 := abs_add_le (2 * v) (2 * nu * (h - x ^ 2 * (x ^ 2 + y ^ 2)⁻¹ * (v + 2 * h)))
    rw [abs_mul 2 v, abs_of_pos (by norm_num : (0 : ℝ) < 2), abs_mul (2 * nu) (h - _)] at a6
    have a7 := mul_le_mul_of_nonneg_left (a := |2 * nu|) (a1.trans (show _ ≤ 15 * i by linarith)) (abs_nonneg _)
    nlinarith
  · rw [abs_mul, mul_div_assoc]
    refine mul_le_mul_of_nonneg_left ?_ (abs_nonneg _)
    rw [hu (8 + _)]
    refine one _ _ _ r2 ?_
    have a1 := abs_sub (z * (vz + 2 * g)) (2 * nu * (v + 2 * h))
    rw [abs_mul (2 * nu)] at a1
    have a7 := mul_le_mul_of_nonneg_left (a := |2 * nu|) hvh (abs_nonneg _)
    nlinarith
  · rw [show c * x * ((1 - 2 * nu) * g + z * vx) = c * ((1 - 2 * nu) * (x * g) + x * (z * vx)) by ring, abs_mul, mul_div_assoc]
    refine mul_le_mul_of_nonneg_left ?_ (abs_nonneg _)
    rw [hu (_ + 1)]
    have a1 := abs_add_le ((1 - 2 * nu) * (x * g)) (x * (z * vx))
    rw [abs_mul (1 - 2 * nu)] at a1
    have a7 := mul_le_mul_of_nonneg_left (a := |1 - 2 * nu|) bxG (abs_nonneg _)
    nlinarith

/-- **C131** For every Poisson number but one the stress of `stress_for_tangential_loading` is the elastic response of a half-space to the
tangential traction `√(1 - r²)` along `x`: there is a displacement field that gives the stress by Hooke's law at every point off the axis, the
stress is in balance there, the displacement tends to zero far away, and at the surface the shear stress tends to minus the traction (zero outside
the circle), with no normal stress and no shear along `y`. -/
theorem C131_elastic {nu : ℝ} (h1 : nu ≠ 1) : ∃ u : Field,
    (∀ x y z, 0 < x ^ 2 + y ^ 2 → 0 < z → Hooke nu u (tangential nu) x y z ∧ Balanced (tangential nu) x y z) ∧
    (∀ ε > 0, ∃ ρ, ∀ x y z, 0 < x ^ 2 + y ^ 2 → 0 < z → ρ ≤ x ^ 2 + y ^ 2 + z ^ 2 → |u.ux x y z| ≤ ε ∧ |u.uy x y z| ≤ ε ∧ |u.uz x y z| ≤ ε) ∧
    (∀ x y, 0 < x ^ 2 + y ^ 2 → x ^ 2 + y ^ 2 ≠ 1 →
      Filter.Tendsto (fun z => (tangential nu x y z).xz) (nhdsWithin 0 (Set.Ioi 0)) (nhds (-√(1 - (x ^ 2 + y ^ 2)))) ∧
      Filter.Tendsto (fun z => (tangential nu x y z).zz) (nhdsWithin 0 (Set.Ioi 0)) (nhds 0) ∧
      Filter.Tendsto (fun z => (tangential nu x y z).yz) (nhdsWithin 0 (Set.Ioi 0)) (nhds 0)) := by
  have h1' : 1 - nu ≠ 0 := sub_ne_zero.mpr (Ne.symm h1)
  refine ⟨_, fun x y z hr hz => ⟨thooke h1' hr hz, tbalanced hr hz⟩, ?_, ?_⟩
  · intro ε hε
    set C := max (max (|1 / (2 * (1 - nu))| * (17 + |2 * nu| * 15)) (|1 / (2 * (1 - nu))| * (8 + |2 * nu| * 11))) (|1 / (2 * (1 - nu))| * (|1 - 2 * nu| * 4 + 1)) with hC
    have hC0 : 0 < C := by
      refine lt_max_of_lt_left (lt_max_of_lt_left (mul_pos (abs_pos.mpr ?_) (by positivity)))
      exact one_div_ne_zero (mul_ne_zero two_ne_zero h1')
    refine ⟨(C / ε) ^ 2 + 1, fun x y z hr hz hρ => ?_⟩
    have hm := hamM_far (x := x) (y := y) (z := z)
    have hm0 := hamM_pos (r2 := x ^ 2 + y ^ 2) hz
    have hle : C / ε ≤ hamM (x ^ 2 + y ^ 2) z := by
      have : (C / ε) ^ 2 ≤ hamM (x ^ 2 + y ^ 2) z ^ 2 := by linarith
      exact abs_le_of_sq_le_sq' this hm0.le |>.2
    have hb : C / hamM (x ^ 2 + y ^ 2) z ≤ ε := by
      rw [div_le_iff₀ hm0]; rw [div_le_iff₀ hε] at hle; linarith
    obtain ⟨b1, b2, b3⟩ := tfield_bound (nu := nu) hr hz
    refine ⟨b1.trans (le_trans ?_ hb), b2.trans (le_trans ?_ hb), b3.trans (le_trans ?_ hb)⟩
    · exact div_le_div_of_nonneg_right ((le_max_left _ _).trans (le_max_left _ _)) hm0.le
    · exact div_le_div_of_nonneg_right ((le_max_right _ _).trans (le_max_left _ _)) hm0.le
    · exact div_le_div_of_nonneg_right (le_max_right _ _) hm0.le
  · intro x y hr hne
    have key : ∀ e : Ex, ∀ f : ℝ → ℝ, (∀ z, 0 < z → f z = e.eval x y z) → Filter.Tendsto f (nhdsWithin 0 (Set.Ioi 0)) (nhds (e.eval x y 0)) := by
      intro e f hf
      have h := (Ex_cont (x := x) (y := y) e fun _ => hne).tendsto.mono_left (nhdsWithin_le_nhds (s := Set.Ioi 0))
      refine h.congr' ?_
      filter_upwards [self_mem_nhdsWithin] with t ht
      exact (hf t ht).symm
    obtain ⟨cM, cN⟩ := surface_coords (x := x) (y := y)
    have hR := ham_r2 (r2 := x ^ 2 + y ^ 2) (z := 0) le_rfl
    have hMN : hamM (x ^ 2 + y ^ 2) 0 * hamN (x ^ 2 + y ^ 2) 0 = 0 := (ham_prod le_rfl).symm
    have z1 : tXZ.eval x y 0 = -√(1 - (x ^ 2 + y ^ 2)) := by
      simp only [tXZ, eA, eS, eR, eval_add, eval_mul, eval_sub, eval_neg, eval_pow, Ex.eval, V.val, ← cN]
      generalize hamN (x ^ 2 + y ^ 2) 0 = n at *
      generalize hamM (x ^ 2 + y ^ 2) 0 = m at *
      rcases mul_eq_zero.mp hMN with h | h
      · rw [h] at hR ⊢
        have hn : n ^ 2 = 1 - (x ^ 2 + y ^ 2) := by linarith
        rw [hn]; field_simp; ring
      · rw [h]; norm_num
    have z2 : tZZ.eval x y 0 = 0 := by simp only [tZZ, eval_mul, Ex.eval, V.val]; ring
    have z3 : tYZ.eval x y 0 = 0 := by simp only [tYZ, eval_mul, Ex.eval, V.val]; ring
    have k1 := key tXZ (fun z => (tangential nu x y z).xz) fun z _ => (tang_form (nu := nu) (z := z) hr).2.2.2.2.1
    have k2 := key tZZ (fun z => (tangential nu x y z).zz) fun z _ => (tang_form (nu := nu) (z := z) hr).2.2.1
    have k3 := key tYZ (fun z => (tangential nu x y z).yz) fun z _ => (tang_form (nu := nu) (z := z) hr).2.2.2.1
    rw [z1] at k1; rw [z2] at k2; rw [z3] at k3
    exact ⟨k1, k2, k3⟩

/-- **C131** At the surface itself, off the contact edge (where the code divides by zero), the code returns the limits: the shear stress along `x`
is minus the traction, the other components on the surface vanish. -/
theorem C131_surface {nu x y : ℝ} (hr : 0 < x ^ 2 + y ^ 2) (_hne : x ^ 2 + y ^ 2 ≠ 1) :
    (tangential nu x y 0).xz = -√(1 - (x ^ 2 + y ^ 2)) ∧ (tangential nu x y 0).zz = 0 ∧ (tangential nu x y 0).yz = 0 := by
  obtain ⟨cM, cN⟩ := surface_coords (x := x) (y := y)
  have hR := ham_r2 (r2 := x ^ 2 + y ^ 2) (z := 0) le_rfl
  have hMN : hamM (x ^ 2 + y ^ 2) 0 * hamN (x ^ 2 + y ^ 2) 0 = 0 := (ham_prod le_rfl).symm
  obtain ⟨-, -, g3, g4, g5, -⟩ := tang_form (nu := nu) (z := 0) hr
  refine ⟨g5.trans ?_, g3.trans ?_, g4.trans ?_⟩
  · simp only [tXZ, eA, eS, eR, eval_add, eval_mul, eval_sub, eval_neg, eval_pow, Ex.eval, V.val, ← cN]
    generalize hamN (x ^ 2 + y ^ 2) 0 = n at *
    generalize hamM (x ^ 2 + y ^ 2) 0 = m at *
    rcases mul_eq_zero.mp hMN with h | h
    · rw [h] at hR ⊢
      have hn : n ^ 2 = 1 - (x ^ 2 + y ^ 2) := by linarith
      rw [hn]; field_simp; ring
    · rw [h]; norm_num
  · simp only [tZZ, eval_mul, Ex.eval, V.val]; ring
  · simp only [tYZ, eval_mul, Ex.eval, V.val]; ring

example : (tangential 0.3 0.6 0 0).xz = -0.8 := by
  rw [(C131_surface (by norm_num) (by norm_num)).1]
  have : (1 : ℝ) - (0.6 ^ 2 + 0 ^ 2) = 0.8 ^ 2 := by norm_num
  rw [this, sqrt_sq (by norm_num)]

end CM.Ref.Hertz
