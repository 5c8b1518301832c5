import Verif.Props.SemiImages
import Mathlib.NumberTheory.ModularForms.EisensteinSeries.Summable
import Mathlib.Analysis.InnerProductSpace.Basic
import Mathlib.Analysis.Complex.Basic
import Mathlib.Order.Interval.Finset.Basic
import Mathlib.Data.Pi.Interval
import Mathlib.Data.Int.Interval
/-!
# Semi-periodic half-spaces: relative displacements converge with the number of images (C146)
-/
namespace CM.HS
open Finset Complex CM.FFT CM.Fourier CM.Spec CM.Tools MeasureTheory

/-- Second differences of the reciprocal distance. -/
lemma second_difference_algebra {A B C D x : ℝ} (hA : 0 < A) (hB : A / 2 ≤ B) (hC : A / 2 ≤ C) (hB' : B ≤ 2 * A) (hC' : C ≤ 2 * A)
    (hD : 0 ≤ D) (h1 : B ^ 2 = A ^ 2 + 2 * x + D ^ 2) (h2 : C ^ 2 = A ^ 2 - 2 * x + D ^ 2) (hx : |x| ≤ A * D) (hBC : |B - C| ≤ 2 * D) :
    |1 / B + 1 / C - 2 / A| ≤ 88 * D ^ 2 / A ^ 3 := by
  have hBp : 0 < B := by linarith
  have hCp : 0 < C := by linarith
  have e : 1 / B + 1 / C - 2 / A = 2 * x * (B - C) * (A + B + C) / (A * B * C * (A + B) * (A + C))
      - (D ^ 2 / (A * B * (A + B)) + D ^ 2 / (A * C * (A + C))) := by
    have e1 : 1 / B - 1 / A = -(2 * x + D ^ 2) / (A * B * (A + B)) := by
      field_simp; linarith
    have e2 : 1 / C - 1 / A = (2 * x - D ^ 2) / (A * C * (A + C)) := by
      field_simp; linarith
    have e3 : 1 / B + 1 / C - 2 / A = (1 / B - 1 / A) + (1 / C - 1 / A) := by ring
    rw [e3, e1, e2]
    field_simp
    ring
  have hA3 : 0 < A ^ 3 := by positivity
  have t1 : |2 * x * (B - C) * (A + B + C) / (A * B * C * (A + B) * (A + C))| ≤ 80 * D ^ 2 / A ^ 3 := by
    rw [abs_div, abs_mul, abs_mul, abs_mul, abs_of_pos (by positivity : (0:ℝ) < 2), abs_of_pos (by positivity : 0 < A + B + C),
      abs_of_pos (by positivity : 0 < A * B * C * (A + B) * (A + C))]
    rw [div_le_div_iff₀ (by positivity) hA3]
    have n1 : 2 * |x| * |B - C| * (A + B + C) ≤ 2 * (A * D) * (2 * D) * (5 * A) := by
      gcongr
      linarith
    have n2 : A * (A / 2) * (A / 2) * A * A ≤ A * B * C * (A + B) * (A + C) := by
      gcongr <;> linarith
    calc 2 * |x| * |B - C| * (A + B + C) * A ^ 3 ≤ 2 * (A * D) * (2 * D) * (5 * A) * A ^ 3 := by gcongr
      _ = 80 * D ^ 2 * (A * (A / 2) * (A / 2) * A * A) := by ring
      _ ≤ _ := by gcongr
  have t2 : ∀ Z : ℝ, A / 2 ≤ Z → D ^ 2 / (A * Z * (A + Z)) ≤ 4 * D ^ 2 / A ^ 3 := by
    intro Z hZ
    have hZp : 0 < Z := by linarith
    rw [div_le_div_iff₀ (by positivity) hA3]
    have n2 : A * (A / 2) * A ≤ A * Z * (A + Z) := by
      gcongr; linarith
    have : D ^ 2 * A ^ 3 = 2 * D ^ 2 * (A * (A / 2) * A) := by ring
    rw [this]
    have : 0 ≤ D ^ 2 * (A * Z * (A + Z)) := by positivity
    calc 2 * D ^ 2 * (A * (A / 2) * A) ≤ 2 * D ^ 2 * (A * Z * (A + Z)) := by gcongr
      _ ≤ _ := by linarith
  have t3 : ∀ Z : ℝ, A / 2 ≤ Z → 0 ≤ D ^ 2 / (A * Z * (A + Z)) := by
    intro Z hZ
    have hZp : 0 < Z := by linarith
    positivity
  rw [e]
  have k1 := abs_le.mp t1
  have k2 := t2 B hB
  have k3 := t2 C hC
  have k4 := t3 B hB
  have k5 := t3 C hC
  have e88 : 88 * D ^ 2 / A ^ 3 = 80 * D ^ 2 / A ^ 3 + (4 * D ^ 2 / A ^ 3 + 4 * D ^ 2 / A ^ 3) := by ring
  rw [e88, abs_le]
  constructor <;> linarith [k1.1, k1.2]

lemma second_difference {W δ : ℂ} (hW : 0 < ‖W‖) (h : 2 * ‖δ‖ ≤ ‖W‖) :
    |1 / ‖W + δ‖ + 1 / ‖W - δ‖ - 2 / ‖W‖| ≤ 88 * ‖δ‖ ^ 2 / ‖W‖ ^ 3 := by
  have n0 := norm_nonneg δ
  have n1 := norm_add_le W δ
  have n2 := norm_sub_le W δ
  have n3 : ‖W‖ - ‖δ‖ ≤ ‖W + δ‖ := by
    have := norm_sub_norm_le W (-δ)
    simpa using this
  have n4 := norm_sub_norm_le W δ
  refine second_difference_algebra (x := W.re * δ.re + W.im * δ.im) hW (by linarith) (by linarith) (by linarith) (by linarith) n0 ?_ ?_ ?_ ?_
  · rw [← Complex.normSq_eq_norm_sq, ← Complex.normSq_eq_norm_sq, ← Complex.normSq_eq_norm_sq]
    simp only [Complex.normSq_apply, Complex.add_re, Complex.add_im]; ring
  · rw [← Complex.normSq_eq_norm_sq, ← Complex.normSq_eq_norm_sq, ← Complex.normSq_eq_norm_sq]
    simp only [Complex.normSq_apply, Complex.sub_re, Complex.sub_im]; ring
  · have : W.re * δ.re + W.im * δ.im = (W * (starRingEnd ℂ) δ).re := by simp
    rw [this]
    refine (Complex.abs_re_le_norm _).trans ?_
    rw [norm_mul, Complex.norm_conj]
  · refine (abs_norm_sub_norm_le _ _).trans ?_
    have : W + δ - (W - δ) = 2 * δ := by ring
    rw [this, norm_mul]; norm_num

/-- The reciprocal distance, cut off at `c`. -/
noncomputable def cutoff (c : ℝ) (η ξ : ℝ) : ℝ := 1 / max (Real.sqrt (ξ ^ 2 + η ^ 2)) c

lemma cutoff_continuous {c : ℝ} (hc : 0 < c) : Continuous (Function.uncurry (cutoff c)) := by
  unfold cutoff
  apply Continuous.div continuous_const
  · fun_prop
  · intro z; exact (lt_of_lt_of_le hc (le_max_right _ _)).ne'

lemma norm_point (ξ η : ℝ) : ‖(⟨ξ, η⟩ : ℂ)‖ = Real.sqrt (ξ ^ 2 + η ^ 2) := by
  rw [Complex.norm_eq_sqrt_sq_add_sq]

/-- A pixel away from the origin, with the integral over the pixel written from its centre. -/
lemma pixel_centred {E dx dy x y c : ℝ} (hx : 0 < dx) (hy : 0 < dy)
    (hfar : ∀ η ∈ Set.Icc (-(dy / 2)) (dy / 2), ∀ ξ ∈ Set.Icc (-(dx / 2)) (dx / 2), c ≤ ‖(⟨x + ξ, y + η⟩ : ℂ)‖) :
    pixelGreens E dx dy x y = 1 / (Real.pi * E) * ∫ η in (-(dy / 2))..(dy / 2), ∫ ξ in (-(dx / 2))..(dx / 2), cutoff c (y + η) (x + ξ) := by
  unfold pixelGreens
  congr 1
  have h1 : ∫ η in (y - dy / 2)..(y + dy / 2), ∫ ξ in (x - dx / 2)..(x + dx / 2), 1 / Real.sqrt (ξ ^ 2 + η ^ 2)
      = ∫ η in (-(dy / 2))..(dy / 2), ∫ ξ in (-(dx / 2))..(dx / 2), 1 / Real.sqrt ((x + ξ) ^ 2 + (y + η) ^ 2) := by
    have := intervalIntegral.integral_comp_add_left (a := -(dy / 2)) (b := dy / 2)
      (fun η => ∫ ξ in (x - dx / 2)..(x + dx / 2), 1 / Real.sqrt (ξ ^ 2 + η ^ 2)) y
    rw [show y - dy / 2 = y + -(dy / 2) by ring, ← this]
    refine intervalIntegral.integral_congr fun η _ => ?_
    have := intervalIntegral.integral_comp_add_left (a := -(dx / 2)) (b := dx / 2)
      (fun ξ => 1 / Real.sqrt (ξ ^ 2 + (y + η) ^ 2)) x
    rw [show x - dx / 2 = x + -(dx / 2) by ring, ← this]
  rw [h1]
  refine intervalIntegral.integral_congr fun η hη => intervalIntegral.integral_congr fun ξ hξ => ?_
  rw [Set.uIcc_of_le (by linarith)] at hη hξ
  have := hfar η hη ξ hξ
  rw [norm_point] at this
  simp only [cutoff, max_eq_left this]

/-- Second differences of the displacement by a pixel decay like the third power of the distance. -/
lemma pixel_second_difference {E dx dy x y u v : ℝ} (hE : 0 < E) (hx : 0 < dx) (hy : 0 < dy)
    (hR : 4 * (‖(⟨u, v⟩ : ℂ)‖ + dx + dy) ≤ ‖(⟨x, y⟩ : ℂ)‖) :
    |pixelGreens E dx dy (x + u) (y + v) + pixelGreens E dx dy (x - u) (y - v) - 2 * pixelGreens E dx dy x y|
      ≤ 1 / (Real.pi * E) * (dx * dy * (704 * ‖(⟨u, v⟩ : ℂ)‖ ^ 2)) / ‖(⟨x, y⟩ : ℂ)‖ ^ 3 := by
  set R := ‖(⟨x, y⟩ : ℂ)‖ with hRdef
  set D := ‖(⟨u, v⟩ : ℂ)‖ with hD
  have hDn : 0 ≤ D := norm_nonneg _
  have hRp : 0 < R := by linarith
  have hpi := Real.pi_pos
  have small : ∀ η ∈ Set.Icc (-(dy / 2)) (dy / 2), ∀ ξ ∈ Set.Icc (-(dx / 2)) (dx / 2), ‖(⟨ξ, η⟩ : ℂ)‖ ≤ dx / 2 + dy / 2 := by
    intro η hη ξ hξ
    refine (Complex.norm_le_abs_re_add_abs_im _).trans ?_
    exact add_le_add (abs_le.mpr ⟨hξ.1, hξ.2⟩) (abs_le.mpr ⟨hη.1, hη.2⟩)
  have hW : ∀ η ∈ Set.Icc (-(dy / 2)) (dy / 2), ∀ ξ ∈ Set.Icc (-(dx / 2)) (dx / 2), 3 * R / 4 ≤ ‖(⟨x + ξ, y + η⟩ : ℂ)‖ := by
    intro η hη ξ hξ
    have h1 := small η hη ξ hξ
    have h2 := norm_sub_norm_le (⟨x, y⟩ : ℂ) (-⟨ξ, η⟩)
    rw [norm_neg, sub_neg_eq_add] at h2
    have : (⟨x, y⟩ : ℂ) + ⟨ξ, η⟩ = ⟨x + ξ, y + η⟩ := rfl
    rw [this] at h2
    linarith
  have hWp : ∀ η ∈ Set.Icc (-(dy / 2)) (dy / 2), ∀ ξ ∈ Set.Icc (-(dx / 2)) (dx / 2), R / 2 ≤ ‖(⟨x + u + ξ, y + v + η⟩ : ℂ)‖ := by
    intro η hη ξ hξ
    have h1 := hW η hη ξ hξ
    have h2 := norm_sub_norm_le (⟨x + ξ, y + η⟩ : ℂ) (-⟨u, v⟩)
    rw [norm_neg, sub_neg_eq_add] at h2
    have : (⟨x + ξ, y + η⟩ : ℂ) + ⟨u, v⟩ = ⟨x + u + ξ, y + v + η⟩ := by
      apply Complex.ext <;> simp <;> ring
    rw [this] at h2
    linarith
  have hWm : ∀ η ∈ Set.Icc (-(dy / 2)) (dy / 2), ∀ ξ ∈ Set.Icc (-(dx / 2)) (dx / 2), R / 2 ≤ ‖(⟨x - u + ξ, y - v + η⟩ : ℂ)‖ := by
    intro η hη ξ hξ
    have h1 := hW η hη ξ hξ
    have h2 := norm_sub_norm_le (⟨x + ξ, y + η⟩ : ℂ) ⟨u, v⟩
    have : (⟨x + ξ, y + η⟩ : ℂ) - ⟨u, v⟩ = ⟨x - u + ξ, y - v + η⟩ := by
      apply Complex.ext <;> simp <;> ring
    rw [this] at h2
    linarith
  have hW' : ∀ η ∈ Set.Icc (-(dy / 2)) (dy / 2), ∀ ξ ∈ Set.Icc (-(dx / 2)) (dx / 2), R / 2 ≤ ‖(⟨x + ξ, y + η⟩ : ℂ)‖ := by
    intro η hη ξ hξ
    have := hW η hη ξ hξ
    linarith
  rw [pixel_centred hx hy hWp, pixel_centred hx hy hWm, pixel_centred hx hy hW']
  have hc := cutoff_continuous (c := R / 2) (by linarith)
  have two : ∀ s t : ℝ, Continuous (fun z : ℝ × ℝ => cutoff (R / 2) (t + z.1) (s + z.2)) := fun s t =>
    hc.comp (by fun_prop : Continuous fun z : ℝ × ℝ => (t + z.1, s + z.2))
  have int1 : ∀ s t η : ℝ, IntervalIntegrable (fun ξ => cutoff (R / 2) (t + η) (s + ξ)) volume (-(dx / 2)) (dx / 2) := fun s t η =>
    ((two s t).comp (Continuous.prodMk_right η)).intervalIntegrable _ _
  have int2 : ∀ s t : ℝ, IntervalIntegrable (fun η => ∫ ξ in (-(dx / 2))..(dx / 2), cutoff (R / 2) (t + η) (s + ξ)) volume (-(dy / 2)) (dy / 2) := fun s t =>
    (intervalIntegral.continuous_parametric_intervalIntegral_of_continuous' (f := fun η ξ => cutoff (R / 2) (t + η) (s + ξ)) (two s t) _ _).intervalIntegrable _ _
  rw [← mul_add, mul_left_comm, ← mul_sub, abs_mul, abs_of_pos (by positivity : 0 < 1 / (Real.pi * E)), mul_div_assoc]
  refine mul_le_mul_of_nonneg_left ?_ (by positivity)
  rw [← intervalIntegral.integral_add (int2 _ _) (int2 _ _), ← intervalIntegral.integral_const_mul,
    ← intervalIntegral.integral_sub ((int2 _ _).add (int2 _ _)) ((int2 _ _).const_mul 2)]
  have inner : ∀ η ∈ Set.Icc (-(dy / 2)) (dy / 2), ‖(∫ ξ in (-(dx / 2))..(dx / 2), cutoff (R / 2) (y + v + η) (x + u + ξ))
      + (∫ ξ in (-(dx / 2))..(dx / 2), cutoff (R / 2) (y - v + η) (x - u + ξ))
      - 2 * ∫ ξ in (-(dx / 2))..(dx / 2), cutoff (R / 2) (y + η) (x + ξ)‖ ≤ dx * (704 * D ^ 2) / R ^ 3 := by
    intro η hη
    rw [← intervalIntegral.integral_add (int1 _ _ _) (int1 _ _ _), ← intervalIntegral.integral_const_mul,
      ← intervalIntegral.integral_sub ((int1 _ _ _).add (int1 _ _ _)) ((int1 _ _ _).const_mul 2)]
    have := intervalIntegral.norm_integral_le_of_norm_le_const (a := -(dx / 2)) (b := dx / 2) (C := 704 * D ^ 2 / R ^ 3)
      (f := fun ξ => cutoff (R / 2) (y + v + η) (x + u + ξ) + cutoff (R / 2) (y - v + η) (x - u + ξ) - 2 * cutoff (R / 2) (y + η) (x + ξ)) ?_
    · refine this.trans (le_of_eq ?_)
      rw [show dx / 2 - -(dx / 2) = dx by ring, abs_of_pos hx]; ring
    · intro ξ hξ
      rw [Set.uIoc_of_le (by linarith)] at hξ
      have hξ' : ξ ∈ Set.Icc (-(dx / 2)) (dx / 2) := ⟨hξ.1.le, hξ.2⟩
      have b1 := hW η hη ξ hξ'
      have b2 := hWp η hη ξ hξ'
      have b3 := hWm η hη ξ hξ'
      have b4 := hW' η hη ξ hξ'
      have key := second_difference (W := ⟨x + ξ, y + η⟩) (δ := ⟨u, v⟩) (by linarith) (by rw [← hD]; linarith)
      have e1 : (⟨x + ξ, y + η⟩ : ℂ) + ⟨u, v⟩ = ⟨x + u + ξ, y + v + η⟩ := by apply Complex.ext <;> simp <;> ring
      have e2 : (⟨x + ξ, y + η⟩ : ℂ) - ⟨u, v⟩ = ⟨x - u + ξ, y - v + η⟩ := by apply Complex.ext <;> simp <;> ring
      rw [e1, e2, ← hD] at key
      rw [norm_point] at b2 b3 b4
      simp only [cutoff, max_eq_left b2, max_eq_left b3, max_eq_left b4]
      rw [← norm_point, ← norm_point, ← norm_point, Real.norm_eq_abs, mul_one_div]
      refine key.trans ?_
      have hb : (R / 2) ^ 3 ≤ ‖(⟨x + ξ, y + η⟩ : ℂ)‖ ^ 3 := by
        apply pow_le_pow_left₀ (by linarith); linarith
      calc 88 * D ^ 2 / ‖(⟨x + ξ, y + η⟩ : ℂ)‖ ^ 3 ≤ 88 * D ^ 2 / (R / 2) ^ 3 := by gcongr
        _ = _ := by field_simp; ring
  have := intervalIntegral.norm_integral_le_of_norm_le_const (a := -(dy / 2)) (b := dy / 2) (C := dx * (704 * D ^ 2) / R ^ 3)
    (f := fun η => (∫ ξ in (-(dx / 2))..(dx / 2), cutoff (R / 2) (y + v + η) (x + u + ξ))
      + (∫ ξ in (-(dx / 2))..(dx / 2), cutoff (R / 2) (y - v + η) (x - u + ξ))
      - 2 * ∫ ξ in (-(dx / 2))..(dx / 2), cutoff (R / 2) (y + η) (x + ξ)) (fun η hη => by
        rw [Set.uIoc_of_le (by linarith)] at hη
        exact inner η ⟨hη.1.le, hη.2⟩)
  rw [Real.norm_eq_abs] at this
  refine this.trans (le_of_eq ?_)
  rw [show dy / 2 - -(dy / 2) = dy by ring, abs_of_pos hy]; ring

lemma pixelGreens_even (E dx dy x y : ℝ) : pixelGreens E dx dy (-x) (-y) = pixelGreens E dx dy x y := by
  unfold pixelGreens
  congr 1
  have := intervalIntegral.integral_comp_neg (a := y - dy / 2) (b := y + dy / 2) (fun η => ∫ ξ in (-x - dx / 2)..(-x + dx / 2), 1 / Real.sqrt (ξ ^ 2 + η ^ 2))
  rw [show -y - dy / 2 = -(y + dy / 2) by ring, show -y + dy / 2 = -(y - dy / 2) by ring, ← this]
  refine intervalIntegral.integral_congr fun η _ => ?_
  have := intervalIntegral.integral_comp_neg (a := x - dx / 2) (b := x + dx / 2) (fun ξ => 1 / Real.sqrt (ξ ^ 2 + (-η) ^ 2))
  rw [show -x - dx / 2 = -(x + dx / 2) by ring, show -x + dx / 2 = -(x - dx / 2) by ring, ← this]
  simp

/-- What image `(p, q)` and its opposite add to the kernel at `(d, e)` relative to the kernel at the origin. -/
noncomputable def pairTerm (E : ℝ) (nx ny : ℕ) (dx dy : ℝ) (d e : ℤ) (w : ℤ × ℤ) : ℝ :=
  pixelGreens E dx dy (((d + w.1 * nx : ℤ) : ℝ) * dx) (((e + w.2 * ny : ℤ) : ℝ) * dy)
    + pixelGreens E dx dy (((-d + w.1 * nx : ℤ) : ℝ) * dx) (((-e + w.2 * ny : ℤ) : ℝ) * dy)
    - 2 * pixelGreens E dx dy (((0 + w.1 * nx : ℤ) : ℝ) * dx) (((0 + w.2 * ny : ℤ) : ℝ) * dy)

lemma pairTerm_summable {E dx dy : ℝ} {nx ny : ℕ} (hE : 0 < E) (hx : 0 < dx) (hy : 0 < dy) (hnx : nx ≠ 0) (hny : ny ≠ 0) (d e : ℤ) :
    Summable (pairTerm E nx ny dx dy d e) := by
  have hxn : (1 : ℝ) ≤ nx := by exact_mod_cast Nat.one_le_iff_ne_zero.mpr hnx
  have hyn : (1 : ℝ) ≤ ny := by exact_mod_cast Nat.one_le_iff_ne_zero.mpr hny
  have hpi := Real.pi_pos
  set m := min dx dy with hm
  have hmp : 0 < m := lt_min hx hy
  set D := ‖(⟨(d : ℝ) * dx, (e : ℝ) * dy⟩ : ℂ)‖ with hD
  have hDn : 0 ≤ D := norm_nonneg _
  set R0 := 4 * (D + dx + dy) with hR0
  have hR0p : 0 < R0 := by positivity
  rw [← (finTwoArrowEquiv ℤ).summable_iff]
  set K := 1 / (Real.pi * E) * (dx * dy * (704 * D ^ 2)) / m ^ 3 with hK
  have hKn : 0 ≤ K := by positivity
  refine Summable.of_norm_bounded_eventually (g := fun v : Fin 2 → ℤ => K * ‖v‖ ^ (-(3 : ℝ)))
    ((EisensteinSeries.summable_one_div_norm_rpow (k := 3) (by norm_num)).mul_left K) ?_
  have hfin : (Metric.closedBall (0 : Fin 2 → ℤ) (R0 / m)).Finite := by
    have : Metric.closedBall (0 : Fin 2 → ℤ) (R0 / m) ⊆ (Set.Icc (fun _ => -⌈R0 / m⌉) (fun _ => ⌈R0 / m⌉)) := by
      intro v hv
      rw [mem_closedBall_zero_iff, pi_norm_le_iff_of_nonneg (by positivity)] at hv
      have hb : ∀ i, |v i| ≤ ⌈R0 / m⌉ := by
        intro i
        have := hv i
        rw [Int.norm_eq_abs] at this
        have h2 : ((|v i| : ℤ) : ℝ) ≤ (⌈R0 / m⌉ : ℤ) := by push_cast; exact this.trans (Int.le_ceil _)
        exact_mod_cast h2
      exact ⟨fun i => (abs_le.mp (hb i)).1, fun i => (abs_le.mp (hb i)).2⟩
    exact (Set.finite_Icc _ _).subset this
  refine (Set.Finite.eventually_cofinite_notMem hfin).mono ?_
  intro v hv
  rw [mem_closedBall_zero_iff, not_le] at hv
  have hvp : 0 < ‖v‖ := lt_trans (by positivity) hv
  show ‖pairTerm E nx ny dx dy d e (v 0, v 1)‖ ≤ _
  have hw : m * ‖v‖ ≤ ‖(⟨(v 0 : ℝ) * nx * dx, (v 1 : ℝ) * ny * dy⟩ : ℂ)‖ := by
    have : ‖v‖ ≤ ‖(⟨(v 0 : ℝ) * nx * dx, (v 1 : ℝ) * ny * dy⟩ : ℂ)‖ / m := by
      rw [pi_norm_le_iff_of_nonneg (by positivity)]
      intro i
      rw [Int.norm_eq_abs, le_div_iff₀ hmp]
      have aux : ∀ (k : ℤ) (n : ℕ) (t : ℝ), (1 : ℝ) ≤ n → m ≤ t → |(k : ℝ)| * m ≤ |(k : ℝ) * n * t| := by
        intro k n t hn ht
        have htp : 0 < t := lt_of_lt_of_le hmp ht
        rw [abs_mul, abs_mul, abs_of_pos htp, abs_of_pos (by linarith : (0:ℝ) < n)]
        have := abs_nonneg (k : ℝ)
        calc |(k : ℝ)| * m ≤ |(k : ℝ)| * t := by gcongr
          _ = |(k : ℝ)| * 1 * t := by ring
          _ ≤ _ := by gcongr
      fin_cases i
      · exact (aux (v 0) nx dx hxn (min_le_left _ _)).trans (Complex.abs_re_le_norm (⟨(v 0 : ℝ) * nx * dx, (v 1 : ℝ) * ny * dy⟩ : ℂ))
      · exact (aux (v 1) ny dy hyn (min_le_right _ _)).trans (Complex.abs_im_le_norm (⟨(v 0 : ℝ) * nx * dx, (v 1 : ℝ) * ny * dy⟩ : ℂ))
    rw [le_div_iff₀ hmp] at this
    linarith
  have hmv : 0 < m * ‖v‖ := by positivity
  have hbig : R0 ≤ ‖(⟨(v 0 : ℝ) * nx * dx, (v 1 : ℝ) * ny * dy⟩ : ℂ)‖ := by
    rw [div_lt_iff₀ hmp] at hv
    linarith
  have key := pixel_second_difference (x := (v 0 : ℝ) * nx * dx) (y := (v 1 : ℝ) * ny * dy) (u := (d : ℝ) * dx) (v := (e : ℝ) * dy) hE hx hy hbig
  rw [← hD] at key
  have hform : pairTerm E nx ny dx dy d e (v 0, v 1) = pixelGreens E dx dy ((v 0 : ℝ) * nx * dx + (d : ℝ) * dx) ((v 1 : ℝ) * ny * dy + (e : ℝ) * dy)
      + pixelGreens E dx dy ((v 0 : ℝ) * nx * dx - (d : ℝ) * dx) ((v 1 : ℝ) * ny * dy - (e : ℝ) * dy)
      - 2 * pixelGreens E dx dy ((v 0 : ℝ) * nx * dx) ((v 1 : ℝ) * ny * dy) := by
    unfold pairTerm
    push_cast
    congr 2
    · congr 1 <;> ring_nf
    · congr 1 <;> ring_nf
    · congr 1 <;> ring_nf
  rw [hform, Real.norm_eq_abs]
  refine key.trans ?_
  rw [Real.rpow_neg hvp.le, show ((3 : ℝ)) = ((3 : ℕ) : ℝ) by norm_num, Real.rpow_natCast, hK]
  calc 1 / (Real.pi * E) * (dx * dy * (704 * D ^ 2)) / ‖(⟨(v 0 : ℝ) * nx * dx, (v 1 : ℝ) * ny * dy⟩ : ℂ)‖ ^ 3
      ≤ 1 / (Real.pi * E) * (dx * dy * (704 * D ^ 2)) / (m * ‖v‖) ^ 3 := by gcongr
    _ = _ := by rw [mul_pow, ← div_div]; rfl

lemma images_neg (per : Bool) (N : ℤ) (F : ℤ → ℝ) : ∑ p ∈ images per N, F (-p) = ∑ p ∈ images per N, F p := by
  refine sum_bij' (fun p _ => -p) (fun p _ => -p) ?_ ?_ (fun p _ => neg_neg p) (fun p _ => neg_neg p) (fun p _ => rfl)
  all_goals
    intro p hp
    unfold images at hp ⊢
    cases per
    · simpa using hp
    · simp only [if_true, mem_Icc] at hp ⊢; omega

lemma imageSum_opposite {a : SemiArgs} (nx ny : ℕ) (dx dy : ℝ) (d e : ℤ) : imageSum a nx ny dx dy (-d) (-e) = imageSum a nx ny dx dy d e := by
  unfold imageSum
  rw [← images_neg a.perX]
  refine sum_congr rfl fun p _ => ?_
  rw [← images_neg a.perY]
  refine sum_congr rfl fun q _ => ?_
  rw [← pixelGreens_even]
  congr 1 <;> push_cast <;> ring

lemma imageSum_pairs {a : SemiArgs} (nx ny : ℕ) (dx dy : ℝ) (d e : ℤ) :
    2 * (imageSum a nx ny dx dy d e - imageSum a nx ny dx dy 0 0)
      = ∑ w ∈ images a.perX a.nImages ×ˢ images a.perY a.nImages, pairTerm a.young nx ny dx dy d e w := by
  have : 2 * (imageSum a nx ny dx dy d e - imageSum a nx ny dx dy 0 0)
      = imageSum a nx ny dx dy d e + imageSum a nx ny dx dy (-d) (-e) - 2 * imageSum a nx ny dx dy 0 0 := by rw [imageSum_opposite]; ring
  rw [this]
  unfold imageSum pairTerm
  simp only [← sum_product', mul_sum]
  rw [← sum_add_distrib, ← sum_sub_distrib]

/-- The images as part of the images in both directions. -/
lemma sum_images (perX perY : Bool) {N : ℤ} (hN : 0 ≤ N) (F : ℤ × ℤ → ℝ) :
    ∑ w ∈ images perX N ×ˢ images perY N, F w
      = ∑ w ∈ Icc (-N) N ×ˢ Icc (-N) N, Set.indicator {w : ℤ × ℤ | (perX = true ∨ w.1 = 0) ∧ (perY = true ∨ w.2 = 0)} F w := by
  symm
  have : images perX N ×ˢ images perY N ⊆ Icc (-N) N ×ˢ Icc (-N) N := by
    have h0 : ∀ per, images per N ⊆ Icc (-N) N := by
      intro per
      unfold images
      cases per
      · simp [hN]
      · simp
    exact product_subset_product (h0 _) (h0 _)
  rw [← sum_subset this]
  · refine sum_congr rfl fun w hw => Set.indicator_of_mem ?_ _
    rw [mem_product] at hw
    have h0 : ∀ (per : Bool) p, p ∈ images per N → per = true ∨ p = 0 := by
      intro per p hp
      unfold images at hp
      cases per
      · right; simpa using hp
      · left; rfl
    exact ⟨h0 _ _ hw.1, h0 _ _ hw.2⟩
  · intro w hw hn
    refine Set.indicator_of_notMem ?_ _
    rintro ⟨h1, h2⟩
    apply hn
    rw [mem_product] at hw ⊢
    have h0 : ∀ (per : Bool) p, p ∈ Icc (-N) N → (per = true ∨ p = 0) → p ∈ images per N := by
      intro per p hp h
      unfold images
      cases per
      · simpa using h
      · simpa using hp
    exact ⟨h0 _ _ hw.1 h1, h0 _ _ hw.2 h2⟩

/-- Relative to the origin, the kernel converges with the number of images. -/
lemma imageSum_relative {a : SemiArgs} {nx ny : ℕ} {dx dy : ℝ} (hE : 0 < a.young) (hx : 0 < dx) (hy : 0 < dy) (hnx : nx ≠ 0) (hny : ny ≠ 0) (d e : ℤ) :
    ∃ L : ℝ, Filter.Tendsto (fun N : ℕ => imageSum { a with nImages := (N : ℤ) } nx ny dx dy d e - imageSum { a with nImages := (N : ℤ) } nx ny dx dy 0 0)
      Filter.atTop (nhds L) := by
  have hs := (pairTerm_summable (E := a.young) hE hx hy hnx hny d e).indicator {w : ℤ × ℤ | (a.perX = true ∨ w.1 = 0) ∧ (a.perY = true ∨ w.2 = 0)}
  obtain ⟨L, hL⟩ := hs
  refine ⟨L / 2, ?_⟩
  have hbox : Filter.Tendsto (fun N : ℕ => Icc (-(N : ℤ)) N ×ˢ Icc (-(N : ℤ)) N) Filter.atTop Filter.atTop := by
    apply Filter.tendsto_atTop_finset_of_monotone
    · intro N M h
      have : Icc (-(N : ℤ)) N ⊆ Icc (-(M : ℤ)) M := Icc_subset_Icc (by simpa using h) (by exact_mod_cast h)
      exact product_subset_product this this
    · intro w
      refine ⟨w.1.natAbs + w.2.natAbs, ?_⟩
      rw [mem_product, mem_Icc, mem_Icc]
      constructor <;> constructor <;> omega
  have := (hL.comp hbox).div_const 2
  refine this.congr fun N => ?_
  have e1 := imageSum_pairs (a := { a with nImages := (N : ℤ) }) nx ny dx dy d e
  rw [sum_images _ _ (by positivity : (0 : ℤ) ≤ N)] at e1
  show (∑ w ∈ Icc (-(N : ℤ)) N ×ˢ Icc (-(N : ℤ)) N, _) / 2 = _
  rw [← e1]
  ring

/-- C146: relative displacements converge.  There is a displacement field such that, with enough images, all differences
between the displacements of two points of the surface are as close as desired to those of that field, whatever the forces. -/
theorem C146_relative {a : SemiArgs} {nx ny : ℕ} (hv : ValidSemi a) (hg : a.nbGridPts = [nx, ny]) (hnx : nx ≠ 0) (hny : ny ≠ 0)
    (hsz : a.physicalSizes ≠ []) (he : a.engineGrid = none) (f : NdArray ℝ) (hf : f.shape = [nx, ny]) :
    ∃ limit : ℕ → ℕ → ℝ, ∀ ε > 0, ∃ N0 : ℕ, ∀ N : ℤ, (N0 : ℤ) ≤ N →
      ∃ s u, constructSemi { a with nImages := N } = .ok s ∧ evaluateDispSemi s f false = .ok u ∧
        ∀ i j k l, i < nx → j < ny → k < nx → l < ny →
          |(u.get [i, j] - u.get [k, l]) - (limit i j - limit k l)| < ε := by
  obtain ⟨s, hs⟩ := C144_constructible a hg hnx hny hsz he
  have P := semi_of_construct hv hs hg
  have hx : (0 : ℝ) < nx := by exact_mod_cast Nat.pos_of_ne_zero P.hx
  have hy : (0 : ℝ) < ny := by exact_mod_cast Nat.pos_of_ne_zero P.hy
  have hdx := div_pos P.sx_pos hx
  have hdy := div_pos P.sy_pos hy
  set dx := sizeF a.free 0 / nx with hdxd
  set dy := sizeF a.free 1 / ny with hdyd
  choose L hL using fun d e => imageSum_relative (a := a) (nx := nx) (ny := ny) hv.young_pos hdx hdy hnx hny d e
  let lim : ℕ → ℕ → ℝ := fun i j => -∑ k ∈ range nx, ∑ l ∈ range ny,
    L (wrap a.perX nx ((i : ℤ) - k)) (wrap a.perY ny ((j : ℤ) - l)) * (f.get [k, l] / (dx * dy))
  have hconv : ∀ i j, Filter.Tendsto (fun N : ℕ => semiSum { a with nImages := (N : ℤ) } nx ny dx dy f i j
      + imageSum { a with nImages := (N : ℤ) } nx ny dx dy 0 0 * ∑ k ∈ range nx, ∑ l ∈ range ny, f.get [k, l] / (dx * dy)) Filter.atTop (nhds (lim i j)) := by
    intro i j
    have h1 : Filter.Tendsto (fun N : ℕ => -∑ k ∈ range nx, ∑ l ∈ range ny,
        (imageSum { a with nImages := (N : ℤ) } nx ny dx dy (wrap a.perX nx ((i : ℤ) - k)) (wrap a.perY ny ((j : ℤ) - l))
          - imageSum { a with nImages := (N : ℤ) } nx ny dx dy 0 0) * (f.get [k, l] / (dx * dy))) Filter.atTop (nhds (lim i j)) :=
      (tendsto_finsetSum _ fun k _ => tendsto_finsetSum _ fun l _ => (hL _ _).mul_const _).neg
    refine h1.congr fun N => ?_
    unfold semiSum
    simp only [sub_mul, sum_sub_distrib, mul_sum]
    ring
  refine ⟨lim, fun ε hε => ?_⟩
  have hev : ∀ᶠ N : ℕ in Filter.atTop, ∀ i ∈ range nx, ∀ j ∈ range ny, |semiSum { a with nImages := (N : ℤ) } nx ny dx dy f i j
      + imageSum { a with nImages := (N : ℤ) } nx ny dx dy 0 0 * (∑ k ∈ range nx, ∑ l ∈ range ny, f.get [k, l] / (dx * dy)) - lim i j| < ε / 2 := by
    rw [Filter.eventually_all_finset]
    intro i _
    rw [Filter.eventually_all_finset]
    intro j _
    have := (Metric.tendsto_nhds.mp (hconv i j)) (ε / 2) (by linarith)
    simpa only [Real.dist_eq] using this
  obtain ⟨N0, hN0⟩ := Filter.eventually_atTop.mp hev
  refine ⟨N0, fun N hN => ?_⟩
  obtain ⟨M, rfl⟩ := Int.eq_ofNat_of_zero_le (le_trans (by positivity) hN)
  have hM := hN0 M (by exact_mod_cast hN)
  obtain ⟨s', hs'⟩ := C144_constructible { a with nImages := (M : ℤ) } hg hnx hny hsz he
  obtain ⟨u, hu, -, hu'⟩ := C29_direct_sum (a := { a with nImages := (M : ℤ) }) ⟨hv.sizes_pos, hv.young_pos⟩ hs' hg f hf
  refine ⟨s', u, hs', hu, fun i j k l hi hj hk hl => ?_⟩
  rw [hu' i j hi hj, hu' k l hk hl]
  have b1 := abs_lt.mp (hM i (mem_range.mpr hi) j (mem_range.mpr hj))
  have b2 := abs_lt.mp (hM k (mem_range.mpr hk) l (mem_range.mpr hl))
  show |semiSum { a with nImages := (M : ℤ) } nx ny dx dy f i j - semiSum { a with nImages := (M : ℤ) } nx ny dx dy f k l - _| < ε
  rw [abs_lt]
  constructor <;> linarith [b1.1, b1.2, b2.1, b2.2]

/-- The hypotheses can be met: a surface that is periodic in both directions. -/
example : ∃ a : SemiArgs, ValidSemi a ∧ a.nbGridPts = [3, 4] ∧ a.physicalSizes ≠ [] ∧ a.engineGrid = none ∧ a.perX = true ∧ a.perY = true :=
  ⟨⟨[3, 4], 1, [1, 2], true, true, 10, none⟩, ⟨by simp, by norm_num⟩, rfl, by simp, rfl, rfl, rfl⟩

end CM.HS
