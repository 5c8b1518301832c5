import Verif.Props.SemiPeriodic2
import Mathlib.Analysis.PSeries
import Mathlib.MeasureTheory.Integral.DominatedConvergence
import Mathlib.MeasureTheory.Integral.IntervalIntegral.Basic
/-!
# Semi-periodic half-spaces: the number of images (C146)
-/
namespace CM.HS
open Finset Complex CM.FFT CM.Fourier CM.Spec CM.Tools MeasureTheory

variable {a : SemiArgs} {s : HalfSpace} {nx ny : ℕ}

lemma imageTerm_pos {E dx dy : ℝ} (hE : 0 < E) (hx : 0 < dx) (hy : 0 < dy) (d e : ℤ) (n m : ℕ) (p q : ℤ) :
    0 < pixelGreens E dx dy (((d + p * n : ℤ) : ℝ) * dx) (((e + q * m : ℤ) : ℝ) * dy) := pixelGreens_pos hE hx hy _ _

lemma images_mono (per : Bool) {N M : ℤ} (h : N ≤ M) : images per N ⊆ images per M := by
  unfold images
  cases per
  · simp
  · simp only [if_true]
    intro p hp
    rw [mem_Icc] at hp ⊢; omega

lemma zero_mem_images (per : Bool) {N : ℤ} (h : 0 ≤ N) : (0 : ℤ) ∈ images per N := by
  unfold images
  cases per
  · simp
  · simp only [if_true, mem_Icc]; omega

lemma imageSum_pos {dx dy : ℝ} (hE : 0 < a.young) (hx : 0 < dx) (hy : 0 < dy) (hN : 0 ≤ a.nImages) (d e : ℤ) :
    0 < imageSum a nx ny dx dy d e := by
  unfold imageSum
  apply sum_pos
  · intro p _
    apply sum_pos
    · intro q _; exact imageTerm_pos hE hx hy d e nx ny p q
    · exact ⟨0, zero_mem_images _ hN⟩
  · exact ⟨0, zero_mem_images _ hN⟩

lemma imageSum_mono {dx dy : ℝ} {N M : ℤ} (hE : 0 < a.young) (hx : 0 < dx) (hy : 0 < dy) (h : N ≤ M) (d e : ℤ) :
    imageSum { a with nImages := N } nx ny dx dy d e ≤ imageSum { a with nImages := M } nx ny dx dy d e := by
  unfold imageSum
  refine (sum_le_sum_of_subset_of_nonneg (images_mono a.perX h) ?_).trans (sum_le_sum ?_)
  · intro p _ _
    exact sum_nonneg fun q _ => (imageTerm_pos hE hx hy d e nx ny p q).le
  · intro p _
    exact sum_le_sum_of_subset_of_nonneg (images_mono a.perY h) fun q _ _ => (imageTerm_pos hE hx hy d e nx ny p q).le

section
variable (hv : ValidSemi a) (hs : constructSemi a = .ok s) (hg : a.nbGridPts = [nx, ny])
include hv hs hg

/-- C146: compressive forces, not all zero, move every point of the surface in the positive direction. -/
theorem C146_positive (hN : 0 ≤ a.nImages) (f : NdArray ℝ) (hf : f.shape = [nx, ny])
    (hneg : ∀ i j, i < nx → j < ny → f.get [i, j] ≤ 0) (hne : ∃ i j, i < nx ∧ j < ny ∧ f.get [i, j] ≠ 0) :
    ∃ u, evaluateDispSemi s f false = .ok u ∧ ∀ i j, i < nx → j < ny → 0 < u.get [i, j] := by
  have P := semi_of_construct hv hs hg
  have hx : (0 : ℝ) < nx := by exact_mod_cast Nat.pos_of_ne_zero P.hx
  have hy : (0 : ℝ) < ny := by exact_mod_cast Nat.pos_of_ne_zero P.hy
  have h1 := P.sx_pos; have h2 := P.sy_pos
  obtain ⟨u, hu, -, hu'⟩ := C29_direct_sum hv hs hg f hf
  refine ⟨u, hu, fun i j hi hj => ?_⟩
  rw [hu' i j hi hj, semiSum, ← sum_neg_distrib]
  have hG := fun d e => imageSum_pos (nx := nx) (ny := ny) hv.young_pos (div_pos h1 hx) (div_pos h2 hy) hN d e
  have hterm : ∀ k l, k < nx → l < ny → 0 ≤ -(imageSum a nx ny (sizeF a.free 0 / nx) (sizeF a.free 1 / ny)
      (wrap a.perX nx ((i : ℤ) - k)) (wrap a.perY ny ((j : ℤ) - l)) * (f.get [k, l] / (sizeF a.free 0 / nx * (sizeF a.free 1 / ny)))) := by
    intro k l hk hl
    rw [← mul_neg]
    exact mul_nonneg (hG _ _).le (neg_nonneg.mpr (div_nonpos_of_nonpos_of_nonneg (hneg k l hk hl) (by positivity)))
  obtain ⟨k0, l0, hk0, hl0, hn⟩ := hne
  apply sum_pos'
  · intro k hk
    rw [← sum_neg_distrib]
    exact sum_nonneg fun l hl => hterm k l (mem_range.mp hk) (mem_range.mp hl)
  · refine ⟨k0, mem_range.mpr hk0, ?_⟩
    rw [← sum_neg_distrib]
    apply sum_pos' (fun l hl => hterm k0 l hk0 (mem_range.mp hl))
    refine ⟨l0, mem_range.mpr hl0, ?_⟩
    rw [← mul_neg]
    refine mul_pos (hG _ _) (neg_pos.mpr (div_neg_of_neg_of_pos (lt_of_le_of_ne (hneg k0 l0 hk0 hl0) hn) (by positivity)))

/-- C146: more images never make the displacement by compressive forces smaller. -/
theorem C146_monotone {M : ℤ} (hM : a.nImages ≤ M) {s' : HalfSpace} (hs' : constructSemi { a with nImages := M } = .ok s')
    (f : NdArray ℝ) (hf : f.shape = [nx, ny]) (hneg : ∀ i j, i < nx → j < ny → f.get [i, j] ≤ 0) :
    ∃ u v, evaluateDispSemi s f false = .ok u ∧ evaluateDispSemi s' f false = .ok v ∧
      ∀ i j, i < nx → j < ny → u.get [i, j] ≤ v.get [i, j] := by
  have P := semi_of_construct hv hs hg
  have hx : (0 : ℝ) < nx := by exact_mod_cast Nat.pos_of_ne_zero P.hx
  have hy : (0 : ℝ) < ny := by exact_mod_cast Nat.pos_of_ne_zero P.hy
  have h1 := P.sx_pos; have h2 := P.sy_pos
  obtain ⟨u, hu, -, hu'⟩ := C29_direct_sum hv hs hg f hf
  obtain ⟨v, hv1, -, hv'⟩ := C29_direct_sum (a := { a with nImages := M }) ⟨hv.sizes_pos, hv.young_pos⟩ hs' hg f hf
  refine ⟨u, v, hu, hv1, fun i j hi hj => ?_⟩
  rw [hu' i j hi hj, hv' i j hi hj]
  unfold semiSum
  apply neg_le_neg
  refine sum_le_sum fun k hk => sum_le_sum fun l hl => ?_
  refine mul_le_mul_of_nonpos_right ?_ (div_nonpos_of_nonpos_of_nonneg (hneg k l (mem_range.mp hk) (mem_range.mp hl)) (by positivity))
  exact imageSum_mono (a := a) (N := a.nImages) hv.young_pos (div_pos h1 hx) (div_pos h2 hy) hM _ _

end

/-! ### Divergence -/

/-- Far pixels: the Boussinesq solution is at least area over distance. -/
lemma pixelGreens_ge {E dx dy x y : ℝ} (hE : 0 < E) (hx : 0 < dx) (hy : 0 < dy) (hxx : dx ≤ x ∨ dy ≤ y) :
    1 / (Real.pi * E) * (dx * dy / (|x| + dx / 2 + |y| + dy / 2)) ≤ pixelGreens E dx dy x y := by
  unfold pixelGreens
  apply mul_le_mul_of_nonneg_left _ (by positivity)
  set R := |x| + dx / 2 + |y| + dy / 2 with hR
  have hRp : 0 < R := by positivity
  set c := min dx dy / 2 with hc
  have hcp : 0 < c := by have := lt_min hx hy; positivity
  let g : ℝ → ℝ → ℝ := fun η ξ => 1 / max (Real.sqrt (ξ ^ 2 + η ^ 2)) c
  have hpos : ∀ η ξ : ℝ, 0 < max (Real.sqrt (ξ ^ 2 + η ^ 2)) c := fun η ξ => lt_of_lt_of_le hcp (le_max_right _ _)
  have hgc : Continuous (Function.uncurry g) := by
    apply Continuous.div continuous_const
    · fun_prop
    · intro z; exact (hpos z.1 z.2).ne'
  have hfar : ∀ η ∈ Set.Icc (y - dy / 2) (y + dy / 2), ∀ ξ ∈ Set.Icc (x - dx / 2) (x + dx / 2),
      max (Real.sqrt (ξ ^ 2 + η ^ 2)) c = Real.sqrt (ξ ^ 2 + η ^ 2) := by
    intro η hη ξ hξ
    apply max_eq_left
    apply Real.le_sqrt_of_sq_le
    rcases hxx with h | h
    · have : c ≤ ξ := by
        have := min_le_left dx dy
        linarith [hξ.1]
      nlinarith [sq_nonneg η]
    · have : c ≤ η := by
        have := min_le_right dx dy
        linarith [hη.1]
      nlinarith [sq_nonneg ξ]
  have hab : ∀ {t z h : ℝ}, t ∈ Set.Icc (z - h / 2) (z + h / 2) → |t| ≤ |z| + h / 2 := by
    intro t z h ht
    rw [abs_le]
    have := neg_abs_le z
    have := le_abs_self z
    constructor <;> linarith [ht.1, ht.2]
  have hge : ∀ η ∈ Set.Icc (y - dy / 2) (y + dy / 2), ∀ ξ ∈ Set.Icc (x - dx / 2) (x + dx / 2), 1 / R ≤ g η ξ := by
    intro η hη ξ hξ
    apply one_div_le_one_div_of_le (hpos η ξ)
    rw [hfar η hη ξ hξ]
    have h1 := hab hη
    have h0 := hab hξ
    have h2 : Real.sqrt (ξ ^ 2 + η ^ 2) ≤ |ξ| + |η| := by
      apply Real.sqrt_le_iff.mpr
      refine ⟨by positivity, ?_⟩
      have : |η| ^ 2 = η ^ 2 := sq_abs η
      have : |ξ| ^ 2 = ξ ^ 2 := sq_abs ξ
      nlinarith [mul_nonneg (abs_nonneg ξ) (abs_nonneg η)]
    linarith
  have hcongr : ∫ η in (y - dy / 2)..(y + dy / 2), ∫ ξ in (x - dx / 2)..(x + dx / 2), 1 / Real.sqrt (ξ ^ 2 + η ^ 2)
      = ∫ η in (y - dy / 2)..(y + dy / 2), ∫ ξ in (x - dx / 2)..(x + dx / 2), g η ξ := by
    apply intervalIntegral.integral_congr
    intro η hη
    apply intervalIntegral.integral_congr
    intro ξ hξ
    rw [Set.uIcc_of_le (by linarith)] at hξ hη
    simp only [g, hfar η hη ξ hξ]
  rw [hcongr]
  have hin : ∀ η ∈ Set.Icc (y - dy / 2) (y + dy / 2), dx / R ≤ ∫ ξ in (x - dx / 2)..(x + dx / 2), g η ξ := by
    intro η hη
    have : dx / R = ∫ _ in (x - dx / 2)..(x + dx / 2), 1 / R := by
      rw [intervalIntegral.integral_const, smul_eq_mul]; ring
    rw [this]
    apply intervalIntegral.integral_mono_on (by linarith) (by simp)
    · exact (hgc.comp (Continuous.prodMk_right η)).intervalIntegrable _ _
    · exact hge η hη
  have : dx * dy / R = ∫ _ in (y - dy / 2)..(y + dy / 2), dx / R := by
    rw [intervalIntegral.integral_const, smul_eq_mul]; ring
  rw [this]
  apply intervalIntegral.integral_mono_on (by linarith) (by simp)
  · exact (intervalIntegral.continuous_parametric_intervalIntegral_of_continuous' hgc _ _).intervalIntegrable _ _
  · exact hin

lemma abs_wrap_le (per : Bool) {n i k : ℕ} (hi : i < n) (hk : k < n) : |wrap per n ((i : ℤ) - k)| ≤ n := by
  unfold wrap
  cases per
  · simp only [Bool.false_eq_true, if_false]
    rw [abs_le]; omega
  · simp only [if_true]
    have b1 := Int.emod_nonneg ((i : ℤ) - k + n / 2) (by omega : (n : ℤ) ≠ 0)
    have b2 := Int.emod_lt_of_pos ((i : ℤ) - k + n / 2) (by omega : (0 : ℤ) < n)
    rw [abs_le]; omega

/-- The harmonic bound on a sum over the images of one direction. -/
lemma harmonic_le (C : ℝ) (hC : 0 < C) (M : ℝ) : ∃ N0 : ℕ, ∀ N : ℤ, (N0 : ℤ) ≤ N → ∀ F : ℤ → ℝ, (∀ p, 0 ≤ F p) →
    (∀ p : ℕ, 2 ≤ p → C / ((p : ℝ) + 1) ≤ F p) → M < ∑ p ∈ Icc (-N) N, F p := by
  have ht := Real.tendsto_sum_range_one_div_nat_succ_atTop.const_mul_atTop hC
  obtain ⟨n, hn⟩ := (ht.eventually_gt_atTop (M + 2 * C)).exists_forall_of_atTop
  refine ⟨n, fun N hN F h0 hF => ?_⟩
  have h1 : ∑ p ∈ range n, F (p : ℤ) ≤ ∑ p ∈ Icc (-N) N, F p := by
    rw [← sum_image (f := F) (g := fun p : ℕ => (p : ℤ)) (by intro x _ y _ h; exact Int.ofNat_inj.mp h)]
    apply sum_le_sum_of_subset_of_nonneg
    · intro p hp
      obtain ⟨k, hk, rfl⟩ := mem_image.mp hp
      rw [mem_range] at hk
      rw [mem_Icc]; constructor <;> omega
    · intro p _ _; exact h0 p
  have h2 : C * ∑ i ∈ range n, 1 / ((i : ℝ) + 1) - 2 * C ≤ ∑ p ∈ range n, F (p : ℤ) := by
    have : ∀ m : ℕ, C * ∑ i ∈ range m, 1 / ((i : ℝ) + 1) - 2 * C ≤ ∑ p ∈ range m, F (p : ℤ) ∧
        (m < 2 → C * ∑ i ∈ range m, 1 / ((i : ℝ) + 1) ≤ m * C) := by
      intro m
      induction m with
      | zero => simp; linarith
      | succ m ih =>
        rw [sum_range_succ, sum_range_succ, mul_add]
        have e : C * (1 / ((m : ℝ) + 1)) = C / ((m : ℝ) + 1) := by ring
        have hle : C / ((m : ℝ) + 1) ≤ C := by
          apply div_le_self hC.le; linarith [(Nat.cast_nonneg m : (0 : ℝ) ≤ m)]
        by_cases hm : m < 2
        · have k1 := ih.2 hm
          have k2 : 0 ≤ ∑ p ∈ range m, F (p : ℤ) := sum_nonneg fun p _ => h0 p
          have k3 := h0 (m : ℤ)
          have k4 : (m : ℝ) ≤ 1 := by exact_mod_cast Nat.lt_succ_iff.mp hm
          refine ⟨?_, fun _ => ?_⟩
          · nlinarith
          · push_cast; nlinarith
        · refine ⟨?_, fun h => by omega⟩
          have := hF m (by omega)
          linarith [ih.1]
    exact (this n).1
  have h3 := hn n (le_refl _)
  linarith

/-- With a periodic direction the kernel grows beyond every bound with the number of images, uniformly on the domain. -/
lemma imageSum_unbounded {dx dy : ℝ} (hE : 0 < a.young) (hx : 0 < dx) (hy : 0 < dy) (hnx : nx ≠ 0) (hny : ny ≠ 0)
    (hper : a.perX = true ∨ a.perY = true) (M : ℝ) : ∃ N0 : ℕ, ∀ N : ℤ, (N0 : ℤ) ≤ N → ∀ d e : ℤ, |d| ≤ nx → |e| ≤ ny →
      M < imageSum { a with nImages := N } nx ny dx dy d e := by
  have hxn : (1 : ℝ) ≤ nx := by exact_mod_cast Nat.one_le_iff_ne_zero.mpr hnx
  have hyn : (1 : ℝ) ≤ ny := by exact_mod_cast Nat.one_le_iff_ne_zero.mpr hny
  have hpi := Real.pi_pos
  set K : ℝ := 2 * nx * dx + 2 * ny * dy with hK
  have hKp : 0 < K := by positivity
  obtain ⟨N0, hN0⟩ := harmonic_le (1 / (Real.pi * a.young) * (dx * dy / K)) (by positivity) M
  refine ⟨N0, fun N hN d e hd he => ?_⟩
  have hN' : 0 ≤ N := le_trans (by positivity) hN
  have hdn : |(d : ℝ)| ≤ nx := by exact_mod_cast hd
  have hen : |(e : ℝ)| ≤ ny := by exact_mod_cast he
  -- one direction
  have bound : ∀ p q : ℕ, (2 ≤ p ∧ q = 0) ∨ (2 ≤ q ∧ p = 0) →
      1 / (Real.pi * a.young) * (dx * dy / K) / (((p + q : ℕ) : ℝ) + 1)
        ≤ pixelGreens a.young dx dy (((d + (p : ℤ) * nx : ℤ) : ℝ) * dx) (((e + (q : ℤ) * ny : ℤ) : ℝ) * dy) := by
    intro p q hpq
    have hdl := abs_le.mp hdn
    have hel := abs_le.mp hen
    refine le_trans ?_ (pixelGreens_ge hE hx hy ?_)
    · rw [mul_div_assoc]
      apply mul_le_mul_of_nonneg_left _ (by positivity)
      rw [div_div]
      apply div_le_div_of_nonneg_left (by positivity) (by positivity)
      rw [abs_mul, abs_mul, abs_of_pos hx, abs_of_pos hy]
      push_cast
      have hp0 : (0 : ℝ) ≤ p := Nat.cast_nonneg p
      have hq0 : (0 : ℝ) ≤ q := Nat.cast_nonneg q
      have a1 : |(d : ℝ) + p * nx| ≤ nx + p * nx := by
        rw [abs_le]; constructor <;> nlinarith
      have a2 : |(e : ℝ) + q * ny| ≤ ny + q * ny := by
        rw [abs_le]; constructor <;> nlinarith
      have a3 := mul_le_mul_of_nonneg_right a1 hx.le
      have a4 := mul_le_mul_of_nonneg_right a2 hy.le
      have e1 : 0 ≤ (p : ℝ) * (nx * dx) := by positivity
      have e2 : 0 ≤ (p : ℝ) * (ny * dy) := by positivity
      have e3 : 0 ≤ (q : ℝ) * (nx * dx) := by positivity
      have e4 : 0 ≤ (q : ℝ) * (ny * dy) := by positivity
      have e5 : dx ≤ nx * dx := by nlinarith
      have e6 : dy ≤ ny * dy := by nlinarith
      rw [hK]
      nlinarith
    · rcases hpq with ⟨hp, rfl⟩ | ⟨hq, rfl⟩
      · left
        have : (2 : ℝ) ≤ p := by exact_mod_cast hp
        push_cast
        have : 1 ≤ (d : ℝ) + p * nx := by nlinarith
        nlinarith
      · right
        have : (2 : ℝ) ≤ q := by exact_mod_cast hq
        push_cast
        have : 1 ≤ (e : ℝ) + q * ny := by nlinarith
        nlinarith
  have hterm := fun p q => (imageTerm_pos hE hx hy d e nx ny p q).le
  unfold imageSum
  rcases hper with h | h
  · simp only [h, images, if_true]
    apply hN0 N hN
    · intro p; exact sum_nonneg fun q _ => hterm p q
    · intro p hp
      refine le_trans ?_ (single_le_sum (f := fun q => pixelGreens a.young dx dy (((d + (p : ℤ) * nx : ℤ) : ℝ) * dx)
        (((e + q * ny : ℤ) : ℝ) * dy)) (fun q _ => hterm p q) (zero_mem_images a.perY hN'))
      simpa using bound p 0 (.inl ⟨hp, rfl⟩)
  · rw [sum_comm]
    simp only [h, images, if_true]
    apply hN0 N hN
    · intro q; exact sum_nonneg fun p _ => hterm p q
    · intro q hq
      refine le_trans ?_ (single_le_sum (f := fun p => pixelGreens a.young dx dy (((d + p * nx : ℤ) : ℝ) * dx)
        (((e + (q : ℤ) * ny : ℤ) : ℝ) * dy)) (fun p _ => hterm p q) (zero_mem_images a.perX hN'))
      simpa using bound 0 q (.inr ⟨hq, rfl⟩)

/-- C146: with a periodic direction `n_images` is not a parameter in which absolute displacements converge: those by
compressive forces exceed every bound, everywhere, once there are enough images. -/
theorem C146_unbounded (hv : ValidSemi a) (hg : a.nbGridPts = [nx, ny]) (hper : a.perX = true ∨ a.perY = true) (f : NdArray ℝ)
    (hf : f.shape = [nx, ny]) (hneg : ∀ i j, i < nx → j < ny → f.get [i, j] ≤ 0) (hne : ∃ i j, i < nx ∧ j < ny ∧ f.get [i, j] ≠ 0)
    (hsz : a.physicalSizes ≠ []) (he : a.engineGrid = none) (M : ℝ) : ∃ N0 : ℕ, ∀ N : ℤ, (N0 : ℤ) ≤ N →
      ∃ s u, constructSemi { a with nImages := N } = .ok s ∧ evaluateDispSemi s f false = .ok u ∧
        ∀ i j, i < nx → j < ny → M < u.get [i, j] := by
  obtain ⟨k0, l0, hk0, hl0, hn⟩ := hne
  have hnx : nx ≠ 0 := by omega
  have hny : ny ≠ 0 := by omega
  obtain ⟨s, hs⟩ := C144_constructible a hg hnx hny hsz he
  have P := semi_of_construct hv hs hg
  have hx : (0 : ℝ) < nx := by exact_mod_cast Nat.pos_of_ne_zero P.hx
  have hy : (0 : ℝ) < ny := by exact_mod_cast Nat.pos_of_ne_zero P.hy
  have h1 := P.sx_pos; have h2 := P.sy_pos
  have hdx := div_pos h1 hx
  have hdy := div_pos h2 hy
  have hf0 : 0 < -(f.get [k0, l0] / (sizeF a.free 0 / nx * (sizeF a.free 1 / ny))) :=
    neg_pos.mpr (div_neg_of_neg_of_pos (lt_of_le_of_ne (hneg k0 l0 hk0 hl0) hn) (by positivity))
  set w := -(f.get [k0, l0] / (sizeF a.free 0 / nx * (sizeF a.free 1 / ny))) with hw
  obtain ⟨N0, hN0⟩ := imageSum_unbounded (a := a) hv.young_pos hdx hdy hnx hny hper (M / w)
  refine ⟨N0, fun N hN => ?_⟩
  obtain ⟨s', hs'⟩ := C144_constructible { a with nImages := N } hg hnx hny hsz he
  obtain ⟨u, hu, -, hu'⟩ := C29_direct_sum (a := { a with nImages := N }) ⟨hv.sizes_pos, hv.young_pos⟩ hs' hg f hf
  refine ⟨s', u, hs', hu, fun i j hi hj => ?_⟩
  rw [hu' i j hi hj, semiSum, ← sum_neg_distrib]
  have hN' : 0 ≤ N := le_trans (by positivity) hN
  have hG := fun d e => imageSum_pos (a := { a with nImages := N }) (nx := nx) (ny := ny) hv.young_pos hdx hdy hN' d e
  have hterm : ∀ k l, k < nx → l < ny → 0 ≤ -(imageSum { a with nImages := N } nx ny (sizeF a.free 0 / nx) (sizeF a.free 1 / ny)
      (wrap a.perX nx ((i : ℤ) - k)) (wrap a.perY ny ((j : ℤ) - l)) * (f.get [k, l] / (sizeF a.free 0 / nx * (sizeF a.free 1 / ny)))) := by
    intro k l hk hl
    rw [← mul_neg]
    exact mul_nonneg (hG _ _).le (neg_nonneg.mpr (div_nonpos_of_nonpos_of_nonneg (hneg k l hk hl) (by positivity)))
  have hbig := hN0 N hN (wrap a.perX nx ((i : ℤ) - k0)) (wrap a.perY ny ((j : ℤ) - l0)) (abs_wrap_le _ hi hk0) (abs_wrap_le _ hj hl0)
  rw [div_lt_iff₀ hf0] at hbig
  refine lt_of_lt_of_le hbig ?_
  refine le_trans ?_ (single_le_sum (f := fun k => -∑ l ∈ range ny, _) ?_ (mem_range.mpr hk0))
  · rw [← sum_neg_distrib]
    refine le_trans (le_of_eq ?_) (single_le_sum (f := fun l => -_) ?_ (mem_range.mpr hl0))
    · rw [hw, mul_neg]; rfl
    · intro l hl; exact hterm k0 l hk0 (mem_range.mp hl)
  · intro k hk
    rw [← sum_neg_distrib]
    exact sum_nonneg fun l hl => hterm k l (mem_range.mp hk) (mem_range.mp hl)

example : ValidSemi demoSemi ∧ demoSemi.nbGridPts = [2, 3] ∧ demoSemi.perY = true ∧ demoSemi.physicalSizes ≠ [] ∧ 0 ≤ demoSemi.nImages ∧
    (∃ s, constructSemi demoSemi = .ok s) ∧ ∃ f : NdArray ℝ, f.shape = [2, 3] ∧ (∀ i j, i < 2 → j < 3 → f.get [i, j] ≤ 0) ∧ f.get [1, 2] ≠ 0 :=
  ⟨demoSemi_valid, rfl, rfl, by simp [demoSemi], by simp [demoSemi], demoSemi_ok,
    ⟨[2, 3], fun x => match x with | [i, j] => -(i * j : ℝ) | _ => 0⟩, rfl, fun i j _ _ => by simp; positivity, by norm_num⟩

end CM.HS
