import Verif.Spec.Continuum
import Verif.Props.Discretisation
import Verif.Props.HardWall3
import Mathlib.Topology.MetricSpace.Thickening
/-!
# Simulated contacts converge to the contact of the continuous half-space (C191)
-/
namespace CM.Disc
open Real MeasureTheory Set Topology CM.Ref CM.Spec CM.HS CM.FFT CM.System CM.Pipe
open scoped ENNReal

variable {nx ny : ℕ} {sx sy : ℝ} {T : Topo}

/-! ## Sums over the grid -/

lemma sum_cells (F : ℕ → ℕ → ℝ) : ∑ a ∈ cells nx ny, F a.1 a.2 = ∑ x : Fin nx × Fin ny, F x.1 x.2 := by
  unfold cells
  rw [Finset.sum_product, Fintype.sum_prod_type, ← Fin.sum_univ_eq_sum_range (fun i => ∑ j ∈ Finset.range ny, F i j)]
  refine Finset.sum_congr rfl fun i _ => ?_
  rw [← Fin.sum_univ_eq_sum_range (fun j => F i j)]

lemma mem_cells {a : ℕ × ℕ} : a ∈ cells nx ny ↔ a.1 < nx ∧ a.2 < ny := by
  unfold cells
  rw [Finset.mem_product, Finset.mem_range, Finset.mem_range]

lemma pixel_area {dx dy : ℝ} (hx : 0 < dx) (hy : 0 < dy) (k l : ℕ) : volume.real (pixel dx dy k l) = dx * dy := by
  unfold pixel
  rw [Measure.volume_eq_prod, measureReal_prod_prod, volume_real_Ioc, volume_real_Ioc, max_eq_left (by linarith), max_eq_left (by linarith)]
  ring

lemma pixel_finite (dx dy : ℝ) (k l : ℕ) : volume (pixel dx dy k l) ≠ ⊤ := by
  unfold pixel
  rw [Measure.volume_eq_prod, Measure.prod_prod, volume_Ioc, volume_Ioc]
  exact ENNReal.mul_ne_top ENNReal.ofReal_ne_top ENNReal.ofReal_ne_top

/-- The sum over the grid of a pressure against its integral. -/
lemma load_error {dx dy : ℝ} (hx : 0 < dx) (hy : 0 < dy) {q : ℝ × ℝ → ℝ} (hq : Integrable q) (hsupp : ∀ y, q y ≠ 0 → OnGrid nx ny dx dy y) {ω : ℝ} (hosc : Varies nx ny dx dy q ω) :
    |∑ x : Fin nx × Fin ny, q (gridPoint dx dy x.1 x.2) * (dx * dy) - ∫ y, q y| ≤ ω * (nx * ny * (dx * dy)) := by
  rw [← sum_cells fun k l => q (gridPoint dx dy k l) * (dx * dy)]
  have e2 : ∫ y, q y = ∑ a ∈ cells nx ny, ∫ y in pixel dx dy a.1 a.2, q y := by
    rw [← integral_biUnion_finset _ (fun a _ => pixel_meas dx dy a.1 a.2) (pixels_disjoint hx hy _) fun a _ => hq.integrableOn, setIntegral_eq_integral_of_forall_compl_eq_zero]
    intro y hy'
    by_contra h
    obtain ⟨k, l, hk, hl, hm⟩ := hsupp y h
    refine hy' ?_
    simp only [Set.mem_iUnion]
    exact ⟨(k, l), mem_cells.2 ⟨hk, hl⟩, hm⟩
  rw [e2, ← Finset.sum_sub_distrib]
  refine (Finset.abs_sum_le_sum_abs _ _).trans ?_
  refine (Finset.sum_le_sum (g := fun _ => ω * (dx * dy)) fun a ha => ?_).trans (le_of_eq ?_)
  · have ha' := mem_cells.1 ha
    have e : q (gridPoint dx dy a.1 a.2) * (dx * dy) = ∫ y in pixel dx dy a.1 a.2, q (gridPoint dx dy a.1 a.2) := by
      rw [setIntegral_const, pixel_area hx hy, smul_eq_mul, mul_comm]
    have hfin := pixel_finite dx dy a.1 a.2
    have hc : IntegrableOn (fun _ => q (gridPoint dx dy a.1 a.2)) (pixel dx dy a.1 a.2) := integrableOn_const hfin
    rw [e, ← integral_sub hc hq.integrableOn]
    have h := norm_setIntegral_le_of_norm_le_const (f := fun y => q (gridPoint dx dy a.1 a.2) - q y) (μ := volume) (s := pixel dx dy a.1 a.2) (C := ω) hfin.lt_top fun y hy' => by
      rw [norm_eq_abs, abs_sub_comm]
      exact hosc a.1 a.2 ha'.1 ha'.2 y hy'
    rwa [pixel_area hx hy, norm_eq_abs] at h
  · rw [Finset.sum_const, nsmul_eq_mul]
    unfold cells
    rw [Finset.card_product, Finset.card_range, Finset.card_range]
    push_cast
    ring

/-- The row sums of the nonperiodic Green's function are bounded for all grids on the same surface. -/
lemma freeSum_rows (hT : ValidTopo T nx ny sx sy) (x : Fin nx × Fin ny) :
    ∑ y : Fin nx × Fin ny, pixelGreens 1 (sx / nx) (sy / ny) (((x.1 : ℝ) - y.1) * (sx / nx)) (((x.2 : ℝ) - y.2) * (sy / ny)) ≤ 2 * √(sx ^ 2 + sy ^ 2) := by
  have h1 : (0 : ℝ) < nx := by exact_mod_cast hT.nx_pos
  have h2 : (0 : ℝ) < ny := by exact_mod_cast hT.ny_pos
  have hx : 0 < sx / nx := div_pos hT.sx_pos h1
  have hy : 0 < sy / ny := div_pos hT.sy_pos h2
  rw [← sum_cells fun k l => pixelGreens 1 (sx / nx) (sy / ny) (((x.1 : ℝ) - k) * (sx / nx)) (((x.2 : ℝ) - l) * (sy / ny))]
  simp only [pixelGreens_set hx hy]
  rw [← Finset.mul_sum]
  have h := sum_potential hx hy hT.nx_pos hT.ny_pos (gridPoint (sx / nx) (sy / ny) x.1 x.2)
  rw [mul_div_cancel₀ _ h1.ne', mul_div_cancel₀ _ h2.ne'] at h
  have hpi := pi_pos
  calc 1 / (π * 1) * _ ≤ 1 / (π * 1) * (2 * π * √(sx ^ 2 + sy ^ 2)) := mul_le_mul_of_nonneg_left h (by positivity)
    _ = _ := by field_simp

/-! ## A symmetric kernel -/

/-- A symmetric kernel with bounded row sums: the square of the answer is bounded by the work. -/
lemma answer_work {ι : Type} [Fintype ι] {G : ι → ι → ℝ} (hs : ∀ i j, G i j = G j i) (hn : ∀ i j, 0 ≤ G i j) {S : ℝ} (hS : ∀ i, ∑ j, G i j ≤ S)
    (hpsd : ∀ f : ι → ℝ, 0 ≤ dot f fun i => ∑ j, G i j * f j) (f : ι → ℝ) : ∑ i, (∑ j, G i j * f j) ^ 2 ≤ S * dot f fun i => ∑ j, G i j * f j := by
  set B : (ι → ℝ) → (ι → ℝ) → ℝ := fun a b => ∑ i, ∑ j, a i * G i j * b j with hB
  have eB : ∀ a b, (dot a fun i => ∑ j, G i j * b j) = B a b := fun a b => by
    simp only [dot, hB, Finset.mul_sum, mul_assoc]
  have Bs : ∀ a b, B a b = B b a := fun a b => by
    simp only [hB]
    rw [Finset.sum_comm]
    exact Finset.sum_congr rfl fun i _ => Finset.sum_congr rfl fun j _ => by rw [hs j i]; ring
  set g : ι → ℝ := fun i => ∑ j, G i j * f j with hg
  have e1 : B g f = ∑ i, g i ^ 2 := by
    rw [← eB]
    exact Finset.sum_congr rfl fun i _ => by simp only [hg]; ring
  have e2 : B g g ≤ S * ∑ i, g i ^ 2 := by
    have h1 : B g g ≤ ∑ i, ∑ j, G i j * ((g i ^ 2 + g j ^ 2) / 2) := by
      refine Finset.sum_le_sum fun i _ => Finset.sum_le_sum fun j _ => ?_
      nlinarith [mul_nonneg (hn i j) (sq_nonneg (g i - g j))]
    have h2 : ∑ i, ∑ j, G i j * ((g i ^ 2 + g j ^ 2) / 2) = ∑ i, (∑ j, G i j) * g i ^ 2 := by
      have h3 : ∑ i, ∑ j, G i j * (g j ^ 2 / 2) = ∑ i, ∑ j, G i j * (g i ^ 2 / 2) := by
        rw [Finset.sum_comm]
        exact Finset.sum_congr rfl fun i _ => Finset.sum_congr rfl fun j _ => by rw [hs]
      calc ∑ i, ∑ j, G i j * ((g i ^ 2 + g j ^ 2) / 2) = ∑ i, ∑ j, G i j * (g i ^ 2 / 2) + ∑ i, ∑ j, G i j * (g j ^ 2 / 2) := by
            rw [← Finset.sum_add_distrib]
            refine Finset.sum_congr rfl fun i _ => ?_
            rw [← Finset.sum_add_distrib]
            exact Finset.sum_congr rfl fun j _ => by ring
        _ = _ := by
            rw [h3, ← Finset.sum_add_distrib]
            refine Finset.sum_congr rfl fun i _ => ?_
            rw [← Finset.sum_mul]; ring
    rw [h2] at h1
    refine h1.trans ?_
    rw [Finset.mul_sum]
    exact Finset.sum_le_sum fun i _ => mul_le_mul_of_nonneg_right (hS i) (sq_nonneg _)
  have hcs : (B g f) ^ 2 ≤ B g g * B f f := by
    have hq : ∀ t : ℝ, 0 ≤ B g g * t ^ 2 + 2 * B g f * t + B f f := by
      intro t
      have h := hpsd fun i => t * g i + f i
      rw [eB] at h
      have : B (fun i => t * g i + f i) (fun i => t * g i + f i) = B g g * t ^ 2 + 2 * B g f * t + B f f := by
        have h1 : 2 * B g f = B g f + B f g := by rw [Bs f g]; ring
        rw [h1]
        simp only [hB, Finset.sum_mul, ← Finset.sum_add_distrib]
        exact Finset.sum_congr rfl fun i _ => Finset.sum_congr rfl fun j _ => by ring
      rwa [this] at h
    have hgg : 0 ≤ B g g := by rw [← eB]; exact hpsd g
    rcases hgg.eq_or_lt with h0 | h0
    · rw [← h0, zero_mul]
      by_contra hc
      push Not at hc
      have hne : B g f ≠ 0 := fun h => by rw [h] at hc; simp at hc
      have := hq (-(B f f + 1) / (2 * B g f))
      rw [← h0, zero_mul, zero_add, mul_div_cancel₀ _ (mul_ne_zero two_ne_zero hne)] at this
      linarith
    · have := hq (-(B g f) / B g g)
      have e : B g g * (-(B g f) / B g g) ^ 2 + 2 * B g f * (-(B g f) / B g g) + B f f = B f f - (B g f) ^ 2 / B g g := by field_simp; ring
      rw [e, sub_nonneg, div_le_iff₀ h0] at this
      linarith
  rw [eB]
  rw [e1] at hcs
  have hff : 0 ≤ B f f := by rw [← eB]; exact hpsd f
  have hN : 0 ≤ ∑ i, g i ^ 2 := Finset.sum_nonneg fun i _ => sq_nonneg _
  have h4 : (∑ i, g i ^ 2) ^ 2 ≤ (S * B f f) * ∑ i, g i ^ 2 := hcs.trans (by nlinarith [mul_le_mul_of_nonneg_right e2 hff])
  rcases hN.eq_or_lt with h0 | h0
  · rw [← h0]
    rcases isEmpty_or_nonempty ι with hι | ⟨⟨i⟩⟩
    · have : B f f = 0 := by simp [hB]
      rw [this, mul_zero]
    · exact mul_nonneg ((Finset.sum_nonneg fun j _ => hn i j).trans (hS i)) hff
  · rw [sq] at h4
    exact le_of_mul_le_mul_right h4 h0

/-! ## The nonperiodic substrate of `contact_mechanics` -/

lemma free_sub (hT : ValidTopo T nx ny sx sy) {k : Option String} (hk : k = some "nonperiodic" ∨ (k = none ∧ T.isPeriodic = false)) {sub : Substrate} (hm : makeSubstrate T k = .ok sub) :
    ∃ s, constructFree ⟨[nx, ny], 1, [sx, sy], none⟩ = .ok s ∧ sub = ⟨s, true, false⟩ := by
  have hn : substrateName T k = "nonperiodic" := by
    unfold substrateName
    rcases hk with rfl | ⟨rfl, h⟩
    · rfl
    · simp [h]
  rcases make_cases hT k with ⟨-, -, h⟩ | ⟨h0, -⟩ | ⟨-, s, hs, h⟩ | ⟨-, -, h⟩
  · rw [h] at hm; cases hm
  · rw [hn] at h0; exact absurd h0 (by decide)
  · rw [h] at hm; cases hm
    exact ⟨s, hs, rfl⟩
  · rw [h] at hm; cases hm

lemma avg_onGrid (hT : ValidTopo T nx ny sx sy) (q : ℝ × ℝ → ℝ) :
    avg (onGrid nx ny sx sy q) * (sx * sy) = ∑ x : Fin nx × Fin ny, q (gridPoint (sx / nx) (sy / ny) x.1 x.2) * (sx / nx * (sy / ny)) := by
  have h1 : (0 : ℝ) < nx := by exact_mod_cast hT.nx_pos
  have h2 : (0 : ℝ) < ny := by exact_mod_cast hT.ny_pos
  unfold avg onGrid
  rw [card_grid, ← Finset.sum_mul]
  field_simp

/-- On fine grids the substrate answers a continuous pressure like the continuous half-space, and its load is the sum over the grid. -/
lemma fine_grid {q : ℝ × ℝ → ℝ} (hq : Continuous q) (hc : HasCompactSupport q) (hin : tsupport q ⊆ inside sx sy) {ε : ℝ} (hε : 0 < ε) (hsx : 0 < sx) (hsy : 0 < sy) :
    ∃ h > 0, ∀ (T : Topo) (k : Option String) (nx ny : ℕ) (sub : Substrate), ValidTopo T nx ny sx sy → (k = some "nonperiodic" ∨ (k = none ∧ T.isPeriodic = false)) →
      makeSubstrate T k = .ok sub → sx / nx < h → sy / ny < h →
      (∀ x, |answer sub (sx * sy / (nx * ny)) nx ny (onGrid nx ny sx sy q) x - boussinesq 1 q (gridPoint (sx / nx) (sy / ny) x.1 x.2)| ≤ ε) ∧
      |avg (onGrid nx ny sx sy q) * (sx * sy) - ∫ y, q y| ≤ ε := by
  obtain ⟨m, hm, hsub⟩ := (HasCompactSupport.isCompact hc).exists_cthickening_subset_open (isOpen_Ioo.prod isOpen_Ioo : IsOpen (inside sx sy)) hin
  have hu := hc.uniformContinuous_of_continuous hq
  rw [Metric.uniformContinuous_iff] at hu
  set ω := ε / (2 * √(sx ^ 2 + sy ^ 2) + sx * sy) with hω
  have hden : 0 < 2 * √(sx ^ 2 + sy ^ 2) + sx * sy := by positivity
  have hω0 : 0 < ω := by positivity
  have hω' : ω * (2 * √(sx ^ 2 + sy ^ 2) + sx * sy) = ε := div_mul_cancel₀ _ hden.ne'
  obtain ⟨h, hh, hcl⟩ := hu ω hω0
  refine ⟨min h m, lt_min hh hm, fun T k nx ny sub hT hk hmk hx hy => ?_⟩
  have h1 : (0 : ℝ) < nx := by exact_mod_cast hT.nx_pos
  have h2 : (0 : ℝ) < ny := by exact_mod_cast hT.ny_pos
  have hdx : 0 < sx / nx := div_pos hT.sx_pos h1
  have hdy : 0 < sy / ny := div_pos hT.sy_pos h2
  have ex : (nx : ℝ) * (sx / nx) = sx := mul_div_cancel₀ _ h1.ne'
  have ey : (ny : ℝ) * (sy / ny) = sy := mul_div_cancel₀ _ h2.ne'
  have hx1 := hx.trans_le (min_le_left _ _)
  have hx2 := hx.trans_le (min_le_right _ _)
  have hy1 := hy.trans_le (min_le_left _ _)
  have hy2 := hy.trans_le (min_le_right _ _)
  have hon : ∀ y, q y ≠ 0 → OnGrid nx ny (sx / nx) (sy / ny) y := by
    intro y hy'
    have hyt : y ∈ tsupport q := subset_tsupport q hy'
    have hy0 := hin hyt
    have a1 : ((y.1 + m, y.2 + m) : ℝ × ℝ) ∈ inside sx sy := hsub (Metric.mem_cthickening_of_dist_le _ y m _ hyt (by
      rw [Prod.dist_eq]
      simp [abs_of_pos hm]))
    obtain ⟨⟨b1, b2⟩, b3, b4⟩ := hy0
    obtain ⟨⟨c1, c2⟩, c3, c4⟩ := a1
    simp only at c2 c4
    exact onGrid_rect hdx hdy (by linarith) (by rw [ex]; linarith) (by linarith) (by rw [ey]; linarith)
  have hosc : Varies nx ny (sx / nx) (sy / ny) q ω := by
    rintro k l hk hl y ⟨⟨b1, b2⟩, b3, b4⟩
    have := hcl (a := y) (b := gridPoint (sx / nx) (sy / ny) k l) (by
      rw [Prod.dist_eq]
      refine max_lt ?_ ?_
      · rw [Real.dist_eq, abs_lt]
        simp only [gridPoint]
        constructor <;> linarith
      · rw [Real.dist_eq, abs_lt]
        simp only [gridPoint]
        constructor <;> linarith)
    rw [Real.dist_eq] at this
    exact this.le
  have hD : 0 ≤ √(sx ^ 2 + sy ^ 2) := sqrt_nonneg _
  have hA : 0 < sx * sy := mul_pos hsx hsy
  constructor
  · obtain ⟨s, hs, rfl⟩ := free_sub hT hk hmk
    have hv : ValidFree ⟨[nx, ny], 1, [sx, sy], none⟩ := by constructor <;> simp [hsx, hsy]
    have e0 : sizeF ⟨[nx, ny], 1, [sx, sy], none⟩ 0 = sx := by simp [sizeF]
    have e1 : sizeF ⟨[nx, ny], 1, [sx, sy], none⟩ 1 = sy := by simp [sizeF]
    set f := fieldArray nx ny fun y => -(onGrid nx ny sx sy q y * (sx * sy / (nx * ny))) with hf
    have hsam : Sampled nx ny (sx / nx) (sy / ny) q f := ⟨rfl, fun k l hk hl => by
      rw [hf, fieldArray_get _ hk hl]
      unfold onGrid
      rw [div_mul_div_comm]⟩
    obtain ⟨u, hu1, hu2, hu3⟩ := C189_error hv hs rfl hq.measurable (by rw [e0, e1]; exact hon) (by rw [e0, e1]; exact hosc) (by rw [e0, e1]; exact hsam)
    intro x
    have ea : answer ⟨s, true, false⟩ (sx * sy / (nx * ny)) nx ny (onGrid nx ny sx sy q) x = u.get [x.1, x.2] := by
      have e : (Substrate.evaluateDisp ⟨s, true, false⟩ f) = .ok u := hu1
      unfold answer
      rw [← hf, e]
    rw [ea]
    have := hu3 x.1 x.2 x.1.isLt x.2.isLt
    rw [e0, e1] at this
    simp only [div_one] at this
    refine this.trans ?_
    nlinarith
  · rw [avg_onGrid hT]
    have := load_error hdx hdy (hq.integrable_of_hasCompactSupport hc) hon hosc
    refine this.trans ?_
    rw [show (nx : ℝ) * ny * (sx / nx * (sy / ny)) = sx * sy by field_simp]
    nlinarith

/-! ## Two states -/

lemma avg_nonneg {ι : Type} [Fintype ι] {f : ι → ℝ} (h : ∀ i, 0 ≤ f i) : 0 ≤ avg f := by
  unfold avg
  exact div_nonneg (Finset.sum_nonneg fun i _ => h i) (by positivity)

lemma avg_mono {ι : Type} [Fintype ι] {f g : ι → ℝ} (h : ∀ i, f i ≤ g i) : avg f ≤ avg g := by
  unfold avg
  exact div_le_div_of_nonneg_right (Finset.sum_le_sum fun i _ => h i) (by positivity)

lemma avg_const_mul {ι : Type} [Fintype ι] (c : ℝ) (f : ι → ℝ) : avg (fun i => c * f i) = c * avg f := by
  unfold avg
  rw [← Finset.mul_sum, mul_div_assoc]

/-- Pressure times opening is small. -/
lemma opening {ι : Type} [Fintype ι] {p v b : ι → ℝ} {τ : ℝ} (hτ : 0 ≤ τ) (hp : ∀ i, 0 ≤ p i) (h : ∀ i, p i ≠ 0 → v i - b i ≤ τ) : avg (fun i => p i * max 0 (v i - b i)) ≤ τ * avg p := by
  rw [← avg_const_mul]
  refine avg_mono fun i => ?_
  by_cases hi : p i = 0
  · simp [hi]
  · rw [mul_comm]
    exact mul_le_mul_of_nonneg_right (max_le hτ (h i hi)) (hp i)

/-- Two states that are near solutions at two offsets: the work of their difference. -/
lemma near_work {ι : Type} [Fintype ι] {U : (ι → ℝ) → (ι → ℝ)} {b p q : ι → ℝ} {o d τ ε : ℝ} (hτ : 0 ≤ τ) (hε : 0 ≤ ε) (hp : ∀ i, 0 ≤ p i) (hq : ∀ i, 0 ≤ q i)
    (h₁ : ∀ i, b i + o - U p i ≤ τ) (h₂ : ∀ i, b i + d - U q i ≤ ε) (g₁ : ∀ i, p i ≠ 0 → U p i - (b i + o) ≤ τ) (g₂ : ∀ i, q i ≠ 0 → U q i - (b i + d) ≤ ε) :
    avg (fun i => (p i - q i) * (U p i - U q i)) ≤ (o - d) * (avg p - avg q) + (τ + ε) * (avg p + avg q) := by
  have h := avg_two (U := U) hp hq h₁ h₂
  have k1 := opening hτ hp g₁
  have k2 := opening hε hq g₂
  linarith

lemma work_nonneg {ι : Type} [Fintype ι] {U : (ι → ℝ) → (ι → ℝ)} (hU : Reciprocal U) (hpd : PosDef U) (p q : ι → ℝ) : 0 ≤ avg (fun i => (p i - q i) * (U p i - U q i)) := by
  have e : (fun i => (p i - q i) * (U p i - U q i)) = fun i => (p i - q i) * U (fun i => p i - q i) i := by
    funext i; rw [← U_sub hU]
  rw [e]
  unfold avg
  refine div_nonneg ?_ (by positivity)
  by_cases hz : ∃ i, p i - q i ≠ 0
  · exact (hpd _ hz).le
  · push Not at hz
    simp [hz]

/-- The work of a difference bounds the mean square of the difference of the displacements. -/
lemma free_square (hT : ValidTopo T nx ny sx sy) (p q : Fin nx × Fin ny → ℝ) :
    avg (fun x => (freeSum sx sy nx ny p x - freeSum sx sy nx ny q x) ^ 2) ≤ 2 * √(sx ^ 2 + sy ^ 2) * avg (fun x => (p x - q x) * (freeSum sx sy nx ny p x - freeSum sx sy nx ny q x)) := by
  have h1 : (0 : ℝ) < nx := by exact_mod_cast hT.nx_pos
  have h2 : (0 : ℝ) < ny := by exact_mod_cast hT.ny_pos
  have hx : 0 < sx / nx := div_pos hT.sx_pos h1
  have hy : 0 < sy / ny := div_pos hT.sy_pos h2
  have hpd := freeSum_posDef hT.nx_pos hT.ny_pos hT.sx_pos hT.sy_pos
  have h := answer_work (ι := Fin nx × Fin ny) (G := fun x y => pixelGreens 1 (sx / nx) (sy / ny) (((x.1 : ℝ) - y.1) * (sx / nx)) (((x.2 : ℝ) - y.2) * (sy / ny)))
    (fun x y => by
      rw [show ((x.1 : ℝ) - y.1) * (sx / nx) = -(((y.1 : ℝ) - x.1) * (sx / nx)) by ring,
        show ((x.2 : ℝ) - y.2) * (sy / ny) = -(((y.2 : ℝ) - x.2) * (sy / ny)) by ring, pixelGreens_neg_x, pixelGreens_neg_y])
    (fun x y => by
      rw [pixelGreens_set hx hy]
      have := pi_pos
      refine mul_nonneg (by positivity) (integral_nonneg fun y => ?_)
      have := away_nonneg (gridPoint (sx / nx) (sy / ny) x.1 x.2) y
      simp only [Pi.zero_apply]
      positivity)
    (freeSum_rows hT)
    (fun f => by
      by_cases hz : ∃ i, f i ≠ 0
      · exact (hpd f hz).le
      · push Not at hz
        simp [dot, hz]) fun i => p i - q i
  have e := U_sub (freeSum_reciprocal (sx := sx) (sy := sy) (nx := nx) (ny := ny)) p q
  have e' : ∀ x, freeSum sx sy nx ny p x - freeSum sx sy nx ny q x = freeSum sx sy nx ny (fun i => p i - q i) x := fun x => congrFun e x
  simp only [e']
  have := div_le_div_of_nonneg_right h (show (0 : ℝ) ≤ Fintype.card (Fin nx × Fin ny) by positivity)
  unfold avg
  refine this.trans (le_of_eq ?_)
  unfold dot freeSum
  ring

/-! ## Convergence -/

/-- The continuous solution, taken at the grid points, is nearly a solution on the grid. -/
lemma continuum_near {H : ℝ × ℝ → ℝ} {d ε : ℝ} {q : ℝ × ℝ → ℝ} (hq : Continuum H d q) (hH : HeightsOf H T nx ny sx sy) {U : (Fin nx × Fin ny → ℝ) → (Fin nx × Fin ny → ℝ)}
    (hU : ∀ x, |U (onGrid nx ny sx sy q) x - boussinesq 1 q (gridPoint (sx / nx) (sy / ny) x.1 x.2)| ≤ ε) :
    (∀ x, T.heights.get [x.1, x.2] + d - U (onGrid nx ny sx sy q) x ≤ ε) ∧
    ∀ x, onGrid nx ny sx sy q x ≠ 0 → U (onGrid nx ny sx sy q) x - (T.heights.get [x.1, x.2] + d) ≤ ε := by
  constructor
  · intro x
    rw [hH _ _ x.1.isLt x.2.isLt]
    have := abs_le.1 (hU x)
    have := hq.noPenetration (gridPoint (sx / nx) (sy / ny) x.1 x.2)
    linarith
  · intro x hx
    rw [hH _ _ x.1.isLt x.2.isLt]
    have := abs_le.1 (hU x)
    have := hq.touching (gridPoint (sx / nx) (sy / ny) x.1 x.2) hx
    linarith

lemma load_step {δ κ s a b : ℝ} (hδ : 0 < δ) (hκ : κ ≤ s * δ) (hb : 0 ≤ b) (h : δ * a ≤ κ * b) : a ≤ s * b := by
  have h1 := mul_le_mul_of_nonneg_right hκ hb
  refine le_of_mul_le_mul_left ?_ hδ
  linarith

lemma load_squeeze {P Q1 Q2 A s M η F : ℝ} (hA : 0 ≤ A) (hs0 : 0 ≤ s) (hs2 : s < 1) (hs1 : s * (2 * M + η / 2) = η / 2) (hM : M = F + η / 2) (hη : 0 < η)
    (k1 : P - Q1 ≤ s * (P + Q1)) (k2 : Q2 - P ≤ s * (P + Q2)) (l1 : Q1 * A ≤ M) (l2 : F - η / 2 ≤ Q2 * A) : |P * A - F| ≤ η := by
  have j1 := mul_le_mul_of_nonneg_right k1 hA
  have j2 := mul_le_mul_of_nonneg_right k2 hA
  have i1 : (1 - s) * (P * A) ≤ (1 + s) * (Q1 * A) := by linarith
  have i2 : (1 - s) * (Q2 * A) ≤ (1 + s) * (P * A) := by linarith
  generalize P * A = X at *
  generalize Q1 * A = Y1 at *
  generalize Q2 * A = Y2 at *
  have i3 := mul_le_mul_of_nonneg_left l1 (show 0 ≤ 1 + s by linarith)
  have i4 := mul_le_mul_of_nonneg_left l2 (show 0 ≤ 1 - s by linarith)
  have r1 : X ≤ M + η / 2 := by
    have : (1 - s) * X ≤ (1 - s) * (M + η / 2) := by linarith
    exact le_of_mul_le_mul_left this (by linarith)
  have i5 := mul_le_mul_of_nonneg_left r1 hs0
  have i6 := mul_le_mul_of_nonneg_left hη.le hs0
  subst hM
  rw [abs_le]
  constructor
  · linarith
  · linarith

/-- **C191** (load). Let the continuous half-space have solutions `q d` of the contact with the rigid surface `H` at all offsets `d` near `o`, inside the simulated surface, whose load is continuous at
`o`.  Then the load of the simulated contact converges: for every bound there is an `h > 0` such that on every nonperiodic grid with pixels smaller than `h`, every state that solves the contact problem
of the heights at offset `o` within the tolerance `h` carries the load of the continuous contact up to the bound. -/
theorem C191_load {H : ℝ × ℝ → ℝ} {q : ℝ → ℝ × ℝ → ℝ} {o ρ : ℝ} (hρ : 0 < ρ) (hsx : 0 < sx) (hsy : 0 < sy)
    (hq : ∀ d, |d - o| < ρ → Continuum H d (q d) ∧ tsupport (q d) ⊆ inside sx sy) (hF : ContinuousAt (fun d => ∫ y, q d y) o) {η : ℝ} (hη : 0 < η) :
    ∃ h > 0, ∀ (T : Topo) (k : Option String) (nx ny : ℕ) (p u : Fin nx × Fin ny → ℝ), ValidTopo T nx ny sx sy → (k = some "nonperiodic" ∨ (k = none ∧ T.isPeriodic = false)) →
      HeightsOf H T nx ny sx sy → sx / nx < h → sy / ny < h → NearContact T k nx ny sx sy o h p u → |avg p * (sx * sy) - ∫ y, q o y| ≤ η := by
  set F := fun d => ∫ y, q d y with hFd
  have hF0 : 0 ≤ F o := integral_nonneg (hq o (by simpa using hρ)).1.noTension
  obtain ⟨δ0, hδ0, hFδ⟩ := Metric.continuousAt_iff.1 hF (η / 4) (by positivity)
  set δ := min δ0 ρ / 2 with hδ
  have hδpos : 0 < δ := by have := lt_min hδ0 hρ; positivity
  have hδ1 : δ < δ0 := by have := min_le_left δ0 ρ; have := lt_min hδ0 hρ; linarith
  have hδ2 : δ < ρ := by have := min_le_right δ0 ρ; have := lt_min hδ0 hρ; linarith
  have hA : 0 < sx * sy := mul_pos hsx hsy
  set M := F o + η / 2 with hM
  set s := η / 2 / (2 * M + η / 2) with hs
  have hM0 : 0 < M := by positivity
  have hs0 : 0 < s := by positivity
  have hs1 : s * (2 * M + η / 2) = η / 2 := div_mul_cancel₀ _ (by positivity)
  have hs2 : s < 1 := by
    rw [hs, div_lt_one (by positivity)]
    linarith
  set ε := min (s * δ / 2) (η / 4) with hε
  have hε0 : 0 < ε := lt_min (by positivity) (by positivity)
  have hε1 : ε ≤ s * δ / 2 := min_le_left _ _
  have hε2 : ε ≤ η / 4 := min_le_right _ _
  have up := hq (o + δ) (by rw [add_sub_cancel_left, abs_of_pos hδpos]; exact hδ2)
  have dn := hq (o - δ) (by rw [sub_sub_cancel_left, abs_neg, abs_of_pos hδpos]; exact hδ2)
  have Fup := hFδ (x := o + δ) (by rw [Real.dist_eq, add_sub_cancel_left, abs_of_pos hδpos]; exact hδ1)
  have Fdn := hFδ (x := o - δ) (by rw [Real.dist_eq, sub_sub_cancel_left, abs_neg, abs_of_pos hδpos]; exact hδ1)
  rw [Real.dist_eq] at Fup Fdn
  obtain ⟨h1, hh1, g1⟩ := fine_grid up.1.continuous up.1.compact up.2 hε0 hsx hsy
  obtain ⟨h2, hh2, g2⟩ := fine_grid dn.1.continuous dn.1.compact dn.2 hε0 hsx hsy
  refine ⟨min ε (min h1 h2), lt_min hε0 (lt_min hh1 hh2), fun T k nx ny p u hT hk hH hx hy hnear => ?_⟩
  have hτ : min ε (min h1 h2) ≤ ε := min_le_left _ _
  have hτ0 : 0 ≤ min ε (min h1 h2) := (lt_min hε0 (lt_min hh1 hh2)).le
  have m1 : min ε (min h1 h2) ≤ h1 := (min_le_right _ _).trans (min_le_left _ _)
  have m2 : min ε (min h1 h2) ≤ h2 := (min_le_right _ _).trans (min_le_right _ _)
  obtain ⟨sub, hm, rfl⟩ := hnear.response
  obtain ⟨hrec, hpd⟩ := answer_posDef hT hm
  obtain ⟨a1, b1⟩ := g1 T k nx ny sub hT hk hm (hx.trans_le m1) (hy.trans_le m1)
  obtain ⟨a2, b2⟩ := g2 T k nx ny sub hT hk hm (hx.trans_le m2) (hy.trans_le m2)
  obtain ⟨c1, d1⟩ := continuum_near up.1 hH a1
  obtain ⟨c2, d2⟩ := continuum_near dn.1 hH a2
  have w1 := (work_nonneg hrec hpd p (onGrid nx ny sx sy (q (o + δ)))).trans (near_work (U := answer sub (sx * sy / (nx * ny)) nx ny) (b := fun x => T.heights.get [x.1, x.2]) hτ0 hε0.le hnear.noTension
    (fun x => up.1.noTension _) hnear.penetration c1 hnear.gap d1)
  have w2 := (work_nonneg hrec hpd p (onGrid nx ny sx sy (q (o - δ)))).trans (near_work (U := answer sub (sx * sy / (nx * ny)) nx ny) (b := fun x => T.heights.get [x.1, x.2]) hτ0 hε0.le hnear.noTension
    (fun x => dn.1.noTension _) hnear.penetration c2 hnear.gap d2)
  have hP : 0 ≤ avg p := avg_nonneg hnear.noTension
  have hQ1 : 0 ≤ avg (onGrid nx ny sx sy (q (o + δ))) := avg_nonneg fun x => up.1.noTension _
  have hQ2 : 0 ≤ avg (onGrid nx ny sx sy (q (o - δ))) := avg_nonneg fun x => dn.1.noTension _
  set P := avg p
  set Q1 := avg (onGrid nx ny sx sy (q (o + δ)))
  set Q2 := avg (onGrid nx ny sx sy (q (o - δ)))
  have hκ : min ε (min h1 h2) + ε ≤ s * δ := by linarith
  have l1 : Q1 * (sx * sy) ≤ M := by
    have := (abs_le.1 b1).2
    have := (abs_lt.1 Fup).2
    linarith
  have l2 : F o - η / 2 ≤ Q2 * (sx * sy) := by
    have := (abs_le.1 b2).1
    have := (abs_lt.1 Fdn).1
    linarith
  have k1 := load_step hδpos hκ (add_nonneg hP hQ1) (a := P - Q1) (by linarith)
  have k2 := load_step hδpos hκ (add_nonneg hP hQ2) (a := Q2 - P) (by linarith)
  exact load_squeeze hA.le hs0.le hs2 hs1 hM hη k1 (by linarith) l1 l2

/-- **C191** (displacements). Under the same conditions the displacements of the simulated contact converge in the mean square to those of the continuous half-space. -/
theorem C191_displacements {H : ℝ × ℝ → ℝ} {q : ℝ → ℝ × ℝ → ℝ} {o ρ : ℝ} (hρ : 0 < ρ) (hsx : 0 < sx) (hsy : 0 < sy)
    (hq : ∀ d, |d - o| < ρ → Continuum H d (q d) ∧ tsupport (q d) ⊆ inside sx sy) (hF : ContinuousAt (fun d => ∫ y, q d y) o) {η : ℝ} (hη : 0 < η) :
    ∃ h > 0, ∀ (T : Topo) (k : Option String) (nx ny : ℕ) (p u : Fin nx × Fin ny → ℝ), ValidTopo T nx ny sx sy → (k = some "nonperiodic" ∨ (k = none ∧ T.isPeriodic = false)) →
      HeightsOf H T nx ny sx sy → sx / nx < h → sy / ny < h → NearContact T k nx ny sx sy o h p u →
      avg (fun x => (u x - boussinesq 1 (q o) (gridPoint (sx / nx) (sy / ny) x.1 x.2)) ^ 2) ≤ η := by
  have hqo := hq o (by simpa using hρ)
  set L := ∫ y, q o y with hL
  have hL0 : 0 ≤ L := integral_nonneg hqo.1.noTension
  have hA : 0 < sx * sy := mul_pos hsx hsy
  obtain ⟨h1, hh1, g1⟩ := C191_load hρ hsx hsy hq hF one_pos
  have hD : 0 < √(sx ^ 2 + sy ^ 2) := by positivity
  set c := 2 * (2 * √(sx ^ 2 + sy ^ 2)) * 2 * (2 * (L + 1) / (sx * sy)) + 2 with hc
  have hc0 : 0 < c := by positivity
  set ε := min 1 (η / c) with hε
  have hε0 : 0 < ε := lt_min one_pos (by positivity)
  have hε1 : ε ≤ 1 := min_le_left _ _
  have hε2 : ε * c ≤ η := by
    have := min_le_right 1 (η / c)
    rwa [← hε, le_div_iff₀ hc0] at this
  obtain ⟨h2, hh2, g2⟩ := fine_grid hqo.1.continuous hqo.1.compact hqo.2 hε0 hsx hsy
  refine ⟨min ε (min h1 h2), lt_min hε0 (lt_min hh1 hh2), fun T k nx ny p u hT hk hH hx hy hnear => ?_⟩
  have hτ : min ε (min h1 h2) ≤ ε := min_le_left _ _
  have hτ0 : 0 ≤ min ε (min h1 h2) := (lt_min hε0 (lt_min hh1 hh2)).le
  have m1 : min ε (min h1 h2) ≤ h1 := (min_le_right _ _).trans (min_le_left _ _)
  have m2 : min ε (min h1 h2) ≤ h2 := (min_le_right _ _).trans (min_le_right _ _)
  have hload := g1 T k nx ny p u hT hk hH (hx.trans_le m1) (hy.trans_le m1)
    ⟨hnear.response, hnear.noTension, fun x => (hnear.penetration x).trans m1, fun x hx => (hnear.gap x hx).trans m1⟩
  obtain ⟨sub, hm, rfl⟩ := hnear.response
  obtain ⟨a2, b2⟩ := g2 T k nx ny sub hT hk hm (hx.trans_le m2) (hy.trans_le m2)
  obtain ⟨c2, d2⟩ := continuum_near hqo.1 hH a2
  have w := near_work (q := onGrid nx ny sx sy (q o)) (U := answer sub (sx * sy / (nx * ny)) nx ny) (b := fun x => T.heights.get [x.1, x.2]) hτ0 hε0.le hnear.noTension (fun x => hqo.1.noTension _) hnear.penetration c2 hnear.gap d2
  rw [sub_self, zero_mul, zero_add] at w
  obtain ⟨s, hs, rfl⟩ := free_sub hT hk hm
  rw [answer_free hT.nx_pos hT.ny_pos hT.sx_pos hT.sy_pos hs] at *
  have sq := free_square hT p (onGrid nx ny sx sy (q o))
  set P := avg p
  set Q := avg (onGrid nx ny sx sy (q o))
  have hPQ : P + Q ≤ 2 * (L + 1) / (sx * sy) := by
    rw [le_div_iff₀ hA]
    have := (abs_le.1 hload).2
    have := (abs_le.1 b2).2
    linarith
  have hP : 0 ≤ P := avg_nonneg hnear.noTension
  have hQ : 0 ≤ Q := avg_nonneg fun x => hqo.1.noTension _
  have step : avg (fun x => (freeSum sx sy nx ny p x - boussinesq 1 (q o) (gridPoint (sx / nx) (sy / ny) x.1 x.2)) ^ 2) ≤
      2 * avg (fun x => (freeSum sx sy nx ny p x - freeSum sx sy nx ny (onGrid nx ny sx sy (q o)) x) ^ 2) + 2 * ε ^ 2 := by
    have hne : (0 : ℝ) < Fintype.card (Fin nx × Fin ny) := by
      rw [card_grid]
      have h1 : (0 : ℝ) < nx := by exact_mod_cast hT.nx_pos
      have h2 : (0 : ℝ) < ny := by exact_mod_cast hT.ny_pos
      positivity
    have e : 2 * ε ^ 2 = avg (fun _ : Fin nx × Fin ny => 2 * ε ^ 2) := by
      unfold avg
      rw [Finset.sum_const, nsmul_eq_mul, Finset.card_univ, mul_div_cancel_left₀ _ hne.ne']
    rw [e, ← avg_const_mul]
    unfold avg
    rw [← add_div, ← Finset.sum_add_distrib]
    refine div_le_div_of_nonneg_right (Finset.sum_le_sum fun x _ => ?_) hne.le
    have h3 := a2 x
    have h4 : (freeSum sx sy nx ny (onGrid nx ny sx sy (q o)) x - boussinesq 1 (q o) (gridPoint (sx / nx) (sy / ny) x.1 x.2)) ^ 2 ≤ ε ^ 2 := sq_le_sq' (abs_le.1 h3).1 (abs_le.1 h3).2
    nlinarith [sq_nonneg (freeSum sx sy nx ny p x - freeSum sx sy nx ny (onGrid nx ny sx sy (q o)) x -
      (freeSum sx sy nx ny (onGrid nx ny sx sy (q o)) x - boussinesq 1 (q o) (gridPoint (sx / nx) (sy / ny) x.1 x.2)))]
  refine step.trans (le_trans ?_ hε2)
  have t1 : (min ε (min h1 h2) + ε) * (P + Q) ≤ 2 * ε * (2 * (L + 1) / (sx * sy)) :=
    mul_le_mul (by linarith) hPQ (add_nonneg hP hQ) (by linarith)
  have t2 := sq.trans (mul_le_mul_of_nonneg_left (w.trans t1) (by positivity))
  have t3 : ε ^ 2 ≤ ε := by nlinarith
  rw [hc]
  nlinarith

lemma load_units (a b c d A : ℝ) : (a * (c - d) + b * (c + d)) * A = a * (c * A - d * A) + b * (c * A + d * A) := by ring

lemma offset_step {x δ g ε κ X Y m : ℝ} (hδ : 0 < δ) (hg : 0 < g) (hε : 0 ≤ ε) (hκ : κ ≤ 2 * ε) (hX : 0 ≤ X) (hgap : g / 2 ≤ Y - X) (hm : X + Y ≤ m) (hsmall : 2 * ε * m < δ * (g / 2))
    (h : x * (Y - X) ≤ κ * (X + Y)) : x ≤ δ := by
  by_contra hc
  push Not at hc
  have h1 : δ * (g / 2) ≤ x * (Y - X) := mul_le_mul hc.le hgap (by positivity) (by linarith)
  have h2 : κ * (X + Y) ≤ 2 * ε * m := (mul_le_mul_of_nonneg_right hκ (by linarith)).trans (mul_le_mul_of_nonneg_left hm (by positivity))
  linarith

/-- **C191** (offset under load). If the load of the continuous contact increases strictly with the offset near `o`, the offset of the simulated contact under this load converges to `o`: for every
bound there is an `h > 0` such that on every nonperiodic grid with pixels smaller than `h`, every state at any offset that solves the contact problem within the tolerance `h` and carries the load
of the continuous contact at `o` up to `h`, has the offset `o` up to the bound. -/
theorem C191_offset {H : ℝ × ℝ → ℝ} {q : ℝ → ℝ × ℝ → ℝ} {o ρ : ℝ} (hρ : 0 < ρ) (hsx : 0 < sx) (hsy : 0 < sy)
    (hq : ∀ d, |d - o| < ρ → Continuum H d (q d) ∧ tsupport (q d) ⊆ inside sx sy) (hup : ∀ d, o < d → d < o + ρ → ∫ y, q o y < ∫ y, q d y)
    (hdn : ∀ d, d < o → o - ρ < d → ∫ y, q d y < ∫ y, q o y) {η : ℝ} (hη : 0 < η) :
    ∃ h > 0, ∀ (T : Topo) (k : Option String) (nx ny : ℕ) (o' : ℝ) (p u : Fin nx × Fin ny → ℝ), ValidTopo T nx ny sx sy → (k = some "nonperiodic" ∨ (k = none ∧ T.isPeriodic = false)) →
      HeightsOf H T nx ny sx sy → sx / nx < h → sy / ny < h → NearContact T k nx ny sx sy o' h p u → |avg p * (sx * sy) - ∫ y, q o y| ≤ h → |o' - o| ≤ η := by
  set F := fun d => ∫ y, q d y with hFd
  have hF0 : 0 ≤ F o := integral_nonneg (hq o (by simpa using hρ)).1.noTension
  set δ := min η ρ / 2 with hδ
  have hmin := lt_min hη hρ
  have hδpos : 0 < δ := by positivity
  have hδ1 : 2 * δ ≤ η := by have := min_le_left η ρ; linarith
  have hδ2 : δ < ρ := by have := min_le_right η ρ; linarith
  have up := hq (o + δ) (by rw [add_sub_cancel_left, abs_of_pos hδpos]; exact hδ2)
  have dn := hq (o - δ) (by rw [sub_sub_cancel_left, abs_neg, abs_of_pos hδpos]; exact hδ2)
  have Fup : F o < F (o + δ) := hup _ (by linarith) (by linarith)
  have Fdn : F (o - δ) < F o := hdn _ (by linarith) (by linarith)
  have Fdn0 : 0 ≤ F (o - δ) := integral_nonneg dn.1.noTension
  have hA : 0 < sx * sy := mul_pos hsx hsy
  set g := min (F (o + δ) - F o) (F o - F (o - δ)) with hg
  have hg0 : 0 < g := lt_min (by linarith) (by linarith)
  have hg1 : g ≤ F (o + δ) - F o := min_le_left _ _
  have hg2 : g ≤ F o - F (o - δ) := min_le_right _ _
  set m := 2 * F (o + δ) + 2 with hm
  have hm0 : 0 < m := by linarith
  set ε := min (min 1 (g / 4)) (δ * (g / 2) / (4 * m)) with hε
  have hε0 : 0 < ε := lt_min (lt_min one_pos (by positivity)) (by positivity)
  have hε1 : ε ≤ 1 := (min_le_left _ _).trans (min_le_left _ _)
  have hε2 : ε ≤ g / 4 := (min_le_left _ _).trans (min_le_right _ _)
  have hε3 : 2 * ε * m < δ * (g / 2) := by
    have h : ε ≤ δ * (g / 2) / (4 * m) := min_le_right _ _
    rw [le_div_iff₀ (by positivity)] at h
    have : 0 < δ * (g / 2) := by positivity
    linarith
  obtain ⟨h1, hh1, g1⟩ := fine_grid up.1.continuous up.1.compact up.2 hε0 hsx hsy
  obtain ⟨h2, hh2, g2⟩ := fine_grid dn.1.continuous dn.1.compact dn.2 hε0 hsx hsy
  refine ⟨min ε (min h1 h2), lt_min hε0 (lt_min hh1 hh2), fun T k nx ny o' p u hT hk hH hx hy hnear hload => ?_⟩
  have hτ : min ε (min h1 h2) ≤ ε := min_le_left _ _
  have hτ0 : 0 ≤ min ε (min h1 h2) := (lt_min hε0 (lt_min hh1 hh2)).le
  have m1 : min ε (min h1 h2) ≤ h1 := (min_le_right _ _).trans (min_le_left _ _)
  have m2 : min ε (min h1 h2) ≤ h2 := (min_le_right _ _).trans (min_le_right _ _)
  obtain ⟨sub, hm, rfl⟩ := hnear.response
  obtain ⟨hrec, hpd⟩ := answer_posDef hT hm
  obtain ⟨a1, b1⟩ := g1 T k nx ny sub hT hk hm (hx.trans_le m1) (hy.trans_le m1)
  obtain ⟨a2, b2⟩ := g2 T k nx ny sub hT hk hm (hx.trans_le m2) (hy.trans_le m2)
  obtain ⟨c1, d1⟩ := continuum_near up.1 hH a1
  obtain ⟨c2, d2⟩ := continuum_near dn.1 hH a2
  have w1 := (work_nonneg hrec hpd p (onGrid nx ny sx sy (q (o + δ)))).trans (near_work (U := answer sub (sx * sy / (nx * ny)) nx ny) (b := fun x => T.heights.get [x.1, x.2]) hτ0 hε0.le hnear.noTension
    (fun x => up.1.noTension _) hnear.penetration c1 hnear.gap d1)
  have w2 := (work_nonneg hrec hpd p (onGrid nx ny sx sy (q (o - δ)))).trans (near_work (U := answer sub (sx * sy / (nx * ny)) nx ny) (b := fun x => T.heights.get [x.1, x.2]) hτ0 hε0.le hnear.noTension
    (fun x => dn.1.noTension _) hnear.penetration c2 hnear.gap d2)
  have hP : 0 ≤ avg p * (sx * sy) := mul_nonneg (avg_nonneg hnear.noTension) hA.le
  have hQ1 : 0 ≤ avg (onGrid nx ny sx sy (q (o + δ))) * (sx * sy) := mul_nonneg (avg_nonneg fun x => up.1.noTension _) hA.le
  have hQ2 : 0 ≤ avg (onGrid nx ny sx sy (q (o - δ))) * (sx * sy) := mul_nonneg (avg_nonneg fun x => dn.1.noTension _) hA.le
  have v1 := mul_nonneg w1 hA.le
  have v2 := mul_nonneg w2 hA.le
  rw [load_units] at v1 v2
  generalize avg p * (sx * sy) = X at *
  generalize avg (onGrid nx ny sx sy (q (o + δ))) * (sx * sy) = Y1 at *
  generalize avg (onGrid nx ny sx sy (q (o - δ))) * (sx * sy) = Y2 at *
  obtain ⟨l1, l1'⟩ := abs_le.1 (show |X - F o| ≤ _ from hload)
  obtain ⟨l2, l2'⟩ := abs_le.1 (show |Y1 - F (o + δ)| ≤ _ from b1)
  obtain ⟨l3, l3'⟩ := abs_le.1 (show |Y2 - F (o - δ)| ≤ _ from b2)
  have k1 : o' - (o + δ) ≤ δ := offset_step hδpos hg0 hε0.le (κ := min ε (min h1 h2) + ε) (by linarith) hP (by linarith) (by linarith : X + Y1 ≤ m) hε3 (by linarith)
  have k2 : (o - δ) - o' ≤ δ := offset_step hδpos hg0 hε0.le (κ := min ε (min h1 h2) + ε) (by linarith) hQ2 (by linarith) (by linarith : Y2 + X ≤ m) hε3 (by linarith)
  rw [abs_le]
  constructor <;> linarith

end CM.Disc
