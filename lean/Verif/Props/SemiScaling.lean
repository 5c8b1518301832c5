import Verif.Props.SemiPeriodic2
import Verif.Props.LoveWork
/-!
# C224 Semi-periodic half-spaces: superposition, material, unit of length, negative numbers of images
-/
namespace CM.HS
open Finset CM.FFT CM.Spec

variable {a b : SemiArgs} {s s' : HalfSpace} {nx ny : ℕ}

/-- **C224** Superposition: the displacements of a combination of forces are the combination of the displacements. -/
theorem C224_superposition (hv : ValidSemi a) (hs : constructSemi a = .ok s) (hg : a.nbGridPts = [nx, ny]) (α β : ℝ)
    (f g h : NdArray ℝ) (hf : f.shape = [nx, ny]) (hg' : g.shape = [nx, ny]) (hh : h.shape = [nx, ny])
    (hsum : ∀ i j, i < nx → j < ny → h.get [i, j] = α * f.get [i, j] + β * g.get [i, j]) :
    ∃ u v w, evaluateDispSemi s f false = .ok u ∧ evaluateDispSemi s g false = .ok v ∧ evaluateDispSemi s h false = .ok w ∧
      ∀ i j, i < nx → j < ny → w.get [i, j] = α * u.get [i, j] + β * v.get [i, j] := by
  obtain ⟨u, hu, -, hu'⟩ := C29_direct_sum hv hs hg f hf
  obtain ⟨v, hv1, -, hv'⟩ := C29_direct_sum hv hs hg g hg'
  obtain ⟨w, hw, -, hw'⟩ := C29_direct_sum hv hs hg h hh
  refine ⟨u, v, w, hu, hv1, hw, fun i j hi hj => ?_⟩
  rw [hu' i j hi hj, hv' i j hi hj, hw' i j hi hj]
  unfold semiSum
  rw [mul_neg, mul_neg, ← neg_add, mul_sum, mul_sum, ← sum_add_distrib]
  congr 1
  refine sum_congr rfl fun k hk => ?_
  rw [mul_sum, mul_sum, ← sum_add_distrib]
  refine sum_congr rfl fun l hl => ?_
  rw [hsum k l (mem_range.mp hk) (mem_range.mp hl)]
  ring

lemma imageSum_scaled {dx dy dx' dy' c : ℝ} (hX : b.perX = a.perX) (hY : b.perY = a.perY) (hN : b.nImages = a.nImages)
    (h : ∀ m n : ℤ, pixelGreens b.young dx' dy' ((m : ℝ) * dx') ((n : ℝ) * dy') =
      c * pixelGreens a.young dx dy ((m : ℝ) * dx) ((n : ℝ) * dy)) (d e : ℤ) :
    imageSum b nx ny dx' dy' d e = c * imageSum a nx ny dx dy d e := by
  unfold imageSum
  rw [hX, hY, hN, mul_sum]
  refine sum_congr rfl fun p _ => ?_
  rw [mul_sum]
  exact sum_congr rfl fun q _ => h _ _

lemma semiSum_scaled {dx dy dx' dy' c c' : ℝ} (hX : b.perX = a.perX) (hY : b.perY = a.perY) (hN : b.nImages = a.nImages)
    (h : ∀ m n : ℤ, pixelGreens b.young dx' dy' ((m : ℝ) * dx') ((n : ℝ) * dy') =
      c * pixelGreens a.young dx dy ((m : ℝ) * dx) ((n : ℝ) * dy)) (h' : (dx' * dy')⁻¹ = c' * (dx * dy)⁻¹) (f : NdArray ℝ) (i j : ℕ) :
    semiSum b nx ny dx' dy' f i j = c * c' * semiSum a nx ny dx dy f i j := by
  unfold semiSum
  rw [mul_neg, mul_sum]
  congr 1
  refine sum_congr rfl fun k _ => ?_
  rw [mul_sum]
  refine sum_congr rfl fun l _ => ?_
  rw [imageSum_scaled hX hY hN h, hX, hY, div_eq_mul_inv, div_eq_mul_inv, h']
  ring

/-- **C224** Contact moduli in the ratio `c`: the same forces cause displacements smaller by the factor `c`. -/
theorem C224_stiffer {c : ℝ} (hc : 0 < c) (hva : ValidSemi a) (ha : constructSemi a = .ok s)
    (hb : constructSemi { a with young := c * a.young } = .ok s') (hg : a.nbGridPts = [nx, ny]) (f : NdArray ℝ)
    (hf : f.shape = [nx, ny]) : ∃ u v, evaluateDispSemi s f false = .ok u ∧ evaluateDispSemi s' f false = .ok v ∧
      ∀ i j, i < nx → j < ny → v.get [i, j] = u.get [i, j] / c := by
  have hvb : ValidSemi { a with young := c * a.young } := ⟨hva.sizes_pos, mul_pos hc hva.young_pos⟩
  obtain ⟨u, hu, -, hu'⟩ := C29_direct_sum hva ha hg f hf
  obtain ⟨v, hv1, -, hv'⟩ := C29_direct_sum hvb hb hg f hf
  refine ⟨u, v, hu, hv1, fun i j hi hj => ?_⟩
  rw [hu' i j hi hj, hv' i j hi hj]
  have := semiSum_scaled (a := a) (b := { a with young := c * a.young }) (nx := nx) (ny := ny)
    (dx := sizeF a.free 0 / nx) (dy := sizeF a.free 1 / ny) (dx' := sizeF a.free 0 / nx) (dy' := sizeF a.free 1 / ny)
    (c := c⁻¹) (c' := 1) rfl rfl rfl (fun m n => by
      rw [pixelGreens_E, pixelGreens_E (E := a.young), one_div, mul_inv, one_div]; ring) (by ring) f i j
  change semiSum { a with young := c * a.young } nx ny (sizeF a.free 0 / nx) (sizeF a.free 1 / ny) f i j = _
  rw [this]
  ring

lemma pixelGreens_scale {l : ℝ} (hl : 0 < l) (E dx dy x y : ℝ) :
    pixelGreens E (l * dx) (l * dy) (l * x) (l * y) = l * pixelGreens E dx dy x y := by
  have hin : ∀ η : ℝ, (∫ ξ in (l * x - l * dx / 2)..(l * x + l * dx / 2), 1 / Real.sqrt (ξ ^ 2 + (l * η) ^ 2))
      = ∫ ξ in (x - dx / 2)..(x + dx / 2), 1 / Real.sqrt (ξ ^ 2 + η ^ 2) := by
    intro η
    rw [show l * x - l * dx / 2 = l * (x - dx / 2) by ring, show l * x + l * dx / 2 = l * (x + dx / 2) by ring,
      ← intervalIntegral.smul_integral_comp_mul_left, smul_eq_mul, ← intervalIntegral.integral_const_mul]
    congr 1
    funext ξ
    rw [show (l * ξ) ^ 2 + (l * η) ^ 2 = l ^ 2 * (ξ ^ 2 + η ^ 2) by ring, Real.sqrt_mul (by positivity),
      Real.sqrt_sq hl.le, one_div, one_div, mul_inv, ← mul_assoc, mul_inv_cancel₀ hl.ne', one_mul]
  unfold pixelGreens
  rw [show l * y - l * dy / 2 = l * (y - dy / 2) by ring, show l * y + l * dy / 2 = l * (y + dy / 2) by ring,
    ← intervalIntegral.smul_integral_comp_mul_left, smul_eq_mul]
  simp only [hin]
  ring

lemma sizeF_scaled (l : ℝ) (a : FreeArgs) (hsz : a.physicalSizes ≠ []) (i : ℕ) :
    sizeF { a with physicalSizes := a.physicalSizes.map (l * ·) } i = l * sizeF a i := by
  unfold sizeF
  simp only [List.length_map]
  split_ifs with h
  · simp
  · rw [List.getLastD_eq_getLast?, List.getLastD_eq_getLast?, List.getLast?_map, List.getLast?_eq_getLast_of_ne_nil hsz]
    rfl

/-- **C224** Unit of length: on a domain `l` times as long and wide, the same forces cause displacements smaller by
the factor `l` (pressures are smaller by `l²`, the potential of a pressure grows with the length). -/
theorem C224_unit_of_length {l : ℝ} (hl : 0 < l) (hva : ValidSemi a) (hsz : a.physicalSizes ≠ []) (ha : constructSemi a = .ok s)
    (hb : constructSemi { a with physicalSizes := a.physicalSizes.map (l * ·) } = .ok s') (hg : a.nbGridPts = [nx, ny])
    (f : NdArray ℝ) (hf : f.shape = [nx, ny]) : ∃ u v, evaluateDispSemi s f false = .ok u ∧ evaluateDispSemi s' f false = .ok v ∧
      ∀ i j, i < nx → j < ny → v.get [i, j] = u.get [i, j] / l := by
  have hvb : ValidSemi { a with physicalSizes := a.physicalSizes.map (l * ·) } := by
    refine ⟨fun x hx => ?_, hva.young_pos⟩
    simp only [List.mem_map] at hx
    obtain ⟨y, hy, rfl⟩ := hx
    exact mul_pos hl (hva.sizes_pos y hy)
  obtain ⟨u, hu, -, hu'⟩ := C29_direct_sum hva ha hg f hf
  obtain ⟨v, hv1, -, hv'⟩ := C29_direct_sum hvb hb hg f hf
  refine ⟨u, v, hu, hv1, fun i j hi hj => ?_⟩
  rw [hu' i j hi hj, hv' i j hi hj]
  have e : ∀ i, sizeF ({ a with physicalSizes := a.physicalSizes.map (l * ·) } : SemiArgs).free i = l * sizeF a.free i :=
    fun i => sizeF_scaled l a.free hsz i
  rw [e, e]
  have := semiSum_scaled (a := a) (b := { a with physicalSizes := a.physicalSizes.map (l * ·) }) (nx := nx) (ny := ny)
    (dx := sizeF a.free 0 / nx) (dy := sizeF a.free 1 / ny) (dx' := l * sizeF a.free 0 / nx) (dy' := l * sizeF a.free 1 / ny)
    (c := l) (c' := (l * l)⁻¹) rfl rfl rfl (fun m n => by
      rw [← pixelGreens_scale hl]
      congr 1 <;> ring) (by rw [← mul_inv]; congr 1; ring) f i j
  rw [this, show l * (l * l)⁻¹ = l⁻¹ by field_simp, inv_mul_eq_div]

/-- **C224 (refuted)** A negative number of images is accepted; with a periodic direction no image is left, not even
the domain itself, and no force displaces anything. -/
theorem C224_negative_images_partial (hv : ValidSemi a) (hg : a.nbGridPts = [nx, ny]) (hx : nx ≠ 0) (hy : ny ≠ 0)
    (hsz : a.physicalSizes ≠ []) (he : a.engineGrid = none) (hper : a.perX = true ∨ a.perY = true) (hN : a.nImages < 0) :
    ∃ s, constructSemi a = .ok s ∧ ∀ f : NdArray ℝ, f.shape = [nx, ny] → ∃ u, evaluateDispSemi s f false = .ok u ∧
      ∀ i j, i < nx → j < ny → u.get [i, j] = 0 := by
  obtain ⟨s, hs⟩ := C144_constructible a hg hx hy hsz he
  refine ⟨s, hs, fun f hf => ?_⟩
  obtain ⟨u, hu, -, hu'⟩ := C29_direct_sum hv hs hg f hf
  refine ⟨u, hu, fun i j hi hj => ?_⟩
  have hempty : images true a.nImages = ∅ := by
    simp only [images, if_true]
    exact Icc_eq_empty (by omega)
  have h0 : ∀ dx dy d e, imageSum a nx ny dx dy d e = 0 := by
    intro dx dy d e
    unfold imageSum
    rcases hper with h | h <;> rw [h, hempty] <;> simp
  rw [hu' i j hi hj]
  simp [semiSum, h0]

/-- The hypotheses are met: 2 × 3 points, periodic along y; stiffer; larger; a negative number of images. -/
example : ValidSemi demoSemi ∧ (∃ s, constructSemi demoSemi = .ok s) ∧ demoSemi.nbGridPts = [2, 3] ∧ demoSemi.physicalSizes ≠ [] ∧
    (∃ s, constructSemi { demoSemi with young := 5 * demoSemi.young } = .ok s) ∧
    (∃ s, constructSemi { demoSemi with physicalSizes := demoSemi.physicalSizes.map (1000 * ·) } = .ok s) ∧
    ValidSemi { demoSemi with nImages := -1 } ∧ ({ demoSemi with nImages := -1 } : SemiArgs).nImages < 0 :=
  ⟨demoSemi_valid, demoSemi_ok, rfl, by simp [demoSemi],
    C144_constructible _ (nx := 2) (ny := 3) rfl (by simp) (by simp) (by simp [demoSemi]) rfl,
    C144_constructible _ (nx := 2) (ny := 3) rfl (by simp) (by simp) (by simp [demoSemi]) rfl,
    by constructor <;> simp [demoSemi], by simp⟩

end CM.HS
