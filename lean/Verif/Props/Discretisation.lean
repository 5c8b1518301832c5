import Verif.Spec.Discretisation
import Verif.Props.Boussinesq
import Verif.Props.Free
import Mathlib.MeasureTheory.Integral.Prod
import Mathlib.Topology.UniformSpace.HeineCantor
import Mathlib.Analysis.Normed.Lp.ProdLp
/-!
# Discretisation error of the nonperiodic half-space (C189), Hertz contacts (C190)
-/
namespace CM.Disc
open Real MeasureTheory Set CM.Ref CM.Spec CM.HS CM.FFT
open scoped ENNReal

lemma away_nonneg (x y : ℝ × ℝ) : 0 ≤ away x y := sqrt_nonneg _

/-- The potential of a uniformly loaded disc. -/
lemma disc_potential {D : ℝ} (hD : 0 < D) (c x : ℝ × ℝ) :
    IntegrableOn (fun y => 1 / away x y) {y | away c y < D} ∧ ∫ y in {y | away c y < D}, 1 / away x y ≤ 2 * π * D := by
  have hset : MeasurableSet {y | away c y < D} := measurableSet_lt (away_meas c) measurable_const
  have hbound : ∫⁻ y in {y | away c y < D}, ENNReal.ofReal (1 / away x y) ≤ ENNReal.ofReal (2 * π * D) := by
    have h := disc_small hD (x - c)
    have e : ∫⁻ y, ENNReal.ofReal (if axis y < D then D ^ 2 else 0) / ENNReal.ofReal (away (x - c) y) =
        ∫⁻ y, ENNReal.ofReal (if axis (y - c) < D then D ^ 2 else 0) / ENNReal.ofReal (away x y) := by
      rw [← lintegral_sub_right_eq_self _ c]
      refine lintegral_congr fun y => ?_
      have ea : away (x - c) (y - c) = away x y := by
        unfold away
        simp
      rw [ea]
    rw [e, ← lint_real] at h
    have e2 : ∫⁻ y, ENNReal.ofReal ((if axis (y - c) < D then D ^ 2 else 0) / away x y) =
        ENNReal.ofReal (D ^ 2) * ∫⁻ y in {y | away c y < D}, ENNReal.ofReal (1 / away x y) := by
      rw [← lintegral_const_mul _ (by have := away_meas x; fun_prop), ← lintegral_indicator hset]
      refine lintegral_congr fun y => ?_
      have ea : axis (y - c) = away c y := by
        unfold axis away
        simp only [Prod.fst_sub, Prod.snd_sub]
        congr 1; ring
      rw [ea]
      by_cases hy : away c y < D
      · rw [if_pos hy, indicator_of_mem (show y ∈ {y | away c y < D} from hy), ← ENNReal.ofReal_mul (by positivity)]
        congr 1; ring
      · rw [if_neg hy, indicator_of_notMem (show y ∉ {y | away c y < D} from hy)]; simp
    rw [e2] at h
    have hD2 : (0 : ℝ) < D ^ 2 := by positivity
    have e3 : ENNReal.ofReal (2 * π * D ^ 3) = ENNReal.ofReal (D ^ 2) * ENNReal.ofReal (2 * π * D) := by
      rw [← ENNReal.ofReal_mul hD2.le]; congr 1; ring
    rw [e3] at h
    exact (ENNReal.mul_le_mul_iff_right (by simpa using hD.ne') ENNReal.ofReal_ne_top).1 h
  have hm : AEStronglyMeasurable (fun y => 1 / away x y) (volume.restrict {y | away c y < D}) := by
    have := away_meas x
    exact (by fun_prop : Measurable fun y => 1 / away x y).aestronglyMeasurable
  have hn : 0 ≤ᵐ[volume.restrict {y | away c y < D}] fun y => 1 / away x y := Filter.Eventually.of_forall fun y => by
    have := away_nonneg x y
    positivity
  refine ⟨⟨hm, ?_⟩, ?_⟩
  · rw [hasFiniteIntegral_iff_ofReal hn]
    exact hbound.trans_lt ENNReal.ofReal_lt_top
  · rw [integral_eq_lintegral_of_nonneg_ae hn hm]
    exact ENNReal.toReal_le_of_le_ofReal (by positivity) hbound

lemma pixel_meas (dx dy : ℝ) (k l : ℕ) : MeasurableSet (pixel dx dy k l) := measurableSet_Ioc.prod measurableSet_Ioc

/-- The unit potential of a bounded set is finite. -/
lemma integrable_pixel {dx dy : ℝ} (hx : 0 < dx) (hy : 0 < dy) (k l : ℕ) (x : ℝ × ℝ) : IntegrableOn (fun y => 1 / away x y) (pixel dx dy k l) := by
  refine (disc_potential (D := dx + dy) (by positivity) (gridPoint dx dy k l) x).1.mono_set fun y hy' => ?_
  obtain ⟨⟨h1, h2⟩, h3, h4⟩ := hy'
  rw [Set.mem_ofPred_eq]
  unfold away gridPoint
  rw [sqrt_lt' (by positivity)]
  have a1 : ((k : ℝ) * dx - y.1) ^ 2 ≤ (dx / 2) ^ 2 := sq_le_sq' (by linarith) (by linarith)
  have a2 : ((l : ℝ) * dy - y.2) ^ 2 ≤ (dy / 2) ^ 2 := sq_le_sq' (by linarith) (by linarith)
  nlinarith [mul_pos hx hy]

/-- The tabulated Green's function is the integral over the pixel of the loading point. -/
lemma pixelGreens_set {E dx dy : ℝ} (hx : 0 < dx) (hy : 0 < dy) (i j k l : ℕ) :
    pixelGreens E dx dy (((i : ℝ) - k) * dx) (((j : ℝ) - l) * dy) = 1 / (π * E) * ∫ y in pixel dx dy k l, 1 / away (gridPoint dx dy i j) y := by
  unfold pixelGreens
  congr 1
  have hI := integrable_pixel hx hy k l (gridPoint dx dy i j)
  unfold pixel at hI ⊢
  unfold IntegrableOn at hI
  rw [Measure.volume_eq_prod, ← Measure.prod_restrict] at hI ⊢
  rw [integral_prod_symm _ hI]
  rw [← intervalIntegral.integral_of_le (by linarith)]
  have e := intervalIntegral.integral_comp_sub_left (a := l * dy - dy / 2) (b := l * dy + dy / 2)
    (fun η => ∫ ξ in (((i : ℝ) - k) * dx - dx / 2)..(((i : ℝ) - k) * dx + dx / 2), 1 / √(ξ ^ 2 + η ^ 2)) (j * dy)
  rw [show (j : ℝ) * dy - (l * dy + dy / 2) = (j - l) * dy - dy / 2 by ring, show (j : ℝ) * dy - (l * dy - dy / 2) = (j - l) * dy + dy / 2 by ring] at e
  rw [← e]
  refine intervalIntegral.integral_congr fun b _ => ?_
  rw [← intervalIntegral.integral_of_le (by linarith)]
  have e' := intervalIntegral.integral_comp_sub_left (a := k * dx - dx / 2) (b := k * dx + dx / 2) (fun ξ => 1 / √(ξ ^ 2 + (j * dy - b) ^ 2)) (i * dx)
  rw [show (i : ℝ) * dx - (k * dx + dx / 2) = (i - k) * dx - dx / 2 by ring, show (i : ℝ) * dx - (k * dx - dx / 2) = (i - k) * dx + dx / 2 by ring] at e'
  rw [← e']
  rfl

/-- The pixels of a grid. -/
def cells (nx ny : ℕ) : Finset (ℕ × ℕ) := Finset.range nx ×ˢ Finset.range ny

lemma index_le {dx t : ℝ} (hx : 0 < dx) {k k' : ℕ} (h1 : (k : ℝ) * dx - dx / 2 < t) (h2 : t ≤ k' * dx + dx / 2) : k ≤ k' := by
  have h : (k : ℝ) < k' + 1 := by
    have : (k : ℝ) * dx < (k' + 1) * dx := by linarith
    exact lt_of_mul_lt_mul_right this hx.le
  exact_mod_cast Nat.lt_succ_iff.1 (by exact_mod_cast h)

lemma pixels_disjoint {dx dy : ℝ} (hx : 0 < dx) (hy : 0 < dy) (s : Set (ℕ × ℕ)) : s.Pairwise fun a b => Disjoint (pixel dx dy a.1 a.2) (pixel dx dy b.1 b.2) := by
  rintro ⟨k, l⟩ - ⟨k', l'⟩ - hne
  rw [Set.disjoint_left]
  rintro y ⟨⟨h1, h2⟩, h3, h4⟩ ⟨⟨g1, g2⟩, g3, g4⟩
  exact hne (Prod.ext (le_antisymm (index_le hx h1 g2) (index_le hx g1 h2)) (le_antisymm (index_le hy h3 g4) (index_le hy g3 h4)))

/-- The potential of the whole simulated surface. -/
lemma sum_potential {nx ny : ℕ} {dx dy : ℝ} (hx : 0 < dx) (hy : 0 < dy) (hnx : 0 < nx) (hny : 0 < ny) (x : ℝ × ℝ) :
    ∑ a ∈ cells nx ny, ∫ y in pixel dx dy a.1 a.2, 1 / away x y ≤ 2 * π * √((nx * dx) ^ 2 + (ny * dy) ^ 2) := by
  have hX : (0 : ℝ) < nx * dx := by have : (0 : ℝ) < nx := by exact_mod_cast hnx
                                    positivity
  have hY : (0 : ℝ) < ny * dy := by have : (0 : ℝ) < ny := by exact_mod_cast hny
                                    positivity
  rw [← integral_biUnion_finset _ (fun a _ => pixel_meas dx dy a.1 a.2) (pixels_disjoint hx hy _) fun a _ => integrable_pixel hx hy a.1 a.2 x]
  have hD : 0 < √((nx * dx) ^ 2 + (ny * dy) ^ 2) := by positivity
  obtain ⟨h1, h2⟩ := disc_potential hD (((nx : ℝ) - 1) * dx / 2, ((ny : ℝ) - 1) * dy / 2) x
  refine (setIntegral_mono_set h1 (Filter.Eventually.of_forall fun y => ?_) (LE.le.eventuallyLE ?_)).trans h2
  · have := away_nonneg x y
    simp only [Pi.zero_apply]
    positivity
  · intro y hy'
    simp only [Set.mem_iUnion] at hy'
    obtain ⟨⟨k, l⟩, ha, ⟨b1, b2⟩, b3, b4⟩ := hy'
    unfold cells at ha
    rw [Finset.mem_product, Finset.mem_range, Finset.mem_range] at ha
    simp only at ha b1 b2 b3 b4
    have c1 : (k : ℝ) + 1 ≤ nx := by exact_mod_cast ha.1
    have c2 : (l : ℝ) + 1 ≤ ny := by exact_mod_cast ha.2
    have c3 : (0 : ℝ) ≤ k := Nat.cast_nonneg k
    have c4 : (0 : ℝ) ≤ l := Nat.cast_nonneg l
    rw [Set.mem_ofPred_eq]
    unfold away
    refine sqrt_lt_sqrt (by positivity) ?_
    have d1 : (((nx : ℝ) - 1) * dx / 2 - y.1) ^ 2 ≤ (nx * dx / 2) ^ 2 := sq_le_sq' (by nlinarith) (by nlinarith)
    have d2 : (((ny : ℝ) - 1) * dy / 2 - y.2) ^ 2 ≤ (ny * dy / 2) ^ 2 := sq_le_sq' (by nlinarith) (by nlinarith)
    simp only
    nlinarith [mul_pos hX hX, mul_pos hY hY]

/-- The direct sum against Boussinesq's integral. -/
lemma direct_error {nx ny : ℕ} {E dx dy : ℝ} (hE : 0 < E) (hx : 0 < dx) (hy : 0 < dy) (hnx : 0 < nx) (hny : 0 < ny) {p : ℝ × ℝ → ℝ} (hp : Measurable p)
    (hsupp : ∀ y, p y ≠ 0 → OnGrid nx ny dx dy y) {ω : ℝ} (hω : 0 ≤ ω) (hosc : Varies nx ny dx dy p ω) {f : NdArray ℝ} (hf : Sampled nx ny dx dy p f) (i j : ℕ) :
    |directSum E nx ny dx dy f i j - boussinesq E p (gridPoint dx dy i j)| ≤ 2 * ω * √((nx * dx) ^ 2 + (ny * dy) ^ 2) / E := by
  set x := gridPoint dx dy i j with hxdef
  have hpi := pi_pos
  have hint : ∀ a ∈ cells nx ny, IntegrableOn (fun y => p y / away x y) (pixel dx dy a.1 a.2) := by
    intro a ha
    unfold cells at ha
    rw [Finset.mem_product, Finset.mem_range, Finset.mem_range] at ha
    have := away_meas x
    refine ((integrable_pixel hx hy a.1 a.2 x).const_mul (ω + |p (gridPoint dx dy a.1 a.2)|)).mono' (hp.div (away_meas x)).aestronglyMeasurable ?_
    refine (ae_restrict_iff' (pixel_meas dx dy a.1 a.2)).2 (Filter.Eventually.of_forall fun y hy' => ?_)
    have h1 := hosc a.1 a.2 ha.1 ha.2 y hy'
    have h2 := away_nonneg x y
    have h3 : |p y| ≤ ω + |p (gridPoint dx dy a.1 a.2)| := by
      have := abs_add_le (p y - p (gridPoint dx dy a.1 a.2)) (p (gridPoint dx dy a.1 a.2))
      rw [sub_add_cancel] at this
      linarith
    rw [norm_div, norm_eq_abs, norm_eq_abs, abs_of_nonneg h2, div_eq_mul_one_div]
    exact mul_le_mul_of_nonneg_right h3 (by positivity)
  have e1 : directSum E nx ny dx dy f i j = 1 / (π * E) * ∑ a ∈ cells nx ny, ∫ y in pixel dx dy a.1 a.2, p (gridPoint dx dy a.1 a.2) / away x y := by
    unfold directSum cells
    rw [Finset.sum_product, Finset.mul_sum, ← Finset.sum_neg_distrib]
    refine Finset.sum_congr rfl fun k hk => ?_
    rw [Finset.mul_sum, ← Finset.sum_neg_distrib]
    refine Finset.sum_congr rfl fun l hl => ?_
    rw [pixelGreens_set hx hy, hf.2 k l (Finset.mem_range.1 hk) (Finset.mem_range.1 hl)]
    have e : ∀ y, p (gridPoint dx dy k l) / away x y = p (gridPoint dx dy k l) * (1 / away x y) := fun y => by ring
    simp only [e]
    rw [integral_const_mul]
    field_simp
    exact mul_comm _ _
  have e2 : ∫ y, p y / away x y = ∑ a ∈ cells nx ny, ∫ y in pixel dx dy a.1 a.2, p y / away x y := by
    rw [← integral_biUnion_finset _ (fun a _ => pixel_meas dx dy a.1 a.2) (pixels_disjoint hx hy _) hint, setIntegral_eq_integral_of_forall_compl_eq_zero]
    intro y hy'
    by_contra h
    obtain ⟨k, l, hk, hl, hm⟩ := hsupp y fun h0 => h (by rw [h0, zero_div])
    refine hy' ?_
    simp only [Set.mem_iUnion]
    exact ⟨(k, l), by unfold cells; rw [Finset.mem_product, Finset.mem_range, Finset.mem_range]; exact ⟨hk, hl⟩, hm⟩
  rw [e1]
  unfold boussinesq
  rw [e2, ← mul_sub, ← Finset.sum_sub_distrib, abs_mul, abs_of_pos (show 0 < 1 / (π * E) by positivity)]
  have h3 : |∑ a ∈ cells nx ny, (∫ y in pixel dx dy a.1 a.2, p (gridPoint dx dy a.1 a.2) / away x y) - ∑ a ∈ cells nx ny, (∫ y in pixel dx dy a.1 a.2, p y / away x y)|
      ≤ ω * (2 * π * √((nx * dx) ^ 2 + (ny * dy) ^ 2)) := by
    refine le_trans ?_ (mul_le_mul_of_nonneg_left (sum_potential hx hy hnx hny x) hω)
    rw [← Finset.sum_sub_distrib, Finset.mul_sum]
    refine (Finset.abs_sum_le_sum_abs _ _).trans (Finset.sum_le_sum fun a ha => ?_)
    have hi2 : IntegrableOn (fun y => p (gridPoint dx dy a.1 a.2) / away x y) (pixel dx dy a.1 a.2) := by
      have := (integrable_pixel hx hy a.1 a.2 x).const_mul (p (gridPoint dx dy a.1 a.2))
      refine this.congr (Filter.Eventually.of_forall fun y => ?_)
      beta_reduce
      ring
    rw [← integral_sub hi2 (hint a ha), ← integral_const_mul]
    refine (abs_integral_le_integral_abs).trans ?_
    refine setIntegral_mono_on (hi2.sub (hint a ha)).abs ((integrable_pixel hx hy a.1 a.2 x).const_mul ω) (pixel_meas dx dy a.1 a.2) fun y hy' => ?_
    unfold cells at ha
    rw [Finset.mem_product, Finset.mem_range, Finset.mem_range] at ha
    have h1 := hosc a.1 a.2 ha.1 ha.2 y hy'
    have h2 := away_nonneg x y
    rw [← sub_div, abs_div, abs_of_nonneg h2, div_eq_mul_one_div]
    rw [abs_sub_comm] at h1
    exact mul_le_mul_of_nonneg_right h1 (by positivity)
  rw [← Finset.sum_sub_distrib] at h3
  calc 1 / (π * E) * _ ≤ 1 / (π * E) * (ω * (2 * π * √((nx * dx) ^ 2 + (ny * dy) ^ 2))) := mul_le_mul_of_nonneg_left h3 (by positivity)
    _ = 2 * ω * √((nx * dx) ^ 2 + (ny * dy) ^ 2) / E := by field_simp

section
variable {a : FreeArgs} {s : HalfSpace} {nx ny : ℕ} (hv : ValidFree a) (hs : constructFree a = .ok s) (hg : a.nbGridPts = [nx, ny])
include hv hs hg

/-- **C189.** Discretisation error of the nonperiodic half-space.  For every pressure `p` on the simulated part of the surface, the displacements that `evaluate_disp` returns for the forces of this
pressure (taken at the grid points) differ from Boussinesq's displacements of the continuous half-space at no grid point by more than `2 ω D / E`, where `ω` is the variation of the pressure
within a pixel, `D` the diagonal of the simulated surface and `E` the contact modulus. -/
theorem C189_error {p : ℝ × ℝ → ℝ} (hp : Measurable p) (hsupp : ∀ y, p y ≠ 0 → OnGrid nx ny (sizeF a 0 / nx) (sizeF a 1 / ny) y) {ω : ℝ}
    (hosc : Varies nx ny (sizeF a 0 / nx) (sizeF a 1 / ny) p ω) {f : NdArray ℝ} (hf : Sampled nx ny (sizeF a 0 / nx) (sizeF a 1 / ny) p f) :
    ∃ u, evaluateDispFree s f false = .ok u ∧ u.shape = [nx, ny] ∧ ∀ i j, i < nx → j < ny →
      |u.get [i, j] - boussinesq a.young p (gridPoint (sizeF a 0 / nx) (sizeF a 1 / ny) i j)| ≤ 2 * ω * √(sizeF a 0 ^ 2 + sizeF a 1 ^ 2) / a.young := by
  obtain ⟨h1, h2, P⟩ := free_of_construct hv hs hg
  obtain ⟨u, hu, hsh, hu'⟩ := C19_free_direct_sum hv hs hg f hf.1
  refine ⟨u, hu, hsh, fun i j hi hj => ?_⟩
  have hnx : 0 < nx := Nat.pos_of_ne_zero (NeZero.ne nx)
  have hny : 0 < ny := Nat.pos_of_ne_zero (NeZero.ne ny)
  have hdx := P.dx_pos
  have hdy := P.dy_pos
  have hω : 0 ≤ ω := (abs_nonneg _).trans (hosc 0 0 hnx hny (gridPoint (sizeF a 0 / nx) (sizeF a 1 / ny) 0 0) ⟨⟨by simp [gridPoint]; linarith, by simp [gridPoint]; linarith⟩,
    by simp [gridPoint]; linarith, by simp [gridPoint]; linarith⟩)
  rw [hu' i j hi hj]
  have := direct_error hv.young_pos hdx hdy hnx hny hp hsupp hω hosc hf i j
  have c1 : (nx : ℝ) ≠ 0 := by exact_mod_cast hnx.ne'
  have c2 : (ny : ℝ) ≠ 0 := by exact_mod_cast hny.ne'
  rwa [mul_div_cancel₀ _ c1, mul_div_cancel₀ _ c2] at this

end

/-- **C189.** Refining the grid makes the error as small as wanted: for every continuous pressure, half-space of fixed size and every bound there is a pixel size below which every
grid gives displacements within the bound, at all its grid points. -/
theorem C189_converges {p : ℝ × ℝ → ℝ} (hp : Continuous p) (hc : HasCompactSupport p) {E sx sy ε : ℝ} (hε : 0 < ε) (hE : 0 < E) :
    ∃ h > 0, ∀ (a : FreeArgs) (s : HalfSpace) (nx ny : ℕ), ValidFree a → constructFree a = .ok s → a.nbGridPts = [nx, ny] → a.young = E → sizeF a 0 = sx → sizeF a 1 = sy →
      sx / nx < h → sy / ny < h → (∀ y, p y ≠ 0 → OnGrid nx ny (sx / nx) (sy / ny) y) → ∀ f, Sampled nx ny (sx / nx) (sy / ny) p f →
      ∃ u, evaluateDispFree s f false = .ok u ∧ u.shape = [nx, ny] ∧ ∀ i j, i < nx → j < ny → |u.get [i, j] - boussinesq E p (gridPoint (sx / nx) (sy / ny) i j)| ≤ ε := by
  have hu := hc.uniformContinuous_of_continuous hp
  rw [Metric.uniformContinuous_iff] at hu
  have hD : 0 ≤ √(sx ^ 2 + sy ^ 2) := sqrt_nonneg _
  obtain ⟨h, hh, hcl⟩ := hu (ε * E / (2 * (√(sx ^ 2 + sy ^ 2) + 1))) (by positivity)
  refine ⟨h, hh, fun a s nx ny hv hs hg hyoung h0 h1 hx hy hsupp f hf => ?_⟩
  subst hyoung
  obtain ⟨i1, i2, P⟩ := free_of_construct hv hs hg
  have hdx := P.dx_pos
  have hdy := P.dy_pos
  rw [← h0, ← h1] at *
  obtain ⟨u, g1, g2, g3⟩ := C189_error hv hs hg hp.measurable hsupp (ω := ε * a.young / (2 * (√(sizeF a 0 ^ 2 + sizeF a 1 ^ 2) + 1))) (by
    rintro k l hk hl y ⟨⟨b1, b2⟩, b3, b4⟩
    have := hcl (a := y) (b := gridPoint (sizeF a 0 / nx) (sizeF a 1 / ny) k l) (by
      rw [Prod.dist_eq]
      refine max_lt ?_ ?_
      · rw [Real.dist_eq, abs_lt]
        simp only [gridPoint]
        constructor <;> linarith
      · rw [Real.dist_eq, abs_lt]
        simp only [gridPoint]
        constructor <;> linarith)
    rw [Real.dist_eq] at this
    exact this.le) hf
  refine ⟨u, g1, g2, fun i j hi hj => (g3 i j hi hj).trans ?_⟩
  rw [div_le_iff₀ hE, mul_div_assoc', div_mul_eq_mul_div, div_le_iff₀ (by positivity)]
  nlinarith [mul_pos hε hE]

/-! ## Hertz -/

/-- The ellipsoidal pressure changes by at most the square root of twice the distance. -/
lemma ellipse_holder {r t : ℝ} (hr : 0 ≤ r) (ht : 0 ≤ t) : |√(1 - r ^ 2) - √(1 - t ^ 2)| ≤ √(2 * |r - t|) := by
  wlog h : r ≤ t generalizing r t
  · rw [abs_sub_comm, abs_sub_comm r t]
    exact this ht hr (le_of_not_ge h)
  rw [abs_of_nonneg (sub_nonneg.2 (sqrt_le_sqrt (by nlinarith))), abs_of_nonpos (by linarith)]
  rw [sub_le_iff_le_add]
  have h0 := sqrt_nonneg (1 - t ^ 2)
  have h1 := sqrt_nonneg (2 * -(r - t))
  refine (sqrt_le_left (by positivity)).2 ?_
  have e1 : √(2 * -(r - t)) ^ 2 = 2 * (t - r) := by rw [sq_sqrt (by linarith)]; ring
  have hm := mul_nonneg h0 h1
  rcases le_or_gt t 1 with h2 | h2
  · have e2 : √(1 - t ^ 2) ^ 2 = 1 - t ^ 2 := sq_sqrt (by nlinarith)
    nlinarith
  · have := sq_nonneg √(1 - t ^ 2)
    nlinarith

lemma away_triangle (c y z : ℝ × ℝ) : |away c y - away c z| ≤ away y z := by
  have e : ∀ u v : ℝ × ℝ, away u v = ‖(WithLp.toLp 2 (u - v) : WithLp 2 (ℝ × ℝ))‖ := by
    intro u v
    rw [WithLp.prod_norm_eq_of_L2]
    simp [away]
  rw [e, e, e]
  have := abs_norm_sub_norm_le (WithLp.toLp 2 (c - y) : WithLp 2 (ℝ × ℝ)) (WithLp.toLp 2 (c - z))
  rw [← WithLp.toLp_sub, sub_sub_sub_cancel_left] at this
  rw [show ‖(WithLp.toLp 2 (y - z) : WithLp 2 (ℝ × ℝ))‖ = ‖(WithLp.toLp 2 (z - y) : WithLp 2 (ℝ × ℝ))‖ by rw [← norm_neg, ← WithLp.toLp_neg, neg_sub]]
  exact this

/-- The distance of a point of a pixel from its grid point is at most half the diagonal of the pixel. -/
lemma pixel_radius {dx dy : ℝ} {k l : ℕ} {y : ℝ × ℝ} (hy : y ∈ pixel dx dy k l) : away y (gridPoint dx dy k l) ≤ √(dx ^ 2 + dy ^ 2) / 2 := by
  obtain ⟨⟨b1, b2⟩, b3, b4⟩ := hy
  unfold away gridPoint
  have h1 : (y.1 - k * dx) ^ 2 ≤ (dx / 2) ^ 2 := sq_le_sq' (by linarith) (by linarith)
  have h2 : (y.2 - l * dy) ^ 2 ≤ (dy / 2) ^ 2 := sq_le_sq' (by linarith) (by linarith)
  rw [show √(dx ^ 2 + dy ^ 2) / 2 = √((dx ^ 2 + dy ^ 2) / 2 ^ 2) by rw [sqrt_div (by positivity), sqrt_sq (by norm_num)]]
  refine sqrt_le_sqrt ?_
  simp only
  nlinarith

lemma axis_sub (c y : ℝ × ℝ) : axis (y - c) = away c y := by
  unfold axis away
  simp only [Prod.fst_sub, Prod.snd_sub]
  congr 1; ring

/-- A shifted pressure causes the shifted displacements. -/
lemma boussinesq_shift (E : ℝ) (p : ℝ × ℝ → ℝ) (c x : ℝ × ℝ) : boussinesq E (fun y => p (y - c)) x = boussinesq E p (x - c) := by
  unfold boussinesq
  congr 1
  rw [← integral_sub_right_eq_self (fun y => p y / away (x - c) y) c]
  refine integral_congr_ae (Filter.Eventually.of_forall fun y => ?_)
  have ea : away (x - c) (y - c) = away x y := by
    unfold away
    simp
  beta_reduce
  rw [ea]

lemma pz_meas (nu : ℝ) {g : ℝ × ℝ → ℝ} (hg : Measurable g) (h0 : ∀ y, 0 ≤ g y) : Measurable fun y => (Hertz.surfaceStress nu (g y)).pz := by
  have : (fun y => (Hertz.surfaceStress nu (g y)).pz) = fun y => if g y < 1e-6 then 1 else if g y < 1 then √(1 - g y ^ 2) else 0 := by
    funext y
    unfold Hertz.surfaceStress
    rw [abs_of_nonneg (h0 y)]
    split_ifs <;> rfl
  rw [this]
  exact Measurable.ite (measurableSet_lt hg measurable_const) measurable_const (Measurable.ite (measurableSet_lt hg measurable_const) (by fun_prop) measurable_const)

section
variable {a : FreeArgs} {s : HalfSpace} {nx ny : ℕ} (hv : ValidFree a) (hs : constructFree a = .ok s) (hg : a.nbGridPts = [nx, ny])
include hv hs hg

/-- **C190.** A Hertz contact is reproduced by the simulated half-space.  Let a sphere of radius `R` be pressed `d` deep into the half-space anywhere on the simulated part of the surface (centre `c`,
contact radius `√(R d)`).  The displacements that `evaluate_disp` returns for the pressure that `surface_stress` returns at the grid points are, at every grid point, those that `surface_displacements` returns,
up to `2 D (√(δ/a) + 1e-12)` units of `p0 / E`, where `D` is the diagonal of the simulated surface and `δ` that of a pixel: the error vanishes with the pixel size but for the small-distance cut-off
of the reference solution. -/
theorem C190_hertz {nu d R : ℝ} (hd : 0 < d) (hR : 0 < R) (c : ℝ × ℝ) (hin : ∀ y, away c y < √(R * d) → OnGrid nx ny (sizeF a 0 / nx) (sizeF a 1 / ny) y) {f : NdArray ℝ}
    (hf : Sampled nx ny (sizeF a 0 / nx) (sizeF a 1 / ny) (fun y => Hertz.hertzPressure nu d R a.young (away c y)) f) :
    ∃ u, evaluateDispFree s f false = .ok u ∧ u.shape = [nx, ny] ∧ ∀ i j, i < nx → j < ny →
      |u.get [i, j] - -(Hertz.maxPressure d R a.young * √(R * d) / a.young * Hertz.surfaceDisp (away c (gridPoint (sizeF a 0 / nx) (sizeF a 1 / ny) i j) / √(R * d)))|
        ≤ Hertz.maxPressure d R a.young / a.young * (2 * √(sizeF a 0 ^ 2 + sizeF a 1 ^ 2) * (√(√((sizeF a 0 / nx) ^ 2 + (sizeF a 1 / ny) ^ 2) / √(R * d)) + 1e-12) + 2e-18 * √(R * d)) := by
  have hE := hv.young_pos
  have hp0 : 0 < Hertz.maxPressure d R a.young := by unfold Hertz.maxPressure; positivity
  have ha : 0 < √(R * d) := by positivity
  have hmeas : Measurable fun y => Hertz.hertzPressure nu d R a.young (away c y) := by
    unfold Hertz.hertzPressure
    exact (pz_meas nu ((away_meas c).div_const _) fun y => div_nonneg (away_nonneg c y) ha.le).const_mul _
  obtain ⟨u, hu, hsh, hu'⟩ := C189_error hv hs hg hmeas (by
    intro y hy
    refine hin y ?_
    by_contra hc
    refine hy ?_
    have h1 : 1 ≤ away c y / √(R * d) := by rw [le_div_iff₀ ha]; linarith
    unfold Hertz.hertzPressure Hertz.surfaceStress
    rw [abs_of_nonneg (by positivity), if_neg (by linarith), if_neg (by linarith)]
    simp) (ω := Hertz.maxPressure d R a.young * (√(√((sizeF a 0 / nx) ^ 2 + (sizeF a 1 / ny) ^ 2) / √(R * d)) + 1e-12)) (by
    intro k l hk hl y hy
    have h1 := pixel_radius hy
    have h2 := away_triangle c y (gridPoint (sizeF a 0 / nx) (sizeF a 1 / ny) k l)
    set g := gridPoint (sizeF a 0 / nx) (sizeF a 1 / ny) k l
    unfold Hertz.hertzPressure
    rw [← mul_sub, abs_mul, abs_of_pos hp0]
    refine mul_le_mul_of_nonneg_left ?_ hp0.le
    have r0 : 0 ≤ away c y / √(R * d) := div_nonneg (away_nonneg c y) ha.le
    have t0 : 0 ≤ away c g / √(R * d) := div_nonneg (away_nonneg c g) ha.le
    have h3 := ellipse_holder r0 t0
    have h4 := pz_eq nu _ r0
    have h5 := pz_eq nu _ t0
    have h6 : √(2 * |away c y / √(R * d) - away c g / √(R * d)|) ≤ √(√((sizeF a 0 / nx) ^ 2 + (sizeF a 1 / ny) ^ 2) / √(R * d)) := by
      refine sqrt_le_sqrt ?_
      rw [← sub_div, abs_div, abs_of_pos ha, mul_div_assoc']
      exact div_le_div_of_nonneg_right (by linarith) ha.le
    have h7 : ∀ r : ℝ, (if r < 1e-6 then (1e-6 : ℝ) ^ 2 else 0) ≤ 1e-12 := by
      intro r
      split_ifs <;> norm_num
    have h8 := h7 (away c y / √(R * d))
    have h9 := h7 (away c g / √(R * d))
    rw [abs_le] at h3 ⊢
    constructor <;> linarith [h3.1, h3.2, h4.1, h4.2, h5.1, h5.2]) hf
  refine ⟨u, hu, hsh, fun i j hi hj => ?_⟩
  have h1 := hu' i j hi hj
  set g := gridPoint (sizeF a 0 / nx) (sizeF a 1 / ny) i j
  obtain ⟨-, h2, h3⟩ := C183_hertz (nu := nu) hd hR hE (g - c)
  have e : boussinesq a.young (fun y => Hertz.hertzPressure nu d R a.young (away c y)) g = boussinesq a.young (fun y => Hertz.hertzPressure nu d R a.young (axis y)) (g - c) := by
    rw [← boussinesq_shift]
    simp only [axis_sub]
  rw [← e, axis_sub] at h2 h3
  set U := boussinesq a.young (fun y => Hertz.hertzPressure nu d R a.young (away c y)) g
  set S := Hertz.surfaceDisp (away c g / √(R * d))
  have h4 : |U - -(Hertz.maxPressure d R a.young * √(R * d) / a.young * S)| ≤ Hertz.maxPressure d R a.young / a.young * (2e-18 * √(R * d)) := by
    rw [abs_of_nonneg (by linarith)]
    have : Hertz.maxPressure d R a.young * √(R * d) / a.young * (2e-18 - S) = Hertz.maxPressure d R a.young / a.young * (2e-18 * √(R * d)) -
      Hertz.maxPressure d R a.young * √(R * d) / a.young * S := by ring
    linarith
  have h5 := abs_sub_le (u.get [i, j]) U (-(Hertz.maxPressure d R a.young * √(R * d) / a.young * S))
  refine h5.trans ((add_le_add h1 h4).trans (le_of_eq ?_))
  ring

end

/-! ## The simulated part of the surface -/

lemma nearest {n : ℕ} {dx t : ℝ} (hx : 0 < dx) (h1 : -(dx / 2) < t) (h2 : t ≤ n * dx - dx / 2) : ∃ k < n, t ∈ Set.Ioc ((k : ℝ) * dx - dx / 2) (k * dx + dx / 2) := by
  have hpos : 0 < t / dx + 1 / 2 := by
    have : -(1 / 2) < t / dx := by rw [lt_div_iff₀ hx]; linarith
    linarith
  have hle : t / dx + 1 / 2 ≤ n := by
    have : t / dx ≤ n - 1 / 2 := by rw [div_le_iff₀ hx]; linarith
    linarith
  have c1 := Nat.ceil_lt_add_one hpos.le
  have c2 := Nat.le_ceil (t / dx + 1 / 2)
  have c3 := Nat.ceil_pos.2 hpos
  have c4 : ⌈t / dx + 1 / 2⌉₊ ≤ n := Nat.ceil_le.2 hle
  obtain ⟨k, hk⟩ : ∃ k, ⌈t / dx + 1 / 2⌉₊ = k + 1 := ⟨_, (Nat.succ_pred_eq_of_pos c3).symm⟩
  rw [hk] at c1 c2 c4
  push_cast at c1 c2
  refine ⟨k, by omega, ?_, ?_⟩
  · have : (k : ℝ) - 1 / 2 < t / dx := by linarith
    rw [lt_div_iff₀ hx] at this
    linarith
  · have : t / dx ≤ (k : ℝ) + 1 / 2 := by linarith
    rw [div_le_iff₀ hx] at this
    linarith

/-- The simulated part of the surface is a rectangle. -/
lemma onGrid_rect {nx ny : ℕ} {dx dy : ℝ} (hx : 0 < dx) (hy : 0 < dy) {y : ℝ × ℝ} (h1 : -(dx / 2) < y.1) (h2 : y.1 ≤ nx * dx - dx / 2) (h3 : -(dy / 2) < y.2) (h4 : y.2 ≤ ny * dy - dy / 2) :
    OnGrid nx ny dx dy y := by
  obtain ⟨k, hk, hk'⟩ := nearest hx h1 h2
  obtain ⟨l, hl, hl'⟩ := nearest hy h3 h4
  exact ⟨k, l, hk, hl, hk', hl'⟩

lemma away_coord (c y : ℝ × ℝ) : |c.1 - y.1| ≤ away c y ∧ |c.2 - y.2| ≤ away c y := by
  unfold away
  exact ⟨abs_le_sqrt (by nlinarith [sq_nonneg (c.2 - y.2)]), abs_le_sqrt (by nlinarith [sq_nonneg (c.1 - y.1)])⟩

/-- A sphere pressed into the surface in the middle of the grid of `demoFree`: its contact covers two grid points. -/
lemma demo_inside : ∀ y, away ((1 / 4, 2 / 3) : ℝ × ℝ) y < 2 / 5 → OnGrid 2 3 (sizeF demoFree 0 / (2 : ℕ)) (sizeF demoFree 1 / (3 : ℕ)) y := by
  intro y hy
  obtain ⟨h1, h2⟩ := away_coord (1 / 4, 2 / 3) y
  have h3 := abs_le.1 (h1.trans hy.le)
  have h4 := abs_le.1 (h2.trans hy.le)
  simp only at h3 h4
  refine onGrid_rect ?_ ?_ ?_ ?_ ?_ ?_ <;> norm_num [sizeF, demoFree] <;> linarith [h3.1, h3.2, h4.1, h4.2]

lemma demo_radius : √((1 : ℝ) * (4 / 25)) = 2 / 5 := by
  rw [show (1 : ℝ) * (4 / 25) = (2 / 5) ^ 2 by norm_num, sqrt_sq (by norm_num)]

/-- The hypotheses of `C190_hertz` (and with them those of `C189_error`) are met by a contact that covers two grid points. -/
example : ∃ s f, constructFree demoFree = .ok s ∧ ValidFree demoFree ∧ demoFree.nbGridPts = [2, 3] ∧
    (∀ y, away ((1 / 4, 2 / 3) : ℝ × ℝ) y < √(1 * (4 / 25)) → OnGrid 2 3 (sizeF demoFree 0 / (2 : ℕ)) (sizeF demoFree 1 / (3 : ℕ)) y) ∧
    Sampled 2 3 (sizeF demoFree 0 / (2 : ℕ)) (sizeF demoFree 1 / (3 : ℕ)) (fun y => Hertz.hertzPressure 0 (4 / 25) 1 demoFree.young (away (1 / 4, 2 / 3) y)) f ∧
    f.get [0, 1] < 0 ∧ f.get [1, 1] < 0 ∧ f.get [0, 0] = 0 := by
  obtain ⟨s, hs⟩ := demoFree_ok
  refine ⟨s, ⟨[2, 3], fun i => match i with
    | [k, l] => -(Hertz.hertzPressure 0 (4 / 25) 1 demoFree.young (away (1 / 4, 2 / 3) (gridPoint (sizeF demoFree 0 / (2 : ℕ)) (sizeF demoFree 1 / (3 : ℕ)) k l)) *
      (sizeF demoFree 0 / (2 : ℕ) * (sizeF demoFree 1 / (3 : ℕ))))
    | _ => 0⟩, hs, demoFree_valid, rfl, by rw [demo_radius]; exact demo_inside, ⟨rfl, fun _ _ _ _ => rfl⟩, ?_, ?_, ?_⟩
  · have e : away (1 / 4, 2 / 3) (gridPoint (sizeF demoFree 0 / (2 : ℕ)) (sizeF demoFree 1 / (3 : ℕ)) 0 1) = 1 / 4 := by
      unfold away
      rw [sqrt_eq_iff_mul_self_eq_of_pos (by norm_num)]
      norm_num [gridPoint, sizeF, demoFree]
    dsimp only
    rw [e]
    unfold Hertz.hertzPressure Hertz.surfaceStress Hertz.maxPressure
    rw [demo_radius]
    norm_num [abs_of_pos, sizeF, demoFree]
    positivity
  · have e : away (1 / 4, 2 / 3) (gridPoint (sizeF demoFree 0 / (2 : ℕ)) (sizeF demoFree 1 / (3 : ℕ)) 1 1) = 1 / 4 := by
      unfold away
      rw [sqrt_eq_iff_mul_self_eq_of_pos (by norm_num)]
      norm_num [gridPoint, sizeF, demoFree]
    dsimp only
    rw [e]
    unfold Hertz.hertzPressure Hertz.surfaceStress Hertz.maxPressure
    rw [demo_radius]
    norm_num [abs_of_pos, sizeF, demoFree]
    positivity
  · have e : 1 ≤ away (1 / 4, 2 / 3) (gridPoint (sizeF demoFree 0 / (2 : ℕ)) (sizeF demoFree 1 / (3 : ℕ)) 0 0) / (2 / 5) := by
      rw [le_div_iff₀ (by norm_num)]
      refine le_sqrt_of_sq_le ?_
      norm_num [gridPoint, sizeF, demoFree]
    dsimp only
    unfold Hertz.hertzPressure Hertz.surfaceStress
    rw [demo_radius, abs_of_nonneg (by linarith), if_neg (by linarith), if_neg (by linarith)]
    simp

/-- A pressure that meets the hypotheses of `C189_converges` on the same grid. -/
example : ∃ p : ℝ × ℝ → ℝ, Continuous p ∧ HasCompactSupport p ∧ p (0, 2 / 3) ≠ 0 ∧ ∀ y, p y ≠ 0 → OnGrid 2 3 (sizeF demoFree 0 / (2 : ℕ)) (sizeF demoFree 1 / (3 : ℕ)) y := by
  have hs : ∀ y : ℝ × ℝ, max 0 (2 / 5 - away (1 / 4, 2 / 3) y) ≠ 0 → away (1 / 4, 2 / 3) y < 2 / 5 := by
    intro y hy
    by_contra hc
    exact hy (max_eq_left (by linarith))
  refine ⟨fun y => max 0 (2 / 5 - away (1 / 4, 2 / 3) y), ?_, ?_, ?_, fun y hy => demo_inside y (hs y hy)⟩
  · unfold away
    fun_prop
  · refine HasCompactSupport.intro (K := Set.Icc (-1) 2 ×ˢ Set.Icc (-1) 2) (isCompact_Icc.prod isCompact_Icc) fun y hy => ?_
    by_contra hc
    obtain ⟨h1, h2⟩ := away_coord (1 / 4, 2 / 3) y
    have h3 := abs_le.1 (h1.trans (hs y hc).le)
    have h4 := abs_le.1 (h2.trans (hs y hc).le)
    simp only at h3 h4
    exact hy ⟨⟨by linarith [h3.2], by linarith [h3.1]⟩, by linarith [h4.2], by linarith [h4.1]⟩
  · have e : away ((1 / 4, 2 / 3) : ℝ × ℝ) (0, 2 / 3) = 1 / 4 := by
      rw [show (1 : ℝ) / 4 = √((1 / 4) ^ 2) from (sqrt_sq (by norm_num)).symm]
      norm_num [away]
    beta_reduce
    rw [e]
    norm_num

end CM.Disc
