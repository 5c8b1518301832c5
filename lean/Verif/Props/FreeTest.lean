import Verif.Props.Indentation
/-!
# Testing pressures on a grid with the displacements of other pressures

The nonperiodic substrate of a grid is a part of that of a larger grid with the same pixels.
-/
namespace CM.Disc
open Real MeasureTheory Set Topology CM.Ref CM.Spec CM.HS CM.FFT CM.System CM.Pipe

variable {nx ny : ℕ} {sx sy : ℝ}

/-! ## Cauchy-Schwarz -/

lemma dot_cauchy {ι : Type} [Fintype ι] {U : (ι → ℝ) → (ι → ℝ)} (hU : Reciprocal U) (hpd : ∀ f, 0 ≤ dot f (U f)) (f g : ι → ℝ) : dot f (U g) ^ 2 ≤ dot f (U f) * dot g (U g) := by
  have hq : ∀ t : ℝ, 0 ≤ dot f (U f) * (t * t) + 2 * dot f (U g) * t + dot g (U g) := by
    intro t
    have h := hpd fun j => t * f j + 1 * g j
    rw [hU.lin, dot_lin, dot_lin', dot_lin', hU.symm g f] at h
    linarith
  have := discrim_le_zero hq
  unfold discrim at this
  linarith

lemma freeSum_nonneg (hx : 0 < nx) (hy : 0 < ny) (h1 : 0 < sx) (h2 : 0 < sy) (f : Fin nx × Fin ny → ℝ) : 0 ≤ dot f (freeSum sx sy nx ny f) := by
  by_cases hz : ∃ i, f i ≠ 0
  · exact (freeSum_posDef hx hy h1 h2 f hz).le
  · push Not at hz
    simp [dot, hz]

/-! ## A larger grid -/

/-- The grid in the middle of `2 m + 1` grids in each direction. -/
def middle (m nx ny : ℕ) (x : Fin nx × Fin ny) : Fin ((2 * m + 1) * nx) × Fin ((2 * m + 1) * ny) :=
  (⟨m * nx + x.1, by have := x.1.isLt; nlinarith⟩, ⟨m * ny + x.2, by have := x.2.isLt; nlinarith⟩)

lemma middle_injective (m : ℕ) : Function.Injective (middle m nx ny) := by
  rintro ⟨a, b⟩ ⟨c, d⟩ h
  simp only [middle, Prod.mk.injEq, Fin.mk.injEq] at h
  exact Prod.ext (Fin.ext (by dsimp only; omega)) (Fin.ext (by dsimp only; omega))

/-- A field on the grid, zero outside. -/
noncomputable def widen (m : ℕ) (f : Fin nx × Fin ny → ℝ) : Fin ((2 * m + 1) * nx) × Fin ((2 * m + 1) * ny) → ℝ := Function.extend (middle m nx ny) f 0

lemma widen_sum (m : ℕ) (f : Fin nx × Fin ny → ℝ) (g : Fin ((2 * m + 1) * nx) × Fin ((2 * m + 1) * ny) → ℝ) : ∑ y, g y * widen m f y = ∑ x, g (middle m nx ny x) * f x := by
  symm
  refine Finset.sum_of_injOn (middle m nx ny) (middle_injective m).injOn (fun _ _ => Finset.mem_univ _) (fun y _ hy => ?_) fun x _ => ?_
  · unfold widen
    rw [Function.extend_apply' _ _ _ (fun ⟨x, hx⟩ => hy ⟨x, Finset.mem_coe.2 (Finset.mem_univ _), hx⟩), Pi.zero_apply, mul_zero]
  · unfold widen
    rw [(middle_injective m).extend_apply]

lemma widen_dot (m : ℕ) (f : Fin nx × Fin ny → ℝ) (g : Fin ((2 * m + 1) * nx) × Fin ((2 * m + 1) * ny) → ℝ) : dot (widen m f) g = ∑ x, f x * g (middle m nx ny x) := by
  unfold dot
  rw [Finset.sum_congr rfl fun y _ => mul_comm (widen m f y) (g y), widen_sum]
  exact Finset.sum_congr rfl fun x _ => mul_comm _ _

lemma same_pixel (m : ℕ) (s : ℝ) (n : ℕ) : ((2 * m + 1 : ℕ) : ℝ) * s / (((2 * m + 1) * n : ℕ) : ℝ) = s / n := by
  rw [Nat.cast_mul]
  exact mul_div_mul_left _ _ (by positivity)

lemma widen_answer (m : ℕ) (f : Fin nx × Fin ny → ℝ) (x : Fin nx × Fin ny) :
    freeSum ((2 * m + 1 : ℕ) * sx) ((2 * m + 1 : ℕ) * sy) ((2 * m + 1) * nx) ((2 * m + 1) * ny) (widen m f) (middle m nx ny x) = freeSum sx sy nx ny f x := by
  unfold freeSum
  rw [widen_sum, same_pixel, same_pixel]
  refine Finset.sum_congr rfl fun y _ => ?_
  congr 2
  · simp only [middle]; push_cast; ring
  · simp only [middle]; push_cast; ring

lemma widen_work (m : ℕ) (f : Fin nx × Fin ny → ℝ) :
    dot (widen m f) (freeSum ((2 * m + 1 : ℕ) * sx) ((2 * m + 1 : ℕ) * sy) ((2 * m + 1) * nx) ((2 * m + 1) * ny) (widen m f)) = dot f (freeSum sx sy nx ny f) := by
  rw [widen_dot]
  unfold dot
  exact Finset.sum_congr rfl fun x _ => by rw [widen_answer]

/-- A flat topography on the larger grid. -/
def flatTopo (nx ny : ℕ) (sx sy : ℝ) : Topo := ⟨⟨[nx, ny], fun _ => 0⟩, [sx, sy], false, 0⟩

lemma flatTopo_valid (hx : 0 < nx) (hy : 0 < ny) (h1 : 0 < sx) (h2 : 0 < sy) : ValidTopo (flatTopo nx ny sx sy) nx ny sx sy := ⟨rfl, rfl, hx, hy, h1, h2⟩

lemma flatTopo_sub (hx : 0 < nx) (hy : 0 < ny) (h1 : 0 < sx) (h2 : 0 < sy) :
    ∃ sub, makeSubstrate (flatTopo nx ny sx sy) none = .ok sub ∧ answer sub (sx * sy / (nx * ny)) nx ny = freeSum sx sy nx ny := by
  have hn : substrateName (flatTopo nx ny sx sy) none = "nonperiodic" := rfl
  rcases make_cases (flatTopo_valid hx hy h1 h2) none with ⟨h0, -, -⟩ | ⟨h0, -⟩ | ⟨-, s, hs, h⟩ | ⟨-, h0, -⟩
  · rw [hn] at h0; exact absurd h0 (by decide)
  · rw [hn] at h0; exact absurd h0 (by decide)
  · exact ⟨_, h, answer_free hx hy h1 h2 hs⟩
  · exact absurd hn h0

/-- The kernel has bounded rows. -/
lemma freeSum_bound (hx : 0 < nx) (hy : 0 < ny) (h1 : 0 < sx) (h2 : 0 < sy) {g : Fin nx × Fin ny → ℝ} {M : ℝ} (hM : ∀ x, |g x| ≤ M) (x : Fin nx × Fin ny) :
    |freeSum sx sy nx ny g x| ≤ 2 * √(sx ^ 2 + sy ^ 2) * M := by
  have hT := flatTopo_valid hx hy h1 h2
  have hM0 : 0 ≤ M := (abs_nonneg _).trans (hM x)
  have n1 : (0 : ℝ) < nx := by exact_mod_cast hx
  have n2 : (0 : ℝ) < ny := by exact_mod_cast hy
  have p1 : 0 < sx / nx := div_pos h1 n1
  have p2 : 0 < sy / ny := div_pos h2 n2
  unfold freeSum
  refine (Finset.abs_sum_le_sum_abs _ _).trans ?_
  refine le_trans ?_ (mul_le_mul_of_nonneg_right (freeSum_rows hT x) hM0)
  rw [Finset.sum_mul]
  refine Finset.sum_le_sum fun y _ => ?_
  have hn : 0 ≤ pixelGreens 1 (sx / nx) (sy / ny) (((x.1 : ℝ) - y.1) * (sx / nx)) (((x.2 : ℝ) - y.2) * (sy / ny)) := by
    rw [pixelGreens_set p1 p2]
    have := pi_pos
    refine mul_nonneg (by positivity) (integral_nonneg fun y => ?_)
    have := away_nonneg (gridPoint (sx / nx) (sy / ny) x.1 x.2) y
    simp only [Pi.zero_apply]
    positivity
  rw [abs_mul, abs_of_nonneg hn]
  exact mul_le_mul_of_nonneg_left (hM y) hn

lemma sum_abs_avg (hx : 0 < nx) (hy : 0 < ny) (f : Fin nx × Fin ny → ℝ) : ∑ x, f x = (nx * ny : ℝ) * avg f := by
  unfold avg
  rw [card_grid]
  have n1 : (0 : ℝ) < nx := by exact_mod_cast hx
  have n2 : (0 : ℝ) < ny := by exact_mod_cast hy
  field_simp

/-! ## The test -/

lemma test_step {N K S V W E : ℝ} (hN : 0 < N) (hK : 0 ≤ K) (hW : 0 ≤ W) (h1 : V ^ 2 ≤ N * W * (K * N)) (h2 : |N * S - V| ≤ N * E) : |S| ≤ E + √K * √W := by
  have h3 : |V| ≤ N * (√K * √W) := by
    refine abs_le_of_sq_le_sq (h1.trans (le_of_eq ?_)) (by positivity)
    rw [mul_pow, mul_pow, sq_sqrt hK, sq_sqrt hW]
    ring
  have h4 : N * |S| ≤ N * (E + √K * √W) := by
    have : N * |S| = |N * S| := by rw [abs_mul, abs_of_pos hN]
    rw [this]
    have := abs_add_le (N * S - V) V
    rw [sub_add_cancel] at this
    linarith
  exact le_of_mul_le_mul_left h4 hN

/-- On fine grids a field whose forces do little work gives little when it is tested with the displacements of a continuous pressure. -/
lemma free_test {ψ : ℝ × ℝ → ℝ} (hψ : Continuous ψ) (hc : HasCompactSupport ψ) (hsx : 0 < sx) (hsy : 0 < sy) :
    ∃ C : ℝ, 0 ≤ C ∧ ∀ ε > 0, ∃ h > 0, ∀ nx ny : ℕ, 0 < nx → 0 < ny → sx / nx < h → sy / ny < h → ∀ f : Fin nx × Fin ny → ℝ,
      |avg (fun x => f x * boussinesq 1 ψ (gridPoint (sx / nx) (sy / ny) x.1 x.2))| ≤ ε * avg (fun x => |f x|) + C * √(avg fun x => f x * freeSum sx sy nx ny f x) := by
  obtain ⟨M, hM⟩ := hc.exists_bound_of_continuous hψ
  simp only [norm_eq_abs] at hM
  have hM0 : 0 ≤ M := (abs_nonneg _).trans (hM 0)
  obtain ⟨r, hr⟩ := (HasCompactSupport.isCompact hc).isBounded.subset_closedBall 0
  obtain ⟨m, hm⟩ := exists_nat_gt (max (r / sx) (r / sy))
  have hm1 : r < m * sx := by rw [← div_lt_iff₀ hsx]; exact (le_max_left _ _).trans_lt hm
  have hm2 : r < m * sy := by rw [← div_lt_iff₀ hsy]; exact (le_max_right _ _).trans_lt hm
  set k : ℕ := 2 * m + 1 with hk
  have hk0 : (0 : ℝ) < (k : ℕ) := by rw [hk]; positivity
  have ek : ((k : ℕ) : ℝ) = 2 * m + 1 := by rw [hk]; push_cast; ring
  set D := √((k * sx) ^ 2 + (k * sy) ^ 2) with hD
  set s : ℝ × ℝ := (m * sx, m * sy) with hs
  set φ : ℝ × ℝ → ℝ := fun y => ψ (y - s) with hφ
  have φc : Continuous φ := hψ.comp (continuous_id.sub continuous_const)
  have φs : HasCompactSupport φ := hc.comp_homeomorph (Homeomorph.subRight s)
  have φin : tsupport φ ⊆ inside (k * sx) (k * sy) := by
    intro y hy
    have hy' : y - s ∈ tsupport ψ := by
      have := tsupport_comp_subset_preimage ψ (f := fun y => y - s) (by fun_prop)
      exact this hy
    have hb := hr hy'
    rw [mem_closedBall_zero_iff, Prod.norm_def, norm_eq_abs, norm_eq_abs] at hb
    have b1 := abs_le.1 ((le_max_left _ _).trans hb)
    have b2 := abs_le.1 ((le_max_right _ _).trans hb)
    simp only [hs, Prod.fst_sub, Prod.snd_sub] at b1 b2
    refine ⟨⟨?_, ?_⟩, ?_, ?_⟩
    · linarith
    · rw [ek]; linarith
    · linarith
    · rw [ek]; linarith
  refine ⟨√((k : ℝ) ^ 2 * (M * (2 * D * M))), sqrt_nonneg _, fun ε hε => ?_⟩
  obtain ⟨h, hh, g⟩ := fine_grid φc φs φin hε (mul_pos hk0 hsx) (mul_pos hk0 hsy)
  refine ⟨h, hh, fun nx ny hnx hny hx hy f => ?_⟩
  have n1 : (0 : ℝ) < nx := by exact_mod_cast hnx
  have n2 : (0 : ℝ) < ny := by exact_mod_cast hny
  have K1 : 0 < k * nx := by positivity
  have K2 : 0 < k * ny := by positivity
  obtain ⟨sub, hsub, hans⟩ := flatTopo_sub K1 K2 (mul_pos hk0 hsx) (mul_pos hk0 hsy)
  have hfine := (g _ none (k * nx) (k * ny) sub (flatTopo_valid K1 K2 (mul_pos hk0 hsx) (mul_pos hk0 hsy)) (Or.inr ⟨rfl, rfl⟩) hsub
    (by rw [same_pixel]; exact hx) (by rw [same_pixel]; exact hy)).1
  rw [hans] at hfine
  set G : Fin (k * nx) × Fin (k * ny) → ℝ := Disc.onGrid (k * nx) (k * ny) (k * sx) (k * sy) φ with hG
  have hcs := dot_cauchy (freeSum_reciprocal (sx := k * sx) (sy := k * sy) (nx := k * nx) (ny := k * ny)) (freeSum_nonneg K1 K2 (mul_pos hk0 hsx) (mul_pos hk0 hsy)) (widen m f) G
  rw [widen_work] at hcs
  have hGM : ∀ x, |G x| ≤ M := fun x => hM _
  have hGG : dot G (freeSum (k * sx) (k * sy) (k * nx) (k * ny) G) ≤ (k : ℝ) ^ 2 * (M * (2 * D * M)) * (nx * ny) := by
    unfold dot
    calc ∑ x, G x * freeSum (k * sx) (k * sy) (k * nx) (k * ny) G x ≤ ∑ _x : Fin (k * nx) × Fin (k * ny), M * (2 * D * M) := by
          refine Finset.sum_le_sum fun x _ => (le_abs_self _).trans ?_
          rw [abs_mul]
          exact mul_le_mul (hGM x) (freeSum_bound K1 K2 (mul_pos hk0 hsx) (mul_pos hk0 hsy) hGM x) (abs_nonneg _) hM0
      _ = _ := by
          rw [Finset.sum_const, nsmul_eq_mul, Finset.card_univ, Fintype.card_prod, Fintype.card_fin, Fintype.card_fin]
          push_cast
          ring
  have hW : 0 ≤ avg fun x => f x * freeSum sx sy nx ny f x := div_nonneg (freeSum_nonneg hnx hny hsx hsy f) (by positivity)
  have eW : dot f (freeSum sx sy nx ny f) = nx * ny * avg fun x => f x * freeSum sx sy nx ny f x := sum_abs_avg hnx hny _
  refine test_step (N := nx * ny) (V := dot (widen m f) (freeSum (k * sx) (k * sy) (k * nx) (k * ny) G)) (by positivity) (by positivity) hW ?_ ?_
  · refine hcs.trans ?_
    rw [eW]
    exact mul_le_mul_of_nonneg_left hGG (by positivity)
  · rw [← sum_abs_avg hnx hny, widen_dot, ← Finset.sum_sub_distrib, show (nx : ℝ) * ny * (ε * avg fun x => |f x|) = ε * (nx * ny * avg fun x => |f x|) by ring, ← sum_abs_avg hnx hny, Finset.mul_sum]
    refine (Finset.abs_sum_le_sum_abs _ _).trans (Finset.sum_le_sum fun x _ => ?_)
    have hb : boussinesq 1 φ (gridPoint (k * sx / (k * nx : ℕ)) (k * sy / (k * ny : ℕ)) (middle m nx ny x).1 (middle m nx ny x).2) = boussinesq 1 ψ (gridPoint (sx / nx) (sy / ny) x.1 x.2) := by
      rw [hφ, boussinesq_shift, same_pixel, same_pixel]
      congr 1
      simp only [gridPoint, middle, hs, Prod.mk_sub_mk]
      push_cast
      ext
      · simp only; field_simp; ring
      · simp only; field_simp; ring
    have h3 := hfine (middle m nx ny x)
    rw [hb, abs_sub_comm] at h3
    rw [← mul_sub, abs_mul, mul_comm]
    exact mul_le_mul_of_nonneg_right h3 (abs_nonneg _)

/-- On fine grids a field whose forces do little work carries little load. -/
lemma load_test (hsx : 0 < sx) (hsy : 0 < sy) :
    ∃ C : ℝ, 0 ≤ C ∧ ∀ ε > 0, ∃ h > 0, ∀ nx ny : ℕ, 0 < nx → 0 < ny → sx / nx < h → sy / ny < h → ∀ f : Fin nx × Fin ny → ℝ,
      |avg f| ≤ ε * avg (fun x => |f x|) + C * √(avg fun x => f x * freeSum sx sy nx ny f x) := by
  set d := (sx + sy) ^ 2 with hd
  have hd0 : 0 < d := by positivity
  have c1 := hertz_continuum (0, 0) (R := 1) (d := d) one_pos hd0
  have c2 := hertz_continuum (0, 0) (R := 1) (d := d + 1) one_pos (by positivity)
  obtain ⟨C1, hC1, g1⟩ := free_test c1.continuous c1.compact hsx hsy
  obtain ⟨C2, hC2, g2⟩ := free_test c2.continuous c2.compact hsx hsy
  refine ⟨C1 + C2, by positivity, fun ε hε => ?_⟩
  obtain ⟨h1, hh1, f1⟩ := g1 (ε / 2) (by positivity)
  obtain ⟨h2, hh2, f2⟩ := g2 (ε / 2) (by positivity)
  refine ⟨min h1 h2, lt_min hh1 hh2, fun nx ny hnx hny hx hy f => ?_⟩
  have a1 := f1 nx ny hnx hny (hx.trans_le (min_le_left _ _)) (hy.trans_le (min_le_left _ _)) f
  have a2 := f2 nx ny hnx hny (hx.trans_le (min_le_right _ _)) (hy.trans_le (min_le_right _ _)) f
  have n1 : (0 : ℝ) < nx := by exact_mod_cast hnx
  have n2 : (0 : ℝ) < ny := by exact_mod_cast hny
  have e : ∀ x : Fin nx × Fin ny, boussinesq 1 (ellipse (0, 0) 1 (d + 1)) (gridPoint (sx / nx) (sy / ny) x.1 x.2) - boussinesq 1 (ellipse (0, 0) 1 d) (gridPoint (sx / nx) (sy / ny) x.1 x.2) = 1 := by
    intro x
    have b1 : (x.1 : ℝ) * (sx / nx) < sx := by
      have : ((x.1 : ℕ) : ℝ) < nx := by exact_mod_cast x.1.isLt
      rw [mul_div_assoc', div_lt_iff₀ n1]; nlinarith
    have b2 : (x.2 : ℝ) * (sy / ny) < sy := by
      have : ((x.2 : ℕ) : ℝ) < ny := by exact_mod_cast x.2.isLt
      rw [mul_div_assoc', div_lt_iff₀ n2]; nlinarith
    have b3 : (0 : ℝ) ≤ (x.1 : ℝ) * (sx / nx) := by positivity
    have b4 : (0 : ℝ) ≤ (x.2 : ℝ) * (sy / ny) := by positivity
    have hin : ∀ t, d ≤ t → ellipse (0, 0) 1 t (gridPoint (sx / nx) (sy / ny) x.1 x.2) ≠ 0 := by
      intro t ht
      have ht0 : 0 < t := hd0.trans_le ht
      unfold ellipse
      have hm : 0 < Hertz.maxPressure t 1 1 := by
        unfold Hertz.maxPressure
        have := pi_pos
        positivity
      refine (mul_pos hm (sqrt_pos.2 ?_)).ne'
      rw [sub_pos, div_pow, one_mul, sq_sqrt ht0.le, div_lt_one ht0, axis_sq]
      simp only [gridPoint, Prod.fst_sub, Prod.snd_sub, sub_zero]
      refine lt_of_lt_of_le ?_ ht
      rw [hd]
      nlinarith
    rw [c1.touching _ (hin d le_rfl), c2.touching _ (hin (d + 1) (by linarith))]
    ring
  have ea : avg f = avg (fun x => f x * boussinesq 1 (ellipse (0, 0) 1 (d + 1)) (gridPoint (sx / nx) (sy / ny) x.1 x.2)) -
      avg (fun x => f x * boussinesq 1 (ellipse (0, 0) 1 d) (gridPoint (sx / nx) (sy / ny) x.1 x.2)) := by
    unfold avg
    rw [← sub_div, ← Finset.sum_sub_distrib]
    congr 1
    refine Finset.sum_congr rfl fun x _ => ?_
    rw [← mul_sub, e, mul_one]
  rw [ea]
  have := abs_sub (avg (fun x => f x * boussinesq 1 (ellipse (0, 0) 1 (d + 1)) (gridPoint (sx / nx) (sy / ny) x.1 x.2))) (avg (fun x => f x * boussinesq 1 (ellipse (0, 0) 1 d) (gridPoint (sx / nx) (sy / ny) x.1 x.2)))
  linarith

end CM.Disc
