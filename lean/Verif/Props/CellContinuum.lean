import Verif.Props.CellWork
/-!
# Simulated contacts with periodic surfaces converge to the contact of the continuous periodic half-space (C199)
-/
namespace CM.Disc
open Real MeasureTheory Set Topology CM.Ref CM.Spec CM.HS CM.FFT CM.System CM.Pipe

variable {nx ny : ℕ} {sx sy : ℝ} {T : Topo}

/-! ## Waves -/

lemma cell_stiff_ne (hsx : 0 < sx) (hsy : 0 < sy) (k : ℤ × ℤ) : cellStiffness (cell sx sy) k ≠ 0 := by
  have hpi := pi_pos
  unfold cellStiffness
  split_ifs with h
  · rw [cell_gamma]; positivity
  · rw [cell_modulus, cell_size0, cell_size1]
    show 1 / 2 * cellNumber sx sy k * 1 ≠ 0
    have h0 : 0 < (2 * π * k.1 / sx) ^ 2 + (2 * π * k.2 / sy) ^ 2 := by
      by_cases h1 : k.1 = 0
      · have h2 : k.2 ≠ 0 := fun h2 => h (Prod.ext h1 h2)
        have : (k.2 : ℝ) ≠ 0 := by exact_mod_cast h2
        have : 0 < (2 * π * k.2 / sy) ^ 2 := by positivity
        positivity
      · have : (k.1 : ℝ) ≠ 0 := by exact_mod_cast h1
        have : 0 < (2 * π * k.1 / sx) ^ 2 := by positivity
        positivity
    have := sqrt_pos.2 h0
    unfold cellNumber
    positivity

/-- Finite sum of plane waves. -/
noncomputable def waveSum (sx sy : ℝ) (t : Finset (ℤ × ℤ)) (c : ℤ × ℤ → ℂ) : ℝ × ℝ → ℝ := fun x => ∑ k ∈ t, (c k * cellWave sx sy k x.1 x.2).re

lemma waveSum_spectrum (t : Finset (ℤ × ℤ)) (c : ℤ × ℤ → ℂ) : Spectrum sx sy (fun k => if k ∈ t then c k else 0) (fun x y => waveSum sx sy t c (x, y)) := by
  have hz : ∀ k : ℤ × ℤ, k ∉ t → (if k ∈ t then c k else 0) = 0 := fun k hk => if_neg hk
  refine ⟨summable_of_ne_finset_zero (s := t) fun k hk => by rw [hz k hk, norm_zero], fun x y => ?_⟩
  rw [tsum_eq_sum (s := t) fun k hk => by rw [hz k hk, zero_mul, Complex.zero_re]]
  refine Finset.sum_congr rfl fun k hk => ?_
  rw [if_pos hk]

/-- A finite sum of waves is answered exactly on every grid that is fine enough. -/
lemma waves_exact (hsx : 0 < sx) (hsy : 0 < sy) (t : Finset (ℤ × ℤ)) (c : ℤ × ℤ → ℂ) :
    ∃ N : ℕ, ∀ (nx ny : ℕ) (s : HalfSpace), N ≤ nx → N ≤ ny → construct ⟨[nx, ny], 1, [sx, sy], none, none, 0, none⟩ = .ok s →
      answer ⟨s, false, false⟩ (sx * sy / (nx * ny)) nx ny (onGrid nx ny sx sy (waveSum sx sy t c)) = onGrid nx ny sx sy (waveSum sx sy t fun k => c k / cellStiffness (cell sx sy) k) := by
  refine ⟨2 * t.sup (fun k => max k.1.natAbs k.2.natAbs) + 1, fun nx ny s h1 h2 hs => ?_⟩
  have hv := cell_valid hsx hsy
  have hv' : ValidArgs ⟨[nx, ny], 1, [sx, sy], none, none, 0, none⟩ := ⟨hv.1, hv.2, hv.3, hv.4, hv.5⟩
  set f := fieldArray nx ny fun y => -(onGrid nx ny sx sy (waveSum sx sy t c) y * (sx * sy / (nx * ny))) with hf
  have z0 : size (⟨[nx, ny], 1, [sx, sy], none, none, 0, none⟩ : Args) 0 = sx := cell_size0
  have z1 : size (⟨[nx, ny], 1, [sx, sy], none, none, 0, none⟩ : Args) 1 = sy := cell_size1
  have hst : ∀ k, cellStiffness (⟨[nx, ny], 1, [sx, sy], none, none, 0, none⟩ : Args) k = cellStiffness (cell sx sy) k := fun k => rfl
  obtain ⟨w, hw1, -, hw2⟩ := C194_exact hv' hs rfl (c := fun k => if k ∈ t then c k else 0) (p := fun x y => waveSum sx sy t c (x, y))
    (v := fun x y => waveSum sx sy t (fun k => c k / cellStiffness (cell sx sy) k) (x, y)) (by rw [z0, z1]; exact waveSum_spectrum t c) (by
      rw [z0, z1]
      have := waveSum_spectrum (sx := sx) (sy := sy) t (fun k => c k / cellStiffness (cell sx sy) k)
      have e : (fun k => (if k ∈ t then c k else 0) / (cellStiffness (⟨[nx, ny], 1, [sx, sy], none, none, 0, none⟩ : Args) k : ℂ)) = fun k => if k ∈ t then c k / (cellStiffness (cell sx sy) k : ℂ) else 0 := by
        funext k
        rw [hst]
        split_ifs
        · rfl
        · rw [zero_div]
      rw [e]
      exact this) (fun k hk => by
      have hkt : k ∈ t := by
        by_contra h
        exact hk (if_neg h)
      have := Finset.le_sup (f := fun k : ℤ × ℤ => max k.1.natAbs k.2.natAbs) hkt
      have a1 := (le_max_left k.1.natAbs k.2.natAbs).trans this
      have a2 := (le_max_right k.1.natAbs k.2.natAbs).trans this
      constructor
      · rw [Int.abs_eq_natAbs]; exact_mod_cast (by omega : 2 * k.1.natAbs < nx)
      · rw [Int.abs_eq_natAbs]; exact_mod_cast (by omega : 2 * k.2.natAbs < ny)) (f := f) ⟨rfl, fun i j hi hj => by
        rw [hf, fieldArray_get _ hi hj, z0, z1]
        rfl⟩
  funext x
  have e : (Substrate.evaluateDisp ⟨s, false, false⟩ f) = .ok w := hw1
  have := hw2 x.1 x.2 x.1.isLt x.2.isLt
  rw [z0, z1] at this
  unfold answer
  rw [← hf, e]
  exact this

/-! ## Fine grids -/

lemma fine_of_pixels {s h : ℝ} {n N : ℕ} (hs : 0 < s) (hn : 0 < n) (hh : h ≤ s / (N + 1)) (hx : s / n < h) : N ≤ n := by
  have h1 : (0 : ℝ) < n := by exact_mod_cast hn
  have hx2 := hx.trans_le hh
  rw [div_lt_div_iff_of_pos_left hs h1 (by positivity)] at hx2
  have : N + 1 < n := by exact_mod_cast hx2
  omega

/-- Means on fine grids. -/
lemma fine_mean {q : ℝ × ℝ → ℝ} (hr : Repeats sx sy q) (hq : Continuous q) (hsx : 0 < sx) (hsy : 0 < sy) {ε : ℝ} (hε : 0 < ε) :
    ∃ h > 0, ∀ nx ny : ℕ, 0 < nx → 0 < ny → sx / nx < h → sy / ny < h → |avg (onGrid nx ny sx sy q) * (sx * sy) - overCell sx sy q| ≤ ε := by
  obtain ⟨-, hu, -⟩ := hr.modulus hsx hsy hq
  set ω := ε / (2 * (sx * sy)) with hω
  have hω0 : 0 < ω := by positivity
  have e0 : 2 * (ω * (sx * sy)) = ε := by rw [hω]; field_simp
  obtain ⟨δ, hδ, hcl⟩ := hu ω hω0
  refine ⟨δ, hδ, fun nx ny h1 h2 hx hy => ?_⟩
  have h1' : (0 : ℝ) < nx := by exact_mod_cast h1
  have h2' : (0 : ℝ) < ny := by exact_mod_cast h2
  have ex : (nx : ℝ) * (sx / nx) = sx := mul_div_cancel₀ _ h1'.ne'
  have ey : (ny : ℝ) * (sy / ny) = sy := mul_div_cancel₀ _ h2'.ne'
  set dx := sx / nx with hdx
  set dy := sy / ny with hdy
  have dx0 : 0 < dx := by positivity
  have dy0 : 0 < dy := by positivity
  set R : ℝ → ℝ := fun x => ∫ y in (0 : ℝ)..sy, q (x, y) with hR
  have hRc : Continuous R := intervalIntegral.continuous_parametric_intervalIntegral_of_continuous' (f := fun x y => q (x, y)) hq 0 sy
  have row : ∀ x, |∑ j ∈ Finset.range ny, q (x, j * dy) * dy - R x| ≤ ω * sy := by
    intro x
    have := riemann (q := fun y => q (x, y)) (by fun_prop) (n := ny) (dx := dy) (ω := ω) dy0.le fun j hj y hy' => by
      refine (hcl (x, j * dy) (x, y) (by simpa using hδ) ?_).le
      show |(j : ℝ) * dy - y| < δ
      rw [abs_lt]
      constructor <;> linarith [hy'.1, hy'.2]
    rwa [ey] at this
  have osc : ∀ i < nx, ∀ y ∈ Icc ((i : ℝ) * dx) ((i + 1) * dx), |R (i * dx) - R y| ≤ ω * sy := by
    intro i hi y hy'
    simp only [hR]
    rw [← intervalIntegral.integral_sub (Continuous.intervalIntegrable (by fun_prop) _ _) (Continuous.intervalIntegrable (by fun_prop) _ _)]
    have hb := intervalIntegral.norm_integral_le_of_norm_le_const (a := 0) (b := sy) (f := fun w => q (i * dx, w) - q (y, w)) (C := ω) fun w _ => by
      rw [norm_eq_abs]
      refine (hcl (i * dx, w) (y, w) ?_ (by simpa using hδ)).le
      show |(i : ℝ) * dx - y| < δ
      rw [abs_lt]
      constructor <;> linarith [hy'.1, hy'.2]
    rwa [sub_zero, abs_of_pos hsy, norm_eq_abs] at hb
  have col := riemann hRc (n := nx) (dx := dx) (ω := ω * sy) dx0.le osc
  rw [ex] at col
  have esum : avg (onGrid nx ny sx sy q) * (sx * sy) = ∑ i ∈ Finset.range nx, (∑ j ∈ Finset.range ny, q (i * dx, j * dy) * dy) * dx := by
    unfold avg onGrid gridPoint
    rw [card_grid, Fintype.sum_prod_type, Finset.sum_range]
    simp only [Finset.sum_range, ← Finset.sum_mul]
    simp only [← hdx, ← hdy]
    generalize (∑ x : Fin nx, ∑ y : Fin ny, q (x * dx, y * dy)) = S
    rw [hdx, hdy]
    field_simp
  have b1 : |avg (onGrid nx ny sx sy q) * (sx * sy) - ∑ i ∈ Finset.range nx, R (i * dx) * dx| ≤ ω * sy * sx := by
    rw [esum, ← Finset.sum_sub_distrib]
    refine (Finset.abs_sum_le_sum_abs _ _).trans ((Finset.sum_le_sum (g := fun _ => ω * sy * dx) fun i _ => ?_).trans (le_of_eq ?_))
    · rw [← sub_mul, abs_mul, abs_of_pos dx0]
      exact mul_le_mul_of_nonneg_right (row _) dx0.le
    · rw [Finset.sum_const, Finset.card_range, nsmul_eq_mul, mul_left_comm, ex]
  have b2 : |∑ i ∈ Finset.range nx, R (i * dx) * dx - overCell sx sy q| ≤ ω * sy * sx := col
  have := abs_sub_le (avg (onGrid nx ny sx sy q) * (sx * sy)) (∑ i ∈ Finset.range nx, R (i * dx) * dx) (overCell sx sy q)
  nlinarith

/-- On fine grids the substrate answers a pressure near the pressure of a continuous solution with its displacement. -/
lemma fine_cell {q v : ℝ × ℝ → ℝ} (hr : CellResponse (cell sx sy) q v) (hsx : 0 < sx) (hsy : 0 < sy) {ε : ℝ} (hε : 0 < ε) :
    ∃ h > 0, ∀ (nx ny : ℕ) (s : HalfSpace), 0 < nx → 0 < ny → sx / nx < h → sy / ny < h → construct ⟨[nx, ny], 1, [sx, sy], none, none, 0, none⟩ = .ok s →
      ∃ r : Fin nx × Fin ny → ℝ, (∀ x, |r x| ≤ ε) ∧ ∀ x, |answer ⟨s, false, false⟩ (sx * sy / (nx * ny)) nx ny (fun y => onGrid nx ny sx sy q y - r y) x - onGrid nx ny sx sy v x| ≤ ε := by
  obtain ⟨t, c, hq, hv⟩ := hr.approx (by rw [cell_size0]; exact hsx) (by rw [cell_size1]; exact hsy) (cell_stiff_ne hsx hsy) hε
  rw [cell_size0, cell_size1] at hq hv
  obtain ⟨N, hN⟩ := waves_exact hsx hsy t c
  refine ⟨min (sx / (N + 1)) (sy / (N + 1)), lt_min (by positivity) (by positivity), fun nx ny s h1 h2 hx hy hs => ?_⟩
  refine ⟨fun x => onGrid nx ny sx sy q x - onGrid nx ny sx sy (waveSum sx sy t c) x, fun x => ?_, fun x => ?_⟩
  · rw [abs_sub_comm]
    exact hq _ _
  · simp only [sub_sub_cancel]
    rw [hN nx ny s (fine_of_pixels hsx h1 (min_le_left _ _) hx) (fine_of_pixels hsy h2 (min_le_right _ _) hy) hs]
    exact hv _ _

/-- A near solution on a fine grid and the continuous solution. -/
lemma compare_cell {H q v : ℝ × ℝ → ℝ} {d : ℝ} (hq : CellContinuum sx sy H d q v) (hsx : 0 < sx) (hsy : 0 < sy) {ε : ℝ} (hε : 0 < ε) :
    ∃ h > 0, h ≤ ε ∧ ∀ (T : Topo) (k : Option String) (nx ny : ℕ) (o : ℝ) (p u : Fin nx × Fin ny → ℝ), ValidTopo T nx ny sx sy → (k = some "periodic" ∨ (k = none ∧ T.isPeriodic = true)) →
      HeightsOf H T nx ny sx sy → sx / nx < h → sy / ny < h → NearContact T k nx ny sx sy o h p u →
      ∃ s, construct ⟨[nx, ny], 1, [sx, sy], none, none, 0, none⟩ = .ok s ∧ u = answer ⟨s, false, false⟩ (sx * sy / (nx * ny)) nx ny p ∧
      PeriodicAnswer (answer ⟨s, false, false⟩ (sx * sy / (nx * ny)) nx ny) sx sy ∧
      ∃ b r, Compare (answer ⟨s, false, false⟩ (sx * sy / (nx * ny)) nx ny) b p (onGrid nx ny sx sy q) (onGrid nx ny sx sy v) r o d ε ε := by
  obtain ⟨h1, hh1, g1⟩ := fine_cell hq.response hsx hsy hε
  refine ⟨min ε h1, lt_min hε hh1, min_le_left _ _, fun T k nx ny o p u hT hk hH hx hy hnear => ?_⟩
  obtain ⟨sub, hm, rfl⟩ := hnear.response
  obtain ⟨⟨hn1, hn2⟩, s, hs, rfl⟩ := periodic_sub hT hk hm
  obtain ⟨r, hr1, hr2⟩ := g1 nx ny s hT.nx_pos hT.ny_pos (hx.trans_le (min_le_right _ _)) (hy.trans_le (min_le_right _ _)) hs
  refine ⟨s, hs, rfl, answer_periodic hn1 hn2 hsx hsy hs, fun x => T.heights.get [x.1, x.2], r, ⟨hnear.noTension, fun x => hq.noTension _, fun x => (hnear.penetration x).trans (min_le_left _ _),
    fun x hx => (hnear.gap x hx).trans (min_le_left _ _), fun x => ?_, fun x hx => ?_, hr1, hr2⟩⟩
  · rw [hH _ _ x.1.isLt x.2.isLt]
    exact hq.noPenetration _
  · rw [hH _ _ x.1.isLt x.2.isLt]
    exact hq.touching _ hx

/-! ## Convergence at a given offset -/

lemma quad_small {D a b ε η : ℝ} (ha : 0 ≤ a) (hε : 0 < ε) (hη : 0 < η) (h : D ^ 2 ≤ ε * (a + b * D)) (hs : ε * (a + b * η) ≤ η ^ 2) : D ≤ η := by
  by_contra hc
  push Not at hc
  have h1 : D ^ 2 * η ≤ ε * (a + b * D) * η := mul_le_mul_of_nonneg_right h hη.le
  have h2 : ε * (a + b * η) * D ≤ η ^ 2 * D := mul_le_mul_of_nonneg_right hs (by linarith)
  have h3 : ε * a * η ≤ ε * a * D := mul_le_mul_of_nonneg_left hc.le (by positivity)
  have h4 : η * D * (D - η) ≤ 0 := by nlinarith
  have h5 : 0 < η * D * (D - η) := mul_pos (mul_pos hη (by linarith)) (by linarith)
  linarith

lemma close_disp {B ε K W : ℝ} (hB : 0 ≤ B) (hε : 0 ≤ ε) (hK : 0 ≤ K) (h1 : ε ^ 2 ≤ ε) (h2 : W ≤ ε * K) : 3 * (B * W) + 3 * (B ^ 2 * ε ^ 2) + 3 * ε ^ 2 ≤ ε * (K * (1 + B + 3 * B) + 3 * B ^ 2 + 3) := by
  have t1 := mul_le_mul_of_nonneg_left h2 hB
  have t2 : B ^ 2 * ε ^ 2 ≤ B ^ 2 * ε := mul_le_mul_of_nonneg_left h1 (by positivity)
  have t3 : 0 ≤ ε * (K * (1 + B)) := by positivity
  have e : ε * (K * (1 + B + 3 * B) + 3 * B ^ 2 + 3) = ε * (K * (1 + B)) + 3 * (B * (ε * K)) + 3 * (B ^ 2 * ε) + 3 * ε := by ring
  linarith

lemma close_work {B ε K W : ℝ} (hB : 0 ≤ B) (hε : 0 ≤ ε) (hK : 0 ≤ K) (h2 : W ≤ ε * K) : B * W ≤ ε * (K * (1 + B + 3 * B) + 3 * B ^ 2 + 3) := by
  have t1 := mul_le_mul_of_nonneg_left h2 hB
  have t3 : 0 ≤ ε * (K * (1 + 3 * B) + 3 * B ^ 2 + 3) := by positivity
  have e : ε * (K * (1 + B + 3 * B) + 3 * B ^ 2 + 3) = ε * (K * (1 + 3 * B) + 3 * B ^ 2 + 3) + B * (ε * K) := by ring
  linarith

set_option maxHeartbeats 800000 in
/-- Mean pressure, work and displacements at the offset of the continuous solution. -/
lemma cell_close {H q v : ℝ × ℝ → ℝ} {d : ℝ} (hq : CellContinuum sx sy H d q v) (hsx : 0 < sx) (hsy : 0 < sy) {η : ℝ} (hη : 0 < η) :
    ∃ h > 0, ∀ (T : Topo) (k : Option String) (nx ny : ℕ) (p u : Fin nx × Fin ny → ℝ), ValidTopo T nx ny sx sy → (k = some "periodic" ∨ (k = none ∧ T.isPeriodic = true)) →
      HeightsOf H T nx ny sx sy → sx / nx < h → sy / ny < h → NearContact T k nx ny sx sy d h p u →
      |avg p - avg (onGrid nx ny sx sy q)| ≤ η ∧ avg (fun x => (u x - onGrid nx ny sx sy v x) ^ 2) ≤ η ∧
      ∃ s, construct ⟨[nx, ny], 1, [sx, sy], none, none, 0, none⟩ = .ok s ∧ u = answer ⟨s, false, false⟩ (sx * sy / (nx * ny)) nx ny p ∧
        PeriodicAnswer (answer ⟨s, false, false⟩ (sx * sy / (nx * ny)) nx ny) sx sy ∧
        avg (fun x => (u x - answer ⟨s, false, false⟩ (sx * sy / (nx * ny)) nx ny (onGrid nx ny sx sy q) x) ^ 2) ≤ η := by
  have hrep := hq.response.pressure_repeats
  rw [cell_size0, cell_size1] at hrep
  obtain ⟨⟨M, hM⟩, -, -⟩ := hrep.modulus hsx hsy hq.response.pressure_continuous
  have hM0 : 0 ≤ M := (abs_nonneg _).trans (hM 0)
  have hpi := pi_pos
  have hB : 0 < max sx sy / π := div_pos (lt_max_of_lt_left hsx) hpi
  set B := max sx sy / π with hBd
  have hC : 0 < 2 / (π * (1 / sx + 1 / sy)) := by positivity
  set C := 2 / (π * (1 / sx + 1 / sy)) with hCd
  set a := (8 * M + B) / C with ha
  set b := 4 / C with hb
  have ha0 : 0 < a := by positivity
  have hb0 : 0 < b := by positivity
  set η1 := min 1 η with hη1
  have hη10 : 0 < η1 := lt_min one_pos hη
  set c := (8 * M + 4 + B) * (1 + B + 3 * B) + 3 * B ^ 2 + 3 with hc
  have hc0 : 0 < c := by positivity
  set ε := min 1 (min (η1 ^ 2 / (a + b * η1)) (η / c)) with hε
  have hε0 : 0 < ε := lt_min one_pos (lt_min (by positivity) (by positivity))
  have hε1 : ε ≤ 1 := min_le_left _ _
  have hε2 : ε * (a + b * η1) ≤ η1 ^ 2 := by
    have : ε ≤ η1 ^ 2 / (a + b * η1) := (min_le_right _ _).trans (min_le_left _ _)
    rwa [le_div_iff₀ (by positivity)] at this
  have hε3 : ε * c ≤ η := by
    have : ε ≤ η / c := (min_le_right _ _).trans (min_le_right _ _)
    rwa [le_div_iff₀ hc0] at this
  obtain ⟨h, hh, hhε, g⟩ := compare_cell hq hsx hsy hε0
  refine ⟨h, hh, fun T k nx ny p u hT hk hH hx hy hnear => ?_⟩
  have i1 : NeZero nx := ⟨hT.nx_pos.ne'⟩
  have i2 : NeZero ny := ⟨hT.ny_pos.ne'⟩
  have hne : Nonempty (Fin nx × Fin ny) := ⟨(⟨0, hT.nx_pos⟩, ⟨0, hT.ny_pos⟩)⟩
  obtain ⟨s, hs, rfl, hU, b', r, hcmp⟩ := g T k nx ny d p u hT hk hH hx hy hnear
  set U := answer ⟨s, false, false⟩ (sx * sy / (nx * ny)) nx ny with hUd
  have w := hcmp.work hU hsx
  have dsp := hcmp.disp hU hsx
  obtain ⟨bd1, bd2⟩ := avg_bounds hU p (onGrid nx ny sx sy q)
  rw [sub_self, zero_mul, zero_add] at w
  rw [← hBd] at w dsp bd2
  rw [← hCd] at bd1
  have hQM : avg (onGrid nx ny sx sy q) ≤ M := avg_const_le fun x => (le_abs_self _).trans (hM _)
  have hP : 0 ≤ avg p := avg_nonneg hnear.noTension
  have hQ : 0 ≤ avg (onGrid nx ny sx sy q) := avg_nonneg fun x => hq.noTension _
  set P := avg p
  set Q := avg (onGrid nx ny sx sy q)
  set W := avg (fun x => (p x - onGrid nx ny sx sy q x) * (U p x - U (onGrid nx ny sx sy q) x))
  set D := |P - Q| with hD
  have hD0 : 0 ≤ D := abs_nonneg _
  have hPQ : P + Q ≤ 2 * M + D := by
    have := le_abs_self (P - Q)
    linarith
  have hεε : ε ^ 2 ≤ ε := by nlinarith
  have hW1 : W ≤ ε * (8 * M + B + 4 * D) := by
    have t1 : (ε + ε) * (P + Q) ≤ (ε + ε) * (2 * M + D) := mul_le_mul_of_nonneg_left hPQ (by linarith)
    have t2 : B * ε ^ 2 ≤ B * ε := mul_le_mul_of_nonneg_left hεε hB.le
    have e : ε * (8 * M + B + 4 * D) = 2 * ((ε + ε) * (2 * M + D)) + B * ε := by ring
    linarith
  have hD2 : D ^ 2 ≤ ε * (a + b * D) := by
    have t1 : C * D ^ 2 ≤ ε * (8 * M + B + 4 * D) := by
      rw [hD, sq_abs]
      exact bd1.trans hW1
    have t2 : ε * (a + b * D) = ε * (8 * M + B + 4 * D) / C := by rw [ha, hb]; field_simp
    rw [t2, le_div_iff₀ hC]
    linarith
  have hDη := quad_small ha0.le hε0 hη10 hD2 hε2
  have hD1 : D ≤ 1 := hDη.trans (min_le_left _ _)
  have hW0 : 0 ≤ W := work_nonneg hU.recip hU.pos _ _
  have hW2 : W ≤ ε * (8 * M + 4 + B) := hW1.trans (mul_le_mul_of_nonneg_left (by linarith) hε0.le)
  refine ⟨hDη.trans (min_le_right _ _), ?_, s, hs, rfl, hU, ?_⟩
  · refine dsp.trans (le_trans ?_ hε3)
    exact close_disp hB.le hε0.le (by positivity) hεε hW2
  · refine bd2.trans (le_trans ?_ hε3)
    exact close_work hB.le hε0.le (by positivity) hW2

/-- **C199** (load). Let the continuous periodic half-space have a solution of the contact with the rigid surface `H` at offset `d`.  Then the load of the simulated contact converges to its load: for
every bound there is an `h > 0` such that on every periodic grid with pixels shorter than `h` along both axes, every state that solves the contact problem of the heights at offset `d` within the
tolerance `h` carries the load of the continuous contact up to the bound. -/
theorem C199_load {H q v : ℝ × ℝ → ℝ} {d : ℝ} (hq : CellContinuum sx sy H d q v) (hsx : 0 < sx) (hsy : 0 < sy) {η : ℝ} (hη : 0 < η) :
    ∃ h > 0, ∀ (T : Topo) (k : Option String) (nx ny : ℕ) (p u : Fin nx × Fin ny → ℝ), ValidTopo T nx ny sx sy → (k = some "periodic" ∨ (k = none ∧ T.isPeriodic = true)) →
      HeightsOf H T nx ny sx sy → sx / nx < h → sy / ny < h → NearContact T k nx ny sx sy d h p u → |avg p * (sx * sy) - overCell sx sy q| ≤ η := by
  have hA : 0 < sx * sy := by positivity
  have hrep := hq.response.pressure_repeats
  rw [cell_size0, cell_size1] at hrep
  obtain ⟨h1, hh1, g1⟩ := cell_close hq hsx hsy (show 0 < η / 2 / (sx * sy) by positivity)
  obtain ⟨h2, hh2, g2⟩ := fine_mean hrep hq.response.pressure_continuous hsx hsy (half_pos hη)
  refine ⟨min h1 h2, lt_min hh1 hh2, fun T k nx ny p u hT hk hH hx hy hnear => ?_⟩
  have l1 : min h1 h2 ≤ h1 := min_le_left _ _
  have l2 : min h1 h2 ≤ h2 := min_le_right _ _
  obtain ⟨a1, -⟩ := g1 T k nx ny p u hT hk hH (hx.trans_le l1) (hy.trans_le l1)
    ⟨hnear.response, hnear.noTension, fun x => (hnear.penetration x).trans l1, fun x hx => (hnear.gap x hx).trans l1⟩
  have a2 := g2 nx ny hT.nx_pos hT.ny_pos (hx.trans_le l2) (hy.trans_le l2)
  have a3 : |avg p * (sx * sy) - avg (onGrid nx ny sx sy q) * (sx * sy)| ≤ η / 2 := by
    rw [← sub_mul, abs_mul, abs_of_pos hA]
    rwa [le_div_iff₀ hA] at a1
  have := abs_sub_le (avg p * (sx * sy)) (avg (onGrid nx ny sx sy q) * (sx * sy)) (overCell sx sy q)
  linarith

/-- **C199** (displacements). Under the same conditions the displacements of the simulated contact converge in the mean square to those of the continuous half-space. -/
theorem C199_displacements {H q v : ℝ × ℝ → ℝ} {d : ℝ} (hq : CellContinuum sx sy H d q v) (hsx : 0 < sx) (hsy : 0 < sy) {η : ℝ} (hη : 0 < η) :
    ∃ h > 0, ∀ (T : Topo) (k : Option String) (nx ny : ℕ) (p u : Fin nx × Fin ny → ℝ), ValidTopo T nx ny sx sy → (k = some "periodic" ∨ (k = none ∧ T.isPeriodic = true)) →
      HeightsOf H T nx ny sx sy → sx / nx < h → sy / ny < h → NearContact T k nx ny sx sy d h p u → avg (fun x => (u x - v (gridPoint (sx / nx) (sy / ny) x.1 x.2)) ^ 2) ≤ η := by
  obtain ⟨h1, hh1, g1⟩ := cell_close hq hsx hsy hη
  exact ⟨h1, hh1, fun T k nx ny p u hT hk hH hx hy hnear => (g1 T k nx ny p u hT hk hH hx hy hnear).2.1⟩

/-- **C199** (pressures). Under the same conditions the pressures of the simulated contact converge weakly to those of the continuous half-space: their mean, weighted with any continuous periodic
function, converges to the weighted mean of the continuous pressure. -/
theorem C199_pressures {H q v φ : ℝ × ℝ → ℝ} {d : ℝ} (hq : CellContinuum sx sy H d q v) (hφ : Continuous φ) (hφr : Repeats sx sy φ) (hsx : 0 < sx) (hsy : 0 < sy) {η : ℝ} (hη : 0 < η) :
    ∃ h > 0, ∀ (T : Topo) (k : Option String) (nx ny : ℕ) (p u : Fin nx × Fin ny → ℝ), ValidTopo T nx ny sx sy → (k = some "periodic" ∨ (k = none ∧ T.isPeriodic = true)) →
      HeightsOf H T nx ny sx sy → sx / nx < h → sy / ny < h → NearContact T k nx ny sx sy d h p u →
      |avg (fun x => p x * φ (gridPoint (sx / nx) (sy / ny) x.1 x.2)) * (sx * sy) - overCell sx sy (fun x => q x * φ x)| ≤ η := by
  have hA : 0 < sx * sy := by positivity
  have hrep := hq.response.pressure_repeats
  rw [cell_size0, cell_size1] at hrep
  have hqc := hq.response.pressure_continuous
  obtain ⟨⟨M, hM⟩, -, -⟩ := hrep.modulus hsx hsy hqc
  have hM0 : 0 ≤ M := (abs_nonneg _).trans (hM 0)
  -- the weight is near a finite sum of waves
  set κ := η / 4 / ((2 * M + 1) * (sx * sy)) with hκ
  have hκ0 : 0 < κ := by positivity
  obtain ⟨t, c, hc⟩ := hφr.approx hsx hsy hφ hκ0
  set ψ := waveSum sx sy t fun k => c k * cellStiffness (cell sx sy) k with hψ
  have eψ : (waveSum sx sy t fun k => c k * (cellStiffness (cell sx sy) k : ℂ) / (cellStiffness (cell sx sy) k : ℂ)) = waveSum sx sy t c := by
    congr 1
    funext k
    have : (cellStiffness (cell sx sy) k : ℂ) ≠ 0 := by exact_mod_cast cell_stiff_ne hsx hsy k
    rw [mul_div_cancel_right₀ _ this]
  obtain ⟨S, hS⟩ : ∃ S, ∀ x, |ψ x| ≤ S := ⟨∑ k ∈ t, ‖c k * cellStiffness (cell sx sy) k‖, fun x => (Finset.abs_sum_le_sum_abs _ _).trans (Finset.sum_le_sum fun k _ => by
    refine (Complex.abs_re_le_norm _).trans ?_
    rw [norm_mul, wave_norm, mul_one])⟩
  have hS0 : 0 ≤ S := (abs_nonneg _).trans (hS 0)
  set m := η / 4 / ((S + 1) * (sx * sy)) with hm
  have hm0 : 0 < m := by positivity
  obtain ⟨N, hN⟩ := waves_exact hsx hsy t fun k => c k * cellStiffness (cell sx sy) k
  rw [eψ] at hN
  obtain ⟨h1, hh1, g1⟩ := cell_close hq hsx hsy (show 0 < min 1 (m ^ 2) by positivity)
  obtain ⟨h2, hh2, g2⟩ := fine_mean (q := fun x => q x * φ x) (sx := sx) (sy := sy) ⟨fun x y => by rw [hrep.x, hφr.x], fun x y => by rw [hrep.y, hφr.y]⟩ (hqc.mul hφ) hsx hsy (half_pos hη)
  refine ⟨min (min h1 h2) (min (sx / (N + 1)) (sy / (N + 1))), lt_min (lt_min hh1 hh2) (lt_min (by positivity) (by positivity)), fun T k nx ny p u hT hk hH hx hy hnear => ?_⟩
  set hh := min (min h1 h2) (min (sx / (N + 1)) (sy / (N + 1))) with hhd
  have l1 : hh ≤ h1 := (min_le_left _ _).trans (min_le_left _ _)
  have l2 : hh ≤ h2 := (min_le_left _ _).trans (min_le_right _ _)
  have l3 : hh ≤ sx / (N + 1) := (min_le_right _ _).trans (min_le_left _ _)
  have l4 : hh ≤ sy / (N + 1) := (min_le_right _ _).trans (min_le_right _ _)
  have i1 : NeZero nx := ⟨hT.nx_pos.ne'⟩
  have i2 : NeZero ny := ⟨hT.ny_pos.ne'⟩
  have hne : Nonempty (Fin nx × Fin ny) := ⟨(⟨0, hT.nx_pos⟩, ⟨0, hT.ny_pos⟩)⟩
  obtain ⟨a1, -, s, hs, rfl, hU, a4⟩ := g1 T k nx ny p u hT hk hH (hx.trans_le l1) (hy.trans_le l1)
    ⟨hnear.response, hnear.noTension, fun x => (hnear.penetration x).trans l1, fun x hx => (hnear.gap x hx).trans l1⟩
  have a2 := g2 nx ny hT.nx_pos hT.ny_pos (hx.trans_le l2) (hy.trans_le l2)
  have ex := hN nx ny s (fine_of_pixels hsx hT.nx_pos l3 hx) (fine_of_pixels hsy hT.ny_pos l4 hy) hs
  set U := answer ⟨s, false, false⟩ (sx * sy / (nx * ny)) nx ny with hUd
  set G := onGrid nx ny sx sy q with hG
  have hP : 0 ≤ avg p := avg_nonneg hnear.noTension
  have hG0 : ∀ x, 0 ≤ G x := fun x => hq.noTension _
  have hQM : avg G ≤ M := avg_const_le fun x => (le_abs_self _).trans (hM _)
  have hPQ : avg p + avg G ≤ 2 * M + 1 := by
    have := (abs_le.1 a1).2
    have := min_le_left 1 (m ^ 2)
    linarith
  have ef : ∀ x, U p x - U G x = U (fun y => p y - G y) x := fun x => congrFun (U_sub hU.recip p G) x
  -- the difference of the weighted means
  have dif : |avg (fun x => (p x - G x) * onGrid nx ny sx sy φ x)| ≤ η / 2 / (sx * sy) := by
    have e1 : avg (fun x => (p x - G x) * onGrid nx ny sx sy φ x) = avg (fun x => (p x - G x) * (onGrid nx ny sx sy φ x - onGrid nx ny sx sy (waveSum sx sy t c) x)) +
        avg (fun x => onGrid nx ny sx sy ψ x * U (fun y => p y - G y) x) := by
      rw [← avg_swap hU.recip (fun y => p y - G y), ex, ← avg_add]
      congr 1
      funext x
      ring
    have b1 : |avg (fun x => (p x - G x) * (onGrid nx ny sx sy φ x - onGrid nx ny sx sy (waveSum sx sy t c) x))| ≤ κ * (2 * M + 1) := by
      refine (avg_abs_le _).trans ?_
      have : avg (fun x => |(p x - G x) * (onGrid nx ny sx sy φ x - onGrid nx ny sx sy (waveSum sx sy t c) x)|) ≤ avg (fun x => κ * (p x + G x)) := avg_mono fun x => by
        rw [abs_mul, mul_comm]
        refine mul_le_mul ?_ ?_ (abs_nonneg _) hκ0.le
        · rw [abs_sub_comm]
          exact hc _ _
        · have := hnear.noTension x
          have := hG0 x
          rw [abs_le]; constructor <;> linarith
      refine this.trans ?_
      rw [avg_const_mul, avg_add]
      exact mul_le_mul_of_nonneg_left hPQ hκ0.le
    have b2 : |avg (fun x => onGrid nx ny sx sy ψ x * U (fun y => p y - G y) x)| ≤ S * m := by
      refine (avg_abs_le _).trans ?_
      have : avg (fun x => |onGrid nx ny sx sy ψ x * U (fun y => p y - G y) x|) ≤ avg (fun x => S * (m / 2) + S * (1 / (2 * m)) * (U p x - U G x) ^ 2) := avg_mono fun x => by
        rw [abs_mul, ef]
        have y1 := young (a := 1) (b := |U (fun y => p y - G y) x|) hm0
        rw [sq_abs] at y1
        refine (mul_le_mul (hS _) (le_refl _) (abs_nonneg _) hS0).trans ?_
        refine (mul_le_mul_of_nonneg_left (le_trans (le_of_eq (one_mul _).symm) y1) hS0).trans (le_of_eq (by ring))
      refine this.trans ?_
      rw [avg_add, avg_const_eq, avg_const_mul]
      have a5 := a4.trans (min_le_right _ _)
      have := mul_le_mul_of_nonneg_left a5 (show 0 ≤ S * (1 / (2 * m)) by positivity)
      have e3 : S * (1 / (2 * m)) * m ^ 2 = S * (m / 2) := by field_simp
      linarith
    rw [e1]
    refine (abs_add_le _ _).trans ?_
    have c1 : κ * (2 * M + 1) = η / 4 / (sx * sy) := by rw [hκ]; field_simp
    have c2 : S * m ≤ η / 4 / (sx * sy) := by
      rw [hm, ← div_div, mul_div_assoc', mul_comm]
      rw [show η / 4 / (S + 1) = η / 4 * (1 / (S + 1)) by ring]
      have : S * (1 / (S + 1)) ≤ 1 := by rw [mul_one_div, div_le_one (by positivity)]; linarith
      refine div_le_div_of_nonneg_right ?_ hA.le
      nlinarith
    have c3 : η / 2 / (sx * sy) = η / 4 / (sx * sy) + η / 4 / (sx * sy) := by ring
    linarith
  have e4 : avg (fun x => p x * φ (gridPoint (sx / nx) (sy / ny) x.1 x.2)) - avg (onGrid nx ny sx sy fun x => q x * φ x) = avg (fun x => (p x - G x) * onGrid nx ny sx sy φ x) := by
    rw [← avg_sub]
    congr 1
    funext x
    show p x * onGrid nx ny sx sy φ x - G x * onGrid nx ny sx sy φ x = _
    ring
  have a3 : |avg (fun x => p x * φ (gridPoint (sx / nx) (sy / ny) x.1 x.2)) * (sx * sy) - avg (onGrid nx ny sx sy fun x => q x * φ x) * (sx * sy)| ≤ η / 2 := by
    rw [← sub_mul, e4, abs_mul, abs_of_pos hA]
    rwa [le_div_iff₀ hA] at dif
  have := abs_sub_le (avg (fun x => p x * φ (gridPoint (sx / nx) (sy / ny) x.1 x.2)) * (sx * sy)) (avg (onGrid nx ny sx sy fun x => q x * φ x) * (sx * sy)) (overCell sx sy fun x => q x * φ x)
  linarith

/-! ## Convergence under load -/

lemma offset_close {X Y Q0 M s ε η A1 A2 R : ℝ} (hX : 0 ≤ X) (hQ0 : 0 < Q0) (hM : 0 ≤ M) (hη : 0 < η) (hs : s = η * Q0 / (8 * (M + 1)))
    (hY : Q0 / 2 ≤ Y) (hA1 : ε * A1 ≤ η * Q0 / 16) (hA2 : ε * A2 ≤ Q0 / 4) (hR : X * Y ≤ R) (hRs : R ≤ M * s / 2 + ε * A1 + ε * A2 * X) : X ≤ η := by
  have h1 : M * s / 2 ≤ η * Q0 / 16 := by
    rw [hs]
    have : M * (η * Q0 / (8 * (M + 1))) / 2 = η * Q0 / 16 * (M / (M + 1)) := by field_simp; ring
    rw [this]
    have h2 : M / (M + 1) ≤ 1 := by rw [div_le_one (by positivity)]; linarith
    exact mul_le_of_le_one_right (by positivity) h2
  have h2 : X * (Q0 / 2) ≤ X * Y := mul_le_mul_of_nonneg_left hY hX
  have h3 : ε * A2 * X ≤ Q0 / 4 * X := mul_le_mul_of_nonneg_right hA2 hX
  have h4 : X * (Q0 / 4) ≤ η * Q0 / 8 := by linarith
  have h5 : X * (Q0 / 4) ≤ η / 2 * (Q0 / 4) := by linarith
  have h6 := le_of_mul_le_mul_right h5 (by positivity)
  linarith

/-- Work, displacements and offsets, with the difference of the offsets as a factor. -/
lemma offset_work {X W P Q Q0 ε B z : ℝ} (hz : |z| = X) (hX : 0 ≤ X) (hB : 0 ≤ B) (hε : 0 ≤ ε) (hεε : ε ^ 2 ≤ ε) (hPd : |P - Q| ≤ ε) (hPQ : P + Q ≤ 3 * Q0)
    (hW : W ≤ 2 * (z * (P - Q) + (ε + ε) * (P + Q)) + B * ε ^ 2) : W ≤ ε * (2 * X + (12 * Q0 + B)) := by
  have h1 : z * (P - Q) ≤ X * ε := by
    refine (le_abs_self _).trans ?_
    rw [abs_mul, hz]
    exact mul_le_mul_of_nonneg_left hPd hX
  have h2 : (ε + ε) * (P + Q) ≤ (ε + ε) * (3 * Q0) := mul_le_mul_of_nonneg_left hPQ (by linarith)
  have h3 : B * ε ^ 2 ≤ B * ε := mul_le_mul_of_nonneg_left hεε hB
  have e : ε * (2 * X + (12 * Q0 + B)) = 2 * (X * ε + (ε + ε) * (3 * Q0)) + B * ε := by ring
  linarith

/-- **C199** (offset under load). If the continuous contact carries a load, the offset of the simulated contact under this load converges to that of the continuous contact: for every bound there is
an `h > 0` such that on every periodic grid with pixels shorter than `h` along both axes, every state at any offset that solves the contact problem within the tolerance `h` and carries the load of the
continuous contact up to `h`, has the offset of the continuous contact up to the bound. -/
theorem C199_offset {H q v : ℝ × ℝ → ℝ} {d : ℝ} (hq : CellContinuum sx sy H d q v) (hpos : 0 < overCell sx sy q) (hsx : 0 < sx) (hsy : 0 < sy) {η : ℝ} (hη : 0 < η) :
    ∃ h > 0, ∀ (T : Topo) (k : Option String) (nx ny : ℕ) (o : ℝ) (p u : Fin nx × Fin ny → ℝ), ValidTopo T nx ny sx sy → (k = some "periodic" ∨ (k = none ∧ T.isPeriodic = true)) →
      HeightsOf H T nx ny sx sy → sx / nx < h → sy / ny < h → NearContact T k nx ny sx sy o h p u → |avg p * (sx * sy) - overCell sx sy q| ≤ h → |o - d| ≤ η := by
  have hA : 0 < sx * sy := by positivity
  have hrep := hq.response.pressure_repeats
  have hrepv := hq.response.displacement_repeats
  rw [cell_size0, cell_size1] at hrep hrepv
  obtain ⟨⟨M, hM⟩, -, -⟩ := hrep.modulus hsx hsy hq.response.pressure_continuous
  obtain ⟨⟨V, hV⟩, -, -⟩ := hrepv.modulus hsx hsy hq.response.displacement_continuous
  have hM0 : 0 ≤ M := (abs_nonneg _).trans (hM 0)
  have hpi := pi_pos
  have hB : 0 < max sx sy / π := div_pos (lt_max_of_lt_left hsx) hpi
  set B := max sx sy / π with hBd
  set Q0 := overCell sx sy q / (sx * sy) with hQ0d
  have hQ0 : 0 < Q0 := by positivity
  have eQ0 : Q0 * (sx * sy) = overCell sx sy q := div_mul_cancel₀ _ hA.ne'
  set s := η * Q0 / (8 * (M + 1)) with hs
  have hs0 : 0 < s := by positivity
  set c1 := 3 * B * (12 * Q0 + B) + 3 * B ^ 2 + 3 with hc1
  have hc10 : 0 < c1 := by positivity
  set A1 := 3 * Q0 + M * c1 / (2 * s) + (1 + 2 * c1 + 2 * V ^ 2) with hA1
  set A2 := M * (6 * B) / (2 * s) + 12 * B with hA2
  have hA10 : 0 < A1 := by positivity
  have hA20 : 0 < A2 := by positivity
  set ε := min (min 1 (Q0 / 2)) (min (η * Q0 / 16 / A1) (Q0 / 4 / A2)) with hε
  have hε0 : 0 < ε := lt_min (lt_min one_pos (by positivity)) (lt_min (by positivity) (by positivity))
  have hε1 : ε ≤ 1 := (min_le_left _ _).trans (min_le_left _ _)
  have hε2 : ε ≤ Q0 / 2 := (min_le_left _ _).trans (min_le_right _ _)
  have hε3 : ε * A1 ≤ η * Q0 / 16 := by
    have : ε ≤ η * Q0 / 16 / A1 := (min_le_right _ _).trans (min_le_left _ _)
    rwa [le_div_iff₀ hA10] at this
  have hε4 : ε * A2 ≤ Q0 / 4 := by
    have : ε ≤ Q0 / 4 / A2 := (min_le_right _ _).trans (min_le_right _ _)
    rwa [le_div_iff₀ hA20] at this
  have hεε : ε ^ 2 ≤ ε := by nlinarith
  obtain ⟨h1, hh1, hhε, g1⟩ := compare_cell hq hsx hsy hε0
  obtain ⟨h2, hh2, g2⟩ := fine_mean hrep hq.response.pressure_continuous hsx hsy (show 0 < ε / 2 * (sx * sy) by positivity)
  refine ⟨min (min h1 h2) (ε / 2 * (sx * sy)), lt_min (lt_min hh1 hh2) (by positivity), fun T k nx ny o p u hT hk hH hx hy hnear hload => ?_⟩
  set h := min (min h1 h2) (ε / 2 * (sx * sy)) with hhd
  have l1 : h ≤ h1 := (min_le_left _ _).trans (min_le_left _ _)
  have l2 : h ≤ h2 := (min_le_left _ _).trans (min_le_right _ _)
  have l3 : h ≤ ε / 2 * (sx * sy) := min_le_right _ _
  have i1 : NeZero nx := ⟨hT.nx_pos.ne'⟩
  have i2 : NeZero ny := ⟨hT.ny_pos.ne'⟩
  obtain ⟨s', hs', rfl, hU, b', r, hcmp⟩ := g1 T k nx ny o p u hT hk hH (hx.trans_le l1) (hy.trans_le l1)
    ⟨hnear.response, hnear.noTension, fun x => (hnear.penetration x).trans l1, fun x hx => (hnear.gap x hx).trans l1⟩
  have a2 := g2 nx ny hT.nx_pos hT.ny_pos (hx.trans_le l2) (hy.trans_le l2)
  set U := answer ⟨s', false, false⟩ (sx * sy / (nx * ny)) nx ny with hUd
  set G := onGrid nx ny sx sy q with hG
  have w := hcmp.work hU hsx
  have dsp := hcmp.disp hU hsx
  have up := hcmp.offset_up (M := M) (fun x => (le_abs_self _).trans (hM _)) hs0
  have dn := hcmp.offset_down hU (M := M) (V := V) (fun x => (le_abs_self _).trans (hM _)) (fun x => hV _) hs0
  have bd := (avg_bounds hU p G).2
  rw [← hBd] at w dsp bd
  have hP1 : |avg p - Q0| ≤ ε / 2 := by
    rw [← eQ0, ← sub_mul, abs_mul, abs_of_pos hA] at hload
    exact le_of_mul_le_mul_right (hload.trans l3) hA
  have hQ1 : |avg G - Q0| ≤ ε / 2 := by
    rw [← eQ0, ← sub_mul, abs_mul, abs_of_pos hA] at a2
    exact le_of_mul_le_mul_right a2 hA
  set P := avg p
  set Q := avg G
  set W := avg (fun x => (p x - G x) * (U p x - U G x))
  set L := avg (fun x => (U p x - onGrid nx ny sx sy v x) ^ 2)
  set S := avg (fun x => (U p x - U G x) ^ 2)
  obtain ⟨p1, p2⟩ := abs_le.1 hP1
  obtain ⟨q1, q2⟩ := abs_le.1 hQ1
  have hPQd : |P - Q| ≤ ε := by rw [abs_le]; constructor <;> linarith
  have hW := offset_work (X := |o - d|) (z := o - d) rfl (abs_nonneg _) hB.le hε0.le hεε hPQd (show P + Q ≤ 3 * Q0 by linarith) w
  set X := |o - d| with hX
  have hX0 : 0 ≤ X := abs_nonneg _
  have hL : L ≤ ε * (6 * B * X + c1) := by
    refine dsp.trans ?_
    have t1 := mul_le_mul_of_nonneg_left hW hB.le
    have t2 : B ^ 2 * ε ^ 2 ≤ B ^ 2 * ε := mul_le_mul_of_nonneg_left hεε (by positivity)
    have e : ε * (6 * B * X + c1) = 3 * (B * (ε * (2 * X + (12 * Q0 + B)))) + 3 * (B ^ 2 * ε) + 3 * ε := by rw [hc1]; ring
    linarith
  have hS : S ≤ ε * (6 * B * X + c1) := by
    refine bd.trans ?_
    have t1 := mul_le_mul_of_nonneg_left hW hB.le
    have t3 : 0 ≤ ε * (4 * B * X + 2 * B * (12 * Q0 + B) + 3 * B ^ 2 + 3) := by positivity
    have e : ε * (6 * B * X + c1) = B * (ε * (2 * X + (12 * Q0 + B))) + ε * (4 * B * X + 2 * B * (12 * Q0 + B) + 3 * B ^ 2 + 3) := by rw [hc1]; ring
    linarith
  set Z := ε * (6 * B * X + c1) with hZ
  have hZ0 : 0 ≤ Z := by positivity
  have eZ : M * s / 2 + ε * A1 + ε * A2 * X = M * (s / 2 + 1 / (2 * s) * Z) + 3 * ε * Q0 + ε * (1 + 2 * V ^ 2) + (2 * ε * c1 + 12 * B * ε * X) := by
    rw [hA1, hA2, hZ]
    field_simp
    ring
  have mono : ∀ {Y : ℝ}, Y ≤ Z → M * (s / 2 + 1 / (2 * s) * Y) ≤ M * (s / 2 + 1 / (2 * s) * Z) := fun hY => by gcongr
  rcases le_total d o with hdo | hdo
  · have e : X = o - d := abs_of_nonneg (by linarith)
    refine offset_close (Y := Q) hX0 hQ0 hM0 hη hs (by linarith) hε3 hε4 ((congrArg (· * Q) e).trans_le up) ?_
    rw [eZ]
    have := mono hL
    have t1 : ε * Q ≤ ε * (3 * Q0) := mul_le_mul_of_nonneg_left (by linarith) hε0.le
    have t2 : 0 ≤ ε * (1 + 2 * V ^ 2) := by positivity
    have t3 : 0 ≤ 2 * ε * c1 + 12 * B * ε * X := by positivity
    linarith
  · have e : X = d - o := by rw [hX, abs_sub_comm]; exact abs_of_nonneg (by linarith)
    refine offset_close (Y := P) hX0 hQ0 hM0 hη hs (by linarith) hε3 hε4 ((congrArg (· * P) e).trans_le dn) ?_
    rw [eZ]
    have := mono hS
    have t1 : ε * P ≤ ε * (3 / 2 * Q0) := mul_le_mul_of_nonneg_left (by linarith) hε0.le
    have t2 : ε * L ≤ L := mul_le_of_le_one_left (avg_nonneg fun x => sq_nonneg _) hε1
    have eZ2 : 2 * Z = 2 * ε * c1 + 12 * B * ε * X := by rw [hZ]; ring
    linarith

end CM.Disc
