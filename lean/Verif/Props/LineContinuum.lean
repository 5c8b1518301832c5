import Verif.Spec.LineContinuum
import Verif.Props.LineContact
import Verif.Props.Continuum
import Verif.Props.HardWall2
/-!
# Simulated contacts with profiles converge to the contact of the continuous periodic half-space (C196)
-/
namespace CM.Disc
open Real MeasureTheory Set Topology CM.Ref CM.Spec CM.HS CM.FFT CM.System CM.Pipe

variable {nx ny : ℕ} {sx sy : ℝ} {T : Topo}

lemma cell_size0 : size (cell sx sy) 0 = sx := by simp [size, cell]
lemma cell_size1 : size (cell sx sy) 1 = sy := by simp [size, cell]
lemma cell_modulus : contactModulus (cell sx sy) = 1 := by simp [contactModulus, cell]
lemma cell_gamma : gammaStiffness (cell sx sy) = π * (1 / sx + 1 / sy) / 2 := by
  show (contactModulus (cell sx sy) / 2 * (2 * π / size (cell sx sy) 0) + contactModulus (cell sx sy) / 2 * (2 * π / size (cell sx sy) 1)) / 2 = _
  rw [cell_size0, cell_size1, cell_modulus]; ring

lemma cell_valid (hsx : 0 < sx) (hsy : 0 < sy) : ValidArgs (cell sx sy) := by constructor <;> simp [cell, hsx, hsy]

lemma periodic_sub (hT : ValidTopo T nx ny sx sy) {k : Option String} (hk : k = some "periodic" ∨ (k = none ∧ T.isPeriodic = true)) {sub : Substrate} (hm : makeSubstrate T k = .ok sub) :
    (1 < nx ∧ 1 < ny) ∧ ∃ s, construct ⟨[nx, ny], 1, [sx, sy], none, none, 0, none⟩ = .ok s ∧ sub = ⟨s, false, false⟩ := by
  have hn : substrateName T k = "periodic" := by
    unfold substrateName
    rcases hk with rfl | ⟨rfl, h⟩
    · rfl
    · simp [h]
  rcases make_cases hT k with ⟨-, -, h⟩ | ⟨-, hg, s, hs, h⟩ | ⟨h0, -⟩ | ⟨h0, -⟩
  · rw [h] at hm; cases hm
  · rw [h] at hm; cases hm
    exact ⟨hg, s, hs, rfl⟩
  · rw [hn] at h0; exact absurd h0 (by decide)
  · exact absurd hn h0

/-- The sum over the points of a period against the integral. -/
lemma riemann {q : ℝ → ℝ} (hq : Continuous q) {n : ℕ} {dx ω : ℝ} (hdx : 0 ≤ dx) (hosc : ∀ i < n, ∀ y ∈ Icc (i * dx) ((i + 1) * dx), |q (i * dx) - q y| ≤ ω) :
    |∑ i ∈ Finset.range n, q (i * dx) * dx - ∫ y in (0 : ℝ)..n * dx, q y| ≤ ω * (n * dx) := by
  have h := intervalIntegral.sum_integral_adjacent_intervals (f := q) (μ := volume) (a := fun i : ℕ => (i : ℝ) * dx) (n := n) fun k _ => hq.intervalIntegrable _ _
  beta_reduce at h
  rw [Nat.cast_zero, zero_mul] at h
  rw [← h, ← Finset.sum_sub_distrib]
  refine (Finset.abs_sum_le_sum_abs _ _).trans ?_
  refine (Finset.sum_le_sum (g := fun _ => ω * dx) fun i hi => ?_).trans (le_of_eq ?_)
  · have hi' := Finset.mem_range.1 hi
    have hle : (i : ℝ) * dx ≤ ((i + 1 : ℕ) : ℝ) * dx := by push_cast; nlinarith
    have e : q (i * dx) * dx = ∫ y in (i * dx)..((i + 1 : ℕ) * dx), q (i * dx) := by
      rw [intervalIntegral.integral_const, smul_eq_mul]; push_cast; ring
    rw [e, ← intervalIntegral.integral_sub (by simp) (hq.intervalIntegrable _ _)]
    have hb := intervalIntegral.norm_integral_le_of_norm_le_const (a := i * dx) (b := (i + 1 : ℕ) * dx) (f := fun y => q (i * dx) - q y) (C := ω) fun y hy => by
      rw [uIoc_of_le hle] at hy
      rw [norm_eq_abs]
      refine hosc i hi' y ⟨hy.1.le, ?_⟩
      have := hy.2
      push_cast at this
      exact this
    rw [norm_eq_abs] at hb
    refine hb.trans (le_of_eq ?_)
    rw [show ((i + 1 : ℕ) : ℝ) * dx - i * dx = dx by push_cast; ring, abs_of_nonneg hdx]
  · rw [Finset.sum_const, Finset.card_range, nsmul_eq_mul]; ring

lemma avg_along (hT : ValidTopo T nx ny sx sy) (q : ℝ → ℝ) : avg (onGrid nx ny sx sy (along q)) * sx = ∑ i ∈ Finset.range nx, q (i * (sx / nx)) * (sx / nx) := by
  have h1 : (0 : ℝ) < nx := by exact_mod_cast hT.nx_pos
  have h2 : (0 : ℝ) < ny := by exact_mod_cast hT.ny_pos
  unfold avg onGrid along gridPoint
  rw [card_grid, ← Finset.sum_mul, Fintype.sum_prod_type, Finset.sum_range]
  simp only [Finset.sum_const, Finset.card_univ, Fintype.card_fin, nsmul_eq_mul]
  rw [← Finset.mul_sum]
  generalize (∑ x : Fin nx, q (x * (sx / nx))) = S
  field_simp

/-- On fine grids the substrate answers a line pressure like the continuous substrate, and its load is the sum over the grid. -/
lemma fine_line {q v : ℝ → ℝ} (hr : LineResponse (cell sx sy) q v) {ε : ℝ} (hε : 0 < ε) (hsx : 0 < sx) (hsy : 0 < sy) :
    ∃ h > 0, ∀ (T : Topo) (k : Option String) (nx ny : ℕ) (sub : Substrate), ValidTopo T nx ny sx sy → (k = some "periodic" ∨ (k = none ∧ T.isPeriodic = true)) →
      makeSubstrate T k = .ok sub → sx / nx < h →
      (∀ x, |answer sub (sx * sy / (nx * ny)) nx ny (onGrid nx ny sx sy (along q)) x - v (x.1 * (sx / nx))| ≤ ε) ∧
      |avg (onGrid nx ny sx sy (along q)) * sx - ∫ y in (0 : ℝ)..sx, q y| ≤ ε := by
  have hK : gammaStiffness (cell sx sy) ≠ 0 := by
    rw [cell_gamma]
    have := pi_pos
    positivity
  obtain ⟨N, hN⟩ := C195_line (cell_valid hsx hsy) hK hr hε
  have hu := (isCompact_Icc (a := (0 : ℝ)) (b := sx)).uniformContinuousOn_of_continuous hr.pressure_continuous.continuousOn
  rw [Metric.uniformContinuousOn_iff] at hu
  obtain ⟨h, hh, hcl⟩ := hu (ε / sx) (by positivity)
  refine ⟨min h (sx / (N + 1)), lt_min hh (by positivity), fun T k nx ny sub hT hk hm hx => ?_⟩
  have h1 : (0 : ℝ) < nx := by exact_mod_cast hT.nx_pos
  have h2 : (0 : ℝ) < ny := by exact_mod_cast hT.ny_pos
  have hx1 := hx.trans_le (min_le_left _ _)
  have hx2 := hx.trans_le (min_le_right _ _)
  have hdx : 0 < sx / nx := div_pos hT.sx_pos h1
  have ex : (nx : ℝ) * (sx / nx) = sx := mul_div_cancel₀ _ h1.ne'
  have hNn : N ≤ nx := by
    rw [div_lt_div_iff_of_pos_left hsx h1 (by positivity)] at hx2
    have : N + 1 < nx := by exact_mod_cast hx2
    omega
  constructor
  · obtain ⟨-, s, hs, rfl⟩ := periodic_sub hT hk hm
    set f := fieldArray nx ny fun y => -(onGrid nx ny sx sy (along q) y * (sx * sy / (nx * ny))) with hf
    obtain ⟨w, hw1, hw2⟩ := hN nx ny s f hNn hs ⟨rfl, fun i j hi hj => by
      rw [hf, fieldArray_get _ hi hj, cell_size0, cell_size1]
      rfl⟩
    intro x
    have ea : answer ⟨s, false, false⟩ (sx * sy / (nx * ny)) nx ny (onGrid nx ny sx sy (along q)) x = w.get [x.1, x.2] := by
      have e : (Substrate.evaluateDisp ⟨s, false, false⟩ f) = .ok w := hw1
      unfold answer
      rw [← hf, e]
    rw [ea]
    have := hw2 x.1 x.2 x.1.isLt x.2.isLt
    rwa [cell_size0] at this
  · rw [avg_along hT]
    have := riemann hr.pressure_continuous (n := nx) (dx := sx / nx) (ω := ε / sx) hdx.le fun i hi y hy => by
      have hi' : (i : ℝ) + 1 ≤ nx := by exact_mod_cast hi
      have hub : ((i : ℝ) + 1) * (sx / nx) ≤ sx := by
        have := mul_le_mul_of_nonneg_right hi' hdx.le
        rwa [ex] at this
      have h0 : (0 : ℝ) ≤ i * (sx / nx) := by positivity
      have := hcl (i * (sx / nx)) ⟨h0, by nlinarith⟩ y ⟨by linarith [hy.1], by linarith [hy.2]⟩ (by
        rw [Real.dist_eq, abs_lt]
        have := hy.1
        have := hy.2
        constructor <;> linarith)
      rw [Real.dist_eq] at this
      exact this.le
    rw [ex, div_mul_cancel₀ _ hsx.ne'] at this
    exact this

/-- The continuous solution, taken at the grid points, is nearly a solution on the grid. -/
lemma line_near {H q v : ℝ → ℝ} {d ε : ℝ} (hq : LineContinuum sx sy H d q v) (hH : HeightsOf (along H) T nx ny sx sy) {U : (Fin nx × Fin ny → ℝ) → (Fin nx × Fin ny → ℝ)}
    (hU : ∀ x, |U (onGrid nx ny sx sy (along q)) x - v (x.1 * (sx / nx))| ≤ ε) :
    (∀ x, T.heights.get [x.1, x.2] + d - U (onGrid nx ny sx sy (along q)) x ≤ ε) ∧
    ∀ x, onGrid nx ny sx sy (along q) x ≠ 0 → U (onGrid nx ny sx sy (along q)) x - (T.heights.get [x.1, x.2] + d) ≤ ε := by
  constructor
  · intro x
    rw [hH _ _ x.1.isLt x.2.isLt]
    have := abs_le.1 (hU x)
    have := hq.noPenetration (x.1 * (sx / nx))
    show _ ≤ _
    rw [show along H (gridPoint (sx / nx) (sy / ny) x.1 x.2) = H (x.1 * (sx / nx)) from rfl]
    linarith
  · intro x hx
    rw [hH _ _ x.1.isLt x.2.isLt]
    have := abs_le.1 (hU x)
    have := hq.touching (x.1 * (sx / nx)) hx
    show _ ≤ _
    rw [show along H (gridPoint (sx / nx) (sy / ny) x.1 x.2) = H (x.1 * (sx / nx)) from rfl]
    linarith

/-- **C196** (load). Let the continuous periodic half-space have solutions of the contact with the rigid profile `H`, parametrised by `t` near `t0`, at offsets `D t` that increase with `t`, whose
load is continuous at `t0`.  Then the mean pressure of the simulated contact converges: for every bound there is an `h > 0` such that on every periodic grid with pixels shorter than `h` along x, every
state that solves the contact problem of the heights at offset `D t0` within the tolerance `h` has the mean pressure of the continuous contact up to the bound. -/
theorem C196_load {H : ℝ → ℝ} {q v : ℝ → ℝ → ℝ} {D : ℝ → ℝ} {t0 ρ : ℝ} (hρ : 0 < ρ) (hsx : 0 < sx) (hsy : 0 < sy)
    (hq : ∀ t, |t - t0| < ρ → LineContinuum sx sy H (D t) (q t) (v t)) (hup : ∀ t, t0 < t → t < t0 + ρ → D t0 < D t) (hdn : ∀ t, t < t0 → t0 - ρ < t → D t < D t0)
    (hF : ContinuousAt (fun t => ∫ y in (0 : ℝ)..sx, q t y) t0) {η : ℝ} (hη : 0 < η) :
    ∃ h > 0, ∀ (T : Topo) (k : Option String) (nx ny : ℕ) (p u : Fin nx × Fin ny → ℝ), ValidTopo T nx ny sx sy → (k = some "periodic" ∨ (k = none ∧ T.isPeriodic = true)) →
      HeightsOf (along H) T nx ny sx sy → sx / nx < h → NearContact T k nx ny sx sy (D t0) h p u → |avg p * sx - ∫ y in (0 : ℝ)..sx, q t0 y| ≤ η := by
  set F := fun t => ∫ y in (0 : ℝ)..sx, q t y with hFd
  have hF0 : 0 ≤ F t0 := intervalIntegral.integral_nonneg hsx.le fun x _ => (hq t0 (by simpa using hρ)).noTension x
  obtain ⟨δ0, hδ0, hFδ⟩ := Metric.continuousAt_iff.1 hF (η / 4) (by positivity)
  set δ := min δ0 ρ / 2 with hδ
  have hδpos : 0 < δ := by have := lt_min hδ0 hρ; positivity
  have hδ1 : δ < δ0 := by have := min_le_left δ0 ρ; have := lt_min hδ0 hρ; linarith
  have hδ2 : δ < ρ := by have := min_le_right δ0 ρ; have := lt_min hδ0 hρ; linarith
  set M := F t0 + η / 2 with hM
  set s := η / 2 / (2 * M + η / 2) with hs
  have hM0 : 0 < M := by positivity
  have hs0 : 0 < s := by positivity
  have hs1 : s * (2 * M + η / 2) = η / 2 := div_mul_cancel₀ _ (by positivity)
  have hs2 : s < 1 := by
    rw [hs, div_lt_one (by positivity)]
    linarith
  have Dup : 0 < D (t0 + δ) - D t0 := sub_pos.2 (hup _ (by linarith) (by linarith))
  have Ddn : 0 < D t0 - D (t0 - δ) := sub_pos.2 (hdn _ (by linarith) (by linarith))
  set ε := min (min (s * (D (t0 + δ) - D t0) / 2) (s * (D t0 - D (t0 - δ)) / 2)) (η / 4) with hε
  have hε0 : 0 < ε := lt_min (lt_min (by positivity) (by positivity)) (by positivity)
  have hε1 : ε ≤ s * (D (t0 + δ) - D t0) / 2 := (min_le_left _ _).trans (min_le_left _ _)
  have hε1' : ε ≤ s * (D t0 - D (t0 - δ)) / 2 := (min_le_left _ _).trans (min_le_right _ _)
  have hε2 : ε ≤ η / 4 := min_le_right _ _
  have up := hq (t0 + δ) (by rw [add_sub_cancel_left, abs_of_pos hδpos]; exact hδ2)
  have dn := hq (t0 - δ) (by rw [sub_sub_cancel_left, abs_neg, abs_of_pos hδpos]; exact hδ2)
  have Fup := hFδ (x := t0 + δ) (by rw [Real.dist_eq, add_sub_cancel_left, abs_of_pos hδpos]; exact hδ1)
  have Fdn := hFδ (x := t0 - δ) (by rw [Real.dist_eq, sub_sub_cancel_left, abs_neg, abs_of_pos hδpos]; exact hδ1)
  rw [Real.dist_eq] at Fup Fdn
  obtain ⟨h1, hh1, g1⟩ := fine_line up.response hε0 hsx hsy
  obtain ⟨h2, hh2, g2⟩ := fine_line dn.response hε0 hsx hsy
  refine ⟨min ε (min h1 h2), lt_min hε0 (lt_min hh1 hh2), fun T k nx ny p u hT hk hH hx hnear => ?_⟩
  have hτ : min ε (min h1 h2) ≤ ε := min_le_left _ _
  have hτ0 : 0 ≤ min ε (min h1 h2) := (lt_min hε0 (lt_min hh1 hh2)).le
  have m1 : min ε (min h1 h2) ≤ h1 := (min_le_right _ _).trans (min_le_left _ _)
  have m2 : min ε (min h1 h2) ≤ h2 := (min_le_right _ _).trans (min_le_right _ _)
  obtain ⟨sub, hm, rfl⟩ := hnear.response
  obtain ⟨hrec, hpd⟩ := answer_posDef hT hm
  obtain ⟨a1, b1⟩ := g1 T k nx ny sub hT hk hm (hx.trans_le m1)
  obtain ⟨a2, b2⟩ := g2 T k nx ny sub hT hk hm (hx.trans_le m2)
  obtain ⟨c1, d1⟩ := line_near up hH a1
  obtain ⟨c2, d2⟩ := line_near dn hH a2
  have w1 := (work_nonneg hrec hpd p (onGrid nx ny sx sy (along (q (t0 + δ))))).trans (near_work (U := answer sub (sx * sy / (nx * ny)) nx ny) (b := fun x => T.heights.get [x.1, x.2]) hτ0 hε0.le hnear.noTension
    (fun x => up.noTension _) hnear.penetration c1 hnear.gap d1)
  have w2 := (work_nonneg hrec hpd p (onGrid nx ny sx sy (along (q (t0 - δ))))).trans (near_work (U := answer sub (sx * sy / (nx * ny)) nx ny) (b := fun x => T.heights.get [x.1, x.2]) hτ0 hε0.le hnear.noTension
    (fun x => dn.noTension _) hnear.penetration c2 hnear.gap d2)
  have hP : 0 ≤ avg p := avg_nonneg hnear.noTension
  have hQ1 : 0 ≤ avg (onGrid nx ny sx sy (along (q (t0 + δ)))) := avg_nonneg fun x => up.noTension _
  have hQ2 : 0 ≤ avg (onGrid nx ny sx sy (along (q (t0 - δ)))) := avg_nonneg fun x => dn.noTension _
  set P := avg p
  set Q1 := avg (onGrid nx ny sx sy (along (q (t0 + δ))))
  set Q2 := avg (onGrid nx ny sx sy (along (q (t0 - δ))))
  have l1 : Q1 * sx ≤ M := by
    have := (abs_le.1 b1).2
    have := (abs_lt.1 Fup).2
    linarith
  have l2 : F t0 - η / 2 ≤ Q2 * sx := by
    have := (abs_le.1 b2).1
    have := (abs_lt.1 Fdn).1
    linarith
  have k1 := load_step Dup (κ := min ε (min h1 h2) + ε) (s := s) (by linarith) (add_nonneg hP hQ1) (a := P - Q1) (by linarith)
  have k2 := load_step Ddn (κ := min ε (min h1 h2) + ε) (s := s) (by linarith) (add_nonneg hP hQ2) (a := Q2 - P) (by linarith)
  exact load_squeeze hsx.le hs0.le hs2 hs1 hM hη k1 (by linarith) l1 l2

/-- The work of a difference bounds the mean square of the difference of the displacements. -/
lemma periodic_square {U : (Fin nx × Fin ny → ℝ) → (Fin nx × Fin ny → ℝ)} (hU : PeriodicAnswer U sx sy) (p q : Fin nx × Fin ny → ℝ) :
    avg (fun x => (U p x - U q x) ^ 2) ≤ max sx sy / π * avg (fun x => (p x - q x) * (U p x - U q x)) := by
  have h := hU.bound fun i => p i - q i
  have e' : ∀ x, U p x - U q x = U (fun i => p i - q i) x := fun x => congrFun (U_sub hU.recip p q) x
  simp only [e']
  have := div_le_div_of_nonneg_right h (show (0 : ℝ) ≤ Fintype.card (Fin nx × Fin ny) by positivity)
  unfold avg
  rw [← mul_div_assoc]
  refine le_trans (le_of_eq ?_) (this.trans (le_of_eq ?_))
  · unfold dot
    simp only [sq]
  · unfold dot
    rfl

/-- **C196** (displacements). Under the same conditions the displacements of the simulated contact converge in the mean square to those of the continuous half-space. -/
theorem C196_displacements {H : ℝ → ℝ} {q v : ℝ → ℝ → ℝ} {D : ℝ → ℝ} {t0 ρ : ℝ} (hρ : 0 < ρ) (hsx : 0 < sx) (hsy : 0 < sy)
    (hq : ∀ t, |t - t0| < ρ → LineContinuum sx sy H (D t) (q t) (v t)) (hup : ∀ t, t0 < t → t < t0 + ρ → D t0 < D t) (hdn : ∀ t, t < t0 → t0 - ρ < t → D t < D t0)
    (hF : ContinuousAt (fun t => ∫ y in (0 : ℝ)..sx, q t y) t0) {η : ℝ} (hη : 0 < η) :
    ∃ h > 0, ∀ (T : Topo) (k : Option String) (nx ny : ℕ) (p u : Fin nx × Fin ny → ℝ), ValidTopo T nx ny sx sy → (k = some "periodic" ∨ (k = none ∧ T.isPeriodic = true)) →
      HeightsOf (along H) T nx ny sx sy → sx / nx < h → NearContact T k nx ny sx sy (D t0) h p u → avg (fun x => (u x - v t0 (x.1 * (sx / nx))) ^ 2) ≤ η := by
  have hqo := hq t0 (by simpa using hρ)
  set L := ∫ y in (0 : ℝ)..sx, q t0 y with hL
  have hL0 : 0 ≤ L := intervalIntegral.integral_nonneg hsx.le fun x _ => hqo.noTension x
  obtain ⟨h1, hh1, g1⟩ := C196_load hρ hsx hsy hq hup hdn hF one_pos
  have hpi := pi_pos
  have hB : 0 < max sx sy / π := div_pos (lt_max_of_lt_left hsx) hpi
  set B := max sx sy / π with hBd
  set c := 2 * B * 2 * (2 * (L + 1) / sx) + 2 with hc
  have hc0 : 0 < c := by positivity
  set ε := min 1 (η / c) with hε
  have hε0 : 0 < ε := lt_min one_pos (by positivity)
  have hε1 : ε ≤ 1 := min_le_left _ _
  have hε2 : ε * c ≤ η := by
    have := min_le_right 1 (η / c)
    rwa [← hε, le_div_iff₀ hc0] at this
  obtain ⟨h2, hh2, g2⟩ := fine_line hqo.response hε0 hsx hsy
  refine ⟨min ε (min h1 h2), lt_min hε0 (lt_min hh1 hh2), fun T k nx ny p u hT hk hH hx hnear => ?_⟩
  have hτ : min ε (min h1 h2) ≤ ε := min_le_left _ _
  have hτ0 : 0 ≤ min ε (min h1 h2) := (lt_min hε0 (lt_min hh1 hh2)).le
  have m1 : min ε (min h1 h2) ≤ h1 := (min_le_right _ _).trans (min_le_left _ _)
  have m2 : min ε (min h1 h2) ≤ h2 := (min_le_right _ _).trans (min_le_right _ _)
  have hload := g1 T k nx ny p u hT hk hH (hx.trans_le m1)
    ⟨hnear.response, hnear.noTension, fun x => (hnear.penetration x).trans m1, fun x hx => (hnear.gap x hx).trans m1⟩
  obtain ⟨sub, hm, rfl⟩ := hnear.response
  obtain ⟨a2, b2⟩ := g2 T k nx ny sub hT hk hm (hx.trans_le m2)
  obtain ⟨c2, d2⟩ := line_near hqo hH a2
  have w := near_work (q := onGrid nx ny sx sy (along (q t0))) (U := answer sub (sx * sy / (nx * ny)) nx ny) (b := fun x => T.heights.get [x.1, x.2]) hτ0 hε0.le hnear.noTension (fun x => hqo.noTension _) hnear.penetration c2 hnear.gap d2
  rw [sub_self, zero_mul, zero_add] at w
  obtain ⟨⟨hn1, hn2⟩, s, hs, rfl⟩ := periodic_sub hT hk hm
  have sq := periodic_square (answer_periodic hn1 hn2 hT.sx_pos hT.sy_pos hs) p (onGrid nx ny sx sy (along (q t0)))
  set U := answer ⟨s, false, false⟩ (sx * sy / (nx * ny)) nx ny with hU
  set P := avg p
  set Q := avg (onGrid nx ny sx sy (along (q t0)))
  have hPQ : P + Q ≤ 2 * (L + 1) / sx := by
    rw [le_div_iff₀ hsx]
    have := (abs_le.1 hload).2
    have := (abs_le.1 b2).2
    linarith
  have hP : 0 ≤ P := avg_nonneg hnear.noTension
  have hQ : 0 ≤ Q := avg_nonneg fun x => hqo.noTension _
  have step : avg (fun x => (U p x - v t0 (x.1 * (sx / nx))) ^ 2) ≤ 2 * avg (fun x => (U p x - U (onGrid nx ny sx sy (along (q t0))) x) ^ 2) + 2 * ε ^ 2 := by
    have hne : (0 : ℝ) < Fintype.card (Fin nx × Fin ny) := by
      rw [card_grid]
      have h1 : (0 : ℝ) < nx := by exact_mod_cast hT.nx_pos
      have h2 : (0 : ℝ) < ny := by exact_mod_cast hT.ny_pos
      positivity
    have e : 2 * ε ^ 2 = avg (fun _ : Fin nx × Fin ny => 2 * ε ^ 2) := by
      unfold avg
      rw [Finset.sum_const, nsmul_eq_mul, Finset.card_univ, mul_div_cancel_left₀ _ hne.ne']
    rw [e, ← avg_const_mul]
    unfold avg
    rw [← add_div, ← Finset.sum_add_distrib]
    refine div_le_div_of_nonneg_right (Finset.sum_le_sum fun x _ => ?_) hne.le
    have h3 := a2 x
    have h4 : (U (onGrid nx ny sx sy (along (q t0))) x - v t0 (x.1 * (sx / nx))) ^ 2 ≤ ε ^ 2 := sq_le_sq' (abs_le.1 h3).1 (abs_le.1 h3).2
    nlinarith [sq_nonneg (U p x - U (onGrid nx ny sx sy (along (q t0))) x - (U (onGrid nx ny sx sy (along (q t0))) x - v t0 (x.1 * (sx / nx))))]
  refine step.trans (le_trans ?_ hε2)
  have t1 : (min ε (min h1 h2) + ε) * (P + Q) ≤ 2 * ε * (2 * (L + 1) / sx) :=
    mul_le_mul (by linarith) hPQ (add_nonneg hP hQ) (by linarith)
  have t2 := sq.trans (mul_le_mul_of_nonneg_left (w.trans t1) hB.le)
  have t3 : ε ^ 2 ≤ ε := by nlinarith
  rw [hc]
  nlinarith

/-- **C196** (offset under load). If the offset is continuous at `t0` and the load of the continuous contact increases strictly, the offset of the simulated contact under the load of `t0` converges
to `D t0`: for every bound there is an `h > 0` such that on every periodic grid with pixels shorter than `h` along x, every state at any offset that solves the contact problem within the tolerance `h`
and carries the load of the continuous contact up to `h`, has the offset `D t0` up to the bound. -/
theorem C196_offset {H : ℝ → ℝ} {q v : ℝ → ℝ → ℝ} {D : ℝ → ℝ} {t0 ρ : ℝ} (hρ : 0 < ρ) (hsx : 0 < sx) (hsy : 0 < sy)
    (hq : ∀ t, |t - t0| < ρ → LineContinuum sx sy H (D t) (q t) (v t)) (hD : ContinuousAt D t0) (hup : ∀ t, t0 < t → t < t0 + ρ → ∫ y in (0 : ℝ)..sx, q t0 y < ∫ y in (0 : ℝ)..sx, q t y)
    (hdn : ∀ t, t < t0 → t0 - ρ < t → ∫ y in (0 : ℝ)..sx, q t y < ∫ y in (0 : ℝ)..sx, q t0 y) {η : ℝ} (hη : 0 < η) :
    ∃ h > 0, ∀ (T : Topo) (k : Option String) (nx ny : ℕ) (o : ℝ) (p u : Fin nx × Fin ny → ℝ), ValidTopo T nx ny sx sy → (k = some "periodic" ∨ (k = none ∧ T.isPeriodic = true)) →
      HeightsOf (along H) T nx ny sx sy → sx / nx < h → NearContact T k nx ny sx sy o h p u → |avg p * sx - ∫ y in (0 : ℝ)..sx, q t0 y| ≤ h → |o - D t0| ≤ η := by
  set F := fun t => ∫ y in (0 : ℝ)..sx, q t y with hFd
  have hF0 : 0 ≤ F t0 := intervalIntegral.integral_nonneg hsx.le fun x _ => (hq t0 (by simpa using hρ)).noTension x
  obtain ⟨δ0, hδ0, hDδ⟩ := Metric.continuousAt_iff.1 hD (η / 2) (by positivity)
  set r := min δ0 ρ / 2 with hr
  have hmin := lt_min hδ0 hρ
  have hr0 : 0 < r := by positivity
  have hr1 : r < δ0 := by have := min_le_left δ0 ρ; linarith
  have hr2 : r < ρ := by have := min_le_right δ0 ρ; linarith
  set δ := η / 2 with hδ
  have hδpos : 0 < δ := by positivity
  have up := hq (t0 + r) (by rw [add_sub_cancel_left, abs_of_pos hr0]; exact hr2)
  have dn := hq (t0 - r) (by rw [sub_sub_cancel_left, abs_neg, abs_of_pos hr0]; exact hr2)
  have Dup := hDδ (x := t0 + r) (by rw [Real.dist_eq, add_sub_cancel_left, abs_of_pos hr0]; exact hr1)
  have Ddn := hDδ (x := t0 - r) (by rw [Real.dist_eq, sub_sub_cancel_left, abs_neg, abs_of_pos hr0]; exact hr1)
  rw [Real.dist_eq] at Dup Ddn
  obtain ⟨du1, du2⟩ := abs_lt.1 Dup
  obtain ⟨dd1, dd2⟩ := abs_lt.1 Ddn
  have Fup : F t0 < F (t0 + r) := hup _ (by linarith) (by linarith)
  have Fdn : F (t0 - r) < F t0 := hdn _ (by linarith) (by linarith)
  have Fdn0 : 0 ≤ F (t0 - r) := intervalIntegral.integral_nonneg hsx.le fun x _ => dn.noTension x
  set g := min (F (t0 + r) - F t0) (F t0 - F (t0 - r)) with hg
  have hg0 : 0 < g := lt_min (by linarith) (by linarith)
  have hg1 : g ≤ F (t0 + r) - F t0 := min_le_left _ _
  have hg2 : g ≤ F t0 - F (t0 - r) := min_le_right _ _
  set m := 2 * F (t0 + r) + 2 with hm
  have hm0 : 0 < m := by linarith
  set ε := min (min 1 (g / 4)) (δ * (g / 2) / (4 * m)) with hε
  have hε0 : 0 < ε := lt_min (lt_min one_pos (by positivity)) (by positivity)
  have hε1 : ε ≤ 1 := (min_le_left _ _).trans (min_le_left _ _)
  have hε2 : ε ≤ g / 4 := (min_le_left _ _).trans (min_le_right _ _)
  have hε3 : 2 * ε * m < δ * (g / 2) := by
    have h : ε ≤ δ * (g / 2) / (4 * m) := min_le_right _ _
    rw [le_div_iff₀ (by positivity)] at h
    have : 0 < δ * (g / 2) := by positivity
    linarith
  obtain ⟨h1, hh1, g1⟩ := fine_line up.response hε0 hsx hsy
  obtain ⟨h2, hh2, g2⟩ := fine_line dn.response hε0 hsx hsy
  refine ⟨min ε (min h1 h2), lt_min hε0 (lt_min hh1 hh2), fun T k nx ny o p u hT hk hH hx hnear hload => ?_⟩
  have hτ : min ε (min h1 h2) ≤ ε := min_le_left _ _
  have hτ0 : 0 ≤ min ε (min h1 h2) := (lt_min hε0 (lt_min hh1 hh2)).le
  have m1 : min ε (min h1 h2) ≤ h1 := (min_le_right _ _).trans (min_le_left _ _)
  have m2 : min ε (min h1 h2) ≤ h2 := (min_le_right _ _).trans (min_le_right _ _)
  obtain ⟨sub, hm, rfl⟩ := hnear.response
  obtain ⟨hrec, hpd⟩ := answer_posDef hT hm
  obtain ⟨a1, b1⟩ := g1 T k nx ny sub hT hk hm (hx.trans_le m1)
  obtain ⟨a2, b2⟩ := g2 T k nx ny sub hT hk hm (hx.trans_le m2)
  obtain ⟨c1, d1⟩ := line_near up hH a1
  obtain ⟨c2, d2⟩ := line_near dn hH a2
  have w1 := (work_nonneg hrec hpd p (onGrid nx ny sx sy (along (q (t0 + r))))).trans (near_work (U := answer sub (sx * sy / (nx * ny)) nx ny) (b := fun x => T.heights.get [x.1, x.2]) hτ0 hε0.le hnear.noTension
    (fun x => up.noTension _) hnear.penetration c1 hnear.gap d1)
  have w2 := (work_nonneg hrec hpd p (onGrid nx ny sx sy (along (q (t0 - r))))).trans (near_work (U := answer sub (sx * sy / (nx * ny)) nx ny) (b := fun x => T.heights.get [x.1, x.2]) hτ0 hε0.le hnear.noTension
    (fun x => dn.noTension _) hnear.penetration c2 hnear.gap d2)
  have hP : 0 ≤ avg p * sx := mul_nonneg (avg_nonneg hnear.noTension) hsx.le
  have hQ1 : 0 ≤ avg (onGrid nx ny sx sy (along (q (t0 + r)))) * sx := mul_nonneg (avg_nonneg fun x => up.noTension _) hsx.le
  have hQ2 : 0 ≤ avg (onGrid nx ny sx sy (along (q (t0 - r)))) * sx := mul_nonneg (avg_nonneg fun x => dn.noTension _) hsx.le
  have v1 := mul_nonneg w1 hsx.le
  have v2 := mul_nonneg w2 hsx.le
  rw [load_units] at v1 v2
  generalize avg p * sx = X at *
  generalize avg (onGrid nx ny sx sy (along (q (t0 + r)))) * sx = Y1 at *
  generalize avg (onGrid nx ny sx sy (along (q (t0 - r)))) * sx = Y2 at *
  obtain ⟨l1, l1'⟩ := abs_le.1 (show |X - F t0| ≤ _ from hload)
  obtain ⟨l2, l2'⟩ := abs_le.1 (show |Y1 - F (t0 + r)| ≤ _ from b1)
  obtain ⟨l3, l3'⟩ := abs_le.1 (show |Y2 - F (t0 - r)| ≤ _ from b2)
  have k1 : o - D (t0 + r) ≤ δ := offset_step hδpos hg0 hε0.le (κ := min ε (min h1 h2) + ε) (by linarith) hP (by linarith) (by linarith : X + Y1 ≤ m) hε3 (by linarith)
  have k2 : D (t0 - r) - o ≤ δ := offset_step hδpos hg0 hε0.le (κ := min ε (min h1 h2) + ε) (by linarith) hQ2 (by linarith) (by linarith : Y2 + X ≤ m) hε3 (by linarith)
  rw [abs_le]
  constructor <;> linarith

end CM.Disc
