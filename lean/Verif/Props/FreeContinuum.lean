import Verif.Props.FreeTest
/-!
# Simulated nonperiodic contacts converge to the contact of the continuous half-space (C200)
-/
namespace CM.Disc
open Real MeasureTheory Set Topology CM.Ref CM.Spec CM.HS CM.FFT CM.System CM.Pipe

variable {nx ny : ℕ} {sx sy : ℝ} {T : Topo}

/-! ## Real numbers -/

lemma small_tolerance {B C η : ℝ} (hB : 0 ≤ B) (hC : 0 ≤ C) (hη : 0 < η) :
    ∃ ε > 0, ε ≤ 1 ∧ ε ≤ η ∧ ∀ P Q W : ℝ, 0 ≤ P → 0 ≤ Q → Q ≤ B → W ≤ 2 * ε * (P + Q) → |P - Q| ≤ ε * (P + Q) + C * √W → |P - Q| ≤ η ∧ W ≤ η := by
  set κ := min (1 / 2) (η / (2 * (1 + 2 * B))) with hκ
  have hκ0 : 0 < κ := lt_min (by norm_num) (by positivity)
  have hκ1 : κ ≤ 1 / 2 := min_le_left _ _
  have hκ2 : κ * (2 * (1 + 2 * B)) ≤ η := by
    rw [← le_div_iff₀ (by positivity)]; exact min_le_right _ _
  set t := min (min 1 η) (min (κ / (1 + C)) (η / (2 * B + η))) with ht
  have ht0 : 0 < t := lt_min (lt_min one_pos hη) (lt_min (by positivity) (by positivity))
  have ht1 : t ≤ 1 := (min_le_left _ _).trans (min_le_left _ _)
  have ht2 : t ≤ η := (min_le_left _ _).trans (min_le_right _ _)
  have ht3 : t * (1 + C) ≤ κ := by
    rw [← le_div_iff₀ (by positivity)]; exact (min_le_right _ _).trans (min_le_left _ _)
  have ht4 : t * (2 * B + η) ≤ η := by
    rw [← le_div_iff₀ (by positivity)]; exact (min_le_right _ _).trans (min_le_right _ _)
  have htt : t ^ 2 ≤ t := by nlinarith
  refine ⟨t ^ 2 / 2, by positivity, by linarith, by linarith, fun P Q W hP hQ hQB hW h => ?_⟩
  rw [mul_div_cancel₀ _ (two_ne_zero' ℝ)] at hW
  set S := P + Q with hS
  have hS0 : 0 ≤ S := add_nonneg hP hQ
  have hSD : S ≤ 2 * B + |P - Q| := by
    have := le_abs_self (P - Q)
    linarith
  have h1 : √W ≤ t * (1 + S) := by
    rw [sqrt_le_left (by positivity)]
    refine hW.trans ?_
    rw [mul_pow]
    refine mul_le_mul_of_nonneg_left ?_ (by positivity)
    nlinarith
  have h2 : |P - Q| ≤ t * (1 + C) * (1 + S) := by
    have a1 := mul_le_mul_of_nonneg_left h1 hC
    have a2 : t ^ 2 / 2 * S ≤ t * (1 + S) := by
      have : t ^ 2 / 2 * S ≤ t * S := mul_le_mul_of_nonneg_right (by linarith) hS0
      linarith
    linarith
  have h3 : |P - Q| ≤ κ * (1 + S) := h2.trans (mul_le_mul_of_nonneg_right ht3 (by linarith))
  have h4 : κ * (1 + S) ≤ κ * (1 + 2 * B) + 1 / 2 * |P - Q| := by
    have a1 : κ * (1 + S) ≤ κ * (1 + 2 * B + |P - Q|) := mul_le_mul_of_nonneg_left (by linarith) hκ0.le
    have a2 := mul_le_mul_of_nonneg_right hκ1 (abs_nonneg (P - Q))
    linarith
  have h5 : |P - Q| ≤ η := by linarith
  refine ⟨h5, hW.trans ?_⟩
  have a1 : t ^ 2 * S ≤ t * (2 * B + η) := mul_le_mul htt (by linarith) hS0 ht0.le
  linarith

lemma small_offset {η Q₀ K a b : ℝ} (hη : 0 < η) (hQ : 0 < Q₀) (hK : 0 ≤ K) (ha : 0 ≤ a) (hb : 0 ≤ b) :
    ∃ ε > 0, ∀ y ε' : ℝ, η ≤ y → 0 ≤ ε' → ε' ≤ ε → ¬ (y / 2 * Q₀) ^ 2 ≤ K * (ε' * (a * y + b)) := by
  have hc : 0 < K * (a + b / η) + 1 := by positivity
  refine ⟨η * Q₀ ^ 2 / (8 * (K * (a + b / η) + 1)), by positivity, fun y ε' hy h0 h1 h => ?_⟩
  rw [le_div_iff₀ (by positivity)] at h1
  have hy0 : 0 < y := hη.trans_le hy
  have h2 : a * y + b ≤ (a + b / η) * y := by
    have : b ≤ b / η * y := by
      rw [div_mul_eq_mul_div, le_div_iff₀ hη]
      exact mul_le_mul_of_nonneg_left hy hb
    linarith
  have h3 : K * (ε' * (a * y + b)) ≤ ε' * (K * (a + b / η)) * y := by
    have := mul_le_mul_of_nonneg_left (mul_le_mul_of_nonneg_left h2 h0) hK
    linarith
  have h4 : y * Q₀ ^ 2 / 4 ≤ ε' * (K * (a + b / η)) := by
    refine le_of_mul_le_mul_right ?_ hy0
    calc y * Q₀ ^ 2 / 4 * y = (y / 2 * Q₀) ^ 2 := by ring
      _ ≤ _ := h.trans h3
  have h5 : η * Q₀ ^ 2 / 4 ≤ y * Q₀ ^ 2 / 4 := by
    have := mul_le_mul_of_nonneg_right hy (sq_nonneg Q₀)
    linarith
  have h6 : 0 < η * Q₀ ^ 2 := by positivity
  nlinarith

/-! ## Averages -/

lemma avg_cauchy {ι : Type} [Fintype ι] {U : (ι → ℝ) → (ι → ℝ)} (hU : Reciprocal U) (hpd : ∀ f, 0 ≤ dot f (U f)) (f g : ι → ℝ) :
    avg (fun i => f i * U g i) ^ 2 ≤ avg (fun i => f i * U f i) * avg (fun i => g i * U g i) := by
  unfold avg
  rw [div_pow, div_mul_div_comm, ← sq]
  exact div_le_div_of_nonneg_right (dot_cauchy hU hpd f g) (sq_nonneg _)

lemma free_difference (p q : Fin nx × Fin ny → ℝ) (x : Fin nx × Fin ny) : freeSum sx sy nx ny p x - freeSum sx sy nx ny q x = freeSum sx sy nx ny (fun i => p i - q i) x :=
  congrFun (U_sub (freeSum_reciprocal (sx := sx) (sy := sy) (nx := nx) (ny := ny)) p q) x

lemma avg_abs_le_free {ι : Type} [Fintype ι] {p q : ι → ℝ} (hp : ∀ i, 0 ≤ p i) (hq : ∀ i, 0 ≤ q i) : avg (fun i => |p i - q i|) ≤ avg p + avg q := by
  unfold avg
  rw [← add_div, ← Finset.sum_add_distrib]
  refine div_le_div_of_nonneg_right (Finset.sum_le_sum fun i _ => ?_) (by positivity)
  rw [abs_le]
  have := hp i
  have := hq i
  constructor <;> linarith

lemma avg_minus {ι : Type} [Fintype ι] (p q : ι → ℝ) : avg (fun i => p i - q i) = avg p - avg q := by
  unfold avg
  rw [Finset.sum_sub_distrib, sub_div]

/-! ## Convergence -/

/-- What is small on fine grids. -/
lemma free_close {H : ℝ × ℝ → ℝ} {q : ℝ × ℝ → ℝ} {d : ℝ} (hq : Continuum H d q) (hin : tsupport q ⊆ inside sx sy) (hsx : 0 < sx) (hsy : 0 < sy) {η : ℝ} (hη : 0 < η) :
    ∃ h > 0, ∀ (T : Topo) (k : Option String) (nx ny : ℕ) (p u : Fin nx × Fin ny → ℝ), ValidTopo T nx ny sx sy → (k = some "nonperiodic" ∨ (k = none ∧ T.isPeriodic = false)) →
      HeightsOf H T nx ny sx sy → sx / nx < h → sy / ny < h → NearContact T k nx ny sx sy d h p u →
      u = freeSum sx sy nx ny p ∧ |avg p - avg (onGrid nx ny sx sy q)| ≤ η ∧
      avg (fun x => (p x - onGrid nx ny sx sy q x) * freeSum sx sy nx ny (fun i => p i - onGrid nx ny sx sy q i) x) ≤ η ∧
      (∀ x, |freeSum sx sy nx ny (onGrid nx ny sx sy q) x - boussinesq 1 q (gridPoint (sx / nx) (sy / ny) x.1 x.2)| ≤ η) ∧
      |avg (onGrid nx ny sx sy q) * (sx * sy) - ∫ y, q y| ≤ η := by
  set L := ∫ y, q y with hL
  have hL0 : 0 ≤ L := integral_nonneg hq.noTension
  have hA : 0 < sx * sy := mul_pos hsx hsy
  obtain ⟨C, hC, ht⟩ := load_test hsx hsy
  obtain ⟨ε, hε0, hε1, hεη, hsmall⟩ := small_tolerance (B := (L + 1) / (sx * sy)) (by positivity) hC hη
  obtain ⟨h1, hh1, g1⟩ := ht ε hε0
  obtain ⟨h2, hh2, g2⟩ := fine_grid hq.continuous hq.compact hin hε0 hsx hsy
  refine ⟨min ε (min h1 h2), lt_min hε0 (lt_min hh1 hh2), fun T k nx ny p u hT hk hH hx hy hnear => ?_⟩
  have hτ : min ε (min h1 h2) ≤ ε := min_le_left _ _
  have hτ0 : 0 ≤ min ε (min h1 h2) := (lt_min hε0 (lt_min hh1 hh2)).le
  have m1 : min ε (min h1 h2) ≤ h1 := (min_le_right _ _).trans (min_le_left _ _)
  have m2 : min ε (min h1 h2) ≤ h2 := (min_le_right _ _).trans (min_le_right _ _)
  obtain ⟨sub, hm, rfl⟩ := hnear.response
  obtain ⟨a2, b2⟩ := g2 T k nx ny sub hT hk hm (hx.trans_le m2) (hy.trans_le m2)
  obtain ⟨c2, d2⟩ := continuum_near hq hH a2
  have w := near_work (q := onGrid nx ny sx sy q) (U := answer sub (sx * sy / (nx * ny)) nx ny) (b := fun x => T.heights.get [x.1, x.2]) hτ0 hε0.le hnear.noTension (fun x => hq.noTension _)
    hnear.penetration c2 hnear.gap d2
  rw [sub_self, zero_mul, zero_add] at w
  obtain ⟨s, hs, rfl⟩ := free_sub hT hk hm
  rw [answer_free hT.nx_pos hT.ny_pos hT.sx_pos hT.sy_pos hs] at *
  simp only [free_difference] at w
  have hP : 0 ≤ avg p := avg_nonneg hnear.noTension
  have hQ : 0 ≤ avg (onGrid nx ny sx sy q) := avg_nonneg fun x => hq.noTension _
  have lt := g1 nx ny hT.nx_pos hT.ny_pos (hx.trans_le m1) (hy.trans_le m1) fun i => p i - onGrid nx ny sx sy q i
  rw [avg_minus] at lt
  have ab := avg_abs_le_free hnear.noTension (q := onGrid nx ny sx sy q) fun x => hq.noTension _
  obtain ⟨r1, r2⟩ := hsmall (avg p) (avg (onGrid nx ny sx sy q)) _ hP hQ (by
      rw [le_div_iff₀ hA]
      have := (abs_le.1 b2).2
      linarith) (w.trans (mul_le_mul_of_nonneg_right (by linarith) (add_nonneg hP hQ)))
    (lt.trans (add_le_add_left (mul_le_mul_of_nonneg_left ab hε0.le) _))
  exact ⟨rfl, r1, r2, fun x => (a2 x).trans hεη, b2.trans hεη⟩

/-- **C200** (load). Let the continuous half-space have a solution of the contact with the rigid surface `H` at offset `d`, inside the simulated surface.  Then the load of the simulated contact converges:
for every bound there is an `h > 0` such that on every nonperiodic grid with pixels smaller than `h`, every state that solves the contact problem of the heights at offset `d` within the tolerance `h`
carries the load of the continuous contact up to the bound. -/
theorem C200_load {H : ℝ × ℝ → ℝ} {q : ℝ × ℝ → ℝ} {d : ℝ} (hq : Continuum H d q) (hin : tsupport q ⊆ inside sx sy) (hsx : 0 < sx) (hsy : 0 < sy) {η : ℝ} (hη : 0 < η) :
    ∃ h > 0, ∀ (T : Topo) (k : Option String) (nx ny : ℕ) (p u : Fin nx × Fin ny → ℝ), ValidTopo T nx ny sx sy → (k = some "nonperiodic" ∨ (k = none ∧ T.isPeriodic = false)) →
      HeightsOf H T nx ny sx sy → sx / nx < h → sy / ny < h → NearContact T k nx ny sx sy d h p u → |avg p * (sx * sy) - ∫ y, q y| ≤ η := by
  have hA : 0 < sx * sy := mul_pos hsx hsy
  obtain ⟨h, hh, g⟩ := free_close hq hin hsx hsy (η := η / (sx * sy + 1)) (by positivity)
  refine ⟨h, hh, fun T k nx ny p u hT hk hH hx hy hnear => ?_⟩
  obtain ⟨-, a1, -, -, a2⟩ := g T k nx ny p u hT hk hH hx hy hnear
  have e : η / (sx * sy + 1) * (sx * sy + 1) = η := div_mul_cancel₀ _ (by positivity)
  have a3 : |avg p * (sx * sy) - avg (onGrid nx ny sx sy q) * (sx * sy)| ≤ η / (sx * sy + 1) * (sx * sy) := by
    rw [← sub_mul, abs_mul, abs_of_pos hA]
    exact mul_le_mul_of_nonneg_right a1 hA.le
  have := abs_sub_le (avg p * (sx * sy)) (avg (onGrid nx ny sx sy q) * (sx * sy)) (∫ y, q y)
  linarith

/-- **C200** (displacements). Under the same conditions the displacements of the simulated contact converge in the mean square to those of the continuous half-space. -/
theorem C200_displacements {H : ℝ × ℝ → ℝ} {q : ℝ × ℝ → ℝ} {d : ℝ} (hq : Continuum H d q) (hin : tsupport q ⊆ inside sx sy) (hsx : 0 < sx) (hsy : 0 < sy) {η : ℝ} (hη : 0 < η) :
    ∃ h > 0, ∀ (T : Topo) (k : Option String) (nx ny : ℕ) (p u : Fin nx × Fin ny → ℝ), ValidTopo T nx ny sx sy → (k = some "nonperiodic" ∨ (k = none ∧ T.isPeriodic = false)) →
      HeightsOf H T nx ny sx sy → sx / nx < h → sy / ny < h → NearContact T k nx ny sx sy d h p u →
      avg (fun x => (u x - boussinesq 1 q (gridPoint (sx / nx) (sy / ny) x.1 x.2)) ^ 2) ≤ η := by
  set c := 2 * (2 * √(sx ^ 2 + sy ^ 2)) + 2 with hc
  have hc0 : 0 < c := by positivity
  set ε := min 1 (η / c) with hε
  have hε0 : 0 < ε := lt_min one_pos (by positivity)
  have hε1 : ε ≤ 1 := min_le_left _ _
  have hε2 : ε * c ≤ η := by
    rw [← le_div_iff₀ hc0]; exact min_le_right _ _
  obtain ⟨h, hh, g⟩ := free_close hq hin hsx hsy hε0
  refine ⟨h, hh, fun T k nx ny p u hT hk hH hx hy hnear => ?_⟩
  obtain ⟨rfl, -, w, a2, -⟩ := g T k nx ny p u hT hk hH hx hy hnear
  have sq := free_square hT p (onGrid nx ny sx sy q)
  simp only [free_difference (sx := sx) (sy := sy) p (onGrid nx ny sx sy q)] at sq
  have step : avg (fun x => (freeSum sx sy nx ny p x - boussinesq 1 q (gridPoint (sx / nx) (sy / ny) x.1 x.2)) ^ 2) ≤
      2 * avg (fun x => (freeSum sx sy nx ny (fun i => p i - onGrid nx ny sx sy q i) x) ^ 2) + 2 * ε ^ 2 := by
    have hne : (0 : ℝ) < Fintype.card (Fin nx × Fin ny) := by
      rw [card_grid]
      have h1 : (0 : ℝ) < nx := by exact_mod_cast hT.nx_pos
      have h2 : (0 : ℝ) < ny := by exact_mod_cast hT.ny_pos
      positivity
    have e : 2 * ε ^ 2 = avg (fun _ : Fin nx × Fin ny => 2 * ε ^ 2) := by
      unfold avg
      rw [Finset.sum_const, nsmul_eq_mul, Finset.card_univ, mul_div_cancel_left₀ _ hne.ne']
    rw [e, ← avg_const_mul]
    unfold avg
    rw [← add_div, ← Finset.sum_add_distrib]
    refine div_le_div_of_nonneg_right (Finset.sum_le_sum fun x _ => ?_) hne.le
    have h3 := a2 x
    have h4 : (freeSum sx sy nx ny (onGrid nx ny sx sy q) x - boussinesq 1 q (gridPoint (sx / nx) (sy / ny) x.1 x.2)) ^ 2 ≤ ε ^ 2 := sq_le_sq' (abs_le.1 h3).1 (abs_le.1 h3).2
    rw [← free_difference]
    nlinarith [sq_nonneg (freeSum sx sy nx ny p x - freeSum sx sy nx ny (onGrid nx ny sx sy q) x -
      (freeSum sx sy nx ny (onGrid nx ny sx sy q) x - boussinesq 1 q (gridPoint (sx / nx) (sy / ny) x.1 x.2)))]
  refine step.trans (le_trans ?_ hε2)
  have t2 := sq.trans (mul_le_mul_of_nonneg_left w (by positivity))
  have t3 : ε ^ 2 ≤ ε := by nlinarith
  rw [hc]
  linarith

/-- **C200** (offset under load). The offset of the simulated contact under the load of a continuous contact converges to the offset of the latter: for every bound there is an `h > 0` such that on every
nonperiodic grid with pixels smaller than `h`, every state at any offset that solves the contact problem within the tolerance `h` and carries the (positive) load of the continuous contact up to `h`,
has the offset of the latter up to the bound. -/
theorem C200_offset {H : ℝ × ℝ → ℝ} {q : ℝ × ℝ → ℝ} {d : ℝ} (hq : Continuum H d q) (hin : tsupport q ⊆ inside sx sy) (hpos : 0 < ∫ y, q y) (hsx : 0 < sx) (hsy : 0 < sy) {η : ℝ} (hη : 0 < η) :
    ∃ h > 0, ∀ (T : Topo) (k : Option String) (nx ny : ℕ) (o : ℝ) (p u : Fin nx × Fin ny → ℝ), ValidTopo T nx ny sx sy → (k = some "nonperiodic" ∨ (k = none ∧ T.isPeriodic = false)) →
      HeightsOf H T nx ny sx sy → sx / nx < h → sy / ny < h → NearContact T k nx ny sx sy o h p u → |avg p * (sx * sy) - ∫ y, q y| ≤ h → |o - d| ≤ η := by
  set L := ∫ y, q y with hL
  have hA : 0 < sx * sy := mul_pos hsx hsy
  obtain ⟨M, hM⟩ := hq.compact.exists_bound_of_continuous hq.continuous
  simp only [norm_eq_abs] at hM
  have hM0 : 0 ≤ M := (abs_nonneg _).trans (hM 0)
  set A := sx * sy with hAd
  set S := 2 * (L + 1) / A with hS
  set V := 2 * √(sx ^ 2 + sy ^ 2) * M with hV
  have hV0 : 0 ≤ V := by positivity
  obtain ⟨ε1, he1, hsm⟩ := small_offset (η := η) (Q₀ := L / 2 / A) (K := S * V) (a := 2 / A) (b := 2 * S) hη (by positivity) (by positivity) (by positivity) (by positivity)
  set ε := min (min 1 (L / 2)) (min ε1 (η / 4)) with hε
  have hε0 : 0 < ε := lt_min (lt_min one_pos (by positivity)) (lt_min he1 (by positivity))
  have hε1 : ε ≤ 1 := (min_le_left _ _).trans (min_le_left _ _)
  have hε2 : ε ≤ L / 2 := (min_le_left _ _).trans (min_le_right _ _)
  have hε3 : ε ≤ ε1 := (min_le_right _ _).trans (min_le_left _ _)
  have hε4 : ε ≤ η / 4 := (min_le_right _ _).trans (min_le_right _ _)
  obtain ⟨h2, hh2, g2⟩ := fine_grid hq.continuous hq.compact hin hε0 hsx hsy
  refine ⟨min ε h2, lt_min hε0 hh2, fun T k nx ny o p u hT hk hH hx hy hnear hload => ?_⟩
  have hτ : min ε h2 ≤ ε := min_le_left _ _
  have hτ0 : 0 ≤ min ε h2 := (lt_min hε0 hh2).le
  have m2 : min ε h2 ≤ h2 := min_le_right _ _
  obtain ⟨sub, hm, rfl⟩ := hnear.response
  obtain ⟨a2, b2⟩ := g2 T k nx ny sub hT hk hm (hx.trans_le m2) (hy.trans_le m2)
  obtain ⟨c2, d2⟩ := continuum_near hq hH a2
  have w := near_work (q := onGrid nx ny sx sy q) (U := answer sub (sx * sy / (nx * ny)) nx ny) (b := fun x => T.heights.get [x.1, x.2]) hτ0 hε0.le hnear.noTension (fun x => hq.noTension _)
    hnear.penetration c2 hnear.gap d2
  have pen := hnear.penetration
  have gap := hnear.gap
  obtain ⟨s, hs, rfl⟩ := free_sub hT hk hm
  rw [answer_free hT.nx_pos hT.ny_pos hT.sx_pos hT.sy_pos hs] at *
  simp only [wall] at pen gap
  set G := onGrid nx ny sx sy q with hG
  have hG0 : ∀ x, 0 ≤ G x := fun x => hq.noTension _
  have hGU : ∀ x, |freeSum sx sy nx ny G x| ≤ V := freeSum_bound hT.nx_pos hT.ny_pos hsx hsy fun x => hM _
  set f : Fin nx × Fin ny → ℝ := fun i => p i - G i with hf
  have hPA := abs_le.1 hload
  have hQA := abs_le.1 b2
  have hP0 : 0 ≤ avg p := avg_nonneg hnear.noTension
  have hQ0 : 0 ≤ avg G := avg_nonneg hG0
  have hP1 : L / 2 / A ≤ avg p := by rw [div_le_iff₀ hA]; linarith
  have hQ1 : L / 2 / A ≤ avg G := by rw [div_le_iff₀ hA]; linarith
  have hPS : avg p + avg G ≤ S := by rw [hS, le_div_iff₀ hA]; linarith
  have hPQ : |avg p - avg G| ≤ 2 / A * ε := by
    rw [div_mul_eq_mul_div, le_div_iff₀ hA, ← abs_of_pos hA, ← abs_mul, abs_le]
    constructor <;> linarith
  simp only [free_difference] at w
  -- the work of the difference
  have hW : avg (fun x => f x * freeSum sx sy nx ny f x) ≤ ε * (2 / A * |o - d| + 2 * S) := by
    have t1 : (o - d) * (avg p - avg G) ≤ |o - d| * (2 / A * ε) := by
      refine (le_abs_self _).trans ?_
      rw [abs_mul]
      exact mul_le_mul_of_nonneg_left hPQ (abs_nonneg _)
    have t2 : (min ε h2 + ε) * (avg p + avg G) ≤ 2 * ε * S := mul_le_mul (by linarith) hPS (by linarith) (by positivity)
    linarith
  have cs := avg_cauchy (freeSum_reciprocal (sx := sx) (sy := sy) (nx := nx) (ny := ny)) (freeSum_nonneg hT.nx_pos hT.ny_pos hsx hsy)
  have hW0 : 0 ≤ avg (fun x => f x * freeSum sx sy nx ny f x) := div_nonneg (freeSum_nonneg hT.nx_pos hT.ny_pos hsx hsy f) (by positivity)
  by_contra hc
  push Not at hc
  rcases le_total d o with hod | hod
  · -- too deep: the continuous contact is penetrated
    rw [abs_of_nonneg (sub_nonneg.2 hod)] at hc hW
    refine hsm (o - d) ε hc.le hε0.le hε3 ?_
    have e1 : (o - d) / 2 * (L / 2 / A) ≤ avg (fun x => G x * freeSum sx sy nx ny f x) := by
      refine (mul_le_mul_of_nonneg_left hQ1 (by linarith)).trans ?_
      rw [← avg_const_mul]
      refine avg_mono fun x => ?_
      by_cases hz : G x = 0
      · simp [hz]
      rw [mul_comm]
      refine mul_le_mul_of_nonneg_left ?_ (hG0 x)
      have r1 := pen x
      have r2 := d2 x hz
      have r3 := free_difference (sx := sx) (sy := sy) p G x
      rw [← r3]
      linarith
    have e2 : avg (fun x => G x * freeSum sx sy nx ny G x) ≤ S * V := by
      calc avg (fun x => G x * freeSum sx sy nx ny G x) ≤ avg (fun x => V * G x) := avg_mono fun x => by
            rw [mul_comm V]
            exact mul_le_mul_of_nonneg_left ((le_abs_self _).trans (hGU x)) (hG0 x)
        _ = V * avg G := avg_const_mul _ _
        _ ≤ V * S := mul_le_mul_of_nonneg_left (by linarith) hV0
        _ = _ := mul_comm _ _
    calc ((o - d) / 2 * (L / 2 / A)) ^ 2 ≤ avg (fun x => G x * freeSum sx sy nx ny f x) ^ 2 := pow_le_pow_left₀ (mul_nonneg (by linarith) (by positivity)) e1 2
      _ ≤ _ := cs G f
      _ ≤ _ := mul_le_mul e2 hW hW0 (by positivity)
  · -- not deep enough: the simulated contact is out of reach
    rw [abs_sub_comm, abs_of_nonneg (sub_nonneg.2 hod)] at hc hW
    refine hsm (d - o) ε hc.le hε0.le hε3 ?_
    have e1 : (d - o) / 2 * (L / 2 / A) ≤ -avg (fun x => p x * freeSum sx sy nx ny f x) := by
      refine (mul_le_mul_of_nonneg_left hP1 (by linarith)).trans ?_
      have en : -avg (fun x => p x * freeSum sx sy nx ny f x) = avg (fun x => p x * -freeSum sx sy nx ny f x) := by
        have := avg_const_mul (-1) fun x => p x * freeSum sx sy nx ny f x
        rw [neg_one_mul] at this
        rw [← this]
        congr 1
        funext x
        ring
      rw [en, ← avg_const_mul]
      refine avg_mono fun x => ?_
      by_cases hz : p x = 0
      · simp [hz]
      rw [mul_comm]
      refine mul_le_mul_of_nonneg_left ?_ (hnear.noTension x)
      have r1 := gap x hz
      have r2 := c2 x
      have r3 := free_difference (sx := sx) (sy := sy) p G x
      rw [← r3]
      linarith
    have e2 : avg (fun x => p x * freeSum sx sy nx ny p x) ≤ S * V := by
      calc avg (fun x => p x * freeSum sx sy nx ny p x) ≤ avg (fun x => V * p x) := avg_mono fun x => by
            by_cases hz : p x = 0
            · simp [hz]
            rw [mul_comm V]
            refine mul_le_mul_of_nonneg_left ?_ (hnear.noTension x)
            have r1 := gap x hz
            have r2 := c2 x
            have r3 := (abs_le.1 (hGU x)).2
            linarith
        _ = V * avg p := avg_const_mul _ _
        _ ≤ V * S := mul_le_mul_of_nonneg_left (by linarith) hV0
        _ = _ := mul_comm _ _
    calc ((d - o) / 2 * (L / 2 / A)) ^ 2 ≤ (-avg (fun x => p x * freeSum sx sy nx ny f x)) ^ 2 := pow_le_pow_left₀ (mul_nonneg (by linarith) (by positivity)) e1 2
      _ = avg (fun x => p x * freeSum sx sy nx ny f x) ^ 2 := neg_sq _
      _ ≤ _ := cs p f
      _ ≤ _ := mul_le_mul e2 hW hW0 (by positivity)

end CM.Disc
