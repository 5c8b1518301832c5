import Verif.Lemmas.CellSmoothing
import Verif.Props.LineContinuum
/-!
# Continuous periodic solutions on fine grids: waves, means and work
-/
namespace CM.Disc
open Real MeasureTheory Set Topology CM.Ref CM.Spec CM.HS CM.FFT CM.System CM.Pipe

variable {nx ny : ℕ} {sx sy : ℝ} {T : Topo}

/-! ## Averages -/

section
variable {ι : Type} [Fintype ι]

lemma avg_add (f g : ι → ℝ) : avg (fun i => f i + g i) = avg f + avg g := by
  unfold avg; rw [Finset.sum_add_distrib, add_div]

lemma avg_sub (f g : ι → ℝ) : avg (fun i => f i - g i) = avg f - avg g := by
  unfold avg; rw [Finset.sum_sub_distrib, sub_div]

lemma avg_const_le [Nonempty ι] {f : ι → ℝ} {c : ℝ} (h : ∀ i, f i ≤ c) : avg f ≤ c := by
  have hne : (0 : ℝ) < Fintype.card ι := by exact_mod_cast Fintype.card_pos
  refine (avg_mono h).trans (le_of_eq ?_)
  unfold avg
  rw [Finset.sum_const, nsmul_eq_mul, Finset.card_univ, mul_div_cancel_left₀ _ hne.ne']

lemma avg_const_eq [Nonempty ι] (c : ℝ) : avg (fun _ : ι => c) = c := by
  have hne : (0 : ℝ) < Fintype.card ι := by exact_mod_cast Fintype.card_pos
  unfold avg
  rw [Finset.sum_const, nsmul_eq_mul, Finset.card_univ, mul_div_cancel_left₀ _ hne.ne']

lemma avg_abs_le (f : ι → ℝ) : |avg f| ≤ avg fun i => |f i| := by
  unfold avg
  rw [abs_div, abs_of_nonneg (show (0 : ℝ) ≤ Fintype.card ι by positivity)]
  exact div_le_div_of_nonneg_right (Finset.abs_sum_le_sum_abs _ _) (by positivity)

lemma avg_swap {U : (ι → ℝ) → (ι → ℝ)} (hU : Reciprocal U) (f g : ι → ℝ) : avg (fun i => f i * U g i) = avg fun i => g i * U f i := by
  have := hU.symm f g
  unfold dot at this
  unfold avg
  rw [this]

lemma U_add {U : (ι → ℝ) → (ι → ℝ)} (hU : Reciprocal U) (f g : ι → ℝ) (i : ι) : U (fun i => f i + g i) i = U f i + U g i := by
  have := congrFun (hU.lin 1 1 f g) i
  simpa using this

end

lemma young {a b B : ℝ} (hB : 0 < B) : a * b ≤ B * a ^ 2 / 2 + b ^ 2 / (2 * B) := by
  have h : B * a ^ 2 / 2 + b ^ 2 / (2 * B) - a * b = (B * a - b) ^ 2 / (2 * B) := by field_simp; ring
  have : 0 ≤ (B * a - b) ^ 2 / (2 * B) := by positivity
  linarith

/-! ## The work of a difference -/

/-- A state `p` that nearly solves the contact problem on the grid and the fields `G`, `v` of the continuous solution at the grid points, whose relation to the answer `U` of the grid is nearly exact. -/
structure Compare (U : (Fin nx × Fin ny → ℝ) → (Fin nx × Fin ny → ℝ)) (b p G v r : Fin nx × Fin ny → ℝ) (o d τ ε : ℝ) : Prop where
  p_nonneg : ∀ x, 0 ≤ p x
  G_nonneg : ∀ x, 0 ≤ G x
  penetration : ∀ x, b x + o - U p x ≤ τ
  gap : ∀ x, p x ≠ 0 → U p x - (b x + o) ≤ τ
  cpen : ∀ x, b x + d ≤ v x
  ctouch : ∀ x, G x ≠ 0 → v x = b x + d
  r_small : ∀ x, |r x| ≤ ε
  near : ∀ x, |U (fun y => G y - r y) x - v x| ≤ ε

section
variable {U : (Fin nx × Fin ny → ℝ) → (Fin nx × Fin ny → ℝ)} {b p G v r : Fin nx × Fin ny → ℝ} {o d τ ε : ℝ}

/-- Displacement of the grid against that of the continuum. -/
lemma Compare.split (hU : Reciprocal U) (x : Fin nx × Fin ny) :
    U p x - v x = U (fun y => p y - G y) x + U r x + (U (fun y => G y - r y) x - v x) := by
  have e1 := congrFun (U_sub hU p G) x
  have e2 := congrFun (U_sub hU G r) x
  rw [← e1, ← e2]
  ring

lemma square_r [NeZero nx] [NeZero ny] (hU : PeriodicAnswer U sx sy) (hsx : 0 < sx) (hr : ∀ x, |r x| ≤ ε) : avg (fun x => U r x ^ 2) ≤ (max sx sy / π) ^ 2 * ε ^ 2 := by
  have hpi := pi_pos
  have hB : 0 < max sx sy / π := div_pos (lt_max_of_lt_left hsx) hpi
  set B := max sx sy / π with hBd
  have : Nonempty (Fin nx × Fin ny) := ⟨(⟨0, Nat.pos_of_ne_zero (NeZero.ne nx)⟩, ⟨0, Nat.pos_of_ne_zero (NeZero.ne ny)⟩)⟩
  have h1 : avg (fun x => U r x ^ 2) ≤ B * avg (fun x => r x * U r x) := by
    have h := hU.bound r
    have := div_le_div_of_nonneg_right h (show (0 : ℝ) ≤ Fintype.card (Fin nx × Fin ny) by positivity)
    unfold avg
    rw [← mul_div_assoc]
    refine le_trans (le_of_eq ?_) this
    unfold dot
    simp only [sq]
  have h2 : avg (fun x => r x * U r x) ≤ B * ε ^ 2 / 2 + 1 / (2 * B) * avg (fun x => U r x ^ 2) := by
    have e : avg (fun x => r x * U r x) ≤ avg (fun x => B * r x ^ 2 / 2 + 1 / (2 * B) * U r x ^ 2) := avg_mono fun x => (young hB).trans (le_of_eq (by ring))
    refine e.trans ?_
    rw [avg_add, avg_const_mul]
    refine add_le_add_left (avg_const_le fun x => ?_) _
    have h3 := pow_le_pow_left₀ (abs_nonneg _) (hr x) 2
    rw [sq_abs] at h3
    have := mul_le_mul_of_nonneg_left h3 hB.le
    linarith
  have h3 := mul_le_mul_of_nonneg_left h2 hB.le
  have e4 : B * (B * ε ^ 2 / 2 + 1 / (2 * B) * avg (fun x => U r x ^ 2)) = B ^ 2 * ε ^ 2 / 2 + avg (fun x => U r x ^ 2) / 2 := by field_simp
  rw [e4] at h3
  linarith

variable [NeZero nx] [NeZero ny] (hU : PeriodicAnswer U sx sy) (hsx : 0 < sx)
include hU hsx

/-- The work of the difference is small. -/
lemma Compare.work (h : Compare U b p G v r o d τ ε) :
    avg (fun x => (p x - G x) * (U p x - U G x)) ≤ 2 * ((o - d) * (avg p - avg G) + (τ + ε) * (avg p + avg G)) + max sx sy / π * ε ^ 2 := by
  have hpi := pi_pos
  have hB : 0 < max sx sy / π := div_pos (lt_max_of_lt_left hsx) hpi
  have : Nonempty (Fin nx × Fin ny) := ⟨(⟨0, Nat.pos_of_ne_zero (NeZero.ne nx)⟩, ⟨0, Nat.pos_of_ne_zero (NeZero.ne ny)⟩)⟩
  have hsq := (avg_bounds hU p G).2
  set B := max sx sy / π with hBd
  have ef : ∀ x, U p x - U G x = U (fun y => p y - G y) x := fun x => congrFun (U_sub hU.recip p G) x
  set W := avg (fun x => (p x - G x) * (U p x - U G x)) with hW
  have hpt : ∀ x, (p x - G x) * (U p x - U G x) ≤ (o - d) * (p x - G x) + (τ + ε) * (p x + G x) + -((p x - G x) * U r x) := by
    intro x
    have e2 := congrFun (U_sub hU.recip G r) x
    have hn := abs_le.1 (h.near x)
    rw [← e2] at hn
    have hp := h.p_nonneg x
    have hG := h.G_nonneg x
    have k1 : p x * (U p x - (b x + o)) ≤ τ * p x := by
      by_cases h0 : p x = 0
      · simp [h0]
      · rw [mul_comm]; exact mul_le_mul_of_nonneg_right (h.gap x h0) hp
    have k2 : -(G x * (U p x - (b x + o))) ≤ τ * G x := by
      have := mul_le_mul_of_nonneg_right (h.penetration x) hG
      linarith
    have k3 : G x * (v x - (b x + d)) = 0 := by
      by_cases h0 : G x = 0
      · simp [h0]
      · rw [h.ctouch x h0, sub_self, mul_zero]
    have k4 : 0 ≤ p x * (v x - (b x + d)) := mul_nonneg hp (by linarith [h.cpen x])
    have k5 : p x * (U G x - U r x - v x) ≥ -(ε * p x) := by nlinarith
    have k6 : G x * (U G x - U r x - v x) ≤ ε * G x := by nlinarith
    nlinarith
  have h1 := avg_mono hpt
  rw [← hW, avg_add, avg_add, avg_const_mul, avg_const_mul, avg_sub, avg_add] at h1
  have h2 : avg (fun x => -((p x - G x) * U r x)) ≤ B * ε ^ 2 / 2 + 1 / (2 * B) * avg (fun x => (U p x - U G x) ^ 2) := by
    have e1 : avg (fun x => -((p x - G x) * U r x)) = avg (fun x => (-1) * ((p x - G x) * U r x)) := by congr 1; funext x; ring
    rw [e1, avg_const_mul, avg_swap hU.recip (fun x => p x - G x) r, ← avg_const_mul]
    have e : avg (fun x => (-1) * (r x * U (fun x => p x - G x) x)) ≤ avg (fun x => B * r x ^ 2 / 2 + 1 / (2 * B) * (U p x - U G x) ^ 2) := avg_mono fun x => by
      rw [ef]
      have := young (a := -r x) (b := U (fun x => p x - G x) x) hB
      refine le_trans (le_of_eq (by ring)) (this.trans (le_of_eq (by ring)))
    refine e.trans ?_
    rw [avg_add, avg_const_mul]
    refine add_le_add_left (avg_const_le fun x => ?_) _
    have h3 := pow_le_pow_left₀ (abs_nonneg _) (h.r_small x) 2
    rw [sq_abs] at h3
    have := mul_le_mul_of_nonneg_left h3 hB.le
    linarith
  have h3 : 1 / (2 * B) * avg (fun x => (U p x - U G x) ^ 2) ≤ W / 2 := by
    refine (mul_le_mul_of_nonneg_left hsq (by positivity)).trans (le_of_eq ?_)
    field_simp
  linarith

/-- Displacements against the continuum. -/
lemma Compare.disp (h : Compare U b p G v r o d τ ε) :
    avg (fun x => (U p x - v x) ^ 2) ≤ 3 * (max sx sy / π * avg (fun x => (p x - G x) * (U p x - U G x))) + 3 * ((max sx sy / π) ^ 2 * ε ^ 2) + 3 * ε ^ 2 := by
  have : Nonempty (Fin nx × Fin ny) := ⟨(⟨0, Nat.pos_of_ne_zero (NeZero.ne nx)⟩, ⟨0, Nat.pos_of_ne_zero (NeZero.ne ny)⟩)⟩
  have hsq := (avg_bounds hU p G).2
  have hr := square_r hU hsx h.r_small
  have ef : ∀ x, U p x - U G x = U (fun y => p y - G y) x := fun x => congrFun (U_sub hU.recip p G) x
  have hpt : ∀ x, (U p x - v x) ^ 2 ≤ 3 * (U p x - U G x) ^ 2 + 3 * U r x ^ 2 + 3 * ε ^ 2 := by
    intro x
    rw [Compare.split (G := G) (r := r) hU.recip x, ef]
    have h3 := pow_le_pow_left₀ (abs_nonneg _) (h.near x) 2
    rw [sq_abs] at h3
    set a := U (fun y => p y - G y) x
    set c := U r x
    set e := U (fun y => G y - r y) x - v x
    nlinarith [sq_nonneg (a - c), sq_nonneg (a - e), sq_nonneg (c - e)]
  have h1 := avg_mono hpt
  rw [avg_add, avg_add, avg_const_mul, avg_const_mul] at h1
  have h2 : avg (fun _ : Fin nx × Fin ny => 3 * ε ^ 2) ≤ 3 * ε ^ 2 := avg_const_le fun _ => le_rfl
  linarith

omit hU hsx in
/-- The offset is not much above that of the continuous solution. -/
lemma Compare.offset_up (h : Compare U b p G v r o d τ ε) {M s : ℝ} (hM : ∀ x, G x ≤ M) (hs : 0 < s) :
    (o - d) * avg G ≤ τ * avg G + M * (s / 2 + 1 / (2 * s) * avg (fun x => (U p x - v x) ^ 2)) := by
  have : Nonempty (Fin nx × Fin ny) := ⟨(⟨0, Nat.pos_of_ne_zero (NeZero.ne nx)⟩, ⟨0, Nat.pos_of_ne_zero (NeZero.ne ny)⟩)⟩
  have hM0 : 0 ≤ M := (h.G_nonneg (Classical.arbitrary _)).trans (hM _)
  have hpt : ∀ x, (o - d) * G x ≤ τ * G x + (M * (s / 2) + M * (1 / (2 * s)) * (U p x - v x) ^ 2) := by
    intro x
    have hG := h.G_nonneg x
    have k2 := mul_le_mul_of_nonneg_right (h.penetration x) hG
    have k3 : G x * (v x - (b x + d)) = 0 := by
      by_cases h0 : G x = 0
      · simp [h0]
      · rw [h.ctouch x h0, sub_self, mul_zero]
    have k4 : G x * (U p x - v x) ≤ M * (s / 2) + M * (1 / (2 * s)) * (U p x - v x) ^ 2 := by
      have h1 : U p x - v x ≤ s / 2 + 1 / (2 * s) * (U p x - v x) ^ 2 := by
        have := young (a := 1) (b := U p x - v x) hs
        refine le_trans (le_of_eq (by ring)) (this.trans (le_of_eq (by ring)))
      have h2 : 0 ≤ s / 2 + 1 / (2 * s) * (U p x - v x) ^ 2 := by positivity
      calc G x * (U p x - v x) ≤ G x * (s / 2 + 1 / (2 * s) * (U p x - v x) ^ 2) := mul_le_mul_of_nonneg_left h1 hG
        _ ≤ M * (s / 2 + 1 / (2 * s) * (U p x - v x) ^ 2) := mul_le_mul_of_nonneg_right (hM x) h2
        _ = _ := by ring
    linarith
  have h1 := avg_mono hpt
  rw [avg_const_mul, avg_add, avg_add, avg_const_eq, avg_const_mul, avg_const_mul] at h1
  linarith

omit hsx in
/-- The offset is not much below that of the continuous solution. -/
lemma Compare.offset_down (h : Compare U b p G v r o d τ ε) {M V s : ℝ} (hM : ∀ x, G x ≤ M) (hV : ∀ x, |v x| ≤ V) (hs : 0 < s) :
    (d - o) * avg p ≤ (τ + ε) * avg p + M * (s / 2 + 1 / (2 * s) * avg (fun x => (U p x - U G x) ^ 2)) + ε * (1 + 2 * avg (fun x => (U p x - v x) ^ 2) + 2 * V ^ 2) := by
  have : Nonempty (Fin nx × Fin ny) := ⟨(⟨0, Nat.pos_of_ne_zero (NeZero.ne nx)⟩, ⟨0, Nat.pos_of_ne_zero (NeZero.ne ny)⟩)⟩
  have hM0 : 0 ≤ M := (h.G_nonneg (Classical.arbitrary _)).trans (hM _)
  have hε : 0 ≤ ε := (abs_nonneg _).trans (h.r_small (Classical.arbitrary _))
  have hW := work_nonneg hU.recip hU.pos p G
  have hpt : ∀ x, (d - o) * p x ≤ (τ + ε) * p x + (M * (s / 2) + M * (1 / (2 * s)) * (U p x - U G x) ^ 2) + (-1) * ((p x - G x) * (U p x - U G x)) + (-1) * (p x * U r x) := by
    intro x
    have hG := h.G_nonneg x
    have hp := h.p_nonneg x
    have e2 := congrFun (U_sub hU.recip G r) x
    have hn := abs_le.1 (h.near x)
    rw [← e2] at hn
    have k1 : p x * (U p x - (b x + o)) ≤ τ * p x := by
      by_cases h0 : p x = 0
      · simp [h0]
      · rw [mul_comm]; exact mul_le_mul_of_nonneg_right (h.gap x h0) hp
    have k4 : 0 ≤ p x * (v x - (b x + d)) := mul_nonneg hp (by linarith [h.cpen x])
    have k5 : p x * (U G x - U r x - v x) ≥ -(ε * p x) := by nlinarith
    have k6 : -(G x * (U p x - U G x)) ≤ M * (s / 2) + M * (1 / (2 * s)) * (U p x - U G x) ^ 2 := by
      have h1 : -(U p x - U G x) ≤ s / 2 + 1 / (2 * s) * (U p x - U G x) ^ 2 := by
        have := young (a := 1) (b := -(U p x - U G x)) hs
        refine le_trans (le_of_eq (by ring)) (this.trans (le_of_eq (by ring)))
      have h2 : 0 ≤ s / 2 + 1 / (2 * s) * (U p x - U G x) ^ 2 := by positivity
      calc -(G x * (U p x - U G x)) = G x * -(U p x - U G x) := by ring
        _ ≤ G x * (s / 2 + 1 / (2 * s) * (U p x - U G x) ^ 2) := mul_le_mul_of_nonneg_left h1 hG
        _ ≤ M * (s / 2 + 1 / (2 * s) * (U p x - U G x) ^ 2) := mul_le_mul_of_nonneg_right (hM x) h2
        _ = _ := by ring
    nlinarith
  have h1 := avg_mono hpt
  rw [avg_const_mul, avg_add, avg_add, avg_add, avg_add, avg_const_eq, avg_const_mul, avg_const_mul, avg_const_mul, avg_const_mul, avg_swap hU.recip p r] at h1
  have h3 : -avg (fun x => r x * U p x) ≤ ε * (1 + 2 * avg (fun x => (U p x - v x) ^ 2) + 2 * V ^ 2) := by
    have hq : ∀ x, (-1) * (r x * U p x) ≤ ε * (1 + 2 * V ^ 2) + ε * 2 * (U p x - v x) ^ 2 := by
      intro x
      have a1 : |U p x| ≤ 1 + 2 * V ^ 2 + 2 * (U p x - v x) ^ 2 := by
        have hv := pow_le_pow_left₀ (abs_nonneg _) (hV x) 2
        rw [sq_abs] at hv
        rw [abs_le]
        constructor <;> nlinarith [sq_nonneg (U p x - 1), sq_nonneg (U p x + 1), sq_nonneg (U p x - v x - v x)]
      calc (-1) * (r x * U p x) ≤ |r x * U p x| := by linarith [neg_abs_le (r x * U p x)]
        _ = |r x| * |U p x| := abs_mul _ _
        _ ≤ ε * (1 + 2 * V ^ 2 + 2 * (U p x - v x) ^ 2) := mul_le_mul (h.r_small x) a1 (abs_nonneg _) hε
        _ = _ := by ring
    have := avg_mono hq
    rw [avg_const_mul, avg_add, avg_const_eq, avg_const_mul] at this
    linarith
  linarith
end

end CM.Disc
