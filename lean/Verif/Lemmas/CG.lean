import Verif.Spec.Contact
import Mathlib.LinearAlgebra.FiniteDimensional.Lemmas
import Mathlib.LinearAlgebra.Dimension.Constructions
import Mathlib.Tactic.Linarith
import Mathlib.Tactic.FieldSimp
import Mathlib.Tactic.Ring
/-!
# Conjugate gradients over an ordered field: orthogonality and finite termination
-/
namespace CM.CG
open Finset CM.Spec

set_option linter.unusedSectionVars false
variable {ι K : Type} [Fintype ι] [Field K] [LinearOrder K] [IsStrictOrderedRing K]

lemma dot_comm (a b : ι → K) : dot a b = dot b a := by
  unfold dot; exact sum_congr rfl fun i _ => mul_comm _ _
lemma dot_add_left (a b c : ι → K) : dot (fun i => a i + b i) c = dot a c + dot b c := by
  unfold dot; rw [← sum_add_distrib]; exact sum_congr rfl fun i _ => by ring
lemma dot_smul_left (x : K) (a c : ι → K) : dot (fun i => x * a i) c = x * dot a c := by
  unfold dot; rw [mul_sum]; exact sum_congr rfl fun i _ => by ring
lemma dot_add_right (a b c : ι → K) : dot c (fun i => a i + b i) = dot c a + dot c b := by
  rw [dot_comm, dot_add_left, dot_comm a, dot_comm b]
lemma dot_smul_right (x : K) (a c : ι → K) : dot c (fun i => x * a i) = x * dot c a := by
  rw [dot_comm, dot_smul_left, dot_comm a]
lemma dot_self_pos {a : ι → K} (h : ∃ i, a i ≠ 0) : 0 < dot a a := by
  obtain ⟨i, hi⟩ := h
  unfold dot
  exact sum_pos' (fun j _ => mul_self_nonneg _) ⟨i, mem_univ _, mul_self_pos.mpr hi⟩
lemma dot_self_eq_zero {a : ι → K} (h : dot a a = 0) (i : ι) : a i = 0 := by
  by_contra hc
  exact (dot_self_pos ⟨i, hc⟩).ne' h

/-- `a` restricted to `c`. -/
def res (c : ι → Bool) (a : ι → K) : ι → K := fun i => if c i then a i else 0

lemma dot_res {c : ι → Bool} {a b : ι → K} (hb : ∀ i, c i = false → b i = 0) : dot (res c a) b = dot a b := by
  unfold dot res
  refine sum_congr rfl fun i _ => ?_
  cases h : c i
  · simp [hb i h]
  · simp

/-- The conjugate-gradient recurrence on the points `c`, for `n` steps. -/
structure Run (D : (ι → K) → ι → K) (c : ι → Bool) (n : ℕ) (r t : ℕ → ι → K) : Prop where
  suppr : ∀ k, k ≤ n → ∀ i, c i = false → r k i = 0
  suppt : ∀ k, k ≤ n → ∀ i, c i = false → t k i = 0
  start : ∀ i, t 0 i = r 0 i
  resid : ∀ k, k < n → ∃ τ, (0 < -dot (D (t k)) (t k) → τ = dot (r k) (t k) / -dot (D (t k)) (t k)) ∧
    ∀ i, r (k + 1) i = r k i + τ * res c (D (t k)) i
  dir : ∀ k, k < n → 0 < dot (r k) (r k) → 0 < -dot (D (t k)) (t k) → ∀ i,
    t (k + 1) i = r (k + 1) i + dot (r (k + 1)) (r (k + 1)) / dot (r k) (r k) * t k i

variable {D : (ι → K) → ι → K} {c : ι → Bool} {n : ℕ} {r t : ℕ → ι → K}

theorem Run.orth (hD : ElasticOn c D) (h : Run D c n r t) : ∀ k, k ≤ n → (∀ i, i < k → 0 < dot (r i) (r i)) →
    (∀ j, j < k → dot (r k) (t j) = 0) ∧ (∀ j, j < k → dot (r k) (r j) = 0) ∧
    (∀ j, j < k → dot (t k) (D (t j)) = 0) ∧ dot (r k) (t k) = dot (r k) (r k) := by
  intro k
  induction k using Nat.strong_induction_on with
  | _ k ih =>
    intro hk hpos
    cases k with
    | zero =>
      refine ⟨fun j hj => absurd hj (by omega), fun j hj => absurd hj (by omega), fun j hj => absurd hj (by omega), ?_⟩
      rw [funext h.start]
    | succ k =>
      obtain ⟨i1, i2, i3, i4⟩ := ih k (by omega) (by omega) fun i hi => hpos i (by omega)
      have hG := hpos k (by omega)
      have hx : ∀ j, j ≤ k → 0 < -dot (D (t j)) (t j) := by
        intro j hj
        obtain ⟨-, -, -, j4⟩ := ih j (by omega) (by omega) fun i hi => hpos i (by omega)
        have hGj := hpos j (by omega)
        have : ∃ i, t j i ≠ 0 := by
          by_contra hc
          push Not at hc
          rw [show t j = fun _ => 0 from funext hc] at j4
          simp only [dot, mul_zero, sum_const_zero] at j4
          exact hGj.ne j4
        have := hD.posdef _ (h.suppt j (by omega)) this
        rw [dot_comm]; linarith
      -- residual recurrence with explicit step
      have hr : ∀ j, j ≤ k → ∃ τ, τ ≠ 0 ∧ τ * -dot (D (t j)) (t j) = dot (r j) (r j) ∧
          ∀ v : ι → K, (∀ i, c i = false → v i = 0) → dot (r (j + 1)) v = dot (r j) v + τ * dot (D (t j)) v := by
        intro j hj
        obtain ⟨-, -, -, j4⟩ := ih j (by omega) (by omega) fun i hi => hpos i (by omega)
        obtain ⟨τ, h1, h2⟩ := h.resid j (by omega)
        have hxj := hx j hj
        have e1 : τ * -dot (D (t j)) (t j) = dot (r j) (r j) := by
          rw [h1 hxj, div_mul_cancel₀ _ hxj.ne', j4]
        refine ⟨τ, ?_, e1, fun v hv => ?_⟩
        · rintro rfl
          rw [zero_mul] at e1
          exact (hpos j (by omega)).ne e1
        · rw [funext h2, dot_add_left, dot_smul_left, dot_res hv]
      obtain ⟨τ, hτ0, hτ, hrk⟩ := hr k le_rfl
      have a1 : ∀ j, j < k + 1 → dot (r (k + 1)) (t j) = 0 := by
        intro j hj
        rw [hrk _ (h.suppt j (by omega))]
        rcases Nat.lt_succ_iff_lt_or_eq.mp hj with hj | rfl
        · rw [i1 j hj, dot_comm, hD.symm _ _ (h.suppt j (by omega)) (h.suppt k (by omega)), i3 j hj]; ring
        · rw [i4]; linarith
      have a2 : ∀ j, j < k + 1 → dot (r (k + 1)) (r j) = 0 := by
        intro j hj
        cases j with
        | zero => rw [← funext h.start]; exact a1 0 hj
        | succ j =>
          have hd := h.dir j (by omega) (hpos j (by omega)) (hx j (by omega))
          have e : r (j + 1) = fun i => t (j + 1) i + (-(dot (r (j + 1)) (r (j + 1)) / dot (r j) (r j))) * t j i := by
            funext i; rw [hd]; ring
          conv_lhs => arg 2; rw [e]
          rw [dot_add_right, dot_smul_right, a1 _ hj, a1 _ (by omega)]; ring
      have hd := h.dir k (by omega) hG (hx k le_rfl)
      have a4 : dot (r (k + 1)) (t (k + 1)) = dot (r (k + 1)) (r (k + 1)) := by
        conv_lhs => rw [funext hd, dot_add_right, dot_smul_right, a1 k (by omega)]
        ring
      refine ⟨a1, a2, fun j hj => ?_, a4⟩
      rw [funext hd, dot_add_left, dot_smul_left]
      obtain ⟨σ, hσ0, hσ, hrj⟩ := hr j (by omega)
      have e := hrj (r (k + 1)) (h.suppr (k + 1) hk)
      rw [dot_comm (r (k + 1)) (D (t j))]
      rcases Nat.lt_succ_iff_lt_or_eq.mp hj with hj | rfl
      · rw [dot_comm, a2 _ (by omega), dot_comm, a2 _ (by omega)] at e
        have : dot (D (t j)) (r (k + 1)) = 0 := by
          have : σ * dot (D (t j)) (r (k + 1)) = 0 := by linarith
          exact (mul_eq_zero.mp this).resolve_left hσ0
        rw [this, i3 j hj]; ring
      · rw [dot_comm (r j) (r (j + 1)), a2 j (by omega), zero_add] at e
        rw [dot_comm (t j)]
        have hGj := hpos j (by omega)
        have e1 : dot (D (t j)) (r (j + 1)) = dot (r (j + 1)) (r (j + 1)) / σ := by
          rw [e]; field_simp
        have e2 : dot (D (t j)) (t j) = -(dot (r j) (r j) / σ) := by
          rw [← hσ]; field_simp
        rw [e1, e2]
        field_simp
        ring

/-- Within as many steps as there are points the residual has vanished. -/
theorem Run.terminates (hD : ElasticOn c D) (h : Run D c n r t) (hn : (univ.filter fun i => c i = true).card ≤ n) :
    ∃ k, k ≤ (univ.filter fun i => c i = true).card ∧ ∀ i, r k i = 0 := by
  classical
  set m := (univ.filter fun i => c i = true).card with hm
  by_contra hc
  push Not at hc
  have hpos : ∀ i, i ≤ m → 0 < dot (r i) (r i) := fun i hi => dot_self_pos (hc i hi)
  let v : Fin (m + 1) → ({i // c i = true} → K) := fun k i => r k i
  have hdot : ∀ a b : ι → K, (∀ i, c i = false → b i = 0) →
      ∑ i : {i // c i = true}, a i * b i = dot a b := by
    intro a b hb
    unfold dot
    rw [← Finset.sum_subtype (univ.filter fun i => c i = true) (by simp) (fun i => a i * b i)]
    rw [Finset.sum_filter]
    refine sum_congr rfl fun i _ => ?_
    split_ifs with h
    · rfl
    · rw [hb i (by simpa using h), mul_zero]
  have hli : LinearIndependent K v := by
    rw [Fintype.linearIndependent_iff]
    intro g hg k
    have h1 : ∑ l, g l * dot (r l) (r k) = 0 := by
      have := congrArg (fun w : {i // c i = true} → K => ∑ i, w i * r k i) hg
      simp only [Finset.sum_apply, Pi.smul_apply, smul_eq_mul, Pi.zero_apply, zero_mul, sum_const_zero, sum_mul] at this
      rw [Finset.sum_comm] at this
      rw [← this]
      refine sum_congr rfl fun l _ => ?_
      rw [← hdot _ _ (h.suppr k (by omega)), mul_sum]
      exact sum_congr rfl fun i _ => by simp only [v]; ring
    have horth : ∀ l, l ≠ k → dot (r l) (r k) = 0 := by
      intro l hl
      have hne : (l : ℕ) ≠ k := fun h => hl (Fin.ext h)
      rcases Nat.lt_or_gt_of_ne hne with hlt | hlt
      · rw [dot_comm]
        exact (h.orth hD k (by omega) fun i hi => hpos i (by omega)).2.1 l hlt
      · exact (h.orth hD l (by omega) fun i hi => hpos i (by omega)).2.1 k hlt
    rw [Finset.sum_eq_single k (fun l _ hl => by rw [horth l hl, mul_zero]) (by simp)] at h1
    exact (mul_eq_zero.mp h1).resolve_right (hpos k (by omega)).ne'
  have := hli.fintype_card_le_finrank
  rw [Module.finrank_fintype_fun_eq_card, Fintype.card_fin, Fintype.card_subtype] at this
  omega

end CM.CG
