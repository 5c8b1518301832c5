import Verif.Spec.ContactProblem
import Mathlib.Analysis.Normed.Lp.PiLp
import Mathlib.Topology.Order.Compact
import Mathlib.Analysis.Normed.Module.FiniteDimension
/-!
# The contact problem for an abstract substrate
-/
set_option linter.unusedSimpArgs false
namespace CM.Spec
open Finset

variable {ι : Type} [Fintype ι] {U : (ι → ℝ) → (ι → ℝ)}

/-- Linear and reciprocal. -/
structure Reciprocal (U : (ι → ℝ) → (ι → ℝ)) : Prop where
  lin : ∀ (c d : ℝ) (f g : ι → ℝ), U (fun j => c * f j + d * g j) = fun i => c * U f i + d * U g i
  symm : ∀ f g, dot f (U g) = dot g (U f)

lemma dot_lin (c d : ℝ) (f g h : ι → ℝ) : dot (fun j => c * f j + d * g j) h = c * dot f h + d * dot g h := by
  simp only [dot, mul_sum, ← sum_add_distrib]; exact sum_congr rfl fun i _ => by ring

lemma dot_lin' (c d : ℝ) (f g h : ι → ℝ) : dot h (fun j => c * f j + d * g j) = c * dot h f + d * dot h g := by
  simp only [dot, mul_sum, ← sum_add_distrib]; exact sum_congr rfl fun i _ => by ring

/-- Two states of the same substrate: how different they can be. -/
lemma two_states {b p q : ι → ℝ} {o₁ o₂ δ₁ δ₂ : ℝ} (hp : ∀ i, 0 ≤ p i) (hq : ∀ i, 0 ≤ q i)
    (h₁ : ∀ i, b i + o₁ - U p i ≤ δ₁) (h₂ : ∀ i, b i + o₂ - U q i ≤ δ₂) :
    dot (fun i => p i - q i) (fun i => U p i - U q i) ≤
      (o₁ - o₂) * (∑ i, p i - ∑ i, q i) + ∑ i, p i * max 0 (U p i - (b i + o₁)) + ∑ i, q i * max 0 (U q i - (b i + o₂))
        + δ₂ * ∑ i, p i + δ₁ * ∑ i, q i := by
  unfold dot
  rw [← sum_sub_distrib, mul_sum, mul_sum, mul_sum, ← sum_add_distrib, ← sum_add_distrib, ← sum_add_distrib, ← sum_add_distrib]
  refine sum_le_sum fun i _ => ?_
  have e : (p i - q i) * (U p i - U q i) = (o₁ - o₂) * (p i - q i) + p i * (U p i - (b i + o₁)) + q i * (U q i - (b i + o₂))
      + p i * (b i + o₂ - U q i) + q i * (b i + o₁ - U p i) := by ring
  rw [e]
  have a1 := mul_le_mul_of_nonneg_left (le_max_right 0 (U p i - (b i + o₁))) (hp i)
  have a2 := mul_le_mul_of_nonneg_left (le_max_right 0 (U q i - (b i + o₂))) (hq i)
  have a3 := mul_le_mul_of_nonneg_left (h₂ i) (hp i)
  have a4 := mul_le_mul_of_nonneg_left (h₁ i) (hq i)
  linarith

lemma touching_zero {b p : ι → ℝ} (h : HardWall U b p) : ∑ i, p i * max 0 (U p i - b i) = 0 := by
  refine sum_eq_zero fun i _ => ?_
  by_cases hi : p i = 0
  · rw [hi, zero_mul]
  · rw [h.touching i hi]; simp

/-! ## Existence -/

/-- Non-negative pressures that are not all zero do positive work. -/
def Copositive (U : (ι → ℝ) → (ι → ℝ)) : Prop := ∀ p : ι → ℝ, (∀ i, 0 ≤ p i) → (∃ i, p i ≠ 0) → 0 < dot p (U p)

lemma U_cont (hU : Reciprocal U) : Continuous U := by
  let L : (ι → ℝ) →ₗ[ℝ] (ι → ℝ) :=
    { toFun := U
      map_add' := fun f g => by have := hU.lin 1 1 f g; simp only [one_mul] at this; exact this
      map_smul' := fun c f => by have := hU.lin c 0 f f; simp only [zero_mul, add_zero] at this; exact this }
  exact L.continuous_of_finiteDimensional

lemma dot_cont {X : Type} [TopologicalSpace X] {f g : X → ι → ℝ} (hf : Continuous f) (hg : Continuous g) : Continuous fun x => dot (f x) (g x) := by
  unfold dot
  exact continuous_finsetSum _ fun i _ => ((continuous_apply i).comp hf).mul ((continuous_apply i).comp hg)

/-- The unit simplex of non-negative pressures with sum `F`. -/
def simplex (ι : Type) [Fintype ι] (F : ℝ) : Set (ι → ℝ) := {p | (∀ i, 0 ≤ p i) ∧ ∑ i, p i = F}

lemma simplex_compact (F : ℝ) : IsCompact (simplex ι F) := by
  have hcl : IsClosed (simplex ι F) := by
    have : simplex ι F = (⋂ i, {p | 0 ≤ p i}) ∩ {p | ∑ i, p i = F} := by
      ext p; simp [simplex]
    rw [this]
    refine (isClosed_iInter fun i => isClosed_le continuous_const (continuous_apply i)).inter ?_
    exact isClosed_eq (continuous_finsetSum _ fun i _ => continuous_apply i) continuous_const
  refine (isCompact_univ_pi (fun _ : ι => isCompact_Icc (a := (0 : ℝ)) (b := F))).of_isClosed_subset hcl ?_
  intro p hp i _
  refine ⟨hp.1 i, ?_⟩
  rw [← hp.2]
  exact single_le_sum (fun j _ => hp.1 j) (mem_univ i)

/-- Complementary energy. -/
noncomputable def energy (U : (ι → ℝ) → (ι → ℝ)) (b p : ι → ℝ) : ℝ := dot p (U p) / 2 - dot p b

lemma energy_move (hU : Reciprocal U) (b p d : ι → ℝ) (t : ℝ) :
    energy U b (fun i => 1 * p i + t * d i) = energy U b p + t * dot d (fun i => U p i - b i) + t ^ 2 * (dot d (U d) / 2) := by
  unfold energy
  rw [hU.lin, dot_lin, dot_lin, dot_lin', dot_lin', hU.symm p d]
  have : dot d (fun i => U p i - b i) = dot d (U p) - dot d b := by
    simp only [dot, mul_sub, sum_sub_distrib]
  rw [this]; ring

/-- The slope of the energy into a feasible direction is not negative at a minimum. -/
lemma slope_nonneg (hU : Reciprocal U) {b p d : ι → ℝ} {s : ℝ} (hs : 0 < s)
    (hmin : ∀ t, 0 < t → t ≤ s → energy U b p ≤ energy U b (fun i => 1 * p i + t * d i)) : 0 ≤ dot d (fun i => U p i - b i) := by
  by_contra hneg
  push Not at hneg
  set a := dot d (fun i => U p i - b i) with ha
  set c := |dot d (U d) / 2| + 1 with hc
  have hc0 : 0 < c := by positivity
  set t := min s (-a / (2 * c)) with ht
  have ht0 : 0 < t := lt_min hs (div_pos (neg_pos.2 hneg) (by positivity))
  have h1 := hmin t ht0 (min_le_left _ _)
  rw [energy_move hU, ← ha] at h1
  have h2 : t ≤ -a / (2 * c) := min_le_right _ _
  rw [le_div_iff₀ (by positivity)] at h2
  have h3 : dot d (U d) / 2 ≤ c := by have := le_abs_self (dot d (U d) / 2); linarith
  have h4 : 0 ≤ t * a + t * (t * c) := by nlinarith [mul_le_mul_of_nonneg_left h3 (sq_nonneg t)]
  have h5 : 0 ≤ a + t * c := by
    by_contra h; push Not at h
    nlinarith [mul_pos ht0 (neg_pos.2 h)]
  linarith

/-- The contact problem at a given offset is solvable. -/
theorem hardWall_exists [DecidableEq ι] (hU : Reciprocal U) (hpos : Copositive U) (b : ι → ℝ) : ∃ p, HardWall U b p := by
  classical
  rcases isEmpty_or_nonempty ι with hι | hι
  · exact ⟨0, ⟨fun i => (hι.false i).elim, fun i => (hι.false i).elim, fun i => (hι.false i).elim⟩⟩
  -- smallest work on the unit simplex
  obtain ⟨p0, hp0, hmin0⟩ : ∃ p0 ∈ simplex ι 1, IsMinOn (fun p => dot p (U p)) (simplex ι 1) p0 :=
    (simplex_compact 1).exists_isMinOn
      ⟨Pi.single (Classical.arbitrary ι) 1, fun i => by by_cases h : i = Classical.arbitrary ι <;> simp [Pi.single_apply, h], by simp⟩
      (dot_cont continuous_id (U_cont hU)).continuousOn
  set c := dot p0 (U p0) with hc
  have hc0 : 0 < c := hpos p0 hp0.1 (by
    by_contra h; push Not at h
    have := hp0.2
    simp [h] at this)
  have hwork : ∀ p : ι → ℝ, (∀ i, 0 ≤ p i) → c * (∑ i, p i) ^ 2 ≤ dot p (U p) := by
    intro p hp
    rcases (sum_nonneg fun i _ => hp i : 0 ≤ ∑ i, p i).eq_or_lt with h0 | h0
    · have hz : ∀ i, p i = 0 := fun i => (sum_eq_zero_iff_of_nonneg fun i _ => hp i).1 h0.symm i (mem_univ i)
      have : dot p (U p) = 0 := by simp [dot, hz]
      rw [← h0, this]; simp
    · set F := ∑ i, p i
      have hm : (fun i => F⁻¹ * p i + 0 * p i) ∈ simplex ι 1 := by
        refine ⟨fun i => by have := hp i; positivity, ?_⟩
        simp only [zero_mul, add_zero, ← mul_sum]
        exact inv_mul_cancel₀ h0.ne'
      have h1 : c ≤ dot (fun i => F⁻¹ * p i + 0 * p i) (U fun i => F⁻¹ * p i + 0 * p i) := hmin0 hm
      rw [hU.lin, dot_lin, dot_lin'] at h1
      have h2 : c ≤ F⁻¹ ^ 2 * dot p (U p) := by linarith
      calc c * F ^ 2 ≤ F⁻¹ ^ 2 * dot p (U p) * F ^ 2 := by gcongr
        _ = dot p (U p) := by field_simp
  -- the energy is smallest somewhere
  set B := ∑ i, |b i| with hB
  have hB0 : 0 ≤ B := sum_nonneg fun i _ => abs_nonneg _
  have hb : ∀ p : ι → ℝ, (∀ i, 0 ≤ p i) → dot p b ≤ B * ∑ i, p i := by
    intro p hp
    unfold dot
    rw [mul_sum]
    refine sum_le_sum fun i _ => ?_
    have h1 : b i ≤ B := (le_abs_self _).trans (single_le_sum (f := fun i => |b i|) (fun j _ => abs_nonneg _) (mem_univ i))
    rw [mul_comm]
    exact mul_le_mul_of_nonneg_right h1 (hp i)
  set R := 2 * B / c + 1 with hR
  have hR0 : 0 < R := by positivity
  set S : Set (ι → ℝ) := ⋃ F ∈ Set.Icc (0 : ℝ) R, simplex ι F with hS
  have hScomp : IsCompact S := by
    have hcl : IsClosed S := by
      have : S = (⋂ i, {p | 0 ≤ p i}) ∩ {p | ∑ i, p i ≤ R} := by
        ext p
        simp only [hS, simplex, Set.mem_iUnion, Set.mem_ofPred_eq, Set.mem_inter_iff, Set.mem_iInter, Set.mem_Icc, exists_prop]
        constructor
        · rintro ⟨F, hF, h1, h2⟩; exact ⟨h1, h2 ▸ hF.2⟩
        · rintro ⟨h1, h2⟩; exact ⟨∑ i, p i, ⟨sum_nonneg fun i _ => h1 i, h2⟩, h1, rfl⟩
      rw [this]
      exact (isClosed_iInter fun i => isClosed_le continuous_const (continuous_apply i)).inter
        (isClosed_le (continuous_finsetSum _ fun i _ => continuous_apply i) continuous_const)
    refine (isCompact_univ_pi (fun _ : ι => isCompact_Icc (a := (0 : ℝ)) (b := R))).of_isClosed_subset hcl ?_
    intro p hp i _
    simp only [hS, simplex, Set.mem_iUnion, Set.mem_ofPred_eq, Set.mem_Icc, exists_prop] at hp
    obtain ⟨F, hF, h1, h2⟩ := hp
    exact ⟨h1 i, (single_le_sum (fun j _ => h1 j) (mem_univ i)).trans (h2 ▸ hF.2)⟩
  have hmemS : ∀ p : ι → ℝ, p ∈ S ↔ (∀ i, 0 ≤ p i) ∧ ∑ i, p i ≤ R := by
    intro p
    simp only [hS, simplex, Set.mem_iUnion, Set.mem_ofPred_eq, Set.mem_Icc, exists_prop]
    constructor
    · rintro ⟨F, hF, h1, h2⟩; exact ⟨h1, h2 ▸ hF.2⟩
    · rintro ⟨h1, h2⟩; exact ⟨∑ i, p i, ⟨sum_nonneg fun i _ => h1 i, h2⟩, h1, rfl⟩
  have hcont : Continuous (energy U b) :=
    ((dot_cont continuous_id (U_cont hU)).div_const 2).sub (dot_cont continuous_id continuous_const)
  have h0S : (0 : ι → ℝ) ∈ S := (hmemS 0).2 ⟨fun i => le_rfl, by simpa using hR0.le⟩
  obtain ⟨p, hpS, hminS⟩ := hScomp.exists_isMinOn ⟨0, h0S⟩ hcont.continuousOn
  have hE0 : energy U b 0 = 0 := by simp [energy, dot]
  have hp := ((hmemS p).1 hpS).1
  have hglob : ∀ q : ι → ℝ, (∀ i, 0 ≤ q i) → energy U b p ≤ energy U b q := by
    intro q hq
    by_cases h : ∑ i, q i ≤ R
    · exact hminS ((hmemS q).2 ⟨hq, h⟩)
    · push Not at h
      have h1 : energy U b p ≤ 0 := hE0 ▸ hminS h0S
      have h2 := hwork q hq
      have h3 := hb q hq
      refine h1.trans ?_
      unfold energy
      have h4 : 2 * B ≤ c * ∑ i, q i := by
        have : 2 * B / c ≤ ∑ i, q i := by linarith
        rw [div_le_iff₀ hc0] at this
        linarith
      nlinarith [mul_le_mul_of_nonneg_right h4 (hR0.le.trans h.le)]
  refine ⟨p, hp, fun i => ?_, fun i hi => ?_⟩
  · have := slope_nonneg hU (b := b) (p := p) (d := Pi.single i 1) one_pos (fun t ht _ => hglob _ fun j => by
      by_cases h : j = i
      · subst h; simp; have := hp j; positivity
      · simp [Pi.single_apply, h, hp j])
    have e : dot (Pi.single i 1) (fun i => U p i - b i) = U p i - b i := by simp [dot, Pi.single_apply]
    rw [e] at this; linarith
  · have hpi : 0 < p i := lt_of_le_of_ne (hp i) (Ne.symm hi)
    have h1 := slope_nonneg hU (b := b) (p := p) (d := Pi.single i 1) one_pos (fun t ht _ => hglob _ fun j => by
      by_cases h : j = i
      · subst h; simp; have := hp j; positivity
      · simp [Pi.single_apply, h, hp j])
    have h2 := slope_nonneg hU (b := b) (p := p) (d := Pi.single i (-1)) hpi (fun t ht ht' => hglob _ fun j => by
      by_cases h : j = i
      · subst h; simp; exact ht'
      · simp [Pi.single_apply, h, hp j])
    have e : ∀ x : ℝ, dot (Pi.single i x) (fun i => U p i - b i) = x * (U p i - b i) := by intro x; simp [dot, Pi.single_apply]
    rw [e] at h1 h2; linarith

/-- The contact problem under a given load is solvable: there is an offset of the rigid surface at which the load is carried. -/
theorem hardWall_load_exists [DecidableEq ι] [Nonempty ι] (hU : Reciprocal U) (h : ι → ℝ) {F : ℝ} (hF : 0 < F) :
    ∃ o p, HardWall U (fun i => h i + o) p ∧ ∑ i, p i = F := by
  classical
  have hcont : Continuous (energy U h) :=
    ((dot_cont continuous_id (U_cont hU)).div_const 2).sub (dot_cont continuous_id continuous_const)
  obtain ⟨p, hpS, hminS⟩ := (simplex_compact (ι := ι) F).exists_isMinOn
    ⟨Pi.single (Classical.arbitrary ι) F, fun i => by by_cases h : i = Classical.arbitrary ι <;> simp [Pi.single_apply, h, hF.le], by simp⟩
    hcont.continuousOn
  obtain ⟨k, -, hk⟩ := exists_min_image univ (fun i => U p i - h i) univ_nonempty
  refine ⟨U p k - h k, p, ⟨hpS.1, fun i => ?_, fun i hi => ?_⟩, hpS.2⟩
  · have := hk i (mem_univ i); linarith
  · rcases eq_or_ne i k with rfl | hne
    · ring
    have hpi : 0 < p i := lt_of_le_of_ne (hpS.1 i) (Ne.symm hi)
    have h2 := slope_nonneg hU (b := h) (p := p) (d := fun j => Pi.single (M := fun _ => ℝ) k 1 j - Pi.single (M := fun _ => ℝ) i 1 j) hpi (fun t ht ht' => hminS ⟨fun j => by
      by_cases h1 : j = i
      · subst h1; simp [Pi.single_apply, hne]; linarith
      · by_cases h2 : j = k
        · subst h2; simp [Pi.single_apply, h1]; have := hpS.1 j; linarith
        · simp [Pi.single_apply, h1, h2, hpS.1 j], by
      simp only [one_mul, sum_add_distrib, ← mul_sum, sum_sub_distrib]
      simp [hpS.2]⟩)
    have e : dot (fun j => Pi.single (M := fun _ => ℝ) k 1 j - Pi.single (M := fun _ => ℝ) i 1 j) (fun i => U p i - h i) = (U p k - h k) - (U p i - h i) := by
      simp [dot, Pi.single_apply, sub_mul, sum_sub_distrib]
    rw [e] at h2
    have := hk i (mem_univ i)
    linarith

/-! ## Uniqueness and monotonicity -/

/-- Every non-zero pressure field does positive work. -/
def PosDef (U : (ι → ℝ) → (ι → ℝ)) : Prop := ∀ f : ι → ℝ, (∃ i, f i ≠ 0) → 0 < dot f (U f)

lemma PosDef.copositive (h : PosDef U) : Copositive U := fun p _ hp => h p hp

lemma U_sub (hU : Reciprocal U) (p q : ι → ℝ) : (fun i => U p i - U q i) = U fun i => p i - q i := by
  have := hU.lin 1 (-1) p q
  simp only [one_mul, neg_mul, ← sub_eq_add_neg] at this
  exact this.symm

/-- Two exact solutions at two offsets. -/
lemma two_solutions {h p q : ι → ℝ} {o₁ o₂ : ℝ} (h₁ : HardWall U (fun i => h i + o₁) p) (h₂ : HardWall U (fun i => h i + o₂) q) :
    dot (fun i => p i - q i) (fun i => U p i - U q i) ≤ (o₁ - o₂) * (∑ i, p i - ∑ i, q i) := by
  have := two_states (U := U) (b := h) (o₁ := o₁) (o₂ := o₂) (δ₁ := 0) (δ₂ := 0) h₁.noTension h₂.noTension
    (fun i => by have := h₁.noPenetration i; linarith) (fun i => by have := h₂.noPenetration i; linarith)
  rw [touching_zero h₁, touching_zero h₂] at this
  linarith

lemma PosDef.eq_of_le (hU : Reciprocal U) (hpd : PosDef U) {p q : ι → ℝ} (h : dot (fun i => p i - q i) (fun i => U p i - U q i) ≤ 0) : p = q := by
  rw [U_sub hU] at h
  by_contra hne
  obtain ⟨i, hi⟩ := Function.ne_iff.1 hne
  exact absurd (hpd (fun i => p i - q i) ⟨i, sub_ne_zero.2 hi⟩) (not_lt.2 h)

theorem hardWall_unique (hU : Reciprocal U) (hpd : PosDef U) {b p q : ι → ℝ} (h₁ : HardWall U b p) (h₂ : HardWall U b q) : p = q := by
  refine hpd.eq_of_le hU ?_
  have e : (fun i => b i + 0) = b := by simp
  have := two_solutions (U := U) (h := b) (o₁ := 0) (o₂ := 0) (by rw [e]; exact h₁) (by rw [e]; exact h₂)
  simpa using this

theorem hardWall_load_unique (hU : Reciprocal U) (hpd : PosDef U) {h p q : ι → ℝ} {o₁ o₂ : ℝ} (h₁ : HardWall U (fun i => h i + o₁) p)
    (h₂ : HardWall U (fun i => h i + o₂) q) (hs : ∑ i, p i = ∑ i, q i) (hF : ∑ i, p i ≠ 0) : p = q ∧ o₁ = o₂ := by
  have hpq : p = q := hpd.eq_of_le hU (by have := two_solutions h₁ h₂; rw [hs] at this; simpa using this)
  refine ⟨hpq, ?_⟩
  obtain ⟨i, hi⟩ : ∃ i, p i ≠ 0 := by
    by_contra hc; push Not at hc; exact hF (by simp [hc])
  have a := h₁.touching i hi
  have b := h₂.touching i (hpq ▸ hi)
  rw [hpq] at a
  linarith

/-- If uniform pressures give uniform displacements, the total pressure is bounded by the work. -/
lemma work_mean (hU : Reciprocal U) (hpsd : ∀ f, 0 ≤ dot f (U f)) {κ : ℝ} (hκ : ∀ c : ℝ, U (fun _ => c) = fun _ => κ * c) (f : ι → ℝ) :
    κ * avg f ^ 2 ≤ avg fun i => f i * U f i := by
  rcases isEmpty_or_nonempty ι with hι | hι
  · simp [avg]
  have hN : (0 : ℝ) < Fintype.card ι := by exact_mod_cast Fintype.card_pos
  have h1 := hpsd (fun i => 1 * f i + (-avg f) * (1 : ℝ))
  have hd1 : ∀ g : ι → ℝ, dot (fun _ => (1 : ℝ)) g = ∑ i, g i := by intro g; simp [dot]
  rw [hU.lin 1 (-avg f) f (fun _ => 1), dot_lin 1 (-avg f) f (fun _ => 1), dot_lin', dot_lin', hU.symm f (fun _ => 1), hκ] at h1
  have h2 : dot (fun _ => (1 : ℝ)) (U f) = κ * ∑ i, f i := by
    rw [hU.symm, hκ]
    simp only [dot, mul_sum, mul_one]
    exact sum_congr rfl fun i _ => by ring
  have h3 : dot (fun _ : ι => (1 : ℝ)) (fun _ => κ * 1) = κ * Fintype.card ι := by simp [dot]; ring
  rw [h2, h3] at h1
  have hf : ∑ i, f i = avg f * Fintype.card ι := by unfold avg; field_simp
  have hw : avg (fun i => f i * U f i) = dot f (U f) / Fintype.card ι := rfl
  rw [hw, le_div_iff₀ hN]
  rw [hf] at h1
  nlinarith

end CM.Spec
