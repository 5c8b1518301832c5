import Verif.Props.HardWall
import Verif.Props.Symmetry2
/-!
# The substrates of `contact_mechanics` in the contact problem
-/
namespace CM.Pipe
open Finset CM.HS CM.FFT CM.System CM.Spec CM.Fourier

variable {nx ny : ℕ} {sx sy : ℝ} {T : Topo}

/-! ## Nonperiodic -/

/-- The direct sum of Boussinesq's solutions. -/
noncomputable def freeSum (sx sy : ℝ) (nx ny : ℕ) (p : Fin nx × Fin ny → ℝ) : Fin nx × Fin ny → ℝ := fun x =>
  ∑ y : Fin nx × Fin ny, pixelGreens 1 (sx / nx) (sy / ny) (((x.1 : ℝ) - y.1) * (sx / nx)) (((x.2 : ℝ) - y.2) * (sy / ny)) * p y

lemma answer_free (hx : 0 < nx) (hy : 0 < ny) (h1 : 0 < sx) (h2 : 0 < sy) {s : HalfSpace} (hs : constructFree ⟨[nx, ny], 1, [sx, sy], none⟩ = .ok s) :
    answer ⟨s, true, false⟩ (sx * sy / (nx * ny)) nx ny = freeSum sx sy nx ny := by
  funext p x
  have hv : ValidFree ⟨[nx, ny], 1, [sx, sy], none⟩ := by constructor <;> simp [h1, h2]
  obtain ⟨u, hu, -, hu'⟩ := C19_free_direct_sum hv hs rfl (fieldArray nx ny fun y => -(p y * (sx * sy / (nx * ny)))) rfl
  have e : (Substrate.evaluateDisp ⟨s, true, false⟩ (fieldArray nx ny fun y => -(p y * (sx * sy / (nx * ny))))) = .ok u := hu
  unfold answer freeSum
  rw [e]
  show u.get [x.1, x.2] = _
  rw [hu' _ _ x.1.isLt x.2.isLt, directSum, Fintype.sum_prod_type, ← sum_neg_distrib,
    ← Fin.sum_univ_eq_sum_range (fun k => -∑ l ∈ range ny, pixelGreens 1 (sizeF ⟨[nx, ny], 1, [sx, sy], none⟩ 0 / nx) (sizeF ⟨[nx, ny], 1, [sx, sy], none⟩ 1 / ny)
      (((x.1 : ℝ) - k) * (sizeF ⟨[nx, ny], 1, [sx, sy], none⟩ 0 / nx)) (((x.2 : ℝ) - l) * (sizeF ⟨[nx, ny], 1, [sx, sy], none⟩ 1 / ny)) * _)]
  refine sum_congr rfl fun k _ => ?_
  rw [← sum_neg_distrib, ← Fin.sum_univ_eq_sum_range (fun l => -(pixelGreens 1 (sizeF ⟨[nx, ny], 1, [sx, sy], none⟩ 0 / nx) (sizeF ⟨[nx, ny], 1, [sx, sy], none⟩ 1 / ny)
      (((x.1 : ℝ) - k) * (sizeF ⟨[nx, ny], 1, [sx, sy], none⟩ 0 / nx)) (((x.2 : ℝ) - l) * (sizeF ⟨[nx, ny], 1, [sx, sy], none⟩ 1 / ny)) * _))]
  refine sum_congr rfl fun l _ => ?_
  rw [fieldArray_get _ k.isLt l.isLt]
  have e0 : sizeF ⟨[nx, ny], 1, [sx, sy], none⟩ 0 = sx := by simp [sizeF]
  have e1 : sizeF ⟨[nx, ny], 1, [sx, sy], none⟩ 1 = sy := by simp [sizeF]
  rw [e0, e1]
  have h3 : (0 : ℝ) < nx := by exact_mod_cast hx
  have h4 : (0 : ℝ) < ny := by exact_mod_cast hy
  rw [← mul_neg]
  congr 1
  field_simp

lemma freeSum_reciprocal : Reciprocal (freeSum sx sy nx ny) where
  lin c d f g := by
    funext x
    unfold freeSum
    rw [mul_sum, mul_sum, ← sum_add_distrib]
    exact sum_congr rfl fun y _ => by ring
  symm f g := by
    unfold dot freeSum
    simp only [mul_sum]
    rw [sum_comm]
    refine sum_congr rfl fun y _ => sum_congr rfl fun x _ => ?_
    rw [show ((x.1 : ℝ) - y.1) * (sx / nx) = -(((y.1 : ℝ) - x.1) * (sx / nx)) by ring,
      show ((x.2 : ℝ) - y.2) * (sy / ny) = -(((y.2 : ℝ) - x.2) * (sy / ny)) by ring, pixelGreens_neg_x, pixelGreens_neg_y]
    ring

lemma freeSum_copositive (hx : 0 < nx) (hy : 0 < ny) (h1 : 0 < sx) (h2 : 0 < sy) : Copositive (freeSum sx sy nx ny) := by
  intro p hp ⟨i, hi⟩
  have h3 : (0 : ℝ) < nx := by exact_mod_cast hx
  have h4 : (0 : ℝ) < ny := by exact_mod_cast hy
  have hG : ∀ x y : Fin nx × Fin ny, 0 < pixelGreens 1 (sx / nx) (sy / ny) (((x.1 : ℝ) - y.1) * (sx / nx)) (((x.2 : ℝ) - y.2) * (sy / ny)) := by
    intro x y
    have := pixelGreens_pos one_pos (div_pos h1 h3) (div_pos h2 h4) ((x.1 : ℤ) - y.1) ((x.2 : ℤ) - y.2)
    push_cast at this
    exact this
  have hpi : 0 < p i := lt_of_le_of_ne (hp i) (Ne.symm hi)
  unfold dot freeSum
  refine sum_pos' (fun x _ => mul_nonneg (hp x) (sum_nonneg fun y _ => mul_nonneg (hG x y).le (hp y))) ⟨i, mem_univ i, mul_pos hpi ?_⟩
  exact sum_pos' (fun y _ => mul_nonneg (hG i y).le (hp y)) ⟨i, mem_univ i, mul_pos (hG i i) hpi⟩

/-! ## Periodic -/

/-- What the contact problem needs to know about the periodic substrate. -/
structure PeriodicAnswer (U : (Fin nx × Fin ny → ℝ) → (Fin nx × Fin ny → ℝ)) (sx sy : ℝ) : Prop where
  recip : Reciprocal U
  pos : PosDef U
  uniform : ∀ c : ℝ, U (fun _ => c) = fun _ => 2 / (Real.pi * (1 / sx + 1 / sy)) * c
  bound : ∀ f, dot (U f) (U f) ≤ max sx sy / Real.pi * dot f (U f)

lemma freq_low {n : ℕ} {s : ℝ} (hs : 0 < s) {k : ℕ} (hk : k < n) (h0 : k ≠ 0) : 1 / s ≤ freq n s k := by
  unfold freq
  have hk1 : (1 : ℝ) ≤ k := by exact_mod_cast Nat.one_le_iff_ne_zero.2 h0
  have hk2 : (k : ℝ) + 1 ≤ n := by exact_mod_cast hk
  split_ifs
  · gcongr
  · gcongr; linarith

lemma answer_periodic (hx : 1 < nx) (hy : 1 < ny) (h1 : 0 < sx) (h2 : 0 < sy) {s : HalfSpace}
    (hs : construct ⟨[nx, ny], 1, [sx, sy], none, none, 0, none⟩ = .ok s) :
    PeriodicAnswer (answer ⟨s, false, false⟩ (sx * sy / (nx * ny)) nx ny) sx sy := by
  have hv : ValidArgs ⟨[nx, ny], 1, [sx, sy], none, none, 0, none⟩ := by constructor <;> simp [h1, h2]
  obtain ⟨_, _, P⟩ := per_of_construct hv hs rfl
  have h3 : (0 : ℝ) < nx := by exact_mod_cast (by omega : 0 < nx)
  have h4 : (0 : ℝ) < ny := by exact_mod_cast (by omega : 0 < ny)
  have hpi := Real.pi_pos
  have e0 : size ⟨[nx, ny], 1, [sx, sy], none, none, 0, none⟩ 0 = sx := by simp [size]
  have e1 : size ⟨[nx, ny], 1, [sx, sy], none, none, 0, none⟩ 1 = sy := by simp [size]
  have em : contactModulus ⟨[nx, ny], 1, [sx, sy], none, none, 0, none⟩ = 1 := by simp [contactModulus]
  have hS0 : P.S 0 = Real.pi * (1 / sx + 1 / sy) / 2 := by
    have : P.S 0 = gammaStiffness ⟨[nx, ny], 1, [sx, sy], none, none, 0, none⟩ := by simp [Per.S, fullStiff]
    rw [this]
    show (contactModulus ⟨[nx, ny], 1, [sx, sy], none, none, 0, none⟩ / 2 * (2 * Real.pi / size ⟨[nx, ny], 1, [sx, sy], none, none, 0, none⟩ 0)
        + contactModulus ⟨[nx, ny], 1, [sx, sy], none, none, 0, none⟩ / 2 * (2 * Real.pi / size ⟨[nx, ny], 1, [sx, sy], none, none, 0, none⟩ 1)) / 2 = _
    rw [e0, e1, em]; ring
  set m := max sx sy with hm
  have hm0 : 0 < m := lt_max_of_lt_left h1
  have i1 : 1 / m ≤ 1 / sx := one_div_le_one_div_of_le h1 (le_max_left _ _)
  have i2 : 1 / m ≤ 1 / sy := one_div_le_one_div_of_le h2 (le_max_right _ _)
  have hlow : ∀ k, Real.pi / m ≤ P.S k := by
    intro k
    by_cases hk : k = 0
    · rw [hk, hS0]
      have : Real.pi / m = Real.pi * (1 / m + 1 / m) / 2 := by ring
      rw [this]
      gcongr
    · have hk' : P.S k = Real.pi * freq2 nx ny sx sy k.1.val k.2.val := by
        unfold Per.S fullStiff
        rw [if_neg hk, e0, e1]
        unfold stiffnessOfFreq
        rw [P.mat, em]; ring
      rw [hk']
      have hf : 1 / m ≤ freq2 nx ny sx sy k.1.val k.2.val := by
        unfold freq2
        refine Real.le_sqrt_of_sq_le ?_
        have hor : k.1 ≠ 0 ∨ k.2 ≠ 0 := by
          by_contra hc; push Not at hc; exact hk (Prod.ext hc.1 hc.2)
        have hm1 : 0 < 1 / m := by positivity
        rcases hor with h | h
        · have a := freq_low h1 (ZMod.val_lt k.1) (by rwa [ne_eq, ZMod.val_eq_zero])
          nlinarith [mul_self_nonneg (freq ny sy k.2.val)]
        · have a := freq_low h2 (ZMod.val_lt k.2) (by rwa [ne_eq, ZMod.val_eq_zero])
          nlinarith [mul_self_nonneg (freq nx sx k.1.val)]
      calc Real.pi / m = Real.pi * (1 / m) := by ring
        _ ≤ _ := by gcongr
  have hS : ∀ k, 0 < P.S k := fun k => lt_of_lt_of_le (by positivity) (hlow k)
  have hA : s.areaPerPt = sx * sy / (nx * ny) := by rw [P.area, e0, e1]
  have hA0 : 0 < sx * sy / ((nx : ℝ) * ny) := by positivity
  set a := sx * sy / ((nx : ℝ) * ny) with ha
  set t : (Fin nx × Fin ny → ℝ) → ZMod nx × ZMod ny → ℝ := fun f p => f (⟨p.1.val, ZMod.val_lt _⟩, ⟨p.2.val, ZMod.val_lt _⟩) with ht
  have htc : ∀ (f : Fin nx × Fin ny → ℝ) (x : Fin nx × Fin ny), t f ((x.1.val : ZMod nx), (x.2.val : ZMod ny)) = f x := by
    intro f x
    simp only [ht]
    congr 1
    ext <;> simp [ZMod.val_cast_of_lt x.1.isLt, ZMod.val_cast_of_lt x.2.isLt]
  set U := answer ⟨s, false, false⟩ a nx ny with hUdef
  have key : ∀ f p, U f p = (pair2 nx ny).act (fun k => (((P.S k)⁻¹ : ℝ) : ℂ)) (t f) ((p.1.val : ZMod nx), (p.2.val : ZMod ny)) := by
    intro f p
    obtain ⟨u, hu, -, hu'⟩ := P.disp (f := fieldArray nx ny fun y => -(f y * a)) rfl
    have e : Substrate.evaluateDisp ⟨s, false, false⟩ (fieldArray nx ny fun y => -(f y * a)) = .ok u := hu
    rw [hUdef]
    unfold answer
    rw [e]
    show u.get [p.1, p.2] = _
    rw [hu']
    have e2 : (tor nx ny fun i j => (fieldArray nx ny fun y => -(f y * a)).get [i, j]) = fun p => (-a) * t f p + 0 * t f p := by
      funext q
      unfold tor
      beta_reduce
      rw [fieldArray_get _ (ZMod.val_lt q.1) (ZMod.val_lt q.2)]
      simp only [ht]; ring
    rw [e2, (pair2 nx ny).act_lin, hA]
    field_simp
    ring
  have hsum : ∀ F : ZMod nx × ZMod ny → ℝ, ∑ p : Fin nx × Fin ny, F ((p.1.val : ZMod nx), (p.2.val : ZMod ny)) = ∑ p, F p := sum_fin
  have hdot : ∀ f g, dot f (U g) = ∑ p, t f p * (pair2 nx ny).act (fun k => (((P.S k)⁻¹ : ℝ) : ℂ)) (t g) p := by
    intro f g
    unfold dot
    rw [← hsum]
    exact sum_congr rfl fun p _ => by rw [key, htc]
  have hodd : ∀ k, (P.S (-k))⁻¹ = (P.S k)⁻¹ := fun k => by rw [P.S_neg]
  have hc : (0 : ℝ) < (Fintype.card (ZMod nx × ZMod ny) : ℕ) := by exact_mod_cast Fintype.card_pos
  have hen : ∀ f, (Fintype.card (ZMod nx × ZMod ny) : ℝ) * dot f (U f) = ∑ k, (P.S k)⁻¹ * Complex.normSq ((pair2 nx ny).ft (fun y => (t f y : ℂ)) k) := by
    intro f
    rw [hdot]; exact (pair2 nx ny).energy (fun k => (P.S k)⁻¹) hodd (t f)
  refine ⟨⟨?_, ?_⟩, ?_, ?_, ?_⟩
  · intro c d f g
    funext x
    rw [key, key, key, ← (pair2 nx ny).act_lin]
  · intro f g
    rw [hdot, hdot, (pair2 nx ny).recip_of_even ((pair2 nx ny).ker_even (fun k => (P.S k)⁻¹))]
  · intro f ⟨i, hi⟩
    have hpos : 0 < ∑ k, (P.S k)⁻¹ * Complex.normSq ((pair2 nx ny).ft (fun y => (t f y : ℂ)) k) := by
      have hnn : ∀ k ∈ univ, 0 ≤ (P.S k)⁻¹ * Complex.normSq ((pair2 nx ny).ft (fun y => (t f y : ℂ)) k) :=
        fun k _ => mul_nonneg (inv_pos.mpr (hS k)).le (Complex.normSq_nonneg _)
      refine lt_of_le_of_ne (sum_nonneg hnn) (fun h0 => hi ?_)
      rw [eq_comm, sum_eq_zero_iff_of_nonneg hnn] at h0
      have hz : ∀ k, (pair2 nx ny).ft (fun y => (t f y : ℂ)) k = 0 := by
        intro k
        have := h0 k (mem_univ _)
        simpa [(hS k).ne'] using this
      have := ((pair2 nx ny).ft_eq_zero_iff _).mp hz ((i.1.val : ZMod nx), (i.2.val : ZMod ny))
      rw [htc] at this
      exact_mod_cast this
    rw [← hen] at hpos
    exact pos_of_mul_pos_right hpos hc.le
  · intro c
    funext x
    rw [key]
    have e : t (fun _ => c) = fun p => ((c : ℂ) * (pair2 nx ny).χ 0 p).re := by
      funext p; rw [(pair2 nx ny).zero]; simp [ht]
    rw [e, (pair2 nx ny).act_char (fun k => (P.S k)⁻¹) hodd 0 c, (pair2 nx ny).zero, hS0]
    simp
  · intro f
    have hH : Pairing.Herm (fun k => (((P.S k)⁻¹ : ℝ) : ℂ)) := fun k => by simp [P.S_neg]
    have e : dot (U f) (U f) = ∑ p, t f p * (pair2 nx ny).act (fun k => ((((P.S k)⁻¹ * (P.S k)⁻¹ : ℝ)) : ℂ)) (t f) p := by
      have e1 : dot (U f) (U f) = dot f (U (U f)) := by
        rw [hdot, hdot, (pair2 nx ny).recip_of_even ((pair2 nx ny).ker_even (fun k => (P.S k)⁻¹))]
      have e2 : t (U f) = (pair2 nx ny).act (fun k => (((P.S k)⁻¹ : ℝ) : ℂ)) (t f) := by
        funext p
        simp only [ht]
        rw [key]
        simp only [ZMod.natCast_val, ZMod.cast_id', id_eq]
        rfl
      rw [e1, hdot, e2]
      refine sum_congr rfl fun p _ => ?_
      rw [(pair2 nx ny).act_act hH]
      congr 1
      refine congrFun (congrFun (congrArg _ ?_) _) _
      funext k; push_cast; rfl
    have h5 : (Fintype.card (ZMod nx × ZMod ny) : ℝ) * dot (U f) (U f) ≤ (Fintype.card (ZMod nx × ZMod ny) : ℝ) * (m / Real.pi * dot f (U f)) := by
      rw [e, (pair2 nx ny).energy (fun k => (P.S k)⁻¹ * (P.S k)⁻¹) (fun k => by rw [hodd]), mul_left_comm, hen, mul_sum]
      refine sum_le_sum fun k _ => ?_
      rw [← mul_assoc]
      refine mul_le_mul_of_nonneg_right (mul_le_mul_of_nonneg_right ?_ (inv_pos.2 (hS k)).le) (Complex.normSq_nonneg _)
      rw [← inv_div]
      exact inv_anti₀ (by positivity) (hlow k)
    exact le_of_mul_le_mul_left h5 hc

end CM.Pipe
