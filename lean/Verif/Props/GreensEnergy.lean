import Verif.Props.Greens5
import Mathlib.Analysis.Calculus.Deriv.MeanValue
import Mathlib.LinearAlgebra.Vandermonde
/-!
# Elastic energy under a surface (C126, C137)
-/
namespace CM.Greens

open Matrix Filter

/-- The strain energy is positive: it vanishes only for deformations without strain. -/
def StrainEnergy (C : Fin 3 → Fin 3 → Fin 3 → Fin 3 → ℝ) : Prop :=
  ∀ a : Fin 3 → Fin 3 → ℝ, 0 ≤ ∑ i, ∑ j, ∑ k, ∑ l, C i j k l * a i j * a k l ∧ (∑ i, ∑ j, ∑ k, ∑ l, C i j k l * a i j * a k l = 0 → ∀ i j, a i j + a j i = 0)

lemma swap4 (F : Fin 3 → Fin 3 → Fin 3 → Fin 3 → Fin 3 → Fin 3 → Fin 3 → Fin 3 → ℝ) :
    ∑ i, ∑ j, ∑ k, ∑ l, ∑ g, ∑ h, ∑ m, ∑ n, F i j k l g h m n = ∑ g, ∑ h, ∑ m, ∑ n, ∑ i, ∑ j, ∑ k, ∑ l, F i j k l g h m n := by
  have := Finset.sum_comm (s := (Finset.univ : Finset (Fin 3 × Fin 3 × Fin 3 × Fin 3))) (t := (Finset.univ : Finset (Fin 3 × Fin 3 × Fin 3 × Fin 3)))
    (f := fun p q => F p.1 p.2.1 p.2.2.1 p.2.2.2 q.1 q.2.1 q.2.2.1 q.2.2.2)
  simpa only [Fintype.sum_prod_type] using this

lemma prod4 (u v : Fin 3 → Fin 3 → ℝ) : ∑ i, ∑ j, ∑ k, ∑ l, u i j * v k l = (∑ i, ∑ j, u i j) * ∑ k, ∑ l, v k l := by
  rw [Finset.sum_mul]
  refine Finset.sum_congr rfl fun i _ => ?_
  rw [Finset.sum_mul]
  refine Finset.sum_congr rfl fun j _ => ?_
  rw [Finset.mul_sum]
  exact Finset.sum_congr rfl fun k _ => by rw [Finset.mul_sum]

lemma cubic_form (k : Constants) (b : Fin 3 → Fin 3 → ℝ) : ∑ g, ∑ h, ∑ m, ∑ n, tensor (cubic k) g h m n * (b g h * b m n)
      = (k.c11 - k.c12) / 3 * ((b 0 0 - b 1 1) ^ 2 + (b 1 1 - b 2 2) ^ 2 + (b 0 0 - b 2 2) ^ 2) + (k.c11 + 2 * k.c12) / 3 * (b 0 0 + b 1 1 + b 2 2) ^ 2
        + k.c44 * ((b 0 1 + b 1 0) ^ 2 + (b 0 2 + b 2 0) ^ 2 + (b 1 2 + b 2 1) ^ 2) := by
  simp only [tensor_cubic, Fin.sum_univ_three]
  simp only [delta]
  simp
  ring

lemma cubic_positive (k : Constants) (hs : Stable k) (b : Fin 3 → Fin 3 → ℝ) :
    0 ≤ (k.c11 - k.c12) / 3 * ((b 0 0 - b 1 1) ^ 2 + (b 1 1 - b 2 2) ^ 2 + (b 0 0 - b 2 2) ^ 2) + (k.c11 + 2 * k.c12) / 3 * (b 0 0 + b 1 1 + b 2 2) ^ 2
        + k.c44 * ((b 0 1 + b 1 0) ^ 2 + (b 0 2 + b 2 0) ^ 2 + (b 1 2 + b 2 1) ^ 2)
    ∧ ((k.c11 - k.c12) / 3 * ((b 0 0 - b 1 1) ^ 2 + (b 1 1 - b 2 2) ^ 2 + (b 0 0 - b 2 2) ^ 2) + (k.c11 + 2 * k.c12) / 3 * (b 0 0 + b 1 1 + b 2 2) ^ 2
        + k.c44 * ((b 0 1 + b 1 0) ^ 2 + (b 0 2 + b 2 0) ^ 2 + (b 1 2 + b 2 1) ^ 2) = 0 → ∀ g h, b g h + b h g = 0) := by
  obtain ⟨h1, h2, h3⟩ := hs
  have hA : 0 < (k.c11 - k.c12) / 3 := by linarith
  have hB : 0 < (k.c11 + 2 * k.c12) / 3 := by linarith
  generalize (k.c11 - k.c12) / 3 = P at *
  generalize (k.c11 + 2 * k.c12) / 3 = Q at *
  refine ⟨by positivity, fun hz => ?_⟩
  have zero : ∀ x : ℝ, x ^ 2 ≤ 0 → x = 0 := fun x hx => pow_eq_zero_iff (n := 2) two_ne_zero |>.1 (le_antisymm hx (sq_nonneg x))
  have n1 := mul_nonneg hA.le (sq_nonneg (b 0 0 - b 1 1))
  have n2 := mul_nonneg hA.le (sq_nonneg (b 1 1 - b 2 2))
  have n3 := mul_nonneg hA.le (sq_nonneg (b 0 0 - b 2 2))
  have n4 := mul_nonneg hB.le (sq_nonneg (b 0 0 + b 1 1 + b 2 2))
  have n5 := mul_nonneg h1.le (sq_nonneg (b 0 1 + b 1 0))
  have n6 := mul_nonneg h1.le (sq_nonneg (b 0 2 + b 2 0))
  have n7 := mul_nonneg h1.le (sq_nonneg (b 1 2 + b 2 1))
  have van : ∀ c x : ℝ, 0 < c → c * x ^ 2 ≤ 0 → x = 0 := fun c x hc hx => zero x (by
    by_contra hn
    push Not at hn
    have := mul_pos hc hn
    linarith)
  have z1 := van _ _ hA (show P * (b 0 0 - b 1 1) ^ 2 ≤ 0 by linarith)
  have z2 := van _ _ hA (show P * (b 1 1 - b 2 2) ^ 2 ≤ 0 by linarith)
  have z4 := van _ _ hB (show Q * (b 0 0 + b 1 1 + b 2 2) ^ 2 ≤ 0 by linarith)
  have z5 := van _ _ h1 (show k.c44 * (b 0 1 + b 1 0) ^ 2 ≤ 0 by linarith)
  have z6 := van _ _ h1 (show k.c44 * (b 0 2 + b 2 0) ^ 2 ≤ 0 by linarith)
  have z7 := van _ _ h1 (show k.c44 * (b 1 2 + b 2 1) ^ 2 ≤ 0 by linarith)
  have hb : ∀ g h, b g h + b h g = 0 := by
    intro g h
    fin_cases g <;> fin_cases h <;> simp <;> linarith
  exact hb

/-- A stable cubic crystal has a positive strain energy in every orientation. -/
lemma stable_energy (k : Constants) (hk : k.ints = false) (hs : Stable k) (thickness : Option ℝ) (R : Fin 3 → Fin 3 → ℝ) (hR : Rotation R) (A : Aniso) (h : construct k thickness R = .ok A) :
    StrainEnergy (tensor A.C) := by
  have hT : ∀ i j m l, tensor A.C i j m l = rotated R (tensor (cubic k)) i j m l := C82_rotated k hk thickness R A h
  intro a
  let b : Fin 3 → Fin 3 → ℝ := fun g h => ∑ i, ∑ j, R i g * R j h * a i j
  have hform : ∑ i, ∑ j, ∑ m, ∑ l, tensor A.C i j m l * a i j * a m l = ∑ g, ∑ h, ∑ m, ∑ n, tensor (cubic k) g h m n * (b g h * b m n) := by
    have e1 : ∀ i j m l, tensor A.C i j m l * a i j * a m l = ∑ g, ∑ h, ∑ p, ∑ n, tensor (cubic k) g h p n * ((R i g * R j h * a i j) * (R m p * R l n * a m l)) := by
      intro i j m l
      rw [hT]
      unfold rotated
      simp only [Finset.sum_mul]
      exact Finset.sum_congr rfl fun g _ => Finset.sum_congr rfl fun h _ => Finset.sum_congr rfl fun p _ => Finset.sum_congr rfl fun n _ => by ring
    simp only [e1]
    rw [swap4]
    refine Finset.sum_congr rfl fun g _ => Finset.sum_congr rfl fun h _ => Finset.sum_congr rfl fun p _ => Finset.sum_congr rfl fun n _ => ?_
    rw [show b g h * b p n = (∑ i, ∑ j, R i g * R j h * a i j) * ∑ m, ∑ l, R m p * R l n * a m l from rfl, ← prod4]
    simp only [Finset.mul_sum]
  rw [hform, cubic_form]
  refine ⟨(cubic_positive k hs b).1, fun hz => ?_⟩
  have hb := (cubic_positive k hs b).2 hz
  -- back to the axes of the surface
  have back : ∀ i j, a i j = ∑ g, ∑ h, R i g * R j h * b g h := by
    intro i j
    have e : ∑ g, ∑ h, R i g * R j h * b g h = ∑ p, ∑ q, (∑ g, R i g * R p g) * (∑ h, R j h * R q h) * a p q := by
      have : ∀ g h, R i g * R j h * b g h = ∑ p, ∑ q, (R i g * R p g) * (R j h * R q h) * a p q := by
        intro g h
        simp only [b, Finset.mul_sum]
        exact Finset.sum_congr rfl fun p _ => Finset.sum_congr rfl fun q _ => by ring
      simp only [this, Finset.sum_mul, Finset.mul_sum]
      rw [Finset.sum_congr rfl fun g _ => Finset.sum_comm, Finset.sum_comm]
      refine Finset.sum_congr rfl fun p _ => ?_
      rw [Finset.sum_congr rfl fun g _ => Finset.sum_comm, Finset.sum_comm]
      exact Finset.sum_congr rfl fun q _ => Finset.sum_comm
    rw [e]
    simp only [hR.1]
    simp
  intro i j
  rw [back i j, back j i, Finset.sum_comm (f := fun g h => R j g * R i h * b g h), ← Finset.sum_add_distrib]
  refine Finset.sum_eq_zero fun g _ => ?_
  rw [← Finset.sum_add_distrib]
  refine Finset.sum_eq_zero fun h _ => ?_
  linear_combination R i g * R j h * hb g h

/-- Power that flows through a plane. -/
noncomputable def power (C : Fin 3 → Fin 3 → Fin 3 → Fin 3 → ℝ) (qx qy : ℝ) (w w' : ℝ → Fin 3 → ℂ) (z : ℝ) : ℝ :=
  (∑ i, (starRingEnd ℂ) (w z i) * Elastic.hooke C qx qy (w z) (w' z) i 2).re

/-- Energy density. -/
noncomputable def density (C : Fin 3 → Fin 3 → Fin 3 → Fin 3 → ℝ) (qx qy : ℝ) (w w' : Fin 3 → ℂ) : ℝ :=
  (∑ i, ∑ j, (starRingEnd ℂ) (Elastic.grad qx qy w w' j i) * Elastic.hooke C qx qy w w' i j).re

lemma power_deriv (C : Fin 3 → Fin 3 → Fin 3 → Fin 3 → ℝ) (qx qy : ℝ) (w w' w'' : ℝ → Fin 3 → ℂ) (hw : ∀ z i, HasDerivAt (fun z => w z i) (w' z i) z)
    (hw' : ∀ z i, HasDerivAt (fun z => w' z i) (w'' z i) z) (nw : ∀ z, Elastic.Cauchy C qx qy (w z) (w' z) (w'' z)) (z : ℝ) :
    HasDerivAt (power C qx qy w w') (density C qx qy (w z) (w' z)) z := by
  have dg : ∀ i, HasDerivAt (fun z => Elastic.hooke C qx qy (w z) (w' z) i 2) (Elastic.hooke C qx qy (w' z) (w'' z) i 2) z := by
    intro i
    unfold Elastic.hooke
    refine HasDerivAt.fun_sum fun k _ => HasDerivAt.fun_sum fun l _ => HasDerivAt.const_mul _ ?_
    fin_cases k
    · exact (hw z l).const_mul _
    · exact (hw z l).const_mul _
    · exact hw' z l
  have dcg : ∀ (f : ℝ → ℂ) (f' : ℂ) (z : ℝ), HasDerivAt f f' z → HasDerivAt (fun z => (starRingEnd ℂ) (f z)) ((starRingEnd ℂ) f') z := by
    intro f f' z h
    exact (Complex.conjCLE.hasFDerivAt (x := f z)).comp_hasDerivAt z h
  have dc : ∀ i, HasDerivAt (fun z => (starRingEnd ℂ) (w z i)) ((starRingEnd ℂ) (w' z i)) z := fun i => dcg _ _ _ (hw z i)
  have hs := HasDerivAt.fun_sum (u := Finset.univ) fun i (_ : i ∈ Finset.univ) => (dc i).mul (dg i)
  have hre := (Complex.reCLM.hasFDerivAt (x := ∑ i, (starRingEnd ℂ) (w z i) * Elastic.hooke C qx qy (w z) (w' z) i 2)).comp_hasDerivAt z hs
  refine (hre.congr_deriv ?_)
  unfold density
  simp only [Complex.reCLM_apply]
  congr 1
  refine Finset.sum_congr rfl fun i _ => ?_
  have e := nw z i
  rw [Fin.sum_univ_three]
  simp only [Elastic.grad, Matrix.cons_val_zero, Matrix.cons_val_one, Matrix.cons_val, map_mul, Complex.conj_I, Complex.conj_ofReal]
  linear_combination (starRingEnd ℂ) (w z i) * e

lemma density_split (C : Fin 3 → Fin 3 → Fin 3 → Fin 3 → ℝ) (h1 : ∀ i j k l, C i j k l = C j i k l) (qx qy : ℝ) (w w' : Fin 3 → ℂ) :
    density C qx qy w w' = ∑ i, ∑ j, ∑ k, ∑ l, C i j k l * (Elastic.grad qx qy w w' i j).re * (Elastic.grad qx qy w w' k l).re
      + ∑ i, ∑ j, ∑ k, ∑ l, C i j k l * (Elastic.grad qx qy w w' i j).im * (Elastic.grad qx qy w w' k l).im := by
  unfold density Elastic.hooke
  generalize Elastic.grad qx qy w w' = a
  rw [Finset.sum_comm]
  simp only [Complex.re_sum, ← Finset.sum_add_distrib, Finset.mul_sum]
  refine Finset.sum_congr rfl fun i _ => Finset.sum_congr rfl fun j _ => Finset.sum_congr rfl fun k _ => Finset.sum_congr rfl fun l _ => ?_
  simp [h1 j i k l]
  ring

lemma density_nonneg {C : Fin 3 → Fin 3 → Fin 3 → Fin 3 → ℝ} (h1 : ∀ i j k l, C i j k l = C j i k l) (hC : StrainEnergy C) (qx qy : ℝ) (w w' : Fin 3 → ℂ) :
    0 ≤ density C qx qy w w' ∧ (density C qx qy w w' = 0 → ∀ i j, Elastic.grad qx qy w w' i j + Elastic.grad qx qy w w' j i = 0) := by
  rw [density_split C h1]
  obtain ⟨p1, p2⟩ := hC fun i j => (Elastic.grad qx qy w w' i j).re
  obtain ⟨q1, q2⟩ := hC fun i j => (Elastic.grad qx qy w w' i j).im
  refine ⟨add_nonneg p1 q1, fun h i j => ?_⟩
  have := p2 (by linarith) i j
  have := q2 (by linarith) i j
  apply Complex.ext <;> simpa

/-- If no work is done on a slice of the solid, it does not move. -/
lemma still {C : Fin 3 → Fin 3 → Fin 3 → Fin 3 → ℝ} (h1 : ∀ i j k l, C i j k l = C j i k l) (hC : StrainEnergy C) (qx qy : ℝ) (hq : qx ≠ 0 ∨ qy ≠ 0) (w w' w'' : ℝ → Fin 3 → ℂ)
    (hw : ∀ z i, HasDerivAt (fun z => w z i) (w' z i) z) (hw' : ∀ z i, HasDerivAt (fun z => w' z i) (w'' z i) z) (nw : ∀ z, Elastic.Cauchy C qx qy (w z) (w' z) (w'' z)) (s t : ℝ)
    (hp : power C qx qy w w' t ≤ power C qx qy w w' s) : ∀ z ∈ Set.Ioo s t, w z = 0 := by
  have hd := power_deriv C qx qy w w' w'' hw hw' nw
  have hmono : Monotone (power C qx qy w w') := monotone_of_hasDerivAt_nonneg hd fun z => (density_nonneg h1 hC qx qy (w z) (w' z)).1
  have hconst : ∀ z ∈ Set.Ioo s t, power C qx qy w w' z = power C qx qy w w' s := fun z hz => le_antisymm ((hmono hz.2.le).trans hp) (hmono hz.1.le)
  have hden : ∀ z ∈ Set.Ioo s t, density C qx qy (w z) (w' z) = 0 := by
    intro z hz
    have e : power C qx qy w w' =ᶠ[nhds z] fun _ => power C qx qy w w' s := by
      filter_upwards [isOpen_Ioo.mem_nhds hz] with y hy using hconst y hy
    exact ((hd z).congr_of_eventuallyEq e.symm).unique (hasDerivAt_const z _)
  have hstr : ∀ z ∈ Set.Ioo s t, ∀ i j, Elastic.grad qx qy (w z) (w' z) i j + Elastic.grad qx qy (w z) (w' z) j i = 0 := fun z hz => (density_nonneg h1 hC qx qy (w z) (w' z)).2 (hden z hz)
  have h0 : ∀ z ∈ Set.Ioo s t, w z 0 = 0 ∧ w z 1 = 0 := by
    intro z hz
    have a := hstr z hz 0 0
    have b := hstr z hz 1 1
    have c := hstr z hz 0 1
    simp only [Elastic.grad, Matrix.cons_val_zero, Matrix.cons_val_one] at a b c
    have a' : (qx : ℂ) * w z 0 = 0 := by
      have : Complex.I * (2 * ((qx : ℂ) * w z 0)) = 0 := by linear_combination a
      simpa using (mul_eq_zero.1 this).resolve_left Complex.I_ne_zero
    have b' : (qy : ℂ) * w z 1 = 0 := by
      have : Complex.I * (2 * ((qy : ℂ) * w z 1)) = 0 := by linear_combination b
      simpa using (mul_eq_zero.1 this).resolve_left Complex.I_ne_zero
    have c' : (qx : ℂ) * w z 1 + qy * w z 0 = 0 := by
      have : Complex.I * ((qx : ℂ) * w z 1 + qy * w z 0) = 0 := by linear_combination c
      exact (mul_eq_zero.1 this).resolve_left Complex.I_ne_zero
    rcases hq with hq | hq
    · have hq' : (qx : ℂ) ≠ 0 := by exact_mod_cast hq
      have e := (mul_eq_zero.1 a').resolve_left hq'
      rw [e, mul_zero, add_zero] at c'
      exact ⟨e, (mul_eq_zero.1 c').resolve_left hq'⟩
    · have hq' : (qy : ℂ) ≠ 0 := by exact_mod_cast hq
      have e := (mul_eq_zero.1 b').resolve_left hq'
      rw [e, mul_zero, zero_add] at c'
      exact ⟨(mul_eq_zero.1 c').resolve_left hq', e⟩
  intro z hz
  have hev : ∀ᶠ y in nhds z, y ∈ Set.Ioo s t := isOpen_Ioo.mem_nhds hz
  have d0 : w' z 0 = 0 := ((hw z 0).congr_of_eventuallyEq (by filter_upwards [hev] with y hy using ((h0 y hy).1).symm)).unique (hasDerivAt_const z (0 : ℂ))
  have d1 : w' z 1 = 0 := ((hw z 1).congr_of_eventuallyEq (by filter_upwards [hev] with y hy using ((h0 y hy).2).symm)).unique (hasDerivAt_const z (0 : ℂ))
  have c := hstr z hz 0 2
  have d := hstr z hz 1 2
  simp only [Elastic.grad, Matrix.cons_val_zero, Matrix.cons_val_one, Matrix.cons_val] at c d
  rw [d0, add_zero] at c
  rw [d1, add_zero] at d
  have h2 : w z 2 = 0 := by
    rcases hq with hq | hq
    · exact (mul_eq_zero.1 c).resolve_left (mul_ne_zero Complex.I_ne_zero (by exact_mod_cast hq))
    · exact (mul_eq_zero.1 d).resolve_left (mul_ne_zero Complex.I_ne_zero (by exact_mod_cast hq))
  funext i
  fin_cases i
  · exact (h0 z hz).1
  · exact (h0 z hz).2
  · exact h2

/-- Waves with different wavenumbers are independent. -/
lemma field_zero {n : ℕ} (m : Fin n → Mode) (hm : Function.Injective fun a => (m a).1) (α : Fin n → ℂ) (s t : ℝ) (hst : s < t) (h : ∀ z ∈ Set.Ioo s t, field m α z = 0) :
    ∀ a, α a • (m a).2 = 0 := by
  have all : ∀ (p : ℕ) z, z ∈ Set.Ioo s t → ∀ i, field m (fun a => α a * (Complex.I * (m a).1) ^ p) z i = 0 := by
    intro p
    induction p with
    | zero => intro z hz i; simpa using congrFun (h z hz) i
    | succ p ih =>
      intro z hz i
      have hd := hasDerivAt_field m (fun a => α a * (Complex.I * (m a).1) ^ p) z i
      have e : (fun z => field m (fun a => α a * (Complex.I * (m a).1) ^ p) z i) =ᶠ[nhds z] fun _ => 0 := by
        filter_upwards [isOpen_Ioo.mem_nhds hz] with y hy using ih y hy i
      have := (hd.congr_of_eventuallyEq e.symm).unique (hasDerivAt_const z (0 : ℂ))
      rw [← this]
      unfold field
      exact Finset.sum_congr rfl fun a _ => by ring
  intro a
  funext i
  obtain ⟨z, hz⟩ : ∃ z, z ∈ Set.Ioo s t := ⟨(s + t) / 2, by constructor <;> linarith⟩
  have hv := Matrix.eq_zero_of_forall_pow_sum_mul_pow_eq_zero (f := fun a => Complex.I * (m a).1) (v := fun a => α a * (m a).2 i * Complex.exp (Complex.I * (m a).1 * z))
    (fun x y hxy => hm (mul_left_cancel₀ Complex.I_ne_zero hxy)) (fun p => by
      have := all p z hz i
      rw [← this]
      unfold field
      exact Finset.sum_congr rfl fun a _ => by ring)
  have := congrFun hv a
  simp only [Pi.zero_apply, mul_eq_zero, Complex.exp_ne_zero, or_false] at this
  simpa using this

end CM.Greens
