import Mathlib.Analysis.SpecialFunctions.Complex.CircleAddChar
import Mathlib.NumberTheory.LegendreSymbol.AddCharacter
/-!
# Discrete Fourier analysis on finite abelian groups with a self-pairing

Purely mathematical lemmas, no code is modelled here.  A `Pairing` on a finite abelian group `G`
is a symmetric bicharacter `χ` with the orthogonality relation.  `ZMod n` (one-dimensional grids)
and products of pairings (two-dimensional grids) carry one.
-/
namespace CM.Fourier
open Finset Complex
open scoped ComplexConjugate

/-- A symmetric, orthogonal, unitary bicharacter. -/
structure Pairing (G : Type) [AddCommGroup G] [Fintype G] [DecidableEq G] where
  χ : G → G → ℂ
  add : ∀ k x y, χ k (x + y) = χ k x * χ k y
  symm : ∀ k x, χ k x = χ x k
  cj : ∀ k x, χ (-k) x = conj (χ k x)
  zero : ∀ x, χ 0 x = 1
  orth : ∀ x, ∑ k, χ k x = if x = 0 then (Fintype.card G : ℂ) else 0

/-- The pairing of `ZMod n`. -/
noncomputable def pairZ (n : ℕ) [NeZero n] : Pairing (ZMod n) where
  χ k x := ZMod.stdAddChar (k * x)
  add k x y := by rw [mul_add, AddChar.map_add_eq_mul]
  symm k x := by rw [mul_comm]
  cj k x := by
    rw [neg_mul, AddChar.map_neg_eq_conj]
  zero x := by simp
  orth x := by
    have := AddChar.sum_mulShift x (ZMod.isPrimitive_stdAddChar n)
    simp only [this]
    split_ifs <;> simp

/-- Product of pairings. -/
def pairProd {G H : Type} [AddCommGroup G] [Fintype G] [DecidableEq G] [AddCommGroup H] [Fintype H]
    [DecidableEq H] (P : Pairing G) (Q : Pairing H) : Pairing (G × H) where
  χ k x := P.χ k.1 x.1 * Q.χ k.2 x.2
  add k x y := by simp only [Prod.fst_add, Prod.snd_add, P.add, Q.add]; ring
  symm k x := by rw [P.symm, Q.symm]
  cj k x := by simp only [Prod.fst_neg, Prod.snd_neg, P.cj, Q.cj, map_mul]
  zero x := by simp [P.zero, Q.zero]
  orth x := by
    rw [Fintype.sum_prod_type]
    simp only [← mul_sum, ← sum_mul, P.orth, Q.orth]
    by_cases h1 : x.1 = 0 <;> by_cases h2 : x.2 = 0 <;> simp [h1, h2, Prod.ext_iff]

variable {G : Type} [AddCommGroup G] [Fintype G] [DecidableEq G] (P : Pairing G)

namespace Pairing

lemma zero_right (k : G) : P.χ k 0 = 1 := by rw [P.symm, P.zero]
lemma conj_right (k x : G) : P.χ k (-x) = conj (P.χ k x) := by
  rw [P.symm, P.cj, P.symm]
lemma sub (k x y : G) : P.χ k (x - y) = P.χ k x * conj (P.χ k y) := by
  rw [sub_eq_add_neg, P.add, P.conj_right]
lemma mul_conj (k x : G) : P.χ k x * conj (P.χ k x) = 1 := by
  rw [← P.sub, sub_self, P.zero_right]

/-- Full forward transform of a complex field. -/
def ft (f : G → ℂ) (k : G) : ℂ := ∑ x, f x * P.χ k (-x)

/-- Unnormalised inverse transform. -/
def ift (F : G → ℂ) (x : G) : ℂ := ∑ k, F k * P.χ k x

omit [DecidableEq G] in
lemma card_ne : (Fintype.card G : ℂ) ≠ 0 := by
  have : 0 < Fintype.card G := Fintype.card_pos_iff.mpr ⟨0⟩
  exact_mod_cast this.ne'

lemma orth' (k : G) : ∑ x, P.χ k x = if k = 0 then (Fintype.card G : ℂ) else 0 := by
  rw [← P.orth]; exact sum_congr rfl fun x _ => P.symm _ _

/-- Inversion. -/
lemma ift_ft (f : G → ℂ) (x : G) : P.ift (P.ft f) x = Fintype.card G * f x := by
  unfold ift ft
  simp only [sum_mul]
  rw [sum_comm]
  have : ∀ y, ∑ k, f y * P.χ k (-y) * P.χ k x = f y * if x - y = 0 then (Fintype.card G : ℂ) else 0 := by
    intro y
    rw [← P.orth, mul_sum]
    refine sum_congr rfl fun k _ => ?_
    rw [P.sub, P.conj_right]; ring
  simp only [this, mul_ite, mul_zero, sub_eq_zero]
  rw [sum_ite_eq]; simp [mul_comm]

lemma ft_ift (F : G → ℂ) (k : G) : P.ft (P.ift F) k = Fintype.card G * F k := by
  unfold ift ft
  simp only [sum_mul]
  rw [sum_comm]
  have : ∀ l, ∑ x, F l * P.χ l x * P.χ k (-x) = F l * if l - k = 0 then (Fintype.card G : ℂ) else 0 := by
    intro l
    rw [← P.orth', mul_sum]
    refine sum_congr rfl fun x _ => ?_
    rw [P.symm (l - k), P.sub, P.conj_right, P.symm x l, P.symm x k]; ring
  simp only [this, mul_ite, mul_zero, sub_eq_zero]
  rw [sum_ite_eq']; simp [mul_comm]

/-- Real fields have Hermitian transforms. -/
lemma ft_neg (f : G → ℝ) (k : G) : P.ft (fun x => (f x : ℂ)) (-k) = conj (P.ft (fun x => (f x : ℂ)) k) := by
  unfold ft
  rw [map_sum]
  refine sum_congr rfl fun x _ => ?_
  rw [map_mul, P.cj, conj_ofReal]

lemma ft_add (f g : G → ℂ) (k : G) : P.ft (fun x => f x + g x) k = P.ft f k + P.ft g k := by
  simp only [ft, add_mul, sum_add_distrib]
lemma ft_smul (c : ℂ) (f : G → ℂ) (k : G) : P.ft (fun x => c * f x) k = c * P.ft f k := by
  simp only [ft, mul_assoc, mul_sum]

/-- Inverse transforms of Hermitian spectra are real. -/
lemma ift_real (F : G → ℂ) (hF : ∀ k, F (-k) = conj (F k)) (x : G) :
    P.ift F x = ((P.ift F x).re : ℂ) := by
  symm
  rw [← Complex.conj_eq_iff_re]
  unfold ift
  rw [map_sum]
  rw [← Equiv.sum_comp (Equiv.neg G)]
  refine sum_congr rfl fun k _ => ?_
  simp only [Equiv.neg_apply, map_mul, hF, P.cj, conj_conj]

/-- Power theorem. -/
lemma parseval (f g : G → ℂ) :
    ∑ k, conj (P.ft f k) * P.ft g k = Fintype.card G * ∑ x, conj (f x) * g x := by
  have h : ∀ x, (Fintype.card G : ℂ) * (conj (f x) * g x) = conj (f x) * ∑ k, P.ft g k * P.χ k x := by
    intro x
    have := P.ift_ft g x
    unfold ift at this
    rw [this]; ring
  rw [mul_sum]
  simp only [h, mul_sum]
  rw [sum_comm]
  refine sum_congr rfl fun k _ => ?_
  simp only [ft, map_sum, map_mul, P.conj_right, conj_conj]
  rw [sum_mul]
  refine sum_congr rfl fun x _ => ?_
  ring

/-- Circular convolution. -/
def conv (g f : G → ℂ) (x : G) : ℂ := ∑ y, g (x - y) * f y

lemma ft_conv (g f : G → ℂ) (k : G) : P.ft (conv g f) k = P.ft g k * P.ft f k := by
  unfold ft conv
  rw [Finset.sum_mul_sum, sum_comm (s := univ) (t := univ) (f := fun i j => g i * P.χ k (-i) * (f j * P.χ k (-j)))]
  simp only [sum_mul]
  rw [sum_comm]
  refine sum_congr rfl fun y _ => ?_
  rw [← Equiv.sum_comp (Equiv.addRight y)]
  refine sum_congr rfl fun x _ => ?_
  simp only [Equiv.coe_addRight, add_sub_cancel_right, neg_add]
  rw [P.add]; ring

/-- The inverse transform of a product of transforms is the circular convolution. -/
lemma ift_mul (g f : G → ℂ) (x : G) :
    P.ift (fun k => P.ft g k * P.ft f k) x = Fintype.card G * ∑ y, g (x - y) * f y := by
  have := P.ift_ft (conv g f) x
  simp only [funext (P.ft_conv g f)] at this
  rw [← show P.ft (conv g f) = fun k => P.ft g k * P.ft f k from funext (P.ft_conv g f)]
  exact P.ift_ft (conv g f) x

/-- The action of a complex multiplier on a real field. -/
noncomputable def act (S : G → ℂ) (f : G → ℝ) (x : G) : ℝ :=
  (P.ift (fun k => S k * P.ft (fun y => (f y : ℂ)) k) x).re / Fintype.card G

/-- Real-space kernel of a multiplier. -/
noncomputable def ker (S : G → ℂ) (z : G) : ℝ := (P.ift S z).re / Fintype.card G

def Herm (S : G → ℂ) : Prop := ∀ k, S (-k) = conj (S k)

lemma act_complex {S : G → ℂ} (hS : Herm S) (f : G → ℝ) (x : G) :
    (P.act S f x : ℂ) = P.ift (fun k => S k * P.ft (fun y => (f y : ℂ)) k) x / Fintype.card G := by
  unfold act
  rw [P.ift_real]
  · push_cast; simp
  · intro k; rw [hS k, P.ft_neg, map_mul]

lemma ft_act {S : G → ℂ} (hS : Herm S) (f : G → ℝ) (k : G) :
    P.ft (fun x => (P.act S f x : ℂ)) k = S k * P.ft (fun y => (f y : ℂ)) k := by
  have h : (fun x => (P.act S f x : ℂ)) =
      fun x => (Fintype.card G : ℂ)⁻¹ * P.ift (fun k => S k * P.ft (fun y => (f y : ℂ)) k) x := by
    funext x; rw [P.act_complex hS]; ring
  rw [h, P.ft_smul, P.ft_ift, ← mul_assoc, inv_mul_cancel₀ card_ne, one_mul]

lemma act_act {S T : G → ℂ} (hT : Herm T) (f : G → ℝ) (x : G) :
    P.act S (P.act T f) x = P.act (fun k => S k * T k) f x := by
  rw [act, act]
  congr 3
  funext k
  rw [P.ft_act hT f k]; ring

lemma act_one (f : G → ℝ) (x : G) : P.act (fun _ => 1) f x = f x := by
  unfold act
  simp only [one_mul]
  rw [show (fun k => P.ft (fun y => (f y : ℂ)) k) = P.ft (fun y => (f y : ℂ)) from rfl, P.ift_ft]
  have : (Fintype.card G : ℝ) ≠ 0 := by exact_mod_cast (card_ne (G := G))
  rw [← ofReal_natCast, ← ofReal_mul, ofReal_re]
  field_simp

lemma act_congr {S T : G → ℂ} {f g : G → ℝ} (h : ∀ k, S k = T k) (hf : ∀ x, f x = g x) (x : G) :
    P.act S f x = P.act T g x := by
  rw [funext h, funext hf]

lemma act_lin (S : G → ℂ) (a b : ℝ) (f g : G → ℝ) (x : G) :
    P.act S (fun y => a * f y + b * g y) x = a * P.act S f x + b * P.act S g x := by
  unfold act ift
  have : ∀ k, P.ft (fun y => ((a * f y + b * g y : ℝ) : ℂ)) k
      = a * P.ft (fun y => (f y : ℂ)) k + b * P.ft (fun y => (g y : ℂ)) k := by
    intro k; rw [← P.ft_smul, ← P.ft_smul, ← P.ft_add]; push_cast; rfl
  simp only [this, mul_add, add_mul, sum_add_distrib, add_re]
  have h2 : ∀ (c : ℝ) (F : G → ℂ), (∑ k, S k * (c * F k) * P.χ k x).re
      = c * (∑ k, S k * F k * P.χ k x).re := by
    intro c F
    rw [← re_ofReal_mul, mul_sum]
    congr 1; refine sum_congr rfl fun k _ => ?_; ring
  rw [h2, h2]; ring

/-- Multiplier action is circular convolution with the kernel. -/
lemma act_eq_ker (S : G → ℂ) (f : G → ℝ) (x : G) : P.act S f x = ∑ y, P.ker S (x - y) * f y := by
  unfold act ker
  have : P.ift (fun k => S k * P.ft (fun y => (f y : ℂ)) k) x = ∑ y, P.ift S (x - y) * f y := by
    unfold ift ft
    simp only [mul_sum, sum_mul]
    rw [sum_comm]
    refine sum_congr rfl fun y _ => sum_congr rfl fun k _ => ?_
    rw [P.sub, P.conj_right]; ring
  rw [this, re_sum, sum_div]
  refine sum_congr rfl fun y _ => ?_
  rw [re_mul_ofReal]; ring

lemma act_shift (S : G → ℂ) (f : G → ℝ) (s x : G) :
    P.act S (fun y => f (y - s)) x = P.act S f (x - s) := by
  rw [act_eq_ker, act_eq_ker, ← Equiv.sum_comp (Equiv.addRight s)]
  refine sum_congr rfl fun y _ => ?_
  simp only [Equiv.coe_addRight, add_sub_cancel_right]
  rw [show x - (y + s) = x - s - y by abel]

/-- Real spectra give even kernels, hence reciprocity. -/
lemma ker_even (S : G → ℝ) (z : G) : P.ker (fun k => (S k : ℂ)) (-z) = P.ker (fun k => (S k : ℂ)) z := by
  unfold ker ift
  rw [re_sum, re_sum]
  congr 1
  refine sum_congr rfl fun k _ => ?_
  rw [P.conj_right, re_ofReal_mul, re_ofReal_mul, conj_re]

lemma recip_of_even {S : G → ℂ} (h : ∀ z, P.ker S (-z) = P.ker S z) (f g : G → ℝ) :
    ∑ x, f x * P.act S g x = ∑ x, g x * P.act S f x := by
  simp only [act_eq_ker, mul_sum]
  rw [sum_comm]
  refine sum_congr rfl fun y _ => sum_congr rfl fun x _ => ?_
  rw [← h, neg_sub]; ring

/-- Quadratic form of a real even multiplier. -/
lemma energy (S : G → ℝ) (hS : ∀ k, S (-k) = S k) (f : G → ℝ) :
    Fintype.card G * ∑ x, f x * P.act (fun k => (S k : ℂ)) f x
      = ∑ k, S k * normSq (P.ft (fun y => (f y : ℂ)) k) := by
  have hH : Herm (fun k => (S k : ℂ)) := fun k => by simp [hS k]
  have := P.parseval (fun x => (f x : ℂ)) (fun x => (P.act (fun k => (S k : ℂ)) f x : ℂ))
  simp only [P.ft_act hH, conj_ofReal] at this
  have h2 : (Fintype.card G * ∑ x, f x * P.act (fun k => (S k : ℂ)) f x : ℝ)
      = (∑ k, S k * normSq (P.ft (fun y => (f y : ℂ)) k) : ℝ) := by
    apply Complex.ofReal_injective
    push_cast
    rw [← this]
    refine sum_congr rfl fun k _ => ?_
    rw [normSq_eq_conj_mul_self]; ring
  exact h2

lemma ft_eq_zero_iff (f : G → ℂ) : (∀ k, P.ft f k = 0) ↔ ∀ x, f x = 0 := by
  constructor
  · intro h x
    have := P.ift_ft f x
    simp only [ift, h, zero_mul, sum_const_zero] at this
    exact (mul_eq_zero.mp this.symm).resolve_left card_ne
  · intro h k; simp [ft, h]

/-- Only the zero-wavevector component survives: the field is uniform. -/
lemma const_of_ft (f : G → ℂ) (h : ∀ k, k ≠ 0 → P.ft f k = 0) (x y : G) : f x = f y := by
  have hx : ∀ x, (Fintype.card G : ℂ) * f x = P.ft f 0 := by
    intro x
    rw [← P.ift_ft]
    unfold ift
    rw [Finset.sum_eq_single 0]
    · rw [P.zero, mul_one]
    · intro k _ hk; rw [h k hk, zero_mul]
    · simp
  exact mul_left_cancel₀ card_ne ((hx x).trans (hx y).symm)

/-- A multiplier acting on a (real part of a) character. -/
lemma act_char (S : G → ℝ) (hS : ∀ k, S (-k) = S k) (k0 : G) (c : ℂ) (x : G) :
    P.act (fun k => (S k : ℂ)) (fun y => (c * P.χ k0 y).re) x = S k0 * (c * P.χ k0 x).re := by
  have hH : Herm (fun k => (S k : ℂ)) := fun k => by simp [hS k]
  have hft : ∀ k, P.ft (fun y => (((c * P.χ k0 y).re : ℝ) : ℂ)) k
      = (c * (if k0 - k = 0 then (Fintype.card G : ℂ) else 0)
        + conj c * (if k0 + k = 0 then (Fintype.card G : ℂ) else 0)) / 2 := by
    intro k
    rw [← P.orth', ← P.orth', mul_sum, mul_sum, ← Equiv.sum_comp (Equiv.neg G) (fun x => conj c * P.χ (k0 + k) x),
      ← sum_add_distrib, sum_div]
    unfold ft
    refine sum_congr rfl fun y _ => ?_
    simp only [Equiv.neg_apply]
    rw [re_eq_add_conj, map_mul, P.symm (k0 - k), P.sub, P.symm (k0 + k), P.add, P.symm y, P.symm y,
      P.symm _ k0, P.symm _ k, P.conj_right k0, P.conj_right k]
    ring
  apply Complex.ofReal_injective
  rw [P.act_complex hH]
  unfold ift
  simp only [hft]
  have h1 : ∀ k, (S k : ℂ) * ((c * (if k0 - k = 0 then (Fintype.card G : ℂ) else 0)
        + conj c * (if k0 + k = 0 then (Fintype.card G : ℂ) else 0)) / 2) * P.χ k x
      = (if k0 = k then (S k : ℂ) * c * Fintype.card G / 2 * P.χ k x else 0)
        + (if -k0 = k then (S k : ℂ) * conj c * Fintype.card G / 2 * P.χ k x else 0) := by
    intro k
    simp only [sub_eq_zero (a := k0), ← neg_eq_iff_add_eq_zero (a := k0)]
    split_ifs <;> ring
  rw [sum_congr rfl fun k _ => h1 k, sum_add_distrib, sum_ite_eq, sum_ite_eq]
  simp only [mem_univ, if_true, hS, P.cj]
  rw [ofReal_mul, re_eq_add_conj, map_mul]
  have := card_ne (G := G)
  field_simp

end Pairing
end CM.Fourier
