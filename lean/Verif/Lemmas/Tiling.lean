import Verif.Lemmas.Symmetry
import Verif.Lemmas.HalfSpace
/-!
# Fourier transform of fields that repeat

Purely mathematical lemmas, no code is modelled here.
-/
namespace CM.Fourier
open Finset Complex
open scoped ComplexConjugate

namespace Pairing
variable {G H : Type} [AddCommGroup G] [Fintype G] [DecidableEq G] [AddCommGroup H] [Fintype H] [DecidableEq H] (P : Pairing G) (Q : Pairing H)

/-- The spectrum of a field that repeats lives on the waves of the small torus. -/
lemma ft_repeat {π : H → G} {ρ : G → H} (hχ : ∀ k x, Q.χ (ρ k) x = P.χ k (π x)) (f : G → ℂ) (k' : H) :
    Q.ft (fun x => f (π x)) k' = (Fintype.card H : ℂ) / Fintype.card G * ∑ k, if ρ k = k' then P.ft f k else 0 := by
  have hf : ∀ x, f (π x) = (1 / Fintype.card G : ℂ) * ∑ k, P.ft f k * Q.χ (ρ k) x := by
    intro x
    have := P.ift_ft f (π x)
    unfold ift at this
    simp only [hχ]
    rw [this, ← mul_assoc, one_div, inv_mul_cancel₀ card_ne, one_mul]
  unfold ft
  simp only [hf]
  have h1 : ∀ x, (1 / Fintype.card G : ℂ) * (∑ k, P.ft f k * Q.χ (ρ k) x) * Q.χ k' (-x)
      = ∑ k, (1 / Fintype.card G : ℂ) * P.ft f k * Q.χ x (ρ k - k') := by
    intro x
    rw [mul_sum, sum_mul]
    refine sum_congr rfl fun k _ => ?_
    rw [Q.sub, Q.conj_right, Q.symm x, Q.symm x]
    ring
  simp only [h1]
  rw [sum_comm, mul_sum]
  refine sum_congr rfl fun k _ => ?_
  rw [← mul_sum, Q.orth]
  simp only [sub_eq_zero]
  split_ifs
  · unfold ft; ring
  · ring

/-- A multiplier acts on a field that repeats as the multiplier of the small torus. -/
lemma act_repeat {π : H → G} {ρ : G → H} (hχ : ∀ k x, Q.χ (ρ k) x = P.χ k (π x)) {S : G → ℂ} {S' : H → ℂ} (hS : ∀ k, S' (ρ k) = S k)
    (f : G → ℝ) (x : H) : Q.act S' (fun y => f (π y)) x = P.act S f (π x) := by
  have hH : (Fintype.card H : ℂ) ≠ 0 := card_ne
  have hG : (Fintype.card G : ℂ) ≠ 0 := card_ne
  have key : Q.ift (fun k' => S' k' * Q.ft (fun y => (f (π y) : ℂ)) k') x
      = (Fintype.card H : ℂ) / Fintype.card G * P.ift (fun k => S k * P.ft (fun y => (f y : ℂ)) k) (π x) := by
    unfold ift
    simp only [ft_repeat P Q hχ fun y => (f y : ℂ)]
    have : ∀ k', S' k' * ((Fintype.card H : ℂ) / Fintype.card G * ∑ k, if ρ k = k' then P.ft (fun y => (f y : ℂ)) k else 0) * Q.χ k' x
        = ∑ k, if ρ k = k' then (Fintype.card H : ℂ) / Fintype.card G * (S k * P.ft (fun y => (f y : ℂ)) k * P.χ k (π x)) else 0 := by
      intro k'
      rw [mul_sum, mul_sum, sum_mul]
      refine sum_congr rfl fun k _ => ?_
      split_ifs with h
      · rw [← h, hS, hχ]; ring
      · ring
    simp only [this]
    rw [sum_comm, mul_sum]
    refine sum_congr rfl fun k _ => ?_
    rw [sum_ite_eq]
    simp
  unfold act
  rw [key]
  have e : ((Fintype.card H : ℂ) / Fintype.card G) = (((Fintype.card H : ℝ) / Fintype.card G : ℝ) : ℂ) := by push_cast; rfl
  rw [e, Complex.re_ofReal_mul]
  have h1 : (Fintype.card H : ℝ) ≠ 0 := by exact_mod_cast hH
  have h2 : (Fintype.card G : ℝ) ≠ 0 := by exact_mod_cast hG
  field_simp

/-- Two multipliers that differ for the uniform field only. -/
lemma act_gamma {S S' : G → ℂ} (hS : ∀ k, k ≠ 0 → S' k = S k) (f : G → ℝ) (x : G) :
    P.act S' f x = P.act S f x + (S' 0 - S 0).re * ((∑ y, f y) / Fintype.card G) := by
  unfold act
  have key : P.ift (fun k => S' k * P.ft (fun y => (f y : ℂ)) k) x = P.ift (fun k => S k * P.ft (fun y => (f y : ℂ)) k) x
      + (S' 0 - S 0) * (((∑ y, f y : ℝ)) : ℂ) := by
    unfold ift
    rw [← sub_eq_iff_eq_add', ← sum_sub_distrib, sum_eq_single 0]
    · have : P.ft (fun y => (f y : ℂ)) 0 = ((∑ y, f y : ℝ) : ℂ) := by
        unfold ft
        push_cast
        exact sum_congr rfl fun y _ => by rw [P.zero, mul_one]
      beta_reduce
      rw [this, P.zero]; ring
    · intro k _ hk
      beta_reduce
      rw [hS k hk, sub_self]
    · simp
  rw [key, Complex.add_re, Complex.re_mul_ofReal]
  ring

end Pairing

/-- Point of the small torus below a point of the large one. -/
def fold (n : ℕ) {N : ℕ} (x : ZMod N) : ZMod n := (x.val : ZMod n)
/-- Wave of the large torus that belongs to a wave of the small one. -/
def spread (k : ℕ) {n : ℕ} (q : ZMod n) : ZMod (k * n) := ((k * q.val : ℕ) : ZMod (k * n))

variable {k l n m : ℕ} [NeZero k] [NeZero l] [NeZero n] [NeZero m]

lemma spread_val (q : ZMod n) : (spread k q).val = k * q.val := by
  unfold spread
  rw [ZMod.val_natCast, Nat.mod_eq_of_lt]
  exact Nat.mul_lt_mul_of_pos_left (ZMod.val_lt q) (NeZero.pos k)

lemma spread_eq_zero (q : ZMod n) : spread k q = 0 ↔ q = 0 := by
  rw [← ZMod.val_eq_zero, spread_val, ← ZMod.val_eq_zero q]
  simp [NeZero.ne k]

instance : NeZero (k * n) := ⟨Nat.mul_ne_zero (NeZero.ne k) (NeZero.ne n)⟩

lemma char_spread (q : ZMod n) (x : ZMod (k * n)) : (pairZ (k * n)).χ (spread k q) x = (pairZ n).χ q (fold n x) := by
  change ZMod.stdAddChar (spread k q * x) = ZMod.stdAddChar (q * fold n x)
  have h1 : spread k q * x = (((k * q.val * x.val : ℕ) : ℤ) : ZMod (k * n)) := by
    unfold spread
    push_cast
    rw [ZMod.natCast_zmod_val x]
  have h2 : q * fold n x = (((q.val * x.val : ℕ) : ℤ) : ZMod n) := by
    unfold fold
    push_cast
    rw [ZMod.natCast_zmod_val q]
  rw [h1, h2, ZMod.stdAddChar_coe, ZMod.stdAddChar_coe]
  congr 1
  have : (k : ℂ) ≠ 0 := by exact_mod_cast NeZero.ne k
  have : (n : ℂ) ≠ 0 := by exact_mod_cast NeZero.ne n
  push_cast
  field_simp

end CM.Fourier
