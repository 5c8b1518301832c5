import Verif.Props.Free
/-!
# Symmetries of the elastic response

Purely mathematical: how filters on a torus behave under an isomorphism followed by a shift, and which isomorphisms leave
the spectra of the half-spaces unchanged.
-/
set_option linter.unusedSectionVars false
namespace CM.Fourier
open Finset Complex CM.FFT
open scoped ComplexConjugate

variable {G H : Type} [AddCommGroup G] [Fintype G] [DecidableEq G] [AddCommGroup H] [Fintype H] [DecidableEq H]
variable {P : Pairing G} {Q : Pairing H}

namespace Pairing

lemma ft_iso (α : G ≃+ H) (hχ : ∀ k x, Q.χ (α k) (α x) = P.χ k x) (t : H) {f : G → ℂ} {f' : H → ℂ}
    (hf : ∀ x, f' (α x + t) = f x) (k : G) : Q.ft f' (α k) = Q.χ (α k) (-t) * P.ft f k := by
  unfold ft
  rw [mul_sum, ← (α.toEquiv.trans (Equiv.addRight t)).sum_comp]
  refine sum_congr rfl fun x _ => ?_
  have e : (α.toEquiv.trans (Equiv.addRight t)) x = α x + t := rfl
  rw [e, hf, neg_add, Q.add, ← map_neg, hχ]
  ring

lemma act_iso (α : G ≃+ H) (hχ : ∀ k x, Q.χ (α k) (α x) = P.χ k x) (t : H) {S : G → ℂ} {S' : H → ℂ} (hS : ∀ k, S' (α k) = S k)
    {f : G → ℝ} {f' : H → ℝ} (hf : ∀ x, f' (α x + t) = f x) (x : G) : Q.act S' f' (α x + t) = P.act S f x := by
  unfold act
  rw [Fintype.card_congr α.toEquiv]
  congr 2
  unfold ift
  rw [← α.toEquiv.sum_comp]
  refine sum_congr rfl fun k _ => ?_
  have e : α.toEquiv k = α k := rfl
  rw [e]
  beta_reduce
  rw [hS, ft_iso α hχ t (f := fun x => (f x : ℂ)) (fun x => by rw [hf]), Q.add, hχ]
  have : Q.χ (α k) (-t) * Q.χ (α k) t = 1 := by rw [← Q.add, neg_add_cancel, Q.zero_right]
  linear_combination (S k * P.ft (fun x => (f x : ℂ)) k * P.χ k x) * this

end Pairing

/-! ## Isomorphisms of the torus -/

variable {n m : ℕ} [NeZero n] [NeZero m]

/-- Reflection of the first direction. -/
def negFst (n m : ℕ) : ZMod n × ZMod m ≃+ ZMod n × ZMod m := (AddEquiv.neg _).prodCongr (AddEquiv.refl _)
/-- Reflection of the second direction. -/
def negSnd (n m : ℕ) : ZMod n × ZMod m ≃+ ZMod n × ZMod m := (AddEquiv.refl _).prodCongr (AddEquiv.neg _)

omit [NeZero n] [NeZero m] in
@[simp] lemma negFst_apply (p : ZMod n × ZMod m) : negFst n m p = (-p.1, p.2) := rfl
omit [NeZero n] [NeZero m] in
@[simp] lemma negSnd_apply (p : ZMod n × ZMod m) : negSnd n m p = (p.1, -p.2) := rfl

lemma neg_neg_char (k x : ZMod n) : (pairZ n).χ (-k) (-x) = (pairZ n).χ k x := by
  change ZMod.stdAddChar (-k * -x) = ZMod.stdAddChar (k * x)
  rw [neg_mul_neg]

lemma negFst_char (k x : ZMod n × ZMod m) : (pair2 n m).χ (negFst n m k) (negFst n m x) = (pair2 n m).χ k x := by
  change (pairZ n).χ (-k.1) (-x.1) * _ = (pairZ n).χ k.1 x.1 * _
  rw [neg_neg_char]; rfl

lemma negSnd_char (k x : ZMod n × ZMod m) : (pair2 n m).χ (negSnd n m k) (negSnd n m x) = (pair2 n m).χ k x := by
  change _ * (pairZ m).χ (-k.2) (-x.2) = _ * (pairZ m).χ k.2 x.2
  rw [neg_neg_char]; rfl

lemma swap_char (k x : ZMod n × ZMod m) :
    (pair2 m n).χ (AddEquiv.prodComm k) (AddEquiv.prodComm x) = (pair2 n m).χ k x := by
  change (pairZ m).χ k.2 x.2 * (pairZ n).χ k.1 x.1 = (pairZ n).χ k.1 x.1 * (pairZ m).χ k.2 x.2
  ring

end CM.Fourier

namespace CM.HS
open Finset CM.Fourier CM.FFT CM.Spec
variable {nx ny : ℕ} [NeZero nx] [NeZero ny]

/-! ## Symmetries of the spectra -/

lemma fullStiff_negFst (m : Mat) (sx sy g : ℝ) (k : ZMod nx × ZMod ny) :
    fullStiff m nx ny sx sy g (negFst nx ny k) = fullStiff m nx ny sx sy g k := by
  unfold fullStiff freq2
  simp only [negFst_apply, freq_neg, Prod.mk_eq_zero, neg_eq_zero]
  exact if_congr (by simp [Prod.ext_iff]) rfl rfl

lemma fullStiff_negSnd (m : Mat) (sx sy g : ℝ) (k : ZMod nx × ZMod ny) :
    fullStiff m nx ny sx sy g (negSnd nx ny k) = fullStiff m nx ny sx sy g k := by
  unfold fullStiff freq2
  simp only [negSnd_apply, freq_neg, Prod.mk_eq_zero, neg_eq_zero]
  exact if_congr (by simp [Prod.ext_iff]) rfl rfl

omit [NeZero nx] [NeZero ny] in
lemma fullStiff_swap (m : Mat) (sx sy g : ℝ) (k : ZMod nx × ZMod ny) :
    fullStiff m ny nx sy sx g (AddEquiv.prodComm k) = fullStiff m nx ny sx sy g k := by
  unfold fullStiff freq2
  have e : (AddEquiv.prodComm k : ZMod ny × ZMod nx) = (k.2, k.1) := rfl
  rw [e]
  exact if_congr (by simp [Prod.ext_iff, and_comm]) rfl (by rw [add_comm])

lemma freeOffset_neg (k : ZMod (2 * nx)) : -k = k ∨ freeOffset nx (-k).val = -freeOffset nx k.val := by
  by_cases h0 : k = 0
  · left; rw [h0, neg_zero]
  have hv : (-k).val = 2 * nx - k.val := by rw [ZMod.neg_val, if_neg h0]
  have hk : k.val < 2 * nx := ZMod.val_lt k
  have hk0 : k.val ≠ 0 := fun h => h0 ((ZMod.val_eq_zero k).mp h)
  by_cases hn : k.val = nx
  · left
    apply ZMod.val_injective
    rw [hv]; omega
  · right
    rw [hv]
    unfold freeOffset
    split_ifs <;> omega

lemma freeKernel_negFst {E dx dy : ℝ} (hx : 0 < dx) (hy : 0 < dy) (p : ZMod (2 * nx) × ZMod (2 * ny)) :
    freeKernel E nx ny dx dy (-p.1).val p.2.val = freeKernel E nx ny dx dy p.1.val p.2.val := by
  rcases freeOffset_neg p.1 with h | h
  · rw [h]
  · unfold freeKernel
    rw [h]
    have := (C21_mirror_symmetry (E := E) hx hy (freeOffset nx p.1.val) (freeOffset ny p.2.val)).1
    push_cast
    exact this

lemma freeKernel_negSnd {E dx dy : ℝ} (hx : 0 < dx) (hy : 0 < dy) (p : ZMod (2 * nx) × ZMod (2 * ny)) :
    freeKernel E nx ny dx dy p.1.val (-p.2).val = freeKernel E nx ny dx dy p.1.val p.2.val := by
  rcases freeOffset_neg p.2 with h | h
  · rw [h]
  · unfold freeKernel
    rw [h]
    have := (C21_mirror_symmetry (E := E) hx hy (freeOffset nx p.1.val) (freeOffset ny p.2.val)).2
    push_cast
    exact this

/-- Love's expression does not distinguish the two directions. -/
lemma loveKernel_swap (E a b x y : ℝ) : loveKernel E b a y x = loveKernel E a b x y := by
  unfold loveKernel
  have h : ∀ p q : ℝ, Real.sqrt (q * q + p * p) = Real.sqrt (p * p + q * q) := fun p q => by rw [add_comm]
  rw [h (y + b) (x + a), h (y + b) (x - a), h (y - b) (x - a), h (y - b) (x + a)]
  ring

omit [NeZero nx] [NeZero ny] in
lemma freeKernel_swap (E dx dy : ℝ) (i j : ℕ) : freeKernel E ny nx dy dx j i = freeKernel E nx ny dx dy i j := loveKernel_swap _ _ _ _ _

end CM.HS
