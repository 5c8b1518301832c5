import Verif.Lemmas.LovePos
import Verif.Props.HardWall2
/-!
# C159: the nonperiodic half-space is positive definite
-/
namespace CM.HS
open Finset CM.FFT CM.Spec

variable {nx ny : ℕ} {a : FreeArgs} {s : HalfSpace}

lemma pixelGreens_E {E : ℝ} (dx dy x y : ℝ) : pixelGreens E dx dy x y = 1 / E * pixelGreens 1 dx dy x y := by
  unfold pixelGreens
  rw [← mul_assoc]
  congr 1
  rw [mul_one, one_div_mul_one_div, mul_comm]

section
variable (hv : ValidFree a) (hs : constructFree a = .ok s) (hg : a.nbGridPts = [nx, ny])
include hv hs hg

/-- **C159** Forces that are not all zero, compressive or tensile, do work: the product of the forces (negative when compressive) and
the displacements they cause is negative, for every grid, pixel shape and contact modulus. -/
theorem C159_positive_work (f : NdArray ℝ) (hf : f.shape = [nx, ny]) (hne : ∃ i j, i < nx ∧ j < ny ∧ f.get [i, j] ≠ 0) :
    ∃ u, evaluateDispFree s f false = .ok u ∧ u.shape = [nx, ny] ∧ work nx ny f u < 0 := by
  obtain ⟨_, _, P⟩ := free_of_construct hv hs hg
  obtain ⟨u, hu, hsh, hu'⟩ := C19_free_direct_sum hv hs hg f hf
  refine ⟨u, hu, hsh, ?_⟩
  have hdx := P.dx_pos
  have hdy := P.dy_pos
  obtain ⟨i, j, hi, hj, hij⟩ := hne
  have key := GaussPos.love_posDef hdx hdy (p := fun x : Fin nx × Fin ny => f.get [x.1, x.2]) ⟨(⟨i, hi⟩, ⟨j, hj⟩), hij⟩
  have hE := hv.young_pos
  have e : work nx ny f u = -(1 / (a.young * (sizeF a 0 / nx * (sizeF a 1 / ny))) * ∑ x : Fin nx × Fin ny, ∑ y : Fin nx × Fin ny,
      f.get [x.1, x.2] * f.get [y.1, y.2] * pixelGreens 1 (sizeF a 0 / nx) (sizeF a 1 / ny) (((x.1 : ℝ) - y.1) * (sizeF a 0 / nx))
        (((x.2 : ℝ) - y.2) * (sizeF a 1 / ny))) := by
    unfold work
    rw [mul_sum, Fintype.sum_prod_type, ← sum_neg_distrib, ← Fin.sum_univ_eq_sum_range (fun i => ∑ j ∈ range ny, f.get [i, j] * u.get [i, j])]
    refine sum_congr rfl fun i _ => ?_
    rw [← sum_neg_distrib, ← Fin.sum_univ_eq_sum_range (fun j => f.get [i.val, j] * u.get [i.val, j])]
    refine sum_congr rfl fun j _ => ?_
    rw [hu' i j i.isLt j.isLt, directSum, mul_neg, mul_sum, mul_sum, Fintype.sum_prod_type,
      ← Fin.sum_univ_eq_sum_range (fun k => f.get [i.val, j.val] * ∑ l ∈ range ny, pixelGreens a.young (sizeF a 0 / nx) (sizeF a 1 / ny)
        (((i : ℝ) - k) * (sizeF a 0 / nx)) (((j : ℝ) - l) * (sizeF a 1 / ny)) * (f.get [k, l] / (sizeF a 0 / nx * (sizeF a 1 / ny))))]
    refine congrArg _ (sum_congr rfl fun k _ => ?_)
    rw [mul_sum, ← Fin.sum_univ_eq_sum_range (fun l => f.get [i.val, j.val] * (pixelGreens a.young (sizeF a 0 / nx) (sizeF a 1 / ny)
        (((i : ℝ) - k) * (sizeF a 0 / nx)) (((j : ℝ) - l) * (sizeF a 1 / ny)) * (f.get [k.val, l] / (sizeF a 0 / nx * (sizeF a 1 / ny)))))]
    refine sum_congr rfl fun l _ => ?_
    rw [pixelGreens_E]
    generalize pixelGreens 1 _ _ _ _ = G
    field_simp
  rw [e]
  have : 0 < 1 / (a.young * (sizeF a 0 / nx * (sizeF a 1 / ny))) := by positivity
  exact neg_neg_of_pos (mul_pos this key)

/-- **C159** Different forces cause different displacements: the forces on the topography can be recovered from its displacements. -/
theorem C159_injective (f g : NdArray ℝ) (hf : f.shape = [nx, ny]) (hg' : g.shape = [nx, ny]) {u v : NdArray ℝ}
    (hu : evaluateDispFree s f false = .ok u) (hv1 : evaluateDispFree s g false = .ok v)
    (heq : ∀ i j, i < nx → j < ny → u.get [i, j] = v.get [i, j]) : ∀ i j, i < nx → j < ny → f.get [i, j] = g.get [i, j] := by
  intro i j hi hj
  by_contra hne
  obtain ⟨u0, hu0, -, hu'⟩ := C19_free_direct_sum hv hs hg f hf
  obtain ⟨v0, hv0, -, hv'⟩ := C19_free_direct_sum hv hs hg g hg'
  rw [hu] at hu0; cases hu0
  rw [hv1] at hv0; cases hv0
  obtain ⟨w, hw, -, hneg⟩ := C159_positive_work hv hs hg ⟨[nx, ny], fun x => f.get x - g.get x⟩ rfl ⟨i, j, hi, hj, sub_ne_zero.2 hne⟩
  obtain ⟨w0, hw0, -, hw'⟩ := C19_free_direct_sum hv hs hg ⟨[nx, ny], fun x => f.get x - g.get x⟩ rfl
  rw [hw] at hw0; cases hw0
  have hz : ∀ k l, k < nx → l < ny → w.get [k, l] = 0 := by
    intro k l hk hl
    have := heq k l hk hl
    rw [hu' k l hk hl, hv' k l hk hl] at this
    rw [hw' k l hk hl]
    unfold directSum at this ⊢
    rw [neg_inj] at this
    rw [neg_eq_zero, ← sub_eq_zero.2 this, ← sum_sub_distrib]
    refine sum_congr rfl fun m _ => ?_
    rw [← sum_sub_distrib]
    refine sum_congr rfl fun n _ => ?_
    ring
  have : work nx ny ⟨[nx, ny], fun x => f.get x - g.get x⟩ w = 0 := by
    unfold work
    refine sum_eq_zero fun k hk => sum_eq_zero fun l hl => ?_
    rw [hz k l (mem_range.1 hk) (mem_range.1 hl), mul_zero]
  rw [this] at hneg
  exact lt_irrefl _ hneg

end

/-- The hypotheses can be met: a `2 × 3` half-space and forces of both signs. -/
example : ∃ s f, constructFree demoFree = .ok s ∧ ValidFree demoFree ∧ demoFree.nbGridPts = [2, 3] ∧ f.shape = [2, 3] ∧
    f.get [0, 1] = (-1 : ℝ) ∧ f.get [1, 0] = 1 ∧ ∃ u, evaluateDispFree s f false = .ok u ∧ work 2 3 f u < 0 := by
  obtain ⟨s, hs⟩ := demoFree_ok
  refine ⟨s, ⟨[2, 3], fun x => if x = [0, 1] then -1 else 1⟩, hs, demoFree_valid, rfl, rfl, by simp, by simp, ?_⟩
  obtain ⟨u, hu, -, h⟩ := C159_positive_work demoFree_valid hs (nx := 2) (ny := 3) rfl ⟨[2, 3], fun x => if x = [0, 1] then -1 else 1⟩ rfl
    ⟨1, 0, by norm_num, by norm_num, by simp⟩
  exact ⟨u, hu, h⟩

end CM.HS

namespace CM.Pipe
open Finset CM.HS CM.FFT CM.System CM.Spec
variable {nx ny : ℕ} {sx sy : ℝ}

lemma freeSum_posDef (hx : 0 < nx) (hy : 0 < ny) (h1 : 0 < sx) (h2 : 0 < sy) : PosDef (freeSum sx sy nx ny) := by
  intro p hp
  have h3 : (0 : ℝ) < nx := by exact_mod_cast hx
  have h4 : (0 : ℝ) < ny := by exact_mod_cast hy
  have := GaussPos.love_posDef (div_pos h1 h3) (div_pos h2 h4) hp
  refine this.trans_le (le_of_eq ?_)
  unfold dot freeSum
  refine sum_congr rfl fun x _ => ?_
  rw [mul_sum]
  exact sum_congr rfl fun y _ => by ring

end CM.Pipe
