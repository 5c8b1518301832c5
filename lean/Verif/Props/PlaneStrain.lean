import Verif.Props.Line1D
import Verif.Props.LineContact
/-!
# C197: the one-dimensional substrate is the two-dimensional one in plane strain
-/
set_option linter.unusedSimpArgs false
namespace CM.HS
open Finset Complex CM.FFT CM.Fourier CM.Spec
open scoped ComplexConjugate

variable {a b : Args} {s t : HalfSpace} {nx ny : ℕ}

lemma act_line [NeZero nx] [NeZero ny] (M : ZMod nx × ZMod ny → ℂ) (g : ZMod nx → ℝ) (x : ZMod nx × ZMod ny) :
    (pair2 nx ny).act M (fun y => g y.1) x = (pairZ nx).act (fun k => M (k, 0)) g x.1 := by
  have hn2 : (ny : ℝ) ≠ 0 := by exact_mod_cast NeZero.ne ny
  have hn1 : (nx : ℝ) ≠ 0 := by exact_mod_cast NeZero.ne nx
  unfold Pairing.act
  rw [Fintype.card_prod, ZMod.card, ZMod.card]
  have e : (pair2 nx ny).ift (fun k => M k * (pair2 nx ny).ft (fun y => ((g y.1 : ℝ) : ℂ)) k) x
      = ((ny : ℝ) : ℂ) * (pairZ nx).ift (fun k => M (k, 0) * (pairZ nx).ft (fun y => (g y : ℂ)) k) x.1 := by
    unfold Pairing.ift
    rw [Fintype.sum_prod_type, mul_sum]
    refine sum_congr rfl fun k _ => ?_
    rw [Fintype.sum_eq_single (0 : ZMod ny)]
    · beta_reduce
      rw [ft_line, if_pos rfl]
      show M (k, 0) * (_ * _) * ((pairZ nx).χ k x.1 * (pairZ ny).χ 0 x.2) = _
      rw [(pairZ ny).zero]
      push_cast
      ring
    · intro l hl
      beta_reduce
      rw [ft_line, if_neg hl]
      simp
  rw [e, re_ofReal_mul]
  push_cast
  field_simp

lemma fullStiff_line [NeZero nx] [NeZero ny] (P : Per1 a s nx) (Q : Per b t nx ny) (ht : b.thickness = none)
    (hE : contactModulus a = contactModulus b) (hL : size a 0 = size b 0) (hγ : gammaStiffness1 a = gammaStiffness b) (k : ZMod nx) :
    Q.S (k, 0) = fullStiff1 a nx k := by
  unfold Per.S fullStiff fullStiff1
  by_cases h : k = 0
  · rw [if_pos h, if_pos (by rw [h]; rfl), hγ]
  · rw [if_neg h, if_neg (fun e => h (congrArg Prod.fst e))]
    unfold stiffnessOfFreq
    rw [Q.mat]
    simp only [ht]
    unfold freq2
    have h0 : freq ny (size b 1) (0 : ZMod ny).val = 0 := by simp [freq]
    rw [h0, mul_zero, add_zero, Real.sqrt_mul_self, hE, hL]
    rw [← hL]
    exact freq_nonneg P.len (ZMod.val_lt k)

/-- **C197** Take a line and a rectangular half-space of the same length, contact modulus and Gamma stiffness.  Fields that do
not vary across the rectangle are those of the line: every column of the rectangle carries the force of the line
per unit width times the width of a grid point. -/
theorem C197_plane_strain (hva : ValidArgs a) (hsa : construct a = .ok s) (hga : a.nbGridPts = [nx])
    (hvb : ValidArgs b) (hsb : construct b = .ok t) (hgb : b.nbGridPts = [nx, ny]) (ht : b.thickness = none)
    (hE : contactModulus a = contactModulus b) (hL : size a 0 = size b 0) (hγ : gammaStiffness1 a = gammaStiffness b)
    (u w : NdArray ℝ) (hu : u.shape = [nx]) (hw : w.shape = [nx, ny]) :
    ((∀ i j, i < nx → j < ny → w.get [i, j] = u.get [i]) →
      ∃ f g, evaluateForce s u = .ok f ∧ evaluateForce t w = .ok g ∧
        ∀ i j, i < nx → j < ny → g.get [i, j] = f.get [i] * (size b 1 / ny)) ∧
    ((∀ i j, i < nx → j < ny → w.get [i, j] = u.get [i] * (size b 1 / ny)) →
      ∃ f g, evaluateDisp s u = .ok f ∧ evaluateDisp t w = .ok g ∧
        ∀ i j, i < nx → j < ny → g.get [i, j] = f.get [i]) := by
  obtain ⟨_, P⟩ := per1_of_construct hva hsa hga
  obtain ⟨_, _, Q⟩ := per_of_construct hvb hsb hgb
  have hn2 : (ny : ℝ) ≠ 0 := by exact_mod_cast NeZero.ne ny
  have hn1 : (nx : ℝ) ≠ 0 := by exact_mod_cast NeZero.ne nx
  have hx := Q.sx_pos.ne'
  have hy := Q.sy_pos.ne'
  constructor
  · intro h
    obtain ⟨f, hf, -, hf'⟩ := P.force hu
    obtain ⟨g, hg, -, hg'⟩ := Q.force hw
    refine ⟨f, g, hf, hg, fun i j hi hj => ?_⟩
    have e : (tor nx ny fun i j => w.get [i, j]) = fun y => tor1 nx (fun i => u.get [i]) y.1 := by
      funext y; unfold tor tor1; exact h _ _ (ZMod.val_lt _) (ZMod.val_lt _)
    rw [hf', hg', e, act_line, P.area, Q.area]
    rw [(pairZ nx).act_congr (T := fun k => (fullStiff1 a nx k : ℂ)) (fun k => by rw [fullStiff_line P Q ht hE hL hγ]) (fun _ => rfl), hL]
    field_simp
  · intro h
    obtain ⟨f, hf, -, hf'⟩ := P.disp hu
    obtain ⟨g, hg, -, hg'⟩ := Q.disp hw
    refine ⟨f, g, hf, hg, fun i j hi hj => ?_⟩
    have e : (tor nx ny fun i j => w.get [i, j]) = fun y => (size b 1 / ny) * tor1 nx (fun i => u.get [i]) y.1 := by
      funext y; unfold tor tor1; beta_reduce; rw [h _ _ (ZMod.val_lt _) (ZMod.val_lt _)]; ring
    have hl := act_line (ny := ny) (fun k => (((Q.S k)⁻¹ : ℝ) : ℂ)) (fun y => (size b 1 / ny) * tor1 nx (fun i => u.get [i]) y) ((i : ZMod nx), (j : ZMod ny))
    rw [hf', hg', e, hl, act_smul1, P.area, Q.area]
    rw [(pairZ nx).act_congr (T := fun k => (((fullStiff1 a nx k)⁻¹ : ℝ) : ℂ)) (fun k => by rw [fullStiff_line P Q ht hE hL hγ]) (fun _ => rfl), hL]
    field_simp

/-- The substrates one gets by default: for a square rectangle of the length of the line the Gamma stiffnesses agree. -/
theorem C197_square_default (hq : a.q0 = none) (hqb : b.q0 = none) (ht : b.thickness = none)
    (hE : contactModulus a = contactModulus b) (hL : size a 0 = size b 0) (hsq : size b 1 = size b 0) : gammaStiffness1 a = gammaStiffness b := by
  unfold gammaStiffness1 gammaStiffness
  rw [hq, hqb, ht]
  simp only [hE, hL, hsq]
  ring

/-- A line and a square of the same length. -/
noncomputable def demoSquare : Args := ⟨[5, 3], 1, [2, 2], none, none, 0, none⟩

example : (∃ s, construct demoArgs1 = .ok s) ∧ ValidArgs demoArgs1 ∧ (∃ t, construct demoSquare = .ok t) ∧ ValidArgs demoSquare ∧
    contactModulus demoArgs1 = contactModulus demoSquare ∧ size demoArgs1 0 = size demoSquare 0 ∧
    gammaStiffness1 demoArgs1 = gammaStiffness demoSquare ∧ 0 < gammaStiffness1 demoArgs1 := by
  have hγ : gammaStiffness1 demoArgs1 = gammaStiffness demoSquare :=
    C197_square_default rfl rfl rfl (by simp [contactModulus, demoArgs1, demoSquare]) (by simp [size, demoArgs1, demoSquare])
      (by simp [size, demoSquare])
  refine ⟨?_, by constructor <;> simp [demoArgs1], ?_, by constructor <;> simp [demoSquare],
    by simp [contactModulus, demoArgs1, demoSquare], by simp [size, demoArgs1, demoSquare], hγ, ?_⟩
  · rw [C13_construct_ok_iff]; simp [demoArgs1]
  · rw [C13_construct_ok_iff]; simp [demoSquare]
  · unfold gammaStiffness1
    have := Real.pi_pos
    simp only [contactModulus, demoArgs1, size]
    norm_num
    try positivity

end CM.HS
