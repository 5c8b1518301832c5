import Verif.Props.HalfSpace1D
import Verif.Lemmas.ScalarProduct
/-!
# C197: energies of one-dimensional periodic half-spaces

The counterparts of C04, C05, C07 and C15 for line contacts, and the relation to the two-dimensional substrate.
-/
set_option linter.unusedSimpArgs false
namespace CM.Spec
open CM.FFT

/-- A line of `n` values moved cyclically by `t` points. -/
def roll1 (n t : ℕ) (f : NdArray ℝ) : NdArray ℝ :=
  ⟨[n], fun x => match x with
    | [i] => f.get [(i + t) % n]
    | _ => 0⟩

end CM.Spec

namespace CM.HS
open Finset Complex CM.FFT CM.Fourier CM.Spec
open scoped ComplexConjugate

variable {a : Args} {s : HalfSpace} {nx : ℕ}

namespace Per1
variable [NeZero nx]

lemma pos (P : Per1 a s nx) (hv : ValidArgs a) (hγ : 0 < gammaStiffness1 a) (k : ZMod nx) : 0 < fullStiff1 a nx k := by
  unfold fullStiff1
  by_cases h : k = 0
  · rw [if_pos h]; exact hγ
  · rw [if_neg h]
    have := freq_pos P.len (ZMod.val_lt k) (fun h' => h ((ZMod.val_eq_zero k).mp h'))
    have := contactModulus_pos hv
    have := Real.pi_pos
    positivity

/-- Real-space energy as a spectral sum. -/
lemma energy (P : Per1 a s nx) {u : NdArray ℝ} (hu : u.shape = [nx]) :
    ∃ f, evaluate s u true true = .ok (some (s.areaPerPt / (2 * nx) *
        ∑ k, fullStiff1 a nx k * normSq ((pairZ nx).ft (fun y => (tor1 nx (fun i => u.get [i]) y : ℂ)) k)),
        some f) ∧ evaluateForce s u = .ok f := by
  obtain ⟨f, h1, h2, h3⟩ := P.force hu
  refine ⟨f, ?_, h1⟩
  unfold evaluate
  simp only [if_true, h1, bind, Except.bind, pure, Except.pure]
  congr 3
  unfold evaluateElasticEnergy
  rw [P.dom]
  simp only [sumShape]
  have hw : ∑ i ∈ range nx, u.get [i] * -(f.get [i])
      = ∑ p, tor1 nx (fun i => u.get [i]) p *
          ((pairZ nx).act (fun k => (fullStiff1 a nx k : ℂ)) (tor1 nx fun i => u.get [i]) p) * s.areaPerPt := by
    rw [sum_zmod]
    refine sum_congr rfl fun i hi => ?_
    rw [h3, tor1_cast _ (mem_range.mp hi)]; ring
  rw [hw, ← sum_mul]
  have he := (pairZ nx).energy (fullStiff1 a nx) P.even (tor1 nx fun i => u.get [i])
  rw [← he, ZMod.card]
  have : (nx : ℝ) ≠ 0 := by exact_mod_cast NeZero.ne nx
  field_simp
  norm_num
  ring

/-- Fourier-space energy as a spectral sum. -/
lemma energyK (P : Per1 a s nx) {u : NdArray ℝ} (hu : u.shape = [nx]) :
    evaluate s u true false = .ok (some (s.areaPerPt / (2 * nx) *
        ∑ k, fullStiff1 a nx k * normSq ((pairZ nx).ft (fun y => (tor1 nx (fun i => u.get [i]) y : ℂ)) k)),
        none) := by
  have hb : bcastOk u.shape s.domain := by
    rw [hu, P.dom]; exact ⟨le_refl _, by simp⟩
  unfold evaluate
  simp only [Bool.false_eq_true, if_false, if_true, hb, pure, Except.pure]
  congr 3
  unfold evaluateElasticEnergyK evaluateKForceK
  rw [P.dom, hu]
  simp only [List.headD_cons, List.prod_cons, List.prod_nil, mul_one, serialBlock, asGrid]
  have hsp := scalarProduct_serial nx 1
  simp only [mul_one] at hsp
  rw [hsp]
  rw [fold_zmod nx (fun k => fullStiff1 a nx k *
    normSq ((pairZ nx).ft (fun y => (tor1 nx (fun i => u.get [i]) y : ℂ)) k))]
  · rw [sum_div, mul_sum, mul_sum]
    refine sum_congr rfl fun kx hkx => ?_
    rw [sum_range_one]
    have hst := P.stiffness kx (Nat.lt_succ_iff.mp (mem_range.mp hkx))
    rw [hst]
    have hcong : fft [nx] (fun x => u.get (bcastIndex [nx] x)) [kx]
        = (pairZ nx).ft (fun y => (tor1 nx (fun i => u.get [i]) y : ℂ)) (kx : ZMod nx) := by
      simp only [fft]
      rw [rfft1_eq]
      congr 1
      funext p
      unfold tor1
      congr 1
      simp only [bcastIndex, List.length_cons, List.length_nil, Nat.sub_self, List.drop_zero,
        List.zipWith_cons_cons, List.zipWith_nil_left]
      have h1 : (if nx = 1 then 0 else p.val) = p.val := by
        split_ifs with h
        · have := ZMod.val_lt p; omega
        · rfl
      rw [h1]
    rw [hcong]
    generalize (pairZ nx).ft (fun y => (tor1 nx (fun i => u.get [i]) y : ℂ)) (kx : ZMod nx) = z
    have hre : (conj z * (-(fullStiff1 a nx (kx : ZMod nx) : ℂ) * z * s.areaPerPt)).re
        = -(fullStiff1 a nx (kx : ZMod nx)) * s.areaPerPt * normSq z := by
      have : conj z * (-(fullStiff1 a nx (kx : ZMod nx) : ℂ) * z * s.areaPerPt)
          = ((-(fullStiff1 a nx (kx : ZMod nx)) * s.areaPerPt * normSq z : ℝ) : ℂ) := by
        push_cast; rw [normSq_eq_conj_mul_self]; ring
      rw [this, ofReal_re]
    rw [hre]
    have : (nx : ℝ) ≠ 0 := by exact_mod_cast NeZero.ne nx
    field_simp
    norm_num
    ring
  · intro k
    rw [P.even, (pairZ nx).ft_neg, normSq_conj]

end Per1

section
variable (hv : ValidArgs a) (hs : construct a = .ok s) (hg : a.nbGridPts = [nx])
include hv hs hg

/-- **C197** The energy computed in real space is the energy computed from the half spectrum, whatever the parity of the line. -/
theorem C197_energy_real_eq_fourier (u : NdArray ℝ) (hu : u.shape = [nx]) :
    ∃ e f, evaluate s u true true = .ok (some e, some f) ∧ evaluate s u true false = .ok (some e, none) ∧
      evaluateForce s u = .ok f ∧ e = -(1 / 2) * work1 nx f u := by
  obtain ⟨_, P⟩ := per1_of_construct hv hs hg
  obtain ⟨f, hf, hf'⟩ := P.energy hu
  refine ⟨_, f, hf, P.energyK hu, hf', ?_⟩
  have h2 := hf
  unfold evaluate at h2
  simp only [if_true, hf', bind, Except.bind, pure, Except.pure, Except.ok.injEq, Prod.mk.injEq, Option.some.injEq, and_true] at h2
  rw [← h2]
  unfold evaluateElasticEnergy
  rw [P.dom]
  simp only [sumShape, work1, mul_sum]
  refine sum_congr rfl fun i _ => ?_
  norm_num
  ring

/-- **C197** With a positive Gamma stiffness the energy is never negative and vanishes for the undeformed line only. -/
theorem C197_energy_positive (hγ : 0 < gammaStiffness1 a) (u : NdArray ℝ) (hu : u.shape = [nx]) :
    ∃ e, evaluate s u true false = .ok (some e, none) ∧ 0 ≤ e ∧ (e = 0 ↔ ∀ i, i < nx → u.get [i] = 0) := by
  obtain ⟨_, P⟩ := per1_of_construct hv hs hg
  have hA := P.area_pos
  have hnx : (0 : ℝ) < nx := by exact_mod_cast Nat.pos_of_ne_zero (NeZero.ne nx)
  have hS := P.pos hv hγ
  refine ⟨_, P.energyK hu, mul_nonneg (by positivity) (sum_nonneg fun k _ => mul_nonneg (hS k).le (normSq_nonneg _)), ?_⟩
  rw [mul_eq_zero, or_iff_right (by positivity),
    sum_eq_zero_iff_of_nonneg (fun k _ => mul_nonneg (hS k).le (normSq_nonneg _))]
  have h1 : (∀ k ∈ univ, fullStiff1 a nx k * normSq ((pairZ nx).ft (fun y => (tor1 nx (fun i => u.get [i]) y : ℂ)) k) = 0)
      ↔ ∀ k, (pairZ nx).ft (fun y => (tor1 nx (fun i => u.get [i]) y : ℂ)) k = 0 := by
    simp only [mem_univ, true_implies]
    refine forall_congr' fun k => ?_
    simp [(hS k).ne']
  rw [h1, (pairZ nx).ft_eq_zero_iff]
  constructor
  · intro h i hi
    have := h (i : ZMod nx)
    rw [tor1_cast _ hi] at this
    exact_mod_cast this
  · intro h p
    have := h p.val (ZMod.val_lt _)
    simp [tor1, this]

/-- **C197** `E(u+v) = E(u) - F(u)·v + E(v)`: minus the forces is the gradient of the energy. -/
theorem C197_energy_gradient (u v : NdArray ℝ) (hu : u.shape = [nx]) (hv' : v.shape = [nx]) :
    ∃ eu ev euv f, evaluate s u true false = .ok (some eu, none) ∧
      evaluate s v true false = .ok (some ev, none) ∧
      evaluate s (lincomb 1 u 1 v) true false = .ok (some euv, none) ∧
      evaluateForce s u = .ok f ∧ euv = eu - work1 nx f v + ev := by
  obtain ⟨_, P⟩ := per1_of_construct hv hs hg
  obtain ⟨f, hf, -, hf'⟩ := P.force hu
  refine ⟨_, _, _, f, P.energyK hu, P.energyK hv', P.energyK (u := lincomb 1 u 1 v) hu, hf, ?_⟩
  have eu := (pairZ nx).energy _ P.even (tor1 nx fun i => u.get [i])
  have ev := (pairZ nx).energy _ P.even (tor1 nx fun i => v.get [i])
  have euv := (pairZ nx).energy _ P.even (tor1 nx fun i => (lincomb 1 u 1 v).get [i])
  rw [← eu, ← ev, ← euv]
  have hlin : (tor1 nx fun i => (lincomb 1 u 1 v).get [i]) = fun p =>
    1 * tor1 nx (fun i => u.get [i]) p + 1 * tor1 nx (fun i => v.get [i]) p := rfl
  rw [hlin]
  simp only [(pairZ nx).act_lin]
  have hr := (pairZ nx).recip_of_even ((pairZ nx).ker_even (fullStiff1 a nx))
    (tor1 nx fun i => u.get [i]) (tor1 nx fun i => v.get [i])
  have hw : work1 nx f v = -s.areaPerPt * ∑ p, tor1 nx (fun i => v.get [i]) p *
      (pairZ nx).act (fun k => (fullStiff1 a nx k : ℂ)) (tor1 nx fun i => u.get [i]) p := by
    rw [work1_tor f v (fun p => -((pairZ nx).act (fun k => (fullStiff1 a nx k : ℂ)) (tor1 nx fun i => u.get [i]) p) * s.areaPerPt) (tor1 nx fun i => v.get [i]) (fun i _ => hf' i)
      (fun i hi => (tor1_cast (fun i => v.get [i]) hi).symm), mul_sum]
    refine sum_congr rfl fun p _ => ?_
    ring
  rw [hw, ZMod.card]
  have hx : (nx : ℝ) ≠ 0 := by exact_mod_cast NeZero.ne nx
  have hexp : ∑ x, (1 * tor1 nx (fun i => u.get [i]) x + 1 * tor1 nx (fun i => v.get [i]) x) *
      (1 * (pairZ nx).act (fun k => (fullStiff1 a nx k : ℂ)) (tor1 nx fun i => u.get [i]) x
        + 1 * (pairZ nx).act (fun k => (fullStiff1 a nx k : ℂ)) (tor1 nx fun i => v.get [i]) x)
      = ∑ x, tor1 nx (fun i => u.get [i]) x * (pairZ nx).act (fun k => (fullStiff1 a nx k : ℂ)) (tor1 nx fun i => u.get [i]) x
        + ∑ x, tor1 nx (fun i => v.get [i]) x * (pairZ nx).act (fun k => (fullStiff1 a nx k : ℂ)) (tor1 nx fun i => v.get [i]) x
        + 2 * ∑ x, tor1 nx (fun i => v.get [i]) x * (pairZ nx).act (fun k => (fullStiff1 a nx k : ℂ)) (tor1 nx fun i => u.get [i]) x := by
    rw [two_mul]
    nth_rewrite 1 [← hr]
    simp only [← sum_add_distrib]
    exact sum_congr rfl fun x _ => by ring
  rw [hexp]
  field_simp
  ring

/-- **C197** Moving the forces along the line moves the displacements, and conversely. -/
theorem C197_translation (t : ℕ) (f : NdArray ℝ) (hf : f.shape = [nx]) :
    (∃ u v, evaluateDisp s f = .ok u ∧ evaluateDisp s (roll1 nx t f) = .ok v ∧
      ∀ i, i < nx → v.get [i] = u.get [(i + t) % nx]) ∧
    (∃ u v, evaluateForce s f = .ok u ∧ evaluateForce s (roll1 nx t f) = .ok v ∧
      ∀ i, i < nx → v.get [i] = u.get [(i + t) % nx]) := by
  obtain ⟨_, P⟩ := per1_of_construct hv hs hg
  have hroll : (tor1 nx fun i => (roll1 nx t f).get [i]) = fun y => tor1 nx (fun i => f.get [i]) (y + (t : ZMod nx)) := by
    funext y
    simp only [tor1, roll1]
    congr 2
    rw [ZMod.val_add, ZMod.val_natCast, Nat.add_mod_mod]
  have hmod : ∀ i : ℕ, (((i + t) % nx : ℕ) : ZMod nx) = (i : ZMod nx) + (t : ZMod nx) := by
    intro i; rw [ZMod.natCast_mod]; push_cast; ring
  have hsh : ∀ (S : ZMod nx → ℂ) (i : ℕ), (pairZ nx).act S (fun y => tor1 nx (fun i => f.get [i]) (y + (t : ZMod nx))) (i : ZMod nx)
      = (pairZ nx).act S (tor1 nx fun i => f.get [i]) (((i + t) % nx : ℕ) : ZMod nx) := by
    intro S i
    have h := (pairZ nx).act_shift S (tor1 nx fun i => f.get [i]) (-(t : ZMod nx)) (i : ZMod nx)
    simp only [sub_neg_eq_add] at h
    rw [h, hmod]
  constructor
  · obtain ⟨u, hu, -, hu'⟩ := P.disp hf
    obtain ⟨v, hv1, -, hv2⟩ := P.disp (f := roll1 nx t f) rfl
    refine ⟨u, v, hu, hv1, fun i hi => ?_⟩
    rw [hu', hv2, hroll, hsh]
  · obtain ⟨u, hu, -, hu'⟩ := P.force hf
    obtain ⟨v, hv1, -, hv2⟩ := P.force (u := roll1 nx t f) rfl
    refine ⟨u, v, hu, hv1, fun i hi => ?_⟩
    rw [hu', hv2, hroll, hsh]

end

end CM.HS
