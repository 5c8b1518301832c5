import Verif.Props.HalfSpace4
/-!
# One-dimensional periodic half-spaces (C17, C18)
-/
set_option linter.unusedSimpArgs false
namespace CM.Spec
open Finset CM.HS CM.FFT

/-- Gamma stiffness of a one-dimensional substrate: `stiffness_q0` if given, else the stiffness
`E*/2·2π/s` of the longest wave. -/
noncomputable def gammaStiffness1 (a : Args) : ℝ :=
  match a.q0 with
  | some q => q
  | none => contactModulus a / 2 * (2 * Real.pi / size a 0)

/-- Work over a line of `nx` points. -/
def work1 (nx : ℕ) (f u : NdArray ℝ) : ℝ := ∑ i ∈ range nx, f.get [i] * u.get [i]

/-- A cosine of wavevector index `k`. -/
noncomputable def wave1 (nx k : ℕ) (c φ : ℝ) : NdArray ℝ :=
  ⟨[nx], fun x => match x with
    | [i] => c * Real.cos (2 * Real.pi * (k * i / nx) + φ)
    | _ => 0⟩

end CM.Spec

namespace CM.HS
open Finset Complex CM.FFT CM.Fourier CM.Spec
open scoped ComplexConjugate

variable {a : Args} {s : HalfSpace} {nx : ℕ}

/-- **C17** In one dimension `stiffness_q0=0.0` does not work at all: whenever the remaining arguments
are acceptable the constructor raises `IndexError`, and it never succeeds. -/
theorem C17_q0_zero_fails_1d (hg : a.nbGridPts = [nx]) (hq : a.q0 = some 0) :
    (¬ ∃ s, construct a = .ok s) ∧
    (nx ≠ 0 → a.thickness = none → a.physicalSizes ≠ [] → 1 - a.poisson ^ 2 ≠ 0 → a.engineGrid = none →
      construct a = .error .indexError) := by
  constructor
  · rw [C13_construct_ok_iff]
    rintro ⟨-, -, -, -, -, -, -, h⟩
    exact (h (by simp [hg])).1 hq
  · intro hx ht hne hnu he
    have hi := initAttrs_ok (a := a) (dom := [nx]) |>.mpr
      ⟨by simp [hg], .inr ht, hne, by simpa [hg] using fun h => hx h.symm, hnu, by simp [he], rfl⟩
    rw [construct_eq, hg, hi]
    simp only [Except.bind, hg, List.length_cons, List.length_nil, List.range, List.range.loop, List.map,
      greensSerial, greensBlock1, hq]
    rfl

example : (⟨[4], 1, [1], some 0, none, 0, none⟩ : Args).q0 = some 0 := rfl

/-- **C17** In two dimensions it does: a uniform displacement then produces no force and a uniform
force no displacement. -/
theorem C17_q0_zero_2d_partial {ny : ℕ} (hv : ValidArgs a) (hs : construct a = .ok s)
    (hg : a.nbGridPts = [nx, ny]) (hq : a.q0 = some 0) (c : ℝ) :
    (∃ f, evaluateForce s ⟨[nx, ny], fun _ => c⟩ = .ok f ∧ ∀ i j, i < nx → j < ny → f.get [i, j] = 0) ∧
    (∃ u, evaluateDisp s ⟨[nx, ny], fun _ => c⟩ = .ok u ∧ ∀ i j, i < nx → j < ny → u.get [i, j] = 0) := by
  have ht : a.thickness = none := by
    obtain ⟨-, h, -⟩ := (C13_construct_ok_iff a).mp ⟨s, hs⟩
    exact h.resolve_left (by rw [hq]; simp)
  have hγ : gammaStiffness a = 0 := by rw [gammaStiffness, ht, hq]
  constructor
  · obtain ⟨f, hf, hf'⟩ := C08_gamma_response hv hs hg c
    refine ⟨f, hf, fun i j hi hj => ?_⟩
    rw [hf' i j hi hj, hγ]; ring
  · obtain ⟨_, _, P⟩ := per_of_construct hv hs hg
    obtain ⟨u, hu, -, hu'⟩ := P.rep.disp_ok (f := ⟨[nx, ny], fun _ => c⟩) rfl
    refine ⟨u, hu, fun i j hi hj => ?_⟩
    have e : (tor nx ny fun _ _ => c) = fun p => ((c : ℂ) * (pair2 nx ny).χ 0 p).re := by
      funext p; rw [(pair2 nx ny).zero]; simp [tor]
    have h := (pair2 nx ny).act_char (fun k => (P.S k)⁻¹) (fun k => by rw [P.S_neg]) 0 c
      ((i : ZMod nx), (j : ZMod ny))
    rw [← e, (pair2 nx ny).zero] at h
    rw [hu']
    have h0 : P.S 0 = 0 := by simp [Per.S, fullStiff, hγ]
    rw [h0, inv_zero, zero_mul] at h
    have h' : (pair2 nx ny).act (fun k => (((P.S k)⁻¹ : ℝ) : ℂ)) (tor nx ny fun _ _ => c)
      ((i : ZMod nx), (j : ZMod ny)) = 0 := h
    change -((pair2 nx ny).act (fun k => (((P.S k)⁻¹ : ℝ) : ℂ)) (tor nx ny fun _ _ => c)
      ((i : ZMod nx), (j : ZMod ny))) / s.areaPerPt = 0
    rw [h']; simp

/-! ## C18 -/

/-- Full stiffness spectrum of a one-dimensional substrate. -/
noncomputable def fullStiff1 (a : Args) (nx : ℕ) (k : ZMod nx) : ℝ :=
  if k = 0 then gammaStiffness1 a else Real.pi * contactModulus a * freq nx (size a 0) k.val

/-- What the proofs need about a one-dimensional substrate. -/
structure Per1 (a : Args) (s : HalfSpace) (nx : ℕ) [NeZero nx] : Prop where
  len : 0 < size a 0
  dom : s.domain = [nx]
  area : s.areaPerPt = size a 0 / nx
  greens : ∀ k, k ≤ nx / 2 → s.greens [k] = (((fullStiff1 a nx (k : ZMod nx))⁻¹ : ℝ) : ℂ)
  stiff : s.stiffness = invertGreens s.greens
  ne : ∀ k, fullStiff1 a nx k ≠ 0
  even : ∀ k, fullStiff1 a nx (-k) = fullStiff1 a nx k

lemma cast_eq_zero1 {k : ℕ} [NeZero nx] (h : k < nx) : ((k : ZMod nx) = 0) ↔ k = 0 := by
  rw [← ZMod.val_eq_zero, ZMod.val_cast_of_lt h]

lemma per1_of_construct (hv : ValidArgs a) (hs : construct a = .ok s) (hg : a.nbGridPts = [nx]) :
    ∃ _ : NeZero nx, Per1 a s nx := by
  obtain ⟨sx, m, G, hi, hG, h1, h2, h3, h4, h5, h6, h7⟩ := construct1 hs hg
  obtain ⟨-, hqt, hsz, h0, -, -, hr⟩ := initAttrs_ok.mp hi
  rw [hg] at hr h0
  have hx0 : nx ≠ 0 := fun h => h0 (by simp [h])
  have hsx : sx = size a 0 := by
    rw [← size_eq a 0 hsz]; exact (List.cons.inj (Prod.mk.inj hr).1).1
  have hm : m = ⟨a.young, a.poisson, contactModulus a, a.q0, a.thickness⟩ := (Prod.mk.inj hr).2
  subst hsx
  have px := size_pos hv hsz 0
  have : NeZero nx := ⟨hx0⟩
  have hE := contactModulus_pos hv
  have hpi := Real.pi_pos
  refine ⟨inferInstance, px, h2, ?_, ?_, h7, ?_, ?_⟩
  · unfold HalfSpace.areaPerPt; rw [h3, h1]; simp
  · intro k hk
    have hkn := half_lt hk
    rw [h6]
    simp only
    congr 1
    unfold fullStiff1 gammaStiffness1
    rw [ZMod.val_cast_of_lt hkn]
    simp only [cast_eq_zero1 hkn]
    unfold greensBlock1 at hG
    simp only [Nat.add_eq_zero_iff, one_ne_zero, and_false, if_false, Nat.zero_add] at hG
    rw [hm] at hG
    cases hq : a.q0 with
    | none =>
      rw [hq] at hG
      simp only at hG
      by_cases hc : nx / 2 + 1 ≤ 1
      · rw [if_pos hc] at hG; cases hG
      · rw [if_neg hc] at hG
        cases hG
        simp only
        by_cases h : k = 0
        · rw [if_pos h, if_pos h]
          unfold freq
          rw [if_pos (by omega), one_div]
          congr 1
          push_cast
          ring
        · rw [if_neg h, if_neg h, one_div]
    | some q =>
      rw [hq] at hG
      simp only [if_true] at hG
      by_cases hq0 : q = 0
      · rw [if_pos hq0] at hG; cases hG
      · rw [if_neg hq0] at hG
        cases hG
        by_cases h : k = 0 <;> simp [h]
  · intro k
    unfold fullStiff1
    by_cases h : k = 0
    · rw [if_pos h]
      unfold gammaStiffness1
      cases hq : a.q0 with
      | none => simp only; positivity
      | some q =>
        simp only
        rintro rfl
        exact (C17_q0_zero_fails_1d hg hq).1 ⟨s, hs⟩
    · rw [if_neg h]
      have := freq_pos px (ZMod.val_lt k) (fun h' => h ((ZMod.val_eq_zero k).mp h'))
      positivity
  · intro k
    unfold fullStiff1
    rw [freq_neg]; simp only [neg_eq_zero]

namespace Per1
variable [NeZero nx]

lemma herm (P : Per1 a s nx) : Pairing.Herm fun k => (((fullStiff1 a nx k)⁻¹ : ℝ) : ℂ) := fun k => by
  simp only [P.even, conj_ofReal]
lemma herm' (P : Per1 a s nx) : Pairing.Herm fun k => (fullStiff1 a nx k : ℂ) := fun k => by
  simp only [P.even, conj_ofReal]

lemma stiffness (P : Per1 a s nx) (k : ℕ) (hk : k ≤ nx / 2) :
    s.stiffness [k] = (fullStiff1 a nx (k : ZMod nx) : ℂ) := by
  rw [P.stiff]
  unfold invertGreens
  rw [P.greens k hk, if_pos (by simpa using P.ne _)]
  simp

lemma norm (P : Per1 a s nx) : s.normalisation = 1 / (nx : ℝ) := by
  unfold HalfSpace.normalisation; rw [P.dom]; simp

lemma area_pos (P : Per1 a s nx) : 0 < s.areaPerPt := by
  rw [P.area]
  have := P.len
  have : (0 : ℝ) < nx := by exact_mod_cast Nat.pos_of_ne_zero (NeZero.ne nx)
  positivity

lemma disp (P : Per1 a s nx) {f : NdArray ℝ} (hf : f.shape = [nx]) :
    ∃ u, evaluateDisp s f = .ok u ∧ u.shape = [nx] ∧ ∀ x, u.get [x]
      = -((pairZ nx).act (fun k => (((fullStiff1 a nx k)⁻¹ : ℝ) : ℂ)) (tor1 nx fun i => f.get [i]) (x : ZMod nx))
          / s.areaPerPt := by
  refine ⟨_, by rw [evaluateDisp, if_neg (by rw [hf, P.dom]; simp)], P.dom, fun x => ?_⟩
  simp only [P.dom, ifft, fft]
  rw [P.norm]
  have := filter1 nx (fun k => s.greens [k]) _ P.herm P.greens (fun i => -(f.get [i])) x
  have h2 := (pairZ nx).act_lin (fun k => (((fullStiff1 a nx k)⁻¹ : ℝ) : ℂ)) (-1) 0 (tor1 nx fun i => f.get [i])
    (fun _ => 0) (x : ZMod nx)
  have e : tor1 nx (fun i => -(f.get [i])) = fun p => -1 * tor1 nx (fun i => f.get [i]) p + 0 * 0 := by
    funext p; simp [tor1]
  rw [e, h2] at this
  have : irfft1 nx (fun k => rfft1 nx (fun i => -(f.get [i])) k * s.greens [k]) x / (nx : ℝ)
      = -((pairZ nx).act (fun k => (((fullStiff1 a nx k)⁻¹ : ℝ) : ℂ)) (tor1 nx fun i => f.get [i]) (x : ZMod nx)) := by
    rw [this]; ring
  rw [← this]; ring

lemma force (P : Per1 a s nx) {u : NdArray ℝ} (hu : u.shape = [nx]) :
    ∃ f, evaluateForce s u = .ok f ∧ f.shape = [nx] ∧ ∀ x, f.get [x]
      = -((pairZ nx).act (fun k => (fullStiff1 a nx k : ℂ)) (tor1 nx fun i => u.get [i]) (x : ZMod nx))
          * s.areaPerPt := by
  refine ⟨_, by rw [evaluateForce, if_neg (by rw [hu, P.dom]; simp)], P.dom, fun x => ?_⟩
  simp only [P.dom, ifft, fft]
  rw [P.norm]
  have := filter1 nx (fun k => s.stiffness [k]) _ P.herm' P.stiffness (fun i => u.get [i]) x
  rw [← this]; ring

end Per1

lemma tor1_self [NeZero nx] (F : ZMod nx → ℝ) (b : ℕ → ℝ) (h : ∀ i, i < nx → b i = F (i : ZMod nx)) :
    tor1 nx b = F := by
  funext p
  unfold tor1
  rw [h _ (ZMod.val_lt _), ZMod.natCast_zmod_val]

lemma act_smul1 [NeZero nx] (S : ZMod nx → ℂ) (c : ℝ) (f : ZMod nx → ℝ) (x) :
    (pairZ nx).act S (fun y => c * f y) x = c * (pairZ nx).act S f x := by
  have := (pairZ nx).act_lin S c 0 f f x
  simp only [zero_mul, add_zero] at this
  exact this

lemma work1_tor [NeZero nx] (f u : NdArray ℝ) (F U : ZMod nx → ℝ)
    (hf : ∀ i, i < nx → f.get [i] = F (i : ZMod nx)) (hu : ∀ i, i < nx → u.get [i] = U (i : ZMod nx)) :
    work1 nx f u = ∑ p, F p * U p := by
  unfold work1
  rw [sum_zmod]
  exact sum_congr rfl fun i hi => by rw [hf i (mem_range.mp hi), hu i (mem_range.mp hi)]

section
variable (hv : ValidArgs a) (hs : construct a = .ok s) (hg : a.nbGridPts = [nx])
include hv hs hg

/-- **C18** The one-dimensional substrate is linear in both directions. -/
theorem C18_linear_1d (α β : ℝ) (f g : NdArray ℝ) (hf : f.shape = [nx]) (hg' : g.shape = [nx]) :
    (∃ u v w, evaluateDisp s f = .ok u ∧ evaluateDisp s g = .ok v ∧ evaluateDisp s (lincomb α f β g) = .ok w ∧
      ∀ i, i < nx → w.get [i] = α * u.get [i] + β * v.get [i]) ∧
    (∃ u v w, evaluateForce s f = .ok u ∧ evaluateForce s g = .ok v ∧ evaluateForce s (lincomb α f β g) = .ok w ∧
      ∀ i, i < nx → w.get [i] = α * u.get [i] + β * v.get [i]) := by
  obtain ⟨_, P⟩ := per1_of_construct hv hs hg
  have e : (tor1 nx fun i => (lincomb α f β g).get [i]) = fun p =>
    α * tor1 nx (fun i => f.get [i]) p + β * tor1 nx (fun i => g.get [i]) p := rfl
  constructor
  · obtain ⟨u, hu, -, hu'⟩ := P.disp hf
    obtain ⟨v, hv', -, hv''⟩ := P.disp hg'
    obtain ⟨w, hw, -, hw'⟩ := P.disp (f := lincomb α f β g) hf
    refine ⟨u, v, w, hu, hv', hw, fun i _ => ?_⟩
    rw [hu', hv'', hw', e, (pairZ nx).act_lin]; ring
  · obtain ⟨u, hu, -, hu'⟩ := P.force hf
    obtain ⟨v, hv', -, hv''⟩ := P.force hg'
    obtain ⟨w, hw, -, hw'⟩ := P.force (u := lincomb α f β g) hf
    refine ⟨u, v, w, hu, hv', hw, fun i _ => ?_⟩
    rw [hu', hv'', hw', e, (pairZ nx).act_lin]; ring

/-- **C18** `evaluate_force` and `evaluate_disp` are mutually inverse. -/
theorem C18_inverse_1d (f : NdArray ℝ) (hf : f.shape = [nx]) :
    (∃ u f', evaluateDisp s f = .ok u ∧ evaluateForce s u = .ok f' ∧ ∀ i, i < nx → f'.get [i] = f.get [i]) ∧
    (∃ u f', evaluateForce s f = .ok u ∧ evaluateDisp s u = .ok f' ∧ ∀ i, i < nx → f'.get [i] = f.get [i]) := by
  obtain ⟨_, P⟩ := per1_of_construct hv hs hg
  have hA := P.area_pos.ne'
  constructor
  · obtain ⟨u, hu, hush, hu'⟩ := P.disp hf
    obtain ⟨f', hf', -, hf''⟩ := P.force hush
    refine ⟨u, f', hu, hf', fun i hi => ?_⟩
    have ht : (tor1 nx fun i => u.get [i]) = fun p => (-(1 / s.areaPerPt)) *
        (pairZ nx).act (fun k => (((fullStiff1 a nx k)⁻¹ : ℝ) : ℂ)) (tor1 nx fun i => f.get [i]) p := by
      apply tor1_self; intro i _; rw [hu']; ring
    rw [hf'', ht, act_smul1, (pairZ nx).act_act P.herm,
      (pairZ nx).act_congr (T := fun _ => 1) (fun k => by
        rw [← ofReal_mul, mul_inv_cancel₀ (P.ne k), ofReal_one]) (fun _ => rfl), (pairZ nx).act_one,
      tor1_cast _ hi]
    field_simp
  · obtain ⟨u, hu, hush, hu'⟩ := P.force hf
    obtain ⟨f', hf', -, hf''⟩ := P.disp hush
    refine ⟨u, f', hu, hf', fun i hi => ?_⟩
    have ht : (tor1 nx fun i => u.get [i]) = fun p => (-s.areaPerPt) *
        (pairZ nx).act (fun k => (fullStiff1 a nx k : ℂ)) (tor1 nx fun i => f.get [i]) p := by
      apply tor1_self; intro i _; rw [hu']; ring
    rw [hf'', ht, act_smul1, (pairZ nx).act_act P.herm',
      (pairZ nx).act_congr (T := fun _ => 1) (fun k => by
        rw [← ofReal_mul, inv_mul_cancel₀ (P.ne k), ofReal_one]) (fun _ => rfl), (pairZ nx).act_one,
      tor1_cast _ hi]
    field_simp

/-- **C18** Reciprocity. -/
theorem C18_reciprocal_1d (f g : NdArray ℝ) (hf : f.shape = [nx]) (hg' : g.shape = [nx]) :
    ∃ u v, evaluateDisp s f = .ok u ∧ evaluateDisp s g = .ok v ∧ work1 nx f v = work1 nx g u := by
  obtain ⟨_, P⟩ := per1_of_construct hv hs hg
  obtain ⟨u, hu, -, hu'⟩ := P.disp hf
  obtain ⟨v, hv', -, hv''⟩ := P.disp hg'
  refine ⟨u, v, hu, hv', ?_⟩
  rw [work1_tor f v (tor1 nx fun i => f.get [i]) (fun p => -((pairZ nx).act (fun k => (((fullStiff1 a nx k)⁻¹ : ℝ) : ℂ)) (tor1 nx fun i => g.get [i]) p) / s.areaPerPt)
      (fun i hi => (tor1_cast (fun i => f.get [i]) hi).symm) (fun i _ => hv'' i),
    work1_tor g u (tor1 nx fun i => g.get [i]) (fun p => -((pairZ nx).act (fun k => (((fullStiff1 a nx k)⁻¹ : ℝ) : ℂ)) (tor1 nx fun i => f.get [i]) p) / s.areaPerPt)
      (fun i hi => (tor1_cast (fun i => g.get [i]) hi).symm) (fun i _ => hu' i)]
  have h := (pairZ nx).recip_of_even ((pairZ nx).ker_even (fun k => (fullStiff1 a nx k)⁻¹))
    (tor1 nx fun i => f.get [i]) (tor1 nx fun i => g.get [i])
  simp only [mul_div_assoc', mul_neg, ← sum_div, sum_neg_distrib]
  rw [h]

omit hv hs hg in
lemma tor1_wave [NeZero nx] (k : ℕ) (c φ : ℝ) :
    (tor1 nx fun i => (wave1 nx k c φ).get [i]) = fun p =>
      (((c : ℂ) * exp (φ * I)) * (pairZ nx).χ (k : ZMod nx) p).re := by
  apply tor1_self
  intro i hi
  have := cis_char nx k i
  simp only [Int.cast_natCast] at this
  rw [← this]
  simp only [cis, wave1]
  rw [mul_assoc (c : ℂ), ← Complex.exp_add, re_ofReal_mul]
  congr 1
  rw [show (φ * I + 2 * Real.pi * I * ((k * i : ℤ) : ℂ) / nx : ℂ)
    = ((2 * Real.pi * (k * i / nx) + φ : ℝ) : ℂ) * I by push_cast; ring]
  rw [Complex.exp_ofReal_mul_I_re]

/-- **C18** Every cosine other than the uniform one has the stiffness `E*|q|/2` per length; the
uniform field has the Gamma stiffness. -/
theorem C18_wave_1d {k : ℕ} (hk : k < nx) (c φ : ℝ) :
    ∃ f, evaluateForce s (wave1 nx k c φ) = .ok f ∧ ∀ i, i < nx →
      f.get [i] = -((if k = 0 then gammaStiffness1 a else contactModulus a / 2 * |waveComponent nx (size a 0) k|)
        * (size a 0 / nx)) * (wave1 nx k c φ).get [i] := by
  obtain ⟨_, P⟩ := per1_of_construct hv hs hg
  obtain ⟨f, hf, -, hf'⟩ := P.force (u := wave1 nx k c φ) rfl
  refine ⟨f, hf, fun i hi => ?_⟩
  have hw : (wave1 nx k c φ).get [i] = tor1 nx (fun i => (wave1 nx k c φ).get [i]) (i : ZMod nx) :=
    (tor1_cast (fun i => (wave1 nx k c φ).get [i]) hi).symm
  rw [hf', hw, tor1_wave, (pairZ nx).act_char _ P.even, P.area]
  have hS : fullStiff1 a nx (k : ZMod nx)
      = if k = 0 then gammaStiffness1 a else contactModulus a / 2 * |waveComponent nx (size a 0) k| := by
    unfold fullStiff1
    rw [ZMod.val_cast_of_lt hk]
    simp only [cast_eq_zero1 hk]
    by_cases h0 : k = 0
    · rw [if_pos h0, if_pos h0]
    · rw [if_neg h0, if_neg h0]
      have hfr := freq_nonneg P.len hk
      have : |waveComponent nx (size a 0) k| = 2 * Real.pi * freq nx (size a 0) k := by
        rw [← abs_of_nonneg (show 0 ≤ 2 * Real.pi * freq nx (size a 0) k by have := Real.pi_pos; positivity)]
        rw [← sq_eq_sq_iff_abs_eq_abs, freq_wave]; ring
      rw [this]; ring
  rw [hS]; ring

end

/-- **C18** (finding) The thickness is not honoured: a one-dimensional layer of any thickness is the
very same substrate as the infinitely deep one. -/
theorem C18_thickness_ignored_1d (hg : a.nbGridPts = [nx]) (hq : a.q0 = none) (h : ℝ) (f : NdArray ℝ) :
    (∀ s, construct { a with thickness := some h } = .ok s →
      ∃ s', construct { a with thickness := none } = .ok s' ∧ evaluateDisp s f = evaluateDisp s' f ∧
        evaluateForce s f = evaluateForce s' f) := by
  intro s hs
  obtain ⟨grid, E, sz, q0, th, nu, eg⟩ := a
  simp only at hg hq hs ⊢
  subst hg
  obtain ⟨sx, m, G, hi, hG, h1, h2, h3, h4, h5, h6, h7⟩ := construct1 hs (nx := nx) rfl
  obtain ⟨g1, g2, g3, g4, g5, g6, hr⟩ := initAttrs_ok.mp hi
  have hr1 := (Prod.mk.inj hr).1
  have hr2 := (Prod.mk.inj hr).2
  have hi' := initAttrs_ok (a := ⟨[nx], E, sz, q0, none, nu, eg⟩) (dom := [nx]) |>.mpr
      ⟨g1, .inr rfl, g3, g4, g5, g6, rfl⟩
  have hr1' : (List.range [nx].length).map
      (fun i => sz.getD (min i (sz.length - 1)) 0) = [sx] := hr1.symm
  have hG' : greensBlock1 ⟨E, nu, E / (1 - nu ^ 2), q0, none⟩ nx sx 0 (nx / 2 + 1)
      = .ok G := by
    rw [← hG, hr2]; rfl
  refine ⟨_, by
    rw [construct_eq, hi']
    simp only [Except.bind, hr1', greensSerial]
    rw [hG']
    rfl, ?_⟩
  constructor
  · unfold evaluateDisp
    simp only [HalfSpace.areaPerPt, HalfSpace.normalisation, h1, h2, h3, h6]
    rfl
  · unfold evaluateForce
    simp only [HalfSpace.areaPerPt, HalfSpace.normalisation, h1, h2, h3, h7, h6]
    rfl

/-- A concrete one-dimensional substrate. -/
noncomputable def demoArgs1 : Args := ⟨[5], 1, [2], none, none, 0, none⟩

example : (∃ s, construct demoArgs1 = .ok s) ∧ ValidArgs demoArgs1 ∧ demoArgs1.nbGridPts = [5] := by
  refine ⟨?_, by constructor <;> simp [demoArgs1], rfl⟩
  rw [C13_construct_ok_iff]; simp [demoArgs1]

example : ∃ s, construct { demoArgs1 with thickness := some 3 } = .ok s := by
  rw [C13_construct_ok_iff]; simp [demoArgs1]

end CM.HS
