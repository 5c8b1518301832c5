import Verif.Props.HalfSpace
/-!
# Properties of the two-dimensional periodic half-space (C01-C05, C07-C09, C15, C16)
-/
set_option linter.unusedSimpArgs false
namespace CM.HS
open Finset Complex CM.FFT CM.Fourier CM.Spec
open scoped ComplexConjugate

variable {a : Args} {s : HalfSpace} {nx ny : ℕ}

/-! ## A concrete substrate -/

/-- A 3×4 substrate of size 1×2 with default Gamma stiffness, used to exhibit the hypotheses. -/
noncomputable def demoArgs : Args := ⟨[3, 4], 1, [1, 2], none, none, 0, none⟩
/-- The same with the Gamma response switched off. -/
noncomputable def demoArgs0 : Args := ⟨[3, 4], 1, [1, 2], some 0, none, 0, none⟩
/-- The same as a layer of thickness 1/2 and Poisson number 1/4; the single length is repeated. -/
noncomputable def demoArgsH : Args := ⟨[3, 4], 1, [2], none, some (1/2), 1/4, some [3, 4]⟩

lemma demo_valid : ValidArgs demoArgs := by
  constructor <;> simp [demoArgs]
lemma demo0_valid : ValidArgs demoArgs0 := by
  constructor <;> simp [demoArgs0]
lemma demoH_valid : ValidArgs demoArgsH := by
  constructor <;> norm_num [demoArgsH]

lemma demo_ok : ∃ s, construct demoArgs = .ok s := by
  rw [C13_construct_ok_iff]; simp [demoArgs]
lemma demo0_ok : ∃ s, construct demoArgs0 = .ok s := by
  rw [C13_construct_ok_iff]; simp [demoArgs0]
lemma demoH_ok : ∃ s, construct demoArgsH = .ok s := by
  rw [C13_construct_ok_iff]; simp [demoArgsH]; norm_num

/-- The hypotheses of the theorems of this file are met. -/
example : (∃ s, construct demoArgs = .ok s) ∧ ValidArgs demoArgs ∧ demoArgs.nbGridPts = [3, 4] ∧
    0 < gammaStiffness demoArgs := by
  refine ⟨demo_ok, demo_valid, rfl, ?_⟩
  have := Real.pi_pos
  simp only [gammaStiffness, demoArgs, contactModulus, size]
  norm_num; positivity

/-! ## C16: shapes -/

/-- **C16** All four evaluation methods raise `Error` exactly when the array does not have the shape
of the grid. -/
theorem C16_shape_mismatch_iff (hs : construct a = .ok s) (f : NdArray ℝ) :
    (evaluateDisp s f = .error .error ↔ f.shape ≠ a.nbGridPts) ∧
    (evaluateForce s f = .error .error ↔ f.shape ≠ a.nbGridPts) ∧
    (evaluateKDisp s f = .error .error ↔ f.shape ≠ a.nbGridPts) ∧
    (evaluateKForce s f = .error .error ↔ f.shape ≠ a.nbGridPts) ∧
    (f.shape = a.nbGridPts → (∃ u, evaluateDisp s f = .ok u ∧ u.shape = a.nbGridPts) ∧
      (∃ u, evaluateForce s f = .ok u ∧ u.shape = a.nbGridPts) ∧
      (∃ u, evaluateKDisp s f = .ok u) ∧ (∃ u, evaluateKForce s f = .ok u)) := by
  have hd : s.domain = a.nbGridPts := by
    rw [construct_eq] at hs
    cases h : initAttrs a a.nbGridPts with
    | error e => rw [h] at hs; cases hs
    | ok r =>
      rw [h] at hs
      simp only [Except.bind] at hs
      cases hG : greensSerial r.2 a.nbGridPts r.1 with
      | error e => rw [hG] at hs; cases hs
      | ok G => rw [hG] at hs; cases hs; rfl
  unfold evaluateDisp evaluateForce evaluateKDisp evaluateKForce
  rw [hd]
  by_cases h : f.shape = a.nbGridPts
  · simp [h]
  · simp [h]

example : ∃ (s : HalfSpace), construct demoArgs = .ok s ∧
    (⟨[4, 3], fun _ => 0⟩ : NdArray ℝ).shape ≠ demoArgs.nbGridPts :=
  ⟨_, demo_ok.choose_spec, by simp [demoArgs]⟩

/-- **C103** (finding) `evaluate` with `forces=False` does *not* reject a wrong shape: a
one-element array is silently broadcast over the grid, whereas `forces=True` raises. -/
theorem C103_evaluate_broadcasts (hs : construct a = .ok s) (hg : a.nbGridPts = [nx, ny])
    (c : ℝ) :
    (∃ e, evaluate s ⟨[1], fun _ => c⟩ true false = .ok (some e, none) ∧
      evaluate s ⟨[nx, ny], fun _ => c⟩ true false = .ok (some e, none)) ∧
    evaluate s ⟨[1], fun _ => c⟩ true true = .error .error := by
  obtain ⟨sx, sy, m, G, hi, hG, h1, h2, -⟩ := construct2 hs hg
  have hb : bcastOk [1] [nx, ny] := by
    refine ⟨by simp, ?_⟩
    simp
  constructor
  · have hb' : bcastOk s.domain s.domain := by
      rw [h2]; exact ⟨le_refl _, by simp⟩
    rw [← h2] at hb ⊢
    unfold evaluate
    simp [hb, hb', pure, Except.pure]
  · unfold evaluate evaluateForce
    simp [h2, bind, Except.bind]

/-- **C103** With `forces=True` every wrong shape is rejected. -/
theorem C103_forces_checked_partial (hs : construct a = .ok s) (u : NdArray ℝ) (pot : Bool) :
    evaluate s u pot true = .error .error ↔ u.shape ≠ a.nbGridPts := by
  have h := (C16_shape_mismatch_iff hs u).2.1
  unfold evaluate
  rw [if_pos rfl]
  cases hf : evaluateForce s u with
  | error e =>
    rw [← h, hf]
    simp [bind, Except.bind]
  | ok f =>
    rw [hf] at h
    rw [← h]
    cases pot <;> simp [bind, Except.bind, pure, Except.pure]

/-! ## C01: linearity -/

section
variable (hv : ValidArgs a) (hs : construct a = .ok s) (hg : a.nbGridPts = [nx, ny])
include hv hs hg

/-- **C01** `evaluate_disp` is linear. -/
theorem C01_disp_linear (α β : ℝ) (f g : NdArray ℝ) (hf : f.shape = [nx, ny]) (hg' : g.shape = [nx, ny]) :
    ∃ u v w, evaluateDisp s f = .ok u ∧ evaluateDisp s g = .ok v ∧
      evaluateDisp s (lincomb α f β g) = .ok w ∧
      ∀ i j, i < nx → j < ny → w.get [i, j] = α * u.get [i, j] + β * v.get [i, j] := by
  obtain ⟨_, _, P⟩ := per_of_construct hv hs hg
  obtain ⟨u, hu, -, hu'⟩ := P.rep.disp_ok hf
  obtain ⟨v, hv', -, hv''⟩ := P.rep.disp_ok hg'
  obtain ⟨w, hw, -, hw'⟩ := P.rep.disp_ok (f := lincomb α f β g) hf
  refine ⟨u, v, w, hu, hv', hw, fun i j _ _ => ?_⟩
  rw [hu', hv'', hw']
  have := (pair2 nx ny).act_lin (fun k => ((fullStiff s.mat nx ny (size a 0) (size a 1) (gammaStiffness a) k)⁻¹ : ℝ)) α β
    (tor nx ny fun i j => f.get [i, j]) (tor nx ny fun i j => g.get [i, j]) ((i : ZMod nx), (j : ZMod ny))
  rw [show (tor nx ny fun i j => (lincomb α f β g).get [i, j]) = fun p =>
    α * tor nx ny (fun i j => f.get [i, j]) p + β * tor nx ny (fun i j => g.get [i, j]) p from rfl, this]
  ring

/-- **C01** `evaluate_force` is linear. -/
theorem C01_force_linear (α β : ℝ) (f g : NdArray ℝ) (hf : f.shape = [nx, ny]) (hg' : g.shape = [nx, ny]) :
    ∃ u v w, evaluateForce s f = .ok u ∧ evaluateForce s g = .ok v ∧
      evaluateForce s (lincomb α f β g) = .ok w ∧
      ∀ i j, i < nx → j < ny → w.get [i, j] = α * u.get [i, j] + β * v.get [i, j] := by
  obtain ⟨_, _, P⟩ := per_of_construct hv hs hg
  obtain ⟨u, hu, -, hu'⟩ := P.rep.force_ok hf
  obtain ⟨v, hv', -, hv''⟩ := P.rep.force_ok hg'
  obtain ⟨w, hw, -, hw'⟩ := P.rep.force_ok (u := lincomb α f β g) hf
  refine ⟨u, v, w, hu, hv', hw, fun i j _ _ => ?_⟩
  rw [hu', hv'', hw']
  have := (pair2 nx ny).act_lin (fun k => (((fullStiff s.mat nx ny (size a 0) (size a 1) (gammaStiffness a) k)⁻¹ : ℝ) : ℂ)⁻¹) α β
    (tor nx ny fun i j => f.get [i, j]) (tor nx ny fun i j => g.get [i, j]) ((i : ZMod nx), (j : ZMod ny))
  rw [show (tor nx ny fun i j => (lincomb α f β g).get [i, j]) = fun p =>
    α * tor nx ny (fun i j => f.get [i, j]) p + β * tor nx ny (fun i j => g.get [i, j]) p from rfl, this]
  ring

/-! ## C02: mutually inverse -/

omit hv hs hg in
lemma act_smul [NeZero nx] [NeZero ny] (S : ZMod nx × ZMod ny → ℂ) (c : ℝ) (f : ZMod nx × ZMod ny → ℝ) (x) :
    (pair2 nx ny).act S (fun y => c * f y) x = c * (pair2 nx ny).act S f x := by
  have := (pair2 nx ny).act_lin S c 0 f f x
  simp only [zero_mul, add_zero] at this
  exact this

omit hv hs hg in
lemma force_disp_act [NeZero nx] [NeZero ny] (P : Per a s nx ny) (f : NdArray ℝ) (hf : f.shape = [nx, ny]) :
    ∃ u f', evaluateDisp s f = .ok u ∧ evaluateForce s u = .ok f' ∧ ∀ i j, f'.get [i, j] =
      (pair2 nx ny).act (fun k => if fullStiff s.mat nx ny (size a 0) (size a 1) (gammaStiffness a) k = 0 then 0 else 1)
        (tor nx ny fun i j => f.get [i, j]) ((i : ZMod nx), (j : ZMod ny)) := by
  obtain ⟨u, hu, hush, hu'⟩ := P.rep.disp_ok hf
  obtain ⟨f', hf', -, hf''⟩ := P.rep.force_ok hush
  refine ⟨u, f', hu, hf', fun i j => ?_⟩
  have hA : s.areaPerPt ≠ 0 := by
    rw [P.area]
    have := P.sx_pos; have := P.sy_pos
    have : (0 : ℝ) < nx := by exact_mod_cast Nat.pos_of_ne_zero (NeZero.ne nx)
    have : (0 : ℝ) < ny := by exact_mod_cast Nat.pos_of_ne_zero (NeZero.ne ny)
    positivity
  rw [hf'']
  set S := fullStiff s.mat nx ny (size a 0) (size a 1) (gammaStiffness a) with hS
  have ht : (tor nx ny fun i j => u.get [i, j]) = fun p => (-(1 / s.areaPerPt)) *
      (pair2 nx ny).act (fun k => (((S k)⁻¹ : ℝ) : ℂ)) (tor nx ny fun i j => f.get [i, j]) p := by
    apply tor_self; intro i j _ _; rw [hu']; ring
  rw [ht, act_smul, (pair2 nx ny).act_act P.rep.herm]
  have e : ∀ k, (((S k)⁻¹ : ℝ) : ℂ)⁻¹ * (((S k)⁻¹ : ℝ) : ℂ) = if S k = 0 then 0 else 1 := by
    intro k
    split_ifs with h
    · simp [h]
    · have : (((S k)⁻¹ : ℝ) : ℂ) ≠ 0 := by
        simpa using h
      exact inv_mul_cancel₀ this
  rw [(pair2 nx ny).act_congr e (fun _ => rfl)]
  field_simp

omit hv hs hg in
lemma disp_force_act [NeZero nx] [NeZero ny] (P : Per a s nx ny) (f : NdArray ℝ) (hf : f.shape = [nx, ny]) :
    ∃ u f', evaluateForce s f = .ok u ∧ evaluateDisp s u = .ok f' ∧ ∀ i j, f'.get [i, j] =
      (pair2 nx ny).act (fun k => if fullStiff s.mat nx ny (size a 0) (size a 1) (gammaStiffness a) k = 0 then 0 else 1)
        (tor nx ny fun i j => f.get [i, j]) ((i : ZMod nx), (j : ZMod ny)) := by
  obtain ⟨u, hu, hush, hu'⟩ := P.rep.force_ok hf
  obtain ⟨f', hf', -, hf''⟩ := P.rep.disp_ok hush
  refine ⟨u, f', hu, hf', fun i j => ?_⟩
  have hA : s.areaPerPt ≠ 0 := by
    rw [P.area]
    have := P.sx_pos; have := P.sy_pos
    have : (0 : ℝ) < nx := by exact_mod_cast Nat.pos_of_ne_zero (NeZero.ne nx)
    have : (0 : ℝ) < ny := by exact_mod_cast Nat.pos_of_ne_zero (NeZero.ne ny)
    positivity
  rw [hf'']
  set S := fullStiff s.mat nx ny (size a 0) (size a 1) (gammaStiffness a) with hS
  have ht : (tor nx ny fun i j => u.get [i, j]) = fun p => (-s.areaPerPt) *
      (pair2 nx ny).act (fun k => (((S k)⁻¹ : ℝ) : ℂ)⁻¹) (tor nx ny fun i j => f.get [i, j]) p := by
    apply tor_self; intro i j _ _; rw [hu']; ring
  rw [ht, act_smul, (pair2 nx ny).act_act P.rep.herm_inv]
  have e : ∀ k, (((S k)⁻¹ : ℝ) : ℂ) * (((S k)⁻¹ : ℝ) : ℂ)⁻¹ = if S k = 0 then 0 else 1 := by
    intro k
    split_ifs with h
    · simp [h]
    · have : (((S k)⁻¹ : ℝ) : ℂ) ≠ 0 := by
        simpa using h
      exact mul_inv_cancel₀ this
  rw [(pair2 nx ny).act_congr e (fun _ => rfl)]
  field_simp

omit hv hs hg in
lemma fullStiff_zero [NeZero nx] [NeZero ny] (P : Per a s nx ny) (k : ZMod nx × ZMod ny) :
    fullStiff s.mat nx ny (size a 0) (size a 1) (gammaStiffness a) k = 0 ↔ k = 0 ∧ gammaStiffness a = 0 := by
  by_cases h : k = 0
  · subst h; simp [fullStiff]
  · simp [h, (P.pos k h).ne']

omit hv hs hg in
lemma act_proj [NeZero nx] [NeZero ny] (f : NdArray ℝ) (x : ZMod nx × ZMod ny) :
    (pair2 nx ny).act (fun k => if k = 0 then 0 else 1) (tor nx ny fun i j => f.get [i, j]) x
      = tor nx ny (fun i j => f.get [i, j]) x - mean nx ny f := by
  have h1 := (pair2 nx ny).act_one (tor nx ny fun i j => f.get [i, j]) x
  rw [← h1]
  unfold Pairing.act Pairing.ift mean
  rw [card_torus, ← Finset.add_sum_erase _ _ (mem_univ (0 : ZMod nx × ZMod ny)),
    ← Finset.add_sum_erase _ _ (mem_univ (0 : ZMod nx × ZMod ny))]
  have e : ∀ k ∈ univ.erase (0 : ZMod nx × ZMod ny),
      (if k = 0 then (0 : ℂ) else 1) * (pair2 nx ny).ft (fun y => (tor nx ny (fun i j => f.get [i, j]) y : ℂ)) k * (pair2 nx ny).χ k x
      = 1 * (pair2 nx ny).ft (fun y => (tor nx ny (fun i j => f.get [i, j]) y : ℂ)) k * (pair2 nx ny).χ k x := by
    intro k hk
    rw [if_neg (Finset.ne_of_mem_erase hk)]
  rw [Finset.sum_congr rfl e, (pair2 nx ny).zero]
  have h0 : (pair2 nx ny).ft (fun y => (tor nx ny (fun i j => f.get [i, j]) y : ℂ)) 0
      = ((∑ i ∈ range nx, ∑ j ∈ range ny, f.get [i, j] : ℝ) : ℂ) := by
    unfold Pairing.ft
    rw [sum_tor (tor nx ny fun i j => f.get [i, j]) (fun i j => f.get [i, j])
      (fun i j hi hj => (tor_cast (fun i j => f.get [i, j]) hi hj).symm)]
    push_cast
    exact sum_congr rfl fun p _ => by rw [(pair2 nx ny).zero, mul_one]
  beta_reduce
  rw [h0, if_pos rfl]
  simp only [zero_mul, one_mul, mul_one, zero_add, add_re, ofReal_re]
  push_cast
  ring

/-- **C02** On a substrate with nonzero Gamma stiffness `evaluate_force` inverts `evaluate_disp`. -/
theorem C02_force_disp_inverse (hγ : gammaStiffness a ≠ 0) (f : NdArray ℝ) (hf : f.shape = [nx, ny]) :
    ∃ u f', evaluateDisp s f = .ok u ∧ evaluateForce s u = .ok f' ∧
      ∀ i j, i < nx → j < ny → f'.get [i, j] = f.get [i, j] := by
  obtain ⟨_, _, P⟩ := per_of_construct hv hs hg
  obtain ⟨u, f', h1, h2, h3⟩ := force_disp_act P f hf
  refine ⟨u, f', h1, h2, fun i j hi hj => ?_⟩
  rw [h3, (pair2 nx ny).act_congr (T := fun _ => 1) (fun k => if_neg (by rw [fullStiff_zero P]; tauto))
    (fun _ => rfl), (pair2 nx ny).act_one, tor_cast _ hi hj]

/-- **C02** ... and `evaluate_disp` inverts `evaluate_force`. -/
theorem C02_disp_force_inverse (hγ : gammaStiffness a ≠ 0) (u : NdArray ℝ) (hu : u.shape = [nx, ny]) :
    ∃ f u', evaluateForce s u = .ok f ∧ evaluateDisp s f = .ok u' ∧
      ∀ i j, i < nx → j < ny → u'.get [i, j] = u.get [i, j] := by
  obtain ⟨_, _, P⟩ := per_of_construct hv hs hg
  obtain ⟨u, f', h1, h2, h3⟩ := disp_force_act P u hu
  refine ⟨u, f', h1, h2, fun i j hi hj => ?_⟩
  rw [h3, (pair2 nx ny).act_congr (T := fun _ => 1) (fun k => if_neg (by rw [fullStiff_zero P]; tauto))
    (fun _ => rfl), (pair2 nx ny).act_one, tor_cast _ hi hj]

/-- **C02** With `stiffness_q0=0.0` both round trips return the field minus its mean. -/
theorem C02_inverse_up_to_mean (hγ : a.q0 = some 0) (f : NdArray ℝ) (hf : f.shape = [nx, ny]) :
    (∃ u f', evaluateDisp s f = .ok u ∧ evaluateForce s u = .ok f' ∧
      ∀ i j, i < nx → j < ny → f'.get [i, j] = f.get [i, j] - mean nx ny f) ∧
    (∃ u f', evaluateForce s f = .ok u ∧ evaluateDisp s u = .ok f' ∧
      ∀ i j, i < nx → j < ny → f'.get [i, j] = f.get [i, j] - mean nx ny f) := by
  have ht : a.thickness = none := by
    obtain ⟨-, h, -⟩ := (C13_construct_ok_iff a).mp ⟨s, hs⟩
    exact h.resolve_left (by rw [hγ]; simp)
  have hγ' : gammaStiffness a = 0 := by rw [gammaStiffness, ht, hγ]
  obtain ⟨_, _, P⟩ := per_of_construct hv hs hg
  constructor
  · obtain ⟨u, f', h1, h2, h3⟩ := force_disp_act P f hf
    refine ⟨u, f', h1, h2, fun i j hi hj => ?_⟩
    rw [h3, (pair2 nx ny).act_congr (T := fun k => if k = 0 then 0 else 1)
      (fun k => by
        have h := fullStiff_zero P k
        simp only [hγ', and_true] at h ⊢
        simp only [h]) (fun _ => rfl), act_proj, tor_cast _ hi hj]
  · obtain ⟨u, f', h1, h2, h3⟩ := disp_force_act P f hf
    refine ⟨u, f', h1, h2, fun i j hi hj => ?_⟩
    rw [h3, (pair2 nx ny).act_congr (T := fun k => if k = 0 then 0 else 1)
      (fun k => by
        have h := fullStiff_zero P k
        simp only [hγ', and_true] at h ⊢
        simp only [h]) (fun _ => rfl), act_proj, tor_cast _ hi hj]

end
end CM.HS
