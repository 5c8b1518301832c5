import Verif.Props.HalfSpace4
import Mathlib.Analysis.SpecialFunctions.Exp
import Mathlib.Analysis.Calculus.Deriv.Slope
/-!
# Layers of finite thickness (C10-C12)
-/
set_option linter.unusedSimpArgs false
namespace CM.HS
open Finset Complex CM.FFT CM.Fourier CM.Spec Filter Topology
open scoped ComplexConjugate

variable {a : Args} {s : HalfSpace} {nx ny : ℕ}

/-- The same substrate with another thickness (and no explicit Gamma stiffness). -/
noncomputable def withThickness (a : Args) (h : Option ℝ) : Args := { a with thickness := h, q0 := none }

lemma withThickness_size (h : Option ℝ) (i : ℕ) : size (withThickness a h) i = size a i := rfl
lemma withThickness_modulus (h : Option ℝ) : contactModulus (withThickness a h) = contactModulus a := rfl

lemma freq_demo : 0 < waveNumber 3 4 1 2 1 0 := by
  rw [freq2_wave]
  have : 0 < freq2 3 4 1 2 1 0 := freq2_pos one_pos two_pos (by norm_num) (by norm_num) (Or.inl one_ne_zero)
  have := Real.pi_pos
  positivity

/-! ## C10 -/

/-- **C10** Every plane wave other than the uniform one is strictly stiffer on the layer than on the
infinitely deep half-space of the same contact modulus. -/
theorem C10_layer_stiffer {h : ℝ} (hv : ValidArgs a) (ht : a.thickness = some h)
    (hs : construct a = .ok s) (hg : a.nbGridPts = [nx, ny]) {kx ky : ℕ} (hkx : kx < nx) (hky : ky < ny)
    (hk : ¬ (kx = 0 ∧ ky = 0)) :
    ∃ K, contactModulus a / 2 * waveNumber nx ny (size a 0) (size a 1) kx ky < K ∧ 0 < K ∧
      ∀ c φ, ∃ f, evaluateForce s (planeWave nx ny kx ky c φ) = .ok f ∧ ∀ i j, i < nx → j < ny →
        f.get [i, j] = -(K * (size a 0 * size a 1 / (nx * ny))) * (planeWave nx ny kx ky c φ).get [i, j] := by
  obtain ⟨_, _, P⟩ := per_of_construct hv hs hg
  have hpos : 0 < waveNumber nx ny (size a 0) (size a 1) kx ky := by
    rw [freq2_wave]
    have := freq2_pos P.sx_pos P.sy_pos hkx hky (by tauto)
    have := Real.pi_pos
    positivity
  have hE := contactModulus_pos hv
  obtain ⟨hh, hnu⟩ := hv.thickness h ht
  have hc := one_lt_layerCorr hnu (mul_pos hpos hh)
  have hlt : contactModulus a / 2 * waveNumber nx ny (size a 0) (size a 1) kx ky
      < P.S ((kx : ZMod nx), (ky : ZMod ny)) := by
    rw [planeWave_layer P ht hkx hky hk]
    exact lt_mul_of_one_lt_right (by positivity) hc
  refine ⟨P.S ((kx : ZMod nx), (ky : ZMod ny)), hlt, lt_trans (by positivity) hlt, fun c φ => ?_⟩
  obtain ⟨f, hf, hf'⟩ := P.wave (kx := kx) (ky := ky) c φ
  exact ⟨f, hf, fun i j hi hj => by rw [hf' i j hi hj, P.area]⟩

example : ∃ s, construct demoArgsH = .ok s ∧ ValidArgs demoArgsH ∧ demoArgsH.thickness = some (1/2) :=
  ⟨_, demoH_ok.choose_spec, demoH_valid, rfl⟩

/-- **C10** On fields of zero mean the energy of a layer is at least that of the half-space of
infinite depth, and strictly larger unless the field vanishes. -/
theorem C10_layer_energy {h : ℝ} {s' : HalfSpace} (hv : ValidArgs a) (ht : a.thickness = some h)
    (hs : construct a = .ok s) (hs' : construct (withThickness a none) = .ok s')
    (hg : a.nbGridPts = [nx, ny]) (u : NdArray ℝ) (hu : u.shape = [nx, ny]) (hm : mean nx ny u = 0) :
    ∃ eLayer eInf, evaluate s u true false = .ok (some eLayer, none) ∧
      evaluate s' u true false = .ok (some eInf, none) ∧ eInf ≤ eLayer ∧
      ((∃ i j, i < nx ∧ j < ny ∧ u.get [i, j] ≠ 0) → eInf < eLayer) := by
  have hv' : ValidArgs (withThickness a none) :=
    ⟨hv.sizes_pos, hv.young_pos, hv.poisson_low, hv.poisson_high, by simp [withThickness]⟩
  obtain ⟨_, _, P⟩ := per_of_construct hv hs hg
  obtain ⟨_, _, Q⟩ := per_of_construct hv' hs' (show (withThickness a none).nbGridPts = [nx, ny] from hg)
  refine ⟨_, _, P.energyK hu, Q.energyK hu, ?_⟩
  have hE := contactModulus_pos hv
  obtain ⟨hh, hnu⟩ := hv.thickness h ht
  have hA : s'.areaPerPt = s.areaPerPt := by rw [P.area, Q.area]; rfl
  have hnx : (0 : ℝ) < nx := by exact_mod_cast Nat.pos_of_ne_zero (NeZero.ne nx)
  have hny : (0 : ℝ) < ny := by exact_mod_cast Nat.pos_of_ne_zero (NeZero.ne ny)
  have hlt : ∀ k, k ≠ 0 → Q.S k < P.S k := by
    intro k hk
    have hq : 0 < freq2 nx ny (size a 0) (size a 1) k.1.val k.2.val := by
      apply freq2_pos P.sx_pos P.sy_pos (ZMod.val_lt _) (ZMod.val_lt _)
      by_contra hc
      push Not at hc
      rw [ZMod.val_eq_zero, ZMod.val_eq_zero] at hc
      exact hk (Prod.ext hc.1 hc.2)
    unfold Per.S fullStiff
    rw [if_neg hk, if_neg hk, P.mat, Q.mat]
    simp only [stiffnessOfFreq, ht, withThickness, withThickness_size, withThickness_modulus]
    change Real.pi * contactModulus a * freq2 nx ny (size a 0) (size a 1) k.1.val k.2.val < _
    have hpi := Real.pi_pos
    exact lt_mul_of_one_lt_right (by positivity) (one_lt_layerCorr hnu (by positivity))
  have h0 : (pair2 nx ny).ft (fun y => (tor nx ny (fun i j => u.get [i, j]) y : ℂ)) 0 = 0 := by
    have hsum : ∑ i ∈ range nx, ∑ j ∈ range ny, u.get [i, j] = 0 := by
      have := hm
      unfold mean at this
      rcases div_eq_zero_iff.mp this with h | h
      · exact h
      · exfalso; revert h; positivity
    rw [sum_tor (tor nx ny fun i j => u.get [i, j]) (fun i j => u.get [i, j])
      (fun i j hi hj => (tor_cast (fun i j => u.get [i, j]) hi hj).symm)] at hsum
    unfold Pairing.ft
    have h2 : ∑ y, (tor nx ny (fun i j => u.get [i, j]) y : ℂ) = 0 := by exact_mod_cast hsum
    rw [← h2]
    exact sum_congr rfl fun p _ => by rw [(pair2 nx ny).zero, mul_one]
  have hle : ∀ k ∈ univ, Q.S k * normSq ((pair2 nx ny).ft (fun y => (tor nx ny (fun i j => u.get [i, j]) y : ℂ)) k)
      ≤ P.S k * normSq ((pair2 nx ny).ft (fun y => (tor nx ny (fun i j => u.get [i, j]) y : ℂ)) k) := by
    intro k _
    by_cases hk : k = 0
    · subst hk; rw [h0]; simp
    · exact mul_le_mul_of_nonneg_right (hlt k hk).le (normSq_nonneg _)
  have hAp := P.area_pos
  rw [hA]
  constructor
  · exact mul_le_mul_of_nonneg_left (sum_le_sum hle) (by positivity)
  · rintro ⟨i, j, hi, hj, hne⟩
    apply mul_lt_mul_of_pos_left _ (by positivity)
    apply sum_lt_sum hle
    by_contra hc
    push Not at hc
    apply hne
    have hz : ∀ k, (pair2 nx ny).ft (fun y => (tor nx ny (fun i j => u.get [i, j]) y : ℂ)) k = 0 := by
      intro k
      by_cases hk : k = 0
      · rw [hk, h0]
      · have h3 := hc k (mem_univ _)
        have h4 := hlt k hk
        have h5 := normSq_nonneg ((pair2 nx ny).ft (fun y => (tor nx ny (fun i j => u.get [i, j]) y : ℂ)) k)
        have h6 : normSq ((pair2 nx ny).ft (fun y => (tor nx ny (fun i j => u.get [i, j]) y : ℂ)) k) = 0 := by
          nlinarith
        exact normSq_eq_zero.mp h6
    have h7 := ((pair2 nx ny).ft_eq_zero_iff _).mp hz ((i : ZMod nx), (j : ZMod ny))
    rw [tor_cast _ hi hj] at h7
    exact_mod_cast h7

/-! ## C11 -/

lemma layerCorr_atTop (nu : ℝ) (hnu : nu < 1 / 2) : Tendsto (layerCorr nu) atTop (𝓝 1) := by
  have hfac : 0 < 3 - 4 * nu := by linarith
  have e0 : Tendsto (fun Q : ℝ => Real.exp (-(2 * Q))) atTop (𝓝 0) := by
    have := Real.tendsto_exp_neg_atTop_nhds_zero.comp (tendsto_id.const_mul_atTop (two_pos (α := ℝ)))
    exact this
  have e1 : Tendsto (fun Q : ℝ => (2 * Q) * Real.exp (-(2 * Q))) atTop (𝓝 0) := by
    have := (Real.tendsto_pow_mul_exp_neg_atTop_nhds_zero 1).comp (tendsto_id.const_mul_atTop (two_pos (α := ℝ)))
    simpa [Function.comp_def] using this
  have e2 : Tendsto (fun Q : ℝ => (2 * Q) ^ 2 * Real.exp (-(2 * Q))) atTop (𝓝 0) := by
    have := (Real.tendsto_pow_mul_exp_neg_atTop_nhds_zero 2).comp (tendsto_id.const_mul_atTop (two_pos (α := ℝ)))
    exact this
  have hn : Tendsto (fun Q : ℝ => (3 - 4 * nu) * ((1 + Real.exp (-(2 * Q)) ^ 2) / 2)
      + (1 / 2) * ((2 * Q) ^ 2 * Real.exp (-(2 * Q))) + (4 * nu * (2 * nu - 3) + 5) * Real.exp (-(2 * Q)))
      atTop (𝓝 ((3 - 4 * nu) * ((1 + 0 ^ 2) / 2) + (1 / 2) * 0 + (4 * nu * (2 * nu - 3) + 5) * 0)) :=
    ((((e0.pow 2).const_add 1).div_const 2).const_mul _).add (e2.const_mul _) |>.add (e0.const_mul _)
  have hd : Tendsto (fun Q : ℝ => (3 - 4 * nu) * ((1 - Real.exp (-(2 * Q)) ^ 2) / 2)
      - (2 * Q) * Real.exp (-(2 * Q))) atTop (𝓝 ((3 - 4 * nu) * ((1 - 0 ^ 2) / 2) - 0)) :=
    ((((e0.pow 2).const_sub 1).div_const 2).const_mul _).sub e1
  have hlim := hn.div hd (by norm_num; linarith)
  have e : (((3 - 4 * nu) * ((1 + 0 ^ 2) / 2) + (1 / 2) * 0 + (4 * nu * (2 * nu - 3) + 5) * 0)
      / ((3 - 4 * nu) * ((1 - 0 ^ 2) / 2) - 0) : ℝ) = 1 := by
    norm_num
    intro h; linarith
  rw [e] at hlim
  refine hlim.congr fun Q => ?_
  unfold layerCorr
  simp only [Pi.div_apply]
  have hx : Real.exp (-(2 * Q)) ≠ 0 := (Real.exp_pos _).ne'
  have hm : Real.exp (2 * Q) * Real.exp (-(2 * Q)) = 1 := by rw [← Real.exp_add]; simp
  have h1 : (3 - 4 * nu) * ((1 + Real.exp (-(2 * Q)) ^ 2) / 2)
      + (1 / 2) * ((2 * Q) ^ 2 * Real.exp (-(2 * Q))) + (4 * nu * (2 * nu - 3) + 5) * Real.exp (-(2 * Q))
      = ((3 - 4 * nu) * Real.cosh (2 * Q) + 2 * Q ^ 2 + (4 * nu * (2 * nu - 3) + 5))
        * Real.exp (-(2 * Q)) := by
    rw [Real.cosh_eq]; linear_combination (-(3 - 4 * nu) / 2) * hm
  have h2 : (3 - 4 * nu) * ((1 - Real.exp (-(2 * Q)) ^ 2) / 2) - (2 * Q) * Real.exp (-(2 * Q))
      = ((3 - 4 * nu) * Real.sinh (2 * Q) - 2 * Q) * Real.exp (-(2 * Q)) := by
    rw [Real.sinh_eq]; linear_combination (-(3 - 4 * nu) / 2) * hm
  rw [h1, h2, mul_div_mul_right _ _ hx]

/-- **C11** As the thickness grows without bound, the stiffness of every plane wave other than the
uniform one tends to that of the infinitely deep half-space. -/
theorem C11_thick_layer_limit (hv : ValidArgs a) (hnu : a.poisson < 1 / 2) (hg : a.nbGridPts = [nx, ny])
    (hne : a.physicalSizes ≠ []) {kx ky : ℕ} (hkx : kx < nx) (hky : ky < ny) (hk : ¬ (kx = 0 ∧ ky = 0)) :
    ∃ K : ℝ → ℝ,
      (∀ h s, 0 < h → construct (withThickness a (some h)) = .ok s → ∀ c φ,
        ∃ f, evaluateForce s (planeWave nx ny kx ky c φ) = .ok f ∧ ∀ i j, i < nx → j < ny →
          f.get [i, j] = -(K h * (size a 0 * size a 1 / (nx * ny))) * (planeWave nx ny kx ky c φ).get [i, j]) ∧
      Tendsto K atTop (𝓝 (contactModulus a / 2 * waveNumber nx ny (size a 0) (size a 1) kx ky)) := by
  refine ⟨fun h => contactModulus a / 2 * waveNumber nx ny (size a 0) (size a 1) kx ky
      * layerCorr a.poisson (waveNumber nx ny (size a 0) (size a 1) kx ky * h), ?_, ?_⟩
  · intro h s hh hs c φ
    have hv' : ValidArgs (withThickness a (some h)) := by
      refine ⟨hv.sizes_pos, hv.young_pos, hv.poisson_low, hv.poisson_high, fun h' e => ?_⟩
      simp only [withThickness, Option.some.injEq] at e
      subst e
      exact ⟨hh, hnu⟩
    obtain ⟨_, _, P⟩ := per_of_construct hv' hs (show (withThickness a (some h)).nbGridPts = [nx, ny] from hg)
    obtain ⟨f, hf, hf'⟩ := P.wave (kx := kx) (ky := ky) c φ
    refine ⟨f, hf, fun i j hi hj => ?_⟩
    rw [hf' i j hi hj, P.area, planeWave_layer P rfl hkx hky hk]
    rfl
  · have hpos : 0 < waveNumber nx ny (size a 0) (size a 1) kx ky := by
      rw [freq2_wave]
      have := freq2_pos (size_pos hv hne 0) (size_pos hv hne 1) hkx hky (by tauto)
      have := Real.pi_pos
      positivity
    have := ((layerCorr_atTop a.poisson hnu).comp (tendsto_id.const_mul_atTop hpos)).const_mul
      (contactModulus a / 2 * waveNumber nx ny (size a 0) (size a 1) kx ky)
    rw [mul_one] at this
    exact this

/-- Layers of every thickness can be constructed: the quantifier of C11 is not empty. -/
lemma withThickness_ok (hg : a.nbGridPts = [nx, ny]) (hx : nx ≠ 0) (hy : ny ≠ 0) (hne : a.physicalSizes ≠ [])
    (hnu : 1 - a.poisson ^ 2 ≠ 0) (he : a.engineGrid = none) (h : ℝ) :
    ∃ s, construct (withThickness a (some h)) = .ok s := by
  rw [C13_construct_ok_iff]
  simp [withThickness, hg, he, hne, hnu]
  exact ⟨fun h => hx h.symm, fun h => hy h.symm⟩

example (h : ℝ) : ∃ s, construct (withThickness demoArgs (some h)) = .ok s :=
  withThickness_ok (nx := 3) (ny := 4) rfl (by norm_num) (by norm_num) (by simp [demoArgs])
    (by norm_num [demoArgs]) rfl h

/-! ## C12 -/

lemma layer_small (nu h E : ℝ) (hh : 0 < h) (hlow : -1 < nu) (hnu : nu < 1 / 2) :
    Tendsto (fun q : ℝ => E / (1 - nu ^ 2) / 2 * q * layerCorr nu (q * h)) (𝓝[>] 0)
      (𝓝 (E * (1 - nu) / ((1 + nu) * (1 - 2 * nu)) / h)) := by
  have hfac : 0 < 3 - 4 * nu := by linarith
  -- numerator
  have hnum : Tendsto (fun q : ℝ => (3 - 4 * nu) * Real.cosh (2 * (q * h)) + 2 * (q * h) ^ 2
      + (4 * nu * (2 * nu - 3) + 5)) (𝓝[>] 0) (𝓝 (8 * (1 - nu) ^ 2)) := by
    have hc : Continuous (fun q : ℝ => (3 - 4 * nu) * Real.cosh (2 * (q * h)) + 2 * (q * h) ^ 2
        + (4 * nu * (2 * nu - 3) + 5)) := by
      have := Real.continuous_cosh
      fun_prop
    have := hc.tendsto 0
    simp only [zero_mul, mul_zero, Real.cosh_zero] at this
    have e : ((3 - 4 * nu) * 1 + 2 * 0 ^ 2 + (4 * nu * (2 * nu - 3) + 5) : ℝ) = 8 * (1 - nu) ^ 2 := by ring
    rw [e] at this
    exact this.mono_left nhdsWithin_le_nhds
  have hden : Tendsto (fun q : ℝ => q⁻¹ * ((3 - 4 * nu) * Real.sinh (2 * (q * h)) - 2 * (q * h))) (𝓝[>] 0)
      (𝓝 (4 * (1 - 2 * nu) * h)) := by
    have hder : HasDerivAt (fun q : ℝ => (3 - 4 * nu) * Real.sinh (2 * (q * h)) - 2 * (q * h))
        (4 * (1 - 2 * nu) * h) 0 := by
      have h1 : HasDerivAt (fun q : ℝ => 2 * (q * h)) (2 * h) 0 := by
        simpa using ((hasDerivAt_id (0 : ℝ)).mul_const h).const_mul 2
      have h2 : HasDerivAt (fun q : ℝ => Real.sinh (2 * (q * h))) (Real.cosh (2 * (0 * h)) * (2 * h)) 0 :=
        (Real.hasDerivAt_sinh _).comp 0 h1
      have h3 := (h2.const_mul (3 - 4 * nu)).sub h1
      have h4 : (3 - 4 * nu) * (Real.cosh (2 * (0 * h)) * (2 * h)) - 2 * h = 4 * (1 - 2 * nu) * h := by
        rw [zero_mul, mul_zero, Real.cosh_zero]; ring
      rw [h4] at h3
      exact h3
    have := hder.tendsto_slope_zero_right
    simpa using this
  have hq := hnum.div hden (by
    have : 0 < 1 - 2 * nu := by linarith
    positivity)
  have hfin := hq.const_mul (E / (1 - nu ^ 2) / 2)
  have e : E / (1 - nu ^ 2) / 2 * (8 * (1 - nu) ^ 2 / (4 * (1 - 2 * nu) * h))
      = E * (1 - nu) / ((1 + nu) * (1 - 2 * nu)) / h := by
    have h1 : (1 - nu) ≠ 0 := by intro h; linarith
    have h2 : (1 + nu) ≠ 0 := by intro h; linarith
    have h3 : (1 - 2 * nu) ≠ 0 := by intro h; linarith
    have h4 : 1 - nu ^ 2 = (1 - nu) * (1 + nu) := by ring
    rw [h4]
    field_simp
    ring
  rw [e] at hfin
  refine hfin.congr' ?_
  filter_upwards [self_mem_nhdsWithin] with q hq0
  have hq0 : 0 < q := hq0
  have hd : 0 < (3 - 4 * nu) * Real.sinh (2 * (q * h)) - 2 * (q * h) := layer_denom_pos hnu (by positivity)
  simp only [Pi.div_apply, layerCorr]
  field_simp

/-- **C12** The Gamma-point stiffness of a layer is the long-wavelength limit: on ever larger square
substrates the stiffness of any fixed plane wave tends to the value the code uses at Gamma. -/
theorem C12_layer_gamma_limit {h : ℝ} (hv : ValidArgs a) (ht : a.thickness = some h)
    (hg : a.nbGridPts = [nx, ny]) {kx ky : ℕ} (hkx : kx < nx) (hky : ky < ny) (hk : ¬ (kx = 0 ∧ ky = 0)) :
    ∃ K : ℝ → ℝ,
      (∀ L s, 0 < L → construct { a with physicalSizes := [L] } = .ok s → ∀ c φ,
        ∃ f, evaluateForce s (planeWave nx ny kx ky c φ) = .ok f ∧ ∀ i j, i < nx → j < ny →
          f.get [i, j] = -(K L * (L * L / (nx * ny))) * (planeWave nx ny kx ky c φ).get [i, j]) ∧
      Tendsto K atTop (𝓝 (gammaStiffness a)) := by
  obtain ⟨hh, hnu⟩ := hv.thickness h ht
  refine ⟨fun L => a.young / (1 - a.poisson ^ 2) / 2 * waveNumber nx ny L L kx ky
      * layerCorr a.poisson (waveNumber nx ny L L kx ky * h), ?_, ?_⟩
  · intro L s hL hs c φ
    have hv' : ValidArgs { a with physicalSizes := [L] } :=
      ⟨by simpa using hL, hv.young_pos, hv.poisson_low, hv.poisson_high, hv.thickness⟩
    obtain ⟨_, _, P⟩ := per_of_construct hv' hs hg
    obtain ⟨f, hf, hf'⟩ := P.wave (kx := kx) (ky := ky) c φ
    have s0 : size { a with physicalSizes := [L] } 0 = L := by simp [size]
    have s1 : size { a with physicalSizes := [L] } 1 = L := by simp [size]
    refine ⟨f, hf, fun i j hi hj => ?_⟩
    rw [hf' i j hi hj, P.area, planeWave_layer P ht hkx hky hk, s0, s1]
    rfl
  · have hlim := layer_small a.poisson h a.young hh hv.poisson_low hnu
    have hq : Tendsto (fun L : ℝ => waveNumber nx ny L L kx ky) atTop (𝓝[>] 0) := by
      have hpos : 0 < waveNumber nx ny 1 1 kx ky := by
        rw [freq2_wave]
        have := freq2_pos one_pos one_pos hkx hky (by tauto)
        have := Real.pi_pos
        positivity
      have h1 : Tendsto (fun L : ℝ => 1 / L * waveNumber nx ny 1 1 kx ky) atTop (𝓝[>] 0) := by
        apply tendsto_nhdsWithin_iff.mpr
        constructor
        · have := (tendsto_inv_atTop_zero (𝕜 := ℝ)).mul_const (waveNumber nx ny 1 1 kx ky)
          simpa using this
        · filter_upwards [eventually_gt_atTop (0 : ℝ)] with L hL
          exact mul_pos (by positivity) hpos
      refine h1.congr' ?_
      filter_upwards [eventually_gt_atTop (0 : ℝ)] with L hL
      have := rescale_freq2 (nx := nx) (ny := ny) hL 1 1 kx ky
      rw [mul_one] at this
      rw [freq2_wave, freq2_wave, this]; ring
    have := hlim.comp hq
    have e : gammaStiffness a = a.young * (1 - a.poisson) / ((1 + a.poisson) * (1 - 2 * a.poisson)) / h := by
      rw [gammaStiffness, ht]
    rw [e]
    exact this

end CM.HS
