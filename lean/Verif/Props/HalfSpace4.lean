import Verif.Props.HalfSpace3
/-!
# Properties of the two-dimensional periodic half-space: translation, plane waves, units
(C07-C09, C14) and the link to the contact problem
-/
set_option linter.unusedSimpArgs false
namespace CM.HS
open Finset Complex CM.FFT CM.Fourier CM.Spec
open scoped ComplexConjugate

variable {a : Args} {s : HalfSpace} {nx ny : ℕ}

section
variable (hv : ValidArgs a) (hs : construct a = .ok s) (hg : a.nbGridPts = [nx, ny])

/-! ## C07 -/

lemma roll_index {n : ℕ} [NeZero n] (i t : ℕ) :
    (((i + (n - t % n)) % n : ℕ) : ZMod n) = (i : ZMod n) - (t : ZMod n) := by
  have hn : 0 < n := Nat.pos_of_ne_zero (NeZero.ne n)
  have h : t % n ≤ n := (Nat.mod_lt t hn).le
  rw [ZMod.natCast_mod, Nat.cast_add, Nat.cast_sub h, ZMod.natCast_self, ZMod.natCast_mod]
  ring

lemma tor_roll [NeZero nx] [NeZero ny] (tx ty : ℕ) (f : NdArray ℝ) :
    (tor nx ny fun i j => (roll2 nx ny tx ty f).get [i, j])
      = fun p => tor nx ny (fun i j => f.get [i, j]) (p - ((tx : ZMod nx), (ty : ZMod ny))) := by
  apply tor_self
  intro i j hi hj
  have hn : 0 < nx := Nat.pos_of_ne_zero (NeZero.ne nx)
  have hm : 0 < ny := Nat.pos_of_ne_zero (NeZero.ne ny)
  simp only [roll2, Prod.mk_sub_mk, ← roll_index]
  rw [tor_cast _ (Nat.mod_lt _ hn) (Nat.mod_lt _ hm)]

include hv hs hg in
/-- **C07** Cyclic shifts commute with `evaluate_disp`. -/
theorem C07_disp_translation (tx ty : ℕ) (f : NdArray ℝ) (hf : f.shape = [nx, ny]) :
    ∃ u v, evaluateDisp s f = .ok u ∧ evaluateDisp s (roll2 nx ny tx ty f) = .ok v ∧
      ∀ i j, i < nx → j < ny → v.get [i, j] = (roll2 nx ny tx ty u).get [i, j] := by
  obtain ⟨_, _, P⟩ := per_of_construct hv hs hg
  obtain ⟨u, hu, -, hu'⟩ := P.disp hf
  obtain ⟨v, hv', -, hv''⟩ := P.disp (f := roll2 nx ny tx ty f) hf
  refine ⟨u, v, hu, hv', fun i j _ _ => ?_⟩
  rw [hv'', tor_roll, (pair2 nx ny).act_shift]
  simp only [roll2]
  rw [hu', roll_index, roll_index, Prod.mk_sub_mk]

include hv hs hg in
/-- **C07** Cyclic shifts commute with `evaluate_force`. -/
theorem C07_force_translation (tx ty : ℕ) (f : NdArray ℝ) (hf : f.shape = [nx, ny]) :
    ∃ u v, evaluateForce s f = .ok u ∧ evaluateForce s (roll2 nx ny tx ty f) = .ok v ∧
      ∀ i j, i < nx → j < ny → v.get [i, j] = (roll2 nx ny tx ty u).get [i, j] := by
  obtain ⟨_, _, P⟩ := per_of_construct hv hs hg
  obtain ⟨u, hu, -, hu'⟩ := P.force hf
  obtain ⟨v, hv', -, hv''⟩ := P.force (u := roll2 nx ny tx ty f) hf
  refine ⟨u, v, hu, hv', fun i j _ _ => ?_⟩
  rw [hv'', tor_roll, (pair2 nx ny).act_shift]
  simp only [roll2]
  rw [hu', roll_index, roll_index, Prod.mk_sub_mk]

/-- The shift is the expected one: entry `(i,j)` moves to `(i+1, j)`. -/
example : (roll2 3 4 1 0 ⟨[3, 4], fun x => match x with | [i, j] => (i : ℝ) + 10 * j | _ => 0⟩).get [2, 3]
    = 31 := by
  norm_num [roll2]

/-! ## C08, C09: single wavevectors -/

/-- A plane wave with phase `φ` of wavevector index `(kx, ky)`. -/
noncomputable def planeWave (nx ny kx ky : ℕ) (c φ : ℝ) : NdArray ℝ :=
  ⟨[nx, ny], fun x => match x with
    | [i, j] => c * Real.cos (2 * Real.pi * (kx * i / nx + ky * j / ny) + φ)
    | _ => 0⟩

lemma tor_wave [NeZero nx] [NeZero ny] (kx ky : ℕ) (c φ : ℝ) :
    (tor nx ny fun i j => (planeWave nx ny kx ky c φ).get [i, j]) = fun p =>
      (((c : ℂ) * exp (φ * I)) * (pair2 nx ny).χ ((kx : ZMod nx), (ky : ZMod ny)) p).re := by
  apply tor_self
  intro i j hi hj
  have := pair2_cis nx ny kx ky i j
  simp only [Int.cast_natCast] at this
  rw [← this]
  simp only [cis, planeWave]
  rw [← Complex.exp_add, mul_assoc (c : ℂ), ← Complex.exp_add, re_ofReal_mul]
  congr 1
  rw [show (φ * I + (2 * Real.pi * I * ((kx * i : ℤ) : ℂ) / nx + 2 * Real.pi * I * ((ky * j : ℤ) : ℂ) / ny) : ℂ)
    = ((2 * Real.pi * (kx * i / nx + ky * j / ny) + φ : ℝ) : ℂ) * I by push_cast; ring]
  rw [Complex.exp_ofReal_mul_I_re]

lemma Per.wave [NeZero nx] [NeZero ny] (P : Per a s nx ny) {kx ky : ℕ} (c φ : ℝ) :
    ∃ f, evaluateForce s (planeWave nx ny kx ky c φ) = .ok f ∧ ∀ i j, i < nx → j < ny →
      f.get [i, j] = -(P.S ((kx : ZMod nx), (ky : ZMod ny)) * s.areaPerPt) * (planeWave nx ny kx ky c φ).get [i, j] := by
  obtain ⟨f, hf, -, hf'⟩ := P.force (u := planeWave nx ny kx ky c φ) rfl
  refine ⟨f, hf, fun i j hi hj => ?_⟩
  have hw : (planeWave nx ny kx ky c φ).get [i, j]
      = tor nx ny (fun i j => (planeWave nx ny kx ky c φ).get [i, j]) ((i : ZMod nx), (j : ZMod ny)) :=
    (tor_cast (fun i j => (planeWave nx ny kx ky c φ).get [i, j]) hi hj).symm
  rw [hf', hw, tor_wave, (pair2 nx ny).act_char P.S P.S_neg]
  ring

include hv hs hg in
/-- **C08** A uniform displacement produces the uniform force `-u0·K0·A/N` with the Gamma stiffness
the user asked for. -/
theorem C08_gamma_response (u0 : ℝ) :
    ∃ f, evaluateForce s ⟨[nx, ny], fun _ => u0⟩ = .ok f ∧ ∀ i j, i < nx → j < ny →
      f.get [i, j] = -(u0 * gammaStiffness a * (size a 0 * size a 1 / (nx * ny))) := by
  obtain ⟨_, _, P⟩ := per_of_construct hv hs hg
  obtain ⟨f, hf, -, hf'⟩ := P.force (u := ⟨[nx, ny], fun _ => u0⟩) rfl
  refine ⟨f, hf, fun i j hi hj => ?_⟩
  have e : (tor nx ny fun _ _ => u0) = fun p => ((u0 : ℂ) * (pair2 nx ny).χ 0 p).re := by
    funext p; rw [(pair2 nx ny).zero]; simp [tor]
  have h := (pair2 nx ny).act_char P.S P.S_neg 0 u0 ((i : ZMod nx), (j : ZMod ny))
  rw [← e, (pair2 nx ny).zero] at h
  rw [hf', h, P.area]
  simp only [Per.S, fullStiff, if_true, mul_one, ofReal_re]
  ring

/-- Gamma stiffness of the three demonstration substrates. -/
example : gammaStiffness demoArgs = 3 / 4 * Real.pi ∧ gammaStiffness demoArgs0 = 0 ∧
    gammaStiffness demoArgsH = 12 / 5 := by
  refine ⟨?_, ?_, ?_⟩
  · simp only [gammaStiffness, demoArgs, contactModulus, size]
    norm_num; ring
  · simp [gammaStiffness, demoArgs0]
  · simp only [gammaStiffness, demoArgsH]; norm_num

lemma freq_wave (n : ℕ) (l : ℝ) (k : ℕ) : waveComponent n l k ^ 2 = (2 * Real.pi) ^ 2 * (freq n l k * freq n l k) := by
  unfold waveComponent freq
  by_cases h : 2 * k ≤ n
  · rw [if_pos h, if_pos (by omega)]; ring
  · rw [if_neg h, if_neg (by omega)]; ring

lemma freq2_wave (lx ly : ℝ) (kx ky : ℕ) : waveNumber nx ny lx ly kx ky = 2 * Real.pi * freq2 nx ny lx ly kx ky := by
  unfold waveNumber freq2
  rw [freq_wave, freq_wave, ← mul_add, Real.sqrt_mul (by positivity), Real.sqrt_sq (by positivity)]

include hv hs hg in
/-- **C09** On an infinitely deep half-space every plane wave other than the uniform one has the
stiffness `E*|q|/2`, `q` the minimum-image wavevector. -/
theorem C09_planeWave_response (ht : a.thickness = none) {kx ky : ℕ} (hkx : kx < nx) (hky : ky < ny)
    (hk : ¬ (kx = 0 ∧ ky = 0)) (c φ : ℝ) :
    ∃ f, evaluateForce s (planeWave nx ny kx ky c φ) = .ok f ∧ ∀ i j, i < nx → j < ny →
      f.get [i, j] = -(contactModulus a / 2 * waveNumber nx ny (size a 0) (size a 1) kx ky
        * (size a 0 * size a 1 / (nx * ny))) * (planeWave nx ny kx ky c φ).get [i, j] := by
  obtain ⟨_, _, P⟩ := per_of_construct hv hs hg
  obtain ⟨f, hf, hf'⟩ := P.wave (kx := kx) (ky := ky) c φ
  refine ⟨f, hf, fun i j hi hj => ?_⟩
  rw [hf' i j hi hj, P.area]
  have : P.S ((kx : ZMod nx), (ky : ZMod ny)) = contactModulus a / 2 * waveNumber nx ny (size a 0) (size a 1) kx ky := by
    unfold Per.S fullStiff
    rw [if_neg (by rw [cast_pair_eq_zero hkx hky]; exact hk), ZMod.val_cast_of_lt hkx, ZMod.val_cast_of_lt hky,
      freq2_wave, P.mat]
    simp only [stiffnessOfFreq, ht]
    ring
  rw [this]

/-- The layer analogue: stiffness `E*|q|/2` times the correction factor. -/
lemma planeWave_layer [NeZero nx] [NeZero ny] (P : Per a s nx ny) {h : ℝ} (ht : a.thickness = some h)
    {kx ky : ℕ} (hkx : kx < nx) (hky : ky < ny) (hk : ¬ (kx = 0 ∧ ky = 0)) :
    P.S ((kx : ZMod nx), (ky : ZMod ny)) = contactModulus a / 2 * waveNumber nx ny (size a 0) (size a 1) kx ky
      * layerCorr a.poisson (waveNumber nx ny (size a 0) (size a 1) kx ky * h) := by
  unfold Per.S fullStiff
  rw [if_neg (by rw [cast_pair_eq_zero hkx hky]; exact hk), ZMod.val_cast_of_lt hkx, ZMod.val_cast_of_lt hky,
    freq2_wave, P.mat]
  simp only [stiffnessOfFreq, ht]
  rw [show freq2 nx ny (size a 0) (size a 1) kx ky * (2 * Real.pi * h)
    = 2 * Real.pi * freq2 nx ny (size a 0) (size a 1) kx ky * h by ring]
  ring

/-! ## C14: units -/

/-- The same physical substrate in other units: lengths `×l`, forces `×F`. -/
noncomputable def rescale (l F : ℝ) (a : Args) : Args :=
  ⟨a.nbGridPts, F / l ^ 2 * a.young, a.physicalSizes.map (l * ·), a.q0.map (F / l ^ 3 * ·),
    a.thickness.map (l * ·), a.poisson, a.engineGrid⟩

lemma rescale_size {l F : ℝ} (i : ℕ) (hne : a.physicalSizes ≠ []) : size (rescale l F a) i = l * size a i := by
  unfold size rescale
  simp only [List.length_map]
  split_ifs with h
  · simp
  · rw [List.getLastD_eq_getLast?, List.getLast?_map, List.getLastD_eq_getLast?,
      List.getLast?_eq_getLast_of_ne_nil hne]
    rfl

lemma rescale_valid {l F : ℝ} (hl : 0 < l) (hF : 0 < F) (hv : ValidArgs a) : ValidArgs (rescale l F a) := by
  constructor
  · intro x hx
    simp only [rescale, List.mem_map] at hx
    obtain ⟨y, hy, rfl⟩ := hx
    have := hv.sizes_pos y hy
    positivity
  · have := hv.young_pos
    simp only [rescale]; positivity
  · exact hv.poisson_low
  · exact hv.poisson_high
  · intro h hh
    simp only [rescale, Option.map_eq_some_iff] at hh
    obtain ⟨h', h1, rfl⟩ := hh
    have := hv.thickness h' h1
    exact ⟨mul_pos hl this.1, this.2⟩

lemma rescale_gamma {l F : ℝ} (hl : l ≠ 0) (hne : a.physicalSizes ≠ []) :
    gammaStiffness (rescale l F a) = F / l ^ 3 * gammaStiffness a := by
  have h0 := rescale_size (a := a) (l := l) (F := F) 0 hne
  have h1 := rescale_size (a := a) (l := l) (F := F) 1 hne
  unfold gammaStiffness
  rw [h0, h1]
  have e1 : (rescale l F a).thickness = a.thickness.map (l * ·) := rfl
  have e2 : (rescale l F a).q0 = a.q0.map (F / l ^ 3 * ·) := rfl
  have e3 : (rescale l F a).poisson = a.poisson := rfl
  have e4 : (rescale l F a).young = F / l ^ 2 * a.young := rfl
  have e5 : contactModulus (rescale l F a) = F / l ^ 2 * contactModulus a := by
    unfold contactModulus; rw [e3, e4]; ring
  rw [e1, e2, e3, e4, e5]
  cases a.thickness with
  | some h =>
    simp only [Option.map_some]
    by_cases hh : h = 0
    · simp [hh]
    · field_simp
  | none =>
    cases a.q0 with
    | some q => rfl
    | none =>
      simp only [Option.map_none]
      by_cases h0 : size a 0 = 0 <;> by_cases h1 : size a 1 = 0
      · simp [h0, h1]
      · simp only [h0]; field_simp
      · simp only [h1]; field_simp
      · field_simp

lemma rescale_freq {l : ℝ} (n : ℕ) (t : ℝ) (k : ℕ) : freq n (l * t) k = 1 / l * freq n t k := by
  unfold freq
  split_ifs <;> rw [div_mul_div_comm, one_mul]

lemma rescale_freq2 {l : ℝ} (hl : 0 < l) (tx ty : ℝ) (kx ky : ℕ) :
    freq2 nx ny (l * tx) (l * ty) kx ky = 1 / l * freq2 nx ny tx ty kx ky := by
  unfold freq2
  rw [rescale_freq, rescale_freq]
  rw [show ∀ x y : ℝ, 1 / l * x * (1 / l * x) + 1 / l * y * (1 / l * y) = (1 / l) ^ 2 * (x * x + y * y) by
    intros; ring]
  rw [Real.sqrt_mul (by positivity), Real.sqrt_sq (by positivity)]

include hv hs hg in
/-- **C14** Unit neutrality: the substrate described in other units is constructed as well, and gives
the same forces and displacements in the new units. -/
theorem C14_unit_neutral {l F : ℝ} (hl : 0 < l) (hF : 0 < F) (w : NdArray ℝ) (hw : w.shape = [nx, ny]) :
    ∃ s', construct (rescale l F a) = .ok s' ∧
      (∃ f f', evaluateForce s w = .ok f ∧ evaluateForce s' (lincomb l w 0 w) = .ok f' ∧
        ∀ i j, i < nx → j < ny → f'.get [i, j] = F * f.get [i, j]) ∧
      (∃ u u', evaluateDisp s w = .ok u ∧ evaluateDisp s' (lincomb F w 0 w) = .ok u' ∧
        ∀ i j, i < nx → j < ny → u'.get [i, j] = l * u.get [i, j]) := by
  have hok : ∃ s', construct (rescale l F a) = .ok s' := by
    have h := (C13_construct_ok_iff a).mp ⟨s, hs⟩
    rw [C13_construct_ok_iff]
    obtain ⟨h1, h2, h3, h4, h5, h6, h7, h8⟩ := h
    refine ⟨h1, ?_, by simpa [rescale] using h3, h4, h5, h6, ?_, ?_⟩
    · rcases h2 with h2 | h2
      · left; simp [rescale, h2]
      · right; simp [rescale, h2]
    · intro ha hb hc
      exact h7 ha (by simpa [rescale] using hb) (by simpa [rescale] using hc)
    · intro ha
      obtain ⟨h9, h10⟩ := h8 ha
      refine ⟨?_, fun hc => h10 (by simpa [rescale] using hc)⟩
      intro hc
      simp only [rescale, Option.map_eq_some_iff] at hc
      obtain ⟨q, hq, hq0⟩ := hc
      have : q = 0 := by
        rcases mul_eq_zero.mp hq0 with h | h
        · exfalso; revert h; positivity
        · exact h
      exact h9 (by rw [hq, this])
  obtain ⟨s', hs'⟩ := hok
  have hne : a.physicalSizes ≠ [] := ((C13_construct_ok_iff a).mp ⟨s, hs⟩).2.2.1
  obtain ⟨_, _, P⟩ := per_of_construct hv hs hg
  obtain ⟨_, _, Q⟩ := per_of_construct (rescale_valid hl hF hv) hs' (show (rescale l F a).nbGridPts = [nx, ny] from hg)
  have hA : s'.areaPerPt = l ^ 2 * s.areaPerPt := by
    rw [P.area, Q.area, rescale_size _ hne, rescale_size _ hne]; ring
  have hS : ∀ k, Q.S k = F / l ^ 3 * P.S k := by
    intro k
    unfold Per.S fullStiff
    rw [rescale_gamma hl.ne' hne, rescale_size _ hne, rescale_size _ hne]
    split_ifs with hk
    · rfl
    · rw [rescale_freq2 hl, P.mat, Q.mat]
      unfold stiffnessOfFreq
      have e5 : contactModulus (rescale l F a) = F / l ^ 2 * contactModulus a := by
        unfold contactModulus
        have e3 : (rescale l F a).poisson = a.poisson := rfl
        have e4 : (rescale l F a).young = F / l ^ 2 * a.young := rfl
        rw [e3, e4]; ring
      cases ht : a.thickness with
      | none =>
        simp only [rescale, ht, Option.map_none]
        change Real.pi * contactModulus (rescale l F a) * _ = _
        rw [e5]; field_simp
      | some h =>
        simp only [rescale, ht, Option.map_some]
        change Real.pi * contactModulus (rescale l F a) * _ * _ = _
        rw [e5, show ∀ q : ℝ, 1 / l * q * (2 * Real.pi * (l * h)) = q * (2 * Real.pi * h) by
          intro q; field_simp]
        field_simp
  refine ⟨s', hs', ?_, ?_⟩
  · obtain ⟨f, hf, -, hf'⟩ := P.force hw
    obtain ⟨f', hf1, -, hf2⟩ := Q.force (u := lincomb l w 0 w) hw
    refine ⟨f, f', hf, hf1, fun i j _ _ => ?_⟩
    rw [hf', hf2, hA]
    have e : (tor nx ny fun i j => (lincomb l w 0 w).get [i, j])
        = fun p => l * tor nx ny (fun i j => w.get [i, j]) p := by
      funext p; simp [tor, lincomb]
    have e2 : ∀ p, (pair2 nx ny).act (fun k => (Q.S k : ℂ)) (tor nx ny fun i j => w.get [i, j]) p
        = F / l ^ 3 * (pair2 nx ny).act (fun k => (P.S k : ℂ)) (tor nx ny fun i j => w.get [i, j]) p := by
      intro p
      rw [← act_smul]
      unfold Pairing.act
      congr 2
      unfold Pairing.ift
      refine sum_congr rfl fun k _ => ?_
      have : (pair2 nx ny).ft (fun y => ((F / l ^ 3 * tor nx ny (fun i j => w.get [i, j]) y : ℝ) : ℂ)) k
          = ((F / l ^ 3 : ℝ) : ℂ) * (pair2 nx ny).ft (fun y => (tor nx ny (fun i j => w.get [i, j]) y : ℂ)) k := by
        rw [← (pair2 nx ny).ft_smul]; congr 1; funext y; push_cast; rfl
      beta_reduce
      rw [hS, this]; push_cast; ring
    rw [e, act_smul, e2]
    field_simp
  · obtain ⟨f, hf, -, hf'⟩ := P.disp hw
    obtain ⟨f', hf1, -, hf2⟩ := Q.disp (f := lincomb F w 0 w) hw
    refine ⟨f, f', hf, hf1, fun i j _ _ => ?_⟩
    rw [hf', hf2, hA]
    have e : (tor nx ny fun i j => (lincomb F w 0 w).get [i, j])
        = fun p => F * tor nx ny (fun i j => w.get [i, j]) p := by
      funext p; simp [tor, lincomb]
    have e2 : ∀ p, (pair2 nx ny).act (fun k => (((Q.S k)⁻¹ : ℝ) : ℂ)) (tor nx ny fun i j => w.get [i, j]) p
        = (F / l ^ 3)⁻¹ * (pair2 nx ny).act (fun k => (((P.S k)⁻¹ : ℝ) : ℂ)) (tor nx ny fun i j => w.get [i, j]) p := by
      intro p
      rw [← act_smul]
      unfold Pairing.act
      congr 2
      unfold Pairing.ift
      refine sum_congr rfl fun k _ => ?_
      have : (pair2 nx ny).ft (fun y => (((F / l ^ 3)⁻¹ * tor nx ny (fun i j => w.get [i, j]) y : ℝ) : ℂ)) k
          = (((F / l ^ 3)⁻¹ : ℝ) : ℂ) * (pair2 nx ny).ft (fun y => (tor nx ny (fun i j => w.get [i, j]) y : ℂ)) k := by
        rw [← (pair2 nx ny).ft_smul]; congr 1; funext y; push_cast; rfl
      beta_reduce
      rw [hS, this, mul_inv]; push_cast; ring
    have := P.area_pos
    rw [e, act_smul, e2]
    field_simp

end

/-! ## Link to the contact problem -/

/-- A force field on the grid, as an array. -/
def arrayOf (nx ny : ℕ) (f : Fin nx × Fin ny → ℝ) : NdArray ℝ :=
  ⟨[nx, ny], fun x => match x with
    | [i, j] => if h : i < nx ∧ j < ny then f (⟨i, h.1⟩, ⟨j, h.2⟩) else 0
    | _ => 0⟩

/-- `evaluate_disp` as a map between fields on the grid. -/
noncomputable def dispMap (s : HalfSpace) (nx ny : ℕ) (f : Fin nx × Fin ny → ℝ) : Fin nx × Fin ny → ℝ :=
  fun p => match evaluateDisp s (arrayOf nx ny f) with
    | .ok u => u.get [p.1, p.2]
    | .error _ => 0

lemma tor_arrayOf [NeZero nx] [NeZero ny] (f : Fin nx × Fin ny → ℝ) :
    (tor nx ny fun i j => (arrayOf nx ny f).get [i, j])
      = fun p => f (⟨p.1.val, ZMod.val_lt _⟩, ⟨p.2.val, ZMod.val_lt _⟩) := by
  funext p
  simp only [tor, arrayOf]
  rw [dif_pos ⟨ZMod.val_lt _, ZMod.val_lt _⟩]

lemma sum_fin [NeZero nx] [NeZero ny] (F : ZMod nx × ZMod ny → ℝ) :
    ∑ p : Fin nx × Fin ny, F ((p.1.val : ZMod nx), (p.2.val : ZMod ny)) = ∑ p, F p := by
  rw [sum_torus, Fintype.sum_prod_type, ← Fin.sum_univ_eq_sum_range (fun i => ∑ y ∈ range ny, F ((i : ZMod nx), (y : ZMod ny)))]
  refine sum_congr rfl fun i _ => ?_
  rw [← Fin.sum_univ_eq_sum_range (fun j => F ((i.val : ZMod nx), (j : ZMod ny)))]

/-- A periodic half-space with positive Gamma stiffness is an elastic substrate in the sense of the
contact-solver theorems: `evaluate_disp` is linear, reciprocal and does strictly negative work. -/
theorem C104_periodic_elasticResponse (hv : ValidArgs a) (hs : construct a = .ok s)
    (hg : a.nbGridPts = [nx, ny]) (hγ : 0 < gammaStiffness a) :
    ElasticResponse (dispMap s nx ny) := by
  obtain ⟨_, _, P⟩ := per_of_construct hv hs hg
  have hS : ∀ k, 0 < P.S k := by
    intro k
    by_cases h : k = 0
    · subst h; simpa [Per.S, fullStiff] using hγ
    · exact P.pos k h
  have hA := P.area_pos
  have key : ∀ f p, dispMap s nx ny f p = -((pair2 nx ny).act (fun k => (((P.S k)⁻¹ : ℝ) : ℂ))
      (tor nx ny fun i j => (arrayOf nx ny f).get [i, j]) ((p.1.val : ZMod nx), (p.2.val : ZMod ny))) / s.areaPerPt := by
    intro f p
    obtain ⟨u, hu, -, hu'⟩ := P.disp (f := arrayOf nx ny f) rfl
    unfold dispMap
    rw [hu]
    exact hu' _ _
  have hlin : ∀ (c d : ℝ) f g p, dispMap s nx ny (fun j => c * f j + d * g j) p
      = c * dispMap s nx ny f p + d * dispMap s nx ny g p := by
    intro c d f g p
    rw [key, key, key, tor_arrayOf, tor_arrayOf, tor_arrayOf, (pair2 nx ny).act_lin]
    ring
  have hdot : ∀ f g, dot f (dispMap s nx ny g) = -(∑ p, tor nx ny (fun i j => (arrayOf nx ny f).get [i, j]) p *
      (pair2 nx ny).act (fun k => (((P.S k)⁻¹ : ℝ) : ℂ)) (tor nx ny fun i j => (arrayOf nx ny g).get [i, j]) p)
        / s.areaPerPt := by
    intro f g
    unfold dot
    rw [← sum_fin, ← sum_neg_distrib, sum_div]
    refine sum_congr rfl fun p _ => ?_
    rw [key, tor_cast (fun i j => (arrayOf nx ny f).get [i, j]) p.1.isLt p.2.isLt]
    have : (arrayOf nx ny f).get [p.1, p.2] = f p := by simp [arrayOf]
    rw [this]; ring
  refine ⟨?_, ?_, ?_, ?_⟩
  · intro f g i
    have := hlin 1 1 f g i
    simpa using this
  · intro c f i
    have := hlin c 0 f f i
    simpa using this
  · intro f g
    rw [hdot, hdot, (pair2 nx ny).recip_of_even ((pair2 nx ny).ker_even (fun k => (P.S k)⁻¹))]
  · intro f ⟨i, hi⟩
    rw [hdot]
    have he := (pair2 nx ny).energy (fun k => (P.S k)⁻¹) (fun k => by rw [P.S_neg])
      (tor nx ny fun i j => (arrayOf nx ny f).get [i, j])
    have hpos : 0 < ∑ k, (P.S k)⁻¹ * normSq ((pair2 nx ny).ft
        (fun y => (tor nx ny (fun i j => (arrayOf nx ny f).get [i, j]) y : ℂ)) k) := by
      have hnn : ∀ k ∈ univ, 0 ≤ (P.S k)⁻¹ * normSq ((pair2 nx ny).ft
          (fun y => (tor nx ny (fun i j => (arrayOf nx ny f).get [i, j]) y : ℂ)) k) :=
        fun k _ => mul_nonneg (inv_pos.mpr (hS k)).le (normSq_nonneg _)
      refine lt_of_le_of_ne (sum_nonneg hnn) (fun h0 => hi ?_)
      rw [eq_comm, sum_eq_zero_iff_of_nonneg hnn] at h0
      have hz : ∀ k, (pair2 nx ny).ft (fun y => (tor nx ny (fun i j => (arrayOf nx ny f).get [i, j]) y : ℂ)) k = 0 := by
        intro k
        have := h0 k (mem_univ _)
        simpa [(hS k).ne'] using this
      have := ((pair2 nx ny).ft_eq_zero_iff _).mp hz ((i.1.val : ZMod nx), (i.2.val : ZMod ny))
      rw [tor_cast _ i.1.isLt i.2.isLt] at this
      simpa [arrayOf] using this
    rw [← he] at hpos
    have hc : (0 : ℝ) < (Fintype.card (ZMod nx × ZMod ny) : ℕ) := by
      exact_mod_cast Fintype.card_pos
    have hpos' := pos_of_mul_pos_right hpos hc.le
    rw [neg_div]
    exact neg_neg_of_pos (div_pos hpos' hA)

end CM.HS
