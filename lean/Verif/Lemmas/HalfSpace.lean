import Verif.Spec.HalfSpace
import Verif.Lemmas.HalfSpectrum
/-!
# Lemmas about the half-space model
-/
set_option linter.unusedSimpArgs false
namespace CM.HS
open Finset Complex CM.FFT CM.Fourier
open scoped ComplexConjugate

/-! ### The constructor -/

lemma initAttrs_ok {a : Args} {dom : List ℕ} {r : List ℝ × Mat} :
    initAttrs a dom = .ok r ↔
      (a.nbGridPts.length = 1 ∨ a.nbGridPts.length = 2) ∧ (a.q0 = none ∨ a.thickness = none) ∧
      a.physicalSizes ≠ [] ∧ 0 ∉ a.nbGridPts ∧ 1 - a.poisson ^ 2 ≠ 0 ∧
      (∀ g, a.engineGrid = some g → g = dom) ∧
      r = ((List.range a.nbGridPts.length).map
            fun i => a.physicalSizes.getD (min i (a.physicalSizes.length - 1)) 0,
          ⟨a.young, a.poisson, a.young / (1 - a.poisson ^ 2), a.q0, a.thickness⟩) := by
  unfold initAttrs expandSizes
  by_cases h1 : a.nbGridPts.length ≠ 1 ∧ a.nbGridPts.length ≠ 2
  · simp [h1, throw, throwThe, MonadExceptOf.throw, bind, Except.bind]
  have h1' : a.nbGridPts.length = 1 ∨ a.nbGridPts.length = 2 := by omega
  by_cases h2 : a.q0 ≠ none ∧ a.thickness ≠ none
  · simp [h1, h2, throw, throwThe, MonadExceptOf.throw, bind, Except.bind, pure, Except.pure]
  have h2' : a.q0 = none ∨ a.thickness = none := by
    by_contra h; push Not at h; exact h2 h
  have hpos : 0 < a.nbGridPts.length := by omega
  by_cases h3 : a.physicalSizes = []
  · simp [h1, h2, h3, hpos, throw, throwThe, MonadExceptOf.throw, bind, Except.bind, pure, Except.pure]
  by_cases h4 : 0 ∈ a.nbGridPts
  · simp [h1, h2, h3, h4, throw, throwThe, MonadExceptOf.throw, bind, Except.bind, pure, Except.pure]
  by_cases h5 : 1 - a.poisson ^ 2 = 0
  · simp [h1, h2, h3, h4, h5, throw, throwThe, MonadExceptOf.throw, bind, Except.bind, pure, Except.pure]
  cases h6 : a.engineGrid with
  | none =>
    simp [h1, h2, h3, h4, h5, h1', h2', throw, throwThe, MonadExceptOf.throw, bind, Except.bind, pure, Except.pure]
    exact eq_comm
  | some g =>
    by_cases h7 : g = dom
    · simp [h1, h2, h3, h4, h5, h1', h2', h7, throw, throwThe, MonadExceptOf.throw, bind, Except.bind, pure, Except.pure]
      exact eq_comm
    · simp [h1, h2, h3, h4, h5, h1', h2', h7, throw, throwThe, MonadExceptOf.throw, bind, Except.bind, pure, Except.pure]

/-- Data of a constructed two-dimensional half-space. -/
lemma construct2 {a : Args} {s : HalfSpace} {nx ny : ℕ} (hs : construct a = .ok s)
    (hg : a.nbGridPts = [nx, ny]) :
    ∃ (sx sy : ℝ) (m : Mat) (G : ℕ → ℕ → ℝ),
      initAttrs a [nx, ny] = .ok ([sx, sy], m) ∧
      greensBlock2 m nx ny sx sy (0, 0) (nx / 2 + 1, ny) = .ok G ∧
      s.nbGridPts = [nx, ny] ∧ s.domain = [nx, ny] ∧ s.physicalSizes = [sx, sy] ∧
      s.steps = [sx / nx, sy / ny] ∧ s.mat = m ∧
      s.greens = (fun k => match k with | [kx, ky] => (G kx ky : ℂ) | _ => 0) ∧
      s.stiffness = invertGreens s.greens := by
  unfold construct at hs
  rw [hg] at hs
  cases h : initAttrs a [nx, ny] with
  | error e => rw [h] at hs; cases hs
  | ok r =>
    obtain ⟨sizes, m⟩ := r
    have h' := (initAttrs_ok.mp h).2.2.2.2.2.2
    rw [hg] at h'
    have hsz : ∃ sx sy, sizes = [sx, sy] := by
      have := (Prod.mk.inj h').1
      exact ⟨_, _, this⟩
    obtain ⟨sx, sy, rfl⟩ := hsz
    rw [h] at hs
    simp only [bind, Except.bind, greensSerial] at hs
    cases hG : greensBlock2 m nx ny sx sy (0, 0) (nx / 2 + 1, ny) with
    | error e => rw [hG] at hs; cases hs
    | ok G =>
      rw [hG] at hs
      cases hs
      exact ⟨sx, sy, m, G, rfl, hG, rfl, rfl, rfl, rfl, rfl, rfl, rfl⟩

/-- Data of a constructed one-dimensional half-space. -/
lemma construct1 {a : Args} {s : HalfSpace} {nx : ℕ} (hs : construct a = .ok s)
    (hg : a.nbGridPts = [nx]) :
    ∃ (sx : ℝ) (m : Mat) (G : ℕ → ℝ),
      initAttrs a [nx] = .ok ([sx], m) ∧
      greensBlock1 m nx sx 0 (nx / 2 + 1) = .ok G ∧
      s.nbGridPts = [nx] ∧ s.domain = [nx] ∧ s.physicalSizes = [sx] ∧
      s.steps = [sx / nx] ∧ s.mat = m ∧
      s.greens = (fun k => match k with | [kx] => (G kx : ℂ) | _ => 0) ∧
      s.stiffness = invertGreens s.greens := by
  unfold construct at hs
  rw [hg] at hs
  cases h : initAttrs a [nx] with
  | error e => rw [h] at hs; cases hs
  | ok r =>
    obtain ⟨sizes, m⟩ := r
    have h' := (initAttrs_ok.mp h).2.2.2.2.2.2
    rw [hg] at h'
    have hsz : ∃ sx, sizes = [sx] := ⟨_, (Prod.mk.inj h').1⟩
    obtain ⟨sx, rfl⟩ := hsz
    rw [h] at hs
    simp only [bind, Except.bind, greensSerial] at hs
    cases hG : greensBlock1 m nx sx 0 (nx / 2 + 1) with
    | error e => rw [hG] at hs; cases hs
    | ok G =>
      rw [hG] at hs
      cases hs
      exact ⟨sx, m, G, rfl, hG, rfl, rfl, rfl, rfl, rfl, rfl, rfl⟩

/-! ### Minimum image -/

lemma freq_neg (n : ℕ) [NeZero n] (s : ℝ) (k : ZMod n) : freq n s (-k).val = freq n s k.val := by
  have hn : 0 < n := Nat.pos_of_ne_zero (NeZero.ne n)
  rw [ZMod.neg_val]
  split_ifs with h
  · rw [h, ZMod.val_zero]
  · have hk : k.val < n := ZMod.val_lt k
    have hk0 : k.val ≠ 0 := fun h0 => h ((ZMod.val_eq_zero k).mp h0)
    unfold freq
    rw [Nat.cast_sub hk.le]
    by_cases h1 : k.val ≤ n / 2 <;> by_cases h2 : n - k.val ≤ n / 2
    · rw [if_pos h1, if_pos h2]
      have : n = 2 * k.val := by omega
      have : (n : ℝ) = 2 * k.val := by exact_mod_cast this
      rw [this]; ring
    · rw [if_pos h1, if_neg h2]; ring
    · rw [if_neg h1, if_pos h2]
    · omega

lemma freq_nonneg {n : ℕ} {s : ℝ} (hs : 0 < s) {k : ℕ} (hk : k < n) : 0 ≤ freq n s k := by
  unfold freq
  have : (k : ℝ) < n := by exact_mod_cast hk
  split_ifs
  · positivity
  · apply div_nonneg _ hs.le; linarith

lemma freq_pos {n : ℕ} {s : ℝ} (hs : 0 < s) {k : ℕ} (hk : k < n) (h0 : k ≠ 0) : 0 < freq n s k := by
  unfold freq
  have : (k : ℝ) < n := by exact_mod_cast hk
  split_ifs
  · have : 0 < (k : ℝ) := by exact_mod_cast Nat.pos_of_ne_zero h0
    positivity
  · apply div_pos _ hs; linarith

lemma freq2_neg (nx ny : ℕ) [NeZero nx] [NeZero ny] (sx sy : ℝ) (k : ZMod nx × ZMod ny) :
    freq2 nx ny sx sy (-k).1.val (-k).2.val = freq2 nx ny sx sy k.1.val k.2.val := by
  unfold freq2
  rw [Prod.fst_neg, Prod.snd_neg, freq_neg, freq_neg]

lemma freq2_pos {nx ny : ℕ} {sx sy : ℝ} (hx : 0 < sx) (hy : 0 < sy) {kx ky : ℕ} (hkx : kx < nx)
    (hky : ky < ny) (h : kx ≠ 0 ∨ ky ≠ 0) : 0 < freq2 nx ny sx sy kx ky := by
  unfold freq2
  apply Real.sqrt_pos.mpr
  rcases h with h | h
  · have := freq_pos hx hkx h
    nlinarith [mul_self_nonneg (freq ny sy ky), mul_pos this this]
  · have := freq_pos hy hky h
    nlinarith [mul_self_nonneg (freq nx sx kx), mul_pos this this]

/-! ### The layer correction -/

lemma sinh_gt_self {x : ℝ} (hx : 0 < x) : x < Real.sinh x := Real.self_lt_sinh_iff.mpr hx

lemma layer_denom_pos {nu Q : ℝ} (hnu : nu < 1 / 2) (hQ : 0 < Q) :
    0 < (3 - 4 * nu) * Real.sinh (2 * Q) - 2 * Q := by
  have := sinh_gt_self (show 0 < 2 * Q by linarith)
  nlinarith

lemma one_lt_layerCorr {nu Q : ℝ} (hnu : nu < 1 / 2) (hQ : 0 < Q) : 1 < layerCorr nu Q := by
  unfold layerCorr
  simp only
  rw [lt_div_iff₀ (layer_denom_pos hnu hQ), one_mul]
  have h : Real.sinh (2 * Q) < Real.cosh (2 * Q) := Real.sinh_lt_cosh _
  nlinarith [sq_nonneg Q, sq_nonneg (4 * nu - 3)]

/-! ### Evaluation through the torus -/

/-- `s` filters with the (Hermitian) full-spectrum multiplier `G` on an `nx × ny` torus. -/
structure Rep (s : HalfSpace) (nx ny : ℕ) [NeZero nx] [NeZero ny]
    (G : ZMod nx × ZMod ny → ℂ) : Prop where
  dom : s.domain = [nx, ny]
  herm : Pairing.Herm G
  greens : ∀ kx ky, kx ≤ nx / 2 → ky < ny → s.greens [kx, ky] = G ((kx : ZMod nx), (ky : ZMod ny))
  stiff : s.stiffness = invertGreens s.greens

namespace Rep
variable {s : HalfSpace} {nx ny : ℕ} [NeZero nx] [NeZero ny] {G : ZMod nx × ZMod ny → ℂ}

lemma stiffness (h : Rep s nx ny G) (kx ky : ℕ) (hx : kx ≤ nx / 2) (hy : ky < ny) :
    s.stiffness [kx, ky] = (G ((kx : ZMod nx), (ky : ZMod ny)))⁻¹ := by
  rw [h.stiff]
  unfold invertGreens
  rw [h.greens kx ky hx hy]
  split_ifs with h0
  · rw [one_div]
  · push Not at h0; rw [h0, inv_zero]

lemma herm_inv (h : Rep s nx ny G) : Pairing.Herm fun k => (G k)⁻¹ := fun k => by
  simp only [h.herm k, map_inv₀]

lemma norm (h : Rep s nx ny G) : s.normalisation = 1 / (nx * ny : ℝ) := by
  unfold HalfSpace.normalisation; rw [h.dom]; simp

lemma disp_ok (h : Rep s nx ny G) {f : NdArray ℝ} (hf : f.shape = [nx, ny]) :
    ∃ u, evaluateDisp s f = .ok u ∧ u.shape = [nx, ny] ∧ ∀ x y, u.get [x, y]
      = -((pair2 nx ny).act G (tor nx ny fun i j => f.get [i, j]) ((x : ZMod nx), (y : ZMod ny)))
          / s.areaPerPt := by
  refine ⟨_, by rw [evaluateDisp, if_neg (by rw [hf, h.dom]; simp)], h.dom, fun x y => ?_⟩
  simp only [h.dom, ifft, fft]
  rw [h.norm]
  have := filter2 nx ny (fun kx ky => s.greens [kx, ky]) G h.herm h.greens
    (fun i j => -(f.get [i, j])) x y
  have h2 := (pair2 nx ny).act_lin G (-1) 0 (tor nx ny fun i j => f.get [i, j])
    (fun _ => 0) ((x : ZMod nx), (y : ZMod ny))
  have e : tor nx ny (fun i j => -(f.get [i, j]))
      = fun p => -1 * tor nx ny (fun i j => f.get [i, j]) p + 0 * 0 := by
    funext p; simp [tor]
  rw [e, h2] at this
  have : irfft2 nx ny (fun kx ky => rfft2 nx ny (fun i j => -(f.get [i, j])) kx ky * s.greens [kx, ky]) x y
      / (nx * ny : ℝ) = -((pair2 nx ny).act G (tor nx ny fun i j => f.get [i, j])
          ((x : ZMod nx), (y : ZMod ny))) := by rw [this]; ring
  rw [← this]; ring

lemma force_ok (h : Rep s nx ny G) {u : NdArray ℝ} (hu : u.shape = [nx, ny]) :
    ∃ f, evaluateForce s u = .ok f ∧ f.shape = [nx, ny] ∧ ∀ x y, f.get [x, y]
      = -((pair2 nx ny).act (fun k => (G k)⁻¹) (tor nx ny fun i j => u.get [i, j])
          ((x : ZMod nx), (y : ZMod ny))) * s.areaPerPt := by
  refine ⟨_, by rw [evaluateForce, if_neg (by rw [hu, h.dom]; simp)], h.dom, fun x y => ?_⟩
  simp only [h.dom, ifft, fft]
  rw [h.norm]
  have := filter2 nx ny (fun kx ky => s.stiffness [kx, ky]) _ h.herm_inv h.stiffness
    (fun i j => u.get [i, j]) x y
  rw [← this]; ring

end Rep

lemma tor_congr {nx ny : ℕ} [NeZero nx] [NeZero ny] {a b : ℕ → ℕ → ℝ}
    (h : ∀ i j, i < nx → j < ny → a i j = b i j) : tor nx ny a = tor nx ny b := by
  funext p; exact h _ _ (ZMod.val_lt _) (ZMod.val_lt _)

lemma tor_self {nx ny : ℕ} [NeZero nx] [NeZero ny] (F : ZMod nx × ZMod ny → ℝ) (a : ℕ → ℕ → ℝ)
    (h : ∀ i j, i < nx → j < ny → a i j = F ((i : ZMod nx), (j : ZMod ny))) : tor nx ny a = F := by
  funext p
  unfold tor
  rw [h _ _ (ZMod.val_lt _) (ZMod.val_lt _), ZMod.natCast_zmod_val, ZMod.natCast_zmod_val]

lemma sum_tor {nx ny : ℕ} [NeZero nx] [NeZero ny] (F : ZMod nx × ZMod ny → ℝ) (a : ℕ → ℕ → ℝ)
    (h : ∀ i j, i < nx → j < ny → a i j = F ((i : ZMod nx), (j : ZMod ny))) :
    ∑ i ∈ range nx, ∑ j ∈ range ny, a i j = ∑ p, F p := by
  rw [sum_torus]
  exact sum_congr rfl fun i hi => sum_congr rfl fun j hj => h i j (mem_range.mp hi) (mem_range.mp hj)

/-! ### The periodic spectrum -/

/-- Full stiffness spectrum of a two-dimensional periodic half-space with Gamma stiffness `g`. -/
noncomputable def fullStiff (m : Mat) (nx ny : ℕ) (sx sy g : ℝ) (k : ZMod nx × ZMod ny) : ℝ :=
  if k = 0 then g else stiffnessOfFreq m (freq2 nx ny sx sy k.1.val k.2.val)

lemma fullStiff_neg (m : Mat) (nx ny : ℕ) [NeZero nx] [NeZero ny] (sx sy g : ℝ)
    (k : ZMod nx × ZMod ny) : fullStiff m nx ny sx sy g (-k) = fullStiff m nx ny sx sy g k := by
  unfold fullStiff
  rw [freq2_neg]; simp only [neg_eq_zero]

lemma cast_pair_eq_zero {nx ny : ℕ} [NeZero nx] [NeZero ny] {kx ky : ℕ} (hx : kx < nx)
    (hy : ky < ny) : (((kx : ZMod nx), (ky : ZMod ny)) = (0 : ZMod nx × ZMod ny)) ↔ kx = 0 ∧ ky = 0 := by
  rw [Prod.ext_iff]
  simp only [Prod.fst_zero, Prod.snd_zero]
  rw [← ZMod.val_eq_zero, ← ZMod.val_eq_zero, ZMod.val_cast_of_lt hx, ZMod.val_cast_of_lt hy]

lemma half_lt {n k : ℕ} [NeZero n] (h : k ≤ n / 2) : k < n := by
  have := NeZero.ne n
  omega

/-- Everything the property proofs need about a valid two-dimensional periodic half-space. -/
structure Per (a : Args) (s : HalfSpace) (nx ny : ℕ) [NeZero nx] [NeZero ny] : Prop where
  sx_pos : 0 < Spec.size a 0
  sy_pos : 0 < Spec.size a 1
  mat : s.mat = ⟨a.young, a.poisson, Spec.contactModulus a, a.q0, a.thickness⟩
  rep : Rep s nx ny fun k =>
    (((fullStiff s.mat nx ny (Spec.size a 0) (Spec.size a 1) (Spec.gammaStiffness a) k)⁻¹ : ℝ) : ℂ)
  area : s.areaPerPt = Spec.size a 0 * Spec.size a 1 / (nx * ny)
  pos : ∀ k, k ≠ 0 →
    0 < fullStiff s.mat nx ny (Spec.size a 0) (Spec.size a 1) (Spec.gammaStiffness a) k
  grid : s.nbGridPts = [nx, ny]
  sizes : s.physicalSizes = [Spec.size a 0, Spec.size a 1]
  multi : a.thickness = none → a.q0 = none → 1 < nx ∧ 1 < ny

lemma size_eq (a : Args) (i : ℕ) (h : a.physicalSizes ≠ []) :
    a.physicalSizes.getD (min i (a.physicalSizes.length - 1)) 0 = Spec.size a i := by
  unfold Spec.size
  have hl : 0 < a.physicalSizes.length := List.length_pos_iff.mpr h
  split_ifs with hi
  · rw [min_eq_left (by omega), List.getD_eq_getElem?_getD, List.getElem?_eq_getElem hi]; rfl
  · rw [min_eq_right (by omega), List.getD_eq_getElem?_getD, List.getLastD_eq_getLast?,
      List.getLast?_eq_getElem?]

lemma size_pos {a : Args} (hv : Spec.ValidArgs a) (h : a.physicalSizes ≠ []) (i : ℕ) :
    0 < Spec.size a i := by
  unfold Spec.size
  split_ifs with hi
  · exact hv.sizes_pos _ (List.getElem_mem hi)
  · rw [List.getLastD_eq_getLast?, List.getLast?_eq_getLast_of_ne_nil h]
    exact hv.sizes_pos _ (List.getLast_mem h)

lemma contactModulus_pos {a : Args} (hv : Spec.ValidArgs a) : 0 < Spec.contactModulus a := by
  unfold Spec.contactModulus
  apply div_pos hv.young_pos
  nlinarith [hv.poisson_low, hv.poisson_high]

lemma stiffnessOfFreq_pos {a : Args} (hv : Spec.ValidArgs a) {q : ℝ} (hq : 0 < q) :
    0 < stiffnessOfFreq ⟨a.young, a.poisson, Spec.contactModulus a, a.q0, a.thickness⟩ q := by
  have hE := contactModulus_pos hv
  unfold stiffnessOfFreq
  cases ht : a.thickness with
  | none => have := Real.pi_pos; simp only; positivity
  | some h =>
    obtain ⟨hh, hnu⟩ := hv.thickness h ht
    have hpi := Real.pi_pos
    have := one_lt_layerCorr hnu (show 0 < q * (2 * Real.pi * h) by positivity)
    have h2 : 0 < layerCorr a.poisson (q * (2 * Real.pi * h)) := by linarith
    simp only
    positivity

lemma freq2_axis_x {nx ny : ℕ} (hx : 1 < nx) {sx sy : ℝ} (h : 0 < sx) : freq2 nx ny sx sy 1 0 = 1 / sx := by
  unfold freq2 freq
  rw [if_pos (by omega), if_pos (by omega)]
  simp only [Nat.cast_one, Nat.cast_zero, zero_div, mul_zero, add_zero]
  exact Real.sqrt_mul_self (by positivity)

lemma freq2_axis_y {nx ny : ℕ} (hy : 1 < ny) {sx sy : ℝ} (h : 0 < sy) : freq2 nx ny sx sy 0 1 = 1 / sy := by
  unfold freq2 freq
  rw [if_pos (by omega), if_pos (by omega)]
  simp only [Nat.cast_one, Nat.cast_zero, zero_div, mul_zero, zero_add]
  exact Real.sqrt_mul_self (by positivity)

lemma per_of_construct {a : Args} {s : HalfSpace} {nx ny : ℕ} (hv : Spec.ValidArgs a)
    (hs : construct a = .ok s) (hg : a.nbGridPts = [nx, ny]) :
    ∃ (_ : NeZero nx) (_ : NeZero ny), Per a s nx ny := by
  obtain ⟨sx, sy, m, G, hi, hG, h1, h2, h3, h4, h5, h6, h7⟩ := construct2 hs hg
  obtain ⟨-, hqt, hsz, h0, -, -, hr⟩ := initAttrs_ok.mp hi
  rw [hg] at hr h0
  have hx0 : nx ≠ 0 := fun h => h0 (by simp [h])
  have hy0 : ny ≠ 0 := fun h => h0 (by simp [h])
  have hsx : sx = Spec.size a 0 := by
    rw [← size_eq a 0 hsz]; exact (List.cons.inj (Prod.mk.inj hr).1).1
  have hsy : sy = Spec.size a 1 := by
    rw [← size_eq a 1 hsz]; exact (List.cons.inj (List.cons.inj (Prod.mk.inj hr).1).2).1
  have hm : m = ⟨a.young, a.poisson, Spec.contactModulus a, a.q0, a.thickness⟩ := (Prod.mk.inj hr).2
  subst hsx hsy
  have px := size_pos hv hsz 0
  have py := size_pos hv hsz 1
  have : NeZero nx := ⟨hx0⟩
  have : NeZero ny := ⟨hy0⟩
  refine ⟨inferInstance, inferInstance, ?_⟩
  have hnf : ¬ (nx / 2 + 1) * ny = 0 := by
    intro h; rcases Nat.mul_eq_zero.mp h with h | h <;> omega
  have key : (∀ kx ky, kx < nx → ky < ny → G kx ky = (fullStiff m nx ny (Spec.size a 0) (Spec.size a 1)
      (Spec.gammaStiffness a) ((kx : ZMod nx), (ky : ZMod ny)))⁻¹) ∧
      (a.thickness = none → a.q0 = none → 1 < nx ∧ 1 < ny) := by
    unfold greensBlock2 at hG
    rw [if_neg hnf] at hG
    unfold stiffnessBlock2 at hG
    rw [if_pos rfl] at hG
    have hfull : ∀ g kx ky, kx < nx → ky < ny → fullStiff m nx ny (Spec.size a 0) (Spec.size a 1) g
        ((kx : ZMod nx), (ky : ZMod ny)) = if kx = 0 ∧ ky = 0 then g else
          stiffnessOfFreq m (freq2 nx ny (Spec.size a 0) (Spec.size a 1) (0 + kx) (0 + ky)) := by
      intro g kx ky hx hy
      unfold fullStiff
      simp only [cast_pair_eq_zero hx hy, ZMod.val_cast_of_lt hx, ZMod.val_cast_of_lt hy, Nat.zero_add]
    have hmt : m.thickness = a.thickness := by rw [hm]
    have hmq : m.q0 = a.q0 := by rw [hm]
    cases ht : a.thickness with
    | some h =>
      have hq : a.q0 = none := hqt.resolve_right (by rw [ht]; simp)
      rw [hmt, ht] at hG
      simp only [bind, Except.bind, hmq, hq] at hG
      rw [if_neg (by simp)] at hG
      cases hG
      refine ⟨fun kx ky hx hy => ?_, fun h => by simp at h⟩
      beta_reduce
      rw [hfull _ _ _ hx hy, one_div]
      congr 2
      rw [Spec.gammaStiffness, ht, hm]
      simp only
      rw [div_mul_eq_mul_div, div_div, div_div]
      congr 1; ring
    | none =>
      rw [hmt, ht, hmq] at hG
      cases hq : a.q0 with
      | none =>
        rw [hq] at hG
        simp only at hG
        by_cases hc : nx / 2 + 1 ≤ 1 ∨ ny ≤ 1
        · rw [if_pos hc] at hG; cases hG
        · rw [if_neg hc] at hG
          push Not at hc
          simp only [bind, Except.bind] at hG
          rw [if_neg (by simp)] at hG
          cases hG
          have hnx : 1 < nx := by omega
          refine ⟨fun kx ky hx hy => ?_, fun _ _ => ⟨hnx, hc.2⟩⟩
          beta_reduce
          rw [hfull _ _ _ hx hy, one_div]
          congr 2
          rw [Spec.gammaStiffness, ht, hq]
          simp only [Nat.zero_add]
          rw [freq2_axis_x hnx px, freq2_axis_y hc.2 py]
          rw [stiffnessOfFreq, stiffnessOfFreq, hmt, ht, hm]
          simp only
          ring
      | some q =>
        rw [hq] at hG
        simp only at hG
        refine ⟨fun kx ky hx hy => ?_, fun _ h => by simp at h⟩
        rw [hfull _ _ _ hx hy]
        have hgam : Spec.gammaStiffness a = q := by rw [Spec.gammaStiffness, ht, hq]
        rw [hgam]
        by_cases hq0 : q = 0
        · subst hq0
          simp only [bind, Except.bind, if_true, and_self] at hG
          cases hG
          by_cases hk : kx = 0 ∧ ky = 0 <;> simp [hk]
        · rw [if_neg hq0] at hG
          simp only [bind, Except.bind] at hG
          rw [if_neg (by simpa using hq0)] at hG
          cases hG
          by_cases hk : kx = 0 ∧ ky = 0 <;> simp [hk]
  obtain ⟨key, hmulti⟩ := key
  refine ⟨px, py, h5.trans hm, ⟨h2, ?_, ?_, h7⟩, ?_, ?_, h1, h3, hmulti⟩
  · intro k; simp only [fullStiff_neg, conj_ofReal]
  · intro kx ky hx hy
    rw [h6, h5]
    simp only
    rw [key kx ky (half_lt hx) hy]
  · unfold HalfSpace.areaPerPt; rw [h3, h1]; simp
  · intro k hk
    unfold fullStiff
    rw [if_neg hk, h5, hm]
    apply stiffnessOfFreq_pos hv
    apply freq2_pos px py (ZMod.val_lt _) (ZMod.val_lt _)
    by_contra h
    push Not at h
    rw [ZMod.val_eq_zero, ZMod.val_eq_zero] at h
    exact hk (Prod.ext h.1 h.2)

end CM.HS
