import Verif.Lemmas.HalfSpace
import Verif.Lemmas.Love
import Verif.Spec.FreeHalfSpace
/-!
# Free half-spaces: evaluation (C19-C22, C26, C27)
-/
set_option linter.unusedSimpArgs false
namespace CM.HS
open Finset Complex CM.FFT CM.Fourier CM.Spec
open scoped ComplexConjugate

variable {a : FreeArgs} {s : HalfSpace} {nx ny : ℕ}

/-! ### The kernel -/

lemma half_int_ne {d : ℝ} (hd : 0 < d) (k : ℤ) : (k : ℝ) * d + d / 2 ≠ 0 ∧ (k : ℝ) * d - d / 2 ≠ 0 := by
  constructor
  · intro h
    have h1 : (2 * k + 1 : ℝ) * d = 0 := by linarith
    have h2 : (2 * k + 1 : ℝ) = 0 := by
      rcases mul_eq_zero.mp h1 with h | h
      · exact h
      · linarith
    have h3 : (2 * k + 1 : ℤ) = 0 := by exact_mod_cast h2
    omega
  · intro h
    have h1 : (2 * k - 1 : ℝ) * d = 0 := by linarith
    have h2 : (2 * k - 1 : ℝ) = 0 := by
      rcases mul_eq_zero.mp h1 with h | h
      · exact h
      · linarith
    have h3 : (2 * k - 1 : ℤ) = 0 := by exact_mod_cast h2
    omega

lemma rad_eq (p q : ℝ) : rad p q = Real.sqrt (p ^ 2 + q ^ 2) := by
  unfold rad; congr 1; ring

/-- **C105** On every grid point Love's closed form, as coded, is the Boussinesq integral over the
pixel. -/
theorem C105_love_is_integral {E dx dy : ℝ} (hx : 0 < dx) (hy : 0 < dy) (k l : ℤ) :
    loveKernel E (dx * 0.5) (dy * 0.5) (k * dx) (l * dy) = pixelGreens E dx dy (k * dx) (l * dy) := by
  have e1 : dx * 0.5 = dx / 2 := by norm_num; ring
  have e2 : dy * 0.5 = dy / 2 := by norm_num; ring
  obtain ⟨h1, h2⟩ := half_int_ne hx k
  obtain ⟨h3, h4⟩ := half_int_ne hy l
  rw [e1, e2, loveKernel_eq h1 h2 h3 h4]
  unfold pixelGreens
  congr 1
  have := integral_love (x := k * dx - dx / 2) (X := k * dx + dx / 2) (y := l * dy - dy / 2) (Y := l * dy + dy / 2)
    h2 h1 (by linarith) (by linarith)
  simp only [rad_eq] at this
  rw [this]

lemma pixelGreens_neg_x (E dx dy x y : ℝ) : pixelGreens E dx dy (-x) y = pixelGreens E dx dy x y := by
  unfold pixelGreens
  congr 2
  funext η
  have := intervalIntegral.integral_comp_neg (a := x - dx / 2) (b := x + dx / 2)
    (fun ξ => 1 / Real.sqrt (ξ ^ 2 + η ^ 2))
  simp only [neg_sq] at this
  rw [this]
  congr 1 <;> ring

lemma pixelGreens_neg_y (E dx dy x y : ℝ) : pixelGreens E dx dy x (-y) = pixelGreens E dx dy x y := by
  unfold pixelGreens
  congr 1
  have := intervalIntegral.integral_comp_neg (a := y - dy / 2) (b := y + dy / 2)
    (fun η => ∫ ξ in (x - dx / 2)..(x + dx / 2), 1 / Real.sqrt (ξ ^ 2 + η ^ 2))
  simp only [neg_sq] at this
  rw [this]
  congr 1 <;> ring

/-- **C21** The pixel Green's function the code tabulates is even in `x` and in `y`. -/
theorem C21_mirror_symmetry {E dx dy : ℝ} (hx : 0 < dx) (hy : 0 < dy) (k l : ℤ) :
    loveKernel E (dx * 0.5) (dy * 0.5) (-k * dx) (l * dy) = loveKernel E (dx * 0.5) (dy * 0.5) (k * dx) (l * dy) ∧
    loveKernel E (dx * 0.5) (dy * 0.5) (k * dx) (-l * dy) = loveKernel E (dx * 0.5) (dy * 0.5) (k * dx) (l * dy) := by
  have e1 := C105_love_is_integral (E := E) hx hy (-k) l
  have e2 := C105_love_is_integral (E := E) hx hy k (-l)
  push_cast at e1 e2
  rw [e1, e2, C105_love_is_integral hx hy]
  refine ⟨?_, ?_⟩
  · rw [neg_mul, pixelGreens_neg_x]
  · rw [neg_mul, pixelGreens_neg_y]

lemma pixelGreens_pos {E dx dy : ℝ} (hE : 0 < E) (hx : 0 < dx) (hy : 0 < dy) (k l : ℤ) :
    0 < pixelGreens E dx dy (k * dx) (l * dy) := by
  obtain ⟨h1, h2⟩ := half_int_ne hx k
  have hpi := Real.pi_pos
  have hI := integral_love (x := k * dx - dx / 2) (X := k * dx + dx / 2) (y := l * dy - dy / 2) (Y := l * dy + dy / 2)
    h2 h1 (by linarith) (by linarith)
  have hpos : 0 < ∫ q in (l * dy - dy / 2)..(l * dy + dy / 2), ∫ p in (k * dx - dx / 2)..(k * dx + dx / 2), 1 / rad p q := by
    rw [hI]
    set X := k * dx + dx / 2
    set x := k * dx - dx / 2
    set Y := l * dy + dy / 2
    set y := l * dy - dy / 2
    have hxX : x < X := by simp only [x, X]; linarith
    have hyY : y < Y := by simp only [y, Y]; linarith
    have hcont : Continuous fun q => loveP X q - loveP x q := (continuous_loveP h1).sub (continuous_loveP h2)
    have hder : ∀ q, q ≠ 0 → 0 < deriv (fun q => loveP X q - loveP x q) q := by
      intro q hq
      have hd : HasDerivAt (fun q => loveP X q - loveP x q) _ q := (hasDerivAt_loveP h1 hq).sub (hasDerivAt_loveP h2 hq)
      rw [hd.deriv]
      have := Real.log_lt_log (add_rad_pos' x hq) (show x + rad x q < X + rad X q by
        have a1 := add_rad_pos' x hq
        have a2 := add_rad_pos' X hq
        have a3 := rad_sq x q
        have a4 := rad_sq X q
        have a5 := rad_nonneg x q
        have a6 := rad_nonneg X q
        have a7 := rad_pos (p := X) (q := q) (.inr hq)
        -- r_X - r_x = (X²-x²)/(r_X+r_x) > -(X-x)
        have hX1 : |X| ≤ rad X q := Real.abs_le_sqrt (by nlinarith)
        have hx1 : |x| < rad x q := by
          apply Real.lt_sqrt_of_sq_lt
          rw [sq_abs]; nlinarith [mul_self_pos.mpr hq]
        have b1 := neg_abs_le X
        have b2 := neg_abs_le x
        have key : (rad X q - rad x q) * (rad X q + rad x q) = (X - x) * (X + x) := by nlinarith
        have hs : 0 < rad X q + rad x q := by linarith
        by_contra hc
        push Not at hc
        have : (rad X q - rad x q) * (rad X q + rad x q) ≤ -(X - x) * (rad X q + rad x q) :=
          mul_le_mul_of_nonneg_right (by linarith) hs.le
        nlinarith)
      linarith
    have hm1 : ∀ {u v : ℝ}, u < v → (0 ≤ u ∨ v ≤ 0) → loveP X u - loveP x u < loveP X v - loveP x v := by
      intro u v huv h
      apply strictMonoOn_of_deriv_pos (convex_Icc u v) hcont.continuousOn _ ⟨le_refl _, huv.le⟩ ⟨huv.le, le_refl _⟩ huv
      intro q hq
      rw [interior_Icc] at hq
      apply hder
      rintro rfl
      rcases h with h | h
      · linarith [hq.1]
      · linarith [hq.2]
    have : loveP X y - loveP x y < loveP X Y - loveP x Y := by
      by_cases c1 : 0 ≤ y
      · exact hm1 hyY (.inl c1)
      · by_cases c2 : Y ≤ 0
        · exact hm1 hyY (.inr c2)
        · push Not at c1 c2
          exact (hm1 c1 (.inr (le_refl _))).trans (hm1 c2 (.inl (le_refl _)))
    linarith
  unfold pixelGreens
  simp only [rad_eq] at hpos
  positivity

/-! ### The constructed substrate -/

/-- Data of a constructed free half-space. -/
structure FreeRep (a : FreeArgs) (s : HalfSpace) (nx ny : ℕ) [NeZero nx] [NeZero ny] : Prop where
  sx_pos : 0 < sizeF a 0
  sy_pos : 0 < sizeF a 1
  grid : s.nbGridPts = [nx, ny]
  dom : s.domain = [2 * nx, 2 * ny]
  sizes : s.physicalSizes = [sizeF a 0, sizeF a 1]
  steps : s.steps = [sizeF a 0 / nx, sizeF a 1 / ny]
  young : s.mat.young = a.young
  area : s.areaPerPt = sizeF a 0 / nx * (sizeF a 1 / ny)
  greens : ∀ kx ky, s.greens [kx, ky] = rfft2 (2 * nx) (2 * ny)
    (fun i j => freeKernel a.young nx ny (sizeF a 0 / nx) (sizeF a 1 / ny) i j) kx ky
  stiff : s.stiffness = invertGreens s.greens

lemma sizeF_eq (a : FreeArgs) (i : ℕ) : sizeF a i = size a.base i := rfl

lemma free_of_construct (hv : ValidFree a) (hs : constructFree a = .ok s) (hg : a.nbGridPts = [nx, ny]) :
    ∃ (_ : NeZero nx) (_ : NeZero ny), FreeRep a s nx ny := by
  unfold constructFree at hs
  dsimp only at hs
  cases h : initAttrs a.base (a.nbGridPts.map (2 * ·)) with
  | error e => rw [h] at hs; cases hs
  | ok r =>
    obtain ⟨sizes, m⟩ := r
    obtain ⟨-, -, hsz, h0, -, -, hr⟩ := initAttrs_ok.mp h
    have hgb : a.base.nbGridPts = [nx, ny] := hg
    rw [hgb] at hr h0
    have hx0 : nx ≠ 0 := fun h => h0 (by simp [h])
    have hy0 : ny ≠ 0 := fun h => h0 (by simp [h])
    have hs' : sizes = [sizeF a 0, sizeF a 1] := by
      rw [sizeF_eq, sizeF_eq, ← size_eq a.base 0 hsz, ← size_eq a.base 1 hsz]
      exact (Prod.mk.inj hr).1
    have hm : m = _ := (Prod.mk.inj hr).2
    have : NeZero nx := ⟨hx0⟩
    have : NeZero ny := ⟨hy0⟩
    rw [h, hg, hs'] at hs
    simp only [bind, Except.bind, pure, Except.pure, Except.ok.injEq] at hs
    subst hs
    have hp : ∀ i, 0 < sizeF a i := by
      intro i
      unfold sizeF
      have hne : a.physicalSizes ≠ [] := hsz
      split_ifs with hi
      · exact hv.sizes_pos _ (List.getElem_mem hi)
      · rw [List.getLastD_eq_getLast?, List.getLast?_eq_getLast_of_ne_nil hne]
        exact hv.sizes_pos _ (List.getLast_mem hne)
    refine ⟨inferInstance, inferInstance, hp 0, hp 1, rfl, rfl, rfl, rfl, ?_, ?_, ?_, rfl⟩
    · rw [hm]; rfl
    · simp only [HalfSpace.areaPerPt, List.prod_cons, List.prod_nil]
      push_cast
      have h1 : (nx : ℝ) ≠ 0 := by exact_mod_cast hx0
      have h2 : (ny : ℝ) ≠ 0 := by exact_mod_cast hy0
      field_simp
    · intro kx ky
      rfl

namespace FreeRep
variable [NeZero nx] [NeZero ny]

/-- Kernel on the padded torus. -/
noncomputable def K (a : FreeArgs) (nx ny : ℕ) (p : ZMod (2 * nx) × ZMod (2 * ny)) : ℝ :=
  tor (2 * nx) (2 * ny) (fun i j => freeKernel a.young nx ny (sizeF a 0 / nx) (sizeF a 1 / ny) i j) p

lemma rep (P : FreeRep a s nx ny) : Rep s (2 * nx) (2 * ny) ((pair2 (2 * nx) (2 * ny)).ft fun p => (K a nx ny p : ℂ)) where
  dom := P.dom
  herm := fun k => (pair2 (2 * nx) (2 * ny)).ft_neg (K a nx ny) k
  greens := fun kx ky _ _ => by rw [P.greens, rfft2_eq]; rfl
  stiff := P.stiff

lemma ker_eq (z : ZMod (2 * nx) × ZMod (2 * ny)) :
    (pair2 (2 * nx) (2 * ny)).ker ((pair2 (2 * nx) (2 * ny)).ft fun p => (K a nx ny p : ℂ)) z = K a nx ny z := by
  unfold Pairing.ker
  rw [(pair2 (2 * nx) (2 * ny)).ift_ft, ← ofReal_natCast, ← ofReal_mul, ofReal_re]
  have : (Fintype.card (ZMod (2 * nx) × ZMod (2 * ny)) : ℝ) ≠ 0 := by
    exact_mod_cast Fintype.card_ne_zero
  field_simp

/-- Displacements of padded forces as a circular convolution. -/
lemma disp (P : FreeRep a s nx ny) {f : NdArray ℝ} (hf : f.shape = [2 * nx, 2 * ny]) :
    ∃ u, evaluateDisp s f = .ok u ∧ u.shape = [2 * nx, 2 * ny] ∧ ∀ x y, u.get [x, y]
      = -(∑ p, K a nx ny (((x : ZMod (2 * nx)), (y : ZMod (2 * ny))) - p)
          * tor (2 * nx) (2 * ny) (fun i j => f.get [i, j]) p) / s.areaPerPt := by
  obtain ⟨u, hu, hsh, hu'⟩ := P.rep.disp_ok hf
  refine ⟨u, hu, hsh, fun x y => ?_⟩
  rw [hu', (pair2 (2 * nx) (2 * ny)).act_eq_ker]
  simp only [ker_eq]

lemma dx_pos (P : FreeRep a s nx ny) : 0 < sizeF a 0 / nx := by
  have := P.sx_pos
  have : (0 : ℝ) < nx := by exact_mod_cast Nat.pos_of_ne_zero (NeZero.ne nx)
  positivity
lemma dy_pos (P : FreeRep a s nx ny) : 0 < sizeF a 1 / ny := by
  have := P.sy_pos
  have : (0 : ℝ) < ny := by exact_mod_cast Nat.pos_of_ne_zero (NeZero.ne ny)
  positivity
lemma area_pos (P : FreeRep a s nx ny) : 0 < s.areaPerPt := by
  rw [P.area]; exact mul_pos P.dx_pos P.dy_pos

end FreeRep

lemma offset_sub {n : ℕ} [NeZero n] {i k : ℕ} (hi : i < n) (hk : k < n) :
    freeOffset n ((i : ZMod (2 * n)) - (k : ZMod (2 * n))).val = (i : ℤ) - k := by
  by_cases h : k ≤ i
  · rw [← Nat.cast_sub h, ZMod.val_cast_of_lt (by omega)]
    unfold freeOffset
    rw [if_pos (by omega)]; omega
  · have e : (i : ZMod (2 * n)) - (k : ZMod (2 * n)) = ((2 * n - (k - i) : ℕ) : ZMod (2 * n)) := by
      rw [Nat.cast_sub (by omega), ZMod.natCast_self, Nat.cast_sub (by omega)]; ring
    rw [e, ZMod.val_cast_of_lt (by omega)]
    unfold freeOffset
    rw [if_neg (by omega)]; omega

lemma embed_sum [NeZero nx] [NeZero ny] (f : NdArray ℝ) (hf : f.shape = [nx, ny]) (F : ℕ → ℕ → ℝ) :
    ∑ k ∈ range (2 * nx), ∑ l ∈ range (2 * ny), F k l * (embed [2 * nx, 2 * ny] f).get [k, l]
      = ∑ k ∈ range nx, ∑ l ∈ range ny, F k l * f.get [k, l] := by
  have hsub : ∀ n : ℕ, range n ⊆ range (2 * n) := fun n => range_subset_range.mpr (by omega)
  rw [← sum_subset (hsub nx)]
  · refine sum_congr rfl fun k hk => ?_
    rw [← sum_subset (hsub ny)]
    · refine sum_congr rfl fun l hl => ?_
      simp only [embed, hf, mem_range.mp hk, mem_range.mp hl, and_self, if_true]
    · intro l _ hl
      simp only [embed, hf]
      rw [if_neg (by rw [mem_range] at hl; tauto), mul_zero]
  · intro k _ hk
    apply sum_eq_zero
    intro l _
    simp only [embed, hf]
    rw [if_neg (by rw [mem_range] at hk; tauto), mul_zero]

lemma branch_topo [NeZero nx] [NeZero ny] (P : FreeRep a s nx ny) (shape : List ℕ) :
    dispBranch s.domain (List.zipWith (fun n m => topoSub n 0 m) s.nbGridPts s.domain) s.domain s.nbGridPts shape
      = if shape = [2 * nx, 2 * ny] then .padded else if shape = [nx, ny] then .topography else .error := by
  have h1 : topoSub nx 0 (2 * nx) = nx := by unfold topoSub; omega
  have h2 : topoSub ny 0 (2 * ny) = ny := by unfold topoSub; omega
  rw [P.dom, P.grid]
  simp only [List.zipWith, h1, h2, dispBranch, if_true]
  by_cases c1 : shape = [2 * nx, 2 * ny]
  · rw [if_pos c1, if_pos c1]
  · rw [if_neg c1, if_neg c1]
    by_cases c2 : shape = [nx, ny]
    · rw [if_pos c2, if_pos c2]
    · rw [if_neg c2, if_neg c2, if_neg c2]

/-- Displacements of unpadded forces at any padded point: circular convolution over the topography. -/
lemma FreeRep.disp_topo [NeZero nx] [NeZero ny] (P : FreeRep a s nx ny) (f : NdArray ℝ) (hf : f.shape = [nx, ny]) :
    ∃ u, evaluateDisp s (embed s.domain f) = .ok u ∧ u.shape = [2 * nx, 2 * ny] ∧
      ∀ x y, u.get [x, y] = -(∑ k ∈ range nx, ∑ l ∈ range ny,
        K a nx ny ((x : ZMod (2 * nx)) - k, (y : ZMod (2 * ny)) - l) * f.get [k, l]) / s.areaPerPt := by
  obtain ⟨u, hu, hsh, hu'⟩ := P.disp (f := embed s.domain f) P.dom
  refine ⟨u, hu, hsh, fun x y => ?_⟩
  rw [hu', sum_torus]
  congr 2
  rw [← embed_sum f hf (fun k l => K a nx ny ((x : ZMod (2 * nx)) - k, (y : ZMod (2 * ny)) - l)), P.dom]
  refine sum_congr rfl fun k hk => sum_congr rfl fun l hl => ?_
  rw [tor_cast (fun i j => (embed [2 * nx, 2 * ny] f).get [i, j]) (mem_range.mp hk) (mem_range.mp hl)]
  rfl

lemma FreeRep.K_sub [NeZero nx] [NeZero ny] (P : FreeRep a s nx ny) {i j k l : ℕ} (hi : i < nx) (hj : j < ny)
    (hk : k < nx) (hl : l < ny) :
    K a nx ny ((i : ZMod (2 * nx)) - k, (j : ZMod (2 * ny)) - l)
      = pixelGreens a.young (sizeF a 0 / nx) (sizeF a 1 / ny) (((i : ℝ) - k) * (sizeF a 0 / nx))
          (((j : ℝ) - l) * (sizeF a 1 / ny)) := by
  unfold K tor freeKernel
  dsimp only
  rw [offset_sub hi hk, offset_sub hj hl, C105_love_is_integral P.dx_pos P.dy_pos]
  push_cast
  rfl

section
variable (hv : ValidFree a) (hs : constructFree a = .ok s) (hg : a.nbGridPts = [nx, ny])
include hv hs hg

/-- **C19** Unpadded forces produce exactly the direct aperiodic sum of Boussinesq pixel solutions, and
the result has the shape of the topography. -/
theorem C19_free_direct_sum (f : NdArray ℝ) (hf : f.shape = [nx, ny]) :
    ∃ u, evaluateDispFree s f false = .ok u ∧ u.shape = [nx, ny] ∧ ∀ i j, i < nx → j < ny →
      u.get [i, j] = directSum a.young nx ny (sizeF a 0 / nx) (sizeF a 1 / ny) f i j := by
  obtain ⟨_, _, P⟩ := free_of_construct hv hs hg
  obtain ⟨u, hu, hsh, hu'⟩ := P.disp_topo f hf
  have hx : nx ≠ 0 := NeZero.ne nx
  refine ⟨⟨[nx, ny], u.get⟩, ?_, rfl, fun i j hi hj => ?_⟩
  · unfold evaluateDispFree
    rw [branch_topo P, if_neg (by rw [hf]; simp; omega), if_pos hf]
    simp only [hu, bind, Except.bind, P.grid]
    rfl
  · change u.get [i, j] = _
    rw [hu', directSum, P.area, neg_div, Finset.sum_div]
    congr 1
    refine sum_congr rfl fun k hk => ?_
    rw [Finset.sum_div]
    refine sum_congr rfl fun l hl => ?_
    rw [P.K_sub hi hj (mem_range.mp hk) (mem_range.mp hl)]
    ring

/-- **C20** Padded and unpadded input give the same displacements: the unpadded call without padding
is the restriction of the unpadded call with padding, which equals the call with the explicitly padded
array, for either value of the flag. -/
theorem C20_padding_equivalent (f g : NdArray ℝ) (hf : f.shape = [nx, ny]) (hg' : g.shape = [2 * nx, 2 * ny])
    (hin : ∀ i j, i < nx → j < ny → g.get [i, j] = f.get [i, j])
    (hout : ∀ i j, i < 2 * nx → j < 2 * ny → ¬ (i < nx ∧ j < ny) → g.get [i, j] = 0) :
    ∃ u v w w', evaluateDispFree s f false = .ok u ∧ evaluateDispFree s f true = .ok v ∧
      evaluateDispFree s g false = .ok w ∧ evaluateDispFree s g true = .ok w' ∧
      u.shape = [nx, ny] ∧ v.shape = [2 * nx, 2 * ny] ∧ w.shape = [2 * nx, 2 * ny] ∧ w' = w ∧
      (∀ i j, i < nx → j < ny → u.get [i, j] = v.get [i, j]) ∧
      (∀ i j, i < 2 * nx → j < 2 * ny → v.get [i, j] = w.get [i, j]) := by
  obtain ⟨_, _, P⟩ := free_of_construct hv hs hg
  have hx : nx ≠ 0 := NeZero.ne nx
  obtain ⟨v, hv1, hsh, hv'⟩ := P.disp (f := embed s.domain f) P.dom
  obtain ⟨w, hw, hwsh, hw'⟩ := P.disp (f := g) hg'
  have hb : ∀ b, evaluateDispFree s g b = .ok w := by
    intro b
    unfold evaluateDispFree
    rw [branch_topo P, if_pos hg', hw]
  have hbf : ∀ b, evaluateDispFree s f b = .ok (if b then v else ⟨[nx, ny], v.get⟩) := by
    intro b
    unfold evaluateDispFree
    rw [branch_topo P, if_neg (by rw [hf]; simp; omega), if_pos hf]
    simp only [hv1, bind, Except.bind, P.grid]
    cases b <;> rfl
  refine ⟨_, _, w, w, hbf false, hbf true, hb false, hb true, rfl, hsh, hwsh, rfl, fun _ _ _ _ => rfl, ?_⟩
  intro i j _ _
  simp only [if_true]
  rw [hv', hw']
  congr 3
  funext p
  congr 1
  apply congrFun
  apply tor_congr
  intro k l hk hl
  rw [P.dom]
  simp only [embed, hf]
  by_cases h : k < nx ∧ l < ny
  · rw [if_pos h, hin k l h.1 h.2]
  · rw [if_neg h, hout k l hk hl h]

/-- **C21** Reciprocity on unpadded force fields. -/
theorem C21_free_reciprocal (f g : NdArray ℝ) (hf : f.shape = [nx, ny]) (hg' : g.shape = [nx, ny]) :
    ∃ u v, evaluateDispFree s f false = .ok u ∧ evaluateDispFree s g false = .ok v ∧
      work nx ny f v = work nx ny g u := by
  obtain ⟨_, _, P⟩ := free_of_construct hv hs hg
  obtain ⟨u, hu, -, hu'⟩ := C19_free_direct_sum hv hs hg f hf
  obtain ⟨v, hv1, -, hv'⟩ := C19_free_direct_sum hv hs hg g hg'
  refine ⟨u, v, hu, hv1, ?_⟩
  unfold work
  have e : ∀ (f g u : NdArray ℝ), (∀ i j, i < nx → j < ny →
      u.get [i, j] = directSum a.young nx ny (sizeF a 0 / nx) (sizeF a 1 / ny) g i j) →
      ∑ i ∈ range nx, ∑ j ∈ range ny, f.get [i, j] * u.get [i, j]
        = ∑ p ∈ range nx ×ˢ range ny, ∑ q ∈ range nx ×ˢ range ny,
          -(pixelGreens a.young (sizeF a 0 / nx) (sizeF a 1 / ny) (((p.1 : ℝ) - q.1) * (sizeF a 0 / nx))
              (((p.2 : ℝ) - q.2) * (sizeF a 1 / ny)) * (f.get [p.1, p.2] * g.get [q.1, q.2])
            / (sizeF a 0 / nx * (sizeF a 1 / ny))) := by
    intro f g u hu
    rw [sum_product]
    refine sum_congr rfl fun i hi => sum_congr rfl fun j hj => ?_
    rw [hu i j (mem_range.mp hi) (mem_range.mp hj), directSum, sum_product, mul_neg, mul_sum, ← sum_neg_distrib]
    refine sum_congr rfl fun k _ => ?_
    rw [mul_sum, ← sum_neg_distrib]
    refine sum_congr rfl fun l _ => ?_
    ring
  rw [e f g v hv', e g f u hu', sum_comm]
  refine sum_congr rfl fun q _ => sum_congr rfl fun p _ => ?_
  rw [show ((p.1 : ℝ) - q.1) * (sizeF a 0 / nx) = -(((q.1 : ℝ) - p.1) * (sizeF a 0 / nx)) by ring,
    show ((p.2 : ℝ) - q.2) * (sizeF a 1 / ny) = -(((q.2 : ℝ) - p.2) * (sizeF a 1 / ny)) by ring,
    pixelGreens_neg_x, pixelGreens_neg_y]
  ring

/-- **C22** Compressive forces that are not all zero move every point of the surface in the positive
direction. -/
theorem C22_monotone (f : NdArray ℝ) (hf : f.shape = [nx, ny])
    (hneg : ∀ i j, i < nx → j < ny → f.get [i, j] ≤ 0) (hne : ∃ i j, i < nx ∧ j < ny ∧ f.get [i, j] ≠ 0) :
    ∃ u, evaluateDispFree s f false = .ok u ∧ ∀ i j, i < nx → j < ny → 0 < u.get [i, j] := by
  obtain ⟨_, _, P⟩ := free_of_construct hv hs hg
  obtain ⟨u, hu, -, hu'⟩ := C19_free_direct_sum hv hs hg f hf
  refine ⟨u, hu, fun i j hi hj => ?_⟩
  have hdx := P.dx_pos
  have hdy := P.dy_pos
  have hG : ∀ k l : ℕ, 0 < pixelGreens a.young (sizeF a 0 / nx) (sizeF a 1 / ny) (((i : ℝ) - k) * (sizeF a 0 / nx))
      (((j : ℝ) - l) * (sizeF a 1 / ny)) := by
    intro k l
    have := pixelGreens_pos hv.young_pos hdx hdy ((i : ℤ) - k) ((j : ℤ) - l)
    push_cast at this
    exact this
  rw [hu' i j hi hj, directSum, ← sum_neg_distrib]
  obtain ⟨k0, l0, hk0, hl0, hn⟩ := hne
  have hterm : ∀ k l, k < nx → l < ny → 0 ≤ -(pixelGreens a.young (sizeF a 0 / nx) (sizeF a 1 / ny) (((i : ℝ) - k) * (sizeF a 0 / nx))
      (((j : ℝ) - l) * (sizeF a 1 / ny)) * (f.get [k, l] / (sizeF a 0 / nx * (sizeF a 1 / ny)))) := by
    intro k l hk hl
    have h1 := hneg k l hk hl
    have h2 : f.get [k, l] / (sizeF a 0 / nx * (sizeF a 1 / ny)) ≤ 0 :=
      div_nonpos_of_nonpos_of_nonneg h1 (by positivity)
    have := mul_nonneg (hG k l).le (neg_nonneg.mpr h2)
    linarith
  have hrow : ∀ k, k < nx → -(∑ l ∈ range ny, pixelGreens a.young (sizeF a 0 / nx) (sizeF a 1 / ny) (((i : ℝ) - k) * (sizeF a 0 / nx))
      (((j : ℝ) - l) * (sizeF a 1 / ny)) * (f.get [k, l] / (sizeF a 0 / nx * (sizeF a 1 / ny))))
      = ∑ l ∈ range ny, -(pixelGreens a.young (sizeF a 0 / nx) (sizeF a 1 / ny) (((i : ℝ) - k) * (sizeF a 0 / nx))
      (((j : ℝ) - l) * (sizeF a 1 / ny)) * (f.get [k, l] / (sizeF a 0 / nx * (sizeF a 1 / ny)))) :=
    fun k _ => (sum_neg_distrib _).symm
  apply sum_pos'
  · intro k hk
    rw [hrow k (mem_range.mp hk)]
    exact sum_nonneg fun l hl => hterm k l (mem_range.mp hk) (mem_range.mp hl)
  · refine ⟨k0, mem_range.mpr hk0, ?_⟩
    rw [hrow k0 hk0]
    apply sum_pos' (fun l hl => hterm k0 l hk0 (mem_range.mp hl))
    refine ⟨l0, mem_range.mpr hl0, ?_⟩
    have h1 : f.get [k0, l0] < 0 := lt_of_le_of_ne (hneg k0 l0 hk0 hl0) hn
    have h2 : f.get [k0, l0] / (sizeF a 0 / nx * (sizeF a 1 / ny)) < 0 :=
      div_neg_of_neg_of_pos h1 (by positivity)
    have := mul_pos (hG k0 l0) (neg_pos.mpr h2)
    linarith

/-- **C26** In a serial run exactly the padded and the topography shape are accepted; every other
shape raises `Error`. -/
theorem C26_accepted_shapes (f : NdArray ℝ) (b : Bool) :
    ((∃ u, evaluateDispFree s f b = .ok u) ↔ f.shape = [2 * nx, 2 * ny] ∨ f.shape = [nx, ny]) ∧
    (evaluateDispFree s f b = .error .error ↔ ¬ (f.shape = [2 * nx, 2 * ny] ∨ f.shape = [nx, ny])) := by
  obtain ⟨_, _, P⟩ := free_of_construct hv hs hg
  unfold evaluateDispFree
  rw [branch_topo P]
  by_cases h1 : f.shape = [2 * nx, 2 * ny]
  · rw [if_pos h1]
    obtain ⟨u, hu, -⟩ := P.disp h1
    simp [hu, h1]
  · rw [if_neg h1]
    by_cases h2 : f.shape = [nx, ny]
    · rw [if_pos h2]
      obtain ⟨u, hu, -⟩ := P.disp (f := embed s.domain f) P.dom
      simp only [hu, bind, Except.bind]
      cases b <;> simp [h2, pure, Except.pure]
    · rw [if_neg h2]
      simp [h1, h2]

end

/-- **C26** Whatever the decomposition, an array that would reach the explicit serial padding branch has
already been taken by an earlier one: the branch is dead code. -/
theorem C26_dead_branch {nx ny lx ly mx my : ℕ} (shape : List ℕ)
    (hx : lx + mx ≤ 2 * nx) (hy : ly + my ≤ 2 * ny) :
    dispBranch [mx, my] [topoSub nx lx mx, topoSub ny ly my] [2 * nx, 2 * ny] [nx, ny] shape ≠ .serialPad := by
  unfold dispBranch
  by_cases h1 : shape = [mx, my]
  · simp [h1]
  · rw [if_neg h1]
    by_cases h2 : shape = [topoSub nx lx mx, topoSub ny ly my]
    · simp [h2]
    · rw [if_neg h2]
      by_cases h3 : [mx, my] = [2 * nx, 2 * ny]
      · rw [if_pos h3]
        by_cases h4 : shape = [nx, ny]
        · exfalso
          apply h2
          have e1 : mx = 2 * nx := by simp at h3; exact h3.1
          have e2 : my = 2 * ny := by simp at h3; exact h3.2
          have e3 : topoSub nx lx mx = nx := by unfold topoSub; omega
          have e4 : topoSub ny ly my = ny := by unfold topoSub; omega
          rw [e3, e4, h4]
        · rw [if_neg h4]; simp
      · rw [if_neg h3]; simp

/-- A concrete free substrate: 2×3 points, different lengths. -/
noncomputable def demoFree : FreeArgs := ⟨[2, 3], 1, [1, 2], none⟩
lemma demoFree_valid : ValidFree demoFree := by constructor <;> simp [demoFree]
lemma demoFree_ok : ∃ s, constructFree demoFree = .ok s := by
  have := initAttrs_ok (a := demoFree.base) (dom := [4, 6]) |>.mpr
    ⟨by simp [demoFree, FreeArgs.base], .inl rfl, by simp [demoFree, FreeArgs.base],
      by simp [demoFree, FreeArgs.base], by simp [demoFree, FreeArgs.base], by simp [demoFree, FreeArgs.base], rfl⟩
  unfold constructFree
  dsimp only
  rw [show demoFree.nbGridPts.map (2 * ·) = [4, 6] from rfl, this]
  exact ⟨_, rfl⟩

example : (∃ s, constructFree demoFree = .ok s) ∧ ValidFree demoFree ∧ demoFree.nbGridPts = [2, 3] ∧
    (∃ f : NdArray ℝ, f.shape = [2, 3] ∧ (∀ i j, i < 2 → j < 3 → f.get [i, j] ≤ 0) ∧ f.get [1, 2] ≠ 0) :=
  ⟨demoFree_ok, demoFree_valid, rfl, ⟨[2, 3], fun x => match x with | [i, j] => -(i * j : ℝ) | _ => 0⟩, rfl,
    fun i j _ _ => by simp; positivity, by norm_num⟩

end CM.HS
