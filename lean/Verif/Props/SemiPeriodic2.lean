import Verif.Props.SemiPeriodic
import Mathlib.Data.List.Perm.Basic
/-!
# Semi-periodic half-spaces: forces, the ordered kernel, children, parallel runs (C30, C31, C144, C145)
-/
namespace CM.HS
open Finset Complex CM.FFT CM.Fourier CM.Spec CM.Tools

variable {a : SemiArgs} {s : HalfSpace} {nx ny : ℕ}

/-! ### Construction -/

/-- C144: the constructor succeeds for every non-empty two-dimensional grid, whatever the periodicity and the number of images. -/
theorem C144_constructible (a : SemiArgs) (hg : a.nbGridPts = [nx, ny]) (hx : nx ≠ 0) (hy : ny ≠ 0) (hsz : a.physicalSizes ≠ [])
    (he : a.engineGrid = none) : ∃ s, constructSemi a = .ok s := by
  have := initAttrs_ok (a := a.free.base) (dom := [semiDomain a.perX nx, semiDomain a.perY ny]) |>.mpr
    ⟨by simp [SemiArgs.free, FreeArgs.base, hg], .inl rfl, by simp [SemiArgs.free, FreeArgs.base, hsz],
      by simp [SemiArgs.free, FreeArgs.base, hg]; omega, by simp [SemiArgs.free, FreeArgs.base],
      by simp [SemiArgs.free, FreeArgs.base, he], rfl⟩
  unfold constructSemi
  rw [hg]
  dsimp only
  rw [this]
  rw [show a.free.base.nbGridPts = [nx, ny] from hg]
  exact ⟨_, rfl⟩

/-- C144: a one-dimensional grid is refused, with `IndexError`. -/
theorem C144_one_dimension (a : SemiArgs) {n : ℕ} (hg : a.nbGridPts = [n]) : constructSemi a = .error .indexError := by
  unfold constructSemi
  rw [hg]

/-- A concrete substrate: 2×3 points, periodic in y, four images. -/
noncomputable def demoSemi : SemiArgs := ⟨[2, 3], 1, [1, 2], false, true, 2, none⟩
lemma demoSemi_valid : ValidSemi demoSemi := by constructor <;> simp [demoSemi]
lemma demoSemi_ok : ∃ s, constructSemi demoSemi = .ok s :=
  C144_constructible demoSemi (nx := 2) (ny := 3) rfl (by simp) (by simp) (by simp [demoSemi]) rfl

/-! ### Forces -/
section
variable (hv : ValidSemi a) (hs : constructSemi a = .ok s) (hg : a.nbGridPts = [nx, ny])
include hv hs hg

/-- C31: forces of an array smaller than the computational grid are those of the array filled up with zeros. -/
theorem C31_zero_padding (u w : NdArray ℝ) {p q : ℕ} (hu : u.shape = [p, q]) (hp : p ≤ semiDomain a.perX nx)
    (hq : q ≤ semiDomain a.perY ny) (hw : w.shape = [semiDomain a.perX nx, semiDomain a.perY ny])
    (huw : ∀ i j, i < semiDomain a.perX nx → j < semiDomain a.perY ny →
      w.get [i, j] = if i < p ∧ j < q then u.get [i, j] else 0) :
    ∃ f g, evaluateForceSemi s u = .ok f ∧ evaluateForceSemi s w = .ok g ∧
      f.shape = [semiDomain a.perX nx, semiDomain a.perY ny] ∧ g.shape = f.shape ∧
      ∀ i j, i < semiDomain a.perX nx → j < semiDomain a.perY ny → f.get [i, j] = g.get [i, j] := by
  have P := semi_of_construct hv hs hg
  have : NeZero (semiDomain a.perX nx) := ⟨semiDomain_pos P.hx⟩
  have : NeZero (semiDomain a.perY ny) := ⟨semiDomain_pos P.hy⟩
  obtain ⟨g, hg1, hgsh, hg'⟩ := P.rep.force_ok hw
  have hwg : evaluateForceSemi s w = .ok g := by
    unfold evaluateForceSemi
    rw [if_neg (by rw [hw, P.dom]; simp), hg1]
  by_cases h : u.shape = s.domain
  · obtain ⟨f, hf1, hfsh, hf'⟩ := P.rep.force_ok (h.trans P.dom)
    refine ⟨f, g, ?_, hwg, hfsh, hgsh.trans hfsh.symm, fun i j hi hj => ?_⟩
    · unfold evaluateForceSemi; rw [if_neg (by simpa using h), hf1]
    · rw [hf', hg']
      have e : p = semiDomain a.perX nx ∧ q = semiDomain a.perY ny := by
        rw [hu, P.dom] at h; simpa using h
      have : (tor (semiDomain a.perX nx) (semiDomain a.perY ny) fun i j => u.get [i, j])
          = (tor (semiDomain a.perX nx) (semiDomain a.perY ny) fun i j => w.get [i, j]) := by
        funext z
        unfold tor
        beta_reduce
        rw [huw _ _ (ZMod.val_lt _) (ZMod.val_lt _), if_pos]
        rw [e.1, e.2]
        exact ⟨ZMod.val_lt _, ZMod.val_lt _⟩
      rw [this]
  · obtain ⟨f, hf1, hfsh, hf'⟩ := P.rep.force_ok (u := embed s.domain u) P.dom
    refine ⟨f, g, ?_, hwg, hfsh, hgsh.trans hfsh.symm, fun i j hi hj => ?_⟩
    · unfold evaluateForceSemi
      rw [if_pos h, hu]
      rw [P.dom] at hf1 ⊢
      dsimp only
      rw [if_pos ⟨hp, hq⟩, hf1]
    · rw [hf', hg']
      have : (tor (semiDomain a.perX nx) (semiDomain a.perY ny) fun i j => (embed s.domain u).get [i, j])
          = (tor (semiDomain a.perX nx) (semiDomain a.perY ny) fun i j => w.get [i, j]) := by
        funext z
        unfold tor
        beta_reduce
        rw [huw _ _ (ZMod.val_lt _) (ZMod.val_lt _)]
        simp only [embed, hu]
      rw [this]

/-- C31: an array that does not fit into the computational grid is refused. -/
theorem C31_too_large (u : NdArray ℝ) {p q : ℕ} (hu : u.shape = [p, q])
    (h : semiDomain a.perX nx < p ∨ semiDomain a.perY ny < q) : evaluateForceSemi s u = .error .valueError := by
  have P := semi_of_construct hv hs hg
  unfold evaluateForceSemi
  rw [hu, P.dom]
  rw [if_pos (by simp; omega)]
  dsimp only
  rw [if_neg (by omega)]

/-- C31: so are arrays with less than two axes. -/
theorem C31_few_axes (u : NdArray ℝ) (hu : u.shape.length < 2) : evaluateForceSemi s u = .error .indexError := by
  have P := semi_of_construct hv hs hg
  unfold evaluateForceSemi
  rw [P.dom]
  match h : u.shape with
  | [] => simp
  | [_] => simp
  | _ :: _ :: _ => rw [h] at hu; simp at hu

/-- C31: on the computational grid force evaluation is a generalised inverse of displacement evaluation, and the inverse
when no entry of the Green's function vanishes. -/
theorem C31_generalised_inverse (f : NdArray ℝ) (hf : f.shape = [semiDomain a.perX nx, semiDomain a.perY ny]) :
    ∃ u f' u', evaluateDispSemi s f true = .ok u ∧ evaluateForceSemi s u = .ok f' ∧ evaluateDispSemi s f' true = .ok u' ∧
      (∀ i j, i < semiDomain a.perX nx → j < semiDomain a.perY ny → u'.get [i, j] = u.get [i, j]) ∧
      ((∀ kx ky, kx ≤ semiDomain a.perX nx / 2 → ky < semiDomain a.perY ny → s.greens [kx, ky] ≠ 0) →
        ∀ i j, i < semiDomain a.perX nx → j < semiDomain a.perY ny → f'.get [i, j] = f.get [i, j]) := by
  have P := semi_of_construct hv hs hg
  have : NeZero (semiDomain a.perX nx) := ⟨semiDomain_pos P.hx⟩
  have : NeZero (semiDomain a.perY ny) := ⟨semiDomain_pos P.hy⟩
  have hA : s.areaPerPt ≠ 0 := by
    rw [P.area]
    have := P.sx_pos; have := P.sy_pos
    have : (0 : ℝ) < nx := by exact_mod_cast Nat.pos_of_ne_zero P.hx
    have : (0 : ℝ) < ny := by exact_mod_cast Nat.pos_of_ne_zero P.hy
    positivity
  obtain ⟨u, f', u', h1, h2, h3, h4, h5⟩ := P.rep.pinv hA f hf
  have hb : ∀ g : NdArray ℝ, g.shape = [semiDomain a.perX nx, semiDomain a.perY ny] →
      evaluateDispSemi s g true = evaluateDisp s g := by
    intro g hg
    unfold evaluateDispSemi evaluateDispFree
    rw [P.branch, if_pos hg]
  have hus : u.shape = s.domain := by
    by_contra hc
    unfold evaluateForce at h2
    rw [if_pos hc] at h2
    cases h2
  have hfs : f'.shape = s.domain := by
    unfold evaluateForce at h2
    split_ifs at h2
    cases h2
    rfl
  refine ⟨u, f', u', by rw [hb f hf, h1], ?_, by rw [hb f' (hfs.trans P.dom), h3], h4, fun h => h5 h (P.rep.ne_zero h)⟩
  unfold evaluateForceSemi
  rw [if_neg (by simpa using hus), h2]

end

/-! ### The ordered kernel -/

/-- Sorting the frequencies rotates the list of indices. -/
lemma semiOrder_eq (per : Bool) (n : ℕ) : semiOrder per n
    = (List.range (semiDomain per n)).map fun i => (i + (semiDomain per n + 1) / 2) % semiDomain per n := by
  unfold semiOrder
  generalize semiDomain per n = d
  rcases Nat.eq_zero_or_pos d with rfl | hd
  · simp [argsort]
  have hkey : ∀ i, i < d → ((List.range d).map fun k => fftfreqInt d k).getD i 0 = fftfreqInt d i := by
    intro i hi
    simp [List.getD_eq_getElem?_getD, List.getElem?_map, List.getElem?_range hi]
  have hrot : ∀ i, i < d → fftfreqInt d ((i + (d + 1) / 2) % d) = (i : ℤ) - d / 2 := by
    intro i hi
    unfold fftfreqInt
    by_cases h : i + (d + 1) / 2 < d
    · rw [Nat.mod_eq_of_lt h, if_neg (by omega)]; push_cast; omega
    · rw [Nat.mod_eq_sub_mod (by omega), Nat.mod_eq_of_lt (by omega), if_pos (by omega)]; omega
  have hinj : ∀ i j, i < d → j < d → fftfreqInt d i = fftfreqInt d j → i = j := by
    intro i j hi hj h
    unfold fftfreqInt at h
    split_ifs at h <;> omega
  unfold argsort
  rw [List.length_map, List.length_range]
  set le : ℕ → ℕ → Bool := fun i j => decide (((List.range d).map fun k => fftfreqInt d k).getD i 0
    ≤ ((List.range d).map fun k => fftfreqInt d k).getD j 0) with hle
  apply List.Perm.eq_of_pairwise (le := fun i j => le i j = true)
  · intro i j hi hj h1 h2
    have hi' : i < d := by simpa using hi
    have hj' : j < d := by
      obtain ⟨k, -, rfl⟩ := List.mem_map.mp hj
      exact Nat.mod_lt _ hd
    simp only [hle, decide_eq_true_eq] at h1 h2
    have := le_antisymm h1 h2
    rw [hkey i hi', hkey j hj'] at this
    exact hinj i j hi' hj' this
  · apply List.pairwise_mergeSort
    · intro i j k h1 h2
      simp only [hle, decide_eq_true_eq] at *
      exact h1.trans h2
    · intro i j
      simp only [hle, Bool.or_eq_true, decide_eq_true_eq]
      exact le_total _ _
  · rw [List.pairwise_map]
    apply List.Pairwise.imp_of_mem _ List.pairwise_lt_range
    intro i j hi hj hij
    have hi' : i < d := by simpa using hi
    have hj' : j < d := by simpa using hj
    simp only [hle, decide_eq_true_eq]
    rw [hkey _ (Nat.mod_lt _ hd), hkey _ (Nat.mod_lt _ hd), hrot i hi', hrot j hj']
    omega
  · refine (List.mergeSort_perm _ _).trans ?_
    apply (List.perm_ext_iff_of_nodup List.nodup_range ?_).mpr
    · intro x
      simp only [List.mem_range, List.mem_map]
      constructor
      · intro hx
        refine ⟨(x + d / 2) % d, Nat.mod_lt _ hd, ?_⟩
        have := hinj ((((x + d / 2) % d) + (d + 1) / 2) % d) x (Nat.mod_lt _ hd) hx ?_
        · exact this
        · rw [hrot _ (Nat.mod_lt _ hd)]
          unfold fftfreqInt
          by_cases h : x + d / 2 < d
          · rw [Nat.mod_eq_of_lt h, if_pos (by omega)]; push_cast; omega
          · rw [Nat.mod_eq_sub_mod (by omega), Nat.mod_eq_of_lt (by omega), if_neg (by omega)]; omega
      · rintro ⟨k, -, rfl⟩
        exact Nat.mod_lt _ hd
    · rw [List.nodup_map_iff_inj_on List.nodup_range]
      intro i hi j hj h
      have hi' : i < d := by simpa using hi
      have hj' : j < d := by simpa using hj
      have := congrArg (fftfreqInt d) h
      rw [hrot i hi', hrot j hj'] at this
      omega

lemma freq_order (per : Bool) (n : ℕ) {i : ℕ} (hi : i < semiDomain per n) :
    fftfreqInt (semiDomain per n) ((semiOrder per n).getD i 0) = (i : ℤ) - semiDomain per n / 2 := by
  rw [semiOrder_eq]
  generalize semiDomain per n = d at hi ⊢
  simp only [List.getD_eq_getElem?_getD, List.getElem?_map, List.getElem?_range hi, Option.map_some, Option.getD_some]
  unfold fftfreqInt
  by_cases h : i + (d + 1) / 2 < d
  · rw [Nat.mod_eq_of_lt h, if_neg (by omega)]; push_cast; omega
  · rw [Nat.mod_eq_sub_mod (by omega), Nat.mod_eq_of_lt (by omega), if_pos (by omega)]; omega

/-- C30: entry `(i, j)` of the ordered kernel belongs to the offset of `(i - M/2, j - N/2)` grid points (rounded down) of an
`M × N` computational grid, even or odd. -/
theorem C30_spatial_order (hv : ValidSemi a) (hs : constructSemi a = .ok s) (hg : a.nbGridPts = [nx, ny]) :
    let G := getGReal a nx ny (sizeF a.free 0) (sizeF a.free 1)
    G.shape = [semiDomain a.perX nx, semiDomain a.perY ny] ∧ ∀ i j, i < semiDomain a.perX nx → j < semiDomain a.perY ny →
      G.get [i, j] = imageSum a nx ny (sizeF a.free 0 / nx) (sizeF a.free 1 / ny)
        ((i : ℤ) - semiDomain a.perX nx / 2) ((j : ℤ) - semiDomain a.perY ny / 2) := by
  have P := semi_of_construct hv hs hg
  refine ⟨rfl, fun i j hi hj => ?_⟩
  change semiReal a nx ny _ _ _ _ = _
  rw [semiReal_eq P.hx P.hy P.sx_pos P.sy_pos, freq_order _ _ hi, freq_order _ _ hj]

/-- C30: the two slices are the lines through the origin: entry `i` of the first is the kernel at offset `i - M/2` in x and
none in y, entry `j` of the second none in x and `j - N/2` in y. -/
theorem C30_slices (hv : ValidSemi a) (hs : constructSemi a = .ok s) (hg : a.nbGridPts = [nx, ny]) :
    let S := getGRealSlices a nx ny (sizeF a.free 0) (sizeF a.free 1)
    S.1.shape = [semiDomain a.perX nx] ∧ S.2.shape = [semiDomain a.perY ny] ∧
    (∀ i, i < semiDomain a.perX nx → S.1.get [i]
      = imageSum a nx ny (sizeF a.free 0 / nx) (sizeF a.free 1 / ny) ((i : ℤ) - semiDomain a.perX nx / 2) 0) ∧
    (∀ j, j < semiDomain a.perY ny → S.2.get [j]
      = imageSum a nx ny (sizeF a.free 0 / nx) (sizeF a.free 1 / ny) 0 ((j : ℤ) - semiDomain a.perY ny / 2)) := by
  have P := semi_of_construct hv hs hg
  have h0 := Nat.pos_of_ne_zero (semiDomain_pos (per := a.perX) P.hx)
  have h1 := Nat.pos_of_ne_zero (semiDomain_pos (per := a.perY) P.hy)
  obtain ⟨-, hG⟩ := C30_spatial_order hv hs hg
  refine ⟨rfl, rfl, fun i hi => ?_, fun j hj => ?_⟩
  · refine (hG i _ hi (Nat.div_lt_self h1 (by norm_num))).trans ?_
    congr 1; push_cast; ring
  · refine (hG _ j (Nat.div_lt_self h0 (by norm_num)) hj).trans ?_
    congr 1; push_cast; ring

/-- The kernel is the response to a unit force per area: the ordered kernel and `evaluate_disp` agree. -/
theorem C30_unit_response (hv : ValidSemi a) (hs : constructSemi a = .ok s) (hg : a.nbGridPts = [nx, ny]) {k l : ℕ}
    (hk : k < nx) (hl : l < ny) (f : NdArray ℝ) (hf : f.shape = [nx, ny])
    (hf' : ∀ i j, i < nx → j < ny → f.get [i, j] = if i = k ∧ j = l then -(sizeF a.free 0 / nx * (sizeF a.free 1 / ny)) else 0) :
    ∃ u, evaluateDispSemi s f false = .ok u ∧ ∀ i j, i < nx → j < ny → ∀ p q, p < semiDomain a.perX nx → q < semiDomain a.perY ny →
      (p : ℤ) - semiDomain a.perX nx / 2 = wrap a.perX nx ((i : ℤ) - k) → (q : ℤ) - semiDomain a.perY ny / 2 = wrap a.perY ny ((j : ℤ) - l) →
      u.get [i, j] = (getGReal a nx ny (sizeF a.free 0) (sizeF a.free 1)).get [p, q] := by
  have P := semi_of_construct hv hs hg
  obtain ⟨u, hu, -, hu'⟩ := C29_direct_sum hv hs hg f hf
  refine ⟨u, hu, fun i j hi hj p q hp hq h1 h2 => ?_⟩
  rw [hu' i j hi hj, (C30_spatial_order hv hs hg).2 p q hp hq, h1, h2]
  unfold semiSum
  rw [sum_eq_single k, sum_eq_single l, hf' k l hk hl, if_pos ⟨rfl, rfl⟩]
  · have hx : (0 : ℝ) < nx := by exact_mod_cast Nat.pos_of_ne_zero P.hx
    have hy : (0 : ℝ) < ny := by exact_mod_cast Nat.pos_of_ne_zero P.hy
    have := P.sx_pos; have := P.sy_pos
    field_simp
  · intro m hm hne
    rw [hf' k m hk (mem_range.mp hm), if_neg (by tauto)]; simp
  · intro h; exact absurd (mem_range.mpr hl) h
  · intro m hm hne
    apply sum_eq_zero
    intro l' hl'
    rw [hf' m l' (mem_range.mp hm) (mem_range.mp hl'), if_neg (by tauto)]; simp
  · intro h; exact absurd (mem_range.mpr hk) h

example : ValidSemi demoSemi ∧ (∃ s, constructSemi demoSemi = .ok s) ∧ demoSemi.nbGridPts = [2, 3] ∧
    semiDomain demoSemi.perX 2 = 3 ∧ semiDomain demoSemi.perY 3 = 3 ∧ semiOrder demoSemi.perX 2 = [2, 0, 1] ∧
    semiOrder true 4 = [2, 3, 0, 1] :=
  ⟨demoSemi_valid, demoSemi_ok, rfl, rfl, rfl, by rw [semiOrder_eq]; decide, by rw [semiOrder_eq]; decide⟩

/-! ### Children -/

/-- C144 (the property fails): a child has the spacing and the modulus of its parent, but is always periodic in y only and
always has ten images, whatever the parent has. -/
theorem C144_spawn_child_partial (hv : ValidSemi a) (hs : constructSemi a = .ok s) (hg : a.nbGridPts = [nx, ny]) {mx my : ℕ}
    (hmx : 0 < mx) (hmy : 0 < my) :
    (spawnChildSemi s [mx, my]).perX = false ∧ (spawnChildSemi s [mx, my]).perY = true ∧ (spawnChildSemi s [mx, my]).nImages = 10 ∧
    ∃ c, constructSemi (spawnChildSemi s [mx, my]) = .ok c ∧ c.nbGridPts = [mx, my] ∧ c.mat.young = a.young ∧
      c.steps = s.steps ∧ c.domain = [2 * mx - 1, my] := by
  have P := semi_of_construct hv hs hg
  have hb : spawnChildSemi s [mx, my] = ⟨[mx, my], a.young, [(mx : ℝ) / nx * sizeF a.free 0, (my : ℝ) / ny * sizeF a.free 1],
      false, true, 10, none⟩ := by
    unfold spawnChildSemi
    rw [P.grid, P.sizes, P.young]
    rfl
  refine ⟨rfl, rfl, rfl, ?_⟩
  rw [hb]
  obtain ⟨c, hc⟩ := C144_constructible ⟨[mx, my], a.young, [(mx : ℝ) / nx * sizeF a.free 0, (my : ℝ) / ny * sizeF a.free 1],
      false, true, 10, none⟩ (nx := mx) (ny := my) rfl (by omega) (by omega) (by simp) rfl
  have hnx : (0 : ℝ) < nx := by exact_mod_cast Nat.pos_of_ne_zero P.hx
  have hny : (0 : ℝ) < ny := by exact_mod_cast Nat.pos_of_ne_zero P.hy
  have hmx' : (0 : ℝ) < mx := by exact_mod_cast hmx
  have hmy' : (0 : ℝ) < my := by exact_mod_cast hmy
  have hsx := P.sx_pos
  have hsy := P.sy_pos
  have Q := semi_of_construct (nx := mx) (ny := my) (by
    constructor
    · intro x hx
      simp only [List.mem_cons, List.not_mem_nil, or_false] at hx
      rcases hx with rfl | rfl <;> positivity
    · exact hv.young_pos) hc rfl
  refine ⟨c, hc, Q.grid, Q.young, ?_, ?_⟩
  · rw [Q.steps, P.steps]
    generalize sizeF a.free 0 = t0 at *
    generalize sizeF a.free 1 = t1 at *
    simp only [sizeF, SemiArgs.free, List.length_cons, List.length_nil]
    norm_num
    constructor <;> field_simp
  · rw [Q.dom]; simp [semiDomain, mul_comm]

/-- C144: a parent that is periodic in both directions has a child that is not, and answers differently shaped fields. -/
theorem C144_not_kept_partial : ∃ (a : SemiArgs) (s c : HalfSpace), a.perX = true ∧ a.perY = true ∧ constructSemi a = .ok s ∧
    constructSemi (spawnChildSemi s a.nbGridPts) = .ok c ∧ s.domain = [4, 4] ∧ c.domain = [7, 4] := by
  let a : SemiArgs := ⟨[4, 4], 1, [1, 1], true, true, 3, none⟩
  obtain ⟨s, hs⟩ := C144_constructible a (nx := 4) (ny := 4) rfl (by simp) (by simp) (by simp [a]) rfl
  have hv : ValidSemi a := by constructor <;> simp [a]
  obtain ⟨-, -, -, c, hc, -, -, -, hd⟩ := C144_spawn_child_partial hv hs (nx := 4) (ny := 4) rfl (mx := 4) (my := 4) (by simp) (by simp)
  exact ⟨a, s, c, rfl, rfl, hs, hc, (semi_of_construct hv hs (nx := 4) (ny := 4) rfl).dom, hd⟩

/-! ### Parallel runs -/

/-- C145 (the property fails): a process of a parallel run can fill its buffer exactly if, in each direction of more than one
point, its block is the whole direction; with more than one non-empty block the construction raises `ValueError` on it. -/
theorem C145_parallel_partial {d0 d1 b0 b1 : ℕ} : (assignBuffer [d0, d1] [b0, b1] = .ok () ↔ (d0 = b0 ∨ d0 = 1) ∧ (d1 = b1 ∨ d1 = 1)) ∧
    (assignBuffer [d0, d1] [b0, b1] = .ok () ∨ assignBuffer [d0, d1] [b0, b1] = .error .valueError) := by
  unfold assignBuffer
  constructor
  · by_cases h : (d0 = b0 ∨ d0 = 1) ∧ (d1 = b1 ∨ d1 = 1)
    · simp [h]
    · simp [h]
  · split_ifs <;> simp

/-- C145: two processes that split the columns of a grid: both fail. -/
theorem C145_two_processes_partial {d0 d1 b : ℕ} (h : 0 < b) (hb : b < d1) :
    assignBuffer [d0, d1] [d0, b] = .error .valueError ∧ assignBuffer [d0, d1] [d0, d1 - b] = .error .valueError := by
  constructor
  · rcases (C145_parallel_partial (d0 := d0) (d1 := d1) (b0 := d0) (b1 := b)).2 with h1 | h1
    · have := (C145_parallel_partial.1.mp h1).2; omega
    · exact h1
  · rcases (C145_parallel_partial (d0 := d0) (d1 := d1) (b0 := d0) (b1 := d1 - b)).2 with h1 | h1
    · have := (C145_parallel_partial.1.mp h1).2; omega
    · exact h1

end CM.HS
