import Verif.Spec.SemiPeriodic
import Verif.Props.Free2
import Verif.Props.Tools
/-!
# Semi-periodic half-spaces (C28-C31, C144-C146)
-/
namespace CM.HS
open Finset Complex CM.FFT CM.Fourier CM.Spec CM.Tools

variable {a : SemiArgs} {s : HalfSpace} {nx ny : ℕ}

lemma semiDomain_pos {per : Bool} {n : ℕ} (hn : n ≠ 0) : semiDomain per n ≠ 0 := by
  unfold semiDomain; split_ifs <;> omega

lemma le_semiDomain (per : Bool) (n : ℕ) : n ≤ semiDomain per n := by
  unfold semiDomain; split_ifs <;> omega

/-- Sum over the list of images. -/
lemma image_sum (per : Bool) (N : ℤ) (F : ℤ → ℝ) : ((imageList per N).map F).sum = ∑ p ∈ images per N, F p := by
  unfold imageList images
  cases per
  · simp
  · simp only [if_true, List.map_map]
    have h1 : ((List.range (2 * N + 1).toNat).map (F ∘ fun (i : ℕ) => -N + (i : ℤ))).sum
        = ∑ i ∈ range (2 * N + 1).toNat, F (-N + (i : ℤ)) := by
      rw [← List.sum_toFinset _ List.nodup_range, List.toFinset_range]; rfl
    rw [h1]
    refine Finset.sum_bij' (fun i _ => -N + (i : ℤ)) (fun p _ => (p + N).toNat) ?_ ?_ ?_ ?_ ?_
    · intro i hi; rw [mem_range] at hi; rw [mem_Icc]; omega
    · intro p hp; rw [mem_Icc] at hp; rw [mem_range]; omega
    · intro i _; omega
    · intro p hp; rw [mem_Icc] at hp; omega
    · intro i _; rfl

/-- Data of a constructed semi-periodic half-space. -/
structure SemiRep (a : SemiArgs) (s : HalfSpace) (nx ny d0 d1 : ℕ) (sx sy : ℝ) : Prop where
  hx : nx ≠ 0
  hy : ny ≠ 0
  d0_eq : d0 = semiDomain a.perX nx
  d1_eq : d1 = semiDomain a.perY ny
  sx_pos : 0 < sx
  sy_pos : 0 < sy
  sx_eq : sx = sizeF a.free 0
  sy_eq : sy = sizeF a.free 1
  grid : s.nbGridPts = [nx, ny]
  dom : s.domain = [d0, d1]
  sizes : s.physicalSizes = [sx, sy]
  steps : s.steps = [sx / nx, sy / ny]
  young : s.mat.young = a.young
  area : s.areaPerPt = sx / nx * (sy / ny)
  greens : ∀ kx ky, s.greens [kx, ky] = rfft2 d0 d1 (fun i j => semiReal a nx ny sx sy i j) kx ky
  stiff : s.stiffness = invertGreens s.greens

lemma semi_of_construct (hv : ValidSemi a) (hs : constructSemi a = .ok s) (hg : a.nbGridPts = [nx, ny]) :
    SemiRep a s nx ny (semiDomain a.perX nx) (semiDomain a.perY ny) (sizeF a.free 0) (sizeF a.free 1) := by
  unfold constructSemi at hs
  rw [hg] at hs
  dsimp only at hs
  cases h : initAttrs a.free.base [semiDomain a.perX nx, semiDomain a.perY ny] with
  | error e => rw [h] at hs; cases hs
  | ok r =>
    obtain ⟨sizes, m⟩ := r
    obtain ⟨-, -, hsz, h0, -, -, hr⟩ := initAttrs_ok.mp h
    have hgb : a.free.base.nbGridPts = [nx, ny] := hg
    rw [hgb] at hr h0
    have hx0 : nx ≠ 0 := fun h => h0 (by simp [h])
    have hy0 : ny ≠ 0 := fun h => h0 (by simp [h])
    have hs' : sizes = [sizeF a.free 0, sizeF a.free 1] := by
      rw [sizeF_eq, sizeF_eq, ← size_eq a.free.base 0 hsz, ← size_eq a.free.base 1 hsz]
      exact (Prod.mk.inj hr).1
    have hm : m = _ := (Prod.mk.inj hr).2
    rw [h, hs'] at hs
    simp only [bind, Except.bind, pure, Except.pure, Except.ok.injEq] at hs
    subst hs
    have hp : ∀ i, 0 < sizeF a.free i := by
      intro i
      unfold sizeF
      have hne : a.free.physicalSizes ≠ [] := hsz
      split_ifs with hi
      · exact hv.sizes_pos _ (List.getElem_mem hi)
      · rw [List.getLastD_eq_getLast?, List.getLast?_eq_getLast_of_ne_nil hne]
        exact hv.sizes_pos _ (List.getLast_mem hne)
    refine ⟨hx0, hy0, rfl, rfl, hp 0, hp 1, rfl, rfl, rfl, rfl, rfl, rfl, ?_, ?_, ?_, rfl⟩
    · rw [hm]; rfl
    · simp only [HalfSpace.areaPerPt, List.prod_cons, List.prod_nil]
      push_cast
      have h1 : (nx : ℝ) ≠ 0 := by exact_mod_cast hx0
      have h2 : (ny : ℝ) ≠ 0 := by exact_mod_cast hy0
      field_simp
    · intro kx ky
      rfl

/-! ### The kernel -/

/-- The tabulated real-space kernel is the sum over the images of Boussinesq pixel solutions. -/
lemma semiReal_eq {sx sy : ℝ} (hx : nx ≠ 0) (hy : ny ≠ 0) (hsx : 0 < sx) (hsy : 0 < sy) (i j : ℕ) :
    semiReal a nx ny sx sy i j = imageSum a nx ny (sx / nx) (sy / ny) (fftfreqInt (semiDomain a.perX nx) i)
      (fftfreqInt (semiDomain a.perY ny) j) := by
  have h1 : (0 : ℝ) < nx := by exact_mod_cast Nat.pos_of_ne_zero hx
  have h2 : (0 : ℝ) < ny := by exact_mod_cast Nat.pos_of_ne_zero hy
  have c : ∀ (per : Bool) (n : ℕ) (k : ℕ) (p : ℤ) (sz : ℝ), n ≠ 0 → (0 : ℝ) < n →
      semiCoord (semiDomain per n) n sz k + p * sz = ((fftfreqInt (semiDomain per n) k + p * n : ℤ) : ℝ) * (sz / n) := by
    intro per n k p sz hn hn'
    have : (semiDomain per n : ℝ) ≠ 0 := by exact_mod_cast semiDomain_pos hn
    unfold semiCoord
    push_cast
    field_simp
  unfold semiReal imageSum
  rw [image_sum]
  refine sum_congr rfl fun p _ => ?_
  rw [image_sum]
  refine sum_congr rfl fun q _ => ?_
  unfold semiInner
  rw [c _ _ _ _ _ hx h1, c _ _ _ _ _ hy h2, C105_love_is_integral (by positivity) (by positivity)]

/-- The offset stored at the difference of two points of the topography. -/
lemma offset_semi (per : Bool) {n : ℕ} [NeZero (semiDomain per n)] {i k : ℕ} (hi : i < n) (hk : k < n) :
    fftfreqInt (semiDomain per n) ((i : ZMod (semiDomain per n)) - (k : ZMod (semiDomain per n))).val
      = wrap per n ((i : ℤ) - k) := by
  have hd : n ≤ semiDomain per n := le_semiDomain per n
  have hval : ((i : ZMod (semiDomain per n)) - (k : ZMod (semiDomain per n))).val
      = if k ≤ i then i - k else semiDomain per n - (k - i) := by
    split_ifs with h
    · rw [← Nat.cast_sub h, ZMod.val_cast_of_lt (by omega)]
    · have e : (i : ZMod (semiDomain per n)) - (k : ZMod (semiDomain per n)) = ((semiDomain per n - (k - i) : ℕ) : ZMod (semiDomain per n)) := by
        rw [Nat.cast_sub (by omega), ZMod.natCast_self, Nat.cast_sub (by omega)]; ring
      rw [e, ZMod.val_cast_of_lt (by omega)]
  rw [hval]
  unfold fftfreqInt wrap
  cases per
  · simp only [semiDomain, Bool.false_eq_true, if_false]
    split_ifs <;> omega
  · simp only [semiDomain, if_true]
    by_cases h : k ≤ i
    · rw [if_pos h]
      split_ifs with h2
      · rw [Int.emod_eq_of_lt (by omega) (by omega)]; omega
      · have : ((i : ℤ) - k + n / 2) % n = (i : ℤ) - k + n / 2 - n := by
          rw [← Int.sub_emod_right, Int.emod_eq_of_lt (by omega) (by omega)]
        rw [this]; omega
    · rw [if_neg h]
      split_ifs with h2
      · have : ((i : ℤ) - k + n / 2) % n = (i : ℤ) - k + n / 2 + n := by
          rw [← Int.add_emod_right, Int.emod_eq_of_lt (by omega) (by omega)]
        rw [this]; omega
      · rw [Int.emod_eq_of_lt (by omega) (by omega)]; omega

/-! ### Evaluation -/
section
variable {d0 d1 : ℕ} [NeZero d0] [NeZero d1] {sx sy : ℝ}

/-- Kernel on the torus of the computational grid. -/
noncomputable def KS (a : SemiArgs) (nx ny d0 d1 : ℕ) (sx sy : ℝ) (p : ZMod d0 × ZMod d1) : ℝ :=
  tor d0 d1 (fun i j => semiReal a nx ny sx sy i j) p

lemma SemiRep.rep (P : SemiRep a s nx ny d0 d1 sx sy) :
    Rep s d0 d1 ((pair2 d0 d1).ft fun p => (KS a nx ny d0 d1 sx sy p : ℂ)) where
  dom := P.dom
  herm := fun k => (pair2 d0 d1).ft_neg (KS a nx ny d0 d1 sx sy) k
  greens := fun kx ky _ _ => by rw [P.greens, rfft2_eq]; rfl
  stiff := P.stiff

lemma KS_ker (z : ZMod d0 × ZMod d1) :
    (pair2 d0 d1).ker ((pair2 d0 d1).ft fun p => (KS a nx ny d0 d1 sx sy p : ℂ)) z = KS a nx ny d0 d1 sx sy z := by
  unfold Pairing.ker
  rw [(pair2 d0 d1).ift_ft, ← ofReal_natCast, ← ofReal_mul, ofReal_re]
  have : (Fintype.card (ZMod d0 × ZMod d1) : ℝ) ≠ 0 := by
    exact_mod_cast Fintype.card_ne_zero
  field_simp

lemma SemiRep.disp (P : SemiRep a s nx ny d0 d1 sx sy) {f : NdArray ℝ} (hf : f.shape = [d0, d1]) :
    ∃ u, evaluateDisp s f = .ok u ∧ u.shape = [d0, d1] ∧ ∀ x y, u.get [x, y]
      = -(∑ k ∈ range d0, ∑ l ∈ range d1, KS a nx ny d0 d1 sx sy ((x : ZMod d0) - k, (y : ZMod d1) - l) * f.get [k, l])
          / s.areaPerPt := by
  obtain ⟨u, hu, hsh, hu'⟩ := P.rep.disp_ok hf
  refine ⟨u, hu, hsh, fun x y => ?_⟩
  rw [hu', (pair2 d0 d1).act_eq_ker]
  simp only [KS_ker]
  rw [sum_torus]
  congr 2
  refine sum_congr rfl fun k hk => sum_congr rfl fun l hl => ?_
  rw [tor_cast (fun i j => f.get [i, j]) (mem_range.mp hk) (mem_range.mp hl)]
  rfl

omit [NeZero d0] [NeZero d1] in
/-- Zero padding restricts sums to the array. -/
lemma embed_sum' (hx : nx ≤ d0) (hy : ny ≤ d1) (f : NdArray ℝ) (hf : f.shape = [nx, ny]) (F : ℕ → ℕ → ℝ) :
    ∑ k ∈ range d0, ∑ l ∈ range d1, F k l * (embed [d0, d1] f).get [k, l]
      = ∑ k ∈ range nx, ∑ l ∈ range ny, F k l * f.get [k, l] := by
  rw [← sum_subset (range_subset_range.mpr hx)]
  · refine sum_congr rfl fun k hk => ?_
    rw [← sum_subset (range_subset_range.mpr hy)]
    · refine sum_congr rfl fun l hl => ?_
      simp only [embed, hf, mem_range.mp hk, mem_range.mp hl, and_self, if_true]
    · intro l _ hl
      simp only [embed, hf]
      rw [if_neg (by rw [mem_range] at hl; tauto), mul_zero]
  · intro k _ hk
    apply sum_eq_zero
    intro l _
    simp only [embed, hf]
    rw [if_neg (by rw [mem_range] at hk; tauto), mul_zero]

omit [NeZero d0] [NeZero d1] in
lemma SemiRep.le (P : SemiRep a s nx ny d0 d1 sx sy) : nx ≤ d0 ∧ ny ≤ d1 := by
  rw [P.d0_eq, P.d1_eq]; exact ⟨le_semiDomain _ _, le_semiDomain _ _⟩

omit [NeZero d0] [NeZero d1] in
lemma SemiRep.branch (P : SemiRep a s nx ny d0 d1 sx sy) (shape : List ℕ) :
    dispBranch s.domain (List.zipWith (fun n m => topoSub n 0 m) s.nbGridPts s.domain) s.domain s.nbGridPts shape
      = if shape = [d0, d1] then .padded else if shape = [nx, ny] then .topography else .error := by
  have h1 : topoSub nx 0 d0 = nx := by have := P.le; unfold topoSub; omega
  have h2 : topoSub ny 0 d1 = ny := by have := P.le; unfold topoSub; omega
  rw [P.dom, P.grid]
  simp only [List.zipWith, h1, h2, dispBranch, if_true]
  by_cases c1 : shape = [d0, d1]
  · rw [if_pos c1, if_pos c1]
  · rw [if_neg c1, if_neg c1]
    by_cases c2 : shape = [nx, ny]
    · rw [if_pos c2, if_pos c2]
    · rw [if_neg c2, if_neg c2, if_neg c2]

/-- Unpadded forces: convolution over the topography at every point of it, whichever branch is taken. -/
lemma SemiRep.disp_topo (P : SemiRep a s nx ny d0 d1 sx sy) (f : NdArray ℝ) (hf : f.shape = [nx, ny]) :
    ∃ u, evaluateDispSemi s f false = .ok u ∧ u.shape = [nx, ny] ∧ ∀ x y, u.get [x, y]
      = -(∑ k ∈ range nx, ∑ l ∈ range ny, KS a nx ny d0 d1 sx sy ((x : ZMod d0) - k, (y : ZMod d1) - l) * f.get [k, l])
          / s.areaPerPt := by
  unfold evaluateDispSemi evaluateDispFree
  rw [P.branch]
  by_cases h : f.shape = [d0, d1]
  · rw [if_pos h]
    obtain ⟨u, hu, hsh, hu'⟩ := P.disp h
    have e : nx = d0 ∧ ny = d1 := by rw [hf] at h; simpa using h
    obtain ⟨rfl, rfl⟩ := e
    exact ⟨u, hu, hsh, hu'⟩
  · rw [if_neg h, if_pos hf]
    obtain ⟨u, hu, hsh, hu'⟩ := P.disp (f := embed s.domain f) P.dom
    refine ⟨⟨[nx, ny], u.get⟩, ?_, rfl, fun x y => ?_⟩
    · simp only [hu, bind, Except.bind, P.grid]; rfl
    · change u.get [x, y] = _
      rw [hu', P.dom, embed_sum' P.le.1 P.le.2 f hf]

end

lemma SemiRep.KS_sub {sx sy : ℝ} [NeZero (semiDomain a.perX nx)] [NeZero (semiDomain a.perY ny)]
    (P : SemiRep a s nx ny (semiDomain a.perX nx) (semiDomain a.perY ny) sx sy) {i j k l : ℕ} (hi : i < nx) (hj : j < ny)
    (hk : k < nx) (hl : l < ny) :
    KS a nx ny (semiDomain a.perX nx) (semiDomain a.perY ny) sx sy ((i : ZMod (semiDomain a.perX nx)) - k, (j : ZMod (semiDomain a.perY ny)) - l)
      = imageSum a nx ny (sx / nx) (sy / ny) (wrap a.perX nx ((i : ℤ) - k)) (wrap a.perY ny ((j : ℤ) - l)) := by
  unfold KS tor
  dsimp only
  rw [semiReal_eq P.hx P.hy P.sx_pos P.sy_pos, offset_semi _ hi hk, offset_semi _ hj hl]

section
variable (hv : ValidSemi a) (hs : constructSemi a = .ok s) (hg : a.nbGridPts = [nx, ny])
include hv hs hg

/-- C29: the displacements on the topography are the direct sum over all forces and the images of them:
`2 n_images + 1` per periodic direction, counted from the nearest one. -/
theorem C29_direct_sum (f : NdArray ℝ) (hf : f.shape = [nx, ny]) :
    ∃ u, evaluateDispSemi s f false = .ok u ∧ u.shape = [nx, ny] ∧ ∀ i j, i < nx → j < ny →
      u.get [i, j] = semiSum a nx ny (sizeF a.free 0 / nx) (sizeF a.free 1 / ny) f i j := by
  have P := semi_of_construct hv hs hg
  have : NeZero (semiDomain a.perX nx) := ⟨semiDomain_pos P.hx⟩
  have : NeZero (semiDomain a.perY ny) := ⟨semiDomain_pos P.hy⟩
  obtain ⟨u, hu, hsh, hu'⟩ := P.disp_topo f hf
  refine ⟨u, hu, hsh, fun i j hi hj => ?_⟩
  rw [hu', semiSum, P.area, neg_div, Finset.sum_div]
  congr 1
  refine sum_congr rfl fun k hk => ?_
  rw [Finset.sum_div]
  refine sum_congr rfl fun l hl => ?_
  rw [P.KS_sub hi hj (mem_range.mp hk) (mem_range.mp hl)]
  ring


/-- C28: without periodic directions the displacements of every force field on the topography are those of the
free half-space, for every value of `n_images`. -/
theorem C28_equals_free (hX : a.perX = false) (hY : a.perY = false) {s' : HalfSpace} (hs' : constructFree a.free = .ok s')
    (f : NdArray ℝ) (hf : f.shape = [nx, ny]) : ∃ u v, evaluateDispSemi s f false = .ok u ∧
      evaluateDispFree s' f false = .ok v ∧ u.shape = v.shape ∧ ∀ i j, i < nx → j < ny → u.get [i, j] = v.get [i, j] := by
  obtain ⟨u, hu, hsh, hu'⟩ := C29_direct_sum hv hs hg f hf
  obtain ⟨v, hv1, hsh', hv'⟩ := C19_free_direct_sum (a := a.free) ⟨hv.sizes_pos, hv.young_pos⟩ hs' hg f hf
  refine ⟨u, v, hu, hv1, hsh.trans hsh'.symm, fun i j hi hj => ?_⟩
  rw [hu' i j hi hj, hv' i j hi hj]
  unfold semiSum directSum imageSum
  simp only [images, wrap, hX, hY, Bool.false_eq_true, if_false, sum_singleton]
  push_cast
  simp only [zero_mul, add_zero]
  rfl

end

/-- Cyclic shifts of a range. -/
lemma sum_rot {n : ℕ} (hn : n ≠ 0) (t : ℕ) (F : ℕ → ℝ) : ∑ k ∈ range n, F ((k + t) % n) = ∑ k ∈ range n, F k := by
  have hp : 0 < n := Nat.pos_of_ne_zero hn
  refine Finset.sum_bij' (fun k _ => (k + t) % n) (fun k _ => (k + (n - t % n)) % n) ?_ ?_ ?_ ?_ ?_
  · intro k _; exact mem_range.mpr (Nat.mod_lt _ hp)
  · intro k _; exact mem_range.mpr (Nat.mod_lt _ hp)
  · intro k hk
    have hk := mem_range.mp hk
    have ht := Nat.mod_lt t hp
    show ((k + t) % n + (n - t % n)) % n = k
    rw [Nat.add_mod k t n, Nat.mod_eq_of_lt hk]
    by_cases h : k + t % n < n
    · rw [Nat.mod_eq_of_lt h, show k + t % n + (n - t % n) = k + n by omega, Nat.add_mod_right, Nat.mod_eq_of_lt hk]
    · have e : (k + t % n) % n = k + t % n - n := by
        rw [Nat.mod_eq_sub_mod (by omega), Nat.mod_eq_of_lt (by omega : k + t % n - n < n)]
      rw [e, show k + t % n - n + (n - t % n) = k by omega, Nat.mod_eq_of_lt hk]
  · intro k hk
    have hk := mem_range.mp hk
    have ht := Nat.mod_lt t hp
    show ((k + (n - t % n)) % n + t) % n = k
    rw [Nat.add_mod _ t n, Nat.mod_mod, ← Nat.add_mod, Nat.add_assoc]
    have : (n - t % n + t) % n = 0 := by
      rw [Nat.add_mod, ]
      by_cases h : t % n = 0
      · simp [h]
      · rw [Nat.mod_eq_of_lt (by omega : n - t % n < n), show n - t % n + t % n = n by omega, Nat.mod_self]
    rw [Nat.add_mod, this, Nat.add_zero, Nat.mod_mod, Nat.mod_eq_of_lt hk]
  · intro k _; rfl

/-- The wrapped offset only depends on the difference modulo the period. -/
lemma wrap_rot (n i k t : ℕ) : wrap true n (((i + t) % n : ℕ) - ((k + t) % n : ℕ) : ℤ) = wrap true n ((i : ℤ) - k) := by
  unfold wrap
  simp only [if_true]
  congr 1
  apply Int.emod_emod_of_dvd _ (dvd_refl _) |>.symm.trans
  rw [Int.emod_emod_of_dvd _ (dvd_refl _)]
  push_cast
  rw [Int.add_emod, Int.sub_emod, Int.emod_emod_of_dvd _ (dvd_refl _), Int.emod_emod_of_dvd _ (dvd_refl _), ← Int.sub_emod,
    ← Int.add_emod]
  congr 1
  ring

section
variable (hv : ValidSemi a) (hs : constructSemi a = .ok s) (hg : a.nbGridPts = [nx, ny])
include hv hs hg

/-- C29: a cyclic shift of the forces along a periodic x-direction shifts the displacements, exactly (also for few images). -/
theorem C29_translation_x (hX : a.perX = true) (t : ℕ) (f g : NdArray ℝ) (hf : f.shape = [nx, ny]) (hg' : g.shape = [nx, ny])
    (hfg : ∀ i j, i < nx → j < ny → g.get [i, j] = f.get [(i + t) % nx, j]) :
    ∃ u v, evaluateDispSemi s f false = .ok u ∧ evaluateDispSemi s g false = .ok v ∧
      ∀ i j, i < nx → j < ny → v.get [i, j] = u.get [(i + t) % nx, j] := by
  have P := semi_of_construct hv hs hg
  obtain ⟨u, hu, -, hu'⟩ := C29_direct_sum hv hs hg f hf
  obtain ⟨v, hv1, -, hv'⟩ := C29_direct_sum hv hs hg g hg'
  refine ⟨u, v, hu, hv1, fun i j hi hj => ?_⟩
  rw [hv' i j hi hj, hu' _ j (Nat.mod_lt _ (by omega)) hj]
  unfold semiSum
  congr 1
  symm
  rw [← sum_rot P.hx t]
  refine sum_congr rfl fun k hk => sum_congr rfl fun l hl => ?_
  rw [hfg k l (mem_range.mp hk) (mem_range.mp hl), hX, wrap_rot]

/-- C29, y-direction. -/
theorem C29_translation_y (hY : a.perY = true) (t : ℕ) (f g : NdArray ℝ) (hf : f.shape = [nx, ny]) (hg' : g.shape = [nx, ny])
    (hfg : ∀ i j, i < nx → j < ny → g.get [i, j] = f.get [i, (j + t) % ny]) :
    ∃ u v, evaluateDispSemi s f false = .ok u ∧ evaluateDispSemi s g false = .ok v ∧
      ∀ i j, i < nx → j < ny → v.get [i, j] = u.get [i, (j + t) % ny] := by
  have P := semi_of_construct hv hs hg
  obtain ⟨u, hu, -, hu'⟩ := C29_direct_sum hv hs hg f hf
  obtain ⟨v, hv1, -, hv'⟩ := C29_direct_sum hv hs hg g hg'
  refine ⟨u, v, hu, hv1, fun i j hi hj => ?_⟩
  rw [hv' i j hi hj, hu' i _ hi (Nat.mod_lt _ (by omega))]
  unfold semiSum
  congr 1
  refine sum_congr rfl fun k hk => ?_
  symm
  rw [← sum_rot P.hy t]
  refine sum_congr rfl fun l hl => ?_
  rw [hfg k l (mem_range.mp hk) (mem_range.mp hl), hY, wrap_rot]

end

/-! ### Reciprocity -/

/-- Summed over the images an even function does not see the sign of an offset. -/
lemma sum_images_neg (per : Bool) {n : ℕ} (hn : n ≠ 0) (N d : ℤ) (F : ℤ → ℝ) (hF : ∀ m, F (-m) = F m) :
    ∑ p ∈ images per N, F (wrap per n (-d) + p * n) = ∑ p ∈ images per N, F (wrap per n d + p * n) := by
  cases per
  · simp only [images, wrap, Bool.false_eq_true, if_false, sum_singleton, zero_mul, add_zero, hF]
  · have hn' : (0 : ℤ) < n := by exact_mod_cast Nat.pos_of_ne_zero hn
    have key : wrap true n (-d) = wrap true n d ∨ wrap true n (-d) = -wrap true n d := by
      unfold wrap
      simp only [if_true]
      have e1 := Int.emod_add_mul_ediv (d + n / 2) n
      have e2 := Int.emod_add_mul_ediv (-d + n / 2) n
      have b1 := Int.emod_nonneg (d + n / 2) hn'.ne'
      have b2 := Int.emod_lt_of_pos (d + n / 2) hn'
      have b3 := Int.emod_nonneg (-d + n / 2) hn'.ne'
      have b4 := Int.emod_lt_of_pos (-d + n / 2) hn'
      set r1 := (d + n / 2) % n
      set r2 := (-d + n / 2) % n
      set q := (d + n / 2) / n + (-d + n / 2) / n with hq
      have e3 : r1 + r2 + n * q = 2 * (n / 2 : ℤ) := by rw [hq, mul_add]; linarith
      have hh : 2 * (n / 2 : ℤ) = n ∨ 2 * (n / 2 : ℤ) = n - 1 := by omega
      have hq1 : q < 2 := by
        by_contra hc
        have := mul_le_mul_of_nonneg_left (not_lt.mp hc) hn'.le
        omega
      have hq2 : -2 < q := by
        by_contra hc
        have := mul_le_mul_of_nonneg_left (not_lt.mp hc) hn'.le
        omega
      have : q = -1 ∨ q = 0 ∨ q = 1 := by omega
      rcases this with h | h | h <;> rw [h] at e3 <;> omega
    rcases key with h | h
    · rw [h]
    · rw [h]
      unfold images
      simp only [if_true]
      refine Finset.sum_bij' (fun p _ => -p) (fun p _ => -p) ?_ ?_ ?_ ?_ ?_
      · intro p hp; rw [mem_Icc] at hp ⊢; omega
      · intro p hp; rw [mem_Icc] at hp ⊢; omega
      · intro p _; ring
      · intro p _; ring
      · intro p _
        rw [← hF]; congr 1; ring

lemma imageSum_neg (hx : nx ≠ 0) (hy : ny ≠ 0) (dx dy : ℝ) (d e : ℤ) :
    imageSum a nx ny dx dy (wrap a.perX nx (-d)) (wrap a.perY ny (-e))
      = imageSum a nx ny dx dy (wrap a.perX nx d) (wrap a.perY ny e) := by
  unfold imageSum
  rw [sum_images_neg a.perX hx a.nImages d (fun m => ∑ q ∈ images a.perY a.nImages,
    pixelGreens a.young dx dy ((m : ℝ) * dx) (((wrap a.perY ny (-e) + q * ny : ℤ) : ℝ) * dy))]
  · refine sum_congr rfl fun p _ => ?_
    exact sum_images_neg a.perY hy a.nImages e (fun m => pixelGreens a.young dx dy
      (((wrap a.perX nx d + p * nx : ℤ) : ℝ) * dx) ((m : ℝ) * dy))
      (fun m => by push_cast; rw [neg_mul, pixelGreens_neg_y])
  · intro m
    refine sum_congr rfl fun q _ => ?_
    push_cast; rw [neg_mul, pixelGreens_neg_x]

section
variable (hv : ValidSemi a) (hs : constructSemi a = .ok s) (hg : a.nbGridPts = [nx, ny])
include hv hs hg

/-- C31: reciprocity for every combination of periodicity flags and every number of images. -/
theorem C31_reciprocal (f g : NdArray ℝ) (hf : f.shape = [nx, ny]) (hg' : g.shape = [nx, ny]) :
    ∃ u v, evaluateDispSemi s f false = .ok u ∧ evaluateDispSemi s g false = .ok v ∧
      work nx ny f v = work nx ny g u := by
  have P := semi_of_construct hv hs hg
  obtain ⟨u, hu, -, hu'⟩ := C29_direct_sum hv hs hg f hf
  obtain ⟨v, hv1, -, hv'⟩ := C29_direct_sum hv hs hg g hg'
  refine ⟨u, v, hu, hv1, ?_⟩
  unfold work
  have e : ∀ (f g u : NdArray ℝ), (∀ i j, i < nx → j < ny →
      u.get [i, j] = semiSum a nx ny (sizeF a.free 0 / nx) (sizeF a.free 1 / ny) g i j) →
      ∑ i ∈ range nx, ∑ j ∈ range ny, f.get [i, j] * u.get [i, j]
        = ∑ p ∈ range nx ×ˢ range ny, ∑ q ∈ range nx ×ˢ range ny,
          -(imageSum a nx ny (sizeF a.free 0 / nx) (sizeF a.free 1 / ny) (wrap a.perX nx ((p.1 : ℤ) - q.1))
              (wrap a.perY ny ((p.2 : ℤ) - q.2)) * (f.get [p.1, p.2] * g.get [q.1, q.2])
            / (sizeF a.free 0 / nx * (sizeF a.free 1 / ny))) := by
    intro f g u hu
    rw [sum_product]
    refine sum_congr rfl fun i hi => sum_congr rfl fun j hj => ?_
    rw [hu i j (mem_range.mp hi) (mem_range.mp hj), semiSum, sum_product, mul_neg, mul_sum, ← sum_neg_distrib]
    refine sum_congr rfl fun k _ => ?_
    rw [mul_sum, ← sum_neg_distrib]
    refine sum_congr rfl fun l _ => ?_
    ring
  rw [e f g v hv', e g f u hu', sum_comm]
  refine sum_congr rfl fun q _ => sum_congr rfl fun p _ => ?_
  rw [show ((p.1 : ℤ) - q.1) = -((q.1 : ℤ) - p.1) by ring, show ((p.2 : ℤ) - q.2) = -((q.2 : ℤ) - p.2) by ring,
    imageSum_neg P.hx P.hy]
  ring

end
end CM.HS
