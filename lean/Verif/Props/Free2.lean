import Verif.Props.Free
import Verif.Props.HalfSpace2
/-!
# Free half-spaces: decomposition, boundary check, children, generalised inverse (C23-C25, C27, C106)
-/
set_option linter.unusedSimpArgs false
namespace CM.HS
open Finset Complex CM.FFT CM.Fourier CM.Spec

/-! ### C24 -/

/-- Local topography block of a process (`topography_subdomain_locations` is `subdomain_locations`). -/
def topoBlock (nx ny : ℕ) (b : Block) : Block := ⟨b.loc0, topoSub nx b.loc0 b.n0, b.loc1, topoSub ny b.loc1 b.n1⟩

lemma inRange_topoSub {n loc m k : ℕ} : (loc ≤ k ∧ k < loc + topoSub n loc m) ↔ (loc ≤ k ∧ k < loc + m) ∧ k < n := by
  unfold topoSub; omega

lemma holds_topoBlock {nx ny : ℕ} (b : Block) (i j : ℕ) :
    holds (topoBlock nx ny b) i j = (holds b i j && decide (i < nx ∧ j < ny)) := by
  unfold holds topoBlock
  rw [← Bool.decide_and, decide_eq_decide]
  have h1 := inRange_topoSub (n := nx) (loc := b.loc0) (m := b.n0) (k := i)
  have h2 := inRange_topoSub (n := ny) (loc := b.loc1) (m := b.n1) (k := j)
  tauto

/-- **C24** When the padded blocks tile the padded grid, the topography blocks tile the topography grid,
and each is contained in its process' padded block. -/
theorem C24_topography_tiles {nx ny : ℕ} (blocks : List Block) (h : Tiles (2 * nx) (2 * ny) blocks) :
    Tiles nx ny (blocks.map (topoBlock nx ny)) ∧
    ∀ b ∈ blocks, ∀ i j, holds (topoBlock nx ny b) i j = true → holds b i j = true := by
  refine ⟨⟨?_, ?_⟩, ?_⟩
  · intro b hb i j hh
    obtain ⟨b', -, rfl⟩ := List.mem_map.mp hb
    rw [holds_topoBlock, Bool.and_eq_true] at hh
    exact of_decide_eq_true hh.2
  · intro i j hi hj
    rw [List.filter_map, List.length_map, ← h.once i j (by omega) (by omega)]
    congr 1
    apply List.filter_congr
    intro b _
    simp only [Function.comp, holds_topoBlock, hi, hj, and_self, decide_true, Bool.and_true]
  · intro b _ i j hh
    rw [holds_topoBlock, Bool.and_eq_true] at hh
    exact hh.1

/-- Three slabs of an 8×6 padded grid; the middle one straddles the topography, the last is outside. -/
example : Tiles 8 6 [⟨0, 3, 0, 6⟩, ⟨3, 3, 0, 6⟩, ⟨6, 2, 0, 6⟩] ∧
    [⟨0, 3, 0, 6⟩, ⟨3, 3, 0, 6⟩, ⟨6, 2, 0, 6⟩].map (topoBlock 4 3) = [⟨0, 3, 0, 3⟩, ⟨3, 1, 0, 3⟩, ⟨6, 0, 0, 3⟩] := by
  refine ⟨⟨?_, ?_⟩, rfl⟩
  · intro b hb i j h
    simp only [List.mem_cons, List.not_mem_nil, or_false] at hb
    simp only [holds, decide_eq_true_eq] at h
    rcases hb with rfl | rfl | rfl <;> simp at h <;> omega
  · intro i j hi hj
    have : ∀ i < 8, ∀ j < 6, (List.filter (fun b => holds b i j) [⟨0, 3, 0, 6⟩, ⟨3, 3, 0, 6⟩, ⟨6, 2, 0, 6⟩]).length = 1 := by
      decide
    exact this i hi j hj

/-! ### C23 -/

lemma topoSub_pos {n loc m : ℕ} : 0 < topoSub n loc m ↔ loc < n ∧ 0 < m := by unfold topoSub; omega

/-- **C23 (part)** If no process' block begins exactly at the last row or column of the topography (other
than at index 0), `check_boundaries` succeeds iff every force on the outermost ring is tolerable and
otherwise raises `FreeBoundaryError`. -/
theorem C23_check_boundaries_partial {gx gy : ℕ} {F : ℕ → ℕ → ℝ} {M : ℕ → ℕ → Bool} {procs : List Proc} (tol : ℝ)
    (hgx : 0 < gx) (hgy : 0 < gy) (hd : Distributed gx gy F M procs)
    (hx : ∀ p ∈ procs, p.loc0 + 1 = gx → p.loc0 = 0) (hy : ∀ p ∈ procs, p.loc1 + 1 = gy → p.loc1 = 0) :
    (checkBoundaries gx gy tol procs = .ok () ↔ ∀ i j, onRing gx gy i j → tolerable F M tol i j) ∧
    (checkBoundaries gx gy tol procs = .error .freeBoundaryError ↔
      ∃ i j, onRing gx gy i j ∧ ¬ tolerable F M tol i j) := by
  have hidx : ¬ ∃ p ∈ procs, checkIndexError gx gy p := by
    rintro ⟨p, hp, h | h⟩
    · have := topoSub_pos (n := gy) (loc := p.loc1) (m := p.n1)
      have := hd.nonempty p hp
      omega
    · have := topoSub_pos (n := gx) (loc := p.loc0) (m := p.n0)
      have := hd.nonempty p hp
      omega
  have key : (∀ p ∈ procs, checkLocal gx gy tol p) ↔ ∀ i j, onRing gx gy i j → tolerable F M tol i j := by
    constructor
    · intro h i j ⟨hi, hj, hr⟩
      obtain ⟨p, hp, ⟨hi1, hi2⟩, ⟨hj1, hj2⟩⟩ := hd.cover i j (by omega) (by omega)
      obtain ⟨c1, c2, c3, c4⟩ := h p hp
      have hxi := inRange_topoSub (n := gx) (loc := p.loc0) (m := p.n0) (k := i)
      have hyj := inRange_topoSub (n := gy) (loc := p.loc1) (m := p.n1) (k := j)
      have hti : i - p.loc0 < topoSub gx p.loc0 p.n0 := by omega
      have htj : j - p.loc1 < topoSub gy p.loc1 p.n1 := by omega
      have hval : valOk p tol (i - p.loc0) (j - p.loc1) → tolerable F M tol i j := by
        unfold valOk tolerable
        rw [hd.force p hp, hd.mask p hp, Nat.add_sub_cancel' hi1, Nat.add_sub_cancel' hj1]
        exact id
      apply hval
      have hpx := hx p hp
      have hpy := hy p hp
      rcases hr with rfl | hr | rfl | hr
      · have e : p.loc0 = 0 := by omega
        have := c3 e (j - p.loc1) htj
        rwa [e]
      · by_cases e : p.loc0 = i
        · have e0 : p.loc0 = 0 := hpx (by omega)
          have := c3 e0 (j - p.loc1) htj
          rwa [e, Nat.sub_self]
        · have := c4 ⟨by omega, by omega⟩ (j - p.loc1) htj
          rwa [show ((gx : ℤ) - 1 - p.loc0).toNat = i - p.loc0 by omega] at this
      · have e : p.loc1 = 0 := by omega
        have := c1 e (i - p.loc0) hti
        rwa [e]
      · by_cases e : p.loc1 = j
        · have e0 : p.loc1 = 0 := hpy (by omega)
          have := c1 e0 (i - p.loc0) hti
          rwa [e, Nat.sub_self]
        · have := c2 ⟨by omega, by omega⟩ (i - p.loc0) hti
          rwa [show ((gy : ℤ) - 1 - p.loc1).toNat = j - p.loc1 by omega] at this
    · intro h p hp
      have hval : ∀ i j, i < topoSub gx p.loc0 p.n0 → j < topoSub gy p.loc1 p.n1 →
          (p.loc0 + i = 0 ∨ p.loc0 + i + 1 = gx ∨ p.loc1 + j = 0 ∨ p.loc1 + j + 1 = gy) → valOk p tol i j := by
        intro i j hi hj hr
        unfold valOk
        rw [hd.force p hp, hd.mask p hp]
        have hxi := inRange_topoSub (n := gx) (loc := p.loc0) (m := p.n0) (k := p.loc0 + i)
        have hyj := inRange_topoSub (n := gy) (loc := p.loc1) (m := p.n1) (k := p.loc1 + j)
        exact h _ _ ⟨by omega, by omega, hr⟩
      have hne := hd.nonempty p hp
      have tx := topoSub_pos (n := gx) (loc := p.loc0) (m := p.n0)
      have ty := topoSub_pos (n := gy) (loc := p.loc1) (m := p.n1)
      refine ⟨fun e i hi => ?_, fun e i hi => ?_, fun e j hj => ?_, fun e j hj => ?_⟩
      · exact hval i 0 hi (by omega) (by omega)
      · exact hval i _ hi (by omega) (by omega)
      · exact hval 0 j (by omega) hj (by omega)
      · exact hval _ j (by omega) hj (by omega)
  unfold checkBoundaries
  rw [if_neg hidx]
  by_cases hc : ∀ p ∈ procs, checkLocal gx gy tol p
  · rw [if_pos hc]
    have := key.mp hc
    refine ⟨iff_of_true rfl this, iff_of_false (by simp) ?_⟩
    rintro ⟨i, j, h1, h2⟩
    exact h2 (this i j h1)
  · rw [if_neg hc]
    have h3 : ¬ ∀ i j, onRing gx gy i j → tolerable F M tol i j := fun h => hc (key.mpr h)
    refine ⟨iff_of_false (by simp) h3, iff_of_true rfl ?_⟩
    push Not at h3
    exact h3

/-- **C23** On a single process the check is exact for every grid. -/
theorem C23_serial {gx gy : ℕ} (F : ℕ → ℕ → ℝ) (M : ℕ → ℕ → Bool) (tol : ℝ) (hgx : 0 < gx) (hgy : 0 < gy) :
    (checkBoundaries gx gy tol [⟨0, 2 * gx, 0, 2 * gy, F, M⟩] = .ok () ↔
      ∀ i j, onRing gx gy i j → tolerable F M tol i j) ∧
    (checkBoundaries gx gy tol [⟨0, 2 * gx, 0, 2 * gy, F, M⟩] = .error .freeBoundaryError ↔
      ∃ i j, onRing gx gy i j ∧ ¬ tolerable F M tol i j) := by
  apply C23_check_boundaries_partial tol hgx hgy
  · constructor
    · intro p hp; simp only [List.mem_singleton] at hp; subst hp; simp only; omega
    · intro i j hi hj
      exact ⟨_, List.mem_singleton.mpr rfl, ⟨by simp, by simpa using hi⟩, ⟨by simp, by simpa using hj⟩⟩
    · intro p hp i j; simp only [List.mem_singleton] at hp; subst hp; simp
    · intro p hp i j; simp only [List.mem_singleton] at hp; subst hp; simp
  · intro p hp _; simp only [List.mem_singleton] at hp; subst hp; rfl
  · intro p hp _; simp only [List.mem_singleton] at hp; subst hp; rfl

/-- **C23 (refuted)** For every topography of at least two rows there is a slab decomposition that hides a
non-zero force on the last row: cut the padded grid at row `gx - 1`. -/
theorem C23_missed_last_row {gx gy : ℕ} (hgx : 2 ≤ gx) (hgy : 3 ≤ gy) : ∃ (F : ℕ → ℕ → ℝ) (procs : List Proc),
    Distributed gx gy F (fun _ _ => false) procs ∧ procs.length = 2 ∧
    (∃ i j, onRing gx gy i j ∧ ¬ tolerable F (fun _ _ => false) 0 i j) ∧
    checkBoundaries gx gy 0 procs = .ok () := by
  classical
  let F : ℕ → ℕ → ℝ := fun i j => if i + 1 = gx ∧ j = 1 then -1 else 0
  refine ⟨F, [⟨0, gx - 1, 0, 2 * gy, F, fun _ _ => false⟩,
    ⟨gx - 1, gx + 1, 0, 2 * gy, fun i j => F (gx - 1 + i) j, fun _ _ => false⟩], ⟨?_, ?_, ?_, ?_⟩, rfl, ?_, ?_⟩
  · intro p hp
    simp only [List.mem_cons, List.not_mem_nil, or_false] at hp
    rcases hp with rfl | rfl <;> simp only <;> omega
  · intro i j hi hj
    by_cases h : i < gx - 1
    · exact ⟨_, .head _, ⟨by simp, by simpa using h⟩, ⟨by simp, by simpa using hj⟩⟩
    · exact ⟨_, .tail _ (.head _), ⟨by simp only; omega, by simp only; omega⟩, ⟨by simp, by simpa using hj⟩⟩
  · intro p hp i j
    simp only [List.mem_cons, List.not_mem_nil, or_false] at hp
    rcases hp with rfl | rfl <;> simp
  · intro p hp i j
    simp only [List.mem_cons, List.not_mem_nil, or_false] at hp
    rcases hp with rfl | rfl <;> simp
  · refine ⟨gx - 1, 1, ⟨by omega, by omega, .inr (.inl (by omega))⟩, ?_⟩
    simp only [tolerable, F]
    rw [if_pos ⟨by omega, trivial⟩]
    norm_num
  · unfold checkBoundaries
    have h0 : topoSub gx 0 (gx - 1) = gx - 1 := by unfold topoSub; omega
    have h1 : topoSub gy 0 (2 * gy) = gy := by unfold topoSub; omega
    have h2 : topoSub gx (gx - 1) (gx + 1) = 1 := by unfold topoSub; omega
    rw [if_neg, if_pos]
    · intro p hp
      simp only [List.mem_cons, List.not_mem_nil, or_false] at hp
      rcases hp with rfl | rfl
      · unfold checkLocal
        simp only [h0, h1]
        refine ⟨fun _ i hi => .inr ?_, fun _ i hi => .inr ?_, fun _ j hj => .inr ?_, fun h => ?_⟩
        · simp only [F]; rw [if_neg (by omega)]; simp
        · simp only [F]; rw [if_neg (by omega)]; simp
        · simp only [F]; rw [if_neg (by omega)]; simp
        · omega
      · unfold checkLocal
        simp only [h1, h2]
        refine ⟨fun _ i hi => .inr ?_, fun _ i hi => .inr ?_, fun h => ?_, fun h => ?_⟩
        · simp only [F]; rw [if_neg (by omega)]; simp
        · simp only [F]; rw [if_neg (by omega)]; simp
        · omega
        · omega
    · rintro ⟨p, hp, h⟩
      simp only [List.mem_cons, List.not_mem_nil, or_false] at hp
      unfold checkIndexError at h
      rcases hp with rfl | rfl
      · simp only [h0, h1] at h; omega
      · simp only [h1, h2] at h; omega

/-- **C107 (part)** Under the same condition on the decomposition the boundary mask marks exactly the
outermost ring. -/
theorem C107_boundary_mask_partial {gx gy : ℕ} (p : Proc) (hx : p.loc0 + 1 = gx → p.loc0 = 0)
    (hy : p.loc1 + 1 = gy → p.loc1 = 0) (i j : ℕ) (hi : i < topoSub gx p.loc0 p.n0) (hj : j < topoSub gy p.loc1 p.n1) :
    boundaryMask gx gy p i j = true ↔ onRing gx gy (p.loc0 + i) (p.loc1 + j) := by
  unfold boundaryMask onRing
  rw [decide_eq_true_eq]
  have hxi := inRange_topoSub (n := gx) (loc := p.loc0) (m := p.n0) (k := p.loc0 + i)
  have hyj := inRange_topoSub (n := gy) (loc := p.loc1) (m := p.n1) (k := p.loc1 + j)
  constructor
  · intro h; refine ⟨by omega, by omega, by omega⟩
  · rintro ⟨h1, h2, h3⟩; omega

/-- **C107** The mask never marks a point off the ring, whatever the decomposition. -/
theorem C107_boundary_mask_sound {gx gy : ℕ} (p : Proc) (i j : ℕ) (hi : i < topoSub gx p.loc0 p.n0)
    (hj : j < topoSub gy p.loc1 p.n1) (h : boundaryMask gx gy p i j = true) :
    onRing gx gy (p.loc0 + i) (p.loc1 + j) := by
  unfold boundaryMask at h
  rw [decide_eq_true_eq] at h
  have hxi := inRange_topoSub (n := gx) (loc := p.loc0) (m := p.n0) (k := p.loc0 + i)
  have hyj := inRange_topoSub (n := gy) (loc := p.loc1) (m := p.n1) (k := p.loc1 + j)
  refine ⟨by omega, by omega, by omega⟩

/-- A process whose block begins at the last row of a 4×4 topography: the mask misses its inner points. -/
example : boundaryMask 4 4 ⟨3, 3, 0, 8, fun _ _ => 0, fun _ _ => false⟩ 0 1 = false ∧ onRing 4 4 (3 + 0) (0 + 1) ∧
    boundaryMask 4 4 ⟨2, 3, 0, 8, fun _ _ => 0, fun _ _ => false⟩ 1 1 = true := by
  refine ⟨by decide, ⟨by omega, by omega, by omega⟩, by decide⟩

/-! ### C25 -/

/-- **C25** A spawned child exists for every non-empty two-dimensional grid, and has the modulus and the
grid spacings of its parent. -/
theorem C25_spawn_child {a : FreeArgs} {s : HalfSpace} {nx ny : ℕ} (hv : ValidFree a) (hs : constructFree a = .ok s)
    (hg : a.nbGridPts = [nx, ny]) {mx my : ℕ} (hmx : 0 < mx) (hmy : 0 < my) :
    ∃ c, spawnChild s [mx, my] = .ok c ∧ c.nbGridPts = [mx, my] ∧ c.mat.young = s.mat.young ∧ c.steps = s.steps ∧
      c.steps = [sizeF a 0 / nx, sizeF a 1 / ny] := by
  obtain ⟨_, _, P⟩ := free_of_construct hv hs hg
  let b : FreeArgs := ⟨[mx, my], s.mat.young, [(mx : ℝ) / nx * sizeF a 0, (my : ℝ) / ny * sizeF a 1], none⟩
  have hb : spawnChild s [mx, my] = constructFree b := by
    unfold spawnChild
    rw [P.grid, P.sizes]
    rfl
  have hnx : (0 : ℝ) < nx := by exact_mod_cast Nat.pos_of_ne_zero (NeZero.ne nx)
  have hny : (0 : ℝ) < ny := by exact_mod_cast Nat.pos_of_ne_zero (NeZero.ne ny)
  have hmx' : (0 : ℝ) < mx := by exact_mod_cast hmx
  have hmy' : (0 : ℝ) < my := by exact_mod_cast hmy
  have hsx := P.sx_pos
  have hsy := P.sy_pos
  have hvb : ValidFree b := by
    constructor
    · intro x hx
      simp only [b, List.mem_cons, List.not_mem_nil, or_false] at hx
      rcases hx with rfl | rfl <;> positivity
    · change 0 < s.mat.young; rw [P.young]; exact hv.young_pos
  have hok : ∃ c, constructFree b = .ok c := by
    have := initAttrs_ok (a := b.base) (dom := [2 * mx, 2 * my]) |>.mpr
      ⟨by simp [b, FreeArgs.base], .inl rfl, by simp [b, FreeArgs.base],
        by simp [b, FreeArgs.base]; omega, by simp [b, FreeArgs.base], by simp [b, FreeArgs.base], rfl⟩
    unfold constructFree
    dsimp only
    rw [show b.nbGridPts.map (2 * ·) = [2 * mx, 2 * my] from rfl, this]
    exact ⟨_, rfl⟩
  obtain ⟨c, hc⟩ := hok
  obtain ⟨_, _, Q⟩ := free_of_construct hvb hc rfl
  have e : c.steps = [sizeF a 0 / nx, sizeF a 1 / ny] := by
    rw [Q.steps, show sizeF b 0 = (mx : ℝ) / nx * sizeF a 0 from rfl, show sizeF b 1 = (my : ℝ) / ny * sizeF a 1 from rfl]
    congr 1
    · field_simp
    · congr 1; field_simp
  exact ⟨c, by rw [hb, hc], Q.grid, Q.young, by rw [e, P.steps], e⟩

/-! ### C106 -/

/-- **C106** A free half-space cannot be built in one dimension: every otherwise admissible call fails with
`TypeError`. -/
theorem C106_free_1d_fails {a : FreeArgs} {n : ℕ} (hg : a.nbGridPts = [n]) (hn : n ≠ 0)
    (hsz : a.physicalSizes ≠ []) (he : a.engineGrid = none ∨ a.engineGrid = some [2 * n]) :
    constructFree a = .error .typeError := by
  have := initAttrs_ok (a := a.base) (dom := [2 * n]) |>.mpr
      ⟨.inl (by simp [FreeArgs.base, hg]), .inl rfl, by simpa [FreeArgs.base] using hsz,
        by simp [FreeArgs.base, hg]; omega, by simp [FreeArgs.base], by
          rcases he with he | he <;> simp [FreeArgs.base, he], rfl⟩
  unfold constructFree
  dsimp only
  rw [show a.nbGridPts.map (2 * ·) = [2 * n] by rw [hg]; rfl, this, hg]
  rfl

example : ∃ a : FreeArgs, a.nbGridPts = [4] ∧ a.physicalSizes ≠ [] ∧ constructFree a = .error .typeError :=
  ⟨⟨[4], 1, [1], none⟩, rfl, by simp, C106_free_1d_fails rfl (by simp) (by simp) (.inl rfl)⟩

/-! ### C27 -/

section
variable {s : HalfSpace} {nx ny : ℕ} [NeZero nx] [NeZero ny] {G : ZMod nx × ZMod ny → ℂ}

lemma Rep.pinv (h : Rep s nx ny G) (hA : s.areaPerPt ≠ 0) (f : NdArray ℝ) (hf : f.shape = [nx, ny]) :
    ∃ u f' u', evaluateDisp s f = .ok u ∧ evaluateForce s u = .ok f' ∧ evaluateDisp s f' = .ok u' ∧
      (∀ i j, i < nx → j < ny → u'.get [i, j] = u.get [i, j]) ∧
      ((∀ kx ky, kx ≤ nx / 2 → ky < ny → s.greens [kx, ky] ≠ 0) → (∀ k, G k ≠ 0) →
        ∀ i j, i < nx → j < ny → f'.get [i, j] = f.get [i, j]) := by
  obtain ⟨u, hu, hush, hu'⟩ := h.disp_ok hf
  obtain ⟨f', hf', hfsh, hf''⟩ := h.force_ok hush
  obtain ⟨u', hu1, -, hu1'⟩ := h.disp_ok hfsh
  have ht : (tor nx ny fun i j => u.get [i, j]) = fun p => (-(1 / s.areaPerPt)) *
      (pair2 nx ny).act G (tor nx ny fun i j => f.get [i, j]) p := by
    apply tor_self; intro i j _ _; rw [hu']; ring
  have hf3 : ∀ i j, f'.get [i, j] = (pair2 nx ny).act (fun k => (G k)⁻¹ * G k)
      (tor nx ny fun i j => f.get [i, j]) ((i : ZMod nx), (j : ZMod ny)) := by
    intro i j
    rw [hf'', ht, act_smul, (pair2 nx ny).act_act h.herm]
    field_simp
  have hH : Pairing.Herm fun k => (G k)⁻¹ * G k := fun k => by simp only [h.herm k, map_inv₀, map_mul]
  refine ⟨u, f', u', hu, hf', hu1, fun i j hi hj => ?_, fun _ hG i j hi hj => ?_⟩
  · rw [hu1', hu']
    have ht2 : (tor nx ny fun i j => f'.get [i, j]) = (pair2 nx ny).act (fun k => (G k)⁻¹ * G k)
        (tor nx ny fun i j => f.get [i, j]) := by
      apply tor_self; intro i j _ _; rw [hf3]
    rw [ht2, (pair2 nx ny).act_act hH, (pair2 nx ny).act_congr (T := G) (fun k => ?_) (fun _ => rfl)]
    by_cases h0 : G k = 0
    · simp [h0]
    · rw [← mul_assoc, mul_inv_cancel₀ h0, one_mul]
  · rw [hf3, (pair2 nx ny).act_congr (T := fun _ => 1) (fun k => inv_mul_cancel₀ (hG k)) (fun _ => rfl),
      (pair2 nx ny).act_one, tor_cast _ hi hj]

/-- If no stored entry of the half spectrum vanishes then none of the full one does. -/
lemma Rep.ne_zero (h : Rep s nx ny G) (h0 : ∀ kx ky, kx ≤ nx / 2 → ky < ny → s.greens [kx, ky] ≠ 0) (k) : G k ≠ 0 := by
  obtain ⟨kx, ky⟩ := k
  by_cases hx : kx.val ≤ nx / 2
  · have := h0 kx.val ky.val hx (ZMod.val_lt _)
    rw [h.greens _ _ hx (ZMod.val_lt _)] at this
    simpa using this
  · have hne : kx ≠ 0 := by rintro rfl; simp at hx
    have e : (-kx).val ≤ nx / 2 := by
      have := ZMod.val_lt kx
      have : NeZero kx := ⟨hne⟩
      rw [ZMod.val_neg_of_ne_zero]; omega
    have := h0 (-kx).val (-ky).val e (ZMod.val_lt _)
    rw [h.greens _ _ e (ZMod.val_lt _)] at this
    intro hG
    apply this
    have h2 := h.herm (-(kx, ky))
    rw [neg_neg, hG] at h2
    have h3 : G (-(kx, ky)) = 0 := by
      simpa using h2.symm
    simpa using h3
end

/-- **C27** Free half-spaces, padded fields: force evaluation is a generalised inverse of displacement
evaluation, and a true inverse when no Green's function entry vanishes. -/
theorem C27_free_generalised_inverse {a : FreeArgs} {s : HalfSpace} {nx ny : ℕ} (hv : ValidFree a)
    (hs : constructFree a = .ok s) (hg : a.nbGridPts = [nx, ny]) (f : NdArray ℝ) (hf : f.shape = [2 * nx, 2 * ny]) :
    ∃ u f' u', evaluateDispFree s f true = .ok u ∧ evaluateForce s u = .ok f' ∧ evaluateDispFree s f' true = .ok u' ∧
      (∀ i j, i < 2 * nx → j < 2 * ny → u'.get [i, j] = u.get [i, j]) ∧
      ((∀ kx ky, kx ≤ nx → ky < 2 * ny → s.greens [kx, ky] ≠ 0) →
        ∀ i j, i < 2 * nx → j < 2 * ny → f'.get [i, j] = f.get [i, j]) := by
  obtain ⟨_, _, P⟩ := free_of_construct hv hs hg
  obtain ⟨u, f', u', h1, h2, h3, h4, h5⟩ := P.rep.pinv P.area_pos.ne' f hf
  have hb : ∀ g : NdArray ℝ, g.shape = [2 * nx, 2 * ny] → evaluateDispFree s g true = evaluateDisp s g := by
    intro g hg
    unfold evaluateDispFree
    rw [branch_topo P, if_pos hg]
  have hfs : f'.shape = [2 * nx, 2 * ny] := by
    unfold evaluateForce at h2
    split_ifs at h2
    cases h2
    exact P.dom
  refine ⟨u, f', u', by rw [hb f hf, h1], h2, by rw [hb f' hfs, h3], h4, fun h => ?_⟩
  have h' : ∀ kx ky, kx ≤ 2 * nx / 2 → ky < 2 * ny → s.greens [kx, ky] ≠ 0 := fun kx ky hx hy => h kx ky (by omega) hy
  exact h5 h' (P.rep.ne_zero h')

/-- **C27** Periodic half-spaces. -/
theorem C27_periodic_generalised_inverse {a : Args} {s : HalfSpace} {nx ny : ℕ} (hv : ValidArgs a)
    (hs : construct a = .ok s) (hg : a.nbGridPts = [nx, ny]) (f : NdArray ℝ) (hf : f.shape = [nx, ny]) :
    ∃ u f' u', evaluateDisp s f = .ok u ∧ evaluateForce s u = .ok f' ∧ evaluateDisp s f' = .ok u' ∧
      (∀ i j, i < nx → j < ny → u'.get [i, j] = u.get [i, j]) ∧
      ((∀ kx ky, kx ≤ nx / 2 → ky < ny → s.greens [kx, ky] ≠ 0) →
        ∀ i j, i < nx → j < ny → f'.get [i, j] = f.get [i, j]) := by
  obtain ⟨_, _, P⟩ := per_of_construct hv hs hg
  have hA : s.areaPerPt ≠ 0 := by
    rw [P.area]
    have := P.sx_pos; have := P.sy_pos
    have : (0 : ℝ) < nx := by exact_mod_cast Nat.pos_of_ne_zero (NeZero.ne nx)
    have : (0 : ℝ) < ny := by exact_mod_cast Nat.pos_of_ne_zero (NeZero.ne ny)
    positivity
  obtain ⟨u, f', u', h1, h2, h3, h4, h5⟩ := P.rep.pinv hA f hf
  exact ⟨u, f', u', h1, h2, h3, h4, fun h => h5 h (P.rep.ne_zero h)⟩

end CM.HS
