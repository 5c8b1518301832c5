import Verif.Lemmas.Systems
/-!
# C48 gaps and bounds, C55 reshaping, C56 resolutions, C57 evaluate, C49-C51 objectives
-/
set_option linter.unusedSimpArgs false
namespace CM.System
open Finset CM.HS CM.FFT CM.Spec

variable {nx ny : ℕ} {S : Sys}

/-! ## C56 -/

/-- **C56** `compare_containers` on tuples and lists is equality of the contents. -/
theorem C56_compare_containers_partial (a b : PyVal) (x y : List ℚ) (ha : a = .tuple x ∨ a = .list x)
    (hb : b = .tuple y ∨ b = .list y) : compareContainers a b = .ok (decide (x = y)) := by
  have hall : ∀ x y : List ℚ, x.length = y.length → ((x.zip y).all fun p => decide (p.1 = p.2)) = decide (x = y) := by
    intro x
    induction x with
    | nil => intro y h; cases y <;> simp at *
    | cons u x ih =>
      intro y h
      cases y with
      | nil => simp at h
      | cons v y =>
        have := ih y (by simpa using h)
        rw [List.zip_cons_cons, List.all_cons, this]
        simp [Bool.decide_and]
  have hres : (if x.length ≠ y.length then (.ok false : Except PyErr Bool)
      else .ok ((x.zip y).all fun p => decide (p.1 = p.2))) = .ok (decide (x = y)) := by
    by_cases h : x.length = y.length
    · rw [if_neg (by simpa using h), hall x y h]
    · rw [if_pos h]
      have : x ≠ y := fun e => h (by rw [e])
      simp [this]
  have hfin : ∀ d : Bool, (d = false → x = y) → (if d = true then (if x.length ≠ y.length then (.ok false : Except PyErr Bool)
      else .ok ((x.zip y).all fun p => decide (p.1 = p.2))) else .ok true) = .ok (decide (x = y)) := by
    intro d hd
    cases d
    · rw [if_neg (by simp), decide_eq_true (hd rfl)]
    · rw [if_pos rfl, hres]
  rcases ha with rfl | rfl <;> rcases hb with rfl | rfl <;>
    simp only [compareContainers, differ, PyVal.items, bind, Except.bind, pure, Except.pure] <;>
    exact hfin _ (by simp)

/-- **C56** (limits) Two numbers compare by value, a number never equals a container. -/
theorem C56_compare_numbers (u v : ℚ) (y : List ℚ) :
    compareContainers (.number u) (.number v) = .ok (decide (u = v)) ∧
    compareContainers (.number u) (.tuple y) = .ok false ∧ compareContainers (.tuple y) (.number u) = .ok false := by
  refine ⟨?_, ?_, ?_⟩
  · by_cases h : u = v <;> simp [compareContainers, differ, PyVal.items, bind, Except.bind, pure, Except.pure, h]
  · simp [compareContainers, differ, PyVal.items, bind, Except.bind, pure, Except.pure]
  · simp [compareContainers, differ, PyVal.items, bind, Except.bind, pure, Except.pure]

/-- **C56** (refuted for arrays) A NumPy vector of two or more entries is not compared at all, not even
with itself: the truth value of `!=` raises `ValueError`. -/
theorem C56_vectors_raise (u v : ℚ) (l m : List ℚ) :
    compareContainers (.vector (u :: v :: l)) (.tuple m) = .error .valueError ∧
    compareContainers (.vector (u :: v :: l)) (.vector (u :: v :: l)) = .error .valueError := by
  constructor <;> simp [compareContainers, differ, bind, Except.bind]

/-- **C56** Constructing a system raises `IncompatibleResolutionError` exactly when the grids of
substrate and topography differ; otherwise it succeeds with the given parts. -/
theorem C56_incompatible_resolution_iff (sub : Substrate) (h : NdArray ℝ) :
    (mkSystem sub h = .error .incompatibleResolution ↔ h.shape ≠ sub.hs.nbGridPts) ∧
    (h.shape = sub.hs.nbGridPts → ∃ S, mkSystem sub h = .ok S ∧ S.sub = sub ∧ S.heights = h ∧
      S.disp = none ∧ S.force = none ∧ S.contactZone = none ∧ S.subForce = none) := by
  have hinj : ∀ x y : List ℕ, x.map (Nat.cast : ℕ → ℚ) = y.map (Nat.cast : ℕ → ℚ) ↔ x = y := by
    intro x y
    constructor
    · intro h
      exact (List.map_injective_iff.mpr Nat.cast_injective) h
    · rintro rfl; rfl
  have hc := C56_compare_containers_partial (tupleOf h.shape) (tupleOf sub.hs.nbGridPts) _ _ (.inl rfl) (.inl rfl)
  unfold mkSystem
  rw [hc]
  by_cases e : h.shape = sub.hs.nbGridPts
  · simp [hinj, e, bind, Except.bind, pure, Except.pure]
  · simp [hinj, e, bind, Except.bind, pure, Except.pure, throw, throwThe, MonadExceptOf.throw]

/-! ## C55 -/

/-- **C55** Feeding an array to a minimiser and shaping its output back loses nothing; any other number
of entries raises `IncompatibleResolutionError`. -/
theorem C55_reshape_lossless (S : Sys) (a : NdArray ℝ) :
    (a.size = S.sub.hs.domain.prod → ∃ b c, shapeMinimisationInput S a = .ok b ∧ b.shape = [S.sub.hs.domain.prod] ∧
      (∀ k < a.size, b.get [k] = a.flat k) ∧
      shapeMinimisationOutput S b = .ok c ∧ c.shape = S.sub.hs.domain ∧ (∀ k < a.size, c.flat k = a.flat k) ∧
      (a.shape = S.sub.hs.domain → ∀ x, validIndex a.shape x → c.get x = a.get x)) ∧
    (a.size ≠ S.sub.hs.domain.prod → shapeMinimisationInput S a = .error .incompatibleResolution ∧
      shapeMinimisationOutput S a = .error .incompatibleResolution) := by
  constructor
  · intro h
    have hb : (ravel a).size = S.sub.hs.domain.prod := by simp [ravel, NdArray.size] at *; exact h
    obtain ⟨c, hc, hcs, hcf⟩ := reshape_ok (ravel a) hb
    refine ⟨ravel a, c, ?_, ?_, fun k _ => rfl, ?_, hcs, fun k hk => ?_, fun hsh x hx => ?_⟩
    · rw [shapeMinimisationInput, if_pos h.symm]
    · simp [ravel, h]
    · rw [shapeMinimisationOutput, if_pos hb.symm, hc]
    · rw [hcf k (by rw [← h]; exact hk), ravel_flat]
    · have hx' : validIndex S.sub.hs.domain x := hsh ▸ hx
      rw [← flat_flatIndex hcs hx', hcf _ (flatIndex_lt hx'), ravel_flat, flat_flatIndex hsh hx']
  · intro h
    exact ⟨by rw [shapeMinimisationInput, if_neg (Ne.symm h)], by rw [shapeMinimisationOutput, if_neg (Ne.symm h)]⟩

/-! ## C48 -/

lemma inSlice_iff {ns x : List ℕ} : inSlice ns x = true ↔ validIndex ns x := by
  unfold inSlice validIndex
  induction x generalizing ns with
  | nil => cases ns <;> simp
  | cons i x ih =>
    cases ns with
    | nil => simp
    | cons n ns =>
      have := ih (ns := ns)
      simp only [List.length_cons, List.zip_cons_cons, List.all_cons, List.forall₂_cons, ← this]
      simp only [Bool.and_eq_true, beq_iff_eq, decide_eq_true_eq, Nat.add_right_cancel_iff]
      tauto

/-- **C48** The gap is displacement minus heights minus offset, on the topography grid, for a
displacement field that covers it. -/
theorem C48_gap (S : Sys) (hS : S.heights.shape = S.sub.topo) (disp : NdArray ℝ)
    (hd : List.Forall₂ (· ≤ ·) S.sub.topo disp.shape) (off : ℝ) :
    ∃ g, computeGap S disp off = .ok g ∧ g.shape = S.sub.topo ∧
      ∀ x, validIndex S.sub.topo x → g.get x = disp.get x - S.heights.get x - off := by
  unfold computeGap
  rw [sliceTo_le hd]
  simp only [bind, Except.bind]
  obtain ⟨g, hg, hs, hv⟩ := binop_same (· - ·) (a := ⟨S.sub.topo, disp.get⟩) (b := S.heights.map (· + off)) (s := S.sub.topo)
    rfl hS
  refine ⟨g, hg, hs, fun x hx => ?_⟩
  rw [hv x hx]
  simp only [NdArray.map]
  ring

/-- **C48** The lower bounds for bound-constrained minimisers admit a displacement field exactly when
no gap is negative: points outside the topography (padding) are unconstrained, and there are no upper
bounds. -/
theorem C48_lower_bounds (S : Sys) (hS : S.heights.shape = S.sub.topo)
    (hdom : List.Forall₂ (· ≤ ·) S.sub.topo S.sub.hs.domain) (disp : NdArray ℝ) (hd : disp.shape = S.sub.hs.domain)
    (off : ℝ) :
    ∃ b lb g, reshapeBounds (some (lboundsFromHeights S off)) none = some b ∧ b.lb = some lb ∧ b.ub = none ∧
      lb.shape = [S.sub.hs.domain.prod] ∧ computeGap S disp off = .ok g ∧
      ((∀ k < S.sub.hs.domain.prod, lb.get [k] ≤ ((ravel disp).get [k] : EReal)) ↔
        ∀ x, validIndex S.sub.topo x → 0 ≤ g.get x) := by
  obtain ⟨g, hg, -, hgv⟩ := C48_gap S hS disp (hd ▸ hdom) off
  refine ⟨_, _, g, rfl, rfl, rfl, rfl, hg, ?_⟩
  have hsub : ∀ x, validIndex S.sub.topo x → validIndex S.sub.hs.domain x := by
    intro x hx
    unfold validIndex at *
    generalize S.sub.topo = t at *
    generalize S.sub.hs.domain = d at *
    clear hgv hS hd
    induction hx generalizing d with
    | nil => cases hdom; exact .nil
    | cons h _ ih =>
      cases hdom with
      | cons h' hr => exact .cons (by omega) (ih _ hr)
  have hval : ∀ k, k < S.sub.hs.domain.prod →
      ((lboundsFromHeights S off).filled ⊥).get [k] =
        if inSlice S.sub.topo (unflatIndex S.sub.hs.domain k) then
          ((S.heights.get (unflatIndex S.sub.hs.domain k) + off : ℝ) : EReal) else ⊥ := by
    intro k _
    simp only [Masked.filled, ravel, NdArray.flat, lboundsFromHeights]
    by_cases h : inSlice S.sub.topo (unflatIndex S.sub.hs.domain k) = true <;> simp [h]
  have hdisp : ∀ k, (ravel disp).get [k] = disp.get (unflatIndex S.sub.hs.domain k) := by
    intro k; simp [ravel, NdArray.flat, hd]
  constructor
  · intro h x hx
    have hx' := hsub x hx
    have := h (flatIndex S.sub.hs.domain x) (flatIndex_lt hx')
    rw [hval _ (flatIndex_lt hx'), hdisp, unflat_flat hx', if_pos (inSlice_iff.mpr hx), EReal.coe_le_coe_iff] at this
    rw [hgv x hx]; linarith
  · intro h k hk
    rw [hval k hk, hdisp]
    split
    · rename_i hin
      have := h _ (inSlice_iff.mp hin)
      rw [hgv _ (inSlice_iff.mp hin)] at this
      rw [EReal.coe_le_coe_iff]; linarith
    · exact bot_le

/-- The hypotheses of C48 hold for every system on either kind of half-space. -/
theorem C48_applies (h : System2 S nx ny) : S.heights.shape = S.sub.topo ∧
    List.Forall₂ (· ≤ ·) S.sub.topo S.sub.hs.domain := by
  rw [topo_eq h]
  refine ⟨heights_eq h, ?_⟩
  rcases h with ⟨a, h⟩ | ⟨a, h⟩
  · rw [(per_grid h).2.1]; exact .cons le_rfl (.cons le_rfl .nil)
  · rw [(free_grid h).2.1]; exact .cons (by omega) (.cons (by omega) .nil)

/-! ## C57 -/

/-- **C57** `evaluate` returns the energy iff asked, the force iff asked, and stores what it returns --
in the system and in the substrate -- together with the gap. -/
theorem C57_evaluate_stores {S' : Sys} {disp : NdArray ℝ} {off : ℝ} {pot forces : Bool} {e : Option ℝ}
    {f : Option (NdArray ℝ)} (h : evaluate S disp off pot forces = (.ok (e, f), S')) :
    (e.isSome = pot ∧ f.isSome = forces) ∧ S'.energy = e ∧ S'.force = f ∧ S'.subEnergy = e ∧ S'.subForce = f ∧
    (∃ g, computeGap S disp off = .ok g ∧ S'.gap = some g) ∧ HS.evaluate S.sub.hs disp pot forces = .ok (e, f) ∧
    S'.sub = S.sub ∧ S'.heights = S.heights := by
  unfold evaluate at h
  split at h
  · simp at h
  · rename_i g hg
    split at h
    · simp at h
    · rename_i en f' hev
      have hflag : en.isSome = pot ∧ f'.isSome = forces := by
        unfold HS.evaluate at hev
        cases forces <;> cases pot <;> simp only [if_true, if_false, Bool.false_eq_true] at hev
        · cases hev; simp
        · split at hev
          · cases hev; simp
          · cases hev
        · cases hf : evaluateForce S.sub.hs disp with
          | error => simp [hf, bind, Except.bind] at hev
          | ok v => simp [hf, bind, Except.bind, pure, Except.pure] at hev; rw [← hev.1, ← hev.2]; simp
        · cases hf : evaluateForce S.sub.hs disp with
          | error => simp [hf, bind, Except.bind] at hev
          | ok v => simp [hf, bind, Except.bind, pure, Except.pure] at hev; rw [← hev.1, ← hev.2]; simp
      have h1 : (if pot = true then en else none) = en := by
        cases pot
        · cases en <;> simp at hflag ⊢
        · rfl
      have h2 : (if forces = true then f' else none) = f' := by
        cases forces
        · cases f' <;> simp at hflag ⊢
        · rfl
      simp only [h1, h2, Prod.mk.injEq, Except.ok.injEq] at h
      obtain ⟨⟨rfl, rfl⟩, rfl⟩ := h
      exact ⟨hflag, rfl, rfl, rfl, rfl, ⟨g, hg, rfl⟩, hev, rfl, rfl⟩

/-- **C57** What `evaluate` returns -- result or exception -- does not depend on the history: two states
of a system with the same substrate and topography give the same outcome. -/
theorem C57_history_independent (S S' : Sys) (h1 : S'.sub = S.sub) (h2 : S'.heights = S.heights)
    (disp : NdArray ℝ) (off : ℝ) (pot forces : Bool) :
    (evaluate S' disp off pot forces).1 = (evaluate S disp off pot forces).1 := by
  have hg : computeGap S' disp off = computeGap S disp off := by unfold computeGap; rw [h1, h2]
  unfold evaluate
  rw [hg, h1]
  split
  · rfl
  · dsimp only
    split <;> rfl

/-! ## C49 -/

lemma evaluate_periodic {a : Args} (h : PeriodicSystem S a nx ny) {u f : NdArray ℝ} (hu : u.shape = [nx, ny])
    (hf : evaluateForce S.sub.hs u = .ok f) (off : ℝ) :
    ∃ S', evaluate S u off true true = (.ok (some (-(1 / 2) * work nx ny f u), some f), S') ∧
      S'.energy = some (-(1 / 2) * work nx ny f u) ∧ S'.force = some f ∧ S'.subForce = some f := by
  obtain ⟨h1, h2⟩ := C48_applies (.inl ⟨a, h⟩)
  obtain ⟨g, hg, -⟩ := C48_gap S h1 u (by rw [hu, ← (per_grid h).2.1]; exact h2) off
  unfold evaluate
  rw [hg]
  simp only [evaluate_true h hf, if_true]
  exact ⟨_, rfl, rfl, rfl, rfl⟩

/-- The value of the primal objective in terms of the displacement field. -/
lemma primalObjective_eq {a : Args} (h : PeriodicSystem S a nx ny) (off : ℝ) (g : NdArray ℝ) (hg : g.size = nx * ny) :
    ∃ u f G S', u.shape = [nx, ny] ∧ (∀ k < nx * ny, u.flat k = g.flat k + S.heights.flat k + off) ∧
      evaluateForce S.sub.hs u = .ok f ∧ f.shape = [nx, ny] ∧ G.shape = [nx * ny] ∧ (∀ k, G.flat k = -(f.flat k)) ∧
      primalObjective S off g = (.ok (some (-(1 / 2) * work nx ny f u), G), S') ∧ S'.force = some f ∧ S'.subForce = some f := by
  obtain ⟨hgr, hdom, -, -⟩ := per_grid h
  obtain ⟨g', hr, hgs, hgf⟩ := reshape_ok g (s := [nx, ny]) (by simp [hg])
  obtain ⟨c, hb, hcs, hcv⟩ := binop_same (· + ·) hgs h.heights
  obtain ⟨u, hu, hus, huf⟩ := reshape_ok (c.map (· + off)) (s := [nx, ny]) (by simp [NdArray.size, NdArray.map, hcs])
  obtain ⟨f, hf, hfs⟩ := (symOp_force h).ok u hus
  obtain ⟨S', hS', he, hfo, hsf⟩ := evaluate_periodic h hus hf off
  refine ⟨u, f, (ravel f).map fun x => -x, S', hus, fun k hk => ?_, hf, hfs, by simp [ravel, NdArray.map, NdArray.size, hfs],
    fun k => ?_, ?_, hfo, hsf⟩
  · have hk' : k < [nx, ny].prod := by simpa using hk
    have hv := validIndex_unflat hk'
    rw [huf k hk']
    have : (c.map (· + off)).flat k = c.flat k + off := rfl
    rw [this]
    rw [← hgf k hk']
    unfold NdArray.flat
    rw [hcs, hgs, h.heights, hcv _ hv]
  · have : ((ravel f).map fun x => -x).flat k = -((ravel f).flat k) := rfl
    rw [this, ravel_flat]
  · unfold primalObjective
    simp only [hdom, hr, hb, hu, bind, Except.bind]
    rw [hS']
    simp only [negForce, he, hfo]

/-- **C49** The primal objective is `(E(u), -F(u))` at the displacement `u = gap + heights + offset`, where
`E` and `F` are energy and force of the substrate at `u`.  (The input may have any shape with the right
number of entries; the gradient is flat.) -/
theorem C49_primal_value {a : Args} (h : PeriodicSystem S a nx ny) (off : ℝ) (g : NdArray ℝ) (hg : g.size = nx * ny) (u : NdArray ℝ)
    (hu : u.shape = [nx, ny]) (hug : ∀ k < nx * ny, u.flat k = g.flat k + S.heights.flat k + off) :
    ∃ E F G S', HS.evaluate S.sub.hs u true true = .ok (some E, some F) ∧
      primalObjective S off g = (.ok (some E, G), S') ∧ G.shape = [nx * ny] ∧
      ∀ k < nx * ny, G.flat k = -(F.flat k) := by
  obtain ⟨u', f', G, S', h1, h2, h3, h4, h5, h6, h7, -, -⟩ := primalObjective_eq h off g hg
  obtain ⟨f, hf, hfs⟩ := (symOp_force h).ok u hu
  have huu : ∀ i j, i < nx → j < ny → u.get [i, j] = u'.get [i, j] := by
    intro i j hi hj
    rw [← flat_get hu hi hj, ← flat_get h1 hi hj, hug _ (flat_lt hi hj), h2 _ (flat_lt hi hj)]
  have hff := (symOp_force h).congr hu h1 huu hf h3
  refine ⟨_, f, G, S', evaluate_true h hf, ?_, h5, fun k hk => ?_⟩
  · rw [h7, work_congr hff huu]
  · obtain ⟨i, j, hi, hj, rfl, e⟩ := get_of_flat hfs hk
    rw [h6, e, hff i j hi hj, flat_get h4 hi hj]

/-- **C49** Gradient and Hessian product of the primal objective are exact: for every gap `g` and change
`v`, `E(g+v) = E(g) + G·v + ½ v·Hv` and `G(g+v) = G(g) + Hv`. -/
theorem C49_primal_expansion {a : Args} (h : PeriodicSystem S a nx ny) (off : ℝ) (g v w : NdArray ℝ) (hg : g.size = nx * ny)
    (hv : v.size = nx * ny) (hw : w.size = nx * ny) (hsum : ∀ k < nx * ny, w.flat k = g.flat k + v.flat k) :
    ∃ E E' G G' H S1 S2, primalObjective S off g = (.ok (some E, G), S1) ∧
      primalObjective S off w = (.ok (some E', G'), S2) ∧ primalHessianProduct S v = .ok H ∧ H.shape = v.shape ∧
      E' = E + flatDot (nx * ny) G v + 1 / 2 * flatDot (nx * ny) H v ∧
      ∀ k < nx * ny, G'.flat k = G.flat k + H.flat k := by
  obtain ⟨u, f, G, S1, h1, h2, h3, h4, h5, h6, h7, -, -⟩ := primalObjective_eq h off g hg
  obtain ⟨u', f', G', S2, h1', h2', h3', h4', h5', h6', h7', -, -⟩ := primalObjective_eq h off w hw
  obtain ⟨v', hr, hvs, hvf⟩ := reshape_ok v (s := [nx, ny]) (by simp [hv])
  obtain ⟨fv, hfv, hfvs⟩ := (symOp_force h).ok v' hvs
  obtain ⟨r, hrr, hrs, hrf⟩ := reshape_ok fv (s := v.shape) (by simp [NdArray.size, hfvs] at hv ⊢; exact hv.symm)
  have hH : primalHessianProduct S v = .ok (r.map fun x => -x) := by
    unfold primalHessianProduct
    simp only [(per_grid h).2.1, hr, hfv, hrr, bind, Except.bind, pure, Except.pure]
  have hvp : v.shape.prod = nx * ny := hv
  have hHf : ∀ k < nx * ny, (r.map fun x => -x).flat k = -(fv.flat k) := by
    intro k hk
    have : (r.map fun x => -x).flat k = -(r.flat k) := rfl
    rw [this, hrf k (by rw [hvp]; exact hk)]
  have hvf' : ∀ k < nx * ny, v'.flat k = v.flat k := fun k hk => hvf k (by simpa using hk)
  have huv : ∀ i j, i < nx → j < ny → u'.get [i, j] = 1 * u.get [i, j] + 1 * v'.get [i, j] := by
    intro i j hi hj
    have hk := flat_lt hi hj
    rw [← flat_get h1 hi hj, ← flat_get h1' hi hj, ← flat_get hvs hi hj, h2 _ hk, h2' _ hk, hsum _ hk, hvf' _ hk]
    ring
  have hq := (symOp_force h).quad 1 1 h1 hvs h1' huv h3 hfv h3'
  have hl := (symOp_force h).lin 1 1 u v' u' h1 hvs h1' huv f fv f' h3 hfv h3'
  refine ⟨_, _, G, G', _, S1, S2, h7, h7', hH, hrs, ?_, fun k hk => ?_⟩
  · have e1 : flatDot (nx * ny) G v = -(work nx ny f v') := by
      rw [show flatDot (nx * ny) G v = -(flatDot (nx * ny) f v) by
        unfold flatDot; rw [← sum_neg_distrib]; exact sum_congr rfl fun k _ => by rw [h6]; ring]
      rw [flatDot_work h4 hvs (fun k _ => rfl) fun k hk => (hvf' k hk).symm]
    have e2 : flatDot (nx * ny) (r.map fun x => -x) v = -(work nx ny fv v') := by
      rw [show flatDot (nx * ny) (r.map fun x => -x) v = -(flatDot (nx * ny) fv v) by
        unfold flatDot; rw [← sum_neg_distrib]
        exact sum_congr rfl fun k hk => by rw [hHf k (mem_range.mp hk)]; ring]
      rw [flatDot_work hfvs hvs (fun k _ => rfl) fun k hk => (hvf' k hk).symm]
    rw [e1, e2, hq]
    ring
  · rw [h6, h6', hHf k hk]
    obtain ⟨i, j, hi, hj, rfl, e⟩ := get_of_flat h4' hk
    rw [e, hl i j hi hj, flat_get h4 hi hj, flat_get hfvs hi hj]
    ring

/-! ## C50 -/

/-- The value of the dual objective. -/
lemma dualObjective_eq (h : System2 S nx ny) (off : ℝ) (p : NdArray ℝ) (hp : p.size = nx * ny) :
    ∃ p' n u G S', p'.shape = [nx, ny] ∧ (∀ k < nx * ny, p'.flat k = p.flat k) ∧ n.shape = [nx, ny] ∧
      (∀ x, n.get x = -(p'.get x)) ∧ S.sub.evaluateDisp n = .ok u ∧ u.shape = [nx, ny] ∧ G.shape = [nx * ny] ∧
      (∀ k < nx * ny, G.flat k = u.flat k - S.heights.flat k - off) ∧
      dualObjective S off p = (.ok (some (1 / 2 * work nx ny p' u -
        ∑ k ∈ range (nx * ny), p.flat k * (S.heights.flat k + off)), G), S') ∧ S'.subForce = some n := by
  have ht := topo_eq h
  have hh := heights_eq h
  obtain ⟨p', hr, hps, hpf⟩ := reshape_ok p (s := [nx, ny]) (by simp [hp])
  obtain ⟨u, hu, hus⟩ := (symOp_disp h).ok (p'.map fun x => -x) hps
  obtain ⟨d, hd, hds, hdv⟩ := binop_same (· - ·) hus hh
  obtain ⟨fd, hfd, hfds, hfdv⟩ := binop_same (· * ·) hps hus
  obtain ⟨fh, hfh, hfhs, hfhv⟩ := binop_same (· * ·) (b := S.heights.map (· + off)) hps hh
  have hpf' : ∀ k < nx * ny, p'.flat k = p.flat k := fun k hk => hpf k (by simpa using hk)
  have hsum1 : fd.sum = work nx ny p' u := by
    rw [NdArray.sum, hfds, sumShape_congr hfdv]
    rfl
  have hsum2 : fh.sum = ∑ k ∈ range (nx * ny), p.flat k * (S.heights.flat k + off) := by
    rw [NdArray.sum, hfhs, sumShape_congr hfhv, sumShape_flat]
    simp only [List.prod_cons, List.prod_nil, mul_one]
    refine sum_congr rfl fun k hk => ?_
    rw [← hpf' k (mem_range.mp hk)]
    simp only [NdArray.map, NdArray.flat, hps, hh]
  refine ⟨p', p'.map fun x => -x, u, ravel (d.map (· - off)), (dualObjective S off p).2,
    hps, hpf', hps, fun x => rfl, hu, hus, by simp [ravel, NdArray.map, NdArray.size, hds], fun k hk => ?_, ?_, ?_⟩
  · rw [ravel_flat]
    have : (d.map (· - off)).flat k = d.flat k - off := rfl
    rw [this]
    unfold NdArray.flat
    rw [hds, hus, hh, hdv _ (validIndex_unflat (by simpa using hk))]
  · unfold dualObjective
    rw [ht, hr]
    simp only [evaluateDual, hu, hd, hfd, hfh, bind, Except.bind, pure, Except.pure, hsum1, hsum2]
  · unfold dualObjective
    rw [ht, hr]
    simp only [evaluateDual, hu, hd, hfd, hfh, bind, Except.bind, pure, Except.pure]

/-- **C50** The dual objective is `½ p·u(p) - p·(h+offset)` and its gradient is the gap `u(p) - h - offset`,
`u(p)` being the displacement under the compressive forces `p`; periodic and free substrates. -/
theorem C50_dual_value (h : System2 S nx ny) (off : ℝ) (p : NdArray ℝ) (hp : p.size = nx * ny) (n : NdArray ℝ)
    (hn : n.shape = [nx, ny]) (hnp : ∀ k < nx * ny, n.flat k = -(p.flat k)) :
    ∃ u q G S', S.sub.evaluateDisp n = .ok u ∧ dualObjective S off p = (.ok (some q, G), S') ∧
      G.shape = [nx * ny] ∧ (∀ k < nx * ny, G.flat k = u.flat k - S.heights.flat k - off) ∧
      q = ∑ k ∈ range (nx * ny), (1 / 2 * (p.flat k * u.flat k) - p.flat k * (S.heights.flat k + off)) := by
  obtain ⟨p', n', u, G, S', h1, h2, h3, h4, h5, h6, h7, h8, h9, -⟩ := dualObjective_eq h off p hp
  obtain ⟨w, hw, hws⟩ := (symOp_disp h).ok n hn
  have hnn : ∀ i j, i < nx → j < ny → n.get [i, j] = n'.get [i, j] := by
    intro i j hi hj
    rw [← flat_get hn hi hj, hnp _ (flat_lt hi hj), h4, ← flat_get h1 hi hj, h2 _ (flat_lt hi hj)]
  have huw := (symOp_disp h).congr hn h3 hnn hw h5
  have huw' : ∀ k < nx * ny, w.flat k = u.flat k := by
    intro k hk
    obtain ⟨i, j, hi, hj, rfl, e⟩ := get_of_flat hws hk
    rw [e, huw i j hi hj, flat_get h6 hi hj]
  refine ⟨w, _, G, S', hw, h9, h7, fun k hk => by rw [h8 k hk, huw' k hk], ?_⟩
  rw [← flatDot_work h1 h6 (fun k hk => (h2 k hk).symm) huw', flatDot, mul_sum, ← sum_sub_distrib]

/-- **C50** Gradient and Hessian product of the dual objective are exact. -/
theorem C50_dual_expansion (h : System2 S nx ny) (off : ℝ) (p v w : NdArray ℝ) (hp : p.size = nx * ny)
    (hv : v.size = nx * ny) (hw : w.size = nx * ny) (hsum : ∀ k < nx * ny, w.flat k = p.flat k + v.flat k) :
    ∃ E E' G G' H S1 S2, dualObjective S off p = (.ok (some E, G), S1) ∧
      dualObjective S off w = (.ok (some E', G'), S2) ∧ dualHessianProduct S v = .ok H ∧ H.shape = v.shape ∧
      E' = E + flatDot (nx * ny) G v + 1 / 2 * flatDot (nx * ny) H v ∧
      ∀ k < nx * ny, G'.flat k = G.flat k + H.flat k := by
  obtain ⟨p', n, u, G, S1, h1, h2, h3, h4, h5, h6, h7, h8, h9, -⟩ := dualObjective_eq h off p hp
  obtain ⟨w', n', u', G', S2, h1', h2', h3', h4', h5', h6', h7', h8', h9', -⟩ := dualObjective_eq h off w hw
  obtain ⟨v', hr, hvs, hvf⟩ := reshape_ok v (s := [nx, ny]) (by simp [hv])
  obtain ⟨uv, huv, huvs⟩ := (symOp_disp h).ok (v'.map fun x => -x) hvs
  have hvp : v.shape.prod = nx * ny := hv
  obtain ⟨H, hH, hHs, hHf⟩ := reshape_ok uv (s := v.shape) (by simp [NdArray.size, huvs, hvp])
  have hHe : dualHessianProduct S v = .ok H := by
    unfold dualHessianProduct
    simp only [topo_eq h, hr, huv, hH, bind, Except.bind]
  have hHf' : ∀ k < nx * ny, H.flat k = uv.flat k := fun k hk => hHf k (by rw [hvp]; exact hk)
  have hvf' : ∀ k < nx * ny, v'.flat k = v.flat k := fun k hk => hvf k (by simpa using hk)
  have hpw : ∀ i j, i < nx → j < ny → w'.get [i, j] = 1 * p'.get [i, j] + 1 * v'.get [i, j] := by
    intro i j hi hj
    have hk := flat_lt hi hj
    rw [← flat_get h1 hi hj, ← flat_get h1' hi hj, ← flat_get hvs hi hj, h2 _ hk, h2' _ hk, hsum _ hk, hvf' _ hk]
    ring
  have hnw : ∀ i j, i < nx → j < ny → n'.get [i, j] = 1 * n.get [i, j] + 1 * (v'.map fun x => -x).get [i, j] := by
    intro i j hi hj
    rw [h4, h4', hpw i j hi hj]; simp only [NdArray.map]; ring
  have hq := (symOp_disp h).quad 1 1 (v := v'.map fun x => -x) h3 hvs h3' hnw h5 huv h5'
  have hl := (symOp_disp h).lin 1 1 n (v'.map fun x => -x) n' h3 hvs h3' hnw u uv u' h5 huv h5'
  have neg : ∀ (x y b : NdArray ℝ), (∀ i j, i < nx → j < ny → y.get [i, j] = -(x.get [i, j])) →
      work nx ny b y = -(work nx ny x b) := by
    intro x y b hxy
    unfold work
    rw [← sum_neg_distrib]
    refine sum_congr rfl fun i hi => ?_
    rw [← sum_neg_distrib]
    refine sum_congr rfl fun j hj => ?_
    rw [hxy i j (mem_range.mp hi) (mem_range.mp hj)]; ring
  have hnp : ∀ i j, i < nx → j < ny → n.get [i, j] = -(p'.get [i, j]) := fun i j _ _ => h4 _
  have hnp' : ∀ i j, i < nx → j < ny → n'.get [i, j] = -(w'.get [i, j]) := fun i j _ _ => h4' _
  have hnv : ∀ i j, i < nx → j < ny → (v'.map fun x => -x).get [i, j] = -(v'.get [i, j]) := fun i j _ _ => rfl
  refine ⟨_, _, G, G', H, S1, S2, h9, h9', hHe, hHs, ?_, fun k hk => ?_⟩
  · have e1 : flatDot (nx * ny) G v = work nx ny u v' - ∑ k ∈ range (nx * ny), v.flat k * (S.heights.flat k + off) := by
      rw [← flatDot_work h6 hvs (fun k _ => rfl) fun k hk => (hvf' k hk).symm]
      unfold flatDot
      rw [← sum_sub_distrib]
      refine sum_congr rfl fun k hk => ?_
      rw [h8 k (mem_range.mp hk)]; ring
    have e2 : flatDot (nx * ny) H v = work nx ny uv v' :=
      flatDot_work huvs hvs hHf' fun k hk => (hvf' k hk).symm
    have e3 : ∑ k ∈ range (nx * ny), w.flat k * (S.heights.flat k + off) =
        ∑ k ∈ range (nx * ny), p.flat k * (S.heights.flat k + off) + ∑ k ∈ range (nx * ny), v.flat k * (S.heights.flat k + off) := by
      rw [← sum_add_distrib]
      refine sum_congr rfl fun k hk => ?_
      rw [hsum k (mem_range.mp hk)]; ring
    rw [neg w' n' u' hnp', neg p' n u hnp, neg v' _ u hnv, neg v' _ uv hnv] at hq
    rw [e1, e2, e3, work_comm u v', work_comm uv v']
    linarith
  · rw [h8 k hk, h8' k hk, hHf' k hk]
    obtain ⟨i, j, hi, hj, rfl, e⟩ := get_of_flat h6' hk
    rw [e, hl i j hi hj, flat_get h6 hi hj, flat_get huvs hi hj]
    ring

end CM.System
