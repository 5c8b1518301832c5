import Verif.Props.Symmetry
import Verif.Props.CCG8
import Verif.Props.Factory
/-!
# C152, C153 moving a surface: the package's own solver
-/
set_option linter.unusedSimpArgs false
set_option linter.unusedSectionVars false
namespace CM.Pipe
open Finset CM.HS CM.FFT CM.System CM.Spec CM.Fourier

variable {nx ny nx' ny' : ℕ} {sx sy sx' sy' : ℝ} {σ : ℕ × ℕ → ℕ × ℕ} {c : ℝ} {d0 d1 d0' d1' : ℕ} {kw : OptimizerKwargs}

/-! ## Moving a solution -/

/-- Two substrates, the second on the renumbered grid `e` (new point to old point). -/
structure Moves (σ : ℕ × ℕ → ℕ × ℕ) (nx ny nx' ny' : ℕ) (sub sub' : Substrate) {d0 d1 d0' d1' : ℕ}
    (e : Fin d0' × Fin d1' ≃ Fin d0 × Fin d1) : Prop where
  grid : Grid sub nx ny d0 d1
  grid' : Grid sub' nx' ny' d0' d1'
  place : ∀ i < nx, ∀ j < ny, ∀ p : Fin d0' × Fin d1', (p.1.val, p.2.val) = σ (i, j) → ((e p).1.val, (e p).2.val) = (i, j)
  disp : ∀ f, onGrid sub'.evaluateDisp d0' d1' (fun i => f (e i)) = fun i => onGrid sub.evaluateDisp d0 d1 f (e i)
  force : ∀ f, onGrid (HS.evaluateForce sub'.hs) d0' d1' (fun i => f (e i)) = fun i => onGrid (HS.evaluateForce sub.hs) d0 d1 f (e i)

section
variable {sub sub' : Substrate} {e : Fin d0' × Fin d1' ≃ Fin d0 × Fin d1}

lemma Moves.inside (M : Moves σ nx ny nx' ny' sub sub' e) (ren : Renumbers σ nx ny nx' ny') (p : Fin d0' × Fin d1') :
    (p.1.val < nx' ∧ p.2.val < ny') ↔ ((e p).1.val < nx ∧ (e p).2.val < ny) := by
  constructor
  · rintro ⟨h1, h2⟩
    obtain ⟨i, hi, j, hj, h⟩ := ren.surj _ h1 _ h2
    have := M.place i hi j hj p h.symm
    rw [Prod.mk.injEq] at this
    rw [this.1, this.2]
    exact ⟨hi, hj⟩
  · rintro ⟨h1, h2⟩
    obtain ⟨b1, b2⟩ := ren.maps _ h1 _ h2
    have := M.place _ h1 _ h2 (⟨_, lt_of_lt_of_le b1 M.grid'.lex⟩, ⟨_, lt_of_lt_of_le b2 M.grid'.ley⟩) rfl
    have e1 : e (⟨_, lt_of_lt_of_le b1 M.grid'.lex⟩, ⟨_, lt_of_lt_of_le b2 M.grid'.ley⟩) = e p := by
      rw [Prod.mk.injEq] at this
      exact Prod.ext (Fin.ext this.1) (Fin.ext this.2)
    have e2 := e.injective e1
    rw [← e2]
    exact ⟨b1, b2⟩

lemma fieldArray_bool {d0 d1 : ℕ} (f : Fin d0 × Fin d1 → Bool) {i j : ℕ} (hi : i < d0) (hj : j < d1) :
    (fieldArray d0 d1 f).get [i, j] = f (⟨i, hi⟩, ⟨j, hj⟩) := by
  simp [fieldArray, hi, hj]

/-- The solver on the moved surface returns the moved result. -/
lemma Moves.agree (M : Moves σ nx ny nx' ny' sub sub' e) (ren : Renumbers σ nx ny nx' ny') (rms rms' : NdArray ℝ → ℝ) (bisect : Bisect) :
    SolversAgree σ 0 nx ny nx' ny' (ccgSolver sub rms bisect kw) (ccgSolver sub' rms' bisect kw) := by
  intro q q' hq
  have hin : ∀ p : Fin d0' × Fin d1', (decide (p.1.val < nx') && decide (p.2.val < ny')) = (decide ((e p).1.val < nx) && decide ((e p).2.val < ny)) := by
    intro p
    rw [← Bool.decide_and, ← Bool.decide_and]
    exact decide_eq_decide.2 (M.inside ren p)
  set P := ccgProblem sub rms d0 d1 nx ny q.heights with hP
  set P' := ccgProblem sub' rms' d0' d1' nx' ny' q'.heights with hP'
  obtain ⟨pt, hpt⟩ := Option.ne_none_iff_exists'.1 hq.tolerance
  have hsim : CCG.Similar e 1 1 P { CCG.withHeights P' (fun p => P.h (e p)) with rmsHeight := P.rmsHeight, meanGrid := P.meanGrid } := by
    refine ⟨fun f => ?_, fun f => ?_, fun p => ?_, fun p => ?_, fun p => (one_mul _).symm, ?_, (one_mul _).symm, rfl⟩
    · simp only [one_mul]; exact M.disp f
    · simp only [one_mul]; exact M.force f
    · exact hin p
    · exact hin p
    · show ((nx' * ny' : ℕ) : ℝ) = (nx * ny : ℕ)
      rw [ren.card]
  have hopt : CCG.SimilarOpt e 1 1 (ccgOptions bisect kw _ q) (ccgOptions bisect kw (Fin d0' × Fin d1') q') := by
    refine ⟨?_, ?_, ?_, rfl, rfl, ?_, (one_mul _).symm, rfl, rfl, rfl, rfl, ?_, fun f a b => ?_⟩
    · simp only [ccgOptions, hq.hardness]
      cases q.hardness <;> simp [CCG.Hardness.scaled]
    · simp only [ccgOptions, hq.externalForce]; cases q.externalForce <;> simp
    · simp only [ccgOptions, hq.offset]; cases q.offset <;> simp
    · simp only [ccgOptions, hq.pentol]; cases q.pentol <;> simp
    · simp only [ccgOptions, hq.maxiter]
    · simp only [one_mul, div_one]
      show bisect f a b = (bisect f a b).map _
      cases bisect f a b <;> simp [Except.map]
  have hD : CCG.Homogeneous (1 / 1 : ℝ) P.disp := by
    intro f
    simp only [div_one, one_mul]
  have hmain := CCG.solve_similar one_pos one_pos hD hsim hopt (.inl rfl)
  rw [CCG.C154_given_tolerance (P := CCG.withHeights P' fun p => P.h (e p)) (o := ccgOptions bisect kw (Fin d0' × Fin d1') q') (pt := pt) (by
      show q'.pentol = _; rw [hq.pentol, hpt]), CCG.C154_undefined_points_ignored (P := P') (fun p hp => by
      have hp' : p.1.val < nx' ∧ p.2.val < ny' := by
        have : (decide (p.1.val < nx') && decide (p.2.val < ny')) = true := hp
        simpa using this
      obtain ⟨i, hi, j, hj, h⟩ := ren.surj _ hp'.1 _ hp'.2
      have h1 := M.place i hi j hj p h.symm
      rw [Prod.mk.injEq] at h1
      show q.heights.get [(e p).1.val, (e p).2.val] = q'.heights.get [p.1.val, p.2.val]
      have h2 := hq.heights i hi j hj
      rw [h] at h2
      rw [h1.1, h1.2, h2, add_zero])] at hmain
  have hsol : CCG.solve P' (ccgOptions bisect kw _ q') = (CCG.solve P (ccgOptions bisect kw _ q)).map (CCG.Result.scaled e 1 1) := by
    unfold CCG.solve
    rw [hmain]
    cases CCG.solveCb P (ccgOptions bisect kw _ q) <;> rfl
  unfold ccgSolver
  rw [M.grid.dom, M.grid.topo, M.grid'.dom, M.grid'.topo]
  dsimp only
  rw [← hP, ← hP', hsol]
  cases CCG.solve P (ccgOptions bisect kw _ q) with
  | error x => exact .inl ⟨x, rfl, rfl⟩
  | ok r =>
    refine .inr ⟨_, _, rfl, rfl, ?_⟩
    have hplace : ∀ i (hi : i < nx) j (hj : j < ny), ∃ (h1 : (σ (i, j)).1 < d0') (h2 : (σ (i, j)).2 < d1'),
        e (⟨_, h1⟩, ⟨_, h2⟩) = (⟨i, lt_of_lt_of_le hi M.grid.lex⟩, ⟨j, lt_of_lt_of_le hj M.grid.ley⟩) := by
      intro i hi j hj
      obtain ⟨b1, b2⟩ := ren.maps i hi j hj
      refine ⟨lt_of_lt_of_le b1 M.grid'.lex, lt_of_lt_of_le b2 M.grid'.ley, ?_⟩
      have := M.place i hi j hj (⟨_, lt_of_lt_of_le b1 M.grid'.lex⟩, ⟨_, lt_of_lt_of_le b2 M.grid'.ley⟩) rfl
      rw [Prod.mk.injEq] at this
      exact Prod.ext (Fin.ext this.1) (Fin.ext this.2)
    refine ⟨fun i hi j hj => ?_, fun i hi j hj => ?_, fun i hi j hj => ?_, ?_, rfl⟩
    · obtain ⟨h1, h2, h3⟩ := hplace i hi j hj
      show (fieldArray d0' d1' _).get [_, _] = (fieldArray d0 d1 _).get [_, _]
      rw [fieldArray_get _ h1 h2, fieldArray_get _ (lt_of_lt_of_le hi M.grid.lex) (lt_of_lt_of_le hj M.grid.ley)]
      show 1 * r.jac (e _) = _
      rw [h3, one_mul]
    · obtain ⟨h1, h2, h3⟩ := hplace i hi j hj
      show (fieldArray d0' d1' _).get [_, _] = (fieldArray d0 d1 _).get [_, _]
      rw [fieldArray_get _ h1 h2, fieldArray_get _ (lt_of_lt_of_le hi M.grid.lex) (lt_of_lt_of_le hj M.grid.ley)]
      show 1 * r.x (e _) = _
      rw [h3, one_mul]
    · obtain ⟨h1, h2, h3⟩ := hplace i hi j hj
      show (fieldArray d0' d1' _).get [_, _] = (fieldArray d0 d1 _).get [_, _]
      rw [fieldArray_bool _ h1 h2, fieldArray_bool _ (lt_of_lt_of_le hi M.grid.lex) (lt_of_lt_of_le hj M.grid.ley)]
      show (r.plastic.map fun p i => p (e i)).getD (fun _ => false) _ = _
      cases r.plastic with
      | none => rfl
      | some p => simp only [Option.map_some, Option.getD_some]; rw [h3]
    · show 1 * r.offset = r.offset - 0
      ring
end

/-! ## Substrates on tori -/

/-- Grid index as an element of the torus. -/
def onTorus (n : ℕ) [NeZero n] : Fin n ≃ ZMod n where
  toFun i := (i.val : ZMod n)
  invFun z := ⟨z.val, ZMod.val_lt z⟩
  left_inv i := Fin.ext (ZMod.val_cast_of_lt i.isLt)
  right_inv z := ZMod.natCast_rightInverse z

/-- Grid point as a point of the torus. -/
def onTorus2 (n m : ℕ) [NeZero n] [NeZero m] : Fin n × Fin m ≃ ZMod n × ZMod m := (onTorus n).prodCongr (onTorus m)

lemma onTorus2_apply {n m : ℕ} [NeZero n] [NeZero m] (p : Fin n × Fin m) : onTorus2 n m p = ((p.1.val : ZMod n), (p.2.val : ZMod m)) := rfl

section
variable [NeZero d0] [NeZero d1] [NeZero d0'] [NeZero d1']

lemma tor_field (f : Fin d0 × Fin d1 → ℝ) : tor d0 d1 (fun i j => (fieldArray d0 d1 f).get [i, j]) = fun z => f ((onTorus2 d0 d1).symm z) := by
  refine tor_self _ _ fun i j hi hj => ?_
  rw [fieldArray_get _ hi hj]
  congr 1
  rw [Equiv.eq_symm_apply]
  rfl

lemma onGrid_disp {s : HalfSpace} {G : ZMod d0 × ZMod d1 → ℂ} (h : Rep s d0 d1 G) (f : Fin d0 × Fin d1 → ℝ) (p : Fin d0 × Fin d1) :
    onGrid (HS.evaluateDisp s) d0 d1 f p = -((pair2 d0 d1).act G (fun z => f ((onTorus2 d0 d1).symm z)) (onTorus2 d0 d1 p)) / s.areaPerPt := by
  obtain ⟨u, h1, -, h2⟩ := h.disp_ok (f := fieldArray d0 d1 f) rfl
  unfold onGrid
  rw [h1]
  dsimp only
  rw [h2, tor_field]
  rfl

lemma onGrid_force {s : HalfSpace} {G : ZMod d0 × ZMod d1 → ℂ} (h : Rep s d0 d1 G) (f : Fin d0 × Fin d1 → ℝ) (p : Fin d0 × Fin d1) :
    onGrid (HS.evaluateForce s) d0 d1 f p =
      -((pair2 d0 d1).act (fun k => (G k)⁻¹) (fun z => f ((onTorus2 d0 d1).symm z)) (onTorus2 d0 d1 p)) * s.areaPerPt := by
  obtain ⟨u, h1, -, h2⟩ := h.force_ok (u := fieldArray d0 d1 f) rfl
  unfold onGrid
  rw [h1]
  dsimp only
  rw [h2, tor_field]
  rfl

/-- The renumbering of grid points (new to old) of a map `x ↦ α x + t` of tori. -/
def pull (α : ZMod d0 × ZMod d1 ≃+ ZMod d0' × ZMod d1') (t : ZMod d0' × ZMod d1') : Fin d0' × Fin d1' ≃ Fin d0 × Fin d1 :=
  ((onTorus2 d0 d1).trans (α.toEquiv.trans ((Equiv.addRight t).trans (onTorus2 d0' d1').symm))).symm

lemma pull_torus (α : ZMod d0 × ZMod d1 ≃+ ZMod d0' × ZMod d1') (t : ZMod d0' × ZMod d1') (p : Fin d0' × Fin d1') :
    α (onTorus2 d0 d1 (pull α t p)) + t = onTorus2 d0' d1' p := by
  have : (pull α t).symm (pull α t p) = p := Equiv.symm_apply_apply _ _
  have h : (onTorus2 d0' d1').symm (α (onTorus2 d0 d1 (pull α t p)) + t) = p := this
  rw [← h, Equiv.apply_symm_apply, h]

lemma pull_symm (α : ZMod d0 × ZMod d1 ≃+ ZMod d0' × ZMod d1') (t : ZMod d0' × ZMod d1') (x : ZMod d0 × ZMod d1) :
    pull α t ((onTorus2 d0' d1').symm (α x + t)) = (onTorus2 d0 d1).symm x := by
  apply (onTorus2 d0 d1).injective
  apply α.injective
  apply add_right_cancel (b := t)
  rw [pull_torus, Equiv.apply_symm_apply, Equiv.apply_symm_apply]

lemma moves_of_rep {sub sub' : Substrate} (g : Grid sub nx ny d0 d1) (g' : Grid sub' nx' ny' d0' d1')
    {G : ZMod d0 × ZMod d1 → ℂ} {G' : ZMod d0' × ZMod d1' → ℂ} (r : Rep sub.hs d0 d1 G) (r' : Rep sub'.hs d0' d1' G')
    (ed : ∀ f, f.shape = [d0, d1] → sub.evaluateDisp f = HS.evaluateDisp sub.hs f)
    (ed' : ∀ f, f.shape = [d0', d1'] → sub'.evaluateDisp f = HS.evaluateDisp sub'.hs f)
    (area : sub'.hs.areaPerPt = sub.hs.areaPerPt)
    (α : ZMod d0 × ZMod d1 ≃+ ZMod d0' × ZMod d1') (t : ZMod d0' × ZMod d1')
    (hχ : ∀ k x, (pair2 d0' d1').χ (α k) (α x) = (pair2 d0 d1).χ k x) (hG : ∀ k, G' (α k) = G k)
    (hσ : ∀ i < nx, ∀ j < ny, α ((i : ZMod d0), (j : ZMod d1)) + t = (((σ (i, j)).1 : ZMod d0'), ((σ (i, j)).2 : ZMod d1'))) :
    Moves σ nx ny nx' ny' sub sub' (pull α t) := by
  have hd : ∀ f, onGrid sub.evaluateDisp d0 d1 f = onGrid (HS.evaluateDisp sub.hs) d0 d1 f := fun f => by unfold onGrid; rw [ed _ rfl]
  have hd' : ∀ f, onGrid sub'.evaluateDisp d0' d1' f = onGrid (HS.evaluateDisp sub'.hs) d0' d1' f := fun f => by unfold onGrid; rw [ed' _ rfl]
  refine ⟨g, g', fun i hi j hj p hp => ?_, fun f => ?_, fun f => ?_⟩
  · have h1 : onTorus2 d0' d1' p = α ((i : ZMod d0), (j : ZMod d1)) + t := by
      rw [hσ i hi j hj, ← hp]; rfl
    have h2 : p = (onTorus2 d0' d1').symm (α ((i : ZMod d0), (j : ZMod d1)) + t) := by rw [← h1, Equiv.symm_apply_apply]
    rw [h2, pull_symm]
    show (((i : ZMod d0)).val, ((j : ZMod d1)).val) = (i, j)
    rw [ZMod.val_cast_of_lt (lt_of_lt_of_le hi g.lex), ZMod.val_cast_of_lt (lt_of_lt_of_le hj g.ley)]
  · rw [hd, hd']
    funext p
    rw [onGrid_disp r', onGrid_disp r, area, ← pull_torus α t p, Pairing.act_iso α hχ t hG]
    intro x
    rw [pull_symm]
  · funext p
    rw [onGrid_force r', onGrid_force r, area, ← pull_torus α t p, Pairing.act_iso α hχ t (S := fun k => (G k)⁻¹) (fun k => by rw [hG])]
    intro x
    rw [pull_symm]
end

/-- Name of the substrate `contact_mechanics` uses. -/
def substrateName (T : Topo) (o : Option String) : String := o.getD (if T.isPeriodic then "periodic" else "nonperiodic")

/-- The two kinds of substrates, and the failures. -/
lemma make_cases {T : Topo} (hT : ValidTopo T nx ny sx sy) (o : Option String) :
    (substrateName T o = "periodic" ∧ ¬ (1 < nx ∧ 1 < ny) ∧ makeSubstrate T o = .error .indexError) ∨
    (substrateName T o = "periodic" ∧ (1 < nx ∧ 1 < ny) ∧ ∃ s, construct ⟨[nx, ny], 1, [sx, sy], none, none, 0, none⟩ = .ok s ∧
      makeSubstrate T o = .ok ⟨s, false, false⟩) ∨
    (substrateName T o = "nonperiodic" ∧ ∃ s, constructFree ⟨[nx, ny], 1, [sx, sy], none⟩ = .ok s ∧
      makeSubstrate T o = .ok ⟨s, true, false⟩) ∨
    (substrateName T o ≠ "periodic" ∧ substrateName T o ≠ "nonperiodic" ∧ makeSubstrate T o = .error .keyError) := by
  have h1 := hT.nx_pos
  have h2 := hT.ny_pos
  unfold substrateName makeSubstrate
  rw [hT.heights, hT.sizes]
  generalize o.getD (if T.isPeriodic then "periodic" else "nonperiodic") = name
  by_cases hp : name = "periodic"
  · subst hp
    by_cases hg : 1 < nx ∧ 1 < ny
    · obtain ⟨s, hs⟩ := (C13_construct_ok_iff ⟨[nx, ny], 1, [sx, sy], none, none, 0, none⟩).mpr (by simp; omega)
      exact .inr (.inl ⟨rfl, hg, s, hs, by rw [hs]; rfl⟩)
    · have hno : ¬ ∃ s, construct ⟨[nx, ny], 1, [sx, sy], none, none, 0, none⟩ = .ok s := by
        rw [C13_construct_ok_iff]
        intro h
        have := h.2.2.2.2.2.2.1 rfl rfl rfl
        simp at this
        exact hg this
      have : construct ⟨[nx, ny], 1, [sx, sy], none, none, 0, none⟩ = .error .indexError :=
        construct_error_cases.2 (.inr ⟨rfl, ⟨_, initAttrs_ok.mpr ⟨by simp, by simp, by simp, by simp; omega, by simp, by simp, rfl⟩⟩, hno⟩)
      exact .inl ⟨rfl, hg, by rw [this]; rfl⟩
  · by_cases hf : name = "nonperiodic"
    · subst hf
      obtain ⟨s, hs⟩ := Factory.constructFree_ok (grid := [nx, ny]) rfl h1 h2 1 (sizes := [sx, sy]) (by simp)
      exact .inr (.inr (.inl ⟨rfl, s, hs, by rw [hs]; rfl⟩))
    · refine .inr (.inr (.inr ⟨hp, hf, ?_⟩))
      split
      · exact absurd rfl hp
      · exact absurd rfl hf
      · rfl

/-- A move `x ↦ α x + t` carries one periodic substrate into the other. -/
lemma periodic_moves {s s' : HalfSpace} [NeZero nx] [NeZero ny] [NeZero nx'] [NeZero ny']
    (hx : 0 < sx) (hy : 0 < sy) (hx' : 0 < sx') (hy' : 0 < sy') (hS : (sx' = sx ∧ sy' = sy) ∨ (sx' = sy ∧ sy' = sx)) (hN : nx' * ny' = nx * ny)
    {T T' : Topo} (hT : ValidTopo T nx ny sx sy) (hT' : ValidTopo T' nx' ny' sx' sy') {o : Option String}
    (m : makeSubstrate T o = .ok ⟨s, false, false⟩) (m' : makeSubstrate T' o = .ok ⟨s', false, false⟩)
    (h : construct ⟨[nx, ny], 1, [sx, sy], none, none, 0, none⟩ = .ok s) (h' : construct ⟨[nx', ny'], 1, [sx', sy'], none, none, 0, none⟩ = .ok s')
    (α : ZMod nx × ZMod ny ≃+ ZMod nx' × ZMod ny') (t : ZMod nx' × ZMod ny')
    (hχ : ∀ k x, (pair2 nx' ny').χ (α k) (α x) = (pair2 nx ny).χ k x)
    (hG : ∀ m g k, fullStiff m nx' ny' sx' sy' g (α k) = fullStiff m nx ny sx sy g k)
    (hσ : ∀ i < nx, ∀ j < ny, α ((i : ZMod nx), (j : ZMod ny)) + t = (((σ (i, j)).1 : ZMod nx'), ((σ (i, j)).2 : ZMod ny'))) :
    ∃ e : Fin nx' × Fin ny' ≃ Fin nx × Fin ny, Moves σ nx ny nx' ny' ⟨s, false, false⟩ ⟨s', false, false⟩ e := by
  have hv : ValidArgs ⟨[nx, ny], 1, [sx, sy], none, none, 0, none⟩ := by constructor <;> simp [hx, hy]
  have hv' : ValidArgs ⟨[nx', ny'], 1, [sx', sy'], none, none, 0, none⟩ := by constructor <;> simp [hx', hy']
  obtain ⟨_, _, P⟩ := per_of_construct hv h rfl
  obtain ⟨_, _, P'⟩ := per_of_construct hv' h' rfl
  obtain ⟨d0, d1, g⟩ := grid_of_make hT m
  obtain ⟨d0', d1', g'⟩ := grid_of_make hT' m'
  have k1 := P.rep.dom.symm.trans g.dom
  have k2 := P'.rep.dom.symm.trans g'.dom
  simp only [List.cons.injEq, and_true] at k1 k2
  obtain ⟨rfl, rfl⟩ := k1
  obtain ⟨rfl, rfl⟩ := k2
  have hm : s'.mat = s.mat := by rw [P.mat, P'.mat]; simp [contactModulus]
  refine ⟨pull α t, moves_of_rep g g' P.rep P'.rep (fun _ _ => rfl) (fun _ _ => rfl) ?_ α t hχ (fun k => ?_) hσ⟩
  · show s'.areaPerPt = s.areaPerPt
    rw [P.area, P'.area]
    have hN' : (nx' : ℝ) * ny' = nx * ny := by exact_mod_cast hN
    rw [hN']
    simp only [size]
    rcases hS with ⟨rfl, rfl⟩ | ⟨rfl, rfl⟩ <;> simp [mul_comm]
  · have e1 : size ⟨[nx', ny'], 1, [sx', sy'], none, none, 0, none⟩ 0 = sx' := by simp [size]
    have e2 : size ⟨[nx', ny'], 1, [sx', sy'], none, none, 0, none⟩ 1 = sy' := by simp [size]
    have e3 : size ⟨[nx, ny], 1, [sx, sy], none, none, 0, none⟩ 0 = sx := by simp [size]
    have e4 : size ⟨[nx, ny], 1, [sx, sy], none, none, 0, none⟩ 1 = sy := by simp [size]
    have e5 : gammaStiffness ⟨[nx', ny'], 1, [sx', sy'], none, none, 0, none⟩ = gammaStiffness ⟨[nx, ny], 1, [sx, sy], none, none, 0, none⟩ := by
      simp only [gammaStiffness, e1, e2, e3, e4, contactModulus]
      rcases hS with ⟨rfl, rfl⟩ | ⟨rfl, rfl⟩ <;> ring
    rw [e1, e2, e3, e4, e5, hm, hG]

/-- A move `x ↦ α x + t` carries one free substrate into the other. -/
lemma free_moves {s s' : HalfSpace} [NeZero nx] [NeZero ny] [NeZero nx'] [NeZero ny']
    (hx : 0 < sx) (hy : 0 < sy) (hx' : 0 < sx') (hy' : 0 < sy') (hA : sx' * sy' = sx * sy) (hN : nx' * ny' = nx * ny)
    {T T' : Topo} (hT : ValidTopo T nx ny sx sy) (hT' : ValidTopo T' nx' ny' sx' sy') {o : Option String}
    (m : makeSubstrate T o = .ok ⟨s, true, false⟩) (m' : makeSubstrate T' o = .ok ⟨s', true, false⟩)
    (h : constructFree ⟨[nx, ny], 1, [sx, sy], none⟩ = .ok s) (h' : constructFree ⟨[nx', ny'], 1, [sx', sy'], none⟩ = .ok s')
    (α : ZMod (2 * nx) × ZMod (2 * ny) ≃+ ZMod (2 * nx') × ZMod (2 * ny')) (t : ZMod (2 * nx') × ZMod (2 * ny'))
    (hχ : ∀ k x, (pair2 (2 * nx') (2 * ny')).χ (α k) (α x) = (pair2 (2 * nx) (2 * ny)).χ k x)
    (hK : ∀ p, freeKernel 1 nx' ny' (sx' / nx') (sy' / ny') (α p).1.val (α p).2.val = freeKernel 1 nx ny (sx / nx) (sy / ny) p.1.val p.2.val)
    (hσ : ∀ i < nx, ∀ j < ny, α ((i : ZMod (2 * nx)), (j : ZMod (2 * ny))) + t =
      (((σ (i, j)).1 : ZMod (2 * nx')), ((σ (i, j)).2 : ZMod (2 * ny')))) :
    ∃ e : Fin (2 * nx') × Fin (2 * ny') ≃ Fin (2 * nx) × Fin (2 * ny), Moves σ nx ny nx' ny' ⟨s, true, false⟩ ⟨s', true, false⟩ e := by
  have hv : ValidFree ⟨[nx, ny], 1, [sx, sy], none⟩ := by constructor <;> simp [hx, hy]
  have hv' : ValidFree ⟨[nx', ny'], 1, [sx', sy'], none⟩ := by constructor <;> simp [hx', hy']
  obtain ⟨_, _, P⟩ := free_of_construct hv h rfl
  obtain ⟨_, _, P'⟩ := free_of_construct hv' h' rfl
  obtain ⟨d0, d1, g⟩ := grid_of_make hT m
  obtain ⟨d0', d1', g'⟩ := grid_of_make hT' m'
  have k1 := P.dom.symm.trans g.dom
  have k2 := P'.dom.symm.trans g'.dom
  simp only [List.cons.injEq, and_true] at k1 k2
  obtain ⟨rfl, rfl⟩ := k1
  obtain ⟨rfl, rfl⟩ := k2
  have e1 : sizeF ⟨[nx', ny'], 1, [sx', sy'], none⟩ 0 = sx' := by simp [sizeF]
  have e2 : sizeF ⟨[nx', ny'], 1, [sx', sy'], none⟩ 1 = sy' := by simp [sizeF]
  have e3 : sizeF ⟨[nx, ny], 1, [sx, sy], none⟩ 0 = sx := by simp [sizeF]
  have e4 : sizeF ⟨[nx, ny], 1, [sx, sy], none⟩ 1 = sy := by simp [sizeF]
  refine ⟨pull α t, moves_of_rep g g' P.rep P'.rep (fun f hf => ?_) (fun f hf => ?_) ?_ α t hχ (fun k => ?_) hσ⟩
  · show evaluateDispFree s f false = _
    unfold evaluateDispFree
    rw [branch_topo P, if_pos hf]
  · show evaluateDispFree s' f false = _
    unfold evaluateDispFree
    rw [branch_topo P', if_pos hf]
  · show s'.areaPerPt = s.areaPerPt
    rw [P.area, P'.area, e1, e2, e3, e4]
    have hN' : (nx' : ℝ) * ny' = nx * ny := by exact_mod_cast hN
    rw [div_mul_div_comm, div_mul_div_comm, hA, hN']
  · have := Pairing.ft_iso (Q := pair2 (2 * nx') (2 * ny')) α hχ 0 (f := fun p => (FreeRep.K ⟨[nx, ny], 1, [sx, sy], none⟩ nx ny p : ℂ))
      (f' := fun p => (FreeRep.K ⟨[nx', ny'], 1, [sx', sy'], none⟩ nx' ny' p : ℂ)) (fun x => by
        rw [add_zero]
        unfold FreeRep.K tor
        dsimp only
        rw [e1, e2, e3, e4, hK]) k
    rw [this, neg_zero, Pairing.zero_right, one_mul]

end CM.Pipe
