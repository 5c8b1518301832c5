import Verif.Props.EndToEnd
import Verif.Props.CCG6
/-!
# C148 surfaces that do not touch, C149 flat surfaces under load
-/
namespace CM.Pipe
open Finset CM.HS CM.FFT CM.System CM.Spec
variable {T : Topo} {nx ny : ℕ} {sx sy : ℝ} {kw : OptimizerKwargs}

lemma pipePentol_pos (T : Topo) : 0 < pipePentol T := by
  unfold pipePentol
  exact lt_of_lt_of_le (by positivity) (le_max_right _ _)

lemma onGrid_zero {d0 d1 : ℕ} {eval : NdArray ℝ → Except PyErr (NdArray ℝ)}
    (h : ∀ f, f.shape = [d0, d1] → (∀ i < d0, ∀ j < d1, f.get [i, j] = 0) → ∃ u, eval f = .ok u ∧ ∀ i j, u.get [i, j] = 0) :
    onGrid eval d0 d1 (fun _ => 0) = fun _ => 0 := by
  obtain ⟨u, h1, h2⟩ := h (fieldArray d0 d1 fun _ => 0) rfl fun i hi j hj => fieldArray_get _ hi hj
  funext p
  unfold onGrid
  rw [h1]
  exact h2 _ _

/-- The solver on a surface that does not touch. -/
lemma separated_call {sub : Substrate} (rms : NdArray ℝ → ℝ) (bisect : Bisect) (hkw : 0 < kw.forcetol) {d0 d1 : ℕ} (g : Grid sub nx ny d0 d1)
    {h : NdArray ℝ} {H : Option ℝ} (hH : ∀ K, H = some K → 0 < K) {o pt : ℝ} (hp : 0 < pt) {mi : ℤ} (hm : 1 ≤ mi)
    (hsep : ∀ i < nx, ∀ j < ny, h.get [i, j] + o ≤ 0) :
    ∃ r, ccgSolver sub rms bisect kw ⟨h, H, some o, none, some pt, mi⟩ = .ok r ∧ r.success = true ∧ r.offset = o ∧
      (∀ i < nx, ∀ j < ny, r.x.get [i, j] = 0) ∧ ∀ i < nx, ∀ j < ny, r.jac.get [i, j] = 0 := by
  obtain ⟨q, h1, h2, -, h3, h4⟩ := CCG.C42_separated_surfaces
    (P := ccgProblem sub rms d0 d1 nx ny h) (o := ccgOptions bisect kw _ ⟨h, H, some o, none, some pt, mi⟩) (pentol := pt)
    (onGrid_zero g.zero) (onGrid_zero g.zeroF) rfl (by
      cases H with
      | none => exact .inl rfl
      | some K => exact .inr ⟨K, hH K rfl, rfl⟩) rfl rfl rfl hp
    hkw (by show 1 ≤ mi.toNat; omega) (by
      intro p hp
      simp only [ccgProblem, Bool.and_eq_true, decide_eq_true_eq] at hp
      exact hsep _ hp.1 _ hp.2)
  have ho := CCG.C41_offset_kept (o := ccgOptions bisect kw _ ⟨h, H, some o, none, some pt, mi⟩) rfl h1
  refine ⟨_, (ccg_ok g).2 ⟨q, h1, rfl⟩, h2, ho, fun i hi j hj => ?_, fun i hi j hj => ?_⟩
  · show (fieldArray d0 d1 q.x).get [i, j] = 0
    rw [fieldArray_get _ (lt_of_lt_of_le hi g.lex) (lt_of_lt_of_le hj g.ley), h3]
  · show (fieldArray d0 d1 q.jac).get [i, j] = 0
    rw [fieldArray_get _ (lt_of_lt_of_le hi g.lex) (lt_of_lt_of_le hj g.ley), h4]

lemma sum_zero2 {f : NdArray ℝ} (h : ∀ i < nx, ∀ j < ny, f.get [i, j] = 0) : total nx ny f = 0 := by
  unfold total
  exact sum_eq_zero fun i hi => sum_eq_zero fun j hj => h i (by simpa using hi) j (by simpa using hj)

lemma record_separated {h : NdArray ℝ} {r : OptResult} {o : ℝ} (h1 : r.success = true) (h2 : r.offset = o)
    (h3 : ∀ i < nx, ∀ j < ny, r.x.get [i, j] = 0) (h4 : ∀ i < nx, ∀ j < ny, r.jac.get [i, j] = 0) :
    recordOf nx ny sx sy h r = ⟨o, -(mean nx ny h + o), 0, 0, true⟩ := by
  have e1 : mean nx ny r.x = 0 := by
    have := sum_zero2 h3
    unfold total at this
    unfold mean; rw [this, zero_div]
  have e2 : nbPos nx ny r.jac = 0 := by
    unfold nbPos
    rw [card_eq_zero, filter_eq_empty_iff]
    intro p hp
    simp only [mem_product, mem_range] at hp
    rw [h4 _ hp.1 _ hp.2]; exact lt_irrefl _
  unfold recordOf
  rw [e1, e2, sum_zero2 h4, h1, h2]
  congr 1
  · ring
  · simp
  · simp

/-- **C148** (one step) In an elastic calculation with offsets, every offset at which the surfaces do not touch -- no height plus
offset is positive -- gives a converged row with zero pressure and zero contact area, whose mean gap is the distance of the
undeformed surfaces. -/
theorem C148_separated_row (hT : ValidTopo T nx ny sx sy) (rms : NdArray ℝ → ℝ) (bisect : Bisect) (A : PipeArgs) (hkw : 0 < A.optimizerKwargs.forcetol)
    (hel : ∀ H, A.hardness = some H → H ≤ 0) (hm : 1 ≤ A.maxiter) (os : List ℝ) (h1 : A.offsets = some os)
    {R : Result} {reps : List Report} (h : contactMechanicsCCG T rms bisect A = (.ok R, reps))
    (k : ℕ) (o : ℝ) (hk : os[k]? = some o) (hsep : ∀ i < nx, ∀ j < ny, T.heights.get [i, j] + o ≤ 0) :
    R.meanPressure[k]? = some 0 ∧ R.totalContactArea[k]? = some 0 ∧ R.meanDisplacement[k]? = some o ∧
      R.meanGap[k]? = some (-(mean nx ny T.heights + o)) ∧ R.converged[k]? = some true := by
  obtain ⟨D, hl, hr, rfl, rfl⟩ := C60_offsets hT _ (default_fits hT rms bisect A) A os h1 h
  have heff : effectiveHardness A = none := by
    unfold effectiveHardness
    cases hA : A.hardness with
    | none => rfl
    | some H => simp [hel H hA]
  have hkl : k < D.length := by rw [hl]; by_contra hc; rw [List.getElem?_eq_none (by omega)] at hk; cases hk
  have hd : D[k]? = some D[k] := List.getElem?_eq_getElem hkl
  obtain ⟨o', F, ⟨h2, h3⟩, h4⟩ := hr.call k _ hd
  have hb := hr.fresh (.inr heff) _ (List.getElem_mem hkl)
  have hs := hr.solved _ (List.getElem_mem hkl)
  rw [hk] at h2
  rw [heff, hb, h2, h3] at h4
  unfold defaultSolver at hs
  cases hmk : makeSubstrate T A.substrate with
  | error e => rw [hmk] at hs; cases hs
  | ok sub =>
    rw [hmk, h4] at hs
    obtain ⟨d0, d1, g⟩ := grid_of_make hT hmk
    obtain ⟨r, k1, k2, k3, k4, k5⟩ := separated_call rms bisect hkw g (h := T.heights) (H := none) (by simp)
      (pt := max (T.rmsHeight / (10 * ((nx + ny) / 2))) 1e-12) (lt_of_lt_of_le (by norm_num) (le_max_right _ _)) hm hsep
    have : D[k].result = r := by
      have := hs.symm.trans k1
      simpa using this
    have hrec : StepData.record nx ny sx sy D[k] = ⟨o, -(mean nx ny T.heights + o), 0, 0, true⟩ := by
      unfold StepData.record
      rw [this, hb]
      exact record_separated k2 k3 k4 k5
    simp only [columns, List.getElem?_map, hd, Option.map_some, hrec]
    simp

/-- **C148** If the surfaces touch at none of the offsets, the calculation returns: all pressures and contact areas are zero, the
offsets come back, the mean gaps are the distances of the undeformed surfaces, and everything is converged. -/
theorem C148_separated_surfaces (hT : ValidTopo T nx ny sx sy) (hx : 1 < nx) (hy : 1 < ny) (rms : NdArray ℝ → ℝ) (bisect : Bisect)
    (A : PipeArgs) (hkw : 0 < A.optimizerKwargs.forcetol) (hel : ∀ H, A.hardness = some H → H ≤ 0) (hm : 1 ≤ A.maxiter) (hks : KnownSubstrate A) (hA : ExactlyOne A)
    (os : List ℝ) (h1 : A.offsets = some os) (hne : os ≠ [])
    (hsep : ∀ o ∈ os, ∀ i < nx, ∀ j < ny, T.heights.get [i, j] + o ≤ 0) :
    ∃ reps, contactMechanicsCCG T rms bisect A = (.ok ⟨os.map fun _ => 0, os.map fun _ => 0, os,
      os.map fun o => -(mean nx ny T.heights + o), os.map fun _ => true⟩, reps) := by
  have heff : usedHardness A = none := by
    unfold usedHardness
    cases hA : A.hardness with
    | none => rfl
    | some H => simp [hel H hA]
  have hq : requests T A = os.map .offset := by unfold requests; rw [h1]
  have hret : ∃ R reps, contactMechanicsCCG T rms bisect A = (.ok R, reps) := by
    obtain ⟨Y, hY⟩ := system_ok hT hx hy A hks
    rcases run_cases hT _ (default_fits hT rms bisect A) A hA with
      ⟨e, -, h2⟩ | ⟨Y', ds, reps', -, e1, ⟨h2, hc⟩ | ⟨e, q, rest, done, c, hd, -, -, hce, ho, hF, hH, hpt, hmi, hh⟩⟩
    · rw [hY] at h2; cases h2
    · have hl := hc.length
      rw [hq] at hl
      rw [if_neg (by rintro rfl; simp at hl; exact hne (List.length_eq_zero_iff.1 hl.symm))] at h2
      exact ⟨_, _, h2⟩
    · exfalso
      have hqm : q ∈ os.map Request.offset := by rw [← hq, hd]; simp
      obtain ⟨o, hos, rfl⟩ := List.mem_map.1 hqm
      unfold defaultSolver at hce
      cases hmk : makeSubstrate T A.substrate with
      | error e =>
        have : makePipeSystem T A = .error e := by unfold makePipeSystem; rw [hmk]; rfl
        rw [this] at hY; cases hY
      | ok sub =>
        rw [hmk] at hce
        obtain ⟨d0, d1, g⟩ := grid_of_make hT hmk
        obtain ⟨r, k1, -⟩ := separated_call rms bisect hkw g (h := T.heights) (H := none) (by simp) (pipePentol_pos T) hm (hsep o hos)
        obtain ⟨ch, cH, co, cF, cp, cm⟩ := c
        simp only [asks] at ho hF
        dsimp only at hH hpt hmi hh
        rw [heff] at hH
        subst ho hF hpt hmi
        rw [show cH = none from hH, hh (.inr heff)] at hce
        have := hce.symm.trans k1
        cases this
  obtain ⟨R, reps, h⟩ := hret
  refine ⟨reps, ?_⟩
  rw [h]
  have hlen : R.meanPressure.length = os.length ∧ R.totalContactArea.length = os.length ∧ R.meanDisplacement.length = os.length ∧
      R.meanGap.length = os.length ∧ R.converged.length = os.length := by
    obtain ⟨D, hl, -, rfl, -⟩ := C60_offsets hT _ (default_fits hT rms bisect A) A os h1 h
    simp [columns, hl]
  have hrow := C148_separated_row hT rms bisect A hkw hel hm os h1 h
  obtain ⟨l1, l2, l3, l4, l5⟩ := hlen
  have ext : ∀ {α : Type} (l : List α) (f : ℝ → α), l.length = os.length → (∀ (k : ℕ) o, os[k]? = some o → l[k]? = some (f o)) →
      l = os.map f := by
    intro α l f hl hf
    apply List.ext_getElem?
    intro k
    rw [List.getElem?_map]
    cases ho : os[k]? with
    | none => rw [List.getElem?_eq_none (by rw [hl]; exact List.getElem?_eq_none_iff.1 ho)]; rfl
    | some o => rw [hf k o ho]; rfl
  have hrow' : ∀ (k : ℕ) o, os[k]? = some o → _ := fun k o hk => hrow k o hk (hsep o (List.mem_of_getElem? hk))
  have e3 := ext R.meanDisplacement id l3 fun k o hk => (hrow' k o hk).2.2.1
  rw [List.map_id] at e3
  obtain ⟨a, b, c, d, e⟩ := R
  simp only at l1 l2 l3 l4 l5 hrow' e3
  rw [ext a _ l1 fun k o hk => (hrow' k o hk).1, ext b _ l2 fun k o hk => (hrow' k o hk).2.1, e3,
    ext d _ l4 fun k o hk => (hrow' k o hk).2.2.2.1, ext e _ l5 fun k o hk => (hrow' k o hk).2.2.2.2]

/-- The demonstration surface (heights `i - 2j`, at most `2`) with offsets that keep it away, on both substrates. -/
example (rms : NdArray ℝ → ℝ) (bisect : Bisect) (s : String) (hs : s = "periodic" ∨ s = "nonperiodic") : ∃ R reps,
    contactMechanicsCCG demoTopo rms bisect { offsets := some [-2, -3], substrate := some s, callback := true } = (.ok R, reps) ∧
      R.meanPressure = [0, 0] ∧ R.meanDisplacement = [-2, -3] ∧ R.converged = [true, true] := by
  obtain ⟨reps, h⟩ := C148_separated_surfaces demoTopo_valid (by norm_num) (by norm_num) rms bisect
    { offsets := some [-2, -3], substrate := some s, callback := true } (by norm_num) (by simp) (by norm_num)
    (by rcases hs with rfl | rfl <;> simp [KnownSubstrate]) (by simp [ExactlyOne]) _ rfl (by simp) (by
      intro o ho i hi j hj
      have h1 : demoTopo.heights.get [i, j] = (i : ℝ) - 2 * j := rfl
      have h2 : (i : ℝ) ≤ 2 := by exact_mod_cast Nat.lt_succ_iff.1 hi
      have h3 : (0 : ℝ) ≤ j := by positivity
      rw [h1]
      simp at ho
      rcases ho with rfl | rfl <;> linarith)
  exact ⟨_, _, h, rfl, rfl, rfl⟩

/-! ## C149 -/

/-- The arguments with which the pipeline constructs a periodic half-space. -/
def periodicArgs (T : Topo) : Args := ⟨T.heights.shape, 1, T.physicalSizes, none, none, 0, none⟩

/-- Response of the periodic half-space of the pipeline to uniform fields. -/
lemma periodic_flat (hT : ValidTopo T nx ny sx sy) (rms : NdArray ℝ → ℝ) {s : HalfSpace} (hc : construct (periodicArgs T) = .ok s) {h0 : ℝ}
    (hflat : ∀ i < nx, ∀ j < ny, T.heights.get [i, j] = h0) :
    ∃ κ, CCG.Flat (ccgProblem ⟨s, false, false⟩ rms nx ny nx ny T.heights) h0 κ ∧
      κ * (sx * sy / (nx * ny)) = 2 / (Real.pi * (1 / sx + 1 / sy)) := by
  have hsz : T.physicalSizes = [sx, sy] := hT.sizes
  have hv : ValidArgs (periodicArgs T) := by
    unfold periodicArgs; constructor <;> simp [hsz, hT.sx_pos, hT.sy_pos]
  obtain ⟨_, _, P⟩ := per_of_construct hv hc hT.heights
  have hγ : 0 < gammaStiffness (periodicArgs T) := by
    have h1 := P.sx_pos
    have h2 := P.sy_pos
    have h3 : 0 < contactModulus (periodicArgs T) := by simp [contactModulus, periodicArgs]
    have h4 := Real.pi_pos
    show 0 < (contactModulus (periodicArgs T) / 2 * (2 * Real.pi / size (periodicArgs T) 0) + contactModulus (periodicArgs T) / 2 * (2 * Real.pi / size (periodicArgs T) 1)) / 2
    positivity
  have hA := P.area_pos
  have hS0 : P.S 0 = gammaStiffness (periodicArgs T) := by simp [Per.S, fullStiff]
  have hact : ∀ (S : ZMod nx × ZMod ny → ℝ), (∀ k, S (-k) = S k) → ∀ (c : ℝ) x, (pair2 nx ny).act (fun k => (S k : ℂ)) (fun _ => c) x = S 0 * c := by
    intro S hS c x
    have e : (fun _ : ZMod nx × ZMod ny => c) = fun p => ((c : ℂ) * (pair2 nx ny).χ 0 p).re := by
      funext p; rw [(pair2 nx ny).zero]; simp
    rw [e, (pair2 nx ny).act_char S hS 0 c x, (pair2 nx ny).zero]
    simp
  have htor : ∀ c : ℝ, (tor nx ny fun i j => (fieldArray nx ny fun _ => c).get [i, j]) = fun _ => c :=
    fun c => tor_self _ _ fun i j hi hj => fieldArray_get _ hi hj
  have hcard : 0 < Fintype.card (Fin nx × Fin ny) := by
    rw [Fintype.card_prod, Fintype.card_fin, Fintype.card_fin]
    exact Nat.mul_pos hT.nx_pos hT.ny_pos
  refine ⟨(gammaStiffness (periodicArgs T) * s.areaPerPt)⁻¹, ⟨?_, ?_, ?_, ?_, hcard, by positivity, ?_, ?_⟩, ?_⟩
  rotate_right
  · have h1 := hT.sx_pos
    have h2 := hT.sy_pos
    have h3 : (0 : ℝ) < nx := by exact_mod_cast hT.nx_pos
    have h4 : (0 : ℝ) < ny := by exact_mod_cast hT.ny_pos
    have h5 := Real.pi_pos
    have e1 : size (periodicArgs T) 0 = sx := by simp [size, periodicArgs, hsz]
    have e2 : size (periodicArgs T) 1 = sy := by simp [size, periodicArgs, hsz]
    have e3 : gammaStiffness (periodicArgs T) = Real.pi * (1 / sx + 1 / sy) / 2 := by
      have : gammaStiffness (periodicArgs T) = (contactModulus (periodicArgs T) / 2 * (2 * Real.pi / size (periodicArgs T) 0)
        + contactModulus (periodicArgs T) / 2 * (2 * Real.pi / size (periodicArgs T) 1)) / 2 := rfl
      rw [this, e1, e2]
      simp only [contactModulus, periodicArgs]
      ring
    rw [e3, P.area, e1, e2]
    field_simp
  · intro p; simp [ccgProblem]
  · intro p; simp [ccgProblem]
  · intro p; exact hflat _ p.1.isLt _ p.2.isLt
  · simp [ccgProblem]
  · intro c
    obtain ⟨u, h1, -, h2⟩ := P.disp (f := fieldArray nx ny fun _ => -c) rfl
    funext p
    show onGrid (Substrate.evaluateDisp ⟨s, false, false⟩) nx ny _ p = _
    unfold onGrid
    rw [show Substrate.evaluateDisp ⟨s, false, false⟩ (fieldArray nx ny fun _ => -c) = .ok u from h1]
    dsimp only
    rw [h2, htor, hact (fun k => (P.S k)⁻¹) (fun k => by rw [P.S_neg]), hS0]
    field_simp
  · intro v
    obtain ⟨u, h1, -, h2⟩ := P.force (u := fieldArray nx ny fun _ => v) rfl
    funext p
    show onGrid (HS.evaluateForce s) nx ny _ p = _
    unfold onGrid
    rw [h1]
    dsimp only
    rw [h2, htor, hact P.S P.S_neg, hS0]
    field_simp

/-- **C149** A flat periodic surface pressed with positive pressures, elastically, with at least three iterations allowed: the
calculation returns, every step is converged, carries exactly the pressure asked for and is in full contact; the callback sees
uniform pressures and the displacements `2 p / (π (1/sx + 1/sy))`. -/
theorem C149_flat_surface (hT : ValidTopo T nx ny sx sy) (hx : 1 < nx) (hy : 1 < ny) (rms : NdArray ℝ → ℝ) (bisect : Bisect)
    (A : PipeArgs) (hkw : 0 < A.optimizerKwargs.forcetol) (hkw' : 0 < A.optimizerKwargs.thermotol) (hel : ∀ H, A.hardness = some H → H ≤ 0) (hm : 3 ≤ A.maxiter)
    (hks : A.substrate = some "periodic" ∨ (A.substrate = none ∧ T.isPeriodic = true)) (hA : ExactlyOne A)
    (ps : List ℝ) (h1 : A.pressures = some ps) (hne : ps ≠ []) (hpos : ∀ p ∈ ps, 0 < p) {h0 : ℝ}
    (hflat : ∀ i < nx, ∀ j < ny, T.heights.get [i, j] = h0) :
    ∃ R reps, contactMechanicsCCG T rms bisect A = (.ok R, reps) ∧ R.meanPressure = ps ∧
      R.totalContactArea = ps.map (fun _ => 1) ∧ (R.converged = ps.map fun _ => true) ∧
      (A.callback = true → reps.length = ps.length) ∧
      ∀ (k : ℕ) rep p, reps[k]? = some rep → ps[k]? = some p → ∀ i < nx, ∀ j < ny, rep.pressure.get [i, j] = p ∧
        rep.displacement.get [i, j] = p * (2 / (Real.pi * (1 / sx + 1 / sy))) ∧ rep.contacting.get [i, j] = true := by
  have heff : usedHardness A = none := by
    unfold usedHardness
    cases hA : A.hardness with
    | none => rfl
    | some H => simp [hel H hA]
  have hAz : 0 < sx * sy := mul_pos hT.sx_pos hT.sy_pos
  obtain ⟨Y, hY⟩ := system_ok hT hx hy A (by
    rcases hks with h | h
    · exact .inr (.inl h)
    · exact .inl h.1)
  obtain ⟨sub, hmk⟩ : ∃ sub, makeSubstrate T A.substrate = .ok sub := by
    cases hmk : makeSubstrate T A.substrate with
    | ok sub => exact ⟨sub, rfl⟩
    | error e =>
      have : makePipeSystem T A = .error e := by unfold makePipeSystem; rw [hmk]; rfl
      rw [this] at hY; cases hY
  obtain ⟨s, hc, rfl⟩ : ∃ s, construct (periodicArgs T) = .ok s ∧ sub = ⟨s, false, false⟩ := by
    have h2 : makeSubstrate T A.substrate = (do pure ⟨← construct (periodicArgs T), false, false⟩) := by
      unfold makeSubstrate
      rcases hks with h | h
      · rw [h]; rfl
      · rw [h.1, h.2]; rfl
    rw [h2] at hmk
    cases hc : construct (periodicArgs T) with
    | error e => rw [hc] at hmk; cases hmk
    | ok s => rw [hc] at hmk; exact ⟨s, rfl, by cases hmk; rfl⟩
  have hsol : defaultSolver T rms bisect A = ccgSolver ⟨s, false, false⟩ rms bisect A.optimizerKwargs := by unfold defaultSolver; rw [hmk]
  obtain ⟨κ, hP, hκ⟩ := periodic_flat hT rms hc hflat
  have hg : Grid ⟨s, false, false⟩ nx ny nx ny := by
    obtain ⟨d0, d1, g⟩ := grid_of_make hT hmk
    have hv : ValidArgs (periodicArgs T) := by
      unfold periodicArgs; constructor <;> simp [hT.sizes, hT.sx_pos, hT.sy_pos]
    obtain ⟨_, _, P⟩ := per_of_construct hv hc hT.heights
    have e := g.dom.symm.trans P.rep.dom
    simp only [List.cons.injEq, and_true] at e
    obtain ⟨rfl, rfl⟩ := e
    exact g
  have hcall : ∀ p : ℝ, 0 < p → ∀ pt : ℝ, 0 < pt →
      ∃ r, defaultSolver T rms bisect A ⟨T.heights, none, none, some (p * (sx * sy)), some pt, A.maxiter⟩ = .ok r ∧
        r.success = true ∧ (∀ i < nx, ∀ j < ny, r.jac.get [i, j] = p * (sx * sy) / ((nx : ℝ) * ny)) ∧
        ∀ i < nx, ∀ j < ny, r.x.get [i, j] = p * (2 / (Real.pi * (1 / sx + 1 / sy))) := by
    intro p hp pt hpt
    obtain ⟨q, k1, k2, -, k3, k4⟩ := CCG.C149_flat_load (o := ccgOptions bisect A.optimizerKwargs _ ⟨T.heights, none, none, some (p * (sx * sy)), some pt, A.maxiter⟩)
      (F := p * (sx * sy)) (pentol := pt) hP rfl (mul_pos hp hAz) rfl rfl rfl rfl rfl hpt
      hkw hkw' (by show 3 ≤ A.maxiter.toNat; omega)
    refine ⟨_, by rw [hsol]; exact (ccg_ok hg).2 ⟨q, k1, rfl⟩, k2, fun i hi j hj => ?_, fun i hi j hj => ?_⟩
    · show (fieldArray nx ny q.jac).get [i, j] = _
      rw [fieldArray_get _ hi hj, k3]
      simp [Fintype.card_prod]
    · show (fieldArray nx ny q.x).get [i, j] = _
      rw [fieldArray_get _ hi hj, k4, ← hκ]
      simp only [Fintype.card_prod, Fintype.card_fin, Nat.cast_mul]
      ring
  have hq : requests T A = ps.map fun p => .force (p * (sx * sy)) := by
    have ho : A.offsets = none := by unfold ExactlyOne at hA; rw [h1] at hA; simp at hA; exact hA.2
    unfold requests; rw [h1, ho, hT.sizes]; simp
  have hret : ∃ R reps, contactMechanicsCCG T rms bisect A = (.ok R, reps) := by
    rcases run_cases hT _ (default_fits hT rms bisect A) A hA with
      ⟨e, -, h2⟩ | ⟨Y', ds, reps', -, e1, ⟨h2, hc⟩ | ⟨e, q, rest, done, c, hd, -, -, hce, ho, hF, hH, hpt, hmi, hh⟩⟩
    · rw [hY] at h2; cases h2
    · have hl := hc.length
      rw [hq] at hl
      rw [if_neg (by rintro rfl; simp at hl; exact hne (List.length_eq_zero_iff.1 hl.symm))] at h2
      exact ⟨_, _, h2⟩
    · exfalso
      have hqm : q ∈ ps.map fun p => Request.force (p * (sx * sy)) := by rw [← hq, hd]; simp
      obtain ⟨p, hps, rfl⟩ := List.mem_map.1 hqm
      obtain ⟨r, k1, -⟩ := hcall p (hpos p hps) _ (pipePentol_pos T)
      obtain ⟨ch, cH, co, cF, cp, cm⟩ := c
      simp only [asks] at ho hF
      dsimp only at hH hpt hmi hh
      rw [heff] at hH
      subst ho hF hpt hmi
      rw [show cH = none from hH, hh (.inr heff)] at hce
      have := hce.symm.trans k1
      cases this
  obtain ⟨R, reps, h⟩ := hret
  obtain ⟨D, hl, hr, rfl, rfl⟩ := C60_pressures hT _ (default_fits hT rms bisect A) A ps h1 h
  have hrow : ∀ (k : ℕ) d, D[k]? = some d → ∃ p, ps[k]? = some p ∧ (StepData.record nx ny sx sy d).pressure = p ∧
      (StepData.record nx ny sx sy d).area = 1 ∧ (StepData.record nx ny sx sy d).converged = true ∧
      ∀ i < nx, ∀ j < ny, d.report.pressure.get [i, j] = p ∧
        d.report.displacement.get [i, j] = p * (2 / (Real.pi * (1 / sx + 1 / sy))) ∧ d.report.contacting.get [i, j] = true := by
    intro k d hd
    have hkl : k < D.length := by by_contra hc; rw [List.getElem?_eq_none (by omega)] at hd; cases hd
    have hps : ps[k]? = some (ps[k]'(by omega)) := List.getElem?_eq_getElem (by omega)
    generalize (ps[k]'(by omega)) = p at hps
    have hp := hpos p (List.mem_of_getElem? hps)
    obtain ⟨o', F, ⟨h2, h3⟩, h4⟩ := hr.call k _ hd
    have heff' : effectiveHardness A = none := by rw [← hardness_eq, heff]
    have hb := hr.fresh (.inr heff') d (List.mem_of_getElem? hd)
    have hs := hr.solved d (List.mem_of_getElem? hd)
    rw [hps] at h3
    rw [heff', hb, h2, h3] at h4
    obtain ⟨r, k1, k2, k3, k4⟩ := hcall p hp (max (T.rmsHeight / (10 * ((nx + ny) / 2))) 1e-12) (lt_of_lt_of_le (by norm_num) (le_max_right _ _))
    have e : d.result = r := by
      rw [h4] at hs
      have := hs.symm.trans k1
      simpa using this
    have hn1 : (0 : ℝ) < nx := by exact_mod_cast hT.nx_pos
    have hn2 : (0 : ℝ) < ny := by exact_mod_cast hT.ny_pos
    have htot : total nx ny r.jac = p * (sx * sy) := by
      unfold total
      rw [sum_congr rfl fun i hi => sum_congr rfl fun j hj => k3 i (by simpa using hi) j (by simpa using hj)]
      simp only [sum_const, card_range, nsmul_eq_mul]
      field_simp
    have hnb : nbPos nx ny r.jac = nx * ny := by
      unfold nbPos
      rw [filter_true_of_mem, card_product, card_range, card_range]
      intro q hq
      simp only [mem_product, mem_range] at hq
      rw [k3 _ hq.1 _ hq.2]
      positivity
    refine ⟨p, hps, ?_, ?_, ?_, fun i hi j hj => ?_⟩
    rotate_right
    · have hm := hr.report d (List.mem_of_getElem? hd)
      have e1 : d.report.pressure.get [i, j] = p := by
        rw [hm.pressure i hi j hj, e, k3 i hi j hj]
        have h1 := hT.sx_pos
        have h2 := hT.sy_pos
        field_simp
      exact ⟨e1, by rw [hm.displacement i hi j hj, e, k4 i hi j hj], (hm.contacting i hi j hj).2 (by rw [e1]; exact hp)⟩
    · show total nx ny d.result.jac / (sx * sy) = p
      rw [e, htot, mul_div_assoc, div_self hAz.ne', mul_one]
    · show (nbPos nx ny d.result.jac : ℝ) / (nx * ny) = 1
      rw [e, hnb]; push_cast; field_simp
    · show d.result.success = true
      rw [e, k2]
  have ext : ∀ {α : Type} (f : Record → α) (g : ℝ → α), (∀ (k : ℕ) d, D[k]? = some d → ∃ p, ps[k]? = some p ∧ f (StepData.record nx ny sx sy d) = g p) →
      (D.map (StepData.record nx ny sx sy)).map f = ps.map g := by
    intro α f g hf
    apply List.ext_getElem?
    intro k
    simp only [List.getElem?_map]
    cases hd : D[k]? with
    | none => rw [List.getElem?_eq_none (by rw [← hl]; exact List.getElem?_eq_none_iff.1 hd)]; rfl
    | some d =>
      obtain ⟨p, hp, h2⟩ := hf k d hd
      rw [hp]; simp [h2]
  refine ⟨_, _, h, ?_, ?_, ?_, fun hc => by rw [hc]; simpa using hl, fun k rep p h2 h3 i hi j hj => ?_⟩
  rotate_right
  · split_ifs at h2
    · rw [List.getElem?_map, Option.map_eq_some_iff] at h2
      obtain ⟨d, hd, rfl⟩ := h2
      obtain ⟨p', k1, -, -, -, k2⟩ := hrow k d hd
      rw [h3] at k1; cases k1
      exact k2 i hi j hj
    · simp at h2
  · show (D.map (StepData.record nx ny sx sy)).map (·.pressure) = ps
    rw [ext (·.pressure) id fun k d hd => ?_, List.map_id]
    obtain ⟨p, h2, h3, -⟩ := hrow k d hd
    exact ⟨p, h2, h3⟩
  · exact ext (·.area) (fun _ => 1) fun k d hd => by
      obtain ⟨p, h2, -, h3, -⟩ := hrow k d hd
      exact ⟨p, h2, h3⟩
  · exact ext (·.converged) (fun _ => true) fun k d hd => by
      obtain ⟨p, h2, -, -, h3, -⟩ := hrow k d hd
      exact ⟨p, h2, h3⟩

/-- Load control of a flat surface; by `C64_load_control` the pressures agree within tolerance, here they agree exactly. -/
example (rms : NdArray ℝ → ℝ) (bisect : Bisect) : ∃ R reps,
    contactMechanicsCCG ⟨⟨[3, 4], fun _ => 7⟩, [1, 2], true, 0⟩ rms bisect { pressures := some [1, 5, 2], callback := true } = (.ok R, reps) ∧
      R.meanPressure = [1, 5, 2] ∧ R.converged = [true, true, true] ∧ reps.length = 3 ∧
      ∀ rep, reps[1]? = some rep → rep.displacement.get [2, 3] = 5 * (2 / (Real.pi * (1 / 1 + 1 / 2))) := by
  obtain ⟨R, reps, h1, h2, -, h3, h4, h5⟩ := C149_flat_surface (T := ⟨⟨[3, 4], fun _ => 7⟩, [1, 2], true, 0⟩) (nx := 3) (ny := 4) (sx := 1) (sy := 2)
    (by constructor <;> first | rfl | norm_num) (by norm_num) (by norm_num) rms bisect
    { pressures := some [1, 5, 2], callback := true } (by norm_num) (by norm_num) (by simp) (by norm_num) (.inr ⟨rfl, rfl⟩) (by simp [ExactlyOne]) [1, 5, 2] rfl (by simp)
    (by intro p hp; simp at hp; rcases hp with rfl | rfl | rfl <;> norm_num) (h0 := 7) (fun _ _ _ _ => rfl)
  exact ⟨R, reps, h1, h2, h3, h4 rfl, fun rep hr => (h5 1 rep 5 hr rfl 2 (by norm_num) 3 (by norm_num)).2.1⟩

end CM.Pipe
