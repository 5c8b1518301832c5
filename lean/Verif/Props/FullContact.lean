import Verif.Props.HardWall4
import Verif.Props.Symmetry2
/-!
# C160 full contact, C161 elastic calculations return
-/
namespace CM.CCG
open Finset CM.Spec

variable {ι K : Type} [Fintype ι] [Field K] [LinearOrder K] [IsStrictOrderedRing K]
variable {P : Problem ι K} {o : Options ι K} {r : Result ι K}

/-- **C160** (solver) If the substrate force of the rigid surface itself, imposed as displacements at every point, is nowhere tensile,
the elastic solver at fixed offset returns exactly that state after one iteration. -/
theorem C160_solver_full_contact {pentol off : K} {f : ι → K} (hc : ∀ i, P.comp i = true) (hsl : ∀ i, P.slice i = true)
    (hforce : P.force (fun i => P.h i + off) = f) (hdisp : P.disp f = fun i => P.h i + off) (hneg : ∀ i, f i ≤ 0)
    (hH : o.hardness = .none) (hF : o.externalForce = none) (hoff : o.offset = some off) (hi : o.initialForces = none)
    (hu : ∀ i, o.initialDisplacements.getD (fun _ => 0) i ≤ P.h i + off)
    (hp : pentolOf P o = .ok pentol) (hp0 : 0 < pentol) (hft : 0 < o.forcetol) (hth : 0 < o.thermotol) (hmax : 1 ≤ o.maxiter) :
    ∃ r, solve P o = .ok r ∧ r.success = true ∧ r.nit = 1 ∧ r.x = (fun i => P.h i + off) ∧ r.jac = (fun i => -(f i)) ∧ r.offset = off := by
  have hU : initU P o = fun i => P.h i + off := by
    funext i
    simp only [initU, hoff, Option.getD_some, hc i, if_true]
    split_ifs with h
    · rfl
    · exact le_antisymm (hu i) (not_lt.1 h)
  have hsol : Solves P off f (fun i => P.h i + off) :=
    ⟨hdisp, fun i _ => le_rfl, hneg, fun i h => by rw [hc i] at h; (cases h), fun i _ _ => rfl⟩
  have hf : (initState P o).f = f := by
    funext i
    simp only [initState, hi, hU, hforce, hc i, if_true]
  have hu' : (initState P o).u = fun i => P.h i + off := by simp only [initState, hi, hU]
  obtain ⟨w, hw, hcv, h1, h2, h3⟩ := solution_step (P := P) (o := o) (s := initState P o) (off := off)
    (by rw [hf, hu']; exact hsol) hH hp0 hft hth rfl rfl (fun _ => rfl)
    (by simp [cgOffset, hF, initState, hoff]) (by intro F h; rw [hF] at h; cases h)
  refine ⟨_, solve_first_step hp hmax hw hcv, rfl, rfl, h2.trans hu', ?_, h3⟩
  funext i
  simp only [mkResult, h1, hf, hsl i, if_true]

omit [IsStrictOrderedRing K] in
/-- **C161** (solver) The elastic solver never raises, with or without an external force. -/
theorem C161_elastic_solver_returns {pentol : K} (hH : o.hardness = .none) (hp : pentolOf P o = .ok pentol) (hmax : 1 ≤ o.maxiter) :
    ∃ r, solve P o = .ok r := by
  have hstep : ∀ s, ∃ w, CCG.step P o pentol s = .ok w := by
    intro s
    have hd : doCG o s = true := by simp [doCG, hH, Hardness.isSome]
    exact ⟨_, by simp only [CCG.step, branch, hd, if_true, hH, Hardness.truth]; rfl⟩
  have hloop : ∀ fuel it s cb prev, (1 ≤ fuel ∨ ∃ w, prev = some w) →
      ∃ x, loop P o pentol fuel it s cb prev = .ok x := by
    intro fuel
    induction fuel with
    | zero =>
      intro it s cb prev h
      rcases h with h | ⟨w, rfl⟩
      · omega
      · exact ⟨_, rfl⟩
    | succ n ih =>
      intro it s cb prev _
      obtain ⟨w, hw⟩ := hstep s
      rw [loop, hw]
      simp only
      split_ifs
      · exact ⟨_, rfl⟩
      · exact ih _ _ _ _ (Or.inr ⟨w, rfl⟩)
  obtain ⟨x, hx⟩ := hloop o.maxiter 0 (initState P o) [] none (Or.inl hmax)
  exact ⟨x.1, by simp [solve, solveCb, hp, hx, Except.map]⟩

end CM.CCG

namespace CM.Pipe
open Finset CM.HS CM.FFT CM.System CM.Spec CM.Fourier
variable {T : Topo} {nx ny : ℕ} {sx sy : ℝ}

/-! ## C161 -/

/-- **C161** A calculation with at least one step, at least one iteration and a known substrate returns -- it never raises -- unless it is
plastic and under load control. -/
theorem C161_returns (hT : ValidTopo T nx ny sx sy) (hx : 1 < nx) (hy : 1 < ny) (rms : NdArray ℝ → ℝ) (bisect : Bisect)
    (A : PipeArgs) (hel : (∀ H, A.hardness = some H → H ≤ 0) ∨ A.pressures = none) (hm : 1 ≤ A.maxiter) (hks : KnownSubstrate A)
    (hA : ExactlyOne A) (hn : 0 < nbSteps A) :
    ∃ R reps, contactMechanicsCCG T rms bisect A = (.ok R, reps) := by
  obtain ⟨Y, hY⟩ := system_ok hT hx hy A hks
  rcases run_cases hT _ (default_fits hT rms bisect A) A hA with
    ⟨e, -, h2⟩ | ⟨Y', ds, reps', -, e1, ⟨h2, hc⟩ | ⟨e, q, rest, done, c, hd, -, -, hce, ho, hF, hH, hpt, hmi, hh⟩⟩
  · rw [hY] at h2; cases h2
  · have hl := hc.length
    rw [requests_length A hA] at hl
    rw [if_neg (by rintro rfl; simp at hl; omega)] at h2
    exact ⟨_, _, h2⟩
  · exfalso
    unfold defaultSolver at hce
    cases hmk : makeSubstrate T A.substrate with
    | error e =>
      have : makePipeSystem T A = .error e := by unfold makePipeSystem; rw [hmk]; rfl
      rw [this] at hY; cases hY
    | ok sub =>
      rw [hmk] at hce
      obtain ⟨d0, d1, g⟩ := grid_of_make hT hmk
      have hp : CCG.pentolOf (ccgProblem sub rms d0 d1 nx ny c.heights) (ccgOptions bisect A.optimizerKwargs _ c) = .ok (pipePentol T) := by
        unfold CCG.pentolOf ccgOptions
        simp only [hpt]
      have hmax : 1 ≤ (ccgOptions bisect A.optimizerKwargs (Fin d0 × Fin d1) c).maxiter := by
        show 1 ≤ c.maxiter.toNat
        rw [hmi]; omega
      have : ∃ r, CCG.solve (ccgProblem sub rms d0 d1 nx ny c.heights) (ccgOptions bisect A.optimizerKwargs _ c) = .ok r := by
        cases hcH : c.hardness with
        | none => exact CCG.C161_elastic_solver_returns (by simp only [ccgOptions, hcH]) hp hmax
        | some H =>
          refine CCG.C46_scalar_hardness_partial (H := H) (by simp only [ccgOptions, hcH]) ?_ hp hmax
          show c.externalForce = none
          rw [hF]
          have hpn : A.pressures = none := by
            rcases hel with hel | hel
            · have : usedHardness A = none := by
                unfold usedHardness
                cases hA : A.hardness with
                | none => rfl
                | some H => simp [hel H hA]
              rw [hcH, this] at hH
              cases hH
            · exact hel
          have hq : q ∈ requests T A := by rw [hd]; simp
          unfold requests at hq
          rw [hpn] at hq
          cases hof : A.offsets with
          | none =>
            rw [hof] at hq
            simp only at hq
            rw [(List.mem_replicate.1 hq).2]
            rfl
          | some os =>
            rw [hof] at hq
            obtain ⟨o, -, rfl⟩ := List.mem_map.1 hq
            rfl
      obtain ⟨r, hr⟩ := this
      have := (ccg_ok (kw := A.optimizerKwargs) g).2 ⟨r, hr, rfl⟩
      have := hce.symm.trans this; cases this

/-- A plastic calculation with automatic steps on a nonperiodic substrate, and an elastic one under load control. -/
example (rms : NdArray ℝ → ℝ) (bisect : Bisect) :
    (∃ R reps, contactMechanicsCCG demoTopo rms bisect { nsteps := some 5, hardness := some 2, substrate := some "nonperiodic" } = (.ok R, reps)) ∧
    ∃ R reps, contactMechanicsCCG demoTopo rms bisect { pressures := some [1, 2], substrate := some "periodic" } = (.ok R, reps) := by
  constructor
  · exact C161_returns demoTopo_valid (by norm_num) (by norm_num) rms bisect _ (.inr rfl) (by norm_num) (by simp [KnownSubstrate])
      (by simp [ExactlyOne]) (by simp [nbSteps])
  · exact C161_returns demoTopo_valid (by norm_num) (by norm_num) rms bisect _ (.inl (by simp)) (by norm_num) (by simp [KnownSubstrate])
      (by simp [ExactlyOne]) (by simp [nbSteps])

/-! ## C160 -/

lemma onGrid_ok {eval : NdArray ℝ → Except PyErr (NdArray ℝ)} {d0 d1 : ℕ} {f : Fin d0 × Fin d1 → ℝ} {v : NdArray ℝ}
    (h : eval (fieldArray d0 d1 f) = .ok v) (p : Fin d0 × Fin d1) : onGrid eval d0 d1 f p = v.get [p.1, p.2] := by
  unfold onGrid; rw [h]

/-- On the periodic half-space of the pipeline `evaluate_disp` and `evaluate_force` are inverse to each other. -/
lemma periodic_inverse (hT : ValidTopo T nx ny sx sy) {s : HalfSpace} (hc : construct (periodicArgs T) = .ok s) (u : Fin nx × Fin ny → ℝ) :
    onGrid (HS.evaluateDisp s) nx ny (onGrid (HS.evaluateForce s) nx ny u) = u ∧
    onGrid (HS.evaluateForce s) nx ny (onGrid (HS.evaluateDisp s) nx ny u) = u := by
  have hsz : T.physicalSizes = [sx, sy] := hT.sizes
  have hv : ValidArgs (periodicArgs T) := by
    unfold periodicArgs; constructor <;> simp [hsz, hT.sx_pos, hT.sy_pos]
  obtain ⟨_, _, P⟩ := per_of_construct hv hc hT.heights
  have hγ : 0 < gammaStiffness (periodicArgs T) := by
    have h1 := P.sx_pos
    have h2 := P.sy_pos
    have h3 : 0 < contactModulus (periodicArgs T) := by simp [contactModulus, periodicArgs]
    have h4 := Real.pi_pos
    show 0 < (contactModulus (periodicArgs T) / 2 * (2 * Real.pi / size (periodicArgs T) 0) + contactModulus (periodicArgs T) / 2 * (2 * Real.pi / size (periodicArgs T) 1)) / 2
    positivity
  have hfa : ∀ (f : NdArray ℝ) (g : Fin nx × Fin ny → ℝ), (∀ p, g p = f.get [p.1, p.2]) →
      tor nx ny (fun i j => (fieldArray nx ny g).get [i, j]) = tor nx ny (fun i j => f.get [i, j]) := by
    intro f g h
    refine HS.tor_congr fun i j hi hj => ?_
    rw [fieldArray_get _ hi hj, h]
  constructor
  · obtain ⟨f, u', h1, h2, h3⟩ := C02_disp_force_inverse hv hc hT.heights hγ.ne' (fieldArray nx ny u) rfl
    funext p
    have e : ∀ p, onGrid (HS.evaluateForce s) nx ny u p = f.get [p.1, p.2] := fun p => by unfold onGrid; rw [h1]
    obtain ⟨v, k1, -, k2⟩ := P.rep.disp_ok (f := fieldArray nx ny (onGrid (HS.evaluateForce s) nx ny u)) rfl
    obtain ⟨w, k3, -, k4⟩ := P.rep.disp_ok (f := f) (by
      obtain ⟨w, k3, k4, -⟩ := P.rep.force_ok (u := fieldArray nx ny u) rfl
      rw [h1] at k3; cases k3; exact k4)
    rw [h2] at k3; cases k3
    rw [onGrid_ok k1, k2, hfa f _ e, ← k4, h3 _ _ p.1.isLt p.2.isLt, fieldArray_get _ p.1.isLt p.2.isLt]
  · obtain ⟨f, u', h1, h2, h3⟩ := C02_force_disp_inverse hv hc hT.heights hγ.ne' (fieldArray nx ny u) rfl
    funext p
    have e : ∀ p, onGrid (HS.evaluateDisp s) nx ny u p = f.get [p.1, p.2] := fun p => by unfold onGrid; rw [h1]
    obtain ⟨v, k1, -, k2⟩ := P.rep.force_ok (u := fieldArray nx ny (onGrid (HS.evaluateDisp s) nx ny u)) rfl
    obtain ⟨w, k3, -, k4⟩ := P.rep.force_ok (u := f) (by
      obtain ⟨w, k3, k4, -⟩ := P.rep.disp_ok (f := fieldArray nx ny u) rfl
      rw [h1] at k3; cases k3; exact k4)
    rw [h2] at k3; cases k3
    rw [onGrid_ok k1, k2, hfa f _ e, ← k4, h3 _ _ p.1.isLt p.2.isLt, fieldArray_get _ p.1.isLt p.2.isLt]

/-- The substrate of a periodic calculation. -/
lemma periodic_make (hT : ValidTopo T nx ny sx sy) {k : Option String} {sub : Substrate} (hks : k = some "periodic" ∨ (k = none ∧ T.isPeriodic = true))
    (hm : makeSubstrate T k = .ok sub) : ∃ s, construct (periodicArgs T) = .ok s ∧ sub = ⟨s, false, false⟩ ∧ Grid sub nx ny nx ny := by
  have h2 : makeSubstrate T k = (do pure ⟨← construct (periodicArgs T), false, false⟩) := by
    unfold makeSubstrate
    rcases hks with h | h
    · rw [h]; rfl
    · rw [h.1, h.2]; rfl
  obtain ⟨d0, d1, g⟩ := grid_of_make hT hm
  rw [h2] at hm
  cases hc : construct (periodicArgs T) with
  | error e => rw [hc] at hm; cases hm
  | ok s =>
    rw [hc] at hm; cases hm
    have hv : ValidArgs (periodicArgs T) := by
      unfold periodicArgs; constructor <;> simp [hT.sizes, hT.sx_pos, hT.sy_pos]
    obtain ⟨_, _, P⟩ := per_of_construct hv hc hT.heights
    have e := g.dom.symm.trans P.rep.dom
    simp only [List.cons.injEq, and_true] at e
    obtain ⟨rfl, rfl⟩ := e
    exact ⟨s, rfl, rfl, g⟩

/-- **C160** In an elastic calculation with offsets on a periodic substrate: at every offset where the surface is nowhere below the undeformed
substrate and the exact solution is in full contact, the first iteration of the solver finds this solution. The row says: converged, contact
area 1, no gap, and the pressure by which the uniform stiffness `π (1/sx + 1/sy) / 2` resists the mean of the surface; the callback receives
the exact pressures, the heights plus offset as displacements, and gaps of zero. -/
theorem C160_full_contact (hT : ValidTopo T nx ny sx sy) {rms : NdArray ℝ → ℝ} {bisect : Bisect} {A : PipeArgs}
    (hkw : 0 < A.optimizerKwargs.forcetol) (hkw' : 0 < A.optimizerKwargs.thermotol) (hel : ∀ H, A.hardness = some H → H ≤ 0)
    (hm : 1 ≤ A.maxiter) (hks : A.substrate = some "periodic" ∨ (A.substrate = none ∧ T.isPeriodic = true)) {os : List ℝ} (h1 : A.offsets = some os)
    {R : Result} {reps : List Report} (h : contactMechanicsCCG T rms bisect A = (.ok R, reps))
    {k : ℕ} {o : ℝ} (hk : os[k]? = some o) (hpos : ∀ x, 0 ≤ wall T nx ny o x) {p u : Fin nx × Fin ny → ℝ}
    (hex : ExactContact T A.substrate nx ny sx sy o p u) (hfull : ∀ x, 0 < p x) :
    (R.meanPressure[k]? = some ((mean nx ny T.heights + o) * (Real.pi * (1 / sx + 1 / sy) / 2)) ∧ R.totalContactArea[k]? = some 1 ∧
      R.meanDisplacement[k]? = some o ∧ R.meanGap[k]? = some 0 ∧ R.converged[k]? = some true) ∧
    ∀ rep, reps[k]? = some rep → field nx ny rep.pressure = p ∧ field nx ny rep.displacement = wall T nx ny o ∧
      (∀ x, field nx ny rep.gap x = 0) ∧ ∀ i < nx, ∀ j < ny, rep.contacting.get [i, j] = true := by
  obtain ⟨sub, hmk, rfl, hw⟩ := hex.solves
  obtain ⟨s, hc, rfl, g⟩ := periodic_make hT hks hmk
  have U := answer_per hT hmk rfl
  have h5 := hT.sx_pos
  have h6 := hT.sy_pos
  have h7 : (0 : ℝ) < nx := by exact_mod_cast hT.nx_pos
  have h8 : (0 : ℝ) < ny := by exact_mod_cast hT.ny_pos
  set a := sx * sy / ((nx : ℝ) * ny) with ha
  have ha0 : 0 < a := by positivity
  have hu : answer ⟨s, false, false⟩ a nx ny p = wall T nx ny o := funext fun x => hw.touching x (hfull x).ne'
  have hon : onGrid (HS.evaluateDisp s) nx ny (fun y => -(p y * a)) = wall T nx ny o := hu
  -- the call of the solver
  have hcall : ∀ pt : ℝ, 0 < pt → ∃ r, defaultSolver T rms bisect A ⟨T.heights, none, some o, none, some pt, A.maxiter⟩ = .ok r ∧
      r.success = true ∧ r.offset = o ∧ (∀ i (hi : i < nx) j (hj : j < ny), r.jac.get [i, j] = p (⟨i, hi⟩, ⟨j, hj⟩) * a) ∧
      ∀ i < nx, ∀ j < ny, r.x.get [i, j] = T.heights.get [i, j] + o := by
    intro pt hpt
    obtain ⟨q, k1, k2, -, k3, k4, k5⟩ := CCG.C160_solver_full_contact (P := ccgProblem ⟨s, false, false⟩ rms nx ny nx ny T.heights)
      (o := ccgOptions bisect A.optimizerKwargs _ ⟨T.heights, none, some o, none, some pt, A.maxiter⟩) (off := o) (pentol := pt)
      (f := fun y => -(p y * a)) (fun x => by simp [ccgProblem]) (fun x => by simp [ccgProblem])
      (by
        have := (periodic_inverse hT hc fun y => -(p y * a)).2
        rw [hon] at this
        exact this)
      hon (fun x => by have := mul_pos (hfull x) ha0; linarith) rfl rfl rfl rfl (fun x => hpos x) rfl hpt hkw hkw'
      (by show 1 ≤ A.maxiter.toNat; omega)
    have hsol : defaultSolver T rms bisect A = ccgSolver ⟨s, false, false⟩ rms bisect A.optimizerKwargs := by unfold defaultSolver; rw [hmk]
    refine ⟨_, by rw [hsol]; exact (ccg_ok g).2 ⟨q, k1, rfl⟩, k2, k5, fun i hi j hj => ?_, fun i hi j hj => ?_⟩
    · show (fieldArray nx ny q.jac).get [i, j] = _
      rw [fieldArray_get _ hi hj, k4]
      exact neg_neg _
    · show (fieldArray nx ny q.x).get [i, j] = _
      rw [fieldArray_get _ hi hj, k3]
      rfl
  -- the step
  have heff : effectiveHardness A = none := by
    unfold effectiveHardness
    cases hA : A.hardness with
    | none => rfl
    | some H => simp [hel H hA]
  obtain ⟨D, hl, hr, rfl, rfl⟩ := C60_offsets hT _ (default_fits hT rms bisect A) A os h1 h
  have hkl : k < D.length := by rw [hl]; by_contra hc; rw [List.getElem?_eq_none (by omega)] at hk; cases hk
  have hd : D[k]? = some D[k] := List.getElem?_eq_getElem hkl
  obtain ⟨o', F, ⟨h2, h3⟩, h4⟩ := hr.call k _ hd
  have hb := hr.fresh (.inr heff) _ (List.getElem_mem hkl)
  have hs := hr.solved _ (List.getElem_mem hkl)
  have hrm := hr.report _ (List.getElem_mem hkl)
  rw [hk] at h2
  rw [heff, hb, h2, h3] at h4
  rw [h4] at hs
  obtain ⟨r, k1, k2, k3, k4, k5⟩ := hcall (max (T.rmsHeight / (10 * ((nx + ny) / 2))) 1e-12) (lt_of_lt_of_le (by norm_num) (le_max_right _ _))
  have hdr : D[k].result = r := by
    have := hs.symm.trans k1
    simpa using this
  rw [hdr] at hrm
  -- the mean pressure
  have htot : total nx ny r.jac = (mean nx ny T.heights + o) * (Real.pi * (1 / sx + 1 / sy) / 2) * (sx * sy) := by
    have e1 : total nx ny r.jac = (∑ x, p x) * a := by
      unfold total
      rw [← Fin.sum_univ_eq_sum_range (fun i => ∑ j ∈ range ny, r.jac.get [i, j]), sum_mul, Fintype.sum_prod_type]
      refine sum_congr rfl fun i _ => ?_
      rw [← Fin.sum_univ_eq_sum_range (fun j => r.jac.get [i.val, j])]
      exact sum_congr rfl fun j _ => k4 i i.isLt j j.isLt
    have e2 : ∑ x, wall T nx ny o x = 2 / (Real.pi * (1 / sx + 1 / sy)) * ∑ x, p x := by
      have := U.recip.symm (fun _ => 1) p
      rw [U.uniform, hu] at this
      simp only [dot, one_mul, mul_one] at this
      rw [this, mul_sum]
      exact sum_congr rfl fun x _ => mul_comm _ _
    have e3 : ∑ x, wall T nx ny o x = (mean nx ny T.heights + o) * (nx * ny) := by
      unfold wall mean
      rw [sum_add_distrib, Fintype.sum_prod_type, ← Fin.sum_univ_eq_sum_range (fun i => ∑ j ∈ range ny, T.heights.get [i, j])]
      simp only [sum_const, card_univ, nsmul_eq_mul, Fintype.card_prod, Fintype.card_fin, Nat.cast_mul]
      have : ∀ i : Fin nx, ∑ j ∈ range ny, T.heights.get [i.val, j] = ∑ j : Fin ny, T.heights.get [i.val, j.val] := fun i =>
        (Fin.sum_univ_eq_sum_range (fun j => T.heights.get [i.val, j]) ny).symm
      simp only [this]
      field_simp
    rw [e3] at e2
    rw [e1, ha]
    have hpi := Real.pi_pos
    have e4 : (∑ x, p x) = (mean nx ny T.heights + o) * (nx * ny) * (Real.pi * (1 / sx + 1 / sy) / 2) := by
      rw [e2]; field_simp
    rw [e4]; field_simp
  have hxmean : mean nx ny r.x = mean nx ny T.heights + o := by
    unfold mean
    rw [sum_congr rfl fun i hi => sum_congr rfl fun j hj => k5 i (by simpa using hi) j (by simpa using hj)]
    simp only [sum_add_distrib, sum_const, card_range, nsmul_eq_mul]
    field_simp
  have hnb : nbPos nx ny r.jac = nx * ny := by
    unfold nbPos
    rw [filter_true_of_mem, card_product, card_range, card_range]
    intro q hq
    simp only [mem_product, mem_range] at hq
    rw [k4 _ hq.1 _ hq.2]
    exact mul_pos (hfull _) ha0
  have hrec : StepData.record nx ny sx sy D[k] = ⟨o, 0, (mean nx ny T.heights + o) * (Real.pi * (1 / sx + 1 / sy) / 2), 1, true⟩ := by
    unfold StepData.record recordOf
    rw [hdr, hb, htot, hxmean, hnb, k2, k3]
    congr 1
    · ring
    · field_simp
    · push_cast; field_simp
  refine ⟨by simp only [columns, List.getElem?_map, hd, Option.map_some, hrec]; simp, fun rep hrep => ?_⟩
  have : rep = D[k].report := by
    split_ifs at hrep
    · rw [List.getElem?_map, hd] at hrep
      simpa using hrep.symm
    · simp at hrep
  subst this
  have hpr : ∀ i (hi : i < nx) j (hj : j < ny), D[k].report.pressure.get [i, j] = p (⟨i, hi⟩, ⟨j, hj⟩) := by
    intro i hi j hj
    rw [hrm.pressure i hi j hj, k4 i hi j hj, ← ha]
    field_simp
  refine ⟨funext fun x => hpr _ x.1.isLt _ x.2.isLt, funext fun x => ?_, fun x => ?_, fun i hi j hj => ?_⟩
  · exact (hrm.displacement _ x.1.isLt _ x.2.isLt).trans (k5 _ x.1.isLt _ x.2.isLt)
  · show D[k].report.gap.get _ = 0
    rw [hrm.gap _ x.1.isLt _ x.2.isLt, heff, k5 _ x.1.isLt _ x.2.isLt, k3]
    simp only [heightAfter, Option.isSome_none, Bool.false_and, Bool.false_eq_true, if_false, hb]
    simp
  · exact (hrm.contacting i hi j hj).2 (by rw [hpr i hi j hj]; exact hfull _)

/-- **C160** Every periodic surface is in full contact at all large enough offsets. -/
theorem C160_deep_offsets (hT : ValidTopo T nx ny sx sy) {k : Option String} (hks : k = some "periodic" ∨ (k = none ∧ T.isPeriodic = true))
    {sub : Substrate} (hm : makeSubstrate T k = .ok sub) :
    ∃ o₀, ∀ o, o₀ ≤ o → (∀ x, 0 ≤ wall T nx ny o x) ∧ ∃ p, ExactContact T k nx ny sx sy o p (wall T nx ny o) ∧ ∀ x, 0 < p x := by
  obtain ⟨s, hc, rfl, g⟩ := periodic_make hT hks hm
  have U := answer_per hT hm rfl
  have h5 := hT.sx_pos
  have h6 := hT.sy_pos
  have h7 : (0 : ℝ) < nx := by exact_mod_cast hT.nx_pos
  have h8 : (0 : ℝ) < ny := by exact_mod_cast hT.ny_pos
  have hpi := Real.pi_pos
  set a := sx * sy / ((nx : ℝ) * ny) with ha
  have ha0 : 0 < a := by positivity
  set κ := 2 / (Real.pi * (1 / sx + 1 / sy)) with hκ
  have hκ0 : 0 < κ := by positivity
  let q : Fin nx × Fin ny → ℝ := fun x => -(onGrid (HS.evaluateForce s) nx ny (field nx ny T.heights) x) / a
  have hq : answer ⟨s, false, false⟩ a nx ny q = field nx ny T.heights := by
    have e : (fun y => -(q y * a)) = onGrid (HS.evaluateForce s) nx ny (field nx ny T.heights) := by
      funext y; simp only [q]; field_simp
    have := (periodic_inverse hT hc (field nx ny T.heights)).1
    rw [← e] at this
    exact this
  refine ⟨∑ x, |field nx ny T.heights x| + κ * ∑ x, (|q x| + 1), fun o ho => ?_⟩
  have hb1 : ∀ x, |field nx ny T.heights x| ≤ ∑ x, |field nx ny T.heights x| := fun x =>
    single_le_sum (f := fun x => |field nx ny T.heights x|) (fun _ _ => abs_nonneg _) (mem_univ x)
  have hb2 : ∀ x, |q x| + 1 ≤ ∑ x, (|q x| + 1) := fun x =>
    single_le_sum (f := fun x => |q x| + 1) (fun _ _ => by positivity) (mem_univ x)
  have hs1 : 0 ≤ ∑ x, |field nx ny T.heights x| := sum_nonneg fun _ _ => abs_nonneg _
  have hs2 : 0 ≤ ∑ x, (|q x| + 1) := sum_nonneg fun _ _ => by positivity
  refine ⟨fun x => ?_, fun x => 1 * q x + 1 * (o / κ), ?_, fun x => ?_⟩
  · have := hb1 x
    have := neg_abs_le (field nx ny T.heights x)
    show 0 ≤ field nx ny T.heights x + o
    have := mul_nonneg hκ0.le hs2
    linarith
  · have e : answer ⟨s, false, false⟩ a nx ny (fun x => 1 * q x + 1 * (o / κ)) = wall T nx ny o := by
      rw [U.recip.lin 1 1 q fun _ => o / κ, hq, U.uniform]
      funext x
      show 1 * T.heights.get _ + 1 * (κ * (o / κ)) = T.heights.get _ + o
      field_simp
    refine ⟨⟨_, hm, e.symm, ?_, fun x => (congrFun e x).ge, fun x _ => congrFun e x⟩⟩
    intro x
    have := hb2 x
    have := neg_abs_le (q x)
    have h9 : ∑ x, (|q x| + 1) ≤ o / κ := by rw [le_div_iff₀ hκ0]; linarith
    linarith
  · have := hb2 x
    have := neg_abs_le (q x)
    have h9 : ∑ x, (|q x| + 1) ≤ o / κ := by rw [le_div_iff₀ hκ0]; linarith
    linarith

/-- A deep offset on the demonstration surface (heights `i - 2j`), and the hypotheses of `C157_contact_conditions_suffice` and
`C157_same_load_error` on what the callback then receives. -/
example (rms : NdArray ℝ → ℝ) (bisect : Bisect) : ∃ o R rep, 
    contactMechanicsCCG demoTopo rms bisect { offsets := some [o], substrate := some "periodic", callback := true } = (.ok R, [rep]) ∧
      R.converged = [true] ∧ R.totalContactArea = [1] ∧ R.meanGap = [0] ∧
      (∀ x, 0 < field 3 4 rep.pressure x) ∧ (∀ x, wall demoTopo 3 4 rep.meanDisplacement x ≤ field 3 4 rep.displacement x) ∧
      (∀ x, field 3 4 rep.gap x = 0) ∧ ∃ p u, ExactContact demoTopo (some "periodic") 3 4 1 2 rep.meanDisplacement p u ∧ avg p = rep.meanPressure := by
  obtain ⟨Y, hY⟩ := system_ok demoTopo_valid (by norm_num) (by norm_num) { offsets := some [0], substrate := some "periodic" } (.inr (.inl rfl))
  cases hm : makeSubstrate demoTopo (some "periodic") with
  | error e =>
    have : makePipeSystem demoTopo { offsets := some [0], substrate := some "periodic" } = .error e := by unfold makePipeSystem; rw [hm]; rfl
    rw [this] at hY; cases hY
  | ok sub =>
    obtain ⟨o, ho⟩ := C160_deep_offsets demoTopo_valid (.inl rfl) hm
    obtain ⟨h1, p, h2, h3⟩ := ho o le_rfl
    obtain ⟨R, reps, h⟩ := C161_returns demoTopo_valid (by norm_num) (by norm_num) rms bisect
      { offsets := some [o], substrate := some "periodic", callback := true } (.inl (by simp)) (by norm_num) (.inr (.inl rfl)) (by simp [ExactlyOne]) (by simp [nbSteps])
    obtain ⟨⟨-, k2, k3, k4, k5⟩, k6⟩ := C160_full_contact demoTopo_valid (by norm_num) (by norm_num) (by simp) (by norm_num) (.inl rfl) rfl h
      (k := 0) rfl h1 h2 h3
    obtain ⟨D, hl, hr, rfl, rfl⟩ := C60_offsets demoTopo_valid _ (default_fits demoTopo_valid rms bisect _) _ [o] rfl h
    obtain ⟨d, rfl⟩ := List.length_eq_one_iff.1 hl
    obtain ⟨e1, e2, e3, -⟩ := k6 d.report rfl
    have hmd : d.report.meanDisplacement = o := by
      rw [(hr.report d (by simp)).meanDisplacement]
      simpa [columns, StepData.record, recordOf] using k3
    have hst := report_state demoTopo_valid (by simp) h (rep := d.report) (by simp) hm
    refine ⟨o, _, d.report, h, ?_, ?_, ?_, fun x => by rw [e1]; exact h3 x, fun x => by rw [e2, hmd], e3, p, _, by rw [hmd]; exact h2, by rw [hst.2.2, e1]⟩
    · simpa [columns] using k5
    · simpa [columns] using k2
    · simpa [columns] using k4

end CM.Pipe
