import Verif.Props.Systems3
/-!
# C58 plasticity, C112 self-consistent results of the proxies, concrete systems
-/
set_option linter.unusedSimpArgs false
namespace CM.System
open Finset CM.HS CM.FFT CM.Spec

variable {nx ny : ℕ} {S : Sys} {a : Args}

/-! ## Concrete systems -/

/-- A wavy topography on 3×4 points, on the demonstration substrate. -/
noncomputable def demoHeights (sh : List ℕ) : NdArray ℝ :=
  ⟨sh, fun x => match x with | [i, j] => (i : ℝ) - 2 * j | _ => 0⟩

lemma demo_system : ∃ S, PeriodicSystem S demoArgs 3 4 ∧ 0 < gammaStiffness demoArgs ∧
    mkSystem S.sub S.heights = .ok S ∧ S.heights.get [1, 2] ≠ 0 := by
  obtain ⟨s, hs⟩ := demo_ok
  obtain ⟨hgr, -⟩ : s.nbGridPts = [3, 4] ∧ True := by
    obtain ⟨_, _, P⟩ := per_of_construct demo_valid hs rfl; exact ⟨P.grid, trivial⟩
  obtain ⟨S, h1, h2, h3, -⟩ := (C56_incompatible_resolution_iff ⟨s, false, false⟩ (demoHeights [3, 4])).2 hgr.symm
  refine ⟨S, ⟨demo_valid, by rw [h2]; exact hs, rfl, by rw [h2], by rw [h3]; rfl⟩, ?_, by rw [h2, h3, h1], ?_⟩
  · have := Real.pi_pos
    simp only [gammaStiffness, demoArgs, contactModulus, size]
    norm_num; positivity
  · rw [h3]; norm_num [demoHeights]

lemma demo_free_system : ∃ S, FreeSystem S demoFree 2 3 ∧ mkSystem S.sub S.heights = .ok S ∧ S.heights.get [1, 2] ≠ 0 := by
  obtain ⟨s, hs⟩ := demoFree_ok
  have hgr : s.nbGridPts = [2, 3] := by
    obtain ⟨_, _, P⟩ := free_of_construct demoFree_valid hs rfl; exact P.grid
  obtain ⟨S, h1, h2, h3, -⟩ := (C56_incompatible_resolution_iff ⟨s, true, true⟩ (demoHeights [2, 3])).2 hgr.symm
  refine ⟨S, ⟨demoFree_valid, by rw [h2]; exact hs, rfl, by rw [h2], by rw [h3]; rfl⟩, by rw [h2, h3, h1], ?_⟩
  rw [h3]; norm_num [demoHeights]

/-- Hypotheses of C49-C51, C111: a system, feasible gaps and pressures that are not all zero. -/
example : ∃ S g p, PeriodicSystem S demoArgs 3 4 ∧ 0 < gammaStiffness demoArgs ∧ NdArray.size g = 3 * 4 ∧
    NdArray.size p = 3 * 4 ∧ (∀ k < 3 * 4, (0 : ℝ) ≤ g.flat k) ∧ (∀ k < 3 * 4, (0 : ℝ) ≤ p.flat k) ∧ g.flat 0 ≠ 0 ∧ p.flat 0 ≠ 0 := by
  obtain ⟨S, h, hγ, -⟩ := demo_system
  exact ⟨S, ⟨[12], fun _ => 1⟩, ⟨[3, 4], fun _ => 2⟩, h, hγ, rfl, rfl, fun _ _ => by norm_num [NdArray.flat],
    fun _ _ => by norm_num [NdArray.flat], by norm_num [NdArray.flat], by norm_num [NdArray.flat]⟩

/-- Hypotheses of C111: a flat punch pressed in by 1 is in full contact, gap zero and positive pressure
everywhere, and satisfies the optimality conditions. -/
example : ∃ S g G E S1, PeriodicSystem S demoArgs 3 4 ∧ 0 < gammaStiffness demoArgs ∧ NdArray.size g = 3 * 4 ∧
    primalObjective S 1 g = (.ok (some E, G), S1) ∧ KKT (3 * 4) g G ∧ ∀ k < 3 * 4, 0 < G.flat k := by
  obtain ⟨S0, h0, hγ, -⟩ := demo_system
  let S : Sys := { S0 with heights := ⟨[3, 4], fun _ => 0⟩ }
  have h : PeriodicSystem S demoArgs 3 4 := ⟨h0.valid, h0.built, h0.grid, h0.periodic, rfl⟩
  obtain ⟨f, hf, hfv⟩ := C08_gamma_response h.valid h.built h.grid 1
  obtain ⟨f', e, hfs⟩ := (symOp_force h).ok ⟨[3, 4], fun _ => 1⟩ rfl
  rw [hf] at e; cases e
  obtain ⟨E, F, G, S1, k1, k2, k3, k4⟩ := C49_primal_value h 1 ⟨[12], fun _ => 0⟩ rfl ⟨[3, 4], fun _ => 1⟩ rfl
    (fun k _ => by simp [NdArray.flat, S])
  rw [evaluate_true h hf] at k1
  obtain ⟨-, rfl⟩ : _ ∧ f = F := by simpa using k1
  have hG : ∀ k < 3 * 4, 0 < G.flat k := by
    intro k hk
    obtain ⟨i, j, hi, hj, rfl, e⟩ := get_of_flat hfs hk
    rw [k4 _ hk, e, hfv i j hi hj, neg_neg]
    have : size demoArgs 0 = 1 ∧ size demoArgs 1 = 2 := by simp [size, demoArgs]
    rw [this.1, this.2]; positivity
  exact ⟨S, ⟨[12], fun _ => 0⟩, G, E, S1, h, hγ, rfl, k2, ⟨fun _ _ => le_rfl, fun k hk => (hG k hk).le,
    fun _ _ => by simp [NdArray.flat]⟩, hG⟩

/-- Hypotheses of C52-C54: failing runs that called the objective, and a successful result. -/
example : ∃ (S : Sys) (run : SolverRun) (g : NdArray ℝ), PeriodicSystem S demoArgs 3 4 ∧ "l-bfgs-b" ∈ solverNames ∧
    run.result.success = false ∧ (∀ p ∈ run.points, p.size = 3 * 4) ∧ run.points.getLast? = some g ∧ g.flat 0 = 3 := by
  obtain ⟨S, h, -⟩ := demo_system
  refine ⟨S, ⟨[⟨[12], fun _ => 1⟩, ⟨[3, 4], fun _ => 3⟩], false, ⟨[12], fun _ => 0⟩, ⟨[12], fun _ => 0⟩, 0, ⟨[12], fun _ => false⟩, ⟨[12], fun _ => false⟩⟩,
    ⟨[3, 4], fun _ => 3⟩, h, by simp [solverNames], rfl, ?_, rfl, rfl⟩
  intro p hp
  simp only [List.mem_cons, List.not_mem_nil, or_false] at hp
  rcases hp with rfl | rfl <;> rfl

example : ∃ (S : Sys) (r r' : OptResult) (S' : Sys), System2 S 3 4 ∧ r.success = true ∧ r.jac.shape = [3, 4] ∧
    minimizeProxy S (.ok r) = (.ok r', S') ∧ computeNormalForce S' = .ok 24 := by
  obtain ⟨S, h, -⟩ := demo_system
  let r : OptResult := ⟨true, ⟨[3, 4], fun _ => 1⟩, ⟨[3, 4], fun _ => 2⟩, 0, ⟨[3, 4], fun _ => false⟩, ⟨[3, 4], fun _ => true⟩⟩
  have hc : (clear S).sub.check r.jac = .ok () := by
    unfold Substrate.check; rw [if_neg (by show ¬(S.sub.free = true ∧ _); rw [h.periodic]; simp)]
  have hm : minimizeProxy S (.ok r) = (.ok r, (minimizeProxy S (.ok r)).2) := by
    unfold minimizeProxy
    simp only [show r.success = true from rfl, if_true, hc]
  refine ⟨S, r, r, _, .inl ⟨_, h⟩, rfl, rfl, hm, ?_⟩
  rw [(C53_contact_area (.inl ⟨_, h⟩) r rfl rfl hm).2.2.2.2.2.2]
  norm_num [NdArray.flat, r]

/-! ## C112: results of the proxies -/

/-- **C112** After a successful `primal_minimize_proxy` the stored fields fit together: the gap is the one
`compute_gap` returns for the stored displacement and offset, contact points are those with zero gap, and
the normal force is the sum of the stored forces. -/
theorem C112_primal_proxy_consistent (h : System2 S nx ny) (off : ℝ) (g0 : NdArray ℝ)
    {solver : String} (run : SolverRun) (hx : run.result.x.shape = [nx, ny]) {r : OptResult} {S' : Sys}
    (hres : primalMinimizeProxy S off (some g0) solver run = (.ok r, S')) (hr : r.success = true) :
    ∃ d g, r = run.result ∧ S'.disp = some d ∧ S'.gap = some r.x ∧ S'.force = some r.jac ∧ S'.offset = some off ∧
      computeGap S' d off = .ok g ∧ (∀ x, validIndex [nx, ny] x → g.get x = r.x.get x) ∧
      S'.contactZone = some (r.x.map fun v => decide (v = 0)) ∧ computeNormalForce S' = .ok r.jac.sum := by
  unfold primalMinimizeProxy at hres
  by_cases hs : solver ∉ solverNames
  · rw [if_pos hs] at hres; cases hres
  rw [if_neg hs] at hres
  dsimp only at hres
  split at hres
  · cases hres
  rename_i hst
  have hfr := callAll_frame (obj := fun S => primalObjective S off) (fun T => T.sub = S.sub ∧ T.heights = S.heights)
    (fun T p hT => by
      obtain ⟨-, -, e1, e2⟩ := primalObjective_frame T off p
      exact ⟨e1.trans hT.1, e2.trans hT.2⟩) run.points (clear S) ⟨rfl, rfl⟩
  split at hres
  · cases hres
  rename_i S1 hc
  rw [hc] at hfr
  obtain ⟨hsub, hhe⟩ := hfr
  dsimp only at hsub hhe
  split at hres
  swap
  · rename_i hn; cases hres; exact absurd hr hn
  obtain ⟨hh, hr1, hhs, hhf⟩ := reshape_ok S1.heights (s := [nx, ny]) (by simp [NdArray.size, hhe, heights_eq h])
  rw [hx, hr1] at hres
  dsimp only at hres
  cases hres
  obtain ⟨g, hg, hgs, hgv⟩ := C48_gap S (by rw [heights_eq h, topo_eq h])
    ⟨[nx, ny], fun i => run.result.x.get i + off + hh.get i⟩
    (by rw [topo_eq h]; exact .cons le_rfl (.cons le_rfl .nil)) off
  refine ⟨_, g, rfl, rfl, rfl, rfl, rfl, ?_, ?_, rfl, rfl⟩
  · unfold computeGap at hg ⊢
    rw [hsub, hhe]; exact hg
  · intro x hx'
    rw [hgv x (by rw [topo_eq h]; exact hx')]
    have e : hh.get x = S.heights.get x := by
      rw [← flat_flatIndex hhs hx', hhf _ (flatIndex_lt hx'), hhe, flat_flatIndex (heights_eq h) hx']
    dsimp only
    rw [e]; ring

/-- **C112** After a successful `dual_minimize_proxy`: the displacement is the one whose gap is the dual
gradient, contact points are those with positive pressure, the normal force is the sum of the pressures. -/
theorem C112_dual_proxy_consistent (h : System2 S nx ny) (off : ℝ) (f0 : NdArray ℝ)
    {solver : String} (run : SolverRun) (hx : run.result.jac.shape = [nx, ny]) {r : OptResult} {S' : Sys}
    (hres : dualMinimizeProxy S off (some f0) solver run = (.ok r, S')) (hr : r.success = true) :
    ∃ d g, r = run.result ∧ S'.disp = some d ∧ S'.gap = some r.jac ∧ S'.force = some r.x ∧ S'.offset = some off ∧
      computeGap S' d off = .ok g ∧ (∀ x, validIndex [nx, ny] x → g.get x = r.jac.get x) ∧
      S'.contactZone = some (r.x.map fun v => decide (0 < v)) ∧ computeNormalForce S' = .ok r.x.sum := by
  unfold dualMinimizeProxy at hres
  by_cases hs : solver ∉ solverNames
  · rw [if_pos hs] at hres; cases hres
  rw [if_neg hs] at hres
  dsimp only at hres
  split at hres
  · cases hres
  have hfr := callAll_frame (obj := fun S => dualObjective S off) (fun T => T.sub = S.sub ∧ T.heights = S.heights)
    (fun T p hT => by
      obtain ⟨-, -, -, e1, e2⟩ := dualObjective_frame T off p
      exact ⟨e1.trans hT.1, e2.trans hT.2⟩) run.points (clear S) ⟨rfl, rfl⟩
  split at hres
  · cases hres
  rename_i S1 hc
  rw [hc] at hfr
  obtain ⟨hsub, hhe⟩ := hfr
  dsimp only at hsub hhe
  split at hres
  swap
  · rename_i hn; cases hres; exact absurd hr hn
  obtain ⟨hh, hr1, hhs, hhf⟩ := reshape_ok S1.heights (s := [nx, ny]) (by simp [NdArray.size, hhe, heights_eq h])
  rw [hx, hr1] at hres
  dsimp only at hres
  cases hres
  obtain ⟨g, hg, hgs, hgv⟩ := C48_gap S (by rw [heights_eq h, topo_eq h])
    ⟨[nx, ny], fun i => run.result.jac.get i + off + hh.get i⟩
    (by rw [topo_eq h]; exact .cons le_rfl (.cons le_rfl .nil)) off
  refine ⟨_, g, rfl, rfl, rfl, rfl, rfl, ?_, ?_, rfl, rfl⟩
  · unfold computeGap at hg ⊢
    rw [hsub, hhe]; exact hg
  · intro x hx'
    rw [hgv x (by rw [topo_eq h]; exact hx')]
    have e : hh.get x = S.heights.get x := by
      rw [← flat_flatIndex hhs hx', hhf _ (flatIndex_lt hx'), hhe, flat_flatIndex (heights_eq h) hx']
    dsimp only
    rw [e]; ring

/-! ## C58 -/

/-- A plastic system in a consistent state: heights are base heights plus plastic displacement. -/
structure _root_.CM.Spec.PlasticState (P : PSys) : Prop where
  shape : P.sys.heights.shape = P.sys.sub.topo
  base : P.base.shape = P.sys.sub.topo
  displ : P.plasticDispl.shape = P.sys.sub.topo
  heights : ∀ x, validIndex P.sys.sub.topo x → P.sys.heights.get x = P.base.get x + P.plasticDispl.get x

/-- A result whose fields have the shapes the solver returns: displacement at least as large as the
topography, flags on the topography. -/
def _root_.CM.Spec.FitsTopo (t : List ℕ) (r : OptResult) : Prop :=
  List.Forall₂ (· ≤ ·) t r.x.shape ∧ r.plastic.shape = t

lemma minimizeProxy_frame (S : Sys) (o : Except PyErr OptResult) :
    (minimizeProxy S o).2.sub = S.sub ∧ (minimizeProxy S o).2.heights = S.heights := by
  unfold minimizeProxy
  cases o with
  | error e => exact ⟨rfl, rfl⟩
  | ok r =>
    dsimp only
    split
    · split <;> exact ⟨rfl, rfl⟩
    · exact ⟨rfl, rfl⟩

/-- **C58** One plastic minimisation.  The solver is run with the hardness in force units.  If the call returns a
successful result `r`, then the plastic displacement changes only where `r` is flagged plastic, where the
gap recomputed with the new heights is zero; unflagged points keep their heights.  In every other case --
no success, or an exception -- plastic displacement and heights are unchanged. -/
theorem C58_plastic_update (P : PSys) (hP : PlasticState P) (solver : ℝ → Except PyErr OptResult)
    (hfit : ∀ r, solver (P.hardness * P.areaPerPt) = .ok r → FitsTopo P.sys.sub.topo r) :
    PlasticState (plasticMinimizeProxy P solver).2 ∧
    (plasticMinimizeProxy P solver).2.sys.sub = P.sys.sub ∧ (plasticMinimizeProxy P solver).2.base = P.base ∧
    (plasticMinimizeProxy P solver).2.hardness = P.hardness ∧
    (plasticMinimizeProxy P solver).2.areaPerPt = P.areaPerPt ∧
    (∀ r, (plasticMinimizeProxy P solver).1 = .ok r → solver (P.hardness * P.areaPerPt) = .ok r) ∧
    (∀ r, (plasticMinimizeProxy P solver).1 = .ok r → r.success = true →
      (∀ x, validIndex P.sys.sub.topo x → r.plastic.get x = false →
        (plasticMinimizeProxy P solver).2.plasticDispl.get x = P.plasticDispl.get x ∧
        (plasticMinimizeProxy P solver).2.sys.heights.get x = P.sys.heights.get x) ∧
      ∃ g, computeGap (plasticMinimizeProxy P solver).2.sys r.x r.offset = .ok g ∧
        ∀ x, validIndex P.sys.sub.topo x → r.plastic.get x = true →
          g.get x = 0 ∧ (plasticMinimizeProxy P solver).2.sys.heights.get x = r.x.get x - r.offset) ∧
    ((∀ r, (plasticMinimizeProxy P solver).1 = .ok r → r.success = false) →
      (plasticMinimizeProxy P solver).2.plasticDispl = P.plasticDispl ∧
      (plasticMinimizeProxy P solver).2.sys.heights = P.sys.heights) := by
  have hfr := minimizeProxy_frame P.sys (solver (P.hardness * P.areaPerPt))
  have hst := minimizeProxy_state P.sys (solver (P.hardness * P.areaPerPt))
  unfold plasticMinimizeProxy
  dsimp only
  cases hm : minimizeProxy P.sys (solver (P.hardness * P.areaPerPt)) with
  | mk out S =>
    rw [hm] at hfr hst
    obtain ⟨hsub, hhe⟩ := hfr
    dsimp only at hsub hhe
    have hbase : PlasticState { P with sys := S } := by
      refine ⟨?_, ?_, ?_, ?_⟩
      · show S.heights.shape = S.sub.topo; rw [hhe, hsub]; exact hP.shape
      · show P.base.shape = S.sub.topo; rw [hsub]; exact hP.base
      · show P.plasticDispl.shape = S.sub.topo; rw [hsub]; exact hP.displ
      · show ∀ x, validIndex S.sub.topo x → S.heights.get x = _
        rw [hhe, hsub]; exact hP.heights
    cases out with
    | error e =>
      dsimp only
      exact ⟨hbase, hsub, rfl, rfl, rfl, by simp, by simp, fun _ => ⟨rfl, hhe⟩⟩
    | ok r =>
      have hsol : solver (P.hardness * P.areaPerPt) = .ok r := by
        unfold minimizeProxy at hm
        cases hso : solver (P.hardness * P.areaPerPt) with
        | error e => rw [hso] at hm; simp at hm
        | ok r' =>
          rw [hso] at hm
          dsimp only at hm
          split at hm
          · split at hm
            · simp at hm
            · simp at hm; rw [hm.1]
          · simp at hm; rw [hm.1]
      obtain ⟨hfx, hfp⟩ := hfit r hsol
      dsimp only
      by_cases hr : r.success = true
      · rw [if_pos hr]
        obtain ⟨g, hg, hgs, hgv⟩ := C48_gap S (by rw [hhe, hsub]; exact hP.shape) r.x (by rw [hsub]; exact hfx) r.offset
        rw [hsub] at hgs hgv
        rw [hhe] at hgv
        obtain ⟨w, hw, hws, hwv⟩ := binop_same (fun (b : Bool) (v : ℝ) => if b then v else 0) hfp hgs
        obtain ⟨pd, hpd, hpds, hpdv⟩ := binop_same (· + ·) hP.displ hws
        simp only [hg, hw, hpd, bind, Except.bind]
        have hnew : ∀ x, validIndex P.sys.sub.topo x → pd.get x = P.plasticDispl.get x +
            if r.plastic.get x then r.x.get x - P.sys.heights.get x - r.offset else 0 := by
          intro x hx
          rw [hpdv x hx, hwv x hx, hgv x hx]
        refine ⟨⟨?_, ?_, ?_, ?_⟩, hsub, trivial, trivial, trivial, ?_, ?_, ?_⟩
        · show P.base.shape = S.sub.topo; rw [hsub]; exact hP.base
        · show P.base.shape = S.sub.topo; rw [hsub]; exact hP.base
        · show pd.shape = S.sub.topo; rw [hsub]; exact hpds
        · intro x _; rfl
        · intro r' hr'; cases hr'; exact hsol
        · intro r' hr' _
          cases hr'
          refine ⟨fun x hx hf => ?_, ?_⟩
          · have h1 := hnew x hx
            rw [hf] at h1
            have h1 : pd.get x = P.plasticDispl.get x := by simpa using h1
            refine ⟨h1, ?_⟩
            show P.base.get x + pd.get x = _
            rw [h1, hP.heights x hx]
          · obtain ⟨g', hg', -, hgv'⟩ := C48_gap { S with heights := ⟨P.base.shape, fun x => P.base.get x + pd.get x⟩ }
              (by show P.base.shape = S.sub.topo; rw [hsub]; exact hP.base) r.x (by show List.Forall₂ _ S.sub.topo _; rw [hsub]; exact hfx) r.offset
            refine ⟨g', hg', fun x hx hf => ?_⟩
            have h1 := hnew x hx
            rw [hf, if_pos rfl, hP.heights x hx] at h1
            have h2 := hgv' x (by show validIndex S.sub.topo x; rw [hsub]; exact hx)
            dsimp only at h2 ⊢
            rw [h2, h1]
            constructor <;> ring
        · intro hall
          have := hall r rfl
          rw [hr] at this; cases this
      · rw [if_neg hr]
        refine ⟨hbase, hsub, rfl, rfl, rfl, fun r' e => by cases e; exact hsol, fun r' e h' => by cases e; exact absurd h' hr,
          fun _ => ⟨rfl, hhe⟩⟩

/-- **C58** (totality) A result of the solver with the right shapes is returned to the caller unless the free
half-space's boundary check raises. -/
theorem C58_plastic_returns (P : PSys) (hP : PlasticState P) (solver : ℝ → Except PyErr OptResult) {r : OptResult}
    (hsol : solver (P.hardness * P.areaPerPt) = .ok r) (hfit : FitsTopo P.sys.sub.topo r)
    (hcheck : P.sys.sub.check r.jac = .ok ()) : (plasticMinimizeProxy P solver).1 = .ok r := by
  obtain ⟨hfx, hfp⟩ := hfit
  unfold plasticMinimizeProxy minimizeProxy
  dsimp only
  rw [hsol]
  dsimp only
  by_cases hr : r.success = true
  · rw [if_pos hr]
    have : (clear P.sys).sub.check r.jac = .ok () := hcheck
    simp only [this, hr, if_true]
    obtain ⟨g, hg, hgs, hgv⟩ := C48_gap { clear P.sys with offset := some r.offset, disp := some r.x, force := some r.jac, subForce := some r.jac, contactZone := some (r.jac.map fun v => decide (0 < v)) } hP.shape r.x hfx r.offset
    have hgs : g.shape = P.sys.sub.topo := hgs
    obtain ⟨w, hw, hws, hwv⟩ := binop_same (fun (b : Bool) (v : ℝ) => if b then v else 0) hfp hgs
    obtain ⟨pd, hpd, hpds, hpdv⟩ := binop_same (· + ·) hP.displ hws
    simp only [hg, hw, hpd, bind, Except.bind]
  · rw [if_neg hr]
    dsimp only
    rw [if_neg hr]

/-- The state and the outcomes of a history of plastic minimisations. -/
noncomputable def plasticRun (P : PSys) : List (ℝ → Except PyErr OptResult) → List (Except PyErr OptResult) × PSys
  | [] => ([], P)
  | s :: ss =>
    let (o, P') := plasticMinimizeProxy P s
    let (os, Q) := plasticRun P' ss
    (o :: os, Q)

/-- Height of a point after a history of outcomes: the last successful calculation that flagged the point
as plastic pressed it to the displacement of that calculation; other points keep the initial height. -/
def _root_.CM.Spec.pressedHeight (x : List ℕ) (h0 : ℝ) : List (Except PyErr OptResult) → ℝ
  | [] => h0
  | .ok r :: os => pressedHeight x (if r.success && r.plastic.get x then r.x.get x - r.offset else h0) os
  | .error _ :: os => pressedHeight x h0 os

/-- **C58** Over any history of plastic minimisations (each may succeed, fail or raise) the height of every
point is the one set by the last successful calculation that flagged it, and the accumulated plastic
displacement is the difference to the base topography. -/
theorem C58_plastic_history (P : PSys) (hP : PlasticState P) (ss : List (ℝ → Except PyErr OptResult))
    (hfit : ∀ s ∈ ss, ∀ r, s (P.hardness * P.areaPerPt) = .ok r → FitsTopo P.sys.sub.topo r) :
    PlasticState (plasticRun P ss).2 ∧ ∀ x, validIndex P.sys.sub.topo x →
      (plasticRun P ss).2.sys.heights.get x = pressedHeight x (P.sys.heights.get x) (plasticRun P ss).1 ∧
      (plasticRun P ss).2.plasticDispl.get x =
        pressedHeight x (P.sys.heights.get x) (plasticRun P ss).1 - P.base.get x := by
  suffices h : PlasticState (plasticRun P ss).2 ∧ (plasticRun P ss).2.base = P.base ∧
      (plasticRun P ss).2.sys.sub = P.sys.sub ∧ ∀ x, validIndex P.sys.sub.topo x →
      (plasticRun P ss).2.sys.heights.get x = pressedHeight x (P.sys.heights.get x) (plasticRun P ss).1 by
    refine ⟨h.1, fun x hx => ⟨h.2.2.2 x hx, ?_⟩⟩
    have h1 := h.1.heights x (by rw [h.2.2.1]; exact hx)
    rw [h.2.2.2 x hx, h.2.1] at h1
    linarith
  induction ss generalizing P with
  | nil => exact ⟨hP, rfl, rfl, fun x _ => rfl⟩
  | cons s ss ih =>
    obtain ⟨h1, h2, h3, h4, h5, h6, h7, h8⟩ := C58_plastic_update P hP s (hfit s (by simp))
    have hr : plasticRun P (s :: ss) = ((plasticMinimizeProxy P s).1 :: (plasticRun (plasticMinimizeProxy P s).2 ss).1,
        (plasticRun (plasticMinimizeProxy P s).2 ss).2) := rfl
    obtain ⟨k1, k2, k3, k4⟩ := ih (plasticMinimizeProxy P s).2 h1 (by
      intro t ht r hr'
      rw [h4, h5] at hr'
      rw [h2]; exact hfit t (by simp [ht]) r hr')
    rw [hr]
    refine ⟨k1, k2.trans h3, k3.trans h2, fun x hx => ?_⟩
    dsimp only
    rw [k4 x (by rw [h2]; exact hx)]
    cases ho : (plasticMinimizeProxy P s).1 with
    | error e =>
      rw [pressedHeight, (h8 (by rw [ho]; simp)).2]
    | ok r =>
      rw [pressedHeight]
      congr 1
      by_cases hs : r.success = true
      · obtain ⟨e1, g, -, e2⟩ := h7 r ho hs
        cases hp : r.plastic.get x with
        | false => rw [(e1 x hx hp).2]; simp
        | true => rw [(e2 x hx hp).2]; simp [hs]
      · rw [(h8 (by rw [ho]; rintro r' e; cases e; simpa using hs)).2]; simp [hs]

/-- **C58** (physical direction) If every flagged point penetrates -- its displacement is not above the
current surface -- plastic deformation only ever lowers the surface. -/
theorem C58_plastic_lowers (P : PSys) (hP : PlasticState P) (solver : ℝ → Except PyErr OptResult)
    (hfit : ∀ r, solver (P.hardness * P.areaPerPt) = .ok r → FitsTopo P.sys.sub.topo r)
    (hpen : ∀ r, solver (P.hardness * P.areaPerPt) = .ok r → ∀ x, validIndex P.sys.sub.topo x → r.plastic.get x = true →
      r.x.get x ≤ P.sys.heights.get x + r.offset) :
    ∀ x, validIndex P.sys.sub.topo x →
      (plasticMinimizeProxy P solver).2.sys.heights.get x ≤ P.sys.heights.get x := by
  intro x hx
  obtain ⟨-, -, -, -, -, h6, h7, h8⟩ := C58_plastic_update P hP solver hfit
  by_cases h : ∃ r, (plasticMinimizeProxy P solver).1 = .ok r ∧ r.success = true
  · obtain ⟨r, hr, hs⟩ := h
    obtain ⟨e1, g, -, e2⟩ := h7 r hr hs
    cases hp : r.plastic.get x with
    | false => exact (e1 x hx hp).2.le
    | true =>
      rw [(e2 x hx hp).2]
      have := hpen r (h6 r hr) x hx hp
      linarith
  · rw [(h8 fun r hr => by
      by_contra hs
      exact h ⟨r, hr, by simpa using hs⟩).2]

/-- A plastic system, and two minimisations: the first flags one point, the second fails. -/
example : ∃ (P : PSys) (ss : List (ℝ → Except PyErr OptResult)), PlasticState P ∧ ss.length = 2 ∧
    (∀ s ∈ ss, ∀ r, s (P.hardness * P.areaPerPt) = .ok r → FitsTopo P.sys.sub.topo r) ∧
    (plasticRun P ss).2.sys.heights.get [1, 2] = -7 ∧ (plasticRun P ss).2.sys.heights.get [0, 1] = -2 := by
  obtain ⟨S, h, -, hmk, -⟩ := demo_system
  have ht := topo_eq (.inl ⟨_, h⟩ : System2 S 3 4)
  let S0 : Sys := { S with heights := demoHeights [3, 4] }
  have ht0 : S0.sub.topo = [3, 4] := ht
  let P : PSys := ⟨S0, demoHeights [3, 4], ⟨[3, 4], fun _ => 0⟩, 5, 1 / 6⟩
  let r : OptResult := ⟨true, ⟨[3, 4], fun _ => -5⟩, ⟨[3, 4], fun _ => 1⟩, 2, ⟨[3, 4], fun x => x == [1, 2]⟩, ⟨[3, 4], fun _ => true⟩⟩
  let ss : List (ℝ → Except PyErr OptResult) := [fun _ => .ok r, fun _ => .error .valueError]
  have hP : PlasticState P := ⟨ht0.symm, ht0.symm, ht0.symm, fun x _ => by simp [P, S0]⟩
  have hfit : ∀ s ∈ ss, ∀ r, s (P.hardness * P.areaPerPt) = .ok r → FitsTopo P.sys.sub.topo r := by
    intro s hs r' hr
    simp only [ss, List.mem_cons, List.not_mem_nil, or_false] at hs
    rcases hs with rfl | rfl
    · cases hr
      refine ⟨?_, ht0.symm⟩
      show List.Forall₂ _ S0.sub.topo [3, 4]
      rw [ht0]; exact .cons le_rfl (.cons le_rfl .nil)
    · cases hr
  have hout : (plasticMinimizeProxy P fun _ => .ok r).1 = .ok r := by
    refine C58_plastic_returns P hP _ rfl (hfit (fun _ => .ok r) (by simp [ss]) r rfl) ?_
    have hS : P.sys.sub.free = false := h.periodic
    unfold Substrate.check
    rw [if_neg (by rw [hS]; simp)]
  have ho : ∃ e, (plasticRun P ss).1 = [.ok r, .error e] := by
    refine ⟨.valueError, ?_⟩
    show (plasticMinimizeProxy P fun _ => .ok r).1 :: [(plasticMinimizeProxy (plasticMinimizeProxy P fun _ => .ok r).2 fun _ => .error .valueError).1] = _
    rw [hout]; rfl
  obtain ⟨e, ho⟩ := ho
  refine ⟨P, ss, hP, rfl, hfit, ?_, ?_⟩
  · have hv : validIndex P.sys.sub.topo [1, 2] := by
      show validIndex S0.sub.topo _; rw [ht0]; exact .cons (by norm_num) (.cons (by norm_num) .nil)
    rw [((C58_plastic_history P hP ss hfit).2 _ hv).1, ho]; norm_num [pressedHeight, r]
  · have hv : validIndex P.sys.sub.topo [0, 1] := by
      show validIndex S0.sub.topo _; rw [ht0]; exact .cons (by norm_num) (.cons (by norm_num) .nil)
    rw [((C58_plastic_history P hP ss hfit).2 _ hv).1, ho]; norm_num [pressedHeight, r, P, S0, demoHeights]

end CM.System
