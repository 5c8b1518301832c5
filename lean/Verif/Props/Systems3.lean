import Verif.Props.Systems2
/-!
# C52 stale state, C53 contact area, C54 sign of the normal force, C58 plasticity
-/
set_option linter.unusedSimpArgs false
namespace CM.System
open Finset CM.HS CM.FFT CM.Spec

variable {nx ny : ℕ} {S : Sys} {a : Args}

/-! ## C52 -/

/-- **C52** `minimize_proxy`: when the solver raises or returns without success, displacement, force and
contact zone of the system are cleared -- whatever they were before. -/
theorem C52_minimize_proxy_clears (S : Sys) (solver : Except PyErr OptResult)
    (hfail : ∀ r, solver = .ok r → r.success = false) :
    (minimizeProxy S solver).2.disp = none ∧ (minimizeProxy S solver).2.force = none ∧
      (minimizeProxy S solver).2.contactZone = none ∧ (minimizeProxy S solver).1 = solver := by
  unfold minimizeProxy
  cases solver with
  | error e => exact ⟨rfl, rfl, rfl, rfl⟩
  | ok r =>
    have := hfail r rfl
    simp only [this, Bool.false_eq_true, if_false, clear]
    exact ⟨trivial, trivial, trivial, trivial⟩

/-- What a history of `minimize_proxy` calls leaves behind, given the outcomes of the solver. -/
def _root_.CM.Spec.lastResult : List (Except PyErr OptResult) → Option OptResult
  | [] => none
  | o :: os => match lastResult os with
    | some r => some r
    | none => match o with
      | .ok r => if r.success then some r else none
      | .error _ => none

/-- The state after a history of `minimize_proxy` calls (exceptions are caught by the caller). -/
noncomputable def runAll (S : Sys) : List (Except PyErr OptResult) → Sys
  | [] => S
  | o :: os => runAll (minimizeProxy S o).2 os

lemma minimizeProxy_state (S : Sys) (o : Except PyErr OptResult) :
    let S' := (minimizeProxy S o).2
    match o with
    | .ok r => if r.success then S'.disp = some r.x ∧ S'.force = some r.jac ∧ S'.subForce = some r.jac ∧
        S'.offset = some r.offset ∧ S'.contactZone = some (r.jac.map fun v => decide (0 < v))
      else S'.disp = none ∧ S'.force = none ∧ S'.subForce = S.subForce ∧ S'.offset = S.offset ∧ S'.contactZone = none
    | .error _ => S'.disp = none ∧ S'.force = none ∧ S'.subForce = S.subForce ∧ S'.offset = S.offset ∧ S'.contactZone = none := by
  dsimp only
  unfold minimizeProxy
  cases o with
  | error e => exact ⟨rfl, rfl, rfl, rfl, rfl⟩
  | ok r =>
    dsimp only
    split
    · split <;> exact ⟨rfl, rfl, rfl, rfl, rfl⟩
    · exact ⟨rfl, rfl, rfl, rfl, rfl⟩

/-- **C52** Over any history of `minimize_proxy` calls: the normal force and the offset are those of the last
successful calculation (or those present at the start), while displacement, force and contact zone are those
of the last call if it succeeded and absent otherwise. -/
theorem C52_history_partial (S : Sys) (os : List (Except PyErr OptResult)) :
    (runAll S os).subForce = (match lastResult os with | some r => some r.jac | none => S.subForce) ∧
    (runAll S os).offset = (match lastResult os with | some r => some r.offset | none => S.offset) ∧
    (∀ o, os.getLast? = some o →
      ((∃ r, o = .ok r ∧ r.success = true ∧ (runAll S os).disp = some r.x ∧ (runAll S os).force = some r.jac ∧
          (runAll S os).contactZone = some (r.jac.map fun v => decide (0 < v))) ∨
       ((∀ r, o = .ok r → r.success = false) ∧ (runAll S os).disp = none ∧ (runAll S os).force = none ∧
          (runAll S os).contactZone = none))) := by
  induction os generalizing S with
  | nil => exact ⟨rfl, rfl, fun o h => by simp at h⟩
  | cons o os ih =>
    obtain ⟨h1, h2, h3⟩ := ih (minimizeProxy S o).2
    have hm := minimizeProxy_state S o
    have hs : ∀ (T : Sys), runAll T (o :: os) = runAll (minimizeProxy T o).2 os := fun _ => rfl
    have hlast : lastResult (o :: os) = match lastResult os with
      | some r => some r
      | none => match (generalizing := false) o with
        | .ok r => if r.success then some r else none
        | .error _ => none := rfl
    refine ⟨?_, ?_, ?_⟩
    · rw [hs, h1, hlast]
      cases lastResult os with
      | some r => rfl
      | none =>
        cases o with
        | error e => exact hm.2.2.1
        | ok r =>
          dsimp only at hm ⊢
          by_cases hr : r.success = true
          · rw [if_pos hr] at hm ⊢; exact hm.2.2.1
          · rw [if_neg hr] at hm ⊢; exact hm.2.2.1
    · rw [hs, h2, hlast]
      cases lastResult os with
      | some r => rfl
      | none =>
        cases o with
        | error e => exact hm.2.2.2.1
        | ok r =>
          dsimp only at hm ⊢
          by_cases hr : r.success = true
          · rw [if_pos hr] at hm ⊢; exact hm.2.2.2.1
          · rw [if_neg hr] at hm ⊢; exact hm.2.2.2.1
    · intro o' ho
      rw [hs]
      cases os with
      | cons o2 os => exact h3 o' (by simpa using ho)
      | nil =>
        have : o = o' := by simpa using ho
        subst this
        show _ ∨ _
        unfold runAll
        cases o with
        | error e => exact .inr ⟨by simp, hm.1, hm.2.1, hm.2.2.2.2⟩
        | ok r =>
          dsimp only at hm
          by_cases hr : r.success = true
          · rw [if_pos hr] at hm; exact .inl ⟨r, rfl, hr, hm.1, hm.2.1, hm.2.2.2.2⟩
          · rw [if_neg hr] at hm
            exact .inr ⟨fun r' e => by cases e; simpa using hr, hm.1, hm.2.1, hm.2.2.2.2⟩

lemma evaluate_frame (S : Sys) (d : NdArray ℝ) (off : ℝ) (pot forces : Bool) :
    (evaluate S d off pot forces).2.disp = S.disp ∧ (evaluate S d off pot forces).2.contactZone = S.contactZone ∧
    (evaluate S d off pot forces).2.sub = S.sub ∧ (evaluate S d off pot forces).2.heights = S.heights := by
  unfold evaluate
  split
  · exact ⟨rfl, rfl, rfl, rfl⟩
  · dsimp only; split <;> exact ⟨rfl, rfl, rfl, rfl⟩

lemma primalObjective_frame (S : Sys) (off : ℝ) (g : NdArray ℝ) :
    (primalObjective S off g).2.disp = S.disp ∧ (primalObjective S off g).2.contactZone = S.contactZone ∧
    (primalObjective S off g).2.sub = S.sub ∧ (primalObjective S off g).2.heights = S.heights := by
  unfold primalObjective
  dsimp only
  split
  · exact ⟨rfl, rfl, rfl, rfl⟩
  · rename_i d _
    have := evaluate_frame S d off true true
    split <;> (rename_i he; rw [he] at this; exact this)

lemma dualObjective_frame (S : Sys) (off : ℝ) (g : NdArray ℝ) :
    (dualObjective S off g).2.disp = S.disp ∧ (dualObjective S off g).2.contactZone = S.contactZone ∧
    (dualObjective S off g).2.force = S.force ∧
    (dualObjective S off g).2.sub = S.sub ∧ (dualObjective S off g).2.heights = S.heights := by
  have key : ∀ p, (evaluateDual S p off).2.disp = S.disp ∧ (evaluateDual S p off).2.contactZone = S.contactZone ∧
      (evaluateDual S p off).2.force = S.force ∧
      (evaluateDual S p off).2.sub = S.sub ∧ (evaluateDual S p off).2.heights = S.heights := by
    intro p
    unfold evaluateDual
    dsimp only
    split
    · exact ⟨rfl, rfl, rfl, rfl, rfl⟩
    · split <;> exact ⟨rfl, rfl, rfl, rfl, rfl⟩
  unfold dualObjective
  split
  · exact ⟨rfl, rfl, rfl, rfl, rfl⟩
  · rename_i p _
    have := key p
    split <;> (rename_i he; rw [he] at this; exact this)

lemma callAll_frame {obj : Sys → NdArray ℝ → Objective × Sys} (I : Sys → Prop)
    (h : ∀ S p, I S → I (obj S p).2) : ∀ (ps : List (NdArray ℝ)) (S : Sys), I S → I (callAll obj S ps).2
  | [], S, hS => hS
  | p :: ps, S, hS => by
    unfold callAll
    have := h S p hS
    split
    · rename_i e S' he; rw [he] at this; exact this
    · rename_i S' he; rw [he] at this; exact callAll_frame I h ps S' this

/-- **C52** `dual_minimize_proxy` without success -- including every exception raised on the way -- leaves no
displacement, force or contact zone behind, provided the solver name is accepted. -/
theorem C52_dual_clears (S : Sys) (off : ℝ) (init : Option (NdArray ℝ)) {solver : String} (hs : solver ∈ solverNames)
    (run : SolverRun) (hrun : run.result.success = false) :
    (dualMinimizeProxy S off init solver run).2.disp = none ∧
    (dualMinimizeProxy S off init solver run).2.force = none ∧
    (dualMinimizeProxy S off init solver run).2.contactZone = none := by
  unfold dualMinimizeProxy
  rw [if_neg (by simpa using hs)]
  have hI : ∀ ps, (callAll (fun S => dualObjective S off) (clear S) ps).2.disp = none ∧
      (callAll (fun S => dualObjective S off) (clear S) ps).2.force = none ∧
      (callAll (fun S => dualObjective S off) (clear S) ps).2.contactZone = none := fun ps =>
    callAll_frame (fun T => T.disp = none ∧ T.force = none ∧ T.contactZone = none)
      (fun T p hT => by
        obtain ⟨e1, e2, e3, -⟩ := dualObjective_frame T off p
        exact ⟨e1.trans hT.1, e3.trans hT.2.1, e2.trans hT.2.2⟩) ps _ ⟨rfl, rfl, rfl⟩
  dsimp only
  split
  · exact ⟨rfl, rfl, rfl⟩
  · split
    · exact ⟨rfl, rfl, rfl⟩
    · have := hI run.points
      split
      · rename_i he; rw [he] at this; exact this
      · rename_i he; rw [he] at this
        rw [if_neg (by simp [hrun])]
        exact this

/-- **C52** `primal_minimize_proxy` without success leaves no displacement or contact zone behind.  (Missing:
the force, see below.) -/
theorem C52_primal_clears_partial (S : Sys) (off : ℝ) (init : Option (NdArray ℝ)) {solver : String}
    (hs : solver ∈ solverNames) (run : SolverRun) (hrun : run.result.success = false) :
    (primalMinimizeProxy S off init solver run).2.disp = none ∧
    (primalMinimizeProxy S off init solver run).2.contactZone = none := by
  unfold primalMinimizeProxy
  rw [if_neg (by simpa using hs)]
  have hI : ∀ ps, (callAll (fun S => primalObjective S off) (clear S) ps).2.disp = none ∧
      (callAll (fun S => primalObjective S off) (clear S) ps).2.contactZone = none := fun ps =>
    callAll_frame (fun T => T.disp = none ∧ T.contactZone = none)
      (fun T p hT => by
        obtain ⟨e1, e2, -⟩ := primalObjective_frame T off p
        exact ⟨e1.trans hT.1, e2.trans hT.2⟩) ps _ ⟨rfl, rfl⟩
  dsimp only
  split
  · exact ⟨rfl, rfl⟩
  · split
    · exact ⟨rfl, rfl⟩
    · have := hI run.points
      split
      · rename_i he; rw [he] at this; exact this
      · rename_i he; rw [he] at this
        rw [if_neg (by simp [hrun])]
        exact this

lemma periodic_frame (h : PeriodicSystem S a nx ny) {S' : Sys} (h1 : S'.sub = S.sub) (h2 : S'.heights = S.heights) :
    PeriodicSystem S' a nx ny :=
  ⟨h.valid, h1 ▸ h.built, h.grid, h1 ▸ h.periodic, h2 ▸ h.heights⟩

lemma system2_frame (h : System2 S nx ny) {S' : Sys} (h1 : S'.sub = S.sub) (h2 : S'.heights = S.heights) :
    System2 S' nx ny := by
  rcases h with ⟨a, h⟩ | ⟨a, h⟩
  · exact .inl ⟨a, periodic_frame h h1 h2⟩
  · exact .inr ⟨a, ⟨h.valid, h1 ▸ h.built, h.grid, h1 ▸ h.free, h2 ▸ h.heights⟩⟩

/-- The force left by a sequence of calls of the primal objective. -/
lemma callAll_primal (h : PeriodicSystem S a nx ny) (off : ℝ) (ps : List (NdArray ℝ)) (hps : ∀ p ∈ ps, p.size = nx * ny) :
    (callAll (fun S => primalObjective S off) S ps).1 = .ok () ∧
    ∀ g, ps.getLast? = some g → ∃ u f, evaluateForce S.sub.hs u = .ok f ∧
      (∀ k < nx * ny, u.flat k = g.flat k + S.heights.flat k + off) ∧
      (callAll (fun S => primalObjective S off) S ps).2.force = some f ∧
      (callAll (fun S => primalObjective S off) S ps).2.subForce = some f := by
  induction ps generalizing S with
  | nil => exact ⟨rfl, fun g hg => by simp at hg⟩
  | cons p ps ih =>
    obtain ⟨u, f, G, S', h1, h2, h3, h4, h5, h6, h7, h8, h9⟩ := primalObjective_eq h off p (hps p (by simp))
    have hfr := primalObjective_frame S off p
    rw [h7] at hfr
    have hS' := periodic_frame h hfr.2.2.1 hfr.2.2.2
    obtain ⟨e1, e2⟩ := ih hS' fun q hq => hps q (by simp [hq])
    have hc : callAll (fun S => primalObjective S off) S (p :: ps) = callAll (fun S => primalObjective S off) S' ps := by
      rw [callAll]; simp only [h7]
    rw [hc]
    refine ⟨e1, fun g hg => ?_⟩
    cases ps with
    | cons q ps =>
      obtain ⟨u', f', k1, k2, k3, k4⟩ := e2 g (by simpa using hg)
      refine ⟨u', f', ?_, ?_, k3, k4⟩
      · have := hfr.2.2.1; dsimp only at this; rw [← this]; exact k1
      · have := hfr.2.2.2; dsimp only at this; rw [← this]; exact k2
    | nil =>
      have : p = g := by simpa using hg
      subst this
      exact ⟨u, f, h3, h2, h8, h9⟩

/-- **C52** (refuted for the force) A failed `primal_minimize_proxy` whose optimiser called the objective at
least once leaves the force of its last trial in the system and in the substrate: `system.force` is not
`None`, and the normal force is that of a state which is not a solution. -/
theorem C52_primal_leaves_trial_force (h : PeriodicSystem S a nx ny) (off : ℝ) (g0 : NdArray ℝ)
    (hg0 : g0.size = nx * ny) {solver : String} (hs : solver ∈ solverNames) (run : SolverRun)
    (hrun : run.result.success = false) (hps : ∀ p ∈ run.points, p.size = nx * ny) {g : NdArray ℝ}
    (hlast : run.points.getLast? = some g) :
    (primalMinimizeProxy S off (some g0) solver run).1 = .ok run.result ∧
    ∃ u f, evaluateForce S.sub.hs u = .ok f ∧ (∀ k < nx * ny, u.flat k = g.flat k + S.heights.flat k + off) ∧
      (primalMinimizeProxy S off (some g0) solver run).2.force = some f ∧
      computeNormalForce (primalMinimizeProxy S off (some g0) solver run).2 = .ok f.sum := by
  have hc : PeriodicSystem (clear S) a nx ny := periodic_frame h rfl rfl
  obtain ⟨e1, e2⟩ := callAll_primal hc off run.points hps
  obtain ⟨u, f, k1, k2, k3, k4⟩ := e2 g hlast
  have hstart : (if solver = "l-bfgs-b" then do let _ ← shapeMinimisationInput (clear S) g0; pure () else pure () :
      Except PyErr Unit) = .ok () := by
    split
    · rw [shapeMinimisationInput, (per_grid hc).2.1, if_pos (by simp [hg0])]; rfl
    · rfl
  have hfin : primalMinimizeProxy S off (some g0) solver run =
      (.ok run.result, (callAll (fun S => primalObjective S off) (clear S) run.points).2) := by
    unfold primalMinimizeProxy
    rw [if_neg (by simpa using hs)]
    dsimp only
    rw [hstart]
    dsimp only
    split
    · rename_i he; rw [he] at e1; cases e1
    · rename_i he; rw [he, if_neg (by simp [hrun])]
  rw [hfin]
  exact ⟨rfl, u, f, k1, k2, k3, by simp only [computeNormalForce, k4]⟩

/-- The same calls for the dual objective. -/
lemma callAll_dual (h : System2 S nx ny) (off : ℝ) (ps : List (NdArray ℝ)) (hps : ∀ p ∈ ps, p.size = nx * ny) :
    (callAll (fun S => dualObjective S off) S ps).1 = .ok () ∧
    ∀ p, ps.getLast? = some p → ∃ n : NdArray ℝ, n.shape = [nx, ny] ∧ (∀ k < nx * ny, n.flat k = -(p.flat k)) ∧
      (callAll (fun S => dualObjective S off) S ps).2.subForce = some n := by
  induction ps generalizing S with
  | nil => exact ⟨rfl, fun g hg => by simp at hg⟩
  | cons p ps ih =>
    obtain ⟨p', n, u, G, S', h1, h2, h3, h4, h5, h6, h7, h8, h9, h10⟩ := dualObjective_eq h off p (hps p (by simp))
    have hfr := dualObjective_frame S off p
    rw [h9] at hfr
    have hS' := system2_frame h hfr.2.2.2.1 hfr.2.2.2.2
    obtain ⟨e1, e2⟩ := ih hS' fun q hq => hps q (by simp [hq])
    have hc : callAll (fun S => dualObjective S off) S (p :: ps) = callAll (fun S => dualObjective S off) S' ps := by
      rw [callAll]; simp only [h9]
    rw [hc]
    refine ⟨e1, fun g hg => ?_⟩
    cases ps with
    | cons q ps => exact e2 g (by simpa using hg)
    | nil =>
      have : p = g := by simpa using hg
      subst this
      refine ⟨n, h3, fun k hk => ?_, h10⟩
      rw [← h2 k hk]
      unfold NdArray.flat
      rw [h3, h1, h4]

/-- **C52** (refuted for derived results) After a failed `dual_minimize_proxy` the normal force is minus the
total of the last trial pressures -- neither that of the last successful calculation nor an error. -/
theorem C52_dual_trial_normal_force (h : System2 S nx ny) (off : ℝ) (f0 : NdArray ℝ)
    (hf0 : f0.shape = [nx, ny]) {solver : String} (hs : solver ∈ solverNames) (run : SolverRun)
    (hrun : run.result.success = false) (hps : ∀ p ∈ run.points, p.size = nx * ny) {p : NdArray ℝ}
    (hlast : run.points.getLast? = some p) :
    (dualMinimizeProxy S off (some f0) solver run).1 = .ok run.result ∧
    computeNormalForce (dualMinimizeProxy S off (some f0) solver run).2 = .ok (-(p.sum)) := by
  have hc : System2 (clear S) nx ny := system2_frame h rfl rfl
  obtain ⟨e1, e2⟩ := callAll_dual hc off run.points hps
  obtain ⟨n, k1, k2, k3⟩ := e2 p hlast
  have hfin : dualMinimizeProxy S off (some f0) solver run =
      (.ok run.result, (callAll (fun S => dualObjective S off) (clear S) run.points).2) := by
    unfold dualMinimizeProxy
    rw [if_neg (by simpa using hs)]
    dsimp only
    rw [if_neg (by rw [hf0, topo_eq h]; simp)]
    split
    · rename_i he; rw [he] at e1; cases e1
    · rename_i he; rw [he, if_neg (by simp [hrun])]
  rw [hfin]
  refine ⟨rfl, ?_⟩
  have hp : p.size = nx * ny := hps p (List.mem_of_getLast? hlast)
  simp only [computeNormalForce, k3]
  rw [NdArray.sum_flat, NdArray.sum_flat, hp, ← sum_neg_distrib]
  have : n.size = nx * ny := by simp [NdArray.size, k1]
  rw [this]
  congr 1
  exact sum_congr rfl fun k hk => k2 k (mem_range.mp hk)

/-- **C52** (defaults) The default `init_gap=None`/`init_force=None` of the primal and dual proxies always
raises `AttributeError`; an unknown solver raises `ValueError` and leaves the system untouched. -/
theorem C52_proxy_defaults (S : Sys) (off : ℝ) (solver : String) (run : SolverRun) (init : Option (NdArray ℝ)) :
    (solver ∈ solverNames → (primalMinimizeProxy S off none solver run).1 = .error .attributeError ∧
      (dualMinimizeProxy S off none solver run).1 = .error .attributeError) ∧
    (solver ∉ solverNames → primalMinimizeProxy S off init solver run = (.error .valueError, S) ∧
      dualMinimizeProxy S off init solver run = (.error .valueError, S)) := by
  constructor
  · intro h
    unfold primalMinimizeProxy dualMinimizeProxy
    rw [if_neg (by simpa using h)]
    exact ⟨rfl, rfl⟩
  · intro h
    unfold primalMinimizeProxy dualMinimizeProxy
    rw [if_pos h, if_pos h]
    exact ⟨rfl, rfl⟩

/-! ## C53 -/

lemma sub_area (h : System2 S nx ny) : S.sub.hs.nbGridPts = [nx, ny] ∧ 0 < S.sub.hs.physicalSizes.prod ∧ 0 < nx * ny := by
  rcases h with ⟨a, h⟩ | ⟨a, h⟩
  · obtain ⟨_, _, P⟩ := per_of_construct h.valid h.built h.grid
    refine ⟨P.grid, ?_, Nat.mul_pos (Nat.pos_of_neZero nx) (Nat.pos_of_neZero ny)⟩
    rw [P.sizes]; have := P.sx_pos; have := P.sy_pos; simp; positivity
  · obtain ⟨_, _, P⟩ := free_of_construct h.valid h.built h.grid
    refine ⟨P.grid, ?_, Nat.mul_pos (Nat.pos_of_neZero nx) (Nat.pos_of_neZero ny)⟩
    rw [P.sizes]; have := P.sx_pos; have := P.sy_pos; simp; positivity

/-- **C53** After every successful `minimize_proxy` (periodic or free substrate): contact points are those
with positive force, the contact area is their number times the area per point, the relative contact area
is the fraction of points in contact, between 0 and 1, and the normal force is the sum of the forces. -/
theorem C53_contact_area (h : System2 S nx ny) (r : OptResult) (hr : r.success = true) (hj : r.jac.shape = [nx, ny])
    {S' : Sys} {r' : OptResult} (hS : minimizeProxy S (.ok r) = (.ok r', S')) :
    r' = r ∧ computeNbContactPts S' = .ok (nbPositive (nx * ny) r.jac) ∧
    computeContactArea S' = .ok (nbPositive (nx * ny) r.jac * (S.sub.hs.physicalSizes.prod / (nx * ny))) ∧
    computeRelativeContactArea S' = .ok (nbPositive (nx * ny) r.jac / (nx * ny)) ∧
    (0 : ℝ) ≤ nbPositive (nx * ny) r.jac / (nx * ny) ∧ (nbPositive (nx * ny) r.jac / (nx * ny) : ℝ) ≤ 1 ∧
    computeNormalForce S' = .ok (∑ k ∈ range (nx * ny), r.jac.flat k) := by
  obtain ⟨hg, hsz, hpos⟩ := sub_area h
  have hm := minimizeProxy_state S (.ok r)
  have hsub : S'.sub = S.sub := by
    have : (minimizeProxy S (.ok r)).2.sub = S.sub := by
      unfold minimizeProxy
      dsimp only
      rw [if_pos hr]
      split <;> rfl
    rw [hS] at this; exact this
  have hr' : r' = r := by
    unfold minimizeProxy at hS
    dsimp only at hS
    rw [if_pos hr] at hS
    split at hS
    · simp at hS
    · simp at hS; exact hS.1.symm
  rw [hS] at hm
  dsimp only at hm
  rw [if_pos hr] at hm
  obtain ⟨-, -, h3, -, h5⟩ := hm
  have hnb : computeNbContactPts S' = .ok (nbPositive (nx * ny) r.jac) := by
    simp only [computeNbContactPts, h5]
    congr 1
    rw [sumShape_flat]
    simp only [NdArray.map, hj, List.prod_cons, List.prod_nil, mul_one, decide_eq_true_eq]
    unfold nbPositive
    rw [card_filter]
    refine sum_congr rfl fun k _ => ?_
    simp only [NdArray.flat, hj]
  have harea : S.sub.hs.areaPerPt = S.sub.hs.physicalSizes.prod / (nx * ny) := by
    unfold HalfSpace.areaPerPt; rw [hg]; simp
  have hca : computeContactArea S' = .ok (nbPositive (nx * ny) r.jac * (S.sub.hs.physicalSizes.prod / (nx * ny))) := by
    simp only [computeContactArea, hnb, bind, Except.bind, pure, Except.pure, hsub, harea]
  have hle : nbPositive (nx * ny) r.jac ≤ nx * ny := by
    unfold nbPositive
    exact (card_filter_le _ _).trans (by simp)
  have hpos' : (0 : ℝ) < nx * ny := by exact_mod_cast hpos
  refine ⟨hr', hnb, hca, ?_, by positivity, ?_, ?_⟩
  · simp only [computeRelativeContactArea, hca, bind, Except.bind, pure, Except.pure, hsub]
    congr 1
    field_simp
  · rw [div_le_one hpos']; exact_mod_cast hle
  · simp only [computeNormalForce, h3]
    rw [NdArray.sum_flat]
    simp [NdArray.size, hj]

/-! ## C54 -/

/-- **C54** (refuted) For the same physical state -- displacement `u` with substrate forces `F(u)` -- the normal
force after `evaluate(forces=True)` is the opposite of the normal force after `minimize_proxy`, whose solvers
return `jac = -F(u)`. -/
theorem C54_opposite_signs (h : PeriodicSystem S a nx ny) (u f j : NdArray ℝ) (hu : u.shape = [nx, ny])
    (hf : evaluateForce S.sub.hs u = .ok f) (hj : j.shape = [nx, ny]) (hjf : ∀ k < nx * ny, j.flat k = -(f.flat k)) (off : ℝ)
    (plastic active : NdArray Bool) :
    computeNormalForce (evaluate S u off true true).2 = .ok f.sum ∧
    computeNormalForce (minimizeProxy S (.ok ⟨true, u, j, off, plastic, active⟩)).2 = .ok (-(f.sum)) := by
  obtain ⟨f', hf', hfs⟩ := (symOp_force h).ok u hu
  rw [hf] at hf'; cases hf'
  obtain ⟨S', e1, -, -, e3⟩ := evaluate_periodic h hu hf off
  have hm := (minimizeProxy_state S (.ok ⟨true, u, j, off, plastic, active⟩)).2.2.1
  constructor
  · rw [e1]; simp only [computeNormalForce, e3]
  · simp only [computeNormalForce, hm]
    rw [NdArray.sum_flat, NdArray.sum_flat, ← sum_neg_distrib]
    have e1 : j.size = nx * ny := by simp [NdArray.size, hj]
    have e2 : f.size = nx * ny := by simp [NdArray.size, hfs]
    rw [e1, e2]
    congr 1
    exact sum_congr rfl fun k hk => hjf k (mem_range.mp hk)

/-- **C54** (refuted) The two are different: on any periodic substrate with Gamma stiffness there is a state with
non-zero normal force. -/
theorem C54_signs_differ (h : PeriodicSystem S a nx ny) (hγ : gammaStiffness a ≠ 0) (off : ℝ) (plastic active : NdArray Bool) :
    ∃ u f j : NdArray ℝ, evaluateForce S.sub.hs u = .ok f ∧ j.shape = [nx, ny] ∧
      (∀ k < nx * ny, j.flat k = -(f.flat k)) ∧
      computeNormalForce (evaluate S u off true true).2 ≠
        computeNormalForce (minimizeProxy S (.ok ⟨true, u, j, off, plastic, active⟩)).2 := by
  obtain ⟨f, hf, hf'⟩ := C08_gamma_response h.valid h.built h.grid 1
  obtain ⟨f', e, hfs⟩ := (symOp_force h).ok ⟨[nx, ny], fun _ => 1⟩ rfl
  rw [hf] at e; cases e
  have hj : ∀ k < nx * ny, (f.map fun x => -x).flat k = -(f.flat k) := fun k _ => rfl
  obtain ⟨h1, h2⟩ := C54_opposite_signs h ⟨[nx, ny], fun _ => 1⟩ f (f.map fun x => -x) rfl hf hfs hj off plastic active
  refine ⟨_, f, f.map fun x => -x, hf, hfs, hj, ?_⟩
  rw [h1, h2]
  obtain ⟨_, _, P⟩ := per_of_construct h.valid h.built h.grid
  have hx : (0 : ℝ) < nx := by exact_mod_cast Nat.pos_of_neZero nx
  have hy : (0 : ℝ) < ny := by exact_mod_cast Nat.pos_of_neZero ny
  have hsum : f.sum = (nx * ny) * -(1 * gammaStiffness a * (size a 0 * size a 1 / (nx * ny))) := by
    rw [NdArray.sum, hfs]
    simp only [sumShape]
    rw [sum_congr rfl fun i hi => sum_congr rfl fun j hj => hf' i j (mem_range.mp hi) (mem_range.mp hj)]
    simp only [sum_const, card_range, nsmul_eq_mul]
    ring
  have hne : f.sum ≠ 0 := by
    rw [hsum]
    have := P.sx_pos; have := P.sy_pos
    have : size a 0 * size a 1 / (nx * ny) ≠ 0 := by positivity
    simp only [ne_eq, mul_eq_zero, neg_eq_zero, one_ne_zero, false_or, not_or]
    exact ⟨⟨hx.ne', hy.ne'⟩, hγ, this⟩
  intro e
  have : f.sum = -f.sum := Except.ok.inj e
  exact hne (by linarith)

end CM.System
