import Verif.Props.Systems3
import Verif.Props.HardWall3
import Verif.Props.Plastic
/-!
# C171: the primal and the dual minimisation solve the same contact problem

`primal_minimize_proxy` minimises over gaps, `dual_minimize_proxy` over pressures.  The optimiser is third-party code; what is
used of it is what it promises: the reported gradient is the gradient of the objective at the reported point, and the point
satisfies the optimality conditions.
-/
set_option linter.unusedSimpArgs false
namespace CM.Spec
open Finset CM.HS CM.FFT CM.System

/-- Entry of an array at a grid point, in C order: the array may be flat or two-dimensional. -/
def flatField (nx ny : ℕ) (f : NdArray ℝ) : Fin nx × Fin ny → ℝ := fun x => f.flat (x.1 * ny + x.2)

/-- The forces `f` and displacements `u` are the solution of the contact problem of the system at the offset `off`: `u` is the
answer of the substrate to the pressures `f`, and these satisfy the contact conditions. -/
structure ContactState (S : Sys) (nx ny : ℕ) (off : ℝ) (f u : NdArray ℝ) : Prop where
  elastic : flatField nx ny u = answer S.sub 1 nx ny (flatField nx ny f)
  contact : HardWall (answer S.sub 1 nx ny) (fun x => flatField nx ny S.heights x + off) (flatField nx ny f)

/-- A system whose contact problem is well posed: on a periodic substrate with stiffness at the Gamma point, or on a nonperiodic
one. -/
def WellPosed (S : Sys) (nx ny : ℕ) : Prop :=
  (∃ a, PeriodicSystem S a nx ny ∧ 0 < gammaStiffness a) ∨ ∃ a, FreeSystem S a nx ny

end CM.Spec

namespace CM.System
open Finset CM.HS CM.FFT CM.Spec CM.Pipe

variable {nx ny : ℕ} {S : Sys} {a : Args}

lemma _root_.CM.Spec.WellPosed.sys (h : WellPosed S nx ny) : System2 S nx ny := by
  rcases h with ⟨a, h, -⟩ | h
  · exact .inl ⟨a, h⟩
  · exact .inr h

lemma _root_.CM.Spec.WellPosed.frame (h : WellPosed S nx ny) {S' : Sys} (h1 : S'.sub = S.sub) (h2 : S'.heights = S.heights) :
    WellPosed S' nx ny := by
  rcases h with ⟨a, h, hγ⟩ | ⟨a, h⟩
  · exact .inl ⟨a, periodic_frame h h1 h2, hγ⟩
  · exact .inr ⟨a, ⟨h.valid, h1 ▸ h.built, h.grid, h1 ▸ h.free, h2 ▸ h.heights⟩⟩

/-- The array handed to the substrate for the pressures `p`. -/
noncomputable def arr (p : Fin nx × Fin ny → ℝ) : NdArray ℝ := fieldArray nx ny fun y => -(p y * 1)

lemma arr_get (p : Fin nx × Fin ny → ℝ) (x : Fin nx × Fin ny) : (arr p).get [x.1, x.2] = -p x := by
  simp [arr, fieldArray, x.1.2, x.2.2]

lemma arr_get' (p : Fin nx × Fin ny → ℝ) {i j : ℕ} (hi : i < nx) (hj : j < ny) :
    (arr p).get [i, j] = -p (⟨i, hi⟩, ⟨j, hj⟩) := arr_get p (⟨i, hi⟩, ⟨j, hj⟩)

lemma answer_eq (h : System2 S nx ny) (p : Fin nx × Fin ny → ℝ) :
    ∃ u, S.sub.evaluateDisp (arr p) = .ok u ∧ u.shape = [nx, ny] ∧ ∀ x, answer S.sub 1 nx ny p x = u.get [x.1, x.2] := by
  obtain ⟨u, hu, hs⟩ := (symOp_disp h).ok (arr p) rfl
  refine ⟨u, hu, hs, fun x => ?_⟩
  unfold arr at hu
  simp only [answer, hu]

lemma dot_work {f g : Fin nx × Fin ny → ℝ} {u v : NdArray ℝ} (hf : ∀ x, f x = u.get [x.1, x.2]) (hg : ∀ x, g x = v.get [x.1, x.2]) :
    dot f g = work nx ny u v := by
  unfold dot work
  rw [Fintype.sum_prod_type, Finset.sum_range]
  refine sum_congr rfl fun i _ => ?_
  rw [Finset.sum_range]
  exact sum_congr rfl fun j _ => by rw [hf, hg]

lemma answer_reciprocal (h : System2 S nx ny) : Reciprocal (answer S.sub 1 nx ny) := by
  constructor
  · intro c d f g
    obtain ⟨u, hu, hus, hu'⟩ := answer_eq h f
    obtain ⟨v, hv, hvs, hv'⟩ := answer_eq h g
    obtain ⟨w, hw, hws, hw'⟩ := answer_eq h fun j => c * f j + d * g j
    funext x
    rw [hu', hv', hw']
    refine (symOp_disp h).lin c d _ _ _ rfl rfl rfl (fun i j hi hj => ?_) u v w hu hv hw _ _ x.1.2 x.2.2
    rw [arr_get' _ hi hj, arr_get' _ hi hj, arr_get' _ hi hj]; ring
  · intro f g
    obtain ⟨u, hu, hus, hu'⟩ := answer_eq h f
    obtain ⟨v, hv, hvs, hv'⟩ := answer_eq h g
    have := (symOp_disp h).symm _ _ u v rfl rfl hu hv
    have e1 : dot (fun x => -f x) (answer S.sub 1 nx ny g) = work nx ny (arr f) v := dot_work (fun x => (arr_get f x).symm) hv'
    have e2 : dot (fun x => -g x) (answer S.sub 1 nx ny f) = work nx ny (arr g) u := dot_work (fun x => (arr_get g x).symm) hu'
    rw [← e1, ← e2] at this
    simp only [dot, neg_mul, sum_neg_distrib, neg_inj] at this
    exact this

lemma answer_posDef (h : WellPosed S nx ny) : PosDef (answer S.sub 1 nx ny) := by
  intro f ⟨x, hx⟩
  obtain ⟨u, hu, hus, hu'⟩ := answer_eq h.sys f
  have e1 : dot (fun x => -f x) (answer S.sub 1 nx ny f) = work nx ny (arr f) u := dot_work (fun x => (arr_get f x).symm) hu'
  have e2 : dot f (answer S.sub 1 nx ny f) = -work nx ny (arr f) u := by
    rw [← e1]; simp only [dot, neg_mul, sum_neg_distrib, neg_neg]
  have hne : (arr f).get [x.1, x.2] ≠ 0 := by rw [arr_get]; exact neg_ne_zero.2 hx
  rw [e2, neg_pos]
  rcases h with ⟨a, h, hγ⟩ | ⟨a, h⟩
  · have he : S.sub.evaluateDisp (arr f) = HS.evaluateDisp S.sub.hs (arr f) := by
      unfold Substrate.evaluateDisp; rw [if_neg (by rw [h.periodic]; simp)]
    obtain ⟨u', n, k1, k2, k3⟩ := C02_force_disp_inverse h.valid h.built h.grid hγ.ne' (arr f) rfl
    rw [← he, hu] at k1; cases k1
    obtain ⟨w0, w1⟩ := energy_work h hγ hus k2
    have e3 : work nx ny n u = work nx ny (arr f) u := work_congr k3 fun _ _ _ _ => rfl
    rw [e3] at w0 w1
    refine lt_of_le_of_ne (by linarith) fun e => ?_
    rw [e, mul_zero] at w1
    have hz := w1.1 rfl
    obtain ⟨n0, hn0⟩ := (symOp_force h).ok ⟨[nx, ny], fun _ => 0⟩ rfl
    have hl := (symOp_force h).lin 0 0 u u u hus hus hus (fun i j hi hj => by rw [hz i j hi hj]; ring) n n n k2 k2 k2 _ _ x.1.2 x.2.2
    rw [k3 _ _ x.1.2 x.2.2] at hl
    apply hne; rw [hl]; ring
  · obtain ⟨u', k1, -, k2⟩ := C159_positive_work h.valid h.built h.grid (arr f) rfl ⟨x.1, x.2, x.1.2, x.2.2, hne⟩
    unfold Substrate.evaluateDisp at hu
    rw [if_pos h.free, k1] at hu; cases hu
    exact k2

lemma flatField_get {f : NdArray ℝ} (hf : f.shape = [nx, ny]) (x : Fin nx × Fin ny) : flatField nx ny f x = f.get [x.1, x.2] :=
  flat_get hf x.1.2 x.2.2

/-- The gradient of the dual objective is the gap: answer of the substrate minus the rigid surface. -/
lemma dual_answer (h : System2 S nx ny) {off : ℝ} {p H : NdArray ℝ} {q : Option ℝ} {S2 : Sys} (hp : p.size = nx * ny)
    (hq : dualObjective S off p = (.ok (q, H), S2)) (x : Fin nx × Fin ny) :
    flatField nx ny H x = answer S.sub 1 nx ny (flatField nx ny p) x - (flatField nx ny S.heights x + off) := by
  obtain ⟨p', n, u, G, S', h1, h2, h3, h4, h5, h6, h7, h8, h9, -⟩ := dualObjective_eq h off p hp
  rw [h9] at hq
  obtain ⟨⟨-, e2⟩, -⟩ : (_ ∧ G = H) ∧ _ := by simpa using hq
  subst e2
  obtain ⟨v, hv, hvs, hv'⟩ := answer_eq h (flatField nx ny p)
  have hk := flat_lt (nx := nx) x.1.2 x.2.2
  have := (symOp_disp h).congr h3 rfl (fun i j hi hj => ?_) h5 hv x.1 x.2 x.1.2 x.2.2
  · unfold flatField
    rw [h8 _ hk, flat_get h6 x.1.2 x.2.2, this]
    have := hv' x
    unfold flatField at this
    rw [this]; ring
  · rw [arr_get' _ hi hj, h4, ← flat_get h1 hi hj, h2 _ (flat_lt hi hj)]; rfl

lemma kkt_contact (h : System2 S nx ny) {off : ℝ} {p H : NdArray ℝ} {q : Option ℝ} {S2 : Sys} (hp : p.size = nx * ny)
    (hq : dualObjective S off p = (.ok (q, H), S2)) :
    KKT (nx * ny) p H ↔ HardWall (answer S.sub 1 nx ny) (fun x => flatField nx ny S.heights x + off) (flatField nx ny p) := by
  have hg := dual_answer h hp hq
  constructor
  · intro hk
    refine ⟨fun x => hk.1 _ (flat_lt x.1.2 x.2.2), fun x => ?_, fun x hx => ?_⟩
    · have h1 : 0 ≤ flatField nx ny H x := hk.2.1 _ (flat_lt x.1.2 x.2.2)
      rw [hg] at h1; linarith
    · have h1 : flatField nx ny p x * flatField nx ny H x = 0 := hk.2.2 _ (flat_lt x.1.2 x.2.2)
      rcases mul_eq_zero.1 h1 with h1 | h1
      · exact absurd h1 hx
      · rw [hg] at h1; linarith
  · intro hw
    have key : ∀ k < nx * ny, ∃ x : Fin nx × Fin ny, k = x.1 * ny + x.2 := fun k hk => by
      obtain ⟨i, j, hi, hj, e, -⟩ := get_of_flat (f := S.heights) (heights_eq h) hk
      exact ⟨(⟨i, hi⟩, ⟨j, hj⟩), e⟩
    refine ⟨fun k hk => ?_, fun k hk => ?_, fun k hk => ?_⟩
    · obtain ⟨x, rfl⟩ := key k hk; exact hw.noTension x
    · obtain ⟨x, rfl⟩ := key k hk
      have h1 := hw.noPenetration x
      have h2 := hg x
      unfold flatField at h1 h2
      rw [h2]; linarith
    · obtain ⟨x, rfl⟩ := key k hk
      by_cases hz : flatField nx ny p x = 0
      · unfold flatField at hz; rw [hz, zero_mul]
      · have h1 := hw.touching x hz
        have h2 := hg x
        unfold flatField at h1 h2
        rw [h2, h1, sub_self, mul_zero]

lemma dual_frame_all (S : Sys) (off : ℝ) (ps : List (NdArray ℝ)) :
    (callAll (fun S => dualObjective S off) (clear S) ps).2.sub = S.sub ∧
    (callAll (fun S => dualObjective S off) (clear S) ps).2.heights = S.heights :=
  callAll_frame (fun T => T.sub = S.sub ∧ T.heights = S.heights)
    (fun T p hT => by
      obtain ⟨-, -, -, e1, e2⟩ := dualObjective_frame T off p
      exact ⟨e1.trans hT.1, e2.trans hT.2⟩) ps _ ⟨rfl, rfl⟩

lemma primal_frame_all (S : Sys) (off : ℝ) (ps : List (NdArray ℝ)) :
    (callAll (fun S => primalObjective S off) (clear S) ps).2.sub = S.sub ∧
    (callAll (fun S => primalObjective S off) (clear S) ps).2.heights = S.heights :=
  callAll_frame (fun T => T.sub = S.sub ∧ T.heights = S.heights)
    (fun T p hT => by
      obtain ⟨-, -, e1, e2⟩ := primalObjective_frame T off p
      exact ⟨e1.trans hT.1, e2.trans hT.2⟩) ps _ ⟨rfl, rfl⟩


/-- Names of the optimisers that the primal and dual proxies accept. -/
def SolverName (name : String) : Prop := name = "ccg-without-restart" ∨ name = "ccg-with-restart" ∨ name = "l-bfgs-b"

lemma solverName_iff (name : String) : SolverName name ↔ name ∈ solverNames := by simp [SolverName, solverNames]

/-- What the state is after a successful `dual_minimize_proxy`. -/
lemma dual_final (h : System2 S nx ny) (off : ℝ) (f0 : NdArray ℝ) (hf0 : f0.shape = [nx, ny]) {solver : String}
    (hs : SolverName solver) (run : SolverRun) (hrun : run.result.success = true) (hps : ∀ p ∈ run.points, p.size = nx * ny)
    (hj : run.result.jac.size = nx * ny) :
    ∃ S' u, dualMinimizeProxy S off (some f0) solver run = (.ok run.result, S') ∧ S'.force = some run.result.x ∧
      S'.subForce = some run.result.x ∧ S'.gap = some run.result.jac ∧ S'.offset = some off ∧
      S'.contactZone = some (run.result.x.map fun v => decide (0 < v)) ∧ S'.disp = some u ∧ S'.sub = S.sub ∧ S'.heights = S.heights ∧
      ∀ k < nx * ny, u.flat k = run.result.jac.flat k + off + S.heights.flat k := by
  have hc : System2 (clear S) nx ny := system2_frame h rfl rfl
  obtain ⟨e1, -⟩ := callAll_dual hc off run.points hps
  obtain ⟨f1, f2⟩ := dual_frame_all S off run.points
  have hh := heights_eq h
  obtain ⟨hr, hr1, hr2, hr3⟩ := reshape_ok S.heights (s := run.result.jac.shape) (by
    have e : run.result.jac.shape.prod = nx * ny := hj
    rw [e]; simp [NdArray.size, hh])
  unfold dualMinimizeProxy
  rw [if_neg (by simpa using (solverName_iff _).1 hs)]
  dsimp only
  rw [if_neg (by rw [hf0, topo_eq h]; simp)]
  cases hca : callAll (fun S => dualObjective S off) (clear S) run.points with
  | mk o S' =>
    rw [hca] at e1 f1 f2
    dsimp only at e1 f1 f2
    subst e1
    simp only [hrun, if_true, f2, hr1]
    refine ⟨_, _, rfl, rfl, rfl, rfl, rfl, rfl, rfl, f1, rfl, fun k hk => ?_⟩
    have hk' : k < run.result.jac.shape.prod := by
      have e : run.result.jac.shape.prod = nx * ny := hj
      rw [e]; exact hk
    rw [← hr3 k hk']
    simp only [NdArray.flat, hr2]

/-- **C171** Dual minimisation: after a successful `dual_minimize_proxy` whose optimiser returned an optimal point (with the gradient
of the objective there), the force and displacement fields of the system are the solution of the contact problem at the offset, for
periodic and nonperiodic substrates, any optimiser and any history of calls. -/
theorem C171_dual_state (h : System2 S nx ny) (off : ℝ) (f0 : NdArray ℝ) (hf0 : f0.shape = [nx, ny]) {solver : String}
    (hs : SolverName solver) (run : SolverRun) (hrun : run.result.success = true) (hps : ∀ p ∈ run.points, p.size = nx * ny)
    (hx : run.result.x.size = nx * ny) {q : Option ℝ} {S2 : Sys}
    (hgrad : dualObjective S off run.result.x = (.ok (q, run.result.jac), S2)) (hk : KKT (nx * ny) run.result.x run.result.jac) :
    ∃ S' f u, dualMinimizeProxy S off (some f0) solver run = (.ok run.result, S') ∧ S'.force = some f ∧ S'.disp = some u ∧
      f = run.result.x ∧ S'.offset = some off ∧ ContactState S nx ny off f u := by
  have hj : run.result.jac.size = nx * ny := by
    obtain ⟨_, _, _, G, _, -, -, -, -, -, -, h7, -, h9, -⟩ := dualObjective_eq h off run.result.x hx
    rw [h9] at hgrad
    obtain ⟨⟨-, e2⟩, -⟩ : (_ ∧ G = run.result.jac) ∧ _ := by simpa using hgrad
    rw [← e2]; simp [NdArray.size, h7]
  obtain ⟨S', u, k1, k2, -, -, k3, -, k4, -, -, k5⟩ := dual_final h off f0 hf0 hs run hrun hps hj
  refine ⟨S', _, u, k1, k2, k4, rfl, k3, ?_, (kkt_contact h hx hgrad).1 hk⟩
  funext x
  have := dual_answer h hx hgrad x
  have e := k5 _ (flat_lt x.1.2 x.2.2)
  unfold flatField at this ⊢
  rw [e, this]; ring

/-- What the state is after a successful `primal_minimize_proxy`. -/
lemma primal_final (h : PeriodicSystem S a nx ny) (off : ℝ) (g0 : NdArray ℝ) (hg0 : g0.size = nx * ny) {solver : String}
    (hs : SolverName solver) (run : SolverRun) (hrun : run.result.success = true) (hps : ∀ p ∈ run.points, p.size = nx * ny)
    (hx : run.result.x.size = nx * ny) :
    ∃ S' u, primalMinimizeProxy S off (some g0) solver run = (.ok run.result, S') ∧ S'.force = some run.result.jac ∧
      S'.subForce = some run.result.jac ∧ S'.gap = some run.result.x ∧ S'.offset = some off ∧
      S'.contactZone = some (run.result.x.map fun v => decide (v = 0)) ∧ S'.disp = some u ∧ S'.sub = S.sub ∧ S'.heights = S.heights ∧
      ∀ k < nx * ny, u.flat k = run.result.x.flat k + off + S.heights.flat k := by
  have hc : PeriodicSystem (clear S) a nx ny := periodic_frame h rfl rfl
  obtain ⟨e1, -⟩ := callAll_primal hc off run.points hps
  obtain ⟨f1, f2⟩ := primal_frame_all S off run.points
  have hh := h.heights
  have e : run.result.x.shape.prod = nx * ny := hx
  obtain ⟨hr, hr1, hr2, hr3⟩ := reshape_ok S.heights (s := run.result.x.shape) (by rw [e]; simp [NdArray.size, hh])
  have hstart : (if solver = "l-bfgs-b" then do let _ ← shapeMinimisationInput (clear S) g0; pure () else pure () :
      Except PyErr Unit) = .ok () := by
    split
    · rw [shapeMinimisationInput, (per_grid hc).2.1, if_pos (by simp [hg0])]; rfl
    · rfl
  unfold primalMinimizeProxy
  rw [if_neg (by simpa using (solverName_iff _).1 hs)]
  dsimp only
  rw [hstart]
  dsimp only
  cases hca : callAll (fun S => primalObjective S off) (clear S) run.points with
  | mk o S' =>
    rw [hca] at e1 f1 f2
    dsimp only at e1 f1 f2
    subst e1
    simp only [hrun, if_true, f2, hr1]
    refine ⟨_, _, rfl, rfl, rfl, rfl, rfl, rfl, rfl, f1, rfl, fun k hk => ?_⟩
    rw [← hr3 k (by rw [e]; exact hk)]
    simp only [NdArray.flat, hr2]

/-- **C171** Primal minimisation: the same for `primal_minimize_proxy` on a periodic substrate: the reported gradient is stored as the
force, the reported point plus the rigid surface as the displacement, and they are the solution of the contact problem. -/
theorem C171_primal_state (h : PeriodicSystem S a nx ny) (hγ : 0 < gammaStiffness a) (off : ℝ) (g0 : NdArray ℝ)
    (hg0 : g0.size = nx * ny) {solver : String} (hs : SolverName solver) (run : SolverRun) (hrun : run.result.success = true)
    (hps : ∀ p ∈ run.points, p.size = nx * ny) (hx : run.result.x.size = nx * ny) {E : ℝ} {S1 : Sys}
    (hgrad : primalObjective S off run.result.x = (.ok (some E, run.result.jac), S1))
    (hk : KKT (nx * ny) run.result.x run.result.jac) :
    ∃ S' f u, primalMinimizeProxy S off (some g0) solver run = (.ok run.result, S') ∧ S'.force = some f ∧ S'.disp = some u ∧
      f = run.result.jac ∧ S'.offset = some off ∧ ContactState S nx ny off f u := by
  obtain ⟨S', u, k1, k2, -, -, k3, -, k4, -, -, k5⟩ := primal_final h off g0 hg0 hs run hrun hps hx
  obtain ⟨H, S2, h1, h2, h3⟩ := C111_primal_to_dual h hγ off run.result.x run.result.jac hx hgrad hk
  have hj : run.result.jac.size = nx * ny := by
    obtain ⟨_, _, G, _, -, -, -, -, h5, -, h7, -⟩ := primalObjective_eq h off run.result.x hx
    rw [h7] at hgrad
    obtain ⟨⟨-, e2⟩, -⟩ : (_ ∧ G = run.result.jac) ∧ _ := by simpa using hgrad
    rw [← e2]; simp [NdArray.size, h5]
  have h' : System2 S nx ny := .inl ⟨a, h⟩
  refine ⟨S', _, u, k1, k2, k4, rfl, k3, ?_, (kkt_contact h' hj h1).1 h3⟩
  funext x
  have := dual_answer h' hj h1 x
  have e := k5 _ (flat_lt x.1.2 x.2.2)
  have e2 := h2 _ (flat_lt x.1.2 x.2.2)
  unfold flatField at this ⊢
  rw [e, ← e2, this]; ring

/-- **C171** The contact problem of a system has exactly one solution at every offset: whichever formulation, optimiser or history
produced it, the forces and the displacements are the same at every grid point. -/
theorem C171_one_state (h : WellPosed S nx ny) {off : ℝ} {f f' u u' : NdArray ℝ} (h1 : ContactState S nx ny off f u)
    (h2 : ContactState S nx ny off f' u') : ∀ k < nx * ny, f.flat k = f'.flat k ∧ u.flat k = u'.flat k := by
  have e := hardWall_unique (answer_reciprocal h.sys) (answer_posDef h) h1.contact h2.contact
  have e' : flatField nx ny u = flatField nx ny u' := by rw [h1.elastic, h2.elastic, e]
  intro k hk
  obtain ⟨i, j, hi, hj, rfl, -⟩ := get_of_flat (f := S.heights) (heights_eq h.sys) hk
  exact ⟨congrFun e (⟨i, hi⟩, ⟨j, hj⟩), congrFun e' (⟨i, hi⟩, ⟨j, hj⟩)⟩

/-- **C171** Primal and dual minimisation agree: minimising over the gaps and minimising over the pressures leave the same force field and
the same displacement field in the system, whatever the optimisers and the starting points. -/
theorem C171_primal_dual_agree (h : PeriodicSystem S a nx ny) (hγ : 0 < gammaStiffness a) (off : ℝ) (g0 f0 : NdArray ℝ)
    (hg0 : g0.size = nx * ny) (hf0 : f0.shape = [nx, ny]) {s1 s2 : String} (hs1 : SolverName s1) (hs2 : SolverName s2)
    (r1 r2 : SolverRun) (k1 : r1.result.success = true) (k2 : r2.result.success = true)
    (hp1 : ∀ p ∈ r1.points, p.size = nx * ny) (hp2 : ∀ p ∈ r2.points, p.size = nx * ny)
    (hx1 : r1.result.x.size = nx * ny) (hx2 : r2.result.x.size = nx * ny) {E : ℝ} {q : Option ℝ} {S1 S2 : Sys}
    (hG1 : primalObjective S off r1.result.x = (.ok (some E, r1.result.jac), S1))
    (hG2 : dualObjective S off r2.result.x = (.ok (q, r2.result.jac), S2))
    (hk1 : KKT (nx * ny) r1.result.x r1.result.jac) (hk2 : KKT (nx * ny) r2.result.x r2.result.jac) :
    ∃ T1 T2 f1 f2 u1 u2, primalMinimizeProxy S off (some g0) s1 r1 = (.ok r1.result, T1) ∧
      dualMinimizeProxy S off (some f0) s2 r2 = (.ok r2.result, T2) ∧ T1.force = some f1 ∧ T2.force = some f2 ∧
      T1.disp = some u1 ∧ T2.disp = some u2 ∧ ∀ k < nx * ny, f1.flat k = f2.flat k ∧ u1.flat k = u2.flat k := by
  obtain ⟨T1, f1, u1, a1, a2, a3, -, -, a4⟩ := C171_primal_state h hγ off g0 hg0 hs1 r1 k1 hp1 hx1 hG1 hk1
  obtain ⟨T2, f2, u2, b1, b2, b3, -, -, b4⟩ := C171_dual_state (.inl ⟨a, h⟩) off f0 hf0 hs2 r2 k2 hp2 hx2 hG2 hk2
  exact ⟨T1, T2, f1, f2, u1, u2, a1, b1, a2, b2, a3, b3, C171_one_state (.inl ⟨a, h, hγ⟩) a4 b4⟩

/-- **C171** Both problems are solvable: for every system and offset there are pressures satisfying the optimality conditions of the
dual objective. -/
theorem C171_dual_solvable (h : WellPosed S nx ny) (off : ℝ) : ∃ p H q S2, p.shape = [nx, ny] ∧
    dualObjective S off p = (.ok (some q, H), S2) ∧ KKT (nx * ny) p H := by
  obtain ⟨w, hw⟩ := hardWall_exists (answer_reciprocal h.sys) (answer_posDef h).copositive (fun x => flatField nx ny S.heights x + off)
  let p : NdArray ℝ := fieldArray nx ny w
  have hp : p.size = nx * ny := by simp [p, fieldArray, NdArray.size]
  have hpw : flatField nx ny p = w := by
    funext x
    rw [flatField_get (f := p) rfl]
    simp [p, fieldArray, x.1.2, x.2.2]
  obtain ⟨_, _, _, H, S2, -, -, -, -, -, -, -, -, h9, -⟩ := dualObjective_eq h.sys off p hp
  exact ⟨p, H, _, S2, rfl, h9, (kkt_contact h.sys hp h9).2 (by rw [hpw]; exact hw)⟩

/-- **C171** The same for the gaps and the primal objective. -/
theorem C171_primal_solvable (h : PeriodicSystem S a nx ny) (hγ : 0 < gammaStiffness a) (off : ℝ) : ∃ g G E S1,
    g.size = nx * ny ∧ primalObjective S off g = (.ok (some E, G), S1) ∧ KKT (nx * ny) g G := by
  obtain ⟨p, H, q, S2, h1, h2, h3⟩ := C171_dual_solvable (.inl ⟨a, h, hγ⟩) off
  have hp : p.size = nx * ny := by simp [NdArray.size, h1]
  have hH : H.size = nx * ny := by
    obtain ⟨_, _, _, G, _, -, -, -, -, -, -, h7, -, h9, -⟩ := dualObjective_eq (.inl ⟨a, h⟩) off p hp
    rw [h9] at h2
    obtain ⟨⟨-, e2⟩, -⟩ : (_ ∧ G = H) ∧ _ := by simpa using h2
    rw [← e2]; simp [NdArray.size, h7]
  obtain ⟨G, S1, k1, k2, k3⟩ := C111_dual_to_primal h hγ off p H hp h2 h3
  exact ⟨H, G, -q, S1, hH, k1, k3⟩

lemma dual_energy (h : System2 S nx ny) {off : ℝ} {p H : NdArray ℝ} {q : ℝ} {S2 : Sys} (hp : p.size = nx * ny)
    (hq : dualObjective S off p = (.ok (some q, H), S2)) :
    q = dot (flatField nx ny p) (answer S.sub 1 nx ny (flatField nx ny p)) / 2
      - dot (flatField nx ny p) (fun x => flatField nx ny S.heights x + off) := by
  obtain ⟨p', n, u, G, S', h1, h2, h3, h4, h5, h6, h7, h8, h9, -⟩ := dualObjective_eq h off p hp
  rw [h9] at hq
  obtain ⟨⟨e1, e2⟩, -⟩ : (_ ∧ G = H) ∧ _ := by simpa using hq
  have hq' : dualObjective S off p = (.ok (some (1 / 2 * work nx ny p' u -
      ∑ k ∈ range (nx * ny), p.flat k * (S.heights.flat k + off)), G), S') := h9
  have hx := dual_answer h hp hq'
  have ha : ∀ x, answer S.sub 1 nx ny (flatField nx ny p) x = u.get [x.1, x.2] := by
    intro x
    have := hx x
    have e := h8 _ (flat_lt (nx := nx) x.1.2 x.2.2)
    rw [← flat_get h6 x.1.2 x.2.2]
    unfold flatField at this ⊢
    rw [e] at this
    linarith
  have hpx : ∀ x, flatField nx ny p x = p'.get [x.1, x.2] := fun x => by
    rw [← flat_get h1 x.1.2 x.2.2, h2 _ (flat_lt x.1.2 x.2.2)]; rfl
  have hsum : ∑ k ∈ range (nx * ny), p.flat k * (S.heights.flat k + off)
      = dot (flatField nx ny p) (fun x => flatField nx ny S.heights x + off) := by
    rw [sum_range_mul']
    unfold dot flatField
    rw [Fintype.sum_prod_type, Finset.sum_range]
    exact sum_congr rfl fun i _ => by rw [Finset.sum_range]
  rw [dot_work hpx ha, ← hsum, ← e1]
  ring

/-- **C111** Pressures that satisfy the optimality conditions are the unique global minimum of the dual objective among non-negative
pressures, on nonperiodic substrates as on periodic ones. -/
theorem C111_dual_global_any (h : WellPosed S nx ny) (off : ℝ) (p H : NdArray ℝ) (hp : p.size = nx * ny) {q : ℝ} {S2 : Sys}
    (hq : dualObjective S off p = (.ok (some q, H), S2)) (hk : KKT (nx * ny) p H) (p' : NdArray ℝ) (hp' : p'.size = nx * ny)
    (hn : ∀ k < nx * ny, 0 ≤ p'.flat k) :
    ∃ q' H' S', dualObjective S off p' = (.ok (some q', H'), S') ∧ q ≤ q' ∧ (q' = q → ∀ k < nx * ny, p'.flat k = p.flat k) := by
  obtain ⟨_, _, _, H', S', -, -, -, -, -, -, -, -, h9, -⟩ := dualObjective_eq h.sys off p' hp'
  refine ⟨_, H', S', h9, ?_⟩
  have e1 := dual_energy h.sys hp hq
  have e2 := dual_energy h.sys hp' h9
  have hw := (kkt_contact h.sys hp hq).1 hk
  set U := answer S.sub 1 nx ny with hU
  set b : Fin nx × Fin ny → ℝ := fun x => flatField nx ny S.heights x + off with hb
  set P := flatField nx ny p with hP
  set Q := flatField nx ny p' with hQ
  have hrec : Reciprocal U := answer_reciprocal h.sys
  have hpd : PosDef U := answer_posDef h
  have hm := energy_move hrec b P (fun x => Q x - P x) 1
  have hQ' : (fun i => 1 * P i + 1 * (Q i - P i)) = Q := by funext i; ring
  rw [hQ'] at hm
  unfold energy at hm
  have hslope : 0 ≤ dot (fun x => Q x - P x) (fun i => U P i - b i) := by
    unfold dot
    refine sum_nonneg fun x _ => ?_
    beta_reduce
    have n1 := hw.noPenetration x
    have n2 : 0 ≤ Q x := hn _ (flat_lt x.1.2 x.2.2)
    by_cases hz : P x = 0
    · rw [hz]; exact mul_nonneg (by linarith) (by linarith)
    · rw [hw.touching x hz]; simp
  have hq0 : 0 ≤ dot (fun x => Q x - P x) (U fun x => Q x - P x) := by
    by_cases hne : ∃ i, Q i - P i ≠ 0
    · exact (hpd _ hne).le
    · push Not at hne
      unfold dot; exact (sum_eq_zero fun i _ => by beta_reduce; rw [hne i, zero_mul]).ge
  constructor
  · linarith
  · intro e k hk'
    have hzero : dot (fun x => Q x - P x) (U fun x => Q x - P x) = 0 := by linarith
    have hall : ∀ i, Q i - P i = 0 := by
      by_contra hc
      push Not at hc
      exact absurd (hpd _ hc) (by rw [hzero]; exact lt_irrefl 0)
    obtain ⟨i, j, hi, hj, rfl, -⟩ := get_of_flat (f := S.heights) (heights_eq h.sys) hk'
    exact sub_eq_zero.1 (hall (⟨i, hi⟩, ⟨j, hj⟩))

/-- **C171** Inexact optimisers: if the dual optimiser stops with non-negative pressures, a gradient above `-δ` and a complementarity
error at most `ε`, the pressures differ from the exact solution by at most `ε + δ·(total exact pressure)`, measured by the elastic
work of the difference, which is positive unless they are equal. -/
theorem C171_dual_error (h : WellPosed S nx ny) {off δ ε : ℝ} {p H f u : NdArray ℝ} {q : Option ℝ} {S2 : Sys}
    (hp : p.size = nx * ny) (hq : dualObjective S off p = (.ok (q, H), S2)) (hx : ContactState S nx ny off f u)
    (h0 : ∀ k < nx * ny, 0 ≤ p.flat k) (h1 : ∀ k < nx * ny, -δ ≤ H.flat k)
    (h2 : ∑ k ∈ range (nx * ny), p.flat k * max 0 (H.flat k) ≤ ε) :
    let d : Fin nx × Fin ny → ℝ := fun x => flatField nx ny p x - flatField nx ny f x
    dot d (answer S.sub 1 nx ny d) ≤ ε + δ * ∑ k ∈ range (nx * ny), f.flat k ∧
      ((∃ k < nx * ny, p.flat k ≠ f.flat k) → 0 < dot d (answer S.sub 1 nx ny d)) := by
  intro d
  have hg := dual_answer h.sys hp hq
  have hrec := answer_reciprocal h.sys
  have hsum : ∀ F : ℕ → ℝ, ∑ k ∈ range (nx * ny), F k = ∑ x : Fin nx × Fin ny, F (x.1 * ny + x.2) := by
    intro F
    rw [sum_range_mul', Fintype.sum_prod_type, Finset.sum_range]
    exact sum_congr rfl fun i _ => by rw [Finset.sum_range]
  constructor
  · have key := two_states (U := answer S.sub 1 nx ny) (b := fun x => flatField nx ny S.heights x + off) (p := flatField nx ny p)
      (q := flatField nx ny f) (o₁ := 0) (o₂ := 0) (δ₁ := δ) (δ₂ := 0) (fun x => h0 _ (flat_lt x.1.2 x.2.2)) hx.contact.noTension
      (fun x => by
        have := h1 _ (flat_lt (nx := nx) x.1.2 x.2.2)
        have e := hg x
        unfold flatField at e ⊢
        linarith)
      (fun x => by have := hx.contact.noPenetration x; linarith)
    have t2 := touching_zero hx.contact
    simp only [add_zero] at key
    rw [t2, U_sub hrec] at key
    have e1 : ∑ i, flatField nx ny p i * max 0 (answer S.sub 1 nx ny (flatField nx ny p) i - (flatField nx ny S.heights i + off))
        = ∑ k ∈ range (nx * ny), p.flat k * max 0 (H.flat k) := by
      rw [hsum]
      refine sum_congr rfl fun x _ => ?_
      rw [← hg x]; rfl
    have e2 : ∑ i, flatField nx ny f i = ∑ k ∈ range (nx * ny), f.flat k := by rw [hsum]; rfl
    rw [e1, e2] at key
    have : dot d (answer S.sub 1 nx ny d) ≤ _ := key
    linarith
  · rintro ⟨k, hk, hne⟩
    obtain ⟨i, j, hi, hj, rfl, -⟩ := get_of_flat (f := S.heights) (heights_eq h.sys) hk
    exact answer_posDef h d ⟨(⟨i, hi⟩, ⟨j, hj⟩), sub_ne_zero.2 hne⟩

/-- **C171** The contact zones: a point of the dual contact zone (positive pressure) is in the primal contact zone (zero gap). -/
theorem C171_contact_zones (h : PeriodicSystem S a nx ny) (hγ : 0 < gammaStiffness a) (off : ℝ) (g0 f0 : NdArray ℝ)
    (hg0 : g0.size = nx * ny) (hf0 : f0.shape = [nx, ny]) {s1 s2 : String} (hs1 : SolverName s1) (hs2 : SolverName s2)
    (r1 r2 : SolverRun) (k1 : r1.result.success = true) (k2 : r2.result.success = true)
    (hp1 : ∀ p ∈ r1.points, p.size = nx * ny) (hp2 : ∀ p ∈ r2.points, p.size = nx * ny)
    (hx1 : r1.result.x.size = nx * ny) (hx2 : r2.result.x.size = nx * ny) {E : ℝ} {q : Option ℝ} {S1 S2 : Sys}
    (hG1 : primalObjective S off r1.result.x = (.ok (some E, r1.result.jac), S1))
    (hG2 : dualObjective S off r2.result.x = (.ok (q, r2.result.jac), S2))
    (hk1 : KKT (nx * ny) r1.result.x r1.result.jac) (hk2 : KKT (nx * ny) r2.result.x r2.result.jac) :
    ∃ T1 T2 z1 z2, primalMinimizeProxy S off (some g0) s1 r1 = (.ok r1.result, T1) ∧
      dualMinimizeProxy S off (some f0) s2 r2 = (.ok r2.result, T2) ∧ T1.contactZone = some z1 ∧ T2.contactZone = some z2 ∧
      ∀ k < nx * ny, z2.flat k = true → z1.flat k = true := by
  obtain ⟨T1, T2, f1, f2, u1, u2, a1, a2, a3, a4, -, -, a5⟩ :=
    C171_primal_dual_agree h hγ off g0 f0 hg0 hf0 hs1 hs2 r1 r2 k1 k2 hp1 hp2 hx1 hx2 hG1 hG2 hk1 hk2
  have hj : r2.result.jac.size = nx * ny := by
    obtain ⟨_, _, _, G, _, -, -, -, -, -, -, h7, -, h9, -⟩ := dualObjective_eq (.inl ⟨a, h⟩) off r2.result.x hx2
    rw [h9] at hG2
    obtain ⟨⟨-, e2⟩, -⟩ : (_ ∧ G = r2.result.jac) ∧ _ := by simpa using hG2
    rw [← e2]; simp [NdArray.size, h7]
  obtain ⟨T1', _, b1, b2, -, -, -, b3, -⟩ := primal_final h off g0 hg0 hs1 r1 k1 hp1 hx1
  obtain ⟨T2', _, c1, c2, -, -, -, c3, -⟩ := dual_final (.inl ⟨a, h⟩) off f0 hf0 hs2 r2 k2 hp2 hj
  rw [a1] at b1; rw [a2] at c1
  cases b1; cases c1
  rw [a3] at b2; rw [a4] at c2
  cases b2; cases c2
  refine ⟨T1, T2, _, _, a1, a2, b3, c3, fun k hk hz => ?_⟩
  have hz' : 0 < r2.result.x.flat k := by
    have : (decide (0 < r2.result.x.flat k)) = true := hz
    simpa using this
  have hpos : 0 < r1.result.jac.flat k := by rw [(a5 k hk).1]; exact hz'
  have : r1.result.x.flat k = 0 := by
    rcases mul_eq_zero.1 (hk1.2.2 k hk) with e | e
    · exact e
    · rw [e] at hpos; exact absurd hpos (lt_irrefl 0)
  show decide (r1.result.x.flat k = 0) = true
  simpa using this

/-- The result of an optimiser that returns zeros. -/
def zeroResult (nx ny : ℕ) : OptResult :=
  ⟨true, ⟨[nx * ny], fun _ => 0⟩, ⟨[nx * ny], fun _ => 0⟩, 0, ⟨[nx * ny], fun _ => false⟩, ⟨[nx * ny], fun _ => false⟩⟩

lemma zero_flat {N k : ℕ} : (⟨[N], fun _ => 0⟩ : NdArray ℝ).flat k = 0 := rfl

/-- **C171** (refuted for the contact area) A flat rigid surface that just touches the substrate: primal and dual minimisation both find
the solution -- no force, no displacement, no gap -- but the primal contact zone is the whole surface and the dual one is empty, so
the reported contact areas differ. -/
theorem C171_zones_differ_partial (h : PeriodicSystem S a nx ny)
    (hflat : ∀ i j, i < nx → j < ny → S.heights.get [i, j] = 0) :
    (∃ E G S1, primalObjective S 0 (zeroResult nx ny).x = (.ok (some E, G), S1) ∧ KKT (nx * ny) (zeroResult nx ny).x G ∧
      ∀ k < nx * ny, G.flat k = 0) ∧
    ∃ T1 T2, primalMinimizeProxy S 0 (some (zeroResult nx ny).x) "l-bfgs-b" ⟨[], zeroResult nx ny⟩ = (.ok (zeroResult nx ny), T1) ∧
      dualMinimizeProxy S 0 (some ⟨[nx, ny], fun _ => 0⟩) "l-bfgs-b" ⟨[], zeroResult nx ny⟩ = (.ok (zeroResult nx ny), T2) ∧
      computeNbContactPts T1 = .ok (nx * ny) ∧ computeNbContactPts T2 = .ok 0 ∧ 0 < nx * ny := by
  have hz : (zeroResult nx ny).x.size = nx * ny := by simp [zeroResult, NdArray.size]
  obtain ⟨_, _, c1, c2⟩ := per_grid h
  have hpos : 0 < nx * ny := Nat.mul_pos (Nat.pos_of_ne_zero c1) (Nat.pos_of_ne_zero c2)
  constructor
  · obtain ⟨u, f, G, S1, h1, h2, h3, h4, h5, h6, h7, -⟩ := primalObjective_eq h 0 (zeroResult nx ny).x hz
    have hu : ∀ i j, i < nx → j < ny → u.get [i, j] = 0 := fun i j hi hj => by
      rw [← flat_get h1 hi hj, h2 _ (flat_lt hi hj), flat_get h.heights hi hj, hflat i j hi hj]
      simp [zeroResult, NdArray.flat]
    have hf : ∀ i j, i < nx → j < ny → f.get [i, j] = 0 := fun i j hi hj => by
      have := (symOp_force h).lin 0 0 u u u h1 h1 h1 (fun i j hi hj => by rw [hu i j hi hj]; ring) f f f h3 h3 h3 i j hi hj
      rw [this]; ring
    have hG : ∀ k < nx * ny, G.flat k = 0 := fun k hk => by
      obtain ⟨i, j, hi, hj, rfl, e⟩ := get_of_flat h4 hk
      rw [h6, e, hf i j hi hj, neg_zero]
    exact ⟨_, G, S1, h7, ⟨fun k _ => le_of_eq rfl, fun k hk => (hG k hk).ge, fun k hk => by rw [hG k hk, mul_zero]⟩, hG⟩
  · obtain ⟨T1, _, b1, -, -, -, -, b3, -⟩ := primal_final h 0 (zeroResult nx ny).x hz (solver := "l-bfgs-b") (by simp [SolverName])
      ⟨[], zeroResult nx ny⟩ rfl (by simp) hz
    obtain ⟨T2, _, d1, -, -, -, -, d3, -⟩ := dual_final (.inl ⟨a, h⟩) 0 ⟨[nx, ny], fun _ => 0⟩ rfl (solver := "l-bfgs-b")
      (by simp [SolverName]) ⟨[], zeroResult nx ny⟩ rfl (by simp) hz
    refine ⟨T1, T2, b1, d1, ?_, ?_, hpos⟩
    · simp only [computeNbContactPts, b3]
      simp [zeroResult, NdArray.map, sumShape]
    · simp only [computeNbContactPts, d3]
      simp [zeroResult, NdArray.map, sumShape]

/-- **C171** (refuted for nonperiodic systems) On a nonperiodic substrate the primal objective raises `ValueError` for every gap: it adds
the gaps on the padded grid to the heights on the topography grid (unless the topography is a single point). -/
theorem C171_primal_nonperiodic_partial {b : FreeArgs} (h : FreeSystem S b nx ny) (hn : ¬(nx = 1 ∧ ny = 1)) (off : ℝ) (g : NdArray ℝ) :
    (primalObjective S off g).1 = .error .valueError := by
  obtain ⟨-, hd, hx, hy⟩ := free_grid h
  unfold primalObjective
  rw [hd]
  by_cases hs : g.size = [2 * nx, 2 * ny].prod
  · obtain ⟨g', hr, hgs, -⟩ := reshape_ok g hs
    have hb : binop (· + ·) g' S.heights = .error .valueError := by
      unfold binop
      rw [hgs, h.heights]
      have : bcastRev [2 * nx, 2 * ny].reverse [nx, ny].reverse = none := by
        simp only [List.reverse_cons, List.reverse_nil, List.nil_append, List.cons_append, bcastRev]
        have e1 : ¬ 2 * nx = nx := by omega
        have e2 : ¬ 2 * ny = ny := by omega
        have e3 : ¬ 2 * nx = 1 := by omega
        have e4 : ¬ 2 * ny = 1 := by omega
        rw [if_neg e1, if_neg e3]
        by_cases e5 : nx = 1
        · rw [if_pos e5]; dsimp only
          rw [if_neg e2, if_neg e4, if_neg fun e => hn ⟨e5, e⟩]
        · rw [if_neg e5]
      rw [this]
    simp only [hr, hb, bind, Except.bind]
  · have hr : reshape g [2 * nx, 2 * ny] = .error .valueError := by unfold reshape; rw [if_neg hs]
    simp only [hr, bind, Except.bind]

/-! ## Non-vacuity -/

/-- The hypotheses of the primal and dual theorems are met by a real system, at every offset: runs of both optimisers exist. -/
example (off : ℝ) : ∃ S, PeriodicSystem S demoArgs 3 4 ∧ 0 < gammaStiffness demoArgs ∧ ∃ (r1 r2 : SolverRun) (E q : ℝ) (S1 S2 : Sys),
    r1.result.success = true ∧ r2.result.success = true ∧ r1.result.x.size = 3 * 4 ∧ r2.result.x.size = 3 * 4 ∧
    primalObjective S off r1.result.x = (.ok (some E, r1.result.jac), S1) ∧
    dualObjective S off r2.result.x = (.ok (some q, r2.result.jac), S2) ∧
    KKT (3 * 4) r1.result.x r1.result.jac ∧ KKT (3 * 4) r2.result.x r2.result.jac := by
  obtain ⟨S, h, hγ, -⟩ := demo_system
  obtain ⟨p, H, q, S2, a1, a2, a3⟩ := C171_dual_solvable (.inl ⟨_, h, hγ⟩) off
  obtain ⟨g, G, E, S1, b1, b2, b3⟩ := C171_primal_solvable h hγ off
  exact ⟨S, h, hγ, ⟨[], true, g, G, 0, ⟨[], fun _ => false⟩, ⟨[], fun _ => false⟩⟩, ⟨[], true, p, H, 0, ⟨[], fun _ => false⟩, ⟨[], fun _ => false⟩⟩,
    E, q, S1, S2, rfl, rfl, b1, by simp [NdArray.size, a1], b2, a2, b3, a3⟩

end CM.System
