import Verif.Model.SystemsScipy
import Verif.Props.Systems6
/-!
# C217: results without gradient
-/
namespace CM.System
open Finset CM.HS CM.FFT CM.Spec

variable {d0 d1 : ℕ} {S : Sys}

lemma callAll_plain (off : ℝ) : ∀ (ps : List (NdArray ℝ)) (T : Sys), CompGrid T d0 d1 → (∀ p ∈ ps, p.size = d0 * d1) →
    ∃ T', callAllLogged off true T none ps = (.ok (), T', none) ∧ CompGrid T' d0 d1 ∧ T'.sub = T.sub ∧ T'.heights = T.heights
  | [], T, h, _ => ⟨T, rfl, h, rfl, rfl⟩
  | p :: ps, T, h, hp => by
    obtain ⟨E, G, S1, S2, h1, h2, -⟩ := logged_eq h off p (hp p (by simp))
    obtain ⟨hc, e1, e2⟩ := objective_comp_frame h h1
    obtain ⟨T', k1, k2, k3, k4⟩ := callAll_plain off ps S1 hc fun q hq => hp q (by simp [hq])
    refine ⟨T', ?_, k2, k3.trans e1, k4.trans e2⟩
    unfold callAllLogged
    have := h2 none
    simp only [Option.map_none] at this
    simp only [this, k1]

/-- What happens after the optimiser, up to the gradient in its result. -/
lemma scipy_state (h : CompGrid S d0 d1) {off : ℝ} {init : Option (NdArray ℝ)} {method : String} {lb : LBounds} {ub : Option Masked} {scipy : ScipyCall → ScipyRun}
    {c : ScipyCall} (hc : baseCall S 1 off init method false lb ub = .ok c) (hp : ∀ p ∈ (scipy c).points, p.size = d0 * d1) (hx : (scipy c).result.x.size = d0 * d1) :
    ∃ u f S', reshape (scipy c).result.x [d0, d1] = .ok u ∧ evaluateForce S.sub.hs u = .ok f ∧ S'.disp = some u ∧ S'.force = some f ∧ S'.offset = some off ∧
      S'.sub.hs.domain = [d0, d1] ∧
      minimizeProxyScipy S 1 off init method true false lb ub scipy = match (scipy c).result.jac with
        | none => (.error .attributeError, S')
        | some j => match shapeMinimisationOutput S' j with
          | .error e => (.error e, S')
          | .ok j' => (.ok { (scipy c).result with x := u, jac := some j' }, S') := by
  obtain ⟨S2, k1, k2, k3, k4⟩ := callAll_plain off (scipy c).points S h hp
  obtain ⟨u, hu, hus, -⟩ := reshape_ok (scipy c).result.x (s := [d0, d1]) (by simp [hx])
  obtain ⟨f, hf, -⟩ := (symOp_force_comp h).ok u hus
  have hd : S2.sub.hs.domain = [d0, d1] := by rw [k3]; exact comp_dom h
  have h3 : CompGrid { S2 with offset := some off, disp := some u } d0 d1 := comp_frame h k3 k4
  obtain ⟨S4, e1, e2, e3, e4, e5, e6, e7, e8⟩ := comp_evaluate h3 hus (by show evaluateForce S2.sub.hs u = _; rw [k3]; exact hf) off
  have a1 : ∀ T : Sys, T.sub.hs.domain = [d0, d1] → shapeMinimisationOutput T (scipy c).result.x = .ok u := by
    intro T hT
    unfold shapeMinimisationOutput
    rw [hT, if_pos (by simp [hx]), hu]
  have hd4 : S4.sub.hs.domain = [d0, d1] := by rw [e6]; exact hd
  refine ⟨u, f, S4, hu, hf, e5, e3, e8, hd4, ?_⟩
  unfold minimizeProxyScipy updateStateScipy
  simp only [hc, k1, a1 { S2 with offset := some off } hd, e1, a1 S4 hd4]
  cases (scipy c).result.jac with
  | none => rfl
  | some j =>
    dsimp only
    cases shapeMinimisationOutput S4 j <;> rfl

/-- **C217, methods that return a gradient.**  After the optimiser, `minimize_proxy` evaluates the system at the optimiser's result and returns it on the grid; the state it leaves has the
displacements of that result, their elastic forces, and the offset. -/
theorem C217_gradient (h : CompGrid S d0 d1) {off : ℝ} {init : Option (NdArray ℝ)} {method : String} {lb : LBounds} {ub : Option Masked} {scipy : ScipyCall → ScipyRun}
    {c : ScipyCall} (hc : baseCall S 1 off init method false lb ub = .ok c) (hp : ∀ p ∈ (scipy c).points, p.size = d0 * d1) (hx : (scipy c).result.x.size = d0 * d1)
    {j : NdArray ℝ} (hj : (scipy c).result.jac = some j) (hjs : j.size = d0 * d1) :
    ∃ u f g S', reshape (scipy c).result.x [d0, d1] = .ok u ∧ evaluateForce S.sub.hs u = .ok f ∧ reshape j [d0, d1] = .ok g ∧
      minimizeProxyScipy S 1 off init method true false lb ub scipy = (.ok ⟨(scipy c).result.success, u, some g⟩, S') ∧
      S'.disp = some u ∧ S'.force = some f ∧ S'.offset = some off := by
  obtain ⟨u, f, S', h1, h2, h3, h4, h5, h6, h7⟩ := scipy_state h hc hp hx
  obtain ⟨g, hg, -⟩ := reshape_ok j (s := [d0, d1]) (by simp [hjs])
  refine ⟨u, f, g, S', h1, h2, hg, ?_, h3, h4, h5⟩
  rw [h7, hj]
  have : shapeMinimisationOutput S' j = .ok g := by
    unfold shapeMinimisationOutput
    rw [h6, if_pos (by simp [hjs]), hg]
  simp only [this]

/-- **C217: false of the code for methods without gradient.**  Whatever the optimiser found, `minimize_proxy` raises `AttributeError` instead of returning it: `_update_state` reads `result.jac`.  The
system has by then the displacements the optimiser found, their elastic forces, and the offset. -/
theorem C217_no_gradient_partial (h : CompGrid S d0 d1) {off : ℝ} {init : Option (NdArray ℝ)} {method : String} {lb : LBounds} {ub : Option Masked} {scipy : ScipyCall → ScipyRun}
    {c : ScipyCall} (hc : baseCall S 1 off init method false lb ub = .ok c) (hp : ∀ p ∈ (scipy c).points, p.size = d0 * d1) (hx : (scipy c).result.x.size = d0 * d1)
    (hj : (scipy c).result.jac = none) :
    ∃ u f S', reshape (scipy c).result.x [d0, d1] = .ok u ∧ evaluateForce S.sub.hs u = .ok f ∧
      minimizeProxyScipy S 1 off init method true false lb ub scipy = (.error .attributeError, S') ∧
      S'.disp = some u ∧ S'.force = some f ∧ S'.offset = some off := by
  obtain ⟨u, f, S', h1, h2, h3, h4, h5, h6, h7⟩ := scipy_state h hc hp hx
  refine ⟨u, f, S', h1, h2, ?_, h3, h4, h5⟩
  rw [h7, hj]

/-- For every call that is accepted, `minimize_proxy` fails with the results of a method without gradient, with and without `gradient=True`. -/
theorem C217_never_partial (S : Sys) (nprocs : ℕ) (off : ℝ) (init : Option (NdArray ℝ)) (method : String) (gradient cb : Bool) (lb : LBounds) (ub : Option Masked)
    {scipy : ScipyCall → ScipyRun} (hj : ∀ c, (scipy c).result.jac = none) : ∃ e, (minimizeProxyScipy S nprocs off init method gradient cb lb ub scipy).1 = .error e := by
  unfold minimizeProxyScipy updateStateScipy
  split
  · exact ⟨_, rfl⟩
  · rename_i c _
    split
    · exact ⟨_, rfl⟩
    · dsimp only
      split
      · exact ⟨_, rfl⟩
      · split
        · exact ⟨_, rfl⟩
        · split
          · exact ⟨_, rfl⟩
          · rw [hj c]; exact ⟨_, rfl⟩

/-- A method without gradient on a nonperiodic system: the call is accepted, the optimiser evaluates once and returns a field. -/
example : ∃ S c, CompGrid S (2 * 2) (2 * 3) ∧ baseCall S 1 1 none "Nelder-Mead" false .missing none = .ok c ∧
    ∃ scipy : ScipyCall → ScipyRun, (∀ p ∈ (scipy c).points, p.size = 2 * 2 * (2 * 3)) ∧ (scipy c).result.x.size = 2 * 2 * (2 * 3) ∧ (scipy c).result.jac = none := by
  obtain ⟨S, h, -⟩ := demo_free_system
  have hx : shapeMinimisationInput S ⟨S.sub.hs.domain, fun _ => 0⟩ = .ok (ravel ⟨S.sub.hs.domain, fun _ => 0⟩) := by
    unfold shapeMinimisationInput; exact if_pos rfl
  refine ⟨S, ⟨ravel ⟨S.sub.hs.domain, fun _ => 0⟩, "Nelder-Mead", none⟩, .inr ⟨_, 2, 3, h, rfl, rfl⟩, ?_, fun _ => ⟨[⟨[24], fun _ => 1⟩], ⟨true, ⟨[24], fun _ => 0⟩, none⟩⟩, fun p hp => ?_, rfl, rfl⟩
  · unfold baseCall
    simp only [Option.getD_none, hx, bind, Except.bind, pure, Except.pure, lt_irrefl, if_false, Bool.false_eq_true, reshapeBounds, ite_self]
  · rw [List.mem_singleton.1 hp]; rfl

end CM.System
