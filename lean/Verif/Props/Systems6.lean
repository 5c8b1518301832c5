import Verif.Props.Systems5
import Verif.Model.SystemsLogged
/-!
# C179: objectives without gradient, and logged objectives
-/
set_option linter.unusedSimpArgs false
namespace CM.HS
open Finset CM.FFT CM.Spec CM.Fourier Complex
open scoped ComplexConjugate

variable {d0 d1 : ℕ} {s : HalfSpace}

/-- Fourier-space energy of a substrate with a real spectrum: minus half the work of its forces. -/
lemma rep_energyK [NeZero d0] [NeZero d1] {G : ZMod d0 × ZMod d1 → ℂ} (h : Rep s d0 d1 G) (hr : ∀ k, G k = ((G k).re : ℂ))
    {u f : NdArray ℝ} (hu : u.shape = [d0, d1]) (hf : evaluateForce s u = .ok f) :
    evaluate s u true false = .ok (some (-(1 / 2) * ∑ i ∈ range d0, ∑ j ∈ range d1, f.get [i, j] * u.get [i, j]), none) := by
  have hb : bcastOk u.shape s.domain := by
    rw [hu, h.dom]; exact ⟨le_refl _, by simp⟩
  let S : ZMod d0 × ZMod d1 → ℝ := fun k => (G k).re⁻¹
  have hSG : (fun k => (G k)⁻¹) = fun k => ((S k : ℝ) : ℂ) := by
    funext k; rw [hr k]; simp [S]
  have hSn : ∀ k, S (-k) = S k := fun k => by
    simp only [S]; rw [h.herm k, conj_re]
  obtain ⟨f', hf', -, h3⟩ := h.force_ok hu
  rw [hf] at hf'; cases hf'
  rw [hSG] at h3
  have hw : ∑ i ∈ range d0, ∑ j ∈ range d1, f.get [i, j] * u.get [i, j]
      = -(s.areaPerPt / (d0 * d1) * ∑ k, S k * normSq ((pair2 d0 d1).ft (fun y => (tor d0 d1 (fun i j => u.get [i, j]) y : ℂ)) k)) := by
    have e : ∑ i ∈ range d0, ∑ j ∈ range d1, f.get [i, j] * u.get [i, j]
      = ∑ p, tor d0 d1 (fun i j => u.get [i, j]) p *
          ((pair2 d0 d1).act (fun k => (S k : ℂ)) (tor d0 d1 fun i j => u.get [i, j]) p) * (-s.areaPerPt) :=
      sum_tor (fun p => tor d0 d1 (fun i j => u.get [i, j]) p *
          ((pair2 d0 d1).act (fun k => (S k : ℂ)) (tor d0 d1 fun i j => u.get [i, j]) p) * (-s.areaPerPt)) _
        fun i j hi hj => by rw [h3, tor_cast _ hi hj]; ring
    rw [e, ← sum_mul, ← (pair2 d0 d1).energy S hSn (tor d0 d1 fun i j => u.get [i, j]), card_torus]
    have : (d0 : ℝ) ≠ 0 := by exact_mod_cast NeZero.ne d0
    have : (d1 : ℝ) ≠ 0 := by exact_mod_cast NeZero.ne d1
    push_cast
    field_simp
  rw [hw]
  unfold evaluate
  simp only [Bool.false_eq_true, if_false, if_true, hb, pure, Except.pure]
  congr 3
  unfold evaluateElasticEnergyK evaluateKForceK
  rw [h.dom, hu]
  simp only [List.headD_cons, List.prod_cons, List.prod_nil, mul_one, serialBlock, asGrid]
  rw [scalarProduct_serial]
  rw [Fintype.sum_prod_type, fold_zmod d0 (fun k => ∑ l, S (k, l) *
    normSq ((pair2 d0 d1).ft (fun y => (tor d0 d1 (fun i j => u.get [i, j]) y : ℂ)) (k, l)))]
  · push_cast
    rw [sum_div, mul_sum, mul_sum, ← sum_neg_distrib, mul_sum]
    refine sum_congr rfl fun kx hkx => ?_
    rw [sum_zmod, mul_sum, mul_sum, sum_div, mul_sum, mul_sum, ← sum_neg_distrib, mul_sum]
    refine sum_congr rfl fun ky hky => ?_
    have hst := h.stiffness kx ky (Nat.lt_succ_iff.mp (mem_range.mp hkx)) (mem_range.mp hky)
    rw [hst]
    have hcong : fft [d0, d1] (fun x => u.get (bcastIndex [d0, d1] x)) [kx, ky]
        = (pair2 d0 d1).ft (fun y => (tor d0 d1 (fun i j => u.get [i, j]) y : ℂ)) ((kx : ZMod d0), (ky : ZMod d1)) := by
      simp only [fft]
      rw [rfft2_eq]
      congr 1
      funext p
      congr 1
      unfold tor
      simp only [bcastIndex, List.length_cons, List.length_nil, Nat.sub_self, List.drop_zero,
        List.zipWith_cons_cons, List.zipWith_nil_left]
      have h1 : (if d0 = 1 then 0 else p.1.val) = p.1.val := by
        split_ifs with h
        · have := ZMod.val_lt p.1; omega
        · rfl
      have h2 : (if d1 = 1 then 0 else p.2.val) = p.2.val := by
        split_ifs with h
        · have := ZMod.val_lt p.2; omega
        · rfl
      rw [h1, h2]
    rw [hcong]
    have hinv : (G ((kx : ZMod d0), (ky : ZMod d1)))⁻¹ = ((S ((kx : ZMod d0), (ky : ZMod d1)) : ℝ) : ℂ) := congrFun hSG _
    rw [hinv]
    generalize (pair2 d0 d1).ft (fun y => (tor d0 d1 (fun i j => u.get [i, j]) y : ℂ)) ((kx : ZMod d0), (ky : ZMod d1)) = z
    have hre : (conj z * (-(S ((kx : ZMod d0), (ky : ZMod d1)) : ℂ) * z * s.areaPerPt)).re
        = -(S ((kx : ZMod d0), (ky : ZMod d1))) * s.areaPerPt * normSq z := by
      have : conj z * (-(S ((kx : ZMod d0), (ky : ZMod d1)) : ℂ) * z * s.areaPerPt)
          = ((-(S ((kx : ZMod d0), (ky : ZMod d1))) * s.areaPerPt * normSq z : ℝ) : ℂ) := by
        push_cast; rw [normSq_eq_conj_mul_self]; ring
      rw [this, ofReal_re]
    rw [hre]
    have : (d0 : ℝ) ≠ 0 := by exact_mod_cast NeZero.ne d0
    have : (d1 : ℝ) ≠ 0 := by exact_mod_cast NeZero.ne d1
    field_simp
    norm_num
    ring
  · intro k
    rw [← Equiv.sum_comp (Equiv.neg (ZMod d1))]
    refine sum_congr rfl fun l _ => ?_
    simp only [Equiv.neg_apply]
    rw [← Prod.neg_mk, hSn, (pair2 d0 d1).ft_neg, normSq_conj]

end CM.HS

namespace CM.System
open Finset CM.HS CM.FFT CM.Spec CM.Pipe CM.Fourier

variable {nx ny d0 d1 : ℕ} {S : Sys} {a : Args}

lemma comp_evaluate_false (h : CompGrid S d0 d1) {u f : NdArray ℝ} (hu : u.shape = [d0, d1]) (hf : evaluateForce S.sub.hs u = .ok f) :
    HS.evaluate S.sub.hs u true false = .ok (some (-(1 / 2) * work d0 d1 f u), none) := by
  unfold work
  rcases h with ⟨a, h⟩ | ⟨a, nx, ny, h, rfl, rfl⟩
  · obtain ⟨_, _, P⟩ := per_of_construct h.valid h.built h.grid
    exact rep_energyK P.rep (fun k => by rw [Complex.ofReal_re]) hu hf
  · obtain ⟨_, _, P⟩ := free_of_construct h.valid h.built h.grid
    exact rep_energyK P.rep P.spec_real hu hf

/-- What one call of the objective logs: its energy and the total of its gradient (minus the total force). -/
def logRecord (N : ℕ) (E : ℝ) (G : NdArray ℝ) : Record := (["energy", "force"], [some E, some (∑ k ∈ range N, G.flat k)])

lemma evaluate_pair (h : CompGrid S d0 d1) {u : NdArray ℝ} (hu : u.shape = [d0, d1]) (off : ℝ) :
    ∃ E f S1 S2, f.shape = [d0, d1] ∧ evaluate S u off true true = (.ok (some E, some f), S1) ∧ S1.energy = some E ∧ S1.force = some f ∧
      S1.subForce = some f ∧ evaluate S u off true false = (.ok (some E, none), S2) ∧ S2.subForce = none ∧ S2.force = none := by
  obtain ⟨f, hf, hfs⟩ := (symOp_force_comp h).ok u hu
  obtain ⟨S', hS', he, hfo, hsf, -⟩ := comp_evaluate h hu hf off
  obtain ⟨nx, ny, h', -, -⟩ := comp_sys h
  obtain ⟨c1, c2⟩ := C48_applies h'
  obtain ⟨g, hg, -⟩ := C48_gap S c1 u (by rw [hu, ← comp_dom h]; exact c2) off
  have h2 : ∃ S2, evaluate S u off true false = (.ok (some (-(1 / 2) * work d0 d1 f u), none), S2) ∧ S2.subForce = none ∧ S2.force = none := by
    unfold evaluate
    simp only [hg, comp_evaluate_false h hu hf, if_true, Bool.false_eq_true, if_false]
    exact ⟨_, rfl, rfl, rfl⟩
  obtain ⟨S2, h2⟩ := h2
  exact ⟨_, f, S', S2, hfs, hS', he, hfo, hsf, h2⟩

lemma logged_eq (h : CompGrid S d0 d1) (off : ℝ) (u : NdArray ℝ) (hu : u.size = d0 * d1) :
    ∃ E G S1 S2, objective S off u = (.ok (some E, G), S1) ∧
      (∀ L, objectiveLogged S off true L u = (.ok (some E, some G), S1, L.map (· ++ [logRecord (d0 * d1) E G]))) ∧
      objectiveLogged S off false none u = (.ok (some E, none), S2, none) ∧
      ∀ l, objectiveLogged S off false (some l) u = (.error .typeError, S2, some l) := by
  obtain ⟨u', hr, hus, huf⟩ := reshape_ok u (s := [d0, d1]) (by simp [hu])
  obtain ⟨E, f, S1, S2, hfs, h1, he, hfo, hsf, h2, h3, -⟩ := evaluate_pair h hus off
  refine ⟨E, (ravel f).map fun x => -x, S1, S2, ?_, fun L => ?_, ?_, fun l => ?_⟩
  · unfold objective
    simp only [comp_dom h, hr]
    rw [h1]
    simp only [negForce, he, hfo]
  · unfold objectiveLogged
    simp only [comp_dom h, hr]
    have hl : evaluateLogged S u' off true true L = (.ok (some E, some f), S1,
        L.map (· ++ [logRecord (d0 * d1) E ((ravel f).map fun x => -x)])) := by
      unfold evaluateLogged
      rw [h1]
      cases L with
      | none => rfl
      | some l =>
        have hi : loggerInput S1 = .ok (logRecord (d0 * d1) E ((ravel f).map fun x => -x)) := by
          unfold loggerInput logRecord
          rw [hsf, he]
          dsimp only
          rw [NdArray.sum_flat, ← sum_neg_distrib]
          have e1 : f.size = d0 * d1 := by simp [NdArray.size, hfs]
          rw [e1]
          congr 5
          refine sum_congr rfl fun k _ => ?_
          have : ((ravel f).map fun x => -x).flat k = -((ravel f).flat k) := rfl
          rw [this, ravel_flat]
        simp only [hi, Option.map_some]
    rw [hl]
    simp only [negForce, he, hfo, if_true]
  · unfold objectiveLogged evaluateLogged
    simp only [comp_dom h, hr, h2, Bool.false_eq_true, if_false]
  · unfold objectiveLogged evaluateLogged
    simp only [comp_dom h, hr, h2, loggerInput, h3]

/-- **C179** `objective` without gradient returns, for every displacement field on the grid of the substrate and every offset, the
energy it returns with gradient, although it computes it from the half spectrum instead of from the forces; periodic and nonperiodic
substrates. -/
theorem C179_value (h : CompGrid S d0 d1) (off : ℝ) (u : NdArray ℝ) (hu : u.size = d0 * d1) :
    ∃ E G S1 S2, objectiveLogged S off true none u = (.ok (some E, some G), S1, none) ∧
      objectiveLogged S off false none u = (.ok (some E, none), S2, none) ∧ objective S off u = (.ok (some E, G), S1) := by
  obtain ⟨E, G, S1, S2, h1, h2, h3, -⟩ := logged_eq h off u hu
  exact ⟨E, G, S1, S2, h2 none, h3, h1⟩

/-- **C179** The same for `primal_objective` (periodic substrates; it raises for all others, `C171_primal_nonperiodic_partial`). -/
theorem C179_primal (h : PeriodicSystem S a nx ny) (off : ℝ) (g : NdArray ℝ) (hg : g.size = nx * ny) :
    ∃ E G S1 S2, primalObjective S off g = (.ok (some E, G), S1) ∧ primalObjectiveValue S off g = (.ok (some E), S2) := by
  obtain ⟨hgr, hdom, -, -⟩ := per_grid h
  obtain ⟨g', hr, hgs, hgf⟩ := reshape_ok g (s := [nx, ny]) (by simp [hg])
  obtain ⟨c, hb, hcs, hcv⟩ := binop_same (· + ·) hgs h.heights
  obtain ⟨u, hu, hus, huf⟩ := reshape_ok (c.map (· + off)) (s := [nx, ny]) (by simp [NdArray.size, NdArray.map, hcs])
  obtain ⟨E, f, S1, S2, hfs, h1, he, hfo, hsf, h2, h3, -⟩ := evaluate_pair (S := S) (.inl ⟨a, h⟩) hus off
  refine ⟨E, (ravel f).map fun x => -x, S1, S2, ?_, ?_⟩
  · unfold primalObjective
    simp only [hdom, hr, hb, hu, bind, Except.bind]
    rw [h1]
    simp only [negForce, he, hfo]
  · unfold primalObjectiveValue
    simp only [hdom, hr, hb, hu, bind, Except.bind]
    rw [h2]

/-- **C179** With a logger the objective with gradient returns the same, and logs one record: the energy and the total of the gradient it
returns, under the headings `energy` and `force`. -/
theorem C179_logged (h : CompGrid S d0 d1) (off : ℝ) (u : NdArray ℝ) (hu : u.size = d0 * d1) (l : List Record) :
    ∃ E G S1, objective S off u = (.ok (some E, G), S1) ∧ objectiveLogged S off true (some l) u =
      (.ok (some E, some G), S1, some (l ++ [(["energy", "force"], [some E, some (∑ k ∈ range (d0 * d1), G.flat k)])])) := by
  obtain ⟨E, G, S1, S2, h1, h2, -⟩ := logged_eq h off u hu
  exact ⟨E, G, S1, h1, h2 (some l)⟩

/-- **C179** (refuted) Without gradient the objective cannot be logged: `logger_input` asks for the forces that were not computed, and
every call raises `TypeError`. -/
theorem C179_not_logged_partial (h : CompGrid S d0 d1) (off : ℝ) (u : NdArray ℝ) (hu : u.size = d0 * d1) (l : List Record) :
    (objectiveLogged S off false (some l) u).1 = .error .typeError ∧ (objectiveLogged S off false (some l) u).2.2 = some l := by
  obtain ⟨E, G, S1, S2, h1, h2, h3, h4⟩ := logged_eq h off u hu
  rw [h4]; exact ⟨rfl, rfl⟩

lemma objective_comp_frame (h : CompGrid S d0 d1) {off : ℝ} {p : NdArray ℝ} {r : Objective} {S1 : Sys} (ho : objective S off p = (r, S1)) :
    CompGrid S1 d0 d1 ∧ S1.sub = S.sub ∧ S1.heights = S.heights := by
  obtain ⟨e1, e2⟩ := objective_frame S off p
  rw [ho] at e1 e2
  exact ⟨comp_frame h e1 e2, e1, e2⟩

/-- The value of the objective depends on substrate and heights only. -/
lemma objective_state (h : CompGrid S d0 d1) {T : Sys} (e1 : T.sub = S.sub) (e2 : T.heights = S.heights) (off : ℝ) {p : NdArray ℝ}
    (hp : p.size = d0 * d1) {E : ℝ} {G : NdArray ℝ} {T1 : Sys} (ho : objective T off p = (.ok (some E, G), T1)) :
    ∃ S1, objective S off p = (.ok (some E, G), S1) := by
  obtain ⟨u', hr, hus, huf⟩ := reshape_ok p (s := [d0, d1]) (by simp [hp])
  obtain ⟨f, hf, hfs⟩ := (symOp_force_comp h).ok u' hus
  obtain ⟨S', hS', he, hfo, -⟩ := comp_evaluate h hus hf off
  obtain ⟨T', hT', he', hfo', -⟩ := comp_evaluate (comp_frame h e1 e2) hus (by rw [e1]; exact hf) off
  refine ⟨S', ?_⟩
  unfold objective at ho ⊢
  simp only [comp_dom h, hr, hS', negForce, he, hfo]
  rw [e1] at ho
  simp only [comp_dom h, hr, hT', negForce, he', hfo'] at ho
  simp only [Prod.mk.injEq, Except.ok.injEq] at ho ⊢
  exact ⟨ho.1, trivial⟩

lemma callAll_logged (off : ℝ) (L : Option (List Record)) : ∀ (ps : List (NdArray ℝ)) (T : Sys), CompGrid T d0 d1 →
    (∀ p ∈ ps, p.size = d0 * d1) → ∃ T' recs, callAll (fun S => objective S off) T ps = (.ok (), T') ∧
      callAllLogged off true T L ps = (.ok (), T', L.map (· ++ recs)) ∧
      List.Forall₂ (fun p r => ∃ E G T1, objective T off p = (.ok (some E, G), T1) ∧ r = logRecord (d0 * d1) E G) ps recs
  | [], T, _, _ => ⟨T, [], rfl, by simp [callAllLogged], .nil⟩
  | p :: ps, T, hT, hp => by
    obtain ⟨E, G, S1, S2, h1, h2, -⟩ := logged_eq hT off p (hp p (by simp))
    obtain ⟨hc, e1, e2⟩ := objective_comp_frame hT h1
    obtain ⟨T', recs, k1, k2, k3⟩ := callAll_logged off (L.map (· ++ [logRecord (d0 * d1) E G])) ps S1 hc fun q hq => hp q (by simp [hq])
    refine ⟨T', logRecord (d0 * d1) E G :: recs, ?_, ?_, .cons ⟨E, G, S1, h1, rfl⟩ ?_⟩
    · unfold callAll; simp only [h1, k1]
    · unfold callAllLogged; simp only [h2, k2]
      cases L <;> simp
    · have hps : ∀ p ∈ ps, p.size = d0 * d1 := fun q hq => hp q (by simp [hq])
      clear k1 k2 hp
      induction k3 with
      | nil => exact .nil
      | cons hq _ ih =>
        obtain ⟨E', G', T1, o1, o2⟩ := hq
        obtain ⟨T2, o3⟩ := objective_state hT e1 e2 off (hps _ (by simp)) o1
        exact .cons ⟨E', G', T2, o3, o2⟩ (ih fun q hq => hps q (by simp [hq]))

/-- **C179** `minimize_proxy` with a logger returns the same and leaves the system in the same state as without, and logs one record per
evaluation of the objective, in order: the energy and the total of the gradient there. -/
theorem C179_minimize_logged (h : CompGrid S d0 d1) (nprocs : ℕ) (off : ℝ) (init : Option (NdArray ℝ)) (method : String) (cb : Bool)
    (lb : LBounds) (ub : Option Masked) (l : List Record) (scipy : ScipyCall → SolverRun)
    (hp : ∀ c, ∀ p ∈ (scipy c).points, p.size = d0 * d1) :
    ∃ recs, minimizeProxyLogged S nprocs off init method true cb lb ub (some l) scipy =
        ((baseMinimizeProxy S nprocs off init method cb lb ub scipy).1, (baseMinimizeProxy S nprocs off init method cb lb ub scipy).2,
          some (l ++ recs)) ∧
      ∀ c, baseCall S nprocs off init method cb lb ub = .ok c → List.Forall₂ (fun p r => ∃ E G T, objective S off p = (.ok (some E, G), T) ∧
        r = (["energy", "force"], [some E, some (∑ k ∈ range (d0 * d1), G.flat k)])) (scipy c).points recs := by
  unfold minimizeProxyLogged baseMinimizeProxy
  cases hb : baseCall S nprocs off init method cb lb ub with
  | error e => exact ⟨[], by simp, fun c hc => by cases hc⟩
  | ok c =>
    obtain ⟨T', recs, k1, k2, k3⟩ := callAll_logged off (some l) (scipy c).points S h (hp c)
    refine ⟨recs, ?_, fun c' hc' => ?_⟩
    · simp only [k1, k2, Option.map_some]
      rfl
    · cases hc'; exact k3

/-- **C179** (refuted) `minimize_proxy(gradient=False, logger=...)` raises `TypeError` as soon as the optimiser evaluates the objective. -/
theorem C179_minimize_raises_partial (h : CompGrid S d0 d1) {nprocs : ℕ} {off : ℝ} {init : Option (NdArray ℝ)} {method : String} {cb : Bool}
    {lb : LBounds} {ub : Option Masked} (l : List Record) (scipy : ScipyCall → SolverRun)
    (hp : ∀ c, ∀ p ∈ (scipy c).points, p.size = d0 * d1) {c : ScipyCall} (hc : baseCall S nprocs off init method cb lb ub = .ok c)
    (hne : (scipy c).points ≠ []) :
    (minimizeProxyLogged S nprocs off init method false cb lb ub (some l) scipy).1 = .error .typeError := by
  unfold minimizeProxyLogged
  simp only [hc]
  cases hpts : (scipy c).points with
  | nil => exact absurd hpts hne
  | cons p ps =>
    obtain ⟨E, G, S1, S2, h1, h2, h3, h4⟩ := logged_eq h off p (hp c p (by simp [hpts]))
    unfold callAllLogged
    simp only [h4]

/-- **C179** (refuted: the state after a minimisation has forces) After `minimize_proxy(gradient=False)` the system has displacements but
no forces, and `compute_normal_force` raises. -/
theorem C179_no_forces_partial (S : Sys) {nprocs : ℕ} {off : ℝ} {init : Option (NdArray ℝ)} {method : String} {cb : Bool} {lb : LBounds}
    {ub : Option Masked} (scipy : ScipyCall → SolverRun) {r : OptResult} {S' : Sys} {L : Option (List Record)}
    (hr : minimizeProxyLogged S nprocs off init method false cb lb ub none scipy = (.ok r, S', L)) :
    S'.force = none ∧ (∃ u, S'.disp = some u) ∧ computeNormalForce S' = .error .typeError := by
  have key : ∀ (T : Sys) (d : NdArray ℝ) (x : Option ℝ × Option (NdArray ℝ)) (T' : Sys), evaluate T d off true false = (.ok x, T') →
      T'.force = none ∧ T'.subForce = none ∧ T'.disp = T.disp := by
    intro T d x T' he
    have hd := (evaluate_frame T d off true false).1
    unfold evaluate at he
    split at he
    · simp at he
    · dsimp only at he
      split at he
      · simp at he
      · rename_i en f hev
        have hf : f = none := by
          unfold HS.evaluate at hev
          simp only [Bool.false_eq_true, if_false, if_true] at hev
          split at hev
          · simp only [pure, Except.pure, Except.ok.injEq, Prod.mk.injEq] at hev; exact hev.2.symm
          · simp [throw, throwThe, MonadExceptOf.throw] at hev
        simp only [Prod.mk.injEq, Except.ok.injEq] at he
        obtain ⟨-, rfl⟩ := he
        exact ⟨rfl, hf, rfl⟩
  have upd : ∀ (T : Sys) (q r : OptResult) (T' : Sys), updateStateG T off false q = (.ok r, T') →
      T'.force = none ∧ (∃ u, T'.disp = some u) ∧ T'.subForce = none := by
    intro T q r T' he
    unfold updateStateG at he
    dsimp only at he
    split at he
    · simp at he
    · rename_i x hx
      split at he
      · simp at he
      · rename_i y S2 hev
        obtain ⟨k1, k2, k3⟩ := key _ _ _ _ hev
        split at he
        · simp only [Prod.mk.injEq, Except.ok.injEq] at he
          obtain ⟨-, rfl⟩ := he
          exact ⟨k1, ⟨x, k3⟩, k2⟩
        · simp at he
        · simp at he
  unfold minimizeProxyLogged at hr
  split at hr
  · simp at hr
  · split at hr
    · simp at hr
    · dsimp only at hr
      simp only [Prod.mk.injEq] at hr
      obtain ⟨h1, h2, -⟩ := hr
      obtain ⟨k1, k2, k3⟩ := upd _ _ r S' (Prod.ext h1 h2)
      refine ⟨k1, k2, ?_⟩
      unfold computeNormalForce
      rw [k3]

/-- Hypotheses of C179: a nonperiodic system and an optimiser that evaluates the objective twice. -/
example : ∃ S c, CompGrid S (2 * 2) (2 * 3) ∧ baseCall S 1 1 none "L-BFGS-B" false .missing none = .ok c ∧
    ∃ scipy : ScipyCall → SolverRun, (∀ c, ∀ p ∈ (scipy c).points, p.size = 2 * 2 * (2 * 3)) ∧ (scipy c).points.length = 2 := by
  obtain ⟨S, h, -⟩ := demo_free_system
  have hx : shapeMinimisationInput S ⟨S.sub.hs.domain, fun _ => 0⟩ = .ok (ravel ⟨S.sub.hs.domain, fun _ => 0⟩) := by
    unfold shapeMinimisationInput; exact if_pos rfl
  refine ⟨S, ⟨ravel ⟨S.sub.hs.domain, fun _ => 0⟩, "L-BFGS-B", none⟩, .inr ⟨_, 2, 3, h, rfl, rfl⟩, ?_, fun _ => ⟨[⟨[4, 6], fun _ => 0⟩, ⟨[24], fun _ => 1⟩], ⟨true, ⟨[24], fun _ => 0⟩, ⟨[24], fun _ => 0⟩, 0, ⟨[], fun _ => false⟩, ⟨[], fun _ => false⟩⟩⟩,
    fun c p hp => ?_, rfl⟩
  · unfold baseCall
    simp only [Option.getD_none, hx, bind, Except.bind, pure, Except.pure, lt_irrefl, if_false, Bool.false_eq_true, reshapeBounds, ite_self]
  · simp only [List.mem_cons, List.not_mem_nil, or_false] at hp
    rcases hp with rfl | rfl <;> rfl

end CM.System
