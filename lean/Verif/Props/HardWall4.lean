import Verif.Props.HardWall3
import Verif.Props.CCG4
/-!
# C104 for every substrate of `contact_mechanics`; C157, C159 consequences
-/
namespace CM.Pipe
open Finset CM.HS CM.FFT CM.System CM.Spec CM.Fourier

variable {nx ny : ℕ} {sx sy : ℝ} {T : Topo}

/-- `evaluate_disp` on the computational grid is linear. -/
lemma onGrid_lin (hT : ValidTopo T nx ny sx sy) {k : Option String} {sub : Substrate} (hm : makeSubstrate T k = .ok sub) {d0 d1 : ℕ}
    (g : Grid sub nx ny d0 d1) (c d : ℝ) (f h : Fin d0 × Fin d1 → ℝ) (i : Fin d0 × Fin d1) :
    onGrid sub.evaluateDisp d0 d1 (fun j => c * f j + d * h j) i = c * onGrid sub.evaluateDisp d0 d1 f i + d * onGrid sub.evaluateDisp d0 d1 h i := by
  rcases make_cases hT k with ⟨-, -, h⟩ | ⟨-, hgr, s, hs, h⟩ | ⟨-, s, hs, h⟩ | ⟨-, -, h⟩
  · rw [h] at hm; cases hm
  · rw [h] at hm; cases hm
    have hv : ValidArgs ⟨[nx, ny], 1, [sx, sy], none, none, 0, none⟩ := by constructor <;> simp [hT.sx_pos, hT.sy_pos]
    obtain ⟨_, _, P⟩ := per_of_construct hv hs rfl
    have hd : [d0, d1] = [nx, ny] := g.dom.symm.trans P.rep.dom
    simp only [List.cons.injEq, and_true] at hd
    obtain ⟨rfl, rfl⟩ := hd
    have e : ∀ f, onGrid (Substrate.evaluateDisp ⟨s, false, false⟩) d0 d1 f = onGrid (HS.evaluateDisp s) d0 d1 f := fun _ => rfl
    rw [e, e, e, onGrid_disp P.rep, onGrid_disp P.rep, onGrid_disp P.rep, (pair2 d0 d1).act_lin]
    ring
  · rw [h] at hm; cases hm
    have hv : ValidFree ⟨[nx, ny], 1, [sx, sy], none⟩ := by constructor <;> simp [hT.sx_pos, hT.sy_pos]
    obtain ⟨_, _, P⟩ := free_of_construct hv hs rfl
    have hd : [d0, d1] = [2 * nx, 2 * ny] := g.dom.symm.trans P.dom
    simp only [List.cons.injEq, and_true] at hd
    obtain ⟨rfl, rfl⟩ := hd
    have e : ∀ f, onGrid (Substrate.evaluateDisp ⟨s, true, false⟩) (2 * nx) (2 * ny) f = onGrid (HS.evaluateDisp s) (2 * nx) (2 * ny) f := by
      intro f
      have hp : Substrate.evaluateDisp ⟨s, true, false⟩ (fieldArray (2 * nx) (2 * ny) f) = HS.evaluateDisp s (fieldArray (2 * nx) (2 * ny) f) := by
        show evaluateDispFree s _ false = _
        unfold evaluateDispFree
        rw [branch_topo P, if_pos (show (fieldArray (2 * nx) (2 * ny) f).shape = [2 * nx, 2 * ny] from rfl)]
      unfold onGrid
      rw [hp]
    rw [e, e, e, onGrid_disp P.rep, onGrid_disp P.rep, onGrid_disp P.rep, (pair2 (2 * nx) (2 * ny)).act_lin]
    ring
  · rw [h] at hm; cases hm

/-- A point of the topography on the computational grid. -/
def lift {d0 d1 : ℕ} (hx : nx ≤ d0) (hy : ny ≤ d1) (x : Fin nx × Fin ny) : Fin d0 × Fin d1 := (⟨x.1, x.1.isLt.trans_le hx⟩, ⟨x.2, x.2.isLt.trans_le hy⟩)

/-- A sum over the computational grid of something that vanishes off the topography. -/
lemma sum_lift {d0 d1 : ℕ} (hx : nx ≤ d0) (hy : ny ≤ d1) (F : Fin d0 × Fin d1 → ℝ)
    (h0 : ∀ p : Fin d0 × Fin d1, (decide (p.1.val < nx) && decide (p.2.val < ny)) = false → F p = 0) :
    ∑ p, F p = ∑ x : Fin nx × Fin ny, F (lift hx hy x) := by
  classical
  have hinj : Function.Injective (lift (nx := nx) (ny := ny) hx hy) := by
    intro x y h
    simp only [lift, Prod.mk.injEq, Fin.mk.injEq] at h
    exact Prod.ext (Fin.ext h.1) (Fin.ext h.2)
  rw [← Finset.sum_image (f := F) (s := univ) (g := lift hx hy) fun x _ y _ h => hinj h]
  symm
  refine sum_subset (subset_univ _) fun p _ hp => h0 p ?_
  by_contra hc
  simp only [Bool.not_eq_false, Bool.and_eq_true, decide_eq_true_eq] at hc
  exact hp (mem_image.2 ⟨(⟨p.1, hc.1⟩, ⟨p.2, hc.2⟩), mem_univ _, rfl⟩)

/-- For forces on the topography, the solver sees the displacements with which the substrate answers the pressures. -/
lemma onGrid_answer {sub : Substrate} {d0 d1 : ℕ} (g : Grid sub nx ny d0 d1) {a : ℝ} (ha : a ≠ 0) {f : Fin d0 × Fin d1 → ℝ}
    (h0 : ∀ p : Fin d0 × Fin d1, (decide (p.1.val < nx) && decide (p.2.val < ny)) = false → f p = 0) (x : Fin nx × Fin ny) :
    onGrid sub.evaluateDisp d0 d1 f (lift g.lex g.ley x) = answer sub a nx ny (fun y => -(1 / a) * f (lift g.lex g.ley y)) x := by
  obtain ⟨u, v, h1, h2, -, -, h3⟩ := g.embed (fieldArray nx ny fun y => -(-(1 / a) * f (lift g.lex g.ley y) * a)) (fieldArray d0 d1 f) rfl rfl
    (by
      intro i hi j hj
      rw [fieldArray_get _ hi hj]
      by_cases hc : i < nx ∧ j < ny
      · rw [if_pos hc, fieldArray_get _ hc.1 hc.2]
        show _ = -(-(1 / a) * f (⟨i, _⟩, ⟨j, _⟩) * a)
        field_simp
      · rw [if_neg hc, h0]
        simpa using hc)
  unfold onGrid answer
  rw [h1, h2]
  show v.get [x.1, x.2] = u.get [x.1, x.2]
  rw [h3]

/-- **C104** What the contact solver sees of every substrate `contact_mechanics` builds, periodic or not, is an elastic substrate for
forces on the topography: linear, reciprocal and positive definite. So the theorems on exact line searches (C44), on the optimality
of solutions (C45) and on finite termination (C109) apply to every elastic calculation. -/
theorem C104_every_substrate_elastic (hT : ValidTopo T nx ny sx sy) {k : Option String} {sub : Substrate} (hm : makeSubstrate T k = .ok sub)
    {d0 d1 : ℕ} (hdom : sub.hs.domain = [d0, d1]) (rms : NdArray ℝ → ℝ) (heights : NdArray ℝ) :
    ElasticOn (ccgProblem sub rms d0 d1 nx ny heights).comp (ccgProblem sub rms d0 d1 nx ny heights).disp := by
  obtain ⟨e0, e1, g⟩ := grid_of_make hT hm
  have hd : [d0, d1] = [e0, e1] := hdom.symm.trans g.dom
  simp only [List.cons.injEq, and_true] at hd
  obtain ⟨rfl, rfl⟩ := hd
  obtain ⟨R, P⟩ := answer_posDef hT hm
  have h1 := hT.sx_pos
  have h2 := hT.sy_pos
  have h3 : (0 : ℝ) < nx := by exact_mod_cast hT.nx_pos
  have h4 : (0 : ℝ) < ny := by exact_mod_cast hT.ny_pos
  set a := sx * sy / ((nx : ℝ) * ny) with ha
  have ha0 : 0 < a := by positivity
  have hdot : ∀ f h : Fin d0 × Fin d1 → ℝ, (∀ i, (ccgProblem sub rms d0 d1 nx ny heights).comp i = false → f i = 0) →
      (∀ i, (ccgProblem sub rms d0 d1 nx ny heights).comp i = false → h i = 0) →
      dot f ((ccgProblem sub rms d0 d1 nx ny heights).disp h) = -a * dot (fun x => -(1 / a) * f (lift g.lex g.ley x))
        (answer sub a nx ny fun x => -(1 / a) * h (lift g.lex g.ley x)) := by
    intro f h hf hh
    unfold dot
    rw [sum_lift g.lex g.ley _ fun p hp => by rw [hf p hp, zero_mul], mul_sum]
    refine sum_congr rfl fun x _ => ?_
    have := onGrid_answer g ha0.ne' hh x
    rw [← this]
    show _ * onGrid sub.evaluateDisp d0 d1 h _ = _
    field_simp
  refine ⟨fun f h i => ?_, fun c f i => ?_, fun f h hf hh => ?_, fun f hf hn => ?_⟩
  · have := onGrid_lin hT hm g 1 1 f h i
    simp only [one_mul] at this
    exact this
  · have := onGrid_lin hT hm g c 0 f f i
    simp only [zero_mul, add_zero] at this
    exact this
  · rw [hdot f h hf hh, hdot h f hh hf, R.symm]
  · rw [hdot f f hf hf]
    have : 0 < dot (fun x => -(1 / a) * f (lift g.lex g.ley x)) (answer sub a nx ny fun x => -(1 / a) * f (lift g.lex g.ley x)) := by
      refine P _ ?_
      obtain ⟨i, hi⟩ := hn
      have hc : (ccgProblem sub rms d0 d1 nx ny heights).comp i = true := by
        by_contra hc
        exact hi (hf i (by simpa using hc))
      simp only [ccgProblem, Bool.and_eq_true, decide_eq_true_eq] at hc
      exact ⟨(⟨i.1, hc.1⟩, ⟨i.2, hc.2⟩), mul_ne_zero (by simpa using ha0.ne') hi⟩
    nlinarith

/-- The hypotheses can be met, with a padded grid: a nonperiodic surface of `3 × 4` points. -/
example : ∃ sub d0 d1, makeSubstrate flatTopo7 (some "nonperiodic") = .ok sub ∧ sub.hs.domain = [d0, d1] ∧
    ElasticOn (ccgProblem sub (fun _ => 0) d0 d1 3 4 flatTopo7.heights).comp (ccgProblem sub (fun _ => 0) d0 d1 3 4 flatTopo7.heights).disp := by
  rcases make_cases flatTopo7_valid (some "nonperiodic") with ⟨h0, -, -⟩ | ⟨h0, -⟩ | ⟨-, s, hs, h⟩ | ⟨-, h0, -⟩
  · exact absurd h0 (by decide)
  · exact absurd h0 (by decide)
  · obtain ⟨d0, d1, g⟩ := grid_of_make flatTopo7_valid h
    exact ⟨_, d0, d1, h, g.dom, C104_every_substrate_elastic flatTopo7_valid h g.dom _ _⟩
  · exact absurd rfl h0

/-! ## C157: reported fields that meet the contact conditions are the solution -/

/-- **C157** If the fields handed to the callback of an elastic calculation show no tension, no penetration, and no pressure across an
open gap, then they are the exact solution of the contact problem at the reported offset, and no other pressures solve it. -/
theorem C157_contact_conditions_suffice (hT : ValidTopo T nx ny sx sy) {rms : NdArray ℝ → ℝ} {bisect : Bisect} {A : PipeArgs}
    (hel : ∀ H, A.hardness = some H → H ≤ 0) {out : Except PyErr Result} {reps : List Report}
    (h : contactMechanicsCCG T rms bisect A = (out, reps)) {rep : Report} (hrep : rep ∈ reps)
    (hp : ∀ x, 0 ≤ field nx ny rep.pressure x)
    (hpen : ∀ x, wall T nx ny rep.meanDisplacement x ≤ field nx ny rep.displacement x)
    (hgap : ∀ x, field nx ny rep.pressure x ≠ 0 → field nx ny rep.gap x = 0) :
    ExactContact T A.substrate nx ny sx sy rep.meanDisplacement (field nx ny rep.pressure) (field nx ny rep.displacement) ∧
    ∀ p u, ExactContact T A.substrate nx ny sx sy rep.meanDisplacement p u → p = field nx ny rep.pressure ∧ u = field nx ny rep.displacement := by
  obtain ⟨sub, -, hm, -⟩ := C147_reported_displacement hT rms bisect A h _ hrep
  obtain ⟨h1, h2, -⟩ := report_state hT hel h hrep hm
  have hw : HardWall (answer sub (sx * sy / (nx * ny)) nx ny) (wall T nx ny rep.meanDisplacement) (field nx ny rep.pressure) := by
    refine ⟨hp, fun x => by rw [← h1]; exact hpen x, fun x hx => ?_⟩
    have hz := hgap x hx
    rw [h2] at hz
    rw [← h1]
    have h3 := le_max_right 0 (field nx ny rep.displacement x - wall T nx ny rep.meanDisplacement x)
    rw [hz] at h3
    exact le_antisymm (by linarith) (hpen x)
  refine ⟨⟨sub, hm, h1, hw⟩, ?_⟩
  rintro p u ⟨sub', hm', rfl, hw'⟩
  rw [hm] at hm'; cases hm'
  have := (C156_unique hT hm hw' hw).1 rfl
  subst this
  exact ⟨rfl, h1.symm⟩

/-- **C157** Under load control: against the exact solution with the reported mean pressure (at whatever offset) the work of the errors is at
most the reported pressures times the reported gaps, plus the penetration `δ` times the mean pressure; on a periodic substrate this
bounds the mean square error of the displacements. -/
theorem C157_same_load_error (hT : ValidTopo T nx ny sx sy) {rms : NdArray ℝ → ℝ} {bisect : Bisect} {A : PipeArgs}
    (hel : ∀ H, A.hardness = some H → H ≤ 0) {out : Except PyErr Result} {reps : List Report}
    (h : contactMechanicsCCG T rms bisect A = (out, reps)) {rep : Report} (hrep : rep ∈ reps)
    (hp : ∀ x, 0 ≤ field nx ny rep.pressure x) {δ : ℝ}
    (hδ : ∀ x, wall T nx ny rep.meanDisplacement x - field nx ny rep.displacement x ≤ δ)
    {o : ℝ} {p u : Fin nx × Fin ny → ℝ} (hex : ExactContact T A.substrate nx ny sx sy o p u) (hload : avg p = rep.meanPressure) :
    avg (fun x => (field nx ny rep.pressure x - p x) * (field nx ny rep.displacement x - u x)) ≤
      avg (fun x => field nx ny rep.pressure x * field nx ny rep.gap x) + δ * rep.meanPressure ∧
    ((A.substrate = some "periodic" ∨ (A.substrate = none ∧ T.isPeriodic = true)) →
      avg (fun x => (field nx ny rep.displacement x - u x) ^ 2) ≤ max sx sy / Real.pi *
        (avg (fun x => field nx ny rep.pressure x * field nx ny rep.gap x) + δ * rep.meanPressure)) := by
  have key := C157_error_bound hT hel h hrep hp hδ hex
  rw [hload, sub_self, mul_zero, zero_add] at key
  refine ⟨key, fun hks => ?_⟩
  obtain ⟨sub, hm, rfl, hw⟩ := hex.solves
  obtain ⟨h1, -, -⟩ := report_state hT hel h hrep hm
  have P := answer_per hT hm (periodic_not_free hT hks hm)
  have b2 := (avg_bounds P (field nx ny rep.pressure) p).2
  rw [← h1] at b2
  have h4 := hT.sx_pos
  have hpi := Real.pi_pos
  have hm0 : 0 < max sx sy := lt_max_of_lt_left h4
  exact b2.trans (mul_le_mul_of_nonneg_left key (by positivity))

end CM.Pipe
