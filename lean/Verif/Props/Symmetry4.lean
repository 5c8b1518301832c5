import Verif.Props.Symmetry3
import Verif.Props.HardWall3
import Verif.Props.FullContact
/-!
# C153 raised surfaces under load control
-/
namespace CM.CCG
open Finset CM.Spec
variable {ι K : Type} [Fintype ι] [Field K] [LinearOrder K] [IsStrictOrderedRing K]
variable {P : Problem ι K} {o : Options ι K}

/-- A flat surface under load with one iteration allowed: convergence depends on the height of the surface. -/
lemma flat_one_iteration {h0 κ F pentol : K} (hP : Flat P h0 κ) (hF : o.externalForce = some F) (hF0 : 0 < F) (hH : o.hardness = .none)
    (hi : o.initialForces = none) (hd : o.initialDisplacements = none) (ho : o.offset = none) (hp : pentolOf P o = .ok pentol) (hp0 : 0 < pentol)
    (hft : 0 < o.forcetol) (hth : 0 < o.thermotol) (hmax : o.maxiter = 1) :
    ∃ r, solve P o = .ok r ∧ (pentol ≤ |κ * (F / (Fintype.card ι : K)) - max 0 h0| → r.success = false) ∧
      (h0 = κ * (F / (Fintype.card ι : K)) → r.success = true) := by
  have hn : (0 : K) < (Fintype.card ι : K) := by exact_mod_cast hP.card
  have hu0 : initU P o = fun _ => max 0 h0 := by
    funext i
    simp only [initU, hd, ho, Option.getD_none, hP.comp, if_true, hP.h, add_zero]
    split_ifs with h
    · rw [max_eq_right h.le]
    · rw [max_eq_left (not_lt.1 h)]
  have hs0f : (initState P o).f = fun _ => -(max 0 h0 / κ) := by
    funext i; simp [initState, hi, hu0, hP.force, hP.comp]
  have hs0u : (initState P o).u = fun _ => max 0 h0 := by
    funext i; simp [initState, hi, hu0]
  obtain ⟨w1, a1, b1, c1, d1, e1, f1, g1, -, k1, -⟩ := flat_step (s := initState P o) hP hF hF0 hH hp0 hft hth hs0f hs0u rfl
    (by simp [initState]) (div_nonneg (le_max_left _ _) hP.κ_pos.le) (fun _ => le_max_right _ _)
  refine ⟨mkResult P o 1 w1.converged w1, ?_, fun h => ?_, fun h => ?_⟩
  · unfold solve solveCb
    rw [hp, hmax]
    cases hc : w1.converged <;> simp [loop, a1, hc, Except.map]
  · show w1.converged = false
    by_contra hc
    have := k1 (by simpa using hc)
    rw [pabs_eq] at this
    exact absurd h (not_le.2 this)
  · show w1.converged = true
    have h1 : 0 < h0 := by rw [h]; exact mul_pos hP.κ_pos (div_pos hF0 hn)
    have h2 : max 0 h0 = h0 := max_eq_right h1.le
    rw [g1 (by rw [h2]; exact div_pos h1 hP.κ_pos) (by rw [h2, h])]
    unfold convHeight
    rw [hF]
    rfl

end CM.CCG

namespace CM.Pipe
open Finset CM.HS CM.FFT CM.System CM.Spec
variable {T T' : Topo} {nx ny : ℕ} {sx sy : ℝ}

/-- **C153** (exact solution) Raising the surface by `c` moves the exact solution to the offset lower by `c`, and changes nothing else. -/
theorem C153_exact (hT : ValidTopo T nx ny sx sy) (hT' : ValidTopo T' nx ny sx sy) {c : ℝ} (hM : MovedTopo id c nx ny T T') (k : Option String)
    (o : ℝ) (p u : Fin nx × Fin ny → ℝ) : ExactContact T' k nx ny sx sy (o - c) p u ↔ ExactContact T k nx ny sx sy o p u := by
  have hname : makeSubstrate T' k = makeSubstrate T k := by
    unfold makeSubstrate
    rw [hM.periodic, hT.heights, hT'.heights, hT.sizes, hT'.sizes]
  have hw : wall T' nx ny (o - c) = wall T nx ny o := by
    funext x
    have := hM.heights x.1 x.1.isLt x.2 x.2.isLt
    unfold wall
    simp only [id] at this
    rw [this]; ring
  constructor
  · rintro ⟨sub, h1, h2, h3⟩
    exact ⟨sub, hname ▸ h1, h2, hw ▸ h3⟩
  · rintro ⟨sub, h1, h2, h3⟩
    exact ⟨sub, hname.trans h1, h2, hw.symm ▸ h3⟩

/-- **C153** (two calculations) Elastic calculations on a surface and on the same surface raised by `c`, with any arguments on the same kind of substrate: their fields differ by no more than
their own defects (pressure across open gaps, penetration), the offset of the second one counted from the surface. -/
theorem C153_two_calculations (hT : ValidTopo T nx ny sx sy) (hT' : ValidTopo T' nx ny sx sy) {c : ℝ} (hM : MovedTopo id c nx ny T T')
    {rms rms' : NdArray ℝ → ℝ} {bisect bisect' : Bisect} {A A' : PipeArgs} (hsub : A.substrate = A'.substrate)
    (hel : ∀ H, A.hardness = some H → H ≤ 0) (hel' : ∀ H, A'.hardness = some H → H ≤ 0) {out out' : Except PyErr Result} {reps reps' : List Report}
    (h : contactMechanicsCCG T rms bisect A = (out, reps)) (h' : contactMechanicsCCG T' rms' bisect' A' = (out', reps'))
    {rep rep' : Report} (hrep : rep ∈ reps) (hrep' : rep' ∈ reps')
    (hp : ∀ x, 0 ≤ field nx ny rep.pressure x) (hp' : ∀ x, 0 ≤ field nx ny rep'.pressure x) {δ δ' : ℝ}
    (hδ : ∀ x, wall T nx ny rep.meanDisplacement x - field nx ny rep.displacement x ≤ δ)
    (hδ' : ∀ x, wall T' nx ny rep'.meanDisplacement x - field nx ny rep'.displacement x ≤ δ') :
    avg (fun x => (field nx ny rep.pressure x - field nx ny rep'.pressure x) * (field nx ny rep.displacement x - field nx ny rep'.displacement x)) ≤
      (rep.meanDisplacement - (rep'.meanDisplacement + c)) * (rep.meanPressure - rep'.meanPressure)
        + avg (fun x => field nx ny rep.pressure x * field nx ny rep.gap x) + avg (fun x => field nx ny rep'.pressure x * field nx ny rep'.gap x)
        + δ' * rep.meanPressure + δ * rep'.meanPressure := by
  obtain ⟨sub, u, hm, -⟩ := C147_reported_displacement hT rms bisect A h _ hrep
  have hname : makeSubstrate T' A'.substrate = makeSubstrate T A.substrate := by
    rw [← hsub]
    unfold makeSubstrate
    rw [hM.periodic, hT.heights, hT'.heights, hT.sizes, hT'.sizes]
  have hwall : ∀ x, wall T' nx ny rep'.meanDisplacement x = T.heights.get [x.1, x.2] + (rep'.meanDisplacement + c) := by
    intro x
    have := hM.heights x.1 x.1.isLt x.2 x.2.isLt
    unfold wall
    simp only [id] at this
    rw [this]; ring
  obtain ⟨h1, h2, h3⟩ := report_state hT hel h hrep hm
  obtain ⟨h1', h2', h3'⟩ := report_state hT' hel' h' hrep' (hname.trans hm)
  have key := avg_two (U := answer sub (sx * sy / (nx * ny)) nx ny) (b := fun x : Fin nx × Fin ny => T.heights.get [x.1, x.2]) (δ₁ := δ) (δ₂ := δ')
    (o₁ := rep.meanDisplacement) (o₂ := rep'.meanDisplacement + c) hp hp' (fun i => by rw [← h1]; exact hδ i)
    (fun i => by rw [← h1', ← hwall i]; exact hδ' i)
  rw [← h1, ← h1', ← h3, ← h3'] at key
  have e : (fun x => field nx ny rep.pressure x * field nx ny rep.gap x) =
      fun i => field nx ny rep.pressure i * max 0 (field nx ny rep.displacement i - (T.heights.get [i.1, i.2] + rep.meanDisplacement)) := by
    funext x; rw [h2]; rfl
  have e' : (fun x => field nx ny rep'.pressure x * field nx ny rep'.gap x) =
      fun i => field nx ny rep'.pressure i * max 0 (field nx ny rep'.displacement i - (T.heights.get [i.1, i.2] + (rep'.meanDisplacement + c))) := by
    funext x; rw [h2', hwall]
  rw [e, e']; exact key

/-- **C153** (pressures; refuted) Whether a step under load control converges depends on the height at which the surface is given: with a single iteration allowed, the flat surface of height zero
does not converge, and the same surface given at its final height does. -/
theorem C153_pressures_partial (hT : ValidTopo T nx ny sx sy) (hx : 1 < nx) (hy : 1 < ny) (rms : NdArray ℝ → ℝ) (bisect : Bisect)
    {p h0 : ℝ} (hp : 0 < p) (hflat : ∀ i < nx, ∀ j < ny, T.heights.get [i, j] = h0) :
    ∃ R, (contactMechanicsCCG T rms bisect { pressures := some [p], maxiter := 1, substrate := some "periodic" }).1 = .ok R ∧
      (h0 = 0 → max (T.rmsHeight / (10 * ((nx + ny) / 2))) 1e-12 ≤ p * (2 / (Real.pi * (1 / sx + 1 / sy))) → R.converged = [false]) ∧
      (h0 = p * (2 / (Real.pi * (1 / sx + 1 / sy))) → R.converged = [true]) := by
  obtain ⟨A, hAe⟩ : ∃ A : PipeArgs, A = { pressures := some [p], maxiter := 1, substrate := some "periodic" } := ⟨_, rfl⟩
  rw [← hAe]
  have hA : ExactlyOne A := by rw [hAe]; simp [ExactlyOne]
  have hel : ∀ H, A.hardness = some H → H ≤ 0 := by rw [hAe]; simp
  have h1 : A.pressures = some [p] := by rw [hAe]
  have heff : usedHardness A = none := by
    unfold usedHardness
    cases hA : A.hardness with
    | none => rfl
    | some H => simp [hel H hA]
  have hAz : 0 < sx * sy := mul_pos hT.sx_pos hT.sy_pos
  obtain ⟨R, reps, h⟩ := C161_returns hT hx hy rms bisect A (.inl hel) (by rw [hAe]) (by rw [hAe]; simp [KnownSubstrate]) hA (by rw [hAe]; simp [nbSteps])
  refine ⟨R, by rw [h], ?_⟩
  obtain ⟨sub, hmk⟩ : ∃ sub, makeSubstrate T A.substrate = .ok sub := by
    obtain ⟨Y, hY⟩ := system_ok hT hx hy A (by rw [hAe]; simp)
    cases hmk : makeSubstrate T A.substrate with
    | ok sub => exact ⟨sub, rfl⟩
    | error e =>
      have : makePipeSystem T A = .error e := by unfold makePipeSystem; rw [hmk]; rfl
      rw [this] at hY; cases hY
  obtain ⟨s, hc, rfl⟩ : ∃ s, construct (periodicArgs T) = .ok s ∧ sub = ⟨s, false, false⟩ := by
    have h2 : makeSubstrate T A.substrate = (do pure ⟨← construct (periodicArgs T), false, false⟩) := by
      unfold makeSubstrate
      rw [hAe]; rfl
    rw [h2] at hmk
    cases hc : construct (periodicArgs T) with
    | error e => rw [hc] at hmk; cases hmk
    | ok s => rw [hc] at hmk; exact ⟨s, rfl, by cases hmk; rfl⟩
  have hsol : defaultSolver T rms bisect A = ccgSolver ⟨s, false, false⟩ rms bisect A.optimizerKwargs := by unfold defaultSolver; rw [hmk]
  obtain ⟨κ, hP, hκ⟩ := periodic_flat hT rms hc hflat
  have hg : Grid ⟨s, false, false⟩ nx ny nx ny := by
    obtain ⟨d0, d1, g⟩ := grid_of_make hT hmk
    have hv : ValidArgs (periodicArgs T) := by
      unfold periodicArgs; constructor <;> simp [hT.sizes, hT.sx_pos, hT.sy_pos]
    obtain ⟨_, _, P⟩ := per_of_construct hv hc hT.heights
    have e := g.dom.symm.trans P.rep.dom
    simp only [List.cons.injEq, and_true] at e
    obtain ⟨rfl, rfl⟩ := e
    exact g
  obtain ⟨D, hl, hr, rfl, -⟩ := C60_pressures hT _ (default_fits hT rms bisect A) A [p] h1 h
  match D, hl with
  | [d], _ =>
    obtain ⟨o', F, ⟨h2, h3⟩, h4⟩ := hr.call 0 d rfl
    have heff' : effectiveHardness A = none := by rw [← hardness_eq, heff]
    have hb := hr.fresh (.inr heff') d (by simp)
    have hs := hr.solved d (by simp)
    have h3' : F = some (p * (sx * sy)) := h3
    rw [heff', hb, h2, h3'] at h4
    obtain ⟨q, k1, k2, k3⟩ := CCG.flat_one_iteration (o := ccgOptions bisect A.optimizerKwargs _ ⟨T.heights, none, none, some (p * (sx * sy)),
        some (pipePentol T), A.maxiter⟩) (F := p * (sx * sy)) (pentol := pipePentol T) hP rfl (mul_pos hp hAz) rfl rfl rfl rfl rfl (pipePentol_pos T)
      (by rw [hAe]; norm_num [ccgOptions]) (by rw [hAe]; norm_num [ccgOptions]) (by rw [hAe]; rfl)
    have hu : κ * (p * (sx * sy) / (Fintype.card (Fin nx × Fin ny) : ℝ)) = p * (2 / (Real.pi * (1 / sx + 1 / sy))) := by
      rw [← hκ]
      simp only [Fintype.card_prod, Fintype.card_fin, Nat.cast_mul]
      ring
    have hcall : defaultSolver T rms bisect A d.call = .ok (ccgResult nx ny q) := by
      rw [h4, hsol, ← pentol_eq hT]
      exact (ccg_ok hg).2 ⟨q, k1, rfl⟩
    have e : d.result = ccgResult nx ny q := by
      have := hs.symm.trans hcall
      simpa using this
    have hconv : (columns ([d].map (StepData.record nx ny sx sy))).converged = [q.success] := by
      show [d.result.success] = _
      rw [e]; rfl
    rw [hconv]
    constructor
    · rintro rfl hpt
      rw [← pentol_eq hT] at hpt
      rw [k2 (by rw [hu, max_self, sub_zero]; exact hpt.trans (le_abs_self _))]
    · intro hh
      rw [k3 (by rw [hu]; exact hh)]

/-- The flat `3 x 4` surface on `1 x 2` at heights `0` and `p * 4 / (3 π)`: one surface raised, and different answers. -/
example (rms : NdArray ℝ → ℝ) (bisect : Bisect) : ∃ c R R', MovedTopo id c 3 4 (flatTopo 0) (flatTopo c) ∧
    (contactMechanicsCCG (flatTopo 0) rms bisect { pressures := some [1], maxiter := 1, substrate := some "periodic" }).1 = .ok R ∧
    (contactMechanicsCCG (flatTopo c) rms bisect { pressures := some [1], maxiter := 1, substrate := some "periodic" }).1 = .ok R' ∧
    R.converged = [false] ∧ R'.converged = [true] := by
  obtain ⟨R, h1, h2, -⟩ := C153_pressures_partial (flatTopo_valid 0) (by norm_num) (by norm_num) rms bisect (p := 1) (h0 := 0) one_pos (fun _ _ _ _ => rfl)
  obtain ⟨R', h3, -, h4⟩ := C153_pressures_partial (flatTopo_valid (1 * (2 / (Real.pi * (1 / 1 + 1 / 2))))) (by norm_num) (by norm_num) rms bisect
    (p := 1) (h0 := 1 * (2 / (Real.pi * (1 / 1 + 1 / 2)))) one_pos (fun _ _ _ _ => rfl)
  refine ⟨1 * (2 / (Real.pi * (1 / 1 + 1 / 2))), R, R', ⟨fun i _ j _ => by simp [flatTopo], rfl, rfl⟩, h1, h3, h2 rfl ?_, h4 rfl⟩
  have hpi := Real.pi_le_four
  have hpi0 := Real.pi_pos
  rw [show (flatTopo 0).rmsHeight = 0 from rfl, zero_div, max_eq_right (by norm_num), one_mul, le_div_iff₀ (by positivity)]
  nlinarith

end CM.Pipe
