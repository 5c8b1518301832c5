import Verif.Props.Scale2
/-!
# C155 the unit of length
-/
set_option linter.unusedSimpArgs false
namespace CM.Pipe
open Finset CM.HS CM.FFT CM.System CM.Spec CM.Fourier

variable {nx ny : ℕ} {sx sy : ℝ} {l : ℝ} {T T' : Topo}

/-- **C155** In another unit of length -- all lengths of the surface multiplied by `l`, prescribed offsets too, the force
tolerance by `l²` -- the calculation is the same: the same exception, or the same pressures, fractional contact areas and
convergence flags, with displacements and gaps multiplied by `l`; callbacks likewise.  For periodic and free substrates, offsets,
pressures and automatic steps, elastic or plastic, provided the roughness of the surface is above the built-in minimal penetration
tolerance in both units, and (only for plastic calculations with prescribed pressures) that bisection does not depend on the
unit. -/
theorem C155_units (hl : 0 < l) (hT : ValidTopo T nx ny sx sy) (hT' : ValidTopo T' nx ny (l * sx) (l * sy)) (hM : ScaledTopo l nx ny T T')
    (hrms : 1e-12 ≤ T.rmsHeight / (10 * ((nx + ny) / 2))) (hrms' : 1e-12 ≤ T'.rmsHeight / (10 * ((nx + ny) / 2)))
    (A : PipeArgs) (rms rms' : NdArray ℝ → ℝ) (bisect : Bisect)
    (hpl : A.pressures = none ∨ (∀ H, A.hardness = some H → H ≤ 0) ∨ BisectScales l bisect) :
    SameInUnits l nx ny (contactMechanicsCCG T rms bisect A) (contactMechanicsCCG T' rms' bisect (scaledArgs l A)) := by
  have hname : substrateName T' A.substrate = substrateName T A.substrate := by unfold substrateName; rw [hM.periodic]
  have hpt : pipePentol T' = l * pipePentol T := by
    rw [pentol_eq hT, pentol_eq hT', max_eq_left hrms, max_eq_left hrms', hM.rms, mul_div_assoc]
  have hkw : (scaledArgs l A).optimizerKwargs = scaledKw l A.optimizerKwargs := rfl
  refine run_scaled hl hT hT' hM hpt
    (ok := fun q => BisectScales l bisect ∨ q.hardness = none ∨ q.externalForce = none) ?_ ?_
    (default_fits hT rms bisect A) (default_fits hT' rms' bisect _)
  · intro h off ext pt mi hext
    rcases hpl with hp | hp | hp
    · exact .inr (.inr (hext.resolve_left (not_not.2 hp)))
    · refine .inr (.inl ?_)
      have : usedHardness A = none := by
        unfold usedHardness
        cases hA : A.hardness with
        | none => rfl
        | some H => simp [hp H hA]
      show forceHardness nx ny sx sy (usedHardness A) = none
      rw [this]; rfl
    · exact .inl hp
  · have hdef : ∀ sub sub', makeSubstrate T A.substrate = .ok sub → makeSubstrate T' A.substrate = .ok sub' →
        defaultSolver T rms bisect A = ccgSolver sub rms bisect A.optimizerKwargs ∧
        defaultSolver T' rms' bisect (scaledArgs l A) = ccgSolver sub' rms' bisect (scaledKw l A.optimizerKwargs) := by
      intro sub sub' h1 h2
      constructor
      · unfold defaultSolver; rw [h1]
      · unfold defaultSolver
        rw [show (scaledArgs l A).substrate = A.substrate from rfl, h2]
        rfl
    have c1 := make_cases hT A.substrate
    have c2 := make_cases hT' A.substrate
    rw [hname] at c2
    rcases c1 with ⟨k1, k2, k3⟩ | ⟨k1, k2, s, k3, k4⟩ | ⟨k1, s, k3, k4⟩ | ⟨k1, k2, k3⟩
    · rcases c2 with ⟨l1, l2, l3⟩ | ⟨l1, l2, -⟩ | ⟨l1, -⟩ | ⟨l1, -⟩
      · exact .inl ⟨_, k3, l3⟩
      · exact absurd l2 k2
      · rw [k1] at l1; exact absurd l1 (by decide)
      · exact absurd k1 l1
    · rcases c2 with ⟨l1, l2, l3⟩ | ⟨l1, l2, s', l3, l4⟩ | ⟨l1, -⟩ | ⟨l1, -⟩
      · exact absurd k2 l2
      · refine .inr ⟨_, _, k4, l4, ?_⟩
        rw [(hdef _ _ k4 l4).1, (hdef _ _ k4 l4).2]
        exact (periodic_scales hl hT.sx_pos hT.sy_pos hT hT' k4 l4 k3 l3).agree hl rms rms' bisect
      · rw [k1] at l1; exact absurd l1 (by decide)
      · exact absurd k1 l1
    · rcases c2 with ⟨l1, -⟩ | ⟨l1, -⟩ | ⟨l1, s', l3, l4⟩ | ⟨-, l1, -⟩
      · rw [k1] at l1; exact absurd l1 (by decide)
      · rw [k1] at l1; exact absurd l1 (by decide)
      · refine .inr ⟨_, _, k4, l4, ?_⟩
        rw [(hdef _ _ k4 l4).1, (hdef _ _ k4 l4).2]
        exact (free_scales hl hT.sx_pos hT.sy_pos hT hT' k4 l4 k3 l3).agree hl rms rms' bisect
      · exact absurd k1 l1
    · rcases c2 with ⟨l1, -⟩ | ⟨l1, -⟩ | ⟨l1, -⟩ | ⟨-, -, l3⟩
      · exact absurd l1 k1
      · exact absurd l1 k1
      · exact absurd l1 k2
      · exact .inl ⟨_, k3, l3⟩

/-- **C155** (tolerances kept) When the force tolerance is not converted to the new unit -- it is not, by default -- the calculation
in the new unit is the old one with the force tolerance divided by `l²`: in small units the test on tensile forces is as loose as
one likes. -/
theorem C155_kept_tolerance_partial (hl : 0 < l) (hT : ValidTopo T nx ny sx sy) (hT' : ValidTopo T' nx ny (l * sx) (l * sy)) (hM : ScaledTopo l nx ny T T')
    (hrms : 1e-12 ≤ T.rmsHeight / (10 * ((nx + ny) / 2))) (hrms' : 1e-12 ≤ T'.rmsHeight / (10 * ((nx + ny) / 2)))
    (A : PipeArgs) (rms rms' : NdArray ℝ → ℝ) (bisect : Bisect)
    (hpl : A.pressures = none ∨ (∀ H, A.hardness = some H → H ≤ 0) ∨ BisectScales l bisect) :
    SameInUnits l nx ny
      (contactMechanicsCCG T rms bisect { A with optimizerKwargs := { A.optimizerKwargs with forcetol := A.optimizerKwargs.forcetol / l ^ 2 } })
      (contactMechanicsCCG T' rms' bisect { A with offsets := A.offsets.map (List.map (l * ·)) }) := by
  have := C155_units hl hT hT' hM hrms hrms'
    { A with optimizerKwargs := { A.optimizerKwargs with forcetol := A.optimizerKwargs.forcetol / l ^ 2 } } rms rms' bisect hpl
  unfold scaledArgs at this
  dsimp only at this
  rw [mul_div_cancel₀ _ (pow_ne_zero 2 hl.ne')] at this
  exact this

/-! ## The minimal penetration tolerance is an absolute length -/

/-- A flat surface at height zero pressed with one pressure: the reported displacement. -/
theorem flat_displacement (hT : ValidTopo T nx ny sx sy) (hx : 1 < nx) (hy : 1 < ny) (rms : NdArray ℝ → ℝ) (bisect : Bisect)
    (A : PipeArgs) (hkw : 0 < A.optimizerKwargs.forcetol) (hkw' : 0 < A.optimizerKwargs.thermotol) (hkw1 : A.optimizerKwargs.thermotol ≤ 1)
    (hel : ∀ H, A.hardness = some H → H ≤ 0) (hm : 3 ≤ A.maxiter)
    (hks : A.substrate = some "periodic" ∨ (A.substrate = none ∧ T.isPeriodic = true)) (hA : ExactlyOne A)
    {p : ℝ} (h1 : A.pressures = some [p]) (hp : 0 < p) (hflat : ∀ i < nx, ∀ j < ny, T.heights.get [i, j] = 0) (hrms : T.rmsHeight = 0) :
    ∃ R reps, contactMechanicsCCG T rms bisect A = (.ok R, reps) ∧ R.converged = [true] ∧
      R.meanDisplacement = [if p * (2 / (Real.pi * (1 / sx + 1 / sy))) < 1e-12 then 0 else p * (2 / (Real.pi * (1 / sx + 1 / sy)))] := by
  obtain ⟨R, reps, hrun, -, -, hconv, -⟩ := C149_flat_surface hT hx hy rms bisect A hkw hkw' hel hm hks hA [p] h1 (by simp) (by simpa using hp) hflat
  refine ⟨R, reps, hrun, hconv, ?_⟩
  have heff : effectiveHardness A = none := by
    unfold effectiveHardness
    cases hA : A.hardness with
    | none => rfl
    | some H => simp [hel H hA]
  have hAz : 0 < sx * sy := mul_pos hT.sx_pos hT.sy_pos
  obtain ⟨D, hl, hr, rfl, rfl⟩ := C60_pressures hT _ (default_fits hT rms bisect A) A [p] h1 hrun
  obtain ⟨d, rfl⟩ : ∃ d, D = [d] := List.length_eq_one_iff.1 (by simpa using hl)
  obtain ⟨o', F, ⟨h2, h3⟩, h4⟩ := hr.call 0 d rfl
  have hb := hr.fresh (.inr heff) d (by simp)
  have hs := hr.solved d (by simp)
  rw [heff, hb, h2, h3] at h4
  rw [h4] at hs
  simp only [columns, List.map_cons, List.map_nil]
  congr 1
  show d.result.offset = _
  unfold defaultSolver at hs
  cases hmk : makeSubstrate T A.substrate with
  | error e => rw [hmk] at hs; cases hs
  | ok sub =>
    rw [hmk] at hs
    obtain ⟨s, hc, rfl⟩ : ∃ s, construct (periodicArgs T) = .ok s ∧ sub = ⟨s, false, false⟩ := by
      have h2 : makeSubstrate T A.substrate = (do pure ⟨← construct (periodicArgs T), false, false⟩) := by
        unfold makeSubstrate
        rcases hks with h | h
        · rw [h]; rfl
        · rw [h.1, h.2]; rfl
      rw [h2] at hmk
      cases hc : construct (periodicArgs T) with
      | error e => rw [hc] at hmk; cases hmk
      | ok s => rw [hc] at hmk; exact ⟨s, rfl, by cases hmk; rfl⟩
    obtain ⟨κ, hP, hκ⟩ := periodic_flat hT rms hc hflat
    have hg : Grid ⟨s, false, false⟩ nx ny nx ny := by
      obtain ⟨d0, d1, g⟩ := grid_of_make hT hmk
      have hv : ValidArgs (periodicArgs T) := by
        unfold periodicArgs; constructor <;> simp [hT.sizes, hT.sx_pos, hT.sy_pos]
      obtain ⟨_, _, P⟩ := per_of_construct hv hc hT.heights
      have e := g.dom.symm.trans P.rep.dom
      simp only [List.cons.injEq, and_true] at e
      obtain ⟨rfl, rfl⟩ := e
      exact g
    have hu : κ * (p * (sx * sy) / (Fintype.card (Fin nx × Fin ny) : ℝ)) = p * (2 / (Real.pi * (1 / sx + 1 / sy))) := by
      rw [← hκ]
      simp only [Fintype.card_prod, Fintype.card_fin, Nat.cast_mul]
      ring
    have hptl : max (T.rmsHeight / (10 * (((nx : ℝ) + ny) / 2))) 1e-12 = 1e-12 := by rw [hrms, zero_div]; norm_num
    simp only [hptl] at hs
    obtain ⟨q, hq, e⟩ := (ccg_ok hg).1 hs
    have hoff : d.result.offset = q.offset := by rw [e]; rfl
    rw [hoff]
    split_ifs with hlt
    · obtain ⟨r, k1, -, k3⟩ := CCG.flat_load_below
        (o := ccgOptions bisect A.optimizerKwargs _ ⟨T.heights, none, none, some (p * (sx * sy)), some 1e-12, A.maxiter⟩)
        (F := p * (sx * sy)) (pentol := 1e-12) hP rfl (mul_pos hp hAz) rfl rfl rfl rfl rfl (by norm_num) hkw hkw'
        (by show 1 ≤ A.maxiter.toNat; omega) (by rw [hu]; exact hlt)
      have := hq.symm.trans k1
      simp only [Except.ok.injEq] at this
      rw [this, k3]
    · obtain ⟨r, k1, -, k3⟩ := CCG.flat_load_above
        (o := ccgOptions bisect A.optimizerKwargs _ ⟨T.heights, none, none, some (p * (sx * sy)), some 1e-12, A.maxiter⟩)
        (F := p * (sx * sy)) (pentol := 1e-12) hP rfl (mul_pos hp hAz) rfl rfl rfl rfl rfl (by norm_num) hkw hkw' hkw1
        (by show 3 ≤ A.maxiter.toNat; omega) (by rw [hu]; exact not_lt.1 hlt)
      have := hq.symm.trans k1
      simp only [Except.ok.injEq] at this
      rw [this, k3, hu]

/-- A flat surface at height zero on a `2 × 2` grid of lengths `l × l`. -/
noncomputable def flatSquare (l : ℝ) : Topo := ⟨⟨[2, 2], fun _ => 0⟩, [l, l], true, 0⟩

lemma flatSquare_valid (hl : 0 < l) : ValidTopo (flatSquare l) 2 2 l l := by constructor <;> first | rfl | exact hl | norm_num

/-- **C155** (refuted for the built-in minimal penetration tolerance) Two calculations of the same flat surface under the same
pressure in two units of length, the force tolerance converted or not: both report convergence, one reports the displacement of the
substrate and the other reports zero.  The roughness is below the minimal penetration tolerance, which is an absolute length. -/
theorem C155_flat_partial (rms : NdArray ℝ → ℝ) (bisect : Bisect) :
    ScaledTopo 1e-13 2 2 (flatSquare 1) (flatSquare 1e-13) ∧
    ∃ u R R' R'', 0 < u ∧ (contactMechanicsCCG (flatSquare 1) rms bisect { pressures := some [1] }).1 = .ok R ∧
      (contactMechanicsCCG (flatSquare 1e-13) rms bisect { pressures := some [1] }).1 = .ok R' ∧
      (contactMechanicsCCG (flatSquare 1e-13) rms bisect (scaledArgs 1e-13 { pressures := some [1] })).1 = .ok R'' ∧
      R.converged = [true] ∧ R'.converged = [true] ∧ R''.converged = [true] ∧
      R.meanDisplacement = [u] ∧ R'.meanDisplacement = [0] ∧ R''.meanDisplacement = [0] := by
  refine ⟨⟨fun i _ j _ => by simp [flatSquare], rfl, by simp [flatSquare]⟩, ?_⟩
  have h1 := flatSquare_valid (l := 1) one_pos
  have h2 := flatSquare_valid (l := 1e-13) (by norm_num)
  have hpi := Real.two_le_pi
  have hpi' := Real.pi_le_four
  obtain ⟨R, reps, a1, a2, a3⟩ := flat_displacement h1 (by norm_num) (by norm_num) rms bisect { pressures := some [1] } (by norm_num) (by norm_num) (by norm_num)
    (by simp) (by norm_num) (.inr ⟨rfl, rfl⟩) (by simp [ExactlyOne]) rfl one_pos (fun _ _ _ _ => rfl) rfl
  obtain ⟨R', reps', b1, b2, b3⟩ := flat_displacement h2 (by norm_num) (by norm_num) rms bisect { pressures := some [1] } (by norm_num) (by norm_num) (by norm_num)
    (by simp) (by norm_num) (.inr ⟨rfl, rfl⟩) (by simp [ExactlyOne]) rfl one_pos (fun _ _ _ _ => rfl) rfl
  obtain ⟨R'', reps'', c1, c2, c3⟩ := flat_displacement h2 (by norm_num) (by norm_num) rms bisect (scaledArgs 1e-13 { pressures := some [1] })
    (by norm_num [scaledArgs]) (by norm_num [scaledArgs]) (by norm_num [scaledArgs])
    (by simp [scaledArgs]) (by norm_num [scaledArgs]) (.inr ⟨rfl, rfl⟩) (by simp [ExactlyOne, scaledArgs]) rfl one_pos (fun _ _ _ _ => rfl) rfl
  have hu : (0 : ℝ) < 1 * (2 / (Real.pi * (1 / 1 + 1 / 1))) := by positivity
  have n1 : ¬ 1 * (2 / (Real.pi * (1 / 1 + 1 / 1))) < (1e-12 : ℝ) := by
    rw [not_lt, one_mul, le_div_iff₀ (by positivity)]
    nlinarith
  have n2 : 1 * (2 / (Real.pi * (1 / 1e-13 + 1 / 1e-13))) < (1e-12 : ℝ) := by
    rw [one_mul, div_lt_iff₀ (by positivity)]
    norm_num
    nlinarith
  rw [if_neg n1] at a3
  rw [if_pos n2] at b3 c3
  exact ⟨_, R, R', R'', hu, by rw [a1], by rw [b1], by rw [c1], a2, b2, c2, a3, b3, c3⟩

/-! ## The hypotheses can be met -/

/-- The rough demonstration surface with all lengths multiplied by `l`. -/
noncomputable def roughTopoIn (l : ℝ) (b : Bool) : Topo :=
  ⟨⟨[3, 4], fun x => match x with | [i, j] => l * ((i * i : ℝ) + 5 * j) | _ => 0⟩, [l * 1, l * 2], b, l * 6⟩

/-- Lengths in metres and in millimetres, and a bisection that does not depend on the unit. -/
example (b : Bool) : ValidTopo (roughTopo b) 3 4 1 2 ∧ ValidTopo (roughTopoIn 1000 b) 3 4 (1000 * 1) (1000 * 2) ∧
    ScaledTopo 1000 3 4 (roughTopo b) (roughTopoIn 1000 b) ∧ (1e-12 : ℝ) ≤ (roughTopo b).rmsHeight / (10 * (((3 : ℕ) + (4 : ℕ)) / 2)) ∧
    (1e-12 : ℝ) ≤ (roughTopoIn 1000 b).rmsHeight / (10 * (((3 : ℕ) + (4 : ℕ)) / 2)) ∧
    BisectScales 1000 (fun f a b => if f a * f b ≤ 0 then .ok ((a + b) / 2) else .error .valueError) := by
  refine ⟨?_, ?_, ⟨fun i _ j _ => rfl, rfl, rfl⟩, by norm_num [roughTopo], by norm_num [roughTopoIn], fun f a b => ?_⟩
  · constructor <;> first | rfl | norm_num
  · constructor <;> first | rfl | norm_num
  · beta_reduce
    rw [mul_div_cancel_left₀ _ (by norm_num), mul_div_cancel_left₀ _ (by norm_num)]
    have : ((1000 : ℝ) ^ 2 * f a * (1000 ^ 2 * f b) ≤ 0) ↔ f a * f b ≤ 0 := by
      rw [show (1000 : ℝ) ^ 2 * f a * (1000 ^ 2 * f b) = 1000 ^ 4 * (f a * f b) by ring]
      constructor <;> intro h <;> linarith
    by_cases h : f a * f b ≤ 0
    · rw [if_pos h, if_pos (this.2 h)]
      simp only [Except.map]
      congr 1
      ring
    · rw [if_neg h, if_neg (fun h' => h (this.1 h'))]
      rfl

end CM.Pipe
