import Verif.Model.EndToEnd
import Verif.Props.CCG2
import Verif.Props.CCG5
import Verif.Props.Pipeline3
import Verif.Props.HalfSpace4
/-!
# `contact_mechanics` with the package's own solver
-/
namespace CM.Pipe
open Finset CM.HS CM.FFT CM.System CM.Spec
variable {T : Topo} {nx ny : ℕ} {sx sy : ℝ} {kw : OptimizerKwargs}

/-- What the proofs need about the substrate the pipeline builds: its computational grid `d0 × d1` contains the
topography, it accepts the fields of the solver, it is odd-linear enough to map nothing to nothing, and forces given on the
topography alone act like the same forces embedded in zeros. -/
structure Grid (sub : Substrate) (nx ny d0 d1 : ℕ) : Prop where
  dom : sub.hs.domain = [d0, d1]
  topo : sub.topo = [nx, ny]
  lex : nx ≤ d0
  ley : ny ≤ d1
  zero : ∀ f, f.shape = [d0, d1] → (∀ i < d0, ∀ j < d1, f.get [i, j] = 0) →
    ∃ u, sub.evaluateDisp f = .ok u ∧ ∀ i j, u.get [i, j] = 0
  zeroF : ∀ f, f.shape = [d0, d1] → (∀ i < d0, ∀ j < d1, f.get [i, j] = 0) →
    ∃ u, HS.evaluateForce sub.hs f = .ok u ∧ ∀ i j, u.get [i, j] = 0
  embed : ∀ f g, f.shape = [nx, ny] → g.shape = [d0, d1] →
    (∀ i < d0, ∀ j < d1, g.get [i, j] = if i < nx ∧ j < ny then f.get [i, j] else 0) →
    ∃ u v, sub.evaluateDisp f = .ok u ∧ sub.evaluateDisp g = .ok v ∧ u.shape = [nx, ny] ∧ v.shape = [d0, d1] ∧
      ∀ i j, u.get [i, j] = v.get [i, j]

lemma rep_zero {s : HalfSpace} {d0 d1 : ℕ} [NeZero d0] [NeZero d1] {G : ZMod d0 × ZMod d1 → ℂ} (h : Rep s d0 d1 G)
    (f : NdArray ℝ) (hf : f.shape = [d0, d1]) (h0 : ∀ i < d0, ∀ j < d1, f.get [i, j] = 0) :
    (∃ u, HS.evaluateDisp s f = .ok u ∧ ∀ i j, u.get [i, j] = 0) ∧ ∃ u, HS.evaluateForce s f = .ok u ∧ ∀ i j, u.get [i, j] = 0 := by
  have ht : tor d0 d1 (fun i j => f.get [i, j]) = fun _ => 0 := tor_self _ _ fun i j hi hj => h0 i hi j hj
  have ha : ∀ (S : ZMod d0 × ZMod d1 → ℂ) x, (pair2 d0 d1).act S (fun _ => 0) x = 0 := by
    intro S x
    have := (pair2 d0 d1).act_lin S 0 0 (fun _ => 0) (fun _ => 0) x
    simpa using this
  constructor
  · obtain ⟨u, h1, -, h2⟩ := h.disp_ok hf
    exact ⟨u, h1, fun i j => by rw [h2, ht, ha]; simp⟩
  · obtain ⟨u, h1, -, h2⟩ := h.force_ok hf
    exact ⟨u, h1, fun i j => by rw [h2, ht, ha]; simp⟩

lemma grid_of_per {a : Args} {s : HalfSpace} (hv : ValidArgs a) (hc : construct a = .ok s) (hg : a.nbGridPts = [nx, ny]) :
    Grid ⟨s, false, false⟩ nx ny nx ny := by
  obtain ⟨_, _, P⟩ := per_of_construct hv hc hg
  refine ⟨P.rep.dom, P.grid, le_rfl, le_rfl, ?_, ?_, ?_⟩
  · intro f hf h0
    exact (rep_zero P.rep f hf h0).1
  · intro f hf h0
    exact (rep_zero P.rep f hf h0).2
  · intro f g hf hg hfg
    obtain ⟨u, h1, h1', h2⟩ := P.rep.disp_ok hf
    obtain ⟨v, h3, h3', h4⟩ := P.rep.disp_ok hg
    refine ⟨u, v, h1, h3, h1', h3', fun i j => ?_⟩
    rw [h2, h4, tor_congr (a := fun i j => f.get [i, j]) (b := fun i j => g.get [i, j])]
    intro i j hi hj
    rw [hfg i hi j hj, if_pos ⟨hi, hj⟩]

lemma free_full {a : FreeArgs} {s : HalfSpace} [NeZero nx] [NeZero ny] (P : FreeRep a s nx ny) (f : NdArray ℝ) (hf : f.shape = [2 * nx, 2 * ny]) :
    evaluateDispFree s f false = HS.evaluateDisp s f := by
  unfold evaluateDispFree
  rw [branch_topo P, if_pos hf]

lemma grid_of_free {a : FreeArgs} {s : HalfSpace} (hv : ValidFree a) (hc : constructFree a = .ok s) (hg : a.nbGridPts = [nx, ny]) :
    Grid ⟨s, true, false⟩ nx ny (2 * nx) (2 * ny) := by
  obtain ⟨hnx, _, P⟩ := free_of_construct hv hc hg
  have hpad := free_full P
  have hne : [nx, ny] ≠ [2 * nx, 2 * ny] := by
    have := hnx.out
    intro hc; simp at hc; omega
  refine ⟨P.dom, P.grid, by omega, by omega, ?_, ?_, ?_⟩
  · intro f hf h0
    show ∃ u, evaluateDispFree s f false = .ok u ∧ _
    rw [hpad f hf]
    exact (rep_zero P.rep f hf h0).1
  · intro f hf h0
    exact (rep_zero P.rep f hf h0).2
  · intro f g hf hg hfg
    obtain ⟨v, h3, h3', h4⟩ := P.rep.disp_ok hg
    obtain ⟨w, h5, h5', h6⟩ := P.rep.disp_ok (f := HS.embed s.domain f) P.dom
    refine ⟨⟨[nx, ny], w.get⟩, v, ?_, ?_, rfl, h3', fun i j => ?_⟩
    · show evaluateDispFree s f false = _
      unfold evaluateDispFree
      rw [branch_topo P, if_neg (by rw [hf]; exact hne), if_pos hf]
      dsimp only
      rw [h5, P.grid]; rfl
    · show evaluateDispFree s g false = _
      rw [hpad g hg, h3]
    · show w.get [i, j] = _
      rw [h4, h6, tor_congr (a := fun i j => g.get [i, j]) (b := fun i j => (HS.embed s.domain f).get [i, j])]
      intro i j hi hj
      rw [hfg i hi j hj]
      simp [HS.embed, hf]

lemma grid_of_make (hT : ValidTopo T nx ny sx sy) {o : Option String} {sub : Substrate} (h : makeSubstrate T o = .ok sub) :
    ∃ d0 d1, Grid sub nx ny d0 d1 := by
  have hsz : T.physicalSizes = [sx, sy] := hT.sizes
  unfold makeSubstrate at h
  split at h
  · cases hc : construct ⟨T.heights.shape, 1, T.physicalSizes, none, none, 0, none⟩ with
    | error e => rw [hc] at h; cases h
    | ok s =>
      rw [hc] at h
      cases h
      have hv : ValidArgs ⟨T.heights.shape, 1, T.physicalSizes, none, none, 0, none⟩ := by
        constructor <;> simp [hsz, hT.sx_pos, hT.sy_pos]
      exact ⟨nx, ny, grid_of_per hv hc hT.heights⟩
  · cases hc : constructFree ⟨T.heights.shape, 1, T.physicalSizes, none⟩ with
    | error e => rw [hc] at h; cases h
    | ok s =>
      rw [hc] at h
      cases h
      have hv : ValidFree ⟨T.heights.shape, 1, T.physicalSizes, none⟩ := by
        constructor <;> simp [hsz, hT.sx_pos, hT.sy_pos]
      exact ⟨2 * nx, 2 * ny, grid_of_free hv hc hT.heights⟩
  · cases h

/-- A result of the solver comes from a run of CCG. -/
lemma ccg_ok {sub : Substrate} {rms : NdArray ℝ → ℝ} {bisect : Bisect} {c : Call} {r : OptResult} {d0 d1 : ℕ}
    (g : Grid sub nx ny d0 d1) :
    ccgSolver sub rms bisect kw c = .ok r ↔ ∃ q, CCG.solve (ccgProblem sub rms d0 d1 nx ny c.heights) (ccgOptions bisect kw _ c) = .ok q ∧
      r = ccgResult nx ny q := by
  unfold ccgSolver
  rw [g.dom, g.topo]
  dsimp only
  cases CCG.solve (ccgProblem sub rms d0 d1 nx ny c.heights) (ccgOptions bisect kw _ c) with
  | error e => simp
  | ok q => simp [eq_comm]

lemma ccg_fits {sub : Substrate} {rms : NdArray ℝ → ℝ} {bisect : Bisect} {d0 d1 : ℕ}
    (g : Grid sub nx ny d0 d1) : ∀ c r, ccgSolver sub rms bisect kw c = .ok r → Fits nx ny r := by
  intro c r h
  obtain ⟨q, -, rfl⟩ := (ccg_ok g).1 h
  exact ⟨rfl, ⟨d0, d1, rfl, g.lex, g.ley⟩, rfl⟩

lemma default_fits (hT : ValidTopo T nx ny sx sy) (rms : NdArray ℝ → ℝ) (bisect : Bisect) (A : PipeArgs) :
    ∀ c r, defaultSolver T rms bisect A c = .ok r → Fits nx ny r := by
  intro c r h
  unfold defaultSolver at h
  cases hm : makeSubstrate T A.substrate with
  | error e => rw [hm] at h; cases h
  | ok sub =>
    rw [hm] at h
    obtain ⟨d0, d1, g⟩ := grid_of_make hT hm
    exact ccg_fits g c r h

lemma default_ok (hT : ValidTopo T nx ny sx sy) {rms : NdArray ℝ → ℝ} {bisect : Bisect} {A : PipeArgs} {c : Call} {r : OptResult}
    (h : defaultSolver T rms bisect A c = .ok r) : ∃ sub d0 d1 q, makeSubstrate T A.substrate = .ok sub ∧ Grid sub nx ny d0 d1 ∧
      CCG.solve (ccgProblem sub rms d0 d1 nx ny c.heights) (ccgOptions bisect A.optimizerKwargs _ c) = .ok q ∧ r = ccgResult nx ny q := by
  unfold defaultSolver at h
  cases hm : makeSubstrate T A.substrate with
  | error e => rw [hm] at h; cases h
  | ok sub =>
    rw [hm] at h
    obtain ⟨d0, d1, g⟩ := grid_of_make hT hm
    obtain ⟨q, h1, h2⟩ := (ccg_ok g).1 h
    exact ⟨sub, d0, d1, q, rfl, g, h1, h2⟩

lemma hardness_nonneg {ι : Type} {bisect : Bisect} {c : Call} (h : ∀ H, c.hardness = some H → 0 ≤ H) (i : ι) :
    0 ≤ (ccgOptions bisect kw ι c).hardness.at i := by
  unfold ccgOptions CCG.Hardness.at
  cases hc : c.hardness with
  | none => simp
  | some H => simpa using h H hc

lemma fieldArray_get {d0 d1 : ℕ} (f : Fin d0 × Fin d1 → ℝ) {i j : ℕ} (hi : i < d0) (hj : j < d1) :
    (fieldArray d0 d1 f).get [i, j] = f (⟨i, hi⟩, ⟨j, hj⟩) := by
  simp [fieldArray, hi, hj]

/-- Sum over the grid of a field that vanishes off the topography. -/
lemma sum_grid {d0 d1 : ℕ} (hx : nx ≤ d0) (hy : ny ≤ d1) (f : Fin d0 × Fin d1 → ℝ)
    (h0 : ∀ p : Fin d0 × Fin d1, ¬ (p.1.val < nx ∧ p.2.val < ny) → f p = 0) :
    ∑ p, f p = total nx ny (fieldArray d0 d1 f) := by
  have e : ∀ p : Fin d0 × Fin d1, f p = (fieldArray d0 d1 f).get [p.1, p.2] := fun p => (fieldArray_get f p.1.isLt p.2.isLt).symm
  have h0' : ∀ i < d0, ∀ j < d1, ¬ (i < nx ∧ j < ny) → (fieldArray d0 d1 f).get [i, j] = 0 := by
    intro i hi j hj hn
    rw [fieldArray_get f hi hj]
    exact h0 _ hn
  simp_rw [e]
  rw [Fintype.sum_prod_type]
  simp only
  rw [Fin.sum_univ_eq_sum_range (fun i => ∑ y : Fin d1, (fieldArray d0 d1 f).get [i, (y : ℕ)]) d0]
  unfold total
  have hsub : range nx ⊆ range d0 := by intro i; simp; omega
  have hsub' : range ny ⊆ range d1 := by intro i; simp; omega
  rw [← sum_subset hsub]
  · refine sum_congr rfl fun i hi => ?_
    rw [Fin.sum_univ_eq_sum_range (fun j => (fieldArray d0 d1 f).get [i, j]) d1]
    refine (sum_subset hsub' fun j hj hj' => ?_).symm
    simp only [mem_range] at hi hj hj'
    exact h0' i (by omega) j hj (by omega)
  · intro i hi hi'
    rw [Fin.sum_univ_eq_sum_range (fun j => (fieldArray d0 d1 f).get [i, j]) d1]
    refine sum_eq_zero fun j hj => ?_
    simp only [mem_range] at hi hi' hj
    exact h0' i hi j hj (by omega)

lemma effective_pos {A : PipeArgs} {H : ℝ} (h : forceHardness nx ny sx sy (effectiveHardness A) = some H) (hT : ValidTopo T nx ny sx sy) :
    0 < H := by
  unfold forceHardness effectiveHardness at h
  obtain ⟨K, hK, rfl⟩ := Option.map_eq_some_iff.1 h
  have := (Option.filter_eq_some_iff.1 hK).2
  simp only [decide_eq_true_eq] at this
  have h1 := hT.sx_pos
  have h2 := hT.sy_pos
  have h3 : (0 : ℝ) < nx := by exact_mod_cast hT.nx_pos
  have h4 : (0 : ℝ) < ny := by exact_mod_cast hT.ny_pos
  positivity

/-! ## Offsets and loads -/

/-- **C60** The offsets asked for come back unchanged, in the table and in the callbacks, when `contact_mechanics` runs
its own solver. -/
theorem C60_offsets_kept (hT : ValidTopo T nx ny sx sy) (rms : NdArray ℝ → ℝ) (bisect : Bisect) (A : PipeArgs)
    (os : List ℝ) (h1 : A.offsets = some os) {R : Result} {reps : List Report}
    (h : contactMechanicsCCG T rms bisect A = (.ok R, reps)) :
    R.meanDisplacement = os ∧ (A.callback = true → reps.map (·.meanDisplacement) = os) := by
  refine C60_offsets_unchanged hT _ (default_fits hT rms bisect A) ?_ A os h1 h
  intro c r o hs ho hF
  obtain ⟨sub, d0, d1, q, -, -, hq, rfl⟩ := default_ok hT hs
  have := CCG.C41_offset_kept (o := ccgOptions bisect A.optimizerKwargs _ c) hF hq
  show q.offset = o
  rw [this]
  show c.offset.getD 0 = o
  rw [ho]; rfl

/-- **C64** (load control) With a list of pressures, every step reported as converged carries a non-zero mean pressure that
agrees with the pressure asked for within the relative tolerance `thermotol` (`1e-6` by default); the callback of the step reports the same pressure. -/
theorem C64_load_control (hT : ValidTopo T nx ny sx sy) (rms : NdArray ℝ → ℝ) (bisect : Bisect) (A : PipeArgs)
    (ps : List ℝ) (h1 : A.pressures = some ps) {R : Result} {reps : List Report}
    (h : contactMechanicsCCG T rms bisect A = (.ok R, reps)) :
    R.meanPressure.length = ps.length ∧ R.converged.length = ps.length ∧
      (A.callback = true → reps.map (·.meanPressure) = R.meanPressure) ∧
      ∀ (k : ℕ) (p m : ℝ), ps[k]? = some p → R.meanPressure[k]? = some m → R.converged[k]? = some true →
        m ≠ 0 ∧ |m - p| < A.optimizerKwargs.thermotol * |m| := by
  obtain ⟨D, hl, hr, rfl, rfl⟩ := C60_pressures hT _ (default_fits hT rms bisect A) A ps h1 h
  refine ⟨by simp [columns, hl], by simp [columns, hl], ?_, ?_⟩
  · intro hcb
    rw [if_pos hcb]
    simp only [columns, List.map_map]
    apply List.map_congr_left
    intro d hd
    exact (hr.report d hd).meanPressure
  · intro k p m hp hm hc
    simp only [columns, List.map_map, List.getElem?_map, Option.map_eq_some_iff] at hm hc
    obtain ⟨d, hd, rfl⟩ := hm
    obtain ⟨d', hd', hc⟩ := hc
    rw [hd] at hd'; cases hd'
    obtain ⟨o, F, ⟨rfl, h3⟩, h4⟩ := hr.call k d hd
    rw [hp] at h3
    have hs := hr.solved d (List.mem_of_getElem? hd)
    obtain ⟨sub, d0, d1, q, -, g, hq, hres⟩ := default_ok hT hs
    have hH : ∀ i, 0 ≤ (ccgOptions bisect A.optimizerKwargs (Fin d0 × Fin d1) d.call).hardness.at i := by
      refine hardness_nonneg fun H hH => ?_
      rw [h4] at hH
      exact (effective_pos hH hT).le
    have hF : (ccgOptions bisect A.optimizerKwargs (Fin d0 × Fin d1) d.call).externalForce = some (p * (sx * sy)) := by
      show d.call.externalForce = _
      rw [h4, h3]; rfl
    have hsucc : q.success = true := by
      have : (StepData.record nx ny sx sy d).converged = d.result.success := rfl
      simp only [Function.comp, this, hres] at hc
      exact hc
    obtain ⟨hn, hlt⟩ := CCG.C34_load_met hH (fun _ h => h) hq hF hsucc
    have hoff : ∀ p : Fin d0 × Fin d1, ¬ (p.1.val < nx ∧ p.2.val < ny) → q.jac p = 0 := by
      intro p hp
      exact CCG.jac_off hH hq p (by simp only [ccgProblem, ← Bool.decide_and]; simpa using hp)
    rw [sum_grid g.lex g.ley _ hoff] at hn hlt
    have hA : 0 < sx * sy := mul_pos hT.sx_pos hT.sy_pos
    have hval : ((fun x : Record => x.pressure) ∘ StepData.record nx ny sx sy) d
        = total nx ny (fieldArray d0 d1 q.jac) / (sx * sy) := by
      simp only [Function.comp, StepData.record, recordOf, hres]; rfl
    rw [hval]
    refine ⟨div_ne_zero hn hA.ne', ?_⟩
    have e1 : total nx ny (fieldArray d0 d1 q.jac) / (sx * sy) - p
        = (total nx ny (fieldArray d0 d1 q.jac) - p * (sx * sy)) / (sx * sy) := by
      rw [sub_div, mul_div_assoc, div_self hA.ne', mul_one]
    rw [e1, abs_div, abs_div, abs_of_pos hA, div_lt_iff₀ hA]
    have e2 : (ccgOptions bisect A.optimizerKwargs (Fin d0 × Fin d1) d.call).thermotol = A.optimizerKwargs.thermotol := rfl
    rw [e2] at hlt
    calc _ < _ := hlt
      _ = _ := by rw [mul_assoc, div_mul_cancel₀ _ hA.ne']

/-! ## Fields -/

/-- Every callback belongs to a solver result, in every mode and whether or not the calculation ends well. -/
lemma report_step (hT : ValidTopo T nx ny sx sy) (solver : Solver) (hfit : ∀ c r, solver c = .ok r → Fits nx ny r) (A : PipeArgs)
    {out : Except PyErr Result} {reps : List Report} (h : contactMechanics T solver A = (out, reps)) :
    ∀ rep ∈ reps, ∃ d : StepData, d.report = rep ∧ solver d.call = .ok d.result ∧
      (∃ o F, d.call = ⟨d.before, forceHardness nx ny sx sy (effectiveHardness A), o, F, some (pipePentol T), A.maxiter⟩) ∧
      ReportMatches nx ny sx sy (heightAfter (effectiveHardness A).isSome d.before d.result) d.result d.report ∧
      (effectiveHardness A = none → d.before = T.heights) := by
  by_cases hA : ExactlyOne A
  · have : ∀ ds : List StepData, ∀ qs, Chain nx ny sx sy T.heights (usedHardness A) (some (pipePentol T)) A.maxiter solver [] T.heights.get qs ds →
        ∀ rep ∈ (if A.callback then ds.map StepData.report else []), ∃ d : StepData, d.report = rep ∧ solver d.call = .ok d.result ∧
          (∃ o F, d.call = ⟨d.before, forceHardness nx ny sx sy (effectiveHardness A), o, F, some (pipePentol T), A.maxiter⟩) ∧
          ReportMatches nx ny sx sy (heightAfter (effectiveHardness A).isSome d.before d.result) d.result d.report ∧
          (effectiveHardness A = none → d.before = T.heights) := by
      intro ds qs hc rep hrep
      have hrep : rep ∈ ds.map StepData.report := by
        by_cases hcb : A.callback = true
        · rw [if_pos hcb] at hrep; exact hrep
        · rw [if_neg hcb] at hrep; cases hrep
      obtain ⟨d, hd, rfl⟩ := List.mem_map.1 hrep
      obtain ⟨k, hk⟩ := List.mem_iff_getElem?.1 hd
      have hlt : k < ds.length := by by_contra hcon; rw [List.getElem?_eq_none (by omega)] at hk; cases hk
      have hlt' : k < qs.length := by rw [← hc.length]; exact hlt
      have hs := (hc.get k qs[k] d (List.getElem?_eq_getElem hlt') hk).1
      rw [hardness_eq] at hs
      exact ⟨d, rfl, hs.solved, ⟨_, _, hs.call⟩, hs.report, fun hn => hs.auto (.inr hn)⟩
    rcases run_cases hT solver hfit A hA with ⟨e, h2, -⟩ | ⟨Y, ds, reps', -, e1, ⟨h2, hc⟩ | ⟨e, q, rest, done, c, -, h2, hc, -⟩⟩
    · rw [h2] at h; cases h; simp
    · rw [h2] at h
      rw [← (Prod.mk.inj h).2, e1]
      exact this ds _ hc
    · rw [h2] at h
      rw [← (Prod.mk.inj h).2, e1]
      exact this ds _ hc
  · rw [C59_argument_validation T solver A hA] at h; cases h; simp

/-- The displacement field of a solver result is what the substrate answers to minus its forces. -/
lemma ccg_response {sub : Substrate} {rms : NdArray ℝ → ℝ} {bisect : Bisect} {c : Call} {d0 d1 : ℕ} (g : Grid sub nx ny d0 d1)
    (hc : ∀ H, c.hardness = some H → 0 ≤ H) {q : CCG.Result (Fin d0 × Fin d1) ℝ}
    (hq : CCG.solve (ccgProblem sub rms d0 d1 nx ny c.heights) (ccgOptions bisect kw _ c) = .ok q)
    {f : NdArray ℝ} (hf : f.shape = [nx, ny]) (hfj : ∀ i < nx, ∀ j < ny, f.get [i, j] = -((ccgResult nx ny q).jac.get [i, j])) :
    ∃ u, sub.evaluateDisp f = .ok u ∧ u.shape = [nx, ny] ∧ ∀ i < nx, ∀ j < ny, (ccgResult nx ny q).x.get [i, j] = u.get [i, j] := by
  have hH := hardness_nonneg (kw := kw) (bisect := bisect) (ι := Fin d0 × Fin d1) hc
  have hx := (CCG.C33_displacements_are_response hH (fun _ h => h) hq).1
  have hoff : ∀ p : Fin d0 × Fin d1, ¬ (p.1.val < nx ∧ p.2.val < ny) → q.jac p = 0 := by
    intro p hp
    exact CCG.jac_off hH hq p (by simp only [ccgProblem, ← Bool.decide_and]; simpa using hp)
  obtain ⟨u, v, h1, h2, h3, h4, h5⟩ := g.embed f (fieldArray d0 d1 fun p => -(q.jac p)) hf rfl (by
    intro i hi j hj
    rw [fieldArray_get _ hi hj]
    split_ifs with hij
    · rw [hfj i hij.1 j hij.2]
      show _ = -((fieldArray d0 d1 q.jac).get [i, j])
      rw [fieldArray_get _ hi hj]
    · rw [hoff _ hij, neg_zero])
  refine ⟨u, h1, h3, fun i hi j hj => ?_⟩
  show (fieldArray d0 d1 q.x).get [i, j] = _
  have hi' := lt_of_lt_of_le hi g.lex
  have hj' := lt_of_lt_of_le hj g.ley
  rw [fieldArray_get _ hi' hj', hx, h5]
  show onGrid sub.evaluateDisp d0 d1 _ _ = _
  unfold onGrid
  rw [h2]

/-- **C147** Every callback of every calculation -- converged or not, elastic or plastic, whichever way the steps are
prescribed, and even if a later step raises -- reports displacements that are exactly what the substrate answers to the
reported pressures (times the pixel area; forces are negative when compressive). -/
theorem C147_reported_displacement (hT : ValidTopo T nx ny sx sy) (rms : NdArray ℝ → ℝ) (bisect : Bisect) (A : PipeArgs)
    {out : Except PyErr Result} {reps : List Report} (h : contactMechanicsCCG T rms bisect A = (out, reps)) :
    ∀ rep ∈ reps, ∃ sub u, makeSubstrate T A.substrate = .ok sub ∧
      sub.evaluateDisp ⟨[nx, ny], fun x => -(rep.pressure.get x * (sx * sy / (nx * ny)))⟩ = .ok u ∧
      rep.displacement.shape = [nx, ny] ∧ u.shape = [nx, ny] ∧ ∀ i < nx, ∀ j < ny, rep.displacement.get [i, j] = u.get [i, j] := by
  intro rep hrep
  obtain ⟨d, rfl, hs, ⟨o, F, hcall⟩, hr, -⟩ := report_step hT _ (default_fits hT rms bisect A) A h rep hrep
  obtain ⟨sub, d0, d1, q, hm, g, hq, hres⟩ := default_ok hT hs
  rw [hres] at hr
  have h1 := hT.sx_pos
  have h2 := hT.sy_pos
  have h3 : (0 : ℝ) < nx := by exact_mod_cast hT.nx_pos
  have h4 : (0 : ℝ) < ny := by exact_mod_cast hT.ny_pos
  obtain ⟨u, hu, hsh, hux⟩ := ccg_response g (fun H hH => by rw [hcall] at hH; exact (effective_pos hH hT).le) hq
    (f := ⟨[nx, ny], fun x => -(d.report.pressure.get x * (sx * sy / (nx * ny)))⟩) rfl (by
      intro i hi j hj
      show -(d.report.pressure.get [i, j] * _) = _
      rw [hr.pressure i hi j hj, div_mul_cancel₀ _ (by positivity)])
  exact ⟨sub, u, hm, hu, hr.shapes.1, hsh, fun i hi j hj => by rw [hr.displacement i hi j hj, hux i hi j hj]⟩

end CM.Pipe
