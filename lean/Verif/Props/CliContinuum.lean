import Verif.Spec.MaterialContinuum
import Verif.Props.CellExamples
import Verif.Props.FreePressures
import Verif.Props.Modulus
import Verif.Props.CLI4
import Verif.Props.Scale3
/-!
# Runs of the command line converge to the continuum of the material given (C201)
-/
namespace CM.Disc
open Real MeasureTheory Set Topology CM.Ref CM.Spec CM.HS CM.FFT CM.System CM.Pipe CM.Cli

variable {nx ny : ℕ} {sx sy : ℝ} {T : Topo}

/-! ## Units of pressure -/

lemma boussinesq_unit {E : ℝ} (hE : 0 < E) (q : ℝ × ℝ → ℝ) (x : ℝ × ℝ) : boussinesq 1 (fun y => q y / E) x = boussinesq E q x := by
  have hpi := pi_pos
  unfold boussinesq
  have : ∀ y : ℝ × ℝ, q y / E / away x y = E⁻¹ * (q y / away x y) := fun y => by rw [div_right_comm, div_eq_inv_mul (q y / away x y)]
  rw [integral_congr_ae (Filter.Eventually.of_forall this), integral_const_mul]
  field_simp

lemma HalfSpaceContact.unit {E d : ℝ} {H q : ℝ × ℝ → ℝ} (hE : 0 < E) (h : HalfSpaceContact E H d q) : Continuum H d (fun y => q y / E) where
  continuous := h.continuous.div_const E
  compact := by simp only [div_eq_mul_inv]; exact h.compact.mul_right
  noTension x := div_nonneg (h.noTension x) hE.le
  noPenetration x := by rw [boussinesq_unit hE]; exact h.noPenetration x
  touching x hx := by rw [boussinesq_unit hE]; exact h.touching x fun h0 => hx (by rw [h0, zero_div])

lemma unit_tsupport {E : ℝ} {q : ℝ × ℝ → ℝ} {s : Set (ℝ × ℝ)} (h : tsupport q ⊆ s) : tsupport (fun y => q y / E) ⊆ s := by
  simp only [div_eq_mul_inv]
  exact (tsupport_mul_subset_left (f := q) (g := fun _ => E⁻¹)).trans h

lemma CellContact.unit {Y ν d : ℝ} {H q v : ℝ × ℝ → ℝ} (hE : 0 < Y / (1 - ν ^ 2)) (h : CellContact Y ν sx sy H d q v) : CellContinuum sx sy H d (fun y => q y / (Y / (1 - ν ^ 2))) v where
  response := by
    obtain ⟨c1, c2, r1, r2, w⟩ := h.response
    refine ⟨c1.div_const _, c2, ⟨fun x y => ?_, fun x y => ?_⟩, r2, fun k => ?_⟩
    · rw [show q (x + size (cell sx sy) 0, y) = q (x, y) from r1.x x y]
    · rw [show q (x, y + size (cell sx sy) 1) = q (x, y) from r1.y x y]
    · set E := Y / (1 - ν ^ 2) with hEd
      have hm : contactModulus ⟨[], Y, [sx, sy], none, none, ν, none⟩ = E := rfl
      have hm1 : contactModulus (cell sx sy) = 1 := by unfold contactModulus cell; norm_num
      have hst : cellStiffness ⟨[], Y, [sx, sy], none, none, ν, none⟩ k = E * cellStiffness (cell sx sy) k := by
        unfold cellStiffness gammaStiffness
        rw [hm, hm1]
        simp only [cell]
        split_ifs
        · unfold size
          dsimp only
          ring
        · unfold size
          dsimp only
          ring
      have hc : coefficient (size (cell sx sy) 0) (size (cell sx sy) 1) (fun y => q y / E) k = coefficient (size (cell sx sy) 0) (size (cell sx sy) 1) q k / E := by
        unfold coefficient
        rw [← intervalIntegral.integral_div]
        refine intervalIntegral.integral_congr fun x _ => ?_
        beta_reduce
        rw [← intervalIntegral.integral_div]
        refine intervalIntegral.integral_congr fun y _ => ?_
        push_cast
        ring
      have w' : ((cellStiffness ⟨[], Y, [sx, sy], none, none, ν, none⟩ k : ℝ) : ℂ) * coefficient (size (cell sx sy) 0) (size (cell sx sy) 1) v k = coefficient (size (cell sx sy) 0) (size (cell sx sy) 1) q k := w k
      rw [hst] at w'
      rw [hc, eq_div_iff (by exact_mod_cast hE.ne'), ← w']
      push_cast
      ring
  noTension x := div_nonneg (h.noTension x) hE.le
  noPenetration := h.noPenetration
  touching x hx := h.touching x fun h0 => hx (by rw [h0, zero_div])

/-! ## The substrate of the command line -/

/-- The substrate of the command line answers forces like that of `contact_mechanics` forces divided by the contact modulus. -/
lemma cli_answer (hT : ValidTopo T nx ny sx sy) {A : CliArgs} (hA : ValidCli A) (hth : A.thickness = none) {sub : Substrate} (hs : cliSubstrate T A = .ok sub) :
    ∃ sub1, makeSubstrate T (some A.boundary) = .ok sub1 ∧ ∀ (p : Fin nx × Fin ny → ℝ) (a : ℝ) (u : NdArray ℝ),
      sub.evaluateDisp (fieldArray nx ny fun y => -(p y * a)) = .ok u → a = sx * sy / (nx * ny) →
      ∀ x : Fin nx × Fin ny, u.get [x.1, x.2] = answer sub1 a nx ny (fun y => p y / (A.modulus / (1 - A.poisson ^ 2))) x := by
  have hE : 0 < A.modulus / (1 - A.poisson ^ 2) := div_pos hA.modulus_pos (by nlinarith [hA.poisson_low, hA.poisson_high])
  set E := A.modulus / (1 - A.poisson ^ 2) with hEd
  have fin : ∀ {sub1 : Substrate}, makeSubstrate T (some A.boundary) = .ok sub1 →
      (∀ f : NdArray ℝ, f.shape = [nx, ny] → ∃ u u', sub1.evaluateDisp f = .ok u ∧ sub.evaluateDisp f = .ok u' ∧ ∀ i j, u'.get [i, j] = u.get [i, j] / E) →
      ∀ (p : Fin nx × Fin ny → ℝ) (a : ℝ) (u : NdArray ℝ), sub.evaluateDisp (fieldArray nx ny fun y => -(p y * a)) = .ok u → a = sx * sy / (nx * ny) →
      ∀ x : Fin nx × Fin ny, u.get [x.1, x.2] = answer sub1 a nx ny (fun y => p y / E) x := by
    intro sub1 hm h p a u hu ha x
    subst ha
    obtain ⟨v, v', h1, h2, h3⟩ := h (fieldArray nx ny fun y => -(p y * (sx * sy / (nx * ny)))) rfl
    rw [hu] at h2
    cases h2
    have hl := congrFun ((answer_posDef hT hm).1.lin E⁻¹ 0 p p) x
    have e1 : answer sub1 (sx * sy / (nx * ny)) nx ny p x = v.get [x.1, x.2] := by unfold answer; rw [h1]
    have e2 : (fun y => p y / E) = fun i => E⁻¹ * p i + 0 * p i := by funext i; ring
    rw [h3, e2, hl, e1]
    ring
  rcases cli_cases hT hA hs with ⟨hb, f1, -, hc, hv⟩ | ⟨hb, -, f1, -, hc, hv⟩
  · rw [hT.heights, hT.sizes, hth] at hc hv
    rcases make_cases hT (some A.boundary) with ⟨-, hg, -⟩ | ⟨-, -, s, hs1, hm⟩ | ⟨h0, -⟩ | ⟨h0, -⟩
    · exfalso
      have := ((C13_construct_ok_iff _).1 ⟨_, hc⟩).2.2.2.2.2.2.1 rfl rfl rfl
      simp at this
      exact hg this
    · refine ⟨_, hm, fin hm fun f hf => ?_⟩
      have hva : ValidArgs ⟨[nx, ny], 1, [sx, sy], none, none, 0, none⟩ :=
        ⟨hv.sizes_pos, one_pos, by norm_num, by norm_num, by simp⟩
      obtain ⟨⟨u, u', h1, h2, -, -, h3⟩, -⟩ := C163_stiffer_substrate hE hva hv ⟨rfl, rfl, Or.inl ⟨rfl, rfl, by unfold contactModulus; rw [hEd]; norm_num, rfl⟩⟩ hs1 hc rfl f hf
      exact ⟨u, u', h1, by unfold Substrate.evaluateDisp; rw [f1]; exact h2, h3⟩
    · rw [hb] at h0; exact absurd (show _ = _ from h0) (by simp [substrateName])
    · rw [hb] at h0; exact absurd rfl h0
  · rw [hT.heights, hT.sizes] at hc hv
    rcases make_cases hT (some A.boundary) with ⟨h0, -⟩ | ⟨h0, -⟩ | ⟨-, s, hs1, hm⟩ | ⟨-, h0, -⟩
    · rw [hb] at h0; exact absurd (show _ = _ from h0) (by simp [substrateName])
    · rw [hb] at h0; exact absurd (show _ = _ from h0) (by simp [substrateName])
    · refine ⟨_, hm, fin hm fun f hf => ?_⟩
      obtain ⟨u, u', h1, h2, -, -, h3⟩ := C163_stiffer_nonperiodic (c := E) hE (a := ⟨[nx, ny], 1, [sx, sy], none⟩) ⟨hv.sizes_pos, one_pos⟩ hv rfl rfl (by rw [mul_one]) hs1 hc rfl f hf
      exact ⟨u, u', h1, by unfold Substrate.evaluateDisp; rw [f1]; exact h2, h3⟩
    · rw [hb] at h0; exact absurd rfl h0

/-- What an elastic run writes, in units of the contact modulus, is an approximate solution of the contact problem on the substrate of `contact_mechanics`; the load in the log is the sum of the forces. -/
lemma cli_near (hT : ValidTopo T nx ny sx sy) {A : CliArgs} (hA : ValidCli A) (hth : A.thickness = none) (hha : A.hardness = none) {rms : NdArray ℝ → ℝ} {bisect : Bisect} {out : Output}
    (ho : out ∈ (hardWallCCG T rms bisect A).2) {τ : ℝ} (hw : WrittenContact T nx ny τ out) :
    NearContact T (some A.boundary) nx ny sx sy out.frame.1 τ (fun x => field nx ny out.frameFields.2 x / (sx * sy / (nx * ny)) / (A.modulus / (1 - A.poisson ^ 2))) (field nx ny out.frameFields.1) ∧
      out.log[3]? = some (∑ x, field nx ny out.frameFields.2 x) := by
  have hE : 0 < A.modulus / (1 - A.poisson ^ 2) := div_pos hA.modulus_pos (by nlinarith [hA.poisson_low, hA.poisson_high])
  have h1 : (0 : ℝ) < nx := by exact_mod_cast hT.nx_pos
  have h2 : (0 : ℝ) < ny := by exact_mod_cast hT.ny_pos
  have hsx := hT.sx_pos
  have hsy := hT.sy_pos
  set a := sx * sy / (nx * ny) with ha
  have ha0 : 0 < a := by positivity
  have hH : ∀ H, A.hardness = some H → 0 ≤ H := by rw [hha]; simp
  constructor
  · refine ⟨?_, fun x => div_nonneg (div_nonneg (hw.noTension x) ha0.le) hE.le, hw.penetration, fun x hx => hw.gap x fun h0 => hx (by rw [h0, zero_div, zero_div])⟩
    obtain ⟨d, l, n, k, -, hs, ⟨o, F, hc⟩, h⟩ := outputs_steps hT A hA _ (cli_fits hT hA rms bisect) (cli_keeps hT hA rms bisect) solverKeywords out ho
    obtain ⟨sub, d0, d1, q, hm, g, -, hq, hres⟩ := cli_ok hT hA hs
    obtain ⟨u, hu, hsh, hux⟩ := ccg_response g (force_hardness_nonneg hT hH hc) hq
      (f := fieldArray nx ny fun y => -(field nx ny out.frameFields.2 y / a * a)) rfl (by
        intro i hi j hj
        unfold fieldArray field
        simp only [hi, hj, and_self, dif_pos]
        rw [div_mul_cancel₀ _ ha0.ne', h.frameForces.2 i hi j hj, hres])
    obtain ⟨sub1, hm1, hans⟩ := cli_answer hT hA hth hm
    refine ⟨sub1, hm1, ?_⟩
    funext x
    rw [← ha, ← hans _ _ u hu ha x]
    unfold field
    rw [h.frameDispl.2 x.1 x.1.2 x.2 x.2.2, hres, hux x.1 x.1.2 x.2 x.2.2]
  · obtain ⟨ending, e, r, gp, load, pr, ar, fr, hlog, -, hload, -⟩ := C166_maps_match_log hT A hA _ (cli_fits hT hA rms bisect) (cli_keeps hT hA rms bisect) solverKeywords out ho
    rw [hlog, ← hload]
    unfold total field
    simp only [List.getElem?_cons_succ, List.getElem?_cons_zero, Option.some.injEq]
    rw [Fintype.sum_prod_type, Finset.sum_range]
    exact Finset.sum_congr rfl fun i _ => Finset.sum_range _

/-! ## Convergence -/

lemma overCell_div (q : ℝ × ℝ → ℝ) (E : ℝ) : overCell sx sy (fun y => q y / E) = overCell sx sy q / E := by
  unfold overCell
  simp only [intervalIntegral.integral_div]

lemma close_unit {E x y η : ℝ} (hE : 0 < E) (h : |x / E - y / E| ≤ η / E) : |x - y| ≤ η := by
  rwa [← sub_div, abs_div, abs_of_pos hE, div_le_div_iff_of_pos_right hE] at h

lemma unit_close {E x y η : ℝ} (hE : 0 < E) (h : |x - y| ≤ η * E) : |x / E - y / E| ≤ η := by
  rwa [← sub_div, abs_div, abs_of_pos hE, div_le_iff₀ hE]

lemma pressures_work (hT : ValidTopo T nx ny sx sy) {f φ : Fin nx × Fin ny → ℝ} {E : ℝ} :
    avg (fun x => f x / (sx * sy / (nx * ny)) / E * φ x) * (sx * sy) = (∑ x, f x * φ x) / E := by
  have h1 : (0 : ℝ) < nx := by exact_mod_cast hT.nx_pos
  have h2 : (0 : ℝ) < ny := by exact_mod_cast hT.ny_pos
  have hsx := hT.sx_pos
  have hsy := hT.sy_pos
  have e : ∀ x, f x / (sx * sy / (nx * ny)) / E * φ x = f x * φ x * ((nx * ny) / (sx * sy) / E) := fun x => by field_simp
  unfold avg
  simp only [e]
  rw [← Finset.sum_mul, Fintype.card_prod, Fintype.card_fin, Fintype.card_fin]
  push_cast
  field_simp

lemma pressures_load (hT : ValidTopo T nx ny sx sy) {f : Fin nx × Fin ny → ℝ} {E : ℝ} :
    avg (fun x => f x / (sx * sy / (nx * ny)) / E) * (sx * sy) = (∑ x, f x) / E := by
  have := pressures_work hT (f := f) (φ := fun _ => 1) (E := E)
  simpa using this

/-- **C201** (nonperiodic). Runs of the command line with the nonperiodic boundary and contact modulus `E` converge to the contact of the surface and the continuous
half-space of this material: for every bound there is an `h > 0` such that on every grid with pixels shorter than `h` along both axes, every frame an elastic run writes at the offset of the continuous
contact, and that satisfies the contact conditions within `h`, has the load of the continuous contact in the log, its displacements in the mean square, and its pressures weakly. -/
theorem C201_nonperiodic {E : ℝ} {H q φ : ℝ × ℝ → ℝ} {d : ℝ} (hE : 0 < E) (hq : HalfSpaceContact E H d q) (hin : tsupport q ⊆ inside sx sy) (hφ : Continuous φ) (hsx : 0 < sx) (hsy : 0 < sy) {η : ℝ} (hη : 0 < η) :
    ∃ h > 0, ∀ (T : Topo) (nx ny : ℕ) (rms : NdArray ℝ → ℝ) (bisect : Bisect) (A : CliArgs) (out : Output), ValidTopo T nx ny sx sy → ValidCli A → A.boundary = "nonperiodic" → A.modulus / (1 - A.poisson ^ 2) = E →
      A.hardness = none → A.thickness = none → HeightsOf H T nx ny sx sy → sx / nx < h → sy / ny < h → out ∈ (hardWallCCG T rms bisect A).2 → WrittenContact T nx ny h out →
      out.frame.1 = d → (∃ load, out.log[3]? = some load ∧ |load - ∫ y, q y| ≤ η) ∧ avg (fun x => (field nx ny out.frameFields.1 x - boussinesq E q (gridPoint (sx / nx) (sy / ny) x.1 x.2)) ^ 2) ≤ η ∧
        |∑ x, field nx ny out.frameFields.2 x * φ (gridPoint (sx / nx) (sy / ny) x.1 x.2) - ∫ y, q y * φ y| ≤ η := by
  have eT : ∫ y, q y / E = (∫ y, q y) / E := integral_div E q
  have eF : ∫ y, q y / E * φ y = (∫ y, q y * φ y) / E := by rw [← integral_div]; congr 1; funext y; ring
  obtain ⟨h1, hh1, g1⟩ := C200_load (hq.unit hE) (unit_tsupport hin) hsx hsy (div_pos hη hE)
  obtain ⟨h2, hh2, g2⟩ := C200_displacements (hq.unit hE) (unit_tsupport hin) hsx hsy hη
  obtain ⟨h3, hh3, g3⟩ := C200_pressures (hq.unit hE) (unit_tsupport hin) hφ hsx hsy (div_pos hη hE)
  refine ⟨min h1 (min h2 h3), lt_min hh1 (lt_min hh2 hh3), fun T nx ny rms bisect A out hT hA hb hm hha hth hH hx hy ho hw hd => ?_⟩
  have l1 : min h1 (min h2 h3) ≤ h1 := min_le_left _ _
  have l2 : min h1 (min h2 h3) ≤ h2 := (min_le_right _ _).trans (min_le_left _ _)
  have l3 : min h1 (min h2 h3) ≤ h3 := (min_le_right _ _).trans (min_le_right _ _)
  obtain ⟨n, hl⟩ := cli_near hT hA hth hha ho hw
  rw [hm, hb, hd] at n
  have a1 := g1 T _ nx ny _ _ hT (Or.inl rfl) hH (hx.trans_le l1) (hy.trans_le l1) (n.weaken l1)
  have a2 := g2 T _ nx ny _ _ hT (Or.inl rfl) hH (hx.trans_le l2) (hy.trans_le l2) (n.weaken l2)
  have a3 := g3 T _ nx ny _ _ hT (Or.inl rfl) hH (hx.trans_le l3) (hy.trans_le l3) (n.weaken l3)
  rw [pressures_load hT, eT] at a1
  rw [pressures_work hT, eF] at a3
  simp only [boussinesq_unit hE] at a2
  exact ⟨⟨_, hl, close_unit hE a1⟩, a2, close_unit hE a3⟩

/-- **C201** (nonperiodic, under a load). If the continuous contact carries a load, every frame of an elastic run on a fine grid whose load in the log is that of the continuous contact up to `h`, and that satisfies
the contact conditions within `h`, has the offset of the continuous contact, its displacements in the mean square, and its pressures weakly. -/
theorem C201_nonperiodic_pressed {E : ℝ} {H q φ : ℝ × ℝ → ℝ} {d : ℝ} (hE : 0 < E) (hq : HalfSpaceContact E H d q) (hin : tsupport q ⊆ inside sx sy) (hφ : Continuous φ) (hpos : 0 < ∫ y, q y) (hsx : 0 < sx) (hsy : 0 < sy) {η : ℝ} (hη : 0 < η) :
    ∃ h > 0, ∀ (T : Topo) (nx ny : ℕ) (rms : NdArray ℝ → ℝ) (bisect : Bisect) (A : CliArgs) (out : Output), ValidTopo T nx ny sx sy → ValidCli A → A.boundary = "nonperiodic" → A.modulus / (1 - A.poisson ^ 2) = E →
      A.hardness = none → A.thickness = none → HeightsOf H T nx ny sx sy → sx / nx < h → sy / ny < h → out ∈ (hardWallCCG T rms bisect A).2 → WrittenContact T nx ny h out →
      (∃ load, out.log[3]? = some load ∧ |load - ∫ y, q y| ≤ h) → |out.frame.1 - d| ≤ η ∧ avg (fun x => (field nx ny out.frameFields.1 x - boussinesq E q (gridPoint (sx / nx) (sy / ny) x.1 x.2)) ^ 2) ≤ η ∧
        |∑ x, field nx ny out.frameFields.2 x * φ (gridPoint (sx / nx) (sy / ny) x.1 x.2) - ∫ y, q y * φ y| ≤ η := by
  have eT : ∫ y, q y / E = (∫ y, q y) / E := integral_div E q
  have eF : ∫ y, q y / E * φ y = (∫ y, q y * φ y) / E := by rw [← integral_div]; congr 1; funext y; ring
  have hpos' : 0 < (∫ y, q y) / E := div_pos hpos hE
  obtain ⟨h2, hh2, g2⟩ := C200_displacements (hq.unit hE) (unit_tsupport hin) hsx hsy hη
  obtain ⟨h3, hh3, g3⟩ := C200_pressures (hq.unit hE) (unit_tsupport hin) hφ hsx hsy (div_pos hη hE)
  have hmin : 0 < min h2 h3 := lt_min hh2 hh3
  obtain ⟨h1, hh1, g1⟩ := C200_offset (hq.unit hE) (unit_tsupport hin) (by rw [eT]; exact hpos') hsx hsy (lt_min hη (half_pos hmin))
  refine ⟨min (min h1 (h1 * E)) (min h2 h3 / 2), lt_min (lt_min hh1 (mul_pos hh1 hE)) (half_pos hmin), fun T nx ny rms bisect A out hT hA hb hm hha hth hH hx hy ho hw ⟨load, hlo, hlq⟩ => ?_⟩
  have l1 : min (min h1 (h1 * E)) (min h2 h3 / 2) ≤ h1 := (min_le_left _ _).trans (min_le_left _ _)
  have l1' : min (min h1 (h1 * E)) (min h2 h3 / 2) ≤ h1 * E := (min_le_left _ _).trans (min_le_right _ _)
  have l0 : min (min h1 (h1 * E)) (min h2 h3 / 2) ≤ min h2 h3 / 2 := min_le_right _ _
  have l2 : min h2 h3 ≤ h2 := min_le_left _ _
  have l3 : min h2 h3 ≤ h3 := min_le_right _ _
  obtain ⟨n, hl⟩ := cli_near hT hA hth hha ho hw
  rw [hm, hb] at n
  rw [hl, Option.some.injEq] at hlo
  have a1 := g1 T _ nx ny _ _ _ hT (Or.inl rfl) hH (hx.trans_le l1) (hy.trans_le l1) (n.weaken l1) (by rw [pressures_load hT, eT, hlo]; exact unit_close hE (hlq.trans l1'))
  have a2 := (n.at_offset (a1.trans (min_le_right _ _))).weaken (show min (min h1 (h1 * E)) (min h2 h3 / 2) + min h2 h3 / 2 ≤ min h2 h3 by linarith)
  have l2' : min (min h1 (h1 * E)) (min h2 h3 / 2) ≤ h2 := by linarith
  have l3' : min (min h1 (h1 * E)) (min h2 h3 / 2) ≤ h3 := by linarith
  have b2 := g2 T _ nx ny _ _ hT (Or.inl rfl) hH (hx.trans_le l2') (hy.trans_le l2') (a2.weaken l2)
  have b3 := g3 T _ nx ny _ _ hT (Or.inl rfl) hH (hx.trans_le l3') (hy.trans_le l3') (a2.weaken l3)
  rw [pressures_work hT, eF] at b3
  simp only [boussinesq_unit hE] at b2
  exact ⟨a1.trans (min_le_left _ _), b2, close_unit hE b3⟩

/-- **C201** (periodic). Runs of the command line with the periodic boundary and Young's modulus `Y` and Poisson number `ν` converge to the contact of the surface and the continuous
periodic half-space of this material: for every bound there is an `h > 0` such that on every grid with pixels shorter than `h` along both axes, every frame an elastic run writes at the offset of the continuous
contact, and that satisfies the contact conditions within `h`, has the load of the continuous contact in the log, its displacements in the mean square, and its pressures weakly. -/
theorem C201_periodic {Y ν : ℝ} {H q v φ : ℝ × ℝ → ℝ} {d : ℝ} (hY : 0 < Y) (hν : |ν| < 1) (hq : CellContact Y ν sx sy H d q v) (hφ : Continuous φ) (hφr : Repeats sx sy φ) (hsx : 0 < sx) (hsy : 0 < sy) {η : ℝ} (hη : 0 < η) :
    ∃ h > 0, ∀ (T : Topo) (nx ny : ℕ) (rms : NdArray ℝ → ℝ) (bisect : Bisect) (A : CliArgs) (out : Output), ValidTopo T nx ny sx sy → ValidCli A → A.boundary = "periodic" → A.modulus = Y → A.poisson = ν →
      A.hardness = none → A.thickness = none → HeightsOf H T nx ny sx sy → sx / nx < h → sy / ny < h → out ∈ (hardWallCCG T rms bisect A).2 → WrittenContact T nx ny h out →
      out.frame.1 = d → (∃ load, out.log[3]? = some load ∧ |load - overCell sx sy q| ≤ η) ∧ avg (fun x => (field nx ny out.frameFields.1 x - v (gridPoint (sx / nx) (sy / ny) x.1 x.2)) ^ 2) ≤ η ∧
        |∑ x, field nx ny out.frameFields.2 x * φ (gridPoint (sx / nx) (sy / ny) x.1 x.2) - overCell sx sy (fun y => q y * φ y)| ≤ η := by
  have hE : 0 < Y / (1 - ν ^ 2) := div_pos hY (by nlinarith [abs_lt.1 hν])
  have eT : overCell sx sy (fun y => q y / (Y / (1 - ν ^ 2))) = overCell sx sy q / (Y / (1 - ν ^ 2)) := overCell_div q (Y / (1 - ν ^ 2))
  have eF : overCell sx sy (fun y => q y / (Y / (1 - ν ^ 2)) * φ y) = overCell sx sy (fun y => q y * φ y) / (Y / (1 - ν ^ 2)) := by rw [← overCell_div]; congr 1; funext y; ring
  obtain ⟨h1, hh1, g1⟩ := C199_load (hq.unit hE) hsx hsy (div_pos hη hE)
  obtain ⟨h2, hh2, g2⟩ := C199_displacements (hq.unit hE) hsx hsy hη
  obtain ⟨h3, hh3, g3⟩ := C199_pressures (hq.unit hE) hφ hφr hsx hsy (div_pos hη hE)
  refine ⟨min h1 (min h2 h3), lt_min hh1 (lt_min hh2 hh3), fun T nx ny rms bisect A out hT hA hb hm hn hha hth hH hx hy ho hw hd => ?_⟩
  have l1 : min h1 (min h2 h3) ≤ h1 := min_le_left _ _
  have l2 : min h1 (min h2 h3) ≤ h2 := (min_le_right _ _).trans (min_le_left _ _)
  have l3 : min h1 (min h2 h3) ≤ h3 := (min_le_right _ _).trans (min_le_right _ _)
  obtain ⟨n, hl⟩ := cli_near hT hA hth hha ho hw
  rw [hm, hn, hb, hd] at n
  have a1 := g1 T _ nx ny _ _ hT (Or.inl rfl) hH (hx.trans_le l1) (hy.trans_le l1) (n.weaken l1)
  have a2 := g2 T _ nx ny _ _ hT (Or.inl rfl) hH (hx.trans_le l2) (hy.trans_le l2) (n.weaken l2)
  have a3 := g3 T _ nx ny _ _ hT (Or.inl rfl) hH (hx.trans_le l3) (hy.trans_le l3) (n.weaken l3)
  rw [pressures_load hT, eT] at a1
  rw [pressures_work hT, eF] at a3
  exact ⟨⟨_, hl, close_unit hE a1⟩, a2, close_unit hE a3⟩

/-- **C201** (periodic, under a load). If the continuous contact carries a load, every frame of an elastic run on a fine grid whose load in the log is that of the continuous contact up to `h`, and that satisfies
the contact conditions within `h`, has the offset of the continuous contact, its displacements in the mean square, and its pressures weakly. -/
theorem C201_periodic_pressed {Y ν : ℝ} {H q v φ : ℝ × ℝ → ℝ} {d : ℝ} (hY : 0 < Y) (hν : |ν| < 1) (hq : CellContact Y ν sx sy H d q v) (hφ : Continuous φ) (hφr : Repeats sx sy φ) (hpos : 0 < overCell sx sy q) (hsx : 0 < sx) (hsy : 0 < sy) {η : ℝ} (hη : 0 < η) :
    ∃ h > 0, ∀ (T : Topo) (nx ny : ℕ) (rms : NdArray ℝ → ℝ) (bisect : Bisect) (A : CliArgs) (out : Output), ValidTopo T nx ny sx sy → ValidCli A → A.boundary = "periodic" → A.modulus = Y → A.poisson = ν →
      A.hardness = none → A.thickness = none → HeightsOf H T nx ny sx sy → sx / nx < h → sy / ny < h → out ∈ (hardWallCCG T rms bisect A).2 → WrittenContact T nx ny h out →
      (∃ load, out.log[3]? = some load ∧ |load - overCell sx sy q| ≤ h) → |out.frame.1 - d| ≤ η ∧ avg (fun x => (field nx ny out.frameFields.1 x - v (gridPoint (sx / nx) (sy / ny) x.1 x.2)) ^ 2) ≤ η ∧
        |∑ x, field nx ny out.frameFields.2 x * φ (gridPoint (sx / nx) (sy / ny) x.1 x.2) - overCell sx sy (fun y => q y * φ y)| ≤ η := by
  have hE : 0 < Y / (1 - ν ^ 2) := div_pos hY (by nlinarith [abs_lt.1 hν])
  have eT : overCell sx sy (fun y => q y / (Y / (1 - ν ^ 2))) = overCell sx sy q / (Y / (1 - ν ^ 2)) := overCell_div q (Y / (1 - ν ^ 2))
  have eF : overCell sx sy (fun y => q y / (Y / (1 - ν ^ 2)) * φ y) = overCell sx sy (fun y => q y * φ y) / (Y / (1 - ν ^ 2)) := by rw [← overCell_div]; congr 1; funext y; ring
  have hpos' : 0 < overCell sx sy q / (Y / (1 - ν ^ 2)) := div_pos hpos hE
  obtain ⟨h2, hh2, g2⟩ := C199_displacements (hq.unit hE) hsx hsy hη
  obtain ⟨h3, hh3, g3⟩ := C199_pressures (hq.unit hE) hφ hφr hsx hsy (div_pos hη hE)
  have hmin : 0 < min h2 h3 := lt_min hh2 hh3
  obtain ⟨h1, hh1, g1⟩ := C199_offset (hq.unit hE) (by rw [eT]; exact hpos') hsx hsy (lt_min hη (half_pos hmin))
  refine ⟨min (min h1 (h1 * (Y / (1 - ν ^ 2)))) (min h2 h3 / 2), lt_min (lt_min hh1 (mul_pos hh1 hE)) (half_pos hmin), fun T nx ny rms bisect A out hT hA hb hm hn hha hth hH hx hy ho hw ⟨load, hlo, hlq⟩ => ?_⟩
  have l1 : min (min h1 (h1 * (Y / (1 - ν ^ 2)))) (min h2 h3 / 2) ≤ h1 := (min_le_left _ _).trans (min_le_left _ _)
  have l1' : min (min h1 (h1 * (Y / (1 - ν ^ 2)))) (min h2 h3 / 2) ≤ h1 * (Y / (1 - ν ^ 2)) := (min_le_left _ _).trans (min_le_right _ _)
  have l0 : min (min h1 (h1 * (Y / (1 - ν ^ 2)))) (min h2 h3 / 2) ≤ min h2 h3 / 2 := min_le_right _ _
  have l2 : min h2 h3 ≤ h2 := min_le_left _ _
  have l3 : min h2 h3 ≤ h3 := min_le_right _ _
  obtain ⟨n, hl⟩ := cli_near hT hA hth hha ho hw
  rw [hm, hn, hb] at n
  rw [hl, Option.some.injEq] at hlo
  have a1 := g1 T _ nx ny _ _ _ hT (Or.inl rfl) hH (hx.trans_le l1) (hy.trans_le l1) (n.weaken l1) (by rw [pressures_load hT, eT, hlo]; exact unit_close hE (hlq.trans l1'))
  have a2 := (n.at_offset (a1.trans (min_le_right _ _))).weaken (show min (min h1 (h1 * (Y / (1 - ν ^ 2)))) (min h2 h3 / 2) + min h2 h3 / 2 ≤ min h2 h3 by linarith)
  have l2' : min (min h1 (h1 * (Y / (1 - ν ^ 2)))) (min h2 h3 / 2) ≤ h2 := by linarith
  have l3' : min (min h1 (h1 * (Y / (1 - ν ^ 2)))) (min h2 h3 / 2) ≤ h3 := by linarith
  have b2 := g2 T _ nx ny _ _ hT (Or.inl rfl) hH (hx.trans_le l2') (hy.trans_le l2') (a2.weaken l2)
  have b3 := g3 T _ nx ny _ _ hT (Or.inl rfl) hH (hx.trans_le l3') (hy.trans_le l3') (a2.weaken l3)
  rw [pressures_work hT, eF] at b3
  exact ⟨a1.trans (min_le_left _ _), b2, close_unit hE b3⟩

/-! ## The hypotheses can be met -/

lemma Continuum.material {E d : ℝ} {H q : ℝ × ℝ → ℝ} (hE : 0 < E) (h : Continuum H d q) : HalfSpaceContact E H d (fun y => E * q y) := by
  have e : ∀ x, boussinesq E (fun y => E * q y) x = boussinesq 1 q x := fun x => by
    rw [← boussinesq_unit hE]
    congr 1
    funext y
    exact mul_div_cancel_left₀ _ hE.ne'
  exact ⟨h.continuous.const_mul E, h.compact.mul_left, fun x => mul_nonneg hE.le (h.noTension x), fun x => by rw [e]; exact h.noPenetration x,
    fun x hx => by rw [e]; exact h.touching x fun h0 => hx (by rw [h0, mul_zero])⟩

/-- The flat punch on `n × n` points, and the options of a run under the pressure one. -/
lemma flat_run {n : ℕ} (hn : 1 < n) (rms : NdArray ℝ → ℝ) (bisect : Bisect) :
    ∃ out ∈ (hardWallCCG (sampled 1 1 (fun _ => 0) n) rms bisect { pentol := some (1 / 10), pressureFile := some [1] }).2,
      (∀ x : Fin n × Fin n, field n n out.frameFields.2 x = 1 / (n * n) ∧ field n n out.frameFields.1 x = 1 / π) ∧ out.frame.1 = 1 / π := by
  have hpi := pi_pos
  set T := sampled 1 1 (fun _ => 0) n with hTd
  set A : CliArgs := { pentol := some (1 / 10), pressureFile := some [1] } with hAd
  have hT : ValidTopo T n n 1 1 := ⟨rfl, rfl, by omega, by omega, one_pos, one_pos⟩
  have hv : ValidCli A := by
    refine ⟨?_, ?_, ?_, fun _ h => by cases h⟩ <;> norm_num [hAd]
  obtain ⟨outs, h1, h2⟩ := C170_pressures_return hT hn hn A hv (.inl rfl) (by norm_num [hAd]) rfl [1] (.inr (.inr ⟨rfl, rfl⟩)) rfl rms (.inl rfl) bisect
  obtain ⟨D, hD, rfl, hr⟩ := C114_pressure_run hT A hv _ (cli_fits hT hv rms bisect) solverKeywords [1] (.inr (.inr ⟨rfl, rfl⟩)) rfl h1
  obtain ⟨d, rfl⟩ : ∃ d, D = [d] := List.length_eq_one_iff.1 hD
  refine ⟨d.output, by rw [h1]; simp, ?_⟩
  obtain ⟨o, F, ⟨ho, hF⟩, hc⟩ := hr.call 0 d rfl
  have hs := hr.solved d (by simp)
  have hb := hr.elastic rfl d (by simp)
  obtain ⟨l, -, hout⟩ := hr.output 0 d rfl
  rw [hc, ho, hF, hb] at hs
  obtain ⟨sub, d0, d1, q, hm, g, hg, hq, hres⟩ := cli_ok hT hv hs
  obtain ⟨hd0, hd1⟩ : d0 = n ∧ d1 = n := by
    rcases hg with h | ⟨h, -⟩
    · exact h.2
    · exact absurd h (by rw [hAd]; decide)
  subst d0 d1
  obtain ⟨s, hcs, rfl⟩ : ∃ s, construct (periodicArgs T) = .ok s ∧ sub = ⟨s, false, false⟩ := by
    have e : cliSubstrate T A = (do pure ⟨← construct (periodicArgs T), false, false⟩) := rfl
    rw [e] at hm
    cases hc : construct (periodicArgs T) with
    | error e => rw [hc] at hm; cases hm
    | ok s => rw [hc] at hm; exact ⟨s, rfl, by cases hm; rfl⟩
  obtain ⟨κ, hP, hκ⟩ := periodic_flat hT rms hcs (h0 := 0) (fun _ _ _ _ => rfl)
  have n0 : (0 : ℝ) < n := by exact_mod_cast hT.nx_pos
  have hu : κ * (1 * (1 * 1) / (Fintype.card (Fin n × Fin n) : ℝ)) = 1 / π := by
    simp only [Fintype.card_prod, Fintype.card_fin, Nat.cast_mul]
    rw [show (1 : ℝ) * (1 * 1) / (n * n) = 1 * 1 / (n * n) by ring, hκ]
    field_simp
    norm_num
  obtain ⟨r, k1, -, k3⟩ := CCG.flat_load_above (o := ccgOptions bisect {} (Fin n × Fin n) ⟨T.heights, none, none, some (1 * (1 * 1)), some (1 / 10), 1000⟩)
    (F := 1 * (1 * 1)) (pentol := 1 / 10) hP rfl (by norm_num) rfl rfl rfl rfl rfl (by norm_num) (by norm_num [ccgOptions]) (by norm_num [ccgOptions]) (by norm_num [ccgOptions])
    (by show 3 ≤ (1000 : ℤ).toNat; decide) (by rw [hu]; exact one_div_le_one_div_of_le hpi (by linarith [pi_le_four]))
  obtain ⟨r', j1, -, -, j3, j4⟩ := CCG.C149_flat_load (o := ccgOptions bisect {} (Fin n × Fin n) ⟨T.heights, none, none, some (1 * (1 * 1)), some (1 / 10), 1000⟩)
    (F := 1 * (1 * 1)) (pentol := 1 / 10) hP rfl (by norm_num) rfl rfl rfl rfl rfl (by norm_num) (by norm_num [ccgOptions]) (by norm_num [ccgOptions])
    (by show 3 ≤ (1000 : ℤ).toNat; decide)
  have e1 : q = r := by
    have := hq.symm.trans k1
    simpa using this
  have e2 : q = r' := by
    have := hq.symm.trans j1
    simpa using this
  refine ⟨fun x => ⟨?_, ?_⟩, ?_⟩
  · unfold field
    rw [hout.frameForces.2 x.1 x.1.2 x.2 x.2.2, hres]
    show (fieldArray n n q.jac).get [x.1, x.2] = _
    rw [fieldArray_get _ x.1.2 x.2.2, e2, j3]
    simp [Fintype.card_prod]
  · unfold field
    rw [hout.frameDispl.2 x.1 x.1.2 x.2 x.2.2, hres]
    show (fieldArray n n q.x).get [x.1, x.2] = _
    rw [fieldArray_get _ x.1.2 x.2.2, e2, j4]
    exact hu
  · rw [hout.frame, hres]
    show q.offset = _
    rw [e1, k3, hu]

/-- Nonperiodic: Hertz' sphere on a material of contact modulus two. Periodic: a flat punch; runs of the command line write frames as required on every grid, however fine. -/
example (rms : NdArray ℝ → ℝ) (bisect : Bisect) : HalfSpaceContact 2 (sphere (1 / 2, 1 / 2) 1) (1 / 25) (fun y => 2 * ellipse (1 / 2, 1 / 2) 1 (1 / 25) y) ∧
    CellContact 1 0 1 1 (fun _ => 0) (1 / π) (fun _ => 1) (fun _ => 1 / π) ∧
    ∀ h > 0, ∃ n out, ValidTopo (sampled 1 1 (fun _ => 0) n) n n 1 1 ∧ HeightsOf (fun _ => 0) (sampled 1 1 (fun _ => 0) n) n n 1 1 ∧ (1 : ℝ) / n < h ∧
      ValidCli { pentol := some (1 / 10), pressureFile := some [1] } ∧
      out ∈ (hardWallCCG (sampled 1 1 (fun _ => 0) n) rms bisect { pentol := some (1 / 10), pressureFile := some [1] }).2 ∧ WrittenContact (sampled 1 1 (fun _ => 0) n) n n h out ∧
      out.frame.1 = 1 / π ∧ ∑ x, field n n out.frameFields.2 x = 1 := by
  have hpi := pi_pos
  refine ⟨(hertz_continuum _ one_pos (by norm_num)).material two_pos, ?_, fun h hh => ?_⟩
  · have h := uniform_response (sx := 1) (sy := 1) one_pos one_pos (1 / π)
    have e1 : π * (1 / 1 + 1 / 1) / 2 * (1 / π) = 1 := by field_simp; norm_num
    rw [e1] at h
    exact ⟨h, fun _ => zero_le_one, fun _ => by rw [zero_add], fun _ _ => by rw [zero_add]⟩
  · obtain ⟨N, hN⟩ := exists_nat_gt (1 / h)
    have hT : ValidTopo (sampled 1 1 (fun _ => 0) (N + 2)) (N + 2) (N + 2) 1 1 := ⟨rfl, rfl, by omega, by omega, one_pos, one_pos⟩
    obtain ⟨out, h1, h2, h3⟩ := flat_run (n := N + 2) (by omega) rms bisect
    have hw : ∀ x, wall (sampled 1 1 (fun _ => 0) (N + 2)) (N + 2) (N + 2) (1 / π) x = 1 / π := fun x => by unfold wall; exact zero_add _
    refine ⟨N + 2, out, hT, fun i j _ _ => rfl, ?_, by refine ⟨?_, ?_, ?_, fun _ h => by cases h⟩ <;> norm_num, h1, ⟨fun x => ?_, fun x => ?_, fun x _ => ?_⟩, h3, ?_⟩
    · rw [div_lt_iff₀ hh] at hN
      rw [div_lt_iff₀ (by positivity)]
      push_cast
      nlinarith
    · rw [(h2 x).1]; positivity
    · rw [h3, hw, (h2 x).2, sub_self]; exact hh.le
    · rw [h3, hw, (h2 x).2, sub_self]; exact hh.le
    · rw [Finset.sum_congr rfl fun x _ => (h2 x).1, Finset.sum_const, Finset.card_univ, Fintype.card_prod, Fintype.card_fin, nsmul_eq_mul]
      push_cast
      field_simp

end CM.Disc
