import Verif.Props.Tiling2
import Verif.Props.HardWall4
import Verif.Props.FullContact
/-!
# C185 several periods of a surface: exact solutions and calculations
-/
set_option linter.unusedSectionVars false
namespace CM.Pipe
open Finset CM.HS CM.FFT CM.System CM.Spec CM.Fourier
variable {k l nx ny : ℕ} {sx sy : ℝ} {T T' : Topo}

lemma field_repeats {c : ℝ} [NeZero nx] [NeZero ny] {p : Fin nx × Fin ny → ℝ} {p' : Fin (k * nx) × Fin (l * ny) → ℝ} (h : RepeatsField c p p') (x) :
    p' x = p (folded x) + c := h (folded x) x rfl rfl

/-- **C185** (exact solution) On a periodic substrate, `k × l` periods of the exact solution for one period solve the contact problem of `k × l` periods of the surface: the
same pressures, and displacements and offset raised by a constant times the mean pressure. -/
theorem C185_exact (h : TopoPeriods k l nx ny sx sy T T') {name : Option String} (hks : name = some "periodic" ∨ (name = none ∧ T.isPeriodic = true))
    {o : ℝ} {p u : Fin nx × Fin ny → ℝ} (hex : ExactContact T name nx ny sx sy o p u) {p' u' : Fin (k * nx) × Fin (l * ny) → ℝ}
    (hp : RepeatsField 0 p p') (hu : RepeatsField (uniformShift k l sx sy * avg p) u u') :
    ExactContact T' name (k * nx) (l * ny) (k * sx) (l * sy) (o + uniformShift k l sx sy * avg p) p' u' := by
  have hT := h.one
  have hT' := h.all
  have hn : substrateName T name = "periodic" := by
    unfold substrateName
    rcases hks with rfl | ⟨rfl, h⟩
    · rfl
    · simp [h]
  have hn' : substrateName T' name = "periodic" := by
    unfold substrateName at hn ⊢; rw [h.periodic]; exact hn
  obtain ⟨sub, hm, rfl, hw⟩ := hex.solves
  have hk0 : 0 < k := Nat.pos_of_mul_pos_right hT'.nx_pos
  have hl0 : 0 < l := Nat.pos_of_mul_pos_right hT'.ny_pos
  have i1 : NeZero k := ⟨hk0.ne'⟩
  have i2 : NeZero l := ⟨hl0.ne'⟩
  have i3 : NeZero nx := ⟨hT.nx_pos.ne'⟩
  have i4 : NeZero ny := ⟨hT.ny_pos.ne'⟩
  obtain ⟨s, hc, rfl, h1⟩ : ∃ s, construct ⟨[nx, ny], 1, [sx, sy], none, none, 0, none⟩ = .ok s ∧ sub = ⟨s, false, false⟩ ∧ (1 < nx ∧ 1 < ny) := by
    rcases make_cases hT name with ⟨-, -, e⟩ | ⟨-, hg, s, hs, e⟩ | ⟨e, -⟩ | ⟨e, -⟩
    · rw [e] at hm; cases hm
    · rw [e] at hm; cases hm; exact ⟨s, hs, rfl, hg⟩
    · rw [hn] at e; exact absurd e (by decide)
    · exact absurd hn e
  obtain ⟨s', hc', hm'⟩ : ∃ s', construct ⟨[k * nx, l * ny], 1, [k * sx, l * sy], none, none, 0, none⟩ = .ok s' ∧ makeSubstrate T' name = .ok ⟨s', false, false⟩ := by
    rcases make_cases hT' name with ⟨-, e, -⟩ | ⟨-, hg, s, hs, e⟩ | ⟨e, -⟩ | ⟨e, -⟩
    · exact absurd ⟨lt_of_lt_of_le h1.1 (Nat.le_mul_of_pos_left _ hk0), lt_of_lt_of_le h1.2 (Nat.le_mul_of_pos_left _ hl0)⟩ e
    · exact ⟨s, hs, e⟩
    · rw [hn'] at e; exact absurd e (by decide)
    · exact absurd hn' e
  have hA : (k * sx) * (l * sy) / (((k * nx : ℕ) : ℝ) * ((l * ny : ℕ) : ℝ)) = sx * sy / (nx * ny) := by
    have : (k : ℝ) ≠ 0 := by exact_mod_cast hk0.ne'
    have : (l : ℝ) ≠ 0 := by exact_mod_cast hl0.ne'
    push_cast
    field_simp
  have hva : ValidArgs ⟨[nx, ny], 1, [sx, sy], none, none, 0, none⟩ := by constructor <;> simp [hT.sx_pos, hT.sy_pos]
  have hva' : ValidArgs ⟨[k * nx, l * ny], 1, [k * sx, l * sy], none, none, 0, none⟩ := by
    constructor <;> simp [hT'.sx_pos, hT'.sy_pos]
  have hP : Periods k l nx ny ⟨[nx, ny], 1, [sx, sy], none, none, 0, none⟩ ⟨[k * nx, l * ny], 1, [k * sx, l * sy], none, none, 0, none⟩ := by
    constructor <;> simp [size]
  have hF : Repeats k l nx ny (fieldArray nx ny fun y => -(p y * (sx * sy / (nx * ny)))) (fieldArray (k * nx) (l * ny) fun y => -(p' y * (sx * sy / (nx * ny)))) := by
    have := fieldArray_repeats (k := k) (l := l) fun y : Fin nx × Fin ny => -(p y * (sx * sy / (nx * ny)))
    have e : (fun y => -(p' y * (sx * sy / (nx * ny)))) = fun y => -(p (folded y) * (sx * sy / (nx * ny))) := by
      funext y; rw [field_repeats hp, add_zero]
    rw [e]; exact this
  obtain ⟨v, v', k1, k2, k3, k4, k5⟩ := C185_default_response hva hva' hP rfl rfl hc hc' hF
  have hav : -(∑ i ∈ range nx, ∑ j ∈ range ny, (fieldArray nx ny fun y => -(p y * (sx * sy / (nx * ny)))).get [i, j]) /
      (size ⟨[nx, ny], 1, [sx, sy], none, none, 0, none⟩ 0 * size ⟨[nx, ny], 1, [sx, sy], none, none, 0, none⟩ 1) = avg p := by
    have e : ∑ i ∈ range nx, ∑ j ∈ range ny, (fieldArray nx ny fun y => -(p y * (sx * sy / (nx * ny)))).get [i, j] = ∑ x : Fin nx × Fin ny, -(p x * (sx * sy / (nx * ny))) := by
      rw [Fintype.sum_prod_type, ← Fin.sum_univ_eq_sum_range (fun i => ∑ j ∈ range ny, (fieldArray nx ny fun y => -(p y * (sx * sy / (nx * ny)))).get [i, j])]
      refine sum_congr rfl fun i _ => ?_
      rw [← Fin.sum_univ_eq_sum_range (fun j => (fieldArray nx ny fun y => -(p y * (sx * sy / (nx * ny)))).get [i.val, j])]
      exact sum_congr rfl fun j _ => fieldArray_get _ i.isLt j.isLt
    rw [e, sum_neg_distrib, neg_neg, ← sum_mul]
    unfold avg
    have := hT.sx_pos.ne'
    have := hT.sy_pos.ne'
    have : (nx : ℝ) ≠ 0 := by exact_mod_cast NeZero.ne nx
    have : (ny : ℝ) ≠ 0 := by exact_mod_cast NeZero.ne ny
    simp only [size, Fintype.card_prod, Fintype.card_fin]
    push_cast
    simp
    field_simp
  have hsh : 2 / (contactModulus ⟨[nx, ny], 1, [sx, sy], none, none, 0, none⟩ * Real.pi * (1 / (k * size ⟨[nx, ny], 1, [sx, sy], none, none, 0, none⟩ 0) +
      1 / (l * size ⟨[nx, ny], 1, [sx, sy], none, none, 0, none⟩ 1))) - 2 / (contactModulus ⟨[nx, ny], 1, [sx, sy], none, none, 0, none⟩ * Real.pi *
        (1 / size ⟨[nx, ny], 1, [sx, sy], none, none, 0, none⟩ 0 + 1 / size ⟨[nx, ny], 1, [sx, sy], none, none, 0, none⟩ 1)) = uniformShift k l sx sy := by
    have e1 : size ⟨[nx, ny], 1, [sx, sy], none, none, 0, none⟩ 0 = sx := by simp [size]
    have e2 : size ⟨[nx, ny], 1, [sx, sy], none, none, 0, none⟩ 1 = sy := by simp [size]
    have e3 : contactModulus ⟨[nx, ny], 1, [sx, sy], none, none, 0, none⟩ = 1 := by simp [contactModulus]
    rw [e1, e2, e3, one_mul]; rfl
  simp only [hav, hsh] at k5
  have ha : answer ⟨s, false, false⟩ (sx * sy / (nx * ny)) nx ny p = fun x => v.get [x.1, x.2] := by
    funext x
    unfold answer
    rw [show Substrate.evaluateDisp ⟨s, false, false⟩ (fieldArray nx ny fun y => -(p y * (sx * sy / (nx * ny)))) = .ok v from k1]
  have ha' : answer ⟨s', false, false⟩ ((k * sx) * (l * sy) / (((k * nx : ℕ) : ℝ) * ((l * ny : ℕ) : ℝ))) (k * nx) (l * ny) p' =
      fun x => answer ⟨s, false, false⟩ (sx * sy / (nx * ny)) nx ny p (folded x) + uniformShift k l sx sy * avg p := by
    rw [hA, ha]
    funext x
    unfold answer
    rw [show Substrate.evaluateDisp ⟨s', false, false⟩ (fieldArray (k * nx) (l * ny) fun y => -(p' y * (sx * sy / (nx * ny)))) = .ok v' from k2]
    exact k5 _ x.1.isLt _ x.2.isLt
  have hwall : ∀ x, wall T' (k * nx) (l * ny) (o + uniformShift k l sx sy * avg p) x = wall T nx ny o (folded x) + uniformShift k l sx sy * avg p := by
    intro x
    unfold wall
    rw [h.heights.get _ x.1.isLt _ x.2.isLt]
    show _ = T.heights.get [x.1.val % nx, x.2.val % ny] + o + _
    ring
  refine ⟨⟨s', false, false⟩, hm', ?_, ?_⟩
  · rw [ha']
    funext x
    exact field_repeats hu x
  · refine ⟨fun x => ?_, fun x => ?_, fun x hx => ?_⟩
    · rw [field_repeats hp, add_zero]; exact hw.noTension _
    · rw [ha', hwall]
      have := hw.noPenetration (folded x)
      dsimp only
      linarith
    · rw [field_repeats hp, add_zero] at hx
      rw [ha', hwall]
      dsimp only
      rw [hw.touching _ hx]

lemma avg_repeats [NeZero k] [NeZero l] [NeZero nx] [NeZero ny] {p : Fin nx × Fin ny → ℝ} {p' : Fin (k * nx) × Fin (l * ny) → ℝ} (hp : RepeatsField 0 p p') : avg p' = avg p := by
  have e : p' = fun x => p (folded x) := by funext x; rw [field_repeats hp, add_zero]
  have : (k : ℝ) ≠ 0 := by exact_mod_cast NeZero.ne k
  have : (l : ℝ) ≠ 0 := by exact_mod_cast NeZero.ne l
  have : (nx : ℝ) ≠ 0 := by exact_mod_cast NeZero.ne nx
  have : (ny : ℝ) ≠ 0 := by exact_mod_cast NeZero.ne ny
  unfold avg
  rw [e, (folded_copies (k := k) (l := l)).sum p]
  simp only [Fintype.card_prod, Fintype.card_fin]
  push_cast
  field_simp

/-- **C185** (calculation) What an elastic calculation on `k × l` periods of a surface reports under some load, compared with the exact solution of one period under the same mean pressure,
repeated: the mean square error of the displacements, which are raised by a constant, is bounded by the defects (pressure across open gaps, penetration `δ`) of the report. -/
theorem C185_calculation (h : TopoPeriods k l nx ny sx sy T T') {rms : NdArray ℝ → ℝ} {bisect : Bisect} {A : PipeArgs}
    (hks : A.substrate = some "periodic" ∨ (A.substrate = none ∧ T.isPeriodic = true)) (hel : ∀ H, A.hardness = some H → H ≤ 0)
    {out : Except PyErr Result} {reps : List Report} (hrun : contactMechanicsCCG T' rms bisect A = (out, reps)) {rep : Report} (hrep : rep ∈ reps)
    (hpos : ∀ x, 0 ≤ field (k * nx) (l * ny) rep.pressure x) {δ : ℝ}
    (hδ : ∀ x, wall T' (k * nx) (l * ny) rep.meanDisplacement x - field (k * nx) (l * ny) rep.displacement x ≤ δ)
    {o : ℝ} {p u : Fin nx × Fin ny → ℝ} (hex : ExactContact T A.substrate nx ny sx sy o p u) (hload : avg p = rep.meanPressure)
    {p' u' : Fin (k * nx) × Fin (l * ny) → ℝ} (hp : RepeatsField 0 p p') (hu : RepeatsField (uniformShift k l sx sy * avg p) u u') :
    avg (fun x => (field (k * nx) (l * ny) rep.displacement x - u' x) ^ 2) ≤ max (k * sx) (l * sy) / Real.pi *
      (avg (fun x => field (k * nx) (l * ny) rep.pressure x * field (k * nx) (l * ny) rep.gap x) + δ * rep.meanPressure) := by
  have i1 : NeZero k := ⟨(Nat.pos_of_mul_pos_right h.all.nx_pos).ne'⟩
  have i2 : NeZero l := ⟨(Nat.pos_of_mul_pos_right h.all.ny_pos).ne'⟩
  have i3 : NeZero nx := ⟨h.one.nx_pos.ne'⟩
  have i4 : NeZero ny := ⟨h.one.ny_pos.ne'⟩
  refine (C157_same_load_error h.all hel hrun hrep hpos hδ (C185_exact h hks hex hp hu) ((avg_repeats hp).trans hload)).2 ?_
  rw [h.periodic]; exact hks

/-- **C185** (refuted for the displacements) The displacements reported for a flat surface under a given pressure are multiplied by the number of periods per direction that are simulated: the
number of periods is not a numerical parameter of the default substrate. -/
theorem C185_default_partial (h : TopoPeriods k k nx ny sx sy T T') (hx : 1 < nx) (hy : 1 < ny) (rms rms' : NdArray ℝ → ℝ) (bisect : Bisect) {P h0 : ℝ} (hP : 0 < P)
    (hflat : ∀ i < nx, ∀ j < ny, T.heights.get [i, j] = h0) :
    ∃ R R' rep rep', contactMechanicsCCG T rms bisect { pressures := some [P], substrate := some "periodic", callback := true } = (.ok R, [rep]) ∧
      contactMechanicsCCG T' rms' bisect { pressures := some [P], substrate := some "periodic", callback := true } = (.ok R', [rep']) ∧
      0 < rep.displacement.get [0, 0] ∧ rep'.displacement.get [0, 0] = k * rep.displacement.get [0, 0] := by
  have hk0 : 0 < k := Nat.pos_of_mul_pos_right h.all.nx_pos
  have hlx : 1 < k * nx := lt_of_lt_of_le hx (Nat.le_mul_of_pos_left _ hk0)
  have hly : 1 < k * ny := lt_of_lt_of_le hy (Nat.le_mul_of_pos_left _ hk0)
  have hflat' : ∀ i < k * nx, ∀ j < k * ny, T'.heights.get [i, j] = h0 := by
    intro i hi j hj
    rw [h.heights.get i hi j hj]
    exact hflat _ (Nat.mod_lt _ (by omega)) _ (Nat.mod_lt _ (by omega))
  obtain ⟨R, reps, h1, -, -, -, h2, h3⟩ := C149_flat_surface h.one hx hy rms bisect { pressures := some [P], substrate := some "periodic", callback := true }
    (by norm_num) (by norm_num) (by simp) (by norm_num) (.inl rfl) (by simp [ExactlyOne]) [P] rfl (by simp) (by simp [hP]) hflat
  obtain ⟨R', reps', h1', -, -, -, h2', h3'⟩ := C149_flat_surface h.all hlx hly rms' bisect { pressures := some [P], substrate := some "periodic", callback := true }
    (by norm_num) (by norm_num) (by simp) (by norm_num) (.inl rfl) (by simp [ExactlyOne]) [P] rfl (by simp) (by simp [hP]) hflat'
  obtain ⟨rep, rfl⟩ := List.length_eq_one_iff.1 (h2 rfl)
  obtain ⟨rep', rfl⟩ := List.length_eq_one_iff.1 (h2' rfl)
  refine ⟨R, R', rep, rep', h1, h1', ?_⟩
  rw [(h3 0 rep P rfl rfl 0 (by omega) 0 (by omega)).2.1, (h3' 0 rep' P rfl rfl 0 (by omega) 0 (by omega)).2.1]
  have h4 := h.one.sx_pos
  have h5 := h.one.sy_pos
  have h6 := Real.pi_pos
  have h7 : (0 : ℝ) < k := by exact_mod_cast hk0
  refine ⟨by positivity, ?_⟩
  have : 1 / (k * sx) + 1 / (k * sy) = (1 / sx + 1 / sy) / k := by field_simp
  rw [this]
  have h8 : 0 < 1 / sx + 1 / sy := by positivity
  field_simp

/-! ## The hypotheses can be met -/

/-- A surface repeated `k × l` times. -/
def repeated (k l nx ny : ℕ) (T : Topo) : Topo :=
  ⟨⟨[k * nx, l * ny], fun x => match x with
    | [i, j] => T.heights.get [i % nx, j % ny]
    | _ => 0⟩, T.physicalSizes.zipWith (· * ·) [(k : ℝ), l], T.isPeriodic, T.rmsHeight⟩

lemma repeated_periods (hT : ValidTopo T nx ny sx sy) (hk : 0 < k) (hl : 0 < l) : TopoPeriods k l nx ny sx sy T (repeated k l nx ny T) := by
  refine ⟨hT, ⟨rfl, ?_, Nat.mul_pos hk hT.nx_pos, Nat.mul_pos hl hT.ny_pos, ?_, ?_⟩, ⟨hT.heights, rfl, fun i _ j _ => rfl⟩, rfl⟩
  · unfold repeated
    rw [hT.sizes]
    simp [mul_comm]
  · have := hT.sx_pos; have : (0 : ℝ) < k := by exact_mod_cast hk
    positivity
  · have := hT.sy_pos; have : (0 : ℝ) < l := by exact_mod_cast hl
    positivity

/-- Two by two periods of a flat surface of `3 × 4` points: the reported displacement is twice that of one period. -/
example (rms rms' : NdArray ℝ → ℝ) (bisect : Bisect) :
    ∃ R R' rep rep', contactMechanicsCCG (flatTopo 7) rms bisect { pressures := some [5], substrate := some "periodic", callback := true } = (.ok R, [rep]) ∧
      contactMechanicsCCG (repeated 2 2 3 4 (flatTopo 7)) rms' bisect { pressures := some [5], substrate := some "periodic", callback := true } = (.ok R', [rep']) ∧
      0 < rep.displacement.get [0, 0] ∧ rep'.displacement.get [0, 0] = (2 : ℕ) * rep.displacement.get [0, 0] :=
  C185_default_partial (repeated_periods (flatTopo_valid 7) two_pos two_pos) (by norm_num) (by norm_num) rms rms' bisect (by norm_num) (fun _ _ _ _ => rfl)

/-- Three by two periods of a layer: forces that repeat. -/
example : ∃ s s', construct ⟨[3, 4], 2, [1, 2], none, some 5, 1 / 4, none⟩ = .ok s ∧ construct ⟨[3 * 3, 2 * 4], 2, [3, 4], none, some 5, 1 / 4, none⟩ = .ok s' ∧
    ∀ f f' : NdArray ℝ, Repeats 3 2 3 4 f f' → ∃ u u', HS.evaluateDisp s f = .ok u ∧ HS.evaluateDisp s' f' = .ok u' ∧ Repeats 3 2 3 4 u u' := by
  obtain ⟨s, hs⟩ := (C13_construct_ok_iff ⟨[3, 4], 2, [1, 2], none, some 5, 1 / 4, none⟩).mpr (by simp; norm_num)
  obtain ⟨s', hs'⟩ := (C13_construct_ok_iff ⟨[3 * 3, 2 * 4], 2, [3, 4], none, some 5, 1 / 4, none⟩).mpr (by simp; norm_num)
  refine ⟨s, s', hs, hs', fun f f' hf => (C185_response (k := 3) (l := 2) ?_ ?_ ?_ (.inl (by simp)) hs hs' hf).1⟩
  · constructor <;> simp <;> norm_num
  · constructor <;> simp <;> norm_num
  · constructor <;> simp [size] <;> norm_num

/-- Three by two periods of a rough surface on a layer, elastic or with a hardness, under six times the load: the solver ends the same way. -/
example (H : Option ℝ) (rms rms' : NdArray ℝ → ℝ) (kw : OptimizerKwargs) : ∃ s s', construct ⟨[3, 4], 2, [1, 2], none, some 5, 1 / 4, none⟩ = .ok s ∧
    construct ⟨[3 * 3, 2 * 4], 2, [3, 4], none, some 5, 1 / 4, none⟩ = .ok s' ∧
    ((∃ e, ccgSolver ⟨s, false, false⟩ rms CCG.scipyBisect kw ⟨(roughTopo true).heights, H, none, some 7, some 1, 20⟩ = .error e) ↔
      ∃ e, ccgSolver ⟨s', false, false⟩ rms' CCG.scipyBisect kw ⟨(repeated 3 2 3 4 (roughTopo true)).heights, H, none, some 42, some 1, 20⟩ = .error e) := by
  obtain ⟨s, hs⟩ := (C13_construct_ok_iff ⟨[3, 4], 2, [1, 2], none, some 5, 1 / 4, none⟩).mpr (by simp; norm_num)
  obtain ⟨s', hs'⟩ := (C13_construct_ok_iff ⟨[3 * 3, 2 * 4], 2, [3, 4], none, some 5, 1 / 4, none⟩).mpr (by simp; norm_num)
  refine ⟨s, s', hs, hs', ?_⟩
  have key := C185_solver_call (k := 3) (l := 2) (nx := 3) (ny := 4) (by constructor <;> (simp; try norm_num)) (by constructor <;> (simp; try norm_num))
    (by constructor <;> (simp [size]; try norm_num)) (.inl (by simp)) hs hs' rms rms' kw
    (q := ⟨(roughTopo true).heights, H, none, some 7, some 1, 20⟩) (q' := ⟨(repeated 3 2 3 4 (roughTopo true)).heights, H, none, some 42, some 1, 20⟩)
    ⟨⟨rfl, rfl, fun i _ j _ => rfl⟩, rfl, rfl, by norm_num, rfl, rfl⟩ (by simp)
  rcases key with ⟨e, h1, h2⟩ | ⟨r, r', h1, h2, -⟩
  · rw [h1, h2]
  · rw [h1, h2]; simp

/-- A rough surface in full contact, and three by two periods of it. -/
example : ∃ (o o' : ℝ) (p u : Fin 3 × Fin 4 → ℝ) (p' u' : Fin (3 * 3) × Fin (2 * 4) → ℝ), (∀ x, 0 < p x) ∧ ExactContact (roughTopo true) none 3 4 1 2 o p u ∧
    RepeatsField 0 p p' ∧ ExactContact (repeated 3 2 3 4 (roughTopo true)) none (3 * 3) (2 * 4) ((3 : ℕ) * 1) ((2 : ℕ) * 2) o' p' u' := by
  have hT : ValidTopo (roughTopo true) 3 4 1 2 := by constructor <;> first | rfl | norm_num
  have hm : ∃ sub, makeSubstrate (roughTopo true) none = .ok sub := by
    rcases make_cases hT none with ⟨-, h, -⟩ | ⟨-, -, s, -, h⟩ | ⟨h, -⟩ | ⟨h, -⟩
    · exact absurd (by norm_num) h
    · exact ⟨_, h⟩
    · exact absurd h (by decide)
    · exact absurd rfl h
  obtain ⟨sub, hm⟩ := hm
  obtain ⟨o, ho⟩ := C160_deep_offsets hT (.inr ⟨rfl, rfl⟩) hm
  obtain ⟨-, p, hex, hp⟩ := ho o le_rfl
  have hr : ∀ (c : ℝ) (q : Fin 3 × Fin 4 → ℝ), RepeatsField (k := 3) (l := 2) c q fun x => q (folded (k := 3) (l := 2) x) + c := by
    intro c q x x' h1 h2
    have : folded (k := 3) (l := 2) x' = x := Prod.ext (Fin.ext h1) (Fin.ext h2)
    beta_reduce
    rw [this]
  exact ⟨o, _, p, _, _, _, hp, hex, hr 0 p, C185_exact (repeated_periods hT (by norm_num) (by norm_num)) (.inr ⟨rfl, rfl⟩) hex (hr 0 p) (hr _ _)⟩

end CM.Pipe
