import Verif.Props.Symmetry3
import Verif.Spec.Scale
/-!
# C155 the unit of length

First for an arbitrary pair of solvers that treat the two surfaces alike, then for the package's own solver.
-/
set_option linter.unusedSimpArgs false
namespace CM.Pipe
open Finset CM.HS CM.FFT CM.System CM.Spec

variable {nx ny : ℕ} {sx sy : ℝ} {l : ℝ}

/-! ## Sums, means, extrema -/

lemma scaled_total {c : ℝ} {a a' : NdArray ℝ} (ha : Scaled c nx ny a a') : Spec.total nx ny a' = c * Spec.total nx ny a := by
  unfold Spec.total
  rw [mul_sum]
  refine sum_congr rfl fun i hi => ?_
  rw [mul_sum]
  exact sum_congr rfl fun j hj => ha i (mem_range.1 hi) j (mem_range.1 hj)

lemma scaled_nbPos {c : ℝ} (hc : 0 < c) {a a' : NdArray ℝ} (ha : Scaled c nx ny a a') : Spec.nbPos nx ny a' = Spec.nbPos nx ny a := by
  unfold Spec.nbPos
  congr 1
  refine filter_congr fun p hp => ?_
  rw [mem_product, mem_range, mem_range] at hp
  rw [ha _ hp.1 _ hp.2]
  exact mul_pos_iff_of_pos_left hc

lemma scaled_mean {c : ℝ} {a a' : NdArray ℝ} (ha : Scaled c nx ny a a') : Spec.mean nx ny a' = c * Spec.mean nx ny a := by
  have := scaled_total ha
  unfold Spec.total at this
  unfold Spec.mean
  rw [this, mul_div_assoc]

lemma scaled_max (hl : 0 < l) {a a' : NdArray ℝ} (ha : Scaled l nx ny a a') {t : ℝ} (ht : IsMaxHeight nx ny a t) : IsMaxHeight nx ny a' (l * t) := by
  obtain ⟨⟨i, hi, j, hj, e⟩, hm⟩ := ht
  exact ⟨⟨i, hi, j, hj, by rw [ha i hi j hj, e]⟩, fun k hk m hm' => by
    rw [ha k hk m hm']; exact mul_le_mul_of_nonneg_left (hm k hk m hm') hl.le⟩

lemma scaled_min (hl : 0 < l) {a a' : NdArray ℝ} (ha : Scaled l nx ny a a') {t : ℝ} (ht : IsMinHeight nx ny a t) : IsMinHeight nx ny a' (l * t) := by
  obtain ⟨⟨i, hi, j, hj, e⟩, hm⟩ := ht
  exact ⟨⟨i, hi, j, hj, by rw [ha i hi j hj, e]⟩, fun k hk m hm' => by
    rw [ha k hk m hm']; exact mul_le_mul_of_nonneg_left (hm k hk m hm') hl.le⟩

/-- A history in the other unit. -/
def History.scaled (l : ℝ) (h : History) : History := { h with disp := h.disp.map (l * ·), gap := h.gap.map (l * ·) }

lemma insert_fst (l : ℝ) (q : ℝ × ℝ) (rows : List (ℝ × ℝ)) :
    List.orderedInsert (fun a b : ℝ × ℝ => a.2 ≤ b.2) (l * q.1, q.2) (rows.map fun r => (l * r.1, r.2)) =
      (List.orderedInsert (fun a b : ℝ × ℝ => a.2 ≤ b.2) q rows).map fun r => (l * r.1, r.2) := by
  induction rows with
  | nil => rfl
  | cons r rows ih =>
    simp only [List.map_cons, List.orderedInsert]
    split_ifs <;> simp [ih]

/-- Multiplying the offsets does not change the order of the rows. -/
lemma sorted_fst (l : ℝ) (rows : List (ℝ × ℝ)) :
    sortedBy Prod.snd (rows.map fun r => (l * r.1, r.2)) = (sortedBy Prod.snd rows).map fun r => (l * r.1, r.2) := by
  unfold sortedBy
  induction rows with
  | nil => rfl
  | cons r rows ih =>
    simp only [List.map_cons, List.insertionSort_cons]
    rw [ih, insert_fst]

lemma zip_scaled (l : ℝ) : ∀ (d a : List ℝ), (d.map (l * ·)).zip a = (d.zip a).map fun r => (l * r.1, r.2)
  | [], _ => by simp
  | _ :: _, [] => by simp
  | x :: d, y :: a => by simp [zip_scaled l d a]

/-- The next offset in the other unit. -/
lemma scaled_nextOffset (hl : 0 < l) (hx : 0 < nx) (hy : 0 < ny) {a a' : NdArray ℝ} (hs : a.shape = [nx, ny]) (hs' : a'.shape = [nx, ny])
    (ha : Scaled l nx ny a a') (o : Option History) : nextOffset a' (o.map (History.scaled l)) = l * nextOffset a o := by
  have e1 : npMean a' = l * npMean a := by rw [npMean2 hs', npMean2 hs, scaled_mean ha]
  have e2 : npMax a' = l * npMax a := max_unique (npMax_top hs' hx hy) (scaled_max hl ha (npMax_top hs hx hy))
  have e3 : npMin a' = l * npMin a := min_unique (npMin_bottom hs' hx hy) (scaled_min hl ha (npMin_bottom hs hx hy))
  unfold nextOffset
  rw [e1, e2, e3, hs, hs']
  cases o with
  | none => simp
  | some h =>
    simp only [Option.map_some, History.scaled, List.length_map]
    rw [zip_scaled, sorted_fst]
    generalize sortedBy Prod.snd (h.disp.zip h.area) = rows
    have f1 : (rows.map fun r : ℝ × ℝ => (l * r.1, r.2)).map Prod.snd = rows.map Prod.snd := by simp [Function.comp_def]
    have f2 : (rows.map fun r : ℝ × ℝ => (l * r.1, r.2)).map Prod.fst = (rows.map Prod.fst).map (l * ·) := by simp [Function.comp_def]
    rw [f1, f2]
    generalize rows.map Prod.fst = sd
    have g1 : (sd.map (l * ·)).getLastD 0 = l * sd.getLastD 0 := by
      rw [List.getLastD_eq_getLast?, List.getLastD_eq_getLast?, List.getLast?_map]
      cases sd.getLast? <;> simp
    have g2 : ∀ i, (sd.map (l * ·)).getD i 0 = l * sd.getD i 0 := by
      intro i
      rw [List.getD_eq_getElem?_getD, List.getD_eq_getElem?_getD, List.getElem?_map]
      cases sd[i]? <;> simp
    rw [g1, g2, g2]
    split_ifs <;> ring

/-! ## One calculation -/

/-- Two solver results that agree up to the unit; forces are pressures times areas. -/
structure ResultScaled (l : ℝ) (nx ny : ℕ) (r r' : OptResult) : Prop where
  jac : Scaled (l ^ 2) nx ny r.jac r'.jac
  x : Scaled l nx ny r.x r'.x
  plastic : Same nx ny r.plastic r'.plastic
  offset : r'.offset = l * r.offset
  success : r'.success = r.success

/-- Two solver calls that agree up to the unit. -/
structure CallScaled (l : ℝ) (nx ny : ℕ) (q q' : Call) : Prop where
  shape : q.heights.shape = [nx, ny]
  shape' : q'.heights.shape = [nx, ny]
  heights : Scaled l nx ny q.heights q'.heights
  hardness : q'.hardness = q.hardness.map (l ^ 2 * ·)
  offset : q'.offset = q.offset.map (l * ·)
  externalForce : q'.externalForce = q.externalForce.map (l ^ 2 * ·)
  pentol : q'.pentol = q.pentol.map (l * ·)
  maxiter : q'.maxiter = q.maxiter
  tolerance : q.pentol ≠ none

/-- Two solvers that treat such calls alike (among the calls that `ok` describes). -/
def SolversScaled (l : ℝ) (nx ny : ℕ) (ok : Call → Prop) (solver solver' : Solver) : Prop :=
  ∀ q q', CallScaled l nx ny q q' → ok q →
    (∃ e, solver q = .error e ∧ solver' q' = .error e) ∨
    ∃ r r', solver q = .ok r ∧ solver' q' = .ok r' ∧ ResultScaled l nx ny r r'

/-- A row in the other unit. -/
def _root_.CM.Spec.Record.scaled (l : ℝ) (r : Record) : Record := { r with displacement := l * r.displacement, gap := l * r.gap }

lemma record_scaled (hl : 0 < l) {a a' : NdArray ℝ} (ha : Scaled l nx ny a a') {r r' : OptResult} (hr : ResultScaled l nx ny r r') :
    recordOf nx ny (l * sx) (l * sy) a' r' = (recordOf nx ny sx sy a r).scaled l := by
  unfold recordOf Spec.Record.scaled
  rw [scaled_total hr.jac, scaled_nbPos (by positivity) hr.jac, scaled_mean hr.x, scaled_mean ha, hr.offset, hr.success]
  congr 1
  · ring
  · rw [show l * sx * (l * sy) = l ^ 2 * (sx * sy) by ring, mul_div_mul_left _ _ (by positivity)]

lemma after_scaled (p : Bool) {a a' : NdArray ℝ} (ha : Scaled l nx ny a a') {r r' : OptResult} (hr : ResultScaled l nx ny r r') :
    ∀ i < nx, ∀ j < ny, heightAfter p a' r' [i, j] = l * heightAfter p a r [i, j] := by
  intro i hi j hj
  unfold heightAfter
  rw [hr.success, hr.plastic i hi j hj, hr.x i hi j hj, hr.offset, ha i hi j hj]
  split
  · ring
  · rfl

lemma report_scaled (hl : 0 < l) {k k' : List ℕ → ℝ} (hk : ∀ i < nx, ∀ j < ny, k' [i, j] = l * k [i, j]) {r r' : OptResult}
    (hr : ResultScaled l nx ny r r') {R R' : Report} (m : ReportMatches nx ny sx sy k r R) (m' : ReportMatches nx ny (l * sx) (l * sy) k' r' R') :
    ReportScaled l nx ny R R' := by
  have hl2 : l ^ 2 ≠ 0 := by positivity
  have hp : Same nx ny R.pressure R'.pressure := fun i hi j hj => by
    rw [m'.pressure i hi j hj, m.pressure i hi j hj, hr.jac i hi j hj, show l * sx * (l * sy) = l ^ 2 * (sx * sy) by ring,
      mul_div_assoc (l ^ 2) (sx * sy), mul_div_mul_left _ _ hl2]
  refine ⟨m'.shapes, fun i hi j hj => ?_, fun i hi j hj => ?_, hp, fun i hi j hj => ?_, ?_, ?_, ?_⟩
  · rw [m'.displacement i hi j hj, m.displacement i hi j hj, hr.x i hi j hj]
  · rw [m'.gap i hi j hj, m.gap i hi j hj, hr.x i hi j hj, hk i hi j hj, hr.offset, mul_max_of_nonneg _ _ hl.le, mul_zero]
    congr 1; ring
  · have e1 := m'.contacting i hi j hj
    have e2 := m.contacting i hi j hj
    rw [hp i hi j hj, ← e2] at e1
    exact Bool.eq_iff_iff.2 e1
  · rw [m'.meanDisplacement, m.meanDisplacement, hr.offset]
  · rw [m'.meanPressure, m.meanPressure, scaled_total hr.jac, show l * sx * (l * sy) = l ^ 2 * (sx * sy) by ring, mul_div_mul_left _ _ hl2]
  · rw [m'.area, m.area, scaled_nbPos (by positivity) hr.jac]

/-! ## The loop -/

/-- The same request in the other unit. -/
def Request.scaled (l : ℝ) : Request → Request
  | .offset o => .offset (l * o)
  | .force F => .force (l ^ 2 * F)
  | .auto => .auto

lemma push_scaled (h : History) (r : Record) : (h.scaled l).push (r.scaled l) = (h.push r).scaled l := by
  simp [History.scaled, History.push, Spec.Record.scaled]

/-- Two systems in the loop, the second in the other unit. -/
structure SysScaled (l : ℝ) (nx ny : ℕ) (sx sy : ℝ) (base base' : NdArray ℝ) (H : Option ℝ) (Y Y' : AnySys) : Prop where
  left : Ready nx ny sx sy base H Y
  right : Ready nx ny (l * sx) (l * sy) base' H Y'
  heights : Scaled l nx ny Y.heights Y'.heights

section
variable {base base' : NdArray ℝ} {H : Option ℝ} {ok : Call → Prop} {solver solver' : Solver} {Y Y' : AnySys}

lemma forceHardness_scaled (H : Option ℝ) : forceHardness nx ny (l * sx) (l * sy) H = (forceHardness nx ny sx sy H).map (l ^ 2 * ·) := by
  unfold forceHardness
  cases H <;> simp
  ring

/-- Everything that stays fixed in the loop. -/
structure ScaleSetting (l : ℝ) (nx ny : ℕ) (sx sy : ℝ) (base base' : NdArray ℝ) (ok : Call → Prop) (solver solver' : Solver) : Prop where
  hl : 0 < l
  hnx : 0 < nx
  hny : 0 < ny
  hsx : 0 < sx
  hsy : 0 < sy
  shape : base.shape = [nx, ny]
  shape' : base'.shape = [nx, ny]
  hbase : Scaled l nx ny base base'
  agree : SolversScaled l nx ny ok solver solver'
  fits : ∀ q r, solver q = .ok r → Fits nx ny r
  fits' : ∀ q r, solver' q = .ok r → Fits nx ny r

lemma calc_scaled (S : ScaleSetting l nx ny sx sy base base' ok solver solver') (hY : SysScaled l nx ny sx sy base base' H Y Y')
    {off ext pt : Option ℝ} (hpt : pt ≠ none) (mi : ℤ) (hok : ok ⟨Y.heights, forceHardness nx ny sx sy H, off, ext, pt, mi⟩) (o : Option History) :
    (∃ e, (contactCalculation [sx, sy] solver Y off ext o pt mi).1 = .error e ∧
      (contactCalculation [l * sx, l * sy] solver' Y' (off.map (l * ·)) (ext.map (l ^ 2 * ·)) (o.map (History.scaled l)) (pt.map (l * ·)) mi).1 = .error e) ∨
    ∃ R R' h Z Z', contactCalculation [sx, sy] solver Y off ext o pt mi = (.ok (R, h), Z) ∧
      contactCalculation [l * sx, l * sy] solver' Y' (off.map (l * ·)) (ext.map (l ^ 2 * ·)) (o.map (History.scaled l)) (pt.map (l * ·)) mi =
        (.ok (R', h.scaled l), Z') ∧
      ReportScaled l nx ny R R' ∧ SysScaled l nx ny sx sy base base' H Z Z' := by
  obtain ⟨c1, c2⟩ := calc_ready S.shape S.hnx S.hny S.hsx S.hsy hY.left solver off ext pt mi o
  obtain ⟨d1, d2⟩ := calc_ready S.shape' S.hnx S.hny (mul_pos S.hl S.hsx) (mul_pos S.hl S.hsy) hY.right solver' (off.map (l * ·))
    (ext.map (l ^ 2 * ·)) (pt.map (l * ·)) mi (o.map (History.scaled l))
  have hcall : CallScaled l nx ny ⟨Y.heights, forceHardness nx ny sx sy H, off, ext, pt, mi⟩
      ⟨Y'.heights, forceHardness nx ny (l * sx) (l * sy) H, off.map (l * ·), ext.map (l ^ 2 * ·), pt.map (l * ·), mi⟩ :=
    ⟨hY.left.shape S.shape, hY.right.shape S.shape', hY.heights, forceHardness_scaled H, rfl, rfl, rfl, rfl, hpt⟩
  rcases S.agree _ _ hcall hok with ⟨e, h1, h2⟩ | ⟨r, r', h1, h2, hr⟩
  · exact .inl ⟨e, c1 e h1, d1 e h2⟩
  · obtain ⟨R, Z, k1, k2, k3, k4⟩ := c2 r h1 (S.fits _ _ h1)
    obtain ⟨R', Z', l1, l2, l3, l4⟩ := d2 r' h2 (S.fits' _ _ h2)
    have haft := after_scaled H.isSome hY.heights hr
    refine .inr ⟨R, R', _, Z, Z', k1, ?_, report_scaled S.hl haft hr k4 l4, k2, l2, fun i hi j hj => ?_⟩
    · rw [l1, record_scaled S.hl hY.heights hr]
      congr 3
      have e : (o.map (History.scaled l)).getD .empty = (o.getD .empty).scaled l := by
        cases o <;> simp [History.scaled, History.empty]
      rw [e]
      exact push_scaled _ (recordOf nx ny sx sy Y.heights r)
    · rw [l3 i hi j hj, haft i hi j hj, k3 i hi j hj]

lemma step_scaled (S : ScaleSetting l nx ny sx sy base base' ok solver solver') (hY : SysScaled l nx ny sx sy base base' H Y Y')
    {pt : Option ℝ} (hpt : pt ≠ none) (mi : ℤ) (o : Option History) (q : Request)
    (hok : ∀ (h : NdArray ℝ) off ext, ((∃ F, q = .force F) ∨ ext = none) → ok ⟨h, forceHardness nx ny sx sy H, off, ext, pt, mi⟩) :
    (∃ e, (runStep [sx, sy] solver pt mi Y o q).1 = .error e ∧
      (runStep [l * sx, l * sy] solver' (pt.map (l * ·)) mi Y' (o.map (History.scaled l)) (q.scaled l)).1 = .error e) ∨
    ∃ R R' h Z Z', runStep [sx, sy] solver pt mi Y o q = (.ok (R, h), Z) ∧
      runStep [l * sx, l * sy] solver' (pt.map (l * ·)) mi Y' (o.map (History.scaled l)) (q.scaled l) = (.ok (R', h.scaled l), Z') ∧
      ReportScaled l nx ny R R' ∧ SysScaled l nx ny sx sy base base' H Z Z' := by
  cases q with
  | offset x => exact calc_scaled S hY (off := some x) (ext := none) hpt mi (hok _ _ _ (.inr rfl)) o
  | force F => exact calc_scaled S hY (off := none) (ext := some F) hpt mi (hok _ _ _ (.inl ⟨F, rfl⟩)) o
  | auto =>
    obtain ⟨r1, r2⟩ := reset_ready S.shape hY.left
    obtain ⟨r1', r2'⟩ := reset_ready S.shape' hY.right
    have := calc_scaled S (Y := Y.resetPlastic) (Y' := Y'.resetPlastic) ⟨r1, r1', by rw [r2, r2']; exact S.hbase⟩
      (off := some (nextOffset Y.resetPlastic.heights o)) (ext := none) hpt mi (hok _ _ _ (.inr rfl)) o
    have e : nextOffset Y'.resetPlastic.heights (o.map (History.scaled l)) = l * nextOffset Y.resetPlastic.heights o := by
      rw [r2, r2']; exact scaled_nextOffset S.hl S.hnx S.hny S.shape S.shape' S.hbase o
    unfold runStep nextContactStep Request.scaled
    dsimp only
    rw [e]
    exact this

lemma steps_scaled (S : ScaleSetting l nx ny sx sy base base' ok solver solver') {pt : Option ℝ} (hpt : pt ≠ none) (mi : ℤ) (cb : Bool) :
    ∀ (qs : List Request)
      (_ : ∀ (h : NdArray ℝ) off ext, ((∃ F, Request.force F ∈ qs) ∨ ext = none) → ok ⟨h, forceHardness nx ny sx sy H, off, ext, pt, mi⟩)
      (Y Y' : AnySys) (o : Option History), SysScaled l nx ny sx sy base base' H Y Y' →
      (runSteps [l * sx, l * sy] solver' (pt.map (l * ·)) mi cb Y' (o.map (History.scaled l)) (qs.map (Request.scaled l))).1 =
        (runSteps [sx, sy] solver pt mi cb Y o qs).1.map (Option.map (History.scaled l)) ∧
      List.Forall₂ (ReportScaled l nx ny) (runSteps [sx, sy] solver pt mi cb Y o qs).2
        (runSteps [l * sx, l * sy] solver' (pt.map (l * ·)) mi cb Y' (o.map (History.scaled l)) (qs.map (Request.scaled l))).2
  | [], _, Y, Y', o, hY => ⟨rfl, .nil⟩
  | q :: qs, hok, Y, Y', o, hY => by
    rcases step_scaled S hY hpt mi o q (fun h off ext hF => hok h off ext (hF.imp_left fun ⟨F, hF⟩ => ⟨F, by simp [hF]⟩)) with
      ⟨e, h1, h2⟩ | ⟨R, R', h, Z, Z', h1, h2, hR, hZ⟩
    · rw [List.map_cons]
      cases k1 : runStep [sx, sy] solver pt mi Y o q with
      | mk a b =>
        cases k2 : runStep [l * sx, l * sy] solver' (pt.map (l * ·)) mi Y' (o.map (History.scaled l)) (q.scaled l) with
        | mk a' b' =>
          rw [k1] at h1
          rw [k2] at h2
          dsimp only at h1 h2
          subst h1 h2
          simp only [runSteps, k1, k2]
          exact ⟨rfl, .nil⟩
    · obtain ⟨i1, i2⟩ := steps_scaled S hpt mi cb qs (fun h off ext hF => hok h off ext (hF.imp_left fun ⟨F, hF⟩ => ⟨F, by simp [hF]⟩)) Z Z' (some h) hZ
      simp only [Option.map_some] at i1 i2
      rw [List.map_cons]
      simp only [runSteps, h1, h2]
      refine ⟨i1, ?_⟩
      cases cb
      · exact i2
      · exact .cons hR i2

end

/-! ## The whole calculation -/

lemma validate_scaled (l : ℝ) (A : PipeArgs) : validate (scaledArgs l A) = validate A := by
  unfold validate scaledArgs
  simp only [Option.isNone_map, Option.isSome_map]

lemma requests_scaled {T T' : Topo} (hT : ValidTopo T nx ny sx sy) (hT' : ValidTopo T' nx ny (l * sx) (l * sy)) (A : PipeArgs) :
    requests T' (scaledArgs l A) = (requests T A).map (Request.scaled l) := by
  unfold requests scaledArgs
  cases A.offsets with
  | some os => simp [Request.scaled, Function.comp_def]
  | none =>
    cases A.pressures with
    | some ps =>
      simp only [Option.map_none, List.map_map, hT.sizes, hT'.sizes]
      refine List.map_congr_left fun p _ => ?_
      simp [Request.scaled]
      ring
    | none => simp [Request.scaled]

theorem run_scaled (hl : 0 < l) {T T' : Topo} (hT : ValidTopo T nx ny sx sy) (hT' : ValidTopo T' nx ny (l * sx) (l * sy))
    (hM : ScaledTopo l nx ny T T') (hpt : pipePentol T' = l * pipePentol T) {A : PipeArgs} {ok : Call → Prop} {solver solver' : Solver}
    (hok : ∀ (h : NdArray ℝ) off ext pt mi, (A.pressures ≠ none ∨ ext = none) → ok ⟨h, forceHardness nx ny sx sy (usedHardness A), off, ext, pt, mi⟩)
    (hsub : (∃ e, makeSubstrate T A.substrate = .error e ∧ makeSubstrate T' A.substrate = .error e) ∨
      ∃ sub sub', makeSubstrate T A.substrate = .ok sub ∧ makeSubstrate T' A.substrate = .ok sub' ∧ SolversScaled l nx ny ok solver solver')
    (fits : ∀ q r, solver q = .ok r → Fits nx ny r) (fits' : ∀ q r, solver' q = .ok r → Fits nx ny r) :
    SameInUnits l nx ny (contactMechanics T solver A) (contactMechanics T' solver' (scaledArgs l A)) := by
  unfold SameInUnits contactMechanics
  rw [validate_scaled]
  cases hv : validate A with
  | error e => exact ⟨rfl, .nil⟩
  | ok u =>
    simp only [bind, Except.bind]
    rcases hsub with ⟨e, h1, h2⟩ | ⟨sub, sub', h1, h2, hag⟩
    · rw [(system_of_substrate hT A).1 e h1, (system_of_substrate hT' (scaledArgs l A)).1 e h2]
      exact ⟨rfl, .nil⟩
    · obtain ⟨Y, hY⟩ := (system_of_substrate hT A).2 sub h1
      obtain ⟨Y', hY'⟩ := (system_of_substrate hT' (scaledArgs l A)).2 sub' h2
      obtain ⟨r1, r2⟩ := system_ready hT hY
      obtain ⟨r1', r2'⟩ := system_ready hT' hY'
      have S : ScaleSetting l nx ny sx sy T.heights T'.heights ok solver solver' :=
        ⟨hl, hT.nx_pos, hT.ny_pos, hT.sx_pos, hT.sy_pos, hT.heights, hT'.heights, hM.heights, hag, fits, fits'⟩
      have := steps_scaled S (H := usedHardness A) (pt := some (pipePentol T)) (by simp) A.maxiter A.callback (requests T A)
        (fun h off ext hF => hok h off ext _ _ (hF.imp_left fun ⟨F, hF⟩ hn => by
          unfold requests at hF
          rw [hn] at hF
          cases ho : A.offsets <;> rw [ho] at hF <;> simp at hF))
        Y Y' none ⟨r1, r1', by rw [r2, r2']; exact hM.heights⟩
      rw [hY, hY', hpt, hT.sizes, hT'.sizes, requests_scaled hT hT']
      have e1 : (scaledArgs l A).maxiter = A.maxiter := rfl
      have e2 : (scaledArgs l A).callback = A.callback := rfl
      rw [e1, e2]
      dsimp only
      simp only [Option.map_none, Option.map_some] at this
      revert this
      generalize runSteps [sx, sy] solver (some (pipePentol T)) A.maxiter A.callback Y none (requests T A) = x
      generalize runSteps [l * sx, l * sy] solver' (some (l * pipePentol T)) A.maxiter A.callback Y' none _ = x'
      obtain ⟨a, b⟩ := x
      obtain ⟨a', b'⟩ := x'
      rintro ⟨h3, h4⟩
      dsimp only at h3 h4
      subst h3
      rcases a with e | (_ | h)
      · exact ⟨rfl, h4⟩
      · exact ⟨rfl, h4⟩
      · exact ⟨rfl, h4⟩

end CM.Pipe
