import Verif.Props.EndToEnd
import Verif.Props.CCG7
import Verif.Lemmas.Symmetry
import Verif.Spec.Symmetry
/-!
# C152, C153 moving a surface on its grid and in height

First for an arbitrary pair of solvers that treat the two surfaces alike, then for the package's own solver.
-/
set_option linter.unusedSimpArgs false
namespace CM.Pipe
open Finset CM.HS CM.FFT CM.System CM.Spec

variable {nx ny nx' ny' : ℕ} {sx sy sx' sy' : ℝ} {σ : ℕ × ℕ → ℕ × ℕ} {c : ℝ}

/-! ## Sums, means, extrema -/

lemma _root_.CM.Spec.Renumbers.sum {M : Type} [AddCommMonoid M] (h : Renumbers σ nx ny nx' ny') (f : ℕ → ℕ → M) :
    ∑ k ∈ range nx', ∑ l ∈ range ny', f k l = ∑ i ∈ range nx, ∑ j ∈ range ny, f (σ (i, j)).1 (σ (i, j)).2 := by
  rw [← sum_product' (range nx') (range ny') f, ← sum_product' (range nx) (range ny) fun i j => f (σ (i, j)).1 (σ (i, j)).2]
  symm
  refine sum_nbij σ ?_ ?_ ?_ (fun _ _ => rfl)
  · rintro ⟨i, j⟩ hp
    simp only [mem_product, mem_range] at hp ⊢
    exact h.maps i hp.1 j hp.2
  · rintro ⟨i, j⟩ hp ⟨k, l⟩ hq e
    simp only [coe_product, coe_range, Set.mem_prod, Set.mem_Iio] at hp hq
    obtain ⟨rfl, rfl⟩ := h.inj i hp.1 j hp.2 k hq.1 l hq.2 e
    rfl
  · rintro ⟨k, l⟩ hq
    simp only [coe_product, coe_range, Set.mem_prod, Set.mem_Iio] at hq
    obtain ⟨i, hi, j, hj, e⟩ := h.surj k hq.1 l hq.2
    exact ⟨(i, j), by simp [hi, hj], e⟩

lemma _root_.CM.Spec.Renumbers.card (h : Renumbers σ nx ny nx' ny') : nx' * ny' = nx * ny := by
  have := h.sum (fun _ _ => (1 : ℕ))
  simpa using this

lemma _root_.CM.Spec.Renumbers.total (h : Renumbers σ nx ny nx' ny') {a a' : NdArray ℝ} (ha : Carried σ nx ny a a') : Spec.total nx' ny' a' = Spec.total nx ny a := by
  unfold Spec.total
  rw [h.sum]
  exact sum_congr rfl fun i hi => sum_congr rfl fun j hj => ha i (mem_range.1 hi) j (mem_range.1 hj)

lemma _root_.CM.Spec.Renumbers.nbPos (h : Renumbers σ nx ny nx' ny') {a a' : NdArray ℝ} (ha : Carried σ nx ny a a') : Spec.nbPos nx' ny' a' = Spec.nbPos nx ny a := by
  unfold Spec.nbPos
  rw [card_filter, card_filter, sum_product, sum_product, h.sum]
  refine sum_congr rfl fun i hi => sum_congr rfl fun j hj => ?_
  rw [ha i (mem_range.1 hi) j (mem_range.1 hj)]

lemma _root_.CM.Spec.Renumbers.mean_raised (h : Renumbers σ nx ny nx' ny') (hx : 0 < nx) (hy : 0 < ny) {a a' : NdArray ℝ} (ha : Raised σ c nx ny a a') :
    Spec.mean nx' ny' a' = Spec.mean nx ny a + c := by
  unfold Spec.mean
  have hc : ((nx' : ℝ) * ny') = nx * ny := by exact_mod_cast h.card
  rw [hc, h.sum]
  have e : ∑ i ∈ range nx, ∑ j ∈ range ny, a'.get [(σ (i, j)).1, (σ (i, j)).2] = ∑ i ∈ range nx, ∑ j ∈ range ny, (a.get [i, j] + c) :=
    sum_congr rfl fun i hi => sum_congr rfl fun j hj => ha i (mem_range.1 hi) j (mem_range.1 hj)
  rw [e]
  have h1 : (nx : ℝ) ≠ 0 := by exact_mod_cast hx.ne'
  have h2 : (ny : ℝ) ≠ 0 := by exact_mod_cast hy.ne'
  simp only [sum_add_distrib, sum_const, card_range, nsmul_eq_mul]
  field_simp

lemma _root_.CM.Spec.Carried.raised {a a' : NdArray ℝ} (h : Carried σ nx ny a a') : Raised σ 0 nx ny a a' := fun i hi j hj => by rw [h i hi j hj, add_zero]

lemma _root_.CM.Spec.Renumbers.mean (h : Renumbers σ nx ny nx' ny') (hx : 0 < nx) (hy : 0 < ny) {a a' : NdArray ℝ} (ha : Carried σ nx ny a a') :
    Spec.mean nx' ny' a' = Spec.mean nx ny a := by
  rw [h.mean_raised hx hy ha.raised, add_zero]

lemma max_unique {a : NdArray ℝ} {t t' : ℝ} (h : IsMaxHeight nx ny a t) (h' : IsMaxHeight nx ny a t') : t = t' := by
  obtain ⟨⟨i, hi, j, hj, e⟩, hm⟩ := h
  obtain ⟨⟨k, hk, l, hl, e'⟩, hm'⟩ := h'
  exact le_antisymm (e ▸ hm' i hi j hj) (e' ▸ hm k hk l hl)

lemma min_unique {a : NdArray ℝ} {t t' : ℝ} (h : IsMinHeight nx ny a t) (h' : IsMinHeight nx ny a t') : t = t' := by
  obtain ⟨⟨i, hi, j, hj, e⟩, hm⟩ := h
  obtain ⟨⟨k, hk, l, hl, e'⟩, hm'⟩ := h'
  exact le_antisymm (e' ▸ hm k hk l hl) (e ▸ hm' i hi j hj)

lemma _root_.CM.Spec.Renumbers.max (h : Renumbers σ nx ny nx' ny') {a a' : NdArray ℝ} (ha : Carried σ nx ny a a') {t : ℝ} (ht : IsMaxHeight nx ny a t) :
    IsMaxHeight nx' ny' a' t := by
  obtain ⟨⟨i, hi, j, hj, e⟩, hm⟩ := ht
  refine ⟨⟨_, (h.maps i hi j hj).1, _, (h.maps i hi j hj).2, by rw [ha i hi j hj, e]⟩, fun k hk l hl => ?_⟩
  obtain ⟨i, hi, j, hj, e⟩ := h.surj k hk l hl
  have := ha i hi j hj
  rw [e] at this
  rw [this]; exact hm i hi j hj

lemma _root_.CM.Spec.Renumbers.min (h : Renumbers σ nx ny nx' ny') {a a' : NdArray ℝ} (ha : Carried σ nx ny a a') {t : ℝ} (ht : IsMinHeight nx ny a t) :
    IsMinHeight nx' ny' a' t := by
  obtain ⟨⟨i, hi, j, hj, e⟩, hm⟩ := ht
  refine ⟨⟨_, (h.maps i hi j hj).1, _, (h.maps i hi j hj).2, by rw [ha i hi j hj, e]⟩, fun k hk l hl => ?_⟩
  obtain ⟨i, hi, j, hj, e⟩ := h.surj k hk l hl
  have := ha i hi j hj
  rw [e] at this
  rw [this]; exact hm i hi j hj

/-- The next offset is the same for a moved surface. -/
lemma _root_.CM.Spec.Renumbers.nextOffset (h : Renumbers σ nx ny nx' ny') (hx : 0 < nx) (hy : 0 < ny) {a a' : NdArray ℝ} (hs : a.shape = [nx, ny])
    (hs' : a'.shape = [nx', ny']) (ha : Carried σ nx ny a a') (o : Option History) : Pipe.nextOffset a' o = Pipe.nextOffset a o := by
  have hc := h.card
  have hp : 0 < nx' * ny' := by rw [hc]; positivity
  have hx' : 0 < nx' := Nat.pos_of_mul_pos_right hp
  have hy' : 0 < ny' := Nat.pos_of_mul_pos_left hp
  have e1 : npMean a' = npMean a := by rw [npMean2 hs', npMean2 hs, h.mean hx hy ha]
  have e2 : npMax a' = npMax a := max_unique (npMax_top hs' hx' hy') (h.max ha (npMax_top hs hx hy))
  have e3 : npMin a' = npMin a := min_unique (npMin_bottom hs' hx' hy') (h.min ha (npMin_bottom hs hx hy))
  have e4 : a'.shape.prod = a.shape.prod := by rw [hs, hs']; simpa using hc
  unfold Pipe.nextOffset
  rw [e1, e2, e3, e4]

/-! ## One calculation -/

/-- Two solver results that agree up to the renumbering; the offset is lower by `c`. -/
structure ResultCarried (σ : ℕ × ℕ → ℕ × ℕ) (c : ℝ) (nx ny : ℕ) (r r' : OptResult) : Prop where
  jac : Carried σ nx ny r.jac r'.jac
  x : Carried σ nx ny r.x r'.x
  plastic : Carried σ nx ny r.plastic r'.plastic
  offset : r'.offset = r.offset - c
  success : r'.success = r.success

/-- Two solver calls that agree up to the renumbering, the second with the surface raised by `c` and the offset lowered by `c`. -/
structure CallCarried (σ : ℕ × ℕ → ℕ × ℕ) (c : ℝ) (nx ny nx' ny' : ℕ) (q q' : Call) : Prop where
  shape : q.heights.shape = [nx, ny]
  shape' : q'.heights.shape = [nx', ny']
  heights : Raised σ c nx ny q.heights q'.heights
  hardness : q'.hardness = q.hardness
  offset : q'.offset = q.offset.map (· - c)
  externalForce : q'.externalForce = q.externalForce
  pentol : q'.pentol = q.pentol
  maxiter : q'.maxiter = q.maxiter
  given : c = 0 ∨ (q.offset ≠ none ∧ q.externalForce = none)
  tolerance : q.pentol ≠ none

/-- Two solvers that treat such calls alike. -/
def SolversAgree (σ : ℕ × ℕ → ℕ × ℕ) (c : ℝ) (nx ny nx' ny' : ℕ) (solver solver' : Solver) : Prop :=
  ∀ q q', CallCarried σ c nx ny nx' ny' q q' →
    (∃ e, solver q = .error e ∧ solver' q' = .error e) ∨
    ∃ r r', solver q = .ok r ∧ solver' q' = .ok r' ∧ ResultCarried σ c nx ny r r'

lemma record_carried (h : Renumbers σ nx ny nx' ny') (hx : 0 < nx) (hy : 0 < ny) (hA : sx' * sy' = sx * sy) {a a' : NdArray ℝ}
    (ha : Raised σ c nx ny a a') {r r' : OptResult} (hr : ResultCarried σ c nx ny r r') :
    recordOf nx' ny' sx' sy' a' r' = { recordOf nx ny sx sy a r with displacement := r.offset - c } := by
  have hc : ((nx' : ℝ) * ny') = nx * ny := by exact_mod_cast h.card
  unfold recordOf
  rw [h.total hr.jac, h.nbPos hr.jac, h.mean hx hy hr.x, h.mean_raised hx hy ha, hr.offset, hr.success, hA, hc]
  congr 1
  ring

lemma after_carried (p : Bool) {a a' : NdArray ℝ} (ha : Raised σ c nx ny a a') {r r' : OptResult} (hr : ResultCarried σ c nx ny r r') :
    ∀ i < nx, ∀ j < ny, heightAfter p a' r' [(σ (i, j)).1, (σ (i, j)).2] = heightAfter p a r [i, j] + c := by
  intro i hi j hj
  unfold heightAfter
  rw [hr.success, hr.plastic i hi j hj, hr.x i hi j hj, hr.offset, ha i hi j hj]
  split
  · ring
  · rfl

lemma report_carried (h : Renumbers σ nx ny nx' ny') (hA : sx' * sy' = sx * sy) {k k' : List ℕ → ℝ}
    (hk : ∀ i < nx, ∀ j < ny, k' [(σ (i, j)).1, (σ (i, j)).2] = k [i, j] + c) {r r' : OptResult} (hr : ResultCarried σ c nx ny r r')
    {R R' : Report} (m : ReportMatches nx ny sx sy k r R) (m' : ReportMatches nx' ny' sx' sy' k' r' R') :
    ReportCarried σ c nx ny nx' ny' R R' := by
  have hc : ((nx' : ℝ) * ny') = nx * ny := by exact_mod_cast h.card
  have hp : Carried σ nx ny R.pressure R'.pressure := fun i hi j hj => by
    obtain ⟨b1, b2⟩ := h.maps i hi j hj
    rw [m'.pressure _ b1 _ b2, m.pressure i hi j hj, hr.jac i hi j hj, hA, hc]
  refine ⟨m'.shapes, fun i hi j hj => ?_, fun i hi j hj => ?_, hp, fun i hi j hj => ?_, ?_, ?_, ?_⟩
  · obtain ⟨b1, b2⟩ := h.maps i hi j hj
    rw [m'.displacement _ b1 _ b2, m.displacement i hi j hj, hr.x i hi j hj]
  · obtain ⟨b1, b2⟩ := h.maps i hi j hj
    rw [m'.gap _ b1 _ b2, m.gap i hi j hj, hr.x i hi j hj, hk i hi j hj, hr.offset]
    congr 1; ring
  · obtain ⟨b1, b2⟩ := h.maps i hi j hj
    have e1 := m'.contacting _ b1 _ b2
    have e2 := m.contacting i hi j hj
    rw [hp i hi j hj, ← e2] at e1
    exact Bool.eq_iff_iff.2 e1
  · rw [m'.meanDisplacement, m.meanDisplacement, hr.offset]
  · rw [m'.meanPressure, m.meanPressure, h.total hr.jac, hA]
  · rw [m'.area, m.area, h.nbPos hr.jac, hc]

/-! ## The loop -/

/-- The same request for a surface raised by `c`; loads and automatic steps are compared for `c = 0` only. -/
inductive RequestCarried (c : ℝ) : Request → Request → Prop
  | offset (o : ℝ) : RequestCarried c (.offset o) (.offset (o - c))
  | force (F : ℝ) (h : c = 0) : RequestCarried c (.force F) (.force F)
  | auto (h : c = 0) : RequestCarried c .auto .auto

/-- A history with all offsets lower by `c`. -/
def History.lowered (c : ℝ) (h : History) : History := { h with disp := h.disp.map (· - c) }

lemma lowered_zero (h : History) : h.lowered 0 = h := by simp [History.lowered]

lemma push_lowered (h : History) (r : Record) :
    (h.lowered c).push { r with displacement := r.displacement - c } = (h.push r).lowered c := by
  simp [History.lowered, History.push]

/-- Two systems in the loop, the second on the moved surface. -/
structure SysCarried (σ : ℕ × ℕ → ℕ × ℕ) (c : ℝ) (nx ny nx' ny' : ℕ) (sx sy sx' sy' : ℝ) (base base' : NdArray ℝ) (H : Option ℝ) (Y Y' : AnySys) : Prop where
  left : Ready nx ny sx sy base H Y
  right : Ready nx' ny' sx' sy' base' H Y'
  heights : Raised σ c nx ny Y.heights Y'.heights

section
variable {base base' : NdArray ℝ} {H : Option ℝ} {solver solver' : Solver} {Y Y' : AnySys}

lemma forceHardness_carried (h : Renumbers σ nx ny nx' ny') (hA : sx' * sy' = sx * sy) (H : Option ℝ) :
    forceHardness nx' ny' sx' sy' H = forceHardness nx ny sx sy H := by
  have hc : ((nx' : ℝ) * ny') = nx * ny := by exact_mod_cast h.card
  unfold forceHardness
  rw [hA, hc]

/-- Everything that stays fixed in the loop. -/
structure Setting (σ : ℕ × ℕ → ℕ × ℕ) (c : ℝ) (nx ny nx' ny' : ℕ) (sx sy sx' sy' : ℝ) (base base' : NdArray ℝ) (solver solver' : Solver) : Prop where
  ren : Renumbers σ nx ny nx' ny'
  hnx : 0 < nx
  hny : 0 < ny
  hnx' : 0 < nx'
  hny' : 0 < ny'
  hsx : 0 < sx
  hsy : 0 < sy
  hsx' : 0 < sx'
  hsy' : 0 < sy'
  area : sx' * sy' = sx * sy
  shape : base.shape = [nx, ny]
  shape' : base'.shape = [nx', ny']
  hbase : Raised σ c nx ny base base'
  agree : SolversAgree σ c nx ny nx' ny' solver solver'
  fits : ∀ q r, solver q = .ok r → Fits nx ny r
  fits' : ∀ q r, solver' q = .ok r → Fits nx' ny' r

lemma calc_carried (S : Setting σ c nx ny nx' ny' sx sy sx' sy' base base' solver solver') (hY : SysCarried σ c nx ny nx' ny' sx sy sx' sy' base base' H Y Y')
    {off ext pt : Option ℝ} (hg : c = 0 ∨ (off ≠ none ∧ ext = none)) (hpt : pt ≠ none) (mi : ℤ) (o : Option History) :
    (∃ e, (contactCalculation [sx, sy] solver Y off ext o pt mi).1 = .error e ∧
      (contactCalculation [sx', sy'] solver' Y' (off.map (· - c)) ext (o.map (History.lowered c)) pt mi).1 = .error e) ∨
    ∃ R R' h Z Z', contactCalculation [sx, sy] solver Y off ext o pt mi = (.ok (R, h), Z) ∧
      contactCalculation [sx', sy'] solver' Y' (off.map (· - c)) ext (o.map (History.lowered c)) pt mi = (.ok (R', h.lowered c), Z') ∧
      ReportCarried σ c nx ny nx' ny' R R' ∧ SysCarried σ c nx ny nx' ny' sx sy sx' sy' base base' H Z Z' := by
  obtain ⟨c1, c2⟩ := calc_ready S.shape S.hnx S.hny S.hsx S.hsy hY.left solver off ext pt mi o
  obtain ⟨d1, d2⟩ := calc_ready S.shape' S.hnx' S.hny' S.hsx' S.hsy' hY.right solver' (off.map (· - c)) ext pt mi (o.map (History.lowered c))
  have hcall : CallCarried σ c nx ny nx' ny' ⟨Y.heights, forceHardness nx ny sx sy H, off, ext, pt, mi⟩
      ⟨Y'.heights, forceHardness nx' ny' sx' sy' H, off.map (· - c), ext, pt, mi⟩ :=
    ⟨hY.left.shape S.shape, hY.right.shape S.shape', hY.heights, forceHardness_carried S.ren S.area H, rfl, rfl, rfl, rfl, hg, hpt⟩
  rcases S.agree _ _ hcall with ⟨e, h1, h2⟩ | ⟨r, r', h1, h2, hr⟩
  · exact .inl ⟨e, c1 e h1, d1 e h2⟩
  · obtain ⟨R, Z, k1, k2, k3, k4⟩ := c2 r h1 (S.fits _ _ h1)
    obtain ⟨R', Z', l1, l2, l3, l4⟩ := d2 r' h2 (S.fits' _ _ h2)
    have haft := after_carried H.isSome hY.heights hr
    refine .inr ⟨R, R', _, Z, Z', k1, ?_, report_carried S.ren S.area haft hr k4 l4, k2, l2, fun i hi j hj => ?_⟩
    · rw [l1, record_carried S.ren S.hnx S.hny S.area hY.heights hr]
      congr 3
      have e : (o.map (History.lowered c)).getD .empty = (o.getD .empty).lowered c := by
        cases o <;> simp [History.lowered, History.empty]
      rw [e]
      exact push_lowered _ (recordOf nx ny sx sy Y.heights r)
    · obtain ⟨b1, b2⟩ := S.ren.maps i hi j hj
      rw [l3 _ b1 _ b2, haft i hi j hj, k3 i hi j hj]

lemma step_carried (S : Setting σ c nx ny nx' ny' sx sy sx' sy' base base' solver solver') (hY : SysCarried σ c nx ny nx' ny' sx sy sx' sy' base base' H Y Y')
    {pt : Option ℝ} (hpt : pt ≠ none) (mi : ℤ) (o : Option History) {q q' : Request} (hq : RequestCarried c q q') :
    (∃ e, (runStep [sx, sy] solver pt mi Y o q).1 = .error e ∧ (runStep [sx', sy'] solver' pt mi Y' (o.map (History.lowered c)) q').1 = .error e) ∨
    ∃ R R' h Z Z', runStep [sx, sy] solver pt mi Y o q = (.ok (R, h), Z) ∧
      runStep [sx', sy'] solver' pt mi Y' (o.map (History.lowered c)) q' = (.ok (R', h.lowered c), Z') ∧
      ReportCarried σ c nx ny nx' ny' R R' ∧ SysCarried σ c nx ny nx' ny' sx sy sx' sy' base base' H Z Z' := by
  cases hq with
  | offset x => exact calc_carried S hY (off := some x) (ext := none) (.inr (by simp)) hpt mi o
  | force F h0 => exact calc_carried S hY (off := none) (ext := some F) (.inl h0) hpt mi o
  | auto h0 =>
    subst h0
    obtain ⟨r1, r2⟩ := reset_ready S.shape hY.left
    obtain ⟨r1', r2'⟩ := reset_ready S.shape' hY.right
    have hb : Carried σ nx ny base base' := fun i hi j hj => by rw [S.hbase i hi j hj, add_zero]
    have hm : (o.map (History.lowered 0)) = o := by cases o <;> simp [lowered_zero]
    have := calc_carried S (Y := Y.resetPlastic) (Y' := Y'.resetPlastic) ⟨r1, r1', by rw [r2, r2']; exact S.hbase⟩
      (off := some (Pipe.nextOffset Y.resetPlastic.heights o)) (ext := none) (.inl rfl) hpt mi o
    have e : Pipe.nextOffset Y'.resetPlastic.heights o = Pipe.nextOffset Y.resetPlastic.heights o := by
      rw [r2, r2']; exact S.ren.nextOffset S.hnx S.hny S.shape S.shape' hb o
    simp only [Option.map_some, sub_zero] at this
    unfold runStep nextContactStep
    dsimp only
    rw [hm] at this ⊢
    rw [e]
    exact this

lemma steps_carried (S : Setting σ c nx ny nx' ny' sx sy sx' sy' base base' solver solver') {pt : Option ℝ} (hpt : pt ≠ none) (mi : ℤ) (cb : Bool) :
    ∀ {qs qs' : List Request}, List.Forall₂ (RequestCarried c) qs qs' → ∀ (Y Y' : AnySys) (o : Option History),
      SysCarried σ c nx ny nx' ny' sx sy sx' sy' base base' H Y Y' →
      (runSteps [sx', sy'] solver' pt mi cb Y' (o.map (History.lowered c)) qs').1 =
        (runSteps [sx, sy] solver pt mi cb Y o qs).1.map (Option.map (History.lowered c)) ∧
      List.Forall₂ (ReportCarried σ c nx ny nx' ny') (runSteps [sx, sy] solver pt mi cb Y o qs).2
        (runSteps [sx', sy'] solver' pt mi cb Y' (o.map (History.lowered c)) qs').2
  | _, _, .nil, Y, Y', o, hY => ⟨rfl, .nil⟩
  | _, _, .cons (a := q) (b := q') (l₁ := qs) (l₂ := qs') hq hqs, Y, Y', o, hY => by
    rcases step_carried S hY hpt mi o hq with ⟨e, h1, h2⟩ | ⟨R, R', h, Z, Z', h1, h2, hR, hZ⟩
    · cases k1 : runStep [sx, sy] solver pt mi Y o q with
      | mk a b =>
        cases k2 : runStep [sx', sy'] solver' pt mi Y' (o.map (History.lowered c)) q' with
        | mk a' b' =>
          rw [k1] at h1
          rw [k2] at h2
          dsimp only at h1 h2
          subst h1 h2
          simp only [runSteps, k1, k2]
          exact ⟨rfl, .nil⟩
    · obtain ⟨i1, i2⟩ := steps_carried S hpt mi cb hqs Z Z' (some h) hZ
      simp only [Option.map_some] at i1 i2
      simp only [runSteps, h1, h2]
      refine ⟨i1, ?_⟩
      cases cb
      · exact i2
      · exact .cons hR i2

end

/-! ## The whole calculation -/

/-- The same arguments for a surface raised by `c`: prescribed offsets are lower by `c`. -/
def loweredArgs (c : ℝ) (A : PipeArgs) : PipeArgs := { A with offsets := A.offsets.map (List.map (· - c)) }

lemma loweredArgs_zero (A : PipeArgs) : loweredArgs 0 A = A := by
  unfold loweredArgs
  have : A.offsets.map (List.map (· - (0 : ℝ))) = A.offsets := by cases A.offsets <;> simp
  rw [this]

lemma lowered_zero_result (R : Result) : lowered 0 R = R := by simp [lowered]

lemma validate_lowered (c : ℝ) (A : PipeArgs) : validate (loweredArgs c A) = validate A := by
  unfold validate loweredArgs
  simp only [Option.isNone_map, Option.isSome_map]

lemma requests_carried {T T' : Topo} {A : PipeArgs} (hc : c = 0 ∨ A.offsets ≠ none) (hA : T'.physicalSizes.prod = T.physicalSizes.prod) :
    List.Forall₂ (RequestCarried c) (requests T A) (requests T' (loweredArgs c A)) := by
  unfold requests loweredArgs
  cases h : A.offsets with
  | some os =>
    simp only [Option.map_some, List.map_map]
    rw [List.forall₂_map_left_iff, List.forall₂_map_right_iff]
    exact List.forall₂_same.2 fun x _ => .offset x
  | none =>
    have h0 : c = 0 := hc.resolve_right (by simp [h])
    cases A.pressures with
    | some ps =>
      simp only [Option.map_none, hA]
      rw [List.forall₂_map_left_iff, List.forall₂_map_right_iff]
      exact List.forall₂_same.2 fun x _ => .force _ h0
    | none =>
      simp only [Option.map_none]
      exact List.forall₂_same.2 fun x hx => by rw [List.eq_of_mem_replicate hx]; exact .auto h0

lemma system_of_substrate {T : Topo} (hT : ValidTopo T nx ny sx sy) (A : PipeArgs) :
    (∀ e, makeSubstrate T A.substrate = .error e → makePipeSystem T A = .error e) ∧
    (∀ sub, makeSubstrate T A.substrate = .ok sub → ∃ Y, makePipeSystem T A = .ok Y) := by
  unfold makePipeSystem
  constructor
  · intro e h
    rw [h]; rfl
  · intro sub h
    obtain ⟨h1, -, -⟩ := substrate_ready hT h
    obtain ⟨S, k1, -⟩ := (C56_incompatible_resolution_iff sub T.heights).2 (hT.heights.trans h1.symm)
    rw [h]
    simp only [bind, Except.bind, k1]
    cases usedHardness A <;> exact ⟨_, rfl⟩

theorem run_carried {T T' : Topo} (hT : ValidTopo T nx ny sx sy) (hT' : ValidTopo T' nx' ny' sx' sy') (ren : Renumbers σ nx ny nx' ny')
    (hA : sx' * sy' = sx * sy) (hn : (nx' : ℝ) + ny' = nx + ny) (hrms : T'.rmsHeight = T.rmsHeight) (hh : Raised σ c nx ny T.heights T'.heights)
    {A : PipeArgs} (hc : c = 0 ∨ A.offsets ≠ none) {solver solver' : Solver}
    (hsub : (∃ e, makeSubstrate T A.substrate = .error e ∧ makeSubstrate T' A.substrate = .error e) ∨
      ∃ sub sub', makeSubstrate T A.substrate = .ok sub ∧ makeSubstrate T' A.substrate = .ok sub' ∧ SolversAgree σ c nx ny nx' ny' solver solver')
    (fits : ∀ q r, solver q = .ok r → Fits nx ny r) (fits' : ∀ q r, solver' q = .ok r → Fits nx' ny' r) :
    (contactMechanics T' solver' (loweredArgs c A)).1 = (contactMechanics T solver A).1.map (lowered c) ∧
      List.Forall₂ (ReportCarried σ c nx ny nx' ny') (contactMechanics T solver A).2 (contactMechanics T' solver' (loweredArgs c A)).2 := by
  unfold contactMechanics
  rw [validate_lowered]
  cases hv : validate A with
  | error e => exact ⟨rfl, .nil⟩
  | ok u =>
    simp only [bind, Except.bind]
    have hsa : (loweredArgs c A).substrate = A.substrate := rfl
    rcases hsub with ⟨e, h1, h2⟩ | ⟨sub, sub', h1, h2, hag⟩
    · rw [(system_of_substrate hT A).1 e h1, (system_of_substrate hT' (loweredArgs c A)).1 e h2]
      exact ⟨rfl, .nil⟩
    · obtain ⟨Y, hY⟩ := (system_of_substrate hT A).2 sub h1
      obtain ⟨Y', hY'⟩ := (system_of_substrate hT' (loweredArgs c A)).2 sub' h2
      obtain ⟨r1, r2⟩ := system_ready hT hY
      obtain ⟨r1', r2'⟩ := system_ready hT' hY'
      have S : Setting σ c nx ny nx' ny' sx sy sx' sy' T.heights T'.heights solver solver' :=
        ⟨ren, hT.nx_pos, hT.ny_pos, hT'.nx_pos, hT'.ny_pos, hT.sx_pos, hT.sy_pos, hT'.sx_pos, hT'.sy_pos, hA, hT.heights, hT'.heights, hh, hag,
          fits, fits'⟩
      have hpt : pipePentol T' = pipePentol T := by rw [pentol_eq hT, pentol_eq hT', hrms, hn]
      have := steps_carried S (pt := some (pipePentol T)) (by simp) A.maxiter A.callback
        (requests_carried (T := T) (T' := T') hc (by rw [hT.sizes, hT'.sizes]; simpa using hA)) Y Y' none ⟨r1, r1', by rw [r2, r2']; exact hh⟩
      rw [hY, hY', hpt, hT.sizes, hT'.sizes]
      have e1 : (loweredArgs c A).maxiter = A.maxiter := rfl
      have e2 : (loweredArgs c A).callback = A.callback := rfl
      rw [e1, e2]
      dsimp only
      simp only [Option.map_none] at this
      revert this
      generalize runSteps [sx, sy] solver (some (pipePentol T)) A.maxiter A.callback Y none (requests T A) = x
      generalize runSteps [sx', sy'] solver' (some (pipePentol T)) A.maxiter A.callback Y' none (requests T' (loweredArgs c A)) = x'
      obtain ⟨a, b⟩ := x
      obtain ⟨a', b'⟩ := x'
      rintro ⟨h3, h4⟩
      dsimp only at h3 h4
      subst h3
      rcases a with e | (_ | h)
      · exact ⟨rfl, h4⟩
      · exact ⟨rfl, h4⟩
      · exact ⟨rfl, h4⟩

end CM.Pipe
