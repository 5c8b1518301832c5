import Verif.Spec.Pipeline
import Verif.Props.Plastic
/-!
# Lemmas about the pipeline
-/
set_option linter.unusedSimpArgs false
namespace CM.Pipe
open Finset CM.HS CM.FFT CM.System CM.Spec

variable {nx ny : ℕ} {sx sy : ℝ}

lemma sumShape2 {M : Type} [AddCommMonoid M] (nx ny : ℕ) (f : List ℕ → M) :
    sumShape [nx, ny] f = ∑ i ∈ range nx, ∑ j ∈ range ny, f [i, j] := by
  simp [sumShape]

lemma sum2 {a : NdArray ℝ} (h : a.shape = [nx, ny]) : a.sum = total nx ny a := by
  unfold NdArray.sum total; rw [h, sumShape2]

lemma npMean2 {a : NdArray ℝ} (h : a.shape = [nx, ny]) : npMean a = mean nx ny a := by
  unfold npMean mean
  rw [sum2 h]
  simp [total, NdArray.size, h]

lemma countPositive2 {a : NdArray ℝ} (h : a.shape = [nx, ny]) : countPositive a = nbPos nx ny a := by
  unfold countPositive nbPos
  rw [h, sumShape2, ← Finset.sum_product', Finset.card_filter]

lemma cut_fits {r : OptResult} (h : Fits nx ny r) : cutToForce r.x r.jac = .ok ⟨[nx, ny], r.x.get⟩ := by
  obtain ⟨mx, my, hx, h1, h2⟩ := h.x
  unfold cutToForce
  rw [h.jac]
  dsimp only
  exact sliceTo_le (by rw [hx]; exact .cons h1 (.cons h2 .nil))

/-- A system in the loop of `contact_mechanics` on a topography with heights `base`. -/
structure Ready (nx ny : ℕ) (sx sy : ℝ) (base : NdArray ℝ) (H : Option ℝ) (Y : AnySys) : Prop where
  topo : Y.sys.sub.topo = [nx, ny]
  sizes : Y.sys.sub.hs.physicalSizes = [sx, sy]
  check : Y.sys.sub.checkFlag = false
  kind : match H with
    | none => ∃ S, Y = .elastic S ∧ S.heights = base
    | some H => ∃ P, Y = .plastic P ∧ PlasticState P ∧ P.base = base ∧ P.hardness = H ∧
        P.areaPerPt = sx * sy / (nx * ny)

lemma Ready.shape {base : NdArray ℝ} {H : Option ℝ} {Y : AnySys} (hb : base.shape = [nx, ny]) (h : Ready nx ny sx sy base H Y) :
    Y.heights.shape = [nx, ny] := by
  have hk := h.kind
  cases H with
  | none =>
    obtain ⟨S, rfl, e⟩ := hk
    show S.heights.shape = _
    rw [e, hb]
  | some H =>
    obtain ⟨P, rfl, hP, -⟩ := hk
    have := hP.shape
    have ht : P.sys.sub.topo = [nx, ny] := h.topo
    rw [ht] at this; exact this

lemma check_of_flag {s : Substrate} (h : s.checkFlag = false) (f : NdArray ℝ) : s.check f = .ok () := by
  unfold Substrate.check; rw [if_neg (by rw [h]; simp)]

/-- Minimisation of a system in the loop. -/
lemma minimize_ready {base : NdArray ℝ} {H : Option ℝ} {Y : AnySys} (h : Ready nx ny sx sy base H Y) (solver : Solver) (off ext pt : Option ℝ) (mi : ℤ) :
    (∀ e, solver ⟨Y.heights, forceHardness nx ny sx sy H, off, ext, pt, mi⟩ = .error e →
      (Y.minimize solver off ext pt mi).1 = .error e) ∧
    (∀ r, solver ⟨Y.heights, forceHardness nx ny sx sy H, off, ext, pt, mi⟩ = .ok r → Fits nx ny r →
      (Y.minimize solver off ext pt mi).1 = .ok r ∧ Ready nx ny sx sy base H (Y.minimize solver off ext pt mi).2 ∧
      AgreeOn nx ny (Y.minimize solver off ext pt mi).2.heights (heightAfter H.isSome Y.heights r)) := by
  have hk := h.kind
  cases H with
  | none =>
    obtain ⟨S, rfl, e⟩ := hk
    have hc : (clear S).sub.checkFlag = false := h.check
    constructor
    · intro e' he
      unfold AnySys.minimize minimizeProxy
      simp only [AnySys.heights, AnySys.sys, forceHardness, Option.map_none] at he
      simp only [he]
    · intro r hr hf
      simp only [AnySys.heights, AnySys.sys, forceHardness, Option.map_none] at hr
      have hf2 := minimizeProxy_frame S (.ok r)
      have h1 : (minimizeProxy S (.ok r)).1 = .ok r := by
        unfold minimizeProxy
        dsimp only
        split
        · simp only [check_of_flag hc]
        · rfl
      have hm : (AnySys.elastic S).minimize solver off ext pt mi =
          ((minimizeProxy S (.ok r)).1, .elastic (minimizeProxy S (.ok r)).2) := by
        unfold AnySys.minimize
        simp only [hr]
      rw [hm]
      refine ⟨h1, ⟨?_, ?_, ?_, ⟨_, rfl, hf2.2.trans e⟩⟩, ?_⟩
      · show (minimizeProxy S (.ok r)).2.sub.topo = _
        rw [hf2.1]; exact h.topo
      · show (minimizeProxy S (.ok r)).2.sub.hs.physicalSizes = _
        rw [hf2.1]; exact h.sizes
      · show (minimizeProxy S (.ok r)).2.sub.checkFlag = _
        rw [hf2.1]; exact h.check
      · intro i _ j _
        show (minimizeProxy S (.ok r)).2.heights.get _ = _
        rw [hf2.2]; simp [heightAfter, AnySys.heights, AnySys.sys]
  | some H =>
    obtain ⟨P, rfl, hP, hb, hH, ha⟩ := hk
    have ht : P.sys.sub.topo = [nx, ny] := h.topo
    have hc : P.sys.sub.checkFlag = false := h.check
    have hm : (AnySys.plastic P).minimize solver off ext pt mi =
        ((plasticMinimizeProxy P fun H => solver ⟨P.sys.heights, some H, off, ext, pt, mi⟩).1,
          .plastic (plasticMinimizeProxy P fun H => solver ⟨P.sys.heights, some H, off, ext, pt, mi⟩).2) := rfl
    rw [hm]
    have hcall : (⟨(AnySys.plastic P).heights, forceHardness nx ny sx sy (some H), off, ext, pt, mi⟩ : Call) =
        ⟨P.sys.heights, some (P.hardness * P.areaPerPt), off, ext, pt, mi⟩ := by
      rw [hH, ha]; rfl
    rw [hcall]
    constructor
    · intro e he
      unfold plasticMinimizeProxy minimizeProxy
      simp only [he]
    · intro r hr hf
      have hfit : FitsTopo P.sys.sub.topo r := by
        obtain ⟨mx, my, hx, h1, h2⟩ := hf.x
        exact ⟨by rw [ht, hx]; exact .cons h1 (.cons h2 .nil), by rw [ht]; exact hf.plastic⟩
      have h1 := C58_plastic_returns P hP (fun H => solver ⟨P.sys.heights, some H, off, ext, pt, mi⟩) hr hfit
        (check_of_flag hc _)
      obtain ⟨k1, k2, k3, k4, k5, -, k7, k8⟩ := C58_plastic_update P hP
        (fun H => solver ⟨P.sys.heights, some H, off, ext, pt, mi⟩) (by intro r' hr'; rw [hr] at hr'; cases hr'; exact hfit)
      refine ⟨h1, ⟨?_, ?_, ?_, ⟨_, rfl, k1, k3.trans hb, k4.trans hH, k5.trans ha⟩⟩, ?_⟩
      · show (plasticMinimizeProxy P _).2.sys.sub.topo = _
        rw [k2]; exact h.topo
      · show (plasticMinimizeProxy P _).2.sys.sub.hs.physicalSizes = _
        rw [k2]; exact h.sizes
      · show (plasticMinimizeProxy P _).2.sys.sub.checkFlag = _
        rw [k2]; exact h.check
      · intro i hi j hj
        have hv : validIndex P.sys.sub.topo [i, j] := by rw [ht]; exact valid2.2 ⟨i, j, rfl, hi, hj⟩
        show (plasticMinimizeProxy P _).2.sys.heights.get _ = _
        unfold heightAfter
        by_cases hs : r.success = true
        · obtain ⟨e1, g, -, e2⟩ := k7 r h1 hs
          cases hp : r.plastic.get [i, j] with
          | false => rw [(e1 _ hv hp).2]; simp [AnySys.heights, AnySys.sys]
          | true => rw [(e2 _ hv hp).2]; simp [hs]
        · rw [(k8 (by intro r' e'; rw [h1] at e'; cases e'; simpa using hs)).2]
          simp [hs, AnySys.heights, AnySys.sys]

/-- A history with one more row. -/
def History.push (h : History) (r : Record) : History :=
  ⟨h.disp ++ [r.displacement], h.gap ++ [r.gap], h.pressure ++ [r.pressure], h.area ++ [r.area], h.converged ++ [r.converged]⟩

/-- One calculation of a system in the loop. -/
lemma calc_ready {base : NdArray ℝ} {H : Option ℝ} {Y : AnySys} (hb : base.shape = [nx, ny]) (hnx : 0 < nx) (hny : 0 < ny) (hsx : 0 < sx) (hsy : 0 < sy)
    (h : Ready nx ny sx sy base H Y) (solver : Solver) (off ext pt : Option ℝ) (mi : ℤ) (hist : Option History) :
    (∀ e, solver ⟨Y.heights, forceHardness nx ny sx sy H, off, ext, pt, mi⟩ = .error e →
      (contactCalculation [sx, sy] solver Y off ext hist pt mi).1 = .error e) ∧
    (∀ r, solver ⟨Y.heights, forceHardness nx ny sx sy H, off, ext, pt, mi⟩ = .ok r → Fits nx ny r →
      ∃ rep Y', contactCalculation [sx, sy] solver Y off ext hist pt mi =
          (.ok (rep, (hist.getD .empty).push (recordOf nx ny sx sy Y.heights r)), Y') ∧
        Ready nx ny sx sy base H Y' ∧ AgreeOn nx ny Y'.heights (heightAfter H.isSome Y.heights r) ∧
        ReportMatches nx ny sx sy (heightAfter H.isSome Y.heights r) r rep) := by
  obtain ⟨m1, m2⟩ := minimize_ready h solver off ext pt mi
  constructor
  · intro e he
    have := m1 e he
    unfold contactCalculation
    dsimp only
    cases hm : Y.minimize solver off ext pt mi with
    | mk o Y' =>
      rw [hm] at this
      dsimp only at this
      subst this
      rfl
  · intro r hr hf
    obtain ⟨k1, k2, k3⟩ := m2 r hr hf
    cases hm : Y.minimize solver off ext pt mi with
    | mk o Y' =>
      rw [hm] at k1 k2 k3
      dsimp only at k1 k2 k3
      subst k1
      have hhs := k2.shape hb
      obtain ⟨g, hg, hgs, hgv⟩ := binop_same (· - ·) (a := (⟨[nx, ny], r.x.get⟩ : NdArray ℝ)) (s := [nx, ny]) rfl hhs
      have hap : Y'.sys.sub.hs.areaPerPt = sx * sy / (nx * ny) := by
        have : Y'.sys.sub.hs.nbGridPts = [nx, ny] := k2.topo
        simp [HalfSpace.areaPerPt, k2.sizes, this]
      have hap0 : 0 < sx * sy / ((nx : ℝ) * ny) := by positivity
      unfold contactCalculation
      dsimp only
      rw [hm]
      simp only [cut_fits hf, hg, bind, Except.bind, pure, Except.pure]
      refine ⟨⟨⟨[nx, ny], r.x.get⟩, g.map (fun v => if v - r.offset < 0 then 0 else v - r.offset),
        r.jac.map (· / Y'.sys.sub.hs.areaPerPt), r.jac.map (fun v => decide (0 < v)), r.offset,
        r.jac.sum / [sx, sy].prod, (countPositive r.jac : ℝ) / (Y.heights.shape.prod : ℕ)⟩, Y', ?_, k2, k3, ?shapes⟩
      · congr 2
        congr 1
        unfold History.push recordOf
        congr 2
        · rw [npMean2 rfl, npMean2 (h.shape hb)]; rfl
        · rw [sum2 hf.jac]; simp
        · rw [countPositive2 hf.jac, h.shape hb]; simp
      · refine ⟨⟨rfl, hgs, hf.jac, hf.jac⟩, fun i _ j _ => rfl, ?_, ?_, ?_, rfl, ?_, ?_⟩
        · intro i hi j hj
          show (if g.get [i, j] - r.offset < 0 then (0 : ℝ) else g.get [i, j] - r.offset) = _
          rw [hgv _ (valid2.2 ⟨i, j, rfl, hi, hj⟩), k3 i hi j hj]
          split
          · rw [max_eq_left]; linarith
          · rw [max_eq_right]
            · ring
            · linarith
        · intro i _ j _
          show r.jac.get [i, j] / _ = _
          rw [hap]
        · intro i _ j _
          show decide (0 < r.jac.get [i, j]) = true ↔ 0 < r.jac.get [i, j] / Y'.sys.sub.hs.areaPerPt
          rw [hap, decide_eq_true_iff, div_pos_iff_of_pos_right hap0]
        · show r.jac.sum / _ = _
          rw [sum2 hf.jac]; simp
        · show (countPositive r.jac : ℝ) / _ = _
          rw [countPositive2 hf.jac, h.shape hb]; simp

lemma reset_ready {base : NdArray ℝ} {H : Option ℝ} {Y : AnySys} (hb : base.shape = [nx, ny]) (h : Ready nx ny sx sy base H Y) :
    Ready nx ny sx sy base H Y.resetPlastic ∧ Y.resetPlastic.heights = base := by
  have hk := h.kind
  cases H with
  | none =>
    obtain ⟨S, rfl, e⟩ := hk
    exact ⟨h, e⟩
  | some H =>
    obtain ⟨P, rfl, hP, hb', hH, ha⟩ := hk
    have ht : P.sys.sub.topo = [nx, ny] := h.topo
    refine ⟨⟨h.topo, h.sizes, h.check, ⟨_, rfl, ⟨?_, ?_, ?_, ?_⟩, hb', hH, ha⟩⟩, ?_⟩
    · show P.base.shape = P.sys.sub.topo
      rw [ht, hb', hb]
    · show P.base.shape = P.sys.sub.topo
      rw [ht, hb', hb]
    · show P.plasticDispl.shape = P.sys.sub.topo
      exact hP.displ
    · intro x _
      simp [NdArray.map]
    · show (⟨P.base.shape, fun x => P.base.get x + (P.plasticDispl.map fun _ => (0 : ℝ)).get x⟩ : NdArray ℝ) = base
      simp [NdArray.map, ← hb']

end CM.Pipe
