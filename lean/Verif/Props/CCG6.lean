import Verif.Props.CCG5
/-!
# A flat surface under load
-/
set_option linter.unusedSectionVars false
namespace CM.CCG
open Finset CM.Spec

variable {ι K : Type} [Fintype ι] [Field K] [LinearOrder K] [IsStrictOrderedRing K]
variable {P : Problem ι K} {o : Options ι K}

/-- A flat surface that covers the whole grid, on a substrate that answers uniform forces uniformly. -/
structure Flat (P : Problem ι K) (h0 κ : K) : Prop where
  comp : ∀ i, P.comp i = true
  slice : ∀ i, P.slice i = true
  h : ∀ i, P.h i = h0
  nSurf : P.nSurf = (Fintype.card ι : K)
  card : 0 < Fintype.card ι
  κ_pos : 0 < κ
  disp : ∀ a : K, P.disp (fun _ => -a) = fun _ => κ * a
  force : ∀ v : K, P.force (fun _ => v) = fun _ => -(v / κ)

lemma maxOver_const {p : ι → Bool} {c : K} (h : ∃ i, p i = true) : maxOver p (fun _ => c) = c := by
  unfold maxOver
  have h' : (univ.filter fun i => p i = true).Nonempty := by
    obtain ⟨i, hi⟩ := h
    exact ⟨i, by simp [hi]⟩
  rw [dif_pos h', Finset.sup'_const]

/-- What the branch computes from a uniform state. -/
def flatMid (o : Options ι K) (s : State ι K) (a v h0 : K) : Mid ι K where
  f _ := -a
  t _ := 0
  g _ := if 0 < a then 0 else v - h0
  c _ := decide (0 < a)
  offset := if 0 < a then v - h0 else 0
  G := 0
  tau := 0
  status := s.status
  mixfacCur := o.mixfac
  mixsteps := s.mixsteps
  nfev := s.nfev + 1

/-- One iteration from a uniform state. -/
lemma flat_step {h0 κ F pentol a v : K} (hP : Flat P h0 κ) (hF : o.externalForce = some F) (hF0 : 0 < F) (hH : o.hardness = .none)
    (hp0 : 0 < pentol) (hft : 0 < o.forcetol) (hth : 0 < o.thermotol) {s : State ι K}
    (hf : s.f = fun _ => -a) (hu : s.u = fun _ => v) (ht : s.t = fun _ => 0) (hs : s.status ≠ .mix) (ha : 0 ≤ a)
    (ha0 : a = 0 → h0 ≤ v) :
    ∃ w, step P o pentol s = .ok w ∧ w.next.f = (fun _ => -(F / (Fintype.card ι : K))) ∧
      w.next.u = (fun _ => κ * (F / (Fintype.card ι : K))) ∧ w.next.t = (fun _ => 0) ∧ w.next.status ≠ .mix ∧
      w.next.lastMaxHeight = some (if 0 < a then v else h0) ∧
      (0 < a → v = κ * (F / (Fintype.card ι : K)) → w.converged = convHeight o s v) ∧
      w.next.offset = (if 0 < a then v - h0 else 0) ∧
      (w.converged = true → pabs (κ * (F / (Fintype.card ι : K)) - v) < pentol) ∧
      (a = 0 → s.lastMaxHeight = none → pabs (κ * (F / (Fintype.card ι : K)) - v) < pentol → w.converged = true) := by
  classical
  obtain ⟨i0⟩ := Fintype.card_pos_iff.1 hP.card
  have hn : (0 : K) < (Fintype.card ι : K) := by exact_mod_cast hP.card
  have hcg : ∀ i, cgSet o s i = decide (0 < a) := by
    intro i; simp [cgSet, hH, Hardness.isSome, hf]
  have hcg' : cgSet o s = fun _ => decide (0 < a) := funext hcg
  have hcount : count (cgSet o s) = if 0 < a then Fintype.card ι else 0 := by
    rw [hcg']; unfold count
    by_cases h : 0 < a <;> simp [h, Finset.card_univ]
  have hoff : cgOffset P o s = if 0 < a then v - h0 else 0 := by
    unfold cgOffset
    rw [hF]
    dsimp only
    rw [hcount]
    by_cases h : 0 < a
    · simp only [h, if_true, hP.card]
      have : sumOver (fun i => cgSet o s i && P.comp i) (fun i => s.u i - P.h i) = (Fintype.card ι : K) * (v - h0) := by
        unfold sumOver
        simp [hcg, h, hP.comp, hu, hP.h, Finset.sum_const, Finset.card_univ]
        ring
      rw [this]; field_simp
    · simp [h]
  have hg : ∀ i, s.u i - P.h i - cgOffset P o s = if 0 < a then 0 else v - h0 := by
    intro i; rw [hoff, hu, hP.h]; split_ifs <;> ring
  have hG : sumOver (fun i => cgSet o s i && P.comp i) (fun i => (s.u i - P.h i - cgOffset P o s) * (s.u i - P.h i - cgOffset P o s)) = 0 := by
    apply sumOver_const_zero
    intro i hi
    simp only [hcg, hP.comp, Bool.and_true, decide_eq_true_eq] at hi
    rw [hg, if_pos hi, zero_mul]
  have hdir : ∀ G, cgDir P s (cgSet o s) (fun i => s.u i - P.h i - cgOffset P o s) G = fun _ => 0 := by
    intro G
    funext i
    unfold cgDir
    simp only [hP.comp, if_true, hcg, ht, mul_zero, add_zero, hg, decide_eq_true_eq]
    split_ifs <;> rfl
  have hd0 : P.disp (fun _ => 0) = fun _ => 0 := by
    have := hP.disp 0
    simpa using this
  have hx : ∀ c : ι → Bool, sumOver c (fun i => (fun _ : ι => (0 : K)) i * (fun _ : ι => (0 : K)) i) = 0 :=
    fun c => sumOver_const_zero fun i _ => by simp
  -- the branch
  have hbr : branch P o s = .ok (flatMid o s a v h0) := by
    unfold branch
    rw [if_pos (by simp [doCG, hH, Hardness.isSome])]
    congr 1
    unfold cgBranch flatMid
    dsimp only
    rw [hG, hdir, hd0, hx]
    congr 1
    · funext i; rw [hf]; simp
    · exact funext hg
    · simp
    · simp
    · simp [hs]
  obtain ⟨m, hm⟩ : ∃ m, m = flatMid o s a v h0 := ⟨_, rfl⟩
  rw [← hm] at hbr
  have hnc : ∀ i, newContact P o m i = false := by
    intro i
    unfold newContact flowing
    rw [hH]
    simp only [hP.comp, Hardness.isSome, Bool.false_and, Bool.or_false, Bool.true_and, tensile]
    simp only [hm, flatMid]
    by_cases h : 0 < a
    · simp [h]
    · have := ha0 (le_antisymm (not_lt.1 h) ha)
      simp [h, this]
  have hclip : clip m = fun _ => -a := by
    funext i
    unfold clip tensile
    simp only [hm, flatMid]
    split_ifs with h
    · simp only [decide_eq_true_eq] at h; linarith
    · rfl
  have hres : rescale P o (fun _ => -a) = fun _ => -(F / (Fintype.card ι : K)) := by
    unfold rescale
    rw [hF]
    dsimp only
    have hsum : sumOver P.comp (fun _ => -a) = -((Fintype.card ι : K) * a) := by
      unfold sumOver; simp [hP.comp, Finset.sum_const, Finset.card_univ]
    rw [hsum, neg_neg]
    split_ifs with h
    · have ha' : a ≠ 0 := fun h0 => h (by rw [h0, mul_zero])
      funext i; field_simp
    · funext i; simp [hP.comp, hP.nSurf, neg_div]
  have hforce : stepForce P o m = fun _ => -(F / (Fintype.card ι : K)) := by
    funext i
    unfold stepForce addContact
    simp only [hnc i, Bool.false_eq_true, and_false, if_false]
    unfold truncate flowing
    rw [hH, hclip, hres]
    simp [Hardness.isSome]
  have hst : stepStatus P o m = .cg := by
    unfold stepStatus
    rw [if_neg (by simpa [hm, flatMid] using hs), if_neg (count_eq_zero.2 hnc)]
  have htr : o.hardness.truth = .ok false := by rw [hH]; rfl
  refine ⟨finish P o pentol s m false, by unfold step; rw [hbr]; simp only [htr], ?_, ?_, by rw [hm]; rfl, ?_, ?_, ?_, ?_, ?_, ?_⟩
  · show stepForce P o m = _
    exact hforce
  · show P.disp (stepForce P o m) = _
    rw [hforce, hP.disp]
  · show stepStatus P o m ≠ _
    rw [hst]; decide
  · show some (maxOver P.comp P.h + m.offset) = _
    have : P.h = fun _ => h0 := funext hP.h
    rw [this, maxOver_const ⟨i0, hP.comp i0⟩]
    simp only [hm, flatMid]
    split_ifs <;> simp
  · intro hpos hv
    have hu' : P.disp (stepForce P o m) = fun _ => v := by rw [hforce, hP.disp, hv]
    have htot : -(sumOver P.comp (stepForce P o m)) = F := by
      rw [hforce]; unfold sumOver
      simp [hP.comp, Finset.sum_const, Finset.card_univ]
      field_simp
    have hmaxH : maxOver P.comp P.h + m.offset = v := by
      have : P.h = fun _ => h0 := funext hP.h
      rw [this, maxOver_const ⟨i0, hP.comp i0⟩]
      simp [hm, flatMid, hpos]
    have hdu : maxOver (fun _ => true) (fun i => pabs (v - s.u i)) = 0 := by
      rw [hu]
      have : (fun i : ι => pabs (v - (fun _ => v) i)) = fun _ => (0 : K) := by
        funext i; simp [pabs]
      rw [this, maxOver_const ⟨i0, rfl⟩]
    have hpad : count (fun i => !P.comp i) = 0 := Nat.eq_zero_of_not_pos (count_eq_zero.2 fun i => by simp [hP.comp])
    have hmp : maxPres o m false = 0 := by
      unfold maxPres
      have : count (tensile m) = 0 := by
        refine Nat.eq_zero_of_not_pos (count_eq_zero.2 fun i => ?_)
        simp only [tensile, hm, flatMid]
        simpa using hpos
      simp [this]
    have hpen : maxPen P m (fun _ => v) = 0 := by
      unfold maxPen
      have : (fun i => if m.c i then P.h i + m.offset - v else 0) = fun _ => (0 : K) := by
        funext i; simp [hm, flatMid, hpos, hP.h]
      rw [this, maxOver_const ⟨i0, hP.comp i0⟩, max_self]
    have hrel : convForce o s F = true := by
      unfold convForce
      rw [hF]
      simp [relLt, hF0.ne', pabs, hth]
    simp only [finish, htot, hmaxH, hdu, hpad, hmp, hst, hrel, hu', hpen]
    have : sqrtLt (if 0 < count (cgSet o s) then m.G / (count (cgSet o s) : K) else m.G) pentol = true := by
      have : m.G = 0 := by rw [hm]; rfl
      rw [this]
      simp [sqrtLt, hp0]
    rw [this]
    simp [hp0, hft]
  · show m.offset = _
    rw [hm]; rfl
  · intro hc
    have hdu : maxOver (fun _ => true) (fun i => pabs (P.disp (stepForce P o m) i - s.u i)) = pabs (κ * (F / (Fintype.card ι : K)) - v) := by
      rw [hforce, hP.disp, hu, maxOver_const ⟨i0, rfl⟩]
    simp only [finish, hdu, hst, Bool.and_eq_true] at hc
    simp at hc
    exact hc.2.1.1.2
  · intro ha1 hl hpv
    have hdu : maxOver (fun _ => true) (fun i => pabs (P.disp (stepForce P o m) i - s.u i)) = pabs (κ * (F / (Fintype.card ι : K)) - v) := by
      rw [hforce, hP.disp, hu, maxOver_const ⟨i0, rfl⟩]
    have htot : -(sumOver P.comp (stepForce P o m)) = F := by
      rw [hforce]; unfold sumOver
      simp [hP.comp, Finset.sum_const, Finset.card_univ]
      field_simp
    have hpad : count (fun i => !P.comp i) = 0 := Nat.eq_zero_of_not_pos (count_eq_zero.2 fun i => by simp [hP.comp])
    have hna : ¬ 0 < a := by rw [ha1]; exact lt_irrefl _
    have hmp : maxPres o m false = 0 := by
      unfold maxPres
      have : m.f = fun _ => 0 := by rw [hm]; simp [flatMid, ha1]
      have h2 : ∃ i, tensile m i = true := ⟨i0, by simp [tensile, this]⟩
      simp only [this, maxOver_const h2]
      simp
    have hpen : maxPen P m (P.disp (stepForce P o m)) = 0 := by
      unfold maxPen
      have : (fun i => if m.c i then P.h i + m.offset - P.disp (stepForce P o m) i else 0) = fun _ => (0 : K) := by
        funext i; simp [hm, flatMid, hna]
      rw [this, maxOver_const ⟨i0, hP.comp i0⟩, max_self]
    have hrel : convForce o s F = true := by
      unfold convForce
      rw [hF]
      simp [relLt, hF0.ne', pabs, hth]
    have hch : ∀ x, convHeight o s x = true := by
      intro x; unfold convHeight; rw [hl, hF]
    simp only [finish, htot, hdu, hpad, hmp, hst, hrel, hpen, hch]
    have : sqrtLt (if 0 < count (cgSet o s) then m.G / (count (cgSet o s) : K) else m.G) pentol = true := by
      have : m.G = 0 := by rw [hm]; rfl
      rw [this]
      simp [sqrtLt, hp0]
    rw [this]
    simp [hp0, hft, hpv]

/-- **C149** (solver) A flat surface that covers a grid on which the substrate answers uniform forces uniformly, pressed with the load
`F > 0` from a cold start: the solver succeeds within three iterations, with the load spread evenly and the
substrate displaced evenly. -/
theorem C149_flat_load {h0 κ F pentol : K} (hP : Flat P h0 κ) (hF : o.externalForce = some F) (hF0 : 0 < F) (hH : o.hardness = .none)
    (hi : o.initialForces = none) (hd : o.initialDisplacements = none) (ho : o.offset = none) (hp : pentolOf P o = .ok pentol) (hp0 : 0 < pentol)
    (hft : 0 < o.forcetol) (hth : 0 < o.thermotol) (hmax : 3 ≤ o.maxiter) :
    ∃ r, solve P o = .ok r ∧ r.success = true ∧ r.nit ≤ 3 ∧ r.jac = (fun _ => F / (Fintype.card ι : K)) ∧
      r.x = fun _ => κ * (F / (Fintype.card ι : K)) := by
  have hn : (0 : K) < (Fintype.card ι : K) := by exact_mod_cast hP.card
  have hFn : 0 < F / (Fintype.card ι : K) := div_pos hF0 hn
  have hu0 : initU P o = fun _ => max 0 h0 := by
    funext i
    simp only [initU, hd, ho, Option.getD_none, hP.comp, if_true, hP.h, add_zero]
    split_ifs with h
    · rw [max_eq_right h.le]
    · rw [max_eq_left (not_lt.1 h)]
  have hs0f : (initState P o).f = fun _ => -(max 0 h0 / κ) := by
    funext i; simp [initState, hi, hu0, hP.force, hP.comp]
  have hs0u : (initState P o).u = fun _ => max 0 h0 := by
    funext i; simp [initState, hi, hu0]
  obtain ⟨w1, a1, b1, c1, d1, e1, f1, g1, -⟩ := flat_step (s := initState P o) hP hF hF0 hH hp0 hft hth hs0f hs0u rfl
    (by simp [initState]) (div_nonneg (le_max_left _ _) hP.κ_pos.le) (fun _ => le_max_right _ _)
  obtain ⟨w2, a2, b2, c2, d2, e2, f2, g2, -⟩ := flat_step (s := w1.next) hP hF hF0 hH hp0 hft hth b1 c1 d1 e1 hFn.le
    (fun h => absurd h hFn.ne')
  obtain ⟨w3, a3, b3, c3, d3, e3, f3, g3, -⟩ := flat_step (s := w2.next) hP hF hF0 hH hp0 hft hth b2 c2 d2 e2 hFn.le
    (fun h => absurd h hFn.ne')
  have hconv : w3.converged = true := by
    rw [g3 hFn rfl]
    unfold convHeight
    rw [hF, f2, if_pos hFn]
    have : κ * (F / (Fintype.card ι : K)) ≠ 0 := (mul_pos hP.κ_pos hFn).ne'
    simp [relLt, pabs, hth, this]
  have res : ∀ (n : ℕ) (w : StepOut ι K), w.next.f = (fun _ => -(F / (Fintype.card ι : K))) → w.next.u = (fun _ => κ * (F / (Fintype.card ι : K))) →
      (mkResult P o n true w).jac = (fun _ => F / (Fintype.card ι : K)) ∧ (mkResult P o n true w).x = fun _ => κ * (F / (Fintype.card ι : K)) := by
    intro n w h1 h2
    constructor
    · funext i; simp [mkResult, hP.slice, h1]
    · exact h2
  obtain ⟨M, hM⟩ : ∃ M, o.maxiter = M + 3 := ⟨o.maxiter - 3, by omega⟩
  have hsol : ∀ x, loop P o pentol o.maxiter 0 (initState P o) [] none = .ok x → solve P o = .ok x.1 := by
    intro x hx
    unfold solve solveCb
    rw [hp]
    simp only [hx, Except.map]
  by_cases k1 : w1.converged = true
  · refine ⟨_, hsol (mkResult P o 1 true w1, []) ?_, rfl, ?_, (res _ _ b1 c1).1, (res _ _ b1 c1).2⟩
    · rw [hM]; simp only [loop, a1, k1, if_true]
    · show 1 ≤ 3; decide
  by_cases k2 : w2.converged = true
  · refine ⟨_, hsol (mkResult P o 2 true w2, [(1, w1.next.f)]) ?_, rfl, ?_, (res _ _ b2 c2).1, (res _ _ b2 c2).2⟩
    · rw [hM]; simp [loop, a1, k1, a2, k2]
    · show 2 ≤ 3; decide
  · refine ⟨_, hsol (mkResult P o 3 true w3, [(1, w1.next.f), (2, w2.next.f)]) ?_, rfl, ?_, (res _ _ b3 c3).1, (res _ _ b3 c3).2⟩
    · rw [hM]; simp [loop, a1, k1, a2, k2, a3, hconv]
    · show 3 ≤ 3; decide

/-- A flat surface at height zero under load, when the displacement of the substrate is below the penetration tolerance: the
solver succeeds in its first iteration, before it has moved the surface. -/
theorem flat_load_below {κ F pentol : K} (hP : Flat P 0 κ) (hF : o.externalForce = some F) (hF0 : 0 < F) (hH : o.hardness = .none)
    (hi : o.initialForces = none) (hd : o.initialDisplacements = none) (ho : o.offset = none) (hp : pentolOf P o = .ok pentol) (hp0 : 0 < pentol)
    (hft : 0 < o.forcetol) (hth : 0 < o.thermotol) (hmax : 1 ≤ o.maxiter) (hlt : κ * (F / (Fintype.card ι : K)) < pentol) :
    ∃ r, solve P o = .ok r ∧ r.success = true ∧ r.offset = 0 := by
  have hn : (0 : K) < (Fintype.card ι : K) := by exact_mod_cast hP.card
  have hFn : 0 < F / (Fintype.card ι : K) := div_pos hF0 hn
  have hu0 : initU P o = fun _ => 0 := by
    funext i
    simp [initU, hd, ho, hP.comp, hP.h]
  have hs0f : (initState P o).f = fun _ => -0 := by
    funext i; simp [initState, hi, hu0, hP.force, hP.comp]
  have hs0u : (initState P o).u = fun _ => 0 := by
    funext i; simp [initState, hi, hu0]
  obtain ⟨w1, a1, b1, c1, d1, e1, f1, g1, k1, -, m1⟩ := flat_step (s := initState P o) hP hF hF0 hH hp0 hft hth hs0f hs0u rfl
    (by simp [initState]) le_rfl (fun _ => le_rfl)
  have hc := m1 rfl rfl (by
    have h1 := mul_pos hP.κ_pos hFn
    rw [sub_zero, pabs, if_pos h1.le]; exact hlt)
  obtain ⟨M, hM⟩ : ∃ M, o.maxiter = M + 1 := ⟨o.maxiter - 1, by omega⟩
  refine ⟨mkResult P o 1 true w1, ?_, rfl, ?_⟩
  · unfold solve solveCb
    rw [hp]
    dsimp only
    rw [hM]
    simp only [loop, a1, hc, if_true, Except.map]
  · show w1.next.offset = 0
    rw [k1, if_neg (lt_irrefl _)]

/-- ... and when the displacement is not below the tolerance: the surface is moved by the displacement. -/
theorem flat_load_above {κ F pentol : K} (hP : Flat P 0 κ) (hF : o.externalForce = some F) (hF0 : 0 < F) (hH : o.hardness = .none)
    (hi : o.initialForces = none) (hd : o.initialDisplacements = none) (ho : o.offset = none) (hp : pentolOf P o = .ok pentol) (hp0 : 0 < pentol)
    (hft : 0 < o.forcetol) (hth : 0 < o.thermotol) (hth1 : o.thermotol ≤ 1) (hmax : 3 ≤ o.maxiter) (hge : pentol ≤ κ * (F / (Fintype.card ι : K))) :
    ∃ r, solve P o = .ok r ∧ r.success = true ∧ r.offset = κ * (F / (Fintype.card ι : K)) := by
  have hn : (0 : K) < (Fintype.card ι : K) := by exact_mod_cast hP.card
  have hFn : 0 < F / (Fintype.card ι : K) := div_pos hF0 hn
  have hκ := mul_pos hP.κ_pos hFn
  have hu0 : initU P o = fun _ => 0 := by
    funext i
    simp [initU, hd, ho, hP.comp, hP.h]
  have hs0f : (initState P o).f = fun _ => -0 := by
    funext i; simp [initState, hi, hu0, hP.force, hP.comp]
  have hs0u : (initState P o).u = fun _ => 0 := by
    funext i; simp [initState, hi, hu0]
  obtain ⟨w1, a1, b1, c1, d1, e1, f1, g1, k1, l1, -⟩ := flat_step (s := initState P o) hP hF hF0 hH hp0 hft hth hs0f hs0u rfl
    (by simp [initState]) le_rfl (fun _ => le_rfl)
  obtain ⟨w2, a2, b2, c2, d2, e2, f2, g2, k2, l2, -⟩ := flat_step (s := w1.next) hP hF hF0 hH hp0 hft hth b1 c1 d1 e1 hFn.le
    (fun h => absurd h hFn.ne')
  obtain ⟨w3, a3, b3, c3, d3, e3, f3, g3, k3, l3, -⟩ := flat_step (s := w2.next) hP hF hF0 hH hp0 hft hth b2 c2 d2 e2 hFn.le
    (fun h => absurd h hFn.ne')
  have n1 : w1.converged = false := by
    rw [Bool.eq_false_iff]
    intro h
    have := l1 h
    rw [sub_zero, pabs, if_pos hκ.le] at this
    exact absurd this (not_lt.2 hge)
  have n2 : w2.converged = false := by
    rw [g2 hFn rfl]
    unfold convHeight
    rw [hF, f1, if_neg (lt_irrefl _)]
    simp [relLt, pabs, hκ.ne', hth1]
  have n3 : w3.converged = true := by
    rw [g3 hFn rfl]
    unfold convHeight
    rw [hF, f2, if_pos hFn]
    have : κ * (F / (Fintype.card ι : K)) ≠ 0 := hκ.ne'
    simp [relLt, pabs, hth, this]
  obtain ⟨M, hM⟩ : ∃ M, o.maxiter = M + 3 := ⟨o.maxiter - 3, by omega⟩
  refine ⟨mkResult P o 3 true w3, ?_, rfl, ?_⟩
  · unfold solve solveCb
    rw [hp]
    dsimp only
    rw [hM]
    simp [loop, a1, n1, a2, n2, a3, n3, Except.map]
  · show w3.next.offset = _
    rw [k3, if_pos hFn, sub_zero]

end CM.CCG
