import Verif.Props.CCG5
/-!
# C150 the solver does not depend on the labelling of the grid points nor on the units

Two calls are *similar* if one is obtained from the other by relabelling the grid points and by measuring
lengths and forces in other units.  Similar calls do the same iterations and return similar results.
-/
set_option linter.unusedSectionVars false
namespace CM.CCG
open Finset CM.Spec

variable {ι κ K : Type} [Fintype ι] [Fintype κ] [Field K] [LinearOrder K] [IsStrictOrderedRing K]

/-- `P'` is `P` with the points relabelled by `e`, lengths multiplied by `l` and forces by `c`. -/
structure Similar (e : κ ≃ ι) (l c : K) (P : Problem ι K) (P' : Problem κ K) : Prop where
  disp : ∀ f, P'.disp (fun i => c * f (e i)) = fun i => l * P.disp f (e i)
  force : ∀ u, P'.force (fun i => l * u (e i)) = fun i => c * P.force u (e i)
  comp : ∀ i, P'.comp i = P.comp (e i)
  slice : ∀ i, P'.slice i = P.slice (e i)
  h : ∀ i, P'.h i = l * P.h (e i)
  nSurf : P'.nSurf = P.nSurf
  rmsHeight : P'.rmsHeight = l * P.rmsHeight
  meanGrid : P'.meanGrid = P.meanGrid

/-- A hardness relabelled and in other units. -/
def Hardness.scaled (e : κ ≃ ι) (c : K) : Hardness ι K → Hardness κ K
  | .none => .none
  | .scalar H => .scalar (c * H)
  | .array H => .array fun i => c * H (e i)

/-- The same options in other units: lengths (offset, displacements, penetration tolerance) are multiplied by `l`, forces
(hardness, load, forces, force tolerance) by `c`; relative tolerances and counts stay. -/
structure SimilarOpt (e : κ ≃ ι) (l c : K) (o : Options ι K) (o' : Options κ K) : Prop where
  hardness : o'.hardness = o.hardness.scaled e c
  externalForce : o'.externalForce = o.externalForce.map (c * ·)
  offset : o'.offset = o.offset.map (l * ·)
  initialDisplacements : o'.initialDisplacements = o.initialDisplacements.map fun u i => l * u (e i)
  initialForces : o'.initialForces = o.initialForces.map fun f i => c * f (e i)
  pentol : o'.pentol = o.pentol.map (l * ·)
  forcetol : o'.forcetol = c * o.forcetol
  thermotol : o'.thermotol = o.thermotol
  mixfac : o'.mixfac = o.mixfac
  mixdecfac : o'.mixdecfac = o.mixdecfac
  minmixsteps : o'.minmixsteps = o.minmixsteps
  maxiter : o'.maxiter = o.maxiter
  bisect : ∀ f a b, o'.bisect (fun x => c * f (x / l)) (l * a) (l * b) = (o.bisect f a b).map (l * ·)

section basics
variable (e : κ ≃ ι)

lemma maxOver_similar {l : K} (hl : 0 < l) (p : ι → Bool) (a : ι → K) :
    maxOver (fun i => p (e i)) (fun i => l * a (e i)) = l * maxOver p a := by
  unfold maxOver
  by_cases h : (univ.filter fun i => p i = true).Nonempty
  · have h' : (univ.filter fun i => p (e i) = true).Nonempty := by
      obtain ⟨i, hi⟩ := h
      exact ⟨e.symm i, by simpa using hi⟩
    rw [dif_pos h, dif_pos h']
    apply le_antisymm
    · apply Finset.sup'_le
      intro i hi
      exact mul_le_mul_of_nonneg_left (Finset.le_sup' a (by simpa using hi)) hl.le
    · obtain ⟨j, hj, hj'⟩ := Finset.exists_mem_eq_sup' h a
      rw [hj']
      have : l * a j = (fun i => l * a (e i)) (e.symm j) := by simp
      rw [this]
      exact Finset.le_sup' (fun i => l * a (e i)) (by simpa using hj)
  · have h' : ¬ (univ.filter fun i => p (e i) = true).Nonempty := by
      intro ⟨i, hi⟩
      exact h ⟨e i, by simpa using hi⟩
    rw [dif_neg h, dif_neg h', mul_zero]

lemma minOver_similar {l : K} (hl : 0 < l) (p : ι → Bool) (a : ι → K) :
    minOver (fun i => p (e i)) (fun i => l * a (e i)) = l * minOver p a := by
  unfold minOver
  by_cases h : (univ.filter fun i => p i = true).Nonempty
  · have h' : (univ.filter fun i => p (e i) = true).Nonempty := by
      obtain ⟨i, hi⟩ := h
      exact ⟨e.symm i, by simpa using hi⟩
    rw [dif_pos h, dif_pos h']
    apply le_antisymm
    · obtain ⟨j, hj, hj'⟩ := Finset.exists_mem_eq_inf' h a
      rw [hj']
      have : l * a j = (fun i => l * a (e i)) (e.symm j) := by simp
      rw [this]
      exact Finset.inf'_le (fun i => l * a (e i)) (by simpa using hj)
    · apply Finset.le_inf'
      intro i hi
      exact mul_le_mul_of_nonneg_left (Finset.inf'_le a (by simpa using hi)) hl.le
  · have h' : ¬ (univ.filter fun i => p (e i) = true).Nonempty := by
      intro ⟨i, hi⟩
      exact h ⟨e i, by simpa using hi⟩
    rw [dif_neg h, dif_neg h', mul_zero]

lemma count_similar (p : ι → Bool) : count (fun i => p (e i)) = count p := by
  unfold count
  apply Finset.card_bij (fun i _ => e i)
  · intro i hi; simpa using hi
  · intro i _ j _ h; exact e.injective h
  · intro j hj; exact ⟨e.symm j, by simpa using hj, by simp⟩

lemma sumOver_similar (l : K) (p : ι → Bool) (a : ι → K) :
    sumOver (fun i => p (e i)) (fun i => l * a (e i)) = l * sumOver p a := by
  unfold sumOver
  rw [Finset.mul_sum, ← Equiv.sum_comp e (fun i => l * if p i = true then a i else 0)]
  refine Finset.sum_congr rfl fun i _ => ?_
  split_ifs <;> simp

lemma pabs_similar {l : K} (hl : 0 < l) (x : K) : pabs (l * x) = l * pabs x := by
  rw [pabs_eq, pabs_eq, abs_mul, abs_of_pos hl]

lemma sqrtLt_similar {l : K} (hl : 0 < l) (x p : K) : sqrtLt (l * l * x) (l * p) = sqrtLt x p := by
  unfold sqrtLt
  have h1 : (0 < l * p) ↔ 0 < p := by constructor <;> intro h <;> [exact pos_of_mul_pos_right h hl.le; exact mul_pos hl h]
  have h2 : (l * l * x < l * p * (l * p)) ↔ x < p * p := by
    rw [show l * p * (l * p) = l * l * (p * p) by ring]
    exact mul_lt_mul_iff_right₀ (mul_pos hl hl)
  simp only [h1, h2]

lemma relLt_similar {c : K} (hc : 0 < c) (a b tol : K) : relLt (c * a) (c * b) tol = relLt a b tol := by
  unfold relLt
  have h1 : (c * a - c * b) / (c * a) = (a - b) / a := by rw [← mul_sub, mul_div_mul_left _ _ hc.ne']
  have h2 : c * a ≠ 0 ↔ a ≠ 0 := by simp [hc.ne']
  rw [h1]
  simp only [h2]

lemma hardness_at (c : K) (H : Hardness ι K) (i : κ) : (H.scaled e c).at i = c * H.at (e i) := by
  cases H <;> simp [Hardness.scaled, Hardness.at]

lemma hardness_isSome (c : K) (H : Hardness ι K) : (H.scaled e c).isSome = H.isSome := by
  cases H <;> rfl

lemma hardness_truth {c : K} (hc : 0 < c) (H : Hardness ι K) : (H.scaled e c).truth = H.truth := by
  cases H with
  | none => rfl
  | scalar H => simp [Hardness.scaled, Hardness.truth, hc.ne']
  | array H =>
    simp only [Hardness.scaled, Hardness.truth, Fintype.card_congr e]
    have : ∑ i, c * H (e i) = c * ∑ i, H i := by
      rw [← Finset.mul_sum, Equiv.sum_comp e H]
    rw [this]
    simp [hc.ne']

end basics

/-- States of similar runs.  `G_old` is only comparable once a direction is conjugated to it. -/
structure SimState (e : κ ≃ ι) (l c : K) (s : State ι K) (s' : State κ K) : Prop where
  f : s'.f = fun i => c * s.f (e i)
  u : s'.u = fun i => l * s.u (e i)
  t : s'.t = fun i => l * s.t (e i)
  delta : s'.delta = s.delta
  status : s'.status = s.status
  Gold : s.delta = true → s'.Gold = l * l * s.Gold
  mixfacCur : s'.mixfacCur = s.mixfacCur
  mixsteps : s'.mixsteps = s.mixsteps
  lastMaxHeight : s'.lastMaxHeight = s.lastMaxHeight.map (l * ·)
  lastTotalForce : s'.lastTotalForce = s.lastTotalForce.map (c * ·)
  offset : s'.offset = l * s.offset
  nfev : s'.nfev = s.nfev

/-- A `Mid` relabelled and in other units. -/
def Mid.scaled (e : κ ≃ ι) (l c : K) (m : Mid ι K) : Mid κ K where
  f i := c * m.f (e i)
  t i := l * m.t (e i)
  g i := l * m.g (e i)
  c i := m.c (e i)
  offset := l * m.offset
  G := l * l * m.G
  tau := c / l * m.tau
  status := m.status
  mixfacCur := m.mixfacCur
  mixsteps := m.mixsteps
  nfev := m.nfev

/-- A step relabelled and in other units. -/
structure SimStep (e : κ ≃ ι) (l c : K) (w : StepOut ι K) (w' : StepOut κ K) : Prop where
  next : SimState e l c w.next w'.next
  active : w'.c = fun i => w.c (e i)
  g : w'.g = fun i => l * w.g (e i)
  tau : w'.tau = c / l * w.tau
  maxPen : w'.maxPen = l * w.maxPen
  maxPres : w'.maxPres = c * w.maxPres
  converged : w'.converged = w.converged

variable {e : κ ≃ ι} {l c : K} {P : Problem ι K} {P' : Problem κ K} {o : Options ι K} {o' : Options κ K}
  {s : State ι K} {s' : State κ K}

lemma cgSet_similar (hc : 0 < c) (ho : SimilarOpt e l c o o') (hs : SimState e l c s s') :
    cgSet o' s' = fun i => cgSet o s (e i) := by
  funext i
  unfold cgSet
  rw [ho.hardness, hs.f, hardness_isSome, hardness_at]
  have h1 : (c * s.f (e i) < 0) ↔ s.f (e i) < 0 := by
    constructor <;> intro h
    · exact neg_of_mul_neg_right h hc.le
    · exact mul_neg_of_pos_of_neg hc h
  have h2 : (-(c * o.hardness.at (e i)) < c * s.f (e i)) ↔ -(o.hardness.at (e i)) < s.f (e i) := by
    rw [← mul_neg]; exact mul_lt_mul_iff_right₀ hc
  simp only [h1, h2]

lemma contact_similar (hc : 0 < c) (hs : SimState e l c s s') : contact s' = fun i => contact s (e i) := by
  funext i
  unfold contact
  rw [hs.f]
  have h1 : (c * s.f (e i) < 0) ↔ s.f (e i) < 0 := by
    constructor <;> intro h
    · exact neg_of_mul_neg_right h hc.le
    · exact mul_neg_of_pos_of_neg hc h
  simp only [h1]

lemma doCG_similar (hc : 0 < c) (ho : SimilarOpt e l c o o') (hs : SimState e l c s s') : doCG o' s' = doCG o s := by
  unfold doCG
  rw [cgSet_similar hc ho hs, contact_similar hc hs, count_similar, count_similar, ho.hardness, hardness_isSome, hs.mixsteps]

lemma cgOffset_similar (hc : 0 < c) (hP : Similar e l c P P') (ho : SimilarOpt e l c o o') (hs : SimState e l c s s') :
    cgOffset P' o' s' = l * cgOffset P o s := by
  unfold cgOffset
  rw [ho.externalForce]
  cases o.externalForce with
  | none => exact hs.offset
  | some F =>
    simp only [Option.map_some]
    rw [cgSet_similar hc ho hs, count_similar]
    split_ifs with h
    · have : sumOver (fun i => cgSet o s (e i) && P'.comp i) (fun i => s'.u i - P'.h i)
          = l * sumOver (fun i => cgSet o s i && P.comp i) (fun i => s.u i - P.h i) := by
        rw [← sumOver_similar e]
        congr 1
        · funext i; rw [hP.comp]
        · funext i; rw [hs.u, hP.h]; ring
      rw [this]; ring
    · simp

lemma cgDir_similar (hl : 0 < l) (hP : Similar e l c P P') (hs : SimState e l c s s') (a : ι → Bool) (g : ι → K) (G : K) :
    cgDir P' s' (fun i => a (e i)) (fun i => l * g (e i)) (l * l * G) = fun i => l * cgDir P s a g G (e i) := by
  funext i
  unfold cgDir
  rw [hP.comp, hs.delta, hs.t]
  by_cases hd : s.delta = true
  · rw [hd, hs.Gold hd]
    have h1 : (0 < l * l * s.Gold) ↔ 0 < s.Gold := by
      constructor <;> intro h
      · exact pos_of_mul_pos_right h (mul_pos hl hl).le
      · exact mul_pos (mul_pos hl hl) h
    have h2 : l * l * G / (l * l * s.Gold) = G / s.Gold := mul_div_mul_left _ _ (mul_pos hl hl).ne'
    simp only [h1, h2, Bool.true_and]
    split_ifs <;> ring
  · simp only [Bool.not_eq_true] at hd
    rw [hd]
    simp only [Bool.false_and, Bool.false_eq_true, if_false]
    split_ifs <;> ring

/-- `evaluate_disp` is homogeneous for the factor `k`; the search direction has the unit of a length. -/
def Homogeneous (k : K) (D : (ι → K) → (ι → K)) : Prop := ∀ f, D (fun i => k * f i) = fun i => k * D f i

lemma cgBranch_similar (hl : 0 < l) (hc : 0 < c) (hD : Homogeneous (l / c) P.disp) (hP : Similar e l c P P') (ho : SimilarOpt e l c o o')
    (hs : SimState e l c s s') : cgBranch P' o' s' = (cgBranch P o s).scaled e l c := by
  have hset := cgSet_similar hc ho hs
  have hoff := cgOffset_similar hc hP ho hs
  have hg : (fun i => s'.u i - P'.h i - l * cgOffset P o s) = fun i => l * (s.u (e i) - P.h (e i) - cgOffset P o s) := by
    funext i; rw [hs.u, hP.h]; ring
  have hG : sumOver (fun i => cgSet o s (e i) && P'.comp i) (fun i => l * (s.u (e i) - P.h (e i) - cgOffset P o s) * (l * (s.u (e i) - P.h (e i) - cgOffset P o s)))
      = l * l * sumOver (fun i => cgSet o s i && P.comp i) (fun i => (s.u i - P.h i - cgOffset P o s) * (s.u i - P.h i - cgOffset P o s)) := by
    rw [← sumOver_similar e]
    congr 1
    · funext i; rw [hP.comp]
    · funext i; ring
  have hdisp : ∀ t : ι → K, P'.disp (fun i => l * t (e i)) = fun i => l * (l / c) * P.disp t (e i) := by
    intro t
    have h1 : (fun i => l * t (e i)) = fun i => c * (fun j => l / c * t j) (e i) := by
      funext i; field_simp
    rw [h1]
    refine (hP.disp (fun j => l / c * t j)).trans ?_
    rw [hD]
    funext i; ring
  unfold cgBranch Mid.scaled
  dsimp only
  rw [hset, hoff]
  simp only [congrFun hg]
  rw [hG, cgDir_similar hl hP hs (cgSet o s) (fun i => s.u i - P.h i - cgOffset P o s), hdisp]
  obtain ⟨t, ht⟩ : ∃ t, t = cgDir P s (cgSet o s) (fun i => s.u i - P.h i - cgOffset P o s)
    (sumOver (fun i => cgSet o s i && P.comp i) fun i => (s.u i - P.h i - cgOffset P o s) * (s.u i - P.h i - cgOffset P o s)) := ⟨_, rfl⟩
  rw [← ht]
  have hx : sumOver (fun i => cgSet o s (e i)) (fun i => l * (l / c) * P.disp t (e i) * (l * t (e i)))
      = l * (l / c) * l * sumOver (cgSet o s) (fun i => P.disp t i * t i) := by
    rw [← sumOver_similar e]
    congr 1
    funext i; ring
  have hgt : sumOver (fun i => cgSet o s (e i) && P'.comp i) (fun i => l * (s.u (e i) - P.h (e i) - cgOffset P o s) * (l * t (e i)))
      = l * l * sumOver (fun i => cgSet o s i && P.comp i) (fun i => (s.u i - P.h i - cgOffset P o s) * t i) := by
    rw [← sumOver_similar e]
    congr 1
    · funext i; rw [hP.comp]
    · funext i; ring
  rw [hx, hgt, count_similar]
  have hk : 0 < l * (l / c) * l := by positivity
  have hneg : -(l * (l / c) * l * sumOver (cgSet o s) (fun i => P.disp t i * t i)) = l * (l / c) * l * -(sumOver (cgSet o s) (fun i => P.disp t i * t i)) := by ring
  rw [hneg]
  obtain ⟨X, hX⟩ : ∃ X, X = -(sumOver (cgSet o s) (fun i => P.disp t i * t i)) := ⟨_, rfl⟩
  rw [← hX]
  have hpos : (0 < l * (l / c) * l * X) ↔ 0 < X := by
    constructor <;> intro h
    · exact pos_of_mul_pos_right h hk.le
    · exact mul_pos hk h
  simp only [hpos]
  have htau : (if 0 < count (cgSet o s) ∧ 0 < X then l * l * sumOver (fun i => cgSet o s i && P.comp i) (fun i => (s.u i - P.h i - cgOffset P o s) * t i) / (l * (l / c) * l * X) else 0)
      = c / l * (if 0 < count (cgSet o s) ∧ 0 < X then sumOver (fun i => cgSet o s i && P.comp i) (fun i => (s.u i - P.h i - cgOffset P o s) * t i) / X else 0) := by
    split_ifs with h
    · have := h.2.ne'
      field_simp
    · simp
  rw [htau]
  congr 1
  · funext i
    rw [hs.f]
    split_ifs <;> field_simp
  · split_ifs <;> simp
  · rw [hs.status]
  · exact ho.mixfac
  · exact hs.mixsteps
  · rw [hs.nfev]

/-- The offset of a mixing step. -/
def mixOff (P : Problem ι K) (o : Options ι K) (s : State ι K) (g0 : ι → K) : Except PyErr K :=
  match o.externalForce with
  | none => .ok s.offset
  | some F =>
    match o.hardness with
    | .scalar H =>
      o.bisect (fun x => (count (fun i => P.comp i && decide (g0 i - x < 0)) : K) * H - F) (maxOver P.comp g0) (minOver P.comp g0)
    | _ => .error .valueError

/-- What a mixing step does once the offset is known. -/
def mixMid (P : Problem ι K) (o : Options ι K) (s : State ι K) (g0 : ι → K) (off : K) : Mid ι K where
  f i := (1 - s.mixfacCur) * s.f i - s.mixfacCur * (if (if P.comp i then decide (g0 i - off < 0) else cgSet o s i) then o.hardness.at i else 0)
  t := s.t
  g i := g0 i - off
  c i := if P.comp i then decide (g0 i - off < 0) else cgSet o s i
  offset := off
  G := 0
  tau := 0
  status := .mix
  mixfacCur := s.mixfacCur * o.mixdecfac
  mixsteps := (if s.status = .mix then s.mixsteps else o.minmixsteps) - 1
  nfev := s.nfev

lemma mixBranch_eq (P : Problem ι K) (o : Options ι K) (s : State ι K) :
    mixBranch P o s = (mixOff P o s fun i => s.u i - P.h i).map (mixMid P o s fun i => s.u i - P.h i) := by
  unfold mixBranch mixOff
  dsimp only
  cases o.externalForce with
  | none => rfl
  | some F =>
    cases hH : o.hardness with
    | none => rfl
    | array H => rfl
    | scalar H =>
      dsimp only
      generalize o.bisect _ _ _ = q
      cases q with
      | error e => rfl
      | ok off => simp [Except.map, mixMid, hH]

lemma mixBranch_similar (hl : 0 < l) (hc : 0 < c) (hP : Similar e l c P P') (ho : SimilarOpt e l c o o')
    (hs : SimState e l c s s') : mixBranch P' o' s' = (mixBranch P o s).map (Mid.scaled e l c) := by
  have hset := cgSet_similar hc ho hs
  have hg0 : (fun i => s'.u i - P'.h i) = fun i => l * (s.u (e i) - P.h (e i)) := by
    funext i; rw [hs.u, hP.h]; ring
  have hcomp : P'.comp = fun i => P.comp (e i) := funext hP.comp
  have hoff : mixOff P' o' s' (fun i => l * (s.u (e i) - P.h (e i))) = (mixOff P o s fun i => s.u i - P.h i).map (l * ·) := by
    unfold mixOff
    rw [ho.externalForce]
    cases o.externalForce with
    | none => simp [hs.offset, Except.map]
    | some F =>
      rw [ho.hardness]
      cases o.hardness with
      | none => rfl
      | array H => rfl
      | scalar H =>
        simp only [Option.map_some, Hardness.scaled]
        rw [← ho.bisect, hcomp, maxOver_similar e hl P.comp fun i => s.u i - P.h i, minOver_similar e hl P.comp fun i => s.u i - P.h i]
        congr 1
        funext x
        have : count (fun i => P.comp (e i) && decide (l * (s.u (e i) - P.h (e i)) - x < 0))
            = count (fun i => P.comp i && decide (s.u i - P.h i - x / l < 0)) := by
          rw [← count_similar e]
          congr 1
          funext i
          have : (l * (s.u (e i) - P.h (e i)) - x < 0) ↔ (s.u (e i) - P.h (e i) - x / l < 0) := by
            rw [sub_lt_zero, sub_lt_zero, lt_div_iff₀ hl, mul_comm]
          simp only [this]
        rw [this]; ring
  rw [mixBranch_eq, mixBranch_eq, hg0, hoff]
  generalize (mixOff P o s fun i => s.u i - P.h i) = offE
  cases offE with
  | error e => rfl
  | ok off =>
    have hneg : ∀ i, (l * (s.u (e i) - P.h (e i)) - l * off < 0) ↔ (s.u (e i) - P.h (e i) - off < 0) := by
      intro i
      rw [← mul_sub]
      constructor <;> intro h
      · exact neg_of_mul_neg_right h hl.le
      · exact mul_neg_of_pos_of_neg hl h
    simp only [Except.map, Mid.scaled, mixMid]
    congr 1
    congr 1
    · funext i
      rw [hs.f, hs.mixfacCur, hP.comp, hset, ho.hardness, hardness_at]
      simp only [hneg]
      split_ifs <;> ring
    · exact hs.t
    · funext i; ring
    · funext i
      rw [hP.comp, hset]
      simp only [hneg]
    · simp
    · simp
    · rw [hs.mixfacCur, ho.mixdecfac]
    · rw [hs.status, hs.mixsteps, ho.minmixsteps]
    · exact hs.nfev

lemma branch_similar (hl : 0 < l) (hc : 0 < c) (hD : Homogeneous (l / c) P.disp) (hP : Similar e l c P P') (ho : SimilarOpt e l c o o')
    (hs : SimState e l c s s') : branch P' o' s' = (branch P o s).map (Mid.scaled e l c) := by
  unfold branch
  rw [doCG_similar hc ho hs]
  split_ifs
  · rw [cgBranch_similar hl hc hD hP ho hs]; rfl
  · exact mixBranch_similar hl hc hP ho hs

section finish
variable {m : Mid ι K}

lemma tensile_similar (hc : 0 < c) : tensile (m.scaled e l c) = fun i => tensile m (e i) := by
  funext i
  have : (0 ≤ c * m.f (e i)) ↔ 0 ≤ m.f (e i) := by
    constructor <;> intro h
    · exact nonneg_of_mul_nonneg_right h hc
    · exact mul_nonneg hc.le h
  simp only [tensile, Mid.scaled, this]

lemma flowing_similar (hc : 0 < c) (ho : SimilarOpt e l c o o') : flowing o' (m.scaled e l c) = fun i => flowing o m (e i) := by
  funext i
  have : (c * m.f (e i) ≤ -(c * o.hardness.at (e i))) ↔ m.f (e i) ≤ -(o.hardness.at (e i)) := by
    rw [← mul_neg]; exact mul_le_mul_iff_right₀ hc
  simp only [flowing, Mid.scaled, ho.hardness, hardness_isSome, hardness_at, this]

lemma newContact_similar (hl : 0 < l) (hc : 0 < c) (hP : Similar e l c P P') (ho : SimilarOpt e l c o o') :
    newContact P' o' (m.scaled e l c) = fun i => newContact P o m (e i) := by
  funext i
  unfold newContact
  rw [tensile_similar hc, flowing_similar hc ho, hP.comp]
  have h1 : (l * m.g (e i) < 0) ↔ m.g (e i) < 0 := by
    constructor <;> intro h
    · exact neg_of_mul_neg_right h hl.le
    · exact mul_neg_of_pos_of_neg hl h
  have h2 : (0 < l * m.g (e i)) ↔ 0 < m.g (e i) := by
    constructor <;> intro h
    · exact pos_of_mul_pos_right h hl.le
    · exact mul_pos hl h
  simp only [Mid.scaled, h1, h2]

lemma clip_similar (hc : 0 < c) : clip (m.scaled e l c) = fun i => c * clip m (e i) := by
  funext i
  unfold clip
  rw [tensile_similar hc]
  simp only [Mid.scaled]
  split_ifs <;> simp

lemma rescale_similar (hc : 0 < c) (hP : Similar e l c P P') (ho : SimilarOpt e l c o o') (f : ι → K) :
    rescale P' o' (fun i => c * f (e i)) = fun i => c * rescale P o f (e i) := by
  unfold rescale
  rw [ho.externalForce]
  cases o.externalForce with
  | none => rfl
  | some F =>
    have hcomp : P'.comp = fun i => P.comp (e i) := funext hP.comp
    simp only [Option.map_some]
    rw [hcomp, sumOver_similar e c P.comp f, ← mul_neg, hP.nSurf]
    by_cases h : -(sumOver P.comp f) = 0
    · simp only [h, mul_zero, ne_eq, not_true_eq_false, if_false]
      funext i
      split_ifs
      · ring
      · simp
    · have h' : c * -(sumOver P.comp f) ≠ 0 := mul_ne_zero hc.ne' h
      simp only [ne_eq, h, h', not_false_eq_true, if_true]
      funext i
      rw [mul_div_mul_left _ _ hc.ne']; ring

lemma truncate_similar (hc : 0 < c) (ho : SimilarOpt e l c o o') (f : ι → K) :
    truncate o' (m.scaled e l c) (fun i => c * f (e i)) = fun i => c * truncate o m f (e i) := by
  funext i
  unfold truncate
  rw [flowing_similar hc ho, ho.hardness, hardness_at]
  split_ifs <;> simp

lemma addContact_similar (hl : 0 < l) (nc : ι → Bool) (f : ι → K) :
    addContact (m.scaled e l c) (fun i => nc (e i)) (fun i => c * f (e i)) = fun i => c * addContact m nc f (e i) := by
  funext i
  unfold addContact
  have hst : (m.scaled e l c).status = m.status := rfl
  rw [hst]
  by_cases h : m.status ≠ Status.mix ∧ nc (e i) = true
  · rw [if_pos h, if_pos h]; simp only [Mid.scaled]; field_simp
  · rw [if_neg h, if_neg h]

lemma stepForce_similar (hl : 0 < l) (hc : 0 < c) (hP : Similar e l c P P') (ho : SimilarOpt e l c o o') :
    stepForce P' o' (m.scaled e l c) = fun i => c * stepForce P o m (e i) := by
  unfold stepForce
  rw [newContact_similar hl hc hP ho, clip_similar hc, rescale_similar hc hP ho, truncate_similar hc ho, addContact_similar hl]

lemma stepStatus_similar (hl : 0 < l) (hc : 0 < c) (hP : Similar e l c P P') (ho : SimilarOpt e l c o o') :
    stepStatus P' o' (m.scaled e l c) = stepStatus P o m := by
  unfold stepStatus
  rw [newContact_similar hl hc hP ho, count_similar]
  rfl

lemma maxPres_similar (hc : 0 < c) (ho : SimilarOpt e l c o o') (hard : Bool) :
    maxPres o' (m.scaled e l c) hard = c * maxPres o m hard := by
  unfold maxPres
  rw [flowing_similar hc ho, tensile_similar hc, count_similar, count_similar]
  have h1 : maxOver (fun i => tensile m (e i)) (m.scaled e l c).f = c * maxOver (tensile m) m.f := maxOver_similar e hc _ _
  have h2 : minOver (fun i => flowing o m (e i)) (fun i => (m.scaled e l c).f i + o'.hardness.at i)
      = c * minOver (flowing o m) fun i => m.f i + o.hardness.at i := by
    rw [← minOver_similar e hc]
    congr 1
    funext i
    rw [ho.hardness, hardness_at]; simp only [Mid.scaled]; ring
  rw [h1, h2]
  have h3 : (if 0 < count (tensile m) then c * maxOver (tensile m) m.f else 0)
      = c * (if 0 < count (tensile m) then maxOver (tensile m) m.f else 0) := by split_ifs <;> simp
  simp only [h3]
  split_ifs
  all_goals (try rw [mul_max_of_nonneg _ _ hc.le]); simp

lemma maxPen_similar (hl : 0 < l) (hP : Similar e l c P P') (u : ι → K) :
    maxPen P' (m.scaled e l c) (fun i => l * u (e i)) = l * maxPen P m u := by
  unfold maxPen
  have h : maxOver P'.comp (fun i => if (m.scaled e l c).c i then P'.h i + (m.scaled e l c).offset - l * u (e i) else 0)
      = l * maxOver P.comp (fun i => if m.c i then P.h i + m.offset - u i else 0) := by
    rw [← maxOver_similar e hl]
    congr 1
    · exact funext hP.comp
    · funext i
      simp only [Mid.scaled, hP.h]
      split_ifs
      · ring
      · simp
  rw [h, mul_max_of_nonneg _ _ hl.le, mul_zero]

lemma convForce_similar (hc : 0 < c) (ho : SimilarOpt e l c o o') (hs : SimState e l c s s') (x : K) :
    convForce o' s' (c * x) = convForce o s x := by
  unfold convForce
  rw [ho.externalForce, hs.lastTotalForce, ho.thermotol]
  cases o.externalForce <;> cases s.lastTotalForce <;> simp [relLt_similar hc]

lemma convHeight_similar (hl : 0 < l) (ho : SimilarOpt e l c o o') (hs : SimState e l c s s') (x : K) :
    convHeight o' s' (l * x) = convHeight o s x := by
  unfold convHeight
  rw [ho.externalForce, hs.lastMaxHeight, ho.thermotol]
  cases o.externalForce <;> cases s.lastMaxHeight <;> simp [relLt_similar hl]

lemma finish_similar (hl : 0 < l) (hc : 0 < c) (hP : Similar e l c P P') (ho : SimilarOpt e l c o o')
    (hs : SimState e l c s s') (pentol : K) (hard : Bool) :
    SimStep e l c (finish P o pentol s m hard) (finish P' o' (l * pentol) s' (m.scaled e l c) hard) := by
  have hu : P'.disp (stepForce P' o' (m.scaled e l c)) = fun i => l * P.disp (stepForce P o m) (e i) := by
    rw [stepForce_similar hl hc hP ho]; exact hP.disp _
  have hdu : maxOver (fun _ => true) (fun i => pabs (P'.disp (stepForce P' o' (m.scaled e l c)) i - s'.u i))
      = l * maxOver (fun _ => true) fun i => pabs (P.disp (stepForce P o m) i - s.u i) := by
    rw [← maxOver_similar e hl, hu, hs.u]
    congr 1
    funext i
    rw [← mul_sub, pabs_similar hl]
  have hpad : (if 0 < count (fun i => !P'.comp i) then maxOver (fun i => !P'.comp i) (fun i => pabs ((m.scaled e l c).f i)) else 0)
      = c * (if 0 < count (fun i => !P.comp i) then maxOver (fun i => !P.comp i) (fun i => pabs (m.f i)) else 0) := by
    have h1 : (fun i => !P'.comp i) = fun i => (fun j => !P.comp j) (e i) := by funext i; rw [hP.comp]
    rw [h1, count_similar e fun j => !P.comp j]
    have h2 : maxOver (fun i => (fun j => !P.comp j) (e i)) (fun i => pabs ((m.scaled e l c).f i))
        = c * maxOver (fun i => !P.comp i) (fun i => pabs (m.f i)) := by
      rw [← maxOver_similar e hc]
      congr 1
      funext i
      simp only [Mid.scaled, pabs_similar hc]
    rw [h2]
    split_ifs <;> simp
  have hcomp : P'.comp = fun i => P.comp (e i) := funext hP.comp
  have htot : -(sumOver P'.comp (stepForce P' o' (m.scaled e l c))) = c * -(sumOver P.comp (stepForce P o m)) := by
    rw [stepForce_similar hl hc hP ho, hcomp, sumOver_similar e c P.comp, mul_neg]
  have hmaxH : maxOver P'.comp P'.h + (m.scaled e l c).offset = l * (maxOver P.comp P.h + m.offset) := by
    rw [hcomp, show P'.h = fun i => l * P.h (e i) from funext hP.h, maxOver_similar e hl P.comp P.h, mul_add]; rfl
  have hrms : sqrtLt (if 0 < count (cgSet o' s') then (m.scaled e l c).G / (count (cgSet o' s') : K) else (m.scaled e l c).G) (l * pentol)
      = sqrtLt (if 0 < count (cgSet o s) then m.G / (count (cgSet o s) : K) else m.G) pentol := by
    rw [cgSet_similar hc ho hs, count_similar e, ← sqrtLt_similar hl _ pentol]
    congr 1
    simp only [Mid.scaled]
    by_cases h : 0 < count (cgSet o s)
    · rw [if_pos h, if_pos h]; ring
    · rw [if_neg h, if_neg h]
  have hlt : ∀ {k : K} (_ : 0 < k) (a b : K), (k * a < k * b) ↔ a < b := fun hk a b => mul_lt_mul_iff_right₀ hk
  have hconv : (finish P' o' (l * pentol) s' (m.scaled e l c) hard).converged = (finish P o pentol s m hard).converged := by
    unfold finish
    dsimp only
    rw [hdu, hpad, htot, hmaxH, hrms, maxPres_similar hc ho, hu, maxPen_similar hl hP, stepStatus_similar hl hc hP ho,
      convForce_similar hc ho hs, convHeight_similar hl ho hs, ho.forcetol]
    simp only [hlt hl, hlt hc]
  refine ⟨?_, rfl, rfl, rfl, ?_, ?_, hconv⟩
  · refine ⟨stepForce_similar hl hc hP ho, hu, rfl, ?_, ?_, fun _ => rfl, rfl, rfl, ?_, ?_, rfl, rfl⟩
    · unfold finish; dsimp only; rw [stepStatus_similar hl hc hP ho]
    · exact stepStatus_similar hl hc hP ho
    · exact congrArg some hmaxH
    · exact congrArg some htot
  · have : (finish P' o' (l * pentol) s' (m.scaled e l c) hard).maxPen = maxPen P' (m.scaled e l c) (P'.disp (stepForce P' o' (m.scaled e l c))) := rfl
    rw [this, hu]; exact maxPen_similar hl hP _
  · exact maxPres_similar hc ho hard

end finish

/-- A pass through the loop of a similar run: it ends with the same exception or with a similar state. -/
lemma step_similar (hl : 0 < l) (hc : 0 < c) (hD : Homogeneous (l / c) P.disp) (hP : Similar e l c P P') (ho : SimilarOpt e l c o o')
    (hs : SimState e l c s s') (pentol : K) :
    (∃ x, step P o pentol s = .error x ∧ step P' o' (l * pentol) s' = .error x) ∨
    ∃ w w', step P o pentol s = .ok w ∧ step P' o' (l * pentol) s' = .ok w' ∧ SimStep e l c w w' := by
  unfold step
  rw [branch_similar hl hc hD hP ho hs, ho.hardness, hardness_truth e hc]
  cases branch P o s with
  | error x => exact Or.inl ⟨x, rfl, rfl⟩
  | ok m =>
    cases o.hardness.truth with
    | error x => exact Or.inl ⟨x, rfl, rfl⟩
    | ok hard => exact Or.inr ⟨_, _, rfl, rfl, finish_similar hl hc hP ho hs pentol hard⟩

/-- A result relabelled and in other units. -/
def Result.scaled (e : κ ≃ ι) (l c : K) (r : Result ι K) : Result κ K where
  x i := l * r.x (e i)
  jac i := c * r.jac (e i)
  activeSet i := r.activeSet (e i)
  plastic := r.plastic.map fun p i => p (e i)
  fun_ := l * c * r.fun_
  offset := l * r.offset
  success := r.success
  nit := r.nit
  nfev := r.nfev
  maxPen := l * r.maxPen
  maxPres := c * r.maxPres
  status := r.status
  tau := c / l * r.tau

lemma mkResult_similar (hl : 0 < l) (hP : Similar e l c P P') (ho : SimilarOpt e l c o o') {w : StepOut ι K} {w' : StepOut κ K}
    (hw : SimStep e l c w w') (nit : ℕ) (ok : Bool) : mkResult P' o' nit ok w' = (mkResult P o nit ok w).scaled e l c := by
  have hneg : ∀ x, (l * x < 0) ↔ x < 0 := by
    intro x
    constructor <;> intro h
    · exact neg_of_mul_neg_right h hl.le
    · exact mul_neg_of_pos_of_neg hl h
  unfold mkResult Result.scaled
  congr 1
  · exact hw.next.u
  · funext i
    rw [hP.slice, hw.next.f]
    dsimp only
    split_ifs <;> simp
  · rw [hw.next.status, hw.active, hw.g]
    dsimp only
    split_ifs
    · funext i; simp only [hP.comp, hneg]
    · rfl
  · rw [ho.hardness, hardness_isSome, hw.g]
    dsimp only
    split_ifs
    · simp only [Option.map_some, hP.comp, hP.slice, hneg]
    · rfl
  · have : sumOver P'.slice (fun i => w'.next.f i * w'.next.u i) = l * c * sumOver P.slice fun i => w.next.f i * w.next.u i := by
      rw [← sumOver_similar e]
      congr 1
      · exact funext hP.slice
      · funext i; rw [hw.next.f, hw.next.u]; ring
    rw [this]; dsimp only; ring
  · exact hw.next.offset
  · exact hw.next.nfev
  · exact hw.maxPen
  · exact hw.maxPres
  · exact hw.next.status
  · exact hw.tau

/-- What a run hands to the user: the result and the forces the callback has seen, relabelled and in other units. -/
def scaledRun (e : κ ≃ ι) (l c : K) (r : Result ι K × List (ℕ × (ι → K))) : Result κ K × List (ℕ × (κ → K)) :=
  (r.1.scaled e l c, r.2.map fun q => (q.1, fun i => c * q.2 (e i)))

lemma loop_similar (hl : 0 < l) (hc : 0 < c) (hD : Homogeneous (l / c) P.disp) (hP : Similar e l c P P') (ho : SimilarOpt e l c o o')
    (pentol : K) : ∀ (fuel it : ℕ) (s : State ι K) (s' : State κ K) (cb : List (ℕ × (ι → K))) (w : Option (StepOut ι K)) (w' : Option (StepOut κ K)),
      SimState e l c s s' → Option.Rel (SimStep e l c) w w' →
      loop P' o' (l * pentol) fuel it s' (cb.map fun q => (q.1, fun i => c * q.2 (e i))) w'
        = (loop P o pentol fuel it s cb w).map (scaledRun e l c) := by
  intro fuel
  induction fuel with
  | zero =>
    intro it s s' cb w w' _ hw
    cases hw with
    | none => rfl
    | some hw => simp only [loop, Except.map, scaledRun, mkResult_similar hl hP ho hw]
  | succ fuel ih =>
    intro it s s' cb w w' hs _
    unfold loop
    rcases step_similar hl hc hD hP ho hs pentol with ⟨x, h1, h2⟩ | ⟨w, w', h1, h2, hw⟩
    · rw [h1, h2]; rfl
    · rw [h1, h2]
      dsimp only
      rw [hw.converged]
      split_ifs
      · simp only [Except.map, scaledRun, mkResult_similar hl hP ho hw]
      · rw [← ih (it + 1) w.next w'.next _ (some w) (some w') hw.next (Option.Rel.some hw)]
        rw [hw.next.f]
        simp

lemma initState_similar (hl : 0 < l) (hP : Similar e l c P P') (ho : SimilarOpt e l c o o') :
    SimState e l c (initState P o) (initState P' o') := by
  have hoff : o'.offset.getD 0 = l * o.offset.getD 0 := by rw [ho.offset]; cases o.offset <;> simp
  have hu0 : o'.initialDisplacements.getD (fun _ => 0) = fun i => l * (o.initialDisplacements.getD fun _ => 0) (e i) := by
    rw [ho.initialDisplacements]; cases o.initialDisplacements <;> simp
  have hU : initU P' o' = fun i => l * initU P o (e i) := by
    funext i
    unfold initU
    rw [hoff, hu0]
    simp only [hP.comp, hP.h]
    have : (l * (o.initialDisplacements.getD fun _ => 0) (e i) < l * P.h (e i) + l * o.offset.getD 0)
        ↔ (o.initialDisplacements.getD fun _ => 0) (e i) < P.h (e i) + o.offset.getD 0 := by
      rw [← mul_add]; exact mul_lt_mul_iff_right₀ hl
    simp only [this]
    split_ifs <;> ring
  have hf : (initState P' o').f = fun i => c * (initState P o).f (e i) := by
    funext i
    unfold initState
    rw [ho.initialForces]
    cases o.initialForces with
    | none =>
      simp only [Option.map_none, hP.comp]
      rw [hU, hP.force]
      split_ifs <;> simp
    | some f0 =>
      simp only [Option.map_some, hP.comp]
      split_ifs <;> simp
  have hu : (initState P' o').u = fun i => l * (initState P o).u (e i) := by
    unfold initState
    rw [ho.initialForces]
    cases o.initialForces with
    | none => exact hU
    | some f0 => exact hP.disp f0
  refine ⟨hf, hu, ?_, rfl, rfl, fun h => absurd h (by simp [initState]), ho.mixfac, rfl, rfl, rfl, hoff, rfl⟩
  simp [initState]

/-- The tolerance the solver chooses is a length unless it falls back to the number `1e-3`. -/
lemma pentolOf_similar (hl : 0 < l) (hP : Similar e l c P P') (ho : SimilarOpt e l c o o')
    (hpt : l = 1 ∨ o.pentol ≠ none ∨ P.rmsHeight / (10 * P.meanGrid) ≠ 0) :
    pentolOf P' o' = (pentolOf P o).map (l * ·) := by
  unfold pentolOf
  rw [ho.pentol]
  cases hp : o.pentol with
  | some p => rfl
  | none =>
    have h' : P'.rmsHeight / (10 * P'.meanGrid) = l * (P.rmsHeight / (10 * P.meanGrid)) := by
      rw [hP.rmsHeight, hP.meanGrid]; ring
    simp only [Option.map_none]
    by_cases h : P.rmsHeight / (10 * P.meanGrid) ≠ 0
    · rw [if_pos h, h', if_pos (mul_ne_zero hl.ne' h)]
      rfl
    · have hl1 : l = 1 := by
        rcases hpt with h1 | h1 | h1
        · exact h1
        · exact absurd hp h1
        · exact absurd h1 h
      subst hl1
      have hsum : sumOver P'.comp P'.h = sumOver P.comp P.h := by
        rw [show P'.comp = fun i => P.comp (e i) from funext hP.comp, show P'.h = fun i => 1 * P.h (e i) from funext hP.h,
          sumOver_similar e 1 P.comp P.h, one_mul]
      have hid : ∀ q : Except PyErr K, q.map (1 * ·) = q := by
        intro q; cases q <;> simp [Except.map]
      rw [hid, h', one_mul, if_neg h, if_neg h, ho.offset, hsum, hP.nSurf]
      cases o.offset <;> simp

/-- Similar calls have similar outcomes. -/
theorem solve_similar (hl : 0 < l) (hc : 0 < c) (hD : Homogeneous (l / c) P.disp) (hP : Similar e l c P P') (ho : SimilarOpt e l c o o')
    (hpt : l = 1 ∨ o.pentol ≠ none ∨ P.rmsHeight / (10 * P.meanGrid) ≠ 0) :
    solveCb P' o' = (solveCb P o).map (scaledRun e l c) := by
  unfold solveCb
  rw [pentolOf_similar hl hP ho hpt, ho.maxiter]
  cases pentolOf P o with
  | error x => rfl
  | ok pentol =>
    exact loop_similar hl hc hD hP ho pentol o.maxiter 0 _ _ [] none none (initState_similar hl hP ho) Option.Rel.none

/-! ## Relabelling -/

/-- The same problem with the grid points called by other names. -/
def Problem.relabel (e : κ ≃ ι) (P : Problem ι K) : Problem κ K where
  disp f i := P.disp (fun j => f (e.symm j)) (e i)
  force u i := P.force (fun j => u (e.symm j)) (e i)
  comp i := P.comp (e i)
  slice i := P.slice (e i)
  h i := P.h (e i)
  nSurf := P.nSurf
  rmsHeight := P.rmsHeight
  meanGrid := P.meanGrid

/-- The same options with the grid points called by other names. -/
def Options.relabel (e : κ ≃ ι) (o : Options ι K) : Options κ K where
  hardness := match o.hardness with
    | .none => .none
    | .scalar H => .scalar H
    | .array H => .array fun i => H (e i)
  externalForce := o.externalForce
  offset := o.offset
  initialDisplacements := o.initialDisplacements.map fun u i => u (e i)
  initialForces := o.initialForces.map fun f i => f (e i)
  pentol := o.pentol
  forcetol := o.forcetol
  thermotol := o.thermotol
  mixfac := o.mixfac
  mixdecfac := o.mixdecfac
  minmixsteps := o.minmixsteps
  maxiter := o.maxiter
  bisect := o.bisect

/-- The same result with the grid points called by other names. -/
def Result.relabel (e : κ ≃ ι) (r : Result ι K) : Result κ K where
  x i := r.x (e i)
  jac i := r.jac (e i)
  activeSet i := r.activeSet (e i)
  plastic := r.plastic.map fun p i => p (e i)
  fun_ := r.fun_
  offset := r.offset
  success := r.success
  nit := r.nit
  nfev := r.nfev
  maxPen := r.maxPen
  maxPres := r.maxPres
  status := r.status
  tau := r.tau

lemma scaled_one (r : Result ι K) : r.scaled e 1 1 = r.relabel e := by
  simp [Result.scaled, Result.relabel]

lemma similar_relabel (e : κ ≃ ι) (P : Problem ι K) : Similar e 1 1 P (P.relabel e) := by
  constructor <;> intros <;> simp [Problem.relabel]

lemma similarOpt_relabel (e : κ ≃ ι) (o : Options ι K) : SimilarOpt e 1 1 o (o.relabel e) := by
  constructor <;> try (simp [Options.relabel]; done)
  · simp only [Options.relabel]
    cases o.hardness <;> simp [Hardness.scaled]
  · intro f a b
    simp only [Options.relabel, one_mul, div_one]
    cases o.bisect f a b <;> simp [Except.map]

/-- **C150** The order in which the grid points are numbered does not matter to the solver: with the grid points renamed, the run
takes the same iterations, ends the same way (same exception, or same success flag) and every field of the result and every force
field handed to the callback is the original one under the new names. -/
theorem C150_relabelling (e : κ ≃ ι) (P : Problem ι K) (o : Options ι K) :
    solveCb (P.relabel e) (o.relabel e) =
      (solveCb P o).map fun r => (r.1.relabel e, r.2.map fun q => (q.1, fun i => q.2 (e i))) := by
  rw [solve_similar zero_lt_one zero_lt_one (fun f => by simp) (similar_relabel e P) (similarOpt_relabel e o) (Or.inl rfl)]
  congr 1
  funext r
  simp [scaledRun, scaled_one]

/-- **C150** In particular a permutation of the grid under which the substrate is invariant (a translation of a periodic grid, a
reflection) carries the solution for a surface to the solution for the permuted surface. -/
theorem C150_symmetry (e : ι ≃ ι) (P : Problem ι K) (o : Options ι K)
    (hd : ∀ f, P.disp (fun i => f (e i)) = fun i => P.disp f (e i))
    (hf : ∀ u, P.force (fun i => u (e i)) = fun i => P.force u (e i))
    (hcomp : ∀ i, P.comp (e i) = P.comp i) (hslice : ∀ i, P.slice (e i) = P.slice i) :
    solve { P with h := fun i => P.h (e i) } (o.relabel e) = (solve P o).map fun r => r.relabel e := by
  have hs : Similar e 1 1 P { P with h := fun i => P.h (e i) } := by
    constructor <;> intros <;> simp [hd, hf, hcomp, hslice]
  unfold solve
  rw [solve_similar zero_lt_one zero_lt_one (fun f => by simp) hs (similarOpt_relabel e o) (Or.inl rfl)]
  cases solveCb P o <;> simp [Except.map, scaledRun, scaled_one]

/-! ## Units -/

/-- The same problem with lengths measured in a unit `1 / l` and forces in a unit `1 / c`. -/
def Problem.inUnits (l c : K) (P : Problem ι K) : Problem ι K where
  disp f i := l * P.disp (fun j => f j / c) i
  force u i := c * P.force (fun j => u j / l) i
  comp := P.comp
  slice := P.slice
  h i := l * P.h i
  nSurf := P.nSurf
  rmsHeight := l * P.rmsHeight
  meanGrid := P.meanGrid

/-- The same options in these units: offset, initial displacements and penetration tolerance are lengths; hardness, load, initial
forces and force tolerance are forces; the search interval of the bisection is a length and the function it is given a force. -/
def Options.inUnits (l c : K) (o : Options ι K) : Options ι K where
  hardness := match o.hardness with
    | .none => .none
    | .scalar H => .scalar (c * H)
    | .array H => .array fun i => c * H i
  externalForce := o.externalForce.map (c * ·)
  offset := o.offset.map (l * ·)
  initialDisplacements := o.initialDisplacements.map fun u i => l * u i
  initialForces := o.initialForces.map fun f i => c * f i
  pentol := o.pentol.map (l * ·)
  forcetol := c * o.forcetol
  thermotol := o.thermotol
  mixfac := o.mixfac
  mixdecfac := o.mixdecfac
  minmixsteps := o.minmixsteps
  maxiter := o.maxiter
  bisect f a b := (o.bisect (fun x => f (l * x) / c) (a / l) (b / l)).map (l * ·)

/-- The same result in these units; the energy is a length times a force. -/
def Result.inUnits (l c : K) (r : Result ι K) : Result ι K where
  x i := l * r.x i
  jac i := c * r.jac i
  activeSet := r.activeSet
  plastic := r.plastic
  fun_ := l * c * r.fun_
  offset := l * r.offset
  success := r.success
  nit := r.nit
  nfev := r.nfev
  maxPen := l * r.maxPen
  maxPres := c * r.maxPres
  status := r.status
  tau := c / l * r.tau

lemma similar_units (hl : 0 < l) (hc : 0 < c) (P : Problem ι K) : Similar (Equiv.refl ι) l c P (P.inUnits l c) := by
  have := hl.ne'
  have := hc.ne'
  constructor <;> intros <;> simp [Problem.inUnits, mul_div_cancel_left₀, *]

lemma similarOpt_units (hl : 0 < l) (hc : 0 < c) (o : Options ι K) : SimilarOpt (Equiv.refl ι) l c o (o.inUnits l c) := by
  have h1 := hl.ne'
  have h2 := hc.ne'
  constructor <;> try (simp [Options.inUnits]; done)
  · simp only [Options.inUnits]
    cases o.hardness <;> simp [Hardness.scaled]
  · intro f a b
    simp only [Options.inUnits]
    simp [mul_div_cancel_left₀, h1, h2]

/-- **C151** The solver does not depend on the system of units, provided the substrate answers proportionally and the penetration
tolerance is given (or follows from a surface that is not flat): the run takes the same iterations, and every number it returns is
the original one in the new units. -/
theorem C151_units (hl : 0 < l) (hc : 0 < c) (P : Problem ι K) (o : Options ι K)
    (hlin : ∀ (k : K) f, P.disp (fun i => k * f i) = fun i => k * P.disp f i)
    (hpt : o.pentol ≠ none ∨ P.rmsHeight / (10 * P.meanGrid) ≠ 0) :
    solveCb (P.inUnits l c) (o.inUnits l c) =
      (solveCb P o).map fun r => (r.1.inUnits l c, r.2.map fun q => (q.1, fun i => c * q.2 i)) := by
  rw [solve_similar hl hc (hlin _) (similar_units hl hc P) (similarOpt_units hl hc o) (Or.inr hpt)]
  congr 1
  funext r
  simp [scaledRun, Result.scaled, Result.inUnits]

/-- The demonstration problem has the symmetry that exchanges the first two points, and it is solved: the exchanged problem is
solved with the exchanged forces. -/
example : ∃ r r', solve (demo ![5, 8, 0]) demoOpt = .ok r ∧ r.success = true ∧
    solve (demo ![8, 5, 0]) (demoOpt.relabel (Equiv.swap 0 1)) = .ok r' ∧ r'.jac 0 = r.jac 1 ∧ r'.jac 1 = r.jac 0 := by
  obtain ⟨r, cb, h, hs, -⟩ := demo_run
  have hmat : ∀ (a b : ℚ) (f : Fin 3 → ℚ), matDisp (fun i j => if i = j then a else b) (fun i => f (Equiv.swap 0 1 i))
      = fun i => matDisp (fun i j => if i = j then a else b) f (Equiv.swap 0 1 i) := by
    intro a b f
    funext i
    simp only [matDisp]
    rw [← Equiv.sum_comp (Equiv.swap (0 : Fin 3) 1) (fun j => (if Equiv.swap 0 1 i = j then a else b) * f j)]
    simp
  have k := C150_symmetry (Equiv.swap 0 1) (demo ![5, 8, 0]) demoOpt (hmat _ _) (hmat _ _) (by decide) (by decide)
  have hP : { demo ![5, 8, 0] with h := fun i => (demo ![5, 8, 0]).h (Equiv.swap 0 1 i) } = demo ![8, 5, 0] := by
    have : (fun i => (demo ![5, 8, 0]).h (Equiv.swap 0 1 i)) = ![8, 5, 0] := by decide +kernel
    rw [this]; rfl
  have hsol : solve (demo ![5, 8, 0]) demoOpt = .ok r := by unfold solve; rw [h]; rfl
  rw [hP, hsol] at k
  exact ⟨r, _, hsol, hs, k, rfl, rfl⟩

/-- The demonstration problem in millimetres and millinewtons. -/
example : ∃ r cb, solveCb ((demo ![5, 8, 0]).inUnits 1000 1000) (demoOpt.inUnits 1000 1000) = .ok (r, cb) ∧ r.success = true := by
  obtain ⟨r, cb, h, hs, -⟩ := demo_run
  have k := C151_units (l := 1000) (c := 1000) (by norm_num) (by norm_num) (demo ![5, 8, 0]) demoOpt
    (fun k f => by funext i; simp only [demo, matDisp]; rw [mul_neg, Finset.mul_sum]; congr 1; refine Finset.sum_congr rfl fun j _ => ?_; ring) (Or.inl (by simp [demoOpt]))
  rw [h] at k
  exact ⟨_, _, k, hs⟩

end CM.CCG
