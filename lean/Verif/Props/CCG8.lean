import Verif.Props.CCG7
/-!
# C154 what a topography stores at its undefined points has no influence on a calculation
-/
set_option linter.unusedSectionVars false
set_option linter.unusedSimpArgs false
namespace CM.CCG
open Finset CM.Spec

variable {ι K : Type} [Fintype ι] [Field K] [LinearOrder K] [IsStrictOrderedRing K]

/-- The same problem, with other heights. -/
def withHeights (P : Problem ι K) (h : ι → K) : Problem ι K := { P with h := h }

variable {P : Problem ι K} {o : Options ι K} {s : State ι K} {h : ι → K}

lemma sumOver_congr {p : ι → Bool} {a b : ι → K} (hab : ∀ i, p i = true → a i = b i) : sumOver p a = sumOver p b := by
  unfold sumOver
  refine sum_congr rfl fun i _ => ?_
  split_ifs with hp
  · exact hab i hp
  · rfl

lemma maxOver_congr {p : ι → Bool} {a b : ι → K} (hab : ∀ i, p i = true → a i = b i) : maxOver p a = maxOver p b := by
  unfold maxOver
  split_ifs with hn
  · exact Finset.sup'_congr hn rfl fun i hi => hab i (mem_filter.1 hi).2
  · rfl

lemma minOver_congr {p : ι → Bool} {a b : ι → K} (hab : ∀ i, p i = true → a i = b i) : minOver p a = minOver p b := by
  unfold minOver
  split_ifs with hn
  · exact Finset.inf'_congr hn rfl fun i hi => hab i (mem_filter.1 hi).2
  · rfl

/-- Two outcomes of the branch that differ in the gap at undefined points only. -/
def MidEq (P : Problem ι K) (m m' : Mid ι K) : Prop := ∃ g, (∀ i, P.comp i = true → g i = m.g i) ∧ m' = { m with g := g }

/-- Two outcomes of an iteration that differ in the gap at undefined points only. -/
def OutEq (P : Problem ι K) (w w' : StepOut ι K) : Prop := ∃ g, (∀ i, P.comp i = true → g i = w.g i) ∧ w' = { w with g := g }

section
variable (hh : ∀ i, P.comp i = true → h i = P.h i)
include hh

lemma cgOffset_masked : cgOffset (withHeights P h) o s = cgOffset P o s := by
  unfold cgOffset
  cases o.externalForce with
  | none => rfl
  | some F =>
    have : sumOver (fun i => cgSet o s i && (withHeights P h).comp i) (fun i => s.u i - (withHeights P h).h i)
        = sumOver (fun i => cgSet o s i && P.comp i) (fun i => s.u i - P.h i) := by
      refine sumOver_congr fun i hi => ?_
      simp only [Bool.and_eq_true] at hi
      show s.u i - h i = _
      rw [hh i hi.2]
    simp only [this]

lemma cgBranch_masked : MidEq P (cgBranch P o s) (cgBranch (withHeights P h) o s) := by
  refine ⟨fun i => s.u i - h i - cgOffset P o s, fun i hi => by simp only [cgBranch]; rw [hh i hi], ?_⟩
  have hG : ∀ (q : ι → K → K → K), sumOver (fun i => cgSet o s i && P.comp i) (fun i => q i (s.u i - h i - cgOffset P o s) (s.u i - h i - cgOffset P o s))
      = sumOver (fun i => cgSet o s i && P.comp i) (fun i => q i (s.u i - P.h i - cgOffset P o s) (s.u i - P.h i - cgOffset P o s)) := by
    intro q
    refine sumOver_congr fun i hi => ?_
    simp only [Bool.and_eq_true] at hi
    rw [hh i hi.2]
  have h1 := hG fun _ a b => a * b
  have hdir : ∀ G, cgDir (withHeights P h) s (cgSet o s) (fun i => s.u i - h i - cgOffset P o s) G
      = cgDir P s (cgSet o s) (fun i => s.u i - P.h i - cgOffset P o s) G := by
    intro G
    funext i
    unfold cgDir
    show (if P.comp i then _ else _) = (if P.comp i then _ else _)
    split_ifs with hc <;> first | rfl | (beta_reduce; rw [hh i hc])
  unfold cgBranch
  rw [cgOffset_masked hh]
  simp only [withHeights] at hdir ⊢
  simp only [h1, hdir]
  have h2 := hG fun i a _ => a * cgDir P s (cgSet o s) (fun i => s.u i - P.h i - cgOffset P o s)
    (sumOver (fun i => cgSet o s i && P.comp i) fun i => (s.u i - P.h i - cgOffset P o s) * (s.u i - P.h i - cgOffset P o s)) i
  simp only [h2]

/-- Two outcomes, related if both raise the same or both are related. -/
def RelE {A B : Type} (R : A → B → Prop) : Except PyErr A → Except PyErr B → Prop
  | .error e, .error e' => e = e'
  | .ok a, .ok b => R a b
  | _, _ => False

lemma mixBranch_masked : RelE (MidEq P) (mixBranch P o s) (mixBranch (withHeights P h) o s) := by
  have hcnt : ∀ x : K, count (fun i => P.comp i && decide (s.u i - h i - x < 0)) = count (fun i => P.comp i && decide (s.u i - P.h i - x < 0)) := by
    intro x
    unfold count
    congr 1
    ext i
    simp only [mem_filter, mem_univ, true_and, Bool.and_eq_true]
    constructor <;> rintro ⟨h1, h2⟩ <;> refine ⟨h1, ?_⟩
    · rwa [hh i h1] at h2
    · rwa [hh i h1]
  have hmax : maxOver P.comp (fun i => s.u i - h i) = maxOver P.comp fun i => s.u i - P.h i := maxOver_congr fun i hi => by rw [hh i hi]
  have hmin : minOver P.comp (fun i => s.u i - h i) = minOver P.comp fun i => s.u i - P.h i := minOver_congr fun i hi => by rw [hh i hi]
  have hoff : mixOff (withHeights P h) o s (fun i => s.u i - h i) = mixOff P o s fun i => s.u i - P.h i := by
    unfold mixOff
    simp only [withHeights, hcnt, hmax, hmin]
  have e : (withHeights P h).h = h := rfl
  rw [mixBranch_eq, mixBranch_eq, e, hoff]
  cases mixOff P o s fun i => s.u i - P.h i with
  | error e => exact rfl
  | ok off =>
    show MidEq P (mixMid P o s _ off) (mixMid _ o s _ off)
    refine ⟨fun i => s.u i - h i - off, fun i hi => by simp only [mixMid]; rw [hh i hi], ?_⟩
    simp only [mixMid, withHeights]
    congr 1 <;> funext i <;> by_cases hc : P.comp i = true <;> simp [hc, hh i]

lemma branch_masked : RelE (MidEq P) (branch P o s) (branch (withHeights P h) o s) := by
  unfold branch
  split_ifs
  · exact cgBranch_masked hh
  · exact mixBranch_masked hh

lemma finish_masked {m m' : Mid ι K} (hm : MidEq P m m') (pentol : K) (hard : Bool) :
    OutEq P (finish P o pentol s m hard) (finish (withHeights P h) o pentol s m' hard) := by
  obtain ⟨g, hg, rfl⟩ := hm
  have hnc : newContact (withHeights P h) o { m with g := g } = newContact P o m := by
    funext i
    unfold newContact
    show (P.comp i && _) = _
    by_cases hc : P.comp i = true
    · simp only [hg i hc]; rfl
    · simp only [Bool.not_eq_true] at hc; simp [hc]
  have hf : stepForce (withHeights P h) o { m with g := g } = stepForce P o m := by
    unfold stepForce
    rw [hnc]
    funext i
    unfold addContact
    dsimp only
    have e : truncate o { m with g := g } (rescale (withHeights P h) o (clip { m with g := g })) = truncate o m (rescale P o (clip m)) := rfl
    rw [e]
    by_cases hn : newContact P o m i = true
    · have hc : P.comp i = true := by
        unfold newContact at hn
        simp only [Bool.and_eq_true] at hn
        exact hn.1
      rw [hg i hc]
    · simp [hn]
  have hst : stepStatus (withHeights P h) o { m with g := g } = stepStatus P o m := by
    unfold stepStatus
    rw [hnc]
  have hpen : ∀ u, maxPen (withHeights P h) { m with g := g } u = maxPen P m u := by
    intro u
    unfold maxPen
    congr 1
    refine maxOver_congr (p := P.comp) fun i hi => ?_
    show (if m.c i then h i + _ - _ else _) = _
    rw [hh i hi]
  have hmx : maxOver (withHeights P h).comp (withHeights P h).h = maxOver P.comp P.h := maxOver_congr (p := P.comp) hh
  have hmp : maxPres o { m with g := g } hard = maxPres o m hard := rfl
  refine ⟨g, hg, ?_⟩
  unfold finish
  simp only [hnc, hf, hst, hpen, hmx, hmp]
  rfl

lemma step_masked (pentol : K) : RelE (OutEq P) (step P o pentol s) (step (withHeights P h) o pentol s) := by
  unfold step
  have hb := branch_masked hh (o := o) (s := s)
  cases h1 : branch P o s with
  | error e =>
    cases h2 : branch (withHeights P h) o s with
    | error e' => rw [h1, h2] at hb; exact hb
    | ok m' => rw [h1, h2] at hb; cases hb
  | ok m =>
    cases h2 : branch (withHeights P h) o s with
    | error e' => rw [h1, h2] at hb; cases hb
    | ok m' =>
      rw [h1, h2] at hb
      cases o.hardness.truth with
      | error e => exact rfl
      | ok hard => exact finish_masked hh hb pentol hard

omit hh in
lemma mkResult_masked {w w' : StepOut ι K} (hw : OutEq P w w') (n : ℕ) (b : Bool) :
    mkResult (withHeights P h) o n b w' = mkResult P o n b w := by
  obtain ⟨g, hg, rfl⟩ := hw
  have h2 : (fun i => P.slice i && P.comp i && decide (g i < 0)) = fun i => P.slice i && P.comp i && decide (w.g i < 0) := by
    funext i
    by_cases hc : P.comp i = true
    · rw [hg i hc]
    · simp only [Bool.not_eq_true] at hc; simp [hc]
  unfold mkResult
  simp only [withHeights, h2]
  congr 1
  split_ifs
  · funext i
    by_cases hc : P.comp i = true <;> simp [hc, hg i]
  · rfl

lemma loop_masked (pentol : K) : ∀ (fuel it : ℕ) (s : State ι K) (cb : List (ℕ × (ι → K))) (w w' : Option (StepOut ι K)),
    Option.Rel (OutEq P) w w' → loop (withHeights P h) o pentol fuel it s cb w' = loop P o pentol fuel it s cb w
  | 0, it, s, cb, none, none, _ => rfl
  | 0, it, s, cb, some w, some w', .some hw => by
    simp only [loop]
    rw [mkResult_masked hw]
  | fuel + 1, it, s, cb, w, w', _ => by
    simp only [loop]
    have hs := step_masked hh (o := o) (s := s) pentol
    cases h1 : step P o pentol s with
    | error e =>
      cases h2 : step (withHeights P h) o pentol s with
      | error e' => rw [h1, h2] at hs; exact congrArg _ hs.symm
      | ok v' => rw [h1, h2] at hs; cases hs
    | ok v =>
      cases h2 : step (withHeights P h) o pentol s with
      | error e' => rw [h1, h2] at hs; cases hs
      | ok v' =>
        rw [h1, h2] at hs
        dsimp only
        have h3 : OutEq P v v' := hs
        rw [mkResult_masked h3]
        obtain ⟨g, hg, e⟩ := h3
        have e1 : v'.converged = v.converged := by rw [e]
        have e2 : v'.next = v.next := by rw [e]
        rw [e1, e2]
        split_ifs
        · rfl
        · exact loop_masked pentol fuel (it + 1) v.next _ (some v) (some v') (.some ⟨g, hg, e⟩)

lemma initState_masked : initState (withHeights P h) o = initState P o := by
  have : initU (withHeights P h) o = initU P o := by
    funext i
    unfold initU
    show (if P.comp i then (if _ < h i + _ then h i + _ else _) else _) = _
    split_ifs with hc <;> first | rfl | rw [hh i hc] | skip
    all_goals simp_all
  unfold initState
  rw [this]
  rfl

/-- **C154** Two calls whose topographies agree at every defined point -- whatever the arrays contain where the topography
is undefined -- raise the same exception, or return the same displacements, forces, contact set, plastic set, offset, energy,
convergence flag and counters, and call the callback with the same forces. -/
theorem C154_undefined_points_ignored : solveCb (withHeights P h) o = solveCb P o := by
  have hsum : sumOver (withHeights P h).comp (withHeights P h).h = sumOver P.comp P.h := sumOver_congr (p := P.comp) hh
  have hpt : pentolOf (withHeights P h) o = pentolOf P o := by
    unfold pentolOf
    rw [hsum]
    rfl
  unfold solveCb
  rw [hpt, initState_masked hh]
  cases pentolOf P o with
  | error e => rfl
  | ok pentol => exact loop_masked hh pentol _ _ _ _ _ _ .none

end

/-- With a penetration tolerance in the call, the roughness of the topography and the mean number of grid points, which
only enter the default, have no influence. -/
theorem C154_given_tolerance {pt : K} (hp : o.pentol = some pt) (r m : K) :
    solveCb { P with rmsHeight := r, meanGrid := m } o = solveCb P o := by
  have hpt : pentolOf { P with rmsHeight := r, meanGrid := m } o = pentolOf P o := by
    unfold pentolOf
    rw [hp]
  have hl : ∀ (fuel it : ℕ) (s : State ι K) cb w, loop { P with rmsHeight := r, meanGrid := m } o pt fuel it s cb w = loop P o pt fuel it s cb w := by
    intro fuel
    induction fuel with
    | zero => intro it s cb w; cases w <;> rfl
    | succ n ih =>
      intro it s cb w
      simp only [loop]
      have : step { P with rmsHeight := r, meanGrid := m } o pt s = step P o pt s := rfl
      rw [this]
      cases step P o pt s with
      | error e => rfl
      | ok v =>
        dsimp only
        rw [ih]
        rfl
  unfold solveCb
  rw [hpt]
  have e : pentolOf P o = .ok pt := by unfold pentolOf; rw [hp]
  rw [e]
  exact hl _ _ _ _ _

/-- The demonstration problem has an undefined point; the run with another value stored there is the same. -/
example : ∃ r cb, solveCb (withHeights (demo ![5, 8, 0]) ![5, 8, 7]) demoOpt = .ok (r, cb) ∧ r.success = true ∧ r.jac = ![1, 2, 0] := by
  obtain ⟨r, cb, h, hs, hj, -⟩ := demo_run
  refine ⟨r, cb, ?_, hs, hj⟩
  rw [C154_undefined_points_ignored, h]
  decide +kernel

end CM.CCG
