import Verif.Props.CCG4
/-!
# C110 only the height of the rigid surface matters, not how it is split into heights and offset
-/
set_option linter.unusedSectionVars false
set_option linter.unusedSimpArgs false
namespace CM.CCG
open Finset CM.Spec

variable {ι K : Type} [Fintype ι] [Field K] [LinearOrder K] [IsStrictOrderedRing K]

/-- The topography moved up by `c`. -/
def raised (P : Problem ι K) (c : K) : Problem ι K := { P with h := fun i => P.h i + c }

/-- The same call with another offset. -/
def withOffset (o : Options ι K) (x : K) : Options ι K := { o with offset := some x }

/-- The same state seen from a topography moved up by `c`. -/
def lowered (s : State ι K) (c : K) (L : Option K) : State ι K :=
  { s with offset := s.offset - c, lastMaxHeight := L }

variable {P : Problem ι K} {o : Options ι K} {c x : K}

lemma cgBranch_raised (hF : o.externalForce = none) (s : State ι K) (L : Option K) :
    cgBranch (raised P c) (withOffset o x) (lowered s c L) =
      { cgBranch P o s with offset := s.offset - c } := by
  have h1 : cgOffset (raised P c) (withOffset o x) (lowered s c L) = s.offset - c := by
    simp [cgOffset, withOffset, hF, lowered]
  have h2 : cgOffset P o s = s.offset := by simp [cgOffset, hF]
  have hg : ∀ i, (lowered s c L).u i - (raised P c).h i - (s.offset - c) = s.u i - P.h i - s.offset := by
    intro i; simp only [lowered, raised]; ring
  unfold cgBranch
  dsimp only
  rw [h1, h2]
  simp only [hg]
  rfl

lemma mixBranch_raised (hF : o.externalForce = none) (s : State ι K) (L : Option K) :
    mixBranch (raised P c) (withOffset o x) (lowered s c L) =
      (mixBranch P o s).map fun m => { m with offset := s.offset - c } := by
  have hg : ∀ i, (lowered s c L).u i - (raised P c).h i - (s.offset - c) = s.u i - P.h i - s.offset := by
    intro i; simp only [lowered, raised]; ring
  have e : (withOffset o x).externalForce = none := hF
  unfold mixBranch
  dsimp only
  rw [hF, e]
  have hl : (lowered s c L).offset = s.offset - c := rfl
  rw [hl]
  simp only [hg]
  rfl

lemma branch_offset (hF : o.externalForce = none) {s : State ι K} {m : Mid ι K} (h : branch P o s = .ok m) :
    m.offset = s.offset := by
  unfold branch at h
  split at h
  · cases h; simp [cgBranch, cgOffset, hF]
  · unfold mixBranch at h
    simp only [hF] at h
    cases h; rfl

lemma step_raised (hF : o.externalForce = none) (pentol : K) (s : State ι K) (L : Option K) :
    (∀ e, step P o pentol s = .error e → step (raised P c) (withOffset o x) pentol (lowered s c L) = .error e) ∧
    ∀ w, step P o pentol s = .ok w → ∃ w' L', step (raised P c) (withOffset o x) pentol (lowered s c L) = .ok w' ∧
      w' = { w with next := lowered w.next c L' } := by
  have hb : branch (raised P c) (withOffset o x) (lowered s c L) =
      (branch P o s).map fun m => { m with offset := s.offset - c } := by
    unfold branch
    have : doCG (withOffset o x) (lowered s c L) = doCG o s := rfl
    rw [this]
    split
    · rw [cgBranch_raised hF]; rfl
    · rw [mixBranch_raised hF]
  unfold step
  rw [hb]
  cases hm : branch P o s with
  | error e => simp [Except.map]
  | ok m =>
    have hmo := branch_offset hF hm
    simp only [Except.map]
    have : (withOffset o x).hardness.truth = o.hardness.truth := rfl
    rw [this]
    cases o.hardness.truth with
    | error e => simp
    | ok hard =>
      refine ⟨by simp, ?_⟩
      intro w hw
      cases hw
      refine ⟨_, some (maxOver (raised P c).comp (raised P c).h + (s.offset - c)), rfl, ?_⟩
      obtain ⟨mf, mt, mg, mc, mo, mG, mtau, mst, mmf, mms, mn⟩ := m
      simp only at hmo
      subst hmo
      have hpen : ∀ u : ι → K, maxPen (raised P c) ⟨mf, mt, mg, mc, s.offset - c, mG, mtau, mst, mmf, mms, mn⟩ u
          = maxPen P ⟨mf, mt, mg, mc, s.offset, mG, mtau, mst, mmf, mms, mn⟩ u := by
        intro u
        unfold maxPen
        dsimp only [raised]
        congr 2
        funext i
        split
        · ring
        · rfl
      have hsf : stepForce (raised P c) (withOffset o x) ⟨mf, mt, mg, mc, s.offset - c, mG, mtau, mst, mmf, mms, mn⟩
          = stepForce P o ⟨mf, mt, mg, mc, s.offset, mG, mtau, mst, mmf, mms, mn⟩ := rfl
      have hch : ∀ (t : State ι K) (v : K), convHeight (withOffset o x) t v = true := by
        intro t v
        simp [convHeight, withOffset, hF]
      have hch' : ∀ (t : State ι K) (v : K), convHeight o t v = true := by
        intro t v
        simp [convHeight, hF]
      unfold finish
      dsimp only
      rw [hpen, hsf, hch, hch']
      rfl

lemma mkResult_raised {w : StepOut ι K} {L : Option K} (nit : ℕ) (b : Bool) :
    mkResult (raised P c) (withOffset o x) nit b { w with next := lowered w.next c L } =
      { mkResult P o nit b w with offset := (mkResult P o nit b w).offset - c } := rfl

lemma loop_raised (hF : o.externalForce = none) (pentol : K) : ∀ (fuel it : ℕ) (s : State ι K) (L : Option K)
    (cb : List (ℕ × (ι → K))) (w : Option (StepOut ι K)) (w' : Option (StepOut ι K)),
    (w = none → w' = none) → (∀ v, w = some v → ∃ L', w' = some { v with next := lowered v.next c L' }) →
    loop (raised P c) (withOffset o x) pentol fuel it (lowered s c L) cb w' =
      (loop P o pentol fuel it s cb w).map fun r => ({ r.1 with offset := r.1.offset - c }, r.2)
  | 0, it, s, L, cb, none, w', h, _ => by rw [h rfl]; rfl
  | 0, it, s, L, cb, some v, w', _, h => by
    obtain ⟨L', rfl⟩ := h v rfl
    rfl
  | fuel + 1, it, s, L, cb, w, w', _, _ => by
    obtain ⟨h1, h2⟩ := step_raised (P := P) (c := c) (x := x) hF pentol s L
    unfold loop
    cases hs : step P o pentol s with
    | error e => rw [h1 e hs]; rfl
    | ok v =>
      obtain ⟨v', L', hv', rfl⟩ := h2 v hs
      rw [hv']
      dsimp only
      by_cases hc : v.converged = true
      · rw [if_pos hc, if_pos hc, mkResult_raised]; rfl
      · rw [if_neg hc, if_neg hc]
        exact loop_raised hF pentol fuel (it + 1) v.next L' _ _ _ (by simp) (by
          intro u hu; cases hu; exact ⟨L', rfl⟩)

/-- **C110** (displacement control) Raising the topography by `c` and lowering the offset by `c` leaves
the call unchanged: it raises the same exception, or returns the same displacements, forces, contact
set, energy, convergence flag, number of iterations and callback calls, and the offset lowered by `c`.
`nSurf` is the number of defined points. -/
theorem C110_rigid_shift (hF : o.externalForce = none) {off : K} (ho : o.offset = some off)
    (hn : P.nSurf = (count P.comp : K)) (hpos : 0 < count P.comp) :
    solveCb (raised P c) (withOffset o (off - c)) =
      (solveCb P o).map fun r => ({ r.1 with offset := r.1.offset - c }, r.2) := by
  have hpt : pentolOf (raised P c) (withOffset o (off - c)) = pentolOf P o := by
    have hsum : sumOver (raised P c).comp (raised P c).h = sumOver P.comp P.h + count P.comp * c := by
      unfold sumOver count raised
      simp only
      rw [Finset.card_filter, Nat.cast_sum, Finset.sum_mul, ← Finset.sum_add_distrib]
      refine Finset.sum_congr rfl fun i _ => ?_
      split <;> simp
    have h0 : (count P.comp : K) ≠ 0 := by exact_mod_cast hpos.ne'
    have e : (off - c + sumOver (raised P c).comp (raised P c).h / (raised P c).nSurf) =
        off + sumOver P.comp P.h / P.nSurf := by
      rw [hsum]
      have : (raised P c).nSurf = P.nSurf := rfl
      rw [this, hn]
      field_simp
      ring
    unfold pentolOf
    simp only [withOffset, ho]
    rw [e]
    rfl
  have hi : initState (raised P c) (withOffset o (off - c)) = lowered (initState P o) c none := by
    have hu : initU (raised P c) (withOffset o (off - c)) = initU P o := by
      unfold initU
      funext i
      simp only [withOffset, raised, ho, Option.getD_some]
      have : P.h i + c + (off - c) = P.h i + off := by ring
      simp only [this]
    unfold initState lowered
    rw [hu]
    simp only [withOffset, ho, Option.getD_some, raised]
    rfl
  unfold solveCb
  rw [hpt, hi]
  cases pentolOf P o with
  | error e => rfl
  | ok pentol =>
    exact loop_raised hF pentol _ 0 _ none [] none none (by simp) (by simp)

/-- The demonstration problem meets the hypotheses and is solved; the raised problem is solved too. -/
example : ∃ r cb, solveCb (raised (demo ![5, 8, 0]) 2) (withOffset demoOpt (1 - 2)) = .ok (r, cb) ∧ r.success = true := by
  obtain ⟨r, cb, h, hs, -⟩ := demo_run
  have := C110_rigid_shift (P := demo ![5, 8, 0]) (o := demoOpt) (c := 2) (off := 1) rfl rfl
    (by decide +kernel) (by decide +kernel)
  rw [h] at this
  exact ⟨_, _, this, hs⟩

end CM.CCG
