import Verif.Model.SubstrateState
import Verif.Props.SemiPeriodic2
/-!
# C225 The boundary check of semi-periodic half-spaces
-/
namespace CM.SubState
open Finset CM.HS CM.System CM.Spec CM.FFT

variable {a : SemiArgs} {s : HalfSpace} {nx ny : ℕ}

lemma check_enough {gx gy d0 d1 : ℕ} (hx : gx ≤ d0) (hy : gy ≤ d1) (tol : ℝ) (F : ℕ → ℕ → ℝ) (M : ℕ → ℕ → Bool) :
    checkBoundaries gx gy tol [⟨0, d0, 0, d1, F, M⟩] = checkBoundaries gx gy tol [⟨0, 2 * gx, 0, 2 * gy, F, M⟩] := by
  have h1 : topoSub gx 0 d0 = topoSub gx 0 (2 * gx) := by unfold topoSub; omega
  have h2 : topoSub gy 0 d1 = topoSub gy 0 (2 * gy) := by unfold topoSub; omega
  unfold checkBoundaries
  simp only [List.mem_singleton, exists_eq_left, forall_eq, checkIndexError, checkLocal, h1, h2, valOk]

/-- **C225** With the check switched on, forces pass iff they vanish on the outermost ring of the topography's grid, in
periodic directions too; otherwise `FreeBoundaryError` is raised. -/
theorem C225_check (hv : ValidSemi a) (hs : constructSemi a = .ok s) (hg : a.nbGridPts = [nx, ny]) (f : NdArray ℝ) :
    (checkSemi s true f = .ok () ↔ ∀ i j, onRing nx ny i j → f.get [i, j] = 0) ∧
    (checkSemi s true f = .error .freeBoundaryError ↔ ∃ i j, onRing nx ny i j ∧ f.get [i, j] ≠ 0) ∧
    checkSemi s false f = .ok () := by
  have P := semi_of_construct hv hs hg
  have C := C23_serial (gx := nx) (gy := ny) (fun i j => f.get [i, j]) (fun _ _ => false) 0 (Nat.pos_of_ne_zero P.hx)
    (Nat.pos_of_ne_zero P.hy)
  unfold checkSemi
  simp only [if_true, P.grid, P.dom]
  rw [check_enough (le_semiDomain _ _) (le_semiDomain _ _)]
  exact ⟨by simpa [tolerable] using C.1, by simpa [tolerable] using C.2, by simp⟩

/-- Forces that vanish next to the ends of the nonperiodic directions. -/
def InsideNonperiodic (a : SemiArgs) (nx ny : ℕ) (f : NdArray ℝ) : Prop :=
  (a.perX = false → ∀ i j, i < nx → j < ny → i = 0 ∨ i + 1 = nx → f.get [i, j] = 0) ∧
  (a.perY = false → ∀ i j, i < nx → j < ny → j = 0 ∨ j + 1 = ny → f.get [i, j] = 0)

/-- **C225** The check misses nothing: forces it accepts vanish next to the ends of the nonperiodic directions.  If no
direction is periodic the converse holds. -/
theorem C225_sound (hv : ValidSemi a) (hs : constructSemi a = .ok s) (hg : a.nbGridPts = [nx, ny]) (f : NdArray ℝ) :
    (checkSemi s true f = .ok () → InsideNonperiodic a nx ny f) ∧
    (a.perX = false → a.perY = false → InsideNonperiodic a nx ny f → checkSemi s true f = .ok ()) := by
  have C := (C225_check hv hs hg f).1
  refine ⟨fun h => ?_, fun hX hY h => ?_⟩
  · have h := C.mp h
    exact ⟨fun _ i j hi hj e => h i j ⟨hi, hj, by omega⟩, fun _ i j hi hj e => h i j ⟨hi, hj, by omega⟩⟩
  · refine C.mpr fun i j ⟨hi, hj, e⟩ => ?_
    rcases e with e | e | e | e
    · exact h.1 hX i j hi hj (.inl e)
    · exact h.1 hX i j hi hj (.inr e)
    · exact h.2 hY i j hi hj (.inl e)
    · exact h.2 hY i j hi hj (.inr e)

/-- **C225 (refuted)** In a periodic direction, which has no ends, the check is wrong: on every half-space that is periodic
along `y` (along `x` or not), with at least three points in each direction, there are two fields of compressive
forces, one the other moved along `y`, both away from the ends of `x`, whose displacements are moved likewise; one is
accepted, the other refused. -/
theorem C225_periodic_partial (hv : ValidSemi a) (hs : constructSemi a = .ok s) (hg : a.nbGridPts = [nx, ny])
    (hY : a.perY = true) (hx : 3 ≤ nx) (hy : 3 ≤ ny) :
    ∃ f g u v : NdArray ℝ, f.shape = [nx, ny] ∧ g.shape = [nx, ny] ∧
      (∀ i j, i < nx → j < ny → g.get [i, j] = f.get [i, (j + 1) % ny]) ∧
      InsideNonperiodic a nx ny f ∧ InsideNonperiodic a nx ny g ∧
      evaluateDispSemi s f false = .ok u ∧ evaluateDispSemi s g false = .ok v ∧
      (∀ i j, i < nx → j < ny → v.get [i, j] = u.get [i, (j + 1) % ny]) ∧
      checkSemi s true f = .ok () ∧ checkSemi s true g = .error .freeBoundaryError := by
  let f : NdArray ℝ := ⟨[nx, ny], fun x => if x = [1, 1] then -1 else 0⟩
  let g : NdArray ℝ := ⟨[nx, ny], fun x => if x = [1, 0] then -1 else 0⟩
  have hfg : ∀ i j, i < nx → j < ny → g.get [i, j] = f.get [i, (j + 1) % ny] := by
    intro i j _ hj
    have : (j + 1) % ny = 1 ↔ j = 0 := by
      constructor
      · intro h
        by_cases e : j + 1 = ny
        · rw [e, Nat.mod_self] at h; omega
        · rw [Nat.mod_eq_of_lt (by omega)] at h; omega
      · rintro rfl; exact Nat.mod_eq_of_lt (by omega)
    simp only [f, g, List.cons.injEq, and_true, this]
  obtain ⟨u, v, hu, hv', huv⟩ := C29_translation_y hv hs hg hY 1 f g rfl rfl hfg
  refine ⟨f, g, u, v, rfl, rfl, hfg, ⟨fun _ i j _ _ e => ?_, fun h => by simp [hY] at h⟩,
    ⟨fun _ i j _ _ e => ?_, fun h => by simp [hY] at h⟩, hu, hv', huv, ?_, ?_⟩
  · simp only [f, List.cons.injEq, and_true]
    rw [if_neg (by omega)]
  · simp only [g, List.cons.injEq, and_true]
    rw [if_neg (by omega)]
  · refine (C225_check hv hs hg f).1.mpr fun i j ⟨_, _, e⟩ => ?_
    simp only [f, List.cons.injEq, and_true]
    rw [if_neg (by omega)]
  · exact (C225_check hv hs hg g).2.1.mpr ⟨1, 0, ⟨by omega, by omega, by omega⟩, by simp [g]⟩

/-- The hypotheses are met: 4 × 5 points, periodic along y. -/
example : ∃ (a : SemiArgs) (s : HalfSpace), ValidSemi a ∧ constructSemi a = .ok s ∧ a.nbGridPts = [4, 5] ∧ a.perX = false ∧
    a.perY = true ∧ 3 ≤ 4 ∧ 3 ≤ 5 := by
  obtain ⟨s, hs⟩ := C144_constructible (⟨[4, 5], 1, [1, 2], false, true, 2, none⟩ : SemiArgs) (nx := 4) (ny := 5) rfl (by simp)
    (by simp) (by simp) rfl
  exact ⟨_, s, by constructor <;> simp, hs, rfl, rfl, rfl, by norm_num, by norm_num⟩

end CM.SubState
