import Verif.Lemmas.CCG
import Mathlib.Algebra.Order.Ring.Rat
import Mathlib.Data.Fin.VecNotation
import Mathlib.Data.Fintype.Pi
/-!
# Concrete runs of the solver model (for the non-vacuity examples)

Runs are checked by the kernel iteration by iteration (`decide +kernel` on closed rational terms).
-/
namespace CM.CCG
open Finset

/-- A compliance matrix acting as a substrate. -/
def matDisp {n : ℕ} (A : Fin n → Fin n → ℚ) (f : Fin n → ℚ) : Fin n → ℚ :=
  fun i => -(∑ j, A i j * f j)

/-- Three grid points, the last one is padding; compliance `[[4,1,1],[1,4,1],[1,1,4]]`
(`disp = -A f`), whose inverse is `1/18 [[5,-1,-1],[-1,5,-1],[-1,-1,5]]`. -/
def demo (h : Fin 3 → ℚ) : Problem (Fin 3) ℚ where
  disp := matDisp fun i j => if i = j then 4 else 1
  force := matDisp fun i j => if i = j then 5 / 18 else -1 / 18
  comp := fun i => i ≠ 2
  slice := fun i => i ≠ 2
  h := h
  nSurf := 2
  rmsHeight := 1
  meanGrid := 1

/-- Default tolerances of the solver (lines 52-57), `pentol` given, warm start. -/
def demoOpt : Options (Fin 3) ℚ where
  offset := some 1
  pentol := some (1 / 1000)
  initialForces := some ![-2, -3, -1]
  forcetol := 1 / 100000
  thermotol := 1 / 1000000
  mixfac := 1 / 10
  mixdecfac := 19 / 20
  maxiter := 20
  bisect := fun _ a _ => .ok a

/-- `x` succeeded with a value satisfying `p`. -/
def okAnd {α : Type} (x : Except PyErr α) (p : α → Bool) : Bool :=
  match x with
  | .ok a => p a
  | .error _ => false

theorem okAnd_iff {α : Type} {x : Except PyErr α} {p : α → Bool} :
    okAnd x p = true ↔ ∃ a, x = .ok a ∧ p a = true := by
  cases x <;> simp [okAnd]

theorem State.ext' {ι K : Type} {a b : State ι K}
    (h : a.f = b.f ∧ a.u = b.u ∧ a.t = b.t ∧ a.delta = b.delta ∧ a.status = b.status ∧
      a.Gold = b.Gold ∧ a.mixfacCur = b.mixfacCur ∧ a.mixsteps = b.mixsteps ∧
      a.lastMaxHeight = b.lastMaxHeight ∧ a.lastTotalForce = b.lastTotalForce ∧
      a.offset = b.offset ∧ a.nfev = b.nfev) : a = b := by
  cases a; cases b; simp_all

/-- Executable equality of states over `Fin n`. -/
def stateEq {n : ℕ} (a b : State (Fin n) ℚ) : Bool :=
  decide (a.f = b.f ∧ a.u = b.u ∧ a.t = b.t ∧ a.delta = b.delta ∧ a.status = b.status ∧
      a.Gold = b.Gold ∧ a.mixfacCur = b.mixfacCur ∧ a.mixsteps = b.mixsteps ∧
      a.lastMaxHeight = b.lastMaxHeight ∧ a.lastTotalForce = b.lastTotalForce ∧
      a.offset = b.offset ∧ a.nfev = b.nfev)

/-- One unconverged iteration leads from `s` to `s'`. -/
def stepsTo {n : ℕ} (P : Problem (Fin n) ℚ) (o : Options (Fin n) ℚ) (p : ℚ)
    (s s' : State (Fin n) ℚ) : Bool :=
  okAnd (step P o p s) fun w => !w.converged && stateEq w.next s'

theorem loop_stepsTo {n : ℕ} {P : Problem (Fin n) ℚ} {o : Options (Fin n) ℚ} {p : ℚ}
    {s s' : State (Fin n) ℚ} (h : stepsTo P o p s s' = true) (fuel it cb prev) :
    ∃ w, loop P o p (fuel + 1) it s cb prev =
      loop P o p fuel (it + 1) s' (cb ++ [(it + 1, s'.f)]) (some w) ∧ w.next = s' := by
  obtain ⟨w, hw, h2⟩ := okAnd_iff.1 h
  simp only [Bool.and_eq_true, Bool.not_eq_true', stateEq, decide_eq_true_eq] at h2
  have hs : w.next = s' := State.ext' h2.2
  refine ⟨w, ?_, hs⟩
  rw [loop, hw]
  simp [h2.1, hs]

theorem loop_last {n : ℕ} {P : Problem (Fin n) ℚ} {o : Options (Fin n) ℚ} {p : ℚ}
    {s : State (Fin n) ℚ} {q : StepOut (Fin n) ℚ → Bool}
    (h : okAnd (step P o p s) (fun w => w.converged && q w) = true) (fuel it cb prev) :
    ∃ w, loop P o p (fuel + 1) it s cb prev = .ok (mkResult P o (it + 1) true w, cb) ∧
      q w = true := by
  obtain ⟨w, hw, h2⟩ := okAnd_iff.1 h
  simp only [Bool.and_eq_true] at h2
  refine ⟨w, ?_, h2.2⟩
  rw [loop, hw]
  simp [h2.1]

/-- As `loop_last` for the iteration that exhausts `maxiter` without converging. -/
theorem loop_maxed {n : ℕ} {P : Problem (Fin n) ℚ} {o : Options (Fin n) ℚ} {p : ℚ}
    {s : State (Fin n) ℚ} {q : StepOut (Fin n) ℚ → Bool}
    (h : okAnd (step P o p s) (fun w => !w.converged && q w) = true) (it cb prev) :
    ∃ w, loop P o p 1 it s cb prev =
      .ok (mkResult P o (it + 1) false w, cb ++ [(it + 1, w.next.f)]) ∧ q w = true := by
  obtain ⟨w, hw, h2⟩ := okAnd_iff.1 h
  simp only [Bool.and_eq_true, Bool.not_eq_true'] at h2
  refine ⟨w, ?_, h2.2⟩
  rw [loop, hw]
  simp [h2.1, loop]

def demoS1 : State (Fin 3) ℚ :=
  ⟨![-4/5, -9/5, 0], ![5, 8, 13/5], ![6, 6, 0], true, .cg, 72, 1/10, 0, some 9, some (13/5), 1, 3⟩

def demoS2 : State (Fin 3) ℚ :=
  ⟨![-1, -2, 0], ![6, 9, 3], ![-5/6, -5/6, 0], true, .cg, 2, 1/10, 0, some 9, some 3, 1, 5⟩

/-- The demonstration problem: two contacting points and one padding point.  Starting from wrong
forces (with a non-zero value on the padding point) the run takes two CG iterations and converges
in the third with pressures `(1, 2)` and displacements `(6, 9)` equal to heights plus offset. -/
theorem demo_run : ∃ r cb, solveCb (demo ![5, 8, 0]) demoOpt = .ok (r, cb) ∧ r.success = true ∧
    r.jac = ![1, 2, 0] ∧ r.x = ![6, 9, 3] ∧ r.nit = 3 ∧ r.nfev = 7 ∧ r.status = .cg ∧
    r.offset = 1 ∧ cb.length = 2 := by
  have h0 : solveCb (demo ![5, 8, 0]) demoOpt = loop (demo ![5, 8, 0]) demoOpt (1/1000) 20 0
      (initState (demo ![5, 8, 0]) demoOpt) [] none := rfl
  obtain ⟨w1, h1, _⟩ := loop_stepsTo (P := demo ![5, 8, 0]) (o := demoOpt) (p := 1/1000)
    (s := initState (demo ![5, 8, 0]) demoOpt) (s' := demoS1) (by decide +kernel) 19 0 [] none
  obtain ⟨w2, h2, _⟩ := loop_stepsTo (P := demo ![5, 8, 0]) (o := demoOpt) (p := 1/1000)
    (s := demoS1) (s' := demoS2) (by decide +kernel) 18 1 ([] ++ [(1, demoS1.f)]) (some w1)
  obtain ⟨w3, h3, hw⟩ := loop_last (P := demo ![5, 8, 0]) (o := demoOpt) (p := 1/1000)
    (s := demoS2) (q := fun w => decide ((mkResult (demo ![5, 8, 0]) demoOpt 3 true w).jac =
        ![1, 2, 0] ∧ w.next.u = ![6, 9, 3] ∧ w.next.nfev = 7 ∧ w.next.status = .cg ∧
        w.next.offset = 1))
    (by decide +kernel) 17 2 ([] ++ [(1, demoS1.f)] ++ [(2, demoS2.f)]) (some w2)
  rw [h0, h1, h2, h3]
  simp only [decide_eq_true_eq] at hw
  exact ⟨_, _, rfl, rfl, hw.1, hw.2.1, rfl, hw.2.2.1, hw.2.2.2.1, hw.2.2.2.2, rfl⟩

end CM.CCG
