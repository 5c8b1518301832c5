import Verif.Model.Systems
import Verif.Model.SemiPeriodic
/-!
# What a half-space remembers of its calculations

Model of `ElasticSubstrate.compute` and `compute_k` (`/repo/ContactMechanics/Substrates.py:136-165`) and of
`check` without argument (`Substrates.py:99-111`, `/repo/ContactMechanics/FFTElasticHalfSpace.py:1217-1283`).
One process; displacements in Fourier space have the shape of the half spectrum.
-/
namespace CM.SubState
open CM.FFT CM.HS CM.System

/-- The attributes `energy`, `force` and `force_k` of a substrate. -/
structure Mem where
  energy : Option ℝ
  force : Option (NdArray ℝ)
  forceK : Option (List ℕ → ℂ)

/-- `ElasticSubstrate.__init__` (`Substrates.py:122-125`). -/
def init : Mem := ⟨none, none, none⟩

/-- A calculation in real space or in Fourier space, with its flags `pot` and `forces`. -/
inductive Call where
  | compute (disp : NdArray ℝ) (pot forces : Bool)
  | computeK (dispK : List ℕ → ℂ) (pot forces : Bool)

/-- `compute` (`Substrates.py:136-149`), `compute_k` (`Substrates.py:151-165`).  A tuple assignment happens
after its right-hand side is evaluated: if `evaluate` raises, no attribute changes. -/
noncomputable def step (s : HalfSpace) (m : Mem) : Call → Except PyErr Unit × Mem
  | .compute u pot forces =>
    match HS.evaluate s u pot forces with
    | .error e => (.error e, m)
    | .ok (e, f) => (.ok (), { m with energy := e, force := f })
  | .computeK uk pot forces =>
    let r := HS.evaluateK s uk pot forces
    (.ok (), { m with energy := r.1, forceK := r.2 })

/-- A history of calculations; the caller goes on after exceptions. -/
noncomputable def run (s : HalfSpace) (m : Mem) : List Call → Mem
  | [] => m
  | c :: cs => run s (step s m c).2 cs

/-- `check()` without forces: `check_boundaries` takes `self.force`; `None[:, 0]` raises `TypeError`
(`FFTElasticHalfSpace.py:1231-1247`, `1271-1283`).  Classes other than the free half-space check nothing. -/
noncomputable def check (sub : Substrate) (m : Mem) : Except PyErr Unit :=
  match m.force with
  | some f => sub.check f
  | none => if sub.free ∧ sub.checkFlag ∧ sub.hs.nbGridPts.length = 2 then .error .typeError else .ok ()

/-- `check(force)` of a semi-periodic half-space on one process: inherited from the free half-space
(`FFTElasticHalfSpace.py:1217-1283`), with the computational grid of lines 1344-1353; `flag` is `check_boundaries`. -/
noncomputable def checkSemi (s : HalfSpace) (flag : Bool) (f : NdArray ℝ) : Except PyErr Unit :=
  if flag then
    match s.nbGridPts, s.domain with
    | [gx, gy], [d0, d1] => checkBoundaries gx gy 0 [⟨0, d0, 0, d1, fun i j => f.get [i, j], fun _ _ => false⟩]
    | _, _ => .ok ()
  else .ok ()

end CM.SubState
