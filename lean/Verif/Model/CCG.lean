import Mathlib.Data.Fintype.BigOperators
import Mathlib.Algebra.Order.Field.Basic
import Mathlib.Data.Finset.Lattice.Fold
import Mathlib.Algebra.BigOperators.Group.Finset.Basic
import Verif.Model.Py
/-!
# Model of `constrained_conjugate_gradients`

Models `/repo/ContactMechanics/Optimization/ConstrainedConjugateGradients.py:47-509`.

Simplifications that apply to the whole file
* numbers are elements of an arbitrary linearly ordered field `K` (no rounding); the model is
  executable over `ℚ`;
* arrays over the computational grid are functions `ι → K` on a finite index type (the grid is
  never inspected except through masks), MPI `Reduction`s are the global reductions;
* quantities the code stores on the compressed index set `[comp_mask]` (`g_r`, `masked_surface`,
  `nc_r`) are functions on the full index set that are only used where `comp` is true;
* `sqrt(x) < p` is `0 < p ∧ x < p * p` (see `Props/CCG` for the equivalence over `ℝ`);
* a comparison whose operand is `a / 0` (numpy `nan`/`inf`) is false;
* `optim.bisect` is a parameter.
-/
namespace CM.CCG

open Finset

/-- Values of the local variable `delta_str`, file lines 223, 262, 309, 386, 389. -/
inductive Status where
  | reset | sd | cg | mix
  deriving DecidableEq, Repr

/-- The `hardness` argument (lines 47, 77-79): absent, a scalar, or a per-pixel array. -/
inductive Hardness (ι K : Type) where
  | none
  | scalar (H : K)
  | array (H : ι → K)

/-- The substrate and topography as the solver sees them.
* `disp`, `force`: `substrate.evaluate_disp`, `substrate.evaluate_force` on arrays over the
  computational grid;
* `slice`: membership in `comp_slice` (lines 179-181), `comp`: `comp_mask` (lines 186-193),
  i.e. the slice without the masked (undefined) heights;
* `h`: `heights` (lines 141-145), used on `comp` only;
* `nSurf`: `nb_surface_pts` (line 149), `rmsHeight`: `topography.rms_height_from_area()`,
  `meanGrid`: `np.mean(topography.nb_grid_pts)` (line 154). -/
structure Problem (ι K : Type) where
  disp : (ι → K) → (ι → K)
  force : (ι → K) → (ι → K)
  comp : ι → Bool
  slice : ι → Bool
  h : ι → K
  nSurf : K
  rmsHeight : K
  meanGrid : K

/-- Keyword arguments, lines 47-60.  `minmixsteps`, `maxiter` are natural numbers (a negative
`maxiter` behaves as `0`). -/
structure Options (ι K : Type) where
  hardness : Hardness ι K := .none
  externalForce : Option K := none
  offset : Option K := none
  initialDisplacements : Option (ι → K) := none
  initialForces : Option (ι → K) := none
  pentol : Option K := none
  forcetol : K
  thermotol : K
  mixfac : K
  mixdecfac : K
  minmixsteps : ℕ := 10
  maxiter : ℕ := 100000
  /-- `optim.bisect(f, a, b)`, line 316. -/
  bisect : (K → K) → K → K → Except PyErr K

/-- The local variables that survive from one iteration to the next (lines 221-233). -/
structure State (ι K : Type) where
  f : ι → K
  u : ι → K
  t : ι → K
  delta : Bool
  status : Status
  Gold : K
  mixfacCur : K
  mixsteps : ℕ
  lastMaxHeight : Option K
  lastTotalForce : Option K
  offset : K
  nfev : ℕ

/-- Variables after the branch of lines 260-330. -/
structure Mid (ι K : Type) where
  f : ι → K
  t : ι → K
  g : ι → K
  c : ι → Bool
  offset : K
  G : K
  tau : K
  status : Status
  mixfacCur : K
  mixsteps : ℕ
  nfev : ℕ

/-- Everything one iteration computes (lines 235-475), besides the next state. -/
structure StepOut (ι K : Type) where
  next : State ι K
  c : ι → Bool
  g : ι → K
  nc : ι → Bool
  tau : K
  Acontact : ℕ
  Acg : ℕ
  G : K
  maxPres : K
  padPres : K
  maxPen : K
  maxdu : K
  totalForce : K
  converged : Bool

section
variable {ι K : Type} [Fintype ι] [Field K] [LinearOrder K]

/-- `reduction.max(a[mask])`; numpy raises on an empty selection, the model returns `0`
(the code guards the empty case except for a topography without any defined point). -/
def maxOver (p : ι → Bool) (a : ι → K) : K :=
  if h : (univ.filter fun i => p i = true).Nonempty then
    (univ.filter fun i => p i = true).sup' h a else 0

/-- `reduction.min(a[mask])`. -/
def minOver (p : ι → Bool) (a : ι → K) : K :=
  if h : (univ.filter fun i => p i = true).Nonempty then
    (univ.filter fun i => p i = true).inf' h a else 0

/-- `reduction.sum(mask * 1)`. -/
def count (p : ι → Bool) : ℕ := (univ.filter fun i => p i = true).card

/-- `reduction.sum(a[mask])` / `reduction.sum(mask * a)`. -/
def sumOver (p : ι → Bool) (a : ι → K) : K := ∑ i, if p i then a i else 0

/-- Absolute value, Python `abs`. -/
def pabs (x : K) : K := if 0 ≤ x then x else -x

/-- `sqrt(x) < p` (lines 403-406, 433). -/
def sqrtLt (x p : K) : Bool := decide (0 < p) && decide (x < p * p)

/-- `abs((a - b) / a) < tol` with numpy division, lines 418, 420, 426. -/
def relLt (a b tol : K) : Bool := decide (a ≠ 0) && decide (pabs ((a - b) / a) < tol)

/-- Per-pixel value of a hardness that is present. -/
def Hardness.at (H : Hardness ι K) (i : ι) : K :=
  match H with
  | .none => 0
  | .scalar H => H
  | .array H => H i

/-- `hardness is not None`. -/
def Hardness.isSome (H : Hardness ι K) : Bool :=
  match H with
  | .none => false
  | _ => true

/-- The truth value used by `if hardness:` (lines 353, 439): `None` is false, a scalar is tested
against zero, an array with more than one element raises `ValueError`. (Arrays of one element are
tested against zero.) -/
def Hardness.truth (H : Hardness ι K) : Except PyErr Bool :=
  match H with
  | .none => .ok false
  | .scalar H => .ok (decide (H ≠ 0))
  | .array H => if Fintype.card ι = 1 then .ok (decide (∑ i, H i ≠ 0)) else .error .valueError

/-- Penetration tolerance, lines 150-162. `offset` is the *argument* (may be `None`, in which
case `None + number` raises `TypeError`).  `heights` are summed over the defined points. -/
def pentolOf (P : Problem ι K) (o : Options ι K) : Except PyErr K :=
  match o.pentol with
  | some p => .ok p
  | none =>
    let p := P.rmsHeight / (10 * P.meanGrid)
    if p ≠ 0 then .ok p else
      match o.offset with
      | none => .error .typeError
      | some off =>
        let p := (off + sumOver P.comp P.h / P.nSurf) / 1000
        if p ≠ 0 then .ok p else .ok (1 / 1000)

/-- Initial displacement after lifting it to the rigid surface, lines 170-173 and 201. -/
def initU (P : Problem ι K) (o : Options ι K) : ι → K :=
  let u0 := o.initialDisplacements.getD fun _ => 0
  let off := o.offset.getD 0
  fun i => if P.comp i then (if u0 i < P.h i + off then P.h i + off else u0 i) else u0 i

/-- Variables before the loop, lines 167-233. -/
def initState (P : Problem ι K) (o : Options ι K) : State ι K :=
  let fu : (ι → K) × (ι → K) :=
    match o.initialForces with
    | none => (P.force (initU P o), initU P o)
    | some f0 => (f0, P.disp f0)
  { f := fun i => if P.comp i then fu.1 i else 0
    u := fu.2
    t := fun _ => 0
    delta := false
    status := .reset
    Gold := 1
    mixfacCur := o.mixfac
    mixsteps := 0
    lastMaxHeight := none
    lastTotalForce := none
    offset := o.offset.getD 0
    nfev := 1 }

/-- Points with compressive force, line 239. -/
def contact (s : State ι K) : ι → Bool := fun i => decide (s.f i < 0)

/-- `c_r` of lines 239-249: compressive and (if there is a hardness) below the hardness. -/
def cgSet (o : Options ι K) (s : State ι K) : ι → Bool := fun i =>
  decide (s.f i < 0) && (!o.hardness.isSome || decide (-(o.hardness.at i) < s.f i))

/-- The condition of line 260 (`0.01` is taken as the exact number `1/100`). -/
def doCG (o : Options ι K) (s : State ι K) : Bool :=
  !o.hardness.isSome ||
    (decide (0 < count (contact s)) &&
      decide ((1 : K) / 100 < (count (cgSet o s) : K) / (count (contact s) : K)) &&
      decide (s.mixsteps = 0))

/-- Offset used in a CG step, lines 265-269. -/
def cgOffset (P : Problem ι K) (o : Options ι K) (s : State ι K) : K :=
  match o.externalForce with
  | none => s.offset
  | some _ =>
    let c := cgSet o s
    if 0 < count c then
      sumOver (fun i => c i && P.comp i) (fun i => s.u i - P.h i) / (count c : K)
    else 0

/-- Search direction, lines 276-279. -/
def cgDir (P : Problem ι K) (s : State ι K) (c : ι → Bool) (g : ι → K) (G : K) : ι → K := fun i =>
  if P.comp i then
    (if s.delta && decide (0 < s.Gold) then
      (if c i then g i + G / s.Gold * s.t i else 0)
    else (if c i then g i else 0))
  else s.t i

/-- Lines 261-299: one steepest-descent / conjugate-gradient step. -/
def cgBranch (P : Problem ι K) (o : Options ι K) (s : State ι K) : Mid ι K :=
  let c := cgSet o s
  let off := cgOffset P o s
  let g : ι → K := fun i => s.u i - P.h i - off
  let G := sumOver (fun i => c i && P.comp i) fun i => g i * g i
  let t := cgDir P s c g G
  let r := P.disp t
  let x := -(sumOver c fun i => r i * t i)
  let tau := if 0 < count c ∧ 0 < x then sumOver (fun i => c i && P.comp i) (fun i => g i * t i) / x else 0
  let G' := if 0 < count c ∧ ¬ 0 < x then 0 else G
  { f := fun i => if c i then s.f i + tau * t i else s.f i
    t := t
    g := g
    c := c
    offset := off
    G := G'
    tau := tau
    status := if s.status = .mix then .sd else s.status
    mixfacCur := o.mixfac
    mixsteps := s.mixsteps
    nfev := s.nfev + 1 }

/-- Lines 300-330: one mixing (over-relaxation) step; only reached with a hardness.
`tau` is irrelevant afterwards, `G` is set to `0` in line 377. -/
def mixBranch (P : Problem ι K) (o : Options ι K) (s : State ι K) : Except PyErr (Mid ι K) :=
  let steps := if s.status = .mix then s.mixsteps else o.minmixsteps
  let g0 : ι → K := fun i => s.u i - P.h i
  let offE : Except PyErr K :=
    match o.externalForce with
    | none => .ok s.offset
    | some F =>
      match o.hardness with
      | .scalar H =>
        o.bisect (fun x => (count (fun i => P.comp i && decide (g0 i - x < 0)) : K) * H - F)
          (maxOver P.comp g0) (minOver P.comp g0)
      | _ => .error .valueError
  match offE with
  | .error e => .error e
  | .ok off =>
    let g : ι → K := fun i => g0 i - off
    let c : ι → Bool := fun i => if P.comp i then decide (g i < 0) else cgSet o s i
    .ok
      { f := fun i => (1 - s.mixfacCur) * s.f i - s.mixfacCur * (if c i then o.hardness.at i else 0)
        t := s.t
        g := g
        c := c
        offset := off
        G := 0
        tau := 0
        status := .mix
        mixfacCur := s.mixfacCur * o.mixdecfac
        mixsteps := steps - 1
        nfev := s.nfev }

/-- `mask_tensile`, line 334. -/
def tensile (m : Mid ι K) : ι → Bool := fun i => decide (0 ≤ m.f i)

/-- `mask_flowing`, line 339. -/
def flowing (o : Options ι K) (m : Mid ι K) : ι → Bool := fun i =>
  o.hardness.isSome && decide (m.f i ≤ -(o.hardness.at i))

/-- `nc_r`, lines 335-340. -/
def newContact (P : Problem ι K) (o : Options ι K) (m : Mid ι K) : ι → Bool := fun i =>
  P.comp i && ((tensile m i && decide (m.g i < 0)) || (flowing o m i && decide (0 < m.g i)))

/-- Force after clipping tensile stresses, line 359. -/
def clip (m : Mid ι K) : ι → K := fun i => if tensile m i then 0 else m.f i

/-- Force after enforcing the external force, lines 361-368. -/
def rescale (P : Problem ι K) (o : Options ι K) (f : ι → K) : ι → K :=
  match o.externalForce with
  | none => f
  | some F =>
    let total := -(sumOver P.comp f)
    if total ≠ 0 then fun i => f i * (F / total)
    else fun i => if P.comp i then -F / P.nSurf else 0

/-- Force after truncation at the hardness, lines 370-373. -/
def truncate (o : Options ι K) (m : Mid ι K) (f : ι → K) : ι → K := fun i =>
  if flowing o m i then -(o.hardness.at i) else f i

/-- Final force of the iteration, lines 375-389. -/
def addContact (m : Mid ι K) (nc : ι → Bool) (f : ι → K) : ι → K := fun i =>
  if m.status ≠ .mix ∧ nc i = true then f i + m.tau * m.g i else f i

/-- The force vector at the end of the iteration (lines 358-389). -/
def stepForce (P : Problem ι K) (o : Options ι K) (m : Mid ι K) : ι → K :=
  addContact m (newContact P o m) (truncate o m (rescale P o (clip m)))

/-- `delta_str` after lines 375-389. -/
def stepStatus (P : Problem ι K) (o : Options ι K) (m : Mid ι K) : Status :=
  if m.status = .mix then .mix else if 0 < count (newContact P o m) then .sd else .cg

/-- `max_pres`, lines 350-356. -/
def maxPres (o : Options ι K) (m : Mid ι K) (hard : Bool) : K :=
  let p := if 0 < count (tensile m) then maxOver (tensile m) m.f else 0
  if hard ∧ 0 < count (flowing o m) then
    max p (-(minOver (flowing o m) fun i => m.f i + o.hardness.at i)) else p

/-- `max_pen`, line 407. -/
def maxPen (P : Problem ι K) (m : Mid ι K) (u : ι → K) : K :=
  max 0 (maxOver P.comp fun i => if m.c i then P.h i + m.offset - u i else 0)

/-- Convergence test on the total force, lines 415-421. -/
def convForce (o : Options ι K) (s : State ι K) (total : K) : Bool :=
  match o.externalForce, s.lastTotalForce with
  | some F, _ => relLt total F o.thermotol
  | none, some l => relLt total l o.thermotol
  | none, none => true

/-- Convergence test on the movement of the rigid surface, lines 423-427. -/
def convHeight (o : Options ι K) (s : State ι K) (maxH : K) : Bool :=
  match o.externalForce, s.lastMaxHeight with
  | some _, some l => relLt maxH l o.thermotol
  | _, _ => true

/-- Lines 332-475 of the loop body, after the branch; `hard` is the truth value of
`hardness`. -/
def finish (P : Problem ι K) (o : Options ι K) (pentol : K) (s : State ι K) (m : Mid ι K)
    (hard : Bool) : StepOut ι K :=
  let pad : ι → Bool := fun i => !P.comp i
  let padPres := if 0 < count pad then maxOver pad (fun i => pabs (m.f i)) else 0
  let mp := maxPres o m hard
  let f := stepForce P o m
  let status := stepStatus P o m
  let u := P.disp f
  let maxdu := maxOver (fun _ => true) fun i => pabs (u i - s.u i)
  let Acg := count (cgSet o s)
  let pen := maxPen P m u
  let total := -(sumOver P.comp f)
  let maxH := maxOver P.comp P.h + m.offset
  let rmsOk := sqrtLt (if 0 < Acg then m.G / (Acg : K) else m.G) pentol
  let cTol : Bool :=
    if status = .mix then
      decide (maxdu < pentol) && decide (mp < o.forcetol) && decide (padPres < o.forcetol)
    else
      rmsOk && decide (pen < pentol) && decide (maxdu < pentol) &&
        decide (mp < o.forcetol) && decide (padPres < o.forcetol)
  { next :=
      { f := f, u := u, t := m.t
        delta := decide (status = .cg)
        status := status
        Gold := m.G
        mixfacCur := m.mixfacCur
        mixsteps := m.mixsteps
        lastMaxHeight := some maxH
        lastTotalForce := some total
        offset := m.offset
        nfev := m.nfev + 1 }
    c := m.c
    g := m.g
    nc := newContact P o m
    tau := m.tau
    Acontact := count (contact s)
    Acg := Acg
    G := m.G
    maxPres := mp
    padPres := padPres
    maxPen := pen
    maxdu := maxdu
    totalForce := total
    converged := convForce o s total && convHeight o s maxH && cTol }

/-- The branch of lines 260-330. -/
def branch (P : Problem ι K) (o : Options ι K) (s : State ι K) : Except PyErr (Mid ι K) :=
  if doCG o s then .ok (cgBranch P o s) else mixBranch P o s

/-- One pass through the loop body, lines 236-475.  Python evaluates `if hardness:` (line 353)
after the branch; an exception there ends the run. -/
def step (P : Problem ι K) (o : Options ι K) (pentol : K) (s : State ι K) :
    Except PyErr (StepOut ι K) :=
  match branch P o s with
  | .error e => .error e
  | .ok m =>
    match o.hardness.truth with
    | .error e => .error e
    | .ok hard => .ok (finish P o pentol s m hard)

/-- The `OptimizeResult` returned, lines 203-207, 459-475, 494-509. `jac` is defined on the
slice (here: on the full index set, `0`-extended).  `status` and `tau` are not part of the Python
result object; they are what the last iteration writes to the log (lines 437, 452). -/
structure Result (ι K : Type) where
  x : ι → K
  jac : ι → K
  activeSet : ι → Bool
  plastic : Option (ι → Bool)
  fun_ : K
  offset : K
  success : Bool
  nit : ℕ
  nfev : ℕ
  maxPen : K
  maxPres : K
  status : Status
  tau : K

/-- Lines 459-475 (`success = True`) and 497-509 (`success = False`). -/
def mkResult (P : Problem ι K) (o : Options ι K) (nit : ℕ) (success : Bool) (w : StepOut ι K) :
    Result ι K :=
  { x := w.next.u
    jac := fun i => if P.slice i then -(w.next.f i) else 0
    activeSet :=
      if success = true ∧ w.next.status = .mix then
        fun i => if P.comp i then decide (w.g i < 0) else w.c i
      else w.c
    plastic :=
      if success = true ∧ o.hardness.isSome = true then
        some fun i => P.slice i && P.comp i && decide (w.g i < 0)
      else none
    fun_ := -(sumOver P.slice fun i => w.next.f i * w.next.u i) / 2
    offset := w.next.offset
    success := success
    nit := nit
    nfev := w.next.nfev
    maxPen := w.maxPen
    maxPres := w.maxPres
    status := w.next.status
    tau := w.tau }

/-- The loop, lines 235-509, with `fuel` iterations left after `it` have been done; `cb` collects
what the callback (line 489) has received so far, oldest first.  Running out of fuel before the first
iteration is `maxiter = 0`: line 494 then reads the unbound local `log_values`. -/
def loop (P : Problem ι K) (o : Options ι K) (pentol : K) :
    (fuel it : ℕ) → State ι K → List (ℕ × (ι → K)) → Option (StepOut ι K) →
      Except PyErr (Result ι K × List (ℕ × (ι → K)))
  | 0, _, _, _, none => .error .unboundLocal
  | 0, it, _, cb, some w => .ok (mkResult P o it false w, cb)
  | fuel + 1, it, s, cb, _ =>
    match step P o pentol s with
    | .error e => .error e
    | .ok w =>
      if w.converged then .ok (mkResult P o (it + 1) true w, cb)
      else loop P o pentol fuel (it + 1) w.next (cb ++ [(it + 1, w.next.f)]) (some w)

/-- `constrained_conjugate_gradients(...)` together with the recorded callback calls. -/
def solveCb (P : Problem ι K) (o : Options ι K) : Except PyErr (Result ι K × List (ℕ × (ι → K))) :=
  match pentolOf P o with
  | .error e => .error e
  | .ok pentol => loop P o pentol o.maxiter 0 (initState P o) [] none

/-- `constrained_conjugate_gradients(...)`. -/
def solve (P : Problem ι K) (o : Options ι K) : Except PyErr (Result ι K) :=
  (solveCb P o).map Prod.fst

end

end CM.CCG
