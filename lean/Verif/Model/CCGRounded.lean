import Verif.Model.CCG
import Mathlib.Analysis.Real.Sqrt
/-!
# `constrained_conjugate_gradients` in rounded arithmetic

`Model/CCG` computes with exact numbers.  Here every elementary operation of
`/repo/ContactMechanics/Optimization/ConstrainedConjugateGradients.py:47-509` is followed by a rounding, in the order in which Python evaluates the expressions, and sums over arrays
are whatever the reduction returns.

Simplifications: those of `Model/CCG` except exact arithmetic; no overflow and no `nan` (results of operations are real numbers, except for quotients by zero, treated as
in `Model/CCG`); products with the entries `0` and `1` of a mask, changes of sign, comparisons, maxima and minima are exact, as they are in IEEE arithmetic; the substrate
(`disp`, `force`) is an arbitrary map and includes its own rounding errors.
-/
namespace CM.CCG

open Finset

/-- An arithmetic: the rounding of the result of an elementary operation, and the sum of the selected entries of an array (`reduction.sum`). -/
structure Arith (ι : Type) where
  rnd : ℝ → ℝ
  sum : (ι → Bool) → (ι → ℝ) → ℝ

namespace Arith
variable {ι : Type} [Fintype ι]

/-- `abs((a - b) / a) < tol`, lines 418, 420, 426. -/
noncomputable def relLt (A : Arith ι) (a b tol : ℝ) : Bool := decide (a ≠ 0) && decide (pabs (A.rnd (A.rnd (a - b) / a)) < tol)

/-- Penetration tolerance, lines 150-162. -/
noncomputable def pentolOf (A : Arith ι) (P : Problem ι ℝ) (o : Options ι ℝ) : Except PyErr ℝ :=
  match o.pentol with
  | some p => .ok p
  | none =>
    let p := A.rnd (P.rmsHeight / A.rnd (10 * P.meanGrid))
    if p ≠ 0 then .ok p else
      match o.offset with
      | none => .error .typeError
      | some off =>
        let p := A.rnd (A.rnd (off + A.rnd (A.sum P.comp P.h / P.nSurf)) / 1000)
        if p ≠ 0 then .ok p else .ok (A.rnd (1 / 1000))

/-- Lines 170-173 and 201. -/
noncomputable def initU (A : Arith ι) (P : Problem ι ℝ) (o : Options ι ℝ) : ι → ℝ :=
  let u0 := o.initialDisplacements.getD fun _ => 0
  let off := o.offset.getD 0
  fun i => if P.comp i then (if u0 i < A.rnd (P.h i + off) then A.rnd (P.h i + off) else u0 i) else u0 i

/-- Variables before the loop, lines 167-233. -/
noncomputable def initState (A : Arith ι) (P : Problem ι ℝ) (o : Options ι ℝ) : State ι ℝ :=
  let fu : (ι → ℝ) × (ι → ℝ) :=
    match o.initialForces with
    | none => (P.force (A.initU P o), A.initU P o)
    | some f0 => (f0, P.disp f0)
  { f := fun i => if P.comp i then fu.1 i else 0
    u := fu.2
    t := fun _ => 0
    delta := false
    status := .reset
    Gold := 1
    mixfacCur := o.mixfac
    mixsteps := 0
    lastMaxHeight := none
    lastTotalForce := none
    offset := o.offset.getD 0
    nfev := 1 }

/-- The condition of line 260. -/
noncomputable def doCG (A : Arith ι) (o : Options ι ℝ) (s : State ι ℝ) : Bool :=
  !o.hardness.isSome ||
    (decide (0 < count (contact s)) &&
      decide (A.rnd (1 / 100) < A.rnd ((count (cgSet o s) : ℝ) / (count (contact s) : ℝ))) &&
      decide (s.mixsteps = 0))

/-- Offset of a CG step, lines 265-269. -/
noncomputable def cgOffset (A : Arith ι) (P : Problem ι ℝ) (o : Options ι ℝ) (s : State ι ℝ) : ℝ :=
  match o.externalForce with
  | none => s.offset
  | some _ =>
    let c := cgSet o s
    if 0 < count c then
      A.rnd (A.sum (fun i => c i && P.comp i) (fun i => A.rnd (s.u i - P.h i)) / (count c : ℝ))
    else 0

/-- Search direction, lines 276-279. -/
noncomputable def cgDir (A : Arith ι) (P : Problem ι ℝ) (s : State ι ℝ) (c : ι → Bool) (g : ι → ℝ) (G : ℝ) : ι → ℝ := fun i =>
  if P.comp i then
    (if s.delta && decide (0 < s.Gold) then
      (if c i then A.rnd (g i + A.rnd (A.rnd (G / s.Gold) * s.t i)) else 0)
    else (if c i then g i else 0))
  else s.t i

/-- Lines 261-299. -/
noncomputable def cgBranch (A : Arith ι) (P : Problem ι ℝ) (o : Options ι ℝ) (s : State ι ℝ) : Mid ι ℝ :=
  let c := cgSet o s
  let off := A.cgOffset P o s
  let g : ι → ℝ := fun i => A.rnd (A.rnd (s.u i - P.h i) - off)
  let G := A.sum (fun i => c i && P.comp i) fun i => A.rnd (g i * g i)
  let t := A.cgDir P s c g G
  let r := P.disp t
  let x := -(A.sum c fun i => A.rnd (r i * t i))
  let tau := if 0 < count c ∧ 0 < x then A.rnd (A.sum (fun i => c i && P.comp i) (fun i => A.rnd (g i * t i)) / x) else 0
  let G' := if 0 < count c ∧ ¬ 0 < x then 0 else G
  { f := fun i => if c i then A.rnd (s.f i + A.rnd (tau * t i)) else s.f i
    t := t
    g := g
    c := c
    offset := off
    G := G'
    tau := tau
    status := if s.status = .mix then .sd else s.status
    mixfacCur := o.mixfac
    mixsteps := s.mixsteps
    nfev := s.nfev + 1 }

/-- Lines 300-330. -/
noncomputable def mixBranch (A : Arith ι) (P : Problem ι ℝ) (o : Options ι ℝ) (s : State ι ℝ) : Except PyErr (Mid ι ℝ) :=
  let steps := if s.status = .mix then s.mixsteps else o.minmixsteps
  let g0 : ι → ℝ := fun i => A.rnd (s.u i - P.h i)
  let offE : Except PyErr ℝ :=
    match o.externalForce with
    | none => .ok s.offset
    | some F =>
      match o.hardness with
      | .scalar H =>
        o.bisect (fun x => A.rnd (A.rnd ((count (fun i => P.comp i && decide (A.rnd (g0 i - x) < 0)) : ℝ) * H) - F))
          (maxOver P.comp g0) (minOver P.comp g0)
      | _ => .error .valueError
  match offE with
  | .error e => .error e
  | .ok off =>
    let g : ι → ℝ := fun i => A.rnd (g0 i - off)
    let c : ι → Bool := fun i => if P.comp i then decide (g i < 0) else cgSet o s i
    .ok
      { f := fun i => A.rnd (A.rnd (A.rnd (1 - s.mixfacCur) * s.f i) - (if c i then A.rnd (s.mixfacCur * o.hardness.at i) else 0))
        t := s.t
        g := g
        c := c
        offset := off
        G := 0
        tau := 0
        status := .mix
        mixfacCur := A.rnd (s.mixfacCur * o.mixdecfac)
        mixsteps := steps - 1
        nfev := s.nfev }

/-- Force after enforcing the external force, lines 361-368. -/
noncomputable def rescale (A : Arith ι) (P : Problem ι ℝ) (o : Options ι ℝ) (f : ι → ℝ) : ι → ℝ :=
  match o.externalForce with
  | none => f
  | some F =>
    let total := -(A.sum P.comp f)
    if total ≠ 0 then fun i => A.rnd (f i * A.rnd (F / total))
    else fun i => if P.comp i then A.rnd (-F / P.nSurf) else 0

/-- Lines 375-389. -/
noncomputable def addContact (A : Arith ι) (m : Mid ι ℝ) (nc : ι → Bool) (f : ι → ℝ) : ι → ℝ := fun i =>
  if m.status ≠ .mix ∧ nc i = true then A.rnd (f i + A.rnd (m.tau * m.g i)) else f i

/-- The force vector at the end of the iteration, lines 358-389. -/
noncomputable def stepForce (A : Arith ι) (P : Problem ι ℝ) (o : Options ι ℝ) (m : Mid ι ℝ) : ι → ℝ :=
  A.addContact m (newContact P o m) (truncate o m (A.rescale P o (clip m)))

/-- `max_pres`, lines 350-356. -/
noncomputable def maxPres (A : Arith ι) (o : Options ι ℝ) (m : Mid ι ℝ) (hard : Bool) : ℝ :=
  let p := if 0 < count (tensile m) then maxOver (tensile m) m.f else 0
  if hard ∧ 0 < count (flowing o m) then
    max p (-(minOver (flowing o m) fun i => A.rnd (m.f i + o.hardness.at i))) else p

/-- `max_pen`, line 407. -/
noncomputable def maxPen (A : Arith ι) (P : Problem ι ℝ) (m : Mid ι ℝ) (u : ι → ℝ) : ℝ :=
  max 0 (maxOver P.comp fun i => if m.c i then A.rnd (A.rnd (P.h i + m.offset) - u i) else 0)

/-- Lines 415-421. -/
noncomputable def convForce (A : Arith ι) (o : Options ι ℝ) (s : State ι ℝ) (total : ℝ) : Bool :=
  match o.externalForce, s.lastTotalForce with
  | some F, _ => A.relLt total F o.thermotol
  | none, some l => A.relLt total l o.thermotol
  | none, none => true

/-- Lines 423-427. -/
noncomputable def convHeight (A : Arith ι) (o : Options ι ℝ) (s : State ι ℝ) (maxH : ℝ) : Bool :=
  match o.externalForce, s.lastMaxHeight with
  | some _, some l => A.relLt maxH l o.thermotol
  | _, _ => true

/-- Lines 332-475 of the loop body. -/
noncomputable def finish (A : Arith ι) (P : Problem ι ℝ) (o : Options ι ℝ) (pentol : ℝ) (s : State ι ℝ) (m : Mid ι ℝ)
    (hard : Bool) : StepOut ι ℝ :=
  let pad : ι → Bool := fun i => !P.comp i
  let padPres := if 0 < count pad then maxOver pad (fun i => pabs (m.f i)) else 0
  let mp := A.maxPres o m hard
  let f := A.stepForce P o m
  let status := stepStatus P o m
  let u := P.disp f
  let maxdu := maxOver (fun _ => true) fun i => pabs (A.rnd (u i - s.u i))
  let Acg := count (cgSet o s)
  let pen := A.maxPen P m u
  let total := -(A.sum P.comp f)
  let maxH := A.rnd (maxOver P.comp P.h + m.offset)
  let rmsOk := decide (A.rnd (Real.sqrt (if 0 < Acg then A.rnd (m.G / (Acg : ℝ)) else m.G)) < pentol)
  let cTol : Bool :=
    if status = .mix then
      decide (maxdu < pentol) && decide (mp < o.forcetol) && decide (padPres < o.forcetol)
    else
      rmsOk && decide (pen < pentol) && decide (maxdu < pentol) &&
        decide (mp < o.forcetol) && decide (padPres < o.forcetol)
  { next :=
      { f := f, u := u, t := m.t
        delta := decide (status = .cg)
        status := status
        Gold := m.G
        mixfacCur := m.mixfacCur
        mixsteps := m.mixsteps
        lastMaxHeight := some maxH
        lastTotalForce := some total
        offset := m.offset
        nfev := m.nfev + 1 }
    c := m.c
    g := m.g
    nc := newContact P o m
    tau := m.tau
    Acontact := count (contact s)
    Acg := Acg
    G := m.G
    maxPres := mp
    padPres := padPres
    maxPen := pen
    maxdu := maxdu
    totalForce := total
    converged := A.convForce o s total && A.convHeight o s maxH && cTol }

/-- The branch of lines 260-330. -/
noncomputable def branch (A : Arith ι) (P : Problem ι ℝ) (o : Options ι ℝ) (s : State ι ℝ) : Except PyErr (Mid ι ℝ) :=
  if A.doCG o s then .ok (A.cgBranch P o s) else A.mixBranch P o s

/-- One pass through the loop body, lines 236-475. -/
noncomputable def step (A : Arith ι) (P : Problem ι ℝ) (o : Options ι ℝ) (pentol : ℝ) (s : State ι ℝ) : Except PyErr (StepOut ι ℝ) :=
  match A.branch P o s with
  | .error e => .error e
  | .ok m =>
    match o.hardness.truth with
    | .error e => .error e
    | .ok hard => .ok (A.finish P o pentol s m hard)

/-- Lines 459-475 and 497-509; only the energy is computed. -/
noncomputable def mkResult (A : Arith ι) (P : Problem ι ℝ) (o : Options ι ℝ) (nit : ℕ) (success : Bool) (w : StepOut ι ℝ) : Result ι ℝ :=
  { CCG.mkResult P o nit success w with fun_ := A.rnd (-(A.sum P.slice fun i => A.rnd (w.next.f i * w.next.u i)) / 2) }

/-- The loop, lines 235-509. -/
noncomputable def loop (A : Arith ι) (P : Problem ι ℝ) (o : Options ι ℝ) (pentol : ℝ) :
    (fuel it : ℕ) → State ι ℝ → List (ℕ × (ι → ℝ)) → Option (StepOut ι ℝ) →
      Except PyErr (Result ι ℝ × List (ℕ × (ι → ℝ)))
  | 0, _, _, _, none => .error .unboundLocal
  | 0, it, _, cb, some w => .ok (A.mkResult P o it false w, cb)
  | fuel + 1, it, s, cb, _ =>
    match A.step P o pentol s with
    | .error e => .error e
    | .ok w =>
      if w.converged then .ok (A.mkResult P o (it + 1) true w, cb)
      else loop A P o pentol fuel (it + 1) w.next (cb ++ [(it + 1, w.next.f)]) (some w)

/-- `constrained_conjugate_gradients(...)` with the recorded callback calls. -/
noncomputable def solveCb (A : Arith ι) (P : Problem ι ℝ) (o : Options ι ℝ) : Except PyErr (Result ι ℝ × List (ℕ × (ι → ℝ))) :=
  match A.pentolOf P o with
  | .error e => .error e
  | .ok pentol => A.loop P o pentol o.maxiter 0 (A.initState P o) [] none

/-- `constrained_conjugate_gradients(...)`. -/
noncomputable def solve (A : Arith ι) (P : Problem ι ℝ) (o : Options ι ℝ) : Except PyErr (Result ι ℝ) :=
  (A.solveCb P o).map Prod.fst

end Arith
end CM.CCG
