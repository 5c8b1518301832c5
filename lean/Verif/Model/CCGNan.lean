import Verif.Model.CCG
import Mathlib.Analysis.Real.Sqrt
/-!
# `constrained_conjugate_gradients` with `nan`

`Model/CCG` computes with numbers only.  Here every quantity of
`/repo/ContactMechanics/Optimization/ConstrainedConjugateGradients.py:47-509` may also be `nan`, and masks are applied as in the code: `a[mask]` selects, `mask * a` multiplies (so that
`False * nan` is `nan`).

Simplifications: numbers are exact and there is no overflow; a quotient by zero is `nan` (NumPy returns `nan` or `inf`; the only quotient of the code that can have a zero
divisor is compared with a tolerance by `abs(...) < tol`, which is false for both); a single process; a hardness is a number or `nan`, not an array (arrays raise, C46); messages are not modelled.
-/
namespace CM.CCG

/-- A Python float. -/
inductive PyFloat where
  | num (x : ℝ)
  | nan

namespace PyFloat

/-- The value; `0` for `nan`. -/
def val : PyFloat → ℝ
  | num x => x
  | nan => 0

/-- `not isnan(x)`. -/
def IsNum (x : PyFloat) : Prop := ∃ r, x = num r

instance : Zero PyFloat := ⟨num 0⟩
instance : One PyFloat := ⟨num 1⟩
instance : Neg PyFloat := ⟨fun a => match a with | num x => num (-x) | nan => nan⟩
instance : Add PyFloat := ⟨fun a b => match a, b with | num x, num y => num (x + y) | _, _ => nan⟩
instance : Sub PyFloat := ⟨fun a b => match a, b with | num x, num y => num (x - y) | _, _ => nan⟩
instance : Mul PyFloat := ⟨fun a b => match a, b with | num x, num y => num (x * y) | _, _ => nan⟩
noncomputable instance : Div PyFloat := ⟨fun a b => match a, b with | num x, num y => open Classical in if y = 0 then nan else num (x / y) | _, _ => nan⟩

open Classical in
/-- `a < b`. -/
noncomputable def lt (a b : PyFloat) : Bool := match a, b with | num x, num y => decide (x < y) | _, _ => false

open Classical in
/-- `a <= b`. -/
noncomputable def le (a b : PyFloat) : Bool := match a, b with | num x, num y => decide (x ≤ y) | _, _ => false

open Classical in
/-- `a != 0`; true of `nan`. -/
noncomputable def ne0 (a : PyFloat) : Bool := match a with | num x => decide (x ≠ 0) | nan => true

/-- `abs(a)`. -/
noncomputable def abs (a : PyFloat) : PyFloat := match a with | num x => num (pabs x) | nan => nan

/-- `sqrt(a)`. -/
noncomputable def sqrt (a : PyFloat) : PyFloat := match a with | num x => num (Real.sqrt x) | nan => nan

/-- `b * a` with a mask `b`. -/
def mask (b : Bool) (a : PyFloat) : PyFloat := match a with | num x => num (if b then x else 0) | nan => nan

/-- Python's `max(a, b)`: `b` only if it is larger. -/
noncomputable def max2 (a b : PyFloat) : PyFloat := if a.lt b then b else a

end PyFloat

open PyFloat

variable {ι : Type} [Fintype ι]

open Classical in
/-- `reduction.sum(a[p])`: `nan` if a selected entry is. -/
noncomputable def fsum (p : ι → Bool) (a : ι → PyFloat) : PyFloat :=
  if ∀ i, p i = true → (a i).IsNum then num (sumOver p fun i => (a i).val) else nan

open Classical in
/-- `reduction.max(a[p])`. -/
noncomputable def fmax (p : ι → Bool) (a : ι → PyFloat) : PyFloat :=
  if ∀ i, p i = true → (a i).IsNum then num (maxOver p fun i => (a i).val) else nan

open Classical in
/-- `reduction.min(a[p])`. -/
noncomputable def fmin (p : ι → Bool) (a : ι → PyFloat) : PyFloat :=
  if ∀ i, p i = true → (a i).IsNum then num (minOver p fun i => (a i).val) else nan

namespace Nan

/-- The hardness at a point (`0` if there is none; arrays are not modelled). -/
def hardAt (o : Options ι PyFloat) (i : ι) : PyFloat :=
  match o.hardness with
  | .none => 0
  | .scalar H => H
  | .array H => H i

/-- `if hardness:`; `nan` is true. -/
noncomputable def hardTruth (o : Options ι PyFloat) : Except PyErr Bool :=
  match o.hardness with
  | .none => .ok false
  | .scalar H => .ok H.ne0
  | .array _ => .error .valueError

/-- `abs((a - b) / a) < tol`, lines 418, 420, 426. -/
noncomputable def relLt (a b tol : PyFloat) : Bool := ((a - b) / a).abs.lt tol

/-- Lines 150-162. -/
noncomputable def pentolOf (P : Problem ι PyFloat) (o : Options ι PyFloat) : Except PyErr PyFloat :=
  match o.pentol with
  | some p => .ok p
  | none =>
    let p := P.rmsHeight / (num 10 * P.meanGrid)
    if p.ne0 then .ok p else
      match o.offset with
      | none => .error .typeError
      | some off =>
        let p := (off + fsum P.comp P.h / P.nSurf) / num 1000
        if p.ne0 then .ok p else .ok (num (1 / 1000))

/-- Lines 170-173 and 201. -/
noncomputable def initU (P : Problem ι PyFloat) (o : Options ι PyFloat) : ι → PyFloat :=
  let u0 := o.initialDisplacements.getD fun _ => 0
  let off := o.offset.getD 0
  fun i => if P.comp i then (if (u0 i).lt (P.h i + off) then P.h i + off else u0 i) else u0 i

/-- Lines 167-233. -/
noncomputable def initState (P : Problem ι PyFloat) (o : Options ι PyFloat) : State ι PyFloat :=
  let fu : (ι → PyFloat) × (ι → PyFloat) :=
    match o.initialForces with
    | none => (P.force (initU P o), initU P o)
    | some f0 => (f0, P.disp f0)
  { f := fun i => if P.comp i then fu.1 i else 0
    u := fu.2
    t := fun _ => 0
    delta := false
    status := .reset
    Gold := 1
    mixfacCur := o.mixfac
    mixsteps := 0
    lastMaxHeight := none
    lastTotalForce := none
    offset := o.offset.getD 0
    nfev := 1 }

/-- `c_r`, line 239. -/
noncomputable def contact (s : State ι PyFloat) : ι → Bool := fun i => (s.f i).lt 0

/-- `c_r` of lines 239-249. -/
noncomputable def cgSet (o : Options ι PyFloat) (s : State ι PyFloat) : ι → Bool := fun i =>
  (s.f i).lt 0 && (!o.hardness.isSome || (-(hardAt o i)).lt (s.f i))

open Classical in
/-- Line 260. -/
noncomputable def doCG (o : Options ι PyFloat) (s : State ι PyFloat) : Bool :=
  !o.hardness.isSome ||
    (decide (0 < count (contact s)) &&
      decide ((1 : ℝ) / 100 < (count (cgSet o s) : ℝ) / (count (contact s) : ℝ)) &&
      decide (s.mixsteps = 0))

/-- Lines 265-269. -/
noncomputable def cgOffset (P : Problem ι PyFloat) (o : Options ι PyFloat) (s : State ι PyFloat) : PyFloat :=
  match o.externalForce with
  | none => s.offset
  | some _ =>
    if 0 < count (cgSet o s) then
      fsum (fun i => cgSet o s i && P.comp i) (fun i => s.u i - P.h i) / num (count (cgSet o s))
    else 0

/-- Lines 276-279. -/
noncomputable def cgDir (P : Problem ι PyFloat) (s : State ι PyFloat) (c : ι → Bool) (g : ι → PyFloat) (G : PyFloat) : ι → PyFloat := fun i =>
  if P.comp i then
    (if s.delta && PyFloat.lt 0 s.Gold then (g i + G / s.Gold * s.t i).mask (c i) else (g i).mask (c i))
  else s.t i

/-- Lines 261-299.  `G` is reset to zero if the curvature `x` is not positive - or `nan`. -/
noncomputable def cgBranch (P : Problem ι PyFloat) (o : Options ι PyFloat) (s : State ι PyFloat) : Mid ι PyFloat :=
  let c := cgSet o s
  let off := cgOffset P o s
  let g : ι → PyFloat := fun i => s.u i - P.h i - off
  let G := fsum P.comp fun i => (g i).mask (c i) * g i
  let t := cgDir P s c g G
  let r := P.disp t
  let x := -(fsum (fun _ => true) fun i => (r i).mask (c i) * t i)
  let tau := if 0 < count c ∧ PyFloat.lt 0 x = true then fsum P.comp (fun i => (g i).mask (c i) * t i) / x else 0
  let G' := if 0 < count c ∧ ¬ PyFloat.lt 0 x = true then 0 else G
  { f := fun i => s.f i + tau.mask (c i) * t i
    t := t
    g := g
    c := c
    offset := off
    G := G'
    tau := tau
    status := if s.status = .mix then .sd else s.status
    mixfacCur := o.mixfac
    mixsteps := s.mixsteps
    nfev := s.nfev + 1 }

/-- Lines 300-330. -/
noncomputable def mixBranch (P : Problem ι PyFloat) (o : Options ι PyFloat) (s : State ι PyFloat) : Except PyErr (Mid ι PyFloat) :=
  let steps := if s.status = .mix then s.mixsteps else o.minmixsteps
  let g0 : ι → PyFloat := fun i => s.u i - P.h i
  let offE : Except PyErr PyFloat :=
    match o.externalForce with
    | none => .ok s.offset
    | some F =>
      match o.hardness with
      | .scalar H =>
        o.bisect (fun x => num (count (fun i => P.comp i && (g0 i - x).lt 0)) * H - F) (fmax P.comp g0) (fmin P.comp g0)
      | _ => .error .valueError
  match offE with
  | .error e => .error e
  | .ok off =>
    let g : ι → PyFloat := fun i => g0 i - off
    let c : ι → Bool := fun i => if P.comp i then (g i).lt 0 else cgSet o s i
    .ok
      { f := fun i => (num 1 - s.mixfacCur) * s.f i - (s.mixfacCur * hardAt o i).mask (c i)
        t := s.t
        g := g
        c := c
        offset := off
        G := 0
        tau := 0
        status := .mix
        mixfacCur := s.mixfacCur * o.mixdecfac
        mixsteps := steps - 1
        nfev := s.nfev }

/-- `mask_tensile`, line 334. -/
noncomputable def tensile (m : Mid ι PyFloat) : ι → Bool := fun i => PyFloat.le 0 (m.f i)

/-- `mask_flowing`, line 339. -/
noncomputable def flowing (o : Options ι PyFloat) (m : Mid ι PyFloat) : ι → Bool := fun i =>
  o.hardness.isSome && (m.f i).le (-(hardAt o i))

/-- `nc_r`, lines 335-340. -/
noncomputable def newContact (P : Problem ι PyFloat) (o : Options ι PyFloat) (m : Mid ι PyFloat) : ι → Bool := fun i =>
  P.comp i && ((tensile m i && (m.g i).lt 0) || (flowing o m i && PyFloat.lt 0 (m.g i)))

/-- Line 359. -/
noncomputable def clip (m : Mid ι PyFloat) : ι → PyFloat := fun i => if tensile m i then 0 else m.f i

/-- Lines 361-368; the factor multiplies all points. -/
noncomputable def rescale (P : Problem ι PyFloat) (o : Options ι PyFloat) (f : ι → PyFloat) : ι → PyFloat :=
  match o.externalForce with
  | none => f
  | some F =>
    if (-(fsum P.comp f)).ne0 then fun i => f i * (F / -(fsum P.comp f))
    else fun i => if P.comp i then -F / P.nSurf else 0

/-- Lines 370-373. -/
noncomputable def truncate (o : Options ι PyFloat) (m : Mid ι PyFloat) (f : ι → PyFloat) : ι → PyFloat := fun i =>
  if flowing o m i then -(hardAt o i) else f i

/-- `delta_str` after lines 375-389. -/
noncomputable def stepStatus (P : Problem ι PyFloat) (o : Options ι PyFloat) (m : Mid ι PyFloat) : Status :=
  if m.status = .mix then .mix else if 0 < count (newContact P o m) then .sd else .cg

/-- Lines 375-389: if there are new contact points, `tau * nc_r * g_r` is added on the whole topography. -/
noncomputable def addContact (P : Problem ι PyFloat) (o : Options ι PyFloat) (m : Mid ι PyFloat) (f : ι → PyFloat) : ι → PyFloat := fun i =>
  if stepStatus P o m = .sd ∧ P.comp i = true then f i + m.tau.mask (newContact P o m i) * m.g i else f i

/-- Lines 358-389. -/
noncomputable def stepForce (P : Problem ι PyFloat) (o : Options ι PyFloat) (m : Mid ι PyFloat) : ι → PyFloat :=
  addContact P o m (truncate o m (rescale P o (clip m)))

/-- `max_pres`, lines 350-356. -/
noncomputable def maxPres (o : Options ι PyFloat) (m : Mid ι PyFloat) (hard : Bool) : PyFloat :=
  let p := if 0 < count (tensile m) then fmax (tensile m) m.f else 0
  if hard ∧ 0 < count (flowing o m) then
    p.max2 (-(fmin (flowing o m) fun i => m.f i + hardAt o i)) else p

/-- `max_pen`, line 407: Python's `max` returns `0.0` if the second argument is `nan`. -/
noncomputable def maxPen (P : Problem ι PyFloat) (m : Mid ι PyFloat) (u : ι → PyFloat) : PyFloat :=
  PyFloat.max2 0 (fmax P.comp fun i => (P.h i + m.offset - u i).mask (m.c i))

/-- Lines 415-421. -/
noncomputable def convForce (o : Options ι PyFloat) (s : State ι PyFloat) (total : PyFloat) : Bool :=
  match o.externalForce, s.lastTotalForce with
  | some F, _ => relLt total F o.thermotol
  | none, some l => relLt total l o.thermotol
  | none, none => true

/-- Lines 423-427. -/
noncomputable def convHeight (o : Options ι PyFloat) (s : State ι PyFloat) (maxH : PyFloat) : Bool :=
  match o.externalForce, s.lastMaxHeight with
  | some _, some l => relLt maxH l o.thermotol
  | _, _ => true

/-- `rms_pen`, lines 403-406. -/
noncomputable def rmsPen (G : PyFloat) (Acg : ℕ) : PyFloat := (if 0 < Acg then G / num Acg else G).sqrt

/-- Lines 332-475. -/
noncomputable def finish (P : Problem ι PyFloat) (o : Options ι PyFloat) (pentol : PyFloat) (s : State ι PyFloat) (m : Mid ι PyFloat)
    (hard : Bool) : StepOut ι PyFloat :=
  let pad : ι → Bool := fun i => !P.comp i
  let padPres := if 0 < count pad then fmax pad (fun i => (m.f i).abs) else 0
  let mp := maxPres o m hard
  let f := stepForce P o m
  let status := stepStatus P o m
  let u := P.disp f
  let maxdu := fmax (fun _ => true) fun i => (u i - s.u i).abs
  let Acg := count (cgSet o s)
  let pen := maxPen P m u
  let total := -(fsum P.comp f)
  let maxH := fmax P.comp P.h + m.offset
  let cTol : Bool :=
    if status = .mix then
      maxdu.lt pentol && mp.lt o.forcetol && padPres.lt o.forcetol
    else
      (rmsPen m.G Acg).lt pentol && pen.lt pentol && maxdu.lt pentol && mp.lt o.forcetol && padPres.lt o.forcetol
  { next :=
      { f := f, u := u, t := m.t
        delta := decide (status = .cg)
        status := status
        Gold := m.G
        mixfacCur := m.mixfacCur
        mixsteps := m.mixsteps
        lastMaxHeight := some maxH
        lastTotalForce := some total
        offset := m.offset
        nfev := m.nfev + 1 }
    c := m.c
    g := m.g
    nc := newContact P o m
    tau := m.tau
    Acontact := count (contact s)
    Acg := Acg
    G := m.G
    maxPres := mp
    padPres := padPres
    maxPen := pen
    maxdu := maxdu
    totalForce := total
    converged := convForce o s total && convHeight o s maxH && cTol }

/-- Lines 260-330. -/
noncomputable def branch (P : Problem ι PyFloat) (o : Options ι PyFloat) (s : State ι PyFloat) : Except PyErr (Mid ι PyFloat) :=
  if doCG o s then .ok (cgBranch P o s) else mixBranch P o s

/-- Lines 236-475. -/
noncomputable def step (P : Problem ι PyFloat) (o : Options ι PyFloat) (pentol : PyFloat) (s : State ι PyFloat) : Except PyErr (StepOut ι PyFloat) :=
  match branch P o s with
  | .error e => .error e
  | .ok m =>
    match hardTruth o with
    | .error e => .error e
    | .ok hard => .ok (finish P o pentol s m hard)

/-- Lines 459-475 and 497-509. -/
noncomputable def mkResult (P : Problem ι PyFloat) (o : Options ι PyFloat) (nit : ℕ) (success : Bool) (w : StepOut ι PyFloat) : Result ι PyFloat :=
  { x := w.next.u
    jac := fun i => if P.slice i then -(w.next.f i) else 0
    activeSet :=
      if success = true ∧ w.next.status = .mix then
        fun i => if P.comp i then (w.g i).lt 0 else w.c i
      else w.c
    plastic :=
      if success = true ∧ o.hardness.isSome = true then
        some fun i => P.slice i && P.comp i && (w.g i).lt 0
      else none
    fun_ := -(fsum P.slice fun i => w.next.f i * w.next.u i) / num 2
    offset := w.next.offset
    success := success
    nit := nit
    nfev := w.next.nfev
    maxPen := w.maxPen
    maxPres := w.maxPres
    status := w.next.status
    tau := w.tau }

/-- `isnan(G) or isnan(rms_pen)`, line 491. -/
def nanFound (w : StepOut ι PyFloat) : Prop := ¬ w.G.IsNum ∨ ¬ (rmsPen w.G w.Acg).IsNum

open Classical in
/-- The loop, lines 235-509; the test for `nan` comes after the callback. -/
noncomputable def loop (P : Problem ι PyFloat) (o : Options ι PyFloat) (pentol : PyFloat) :
    (fuel it : ℕ) → State ι PyFloat → Option (StepOut ι PyFloat) → Except PyErr (Result ι PyFloat)
  | 0, _, _, none => .error .unboundLocal
  | 0, it, _, some w => .ok (mkResult P o it false w)
  | fuel + 1, it, s, _ =>
    match step P o pentol s with
    | .error e => .error e
    | .ok w =>
      if w.converged then .ok (mkResult P o (it + 1) true w)
      else if nanFound w then .error .runtimeError
      else loop P o pentol fuel (it + 1) w.next (some w)

/-- `constrained_conjugate_gradients(...)`. -/
noncomputable def solve (P : Problem ι PyFloat) (o : Options ι PyFloat) : Except PyErr (Result ι PyFloat) :=
  match pentolOf P o with
  | .error e => .error e
  | .ok pentol => loop P o pentol o.maxiter 0 (initState P o) none

end Nan
end CM.CCG
