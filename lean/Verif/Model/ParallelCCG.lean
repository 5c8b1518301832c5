import Verif.Model.CCG
/-!
# `constrained_conjugate_gradients` on several processes

Models `/repo/ContactMechanics/Optimization/ConstrainedConjugateGradients.py:129-509` as the program that every process runs on its
part of the arrays.  Local computations are pure; the processes meet in collective calls: the reductions of `NuMPI.Tools.Reduction`,
`substrate.evaluate_disp`, `substrate.evaluate_force` and `topography.rms_height_from_area()`.  All collective calls of the code appear
here, in the order of the code, also those that only serve the log and the callback.

Simplifications, besides those of `Model/CCG`: the collective calls are specified (a reduction gives every process the reduction of all
contributions, processes without entries do not contribute to maxima and minima; a substrate call gives every process its part of the
serial answer); messages are reliable; `optim.bisect` is a strategy that asks for values of the function and ends with a result.
-/
namespace CM.CCG
open Finset

/-- The program of one process that owns the grid points `κ`: local results, and the collective calls it takes part in. -/
inductive Prog (κ K α : Type) : Type where
  | ret (a : α)
  | raise (e : PyErr)
  | sum (x : K) (k : K → Prog κ K α)
  | count (n : ℕ) (k : ℕ → Prog κ K α)
  | max (x : Option K) (k : K → Prog κ K α)
  | min (x : Option K) (k : K → Prog κ K α)
  | disp (f : κ → K) (k : (κ → K) → Prog κ K α)
  | force (u : κ → K) (k : (κ → K) → Prog κ K α)
  | rms (k : K → Prog κ K α)

namespace Prog
variable {κ K α β : Type}

/-- Sequence of two programs; an exception ends the process. -/
def bind : Prog κ K α → (α → Prog κ K β) → Prog κ K β
  | .ret a, k => k a
  | .raise e, _ => .raise e
  | .sum x c, k => .sum x fun y => (c y).bind k
  | .count n c, k => .count n fun y => (c y).bind k
  | .max x c, k => .max x fun y => (c y).bind k
  | .min x c, k => .min x fun y => (c y).bind k
  | .disp f c, k => .disp f fun y => (c y).bind k
  | .force u c, k => .force u fun y => (c y).bind k
  | .rms c, k => .rms fun y => (c y).bind k

instance : Monad (Prog κ K) where
  pure := .ret
  bind := bind

end Prog

/-! ## Processes -/

/-- `R` processes, process `r` owns the points `κ r` of the grid `ι`; every point has exactly one owner. -/
structure Decomp (R ι : Type) where
  κ : R → Type
  fin : ∀ r, Fintype (κ r)
  e : (Σ r, κ r) ≃ ι

/-- The part of a field that process `r` holds. -/
def Decomp.part {R ι A : Type} (D : Decomp R ι) (r : R) (a : ι → A) : D.κ r → A := fun j => a (D.e ⟨r, j⟩)

/-- The field put together from the parts. -/
def Decomp.glue {R ι A : Type} (D : Decomp R ι) (a : ∀ r, D.κ r → A) : ι → A := fun i => a (D.e.symm i).1 (D.e.symm i).2

section
variable {R ι K : Type} [Fintype R] [Fintype ι] [Field K] [LinearOrder K]

/-- Execution of all processes.  They leave a collective call together, after all have entered it; an execution in which some process
waits in a collective call that another one never enters does not end and has no outcome. -/
inductive Run (D : Decomp R ι) (P : Problem ι K) {α : R → Type} :
    (∀ r, Prog (D.κ r) K (α r)) → (∀ r, Except PyErr (α r)) → Prop where
  | ret (c : ∀ r, Prog (D.κ r) K (α r)) (a : ∀ r, α r) (hc : ∀ r, c r = .ret (a r)) : Run D P c fun r => .ok (a r)
  | raise (c : ∀ r, Prog (D.κ r) K (α r)) (e : R → PyErr) (hc : ∀ r, c r = .raise (e r)) : Run D P c fun r => .error (e r)
  | sum (c : ∀ r, Prog (D.κ r) K (α r)) (x : R → K) (k : ∀ r, K → Prog (D.κ r) K (α r)) (hc : ∀ r, c r = .sum (x r) (k r)) {out}
      (h : Run D P (fun r => k r (∑ r, x r)) out) : Run D P c out
  | count (c : ∀ r, Prog (D.κ r) K (α r)) (x : R → ℕ) (k : ∀ r, ℕ → Prog (D.κ r) K (α r)) (hc : ∀ r, c r = .count (x r) (k r)) {out}
      (h : Run D P (fun r => k r (∑ r, x r)) out) : Run D P c out
  | max (c : ∀ r, Prog (D.κ r) K (α r)) (x : R → Option K) (k : ∀ r, K → Prog (D.κ r) K (α r)) (hc : ∀ r, c r = .max (x r) (k r)) {out}
      (h : Run D P (fun r => k r (maxOver (fun r => (x r).isSome) fun r => (x r).getD 0)) out) : Run D P c out
  | min (c : ∀ r, Prog (D.κ r) K (α r)) (x : R → Option K) (k : ∀ r, K → Prog (D.κ r) K (α r)) (hc : ∀ r, c r = .min (x r) (k r)) {out}
      (h : Run D P (fun r => k r (minOver (fun r => (x r).isSome) fun r => (x r).getD 0)) out) : Run D P c out
  | disp (c : ∀ r, Prog (D.κ r) K (α r)) (f : ∀ r, D.κ r → K) (k : ∀ r, (D.κ r → K) → Prog (D.κ r) K (α r))
      (hc : ∀ r, c r = .disp (f r) (k r)) {out} (h : Run D P (fun r => k r (D.part r (P.disp (D.glue f)))) out) : Run D P c out
  | force (c : ∀ r, Prog (D.κ r) K (α r)) (u : ∀ r, D.κ r → K) (k : ∀ r, (D.κ r → K) → Prog (D.κ r) K (α r))
      (hc : ∀ r, c r = .force (u r) (k r)) {out} (h : Run D P (fun r => k r (D.part r (P.force (D.glue u)))) out) : Run D P c out
  | rms (c : ∀ r, Prog (D.κ r) K (α r)) (k : ∀ r, K → Prog (D.κ r) K (α r)) (hc : ∀ r, c r = .rms (k r)) {out}
      (h : Run D P (fun r => k r P.rmsHeight) out) : Run D P c out

end

/-! ## The program of one process -/

/-- What a process knows of the substrate and the topography: its part of the masks and heights, and the size of the whole grid
(`nb_surface_pts` and `np.mean(topography.nb_grid_pts)`, lines 149, 154, 179-196). -/
structure Local (κ K : Type) where
  comp : κ → Bool
  slice : κ → Bool
  h : κ → K
  nSurf : K
  meanGrid : K

/-- A root finder: it asks for values of the function, one after the other, and ends with a result. -/
inductive Strat (K : Type) where
  | found (r : Except PyErr K)
  | ask (x : K) (k : K → Strat K)

/-- The root finder applied to a function. -/
def Strat.run {K : Type} (f : K → K) : Strat K → Except PyErr K
  | .found r => r
  | .ask x k => (k (f x)).run f

/-- Keyword arguments of one process; `opts.bisect` is replaced by `bisect`. -/
structure PArgs (κ K : Type) where
  opts : Options κ K
  bisect : K → K → Strat K
  verbose : Bool
  callback : Bool

section
variable {κ K : Type} [Fintype κ] [Field K] [LinearOrder K]

/-- `reduction.sum(mask * a)`, `reduction.sum(a[mask])`. -/
def rsum (p : κ → Bool) (a : κ → K) : Prog κ K K := .sum (sumOver p a) .ret

/-- `reduction.sum(mask * 1)`. -/
def rcount (p : κ → Bool) : Prog κ K ℕ := .count (CCG.count p) .ret

/-- The maximum of the local entries, if there are any. -/
def localMax (p : κ → Bool) (a : κ → K) : Option K :=
  if (univ.filter fun i => p i = true).Nonempty then some (maxOver p a) else none

/-- The minimum of the local entries, if there are any. -/
def localMin (p : κ → Bool) (a : κ → K) : Option K :=
  if (univ.filter fun i => p i = true).Nonempty then some (minOver p a) else none

/-- `reduction.max(a[mask])`. -/
def rmax (p : κ → Bool) (a : κ → K) : Prog κ K K := .max (localMax p a) .ret

/-- `reduction.min(a[mask])`. -/
def rmin (p : κ → Bool) (a : κ → K) : Prog κ K K := .min (localMin p a) .ret

/-- `substrate.evaluate_disp(f)`. -/
def edisp (f : κ → K) : Prog κ K (κ → K) := .disp f .ret

/-- `substrate.evaluate_force(u)`. -/
def eforce (u : κ → K) : Prog κ K (κ → K) := .force u .ret

/-- Penetration tolerance, lines 150-162.  (`offset + reduction.sum(...)`: the reduction comes before the `TypeError` of `None + ...`.) -/
def pPentol (L : Local κ K) (A : PArgs κ K) : Prog κ K K :=
  match A.opts.pentol with
  | some p => .ret p
  | none => .rms fun rms =>
    if rms / (10 * L.meanGrid) ≠ 0 then .ret (rms / (10 * L.meanGrid))
    else (rsum L.comp L.h).bind fun tot =>
      match A.opts.offset with
      | none => .raise .typeError
      | some off => .ret (if (off + tot / L.nSurf) / 1000 ≠ 0 then (off + tot / L.nSurf) / 1000 else 1 / 1000)

/-- Lines 167-233: returns `max_masked_surface`, `N_pad` and the variables before the loop. -/
def pInit (L : Local κ K) (A : PArgs κ K) : Prog κ K (K × ℕ × State κ K) := do
  let off := A.opts.offset.getD 0
  let u0 : κ → K := A.opts.initialDisplacements.getD fun _ => 0
  let maxSurf ← rmax L.comp L.h
  let nPad ← rcount fun i => !L.comp i
  let u : κ → K := fun i => if L.comp i then (if u0 i < L.h i + off then L.h i + off else u0 i) else u0 i
  let fu ← (match A.opts.initialForces with
    | none => (eforce u).bind fun f => Prog.ret (f, u)
    | some f0 => (edisp f0).bind fun u => Prog.ret (f0, u))
  return (maxSurf, nPad,
    { f := fun i => if L.comp i then fu.1 i else 0
      u := fu.2
      t := fun _ => 0
      delta := false
      status := .reset
      Gold := 1
      mixfacCur := A.opts.mixfac
      mixsteps := 0
      lastMaxHeight := none
      lastTotalForce := none
      offset := off
      nfev := 1 })

/-- The offset of a conjugate gradient step, lines 265-269. -/
def pOffset (L : Local κ K) (A : PArgs κ K) (s : State κ K) (c : κ → Bool) (Acg : ℕ) : Prog κ K K :=
  match A.opts.externalForce with
  | none => .ret s.offset
  | some _ => if 0 < Acg then (rsum (fun i => c i && L.comp i) fun i => s.u i - L.h i).bind fun x => .ret (x / Acg) else .ret 0

/-- Step length and `G`, lines 286-295. -/
def pTau (L : Local κ K) (c : κ → Bool) (g t r : κ → K) (Acg : ℕ) (G : K) : Prog κ K (K × K) :=
  if 0 < Acg then
    (rsum c fun i => r i * t i).bind fun y =>
      if 0 < -y then (rsum (fun i => c i && L.comp i) fun i => g i * t i).bind fun z => .ret (z / (-y), G)
      else .ret (0, 0)
  else .ret (0, G)

/-- Lines 261-299. -/
def pCg (L : Local κ K) (A : PArgs κ K) (s : State κ K) (Acg : ℕ) : Prog κ K (Mid κ K) := do
  let c := cgSet A.opts s
  let off ← pOffset L A s c Acg
  let g : κ → K := fun i => s.u i - L.h i - off
  let G ← rsum (fun i => c i && L.comp i) fun i => g i * g i
  let t : κ → K := fun i =>
    if L.comp i then
      (if s.delta && decide (0 < s.Gold) then (if c i then g i + G / s.Gold * s.t i else 0) else (if c i then g i else 0))
    else s.t i
  let r ← edisp t
  let τG ← pTau L c g t r Acg G
  return { f := fun i => if c i then s.f i + τG.1 * t i else s.f i
           t := t
           g := g
           c := c
           offset := off
           G := τG.2
           tau := τG.1
           status := if s.status = .mix then .sd else s.status
           mixfacCur := A.opts.mixfac
           mixsteps := s.mixsteps
           nfev := s.nfev + 1 }

/-- `optim.bisect(lambda x: reduction.sum((g_r - x) < 0.0) * hardness - external_force, ...)`, lines 316-318. -/
def pBisect (L : Local κ K) (H F : K) (g0 : κ → K) : Strat K → Prog κ K K
  | .found (.ok x) => .ret x
  | .found (.error e) => .raise e
  | .ask x k => (rcount fun i => L.comp i && decide (g0 i - x < 0)).bind fun n => pBisect L H F g0 (k ((n : K) * H - F))

/-- The offset of a mixing step, lines 312-318.  With an array of hardnesses the function is not a number. -/
def pMixOffset (L : Local κ K) (A : PArgs κ K) (s : State κ K) (g0 : κ → K) : Prog κ K K :=
  match A.opts.externalForce with
  | none => .ret s.offset
  | some F =>
    match A.opts.hardness with
    | .scalar H => (rmax L.comp g0).bind fun a => (rmin L.comp g0).bind fun b => pBisect L H F g0 (A.bisect a b)
    | _ => .raise .valueError

/-- Lines 300-330. -/
def pMix (L : Local κ K) (A : PArgs κ K) (s : State κ K) : Prog κ K (Mid κ K) := do
  let steps := if s.status = .mix then s.mixsteps else A.opts.minmixsteps
  let g0 : κ → K := fun i => s.u i - L.h i
  let off ← pMixOffset L A s g0
  let g : κ → K := fun i => g0 i - off
  let c : κ → Bool := fun i => if L.comp i then decide (g i < 0) else cgSet A.opts s i
  return { f := fun i => (1 - s.mixfacCur) * s.f i - s.mixfacCur * (if c i then A.opts.hardness.at i else 0)
           t := s.t
           g := g
           c := c
           offset := off
           G := 0
           tau := 0
           status := .mix
           mixfacCur := s.mixfacCur * A.opts.mixdecfac
           mixsteps := steps - 1
           nfev := s.nfev }

/-- The branch of lines 239-330; returns also `A_contact` and `A_cg`. -/
def pBranch (L : Local κ K) (A : PArgs κ K) (s : State κ K) : Prog κ K (ℕ × ℕ × Mid κ K) := do
  let Acontact ← rcount (contact s)
  let Acg ← rcount (cgSet A.opts s)
  let m ← (if !A.opts.hardness.isSome ||
      (decide (0 < Acontact) && decide ((1 : K) / 100 < (Acg : K) / (Acontact : K)) && decide (s.mixsteps = 0))
    then pCg L A s Acg else pMix L A s)
  return (Acontact, Acg, m)

/-- `nc_r`, lines 335-340. -/
def pNew (L : Local κ K) (A : PArgs κ K) (m : Mid κ K) : κ → Bool := fun i =>
  L.comp i && ((tensile m i && decide (m.g i < 0)) || (flowing A.opts m i && decide (0 < m.g i)))

/-- `max_pres`, lines 350-356; returns also the truth value of `hardness`. -/
def pMaxPres (A : PArgs κ K) (m : Mid κ K) : Prog κ K (K × Bool) :=
  (rcount (tensile m)).bind fun n =>
    (if 0 < n then rmax (tensile m) m.f else .ret 0).bind fun p =>
      match A.opts.hardness.truth with
      | .error e => .raise e
      | .ok true =>
        (rcount (flowing A.opts m)).bind fun nf =>
          if 0 < nf then (rmin (flowing A.opts m) fun i => m.f i + A.opts.hardness.at i).bind fun q => .ret (Max.max p (-q), true)
          else .ret (p, true)
      | .ok false => .ret (p, false)

/-- Lines 361-368. -/
def pRescale (L : Local κ K) (A : PArgs κ K) (f : κ → K) : Prog κ K (κ → K) :=
  match A.opts.externalForce with
  | none => .ret f
  | some F => (rsum L.comp f).bind fun y =>
    .ret (if -y ≠ 0 then fun i => f i * (F / -y) else fun i => if L.comp i then -F / L.nSurf else 0)

/-- The reductions that only enter the log (lines 436-449). -/
def pLog (L : Local κ K) (A : PArgs κ K) (hard : Bool) (nc : κ → Bool) : Prog κ K Unit :=
  (rcount L.comp).bind fun _ =>
    (if hard then (rcount L.comp).bind fun _ => .ret () else .ret ()).bind fun _ =>
      if A.verbose then (rcount L.comp).bind fun _ => (rcount nc).bind fun _ => .ret () else .ret ()

/-- Lines 332-454 of the loop body, after the branch. -/
def pFinish (L : Local κ K) (A : PArgs κ K) (pentol maxSurf : K) (nPad : ℕ) (s : State κ K) (Acontact Acg : ℕ) (m : Mid κ K) :
    Prog κ K (StepOut κ K) := do
  let nc := pNew L A m
  let padPres ← (if 0 < nPad then rmax (fun i => !L.comp i) (fun i => pabs (m.f i)) else .ret 0)
  let mp ← pMaxPres A m
  let f1 ← pRescale L A (clip m)
  let f2 := truncate A.opts m f1
  let n ← (if m.status = .mix then Prog.ret 0 else rcount nc)
  let status : Status := if m.status = .mix then .mix else if 0 < n then .sd else .cg
  let f := addContact m nc f2
  let u ← edisp f
  let maxdu ← rmax (fun _ => true) fun i => pabs (u i - s.u i)
  let pen ← rmax L.comp fun i => if m.c i then L.h i + m.offset - u i else 0
  let tot ← rsum L.comp f
  let maxH := maxSurf + m.offset
  let rmsOk := sqrtLt (if 0 < Acg then m.G / (Acg : K) else m.G) pentol
  let cTol : Bool :=
    if status = .mix then
      decide (maxdu < pentol) && decide (mp.1 < A.opts.forcetol) && decide (padPres < A.opts.forcetol)
    else
      rmsOk && decide (Max.max 0 pen < pentol) && decide (maxdu < pentol) &&
        decide (mp.1 < A.opts.forcetol) && decide (padPres < A.opts.forcetol)
  pLog L A mp.2 nc
  return { next :=
            { f := f, u := u, t := m.t
              delta := decide (status = .cg)
              status := status
              Gold := m.G
              mixfacCur := m.mixfacCur
              mixsteps := m.mixsteps
              lastMaxHeight := some maxH
              lastTotalForce := some (-tot)
              offset := m.offset
              nfev := m.nfev + 1 }
           c := m.c
           g := m.g
           nc := nc
           tau := m.tau
           Acontact := Acontact
           Acg := Acg
           G := m.G
           maxPres := mp.1
           padPres := padPres
           maxPen := Max.max 0 pen
           maxdu := maxdu
           totalForce := -tot
           converged := convForce A.opts s (-tot) && convHeight A.opts s maxH && cTol }

/-- One pass through the loop body. -/
def pStep (L : Local κ K) (A : PArgs κ K) (pentol maxSurf : K) (nPad : ℕ) (s : State κ K) : Prog κ K (StepOut κ K) := do
  let m ← pBranch L A s
  pFinish L A pentol maxSurf nPad s m.1 m.2.1 m.2.2

/-- Lines 459-475 and 494-509. -/
def pResult (L : Local κ K) (A : PArgs κ K) (nit : ℕ) (success : Bool) (w : StepOut κ K) : Prog κ K (Result κ K) := do
  let tot ← rsum L.slice fun i => w.next.f i * w.next.u i
  return { x := w.next.u
           jac := fun i => if L.slice i then -(w.next.f i) else 0
           activeSet :=
             if success = true ∧ w.next.status = .mix then fun i => if L.comp i then decide (w.g i < 0) else w.c i else w.c
           plastic :=
             if success = true ∧ A.opts.hardness.isSome = true then
               some fun i => L.slice i && L.comp i && decide (w.g i < 0)
             else none
           fun_ := -tot / 2
           offset := w.next.offset
           success := success
           nit := nit
           nfev := w.next.nfev
           maxPen := w.maxPen
           maxPres := w.maxPres
           status := w.next.status
           tau := w.tau }

/-- The loop, lines 235-509; the list collects what the callback of this process has received. -/
def pLoop (L : Local κ K) (A : PArgs κ K) (pentol maxSurf : K) (nPad : ℕ) :
    (fuel it : ℕ) → State κ K → List (ℕ × (κ → K)) → Option (StepOut κ K) → Prog κ K (Result κ K × List (ℕ × (κ → K)))
  | 0, _, _, _, none => .raise .unboundLocal
  | 0, it, _, cb, some w => (pResult L A it false w).bind fun res => .ret (res, cb)
  | fuel + 1, it, s, cb, _ => (pStep L A pentol maxSurf nPad s).bind fun w =>
    if w.converged then (pResult L A (it + 1) true w).bind fun res => .ret (res, cb)
    else if A.callback then
      (rcount L.comp).bind fun _ => pLoop L A pentol maxSurf nPad fuel (it + 1) w.next (cb ++ [(it + 1, w.next.f)]) (some w)
    else pLoop L A pentol maxSurf nPad fuel (it + 1) w.next cb (some w)

/-- `constrained_conjugate_gradients(...)` on one of several processes. -/
def psolve (L : Local κ K) (A : PArgs κ K) : Prog κ K (Result κ K × List (ℕ × (κ → K))) :=
  (pPentol L A).bind fun pentol => (pInit L A).bind fun m => pLoop L A pentol m.1 m.2.1 A.opts.maxiter 0 m.2.2 [] none

end
end CM.CCG
