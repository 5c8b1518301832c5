import Verif.Model.CCG
/-!
# The arrays of `constrained_conjugate_gradients` as objects in memory

`Model/CCG` gives the contents of the arrays.  Here the same statements are written down with the arrays as objects: which statements write into an existing array (`a[...] = `, `+=`, `*=`), and which
make a new one.  `/repo/ContactMechanics/Optimization/ConstrainedConjugateGradients.py:170-509`.

Simplifications: as in `Model/CCG`; only the arrays `f_r`, `u_r`, `t_r`, the arguments `initial_displacements`, `initial_forces` and the arrays of the result are objects (`heights[surf_mask]`, line 195, copies the
heights once; the masks and `g_r` are new arrays in every iteration and given to nobody); `substrate.evaluate_disp` and `evaluate_force` return new arrays (`FFTElasticHalfSpace.py:589`, `610`); the dictionary
that the callback also receives (lines 480-488) is left out.
-/
namespace CM.CCG
open Finset

/-- Memory: the contents of the arrays made so far; arrays are numbered in the order in which they are made. -/
structure Mem (ι K : Type) where
  cells : ℕ → ι → K
  next : ℕ

variable {ι K : Type}

/-- A new array (its number, and the memory afterwards). -/
def Mem.alloc (M : Mem ι K) (a : ι → K) : ℕ × Mem ι K := (M.next, ⟨fun r => if r = M.next then a else M.cells r, M.next + 1⟩)

/-- Writing into an existing array. -/
def Mem.write (M : Mem ι K) (r : ℕ) (a : ι → K) : Mem ι K := ⟨fun s => if s = r then a else M.cells s, M.next⟩

/-- The `callback` argument (lines 73, 489): it is called with the number of the iteration and an array, and may do anything to the memory. -/
abbrev Callback (ι K : Type) := ℕ → ℕ → Mem ι K → Mem ι K

/-- The two arrays that can be passed as arguments (lines 50-51). -/
structure Passed where
  displacements : Option ℕ := none
  forces : Option ℕ := none

/-- The local variables between iterations: `f_r`, `u_r`, `t_r` are names of arrays; the numbers are in `sc` (the arrays in there are not used). -/
structure HState (ι K : Type) where
  f : ℕ
  u : ℕ
  t : ℕ
  sc : State ι K

/-- The local variables with the present contents of the arrays. -/
def HState.read (s : HState ι K) (M : Mem ι K) : State ι K := { s.sc with f := M.cells s.f, u := M.cells s.u, t := M.cells s.t }

/-- What the solver is given: the options with the present contents of the arrays passed. -/
def Passed.read (a : Passed) (M : Mem ι K) (o : Options ι K) : Options ι K :=
  { o with initialDisplacements := a.displacements.map M.cells, initialForces := a.forces.map M.cells }

section
variable [Fintype ι] [Field K] [LinearOrder K]

/-- Lines 170-233.  `initial_displacements.copy()` (line 173) and `initial_forces.copy()` (line 214) are new arrays; line 201 writes into the first, line 219 into the second. -/
def hinit (P : Problem ι K) (o : Options ι K) (a : Passed) (M : Mem ι K) : HState ι K × Mem ι K :=
  let opt := a.read M o
  let (u, M) := M.alloc (match a.displacements with
    | none => fun _ => 0
    | some r => M.cells r)
  let M := M.write u (initU P opt)
  let (f, u, M) : ℕ × ℕ × Mem ι K := match a.forces with
    | none => let (f, M) := M.alloc (P.force (M.cells u)); (f, u, M)
    | some r =>
      let (f, M) := M.alloc (M.cells r)
      let (u, M) := M.alloc (P.disp (M.cells f))
      (f, u, M)
  let M := M.write f fun i => if P.comp i then M.cells f i else 0
  let (t, M) := M.alloc fun _ => 0
  (⟨f, u, t, initState P opt⟩, M)

/-- Lines 260-330: `t_r[comp_mask] = ` and `f_r += ` write into the arrays there are, the mixing step (line 324) makes a new `f_r`. -/
def hbranch (P : Problem ι K) (o : Options ι K) (s : HState ι K) (M : Mem ι K) : Except PyErr (Mid ι K × ℕ × Mem ι K) :=
  if doCG o (s.read M) then
    let m := cgBranch P o (s.read M)
    .ok (m, s.f, (M.write s.t m.t).write s.f m.f)
  else match mixBranch P o (s.read M) with
    | .error e => .error e
    | .ok m => let (f, M) := M.alloc m.f; .ok (m, f, M)

/-- Lines 359-368: `f_r[mask_tensile] = 0.0` and `f_r *= ` write into the array, line 367 makes a new one. -/
def hrescale (P : Problem ι K) (o : Options ι K) (m : Mid ι K) (f : ℕ) (M : Mem ι K) : ℕ × Mem ι K :=
  let M := M.write f (clip m)
  match o.externalForce with
  | none => (f, M)
  | some _ =>
    if -(sumOver P.comp (M.cells f)) ≠ 0 then (f, M.write f (rescale P o (M.cells f)))
    else M.alloc (rescale P o (M.cells f))

/-- Lines 370-393: `f_r[mask_flowing] = -hardness` and `f_r[comp_mask] += ` write into the array; the new displacements are a new array. -/
def hforce (P : Problem ι K) (o : Options ι K) (m : Mid ι K) (f : ℕ) (M : Mem ι K) : ℕ × ℕ × Mem ι K :=
  let (f, M) := hrescale P o m f M
  let M := if o.hardness.isSome then M.write f (truncate o m (M.cells f)) else M
  let M := if m.status ≠ .mix ∧ 0 < count (newContact P o m) then M.write f (addContact m (newContact P o m) (M.cells f)) else M
  let (u, M) := M.alloc (P.disp (M.cells f))
  (f, u, M)

/-- One pass through the loop body (lines 236-475).  The numbers are those of `finish`. -/
def hstep (P : Problem ι K) (o : Options ι K) (pentol : K) (s : HState ι K) (M : Mem ι K) : Except PyErr (StepOut ι K × HState ι K × Mem ι K) :=
  match hbranch P o s M with
  | .error e => .error e
  | .ok (m, f, M') =>
    match o.hardness.truth with
    | .error e => .error e
    | .ok hard =>
      let w := finish P o pentol (s.read M) m hard
      let (f, u, M') := hforce P o m f M'
      .ok (w, ⟨f, u, s.t, w.next⟩, M')

/-- A call of the callback: the iteration, the array, and what it holds at that moment. -/
structure Call (ι K : Type) where
  it : ℕ
  arr : ℕ
  seen : ι → K

/-- What the caller has afterwards: the result, the arrays `result.x` and `result.jac`, the calls of the callback and the memory. -/
structure HResult (ι K : Type) where
  res : Result ι K
  x : ℕ
  jac : ℕ
  calls : List (Call ι K)
  mem : Mem ι K

/-- Lines 459-475 and 497-509: `result.x` is the array `u_r` itself, `result.jac = -f_r[...]` a new array. -/
def hresult (P : Problem ι K) (o : Options ι K) (it : ℕ) (success : Bool) (w : StepOut ι K) (s : HState ι K) (calls : List (Call ι K)) (M : Mem ι K) : HResult ι K :=
  let R := mkResult P o it success { w with next := s.read M }
  let (j, M) := M.alloc R.jac
  ⟨R, s.u, j, calls, M⟩

/-- The loop (lines 235-509); the callback (line 489) is given the array `f_r` itself. -/
def hloop (cb : Callback ι K) (P : Problem ι K) (o : Options ι K) (pentol : K) :
    (fuel it : ℕ) → HState ι K → List (Call ι K) → Option (StepOut ι K) → Mem ι K → Except PyErr (HResult ι K)
  | 0, _, _, _, none, _ => .error .unboundLocal
  | 0, it, s, calls, some w, M => .ok (hresult P o it false w s calls M)
  | fuel + 1, it, s, calls, _, M =>
    match hstep P o pentol s M with
    | .error e => .error e
    | .ok (w, s, M) =>
      if w.converged then .ok (hresult P o (it + 1) true w s calls M)
      else hloop cb P o pentol fuel (it + 1) s (calls ++ [⟨it + 1, s.f, M.cells s.f⟩]) (some w) (cb (it + 1) s.f M)

/-- `constrained_conjugate_gradients(..., callback=cb)` called with the memory `M`. -/
def hsolve (cb : Callback ι K) (P : Problem ι K) (o : Options ι K) (a : Passed) (M : Mem ι K) : Except PyErr (HResult ι K) :=
  match pentolOf P (a.read M o) with
  | .error e => .error e
  | .ok pentol =>
    let (s, M') := hinit P o a M
    hloop cb P (a.read M o) pentol o.maxiter 0 s [] none M'

end
end CM.CCG
