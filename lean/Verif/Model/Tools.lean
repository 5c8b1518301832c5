import Verif.Model.Array
import Mathlib.Data.EReal.Basic
/-!
# Small tools

Model of `/repo/ContactMechanics/Tools/common.py:56-150` (`compare_containers`, lines 34-53, is in
`Verif.Model.Systems`).  Numbers are reals or complex numbers; NumPy's FFT is specified, not modelled
from its source.
-/
namespace CM.Tools
open Finset CM.FFT CM.HS

/-- What a NumPy array keeps of a number assigned to one of its entries: an integer array truncates
towards zero. -/
noncomputable def stored (ints : Bool) (x : ℝ) : ℝ :=
  if ints then (if 0 ≤ x then ((⌊x⌋ : ℤ) : ℝ) else ((⌈x⌉ : ℤ) : ℝ)) else x

/-- The array of the given shape with entry `v k` at C-order position `k`
(`v.reshape(shape)` of a vector). -/
def ofFlat {α : Type} (shape : List ℕ) (v : ℕ → α) : NdArray α := ⟨shape, fun x => v (flatIndex shape x)⟩

/-- `x.copy()`, flattened, with `d` added to entry `i` in place, in the shape of `x`
(`common.py:74-77`). -/
noncomputable def shifted (ints : Bool) (x : NdArray ℝ) (i : ℕ) (d : ℝ) : NdArray ℝ :=
  ofFlat x.shape fun k => if k = i then stored ints (x.flat k + d) else x.flat k

/-- `evaluate_gradient(fun, x, delta)` (`common.py:56-81`); `ints` says whether `np.array(x)` is an
integer array, in which case `zeros_like(x)` is one as well.  Simplification: `delta != 0` and `fun`
returns a number (exceptions of `fun` are passed on, not modelled). -/
noncomputable def evaluateGradient (ints : Bool) (f : NdArray ℝ → ℝ) (x : NdArray ℝ) (delta : ℝ) : NdArray ℝ :=
  ofFlat x.shape fun i =>
    stored ints ((f (shifted ints x i (0.5 * delta)) - f (shifted ints x i (-(0.5 * delta)))) / delta)

/-- `arr[slices]` for a list of stops of slices `0:stop`, one per leading axis (`common.py:86-89`); the
shape after clipping.  (There are never more slices than axes here.) -/
def slicedShape (shape stops : List ℕ) : List ℕ := List.zipWith min shape stops ++ shape.drop stops.length

/-- The stops of the slices of `mean_err` (`common.py:86-89`): the larger extent per common axis, with
`rfft` the last one halved.  `comp_sl[-1]` of an empty list is `IndexError`. -/
def stops (shape1 shape2 : List ℕ) (rfft : Bool) : Except PyErr (List ℕ) :=
  let sl := List.zipWith max shape1 shape2
  if rfft then
    if sl = [] then .error .indexError
    else .ok (sl.dropLast ++ [sl.getLastD 0 / 2 + 1])
  else .ok sl

/-- `mean_err(arr1, arr2, rfft)` (`common.py:84-93`).  The mean of no entries is `nan` (`none`). -/
noncomputable def meanErr (a b : NdArray ℝ) (rfft : Bool) : Except PyErr (Option ℝ) :=
  match stops a.shape b.shape rfft with
  | .error e => .error e
  | .ok sl =>
    if slicedShape a.shape sl ≠ slicedShape b.shape sl then .error .exception
    else
      let s := slicedShape a.shape sl
      if s.prod = 0 then .ok none
      else .ok (some (sumShape s (fun x => |a.get x - b.get x|) / (s.prod : ℕ)))

/-- Argument `nb_grid_pts` or `physical_sizes` of `compute_wavevectors`: a number or a sequence. -/
inductive Arg (α : Type) where
  | number (x : α)
  | seq (l : List α)

/-- Integer frequency number `k` of `n` in the order of `np.fft.fftfreq`. -/
def fftfreqInt (n k : ℕ) : ℤ := if k < (n + 1) / 2 then (k : ℤ) else (k : ℤ) - n

/-- `2*np.pi*np.fft.fftfreq(n, L/n)` (`common.py:106-108`); Python's division by zero for `n = 0` or
`L = 0`. -/
noncomputable def waveVector (n : ℕ) (L : ℝ) : Except PyErr (List ℝ) :=
  if n = 0 then .error .zeroDivision
  else if (n : ℝ) * (L / n) = 0 then .error .zeroDivision
  else .ok ((List.range n).map fun k => 2 * Real.pi * ((fftfreqInt n k : ℝ) * (1 / ((n : ℝ) * (L / n)))))

/-- `compute_wavevectors(nb_grid_pts, physical_sizes, nb_dims)` (`common.py:96-109`).  In one dimension
the arguments are wrapped into lists, so sequences end as the quotient of two sequences (`TypeError` for
tuples and lists); in more dimensions a number cannot be subscripted. -/
noncomputable def computeWavevectors (grid : Arg ℕ) (sizes : Arg ℝ) (dims : ℕ) : Except PyErr (List (List ℝ)) :=
  if dims = 1 then
    match grid, sizes with
    | .number n, .number L => do pure [← waveVector n L]
    | _, _ => .error .typeError
  else if dims = 0 then .ok []
  else
    match grid, sizes with
    | .seq ns, .seq Ls =>
      (List.range dims).mapM fun d =>
        match ns[d]?, Ls[d]? with
        | some n, some L => waveVector n L
        | _, _ => .error .indexError
    | _, _ => .error .typeError

/-- Phase factor `exp(sign 2πi Σ k_d x_d/n_d)` of a multidimensional transform. -/
noncomputable def phase (sign : ℤ) : List ℕ → List ℕ → List ℕ → ℂ
  | n :: ns, k :: ks, x :: xs => cis n (sign * (k * x)) * phase sign ns ks xs
  | _, _, _ => 1

/-- `np.fft.fftn` (specification; an axis without points is `ValueError`). -/
noncomputable def npFftn (a : NdArray ℂ) : Except PyErr (NdArray ℂ) :=
  if 0 ∈ a.shape then .error .valueError
  else .ok ⟨a.shape, fun k => sumShape a.shape fun x => a.get x * phase (-1) a.shape k x⟩

/-- `np.fft.ifftn` (specification). -/
noncomputable def npIfftn (a : NdArray ℂ) : Except PyErr (NdArray ℂ) :=
  if 0 ∈ a.shape then .error .valueError
  else .ok ⟨a.shape, fun x => (sumShape a.shape fun k => a.get k * phase 1 a.shape k x) / (a.shape.prod : ℕ)⟩

/-- `fftn(arr, integral)` (`common.py:112-124`). -/
noncomputable def fftn (a : NdArray ℂ) (integral : ℝ) : Except PyErr (NdArray ℂ) := do
  let F ← npFftn a
  pure (F.map fun z => ((integral / (a.shape.prod : ℕ) : ℝ) : ℂ) * z)

/-- `ifftn(arr, integral)` (`common.py:127-139`), for `integral != 0`. -/
noncomputable def ifftn (a : NdArray ℂ) (integral : ℝ) : Except PyErr (NdArray ℂ) := do
  let F ← npIfftn a
  pure (F.map fun z => (((a.shape.prod : ℕ) / integral : ℝ) : ℂ) * z)

/-- `get_q_from_lambda(lambda_min, lambda_max)` (`common.py:142-150`), Python floats. -/
noncomputable def getQFromLambda (lmin lmax : ℝ) : Except PyErr (ℝ × EReal) :=
  let qmax : EReal := if lmin = 0 then ⊤ else ((2 * Real.pi / lmin : ℝ) : EReal)
  if lmax = 0 then .error .zeroDivision else .ok (2 * Real.pi / lmax, qmax)

end CM.Tools
