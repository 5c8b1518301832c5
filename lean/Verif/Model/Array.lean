import Verif.Model.HalfSpace
/-!
# NumPy array operations

Indexing, C-order flattening, reshaping, slicing and broadcasting of NumPy arrays, as far as the
modelled code uses them.  NumPy is third-party code: this file *specifies* it (trusted).
-/
namespace CM.HS
open CM.FFT

/-- `x` is an index into an array of shape `shape`. -/
def validIndex (shape x : List ℕ) : Prop := List.Forall₂ (fun i n => i < n) x shape

/-- C-order position of an index. -/
def flatIndex : List ℕ → List ℕ → ℕ
  | _ :: ns, i :: is => i * ns.prod + flatIndex ns is
  | _, _ => 0

/-- Index at a C-order position. -/
def unflatIndex : List ℕ → ℕ → List ℕ
  | [], _ => []
  | _ :: ns, k => k / ns.prod :: unflatIndex ns (k % ns.prod)

/-- Entry number `k` of an array in C order. -/
def _root_.CM.FFT.NdArray.flat {α : Type} (a : NdArray α) (k : ℕ) : α := a.get (unflatIndex a.shape k)

/-- `a.size`. -/
def _root_.CM.FFT.NdArray.size {α : Type} (a : NdArray α) : ℕ := a.shape.prod

/-- `a.reshape(shape)`: same entries in C order, `ValueError` when the number of entries differs. -/
def reshape {α : Type} (a : NdArray α) (shape : List ℕ) : Except PyErr (NdArray α) :=
  if a.size = shape.prod then .ok ⟨shape, fun x => a.flat (flatIndex shape x)⟩
  else .error .valueError

/-- `a.ravel()`. -/
def ravel {α : Type} (a : NdArray α) : NdArray α :=
  ⟨[a.size], fun x => match x with
    | [k] => a.flat k
    | _ => a.flat 0⟩

/-- `a[0:n0, 0:n1, ...]`: too many slices raise `IndexError`, slices are clipped to the array. -/
def sliceTo {α : Type} (ns : List ℕ) (a : NdArray α) : Except PyErr (NdArray α) :=
  if a.shape.length < ns.length then .error .indexError
  else .ok ⟨List.zipWith min a.shape ns ++ a.shape.drop ns.length, a.get⟩

/-- Broadcast shape of two shapes, both given last axis first. -/
def bcastRev : List ℕ → List ℕ → Option (List ℕ)
  | [], ys => some ys
  | xs, [] => some xs
  | x :: xs, y :: ys =>
    match bcastRev xs ys with
    | none => none
    | some zs => if x = y then some (x :: zs) else if x = 1 then some (y :: zs)
      else if y = 1 then some (x :: zs) else none

/-- An elementwise binary operation with broadcasting; `ValueError` if the shapes do not match. -/
def binop {α β γ : Type} (op : α → β → γ) (a : NdArray α) (b : NdArray β) : Except PyErr (NdArray γ) :=
  match bcastRev a.shape.reverse b.shape.reverse with
  | none => .error .valueError
  | some s => .ok ⟨s.reverse, fun x => op (a.get (bcastIndex a.shape x)) (b.get (bcastIndex b.shape x))⟩

/-- An elementwise function. -/
def _root_.CM.FFT.NdArray.map {α β : Type} (f : α → β) (a : NdArray α) : NdArray β := ⟨a.shape, fun x => f (a.get x)⟩

/-- `np.sum(a)`. -/
def _root_.CM.FFT.NdArray.sum (a : NdArray ℝ) : ℝ := sumShape a.shape a.get

end CM.HS
