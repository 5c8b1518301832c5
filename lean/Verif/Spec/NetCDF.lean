import Verif.Model.NetCDF
/-!
# Specification of the frame database

Only the vocabulary of the theorems in `Props/NetCDF`.
-/
namespace CM.NetCDF

/-- The storage type of a variable, if it exists. -/
def File.kindOf (C : File) (name : String) : Option Kind := (C.vars name).map Var.kind

/-- The shape of one frame of a variable, if it exists. -/
def File.dimsOf (C : File) (name : String) : Option (List ℕ) := (C.vars name).map Var.dims

/-- Number of the frame that index `i` selects: negative indices count from the end. -/
def File.frameNumber (C : File) (i : ℤ) : ℤ := if i < 0 then i + C.frames else i

/-- Does the call write to frame `j` of this variable? -/
def Touches (C : File) (j : ℤ) (name : String) : Op → Prop
  | .write i n _ => n = name ∧ C.frameNumber i = j
  | .grid i n _ _ _ _ _ => n = name ∧ C.frameNumber i = j
  | _ => False

/-- None of the calls, each in the state it meets, writes to frame `j` of this variable. -/
def Untouched (rnd : ℝ → ℝ) (j : ℤ) (name : String) : File → List Op → Prop
  | _, [] => True
  | C, op :: ops => ¬ Touches C j name op ∧ Untouched rnd j name (step rnd C op).2 ops

/-- Names of variables: not empty, no underscore in front, and not the one used for the rigid surface. -/
def PlainName (name : String) : Prop := name ≠ "" ∧ isPrivate name = false ∧ name ≠ "h"

/-- The storage type that the first value written to a variable fixes. -/
def Value.kind (v : Value) (double : Bool) : Option Kind :=
  match v with
  | .int _ => some .i4
  | .real _ => some .f8
  | .arr [] _ => some .f8
  | .arr _ _ => some (if double then .f8 else .f4)
  | .other => none

/-- The number that a value puts at an index: scalars fill. -/
def Value.reads : Value → List ℕ → ℝ
  | .int n, _ => n
  | .real x, _ => x
  | .arr [] g, _ => g []
  | .arr (_ :: _) g, idx => g idx
  | .other, _ => 0

/-- Does the value fill a slot of this shape? -/
def Value.Fits : Value → List ℕ → Prop
  | .int _, _ => True
  | .real _, _ => True
  | .arr [] _, _ => True
  | .arr (n :: s) _, dims => dims = n :: s
  | .other, _ => False

/-- What a variable of this type keeps of a number: doubles all of it, floats the rounded number, integers the integer part. -/
def Keeps (rnd : ℝ → ℝ) : Kind → ℝ → ℝ → Prop
  | .f8, x, y => y = x
  | .f4, x, y => y = rnd x
  | .i4, x, y => (∃ m : ℤ, y = m) ∧ |y| ≤ |x| ∧ |x - y| < 1 ∧ 0 ≤ x * y

/-- Indices of an array. -/
def Inside (dims idx : List ℕ) : Prop := idx.length = dims.length ∧ ∀ k (h : k < idx.length) (h' : k < dims.length), idx[k] < dims[k]

/-- Reading frame `j` of a variable, by index, gives this array. -/
def File.Reads (C : File) (j : ℤ) (name : String) (dims : List ℕ) (P : List ℕ → ℝ → Prop) : Prop :=
  ∃ F get, frame C j = .ok F ∧ frameGet C F name = .ok (.data dims get) ∧ ∀ idx, Inside dims idx → ∃ y, get idx = some y ∧ P idx y

/-- Numbers of the frames in a list. -/
def numbers (l : List Frame) : List ℤ := l.map Frame.i

/-- End of a slice: negative numbers count from the end, everything is clipped to the frames there are. -/
def clipped (x : ℤ) (len : ℕ) : ℤ := if x < 0 then max (x + len) 0 else min x len

/-- The value of a list of decimal digits. -/
def decimal (l : List (Fin 10)) : ℕ := l.foldl (fun (a : ℕ) (d : Fin 10) => 10 * a + d.val) 0

/-- Digits as text. -/
def digitText (l : List (Fin 10)) : List Char := l.map fun d : Fin 10 => Char.ofNat (48 + d.val)

end CM.NetCDF
