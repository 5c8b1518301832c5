import Verif.Model.Py
import Mathlib.Algebra.Order.Archimedean.Real.Basic
/-!
# `IO/NetCDF.py`

Simplifications that apply to the whole file
* the file is opened through `netCDF4`; its variables are specified here: a variable has a type (`i4`, `f4` or `f8`), the lengths of its dimensions, and a value or nothing (masked) at each index; writing beyond the last frame extends the unlimited dimension;
* of the broadcasting rules of `netCDF4` only these are modelled: a scalar fills, an array must have the shape it is stored with; other shapes are refused;
* the rounding of a real to `f4` is a parameter; reals are stored in `f8` as they are; the value stored in an `i4` variable is truncated towards zero, and must fit;
* files in the Amber convention and the attributes of the data set are not modelled; files are not closed.
-/
namespace CM.NetCDF

/-- Storage types. -/
inductive Kind where
  | i4
  | f4
  | f8
  deriving DecidableEq

/-- Values a user may pass: integers, reals, NumPy arrays (a function of the indices), and anything else. -/
inductive Value where
  | int (n : ℤ)
  | real (x : ℝ)
  | arr (shape : List ℕ) (get : List ℕ → ℝ)
  | other

/-- A variable: type, whether the first dimension is the frame, lengths of the (other) dimensions, contents by frame and index. -/
structure Var where
  kind : Kind
  framed : Bool
  dims : List ℕ
  data : ℕ → List ℕ → Option ℝ

/-- Attributes of a `NetCDFContainer` (`NetCDF.py:160-213`) together with the file. -/
structure File where
  vars : String → Option Var
  frames : ℕ
  shape : Option (List ℕ)
  shape2 : Option (ℕ × ℕ)
  defined : Bool
  ndofDim : Bool
  cur : ℤ
  double : Bool

/-- A container opened for writing (`NetCDF.py:160-198`). -/
def create (double : Bool) (frame : ℕ) : File := ⟨fun _ => none, 0, none, none, false, false, frame, double⟩

/-- C conversion of a real to an integer. -/
noncomputable def truncate (x : ℝ) : ℤ := if 0 ≤ x then ⌊x⌋ else ⌈x⌉

/-- Conversion to the type of the variable. -/
noncomputable def convert (rnd : ℝ → ℝ) : Kind → ℝ → Except PyErr ℝ
  | .i4, x => if -2 ^ 31 ≤ truncate x ∧ truncate x < 2 ^ 31 then .ok (truncate x) else .error .valueError
  | .f4, x => .ok (rnd x)
  | .f8, x => .ok x

/-- Is the index inside an array of this shape? -/
def inside : List ℕ → List ℕ → Bool
  | [], [] => true
  | d :: ds, i :: is => decide (i < d) && inside ds is
  | _, _ => false

/-- The number or array behind a value, with the shape of the slot; `none` if it is not numeric or does not fit. -/
def Value.entries (v : Value) (dims : List ℕ) : Option (List ℕ → ℝ) :=
  match v with
  | .int n => some fun _ => (n : ℝ)
  | .real x => some fun _ => x
  | .arr s g => if s = dims then some g else if s = [] then some fun _ => g [] else none
  | .other => none

/-- New contents of one frame. -/
noncomputable def entry (rnd : ℝ → ℝ) (k : Kind) (g : List ℕ → ℝ) (idx : List ℕ) : Option ℝ :=
  match convert rnd k (g idx) with
  | .ok x => some x
  | .error _ => none

/-- `variables[name][i] = value` (`netCDF4`, specified). -/
noncomputable def assign (rnd : ℝ → ℝ) (C : File) (i : ℤ) (name : String) (v : Value) : Except PyErr Unit × File :=
  match C.vars name with
  | none => (.error .keyError, C)
  | some var =>
    if i < 0 then (.error .indexError, C)
    else
      let dims := if var.framed then var.dims else var.dims.tail
      match v.entries dims with
      | none => (.error .valueError, C)
      | some g => by
        classical
        exact
          if ∃ idx, inside dims idx = true ∧ ∃ e, convert rnd var.kind (g idx) = .error e then (.error .valueError, C)
          else if var.framed then
            (.ok (), { C with frames := max C.frames (i.toNat + 1), vars := fun s => if s = name then some { var with
                data := fun j idx => if j = i.toNat ∧ inside dims idx = true then entry rnd var.kind g idx else var.data j idx } else C.vars s })
          else if var.dims.headD 0 ≤ i.toNat then (.error .indexError, C)
          else
            (.ok (), { C with vars := fun s => if s = name then some { var with
                data := fun j idx => if idx.headD 0 = i.toNat ∧ idx ≠ [] ∧ inside dims idx.tail = true then entry rnd var.kind g idx.tail else var.data j idx } else C.vars s })

/-- A new variable without contents. -/
def File.add (C : File) (name : String) (k : Kind) (framed : Bool) (dims : List ℕ) : File :=
  { C with vars := fun s => if s = name then some ⟨k, framed, dims, fun _ _ => none⟩ else C.vars s }

/-- `_float_str` (`NetCDF.py:174-177`). -/
def File.floatKind (C : File) : Kind := if C.double then .f8 else .f4

/-- `_create_if_missing` (`NetCDF.py:52-90`).  Without the dimension `frame` no variable can be created. -/
def createIfMissing (C : File) (name : String) (v : Value) (shape : Option (List ℕ)) : Except PyErr File :=
  match C.vars name with
  | some _ => .ok C
  | none =>
    match v with
    | .int _ => if C.defined then .ok (C.add name .i4 true []) else .error .keyError
    | .real _ => if C.defined then .ok (C.add name .f8 true []) else .error .keyError
    | .arr s _ =>
      let s := shape.getD s
      if s = [] then (if C.defined then .ok (C.add name .f8 true []) else .error .keyError)
      else
        match C.shape with
        | none => .error .keyError
        | some sh =>
          if s = sh then
            (if sh.length = 3 then (if C.ndofDim then .ok (C.add name C.floatKind true sh) else .error .keyError)
             else if C.defined then .ok (C.add name C.floatKind true sh) else .error .keyError)
          else
            match C.shape2 with
            | none => if s.length = 2 then .error .keyError else .error .runtimeError
            | some (nx, ny) => if s = [nx, ny] then .ok (C.add name C.floatKind true s) else .error .runtimeError
    | .other => .error .runtimeError

/-- A frame object: its number, and the private attributes set on the object. -/
structure Frame where
  i : ℤ
  priv : String → Option Value

/-- `NetCDFContainerFrame.__init__` (`NetCDF.py:46-50`).  Only a negative number needs the number of frames, which is not known before the shape is set. -/
def frame (C : File) (i : ℤ) : Except PyErr Frame :=
  if i < 0 then (if C.defined then .ok ⟨i + C.frames, fun _ => none⟩ else .error .keyError) else .ok ⟨i, fun _ => none⟩

/-- Does the name begin with an underscore? -/
def isPrivate (name : String) : Bool := name.toList.head? = some '_'

/-- `frame[name] = value` and `frame.name = value` (`NetCDF.py:114-122`). -/
noncomputable def frameSet (rnd : ℝ → ℝ) (C : File) (F : Frame) (name : String) (v : Value) : Except PyErr Unit × File × Frame :=
  if name = "" then (.error .indexError, C, F)
  else if isPrivate name then
    (.ok (), C, ⟨match v with
      | .int n => if name = "_i" then n else F.i
      | _ => F.i, fun s => if s = name then some v else F.priv s⟩)
  else
    match createIfMissing C name v none with
    | .error e => (.error e, C, F)
    | .ok C' =>
      match assign rnd C' F.i name v with
      | (r, C'') => (r, C'', F)

/-- What reading gives: a value of a variable (shape and entries), a private attribute, or something that belongs to the class. -/
inductive Got where
  | data (dims : List ℕ) (get : List ℕ → Option ℝ)
  | priv (v : Value)
  | ofClass (name : String)

/-- `variables[name][i]` (`netCDF4`, specified). -/
def fetch (C : File) (i : ℤ) (name : String) : Except PyErr Got :=
  match C.vars name with
  | none => .error .keyError
  | some var =>
    if i < 0 then .error .indexError
    else if var.framed then (if C.frames ≤ i.toNat then .error .indexError else .ok (.data var.dims (var.data i.toNat)))
    else if var.dims.headD 0 ≤ i.toNat then .error .indexError
    else .ok (.data var.dims.tail fun idx => var.data 0 (i.toNat :: idx))

/-- `frame[name]` (`NetCDF.py:101-112`, `124-125`). -/
def frameGet (C : File) (F : Frame) (name : String) : Except PyErr Got :=
  if name = "" then .error .indexError
  else if isPrivate name then
    (match F.priv name with
      | some v => .ok (.priv v)
      | none => if name = "_i" then .ok (.priv (.int F.i)) else if name = "_parent" then .ok (.ofClass "_parent") else .error .keyError)
  else fetch C F.i name

/-- Attributes of the class, which are found before `__getattr__` is asked (`NetCDF.py:130-156`). -/
def classNames : List String := ["get_index", "index", "get_traj", "traj", "set_grid", "sync"]

/-- `frame.name`. -/
def frameAttr (C : File) (F : Frame) (name : String) : Except PyErr Got := if name ∈ classNames then .ok (.ofClass name) else frameGet C F name

/-- `set_grid` (`NetCDF.py:140-153`) for a two-dimensional value; the part must lie inside the grid.  (For grids with several degrees of freedom the slices hit the wrong dimensions; not modelled, refused.) -/
noncomputable def setGrid (rnd : ℝ → ℝ) (C : File) (F : Frame) (name : String) (nx ny : ℕ) (g : ℕ → ℕ → ℝ) (x0 y0 : ℕ) : Except PyErr Unit × File :=
  match C.shape with
  | none => (.error .keyError, C)
  | some sh =>
    match createIfMissing C name (.arr [nx, ny] fun l => g (l.headD 0) (l.tail.headD 0)) (some sh) with
    | .error e => (.error e, C)
    | .ok C' =>
      match C'.vars name with
      | none => (.error .keyError, C')
      | some var =>
        if F.i < 0 then (.error .indexError, C')
        else
          match var.framed, var.dims with
          | true, [NX, NY] =>
            if NX < x0 + nx ∨ NY < y0 + ny then (.error .valueError, C')
            else
              (.ok (), { C' with frames := max C'.frames (F.i.toNat + 1), vars := fun s => if s = name then some { var with
                data := fun j idx => match idx with
                  | [a, b] => if j = F.i.toNat ∧ x0 ≤ a ∧ a < x0 + nx ∧ y0 ≤ b ∧ b < y0 + ny then entry rnd var.kind (fun _ => g (a - x0) (b - y0)) [] else var.data j idx
                  | _ => var.data j idx } else C'.vars s })
          | _, _ => (.error .valueError, C')

/-- NumPy equality of two vectors of integers, reduced by `np.all`: vectors of different lengths can only be compared if one has length one. -/
def allEqual (a b : List ℕ) : Except PyErr Bool :=
  if a.length = b.length then .ok (a == b)
  else match a, b with
    | [x], b => .ok (b.all (· == x))
    | a, [y] => .ok (a.all (· == y))
    | _, _ => .error .valueError

/-- `_define_file_structure` (`NetCDF.py:219-242`). -/
def defineStructure (C : File) (shape : List ℕ) : Except PyErr Unit × File :=
  let C := { C with shape := some shape }
  match shape with
  | [ndof, nx, ny] => (.ok (), { C with shape2 := some (nx, ny), ndofDim := C.ndofDim || decide (1 < ndof), defined := true })
  | [nx, ny] => (.ok (), { C with shape2 := some (nx, ny), defined := true })
  | _ => (.error .valueError, C)

/-- `ndof is None or ndof == 1` (`NetCDF.py:250`, `255`). -/
def isSingle : Option ℕ → Bool
  | none => true
  | some n => decide (n = 1)

/-- `set_shape` (`NetCDF.py:244-264`).  The message of the exception needs two entries. -/
def setShape (C : File) (shape : List ℕ) (ndof : Option ℕ) : Except PyErr Unit × File :=
  if C.defined then
    match C.shape with
    | none => (.error .keyError, C)
    | some sh =>
      if isSingle ndof then
        match allEqual shape sh with
        | .error e => (.error e, C)
        | .ok true => (.ok (), C)
        | .ok false => if shape.length < 2 then (.error .indexError, C) else (.error .runtimeError, C)
      else
        match allEqual (ndof.getD 1 :: shape) sh with
        | .error e => (.error e, C)
        | .ok true => (.ok (), C)
        | .ok false => (.error .assertionError, C)
  else if isSingle ndof then defineStructure C shape else defineStructure C (ndof.getD 1 :: shape)

/-- Creation of the variable `h` if it does not exist (`NetCDF.py:287-296`). -/
def ensureH (C : File) (hx hy : ℕ) : File :=
  match C.vars "h" with
  | some _ => C
  | none => C.add "h" .f8 false [hx, hy]

/-- `set_rigid_surface` (`NetCDF.py:282-298`) for a two-dimensional array. -/
noncomputable def setRigid (C : File) (hx hy : ℕ) (h : ℕ → ℕ → ℝ) (ndof : Option ℕ) : Except PyErr Unit × File :=
  match setShape C [hx, hy] ndof with
  | (.error e, C') => (.error e, C')
  | (.ok (), C') =>
    let C'' := ensureH C' hx hy
    match C''.vars "h" with
    | none => (.error .keyError, C'')
    | some var =>
      if var.framed = false ∧ var.dims = [hx, hy] then
        (.ok (), { C'' with vars := fun s => if s = "h" then some { var with
          data := fun _ idx => match idx with
            | [a, b] => if a < hx ∧ b < hy then some (h a b) else none
            | _ => none } else C''.vars s })
      else (.error .valueError, C'')

/-- `get_rigid_surface` (`NetCDF.py:311-312`). -/
def getRigid (C : File) : Except PyErr Got :=
  match C.vars "h" with
  | none => .error .keyError
  | some var => if var.framed = false ∧ var.dims.length = 2 then .ok (.data var.dims (var.data 0)) else .error .indexError

/-- `get_next_frame` (`NetCDF.py:323-326`). -/
def nextFrame (C : File) : Except PyErr Frame × File :=
  match frame C C.cur with
  | .error e => (.error e, C)
  | .ok F => (.ok F, { C with cur := C.cur + 1 })

/-- `set_cursor` (`NetCDF.py:328-329`). -/
def setCursor (C : File) (n : ℤ) : File := { C with cur := n }

/-- `slice.indices(len)`. -/
def sliceIndices (start stop step : Option ℤ) (len : ℕ) : Except PyErr (ℤ × ℤ × ℤ) :=
  let st := step.getD 1
  if st = 0 then .error .valueError
  else
    let lower : ℤ := if 0 < st then 0 else -1
    let upper : ℤ := if 0 < st then len else (len : ℤ) - 1
    let clip := fun x : ℤ => if x < 0 then max (x + len) lower else min x upper
    .ok ((start.map clip).getD (if 0 < st then lower else upper), (stop.map clip).getD (if 0 < st then upper else lower), st)

/-- `range(start, stop, step)`. -/
def pyRange (start stop step : ℤ) : List ℤ :=
  let n : ℕ := if 0 < step then (if start < stop then ((stop - start - 1) / step + 1).toNat else 0)
    else (if stop < start then ((start - stop - 1) / (-step) + 1).toNat else 0)
  (List.range n).map fun k => start + step * (k : ℕ)

/-- `container[a:b:c]` (`NetCDF.py:371-373`). -/
def getSlice (C : File) (start stop step : Option ℤ) : Except PyErr (List Frame) := do
  if C.defined then
    let (a, b, c) ← sliceIndices start stop step C.frames
    (pyRange a b c).mapM (frame C)
  else .error .keyError

/-- `iter(container)` (`NetCDF.py:376-378`). -/
def iterate (C : File) : Except PyErr (List Frame) :=
  if C.defined then (List.range C.frames).mapM fun k => frame C (k : ℕ) else .error .keyError

/-! ## Opening -/

/-- The container found when the file is opened again for reading (`NetCDF.py:184-213`): the grid is read from the dimensions `nx` and `ny`. -/
def reopen (C : File) (double : Bool) (fr : ℤ) : Except PyErr File :=
  match C.shape2 with
  | some (nx, ny) =>
    if C.defined then .ok ⟨C.vars, C.frames, some [nx, ny], some (nx, ny), true, C.ndofDim, if fr < 0 then C.frames + fr else fr, double⟩
    else .error .runtimeError
  | none => .error .runtimeError

/-- What `open` returns. -/
inductive Opened where
  | container (fn : String)
  | frame (fn : String) (n : ℤ)
  deriving DecidableEq

/-- Decimal digits. -/
def digit? (c : Char) : Option ℕ := if 48 ≤ c.toNat ∧ c.toNat ≤ 57 then some (c.toNat - 48) else none

/-- The digits after the first; single underscores may stand between digits. -/
def digitsFrom (acc : ℕ) : List Char → Option ℕ
  | [] => some acc
  | '_' :: c :: r => (digit? c).bind fun d => digitsFrom (10 * acc + d) r
  | c :: r => (digit? c).bind fun d => digitsFrom (10 * acc + d) r

/-- An unsigned number. -/
def pyNat : List Char → Option ℕ
  | [] => none
  | c :: r => (digit? c).bind fun d => digitsFrom d r

/-- `str.strip` for the blanks space, tab, line feed and carriage return (Python also strips vertical tabs, form feeds, the separators 28-31 and non-ASCII blanks; texts with those are not modelled). -/
def strip (l : List Char) : List Char :=
  ((l.dropWhile Char.isWhitespace).reverse.dropWhile Char.isWhitespace).reverse

/-- Python's `int(s)` for ASCII text without the characters 11, 12, 28-31; `none` is `ValueError`. -/
def pyInt (l : List Char) : Option ℤ :=
  match strip l with
  | '-' :: r => (pyNat r).map fun n => -(n : ℤ)
  | '+' :: r => (pyNat r).map fun n => (n : ℤ)
  | r => (pyNat r).map fun n => (n : ℤ)

/-- `open` (`NetCDF.py:392-404`) for a file name; the text after the first `@` is the frame, unless the `@` comes first. -/
def openNc (fn : String) (fr : Option ℤ) : Except PyErr Opened :=
  let l := fn.toList
  let i := l.findIdx (· = '@')
  if i < l.length ∧ 0 < i then
    match pyInt (l.drop (i + 1)) with
    | some n => .ok (.frame (String.ofList (l.take i)) n)
    | none => .error .valueError
  else
    match fr with
    | some n => .ok (.frame fn n)
    | none => .ok (.container fn)

/-! ## Histories -/

/-- Calls that change the file. -/
inductive Op where
  | write (i : ℤ) (name : String) (v : Value)
  | grid (i : ℤ) (name : String) (nx ny : ℕ) (g : ℕ → ℕ → ℝ) (x0 y0 : ℕ)
  | shape (s : List ℕ) (ndof : Option ℕ)
  | rigid (hx hy : ℕ) (h : ℕ → ℕ → ℝ) (ndof : Option ℕ)
  | next
  | cursor (n : ℤ)

/-- `container[i][name] = value` and the other calls; the state after an exception is the one reached. -/
noncomputable def step (rnd : ℝ → ℝ) (C : File) : Op → Except PyErr Unit × File
  | .write i name v => match frame C i with
    | .error e => (.error e, C)
    | .ok F => match frameSet rnd C F name v with
      | (r, C', _) => (r, C')
  | .grid i name nx ny g x0 y0 => match frame C i with
    | .error e => (.error e, C)
    | .ok F => setGrid rnd C F name nx ny g x0 y0
  | .shape s ndof => setShape C s ndof
  | .rigid hx hy h ndof => setRigid C hx hy h ndof
  | .next => match nextFrame C with
    | (.error e, C') => (.error e, C')
    | (.ok _, C') => (.ok (), C')
  | .cursor n => (.ok (), setCursor C n)

/-- A history of calls (exceptions are caught by the caller). -/
noncomputable def run (rnd : ℝ → ℝ) (C : File) (ops : List Op) : File := ops.foldl (fun C op => (step rnd C op).2) C

end CM.NetCDF
