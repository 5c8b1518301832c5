import Verif.Model.NetCDF
/-!
# `IO/NetCDF.py`: data of the whole file, and closing

`container.name = value`, `container.name`, `container['name']`, the elastic surface, `has_h`, `len`, `get_size` and `close` of `NetCDFContainer`
(`/repo/ContactMechanics/IO/NetCDF.py:266-280`, `300-321`, `334-381`), on top of `Model/NetCDF`.

Simplifications, besides those of `Model/NetCDF`
* attributes of the data set are specified: numbers, and integers of 64 bits, are stored as they are; other integers are refused; the names `netCDF4` keeps for itself are refused;
* names with an underscore in front (attributes of the Python object) are refused;
* an array assigned to a variable that has frames is refused (`netCDF4` would spread it over the frames).
-/
namespace CM.NetCDF

/-- A container: the file and the attributes of the object, the attributes of the data set, and, once it is closed, the file that was left on disk. -/
structure Cont where
  file : File
  attrs : String → Option Value
  saved : Option (File × (String → Option Value))

/-- A container opened for writing (`NetCDF.py:160-198`). -/
def createCont (double : Bool) (frame : ℕ) : Cont where
  file := create double frame
  attrs := fun s => if s = "program" ∨ s = "programVersion" then some .other else none
  saved := none

/-- Names that `netCDF4.Dataset` keeps for itself. -/
def datasetNames : List String := ["groups", "dimensions", "variables", "dtype", "data_model", "disk_format", "path", "parent", "ndim", "mask", "scale",
  "cmptypes", "vltypes", "enumtypes", "file_format", "name", "keepweakref", "chartostring", "auto_complex"]

/-- Methods of the class, which are found before `__getattr__` is asked (`NetCDF.py:219-385`). -/
def contNames : List String := ["set_shape", "close", "has_h", "set_rigid_surface", "set_h", "set_elastic_surface", "get_rigid_surface", "get_h",
  "get_elastic_surface", "get_filename", "get_next_frame", "set_cursor", "get_cursor", "get_size", "sync"]

/-- `Dataset.__setattr__` (`netCDF4`, specified). -/
def setNcAttr (c : Cont) (name : String) (v : Value) : Except PyErr Unit × Cont :=
  if name ∈ datasetNames then (.error .attributeError, c)
  else match v with
    | .int n => if -2 ^ 63 ≤ n ∧ n < 2 ^ 63 then (.ok (), { c with attrs := fun s => if s = name then some v else c.attrs s }) else (.error .typeError, c)
    | _ => (.ok (), { c with attrs := fun s => if s = name then some v else c.attrs s })

/-- `variables[name][:, :] = value` for an array (`netCDF4`, specified). -/
def assignWhole (C : File) (name : String) (s : List ℕ) (g : List ℕ → ℝ) : Except PyErr Unit × File :=
  match C.vars name with
  | none => (.error .keyError, C)
  | some var =>
    if var.framed = false ∧ var.dims = s then
      (.ok (), { C with vars := fun t => if t = name then some { var with data := fun _ idx => if inside s idx then some (g idx) else none } else C.vars t })
    else (.error .valueError, C)

/-- Creation of the variable of an array for the whole file (`NetCDF.py:348-357`); the new variable always has the dimensions `nx` and `ny`. -/
def ensureWhole (C : File) (name : String) (s : List ℕ) : Except PyErr File :=
  match C.vars name with
  | some _ => .ok C
  | none =>
    match C.shape with
    | none => .error .keyError
    | some sh =>
      if s = sh then
        match C.defined, C.shape2 with
        | true, some (nx, ny) => .ok (C.add name .f8 false [nx, ny])
        | _, _ => .error .keyError
      else .error .runtimeError

/-- `container.name = value` (`NetCDF.py:343-362`), also `container['name'] = value` (`NetCDF.py:364-367`). -/
def contSet (c : Cont) (name : String) (v : Value) : Except PyErr Unit × Cont :=
  if name = "" then (.error .indexError, c)
  else if isPrivate name then (.error .notImplemented, c)
  else if c.saved.isSome then (.error .attributeError, c)
  else match v with
    | .arr (n :: s) g =>
      match ensureWhole c.file name (n :: s) with
      | .error e => (.error e, c)
      | .ok C =>
        match assignWhole C name (n :: s) g with
        | (r, C') => (r, { c with file := C' })
    | v => setNcAttr c name v

/-- `variables[name][...]`: all of the variable. -/
def fetchWhole (C : File) (var : Var) : Got :=
  if var.framed then .data (C.frames :: var.dims) fun idx => var.data (idx.headD 0) idx.tail else .data var.dims (var.data 0)

/-- `container['name']` (`NetCDF.py:334-341`, `369-371`). -/
def contGet (c : Cont) (name : String) : Except PyErr Got :=
  if name = "" then .error .indexError
  else if isPrivate name then .error .notImplemented
  else if c.saved.isSome then .error .attributeError
  else match c.file.vars name with
    | some var => .ok (fetchWhole c.file var)
    | none =>
      if name ∈ datasetNames then .ok (.ofClass name)
      else match c.attrs name with
        | some v => .ok (.priv v)
        | none => .error .attributeError

/-- `container.name`. -/
def contAttr (c : Cont) (name : String) : Except PyErr Got := if name ∈ contNames then .ok (.ofClass name) else contGet c name

/-- `has_h` (`NetCDF.py:279-280`). -/
def hasH (c : Cont) : Except PyErr Bool := if c.saved.isSome then .error .attributeError else .ok (c.file.vars "h").isSome

/-- `set_elastic_surface` (`NetCDF.py:303-309`) for a two-dimensional array. -/
def setElastic (c : Cont) (hx hy : ℕ) (h : ℕ → ℕ → ℝ) : Except PyErr Unit × Cont :=
  if c.saved.isSome then (.error .attributeError, c)
  else
    let made : Except PyErr File := match c.file.vars "elastic_surface" with
      | some _ => .ok c.file
      | none => match c.file.defined, c.file.shape2 with
        | true, some (nx, ny) => .ok (c.file.add "elastic_surface" .f8 false [nx, ny])
        | _, _ => .error .keyError
    match made with
    | .error e => (.error e, c)
    | .ok C =>
      match assignWhole C "elastic_surface" [hx, hy] fun l => h (l.headD 0) (l.tail.headD 0) with
      | (r, C') => (r, { c with file := C' })

/-- `get_elastic_surface` (`NetCDF.py:317-318`): the variable itself, not its contents.  The object is described by its name. -/
def getElastic (c : Cont) : Except PyErr String :=
  if c.saved.isSome then .error .attributeError
  else match c.file.vars "elastic_surface" with
    | none => .error .keyError
    | some _ => .ok "elastic_surface"

/-- `np.asarray` of a variable object, at the time it is looked at. -/
def look (c : Cont) (name : String) : Except PyErr Got :=
  if c.saved.isSome then .error .runtimeError
  else match c.file.vars name with
    | none => .error .keyError
    | some var => .ok (fetchWhole c.file var)

/-- `len(container)` (`NetCDF.py:266-271`). -/
def contLen (c : Cont) : Except PyErr ℕ :=
  if c.saved.isSome then .error .attributeError else if c.file.defined then .ok c.file.frames else .error .keyError

/-- `get_size` (`NetCDF.py:380-381`). -/
def getSize (c : Cont) : Except PyErr (List ℕ) :=
  match c.file.shape with
  | none => .error .keyError
  | some s => .ok s

/-- `close` (`NetCDF.py:273-277`). -/
def closeCont (c : Cont) : Cont :=
  match c.saved with
  | some _ => c
  | none => { c with file := { c.file with defined := false }, saved := some (c.file, c.attrs) }

/-- Opening the file of a closed container for reading (`NetCDF.py:184-213`). -/
def reopenCont (c : Cont) (double : Bool) (fr : ℤ) : Except PyErr Cont :=
  match c.saved with
  | none => .error .runtimeError
  | some (C, a) =>
    match reopen C double fr with
    | .error e => .error e
    | .ok C' => .ok ⟨C', a, none⟩

/-- Calls on a closed container: `_data` is `None`. -/
def closedStep (C : File) : Op → Except PyErr Unit × File
  | .write i name _ =>
    if i < 0 then (.error .attributeError, C)
    else if name = "" then (.error .indexError, C)
    else if isPrivate name then (.ok (), C)
    else (.error .attributeError, C)
  | .grid i _ _ _ _ _ _ =>
    if i < 0 then (.error .attributeError, C)
    else match C.shape with
      | none => (.error .keyError, C)
      | some _ => (.error .attributeError, C)
  | .shape s ndof => closedShape C (if isSingle ndof then s else ndof.getD 1 :: s)
  | .rigid hx hy _ ndof => closedShape C (if isSingle ndof then [hx, hy] else ndof.getD 1 :: [hx, hy])
  | .next => if C.cur < 0 then (.error .attributeError, C) else (.ok (), { C with cur := C.cur + 1 })
  | .cursor n => (.ok (), setCursor C n)
where
  /-- `_define_file_structure` (`NetCDF.py:219-242`) sets the attributes of the object before it asks for the file. -/
  closedShape (C : File) (s : List ℕ) : Except PyErr Unit × File :=
    match defineStructure C s with
    | (.error e, C') => (.error e, C')
    | (.ok (), C') => (.error .attributeError, { C' with defined := C.defined, ndofDim := C.ndofDim })

/-- Calls that change a container. -/
inductive COp where
  | base (op : Op)
  | set (name : String) (v : Value)
  | elastic (hx hy : ℕ) (h : ℕ → ℕ → ℝ)
  | close

/-- One call; the state after an exception is the one reached. -/
noncomputable def cstep (rnd : ℝ → ℝ) (c : Cont) : COp → Except PyErr Unit × Cont
  | .base op =>
    match (if c.saved.isSome then closedStep c.file op else step rnd c.file op) with
    | (r, C) => (r, { c with file := C })
  | .set name v => contSet c name v
  | .elastic hx hy h => setElastic c hx hy h
  | .close => (.ok (), closeCont c)

/-- A history of calls (exceptions are caught by the caller). -/
noncomputable def crun (rnd : ℝ → ℝ) (c : Cont) (ops : List COp) : Cont := ops.foldl (fun c op => (cstep rnd c op).2) c

end CM.NetCDF
