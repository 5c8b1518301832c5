import Verif.Model.Py
import Mathlib.Data.List.Basic
import Mathlib.Data.Nat.Notation
import Mathlib.Data.Int.Notation
/-!
# `Tools/Logger.py`

Simplifications that apply to the whole file
* lines are lists of characters without the line end; what is printed to a file is its content at once
  (buffering of Python file objects is the subject of `Verif/Model/LoggerCrash.lean`);
* a value to be logged carries its own text and column width: the texts `'{:>20.12e}'.format(x)` etc. of numbers are not
  modelled;
* a file name template has one placeholder `{}` or `{0}`; other `str.format` syntax is not modelled;
* the class-level debug switch `__all_output_to_stdout` is off.
-/
namespace CM.Log

/-- A line of text. -/
abbrev Text := List Char

/-! ## Formatting -/

/-- A value passed to `st`: a string or number (`leaf`, with column width and text), or something that can be iterated over. -/
inductive Val where
  | leaf (width : ℕ) (text : Text)
  | vec (l : List Val)

/-- `flatten` (`Logger.py:91-99`).  Reducing an empty list raises, so the empty list itself is returned as the only element. -/
def flatten : Val → List Val
  | .leaf w t => [.leaf w t]
  | .vec [] => [.vec []]
  | .vec (v :: l) => flatten v ++ flattenAll l
where
  flattenAll : List Val → List Val
    | [] => []
    | v :: l => flatten v ++ flattenAll l

/-- `chr(ord('x') + i)`. -/
def componentName (i : ℕ) : Char := Char.ofNat ('x'.toNat + i)

/-- `hdr_str` followed by `flatten` (`Logger.py:39-52`, `191`): the labels of one value.  An empty iterable
leaves the empty list, whose text is `[]`. -/
def labels (s : Text) : Val → List Text
  | .leaf _ _ => [s]
  | .vec [] => [['[', ']']]
  | .vec l => (List.range l.length).map fun i => s ++ ['('] ++ [componentName i] ++ [')']

/-- `'{:>w}'.format(s)`. -/
def padLeft (w : ℕ) (s : Text) : Text := List.replicate (w - s.length) ' ' ++ s

/-- `reduce(lambda a, b: '{0}  {1}'.format(a, b), …)`. -/
def joinCols (l : List Text) : Text := List.intercalate [' ', ' '] l

/-- The columns of a line: every leaf takes the argument with its own position, an empty list is printed as such. -/
def cells : List Val → List Text → Except PyErr (List Text)
  | [], _ => .ok []
  | .leaf _ _ :: _, [] => .error .indexError
  | .leaf w _ :: cs, a :: as => do
    let r ← cells cs as
    pure (padLeft w a :: r)
  | .vec _ :: cs, as => do
    let r ← cells cs as.tail
    pure (['[', ']'] :: r)

/-- `(prefix + reduce(…)).format(*args)` (`Logger.py:192-198`, `201-206`): one placeholder per leaf of the flattened values,
with the position of the value as index; the format string of an empty list is the list itself, which is not a
string when it stands alone. -/
def render (pref : Char) (cols : List Val) (args : List Text) : Except PyErr Text :=
  match cols with
  | [.vec _] => .error .typeError
  | _ => do
    let r ← cells cols args
    pure (pref :: joinCols r)

/-- Text of a flattened value, as an argument of `format`. -/
def textOf : Val → Text
  | .leaf _ t => t
  | .vec _ => ['[', ']']

/-- Column labels with their numbers: `'{0}:{1}'.format(str(i + 1), s)`. -/
def numbered (i : ℕ) : List Text → List Text
  | [] => []
  | s :: l => ((Nat.repr (i + 1)).toList ++ ':' :: s) :: numbered (i + 1) l

/-- Labels of all values (`Logger.py:191`). -/
def allLabels : List Text → List Val → List Text
  | h :: hs, v :: vs => labels h v ++ allLabels hs vs
  | _, _ => []

/-- The header line (`Logger.py:191-198`).  (Without any value the format string is no string and the labels do not matter.) -/
def headerLine (hdr : List Text) (vals : List Val) : Except PyErr Text :=
  render '#' (flatten (.vec vals)) (numbered 0 (allLabels hdr vals))

/-- The line with the values (`Logger.py:201-206`). -/
def recordLine (vals : List Val) : Except PyErr Text := render ' ' (flatten (.vec vals)) ((flatten (.vec vals)).map textOf)

/-! ## Files -/

/-- Files: a directory of names, the contents by file number, and the next free number.  Number `0` is standard output. -/
structure World where
  files : List (String × ℕ)
  data : ℕ → List Text
  next : ℕ

/-- File number of a name. -/
def World.lookup (W : World) (fn : String) : Option ℕ := (W.files.find? fun p => p.1 = fn).map Prod.snd

/-- `os.path.exists`. -/
def World.hasFile (W : World) (fn : String) : Bool := (W.lookup fn).isSome

/-- `os.rename` to a name that does not exist. -/
def World.rename (W : World) (a b : String) : World := { W with files := W.files.map fun p => if p.1 = a then (b, p.2) else p }

/-- `open(fn, 'w')`: truncates an existing file, or creates one. -/
def World.openW (W : World) (fn : String) : ℕ × World :=
  match W.lookup fn with
  | some i => (i, { W with data := fun j => if j = i then [] else W.data j })
  | none => (W.next, ⟨W.files ++ [(fn, W.next)], fun j => if j = W.next then [] else W.data j, W.next + 1⟩)

/-- `print(s, file=…)`. -/
def World.write (W : World) (i : ℕ) (s : Text) : World := { W with data := fun j => if j = i then W.data j ++ [s] else W.data j }

/-! ## The logger -/

/-- `logfn`: a name with one placeholder. -/
structure Template where
  pre : String
  post : String

/-- `logfn.format(it)`. -/
def Template.name (t : Template) (it : ℕ) : String := t.pre ++ Nat.repr it ++ t.post

/-- Attributes of a `Logger` (`Logger.py:106-117`). -/
structure Logger where
  sepevery : ℤ
  outevery : ℤ
  outcounter : ℤ
  sepcounter : ℤ
  it : ℕ
  logfn : Option Template
  logfile : Option ℕ
  buffer : List Text

/-- A logger and the files. -/
structure State where
  log : Logger
  world : World

/-- `'{0}.{1}.bak'.format(fn, i)`. -/
def backupName (fn : String) (i : ℕ) : String := fn ++ "." ++ Nat.repr i ++ ".bak"

/-- `while os.path.exists(…): i += 1` (`Logger.py:127-129`), with at most `fuel` passes. -/
def freeBackup (W : World) (fn : String) : ℕ → ℕ → ℕ
  | 0, i => i
  | fuel + 1, i => if W.hasFile (backupName fn i) then freeBackup W fn fuel (i + 1) else i

/-- `__open_logfile` (`Logger.py:119-131`). -/
def openLogfile (S : State) : State :=
  match S.log.logfile, S.log.logfn with
  | none, some t =>
    let fn := t.name S.log.it
    let W := if S.world.hasFile fn then S.world.rename fn (backupName fn (freeBackup S.world fn (S.world.files.length + 1) 0)) else S.world
    let (i, W) := W.openW fn
    ⟨{ S.log with outcounter := S.log.outevery, sepcounter := 0, logfile := some i }, W⟩
  | _, _ => S

/-- `_print` (`Logger.py:133-139`). -/
def print (S : State) (s : Text) (extra : Option ℕ := none) : State :=
  let W := match extra with
    | some f => if S.log.logfile = some f then S.world else S.world.write f s
    | none => S.world
  match S.log.logfile with
  | some i => ⟨S.log, W.write i s⟩
  | none => ⟨{ S.log with buffer := S.log.buffer ++ [s] }, W⟩

/-- What can be passed to `set_logfile`. -/
inductive LogArg where
  | none
  | handle (i : ℕ)
  | plain (fn : String)
  | template (t : Template)

/-- Printing the buffered lines (`Logger.py:156-158`). -/
def replay (S : State) : List Text → State
  | [] => S
  | s :: l => replay (print S s) l

/-- `set_logfile` (`Logger.py:145-160`). -/
def setLogfile (S : State) (a : LogArg) : State :=
  let S := match a with
    | .template t => openLogfile ⟨{ S.log with logfn := some t }, S.world⟩
    | .plain fn => match S.world.openW fn with
      | (i, W) => ⟨{ S.log with logfile := some i }, W⟩
    | .handle i => ⟨{ S.log with logfile := some i }, S.world⟩
    | .none => ⟨{ S.log with logfile := none }, S.world⟩
  let S := if S.log.logfile.isSome then replay S S.log.buffer else S
  ⟨{ S.log with buffer := [] }, S.world⟩

/-- The constructor (`Logger.py:106-117`). -/
def create (W : World) (logfile : LogArg) (outevery sepevery : ℤ) : State :=
  setLogfile ⟨⟨sepevery, outevery, outevery, 0, 1, none, none, []⟩, W⟩ logfile

/-- The line of `pr` (`Logger.py:167`). -/
def commentLine (caller text : Text) : Text := ['#', ' ', '{'] ++ caller ++ ['}', ':', ' '] ++ text

/-- `pr` (`Logger.py:163-168`). -/
def pr (S : State) (caller text : Text) (extra : Option ℕ := none) : State := print (openLogfile S) (commentLine caller text) extra

/-- `warn` (`Logger.py:170-171`): also to standard output. -/
def warn (S : State) (caller text : Text) : State := pr S caller ("Warning: ".toList ++ text) (some 0)

/-- The header, when it is time for one (`Logger.py:189-199`). -/
def printHeader (S : State) (hdr : List Text) (vals : List Val) : Except PyErr State :=
  if S.log.sepcounter ≤ 0 then
    match headerLine hdr vals with
    | .error e => .error e
    | .ok h => .ok ⟨{ (print S h).log with sepcounter := (print S h).log.sepevery }, (print S h).world⟩
  else .ok S

/-- The part of `st` that prints (`Logger.py:188-207`). -/
def printRecord (S : State) (hdr : List Text) (vals : List Val) : Except PyErr Unit × State :=
  match printHeader ⟨{ S.log with sepcounter := S.log.sepcounter - 1 }, S.world⟩ hdr vals with
  | .error e => (.error e, ⟨{ S.log with sepcounter := S.log.sepcounter - 1 }, S.world⟩)
  | .ok T =>
    match recordLine vals with
    | .error e => (.error e, T)
    | .ok r => (.ok (), print T r)

/-- `st` (`Logger.py:173-207`). -/
def st (S : State) (hdr : List Text) (vals : List Val) (force : Bool) : Except PyErr Unit × State :=
  if hdr.length ≠ vals.length then (.error .assertionError, S)
  else
    let S := openLogfile S
    if S.log.outevery = 1 then printRecord S hdr vals
    else if S.log.outcounter - 1 ≤ 0 then printRecord ⟨{ S.log with outcounter := S.log.outevery }, S.world⟩ hdr vals
    else if force then printRecord ⟨{ S.log with outcounter := S.log.outcounter - 1 }, S.world⟩ hdr vals
    else (.ok (), ⟨{ S.log with outcounter := S.log.outcounter - 1 }, S.world⟩)

/-- `iteration_finished` (`Logger.py:209-214`). -/
def iterationFinished (S : State) : State :=
  ⟨{ S.log with it := S.log.it + 1, outcounter := S.log.outevery, sepcounter := 0, logfile := if S.log.logfn.isSome then none else S.log.logfile }, S.world⟩

/-- `set_outevery` (`Logger.py:222-226`). -/
def setOutevery (S : State) (n : ℤ) : State := ⟨{ S.log with outevery := n, outcounter := n, sepcounter := 0 }, S.world⟩

/-- A call of one of the methods. -/
inductive Op where
  | pr (caller text : Text)
  | warn (caller text : Text)
  | st (hdr : List Text) (vals : List Val) (force : Bool)
  | setLogfile (a : LogArg)
  | setOutevery (n : ℤ)
  | iterationFinished

/-- One call; the state after an exception is the one reached. -/
def step (S : State) : Op → Except PyErr Unit × State
  | .pr c t => (.ok (), pr S c t)
  | .warn c t => (.ok (), warn S c t)
  | .st h v f => st S h v f
  | .setLogfile a => (.ok (), setLogfile S a)
  | .setOutevery n => (.ok (), setOutevery S n)
  | .iterationFinished => (.ok (), iterationFinished S)

/-- A history of calls (exceptions are caught by the caller). -/
def run (S : State) (ops : List Op) : State := ops.foldl (fun S op => (step S op).2) S

/-! ## Reading a log -/

/-- Blank characters (those of ASCII below `0x1c`; Unicode blanks are not modelled). -/
def blank (c : Char) : Bool := c = ' ' || (9 ≤ c.toNat && c.toNat ≤ 13)

/-- `s.split()`: words between blanks; the word being read is `cur`. -/
def splitWords (cur : Text) : Text → List Text
  | [] => if cur = [] then [] else [cur]
  | c :: s => if blank c then (if cur = [] then splitWords [] s else cur :: splitWords [] s) else splitWords (cur ++ [c]) s

/-- `s.strip('# \n')`. -/
def stripHash (s : Text) : Text :=
  let p := fun c : Char => c = '#' || c = ' ' || c = '\n'
  ((s.dropWhile p).reverse.dropWhile p).reverse

/-- `s.split(':')[1]`: what stands between the first and the second colon. -/
def afterColon (s : Text) : Except PyErr Text :=
  match s.dropWhile (· ≠ ':') with
  | [] => .error .indexError
  | _ :: r => .ok (r.takeWhile (· ≠ ':'))

/-- Column names of `read_convergence_log` (`Logger.py:250-254`): the words of the first line (of the empty text, if there is none). -/
def columnNames (lines : List Text) : Except PyErr (List Text) :=
  (splitWords [] (stripHash (lines.headD []))).mapM afterColon

/-- Rows of `read_convergence_log` (`Logger.py:257-260`; pandas, specified): everything from a `#` on is ignored, lines without
words are skipped, the others are split at blanks.  Conversion to numbers is not modelled. -/
def dataRows (lines : List Text) : List (List Text) :=
  (lines.map fun l => splitWords [] (l.takeWhile (· ≠ '#'))).filter (· ≠ [])

/-- `read_convergence_log` (`Logger.py:233-261`): column names and rows of texts.  pandas rejects repeated names. -/
def readConvergenceLog (lines : List Text) : Except PyErr (List Text × List (List Text)) := do
  let names ← columnNames lines
  if names.Nodup then pure (names, dataRows lines) else .error .valueError

end CM.Log
