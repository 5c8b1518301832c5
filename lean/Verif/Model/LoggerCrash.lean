import Verif.Model.Logger
/-!
# `Tools/Logger.py`: what reaches the disk

The model of `Verif/Model/Logger.lean` knows what a file contains when everything printed to it counts.  Here the calls are taken apart into the operations on
files they consist of, in their order, so that a crash can be put between any two of them; text printed to a file stays in the buffer of the file
object until it is flushed, or earlier (Python writes when its buffer is full).

Simplifications: as in `Verif/Model/Logger.lean`; a file object that is dropped (`iteration_finished`, `set_logfile`) is closed at some time and then flushed, here its text may
stay in its buffer for ever; no file is open twice; once handed to the operating system text is on disk.
-/
namespace CM.Log

/-- The operations on files of `Logger.py`. -/
inductive IO where
  | rename (a b : String)
  | openW (fn : String)
  | write (i : ℕ) (s : Text)
  | flush (i : ℕ)

/-- The files, and how many lines of each were handed to the operating system for sure. -/
structure Disk where
  world : World
  safe : ℕ → ℕ

/-- One operation. -/
def Disk.exec (D : Disk) : IO → Disk
  | .rename a b => ⟨D.world.rename a b, D.safe⟩
  | .openW fn => ⟨(D.world.openW fn).2, fun j => if j = (D.world.openW fn).1 then 0 else D.safe j⟩
  | .write i s => ⟨D.world.write i s, D.safe⟩
  | .flush i => ⟨D.world, fun j => if j = i then (D.world.data i).length else D.safe j⟩

/-- Operations one after the other. -/
def Disk.execAll (D : Disk) (l : List IO) : Disk := l.foldl Disk.exec D

/-- Operations of `__open_logfile` (`Logger.py:119-131`). -/
def ioOpen (S : State) : List IO :=
  match S.log.logfile, S.log.logfn with
  | none, some t =>
    let fn := t.name S.log.it
    (if S.world.hasFile fn then [.rename fn (backupName fn (freeBackup S.world fn (S.world.files.length + 1) 0))] else []) ++ [.openW fn]
  | _, _ => []

/-- Operations of `_print` (`Logger.py:133-139`). -/
def ioPrint (L : Logger) (s : Text) (extra : Option ℕ := none) : List IO :=
  (match extra with
    | some f => if L.logfile = some f then [] else [.write f s]
    | none => [])
  ++ (match L.logfile with
    | some i => [.write i s]
    | none => [])

/-- Operations of `flush` (`Logger.py:141-143`). -/
def ioFlush (L : Logger) : List IO :=
  match L.logfile with
  | some i => [.flush i]
  | none => []

/-- Operations of `set_logfile` (`Logger.py:145-160`): the buffered lines are printed and not flushed. -/
def ioSetLogfile (S : State) (a : LogArg) : List IO :=
  match a with
  | .template t =>
    let S := ⟨{ S.log with logfn := some t }, S.world⟩
    ioOpen S ++ (openLogfile S).log.buffer.flatMap (ioPrint (openLogfile S).log)
  | .plain fn => .openW fn :: S.log.buffer.map (.write (S.world.openW fn).1)
  | .handle i => S.log.buffer.map (.write i)
  | .none => []

/-- Operations of `pr` (`Logger.py:163-168`). -/
def ioPr (S : State) (caller text : Text) (extra : Option ℕ := none) : List IO :=
  ioOpen S ++ ioPrint (openLogfile S).log (commentLine caller text) extra ++ ioFlush (openLogfile S).log

/-- Operations of the part of `st` that prints (`Logger.py:188-207`); `L` is the logger when it begins. -/
def ioRecord (L : Logger) (hdr : List Text) (vals : List Val) : List IO :=
  match (if L.sepcounter - 1 ≤ 0 then (headerLine hdr vals).map (fun h => ioPrint L h) else .ok []) with
  | .error _ => []
  | .ok h =>
    match recordLine vals with
    | .error _ => h
    | .ok r => h ++ ioPrint L r ++ ioFlush L

/-- Operations of `st` (`Logger.py:173-207`). -/
def ioSt (S : State) (hdr : List Text) (vals : List Val) (force : Bool) : List IO :=
  if hdr.length ≠ vals.length then []
  else ioOpen S ++
    if (openLogfile S).log.outevery = 1 ∨ (openLogfile S).log.outcounter - 1 ≤ 0 ∨ force then ioRecord (openLogfile S).log hdr vals else []

/-- Operations of one call. -/
def ioStep (S : State) : Op → List IO
  | .pr c t => ioPr S c t
  | .warn c t => ioPr S c ("Warning: ".toList ++ t) (some 0)
  | .st h v f => ioSt S h v f
  | .setLogfile a => ioSetLogfile S a
  | .setOutevery _ => []
  | .iterationFinished => []

/-- Operations of a history of calls. -/
def ioRun : State → List Op → List IO
  | _, [] => []
  | S, op :: ops => ioStep S op ++ ioRun (step S op).2 ops

end CM.Log
