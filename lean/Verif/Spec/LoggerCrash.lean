import Verif.Model.LoggerCrash
/-!
# What is found after a crash
-/
namespace CM.Log

/-- The text of lines in a file: each with its line end. -/
def fileText (l : List Text) : Text := l.flatMap fun s => s ++ ['\n']

/-- What file `i` may contain when the process dies: everything that was surely handed over, and any part of the beginning of the rest. -/
def Disk.MayContain (D : Disk) (i : ℕ) (c : Text) : Prop :=
  fileText ((D.world.data i).take (D.safe i)) <+: c ∧ c <+: fileText (D.world.data i)

/-- Nothing waits in a buffer: all lines printed to the files (other than standard output) are on disk. -/
def Disk.Synced (D : Disk) : Prop := ∀ i, i ≠ 0 → D.safe i = (D.world.data i).length

/-- Calls that do not make `set_logfile` print lines that were waiting for a file. -/
def Op.NoBacklog (S : State) : Op → Prop
  | .setLogfile _ => S.log.buffer = []
  | _ => True

end CM.Log
