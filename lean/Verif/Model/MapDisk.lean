import Verif.Model.CLI
/-!
# Map files on disk

What `save_contact`, `save_pressure` and `save_gap` (`/repo/ContactMechanics/CommandLineInterface/HardWall.py:196-228`) do to the
directory they write to, in the order of `HardWall.py:473-480` and `548-555`.

Simplifications: a map file holds its field or is incomplete (its text and header are `Model/MapFiles`, C187 and C188); names are
compared as strings (no links, no two names of one file); the name does not end in `.gz` or `.xz`; only the process dies, the operating
system survives, so that a file that has been closed is complete.  The log and the NetCDF container are `Model/Logger` and `Model/NetCDF`.
-/
namespace CM.Cli
open CM.HS CM.FFT CM.System CM.Pipe

/-- What a file holds: a complete map, an incomplete one, or something this program did not write. -/
inductive Found where
  | whole (a : NdArray ℝ)
  | torn
  | other (t : String)

/-- The directory: what is found under a name. -/
abbrev MapDir := String → Option Found

/-- `np.savetxt(fn, ...)` (`HardWall.py:200-204`, `216`, `228`; NumPy, specified) from its beginning to its end: `fn` is opened for
writing, an old file of that name is lost, and closed with the map in it. -/
def saveMap (D : MapDir) (p : String × NdArray ℝ) : MapDir := fun s => if s = p.1 then some (.whole p.2) else D s

/-- `np.savetxt(fn, ...)` interrupted after `fn` was opened. -/
def beginMap (D : MapDir) (p : String × NdArray ℝ) : MapDir := fun s => if s = p.1 then some .torn else D s

/-- The map files of a run in the order they are written. -/
def mapWrites (outs : List Output) : List (String × NdArray ℝ) := outs.flatMap (·.fields)

/-- The directory when all these steps have been written. -/
def afterRun (D : MapDir) (outs : List Output) : MapDir := (mapWrites outs).foldl saveMap D

/-- The directory when the process dies after `m` map files of these steps were closed; `opened` says whether the next was opened. -/
def afterKill (D : MapDir) (outs : List Output) (m : ℕ) (opened : Bool) : MapDir :=
  let D' := ((mapWrites outs).take m).foldl saveMap D
  match (mapWrites outs)[m]? with
  | some p => if opened then beginMap D' p else D'
  | none => D'

end CM.Cli
