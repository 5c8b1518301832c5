import Verif.Model.NetCDF
import Verif.Model.CLI
/-!
# `IO/NetCDF.py`: what reaches the disk

The model of `Verif/Model/NetCDF.lean` knows what a file contains when everything written to the data set counts.  Here the model also remembers the state of the data set
when it was last synchronised: by `sync` of the container or of a frame, and by the call of `sync` in `_define_file_structure`.

Simplifications: as in `Verif/Model/NetCDF.lean`; what the libraries do with the file between two synchronisations is left open (`Verif/Spec/NetCDFCrash.lean`), but the file is
assumed to stay readable.
-/
namespace CM.NetCDF

/-- Calls that change the file, and `container.sync()` (`NetCDF.py:383-384`) or `frame.sync()` (`NetCDF.py:155-156`). -/
inductive DOp where
  | call (op : Op)
  | sync

/-- The data set, its state when it was last synchronised, and the states it has been in since. -/
structure Tracked where
  file : File
  kept : File
  since : List File

/-- A container opened for writing: an empty file on disk (`NetCDF.py:160-198`). -/
def fresh (double : Bool) (frame : ℕ) : Tracked := ⟨create double frame, create double frame, []⟩

/-- The state at the call of `sync` inside `_define_file_structure` (`NetCDF.py:240`), if the call comes to it: the first `set_shape` (`NetCDF.py:249-253`), also the one that
`set_rigid_surface` begins with (`NetCDF.py:283`). -/
def definedBy (C : File) : Op → Option File
  | .shape s ndof => if C.defined = false ∧ (setShape C s ndof).2.defined = true then some (setShape C s ndof).2 else none
  | .rigid hx hy _ ndof => if C.defined = false ∧ (setShape C [hx, hy] ndof).2.defined = true then some (setShape C [hx, hy] ndof).2 else none
  | _ => none

/-- One call. -/
noncomputable def dstep (rnd : ℝ → ℝ) (T : Tracked) : DOp → Tracked
  | .sync => ⟨T.file, T.file, []⟩
  | .call op =>
    match definedBy T.file op with
    | some D => ⟨(step rnd T.file op).2, D, [(step rnd T.file op).2]⟩
    | none => ⟨(step rnd T.file op).2, T.kept, T.since ++ [(step rnd T.file op).2]⟩

/-- A history of calls (exceptions are caught by the caller). -/
noncomputable def drun (rnd : ℝ → ℝ) (T : Tracked) (ops : List DOp) : Tracked := ops.foldl (dstep rnd) T

/-- The calls of `dump_nc` for frame `k` (`HardWall.py:186-193`). -/
def dumpNc (k : ℕ) (o : CM.Cli.Output) : List DOp :=
  [.call .next,
   .call (.write k "displacements" (.arr o.frameFields.1.shape o.frameFields.1.get)),
   .call (.write k "forces" (.arr o.frameFields.2.shape o.frameFields.2.get)),
   .call (.write k "displacement" (.real o.frame.1)),
   .call (.write k "load" (.real o.frame.2.1)),
   .call (.write k "area" (.real o.frame.2.2))]

/-- The frames of the steps from step `k` on. -/
def dumpsNc : ℕ → List CM.Cli.Output → List DOp
  | _, [] => []
  | k, o :: os => dumpNc k o ++ dumpsNc (k + 1) os

/-- What the command line does with the NetCDF file (`HardWall.py:419-424`, `470`, `515`, `545`) before it closes it: `container.set_shape(surface.nb_grid_pts)` and one frame for each step. -/
def cliNc (grid : List ℕ) (outs : List CM.Cli.Output) : List DOp := .call (.shape grid none) :: dumpsNc 0 outs

end CM.NetCDF
