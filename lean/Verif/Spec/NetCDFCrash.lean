import Verif.Model.NetCDFCrash
import Verif.Spec.NetCDF
/-!
# What is found in a NetCDF file after a crash
-/
namespace CM.NetCDF

/-- The states since the last synchronisation, that one included. -/
def Tracked.states (T : Tracked) : List File := T.kept :: T.since

/-- The variables have the same type and dimensions. -/
def Var.SameForm (v w : Var) : Prop := v.kind = w.kind ∧ v.framed = w.framed ∧ v.dims = w.dims

/-- `D` may be in the file when the process dies: what was synchronised is there, and any part of what happened since, entry by entry. -/
structure OnDisk (T : Tracked) (D : File) : Prop where
  frames : T.kept.frames ≤ D.frames ∧ D.frames ≤ T.file.frames
  grid : D.defined = T.kept.defined ∧ D.shape2 = T.kept.shape2
  old : ∀ name v, T.kept.vars name = some v → ∃ w, D.vars name = some w ∧ w.SameForm v ∧
    ∀ j idx, ∃ C ∈ T.states, ∃ u, C.vars name = some u ∧ w.data j idx = u.data j idx
  new : ∀ name w, T.kept.vars name = none → D.vars name = some w → ∃ v, T.file.vars name = some v ∧ w.SameForm v ∧
    ∀ j idx, w.data j idx = none ∨ ∃ C ∈ T.states, ∃ u, C.vars name = some u ∧ w.data j idx = u.data j idx

/-- None of the calls, each in the state it meets, writes to frame `j` of this variable. -/
def Spared (rnd : ℝ → ℝ) (j : ℤ) (name : String) : Tracked → List DOp → Prop
  | _, [] => True
  | T, .sync :: ops => Spared rnd j name (dstep rnd T .sync) ops
  | T, .call op :: ops => ¬ Touches T.file j name op ∧ Spared rnd j name (dstep rnd T (.call op)) ops

end CM.NetCDF
