import Verif.Model.NetCDFContainer
import Verif.Spec.NetCDF
/-!
# Specification of the data of the whole file
-/
namespace CM.NetCDF

/-- Does the call store something under this name? -/
def Names (name : String) : COp → Prop
  | .base (.write _ n _) => n = name
  | .base (.grid _ n _ _ _ _ _) => n = name
  | .base (.rigid _ _ _ _) => name = "h"
  | .set n _ => n = name
  | .elastic _ _ _ => name = "elastic_surface"
  | _ => False

/-- Reading the name, as an item, gives an array of this shape with these entries. -/
def Cont.Array (c : Cont) (name : String) (dims : List ℕ) (g : List ℕ → ℝ) : Prop :=
  ∃ get, contGet c name = .ok (.data dims get) ∧ ∀ idx, Inside dims idx → get idx = some (g idx)

/-- Reading the name, as an item, gives this number. -/
def Cont.Number (c : Cont) (name : String) (x : ℝ) : Prop :=
  ∃ v, contGet c name = .ok (.priv v) ∧ (v = .real x ∨ (∃ n : ℤ, v = .int n ∧ x = n) ∨ ∃ g, v = .arr [] g ∧ x = g [])

/-- Names a user may give to the data of the file: not empty, no underscore in front, not one of those `netCDF4` keeps for itself. -/
def PublicName (name : String) : Prop := name ≠ "" ∧ isPrivate name = false ∧ name ∉ datasetNames

/-- Names of the methods of a container. -/
def methodNames : List String := ["close", "get_cursor", "get_elastic_surface", "get_filename", "get_h", "get_next_frame", "get_rigid_surface", "get_size", "has_h",
  "set_cursor", "set_elastic_surface", "set_h", "set_rigid_surface", "set_shape", "sync"]

end CM.NetCDF
