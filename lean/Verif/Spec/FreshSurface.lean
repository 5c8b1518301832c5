import Verif.Model.CLI
/-!
# Solvers that agree on the undeformed surface

Definitions only.
-/
namespace CM.Cli
open CM.System CM.Pipe

/-- The two solvers do the same with the undeformed surface; what they do with a plastically deformed one may differ.  A calculation that comes out the same with both has not
used the deformed surface. -/
def AgreeUndeformed (T : Topo) (s s' : Solver) : Prop := ∀ c, c.heights = T.heights → s c = s' c

end CM.Cli
