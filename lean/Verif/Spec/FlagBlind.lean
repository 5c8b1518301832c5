import Verif.Model.CLI
/-!
# Convergence flags

Definitions only.
-/
namespace CM.Cli
open CM.System CM.Pipe

/-- The same solver with other convergence flags: what it computes is the same, what it reports as success is given by `flag`. -/
def reflag (flag : Call → OptResult → Bool) (solver : Solver) : Solver := fun c => (solver c).map fun r => { r with success := flag c r }

end CM.Cli
