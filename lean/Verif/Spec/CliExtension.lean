import Verif.Model.CLIRun
/-!
# What is written for a step, without the names of the map files
-/
namespace CM.Spec
open CM.Cli CM.FFT CM.HS

/-- Log line, NetCDF frame, and the map files without their names. -/
def Written (o : Output) : List ℝ × (ℝ × ℝ × ℝ) × (NdArray ℝ × NdArray ℝ) × List (List ℝ) × List (NdArray ℝ) :=
  (o.log, o.frame, o.frameFields, o.files.map Prod.snd, o.fields.map Prod.snd)

end CM.Spec
