import Verif.Model.Factory
/-!
# Plastic systems from the factory

`make_plastic_system` (`/repo/ContactMechanics/Factory.py:137-156`) with a `PlasticTopography` of the third-party package
SurfaceTopography as surface.

Simplification: the surface knows its physical sizes.
-/
namespace CM.Factory
open CM.FFT CM.HS CM.System

/-- `make_plastic_system(surface=PlasticTopography(topography, hardness), ...)` (lines 137-156).  The surface starts without plastic
displacement; `surface.area_per_pt` (SurfaceTopography, specified) is the area of the surface over its number of points, and
`PlasticNonSmoothContactSystem` takes the hardness and that area from the surface (`PlasticSystemSpecialisations.py:65`). -/
noncomputable def makePlasticSystem (heights : NdArray ℝ) (known : List ℝ) (isPeriodic : Bool) (hardness : ℝ) (sub : SubstrateArg)
    (sizes : Option (List ℝ)) (kw : Kwargs) : Except PyErr PSys := do
  let S ← makeSystem (.topography ⟨heights, some known, isPeriodic⟩) sub sizes kw
  pure ⟨S, heights, ⟨heights.shape, fun _ => 0⟩, hardness, known.prod / (heights.shape.prod : ℕ)⟩

end CM.Factory
