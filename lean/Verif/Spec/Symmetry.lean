import Verif.Spec.Pipeline
/-!
# Specification vocabulary: moving a surface on its grid
-/
namespace CM.Spec
open CM.HS CM.FFT CM.System CM.Pipe

/-- `σ` renumbers the points of an `nx × ny` grid as the points of an `nx' × ny'` grid. -/
structure Renumbers (σ : ℕ × ℕ → ℕ × ℕ) (nx ny nx' ny' : ℕ) : Prop where
  maps : ∀ i < nx, ∀ j < ny, (σ (i, j)).1 < nx' ∧ (σ (i, j)).2 < ny'
  inj : ∀ i < nx, ∀ j < ny, ∀ k < nx, ∀ l < ny, σ (i, j) = σ (k, l) → i = k ∧ j = l
  surj : ∀ k < nx', ∀ l < ny', ∃ i < nx, ∃ j < ny, σ (i, j) = (k, l)

/-- The field `a'` is the field `a` with the points renumbered by `σ`. -/
def Carried {α : Type} (σ : ℕ × ℕ → ℕ × ℕ) (nx ny : ℕ) (a a' : NdArray α) : Prop :=
  ∀ i < nx, ∀ j < ny, a'.get [(σ (i, j)).1, (σ (i, j)).2] = a.get [i, j]

/-- The heights `a'` are the heights `a` renumbered by `σ` and raised by `c`. -/
def Raised (σ : ℕ × ℕ → ℕ × ℕ) (c : ℝ) (nx ny : ℕ) (a a' : NdArray ℝ) : Prop :=
  ∀ i < nx, ∀ j < ny, a'.get [(σ (i, j)).1, (σ (i, j)).2] = a.get [i, j] + c

/-- The callback data `R'` is `R` with the points renumbered; the offset is lower by `c`. -/
structure ReportCarried (σ : ℕ × ℕ → ℕ × ℕ) (c : ℝ) (nx ny nx' ny' : ℕ) (R R' : Report) : Prop where
  shapes : R'.displacement.shape = [nx', ny'] ∧ R'.gap.shape = [nx', ny'] ∧ R'.pressure.shape = [nx', ny'] ∧
    R'.contacting.shape = [nx', ny']
  displacement : Carried σ nx ny R.displacement R'.displacement
  gap : Carried σ nx ny R.gap R'.gap
  pressure : Carried σ nx ny R.pressure R'.pressure
  contacting : Carried σ nx ny R.contacting R'.contacting
  meanDisplacement : R'.meanDisplacement = R.meanDisplacement - c
  meanPressure : R'.meanPressure = R.meanPressure
  area : R'.totalContactArea = R.totalContactArea

/-- The returned arrays `R'` are `R` with all offsets lower by `c`. -/
def lowered (c : ℝ) (R : Result) : Result := { R with meanDisplacement := R.meanDisplacement.map (· - c) }

/-- Translation of a periodic surface by `a` rows and `b` columns. -/
def translation (nx ny a b : ℕ) (p : ℕ × ℕ) : ℕ × ℕ := ((p.1 + a) % nx, (p.2 + b) % ny)

/-- Reflection of the first direction. -/
def mirrorX (nx : ℕ) (p : ℕ × ℕ) : ℕ × ℕ := (nx - 1 - p.1, p.2)

/-- Reflection of the second direction. -/
def mirrorY (ny : ℕ) (p : ℕ × ℕ) : ℕ × ℕ := (p.1, ny - 1 - p.2)

/-- Exchange of the two directions. -/
def exchange (p : ℕ × ℕ) : ℕ × ℕ := (p.2, p.1)

/-- `T'` is the topography `T` with its points renumbered by `σ`, raised by `c`: of the same kind, and with the same
roughness. -/
structure MovedTopo (σ : ℕ × ℕ → ℕ × ℕ) (c : ℝ) (nx ny : ℕ) (T T' : Topo) : Prop where
  heights : Raised σ c nx ny T.heights T'.heights
  periodic : T'.isPeriodic = T.isPeriodic
  rms : T'.rmsHeight = T.rmsHeight

/-- Two calls of `contact_mechanics` that raise the same exception or return the same five arrays, and whose callbacks
receive the same data at the renumbered points. -/
def SameResults (σ : ℕ × ℕ → ℕ × ℕ) (nx ny nx' ny' : ℕ) (run run' : Except PyErr Result × List Report) : Prop :=
  run'.1 = run.1 ∧ List.Forall₂ (ReportCarried σ 0 nx ny nx' ny') run.2 run'.2

end CM.Spec
