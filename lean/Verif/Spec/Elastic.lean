import Mathlib.Analysis.Complex.Basic
import Mathlib.Analysis.Calculus.Deriv.Basic
import Mathlib.LinearAlgebra.Matrix.Notation
/-!
# Specification: elastic waves under a free surface

The solid fills `z ≤ 0`.  A displacement field `u(x, y, z) = w(z) exp(i (qx x + qy y))` is given by its amplitude `w` and the derivatives of the amplitude.
Nothing here refers to the code.
-/
namespace CM.Elastic

/-- Divergence of the field (over the phase factor). -/
noncomputable def div (qx qy : ℝ) (w w' : Fin 3 → ℂ) : ℂ := Complex.I * qx * w 0 + Complex.I * qy * w 1 + w' 2

/-- Gradient of the divergence. -/
noncomputable def gradDiv (qx qy : ℝ) (w w' w'' : Fin 3 → ℂ) : Fin 3 → ℂ :=
  ![Complex.I * qx * div qx qy w w', Complex.I * qy * div qx qy w w', div qx qy w' w'']

/-- Navier's equation for the Lamé constants `lam` and `mu`: `mu Δu + (lam + mu) grad div u = 0`. -/
def Navier (lam mu qx qy : ℝ) (w w' w'' : Fin 3 → ℂ) : Prop :=
  ∀ i, (mu : ℂ) * (w'' i - ((qx ^ 2 + qy ^ 2 : ℝ) : ℂ) * w i) + ((lam + mu : ℝ) : ℂ) * gradDiv qx qy w w' w'' i = 0

/-- Hooke's law on planes with normal `z`: the components `xz`, `yz`, `zz` of the stress. -/
noncomputable def stress (lam mu qx qy : ℝ) (w w' : Fin 3 → ℂ) : Fin 3 → ℂ :=
  ![(mu : ℂ) * (w' 0 + Complex.I * qx * w 2), (mu : ℂ) * (w' 1 + Complex.I * qy * w 2), (lam : ℂ) * div qx qy w w' + 2 * (mu : ℂ) * w' 2]

/-- `w` is the amplitude of a wave in equilibrium, loaded by the traction `t` at the surface, whose displacements and strains die out with depth. -/
def Solution (lam mu qx qy : ℝ) (t : Fin 3 → ℂ) (w : ℝ → Fin 3 → ℂ) : Prop :=
  ∃ w' w'' : ℝ → Fin 3 → ℂ, (∀ z i, HasDerivAt (fun z => w z i) (w' z i) z) ∧ (∀ z i, HasDerivAt (fun z => w' z i) (w'' z i) z)
    ∧ (∀ z, Navier lam mu qx qy (w z) (w' z) (w'' z)) ∧ stress lam mu qx qy (w 0) (w' 0) = t
    ∧ (∀ i, Filter.Tendsto (fun z => w z i) Filter.atBot (nhds 0)) ∧ ∀ i, Filter.Tendsto (fun z => w' z i) Filter.atBot (nhds 0)

/-! ## Crystals -/

/-- Displacement gradient `∂_k u_l`. -/
noncomputable def grad (qx qy : ℝ) (w w' : Fin 3 → ℂ) (k l : Fin 3) : ℂ := ![Complex.I * qx * w l, Complex.I * qy * w l, w' l] k

/-- Hooke's law with the elasticity tensor `C`: the stress `C_ijkl ∂_k u_l`. -/
noncomputable def hooke (C : Fin 3 → Fin 3 → Fin 3 → Fin 3 → ℝ) (qx qy : ℝ) (w w' : Fin 3 → ℂ) (i j : Fin 3) : ℂ := ∑ k, ∑ l, (C i j k l : ℂ) * grad qx qy w w' k l

/-- Equilibrium: the divergence of the stress vanishes. -/
def Cauchy (C : Fin 3 → Fin 3 → Fin 3 → Fin 3 → ℝ) (qx qy : ℝ) (w w' w'' : Fin 3 → ℂ) : Prop :=
  ∀ i, Complex.I * qx * hooke C qx qy w w' i 0 + Complex.I * qy * hooke C qx qy w w' i 1 + hooke C qx qy w' w'' i 2 = 0

/-- A crystal that fills the half-space `z ≤ 0`, in equilibrium, with the traction `t` at the surface; displacements and strains die out with depth. -/
def CrystalSolution (C : Fin 3 → Fin 3 → Fin 3 → Fin 3 → ℝ) (qx qy : ℝ) (t : Fin 3 → ℂ) (w : ℝ → Fin 3 → ℂ) : Prop :=
  ∃ w' w'' : ℝ → Fin 3 → ℂ, (∀ z i, HasDerivAt (fun z => w z i) (w' z i) z) ∧ (∀ z i, HasDerivAt (fun z => w' z i) (w'' z i) z)
    ∧ (∀ z, Cauchy C qx qy (w z) (w' z) (w'' z)) ∧ (∀ i, hooke C qx qy (w 0) (w' 0) i 2 = t i)
    ∧ (∀ i, Filter.Tendsto (fun z => w z i) Filter.atBot (nhds 0)) ∧ ∀ i, Filter.Tendsto (fun z => w' z i) Filter.atBot (nhds 0)

/-- A layer of thickness `h` that is bonded to a rigid base, in equilibrium, with the traction `t` at the surface. -/
def LayerSolution (C : Fin 3 → Fin 3 → Fin 3 → Fin 3 → ℝ) (qx qy h : ℝ) (t : Fin 3 → ℂ) (w : ℝ → Fin 3 → ℂ) : Prop :=
  ∃ w' w'' : ℝ → Fin 3 → ℂ, (∀ z i, HasDerivAt (fun z => w z i) (w' z i) z) ∧ (∀ z i, HasDerivAt (fun z => w' z i) (w'' z i) z)
    ∧ (∀ z, Cauchy C qx qy (w z) (w' z) (w'' z)) ∧ (∀ i, hooke C qx qy (w 0) (w' 0) i 2 = t i) ∧ w (-h) = 0

end CM.Elastic
