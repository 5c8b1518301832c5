import Mathlib.Data.Fintype.BigOperators
import Mathlib.Algebra.Order.Field.Basic
/-!
# Specification vocabulary for contact problems

Independent of the solver model: what an elastic substrate, the elastic energy and the contact
problem are.
-/
namespace CM.Spec
open Finset

section
variable {ι K : Type} [Fintype ι] [Field K] [LinearOrder K]

/-- Work of the force field `a` on the displacement field `b`. -/
def dot (a b : ι → K) : K := ∑ i, a i * b i

/-- `D` maps forces to displacements like an elastic substrate with the package's sign convention
(forces on the substrate are negative when compressive, they displace in the positive direction):
linear, reciprocal, and every non-zero force does strictly negative work. -/
structure ElasticResponse (D : (ι → K) → (ι → K)) : Prop where
  add : ∀ f g i, D (fun j => f j + g j) i = D f i + D g i
  smul : ∀ (c : K) f i, D (fun j => c * f j) i = c * D f i
  symm : ∀ f g, dot f (D g) = dot g (D f)
  posdef : ∀ f, (∃ i, f i ≠ 0) → dot f (D f) < 0

/-- The same, only for forces on the points `S` (a nonperiodic substrate is elastic for forces on the topography: displacements in
the padding region are those of another problem). -/
structure ElasticOn (S : ι → Bool) (D : (ι → K) → (ι → K)) : Prop where
  add : ∀ f g i, D (fun j => f j + g j) i = D f i + D g i
  smul : ∀ (c : K) f i, D (fun j => c * f j) i = c * D f i
  symm : ∀ f g, (∀ i, S i = false → f i = 0) → (∀ i, S i = false → g i = 0) → dot f (D g) = dot g (D f)
  posdef : ∀ f, (∀ i, S i = false → f i = 0) → (∃ i, f i ≠ 0) → dot f (D f) < 0

theorem ElasticResponse.on {D : (ι → K) → (ι → K)} (h : ElasticResponse D) (S : ι → Bool) : ElasticOn S D :=
  ⟨h.add, h.smul, fun f g _ _ => h.symm f g, fun f _ hf => h.posdef f hf⟩

theorem ElasticOn.mono {S S' : ι → Bool} {D : (ι → K) → (ι → K)} (h : ElasticOn S D) (hS : ∀ i, S' i = true → S i = true) : ElasticOn S' D := by
  have e : ∀ i, S i = false → S' i = false := fun i hi => by
    cases h' : S' i with
    | false => rfl
    | true => rw [hS i h'] at hi; exact hi
  exact ⟨h.add, h.smul, fun f g hf hg => h.symm f g (fun i hi => hf i (e i hi)) fun i hi => hg i (e i hi),
    fun f hf hn => h.posdef f (fun i hi => hf i (e i hi)) hn⟩

/-- Elastic energy stored when the pressures `p ≥ 0` act, `½ p·u(p)`. -/
def elasticEnergyOfPressure (D : (ι → K) → (ι → K)) (p : ι → K) : K :=
  dot p (D fun i => -(p i)) / 2

/-- The dual (complementary) energy `½ p·u(p) - p·b` of pressures `p` pressed by the rigid
surface `b = h + offset`. -/
def dualEnergy (D : (ι → K) → (ι → K)) (b : ι → K) (p : ι → K) : K :=
  elasticEnergyOfPressure D p - dot p b

/-- Elastic energy of the displacement field `v`: minus half the work of the substrate forces. -/
def elasticEnergy (force : (ι → K) → (ι → K)) (v : ι → K) : K := -(dot (force v) v) / 2

end
end CM.Spec
