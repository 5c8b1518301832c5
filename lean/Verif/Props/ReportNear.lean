import Verif.Props.Indentation
import Verif.Props.LineWestergaard
/-!
# Reports of `contact_mechanics` as approximate solutions (C199, C200)
-/
namespace CM.Disc
open CM.Ref CM.Spec CM.HS CM.FFT CM.System CM.Pipe

variable {nx ny : ℕ} {sx sy : ℝ} {T : Topo}

/-- The fields of a report that satisfy the contact conditions within a tolerance. -/
lemma report_near (hT : ValidTopo T nx ny sx sy) {rms : NdArray ℝ → ℝ} {bisect : Bisect} {A : PipeArgs} (hel : ∀ H, A.hardness = some H → H ≤ 0) {out : Except PyErr Result} {reps : List Report}
    (h : contactMechanicsCCG T rms bisect A = (out, reps)) {rep : Report} (hrep : rep ∈ reps) {τ : ℝ} (hp : ∀ x, 0 ≤ field nx ny rep.pressure x)
    (hpen : ∀ x, wall T nx ny rep.meanDisplacement x - field nx ny rep.displacement x ≤ τ) (hgap : ∀ x, field nx ny rep.pressure x ≠ 0 → field nx ny rep.gap x ≤ τ) :
    NearContact T A.substrate nx ny sx sy rep.meanDisplacement τ (field nx ny rep.pressure) (field nx ny rep.displacement) ∧ rep.meanPressure = avg (field nx ny rep.pressure) := by
  obtain ⟨sub, hs⟩ := made_of_report h hrep
  obtain ⟨r1, r2, r3⟩ := report_state hT hel h hrep hs
  refine ⟨⟨⟨sub, hs, r1⟩, hp, hpen, fun x hx => ?_⟩, r3⟩
  have := hgap x hx
  rw [r2] at this
  exact (le_max_right _ _).trans this

lemma NearContact.weaken {k : Option String} {o τ τ' : ℝ} {p u : Fin nx × Fin ny → ℝ} (n : NearContact T k nx ny sx sy o τ p u) (h : τ ≤ τ') : NearContact T k nx ny sx sy o τ' p u :=
  ⟨n.response, n.noTension, fun x => (n.penetration x).trans h, fun x hx => (n.gap x hx).trans h⟩

/-- Seen from a neighbouring offset. -/
lemma NearContact.at_offset {k : Option String} {o d τ δ : ℝ} {p u : Fin nx × Fin ny → ℝ} (n : NearContact T k nx ny sx sy o τ p u) (h : |o - d| ≤ δ) : NearContact T k nx ny sx sy d (τ + δ) p u := by
  obtain ⟨h1, h2⟩ := abs_le.1 h
  refine ⟨n.response, n.noTension, fun x => ?_, fun x hx => ?_⟩
  · have := n.penetration x
    unfold wall at this ⊢
    linarith
  · have := n.gap x hx
    unfold wall at this ⊢
    linarith

end CM.Disc
