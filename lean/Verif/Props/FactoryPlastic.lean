import Verif.Model.FactoryPlastic
import Verif.Props.Factory
import Verif.Props.Plastic
/-!
# C222: plastic systems of the factory respect the hardness
-/
namespace CM.Factory
open CM.FFT CM.HS CM.System CM.Spec

/-- A solver that keeps its forces below the hardness it is given. -/
def _root_.CM.Spec.RespectsHardness (solver : ℝ → Except PyErr OptResult) : Prop :=
  ∀ H r, solver H = .ok r → ∀ x, validIndex r.jac.shape x → r.jac.get x ≤ H

/-- A system built by the factory: the pressure `force / area per point of the substrate` of a result is at most the hardness times the
quotient of the area of the surface and the area of the substrate. -/
lemma pressure_le {P : PSys} (hP : PlasticState P) {solver : ℝ → Except PyErr OptResult} (hs : RespectsHardness solver)
    (hfit : ∀ r, solver (P.hardness * P.areaPerPt) = .ok r → FitsTopo P.sys.sub.topo r) (ha : 0 < P.sys.sub.hs.areaPerPt) {r : OptResult}
    (hr : (plasticMinimizeProxy P solver).1 = .ok r) :
    ∀ x, validIndex r.jac.shape x → r.jac.get x / P.sys.sub.hs.areaPerPt ≤ P.hardness * P.areaPerPt / P.sys.sub.hs.areaPerPt := by
  intro x hx
  have := (C58_plastic_update P hP solver hfit).2.2.2.2.2.1 r hr
  exact div_le_div_of_nonneg_right (hs _ r this x hx) ha.le

/-- What the factory returns. -/
lemma made {heights : NdArray ℝ} {known : List ℝ} {isPeriodic : Bool} {nx ny : ℕ} {sx sy E : ℝ} (hT : heights.shape = [nx, ny]) (hx : 1 < nx)
    (hy : 1 < ny) (hsx : 0 < sx) (hsy : 0 < sy) (hE : 0 < E) {sizes : Option (List ℝ)} (hs : Sizes sizes (some known) [sx, sy]) (hardness : ℝ) :
    ∃ P, makePlasticSystem heights known isPeriodic hardness .none sizes { young := some E } = .ok P ∧ P.hardness = hardness ∧
      P.areaPerPt = known.prod / (nx * ny : ℕ) ∧ P.sys.sub.hs.areaPerPt = sx * sy / (nx * ny : ℕ) ∧ P.sys.sub.topo = [nx, ny] ∧
      P.sys.sub.free = !isPeriodic ∧ P.sys.sub.checkFlag = false ∧ PlasticState P := by
  obtain ⟨S, h, m, hh⟩ := C100_chooses ⟨heights, some known, isPeriodic⟩ hT hx hy hsx hsy hE hs (!isPeriodic) (.inl ⟨rfl, by simp⟩)
  have hk := C100_keywords ⟨heights, some known, isPeriodic⟩ hs { young := some E } (!isPeriodic) (.inl ⟨rfl, by simp⟩) h
  have ht : S.sub.topo = [nx, ny] := by
    have := m.grid
    have := m.domain
    have := m.kind
    unfold Substrate.topo
    simp_all
  refine ⟨⟨S, heights, ⟨heights.shape, fun _ => 0⟩, hardness, known.prod / (heights.shape.prod : ℕ)⟩, ?_, rfl, ?_, ?_, ht, m.kind, ?_, ?_⟩
  · unfold makePlasticSystem
    rw [h]; rfl
  · rw [hT]; simp
  · show S.sub.hs.areaPerPt = _
    rw [HalfSpace.areaPerPt, m.sizes, m.grid]; simp
  · cases isPeriodic
    · exact (hk.2.2.2 rfl).2.2.2
    · exact (hk.2.2.1 rfl).2.2.2.2
  · refine ⟨?_, ?_, ?_, fun x _ => ?_⟩
    · show S.heights.shape = _; rw [hh, ht, hT]
    · show heights.shape = _; rw [ht, hT]
    · show heights.shape = _; rw [ht, hT]
    · show S.heights.get x = _; rw [hh]; simp

/-- **C222** A plastic system that `make_plastic_system` builds for a surface, with the physical sizes of the surface: with a solver that
keeps its forces below the hardness given to it as a force, no pressure of a result exceeds the hardness of the surface. -/
theorem C222_hardness {heights : NdArray ℝ} {isPeriodic : Bool} {nx ny : ℕ} {sx sy E : ℝ} (hT : heights.shape = [nx, ny]) (hx : 1 < nx)
    (hy : 1 < ny) (hsx : 0 < sx) (hsy : 0 < sy) (hE : 0 < E) {sizes : Option (List ℝ)} (hs : sizes = none ∨ sizes = some [sx, sy]) (hardness : ℝ) :
    ∃ P, makePlasticSystem heights [sx, sy] isPeriodic hardness .none sizes { young := some E } = .ok P ∧
      ∀ solver, RespectsHardness solver → (∀ r, solver (P.hardness * P.areaPerPt) = .ok r → FitsTopo [nx, ny] r) →
        ∀ r, (plasticMinimizeProxy P solver).1 = .ok r →
          ∀ x, validIndex r.jac.shape x → r.jac.get x / P.sys.sub.hs.areaPerPt ≤ hardness := by
  have hs' : Sizes sizes (some [sx, sy]) [sx, sy] := by rcases hs with rfl | rfl; exacts [.inr ⟨rfl, rfl⟩, .inl rfl]
  obtain ⟨P, h1, h2, h3, h4, h5, -, -, h6⟩ := made (isPeriodic := isPeriodic) hT hx hy hsx hsy hE hs' hardness
  refine ⟨P, h1, fun solver hsol hfit r hr x hxx => ?_⟩
  have hN : (0 : ℝ) < (nx * ny : ℕ) := by exact_mod_cast Nat.mul_pos (by omega) (by omega)
  have ha : 0 < P.sys.sub.hs.areaPerPt := by rw [h4]; positivity
  have := pressure_le h6 hsol (by rw [h5]; exact hfit) ha hr x hxx
  refine this.trans_eq ?_
  rw [h2, h3, h4]
  simp only [List.prod_cons, List.prod_nil, mul_one]
  field_simp

/-- **C222** REFUTED when `physical_sizes` is given as well: it changes the substrate but not the surface, from which the hardness is
converted to a force.  With sizes whose product is smaller than the area of the surface there is a solver that keeps its forces below the
hardness it is given, and a successful result with a pressure above the hardness, by the quotient of the two areas. -/
theorem C222_physical_sizes_partial {heights : NdArray ℝ} {nx ny : ℕ} {sx sy tx ty E : ℝ} (hT : heights.shape = [nx, ny]) (hx : 1 < nx)
    (hy : 1 < ny) (htx : 0 < tx) (hty : 0 < ty) (hE : 0 < E) (hlt : tx * ty < sx * sy) {hardness : ℝ} (hH : 0 < hardness) :
    ∃ P, makePlasticSystem heights [sx, sy] true hardness .none (some [tx, ty]) { young := some E } = .ok P ∧
      ∃ solver r, RespectsHardness solver ∧ (plasticMinimizeProxy P solver).1 = .ok r ∧ r.success = true ∧ r.jac.shape = [nx, ny] ∧
        ∀ x, validIndex r.jac.shape x → r.jac.get x / P.sys.sub.hs.areaPerPt = hardness * (sx * sy / (tx * ty)) ∧
          hardness < r.jac.get x / P.sys.sub.hs.areaPerPt := by
  obtain ⟨P, h1, h2, h3, h4, h5, h7, h8, h6⟩ := made (known := [sx, sy]) (isPeriodic := true) hT hx hy htx hty hE (.inl rfl) hardness
  have hN : (0 : ℝ) < (nx * ny : ℕ) := by exact_mod_cast Nat.mul_pos (by omega) (by omega)
  let f : ℝ → OptResult := fun H => ⟨true, ⟨[nx, ny], fun _ => 0⟩, ⟨[nx, ny], fun _ => H⟩, 0, ⟨[nx, ny], fun _ => true⟩, ⟨[nx, ny], fun _ => true⟩⟩
  have hp : hardness * ((sx * sy) / (nx * ny : ℕ)) / (tx * ty / (nx * ny : ℕ)) = hardness * (sx * sy / (tx * ty)) := by field_simp
  have hq : hardness < hardness * (sx * sy / (tx * ty)) := by
    have : 1 < sx * sy / (tx * ty) := by rw [one_lt_div (by positivity)]; exact hlt
    nlinarith
  refine ⟨P, h1, fun H => .ok (f H), f (P.hardness * P.areaPerPt), ?_, ?_, rfl, rfl, fun x _ => ?_⟩
  · intro H r h x _
    cases h
    exact le_rfl
  · refine C58_plastic_returns P h6 _ rfl ?_ ?_
    · rw [h5]
      exact ⟨.cons le_rfl (.cons le_rfl .nil), rfl⟩
    · unfold Substrate.check
      rw [if_neg (by rw [h7]; simp)]
  · have e : (f (P.hardness * P.areaPerPt)).jac.get x / P.sys.sub.hs.areaPerPt = hardness * (sx * sy / (tx * ty)) := by
      show P.hardness * P.areaPerPt / _ = _
      rw [h2, h3, h4, ← hp]
      simp
    exact ⟨e, by rw [e]; exact hq⟩

/-- A 3 × 4 surface of size 2 × 2 with hardness 1, once with its own sizes and once on a substrate of size 1 × 1, where a pressure of 4 occurs. -/
example : (∃ P, makePlasticSystem ⟨[3, 4], fun _ => 0⟩ [2, 2] false 1 .none none { young := some 1 } = .ok P) ∧
    ∃ P solver r, makePlasticSystem ⟨[3, 4], fun _ => 0⟩ [2, 2] true 1 .none (some [1, 1]) { young := some 1 } = .ok P ∧
      RespectsHardness solver ∧ (plasticMinimizeProxy P solver).1 = .ok r ∧ r.jac.get [1, 2] / P.sys.sub.hs.areaPerPt = 4 := by
  refine ⟨?_, ?_⟩
  · obtain ⟨P, h, -⟩ := C222_hardness (heights := ⟨[3, 4], fun _ => 0⟩) (isPeriodic := false) (sx := 2) (sy := 2) (E := 1) rfl (by norm_num)
      (by norm_num) (by norm_num) (by norm_num) (by norm_num) (.inl rfl) 1
    exact ⟨P, h⟩
  · obtain ⟨P, h, s, r, h1, h2, -, h3, h4⟩ := C222_physical_sizes_partial (heights := ⟨[3, 4], fun _ => 0⟩) (sx := 2) (sy := 2) (tx := 1) (ty := 1)
      (E := 1) (hardness := 1) rfl (by norm_num) (by norm_num) (by norm_num) (by norm_num) (by norm_num) (by norm_num) (by norm_num)
    refine ⟨P, s, r, h, h1, h2, ?_⟩
    rw [(h4 [1, 2] (by rw [h3]; simp [validIndex])).1]
    norm_num

end CM.Factory
