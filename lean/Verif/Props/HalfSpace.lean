import Verif.Lemmas.HalfSpace
import Verif.Spec.Contact
/-!
# Properties of the two-dimensional periodic half-space (C01-C05, C07-C09, C13-C16)
-/
set_option linter.unusedSimpArgs false
namespace CM.HS
open Finset Complex CM.FFT CM.Fourier CM.Spec
open scoped ComplexConjugate

variable {a : Args} {s : HalfSpace} {nx ny : ℕ}

/-! ## C13: constructor -/

lemma greensBlock2_ok {m : Mat} {sx sy : ℝ} (hy : ny ≠ 0) :
    (∃ G, greensBlock2 m nx ny sx sy (0, 0) (nx / 2 + 1, ny) = .ok G) ↔
      (m.thickness = none → m.q0 = none → 1 < nx ∧ 1 < ny) := by
  have hnf : ¬ (nx / 2 + 1) * ny = 0 := by
    intro h; rcases Nat.mul_eq_zero.mp h with h | h <;> omega
  unfold greensBlock2 stiffnessBlock2
  rw [if_neg hnf, if_pos rfl]
  cases ht : m.thickness with
  | some h =>
    simp only [bind, Except.bind, pure, Except.pure]
    refine ⟨fun _ h => by simp at h, fun _ => ?_⟩
    split_ifs <;> exact ⟨_, rfl⟩
  | none =>
    cases hq : m.q0 with
    | none =>
      simp only [forall_const]
      by_cases hc : nx / 2 + 1 ≤ 1 ∨ ny ≤ 1
      · rw [if_pos hc]
        constructor
        · rintro ⟨G, hG⟩; cases hG
        · intro h; omega
      · rw [if_neg hc]
        simp only [bind, Except.bind, pure, Except.pure]
        rw [if_neg (by simp)]
        exact ⟨fun _ => by omega, fun _ => ⟨_, rfl⟩⟩
    | some q =>
      simp only [bind, Except.bind, pure, Except.pure]
      refine ⟨fun _ _ h => by simp at h, fun _ => ?_⟩
      by_cases hq0 : q = 0
      · simp [hq0]
      · simp [hq0]

lemma greensBlock1_ok {m : Mat} {sx : ℝ} :
    (∃ G, greensBlock1 m nx sx 0 (nx / 2 + 1) = .ok G) ↔
      m.q0 ≠ some 0 ∧ (m.q0 = none → 1 < nx) := by
  unfold greensBlock1
  rw [if_neg (by omega)]
  cases hq : m.q0 with
  | none =>
    simp only
    by_cases hc : nx / 2 + 1 ≤ 1
    · rw [if_pos hc]
      constructor
      · rintro ⟨G, hG⟩; cases hG
      · rintro ⟨_, h⟩; have := h trivial; omega
    · rw [if_neg hc]
      exact ⟨fun _ => ⟨by simp, fun _ => by omega⟩, fun _ => ⟨_, rfl⟩⟩
  | some q =>
    simp only
    by_cases hq0 : q = 0
    · simp [hq0]
    · simp [hq0]

lemma construct_eq (a : Args) : construct a = (initAttrs a a.nbGridPts).bind fun r =>
    (greensSerial r.2 a.nbGridPts r.1).bind fun G =>
      .ok ⟨a.nbGridPts, a.nbGridPts, r.1, stepsOf r.1 a.nbGridPts, r.2, G, invertGreens G⟩ := rfl

/-- **C13** (success): the constructor succeeds exactly for one- or two-dimensional grids without a
zero entry, at most one of `stiffness_q0`/`thickness`, a non-empty tuple of lengths, `ν ≠ ±1`, a
matching external FFT engine, and -- for the default Gamma stiffness -- at least two points per
direction; one-dimensional substrates must moreover not ask for `stiffness_q0=0.0`. -/
theorem C13_construct_ok_iff (a : Args) : (∃ s, construct a = .ok s) ↔
    (a.nbGridPts.length = 1 ∨ a.nbGridPts.length = 2) ∧ (a.q0 = none ∨ a.thickness = none) ∧
    a.physicalSizes ≠ [] ∧ 0 ∉ a.nbGridPts ∧ 1 - a.poisson ^ 2 ≠ 0 ∧
    (∀ g, a.engineGrid = some g → g = a.nbGridPts) ∧
    (a.nbGridPts.length = 2 → a.thickness = none → a.q0 = none → ∀ n ∈ a.nbGridPts, 1 < n) ∧
    (a.nbGridPts.length = 1 → a.q0 ≠ some 0 ∧ (a.q0 = none → ∀ n ∈ a.nbGridPts, 1 < n)) := by
  rw [construct_eq]
  cases h : initAttrs a a.nbGridPts with
  | error e =>
    constructor
    · rintro ⟨s, hs⟩; cases hs
    · rintro ⟨h1, h2, h3, h4, h5, h6, -, -⟩
      rw [initAttrs_ok.mpr ⟨h1, h2, h3, h4, h5, h6, rfl⟩] at h
      cases h
  | ok r =>
    obtain ⟨h1, h2, h3, h4, h5, h6, hr⟩ := initAttrs_ok.mp h
    simp only [Except.bind]
    obtain ⟨sizes, m⟩ := r
    have hm : m = _ := (Prod.mk.inj hr).2
    have hsz : sizes = _ := (Prod.mk.inj hr).1
    have hmt : m.thickness = a.thickness := by rw [hm]
    have hmq : m.q0 = a.q0 := by rw [hm]
    match hgrid : a.nbGridPts, h1 with
    | [nx], _ =>
      rw [hgrid] at hsz
      simp only [List.length_cons, List.length_nil, List.range, List.range.loop, List.map] at hsz
      rw [hsz]
      have := greensBlock1_ok (nx := nx) (m := m) (sx := a.physicalSizes.getD (min 0 (a.physicalSizes.length - 1)) 0)
      rw [hmq] at this
      simp only [greensSerial]
      constructor
      · rintro ⟨s, hs⟩
        suffices hh : _ by
          have := this.mp hh
          exact ⟨.inl rfl, h2, h3, hgrid ▸ h4, h5, hgrid ▸ h6, fun h => by simp at h, fun _ => ⟨this.1, by simpa using this.2⟩⟩
        cases hG : greensBlock1 m nx (a.physicalSizes.getD (min 0 (a.physicalSizes.length - 1)) 0) 0 (nx / 2 + 1) with
        | error e => rw [hG] at hs; cases hs
        | ok G => exact ⟨G, rfl⟩
      · rintro ⟨-, -, -, -, -, -, -, h⟩
        have h := h rfl
        obtain ⟨G, hG⟩ := this.mpr ⟨h.1, by simpa using h.2⟩
        rw [hG]; exact ⟨_, rfl⟩
    | [nx, ny], _ =>
      rw [hgrid] at hsz h4
      have hy : ny ≠ 0 := fun h => h4 (by simp [h])
      simp only [List.length_cons, List.length_nil, List.range, List.range.loop, List.map] at hsz
      rw [hsz]
      have := greensBlock2_ok (nx := nx) (m := m) (sx := a.physicalSizes.getD (min 0 (a.physicalSizes.length - 1)) 0)
        (sy := a.physicalSizes.getD (min 1 (a.physicalSizes.length - 1)) 0) hy
      rw [hmq, hmt] at this
      simp only [greensSerial]
      constructor
      · rintro ⟨s, hs⟩
        suffices hh : _ by
          have := this.mp hh
          exact ⟨.inr rfl, h2, h3, h4, h5, hgrid ▸ h6, fun _ => by simpa using this, fun h => by simp at h⟩
        cases hG : greensBlock2 m nx ny (a.physicalSizes.getD (min 0 (a.physicalSizes.length - 1)) 0)
          (a.physicalSizes.getD (min 1 (a.physicalSizes.length - 1)) 0) (0, 0) (nx / 2 + 1, ny) with
        | error e => rw [hG] at hs; cases hs
        | ok G => exact ⟨G, rfl⟩
      · rintro ⟨-, -, -, -, -, -, h, -⟩
        obtain ⟨G, hG⟩ := this.mpr (by simpa using h rfl)
        rw [hG]; exact ⟨_, rfl⟩

/-- Green's function computation raises nothing but `IndexError`. -/
lemma greens_error {m : Mat} {grid : List ℕ} {sizes : List ℝ} {e : PyErr}
    (hl : (∃ n s, grid = [n] ∧ sizes = [s]) ∨ ∃ n k s t, grid = [n, k] ∧ sizes = [s, t])
    (h : greensSerial m grid sizes = .error e) : e = .indexError := by
  rcases hl with ⟨n, s, rfl, rfl⟩ | ⟨n, k, s, t, rfl, rfl⟩
  · simp only [greensSerial] at h
    cases hG : greensBlock1 m n s 0 (n / 2 + 1) with
    | ok G => rw [hG] at h; cases h
    | error e' =>
      rw [hG] at h
      cases h
      unfold greensBlock1 at hG
      rw [if_neg (by omega)] at hG
      cases hq : m.q0 with
      | none =>
        rw [hq] at hG; simp only at hG
        split_ifs at hG
        · cases hG; rfl
      | some q =>
        rw [hq] at hG; simp only at hG
        split_ifs at hG
        · cases hG; rfl
  · simp only [greensSerial] at h
    cases hG : greensBlock2 m n k s t (0, 0) (n / 2 + 1, k) with
    | ok G => rw [hG] at h; cases h
    | error e' =>
      rw [hG] at h
      cases h
      unfold greensBlock2 at hG
      by_cases h1 : (n / 2 + 1, k).1 * (n / 2 + 1, k).2 = 0
      · rw [if_pos h1] at hG; cases hG
      rw [if_neg h1] at hG
      cases hS : stiffnessBlock2 m n k s t (0, 0) (n / 2 + 1, k) with
      | ok S =>
        rw [hS] at hG; simp only [bind, Except.bind] at hG
        by_cases h2 : m.q0 = some 0
        · simp [h2, pure, Except.pure] at hG
        · simp [h2, pure, Except.pure] at hG
      | error e'' =>
        rw [hS] at hG
        have : e'' = e := by
          simp only [bind, Except.bind] at hG; cases hG; rfl
        subst this
        unfold stiffnessBlock2 at hS
        rw [if_pos rfl] at hS
        cases ht : m.thickness with
        | some h => rw [ht] at hS; cases hS
        | none =>
          rw [ht] at hS
          cases hq : m.q0 with
          | none =>
            rw [hq] at hS; simp only at hS
            split_ifs at hS
            · cases hS; rfl
          | some q =>
            rw [hq] at hS; simp only at hS
            split_ifs at hS

lemma initAttrs_error {dom : List ℕ} {e : PyErr} : initAttrs a dom = .error e ↔
    (¬ (a.nbGridPts.length = 1 ∨ a.nbGridPts.length = 2) ∧ e = .error) ∨
    ((a.nbGridPts.length = 1 ∨ a.nbGridPts.length = 2) ∧
      ((a.q0 ≠ none ∧ a.thickness ≠ none) ∧ e = .error ∨
       ¬ (a.q0 ≠ none ∧ a.thickness ≠ none) ∧
        (a.physicalSizes = [] ∧ e = .indexError ∨
         a.physicalSizes ≠ [] ∧
          ((0 ∈ a.nbGridPts ∨ 1 - a.poisson ^ 2 = 0) ∧ e = .zeroDivision ∨
           ¬ (0 ∈ a.nbGridPts ∨ 1 - a.poisson ^ 2 = 0) ∧
            (∃ g, a.engineGrid = some g ∧ g ≠ dom) ∧ e = .error)))) := by
  unfold initAttrs expandSizes
  by_cases h1 : a.nbGridPts.length ≠ 1 ∧ a.nbGridPts.length ≠ 2
  · have : ¬ (a.nbGridPts.length = 1 ∨ a.nbGridPts.length = 2) := by omega
    simp [h1, this, throw, throwThe, MonadExceptOf.throw, bind, Except.bind, eq_comm]
  have h1' : a.nbGridPts.length = 1 ∨ a.nbGridPts.length = 2 := by omega
  by_cases h2 : a.q0 ≠ none ∧ a.thickness ≠ none
  · simp [h1, h1', h2, throw, throwThe, MonadExceptOf.throw, bind, Except.bind, pure, Except.pure, eq_comm]
  have hpos : 0 < a.nbGridPts.length := by omega
  simp only [h1, h1', h2, throw, throwThe, MonadExceptOf.throw, bind, Except.bind, pure, Except.pure,
    if_false, not_true_eq_false, false_and, not_false_eq_true, true_and, false_or]
  by_cases h3 : a.physicalSizes = []
  · simp [h3, hpos, eq_comm]
  by_cases h4 : 0 ∈ a.nbGridPts
  · simp [h3, h4, eq_comm]
  by_cases h5 : 1 - a.poisson ^ 2 = 0
  · simp [h3, h4, h5, eq_comm]
  cases h6 : a.engineGrid with
  | none => simp [h3, h4, h5]
  | some g =>
    by_cases h7 : g = dom
    · simp [h3, h4, h5, h7]
    · simp [h3, h4, h5, h7, eq_comm (a := PyErr.error)]

lemma construct_error_cases {e : PyErr} : construct a = .error e ↔
    initAttrs a a.nbGridPts = .error e ∨
      (e = .indexError ∧ (∃ r, initAttrs a a.nbGridPts = .ok r) ∧ ¬ ∃ s, construct a = .ok s) := by
  rw [construct_eq]
  cases h : initAttrs a a.nbGridPts with
  | error e' => simp [Except.bind]
  | ok r =>
    obtain ⟨h1, -, -, -, -, -, hr⟩ := initAttrs_ok.mp h
    simp only [Except.bind]
    cases hG : greensSerial r.2 a.nbGridPts r.1 with
    | ok G => simp
    | error e' =>
      have : e' = .indexError := by
        refine greens_error ?_ hG
        match hgrid : a.nbGridPts, h1 with
        | [n], _ => left; rw [hgrid] at hr; exact ⟨n, _, rfl, by rw [hr]; rfl⟩
        | [n, k], _ => right; rw [hgrid] at hr; exact ⟨n, k, _, _, rfl, by rw [hr]; rfl⟩
      subst this
      simp [eq_comm]

/-- **C13** (`Error`): raised exactly for a wrong dimension, for `stiffness_q0` together with
`thickness`, or -- all attributes being computable -- for a mismatching external FFT engine. -/
theorem C13_construct_error_iff (a : Args) : construct a = .error .error ↔
    ¬ (a.nbGridPts.length = 1 ∨ a.nbGridPts.length = 2) ∨ (a.q0 ≠ none ∧ a.thickness ≠ none) ∨
    (a.physicalSizes ≠ [] ∧ 0 ∉ a.nbGridPts ∧ 1 - a.poisson ^ 2 ≠ 0 ∧
      ∃ g, a.engineGrid = some g ∧ g ≠ a.nbGridPts) := by
  rw [construct_error_cases, initAttrs_error]
  simp only [reduceCtorEq, and_false, false_or, and_true, false_and, or_false]
  tauto

/-- **C13** (`ZeroDivisionError`): for accepted dimension and options, raised exactly when a grid
size is zero -- or the Poisson number is `±1`, which the documentation does not mention. -/
theorem C13_construct_zeroDivision_iff (a : Args) : construct a = .error .zeroDivision ↔
    (a.nbGridPts.length = 1 ∨ a.nbGridPts.length = 2) ∧ ¬ (a.q0 ≠ none ∧ a.thickness ≠ none) ∧
    a.physicalSizes ≠ [] ∧ (0 ∈ a.nbGridPts ∨ 1 - a.poisson ^ 2 = 0) := by
  rw [construct_error_cases, initAttrs_error]
  simp only [reduceCtorEq, and_false, false_or, and_true, false_and, or_false]

/-- **C13** (attributes): on success every direction has its own length, the last one given being
repeated, and its own grid spacing. -/
theorem C13_construct_sizes {n : ℕ} (hs : construct a = .ok s) (hn : a.nbGridPts.length = n) :
    s.nbGridPts = a.nbGridPts ∧ s.physicalSizes.length = n ∧ s.steps.length = n ∧
    (∀ i, i < n → s.physicalSizes[i]? = some (size a i)) ∧
    (∀ i, i < n → s.steps[i]? = some (size a i / (a.nbGridPts.getD i 0 : ℕ))) := by
  rw [construct_eq] at hs
  cases h : initAttrs a a.nbGridPts with
  | error e => rw [h] at hs; cases hs
  | ok r =>
    obtain ⟨h1, -, h3, -, -, -, hr⟩ := initAttrs_ok.mp h
    rw [h] at hs
    simp only [Except.bind] at hs
    cases hG : greensSerial r.2 a.nbGridPts r.1 with
    | error e => rw [hG] at hs; cases hs
    | ok G =>
      rw [hG] at hs
      cases hs
      have hsz : r.1 = (List.range n).map (size a) := by
        rw [hr, ← hn]
        exact List.map_congr_left fun i _ => size_eq a i h3
      simp only [hsz, stepsOf]
      refine ⟨trivial, by simp, by simp [hn], ?_, ?_⟩
      · intro i hi; simp [hi]
      · intro i hi
        rw [List.getElem?_zipWith]
        have hl : i < a.nbGridPts.length := by omega
        rw [List.getElem?_map, List.getElem?_range hi, List.getElem?_eq_getElem hl,
          List.getD_eq_getElem?_getD, List.getElem?_eq_getElem hl]
        rfl

end CM.HS
