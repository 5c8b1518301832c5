import Verif.Model.Tools
import Verif.Lemmas.Array
import Verif.Lemmas.HalfSpectrum
import Mathlib.Analysis.Calculus.Deriv.Basic
import Mathlib.Analysis.Calculus.Deriv.Slope
import Mathlib.Analysis.Real.Pi.Bounds
/-!
# Small tools (C96-C99)
-/
namespace CM.Tools
open Finset CM.FFT CM.HS CM.Fourier Filter Topology

lemma ofFlat_flat {α : Type} {s : List ℕ} (v : ℕ → α) {k : ℕ} (hk : k < s.prod) : (ofFlat s v).flat k = v k := by
  show v (flatIndex s (unflatIndex s k)) = v k
  rw [flat_unflat hk]

lemma stored_false (x : ℝ) : stored false x = x := rfl

lemma shifted_flat (ints : Bool) (x : NdArray ℝ) (i : ℕ) (d : ℝ) {k : ℕ} (hk : k < x.size) :
    (shifted ints x i d).flat k = if k = i then stored ints (x.flat k + d) else x.flat k := ofFlat_flat _ hk

/-! ## Central differences -/

/-- A quadratic function of the entries of an array with `N` entries. -/
def quadratic (N : ℕ) (c : ℝ) (b : ℕ → ℝ) (A : ℕ → ℕ → ℝ) (x : NdArray ℝ) : ℝ :=
  c + ∑ k ∈ range N, b k * x.flat k + ∑ k ∈ range N, ∑ l ∈ range N, A k l * x.flat k * x.flat l

/-- C96: for float arrays of any shape the central difference returns the gradient
`b_i + Σ_l (A_il + A_li) x_l` of every quadratic function, whatever the step. -/
theorem C96_quadratic (x : NdArray ℝ) (c : ℝ) (b : ℕ → ℝ) (A : ℕ → ℕ → ℝ) {delta : ℝ} (hd : delta ≠ 0) :
    (evaluateGradient false (quadratic x.size c b A) x delta).shape = x.shape ∧
    ∀ i < x.size, (evaluateGradient false (quadratic x.size c b A) x delta).flat i
      = b i + ∑ l ∈ range x.size, (A i l + A l i) * x.flat l := by
  refine ⟨rfl, fun i hi => ?_⟩
  have key : ∀ d : ℝ, quadratic x.size c b A (shifted false x i d) = quadratic x.size c b A x
      + d * (b i + ∑ l ∈ range x.size, (A i l + A l i) * x.flat l) + d ^ 2 * A i i := by
    intro d
    have hm : i ∈ range x.size := mem_range.mpr hi
    have hs : ∀ k ∈ range x.size, (shifted false x i d).flat k = x.flat k + if k = i then d else 0 := by
      intro k hk
      rw [shifted_flat _ _ _ _ (mem_range.mp hk), stored_false]
      split_ifs <;> ring
    have h1 : ∑ k ∈ range x.size, b k * (shifted false x i d).flat k
        = ∑ k ∈ range x.size, b k * x.flat k + d * b i := by
      rw [sum_congr rfl fun k hk => by rw [hs k hk, mul_add]]
      rw [sum_add_distrib]
      simp [hm, mul_comm]
    have h2 : ∑ k ∈ range x.size, ∑ l ∈ range x.size, A k l * (shifted false x i d).flat k * (shifted false x i d).flat l
        = ∑ k ∈ range x.size, ∑ l ∈ range x.size, A k l * x.flat k * x.flat l
          + d * ∑ l ∈ range x.size, (A i l + A l i) * x.flat l + d ^ 2 * A i i := by
      have : ∀ k ∈ range x.size, ∑ l ∈ range x.size, A k l * (shifted false x i d).flat k * (shifted false x i d).flat l
          = ∑ l ∈ range x.size, A k l * x.flat k * x.flat l + A k i * x.flat k * d
            + (if k = i then d * ∑ l ∈ range x.size, A k l * x.flat l + d ^ 2 * A k i else 0) := by
        intro k hk
        rw [sum_congr rfl fun l hl => by
          rw [hs k hk, hs l hl, show A k l * (x.flat k + if k = i then d else 0) * (x.flat l + if l = i then d else 0)
            = A k l * x.flat k * x.flat l + (if l = i then A k l * x.flat k * d else 0)
              + ((if k = i then d * (A k l * x.flat l) else 0) + if l = i then (if k = i then d ^ 2 * A k l else 0) else 0) by
            split_ifs <;> ring]]
        simp only [sum_add_distrib, sum_ite_eq', hm, if_true]
        split_ifs <;> simp [mul_sum]
      rw [sum_congr rfl this]
      simp only [sum_add_distrib, sum_ite_eq', hm, if_true, add_mul]
      rw [← sum_mul]
      ring
    unfold quadratic
    rw [h1, h2]; ring
  unfold evaluateGradient
  rw [ofFlat_flat _ hi, stored_false, key, key]
  field_simp
  ring

/-- C96: for every function with a partial derivative `D` at `x` in the direction of entry `i`, the
returned entry tends to `D` as the step tends to zero. -/
theorem C96_limit (x : NdArray ℝ) (f : NdArray ℝ → ℝ) (i : ℕ) (hi : i < x.size) (D : ℝ)
    (hD : HasDerivAt (fun t => f (shifted false x i t)) D 0) :
    Tendsto (fun delta => (evaluateGradient false f x delta).flat i) (𝓝[≠] 0) (𝓝 D) := by
  have h := hD.tendsto_slope_zero
  simp only [zero_add, smul_eq_mul] at h
  have hp : Tendsto (fun d : ℝ => 0.5 * d) (𝓝[≠] 0) (𝓝[≠] 0) := by
    refine tendsto_nhdsWithin_iff.mpr ⟨?_, ?_⟩
    · have : Tendsto (fun d : ℝ => 0.5 * d) (𝓝 0) (𝓝 (0.5 * 0)) := (continuous_const.mul continuous_id).tendsto 0
      rw [mul_zero] at this
      exact this.mono_left nhdsWithin_le_nhds
    · filter_upwards [self_mem_nhdsWithin] with d hd
      have : d ≠ 0 := hd
      simp [this]; norm_num
  have hn : Tendsto (fun d : ℝ => -(0.5 * d)) (𝓝[≠] 0) (𝓝[≠] 0) := by
    refine tendsto_nhdsWithin_iff.mpr ⟨?_, ?_⟩
    · have := ((tendsto_nhdsWithin_iff.mp hp).1).neg
      rwa [neg_zero] at this
    · filter_upwards [(tendsto_nhdsWithin_iff.mp hp).2] with d hd
      have : 0.5 * d ≠ 0 := hd
      simpa using this
  have hs := ((h.comp hp).add (h.comp hn)).div_const 2
  have e : (D + D) / 2 = D := by ring
  rw [e] at hs
  refine hs.congr' ?_
  filter_upwards [self_mem_nhdsWithin] with d hd
  have hd' : d ≠ 0 := hd
  unfold evaluateGradient
  rw [ofFlat_flat _ hi, stored_false]
  simp only [Function.comp]
  have : (0.5 : ℝ) = 1 / 2 := by norm_num
  rw [this]
  field_simp
  ring

/-- A concrete case of `C96_limit`: the product of two entries, which is differentiable. -/
example : HasDerivAt (fun t => quadratic 2 0 (fun _ => 0) (fun k l => if k = 0 ∧ l = 1 then 1 else 0)
    (shifted false ⟨[2], fun y => (y.getD 0 0 : ℝ) + 3⟩ 0 t)) 4 0 := by
  have h : (fun t : ℝ => quadratic 2 0 (fun _ => 0) (fun k l => if k = 0 ∧ l = 1 then 1 else 0)
    (shifted false ⟨[2], fun y => (y.getD 0 0 : ℝ) + 3⟩ 0 t)) = fun t => (3 + t) * 4 := by
    funext t
    norm_num [quadratic, sum_range_succ, shifted, ofFlat, NdArray.flat, unflatIndex, flatIndex, stored]
  rw [h]
  have := ((hasDerivAt_id (0 : ℝ)).const_add 3).mul_const 4
  simpa using this

/-- REFUTED for integer points: for every integer array with positive entries and every step
`0 < delta <= 1/2` the returned gradient of the *linear* function "sum of the entries" is at least 2 in
every entry (its gradient is 1). -/
theorem C96_integers_partial (x : NdArray ℝ) (hx : ∀ k < x.size, ∃ n : ℤ, 1 ≤ n ∧ x.flat k = n) {delta : ℝ}
    (hd : 0 < delta) (hd' : delta ≤ 1 / 2) (i : ℕ) (hi : i < x.size) :
    2 ≤ (evaluateGradient true (fun y => y.sum) x delta).flat i := by
  obtain ⟨n, hn, hxi⟩ := hx i hi
  have hsize : ∀ d, (shifted true x i d).size = x.size := fun _ => rfl
  have hfl : ∀ d, (shifted true x i d).sum = ∑ k ∈ range x.size, (if k = i then stored true (x.flat k + d) else x.flat k) := by
    intro d
    rw [NdArray.sum_flat, hsize]
    exact sum_congr rfl fun k hk => shifted_flat _ _ _ _ (mem_range.mp hk)
  have hplus : stored true (x.flat i + 0.5 * delta) = n := by
    rw [hxi]
    have h0 : (0 : ℝ) ≤ n + 0.5 * delta := by
      have : (1 : ℝ) ≤ n := by exact_mod_cast hn
      linarith
    unfold stored
    simp only [if_true, h0]
    have : ⌊(n : ℝ) + 0.5 * delta⌋ = n := by
      rw [Int.floor_eq_iff]; constructor <;> linarith
    rw [this]
  have hminus : stored true (x.flat i + -(0.5 * delta)) = n - 1 := by
    rw [hxi]
    have h1 : (1 : ℝ) ≤ n := by exact_mod_cast hn
    have h0 : (0 : ℝ) ≤ n + -(0.5 * delta) := by linarith
    unfold stored
    simp only [if_true, h0]
    have : ⌊(n : ℝ) + -(0.5 * delta)⌋ = n - 1 := by
      rw [Int.floor_eq_iff]; push_cast; constructor <;> linarith
    rw [this]; push_cast; rfl
  have hdiff : (shifted true x i (0.5 * delta)).sum - (shifted true x i (-(0.5 * delta))).sum = 1 := by
    rw [hfl, hfl, ← sum_sub_distrib]
    rw [sum_eq_single_of_mem i (mem_range.mpr hi)]
    · simp only [if_true, hplus, hminus]; ring
    · intro k _ hk; simp [hk]
  unfold evaluateGradient
  rw [ofFlat_flat _ hi]
  beta_reduce
  rw [hdiff]
  have h2 : (2 : ℝ) ≤ 1 / delta := by rw [le_div_iff₀ hd]; linarith
  unfold stored
  have h0 : (0 : ℝ) ≤ 1 / delta := by positivity
  simp only [if_true, h0]
  have : (2 : ℤ) ≤ ⌊1 / delta⌋ := Int.le_floor.mpr (by exact_mod_cast h2)
  exact_mod_cast this

/-- REFUTED for integer points: at entries equal to zero the returned gradient of the sum is 0. -/
theorem C96_integers_zero_partial (x : NdArray ℝ) {delta : ℝ} (hd : 0 < delta) (hd' : delta ≤ 1 / 2) (i : ℕ) (hi : i < x.size)
    (hxi : x.flat i = 0) : (evaluateGradient true (fun y => y.sum) x delta).flat i = 0 := by
  have hsize : ∀ d, (shifted true x i d).size = x.size := fun _ => rfl
  have hfl : ∀ d, (shifted true x i d).sum = ∑ k ∈ range x.size, (if k = i then stored true (x.flat k + d) else x.flat k) := by
    intro d
    rw [NdArray.sum_flat, hsize]
    exact sum_congr rfl fun k hk => shifted_flat _ _ _ _ (mem_range.mp hk)
  have hplus : stored true (x.flat i + 0.5 * delta) = 0 := by
    rw [hxi]
    have h0 : (0 : ℝ) ≤ 0 + 0.5 * delta := by linarith
    unfold stored
    simp only [if_true, h0]
    have : ⌊(0 : ℝ) + 0.5 * delta⌋ = 0 := by rw [Int.floor_eq_iff]; constructor <;> norm_num <;> linarith
    rw [this]; simp
  have hminus : stored true (x.flat i + -(0.5 * delta)) = 0 := by
    rw [hxi]
    have h0 : ¬ (0 : ℝ) ≤ 0 + -(0.5 * delta) := by linarith
    unfold stored
    simp only [if_true, h0, if_false]
    have : ⌈(0 : ℝ) + -(0.5 * delta)⌉ = 0 := by rw [Int.ceil_eq_iff]; constructor <;> norm_num <;> linarith
    rw [this]; simp
  have hdiff : (shifted true x i (0.5 * delta)).sum - (shifted true x i (-(0.5 * delta))).sum = 0 := by
    rw [hfl, hfl, ← sum_sub_distrib]
    rw [sum_eq_single_of_mem i (mem_range.mpr hi)]
    · simp only [if_true, hplus, hminus]; ring
    · intro k _ hk; simp [hk]
  unfold evaluateGradient
  rw [ofFlat_flat _ hi]
  beta_reduce
  rw [hdiff]
  simp [stored]

example : ∃ x : NdArray ℝ, 0 < x.size ∧ ∀ k < x.size, ∃ n : ℤ, 1 ≤ n ∧ x.flat k = n :=
  ⟨⟨[2, 3], fun _ => 5⟩, by decide, fun _ _ => ⟨5, by norm_num, by simp [NdArray.flat]⟩⟩

/-! ## Fourier transforms -/

lemma cis_add (n : ℕ) (a b : ℤ) : cis n (a + b) = cis n a * cis n b := by
  unfold cis
  rw [← Complex.exp_add]; congr 1; push_cast; ring

/-- Orthogonality on `range n`. -/
lemma cis_orth {n : ℕ} (hn : n ≠ 0) {x y : ℕ} (hx : x < n) (hy : y < n) :
    ∑ k ∈ range n, cis n (1 * (k * x)) * cis n (-1 * (k * y)) = if x = y then (n : ℂ) else 0 := by
  have : NeZero n := ⟨hn⟩
  have h := (pairZ n).orth ((x : ZMod n) - y)
  rw [sum_zmod] at h
  have e : ((x : ZMod n) - y = 0) ↔ x = y := by
    rw [sub_eq_zero, ZMod.natCast_eq_natCast_iff' , Nat.mod_eq_of_lt hx, Nat.mod_eq_of_lt hy]
  rw [ZMod.card] at h
  simp only [e] at h
  rw [← h]
  refine sum_congr rfl fun k _ => ?_
  rw [← cis_add, show (1 * ((k : ℤ) * x) + -1 * (k * y)) = (k : ℤ) * ((x : ℤ) - y) by ring, cis_char]
  push_cast; rfl


lemma phase_symm (sg : ℤ) : ∀ s k x : List ℕ, phase sg s k x = phase sg s x k
  | [], _, _ => by simp [phase]
  | _ :: _, [], [] => by simp [phase]
  | _ :: _, [], _ :: _ => by simp [phase]
  | _ :: _, _ :: _, [] => by simp [phase]
  | n :: ns, k :: ks, x :: xs => by
    simp only [phase]
    rw [phase_symm sg ns ks xs, mul_comm (k : ℤ) x]

lemma sumShape_mul_left : ∀ (s : List ℕ) (c : ℂ) (f : List ℕ → ℂ), sumShape s (fun x => c * f x) = c * sumShape s f
  | [], _, _ => rfl
  | n :: ns, c, f => by
    simp only [sumShape, mul_sum]
    exact sum_congr rfl fun i _ => sumShape_mul_left ns c _

/-- Orthogonality in any number of dimensions. -/
lemma phase_orth : ∀ {s x y : List ℕ}, 0 ∉ s → validIndex s x → validIndex s y →
    sumShape s (fun k => phase 1 s k x * phase (-1) s k y) = if x = y then ((s.prod : ℕ) : ℂ) else 0
  | [], _, _, _, hx, hy => by
    cases hx; cases hy
    simp [sumShape, phase]
  | n :: ns, [], _, _, hx, _ => by cases hx
  | n :: ns, _ :: _, [], _, _, hy => by cases hy
  | n :: ns, i :: xs, j :: ys, h0, hx, hy => by
    obtain ⟨hi, hxs⟩ : i < n ∧ validIndex ns xs := by cases hx with | cons h t => exact ⟨h, t⟩
    obtain ⟨hj, hys⟩ : j < n ∧ validIndex ns ys := by cases hy with | cons h t => exact ⟨h, t⟩
    have hn : n ≠ 0 := fun h => h0 (by simp [h])
    have hns : 0 ∉ ns := fun h => h0 (by simp [h])
    simp only [sumShape]
    have step : ∀ k ∈ range n, (sumShape ns fun l => phase 1 (n :: ns) (k :: l) (i :: xs) * phase (-1) (n :: ns) (k :: l) (j :: ys))
        = (cis n (1 * (k * i)) * cis n (-1 * (k * j))) * if xs = ys then ((ns.prod : ℕ) : ℂ) else 0 := by
      intro k _
      rw [show (fun l => phase 1 (n :: ns) (k :: l) (i :: xs) * phase (-1) (n :: ns) (k :: l) (j :: ys))
          = fun l => (cis n (1 * (k * i)) * cis n (-1 * (k * j))) * (phase 1 ns l xs * phase (-1) ns l ys) by
        funext l; simp only [phase]; ring]
      rw [sumShape_mul_left, phase_orth hns hxs hys]
    rw [sum_congr rfl step]
    rw [← sum_mul, cis_orth hn hi hj]
    by_cases h1 : i = j <;> by_cases h2 : xs = ys <;> simp [h1, h2]

lemma sumShape_comm (s t : List ℕ) (F : List ℕ → List ℕ → ℂ) :
    sumShape s (fun x => sumShape t fun y => F x y) = sumShape t fun y => sumShape s fun x => F x y := by
  simp only [sumShape_flat]
  exact sum_comm

lemma sumShape_delta (s : List ℕ) (f : List ℕ → ℂ) {y : List ℕ} (hy : validIndex s y) :
    sumShape s (fun x => if y = x then f x else 0) = f y := by
  rw [sumShape_flat, sum_eq_single_of_mem (flatIndex s y) (mem_range.mpr (flatIndex_lt hy))]
  · rw [unflat_flat hy]; simp
  · intro k hk hne
    rw [if_neg]
    intro h
    apply hne
    rw [h, flat_unflat (mem_range.mp hk)]

lemma sum_double {s : List ℕ} (a : List ℕ → ℂ) {y : List ℕ} (hy : validIndex s y) (P Q : List ℕ → List ℕ → ℂ)
    (hPQ : ∀ x, validIndex s x → sumShape s (fun k => P k y * Q k x) = if y = x then ((s.prod : ℕ) : ℂ) else 0) :
    sumShape s (fun k => sumShape s (fun x => a x * Q k x) * P k y) = (s.prod : ℕ) * a y := by
  have h1 : ∀ k, sumShape s (fun x => a x * Q k x) * P k y = sumShape s fun x => a x * (P k y * Q k x) := by
    intro k
    rw [mul_comm, ← sumShape_mul_left]
    congr 1; funext x; ring
  simp only [h1]
  rw [sumShape_comm]
  rw [sumShape_congr (g := fun x => if y = x then a x * ((s.prod : ℕ) : ℂ) else 0)]
  · rw [sumShape_delta s (fun x => a x * ((s.prod : ℕ) : ℂ)) hy, mul_comm]
  · intro x hx
    rw [sumShape_mul_left, hPQ x hx]
    split_ifs <;> simp

lemma prod_ne {s : List ℕ} (h0 : 0 ∉ s) : ((s.prod : ℕ) : ℂ) ≠ 0 := by
  simpa [List.prod_eq_zero_iff] using h0

lemma fftn_eq (a : NdArray ℂ) (I : ℝ) (h0 : 0 ∉ a.shape) : fftn a I = .ok ⟨a.shape, fun k =>
    ((I / (a.shape.prod : ℕ) : ℝ) : ℂ) * sumShape a.shape fun x => a.get x * phase (-1) a.shape k x⟩ := by
  unfold fftn npFftn; rw [if_neg h0]; rfl

lemma ifftn_eq (a : NdArray ℂ) (I : ℝ) (h0 : 0 ∉ a.shape) : ifftn a I = .ok ⟨a.shape, fun x =>
    (((a.shape.prod : ℕ) / I : ℝ) : ℂ) * ((sumShape a.shape fun k => a.get k * phase 1 a.shape k x) / (a.shape.prod : ℕ))⟩ := by
  unfold ifftn npIfftn; rw [if_neg h0]; rfl

/-- C97: `ifftn` undoes `fftn` for every array of every shape without empty axes and every `integral ≠ 0`;
neither raises. -/
theorem C97_inverse (a : NdArray ℂ) {I : ℝ} (hI : I ≠ 0) (h0 : 0 ∉ a.shape) : ∃ b c, fftn a I = .ok b ∧
    ifftn b I = .ok c ∧ b.shape = a.shape ∧ c.shape = a.shape ∧ ∀ x, validIndex a.shape x → c.get x = a.get x := by
  refine ⟨_, _, fftn_eq a I h0, ifftn_eq _ I h0,
    rfl, rfl, fun x hx => ?_⟩
  have hp := prod_ne h0
  have hIc : (I : ℂ) ≠ 0 := by exact_mod_cast hI
  dsimp only
  rw [show (fun k => ((I / (a.shape.prod : ℕ) : ℝ) : ℂ) * sumShape a.shape (fun x => a.get x * phase (-1) a.shape k x)
        * phase 1 a.shape k x)
      = fun k => ((I / (a.shape.prod : ℕ) : ℝ) : ℂ) * (sumShape a.shape (fun x => a.get x * phase (-1) a.shape k x)
        * phase 1 a.shape k x) by funext k; ring]
  rw [sumShape_mul_left, sum_double a.get hx (fun k y => phase 1 a.shape k y) (fun k y => phase (-1) a.shape k y)
    (fun y hy => phase_orth h0 hx hy)]
  generalize a.shape.prod = N at *
  push_cast
  field_simp

/-- C97, the other way round. -/
theorem C97_inverse' (a : NdArray ℂ) {I : ℝ} (hI : I ≠ 0) (h0 : 0 ∉ a.shape) : ∃ b c, ifftn a I = .ok b ∧
    fftn b I = .ok c ∧ b.shape = a.shape ∧ c.shape = a.shape ∧ ∀ x, validIndex a.shape x → c.get x = a.get x := by
  refine ⟨_, _, ifftn_eq a I h0, fftn_eq _ I h0,
    rfl, rfl, fun x hx => ?_⟩
  have hp := prod_ne h0
  have hIc : (I : ℂ) ≠ 0 := by exact_mod_cast hI
  dsimp only
  rw [show (fun k => (((a.shape.prod : ℕ) / I : ℝ) : ℂ) * (sumShape a.shape (fun x => a.get x * phase 1 a.shape x k)
        / (a.shape.prod : ℕ)) * phase (-1) a.shape x k)
      = fun k => (1 / (I : ℂ)) * (sumShape a.shape (fun x => a.get x * phase 1 a.shape x k)
        * phase (-1) a.shape k x) by
    funext k; rw [phase_symm (-1) _ x k]; generalize a.shape.prod = N at *; push_cast; field_simp]
  rw [sumShape_mul_left, sum_double a.get hx (fun k y => phase (-1) a.shape k y) (fun k y => phase 1 a.shape y k)]
  · generalize a.shape.prod = N at *; push_cast; field_simp
  · intro y hy
    have := phase_orth h0 hy hx
    rw [show (fun k => phase (-1) a.shape k x * phase 1 a.shape y k)
      = fun k => phase 1 a.shape k y * phase (-1) a.shape k x by
      funext k; rw [phase_symm 1 _ y k, mul_comm]]
    rw [this]
    simp [eq_comm]

lemma phase_zero (sg : ℤ) : ∀ s x : List ℕ, phase sg s (s.map fun _ => 0) x = 1
  | [], _ => by simp [phase]
  | _ :: _, [] => by simp [phase]
  | n :: ns, x :: xs => by
    simp only [phase, List.map_cons]
    rw [phase_zero sg ns xs]
    simp [cis]

/-- C97, the convention: the entry of `fftn(a, I)` at wavevector zero is `I` times the mean of the array
(the integral of the field over a domain of measure `I`). -/
theorem C97_mean (a : NdArray ℂ) (I : ℝ) (h0 : 0 ∉ a.shape) : ∃ b, fftn a I = .ok b ∧
    b.get (a.shape.map fun _ => 0) = I * (sumShape a.shape a.get / (a.shape.prod : ℕ)) := by
  refine ⟨_, fftn_eq a I h0, ?_⟩
  simp only [phase_zero, mul_one]
  generalize a.shape.prod = N at *
  push_cast; ring

/-- C97: an array with an empty axis is refused by both. -/
theorem C97_empty (a : NdArray ℂ) (I : ℝ) (h0 : 0 ∈ a.shape) :
    fftn a I = .error .valueError ∧ ifftn a I = .error .valueError := by
  constructor
  · unfold fftn npFftn; rw [if_pos h0]; rfl
  · unfold ifftn npIfftn; rw [if_pos h0]; rfl

/-! ## `mean_err` -/

lemma slicedShape_max : ∀ s t : List ℕ, slicedShape s (List.zipWith max s t) = s
  | [], t => by simp [slicedShape]
  | n :: s, [] => by simp [slicedShape]
  | n :: s, m :: t => by
    have ih := slicedShape_max s t
    unfold slicedShape at ih ⊢
    simp only [List.zipWith_cons_cons, List.length_cons, List.drop_succ_cons, List.cons_append, ih]
    congr 1; omega

lemma slicedShape_max' (s t : List ℕ) : slicedShape t (List.zipWith max s t) = t := by
  have := slicedShape_max t s
  rwa [show List.zipWith max t s = List.zipWith max s t from List.zipWith_comm_of_comm (fun a b => max_comm a b)] at this

/-- Mean absolute difference of two arrays of shape `s`. -/
noncomputable def meanAbs (s : List ℕ) (a b : NdArray ℝ) : ℝ :=
  sumShape s (fun x => |a.get x - b.get x|) / (s.prod : ℕ)

/-- C98: `mean_err` raises for every two arrays of different shapes (also different numbers of axes); for equal
shapes it is the mean absolute difference, and `nan` without entries. -/
theorem C98_value (a b : NdArray ℝ) : meanErr a b false =
    if a.shape ≠ b.shape then .error .exception
    else if a.shape.prod = 0 then .ok none else .ok (some (meanAbs a.shape a b)) := by
  unfold meanErr stops
  simp only [Bool.false_eq_true, if_false, slicedShape_max, slicedShape_max', meanAbs]

lemma sumShape_nonneg : ∀ (s : List ℕ) (f : List ℕ → ℝ), (∀ x, 0 ≤ f x) → 0 ≤ sumShape s f
  | [], _, h => h []
  | _ :: ns, _, h => sum_nonneg fun _ _ => sumShape_nonneg ns _ fun _ => h _

/-- C98: on arrays of one shape the value is a metric: nonnegative, zero exactly for equal arrays,
symmetric, and the triangle inequality holds. -/
theorem C98_metric {s : List ℕ} (hs : s.prod ≠ 0) (a b c : NdArray ℝ) (ha : a.shape = s) (hb : b.shape = s)
    (hc : c.shape = s) : ∃ ab ba bc ac, meanErr a b false = .ok (some ab) ∧ meanErr b a false = .ok (some ba) ∧
    meanErr b c false = .ok (some bc) ∧ meanErr a c false = .ok (some ac) ∧
    0 ≤ ab ∧ ab = ba ∧ ac ≤ ab + bc ∧ (ab = 0 ↔ ∀ x, validIndex s x → a.get x = b.get x) := by
  have hpos : (0 : ℝ) < (s.prod : ℕ) := by exact_mod_cast Nat.pos_of_ne_zero hs
  refine ⟨meanAbs s a b, meanAbs s b a, meanAbs s b c, meanAbs s a c, ?_, ?_, ?_, ?_, ?_, ?_, ?_, ?_⟩
  · rw [C98_value]; simp [ha, hb, hs]
  · rw [C98_value]; simp [ha, hb, hs]
  · rw [C98_value]; simp [hb, hc, hs]
  · rw [C98_value]; simp [ha, hc, hs]
  · exact div_nonneg (sumShape_nonneg _ _ fun _ => abs_nonneg _) hpos.le
  · unfold meanAbs; simp only [abs_sub_comm]
  · unfold meanAbs
    rw [← add_div]
    refine div_le_div_of_nonneg_right ?_ hpos.le
    simp only [sumShape_flat]
    rw [← sum_add_distrib]
    exact sum_le_sum fun k _ => abs_sub_le _ _ _
  · unfold meanAbs
    rw [div_eq_zero_iff, or_iff_left hpos.ne', sumShape_flat, sum_eq_zero_iff_of_nonneg fun _ _ => abs_nonneg _]
    constructor
    · intro h x hx
      have := h (flatIndex s x) (mem_range.mpr (flatIndex_lt hx))
      rw [unflat_flat hx, abs_eq_zero, sub_eq_zero] at this
      exact this
    · intro h k hk
      rw [abs_eq_zero, sub_eq_zero]
      exact h _ (validIndex_unflat (mem_range.mp hk))

example : meanErr ⟨[2, 1], fun _ => 3⟩ ⟨[2, 1], fun _ => 5⟩ false = .ok (some 2) := by
  rw [C98_value]; norm_num [meanAbs, sumShape, sum_range_succ]

lemma zipWith_max_append (a b : ℕ) : ∀ s : List ℕ, List.zipWith max (s ++ [a]) (s ++ [b]) = s ++ [max a b]
  | [] => rfl
  | x :: t => by simp [zipWith_max_append a b t]

lemma slicedShape_append (a c : ℕ) : ∀ s : List ℕ, slicedShape (s ++ [a]) (s ++ [c]) = s ++ [min a c]
  | [] => rfl
  | x :: t => by
    have := slicedShape_append a c t
    unfold slicedShape at this ⊢
    simp only [List.cons_append, List.zipWith_cons_cons, List.length_cons, List.drop_succ_cons, this, min_self]

/-- C98: with `rfft=True` a half spectrum (last axis `n/2+1`) can be compared with a full one (last axis
`n`): the value is zero exactly if they agree on the common part, whatever the rest of the full one. -/
theorem C98_rfft {s : List ℕ} {n : ℕ} (hn : 0 < n) (hs : s.prod ≠ 0) (half full : NdArray ℝ)
    (hh : half.shape = s ++ [n / 2 + 1]) (hf : full.shape = s ++ [n]) :
    ∃ v, meanErr half full true = .ok (some v) ∧ meanErr full half true = .ok (some v) ∧ 0 ≤ v ∧
      (v = 0 ↔ ∀ x, validIndex (s ++ [n / 2 + 1]) x → half.get x = full.get x) := by
  have hm : max (n / 2 + 1) n = n := by omega
  have hm' : max n (n / 2 + 1) = n := by omega
  have h1 : stops half.shape full.shape true = .ok (s ++ [n / 2 + 1]) := by
    unfold stops
    simp [hh, hf, zipWith_max_append, hm]
  have h2 : stops full.shape half.shape true = .ok (s ++ [n / 2 + 1]) := by
    unfold stops
    simp [hh, hf, zipWith_max_append, hm']
  have h3 : slicedShape half.shape (s ++ [n / 2 + 1]) = s ++ [n / 2 + 1] := by
    rw [hh, slicedShape_append, min_self]
  have h4 : slicedShape full.shape (s ++ [n / 2 + 1]) = s ++ [n / 2 + 1] := by
    rw [hf, slicedShape_append, min_eq_right (by omega)]
  have hp : (s ++ [n / 2 + 1]).prod ≠ 0 := by simp [hs]
  have hpos : (0 : ℝ) < ((s ++ [n / 2 + 1]).prod : ℕ) := by exact_mod_cast Nat.pos_of_ne_zero hp
  refine ⟨meanAbs (s ++ [n / 2 + 1]) half full, ?_, ?_, ?_, ?_⟩
  · unfold meanErr
    rw [h1]
    simp only [h3, h4, ne_eq, not_true_eq_false, if_false, hp, meanAbs]
  · unfold meanErr
    rw [h2]
    simp only [h3, h4, ne_eq, not_true_eq_false, if_false, hp, meanAbs, abs_sub_comm]
  · exact div_nonneg (sumShape_nonneg _ _ fun _ => abs_nonneg _) hpos.le
  · unfold meanAbs
    rw [div_eq_zero_iff, or_iff_left hpos.ne', sumShape_flat, sum_eq_zero_iff_of_nonneg fun _ _ => abs_nonneg _]
    constructor
    · intro h x hx
      have := h (flatIndex _ x) (mem_range.mpr (flatIndex_lt hx))
      rw [unflat_flat hx, abs_eq_zero, sub_eq_zero] at this
      exact this
    · intro h k hk
      rw [abs_eq_zero, sub_eq_zero]
      exact h _ (validIndex_unflat (mem_range.mp hk))

/-! ## Wavelengths and wavevectors -/

/-- C99: for `0 < lambda_min <= lambda_max` the result is `(2π/lambda_max, 2π/lambda_min)`, ordered; a zero
`lambda_min` gives infinity; a zero `lambda_max` raises. -/
theorem C99_q_from_lambda {l1 l2 : ℝ} :
    (0 < l1 → l1 ≤ l2 → ∃ q Q : ℝ, getQFromLambda l1 l2 = .ok (q, Q) ∧ 0 < q ∧ q ≤ Q ∧ q * l2 = 2 * Real.pi ∧
      Q * l1 = 2 * Real.pi) ∧
    (0 < l2 → ∃ q : ℝ, getQFromLambda 0 l2 = .ok (q, ⊤) ∧ q * l2 = 2 * Real.pi) ∧
    getQFromLambda l1 0 = .error .zeroDivision := by
  have hpi := Real.pi_pos
  refine ⟨fun h1 h12 => ?_, fun h2 => ?_, ?_⟩
  · have h2 : 0 < l2 := lt_of_lt_of_le h1 h12
    refine ⟨2 * Real.pi / l2, 2 * Real.pi / l1, by simp [getQFromLambda, h1.ne', h2.ne'], by positivity, ?_,
      by field_simp, by field_simp⟩
    exact div_le_div_of_nonneg_left (by positivity) h1 h12
  · exact ⟨2 * Real.pi / l2, by simp [getQFromLambda, h2.ne'], by field_simp⟩
  · simp [getQFromLambda]

/-- C99: shorter waves have larger wavevectors, in both components. -/
theorem C99_antitone {l1 l2 m1 m2 q Q p P : ℝ} (hl : 0 < l1) (hl' : 0 < l2) (h1 : l1 ≤ m1) (h2 : l2 ≤ m2)
    (hL : getQFromLambda l1 l2 = .ok (q, Q)) (hM : getQFromLambda m1 m2 = .ok (p, P)) : p ≤ q ∧ P ≤ Q := by
  have hm : 0 < m1 := lt_of_lt_of_le hl h1
  have hm' : 0 < m2 := lt_of_lt_of_le hl' h2
  have hpi := Real.pi_pos
  simp only [getQFromLambda, hl.ne', hl'.ne', hm.ne', hm'.ne', if_false, Except.ok.injEq, Prod.mk.injEq,
    EReal.coe_eq_coe_iff] at hL hM
  rw [← hL.1, ← hL.2, ← hM.1, ← hM.2]
  exact ⟨div_le_div_of_nonneg_left (by positivity) hl' h2, div_le_div_of_nonneg_left (by positivity) hl h1⟩

/-- Numbers of the waves on a periodic grid of `n` points in the order `0, 1, ..., -2, -1`: entry `k`
is the representative of `k` modulo `n` nearest to zero (negative in a tie). -/
lemma fftfreqInt_spec {n k : ℕ} (hk : k < n) :
    (n : ℤ) ∣ fftfreqInt n k - k ∧ -(n : ℤ) ≤ 2 * fftfreqInt n k ∧ 2 * fftfreqInt n k < n := by
  unfold fftfreqInt
  split_ifs with h
  · refine ⟨by simp, by omega, by omega⟩
  · refine ⟨⟨-1, by ring⟩, by omega, by omega⟩

lemma waveVector_eq {n : ℕ} {L : ℝ} (hn : 0 < n) (hL : L ≠ 0) :
    waveVector n L = .ok ((List.range n).map fun k => 2 * Real.pi * (fftfreqInt n k : ℝ) / L) := by
  have hn' : (n : ℝ) ≠ 0 := by exact_mod_cast hn.ne'
  have e : (n : ℝ) * (L / n) = L := by field_simp
  unfold waveVector
  rw [if_neg hn.ne', e, if_neg hL]
  congr 1
  apply List.map_congr_left
  intro k _
  ring

/-- C99: in `d = 2, 3, ...` dimensions `compute_wavevectors` returns, per direction, the wavevectors
`2πm/L` with `m = 0, 1, ..., -2, -1` the representatives modulo `n` nearest to zero: each of them is a wave
with period `L`, and all grid waves are represented.  Surplus entries of the arguments are ignored. -/
theorem C99_wavevectors {dims : ℕ} (hd : 2 ≤ dims) (ns : List ℕ) (Ls : List ℝ) (hns : dims ≤ ns.length)
    (hLs : dims ≤ Ls.length) (hn : ∀ n ∈ ns, 0 < n) (hL : ∀ L ∈ Ls, 0 < L) :
    ∃ q, computeWavevectors (.seq ns) (.seq Ls) dims = .ok q ∧ q.length = dims ∧
      ∀ d, (h : d < dims) → ∃ v, q[d]? = some v ∧ v.length = ns[d] ∧ ∀ k, (hk : k < ns[d]) → ∃ m : ℤ,
        v[k]? = some (2 * Real.pi * m / Ls[d]) ∧ (ns[d] : ℤ) ∣ m - k ∧ -(ns[d] : ℤ) ≤ 2 * m ∧ 2 * m < ns[d] := by
  have key : ∀ (l : List ℕ), (∀ d ∈ l, d < dims) →
      (l.mapM fun d => match ns[d]?, Ls[d]? with
        | some n, some L => waveVector n L
        | _, _ => (.error .indexError : Except PyErr (List ℝ)))
      = .ok (l.map fun d => (List.range (ns.getD d 0)).map fun k => 2 * Real.pi * (fftfreqInt (ns.getD d 0) k : ℝ) / Ls.getD d 0) := by
    intro l
    induction l with
    | nil => intro _; rfl
    | cons d t ih =>
      intro h
      have hdd := h d (by simp)
      have e1 : ns[d]? = some (ns.getD d 0) := by
        rw [List.getD_eq_getElem?_getD, List.getElem?_eq_getElem (by omega)]; rfl
      have e2 : Ls[d]? = some (Ls.getD d 0) := by
        rw [List.getD_eq_getElem?_getD, List.getElem?_eq_getElem (by omega)]; rfl
      have p1 : 0 < ns.getD d 0 := hn _ (List.mem_of_getElem? e1)
      have p2 : 0 < Ls.getD d 0 := hL _ (List.mem_of_getElem? e2)
      rw [List.mapM_cons, ih fun x hx => h x (by simp [hx])]
      simp only [e1, e2, waveVector_eq p1 p2.ne']
      rfl
  refine ⟨_, by
    unfold computeWavevectors
    rw [if_neg (by omega), if_neg (by omega)]
    exact key (List.range dims) (fun d h => List.mem_range.mp h), by simp, fun d h => ?_⟩
  have g1 : ns.getD d 0 = ns[d] := by
    rw [List.getD_eq_getElem?_getD, List.getElem?_eq_getElem (by omega)]; rfl
  have g2 : Ls.getD d 0 = Ls[d] := by
    rw [List.getD_eq_getElem?_getD, List.getElem?_eq_getElem (by omega)]; rfl
  refine ⟨_, by rw [List.getElem?_map, List.getElem?_range h]; rfl, by beta_reduce; rw [List.length_map, List.length_range, g1], fun k hk => ?_⟩
  refine ⟨fftfreqInt ns[d] k, ?_, fftfreqInt_spec hk⟩
  beta_reduce
  rw [g1, g2, List.getElem?_map, List.getElem?_range hk]
  rfl

/-- C99: one dimension, with numbers as arguments. -/
theorem C99_wavevectors_1d {n : ℕ} {L : ℝ} (hn : 0 < n) (hL : 0 < L) :
    ∃ v, computeWavevectors (.number n) (.number L) 1 = .ok [v] ∧ v.length = n ∧ ∀ k, k < n → ∃ m : ℤ,
        v[k]? = some (2 * Real.pi * m / L) ∧ (n : ℤ) ∣ m - k ∧ -(n : ℤ) ≤ 2 * m ∧ 2 * m < n := by
  refine ⟨_, by unfold computeWavevectors; rw [if_pos rfl]; simp only [waveVector_eq hn hL.ne']; rfl,
    by simp, fun k hk => ?_⟩
  refine ⟨fftfreqInt n k, ?_, fftfreqInt_spec hk⟩
  rw [List.getElem?_map, List.getElem?_range hk]
  rfl

/-- C99: in one dimension only numbers are accepted, `compute_wavevectors((n,), (L,), 1)` raises. -/
theorem C99_sequence_1d (ns : List ℕ) (Ls : List ℝ) :
    computeWavevectors (.seq ns) (.seq Ls) 1 = .error .typeError := by
  simp [computeWavevectors]

end CM.Tools
