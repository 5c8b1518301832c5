import Verif.Props.HalfSpace2
import Verif.Lemmas.ScalarProduct
/-!
# Properties of the two-dimensional periodic half-space: reciprocity, energies (C03-C06, C15)
-/
set_option linter.unusedSimpArgs false
namespace CM.HS
open Finset Complex CM.FFT CM.Fourier CM.Spec
open scoped ComplexConjugate

variable {a : Args} {s : HalfSpace} {nx ny : ℕ}

/-! ## C06 -/

/-- Σ over a block = Σ over the half spectrum of the entries it holds. -/
lemma block_sum (nx ny : ℕ) (b : Block) (F : ℕ → ℕ → ℝ)
    (hb : 0 < b.n0 * b.n1 → b.loc0 + b.n0 ≤ nx / 2 + 1 ∧ b.loc1 + b.n1 ≤ ny) :
    ∑ i ∈ range b.n0, ∑ j ∈ range b.n1, F (b.loc0 + i) (b.loc1 + j)
      = ∑ kx ∈ range (nx / 2 + 1), ∑ ky ∈ range ny, if holds b kx ky then F kx ky else 0 := by
  by_cases h : 0 < b.n0 * b.n1
  · obtain ⟨h1, h2⟩ := hb h
    rw [← sum_product', ← sum_product', ← sum_filter]
    refine Finset.sum_bij' (fun p _ => (b.loc0 + p.1, b.loc1 + p.2))
      (fun p _ => (p.1 - b.loc0, p.2 - b.loc1)) ?_ ?_ ?_ ?_ ?_
    · intro p hp
      simp only [mem_product, mem_range, mem_filter, holds, decide_eq_true_eq] at hp ⊢
      omega
    · intro p hp
      simp only [mem_product, mem_range, mem_filter, holds, decide_eq_true_eq] at hp ⊢
      omega
    · intro p hp; simp
    · intro p hp
      simp only [mem_product, mem_range, mem_filter, holds, decide_eq_true_eq] at hp
      ext <;> simp <;> omega
    · intro p hp; rfl
  · have h0 : b.n0 = 0 ∨ b.n1 = 0 := by
      by_contra hc; push Not at hc
      exact h (Nat.mul_pos (Nat.pos_of_ne_zero hc.1) (Nat.pos_of_ne_zero hc.2))
    have hl : ∑ i ∈ range b.n0, ∑ j ∈ range b.n1, F (b.loc0 + i) (b.loc1 + j) = 0 := by
      rcases h0 with h0 | h0 <;> simp [h0]
    rw [hl]
    symm
    refine sum_eq_zero fun kx _ => sum_eq_zero fun ky _ => ?_
    rw [if_neg]
    simp only [holds, decide_eq_true_eq]
    omega

lemma list_sum_ite (l : List Block) (p : Block → Bool) (c : ℝ) :
    (l.map fun b => if p b then c else 0).sum = (l.filter p).length * c := by
  induction l with
  | nil => simp
  | cons b l ih =>
    rw [List.map_cons, List.sum_cons, ih, List.filter_cons]
    by_cases h : p b <;> simp [h]; ring

/-- Whatever the distribution, the scalar product is the serial one. -/
lemma scalarProduct_distributed (nx ny total : ℕ) (blocks : List Block) (hd : Distributes nx ny blocks)
    (ka kb : ℕ → ℕ → ℂ) :
    scalarProduct nx total blocks ka kb
      = (∑ kx ∈ range (nx / 2 + 1), weight nx kx *
          ∑ ky ∈ range ny, (conj (ka kx ky) * kb kx ky).re) / total := by
  unfold scalarProduct
  have h1 : (blocks.map fun b => scalarProductLocal nx total b
      (fun i j => ka (b.loc0 + i) (b.loc1 + j)) (fun i j => kb (b.loc0 + i) (b.loc1 + j))).sum
      = (blocks.map fun b => (∑ kx ∈ range (nx / 2 + 1), ∑ ky ∈ range ny,
          if holds b kx ky then weight nx kx * (conj (ka kx ky) * kb kx ky).re else 0) / total).sum := by
    congr 1
    refine List.map_congr_left fun b hb => ?_
    rw [scalarProductLocal_eq _ _ _ _ _ (fun h => (hd.inside b hb h).1)]
    congr 1
    rw [← block_sum nx ny b (fun kx ky => weight nx kx * (conj (ka kx ky) * kb kx ky).re) (hd.inside b hb)]
    refine sum_congr rfl fun i _ => ?_
    rw [rowDot, mul_sum]
  rw [h1]
  have h2 : ∀ l : List Block, (l.map fun b => (∑ kx ∈ range (nx / 2 + 1), ∑ ky ∈ range ny,
          if holds b kx ky then weight nx kx * (conj (ka kx ky) * kb kx ky).re else 0) / (total : ℝ)).sum
      = (∑ kx ∈ range (nx / 2 + 1), ∑ ky ∈ range ny, ((l.filter fun b => holds b kx ky).length : ℝ) *
          (weight nx kx * (conj (ka kx ky) * kb kx ky).re)) / total := by
    intro l
    simp only [← list_sum_ite]
    induction l with
    | nil => simp
    | cons b l ih =>
      rw [List.map_cons, List.sum_cons, ih, ← add_div, ← sum_add_distrib]
      congr 1
      refine sum_congr rfl fun kx _ => ?_
      rw [← sum_add_distrib]
      refine sum_congr rfl fun ky _ => ?_
      rw [List.map_cons, List.sum_cons]
  rw [h2]
  congr 1
  refine sum_congr rfl fun kx hkx => ?_
  rw [mul_sum]
  refine sum_congr rfl fun ky hky => ?_
  rw [hd.once kx ky (Nat.lt_succ_iff.mp (mem_range.mp hkx)) (mem_range.mp hky)]
  simp

/-- **C06** The Fourier-space scalar product of two fields equals their real-space scalar product for
every distribution of the half spectrum over processes. -/
theorem C06_scalarProduct_fft (hx : nx ≠ 0) (hy : ny ≠ 0) (blocks : List Block)
    (hd : Distributes nx ny blocks) (f g : NdArray ℝ) :
    scalarProduct nx (nx * ny) blocks
      (fun kx ky => fft [nx, ny] f.get [kx, ky]) (fun kx ky => fft [nx, ny] g.get [kx, ky])
      = work nx ny f g := by
  have : NeZero nx := ⟨hx⟩
  have : NeZero ny := ⟨hy⟩
  rw [scalarProduct_distributed nx ny _ blocks hd]
  simp only [fft]
  rw [parseval2 nx ny (fun i j => f.get [i, j]) (fun i j => g.get [i, j])]
  have : (nx : ℝ) ≠ 0 := by exact_mod_cast hx
  have : (ny : ℝ) ≠ 0 := by exact_mod_cast hy
  push_cast
  unfold work
  field_simp

/-- Four processes, one of them empty and one holding a single row, share a 4×3 grid. -/
example : Distributes 4 3 [⟨0, 1, 0, 3⟩, ⟨1, 2, 0, 2⟩, ⟨1, 2, 2, 1⟩, ⟨7, 0, 0, 3⟩] := by
  constructor
  · simp
  · intro kx ky h1 h2
    have : kx = 0 ∨ kx = 1 ∨ kx = 2 := by omega
    have : ky = 0 ∨ ky = 1 ∨ ky = 2 := by omega
    rcases ‹kx = 0 ∨ _› with rfl | rfl | rfl <;> rcases ‹ky = 0 ∨ _› with rfl | rfl | rfl <;> decide

section
variable (hv : ValidArgs a) (hs : construct a = .ok s) (hg : a.nbGridPts = [nx, ny])

omit hv hs hg in
lemma Per.area_pos [NeZero nx] [NeZero ny] (P : Per a s nx ny) : 0 < s.areaPerPt := by
  rw [P.area]
  have := P.sx_pos; have := P.sy_pos
  have : (0 : ℝ) < nx := by exact_mod_cast Nat.pos_of_ne_zero (NeZero.ne nx)
  have : (0 : ℝ) < ny := by exact_mod_cast Nat.pos_of_ne_zero (NeZero.ne ny)
  positivity

/-- Stiffness spectrum of the substrate. -/
noncomputable def Per.S [NeZero nx] [NeZero ny] (_ : Per a s nx ny) (k : ZMod nx × ZMod ny) : ℝ :=
  fullStiff s.mat nx ny (size a 0) (size a 1) (gammaStiffness a) k

lemma Per.S_neg [NeZero nx] [NeZero ny] (P : Per a s nx ny) (k : ZMod nx × ZMod ny) :
    P.S (-k) = P.S k := fullStiff_neg _ _ _ _ _ _ _

lemma Per.force [NeZero nx] [NeZero ny] (P : Per a s nx ny) {u : NdArray ℝ} (hu : u.shape = [nx, ny]) :
    ∃ f, evaluateForce s u = .ok f ∧ f.shape = [nx, ny] ∧ ∀ x y, f.get [x, y]
      = -((pair2 nx ny).act (fun k => (P.S k : ℂ)) (tor nx ny fun i j => u.get [i, j])
          ((x : ZMod nx), (y : ZMod ny))) * s.areaPerPt := by
  obtain ⟨f, h1, h2, h3⟩ := P.rep.force_ok hu
  refine ⟨f, h1, h2, fun x y => ?_⟩
  rw [h3, (pair2 nx ny).act_congr (T := fun k => (P.S k : ℂ)) (fun k => by simp [Per.S]) (fun _ => rfl)]

lemma Per.disp [NeZero nx] [NeZero ny] (P : Per a s nx ny) {f : NdArray ℝ} (hf : f.shape = [nx, ny]) :
    ∃ u, evaluateDisp s f = .ok u ∧ u.shape = [nx, ny] ∧ ∀ x y, u.get [x, y]
      = -((pair2 nx ny).act (fun k => (((P.S k)⁻¹ : ℝ) : ℂ)) (tor nx ny fun i j => f.get [i, j])
          ((x : ZMod nx), (y : ZMod ny))) / s.areaPerPt := P.rep.disp_ok hf

lemma work_tor [NeZero nx] [NeZero ny] (f u : NdArray ℝ) (F U : ZMod nx × ZMod ny → ℝ)
    (hf : ∀ i j, i < nx → j < ny → f.get [i, j] = F ((i : ZMod nx), (j : ZMod ny)))
    (hu : ∀ i j, i < nx → j < ny → u.get [i, j] = U ((i : ZMod nx), (j : ZMod ny))) :
    work nx ny f u = ∑ p, F p * U p := by
  unfold work
  exact sum_tor (fun p => F p * U p) _ fun i j hi hj => by rw [hf i j hi hj, hu i j hi hj]

/-! ## C03 -/

include hv hs hg in
/-- **C03** Reciprocity of `evaluate_disp`. -/
theorem C03_disp_reciprocal (f g : NdArray ℝ) (hf : f.shape = [nx, ny]) (hg' : g.shape = [nx, ny]) :
    ∃ u v, evaluateDisp s f = .ok u ∧ evaluateDisp s g = .ok v ∧ work nx ny f v = work nx ny g u := by
  obtain ⟨_, _, P⟩ := per_of_construct hv hs hg
  obtain ⟨u, hu, -, hu'⟩ := P.disp hf
  obtain ⟨v, hv', -, hv''⟩ := P.disp hg'
  refine ⟨u, v, hu, hv', ?_⟩
  rw [work_tor f v (tor nx ny fun i j => f.get [i, j]) (fun p => -((pair2 nx ny).act (fun k => (((P.S k)⁻¹ : ℝ) : ℂ)) (tor nx ny fun i j => g.get [i, j]) p) / s.areaPerPt)
      (fun i j hi hj => (tor_cast (fun i j => f.get [i, j]) hi hj).symm) (fun i j _ _ => hv'' i j),
    work_tor g u (tor nx ny fun i j => g.get [i, j]) (fun p => -((pair2 nx ny).act (fun k => (((P.S k)⁻¹ : ℝ) : ℂ)) (tor nx ny fun i j => f.get [i, j]) p) / s.areaPerPt)
      (fun i j hi hj => (tor_cast (fun i j => g.get [i, j]) hi hj).symm) (fun i j _ _ => hu' i j)]
  have h := (pair2 nx ny).recip_of_even ((pair2 nx ny).ker_even (fun k => (P.S k)⁻¹))
    (tor nx ny fun i j => f.get [i, j]) (tor nx ny fun i j => g.get [i, j])
  simp only [mul_div_assoc', mul_neg, ← sum_div, sum_neg_distrib]
  rw [h]

include hv hs hg in
/-- **C03** Reciprocity of `evaluate_force`. -/
theorem C03_force_reciprocal (f g : NdArray ℝ) (hf : f.shape = [nx, ny]) (hg' : g.shape = [nx, ny]) :
    ∃ u v, evaluateForce s f = .ok u ∧ evaluateForce s g = .ok v ∧ work nx ny f v = work nx ny g u := by
  obtain ⟨_, _, P⟩ := per_of_construct hv hs hg
  obtain ⟨u, hu, -, hu'⟩ := P.force hf
  obtain ⟨v, hv', -, hv''⟩ := P.force hg'
  refine ⟨u, v, hu, hv', ?_⟩
  rw [work_tor f v (tor nx ny fun i j => f.get [i, j]) (fun p => -((pair2 nx ny).act (fun k => (P.S k : ℂ)) (tor nx ny fun i j => g.get [i, j]) p) * s.areaPerPt)
      (fun i j hi hj => (tor_cast (fun i j => f.get [i, j]) hi hj).symm) (fun i j _ _ => hv'' i j),
    work_tor g u (tor nx ny fun i j => g.get [i, j]) (fun p => -((pair2 nx ny).act (fun k => (P.S k : ℂ)) (tor nx ny fun i j => f.get [i, j]) p) * s.areaPerPt)
      (fun i j hi hj => (tor_cast (fun i j => g.get [i, j]) hi hj).symm) (fun i j _ _ => hu' i j)]
  have h := (pair2 nx ny).recip_of_even ((pair2 nx ny).ker_even (fun k => P.S k))
    (tor nx ny fun i j => f.get [i, j]) (tor nx ny fun i j => g.get [i, j])
  simp only [← mul_assoc, mul_neg, neg_mul, ← sum_mul, sum_neg_distrib]
  rw [h]

/-! ## C05 and C04: energies -/

/-- Real-space energy as a spectral sum. -/
lemma Per.energy [NeZero nx] [NeZero ny] (P : Per a s nx ny) {u : NdArray ℝ} (hu : u.shape = [nx, ny]) :
    ∃ f, evaluate s u true true = .ok (some (s.areaPerPt / (2 * (nx * ny)) *
        ∑ k, P.S k * normSq ((pair2 nx ny).ft (fun y => (tor nx ny (fun i j => u.get [i, j]) y : ℂ)) k)),
        some f) ∧ evaluateForce s u = .ok f := by
  obtain ⟨f, h1, h2, h3⟩ := P.force hu
  refine ⟨f, ?_, h1⟩
  unfold evaluate
  simp only [if_true, h1, bind, Except.bind, pure, Except.pure]
  congr 3
  unfold evaluateElasticEnergy
  rw [P.rep.dom]
  simp only [sumShape]
  have hw : ∑ i ∈ range nx, ∑ j ∈ range ny, u.get [i, j] * -(f.get [i, j])
      = ∑ p, tor nx ny (fun i j => u.get [i, j]) p *
          ((pair2 nx ny).act (fun k => (P.S k : ℂ)) (tor nx ny fun i j => u.get [i, j]) p) * s.areaPerPt :=
    sum_tor (fun p => tor nx ny (fun i j => u.get [i, j]) p *
          ((pair2 nx ny).act (fun k => (P.S k : ℂ)) (tor nx ny fun i j => u.get [i, j]) p) * s.areaPerPt) _
      fun i j hi hj => by rw [h3, tor_cast _ hi hj]; ring
  rw [hw, ← sum_mul]
  have he := (pair2 nx ny).energy P.S P.S_neg (tor nx ny fun i j => u.get [i, j])
  rw [← he, card_torus]
  have : (nx : ℝ) ≠ 0 := by exact_mod_cast NeZero.ne nx
  have : (ny : ℝ) ≠ 0 := by exact_mod_cast NeZero.ne ny
  push_cast
  field_simp
  norm_num
  ring

/-- Fourier-space energy as a spectral sum. -/
lemma Per.energyK [NeZero nx] [NeZero ny] (P : Per a s nx ny) {u : NdArray ℝ} (hu : u.shape = [nx, ny]) :
    evaluate s u true false = .ok (some (s.areaPerPt / (2 * (nx * ny)) *
        ∑ k, P.S k * normSq ((pair2 nx ny).ft (fun y => (tor nx ny (fun i j => u.get [i, j]) y : ℂ)) k)),
        none) := by
  have hb : bcastOk u.shape s.domain := by
    rw [hu, P.rep.dom]; exact ⟨le_refl _, by simp⟩
  unfold evaluate
  simp only [Bool.false_eq_true, if_false, if_true, hb, pure, Except.pure]
  congr 3
  unfold evaluateElasticEnergyK evaluateKForceK
  rw [P.rep.dom, hu]
  simp only [List.headD_cons, List.prod_cons, List.prod_nil, mul_one, serialBlock, asGrid]
  rw [scalarProduct_serial]
  rw [Fintype.sum_prod_type, fold_zmod nx (fun k => ∑ l, P.S (k, l) *
    normSq ((pair2 nx ny).ft (fun y => (tor nx ny (fun i j => u.get [i, j]) y : ℂ)) (k, l)))]
  · push_cast
    rw [sum_div, mul_sum, mul_sum]
    refine sum_congr rfl fun kx hkx => ?_
    rw [sum_zmod, mul_sum, mul_sum, sum_div, mul_sum, mul_sum]
    refine sum_congr rfl fun ky hky => ?_
    have hst := P.rep.stiffness kx ky (Nat.lt_succ_iff.mp (mem_range.mp hkx)) (mem_range.mp hky)
    rw [hst]
    have hcong : fft [nx, ny] (fun x => u.get (bcastIndex [nx, ny] x)) [kx, ky]
        = (pair2 nx ny).ft (fun y => (tor nx ny (fun i j => u.get [i, j]) y : ℂ)) ((kx : ZMod nx), (ky : ZMod ny)) := by
      simp only [fft]
      rw [rfft2_eq]
      congr 1
      funext p
      congr 1
      unfold tor
      congr 1
      simp only [bcastIndex, List.length_cons, List.length_nil, Nat.sub_self, List.drop_zero,
        List.zipWith_cons_cons, List.zipWith_nil_left]
      have h1 : (if nx = 1 then 0 else p.1.val) = p.1.val := by
        split_ifs with h
        · have := ZMod.val_lt p.1; omega
        · rfl
      have h2 : (if ny = 1 then 0 else p.2.val) = p.2.val := by
        split_ifs with h
        · have := ZMod.val_lt p.2; omega
        · rfl
      rw [h1, h2]
    rw [hcong]
    have hinv : (((fullStiff s.mat nx ny (size a 0) (size a 1) (gammaStiffness a) ((kx : ZMod nx), (ky : ZMod ny)))⁻¹ : ℝ) : ℂ)⁻¹
        = ((P.S ((kx : ZMod nx), (ky : ZMod ny)) : ℝ) : ℂ) := by simp [Per.S]
    rw [hinv]
    generalize (pair2 nx ny).ft (fun y => (tor nx ny (fun i j => u.get [i, j]) y : ℂ)) ((kx : ZMod nx), (ky : ZMod ny)) = z
    have hre : (conj z * (-(P.S ((kx : ZMod nx), (ky : ZMod ny)) : ℂ) * z * s.areaPerPt)).re
        = -(P.S ((kx : ZMod nx), (ky : ZMod ny))) * s.areaPerPt * normSq z := by
      have : conj z * (-(P.S ((kx : ZMod nx), (ky : ZMod ny)) : ℂ) * z * s.areaPerPt)
          = ((-(P.S ((kx : ZMod nx), (ky : ZMod ny))) * s.areaPerPt * normSq z : ℝ) : ℂ) := by
        push_cast; rw [normSq_eq_conj_mul_self]; ring
      rw [this, ofReal_re]
    rw [hre]
    have : (nx : ℝ) ≠ 0 := by exact_mod_cast NeZero.ne nx
    have : (ny : ℝ) ≠ 0 := by exact_mod_cast NeZero.ne ny
    field_simp
    norm_num
    ring
  · intro k
    rw [← Equiv.sum_comp (Equiv.neg (ZMod ny))]
    refine sum_congr rfl fun l _ => ?_
    simp only [Equiv.neg_apply]
    rw [← Prod.neg_mk, P.S_neg, (pair2 nx ny).ft_neg, normSq_conj]

include hv hs hg in
/-- **C05** The energy computed in real space equals the energy computed from the half spectrum,
whatever the parities of the grid. -/
theorem C05_energy_real_eq_fourier (u : NdArray ℝ) (hu : u.shape = [nx, ny]) :
    ∃ e f, evaluate s u true true = .ok (some e, some f) ∧ evaluate s u true false = .ok (some e, none) := by
  obtain ⟨_, _, P⟩ := per_of_construct hv hs hg
  obtain ⟨f, hf, -⟩ := P.energy hu
  exact ⟨_, f, hf, P.energyK hu⟩

include hv hs hg in
/-- **C04** The elastic energy is never negative (for a non-negative Gamma stiffness). -/
theorem C04_energy_nonneg (hγ : 0 ≤ gammaStiffness a) (u : NdArray ℝ) (hu : u.shape = [nx, ny]) :
    ∃ e, evaluate s u true false = .ok (some e, none) ∧ 0 ≤ e := by
  obtain ⟨_, _, P⟩ := per_of_construct hv hs hg
  refine ⟨_, P.energyK hu, ?_⟩
  have hA := P.area_pos
  have hS : ∀ k, 0 ≤ P.S k := by
    intro k
    by_cases h : k = 0
    · subst h; simpa [Per.S, fullStiff] using hγ
    · exact (P.pos k h).le
  exact mul_nonneg (by positivity) (sum_nonneg fun k _ => mul_nonneg (hS k) (normSq_nonneg _))

include hv hs hg in
/-- **C04** For a positive Gamma stiffness only the zero field has zero energy. -/
theorem C04_energy_eq_zero_iff (hγ : 0 < gammaStiffness a) (u : NdArray ℝ) (hu : u.shape = [nx, ny]) :
    evaluate s u true false = .ok (some 0, none) ↔ ∀ i j, i < nx → j < ny → u.get [i, j] = 0 := by
  obtain ⟨_, _, P⟩ := per_of_construct hv hs hg
  rw [P.energyK hu]
  have hA := P.area_pos
  have hnx : (0 : ℝ) < nx := by exact_mod_cast Nat.pos_of_ne_zero (NeZero.ne nx)
  have hny : (0 : ℝ) < ny := by exact_mod_cast Nat.pos_of_ne_zero (NeZero.ne ny)
  have hS : ∀ k, 0 < P.S k := by
    intro k
    by_cases h : k = 0
    · subst h; simpa [Per.S, fullStiff] using hγ
    · exact P.pos k h
  simp only [Except.ok.injEq, Prod.mk.injEq, Option.some.injEq, and_true]
  rw [mul_eq_zero, or_iff_right (by positivity),
    sum_eq_zero_iff_of_nonneg (fun k _ => mul_nonneg (hS k).le (normSq_nonneg _))]
  have h1 : (∀ k ∈ univ, P.S k * normSq ((pair2 nx ny).ft (fun y => (tor nx ny (fun i j => u.get [i, j]) y : ℂ)) k) = 0)
      ↔ ∀ k, (pair2 nx ny).ft (fun y => (tor nx ny (fun i j => u.get [i, j]) y : ℂ)) k = 0 := by
    refine forall_congr' fun k => ?_
    simp [(hS k).ne']
  rw [h1, (pair2 nx ny).ft_eq_zero_iff]
  constructor
  · intro h i j hi hj
    have := h ((i : ZMod nx), (j : ZMod ny))
    rw [tor_cast _ hi hj] at this
    exact_mod_cast this
  · intro h p
    have := h p.1.val p.2.val (ZMod.val_lt _) (ZMod.val_lt _)
    simp [tor, this]

include hv hs hg in
/-- **C04** With `stiffness_q0=0.0` exactly the uniform fields have zero energy. -/
theorem C04_energy_eq_zero_iff_uniform (hγ : a.q0 = some 0) (u : NdArray ℝ) (hu : u.shape = [nx, ny]) :
    evaluate s u true false = .ok (some 0, none) ↔
      ∀ i j i' j', i < nx → j < ny → i' < nx → j' < ny → u.get [i, j] = u.get [i', j'] := by
  have ht : a.thickness = none := by
    obtain ⟨-, h, -⟩ := (C13_construct_ok_iff a).mp ⟨s, hs⟩
    exact h.resolve_left (by rw [hγ]; simp)
  have hγ' : gammaStiffness a = 0 := by rw [gammaStiffness, ht, hγ]
  obtain ⟨_, _, P⟩ := per_of_construct hv hs hg
  rw [P.energyK hu]
  have hA := P.area_pos
  have hnx : (0 : ℝ) < nx := by exact_mod_cast Nat.pos_of_ne_zero (NeZero.ne nx)
  have hny : (0 : ℝ) < ny := by exact_mod_cast Nat.pos_of_ne_zero (NeZero.ne ny)
  have hS0 : P.S 0 = 0 := by simp [Per.S, fullStiff, hγ']
  have hS : ∀ k, k ≠ 0 → 0 < P.S k := fun k h => P.pos k h
  have hS' : ∀ k, 0 ≤ P.S k := by
    intro k
    by_cases h : k = 0
    · subst h; exact hS0.ge
    · exact (hS k h).le
  simp only [Except.ok.injEq, Prod.mk.injEq, Option.some.injEq, and_true]
  rw [mul_eq_zero, or_iff_right (by positivity),
    sum_eq_zero_iff_of_nonneg (fun k _ => mul_nonneg (hS' k) (normSq_nonneg _))]
  constructor
  · intro h i j i' j' hi hj hi' hj'
    have hc := (pair2 nx ny).const_of_ft (fun y => (tor nx ny (fun i j => u.get [i, j]) y : ℂ)) (by
      intro k hk
      have := h k (mem_univ _)
      simpa [(hS k hk).ne'] using this) ((i : ZMod nx), (j : ZMod ny)) ((i' : ZMod nx), (j' : ZMod ny))
    rw [tor_cast _ hi hj, tor_cast _ hi' hj'] at hc
    exact_mod_cast hc
  · intro h k _
    by_cases hk : k = 0
    · subst hk; rw [hS0, zero_mul]
    · have hz : (pair2 nx ny).ft (fun y => (tor nx ny (fun i j => u.get [i, j]) y : ℂ)) k = 0 := by
        have hcst : ∀ y, (tor nx ny (fun i j => u.get [i, j]) y : ℂ) = (u.get [0, 0] : ℂ) := fun y => by
          unfold tor
          beta_reduce
          rw [h _ _ 0 0 (ZMod.val_lt _) (ZMod.val_lt _) (Nat.pos_of_ne_zero (NeZero.ne nx))
            (Nat.pos_of_ne_zero (NeZero.ne ny))]
        unfold Pairing.ft
        simp only [hcst, ← mul_sum]
        have := (pair2 nx ny).orth' k
        rw [if_neg hk, ← Equiv.sum_comp (Equiv.neg _)] at this
        simp only [Equiv.neg_apply] at this
        rw [this, mul_zero]
      rw [hz]; simp

/-! ## C15 -/

include hv hs hg in
/-- **C15** The elastic energy is the quadratic form of the forces: `E(u+v) = E(u) - F(u)·v + E(v)`. -/
theorem C15_energy_gradient (u v : NdArray ℝ) (hu : u.shape = [nx, ny]) (hv' : v.shape = [nx, ny]) :
    ∃ eu ev euv f, evaluate s u true false = .ok (some eu, none) ∧
      evaluate s v true false = .ok (some ev, none) ∧
      evaluate s (lincomb 1 u 1 v) true false = .ok (some euv, none) ∧
      evaluateForce s u = .ok f ∧ euv = eu - work nx ny f v + ev := by
  obtain ⟨_, _, P⟩ := per_of_construct hv hs hg
  obtain ⟨f, hf, -, hf'⟩ := P.force hu
  refine ⟨_, _, _, f, P.energyK hu, P.energyK hv', P.energyK (u := lincomb 1 u 1 v) hu, hf, ?_⟩
  have eu := (pair2 nx ny).energy P.S P.S_neg (tor nx ny fun i j => u.get [i, j])
  have ev := (pair2 nx ny).energy P.S P.S_neg (tor nx ny fun i j => v.get [i, j])
  have euv := (pair2 nx ny).energy P.S P.S_neg (tor nx ny fun i j => (lincomb 1 u 1 v).get [i, j])
  rw [← eu, ← ev, ← euv]
  have hlin : (tor nx ny fun i j => (lincomb 1 u 1 v).get [i, j]) = fun p =>
    1 * tor nx ny (fun i j => u.get [i, j]) p + 1 * tor nx ny (fun i j => v.get [i, j]) p := rfl
  rw [hlin]
  simp only [(pair2 nx ny).act_lin]
  have hr := (pair2 nx ny).recip_of_even ((pair2 nx ny).ker_even P.S)
    (tor nx ny fun i j => u.get [i, j]) (tor nx ny fun i j => v.get [i, j])
  have hw : work nx ny f v = -s.areaPerPt * ∑ p, tor nx ny (fun i j => v.get [i, j]) p *
      (pair2 nx ny).act (fun k => (P.S k : ℂ)) (tor nx ny fun i j => u.get [i, j]) p := by
    rw [work_tor f v (fun p => -((pair2 nx ny).act (fun k => (P.S k : ℂ)) (tor nx ny fun i j => u.get [i, j]) p) * s.areaPerPt) (tor nx ny fun i j => v.get [i, j]) (fun i j _ _ => hf' i j)
      (fun i j hi hj => (tor_cast (fun i j => v.get [i, j]) hi hj).symm), mul_sum]
    refine sum_congr rfl fun p _ => ?_
    ring
  rw [hw, card_torus]
  have hx : (nx : ℝ) ≠ 0 := by exact_mod_cast NeZero.ne nx
  have hy : (ny : ℝ) ≠ 0 := by exact_mod_cast NeZero.ne ny
  have hexp : ∑ x, (1 * tor nx ny (fun i j => u.get [i, j]) x + 1 * tor nx ny (fun i j => v.get [i, j]) x) *
      (1 * (pair2 nx ny).act (fun k => (P.S k : ℂ)) (tor nx ny fun i j => u.get [i, j]) x
        + 1 * (pair2 nx ny).act (fun k => (P.S k : ℂ)) (tor nx ny fun i j => v.get [i, j]) x)
      = ∑ x, tor nx ny (fun i j => u.get [i, j]) x * (pair2 nx ny).act (fun k => (P.S k : ℂ)) (tor nx ny fun i j => u.get [i, j]) x
        + ∑ x, tor nx ny (fun i j => v.get [i, j]) x * (pair2 nx ny).act (fun k => (P.S k : ℂ)) (tor nx ny fun i j => v.get [i, j]) x
        + 2 * ∑ x, tor nx ny (fun i j => v.get [i, j]) x * (pair2 nx ny).act (fun k => (P.S k : ℂ)) (tor nx ny fun i j => u.get [i, j]) x := by
    rw [two_mul]
    nth_rewrite 1 [← hr]
    simp only [← sum_add_distrib]
    exact sum_congr rfl fun x _ => by ring
  rw [hexp]
  push_cast
  field_simp
  ring

include hv hs hg in
/-- **C15** Convexity of the elastic energy along every segment. -/
theorem C15_energy_convex (hγ : 0 ≤ gammaStiffness a) (t : ℝ) (h0 : 0 ≤ t) (h1 : t ≤ 1) (u v : NdArray ℝ)
    (hu : u.shape = [nx, ny]) (hv' : v.shape = [nx, ny]) :
    ∃ eu ev ew, evaluate s u true false = .ok (some eu, none) ∧
      evaluate s v true false = .ok (some ev, none) ∧
      evaluate s (lincomb (1 - t) u t v) true false = .ok (some ew, none) ∧
      ew ≤ (1 - t) * eu + t * ev := by
  obtain ⟨_, _, P⟩ := per_of_construct hv hs hg
  refine ⟨_, _, _, P.energyK hu, P.energyK hv', P.energyK (u := lincomb (1 - t) u t v) hu, ?_⟩
  have hA := P.area_pos
  have hnx : (0 : ℝ) < nx := by exact_mod_cast Nat.pos_of_ne_zero (NeZero.ne nx)
  have hny : (0 : ℝ) < ny := by exact_mod_cast Nat.pos_of_ne_zero (NeZero.ne ny)
  have hS : ∀ k, 0 ≤ P.S k := by
    intro k
    by_cases h : k = 0
    · subst h; simpa [Per.S, fullStiff] using hγ
    · exact (P.pos k h).le
  have hc : 0 ≤ s.areaPerPt / (2 * (nx * ny)) := by positivity
  rw [show ∀ X Y c : ℝ, (1 - t) * (c * X) + t * (c * Y) = c * ((1 - t) * X + t * Y) by intros; ring]
  apply mul_le_mul_of_nonneg_left _ hc
  rw [mul_sum, mul_sum, ← sum_add_distrib]
  refine sum_le_sum fun k _ => ?_
  have hft : (pair2 nx ny).ft (fun y => (tor nx ny (fun i j => (lincomb (1 - t) u t v).get [i, j]) y : ℂ)) k
      = ((1 - t : ℝ) : ℂ) * (pair2 nx ny).ft (fun y => (tor nx ny (fun i j => u.get [i, j]) y : ℂ)) k
        + (t : ℂ) * (pair2 nx ny).ft (fun y => (tor nx ny (fun i j => v.get [i, j]) y : ℂ)) k := by
    rw [← (pair2 nx ny).ft_smul, ← (pair2 nx ny).ft_smul, ← (pair2 nx ny).ft_add]
    congr 1; funext y; simp only [tor, lincomb]; push_cast; ring
  rw [hft]
  generalize (pair2 nx ny).ft (fun y => (tor nx ny (fun i j => u.get [i, j]) y : ℂ)) k = z
  generalize (pair2 nx ny).ft (fun y => (tor nx ny (fun i j => v.get [i, j]) y : ℂ)) k = w
  have hq : normSq (((1 - t : ℝ) : ℂ) * z + (t : ℂ) * w) ≤ (1 - t) * normSq z + t * normSq w := by
    simp only [normSq_apply, add_re, add_im, re_ofReal_mul, im_ofReal_mul]
    nlinarith [mul_nonneg h0 (sub_nonneg.mpr h1), mul_nonneg (mul_nonneg h0 (sub_nonneg.mpr h1)) (sq_nonneg (z.re - w.re)),
      mul_nonneg (mul_nonneg h0 (sub_nonneg.mpr h1)) (sq_nonneg (z.im - w.im))]
  calc _ ≤ P.S k * ((1 - t) * normSq z + t * normSq w) := mul_le_mul_of_nonneg_left hq (hS k)
    _ = _ := by ring

end
end CM.HS
