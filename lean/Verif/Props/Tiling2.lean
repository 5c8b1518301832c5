import Verif.Props.Tiling
import Verif.Lemmas.Tiling
import Verif.Spec.Tiling
import Verif.Props.Symmetry4
import Verif.Props.Plastic3
/-!
# C185 several periods of a periodic system: substrate and solver calls
-/
set_option linter.unusedSectionVars false
namespace CM.Pipe
open Finset CM.HS CM.FFT CM.System CM.Spec CM.Fourier

variable {k l nx ny : ℕ}

lemma freq_periods (hk : 0 < k) (n : ℕ) (s : ℝ) (q : ℕ) : freq (k * n) (k * s) (k * q) = freq n s q := by
  have hk' : (k : ℝ) ≠ 0 := by exact_mod_cast hk.ne'
  unfold freq
  have : k * q ≤ k * n / 2 ↔ q ≤ n / 2 := by
    rw [Nat.le_div_iff_mul_le two_pos, Nat.le_div_iff_mul_le two_pos, mul_assoc]
    exact Nat.mul_le_mul_left_iff hk
  simp only [this]
  split_ifs
  · push_cast; rw [mul_div_mul_left _ _ hk']
  · push_cast; rw [← mul_sub, mul_div_mul_left _ _ hk']

section
variable [NeZero k] [NeZero l] [NeZero nx] [NeZero ny]

/-- The point of one period below a point of all periods. -/
def folded (p : Fin (k * nx) × Fin (l * ny)) : Fin nx × Fin ny :=
  (⟨p.1.val % nx, Nat.mod_lt _ (NeZero.pos nx)⟩, ⟨p.2.val % ny, Nat.mod_lt _ (NeZero.pos ny)⟩)

/-- The wave of all periods that is the wave `q` of one period. -/
def spread2 (q : ZMod nx × ZMod ny) : ZMod (k * nx) × ZMod (l * ny) := (spread k q.1, spread l q.2)
/-- The point of the small torus below a point of the large one. -/
def fold2 (x : ZMod (k * nx) × ZMod (l * ny)) : ZMod nx × ZMod ny := (fold nx x.1, fold ny x.2)

lemma char_spread2 (q : ZMod nx × ZMod ny) (x : ZMod (k * nx) × ZMod (l * ny)) :
    (pair2 (k * nx) (l * ny)).χ (spread2 q) x = (pair2 nx ny).χ q (fold2 x) := by
  change (pairZ (k * nx)).χ (spread k q.1) x.1 * (pairZ (l * ny)).χ (spread l q.2) x.2 = (pairZ nx).χ q.1 (fold nx x.1) * (pairZ ny).χ q.2 (fold ny x.2)
  rw [char_spread, char_spread]

lemma fold2_torus (p : Fin (k * nx) × Fin (l * ny)) : fold2 (onTorus2 (k * nx) (l * ny) p) = onTorus2 nx ny (folded p) := by
  unfold fold2 Fourier.fold folded
  rw [onTorus2_apply, onTorus2_apply]
  simp only [ZMod.val_natCast, Nat.mod_eq_of_lt p.1.isLt, Nat.mod_eq_of_lt p.2.isLt]
  simp

lemma fullStiff_spread {m m' : Mat} (hm : m' = m) (sx sy g g' : ℝ) {q : ZMod nx × ZMod ny} (hq : q ≠ 0) :
    fullStiff m' (k * nx) (l * ny) (k * sx) (l * sy) g' (spread2 q) = fullStiff m nx ny sx sy g q := by
  have h0 : spread2 (k := k) (l := l) q ≠ 0 := by
    intro h
    apply hq
    rw [Prod.ext_iff] at h ⊢
    exact ⟨(spread_eq_zero _).1 h.1, (spread_eq_zero _).1 h.2⟩
  unfold fullStiff
  rw [if_neg h0, if_neg hq, hm]
  unfold freq2 spread2
  dsimp only
  rw [spread_val, spread_val, freq_periods (NeZero.pos k), freq_periods (NeZero.pos l)]

lemma spread2_zero : spread2 (k := k) (l := l) (0 : ZMod nx × ZMod ny) = 0 := by
  rw [Prod.ext_iff]
  exact ⟨(spread_eq_zero _).2 rfl, (spread_eq_zero _).2 rfl⟩

variable {a a' : Args} {s s' : HalfSpace}

lemma periods_mat (h : Periods k l nx ny a a') (P : Per a s nx ny) (P' : Per a' s' (k * nx) (l * ny)) : s'.mat = s.mat := by
  rw [P.mat, P'.mat, h.young, h.poisson, h.thickness, h.q0]
  simp only [contactModulus, h.young, h.poisson]

lemma periods_area (h : Periods k l nx ny a a') (P : Per a s nx ny) (P' : Per a' s' (k * nx) (l * ny)) : s'.areaPerPt = s.areaPerPt := by
  have : (k : ℝ) ≠ 0 := by exact_mod_cast NeZero.ne k
  have : (l : ℝ) ≠ 0 := by exact_mod_cast NeZero.ne l
  have : (nx : ℝ) ≠ 0 := by exact_mod_cast NeZero.ne nx
  have : (ny : ℝ) ≠ 0 := by exact_mod_cast NeZero.ne ny
  rw [P.area, P'.area, h.sizeX, h.sizeY]
  push_cast
  field_simp

/-- A multiplier on `k × l` periods that agrees with that of one period but for the uniform field. -/
lemma act_periods {S : ZMod nx × ZMod ny → ℂ} {S' : ZMod (k * nx) × ZMod (l * ny) → ℂ} (hS : ∀ q, q ≠ 0 → S' (spread2 q) = S q)
    (f : ZMod nx × ZMod ny → ℝ) (x : ZMod (k * nx) × ZMod (l * ny)) :
    (pair2 (k * nx) (l * ny)).act S' (fun y => f (fold2 y)) x =
      (pair2 nx ny).act S f (fold2 x) + (S' 0 - S 0).re * ((∑ y, f y) / Fintype.card (ZMod nx × ZMod ny)) := by
  rw [Pairing.act_repeat (pair2 nx ny) (pair2 (k * nx) (l * ny)) (ρ := spread2) char_spread2 (S := fun q => S' (spread2 q)) (fun _ => rfl)]
  rw [Pairing.act_gamma (pair2 nx ny) (S := S) (S' := fun q => S' (spread2 q)) hS]
  simp only [spread2_zero]

lemma tor_repeats {f f' : NdArray ℝ} (h : Repeats k l nx ny f f') :
    tor (k * nx) (l * ny) (fun i j => f'.get [i, j]) = fun y => tor nx ny (fun i j => f.get [i, j]) (fold2 y) := by
  funext p
  unfold tor fold2 Fourier.fold
  simp only [ZMod.val_natCast]
  exact h.get _ (ZMod.val_lt _) _ (ZMod.val_lt _)

lemma sum_tor_mean (f : NdArray ℝ) : (∑ y, tor nx ny (fun i j => f.get [i, j]) y) / Fintype.card (ZMod nx × ZMod ny) = mean nx ny f := by
  unfold mean
  rw [← sum_tor (tor nx ny fun i j => f.get [i, j]) (fun i j => f.get [i, j]), Fintype.card_prod, ZMod.card, ZMod.card]
  · push_cast; rfl
  · intro i j hi hj
    unfold tor
    simp only [ZMod.val_cast_of_lt hi, ZMod.val_cast_of_lt hj]

lemma fold2_cast (i j : ℕ) (hi : i < k * nx) (hj : j < l * ny) :
    fold2 (k := k) (l := l) (((i : ℕ) : ZMod (k * nx)), ((j : ℕ) : ZMod (l * ny))) = (((i % nx : ℕ) : ZMod nx), ((j % ny : ℕ) : ZMod ny)) := by
  unfold fold2 Fourier.fold
  simp only [ZMod.val_cast_of_lt hi, ZMod.val_cast_of_lt hj]
  simp

/-- How the response of `k × l` periods differs from that of one. -/
lemma response_periods (h : Periods k l nx ny a a') (P : Per a s nx ny) (P' : Per a' s' (k * nx) (l * ny)) {f f' : NdArray ℝ} (hf : Repeats k l nx ny f f') :
    (∃ u u', HS.evaluateDisp s f = .ok u ∧ HS.evaluateDisp s' f' = .ok u' ∧ u.shape = [nx, ny] ∧ u'.shape = [k * nx, l * ny] ∧
      ∀ i < k * nx, ∀ j < l * ny, u'.get [i, j] = u.get [i % nx, j % ny] +
        ((gammaStiffness a')⁻¹ - (gammaStiffness a)⁻¹) * (-(mean nx ny f) / s.areaPerPt)) ∧
    ∃ u u', HS.evaluateForce s f = .ok u ∧ HS.evaluateForce s' f' = .ok u' ∧ u.shape = [nx, ny] ∧ u'.shape = [k * nx, l * ny] ∧
      ∀ i < k * nx, ∀ j < l * ny, u'.get [i, j] = u.get [i % nx, j % ny] - (gammaStiffness a' - gammaStiffness a) * mean nx ny f * s.areaPerPt := by
  have hm := periods_mat h P P'
  have hA := periods_area h P P'
  have hS : ∀ q : ZMod nx × ZMod ny, q ≠ 0 → fullStiff s'.mat (k * nx) (l * ny) (size a' 0) (size a' 1) (gammaStiffness a') (spread2 q) =
      fullStiff s.mat nx ny (size a 0) (size a 1) (gammaStiffness a) q := by
    intro q hq
    rw [h.sizeX, h.sizeY]
    exact fullStiff_spread hm _ _ _ _ hq
  have z' : fullStiff s'.mat (k * nx) (l * ny) (size a' 0) (size a' 1) (gammaStiffness a') 0 = gammaStiffness a' := by unfold fullStiff; rw [if_pos rfl]
  have z : fullStiff s.mat nx ny (size a 0) (size a 1) (gammaStiffness a) 0 = gammaStiffness a := by unfold fullStiff; rw [if_pos rfl]
  constructor
  · obtain ⟨u, h1, h2, h3⟩ := P.rep.disp_ok hf.shape
    obtain ⟨u', h1', h2', h3'⟩ := P'.rep.disp_ok hf.shape'
    refine ⟨u, u', h1, h1', h2, h2', fun i hi j hj => ?_⟩
    rw [h3', h3, tor_repeats hf, act_periods (S := fun q => (((fullStiff s.mat nx ny (size a 0) (size a 1) (gammaStiffness a) q)⁻¹ : ℝ) : ℂ))
      (fun q hq => by rw [hS q hq]), fold2_cast i j hi hj, hA, sum_tor_mean, z, z', ← Complex.ofReal_sub, Complex.ofReal_re]
    ring
  · obtain ⟨u, h1, h2, h3⟩ := P.rep.force_ok hf.shape
    obtain ⟨u', h1', h2', h3'⟩ := P'.rep.force_ok hf.shape'
    refine ⟨u, u', h1, h1', h2, h2', fun i hi j hj => ?_⟩
    rw [h3', h3, tor_repeats hf, act_periods (S := fun q => ((((fullStiff s.mat nx ny (size a 0) (size a 1) (gammaStiffness a) q)⁻¹ : ℝ) : ℂ))⁻¹)
      (fun q hq => by rw [hS q hq]), fold2_cast i j hi hj, hA, sum_tor_mean, z, z']
    simp only [Complex.ofReal_inv, inv_inv]
    rw [← Complex.ofReal_sub, Complex.ofReal_re]
    ring

end

lemma Periods.gamma {a a' : Args} (h : Periods k l nx ny a a') (hg : a.thickness ≠ none ∨ a.q0 ≠ none) : gammaStiffness a' = gammaStiffness a := by
  unfold gammaStiffness
  rw [h.thickness, h.q0, h.young, h.poisson]
  cases ht : a.thickness with
  | some t => rfl
  | none =>
    cases hq : a.q0 with
    | some q => rfl
    | none => simp [ht, hq] at hg

variable {a a' : Args} {s s' : HalfSpace}

lemma periods_pos (hva : ValidArgs a) (hva' : ValidArgs a') (h : Periods k l nx ny a a') (ha : construct a = .ok s) (ha' : construct a' = .ok s') :
    ∃ (_ : NeZero k) (_ : NeZero l) (_ : NeZero nx) (_ : NeZero ny), Per a s nx ny ∧ Per a' s' (k * nx) (l * ny) := by
  obtain ⟨n1, n2, P⟩ := per_of_construct hva ha h.grid
  obtain ⟨n3, n4, P'⟩ := per_of_construct hva' ha' h.grid'
  have hk : NeZero k := ⟨fun e => n3.out (by rw [e, zero_mul])⟩
  have hl : NeZero l := ⟨fun e => n4.out (by rw [e, zero_mul])⟩
  exact ⟨hk, hl, n1, n2, P, P'⟩

/-- **C185** (substrate with a layer thickness or a stiffness of the uniform field) On `k × l` periods of a periodic substrate, forces that repeat cause the displacements they
cause on one period, repeated, and displacements that repeat take the forces they take on one period, repeated. -/
theorem C185_response (hva : ValidArgs a) (hva' : ValidArgs a') (h : Periods k l nx ny a a') (hg : a.thickness ≠ none ∨ a.q0 ≠ none) (ha : construct a = .ok s)
    (ha' : construct a' = .ok s') {f f' : NdArray ℝ} (hf : Repeats k l nx ny f f') :
    (∃ u u', HS.evaluateDisp s f = .ok u ∧ HS.evaluateDisp s' f' = .ok u' ∧ Repeats k l nx ny u u') ∧
    ∃ u u', HS.evaluateForce s f = .ok u ∧ HS.evaluateForce s' f' = .ok u' ∧ Repeats k l nx ny u u' := by
  obtain ⟨_, _, _, _, P, P'⟩ := periods_pos hva hva' h ha ha'
  obtain ⟨⟨u, u', h1, h2, h3, h4, h5⟩, ⟨v, v', k1, k2, k3, k4, k5⟩⟩ := response_periods h P P' hf
  rw [Periods.gamma h hg] at h5 k5
  exact ⟨⟨u, u', h1, h2, h3, h4, fun i hi j hj => by rw [h5 i hi j hj]; ring⟩, ⟨v, v', k1, k2, k3, k4, fun i hi j hj => by rw [k5 i hi j hj]; ring⟩⟩

/-- Total force of an array. -/
lemma mean_area [NeZero nx] [NeZero ny] (P : Per a s nx ny) (f : NdArray ℝ) :
    -(mean nx ny f) / s.areaPerPt = -(∑ i ∈ range nx, ∑ j ∈ range ny, f.get [i, j]) / (size a 0 * size a 1) := by
  have : (nx : ℝ) ≠ 0 := by exact_mod_cast NeZero.ne nx
  have : (ny : ℝ) ≠ 0 := by exact_mod_cast NeZero.ne ny
  have := P.sx_pos.ne'
  have := P.sy_pos.ne'
  rw [P.area]
  unfold mean
  field_simp

/-- **C185** (default half-space) Without thickness and stiffness of the uniform field, forces that repeat cause the displacements they cause on one period, repeated, plus a constant:
the mean pressure times the difference of the compliances `1 / (E* π (1/sx + 1/sy) / 2)` the code chooses for the uniform field. -/
theorem C185_default_response (hva : ValidArgs a) (hva' : ValidArgs a') (h : Periods k l nx ny a a') (ht : a.thickness = none) (hq : a.q0 = none)
    (ha : construct a = .ok s) (ha' : construct a' = .ok s') {f f' : NdArray ℝ} (hf : Repeats k l nx ny f f') :
    ∃ u u', HS.evaluateDisp s f = .ok u ∧ HS.evaluateDisp s' f' = .ok u' ∧ u.shape = [nx, ny] ∧ u'.shape = [k * nx, l * ny] ∧
      ∀ i < k * nx, ∀ j < l * ny, u'.get [i, j] = u.get [i % nx, j % ny] +
        (2 / (contactModulus a * Real.pi * (1 / (k * size a 0) + 1 / (l * size a 1))) - 2 / (contactModulus a * Real.pi * (1 / size a 0 + 1 / size a 1))) *
          (-(∑ i ∈ range nx, ∑ j ∈ range ny, f.get [i, j]) / (size a 0 * size a 1)) := by
  obtain ⟨_, _, _, _, P, P'⟩ := periods_pos hva hva' h ha ha'
  obtain ⟨⟨u, u', h1, h2, h3, h4, h5⟩, -⟩ := response_periods h P P' hf
  refine ⟨u, u', h1, h2, h3, h4, fun i hi j hj => ?_⟩
  rw [h5 i hi j hj, mean_area P]
  have hE : contactModulus a' = contactModulus a := by unfold contactModulus; rw [h.young, h.poisson]
  have g : gammaStiffness a = contactModulus a * Real.pi * (1 / size a 0 + 1 / size a 1) / 2 := by
    unfold gammaStiffness; rw [ht, hq]; dsimp only; ring
  have g' : gammaStiffness a' = contactModulus a * Real.pi * (1 / (k * size a 0) + 1 / (l * size a 1)) / 2 := by
    unfold gammaStiffness; rw [h.thickness, h.q0, ht, hq, h.sizeX, h.sizeY, hE]; dsimp only; ring
  rw [g, g', inv_div, inv_div]


/-! ## The solver -/

section bisect
variable {K : Type} [Field K] [LinearOrder K] [IsStrictOrderedRing K]

/-- SciPy's bisection only looks at signs and zeros. -/
lemma bisectLoop_scaled {c : K} (hc : 0 < c) (f : K → K) (fa : K) : ∀ (n : ℕ) (xa dm : K),
    CCG.bisectLoop (fun x => c * f x) (c * fa) n xa dm = CCG.bisectLoop f fa n xa dm := by
  have h1 : ∀ x : K, c * x < 0 ↔ x < 0 := fun x => ⟨fun h => by by_contra h'; push Not at h'; exact absurd h (not_lt.2 (mul_nonneg hc.le h')), fun h => mul_neg_of_pos_of_neg hc h⟩
  have h2 : ∀ x : K, c * x = 0 ↔ x = 0 := fun x => by simp [hc.ne']
  intro n
  induction n with
  | zero => intros; rfl
  | succ n ih =>
    intro xa dm
    unfold CCG.bisectLoop
    simp only [h1, h2]
    rw [ih]

lemma scipyBisect_scaled {c : K} (hc : 0 < c) (f : K → K) (a b : K) : CCG.scipyBisect (fun x => c * f x) a b = CCG.scipyBisect f a b := by
  have h1 : ∀ x : K, c * x < 0 ↔ x < 0 := fun x => ⟨fun h => by by_contra h'; push Not at h'; exact absurd h (not_lt.2 (mul_nonneg hc.le h')), fun h => mul_neg_of_pos_of_neg hc h⟩
  have h2 : ∀ x : K, c * x = 0 ↔ x = 0 := fun x => by simp [hc.ne']
  unfold CCG.scipyBisect
  simp only [h1, h2]
  rw [bisectLoop_scaled hc f (f a)]

end bisect

section
variable [NeZero k] [NeZero l] [NeZero nx] [NeZero ny]

lemma fold_count {n : ℕ} (hn : 0 < n) (i : ℕ) (hi : i < n) : #{x : Fin (k * n) | x.val % n = i} = k := by
  have hb : ∀ q : Fin k, i + n * q.val < k * n := by
    intro q
    have : n * (q.val + 1) ≤ n * k := Nat.mul_le_mul_left _ q.isLt
    rw [mul_comm k]; rw [mul_add] at this; omega
  have hc : #(univ : Finset (Fin k)) = k := by rw [card_univ, Fintype.card_fin]
  refine Eq.trans (Eq.symm ?_) hc
  refine card_bij (fun q _ => ⟨i + n * q.val, hb q⟩) (fun q _ => ?_) (fun q _ r _ h => ?_) (fun x hx => ?_)
  · simp only [mem_filter, mem_univ, true_and]
    rw [Nat.add_mul_mod_self_left, Nat.mod_eq_of_lt hi]
  · have h' : i + n * q.val = i + n * r.val := congrArg Fin.val h
    exact Fin.ext (Nat.eq_of_mul_eq_mul_left hn (by omega))
  · simp only [mem_filter, mem_univ, true_and] at hx
    have hx' : x.val < n * k := (mul_comm k n) ▸ x.isLt
    refine ⟨⟨x.val / n, Nat.div_lt_of_lt_mul hx'⟩, mem_univ _, Fin.ext ?_⟩
    show i + n * (x.val / n) = x.val
    rw [← hx]; exact Nat.mod_add_div _ _

lemma folded_copies : CCG.Copies (folded : Fin (k * nx) × Fin (l * ny) → Fin nx × Fin ny) (k * l) := by
  refine ⟨Nat.mul_pos (NeZero.pos k) (NeZero.pos l), fun i => ?_⟩
  have : (univ.filter fun p : Fin (k * nx) × Fin (l * ny) => folded p = i) =
      (univ.filter fun x : Fin (k * nx) => x.val % nx = i.1.val) ×ˢ (univ.filter fun x : Fin (l * ny) => x.val % ny = i.2.val) := by
    ext p
    simp [folded, Prod.ext_iff, Fin.ext_iff]
  rw [this, card_product, fold_count (NeZero.pos nx) _ i.1.isLt, fold_count (NeZero.pos ny) _ i.2.isLt]

lemma onGrid_eq {eval : NdArray ℝ → Except PyErr (NdArray ℝ)} {d0 d1 : ℕ} {f : Fin d0 × Fin d1 → ℝ} {u : NdArray ℝ} (h : eval (fieldArray d0 d1 f) = .ok u)
    (p : Fin d0 × Fin d1) : onGrid eval d0 d1 f p = u.get [p.1, p.2] := by unfold onGrid; rw [h]

lemma fieldArray_repeats {α : Type} [Inhabited α] (f : Fin nx × Fin ny → α) :
    Repeats k l nx ny (fieldArray nx ny f) (fieldArray (k * nx) (l * ny) fun p => f (folded p)) := by
  refine ⟨rfl, rfl, fun i hi j hj => ?_⟩
  have h1 : i % nx < nx := Nat.mod_lt _ (NeZero.pos nx)
  have h2 : j % ny < ny := Nat.mod_lt _ (NeZero.pos ny)
  simp [fieldArray, hi, hj, h1, h2, folded]

end

/-- Two calls of the solver: one period, and `k × l` periods with the load multiplied by the number of periods. -/
structure CallPeriods (k l nx ny : ℕ) (q q' : Call) : Prop where
  heights : Repeats k l nx ny q.heights q'.heights
  hardness : q'.hardness = q.hardness
  offset : q'.offset = q.offset
  externalForce : q'.externalForce = q.externalForce.map (((k * l : ℕ) : ℝ) * ·)
  pentol : q'.pentol = q.pentol
  maxiter : q'.maxiter = q.maxiter

/-- **C185** (solver call) On such a substrate, with the penetration tolerance given, the solver called for `k × l` periods of a surface under `k l` times the load -- or at the same offset --
raises what it raises for one period, or returns the forces, displacements and plastic flags of one period, repeated, the same offset and the same success flag;
elastic or with a hardness. -/
theorem C185_solver_call (hva : ValidArgs a) (hva' : ValidArgs a') (h : Periods k l nx ny a a') (hg : a.thickness ≠ none ∨ a.q0 ≠ none) (ha : construct a = .ok s)
    (ha' : construct a' = .ok s') (rms rms' : NdArray ℝ → ℝ) (kw : OptimizerKwargs) {q q' : Call} (hq : CallPeriods k l nx ny q q') (hpt : q.pentol ≠ none) :
    (∃ e, ccgSolver ⟨s, false, false⟩ rms CCG.scipyBisect kw q = .error e ∧ ccgSolver ⟨s', false, false⟩ rms' CCG.scipyBisect kw q' = .error e) ∨
    ∃ r r', ccgSolver ⟨s, false, false⟩ rms CCG.scipyBisect kw q = .ok r ∧ ccgSolver ⟨s', false, false⟩ rms' CCG.scipyBisect kw q' = .ok r' ∧
      Repeats k l nx ny r.jac r'.jac ∧ Repeats k l nx ny r.x r'.x ∧ Repeats k l nx ny r.plastic r'.plastic ∧ r'.offset = r.offset ∧ r'.success = r.success := by
  obtain ⟨_, _, _, _, P, P'⟩ := periods_pos hva hva' h ha ha'
  have hresp := fun f : Fin nx × Fin ny → ℝ => C185_response hva hva' h hg ha ha' (fieldArray_repeats (k := k) (l := l) f)
  have htop : Substrate.topo ⟨s, false, false⟩ = [nx, ny] := P.grid
  have htop' : Substrate.topo ⟨s', false, false⟩ = [k * nx, l * ny] := P'.grid
  have hT : CCG.Tiled (folded : Fin (k * nx) × Fin (l * ny) → Fin nx × Fin ny) (k * l)
      (ccgProblem ⟨s, false, false⟩ rms nx ny nx ny q.heights) (ccgProblem ⟨s', false, false⟩ rms' (k * nx) (l * ny) (k * nx) (l * ny) q'.heights) := by
    refine ⟨fun f => ?_, fun f => ?_, fun p => ?_, fun p => ?_, fun p => hq.heights.get _ p.1.isLt _ p.2.isLt, ?_⟩
    · obtain ⟨⟨u, u', h1, h2, h3⟩, -⟩ := hresp f
      funext p
      show onGrid (HS.evaluateDisp s') _ _ _ p = onGrid (HS.evaluateDisp s) _ _ _ _
      rw [onGrid_eq h1, onGrid_eq h2]
      exact h3.get _ p.1.isLt _ p.2.isLt
    · obtain ⟨-, u, u', h1, h2, h3⟩ := hresp f
      funext p
      show onGrid (HS.evaluateForce s') _ _ _ p = onGrid (HS.evaluateForce s) _ _ _ _
      rw [onGrid_eq h1, onGrid_eq h2]
      exact h3.get _ p.1.isLt _ p.2.isLt
    · show (decide (p.1.val < k * nx) && decide (p.2.val < l * ny)) = (decide ((folded p).1.val < nx) && decide ((folded p).2.val < ny))
      simp
    · show (decide (p.1.val < k * nx) && decide (p.2.val < l * ny)) = (decide ((folded p).1.val < nx) && decide ((folded p).2.val < ny))
      simp
    · show ((k * nx * (l * ny) : ℕ) : ℝ) = ((k * l : ℕ) : ℝ) * ((nx * ny : ℕ) : ℝ)
      push_cast; ring
  have hO : CCG.TiledOpt (folded : Fin (k * nx) × Fin (l * ny) → Fin nx × Fin ny) (k * l) (ccgOptions CCG.scipyBisect kw (Fin nx × Fin ny) q)
      (ccgOptions CCG.scipyBisect kw (Fin (k * nx) × Fin (l * ny)) q') := by
    refine ⟨?_, ?_, ?_, hq.offset, rfl, rfl, hq.pentol, rfl, rfl, rfl, rfl, rfl, ?_, fun f x y => ?_⟩
    · simp only [ccgOptions, hq.hardness]
      cases q.hardness <;> rfl
    · intro H
      simp only [ccgOptions]
      cases q.hardness <;> simp
    · exact hq.externalForce
    · simp only [ccgOptions, hq.maxiter]
    · exact scipyBisect_scaled (by exact_mod_cast (folded_copies (k := k) (l := l) (nx := nx) (ny := ny)).pos) f x y
  have hp : CCG.pentolOf (ccgProblem ⟨s', false, false⟩ rms' (k * nx) (l * ny) (k * nx) (l * ny) q'.heights) (ccgOptions CCG.scipyBisect kw _ q') =
      CCG.pentolOf (ccgProblem ⟨s, false, false⟩ rms nx ny nx ny q.heights) (ccgOptions CCG.scipyBisect kw _ q) := by
    obtain ⟨pt, hpt⟩ := Option.ne_none_iff_exists'.1 hpt
    unfold CCG.pentolOf
    simp only [ccgOptions, hq.pentol, hpt]
  have hmain := CCG.C185_solver folded_copies hT hO hp
  have hsol : CCG.solve (ccgProblem ⟨s', false, false⟩ rms' (k * nx) (l * ny) (k * nx) (l * ny) q'.heights) (ccgOptions CCG.scipyBisect kw _ q') =
      (CCG.solve (ccgProblem ⟨s, false, false⟩ rms nx ny nx ny q.heights) (ccgOptions CCG.scipyBisect kw _ q)).map (CCG.Result.tiled folded (k * l)) := by
    unfold CCG.solve
    rw [hmain]
    cases CCG.solveCb (ccgProblem ⟨s, false, false⟩ rms nx ny nx ny q.heights) (ccgOptions CCG.scipyBisect kw _ q) <;> rfl
  unfold ccgSolver
  rw [htop, htop', P.rep.dom, P'.rep.dom]
  dsimp only
  rw [hsol]
  cases CCG.solve (ccgProblem ⟨s, false, false⟩ rms nx ny nx ny q.heights) (ccgOptions CCG.scipyBisect kw _ q) with
  | error x => exact .inl ⟨x, rfl, rfl⟩
  | ok r =>
    refine .inr ⟨_, _, rfl, rfl, ⟨rfl, rfl, (fieldArray_repeats (k := k) (l := l) r.jac).get⟩, fieldArray_repeats r.x, ⟨rfl, rfl, ?_⟩, rfl, rfl⟩
    have := (fieldArray_repeats (k := k) (l := l) (r.plastic.getD fun _ => false)).get
    show ∀ i < k * nx, ∀ j < l * ny, (fieldArray (k * nx) (l * ny) ((r.plastic.map fun p i => p (folded i)).getD fun _ => false)).get [i, j] = (fieldArray nx ny (r.plastic.getD fun _ => false)).get [i % nx, j % ny]
    cases hpl : r.plastic with
    | none => rw [hpl] at this; exact this
    | some p => rw [hpl] at this; exact this

end CM.Pipe
