import Verif.Props.Systems4
import Verif.Model.SystemsBase
/-!
# C172: the objective of the displacement field; C173: bounded minimisation over displacements
-/
set_option linter.unusedSimpArgs false
namespace CM.HS
open Finset CM.FFT CM.Spec CM.Fourier FreeRep

variable {nx ny : ℕ} {a : FreeArgs} {s : HalfSpace}

lemma freeOffset_neg' {n : ℕ} [NeZero n] (k : ZMod (2 * n)) :
    freeOffset n (-k).val = -freeOffset n k.val ∨ freeOffset n (-k).val = freeOffset n k.val := by
  rcases freeOffset_neg k with h | h
  · right; rw [h]
  · left; exact h

/-- The kernel on the padded torus is even. -/
lemma FreeRep.K_neg [NeZero nx] [NeZero ny] (P : FreeRep a s nx ny) (p : ZMod (2 * nx) × ZMod (2 * ny)) : K a nx ny (-p) = K a nx ny p := by
  unfold K tor freeKernel
  have h1 : freeOffset nx (-p).1.val = -freeOffset nx p.1.val ∨ freeOffset nx (-p).1.val = freeOffset nx p.1.val :=
    freeOffset_neg' p.1
  have h2 : freeOffset ny (-p).2.val = -freeOffset ny p.2.val ∨ freeOffset ny (-p).2.val = freeOffset ny p.2.val :=
    freeOffset_neg' p.2
  have m := fun k l => C21_mirror_symmetry (E := a.young) P.dx_pos P.dy_pos k l
  dsimp only
  rcases h1 with h1 | h1 <;> rcases h2 with h2 | h2 <;> rw [h1, h2] <;> push_cast
  · have e1 := (m (freeOffset nx p.1.val) (-freeOffset ny p.2.val)).1
    have e2 := (m (freeOffset nx p.1.val) (freeOffset ny p.2.val)).2
    push_cast at e1
    rw [e1, e2]
  · exact (m _ _).1
  · exact (m _ _).2

/-- Its spectrum is real and even. -/
lemma FreeRep.spec_real [NeZero nx] [NeZero ny] (P : FreeRep a s nx ny) (k : ZMod (2 * nx) × ZMod (2 * ny)) :
    (pair2 (2 * nx) (2 * ny)).ft (fun p => (K a nx ny p : ℂ)) k
      = (((pair2 (2 * nx) (2 * ny)).ft (fun p => (K a nx ny p : ℂ)) k).re : ℂ) := by
  have h1 := (pair2 (2 * nx) (2 * ny)).ft_neg (K a nx ny) k
  have h2 : (pair2 (2 * nx) (2 * ny)).ft (fun p => (K a nx ny p : ℂ)) (-k) = (pair2 (2 * nx) (2 * ny)).ft (fun p => (K a nx ny p : ℂ)) k := by
    unfold Pairing.ft
    rw [← Equiv.sum_comp (Equiv.neg _)]
    refine sum_congr rfl fun x _ => ?_
    beta_reduce
    rw [Equiv.neg_apply, P.K_neg, neg_neg, (pair2 (2 * nx) (2 * ny)).cj, (pair2 (2 * nx) (2 * ny)).conj_right]
  rw [h2] at h1
  exact (Complex.conj_eq_iff_re.1 h1.symm).symm

end CM.HS

namespace CM.Spec
open CM.HS CM.FFT CM.System

/-- Bounds of entry `k`, infinite where there are none. -/
noncomputable def lower (b : Option Bounds) (k : ℕ) : EReal :=
  match b with
  | some ⟨some lb, _⟩ => lb.get [k]
  | _ => ⊥

/-- Bounds of entry `k`, infinite where there are none. -/
noncomputable def upper (b : Option Bounds) (k : ℕ) : EReal :=
  match b with
  | some ⟨_, some ub⟩ => ub.get [k]
  | _ => ⊤

/-- Methods of `scipy.optimize.minimize` that get the bounds. -/
def TakesBounds (method : String) : Prop := method = "L-BFGS-B" ∨ method = "TNC" ∨ method = "SLSQP"

lemma takesBounds_iff (method : String) : TakesBounds method ↔ method ∈ boundedMinimizers := by simp [TakesBounds, boundedMinimizers]

/-- `x` is within the bounds and satisfies the first-order optimality conditions of bounded minimisation with gradient `G`. -/
structure BoundKKT (N : ℕ) (b : Option Bounds) (x G : NdArray ℝ) : Prop where
  above : ∀ k < N, lower b k ≤ (x.flat k : ℝ)
  below : ∀ k < N, ((x.flat k : ℝ) : EReal) ≤ upper b k
  pos : ∀ k < N, 0 < G.flat k → ((x.flat k : ℝ) : EReal) = lower b k
  neg : ∀ k < N, G.flat k < 0 → ((x.flat k : ℝ) : EReal) = upper b k

/-- Displacements and forces of the substrate determine each other on its own grid, padding included: a periodic substrate with
stiffness at the Gamma point, or a nonperiodic one whose Green's function has no vanishing Fourier coefficient. -/
def Invertible2 (S : Sys) (nx ny d0 d1 : ℕ) : Prop :=
  (∃ a, PeriodicSystem S a nx ny ∧ 0 < gammaStiffness a ∧ d0 = nx ∧ d1 = ny) ∨
  ∃ a, FreeSystem S a nx ny ∧ (∀ kx ky, kx ≤ nx → ky < 2 * ny → S.sub.hs.greens [kx, ky] ≠ 0) ∧ d0 = 2 * nx ∧ d1 = 2 * ny

/-- What the optimiser of a run promises: it called the objective at displacement fields, and returned an optimal one within the
bounds it was given, with the gradient there. -/
structure Promise (S : Sys) (off : ℝ) (N : ℕ) (c : ScipyCall) (run : SolverRun) : Prop where
  points : ∀ p ∈ run.points, p.size = N
  size : run.result.x.size = N
  gradient : ∃ E S1, objective S off run.result.x = (.ok (some E, run.result.jac), S1)
  optimal : BoundKKT N c.bounds run.result.x run.result.jac

/-- `S` is a system on a valid two-dimensional half-space whose displacement fields live on a `d0 × d1` grid: that of the topography
for a periodic substrate, twice as many points in each direction for a nonperiodic one. -/
def CompGrid (S : Sys) (d0 d1 : ℕ) : Prop :=
  (∃ a, PeriodicSystem S a d0 d1) ∨ ∃ a nx ny, FreeSystem S a nx ny ∧ d0 = 2 * nx ∧ d1 = 2 * ny

end CM.Spec

namespace CM.System
open Finset CM.HS CM.FFT CM.Spec CM.Pipe CM.Fourier

variable {nx ny d0 d1 : ℕ} {S : Sys} {a : Args}

lemma symOp_force_of_rep {s : HalfSpace} [NeZero d0] [NeZero d1] {G : ZMod d0 × ZMod d1 → ℂ} (h : Rep s d0 d1 G)
    (hr : ∀ k, G k = ((G k).re : ℂ)) : SymOp d0 d1 (evaluateForce s) := by
  refine ⟨fun f hf => ?_, ?_, ?_⟩
  · obtain ⟨u, hu, hsh, -⟩ := h.force_ok hf; exact ⟨u, hu, hsh⟩
  · intro α β f g k hf hg hk heq u v w hu hv hw i j hi hj
    obtain ⟨u', e1, -, h1⟩ := h.force_ok hf
    obtain ⟨v', e2, -, h2⟩ := h.force_ok hg
    obtain ⟨w', e3, -, h3⟩ := h.force_ok hk
    rw [hu] at e1; rw [hv] at e2; rw [hw] at e3
    cases e1; cases e2; cases e3
    have e : (tor d0 d1 fun i j => k.get [i, j]) = fun p => α * tor d0 d1 (fun i j => f.get [i, j]) p
        + β * tor d0 d1 (fun i j => g.get [i, j]) p := by
      rw [System.tor_congr (f := fun i j => k.get [i, j]) (g := fun i j => α * f.get [i, j] + β * g.get [i, j]) heq]; rfl
    rw [h1, h2, h3, e, (pair2 d0 d1).act_lin]
    ring
  · intro f g u v hf hg hu hv
    obtain ⟨u', e1, -, h1⟩ := h.force_ok hf
    obtain ⟨v', e2, -, h2⟩ := h.force_ok hg
    rw [hu] at e1; rw [hv] at e2
    cases e1; cases e2
    have hS : (fun k => (G k)⁻¹) = fun k => (((G k).re⁻¹ : ℝ) : ℂ) := by
      funext k; rw [hr k]; push_cast; rfl
    rw [hS] at h1 h2
    rw [work_tor f v (tor d0 d1 fun i j => f.get [i, j])
        (fun p => -((pair2 d0 d1).act (fun k => (((G k).re⁻¹ : ℝ) : ℂ)) (tor d0 d1 fun i j => g.get [i, j]) p) * s.areaPerPt)
        (fun i j hi hj => (tor_cast (fun i j => f.get [i, j]) hi hj).symm) (fun i j _ _ => h2 i j),
      work_tor g u (tor d0 d1 fun i j => g.get [i, j])
        (fun p => -((pair2 d0 d1).act (fun k => (((G k).re⁻¹ : ℝ) : ℂ)) (tor d0 d1 fun i j => f.get [i, j]) p) * s.areaPerPt)
        (fun i j hi hj => (tor_cast (fun i j => g.get [i, j]) hi hj).symm) (fun i j _ _ => h1 i j)]
    have hrec := (pair2 d0 d1).recip_of_even ((pair2 d0 d1).ker_even (fun k => (G k).re⁻¹))
      (tor d0 d1 fun i j => f.get [i, j]) (tor d0 d1 fun i j => g.get [i, j])
    simp only [← mul_assoc, mul_neg, neg_mul, ← sum_mul, sum_neg_distrib]
    rw [hrec]

lemma symOp_force_comp (h : CompGrid S d0 d1) : SymOp d0 d1 (evaluateForce S.sub.hs) := by
  rcases h with ⟨a, h⟩ | ⟨a, nx, ny, h, rfl, rfl⟩
  · exact symOp_force h
  · obtain ⟨_, _, P⟩ := free_of_construct h.valid h.built h.grid
    exact symOp_force_of_rep P.rep P.spec_real

lemma comp_dom (h : CompGrid S d0 d1) : S.sub.hs.domain = [d0, d1] := by
  rcases h with ⟨a, h⟩ | ⟨a, nx, ny, h, rfl, rfl⟩
  · exact (per_grid h).2.1
  · exact (free_grid h).2.1

lemma comp_sys (h : CompGrid S d0 d1) : ∃ nx ny, System2 S nx ny ∧ nx ≤ d0 ∧ ny ≤ d1 := by
  rcases h with ⟨a, h⟩ | ⟨a, nx, ny, h, rfl, rfl⟩
  · exact ⟨d0, d1, .inl ⟨a, h⟩, le_rfl, le_rfl⟩
  · exact ⟨nx, ny, .inr ⟨a, h⟩, by omega, by omega⟩

lemma comp_evaluate_true (h : CompGrid S d0 d1) {u f : NdArray ℝ} (hf : evaluateForce S.sub.hs u = .ok f) :
    HS.evaluate S.sub.hs u true true = .ok (some (-(1 / 2) * work d0 d1 f u), some f) := by
  unfold HS.evaluate
  rw [if_pos rfl, hf]
  simp only [bind, Except.bind, if_true, pure, Except.pure]
  congr 3
  unfold evaluateElasticEnergy
  rw [comp_dom h]
  simp only [sumShape]
  unfold work
  rw [mul_sum, mul_sum]
  refine sum_congr rfl fun i _ => ?_
  rw [mul_sum, mul_sum]
  refine sum_congr rfl fun j _ => ?_
  norm_num
  ring

lemma comp_evaluate (h : CompGrid S d0 d1) {u f : NdArray ℝ} (hu : u.shape = [d0, d1])
    (hf : evaluateForce S.sub.hs u = .ok f) (off : ℝ) :
    ∃ S', evaluate S u off true true = (.ok (some (-(1 / 2) * work d0 d1 f u), some f), S') ∧
      S'.energy = some (-(1 / 2) * work d0 d1 f u) ∧ S'.force = some f ∧ S'.subForce = some f ∧
      S'.disp = S.disp ∧ S'.sub = S.sub ∧ S'.heights = S.heights ∧ S'.offset = S.offset := by
  obtain ⟨nx, ny, h', -, -⟩ := comp_sys h
  obtain ⟨h1, h2⟩ := C48_applies h'
  obtain ⟨g, hg, -⟩ := C48_gap S h1 u (by rw [hu, ← comp_dom h]; exact h2) off
  unfold evaluate
  rw [hg]
  simp only [comp_evaluate_true h hf, if_true]
  exact ⟨_, rfl, rfl, rfl, rfl, rfl, rfl, rfl, rfl⟩

lemma objective_eq (h : CompGrid S d0 d1) (off : ℝ) (u : NdArray ℝ) (hu : u.size = d0 * d1) :
    ∃ u' f G S', u'.shape = [d0, d1] ∧ (∀ k < d0 * d1, u'.flat k = u.flat k) ∧ evaluateForce S.sub.hs u' = .ok f ∧
      f.shape = [d0, d1] ∧ G.shape = [d0 * d1] ∧ (∀ k, G.flat k = -(f.flat k)) ∧
      objective S off u = (.ok (some (-(1 / 2) * work d0 d1 f u'), G), S') := by
  obtain ⟨u', hr, hus, huf⟩ := reshape_ok u (s := [d0, d1]) (by simp [hu])
  obtain ⟨f, hf, hfs⟩ := (symOp_force_comp h).ok u' hus
  obtain ⟨S', hS', he, hfo, -⟩ := comp_evaluate h hus hf off
  refine ⟨u', f, (ravel f).map fun x => -x, S', hus, fun k hk => huf k (by simpa using hk), hf, hfs,
    by simp [ravel, NdArray.map, NdArray.size, hfs], fun k => ?_, ?_⟩
  · have : ((ravel f).map fun x => -x).flat k = -((ravel f).flat k) := rfl
    rw [this, ravel_flat]
  · unfold objective
    simp only [comp_dom h, hr]
    rw [hS']
    simp only [negForce, he, hfo]

/-- **C172** `objective(offset, gradient=True)` at the displacements `u` (flat or not, on the grid of the substrate, padding included)
returns minus half the work of the substrate forces on `u` and minus the substrate forces -- the energy `evaluate` returns, and for
every offset the same. -/
theorem C172_objective_value (h : CompGrid S d0 d1) (off : ℝ) (u u' : NdArray ℝ) (hu : u.size = d0 * d1) (hs : u'.shape = [d0, d1])
    (huu : ∀ k < d0 * d1, u'.flat k = u.flat k) :
    ∃ E F G S', HS.evaluate S.sub.hs u' true true = .ok (some E, some F) ∧ objective S off u = (.ok (some E, G), S') ∧
      E = -(1 / 2) * flatDot (d0 * d1) F u ∧ G.shape = [d0 * d1] ∧ ∀ k < d0 * d1, G.flat k = -(F.flat k) := by
  obtain ⟨v, f, G, S', h1, h2, h3, h4, h5, h6, h7⟩ := objective_eq h off u hu
  obtain ⟨F, hF, hFs⟩ := (symOp_force_comp h).ok u' hs
  have e : ∀ i j, i < d0 → j < d1 → u'.get [i, j] = v.get [i, j] := fun i j hi hj => by
    rw [← flat_get hs hi hj, ← flat_get h1 hi hj, huu _ (flat_lt hi hj), h2 _ (flat_lt hi hj)]
  have hff := (symOp_force_comp h).congr hs h1 e hF h3
  refine ⟨_, F, G, S', comp_evaluate_true h hF, ?_, ?_, h5, fun k hk => ?_⟩
  · rw [h7, work_congr hff e]
  · rw [flatDot_work hFs hs (fun k _ => rfl) fun k hk => (huu k hk).symm]
  · obtain ⟨i, j, hi, hj, rfl, e⟩ := get_of_flat hFs hk
    rw [h6, e, hff i j hi hj, flat_get h4 hi hj]

/-- **C172** Gradient and `hessian_product` are exact: for every displacement field `u` and every change `v` of it, on the topography
or in the padding, `E(u+v) = E(u) + G·v + ½ v·Hv` and `G(u+v) = G(u) + Hv`; the Hessian is symmetric. -/
theorem C172_expansion (h : CompGrid S d0 d1) (off : ℝ) (u v w : NdArray ℝ) (hu : u.size = d0 * d1) (hv : v.size = d0 * d1)
    (hw : w.size = d0 * d1) (hsum : ∀ k < d0 * d1, w.flat k = u.flat k + v.flat k) :
    ∃ E E' G G' H Hu S1 S2, objective S off u = (.ok (some E, G), S1) ∧ objective S off w = (.ok (some E', G'), S2) ∧
      hessianProduct S v = .ok H ∧ hessianProduct S u = .ok Hu ∧ H.shape = v.shape ∧
      E' = E + flatDot (d0 * d1) G v + 1 / 2 * flatDot (d0 * d1) H v ∧ (∀ k < d0 * d1, G'.flat k = G.flat k + H.flat k) ∧
      flatDot (d0 * d1) H u = flatDot (d0 * d1) Hu v := by
  obtain ⟨u1, f, G, S1, h1, h2, h3, h4, h5, h6, h7⟩ := objective_eq h off u hu
  obtain ⟨w1, f', G', S2, h1', h2', h3', h4', h5', h6', h7'⟩ := objective_eq h off w hw
  have hess : ∀ v : NdArray ℝ, v.size = d0 * d1 → ∃ v' fv H, v'.shape = [d0, d1] ∧ (∀ k < d0 * d1, v'.flat k = v.flat k) ∧
      evaluateForce S.sub.hs v' = .ok fv ∧ fv.shape = [d0, d1] ∧ hessianProduct S v = .ok H ∧ H.shape = v.shape ∧
      ∀ k < d0 * d1, H.flat k = -(fv.flat k) := by
    intro v hv
    obtain ⟨v', hr, hvs, hvf⟩ := reshape_ok v (s := [d0, d1]) (by simp [hv])
    obtain ⟨fv, hfv, hfvs⟩ := (symOp_force_comp h).ok v' hvs
    obtain ⟨r, hrr, hrs, hrf⟩ := reshape_ok fv (s := v.shape) (by simp [NdArray.size, hfvs] at hv ⊢; exact hv.symm)
    have hvp : v.shape.prod = d0 * d1 := hv
    refine ⟨v', fv, r.map fun x => -x, hvs, fun k hk => hvf k (by simpa using hk), hfv, hfvs, ?_, hrs, fun k hk => ?_⟩
    · unfold hessianProduct primalHessianProduct
      simp only [comp_dom h, hr, hfv, hrr, bind, Except.bind, pure, Except.pure]
    · have : (r.map fun x => -x).flat k = -(r.flat k) := rfl
      rw [this, hrf k (by rw [hvp]; exact hk)]
  obtain ⟨v', fv, H, hvs, hvf', hfv, hfvs, hH, hHs, hHf⟩ := hess v hv
  obtain ⟨u2, fu, Hu, hus2, huf2, hfu, hfus, hHu, -, hHuf⟩ := hess u hu
  have huv : ∀ i j, i < d0 → j < d1 → w1.get [i, j] = 1 * u1.get [i, j] + 1 * v'.get [i, j] := by
    intro i j hi hj
    have hk := flat_lt hi hj
    rw [← flat_get h1 hi hj, ← flat_get h1' hi hj, ← flat_get hvs hi hj, h2 _ hk, h2' _ hk, hsum _ hk, hvf' _ hk]
    ring
  have hq := (symOp_force_comp h).quad 1 1 h1 hvs h1' huv h3 hfv h3'
  have hl := (symOp_force_comp h).lin 1 1 u1 v' w1 h1 hvs h1' huv f fv f' h3 hfv h3'
  have hneg : ∀ {A B C : NdArray ℝ} {c : NdArray ℝ}, A.shape = [d0, d1] → c.shape = [d0, d1] → (∀ k < d0 * d1, B.flat k = -(A.flat k)) →
      (∀ k < d0 * d1, c.flat k = C.flat k) → flatDot (d0 * d1) B C = -(work d0 d1 A c) := by
    intro A B C c hA hc hB hC
    rw [← flatDot_work hA hc (fun k _ => rfl) fun k hk => (hC k hk).symm]
    unfold flatDot
    rw [← sum_neg_distrib]
    exact sum_congr rfl fun k hk => by rw [hB k (mem_range.mp hk)]; ring
  refine ⟨_, _, G, G', H, Hu, S1, S2, h7, h7', hH, hHu, hHs, ?_, fun k hk => ?_, ?_⟩
  · rw [hneg h4 hvs (fun k _ => h6 k) hvf', hneg hfvs hvs hHf hvf', hq]
    ring
  · rw [h6, h6', hHf k hk]
    obtain ⟨i, j, hi, hj, rfl, e⟩ := get_of_flat h4' hk
    rw [e, hl i j hi hj, flat_get h4 hi hj, flat_get hfvs hi hj]
    ring
  · rw [hneg hfvs hus2 hHf huf2, hneg hfus hvs hHuf hvf', work_comm, work_comm fu v', (symOp_force_comp h).symm u2 v' fu fv hus2 hvs hfu hfv]

/-! ## C173 -/

lemma _root_.CM.Spec.Invertible2.comp (h : Invertible2 S nx ny d0 d1) : CompGrid S d0 d1 := by
  rcases h with ⟨a, h, -, rfl, rfl⟩ | ⟨a, h, -, rfl, rfl⟩
  · exact .inl ⟨a, h⟩
  · exact .inr ⟨a, nx, ny, h, rfl, rfl⟩

lemma _root_.CM.Spec.Invertible2.wellPosed (h : Invertible2 S nx ny d0 d1) : WellPosed S nx ny := by
  rcases h with ⟨a, h, hγ, rfl, rfl⟩ | ⟨a, h, -, rfl, rfl⟩
  · exact .inl ⟨a, h, hγ⟩
  · exact .inr ⟨a, h⟩

lemma _root_.CM.Spec.Invertible2.le (h : Invertible2 S nx ny d0 d1) : nx ≤ d0 ∧ ny ≤ d1 := by
  rcases h with ⟨a, h, hγ, rfl, rfl⟩ | ⟨a, h, -, rfl, rfl⟩
  · exact ⟨le_rfl, le_rfl⟩
  · exact ⟨by omega, by omega⟩

lemma disp_force_rep {s : HalfSpace} [NeZero d0] [NeZero d1] {G : ZMod d0 × ZMod d1 → ℂ} (h : Rep s d0 d1 G) (hA : s.areaPerPt ≠ 0)
    (hG : ∀ k, G k ≠ 0) {u f : NdArray ℝ} (hu : u.shape = [d0, d1]) (hf : evaluateForce s u = .ok f) :
    ∃ w, evaluateDisp s f = .ok w ∧ ∀ i j, i < d0 → j < d1 → w.get [i, j] = u.get [i, j] := by
  obtain ⟨f', hf', hfs, hf2⟩ := h.force_ok hu
  rw [hf] at hf'; cases hf'
  obtain ⟨w, hw, -, hw2⟩ := h.disp_ok hfs
  refine ⟨w, hw, fun i j hi hj => ?_⟩
  have ht : (tor d0 d1 fun i j => f.get [i, j]) = fun p => (-s.areaPerPt) *
      (pair2 d0 d1).act (fun k => (G k)⁻¹) (tor d0 d1 fun i j => u.get [i, j]) p := by
    apply tor_self; intro i j _ _; rw [hf2]; ring
  rw [hw2, ht, act_smul, (pair2 d0 d1).act_act h.herm_inv,
    (pair2 d0 d1).act_congr (T := fun _ => 1) (fun k => mul_inv_cancel₀ (hG k)) (fun _ => rfl), (pair2 d0 d1).act_one, tor_cast _ hi hj]
  field_simp

lemma disp_force_comp (h : Invertible2 S nx ny d0 d1) {u f : NdArray ℝ} (hu : u.shape = [d0, d1])
    (hf : evaluateForce S.sub.hs u = .ok f) :
    ∃ w, HS.evaluateDisp S.sub.hs f = .ok w ∧ ∀ i j, i < d0 → j < d1 → w.get [i, j] = u.get [i, j] := by
  rcases h with ⟨a, h, hγ, rfl, rfl⟩ | ⟨a, h, hG, rfl, rfl⟩
  · obtain ⟨f', w, h1, h2, h3⟩ := C02_disp_force_inverse h.valid h.built h.grid hγ.ne' u hu
    rw [hf] at h1; cases h1
    exact ⟨w, h2, h3⟩
  · obtain ⟨_, _, P⟩ := free_of_construct h.valid h.built h.grid
    exact disp_force_rep P.rep P.area_pos.ne'
      (P.rep.ne_zero fun kx ky hx hy => hG kx ky (by omega) hy) hu hf

/-- A force field without forces in the padding: the substrate's answer to its part on the topography. -/
lemma comp_answer (h : Invertible2 S nx ny d0 d1) {f w : NdArray ℝ} (hf : f.shape = [d0, d1]) (hw : HS.evaluateDisp S.sub.hs f = .ok w)
    (hout : ∀ i j, i < d0 → j < d1 → ¬(i < nx ∧ j < ny) → f.get [i, j] = 0) (x : Fin nx × Fin ny) :
    answer S.sub 1 nx ny (fun y => -f.get [y.1, y.2]) x = w.get [x.1, x.2] := by
  obtain ⟨u, hu, hus, hu'⟩ := answer_eq h.wellPosed.sys fun y : Fin nx × Fin ny => -f.get [y.1, y.2]
  have ha : ∀ i j, i < nx → j < ny → f.get [i, j] = (arr fun y : Fin nx × Fin ny => -f.get [y.1, y.2]).get [i, j] := fun i j hi hj => by
    rw [arr_get' _ hi hj, neg_neg]
  rw [hu' x]
  have hsys := h.wellPosed.sys
  rcases h with ⟨a, h, hγ, rfl, rfl⟩ | ⟨a, h, hG, rfl, rfl⟩
  · have he : S.sub.evaluateDisp = HS.evaluateDisp S.sub.hs := by
      funext f; unfold Substrate.evaluateDisp; rw [if_neg (by rw [h.periodic]; simp)]
    rw [← he] at hw
    exact (symOp_disp hsys).congr rfl hf (fun i j hi hj => (ha i j hi hj).symm) hu hw _ _ x.1.2 x.2.2
  · unfold Substrate.evaluateDisp at hu
    rw [if_pos h.free] at hu
    obtain ⟨u1, v1, w1, w2, k1, k2, k3, k4, -, -, -, -, k5, k6⟩ := C20_padding_equivalent h.valid h.built h.grid
      (arr fun y : Fin nx × Fin ny => -f.get [y.1, y.2]) f rfl hf ha hout
    rw [hu] at k1; cases k1
    obtain ⟨_, _, P⟩ := free_of_construct h.valid h.built h.grid
    have hb : evaluateDispFree S.sub.hs f false = HS.evaluateDisp S.sub.hs f := by
      unfold evaluateDispFree
      rw [branch_topo P, if_pos hf]
    rw [hb, hw] at k3; cases k3
    rw [k5 _ _ x.1.2 x.2.2, k6 _ _ (by omega) (by omega)]

/-- The bounds of `lbounds="auto"`. -/
lemma auto_lower (h : Invertible2 S nx ny d0 d1) (off : ℝ) {i j : ℕ} (hi : i < d0) (hj : j < d1) :
    lower (reshapeBounds (some (lboundsFromHeights S off)) none) (i * d1 + j)
      = if i < nx ∧ j < ny then ((S.heights.get [i, j] + off : ℝ) : EReal) else ⊥ := by
  have hd := comp_dom h.comp
  have ht := topo_eq h.wellPosed.sys
  have hu : unflatIndex [d0, d1] (i * d1 + j) = [i, j] := by
    have := unflat_flat (s := [d0, d1]) (x := [i, j]) (valid2.2 ⟨i, j, rfl, hi, hj⟩)
    simpa [flatIndex] using this
  have : lower (reshapeBounds (some (lboundsFromHeights S off)) none) (i * d1 + j)
      = ((lboundsFromHeights S off).filled ⊥).get [i * d1 + j] := rfl
  rw [this]
  simp only [Masked.filled, ravel, NdArray.flat, lboundsFromHeights, hd, ht, hu]
  by_cases hin : i < nx ∧ j < ny
  · have : inSlice [nx, ny] [i, j] = true := inSlice_iff.2 (valid2.2 ⟨i, j, rfl, hin.1, hin.2⟩)
    rw [if_pos hin, if_neg (by rw [this]; simp)]
  · have : inSlice [nx, ny] [i, j] = false := by
      rw [Bool.eq_false_iff]
      intro e
      obtain ⟨i', j', e', h1, h2⟩ := valid2.1 (inSlice_iff.1 e)
      simp only [List.cons.injEq, and_true] at e'
      obtain ⟨rfl, rfl⟩ := e'
      exact hin ⟨h1, h2⟩
    rw [if_neg hin, if_pos (by rw [this]; simp)]

lemma objective_frame (S : Sys) (off : ℝ) (d : NdArray ℝ) :
    (objective S off d).2.sub = S.sub ∧ (objective S off d).2.heights = S.heights := by
  unfold objective
  split
  · exact ⟨rfl, rfl⟩
  · rename_i d' _
    have := evaluate_frame S d' off true true
    split <;> (rename_i he; rw [he] at this; exact ⟨this.2.2.1, this.2.2.2⟩)

lemma comp_frame (h : CompGrid S d0 d1) {S' : Sys} (h1 : S'.sub = S.sub) (h2 : S'.heights = S.heights) : CompGrid S' d0 d1 := by
  rcases h with ⟨a, h⟩ | ⟨a, nx, ny, h, rfl, rfl⟩
  · exact .inl ⟨a, periodic_frame h h1 h2⟩
  · exact .inr ⟨a, nx, ny, ⟨h.valid, h1 ▸ h.built, h.grid, h1 ▸ h.free, h2 ▸ h.heights⟩, rfl, rfl⟩

lemma callAll_objective (h : CompGrid S d0 d1) (off : ℝ) (ps : List (NdArray ℝ)) (hps : ∀ p ∈ ps, p.size = d0 * d1) :
    ∃ S', callAll (fun S => objective S off) S ps = (.ok (), S') ∧ S'.sub = S.sub ∧ S'.heights = S.heights := by
  induction ps generalizing S with
  | nil => exact ⟨S, rfl, rfl, rfl⟩
  | cons p ps ih =>
    obtain ⟨_, _, _, S1, -, -, -, -, -, -, h7⟩ := objective_eq h off p (hps p (by simp))
    have hfr := objective_frame S off p
    rw [h7] at hfr
    obtain ⟨S', e1, e2, e3⟩ := ih (comp_frame h hfr.1 hfr.2) fun q hq => hps q (by simp [hq])
    refine ⟨S', ?_, e2.trans hfr.1, e3.trans hfr.2⟩
    rw [callAll]; simp only [h7]; exact e1

/-- **C173** Bounded minimisation over displacements (`SystemBase.minimize_proxy(system, lbounds="auto")` with a bounded minimiser) solves
the contact problem: on the topography, minus the substrate forces are the contact pressures and the displacements are the substrate's
answer to them; in the padding of a nonperiodic substrate there are no forces. -/
theorem C173_bounded_minimisation (h : Invertible2 S nx ny d0 d1) (off : ℝ) (init : Option (NdArray ℝ))
    (hinit : ∀ g, init = some g → g.size = d0 * d1) {method : String} (hm : TakesBounds method) (scipy : ScipyCall → SolverRun)
    (hs : ∀ c, baseCall S 1 off init method false (.text "auto") none = .ok c → Promise S off (d0 * d1) c (scipy c)) :
    ∃ r S' f u, baseMinimizeProxy S 1 off init method false (.text "auto") none scipy = (.ok r, S') ∧ S'.force = some f ∧
      S'.disp = some u ∧ S'.offset = some off ∧ f.shape = [d0, d1] ∧ u.shape = [d0, d1] ∧
      (∀ i j, i < d0 → j < d1 → ¬(i < nx ∧ j < ny) → f.get [i, j] = 0) ∧
      ContactState S nx ny off (fieldArray nx ny fun x => -f.get [x.1, x.2]) (fieldArray nx ny fun x => u.get [x.1, x.2]) := by
  rw [takesBounds_iff] at hm
  have hd := comp_dom h.comp
  have hc : ∃ x0, baseCall S 1 off init method false (.text "auto") none
      = .ok ⟨x0, method, reshapeBounds (some (lboundsFromHeights S off)) none⟩ := by
    have hx : ∃ x0, shapeMinimisationInput S (init.getD ⟨S.sub.hs.domain, fun _ => 0⟩) = .ok x0 := by
      unfold shapeMinimisationInput
      rw [if_pos]
      · exact ⟨_, rfl⟩
      · cases init with
        | none => simp [NdArray.size]
        | some g => rw [hd]; simp [hinit g rfl]
    obtain ⟨x0, hx0⟩ := hx
    refine ⟨x0, ?_⟩
    unfold baseCall
    simp only [hx0, bind, Except.bind, pure, Except.pure, lt_irrefl, if_false, Bool.false_eq_true, if_true, hm]
  obtain ⟨x0, hc⟩ := hc
  obtain ⟨hp, hsz, ⟨E, S1, hg⟩, hk⟩ := hs _ hc
  unfold baseMinimizeProxy
  rw [hc]
  dsimp only
  set c : ScipyCall := ⟨x0, method, reshapeBounds (some (lboundsFromHeights S off)) none⟩ with hcdef
  obtain ⟨S2, e1, e2, e3⟩ := callAll_objective h.comp off (scipy c).points hp
  rw [e1]
  dsimp only
  -- the gradient
  obtain ⟨u', f, G, S3, h1, h2, h3, h4, h5, h6, h7⟩ := objective_eq h.comp off (scipy c).result.x hsz
  rw [h7] at hg
  obtain ⟨⟨-, eG⟩, -⟩ : (_ ∧ G = (scipy c).result.jac) ∧ _ := by simpa using hg
  have hjs : (scipy c).result.jac.size = d0 * d1 := by rw [← eG]; simp [NdArray.size, h5]
  rw [← eG] at hk
  -- the update
  have hcg : CompGrid S2 d0 d1 := comp_frame h.comp e2 e3
  obtain ⟨u, hr, hus, huf⟩ := reshape_ok (scipy c).result.x (s := [d0, d1]) (by simp [hsz])
  obtain ⟨j', hj, -, -⟩ := reshape_ok (scipy c).result.jac (s := [d0, d1]) (by simp [hjs])
  have huf' : ∀ k < d0 * d1, u.flat k = (scipy c).result.x.flat k := fun k hk => huf k (by simpa using hk)
  have huu : ∀ i j, i < d0 → j < d1 → u'.get [i, j] = u.get [i, j] := fun i j hi hj => by
    rw [← flat_get h1 hi hj, ← flat_get hus hi hj, h2 _ (flat_lt hi hj), huf' _ (flat_lt hi hj)]
  obtain ⟨F, hF, hFs⟩ := (symOp_force_comp h.comp).ok u hus
  have hFf := (symOp_force_comp h.comp).congr h1 hus huu h3 hF
  set T : Sys := { S2 with offset := some off, disp := some u } with hT
  have hTg : CompGrid T d0 d1 := comp_frame hcg rfl rfl
  have hF' : evaluateForce T.sub.hs u = .ok F := by rw [hT]; dsimp only; rw [e2]; exact hF
  obtain ⟨S4, k1, -, k2, -, k3, k4, k5, k6⟩ := comp_evaluate hTg hus hF' off
  have hd4 : S4.sub.hs.domain = [d0, d1] := by rw [k4]; exact comp_dom hTg
  have hup : updateState S2 off (scipy c).result = (.ok { (scipy c).result with x := u, jac := j' }, S4) := by
    unfold updateState
    dsimp only
    have a1 : shapeMinimisationOutput { S2 with offset := some off } (scipy c).result.x = .ok u := by
      unfold shapeMinimisationOutput
      rw [if_pos (by show S2.sub.hs.domain.prod = _; rw [comp_dom hcg, hsz]; simp)]
      show reshape _ S2.sub.hs.domain = _
      rw [comp_dom hcg]; exact hr
    have a2 : shapeMinimisationOutput S4 (scipy c).result.x = .ok u := by
      unfold shapeMinimisationOutput
      rw [if_pos (by rw [hd4, hsz]; simp), hd4]; exact hr
    have a3 : shapeMinimisationOutput S4 (scipy c).result.jac = .ok j' := by
      unfold shapeMinimisationOutput
      rw [if_pos (by rw [hd4, hjs]; simp), hd4]; exact hj
    rw [a1]
    dsimp only
    rw [show ({ S2 with offset := some off, disp := some u } : Sys) = T from rfl, k1]
    dsimp only
    rw [a2, a3]
  rw [hup]
  have hG : ∀ i j, i < d0 → j < d1 → G.flat (i * d1 + j) = -(F.get [i, j]) := fun i j hi hj => by
    rw [h6, flat_get h4 hi hj, hFf i j hi hj]
  have hx : ∀ i j, i < d0 → j < d1 → (scipy c).result.x.flat (i * d1 + j) = u.get [i, j] := fun i j hi hj => by
    rw [← huf' _ (flat_lt hi hj), flat_get hus hi hj]
  have hup' : ∀ k, upper (reshapeBounds (some (lboundsFromHeights S off)) none) k = ⊤ := fun _ => rfl
  have hnonneg : ∀ i j, i < d0 → j < d1 → F.get [i, j] ≤ 0 := by
    intro i j hi hj
    by_contra hc'
    push Not at hc'
    have := hk.neg _ (flat_lt hi hj) (by rw [hG i j hi hj]; linarith)
    rw [hcdef] at this
    exact EReal.coe_ne_top _ (this.trans (hup' _))
  have hlow := fun i j hi hj => auto_lower h off (i := i) (j := j) hi hj
  have hpad : ∀ i j, i < d0 → j < d1 → ¬(i < nx ∧ j < ny) → F.get [i, j] = 0 := by
    intro i j hi hj hn
    by_contra hne
    have hlt := lt_of_le_of_ne (hnonneg i j hi hj) hne
    have := hk.pos _ (flat_lt hi hj) (by rw [hG i j hi hj]; linarith)
    have e := hlow i j hi hj
    rw [if_neg hn] at e
    exact EReal.coe_ne_bot _ (this.trans e)
  obtain ⟨w, hw, hwu⟩ := disp_force_comp h hus hF
  have hans := comp_answer h hFs hw hpad
  obtain ⟨le0, le1⟩ := h.le
  have hfl : ∀ g : Fin nx × Fin ny → ℝ, flatField nx ny (fieldArray nx ny g) = g := fun g => by
    funext x
    rw [flatField_get (f := fieldArray nx ny g) rfl]
    simp [fieldArray, x.1.2, x.2.2]
  refine ⟨_, S4, F, u, rfl, k2, by rw [k3], by rw [k6], hFs, hus, hpad, ?_, ?_⟩
  · rw [hfl, hfl]
    funext x
    rw [hans x, hwu _ _ (by omega) (by omega)]
  · rw [hfl]
    refine ⟨fun x => ?_, fun x => ?_, fun x hne => ?_⟩
    · have := hnonneg x.1 x.2 (by omega) (by omega); linarith
    · have ha := hk.above _ (flat_lt (nx := d0) (ny := d1) (i := x.1) (j := x.2) (by omega) (by omega))
      have e := hlow x.1 x.2 (by omega) (by omega)
      rw [if_pos ⟨x.1.2, x.2.2⟩] at e
      have := e ▸ ha
      rw [EReal.coe_le_coe_iff, hx _ _ (by omega) (by omega)] at this
      rw [hans x, hwu _ _ (by omega) (by omega), flatField_get (heights_eq h.wellPosed.sys)]
      exact this
    · have hlt : F.get [x.1, x.2] < 0 := lt_of_le_of_ne (hnonneg x.1 x.2 (by omega) (by omega)) (fun e => hne (by rw [e, neg_zero]))
      have ha := hk.pos _ (flat_lt (nx := d0) (ny := d1) (i := x.1) (j := x.2) (by omega) (by omega))
        (by rw [hG _ _ (by omega) (by omega)]; linarith)
      have e := hlow x.1 x.2 (by omega) (by omega)
      rw [if_pos ⟨x.1.2, x.2.2⟩] at e
      have := ha.trans e
      rw [EReal.coe_eq_coe_iff, hx _ _ (by omega) (by omega)] at this
      rw [hans x, hwu _ _ (by omega) (by omega), flatField_get (heights_eq h.wellPosed.sys)]
      exact this

/-- **C173** The hypotheses of `C173_bounded_minimisation` can be met for every periodic system with stiffness at the Gamma point, every
offset and every start: a field with the promised optimality exists. -/
theorem C173_solvable (h : PeriodicSystem S a nx ny) (hγ : 0 < gammaStiffness a) (off : ℝ) (init : Option (NdArray ℝ))
    (method : String) : ∃ run : SolverRun, run.points ≠ [] ∧ ∀ c, baseCall S 1 off init method false (.text "auto") none = .ok c →
      TakesBounds method → Promise S off (nx * ny) c run := by
  obtain ⟨g, G, E, S1, h1, h2, h3⟩ := C171_primal_solvable h hγ off
  let u : NdArray ℝ := fieldArray nx ny fun x => g.flat (x.1 * ny + x.2) + S.heights.get [x.1, x.2] + off
  have hus : u.shape = [nx, ny] := rfl
  have hu : u.size = nx * ny := by simp [NdArray.size, hus]
  have hs : System2 S nx ny := .inl ⟨a, h⟩
  have hfl : ∀ i j, i < nx → j < ny → u.flat (i * ny + j) = g.flat (i * ny + j) + S.heights.get [i, j] + off := fun i j hi hj => by
    rw [flat_get hus hi hj]
    simp [u, fieldArray, hi, hj]
  have hug : ∀ k < nx * ny, u.flat k = g.flat k + S.heights.flat k + off := fun k hk => by
    obtain ⟨i, j, hi, hj, rfl, e⟩ := get_of_flat (heights_eq hs) hk
    rw [hfl i j hi hj, e]
  obtain ⟨E', F, G', S', e1, e2, -, e4⟩ := C49_primal_value h off g h1 u hus hug
  rw [h2] at e2
  obtain ⟨⟨-, rfl⟩, -⟩ : (_ ∧ G = G') ∧ _ := by simpa using e2
  obtain ⟨E2, F2, G2, T, f1, f2, -, f4, f5⟩ := C172_objective_value (S := S) (.inl ⟨a, h⟩) off u u hu hus fun _ _ => rfl
  rw [e1] at f1
  obtain ⟨rfl, rfl⟩ : E' = E2 ∧ F = F2 := by simpa using f1
  have hGG : ∀ k < nx * ny, G2.flat k = G.flat k := fun k hk => by rw [f5 k hk, e4 k hk]
  refine ⟨⟨[u], true, u, G2, 0, ⟨[], fun _ => false⟩, ⟨[], fun _ => false⟩⟩, by simp, fun c hc hm => ?_⟩
  rw [takesBounds_iff] at hm
  have hb : c.bounds = reshapeBounds (some (lboundsFromHeights S off)) none := by
    unfold baseCall at hc
    cases hx : shapeMinimisationInput S (init.getD ⟨S.sub.hs.domain, fun _ => 0⟩) with
    | error e => simp [hx, bind, Except.bind, pure, Except.pure] at hc
    | ok x0 =>
      simp only [hx, bind, Except.bind, pure, Except.pure, lt_irrefl, if_false, Bool.false_eq_true, if_true, hm, Except.ok.injEq] at hc
      rw [← hc]
  have hlow : ∀ k < nx * ny, lower c.bounds k = ((S.heights.flat k + off : ℝ) : EReal) := fun k hk => by
    obtain ⟨i, j, hi, hj, rfl, e⟩ := get_of_flat (heights_eq hs) hk
    rw [hb, auto_lower (.inl ⟨a, h, hγ, rfl, rfl⟩) off hi hj, if_pos ⟨hi, hj⟩, e]
  have hupp : ∀ k, upper c.bounds k = ⊤ := fun k => by rw [hb]; rfl
  refine ⟨by simp [hu], hu, ⟨_, _, f2⟩, fun k hk => ?_, fun k hk => by rw [hupp]; exact le_top, fun k hk hpos => ?_, fun k hk hneg => ?_⟩
  · rw [hlow k hk, EReal.coe_le_coe_iff, hug k hk]
    linarith [h3.1 k hk]
  · rw [hlow k hk, EReal.coe_eq_coe_iff, hug k hk]
    rw [show (SolverRun.result _).jac = G2 from rfl, hGG k hk] at hpos
    have := h3.2.2 k hk
    rcases mul_eq_zero.1 this with h | h
    · linarith
    · linarith
  · rw [show (SolverRun.result _).jac = G2 from rfl, hGG k hk] at hneg
    exact absurd (h3.2.1 k hk) (not_le.2 hneg)

/-- **C173** Calls that are refused leave the system as it was: several processes, a start of the wrong size, `callback=True`, a text that is
not `"auto"`. -/
theorem C173_refused (S : Sys) (nprocs : ℕ) (off : ℝ) (init : Option (NdArray ℝ)) (method : String) (cb : Bool) (lb : LBounds)
    (ub : Option Masked) (scipy : ScipyCall → SolverRun) :
    (1 < nprocs → baseMinimizeProxy S nprocs off init method cb lb ub scipy = (.error .valueError, S)) ∧
    (nprocs ≤ 1 → (∃ g, init = some g ∧ g.size ≠ S.sub.hs.domain.prod) →
      baseMinimizeProxy S nprocs off init method cb lb ub scipy = (.error .incompatibleResolution, S)) ∧
    (nprocs ≤ 1 → (∀ g, init = some g → g.size = S.sub.hs.domain.prod) → cb = true →
      baseMinimizeProxy S nprocs off init method cb lb ub scipy = (.error .notImplemented, S)) ∧
    (nprocs ≤ 1 → (∀ g, init = some g → g.size = S.sub.hs.domain.prod) → cb = false → (∃ s, lb = .text s ∧ s ≠ "auto") →
      baseMinimizeProxy S nprocs off init method cb lb ub scipy = (.error .valueError, S)) := by
  have hx : (∀ g, init = some g → g.size = S.sub.hs.domain.prod) →
      shapeMinimisationInput S (init.getD ⟨S.sub.hs.domain, fun _ => 0⟩) = .ok (ravel (init.getD ⟨S.sub.hs.domain, fun _ => 0⟩)) := by
    intro hi
    unfold shapeMinimisationInput
    rw [if_pos]
    cases init with
    | none => rfl
    | some g => exact (hi g rfl).symm
  refine ⟨fun h => ?_, fun h => ?_, fun h hi hc => ?_, fun h hi hc => ?_⟩
  · have : baseCall S nprocs off init method cb lb ub = .error .valueError := by
      unfold baseCall; rw [if_pos h]; rfl
    unfold baseMinimizeProxy; rw [this]
  · rintro ⟨g, rfl, hg⟩
    have : baseCall S nprocs off (some g) method cb lb ub = .error .incompatibleResolution := by
      unfold baseCall shapeMinimisationInput
      rw [if_neg (by omega), Option.getD_some, if_neg (Ne.symm hg)]; rfl
    unfold baseMinimizeProxy; rw [this]
  · have : baseCall S nprocs off init method cb lb ub = .error .notImplemented := by
      unfold baseCall
      rw [if_neg (by omega), hx hi, hc]; rfl
    unfold baseMinimizeProxy; rw [this]
  · rintro ⟨s, rfl, hs⟩
    have : baseCall S nprocs off init method cb (.text s) ub = .error .valueError := by
      unfold baseCall
      rw [if_neg (by omega), hx hi, hc]
      simp [bind, Except.bind, pure, Except.pure, hs, throw, throwThe, MonadExceptOf.throw]
    unfold baseMinimizeProxy; rw [this]

/-- **C173** (refuted) Bounds are dropped without notice for every method other than `L-BFGS-B`, `TNC` and `SLSQP`, including the bounded
minimisers `Nelder-Mead`, `Powell`, `trust-constr` and `COBYLA` of scipy: the optimiser gets the same call as without bounds. -/
theorem C173_bounds_dropped_partial (S : Sys) (off : ℝ) (init : Option (NdArray ℝ)) {method : String} (hm : ¬ TakesBounds method)
    (lb : LBounds) (hlb : ∀ s, lb = .text s → s = "auto") (ub : Option Masked) (scipy : ScipyCall → SolverRun) :
    baseMinimizeProxy S 1 off init method false lb ub scipy = baseMinimizeProxy S 1 off init method false .missing none scipy := by
  rw [takesBounds_iff] at hm
  have : baseCall S 1 off init method false lb ub = baseCall S 1 off init method false .missing none := by
    unfold baseCall
    simp only [if_neg hm]
    cases hx : shapeMinimisationInput S (init.getD ⟨S.sub.hs.domain, fun _ => 0⟩) with
    | error e => rfl
    | ok x0 =>
      cases lb with
      | missing => rfl
      | array m => rfl
      | text s => rw [hlb s rfl]; rfl
  unfold baseMinimizeProxy
  rw [this]

example : ¬ TakesBounds "Powell" ∧ ¬ TakesBounds "Nelder-Mead" ∧ ¬ TakesBounds "trust-constr" ∧ TakesBounds "L-BFGS-B" := by simp [TakesBounds]

/-- **C173** (refuted) ... so that the "solution" of a contact problem with `lbounds="auto"` can be a surface that overlaps the substrate: with
such a method the undeformed substrate keeps every promise of the optimiser, and the recorded state has no forces whatever the heights
and the offset. -/
theorem C173_overlap_partial (h : CompGrid S d0 d1) (off : ℝ) {method : String} (hm : ¬ TakesBounds method) :
    ∃ run : SolverRun, (∀ c, baseCall S 1 off none method false (.text "auto") none = .ok c → Promise S off (d0 * d1) c run) ∧
      ∃ r S' f u, baseMinimizeProxy S 1 off none method false (.text "auto") none (fun _ => run) = (.ok r, S') ∧
        S'.force = some f ∧ S'.disp = some u ∧ (∀ i j, i < d0 → j < d1 → f.get [i, j] = 0 ∧ u.get [i, j] = 0) := by
  rw [takesBounds_iff] at hm
  let u : NdArray ℝ := ⟨[d0, d1], fun _ => 0⟩
  have hd := comp_dom h
  have hu : u.size = d0 * d1 := by simp [NdArray.size, u]
  obtain ⟨E, F, G, T, f1, f2, -, f4, f5⟩ := C172_objective_value h off u u hu rfl fun _ _ => rfl
  have hF : evaluateForce S.sub.hs u = .ok F := by
    obtain ⟨F', hF', -⟩ := (symOp_force_comp h).ok u rfl
    rw [comp_evaluate_true h hF'] at f1
    obtain ⟨-, rfl⟩ : _ ∧ F' = F := by simpa using f1
    exact hF'
  have hFs : F.shape = [d0, d1] := by
    obtain ⟨F', hF', hs⟩ := (symOp_force_comp h).ok u rfl
    rw [hF] at hF'; cases hF'; exact hs
  have hF0 : ∀ i j, i < d0 → j < d1 → F.get [i, j] = 0 := fun i j hi hj => by
    have := (symOp_force_comp h).lin 0 0 u u u rfl rfl rfl (fun i j _ _ => by simp [u]) F F F hF hF hF i j hi hj
    simpa using this
  have hG0 : ∀ k < d0 * d1, G.flat k = 0 := fun k hk => by
    obtain ⟨i, j, hi, hj, rfl, e⟩ := get_of_flat hFs hk
    rw [f5 _ hk, e, hF0 i j hi hj, neg_zero]
  let run : SolverRun := ⟨[u], true, u, G, 0, ⟨[], fun _ => false⟩, ⟨[], fun _ => false⟩⟩
  have hx : shapeMinimisationInput S ⟨S.sub.hs.domain, fun _ => 0⟩ = .ok (ravel ⟨S.sub.hs.domain, fun _ => 0⟩) := by
    unfold shapeMinimisationInput; exact if_pos rfl
  have hc : baseCall S 1 off none method false (.text "auto") none = .ok ⟨ravel ⟨S.sub.hs.domain, fun _ => 0⟩, method, none⟩ := by
    unfold baseCall
    simp only [Option.getD_none, hx, bind, Except.bind, pure, Except.pure, lt_irrefl, if_false, Bool.false_eq_true, if_true, hm]
  refine ⟨run, fun c hc' => ?_, ?_⟩
  · rw [hc] at hc'
    cases hc'
    refine ⟨by simp [run, hu], hu, ⟨_, _, f2⟩, fun k _ => bot_le, fun k _ => le_top, fun k hk hp => ?_, fun k hk hn => ?_⟩
    · exact absurd hp (by rw [show run.result.jac = G from rfl, hG0 k hk]; exact lt_irrefl 0)
    · exact absurd hn (by rw [show run.result.jac = G from rfl, hG0 k hk]; exact lt_irrefl 0)
  · unfold baseMinimizeProxy
    rw [hc]
    dsimp only
    obtain ⟨S2, e1, e2, e3⟩ := callAll_objective h off run.points (by simp [run, hu])
    rw [e1]
    dsimp only
    have hcg : CompGrid S2 d0 d1 := comp_frame h e2 e3
    set T : Sys := { S2 with offset := some off, disp := some u } with hT
    have hTg : CompGrid T d0 d1 := comp_frame hcg rfl rfl
    have hF' : evaluateForce T.sub.hs u = .ok F := by rw [hT]; dsimp only; rw [e2]; exact hF
    obtain ⟨S4, k1, -, k2, -, k3, k4, k5, k6⟩ := comp_evaluate hTg rfl hF' off
    have hd4 : S4.sub.hs.domain = [d0, d1] := by rw [k4]; exact comp_dom hTg
    obtain ⟨u', hr, hus, huf⟩ := reshape_ok u (s := [d0, d1]) (by simp [hu])
    have huu : u' = u := by
      have : reshape u [d0, d1] = .ok u := by
        unfold reshape
        rw [if_pos (by simp [hu])]
        congr 1
      rw [hr] at this; exact Except.ok.inj this
    subst huu
    obtain ⟨j', hj, -, -⟩ := reshape_ok G (s := [d0, d1]) (by simp [NdArray.size, f4])
    have hup : updateState S2 off run.result = (.ok { run.result with x := u, jac := j' }, S4) := by
      unfold updateState
      dsimp only
      have a1 : shapeMinimisationOutput { S2 with offset := some off } run.result.x = .ok u := by
        unfold shapeMinimisationOutput
        rw [if_pos (by show S2.sub.hs.domain.prod = _; rw [comp_dom hcg]; simp [run, hu])]
        show reshape _ S2.sub.hs.domain = _
        rw [comp_dom hcg]; exact hr
      have a2 : shapeMinimisationOutput S4 run.result.x = .ok u := by
        unfold shapeMinimisationOutput
        rw [if_pos (by rw [hd4]; simp [run, hu]), hd4]; exact hr
      have a3 : shapeMinimisationOutput S4 run.result.jac = .ok j' := by
        unfold shapeMinimisationOutput
        rw [if_pos (by rw [hd4]; simp [run, NdArray.size, f4]), hd4]; exact hj
      rw [a1]
      dsimp only
      rw [show ({ S2 with offset := some off, disp := some u } : Sys) = T from rfl, k1]
      dsimp only
      rw [a2, a3]
    rw [hup]
    exact ⟨_, S4, F, u, rfl, k2, by rw [k3], fun i j hi hj => ⟨hF0 i j hi hj, rfl⟩⟩

/-- **C173** (refuted) The result is recorded whether or not the optimiser converged: after a run that reports failure the system carries the
same displacements, forces, energy and offset as after one that reports success with the same fields (the constrained methods
`primal_minimize_proxy` and `dual_minimize_proxy` only do so on success). -/
theorem C173_unconverged_partial (S : Sys) (nprocs : ℕ) (off : ℝ) (init : Option (NdArray ℝ)) (method : String) (cb : Bool)
    (lb : LBounds) (ub : Option Masked) (scipy : ScipyCall → SolverRun) (b : Bool) :
    (baseMinimizeProxy S nprocs off init method cb lb ub fun c => ⟨(scipy c).points, { (scipy c).result with success := b }⟩).2
      = (baseMinimizeProxy S nprocs off init method cb lb ub scipy).2 := by
  have hu : ∀ (S' : Sys) (r : OptResult), (updateState S' off { r with success := b }).2 = (updateState S' off r).2 := by
    intro S' r
    unfold updateState
    dsimp only
    split
    · rfl
    · split
      · rfl
      · split <;> rfl
  unfold baseMinimizeProxy
  cases baseCall S nprocs off init method cb lb ub with
  | error e => rfl
  | ok c =>
    dsimp only
    split
    · rfl
    · exact hu _ _

/-- Hypotheses of C172 and C173: a periodic system with bounded minimisation that has an optimum, and a nonperiodic system. -/
example (off : ℝ) : ∃ S run, Invertible2 S 3 4 3 4 ∧ TakesBounds "L-BFGS-B" ∧
    ∃ c, baseCall S 1 off none "L-BFGS-B" false (.text "auto") none = .ok c ∧ Promise S off (3 * 4) c run := by
  obtain ⟨S, h, hγ, -⟩ := demo_system
  have hm : "L-BFGS-B" ∈ boundedMinimizers := by simp [boundedMinimizers]
  obtain ⟨run, -, hr⟩ := C173_solvable h hγ off none "L-BFGS-B"
  have hx : shapeMinimisationInput S ⟨S.sub.hs.domain, fun _ => 0⟩ = .ok (ravel ⟨S.sub.hs.domain, fun _ => 0⟩) := by
    unfold shapeMinimisationInput; exact if_pos rfl
  have hc : baseCall S 1 off none "L-BFGS-B" false (.text "auto") none
      = .ok ⟨ravel ⟨S.sub.hs.domain, fun _ => 0⟩, "L-BFGS-B", reshapeBounds (some (lboundsFromHeights S off)) none⟩ := by
    unfold baseCall
    simp only [Option.getD_none, hx, bind, Except.bind, pure, Except.pure, lt_irrefl, if_false, Bool.false_eq_true, if_true, hm]
  exact ⟨S, run, .inl ⟨_, h, hγ, rfl, rfl⟩, (takesBounds_iff _).2 hm, _, hc, hr _ hc ((takesBounds_iff _).2 hm)⟩

example : ∃ S, CompGrid S (2 * 2) (2 * 3) := by
  obtain ⟨S, h, -⟩ := demo_free_system
  exact ⟨S, .inr ⟨_, 2, 3, h, rfl, rfl⟩⟩

end CM.System
