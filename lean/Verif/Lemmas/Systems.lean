import Verif.Spec.Systems
import Verif.Lemmas.Array
import Verif.Props.Free2
import Verif.Props.HalfSpace4
/-!
# Lemmas on contact systems
-/
namespace CM.System
open Finset CM.HS CM.FFT CM.Spec

variable {nx ny : ℕ}

/-- A linear, reciprocal operation on `nx × ny` arrays. -/
structure SymOp (nx ny : ℕ) (T : NdArray ℝ → Except PyErr (NdArray ℝ)) : Prop where
  ok : ∀ f : NdArray ℝ, f.shape = [nx, ny] → ∃ u, T f = .ok u ∧ u.shape = [nx, ny]
  lin : ∀ (α β : ℝ) (f g h : NdArray ℝ), f.shape = [nx, ny] → g.shape = [nx, ny] → h.shape = [nx, ny] →
    (∀ i j, i < nx → j < ny → h.get [i, j] = α * f.get [i, j] + β * g.get [i, j]) →
    ∀ u v w, T f = .ok u → T g = .ok v → T h = .ok w →
    ∀ i j, i < nx → j < ny → w.get [i, j] = α * u.get [i, j] + β * v.get [i, j]
  symm : ∀ f g u v : NdArray ℝ, f.shape = [nx, ny] → g.shape = [nx, ny] → T f = .ok u → T g = .ok v →
    work nx ny f v = work nx ny g u

lemma tor_congr {nx ny : ℕ} [NeZero nx] [NeZero ny] {f g : ℕ → ℕ → ℝ}
    (h : ∀ i j, i < nx → j < ny → f i j = g i j) : tor nx ny f = tor nx ny g := by
  funext p
  exact h _ _ (ZMod.val_lt _) (ZMod.val_lt _)

lemma symOp_force {S : Sys} {a : Args} (h : PeriodicSystem S a nx ny) : SymOp nx ny (evaluateForce S.sub.hs) := by
  obtain ⟨_, _, P⟩ := per_of_construct h.valid h.built h.grid
  refine ⟨fun f hf => ?_, ?_, ?_⟩
  · obtain ⟨u, hu, hsh, -⟩ := P.force hf; exact ⟨u, hu, hsh⟩
  · intro α β f g h' hf hg hh heq u v w hu hv hw i j hi hj
    obtain ⟨u', v', w', e1, e2, e3, e4⟩ := C01_force_linear h.valid h.built h.grid α β f g hf hg
    obtain ⟨w1, e5, -, e6⟩ := P.force hh
    obtain ⟨w2, e7, -, e8⟩ := P.force (u := lincomb α f β g) hf
    rw [hu] at e1; rw [hv] at e2; rw [hw] at e5; rw [e3] at e7
    cases e1; cases e2; cases e5; cases e7
    rw [← e4 i j hi hj, e6, e8, tor_congr (f := fun i j => h'.get [i, j]) (g := fun i j => (lincomb α f β g).get [i, j]) heq]
  · intro f g u v hf hg hu hv
    obtain ⟨u', v', e1, e2, e3⟩ := C03_force_reciprocal h.valid h.built h.grid f g hf hg
    rw [hu] at e1; rw [hv] at e2; cases e1; cases e2
    exact e3

lemma symOp_disp_periodic {S : Sys} {a : Args} (h : PeriodicSystem S a nx ny) : SymOp nx ny S.sub.evaluateDisp := by
  obtain ⟨_, _, P⟩ := per_of_construct h.valid h.built h.grid
  have he : S.sub.evaluateDisp = HS.evaluateDisp S.sub.hs := by
    funext f; unfold Substrate.evaluateDisp; rw [if_neg (by rw [h.periodic]; simp)]
  rw [he]
  refine ⟨fun f hf => ?_, ?_, ?_⟩
  · obtain ⟨u, hu, hsh, -⟩ := P.disp hf; exact ⟨u, hu, hsh⟩
  · intro α β f g h' hf hg hh heq u v w hu hv hw i j hi hj
    obtain ⟨u', v', w', e1, e2, e3, e4⟩ := C01_disp_linear h.valid h.built h.grid α β f g hf hg
    obtain ⟨w1, e5, -, e6⟩ := P.disp hh
    obtain ⟨w2, e7, -, e8⟩ := P.disp (f := lincomb α f β g) hf
    rw [hu] at e1; rw [hv] at e2; rw [hw] at e5; rw [e3] at e7
    cases e1; cases e2; cases e5; cases e7
    rw [← e4 i j hi hj, e6, e8, tor_congr (f := fun i j => h'.get [i, j]) (g := fun i j => (lincomb α f β g).get [i, j]) heq]
  · intro f g u v hf hg hu hv
    obtain ⟨u', v', e1, e2, e3⟩ := C03_disp_reciprocal h.valid h.built h.grid f g hf hg
    rw [hu] at e1; rw [hv] at e2; cases e1; cases e2
    exact e3

lemma symOp_disp_free {S : Sys} {a : FreeArgs} (h : FreeSystem S a nx ny) : SymOp nx ny S.sub.evaluateDisp := by
  have he : S.sub.evaluateDisp = fun f => evaluateDispFree S.sub.hs f false := by
    funext f; unfold Substrate.evaluateDisp; rw [if_pos h.free]
  rw [he]
  refine ⟨fun f hf => ?_, ?_, ?_⟩
  · obtain ⟨u, hu, hsh, -⟩ := C19_free_direct_sum h.valid h.built h.grid f hf; exact ⟨u, hu, hsh⟩
  · intro α β f g h' hf hg hh heq u v w hu hv hw i j hi hj
    obtain ⟨u', e1, -, e1'⟩ := C19_free_direct_sum h.valid h.built h.grid f hf
    obtain ⟨v', e2, -, e2'⟩ := C19_free_direct_sum h.valid h.built h.grid g hg
    obtain ⟨w', e3, -, e3'⟩ := C19_free_direct_sum h.valid h.built h.grid h' hh
    rw [hu] at e1; rw [hv] at e2; rw [hw] at e3
    cases e1; cases e2; cases e3
    rw [e1' i j hi hj, e2' i j hi hj, e3' i j hi hj]
    unfold directSum
    rw [mul_neg, mul_neg, ← neg_add, mul_sum, mul_sum, ← sum_add_distrib]
    congr 1
    refine sum_congr rfl fun k hk => ?_
    rw [mul_sum, mul_sum, ← sum_add_distrib]
    refine sum_congr rfl fun l hl => ?_
    rw [heq k l (mem_range.mp hk) (mem_range.mp hl)]
    ring
  · intro f g u v hf hg hu hv
    obtain ⟨u', v', e1, e2, e3⟩ := C21_free_reciprocal h.valid h.built h.grid f g hf hg
    rw [hu] at e1; rw [hv] at e2; cases e1; cases e2
    exact e3

lemma symOp_disp {S : Sys} (h : System2 S nx ny) : SymOp nx ny S.sub.evaluateDisp := by
  rcases h with ⟨a, h⟩ | ⟨a, h⟩
  · exact symOp_disp_periodic h
  · exact symOp_disp_free h

lemma per_grid {S : Sys} {a : Args} (h : PeriodicSystem S a nx ny) :
    S.sub.hs.nbGridPts = [nx, ny] ∧ S.sub.hs.domain = [nx, ny] ∧ nx ≠ 0 ∧ ny ≠ 0 := by
  obtain ⟨h1, h2, P⟩ := per_of_construct h.valid h.built h.grid
  exact ⟨P.grid, P.rep.dom, h1.out, h2.out⟩

lemma free_grid {S : Sys} {a : FreeArgs} (h : FreeSystem S a nx ny) :
    S.sub.hs.nbGridPts = [nx, ny] ∧ S.sub.hs.domain = [2 * nx, 2 * ny] ∧ nx ≠ 0 ∧ ny ≠ 0 := by
  obtain ⟨h1, h2, P⟩ := free_of_construct h.valid h.built h.grid
  exact ⟨P.grid, P.rep.dom, h1.out, h2.out⟩

lemma topo_eq {S : Sys} (h : System2 S nx ny) : S.sub.topo = [nx, ny] := by
  rcases h with ⟨a, h⟩ | ⟨a, h⟩
  · exact (per_grid h).1
  · exact (free_grid h).1

lemma heights_eq {S : Sys} (h : System2 S nx ny) : S.heights.shape = [nx, ny] := by
  rcases h with ⟨a, h⟩ | ⟨a, h⟩ <;> exact h.heights

lemma work_congr {f f' g g' : NdArray ℝ} (h1 : ∀ i j, i < nx → j < ny → f.get [i, j] = f'.get [i, j])
    (h2 : ∀ i j, i < nx → j < ny → g.get [i, j] = g'.get [i, j]) : work nx ny f g = work nx ny f' g' := by
  unfold work
  refine sum_congr rfl fun i hi => sum_congr rfl fun j hj => ?_
  rw [h1 i j (mem_range.mp hi) (mem_range.mp hj), h2 i j (mem_range.mp hi) (mem_range.mp hj)]

lemma work_comm (f g : NdArray ℝ) : work nx ny f g = work nx ny g f := by
  unfold work
  exact sum_congr rfl fun i _ => sum_congr rfl fun j _ => mul_comm _ _

lemma work_lin (α β : ℝ) {f g h k : NdArray ℝ}
    (heq : ∀ i j, i < nx → j < ny → h.get [i, j] = α * f.get [i, j] + β * g.get [i, j]) :
    work nx ny h k = α * work nx ny f k + β * work nx ny g k := by
  unfold work
  rw [mul_sum, mul_sum, ← sum_add_distrib]
  refine sum_congr rfl fun i hi => ?_
  rw [mul_sum, mul_sum, ← sum_add_distrib]
  refine sum_congr rfl fun j hj => ?_
  rw [heq i j (mem_range.mp hi) (mem_range.mp hj)]; ring

/-- Entry `[i, j]` in C order. -/
lemma flat_get {α : Type} {f : NdArray α} (hf : f.shape = [nx, ny]) {i j : ℕ} (hi : i < nx) (hj : j < ny) :
    f.flat (i * ny + j) = f.get [i, j] := by
  have := flat_flatIndex hf (valid2.mpr ⟨i, j, rfl, hi, hj⟩)
  simpa [flatIndex] using this

lemma flat_lt {i j : ℕ} (hi : i < nx) (hj : j < ny) : i * ny + j < nx * ny := by
  calc i * ny + j < i * ny + ny := by omega
    _ = (i + 1) * ny := by ring
    _ ≤ nx * ny := Nat.mul_le_mul_right _ hi

lemma get_of_flat {α : Type} {f : NdArray α} (hf : f.shape = [nx, ny]) {k : ℕ} (hk : k < nx * ny) :
    ∃ i j, i < nx ∧ j < ny ∧ k = i * ny + j ∧ f.flat k = f.get [i, j] := by
  have hy : 0 < ny := by
    rcases Nat.eq_zero_or_pos ny with h | h
    · simp [h] at hk
    · exact h
  have h1 : k / ny < nx := by rw [Nat.div_lt_iff_lt_mul hy]; exact hk
  have h2 := Nat.mod_lt k hy
  have h3 : k = k / ny * ny + k % ny := by rw [Nat.mul_comm, Nat.div_add_mod]
  refine ⟨k / ny, k % ny, h1, h2, h3, ?_⟩
  rw [← flat_get hf h1 h2, ← h3]

/-- The work of arrays in flat form. -/
lemma flatDot_work {f g : NdArray ℝ} {f' g' : NdArray ℝ} (hf : f.shape = [nx, ny]) (hg : g.shape = [nx, ny])
    (h1 : ∀ k < nx * ny, f'.flat k = f.flat k) (h2 : ∀ k < nx * ny, g'.flat k = g.flat k) :
    flatDot (nx * ny) f' g' = work nx ny f g := by
  unfold flatDot work
  rw [sum_range_mul']
  refine sum_congr rfl fun i hi => sum_congr rfl fun j hj => ?_
  have hi := mem_range.mp hi
  have hj := mem_range.mp hj
  rw [h1 _ (flat_lt hi hj), h2 _ (flat_lt hi hj), flat_get hf hi hj, flat_get hg hi hj]

lemma SymOp.congr {T} (h : SymOp nx ny T) {f g u v : NdArray ℝ} (hf : f.shape = [nx, ny]) (hg : g.shape = [nx, ny])
    (heq : ∀ i j, i < nx → j < ny → f.get [i, j] = g.get [i, j]) (hu : T f = .ok u) (hv : T g = .ok v) :
    ∀ i j, i < nx → j < ny → u.get [i, j] = v.get [i, j] := by
  intro i j hi hj
  have := h.lin 1 0 g g f hg hg hf (fun i j hi hj => by rw [heq i j hi hj]; ring) v v u hv hv hu i j hi hj
  rw [this]; ring

/-- `E(u+v)` of the quadratic form of a linear reciprocal operation. -/
lemma SymOp.quad {T} (h : SymOp nx ny T) (α β : ℝ) {u v w a b c : NdArray ℝ} (hu : u.shape = [nx, ny])
    (hv : v.shape = [nx, ny]) (hw : w.shape = [nx, ny])
    (heq : ∀ i j, i < nx → j < ny → w.get [i, j] = α * u.get [i, j] + β * v.get [i, j])
    (ha : T u = .ok a) (hb : T v = .ok b) (hc : T w = .ok c) :
    work nx ny c w = α ^ 2 * work nx ny a u + 2 * α * β * work nx ny a v + β ^ 2 * work nx ny b v := by
  have h1 := h.lin α β u v w hu hv hw heq a b c ha hb hc
  have h2 := work_lin α β (k := w) h1
  have h3 := work_lin α β (k := a) heq
  have h4 := work_lin α β (k := b) heq
  have h5 := h.symm u v a b hu hv ha hb
  have e1 := work_comm (nx := nx) (ny := ny) a u
  have e2 := work_comm (nx := nx) (ny := ny) a v
  have e3 := work_comm (nx := nx) (ny := ny) b u
  have e4 := work_comm (nx := nx) (ny := ny) b v
  have e5 := work_comm (nx := nx) (ny := ny) a w
  have e6 := work_comm (nx := nx) (ny := ny) b w
  rw [h2, e5, e6, h3, h4, e1, e2, e4, h5]
  ring

/-- `evaluate` of the half-space with energy and forces. -/
lemma evaluate_true {S : Sys} {a : Args} (h : PeriodicSystem S a nx ny) {u f : NdArray ℝ}
    (hf : evaluateForce S.sub.hs u = .ok f) :
    HS.evaluate S.sub.hs u true true = .ok (some (-(1 / 2) * work nx ny f u), some f) := by
  unfold HS.evaluate
  rw [if_pos rfl, hf]
  simp only [bind, Except.bind, if_true, pure, Except.pure]
  congr 3
  unfold evaluateElasticEnergy
  rw [(per_grid h).2.1]
  simp only [sumShape]
  unfold work
  rw [mul_sum, mul_sum]
  refine sum_congr rfl fun i _ => ?_
  rw [mul_sum, mul_sum]
  refine sum_congr rfl fun j _ => ?_
  norm_num
  ring

end CM.System
