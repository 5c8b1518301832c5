import Verif.Props.Systems2
import Verif.Props.Line1D
import Verif.Props.HardWall
/-!
# C198: contact systems on one-dimensional substrates
-/
set_option linter.unusedSimpArgs false
namespace CM.Spec
open CM.HS CM.FFT CM.System

/-- `S` is a system on a valid one-dimensional periodic half-space with arguments `a` and a line of heights on the same grid, in
any state. -/
structure LineSystem (S : Sys) (a : Args) (nx : ℕ) : Prop where
  valid : ValidArgs a
  built : construct a = .ok S.sub.hs
  grid : a.nbGridPts = [nx]
  periodic : S.sub.free = false
  heights : S.heights.shape = [nx]

end CM.Spec

namespace CM.System.Line
open Finset CM.HS CM.FFT CM.Spec CM.Fourier CM.Pipe

variable {nx : ℕ} {S : Sys} {a : Args}

lemma tor1_lin [NeZero nx] {α β : ℝ} {f g h : NdArray ℝ} (heq : ∀ i, i < nx → h.get [i] = α * f.get [i] + β * g.get [i]) :
    (tor1 nx fun i => h.get [i]) = fun p => α * tor1 nx (fun i => f.get [i]) p + β * tor1 nx (fun i => g.get [i]) p := by
  funext p
  exact heq _ (ZMod.val_lt _)

lemma recip1 [NeZero nx] {M : ZMod nx → ℝ} {c : ℝ} (hM : ∀ y, (pairZ nx).ker (fun k => (M k : ℂ)) (-y) = (pairZ nx).ker (fun k => (M k : ℂ)) y) {f g u v : NdArray ℝ}
    (hu : ∀ i : ℕ, u.get [i] = -((pairZ nx).act (fun k => (M k : ℂ)) (tor1 nx fun i => f.get [i]) i) * c)
    (hv : ∀ i : ℕ, v.get [i] = -((pairZ nx).act (fun k => (M k : ℂ)) (tor1 nx fun i => g.get [i]) i) * c) :
    work1 nx f v = work1 nx g u := by
  have hr := (pairZ nx).recip_of_even hM (tor1 nx fun i => f.get [i]) (tor1 nx fun i => g.get [i])
  rw [work1_tor f v (tor1 nx fun i => f.get [i]) (fun p => -((pairZ nx).act (fun k => (M k : ℂ)) (tor1 nx fun i => g.get [i]) p) * c)
      (fun i hi => (tor1_cast (fun i => f.get [i]) hi).symm) (fun i _ => hv i),
    work1_tor g u (tor1 nx fun i => g.get [i]) (fun p => -((pairZ nx).act (fun k => (M k : ℂ)) (tor1 nx fun i => f.get [i]) p) * c)
      (fun i hi => (tor1_cast (fun i => g.get [i]) hi).symm) (fun i _ => hu i)]
  have e : ∀ x y : ZMod nx → ℝ, ∑ p, x p * (-(y p) * c) = -c * ∑ p, x p * y p := by
    intro x y; rw [mul_sum]; exact sum_congr rfl fun p _ => by ring
  rw [e, e, hr]

/-- A linear, reciprocal operation on `nx × ny` arrays. -/
structure SymOp (nx : ℕ) (T : NdArray ℝ → Except PyErr (NdArray ℝ)) : Prop where
  ok : ∀ f : NdArray ℝ, f.shape = [nx] → ∃ u, T f = .ok u ∧ u.shape = [nx]
  lin : ∀ (α β : ℝ) (f g h : NdArray ℝ), f.shape = [nx] → g.shape = [nx] → h.shape = [nx] →
    (∀ i, i < nx → h.get [i] = α * f.get [i] + β * g.get [i]) →
    ∀ u v w, T f = .ok u → T g = .ok v → T h = .ok w →
    ∀ i, i < nx → w.get [i] = α * u.get [i] + β * v.get [i]
  symm : ∀ f g u v : NdArray ℝ, f.shape = [nx] → g.shape = [nx] → T f = .ok u → T g = .ok v →
    work1 nx f v = work1 nx g u

lemma symOp_force (h : LineSystem S a nx) : SymOp nx (evaluateForce S.sub.hs) := by
  obtain ⟨_, P⟩ := per1_of_construct h.valid h.built h.grid
  refine ⟨fun f hf => ?_, ?_, ?_⟩
  · obtain ⟨u, hu, hsh, -⟩ := P.force hf; exact ⟨u, hu, hsh⟩
  · intro α β f g h' hf hg hh heq u v w hu hv hw i hi
    obtain ⟨u', e1, -, e1'⟩ := P.force hf
    obtain ⟨v', e2, -, e2'⟩ := P.force hg
    obtain ⟨w', e3, -, e3'⟩ := P.force hh
    rw [hu] at e1; rw [hv] at e2; rw [hw] at e3
    cases e1; cases e2; cases e3
    rw [e1', e2', e3', tor1_lin heq, (pairZ nx).act_lin]
    ring
  · intro f g u v hf hg hu hv
    obtain ⟨u', e1, -, e1'⟩ := P.force hf
    obtain ⟨v', e2, -, e2'⟩ := P.force hg
    rw [hu] at e1; rw [hv] at e2
    cases e1; cases e2
    exact recip1 ((pairZ nx).ker_even (fullStiff1 a nx)) e1' e2'

lemma symOp_disp (h : LineSystem S a nx) : SymOp nx S.sub.evaluateDisp := by
  obtain ⟨_, P⟩ := per1_of_construct h.valid h.built h.grid
  have he : S.sub.evaluateDisp = HS.evaluateDisp S.sub.hs := by
    funext f; unfold Substrate.evaluateDisp; rw [if_neg (by rw [h.periodic]; simp)]
  rw [he]
  refine ⟨fun f hf => ?_, ?_, ?_⟩
  · obtain ⟨u, hu, hsh, -⟩ := P.disp hf; exact ⟨u, hu, hsh⟩
  · intro α β f g h' hf hg hh heq u v w hu hv hw i hi
    obtain ⟨u', e1, -, e1'⟩ := P.disp hf
    obtain ⟨v', e2, -, e2'⟩ := P.disp hg
    obtain ⟨w', e3, -, e3'⟩ := P.disp hh
    rw [hu] at e1; rw [hv] at e2; rw [hw] at e3
    cases e1; cases e2; cases e3
    rw [e1', e2', e3', tor1_lin heq, (pairZ nx).act_lin]
    ring
  · intro f g u v hf hg hu hv
    obtain ⟨u', v', e1, e2, e3⟩ := C18_reciprocal_1d h.valid h.built h.grid f g hf hg
    rw [hu] at e1; rw [hv] at e2; cases e1; cases e2
    exact e3

lemma per_grid (h : LineSystem S a nx) : S.sub.hs.nbGridPts = [nx] ∧ S.sub.hs.domain = [nx] ∧ nx ≠ 0 := by
  obtain ⟨h1, P⟩ := per1_of_construct h.valid h.built h.grid
  refine ⟨?_, P.dom, h1.out⟩
  obtain ⟨sx, m, G, -, -, h2, -⟩ := construct1 h.built h.grid
  exact h2

lemma topo_eq (h : LineSystem S a nx) : S.sub.topo = [nx] := (per_grid h).1
lemma applies (h : LineSystem S a nx) : S.heights.shape = S.sub.topo ∧ List.Forall₂ (· ≤ ·) S.sub.topo S.sub.hs.domain := by
  rw [topo_eq h, (per_grid h).2.1]
  exact ⟨h.heights, .cons le_rfl .nil⟩
lemma heights_eq (h : LineSystem S a nx) : S.heights.shape = [nx] := h.heights


lemma work_congr {f f' g g' : NdArray ℝ} (h1 : ∀ i, i < nx → f.get [i] = f'.get [i])
    (h2 : ∀ i, i < nx → g.get [i] = g'.get [i]) : work1 nx f g = work1 nx f' g' := by
  unfold work1
  refine sum_congr rfl fun i hi => ?_
  rw [h1 i (mem_range.mp hi), h2 i (mem_range.mp hi)]

lemma work_comm (f g : NdArray ℝ) : work1 nx f g = work1 nx g f := by
  unfold work1
  exact sum_congr rfl fun i _ => mul_comm _ _

lemma work_lin (α β : ℝ) {f g h k : NdArray ℝ}
    (heq : ∀ i, i < nx → h.get [i] = α * f.get [i] + β * g.get [i]) :
    work1 nx h k = α * work1 nx f k + β * work1 nx g k := by
  unfold work1
  rw [mul_sum, mul_sum, ← sum_add_distrib]
  refine sum_congr rfl fun i hi => ?_
  rw [heq i (mem_range.mp hi)]; ring

lemma flat_get {α : Type} {f : NdArray α} (hf : f.shape = [nx]) {i : ℕ} (hi : i < nx) : f.flat i = f.get [i] := by
  have := flat_flatIndex (x := [i]) hf (.cons hi .nil)
  simpa [flatIndex] using this

lemma get_of_flat {α : Type} {f : NdArray α} (hf : f.shape = [nx]) {k : ℕ} (hk : k < nx) :
    ∃ i, i < nx ∧ i = k ∧ f.flat k = f.get [i] := ⟨k, hk, rfl, flat_get hf hk⟩

lemma flatDot_work {f g : NdArray ℝ} {f' g' : NdArray ℝ} (hf : f.shape = [nx]) (hg : g.shape = [nx])
    (h1 : ∀ k < nx, f'.flat k = f.flat k) (h2 : ∀ k < nx, g'.flat k = g.flat k) :
    flatDot nx f' g' = work1 nx f g := by
  unfold flatDot work1
  refine sum_congr rfl fun i hi => ?_
  have hi := mem_range.mp hi
  rw [h1 _ hi, h2 _ hi, flat_get hf hi, flat_get hg hi]


lemma SymOp.congr {T} (h : SymOp nx T) {f g u v : NdArray ℝ} (hf : f.shape = [nx]) (hg : g.shape = [nx])
    (heq : ∀ i, i < nx → f.get [i] = g.get [i]) (hu : T f = .ok u) (hv : T g = .ok v) :
    ∀ i, i < nx → u.get [i] = v.get [i] := by
  intro i hi
  have := h.lin 1 0 g g f hg hg hf (fun i hi => by rw [heq i hi]; ring) v v u hv hv hu i hi
  rw [this]; ring

/-- `E(u+v)` of the quadratic form of a linear reciprocal operation. -/
lemma SymOp.quad {T} (h : SymOp nx T) (α β : ℝ) {u v w a b c : NdArray ℝ} (hu : u.shape = [nx])
    (hv : v.shape = [nx]) (hw : w.shape = [nx])
    (heq : ∀ i, i < nx → w.get [i] = α * u.get [i] + β * v.get [i])
    (ha : T u = .ok a) (hb : T v = .ok b) (hc : T w = .ok c) :
    work1 nx c w = α ^ 2 * work1 nx a u + 2 * α * β * work1 nx a v + β ^ 2 * work1 nx b v := by
  have h1 := h.lin α β u v w hu hv hw heq a b c ha hb hc
  have h2 := work_lin α β (k := w) h1
  have h3 := work_lin α β (k := a) heq
  have h4 := work_lin α β (k := b) heq
  have h5 := h.symm u v a b hu hv ha hb
  have e1 := work_comm (nx := nx) a u
  have e2 := work_comm (nx := nx) a v
  have e3 := work_comm (nx := nx) b u
  have e4 := work_comm (nx := nx) b v
  have e5 := work_comm (nx := nx) a w
  have e6 := work_comm (nx := nx) b w
  rw [h2, e5, e6, h3, h4, e1, e2, e4, h5]
  ring

/-- `evaluate` of the half-space with energy and forces. -/
lemma evaluate_true {S : Sys} {a : Args} (h : LineSystem S a nx) {u f : NdArray ℝ}
    (hf : evaluateForce S.sub.hs u = .ok f) :
    HS.evaluate S.sub.hs u true true = .ok (some (-(1 / 2) * work1 nx f u), some f) := by
  unfold HS.evaluate
  rw [if_pos rfl, hf]
  simp only [bind, Except.bind, if_true, pure, Except.pure]
  congr 3
  unfold evaluateElasticEnergy
  rw [(per_grid h).2.1]
  simp only [sumShape]
  unfold work1
  rw [mul_sum, mul_sum]
  refine sum_congr rfl fun i _ => ?_
  norm_num
  ring

lemma evaluate_periodic {a : Args} (h : LineSystem S a nx) {u f : NdArray ℝ} (hu : u.shape = [nx])
    (hf : evaluateForce S.sub.hs u = .ok f) (off : ℝ) :
    ∃ S', evaluate S u off true true = (.ok (some (-(1 / 2) * work1 nx f u), some f), S') ∧
      S'.energy = some (-(1 / 2) * work1 nx f u) ∧ S'.force = some f ∧ S'.subForce = some f := by
  obtain ⟨h1, h2⟩ := applies h
  obtain ⟨g, hg, -⟩ := C48_gap S h1 u (by rw [hu, ← (per_grid h).2.1]; exact h2) off
  unfold evaluate
  rw [hg]
  simp only [evaluate_true h hf, if_true]
  exact ⟨_, rfl, rfl, rfl, rfl⟩

/-- The value of the primal objective in terms of the displacement field. -/
lemma primalObjective_eq {a : Args} (h : LineSystem S a nx) (off : ℝ) (g : NdArray ℝ) (hg : g.size = nx) :
    ∃ u f G S', u.shape = [nx] ∧ (∀ k < nx, u.flat k = g.flat k + S.heights.flat k + off) ∧
      evaluateForce S.sub.hs u = .ok f ∧ f.shape = [nx] ∧ G.shape = [nx] ∧ (∀ k, G.flat k = -(f.flat k)) ∧
      primalObjective S off g = (.ok (some (-(1 / 2) * work1 nx f u), G), S') ∧ S'.force = some f ∧ S'.subForce = some f := by
  obtain ⟨hgr, hdom, -⟩ := per_grid h
  obtain ⟨g', hr, hgs, hgf⟩ := reshape_ok g (s := [nx]) (by simp [hg])
  obtain ⟨c, hb, hcs, hcv⟩ := binop_same (· + ·) hgs h.heights
  obtain ⟨u, hu, hus, huf⟩ := reshape_ok (c.map (· + off)) (s := [nx]) (by simp [NdArray.size, NdArray.map, hcs])
  obtain ⟨f, hf, hfs⟩ := (symOp_force h).ok u hus
  obtain ⟨S', hS', he, hfo, hsf⟩ := evaluate_periodic h hus hf off
  refine ⟨u, f, (ravel f).map fun x => -x, S', hus, fun k hk => ?_, hf, hfs, by simp [ravel, NdArray.map, NdArray.size, hfs],
    fun k => ?_, ?_, hfo, hsf⟩
  · have hk' : k < [nx].prod := by simpa using hk
    have hv := validIndex_unflat hk'
    rw [huf k hk']
    have : (c.map (· + off)).flat k = c.flat k + off := rfl
    rw [this]
    rw [← hgf k hk']
    unfold NdArray.flat
    rw [hcs, hgs, h.heights, hcv _ hv]
  · have : ((ravel f).map fun x => -x).flat k = -((ravel f).flat k) := rfl
    rw [this, ravel_flat]
  · unfold primalObjective
    simp only [hdom, hr, hb, hu, bind, Except.bind]
    rw [hS']
    simp only [negForce, he, hfo]

/-- **C198** The primal objective is `(E(u), -F(u))` at the displacement `u = gap + heights + offset`, where
`E` and `F` are energy and force of the substrate at `u`.  (The input may have any shape with the right
number of entries; the gradient is flat.) -/
theorem C198_primal_value {a : Args} (h : LineSystem S a nx) (off : ℝ) (g : NdArray ℝ) (hg : g.size = nx) (u : NdArray ℝ)
    (hu : u.shape = [nx]) (hug : ∀ k < nx, u.flat k = g.flat k + S.heights.flat k + off) :
    ∃ E F G S', HS.evaluate S.sub.hs u true true = .ok (some E, some F) ∧
      primalObjective S off g = (.ok (some E, G), S') ∧ G.shape = [nx] ∧
      ∀ k < nx, G.flat k = -(F.flat k) := by
  obtain ⟨u', f', G, S', h1, h2, h3, h4, h5, h6, h7, -, -⟩ := primalObjective_eq h off g hg
  obtain ⟨f, hf, hfs⟩ := (symOp_force h).ok u hu
  have huu : ∀ i, i < nx → u.get [i] = u'.get [i] := by
    intro i hi
    rw [← flat_get hu hi, ← flat_get h1 hi, hug _ (hi), h2 _ (hi)]
  have hff := (symOp_force h).congr hu h1 huu hf h3
  refine ⟨_, f, G, S', evaluate_true h hf, ?_, h5, fun k hk => ?_⟩
  · rw [h7, work_congr hff huu]
  · obtain ⟨i, hi, rfl, e⟩ := get_of_flat hfs hk
    rw [h6, e, hff i hi, flat_get h4 hi]

/-- **C198** Gradient and Hessian product of the primal objective are exact: for every gap `g` and change
`v`, `E(g+v) = E(g) + G·v + ½ v·Hv` and `G(g+v) = G(g) + Hv`. -/
theorem C198_primal_expansion {a : Args} (h : LineSystem S a nx) (off : ℝ) (g v w : NdArray ℝ) (hg : g.size = nx)
    (hv : v.size = nx) (hw : w.size = nx) (hsum : ∀ k < nx, w.flat k = g.flat k + v.flat k) :
    ∃ E E' G G' H S1 S2, primalObjective S off g = (.ok (some E, G), S1) ∧
      primalObjective S off w = (.ok (some E', G'), S2) ∧ primalHessianProduct S v = .ok H ∧ H.shape = v.shape ∧
      E' = E + flatDot (nx) G v + 1 / 2 * flatDot (nx) H v ∧
      ∀ k < nx, G'.flat k = G.flat k + H.flat k := by
  obtain ⟨u, f, G, S1, h1, h2, h3, h4, h5, h6, h7, -, -⟩ := primalObjective_eq h off g hg
  obtain ⟨u', f', G', S2, h1', h2', h3', h4', h5', h6', h7', -, -⟩ := primalObjective_eq h off w hw
  obtain ⟨v', hr, hvs, hvf⟩ := reshape_ok v (s := [nx]) (by simp [hv])
  obtain ⟨fv, hfv, hfvs⟩ := (symOp_force h).ok v' hvs
  obtain ⟨r, hrr, hrs, hrf⟩ := reshape_ok fv (s := v.shape) (by simp [NdArray.size, hfvs] at hv ⊢; exact hv.symm)
  have hH : primalHessianProduct S v = .ok (r.map fun x => -x) := by
    unfold primalHessianProduct
    simp only [(per_grid h).2.1, hr, hfv, hrr, bind, Except.bind, pure, Except.pure]
  have hvp : v.shape.prod = nx := hv
  have hHf : ∀ k < nx, (r.map fun x => -x).flat k = -(fv.flat k) := by
    intro k hk
    have : (r.map fun x => -x).flat k = -(r.flat k) := rfl
    rw [this, hrf k (by rw [hvp]; exact hk)]
  have hvf' : ∀ k < nx, v'.flat k = v.flat k := fun k hk => hvf k (by simpa using hk)
  have huv : ∀ i, i < nx → u'.get [i] = 1 * u.get [i] + 1 * v'.get [i] := by
    intro i hi
    have hk := hi
    rw [← flat_get h1 hi, ← flat_get h1' hi, ← flat_get hvs hi, h2 _ hk, h2' _ hk, hsum _ hk, hvf' _ hk]
    ring
  have hq := (symOp_force h).quad 1 1 h1 hvs h1' huv h3 hfv h3'
  have hl := (symOp_force h).lin 1 1 u v' u' h1 hvs h1' huv f fv f' h3 hfv h3'
  refine ⟨_, _, G, G', _, S1, S2, h7, h7', hH, hrs, ?_, fun k hk => ?_⟩
  · have e1 : flatDot (nx) G v = -(work1 nx f v') := by
      rw [show flatDot (nx) G v = -(flatDot (nx) f v) by
        unfold flatDot; rw [← sum_neg_distrib]; exact sum_congr rfl fun k _ => by rw [h6]; ring]
      rw [flatDot_work h4 hvs (fun k _ => rfl) fun k hk => (hvf' k hk).symm]
    have e2 : flatDot (nx) (r.map fun x => -x) v = -(work1 nx fv v') := by
      rw [show flatDot (nx) (r.map fun x => -x) v = -(flatDot (nx) fv v) by
        unfold flatDot; rw [← sum_neg_distrib]
        exact sum_congr rfl fun k hk => by rw [hHf k (mem_range.mp hk)]; ring]
      rw [flatDot_work hfvs hvs (fun k _ => rfl) fun k hk => (hvf' k hk).symm]
    rw [e1, e2, hq]
    ring
  · rw [h6, h6', hHf k hk]
    obtain ⟨i, hi, rfl, e⟩ := get_of_flat h4' hk
    rw [e, hl i hi, flat_get h4 hi, flat_get hfvs hi]
    ring

/-! ## C50 -/

/-- The value of the dual objective. -/
lemma dualObjective_eq (h : LineSystem S a nx) (off : ℝ) (p : NdArray ℝ) (hp : p.size = nx) :
    ∃ p' n u G S', p'.shape = [nx] ∧ (∀ k < nx, p'.flat k = p.flat k) ∧ n.shape = [nx] ∧
      (∀ x, n.get x = -(p'.get x)) ∧ S.sub.evaluateDisp n = .ok u ∧ u.shape = [nx] ∧ G.shape = [nx] ∧
      (∀ k < nx, G.flat k = u.flat k - S.heights.flat k - off) ∧
      dualObjective S off p = (.ok (some (1 / 2 * work1 nx p' u -
        ∑ k ∈ range (nx), p.flat k * (S.heights.flat k + off)), G), S') ∧ S'.subForce = some n := by
  have ht := topo_eq h
  have hh := heights_eq h
  obtain ⟨p', hr, hps, hpf⟩ := reshape_ok p (s := [nx]) (by simp [hp])
  obtain ⟨u, hu, hus⟩ := (symOp_disp h).ok (p'.map fun x => -x) hps
  obtain ⟨d, hd, hds, hdv⟩ := binop_same (· - ·) hus hh
  obtain ⟨fd, hfd, hfds, hfdv⟩ := binop_same (· * ·) hps hus
  obtain ⟨fh, hfh, hfhs, hfhv⟩ := binop_same (· * ·) (b := S.heights.map (· + off)) hps hh
  have hpf' : ∀ k < nx, p'.flat k = p.flat k := fun k hk => hpf k (by simpa using hk)
  have hsum1 : fd.sum = work1 nx p' u := by
    rw [NdArray.sum, hfds, sumShape_congr hfdv]
    rfl
  have hsum2 : fh.sum = ∑ k ∈ range (nx), p.flat k * (S.heights.flat k + off) := by
    rw [NdArray.sum, hfhs, sumShape_congr hfhv, sumShape_flat]
    simp only [List.prod_cons, List.prod_nil, mul_one]
    refine sum_congr rfl fun k hk => ?_
    rw [← hpf' k (mem_range.mp hk)]
    simp only [NdArray.map, NdArray.flat, hps, hh]
  refine ⟨p', p'.map fun x => -x, u, ravel (d.map (· - off)), (dualObjective S off p).2,
    hps, hpf', hps, fun x => rfl, hu, hus, by simp [ravel, NdArray.map, NdArray.size, hds], fun k hk => ?_, ?_, ?_⟩
  · rw [ravel_flat]
    have : (d.map (· - off)).flat k = d.flat k - off := rfl
    rw [this]
    unfold NdArray.flat
    rw [hds, hus, hh, hdv _ (validIndex_unflat (by simpa using hk))]
  · unfold dualObjective
    rw [ht, hr]
    simp only [evaluateDual, hu, hd, hfd, hfh, bind, Except.bind, pure, Except.pure, hsum1, hsum2]
  · unfold dualObjective
    rw [ht, hr]
    simp only [evaluateDual, hu, hd, hfd, hfh, bind, Except.bind, pure, Except.pure]

/-- **C198** The dual objective is `½ p·u(p) - p·(h+offset)` and its gradient is the gap `u(p) - h - offset`,
`u(p)` being the displacement under the compressive forces `p`; periodic and free substrates. -/
theorem C198_dual_value (h : LineSystem S a nx) (off : ℝ) (p : NdArray ℝ) (hp : p.size = nx) (n : NdArray ℝ)
    (hn : n.shape = [nx]) (hnp : ∀ k < nx, n.flat k = -(p.flat k)) :
    ∃ u q G S', S.sub.evaluateDisp n = .ok u ∧ dualObjective S off p = (.ok (some q, G), S') ∧
      G.shape = [nx] ∧ (∀ k < nx, G.flat k = u.flat k - S.heights.flat k - off) ∧
      q = ∑ k ∈ range (nx), (1 / 2 * (p.flat k * u.flat k) - p.flat k * (S.heights.flat k + off)) := by
  obtain ⟨p', n', u, G, S', h1, h2, h3, h4, h5, h6, h7, h8, h9, -⟩ := dualObjective_eq h off p hp
  obtain ⟨w, hw, hws⟩ := (symOp_disp h).ok n hn
  have hnn : ∀ i, i < nx → n.get [i] = n'.get [i] := by
    intro i hi
    rw [← flat_get hn hi, hnp _ (hi), h4, ← flat_get h1 hi, h2 _ (hi)]
  have huw := (symOp_disp h).congr hn h3 hnn hw h5
  have huw' : ∀ k < nx, w.flat k = u.flat k := by
    intro k hk
    obtain ⟨i, hi, rfl, e⟩ := get_of_flat hws hk
    rw [e, huw i hi, flat_get h6 hi]
  refine ⟨w, _, G, S', hw, h9, h7, fun k hk => by rw [h8 k hk, huw' k hk], ?_⟩
  rw [← flatDot_work h1 h6 (fun k hk => (h2 k hk).symm) huw', flatDot, mul_sum, ← sum_sub_distrib]

/-- **C198** Gradient and Hessian product of the dual objective are exact. -/
theorem C198_dual_expansion (h : LineSystem S a nx) (off : ℝ) (p v w : NdArray ℝ) (hp : p.size = nx)
    (hv : v.size = nx) (hw : w.size = nx) (hsum : ∀ k < nx, w.flat k = p.flat k + v.flat k) :
    ∃ E E' G G' H S1 S2, dualObjective S off p = (.ok (some E, G), S1) ∧
      dualObjective S off w = (.ok (some E', G'), S2) ∧ dualHessianProduct S v = .ok H ∧ H.shape = v.shape ∧
      E' = E + flatDot (nx) G v + 1 / 2 * flatDot (nx) H v ∧
      ∀ k < nx, G'.flat k = G.flat k + H.flat k := by
  obtain ⟨p', n, u, G, S1, h1, h2, h3, h4, h5, h6, h7, h8, h9, -⟩ := dualObjective_eq h off p hp
  obtain ⟨w', n', u', G', S2, h1', h2', h3', h4', h5', h6', h7', h8', h9', -⟩ := dualObjective_eq h off w hw
  obtain ⟨v', hr, hvs, hvf⟩ := reshape_ok v (s := [nx]) (by simp [hv])
  obtain ⟨uv, huv, huvs⟩ := (symOp_disp h).ok (v'.map fun x => -x) hvs
  have hvp : v.shape.prod = nx := hv
  obtain ⟨H, hH, hHs, hHf⟩ := reshape_ok uv (s := v.shape) (by simp [NdArray.size, huvs, hvp])
  have hHe : dualHessianProduct S v = .ok H := by
    unfold dualHessianProduct
    simp only [topo_eq h, hr, huv, hH, bind, Except.bind]
  have hHf' : ∀ k < nx, H.flat k = uv.flat k := fun k hk => hHf k (by rw [hvp]; exact hk)
  have hvf' : ∀ k < nx, v'.flat k = v.flat k := fun k hk => hvf k (by simpa using hk)
  have hpw : ∀ i, i < nx → w'.get [i] = 1 * p'.get [i] + 1 * v'.get [i] := by
    intro i hi
    have hk := hi
    rw [← flat_get h1 hi, ← flat_get h1' hi, ← flat_get hvs hi, h2 _ hk, h2' _ hk, hsum _ hk, hvf' _ hk]
    ring
  have hnw : ∀ i, i < nx → n'.get [i] = 1 * n.get [i] + 1 * (v'.map fun x => -x).get [i] := by
    intro i hi
    rw [h4, h4', hpw i hi]; simp only [NdArray.map]; ring
  have hq := (symOp_disp h).quad 1 1 (v := v'.map fun x => -x) h3 hvs h3' hnw h5 huv h5'
  have hl := (symOp_disp h).lin 1 1 n (v'.map fun x => -x) n' h3 hvs h3' hnw u uv u' h5 huv h5'
  have neg : ∀ (x y b : NdArray ℝ), (∀ i, i < nx → y.get [i] = -(x.get [i])) →
      work1 nx b y = -(work1 nx x b) := by
    intro x y b hxy
    unfold work1
    rw [← sum_neg_distrib]
    refine sum_congr rfl fun i hi => ?_
    rw [hxy i (mem_range.mp hi)]; ring
  have hnp : ∀ i, i < nx → n.get [i] = -(p'.get [i]) := fun i _ => h4 _
  have hnp' : ∀ i, i < nx → n'.get [i] = -(w'.get [i]) := fun i _ => h4' _
  have hnv : ∀ i, i < nx → (v'.map fun x => -x).get [i] = -(v'.get [i]) := fun i _ => rfl
  refine ⟨_, _, G, G', H, S1, S2, h9, h9', hHe, hHs, ?_, fun k hk => ?_⟩
  · have e1 : flatDot (nx) G v = work1 nx u v' - ∑ k ∈ range (nx), v.flat k * (S.heights.flat k + off) := by
      rw [← flatDot_work h6 hvs (fun k _ => rfl) fun k hk => (hvf' k hk).symm]
      unfold flatDot
      rw [← sum_sub_distrib]
      refine sum_congr rfl fun k hk => ?_
      rw [h8 k (mem_range.mp hk)]; ring
    have e2 : flatDot (nx) H v = work1 nx uv v' :=
      flatDot_work huvs hvs hHf' fun k hk => (hvf' k hk).symm
    have e3 : ∑ k ∈ range (nx), w.flat k * (S.heights.flat k + off) =
        ∑ k ∈ range (nx), p.flat k * (S.heights.flat k + off) + ∑ k ∈ range (nx), v.flat k * (S.heights.flat k + off) := by
      rw [← sum_add_distrib]
      refine sum_congr rfl fun k hk => ?_
      rw [hsum k (mem_range.mp hk)]; ring
    rw [neg w' n' u' hnp', neg p' n u hnp, neg v' _ u hnv, neg v' _ uv hnv] at hq
    rw [e1, e2, e3, work_comm u v', work_comm uv v']
    linarith
  · rw [h8 k hk, h8' k hk, hHf' k hk]
    obtain ⟨i, hi, rfl, e⟩ := get_of_flat h6' hk
    rw [e, hl i hi, flat_get h6 hi, flat_get huvs hi]
    ring

/-- Elastic energy as work. -/
lemma energy_work (h : LineSystem S a nx) (hγ : 0 < gammaStiffness1 a) {d f : NdArray ℝ} (hd : d.shape = [nx])
    (hf : evaluateForce S.sub.hs d = .ok f) :
    0 ≤ -(1 / 2) * work1 nx f d ∧
      (-(1 / 2) * work1 nx f d = 0 ↔ ∀ i, i < nx → d.get [i] = 0) := by
  obtain ⟨e, f', h1, h2, -, -⟩ := C197_energy_real_eq_fourier h.valid h.built h.grid d hd
  rw [evaluate_true h hf] at h1
  obtain ⟨e', h3, h4, h5⟩ := C197_energy_positive h.valid h.built h.grid hγ d hd
  rw [h2] at h3
  simp only [Except.ok.injEq, Prod.mk.injEq, Option.some.injEq, and_true] at h1 h3
  obtain ⟨h1, -⟩ := h1
  rw [h1, h3]
  exact ⟨h4, h5⟩

/-- The duality gap of an arbitrary pair, as elastic energy of the mismatch plus work of the pressures on
the gaps. -/
lemma duality_core (h : LineSystem S a nx) (hγ : 0 < gammaStiffness1 a) (off : ℝ) (g p : NdArray ℝ)
    (hg : g.size = nx) (hp : p.size = nx) :
    ∃ E G S1 q H S2 W, primalObjective S off g = (.ok (some E, G), S1) ∧
      dualObjective S off p = (.ok (some q, H), S2) ∧ E + q = W + flatDot (nx) p g ∧ 0 ≤ W ∧
      (W = 0 ↔ ∀ k < nx, G.flat k = p.flat k) ∧ (W = 0 ↔ ∀ k < nx, H.flat k = g.flat k) := by
  obtain ⟨u, f, G, S1, h1, h2, h3, h4, h5, h6, h7, -, -⟩ := primalObjective_eq h off g hg
  obtain ⟨p', n, w, H, S2, k1, k2, k3, k4, k5, k6, k7, k8, k9, -⟩ := dualObjective_eq h off p hp
  have he : S.sub.evaluateDisp n = HS.evaluateDisp S.sub.hs n := by
    unfold Substrate.evaluateDisp; rw [if_neg (by rw [h.periodic]; simp)]
  obtain ⟨w', n', e1, e2, e3⟩ := (C18_inverse_1d h.valid h.built h.grid n k3).1
  rw [← he, k5] at e1
  cases e1
  let d : NdArray ℝ := ⟨[nx], fun x => 1 * u.get x + (-1) * w.get x⟩
  obtain ⟨fd, hfd, hfds⟩ := (symOp_force h).ok d rfl
  have hq := (symOp_force h).quad 1 (-1) (u := u) (v := w) (w := d) h1 k6 rfl (fun _ _ => rfl) h3 e2 hfd
  have hl := (symOp_force h).lin 1 (-1) u w d h1 k6 rfl (fun _ _ => rfl) f n' fd h3 e2 hfd
  have hs := (symOp_force h).symm u w f n' h1 k6 h3 e2
  obtain ⟨hW0, hW1⟩ := energy_work h hγ rfl hfd
  have hn' : ∀ i, i < nx → n'.get [i] = (-1) * p'.get [i] + 0 * p'.get [i] := by
    intro i hi; rw [e3 i hi, k4]; ring
  have hn'u := work_lin (nx := nx) (-1) 0 (k := u) hn'
  have hn'w := work_lin (nx := nx) (-1) 0 (k := w) hn'
  have hud : ∀ i, i < nx → d.get [i] = u.get [i] - w.get [i] := fun i _ => by
    show 1 * u.get [i] + (-1) * w.get [i] = _; ring
  have e4 : ∑ k ∈ range (nx), p.flat k * (S.heights.flat k + off) = work1 nx p' u - flatDot (nx) p g := by
    rw [← flatDot_work k1 h1 (fun k hk => (k2 k hk).symm) (fun k _ => rfl)]
    unfold flatDot
    rw [← sum_sub_distrib]
    refine sum_congr rfl fun k hk => ?_
    rw [h2 k (mem_range.mp hk)]; ring
  refine ⟨_, G, S1, _, H, S2, -(1 / 2) * work1 nx fd d, h7, k9, ?_, hW0, ?_, ?_⟩
  · have c1 := work_comm (nx := nx) w f
    have c2 := work_comm (nx := nx) u n'
    rw [e4, hq]
    linarith [hs, hn'u, hn'w]
  · rw [hW1]
    constructor
    · intro hz k hk
      obtain ⟨i, hi, rfl, e⟩ := get_of_flat h4 hk
      have hz' : ∀ i, i < nx → u.get [i] = w.get [i] := fun i hi => by
        have := hz i hi; rw [hud i hi] at this; linarith
      have := (symOp_force h).congr h1 k6 hz' h3 e2 i hi
      rw [h6, e, this, e3 i hi, k4, ← flat_get k1 hi, k2 _ hk]; ring
    · intro hG
      have hfd0 : ∀ i, i < nx → fd.get [i] = 0 := by
        intro i hi
        have h := hG _ (hi)
        rw [h6, flat_get h4 hi, ← k2 _ (hi), flat_get k1 hi] at h
        rw [hl i hi, e3 i hi, k4]; linarith
      refine hW1.mp ?_
      have : work1 nx fd d = 0 := by
        unfold work1
        refine sum_eq_zero fun i hi => ?_
        rw [hfd0 i (mem_range.mp hi), zero_mul]
      rw [this, mul_zero]
  · rw [hW1]
    constructor
    · intro hz k hk
      obtain ⟨i, hi, rfl, e⟩ := get_of_flat k6 hk
      have := hz i hi
      rw [hud i hi, ← e, ← flat_get h1 hi, h2 _ hk] at this
      rw [k8 _ hk]; linarith
    · intro hG i hi
      have h' := hG _ (hi)
      rw [k8 _ (hi), flat_get k6 hi] at h'
      rw [hud i hi, ← flat_get h1 hi, h2 _ (hi)]; linarith

/-- **C198** Duality of the primal and dual objectives of a system on a periodic substrate (positive
stiffness at the Gamma point): for non-negative gaps `g` and non-negative pressures `p` the sum of the two
objectives is non-negative, and it vanishes exactly when the pair is compatible (the pressures are the
gradient of the primal objective at `g`) and complementary (no pressure where there is a gap). -/
theorem C198_strong_duality (h : LineSystem S a nx) (hγ : 0 < gammaStiffness1 a) (off : ℝ) (g p : NdArray ℝ)
    (hg : g.size = nx) (hp : p.size = nx) (hg0 : ∀ k < nx, 0 ≤ g.flat k)
    (hp0 : ∀ k < nx, 0 ≤ p.flat k) :
    ∃ E G S1 q H S2, primalObjective S off g = (.ok (some E, G), S1) ∧
      dualObjective S off p = (.ok (some q, H), S2) ∧ 0 ≤ E + q ∧
      (E + q = 0 ↔ (∀ k < nx, G.flat k = p.flat k) ∧ ∀ k < nx, p.flat k * g.flat k = 0) := by
  obtain ⟨E, G, S1, q, H, S2, W, h1, h2, h3, h4, h5, -⟩ := duality_core h hγ off g p hg hp
  obtain ⟨d1, d2⟩ := flatDot_nonneg hp0 hg0
  refine ⟨E, G, S1, q, H, S2, h1, h2, by linarith, ?_⟩
  rw [← h5, ← d2]
  constructor
  · intro e; constructor <;> linarith
  · rintro ⟨e1, e2⟩; linarith

/-- **C198** If the gap `g` satisfies the optimality conditions of the primal problem with gradient `G`, then
the pressures `G` satisfy those of the dual problem, the dual gradient there is `g`, and the dual objective
is minus the primal one. -/
theorem C198_primal_to_dual (h : LineSystem S a nx) (hγ : 0 < gammaStiffness1 a) (off : ℝ) (g G : NdArray ℝ)
    (hg : g.size = nx) {E : ℝ} {S1 : Sys} (hE : primalObjective S off g = (.ok (some E, G), S1))
    (hk : KKT (nx) g G) :
    ∃ H S2, dualObjective S off G = (.ok (some (-E), H), S2) ∧ (∀ k < nx, H.flat k = g.flat k) ∧
      KKT (nx) G H := by
  obtain ⟨u, f, G', S', -, -, -, -, hs, -, h7, -, -⟩ := primalObjective_eq h off g hg
  rw [h7] at hE
  obtain ⟨⟨e1, e2⟩, -⟩ : (_ ∧ G' = G) ∧ _ := by simpa using hE
  subst e2
  obtain ⟨E', G2, S1', q, H, S2, W, h1, h2, h3, h4, h5, h6⟩ :=
    duality_core h hγ off g G' hg (by simp [NdArray.size, hs])
  have hg0 := h7.symm.trans h1
  obtain ⟨⟨e3, e4⟩, -⟩ : (_ ∧ G' = G2) ∧ _ := by simpa using hg0
  subst e4
  have hW : W = 0 := h5.mpr fun k _ => rfl
  have hH := h6.mp hW
  have hd : flatDot (nx) G' g = 0 := by
    unfold flatDot
    exact sum_eq_zero fun k hk' => by rw [mul_comm]; exact hk.2.2 k (mem_range.mp hk')
  have hq : q = -E := by
    rw [hW, hd] at h3
    rw [← e1, e3]; linarith
  refine ⟨H, S2, by rw [h2, hq], hH, hk.2.1, fun k hk' => by rw [hH k hk']; exact hk.1 k hk', fun k hk' => ?_⟩
  rw [hH k hk', mul_comm]; exact hk.2.2 k hk'

/-- **C198** Conversely, if the pressures `p` satisfy the optimality conditions of the dual problem, with
gradient `H`, then the gaps `H` satisfy those of the primal problem, the primal gradient there is `p`, and the
primal objective is minus the dual one. -/
theorem C198_dual_to_primal (h : LineSystem S a nx) (hγ : 0 < gammaStiffness1 a) (off : ℝ) (p H : NdArray ℝ)
    (hp : p.size = nx) {q : ℝ} {S2 : Sys} (hq : dualObjective S off p = (.ok (some q, H), S2))
    (hk : KKT (nx) p H) :
    ∃ G S1, primalObjective S off H = (.ok (some (-q), G), S1) ∧ (∀ k < nx, G.flat k = p.flat k) ∧
      KKT (nx) H G := by
  obtain ⟨p', n, u, H', S', -, -, -, -, -, -, hs, -, h9, -⟩ := dualObjective_eq h off p hp
  rw [h9] at hq
  obtain ⟨⟨e1, e2⟩, -⟩ : (_ ∧ H' = H) ∧ _ := by simpa using hq
  subst e2
  obtain ⟨E', G, S1', q', H, S2, W, h1, h2, h3, h4, h5, h6⟩ :=
    duality_core h hγ off H' p (by simp [NdArray.size, hs]) hp
  have hg0 := h9.symm.trans h2
  obtain ⟨⟨e3, e4⟩, -⟩ : (_ ∧ H' = H) ∧ _ := by simpa using hg0
  subst e4
  have hW : W = 0 := h6.mpr fun k _ => rfl
  have hG := h5.mp hW
  have hd : flatDot (nx) p H' = 0 := by
    unfold flatDot
    exact sum_eq_zero fun k hk' => hk.2.2 k (mem_range.mp hk')
  have hq : E' = -q := by
    rw [hW, hd] at h3
    rw [← e1, e3]; linarith
  refine ⟨G, _, by rw [h1, hq], hG, hk.2.1, fun k hk' => by rw [hG k hk']; exact hk.1 k hk', fun k hk' => ?_⟩
  rw [hG k hk', mul_comm]; exact hk.2.2 k hk'

/-- **C198** A gap that satisfies the optimality conditions is the unique global minimum of the primal
objective among non-negative gaps. -/
theorem C198_primal_global (h : LineSystem S a nx) (hγ : 0 < gammaStiffness1 a) (off : ℝ) (g G : NdArray ℝ)
    (hg : g.size = nx) {E : ℝ} {S1 : Sys} (hE : primalObjective S off g = (.ok (some E, G), S1))
    (hk : KKT (nx) g G) (g' : NdArray ℝ) (hg' : g'.size = nx) (hn : ∀ k < nx, 0 ≤ g'.flat k) :
    ∃ E' G' S', primalObjective S off g' = (.ok (some E', G'), S') ∧ E ≤ E' ∧
      (E' = E → ∀ k < nx, g'.flat k = g.flat k) := by
  obtain ⟨H, S2, h1, h2, h3⟩ := C198_primal_to_dual h hγ off g G hg hE hk
  have hGs : G.size = nx := by
    obtain ⟨u, f, G', S', -, -, -, -, hs, -, h7, -, -⟩ := primalObjective_eq h off g hg
    rw [h7] at hE
    obtain ⟨⟨-, e2⟩, -⟩ : (_ ∧ G' = G) ∧ _ := by simpa using hE
    subst e2; simp [NdArray.size, hs]
  obtain ⟨E', G', S1', q, H', S2', W, k1, k2, k3, k4, k5, k6⟩ := duality_core h hγ off g' G hg' hGs
  rw [h1] at k2
  obtain ⟨⟨e1, e2⟩, -⟩ : (-E = q ∧ H = H') ∧ _ := by simpa using k2
  obtain ⟨d1, -⟩ := flatDot_nonneg hk.2.1 hn
  refine ⟨E', G', S1', k1, by linarith, fun e k hk' => ?_⟩
  have hW : W = 0 := by linarith
  rw [← k6.mp hW k hk', ← e2, h2 k hk']

/-- **C198** Pressures that satisfy the optimality conditions are the unique global minimum of the dual
objective among non-negative pressures. -/
theorem C198_dual_global (h : LineSystem S a nx) (hγ : 0 < gammaStiffness1 a) (off : ℝ) (p H : NdArray ℝ)
    (hp : p.size = nx) {q : ℝ} {S2 : Sys} (hq : dualObjective S off p = (.ok (some q, H), S2))
    (hk : KKT (nx) p H) (p' : NdArray ℝ) (hp' : p'.size = nx) (hn : ∀ k < nx, 0 ≤ p'.flat k) :
    ∃ q' H' S', dualObjective S off p' = (.ok (some q', H'), S') ∧ q ≤ q' ∧
      (q' = q → ∀ k < nx, p'.flat k = p.flat k) := by
  obtain ⟨G, S1, h1, h2, h3⟩ := C198_dual_to_primal h hγ off p H hp hq hk
  have hHs : H.size = nx := by
    obtain ⟨_, n, u, H', S', -, -, -, -, -, -, hs, -, h9, -⟩ := dualObjective_eq h off p hp
    rw [h9] at hq
    obtain ⟨⟨-, e2⟩, -⟩ : (_ ∧ H' = H) ∧ _ := by simpa using hq
    subst e2; simp [NdArray.size, hs]
  obtain ⟨E', G', S1', q', H', S2', W, k1, k2, k3, k4, k5, k6⟩ := duality_core h hγ off H p' hHs hp'
  rw [h1] at k1
  obtain ⟨⟨e1, e2⟩, -⟩ : (-q = E' ∧ G = G') ∧ _ := by simpa using k1
  obtain ⟨d1, -⟩ := flatDot_nonneg hn hk.2.1
  refine ⟨q', H', S2', k2, by linarith, fun e k hk' => ?_⟩
  have hW : W = 0 := by linarith
  rw [← k5.mp hW k hk', ← e2, h2 k hk']

/-! ## Elastic response, existence of the solution -/

/-- Forces on a line, as an array. -/
def arrayOf1 (nx : ℕ) (f : Fin nx → ℝ) : NdArray ℝ :=
  ⟨[nx], fun x => match x with
    | [i] => if h : i < nx then f ⟨i, h⟩ else 0
    | _ => 0⟩

/-- `evaluate_disp` as a map between fields on a line. -/
noncomputable def dispMap1 (s : HalfSpace) (nx : ℕ) (f : Fin nx → ℝ) : Fin nx → ℝ :=
  fun p => match HS.evaluateDisp s (arrayOf1 nx f) with
    | .ok u => u.get [p]
    | .error _ => 0

lemma tor1_arrayOf [NeZero nx] (f : Fin nx → ℝ) :
    (tor1 nx fun i => (arrayOf1 nx f).get [i]) = fun p => f ⟨p.val, ZMod.val_lt _⟩ := by
  funext p
  simp only [tor1, arrayOf1]
  rw [dif_pos (ZMod.val_lt _)]

lemma sum_fin1 [NeZero nx] (F : ZMod nx → ℝ) : ∑ p : Fin nx, F (p.val : ZMod nx) = ∑ p, F p := by
  rw [sum_zmod, ← Fin.sum_univ_eq_sum_range (fun i => F (i : ZMod nx))]

/-- **C198** A line with positive Gamma stiffness is an elastic substrate in the sense of the theorems on the contact solver. -/
theorem C198_elastic_response {s : HalfSpace} (hv : ValidArgs a) (hs : construct a = .ok s) (hg : a.nbGridPts = [nx])
    (hγ : 0 < gammaStiffness1 a) : ElasticResponse (dispMap1 s nx) := by
  obtain ⟨_, P⟩ := per1_of_construct hv hs hg
  have hS := P.pos hv hγ
  have hA := P.area_pos
  have key : ∀ f p, dispMap1 s nx f p = -((pairZ nx).act (fun k => (((fullStiff1 a nx k)⁻¹ : ℝ) : ℂ))
      (tor1 nx fun i => (arrayOf1 nx f).get [i]) (p.val : ZMod nx)) / s.areaPerPt := by
    intro f p
    obtain ⟨u, hu, -, hu'⟩ := P.disp (f := arrayOf1 nx f) rfl
    unfold dispMap1
    rw [hu]
    exact hu' _
  have hlin : ∀ (c d : ℝ) f g p, dispMap1 s nx (fun j => c * f j + d * g j) p
      = c * dispMap1 s nx f p + d * dispMap1 s nx g p := by
    intro c d f g p
    rw [key, key, key, tor1_arrayOf, tor1_arrayOf, tor1_arrayOf, (pairZ nx).act_lin]
    ring
  have hdot : ∀ f g, dot f (dispMap1 s nx g) = -(∑ p, tor1 nx (fun i => (arrayOf1 nx f).get [i]) p *
      (pairZ nx).act (fun k => (((fullStiff1 a nx k)⁻¹ : ℝ) : ℂ)) (tor1 nx fun i => (arrayOf1 nx g).get [i]) p)
        / s.areaPerPt := by
    intro f g
    unfold dot
    rw [← sum_fin1, ← sum_neg_distrib, sum_div]
    refine sum_congr rfl fun p _ => ?_
    rw [key, tor1_cast (fun i => (arrayOf1 nx f).get [i]) p.isLt]
    have : (arrayOf1 nx f).get [p] = f p := by simp [arrayOf1]
    rw [this]; ring
  refine ⟨?_, ?_, ?_, ?_⟩
  · intro f g i
    have := hlin 1 1 f g i
    simpa using this
  · intro c f i
    have := hlin c 0 f f i
    simpa using this
  · intro f g
    rw [hdot, hdot, (pairZ nx).recip_of_even ((pairZ nx).ker_even (fun k => (fullStiff1 a nx k)⁻¹))]
  · intro f ⟨i, hi⟩
    rw [hdot]
    have he := (pairZ nx).energy (fun k => (fullStiff1 a nx k)⁻¹) (fun k => by rw [P.even])
      (tor1 nx fun i => (arrayOf1 nx f).get [i])
    have hpos : 0 < ∑ k, (fullStiff1 a nx k)⁻¹ * Complex.normSq ((pairZ nx).ft
        (fun y => (tor1 nx (fun i => (arrayOf1 nx f).get [i]) y : ℂ)) k) := by
      have hnn : ∀ k ∈ univ, 0 ≤ (fullStiff1 a nx k)⁻¹ * Complex.normSq ((pairZ nx).ft
          (fun y => (tor1 nx (fun i => (arrayOf1 nx f).get [i]) y : ℂ)) k) :=
        fun k _ => mul_nonneg (inv_pos.mpr (hS k)).le (Complex.normSq_nonneg _)
      refine lt_of_le_of_ne (sum_nonneg hnn) (fun h0 => hi ?_)
      rw [eq_comm, sum_eq_zero_iff_of_nonneg hnn] at h0
      have hz : ∀ k, (pairZ nx).ft (fun y => (tor1 nx (fun i => (arrayOf1 nx f).get [i]) y : ℂ)) k = 0 := by
        intro k
        have := h0 k (mem_univ _)
        simpa [(hS k).ne'] using this
      have := ((pairZ nx).ft_eq_zero_iff _).mp hz (i.val : ZMod nx)
      rw [tor1_cast _ i.isLt] at this
      simpa [arrayOf1] using this
    rw [← he] at hpos
    have hc : (0 : ℝ) < (Fintype.card (ZMod nx) : ℕ) := by
      exact_mod_cast Fintype.card_pos
    have hpos' := pos_of_mul_pos_right hpos hc.le
    rw [neg_div]
    exact neg_neg_of_pos (div_pos hpos' hA)

/-- The displacements answering the pressures `p`. -/
noncomputable def answer1 (s : HalfSpace) (nx : ℕ) (p : Fin nx → ℝ) : Fin nx → ℝ := dispMap1 s nx fun i => -(p i)

lemma answer1_ok {s : HalfSpace} (h : ElasticResponse (dispMap1 s nx)) : Reciprocal (answer1 s nx) ∧ PosDef (answer1 s nx) := by
  have e : ∀ p, answer1 s nx p = fun i => -(dispMap1 s nx p i) := by
    intro p; funext i
    have := h.smul (-1) p i
    simp only [neg_mul, one_mul] at this
    exact this
  refine ⟨⟨fun c d f g => ?_, fun f g => ?_⟩, fun f hf => ?_⟩
  · funext i
    simp only [e]
    rw [h.add (fun j => c * f j) (fun j => d * g j), h.smul, h.smul]
    ring
  · have := h.symm f g
    simp only [e]
    unfold dot at *
    simp only [mul_neg, sum_neg_distrib]
    rw [this]
  · have := h.posdef f hf
    simp only [e]
    unfold dot at *
    simp only [mul_neg, sum_neg_distrib]
    linarith

/-- **C198** The contact problem of a line has a solution at every offset: pressures that satisfy the optimality conditions of the
dual objective, whose gradient there (the gaps) satisfies those of the primal one. -/
theorem C198_solvable (h : LineSystem S a nx) (hγ : 0 < gammaStiffness1 a) (off : ℝ) :
    ∃ p H q E S1 S2, p.shape = [nx] ∧ H.size = nx ∧ dualObjective S off p = (.ok (some q, H), S2) ∧ KKT nx p H ∧
      ∃ G, primalObjective S off H = (.ok (some E, G), S1) ∧ KKT nx H G := by
  obtain ⟨hU, hP⟩ := answer1_ok (C198_elastic_response h.valid h.built h.grid hγ)
  obtain ⟨w, hw⟩ := hardWall_exists hU hP.copositive (fun i : Fin nx => S.heights.get [i] + off)
  let p : NdArray ℝ := arrayOf1 nx w
  have hp : p.size = nx := by simp [p, arrayOf1, NdArray.size]
  obtain ⟨p', n, u, H, S2, h1, h2, h3, h4, h5, h6, h7, h8, h9, -⟩ := dualObjective_eq h off p hp
  have hpf : ∀ k (hk : k < nx), p.flat k = w ⟨k, hk⟩ := by
    intro k hk
    rw [flat_get (f := p) rfl hk]
    simp [p, arrayOf1, hk]
  have he : S.sub.evaluateDisp = HS.evaluateDisp S.sub.hs := by
    funext f; unfold Substrate.evaluateDisp; rw [if_neg (by rw [h.periodic]; simp)]
  obtain ⟨v, hv, hvs⟩ := (symOp_disp h).ok (arrayOf1 nx fun i => -(w i)) rfl
  have huv := (symOp_disp h).congr (f := n) (g := arrayOf1 nx fun i => -(w i)) h3 rfl
    (fun i hi => by rw [h4, ← flat_get h1 hi, h2 i hi, hpf i hi]; simp [arrayOf1, hi]) h5 hv
  have hans : ∀ i (hi : i < nx), answer1 S.sub.hs nx w ⟨i, hi⟩ = u.get [i] := by
    intro i hi
    rw [huv i hi]
    unfold answer1 dispMap1
    rw [← he, hv]
  have hH : ∀ i (hi : i < nx), H.flat i = answer1 S.sub.hs nx w ⟨i, hi⟩ - (S.heights.get [i] + off) := by
    intro i hi
    rw [h8 i hi, hans i hi, flat_get h6 hi, flat_get h.heights hi]; ring
  have hk : KKT nx p H := by
    refine ⟨fun k hk => by rw [hpf k hk]; exact hw.noTension _, fun k hk => ?_, fun k hk => ?_⟩
    · rw [hH k hk]; have := hw.noPenetration ⟨k, hk⟩; simp only at this; linarith
    · rw [hH k hk, hpf k hk]
      by_cases h0 : w ⟨k, hk⟩ = 0
      · rw [h0, zero_mul]
      · have := hw.touching ⟨k, hk⟩ h0
        simp only at this
        rw [this, sub_self, mul_zero]
  obtain ⟨G, S1, g1, -, g3⟩ := C198_dual_to_primal h hγ off p H hp h9 hk
  exact ⟨p, H, _, _, S1, S2, rfl, by simp [NdArray.size, h7], h9, hk, G, g1, g3⟩

/-- A system on a concrete line. -/
example : ∃ S, LineSystem S demoArgs1 5 ∧ 0 < gammaStiffness1 demoArgs1 := by
  obtain ⟨s, hs⟩ : ∃ s, construct demoArgs1 = .ok s := by rw [C13_construct_ok_iff]; simp [demoArgs1]
  have hv : ValidArgs demoArgs1 := by constructor <;> simp [demoArgs1]
  obtain ⟨_, _, _, -, -, hgrid, -⟩ := construct1 hs (nx := 5) rfl
  obtain ⟨S, -, h1, h2, -⟩ := (C56_incompatible_resolution_iff ⟨s, false, false⟩ ⟨[5], fun x => if x = [2] then 1 else 0⟩).2 (by simp [hgrid])
  refine ⟨S, ⟨hv, by rw [h1]; exact hs, rfl, by rw [h1], by rw [h2]⟩, ?_⟩
  unfold gammaStiffness1
  have := Real.pi_pos
  simp only [contactModulus, demoArgs1, size]
  norm_num
  try positivity


end CM.System.Line
