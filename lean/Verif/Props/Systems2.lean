import Verif.Props.Systems
/-!
# C51 strong duality, C111 optimality of primal and dual solutions
-/
set_option linter.unusedSimpArgs false
namespace CM.System
open Finset CM.HS CM.FFT CM.Spec

variable {nx ny : ℕ} {S : Sys} {a : Args}

/-- Elastic energy as work. -/
lemma energy_work (h : PeriodicSystem S a nx ny) (hγ : 0 < gammaStiffness a) {d f : NdArray ℝ} (hd : d.shape = [nx, ny])
    (hf : evaluateForce S.sub.hs d = .ok f) :
    0 ≤ -(1 / 2) * work nx ny f d ∧
      (-(1 / 2) * work nx ny f d = 0 ↔ ∀ i j, i < nx → j < ny → d.get [i, j] = 0) := by
  obtain ⟨e, f', h1, h2⟩ := C05_energy_real_eq_fourier h.valid h.built h.grid d hd
  rw [evaluate_true h hf] at h1
  obtain ⟨e', h3, h4⟩ := C04_energy_nonneg h.valid h.built h.grid hγ.le d hd
  have h5 := C04_energy_eq_zero_iff h.valid h.built h.grid hγ d hd
  rw [h2] at h3 h5
  simp only [Except.ok.injEq, Prod.mk.injEq, Option.some.injEq, and_true] at h1 h3 h5
  obtain ⟨h1, -⟩ := h1
  rw [h1, h3]
  exact ⟨h4, h3 ▸ h5⟩

/-- The duality gap of an arbitrary pair, as elastic energy of the mismatch plus work of the pressures on
the gaps. -/
lemma duality_core (h : PeriodicSystem S a nx ny) (hγ : 0 < gammaStiffness a) (off : ℝ) (g p : NdArray ℝ)
    (hg : g.size = nx * ny) (hp : p.size = nx * ny) :
    ∃ E G S1 q H S2 W, primalObjective S off g = (.ok (some E, G), S1) ∧
      dualObjective S off p = (.ok (some q, H), S2) ∧ E + q = W + flatDot (nx * ny) p g ∧ 0 ≤ W ∧
      (W = 0 ↔ ∀ k < nx * ny, G.flat k = p.flat k) ∧ (W = 0 ↔ ∀ k < nx * ny, H.flat k = g.flat k) := by
  obtain ⟨u, f, G, S1, h1, h2, h3, h4, h5, h6, h7, -, -⟩ := primalObjective_eq h off g hg
  obtain ⟨p', n, w, H, S2, k1, k2, k3, k4, k5, k6, k7, k8, k9, -⟩ := dualObjective_eq (.inl ⟨a, h⟩) off p hp
  have he : S.sub.evaluateDisp n = HS.evaluateDisp S.sub.hs n := by
    unfold Substrate.evaluateDisp; rw [if_neg (by rw [h.periodic]; simp)]
  obtain ⟨w', n', e1, e2, e3⟩ := C02_force_disp_inverse h.valid h.built h.grid hγ.ne' n k3
  rw [← he, k5] at e1
  cases e1
  let d : NdArray ℝ := ⟨[nx, ny], fun x => 1 * u.get x + (-1) * w.get x⟩
  obtain ⟨fd, hfd, hfds⟩ := (symOp_force h).ok d rfl
  have hq := (symOp_force h).quad 1 (-1) (u := u) (v := w) (w := d) h1 k6 rfl (fun _ _ _ _ => rfl) h3 e2 hfd
  have hl := (symOp_force h).lin 1 (-1) u w d h1 k6 rfl (fun _ _ _ _ => rfl) f n' fd h3 e2 hfd
  have hs := (symOp_force h).symm u w f n' h1 k6 h3 e2
  obtain ⟨hW0, hW1⟩ := energy_work h hγ rfl hfd
  have hn' : ∀ i j, i < nx → j < ny → n'.get [i, j] = (-1) * p'.get [i, j] + 0 * p'.get [i, j] := by
    intro i j hi hj; rw [e3 i j hi hj, k4]; ring
  have hn'u := work_lin (nx := nx) (ny := ny) (-1) 0 (k := u) hn'
  have hn'w := work_lin (nx := nx) (ny := ny) (-1) 0 (k := w) hn'
  have hud : ∀ i j, i < nx → j < ny → d.get [i, j] = u.get [i, j] - w.get [i, j] := fun i j _ _ => by
    show 1 * u.get [i, j] + (-1) * w.get [i, j] = _; ring
  have e4 : ∑ k ∈ range (nx * ny), p.flat k * (S.heights.flat k + off) = work nx ny p' u - flatDot (nx * ny) p g := by
    rw [← flatDot_work k1 h1 (fun k hk => (k2 k hk).symm) (fun k _ => rfl)]
    unfold flatDot
    rw [← sum_sub_distrib]
    refine sum_congr rfl fun k hk => ?_
    rw [h2 k (mem_range.mp hk)]; ring
  refine ⟨_, G, S1, _, H, S2, -(1 / 2) * work nx ny fd d, h7, k9, ?_, hW0, ?_, ?_⟩
  · have c1 := work_comm (nx := nx) (ny := ny) w f
    have c2 := work_comm (nx := nx) (ny := ny) u n'
    rw [e4, hq]
    linarith [hs, hn'u, hn'w]
  · rw [hW1]
    constructor
    · intro hz k hk
      obtain ⟨i, j, hi, hj, rfl, e⟩ := get_of_flat h4 hk
      have hz' : ∀ i j, i < nx → j < ny → u.get [i, j] = w.get [i, j] := fun i j hi hj => by
        have := hz i j hi hj; rw [hud i j hi hj] at this; linarith
      have := (symOp_force h).congr h1 k6 hz' h3 e2 i j hi hj
      rw [h6, e, this, e3 i j hi hj, k4, ← flat_get k1 hi hj, k2 _ hk]; ring
    · intro hG
      have hfd0 : ∀ i j, i < nx → j < ny → fd.get [i, j] = 0 := by
        intro i j hi hj
        have h := hG _ (flat_lt hi hj)
        rw [h6, flat_get h4 hi hj, ← k2 _ (flat_lt hi hj), flat_get k1 hi hj] at h
        rw [hl i j hi hj, e3 i j hi hj, k4]; linarith
      refine hW1.mp ?_
      have : work nx ny fd d = 0 := by
        unfold work
        refine sum_eq_zero fun i hi => sum_eq_zero fun j hj => ?_
        rw [hfd0 i j (mem_range.mp hi) (mem_range.mp hj), zero_mul]
      rw [this, mul_zero]
  · rw [hW1]
    constructor
    · intro hz k hk
      obtain ⟨i, j, hi, hj, rfl, e⟩ := get_of_flat k6 hk
      have := hz i j hi hj
      rw [hud i j hi hj, ← e, ← flat_get h1 hi hj, h2 _ hk] at this
      rw [k8 _ hk]; linarith
    · intro hG i j hi hj
      have h' := hG _ (flat_lt hi hj)
      rw [k8 _ (flat_lt hi hj), flat_get k6 hi hj] at h'
      rw [hud i j hi hj, ← flat_get h1 hi hj, h2 _ (flat_lt hi hj)]; linarith

lemma flatDot_nonneg {N : ℕ} {p g : NdArray ℝ} (hp : ∀ k < N, 0 ≤ p.flat k) (hg : ∀ k < N, 0 ≤ g.flat k) :
    0 ≤ flatDot N p g ∧ (flatDot N p g = 0 ↔ ∀ k < N, p.flat k * g.flat k = 0) := by
  have h : ∀ k ∈ range N, 0 ≤ p.flat k * g.flat k :=
    fun k hk => mul_nonneg (hp k (mem_range.mp hk)) (hg k (mem_range.mp hk))
  refine ⟨sum_nonneg h, ?_⟩
  rw [flatDot, sum_eq_zero_iff_of_nonneg h]
  simp only [mem_range]

/-- **C51** Duality of the primal and dual objectives of a system on a periodic substrate (positive
stiffness at the Gamma point): for non-negative gaps `g` and non-negative pressures `p` the sum of the two
objectives is non-negative, and it vanishes exactly when the pair is compatible (the pressures are the
gradient of the primal objective at `g`) and complementary (no pressure where there is a gap). -/
theorem C51_strong_duality (h : PeriodicSystem S a nx ny) (hγ : 0 < gammaStiffness a) (off : ℝ) (g p : NdArray ℝ)
    (hg : g.size = nx * ny) (hp : p.size = nx * ny) (hg0 : ∀ k < nx * ny, 0 ≤ g.flat k)
    (hp0 : ∀ k < nx * ny, 0 ≤ p.flat k) :
    ∃ E G S1 q H S2, primalObjective S off g = (.ok (some E, G), S1) ∧
      dualObjective S off p = (.ok (some q, H), S2) ∧ 0 ≤ E + q ∧
      (E + q = 0 ↔ (∀ k < nx * ny, G.flat k = p.flat k) ∧ ∀ k < nx * ny, p.flat k * g.flat k = 0) := by
  obtain ⟨E, G, S1, q, H, S2, W, h1, h2, h3, h4, h5, -⟩ := duality_core h hγ off g p hg hp
  obtain ⟨d1, d2⟩ := flatDot_nonneg hp0 hg0
  refine ⟨E, G, S1, q, H, S2, h1, h2, by linarith, ?_⟩
  rw [← h5, ← d2]
  constructor
  · intro e; constructor <;> linarith
  · rintro ⟨e1, e2⟩; linarith

/-- `(E, G)` is what the objective returned at `x`: the Karush-Kuhn-Tucker conditions of minimising over
`x ≥ 0`. -/
def _root_.CM.Spec.KKT (N : ℕ) (x G : NdArray ℝ) : Prop :=
  (∀ k < N, 0 ≤ x.flat k) ∧ (∀ k < N, 0 ≤ G.flat k) ∧ ∀ k < N, x.flat k * G.flat k = 0

/-- **C111** If the gap `g` satisfies the optimality conditions of the primal problem with gradient `G`, then
the pressures `G` satisfy those of the dual problem, the dual gradient there is `g`, and the dual objective
is minus the primal one. -/
theorem C111_primal_to_dual (h : PeriodicSystem S a nx ny) (hγ : 0 < gammaStiffness a) (off : ℝ) (g G : NdArray ℝ)
    (hg : g.size = nx * ny) {E : ℝ} {S1 : Sys} (hE : primalObjective S off g = (.ok (some E, G), S1))
    (hk : KKT (nx * ny) g G) :
    ∃ H S2, dualObjective S off G = (.ok (some (-E), H), S2) ∧ (∀ k < nx * ny, H.flat k = g.flat k) ∧
      KKT (nx * ny) G H := by
  obtain ⟨u, f, G', S', -, -, -, -, hs, -, h7, -, -⟩ := primalObjective_eq h off g hg
  rw [h7] at hE
  obtain ⟨⟨e1, e2⟩, -⟩ : (_ ∧ G' = G) ∧ _ := by simpa using hE
  subst e2
  obtain ⟨E', G2, S1', q, H, S2, W, h1, h2, h3, h4, h5, h6⟩ :=
    duality_core h hγ off g G' hg (by simp [NdArray.size, hs])
  have hg0 := h7.symm.trans h1
  obtain ⟨⟨e3, e4⟩, -⟩ : (_ ∧ G' = G2) ∧ _ := by simpa using hg0
  subst e4
  have hW : W = 0 := h5.mpr fun k _ => rfl
  have hH := h6.mp hW
  have hd : flatDot (nx * ny) G' g = 0 := by
    unfold flatDot
    exact sum_eq_zero fun k hk' => by rw [mul_comm]; exact hk.2.2 k (mem_range.mp hk')
  have hq : q = -E := by
    rw [hW, hd] at h3
    rw [← e1, e3]; linarith
  refine ⟨H, S2, by rw [h2, hq], hH, hk.2.1, fun k hk' => by rw [hH k hk']; exact hk.1 k hk', fun k hk' => ?_⟩
  rw [hH k hk', mul_comm]; exact hk.2.2 k hk'

/-- **C111** Conversely, if the pressures `p` satisfy the optimality conditions of the dual problem, with
gradient `H`, then the gaps `H` satisfy those of the primal problem, the primal gradient there is `p`, and the
primal objective is minus the dual one. -/
theorem C111_dual_to_primal (h : PeriodicSystem S a nx ny) (hγ : 0 < gammaStiffness a) (off : ℝ) (p H : NdArray ℝ)
    (hp : p.size = nx * ny) {q : ℝ} {S2 : Sys} (hq : dualObjective S off p = (.ok (some q, H), S2))
    (hk : KKT (nx * ny) p H) :
    ∃ G S1, primalObjective S off H = (.ok (some (-q), G), S1) ∧ (∀ k < nx * ny, G.flat k = p.flat k) ∧
      KKT (nx * ny) H G := by
  obtain ⟨p', n, u, H', S', -, -, -, -, -, -, hs, -, h9, -⟩ := dualObjective_eq (.inl ⟨a, h⟩) off p hp
  rw [h9] at hq
  obtain ⟨⟨e1, e2⟩, -⟩ : (_ ∧ H' = H) ∧ _ := by simpa using hq
  subst e2
  obtain ⟨E', G, S1', q', H, S2, W, h1, h2, h3, h4, h5, h6⟩ :=
    duality_core h hγ off H' p (by simp [NdArray.size, hs]) hp
  have hg0 := h9.symm.trans h2
  obtain ⟨⟨e3, e4⟩, -⟩ : (_ ∧ H' = H) ∧ _ := by simpa using hg0
  subst e4
  have hW : W = 0 := h6.mpr fun k _ => rfl
  have hG := h5.mp hW
  have hd : flatDot (nx * ny) p H' = 0 := by
    unfold flatDot
    exact sum_eq_zero fun k hk' => hk.2.2 k (mem_range.mp hk')
  have hq : E' = -q := by
    rw [hW, hd] at h3
    rw [← e1, e3]; linarith
  refine ⟨G, _, by rw [h1, hq], hG, hk.2.1, fun k hk' => by rw [hG k hk']; exact hk.1 k hk', fun k hk' => ?_⟩
  rw [hG k hk', mul_comm]; exact hk.2.2 k hk'

/-- **C111** A gap that satisfies the optimality conditions is the unique global minimum of the primal
objective among non-negative gaps. -/
theorem C111_primal_global (h : PeriodicSystem S a nx ny) (hγ : 0 < gammaStiffness a) (off : ℝ) (g G : NdArray ℝ)
    (hg : g.size = nx * ny) {E : ℝ} {S1 : Sys} (hE : primalObjective S off g = (.ok (some E, G), S1))
    (hk : KKT (nx * ny) g G) (g' : NdArray ℝ) (hg' : g'.size = nx * ny) (hn : ∀ k < nx * ny, 0 ≤ g'.flat k) :
    ∃ E' G' S', primalObjective S off g' = (.ok (some E', G'), S') ∧ E ≤ E' ∧
      (E' = E → ∀ k < nx * ny, g'.flat k = g.flat k) := by
  obtain ⟨H, S2, h1, h2, h3⟩ := C111_primal_to_dual h hγ off g G hg hE hk
  have hGs : G.size = nx * ny := by
    obtain ⟨u, f, G', S', -, -, -, -, hs, -, h7, -, -⟩ := primalObjective_eq h off g hg
    rw [h7] at hE
    obtain ⟨⟨-, e2⟩, -⟩ : (_ ∧ G' = G) ∧ _ := by simpa using hE
    subst e2; simp [NdArray.size, hs]
  obtain ⟨E', G', S1', q, H', S2', W, k1, k2, k3, k4, k5, k6⟩ := duality_core h hγ off g' G hg' hGs
  rw [h1] at k2
  obtain ⟨⟨e1, e2⟩, -⟩ : (-E = q ∧ H = H') ∧ _ := by simpa using k2
  obtain ⟨d1, -⟩ := flatDot_nonneg hk.2.1 hn
  refine ⟨E', G', S1', k1, by linarith, fun e k hk' => ?_⟩
  have hW : W = 0 := by linarith
  rw [← k6.mp hW k hk', ← e2, h2 k hk']

/-- **C111** Pressures that satisfy the optimality conditions are the unique global minimum of the dual
objective among non-negative pressures. -/
theorem C111_dual_global (h : PeriodicSystem S a nx ny) (hγ : 0 < gammaStiffness a) (off : ℝ) (p H : NdArray ℝ)
    (hp : p.size = nx * ny) {q : ℝ} {S2 : Sys} (hq : dualObjective S off p = (.ok (some q, H), S2))
    (hk : KKT (nx * ny) p H) (p' : NdArray ℝ) (hp' : p'.size = nx * ny) (hn : ∀ k < nx * ny, 0 ≤ p'.flat k) :
    ∃ q' H' S', dualObjective S off p' = (.ok (some q', H'), S') ∧ q ≤ q' ∧
      (q' = q → ∀ k < nx * ny, p'.flat k = p.flat k) := by
  obtain ⟨G, S1, h1, h2, h3⟩ := C111_dual_to_primal h hγ off p H hp hq hk
  have hHs : H.size = nx * ny := by
    obtain ⟨_, n, u, H', S', -, -, -, -, -, -, hs, -, h9, -⟩ := dualObjective_eq (.inl ⟨a, h⟩) off p hp
    rw [h9] at hq
    obtain ⟨⟨-, e2⟩, -⟩ : (_ ∧ H' = H) ∧ _ := by simpa using hq
    subst e2; simp [NdArray.size, hs]
  obtain ⟨E', G', S1', q', H', S2', W, k1, k2, k3, k4, k5, k6⟩ := duality_core h hγ off H p' hHs hp'
  rw [h1] at k1
  obtain ⟨⟨e1, e2⟩, -⟩ : (-q = E' ∧ G = G') ∧ _ := by simpa using k1
  obtain ⟨d1, -⟩ := flatDot_nonneg hn hk.2.1
  refine ⟨q', H', S2', k2, by linarith, fun e k hk' => ?_⟩
  have hW : W = 0 := by linarith
  rw [← k5.mp hW k hk', ← e2, h2 k hk']

end CM.System
