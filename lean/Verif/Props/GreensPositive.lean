import Verif.Props.GreensDefined
import Verif.Props.GreensDecay
/-!
# The anisotropic Green's function is defined and positive (C137)
-/
namespace CM.Greens

open Matrix Filter

/-- A loaded surface moves. -/
lemma loaded_moves {C : Fin 3 → Fin 3 → Fin 3 → Fin 3 → ℝ} (h1 : ∀ i j k l, C i j k l = C j i k l) (hC : StrainEnergy C) (qx qy : ℝ) (hq : qx ≠ 0 ∨ qy ≠ 0) (w w' w'' : ℝ → Fin 3 → ℂ)
    (hw : ∀ z i, HasDerivAt (fun z => w z i) (w' z i) z) (hw' : ∀ z i, HasDerivAt (fun z => w' z i) (w'' z i) z) (nw : ∀ z, Elastic.Cauchy C qx qy (w z) (w' z) (w'' z)) (s : ℝ) (hs : s < 0)
    (hp : power C qx qy w w' 0 ≤ power C qx qy w w' s) (i : Fin 3) : Elastic.hooke C qx qy (w 0) (w' 0) i 2 = 0 := by
  have h0 := still h1 hC qx qy hq w w' w'' hw hw' nw s 0 hp
  have hd : ∀ z ∈ Set.Ioo s 0, w' z = 0 := by
    intro z hz
    funext l
    refine ((hw z l).congr_of_eventuallyEq (?_ : (fun _ => (0 : ℂ)) =ᶠ[nhds z] _)).unique (hasDerivAt_const z (0 : ℂ))
    filter_upwards [isOpen_Ioo.mem_nhds hz] with y hy
    rw [h0 y hy]; rfl
  have hz : ∀ z ∈ Set.Ioo s 0, Elastic.hooke C qx qy (w z) (w' z) i 2 = 0 := by
    intro z hz
    rw [h0 z hz, hd z hz]
    unfold Elastic.hooke Elastic.grad
    refine Finset.sum_eq_zero fun k _ => Finset.sum_eq_zero fun l _ => ?_
    fin_cases k <;> simp
  have hc : ContinuousAt (fun z => Elastic.hooke C qx qy (w z) (w' z) i 2) 0 := by
    unfold Elastic.hooke
    refine tendsto_finsetSum _ fun k _ => tendsto_finsetSum _ fun l _ => Tendsto.const_mul _ ?_
    fin_cases k
    · exact ((hw 0 l).continuousAt.tendsto).const_mul _
    · exact ((hw 0 l).continuousAt.tendsto).const_mul _
    · exact (hw' 0 l).continuousAt.tendsto
  have hl : Tendsto (fun z => Elastic.hooke C qx qy (w z) (w' z) i 2) (nhdsWithin 0 (Set.Ioo s 0)) (nhds 0) := by
    refine (tendsto_congr' ?_).2 tendsto_const_nhds
    filter_upwards [self_mem_nhdsWithin] with z hz' using hz z hz'
  have : (nhdsWithin (0 : ℝ) (Set.Ioo s 0)).NeBot := by
    rw [← mem_closure_iff_nhdsWithin_neBot, closure_Ioo hs.ne]
    exact ⟨hs.le, le_refl _⟩
  exact tendsto_nhds_unique (hc.tendsto.mono_left nhdsWithin_le_nhds) hl

lemma power_surface (C : Fin 3 → Fin 3 → Fin 3 → Fin 3 → ℝ) (qx qy : ℝ) (w w' : ℝ → Fin 3 → ℂ) (t : Fin 3 → ℂ) (ht : ∀ i, Elastic.hooke C qx qy (w 0) (w' 0) i 2 = t i) :
    power C qx qy w w' 0 = (∑ i, (starRingEnd ℂ) (w 0 i) * t i).re := by
  unfold power
  simp only [ht]

lemma crystal_positive {C : Fin 3 → Fin 3 → Fin 3 → Fin 3 → ℝ} (h1 : ∀ i j k l, C i j k l = C j i k l) (hC : StrainEnergy C) (qx qy : ℝ) (hq : qx ≠ 0 ∨ qy ≠ 0) (t : Fin 3 → ℂ) (ht : t ≠ 0)
    (w : ℝ → Fin 3 → ℂ) (h : Elastic.CrystalSolution C qx qy t w) : 0 < (∑ i, (starRingEnd ℂ) (w 0 i) * t i).re := by
  obtain ⟨w', w'', d1, d2, nw, tw, l1, l2⟩ := h
  rw [← power_surface C qx qy w w' t tw]
  by_contra hn
  apply ht
  funext i
  rw [← tw i]
  refine loaded_moves h1 hC qx qy hq w w' w'' d1 d2 nw (-1) (by norm_num) ((not_lt.1 hn).trans ?_) i
  refine le_of_tendsto (power_decay C qx qy w w' l1 l2) ?_
  filter_upwards [eventually_le_atBot (-1 : ℝ)] with z hz
  exact power_mono h1 hC qx qy w w' w'' d1 d2 nw hz

lemma layer_positive {C : Fin 3 → Fin 3 → Fin 3 → Fin 3 → ℝ} (h1 : ∀ i j k l, C i j k l = C j i k l) (hC : StrainEnergy C) (qx qy d : ℝ) (hd : 0 < d) (hq : qx ≠ 0 ∨ qy ≠ 0) (t : Fin 3 → ℂ) (ht : t ≠ 0)
    (w : ℝ → Fin 3 → ℂ) (h : Elastic.LayerSolution C qx qy d t w) : 0 < (∑ i, (starRingEnd ℂ) (w 0 i) * t i).re := by
  obtain ⟨w', w'', d1, d2, nw, tw, hb⟩ := h
  rw [← power_surface C qx qy w w' t tw]
  by_contra hn
  apply ht
  funext i
  rw [← tw i]
  refine loaded_moves h1 hC qx qy hq w w' w'' d1 d2 nw (-d) (by linarith) ((not_lt.1 hn).trans (le_of_eq ?_)) i
  unfold power
  rw [hb]
  simp

/-- A Hermitian response with positive work is positive definite. -/
lemma positive_of_work (G : M3) (hG : Hermitian G) (h : ∀ t : Fin 3 → ℂ, t ≠ 0 → 0 < (∑ i, (starRingEnd ℂ) ((Gᵀ *ᵥ t) i) * t i).re) : PositiveDefinite G := by
  intro x hx
  have := h (fun i => (starRingEnd ℂ) (x i)) (by
    intro h0
    apply hx
    funext i
    have := congrFun h0 i
    simpa using this)
  convert this using 2
  refine Finset.sum_congr rfl fun i _ => ?_
  simp only [Matrix.mulVec, dotProduct, Matrix.transpose_apply, map_sum, map_mul, Complex.conj_conj, Finset.sum_mul]
  refine Finset.sum_congr rfl fun j _ => ?_
  rw [← hG j i]
  ring

lemma det_ne_of_positive (G : M3) (h : PositiveDefinite G) : G.det ≠ 0 := by
  intro hd
  obtain ⟨v, hv, h0⟩ := Matrix.exists_mulVec_eq_zero_iff.2 hd
  have := h v hv
  have e : ∑ i, ∑ j, (starRingEnd ℂ) (v i) * G i j * v j = 0 := by
    refine Finset.sum_eq_zero fun i _ => ?_
    have := congrFun h0 i
    simp only [Matrix.mulVec, dotProduct, Pi.zero_apply] at this
    simp only [mul_assoc]
    rw [← Finset.mul_sum, this, mul_zero]
  rw [e] at this
  simp at this

/-! ## Layers -/

lemma layer_reciprocity (C : Fin 3 → Fin 3 → Fin 3 → Fin 3 → ℝ) (h1 : ∀ i j k l, C i j k l = C j i k l) (h2 : ∀ i j k l, C i j k l = C i j l k) (h3 : ∀ i j k l, C i j k l = C k l i j)
    (qx qy d : ℝ) (t s : Fin 3 → ℂ) (w v : ℝ → Fin 3 → ℂ) (hw : Elastic.LayerSolution C qx qy d t w) (hv : Elastic.LayerSolution C (-qx) (-qy) d s v) :
    ∑ i, v 0 i * t i = ∑ i, w 0 i * s i := by
  obtain ⟨w', w'', d1, d2, nw, tw, bw⟩ := hw
  obtain ⟨v', v'', e1, e2, nv, tv, bv⟩ := hv
  have hb := betti_crystal C h1 h2 h3 qx qy w w' w'' v v' v'' d1 d2 e1 e2 nw nv
  set f := fun z => ∑ i, (v z i * Elastic.hooke C qx qy (w z) (w' z) i 2 - w z i * Elastic.hooke C (-qx) (-qy) (v z) (v' z) i 2) with hf
  have hconst : f 0 = f (-d) := is_const_of_deriv_eq_zero (fun z => (hb z).differentiableAt) (fun z => (hb z).deriv) _ _
  have h0 : f (-d) = 0 := by
    rw [hf]
    simp [bw, bv]
  rw [h0] at hconst
  rw [hf] at hconst
  simp only [tw, tv] at hconst
  rw [Finset.sum_sub_distrib] at hconst
  exact sub_eq_zero.1 hconst

lemma conj_layer (C : Fin 3 → Fin 3 → Fin 3 → Fin 3 → ℝ) (qx qy d : ℝ) (t : Fin 3 → ℂ) (w : ℝ → Fin 3 → ℂ) (hw : Elastic.LayerSolution C qx qy d t w) :
    Elastic.LayerSolution C (-qx) (-qy) d (fun i => (starRingEnd ℂ) (t i)) (fun z i => (starRingEnd ℂ) (w z i)) := by
  obtain ⟨w', w'', d1, d2, nw, tw, bw⟩ := hw
  have dc : ∀ (f : ℝ → ℂ) (f' : ℂ) (z : ℝ), HasDerivAt f f' z → HasDerivAt (fun z => (starRingEnd ℂ) (f z)) ((starRingEnd ℂ) f') z := by
    intro f f' z h
    exact (Complex.conjCLE.hasFDerivAt (x := f z)).comp_hasDerivAt z h
  have gc : ∀ (u u' : Fin 3 → ℂ) k l, Elastic.grad (-qx) (-qy) (fun i => (starRingEnd ℂ) (u i)) (fun i => (starRingEnd ℂ) (u' i)) k l = (starRingEnd ℂ) (Elastic.grad qx qy u u' k l) := by
    intro u u' k l
    unfold Elastic.grad
    fin_cases k <;> simp
  have hc : ∀ (u u' : Fin 3 → ℂ) i j, Elastic.hooke C (-qx) (-qy) (fun i => (starRingEnd ℂ) (u i)) (fun i => (starRingEnd ℂ) (u' i)) i j = (starRingEnd ℂ) (Elastic.hooke C qx qy u u' i j) := by
    intro u u' i j
    unfold Elastic.hooke
    rw [map_sum]
    refine Finset.sum_congr rfl fun k _ => ?_
    rw [map_sum]
    refine Finset.sum_congr rfl fun l _ => ?_
    rw [gc, map_mul, Complex.conj_ofReal]
  refine ⟨fun z i => (starRingEnd ℂ) (w' z i), fun z i => (starRingEnd ℂ) (w'' z i), fun z i => dc _ _ _ (d1 z i), fun z i => dc _ _ _ (d2 z i), ?_, ?_, ?_⟩
  · intro z i
    rw [hc, hc, hc]
    have := congrArg (starRingEnd ℂ) (nw z i)
    simp only [map_add, map_mul, Complex.conj_I, Complex.conj_ofReal, map_zero] at this
    push_cast
    linear_combination this
  · intro i
    rw [hc, tw]
  · funext i
    show (starRingEnd ℂ) (w (-d) i) = 0
    rw [bw]
    simp

/-- **C126.** The Green's function of a layer is Hermitian and the only response. -/
theorem C126_unique_layer (L : Lapack) (hL : L.Ok) (k : Constants) (thickness : Option ℝ) (R : Fin 3 → Fin 3 → ℝ) (A : Aniso) (hA : construct k thickness R = .ok A) (qx qy tol d : ℝ) (G : M3)
    (h : greens1 L A qx qy (some d) tol = .ok G) (hq : ¬ (|qx| < tol ∧ |qy| < tol)) (hdeep : ∀ Q ∈ findEigenvalues L A qx qy, d * Q.re ≤ 100) :
    Hermitian G ∧ ∀ t w, Elastic.LayerSolution (tensor A.C) qx qy d t w → w 0 = Gᵀ *ᵥ t := by
  have sy := C82_symmetries k thickness R A hA
  have hrec := layer_reciprocity (tensor A.C) (fun i j k l => (sy i j k l).1) (fun i j k l => (sy i j k l).2.1) (fun i j k l => (sy i j k l).2.2) qx qy d
  have hbasis : ∀ b : Fin 3, (fun i => (starRingEnd ℂ) ((Pi.single b 1 : Fin 3 → ℂ) i)) = Pi.single b 1 := by
    intro b
    funext i
    by_cases hi : i = b
    · subst hi; simp
    · simp [hi]
  have all : ∀ t w, Elastic.LayerSolution (tensor A.C) qx qy d t w → ∀ b, w 0 b = ∑ i, (starRingEnd ℂ) (G b i) * t i := by
    intro t w hw b
    obtain ⟨v, v1, v2⟩ := C126_layer_partial L hL A qx qy tol d G h hq hdeep (Pi.single b 1)
    have v1' := conj_layer _ _ _ _ _ _ v1
    rw [hbasis] at v1'
    have := hrec t _ w _ hw v1'
    rw [v2] at this
    have e1 : ∑ i, w 0 i * (Pi.single b 1 : Fin 3 → ℂ) i = w 0 b := by simp [Pi.single_apply]
    rw [e1] at this
    rw [← this]
    refine Finset.sum_congr rfl fun i _ => ?_
    congr 2
    simp [Matrix.mulVec, dotProduct, Pi.single_apply]
  have herm : Hermitian G := by
    intro a b
    obtain ⟨w, w1, w2⟩ := C126_layer_partial L hL A qx qy tol d G h hq hdeep (Pi.single b 1)
    have := all _ _ w1 a
    rw [w2] at this
    simpa [Matrix.mulVec, dotProduct, Pi.single_apply] using this
  refine ⟨herm, fun t w hw => ?_⟩
  funext b
  rw [all t w hw b]
  show _ = ∑ i, G i b * t i
  refine Finset.sum_congr rfl fun i _ => ?_
  rw [herm b i]

/-! ## C137 -/

lemma aboutNormal_rotation (c s : ℝ) (hcs : c ^ 2 + s ^ 2 = 1) : Rotation (fun i j => !![c, -s, 0; s, c, 0; 0, 0, 1] i j) := by
  refine ⟨?_, ?_, ?_⟩
  · intro i j
    fin_cases i <;> fin_cases j <;> simp [Fin.sum_univ_three] <;> linarith
  · intro i j
    fin_cases i <;> fin_cases j <;> simp [Fin.sum_univ_three] <;> linarith
  · simp [Matrix.det_fin_three]
    linarith

lemma aboutNormal_facts (L : Lapack) (hL : L.Ok) (k : Constants) (hk : k.ints = false) (hs : Stable k) (thickness : Option ℝ) (c s : ℝ) (hcs : c ^ 2 + s ^ 2 = 1) (A : Aniso)
    (hA : construct k thickness (fun i j => !![c, -s, 0; s, c, 0; 0, 0, 1] i j) = .ok A) (qx qy : ℝ) (hq : qx ≠ 0 ∨ qy ≠ 0) :
    Mirror A ∧ (bulkop A 0 0 1).det ≠ 0 ∧ StrainEnergy (tensor A.C) ∧ (∀ i j k l, tensor A.C i j k l = tensor A.C j i k l) ∧ ∀ Q ∈ findEigenvalues L A qx qy, 0 < Q.re := by
  have hR := aboutNormal_rotation c s hcs
  have hm : Mirror A := by
    obtain ⟨A', h1, h2⟩ := mirror_aboutNormal k hk thickness c s hcs
    have h1' : construct k thickness (fun i j => !![c, -s, 0; s, c, 0; 0, 0, 1] i j) = .ok A' := h1
    rw [hA] at h1'
    injection h1' with h1'
    rw [h1']
    exact h2
  refine ⟨hm, ?_, stable_energy k hk hs thickness _ hR A hA, fun i j m l => (C82_symmetries k thickness _ A hA i j m l).1, fun Q hQ => C124_decay_partial L hL k hk hs thickness _ hR A hA hm qx qy hq Q hQ⟩
  have := C124_elliptic k hk hs thickness _ hR A hA 0 0 1 (by simp)
  simpa using this

lemma get_modes {A : Aniso} {qx qy : ℝ} {n : ℕ} (ms : List Mode) (hn : ms.length = n) (hb : ∀ p ∈ ms, bulkop A qx qy p.1 *ᵥ p.2 = 0) (hne : ∀ p ∈ ms, p.2 ≠ 0) (hnd : (ms.map Prod.fst).Nodup) :
    let m : Fin n → Mode := fun a => ms[a.val]'(by omega)
    BulkModes A qx qy m ∧ (Function.Injective fun a => (m a).1) ∧ ∀ a, (m a).2 ≠ 0 := by
  refine ⟨fun a => hb _ (List.getElem_mem _), ?_, fun a => hne _ (List.getElem_mem _)⟩
  intro a b hab
  have := List.nodup_iff_injective_get.1 hnd
  have := @this ⟨a.val, by simp; omega⟩ ⟨b.val, by simp; omega⟩ (by simpa using hab)
  apply Fin.ext
  simpa using this

/-- Stable crystals: nonsingular normal operator, positive energy, symmetry and decay, in every orientation. -/
lemma mirror_facts (L : Lapack) (hL : L.Ok) (k : Constants) (hk : k.ints = false) (hs : Stable k) (thickness : Option ℝ) (R : Fin 3 → Fin 3 → ℝ) (hR : Rotation R) (A : Aniso)
    (hA : construct k thickness R = .ok A) (qx qy : ℝ) (hq : qx ≠ 0 ∨ qy ≠ 0) :
    (bulkop A 0 0 1).det ≠ 0 ∧ StrainEnergy (tensor A.C) ∧ (∀ i j k l, tensor A.C i j k l = tensor A.C j i k l) ∧ ∀ Q ∈ findEigenvalues L A qx qy, 0 < Q.re := by
  refine ⟨?_, stable_energy k hk hs thickness _ hR A hA, fun i j m l => (C82_symmetries k thickness _ A hA i j m l).1, fun Q hQ => C124_decay L hL k hk hs thickness _ hR A hA qx qy hq Q hQ⟩
  have := C124_elliptic k hk hs thickness _ hR A hA 0 0 1 (by simp)
  simpa using this

/-- **C137.** Half-space: for a stable crystal whose surface is a mirror plane, whenever the three eigenvalues differ, Green's function and stiffness are computed without an exception, are Hermitian and
positive definite, and are inverse to each other. -/
theorem C137_halfspace_mirror (L : Lapack) (hL : L.Ok) (k : Constants) (hk : k.ints = false) (hs : Stable k) (thickness : Option ℝ) (R : Fin 3 → Fin 3 → ℝ) (hR : Rotation R) (A : Aniso)
    (hA : construct k thickness R = .ok A) (hM : Mirror A) (qx qy tol : ℝ) (hq : qx ≠ 0 ∨ qy ≠ 0) (hnd : (findEigenvalues L A qx qy).Nodup) :
    ∃ G, greens1 L A qx qy none tol = .ok G ∧ Hermitian G ∧ PositiveDefinite G
      ∧ (¬ (|qx| < tol ∧ |qy| < tol) → ∃ K, stiffness1 L A qx qy none tol = .ok K ∧ Inverses G K) := by
  classical
  obtain ⟨h001, hE, h1, hre⟩ := mirror_facts L hL k hk hs thickness R hR A hA qx qy hq
  obtain ⟨ms, m1, m2, m3, m4⟩ := modes_exist L hL A hM h001 qx qy hnd hre none
  have h3 : ms.length = 3 := by
    rw [m4]
    unfold normalWaves
    rw [if_pos (show Deep none _ from trivial), List.length_map]
    exact (simple_zeros L hL A hM h001 qx qy hnd).1
  obtain ⟨s1, s2⟩ := modes_spec L hL A qx qy none ms m1
  obtain ⟨g1, g2, g3⟩ := get_modes ms h3 s1 m2 m3
  set m : Fin 3 → Mode := fun a => ms[a.val]'(by omega) with hmd
  have hdec : ∀ a, 0 < (Complex.I * (m a).1).re := by
    intro a
    have hmem : (m a).1 ∈ ms.map Prod.fst := List.mem_map_of_mem (List.getElem_mem _)
    rw [s2, three_modes _ _ (by rw [← m4, h3]), List.mem_map] at hmem
    obtain ⟨Q, hQ, e⟩ := hmem
    rw [← e]
    have : Complex.I * (-Complex.I * Q) = Q := by linear_combination -Q * Complex.I_sq
    rw [this]
    exact hre Q hQ
  obtain ⟨r1, r2⟩ := halfspace_regular h1 hE qx qy hq m g1 g2 g3 hdec
  obtain ⟨G, hG⟩ : ∃ G, greens1 L A qx qy none tol = .ok G := by
    unfold greens1
    rw [if_neg (by simp), m1]
    simp only [Bind.bind, Except.bind]
    unfold solveGreens
    rw [dif_pos h3]
    simp only
    rw [if_neg r1]
    exact ⟨_, rfl⟩
  have hu := C126_unique L hL k thickness _ A hA qx qy tol G hG hre
  refine ⟨G, hG, hu.1, ?_, fun htol => ?_⟩
  · refine positive_of_work G hu.1 fun t ht => ?_
    obtain ⟨w, w1, w2⟩ := C126_response L hL A qx qy tol G hG hre t
    rw [← w2]
    exact crystal_positive h1 hE qx qy hq t ht w w1
  · obtain ⟨K, hK⟩ : ∃ K, stiffness1 L A qx qy none tol = .ok K := by
      unfold stiffness1
      rw [if_neg htol]
      simp only [m1]
      simp only [Bind.bind, Except.bind]
      unfold solveStiffness
      rw [dif_pos h3]
      simp only
      rw [if_neg r2]
      exact ⟨_, rfl⟩
    exact ⟨K, hK, C127_inverse L A qx qy tol G K htol hG hK⟩

/-- **C137.** The same for layers of every thickness. -/
theorem C137_layer_mirror (L : Lapack) (hL : L.Ok) (k : Constants) (hk : k.ints = false) (hs : Stable k) (thickness : Option ℝ) (R : Fin 3 → Fin 3 → ℝ) (hR : Rotation R) (A : Aniso)
    (hA : construct k thickness R = .ok A) (hM : Mirror A) (qx qy tol d : ℝ) (hd : 0 < d) (hq : qx ≠ 0 ∨ qy ≠ 0) (htol : ¬ (|qx| < tol ∧ |qy| < tol))
    (hnd : (findEigenvalues L A qx qy).Nodup) :
    ∃ G K, greens1 L A qx qy (some d) tol = .ok G ∧ stiffness1 L A qx qy (some d) tol = .ok K ∧ Hermitian G ∧ PositiveDefinite G ∧ Inverses G K := by
  classical
  obtain ⟨h001, hE, h1, hre⟩ := mirror_facts L hL k hk hs thickness R hR A hA qx qy hq
  obtain ⟨G, hG, hH, hP⟩ : ∃ G, greens1 L A qx qy (some d) tol = .ok G ∧ Hermitian G ∧ PositiveDefinite G := by
    by_cases hdeep : Deep (some d) (findEigenvalues L A qx qy)
    · obtain ⟨G, g1, g2, g3, _⟩ := C137_halfspace_mirror L hL k hk hs thickness R hR A hA hM qx qy tol hq hnd
      refine ⟨G, ?_, g2, g3⟩
      rw [← g1]
      have en : normalWaves (some d) (findEigenvalues L A qx qy) = normalWaves none (findEigenvalues L A qx qy) := by
        unfold normalWaves
        rw [if_pos hdeep, if_pos (show Deep none _ from trivial)]
      have em : modes L A qx qy (some d) = modes L A qx qy none := by unfold modes; rw [en]
      unfold greens1
      rw [if_neg (by simpa using htol), if_neg (by simp), em]
      obtain ⟨ms, m1, m2, m3, m4⟩ := modes_exist L hL A hM h001 qx qy hnd hre none
      have h3 : ms.length = 3 := by
        rw [m4]
        unfold normalWaves
        rw [if_pos (show Deep none _ from trivial), List.length_map]
        exact (simple_zeros L hL A hM h001 qx qy hnd).1
      rw [m1]
      simp only [Bind.bind, Except.bind]
      unfold solveGreens
      rw [dif_pos h3, dif_pos h3]
    · obtain ⟨ms, m1, m2, m3, m4⟩ := modes_exist L hL A hM h001 qx qy hnd hre (some d)
      have h6 : ms.length = 6 := by
        rw [m4]
        unfold normalWaves
        rw [if_neg hdeep, List.length_append, List.length_map, List.length_map, (simple_zeros L hL A hM h001 qx qy hnd).1]
      obtain ⟨s1, s2⟩ := modes_spec L hL A qx qy (some d) ms m1
      obtain ⟨g1, g2, g3⟩ := get_modes ms h6 s1 m2 m3
      have r := layer_regular h1 hE qx qy d hd hq _ g1 g2 g3
      obtain ⟨G, hG⟩ : ∃ G, greens1 L A qx qy (some d) tol = .ok G := by
        unfold greens1
        rw [if_neg (by simpa using htol), m1]
        simp only [Bind.bind, Except.bind]
        unfold solveGreens
        rw [dif_neg (by omega), dif_pos h6]
        simp only
        rw [if_neg r]
        exact ⟨_, rfl⟩
      have hle : ∀ Q ∈ findEigenvalues L A qx qy, d * Q.re ≤ 100 := fun Q hQ => not_lt.1 fun h => hdeep ⟨Q, hQ, h⟩
      have hu := C126_unique_layer L hL k thickness _ A hA qx qy tol d G hG htol hle
      refine ⟨G, hG, hu.1, positive_of_work G hu.1 fun t ht => ?_⟩
      obtain ⟨w, w1, w2⟩ := C126_layer_partial L hL A qx qy tol d G hG htol hle t
      rw [← w2]
      exact layer_positive h1 hE qx qy d hd hq t ht w w1
  have hdet := det_ne_of_positive G hP
  have hK : stiffness1 L A qx qy (some d) tol = .ok G⁻¹ := by
    unfold stiffness1
    rw [if_neg htol]
    simp only [hG]
    simp only [Bind.bind, Except.bind]
    exact (inv_ok G hdet).1
  exact ⟨G, G⁻¹, hG, hK, hH, hP, (inv_ok G hdet).2⟩

/-- **C137.** Half-space: for a stable crystal that may be turned about the surface normal, whenever the three eigenvalues differ, Green's function and stiffness are computed without an exception, are Hermitian and
positive definite, and are inverse to each other. -/
theorem C137_halfspace (L : Lapack) (hL : L.Ok) (k : Constants) (hk : k.ints = false) (hs : Stable k) (thickness : Option ℝ) (c s : ℝ) (hcs : c ^ 2 + s ^ 2 = 1) (A : Aniso)
    (hA : construct k thickness (fun i j => !![c, -s, 0; s, c, 0; 0, 0, 1] i j) = .ok A) (qx qy tol : ℝ) (hq : qx ≠ 0 ∨ qy ≠ 0) (hnd : (findEigenvalues L A qx qy).Nodup) :
    ∃ G, greens1 L A qx qy none tol = .ok G ∧ Hermitian G ∧ PositiveDefinite G
      ∧ (¬ (|qx| < tol ∧ |qy| < tol) → ∃ K, stiffness1 L A qx qy none tol = .ok K ∧ Inverses G K) :=
  C137_halfspace_mirror L hL k hk hs thickness _ (aboutNormal_rotation c s hcs) A hA (aboutNormal_facts L hL k hk hs thickness c s hcs A hA qx qy hq).1 qx qy tol hq hnd

/-- **C137.** The same for layers of every thickness. -/
theorem C137_layer (L : Lapack) (hL : L.Ok) (k : Constants) (hk : k.ints = false) (hs : Stable k) (thickness : Option ℝ) (c s : ℝ) (hcs : c ^ 2 + s ^ 2 = 1) (A : Aniso)
    (hA : construct k thickness (fun i j => !![c, -s, 0; s, c, 0; 0, 0, 1] i j) = .ok A) (qx qy tol d : ℝ) (hd : 0 < d) (hq : qx ≠ 0 ∨ qy ≠ 0) (htol : ¬ (|qx| < tol ∧ |qy| < tol))
    (hnd : (findEigenvalues L A qx qy).Nodup) :
    ∃ G K, greens1 L A qx qy (some d) tol = .ok G ∧ stiffness1 L A qx qy (some d) tol = .ok K ∧ Hermitian G ∧ PositiveDefinite G ∧ Inverses G K :=
  C137_layer_mirror L hL k hk hs thickness _ (aboutNormal_rotation c s hcs) A hA (aboutNormal_facts L hL k hk hs thickness c s hcs A hA qx qy hq).1 qx qy tol d hd hq htol hnd

end CM.Greens
