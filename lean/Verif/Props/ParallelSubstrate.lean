import Verif.Model.ParallelSubstrate
import Verif.Model.ParallelCCG
import Verif.Model.EndToEnd
import Verif.Props.HalfSpaceMPI
import Verif.Props.Free2
import Verif.Props.Factory
/-!
# C175: substrates on several processes
-/
namespace CM.HS
open Finset Complex CM.FFT CM.Spec

section Spec
variable {R : Type}

/-- Blocks of an `nx × ny` grid, one for each process (some may be empty): every point is in exactly one of them. -/
structure Parts (nx ny : ℕ) (b : R → Block) : Prop where
  inside : ∀ r i j, i < (b r).n0 → j < (b r).n1 → (b r).loc0 + i < nx ∧ (b r).loc1 + j < ny
  once : ∀ i j, i < nx → j < ny → ∃! r, holds (b r) i j = true

/-- The local arrays `a` are the blocks `b` of the array `F`. -/
def BlocksOf {A : Type} (b : R → Block) (F : List ℕ → A) (a : R → ℕ → ℕ → A) : Prop :=
  ∀ r i j, i < (b r).n0 → j < (b r).n1 → a r i j = F [(b r).loc0 + i, (b r).loc1 + j]

end Spec

variable {R : Type} [Fintype R]

lemma gather_eq {A : Type} [AddCommMonoid A] {nx ny : ℕ} {b : R → Block} (hb : Parts nx ny b) {F : List ℕ → A} {a : R → ℕ → ℕ → A}
    (h : BlocksOf b F a) {i j : ℕ} (hi : i < nx) (hj : j < ny) : gather b a i j = F [i, j] := by
  obtain ⟨r, hr, hu⟩ := hb.once i j hi hj
  simp only [holds, decide_eq_true_eq] at hr
  unfold gather
  rw [Finset.sum_eq_single r]
  · rw [if_pos hr, h r _ _ (by omega) (by omega)]
    congr 2
    · omega
    · congr 1; omega
  · intro r' _ hne
    refine if_neg fun h' => hne (hu r' ?_)
    simp only [holds, decide_eq_true_eq]; exact h'
  · intro h; exact absurd (mem_univ r) h

lemma rfft2_congr' {nx ny : ℕ} {a b : ℕ → ℕ → ℝ} (h : ∀ i j, i < nx → j < ny → a i j = b i j) (k l : ℕ) :
    rfft2 nx ny a k l = rfft2 nx ny b k l := by
  unfold rfft2
  refine sum_congr rfl fun x hx => sum_congr rfl fun y hy => ?_
  rw [h x y (mem_range.mp hx) (mem_range.mp hy)]

lemma irfft2_congr' {nx ny : ℕ} {a b : ℕ → ℕ → ℂ} (h : ∀ i j, i < nx / 2 + 1 → j < ny → a i j = b i j) (k l : ℕ) :
    irfft2 nx ny a k l = irfft2 nx ny b k l := by
  unfold irfft2
  refine sum_congr rfl fun x hx => ?_
  congr 2
  refine sum_congr rfl fun y hy => ?_
  rw [h x y (mem_range.mp hx) (mem_range.mp hy)]

/-- What the processes hold is the serial half-space, in blocks. -/
structure Holds (s : HalfSpace) (Nx Ny : ℕ) (S : R → ProcHS) : Prop where
  domain : s.domain = [Nx, Ny]
  real : Parts Nx Ny fun r => (S r).real
  four : Parts (Nx / 2 + 1) Ny fun r => (S r).four
  greens : BlocksOf (fun r => (S r).four) s.greens fun r => (S r).greens
  stiffness : BlocksOf (fun r => (S r).four) s.stiffness fun r => (S r).stiffness

variable {s : HalfSpace} {Nx Ny : ℕ} {S : R → ProcHS}

lemma mpiFFT_eq (hr : Parts Nx Ny fun r => (S r).real) {F : List ℕ → ℝ} {f : R → ℕ → ℕ → ℝ} (hf : BlocksOf (fun r => (S r).real) F f) (r : R) (k l : ℕ) :
    mpiFFT Nx Ny S f r k l = fft [Nx, Ny] F [(S r).four.loc0 + k, (S r).four.loc1 + l] := by
  simp only [mpiFFT, fft]
  exact rfft2_congr' (fun i j hi hj => gather_eq hr hf hi hj) _ _

lemma mpiIFFT_eq (hr : Parts (Nx / 2 + 1) Ny fun r => (S r).four) {F : List ℕ → ℂ} {f : R → ℕ → ℕ → ℂ} (hf : BlocksOf (fun r => (S r).four) F f) (r : R) (k l : ℕ) :
    mpiIFFT Nx Ny S f r k l = ifft [Nx, Ny] F [(S r).real.loc0 + k, (S r).real.loc1 + l] := by
  simp only [mpiIFFT, ifft]
  exact irfft2_congr' (fun i j hi hj => gather_eq hr hf hi hj) _ _

lemma Holds.disp (H : Holds s Nx Ny S) {F : NdArray ℝ} {f : R → ℕ → ℕ → ℝ} (hf : BlocksOf (fun r => (S r).real) F.get f) {u : NdArray ℝ}
    (hu : evaluateDisp s F = .ok u) : BlocksOf (fun r => (S r).real) u.get (mpiDisp Nx Ny s.areaPerPt S f) := by
  intro r i j _ _
  unfold evaluateDisp at hu
  split_ifs at hu
  obtain rfl := Except.ok.inj hu
  simp only [mpiDisp, H.domain, HalfSpace.normalisation, List.prod_cons, List.prod_nil, mul_one]
  congr 2
  refine mpiIFFT_eq H.four (fun r k l hk hl => ?_) r i j
  exact congrArg₂ (· * ·) (mpiFFT_eq H.real (F := fun y => -(F.get y)) (fun r i j hi hj => by rw [hf r i j hi hj]) r k l) (H.greens r k l hk hl)

lemma Holds.force (H : Holds s Nx Ny S) {U : NdArray ℝ} {u : R → ℕ → ℕ → ℝ} (hu : BlocksOf (fun r => (S r).real) U.get u) {f : NdArray ℝ}
    (hf : evaluateForce s U = .ok f) : BlocksOf (fun r => (S r).real) f.get (mpiForce Nx Ny s.areaPerPt S u) := by
  intro r i j _ _
  unfold evaluateForce at hf
  split_ifs at hf
  obtain rfl := Except.ok.inj hf
  simp only [mpiForce, H.domain, HalfSpace.normalisation, List.prod_cons, List.prod_nil, mul_one]
  congr 3
  refine mpiIFFT_eq H.four (fun r k l hk hl => ?_) r i j
  exact congrArg₂ (· * ·) (mpiFFT_eq H.real (F := U.get) (fun r i j hi hj => by rw [hu r i j hi hj]) r k l) (H.stiffness r k l hk hl)

lemma Holds.kdisp (H : Holds s Nx Ny S) {F : NdArray ℝ} {f : R → ℕ → ℕ → ℝ} (hf : BlocksOf (fun r => (S r).real) F.get f) {u : NdArray ℂ}
    (hu : evaluateKDisp s F = .ok u) : BlocksOf (fun r => (S r).four) u.get (mpiKDisp Nx Ny s.areaPerPt S f) := by
  intro r i j hi hj
  unfold evaluateKDisp at hu
  split_ifs at hu
  obtain rfl := Except.ok.inj hu
  simp only [mpiKDisp, H.domain]
  rw [show (S r).greens i j = _ from H.greens r i j hi hj, mpiFFT_eq H.real (F := fun y => -(F.get y)) (fun r i j hi hj => by rw [hf r i j hi hj]) r i j]

lemma Holds.kforce (H : Holds s Nx Ny S) {U : NdArray ℝ} {u : R → ℕ → ℕ → ℝ} (hu : BlocksOf (fun r => (S r).real) U.get u) {f : NdArray ℂ}
    (hf : evaluateKForce s U = .ok f) : BlocksOf (fun r => (S r).four) f.get (mpiKForce Nx Ny s.areaPerPt S u) := by
  intro r i j hi hj
  unfold evaluateKForce at hf
  split_ifs at hf
  obtain rfl := Except.ok.inj hf
  simp only [mpiKForce, H.domain]
  rw [show (S r).stiffness i j = _ from H.stiffness r i j hi hj, mpiFFT_eq H.real (F := U.get) (fun r i j hi hj => by rw [hu r i j hi hj]) r i j]

lemma sum_blocks {M : Type} [AddCommMonoid M] {b : R → Block} (hb : Parts Nx Ny b) (a : ℕ → ℕ → M) :
    ∑ r, ∑ i ∈ range (b r).n0, ∑ j ∈ range (b r).n1, a ((b r).loc0 + i) ((b r).loc1 + j) = ∑ i ∈ range Nx, ∑ j ∈ range Ny, a i j := by
  have e1 : ∀ r, ∑ i ∈ range (b r).n0, ∑ j ∈ range (b r).n1, a ((b r).loc0 + i) ((b r).loc1 + j) =
      ∑ i ∈ range Nx, ∑ j ∈ range Ny, if holds (b r) i j = true then a i j else 0 := by
    intro r
    rw [← sum_product', ← sum_product', ← sum_filter]
    refine sum_nbij' (fun p => ((b r).loc0 + p.1, (b r).loc1 + p.2)) (fun p => (p.1 - (b r).loc0, p.2 - (b r).loc1)) ?_ ?_ ?_ ?_ ?_
    · rintro ⟨i, j⟩ h
      simp only [mem_product, mem_range, mem_filter, holds, decide_eq_true_eq] at h ⊢
      have := hb.inside r i j h.1 h.2
      omega
    · rintro ⟨i, j⟩ h
      simp only [mem_product, mem_range, mem_filter, holds, decide_eq_true_eq] at h ⊢
      omega
    · rintro ⟨i, j⟩ _; simp
    · rintro ⟨i, j⟩ h
      simp only [mem_product, mem_range, mem_filter, holds, decide_eq_true_eq] at h
      simp only [Prod.mk.injEq]; omega
    · rintro ⟨i, j⟩ _; rfl
  rw [sum_congr rfl fun r _ => e1 r, sum_comm]
  refine sum_congr rfl fun i hi => ?_
  rw [sum_comm]
  refine sum_congr rfl fun j hj => ?_
  obtain ⟨r, hr, hu⟩ := hb.once i j (mem_range.mp hi) (mem_range.mp hj)
  rw [sum_eq_single r]
  · exact if_pos hr
  · intro r' _ hne; exact if_neg fun h => hne (hu r' h)
  · intro h; exact absurd (mem_univ r) h

/-! ## Construction -/

lemma construct_grid {a : Args} {nx ny : ℕ} (hg : a.nbGridPts = [nx, ny]) (hs : construct a = .ok s) :
    ∃ sx sy m G, initAttrs a [nx, ny] = .ok ([sx, sy], m) ∧ greensBlock2 m nx ny sx sy (0, 0) (nx / 2 + 1, ny) = .ok G ∧
      s = ⟨[nx, ny], [nx, ny], [sx, sy], stepsOf [sx, sy] [nx, ny], m, (fun k => match k with | [kx, ky] => (G kx ky : ℂ) | _ => 0),
        invertGreens (fun k => match k with | [kx, ky] => (G kx ky : ℂ) | _ => 0)⟩ := by
  rw [construct_eq, hg] at hs
  cases h1 : initAttrs a [nx, ny] with
  | error e => rw [h1] at hs; simp [Except.bind] at hs
  | ok r =>
    obtain ⟨sizes, m⟩ := r
    rw [h1] at hs
    simp only [Except.bind] at hs
    match sizes, hs with
    | [sx, sy], hs =>
      simp only [greensSerial] at hs
      cases h2 : greensBlock2 m nx ny sx sy (0, 0) (nx / 2 + 1, ny) with
      | error e => rw [h2] at hs; simp [bind, Except.bind] at hs
      | ok G =>
        rw [h2] at hs
        simp only [bind, Except.bind, pure, Except.pure, Except.ok.injEq] at hs
        exact ⟨sx, sy, m, G, rfl, h2, hs.symm⟩
    | [], hs => simp [greensSerial] at hs
    | [_], hs => simp [greensSerial] at hs
    | _ :: _ :: _ :: _, hs => simp [greensSerial] at hs

omit [Fintype R] in
/-- The processes of a periodic half-space hold the serial one. -/
lemma holds_periodic {a : Args} {nx ny : ℕ} (hg : a.nbGridPts = [nx, ny]) (hs : construct a = .ok s) {real four : R → Block}
    (hreal : Parts nx ny real) (hfour : Parts (nx / 2 + 1) ny four) (hS : ∀ r, constructProc a (real r) (four r) = .ok (S r)) :
    Holds s nx ny S := by
  obtain ⟨sx, sy, m, G, h1, h2, rfl⟩ := construct_grid hg hs
  have key : ∀ r, ∃ B, greensBlock2 m nx ny sx sy ((four r).loc0, (four r).loc1) ((four r).n0, (four r).n1) = .ok B ∧
      S r = ⟨real r, four r, fun k l => (B k l : ℂ), invertBlock fun k l => (B k l : ℂ)⟩ := by
    intro r
    have := hS r
    simp only [constructProc, hg, h1, bind, Except.bind] at this
    cases hB : greensBlock2 m nx ny sx sy ((four r).loc0, (four r).loc1) ((four r).n0, (four r).n1) with
    | error e => rw [hB] at this; simp at this
    | ok B =>
      rw [hB] at this
      simp only [pure, Except.pure, Except.ok.injEq] at this
      exact ⟨B, rfl, this.symm⟩
  choose B hB hS' using key
  have er : (fun r => (S r).real) = real := by funext r; rw [hS' r]
  have ef : (fun r => (S r).four) = four := by funext r; rw [hS' r]
  have hG : ∀ r k l, k < (four r).n0 → l < (four r).n1 → B r k l = G ((four r).loc0 + k) ((four r).loc1 + l) := by
    intro r k l hk hl
    have h0 := hfour.inside r ((four r).n0 - 1) ((four r).n1 - 1) (by omega) (by omega)
    exact C102_block_equals_serial_partial h2 (hB r) (by simp only; omega) (by simp only; omega) k l hk hl
  refine ⟨rfl, by rw [er]; exact hreal, by rw [ef]; exact hfour, ?_, ?_⟩
  · intro r k l hk hl
    have e : (S r).four = four r := congrFun ef r
    simp only [e] at hk hl ⊢
    rw [hS' r]
    simp only [hG r k l hk hl]
  · intro r k l hk hl
    have e : (S r).four = four r := congrFun ef r
    simp only [e] at hk hl ⊢
    rw [hS' r]
    simp only [invertBlock, invertGreens, hG r k l hk hl]

lemma constructProc_parts {a : Args} {real four : Block} {p : ProcHS} (h : constructProc a real four = .ok p) : p.real = real ∧ p.four = four := by
  unfold constructProc at h
  cases h1 : initAttrs a a.nbGridPts with
  | error e => rw [h1] at h; simp [bind, Except.bind] at h
  | ok q =>
    rw [h1] at h
    simp only [bind, Except.bind] at h
    split at h
    · split at h
      · simp at h
      · simp only [pure, Except.pure, Except.ok.injEq] at h
        subst h; exact ⟨rfl, rfl⟩
    · simp [throw, throwThe, MonadExceptOf.throw] at h

/-- **C175** Construction: where the serial constructor succeeds it succeeds on every process, unless the default stiffness at the Gamma point is
asked for and the block with the Gamma point has a single row or column (C102). -/
theorem C175_construct {a : Args} {nx ny : ℕ} (hg : a.nbGridPts = [nx, ny]) (hs : construct a = .ok s) (real four : Block)
    (h : four.loc0 = 0 → four.loc1 = 0 → a.thickness = none → a.q0 = none → four.n0 ≠ 1 ∧ four.n1 ≠ 1) :
    ∃ p, constructProc a real four = .ok p := by
  obtain ⟨sx, sy, m, G, h1, h2, rfl⟩ := construct_grid hg hs
  have hm : m.thickness = a.thickness ∧ m.q0 = a.q0 := by
    obtain ⟨-, -, -, -, -, -, e⟩ := initAttrs_ok.mp h1
    rw [(Prod.mk.inj e).2]; exact ⟨rfl, rfl⟩
  unfold constructProc
  simp only [hg, h1, bind, Except.bind]
  obtain ⟨B, hB⟩ : ∃ B, greensBlock2 m nx ny sx sy (four.loc0, four.loc1) (four.n0, four.n1) = .ok B := by
    unfold greensBlock2
    split
    · exact ⟨_, rfl⟩
    · rename_i h0
      obtain ⟨S, hS⟩ : ∃ S, stiffnessBlock2 m nx ny sx sy (four.loc0, four.loc1) (four.n0, four.n1) = .ok S := by
        unfold stiffnessBlock2
        by_cases hl : (four.loc0, four.loc1) = (0, 0)
        · simp only [hl, if_true]
          cases ht : m.thickness with
          | some t => exact ⟨_, rfl⟩
          | none =>
            cases hq : m.q0 with
            | none =>
              have hn := h (Prod.mk.inj hl).1 (Prod.mk.inj hl).2 (hm.1 ▸ ht) (hm.2 ▸ hq)
              have hp := Nat.pos_of_ne_zero h0
              have p1 := Nat.pos_of_mul_pos_right hp
              have p2 := Nat.pos_of_mul_pos_left hp
              simp only at p1 p2 ⊢
              rw [if_neg (by omega)]
              exact ⟨_, rfl⟩
            | some q =>
              simp only
              split
              · exact ⟨_, rfl⟩
              · exact ⟨_, rfl⟩
        · simp only [hl, if_false]
          exact ⟨_, rfl⟩
      rw [hS]
      simp only [bind, Except.bind]
      split
      · exact ⟨_, rfl⟩
      · exact ⟨_, rfl⟩
  rw [hB]
  exact ⟨_, rfl⟩

/-- **C175** Periodic half-space: on every process `evaluate_disp` and `evaluate_force` return its block of the serial answer to the
array put together from the blocks, and so do their counterparts in Fourier space. -/
theorem C175_periodic {a : Args} {nx ny : ℕ} (hg : a.nbGridPts = [nx, ny]) (hs : construct a = .ok s) {real four : R → Block}
    (hreal : Parts nx ny real) (hfour : Parts (nx / 2 + 1) ny four) (hS : ∀ r, constructProc a (real r) (four r) = .ok (S r))
    {F U : NdArray ℝ} {V : NdArray ℂ} {f : R → ℕ → ℕ → ℝ} (hf : BlocksOf real F.get f) :
    (evaluateDisp s F = .ok U → BlocksOf real U.get (mpiDisp nx ny s.areaPerPt S f)) ∧
    (evaluateForce s F = .ok U → BlocksOf real U.get (mpiForce nx ny s.areaPerPt S f)) ∧
    (evaluateKDisp s F = .ok V → BlocksOf four V.get (mpiKDisp nx ny s.areaPerPt S f)) ∧
    (evaluateKForce s F = .ok V → BlocksOf four V.get (mpiKForce nx ny s.areaPerPt S f)) := by
  have H := holds_periodic hg hs hreal hfour hS
  have er : (fun r => (S r).real) = real := funext fun r => (constructProc_parts (hS r)).1
  have ef : (fun r => (S r).four) = four := funext fun r => (constructProc_parts (hS r)).2
  rw [← er] at hf ⊢
  rw [← ef]
  exact ⟨fun h => H.disp hf h, fun h => H.force hf h, fun h => H.kdisp hf h, fun h => H.kforce hf h⟩

/-- **C175** The elastic energy that every process gets is that of the whole field. -/
theorem C175_energy {Nx Ny : ℕ} (hd : s.domain = [Nx, Ny]) (hreal : Parts Nx Ny fun r => (S r).real) {F U : List ℕ → ℝ} {f u : R → ℕ → ℕ → ℝ}
    (hf : BlocksOf (fun r => (S r).real) F f) (hu : BlocksOf (fun r => (S r).real) U u) :
    mpiEnergy S f u = evaluateElasticEnergy s F U := by
  unfold mpiEnergy evaluateElasticEnergy
  rw [hd]
  congr 1
  simp only [sumShape]
  rw [← sum_blocks hreal fun i j => U [i, j] * -(F [i, j])]
  refine sum_congr rfl fun r _ => sum_congr rfl fun i hi => sum_congr rfl fun j hj => ?_
  rw [hf r i j (mem_range.mp hi) (mem_range.mp hj), hu r i j (mem_range.mp hi) (mem_range.mp hj)]

/-! ## Free half-space -/

omit [Fintype R] in
lemma Holds.ofGreens {nx ny : ℕ} {real four : R → Block} {G : List ℕ → ℂ} {GB : R → ℕ → ℕ → ℂ} (hd : s.domain = [nx, ny]) (hG : s.greens = G)
    (hK : s.stiffness = invertGreens G) (hreal : Parts nx ny real) (hfour : Parts (nx / 2 + 1) ny four) (hB : BlocksOf four G GB) :
    Holds s nx ny fun r => ⟨real r, four r, GB r, invertBlock (GB r)⟩ := by
  refine ⟨hd, hreal, hfour, ?_, ?_⟩
  · rw [hG]; exact hB
  · rw [hK]
    intro r k l hk hl
    simp only [invertBlock, invertGreens, hB r k l hk hl]

/-- The processes of a free half-space hold the serial one. -/
lemma holds_free {a : FreeArgs} {nx ny : ℕ} (hg : a.nbGridPts = [nx, ny]) (hs : constructFree a = .ok s) {real four : R → Block}
    (hreal : Parts (2 * nx) (2 * ny) real) (hfour : Parts (nx + 1) (2 * ny) four) (hS : constructFreeProcs a real four = .ok S) :
    Holds s (2 * nx) (2 * ny) S ∧ (fun r => (S r).real) = real ∧ (fun r => (S r).four) = four ∧ s.nbGridPts = [nx, ny] ∧ 0 < nx ∧ 0 < ny := by
  unfold constructFree at hs
  dsimp only at hs
  unfold constructFreeProcs at hS
  cases h1 : initAttrs a.base (a.nbGridPts.map (2 * ·)) with
  | error e => rw [h1] at hs; simp [bind, Except.bind] at hs
  | ok q =>
    obtain ⟨sizes, m⟩ := q
    obtain ⟨-, -, -, h0, -⟩ := initAttrs_ok.mp h1
    rw [show a.base.nbGridPts = [nx, ny] from hg] at h0
    have h0x : 0 < nx := Nat.pos_of_ne_zero fun h => h0 (by simp [h])
    have h0y : 0 < ny := Nat.pos_of_ne_zero fun h => h0 (by simp [h])
    rw [h1] at hs hS
    simp only [bind, Except.bind, hg] at hs hS
    match sizes, hs, hS with
    | [sx, sy], hs, hS =>
      simp only [pure, Except.pure, Except.ok.injEq, List.map_cons, List.map_nil] at hs hS
      subst hs hS
      refine ⟨?_, rfl, rfl, rfl, h0x, h0y⟩
      refine Holds.ofGreens rfl rfl rfl hreal ?_ ?_
      · have : 2 * nx / 2 + 1 = nx + 1 := by omega
        rw [this]; exact hfour
      · intro r k l _ _
        refine mpiFFT_eq (S := fun r => ⟨real r, four r, fun _ _ => 0, fun _ _ => 0⟩) hreal
          (F := fun x => match x with | [i, j] => freeKernel a.young nx ny (sx / nx) (sy / ny) i j | _ => 0) ?_ r k l
        intro r i j _ _
        rfl
    | [], hs, _ => simp [throw, throwThe, MonadExceptOf.throw] at hs
    | [_], hs, _ => simp [throw, throwThe, MonadExceptOf.throw] at hs
    | _ :: _ :: _ :: _, hs, _ => simp [throw, throwThe, MonadExceptOf.throw] at hs

/-- **C175** Construction of nonperiodic half-spaces: it succeeds on all processes where it succeeds on one. -/
theorem C175_free_construct {a : FreeArgs} (hs : constructFree a = .ok s) (real four : R → Block) :
    ∃ S, constructFreeProcs a real four = .ok S := by
  unfold constructFree at hs
  dsimp only at hs
  unfold constructFreeProcs
  cases h1 : initAttrs a.base (a.nbGridPts.map (2 * ·)) with
  | error e => rw [h1] at hs; simp [bind, Except.bind] at hs
  | ok q =>
    obtain ⟨sizes, m⟩ := q
    rw [h1] at hs
    simp only [bind, Except.bind] at hs ⊢
    split at hs
    · rename_i e; rw [e]; exact ⟨_, rfl⟩
    · simp [throw, throwThe, MonadExceptOf.throw] at hs

/-- **C175** Nonperiodic half-space, arrays on the padded grid. -/
theorem C175_free_padded {a : FreeArgs} {nx ny : ℕ} (hg : a.nbGridPts = [nx, ny]) (hs : constructFree a = .ok s) {real four : R → Block}
    (hreal : Parts (2 * nx) (2 * ny) real) (hfour : Parts (nx + 1) (2 * ny) four) (hS : constructFreeProcs a real four = .ok S)
    {F U : NdArray ℝ} {f : R → ℕ → ℕ → ℝ} (hf : BlocksOf real F.get f) :
    (evaluateDisp s F = .ok U → BlocksOf real U.get (mpiDisp (2 * nx) (2 * ny) s.areaPerPt S f)) ∧
    (evaluateForce s F = .ok U → BlocksOf real U.get (mpiForce (2 * nx) (2 * ny) s.areaPerPt S f)) := by
  obtain ⟨H, er, ef, _, _⟩ := holds_free hg hs hreal hfour hS
  rw [← er] at hf ⊢
  exact ⟨fun h => H.disp hf h, fun h => H.force hf h⟩

/-- **C175** Nonperiodic half-space, forces on the topography: every process returns the displacements of its part of the topography. -/
theorem C175_free {a : FreeArgs} {nx ny : ℕ} (hg : a.nbGridPts = [nx, ny]) (hs : constructFree a = .ok s) {real four : R → Block}
    (hreal : Parts (2 * nx) (2 * ny) real) (hfour : Parts (nx + 1) (2 * ny) four) (hS : constructFreeProcs a real four = .ok S)
    {F U : NdArray ℝ} (hF : F.shape = [nx, ny]) {f : R → ℕ → ℕ → ℝ} (hf : BlocksOf (fun r => topoBlock nx ny (real r)) F.get f)
    (hU : evaluateDispFree s F false = .ok U) :
    BlocksOf (fun r => topoBlock nx ny (real r)) U.get (mpiDispFree nx ny s.areaPerPt S f) := by
  obtain ⟨H, er, ef, hgrid, h0x, h0y⟩ := holds_free hg hs hreal hfour hS
  have t1 : topoSub nx 0 (2 * nx) = nx := by unfold topoSub; omega
  have t2 : topoSub ny 0 (2 * ny) = ny := by unfold topoSub; omega
  have hb : dispBranch s.domain (List.zipWith (fun n m => topoSub n 0 m) s.nbGridPts s.domain) s.domain s.nbGridPts F.shape = .topography := by
    rw [H.domain, hgrid, hF]
    simp only [List.zipWith, t1, t2, dispBranch]
    rw [if_neg (by simp; omega), if_pos trivial]
  unfold evaluateDispFree at hU
  rw [hb] at hU
  cases hu : evaluateDisp s (embed s.domain F) with
  | error e => rw [hu] at hU; simp [bind, Except.bind] at hU
  | ok u =>
    rw [hu] at hU
    simp only [bind, Except.bind, Bool.false_eq_true, if_false, pure, Except.pure, Except.ok.injEq] at hU
    subst hU
    have er' : ∀ r, (S r).real = real r := fun r => congrFun er r
    have key := H.disp (F := embed s.domain F) (f := fun r => embedBlock nx ny (S r).real (f r)) (u := u) ?_ hu
    · intro r i j hi hj
      simp only [topoBlock] at hi hj ⊢
      have := key r i j (by simp only [er']; unfold topoSub at hi; omega) (by simp only [er']; unfold topoSub at hj; omega)
      simp only [mpiDispFree]
      rw [this]
      simp only [er']
    · intro r i j hi hj
      simp only [er'] at hi hj ⊢
      have e1 : i < (topoShape nx ny (real r)).1 ↔ (real r).loc0 + i < nx := by simp only [topoShape, topoSub]; omega
      have e2 : j < (topoShape nx ny (real r)).2 ↔ (real r).loc1 + j < ny := by simp only [topoShape, topoSub]; omega
      simp only [embedBlock, embed, H.domain, hF, e1, e2]
      split_ifs with hc
      · exact hf r i j (by simp only [topoBlock, topoSub]; omega) (by simp only [topoBlock, topoSub]; omega)
      · rfl

/-! ## The collective calls of the solver -/

/-- The decomposition of the grid by blocks, as the solver sees it. -/
noncomputable def blockDecomp {nx ny : ℕ} (b : R → Block) (hb : Parts nx ny b) : CCG.Decomp R (Fin nx × Fin ny) where
  κ := fun r => Fin (b r).n0 × Fin (b r).n1
  fin := fun _ => inferInstance
  e := Equiv.ofBijective (fun x => (⟨(b x.1).loc0 + x.2.1, (hb.inside x.1 _ _ x.2.1.2 x.2.2.2).1⟩,
      ⟨(b x.1).loc1 + x.2.2, (hb.inside x.1 _ _ x.2.1.2 x.2.2.2).2⟩)) (by
    have hh : ∀ (r : R) (i : Fin (b r).n0) (j : Fin (b r).n1), holds (b r) ((b r).loc0 + i) ((b r).loc1 + j) = true := by
      intro r i j
      have := i.2; have := j.2
      simp only [holds, decide_eq_true_eq]; omega
    constructor
    · rintro ⟨r, i, j⟩ ⟨r', i', j'⟩ h
      simp only [Prod.mk.injEq, Fin.mk.injEq] at h
      have hin := hb.inside r i j i.2 j.2
      obtain ⟨q, _, hu⟩ := hb.once _ _ hin.1 hin.2
      have e : r = r' := by
        have e1 := hu r (hh r i j)
        have e2 := hu r' (by rw [h.1, h.2]; exact hh r' i' j')
        rw [e1, e2]
      subst e
      have e1 : i = i' := Fin.ext (by omega)
      have e2 : j = j' := Fin.ext (by omega)
      rw [e1, e2]
    · rintro ⟨i, j⟩
      obtain ⟨r, hr, _⟩ := hb.once i j i.2 j.2
      simp only [holds, decide_eq_true_eq] at hr
      refine ⟨⟨r, ⟨i - (b r).loc0, by omega⟩, ⟨j - (b r).loc1, by omega⟩⟩, ?_⟩
      simp only [Prod.mk.injEq, Fin.ext_iff]
      omega)

/-- The local array of a process with entries outside its block set to zero. -/
def localArray {b : Block} (f : Fin b.n0 × Fin b.n1 → ℝ) (i j : ℕ) : ℝ := if h : i < b.n0 ∧ j < b.n1 then f (⟨i, h.1⟩, ⟨j, h.2⟩) else 0

omit [Fintype R] in
lemma blocksOf_glue {nx ny : ℕ} {b : R → Block} (hb : Parts nx ny b) (f : ∀ r, Fin (b r).n0 × Fin (b r).n1 → ℝ) :
    BlocksOf b (Pipe.fieldArray nx ny ((blockDecomp b hb).glue f)).get fun r => localArray (f r) := by
  intro r i j hi hj
  have hin := hb.inside r i j hi hj
  simp only [localArray, hi, hj, and_self, dif_pos, Pipe.fieldArray, hin, CCG.Decomp.glue]
  have e : (⟨(b r).loc0 + i, hin.1⟩, ⟨(b r).loc1 + j, hin.2⟩) = (blockDecomp b hb).e ⟨r, (⟨i, hi⟩, ⟨j, hj⟩)⟩ := rfl
  rw [e, Equiv.symm_apply_apply]

lemma onGrid_ok {eval : NdArray ℝ → Except PyErr (NdArray ℝ)} {d0 d1 : ℕ} {f : Fin d0 × Fin d1 → ℝ} {u : NdArray ℝ}
    (h : eval (Pipe.fieldArray d0 d1 f) = .ok u) (p : Fin d0 × Fin d1) : Pipe.onGrid eval d0 d1 f p = u.get [p.1, p.2] := by
  rw [Pipe.onGrid, h]

lemma Holds.collective (H : Holds s Nx Ny S) (f : ∀ r, Fin (S r).real.n0 × Fin (S r).real.n1 → ℝ) (r : R) (p : Fin (S r).real.n0 × Fin (S r).real.n1) :
    (blockDecomp _ H.real).part r (Pipe.onGrid (evaluateDisp s) Nx Ny ((blockDecomp _ H.real).glue f)) p =
      mpiDisp Nx Ny s.areaPerPt S (fun r => localArray (f r)) r p.1 p.2 ∧
    (blockDecomp _ H.real).part r (Pipe.onGrid (evaluateForce s) Nx Ny ((blockDecomp _ H.real).glue f)) p =
      mpiForce Nx Ny s.areaPerPt S (fun r => localArray (f r)) r p.1 p.2 := by
  have hsh : (Pipe.fieldArray Nx Ny ((blockDecomp _ H.real).glue f)).shape = s.domain := H.domain.symm
  have hb := blocksOf_glue H.real f
  constructor
  · have hu : evaluateDisp s (Pipe.fieldArray Nx Ny ((blockDecomp _ H.real).glue f)) = .ok _ := if_neg (not_not.mpr hsh)
    rw [H.disp hb hu r p.1 p.2 p.1.2 p.2.2]
    exact onGrid_ok hu _
  · have hu : evaluateForce s (Pipe.fieldArray Nx Ny ((blockDecomp _ H.real).glue f)) = .ok _ := if_neg (not_not.mpr hsh)
    rw [H.force hb hu r p.1 p.2 p.1.2 p.2.2]
    exact onGrid_ok hu _

/-- **C175** The contract of the collective calls of the solver (C174) is met by the periodic half-space: what every process gets from
`substrate.evaluate_disp` and `substrate.evaluate_force` is its part of the answer to the field put together from the parts. -/
theorem C175_solver_periodic {a : Args} {nx ny : ℕ} (hg : a.nbGridPts = [nx, ny]) (hs : construct a = .ok s) {real four : R → Block}
    (hreal : Parts nx ny real) (hfour : Parts (nx / 2 + 1) ny four) (hS : ∀ r, constructProc a (real r) (four r) = .ok (S r))
    (cf : Bool) (rms : NdArray ℝ → ℝ) (heights : NdArray ℝ) (f : ∀ r, Fin (real r).n0 × Fin (real r).n1 → ℝ) (r : R) (p : Fin (real r).n0 × Fin (real r).n1) :
    let P := Pipe.ccgProblem ⟨s, false, cf⟩ rms nx ny nx ny heights
    let D := blockDecomp real hreal
    D.part r (P.disp (D.glue f)) p = mpiDisp nx ny s.areaPerPt S (fun r => localArray (f r)) r p.1 p.2 ∧
    D.part r (P.force (D.glue f)) p = mpiForce nx ny s.areaPerPt S (fun r => localArray (f r)) r p.1 p.2 := by
  have H := holds_periodic hg hs hreal hfour hS
  have er : (fun r => (S r).real) = real := funext fun r => (constructProc_parts (hS r)).1
  subst er
  exact H.collective f r p

/-- **C175** And by the nonperiodic half-space, on the padded grid. -/
theorem C175_solver_free {a : FreeArgs} {nx ny : ℕ} (hg : a.nbGridPts = [nx, ny]) (hs : constructFree a = .ok s) {real four : R → Block}
    (hreal : Parts (2 * nx) (2 * ny) real) (hfour : Parts (nx + 1) (2 * ny) four) (hS : constructFreeProcs a real four = .ok S)
    (cf : Bool) (rms : NdArray ℝ → ℝ) (heights : NdArray ℝ) (f : ∀ r, Fin (real r).n0 × Fin (real r).n1 → ℝ) (r : R) (p : Fin (real r).n0 × Fin (real r).n1) :
    let P := Pipe.ccgProblem ⟨s, true, cf⟩ rms (2 * nx) (2 * ny) nx ny heights
    let D := blockDecomp real hreal
    D.part r (P.disp (D.glue f)) p = mpiDisp (2 * nx) (2 * ny) s.areaPerPt S (fun r => localArray (f r)) r p.1 p.2 ∧
    D.part r (P.force (D.glue f)) p = mpiForce (2 * nx) (2 * ny) s.areaPerPt S (fun r => localArray (f r)) r p.1 p.2 := by
  obtain ⟨H, er, _, hgrid, _⟩ := holds_free hg hs hreal hfour hS
  subst er
  obtain ⟨h1, h2⟩ := H.collective f r p
  refine ⟨?_, h2⟩
  rw [← h1]
  have e : ∀ g : Fin (2 * nx) × Fin (2 * ny) → ℝ, Pipe.onGrid (System.Substrate.evaluateDisp ⟨s, true, cf⟩) (2 * nx) (2 * ny) g =
      Pipe.onGrid (evaluateDisp s) (2 * nx) (2 * ny) g := by
    intro g
    funext q
    have : System.Substrate.evaluateDisp ⟨s, true, cf⟩ (Pipe.fieldArray (2 * nx) (2 * ny) g) = evaluateDisp s (Pipe.fieldArray (2 * nx) (2 * ny) g) := by
      have hb : dispBranch s.domain (List.zipWith (fun n m => topoSub n 0 m) s.nbGridPts s.domain) s.domain s.nbGridPts
          (Pipe.fieldArray (2 * nx) (2 * ny) g).shape = .padded := if_pos H.domain.symm
      simp only [System.Substrate.evaluateDisp, if_true, evaluateDispFree, hb]
    rw [Pipe.onGrid, Pipe.onGrid, this]
  exact congrFun (congrArg _ (e _)) p

/-! ## Examples -/

/-- A 4 × 4 grid on three processes, the last of which has nothing: two slabs of the grid, two of the half spectrum. -/
def demoReal : Fin 3 → Block := ![⟨0, 4, 0, 2⟩, ⟨0, 4, 2, 2⟩, ⟨0, 0, 0, 0⟩]

/-- Blocks of the half spectrum. -/
def demoFour : Fin 3 → Block := ![⟨0, 2, 0, 4⟩, ⟨2, 1, 0, 4⟩, ⟨0, 0, 0, 0⟩]

lemma demo_parts : Parts 4 4 demoReal ∧ Parts (4 / 2 + 1) 4 demoFour := by
  refine ⟨⟨?_, ?_⟩, ⟨?_, ?_⟩⟩
  · intro r i j hi hj; fin_cases r <;> simp [demoReal] at hi hj ⊢ <;> omega
  · intro i j hi hj
    interval_cases j
    all_goals first
      | exact ⟨0, by simp [holds, demoReal]; omega, fun r hr => by fin_cases r <;> simp [holds, demoReal] at hr ⊢⟩
      | exact ⟨1, by simp [holds, demoReal]; omega, fun r hr => by fin_cases r <;> simp [holds, demoReal] at hr ⊢⟩
  · intro r i j hi hj; fin_cases r <;> simp [demoFour] at hi hj ⊢ <;> omega
  · intro i j hi hj
    interval_cases i
    all_goals first
      | exact ⟨0, by simp [holds, demoFour]; omega, fun r hr => by fin_cases r <;> simp [holds, demoFour] at hr ⊢⟩
      | exact ⟨1, by simp [holds, demoFour]; omega, fun r hr => by fin_cases r <;> simp [holds, demoFour] at hr ⊢⟩

/-- The hypotheses of the periodic theorems can be met. -/
example : ∃ (a : Args) (s : HalfSpace) (S : Fin 3 → ProcHS), a.nbGridPts = [4, 4] ∧ construct a = .ok s ∧
    (∀ r, constructProc a (demoReal r) (demoFour r) = .ok (S r)) := by
  obtain ⟨s, hs⟩ := (C13_construct_ok_iff ⟨[4, 4], 1, [1, 1], none, none, 0, none⟩).mpr (by simp)
  have : ∀ r, ∃ p, constructProc ⟨[4, 4], 1, [1, 1], none, none, 0, none⟩ (demoReal r) (demoFour r) = .ok p := fun r =>
    C175_construct (nx := 4) (ny := 4) rfl hs _ _ (by fin_cases r <;> simp [demoFour])
  choose S hS using this
  exact ⟨_, s, S, rfl, hs, hS⟩

/-- The hypotheses of the theorems on nonperiodic half-spaces can be met. -/
example : ∃ (a : FreeArgs) (s : HalfSpace) (S : Fin 3 → ProcHS), a.nbGridPts = [2, 2] ∧ constructFree a = .ok s ∧
    Parts (2 * 2) (2 * 2) demoReal ∧ Parts (2 + 1) (2 * 2) demoFour ∧ constructFreeProcs a demoReal demoFour = .ok S := by
  obtain ⟨s, hs⟩ := Factory.constructFree_ok (grid := [2, 2]) rfl (by norm_num) (by norm_num) 1 (sizes := [1, 1]) (by simp)
  obtain ⟨S, hS⟩ := C175_free_construct hs demoReal demoFour
  exact ⟨_, s, S, rfl, hs, demo_parts.1, demo_parts.2, hS⟩

end CM.HS
