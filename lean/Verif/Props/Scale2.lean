import Verif.Props.Scale
/-!
# C155 the unit of length: the package's own solver
-/
set_option linter.unusedSimpArgs false
set_option linter.unusedSectionVars false

namespace CM.CCG
variable {ι : Type} [Fintype ι] [DecidableEq ι] {P : Problem ι ℝ} {o : Options ι ℝ}

/-- Without a hardness or without a load the solver never bisects. -/
lemma solve_bisect (h : o.hardness = .none ∨ o.externalForce = none) (b : (ℝ → ℝ) → ℝ → ℝ → Except PyErr ℝ) :
    solveCb P { o with bisect := b } = solveCb P o := by
  have hb : ∀ s, branch P { o with bisect := b } s = branch P o s := by
    intro s
    unfold branch
    rcases h with h | h
    · have : doCG o s = true := by unfold doCG; rw [h]; rfl
      rw [show doCG { o with bisect := b } s = doCG o s from rfl, this]
      rfl
    · have : mixBranch P { o with bisect := b } s = mixBranch P o s := by
        unfold mixBranch
        dsimp only
        rw [h]
        rfl
      rw [this]; rfl
  have hs : ∀ pt s, step P { o with bisect := b } pt s = step P o pt s := by
    intro pt s
    unfold step
    rw [hb]
    rfl
  have hl : ∀ pt (fuel it : ℕ) (s : State ι ℝ) cb w, loop P { o with bisect := b } pt fuel it s cb w = loop P o pt fuel it s cb w := by
    intro pt fuel
    induction fuel with
    | zero => intro it s cb w; cases w <;> rfl
    | succ n ih =>
      intro it s cb w
      unfold loop
      rw [hs]
      cases step P o pt s with
      | error e => rfl
      | ok w =>
        dsimp only
        rw [ih]
        rfl
  unfold solveCb
  rw [show pentolOf P { o with bisect := b } = pentolOf P o from rfl]
  cases pentolOf P o with
  | error e => rfl
  | ok pt =>
    dsimp only
    rw [hl]
    rfl

end CM.CCG

namespace CM.HS
open Finset CM.Fourier CM.FFT CM.Spec
variable {nx ny : ℕ} {l : ℝ}

lemma loveKernel_scaled (hl : 0 < l) (E a b x y : ℝ) : loveKernel E (l * a) (l * b) (l * x) (l * y) = l * loveKernel E a b x y := by
  have hs : ∀ p q : ℝ, Real.sqrt (l * p * (l * p) + l * q * (l * q)) = l * Real.sqrt (p * p + q * q) := by
    intro p q
    rw [show l * p * (l * p) + l * q * (l * q) = l ^ 2 * (p * p + q * q) by ring, Real.sqrt_mul (by positivity), Real.sqrt_sq hl.le]
  unfold loveKernel
  simp only [← mul_add, ← mul_sub, hs, mul_div_mul_left _ _ hl.ne']
  ring

lemma freeKernel_scaled (hl : 0 < l) (E dx dy : ℝ) (i j : ℕ) : freeKernel E nx ny (l * dx) (l * dy) i j = l * freeKernel E nx ny dx dy i j := by
  unfold freeKernel
  rw [← loveKernel_scaled hl]
  congr 1 <;> ring

lemma fullStiff_scaled (hl : 0 < l) (m : Mat) (hm : m.thickness = none) (sx sy g : ℝ) (k : ZMod nx × ZMod ny) :
    fullStiff m nx ny (l * sx) (l * sy) (g / l) k = fullStiff m nx ny sx sy g k / l := by
  unfold fullStiff
  split_ifs
  · rfl
  · have hf : ∀ n (s : ℝ) k, freq n (l * s) k = freq n s k / l := by
      intro n s k
      unfold freq
      rw [mul_comm l s]
      split_ifs <;> rw [div_mul_eq_div_div]
    unfold stiffnessOfFreq freq2
    rw [hm]
    dsimp only
    rw [hf, hf, show ∀ a b : ℝ, a / l * (a / l) + b / l * (b / l) = (a * a + b * b) / l ^ 2 by intro a b; field_simp, Real.sqrt_div' _ (by positivity),
      Real.sqrt_sq hl.le, mul_div_assoc]

end CM.HS

namespace CM.Pipe
open Finset CM.HS CM.FFT CM.System CM.Spec CM.Fourier

variable {nx ny : ℕ} {sx sy : ℝ} {d0 d1 : ℕ} {l : ℝ}

/-- Two substrates on the same grid, the second in the other unit. -/
structure Scales (l : ℝ) (nx ny d0 d1 : ℕ) (sub sub' : Substrate) : Prop where
  grid : Grid sub nx ny d0 d1
  grid' : Grid sub' nx ny d0 d1
  disp : ∀ f, onGrid sub'.evaluateDisp d0 d1 (fun i => l ^ 2 * f i) = fun i => l * onGrid sub.evaluateDisp d0 d1 f i
  force : ∀ f, onGrid (HS.evaluateForce sub'.hs) d0 d1 (fun i => l * f i) = fun i => l ^ 2 * onGrid (HS.evaluateForce sub.hs) d0 d1 f i
  homog : ∀ c f, onGrid sub.evaluateDisp d0 d1 (fun i => c * f i) = fun i => c * onGrid sub.evaluateDisp d0 d1 f i

/-- The arguments of the solver in the other unit. -/
def scaledKw (l : ℝ) (kw : OptimizerKwargs) : OptimizerKwargs := { kw with forcetol := l ^ 2 * kw.forcetol }

section
variable {sub sub' : Substrate} {kw : OptimizerKwargs}

lemma Scales.agree (hl : 0 < l) (M : Scales l nx ny d0 d1 sub sub') (rms rms' : NdArray ℝ → ℝ) (bisect : Bisect) :
    SolversScaled l nx ny (fun q => BisectScales l bisect ∨ q.hardness = none ∨ q.externalForce = none)
      (ccgSolver sub rms bisect kw) (ccgSolver sub' rms' bisect (scaledKw l kw)) := by
  intro q q' hq hok
  have hl2 : 0 < l ^ 2 := by positivity
  set P := ccgProblem sub rms d0 d1 nx ny q.heights with hP
  set P' := ccgProblem sub' rms' d0 d1 nx ny q'.heights with hP'
  obtain ⟨pt, hpt⟩ := Option.ne_none_iff_exists'.1 hq.tolerance
  have hsim : CCG.Similar (Equiv.refl _) l (l ^ 2) P
      { CCG.withHeights P' (fun p => l * P.h p) with rmsHeight := l * P.rmsHeight, meanGrid := P.meanGrid } :=
    ⟨fun f => M.disp f, fun f => M.force f, fun p => rfl, fun p => rfl, fun p => rfl, rfl, rfl, rfl⟩
  -- the options, with a bisection that scales
  let b' : Bisect := fun f a b => (bisect (fun x => f (l * x) / l ^ 2) (a / l) (b / l)).map (l * ·)
  have hopt : ∀ b'', (∀ f a b, b'' (fun x => l ^ 2 * f (x / l)) (l * a) (l * b) = (bisect f a b).map (l * ·)) →
      CCG.SimilarOpt (Equiv.refl _) l (l ^ 2) (ccgOptions bisect kw _ q) { ccgOptions bisect (scaledKw l kw) (Fin d0 × Fin d1) q' with bisect := b'' } := by
    intro b'' hb
    refine ⟨?_, ?_, ?_, rfl, rfl, ?_, rfl, rfl, rfl, rfl, rfl, ?_, hb⟩
    · simp only [ccgOptions, hq.hardness]
      cases q.hardness <;> simp [CCG.Hardness.scaled]
    · simp only [ccgOptions, hq.externalForce]
    · simp only [ccgOptions, hq.offset]
    · simp only [ccgOptions, hq.pentol]
    · simp only [ccgOptions, hq.maxiter]
  have hD : CCG.Homogeneous (l / l ^ 2) P.disp := fun f => M.homog _ f
  have hstrip : CCG.solveCb { CCG.withHeights P' (fun p => l * P.h p) with rmsHeight := l * P.rmsHeight, meanGrid := P.meanGrid }
      (ccgOptions bisect (scaledKw l kw) _ q') = CCG.solveCb P' (ccgOptions bisect (scaledKw l kw) _ q') := by
    rw [CCG.C154_given_tolerance (P := CCG.withHeights P' fun p => l * P.h p) (o := ccgOptions bisect (scaledKw l kw) (Fin d0 × Fin d1) q') (pt := l * pt) (by
      show q'.pentol = _; rw [hq.pentol, hpt]; rfl), CCG.C154_undefined_points_ignored (P := P') (fun p hp => by
      have hp' : p.1.val < nx ∧ p.2.val < ny := by
        have : (decide (p.1.val < nx) && decide (p.2.val < ny)) = true := hp
        simpa using this
      exact (hq.heights _ hp'.1 _ hp'.2).symm)]
  have hmain : CCG.solveCb P' (ccgOptions bisect (scaledKw l kw) _ q') =
      (CCG.solveCb P (ccgOptions bisect kw _ q)).map (CCG.scaledRun (Equiv.refl _) l (l ^ 2)) := by
    rw [← hstrip]
    rcases hok with hb | hno
    · exact CCG.solve_similar hl hl2 hD hsim (hopt bisect hb) (.inr (.inl (by show q.pentol ≠ none; exact hq.tolerance)))
    · rw [← CCG.solve_bisect (o := ccgOptions bisect (scaledKw l kw) _ q') (b := b')]
      · refine CCG.solve_similar hl hl2 hD hsim (hopt b' fun f a b => ?_) (.inr (.inl (by show q.pentol ≠ none; exact hq.tolerance)))
        simp only [b']
        congr 1
        have h1 := hl.ne'
        have h2 := hl2.ne'
        rw [mul_div_cancel_left₀ _ h1, mul_div_cancel_left₀ _ h1]
        congr 1
        funext x
        rw [mul_div_cancel_left₀ _ h1, mul_div_cancel_left₀ _ h2]
      · rcases hno with h | h
        · left
          simp only [ccgOptions, hq.hardness, h]
          rfl
        · right
          show q'.externalForce = none
          rw [hq.externalForce, h]; rfl
  have hsol : CCG.solve P' (ccgOptions bisect (scaledKw l kw) _ q') =
      (CCG.solve P (ccgOptions bisect kw _ q)).map (CCG.Result.scaled (Equiv.refl _) l (l ^ 2)) := by
    unfold CCG.solve
    rw [hmain]
    cases CCG.solveCb P (ccgOptions bisect kw _ q) <;> rfl
  unfold ccgSolver
  rw [M.grid.dom, M.grid.topo, M.grid'.dom, M.grid'.topo]
  dsimp only
  rw [← hP, ← hP', hsol]
  cases CCG.solve P (ccgOptions bisect kw _ q) with
  | error x => exact .inl ⟨x, rfl, rfl⟩
  | ok r =>
    refine .inr ⟨_, _, rfl, rfl, ⟨fun i hi j hj => ?_, fun i hi j hj => ?_, fun i hi j hj => ?_, rfl, rfl⟩⟩
    · show (fieldArray d0 d1 _).get [_, _] = _ * (fieldArray d0 d1 _).get [_, _]
      rw [fieldArray_get _ (lt_of_lt_of_le hi M.grid.lex) (lt_of_lt_of_le hj M.grid.ley),
        fieldArray_get _ (lt_of_lt_of_le hi M.grid.lex) (lt_of_lt_of_le hj M.grid.ley)]
      rfl
    · show (fieldArray d0 d1 _).get [_, _] = _ * (fieldArray d0 d1 _).get [_, _]
      rw [fieldArray_get _ (lt_of_lt_of_le hi M.grid.lex) (lt_of_lt_of_le hj M.grid.ley),
        fieldArray_get _ (lt_of_lt_of_le hi M.grid.lex) (lt_of_lt_of_le hj M.grid.ley)]
      rfl
    · show (fieldArray d0 d1 _).get [_, _] = (fieldArray d0 d1 _).get [_, _]
      rw [fieldArray_bool _ (lt_of_lt_of_le hi M.grid.lex) (lt_of_lt_of_le hj M.grid.ley),
        fieldArray_bool _ (lt_of_lt_of_le hi M.grid.lex) (lt_of_lt_of_le hj M.grid.ley)]
      show (r.plastic.map fun p i => p i).getD (fun _ => false) _ = _
      cases r.plastic <;> rfl
end

section
variable [NeZero d0] [NeZero d1]

lemma scales_of_rep (hl : 0 < l) {sub sub' : Substrate} (g : Grid sub nx ny d0 d1) (g' : Grid sub' nx ny d0 d1)
    {G G' : ZMod d0 × ZMod d1 → ℂ} (r : Rep sub.hs d0 d1 G) (r' : Rep sub'.hs d0 d1 G')
    (ed : ∀ f, f.shape = [d0, d1] → sub.evaluateDisp f = HS.evaluateDisp sub.hs f)
    (ed' : ∀ f, f.shape = [d0, d1] → sub'.evaluateDisp f = HS.evaluateDisp sub'.hs f)
    (area : sub'.hs.areaPerPt = l ^ 2 * sub.hs.areaPerPt) (hG : ∀ k, G' k = (l : ℂ) * G k) : Scales l nx ny d0 d1 sub sub' := by
  have hd : ∀ f, onGrid sub.evaluateDisp d0 d1 f = onGrid (HS.evaluateDisp sub.hs) d0 d1 f := fun f => by unfold onGrid; rw [ed _ rfl]
  have hd' : ∀ f, onGrid sub'.evaluateDisp d0 d1 f = onGrid (HS.evaluateDisp sub'.hs) d0 d1 f := fun f => by unfold onGrid; rw [ed' _ rfl]
  have hlin : ∀ (S : ZMod d0 × ZMod d1 → ℂ) (c : ℝ) f x, (pair2 d0 d1).act S (fun z => c * f z) x = c * (pair2 d0 d1).act S f x := by
    intro S c f x
    have := (pair2 d0 d1).act_lin S c 0 f f x
    simpa using this
  have hmul : ∀ (S : ZMod d0 × ZMod d1 → ℂ) (c : ℝ) f x, (pair2 d0 d1).act (fun k => (c : ℂ) * S k) f x = c * (pair2 d0 d1).act S f x := by
    intro S c f x
    unfold Pairing.act
    have : (pair2 d0 d1).ift (fun k => (c : ℂ) * S k * (pair2 d0 d1).ft (fun y => (f y : ℂ)) k) x =
        c * (pair2 d0 d1).ift (fun k => S k * (pair2 d0 d1).ft (fun y => (f y : ℂ)) k) x := by
      unfold Pairing.ift
      rw [mul_sum]
      refine sum_congr rfl fun k _ => ?_
      ring
    rw [this, Complex.re_ofReal_mul, mul_div_assoc]
  have h1 := hl.ne'
  refine ⟨g, g', fun f => ?_, fun f => ?_, fun c f => ?_⟩
  · rw [hd, hd']
    funext p
    rw [onGrid_disp r', onGrid_disp r, area, funext hG, hmul, hlin]
    rw [show -(l * (l ^ 2 * (pair2 d0 d1).act G (fun z => f ((onTorus2 d0 d1).symm z)) (onTorus2 d0 d1 p))) =
      l ^ 2 * (l * -(pair2 d0 d1).act G (fun z => f ((onTorus2 d0 d1).symm z)) (onTorus2 d0 d1 p)) by ring, mul_div_mul_left _ _ (by positivity), mul_div_assoc]
  · funext p
    rw [onGrid_force r', onGrid_force r, area]
    have e : (fun k => (G' k)⁻¹) = fun k => ((l⁻¹ : ℝ) : ℂ) * (G k)⁻¹ := by
      funext k
      rw [hG, mul_inv]; push_cast; rfl
    rw [e, hmul, hlin]
    field_simp
  · rw [hd, hd]
    funext p
    rw [onGrid_disp r, onGrid_disp r, hlin]
    ring
end

/-- The periodic substrate in the other unit. -/
lemma periodic_scales (hl : 0 < l) {s s' : HalfSpace} (hx : 0 < sx) (hy : 0 < sy)
    {T T' : Topo} (hT : ValidTopo T nx ny sx sy) (hT' : ValidTopo T' nx ny (l * sx) (l * sy)) {o : Option String}
    (m : makeSubstrate T o = .ok ⟨s, false, false⟩) (m' : makeSubstrate T' o = .ok ⟨s', false, false⟩)
    (h : construct ⟨[nx, ny], 1, [sx, sy], none, none, 0, none⟩ = .ok s) (h' : construct ⟨[nx, ny], 1, [l * sx, l * sy], none, none, 0, none⟩ = .ok s') :
    Scales l nx ny nx ny ⟨s, false, false⟩ ⟨s', false, false⟩ := by
  have hx' := mul_pos hl hx
  have hy' := mul_pos hl hy
  have hv : ValidArgs ⟨[nx, ny], 1, [sx, sy], none, none, 0, none⟩ := by constructor <;> simp [hx, hy]
  have hv' : ValidArgs ⟨[nx, ny], 1, [l * sx, l * sy], none, none, 0, none⟩ := by constructor <;> simp [hx', hy', hx, hy, hl]
  obtain ⟨_, _, P⟩ := per_of_construct hv h rfl
  obtain ⟨_, _, P'⟩ := per_of_construct hv' h' rfl
  obtain ⟨d0, d1, g⟩ := grid_of_make hT m
  obtain ⟨d0', d1', g'⟩ := grid_of_make hT' m'
  have k1 := P.rep.dom.symm.trans g.dom
  have k2 := P'.rep.dom.symm.trans g'.dom
  simp only [List.cons.injEq, and_true] at k1 k2
  obtain ⟨rfl, rfl⟩ := k1
  obtain ⟨rfl, rfl⟩ := k2
  have e1 : size ⟨[nx, ny], 1, [l * sx, l * sy], none, none, 0, none⟩ 0 = l * sx := by simp [size]
  have e2 : size ⟨[nx, ny], 1, [l * sx, l * sy], none, none, 0, none⟩ 1 = l * sy := by simp [size]
  have e3 : size ⟨[nx, ny], 1, [sx, sy], none, none, 0, none⟩ 0 = sx := by simp [size]
  have e4 : size ⟨[nx, ny], 1, [sx, sy], none, none, 0, none⟩ 1 = sy := by simp [size]
  have hm : s'.mat = s.mat := by rw [P.mat, P'.mat]; simp [contactModulus]
  have e5 : gammaStiffness ⟨[nx, ny], 1, [l * sx, l * sy], none, none, 0, none⟩ = gammaStiffness ⟨[nx, ny], 1, [sx, sy], none, none, 0, none⟩ / l := by
    simp only [gammaStiffness, e1, e2, e3, e4, contactModulus]
    field_simp
  refine scales_of_rep hl g g' P.rep P'.rep (fun _ _ => rfl) (fun _ _ => rfl) ?_ (fun k => ?_)
  · show s'.areaPerPt = l ^ 2 * s.areaPerPt
    rw [P.area, P'.area, e1, e2, e3, e4]
    ring
  · rw [e1, e2, e3, e4, e5, hm, fullStiff_scaled hl _ (by rw [P.mat])]
    rw [inv_div, div_eq_mul_inv]
    push_cast
    rfl

/-- The free substrate in the other unit. -/
lemma free_scales (hl : 0 < l) {s s' : HalfSpace} (hx : 0 < sx) (hy : 0 < sy)
    {T T' : Topo} (hT : ValidTopo T nx ny sx sy) (hT' : ValidTopo T' nx ny (l * sx) (l * sy)) {o : Option String}
    (m : makeSubstrate T o = .ok ⟨s, true, false⟩) (m' : makeSubstrate T' o = .ok ⟨s', true, false⟩)
    (h : constructFree ⟨[nx, ny], 1, [sx, sy], none⟩ = .ok s) (h' : constructFree ⟨[nx, ny], 1, [l * sx, l * sy], none⟩ = .ok s') :
    Scales l nx ny (2 * nx) (2 * ny) ⟨s, true, false⟩ ⟨s', true, false⟩ := by
  have hx' := mul_pos hl hx
  have hy' := mul_pos hl hy
  have hv : ValidFree ⟨[nx, ny], 1, [sx, sy], none⟩ := by constructor <;> simp [hx, hy]
  have hv' : ValidFree ⟨[nx, ny], 1, [l * sx, l * sy], none⟩ := by constructor <;> simp [hx', hy', hx, hy, hl]
  obtain ⟨_, _, P⟩ := free_of_construct hv h rfl
  obtain ⟨_, _, P'⟩ := free_of_construct hv' h' rfl
  obtain ⟨d0, d1, g⟩ := grid_of_make hT m
  obtain ⟨d0', d1', g'⟩ := grid_of_make hT' m'
  have k1 := P.dom.symm.trans g.dom
  have k2 := P'.dom.symm.trans g'.dom
  simp only [List.cons.injEq, and_true] at k1 k2
  obtain ⟨rfl, rfl⟩ := k1
  obtain ⟨rfl, rfl⟩ := k2
  have e1 : sizeF ⟨[nx, ny], 1, [l * sx, l * sy], none⟩ 0 = l * sx := by simp [sizeF]
  have e2 : sizeF ⟨[nx, ny], 1, [l * sx, l * sy], none⟩ 1 = l * sy := by simp [sizeF]
  have e3 : sizeF ⟨[nx, ny], 1, [sx, sy], none⟩ 0 = sx := by simp [sizeF]
  have e4 : sizeF ⟨[nx, ny], 1, [sx, sy], none⟩ 1 = sy := by simp [sizeF]
  refine scales_of_rep hl g g' P.rep P'.rep (fun f hf => ?_) (fun f hf => ?_) ?_ (fun k => ?_)
  · show evaluateDispFree s f false = _
    unfold evaluateDispFree
    rw [branch_topo P, if_pos hf]
  · show evaluateDispFree s' f false = _
    unfold evaluateDispFree
    rw [branch_topo P', if_pos hf]
  · show s'.areaPerPt = l ^ 2 * s.areaPerPt
    rw [P.area, P'.area, e1, e2, e3, e4]
    ring
  · rw [← Pairing.ft_smul]
    congr 1
    funext p
    unfold FreeRep.K tor
    dsimp only
    rw [e1, e2, e3, e4, mul_div_assoc, mul_div_assoc, freeKernel_scaled hl]
    push_cast
    rfl

end CM.Pipe
