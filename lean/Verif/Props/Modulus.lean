import Verif.Spec.Modulus
import Verif.Props.Scale2
/-!
# C163, C168: the modulus of the substrate
-/
namespace CM.Pipe
open Finset CM.HS CM.FFT CM.System CM.Spec CM.Fourier
variable {nx ny d0 d1 : ℕ} {c : ℝ}

lemma act_scaled [NeZero d0] [NeZero d1] (S : ZMod d0 × ZMod d1 → ℂ) (c : ℝ) (f : ZMod d0 × ZMod d1 → ℝ) (x) :
    (pair2 d0 d1).act (fun k => (c : ℂ) * S k) f x = c * (pair2 d0 d1).act S f x := by
  unfold Pairing.act
  have : (pair2 d0 d1).ift (fun k => (c : ℂ) * S k * (pair2 d0 d1).ft (fun y => (f y : ℂ)) k) x =
      c * (pair2 d0 d1).ift (fun k => S k * (pair2 d0 d1).ft (fun y => (f y : ℂ)) k) x := by
    unfold Pairing.ift
    rw [mul_sum]
    refine sum_congr rfl fun k _ => ?_
    ring
  rw [this, Complex.re_ofReal_mul, mul_div_assoc]

lemma act_stiff [NeZero d0] [NeZero d1] (S : ZMod d0 × ZMod d1 → ℂ) (c : ℝ) (f : ZMod d0 × ZMod d1 → ℝ) (x) :
    (pair2 d0 d1).act S (fun z => c * f z) x = c * (pair2 d0 d1).act S f x := by
  have := (pair2 d0 d1).act_lin S c 0 f f x
  simpa using this

/-- Green's functions in the ratio `1 / c`. -/
lemma rep_stiffer [NeZero d0] [NeZero d1] (hc : 0 < c) {s s' : HalfSpace} {G G' : ZMod d0 × ZMod d1 → ℂ} (r : Rep s d0 d1 G) (r' : Rep s' d0 d1 G')
    (area : s'.areaPerPt = s.areaPerPt) (hG : ∀ k, G' k = ((c⁻¹ : ℝ) : ℂ) * G k) (f : NdArray ℝ) (hf : f.shape = [d0, d1]) :
    (∃ u u', HS.evaluateDisp s f = .ok u ∧ HS.evaluateDisp s' f = .ok u' ∧ u.shape = [d0, d1] ∧ u'.shape = [d0, d1] ∧
      ∀ i j, u'.get [i, j] = u.get [i, j] / c) ∧
    (∃ u u', HS.evaluateForce s f = .ok u ∧ HS.evaluateForce s' f = .ok u' ∧ u.shape = [d0, d1] ∧ u'.shape = [d0, d1] ∧
      ∀ i j, u'.get [i, j] = c * u.get [i, j]) := by
  constructor
  · obtain ⟨u, h1, h2, h3⟩ := r.disp_ok hf
    obtain ⟨u', h1', h2', h3'⟩ := r'.disp_ok hf
    refine ⟨u, u', h1, h1', h2, h2', fun i j => ?_⟩
    rw [h3, h3', area, funext hG, act_scaled]
    field_simp
  · obtain ⟨u, h1, h2, h3⟩ := r.force_ok hf
    obtain ⟨u', h1', h2', h3'⟩ := r'.force_ok hf
    refine ⟨u, u', h1, h1', h2, h2', fun i j => ?_⟩
    have e : (fun k => (G' k)⁻¹) = fun k => (c : ℂ) * (G k)⁻¹ := by
      funext k
      rw [hG, mul_inv]; push_cast; rw [inv_inv]
    rw [h3, h3', area, e, act_scaled]
    ring

lemma fullStiff_stiffer [NeZero nx] [NeZero ny] {a b : Args} {s s' : HalfSpace} (P : Per a s nx ny) (P' : Per b s' nx ny) (h : StifferBy c a b) (k) :
    fullStiff s'.mat nx ny (size b 0) (size b 1) (gammaStiffness b) k = c * fullStiff s.mat nx ny (size a 0) (size a 1) (gammaStiffness a) k := by
  have hs : ∀ i, size b i = size a i := fun i => by simp only [size, h.sizes]
  have hmod : contactModulus b = c * contactModulus a := by
    rcases h.material with ⟨-, -, e, -⟩ | ⟨t, -, -, e1, e2⟩
    · exact e
    · unfold contactModulus; rw [e1, e2]; ring
  have hg : gammaStiffness b = c * gammaStiffness a := by
    rcases h.material with ⟨e1, e2, e3, e4⟩ | ⟨t, e1, e2, e3, e4⟩
    · unfold gammaStiffness
      rw [e1, e2, e4]
      cases a.q0 with
      | none => simp only [Option.map_none, hs, hmod]; ring
      | some q => simp only [Option.map_some]
    · unfold gammaStiffness
      simp only [e1, e2, e3, e4]
      ring
  unfold fullStiff
  rw [hs, hs, hg]
  split_ifs
  · rfl
  · unfold stiffnessOfFreq
    rw [P.mat, P'.mat]
    dsimp only
    rcases h.material with ⟨e1, e2, e3, e4⟩ | ⟨t, e1, e2, e3, e4⟩
    · rw [e1, e2]; dsimp only; rw [hmod]; ring
    · rw [e1, e2]; dsimp only; rw [hmod, e3]; ring

/-- Two periodic substrates, the second stiffer. -/
lemma periodic_stiffer {a b : Args} {s s' : HalfSpace} [NeZero nx] [NeZero ny] (P : Per a s nx ny) (P' : Per b s' nx ny)
    (h : StifferBy c a b) : s'.areaPerPt = s.areaPerPt ∧
    ∀ k, ((((fullStiff s'.mat nx ny (size b 0) (size b 1) (gammaStiffness b) k)⁻¹ : ℝ)) : ℂ) =
      ((c⁻¹ : ℝ) : ℂ) * (((fullStiff s.mat nx ny (size a 0) (size a 1) (gammaStiffness a) k)⁻¹ : ℝ) : ℂ) := by
  refine ⟨?_, fun k => ?_⟩
  · rw [P.area, P'.area]
    simp only [size, h.sizes]
  · rw [fullStiff_stiffer P P' h, mul_inv]
    push_cast
    rfl

/-- **C163** On a periodic substrate `c` times as stiff -- contact moduli in the ratio `c`, or layers of equal thickness and Poisson
number with Young's moduli in the ratio `c` -- the same forces cause displacements smaller by the factor `c`, and the same displacements
take forces larger by the factor `c`.  With `c = 1`: Young's modulus and Poisson number of a half-space matter through
the contact modulus `E/(1-ν²)` only. -/
theorem C163_stiffer_substrate (hc : 0 < c) {a b : Args} {s s' : HalfSpace} (hva : ValidArgs a) (hvb : ValidArgs b) (h : StifferBy c a b)
    (ha : construct a = .ok s) (hb : construct b = .ok s') (hg : a.nbGridPts = [nx, ny]) (f : NdArray ℝ) (hf : f.shape = [nx, ny]) :
    (∃ u u', HS.evaluateDisp s f = .ok u ∧ HS.evaluateDisp s' f = .ok u' ∧ u.shape = [nx, ny] ∧ u'.shape = [nx, ny] ∧
      ∀ i j, u'.get [i, j] = u.get [i, j] / c) ∧
    (∃ u u', HS.evaluateForce s f = .ok u ∧ HS.evaluateForce s' f = .ok u' ∧ u.shape = [nx, ny] ∧ u'.shape = [nx, ny] ∧
      ∀ i j, u'.get [i, j] = c * u.get [i, j]) := by
  obtain ⟨_, _, P⟩ := per_of_construct hva ha hg
  obtain ⟨_, _, P'⟩ := per_of_construct hvb hb (h.grid.trans hg)
  obtain ⟨h1, h2⟩ := periodic_stiffer P P' h
  exact rep_stiffer hc P.rep P'.rep h1 h2 f hf

lemma loveKernel_stiffer (E a b x y : ℝ) : loveKernel (c * E) a b x y = c⁻¹ * loveKernel E a b x y := by
  unfold loveKernel
  rw [one_div, one_div, mul_inv, mul_inv, mul_inv]
  ring

/-- Two free substrates, the second stiffer. -/
lemma free_stiffer {a b : FreeArgs} {s s' : HalfSpace} [NeZero nx] [NeZero ny] (P : FreeRep a s nx ny) (P' : FreeRep b s' nx ny)
    (hsz : b.physicalSizes = a.physicalSizes) (hE : b.young = c * a.young) : s'.areaPerPt = s.areaPerPt ∧
    ∀ k, ((pair2 (2 * nx) (2 * ny)).ft fun p => (FreeRep.K b nx ny p : ℂ)) k =
      ((c⁻¹ : ℝ) : ℂ) * ((pair2 (2 * nx) (2 * ny)).ft fun p => (FreeRep.K a nx ny p : ℂ)) k := by
  have hs : ∀ i, sizeF b i = sizeF a i := fun i => by simp only [sizeF, hsz]
  refine ⟨by rw [P.area, P'.area, hs, hs], fun k => ?_⟩
  rw [← Pairing.ft_smul]
  congr 1
  funext p
  unfold FreeRep.K tor
  dsimp only
  rw [hs, hs, hE]
  unfold freeKernel
  rw [loveKernel_stiffer]
  push_cast
  rfl

/-- **C163** The same for a nonperiodic substrate: modulus `c` times as large, displacements smaller by the factor `c`. -/
theorem C163_stiffer_nonperiodic (hc : 0 < c) {a b : FreeArgs} {s s' : HalfSpace} (hva : ValidFree a) (hvb : ValidFree b)
    (hgr : b.nbGridPts = a.nbGridPts) (hsz : b.physicalSizes = a.physicalSizes) (hE : b.young = c * a.young)
    (ha : constructFree a = .ok s) (hb : constructFree b = .ok s') (hg : a.nbGridPts = [nx, ny]) (f : NdArray ℝ) (hf : f.shape = [nx, ny]) :
    ∃ u u', evaluateDispFree s f false = .ok u ∧ evaluateDispFree s' f false = .ok u' ∧ u.shape = [nx, ny] ∧ u'.shape = [nx, ny] ∧
      ∀ i j, u'.get [i, j] = u.get [i, j] / c := by
  have g := grid_of_free hva ha hg
  have g' := grid_of_free hvb hb (hgr.trans hg)
  obtain ⟨_, _, P⟩ := free_of_construct hva ha hg
  obtain ⟨_, _, P'⟩ := free_of_construct hvb hb (hgr.trans hg)
  obtain ⟨h1, h2⟩ := free_stiffer P P' hsz hE
  set e : NdArray ℝ := ⟨[2 * nx, 2 * ny], fun x => match x with
    | [i, j] => if i < nx ∧ j < ny then f.get [i, j] else 0
    | _ => 0⟩ with he
  obtain ⟨u, v, k1, k2, k3, k4, k5⟩ := g.embed f e hf rfl fun i _ j _ => rfl
  obtain ⟨u', v', k1', k2', k3', k4', k5'⟩ := g'.embed f e hf rfl fun i _ j _ => rfl
  refine ⟨u, u', k1, k1', k3, k3', fun i j => ?_⟩
  obtain ⟨w, w', j1, j2, -, -, j3⟩ := (rep_stiffer hc P.rep P'.rep h1 h2 e rfl).1
  have q1 : evaluateDispFree s e false = .ok v := k2
  have q2 : evaluateDispFree s' e false = .ok v' := k2'
  rw [free_full P e rfl, j1] at q1
  rw [free_full P' e rfl, j2] at q2
  cases q1; cases q2
  rw [k5, k5', j3]

/-! ## Calculations -/

section
variable {sub sub' : Substrate}

/-- What the solver sees of two substrates, the second `c` times as stiff. -/
structure Stiffer (c : ℝ) (nx ny d0 d1 : ℕ) (sub sub' : Substrate) : Prop where
  grid : Grid sub nx ny d0 d1
  grid' : Grid sub' nx ny d0 d1
  disp : ∀ f, onGrid sub'.evaluateDisp d0 d1 (fun i => c * f i) = onGrid sub.evaluateDisp d0 d1 f
  force : ∀ f, onGrid (HS.evaluateForce sub'.hs) d0 d1 f = fun i => c * onGrid (HS.evaluateForce sub.hs) d0 d1 f i
  homog : ∀ c f, onGrid sub.evaluateDisp d0 d1 (fun i => c * f i) = fun i => c * onGrid sub.evaluateDisp d0 d1 f i

lemma stiffer_of_rep [NeZero d0] [NeZero d1] (hc : 0 < c) (g : Grid sub nx ny d0 d1) (g' : Grid sub' nx ny d0 d1)
    {G G' : ZMod d0 × ZMod d1 → ℂ} (r : Rep sub.hs d0 d1 G) (r' : Rep sub'.hs d0 d1 G')
    (ed : ∀ f, f.shape = [d0, d1] → sub.evaluateDisp f = HS.evaluateDisp sub.hs f)
    (ed' : ∀ f, f.shape = [d0, d1] → sub'.evaluateDisp f = HS.evaluateDisp sub'.hs f)
    (area : sub'.hs.areaPerPt = sub.hs.areaPerPt) (hG : ∀ k, G' k = ((c⁻¹ : ℝ) : ℂ) * G k) : Stiffer c nx ny d0 d1 sub sub' := by
  have hd : ∀ f, onGrid sub.evaluateDisp d0 d1 f = onGrid (HS.evaluateDisp sub.hs) d0 d1 f := fun f => by unfold onGrid; rw [ed _ rfl]
  have hd' : ∀ f, onGrid sub'.evaluateDisp d0 d1 f = onGrid (HS.evaluateDisp sub'.hs) d0 d1 f := fun f => by unfold onGrid; rw [ed' _ rfl]
  refine ⟨g, g', fun f => ?_, fun f => ?_, fun c f => ?_⟩
  · rw [hd, hd']
    funext p
    rw [onGrid_disp r', onGrid_disp r, area, funext hG, act_scaled, act_stiff]
    field_simp
  · funext p
    rw [onGrid_force r', onGrid_force r, area]
    have e : (fun k => (G' k)⁻¹) = fun k => (c : ℂ) * (G k)⁻¹ := by
      funext k
      rw [hG, mul_inv]; push_cast; rw [inv_inv]
    rw [e, act_scaled]
    ring
  · rw [hd, hd]
    funext p
    rw [onGrid_disp r, onGrid_disp r, act_stiff]
    ring

lemma Stiffer.agree {kw : OptimizerKwargs} (hc : 0 < c) (M : Stiffer c nx ny d0 d1 sub sub') (rms : NdArray ℝ → ℝ) (bisect : Bisect) (q : Call)
    (hok : (∀ f a b, bisect (fun x => c * f x) a b = bisect f a b) ∨ q.hardness = none ∨ q.externalForce = none) :
    (∃ e, ccgSolver sub rms bisect kw q = .error e ∧ ccgSolver sub' rms bisect (strongerKw c kw) (strongerCall c q) = .error e) ∨
    (∃ r r', ccgSolver sub rms bisect kw q = .ok r ∧ ccgSolver sub' rms bisect (strongerKw c kw) (strongerCall c q) = .ok r' ∧
      StrongerResult c r r') := by
  set P := ccgProblem sub rms d0 d1 nx ny q.heights with hP
  set P' := ccgProblem sub' rms d0 d1 nx ny q.heights with hP'
  have hsim : CCG.Similar (Equiv.refl _) 1 c P P' := by
    refine ⟨fun f => ?_, fun f => ?_, fun p => rfl, fun p => rfl, fun p => (one_mul _).symm, rfl, (one_mul _).symm, rfl⟩
    · refine (M.disp f).trans ?_
      funext i; exact (one_mul _).symm
    · refine Eq.trans ?_ (M.force f)
      show onGrid (HS.evaluateForce sub'.hs) d0 d1 _ = _
      congr 1
      funext i; exact one_mul _
  have hmap : ∀ x : Option ℝ, x = x.map (1 * ·) := by intro x; cases x <;> simp
  let b' : Bisect := fun f a b => bisect (fun x => f x / c) a b
  have hopt : ∀ b'' : Bisect, (∀ f a b, b'' (fun x => c * f x) a b = bisect f a b) →
      CCG.SimilarOpt (Equiv.refl _) 1 c (ccgOptions bisect kw _ q)
        { ccgOptions bisect (strongerKw c kw) (Fin d0 × Fin d1) (strongerCall c q) with bisect := b'' } := by
    intro b'' hb
    refine ⟨?_, rfl, hmap _, rfl, rfl, hmap _, rfl, rfl, rfl, rfl, rfl, rfl, fun f a b => ?_⟩
    · simp only [ccgOptions, strongerCall]
      cases q.hardness <;> simp [CCG.Hardness.scaled]
    · simp only [div_one, one_mul]
      rw [hb]
      show bisect f a b = Except.map _ (bisect f a b)
      cases bisect f a b <;> simp [Except.map]
  have hD : CCG.Homogeneous (1 / c) P.disp := fun f => M.homog _ f
  have hmain : CCG.solveCb P' (ccgOptions bisect (strongerKw c kw) _ (strongerCall c q)) =
      (CCG.solveCb P (ccgOptions bisect kw _ q)).map (CCG.scaledRun (Equiv.refl _) 1 c) := by
    rcases hok with hb | hno
    · exact CCG.solve_similar one_pos hc hD hsim (hopt bisect hb) (.inl rfl)
    · rw [← CCG.solve_bisect (o := ccgOptions bisect (strongerKw c kw) _ (strongerCall c q)) (b := b')]
      · refine CCG.solve_similar one_pos hc hD hsim (hopt b' fun f a b => ?_) (.inl rfl)
        simp only [b']
        congr 1
        funext x
        rw [mul_div_cancel_left₀ _ hc.ne']
      · rcases hno with h | h
        · left
          simp only [ccgOptions, strongerCall, h]
          rfl
        · right
          show (strongerCall c q).externalForce = none
          simp [strongerCall, h]
  have hsol : CCG.solve P' (ccgOptions bisect (strongerKw c kw) _ (strongerCall c q)) =
      (CCG.solve P (ccgOptions bisect kw _ q)).map (CCG.Result.scaled (Equiv.refl _) 1 c) := by
    unfold CCG.solve
    rw [hmain]
    cases CCG.solveCb P (ccgOptions bisect kw _ q) <;> rfl
  unfold ccgSolver
  rw [M.grid.dom, M.grid.topo, M.grid'.dom, M.grid'.topo]
  dsimp only
  rw [show (strongerCall c q).heights = q.heights from rfl, ← hP, ← hP', hsol]
  cases CCG.solve P (ccgOptions bisect kw _ q) with
  | error x => exact .inl ⟨x, rfl, rfl⟩
  | ok r =>
    refine .inr ⟨_, _, rfl, rfl, rfl, ?_, ?_, rfl, ?_, ?_, rfl⟩
    · show 1 * r.offset = r.offset
      rw [one_mul]
    · show fieldArray d0 d1 _ = fieldArray d0 d1 _
      congr 1
      funext i
      exact one_mul _
    · intro x
      show (fieldArray d0 d1 _).get x = c * (fieldArray d0 d1 _).get x
      unfold fieldArray
      dsimp only
      split
      · split_ifs
        · rfl
        · exact (mul_zero c).symm
      · exact (mul_zero c).symm
    · show (⟨_, _⟩ : NdArray Bool) = ⟨_, _⟩
      congr 3
      show (r.plastic.map fun p i => p i).getD (fun _ => false) = _
      cases r.plastic <;> rfl
end

/-- **C168** Contact with a substrate `c` times as stiff, periodic case: multiply load, hardness and force tolerance by `c` and keep all
lengths; the solver then raises the same exception, or it returns the same displacements, offset, active set and flags with forces
multiplied by `c`.  (SciPy's bisection, used for plastic calculations under load control only, is assumed to find the same root for
`c` times a function.) -/
theorem C168_stiffer_contact {kw : OptimizerKwargs} (hc : 0 < c) {a b : Args} {s s' : HalfSpace} (hva : ValidArgs a) (hvb : ValidArgs b) (h : StifferBy c a b)
    (ha : construct a = .ok s) (hb : construct b = .ok s') (hg : a.nbGridPts = [nx, ny]) (rms : NdArray ℝ → ℝ) (bisect : Bisect) (q : Call)
    (hok : (∀ f a b, bisect (fun x => c * f x) a b = bisect f a b) ∨ q.hardness = none ∨ q.externalForce = none) :
    (∃ e, ccgSolver ⟨s, false, false⟩ rms bisect kw q = .error e ∧
      ccgSolver ⟨s', false, false⟩ rms bisect (strongerKw c kw) (strongerCall c q) = .error e) ∨
    (∃ r r', ccgSolver ⟨s, false, false⟩ rms bisect kw q = .ok r ∧
      ccgSolver ⟨s', false, false⟩ rms bisect (strongerKw c kw) (strongerCall c q) = .ok r' ∧ StrongerResult c r r') := by
  have g := grid_of_per hva ha hg
  have g' := grid_of_per hvb hb (h.grid.trans hg)
  obtain ⟨_, _, P⟩ := per_of_construct hva ha hg
  obtain ⟨_, _, P'⟩ := per_of_construct hvb hb (h.grid.trans hg)
  obtain ⟨h1, h2⟩ := periodic_stiffer P P' h
  exact (stiffer_of_rep hc g g' P.rep P'.rep (fun _ _ => rfl) (fun _ _ => rfl) h1 h2).agree hc rms bisect q hok

/-- **C168** The same for a nonperiodic substrate. -/
theorem C168_stiffer_contact_nonperiodic {kw : OptimizerKwargs} (hc : 0 < c) {a b : FreeArgs} {s s' : HalfSpace} (hva : ValidFree a) (hvb : ValidFree b)
    (hgr : b.nbGridPts = a.nbGridPts) (hsz : b.physicalSizes = a.physicalSizes) (hE : b.young = c * a.young)
    (ha : constructFree a = .ok s) (hb : constructFree b = .ok s') (hg : a.nbGridPts = [nx, ny]) (rms : NdArray ℝ → ℝ) (bisect : Bisect) (q : Call)
    (hok : (∀ f a b, bisect (fun x => c * f x) a b = bisect f a b) ∨ q.hardness = none ∨ q.externalForce = none) :
    (∃ e, ccgSolver ⟨s, true, false⟩ rms bisect kw q = .error e ∧
      ccgSolver ⟨s', true, false⟩ rms bisect (strongerKw c kw) (strongerCall c q) = .error e) ∨
    (∃ r r', ccgSolver ⟨s, true, false⟩ rms bisect kw q = .ok r ∧
      ccgSolver ⟨s', true, false⟩ rms bisect (strongerKw c kw) (strongerCall c q) = .ok r' ∧ StrongerResult c r r') := by
  have g := grid_of_free hva ha hg
  have g' := grid_of_free hvb hb (hgr.trans hg)
  obtain ⟨_, _, P⟩ := free_of_construct hva ha hg
  obtain ⟨_, _, P'⟩ := free_of_construct hvb hb (hgr.trans hg)
  obtain ⟨h1, h2⟩ := free_stiffer P P' hsz hE
  exact (stiffer_of_rep hc g g' P.rep P'.rep (fun f hf => free_full P f hf) (fun f hf => free_full P' f hf) h1 h2).agree hc rms bisect q hok

/-! ## Concrete cases -/

/-- Twice as stiff as `demoArgs`, by another pair of Young's modulus and Poisson number. -/
noncomputable def demoStiff : Args := ⟨[3, 4], 3 / 2, [1, 2], none, none, 1 / 2, none⟩

/-- Hypotheses of C163 and C168, half-space. -/
example : (∃ s, construct demoArgs = .ok s) ∧ (∃ s, construct demoStiff = .ok s) ∧ ValidArgs demoArgs ∧ ValidArgs demoStiff ∧
    StifferBy 2 demoArgs demoStiff := by
  refine ⟨demo_ok, ?_, demo_valid, ?_, rfl, rfl, .inl ⟨rfl, rfl, ?_, rfl⟩⟩
  · rw [C13_construct_ok_iff]; simp [demoStiff]; norm_num
  · constructor <;> norm_num [demoStiff] <;> simp
  · norm_num [demoStiff, demoArgs, contactModulus]

/-- Hypotheses of C163 and C168, layer. -/
example : (∃ s, construct demoArgsH = .ok s) ∧ (∃ s, construct { demoArgsH with young := 3 } = .ok s) ∧ ValidArgs demoArgsH ∧
    ValidArgs { demoArgsH with young := 3 } ∧ StifferBy 3 demoArgsH { demoArgsH with young := 3 } := by
  refine ⟨demoH_ok, ?_, demoH_valid, ?_, rfl, rfl, .inr ⟨1 / 2, rfl, rfl, rfl, ?_⟩⟩
  · rw [C13_construct_ok_iff]; simp [demoArgsH]; norm_num
  · constructor <;> norm_num [demoArgsH]
  · norm_num [demoArgsH]

/-- Hypotheses of the nonperiodic versions. -/
example : (∃ s, constructFree { demoFree with young := 5 } = .ok s) ∧ ValidFree { demoFree with young := 5 } ∧
    ({ demoFree with young := 5 } : FreeArgs).young = 5 * demoFree.young := by
  refine ⟨?_, by constructor <;> simp [demoFree], by norm_num [demoFree]⟩
  have := initAttrs_ok (a := ({ demoFree with young := 5 } : FreeArgs).base) (dom := [4, 6]) |>.mpr
    ⟨by simp [demoFree, FreeArgs.base], .inl rfl, by simp [demoFree, FreeArgs.base],
      by simp [demoFree, FreeArgs.base], by simp [demoFree, FreeArgs.base], by simp [demoFree, FreeArgs.base], rfl⟩
  unfold constructFree
  dsimp only
  rw [show demoFree.nbGridPts.map (2 * ·) = [4, 6] from rfl, this]
  exact ⟨_, rfl⟩

end CM.Pipe
