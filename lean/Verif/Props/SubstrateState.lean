import Verif.Model.SubstrateState
import Verif.Props.HalfSpace2
import Verif.Props.Free2
/-!
# C223 What a half-space remembers of its calculations
-/
namespace CM.SubState
open CM.HS CM.System CM.Spec CM.FFT

variable {s : HalfSpace}

/-- A calculation in real space that is refused. -/
def Refused (s : HalfSpace) (c : Call) : Prop :=
  ∃ u pot forces e, c = .compute u pot forces ∧ HS.evaluate s u pot forces = .error e

/-- A calculation in Fourier space. -/
def InFourierSpace (c : Call) : Prop := ∃ uk pot forces, c = .computeK uk pot forces

/-- A calculation in real space. -/
def InRealSpace (c : Call) : Prop := ∃ u pot forces, c = .compute u pot forces

lemma run_append (m : Mem) (l l' : List Call) : run s m (l ++ l') = run s (run s m l) l' := by
  induction l generalizing m with
  | nil => rfl
  | cons c l ih => exact ih _

lemma run_refused (m : Mem) (l : List Call) (h : ∀ c ∈ l, Refused s c) : run s m l = m := by
  induction l generalizing m with
  | nil => rfl
  | cons c l ih =>
    obtain ⟨u, p, f, e, rfl, he⟩ := h c (by simp)
    simp only [run, step, he]
    exact ih m fun c hc => h c (by simp [hc])

lemma run_force (m : Mem) (l : List Call) (h : ∀ c ∈ l, Refused s c ∨ InFourierSpace c) : (run s m l).force = m.force := by
  induction l generalizing m with
  | nil => rfl
  | cons c l ih =>
    have ih' := fun m => ih m fun c hc => h c (by simp [hc])
    rcases h c (by simp) with ⟨u, p, f, e, rfl, he⟩ | ⟨u, p, f, rfl⟩
    · simp only [run, step, he]; exact ih' m
    · simp only [run, step]; rw [ih']

lemma run_forceK (m : Mem) (l : List Call) (h : ∀ c ∈ l, InRealSpace c) : (run s m l).forceK = m.forceK := by
  induction l generalizing m with
  | nil => rfl
  | cons c l ih =>
    have ih' := fun m => ih m fun c hc => h c (by simp [hc])
    obtain ⟨u, p, f, rfl⟩ := h c (by simp)
    simp only [run, step]
    rw [ih']
    split <;> rfl

/-- **C223** Whatever was calculated before, after a successful `compute` the substrate holds the energy and the
forces `evaluate` returns for these displacements, the energy iff it was asked for and the forces iff they were;
the forces stay until the next successful `compute`, the energy until the next successful calculation of
either kind. -/
theorem C223_compute (m : Mem) (before fourier refused : List Call) (u : NdArray ℝ) (pot forces : Bool)
    {e : Option ℝ} {f : Option (NdArray ℝ)} (h : HS.evaluate s u pot forces = .ok (e, f))
    (hf : ∀ c ∈ fourier, Refused s c ∨ InFourierSpace c) (hr : ∀ c ∈ refused, Refused s c) :
    e.isSome = pot ∧ f.isSome = forces ∧
    (run s m (before ++ .compute u pot forces :: fourier)).force = f ∧
    (run s m (before ++ .compute u pot forces :: refused)).energy = e := by
  have hflag : e.isSome = pot ∧ f.isSome = forces := by
    unfold HS.evaluate at h
    cases forces <;> cases pot <;> simp only [if_true, if_false, Bool.false_eq_true] at h
    · cases h; simp
    · split at h
      · cases h; simp
      · cases h
    · cases hv : evaluateForce s u with
      | error => simp [hv, bind, Except.bind] at h
      | ok v => simp [hv, bind, Except.bind, pure, Except.pure] at h; rw [← h.1, ← h.2]; simp
    · cases hv : evaluateForce s u with
      | error => simp [hv, bind, Except.bind] at h
      | ok v => simp [hv, bind, Except.bind, pure, Except.pure] at h; rw [← h.1, ← h.2]; simp
  refine ⟨hflag.1, hflag.2, ?_, ?_⟩
  · rw [run_append, run, run_force _ _ hf]
    simp only [step, h]
  · rw [run_append, run, run_refused _ _ hr]
    simp only [step, h]

/-- **C223** Likewise for calculations in Fourier space: energy until the next successful calculation, forces in
Fourier space until the next one of the same kind. -/
theorem C223_compute_k (m : Mem) (before real refused : List Call) (uk : List ℕ → ℂ) (pot forces : Bool)
    (hf : ∀ c ∈ real, InRealSpace c) (hr : ∀ c ∈ refused, Refused s c) :
    (run s m (before ++ .computeK uk pot forces :: real)).forceK = (HS.evaluateK s uk pot forces).2 ∧
    (run s m (before ++ .computeK uk pot forces :: refused)).energy = (HS.evaluateK s uk pot forces).1 ∧
    (HS.evaluateK s uk pot forces).1.isSome = pot ∧
    (forces = true → (HS.evaluateK s uk pot forces).2 = some fun k => -(s.stiffness k) * uk k * s.areaPerPt) := by
  refine ⟨?_, ?_, ?_, ?_⟩
  · rw [run_append, run, run_forceK _ _ hf]; rfl
  · rw [run_append, run, run_refused _ _ hr]; rfl
  · cases forces <;> cases pot <;> rfl
  · rintro rfl; cases pot <;> rfl

/-- **C223 (refuted)** The flags do not mean the same in Fourier space: asked for the energy alone, `compute_k`
also stores the forces, where `compute` stores none. -/
theorem C223_flags_partial (m : Mem) (uk : List ℕ → ℂ) (u : NdArray ℝ) {e : Option ℝ} {f : Option (NdArray ℝ)}
    (h : HS.evaluate s u true false = .ok (e, f)) :
    (run s m [.computeK uk true false]).forceK ≠ none ∧ (run s m [.compute u true false]).force = none := by
  refine ⟨by simp [run, step, HS.evaluateK], ?_⟩
  have := (C223_compute m [] [] [] u true false h (by simp) (by simp)).2
  have h2 := this.2.1
  rw [List.nil_append] at h2
  rw [h2]
  simpa using this.1

/-- **C223** The free half-space's `check()` judges the forces of the last successful `compute` that had them
calculated, by the rule for the boundary: it succeeds iff all forces on the outermost ring of the topography's
grid vanish, otherwise it raises `FreeBoundaryError`. -/
theorem C223_check {sub : Substrate} (hfree : sub.free = true) (hflag : sub.checkFlag = true) {gx gy : ℕ}
    (hg : sub.hs.nbGridPts = [gx, gy]) (hgx : 0 < gx) (hgy : 0 < gy) (m : Mem) (before fourier : List Call)
    (u : NdArray ℝ) (pot : Bool) {f : NdArray ℝ} (h : evaluateForce sub.hs u = .ok f)
    (hf : ∀ c ∈ fourier, Refused sub.hs c ∨ InFourierSpace c) :
    let m' := run sub.hs m (before ++ .compute u pot true :: fourier)
    (check sub m' = .ok () ↔ ∀ i j, onRing gx gy i j → f.get [i, j] = 0) ∧
    (check sub m' = .error .freeBoundaryError ↔ ∃ i j, onRing gx gy i j ∧ f.get [i, j] ≠ 0) := by
  intro m'
  have hev : ∃ e, HS.evaluate sub.hs u pot true = .ok (e, some f) := by
    unfold HS.evaluate
    simp only [if_true, h]
    cases pot <;> exact ⟨_, rfl⟩
  obtain ⟨e, hev⟩ := hev
  have hm : m'.force = some f := (C223_compute m before fourier [] u pot true hev hf (by simp)).2.2.1
  have key : check sub m' = checkBoundaries gx gy 0
        [⟨0, 2 * gx, 0, 2 * gy, fun i j => f.get [i, j], fun _ _ => false⟩] := by
    unfold check
    rw [hm]
    dsimp only
    unfold Substrate.check
    rw [if_pos ⟨hfree, hflag⟩, hg]
  have C := C23_serial (gx := gx) (gy := gy) (fun i j => f.get [i, j]) (fun _ _ => false) 0 hgx hgy
  rw [key]
  simpa [tolerable] using C

/-- **C223 (refuted)** If the last successful `compute` was not asked for forces, `check()` gives no verdict but
raises `TypeError`, whatever was calculated before and in Fourier space since. -/
theorem C223_check_partial {sub : Substrate} (hfree : sub.free = true) (hflag : sub.checkFlag = true) {gx gy : ℕ}
    (hg : sub.hs.nbGridPts = [gx, gy]) (m : Mem) (before fourier : List Call)
    (u : NdArray ℝ) (pot : Bool) (hok : pot = true → bcastOk u.shape sub.hs.domain)
    (hf : ∀ c ∈ fourier, Refused sub.hs c ∨ InFourierSpace c) :
    check sub (run sub.hs m (before ++ .compute u pot false :: fourier)) = .error .typeError := by
  have hev : ∃ e, HS.evaluate sub.hs u pot false = .ok (e, none) := by
    unfold HS.evaluate
    cases pot
    · exact ⟨_, rfl⟩
    · simp only [Bool.false_eq_true, if_false, if_true]
      rw [if_pos (hok rfl)]
      exact ⟨_, rfl⟩
  obtain ⟨e, hev⟩ := hev
  have hm := (C223_compute m before fourier [] u pot false hev hf (by simp)).2.2.1
  unfold check
  rw [hm]
  simp [hfree, hflag, hg]

lemma asGrid_zero (l : List ℕ) : asGrid l (fun _ => 0) = fun _ _ => 0 := by
  unfold asGrid
  split <;> rfl

lemma energy_zero (s : HalfSpace) : evaluateElasticEnergyK s (evaluateKForceK s fun _ => 0) (fun _ => 0) = 0 := by
  unfold evaluateElasticEnergyK
  rw [asGrid_zero]
  simp [scalarProduct, scalarProductLocal, rowDot]

/-- **C223 (refuted)** Stored energy and stored forces need not belong to the same displacements: on every periodic
half-space whose stiffness of the uniform field is not zero there are displacements with forces that do not vanish,
and after a `compute` with these and a `compute_k` with no displacement at all, the substrate holds energy zero and
the forces of the former. -/
theorem C223_together_partial {a : Args} {nx ny : ℕ} (hv : ValidArgs a) (hs : construct a = .ok s)
    (hg : a.nbGridPts = [nx, ny]) (hγ : gammaStiffness a ≠ 0) (hx : 0 < nx) (hy : 0 < ny) (m : Mem) :
    ∃ (u f : NdArray ℝ), let m' := run s m [.compute u true true, .computeK (fun _ => 0) true true]
      m'.energy = some 0 ∧ m'.force = some f ∧ ∃ i j, i < nx ∧ j < ny ∧ f.get [i, j] ≠ 0 := by
  obtain ⟨u, f, h1, h2, h3⟩ := C02_force_disp_inverse hv hs hg hγ ⟨[nx, ny], fun _ => 1⟩ rfl
  refine ⟨u, f, ?_, ?_, 0, 0, hx, hy, ?_⟩
  · simp only [run, step, HS.evaluateK, if_true, Option.some.injEq]
    exact energy_zero s
  · simp only [run, step, HS.evaluate, if_true, h2]
    rfl
  · rw [h3 0 0 hx hy]; simp

/-- The hypotheses are met: a periodic half-space of 3 × 4 points. -/
example : ∃ s, construct demoArgs = .ok s ∧ ∀ m : Mem, ∃ (u f : NdArray ℝ),
    let m' := run s m [.compute u true true, .computeK (fun _ => 0) true true]
    m'.energy = some 0 ∧ m'.force = some f ∧ ∃ i j, i < 3 ∧ j < 4 ∧ f.get [i, j] ≠ 0 := by
  obtain ⟨s, hs⟩ := demo_ok
  refine ⟨s, hs, fun m => C223_together_partial demo_valid hs rfl ?_ (by norm_num) (by norm_num) m⟩
  have := Real.pi_pos
  have : 0 < gammaStiffness demoArgs := by
    simp only [gammaStiffness, demoArgs, contactModulus, size]
    norm_num; positivity
  exact this.ne'

/-- The hypotheses are met: on a free half-space of 2 × 3 points some displacements give a verdict, and the
energy alone none. -/
example : ∃ (s : HalfSpace) (u f : NdArray ℝ), constructFree demoFree = .ok s ∧ evaluateForce s u = .ok f ∧
    s.nbGridPts = [2, 3] ∧
    (check ⟨s, true, true⟩ (run s init [.compute u true true]) = .ok () ↔ ∀ i j, onRing 2 3 i j → f.get [i, j] = 0) ∧
    check ⟨s, true, true⟩ (run s init [.compute u false true, .compute u false false]) = .error .typeError := by
  obtain ⟨s, hs⟩ := demoFree_ok
  have hv := demoFree_valid
  obtain ⟨u, f, u', -, h2, -⟩ := C27_free_generalised_inverse hv hs (nx := 2) (ny := 3) rfl ⟨[4, 6], fun _ => 1⟩ rfl
  obtain ⟨_, _, P⟩ := free_of_construct hv hs (nx := 2) (ny := 3) rfl
  refine ⟨s, u, f, hs, h2, P.grid, ?_, ?_⟩
  · exact (C223_check (sub := ⟨s, true, true⟩) rfl rfl P.grid (by norm_num) (by norm_num) init [] [] u true h2
      (by simp)).1
  · exact C223_check_partial (sub := ⟨s, true, true⟩) rfl rfl P.grid init [.compute u false true] [] u false (by simp)
      (by simp)

end CM.SubState
