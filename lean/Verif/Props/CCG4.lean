import Verif.Props.CCG3
import Verif.Lemmas.CG
/-!
# C108 exact solutions are fixed points, C109 finite termination on a fixed contact set
-/
set_option linter.unusedSectionVars false
set_option linter.unusedSimpArgs false
namespace CM.CCG
open Finset CM.Spec

variable {ι K : Type} [Fintype ι] [Field K] [LinearOrder K] [IsStrictOrderedRing K]
variable {P : Problem ι K} {o : Options ι K} {r : Result ι K}

/-- Forces `f` and displacements `u` solve the hard-wall contact problem at offset `off`: equilibrium, no
penetration, no tension, no force off the topography, and force only where the gap is closed. -/
structure Solves (P : Problem ι K) (off : K) (f u : ι → K) : Prop where
  response : P.disp f = u
  feasible : ∀ i, P.comp i = true → P.h i + off ≤ u i
  compressive : ∀ i, f i ≤ 0
  off_zero : ∀ i, P.comp i = false → f i = 0
  closed : ∀ i, P.comp i = true → f i ≠ 0 → u i = P.h i + off

lemma sumOver_const_zero {p : ι → Bool} {a : ι → K} (h : ∀ i, p i = true → a i = 0) : sumOver p a = 0 := by
  unfold sumOver; apply Finset.sum_eq_zero; intro i _
  split_ifs with hi
  · exact h i hi
  · rfl

/-- An iteration that starts at a solution. -/
theorem solution_step {pentol off : K} {s : State ι K} (hsol : Solves P off s.f s.u)
    (hH : o.hardness = .none) (hp : 0 < pentol) (hft : 0 < o.forcetol) (hth : 0 < o.thermotol)
    (hlast : s.lastTotalForce = none) (hlastH : s.lastMaxHeight = none) (ht : ∀ i, s.t i = 0)
    (hoff : cgOffset P o s = off)
    (hF : ∀ F, o.externalForce = some F → F ≠ 0 ∧ -(sumOver P.comp s.f) = F) :
    ∃ w, CCG.step P o pentol s = .ok w ∧ w.converged = true ∧ w.next.f = s.f ∧
      w.next.u = s.u ∧ w.next.offset = off := by
  have hd : doCG o s = true := by simp [doCG, hH, Hardness.isSome]
  have hcf : ∀ i, cgSet o s i = true ↔ s.f i < 0 := by
    intro i; simp [cgSet, hH, Hardness.isSome]
  have hcomp : ∀ i, cgSet o s i = true → P.comp i = true := by
    intro i hi
    by_contra hc
    have := hsol.off_zero i (by simpa using hc)
    rw [hcf] at hi; linarith
  set m := cgBranch P o s with hm
  have hg : ∀ i, cgSet o s i = true → m.g i = 0 := by
    intro i hi
    have h1 := hsol.closed i (hcomp i hi) ((hcf i).mp hi).ne
    change s.u i - P.h i - cgOffset P o s = 0
    rw [hoff, h1]; ring
  have hgn : ∀ i, P.comp i = true → 0 ≤ m.g i := by
    intro i hi
    have := hsol.feasible i hi
    change 0 ≤ s.u i - P.h i - cgOffset P o s
    rw [hoff]; linarith
  have hG0 : sumOver (fun i => cgSet o s i && P.comp i) (fun i => m.g i * m.g i) = 0 := by
    apply sumOver_const_zero
    intro i hi
    simp only [Bool.and_eq_true] at hi
    rw [hg i hi.1]; ring
  have hmt : ∀ i, m.t i = 0 := by
    intro i
    change cgDir P s (cgSet o s) m.g _ i = 0
    unfold cgDir
    have := ht i
    split_ifs with h1 h2 h3 h4
    · rw [hg i h3, this]; ring
    · rfl
    · exact hg i h4
    · rfl
    · exact this
  have htau : m.tau = 0 := by
    change (if 0 < count (cgSet o s) ∧ 0 < -(sumOver (cgSet o s) fun i => P.disp m.t i * m.t i) then _ else (0 : K)) = 0
    rw [if_neg]
    rw [sumOver_const_zero (fun i _ => by rw [hmt i, mul_zero])]
    simp
  have hmf : m.f = s.f := by
    funext i
    change (if cgSet o s i then s.f i + m.tau * m.t i else s.f i) = _
    rw [htau]; simp
  have hmG : m.G = 0 := by
    change (if _ then (0 : K) else sumOver (fun i => cgSet o s i && P.comp i) (fun i => m.g i * m.g i)) = 0
    rw [hG0]; simp
  have hnc : ∀ i, newContact P o m i = false := by
    intro i
    unfold newContact flowing
    simp only [hH, Hardness.isSome, Bool.false_and, Bool.or_false]
    cases hc : P.comp i
    · rfl
    · simp [hgn i hc]
  have hclip : clip m = s.f := by
    funext i
    unfold clip tensile
    rw [hmf]
    split_ifs with h
    · have := hsol.compressive i
      simp only [decide_eq_true_eq] at h
      linarith
    · rfl
  have hsf : stepForce P o m = s.f := by
    funext i
    unfold stepForce addContact truncate
    rw [hclip]
    simp only [hnc i, flowing, hH, Hardness.isSome, Bool.false_and, Bool.false_eq_true, and_false, if_false]
    unfold rescale
    cases hE : o.externalForce with
    | none => rfl
    | some F =>
      obtain ⟨h1, h2⟩ := hF F hE
      simp only [h2]
      rw [if_pos h1, div_self h1, mul_one]
  have htr : o.hardness.truth = .ok false := by simp [hH, Hardness.truth]
  refine ⟨finish P o pentol s m false, ?_, ?_, hsf, ?_, hoff⟩
  · unfold CCG.step branch; rw [hd]; simp only [if_true, htr]; rfl
  · have hmp : maxPres o m false = 0 := by
      unfold maxPres
      simp only [Bool.false_eq_true, false_and, if_false]
      split_ifs
      · apply maxOver_eq_zero
        intro i hi
        simp only [tensile, decide_eq_true_eq, hmf] at hi
        rw [hmf]; exact le_antisymm (hsol.compressive i) hi
      · rfl
    have hpad : (if 0 < count (fun i => !P.comp i) then
        maxOver (fun i => !P.comp i) (fun i => pabs (m.f i)) else 0) = 0 := by
      split_ifs
      · apply maxOver_eq_zero; intro i hi
        rw [hmf, hsol.off_zero i (by simpa using hi)]; simp [pabs]
      · rfl
    have hpen : maxPen P m (P.disp (stepForce P o m)) = 0 := by
      unfold maxPen
      rw [hsf, hsol.response, maxOver_eq_zero]
      · simp
      · intro i hi
        change (if cgSet o s i then P.h i + cgOffset P o s - s.u i else 0) = 0
        split_ifs with hc
        · rw [hoff, hsol.closed i hi ((hcf i).mp hc).ne]; ring
        · rfl
    have hdu : maxOver (fun _ => true) (fun i => pabs (P.disp (stepForce P o m) i - s.u i)) = 0 := by
      apply maxOver_eq_zero; intro i _; rw [hsf, hsol.response]; simp [pabs]
    have h1 : convForce o s (-(sumOver P.comp (stepForce P o m))) = true := by
      unfold convForce
      rw [hlast, hsf]
      cases hE : o.externalForce with
      | none => rfl
      | some F =>
        obtain ⟨h1, h2⟩ := hF F hE
        simp only
        rw [h2, relLt_iff]
        refine ⟨h1, ?_⟩
        rw [sub_self, abs_zero]
        have := abs_pos.mpr h1
        positivity
    have h2 : ∀ x, convHeight o s x = true := by
      intro x; unfold convHeight; rw [hlastH]; cases o.externalForce <;> rfl
    have hst : stepStatus P o m = .cg := by
      unfold stepStatus
      have : m.status ≠ .mix := by
        change (if s.status = .mix then Status.sd else s.status) ≠ .mix
        split_ifs with h
        · simp
        · exact h
      rw [if_neg this, if_neg (count_eq_zero.mpr hnc)]
    simp only [finish, hpad, hmp, hpen, hdu, hmG, h1, h2, hst]
    have : sqrtLt (if 0 < count (cgSet o s) then (0 : K) / (count (cgSet o s) : K) else 0) pentol = true := by
      simp [sqrtLt, hp]
    rw [this]
    simp [hp, hft]
  · change P.disp (stepForce P o m) = s.u
    rw [hsf, hsol.response]

/-- **C108** Restarting the elastic solver at fixed offset from the displacements of an exact solution
returns that solution after one iteration. -/
theorem C108_restart_from_displacements {pentol off : K} {f u : ι → K} (hsol : Solves P off f u)
    (hforce : P.force u = f)
    (hsl : ∀ i, P.comp i = true → P.slice i = true)
    (hH : o.hardness = .none) (hF : o.externalForce = none) (hoff : o.offset = some off)
    (hi : o.initialForces = none) (hu : o.initialDisplacements = some u)
    (hp : pentolOf P o = .ok pentol) (hp0 : 0 < pentol) (hft : 0 < o.forcetol) (hth : 0 < o.thermotol)
    (hmax : 1 ≤ o.maxiter) :
    ∃ r, solve P o = .ok r ∧ r.success = true ∧ r.nit = 1 ∧ r.x = u ∧ r.jac = (fun i => -(f i)) ∧ r.offset = off := by
  have hU : initU P o = u := by
    funext i
    simp only [initU, hu, hoff, Option.getD_some]
    split_ifs with h1 h2
    · exact absurd h2 (not_lt.mpr (hsol.feasible i h1))
    · rfl
    · rfl
  have hf : (initState P o).f = f := by
    funext i
    simp only [initState, hi, hU, hforce]
    split_ifs with h1
    · rfl
    · exact (hsol.off_zero i (by simpa using h1)).symm
  have hu' : (initState P o).u = u := by simp only [initState, hi, hU]
  obtain ⟨w, hw, hc, h1, h2, h3⟩ := solution_step (P := P) (o := o) (s := initState P o) (off := off)
    (by rw [hf, hu']; exact hsol) hH hp0 hft hth rfl rfl (fun _ => rfl)
    (by simp [cgOffset, hF, initState, hoff]) (by intro F h; rw [hF] at h; cases h)
  refine ⟨_, solve_first_step hp hmax hw hc, rfl, rfl, h2.trans hu', ?_, h3⟩
  funext i
  simp only [mkResult, h1, hf]
  split_ifs with hs
  · rfl
  · rw [hsol.off_zero i]
    · simp
    · by_contra hcc
      exact hs (hsl i (by simpa using hcc))

/-- **C108** Restarting from the forces of an exact solution, at the load it carries, returns it with its
offset, whatever offset was passed. -/
theorem C108_restart_from_forces_load {pentol off F : K} {f u : ι → K} (hsol : Solves P off f u)
    (hsl : ∀ i, P.comp i = true → P.slice i = true)
    (hH : o.hardness = .none) (hF : o.externalForce = some F) (hF0 : F ≠ 0) (hload : ∑ i, -(f i) = F)
    (hi : o.initialForces = some f)
    (hp : pentolOf P o = .ok pentol) (hp0 : 0 < pentol) (hft : 0 < o.forcetol) (hth : 0 < o.thermotol)
    (hmax : 1 ≤ o.maxiter) :
    ∃ r, solve P o = .ok r ∧ r.success = true ∧ r.nit = 1 ∧ r.x = u ∧ r.jac = (fun i => -(f i)) ∧ r.offset = off := by
  have hf : (initState P o).f = f := by
    funext i
    simp only [initState, hi]
    split_ifs with h1
    · rfl
    · exact (hsol.off_zero i (by simpa using h1)).symm
  have hu' : (initState P o).u = u := by simp only [initState, hi, hsol.response]
  have hsum : -(sumOver P.comp f) = F := by
    rw [sumOver_eq_sum_of_support hsol.off_zero, ← hload, Finset.sum_neg_distrib]
  have hcs : ∀ i, cgSet o (initState P o) i = true ↔ f i < 0 := by
    intro i; simp [cgSet, hH, Hardness.isSome, hf]
  have hcp : ∀ i, cgSet o (initState P o) i = true → P.comp i = true := by
    intro i h
    by_contra hc
    have := hsol.off_zero i (by simpa using hc)
    rw [hcs] at h; linarith
  have hpos : 0 < count (cgSet o (initState P o)) := by
    by_contra hc
    have := count_eq_zero.mp hc
    apply hF0
    rw [← hload]
    apply Finset.sum_eq_zero
    intro i _
    have h1 : ¬ f i < 0 := fun h => by have := (hcs i).mpr h; simp_all
    have h2 := hsol.compressive i
    have : f i = 0 := le_antisymm h2 (not_lt.mp h1)
    rw [this, neg_zero]
  have hoffs : cgOffset P o (initState P o) = off := by
    unfold cgOffset
    rw [hF]
    simp only
    rw [if_pos hpos]
    have e : sumOver (fun i => cgSet o (initState P o) i && P.comp i) (fun i => (initState P o).u i - P.h i)
        = (count (cgSet o (initState P o)) : K) * off := by
      unfold sumOver count
      rw [← Finset.sum_filter, ← nsmul_eq_mul, ← Finset.sum_const]
      refine Finset.sum_congr ?_ ?_
      · ext i
        simp only [Finset.mem_filter, Finset.mem_univ, true_and, Bool.and_eq_true]
        exact ⟨fun h => h.1, fun h => ⟨h, hcp i h⟩⟩
      · intro i hi
        have hi' : cgSet o (initState P o) i = true := (Finset.mem_filter.mp hi).2
        rw [hu', hsol.closed i (hcp i hi') ((hcs i).mp hi').ne]; ring
    rw [e]
    have : (count (cgSet o (initState P o)) : K) ≠ 0 := by exact_mod_cast hpos.ne'
    field_simp
  obtain ⟨w, hw, hc, h1, h2, h3⟩ := solution_step (P := P) (o := o) (s := initState P o) (off := off)
    (by rw [hf, hu']; exact hsol) hH hp0 hft hth rfl rfl (fun _ => rfl) hoffs
    (by intro F' h; rw [hF] at h; cases h; exact ⟨hF0, by rw [hf]; exact hsum⟩)
  refine ⟨_, solve_first_step hp hmax hw hc, rfl, rfl, h2.trans hu', ?_, h3⟩
  funext i
  simp only [mkResult, h1, hf]
  split_ifs with hs
  · rfl
  · rw [hsol.off_zero i]
    · simp
    · by_contra hcc
      exact hs (hsl i (by simpa using hcc))

lemma demo_solves : Solves (demo ![5, 8, 0]) 1 ![-1, -2, 0] ![6, 9, 3] where
  response := by decide +kernel
  feasible := by decide +kernel
  compressive := by decide +kernel
  off_zero := by decide +kernel
  closed := by decide +kernel

example : ∃ r, solve (demo ![5, 8, 0]) { demoOpt with initialForces := none, initialDisplacements := some ![6, 9, 3] } = .ok r ∧
    r.success = true ∧ r.x = ![6, 9, 3] ∧ r.jac = (fun i => -(![-1, -2, 0] i : ℚ)) := by
  obtain ⟨r, h1, h2, _, h3, h4, _⟩ := C108_restart_from_displacements (P := demo ![5, 8, 0])
    (o := { demoOpt with initialForces := none, initialDisplacements := some ![6, 9, 3] }) (pentol := 1 / 1000)
    demo_solves (by decide +kernel) (by decide) rfl rfl rfl rfl rfl rfl (by norm_num) (by norm_num [demoOpt])
    (by norm_num [demoOpt]) (by decide)
  exact ⟨r, h1, h2, h3, h4⟩

example : ∃ r, solve (demo ![5, 8, 0]) { demoOpt with initialForces := some ![-1, -2, 0], externalForce := some 3, offset := none } = .ok r ∧
    r.success = true ∧ r.x = ![6, 9, 3] ∧ r.offset = 1 := by
  obtain ⟨r, h1, h2, _, h3, _, h4⟩ := C108_restart_from_forces_load (P := demo ![5, 8, 0])
    (o := { demoOpt with initialForces := some ![-1, -2, 0], externalForce := some 3, offset := none }) (pentol := 1 / 1000)
    demo_solves (by decide) rfl rfl (by norm_num) (by decide +kernel) rfl rfl (by norm_num) (by norm_num [demoOpt])
    (by norm_num [demoOpt]) (by decide)
  exact ⟨r, h1, h2, h3, h4⟩

/-! ## C109 -/

/-- `n` consecutive iterations from `s 0` to `s n`, none of which adds contact points. -/
def QuietSteps (P : Problem ι K) (o : Options ι K) (pentol : K) (n : ℕ) (s : ℕ → State ι K) : Prop :=
  ∀ k, k < n → ∃ w, CCG.step P o pentol (s k) = .ok w ∧ s (k + 1) = w.next ∧ w.next.status = .cg

lemma sumOver_and {c p : ι → Bool} (h : ∀ i, c i = true → p i = true) (a : ι → K) :
    sumOver (fun i => c i && p i) a = sumOver c a := by
  unfold sumOver
  refine Finset.sum_congr rfl fun i _ => ?_
  cases hc : c i
  · simp [hc]
  · simp [hc, h i hc]

lemma sumOver_eq_dot {c : ι → Bool} {a b : ι → K} (h : ∀ i, c i = false → b i = 0) :
    sumOver c (fun i => a i * b i) = dot a b := by
  unfold sumOver dot
  refine Finset.sum_congr rfl fun i _ => ?_
  cases hc : c i
  · simp [h i hc]
  · simp

/-- **C109** Finite termination: while the contact set stays what it is and no contact points are added, the
elastic solver at fixed offset closes the gap exactly on all contact points after at most as many
iterations as there are contact points, counted from an iteration that restarts the conjugate
directions (`delta = 0`). -/
theorem C109_finite_termination (hD : ElasticOn P.comp P.disp) (hH : o.hardness = .none)
    (hF : o.externalForce = none) {pentol : K} {k0 n : ℕ} {s : ℕ → State ι K}
    (hR : Reach P o pentol k0 (s 0)) (hu : (s 0).u = P.disp (s 0).f) (hneg : ∀ i, (s 0).f i ≤ 0)
    (hdelta : (s 0).delta = false) (hq : QuietSteps P o pentol n s)
    (hc : ∀ k, k ≤ n → contact (s k) = contact (s 0)) (hn : count (contact (s 0)) ≤ n) :
    ∃ k, k ≤ count (contact (s 0)) ∧ ∀ i, contact (s 0) i = true → (s k).u i = P.h i + o.offset.getD 0 := by
  have hH' : ∀ i, 0 ≤ o.hardness.at i := by intro i; rw [hH]; exact le_rfl
  set c := contact (s 0) with hcdef
  have hcg : ∀ s' : State ι K, cgSet o s' = contact s' := by
    intro s'; funext i; simp [cgSet, contact, hH, Hardness.isSome]
  -- invariants
  have hstep : ∀ k, k < n → ∃ m, m = cgBranch P o (s k) ∧ s (k + 1) = (finish P o pentol (s k) m false).next ∧
      stepStatus P o m = .cg := by
    intro k hk
    obtain ⟨w, hw, h1, h2⟩ := hq k hk
    obtain ⟨m, hard, hm, htr, rfl⟩ := step_mid hw
    have hhard : hard = false := by
      simp only [hH, Hardness.truth, Except.ok.injEq] at htr; exact htr.symm
    subst hhard
    rcases branch_cases hm with ⟨_, rfl⟩ | ⟨hd, _⟩
    · exact ⟨_, rfl, h1, h2⟩
    · simp [doCG, hH, Hardness.isSome] at hd
  have hoffz : ∀ k, k ≤ n → OffZero P (s k) := by
    intro k
    induction k with
    | zero => intro _; exact offZero_reach hH' hR
    | succ k ih =>
      intro hk
      obtain ⟨w, hw, h1, -⟩ := hq k (by omega)
      rw [h1]; exact offZero_step hH' (ih (by omega)) hw
  have hoff : ∀ k, k ≤ n → (s k).offset = o.offset.getD 0 := by
    intro k
    induction k with
    | zero => intro _; exact offset_reach hF hR
    | succ k ih =>
      intro hk
      obtain ⟨m, rfl, h1, -⟩ := hstep k (by omega)
      rw [h1]
      change cgOffset P o (s k) = _
      simp [cgOffset, hF, ih (by omega)]
  have hccomp : ∀ i, c i = true → P.comp i = true := by
    intro i hi
    by_contra hcc
    have := ((hoffz 0 (by omega)) i (by simpa using hcc)).1
    simp only [hcdef, contact, decide_eq_true_eq] at hi
    linarith
  -- residuals and directions
  let g : ℕ → ι → K := fun k i => (s k).u i - P.h i - o.offset.getD 0
  let t : ℕ → ι → K := fun k => (cgBranch P o (s k)).t
  let r : ℕ → ι → K := fun k => CG.res c (g k)
  have hbg : ∀ k, k ≤ n → (cgBranch P o (s k)).g = g k := by
    intro k hk
    funext i
    change (s k).u i - P.h i - cgOffset P o (s k) = _
    simp only [cgOffset, hF, hoff k hk]
    rfl
  have hbc : ∀ k, k ≤ n → cgSet o (s k) = c := fun k hk => by rw [hcg, hc k hk]
  have ht0 : ∀ k, k ≤ n → ∀ i, c i = false → t k i = 0 := by
    intro k hk i hi
    simp only [t, cgBranch, cgDir]
    cases hcc : P.comp i with
    | true => simp [hbc k hk, hi]
    | false => simpa using ((hoffz k hk) i hcc).2
  have hrr : ∀ k, k ≤ n → sumOver (fun i => cgSet o (s k) i && P.comp i)
      (fun i => (cgBranch P o (s k)).g i * (cgBranch P o (s k)).g i) = dot (r k) (r k) := by
    intro k hk
    rw [hbc k hk, sumOver_and hccomp, hbg k hk]
    unfold sumOver dot
    refine Finset.sum_congr rfl fun i _ => ?_
    simp only [r, CG.res]
    split_ifs <;> simp
  have hgt : ∀ k, k ≤ n → sumOver (fun i => cgSet o (s k) i && P.comp i)
      (fun i => (cgBranch P o (s k)).g i * (cgBranch P o (s k)).t i) = dot (r k) (t k) := by
    intro k hk
    rw [hbc k hk, sumOver_and hccomp, hbg k hk, sumOver_eq_dot (ht0 k hk)]
    exact (CG.dot_res (ht0 k hk)).symm
  have hxx : ∀ k, k ≤ n → sumOver (cgSet o (s k)) (fun i => P.disp (t k) i * t k i) = dot (P.disp (t k)) (t k) := by
    intro k hk
    rw [hbc k hk, sumOver_eq_dot (ht0 k hk)]
  have hcpos : ∀ k, k ≤ n → 0 < -dot (P.disp (t k)) (t k) → 0 < count (cgSet o (s k)) := by
    intro k hk hx
    by_contra hcc
    have h0 := count_eq_zero.mp hcc
    rw [hbc k hk] at h0
    have : dot (P.disp (t k)) (t k) = 0 := by
      unfold dot
      exact Finset.sum_eq_zero fun i _ => by rw [ht0 k hk i (h0 i), mul_zero]
    rw [this] at hx; simp at hx
  have htau : ∀ k, k ≤ n → 0 < -dot (P.disp (t k)) (t k) →
      (cgBranch P o (s k)).tau = dot (r k) (t k) / -dot (P.disp (t k)) (t k) := by
    intro k hk hx
    have h1 := hcpos k hk hx
    have h2 := hxx k hk
    have h3 := hgt k hk
    change (if 0 < count (cgSet o (s k)) ∧ 0 < -(sumOver (cgSet o (s k)) fun i => P.disp (t k) i * t k i) then
      sumOver (fun i => cgSet o (s k) i && P.comp i) (fun i => (cgBranch P o (s k)).g i * (cgBranch P o (s k)).t i) /
        -(sumOver (cgSet o (s k)) fun i => P.disp (t k) i * t k i) else 0) = _
    rw [h2, h3, if_pos ⟨h1, hx⟩]
  have hG : ∀ k, k ≤ n → 0 < -dot (P.disp (t k)) (t k) → (cgBranch P o (s k)).G = dot (r k) (r k) := by
    intro k hk hx
    change (if 0 < count (cgSet o (s k)) ∧ ¬ 0 < -(sumOver (cgSet o (s k)) fun i => P.disp (t k) i * t k i) then (0 : K)
      else sumOver (fun i => cgSet o (s k) i && P.comp i) (fun i => (cgBranch P o (s k)).g i * (cgBranch P o (s k)).g i)) = _
    rw [hxx k hk, hrr k hk, if_neg (by tauto)]
  have hfneg : ∀ k, k ≤ n → ∀ i, (s k).f i ≤ 0 := by
    intro k
    induction k with
    | zero => intro _; exact hneg
    | succ k ih =>
      intro hk i
      obtain ⟨m, rfl, h1, h2⟩ := hstep k (by omega)
      have hnc := status_cg_nc h2 i
      rw [h1]
      change stepForce P o (cgBranch P o (s k)) i ≤ 0
      unfold stepForce addContact truncate rescale
      simp only [hnc, flowing, hH, hF, Hardness.isSome, Bool.false_and, Bool.false_eq_true, and_false, if_false]
      exact clip_nonpos _ i
  have hf : ∀ k, k < n → ∀ i, (s (k + 1)).f i = (s k).f i + (cgBranch P o (s k)).tau * t k i := by
    intro k hk i
    obtain ⟨m, rfl, h1, h2⟩ := hstep k hk
    have hnc := status_cg_nc h2 i
    have e : (s (k + 1)).f i = clip (cgBranch P o (s k)) i := by
      rw [h1]
      change stepForce P o (cgBranch P o (s k)) i = _
      unfold stepForce addContact truncate rescale
      simp only [hnc, flowing, hH, hF, Hardness.isSome, Bool.false_and, Bool.false_eq_true, and_false, if_false]
    have hmf : (cgBranch P o (s k)).f i = if c i then (s k).f i + (cgBranch P o (s k)).tau * t k i else (s k).f i := by
      rw [← hbc k hk.le]; rfl
    have hck : contact (s (k + 1)) i = c i := by rw [hc (k + 1) hk]
    rw [e]
    cases hci : c i with
    | true =>
      rw [hci] at hck hmf
      simp only [contact, decide_eq_true_eq] at hck
      rw [e] at hck
      unfold clip at hck ⊢
      split_ifs at hck ⊢ with h
      · simp at hck
      · rw [hmf]; simp
    | false =>
      rw [hci] at hmf
      have h3 : contact (s k) i = false := by rw [hc k hk.le]; exact hci
      simp only [contact, decide_eq_false_iff_not, not_lt] at h3
      have h4 : (s k).f i = 0 := le_antisymm (hfneg k hk.le i) h3
      have h5 : (cgBranch P o (s k)).f i = 0 := by rw [hmf]; simpa using h4
      unfold clip
      rw [ht0 k hk.le i hci, h4, h5]; simp
  have hus : ∀ k, k ≤ n → (s k).u = P.disp (s k).f := by
    intro k hk
    cases k with
    | zero => exact hu
    | succ k =>
      obtain ⟨m, rfl, h1, h2⟩ := hstep k (by omega)
      rw [h1]; rfl
  have hrun : CG.Run P.disp c n r t := by
    refine ⟨?_, ht0, ?_, ?_, ?_⟩
    · intro k _ i hi; simp [r, CG.res, hi]
    · intro i
      simp only [t, cgBranch, cgDir, r, CG.res]
      have h1 := hbg 0 (by omega)
      have h2 : ∀ i, (s 0).u i - P.h i - cgOffset P o (s 0) = g 0 i := fun i => congrFun h1 i
      simp only [h2, hbc 0 (by omega), hdelta, Bool.false_and, Bool.false_eq_true, if_false]
      split_ifs with h3 h4 h4
      · rfl
      · rfl
      · exact absurd (hccomp i h4) h3
      · exact (hoffz 0 (by omega) i (by simpa using h3)).2
    · intro k hk
      refine ⟨(cgBranch P o (s k)).tau, htau k hk.le, fun i => ?_⟩
      simp only [r, CG.res]
      split_ifs with hci
      · simp only [g]
        rw [hus (k + 1) hk, hus k hk.le, show (s (k + 1)).f = fun j => (s k).f j + (cgBranch P o (s k)).tau * t k j from
          funext (hf k hk), hD.add, hD.smul]
        ring
      · ring
    · intro k hk hG0 hx i
      obtain ⟨m, rfl, h1, h2⟩ := hstep k hk
      have hd : (s (k + 1)).delta = true := by
        rw [h1]; change decide (stepStatus P o (cgBranch P o (s k)) = .cg) = true; simp [h2]
      have hGold : (s (k + 1)).Gold = dot (r k) (r k) := by rw [h1]; exact hG k hk.le hx
      have hts : (s (k + 1)).t = t k := by rw [h1]; rfl
      have h3 := hbg (k + 1) hk
      have h4 : ∀ i, (s (k + 1)).u i - P.h i - cgOffset P o (s (k + 1)) = g (k + 1) i := fun i => congrFun h3 i
      have h5 := hrr (k + 1) hk
      by_cases hci : c i = true
      · have hp := hccomp i hci
        change cgDir P (s (k + 1)) (cgSet o (s (k + 1))) (cgBranch P o (s (k + 1))).g
          (sumOver (fun i => cgSet o (s (k + 1)) i && P.comp i)
            (fun i => (cgBranch P o (s (k + 1))).g i * (cgBranch P o (s (k + 1))).g i)) i = _
        rw [h5]
        unfold cgDir
        rw [if_pos hp, hd, hGold, hts, hbc (k + 1) hk, h3]
        simp only [hG0, decide_true, Bool.and_true, if_true, hci, r, CG.res]
      · have hci' : c i = false := by simpa using hci
        rw [ht0 (k + 1) hk i hci', ht0 k hk.le i hci']
        simp [r, CG.res, hci']
  obtain ⟨k, hk, hz⟩ := hrun.terminates (hD.mono hccomp) hn
  refine ⟨k, hk, fun i hi => ?_⟩
  have := hz i
  simp only [r, CG.res, hi, if_true, g] at this
  linarith

/-- The state after `k` iterations, if none fails. -/
def iter {n : ℕ} (P : Problem (Fin n) ℚ) (o : Options (Fin n) ℚ) (p : ℚ) : ℕ → State (Fin n) ℚ
  | 0 => initState P o
  | k + 1 => match CCG.step P o p (iter P o p k) with
    | .ok w => w.next
    | .error _ => iter P o p k

/-- A run whose contact set `{0, 1}` does not change in its first two iterations. -/
example : let P := demo ![5, 8, 0]; let o := { demoOpt with initialForces := some ![-2, -3, 0] }
    let s := iter P o (1 / 1000)
    Reach P o (1 / 1000) 0 (s 0) ∧ (s 0).u = P.disp (s 0).f ∧ (∀ i, (s 0).f i ≤ 0) ∧ (s 0).delta = false ∧
    QuietSteps P o (1 / 1000) 2 s ∧ (∀ k, k ≤ 2 → contact (s k) = contact (s 0)) ∧ count (contact (s 0)) = 2 := by
  refine ⟨.init, by decide +kernel, by decide +kernel, rfl, ?_, ?_, by decide +kernel⟩
  · have hh : ∀ k, k < 2 → okAnd (CCG.step (demo ![5, 8, 0]) { demoOpt with initialForces := some ![-2, -3, 0] } (1 / 1000)
        (iter (demo ![5, 8, 0]) { demoOpt with initialForces := some ![-2, -3, 0] } (1 / 1000) k))
        (fun w => decide (w.next.status = .cg)) = true := by decide +kernel
    intro k hk
    obtain ⟨w, hw, h2⟩ := okAnd_iff.1 (hh k hk)
    refine ⟨w, hw, ?_, of_decide_eq_true h2⟩
    simp only [iter]
    rw [hw]
  · decide +kernel

end CM.CCG
