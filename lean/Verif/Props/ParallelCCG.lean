import Verif.Model.ParallelCCG
import Mathlib.Data.Fintype.Sigma
import Mathlib.Algebra.BigOperators.Group.Finset.Sigma
/-!
# C174: the solver on several processes
-/
set_option linter.unusedSimpArgs false
set_option linter.unusedSectionVars false
namespace CM.CCG
open Finset

instance {R ι : Type} (D : Decomp R ι) (r : R) : Fintype (D.κ r) := D.fin r

section Spec
variable {R ι K : Type} (D : Decomp R ι)

/-- What process `r` knows of the problem. -/
def Problem.loc (P : Problem ι K) (r : R) : Local (D.κ r) K := ⟨D.part r P.comp, D.part r P.slice, D.part r P.h, P.nSurf, P.meanGrid⟩

/-- The hardness process `r` is called with. -/
def Hardness.loc (H : Hardness ι K) (r : R) : Hardness (D.κ r) K :=
  match H with
  | .none => .none
  | .scalar H => .scalar H
  | .array H => .array (D.part r H)

/-- The arguments process `r` is called with: its part of arrays, the same numbers. -/
def Options.loc (o : Options ι K) (r : R) : Options (D.κ r) K :=
  { hardness := o.hardness.loc D r
    externalForce := o.externalForce
    offset := o.offset
    initialDisplacements := o.initialDisplacements.map (D.part r)
    initialForces := o.initialForces.map (D.part r)
    pentol := o.pentol
    forcetol := o.forcetol
    thermotol := o.thermotol
    mixfac := o.mixfac
    mixdecfac := o.mixdecfac
    minmixsteps := o.minmixsteps
    maxiter := o.maxiter
    bisect := o.bisect }

/-- The part of a result that process `r` returns: its part of arrays, the same numbers. -/
def Result.loc (w : Result ι K) (r : R) : Result (D.κ r) K :=
  { x := D.part r w.x
    jac := D.part r w.jac
    activeSet := D.part r w.activeSet
    plastic := w.plastic.map (D.part r)
    fun_ := w.fun_
    offset := w.offset
    success := w.success
    nit := w.nit
    nfev := w.nfev
    maxPen := w.maxPen
    maxPres := w.maxPres
    status := w.status
    tau := w.tau }

/-- What the callback of process `r` receives, if there is one. -/
def cbLoc (on : Bool) (cb : List (ℕ × (ι → K))) (r : R) : List (ℕ × (D.κ r → K)) :=
  if on then cb.map fun x => (x.1, D.part r x.2) else []

/-- Arguments of process `r`. -/
def pargs (o : Options ι K) (B : K → K → Strat K) (verbose callback : Bool) (r : R) : PArgs (D.κ r) K :=
  ⟨o.loc D r, B, verbose, callback⟩

/-! Local parts of intermediate variables. -/

/-- Variables of the loop, `ConstrainedConjugateGradients.py:209-233`. -/
def State.loc (s : State ι K) (r : R) : State (D.κ r) K :=
  ⟨D.part r s.f, D.part r s.u, D.part r s.t, s.delta, s.status, s.Gold, s.mixfacCur, s.mixsteps, s.lastMaxHeight, s.lastTotalForce, s.offset, s.nfev⟩

/-- Variables after the branch, `ConstrainedConjugateGradients.py:261-330`. -/
def Mid.loc (m : Mid ι K) (r : R) : Mid (D.κ r) K :=
  ⟨D.part r m.f, D.part r m.t, D.part r m.g, D.part r m.c, m.offset, m.G, m.tau, m.status, m.mixfacCur, m.mixsteps, m.nfev⟩

/-- Variables at the end of the loop body, `ConstrainedConjugateGradients.py:332-454`. -/
def StepOut.loc (w : StepOut ι K) (r : R) : StepOut (D.κ r) K :=
  ⟨w.next.loc D r, D.part r w.c, D.part r w.g, D.part r w.nc, w.tau, w.Acontact, w.Acg, w.G, w.maxPres, w.padPres, w.maxPen, w.maxdu,
    w.totalForce, w.converged⟩

end Spec

section
variable {R ι K : Type} [Fintype R] [Fintype ι] [Field K] [LinearOrder K] {D : Decomp R ι} {P : Problem ι K}

/-! ## Reductions -/

lemma glue_part {A : Type} (a : ι → A) : D.glue (fun r => D.part r a) = a := by
  funext i; simp [Decomp.glue, Decomp.part]

lemma sum_parts {M : Type} [AddCommMonoid M] (a : ι → M) : ∑ r, ∑ j, D.part r a j = ∑ i, a i := by
  rw [← Equiv.sum_comp D.e, Fintype.sum_sigma]; rfl

lemma sumOver_parts (p : ι → Bool) (a : ι → K) : ∑ r, sumOver (D.part r p) (D.part r a) = sumOver p a :=
  sum_parts (D := D) fun i => if p i then a i else 0

lemma count_parts (p : ι → Bool) : ∑ r, count (D.part r p) = count p := by
  simp only [count, card_filter]
  exact sum_parts (D := D) fun i => if p i = true then 1 else 0

lemma maxOver_eq {κ : Type} [Fintype κ] {p : κ → Bool} {a : κ → K} {i : κ} (hi : p i = true) (h : ∀ j, p j = true → a j ≤ a i) :
    maxOver p a = a i := by
  have hne : (univ.filter fun i => p i = true).Nonempty := ⟨i, by simp [hi]⟩
  rw [maxOver, dif_pos hne]
  exact le_antisymm (sup'_le _ _ fun j hj => h j (by simpa using hj)) (le_sup' a (by simp [hi]))

lemma maxOver_none {κ : Type} [Fintype κ] {p : κ → Bool} {a : κ → K} (h : ∀ j, p j = false) : maxOver p a = 0 := by
  rw [maxOver, dif_neg]; rintro ⟨j, hj⟩; simp [h j] at hj

lemma maxOver_mem {κ : Type} [Fintype κ] {p : κ → Bool} {a : κ → K} (hne : (univ.filter fun i => p i = true).Nonempty) :
    ∃ i, p i = true ∧ a i = maxOver p a ∧ ∀ j, p j = true → a j ≤ a i := by
  obtain ⟨i, hi, he⟩ := exists_mem_eq_sup' hne a
  have hm : maxOver p a = a i := by rw [maxOver, dif_pos hne, he]
  refine ⟨i, by simpa using hi, hm.symm, fun j hj => ?_⟩
  rw [← he]; exact le_sup' a (by simp [hj])

lemma minOver_eq {κ : Type} [Fintype κ] {p : κ → Bool} {a : κ → K} {i : κ} (hi : p i = true) (h : ∀ j, p j = true → a i ≤ a j) :
    minOver p a = a i := by
  have hne : (univ.filter fun i => p i = true).Nonempty := ⟨i, by simp [hi]⟩
  rw [minOver, dif_pos hne]
  exact le_antisymm (inf'_le a (by simp [hi])) (le_inf' _ _ fun j hj => h j (by simpa using hj))

lemma minOver_none {κ : Type} [Fintype κ] {p : κ → Bool} {a : κ → K} (h : ∀ j, p j = false) : minOver p a = 0 := by
  rw [minOver, dif_neg]; rintro ⟨j, hj⟩; simp [h j] at hj

lemma minOver_mem {κ : Type} [Fintype κ] {p : κ → Bool} {a : κ → K} (hne : (univ.filter fun i => p i = true).Nonempty) :
    ∃ i, p i = true ∧ a i = minOver p a ∧ ∀ j, p j = true → a i ≤ a j := by
  obtain ⟨i, hi, he⟩ := exists_mem_eq_inf' hne a
  have hm : minOver p a = a i := by rw [minOver, dif_pos hne, he]
  refine ⟨i, by simpa using hi, hm.symm, fun j hj => ?_⟩
  rw [← he]; exact inf'_le a (by simp [hj])

lemma localMax_parts (p : ι → Bool) (a : ι → K) :
    maxOver (fun r => (localMax (D.part r p) (D.part r a)).isSome) (fun r => (localMax (D.part r p) (D.part r a)).getD 0) = maxOver p a := by
  by_cases hne : (univ.filter fun i => p i = true).Nonempty
  · obtain ⟨i, hi, he, hm⟩ := maxOver_mem (a := a) hne
    obtain ⟨⟨r, j⟩, rfl⟩ := D.e.surjective i
    have hj : D.part r p j = true := hi
    have hr : (univ.filter fun j => D.part r p j = true).Nonempty := ⟨j, by simp [hj]⟩
    have hloc : localMax (D.part r p) (D.part r a) = some (a (D.e ⟨r, j⟩)) := by
      rw [localMax, if_pos hr, maxOver_eq (a := D.part r a) hj fun j' h' => hm (D.e ⟨r, j'⟩) h']; rfl
    have := maxOver_eq (p := fun r => (localMax (D.part r p) (D.part r a)).isSome) (a := fun r => (localMax (D.part r p) (D.part r a)).getD 0)
      (i := r) (by rw [hloc]; rfl) (fun r' h' => by
        by_cases hr' : (univ.filter fun j => D.part r' p j = true).Nonempty
        · obtain ⟨j', h1, h2, -⟩ := maxOver_mem (a := D.part r' a) hr'
          rw [hloc, localMax, if_pos hr', Option.getD_some, Option.getD_some, ← h2]
          exact hm _ h1
        · rw [localMax, if_neg hr'] at h'; simp at h')
    rw [this, hloc, Option.getD_some, he]
  · have hp : ∀ i, p i = false := fun i => by
      by_contra h; exact hne ⟨i, by simpa using h⟩
    rw [maxOver_none hp, maxOver_none]
    intro r
    rw [localMax, if_neg]; · rfl
    rintro ⟨j, hj⟩
    simp [Decomp.part, hp] at hj

lemma localMin_parts (p : ι → Bool) (a : ι → K) :
    minOver (fun r => (localMin (D.part r p) (D.part r a)).isSome) (fun r => (localMin (D.part r p) (D.part r a)).getD 0) = minOver p a := by
  by_cases hne : (univ.filter fun i => p i = true).Nonempty
  · obtain ⟨i, hi, he, hm⟩ := minOver_mem (a := a) hne
    obtain ⟨⟨r, j⟩, rfl⟩ := D.e.surjective i
    have hj : D.part r p j = true := hi
    have hr : (univ.filter fun j => D.part r p j = true).Nonempty := ⟨j, by simp [hj]⟩
    have hloc : localMin (D.part r p) (D.part r a) = some (a (D.e ⟨r, j⟩)) := by
      rw [localMin, if_pos hr, minOver_eq (a := D.part r a) hj fun j' h' => hm (D.e ⟨r, j'⟩) h']; rfl
    have := minOver_eq (p := fun r => (localMin (D.part r p) (D.part r a)).isSome) (a := fun r => (localMin (D.part r p) (D.part r a)).getD 0)
      (i := r) (by rw [hloc]; rfl) (fun r' h' => by
        by_cases hr' : (univ.filter fun j => D.part r' p j = true).Nonempty
        · obtain ⟨j', h1, h2, -⟩ := minOver_mem (a := D.part r' a) hr'
          rw [hloc, localMin, if_pos hr', Option.getD_some, Option.getD_some, ← h2]
          exact hm _ h1
        · rw [localMin, if_neg hr'] at h'; simp at h')
    rw [this, hloc, Option.getD_some, he]
  · have hp : ∀ i, p i = false := fun i => by
      by_contra h; exact hne ⟨i, by simpa using h⟩
    rw [minOver_none hp, minOver_none]
    intro r
    rw [localMin, if_neg]; · rfl
    rintro ⟨j, hj⟩
    simp [Decomp.part, hp] at hj

/-! ## Sequences -/

lemma Run.bind {α β : R → Type} {c : ∀ r, Prog (D.κ r) K (α r)} {out : ∀ r, Except PyErr (α r)} (h : Run D P c out)
    {k : ∀ r, α r → Prog (D.κ r) K (β r)} {out' : ∀ r, Except PyErr (β r)} (v : ∀ r, α r) (hv : ∀ r, out r = .ok (v r))
    (hk : Run D P (fun r => k r (v r)) out') : Run D P (fun r => (c r).bind (k r)) out' := by
  induction h with
  | ret c a hc =>
    have : v = a := by funext r; have := hv r; simpa using this.symm
    subst this
    have : (fun r => (c r).bind (k r)) = fun r => k r (v r) := by funext r; rw [hc r]; rfl
    rw [this]; exact hk
  | raise c e hc =>
    by_cases hR : Nonempty R
    · obtain ⟨r⟩ := hR; exact absurd (hv r) (by simp)
    · have : (fun r => (c r).bind (k r)) = fun r => k r (v r) := by funext r; exact absurd ⟨r⟩ hR
      rw [this]; exact hk
  | sum c x k' hc _ ih => exact Run.sum _ x (fun r y => (k' r y).bind (k r)) (fun r => by rw [hc r]; rfl) (ih hv)
  | count c x k' hc _ ih => exact Run.count _ x (fun r y => (k' r y).bind (k r)) (fun r => by rw [hc r]; rfl) (ih hv)
  | max c x k' hc _ ih => exact Run.max _ x (fun r y => (k' r y).bind (k r)) (fun r => by rw [hc r]; rfl) (ih hv)
  | min c x k' hc _ ih => exact Run.min _ x (fun r y => (k' r y).bind (k r)) (fun r => by rw [hc r]; rfl) (ih hv)
  | disp c x k' hc _ ih => exact Run.disp _ x (fun r y => (k' r y).bind (k r)) (fun r => by rw [hc r]; rfl) (ih hv)
  | force c x k' hc _ ih => exact Run.force _ x (fun r y => (k' r y).bind (k r)) (fun r => by rw [hc r]; rfl) (ih hv)
  | rms c k' hc _ ih => exact Run.rms _ (fun r y => (k' r y).bind (k r)) (fun r => by rw [hc r]; rfl) (ih hv)

lemma Run.bind_error {α β : R → Type} {c : ∀ r, Prog (D.κ r) K (α r)} {out : ∀ r, Except PyErr (α r)} (h : Run D P c out)
    {k : ∀ r, α r → Prog (D.κ r) K (β r)} (e : PyErr) (he : ∀ r, out r = .error e) :
    Run D P (fun r => (c r).bind (k r)) fun _ => .error e := by
  induction h with
  | ret c a hc =>
    by_cases hR : Nonempty R
    · obtain ⟨r⟩ := hR; exact absurd (he r) (by simp)
    · exact Run.raise _ (fun _ => e) fun r => absurd ⟨r⟩ hR
  | raise c e' hc =>
    refine Run.raise _ (fun _ => e) fun r => ?_
    have : e' r = e := by simpa using he r
    rw [hc r, this]; rfl
  | sum c x k' hc _ ih => exact Run.sum _ x (fun r y => (k' r y).bind (k r)) (fun r => by rw [hc r]; rfl) (ih he)
  | count c x k' hc _ ih => exact Run.count _ x (fun r y => (k' r y).bind (k r)) (fun r => by rw [hc r]; rfl) (ih he)
  | max c x k' hc _ ih => exact Run.max _ x (fun r y => (k' r y).bind (k r)) (fun r => by rw [hc r]; rfl) (ih he)
  | min c x k' hc _ ih => exact Run.min _ x (fun r y => (k' r y).bind (k r)) (fun r => by rw [hc r]; rfl) (ih he)
  | disp c x k' hc _ ih => exact Run.disp _ x (fun r y => (k' r y).bind (k r)) (fun r => by rw [hc r]; rfl) (ih he)
  | force c x k' hc _ ih => exact Run.force _ x (fun r y => (k' r y).bind (k r)) (fun r => by rw [hc r]; rfl) (ih he)
  | rms c k' hc _ ih => exact Run.rms _ (fun r y => (k' r y).bind (k r)) (fun r => by rw [hc r]; rfl) (ih he)

variable {β : R → Type} {out : ∀ r, Except PyErr (β r)}

lemma run_rsum (p : ι → Bool) (a : ι → K) {k : ∀ r, K → Prog (D.κ r) K (β r)} (h : Run D P (fun r => k r (sumOver p a)) out) :
    Run D P (fun r => (rsum (D.part r p) (D.part r a)).bind (k r)) out :=
  Run.sum _ (fun r => sumOver (D.part r p) (D.part r a)) k (fun _ => rfl) (by rw [sumOver_parts]; exact h)

lemma run_rcount (p : ι → Bool) {k : ∀ r, ℕ → Prog (D.κ r) K (β r)} (h : Run D P (fun r => k r (count p)) out) :
    Run D P (fun r => (rcount (D.part r p)).bind (k r)) out :=
  Run.count _ (fun r => count (D.part r p)) k (fun _ => rfl) (by rw [count_parts]; exact h)

lemma run_rmax (p : ι → Bool) (a : ι → K) {k : ∀ r, K → Prog (D.κ r) K (β r)} (h : Run D P (fun r => k r (maxOver p a)) out) :
    Run D P (fun r => (rmax (D.part r p) (D.part r a)).bind (k r)) out :=
  Run.max _ (fun r => localMax (D.part r p) (D.part r a)) k (fun _ => rfl) (by rw [localMax_parts]; exact h)

lemma run_rmin (p : ι → Bool) (a : ι → K) {k : ∀ r, K → Prog (D.κ r) K (β r)} (h : Run D P (fun r => k r (minOver p a)) out) :
    Run D P (fun r => (rmin (D.part r p) (D.part r a)).bind (k r)) out :=
  Run.min _ (fun r => localMin (D.part r p) (D.part r a)) k (fun _ => rfl) (by rw [localMin_parts]; exact h)

lemma run_edisp (f : ι → K) {k : ∀ r, (D.κ r → K) → Prog (D.κ r) K (β r)} (h : Run D P (fun r => k r (D.part r (P.disp f))) out) :
    Run D P (fun r => (edisp (D.part r f)).bind (k r)) out :=
  Run.disp _ (fun r => D.part r f) k (fun _ => rfl) (by rw [glue_part]; exact h)

lemma run_eforce (u : ι → K) {k : ∀ r, (D.κ r → K) → Prog (D.κ r) K (β r)} (h : Run D P (fun r => k r (D.part r (P.force u))) out) :
    Run D P (fun r => (eforce (D.part r u)).bind (k r)) out :=
  Run.force _ (fun r => D.part r u) k (fun _ => rfl) (by rw [glue_part]; exact h)

lemma run_ret {α : R → Type} {c : ∀ r, Prog (D.κ r) K (α r)} (a : ∀ r, α r) (hc : ∀ r, c r = .ret (a r)) : Run D P c fun r => .ok (a r) :=
  Run.ret c a hc

/-! ## The program -/

variable {o : Options ι K} {B : K → K → Strat K} {vb cbk : Bool}

lemma isSome_loc (H : Hardness ι K) (r : R) : (H.loc D r).isSome = H.isSome := by cases H <;> rfl

lemma at_loc (H : Hardness ι K) (r : R) (j : D.κ r) : (H.loc D r).at j = H.at (D.e ⟨r, j⟩) := by cases H <;> rfl

lemma truth_loc {H : Hardness ι K} (h : ∀ A, H ≠ .array A) (r : R) : (H.loc D r).truth = H.truth := by
  cases H with
  | none => rfl
  | scalar => rfl
  | array A => exact absurd rfl (h A)

lemma contact_loc (s : State ι K) (r : R) : contact (s.loc D r) = D.part r (contact s) := rfl

lemma cgSet_loc (s : State ι K) (r : R) : cgSet (o.loc D r) (s.loc D r) = D.part r (cgSet o s) := by
  funext j
  simp only [cgSet, Options.loc, isSome_loc, at_loc, Decomp.part, State.loc]
  rfl

lemma flowing_loc (m : Mid ι K) (r : R) : flowing (o.loc D r) (m.loc D r) = D.part r (flowing o m) := by
  funext j
  simp only [flowing, Options.loc, isSome_loc, at_loc, Decomp.part, Mid.loc]

lemma tensile_loc (m : Mid ι K) (r : R) : tensile (m.loc D r) = D.part r (tensile m) := rfl

lemma pNew_loc (m : Mid ι K) (r : R) : pNew (P.loc D r) (pargs D o B vb cbk r) (m.loc D r) = D.part r (newContact P o m) := by
  funext j
  simp only [pNew, pargs, flowing_loc, tensile_loc]
  rfl

lemma run_pOffset (s : State ι K) :
    Run D P (fun r => pOffset (P.loc D r) (pargs D o B vb cbk r) (s.loc D r) (D.part r (cgSet o s)) (count (cgSet o s)))
      fun _ => .ok (cgOffset P o s) := by
  unfold pOffset cgOffset
  simp only [pargs, Options.loc]
  cases o.externalForce with
  | none => exact run_ret _ fun _ => rfl
  | some F =>
    dsimp only
    split_ifs with h
    · exact run_rsum (fun i => cgSet o s i && P.comp i) (fun i => s.u i - P.h i) (run_ret _ fun _ => rfl)
    · exact run_ret _ fun _ => rfl

lemma run_pTau (c : ι → Bool) (g t r : ι → K) (G : K) :
    Run D P (fun q => pTau (P.loc D q) (D.part q c) (D.part q g) (D.part q t) (D.part q r) (count c) G)
      fun _ => .ok (if 0 < count c ∧ 0 < -(sumOver c fun i => r i * t i)
          then sumOver (fun i => c i && P.comp i) (fun i => g i * t i) / -(sumOver c fun i => r i * t i) else 0,
        if 0 < count c ∧ ¬ 0 < -(sumOver c fun i => r i * t i) then 0 else G) := by
  unfold pTau
  by_cases h : 0 < count c
  · simp only [h, if_true, true_and]
    refine run_rsum c (fun i => r i * t i) ?_
    by_cases h2 : 0 < -(sumOver c fun i => r i * t i)
    · simp only [h2, if_true, not_true, if_false]
      exact run_rsum (fun i => c i && P.comp i) (fun i => g i * t i) (run_ret _ fun _ => rfl)
    · simp only [h2, if_false, not_false_eq_true, if_true]
      exact run_ret _ fun _ => rfl
  · simp only [h, if_false, false_and]
    exact run_ret _ fun _ => rfl

lemma run_pCg (s : State ι K) :
    Run D P (fun r => pCg (P.loc D r) (pargs D o B vb cbk r) (s.loc D r) (count (cgSet o s)))
      fun r => .ok ((cgBranch P o s).loc D r) := by
  unfold pCg
  have e : ∀ r, cgSet (pargs D o B vb cbk r).opts (s.loc D r) = D.part r (cgSet o s) := fun r => cgSet_loc s r
  simp only [e]
  refine Run.bind (run_pOffset s) (fun _ => cgOffset P o s) (fun _ => rfl) ?_
  refine run_rsum (fun i => cgSet o s i && P.comp i)
    (fun i => (s.u i - P.h i - cgOffset P o s) * (s.u i - P.h i - cgOffset P o s)) ?_
  let g : ι → K := fun i => s.u i - P.h i - cgOffset P o s
  let G : K := sumOver (fun i => cgSet o s i && P.comp i) fun i => g i * g i
  let t : ι → K := cgDir P s (cgSet o s) g G
  refine run_edisp t ?_
  refine Run.bind (run_pTau (cgSet o s) g t (P.disp t) G) (fun _ => _) (fun _ => rfl) ?_
  exact run_ret _ fun _ => rfl

lemma run_pBisect (H F : K) (g0 : ι → K) (S : Strat K) :
    Run D P (fun r => pBisect (P.loc D r) H F (D.part r g0) S)
      fun _ => S.run fun x => (count (fun i => P.comp i && decide (g0 i - x < 0)) : K) * H - F := by
  induction S with
  | found x =>
    cases x with
    | ok x => exact run_ret _ fun _ => rfl
    | error e => exact Run.raise _ (fun _ => e) fun _ => rfl
  | ask x k ih => exact run_rcount (fun i => P.comp i && decide (g0 i - x < 0)) (ih _)

/-- The offset of the serial mixing step. -/
def mixOffset (P : Problem ι K) (o : Options ι K) (s : State ι K) : Except PyErr K :=
  match o.externalForce with
  | none => .ok s.offset
  | some F =>
    match o.hardness with
    | .scalar H =>
      o.bisect (fun x => (count (fun i => P.comp i && decide (s.u i - P.h i - x < 0)) : K) * H - F)
        (maxOver P.comp fun i => s.u i - P.h i) (minOver P.comp fun i => s.u i - P.h i)
    | _ => .error .valueError

lemma run_pMixOffset (hB : ∀ f a b, o.bisect f a b = (B a b).run f) (s : State ι K) :
    Run D P (fun r => pMixOffset (P.loc D r) (pargs D o B vb cbk r) (s.loc D r) (D.part r fun i => s.u i - P.h i))
      fun _ => mixOffset P o s := by
  unfold pMixOffset mixOffset
  simp only [pargs, Options.loc]
  cases o.externalForce with
  | none => exact run_ret _ fun _ => rfl
  | some F =>
    cases ho : o.hardness with
    | none => exact Run.raise _ (fun _ => .valueError) fun _ => rfl
    | array => exact Run.raise _ (fun _ => .valueError) fun _ => rfl
    | scalar H =>
      simp only [Hardness.loc, hB]
      exact run_rmax P.comp (fun i => s.u i - P.h i) (run_rmin P.comp (fun i => s.u i - P.h i) (run_pBisect H F _ _))

lemma run_pMix (hB : ∀ f a b, o.bisect f a b = (B a b).run f) (s : State ι K) :
    Run D P (fun r => pMix (P.loc D r) (pargs D o B vb cbk r) (s.loc D r)) fun r => (mixBranch P o s).map fun m => m.loc D r := by
  have hm : mixBranch P o s = match mixOffset P o s with
      | .error e => .error e
      | .ok off =>
        let g : ι → K := fun i => s.u i - P.h i - off
        let c : ι → Bool := fun i => if P.comp i then decide (g i < 0) else cgSet o s i
        .ok
          { f := fun i => (1 - s.mixfacCur) * s.f i - s.mixfacCur * (if c i then o.hardness.at i else 0)
            t := s.t
            g := g
            c := c
            offset := off
            G := 0
            tau := 0
            status := .mix
            mixfacCur := s.mixfacCur * o.mixdecfac
            mixsteps := (if s.status = .mix then s.mixsteps else o.minmixsteps) - 1
            nfev := s.nfev } := rfl
  have h := run_pMixOffset (D := D) (P := P) (vb := vb) (cbk := cbk) hB s
  unfold pMix
  have e : ∀ r, cgSet (pargs D o B vb cbk r).opts (s.loc D r) = D.part r (cgSet o s) := fun r => cgSet_loc s r
  have e2 : ∀ r (j : D.κ r), (pargs D o B vb cbk r).opts.hardness.at j = o.hardness.at (D.e ⟨r, j⟩) := fun r j => at_loc _ r j
  simp only [e, e2]
  rw [hm]
  cases ho : mixOffset P o s with
  | error er => exact Run.bind_error h er fun _ => ho
  | ok off =>
    refine Run.bind h (fun _ => off) (fun _ => ho) ?_
    exact run_ret _ fun _ => rfl

lemma run_pBranch (hB : ∀ f a b, o.bisect f a b = (B a b).run f) (s : State ι K) :
    Run D P (fun r => pBranch (P.loc D r) (pargs D o B vb cbk r) (s.loc D r))
      fun r => (branch P o s).map fun m => (count (contact s), count (cgSet o s), m.loc D r) := by
  unfold pBranch
  have e : ∀ r, cgSet (pargs D o B vb cbk r).opts (s.loc D r) = D.part r (cgSet o s) := fun r => cgSet_loc s r
  have e2 : ∀ r, (pargs D o B vb cbk r).opts.hardness.isSome = o.hardness.isSome := fun r => isSome_loc _ r
  simp only [e, e2]
  refine run_rcount (contact s) ?_
  refine run_rcount (cgSet o s) ?_
  have hd : ∀ r, (!o.hardness.isSome || (decide (0 < count (contact s)) &&
      decide ((1 : K) / 100 < (count (cgSet o s) : K) / (count (contact s) : K)) && decide ((s.loc D r).mixsteps = 0))) = doCG o s :=
    fun r => rfl
  simp only [hd]
  unfold branch
  by_cases hc : doCG o s = true
  · simp only [hc, if_true]
    exact Run.bind (run_pCg s) (fun r => (cgBranch P o s).loc D r) (fun _ => rfl) (run_ret _ fun _ => rfl)
  · simp only [Bool.not_eq_true] at hc
    simp only [hc, Bool.false_eq_true, if_false]
    have h := run_pMix (D := D) (P := P) (vb := vb) (cbk := cbk) hB s
    cases hm : mixBranch P o s with
    | error er => exact Run.bind_error h er fun r => by rw [hm]; rfl
    | ok m => exact Run.bind h (fun r => m.loc D r) (fun r => by rw [hm]; rfl) (run_ret _ fun _ => rfl)

lemma run_pMaxPres (ho : ∀ A, o.hardness ≠ .array A) (m : Mid ι K) :
    Run D P (fun r => pMaxPres (pargs D o B vb cbk r) (m.loc D r))
      fun _ => o.hardness.truth.map fun b => (maxPres o m b, b) := by
  unfold pMaxPres
  have e1 : ∀ r, flowing (pargs D o B vb cbk r).opts (m.loc D r) = D.part r (flowing o m) := fun r => flowing_loc m r
  have e2 : ∀ r (j : D.κ r), (pargs D o B vb cbk r).opts.hardness.at j = o.hardness.at (D.e ⟨r, j⟩) := fun r j => at_loc _ r j
  have e3 : ∀ r, (pargs D o B vb cbk r).opts.hardness.truth = o.hardness.truth := fun r => truth_loc ho r
  simp only [e1, e2, e3]
  refine run_rcount (tensile m) ?_
  have key : Run D P (fun r => if 0 < count (tensile m) then rmax (tensile (m.loc D r)) (m.loc D r).f else .ret 0)
      fun _ => .ok (if 0 < count (tensile m) then maxOver (tensile m) m.f else 0) := by
    by_cases h : 0 < count (tensile m)
    · simp only [h, if_true]
      exact Run.max _ (fun r => localMax (D.part r (tensile m)) (D.part r m.f)) (fun _ => .ret) (fun _ => rfl)
        (by rw [localMax_parts]; exact run_ret _ fun _ => rfl)
    · simp only [h, if_false]
      exact run_ret _ fun _ => rfl
  refine Run.bind key (fun _ => _) (fun _ => rfl) ?_
  cases o.hardness.truth with
  | error er => exact Run.raise _ (fun _ => er) fun _ => rfl
  | ok b =>
    cases b with
    | false => exact run_ret _ fun _ => by simp [maxPres]
    | true =>
      refine run_rcount (flowing o m) ?_
      simp only [Except.map, maxPres]
      by_cases h : 0 < count (flowing o m)
      · simp only [h, if_true, and_self]
        exact run_rmin (flowing o m) (fun i => m.f i + o.hardness.at i) (run_ret _ fun _ => rfl)
      · simp only [h, if_false, and_false]
        exact run_ret _ fun _ => rfl

lemma run_pRescale (f : ι → K) :
    Run D P (fun r => pRescale (P.loc D r) (pargs D o B vb cbk r) (D.part r f)) fun r => .ok (D.part r (rescale P o f)) := by
  unfold pRescale rescale
  simp only [pargs, Options.loc]
  cases o.externalForce with
  | none => exact run_ret _ fun _ => rfl
  | some F =>
    refine run_rsum P.comp f ?_
    dsimp only
    by_cases h : -(sumOver P.comp f) ≠ 0
    · simp only [h, ne_eq, not_false_eq_true, if_true]
      exact run_ret _ fun _ => rfl
    · simp only [h, if_false]
      exact run_ret _ fun _ => rfl

lemma run_pLog (hard : Bool) (nc : ι → Bool) :
    Run D P (fun r => pLog (P.loc D r) (pargs D o B vb cbk r) hard (D.part r nc)) fun _ => .ok () := by
  unfold pLog
  refine run_rcount P.comp ?_
  have h1 : Run D P (fun r => if hard then (rcount (P.loc D r).comp).bind fun _ => .ret () else .ret ()) fun _ => .ok () := by
    cases hard with
    | false => exact run_ret _ fun _ => rfl
    | true => exact run_rcount P.comp (run_ret _ fun _ => rfl)
  refine Run.bind h1 (fun _ => ()) (fun _ => rfl) ?_
  have : ∀ r, (pargs D o B vb cbk r).verbose = vb := fun _ => rfl
  simp only [this]
  cases vb with
  | false => exact run_ret _ fun _ => rfl
  | true => exact run_rcount P.comp (run_rcount nc (run_ret _ fun _ => rfl))

lemma convForce_loc (s : State ι K) (r : R) (t : K) : convForce (o.loc D r) (s.loc D r) t = convForce o s t := rfl

lemma convHeight_loc (s : State ι K) (r : R) (t : K) : convHeight (o.loc D r) (s.loc D r) t = convHeight o s t := rfl

lemma truncate_loc (m : Mid ι K) (f : ι → K) (r : R) :
    truncate (o.loc D r) (m.loc D r) (D.part r f) = D.part r (truncate o m f) := by
  funext j
  simp only [truncate, flowing_loc]
  simp only [Options.loc, at_loc, Decomp.part]
  rfl

lemma run_pFinish (ho : ∀ A, o.hardness ≠ .array A) (pentol : K) (s : State ι K) (m : Mid ι K) :
    Run D P (fun r => pFinish (P.loc D r) (pargs D o B vb cbk r) pentol (maxOver P.comp P.h) (count fun i => !P.comp i) (s.loc D r)
        (count (contact s)) (count (cgSet o s)) (m.loc D r))
      fun r => o.hardness.truth.map fun b => (finish P o pentol s m b).loc D r := by
  unfold pFinish
  have e1 : ∀ r, pNew (P.loc D r) (pargs D o B vb cbk r) (m.loc D r) = D.part r (newContact P o m) := fun r => pNew_loc m r
  simp only [e1]
  have k1 : Run D P (fun r => if 0 < count (fun i => !P.comp i) then rmax (fun i => !(P.loc D r).comp i) (fun i => pabs ((m.loc D r).f i)) else .ret 0)
      fun _ => .ok (if 0 < count (fun i => !P.comp i) then maxOver (fun i => !P.comp i) (fun i => pabs (m.f i)) else 0) := by
    by_cases h : 0 < count (fun i => !P.comp i)
    · simp only [h, if_true]
      exact Run.max _ (fun r => localMax (D.part r fun i => !P.comp i) (D.part r fun i => pabs (m.f i))) (fun _ => .ret) (fun _ => rfl)
        (by rw [localMax_parts]; exact run_ret _ fun _ => rfl)
    · simp only [h, if_false]
      exact run_ret _ fun _ => rfl
  refine Run.bind k1 (fun _ => _) (fun _ => rfl) ?_
  have k2 := run_pMaxPres (D := D) (P := P) (B := B) (vb := vb) (cbk := cbk) ho m
  cases htr : o.hardness.truth with
  | error er => exact Run.bind_error k2 er fun _ => by rw [htr]; rfl
  | ok hard =>
    refine Run.bind k2 (fun _ => (maxPres o m hard, hard)) (fun _ => by rw [htr]; rfl) ?_
    refine Run.bind (run_pRescale (clip m)) (fun r => D.part r (rescale P o (clip m))) (fun _ => rfl) ?_
    have k3 : Run D P (fun r => if (m.loc D r).status = .mix then Prog.ret 0 else rcount (D.part r (newContact P o m)))
        fun _ => .ok (if m.status = .mix then 0 else count (newContact P o m)) := by
      have : ∀ r, (m.loc D r).status = m.status := fun _ => rfl
      simp only [this]
      by_cases h : m.status = .mix
      · simp only [h, if_true]
        exact run_ret _ fun _ => rfl
      · simp only [h, if_false]
        exact Run.count _ (fun r => count (D.part r (newContact P o m))) (fun _ => .ret) (fun _ => rfl)
          (by rw [count_parts]; exact run_ret _ fun _ => rfl)
    refine Run.bind k3 (fun _ => _) (fun _ => rfl) ?_
    have hst : (if m.status = .mix then Status.mix else if 0 < (if m.status = .mix then 0 else count (newContact P o m)) then .sd else .cg)
        = stepStatus P o m := by
      unfold stepStatus
      by_cases h : m.status = .mix
      · simp [h]
      · simp [h]
    have e2 : ∀ r, (m.loc D r).status = m.status := fun _ => rfl
    have e3 : ∀ r, truncate (pargs D o B vb cbk r).opts (m.loc D r) (D.part r (rescale P o (clip m)))
      = D.part r (truncate o m (rescale P o (clip m))) := fun r => truncate_loc m _ r
    simp only [e2, hst, e3]
    refine run_edisp (stepForce P o m) ?_
    refine run_rmax (fun _ => true) (fun i => pabs (P.disp (stepForce P o m) i - s.u i)) ?_
    refine run_rmax P.comp (fun i => if m.c i then P.h i + m.offset - P.disp (stepForce P o m) i else 0) ?_
    refine run_rsum P.comp (stepForce P o m) ?_
    refine Run.bind (run_pLog hard (newContact P o m)) (fun _ => ()) (fun _ => rfl) ?_
    exact run_ret _ fun _ => rfl

lemma run_pStep (hB : ∀ f a b, o.bisect f a b = (B a b).run f) (ho : ∀ A, o.hardness ≠ .array A) (pentol : K) (s : State ι K) :
    Run D P (fun r => pStep (P.loc D r) (pargs D o B vb cbk r) pentol (maxOver P.comp P.h) (count fun i => !P.comp i) (s.loc D r))
      fun r => (step P o pentol s).map fun w => w.loc D r := by
  unfold pStep step
  have h := run_pBranch (D := D) (P := P) (vb := vb) (cbk := cbk) hB s
  cases hb : branch P o s with
  | error er => exact Run.bind_error h er fun r => by rw [hb]; rfl
  | ok m =>
    refine Run.bind h (fun r => (count (contact s), count (cgSet o s), m.loc D r)) (fun r => by rw [hb]; rfl) ?_
    have h2 := run_pFinish (D := D) (P := P) (B := B) (vb := vb) (cbk := cbk) ho pentol s m
    cases htr : o.hardness.truth with
    | error er => rw [htr] at h2; exact h2
    | ok b => rw [htr] at h2; exact h2

lemma run_pResult (nit : ℕ) (success : Bool) (w : StepOut ι K) :
    Run D P (fun r => pResult (P.loc D r) (pargs D o B vb cbk r) nit success (w.loc D r))
      fun r => .ok ((mkResult P o nit success w).loc D r) := by
  unfold pResult
  refine run_rsum P.slice (fun i => w.next.f i * w.next.u i) ?_
  refine run_ret _ fun r => ?_
  have e2 : (pargs D o B vb cbk r).opts.hardness.isSome = o.hardness.isSome := isSome_loc _ r
  simp only [e2]
  show Prog.ret _ = Prog.ret _
  congr 1
  unfold Result.loc mkResult
  congr 1
  · show (if success = true ∧ w.next.status = .mix then _ else _) = _
    by_cases h : success = true ∧ w.next.status = .mix
    · rw [if_pos h, if_pos h]; rfl
    · rw [if_neg h, if_neg h]; rfl
  · by_cases h : success = true ∧ o.hardness.isSome = true
    · rw [if_pos h, if_pos h]; rfl
    · rw [if_neg h, if_neg h]; rfl

lemma run_pLoop (hB : ∀ f a b, o.bisect f a b = (B a b).run f) (ho : ∀ A, o.hardness ≠ .array A) (pentol : K) (fuel : ℕ) :
    ∀ (it : ℕ) (s : State ι K) (cb : List (ℕ × (ι → K))) (w : Option (StepOut ι K)),
      Run D P (fun r => pLoop (P.loc D r) (pargs D o B vb cbk r) pentol (maxOver P.comp P.h) (count fun i => !P.comp i) fuel it (s.loc D r)
          (cbLoc D cbk cb r) (w.map fun w => w.loc D r))
        fun r => (loop P o pentol fuel it s cb w).map fun x => (x.1.loc D r, cbLoc D cbk x.2 r) := by
  induction fuel with
  | zero =>
    intro it s cb w
    cases w with
    | none => exact Run.raise _ (fun _ => .unboundLocal) fun _ => rfl
    | some w => exact Run.bind (run_pResult it false w) (fun r => (mkResult P o it false w).loc D r) (fun _ => rfl) (run_ret _ fun _ => rfl)
  | succ fuel ih =>
    intro it s cb w
    have h := run_pStep (D := D) (P := P) (vb := vb) (cbk := cbk) hB ho pentol s
    have hl : ∀ r, pLoop (P.loc D r) (pargs D o B vb cbk r) pentol (maxOver P.comp P.h) (count fun i => !P.comp i) (fuel + 1) it
        (s.loc D r) (cbLoc D cbk cb r) (w.map fun w => w.loc D r)
        = (pStep (P.loc D r) (pargs D o B vb cbk r) pentol (maxOver P.comp P.h) (count fun i => !P.comp i) (s.loc D r)).bind fun w =>
          if w.converged then (pResult (P.loc D r) (pargs D o B vb cbk r) (it + 1) true w).bind fun res => .ret (res, cbLoc D cbk cb r)
          else if (pargs D o B vb cbk r).callback then
            (rcount (P.loc D r).comp).bind fun _ => pLoop (P.loc D r) (pargs D o B vb cbk r) pentol (maxOver P.comp P.h)
              (count fun i => !P.comp i) fuel (it + 1) w.next (cbLoc D cbk cb r ++ [(it + 1, w.next.f)]) (some w)
          else pLoop (P.loc D r) (pargs D o B vb cbk r) pentol (maxOver P.comp P.h) (count fun i => !P.comp i) fuel (it + 1) w.next
            (cbLoc D cbk cb r) (some w) := fun r => rfl
    simp only [hl]
    unfold loop
    cases hs : step P o pentol s with
    | error er => exact Run.bind_error h er fun r => by rw [hs]; rfl
    | ok v =>
      refine Run.bind h (fun r => v.loc D r) (fun r => by rw [hs]; rfl) ?_
      have hcv : ∀ r, (v.loc D r).converged = v.converged := fun _ => rfl
      have hcb : ∀ r, (pargs D o B vb cbk r).callback = cbk := fun _ => rfl
      simp only [hcv, hcb]
      by_cases hc : v.converged = true
      · simp only [hc, if_true]
        exact Run.bind (run_pResult (it + 1) true v) (fun r => (mkResult P o (it + 1) true v).loc D r) (fun _ => rfl)
          (run_ret _ fun _ => rfl)
      · simp only [Bool.not_eq_true] at hc
        simp only [hc, Bool.false_eq_true, if_false]
        have hi := ih (it + 1) v.next (cb ++ [(it + 1, v.next.f)]) (some v)
        cases cbk with
        | true =>
          simp only [if_true]
          refine run_rcount P.comp ?_
          have : ∀ r, cbLoc D true cb r ++ [(it + 1, (v.loc D r).next.f)] = cbLoc D true (cb ++ [(it + 1, v.next.f)]) r := fun r => by
            simp only [cbLoc, if_true, List.map_append]; rfl
          simp only [this]
          exact hi
        | false =>
          simp only [Bool.false_eq_true, if_false]
          exact hi

lemma run_pPentol :
    Run D P (fun r => pPentol (P.loc D r) (pargs D o B vb cbk r)) fun _ => pentolOf P o := by
  unfold pPentol pentolOf
  simp only [pargs, Options.loc]
  cases o.pentol with
  | some p => exact run_ret _ fun _ => rfl
  | none =>
    refine Run.rms _ _ (fun _ => rfl) ?_
    have hmg : ∀ r, (P.loc D r).meanGrid = P.meanGrid := fun _ => rfl
    have hns : ∀ r, (P.loc D r).nSurf = P.nSurf := fun _ => rfl
    simp only [hmg, hns]
    by_cases h : P.rmsHeight / (10 * P.meanGrid) ≠ 0
    · simp only [h, ne_eq, not_false_eq_true, if_true]
      exact run_ret _ fun _ => rfl
    · simp only [h, if_false]
      refine run_rsum P.comp P.h ?_
      cases o.offset with
      | none => exact Run.raise _ (fun _ => .typeError) fun _ => rfl
      | some off =>
        dsimp only
        by_cases h2 : (off + sumOver P.comp P.h / P.nSurf) / 1000 ≠ 0
        · simp only [h2, ne_eq, not_false_eq_true, if_true]
          exact run_ret _ fun _ => rfl
        · simp only [h2, if_false]
          exact run_ret _ fun _ => rfl

lemma run_pInit :
    Run D P (fun r => pInit (P.loc D r) (pargs D o B vb cbk r))
      fun r => .ok (maxOver P.comp P.h, count (fun i => !P.comp i), (initState P o).loc D r) := by
  unfold pInit
  refine run_rmax P.comp P.h ?_
  refine run_rcount (fun i => !P.comp i) ?_
  unfold initState
  simp only [pargs, Options.loc]
  cases o.initialForces with
  | some f0 =>
    refine Run.bind (v := fun r => (D.part r f0, D.part r (P.disp f0))) (out := fun r => .ok (D.part r f0, D.part r (P.disp f0))) ?_
      (fun _ => rfl) (run_ret _ fun _ => rfl)
    exact run_edisp f0 (run_ret _ fun _ => rfl)
  | none =>
    rcases o with ⟨h1, h2, h3, h4, h5, h6, h7, h8, h9, h10, h11, h12, h13⟩
    cases h4 with
    | none =>
      refine Run.bind (v := fun r => (D.part r (P.force (initU P _)), D.part r (initU P _)))
        (out := fun r => .ok (D.part r (P.force (initU P ⟨h1, h2, h3, none, h5, h6, h7, h8, h9, h10, h11, h12, h13⟩)),
          D.part r (initU P ⟨h1, h2, h3, none, h5, h6, h7, h8, h9, h10, h11, h12, h13⟩))) ?_ (fun _ => rfl) (run_ret _ fun _ => rfl)
      exact run_eforce (D := D) (P := P) (initU P ⟨h1, h2, h3, none, h5, h6, h7, h8, h9, h10, h11, h12, h13⟩)
        (k := fun r f => .ret (f, D.part r (initU P ⟨h1, h2, h3, none, h5, h6, h7, h8, h9, h10, h11, h12, h13⟩))) (run_ret _ fun _ => rfl)
    | some u =>
      refine Run.bind (v := fun r => (D.part r (P.force (initU P _)), D.part r (initU P _)))
        (out := fun r => .ok (D.part r (P.force (initU P ⟨h1, h2, h3, some u, h5, h6, h7, h8, h9, h10, h11, h12, h13⟩)),
          D.part r (initU P ⟨h1, h2, h3, some u, h5, h6, h7, h8, h9, h10, h11, h12, h13⟩))) ?_ (fun _ => rfl) (run_ret _ fun _ => rfl)
      exact run_eforce (D := D) (P := P) (initU P ⟨h1, h2, h3, some u, h5, h6, h7, h8, h9, h10, h11, h12, h13⟩)
        (k := fun r f => .ret (f, D.part r (initU P ⟨h1, h2, h3, some u, h5, h6, h7, h8, h9, h10, h11, h12, h13⟩))) (run_ret _ fun _ => rfl)

/-- **C174** The solver on several processes: for every problem, every decomposition of the grid among processes (also if some have no
point), and every set of arguments, if all processes are called with their part of the arrays and the same numbers, no process ever waits
for another one in vain, and every process gets its part of what the solver returns on a single process, or the same exception; so do
the callbacks. -/
theorem C174_parallel (D : Decomp R ι) (P : Problem ι K) (o : Options ι K) (B : K → K → Strat K)
    (hB : ∀ f a b, o.bisect f a b = (B a b).run f) (ho : ∀ A, o.hardness ≠ .array A) (verbose callback : Bool) :
    Run D P (fun r => psolve (P.loc D r) (pargs D o B verbose callback r))
      fun r => (solveCb P o).map fun x => (x.1.loc D r, cbLoc D callback x.2 r) := by
  unfold psolve solveCb
  have h := run_pPentol (D := D) (P := P) (o := o) (B := B) (vb := verbose) (cbk := callback)
  cases hp : pentolOf P o with
  | error er => exact Run.bind_error h er fun _ => hp
  | ok pentol =>
    refine Run.bind h (fun _ => pentol) (fun _ => hp) ?_
    refine Run.bind (run_pInit (D := D) (P := P) (o := o) (B := B) (vb := verbose) (cbk := callback))
      (fun r => (maxOver P.comp P.h, count (fun i => !P.comp i), (initState P o).loc D r)) (fun _ => rfl) ?_
    have := run_pLoop (D := D) (P := P) (vb := verbose) (cbk := callback) hB ho pentol o.maxiter 0 (initState P o) [] none
    have e : ∀ r : R, cbLoc D callback ([] : List (ℕ × (ι → K))) r = [] := fun r => by cases callback <;> rfl
    simp only [e] at this
    exact this

/-- **C174** The outcome is determined: whatever the order in which the processes run, an execution that ends has this outcome. -/
theorem C174_deterministic [Nonempty R] {α : R → Type} {c : ∀ r, Prog (D.κ r) K (α r)} {o1 o2 : ∀ r, Except PyErr (α r)}
    (h1 : Run D P c o1) (h2 : Run D P c o2) : o1 = o2 := by
  obtain ⟨r0⟩ := ‹Nonempty R›
  induction h1 with
  | ret c a hc =>
    cases h2 with
    | ret _ a' hc' => funext r; have := (hc r).symm.trans (hc' r); simp only [Prog.ret.injEq] at this; rw [this]
    | raise _ _ hc' => have := (hc r0).symm.trans (hc' r0); cases this
    | sum _ _ _ hc' => have := (hc r0).symm.trans (hc' r0); cases this
    | count _ _ _ hc' => have := (hc r0).symm.trans (hc' r0); cases this
    | max _ _ _ hc' => have := (hc r0).symm.trans (hc' r0); cases this
    | min _ _ _ hc' => have := (hc r0).symm.trans (hc' r0); cases this
    | disp _ _ _ hc' => have := (hc r0).symm.trans (hc' r0); cases this
    | force _ _ _ hc' => have := (hc r0).symm.trans (hc' r0); cases this
    | rms _ _ hc' => have := (hc r0).symm.trans (hc' r0); cases this
  | raise c a hc =>
    cases h2 with
    | raise _ a' hc' => funext r; have := (hc r).symm.trans (hc' r); simp only [Prog.raise.injEq] at this; rw [this]
    | ret _ _ hc' => have := (hc r0).symm.trans (hc' r0); cases this
    | sum _ _ _ hc' => have := (hc r0).symm.trans (hc' r0); cases this
    | count _ _ _ hc' => have := (hc r0).symm.trans (hc' r0); cases this
    | max _ _ _ hc' => have := (hc r0).symm.trans (hc' r0); cases this
    | min _ _ _ hc' => have := (hc r0).symm.trans (hc' r0); cases this
    | disp _ _ _ hc' => have := (hc r0).symm.trans (hc' r0); cases this
    | force _ _ _ hc' => have := (hc r0).symm.trans (hc' r0); cases this
    | rms _ _ hc' => have := (hc r0).symm.trans (hc' r0); cases this
  | sum c x k hc _ ih =>
    cases h2 with
    | sum _ x' k' hc' h' =>
      have hx : x' = x := by funext r; have := (hc r).symm.trans (hc' r); simp only [Prog.sum.injEq] at this; exact this.1.symm
      have hk : k' = k := by funext r; have := (hc r).symm.trans (hc' r); simp only [Prog.sum.injEq] at this; exact this.2.symm
      subst hx hk; exact ih h'
    | ret _ _ hc' => have := (hc r0).symm.trans (hc' r0); cases this
    | raise _ _ hc' => have := (hc r0).symm.trans (hc' r0); cases this
    | count _ _ _ hc' => have := (hc r0).symm.trans (hc' r0); cases this
    | max _ _ _ hc' => have := (hc r0).symm.trans (hc' r0); cases this
    | min _ _ _ hc' => have := (hc r0).symm.trans (hc' r0); cases this
    | disp _ _ _ hc' => have := (hc r0).symm.trans (hc' r0); cases this
    | force _ _ _ hc' => have := (hc r0).symm.trans (hc' r0); cases this
    | rms _ _ hc' => have := (hc r0).symm.trans (hc' r0); cases this
  | count c x k hc _ ih =>
    cases h2 with
    | count _ x' k' hc' h' =>
      have hx : x' = x := by funext r; have := (hc r).symm.trans (hc' r); simp only [Prog.count.injEq] at this; exact this.1.symm
      have hk : k' = k := by funext r; have := (hc r).symm.trans (hc' r); simp only [Prog.count.injEq] at this; exact this.2.symm
      subst hx hk; exact ih h'
    | ret _ _ hc' => have := (hc r0).symm.trans (hc' r0); cases this
    | raise _ _ hc' => have := (hc r0).symm.trans (hc' r0); cases this
    | sum _ _ _ hc' => have := (hc r0).symm.trans (hc' r0); cases this
    | max _ _ _ hc' => have := (hc r0).symm.trans (hc' r0); cases this
    | min _ _ _ hc' => have := (hc r0).symm.trans (hc' r0); cases this
    | disp _ _ _ hc' => have := (hc r0).symm.trans (hc' r0); cases this
    | force _ _ _ hc' => have := (hc r0).symm.trans (hc' r0); cases this
    | rms _ _ hc' => have := (hc r0).symm.trans (hc' r0); cases this
  | max c x k hc _ ih =>
    cases h2 with
    | max _ x' k' hc' h' =>
      have hx : x' = x := by funext r; have := (hc r).symm.trans (hc' r); simp only [Prog.max.injEq] at this; exact this.1.symm
      have hk : k' = k := by funext r; have := (hc r).symm.trans (hc' r); simp only [Prog.max.injEq] at this; exact this.2.symm
      subst hx hk; exact ih h'
    | ret _ _ hc' => have := (hc r0).symm.trans (hc' r0); cases this
    | raise _ _ hc' => have := (hc r0).symm.trans (hc' r0); cases this
    | sum _ _ _ hc' => have := (hc r0).symm.trans (hc' r0); cases this
    | count _ _ _ hc' => have := (hc r0).symm.trans (hc' r0); cases this
    | min _ _ _ hc' => have := (hc r0).symm.trans (hc' r0); cases this
    | disp _ _ _ hc' => have := (hc r0).symm.trans (hc' r0); cases this
    | force _ _ _ hc' => have := (hc r0).symm.trans (hc' r0); cases this
    | rms _ _ hc' => have := (hc r0).symm.trans (hc' r0); cases this
  | min c x k hc _ ih =>
    cases h2 with
    | min _ x' k' hc' h' =>
      have hx : x' = x := by funext r; have := (hc r).symm.trans (hc' r); simp only [Prog.min.injEq] at this; exact this.1.symm
      have hk : k' = k := by funext r; have := (hc r).symm.trans (hc' r); simp only [Prog.min.injEq] at this; exact this.2.symm
      subst hx hk; exact ih h'
    | ret _ _ hc' => have := (hc r0).symm.trans (hc' r0); cases this
    | raise _ _ hc' => have := (hc r0).symm.trans (hc' r0); cases this
    | sum _ _ _ hc' => have := (hc r0).symm.trans (hc' r0); cases this
    | count _ _ _ hc' => have := (hc r0).symm.trans (hc' r0); cases this
    | max _ _ _ hc' => have := (hc r0).symm.trans (hc' r0); cases this
    | disp _ _ _ hc' => have := (hc r0).symm.trans (hc' r0); cases this
    | force _ _ _ hc' => have := (hc r0).symm.trans (hc' r0); cases this
    | rms _ _ hc' => have := (hc r0).symm.trans (hc' r0); cases this
  | disp c x k hc _ ih =>
    cases h2 with
    | disp _ x' k' hc' h' =>
      have hx : x' = x := by funext r; have := (hc r).symm.trans (hc' r); simp only [Prog.disp.injEq] at this; exact this.1.symm
      have hk : k' = k := by funext r; have := (hc r).symm.trans (hc' r); simp only [Prog.disp.injEq] at this; exact this.2.symm
      subst hx hk; exact ih h'
    | ret _ _ hc' => have := (hc r0).symm.trans (hc' r0); cases this
    | raise _ _ hc' => have := (hc r0).symm.trans (hc' r0); cases this
    | sum _ _ _ hc' => have := (hc r0).symm.trans (hc' r0); cases this
    | count _ _ _ hc' => have := (hc r0).symm.trans (hc' r0); cases this
    | max _ _ _ hc' => have := (hc r0).symm.trans (hc' r0); cases this
    | min _ _ _ hc' => have := (hc r0).symm.trans (hc' r0); cases this
    | force _ _ _ hc' => have := (hc r0).symm.trans (hc' r0); cases this
    | rms _ _ hc' => have := (hc r0).symm.trans (hc' r0); cases this
  | force c x k hc _ ih =>
    cases h2 with
    | force _ x' k' hc' h' =>
      have hx : x' = x := by funext r; have := (hc r).symm.trans (hc' r); simp only [Prog.force.injEq] at this; exact this.1.symm
      have hk : k' = k := by funext r; have := (hc r).symm.trans (hc' r); simp only [Prog.force.injEq] at this; exact this.2.symm
      subst hx hk; exact ih h'
    | ret _ _ hc' => have := (hc r0).symm.trans (hc' r0); cases this
    | raise _ _ hc' => have := (hc r0).symm.trans (hc' r0); cases this
    | sum _ _ _ hc' => have := (hc r0).symm.trans (hc' r0); cases this
    | count _ _ _ hc' => have := (hc r0).symm.trans (hc' r0); cases this
    | max _ _ _ hc' => have := (hc r0).symm.trans (hc' r0); cases this
    | min _ _ _ hc' => have := (hc r0).symm.trans (hc' r0); cases this
    | disp _ _ _ hc' => have := (hc r0).symm.trans (hc' r0); cases this
    | rms _ _ hc' => have := (hc r0).symm.trans (hc' r0); cases this
  | rms c k hc _ ih =>
    cases h2 with
    | rms _ k' hc' h' =>
      have hk : k' = k := by funext r; have := (hc r).symm.trans (hc' r); simp only [Prog.rms.injEq] at this; exact this.symm
      subst hk; exact ih h'
    | ret _ _ hc' => have := (hc r0).symm.trans (hc' r0); cases this
    | raise _ _ hc' => have := (hc r0).symm.trans (hc' r0); cases this
    | sum _ _ _ hc' => have := (hc r0).symm.trans (hc' r0); cases this
    | count _ _ _ hc' => have := (hc r0).symm.trans (hc' r0); cases this
    | max _ _ _ hc' => have := (hc r0).symm.trans (hc' r0); cases this
    | min _ _ _ hc' => have := (hc r0).symm.trans (hc' r0); cases this
    | disp _ _ _ hc' => have := (hc r0).symm.trans (hc' r0); cases this
    | force _ _ _ hc' => have := (hc r0).symm.trans (hc' r0); cases this

end
end CM.CCG
