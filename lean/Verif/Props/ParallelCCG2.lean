import Verif.Props.ParallelCCG
import Verif.Props.CCGDemo
import Mathlib.Logic.Equiv.Sum
/-!
# C174: the hypotheses can be met; an array of hardnesses blocks the processes
-/
set_option linter.unusedSectionVars false
namespace CM.CCG
open Finset

section
variable {R ι K : Type} [Fintype R] [Fintype ι] [Field K] [LinearOrder K] {D : Decomp R ι} {P : Problem ι K}

/-- The decomposition in which point `i` belongs to process `own i`. -/
def ownedBy [DecidableEq R] (own : ι → R) : Decomp R ι where
  κ := fun r => {i // own i = r}
  fin := fun _ => inferInstance
  e := Equiv.sigmaFiberEquiv own

/-! A root finder that halves the interval `n` times, and the function it computes. -/

/-- `n` steps of bisection. -/
def halving : ℕ → K → K → Strat K
  | 0, a, b => .found (.ok ((a + b) / 2))
  | n + 1, a, b => .ask ((a + b) / 2) fun y => if 0 < y then halving n a ((a + b) / 2) else halving n ((a + b) / 2) b

/-! ## Runs of sequences -/

lemma Prog.bind_assoc {κ α β γ : Type} (c : Prog κ K α) (f : α → Prog κ K β) (g : β → Prog κ K γ) :
    (c.bind f).bind g = c.bind fun a => (f a).bind g := by
  induction c with
  | ret a => rfl
  | raise e => rfl
  | sum x k ih => simp only [Prog.bind, ih]
  | count x k ih => simp only [Prog.bind, ih]
  | max x k ih => simp only [Prog.bind, ih]
  | min x k ih => simp only [Prog.bind, ih]
  | disp x k ih => simp only [Prog.bind, ih]
  | force x k ih => simp only [Prog.bind, ih]
  | rms k ih => simp only [Prog.bind, ih]

lemma Run.bind_inv [Nonempty R] {α β : R → Type} {c : ∀ r, Prog (D.κ r) K (α r)} {out : ∀ r, Except PyErr (α r)} (h : Run D P c out)
    {k : ∀ r, α r → Prog (D.κ r) K (β r)} {out' : ∀ r, Except PyErr (β r)} (v : ∀ r, α r) (hv : ∀ r, out r = .ok (v r))
    (hk : Run D P (fun r => (c r).bind (k r)) out') : Run D P (fun r => k r (v r)) out' := by
  obtain ⟨r0⟩ := ‹Nonempty R›
  induction h with
  | ret c a hc =>
    have : v = a := by funext r; have := hv r; simpa using this.symm
    subst this
    have : (fun r => (c r).bind (k r)) = fun r => k r (v r) := by funext r; rw [hc r]; rfl
    rw [this] at hk; exact hk
  | raise c e hc => exact absurd (hv r0) (by simp)
  | sum c x k' hc _ ih =>
    apply ih hv
    have e : (fun r => (c r).bind (k r)) = fun r => Prog.sum (x r) fun y => (k' r y).bind (k r) := by funext r; rw [hc r]; rfl
    rw [e] at hk
    cases hk with
    | sum _ x' k'' hc' h' =>
      have hx : x' = x := by funext r; have := hc' r; simp only [Prog.sum.injEq] at this; exact this.1.symm
      have hk : k'' = fun r y => (k' r y).bind (k r) := by funext r; have := hc' r; simp only [Prog.sum.injEq] at this; exact this.2.symm
      subst hx hk; exact h'
    | ret _ _ hc' => exact absurd (hc' r0) (by simp)
    | raise _ _ hc' => exact absurd (hc' r0) (by simp)
    | count _ _ _ hc' => exact absurd (hc' r0) (by simp)
    | max _ _ _ hc' => exact absurd (hc' r0) (by simp)
    | min _ _ _ hc' => exact absurd (hc' r0) (by simp)
    | disp _ _ _ hc' => exact absurd (hc' r0) (by simp)
    | force _ _ _ hc' => exact absurd (hc' r0) (by simp)
    | rms _ _ hc' => exact absurd (hc' r0) (by simp)
  | count c x k' hc _ ih =>
    apply ih hv
    have e : (fun r => (c r).bind (k r)) = fun r => Prog.count (x r) fun y => (k' r y).bind (k r) := by funext r; rw [hc r]; rfl
    rw [e] at hk
    cases hk with
    | count _ x' k'' hc' h' =>
      have hx : x' = x := by funext r; have := hc' r; simp only [Prog.count.injEq] at this; exact this.1.symm
      have hk : k'' = fun r y => (k' r y).bind (k r) := by funext r; have := hc' r; simp only [Prog.count.injEq] at this; exact this.2.symm
      subst hx hk; exact h'
    | ret _ _ hc' => exact absurd (hc' r0) (by simp)
    | raise _ _ hc' => exact absurd (hc' r0) (by simp)
    | sum _ _ _ hc' => exact absurd (hc' r0) (by simp)
    | max _ _ _ hc' => exact absurd (hc' r0) (by simp)
    | min _ _ _ hc' => exact absurd (hc' r0) (by simp)
    | disp _ _ _ hc' => exact absurd (hc' r0) (by simp)
    | force _ _ _ hc' => exact absurd (hc' r0) (by simp)
    | rms _ _ hc' => exact absurd (hc' r0) (by simp)
  | max c x k' hc _ ih =>
    apply ih hv
    have e : (fun r => (c r).bind (k r)) = fun r => Prog.max (x r) fun y => (k' r y).bind (k r) := by funext r; rw [hc r]; rfl
    rw [e] at hk
    cases hk with
    | max _ x' k'' hc' h' =>
      have hx : x' = x := by funext r; have := hc' r; simp only [Prog.max.injEq] at this; exact this.1.symm
      have hk : k'' = fun r y => (k' r y).bind (k r) := by funext r; have := hc' r; simp only [Prog.max.injEq] at this; exact this.2.symm
      subst hx hk; exact h'
    | ret _ _ hc' => exact absurd (hc' r0) (by simp)
    | raise _ _ hc' => exact absurd (hc' r0) (by simp)
    | sum _ _ _ hc' => exact absurd (hc' r0) (by simp)
    | count _ _ _ hc' => exact absurd (hc' r0) (by simp)
    | min _ _ _ hc' => exact absurd (hc' r0) (by simp)
    | disp _ _ _ hc' => exact absurd (hc' r0) (by simp)
    | force _ _ _ hc' => exact absurd (hc' r0) (by simp)
    | rms _ _ hc' => exact absurd (hc' r0) (by simp)
  | min c x k' hc _ ih =>
    apply ih hv
    have e : (fun r => (c r).bind (k r)) = fun r => Prog.min (x r) fun y => (k' r y).bind (k r) := by funext r; rw [hc r]; rfl
    rw [e] at hk
    cases hk with
    | min _ x' k'' hc' h' =>
      have hx : x' = x := by funext r; have := hc' r; simp only [Prog.min.injEq] at this; exact this.1.symm
      have hk : k'' = fun r y => (k' r y).bind (k r) := by funext r; have := hc' r; simp only [Prog.min.injEq] at this; exact this.2.symm
      subst hx hk; exact h'
    | ret _ _ hc' => exact absurd (hc' r0) (by simp)
    | raise _ _ hc' => exact absurd (hc' r0) (by simp)
    | sum _ _ _ hc' => exact absurd (hc' r0) (by simp)
    | count _ _ _ hc' => exact absurd (hc' r0) (by simp)
    | max _ _ _ hc' => exact absurd (hc' r0) (by simp)
    | disp _ _ _ hc' => exact absurd (hc' r0) (by simp)
    | force _ _ _ hc' => exact absurd (hc' r0) (by simp)
    | rms _ _ hc' => exact absurd (hc' r0) (by simp)
  | disp c x k' hc _ ih =>
    apply ih hv
    have e : (fun r => (c r).bind (k r)) = fun r => Prog.disp (x r) fun y => (k' r y).bind (k r) := by funext r; rw [hc r]; rfl
    rw [e] at hk
    cases hk with
    | disp _ x' k'' hc' h' =>
      have hx : x' = x := by funext r; have := hc' r; simp only [Prog.disp.injEq] at this; exact this.1.symm
      have hk : k'' = fun r y => (k' r y).bind (k r) := by funext r; have := hc' r; simp only [Prog.disp.injEq] at this; exact this.2.symm
      subst hx hk; exact h'
    | ret _ _ hc' => exact absurd (hc' r0) (by simp)
    | raise _ _ hc' => exact absurd (hc' r0) (by simp)
    | sum _ _ _ hc' => exact absurd (hc' r0) (by simp)
    | count _ _ _ hc' => exact absurd (hc' r0) (by simp)
    | max _ _ _ hc' => exact absurd (hc' r0) (by simp)
    | min _ _ _ hc' => exact absurd (hc' r0) (by simp)
    | force _ _ _ hc' => exact absurd (hc' r0) (by simp)
    | rms _ _ hc' => exact absurd (hc' r0) (by simp)
  | force c x k' hc _ ih =>
    apply ih hv
    have e : (fun r => (c r).bind (k r)) = fun r => Prog.force (x r) fun y => (k' r y).bind (k r) := by funext r; rw [hc r]; rfl
    rw [e] at hk
    cases hk with
    | force _ x' k'' hc' h' =>
      have hx : x' = x := by funext r; have := hc' r; simp only [Prog.force.injEq] at this; exact this.1.symm
      have hk : k'' = fun r y => (k' r y).bind (k r) := by funext r; have := hc' r; simp only [Prog.force.injEq] at this; exact this.2.symm
      subst hx hk; exact h'
    | ret _ _ hc' => exact absurd (hc' r0) (by simp)
    | raise _ _ hc' => exact absurd (hc' r0) (by simp)
    | sum _ _ _ hc' => exact absurd (hc' r0) (by simp)
    | count _ _ _ hc' => exact absurd (hc' r0) (by simp)
    | max _ _ _ hc' => exact absurd (hc' r0) (by simp)
    | min _ _ _ hc' => exact absurd (hc' r0) (by simp)
    | disp _ _ _ hc' => exact absurd (hc' r0) (by simp)
    | rms _ _ hc' => exact absurd (hc' r0) (by simp)
  | rms c k' hc _ ih =>
    apply ih hv
    have e : (fun r => (c r).bind (k r)) = fun r => Prog.rms fun y => (k' r y).bind (k r) := by funext r; rw [hc r]; rfl
    rw [e] at hk
    cases hk with
    | rms _ k'' hc' h' =>
      have hk : k'' = fun r y => (k' r y).bind (k r) := by funext r; have := hc' r; simp only [Prog.rms.injEq] at this; exact this.symm
      subst hk; exact h'
    | ret _ _ hc' => exact absurd (hc' r0) (by simp)
    | raise _ _ hc' => exact absurd (hc' r0) (by simp)
    | sum _ _ _ hc' => exact absurd (hc' r0) (by simp)
    | count _ _ _ hc' => exact absurd (hc' r0) (by simp)
    | max _ _ _ hc' => exact absurd (hc' r0) (by simp)
    | min _ _ _ hc' => exact absurd (hc' r0) (by simp)
    | disp _ _ _ hc' => exact absurd (hc' r0) (by simp)
    | force _ _ _ hc' => exact absurd (hc' r0) (by simp)

/-- The process takes part in a collective call next. -/
def Prog.waits {κ α : Type} : Prog κ K α → Prop
  | .ret _ => False
  | .raise _ => False
  | _ => True

/-- A process that raises does not enter the collective call another one waits in. -/
lemma not_run {α : R → Type} {c : ∀ r, Prog (D.κ r) K (α r)} {r1 r2 : R} (h1 : (c r1).waits) {e : PyErr} (h2 : c r2 = .raise e)
    (out : ∀ r, Except PyErr (α r)) : ¬Run D P c out := by
  intro h
  cases h with
  | ret _ _ hc => rw [hc r2] at h2; exact absurd h2 (by simp)
  | raise _ _ hc => rw [hc r1] at h1; exact h1
  | sum _ _ _ hc => rw [hc r2] at h2; exact absurd h2 (by simp)
  | count _ _ _ hc => rw [hc r2] at h2; exact absurd h2 (by simp)
  | max _ _ _ hc => rw [hc r2] at h2; exact absurd h2 (by simp)
  | min _ _ _ hc => rw [hc r2] at h2; exact absurd h2 (by simp)
  | disp _ _ _ hc => rw [hc r2] at h2; exact absurd h2 (by simp)
  | force _ _ _ hc => rw [hc r2] at h2; exact absurd h2 (by simp)
  | rms _ _ hc => rw [hc r2] at h2; exact absurd h2 (by simp)

variable {o : Options ι K} {B : K → K → Strat K} {vb cbk : Bool}

lemma Prog.bind_eq {κ α β : Type} (c : Prog κ K α) (f : α → Prog κ K β) : (c >>= f) = c.bind f := rfl

lemma Prog.waits_bind {κ α β : Type} {c : Prog κ K α} (h : c.waits) (f : α → Prog κ K β) : (c.bind f).waits := by
  cases c <;> first | exact h.elim | trivial

lemma run_pad (m : Mid ι K) :
    Run D P (fun r => if 0 < count (fun i => !P.comp i) then rmax (fun i => !(P.loc D r).comp i) (fun i => pabs ((m.loc D r).f i)) else .ret 0)
      fun _ => .ok (if 0 < count (fun i => !P.comp i) then maxOver (fun i => !P.comp i) (fun i => pabs (m.f i)) else 0) := by
  by_cases h : 0 < count (fun i => !P.comp i)
  · simp only [h, if_true]
    exact Run.max _ (fun r => localMax (D.part r fun i => !P.comp i) (D.part r fun i => pabs (m.f i))) (fun _ => .ret) (fun _ => rfl)
      (by rw [localMax_parts]; exact run_ret _ fun _ => rfl)
  · simp only [h, if_false]
    exact run_ret _ fun _ => rfl

lemma run_tens (m : Mid ι K) : Run D P (fun r => if 0 < count (tensile m) then rmax (tensile (m.loc D r)) (m.loc D r).f else .ret 0)
      fun _ => .ok (if 0 < count (tensile m) then maxOver (tensile m) m.f else 0) := by
  by_cases h : 0 < count (tensile m)
  · simp only [h, if_true]
    exact Run.max _ (fun r => localMax (D.part r (tensile m)) (D.part r m.f)) (fun _ => .ret) (fun _ => rfl)
      (by rw [localMax_parts]; exact run_ret _ fun _ => rfl)
  · simp only [h, if_false]
    exact run_ret _ fun _ => rfl

/-- **C174** An array of hardnesses blocks the processes: `if hardness:` is evaluated on the block of each process, so it raises where the
block has several points (or none) and does not where it has one point; the latter waits for ever. -/
theorem C174_array_hardness_partial (D : Decomp R ι) (P : Problem ι K) (o : Options ι K) (B : K → K → Strat K)
    (hB : ∀ f a b, o.bisect f a b = (B a b).run f) (A : ι → K) (hA : o.hardness = .array A) (hF : o.externalForce = none)
    (p : K) (hp : o.pentol = some p) (hm : 0 < o.maxiter) (r1 r2 : R) (h1 : Fintype.card (D.κ r1) = 1) (h2 : Fintype.card (D.κ r2) ≠ 1)
    (verbose callback : Bool) (out : ∀ r, Except PyErr (Result (D.κ r) K × List (ℕ × (D.κ r → K)))) :
    ¬Run D P (fun r => psolve (P.loc D r) (pargs D o B verbose callback r)) out := by
  intro h
  have : Nonempty R := ⟨r1⟩
  unfold psolve at h
  have hpt : pentolOf P o = .ok p := by rw [pentolOf, hp]
  have h := Run.bind_inv (run_pPentol (D := D) (P := P) (o := o) (B := B) (vb := verbose) (cbk := callback)) (fun _ => p) (fun _ => hpt) h
  have h := Run.bind_inv (run_pInit (D := D) (P := P) (o := o) (B := B) (vb := verbose) (cbk := callback))
    (fun r => (maxOver P.comp P.h, count (fun i => !P.comp i), (initState P o).loc D r)) (fun _ => rfl) h
  obtain ⟨n, hn⟩ : ∃ n, o.maxiter = n + 1 := ⟨o.maxiter - 1, by omega⟩
  have e : ∀ r, (pargs D o B verbose callback r).opts.maxiter = n + 1 := fun _ => hn
  simp only [e, pLoop, pStep, Prog.bind_eq, Prog.bind_assoc] at h
  obtain ⟨m, hb⟩ : ∃ m, branch P o (initState P o) = .ok m := by
    unfold branch
    split
    · exact ⟨_, rfl⟩
    · simp only [mixBranch, hF]; exact ⟨_, rfl⟩
  have h := Run.bind_inv (run_pBranch (D := D) (P := P) (vb := verbose) (cbk := callback) hB (initState P o))
    (fun r => (count (contact (initState P o)), count (cgSet o (initState P o)), m.loc D r)) (fun r => by rw [hb]; rfl) h
  simp only [pFinish, Prog.bind_eq, Prog.bind_assoc] at h
  have h := Run.bind_inv (run_pad m) (fun _ => _) (fun _ => rfl) h
  simp only [pMaxPres, Prog.bind_assoc] at h
  have h := Run.bind_inv (c := fun r => rcount (tensile (m.loc D r))) (out := fun _ => .ok (count (tensile m)))
    (Run.count _ (fun r => count (D.part r (tensile m))) (fun _ => .ret) (fun _ => rfl)
          (by rw [count_parts]; exact run_ret _ fun _ => rfl)) (fun _ => _) (fun _ => rfl) h
  have h := Run.bind_inv (run_tens m) (fun _ => _) (fun _ => rfl) h
  have t1 : ∃ b, (pargs D o B verbose callback r1).opts.hardness.truth = .ok b := by
    simp only [pargs, Options.loc, hA, Hardness.loc, Hardness.truth, h1, if_true]; exact ⟨_, rfl⟩
  have t2 : (pargs D o B verbose callback r2).opts.hardness.truth = .error .valueError := by
    simp only [pargs, Options.loc, hA, Hardness.loc, Hardness.truth, if_neg h2]
  refine not_run (r1 := r1) (r2 := r2) (e := .valueError) ?_ ?_ _ h
  · obtain ⟨b, t1⟩ := t1
    rw [t1]
    have hFr : (pargs D o B verbose callback r1).opts.externalForce = none := hF
    cases b with
    | true => trivial
    | false =>
      simp only [pRescale, hFr, Prog.bind]
      split
      · trivial
      · trivial
  · rw [t2]
    rfl

end

/-! ## Examples -/

/-- Three processes; the first one owns the first two points, the second one the padding point, the third one nothing. -/
def demoD : Decomp (Fin 3) (Fin 3) := ownedBy ![0, 0, 1]

example : (demoD.part 0 ![(5 : ℚ), 8, 0]) ⟨1, rfl⟩ = 8 ∧ IsEmpty (demoD.κ 2) := by
  refine ⟨rfl, ⟨fun x => ?_⟩⟩
  obtain ⟨i, hi⟩ := x
  revert i
  decide

example : ∃ (r : Result (Fin 3) ℚ) (cb : List (ℕ × (Fin 3 → ℚ))),
    Run demoD (demo ![5, 8, 0]) (fun p => psolve ((demo ![5, 8, 0]).loc demoD p) (pargs demoD demoOpt (fun a _ => .found (.ok a)) true true p))
      (fun p => .ok (r.loc demoD p, cb.map fun x => (x.1, demoD.part p x.2))) ∧ r.success = true ∧ cb.length = 2 ∧ r.jac = ![1, 2, 0] := by
  obtain ⟨r, cb, h, h1, h2, _, _, _, _, _, h3⟩ := demo_run
  have := C174_parallel demoD (demo ![5, 8, 0]) demoOpt (fun a _ => .found (.ok a)) (fun _ _ _ => rfl) (by intro A; simp [demoOpt]) true true
  rw [h] at this
  exact ⟨r, cb, this, h1, h3, h2⟩

/-- The hypotheses of `C174_array_hardness_partial` can be met: the second process has one point, the first one has two. -/
example (out) : ¬Run demoD (demo ![5, 8, 0]) (fun p => psolve ((demo ![5, 8, 0]).loc demoD p)
    (pargs demoD { demoOpt with hardness := .array ![1, 1, 1], bisect := fun f a b => (halving 5 a b).run f } (halving 5) true true p)) out :=
  C174_array_hardness_partial demoD (demo ![5, 8, 0]) _ _ (fun _ _ _ => rfl) ![1, 1, 1] rfl rfl _ rfl (by simp [demoOpt]) 1 0
    (by decide) (by decide) true true out

end CM.CCG
