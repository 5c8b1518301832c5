import Verif.Spec.Extension
import Verif.Model.EndToEnd
import Mathlib.Tactic
/-!
# Calculations can be extended (C204)
-/
namespace CM.Pipe
open CM.HS CM.FFT CM.System CM.Spec

/-- All five arrays have the length `n`. -/
def History.Len (h : History) (n : ℕ) : Prop := h.disp.length = n ∧ h.gap.length = n ∧ h.pressure.length = n ∧ h.area.length = n ∧ h.converged.length = n

/-- The history goes on with `h`. -/
def History.Begins (g h : History) : Prop := g.disp <+: h.disp ∧ g.gap <+: h.gap ∧ g.pressure <+: h.pressure ∧ g.area <+: h.area ∧ g.converged <+: h.converged

lemma Begins.refl (h : History) : h.Begins h := ⟨List.prefix_rfl, List.prefix_rfl, List.prefix_rfl, List.prefix_rfl, List.prefix_rfl⟩

lemma Begins.trans {a b c : History} (h : a.Begins b) (h' : b.Begins c) : a.Begins c :=
  ⟨h.1.trans h'.1, h.2.1.trans h'.2.1, h.2.2.1.trans h'.2.2.1, h.2.2.2.1.trans h'.2.2.2.1, h.2.2.2.2.trans h'.2.2.2.2⟩

lemma calculation_history {sizes : List ℝ} {solver : Solver} {Y Y' : AnySys} {o F p : Option ℝ} {hist : Option History} {m : ℤ} {rep : Report} {h : History}
    (e : contactCalculation sizes solver Y o F hist p m = (.ok (rep, h), Y')) : (hist.getD .empty).Begins h ∧ ∀ n, (hist.getD .empty).Len n → h.Len (n + 1) := by
  unfold contactCalculation at e
  dsimp only at e
  split at e
  · injection e with e _; cases e
  · injection e with e _
    simp only [bind, Except.bind, pure, Except.pure] at e
    split at e
    · cases e
    · split at e
      · cases e
      · injection e with e
        injection e with _ e
        rw [← e]
        refine ⟨⟨List.prefix_append .., List.prefix_append .., List.prefix_append .., List.prefix_append .., List.prefix_append ..⟩, fun n hn => ?_⟩
        obtain ⟨h1, h2, h3, h4, h5⟩ := hn
        refine ⟨?_, ?_, ?_, ?_, ?_⟩ <;> simp [*]

lemma runStep_history {sizes : List ℝ} {solver : Solver} {Y Y' : AnySys} {p : Option ℝ} {hist : Option History} {m : ℤ} {q : Request} {rep : Report} {h : History}
    (e : runStep sizes solver p m Y hist q = (.ok (rep, h), Y')) : (hist.getD .empty).Begins h ∧ ∀ n, (hist.getD .empty).Len n → h.Len (n + 1) := by
  cases q with
  | offset o => exact calculation_history e
  | force F => exact calculation_history e
  | auto => exact calculation_history e

lemma runSteps_history (sizes : List ℝ) (solver : Solver) (p : Option ℝ) (m : ℤ) (cb : Bool) : ∀ (qs : List Request) (Y : AnySys) (hist : Option History) (h : Option History) (reps : List Report),
    runSteps sizes solver p m cb Y hist qs = (.ok h, reps) → (hist.getD .empty).Begins (h.getD .empty) ∧ (∀ n, (hist.getD .empty).Len n → (h.getD .empty).Len (n + qs.length)) ∧
      (hist.isSome = true ∨ qs ≠ [] → h.isSome = true) ∧ reps.length = if cb then qs.length else 0 := by
  intro qs
  induction qs with
  | nil =>
    intro Y hist h reps e
    simp only [runSteps, Prod.mk.injEq, Except.ok.injEq] at e
    obtain ⟨rfl, rfl⟩ := e
    exact ⟨Begins.refl _, fun n hn => hn, fun h => h.resolve_right fun h => h rfl, by simp⟩
  | cons q qs ih =>
    intro Y hist h reps e
    unfold runSteps at e
    split at e
    · injection e with e _; cases e
    · rename_i rep h1 Y' e1
      obtain ⟨g1, g2⟩ := runStep_history e1
      cases hr : runSteps sizes solver p m cb Y' (some h1) qs with
      | mk r reps' =>
        rw [hr] at e
        injection e with e2 e3
        subst e2
        obtain ⟨i1, i2, i3, i4⟩ := ih _ _ _ _ hr
        refine ⟨Begins.trans g1 i1, fun n hn => ?_, fun _ => i3 (.inl rfl), ?_⟩
        · have := i2 _ (g2 n hn)
          rw [List.length_cons]
          rwa [show n + (qs.length + 1) = n + 1 + qs.length by ring]
        · rw [← e3]
          split_ifs at i4 ⊢ <;> simp [i4]

lemma runSteps_cons (sizes : List ℝ) (solver : Solver) (p : Option ℝ) (m : ℤ) (cb : Bool) (Y : AnySys) (hist : Option History) (q : Request) (qs : List Request) :
    runSteps sizes solver p m cb Y hist (q :: qs) = match runStep sizes solver p m Y hist q with
    | (.error e, _) => (.error e, [])
    | (.ok (rep, h), Y') => ((runSteps sizes solver p m cb Y' (some h) qs).1, if cb then rep :: (runSteps sizes solver p m cb Y' (some h) qs).2 else (runSteps sizes solver p m cb Y' (some h) qs).2) := by
  rw [runSteps]
  split <;> rename_i e <;> rw [e]

/-- The first part of a calculation does not know of the rest. -/
lemma runSteps_append (sizes : List ℝ) (solver : Solver) (p : Option ℝ) (m : ℤ) (cb : Bool) (rest : List Request) : ∀ (qs : List Request) (Y : AnySys) (hist : Option History),
    (∀ e reps, runSteps sizes solver p m cb Y hist qs = (.error e, reps) → runSteps sizes solver p m cb Y hist (qs ++ rest) = (.error e, reps)) ∧
    ∀ h reps, runSteps sizes solver p m cb Y hist qs = (.ok h, reps) → ∃ Y', runSteps sizes solver p m cb Y hist (qs ++ rest) =
      ((runSteps sizes solver p m cb Y' h rest).1, reps ++ (runSteps sizes solver p m cb Y' h rest).2) := by
  intro qs
  induction qs with
  | nil =>
    intro Y hist
    refine ⟨fun e reps h => ?_, fun h reps e => ?_⟩
    · simp [runSteps] at h
    · simp only [runSteps, Prod.mk.injEq, Except.ok.injEq] at e
      obtain ⟨rfl, rfl⟩ := e
      exact ⟨Y, rfl⟩
  | cons q qs ih =>
    intro Y hist
    rw [List.cons_append, runSteps_cons, runSteps_cons]
    cases hs : runStep sizes solver p m Y hist q with
    | mk r Y1 =>
      cases r with
      | error e =>
        dsimp only
        exact ⟨fun e' reps h => h, fun h reps e' => (by injection e' with e' _; cases e')⟩
      | ok v =>
        obtain ⟨rep, h1⟩ := v
        dsimp only
        obtain ⟨i1, i2⟩ := ih Y1 (some h1)
        cases hr : runSteps sizes solver p m cb Y1 (some h1) qs with
        | mk r reps =>
          cases r with
          | error e =>
            rw [i1 e reps hr]
            exact ⟨fun e' reps' h => h, fun h reps' e' => (by injection e' with e' _; cases e')⟩
          | ok h =>
            obtain ⟨Y', e⟩ := i2 h reps hr
            rw [e]
            refine ⟨fun e' reps' h => (by injection h with h _; cases h), fun h' reps' e' => ⟨Y', ?_⟩⟩
            injection e' with e1 e2
            injection e1 with e1
            subst e1
            rw [← e2]
            cases cb <;> simp

lemma extends_facts (T : Topo) {A B : PipeArgs} {n : ℕ} (hx : Extends A n B) :
    (∃ rest, requests T B = requests T A ++ rest) ∧ (requests T A).length = n ∧ validate A = .ok () ∧ validate B = .ok () ∧ makePipeSystem T B = makePipeSystem T A ∧ B.maxiter = A.maxiter ∧ B.callback = A.callback := by
  cases hx with
  | offsets os more h1 h2 h3 =>
    refine ⟨⟨more.map .offset, ?_⟩, ?_, ?_, ?_, rfl, rfl, rfl⟩
    · simp [requests, h3]
    · simp [requests, h3]
    · simp [validate, h1, h2, h3]
    · simp [validate, h1, h2]
  | pressures ps more h1 h2 h3 =>
    refine ⟨⟨more.map fun p => .force (p * T.physicalSizes.prod), ?_⟩, ?_, ?_, ?_, rfl, rfl, rfl⟩
    · simp [requests, h2, h3]
    · simp [requests, h2, h3]
    · simp [validate, h1, h2, h3]
    · simp [validate, h1, h2]
  | auto n m h1 h2 h3 =>
    refine ⟨⟨List.replicate m .auto, ?_⟩, ?_, ?_, ?_, rfl, rfl, rfl⟩
    · simp only [requests, h1, h2, h3, Option.getD_some, Int.toNat_natCast]
      exact List.replicate_add ..
    · simp [requests, h1, h2, h3]
    · simp [validate, h1, h2, h3]
    · simp [validate, h1, h2]

lemma take_prefix {α : Type} {a b : List α} (h : a <+: b) {n : ℕ} (hn : a.length = n) : b.take n = a := by
  rw [← hn]
  exact (List.prefix_iff_eq_take.1 h).symm

/-- **C204.** A calculation that asks for further steps -- further offsets, further pressures, a larger number of automatic steps -- begins with the steps of the shorter one: if it returns, then so does the shorter one, with the
first entries of all arrays and the first calls of the callback; … -/
theorem C204_begins (T : Topo) (solver : Solver) {A B : PipeArgs} {n : ℕ} (hx : Extends A n B) (hn : 0 < n) {R : Result} {reps : List Report} (h : contactMechanics T solver B = (.ok R, reps)) :
    contactMechanics T solver A = (.ok (Result.first n R), if A.callback then reps.take n else []) := by
  obtain ⟨⟨rest, hq⟩, hl, hA, hB, hY, hm, hc⟩ := extends_facts T hx
  unfold contactMechanics at h ⊢
  rw [hB, hY] at h
  rw [hA]
  simp only [bind, Except.bind] at h ⊢
  cases hs : makePipeSystem T A with
  | error e => rw [hs] at h; injection h with h _; cases h
  | ok Y =>
    rw [hs] at h
    dsimp only at h ⊢
    rw [hq, hm, hc] at h
    obtain ⟨i1, i2⟩ := runSteps_append T.physicalSizes solver (some (pipePentol T)) A.maxiter A.callback rest (requests T A) Y none
    cases hr : runSteps T.physicalSizes solver (some (pipePentol T)) A.maxiter A.callback Y none (requests T A) with
    | mk r reps' =>
      cases r with
      | error e => rw [i1 e reps' hr] at h; injection h with h _; cases h
      | ok g =>
        obtain ⟨g1, g2, g3, g4⟩ := runSteps_history _ _ _ _ _ _ _ _ _ _ hr
        have hne : requests T A ≠ [] := by
          intro h0
          rw [h0] at hl
          simp at hl
          omega
        obtain ⟨g, rfl⟩ := Option.isSome_iff_exists.1 (g3 (.inr hne))
        obtain ⟨Y', e⟩ := i2 _ _ hr
        rw [e] at h
        cases hr' : runSteps T.physicalSizes solver (some (pipePentol T)) A.maxiter A.callback Y' (some g) rest with
        | mk r reps'' =>
          rw [hr'] at h
          cases r with
          | error e => injection h with h _; cases h
          | ok h2 =>
            obtain ⟨k1, k2, k3, k4⟩ := runSteps_history _ _ _ _ _ _ _ _ _ _ hr'
            obtain ⟨h2, rfl⟩ := Option.isSome_iff_exists.1 (k3 (.inl rfl))
            dsimp only at h ⊢
            injection h with h5 h6
            injection h5 with h5
            have hlen := g2 0 ⟨rfl, rfl, rfl, rfl, rfl⟩
            rw [Nat.zero_add, hl] at hlen
            obtain ⟨l1, l2, l3, l4, l5⟩ := hlen
            obtain ⟨p1, p2, p3, p4, p5⟩ := k1
            rw [← h5]
            unfold Result.first
            dsimp only [Option.getD_some] at *
            rw [take_prefix p1 l1, take_prefix p2 l2, take_prefix p3 l3, take_prefix p4 l4, take_prefix p5 l5]
            congr 1
            rw [← h6]
            rw [hl] at g4
            cases hcb : A.callback with
            | false =>
              rw [hcb] at g4
              simpa using g4
            | true =>
              rw [hcb] at g4
              simp only [if_true] at g4 ⊢
              rw [← g4]
              simp

/-- **C204.** … and if the shorter one raises, then so does the longer one: the same exception after the same calls of the callback. -/
theorem C204_raises (T : Topo) (solver : Solver) {A B : PipeArgs} {n : ℕ} (hx : Extends A n B) (hn : 0 < n) {e : PyErr} {reps : List Report} (h : contactMechanics T solver A = (.error e, reps)) :
    contactMechanics T solver B = (.error e, reps) := by
  obtain ⟨⟨rest, hq⟩, hl, hA, hB, hY, hm, hc⟩ := extends_facts T hx
  unfold contactMechanics at h ⊢
  rw [hA] at h
  rw [hB, hY]
  simp only [bind, Except.bind] at h ⊢
  cases hs : makePipeSystem T A with
  | error e => rw [hs] at h; exact h
  | ok Y =>
    rw [hs] at h
    dsimp only at h ⊢
    rw [hq, hm, hc]
    obtain ⟨i1, i2⟩ := runSteps_append T.physicalSizes solver (some (pipePentol T)) A.maxiter A.callback rest (requests T A) Y none
    cases hr : runSteps T.physicalSizes solver (some (pipePentol T)) A.maxiter A.callback Y none (requests T A) with
    | mk r reps' =>
      rw [hr] at h
      cases r with
      | error e' =>
        rw [i1 e' reps' hr]
        exact h
      | ok g =>
        obtain ⟨g1, g2, g3, g4⟩ := runSteps_history _ _ _ _ _ _ _ _ _ _ hr
        have hne : requests T A ≠ [] := by
          intro h0
          rw [h0] at hl
          simp at hl
          omega
        obtain ⟨g, rfl⟩ := Option.isSome_iff_exists.1 (g3 (.inr hne))
        injection h with h _
        cases h

/-- **C204** (with the solver of the package). -/
theorem C204_calculation (T : Topo) (rms : NdArray ℝ → ℝ) (bisect : Bisect) {A B : PipeArgs} {n : ℕ} (hx : Extends A n B) (hn : 0 < n) :
    (∀ R reps, contactMechanicsCCG T rms bisect B = (.ok R, reps) → contactMechanicsCCG T rms bisect A = (.ok (Result.first n R), if A.callback then reps.take n else [])) ∧
    ∀ e reps, contactMechanicsCCG T rms bisect A = (.error e, reps) → contactMechanicsCCG T rms bisect B = (.error e, reps) := by
  have e : defaultSolver T rms bisect B = defaultSolver T rms bisect A := by cases hx <;> rfl
  unfold contactMechanicsCCG
  rw [e]
  exact ⟨fun R reps h => C204_begins T _ hx hn h, fun e reps h => C204_raises T _ hx hn h⟩

example : Extends { nsteps := some 3, hardness := some 1 } 3 { nsteps := some 5, hardness := some 1 } := .auto { nsteps := some 3, hardness := some 1 } 3 2 rfl rfl rfl
example : Extends { offsets := some [1, 2] } 2 { offsets := some [1, 2, 0] } := .offsets { offsets := some [1, 2] } [1, 2] [0] rfl rfl rfl

end CM.Pipe
