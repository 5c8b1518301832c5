import Verif.Spec.FlagBlind
import Verif.Lemmas.CLI
import Verif.Lemmas.Pipeline
import Verif.Props.CLI4
/-!
# C213: convergence is not written
-/
namespace CM.Cli
open CM.HS CM.FFT CM.System CM.Spec CM.Pipe

lemma bind_ok_of {α β : Type} {x : Except PyErr α} {f : α → Except PyErr β} {y : β} (h : (x >>= f) = .ok y) : ∃ a, x = .ok a ∧ f a = .ok y := by
  cases x with
  | error e => cases h
  | ok a => exact ⟨a, rfl, h⟩

/-- Elastic systems that the front-end cannot tell apart. -/
def Alike (Y Z : AnySys) : Prop :=
  ∃ S S' : Sys, Y = .elastic S ∧ Z = .elastic S' ∧ S.heights = S'.heights ∧ S.sub.checkFlag = false ∧ S'.sub.checkFlag = false

lemma Alike.heights {Y Z : AnySys} (h : Alike Y Z) : Y.heights = Z.heights := by
  obtain ⟨S, S', rfl, rfl, h, _⟩ := h
  exact h

lemma minimizeProxy_fst {S : Sys} (h : S.sub.checkFlag = false) (x : Except PyErr OptResult) :
    (minimizeProxy S x).1 = x ∧ (minimizeProxy S x).2.heights = S.heights ∧ (minimizeProxy S x).2.sub.checkFlag = false := by
  unfold minimizeProxy
  cases x with
  | error e => exact ⟨rfl, rfl, h⟩
  | ok r =>
    dsimp only
    by_cases hs : r.success = true
    · rw [if_pos hs]
      have : ((clear S).sub).check r.jac = .ok () := check_of_flag h _
      simp only [this]
      refine ⟨?_, ?_, ?_⟩ <;> trivial
    · rw [if_neg hs]
      exact ⟨rfl, rfl, h⟩

lemma minimize_alike {Y Z : AnySys} (h : Alike Y Z) (flag : Call → OptResult → Bool) (solver : Solver) (off ext pt : Option ℝ) (mi : ℤ) :
    ∃ b : OptResult → Bool, (Z.minimize (reflag flag solver) off ext pt mi).1 = (Y.minimize solver off ext pt mi).1.map (fun r => { r with success := b r }) ∧
      Alike (Y.minimize solver off ext pt mi).2 (Z.minimize (reflag flag solver) off ext pt mi).2 ∧
      (Y.minimize solver off ext pt mi).2.heights = Y.heights := by
  obtain ⟨S, S', rfl, rfl, hh, h1, h2⟩ := h
  refine ⟨flag ⟨S.heights, none, off, ext, pt, mi⟩, ?_, ?_, ?_⟩
  · show (minimizeProxy S' _).1 = ((minimizeProxy S _).1).map _
    rw [(minimizeProxy_fst h2 _).1, (minimizeProxy_fst h1 _).1, ← hh]
    rfl
  · refine ⟨_, _, rfl, rfl, ?_, (minimizeProxy_fst h1 _).2.2, (minimizeProxy_fst h2 _).2.2⟩
    show (minimizeProxy S _).2.heights = (minimizeProxy S' _).2.heights
    rw [(minimizeProxy_fst h1 _).2.1, (minimizeProxy_fst h2 _).2.1, hh]
  · exact (minimizeProxy_fst h1 _).2.1

lemma pressureLoop_blind (sizes : List ℝ) (a : ℝ) (solver : Solver) (flag : Call → OptResult → Bool) (A : CliArgs) (n : ℕ) :
    ∀ (ps : List ℝ) (i : ℕ) (Y Z : AnySys), Alike Y Z → pressureLoop sizes a (reflag flag solver) A n i Z ps = pressureLoop sizes a solver A n i Y ps := by
  intro ps
  induction ps with
  | nil => intro i Y Z _; rfl
  | cons p ps ih =>
    intro i Y Z h
    obtain ⟨b, h1, h2, _⟩ := minimize_alike h flag solver none (some (p * sizes.prod)) A.pentol A.maxiter
    rw [pressureLoop, pressureLoop]
    generalize Z.minimize (reflag flag solver) none (some (p * sizes.prod)) A.pentol A.maxiter = zz at *
    generalize Y.minimize solver none (some (p * sizes.prod)) A.pentol A.maxiter = yy at *
    obtain ⟨z, Z'⟩ := zz
    obtain ⟨y, Y'⟩ := yy
    dsimp only at h1 h2
    subst h1
    cases y with
    | error e => rfl
    | ok r =>
      simp only [Except.map, ← h2.heights, ih (i + 1) Y' Z' h2]

/-- Histories that differ in the flags only. -/
def AlikeHist (h k : History) : Prop :=
  h.disp = k.disp ∧ h.gap = k.gap ∧ h.pressure = k.pressure ∧ h.area = k.area ∧ h.converged.length = k.converged.length

lemma zip_fst_congr {α β : Type} : ∀ (l : List α) (c c' : List β), c.length = c'.length → (l.zip c).map Prod.fst = (l.zip c').map Prod.fst := by
  intro l
  induction l with
  | nil => intro c c' _; simp
  | cons a l ih =>
    intro c c' h
    cases c with
    | nil => cases c' with
      | nil => rfl
      | cons _ _ => simp at h
    | cons b c => cases c' with
      | nil => simp at h
      | cons b' c' => simp [ih c c' (by simpa using h)]

/-- A row without its flag. -/
def unflag (r : ℝ × ℝ × ℝ × ℝ × Bool) : ℝ × ℝ × ℝ × ℝ := (r.1, r.2.1, r.2.2.1, r.2.2.2.1)

lemma rows_alike {h k : History} (H : AlikeHist h k) : (rowsOf h).map unflag = (rowsOf k).map unflag := by
  obtain ⟨h1, h2, h3, h4, h5⟩ := H
  have e : ∀ g : History, (rowsOf g).map unflag = g.disp.zip (g.gap.zip (g.pressure.zip ((g.area.zip g.converged).map Prod.fst))) := by
    intro g
    unfold rowsOf
    simp only [List.zip_map_right]
    have : unflag = Prod.map id (Prod.map id (Prod.map id Prod.fst)) := rfl
    rw [this]
  rw [e, e, h1, h2, h3, h4, zip_fst_congr _ _ _ h5]

lemma columns_alike {l m : List (ℝ × ℝ × ℝ × ℝ × Bool)} (h : l.map unflag = m.map unflag) : AlikeHist (columnsOf l) (columnsOf m) := by
  have e : ∀ (g : ℝ × ℝ × ℝ × ℝ → ℝ), l.map (fun r => g (unflag r)) = m.map (fun r => g (unflag r)) := by
    intro g
    have := congrArg (List.map g) h
    rwa [List.map_map, List.map_map] at this
  refine ⟨e (·.1), e (·.2.1), e (·.2.2.1), e (·.2.2.2), ?_⟩
  have := congrArg List.length h
  simpa [columnsOf] using this

lemma nextStep_blind (sizes : List ℝ) (solver : Solver) (flag : Call → OptResult → Bool) (pt : Option ℝ) (mi : ℤ) {Y Z : AnySys} (h : Alike Y Z)
    {x y : Option History} (hx : (x = none ∧ y = none) ∨ ∃ a b, x = some a ∧ y = some b ∧ AlikeHist a b) :
    ((∃ e, (nextStep sizes solver Y x pt mi).1 = .error e ∧ (nextStep sizes (reflag flag solver) Z y pt mi).1 = .error e) ∨
      ∃ o a b, (nextStep sizes solver Y x pt mi).1 = .ok (o, a) ∧ (nextStep sizes (reflag flag solver) Z y pt mi).1 = .ok (o, b) ∧ AlikeHist a b) ∧
      Alike (nextStep sizes solver Y x pt mi).2 (nextStep sizes (reflag flag solver) Z y pt mi).2 := by
  have hoff : cliOffset Z.heights y = cliOffset Y.heights x := by
    rw [h.heights]
    rcases hx with ⟨rfl, rfl⟩ | ⟨a, b, rfl, rfl, H⟩
    · rfl
    · obtain ⟨h1, h2, h3, h4, h5⟩ := H
      unfold cliOffset
      simp only [h1, h4]
  have hist : AlikeHist (if x.isNone ∨ (x.getD .empty).disp = [] then .empty else x.getD .empty) (if y.isNone ∨ (y.getD .empty).disp = [] then .empty else y.getD .empty) := by
    rcases hx with ⟨rfl, rfl⟩ | ⟨a, b, rfl, rfl, H⟩
    · exact ⟨rfl, rfl, rfl, rfl, rfl⟩
    · simp only [Option.isNone_some, Bool.false_eq_true, false_or, Option.getD_some, H.1]
      split_ifs
      · exact ⟨rfl, rfl, rfl, rfl, rfl⟩
      · exact H
  obtain ⟨b, h1, h2, _⟩ := minimize_alike h flag solver (some (cliOffset Y.heights x)) none pt mi
  unfold nextStep
  simp only [hoff]
  generalize (if x.isNone ∨ (x.getD .empty).disp = [] then History.empty else x.getD .empty) = hh at *
  generalize (if y.isNone ∨ (y.getD .empty).disp = [] then History.empty else y.getD .empty) = kk at *
  generalize Z.minimize (reflag flag solver) (some (cliOffset Y.heights x)) none pt mi = zz at *
  generalize Y.minimize solver (some (cliOffset Y.heights x)) none pt mi = yy at *
  obtain ⟨z, Z'⟩ := zz
  obtain ⟨w, Y'⟩ := yy
  dsimp only at h1 h2
  subst h1
  cases w with
  | error e => exact ⟨Or.inl ⟨e, rfl, rfl⟩, h2⟩
  | ok r =>
    simp only [Except.map, h.heights]
    refine ⟨?_, h2⟩
    cases hc : cutToForce r.x r.jac with
    | error e => exact Or.inl ⟨e, rfl, rfl⟩
    | ok u =>
      refine Or.inr ⟨_, _, _, rfl, rfl, columns_alike ?_⟩
      have hs : ∀ l, (sortedBy (fun r : ℝ × ℝ × ℝ × ℝ × Bool => r.2.2.2.1) l).map unflag = sortedBy (fun r : ℝ × ℝ × ℝ × ℝ => r.2.2.2) (l.map unflag) :=
        fun l => map_sortedBy _ unflag (fun r : ℝ × ℝ × ℝ × ℝ => r.2.2.2) (fun _ => rfl) l
      rw [hs, hs]
      congr 1
      apply rows_alike
      obtain ⟨e1, e2, e3, e4, e5⟩ := hist
      exact ⟨by simp [e1], by simp [e2], by simp [e3], by simp [e4], by simp [e5]⟩

lemma autoLoop_blind (sizes : List ℝ) (a : ℝ) (solver : Solver) (flag : Call → OptResult → Bool) (A : CliArgs) (n : ℕ) :
    ∀ (k i : ℕ) (Y Z : AnySys) (x y : Option History), Alike Y Z → ((x = none ∧ y = none) ∨ ∃ a b, x = some a ∧ y = some b ∧ AlikeHist a b) →
      (autoLoop sizes a (reflag flag solver) A n k i Z y).2 = (autoLoop sizes a solver A n k i Y x).2 ∧
      (autoLoop sizes a (reflag flag solver) A n k i Z y).1.map (fun _ => ()) = (autoLoop sizes a solver A n k i Y x).1.map (fun _ => ()) := by
  intro k
  induction k with
  | zero => intro i Y Z x y _ _; exact ⟨rfl, rfl⟩
  | succ k ih =>
    intro i Y Z x y h hx
    have hn := nextStep_blind sizes solver flag A.pentol A.maxiter h hx
    rw [autoLoop, autoLoop]
    generalize nextStep sizes (reflag flag solver) Z y A.pentol A.maxiter = zz at *
    generalize nextStep sizes solver Y x A.pentol A.maxiter = yy at *
    obtain ⟨z, Z'⟩ := zz
    obtain ⟨w, Y'⟩ := yy
    dsimp only at hn
    obtain ⟨hn, h2⟩ := hn
    rcases hn with ⟨e, rfl, rfl⟩ | ⟨o, p, q, rfl, rfl, H⟩
    · exact ⟨rfl, rfl⟩
    · have := ih (i + 1) Y' Z' (some p) (some q) h2 (Or.inr ⟨p, q, rfl, rfl, H⟩)
      dsimp only
      rw [← h2.heights]
      refine ⟨?_, this.2⟩
      rw [this.1]

/-- **C213 is false of the code.**  Whatever an elastic run of `ce_hard_wall` writes (log lines, NetCDF frames, map files), and the way it ends, would be the same if any of its calculations had (or had
not) converged: nothing of it depends on the convergence flags. -/
theorem C213_flags_not_written_partial (T : Topo) (acc : List String) (solver : Solver) (A : CliArgs) (hA : A.hardness = none) (flag : Call → OptResult → Bool) :
    hardWall T acc (reflag flag solver) A = hardWall T acc solver A := by
  unfold hardWall
  cases hY : cliSystem T A with
  | error e => rfl
  | ok Y =>
    dsimp only
    have hal : Alike Y Y := by
      unfold cliSystem at hY
      simp only [hA] at hY
      obtain ⟨sub, hsub, hY⟩ := bind_ok_of hY
      obtain ⟨S, hS, hY⟩ := bind_ok_of hY
      cases hY
      have hf : S.sub = sub ∧ sub.checkFlag = false := by
        constructor
        · unfold mkSystem at hS
          obtain ⟨b, _, hS⟩ := bind_ok_of hS
          split at hS
          · cases hS; rfl
          · cases hS
        · unfold cliSubstrate at hsub
          split_ifs at hsub
          all_goals (obtain ⟨s, _, h⟩ := bind_ok_of hsub; cases h; rfl)
      exact ⟨S, S, rfl, rfl, rfl, by rw [hf.1]; exact hf.2, by rw [hf.1]; exact hf.2⟩
    unfold mainModes
    split_ifs
    · rfl
    · cases A.pressure with
      | some p =>
        dsimp only
        cases parsePressure p with
        | error e => rfl
        | ok ps => exact pressureLoop_blind _ _ _ _ _ _ _ _ _ _ hal
      | none =>
        dsimp only
        cases A.pressureFile with
        | some ps => exact pressureLoop_blind _ _ _ _ _ _ _ _ _ _ hal
        | none => rfl
    · cases A.displacement with
      | some d =>
        dsimp only
        cases parseDisplacement d with
        | error e => rfl
        | ok ds =>
          cases ds with
          | nil => rfl
          | cons d ds =>
            dsimp only
            rw [displacementLoop, displacementLoop]
            cases callKeywords acc displacementKeywords with
            | error e => rfl
            | ok _ =>
              dsimp only
              obtain ⟨b, h1, h2, _⟩ := minimize_alike hal flag solver (some d) none A.pentol A.maxiter
              generalize Y.minimize (reflag flag solver) (some d) none A.pentol A.maxiter = zz at *
              generalize Y.minimize solver (some d) none A.pentol A.maxiter = yy at *
              obtain ⟨z, Z'⟩ := zz
              obtain ⟨w, Y'⟩ := yy
              dsimp only at h1
              subst h1
              cases w with
              | error e => rfl
              | ok r => rfl
      | none =>
        dsimp only
        obtain ⟨h1, h2⟩ := autoLoop_blind T.physicalSizes T.areaPerPt solver flag A autoSteps autoSteps 0 Y Y none none hal (Or.inl ⟨rfl, rfl⟩)
        generalize autoLoop T.physicalSizes T.areaPerPt (reflag flag solver) A autoSteps autoSteps 0 Y none = zz at *
        generalize autoLoop T.physicalSizes T.areaPerPt solver A autoSteps autoSteps 0 Y none = yy at *
        obtain ⟨z, zo⟩ := zz
        obtain ⟨w, wo⟩ := yy
        dsimp only at h1 h2
        subst h1
        cases z <;> cases w <;> simp_all [Except.map]

/-- With the package's own solver, under load control: the output is the one of a solver that never reports success. -/
example (T : Topo) (rms : NdArray ℝ → ℝ) (bisect : Bisect) (ps : List ℝ) (m : ℤ) :
    hardWall T solverKeywords (reflag (fun _ _ => false) (cliSolver T rms bisect { pressureFile := some ps, maxiter := m })) { pressureFile := some ps, maxiter := m } =
      hardWallCCG T rms bisect { pressureFile := some ps, maxiter := m } :=
  C213_flags_not_written_partial T _ _ _ rfl _

end CM.Cli
