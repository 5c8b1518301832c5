import Verif.Model.MapDisk
import Verif.Props.CLI2
import Verif.Lemmas.Logger3
/-!
# C221: map files stay as written
-/
namespace CM.Cli
open Finset CM.HS CM.FFT CM.System CM.Pipe CM.Spec

/-! ## Writing files under different names -/

lemma saves_other (w : List (String × NdArray ℝ)) (D : MapDir) (s : String) (h : ∀ p ∈ w, p.1 ≠ s) : w.foldl saveMap D s = D s := by
  induction w generalizing D with
  | nil => rfl
  | cons p w ih =>
    rw [List.foldl_cons, ih _ fun q hq => h q (List.mem_cons_of_mem _ hq), saveMap, if_neg fun e => h p (by simp) e.symm]

lemma saves_mem (w : List (String × NdArray ℝ)) (D : MapDir) (hw : (w.map Prod.fst).Nodup) : ∀ p ∈ w, w.foldl saveMap D p.1 = some (.whole p.2) := by
  induction w generalizing D with
  | nil => simp
  | cons q w ih =>
    intro p hp
    rw [List.map_cons, List.nodup_cons] at hw
    rw [List.foldl_cons]
    rcases List.mem_cons.1 hp with rfl | hp
    · rw [saves_other, saveMap, if_pos rfl]
      intro r hr e
      exact hw.1 (List.mem_map.2 ⟨r, hr, e⟩)
    · exact ih _ hw.2 p hp

/-! ## Names of map files -/

lemma writeFields_sub (s : String) : ∀ (m : List (Option String)) (as : List (NdArray ℝ)),
    ((writeFields s m as).map Prod.fst).Sublist ((m.filterMap id).map (· ++ s))
  | [], as => by cases as <;> simp [writeFields]
  | none :: m, [] => by simp [writeFields]
  | some fn :: m, [] => by simp [writeFields]
  | none :: m, a :: as => by simpa [writeFields] using writeFields_sub s m as
  | some fn :: m, a :: as => by simpa [writeFields] using writeFields_sub s m as

lemma last_dot {a b d e : List Char} (hd : '.' ∉ d) (he : '.' ∉ e) (h : a ++ '.' :: d = b ++ '.' :: e) : d = e := by
  rcases List.append_eq_append_iff.1 h with ⟨c, rfl, hc⟩ | ⟨c, rfl, hc⟩
  · cases c with
    | nil => simpa using hc
    | cons x c =>
      simp only [List.cons_append, List.cons.injEq] at hc
      exact absurd (by rw [hc.2]; simp) hd
  · cases c with
    | nil => simpa using hc.symm
    | cons x c =>
      simp only [List.cons_append, List.cons.injEq] at hc
      exact absurd (by rw [hc.2]; simp) he

lemma repr_no_dot (n : ℕ) : '.' ∉ (Nat.repr n).toList := by
  intro h
  have := CM.Log.repr_digits n _ h
  exact absurd this (by decide)

/-- Two map files of different steps have different names, whatever the names given. -/
lemma names_differ {n i j : ℕ} (hi : i < n) (hj : j < n) (hij : i ≠ j) (a b : String) : a ++ fileEnding n i ≠ b ++ fileEnding n j := by
  have hn : n ≠ 1 := by omega
  unfold fileEnding
  rw [if_neg hn, if_neg hn]
  intro h
  have h := congrArg String.toList h
  simp only [String.toList_append] at h
  have e : ".".toList = ['.'] := rfl
  rw [e] at h
  have := last_dot (repr_no_dot i) (repr_no_dot j) h
  exact hij (Nat.repr_injective (String.toList_injective this))

/-! ## The names of a run -/

lemma pressureLoop_names {sizes : List ℝ} {ap : ℝ} {solver : Solver} {A : CliArgs} {n : ℕ} : ∀ {ps : List ℝ} {i : ℕ} {Y : AnySys},
    (pressureLoop sizes ap solver A n i Y ps).2.length ≤ ps.length ∧
    ∀ (k : ℕ) (out : Output), (pressureLoop sizes ap solver A n i Y ps).2[k]? = some out → ∃ fs, out.fields = writeFields (suffix n (i + k)) A.maps fs
  | [], i, Y => by simp [pressureLoop]
  | p :: ps, i, Y => by
    unfold pressureLoop
    cases hm : Y.minimize solver none (some (p * sizes.prod)) A.pentol A.maxiter with
    | mk r Y' =>
      cases r with
      | error e => simp
      | ok opt =>
        dsimp only
        cases hc : cutToForce opt.x opt.jac with
        | error e => simp
        | ok u =>
          obtain ⟨h1, h2⟩ := pressureLoop_names (sizes := sizes) (ap := ap) (solver := solver) (A := A) (n := n) (ps := ps) (i := i + 1) (Y := Y')
          refine ⟨by simpa using h1, fun k out hk => ?_⟩
          cases k with
          | zero =>
            simp only [List.getElem?_cons_zero, Option.some.injEq] at hk
            subst hk
            exact ⟨_, rfl⟩
          | succ k =>
            simp only [List.getElem?_cons_succ] at hk
            obtain ⟨fs, hfs⟩ := h2 k out hk
            exact ⟨fs, by rw [hfs]; congr 2; omega⟩

lemma autoLoop_names {sizes : List ℝ} {ap : ℝ} {solver : Solver} {A : CliArgs} {n : ℕ} : ∀ {m i : ℕ} {Y : AnySys} {o : Option History},
    (autoLoop sizes ap solver A n m i Y o).2.length ≤ m ∧
    ∀ (k : ℕ) (out : Output), (autoLoop sizes ap solver A n m i Y o).2[k]? = some out → ∃ fs, out.fields = writeFields (suffix n (i + k)) A.maps fs
  | 0, i, Y, o => by simp [autoLoop]
  | m + 1, i, Y, o => by
    unfold autoLoop
    cases hm : nextStep sizes solver Y o A.pentol A.maxiter with
    | mk r Y' =>
      cases r with
      | error e => simp
      | ok x =>
        obtain ⟨x, h⟩ := x
        obtain ⟨h1, h2⟩ := autoLoop_names (sizes := sizes) (ap := ap) (solver := solver) (A := A) (n := n) (m := m) (i := i + 1) (Y := Y') (o := some h)
        refine ⟨by simpa using h1, fun k out hk => ?_⟩
        cases k with
        | zero =>
          simp only [List.getElem?_cons_zero, Option.some.injEq] at hk
          subst hk
          exact ⟨_, rfl⟩
        | succ k =>
          simp only [List.getElem?_cons_succ] at hk
          obtain ⟨fs, hfs⟩ := h2 k out hk
          exact ⟨fs, by rw [hfs]; congr 2; omega⟩

lemma hardWall_names (T : Topo) (kw : List String) (solver : Solver) (A : CliArgs) :
    ∃ n, (hardWall T kw solver A).2.length ≤ n ∧
      ∀ (k : ℕ) (out : Output), (hardWall T kw solver A).2[k]? = some out → ∃ fs, out.fields = writeFields (suffix n k) A.maps fs := by
  unfold hardWall
  cases hY : cliSystem T A with
  | error e => exact ⟨0, by simp⟩
  | ok Y =>
    by_cases hd : A.displacement = none
    · simp only [mainModes, hd, Option.isSome_none, Bool.false_eq_true, if_false]
      split
      · split
        · split
          · exact ⟨0, by simp⟩
          · rename_i ps hps
            have := pressureLoop_names (sizes := T.physicalSizes) (ap := T.areaPerPt) (solver := solver) (A := A) (n := ps.length) (ps := ps) (i := 0) (Y := Y)
            exact ⟨ps.length, by simpa using this⟩
        · split
          · rename_i ps hps
            have := pressureLoop_names (sizes := T.physicalSizes) (ap := T.areaPerPt) (solver := solver) (A := A) (n := ps.length) (ps := ps) (i := 0) (Y := Y)
            exact ⟨ps.length, by simpa using this⟩
          · exact ⟨0, by simp⟩
      · have := autoLoop_names (sizes := T.physicalSizes) (ap := T.areaPerPt) (solver := solver) (A := A) (n := autoSteps) (m := autoSteps) (i := 0) (Y := Y) (o := none)
        refine ⟨autoSteps, ?_⟩
        cases hl : autoLoop T.physicalSizes T.areaPerPt solver A autoSteps autoSteps 0 Y none with
        | mk r outs =>
          rw [hl] at this
          cases r <;> simpa using this
    · obtain ⟨d, hd⟩ := Option.ne_none_iff_exists'.1 hd
      obtain ⟨e, he⟩ := C66_displacement_mode_fails T kw solver A d hd
      unfold hardWall at he
      rw [hY] at he
      exact ⟨0, by dsimp only at he ⊢; rw [he]; simp⟩

lemma pressure_names {T : Topo} (kw : List String) (solver : Solver) (A : CliArgs) (ps : List ℝ) (hp : AsksPressures A ps) (hd : A.displacement = none)
    {outs : List Output} (h : hardWall T kw solver A = (.ok (), outs)) :
    ∀ out ∈ outs, ∀ p ∈ out.fields, ∃ k, k < ps.length ∧ ∃ f, p.1 = f ++ fileEnding ps.length k := by
  unfold hardWall at h
  cases hY : cliSystem T A with
  | error e => rw [hY] at h; cases h
  | ok Y =>
    rw [hY] at h
    dsimp only at h
    rw [asks_main hp hd] at h
    obtain ⟨h1, h2⟩ := pressureLoop_names (sizes := T.physicalSizes) (ap := T.areaPerPt) (solver := solver) (A := A) (n := ps.length) (ps := ps) (i := 0) (Y := Y)
    rw [h] at h1 h2
    intro out ho p hp
    obtain ⟨k, hk⟩ := List.mem_iff_getElem?.1 ho
    obtain ⟨fs, hfs⟩ := h2 k out hk
    have hlt : k < outs.length := by
      by_contra hc; rw [List.getElem?_eq_none (by omega)] at hk; cases hk
    rw [hfs, suffix_eq] at hp
    obtain ⟨f, -, hf⟩ := List.mem_map.1 ((writeFields_sub _ _ _).subset (List.mem_map.2 ⟨p, hp, rfl⟩))
    exact ⟨k, by simp only at h1; omega, f, by rw [← hf]; simp⟩

/-- All map files of a run have different names. -/
lemma names_nodup (T : Topo) (kw : List String) (solver : Solver) (A : CliArgs) (hA : (A.maps.filterMap id).Nodup) :
    ((mapWrites (hardWall T kw solver A).2).map Prod.fst).Nodup := by
  obtain ⟨n, hl, hn⟩ := hardWall_names T kw solver A
  generalize (hardWall T kw solver A).2 = outs at hl hn
  unfold mapWrites
  rw [List.map_flatMap, List.nodup_flatMap]
  have key : ∀ (k : ℕ) (out : Output), outs[k]? = some out → ((out.fields.map Prod.fst).Sublist ((A.maps.filterMap id).map (· ++ fileEnding n k))) := by
    intro k out hk
    obtain ⟨fs, hfs⟩ := hn k out hk
    rw [hfs, suffix_eq]
    exact writeFields_sub _ _ _
  refine ⟨fun out ho => ?_, ?_⟩
  · obtain ⟨k, hk⟩ := List.mem_iff_getElem?.1 ho
    refine (key k out hk).nodup (hA.map fun a b h => ?_)
    exact (String.append_left_inj _).1 h
  · rw [List.pairwise_iff_getElem]
    intro i j hi hj hij s h1 h2
    have k1 := (key i _ (List.getElem?_eq_getElem hi)).subset h1
    have k2 := (key j _ (List.getElem?_eq_getElem hj)).subset h2
    obtain ⟨a, -, rfl⟩ := List.mem_map.1 k1
    obtain ⟨b, -, hb⟩ := List.mem_map.1 k2
    exact names_differ (n := n) (by omega) (by omega) (Nat.ne_of_lt hij) a b hb.symm

/-! ## C221 -/

/-- **C221** Let the names given for the maps differ.  When a run is over -- also when it ended with an exception -- every map of every
step it wrote is found in its file, whatever was in the directory before, and every other file is as it was. -/
theorem C221_maps (T : Topo) (kw : List String) (solver : Solver) (A : CliArgs) (hA : (A.maps.filterMap id).Nodup) (D : MapDir) :
    (∀ out ∈ (hardWall T kw solver A).2, ∀ p ∈ out.fields, afterRun D (hardWall T kw solver A).2 p.1 = some (.whole p.2)) ∧
    ∀ s, (∀ out ∈ (hardWall T kw solver A).2, ∀ p ∈ out.fields, p.1 ≠ s) → afterRun D (hardWall T kw solver A).2 s = D s := by
  refine ⟨fun out ho p hp => saves_mem _ _ (names_nodup T kw solver A hA) p ?_, fun s hs => saves_other _ _ _ fun p hp => ?_⟩
  · exact List.mem_flatMap.2 ⟨out, ho, hp⟩
  · obtain ⟨out, ho, hp⟩ := List.mem_flatMap.1 hp
    exact hs out ho p hp

/-- **C221** The process dies at any point: of the maps in the order they are written, those already closed are complete, the one being
written is incomplete, and the files of the later ones are as they were before the run. -/
theorem C221_killed (T : Topo) (kw : List String) (solver : Solver) (A : CliArgs) (hA : (A.maps.filterMap id).Nodup) (D : MapDir)
    (m : ℕ) (opened : Bool) :
    ∀ (l : ℕ) (p : String × NdArray ℝ), ((hardWall T kw solver A).2.flatMap (·.fields))[l]? = some p →
      afterKill D (hardWall T kw solver A).2 m opened p.1 =
        if l < m then some (.whole p.2) else if l = m ∧ opened = true then some .torn else D p.1 := by
  intro l p hl
  have hnd := names_nodup T kw solver A hA
  unfold afterKill mapWrites at *
  generalize (hardWall T kw solver A).2.flatMap (·.fields) = w at *
  have hinj : ∀ (i j : ℕ) (a b : String × NdArray ℝ), w[i]? = some a → w[j]? = some b → a.1 = b.1 → i = j := by
    intro i j a b hi hj he
    have hi' : i < (w.map Prod.fst).length := by
      by_contra hc; rw [List.getElem?_eq_none (by simpa using hc)] at hi; cases hi
    refine (List.getElem?_inj hi' hnd).1 ?_
    rw [List.getElem?_map, List.getElem?_map, hi, hj]
    simp [he]
  have htake : ((w.take m).map Prod.fst).Nodup := by
    rw [List.map_take]; exact hnd.sublist (List.take_sublist _ _)
  have hbefore : (w.take m).foldl saveMap D p.1 = if l < m then some (.whole p.2) else D p.1 := by
    split
    · rename_i h
      refine saves_mem _ _ htake p ?_
      exact List.mem_of_getElem? (i := l) (by rw [List.getElem?_take, if_pos h, hl])
    · rename_i h
      refine saves_other _ _ _ fun q hq e => ?_
      obtain ⟨i, hi⟩ := List.mem_iff_getElem?.1 hq
      rw [List.getElem?_take] at hi
      split at hi
      · have := hinj i l q p hi hl e; omega
      · cases hi
  cases hq : w[m]? with
  | none =>
    have : l < m := by
      by_contra hc
      have h1 : w.length ≤ m := by simpa using hq
      rw [List.getElem?_eq_none (by omega)] at hl; cases hl
    simp only [hbefore, if_pos this]
  | some q =>
    dsimp only
    cases opened with
    | false => simp [hbefore]
    | true =>
      simp only [if_true, beginMap, and_true]
      by_cases hlm : l = m
      · subst hlm
        rw [hl] at hq
        cases hq
        simp
      · rw [if_neg fun e => hlm (hinj l m p q hl hq e), hbefore, if_neg hlm]

/-- **C221** All maps of the steps before the one in which the process dies are complete. -/
theorem C221_completed_steps (T : Topo) (kw : List String) (solver : Solver) (A : CliArgs) (hA : (A.maps.filterMap id).Nodup) (D : MapDir)
    (k m : ℕ) (opened : Bool) (hm : (((hardWall T kw solver A).2.take k).flatMap (·.fields)).length ≤ m) :
    ∀ out ∈ (hardWall T kw solver A).2.take k, ∀ p ∈ out.fields, afterKill D (hardWall T kw solver A).2 m opened p.1 = some (.whole p.2) := by
  intro out ho p hp
  obtain ⟨l, hl⟩ := List.mem_iff_getElem?.1 (List.mem_flatMap.2 ⟨out, ho, hp⟩ : p ∈ ((hardWall T kw solver A).2.take k).flatMap (·.fields))
  have hlt : l < (((hardWall T kw solver A).2.take k).flatMap (·.fields)).length := by
    by_contra hc; rw [List.getElem?_eq_none (by omega)] at hl; cases hl
  have hw : ((hardWall T kw solver A).2.flatMap (·.fields))[l]? = some p := by
    conv_lhs => rw [← List.take_append_drop k (hardWall T kw solver A).2]
    rw [List.flatMap_append, List.getElem?_append_left hlt, hl]
  rw [C221_killed T kw solver A hA D m opened l p hw, if_pos (by omega)]

/-- **C221** REFUTED: the map files found after a run need not belong to it.  A second run in the same directory with the same map names
and fewer pressures (at least two) leaves the maps of the later steps of the first run in place: with two files numbered one after the
other, one is of the second, the other of the first run. -/
theorem C221_stale_partial {nx ny : ℕ} {sx sy : ℝ} {T : Topo} (hT : ValidTopo T nx ny sx sy) (A B : CliArgs) (hA : ValidCli A) (hB : ValidCli B)
    (hmaps : A.maps = B.maps) (hnames : (A.maps.filterMap id).Nodup) (solver : Solver) (hfit : ∀ c r, solver c = .ok r → Fits nx ny r) (kw : List String)
    (ps qs : List ℝ) (hps : AsksPressures A ps) (hqs : AsksPressures B qs) (hdA : A.displacement = none) (hdB : B.displacement = none)
    (h2 : 2 ≤ qs.length) (hlt : qs.length < ps.length) {outsA outsB : List Output}
    (h : hardWall T kw solver A = (.ok (), outsA)) (h' : hardWall T kw solver B = (.ok (), outsB))
    (q : ℕ) (hq : q < 4) (fn : String) (hfn : A.maps[q]? = some (some fn)) (D : MapDir) :
    (∃ a b, afterRun (afterRun D outsA) outsB (fn ++ "." ++ Nat.repr qs.length) = some (.whole a) ∧
        (∃ out ∈ outsA, (fn ++ "." ++ Nat.repr qs.length, a) ∈ out.fields) ∧
      afterRun (afterRun D outsA) outsB (fn ++ "." ++ Nat.repr (qs.length - 1)) = some (.whole b) ∧
        ∃ out ∈ outsB, (fn ++ "." ++ Nat.repr (qs.length - 1), b) ∈ out.fields) ∧
    ∀ out ∈ outsB, ∀ p ∈ out.fields, p.1 ≠ fn ++ "." ++ Nat.repr qs.length := by
  obtain ⟨D1, l1, rfl, r1⟩ := C114_pressure_run hT A hA solver hfit kw ps hps hdA h
  obtain ⟨D2, l2, rfl, r2⟩ := C114_pressure_run hT B hB solver hfit kw qs hqs hdB h'
  have hfA := C221_maps T kw solver A hnames D
  have hfB := C221_maps T kw solver B (hmaps ▸ hnames) (afterRun D (D1.map CliStep.output))
  rw [h] at hfA
  rw [h'] at hfB
  have e1 : D1[qs.length]? = some (D1[qs.length]'(by omega)) := List.getElem?_eq_getElem _
  have e2 : D2[qs.length - 1]? = some (D2[qs.length - 1]'(by omega)) := List.getElem?_eq_getElem _
  obtain ⟨_, -, m1⟩ := r1.output _ _ e1
  obtain ⟨_, -, m2⟩ := r2.output _ _ e2
  obtain ⟨a, ha, -⟩ := m1.fields q fn hq hfn
  obtain ⟨b, hb, -⟩ := m2.fields q fn hq (hmaps ▸ hfn)
  have n1 : fn ++ fileEnding ps.length qs.length = fn ++ "." ++ Nat.repr qs.length := by
    rw [fileEnding, if_neg (by omega), String.append_assoc]
  have n2 : fn ++ fileEnding qs.length (qs.length - 1) = fn ++ "." ++ Nat.repr (qs.length - 1) := by
    rw [fileEnding, if_neg (by omega), String.append_assoc]
  rw [n1] at ha
  rw [n2] at hb
  have o1 : (D1[qs.length]'(by omega)).output ∈ D1.map CliStep.output := List.mem_map.2 ⟨_, List.mem_of_getElem? e1, rfl⟩
  have o2 : (D2[qs.length - 1]'(by omega)).output ∈ D2.map CliStep.output := List.mem_map.2 ⟨_, List.mem_of_getElem? e2, rfl⟩
  have hno : ∀ out ∈ D2.map CliStep.output, ∀ p ∈ out.fields, p.1 ≠ fn ++ "." ++ Nat.repr qs.length := by
    intro out ho p hp
    have hall := pressure_names kw solver B qs hqs hdB h' out ho p hp
    obtain ⟨k, hk, f, hf⟩ := hall
    rw [hf, ← n1]
    have e : fileEnding ps.length qs.length = fileEnding (qs.length + 1) qs.length := by
      rw [fileEnding, fileEnding, if_neg (by omega), if_neg (by omega)]
    have e' : fileEnding qs.length k = fileEnding (qs.length + 1) k := by
      rw [fileEnding, fileEnding, if_neg (by omega), if_neg (by omega)]
    rw [e, e']
    exact names_differ (by omega) (by omega) (by omega) _ _
  refine ⟨⟨a, b, ?_, ⟨_, o1, ha⟩, hfB.1 _ o2 _ hb, ⟨_, o2, hb⟩⟩, hno⟩
  rw [hfB.2 _ hno]
  exact hfA.1 _ o1 _ ha

/-! ## Concrete runs -/

lemma demo_returns (A : CliArgs) (hv : ValidCli A) (hb : A.boundary = "periodic") (ps : List ℝ) (hps : AsksPressures A ps) (hd : A.displacement = none) :
    ∃ outs, hardWall demoTopo solverKeywords demoSolver A = (.ok (), outs) := by
  obtain ⟨Y, hY⟩ := C116_accepted demoTopo_valid (by norm_num) (by norm_num) A hv (.inl hb)
  cases hl : hardWall demoTopo solverKeywords demoSolver A with
  | mk r outs =>
    cases r with
    | ok o => exact ⟨outs, rfl⟩
    | error e =>
      exfalso
      obtain ⟨D, -, -, ⟨_, _, _, _, _, h⟩, -⟩ := C114_pressure_exception demoTopo_valid A hv demoSolver demoSolver_fits solverKeywords _ hps hd hY hl
      cases h

/-- The same command line with two pressures in a file. -/
def demoShort : CliArgs := { pressureFile := some [5, 4], maps := [some "c", none, none, some "g"], hardness := some 2 }

/-- Hypotheses of C221_maps, C221_killed and C221_stale_partial: a plastic run at three pressures with two maps, then one at two pressures.  The gap
map `g.2` found at the end is not of the second run, `g.1` is. -/
example (D : MapDir) : ∃ outsA outsB a b,
    hardWall demoTopo solverKeywords demoSolver demoPressure = (.ok (), outsA) ∧
    hardWall demoTopo solverKeywords demoSolver demoShort = (.ok (), outsB) ∧
    afterRun (afterRun D outsA) outsB "g.2" = some (.whole a) ∧ afterRun (afterRun D outsA) outsB "g.1" = some (.whole b) ∧
    (∀ out ∈ outsB, ∀ p ∈ out.fields, p.1 ≠ "g.2") ∧ ∃ out ∈ outsB, ("g.1", b) ∈ out.fields := by
  have hv : ValidCli demoPressure := by constructor <;> simp [demoPressure]
  have hw : ValidCli demoShort := by constructor <;> simp [demoShort]
  have hq : AsksPressures demoShort [5, 4] := .inr (.inr ⟨rfl, rfl⟩)
  obtain ⟨outsA, hA⟩ := demo_returns demoPressure hv rfl _ demoPressure_asks rfl
  obtain ⟨outsB, hB⟩ := demo_returns _ hw rfl _ hq rfl
  obtain ⟨⟨a, b, h1, -, h2, h3⟩, h4⟩ := C221_stale_partial demoTopo_valid demoPressure _ hv hw rfl (by simp [demoPressure]) demoSolver demoSolver_fits
    solverKeywords _ _ demoPressure_asks hq rfl rfl (by simp) (by simp) hA hB 3 (by norm_num) "g" rfl D
  have e2 : "g" ++ "." ++ Nat.repr [(5 : ℝ), 4].length = "g.2" := by decide
  have e1 : "g" ++ "." ++ Nat.repr ([(5 : ℝ), 4].length - 1) = "g.1" := by decide
  rw [e2] at h1 h4
  rw [e1] at h2 h3
  exact ⟨outsA, outsB, a, b, hA, hB, h1, h2, h4, h3⟩

end CM.Cli
