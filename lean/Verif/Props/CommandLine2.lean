import Verif.Props.CommandLine
import Verif.Props.CLI4
/-!
# From the words of the command line to the results

C193: the results of a run belong to what was typed.
-/
namespace CM.Cli
open CM.HS CM.Log CM.Num CM.FFT CM.System CM.Pipe CM.Spec

/-- The factor of the heights: that of `--height-fac`; with `--height-unit` also the ratio of that unit to the unit of the surface. -/
inductive _root_.CM.Spec.HeightFactor (fileUnit : Option String) (given : List (String × Text)) : ℝ → Prop
  | plain (h : lastGiven "--height-unit" given = none) : HeightFactor fileUnit given ((numberGiven "--height-fac" given).getD 1)
  | unit (hu : Text) (a b : ℝ) (h : lastGiven "--height-unit" given = some hu) (ha : UnitIs (String.ofList hu) a)
      (hb : UnitIs (unitGiven fileUnit given) b) : HeightFactor fileUnit given ((numberGiven "--height-fac" given).getD 1 * (a / b))

/-- `T` is the surface `T₀` read from the file with heights multiplied by the factor, detrended if `--detrend` is given. -/
def _root_.CM.Spec.SurfaceGiven (H : Host) (fileUnit : Option String) (T₀ T : Topo) (given : List (String × Text)) : Prop :=
  ∃ c T₁, HeightFactor fileUnit given c ∧ T₁.physicalSizes = T₀.physicalSizes ∧ T₁.heights.shape = T₀.heights.shape ∧
    (∀ x, T₁.heights.get x = c * T₀.heights.get x) ∧
    match lastGiven "--detrend" given with
    | none => T = T₁
    | some mode => H.detrend mode T₁ = .ok T

theorem scaled_given {ns : Namespace} {file : Text} {given : List (String × Text)} (hm : Means ns file given) (unit : Option String) (h : NdArray ℝ)
    {c : ℝ} (hc : HeightFactor unit given c) : ∃ h', scaledHeights unit ns.units h = .ok h' ∧ h'.shape = h.shape ∧ ∀ x, h'.get x = c * h.get x := by
  cases hc with
  | plain hn =>
    have hunits : ns.units.heightUnit = none := by show ns.heightUnit.map _ = none; rw [hm.heightUnit, hn]; rfl
    obtain ⟨h', hs, hsh, hx⟩ := C162_height_factor (A := ns.units) unit h hunits
    refine ⟨h', hs, hsh, fun x => ?_⟩
    rw [hx, show ns.units.heightFac = ns.heightFac from rfl, hm.heightFac]
  | unit hu a b hn ha hb =>
    have hunits : ns.units.heightUnit = some (String.ofList hu) := by show ns.heightUnit.map _ = _; rw [hm.heightUnit, hn]; rfl
    have hsu : surfaceUnit unit ns.units = unitGiven unit given := by
      unfold surfaceUnit unitGiven
      show (match ns.sizeUnit.map String.ofList with | some u => u | none => _) = _
      rw [hm.sizeUnit]
      cases lastGiven "--physical_sizes-unit" given with
      | some u => rfl
      | none => cases unit <;> rfl
    cases hs : scaledHeights unit ns.units h with
    | error e =>
      exfalso
      obtain ⟨-, hu', e1, e2⟩ := (C162_unknown_unit _ _ _ _).1 hs
      rw [hunits] at e1
      cases e1
      rcases e2 with e2 | e2
      · exact e2 a ha
      · rw [hsu] at e2; exact e2 b hb
    | ok h' =>
      obtain ⟨a', b', ha', hb', hsh, hx⟩ := C162_height_unit hunits hs
      rw [hsu] at hb'
      have uniq : ∀ {s : String} {x y : ℝ}, UnitIs s x → UnitIs s y → x = y := fun h1 h2 => by
        rw [← unit_iff] at h1 h2
        rw [h1] at h2
        cases h2
        rfl
      cases uniq ha' ha
      cases uniq hb' hb
      refine ⟨h', rfl, hsh, fun x => ?_⟩
      have hpos := unit_pos hb
      have := hx x
      rw [show ns.units.heightFac = ns.heightFac from rfl, hm.heightFac] at this
      field_simp
      linarith

theorem settings_given {H : Host} {ns : Namespace} {file : Text} {given : List (String × Text)} (h : Means ns file given) :
    SettingsGiven (ns.args H) given where
  boundary := by rw [← h.boundary]; rfl
  modulus := h.modulus
  poisson := h.poisson
  thickness := h.thickness
  hardness := h.hardness
  maxiter := h.maxiter
  pentol := h.pentol
  maps := by
    simp only [List.map_cons, List.map_nil]
    rw [← h.contactFn, ← h.pressureFn, ← h.displFn, ← h.gapFn]
    rfl

theorem parts_range {H : Host} {ta tb tn : Text} (h1 : ',' ∉ ta) (h2 : ',' ∉ tb) (h3 : ',' ∉ tn) :
    partsOf H (ta ++ ',' :: (tb ++ ',' :: tn)) = [⟨H.toFloat ta, H.toInt ta⟩, ⟨H.toFloat tb, H.toInt tb⟩, ⟨H.toFloat tn, H.toInt tn⟩] := by
  have e : ta ++ ',' :: (tb ++ ',' :: tn) = List.intercalate [','] [ta, tb, tn] := by
    rw [List.intercalate_cons_cons, List.intercalate_cons_cons]
    simp
  unfold partsOf
  rw [e, List.splitOn_intercalate]
  · rfl
  · intro l hl
    simp only [List.mem_cons, List.not_mem_nil, or_false] at hl
    rcases hl with rfl | rfl | rfl <;> assumption
  · simp

theorem parts_one {H : Host} {t : Text} (h : ',' ∉ t) : partsOf H t = [⟨H.toFloat t, H.toInt t⟩] := by
  have e : t = List.intercalate [','] [t] := by simp
  unfold partsOf
  conv_lhs => rw [e, List.splitOn_intercalate _ (by simpa using h) (by simp)]
  rfl

theorem asks_text {H : Host} (hH : ReadsNumerals H) {A : CliArgs} {t : Text} {ps : List ℝ} (hA : A.pressure = some (partsOf H t))
    (h : PressureText t ps) : AsksPressures A ps := by
  cases h with
  | one t x h =>
    rw [parts_one (comma_not h)] at hA
    exact .inl ⟨_, hA, by simp [hH.floats _ _ h]⟩
  | range ta tb tn a b n ps h1 h2 h3 hl hp =>
    rw [parts_range (comma_not h1) (comma_not h2) (comma_not_int h3)] at hA
    exact .inr (.inl ⟨_, _, _, a, b, n, hA, hH.floats _ _ h1, hH.floats _ _ h2, hH.ints _ _ h3, hl, hp⟩)

/-- **C193** From the words to the calculation: a command line written in any of the accepted forms runs exactly the calculation it describes: the
surface in the file with the sizes, the height factor and unit and the detrending given, the elastic constants, hardness, iteration limit, tolerance, map files given or their defaults, and the pressures given. -/
theorem C193_run {H : Host} (hH : ReadsNumerals H) {file : Text} (hf : file.head? ≠ some '-') {before after given : List (String × Text)}
    {wb wa : List (List Text)} (hb : List.Forall₂ Writes before wb) (ha : List.Forall₂ Writes after wa) (hg : before ++ after = given) (hw : WellFormed given)
    {unit : Option String} {T₀ : Topo} (hu : H.unitOf file = .ok unit) (hr : H.topography file ((lastGiven "--physical_sizes" given).bind pairOf) = .ok T₀)
    (hc : ∃ c, HeightFactor unit given c) (hdet : ∀ mode T₁, lastGiven "--detrend" given = some mode → ∃ T, H.detrend mode T₁ = .ok T)
    (hfile : ∀ fn, lastGiven "--pressure-from-file" given = some fn → ∃ ps, H.loadtxt fn = .ok ps) :
    ∃ T A, ceHardWall H (wb.flatten ++ file :: wa.flatten) = hardWallCCG T H.rms H.bisect A ∧ SurfaceGiven H unit T₀ T given ∧ SettingsGiven A given ∧
      (∀ ps, lastGiven "--displacement" given = none → PressuresGiven H given ps → AsksPressures A ps) ∧
      (A.displacement.isSome ↔ (lastGiven "--displacement" given).isSome) ∧
      (A.pressure.isSome ∨ A.pressureFile.isSome ↔ (lastGiven "--pressure" given).isSome ∨ (lastGiven "--pressure-from-file" given).isSome) := by
  subst hg
  obtain ⟨ns, e, hm⟩ := C192_values hH hf hb ha hw
  obtain ⟨c, hc⟩ := hc
  obtain ⟨h', hs, hsh, hx⟩ := scaled_given hm unit T₀.heights hc
  have hsurf : ∃ T, surfaceOf H ns = .ok T ∧ SurfaceGiven H unit T₀ T (before ++ after) := by
    unfold surfaceOf
    rw [hm.filename, hu, hm.physicalSizes]
    simp only [bind, Except.bind]
    rw [hr]
    dsimp only
    rw [hs]
    dsimp only
    rw [hm.detrend]
    cases hd : lastGiven "--detrend" (before ++ after) with
    | none =>
      refine ⟨_, rfl, c, { T₀ with heights := h', rmsHeight := H.rms h' }, hc, rfl, hsh, hx, ?_⟩
      rw [hd]
    | some mode =>
      obtain ⟨T, hT⟩ := hdet mode { T₀ with heights := h', rmsHeight := H.rms h' } hd
      refine ⟨T, hT, c, { T₀ with heights := h', rmsHeight := H.rms h' }, hc, rfl, hsh, hx, ?_⟩
      rw [hd]; exact hT
  obtain ⟨T, hsurf, hsg⟩ := hsurf
  have hdisp : (ns.args H).displacement.isSome ↔ (lastGiven "--displacement" (before ++ after)).isSome := by
    show (ns.displacement.map _).isSome ↔ _
    rw [hm.displacement]; simp
  have hpres : (ns.args H).pressure = (lastGiven "--pressure" (before ++ after)).map (partsOf H) := by
    show ns.pressure.map _ = _
    rw [hm.pressure]
  have hpfile : (ns.args H).pressureFile = (lastGiven "--pressure-from-file" (before ++ after)).map fun _ => [] := by
    show ns.pressureFromFn.map _ = _
    rw [hm.pressureFromFn]
  by_cases hcase : ns.pressure = none ∧ ns.displacement = none ∧ ns.pressureFromFn.isSome
  · obtain ⟨c1, c2, c3⟩ := hcase
    obtain ⟨fn, c3⟩ := Option.isSome_iff_exists.1 c3
    obtain ⟨ps, hps⟩ := hfile fn (by rw [← hm.pressureFromFn]; exact c3)
    refine ⟨T, { ns.args H with pressureFile := some ps }, ?_, hsg, ?_, ?_, hdisp, ?_⟩
    · unfold ceHardWall
      rw [e]
      dsimp only
      rw [hsurf]
      dsimp only
      rw [c1, c2, c3]
      dsimp only
      rw [hps]
      dsimp only
      cases hY : cliSystem T (ns.args H) with
      | ok Y => rfl
      | error er =>
        have : cliSystem T { ns.args H with pressureFile := some ps } = .error er := hY
        unfold hardWallCCG hardWall
        rw [this]
    · have := settings_given (H := H) hm
      exact ⟨this.boundary, this.modulus, this.poisson, this.thickness, this.hardness, this.maxiter, this.pentol, this.maps⟩
    · intro qs _ hq
      rcases hq with ⟨t, ht, -⟩ | ⟨-, fn', hfn, hl⟩
      · rw [← hm.pressure, c1] at ht; cases ht
      · rw [← hm.pressureFromFn, c3] at hfn
        cases hfn
        rw [hps] at hl
        cases hl
        refine .inr (.inr ⟨?_, rfl⟩)
        show (ns.args H).pressure = none
        rw [hpres, ← hm.pressure, c1]; rfl
    · rw [← hm.pressureFromFn, c3]; simp
  · refine ⟨T, ns.args H, ?_, hsg, settings_given hm, ?_, hdisp, ?_⟩
    · unfold ceHardWall
      rw [e]
      dsimp only
      rw [hsurf]
      dsimp only
      cases hY : cliSystem T (ns.args H) with
      | error er =>
        unfold hardWallCCG hardWall
        rw [hY]
      | ok Y =>
        dsimp only
        split
        · rename_i h1 h2 h3
          exact absurd ⟨h2, h3, by rw [h1]; rfl⟩ hcase
        · rfl
    · intro qs hd hq
      rcases hq with ⟨t, ht, hp⟩ | ⟨hp, fn', hfn, hl⟩
      · exact asks_text hH (by rw [hpres, ht]; rfl) hp
      · exact absurd ⟨by rw [hm.pressure, hp], by rw [hm.displacement, hd], by rw [hm.pressureFromFn, hfn]; rfl⟩ hcase
    · rw [hpres, hpfile]; simp

/-- **C193** (load control) A command line that gives pressures runs to its end and writes one step per pressure; the load recorded in the `k`-th NetCDF frame is the `k`-th
pressure.  (By `C193_run` the theorems C114, C115, C166 and C169 on log lines, maps, frames and mechanical equilibrium apply to the same outputs.) -/
theorem C193_pressures {H : Host} (hH : ReadsNumerals H) {file : Text} (hf : file.head? ≠ some '-') {before after given : List (String × Text)}
    {wb wa : List (List Text)} (hb : List.Forall₂ Writes before wb) (ha : List.Forall₂ Writes after wa) (hg : before ++ after = given) (hw : WellFormed given)
    {unit : Option String} {T₀ : Topo} {nx ny : ℕ} {sx sy : ℝ} (hT : ValidTopo T₀ nx ny sx sy) (hx : 1 < nx) (hy : 1 < ny)
    (hu : H.unitOf file = .ok unit) (hr : H.topography file ((lastGiven "--physical_sizes" given).bind pairOf) = .ok T₀)
    (hc : ∃ c, HeightFactor unit given c) (hdet : lastGiven "--detrend" given = none) (hdi : lastGiven "--displacement" given = none)
    (hha : lastGiven "--hardness" given = none) (hth : lastGiven "--thickness" given = none)
    (hfile : ∀ fn, lastGiven "--pressure-from-file" given = some fn → ∃ ps, H.loadtxt fn = .ok ps)
    (hbd : ∀ v, lastGiven "--boundary" given = some v → v = "periodic".toList ∨ v = "nonperiodic".toList)
    (hmod : ∀ x, numberGiven "--modulus" given = some x → 0 < x) (hpoi : ∀ x, numberGiven "--poisson" given = some x → -1 < x ∧ x < 1)
    (hmax : ∀ n, (lastGiven "--maxiter" given).bind signed = some n → 1 ≤ n)
    (htol : (lastGiven "--pentol" given).isSome ∨
      ∀ (h : NdArray ℝ) (c : ℝ), HeightFactor unit given c → h.shape = T₀.heights.shape → (∀ x, h.get x = c * T₀.heights.get x) → 0 < H.rms h) {ps : List ℝ} (hps : PressuresGiven H given ps) :
    ∃ outs, ceHardWall H (wb.flatten ++ file :: wa.flatten) = (.ok (), outs) ∧ outs.length = ps.length ∧
      ∀ (k : ℕ) (p : ℝ), ps[k]? = some p → ∃ out : Output, outs[k]? = some out ∧ out.frame.2.1 = p := by
  obtain ⟨T, A, hrun, ⟨c, T₁, hc', e1, e2, e3, e4⟩, hA, hask, hd, -⟩ := C193_run hH hf hb ha hg hw hu hr hc
    (fun mode T₁ h => by rw [hdet] at h; cases h) hfile
  rw [hdet] at e4
  dsimp only at e4
  subst e4
  have hTv : ValidTopo T nx ny sx sy := ⟨e2.trans hT.heights, e1.trans hT.sizes, hT.nx_pos, hT.ny_pos, hT.sx_pos, hT.sy_pos⟩
  have hthn : A.thickness = none := by rw [hA.thickness, numberGiven, hth]; rfl
  have hvalid : ValidCli A := by
    refine ⟨?_, ?_, ?_, by rw [hthn]; intro h hh; cases hh⟩
    · rw [hA.modulus]
      cases hx : numberGiven "--modulus" given with
      | none => norm_num
      | some x => exact hmod x hx
    · rw [hA.poisson]
      cases hx : numberGiven "--poisson" given with
      | none => norm_num
      | some x => exact (hpoi x hx).1
    · rw [hA.poisson]
      cases hx : numberGiven "--poisson" given with
      | none => norm_num
      | some x => exact (hpoi x hx).2
  have hkb : KnownBoundary A := by
    unfold KnownBoundary
    rw [hA.boundary]
    cases hx : lastGiven "--boundary" given with
    | none => left; simp
    | some v =>
      rcases hbd v hx with rfl | rfl
      · left; simp
      · right; exact ⟨by simp, hthn⟩
  have hmi : 1 ≤ A.maxiter := by
    rw [hA.maxiter]
    cases hx : (lastGiven "--maxiter" given).bind signed with
    | none => norm_num
    | some n => exact hmax n hx
  have hdn : A.displacement = none := by
    rw [hdi] at hd
    cases hc : A.displacement with
    | none => rfl
    | some d => rw [hc] at hd; simp at hd
  have hhn : A.hardness = none := by rw [hA.hardness, numberGiven, hha]; rfl
  have hpt : A.pentol.isSome ∨ 0 < H.rms T.heights := by
    rcases htol with h | h
    · left
      rw [hA.pentol, numberGiven]
      obtain ⟨v, hv⟩ := Option.isSome_iff_exists.1 h
      rw [hv]
      have hmem : ("--pentol", v) ∈ given := by
        unfold lastGiven at hv
        obtain ⟨⟨a, b⟩, hab, rfl⟩ := Option.map_eq_some_iff.1 hv
        have := List.mem_filter.1 (List.mem_of_getLast? hab)
        have ha : a = "--pentol" := by simpa using this.2
        rw [ha] at this
        exact this.1
      exact hw.numbers _ hmem (show "--pentol" ∈ numberOptions by decide)
    · exact .inr (h _ c hc' e2 e3)
  have hasks := hask ps hdi hps
  obtain ⟨outs, ho, hl⟩ := C170_pressures_return hTv hx hy A hvalid hkb hmi hhn ps hasks hdn H.rms hpt H.bisect
  obtain ⟨-, D, hD, -, hfr⟩ := C169_written_load hTv A hvalid (by rw [hhn]; intro h hh; cases hh) ps hasks hdn H.rms H.bisect ho
  refine ⟨outs, hrun.trans ho, hl, fun k p hk => ?_⟩
  have hkl : k < D.length := by
    have : k < ps.length := (List.getElem?_eq_some_iff.1 hk).1
    rw [← hl, hD, List.length_map] at this
    exact this
  refine ⟨(D[k]).output, ?_, (hfr k p D[k] hk (List.getElem?_eq_getElem hkl)).1⟩
  rw [hD, List.getElem?_map, List.getElem?_eq_getElem hkl]
  rfl

/-! ## An example -/

/-- A host that reads numerals and has one surface. -/
noncomputable def demoHost (bisect : Bisect) : Host where
  toFloat := number
  toInt := signed
  looksNegative := negative313
  unitOf := fun _ => .ok none
  topography := fun _ _ => .ok demoTopo
  detrend := fun _ T => .ok T
  loadtxt := fun _ => .error .valueError
  rms := fun _ => 1
  bisect := bisect

theorem demoHost_reads (bisect : Bisect) : ReadsNumerals (demoHost bisect) := ⟨fun _ _ h => h, fun _ _ h => h⟩

theorem number_digit {t : Text} {n : ℕ} (h : t = intText n) : number t = some (n : ℝ) := by rw [h, number_intText]; simp

/-- `ce_hard_wall --mod=2 surface.txt --pressure 1,3,3 --pentol=1 --verb` runs three steps at the pressures 1, 2, 3. -/
example (bisect : Bisect) : ∃ outs, ceHardWall (demoHost bisect) ["--mod=2".toList, "surface.txt".toList, "--pressure".toList, "1,3,3".toList, "--pentol=1".toList, "--verb".toList] = (.ok (), outs) ∧
    outs.length = 3 ∧ ∃ out : Output, outs[1]? = some out ∧ out.frame.2.1 = 2 := by
  have n1 : number "1".toList = some 1 := by rw [number_digit (n := 1) (by simp [intText, natText, digit])]; simp
  have n2 : number "2".toList = some 2 := by rw [number_digit (n := 2) (by simp [intText, natText, digit])]; simp
  have n3 : number "3".toList = some 3 := by rw [number_digit (n := 3) (by simp [intText, natText, digit])]; simp
  have i3 : signed "3".toList = some 3 := by decide
  have hb : List.Forall₂ Writes [("--modulus", "2".toList)] [["--mod=2".toList]] :=
    .cons (.equals "--modulus" "2".toList "--mod".toList (by decide) (.inr (by decide))) .nil
  have ha : List.Forall₂ Writes [("--pressure", "1,3,3".toList), ("--pentol", "1".toList), ("--verbose", [])]
      [["--pressure".toList, "1,3,3".toList], ["--pentol=1".toList], ["--verb".toList]] :=
    .cons (.apart "--pressure" _ _ (by decide) (.inl rfl) (by decide)) (.cons (.equals "--pentol" "1".toList _ (by decide) (.inl rfl))
      (.cons (.flag _ (.inr (by decide))) .nil))
  have hw : WellFormed ([("--modulus", "2".toList)] ++ [("--pressure", "1,3,3".toList), ("--pentol", "1".toList), ("--verbose", [])]) := by
    constructor <;> intro g hg h <;> simp only [List.cons_append, List.nil_append, List.mem_cons, List.not_mem_nil, or_false] at hg <;>
      rcases hg with rfl | rfl | rfl | rfl <;> first | (exact absurd h (by decide)) | simp only [n1, n2, Option.isSome_some]
  have hmod : numberGiven "--modulus" ([("--modulus", "2".toList)] ++ [("--pressure", "1,3,3".toList), ("--pentol", "1".toList), ("--verbose", [])]) = some 2 := by
    unfold numberGiven
    rw [show lastGiven "--modulus" _ = some "2".toList by decide]
    exact n2
  obtain ⟨outs, h1, h2, h3⟩ := C193_pressures (demoHost_reads bisect) (file := "surface.txt".toList) (by decide) hb ha rfl hw demoTopo_valid (by norm_num) (by norm_num)
    (unit := none) rfl rfl ⟨_, .plain (by decide)⟩ (by decide) (by decide) (by decide) (by decide) (fun fn h => by rw [show lastGiven "--pressure-from-file" _ = none by decide] at h; cases h)
    (fun v h => by rw [show lastGiven "--boundary" _ = none by decide] at h; cases h) (fun x h => by rw [hmod] at h; cases h; norm_num)
    (fun x h => by unfold numberGiven at h; rw [show lastGiven "--poisson" _ = none by decide] at h; cases h)
    (fun n h => by rw [show lastGiven "--maxiter" _ = none by decide] at h; cases h) (.inl (by decide)) (ps := [1, 2, 3])
    (.inl ⟨"1,3,3".toList, by decide, PressureText.range "1".toList "3".toList "3".toList 1 3 3 [1, 2, 3] n1 n3 i3 rfl (by
      intro k hk
      have : k < 3 := hk
      interval_cases k <;> norm_num)⟩)
  exact ⟨outs, h1, h2, h3 1 2 rfl⟩

end CM.Cli
