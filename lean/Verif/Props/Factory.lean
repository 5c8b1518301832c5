import Verif.Model.Factory
import Verif.Props.Systems
import Verif.Props.Free
/-!
# Factory functions (C100, C101, C143)
-/
namespace CM.Factory
open CM.FFT CM.HS CM.System CM.Spec

/-- The sizes the documentation promises: the argument, else what the topography knows. -/
def Sizes (arg known : Option (List ℝ)) (s : List ℝ) : Prop := arg = some s ∨ (arg = none ∧ known = some s)

lemma chooseSizes_ok {arg known : Option (List ℝ)} {s : List ℝ} (h : Sizes arg known s) : chooseSizes arg known = .ok s := by
  rcases h with h | ⟨h1, h2⟩
  · subst h; cases known <;> rfl
  · subst h1 h2; rfl

lemma constructFree_ok {grid : List ℕ} {nx ny : ℕ} (hg : grid = [nx, ny]) (hx : 0 < nx) (hy : 0 < ny) (E : ℝ) {sizes : List ℝ}
    (hs : sizes ≠ []) : ∃ s, constructFree ⟨grid, E, sizes, none⟩ = .ok s := by
  subst hg
  have := initAttrs_ok (a := FreeArgs.base ⟨[nx, ny], E, sizes, none⟩) (dom := [nx, ny].map (2 * ·)) |>.mpr
    ⟨by simp [FreeArgs.base], .inl rfl, by simp [FreeArgs.base, hs],
      by simp [FreeArgs.base]; omega, by simp [FreeArgs.base], by simp [FreeArgs.base], rfl⟩
  unfold constructFree
  dsimp only
  rw [this]
  simp only [bind, Except.bind, FreeArgs.base, List.length_cons, List.length_nil]
  exact ⟨_, rfl⟩

/-- What a factory built substrate must look like: grid, sizes and kind. -/
structure Matches (S : Sys) (g : List ℕ) (s : List ℝ) (E : ℝ) (free : Bool) : Prop where
  grid : S.sub.hs.nbGridPts = g
  sizes : S.sub.hs.physicalSizes = s
  young : S.sub.hs.mat.young = E
  kind : S.sub.free = free
  /-- the computational grid is doubled exactly for the free class -/
  domain : S.sub.hs.domain = if free then g.map (2 * ·) else g

lemma periodic_built {grid : List ℕ} {nx ny : ℕ} {sx sy E : ℝ} (hg : grid = [nx, ny]) (hx : 1 < nx) (hy : 1 < ny) (hsx : 0 < sx)
    (hsy : 0 < sy) (hE : 0 < E) : ∃ hs, construct ⟨grid, E, [sx, sy], none, none, 0, none⟩ = .ok hs ∧ hs.nbGridPts = grid ∧
      hs.physicalSizes = [sx, sy] ∧ hs.domain = grid ∧ hs.mat.young = E := by
  subst hg
  obtain ⟨s, hs⟩ := (C13_construct_ok_iff ⟨[nx, ny], E, [sx, sy], none, none, 0, none⟩).mpr (by simp; omega)
  refine ⟨s, hs, ?_⟩
  have hv : ValidArgs ⟨[nx, ny], E, [sx, sy], none, none, 0, none⟩ := by
    constructor <;> simp [hsx, hsy, hE]
  obtain ⟨_, _, P⟩ := per_of_construct hv hs rfl
  refine ⟨P.grid, by rw [P.sizes]; simp [size], P.rep.dom, ?_⟩
  rw [P.mat]

lemma free_built {grid : List ℕ} {nx ny : ℕ} {sx sy E : ℝ} (hg : grid = [nx, ny]) (hx : 0 < nx) (hy : 0 < ny) (hsx : 0 < sx)
    (hsy : 0 < sy) (hE : 0 < E) : ∃ hs, constructFree ⟨grid, E, [sx, sy], none⟩ = .ok hs ∧ hs.nbGridPts = grid ∧
      hs.physicalSizes = [sx, sy] ∧ hs.domain = grid.map (2 * ·) ∧ hs.mat.young = E := by
  subst hg
  obtain ⟨s, hs⟩ := constructFree_ok (grid := [nx, ny]) rfl hx hy E (sizes := [sx, sy]) (by simp)
  refine ⟨s, hs, ?_⟩
  have hv : ValidFree ⟨[nx, ny], E, [sx, sy], none⟩ := by
    constructor <;> simp [hsx, hsy, hE]
  obtain ⟨_, _, P⟩ := free_of_construct hv hs rfl
  refine ⟨P.grid, by rw [P.sizes]; simp [sizeF], P.dom, P.young⟩

lemma mkSystem_ok {sub : Substrate} {h : NdArray ℝ} (e : sub.hs.nbGridPts = h.shape) :
    ∃ S, mkSystem sub h = .ok S ∧ S.sub = sub ∧ S.heights = h := by
  obtain ⟨S, h1, h2, h3, -⟩ := (C56_incompatible_resolution_iff sub h).2 e.symm
  exact ⟨S, h1, h2, h3⟩

/-- The factory resolves to the kind asked for by name, and by the topography without a name. -/
lemma resolve_ok {grid : List ℕ} {nx ny : ℕ} {sx sy E : ℝ} (hg : grid = [nx, ny]) (hx : 1 < nx) (hy : 1 < ny) (hsx : 0 < sx)
    (hsy : 0 < sy) (hE : 0 < E) (free : Bool) (isPeriodic : Option Bool) {sub : SubstrateArg}
    (hsub : (sub = .none ∧ isPeriodic = some (!free)) ∨ sub = .name (if free then "free" else "periodic")) :
    ∃ o : Substrate, resolve grid [sx, sy] isPeriodic { young := some E } sub = .ok (.object o) ∧ o.hs.nbGridPts = grid ∧
      o.hs.physicalSizes = [sx, sy] ∧ o.hs.domain = (if free then grid.map (2 * ·) else grid) ∧ o.hs.mat.young = E ∧
      o.free = free := by
  cases free
  · obtain ⟨hs, h1, h2, h3, h4, h5⟩ := periodic_built hg hx hy hsx hsy hE
    refine ⟨⟨hs, false, false⟩, ?_, h2, h3, by simpa using h4, h5, rfl⟩
    have hb : buildPeriodic grid [sx, sy] { young := some E } = .ok ⟨hs, false, false⟩ := by
      unfold buildPeriodic
      simp only [Option.getD_none, h1]; rfl
    rcases hsub with ⟨rfl, rfl⟩ | rfl <;> simp [resolve, hb, Except.map]
  · obtain ⟨hs, h1, h2, h3, h4, h5⟩ := free_built hg (by omega) (by omega) hsx hsy hE
    refine ⟨⟨hs, true, false⟩, ?_, h2, h3, by simpa using h4, h5, rfl⟩
    have hb : buildFree grid [sx, sy] { young := some E } = .ok ⟨hs, true, false⟩ := by
      unfold buildFree
      simp only [Option.getD_none, h1]; rfl
    rcases hsub with ⟨rfl, rfl⟩ | rfl <;> simp [resolve, hb, Except.map]

/-- C100: without a substrate `make_system` builds a periodic one exactly for periodic topographies, a free one
for the others (and the named one whatever the topography), on the grid of the topography and with the given, else
the stored, physical sizes. -/
theorem C100_chooses (T : Topography) {nx ny : ℕ} {sx sy E : ℝ} (hT : T.heights.shape = [nx, ny]) (hx : 1 < nx) (hy : 1 < ny)
    (hsx : 0 < sx) (hsy : 0 < sy) (hE : 0 < E) {sizes : Option (List ℝ)} (hs : Sizes sizes T.physicalSizes [sx, sy]) (free : Bool)
    {sub : SubstrateArg} (hsub : (sub = .none ∧ T.isPeriodic = !free) ∨ sub = .name (if free then "free" else "periodic")) :
    ∃ S, makeSystem (.topography T) sub sizes { young := some E } = .ok S ∧ Matches S [nx, ny] [sx, sy] E free ∧
      S.heights = T.heights := by
  obtain ⟨o, h1, h2, h3, h4, h5, h6⟩ := resolve_ok hT hx hy hsx hsy hE free (some T.isPeriodic) (sub := sub) (by simpa using hsub)
  obtain ⟨S, k1, k2, k3⟩ := mkSystem_ok (sub := o) (h := T.heights) h2
  refine ⟨S, ?_, ⟨by rw [k2, h2, hT], by rw [k2, h3], by rw [k2, h5], by rw [k2, h6], by rw [k2, h4, hT]⟩, k3⟩
  simp only [makeSystem, makeSystemArgs, chooseSizes_ok hs, bind, Except.bind, h1, pure, Except.pure, k1]

/-- C100 for readers (and for paths, which are opened to readers): the kind is taken from the reader or the name,
the topography is loaded with the chosen sizes, and its grid must be the announced one. -/
theorem C100_reader (R : Reader) {nx ny : ℕ} {sx sy E : ℝ} (hT : R.grid = [nx, ny]) (hx : 1 < nx) (hy : 1 < ny)
    (hsx : 0 < sx) (hsy : 0 < sy) (hE : 0 < E) {sizes : Option (List ℝ)} (hs : Sizes sizes R.physicalSizes [sx, sy]) (free : Bool)
    {sub : SubstrateArg} (hsub : (sub = .none ∧ R.isPeriodic = some (!free)) ∨ sub = .name (if free then "free" else "periodic"))
    (T : Topography) (hl : R.load [sx, sy] = .ok T) (hTs : T.heights.shape = R.grid) :
    (∃ S, makeSystem (.reader R) sub sizes { young := some E } = .ok S ∧ Matches S [nx, ny] [sx, sy] E free ∧
      S.heights = T.heights) ∧
    makeSystem (.path (.ok R)) sub sizes { young := some E } = makeSystem (.reader R) sub sizes { young := some E } := by
  obtain ⟨o, h1, h2, h3, h4, h5, h6⟩ := resolve_ok hT hx hy hsx hsy hE free R.isPeriodic (sub := sub) hsub
  obtain ⟨S, k1, k2, k3⟩ := mkSystem_ok (sub := o) (h := T.heights) (h2.trans hTs.symm)
  refine ⟨⟨S, ?_, ⟨by rw [k2, h2, hT], by rw [k2, h3], by rw [k2, h5], by rw [k2, h6], by rw [k2, h4, hT]⟩, k3⟩, rfl⟩
  simp only [makeSystem, makeSystemArgs, argsOfReader, chooseSizes_ok hs, bind, Except.bind, h1, pure, Except.pure, hl, k1]

/-- C100: without sizes in the arguments and in the topography `make_system` raises `ValueError`, whatever the
substrate argument -- also if the substrate object knows its sizes. -/
theorem C100_missing_sizes (T : Topography) (h : T.physicalSizes = none) (sub : SubstrateArg) (kw : Kwargs) :
    makeSystem (.topography T) sub none kw = .error .valueError := by
  simp [makeSystem, makeSystemArgs, chooseSizes, h, bind, Except.bind]

/-- C100: a substrate object is used as it is; all other keyword arguments are ignored. -/
theorem C100_object (T : Topography) (o : Substrate) {sizes : Option (List ℝ)} {s : List ℝ} (hs : Sizes sizes T.physicalSizes s)
    (kw : Kwargs) :
    (o.hs.nbGridPts = T.heights.shape → ∃ S, makeSystem (.topography T) (.object o) sizes kw = .ok S ∧ S.sub = o ∧
      S.heights = T.heights) ∧
    (o.hs.nbGridPts ≠ T.heights.shape → makeSystem (.topography T) (.object o) sizes kw = .error .incompatibleResolution) := by
  constructor
  · intro e
    obtain ⟨S, k1, k2, k3⟩ := mkSystem_ok e
    refine ⟨S, ?_, k2, k3⟩
    simp only [makeSystem, makeSystemArgs, chooseSizes_ok hs, bind, Except.bind, resolve, pure, Except.pure, k1]
  · intro e
    have := (C56_incompatible_resolution_iff o T.heights).1.mpr (Ne.symm e)
    simp only [makeSystem, makeSystemArgs, chooseSizes_ok hs, bind, Except.bind, resolve, pure, Except.pure, this]

/-- C100: an unknown name is `AttributeError`; without Young's modulus a substrate to be built is `TypeError`. -/
theorem C100_refused (T : Topography) {sizes : Option (List ℝ)} {s : List ℝ} (hs : Sizes sizes T.physicalSizes s) (kw : Kwargs) :
    (∀ name, name ≠ "periodic" → name ≠ "free" →
      makeSystem (.topography T) (.name name) sizes kw = .error .attributeError) ∧
    (kw.young = none → ∀ sub, (sub = .none ∨ sub = .name "periodic" ∨ sub = .name "free") →
      makeSystem (.topography T) sub sizes kw = .error .typeError) := by
  constructor
  · intro n h1 h2
    simp only [makeSystem, makeSystemArgs, chooseSizes_ok hs, bind, Except.bind, resolve, h1, h2, if_false, pure, Except.pure]
    rfl
  · intro h sub hsub
    have hp : buildPeriodic T.heights.shape s kw = .error .typeError := by unfold buildPeriodic; rw [h]
    have hf : buildFree T.heights.shape s kw = .error .typeError := by unfold buildFree; rw [h]
    have : resolve T.heights.shape s (some T.isPeriodic) kw sub = .error .typeError := by
      rcases hsub with rfl | rfl | rfl
      · cases hb : T.isPeriodic <;> simp [resolve, hp, hf, Except.map]
      · simp [resolve, hp, Except.map]
      · simp [resolve, hf, Except.map]
    simp only [makeSystem, makeSystemArgs, chooseSizes_ok hs, bind, Except.bind, this]

/-- C100: nothing is guessed for readers.  Without a name a reader that does not say whether it is periodic is an
`AttributeError`, as is a name other than the two; without sizes `ValueError`; a file that cannot be opened or loaded
passes its own exception on. -/
theorem C100_reader_refused (R : Reader) (sizes : Option (List ℝ)) (kw : Kwargs) :
    (sizes = none → R.physicalSizes = none → ∀ sub, makeSystem (.reader R) sub sizes kw = .error .valueError) ∧
    (∀ s, Sizes sizes R.physicalSizes s →
      (R.isPeriodic = none → makeSystem (.reader R) .none sizes kw = .error .attributeError) ∧
      (∀ name, name ≠ "periodic" → name ≠ "free" → makeSystem (.reader R) (.name name) sizes kw = .error .attributeError) ∧
      (∀ o e, R.load s = .error e → makeSystem (.reader R) (.object o) sizes kw = .error e)) ∧
    (∀ e sub, makeSystem (.path (.error e)) sub sizes kw = .error e) := by
  refine ⟨?_, fun s hs => ⟨?_, ?_, ?_⟩, fun e sub => rfl⟩
  · rintro rfl h sub
    simp [makeSystem, makeSystemArgs, argsOfReader, chooseSizes, h, bind, Except.bind]
  · intro h
    simp only [makeSystem, makeSystemArgs, argsOfReader, chooseSizes_ok hs, bind, Except.bind, resolve, h]
  · intro n h1 h2
    simp only [makeSystem, makeSystemArgs, argsOfReader, chooseSizes_ok hs, bind, Except.bind, resolve, h1, h2, if_false]
    rfl
  · intro o e he
    simp only [makeSystem, makeSystemArgs, argsOfReader, chooseSizes_ok hs, bind, Except.bind, resolve, he]

/-- A reader that knows its sizes but not its periodicity. -/
example : ∃ R : Reader, R.isPeriodic = none ∧ Sizes none R.physicalSizes [2, 1] :=
  ⟨⟨[3, 2], some [2, 1], none, fun _ => .error .valueError⟩, rfl, .inr ⟨rfl, rfl⟩⟩

/-- REFUTED C101: whatever the physical sizes of the topography (positive, of the right number), there is no
exception for *any* substrate of the same grid, in particular not for one with other sizes. -/
theorem C101_not_compared_partial (T : Topography) (o : Substrate) {s : List ℝ} (hs : T.physicalSizes = some s)
    (hg : o.hs.nbGridPts = T.heights.shape) (kw : Kwargs) :
    ∃ S, makeSystem (.topography T) (.object o) none kw = .ok S ∧ S.sub.hs.physicalSizes = o.hs.physicalSizes := by
  obtain ⟨S, h1, h2, -⟩ := (C100_object T o (.inr ⟨rfl, hs⟩) kw).1 hg
  exact ⟨S, h1, by rw [h2]⟩

/-- A topography of size 1 x 1 on a substrate of size 7 x 9 is accepted. -/
example : ∃ (T : Topography) (o : Substrate) (S : Sys), T.physicalSizes = some [1, 1] ∧ o.hs.physicalSizes = [7, 9] ∧
    makeSystem (.topography T) (.object o) none {} = .ok S := by
  obtain ⟨hs, h1, h2, h3, -, -⟩ := periodic_built (grid := [4, 4]) rfl (by norm_num) (by norm_num) (sx := 7) (sy := 9) (E := 1)
    (by norm_num) (by norm_num) (by norm_num)
  obtain ⟨S, k, -⟩ := C101_not_compared_partial ⟨⟨[4, 4], fun _ => 0⟩, some [1, 1], true⟩ ⟨hs, false, false⟩ rfl h2 {}
  exact ⟨_, _, S, rfl, h3, k⟩

/-- C101, also for `physical_sizes` as an argument: it wins over the sizes of the topography without a
comparison. -/
theorem C101_argument_wins_partial (T : Topography) {nx ny : ℕ} {sx sy E : ℝ} (hT : T.heights.shape = [nx, ny]) (hx : 1 < nx)
    (hy : 1 < ny) (hsx : 0 < sx) (hsy : 0 < sy) (hE : 0 < E) :
    ∃ S, makeSystem (.topography T) .none (some [sx, sy]) { young := some E } = .ok S ∧
      S.sub.hs.physicalSizes = [sx, sy] := by
  obtain ⟨S, h, m, -⟩ := C100_chooses T hT hx hy hsx hsy hE (.inl rfl) (!T.isPeriodic) (.inl ⟨rfl, by simp⟩)
  exact ⟨S, h, m.sizes⟩

/-- C143: `topography.make_contact_system` with keyword arguments is `make_system`. -/
theorem C143_keywords (T : Topography) (sub : SubstrateArg) (sizes : Option (List ℝ)) (kw : Kwargs) :
    makeContactSystem T [] sub sizes kw = makeSystem (.topography T) sub sizes kw := rfl

/-- REFUTED C143: a positional argument (which the signature accepts) always raises `TypeError`. -/
theorem C143_positional_partial (T : Topography) (a : SubstrateArg) (args : List SubstrateArg) (sub : SubstrateArg)
    (sizes : Option (List ℝ)) (kw : Kwargs) : makeContactSystem T (a :: args) sub sizes kw = .error .typeError := by
  simp [makeContactSystem]

/-- C100: the factory does not enforce that a periodic substrate carries a periodic topography: a substrate
name or object wins over `is_periodic`, in both directions, without an exception. -/
theorem C100_kind_not_enforced (T : Topography) {nx ny : ℕ} {sx sy E : ℝ} (hT : T.heights.shape = [nx, ny]) (hx : 1 < nx)
    (hy : 1 < ny) (hsx : 0 < sx) (hsy : 0 < sy) (hE : 0 < E) (hs : T.physicalSizes = some [sx, sy]) :
    ∃ S, makeSystem (.topography T) (.name (if T.isPeriodic then "free" else "periodic")) none { young := some E } = .ok S ∧
      S.sub.free = T.isPeriodic := by
  obtain ⟨S, h, m, -⟩ := C100_chooses T hT hx hy hsx hsy hE (.inr ⟨rfl, hs⟩) T.isPeriodic (.inr rfl)
  exact ⟨S, h, m.kind⟩

/-- The hypotheses of `C100_chooses` are met by a non-periodic 3 x 2 topography of size 2 x 1. -/
example : ∃ T : Topography, T.heights.shape = [3, 2] ∧ Sizes none T.physicalSizes [2, 1] ∧ T.isPeriodic = !true :=
  ⟨⟨⟨[3, 2], fun _ => 0⟩, some [2, 1], false⟩, rfl, .inr ⟨rfl, rfl⟩, rfl⟩

lemma initAttrs_mat {a : Args} {dom : List ℕ} {sizes : List ℝ} {m : Mat} (h : initAttrs a dom = .ok (sizes, m)) :
    m.young = a.young ∧ m.poisson = a.poisson ∧ m.q0 = a.q0 ∧ m.thickness = a.thickness := by
  unfold initAttrs at h
  simp only [bind, Except.bind, pure, Except.pure, throw, throwThe, MonadExceptOf.throw] at h
  repeat' split at h
  all_goals first
    | (cases h; done)
    | (cases h; exact ⟨rfl, rfl, rfl, rfl⟩)

/-- C100: the keyword arguments reach the substrate the factory builds: Young's modulus always, for a periodic one
also the Poisson number (zero by default), the thickness and the stiffness at zero wavevector, for a free one the
boundary check (off by default). -/
theorem C100_keywords (T : Topography) {sizes : Option (List ℝ)} {s : List ℝ} (hs : Sizes sizes T.physicalSizes s) (kw : Kwargs)
    (free : Bool) {sub : SubstrateArg}
    (hsub : (sub = .none ∧ T.isPeriodic = !free) ∨ sub = .name (if free then "free" else "periodic")) {S : Sys}
    (h : makeSystem (.topography T) sub sizes kw = .ok S) :
    kw.young = some S.sub.hs.mat.young ∧ S.sub.free = free ∧
    (free = false → kw.checkBoundaries = none ∧ S.sub.hs.mat.poisson = kw.poisson.getD 0 ∧ S.sub.hs.mat.thickness = kw.thickness ∧
      S.sub.hs.mat.q0 = kw.stiffnessQ0 ∧ S.sub.checkFlag = false) ∧
    (free = true → kw.poisson = none ∧ kw.thickness = none ∧ kw.stiffnessQ0 = none ∧ S.sub.checkFlag = kw.checkBoundaries.getD false) := by
  have hsys : ∀ o : Substrate, mkSystem o T.heights = .ok S → S.sub = o := by
    intro o ho
    unfold mkSystem at ho
    simp only [bind, Except.bind, pure, Except.pure, throw, throwThe, MonadExceptOf.throw] at ho
    split at ho
    · cases ho
    · split at ho
      · cases ho; rfl
      · cases ho
  simp only [makeSystem, makeSystemArgs, chooseSizes_ok hs, bind, Except.bind, pure, Except.pure] at h
  cases free
  · have hr : resolve T.heights.shape s (some T.isPeriodic) kw sub = (buildPeriodic T.heights.shape s kw).map .object := by
      rcases hsub with ⟨rfl, hp⟩ | rfl
      · simp [resolve, hp]
      · simp [resolve]
    rw [hr] at h
    unfold buildPeriodic at h
    cases hE : kw.young with
    | none => rw [hE] at h; cases h
    | some E =>
      cases hb : kw.checkBoundaries with
      | some b => rw [hE, hb] at h; cases h
      | none =>
        rw [hE, hb] at h
        simp only [bind, Except.bind, pure, Except.pure] at h
        cases hc : construct ⟨T.heights.shape, E, s, kw.stiffnessQ0, kw.thickness, kw.poisson.getD 0, none⟩ with
        | error e => rw [hc] at h; cases h
        | ok q =>
          rw [hc] at h
          have hq := hsys _ h
          rw [hq]
          unfold construct at hc
          simp only [bind, Except.bind, pure, Except.pure] at hc
          cases hi : initAttrs ⟨T.heights.shape, E, s, kw.stiffnessQ0, kw.thickness, kw.poisson.getD 0, none⟩ T.heights.shape with
          | error e => rw [hi] at hc; cases hc
          | ok w =>
            rw [hi] at hc
            obtain ⟨m1, m2, m3, m4⟩ := initAttrs_mat (sizes := w.1) (m := w.2) hi
            dsimp only at hc
            cases hg : greensSerial w.2 T.heights.shape w.1 with
            | error e => rw [hg] at hc; cases hc
            | ok G =>
              rw [hg] at hc
              cases hc
              exact ⟨by rw [m1], rfl, fun _ => ⟨rfl, m2, m4, m3, rfl⟩, fun h => by cases h⟩
  · have hr : resolve T.heights.shape s (some T.isPeriodic) kw sub = (buildFree T.heights.shape s kw).map .object := by
      rcases hsub with ⟨rfl, hp⟩ | rfl
      · simp [resolve, hp]
      · simp [resolve]
    rw [hr] at h
    unfold buildFree at h
    cases hE : kw.young with
    | none => rw [hE] at h; cases h
    | some E =>
      cases h1 : kw.stiffnessQ0 with
      | some b => rw [hE, h1] at h; cases h
      | none =>
        cases h2 : kw.thickness with
        | some b => rw [hE, h1, h2] at h; cases h
        | none =>
          cases h3 : kw.poisson with
          | some b => rw [hE, h1, h2, h3] at h; cases h
          | none =>
            rw [hE, h1, h2, h3] at h
            simp only [bind, Except.bind, pure, Except.pure] at h
            cases hc : constructFree ⟨T.heights.shape, E, s, none⟩ with
            | error e => rw [hc] at h; cases h
            | ok q =>
              rw [hc] at h
              have hq := hsys _ h
              rw [hq]
              unfold constructFree at hc
              simp only [bind, Except.bind, pure, Except.pure] at hc
              cases hi : initAttrs (FreeArgs.base ⟨T.heights.shape, E, s, none⟩) (T.heights.shape.map (2 * ·)) with
              | error e => rw [hi] at hc; cases hc
              | ok w =>
                rw [hi] at hc
                obtain ⟨m1, -⟩ := initAttrs_mat (sizes := w.1) (m := w.2) hi
                dsimp only at hc
                split at hc
                · cases hc
                  exact ⟨by rw [m1]; rfl, rfl, (fun h => by cases h), fun _ => ⟨rfl, rfl, rfl, rfl⟩⟩
                · cases hc

/-- The hypotheses are met: a layer of thickness 2 with Poisson number 0.3. -/
example : ∃ S, makeSystem (.topography ⟨⟨[3, 2], fun _ => 0⟩, some [2, 1], true⟩) .none none
    { young := some 1, thickness := some 2, poisson := some 0.3 } = .ok S := by
  obtain ⟨hs, h1⟩ := (C13_construct_ok_iff ⟨[3, 2], 1, [2, 1], none, some 2, 0.3, none⟩).mpr (by simp; norm_num)
  have hv : ValidArgs ⟨[3, 2], 1, [2, 1], none, some 2, 0.3, none⟩ := by
    constructor <;> norm_num
  obtain ⟨_, _, P⟩ := per_of_construct hv h1 rfl
  obtain ⟨S, k1, -⟩ := mkSystem_ok (sub := ⟨hs, false, false⟩) (h := ⟨[3, 2], fun _ => 0⟩) P.grid
  refine ⟨S, ?_⟩
  simp only [makeSystem, makeSystemArgs, chooseSizes, bind, Except.bind, pure, Except.pure, resolve, buildPeriodic, Except.map,
    Option.getD_some, h1, k1]

end CM.Factory
