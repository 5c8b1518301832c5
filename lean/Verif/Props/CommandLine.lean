import Verif.Spec.CommandLine
import Verif.Props.MapFiles
import Mathlib.Data.List.TakeWhile
/-!
# The words of the command line

C192: what is typed is what the program uses.
-/
namespace CM.Cli
open CM.Log CM.Num CM.MapFile

/-! ## Names -/

/-- The option a name belongs to. -/
def optOf (n : String) : Opt := (Opt.all.find? (fun o => o.name = n.toList)).getD .help

theorem mem_all (o : Opt) : o ∈ Opt.all := by cases o <;> decide

theorem name_inj {o o' : Opt} (h : o.name = o'.name) : o = o' := by
  have key : ∀ a ∈ Opt.all, ∀ b ∈ Opt.all, a.name = b.name → a = b := by decide
  exact key _ (mem_all o) _ (mem_all o') h

theorem name_optOf : ∀ n ∈ optionNames, (optOf n).name = n.toList := by decide

theorem ofList_name (o : Opt) : ∃ n ∈ optionNames, o.name = n.toList := by
  have key : ∀ a ∈ Opt.all, ∃ n ∈ optionNames, a.name = n.toList := by decide
  exact key o (mem_all o)

theorem name_no_eq (o : Opt) : '=' ∉ o.name := by
  have key : ∀ a ∈ Opt.all, '=' ∉ a.name := by decide
  exact key o (mem_all o)

theorem name_dashes (o : Opt) : "--".toList <+: o.name := by
  have key : ∀ a ∈ Opt.all, "--".toList <+: a.name := by decide
  exact key o (mem_all o)

theorem value_ne : ∀ n ∈ valueOptions, optOf n ≠ .help ∧ optOf n ≠ .verbose := by decide

theorem value_names {n : String} (h : n ∈ valueOptions) : n ∈ optionNames := by simp [optionNames, h]

/-- What stands for an option begins with two dashes, contains no `=`, and is a beginning of its name. -/
theorem stands_shape {p : Text} {n : String} (hn : n ∈ optionNames) (h : StandsFor p n) :
    (∃ t, p = '-' :: '-' :: t) ∧ '=' ∉ p ∧ p <+: (optOf n).name := by
  have hpre : p <+: n.toList := by
    rcases h with rfl | ⟨h, -⟩
    · exact List.prefix_rfl
    · exact h
  have hpre' : p <+: (optOf n).name := by rw [name_optOf n hn]; exact hpre
  refine ⟨?_, fun hm => name_no_eq _ (hpre'.subset hm), hpre'⟩
  have hd := name_dashes (optOf n)
  by_cases hl : 2 ≤ p.length
  · obtain ⟨t, ht⟩ := List.prefix_of_prefix_length_le hd hpre' (by simpa using hl)
    exact ⟨t, by rw [← ht]; rfl⟩
  · exfalso
    have hp2 : p <+: "--".toList := List.prefix_of_prefix_length_le hpre' hd (by simp; omega)
    rcases h with h | ⟨-, h⟩
    · rw [← name_optOf n hn] at h
      rw [h] at hl
      exact hl (by simpa using hd.length_le)
    · have hall : ∀ m ∈ optionNames, p <+: m.toList := fun m hm => by
        rw [← name_optOf m hm]; exact hp2.trans (name_dashes _)
      have e1 := h "--help" (by decide) (hall _ (by decide))
      have e2 := h "--verbose" (by decide) (hall _ (by decide))
      rw [← e1] at e2
      exact absurd e2 (by decide)

theorem find_name (o : Opt) : Opt.all.find? (fun o' => o'.name = o.name) = some o := by
  have key : ∀ a ∈ Opt.all, Opt.all.find? (fun o' => o'.name = a.name) = some a := by decide
  exact key o (mem_all o)

theorem splitEq_none {s : Text} (h : '=' ∉ s) : splitEq s = (s, none) := by
  unfold splitEq
  rw [if_neg h]
  congr 1
  have hs : ∀ c ∈ s, (decide (c ≠ '=')) = true := fun c hc => by simpa using fun e : c = '=' => h (e ▸ hc)
  have := List.takeWhile_append_of_pos (l₂ := []) hs
  simpa using this

theorem splitEq_some {p v : Text} (h : '=' ∉ p) : splitEq (p ++ '=' :: v) = (p, some v) := by
  have hp : ∀ c ∈ p, (decide (c ≠ '=')) = true := fun c hc => by simpa using fun e : c = '=' => h (e ▸ hc)
  unfold splitEq
  rw [if_pos (by simp), List.takeWhile_append_of_pos hp, List.dropWhile_append_of_pos hp]
  simp

theorem filter_stands {p : Text} {n : String} (hn : n ∈ optionNames) (h : p <+: n.toList) (hu : ∀ m ∈ optionNames, p <+: m.toList → m = n) :
    Opt.all.filter (fun o => p.isPrefixOf o.name) = [optOf n] := by
  have hnd : Opt.all.Nodup := by decide
  have hfil : Opt.all.filter (fun o => p.isPrefixOf o.name) = Opt.all.filter (fun o => o = optOf n) := by
    apply List.filter_congr
    intro o _
    rw [Bool.eq_iff_iff, List.isPrefixOf_iff_prefix, decide_eq_true_iff]
    constructor
    · intro ho
      obtain ⟨m, hm, e⟩ := ofList_name o
      have := hu m hm (e ▸ ho)
      subst this
      exact name_inj (by rw [e, name_optOf m hm])
    · rintro rfl
      rw [name_optOf n hn]; exact h
  have key : ∀ a ∈ Opt.all, Opt.all.filter (fun o => o = a) = [a] := by decide
  rw [hfil, key _ (mem_all _)]

/-! ## Words -/

theorem find_none {s : Text} (h : ∀ o : Opt, o.name ≠ s) : Opt.all.find? (fun o => o.name = s) = none := by
  rw [List.find?_eq_none]
  intro o _
  simpa using h o

theorem classify_stands (neg : Text → Bool) {p : Text} {n : String} (hn : n ∈ optionNames) (h : StandsFor p n) :
    classify neg p = .option (optOf n) none := by
  obtain ⟨⟨t, rfl⟩, hp, hpre⟩ := stands_shape hn h
  by_cases hfull : ∃ o : Opt, o.name = '-' :: '-' :: t
  · obtain ⟨o, ho⟩ := hfull
    have hon : o = optOf n := by
      rcases h with h | ⟨-, h⟩
      · exact name_inj (by rw [ho, name_optOf n hn, h])
      · obtain ⟨m, hm, e⟩ := ofList_name o
        have := h m hm (by rw [← e, ho])
        subst this
        exact name_inj (by rw [e, name_optOf m hm])
    subst hon
    unfold classify
    rw [← ho, find_name]
    cases hc : (optOf n).name with
    | nil => rw [hc] at ho; cases ho
    | cons c r => rw [hc] at ho; cases ho; rfl
  · have hfull' : ∀ o : Opt, o.name ≠ '-' :: '-' :: t := fun o ho => hfull ⟨o, ho⟩
    have hu : ∀ m ∈ optionNames, '-' :: '-' :: t <+: m.toList → m = n := by
      rcases h with h | ⟨-, h⟩
      · exact absurd (by rw [h, name_optOf n hn]) (hfull' (optOf n))
      · exact h
    rw [name_optOf n hn] at hpre
    simp only [classify]
    rw [find_none hfull', splitEq_none hp]
    simp only [List.head?_cons]
    rw [find_none hfull', filter_stands hn hpre hu]
    simp

theorem classify_equals (neg : Text → Bool) {p : Text} {n : String} (hn : n ∈ optionNames) (h : StandsFor p n) (v : Text) :
    classify neg (p ++ '=' :: v) = .option (optOf n) (some v) := by
  obtain ⟨⟨t, rfl⟩, hp, hpre⟩ := stands_shape hn h
  have hno : ∀ o : Opt, o.name ≠ '-' :: '-' :: t ++ '=' :: v := fun o ho => name_no_eq o (by rw [ho]; simp)
  have e : '-' :: '-' :: t ++ '=' :: v = '-' :: '-' :: (t ++ '=' :: v) := rfl
  rw [e] at hno
  have hsp := splitEq_some (v := v) hp
  rw [e] at hsp ⊢
  simp only [classify]
  rw [find_none hno, hsp]
  simp only [List.head?_cons]
  by_cases hfull : ∃ o : Opt, o.name = '-' :: '-' :: t
  · obtain ⟨o, ho⟩ := hfull
    have hon : o = optOf n := by
      rcases h with h | ⟨-, h⟩
      · exact name_inj (by rw [ho, name_optOf n hn, h])
      · obtain ⟨m, hm, e⟩ := ofList_name o
        have := h m hm (by rw [← e, ho])
        subst this
        exact name_inj (by rw [e, name_optOf m hm])
    subst hon
    rw [← ho, find_name]
    simp
  · have hfull' : ∀ o : Opt, o.name ≠ '-' :: '-' :: t := fun o ho => hfull ⟨o, ho⟩
    have hu : ∀ m ∈ optionNames, '-' :: '-' :: t <+: m.toList → m = n := by
      rcases h with h | ⟨-, h⟩
      · exact absurd (by rw [h, name_optOf n hn]) (hfull' (optOf n))
      · exact h
    rw [name_optOf n hn] at hpre
    rw [find_none hfull', filter_stands hn hpre hu]
    simp

theorem classify_value (neg : Text → Bool) {s : Text} (h : s.head? ≠ some '-') : classify neg s = .value s := by
  unfold classify
  split
  · simp at h
  · rfl

/-! ## The list of words -/

theorem consume_value {o : Opt} (h1 : o ≠ .help) (h2 : o ≠ .verbose) (v : Text) (ts : List Token) (f : Option Text) (st : List (Opt × Text)) :
    consume (.option o (some v) :: ts) f st = consume ts f (st ++ [(o, v)]) := by
  cases o <;> first | rfl | contradiction

theorem consume_apart {o : Opt} (h1 : o ≠ .help) (h2 : o ≠ .verbose) (v : Text) (ts : List Token) (f : Option Text) (st : List (Opt × Text)) :
    consume (.option o none :: .value v :: ts) f st = consume ts f (st ++ [(o, v)]) := by
  cases o <;> first | rfl | contradiction

/-- The option and the text of its value, for the program. -/
def setting (g : String × Text) : Opt × Text := (optOf g.1, g.2)

theorem consume_writes (neg : Text → Bool) {g : String × Text} {ws : List Text} (h : Writes g ws) (ts : List Token) (f : Option Text)
    (st : List (Opt × Text)) : consume (ws.map (classify neg) ++ ts) f st = consume ts f (st ++ [setting g]) := by
  cases h with
  | equals n v p hn hp =>
    simp only [List.map_cons, List.map_nil, List.cons_append, List.nil_append, classify_equals neg (value_names hn) hp]
    exact consume_value (value_ne n hn).1 (value_ne n hn).2 _ _ _ _
  | apart n v p hn hp hv =>
    simp only [List.map_cons, List.map_nil, List.cons_append, List.nil_append, classify_stands neg (value_names hn) hp, classify_value neg hv]
    exact consume_apart (value_ne n hn).1 (value_ne n hn).2 _ _ _ _
  | flag p hp =>
    simp only [List.map_cons, List.map_nil, List.cons_append, List.nil_append, classify_stands neg (by decide) hp]
    have : optOf "--verbose" = .verbose := by decide
    rw [setting, this]
    rfl

theorem consume_all (neg : Text → Bool) {gs : List (String × Text)} {wss : List (List Text)} (h : List.Forall₂ Writes gs wss) (ts : List Token)
    (f : Option Text) (st : List (Opt × Text)) :
    consume (wss.flatten.map (classify neg) ++ ts) f st = consume ts f (st ++ gs.map setting) := by
  induction h generalizing st with
  | nil => simp
  | cons h _ ih =>
    rw [List.flatten_cons, List.map_append, List.append_assoc, consume_writes neg h, ih]
    simp

theorem consume_line (neg : Text → Bool) {before after : List (String × Text)} {wb wa : List (List Text)} (hb : List.Forall₂ Writes before wb)
    (ha : List.Forall₂ Writes after wa) {file : Text} (hf : file.head? ≠ some '-') :
    consume ((wb.flatten ++ file :: wa.flatten).map (classify neg)) none [] = .ok (file, (before ++ after).map setting) := by
  rw [List.map_append, consume_all neg hb, List.map_cons, classify_value neg hf]
  have := consume_all neg ha [] (some file) ([] ++ before.map setting)
  rw [List.append_nil] at this
  refine Eq.trans (b := consume (wa.flatten.map (classify neg)) (some file) ([] ++ before.map setting)) rfl ?_
  rw [this]
  simp [consume]

/-! ## Values -/

theorem lastGiven_append (n : String) (given : List (String × Text)) (g : String × Text) :
    lastGiven n (given ++ [g]) = if g.1 = n then some g.2 else lastGiven n given := by
  unfold lastGiven
  rw [List.filter_append]
  by_cases h : g.1 = n <;> simp [h]

theorem comma_not {s : Text} {x : ℝ} (h : number s = some x) : ',' ∉ s := by
  intro hm
  have := number_numeric s x h _ hm
  rcases this with ⟨d, hd⟩ | h | h | h | h
  · revert hd; decide +revert
  all_goals exact absurd h (by decide)

theorem comma_not_int {s : Text} {n : ℤ} (h : signed s = some n) : ',' ∉ s := by
  intro hm
  have := signed_numeric s n h _ hm
  rcases this with ⟨d, hd⟩ | h | h | h | h
  · revert hd; decide +revert
  all_goals exact absurd h (by decide)

theorem cut_eq (c : Char) {s : Text} (h : c ∈ s) : s = (cut c s).1 ++ c :: (cut c s).2 := by
  unfold cut
  have h1 := List.takeWhile_append_dropWhile (p := fun x => decide (x ≠ c)) (l := s)
  have hne : s.dropWhile (fun x => decide (x ≠ c)) ≠ [] := by
    rw [Ne, List.dropWhile_eq_nil_iff]
    intro hh
    simpa using hh c h
  obtain ⟨a, t, ht⟩ := List.exists_cons_of_ne_nil hne
  have ha : a = c := by
    have := List.head?_dropWhile_not (p := fun x => decide (x ≠ c)) (l := s)
    rw [ht] at this
    simpa using this
  dsimp only
  rw [ht, List.tail_cons, ← ha, ← ht]
  rw [ha]
  exact h1.symm

theorem tuple2_pair {H : Host} (hH : ReadsNumerals H) {s : Text} {q : ℝ × ℝ} (h : pairOf s = some q) : tuple2 H s = some q := by
  unfold pairOf at h
  cases h1 : number (cut ',' s).1 with
  | none => rw [h1] at h; cases h
  | some x =>
    cases h2 : number (cut ',' s).2 with
    | none => rw [h1, h2] at h; cases h
    | some y =>
      rw [h1, h2] at h
      cases h
      have hm : ',' ∈ s := by
        by_contra hm
        have : s.dropWhile (fun x => decide (x ≠ ',')) = [] := by
          rw [List.dropWhile_eq_nil_iff]
          intro c hc
          simpa using fun e : c = ',' => hm (e ▸ hc)
        have e2 : (cut ',' s).2 = [] := by
          unfold cut
          dsimp only
          rw [this]; rfl
        rw [e2] at h2
        have : number [] = none := by
          simp [number, unsignedNumber, decimal, cut, whole]
        rw [this] at h2
        cases h2
      have e := cut_eq ',' hm
      have e' : s = List.intercalate [','] [(cut ',' s).1, (cut ',' s).2] := by
        rw [List.intercalate_cons_cons]
        simpa using e
      have hs : s.splitOn ',' = [(cut ',' s).1, (cut ',' s).2] := by
        conv_lhs => rw [e']
        refine List.splitOn_intercalate ',' ?_ (by simp)
        intro l hl
        simp only [List.mem_cons, List.not_mem_nil, or_false] at hl
        rcases hl with rfl | rfl
        · exact comma_not h1
        · exact comma_not h2
      unfold tuple2
      rw [hs]
      dsimp only
      rw [hH.floats _ _ h1, hH.floats _ _ h2]

/-- One more option: the arguments stay what was given. -/
theorem means_step {H : Host} (hH : ReadsNumerals H) {ns : Namespace} {file : Text} {given : List (String × Text)} (hm : Means ns file given)
    {g : String × Text} (hn : g.1 ∈ valueOptions ∨ g = ("--verbose", [])) (hw : WellFormed [g]) :
    ∃ ns', ns.set H (setting g) = .ok ns' ∧ Means ns' file (given ++ [g]) := by
  obtain ⟨n, v⟩ := g
  have hnum : n ∈ numberOptions → ∃ x, number v = some x ∧ H.toFloat v = some x := fun h => by
    obtain ⟨x, hx⟩ := Option.isSome_iff_exists.1 (hw.numbers (n, v) (by simp) h)
    exact ⟨x, hx, hH.floats _ _ hx⟩
  have hint : n = "--maxiter" → ∃ x, signed v = some x ∧ H.toInt v = some x := fun h => by
    obtain ⟨x, hx⟩ := Option.isSome_iff_exists.1 (hw.maxiter (n, v) (by simp) h)
    exact ⟨x, hx, hH.ints _ _ hx⟩
  have hpair : n = "--physical_sizes" → ∃ x, pairOf v = some x ∧ tuple2 H v = some x := fun h => by
    obtain ⟨x, hx⟩ := Option.isSome_iff_exists.1 (hw.sizes (n, v) (by simp) h)
    exact ⟨x, hx, tuple2_pair hH hx⟩
  have hname : ∀ m, lastGiven m (given ++ [(n, v)]) = if n = m then some v else lastGiven m given := fun m => lastGiven_append m given (n, v)
  rcases hn with hn | hn
  swap
  · cases hn
    have e : setting ("--verbose", []) = (.verbose, []) := by unfold setting; rw [show optOf "--verbose" = .verbose by decide]
    refine ⟨{ ns with verbose := true }, by rw [e]; rfl, ?_⟩
    constructor <;> simp [numberGiven, hname, hm.filename, hm.detrend, hm.boundary, hm.modulus, hm.poisson, hm.thickness, hm.hardness, hm.maxiter, hm.displacement, hm.pressure, hm.pressureFromFn, hm.physicalSizes, hm.sizeUnit, hm.heightFac, hm.heightUnit, hm.pentol, hm.contactFn, hm.pressureFn, hm.displFn, hm.gapFn, hm.logFn, hm.netcdfFn]
  dsimp only at hn
  simp only [valueOptions, numberOptions, List.mem_cons, List.not_mem_nil, or_false, List.cons_append, List.nil_append] at hn
  rcases hn with rfl | rfl | rfl | rfl | rfl | rfl | rfl | rfl | rfl | rfl | rfl | rfl | rfl | rfl | rfl | rfl | rfl | rfl | rfl | rfl | rfl
  · have e : setting ("--modulus", v) = (.modulus, v) := by unfold setting; rw [show optOf "--modulus" = .modulus by decide]
    obtain ⟨x, hx, hx'⟩ := hnum (by decide)
    refine ⟨{ ns with modulus := x }, by rw [e]; simp [Namespace.set, hx', orExit, bind, Except.bind, pure, Except.pure], ?_⟩
    constructor <;> simp [numberGiven, hname, hx, hm.filename, hm.detrend, hm.boundary, hm.poisson, hm.thickness, hm.hardness, hm.maxiter, hm.displacement, hm.pressure, hm.pressureFromFn, hm.physicalSizes, hm.sizeUnit, hm.heightFac, hm.heightUnit, hm.pentol, hm.contactFn, hm.pressureFn, hm.displFn, hm.gapFn, hm.logFn, hm.netcdfFn, hm.verbose]
  · have e : setting ("--poisson", v) = (.poisson, v) := by unfold setting; rw [show optOf "--poisson" = .poisson by decide]
    obtain ⟨x, hx, hx'⟩ := hnum (by decide)
    refine ⟨{ ns with poisson := x }, by rw [e]; simp [Namespace.set, hx', orExit, bind, Except.bind, pure, Except.pure], ?_⟩
    constructor <;> simp [numberGiven, hname, hx, hm.filename, hm.detrend, hm.boundary, hm.modulus, hm.thickness, hm.hardness, hm.maxiter, hm.displacement, hm.pressure, hm.pressureFromFn, hm.physicalSizes, hm.sizeUnit, hm.heightFac, hm.heightUnit, hm.pentol, hm.contactFn, hm.pressureFn, hm.displFn, hm.gapFn, hm.logFn, hm.netcdfFn, hm.verbose]
  · have e : setting ("--thickness", v) = (.thickness, v) := by unfold setting; rw [show optOf "--thickness" = .thickness by decide]
    obtain ⟨x, hx, hx'⟩ := hnum (by decide)
    refine ⟨{ ns with thickness := some x }, by rw [e]; simp [Namespace.set, hx', orExit, bind, Except.bind, pure, Except.pure], ?_⟩
    constructor <;> simp [numberGiven, hname, hx, hm.filename, hm.detrend, hm.boundary, hm.modulus, hm.poisson, hm.hardness, hm.maxiter, hm.displacement, hm.pressure, hm.pressureFromFn, hm.physicalSizes, hm.sizeUnit, hm.heightFac, hm.heightUnit, hm.pentol, hm.contactFn, hm.pressureFn, hm.displFn, hm.gapFn, hm.logFn, hm.netcdfFn, hm.verbose]
  · have e : setting ("--hardness", v) = (.hardness, v) := by unfold setting; rw [show optOf "--hardness" = .hardness by decide]
    obtain ⟨x, hx, hx'⟩ := hnum (by decide)
    refine ⟨{ ns with hardness := some x }, by rw [e]; simp [Namespace.set, hx', orExit, bind, Except.bind, pure, Except.pure], ?_⟩
    constructor <;> simp [numberGiven, hname, hx, hm.filename, hm.detrend, hm.boundary, hm.modulus, hm.poisson, hm.thickness, hm.maxiter, hm.displacement, hm.pressure, hm.pressureFromFn, hm.physicalSizes, hm.sizeUnit, hm.heightFac, hm.heightUnit, hm.pentol, hm.contactFn, hm.pressureFn, hm.displFn, hm.gapFn, hm.logFn, hm.netcdfFn, hm.verbose]
  · have e : setting ("--height-fac", v) = (.heightFac, v) := by unfold setting; rw [show optOf "--height-fac" = .heightFac by decide]
    obtain ⟨x, hx, hx'⟩ := hnum (by decide)
    refine ⟨{ ns with heightFac := some x }, by rw [e]; simp [Namespace.set, hx', orExit, bind, Except.bind, pure, Except.pure], ?_⟩
    constructor <;> simp [numberGiven, hname, hx, hm.filename, hm.detrend, hm.boundary, hm.modulus, hm.poisson, hm.thickness, hm.hardness, hm.maxiter, hm.displacement, hm.pressure, hm.pressureFromFn, hm.physicalSizes, hm.sizeUnit, hm.heightUnit, hm.pentol, hm.contactFn, hm.pressureFn, hm.displFn, hm.gapFn, hm.logFn, hm.netcdfFn, hm.verbose]
  · have e : setting ("--pentol", v) = (.pentol, v) := by unfold setting; rw [show optOf "--pentol" = .pentol by decide]
    obtain ⟨x, hx, hx'⟩ := hnum (by decide)
    refine ⟨{ ns with pentol := some x }, by rw [e]; simp [Namespace.set, hx', orExit, bind, Except.bind, pure, Except.pure], ?_⟩
    constructor <;> simp [numberGiven, hname, hx, hm.filename, hm.detrend, hm.boundary, hm.modulus, hm.poisson, hm.thickness, hm.hardness, hm.maxiter, hm.displacement, hm.pressure, hm.pressureFromFn, hm.physicalSizes, hm.sizeUnit, hm.heightFac, hm.heightUnit, hm.contactFn, hm.pressureFn, hm.displFn, hm.gapFn, hm.logFn, hm.netcdfFn, hm.verbose]
  · have e : setting ("--maxiter", v) = (.maxiter, v) := by unfold setting; rw [show optOf "--maxiter" = .maxiter by decide]
    obtain ⟨x, hx, hx'⟩ := hint rfl
    refine ⟨{ ns with maxiter := x }, by rw [e]; simp [Namespace.set, hx', orExit, bind, Except.bind, pure, Except.pure], ?_⟩
    constructor <;> simp [numberGiven, hname, hx, hm.filename, hm.detrend, hm.boundary, hm.modulus, hm.poisson, hm.thickness, hm.hardness, hm.displacement, hm.pressure, hm.pressureFromFn, hm.physicalSizes, hm.sizeUnit, hm.heightFac, hm.heightUnit, hm.pentol, hm.contactFn, hm.pressureFn, hm.displFn, hm.gapFn, hm.logFn, hm.netcdfFn, hm.verbose]
  · have e : setting ("--physical_sizes", v) = (.physicalSizes, v) := by unfold setting; rw [show optOf "--physical_sizes" = .physicalSizes by decide]
    obtain ⟨x, hx, hx'⟩ := hpair rfl
    refine ⟨{ ns with physicalSizes := some x }, by rw [e]; simp [Namespace.set, hx', orExit, bind, Except.bind, pure, Except.pure], ?_⟩
    constructor <;> simp [numberGiven, hname, hx, hm.filename, hm.detrend, hm.boundary, hm.modulus, hm.poisson, hm.thickness, hm.hardness, hm.maxiter, hm.displacement, hm.pressure, hm.pressureFromFn, hm.sizeUnit, hm.heightFac, hm.heightUnit, hm.pentol, hm.contactFn, hm.pressureFn, hm.displFn, hm.gapFn, hm.logFn, hm.netcdfFn, hm.verbose]
  · have e : setting ("--detrend", v) = (.detrend, v) := by unfold setting; rw [show optOf "--detrend" = .detrend by decide]
    refine ⟨{ ns with detrend := some v }, by rw [e]; rfl, ?_⟩
    constructor <;> simp [numberGiven, hname, hm.filename, hm.boundary, hm.modulus, hm.poisson, hm.thickness, hm.hardness, hm.maxiter, hm.displacement, hm.pressure, hm.pressureFromFn, hm.physicalSizes, hm.sizeUnit, hm.heightFac, hm.heightUnit, hm.pentol, hm.contactFn, hm.pressureFn, hm.displFn, hm.gapFn, hm.logFn, hm.netcdfFn, hm.verbose]
  · have e : setting ("--boundary", v) = (.boundary, v) := by unfold setting; rw [show optOf "--boundary" = .boundary by decide]
    refine ⟨{ ns with boundary := v }, by rw [e]; rfl, ?_⟩
    constructor <;> simp [numberGiven, hname, hm.filename, hm.detrend, hm.modulus, hm.poisson, hm.thickness, hm.hardness, hm.maxiter, hm.displacement, hm.pressure, hm.pressureFromFn, hm.physicalSizes, hm.sizeUnit, hm.heightFac, hm.heightUnit, hm.pentol, hm.contactFn, hm.pressureFn, hm.displFn, hm.gapFn, hm.logFn, hm.netcdfFn, hm.verbose]
  · have e : setting ("--displacement", v) = (.displacement, v) := by unfold setting; rw [show optOf "--displacement" = .displacement by decide]
    refine ⟨{ ns with displacement := some v }, by rw [e]; rfl, ?_⟩
    constructor <;> simp [numberGiven, hname, hm.filename, hm.detrend, hm.boundary, hm.modulus, hm.poisson, hm.thickness, hm.hardness, hm.maxiter, hm.pressure, hm.pressureFromFn, hm.physicalSizes, hm.sizeUnit, hm.heightFac, hm.heightUnit, hm.pentol, hm.contactFn, hm.pressureFn, hm.displFn, hm.gapFn, hm.logFn, hm.netcdfFn, hm.verbose]
  · have e : setting ("--pressure", v) = (.pressure, v) := by unfold setting; rw [show optOf "--pressure" = .pressure by decide]
    refine ⟨{ ns with pressure := some v }, by rw [e]; rfl, ?_⟩
    constructor <;> simp [numberGiven, hname, hm.filename, hm.detrend, hm.boundary, hm.modulus, hm.poisson, hm.thickness, hm.hardness, hm.maxiter, hm.displacement, hm.pressureFromFn, hm.physicalSizes, hm.sizeUnit, hm.heightFac, hm.heightUnit, hm.pentol, hm.contactFn, hm.pressureFn, hm.displFn, hm.gapFn, hm.logFn, hm.netcdfFn, hm.verbose]
  · have e : setting ("--pressure-from-file", v) = (.pressureFromFile, v) := by unfold setting; rw [show optOf "--pressure-from-file" = .pressureFromFile by decide]
    refine ⟨{ ns with pressureFromFn := some v }, by rw [e]; rfl, ?_⟩
    constructor <;> simp [numberGiven, hname, hm.filename, hm.detrend, hm.boundary, hm.modulus, hm.poisson, hm.thickness, hm.hardness, hm.maxiter, hm.displacement, hm.pressure, hm.physicalSizes, hm.sizeUnit, hm.heightFac, hm.heightUnit, hm.pentol, hm.contactFn, hm.pressureFn, hm.displFn, hm.gapFn, hm.logFn, hm.netcdfFn, hm.verbose]
  · have e : setting ("--physical_sizes-unit", v) = (.physicalSizesUnit, v) := by unfold setting; rw [show optOf "--physical_sizes-unit" = .physicalSizesUnit by decide]
    refine ⟨{ ns with sizeUnit := some v }, by rw [e]; rfl, ?_⟩
    constructor <;> simp [numberGiven, hname, hm.filename, hm.detrend, hm.boundary, hm.modulus, hm.poisson, hm.thickness, hm.hardness, hm.maxiter, hm.displacement, hm.pressure, hm.pressureFromFn, hm.physicalSizes, hm.heightFac, hm.heightUnit, hm.pentol, hm.contactFn, hm.pressureFn, hm.displFn, hm.gapFn, hm.logFn, hm.netcdfFn, hm.verbose]
  · have e : setting ("--height-unit", v) = (.heightUnit, v) := by unfold setting; rw [show optOf "--height-unit" = .heightUnit by decide]
    refine ⟨{ ns with heightUnit := some v }, by rw [e]; rfl, ?_⟩
    constructor <;> simp [numberGiven, hname, hm.filename, hm.detrend, hm.boundary, hm.modulus, hm.poisson, hm.thickness, hm.hardness, hm.maxiter, hm.displacement, hm.pressure, hm.pressureFromFn, hm.physicalSizes, hm.sizeUnit, hm.heightFac, hm.pentol, hm.contactFn, hm.pressureFn, hm.displFn, hm.gapFn, hm.logFn, hm.netcdfFn, hm.verbose]
  · have e : setting ("--contact-fn", v) = (.contactFn, v) := by unfold setting; rw [show optOf "--contact-fn" = .contactFn by decide]
    refine ⟨{ ns with contactFn := some v }, by rw [e]; rfl, ?_⟩
    constructor <;> simp [numberGiven, hname, hm.filename, hm.detrend, hm.boundary, hm.modulus, hm.poisson, hm.thickness, hm.hardness, hm.maxiter, hm.displacement, hm.pressure, hm.pressureFromFn, hm.physicalSizes, hm.sizeUnit, hm.heightFac, hm.heightUnit, hm.pentol, hm.pressureFn, hm.displFn, hm.gapFn, hm.logFn, hm.netcdfFn, hm.verbose]
  · have e : setting ("--pressure-fn", v) = (.pressureFn, v) := by unfold setting; rw [show optOf "--pressure-fn" = .pressureFn by decide]
    refine ⟨{ ns with pressureFn := some v }, by rw [e]; rfl, ?_⟩
    constructor <;> simp [numberGiven, hname, hm.filename, hm.detrend, hm.boundary, hm.modulus, hm.poisson, hm.thickness, hm.hardness, hm.maxiter, hm.displacement, hm.pressure, hm.pressureFromFn, hm.physicalSizes, hm.sizeUnit, hm.heightFac, hm.heightUnit, hm.pentol, hm.contactFn, hm.displFn, hm.gapFn, hm.logFn, hm.netcdfFn, hm.verbose]
  · have e : setting ("--displ-fn", v) = (.displFn, v) := by unfold setting; rw [show optOf "--displ-fn" = .displFn by decide]
    refine ⟨{ ns with displFn := some v }, by rw [e]; rfl, ?_⟩
    constructor <;> simp [numberGiven, hname, hm.filename, hm.detrend, hm.boundary, hm.modulus, hm.poisson, hm.thickness, hm.hardness, hm.maxiter, hm.displacement, hm.pressure, hm.pressureFromFn, hm.physicalSizes, hm.sizeUnit, hm.heightFac, hm.heightUnit, hm.pentol, hm.contactFn, hm.pressureFn, hm.gapFn, hm.logFn, hm.netcdfFn, hm.verbose]
  · have e : setting ("--gap-fn", v) = (.gapFn, v) := by unfold setting; rw [show optOf "--gap-fn" = .gapFn by decide]
    refine ⟨{ ns with gapFn := some v }, by rw [e]; rfl, ?_⟩
    constructor <;> simp [numberGiven, hname, hm.filename, hm.detrend, hm.boundary, hm.modulus, hm.poisson, hm.thickness, hm.hardness, hm.maxiter, hm.displacement, hm.pressure, hm.pressureFromFn, hm.physicalSizes, hm.sizeUnit, hm.heightFac, hm.heightUnit, hm.pentol, hm.contactFn, hm.pressureFn, hm.displFn, hm.logFn, hm.netcdfFn, hm.verbose]
  · have e : setting ("--log-fn", v) = (.logFn, v) := by unfold setting; rw [show optOf "--log-fn" = .logFn by decide]
    refine ⟨{ ns with logFn := v }, by rw [e]; rfl, ?_⟩
    constructor <;> simp [numberGiven, hname, hm.filename, hm.detrend, hm.boundary, hm.modulus, hm.poisson, hm.thickness, hm.hardness, hm.maxiter, hm.displacement, hm.pressure, hm.pressureFromFn, hm.physicalSizes, hm.sizeUnit, hm.heightFac, hm.heightUnit, hm.pentol, hm.contactFn, hm.pressureFn, hm.displFn, hm.gapFn, hm.netcdfFn, hm.verbose]
  · have e : setting ("--netcdf-fn", v) = (.netcdfFn, v) := by unfold setting; rw [show optOf "--netcdf-fn" = .netcdfFn by decide]
    refine ⟨{ ns with netcdfFn := some v }, by rw [e]; rfl, ?_⟩
    constructor <;> simp [numberGiven, hname, hm.filename, hm.detrend, hm.boundary, hm.modulus, hm.poisson, hm.thickness, hm.hardness, hm.maxiter, hm.displacement, hm.pressure, hm.pressureFromFn, hm.physicalSizes, hm.sizeUnit, hm.heightFac, hm.heightUnit, hm.pentol, hm.contactFn, hm.pressureFn, hm.displFn, hm.gapFn, hm.logFn, hm.verbose]

theorem wellFormed_split {gs : List (String × Text)} {g : String × Text} (h : WellFormed (gs ++ [g])) : WellFormed gs ∧ WellFormed [g] :=
  ⟨⟨fun a ha => h.numbers a (by simp [ha]), fun a ha => h.maxiter a (by simp [ha]), fun a ha => h.sizes a (by simp [ha])⟩,
   ⟨fun a ha => h.numbers a (by simp at ha; simp [ha]), fun a ha => h.maxiter a (by simp at ha; simp [ha]), fun a ha => h.sizes a (by simp at ha; simp [ha])⟩⟩

theorem means_all {H : Host} (hH : ReadsNumerals H) (file : Text) (given : List (String × Text))
    (hn : ∀ g ∈ given, g.1 ∈ valueOptions ∨ g = ("--verbose", [])) (hw : WellFormed given) :
    ∃ ns, (given.map setting).foldlM (Namespace.set H) { filename := file } = .ok ns ∧ Means ns file given := by
  induction given using List.reverseRecOn with
  | nil => exact ⟨_, rfl, by constructor <;> rfl⟩
  | append_singleton gs g ih =>
    obtain ⟨h1, h2⟩ := wellFormed_split hw
    obtain ⟨ns, e, hm⟩ := ih (fun a ha => hn a (by simp [ha])) h1
    obtain ⟨ns', e', hm'⟩ := means_step hH hm (hn g (by simp)) h2
    refine ⟨ns', ?_, hm'⟩
    rw [List.map_append, List.foldlM_append, e]
    simp only [List.map_cons, List.map_nil, bind, Except.bind, List.foldlM_cons, List.foldlM_nil]
    rw [e']
    rfl

theorem writes_names {gs : List (String × Text)} {wss : List (List Text)} (h : List.Forall₂ Writes gs wss) :
    ∀ g ∈ gs, g.1 ∈ valueOptions ∨ g = ("--verbose", []) := by
  induction h with
  | nil => simp
  | cons h _ ih =>
    intro g hg
    rcases List.mem_cons.1 hg with rfl | hg
    · cases h with
      | equals n v p hn hp => exact .inl hn
      | apart n v p hn hp hv => exact .inl hn
      | flag p hp => exact .inr rfl
    · exact ih g hg

/-- **C192** What is typed is what the program uses: for every sequence of options, with values in any of the forms `--name=value`, `--name value`, with names in full or
shortened, before and behind the name of the file, the arguments are the values given (the last one, if an option is repeated), and otherwise the documented defaults. -/
theorem C192_values {H : Host} (hH : ReadsNumerals H) {file : Text} (hf : file.head? ≠ some '-') {before after : List (String × Text)}
    {wb wa : List (List Text)} (hb : List.Forall₂ Writes before wb) (ha : List.Forall₂ Writes after wa) (hw : WellFormed (before ++ after)) :
    ∃ ns, parseArgs H (wb.flatten ++ file :: wa.flatten) = .ok ns ∧ Means ns file (before ++ after) := by
  obtain ⟨ns, e, hm⟩ := means_all hH file (before ++ after) (fun g hg => (List.mem_append.1 hg).elim (writes_names hb g) (writes_names ha g)) hw
  refine ⟨ns, ?_, hm⟩
  unfold parseArgs
  rw [consume_line H.looksNegative hb ha hf]
  exact e

theorem means_unique {ns ns' : Namespace} {file : Text} {g g' : List (String × Text)} (h : Means ns file g) (h' : Means ns' file g')
    (hl : ∀ n, lastGiven n g = lastGiven n g') : ns = ns' := by
  have hg : ∀ n, numberGiven n g = numberGiven n g' := fun n => by unfold numberGiven; rw [hl]
  cases ns; cases ns'
  simp only [Namespace.mk.injEq]
  exact ⟨(h.filename.trans (by rfl)).trans h'.filename.symm, (h.detrend.trans (by rw [hl])).trans h'.detrend.symm, (h.boundary.trans (by rw [hl])).trans h'.boundary.symm, (h.modulus.trans (by rw [hg])).trans h'.modulus.symm, (h.poisson.trans (by rw [hg])).trans h'.poisson.symm, (h.thickness.trans (by rw [hg])).trans h'.thickness.symm, (h.hardness.trans (by rw [hg])).trans h'.hardness.symm, (h.maxiter.trans (by rw [hl])).trans h'.maxiter.symm, (h.displacement.trans (by rw [hl])).trans h'.displacement.symm, (h.pressure.trans (by rw [hl])).trans h'.pressure.symm, (h.pressureFromFn.trans (by rw [hl])).trans h'.pressureFromFn.symm, (h.physicalSizes.trans (by rw [hl])).trans h'.physicalSizes.symm, (h.sizeUnit.trans (by rw [hl])).trans h'.sizeUnit.symm, (h.heightFac.trans (by rw [hg])).trans h'.heightFac.symm, (h.heightUnit.trans (by rw [hl])).trans h'.heightUnit.symm, (h.pentol.trans (by rw [hg])).trans h'.pentol.symm, (h.contactFn.trans (by rw [hl])).trans h'.contactFn.symm, (h.pressureFn.trans (by rw [hl])).trans h'.pressureFn.symm, (h.displFn.trans (by rw [hl])).trans h'.displFn.symm, (h.gapFn.trans (by rw [hl])).trans h'.gapFn.symm, (h.logFn.trans (by rw [hl])).trans h'.logFn.symm, (h.netcdfFn.trans (by rw [hl])).trans h'.netcdfFn.symm, (h.verbose.trans (by rw [hl])).trans h'.verbose.symm⟩

theorem lastGiven_mem {n : String} {v : Text} {g : List (String × Text)} (hd : (g.map Prod.fst).Nodup) : lastGiven n g = some v ↔ (n, v) ∈ g := by
  induction g using List.reverseRecOn with
  | nil => simp [lastGiven]
  | append_singleton gs a ih =>
    rw [List.map_append, List.nodup_append] at hd
    rw [lastGiven_append]
    by_cases ha : a.1 = n
    · rw [if_pos ha]
      constructor
      · intro e
        cases e
        simp [← ha]
      · intro hm
        rcases List.mem_append.1 hm with hm | hm
        · exact absurd ha.symm (hd.2.2 n (List.mem_map.2 ⟨_, hm, rfl⟩) a.1 (by simp))
        · simp at hm; rw [← hm]
    · rw [if_neg ha, ih hd.1]
      simp only [List.mem_append, List.mem_cons, List.not_mem_nil, or_false]
      exact ⟨.inl, fun h => h.elim id fun e => absurd (by rw [← e]) ha⟩

/-- **C192** The order of the options, the place of the file name and the form in which they are written do not matter. -/
theorem C192_order {H : Host} (hH : ReadsNumerals H) {file : Text} (hf : file.head? ≠ some '-') {before after before' after' : List (String × Text)}
    {wb wa wb' wa' : List (List Text)} (hb : List.Forall₂ Writes before wb) (ha : List.Forall₂ Writes after wa)
    (hb' : List.Forall₂ Writes before' wb') (ha' : List.Forall₂ Writes after' wa') (hw : WellFormed (before ++ after))
    (hp : (before ++ after).Perm (before' ++ after')) (hd : ((before ++ after).map Prod.fst).Nodup) :
    ceHardWall H (wb.flatten ++ file :: wa.flatten) = ceHardWall H (wb'.flatten ++ file :: wa'.flatten) := by
  obtain ⟨ns, e, hm⟩ := C192_values hH hf hb ha hw
  obtain ⟨ns', e', hm'⟩ := C192_values hH hf hb' ha' ⟨fun g hg => hw.numbers g (hp.symm.subset hg), fun g hg => hw.maxiter g (hp.symm.subset hg),
    fun g hg => hw.sizes g (hp.symm.subset hg)⟩
  have hd' : ((before' ++ after').map Prod.fst).Nodup := (hp.map _).nodup_iff.1 hd
  have : ns = ns' := means_unique hm hm' fun n => by
    ext v
    rw [lastGiven_mem hd, lastGiven_mem hd']
    exact hp.mem_iff
  unfold ceHardWall
  rw [e, e', this]

/-! ## What is refused -/

theorem consume_exit (ts : List Token) (f : Option Text) (st : List (Opt × Text)) {e : PyErr} (h : consume ts f st = .error e) : e = .systemExit := by
  fun_induction consume ts f st <;> simp_all

/-- Words that end the program wherever they stand. -/
def Token.ends : Token → Prop
  | .error => True
  | .option .help _ => True
  | _ => False

theorem consume_ends (ts : List Token) (f : Option Text) (st : List (Opt × Text)) (h : ∃ t ∈ ts, Token.ends t) : consume ts f st = .error .systemExit := by
  fun_induction consume ts f st <;> simp_all [Token.ends]
  all_goals
    rename_i ih
    obtain ⟨t, ht, h'⟩ := h
    exact ih t ht h'

theorem set_exit {H : Host} {ns : Namespace} {x : Opt × Text} {e : PyErr} (h : ns.set H x = .error e) : e = .systemExit := by
  have hor : ∀ {α : Type} (o : Option α) (e : PyErr), orExit o = .error e → e = .systemExit := by
    intro α o e h
    cases o <;> cases h
    rfl
  obtain ⟨o, v⟩ := x
  cases o <;> simp only [Namespace.set, reduceCtorEq, bind, Except.bind, pure, Except.pure] at h
  case help => cases h; rfl
  all_goals
    split at h
    · rename_i e' he
      cases h
      exact hor _ _ he
    · cases h

theorem fold_exit {H : Host} (st : List (Opt × Text)) (ns : Namespace) {e : PyErr} (h : st.foldlM (Namespace.set H) ns = .error e) : e = .systemExit := by
  induction st generalizing ns with
  | nil => cases h
  | cons x xs ih =>
    rw [List.foldlM_cons] at h
    cases hx : ns.set H x with
    | error e' => rw [hx] at h; cases h; exact set_exit hx
    | ok ns' => rw [hx] at h; exact ih ns' h

/-- **C192** Whatever is wrong with the words, the program ends at once: `SystemExit`, nothing computed, nothing written. -/
theorem C192_exit {H : Host} {words : List Text} {e : PyErr} (h : parseArgs H words = .error e) : e = .systemExit ∧ ceHardWall H words = (.error .systemExit, []) := by
  have he : e = .systemExit := by
    unfold parseArgs at h
    cases hc : consume (words.map (classify H.looksNegative)) none [] with
    | error e' => rw [hc] at h; cases h; exact consume_exit _ _ _ hc
    | ok r => rw [hc] at h; exact fold_exit _ _ h
  subst he
  exact ⟨rfl, by unfold ceHardWall; rw [h]⟩

theorem parse_ends {H : Host} {words : List Text} (h : ∃ w ∈ words, (classify H.looksNegative w).ends) : parseArgs H words = .error .systemExit := by
  unfold parseArgs
  rw [consume_ends]
  · rfl
  · obtain ⟨w, hw, ht⟩ := h
    exact ⟨_, List.mem_map.2 ⟨w, hw, rfl⟩, ht⟩

theorem stands_of_filter {p : Text} {o : Opt} (h : Opt.all.filter (fun o => p.isPrefixOf o.name) = [o]) : ∃ n ∈ optionNames, StandsFor p n := by
  obtain ⟨n, hn, e⟩ := ofList_name o
  have hm : ∀ o', p <+: o'.name → o' = o := fun o' ho' => by
    have : o' ∈ Opt.all.filter (fun o => p.isPrefixOf o.name) := List.mem_filter.2 ⟨mem_all o', by simpa using ho'⟩
    rw [h] at this
    simpa using this
  have ho : p <+: o.name := by
    have : o ∈ Opt.all.filter (fun o => p.isPrefixOf o.name) := by rw [h]; simp
    simpa using (List.mem_filter.1 this).2
  refine ⟨n, hn, .inr ⟨e ▸ ho, fun m hm' hpm => ?_⟩⟩
  have h1 := hm (optOf m) (by rw [name_optOf m hm']; exact hpm)
  have h2 : m.toList = n.toList := by rw [← name_optOf m hm', h1, e]
  exact String.toList_inj.1 h2

/-- **C192** A word that begins with a dash and is no option -- the part before `=` neither is the name of an option nor a beginning of just one -- nor can be a value (a negative number, a text with a blank)
is not ignored: the program ends at once, wherever the word stands and whatever else is given. -/
theorem C192_unknown (H : Host) {words : List Text} {w : Text} (hw : w ∈ words) (h1 : w.head? = some '-') (h2 : w ≠ ['-'])
    (h3 : ∀ n ∈ optionNames, ¬ StandsFor (w.takeWhile (· ≠ '=')) n) (h4 : H.looksNegative w = false) (h5 : ' ' ∉ w) :
    ceHardWall H words = (.error .systemExit, []) := by
  refine (C192_exit (parse_ends ⟨w, hw, ?_⟩)).2
  cases w with
  | nil => simp at h1
  | cons c t =>
    simp only [List.head?_cons, Option.some.injEq] at h1
    subst h1
    have hname : ∀ o : Opt, o.name ≠ ('-' :: t).takeWhile (· ≠ '=') := fun o ho => by
      obtain ⟨n, hn, e⟩ := ofList_name o
      exact h3 n hn (.inl (ho.symm.trans e))
    have hself : ∀ o : Opt, o.name ≠ '-' :: t := fun o ho => by
      apply hname o
      have hne : '=' ∉ '-' :: t := ho ▸ name_no_eq o
      have := splitEq_none hne
      have h' : (splitEq ('-' :: t)).1 = '-' :: t := by rw [this]
      rw [ho]
      exact h'.symm
    simp only [classify]
    rw [find_none hself]
    dsimp only
    rw [show (splitEq ('-' :: t)).1 = ('-' :: t).takeWhile (· ≠ '=') from rfl, find_none hname, h4, if_neg h5]
    by_cases c1 : t = []
    · subst c1; exact absurd rfl h2
    rw [if_neg c1]
    by_cases c2 : t.head? = some 'h'
    · rw [if_pos c2]; exact trivial
    rw [if_neg c2]
    dsimp only
    by_cases c3 : t.head? = some '-'
    · rw [if_pos c3]
      split
      · rename_i o ho
        obtain ⟨n, hn, hs⟩ := stands_of_filter ho
        exact absurd hs (h3 n hn)
      · exact trivial
      · exact trivial
    · rw [if_neg c3]
      exact trivial

/-- **C192** A line without a file name, or with two, is refused. -/
theorem C192_one_file (H : Host) {a b : List (String × Text)} {wa wb : List (List Text)} (ha : List.Forall₂ Writes a wa)
    (hb : List.Forall₂ Writes b wb) (rest : List Text) {f g : Text} (hf : f.head? ≠ some '-') (hg : g.head? ≠ some '-') :
    ceHardWall H wa.flatten = (.error .systemExit, []) ∧
    ceHardWall H (wa.flatten ++ f :: (wb.flatten ++ g :: rest)) = (.error .systemExit, []) := by
  constructor
  · refine (C192_exit (e := .systemExit) ?_).2
    unfold parseArgs
    have := consume_all H.looksNegative ha [] none []
    rw [List.append_nil] at this
    rw [this]
    rfl
  · refine (C192_exit (e := .systemExit) ?_).2
    unfold parseArgs
    rw [List.map_append, consume_all H.looksNegative ha, List.map_cons, classify_value _ hf, List.map_append, List.map_cons, classify_value _ hg]
    rw [show ∀ ts st, consume (.value f :: ts) none st = consume ts (some f) st from fun _ _ => rfl, consume_all H.looksNegative hb]
    rfl

/-- **C192** A value that is not of the kind its option needs ends the program at once. -/
theorem C192_malformed (H : Host) {file : Text} (hf : file.head? ≠ some '-') {before after : List (String × Text)}
    {wb wa : List (List Text)} (hb : List.Forall₂ Writes before wb) (ha : List.Forall₂ Writes after wa)
    (hbad : ∃ g ∈ before ++ after, (g.1 ∈ numberOptions ∧ H.toFloat g.2 = none) ∨ (g.1 = "--maxiter" ∧ H.toInt g.2 = none)) :
    ceHardWall H (wb.flatten ++ file :: wa.flatten) = (.error .systemExit, []) := by
  refine (C192_exit (e := .systemExit) ?_).2
  unfold parseArgs
  rw [consume_line H.looksNegative hb ha hf]
  show ((before ++ after).map setting).foldlM (Namespace.set H) _ = _
  obtain ⟨g, hg, hbad⟩ := hbad
  have hset : ∀ ns : Namespace, ns.set H (setting g) = .error .systemExit := by
    intro ns
    obtain ⟨n, v⟩ := g
    dsimp only at hbad
    rcases hbad with ⟨hn, hv⟩ | ⟨rfl, hv⟩
    · simp only [numberOptions, List.mem_cons, List.not_mem_nil, or_false] at hn
      rcases hn with rfl | rfl | rfl | rfl | rfl | rfl
      · rw [setting, show optOf "--modulus" = .modulus by decide]; simp [Namespace.set, hv, orExit, bind, Except.bind]
      · rw [setting, show optOf "--poisson" = .poisson by decide]; simp [Namespace.set, hv, orExit, bind, Except.bind]
      · rw [setting, show optOf "--thickness" = .thickness by decide]; simp [Namespace.set, hv, orExit, bind, Except.bind]
      · rw [setting, show optOf "--hardness" = .hardness by decide]; simp [Namespace.set, hv, orExit, bind, Except.bind]
      · rw [setting, show optOf "--height-fac" = .heightFac by decide]; simp [Namespace.set, hv, orExit, bind, Except.bind]
      · rw [setting, show optOf "--pentol" = .pentol by decide]; simp [Namespace.set, hv, orExit, bind, Except.bind]
    · rw [setting, show optOf "--maxiter" = .maxiter by decide]; simp [Namespace.set, hv, orExit, bind, Except.bind]
  have key : ∀ (l : List (String × Text)) (ns : Namespace), g ∈ l → (l.map setting).foldlM (Namespace.set H) ns = .error .systemExit := by
    intro l
    induction l with
    | nil => intro ns h; cases h
    | cons x xs ih =>
      intro ns h
      rw [List.map_cons, List.foldlM_cons]
      cases hx : ns.set H (setting x) with
      | error e => rw [set_exit hx]; rfl
      | ok ns' =>
        rcases List.mem_cons.1 h with rfl | h
        · rw [hset] at hx; cases hx
        · exact ih ns' h
  exact key _ _ hg

theorem not_unsigned (t : Text) : unsignedNumber ('-' :: t) = none := by
  have hd : ∀ s : Text, decimal ('-' :: s) = none := by
    intro s
    unfold decimal
    have : (cut '.' ('-' :: s)).1 = '-' :: (cut '.' s).1 := by simp [cut]
    rw [this]
    simp [whole, digitsFrom, show digitValue '-' = none by decide]
  unfold unsignedNumber
  split_ifs with h
  · have : (cut 'e' ('-' :: t)).1 = '-' :: (cut 'e' t).1 := by simp [cut]
    rw [this, hd]
  · exact hd t

/-- **C192 is false of the code** for `--name value` with Python up to 3.13, if the value is a negative number with an exponent: every such command line is refused, although the same with `--name=value` is accepted
(and although negative numbers without an exponent are). -/
theorem C192_negative_partial {H : Host} (hH : ReadsNumerals H) (hneg : H.looksNegative = negative313) {file : Text} (hf : file.head? ≠ some '-')
    {n : String} (hn : n ∈ numberOptions) {v : Text} {x : ℝ} (hv : number v = some x) (h1 : v.head? = some '-') (he : 'e' ∈ v) :
    ceHardWall H [file, n.toList, v] = (.error .systemExit, []) ∧
    ∃ ns, parseArgs H [file, n.toList ++ '=' :: v] = .ok ns ∧ Means ns file [(n, v)] := by
  have hval : n ∈ valueOptions := by simp [valueOptions, hn]
  have hother : ∀ c, c ∈ v → numeric c := number_numeric v x hv
  constructor
  · cases v with
    | nil => simp at h1
    | cons c t =>
      simp only [List.head?_cons, Option.some.injEq] at h1
      subst h1
      have hu : ∃ y, unsignedNumber t = some y := by
        simp only [number] at hv
        cases hy : unsignedNumber t with
        | none => rw [hy] at hv; cases hv
        | some y => exact ⟨y, rfl⟩
      have hte : 'e' ∈ t := by simpa using he
      refine C192_unknown H (w := '-' :: t) (by simp) rfl ?_ ?_ ?_ ?_
      · intro e
        cases e
        simp at hte
      · intro m hm hs
        have hne : '=' ∉ '-' :: t := fun h => by
          rcases hother _ h with ⟨d, hd⟩ | h | h | h | h
          · revert hd; decide +revert
          all_goals exact absurd h (by decide)
        have hs' : StandsFor ('-' :: t) m := by
          have := splitEq_none hne
          have e : ('-' :: t).takeWhile (fun x => decide (x ≠ '=')) = '-' :: t := congrArg Prod.fst this
          rwa [e] at hs
        obtain ⟨⟨r, hr⟩, -⟩ := stands_shape hm hs'
        cases hr
        obtain ⟨y, hy⟩ := hu
        rw [not_unsigned] at hy
        cases hy
      · rw [hneg]
        have hde : (digitValue 'e').isSome = false := by decide
        have hall : ∀ s : Text, 'e' ∈ s → (s.all fun c => (digitValue c).isSome) = false := by
          intro s hs
          rw [List.all_eq_false]
          exact ⟨'e', hs, by simp [hde]⟩
        simp only [negative313, hall t hte]
        rcases cut_mem '.' t 'e' hte with h | h | h
        · simp [hall _ h]
        · exact absurd h (by decide)
        · simp [hall _ h]
      · intro h
        rcases hother _ h with ⟨d, hd⟩ | h | h | h | h
        · revert hd; decide +revert
        all_goals exact absurd h (by decide)
  · have := C192_values hH hf (before := []) (after := [(n, v)]) (wb := []) (wa := [[n.toList ++ '=' :: v]]) .nil
      (.cons (.equals n v n.toList hval (.inl rfl)) .nil) ⟨?_, ?_, ?_⟩
    · simpa using this
    · intro g hg _
      simp at hg
      subst hg
      simp [hv]
    · intro g hg h
      simp at hg
      subst hg
      dsimp only at h
      subst h
      exact absurd hn (by decide)
    · intro g hg h
      simp at hg
      subst hg
      dsimp only at h
      subst h
      exact absurd hn (by decide)

end CM.Cli
