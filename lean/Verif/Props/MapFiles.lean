import Verif.Props.Logger
import Verif.Props.Numbers
import Verif.Model.MapFiles
import Verif.Spec.MapFiles
/-!
# Map files can be read back (C187), their headers only in part (C188)
-/
namespace CM.MapFile
open CM.Log CM.Num

/-! ## Reading the table -/

lemma splitWords_row (ts : List Text) (h : ∀ t ∈ ts, Word t) : splitWords [] (List.intercalate [' '] ts) = ts := by
  induction ts with
  | nil => rfl
  | cons t ts ih =>
    have ht := h t (by simp)
    have hb : NoBlank t := fun c hc => (ht.2 c hc).1
    cases ts with
    | nil =>
      have := splitWords_word t [] [] hb
      rw [List.append_nil, List.nil_append] at this
      rw [List.intercalate_singleton, this]
      simp [splitWords, ht.1]
    | cons u ts =>
      rw [List.intercalate_cons_cons, List.append_assoc, splitWords_word _ _ _ hb, List.nil_append, List.singleton_append, splitWords_blank _ _ ht.1, ih (fun t ht => h t (by simp [ht]))]

lemma row_no_hash (ts : List Text) (h : ∀ t ∈ ts, Word t) : ∀ c ∈ List.intercalate [' '] ts, c ≠ '#' := by
  induction ts with
  | nil => simp
  | cons t ts ih =>
    have ht := h t (by simp)
    have ih := ih fun t ht => h t (by simp [ht])
    cases ts with
    | nil => simpa using fun c hc => (ht.2 c hc).2
    | cons u ts =>
      rw [List.intercalate_cons_cons]
      intro c hc
      rcases List.mem_append.1 hc with hc | hc
      · rcases List.mem_append.1 hc with hc | hc
        · exact (ht.2 c hc).2
        · simp at hc; rw [hc]; decide
      · exact ih c hc

lemma table_savetxt (fmt : ℝ → Text) (header : Text) (rows : List (List ℝ)) (hf : ∀ r ∈ rows, ∀ x ∈ r, Word (fmt x)) (hne : ∀ r ∈ rows, r ≠ []) :
    table (savetxt fmt header rows) = rows.map fun r => r.map fmt := by
  unfold table savetxt
  rw [List.map_append, List.filter_append]
  have h1 : ((((splitLines [] header).map fun l => ['#', ' '] ++ l).map fun l => splitWords [] (l.takeWhile (· ≠ '#'))).filter (· ≠ [])) = [] := by
    rw [List.filter_eq_nil_iff]
    intro a ha
    obtain ⟨l, hl, rfl⟩ := List.mem_map.1 ha
    obtain ⟨m, -, rfl⟩ := List.mem_map.1 hl
    simp [splitWords]
  rw [h1, List.nil_append, List.map_map]
  have h2 : (rows.map ((fun l : Text => splitWords [] (l.takeWhile (· ≠ '#'))) ∘ fun r => List.intercalate [' '] (r.map fmt))) = rows.map fun r => r.map fmt := by
    refine List.map_congr_left fun r hr => ?_
    have hw : ∀ t ∈ r.map fmt, Word t := by
      intro t ht
      obtain ⟨x, hx, rfl⟩ := List.mem_map.1 ht
      exact hf r hr x hx
    have h3 : (List.intercalate [' '] (r.map fmt)).takeWhile (· ≠ '#') = List.intercalate [' '] (r.map fmt) := by
      apply takeWhile_all
      intro c hc
      simpa using row_no_hash _ hw c hc
    show splitWords [] ((List.intercalate [' '] (r.map fmt)).takeWhile (· ≠ '#')) = r.map fmt
    rw [h3, splitWords_row _ hw]
  rw [h2, List.filter_eq_self]
  intro a ha
  obtain ⟨r, hr, rfl⟩ := List.mem_map.1 ha
  simpa using hne r hr

lemma forall₂_map {α β : Type*} (R : β → α → Prop) (f : α → β) (l : List α) (h : ∀ x ∈ l, R (f x) x) : List.Forall₂ R (l.map f) l := by
  induction l with
  | nil => exact List.Forall₂.nil
  | cons a l ih => exact List.Forall₂.cons (h a (by simp)) (ih fun x hx => h x (by simp [hx]))

lemma shows_sciText (x : ℝ) : Shows (5 * 10 ^ (-19 : ℤ)) (sciText 18 x) x := by
  refine ⟨_, number_sciText 18 x, ?_⟩
  have hn := printedAbs_near 18 x
  have h5 : (1 : ℝ) / 2 * 10 ^ (-((18 : ℕ) : ℤ)) = 5 * 10 ^ (-19 : ℤ) := by norm_num
  rw [h5] at hn
  unfold Near
  split_ifs with h
  · have e : -printedAbs 18 x - x = -(printedAbs 18 x - |x|) := by rw [abs_of_neg h]; ring
    rw [e, abs_neg]
    exact hn
  · have e : |x| = x := abs_of_nonneg (not_lt.1 h)
    rw [e] at hn ⊢
    exact hn

/-- **C187.** Pressure maps: whatever stands in the header, reading the file gives as many rows and columns as the field has, and every number up to half a unit of the nineteenth digit. -/
theorem C187_pressure (show_ : ℝ → Text) (young : ℝ) (version commandline : Text) (macr : List (Text × ℝ)) (rows : List (List ℝ)) (hne : ∀ r ∈ rows, r ≠ []) :
    List.Forall₂ (List.Forall₂ (Shows (5 * 10 ^ (-19 : ℤ)))) (table (savePressure show_ young version commandline macr rows)) rows := by
  unfold savePressure
  simp only
  rw [table_savetxt _ _ _ (fun _ _ x _ => word_sciText 18 x) hne]
  exact forall₂_map _ _ _ fun r _ => forall₂_map _ _ _ fun x _ => shows_sciText x

/-- **C187.** Gap and displacement maps. -/
theorem C187_gap (show_ : ℝ → Text) (unit : Option Text) (version commandline : Text) (macr : List (Text × ℝ)) (rows : List (List ℝ)) (hne : ∀ r ∈ rows, r ≠ []) :
    List.Forall₂ (List.Forall₂ (Shows (5 * 10 ^ (-19 : ℤ)))) (table (saveGap show_ unit version commandline macr rows)) rows := by
  unfold saveGap
  simp only
  rw [table_savetxt _ _ _ (fun _ _ x _ => word_sciText 18 x) hne]
  exact forall₂_map _ _ _ fun r _ => forall₂_map _ _ _ fun x _ => shows_sciText x

/-- **C187.** Contact maps are read back exactly. -/
theorem C187_contact (show_ : ℝ → Text) (version commandline : Text) (macr : List (Text × ℝ)) (rows : List (List ℝ)) (hne : ∀ r ∈ rows, r ≠ []) (h01 : ∀ r ∈ rows, ∀ x ∈ r, x = 0 ∨ x = 1) :
    List.Forall₂ (List.Forall₂ fun t x => number t = some x) (table (saveContact show_ version commandline macr rows)) rows := by
  have hb : ∀ x : ℝ, x = 0 ∨ x = 1 → Word (boolText x) ∧ number (boolText x) = some x := by
    rintro x (rfl | rfl)
    · have e : boolText 0 = intText 0 := by
        unfold boolText intText
        rw [if_pos rfl, if_neg (by norm_num), natText, if_pos (by norm_num)]
        rfl
      rw [e]
      exact ⟨word_intText 0, by simpa using number_intText 0⟩
    · have e : boolText 1 = intText 1 := by
        unfold boolText intText
        rw [if_neg (by norm_num), if_neg (by norm_num), natText, if_pos (by norm_num)]
        rfl
      rw [e]
      exact ⟨word_intText 1, by simpa using number_intText 1⟩
  unfold saveContact
  rw [table_savetxt _ _ _ (fun r hr x hx => (hb x (h01 r hr x hx)).1) hne]
  exact forall₂_map _ _ _ fun r hr => forall₂_map _ _ _ fun x hx => (hb x (h01 r hr x hx)).2

/-! ## Nothing is lost in maps of floating point numbers -/

lemma doubles_apart (x z : ℝ) (hx : Double x) (hz : Double z) (hne : z ≠ x) : |x| / 2 ^ 54 ≤ |x - z| := by
  obtain ⟨k, j, hk, rfl⟩ := hx
  obtain ⟨l, i, hl, rfl⟩ := hz
  have h2 : (0 : ℝ) < 2 := by norm_num
  have small : ∀ (a : ℤ) (b : ℤ), |a| < 2 ^ 53 → |(a : ℝ) * 2 ^ b| / 2 ^ 53 ≤ 2 ^ b := by
    intro a b ha
    rw [abs_mul, abs_of_pos (zpow_pos h2 b), div_le_iff₀ (by positivity)]
    have : |(a : ℝ)| ≤ 2 ^ 53 := by exact_mod_cast ha.le
    nlinarith [zpow_pos h2 b]
  -- the difference is a multiple of the smaller power of two
  have mult : ∀ (a b m n : ℤ), m ≤ n → (a : ℝ) * 2 ^ m ≠ b * 2 ^ n → (2 : ℝ) ^ m ≤ |(a : ℝ) * 2 ^ m - b * 2 ^ n| := by
    intro a b m n hmn hab
    obtain ⟨d, rfl⟩ := Int.le.dest hmn
    have e : (a : ℝ) * 2 ^ m - b * 2 ^ (m + (d : ℤ)) = ((a - b * 2 ^ d : ℤ) : ℝ) * 2 ^ m := by
      rw [zpow_add₀ h2.ne', zpow_natCast]
      push_cast
      ring
    rw [e, abs_mul, abs_of_pos (zpow_pos h2 m)]
    have hnz : (a - b * 2 ^ d : ℤ) ≠ 0 := by
      intro h0
      rw [h0] at e
      apply hab
      simp at e
      linarith
    have : (1 : ℝ) ≤ |((a - b * 2 ^ d : ℤ) : ℝ)| := by exact_mod_cast Int.one_le_abs hnz
    nlinarith [zpow_pos h2 m]
  rcases le_total j i with hji | hij
  · have h1 := mult k l j i hji (fun h => hne h.symm)
    have h3 := small k j hk
    have h4 : |(k : ℝ) * 2 ^ j| / 2 ^ 54 ≤ |(k : ℝ) * 2 ^ j| / 2 ^ 53 := div_le_div_of_nonneg_left (abs_nonneg _) (by positivity) (by norm_num)
    linarith
  · have h1 := mult l k i j hij hne
    rw [abs_sub_comm] at h1
    have h3 := small l i hl
    -- either the other number is not much smaller, or the distance is large
    set X := (k : ℝ) * 2 ^ j
    set Z := (l : ℝ) * 2 ^ i
    by_cases hh : |X| / 2 ≤ |Z|
    · have e : |X| / 2 ^ 54 = |X| / 2 / 2 ^ 53 := by norm_num; ring
      rw [e]
      have := div_le_div_of_nonneg_right hh (by positivity : (0 : ℝ) ≤ 2 ^ 53)
      linarith
    · push Not at hh
      have h5 : |X| - |Z| ≤ |X - Z| := abs_sub_abs_le_abs_sub X Z
      have h6 : |X| / 2 ^ 54 ≤ |X| / 2 := div_le_div_of_nonneg_left (abs_nonneg _) (by positivity) (by norm_num)
      linarith

/-- **C187.** No digit of a floating point number is lost in a map: the number in the file is nearer to the number in memory than to every other floating point number, so that reading with correct rounding gives
exactly the number in memory. -/
theorem C187_exact (x : ℝ) (hx : Double x) : ∃ y, number (sciText 18 x) = some y ∧ ∀ z, Double z → z ≠ x → |y - x| < |y - z| := by
  obtain ⟨y, h1, h2⟩ := shows_sciText x
  refine ⟨y, h1, fun z hz hne => ?_⟩
  unfold Near at h2
  by_cases h0 : x = 0
  · subst h0
    rw [abs_zero, mul_zero] at h2
    have : y = 0 := by simpa using abs_nonpos_iff.1 h2
    rw [this]
    simpa using hne
  · have hd := doubles_apart x z hx hz hne
    have hpos : 0 < |x| := abs_pos.2 h0
    have h3 : |x - z| ≤ |y - x| + |y - z| := by
      rw [abs_sub_comm y x]
      exact abs_sub_le x y z
    have h4 : (2 : ℝ) * (5 * 10 ^ (-19 : ℤ)) * |x| < |x| / 2 ^ 54 := by
      rw [lt_div_iff₀ (by positivity)]
      have : (2 : ℝ) * (5 * 10 ^ (-19 : ℤ)) * 2 ^ 54 < 1 := by norm_num
      nlinarith
    rw [mul_assoc] at h4
    generalize (5 : ℝ) * 10 ^ (-19 : ℤ) * |x| = ε at h2 h4
    linarith

/-- One third rounded to a double is a double. -/
example : Double (6004799503160661 * 2 ^ (-54 : ℤ)) := ⟨6004799503160661, -54, by norm_num, by norm_num⟩

/-- A map with two rows. -/
example : ∀ r ∈ [[(1 : ℝ), 1 / 3], [-2, 0]], r ≠ [] := by simp

/-! ## Headers -/

lemma splitLines_line (a b cur : Text) (h : '\n' ∉ a) : splitLines cur (a ++ '\n' :: b) = (cur ++ a) :: splitLines [] b := by
  induction a generalizing cur with
  | nil => simp [splitLines]
  | cons c a ih =>
    rw [List.mem_cons, not_or] at h
    rw [List.cons_append, splitLines, if_neg (fun e => h.1 e.symm), ih _ h.2]
    simp

lemma splitLines_last (a cur : Text) (h : '\n' ∉ a) : splitLines cur a = [cur ++ a] := by
  induction a generalizing cur with
  | nil => simp [splitLines]
  | cons c a ih =>
    rw [List.mem_cons, not_or] at h
    rw [splitLines, if_neg (fun e => h.1 e.symm), ih _ h.2]
    simp

/-- The lines of a joined text with something behind it. -/
lemma splitLines_join (ls : List Text) (last unit : Text) (h : ∀ l ∈ ls ++ [last], '\n' ∉ l) (hu : '\n' ∉ unit) :
    splitLines [] (List.intercalate ['\n'] (ls ++ [last]) ++ unit) = ls ++ [last ++ unit] := by
  induction ls with
  | nil =>
    rw [List.nil_append, List.intercalate_singleton, splitLines_last _ _ (by
      rw [List.mem_append, not_or]
      exact ⟨h last (by simp), hu⟩)]
    rfl
  | cons l ls ih =>
    have ih := ih fun m hm => h m (by
      rw [List.cons_append]
      exact List.mem_cons_of_mem _ hm)
    have e : List.intercalate ['\n'] (l :: ls ++ [last]) = l ++ '\n' :: List.intercalate ['\n'] (ls ++ [last]) := by
      obtain ⟨m, ms, hm⟩ := List.exists_cons_of_ne_nil (show ls ++ [last] ≠ [] by simp)
      rw [List.cons_append, hm, List.intercalate_cons_cons]
      simp
    rw [e, List.append_assoc, List.cons_append, splitLines_line _ _ _ (h l (by simp)), List.nil_append, ih]
    rfl

/-- Characters of numerals. -/
def numeric (c : Char) : Prop := (∃ d, digitValue c = some d) ∨ c = '.' ∨ c = 'e' ∨ c = '+' ∨ c = '-'

lemma digitsFrom_numeric (s : Text) (a n : ℕ) (h : digitsFrom a s = some n) : ∀ c ∈ s, numeric c := by
  induction s generalizing a with
  | nil => simp
  | cons c s ih =>
    rw [digitsFrom] at h
    cases hd : digitValue c with
    | none => rw [hd] at h; cases h
    | some d =>
      rw [hd] at h
      intro x hx
      rcases List.mem_cons.1 hx with rfl | hx
      · exact Or.inl ⟨d, hd⟩
      · exact ih _ h x hx

lemma whole_numeric (s : Text) (n : ℕ) (h : whole s = some n) : ∀ c ∈ s, numeric c := by
  unfold whole at h
  split_ifs at h
  exact digitsFrom_numeric s 0 n h

lemma signed_numeric (s : Text) (n : ℤ) (h : signed s = some n) : ∀ c ∈ s, numeric c := by
  unfold signed at h
  split at h
  · rw [Option.map_eq_some_iff] at h
    obtain ⟨m, hm, -⟩ := h
    intro c hc
    rcases List.mem_cons.1 hc with rfl | hc
    · exact Or.inr (Or.inr (Or.inr (Or.inr rfl)))
    · exact whole_numeric _ _ hm c hc
  · rw [Option.map_eq_some_iff] at h
    obtain ⟨m, hm, -⟩ := h
    intro c hc
    rcases List.mem_cons.1 hc with rfl | hc
    · exact Or.inr (Or.inr (Or.inr (Or.inl rfl)))
    · exact whole_numeric _ _ hm c hc
  · rw [Option.map_eq_some_iff] at h
    obtain ⟨m, hm, -⟩ := h
    exact whole_numeric _ _ hm

lemma cut_mem (a : Char) (s : Text) (c : Char) (hc : c ∈ s) : c ∈ (cut a s).1 ∨ c = a ∨ c ∈ (cut a s).2 := by
  unfold cut
  have h := List.takeWhile_append_dropWhile (p := fun x => decide (x ≠ a)) (l := s)
  rw [← h] at hc
  rcases List.mem_append.1 hc with hc | hc
  · exact Or.inl hc
  · right
    cases hd : s.dropWhile (fun x => decide (x ≠ a)) with
    | nil => rw [hd] at hc; simp at hc
    | cons b t =>
      rw [hd] at hc
      rcases List.mem_cons.1 hc with rfl | hc
      · left
        have := List.head_dropWhile_not (fun x => decide (x ≠ a)) (l := s) (by rw [hd]; simp)
        simp only [hd, List.head_cons] at this
        simpa using this
      · exact Or.inr hc

lemma decimal_numeric (s : Text) (x : ℝ) (h : decimal s = some x) : ∀ c ∈ s, numeric c := by
  unfold decimal at h
  rw [Option.map_eq_some_iff] at h
  obtain ⟨m, hm, -⟩ := h
  intro c hc
  have := whole_numeric _ _ hm
  rcases cut_mem '.' s c hc with h1 | h1 | h1
  · exact this c (by simp [h1])
  · exact Or.inr (Or.inl h1)
  · exact this c (by simp [h1])

lemma number_numeric (s : Text) (x : ℝ) (h : number s = some x) : ∀ c ∈ s, numeric c := by
  have un : ∀ (s : Text) (x : ℝ), unsignedNumber s = some x → ∀ c ∈ s, numeric c := by
    intro s x h
    unfold unsignedNumber at h
    split_ifs at h with he
    · cases h1 : decimal (cut 'e' s).1 with
      | none => rw [h1] at h; cases h
      | some d =>
        cases h2 : signed (cut 'e' s).2 with
        | none => rw [h1, h2] at h; cases h
        | some k =>
          intro c hc
          rcases cut_mem 'e' s c hc with h3 | h3 | h3
          · exact decimal_numeric _ _ h1 c h3
          · exact Or.inr (Or.inr (Or.inl h3))
          · exact signed_numeric _ _ h2 c h3
    · exact decimal_numeric _ _ h
  unfold number at h
  split at h
  · rw [Option.map_eq_some_iff] at h
    obtain ⟨m, hm, -⟩ := h
    intro c hc
    rcases List.mem_cons.1 hc with rfl | hc
    · exact Or.inr (Or.inr (Or.inr (Or.inr rfl)))
    · exact un _ _ hm c hc
  · exact un _ _ h

lemma header_lines (show_ : ℝ → Text) (version commandline : Text) (init : List (Text × ℝ)) (name : Text) (v : ℝ) (unit : Text) (hv : '\n' ∉ version) (hc : '\n' ∉ commandline)
    (hm : ∀ p ∈ init ++ [(name, v)], '\n' ∉ p.1) (hs : ∀ y, '\n' ∉ show_ y) (hu : '\n' ∉ unit) :
    splitLines [] (headerText show_ version commandline (init ++ [(name, v)]) unit)
      = [version, commandline] ++ init.map (fun p => p.1 ++ [' ', '=', ' '] ++ show_ p.2) ++ [name ++ [' ', '=', ' '] ++ show_ v ++ unit] := by
  unfold headerText macroText
  have e : version ++ ['\n'] ++ commandline ++ ['\n'] ++ List.intercalate ['\n'] ((init ++ [(name, v)]).map fun p => p.1 ++ [' ', '=', ' '] ++ show_ p.2) ++ unit
      = version ++ '\n' :: (commandline ++ '\n' :: (List.intercalate ['\n'] (init.map (fun p => p.1 ++ [' ', '=', ' '] ++ show_ p.2) ++ [name ++ [' ', '=', ' '] ++ show_ v]) ++ unit)) := by
    rw [List.map_append]
    simp
  rw [e, splitLines_line _ _ _ hv, splitLines_line _ _ _ hc, splitLines_join _ _ _ _ hu]
  · simp
  · intro l hl
    have : ∃ p ∈ init ++ [(name, v)], l = p.1 ++ [' ', '=', ' '] ++ show_ p.2 := by
      rcases List.mem_append.1 hl with hl | hl
      · obtain ⟨p, hp, rfl⟩ := List.mem_map.1 hl
        exact ⟨p, by simp [hp], rfl⟩
      · rw [List.mem_singleton] at hl
        exact ⟨(name, v), by simp, hl⟩
    obtain ⟨p, hp, rfl⟩ := this
    rw [List.mem_append, List.mem_append, not_or, not_or]
    exact ⟨⟨hm p hp, by decide⟩, hs _⟩

/-- **C188.** All macroscopic data but the last one can be read from the header of a map, in double precision if `str` prints that many digits. -/
theorem C188_data_partial (fmt show_ : ℝ → Text) (hshow : ∀ y, Shows (2 ^ (-53 : ℤ)) (show_ y) y) (version commandline : Text) (init : List (Text × ℝ)) (name : Text) (v : ℝ) (unit : Text) (hv : '\n' ∉ version)
    (hc : '\n' ∉ commandline) (hm : ∀ p ∈ init ++ [(name, v)], '\n' ∉ p.1) (hu : '\n' ∉ unit) (rows : List (List ℝ)) :
    ∀ p ∈ init, ∃ y, Datum (savetxt fmt (headerText show_ version commandline (init ++ [(name, v)]) unit) rows) p.1 y ∧ Near (2 ^ (-53 : ℤ)) p.2 y := by
  intro p hp
  obtain ⟨z, hz, hnear⟩ := hshow p.2
  refine ⟨z, ⟨show_ p.2, ?_, hz⟩, hnear⟩
  have hs : ∀ y, '\n' ∉ show_ y := by
    intro y h
    obtain ⟨z, hz, -⟩ := hshow y
    have := number_numeric _ _ hz _ h
    simp [numeric, digitValue] at this
  unfold savetxt
  rw [header_lines show_ version commandline init name v unit hv hc hm hs hu]
  refine List.mem_append_left _ (List.mem_map.2 ⟨p.1 ++ [' ', '=', ' '] ++ show_ p.2, ?_, by simp⟩)
  simp only [List.mem_append]
  exact Or.inl (Or.inr (List.mem_map.2 ⟨p, hp, rfl⟩))

lemma no_last (fmt show_ : ℝ → Text) (hfmt : ∀ x, Word (fmt x)) (hshow : ∀ y, Shows (2 ^ (-53 : ℤ)) (show_ y) y) (version commandline : Text) (hv : '\n' ∉ version) (hc : '\n' ∉ commandline)
    (hv2 : ¬ "fractional area".toList <+: version) (hc2 : ¬ "fractional area".toList <+: commandline) (one : Bool) (unit : Text) (hu : '\n' ∉ unit) (data : List ℝ) (hd : data.length = 7)
    (unitstr : Text) (hn : '\n' ∉ unitstr) (c : Char) (hcm : c ∈ unitstr) (hcn : ¬ numeric c) (rows : List (List ℝ)) (y : ℝ) :
    ¬ Datum (savetxt fmt (headerText show_ version commandline ((dumpNames one unit).zip data) unitstr) rows) "fractional area".toList y := by
  rintro ⟨t, ht, hy⟩
  have hs : ∀ y, '\n' ∉ show_ y := by
    intro y h
    obtain ⟨z, hz, -⟩ := hshow y
    have := number_numeric _ _ hz _ h
    simp [numeric, digitValue] at this
  obtain ⟨d0, d1, d2, d3, d4, d5, d6, rfl⟩ : ∃ d0 d1 d2 d3 d4 d5 d6, data = [d0, d1, d2, d3, d4, d5, d6] := by
    match data, hd with
    | [d0, d1, d2, d3, d4, d5, d6], _ => exact ⟨d0, d1, d2, d3, d4, d5, d6, rfl⟩
  set init : List (Text × ℝ) := [("mean elastic (".toList ++ unit ++ [')'], d0), ("mean rigid (".toList ++ unit ++ [')'], d1), ("mean gap (".toList ++ unit ++ [')'], d2),
    ((if one then "load (E* ".toList else "load ([Units of E*] ".toList) ++ unit ++ "^2)".toList, d3), (if one then "mean pressure (E*)".toList else "mean pressure ([Units of E*])".toList, d4),
    ("area (".toList ++ unit ++ "^2)".toList, d5)] with hinit
  have ez : (dumpNames one unit).zip [d0, d1, d2, d3, d4, d5, d6] = init ++ [("fractional area".toList, d6)] := rfl
  have hm : ∀ p ∈ init ++ [("fractional area".toList, d6)], '\n' ∉ p.1 := by
    intro p hp
    rw [hinit] at hp
    simp only [List.mem_append, List.mem_cons, List.not_mem_nil, or_false] at hp
    rcases hp with (rfl | rfl | rfl | rfl | rfl | rfl) | rfl <;> cases one <;> simp [hu]
  rw [ez] at ht
  unfold savetxt at ht
  rw [header_lines show_ version commandline init _ d6 unitstr hv hc hm hs hn] at ht
  rcases List.mem_append.1 ht with ht | ht
  · obtain ⟨l, hl, e⟩ := List.mem_map.1 ht
    have e' : l = "fractional area".toList ++ ([' ', '=', ' '] ++ t) := by
      have := List.append_cancel_left (as := ['#', ' ']) (bs := l) (cs := "fractional area".toList ++ ([' ', '=', ' '] ++ t)) (by rw [e]; simp)
      exact this
    simp only [List.mem_append, List.mem_cons, List.not_mem_nil, or_false] at hl
    rcases hl with ((rfl | rfl) | hl) | rfl
    · exact hv2 ⟨_, e'.symm⟩
    · exact hc2 ⟨_, e'.symm⟩
    · obtain ⟨p, hp, rfl⟩ := List.mem_map.1 hl
      rw [hinit] at hp
      have hh := congrArg List.head? e'
      simp only [List.mem_cons, List.not_mem_nil, or_false] at hp
      rcases hp with rfl | rfl | rfl | rfl | rfl | rfl <;> cases one <;> simp at hh
    · have e2 : show_ d6 ++ unitstr = t := by
        have h1 : "fractional area".toList ++ [' ', '=', ' '] ++ (show_ d6 ++ unitstr) = "fractional area".toList ++ [' ', '=', ' '] ++ t := by
          rw [← List.append_assoc, e', List.append_assoc]
        exact List.append_cancel_left h1
      exact hcn (number_numeric _ _ hy c (by rw [← e2]; simp [hcm]))
  · obtain ⟨r, -, e⟩ := List.mem_map.1 ht
    have hh : '#' ∈ List.intercalate [' '] (r.map fmt) := by rw [e]; simp
    refine row_no_hash (r.map fmt) ?_ '#' hh rfl
    intro t ht
    obtain ⟨x, -, rfl⟩ := List.mem_map.1 ht
    exact hfmt x

/-- **C188.** REFUTED for the last datum: no line of any map file reads `# fractional area = number`, for every calculation, because the text that describes the map follows without a line break
(`fractional area = 0.25Pressure values follow, ...`). -/
theorem C188_last_partial (show_ : ℝ → Text) (hshow : ∀ y, Shows (2 ^ (-53 : ℤ)) (show_ y) y) (version commandline : Text) (hv : '\n' ∉ version) (hc : '\n' ∉ commandline)
    (hv2 : ¬ "fractional area".toList <+: version) (hc2 : ¬ "fractional area".toList <+: commandline) (one : Bool) (unit : Text) (hu : '\n' ∉ unit) (data : List ℝ) (hd : data.length = 7)
    (young : ℝ) (surfaceUnit : Option Text) (hsu : ∀ s, surfaceUnit = some s → '\n' ∉ s) (rows : List (List ℝ)) (y : ℝ) :
    ¬ Datum (savePressure show_ young version commandline ((dumpNames one unit).zip data) rows) "fractional area".toList y
    ∧ ¬ Datum (saveGap show_ surfaceUnit version commandline ((dumpNames one unit).zip data) rows) "fractional area".toList y
    ∧ ¬ Datum (saveContact show_ version commandline ((dumpNames one unit).zip data) rows) "fractional area".toList y := by
  have hs : ∀ y, '\n' ∉ show_ y := by
    intro y h
    obtain ⟨z, hz, -⟩ := hshow y
    have := number_numeric _ _ hz _ h
    simp [numeric, digitValue] at this
  have hi : ¬ numeric 'i' := by simp [numeric, digitValue]
  have ho : ¬ numeric 'o' := by simp [numeric, digitValue]
  refine ⟨?_, ?_, ?_⟩
  · refine no_last _ show_ (word_sciText 18) hshow version commandline hv hc hv2 hc2 one unit hu data hd _ ?_ 'i' ?_ hi rows y
    · split_ifs
      · decide
      · simp [hs]
    · split_ifs
      · decide
      · simp
  · refine no_last _ show_ (word_sciText 18) hshow version commandline hv hc hv2 hc2 one unit hu data hd _ ?_ 'o' ?_ ho rows y
    · cases surfaceUnit with
      | none => decide
      | some s =>
        have := hsu s rfl
        simp [this]
    · cases surfaceUnit with
      | none => decide
      | some s => simp
  · refine no_last _ show_ ?_ hshow version commandline hv hc hv2 hc2 one unit hu data hd _ (by decide) 'o' (by decide) ho rows y
    intro x
    unfold boolText
    split_ifs
    · exact ⟨by simp, by decide⟩
    · exact ⟨by simp, by decide⟩

/-- A way to print numbers that meets the hypothesis. -/
example : ∀ y, Shows (2 ^ (-53 : ℤ)) (sciText 18 y) y := by
  intro y
  obtain ⟨z, h1, h2⟩ := shows_sciText y
  exact ⟨z, h1, h2.trans (mul_le_mul_of_nonneg_right (by norm_num) (abs_nonneg y))⟩

/-- An example: version, command line and unit as the program has them. -/
example : '\n' ∉ "ContactMechanics version: 1.0".toList ∧ ¬ "fractional area".toList <+: "ContactMechanics version: 1.0".toList ∧ '\n' ∉ "ce_hard_wall surface.nc".toList
    ∧ ¬ "fractional area".toList <+: "ce_hard_wall surface.nc".toList ∧ '\n' ∉ "nm".toList := by
  refine ⟨by decide, by decide, by decide, by decide, by decide⟩

/-- **C72 refuted.** The log that the command line writes (`dump`) cannot be read by `read_convergence_log`, whatever the unit and the numbers. -/
theorem C72_command_line_partial (one : Bool) (unit : Text) (data : List ℝ) (hd : data.length = 7) (H : Text)
    (hH : headerLine (dumpNames one unit) (data.map fun x => Item.val (.real x)) = .ok H) (rest : List Text) :
    readConvergenceLog (H :: rest) = .error .indexError := by
  have ev : (data.map fun x => Item.val (.real x)) = (data.map fun x => (20, sciText 12 x)).map fun p => Val.leaf p.1 p.2 := by
    rw [List.map_map]
    rfl
  rw [ev] at hH
  have hlab := allLabels_scalars (dumpNames one unit) (data.map fun x => (20, sciText 12 x)) (by rw [List.length_map, hd]; rfl)
  refine C72_blank_partial (dumpNames one unit) _ (by rw [List.length_map, List.length_map, hd]; rfl) ?_ ?_ ?_ "fractional".toList "area".toList "area".toList ?_ (by decide) (by decide) H hH rest
  · intro h
    rw [List.map_eq_nil_iff, List.map_eq_nil_iff] at h
    rw [h] at hd
    simp at hd
  · intro v hv
    obtain ⟨p, _, rfl⟩ := List.mem_map.1 hv
    trivial
  · rw [hlab]
    intro s hs
    simp only [dumpNames, List.mem_cons, List.not_mem_nil, or_false] at hs
    rcases hs with rfl | rfl | rfl | rfl | rfl | rfl | rfl <;> cases one <;> refine ⟨by simp, ?_⟩ <;> simp
  · rw [hlab]
    exact List.mem_of_getLast? (l := dumpNames one unit) rfl

end CM.MapFile
