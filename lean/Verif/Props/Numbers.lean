import Verif.Lemmas.Numbers
import Verif.Props.Logger
/-!
# Logged numbers can be read back (C186)
-/
namespace CM.Num
open CM.Log

/-- **C186.** The text of a real number in a log denotes that number up to half a unit of the thirteenth digit, with the right sign. -/
theorem C186_real (x : ℝ) : ∃ y, number (sciText 12 x) = some y ∧ Near (5 * 10 ^ (-13 : ℤ)) x y ∧ (0 < x → 0 < y) ∧ (x < 0 → y < 0) := by
  have hn := printedAbs_near 12 x
  have h5 : (1 : ℝ) / 2 * 10 ^ (-((12 : ℕ) : ℤ)) = 5 * 10 ^ (-13 : ℤ) := by norm_num
  rw [h5] at hn
  have hn' := abs_le.1 hn
  have hsmall : (5 : ℝ) * 10 ^ (-13 : ℤ) < 1 := by norm_num
  refine ⟨_, number_sciText 12 x, ?_, ?_, ?_⟩
  · unfold Near
    split_ifs with h
    · have e : -printedAbs 12 x - x = -(printedAbs 12 x - |x|) := by rw [abs_of_neg h]; ring
      rw [e, abs_neg]
      exact hn
    · have e : |x| = x := abs_of_nonneg (not_lt.1 h)
      rw [e] at hn ⊢
      exact hn
  · intro hx
    rw [if_neg (not_lt.2 hx.le)]
    rw [abs_of_pos hx] at hn'
    nlinarith
  · intro hx
    rw [if_pos hx]
    rw [abs_of_neg hx] at hn'
    nlinarith

/-- **C186.** Integers are read back exactly. -/
theorem C186_int (n : ℤ) : number (intText n) = some (n : ℝ) := number_intText n

lemma printedAbs_mono (p : ℕ) (x y : ℝ) (hx : 0 ≤ x) (hxy : x ≤ y) : printedAbs p x ≤ printedAbs p y := by
  have h10 : (0 : ℝ) < 10 := by norm_num
  rcases hx.eq_or_lt with rfl | hx
  · unfold printedAbs
    rw [scientific_zero]
    simp
    positivity
  have hy : 0 < y := hx.trans_le hxy
  obtain ⟨-, -, x3, -, -⟩ := scientific_spec p x hx.ne'
  obtain ⟨y1, -, y3, y4, -⟩ := scientific_spec p y hy.ne'
  have hlog : Int.log 10 x ≤ Int.log 10 y := Int.log_mono_right hx hxy
  rcases hlog.eq_or_lt with h | h
  · unfold printedAbs
    rw [x3, y3, abs_of_pos hx, abs_of_pos hy, h]
    refine mul_le_mul_of_nonneg_right ?_ (zpow_pos h10 _).le
    exact_mod_cast roundEven_mono _ _ (by positivity) (mul_le_mul_of_nonneg_right hxy (zpow_pos h10 _).le)
  · -- the next power of ten lies between
    obtain ⟨x1, x2, -, -, -⟩ := scientific_spec p x hx.ne'
    have a : printedAbs p x ≤ 10 ^ (Int.log 10 x + 1) := by
      unfold printedAbs
      rw [x3, abs_of_pos hx]
      have l2 : x < ((10 : ℕ) : ℝ) ^ (Int.log 10 x + 1) := Int.lt_zpow_succ_log_self (by norm_num) x
      push_cast at l2
      have m2 : x * 10 ^ ((p : ℤ) - Int.log 10 x) ≤ 10 ^ (p + 1) := by
        have := mul_le_mul_of_nonneg_right l2.le (zpow_pos h10 ((p : ℤ) - Int.log 10 x)).le
        rw [← zpow_add₀ h10.ne', show Int.log 10 x + 1 + ((p : ℤ) - Int.log 10 x) = ((p + 1 : ℕ) : ℤ) by push_cast; ring, zpow_natCast] at this
        exact this
      have r2 := roundEven_mono (x * 10 ^ ((p : ℤ) - Int.log 10 x)) ((10 ^ (p + 1) : ℕ) : ℝ) (by positivity) (by push_cast; exact m2)
      rw [roundEven_nat] at r2
      calc (roundEven (x * 10 ^ ((p : ℤ) - Int.log 10 x)) : ℝ) * 10 ^ (Int.log 10 x - p) ≤ ((10 ^ (p + 1) : ℕ) : ℝ) * 10 ^ (Int.log 10 x - p) := mul_le_mul_of_nonneg_right (by exact_mod_cast r2) (zpow_pos h10 _).le
        _ = 10 ^ (Int.log 10 x + 1) := by
          push_cast
          rw [← zpow_natCast, ← zpow_add₀ h10.ne']
          congr 1
          push_cast
          ring
    have b : (10 : ℝ) ^ Int.log 10 y ≤ printedAbs p y := by
      unfold printedAbs
      rw [abs_of_pos hy] at y4
      have c1 : (1 : ℝ) ≤ ((scientific p y).1 : ℝ) / 10 ^ p := by
        rw [one_le_div (by positivity)]
        exact_mod_cast y1
      calc (10 : ℝ) ^ Int.log 10 y ≤ 10 ^ (scientific p y).2 := zpow_le_zpow_right₀ (by norm_num) y4
        _ ≤ ((scientific p y).1 : ℝ) / 10 ^ p * 10 ^ (scientific p y).2 := le_mul_of_one_le_left (zpow_pos h10 _).le c1
    exact a.trans ((zpow_le_zpow_right₀ (by norm_num) (by omega)).trans b)

lemma printedAbs_nonneg (p : ℕ) (x : ℝ) : 0 ≤ printedAbs p x := by unfold printedAbs; positivity

lemma printedAbs_abs (p : ℕ) (x : ℝ) : printedAbs p |x| = printedAbs p x := by
  unfold printedAbs scientific
  simp only [abs_abs, abs_eq_zero]

/-- **C186.** The order of numbers is kept: of two logged numbers the larger one is not read back as the smaller one. -/
theorem C186_order (x y : ℝ) (hxy : x ≤ y) : ∃ a b, number (sciText 12 x) = some a ∧ number (sciText 12 y) = some b ∧ a ≤ b := by
  refine ⟨_, _, number_sciText 12 x, number_sciText 12 y, ?_⟩
  have h1 := printedAbs_nonneg 12 x
  have h2 := printedAbs_nonneg 12 y
  split_ifs with a b b
  · have := printedAbs_mono 12 |y| |x| (abs_nonneg _) (by rw [abs_of_neg a, abs_of_neg b]; linarith)
    rw [printedAbs_abs, printedAbs_abs] at this
    linarith
  · linarith
  · linarith
  · exact printedAbs_mono 12 x y (not_lt.1 a) hxy

/-- **C186.** A column is twenty characters wide for every number with an exponent of at most three digits, so that the columns of a log stay aligned. -/
theorem C186_width (x : ℝ) (hx : x = 0 ∨ (10 : ℝ) ^ (-999 : ℤ) ≤ |x| ∧ |x| < 10 ^ (998 : ℤ)) : (padLeft 20 (sciText 12 x)).length = 20 := by
  have hlen : (sciText 12 x).length ≤ 20 := by
    have he : (expText (scientific 12 x).2).length ≤ 5 := by
      have hb : (scientific 12 x).2.natAbs < 10 ^ (2 + 1) := by
        rcases hx with rfl | ⟨h1, h2⟩
        · rw [scientific_zero]
          simp
        · have hpos : 0 < |x| := lt_of_lt_of_le (by positivity) h1
          obtain ⟨-, -, -, s1, s2⟩ := scientific_spec 12 x (abs_pos.1 hpos)
          have k1 : -999 ≤ Int.log 10 |x| := (Int.zpow_le_iff_le_log (b := 10) (by norm_num) hpos).1 (by push_cast; exact h1)
          have k2 : Int.log 10 |x| < 998 := (Int.lt_zpow_iff_log_lt (b := 10) (by norm_num) hpos).1 (by push_cast; exact h2)
          omega
      have hn := length_natText _ 2 hb
      unfold expText
      by_cases h : (scientific 12 x).2.natAbs < 10
      · have := length_natText (scientific 12 x).2.natAbs 0 (by simpa using h)
        rw [if_pos h]
        simp
        omega
      · rw [if_neg h]
        simp
        omega
    unfold sciText
    simp only [List.length_append, List.length_cons, length_lastDigits]
    have : (if x < 0 then ['-'] else []).length ≤ 1 := by split_ifs <;> simp
    omega
  unfold padLeft
  simp
  omega

/-! ## Whole logs -/

/-- What is put into a log: messages, and records of named numbers and strings. -/
inductive Entry where
  | message (caller text : Text)
  | record (hdr : List Text) (items : List Item) (force : Bool)

/-- The call. -/
noncomputable def Entry.event : Entry → Event
  | .message c t => .message c t
  | .record h v f => .record h (v.map Item.val) f

/-- The records, in order. -/
def recordsOf : List Entry → List (List Item)
  | [] => []
  | .message _ _ :: l => recordsOf l
  | .record _ v _ :: l => v :: recordsOf l

/-- The text `t` stands for the logged item. -/
def Reads (t : Text) : Item → Prop
  | .int n => number t = some (n : ℝ)
  | .real x => ∃ y, number t = some y ∧ Near (5 * 10 ^ (-13 : ℤ)) x y
  | .str s => t = s

lemma digit_word (n : ℕ) : blank (digit n) = false ∧ digit n ≠ '#' := digit_cases n (fun c => blank c = false ∧ c ≠ '#') (by decide)

lemma Digits.word {s : Text} (hs : Digits s) : ∀ c ∈ s, blank c = false ∧ c ≠ '#' := by
  intro c hc
  obtain ⟨n, rfl⟩ := hs c hc
  exact digit_word n

lemma word_intText (n : ℤ) : Word (intText n) := by
  have h := digits_natText n.natAbs
  unfold intText
  split_ifs
  · refine ⟨by simp, fun c hc => ?_⟩
    rcases List.mem_cons.1 hc with rfl | hc
    · decide
    · exact h.1.word c hc
  · exact ⟨h.2, h.1.word⟩

lemma word_sciText (p : ℕ) (x : ℝ) : Word (sciText p x) := by
  refine ⟨by unfold sciText; simp, fun c hc => ?_⟩
  unfold sciText expText at hc
  simp only [List.mem_append, List.mem_cons] at hc
  rcases hc with h | (rfl | h | h)
  · have h' : c = '-' ∨ c = digit ((scientific p x).1 / 10 ^ p) ∨ c = '.' ∨ c ∈ lastDigits p (scientific p x).1 := by
      split_ifs at h
      · simpa using h
      · exact Or.inr (by simpa using h)
    rcases h' with rfl | rfl | rfl | h
    · decide
    · exact digit_word _
    · decide
    · exact (digits_lastDigits _ _).word c h
  · decide
  · split_ifs at h <;> subst h <;> decide
  · split_ifs at h
    · rcases List.mem_cons.1 h with rfl | h
      · decide
      · exact (digits_natText _).1.word c h
    · exact (digits_natText _).1.word c h

lemma columns_items (v : List Item) : (v.map Item.val).flatMap Val.columns = v.map fun i => match i with
    | .int n => (8, intText n)
    | .real x => (20, sciText 12 x)
    | .str s => (20, s) := by
  induction v with
  | nil => rfl
  | cons i v ih =>
    rw [List.map_cons, List.flatMap_cons, ih, List.map_cons]
    cases i <;> rfl

lemma labels_items (h : List Text) (v : List Item) (hl : h.length = v.length) : allLabels h (v.map Item.val) = h := by
  induction v generalizing h with
  | nil => cases h with
    | nil => rfl
    | cons a h => simp at hl
  | cons i v ih => cases h with
    | nil => simp at hl
    | cons a h =>
      rw [List.map_cons, allLabels, ih h (by simpa using hl)]
      cases i <;> rfl

lemma rows_items (es : List Entry) (outevery : ℤ) (ho : outevery ≤ 1) : rows outevery (es.map Entry.event) = (recordsOf es).map fun v => ((v.map Item.val).flatMap Val.columns).map Prod.snd := by
  classical
  have hP : ∀ k, Printed outevery (es.map Entry.event) k := by
    intro k
    unfold Printed
    cases (es.map Entry.event)[k]? with
    | none => trivial
    | some e => cases e with
      | message c t => trivial
      | record h v f => exact Or.inr (Or.inl ho)
  have e1 : ∀ l : List Event, (List.range l.length).flatMap (fun k => match l[k]? with
      | some (Event.record _ v _) => [(v.flatMap Val.columns).map Prod.snd]
      | _ => []) = l.flatMap fun e => match e with
      | Event.record _ v _ => [(v.flatMap Val.columns).map Prod.snd]
      | _ => [] := by
    intro l
    induction l with
    | nil => rfl
    | cons e l ih =>
      rw [List.length_cons, List.range_succ_eq_map, List.flatMap_cons, List.flatMap_map, List.flatMap_cons, ← ih]
      congr 1
      cases e <;> rfl
  unfold rows
  simp only [hP, if_true]
  refine (e1 _).trans ?_
  clear e1 hP
  induction es with
  | nil => rfl
  | cons e es ih =>
    rw [List.map_cons, List.flatMap_cons, ih]
    cases e with
    | message c t => rfl
    | record h v f => rfl

/-- **C186.** Everything that was logged is read back: in a fresh log whose every record is printed, reading the file gives the names of the columns, one row per record in order, and in every row the integers and strings
exactly and the real numbers up to half a unit of the thirteenth digit.  (Names and strings are words without blanks and `#`, names without `:` and not repeated, as in C72.) -/
theorem C186_log (S : State) (hopen : S.log.logfile = none → S.log.logfn = none) (hout : S.log.outcounter = S.log.outevery) (hsep : S.log.sepcounter = 0) (hempty : sink S = []) (hev : S.log.outevery ≤ 1)
    (hdr : List Text) (first : List Item) (force : Bool) (rest : List Entry)
    (hrec : ∀ e ∈ Entry.record hdr first force :: rest, match e with
      | .message _ _ => True
      | .record h v _ => h.length = v.length ∧ v ≠ [] ∧ ∀ s, Item.str s ∈ v → Word s)
    (hlab : ∀ s ∈ hdr, Word s ∧ ':' ∉ s) (hnodup : hdr.Nodup) :
    ∃ table, readConvergenceLog (sink (run S ((Entry.record hdr first force :: rest).map fun e => e.event.op))) = .ok (hdr, table)
      ∧ List.Forall₂ (fun row items => List.Forall₂ Reads row items) table (recordsOf (Entry.record hdr first force :: rest)) := by
  have h0 := hrec _ (List.mem_cons_self)
  simp only at h0
  have hl := labels_items hdr first h0.1
  have hr := C72_read_back_partial S hopen hout hsep hempty hdr (first.map Item.val) force (rest.map Entry.event) (Or.inr hev) (by
    intro e he
    have he' : e ∈ (Entry.record hdr first force :: rest).map Entry.event := he
    obtain ⟨a, ha, rfl⟩ := List.mem_map.1 he'
    have := hrec a ha
    cases a with
    | message c t => trivial
    | record h v f =>
      simp only at this
      obtain ⟨h1, h2, h3⟩ := this
      refine ⟨by rw [List.length_map]; exact h1, by simpa using h2, ?_, ?_⟩
      · intro x hx
        obtain ⟨i, -, rfl⟩ := List.mem_map.1 hx
        cases i <;> trivial
      · intro p hp
        rw [columns_items] at hp
        obtain ⟨i, hi, rfl⟩ := List.mem_map.1 hp
        cases i with
        | int n => exact word_intText n
        | real x => exact word_sciText 12 x
        | str s => exact h3 s hi) (by rw [hl]; exact hlab) (by rw [hl]; exact hnodup)
  rw [hl] at hr
  have e1 : (Event.record hdr (first.map Item.val) force :: rest.map Entry.event) = (Entry.record hdr first force :: rest).map Entry.event := rfl
  rw [e1, rows_items _ _ hev, List.map_map] at hr
  refine ⟨_, hr, ?_⟩
  generalize recordsOf (Entry.record hdr first force :: rest) = R
  induction R with
  | nil => exact List.Forall₂.nil
  | cons v R ih =>
    refine List.Forall₂.cons ?_ ih
    beta_reduce
    rw [columns_items, List.map_map]
    clear ih
    induction v with
    | nil => exact List.Forall₂.nil
    | cons i v iv =>
      refine List.Forall₂.cons ?_ iv
      cases i with
      | int n => exact number_intText n
      | real x =>
        obtain ⟨y, y1, y2, -⟩ := C186_real x
        exact ⟨y, y1, y2⟩
      | str s => rfl

/-- A log with two columns and two records, one of them with a number that needs more than thirteen digits. -/
example : ∃ S : State, (S.log.logfile = none → S.log.logfn = none) ∧ S.log.outcounter = S.log.outevery ∧ S.log.sepcounter = 0 ∧ sink S = [] ∧ S.log.outevery ≤ 1
    ∧ (∀ s ∈ ["it".toList, "energy".toList], Word s ∧ ':' ∉ s) ∧ ["it".toList, "energy".toList].Nodup
    ∧ (∀ e ∈ [Entry.record ["it".toList, "energy".toList] [.int 1, .real (1 / 3)] false, Entry.record ["it".toList, "energy".toList] [.int 2, .real (-1 / 7)] false], match e with
      | .message _ _ => True
      | .record h v _ => h.length = v.length ∧ v ≠ [] ∧ ∀ s, Item.str s ∈ v → Word s) := by
  refine ⟨create ⟨[], fun _ => [], 1⟩ .none 1 10, by decide, by decide, by decide, by decide, by decide, ?_, by decide, ?_⟩
  · intro s hs
    simp only [List.mem_cons, List.not_mem_nil, or_false] at hs
    rcases hs with rfl | rfl
    · exact ⟨⟨by decide, by decide⟩, by decide⟩
    · exact ⟨⟨by decide, by decide⟩, by decide⟩
  · intro e he
    simp only [List.mem_cons, List.not_mem_nil, or_false] at he
    rcases he with rfl | rfl <;> simp

/-- Two thirds is printed as `6.666666666667e-01`: rounded, not truncated. -/
example : printedAbs 12 (2 / 3) = 6666666666667 / 10 ^ 13 := by
  have hl : Int.log 10 |(2 / 3 : ℝ)| = -1 := by
    rw [abs_of_pos (by norm_num)]
    have h1 : -1 ≤ Int.log 10 (2 / 3 : ℝ) := (Int.zpow_le_iff_le_log (b := 10) (by norm_num) (by norm_num)).1 (by norm_num)
    have h2 : Int.log 10 (2 / 3 : ℝ) < 0 := (Int.lt_zpow_iff_log_lt (b := 10) (by norm_num) (by norm_num)).1 (by norm_num)
    omega
  unfold printedAbs
  rw [(scientific_spec 12 (2 / 3) (by norm_num)).2.2.1, hl, abs_of_pos (by norm_num)]
  have hr : roundEven (2 / 3 * 10 ^ (((12 : ℕ) : ℤ) - -1)) = 6666666666667 := by
    have hf : ⌊(2 / 3 : ℝ) * 10 ^ (((12 : ℕ) : ℤ) - -1)⌋₊ = 6666666666666 := by
      rw [Nat.floor_eq_iff (by positivity)]
      norm_num
    unfold roundEven
    simp only [hf]
    norm_num
  rw [hr]
  norm_num

end CM.Num
