import Verif.Spec.IntText
import Verif.Props.NetCDF2
import Verif.Props.NetCDF3
import Verif.Props.NetCDF4
import Mathlib.Data.List.TakeWhile
/-!
# Frame selectors and the length of containers (C76, C78)
-/
namespace CM.NetCDF
open CM.Spec

/-! ## Whole numbers -/

lemma digit_some {c : Char} {n : ℕ} (h : digit? c = some n) : ∃ d : Fin 10, c = Char.ofNat (48 + d.val) ∧ n = d.val := by
  unfold digit? at h
  split_ifs at h with hc
  injection h with h
  refine ⟨⟨n, by omega⟩, ?_, rfl⟩
  rw [show 48 + n = c.toNat by omega]
  exact (Char.ofNat_toNat c).symm

lemma digitsFrom_under (acc : ℕ) (c : Char) (r : List Char) : digitsFrom acc ('_' :: c :: r) = (digit? c).bind fun d => digitsFrom (10 * acc + d) r := by rw [digitsFrom]

lemma digits_ne {t : List Char} {l : List (Fin 10)} (h : Digits t l) : t ≠ [] ∧ l ≠ [] := by cases h <;> simp

lemma digits_head {t : List Char} {l : List (Fin 10)} (h : Digits t l) : ∃ (d : Fin 10) (r : List Char), t = Char.ofNat (48 + d.val) :: r := by
  induction h with
  | one d => exact ⟨d, [], rfl⟩
  | next d _ _ => exact ⟨d, _, rfl⟩
  | under d _ _ => exact ⟨d, _, rfl⟩

/-- A text of digits is read as its value. -/
lemma digitsFrom_of {t : List Char} {l : List (Fin 10)} (h : Digits t l) :
    ∀ acc : ℕ, digitsFrom acc t = some (l.foldl (fun (a : ℕ) (d : Fin 10) => 10 * a + d.val) acc) ∧ digitsFrom acc ('_' :: t) = some (l.foldl (fun (a : ℕ) (d : Fin 10) => 10 * a + d.val) acc) := by
  induction h with
  | one d =>
    intro acc
    rw [digitsFrom_under, digitsFrom_cons _ _ _ (digit_ne d).1, digit_char]
    exact ⟨rfl, rfl⟩
  | next d _ ih =>
    intro acc
    rw [digitsFrom_under, digitsFrom_cons _ _ _ (digit_ne d).1, digit_char]
    exact ⟨(ih _).1, (ih _).1⟩
  | under d _ ih =>
    intro acc
    rw [digitsFrom_under, digitsFrom_cons _ _ _ (digit_ne d).1, digit_char]
    exact ⟨(ih _).2, (ih _).2⟩

lemma digitsFrom_some : ∀ (m : ℕ) (t : List Char), t.length ≤ m → ∀ (acc n : ℕ), digitsFrom acc t = some n →
    (t = [] ∧ n = acc) ∨ ∃ u l, (t = u ∨ t = '_' :: u) ∧ Digits u l ∧ n = l.foldl (fun (a : ℕ) (d : Fin 10) => 10 * a + d.val) acc := by
  intro m
  induction m with
  | zero =>
    intro t ht acc n h
    rw [List.length_eq_zero_iff.1 (Nat.le_zero.1 ht)] at h ⊢
    rw [digitsFrom] at h
    injection h with h
    exact .inl ⟨rfl, h.symm⟩
  | succ m ih =>
    intro t ht acc n h
    -- the first digit and the rest
    have key : ∀ c r, r.length ≤ m → ((digit? c).bind fun d => digitsFrom (10 * acc + d) r) = some n →
        ∃ l, Digits (c :: r) l ∧ n = l.foldl (fun (a : ℕ) (d : Fin 10) => 10 * a + d.val) acc := by
      intro c r hr h
      obtain ⟨k, hk, h⟩ := Option.bind_eq_some_iff.1 h
      obtain ⟨d, rfl, rfl⟩ := digit_some hk
      rcases ih r hr _ _ h with ⟨rfl, rfl⟩ | ⟨u, l, hu, hl, rfl⟩
      · exact ⟨[d], .one d, rfl⟩
      · rcases hu with rfl | rfl
        · exact ⟨d :: l, .next d hl, rfl⟩
        · exact ⟨d :: l, .under d hl, rfl⟩
    cases t with
    | nil =>
      rw [digitsFrom] at h
      injection h with h
      exact .inl ⟨rfl, h.symm⟩
    | cons c r =>
      right
      by_cases hc : c = '_'
      · subst hc
        cases r with
        | nil =>
          rw [digitsFrom] at h
          · simp [digit?] at h
          · simp
        | cons c r =>
          rw [digitsFrom_under] at h
          obtain ⟨l, h1, h2⟩ := key c r (by simp at ht; omega) h
          exact ⟨_, l, .inr rfl, h1, h2⟩
      · rw [digitsFrom_cons _ _ _ hc] at h
        obtain ⟨l, h1, h2⟩ := key c r (by simpa using ht) h
        exact ⟨_, l, .inl rfl, h1, h2⟩

lemma pyNat_iff (t : List Char) (n : ℕ) : pyNat t = some n ↔ ∃ l, Digits t l ∧ n = decimal l := by
  constructor
  · intro h
    cases t with
    | nil => cases h
    | cons c r =>
      simp only [pyNat] at h
      obtain ⟨k, hk, h⟩ := Option.bind_eq_some_iff.1 h
      obtain ⟨d, rfl, rfl⟩ := digit_some hk
      rcases digitsFrom_some _ r le_rfl _ _ h with ⟨rfl, rfl⟩ | ⟨u, l, rfl | rfl, hl, rfl⟩
      · exact ⟨[d], .one d, by simp [decimal]⟩
      · exact ⟨d :: l, .next d hl, by simp [decimal]⟩
      · exact ⟨d :: l, .under d hl, by simp [decimal]⟩
  · rintro ⟨l, h, rfl⟩
    cases h with
    | one d => simp only [pyNat, digit_char, Option.bind_some, digitsFrom, decimal, List.foldl_cons, List.foldl_nil]; simp
    | next d h =>
      simp only [pyNat, digit_char, Option.bind_some, decimal, List.foldl_cons]
      simpa using (digitsFrom_of h d).1
    | under d h =>
      simp only [pyNat, digit_char, Option.bind_some, decimal, List.foldl_cons]
      simpa using (digitsFrom_of h d).2

/-! ## Blanks -/

lemma dropWhile_split (p : Char → Bool) (l : List Char) : ∃ w, l = w ++ l.dropWhile p ∧ ∀ c ∈ w, p c = true := by
  refine ⟨l.takeWhile p, (List.takeWhile_append_dropWhile ..).symm, fun c hc => List.mem_takeWhile_imp hc⟩

lemma strip_split (l : List Char) : ∃ w₁ w₂, l = w₁ ++ strip l ++ w₂ ∧ ∀ c ∈ w₁ ++ w₂, c.isWhitespace = true := by
  obtain ⟨w₁, h1, b1⟩ := dropWhile_split Char.isWhitespace l
  obtain ⟨w₂, h2, b2⟩ := dropWhile_split Char.isWhitespace (l.dropWhile Char.isWhitespace).reverse
  refine ⟨w₁, w₂.reverse, ?_, fun c hc => ?_⟩
  · unfold strip
    rw [List.append_assoc, ← List.reverse_append, ← h2, List.reverse_reverse]
    exact h1
  · rcases List.mem_append.1 hc with h | h
    · exact b1 c h
    · exact b2 c (List.mem_reverse.1 h)

lemma dropWhile_blanks {w : List Char} (hw : ∀ c ∈ w, c.isWhitespace = true) {c : Char} (hc : c.isWhitespace = false) (r : List Char) :
    (w ++ c :: r).dropWhile Char.isWhitespace = c :: r := by
  induction w with
  | nil => simp [hc]
  | cons a w ih =>
    rw [List.cons_append, List.dropWhile_cons_of_pos (hw a (by simp))]
    exact ih fun c hc => hw c (by simp [hc])

lemma strip_blanks {w₁ w₂ t : List Char} (h1 : ∀ c ∈ w₁, c.isWhitespace = true) (h2 : ∀ c ∈ w₂, c.isWhitespace = true) (h0 : t ≠ [])
    (ht : ∀ c ∈ t, c.isWhitespace = false) : strip (w₁ ++ t ++ w₂) = t := by
  unfold strip
  obtain ⟨c, r, rfl⟩ := List.exists_cons_of_ne_nil h0
  rw [List.append_assoc, List.cons_append, dropWhile_blanks h1 (ht c (by simp)), ← List.cons_append, List.reverse_append]
  obtain ⟨c', r', e⟩ := List.exists_cons_of_ne_nil (show (c :: r).reverse ≠ [] by simp)
  rw [e, dropWhile_blanks (fun x hx => h2 x (List.mem_reverse.1 hx)) (ht c' (by rw [← List.mem_reverse, e]; simp)), ← e, List.reverse_reverse]

lemma digits_plain {t : List Char} {l : List (Fin 10)} (h : Digits t l) : ∀ c ∈ t, c.isWhitespace = false := by
  induction h with
  | one d =>
    intro c hc
    rw [List.mem_singleton.1 hc]
    exact (digit_ne d).2.2.2.1
  | next d _ ih =>
    intro c hc
    rcases List.mem_cons.1 hc with rfl | hc
    · exact (digit_ne d).2.2.2.1
    · exact ih c hc
  | under d _ ih =>
    intro c hc
    rcases List.mem_cons.1 hc with rfl | hc
    · exact (digit_ne d).2.2.2.1
    · rcases List.mem_cons.1 hc with rfl | hc
      · decide
      · exact ih c hc

lemma pyInt_iff (t : List Char) (n : ℤ) : pyInt t = some n ↔ WholeText t n := by
  constructor
  · intro h
    obtain ⟨w₁, w₂, e, hb⟩ := strip_split t
    unfold pyInt at h
    refine ⟨w₁, strip t, w₂, ?_⟩
    split at h
    · rename_i r hr
      obtain ⟨k, hk, rfl⟩ : ∃ k : ℕ, pyNat r = some k ∧ -(k : ℤ) = n := by
        cases hp : pyNat r with
        | none => rw [hp] at h; cases h
        | some k => rw [hp] at h; exact ⟨k, rfl, Option.some.inj h⟩
      obtain ⟨l, hl, rfl⟩ := (pyNat_iff r k).1 hk
      exact ⟨l, e, hb, .inr (.inr ⟨r, hr, hl, rfl⟩)⟩
    · rename_i r hr
      obtain ⟨k, hk, rfl⟩ : ∃ k : ℕ, pyNat r = some k ∧ (k : ℤ) = n := by
        cases hp : pyNat r with
        | none => rw [hp] at h; cases h
        | some k => rw [hp] at h; exact ⟨k, rfl, Option.some.inj h⟩
      obtain ⟨l, hl, rfl⟩ := (pyNat_iff r k).1 hk
      exact ⟨l, e, hb, .inr (.inl ⟨r, hr, hl, rfl⟩)⟩
    · obtain ⟨k, hk, rfl⟩ : ∃ k : ℕ, pyNat (strip t) = some k ∧ (k : ℤ) = n := by
        cases hp : pyNat (strip t) with
        | none => rw [hp] at h; cases h
        | some k => rw [hp] at h; exact ⟨k, rfl, Option.some.inj h⟩
      obtain ⟨l, hl, rfl⟩ := (pyNat_iff _ k).1 hk
      exact ⟨l, e, hb, .inl ⟨hl, rfl⟩⟩
  · rintro ⟨w₁, core, w₂, l, rfl, hb, h⟩
    have hb1 : ∀ c ∈ w₁, c.isWhitespace = true := fun c hc => hb c (by simp [hc])
    have hb2 : ∀ c ∈ w₂, c.isWhitespace = true := fun c hc => hb c (by simp [hc])
    have sgn : ∀ {s : Char} {t : List Char}, s.isWhitespace = false → Digits t l → ∀ c ∈ s :: t, c.isWhitespace = false := by
      intro s t hs h c hc
      rcases List.mem_cons.1 hc with rfl | hc
      · exact hs
      · exact digits_plain h c hc
    unfold pyInt
    rcases h with ⟨h, rfl⟩ | ⟨t, rfl, h, rfl⟩ | ⟨t, rfl, h, rfl⟩
    · rw [strip_blanks hb1 hb2 (digits_ne h).1 (digits_plain h)]
      have hn := (pyNat_iff core _).2 ⟨l, h, rfl⟩
      split
      · obtain ⟨d, r, e⟩ := digits_head h
        exact absurd (List.cons.inj e).1.symm (digit_ne d).2.1
      · obtain ⟨d, r, e⟩ := digits_head h
        exact absurd (List.cons.inj e).1.symm (digit_ne d).2.2.1
      · rw [hn]; rfl
    · rw [strip_blanks hb1 hb2 (by simp) (sgn (by decide) h)]
      simp only
      rw [(pyNat_iff t _).2 ⟨l, h, rfl⟩]
      rfl
    · rw [strip_blanks hb1 hb2 (by simp) (sgn (by decide) h)]
      simp only
      rw [(pyNat_iff t _).2 ⟨l, h, rfl⟩]
      rfl

/-- **C78** (complete). For every name and every text behind the first `@`: the frame selected is the whole number the text denotes; if it denotes none -- also if it is empty -- the call raises `ValueError`,
whatever the keyword says. -/
theorem C78_complete (stem rest : List Char) (h : '@' ∉ stem) (h0 : stem ≠ []) (fr : Option ℤ) :
    (∀ n, WholeText rest n → openNc (String.ofList (stem ++ '@' :: rest)) fr = .ok (.frame (String.ofList stem) n)) ∧
    ((¬ ∃ n, WholeText rest n) → openNc (String.ofList (stem ++ '@' :: rest)) fr = .error .valueError) ∧
    openNc (String.ofList (stem ++ ['@'])) fr = .error .valueError := by
  rw [openNc_at stem rest h h0, openNc_at stem [] h h0]
  refine ⟨fun n hn => ?_, fun hn => ?_, rfl⟩
  · rw [(pyInt_iff rest n).2 hn]
  · cases hp : pyInt rest with
    | none => rfl
    | some n => exact absurd ⟨n, (pyInt_iff rest n).1 hp⟩ hn

example : WholeText " -1_0 ".toList (-10) :=
  ⟨[' '], "-1_0".toList, [' '], [1, 0], rfl, by decide, .inr (.inr ⟨"1_0".toList, rfl, .under 1 (.one 0), rfl⟩)⟩

/-! ## The length of a container -/

/-- **C76** (length). `len` of an open container is the number of frames iteration and slices show, and negative indices count from there; writing a variable of frame `i` makes it at least `i + 1` and
changes it in no other way. -/
theorem C76_len (rnd : ℝ → ℝ) (c : Cont) (hs : c.saved = none) (hd : c.file.defined = true) :
    ∃ n l, contLen c = .ok n ∧ iterate c.file = .ok l ∧ numbers l = (List.range n).map (fun k : ℕ => (k : ℤ)) ∧ (∀ i : ℤ, i < 0 → -(n : ℤ) ≤ i → frame c.file i = frame c.file (n + i)) ∧
      ∀ (i : ℤ) (name : String) (v : Value) (var : Var), 0 ≤ i → PublicName name → c.file.vars name = some var → var.framed = true → (cstep rnd c (.base (.write i name v))).1 = .ok () →
        contLen (cstep rnd c (.base (.write i name v))).2 = .ok (max n (i.toNat + 1)) := by
  obtain ⟨l, h1, h2, -⟩ := C76_iterate c.file hd
  refine ⟨c.file.frames, l, ?_, h1, h2, fun i h3 h4 => C76_negative c.file hd i h4 h3, fun i name v var hi hn hv hf hok => ?_⟩
  · unfold contLen
    simp [hs, hd]
  · have hfr : frame c.file i = .ok ⟨i, fun _ => none⟩ := by unfold frame; rw [if_neg (by omega)]
    have hcr : createIfMissing c.file name v none = .ok c.file := by unfold createIfMissing; rw [hv]
    have e : cstep rnd c (.base (.write i name v)) = ((assign rnd c.file i name v).1, { c with file := (assign rnd c.file i name v).2 }) := by
      simp only [cstep, hs, Option.isSome_none, Bool.false_eq_true, if_false, step, hfr, frameSet, if_neg hn.1, hn.2.1, hcr]
    rw [e] at hok ⊢
    have : (assign rnd c.file i name v).2.frames = max c.file.frames (i.toNat + 1) ∧ (assign rnd c.file i name v).2.defined = true := by
      revert hok
      unfold assign
      rw [hv]
      simp only [if_neg (show ¬ i < 0 by omega), hf, if_true]
      split
      · intro h; cases h
      · intro h
        rw [if_pos hf] at h ⊢
        split_ifs at h ⊢
        exact ⟨rfl, hd⟩
    unfold contLen
    simp only [hs, Option.isSome_none, Bool.false_eq_true, if_false, this.2, if_true, this.1]

example (rnd : ℝ → ℝ) : let c := crun rnd (createCont false 0) [.base (.shape [2, 3] none), .base (.write 0 "load" (.real 1))]
    c.saved = none ∧ c.file.defined = true ∧ contLen c = .ok 1 ∧ (∃ var, c.file.vars "load" = some var ∧ var.framed = true) ∧ PublicName "load" ∧
      (cstep rnd c (.base (.write 4 "load" (.real 2)))).1 = .ok () := by
  have h : isPrivate "load" = false := by decide
  have : PublicName "load" := by unfold PublicName; decide
  simp [crun, cstep, createCont, step, setShape, create, isSingle, defineStructure, h, frame, frameSet, createIfMissing, File.add, assign, Value.entries, contLen, this, convert]

end CM.NetCDF
