import Verif.Lemmas.NetCDF
import Mathlib.Data.List.Induction
import Mathlib.Data.List.Range
import Mathlib.Data.List.Chain
/-!
# Lemmas on the frame database: values, ranges, digits
-/
namespace CM.NetCDF

lemma inside_iff (dims : List ℕ) : ∀ idx, inside dims idx = true ↔ Inside dims idx := by
  induction dims with
  | nil =>
    intro idx
    cases idx with
    | nil => simp [inside, Inside]
    | cons i is => simp [inside, Inside]
  | cons d ds ih =>
    intro idx
    cases idx with
    | nil => simp [inside, Inside]
    | cons i is =>
      simp only [inside, Bool.and_eq_true, decide_eq_true_eq, ih is]
      constructor
      · rintro ⟨h1, h2, h3⟩
        refine ⟨by simp [h2], fun k h h' => ?_⟩
        cases k with
        | zero => simpa using h1
        | succ k => simpa using h3 k (by simpa using h) (by simpa using h')
      · rintro ⟨h2, h3⟩
        refine ⟨h3 0 (by simp) (by simp), by simpa using h2, fun k h h' => ?_⟩
        exact h3 (k + 1) (by simpa using h) (by simpa using h')

lemma truncate_keeps (x : ℝ) : |((truncate x : ℤ) : ℝ)| ≤ |x| ∧ |x - (truncate x : ℤ)| < 1 ∧ 0 ≤ x * (truncate x : ℤ) := by
  unfold truncate
  split_ifs with h
  · have h1 := Int.floor_le x
    have h2 := Int.lt_floor_add_one x
    have h3 : (0 : ℝ) ≤ (⌊x⌋ : ℤ) := by exact_mod_cast Int.floor_nonneg.2 h
    rw [abs_of_nonneg h3, abs_of_nonneg h, abs_of_nonneg (by linarith)]
    exact ⟨h1, by linarith, mul_nonneg h h3⟩
  · have h1 := Int.le_ceil x
    have h2 := Int.ceil_lt_add_one x
    push Not at h
    have h3 : ((⌈x⌉ : ℤ) : ℝ) ≤ 0 := by exact_mod_cast Int.ceil_le.2 (by simpa using h.le)
    rw [abs_of_nonpos h3, abs_of_neg h, abs_of_nonpos (by linarith)]
    exact ⟨by linarith, by linarith, mul_nonneg_of_nonpos_of_nonpos h.le h3⟩

lemma convert_keeps (rnd : ℝ → ℝ) (k : Kind) (x y : ℝ) (h : convert rnd k x = .ok y) : Keeps rnd k x y := by
  cases k with
  | i4 =>
    simp only [convert] at h
    split_ifs at h
    injection h with h
    rw [← h]
    exact ⟨⟨_, rfl⟩, truncate_keeps x⟩
  | f4 => injection h with h; exact h.symm
  | f8 => injection h with h; exact h.symm

lemma entries_fits (v : Value) (dims : List ℕ) (g : List ℕ → ℝ) (h : v.entries dims = some g) : v.Fits dims ∧ ∀ idx, inside dims idx = true → g idx = v.reads idx := by
  cases v with
  | int n => injection h with h; rw [← h]; exact ⟨trivial, fun _ _ => rfl⟩
  | real x => injection h with h; rw [← h]; exact ⟨trivial, fun _ _ => rfl⟩
  | other => cases h
  | arr s f =>
    cases s with
    | cons n s =>
      simp only [Value.entries] at h
      split_ifs at h with h1 h2
      · injection h with h
        rw [← h]
        exact ⟨h1.symm, fun _ _ => rfl⟩
      · cases h2
    | nil =>
      refine ⟨trivial, fun idx hi => ?_⟩
      simp only [Value.entries, if_true] at h
      split_ifs at h with h1
      · injection h with h
        rw [← h1] at hi
        cases idx with
        | nil => rw [← h]; rfl
        | cons i is => cases hi
      · injection h with h
        rw [← h]
        rfl

/-- When a write succeeds. -/
lemma assign_succeeds (rnd : ℝ → ℝ) (C : File) (i : ℤ) (n : String) (v : Value) (var : Var) (g : List ℕ → ℝ) (hv : C.vars n = some var) (hf : var.framed = true) (hi : 0 ≤ i)
    (he : v.entries var.dims = some g) (hc : ∀ idx, inside var.dims idx = true → ∃ x, convert rnd var.kind (g idx) = .ok x) : (assign rnd C i n v).1 = .ok () := by
  unfold assign
  rw [hv]
  have hd : (if var.framed = true then var.dims else var.dims.tail) = var.dims := if_pos hf
  simp only
  generalize (if var.framed = true then var.dims else var.dims.tail) = dims at hd ⊢
  subst hd
  rw [if_neg (by omega), he]
  simp only [hf, if_true]
  rw [if_neg]
  rintro ⟨idx, h1, e, h2⟩
  obtain ⟨x, h3⟩ := hc idx h1
  rw [h2] at h3
  cases h3

/-- The first number written to a variable. -/
lemma first_scalar (rnd : ℝ → ℝ) (C : File) (i : ℤ) (n : String) (v : Value) (hn : PlainName n) (hi : 0 ≤ i)
    (k : Kind) (hc : createIfMissing C n v none = .ok (C.add n k true [])) (r : ℝ) (he : v.entries [] = some fun _ => r)
    (x : ℝ) (hx : convert rnd k r = .ok x) :
    (step rnd C (.write i n v)).1 = .ok () ∧ (step rnd C (.write i n v)).2.kindOf n = some k ∧ (step rnd C (.write i n v)).2.dimsOf n = some [] := by
  have hF : frame C i = .ok ⟨i, fun _ => none⟩ := if_neg (by omega)
  have hadd : (C.add n k true []).vars n = some ⟨k, true, [], fun _ _ => none⟩ := by simp [File.add]
  have hs : step rnd C (.write i n v) = assign rnd (C.add n k true []) i n v := by
    simp only [step, hF, frameSet]
    rw [if_neg hn.1, if_neg (by rw [hn.2.1]; simp), hc]
  rw [hs]
  obtain ⟨e1, _⟩ := assign_ext rnd (C.add n k true []) i n v (if i = 0 then 1 else 0) n (by
        rintro ⟨_, h⟩
        split_ifs at h with h' <;> omega)
  obtain ⟨var, a1, a2, _, a4⟩ := e1.vars n _ hadd
  refine ⟨assign_succeeds rnd _ i n v _ _ hadd rfl hi he fun idx _ => ⟨x, hx⟩, ?_, ?_⟩
  · simp only [File.kindOf, a1, Option.map_some, a2]
  · simp only [File.dimsOf, a1, Option.map_some, a4]

/-! ## Ranges -/

lemma mem_pyRange_pos (a b c : ℤ) (hc : 0 < c) (k : ℤ) : k ∈ pyRange a b c ↔ a ≤ k ∧ k < b ∧ c ∣ k - a := by
  unfold pyRange
  simp only [hc, if_true, List.mem_map, List.mem_range]
  constructor
  · rintro ⟨m, hm, rfl⟩
    split_ifs at hm with h
    · have h0 : 0 ≤ (b - a - 1) / c := Int.ediv_nonneg (by omega) hc.le
      have h1 : (m : ℤ) ≤ (b - a - 1) / c := by omega
      have h2 : (m : ℤ) * c ≤ b - a - 1 := (Int.le_ediv_iff_mul_le hc).1 h1
      refine ⟨?_, ?_, ⟨m, by ring⟩⟩
      · have : 0 ≤ c * (m : ℤ) := mul_nonneg hc.le (by omega)
        omega
      · linarith [mul_comm c (m : ℤ)]
    · omega
  · rintro ⟨h1, h2, m, hm⟩
    have hab : a < b := by omega
    have hm0 : 0 ≤ m := by
      by_contra h
      push Not at h
      have : c * m < 0 := mul_neg_of_pos_of_neg hc h
      omega
    refine ⟨m.toNat, ?_, by rw [Int.toNat_of_nonneg hm0]; omega⟩
    rw [if_pos hab]
    have h3 : m ≤ (b - a - 1) / c := (Int.le_ediv_iff_mul_le hc).2 (by rw [mul_comm]; omega)
    omega

lemma mem_pyRange_neg (a b c : ℤ) (hc : c < 0) (k : ℤ) : k ∈ pyRange a b c ↔ b < k ∧ k ≤ a ∧ c ∣ k - a := by
  unfold pyRange
  have hc' : ¬ 0 < c := by omega
  simp only [hc', if_false, List.mem_map, List.mem_range]
  constructor
  · rintro ⟨m, hm, rfl⟩
    split_ifs at hm with h
    · have h0 : 0 ≤ (a - b - 1) / (-c) := Int.ediv_nonneg (by omega) (by omega)
      have h1 : (m : ℤ) ≤ (a - b - 1) / (-c) := by omega
      have h2 : (m : ℤ) * (-c) ≤ a - b - 1 := (Int.le_ediv_iff_mul_le (by omega)).1 h1
      refine ⟨?_, ?_, ⟨m, by ring⟩⟩
      · linarith [mul_comm c (m : ℤ)]
      · have : c * (m : ℤ) ≤ 0 := mul_nonpos_of_nonpos_of_nonneg hc.le (by omega)
        omega
    · omega
  · rintro ⟨h1, h2, m, hm⟩
    have hab : b < a := by omega
    have hm0 : 0 ≤ m := by
      by_contra h
      push Not at h
      have : 0 < c * m := mul_pos_of_neg_of_neg hc h
      omega
    refine ⟨m.toNat, ?_, by rw [Int.toNat_of_nonneg hm0]; omega⟩
    rw [if_pos hab]
    have h3 : m ≤ (a - b - 1) / (-c) := (Int.le_ediv_iff_mul_le (by omega)).2 (by linarith [mul_comm c m])
    omega

lemma pyRange_sorted_pos (a b c : ℤ) (hc : 0 < c) : (pyRange a b c).Pairwise (· < ·) := by
  unfold pyRange
  refine List.Pairwise.map _ (fun x y h => ?_) List.pairwise_lt_range
  have : c * (x : ℤ) < c * (y : ℤ) := mul_lt_mul_of_pos_left (by exact_mod_cast h) hc
  omega

lemma pyRange_sorted_neg (a b c : ℤ) (hc : c < 0) : (pyRange a b c).Pairwise (· > ·) := by
  unfold pyRange
  refine List.Pairwise.map _ (fun x y h => ?_) List.pairwise_lt_range
  have : c * (y : ℤ) < c * (x : ℤ) := mul_lt_mul_of_neg_left (by exact_mod_cast h) hc
  change a + c * (y : ℤ) < a + c * (x : ℤ)
  omega

lemma mapM_frame (C : File) (l : List ℤ) (h : ∀ k ∈ l, 0 ≤ k) : l.mapM (frame C) = .ok (l.map fun k => ⟨k, fun _ => none⟩) := by
  induction l with
  | nil => rfl
  | cons k l ih =>
    have hk : frame C k = .ok ⟨k, fun _ => none⟩ := if_neg (not_lt.2 (h k (by simp)))
    rw [List.mapM_cons, hk, ih fun m hm => h m (by simp [hm])]
    rfl

/-! ## Digits -/

lemma digit_char (d : Fin 10) : digit? (Char.ofNat (48 + d)) = some (d : ℕ) := by
  revert d
  decide

lemma digit_ne (d : Fin 10) : Char.ofNat (48 + d) ≠ '_' ∧ Char.ofNat (48 + d) ≠ '-' ∧ Char.ofNat (48 + d) ≠ '+' ∧ (Char.ofNat (48 + d)).isWhitespace = false ∧ Char.ofNat (48 + d) ≠ '@' := by
  revert d
  decide

lemma digitsFrom_cons (acc : ℕ) (c : Char) (r : List Char) (hc : c ≠ '_') : digitsFrom acc (c :: r) = (digit? c).bind fun d => digitsFrom (10 * acc + d) r := by
  rw [digitsFrom]
  rintro c' r' h _
  exact hc h

lemma digitsFrom_text (l : List (Fin 10)) : ∀ acc : ℕ, digitsFrom acc (digitText l) = some (l.foldl (fun (a : ℕ) (d : Fin 10) => 10 * a + d.val) acc) := by
  induction l with
  | nil => intro acc; rfl
  | cons d l ih =>
    intro acc
    have h := ih (10 * acc + d)
    simp only [digitText, List.map_cons, List.foldl_cons] at h ⊢
    rw [digitsFrom_cons _ _ _ (digit_ne d).1, digit_char]
    exact h

lemma pyNat_text (l : List (Fin 10)) (hl : l ≠ []) : pyNat (digitText l) = some (decimal l) := by
  cases l with
  | nil => exact absurd rfl hl
  | cons d l =>
    have h := digitsFrom_text l d
    simp only [digitText, List.map_cons, pyNat, decimal, List.foldl_cons] at h ⊢
    rw [digit_char]
    simpa using h

/-- Text without blanks at the ends is not changed by `strip`. -/
lemma strip_eq (c : Char) (l : List Char) (h : c.isWhitespace = false) (h' : ∀ x ∈ l, x.isWhitespace = false) : strip (c :: l) = c :: l := by
  unfold strip
  have h1 : (c :: l).dropWhile Char.isWhitespace = c :: l := by simp [List.dropWhile, h]
  rw [h1]
  have h2 : ∀ m : List Char, (∀ x ∈ m, x.isWhitespace = false) → m.dropWhile Char.isWhitespace = m := by
    intro m hm
    cases m with
    | nil => rfl
    | cons a m => simp [List.dropWhile, hm a (by simp)]
  rw [h2 _ (by
    intro x hx
    rw [List.mem_reverse] at hx
    rcases List.mem_cons.1 hx with rfl | hx
    · exact h
    · exact h' x hx), List.reverse_reverse]

lemma digitText_blank (l : List (Fin 10)) : ∀ x ∈ digitText l, x.isWhitespace = false := by
  intro x hx
  obtain ⟨d, _, rfl⟩ := List.mem_map.1 hx
  exact (digit_ne d).2.2.2.1

lemma pyInt_text (l : List (Fin 10)) (hl : l ≠ []) : pyInt (digitText l) = some (decimal l : ℤ) := by
  have h := pyNat_text l hl
  cases l with
  | nil => exact absurd rfl hl
  | cons d l =>
    unfold pyInt
    have hs : strip (digitText (d :: l)) = digitText (d :: l) := strip_eq _ _ (digit_ne d).2.2.2.1 (digitText_blank l)
    rw [hs]
    split
    · rename_i r hr
      exact absurd (List.cons.inj hr).1 (digit_ne d).2.1
    · rename_i r hr
      exact absurd (List.cons.inj hr).1 (digit_ne d).2.2.1
    · rw [h]; rfl

lemma pyInt_neg_text (l : List (Fin 10)) (hl : l ≠ []) : pyInt ('-' :: digitText l) = some (-(decimal l : ℤ)) := by
  unfold pyInt
  rw [strip_eq '-' (digitText l) (by decide) (digitText_blank l)]
  simp only
  rw [pyNat_text l hl]
  rfl

end CM.NetCDF
