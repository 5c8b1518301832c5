import Verif.Model.Numbers
import Verif.Spec.Numbers
import Verif.Spec.Logger
import Mathlib.Tactic.IntervalCases
import Mathlib.Tactic.Linarith
import Mathlib.Tactic.Ring
import Mathlib.Tactic.FieldSimp
import Mathlib.Tactic.Positivity
import Mathlib.Algebra.Order.Field.Power
/-!
# Lemmas about numbers as text
-/
namespace CM.Num
open CM.Log

/-! ## Digits -/

lemma digit_cases (n : ℕ) (P : Char → Prop) (h : ∀ m < 10, P (Char.ofNat (48 + m))) : P (digit n) := h _ (Nat.mod_lt n (by norm_num))

lemma digitValue_digit (n : ℕ) : digitValue (digit n) = some (n % 10) := by
  unfold digit
  have h := Nat.mod_lt n (show 0 < 10 by norm_num)
  generalize n % 10 = m at h ⊢
  interval_cases m <;> decide

/-- Characters of digits. -/
def Digits (s : Text) : Prop := ∀ c ∈ s, ∃ n, c = digit n

lemma Digits.append {s t : Text} (hs : Digits s) (ht : Digits t) : Digits (s ++ t) := by
  intro c hc
  rcases List.mem_append.1 hc with h | h
  · exact hs c h
  · exact ht c h

lemma Digits.not_mem {s : Text} (hs : Digits s) {c : Char} (hc : ∀ m < 10, c ≠ Char.ofNat (48 + m)) : c ∉ s := by
  intro h
  obtain ⟨n, rfl⟩ := hs c h
  exact hc _ (Nat.mod_lt n (by norm_num)) rfl

lemma digits_lastDigits (k n : ℕ) : Digits (lastDigits k n) := by
  induction k generalizing n with
  | zero => intro c hc; simp [lastDigits] at hc
  | succ k ih =>
    refine (ih _).append ?_
    intro c hc
    rw [List.mem_singleton] at hc
    exact ⟨n, hc⟩

lemma length_lastDigits (k n : ℕ) : (lastDigits k n).length = k := by
  induction k generalizing n with
  | zero => rfl
  | succ k ih => simp [lastDigits, ih]

lemma digits_natText (n : ℕ) : Digits (natText n) ∧ natText n ≠ [] := by
  induction n using Nat.strong_induction_on with
  | _ n ih =>
    rw [natText]
    have h1 : Digits [digit n] := by
      intro c hc
      rw [List.mem_singleton] at hc
      exact ⟨n, hc⟩
    split_ifs with h
    · exact ⟨h1, by simp⟩
    · exact ⟨(ih (n / 10) (by omega)).1.append h1, by simp⟩

lemma length_natText (n k : ℕ) (h : n < 10 ^ (k + 1)) : (natText n).length ≤ k + 1 := by
  induction k generalizing n with
  | zero =>
    rw [natText, if_pos (by simpa using h)]
    simp
  | succ k ih =>
    rw [natText]
    split_ifs
    · simp
    · have := ih (n / 10) (by rw [pow_succ] at h; omega)
      simp
      omega

lemma digitsFrom_append (a : ℕ) (s t : Text) : digitsFrom a (s ++ t) = (digitsFrom a s).bind fun b => digitsFrom b t := by
  induction s generalizing a with
  | nil => rfl
  | cons c s ih =>
    rw [List.cons_append, digitsFrom, digitsFrom]
    cases digitValue c with
    | none => rfl
    | some d => exact ih _

lemma digitsFrom_digit (a n : ℕ) : digitsFrom a [digit n] = some (10 * a + n % 10) := by
  rw [digitsFrom, digitValue_digit]
  rfl

lemma digitsFrom_lastDigits (a k n : ℕ) : digitsFrom a (lastDigits k n) = some (a * 10 ^ k + n % 10 ^ k) := by
  induction k generalizing n with
  | zero => simp [lastDigits, digitsFrom, Nat.mod_one]
  | succ k ih =>
    rw [lastDigits, digitsFrom_append, ih, Option.bind_some, digitsFrom_digit]
    congr 1
    rw [show (10 : ℕ) ^ (k + 1) = 10 * 10 ^ k by ring, Nat.mod_mul]
    ring

lemma digitsFrom_natText (n : ℕ) : digitsFrom 0 (natText n) = some n := by
  induction n using Nat.strong_induction_on with
  | _ n ih =>
    rw [natText]
    split_ifs with h
    · rw [digitsFrom_digit]
      congr 1
      omega
    · rw [digitsFrom_append, ih (n / 10) (by omega), Option.bind_some, digitsFrom_digit]
      congr 1
      omega

lemma whole_natText (n : ℕ) : whole (natText n) = some n := by
  rw [whole, if_neg (digits_natText n).2, digitsFrom_natText]

/-! ## Parsing -/

lemma signed_minus (s : Text) : signed ('-' :: s) = (whole s).map fun n : ℕ => -(n : ℤ) := rfl

lemma signed_plus (s : Text) : signed ('+' :: s) = (whole s).map fun n : ℕ => (n : ℤ) := rfl

lemma signed_exp (e : ℤ) : signed (expText e).tail = some e := by
  have hw : whole (if e.natAbs < 10 then '0' :: natText e.natAbs else natText e.natAbs) = some e.natAbs := by
    split_ifs
    · rw [whole, if_neg (by simp)]
      have : ('0' : Char) = digit 0 := rfl
      rw [this, digitsFrom, digitValue_digit]
      exact digitsFrom_natText _
    · exact whole_natText _
  unfold expText
  rw [List.tail_cons]
  by_cases he : e < 0
  · rw [if_pos he, signed_minus, hw, Option.map_some]
    congr 1
    omega
  · rw [if_neg he, signed_plus, hw, Option.map_some]
    congr 1
    omega

lemma cut_of (c : Char) (a b : Text) (h : c ∉ a) : cut c (a ++ c :: b) = (a, b) := by
  unfold cut
  have h1 : ∀ x ∈ a, (decide (x ≠ c)) = true := by
    intro x hx
    rw [decide_eq_true_eq]
    rintro rfl
    exact h hx
  rw [List.takeWhile_append_of_pos h1, List.dropWhile_append_of_pos h1]
  simp

lemma number_minus (s : Text) : number ('-' :: s) = (unsignedNumber s).map fun x => -x := rfl

lemma number_digit (n : ℕ) (s : Text) : number (digit n :: s) = unsignedNumber (digit n :: s) := by
  unfold number
  have h : digit n ≠ '-' := digit_cases n (fun c => c ≠ '-') (by decide)
  split
  · rename_i heq
    injection heq with h1
    exact absurd h1 h
  · rfl

lemma unsigned_sci (d p n : ℕ) (e : ℤ) (hd : d < 10) (hn : n = d * 10 ^ p + n % 10 ^ p) :
    unsignedNumber (digit d :: '.' :: lastDigits p n ++ expText e) = some ((n : ℝ) / 10 ^ p * 10 ^ e) := by
  have hE : expText e = 'e' :: (expText e).tail := rfl
  have hA : 'e' ∉ digit d :: '.' :: lastDigits p n := by
    rw [List.mem_cons, List.mem_cons, not_or, not_or]
    refine ⟨?_, by decide, (digits_lastDigits p n).not_mem (by decide)⟩
    exact digit_cases d (fun c => 'e' ≠ c) (by decide)
  have hcut : cut 'e' (digit d :: '.' :: lastDigits p n ++ expText e) = (digit d :: '.' :: lastDigits p n, (expText e).tail) := by
    rw [hE]
    exact cut_of 'e' _ _ hA
  have hdot : cut '.' (digit d :: '.' :: lastDigits p n) = ([digit d], lastDigits p n) := by
    have := cut_of '.' [digit d] (lastDigits p n) (by
      rw [List.mem_singleton]
      exact digit_cases d (fun c => '.' ≠ c) (by decide))
    simpa using this
  have hdec : decimal (digit d :: '.' :: lastDigits p n) = some ((n : ℝ) / 10 ^ p) := by
    unfold decimal
    rw [hdot]
    simp only
    rw [whole, if_neg (by simp), digitsFrom_append, digitsFrom_digit, Option.bind_some, digitsFrom_lastDigits, Option.map_some, length_lastDigits]
    have : (10 * 0 + d % 10) * 10 ^ p + n % 10 ^ p = n := by
      rw [Nat.mod_eq_of_lt hd, mul_zero, zero_add]
      exact hn.symm
    rw [this]
  unfold unsignedNumber
  rw [if_pos (by rw [hE]; simp), hcut]
  simp only
  rw [hdec, signed_exp]

/-! ## Rounding -/

lemma roundEven_near (y : ℝ) (hy : 0 ≤ y) : |(roundEven y : ℝ) - y| ≤ 1 / 2 := by
  have h1 := Nat.floor_le hy
  have h2 := Nat.lt_floor_add_one y
  unfold roundEven
  simp only
  split_ifs with a b c
  · rw [abs_le]; constructor <;> linarith
  · push_cast; rw [abs_le]; constructor <;> linarith
  · rw [abs_le]; constructor <;> linarith
  · push_cast; rw [abs_le]; constructor <;> linarith

lemma roundEven_mono (x y : ℝ) (hx : 0 ≤ x) (hxy : x ≤ y) : roundEven x ≤ roundEven y := by
  by_contra hlt
  push Not at hlt
  have hx' := abs_le.1 (roundEven_near x hx)
  have hy' := abs_le.1 (roundEven_near y (hx.trans hxy))
  have hc : (roundEven y : ℝ) + 1 ≤ roundEven x := by exact_mod_cast hlt
  -- both are exactly in the middle
  have e : x = y := by linarith
  rw [e] at hlt
  exact lt_irrefl _ hlt

lemma roundEven_nat (n : ℕ) : roundEven n = n := by
  unfold roundEven
  simp

/-- The two parts of a number in scientific notation. -/
lemma scientific_spec (p : ℕ) (x : ℝ) (hx : x ≠ 0) :
    10 ^ p ≤ (scientific p x).1 ∧ (scientific p x).1 < 10 ^ (p + 1) ∧ ((scientific p x).1 : ℝ) / 10 ^ p * 10 ^ (scientific p x).2 = (roundEven (|x| * 10 ^ ((p : ℤ) - Int.log 10 |x|)) : ℝ) * 10 ^ (Int.log 10 |x| - p)
      ∧ Int.log 10 |x| ≤ (scientific p x).2 ∧ (scientific p x).2 ≤ Int.log 10 |x| + 1 := by
  have hpos : 0 < |x| := abs_pos.2 hx
  set e := Int.log 10 |x| with he
  have l1 : ((10 : ℕ) : ℝ) ^ e ≤ |x| := Int.zpow_log_le_self (by norm_num) hpos
  have l2 : |x| < ((10 : ℕ) : ℝ) ^ (e + 1) := Int.lt_zpow_succ_log_self (by norm_num) |x|
  push_cast at l1 l2
  have h10 : (0 : ℝ) < 10 := by norm_num
  have m1 : (10 : ℝ) ^ p ≤ |x| * 10 ^ ((p : ℤ) - e) := by
    have := mul_le_mul_of_nonneg_right l1 (zpow_pos h10 ((p : ℤ) - e)).le
    rw [← zpow_add₀ h10.ne'] at this
    simpa using this
  have m2 : |x| * 10 ^ ((p : ℤ) - e) ≤ 10 ^ (p + 1) := by
    have := mul_le_mul_of_nonneg_right l2.le (zpow_pos h10 ((p : ℤ) - e)).le
    rw [← zpow_add₀ h10.ne', show e + 1 + ((p : ℤ) - e) = ((p + 1 : ℕ) : ℤ) by push_cast; ring, zpow_natCast] at this
    exact this
  have r1 : 10 ^ p ≤ roundEven (|x| * 10 ^ ((p : ℤ) - e)) := by
    have := roundEven_mono ((10 ^ p : ℕ) : ℝ) _ (by positivity) (by push_cast; exact m1)
    rwa [roundEven_nat] at this
  have r2 : roundEven (|x| * 10 ^ ((p : ℤ) - e)) ≤ 10 ^ (p + 1) := by
    have := roundEven_mono (|x| * 10 ^ ((p : ℤ) - e)) ((10 ^ (p + 1) : ℕ) : ℝ) (by positivity) (by push_cast; exact m2)
    rwa [roundEven_nat] at this
  have hz : ∀ k : ℤ, (10 : ℝ) ^ (k - p) = 10 ^ k / 10 ^ p := by
    intro k
    rw [zpow_sub₀ h10.ne', zpow_natCast]
  unfold scientific
  rw [if_neg hx]
  simp only
  rw [← he]
  split_ifs with hm
  · refine ⟨le_rfl, by simp only; exact Nat.pow_lt_pow_right (by norm_num) (by omega), ?_, by simp only; omega, le_rfl⟩
    simp only
    rw [hm, hz, zpow_add₀ h10.ne', zpow_one]
    push_cast
    rw [pow_succ]
    field_simp
  · refine ⟨r1, lt_of_le_of_ne r2 hm, ?_, le_rfl, by simp only; omega⟩
    simp only
    rw [hz]
    ring

/-- The printed absolute value. -/
noncomputable def printedAbs (p : ℕ) (x : ℝ) : ℝ := ((scientific p x).1 : ℝ) / 10 ^ p * 10 ^ (scientific p x).2

lemma scientific_zero (p : ℕ) : scientific p 0 = (0, 0) := by unfold scientific; rw [if_pos rfl]

lemma printedAbs_near (p : ℕ) (x : ℝ) : |(printedAbs p x - |x|)| ≤ 1 / 2 * 10 ^ (-(p : ℤ)) * |x| := by
  by_cases hx : x = 0
  · subst hx
    unfold printedAbs
    rw [scientific_zero]
    simp
  · obtain ⟨-, -, h3, -, -⟩ := scientific_spec p x hx
    unfold printedAbs
    rw [h3]
    have hpos : 0 < |x| := abs_pos.2 hx
    set e := Int.log 10 |x| with he
    have l1 : ((10 : ℕ) : ℝ) ^ e ≤ |x| := Int.zpow_log_le_self (by norm_num) hpos
    push_cast at l1
    have h10 : (0 : ℝ) < 10 := by norm_num
    have hr := roundEven_near (|x| * 10 ^ ((p : ℤ) - e)) (by positivity)
    have e1 : |x| = |x| * 10 ^ ((p : ℤ) - e) * 10 ^ (e - (p : ℤ)) := by
      rw [mul_assoc, ← zpow_add₀ h10.ne']
      simp
    have e2 : (roundEven (|x| * 10 ^ ((p : ℤ) - e)) : ℝ) * 10 ^ (e - (p : ℤ)) - |x| = ((roundEven (|x| * 10 ^ ((p : ℤ) - e)) : ℝ) - |x| * 10 ^ ((p : ℤ) - e)) * 10 ^ (e - (p : ℤ)) := by
      rw [sub_mul, ← e1]
    rw [e2, abs_mul, abs_of_pos (zpow_pos h10 (e - (p : ℤ)))]
    calc |(roundEven (|x| * 10 ^ ((p : ℤ) - e)) : ℝ) - |x| * 10 ^ ((p : ℤ) - e)| * 10 ^ (e - (p : ℤ)) ≤ 1 / 2 * 10 ^ (e - (p : ℤ)) := mul_le_mul_of_nonneg_right hr (zpow_pos h10 _).le
      _ = 1 / 2 * 10 ^ (-(p : ℤ)) * 10 ^ e := by rw [show e - (p : ℤ) = -(p : ℤ) + e by ring, zpow_add₀ h10.ne']; ring
      _ ≤ 1 / 2 * 10 ^ (-(p : ℤ)) * |x| := mul_le_mul_of_nonneg_left l1 (by positivity)

lemma number_sciText (p : ℕ) (x : ℝ) : number (sciText p x) = some (if x < 0 then -printedAbs p x else printedAbs p x) := by
  have key : unsignedNumber (digit ((scientific p x).1 / 10 ^ p) :: '.' :: lastDigits p (scientific p x).1 ++ expText (scientific p x).2) = some (printedAbs p x) := by
    by_cases hx : x = 0
    · subst hx
      unfold printedAbs
      rw [scientific_zero]
      exact unsigned_sci _ _ _ _ (by simp) (by simp)
    · obtain ⟨h1, h2, -⟩ := scientific_spec p x hx
      refine unsigned_sci _ _ _ _ ?_ ?_
      · rw [Nat.div_lt_iff_lt_mul (by positivity)]
        rw [pow_succ] at h2
        linarith
      · rw [mul_comm]
        exact (Nat.div_add_mod _ _).symm
  unfold sciText
  split_ifs with h
  · rw [List.cons_append, List.cons_append, List.nil_append]
    rw [number_minus, key]
    rfl
  · rw [List.nil_append]
    rw [List.cons_append, number_digit, ← List.cons_append, key]

lemma number_intText (n : ℤ) : number (intText n) = some (n : ℝ) := by
  have key : ∀ m : ℕ, unsignedNumber (natText m) = some (m : ℝ) := by
    intro m
    have hd := digits_natText m
    have he : 'e' ∉ natText m := hd.1.not_mem (by decide)
    have hp : '.' ∉ natText m := hd.1.not_mem (by decide)
    have hc : cut '.' (natText m) = (natText m, []) := by
      unfold cut
      have h1 : ∀ x ∈ natText m, (decide (x ≠ '.')) = true := by
        intro x hx
        rw [decide_eq_true_eq]
        rintro rfl
        exact hp hx
      have h2 := List.takeWhile_append_of_pos (l₂ := []) h1
      have h3 := List.dropWhile_append_of_pos (l₂ := []) h1
      rw [List.append_nil] at h2 h3
      rw [h2, h3]
      simp
    unfold unsignedNumber
    rw [if_neg he]
    unfold decimal
    rw [hc]
    simp only [List.append_nil]
    rw [whole_natText]
    simp
  unfold intText
  split_ifs with h
  · rw [number_minus, key, Option.map_some]
    have : -((n.natAbs : ℕ) : ℤ) = n := by omega
    congr 1
    rw [← Int.cast_natCast, ← Int.cast_neg, this]
  · obtain ⟨c, s, hs⟩ := List.exists_cons_of_ne_nil (digits_natText n.natAbs).2
    obtain ⟨d, hd⟩ := (digits_natText n.natAbs).1 c (by rw [hs]; simp)
    rw [hs, hd, number_digit, ← hd, ← hs, key]
    have : ((n.natAbs : ℕ) : ℤ) = n := by omega
    congr 1
    rw [← Int.cast_natCast, this]

end CM.Num
