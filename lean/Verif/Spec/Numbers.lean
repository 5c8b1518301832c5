import Verif.Model.Logger
import Mathlib.Algebra.Order.Archimedean.Real.Basic
/-!
# Specification: what a numeral means

Decimal notation as everyone reads it; nothing here refers to how numbers are printed.
-/
namespace CM.Num
open CM.Log

/-- Value of a digit. -/
def digitValue (c : Char) : Option ℕ := if '0'.toNat ≤ c.toNat ∧ c.toNat ≤ '9'.toNat then some (c.toNat - '0'.toNat) else none

/-- Value of a sequence of digits, from the left, continuing a number. -/
def digitsFrom (acc : ℕ) : Text → Option ℕ
  | [] => some acc
  | c :: s => match digitValue c with
    | none => none
    | some d => digitsFrom (10 * acc + d) s

/-- An unsigned whole number: at least one digit. -/
def whole (s : Text) : Option ℕ := if s = [] then none else digitsFrom 0 s

/-- A whole number that may have a sign. -/
def signed : Text → Option ℤ
  | '-' :: s => (whole s).map fun n : ℕ => -(n : ℤ)
  | '+' :: s => (whole s).map fun n : ℕ => (n : ℤ)
  | s => (whole s).map fun n : ℕ => (n : ℤ)

/-- What stands before and after the first `c`. -/
def cut (c : Char) (s : Text) : Text × Text := (s.takeWhile (· ≠ c), (s.dropWhile (· ≠ c)).tail)

/-- Unsigned decimal fraction `i.f`: the digits of `i` and `f` together, over ten to the number of digits of `f`. -/
noncomputable def decimal (s : Text) : Option ℝ := (whole ((cut '.' s).1 ++ (cut '.' s).2)).map fun n : ℕ => (n : ℝ) / 10 ^ (cut '.' s).2.length

/-- Unsigned number in scientific notation `d e k`; without `e` the exponent is zero. -/
noncomputable def unsignedNumber (s : Text) : Option ℝ :=
  if 'e' ∈ s then
    match decimal (cut 'e' s).1, signed (cut 'e' s).2 with
    | some d, some k => some (d * 10 ^ k)
    | _, _ => none
  else decimal s

/-- The number a text denotes, if any. -/
noncomputable def number : Text → Option ℝ
  | '-' :: s => (unsignedNumber s).map fun x => -x
  | s => unsignedNumber s

/-- `y` is `x` up to a relative error `ε`. -/
def Near (ε x y : ℝ) : Prop := |y - x| ≤ ε * |x|

end CM.Num
