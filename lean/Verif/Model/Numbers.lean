import Verif.Model.Logger
import Mathlib.Algebra.Order.Archimedean.Real.Basic
import Mathlib.Data.Int.Log
/-!
# Numbers as text

The texts that Python makes of numbers: `'{:>8}'.format(n)`, `'{:>20.12e}'.format(x)` (`Tools/Logger.py:55-88`) and NumPy's `'%.18e'` of `np.savetxt`
(`CommandLineInterface/HardWall.py:196-228`).

Simplifications: floating point numbers are real numbers (no `inf`, `nan`, `-0.0`); Python converts the exact value and rounds it to the nearest decimal number, ties to even.
-/
namespace CM.Num
open CM.Log

/-- One decimal digit. -/
def digit (n : ℕ) : Char := Char.ofNat (48 + n % 10)

/-- The last `k` decimal digits of `n`. -/
def lastDigits : ℕ → ℕ → Text
  | 0, _ => []
  | k + 1, n => lastDigits k (n / 10) ++ [digit n]

/-- `str(n)`. -/
def natText (n : ℕ) : Text := if n < 10 then [digit n] else natText (n / 10) ++ [digit n]
termination_by n
decreasing_by omega

/-- `'{}'.format(n)` of an integer. -/
def intText (n : ℤ) : Text := if n < 0 then '-' :: natText n.natAbs else natText n.natAbs

/-- Nearest integer, ties to even. -/
noncomputable def roundEven (y : ℝ) : ℕ :=
  let n := ⌊y⌋₊
  if y - n < 1 / 2 then n else if 1 / 2 < y - n then n + 1 else if n % 2 = 0 then n else n + 1

/-- Digits and exponent of the format `'{:.pe}'`: `p + 1` significant digits; a carry over the first digit increases the exponent. -/
noncomputable def scientific (p : ℕ) (x : ℝ) : ℕ × ℤ :=
  if x = 0 then (0, 0)
  else
    let e := Int.log 10 |x|
    let m := roundEven (|x| * 10 ^ ((p : ℤ) - e))
    if m = 10 ^ (p + 1) then (10 ^ p, e + 1) else (m, e)

/-- Exponent: sign and at least two digits. -/
def expText (e : ℤ) : Text := 'e' :: (if e < 0 then '-' else '+') :: (if e.natAbs < 10 then '0' :: natText e.natAbs else natText e.natAbs)

/-- `'{:.pe}'.format(x)` for `p > 0`, also `'%.pe' % x`. -/
noncomputable def sciText (p : ℕ) (x : ℝ) : Text :=
  (if x < 0 then ['-'] else []) ++ digit ((scientific p x).1 / 10 ^ p) :: '.' :: lastDigits p (scientific p x).1 ++ expText (scientific p x).2

/-- A number or string that is logged. -/
inductive Item where
  /-- `int` (also `bool`, which is formatted as 0 or 1) -/
  | int (n : ℤ)
  /-- other numbers, also those of NumPy -/
  | real (x : ℝ)
  | str (s : Text)

/-- `hdrfmt_str` and `numfmt_str` (`Logger.py:55-70`, `73-88`) with the text of the value. -/
noncomputable def Item.val : Item → Val
  | .int n => .leaf 8 (intText n)
  | .real x => .leaf 20 (sciText 12 x)
  | .str s => .leaf 20 s

end CM.Num
