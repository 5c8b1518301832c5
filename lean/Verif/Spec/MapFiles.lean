import Verif.Spec.Numbers
/-!
# Specification: reading a table of numbers

What `np.loadtxt` and every other reader of such files does: `#` begins a comment, lines without words are skipped, the words of the others are numbers.
-/
namespace CM.MapFile
open CM.Log CM.Num

/-- The texts in the table. -/
def table (lines : List Text) : List (List Text) := (lines.map fun l => splitWords [] (l.takeWhile (· ≠ '#'))).filter (· ≠ [])

/-- The text stands for a number near `x`. -/
def Shows (ε : ℝ) (t : Text) (x : ℝ) : Prop := ∃ y, number t = some y ∧ Near ε x y

/-- Floating point numbers in the IEEE format with 53 binary digits (without a limit for the exponent). -/
def Double (x : ℝ) : Prop := ∃ (k j : ℤ), |k| < 2 ^ 53 ∧ x = k * 2 ^ j

/-- The value of the datum `name` in a header: some line reads `# name = number`. -/
def Datum (lines : List Text) (name : Text) (y : ℝ) : Prop := ∃ t, ['#', ' '] ++ name ++ [' ', '=', ' '] ++ t ∈ lines ∧ number t = some y

end CM.MapFile
