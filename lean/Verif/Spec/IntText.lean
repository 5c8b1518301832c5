import Verif.Spec.NetCDF
/-!
# Specification: whole numbers as Python reads them
-/
namespace CM.Spec
open CM.NetCDF

/-- Texts of digits; single underscores may stand between digits. -/
inductive Digits : List Char → List (Fin 10) → Prop where
  | one (d : Fin 10) : Digits [Char.ofNat (48 + d.val)] [d]
  | next (d : Fin 10) {t : List Char} {l : List (Fin 10)} : Digits t l → Digits (Char.ofNat (48 + d.val) :: t) (d :: l)
  | under (d : Fin 10) {t : List Char} {l : List (Fin 10)} : Digits t l → Digits (Char.ofNat (48 + d.val) :: '_' :: t) (d :: l)

/-- The text denotes the whole number `n`: digits, possibly behind a sign, possibly between blanks.  Restricted to ASCII text without the characters 11, 12 and 28-31 (which Python strips as well). -/
def WholeText (text : List Char) (n : ℤ) : Prop :=
  ∃ before core behind l, text = before ++ core ++ behind ∧ (∀ c ∈ before ++ behind, c.isWhitespace = true) ∧
    ((Digits core l ∧ n = decimal l) ∨ (∃ t, core = '+' :: t ∧ Digits t l ∧ n = decimal l) ∨ ∃ t, core = '-' :: t ∧ Digits t l ∧ n = -(decimal l : ℤ))

end CM.Spec
