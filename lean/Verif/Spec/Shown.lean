import Mathlib.Algebra.Order.Ring.Rat
import Mathlib.Algebra.Order.Field.Basic

/-!
# Reading numbers in a text

The number a reader finds in a text with two decimals: its digits count hundredths, a dash makes it negative.
-/

namespace Flix

def readNumber (t : String) : ℚ := (if '-' ∈ t.toList then -1 else 1) * ((Nat.ofDigitChars 10 (t.toList.filter Char.isDigit) 0 : Nat) : ℚ) / 100

/-- The text shows the number, rounded to hundredths, and is at least ten characters wide. -/
def ShowsNumber (t : String) (x : ℚ) : Prop := |readNumber t - x| ≤ 1 / 200 ∧ 10 ≤ t.toList.length

/-- A text of spaces. -/
def Blank (t : String) : Prop := ∀ c ∈ t.toList, c = ' '

end Flix
