import Mathlib.Data.Rat.Defs
import Mathlib.Algebra.BigOperators.Group.Finset.Basic
import Mathlib.Data.Finset.Range

/-!
# The Gregorian calendar and the order of times, for heat maps
-/

namespace Flix

/-- Days of year `y`: every fourth year is a leap year, but of the full centuries only every fourth. -/
def DaysOfYear (y n : Nat) : Prop := (4 ∣ y ∧ (100 ∣ y → 400 ∣ y) → n = 366) ∧ (¬ (4 ∣ y ∧ (100 ∣ y → 400 ∣ y)) → n = 365)

/-- Days of month `m` of year `y`: February has 28 or 29, April, June, September and November have 30, all others 31. -/
def DaysOfMonth (y m n : Nat) : Prop :=
  (m = 2 → DaysOfYear y (n + 337)) ∧ (m ∈ [4, 6, 9, 11] → n = 30) ∧ (m ∈ [1, 3, 5, 7, 8, 10, 12] → n = 31)

/-- `Day k y m d`: day `k` since 1970-01-01 is the `d`-th day of month `m` of year `y`. -/
inductive Day : Nat → Nat → Nat → Nat → Prop
  | first : Day 0 1970 1 1
  | day {k y m d n : Nat} (h : Day k y m d) (hn : DaysOfMonth y m n) (hd : d < n) : Day (k + 1) y m (d + 1)
  | month {k y m d : Nat} (h : Day k y m d) (hn : DaysOfMonth y m d) (hm : m < 12) : Day (k + 1) y (m + 1) 1
  | year {k y : Nat} (h : Day k y 12 31) : Day (k + 1) (y + 1) 1 1

/-- `a` comes before `b`: at the first place where they differ it has the smaller number. -/
def Precedes : List Nat → List Nat → Prop
  | a :: as, b :: bs => a < b ∨ (a = b ∧ Precedes as bs)
  | _, _ => False

end Flix
