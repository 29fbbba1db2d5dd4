import Verif.Model.Num
import Mathlib.Data.List.Sort
import Mathlib.Data.List.Dedup

/-!
# Model of the data of heat maps (plotting.py:524-606)

Times are minutes since 1970-01-01 00:00 (pandas timestamps without a time zone; earlier times and fractions of minutes are left out), `NaN` is
`none`.  All fields of the formats have a fixed width, so a label is the list of its fields and pandas' order of the texts is the order of the lists.
-/

namespace Flix

/-! ## The calendar of pandas -/

/-- Leap years of the Gregorian calendar, which `strftime` uses (plotting.py:596-597). -/
def leapYear (y : Nat) : Bool := y % 4 == 0 && (y % 100 != 0 || y % 400 == 0)

/-- Days of a year (plotting.py:596-597). -/
def yearDays (y : Nat) : Nat := if leapYear y then 366 else 365

/-- Days of the months of a year (plotting.py:596-597). -/
def monthDays (y : Nat) : List Nat := [31, if leapYear y then 29 else 28, 31, 30, 31, 30, 31, 31, 30, 31, 30, 31]

/-- The year that holds day `k`, counted from the beginning of year `y`, and the day in it counted from 0 (plotting.py:596-597). -/
def yearFrom : Nat → Nat → Nat → Nat × Nat
  | 0, y, k => (y, k)
  | f + 1, y, k => if k < yearDays y then (y, k) else yearFrom f (y + 1) (k - yearDays y)

/-- The month that holds day `j` of a year, counted from the beginning of month `m`, and the day in it, both counted from 1
(plotting.py:596-597). -/
def monthFrom : List Nat → Nat → Nat → Nat × Nat
  | [], m, j => (m, j + 1)
  | l :: ls, m, j => if j < l then (m, j + 1) else monthFrom ls (m + 1) (j - l)

/-- Year and day of the year of a day since 1970-01-01 (plotting.py:596-597). -/
def yearOf (k : Nat) : Nat × Nat := yearFrom (k + 1) 1970 k

/-- Month and day of the month of a day since 1970-01-01 (plotting.py:596-597). -/
def monthOf (k : Nat) : Nat × Nat := monthFrom (monthDays (yearOf k).1) 1 (yearOf k).2

/-- The day of the week, Sunday is 0; 1970-01-01 was a Thursday (plotting.py:596-597). -/
def weekday (k : Nat) : Nat := (k + 4) % 7

/-- `%W`: the number of the week, the first Monday of a year begins week 1 (plotting.py:596-597). -/
def weekOf (k : Nat) : Nat := ((yearOf k).2 + 7 - (weekday k + 6) % 7) / 7

/-- The directives in the formats (plotting.py:559-571).  `%w_%A` is one of them, the name of the day adds nothing to its number. -/
inductive Code
  | Y | m | d | j | H | M | W | w
  deriving DecidableEq, Repr

/-- One directive of `strftime` (plotting.py:596-601); Sunday is shifted from 0 to 7 in the formats that have `%w_%A`. -/
def Code.at (t : Nat) : Code → Nat
  | .Y => (yearOf (t / 1440)).1
  | .m => (monthOf (t / 1440)).1
  | .d => (monthOf (t / 1440)).2
  | .j => (yearOf (t / 1440)).2 + 1
  | .H => t / 60 % 24
  | .M => t % 60
  | .W => weekOf (t / 1440)
  | .w => if weekday (t / 1440) = 0 then 7 else weekday (t / 1440)

/-! ## `heat_map_data_from_df` -/

/-- The argument `periods` (plotting.py:526). -/
inductive MapPeriod
  | YS | MS | W | D | h | quarter | min
  deriving DecidableEq, Repr

/-- The argument `steps_per_period` (plotting.py:527). -/
inductive MapStep
  | W | D | h | quarter | min
  deriving DecidableEq, Repr

/-- The table `formats` (plotting.py:559-571). -/
def mapFormats : MapPeriod → MapStep → Option (List Code × List Code)
  | .YS, .W => some ([.Y], [.W])
  | .YS, .D => some ([.Y], [.j])
  | .YS, .h => some ([.Y], [.j, .H])
  | .MS, .D => some ([.Y, .m], [.d])
  | .MS, .h => some ([.Y, .m], [.d, .H])
  | .W, .D => some ([.Y, .W], [.w])
  | .W, .h => some ([.Y, .W], [.w, .H])
  | .D, .h => some ([.Y, .m, .d], [.H])
  | .D, .quarter => some ([.Y, .m, .d], [.H, .M])
  | .h, .quarter => some ([.Y, .m, .d, .H], [.M])
  | .h, .min => some ([.Y, .m, .d, .H], [.M])
  | _, _ => none

/-- The number of the slot of a time (plotting.py:589): weeks end with Sunday. -/
def MapStep.slot : MapStep → Nat → Nat
  | .W, t => (t / 1440 + 3) / 7
  | .D, t => t / 1440
  | .h, t => t / 60
  | .quarter, t => t / 15
  | .min, t => t

/-- The time by which `resample` names a slot (plotting.py:589): the Sunday of a week, the beginning of all others. -/
def MapStep.time : MapStep → Nat → Nat
  | .W, i => (7 * i + 3) * 1440
  | .D, i => i * 1440
  | .h, i => i * 60
  | .quarter, i => i * 15
  | .min, i => i

/-- A row of the frame: the time and the values of the columns (plotting.py:524-529). -/
structure MapRow where
  time : Nat
  values : List ℚ

/-- `.mean()` of the first column over a slot (plotting.py:589, 604), `NaN` if there is no value. -/
def slotMean (st : MapStep) (df : List MapRow) (i : Nat) : Option ℚ :=
  match (df.filter fun r => st.slot r.time = i).map fun r => r.values.headD 0 with
  | [] => none
  | x :: xs => some ((x :: xs).sum / ((x :: xs).length : ℚ))

/-- The slots from that of the first to that of the last time (plotting.py:589). -/
def slots (st : MapStep) (df : List MapRow) : List Nat :=
  match df.map fun r => st.slot r.time with
  | [] => []
  | i :: is => List.range' (is.foldl Nat.min i) (is.foldl Nat.max i + 1 - is.foldl Nat.min i)

/-- `ffill` (plotting.py:591-592). -/
def ffill : Option ℚ → List (Option ℚ) → List (Option ℚ)
  | _, [] => []
  | last, none :: xs => last :: ffill last xs
  | _, some x :: xs => some x :: ffill (some x) xs

/-- The argument `fill` (plotting.py:528). -/
inductive MapFill
  | none | ffill | bfill
  deriving DecidableEq, Repr

/-- The filling of gaps (plotting.py:591-594). -/
def MapFill.apply : MapFill → List (Option ℚ) → List (Option ℚ)
  | .none, xs => xs
  | .ffill, xs => Flix.ffill Option.none xs
  | .bfill, xs => (Flix.ffill Option.none xs.reverse).reverse

/-- The order of labels (plotting.py:604). -/
def labelLe : List Nat → List Nat → Bool
  | [], _ => true
  | _ :: _, [] => false
  | a :: as, b :: bs => a < b || (a == b && labelLe as bs)

/-- The sorted labels of one side of the table (plotting.py:604): `pivot` sorts and drops repetitions. -/
def mapLabels (ls : List (List Nat)) : List (List Nat) := (ls.dedup).insertionSort (fun a b => labelLe a b = true)

/-- The table for the plot: labels of rows and columns, and the values by row (plotting.py:604). -/
structure HeatMap where
  rows : List (List Nat)
  cols : List (List Nat)
  cells : List (List (Option ℚ))
  deriving DecidableEq, Repr

/-- One line of the resampled frame: period, step and value (plotting.py:596-601). -/
abbrev MapEntry := List Nat × List Nat × Option ℚ

/-- `pivot` (plotting.py:604): `ValueError` if a cell would have two values; cells without a value are `NaN`. -/
def pivot (es : List MapEntry) : Except Err HeatMap :=
  if (es.map fun e => (e.1, e.2.1)).Nodup then
    .ok ⟨mapLabels (es.map (·.2.1)), mapLabels (es.map (·.1)),
      (mapLabels (es.map (·.2.1))).map fun r => (mapLabels (es.map (·.1))).map fun c =>
        ((es.find? fun e => e.1 = c ∧ e.2.1 = r).map (·.2.2)).getD none⟩
  else .error .value

/-- The lines of the resampled frame with their labels (plotting.py:587-601). -/
def mapEntries (df : List MapRow) (st : MapStep) (fill : MapFill) (f : List Code × List Code) : List MapEntry :=
  List.zipWith (fun i x => (f.1.map (Code.at (st.time i)), f.2.map (Code.at (st.time i)), x)) (slots st df)
    (fill.apply ((slots st df).map (slotMean st df)))

/-- `heat_map_data_from_df` (plotting.py:524-606).  Simplifications: the warning about means is left out, every row has the same number
of values. -/
def heatMapData (df : List MapRow) (p : MapPeriod) (st : MapStep) (fill : MapFill) : Except Err HeatMap :=
  match mapFormats p st with
  | none => .error .assertion
  | some f => pivot (mapEntries df st fill f)

end Flix
