import Verif.Model.MainResults

/-!
# What `SystemModel.solve` writes to the log (structure.py:66-119) and `apply_formating` (utils.py:68-83)
-/

namespace Flix

/-- `n` times a character, e.g. the filling of `f'{key:<30}'` (utils.py:82) or of `f'{"":-^80}'` (structure.py:96). -/
def repeated (c : Char) (n : Nat) : String := String.ofList (List.replicate n c)

/-- The format `<w` of a text (utils.py:70, 82; structure.py:88-95): filled up with spaces on the right. -/
def padRight (w : Nat) (t : String) : String := t ++ repeated ' ' (w - t.toList.length)

/-- The format `>w` of a text (utils.py:71, 82): filled up with spaces on the left. -/
def padLeft (w : Nat) (t : String) : String := repeated ' ' (w - t.toList.length) ++ t

/-- The format `.2f` of a number (utils.py:71): rounded to hundredths, half to even, with a sign whenever the number is negative, `-0.00` included. -/
def fixed2 (x : ℚ) : String :=
  let n := (pyRound (|x| * 100)).toNat
  (if x < 0 then "-" else "") ++ Nat.repr (n / 100) ++ "." ++ String.ofList [Nat.digitChar (n % 100 / 10), Nat.digitChar (n % 100 % 10)]

/-- The format `>10.2f` (utils.py:71; structure.py:88-97). -/
def format2 (x : ℚ) : String := padLeft 10 (fixed2 x)

/-- `sort_by` (utils.py:73). -/
inductive SortBy where
  | key
  | value
  | keep
  deriving DecidableEq, Repr

/-- The order of the entries (utils.py:75-80).  Python's `sorted` is stable, also with `reverse=True`; `lower` is `str.lower`. -/
def sortEntries (lower : String → String) : SortBy → List (String × ℚ) → List (String × ℚ)
  | .key, d => d.mergeSort fun a b => decide (lower a.1 ≤ lower b.1)
  | .value, d => d.mergeSort fun a b => decide (b.2 ≤ a.2)
  | .keep, d => d

/-- One line (utils.py:82). -/
def formatLine (keyWidth indent : Nat) (q : String × ℚ) : String := repeated ' ' indent ++ padRight keyWidth q.1 ++ ": " ++ format2 q.2

/-- `apply_formating` with the default format of values (utils.py:68-83). -/
def applyFormating (lower : String → String) (keyWidth indent : Nat) (sortBy : SortBy) (d : List (String × ℚ)) : String :=
  "\n".intercalate ((sortEntries lower sortBy d).map (formatLine keyWidth indent))

/-- Level of a message (structure.py:86-118). -/
inductive MsgLevel where
  | info
  | warning
  deriving DecidableEq, Repr

/-- The message about an effect (structure.py:86-91). -/
def effectMessage (q : String × EffectRes) : String :=
  q.1 ++ ":\n" ++ ("  " ++ padRight 15 "operation" ++ ": " ++ format2 q.2.operation ++ "\n") ++ ("  " ++ padRight 15 "invest" ++ ": " ++ format2 q.2.invest ++ "\n") ++
    ("  " ++ padRight 15 "sum" ++ ": " ++ format2 q.2.sum)

/-- The message about penalty and objective (structure.py:93-99). -/
def totalMessage (r : MainResults) : String :=
  (padRight 17 "Penalty" ++ ": " ++ format2 r.penalty ++ "\n") ++ (repeated '-' 80 ++ "\n") ++ (padRight 17 "Objective" ++ ": " ++ format2 r.objective ++ "\n") ++ repeated '-' 80

/-- The message about investments (structure.py:102-112): `{**invested, **not invested}`. -/
def decisionMessage (lower : String → String) (r : MainResults) : String :=
  applyFormating lower 30 2 .value (pyUpdate (pyUpdate [] r.invested) r.notInvested)

/-- What `solve` logs after solving (structure.py:85-119); `repr` is how Python shows a number.  The headings made of `#` are left out. -/
def solveLog (lower : String → String) (repr : ℚ → String) (thr : ℚ) (r : MainResults) : List (MsgLevel × String) :=
  r.effects.map (fun q => (.info, effectMessage q)) ++ [(.info, totalMessage r), (.info, "Investment Decisions:"), (.info, decisionMessage lower r)] ++
    (warnedBuses thr r).map (fun b => (.warning, "A penalty occurred in Bus \"" ++ b ++ "\"!")) ++
    (if warnsPenalty r then [(.warning, "A total penalty of " ++ repr r.penalty ++ " occurred.This might distort the results")] else [])

end Flix
