import Verif.Model.Num

/-!
# `SolverLog` (math_modeling.py:596-690)

Reading of the file and logging are left out: the log is the text in the file.  The regular expressions consist of literal text and of groups of digits;
`\d` is taken for the ten ASCII digits.
-/

namespace Flix

/-- The parts of the patterns: literal text, `(\d+)` and `(-?\d+)` (math_modeling.py:657-658, 673, 680). -/
inductive Piece where
  | lit (s : String)
  | digits
  | signed
  deriving DecidableEq, Repr

/-- How many characters `\d+` may take, the longest first as in `re` (math_modeling.py:657-658). -/
def digitLens (cs : List Char) : List Nat := ((List.range (cs.takeWhile Char.isDigit).length).map (· + 1)).reverse

/-- The pattern at the beginning of the text, with backtracking; gives the groups (math_modeling.py:656-660). -/
def matchHere : List Piece → List Char → Option (List (List Char))
  | [], _ => some []
  | .lit s :: ps, cs => if s.toList.isPrefixOf cs then matchHere ps (cs.drop s.toList.length) else none
  | .digits :: ps, cs => (digitLens cs).findSome? fun k => (matchHere ps (cs.drop k)).map (cs.take k :: ·)
  | .signed :: ps, cs =>
    if cs.head? = some '-' then (digitLens cs.tail).findSome? fun k => (matchHere ps (cs.drop (k + 1))).map (cs.take (k + 1) :: ·)
    else (digitLens cs).findSome? fun k => (matchHere ps (cs.drop k)).map (cs.take k :: ·)

/-- `re.search`: the first place where the pattern fits (math_modeling.py:656). -/
def searchLog (ps : List Piece) : List Char → Option (List (List Char))
  | [] => matchHere ps []
  | c :: cs => match matchHere ps (c :: cs) with
    | some g => some g
    | none => searchLog ps cs

/-- `int(match.group(i))` for a group of digits (math_modeling.py:663-669). -/
def groupInt (gs : List (List Char)) (i : Nat) : Int := Nat.ofDigitChars 10 (gs.getD (i - 1) []) 0

/-- The attributes of `SolverLog` (math_modeling.py:617-623). -/
structure LogInfos where
  rows : Option Int := none
  cols : Option Int := none
  nonzeros : Option Int := none
  continuous : Option Int := none
  integer : Option Int := none
  binary : Option Int := none
  deriving DecidableEq, Repr

/-- The pattern for Gurobi (math_modeling.py:657-658). -/
def gurobiPattern : List Piece :=
  [.lit "Presolved: ", .digits, .lit " rows, ", .digits, .lit " columns, ", .digits, .lit " nonzeros\nVariable types: ", .digits, .lit " continuous, ", .digits, .lit " integer (", .digits,
    .lit " binary)"]

/-- The pattern for sizes in logs of CBC (math_modeling.py:673). -/
def cbcSizes : List Piece := [.lit "Presolve ", .digits, .lit " (", .signed, .lit ") rows, ", .digits, .lit " (", .signed, .lit ") columns and ", .digits]
/-- The pattern for kinds of variables (math_modeling.py:680). -/
def cbcKinds : List Piece := [.lit "Presolved problem has ", .digits, .lit " integers (", .digits, .lit " of which binary)"]

/-- The branch of Gurobi (math_modeling.py:656-669). -/
def gurobiInfos (log : List Char) : LogInfos :=
  match searchLog gurobiPattern log with
  | none => {}
  | some g => { rows := some (groupInt g 1), cols := some (groupInt g 2), nonzeros := some (groupInt g 3), continuous := some (groupInt g 4), integer := some (groupInt g 5),
                binary := some (groupInt g 6) }

/-- The sizes (math_modeling.py:673-677). -/
def cbcFirst (log : List Char) : LogInfos :=
  match searchLog cbcSizes log with
  | none => {}
  | some g => { rows := some (groupInt g 1), cols := some (groupInt g 3), nonzeros := some (groupInt g 5) }

/-- The kinds of variables; `self.presolved_cols - self.presolved_integer` with `None` is a `TypeError` (math_modeling.py:680-684). -/
def cbcSecond (log : List Char) (i : LogInfos) : Except Err LogInfos :=
  match searchLog cbcKinds log with
  | none => .ok i
  | some g => match i.cols with
    | none => .error .type
    | some c => .ok { i with integer := some (groupInt g 1), binary := some (groupInt g 2), continuous := some (c - groupInt g 1) }

/-- `SolverLog.parse_infos` (math_modeling.py:640-690). -/
def parseInfos (solver : String) (log : List Char) : Except Err LogInfos :=
  if solver = "gurobi" then .ok (gurobiInfos log)
  else if solver = "cbc" then cbcSecond log (cbcFirst log)
  else if solver = "glpk" then .ok {}
  else .error .exception

/-- The keys of `SolverLog.infos` with their values (math_modeling.py:626-637). -/
def LogInfos.dict (i : LogInfos) : List (String × Option Int) :=
  [("cols", i.cols), ("continuous", i.continuous), ("integer", i.integer), ("binary", i.binary), ("rows", i.rows), ("nonzeros", i.nonzeros)]

end Flix
