import Verif.Model.Logging

/-!
# Lines of a text, and what was asked of the logger
-/

namespace Flix

/-- `ls` are the lines of the text. -/
structure IsLines (text : List Char) (ls : List (List Char)) : Prop where
  some : ls ≠ []
  joined : text = List.intercalate ['\n'] ls
  whole : ∀ l ∈ ls, '\n' ∉ l

/-- The number of a level, whatever the case of its name; other names have none. -/
def levelWanted (name : String) : Option Nat :=
  ([("DEBUG", 10), ("INFO", 20), ("WARNING", 30), ("ERROR", 40), ("CRITICAL", 50)].find? fun p => p.1 = name.toUpper).map (·.2)

/-- The targets of a set-up; a file only if it can be opened. -/
def targetsWanted (opens : String → Bool) (file : Option String) (rich : Bool) : List LogTarget :=
  (if rich then .rich else .console) :: (file.filter opens).toList.map .file

/-- The targets and the level that were asked for last; requests with other names do not count.  The latest request comes first. -/
def lastAsked (opens : String → Bool) : List LogOp → List LogTarget × Nat
  | [] => ([], 0)
  | .setup level file rich :: before =>
    match levelWanted level with
    | some n => (targetsWanted opens file rich, n)
    | none => lastAsked opens before
  | .change level :: before =>
    match levelWanted level with
    | some n => ((lastAsked opens before).1, n)
    | none => lastAsked opens before

end Flix
