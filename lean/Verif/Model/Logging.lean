import Verif.Model.Config

/-!
# Logging (config.py:146-258)
-/

namespace Flix

/-- Where a handler writes: `RichHandler`, `StreamHandler` or `FileHandler` (config.py:190-222). -/
inductive LogTarget where
  | rich
  | console
  | file (path : String)
  deriving DecidableEq, Repr

/-- A call of `setup_logging` (config.py:225-229) or of `change_logging_level` (config.py:253). -/
inductive LogOp where
  | setup (level : String) (file : Option String) (rich : Bool)
  | change (level : String)

/-- A handler of the logger: where it writes and its level (0 = `NOTSET`, as `logging` creates it). -/
structure LogHandler where
  target : LogTarget
  level : Nat := 0
  deriving DecidableEq, Repr

/-- The logger `flixOpt` (config.py:231, 254). -/
structure LoggerState where
  level : Nat := 0
  handlers : List LogHandler := []
  deriving DecidableEq, Repr

/-- `get_logging_level_by_name` (config.py:244-250) with the numbers of Python's `logging`.  Upper case is taken for ASCII letters. -/
def loggingLevel (name : String) : Except Err Nat :=
  if ["DEBUG", "INFO", "WARNING", "ERROR", "CRITICAL"].contains name.toUpper then
    if name.toUpper = "DEBUG" then .ok 10
    else if name.toUpper = "INFO" then .ok 20
    else if name.toUpper = "ERROR" then .ok 40
    else if name.toUpper = "CRITICAL" then .ok 50
    else .ok 30
  else .error .value

/-- `_get_logging_handler` (config.py:188-222).  `logging.FileHandler` opens the file and fails with an `OSError` if that is impossible. -/
def loggingHandler (opens : String → Bool) (file : Option String) (rich : Bool) : Except Err LogHandler :=
  match file with
  | none => if rich then .ok { target := .rich } else .ok { target := .console }
  | some path => if opens path then .ok { target := .file path } else .error .exception

/-- `logger.hasHandlers()` (config.py:234): handlers of the logger itself or of the root logger. -/
def LoggerState.hasHandlers (lg : LoggerState) (root : Bool) : Bool := !lg.handlers.isEmpty || root

/-- `setup_logging` (config.py:225-241): the logger afterwards and the exception, if any. -/
def setupLogging (opens : String → Bool) (root : Bool) (lg : LoggerState) (level : String) (file : Option String) (rich : Bool) : LoggerState × Option Err :=
  match loggingLevel level with
  | .error e => (lg, some e)
  | .ok n =>
    let cleared : LoggerState := { level := n, handlers := if lg.hasHandlers root then [] else lg.handlers }
    match loggingHandler opens none rich with
    | .error e => (cleared, some e)
    | .ok h =>
      let one := { cleared with handlers := cleared.handlers ++ [h] }
      match file with
      | none => (one, none)
      | some path =>
        match loggingHandler opens (some path) false with
        | .error e => (one, some e)
        | .ok f => ({ one with handlers := one.handlers ++ [f] }, none)

/-- `change_logging_level` (config.py:253-258). -/
def changeLoggingLevel (lg : LoggerState) (level : String) : LoggerState × Option Err :=
  match loggingLevel level with
  | .error e => (lg, some e)
  | .ok n => ({ level := n, handlers := lg.handlers.map fun h => { h with level := n } }, none)

/-- One request after the other, exceptions being caught (config.py:225, 253). -/
def LoggerState.ask (opens : String → Bool) (root : Bool) (lg : LoggerState) : LogOp → LoggerState
  | .setup level file rich => (setupLogging opens root lg level file rich).1
  | .change level => (changeLoggingLevel lg level).1

/-- The handlers of the logger that write a message of the level `n`: Python's `logging` asks the logger first, then each handler.  What handlers
of the root logger do with it is not modelled (config.py:231). -/
def LoggerState.writes (lg : LoggerState) (n : Nat) : List LogTarget :=
  if lg.level ≤ n then (lg.handlers.filter fun h => h.level ≤ n).map (·.target) else []

/-- `CONFIG.load_config` with the set-up of the logger at its end (config.py:97-122); the validated values are strings and a boolean. -/
def loadAndLog (opens : String → Bool) (root : Bool) (s : ConfigState × LoggerState) (file : CVal) : (ConfigState × LoggerState) × Option Err :=
  match loadConfig s.1 file with
  | (c, some e) => ((c, s.2), some e)
  | (c, none) =>
    match c.logging with
    | .obj { level := .str level, file := .str path, rich := .bool rich } =>
      let r := setupLogging opens root s.2 level (some path) rich
      ((c, r.1), r.2)
    | _ => ((c, s.2), some .type)

/-! ## Texts -/

/-- `text.split('\n')` (config.py:148) -/
def splitNl : List Char → List (List Char)
  | [] => [[]]
  | c :: cs =>
    if c = '\n' then [] :: splitNl cs
    else match splitNl cs with
      | l :: ls => (c :: l) :: ls
      | [] => [[c]]

/-- `'\n'.join(lines)` (config.py:162, 185) -/
def joinNl : List (List Char) → List Char
  | [] => []
  | [l] => l
  | l :: ls => l ++ '\n' :: joinNl ls

/-- The characters at which `str.splitlines` breaks a text (config.py:177): line feed, vertical tab, form feed, carriage return, the separators of
files, groups and records, next line, line separator and paragraph separator. -/
def breaksLine (c : Char) : Bool := [0x0a, 0x0b, 0x0c, 0x0d, 0x1c, 0x1d, 0x1e, 0x85, 0x2028, 0x2029].contains c.toNat

/-- `text.splitlines()` (config.py:177); a pair `\r\n` is one break, here that of its second character. -/
def splitLines : List Char → List (List Char)
  | [] => []
  | c :: cs =>
    if c = '\r' ∧ cs.head? = some '\n' then splitLines cs
    else if breaksLine c then [] :: splitLines cs
    else match splitLines cs with
      | l :: ls => (c :: l) :: ls
      | [] => [[c]]

/-- `name.ljust(8)` (config.py:152) -/
def ljust8 (name : List Char) : List Char := name ++ List.replicate (8 - name.length) ' '

/-- Time and level in front of a line (config.py:151-153). -/
def logPrefix (time level : List Char) : List Char := time ++ " | ".toList ++ ljust8 level ++ " |".toList

/-- `MultilineFormater.format` (config.py:147-162) of a message that was logged at the given time with the given level. -/
def formatPlain (time level message : List Char) : List Char :=
  match splitNl message with
  | [] => []
  | first :: rest =>
    let firstLine := [logPrefix time level ++ " ".toList ++ first]
    if rest ≠ [] then joinNl (firstLine ++ rest.map fun l => logPrefix time level ++ " ".toList ++ l) else joinNl firstLine

/-- The escape code of a level, or the one that resets the colour (config.py:166-174, 178). -/
def logColour (level : String) : List Char :=
  if level = "DEBUG" then "\x1b[32m".toList
  else if level = "INFO" then "\x1b[34m".toList
  else if level = "WARNING" then "\x1b[33m".toList
  else if level = "ERROR" then "\x1b[31m".toList
  else if level = "CRITICAL" then "\x1b[1m\x1b[31m".toList
  else "\x1b[0m".toList

/-- `ColoredMultilineFormater.format` (config.py:176-185). -/
def formatColoured (time level message : List Char) : List Char :=
  joinNl ((splitLines (formatPlain time level message)).map fun l => logColour (String.ofList level) ++ l ++ "\x1b[0m".toList)

end Flix
