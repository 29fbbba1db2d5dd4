import Verif.Model.Registry

/-!
# Configuration (config.py)
-/

namespace Flix

/-- A value read from a YAML file (config.py:105-112). -/
inductive CVal
  | null
  | bool (b : Bool)
  | int (z : Int)
  | float (q : ℚ)
  | str (s : String)
  | seq (xs : List CVal)
  | sec (kvs : List (String × CVal))

mutual
  /-- `merge_configs` (config.py:14-29).  The Python function changes `defaults` in place and returns it; the model gives its contents
  afterwards. -/
  def mergeConfigs : List (String × CVal) → List (String × CVal) → List (String × CVal)
    | d, [] => d
    | d, (k, v) :: os => mergeConfigs (pySet d k (mergeValue (pyLookup d k) v)) os
  /-- The value assigned for one key (config.py:23-28). -/
  def mergeValue : Option CVal → CVal → CVal
    | some (.sec ds), .sec os => .sec (mergeConfigs ds os)
    | _, v => v
end

/-- `LoggingConfig` (config.py:64-71) -/
structure LoggingCfg where
  level : CVal
  file : CVal
  rich : CVal

/-- `ModelingConfig` (config.py:74-78) -/
structure ModelingCfg where
  big : CVal
  epsilon : CVal
  bigBinaryBound : CVal

/-- An attribute meant to hold a dataclass: sections are turned into one, other values are passed as they are (config.py:46-50). -/
inductive Stored (α : Type)
  | obj (a : α)
  | raw (v : CVal)

/-- The class attributes of `CONFIG` (config.py:93-95). -/
structure ConfigState where
  name : CVal := .null
  logging : Stored LoggingCfg := .raw .null
  modeling : Stored ModelingCfg := .raw .null

/-- `data.get(name)` (config.py:44) -/
def fieldOf (d : List (String × CVal)) (k : String) : CVal := (pyLookup d k).getD .null

/-- `isinstance(x, str)` (config.py:70, 83). -/
def CVal.isStr : CVal → Bool
  | .str _ => true
  | _ => false

/-- `isinstance(x, bool)` (config.py:71). -/
def CVal.isBool : CVal → Bool
  | .bool _ => true
  | _ => false

/-- `isinstance(x, int)`: booleans as well (config.py:76, 78). -/
def CVal.isInt : CVal → Bool
  | .int _ => true
  | .bool _ => true
  | _ => false

/-- `isinstance(x, float)` (config.py:77). -/
def CVal.isFloat : CVal → Bool
  | .float _ => true
  | _ => false

/-- `level in [...]` (config.py:68) -/
def CVal.isLevel : CVal → Bool
  | .str s => ["DEBUG", "INFO", "WARNING", "ERROR", "CRITICAL"].contains s
  | _ => false

/-- `assert metadata[0](value)` (config.py:57-61) -/
def validated (ok : CVal → Bool) (v : CVal) : Except Err CVal := if ok v then .ok v else .error .assertion

/-- `LoggingConfig(**kwargs)` from a section (config.py:39-52, 64-71). -/
def loggingOf (d : List (String × CVal)) : Except Err LoggingCfg := do
  let level ← validated CVal.isLevel (fieldOf d "level")
  let file ← validated CVal.isStr (fieldOf d "file")
  let rich ← validated CVal.isBool (fieldOf d "rich")
  return { level, file, rich }

/-- `ModelingConfig(**kwargs)` from a section (config.py:39-52, 74-78). -/
def modelingOf (d : List (String × CVal)) : Except Err ModelingCfg := do
  let big ← validated CVal.isInt (fieldOf d "BIG")
  let epsilon ← validated CVal.isFloat (fieldOf d "EPSILON")
  let bigBinaryBound ← validated CVal.isInt (fieldOf d "BIG_BINARY_BOUND")
  return { big, epsilon, bigBinaryBound }

/-- A field whose type is a dataclass (config.py:46-50). -/
def storedOf {α} (f : List (String × CVal) → Except Err α) : CVal → Except Err (Stored α)
  | .sec d => .obj <$> f d
  | v => .ok (.raw v)

/-- `dataclass_from_dict_with_validation(ConfigSchema, data)` (config.py:32-52, 81-85).  Something other than a section has no `get`. -/
def schemaOf : CVal → Except Err ConfigState
  | .sec d => do
    let logging ← storedOf loggingOf (fieldOf d "logging")
    let modeling ← storedOf modelingOf (fieldOf d "modeling")
    let name ← validated CVal.isStr (fieldOf d "config_name")
    return { name, logging, modeling }
  | _ => .error .attribute

/-- `cls.logging.level` (config.py:122) -/
def levelOf : Stored LoggingCfg → Except Err CVal
  | .obj l => .ok l.level
  | .raw _ => .error .attribute

/-- `CONFIG.load_config` (config.py:97-122) on the contents of the file: the class attributes afterwards and the exception, if any.  The set-up
of the logger is not modelled. -/
def loadConfig (s : ConfigState) (file : CVal) : ConfigState × Option Err :=
  match schemaOf file with
  | .error e => (s, some e)
  | .ok c =>
    match levelOf c.logging with
    | .error e => (c, some e)
    | .ok _ => (c, none)

end Flix
