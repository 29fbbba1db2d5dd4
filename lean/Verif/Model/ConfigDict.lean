import Verif.Model.Config

/-!
# The configuration as a dictionary and assignments to its fields (config.py:55-61, 124-143)
-/

namespace Flix

/-- `value.__dict__` of the logging section (config.py:138-139): the fields in their order (config.py:66-71). -/
def LoggingCfg.dict (l : LoggingCfg) : CVal := .sec [("level", l.level), ("file", l.file), ("rich", l.rich)]

/-- `value.__dict__` of the modelling section (config.py:138-139): the fields in their order (config.py:76-78). -/
def ModelingCfg.dict (m : ModelingCfg) : CVal := .sec [("BIG", m.big), ("EPSILON", m.epsilon), ("BIG_BINARY_BOUND", m.bigBinaryBound)]

/-- A dataclass gives its dictionary, everything else itself (config.py:138-141). -/
def Stored.dict {α : Type} (f : α → CVal) : Stored α → CVal
  | .obj a => f a
  | .raw v => v

/-- `CONFIG.to_dict` (config.py:124-143): the attributes of the class that are neither private nor methods, in their order (config.py:93-95).
The Python function hands out the dictionaries of the sections themselves, not copies; the model gives their contents. -/
def ConfigState.toDict (c : ConfigState) : CVal :=
  .sec [("config_name", c.name), ("modeling", c.modeling.dict ModelingCfg.dict), ("logging", c.logging.dict LoggingCfg.dict)]

/-- The fields of the two sections (config.py:66-71, 76-78). -/
inductive CfgField where
  | level
  | file
  | rich
  | big
  | epsilon
  | bigBinaryBound

/-- `setattr(CONFIG.logging, …)` or `setattr(CONFIG.modeling, …)` with the validation of `ValidatedConfig.__setattr__` (config.py:57-61).  A value that
is no dataclass has no such attribute.  Attributes with other names, which are stored unchecked, are not modelled. -/
def ConfigState.assign (c : ConfigState) (f : CfgField) (v : CVal) : Except Err ConfigState :=
  match f, c.logging, c.modeling with
  | .level, .obj l, _ => (validated CVal.isLevel v).map fun x => { c with logging := .obj { l with level := x } }
  | .file, .obj l, _ => (validated CVal.isStr v).map fun x => { c with logging := .obj { l with file := x } }
  | .rich, .obj l, _ => (validated CVal.isBool v).map fun x => { c with logging := .obj { l with rich := x } }
  | .big, _, .obj m => (validated CVal.isInt v).map fun x => { c with modeling := .obj { m with big := x } }
  | .epsilon, _, .obj m => (validated CVal.isFloat v).map fun x => { c with modeling := .obj { m with epsilon := x } }
  | .bigBinaryBound, _, .obj m => (validated CVal.isInt v).map fun x => { c with modeling := .obj { m with bigBinaryBound := x } }
  | _, _, _ => .error .attribute

/-- What a program does with the configuration: load a file (config.py:97-122) or assign to a field (config.py:57-61). -/
inductive CfgOp where
  | load (file : CVal)
  | assign (f : CfgField) (v : CVal)

/-- One step, exceptions being caught (config.py:57-61, 97-122). -/
def ConfigState.step (c : ConfigState) : CfgOp → ConfigState
  | .load file => (loadConfig c file).1
  | .assign f v => match c.assign f v with
    | .ok c' => c'
    | .error _ => c

end Flix
