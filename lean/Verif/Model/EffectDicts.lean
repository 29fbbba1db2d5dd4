import Verif.Model.Num

/-!
# `effect_values_to_time_series` (effects.py:209-227) with shared dictionary objects

Dictionaries are Python objects: the heap maps object numbers to their contents.  A *slot* is an attribute of an element or of
its parameters that holds effect values (`effects_per_flow_hour`, `effects_per_switch_on`, …).
-/

namespace Flix

/-- Contents of a dictionary: effect (`none`: the key `None`) to value, in insertion order
(effects.py:184-185). -/
abbrev EffTable := List (Option String × Num)

/-- The value of an attribute: `None`, a number, or a dictionary object (effects.py:187-188). -/
inductive EffSlot
  | none
  | number (x : Num)
  | dict (id : Nat)
  deriving DecidableEq, Repr

/-- All dictionary objects and the attributes that hold effect values (effects.py:184-191). -/
structure EffMem where
  heap : List EffTable
  slots : List EffSlot
  deriving DecidableEq, Repr

/-- `dict[key]` (read in effects.py:194-228). -/
def EffTable.get (d : EffTable) (k : Option String) : Option Num := (d.find? fun q => q.1 = k).map (·.2)

/-- What `dict.pop(None, None)` leaves (effects.py:221). -/
def EffTable.popNone (d : EffTable) : EffTable := d.filter fun q => q.1 ≠ none

/-- The dictionary that is returned (effects.py:219-227): the values of the remaining keys and, last, the popped value.
Simplification: a value and the `TimeSeries` made of it are the same (a `TimeSeries` is passed on unchanged,
structure.py:507-511). -/
def EffTable.transformed (d : EffTable) : EffTable :=
  match d.get none with
  | some x => d.popNone ++ [(none, x)]
  | none => d.popNone

/-- `slot = effect_values_to_time_series(…, slot, …)` (elements.py:248, interface.py:157-158, effects.py:142): a dictionary
object given by the user is changed by `pop(None)`, the slot gets a new object. -/
def EffMem.prepare (m : EffMem) (i : Nat) : EffMem :=
  match m.slots[i]? with
  | some (.dict d) => match m.heap[d]? with
    | some t => { heap := m.heap.set d t.popNone ++ [t.transformed], slots := m.slots.set i (.dict m.heap.length) }
    | none => m
  | some (.number x) => { heap := m.heap ++ [[(none, x)]], slots := m.slots.set i (.dict m.heap.length) }
  | _ => m

/-- Elements are prepared in any order, any number of times (`FlowSystem.transform_data`, flow_system.py:105-107). -/
def EffMem.run (m : EffMem) : List Nat → EffMem
  | [] => m
  | i :: is => (m.prepare i).run is

/-- The value a slot holds for an effect (effects.py:230-256). -/
def EffMem.value (m : EffMem) (i : Nat) (k : Option String) : Option Num :=
  match m.slots[i]? with
  | some (.dict d) => match m.heap[d]? with
    | some t => t.get k
    | none => none
  | some (.number x) => if k = none then some x else none
  | _ => none

end Flix
