import Verif.Model.Effects

/-!
# `Effect.__init__` and `EffectCollection.add_effect` as histories of calls

Python objects are numbered in the order of their creation: object `i` is entry `i` of the heap.
-/

namespace Flix

/-- The attributes of an `Effect` object (effects.py:27-111): the keys of the share dictionaries are other effect objects.
`data` holds the other attributes (its share lists are not used). -/
structure EffObj where
  data : EffectData
  shareOp : List (Nat × Num) := []
  shareInv : List (Nat × Num) := []
  deriving DecidableEq, Repr

/-- All effect objects that were created (effects.py:27-110). -/
abbrev EffHeap := List EffObj

/-- `Effect.__init__` (effects.py:27-110) with `_plausibility_checks` (effects.py:112-132).  A key that is not an existing object cannot be
passed in Python (`NameError`).  When the check runs, `self` is the new object.  If it raises, the object is lost. -/
def newEffect (heap : EffHeap) (o : EffObj) : EffHeap × Option Err :=
  let self := heap.length
  if (o.shareOp ++ o.shareInv).any fun q => decide (heap.length ≤ q.1) then (heap, some .name)
  else if o.shareOp.any fun q => match heap[q.1]? with | some e => e.shareOp.any fun r => r.1 == self | none => false then
    (heap, some .assertion)
  else if o.shareInv.any fun q => match heap[q.1]? with | some e => e.shareInv.any fun r => r.1 == self | none => false then
    (heap, some .assertion)
  else (heap ++ [o], none)

/-- `self.effects` (effects.py:271): label to object, in insertion order. -/
abbrev EffDictObj := List (String × Nat)

/-- The attribute of an object in the heap (effects.py:89-108). -/
def effAttr {α} (heap : EffHeap) (d : α) (f : EffObj → α) (i : Nat) : α := match heap[i]? with | some o => f o | none => d

/-- `standard_effect` is not `None` (effects.py:289-293). -/
def hasStandard (heap : EffHeap) (coll : EffDictObj) : Bool := coll.any fun q => effAttr heap false (·.data.isStandard) q.2
/-- `objective_effect` is not `None` (effects.py:295-299). -/
def hasObjective (heap : EffHeap) (coll : EffDictObj) : Bool := coll.any fun q => effAttr heap false (·.data.isObjective) q.2

/-- `self.effects[label] = effect` (effects.py:286). -/
def setEffect : EffDictObj → String → Nat → EffDictObj
  | [], l, i => [(l, i)]
  | q :: qs, l, i => if q.1 = l then (l, i) :: qs else q :: setEffect qs l i

/-- `EffectCollection.add_effect` (effects.py:277-287): the collection after the call and the exception, if any. -/
def addEffect (heap : EffHeap) (coll : EffDictObj) (i : Nat) : EffDictObj × Option Err :=
  match heap[i]? with
  | none => (coll, some .name)
  | some o =>
    if o.data.isStandard && hasStandard heap coll then (coll, some .exception)
    else if o.data.isObjective && hasObjective heap coll then (coll, some .exception)
    else if coll.any fun q => q.2 == i then (coll, some .exception)
    else if coll.any fun q => q.1 == o.data.label then (coll, some .exception)
    else (setEffect coll o.data.label i, none)

/-- A call: create an effect or add one to the collection; exceptions are caught by the caller
(effects.py:27-110, 277-286). -/
inductive EffCall
  | new (o : EffObj)
  | add (i : Nat)

/-- The effect objects and the contents of the collection (effects.py:268-271). -/
structure EffState where
  heap : EffHeap := []
  coll : EffDictObj := []

/-- One call (effects.py:27-110, 277-286). -/
def EffState.step (s : EffState) : EffCall → EffState × Option Err
  | .new o => ({ s with heap := (newEffect s.heap o).1 }, (newEffect s.heap o).2)
  | .add i => ({ s with coll := (addEffect s.heap s.coll i).1 }, (addEffect s.heap s.coll i).2)

/-- The state after a history of calls (effects.py:27-110, 277-286). -/
def EffState.run (s : EffState) : List EffCall → EffState
  | [] => s
  | c :: cs => (s.step c).1.run cs

/-- The effect as the model sees it: share targets by their labels (effects.py:89-108, 134-144). -/
def EffObj.toData (heap : EffHeap) (o : EffObj) : EffectData :=
  { o.data with
    shareOperation := o.shareOp.map fun q => (effAttr heap "" (·.data.label) q.1, q.2),
    shareInvest := o.shareInv.map fun q => (effAttr heap "" (·.data.label) q.1, q.2) }

/-- The effects of the collection, in order (effects.py:271). -/
def EffState.effects (s : EffState) : List EffectData :=
  s.coll.filterMap fun q => (s.heap[q.2]?).map (EffObj.toData s.heap)

end Flix
