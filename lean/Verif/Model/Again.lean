import Verif.Model.Window

/-!
# What modelling leaves behind in the declarations

`do_modeling` of a component writes into the flows the user has declared: missing on/off parameters are filled in (elements.py:463-471,
components.py:331-334) and the size of the second direction of a transmission (components.py:337-341).  The next calculation with the same flow
system, or the next segment, starts from there.
-/

namespace Flix

/-- The component after `ComponentModel.do_modeling` (elements.py:463-471). -/
def CompData.modelled (c : CompData) : CompData :=
  { c with inputs := c.inputs.map (fillOnOff c), outputs := c.outputs.map (fillOnOff c) }

/-- `np.any(absolute_losses.active_data != 0)` for the selected steps (components.py:331). -/
def TransData.forced (t : TransData) (a len : Nat) : Bool := (t.absLosses.map (Num.window a len)).any Num.anyNonzero

/-- Filling in for absolute losses, given whether there are any among the selected steps (components.py:331-334). -/
def fillForced (b : Bool) (f : FlowData) : FlowData := if b && f.onOff.isNone then { f with onOff := some {} } else f

/-- The component of a transmission whose flows are filled in (components.py:331-341). -/
def TransData.filled (cfg : Cfg) (b : Bool) (t : TransData) : TransData :=
  { t with
    in1 := fillForced b t.in1
    out1 := fillForced b t.out1
    in2 := t.in2.map fun f => t.fillIn2 cfg (fillForced b f)
    out2 := t.out2.map (fillForced b) }

/-- The transmission after `TransmissionModel.do_modeling` (components.py:331-343, elements.py:463-471). -/
def TransData.modelled (cfg : Cfg) (b : Bool) (t : TransData) : TransData :=
  { t with
    in1 := fillOnOff (t.comp cfg) (t.filled cfg b).in1
    out1 := fillOnOff (t.comp cfg) (t.filled cfg b).out1
    in2 := (t.filled cfg b).in2.map (fillOnOff (t.comp cfg))
    out2 := (t.filled cfg b).out2.map (fillOnOff (t.comp cfg)) }

/-- A component after modelling the steps `a` to `a + len` (components.py:328-341, elements.py:460-489). -/
def Comp.modelled (cfg : Cfg) (a len : Nat) : Comp → Comp
  | .plain c => .plain c.modelled
  | .converter c => .converter { c with comp := c.comp.modelled }
  | .storage s => .storage { s with charging := fillOnOff s.comp s.charging, discharging := fillOnOff s.comp s.discharging }
  | .transmission t => .transmission (t.modelled cfg (t.forced a len))

/-- The flow system after modelling the steps `a` to `a + len` (structure.py:57-64). -/
def System.modelled (cfg : Cfg) (a len : Nat) (s : System) : System := { s with comps := s.comps.map (Comp.modelled cfg a len) }

/-- The flow system after a history of selections (calculation.py:150-159: one `do_modeling` per selection). -/
def System.history (cfg : Cfg) (sels : List (Nat × Nat)) (s : System) : System := sels.foldl (fun s q => s.modelled cfg q.1 q.2) s

end Flix
