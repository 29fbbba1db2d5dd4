import Verif.Model.Frames

/-!
# Plots of the operation: `with_plotly`, `with_matplotlib` (plotting.py:24-313), `plot_operation`, `plot_storage` (results.py:200-360)

Heat maps, titles, layouts and files are not modelled.
-/

namespace Flix

/-- A named colour scale: `at p` is its colour at position `p` between 0 and 1 (`px.colors.sample_colorscale`), `nth k i` is colour `i` of
`k` (`plt.get_cmap(name, k)(i)`).  Both are left open (plotting.py:24-194). -/
structure ColorScale where
  at_ : ℚ → String
  nth : Nat → Nat → String

/-- `colors: Union[List[str], str]` (plotting.py:27). -/
inductive PlotColors
  | scale (s : ColorScale)
  | given (cs : List String)

/-- `mode`; `other` stands for all strings that are no mode (plotting.py:26). -/
inductive PlotMode
  | bar
  | line
  | area
  | other
  deriving DecidableEq, Repr

/-- `engine` (results.py:200-216). -/
inductive PlotEngine
  | plotly
  | matplotlib
  | other
  deriving DecidableEq, Repr

/-- How plotly draws a series: as relative bars, as a line, stacked upwards, stacked downwards, as a dashed line
(plotting.py:24-194). -/
inductive Look
  | bar
  | line
  | up
  | down
  | dashed
  deriving DecidableEq, Repr

/-- What is added to a figure: a trace of plotly, bars of matplotlib on given bottoms, a stepped line of matplotlib
(plotting.py:24-313). -/
inductive Mark
  | trace (name : String) (ys : List ℚ) (color : String) (look : Look)
  | bars (label : String) (heights bottoms : List ℚ) (color : String)
  | step (label : String) (ys : List ℚ) (color : String)
  deriving DecidableEq, Repr

/-- The colours for `k` columns (plotting.py:83-88). -/
def PlotColors.plotly : PlotColors → Nat → List String
  | .given cs, _ => cs
  | .scale s, k => if 1 < k then (List.range k).map fun (i : Nat) => s.at_ ((i : ℚ) / ((k : ℚ) - 1)) else [s.at_ 0]

/-- The colours for `k` columns (plotting.py:255-257). -/
def PlotColors.matplotlib : PlotColors → Nat → List String
  | .given cs, _ => cs
  | .scale s, k => (List.range k).map (s.nth k)

/-- `data[(data > -1e-5) & (data < 1e-5)] = 0` (plotting.py:123) -/
def flush (xs : List ℚ) : List ℚ := xs.map fun x => if -(1 / 100000) < x ∧ x < 1 / 100000 then 0 else x

/-- The branch for areas (plotting.py:122-158).  `mixed_columns` is made from a set, its order is left open by Python; here it is that of the
columns. -/
def areaTraces (cols : List (String × List ℚ)) (colors : List String) : List Mark :=
  let data := cols.map fun q => (q.1, flush q.2)
  let positive := (data.filter fun q => q.2.all fun x => decide (0 ≤ x)).map (·.1)
  let negative := (data.filter fun q => q.2.all fun x => decide (x ≤ 0)).map (·.1)
  let mixed := (data.map (·.1)).filter fun c => decide (c ∉ positive ++ negative)
  let stacked := pyUpdate [] ((data.map (·.1)).zip colors)
  let draw (look : String → Look) (c : String) : Mark := .trace c ((pyLookup data c).getD []) ((pyLookup stacked c).getD "") (look c)
  (positive ++ negative).map (draw fun c => if c ∈ positive then .up else .down) ++ mixed.map (draw fun _ => .dashed)

/-- `with_plotly` (plotting.py:24-194): what is added to the figure. -/
def withPlotly (cols : List (String × List ℚ)) (mode : PlotMode) (colors : PlotColors) : Except Err (List Mark) :=
  if mode = .other then .error .assertion
  else if cols = [] ∨ frameRows cols = 0 then .ok []
  else if (colors.plotly cols.length).length ≠ cols.length then .error .assertion
  else match mode with
    | .bar => .ok ((cols.zip (colors.plotly cols.length)).map fun q => .trace q.1.1 q.1.2 q.2 .bar)
    | .line => .ok ((cols.zip (colors.plotly cols.length)).map fun q => .trace q.1.1 q.1.2 q.2 .line)
    | _ => .ok (areaTraces cols (colors.plotly cols.length))

/-- The loop over the columns (plotting.py:263-291) with `cumulative_positive` and `cumulative_negative`. -/
def stackBars : List ((String × List ℚ) × String) → List ℚ → List ℚ → List Mark
  | [], _, _ => []
  | (q, color) :: rest, up, down =>
    let positive := q.2.map fun x => max x 0
    let negative := q.2.map fun x => min x 0
    .bars q.1 positive up color :: .bars "" negative down color :: stackBars rest (up.zipWith (· + ·) positive) (down.zipWith (· + ·) negative)

/-- `with_matplotlib` (plotting.py:197-313) -/
def withMatplotlib (cols : List (String × List ℚ)) (mode : PlotMode) (colors : PlotColors) : Except Err (List Mark) :=
  if mode ≠ .bar ∧ mode ≠ .line then .error .assertion
  else if (colors.matplotlib cols.length).length ≠ cols.length then .error .assertion
  else if mode = .bar then .ok (stackBars (cols.zip (colors.matplotlib cols.length)) (List.replicate (frameRows cols) 0) (List.replicate (frameRows cols) 0))
  else .ok ((cols.zip (colors.matplotlib cols.length)).map fun q => .step q.1.1 q.1.2 q.2)

/-- A figure: the times of the series of the table, what is drawn of them, further traces with their own times
(plotting.py:24-313). -/
structure Figure where
  x : Option (List Int)
  marks : List Mark
  extra : List (List Int × RTree × String) := []

/-- `plot_operation` (results.py:200-297) for modes other than heat maps, with the threshold `1e-5` and the last step that `to_dataframe` has
by default. -/
def plotOperation (cfg : Cfg) (σ : Assignment) (n : Nat) (times : List Int) (s : System) (label : String) (mode : PlotMode) (colors : PlotColors)
    (engine : PlotEngine) (invert : Bool) : Except Err Figure := do
  let fr ← toDataframe cfg σ n times s label (some (if !invert then -1 else 1)) (some (if !invert then 1 else -1)) (some (1 / 100000)) true
  match engine with
  | .plotly => do
    let ms ← withPlotly fr.cols mode colors
    return { x := fr.index, marks := ms }
  | .matplotlib => do
    let ms ← withMatplotlib fr.cols mode colors
    return { x := fr.index, marks := ms }
  | .other => .error .value

/-- `{**self.component_results, **self.bus_results}[label].variables['charge_state']` (results.py:343).  `variables` are all entries of the
results, as the filter compares labels with objects (results.py:421, 454); those of a bus are its excess. -/
def chargeStates (cfg : Cfg) (σ : Assignment) (n : Nat) (s : System) (label : String) : Except Err RTree :=
  match pyLookup (elementDict cfg n s) label with
  | some (.comp c) => dictGet (c.results σ n) "charge_state"
  | some (.bus _) => .error .key
  | none => .error .key

/-- `plot_storage` (results.py:299-360) -/
def plotStorage (cfg : Cfg) (σ : Assignment) (n : Nat) (times : List Int) (s : System) (label : String) (mode : PlotMode) (colors : PlotColors)
    (invert : Bool) : Except Err Figure := do
  let fig ← plotOperation cfg σ n times s label mode colors .plotly invert
  let ys ← chargeStates cfg σ n s label
  return { fig with extra := fig.extra ++ [(times, ys, "Charge State")] }

end Flix
