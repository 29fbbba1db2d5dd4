# Formal model of flixOpt in Lean 4

## What is verified

flixOpt turns a description of an energy system into a mixed-integer linear program, hands it to a solver
through Pyomo and post-processes the values.  The properties in `properties.jsonl` are statements about *every*
solution the generated program admits (not only the optimal one a solver happens to return), about *every*
history of API calls, and about the data plumbing (time series, segments, aggregation, results).

The model is a set of small, total, computable Lean functions that mirror the Python functions branch by branch.
Python exceptions are values (`Except Err α`).  Nothing is executed from `/repo`; the code was read as text.

## Layers

| Lean module (under `lean/Verif/`) | mirrors |
|---|---|
| `Model/Num.lean` | numpy scalars / 1-D arrays: broadcasting, `utils.as_vector` |
| `Model/Math.lean` | `math_modeling.py`: `Variable`, `_Constraint`, `Summand`, `SumOfSummand`, `PyomoModel.translate_*`, `_summand_math_expression`, result read-back |
| `Model/Tree.lean` | `structure.py`: `ElementModel`, `create_variable`, `create_equation`, the collected variables and constraints |
| `Model/OnOff.lean`, `Model/Invest.lean`, `Model/Segments.lean` | `features.py`: `OnOffModel`, `PreventSimultaneousUsageModel`, `InvestmentModel`, `SegmentModel`, `MultipleSegmentsModel`, `SegmentedSharesModel` |
| `Model/Effects.lean`, `Model/EffectHistory.lean`, `Model/EffectDicts.lean` | `features.py`: `ShareAllocationModel`, `SingleShareModel`; `effects.py` |
| `Model/Elements.lean`, `Model/Components.lean` | `elements.py`, `components.py`, `linear_converters.py`, `interface.py` |
| `Model/System.lean` | `structure.py`: `SystemModel` |
| `Model/Translate.lean` | `math_modeling.py`: `PyomoModel.translate_model` with its look-up of variables and names of components, `MathModel.infos` |
| `Model/Registry.lean` | `flow_system.py`: components, flows, buses, uniqueness of labels; `utils.label_is_valid` |
| `Model/Time.lean`, `Model/Series.lean` | `flow_system.py` (time), `utils.check_time_series`, `core.py` |
| `Model/Segmented.lean` | `calculation.py`: `SegmentedCalculation`, combination of results |
| `Model/SegResults.lean` | `calculation.py`: `_combine_nested_scalars`, the options of `SegmentedCalculation.results`, `start_values_of_segments` |
| `Model/Aggregation.lean` | `aggregation.py`, `calculation.py`: `AggregatedCalculation` |
| `Model/ClusterText.lean` | `aggregation.py`: `Aggregation.describe_clusters` |
| `Model/Results.lean` | `results.py` (tables, flattening), `structure.copy_and_convert_datatypes`, `utils.convert_numeric_lists_to_arrays`, `Calculation.results`, `plotting.reshape_to_2d` |
| `Model/Report.lean` | `results()` of all models nested by label, `description_of_variables`, `description_of_constraints`, `all_variables`, `all_equations`, `all_inequations` of elements |
| `Model/MainResults.lean` | `structure.py`: `SystemModel.main_results` |
| `Model/SolveLog.lean` | `structure.py`: `SystemModel.solve` (messages after solving); `utils.py`: `apply_formating` |
| `Model/SeriesNames.lean` | `transform_data` of all elements: which `TimeSeries` are made under which label; which of them are arrays |
| `Model/SolverLog.lean` | `math_modeling.py`: `SolverLog` (the text of the file; `re.search` for the three patterns with leftmost match and backtracking) |
| `Model/Run.lean` | `math_modeling.py`: the solver classes, `MathModel.solve`, `PyomoModel.solve`; `calculation.py`: `Calculation`, `FullCalculation` as a state machine |
| `Model/AggRun.lean` | `calculation.py`: `AggregatedCalculation.do_modeling` with the request to the clustering and the data it puts in place |
| `Model/HeatMap.lean` | `plotting.py`: `heat_map_data_from_df` with the directives of `strftime` it uses |
| `Model/Named.lean` | `linear_converters.py`: the constructors of the named converters, `check_bounds` |
| `Model/Network.lean` | `flow_system.py`: `network_infos` |
| `Model/NetworkPlot.lean` | `plotting.py`: `visualize_network` with `add_node` and `add_edge` of `pyvis` as its documentation describes them; `FlowSystem.visualize_network` |
| `Model/Infos.lean` | `structure.py`: `Interface.infos`, `copy_and_convert_datatypes` for declarations, `get_compact_representation` (statistics of long arrays are an arbitrary text); `elements.py`: `Component.infos`, `Flow.infos`; `flow_system.py`: `infos`, `to_json`; the data file of `calculation.py` |
| `Model/Frames.lean` | `results.py`: `CalculationResults.to_dataframe` |
| `Model/Plots.lean` | `plotting.py`: `with_plotly`, `with_matplotlib`; `results.py`: `plot_operation`, `plot_storage` |
| `Model/Window.lean` | the selection of time steps of a segment as it changes declarations, start values handed over |
| `Model/Again.lean` | what `do_modeling` writes into the declared flows (`elements.py`, `components.py`) |
| `Model/Config.lean` | `config.py`: `merge_configs`, the validated sections, `CONFIG.load_config` |
| `Model/Logging.lean` | `config.py`: `setup_logging`, `change_logging_level`, the handlers and the two formatters; `load_config` with the set-up of the logger |
| `Model/ConfigDict.lean` | `config.py`: `CONFIG.to_dict`, assignments to validated fields |
| `Spec/*` | small specifications used in statements, written without the model's helpers |
| `Lemmas/*` | helper lemmas, not claims |
| `Props/*` | the property theorems, each with an `example` that its hypotheses are satisfiable |

The central idea: every `do_modeling` function of the Python code creates variables and constraints by
`create_variable`, `create_equation`, `add_summand`, `add_constant`.  The Lean builders return exactly these
requests (a list of variables and a list of *op lists*), the core layer executes the op lists with the length rules of
`_Constraint`, translates them to scalar rows like `PyomoModel`, and a *solution* is an assignment
`label -> index -> ℚ` that satisfies every row, bound and binary domain.  A property theorem then has the form

    builder args = ok part  →  Solves part σ  →  <statement about σ in terms of the user's parameters>

where the right-hand side does not mention the builders' helpers.  Converse (completeness) theorems show that the
constraints exclude nothing else.

## Simplifications (all over the model)

* Numbers are exact rationals `ℚ` instead of IEEE doubles; `inf` bounds are "no bound".
* Solver, Pyomo's expression objects, pandas, tsam and matplotlib/plotly are not modelled: a solution is any
  assignment satisfying the translated rows exactly.  Pyomo's refusal of a row without any summand is
  modelled (`checkRows`, C85); a row whose factors are all zero is taken as a row (versions of Pyomo that simplify `0*x` to `0`
  would refuse it as well; a refused model has no solutions, so the claims about all solutions are unaffected).
* Object identity of variables is represented by their full label; the code refuses models in which two variables
  share a label (C53), so in accepted models the two coincide.
* The effect equations, which Python extends by mutation while elements are modelled, are built from the collected
  list of `add_share` calls (same order of summands).  Which of several exceptions is raised first may differ.
* Indices of variables are natural numbers (negative Python indices are not used by the package for variables).
* What is logged and when, timing and plotting styles are not modelled (the logger itself is, C115, and the main results in the log, C122; `RichHandler`'s layout and handlers of the root logger are not); file names only as far as the log and the results of a calculation (C108, C109).
* In C108, C109 Pyomo together with the solver program is an arbitrary function of the model, the request and the values held before.
* `tsam` is an arbitrary source of clusters; a segment solver is an arbitrary function of its indices and start values.
* `json.dump` followed by `json.load` is the identity on strings, numbers, booleans, `None`, lists and dictionaries with
  text keys; `pd.DataFrame` of a dictionary is modelled by its rules for lengths and scalars; YAML and date texts are given parsed.

## Trusted base

Lean 4.33 kernel; Mathlib as installed; axioms `propext`, `Classical.choice`, `Quot.sound` only (no own axioms, no
`sorry`, no `native_decide`/`bv_decide`).  `decide +kernel` is evaluated by the kernel.  Faithfulness of
the hand-written model to the Python text is argued by the line references in the comments of each definition and is not
machine-checked.

## Plan per property

* **C01** Vector constraints mean what add_summand/add_constant say — op-list execution + translation; induction over the op list: row i = spec sum with broadcasting.
* **C02** as_sum sums exactly the requested indices — exact contribution of SumOfSummand; equality for whole variables / permutations; counterexample for other index lists (code defect) -> `_partial`.
* **C03** Length mismatches are rejected when the summand is added, and what is accepted can be translated — invariant of `_update_length` over all call histories; translatability for well-shaped parts; counterexample with a length-1 array constant -> `_partial`.
* **C04** Every solution respects the declared variable bounds, fixed variables included — translate_variable + constructor check.
* **C05** Reported results of binary variables agree with the solver — int8 truncation modelled; exact integers are preserved; counterexample 1-1e-7 -> `_partial`.
* **C06** A flow with on/off parameters is zero when off and inside its limits when on — OnOff rows <-> semi-continuous spec.
* **C07** A component is on exactly when one of its flows is on — multi-flow OnOff rows + flow-level OnOff rows.
* **C08** On and off are complementary — off rows.
* **C09** Consecutive on/off hours are tracked exactly — induction over time on the duration rows against an independent run-length spec.
* **C10** Minimum and maximum consecutive hours hold for every run — from C09 plus the minimum/maximum rows, stated on runs of the schedule.
* **C11** Duration constraints exclude nothing else — construct the duration assignment, show all rows hold.
* **C12** Starts are counted exactly and limited — switch rows, counting by induction.
* **C13** Total on hours — as_sum row.
* **C14** The previous state of a component is on when any of its flows was on — model of `_previous_on_values`; counterexample for scalar previous values of several flows -> `_partial`.
* **C15** Length of the run before the horizon — model of `get_consecutive_duration`; counterexample -> `_partial` with the exact set of cases in which it is right.
* **C16** Investment size is inside its limits, or zero when optional and not invested — InvestmentModel rows.
* **C17** An optional investment may always be declined — construct the all-zero assignment; counterexample with a positive minimum -> `_partial`.
* **C18** A flow never exceeds what is installed — InvestmentModel rows on the defining variable.
* **C19** Investment effects are charged correctly — share rows.
* **C20** Piecewise-linear relations — MultipleSegments rows <-> piecewise spec, both directions, any number of segments.
* **C21** Effect totals are the sum of all contributions — replay of all add_share calls; induction over the share list.
* **C22** The objective is the objective effect plus all penalties — objective translation.
* **C23** Limits on effects hold — bounds of the share allocation variables.
* **C24** Shares between effects are well-founded — construction histories give a rank function; uniqueness by induction on rank.
* **C25** At most one standard and one objective effect — invariant over call histories.
* **C26** Effect values given by the user all arrive — heap of dictionary objects; counterexample for shared dictionaries -> `_partial`.
* **C27** Energy balance at every bus — bus rows, any number of flows.
* **C28** Excess makes every bus solvable at the declared price — construct excess values; penalty rows.
* **C29** Every bus a flow is connected to is modelled — registry state machine with object identities; counterexample for two buses with one label -> `_partial`.
* **C30** Linear converters convert as declared — conversion rows.
* **C31** Named converters conserve energy — constructors of linear_converters + C30.
* **C32** Storage balance — charge-state rows, closed form by induction.
* **C33** Initial and final charge states are respected — initial/final rows; counterexamples -> `_partial`.
* **C34** Prevented simultaneous use — prevent-simultaneous rows + C06.
* **C35** Transmission losses — transmission rows; crash on zero absolute losses shown -> `_partial`.
* **C36** A transmission with investment has one size — size row; missing check shown -> `_partial`.
* **C37** Flow hours and load factors — as_sum row + load factor rows.
* **C38** A fixed profile is followed — bounds; counterexample with on/off -> `_partial`.
* **C39** A size of zero means no flow — counterexample (0 is treated as unset) -> `_partial`.
* **C40** Step widths add up to the horizon — telescoping sum.
* **C41** last_time_step_hours is a number of hours — unit arithmetic; counterexample for non-hour resolution -> `_partial`.
* **C42** A calculation sees the data the user gave, whatever ran before — TimeSeries state machine, all histories.
* **C43** Internal compression of constant series is invisible — compression / as_vector round trip.
* **C44** Segments cover the horizon — arithmetic of ranges.
* **C45** Combined segment results are one value per step from the right segment — combination on lists; single-step last segment counterexample -> `_partial`.
* **C46** Each segment starts where the previous one was left — index arithmetic; counterexample for truncated segments -> `_partial`.
* **C47** A segmented calculation leaves the user's start values unchanged — state machine with failing segment; counterexample on exception -> `_partial`.
* **C48** A segmented calculation works on the selected time indices — counterexample (offset ignored) -> `_partial`.
* **C49** Aggregation makes equal periods equal — cluster index computation + equality rows.
* **C50** Aggregation corrections are bounded — correction rows, counting.
* **C51** Aggregation weights of a group sum to one — weights; counterexample agg_weight=0 -> `_partial`.
* **C52** Everything that was modelled reaches the solver exactly once — tree traversal.
* **C53** Duplicate labels are refused — dictionary merging with KeyError.
* **C54** Valid labels give distinct full labels — strings.
* **C55** A flow system never contains two elements of the same label — registry state machine; counterexamples -> `_partial`.
* **C56** Flattened results keep every value — flatten on trees; counterexample -> `_partial`.
* **C57** Saving and loading results is lossless — structural induction on data trees.
* **C58** The balance table of a bus sums to zero — from C27 through the result table.
* **C59** Results shown belong to the last solve — state machine; counterexample (cached results) -> `_partial`.
* **C60** Heat map reshaping loses nothing — list arithmetic.
* **C61** Configuration merging — structural recursion on configuration trees.
* **C62** Created time arrays are regular — list arithmetic; frequency text parsing.
* **C63** A horizon of a single time step can be modelled — models built on one step; the code refuses on/off models and buses with excess (counterexamples), flows without on/off work -> `_partial`.
* **C64** Time-varying limits of the charge state can be used — every such storage is refused because limits have n and the charge state n+1 entries: proved for all inputs (`C64_wrong`).
* **C65** Aggregated calculations demand equal steps and whole periods — arithmetic of step widths.
* **C66** Deviations from the aggregation cost exactly the given penalty — share rows of the collected system.
* **C67** Component results are complete — dictionary construction from labels; coinciding labels lose values (counterexamples) -> `_partial`.
* **C68** Configuration loading — validation functions; counterexamples for missing sections and ranges -> `_partial`.
* **C69** The model handed to the solver is closed and its translation keeps its meaning — `Refs`/`Vars` invariants of every builder, then of the collected system; look-up with the list of known variables = look-up without. `C69_translated` needs a system without loose ends (C85).
* **C70** Reported model sizes are those of the translated model — lengths through the translation; names differ by their counter; the further number `nr_of_constraints` is always 0 (`C70_nr_wrong`).
* **C71** Bookkeeping never restricts operation — the rows of the collection (`collection_iff`) are solved explicitly for given totals; closedness (`physical_refs`) carries the rest over; effects without limits by iteration along a ranking.
* **C72** Solvable as soon as each component is — solutions of single components are glued (disjoint labels, closed models), buses are balanced by their excess, C71 adds the bookkeeping.
* **C73** Order of elements — every builder maps permuted inputs to models with permuted variables and labels (`Alike`); solutions through the row characterisations, which only contain sums and memberships.
* **C74** Nothing is lost between the buses — the bus balances are summed up; every flow occurs at exactly one bus.
* **C75** Main results say what the solution says — `Model/MainResults.lean`; keys of the investments are distinct because the labels of the size variables are; effects `_partial` (keys must be distinct).
* **C76** Optimal solutions have no needless excess — a solution with excess on both sides is turned into a cheaper one (`lessExcess`); values of the effects are rebuilt with `solution_complete`.  Not covered: steps whose penalty times width is 0.
* **C77** A component that may stay idle never makes the optimum worse — solutions are carried over by `transfer`; `C77_plain` gives a sufficient condition in terms of declared limits for components without on/off parameters and investments.
* **C78** Energy does not come from nowhere — per component from its rows (`Lossy` conditions on declared data), summed over the horizon with the bus balances of C74; transmissions only with an input for every output (`_partial`).
* **C79** The reported network is the modelled network — `Model/Network.lean` over the histories of `Model/Registry.lean`; `_partial` because the code neither checks labels of buses nor that a flow object is used once.
* **C80** What the checks of a converter make sure of — the check is characterised by a list of conditions; the freedom by rank-nullity over the matrix of factors, independent of the model's rows; an example shows that the count of equations is needed.
* **C81** A storage of undecided capacity — `storage_iff` with `investRows_iff`; `_wrong` because the bounds of `charge_state` use the smallest capacity even when nothing is built; the exact set including that extra condition is proved.
* **C82** The solutions are exactly what the declarations allow — `CompPlan.Allows`, `StoragePlan.Allows`, `CompPlan.Transmits` state the declarations without the model; the flow, on/off, investment and segment models are each completed (`flow_complete`, `onOff_complete`, `invest_complete`, `seg_complete`) and put together because their labels differ (`glue_pairs`); `C82_system` does the same for the whole model. The converse (`C82_*_sound`): from the rows each solution of a component, converter, storage or transmission is read off as a plan (`planOf`, `compPlanOf`, `storagePlanOf`, `transPlanOf`) that keeps the same conditions, for declarations that make sense (`CompData.Proper`, …: fitting lengths, nonnegative limits, distinct flow labels). Partial: the plans must respect conditions that the code adds (an optional size without states can be declined only if its smallest size forces no rate, C17; a profile with an investment also holds while off; a size shared by two directions is 0 or at least `eps`), and the history of a component is the one the code computes (C14).
* **C83** Sensible declarations are modelled and translated without an exception — `Spec/Sensible.lean` and `Spec/Named.lean` say what is sensible without the model (shapes, histories, known effects, an objective, usable labels); each sub model is shown to succeed and to be translated (`MTree.Fine`, `model_good`, `bus_good`, `collection_good`); labels are put together from keys (`VT`, `CT`, `vlabel_inj`, `clabel_inj`) and all keys of a model are different (`KL`, `model_keys`, `coll_keys`). That no row is refused by Pyomo for want of a variable is C85, hence the hypothesis `System.Tied`.
* **C84** Valid and different labels never collide — from the same lemmas. Partial: storages `A` (with an initial charge state) and `A_initial` collide (`C84_wrong`).
* **C85** Every row handed to Pyomo mentions a variable — `Spec/Tied.lean` says what may not be left loose; `MTree.Talks` is an invariant of every builder (`*_talks`), and a constraint that talks has only rows with terms (`talks_rows`). `checkRows` models the refusal.
* **C86** What a segmented calculation reports — recursion of `_combine_nested_scalars` followed along paths (`combineScalars_arr`); the record of transferred start values is an invariant of the loop (`SegState.Recorded`). Partial: a series with a single value in the last segment is in neither of the combined results; start values changed between construction and run are not shown.
* **C87** A segmented calculation is an operation of the whole horizon — the model of a segment is the model of the system cut to its steps (`System.window`); C82 turns a solution of each segment into a plan, plans are joined step by step (`Lemmas/Window*`), and C82 the other way round gives a solution of the whole; effects and buses are joined with `collection_iff` and `buses_iff`; the loop of segments (`SegCalc.Trace`, C46) supplies the start values; `C87_segment` shows that `System.window` cuts time data and series exactly as `get_time_data_from_indices` and `active_data` do for the indices of a segment. Partial: only for systems without couplings over distant steps (`System.Uncoupled`); the `_wrong` theorems show that these couplings break the statement. Starts may cost something (`C87_starts_partial`, `C87_cost_starts_partial`, `C87_run_starts_partial`) where the state at the end of a segment can be read off the flow rates handed over (`Comp.Clear`, or from the declarations: `Comp.Readable`): the start variables of every solution are determined by states and history (`Lemmas/Starts`), so they agree wherever states and history do. Limits on durations are excluded there; within a segment they are those declared for its steps (`C87_runs`, `C87_runs_flow`).
* **C88** Tables show the solution — `toDataframe` follows results.py:133-198; the dictionaries of elements and flows are looked up with the label lemmas of C58 (`element_lookup`, `flow_lookup`), threshold, repeated row and index in `frame_eq`. Partial: labels of components and buses must not contain two underscores in a row and flows must not be labelled like sub models (the code only logs); both factors given; only `flow_rate`.
* **C89** Modelling a flow system leaves nothing behind that changes the next model — what `do_modeling` writes into the flows is modelled (`Comp.modelled`) and shown to be idempotent and invisible to every builder; induction over the history. Partial: absolute losses of transmissions must be nonzero in all or in none of the selections (`C89_selection_wrong`).
* **C90** Plots show the table — every table has different names, columns of one length and only columns beyond the threshold (`toDataframe_shape`), so the three classes of area columns are disjoint (`three_perm`); stacked bars by induction over the columns; buses with the row sums of C88. Partial: the data of heat maps are C113, drawing them is not modelled; matplotlib cannot draw the default mode; `with_plotly` called directly draws a column of zeros twice.
* **C91** Every part of a solution of the whole horizon solves its segment — the converse of C87: C82 turns the solution into plans, plans are cut (`Lemmas/Cut`: rates, states, durations, contents, curves), C82 on the window turns the cut plans into a solution. Partial: the same systems as C87 (with costs of starts: `C91_starts_partial`, `C91_chain_starts_partial`), and limits for the final charge state only where they apply to the real end (`StorageData.OpenEnd`); `C91_chain_partial` does it for all segments of a covering at once.
* **C92** An aggregated calculation is the full calculation with repeating periods — both models contain the same components and buses (`agg_same`); corrections only cause penalties (`agg_direct`), so the totals of the effects carry over in both directions (`solution_complete`, `coll_extend`); the corrections exist by C50. All variables of a component are numbers or cover the horizon and binaries are never fixed (`model_wide`, Lemmas/Lengths), which also removes that assumption from `C49_iff` and `C50_complete`.
* **C93** Mixed solutions — `Lemmas/MILP.lean` turns any solver model into rows and a list of binary places (`model_linear`); rows are preserved by weighted means (`row_mix`), the binary places by agreement.  The cost of a flow system is linear by `solution_cost`.
* **C94** Attained minimum — Fourier–Motzkin elimination over ℚ (`Lemmas/LP.lean`, `LP.attained`), then induction over the binary places (`milp_attained`).
* **C95** Cheapest solutions — every variable named in a share call is bounded in all solutions (`Lemmas/Bounded.lean`, `model_bdd`), so direct effects are bounded; effects by induction over the rank of acyclic shares (`ranked_bdd`; `Props/EffectHistory` shows that effects built by constructors are ranked), penalties are not negative; then C94.  The aggregated calculation through C92, the deviations being at most as many as the aggregated steps (`C95_aggregated`).
* **C96** Systems without a common bus — a solution of the union is split by its physical variables (`solution_complete` rebuilds the effect variables of each part from its own contributions), two solutions are joined by taking each part's variables; totals of effects are unique for ranked shares, so they add (`Props/Apart.lean`).  Limits on effects couple the parts and are excluded.
* **C97** The description determines the problem — `infos` of every class as a document with left-out defaults; each class can be read back up to what the models see (`Lemmas/Infos.lean`), the solver model depends on no more than that (`Lemmas/Norm.lean`), then C73 for the order and C89 for the description saved after modelling.  Two constructor arguments are not stored, and the shortened form (`get_compact_representation`) rounds -> `_partial` (`Props/Infos.lean`).
* **C98** Looser limits — a relation between two descriptions, parameter by parameter (`Spec/Looser.lean`), says which limits are wider.  The rows of every model under narrower limits imply those under wider ones, with on/off and investment variables kept (`Lemmas/Looser*.lean`); effects and buses by their balances (`Props/Looser.lean`).  Sizes that count as 'not given' break it -> `_partial`.
* **C99** Prices — the same relation with prices compared separately (`System.Priced`).  Everything prices multiply is not negative in a solution (`Lemmas/Signs.lean`), so lower prices give lower contributions (`Lemmas/Cheaper.lean`), and by induction over the rank of acyclic shares lower totals; `solution_complete` rebuilds the effect variables (`Props/Cheaper.lean`).
* **C100** Reported results — every model carries its label (`Model/Report`, `NShape.annotate`); a relation says at which path a variable is found (`NTree.HasAt`), and if no two keys of one dictionary coincide the results hold its value there (`results_get`).  Component by component the short labels are shown to differ (`Lemmas/ReportComp*.lean`, `Lemmas/ReportSys.lean`, `good_system`).  The converse needs no condition (`results_only`).  Labels like those of parts of a component, or an effect called like the penalty -> `_partial` (`Props/Report.lean`).
* **C101** Descriptions — the same labelled models; each model's own list is found under `_self` (`describe_get`), nothing else is listed (`describe_only`).  The text of one variable or constraint is not modelled, the described object stands for it.  The flat lists follow by induction over the sub models; those of the constraints lack the inequations -> `_partial`.
* **C102** A segmented calculation can be run again — `SegCalc.Reached`: any runs of one calculation (returned or raised) with start values changed between; induction over the loop gives what `_transfered_start_values` holds after a further run.
* **C103** Units of effects — `System.InUnits` relates two flow systems whose components allow the same and whose prices, limits, shares and penalties differ by a factor per effect (`Spec/Units.lean`).  The values of components and buses are kept, contributions and totals are scaled (`Lemmas/Units.lean`), and `solution_complete` rebuilds the effect variables; the optimum follows with the inverse factors (`Props/Units.lean`).
* **C104** Solver logs — `Model/SolverLog.lean`; the form of a text is an inductive relation (`Shaped`), matching is sound and complete for it (`Lemmas/SolverLog.lean`); groups of digits are complete because the text after them does not begin with a digit.  `_wrong` for CBC logs without sizes.
* **C105** Labels of time series — `Model/SeriesNames.lean`; a label splits uniquely into the full label of the element and a short label, short labels end in fixed texts none of which ends in another (`Lemmas/SeriesNames.lean`).  `C105_iff` says exactly when labels coincide, in terms of the data of converters only (`Spec/SeriesNames.lean`); `_wrong` for a CHP.
* **C106** Names do not matter — renaming of a system in `Spec/Rename.lean`; building commutes with renaming branch by branch, errors included (`Lemmas/Rename.lean`–`Rename3.lean`: trees equal up to a map of labels have the same solutions up to that map); the map of labels exists because labels split uniquely (`Lemmas/Names.lean`), is injective on the variables of the model, and effects are completed by C71 (`Lemmas/Rename4.lean`, `Props/Renamed.lean`).
* **C107** The unit of energy does not matter — the converted system in `Spec/EnergyUnits.lean`; building commutes with conversion branch by branch, errors included (`Lemmas/Scale.lean`–`Scale4.lean`: trees whose variables and rows are multiplied by positive factors have the same solutions up to those factors; rows of powers are multiplied as a whole, rows of states stay); the factor of a label exists because labels split uniquely; effects are completed by C71 (`Lemmas/Scale5.lean`, `Props/EnergyUnits.lean`). `C107_wrong`: with the constants of the configuration left as they are, a flow without a size loses operations.
* **C108** Asking the solver — `Model/Run.lean`: the arguments of each class's call of Pyomo; the names in the manuals are a table in `Spec/Run.lean`.  That no setting is ignored is injectivity of the request; that a calculation uses no other request is stated with two programs that differ elsewhere (`C108_call`).  Partial: console setting of HiGHS, log file, warnings of CPLEX, CBC and GLPK.
* **C109** A run reports its own results — a calculation is a state machine (`RunState`, calls `RunOp`), Pyomo with the solver program any function of model, request and values held before.  Invariant over all histories: results are none or the values held (`RunState.Sound`).  The solution found is what every variable shows since binary variables of a system are never fixed (`system_binary`).  Partial: `results()` and the saved file after results were read or saved once; the objective after a failed run.
* **C110** The time grid does not matter — the finer grid and the system on it in `Spec/Refine.lean`.  Solutions are read as plans (C82), plans are spread over the parts of a step (`Lemmas/Refine*.lean`; contents of storages grow linearly, runs keep their lengths) or averaged over them (`Lemmas/RefineMean.lean`), and put together again with C82 (`Props/Refine.lean`, `Props/RefineBack.lean`).  The plans of C82 carry the decisions and the effects in segments, so investments of every kind keep their size, decision and effects (`SameInvest`).  Partial: storages with losses (`C110_losses_wrong`), with cyclic contents (`C110_cyclic_wrong`) or varying limits, investments in transmissions and costs of starts are not covered; with states per step only the direction to the finer grid holds.
* **C111** An aggregated calculation models the aggregated data — `AggregatedCalculation.do_modeling` from the data of the user to the translated model (`Model/AggRun.lean`): the series with their labels, weights and groups, the request to the clustering (tsam is an arbitrary function `Clusterer` that may fail), the inserted predictions, the model.  The traversal that replaces series and that which lists them are separate; `Spec/AggRun.lean` says what a replaced series is without either (`C111_data`), and a clustering without loss changes nothing (`C111_full`).  Partial: peaks of constant series and corrections with nothing to tie.
* **C112** A named converter created without a warning is physically plausible — the constructors with their arithmetic on the arguments and `check_bounds` (`Model/Named.lean`); silence is characterised by the values per time step and combined with C31 for all solutions (`Props/NamedConv.lean`).  Partial: three constructors reject series, one a COP of 1.
* **C113** Heat maps show every value at its time — resampling, filling, labels and pivoting (`Model/HeatMap.lean`), times in whole minutes since 1970. The calendar is specified separately as a relation that counts days from 1970-01-01 (`Spec/Calendar.lean`); the model's year, month, day and week number are proved to satisfy it for every day. The labels of each format are proved to grow strictly with the slot, hence no two slots meet in a cell and the order is that of time.
* **C114** Selected time steps keep their width — `get_time_data_from_indices`: every width of a selection is a sum of neighbouring widths (telescoping); equality characterized on axes without repeated stamps.
* **C115** Log messages go where the configuration says — the logger as level and list of handlers (`Model/Logging.lean`); all sequences of set-ups and changes of a new logger by induction over the requests, the invariant being that no handler is stricter than the logger; lines are specified by joining (`IsLines`), which determines them (`IsLines.unique`). Partial: `ColoredMultilineFormater` breaks lines at more characters than `MultilineFormater`. Upper case of level names is modelled for ASCII letters.
* **C116** The configuration as a dictionary — every sequence of loads and assignments keeps the declared types (induction), and a configuration with the declared types is what its dictionary loads as (`Props/ConfigDict.lean`). Dictionaries are values: `to_dict` hands out the sections' own `__dict__`, so a caller who writes into the result changes the configuration unchecked; that is not modelled.
* **C117** The drawn network is the reported network — the two loops over nodes and edges (`Model/NetworkPlot.lean`), by induction; that every history of calls can be drawn follows from C79. Partial: what is returned and saved differs from the documentation.
* **C118** A system k times as large costs k times as much — the larger system is written down directly (`Spec/Larger.lean`); it is the old one with all effects in another unit (C103) and then energy in another unit (C107), which is proved by comparing the declarations (`Lemmas/Larger.lean`, `Larger2.lean`); that sensible declarations stay sensible in between and afterwards, so that C83 gives the models, is in `Lemmas/Larger3.lean`, `Larger4.lean`; `Props/Larger.lean`. Investments with piecewise effects are excluded in the property, because C103 lets only effects without pieces change their unit. `C107_exists`: the model in another unit of energy exists.
* **C119** An effect that is only observed changes nothing — the system without the effect is written down by filtering its prices out of all declarations (`Spec/Watched.lean`); components restrict equally in both directions (`Lemmas/Watched.lean`), contributions to the other effects are equal and totals can be left out or filled in (`Lemmas/Watched2.lean`), declarations stay sensible, so that C83 gives both models (`Lemmas/Watched3.lean`); `Props/Watched.lean`. An effect named in a piecewise investment is excluded in the property: its pieces would have to be removed from the segments as well.
* **C120** The description of a clustering — `describe_clusters` with the dictionary of extreme periods as state (`Model/ClusterText.lean`); that a text of the form `a...b` tells `a` and `b` by the digits (`rangeText_inj`), the ranges from C49's index vectors; `Props/ClusterText.lean`. Partial: the description deletes what it describes.
* **C121** A high enough penalty avoids every avoidable excess — no new model: in a mixed-integer linear model a large enough multiple of a quantity that is never negative makes up for what its being zero costs (`Lemmas/Exact.lean`: elimination of all variables but the cost and the excess, a tight inequality at the cheapest operation without excess gives the multiple; finitely many binary decisions). Applied to the hours of excess of a flow system, whose other costs are bounded (C95); `Spec/Penalties.lean` says what it means that systems differ in penalties only and that a system does not know excess; `Props/Penalties.lean`. `C121_default` shows that the default of 1e5 is not high enough for every system.
* **C122** The log of a calculation shows its main results — the messages of `SystemModel.solve` after solving and `apply_formating` with its formats (`Model/SolveLog.lean`); a shown number is read again by an independent reader of decimal texts (`Spec/Shown.lean`), the order by the stability of the sorting; the values from C75; `Props/SolveLog.lean`. Floats are exact numbers here; how Python shows the total penalty in the last warning is a parameter.
* **C123** Dearer excess is used less — no new model: a solution stays one under other penalties with the same other costs (`other_penalties`), so two cheapest solutions can be compared under both; `Spec/Dearer.lean`, `Props/Dearer.lean`.
* **C124** What gets dearer is not used more — no new model: the system with another price of one flow has the same variables and constraints except for the shares, so each cheapest solution, with its effects recomputed, is a solution of the other system (`other_prices`); adding the two comparisons gives the claim; `Spec/Prices.lean`, `Lemmas/Prices.lean`, `Props/Prices.lean`. Fixed investment effects, start-up and running effects are in C126.
* **C125** A change of prices costs between what is bought afterwards and what was bought before — no new model: the least costs before and after are compared through `other_prices` (C124); with it, a dearer fixed load changes no decision, and an unused flow may become dearer without effect; `Spec/Bill.lean`, `Props/Bill.lean`. Component labels and flow labels within a component are taken as distinct (otherwise one change of prices would hit several flows).
* **C126** Dearer starts, running hours and investments are not chosen more often — no new model: as C124, for the prices of on/off states of flows and of components and for the fixed effects of an optional investment; the switch variables exist in the code whatever the prices are (interface.py:190-203), so both systems have the same ones; `Spec/StartPrices.lean`, `Props/StartPrices.lean`. Starts are counted by the switch-on variable of the code.
* **C127** Limits of effects cut off exactly what exceeds them — no new model: components and buses are modelled alike whatever the limits are, and the limits enter only as bounds of sums of the effects (effects.py:148-180, features.py:732-818), so a solution keeping other limits can be completed to a solution under them (`solution_complete`); `Spec/EffLimits.lean`, `Props/EffLimits.lean`. Both systems have to build; per-hour limits are scalars or series of the right length.
* **C128** The choice of the objective changes the objective only — no new model: `is_objective` enters the model only in the expression that is minimised (effects.py:324-331), so solutions carry over as in C127; `Spec/Aim.lean`, `Props/Aim.lean`. The amounts compared include the penalties, which the code adds to whatever the objective is.
* **C129** A cap on an effect can be kept exactly if it is not below the least amount of it — no new model: C127 for the cap and C128 for the change of the objective; `Spec/EffCap.lean`, `Props/EffCap.lean`. Buses with penalties are left out, since the code adds the penalties to whatever is minimised, and then the optimum for an effect need not have the least amount of it (`C129_penalty_wrong`: the optimum emits 40, a cap of 10 can be kept).

## Where the code disagrees with a property

Each of these is a theorem about the model (name in brackets) with a concrete witness; the part that holds is the `_partial` theorem.

* **C02** `as_sum` with an index list: the code indexes a list of summands by *value* of the index, not by position (`C02_wrong_sum`).
* **C03** a one-element array constant on a longer constraint is accepted but cannot be translated (`C03_untranslatable`); a refused `add_constant` has already replaced the constant (`C03_failed_constant_wrong`).
* **C05** binary values are truncated, 1-1e-7 is reported as 0 (`C05_wrong`).
* **C09, C15** hours before the horizon are wrong for some histories of several values (`C09_wrong`, `C15_wrong`).
* **C14** scalar previous values of several flows are read as a time sequence (`C14_scalars_wrong`).
* **C16, C39** a size, fixed size or maximum size of 0 counts as not given (`C16_wrong`, `C39_wrong`, `C39_wrong_max`).
* **C17** declining is infeasible with a positive minimum and no on/off (`C17_wrong`).
* **C26** a dictionary object shared by two elements loses the value of the standard effect (`C26_wrong`, `C26_lost`).
* **C29** of two bus objects with one label only one is modelled (`C29_wrong`).
* **C33** final limits are ignored without an initial charge state; `lastValueOfSim` compares states 0 and n-1 (`C33_final_wrong`, `C33_last_wrong`).
* **C35** absolute losses of 0 raise `AttributeError` (`C35_zero_wrong`).  **C36** the consistency check is never called (`C36_refused_wrong`).
* **C38** a flow with a fixed profile and on/off may be off (`C38_wrong`).
* **C40** backwards or negative indices are accepted with negative widths (`C40_wrong`).
* **C41** `last_time_step_hours` is a number of ticks of the axis (`C41_wrong`).
* **C42** holds for one flow system; a time series object shared with another flow system keeps that system's state (`C42_other_system_wrong`).
* **C44** a negative overlap is accepted and leaves steps out (`C44_negative_wrong`).
* **C45** a last segment of one step drops all series; a second run mixes results (`C45_single_wrong`, `C45_second_run_wrong`).
* **C46** segments cut by the end of the horizon hand over the wrong step or raise (`C46_wrong`, `C46_index_error`).
* **C47** start values are not restored after an exception, and values set after construction are lost (`C47_raise_wrong`, `C47_later_wrong`).
* **C48** `time_indices` other than the first steps are ignored (`C48_wrong`).
* **C49** the first position of every period is not tied (`C49_first_wrong`).  **C50** the limit is over all ties, the docstring says per period (`C50_per_period_wrong`).
* **C51** `agg_weight=0` becomes 1 (`C51_wrong`).
* **C55** flows and buses are never tested for equal labels (`C55_wrong`).
* **C56** joined keys collide; the branch against it cannot be reached (`C56_wrong`).
* **C57** an empty array comes back as an empty list (`C57_wrong`).
* **C58** one step raises `ValueError`; a flow labelled `OnOff` raises `KeyError` (`C58_single_wrong`, `C58_label_wrong`).
* **C59** `results()` is cached and stale after a second solve, also in the saved file (`C59_wrong`).
* **C62** years and months raise, fractional frequencies are taken as 1 (`C62_wrong`).
* **C63** on/off models and buses with excess raise on a single step (`C63_onOff_wrong`, `C63_excess_wrong`).
* **C64** no storage with a time-varying limit is solvable (`C64_wrong`).
* **C67** results of equally labelled flows or variables overwrite each other (`C67_flow_wrong`, `C67_storage_wrong`).
* **C68** defaults are not merged, missing sections are accepted or raise after the configuration was replaced, ranges are not tested (`C68_missing_wrong`, `C68_failed_wrong`, `C68_range_wrong`).
* **C70** `nr_of_constraints` counts a list a `SystemModel` never fills: always 0 (`C70_nr_wrong`).
* **C75** two effects may share the key `label [unit]` (`C75_effects_wrong`); `excess_threshold` is ignored (`C75_threshold_wrong`).
* **C78** a transmission with `out2` but without `in2` delivers on `out2` without taking anything in (`C78_wrong`).
* **C79** a bus named like a component replaces its node; a flow object used by two components is balanced twice but drawn once (`C79_wrong`).
* **C81** an optional storage whose relative minimum times its smallest capacity is positive cannot be declined (`C81_forced`, `C81_wrong`).
* **C82** a line for both directions whose mandatory size is positive but below `eps` has no solution, since the second direction's investment is optional (`C82_shared`, `C82_wrong`).
* **C84** storages labelled `A` (with an initial charge state) and `A_initial` both have a constraint `A_initial_charge_state`; the model is refused with a `KeyError` though both labels are valid (`C84_wrong`).
* **C85** the checks of a converter accept `conversion_factors=[{}]`; the converter is modelled, but Pyomo refuses the row `0 == 0` (`C85_checks_wrong`).
* **C86** a series that is a scalar in a segment of one step and an array in the others is in neither of the combined results (`C86_complete_wrong`); `start_values_of_segments` shows the values at construction for the first segment, not the ones used (`C86_start_wrong`).
* **C87** a limit on the total over the horizon (`C87_total_wrong`), on the time of operation (`C87_duration_wrong`), on the number of starts (`C87_count_wrong`) or a cyclic charge state (`C87_cyclic_wrong`) is kept by every segment although the whole horizon has no solution at all; a limit for the final charge state is imposed on every segment, so that the segmented calculation fails although the whole horizon has a solution (`C87_final_wrong`). A component with several flows is taken for stopped at the beginning of a segment if its last flow is, whatever the others do, and pays for another start (`C87_starts_wrong`). Every segment decides on the size of an investment for itself, so that the combined flow rates may belong to no size at all (`C87_size_wrong`).
* **C88** a component labelled like a flow of another one (`Gen__Q`) is modelled and solved, but `to_dataframe` raises for that label (`C88_clash_wrong`).
* **C89** a line whose absolute losses are zero in the morning cannot be modelled for the morning alone if it lacks on/off parameters (AttributeError), but it can after the afternoon has been modelled (`C89_selection_wrong`).
* **C90** `plot_operation(label, engine='matplotlib')` always raises: the default mode 'area' is refused by `with_matplotlib` (`C90_default_wrong`); a column of zeros given to `with_plotly` is in both classes of columns and drawn twice (`C90_zero_wrong`).
* **C91** optimal segments can get stuck: the first segment sells what the second one needs, so every segmented calculation with optimal segments fails although the whole horizon has a solution (`C91_greedy_wrong`).
* **C95** a negative penalty for excess is accepted: the model is built and has solutions, but no cheapest one, since both excesses of a bus grow together without limit (`C95_wrong`).
* **C97** `Storage` and `Transmission` do not store whether simultaneous flows are prevented, so `infos` shows `None` whatever was given (`C97_storage_wrong`, `C97_transmission_wrong`); `to_json` rounds time series to two decimals, 0.501 and 0.502 give the same file (`C97_json_wrong`).
* **C98** a size of 0 is replaced by the largest size (`size or CONFIG.modeling.BIG`), so a generator of size 0 serves a load of 10 whereas one of size 5 does not (`C98_wrong`).
* **C100** an effect called "penalty" is modelled and optimised, but the results of the penalty take its place: its values are reported nowhere (`C100_penalty_wrong`); a flow labelled "OnOff" at a component with on/off parameters loses its results (`C100_flow_wrong`).
* **C101** `description_of_constraints(structured=False)` lists only equations, and `all_inequations` never adds those of sub models (`C101_inequations_wrong`).  (`overview_of_model_size` asks constraints for an attribute they do not have; not modelled.)
* **C102** a second run of the same `SegmentedCalculation` does not start from the user's start values but from the end of the first run (`if self.sub_calculations`), and results are combined over both runs (`C102_start_wrong`, `C102_results_wrong`).
* **C104** a CBC log with the kinds of variables but without the sizes raises a `TypeError` (`None - int`) instead of giving what it says (`C104_cbc_wrong`, exactly when: `C104_cbc_iff`).
* **C105** all factors of a flow in the equations of a converter, and all support points, get one label; so a CHP whose two efficiencies change over time, or a converter with two support points that do, makes every aggregated calculation fail with an `AssertionError` (`C105_chp`, `C105_wrong`, exactly when: `C105_iff`).
* **C107** the configured constants are bare numbers: converting only the data to another unit of power changes which operations are possible, because a flow without a size is limited by BIG (`C107_wrong`); with the constants converted the unit does not matter (`C107`).
* **C108** `HighsSolver` ignores `solver_output_to_console` (`C108_console_wrong`); `FullCalculation.solve` replaces the solver's `logfile_name` by its own path, so a log file given by the user is never used (`C108_logfile_wrong`), and without saving HiGHS writes to a file called `None` (`C108_none_wrong`); CPLEX, CBC and GLPK never warn that an answer is not optimal (`C108_warns_wrong`), and their messages do not tell it either (`C108_message_wrong`).
* **C109** `Calculation.results` keeps what it returned first: after another run, or even after another `do_modeling`, it returns the old dictionary (`C109_kept`, `C109_results_wrong`), and saving writes it to the file of the new run (`C109_saved_wrong`).  `result_of_objective` is not reset, so it survives a failed run (`C109_objective_wrong`).  If the solver ends without a solution and without an exception on a second run, Pyomo still holds the old values and they are returned as new ones (`C109_stuck_wrong`).
* **C110** the losses of a storage are a share of the content at the beginning of a step times the width of the step (`1 - loss * dt`), not a power: the longer the steps, the more is lost, and a model that can be solved with hourly steps may have no solution with longer ones (`C110_losses_wrong`).  `lastValueOfSim` compares the first content with the one before the last step (C33), so a model may lose its solutions when the last step is divided (`C110_cyclic_wrong`).
* **C111** a `TimeSeriesData` whose data do not change is no column of the data to be clustered, but its label is still handed over if it is named for peaks: the clustering is asked for a column that does not exist (`C111_peaks_wrong`); with `percentage_of_period_freedom` > 0 and no two periods in one cluster the limit on the corrections has no variable and the calculation fails (`C111_free_wrong`).
* **C112** `CHP` (`eta_el + eta_th`), `CoolingTower` (`-specific_electricity_demand`) and `HeatPumpWithSource` (`COP / (COP - 1)`) calculate with arguments documented as "float or TS"; `TimeSeriesData` has no arithmetic, so each raises `TypeError` (`C112_series_wrong`); `HeatPumpWithSource` with a COP of 1 fails with `ZeroDivisionError` before it can warn (`C112_one_wrong`).
* **C113** `plot_operation(mode='heatmap')` hands over the frame of all flows of a component, but `heat_map_data_from_df` shows `df.columns[0]` only: frames that differ in all other columns give the same heat map (`C113_columns_wrong`). The docstring says that a combination without a format falls back to numerical indices; it is an `AssertionError` (`C113_invalid`).
* **C114** `time_indices` with gaps are accepted, and the step before a gap is as wide as itself and the gap: its energy, effects and running hours are counted for hours that were not selected (`C114_wrong`, `C114_widths`).
* **C115** On the console a message is also broken at carriage returns, vertical tabs, form feeds and other separators (`splitlines` in config.py:177, `split('\n')` in config.py:148): the lines behind them have no time and level, and different messages look the same (`C115_console_wrong`). A file that cannot be opened makes `setup_logging` raise when the console is already set up. `setup_logging` accepts `log_file=None`, but the validation of the configuration (config.py:70) refuses it, so a configuration cannot switch the file off.
* **C117** `visualize_network` returns the network only without path and with `show=False`; with the default path it returns `None`, which the documentation reserves for a missing `pyvis`. `path=False`, documented as "created but not saved", writes `network.html` if the network is shown (`C117_wrong`).
* **C120** `describe_clusters` copies `tsam.extremePeriods` only at the top (`copy()`) and then deletes the entry `profile` of every extreme period, which deletes it in `tsam` as well: whenever peaks are kept, the clustering is changed by being described (`cluster()` does so for the log), and describing it again raises a `KeyError` (`C120_wrong`).

## Mutation tests

`seeded/LOG.jsonl` has one line per seeded bug: definition, edit, claim, theorems that failed, theorems tightened.  Edits marked as
repairs or controls are equivalent or correct a defect of the code; they must break the `_wrong` theorems only.
