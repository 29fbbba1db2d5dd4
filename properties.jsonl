{"id": "C01", "title": "Vector constraints mean what add_summand/add_constant say", "statement": "An Equation (Inequation) built by any sequence of successful add_summand and add_constant calls over whole variables or explicit indices is handed to the solver as exactly `length` scalar rows, where row i states: sum over the summands of factor[i]*variable[index i] (scalars and length-1 index lists broadcast to every row) equals (is at most) the sum of the constants at i.", "quantifier": "every sequence of add_summand/add_constant calls, every factor/constant/index shape, every assignment of values to variables", "why_tests_cant": "The number of call sequences and shape combinations is unbounded; a test fixes one shape.", "anchors": ["flixOpt/math_modeling.py:_Constraint.add_summand", "flixOpt/math_modeling.py:_Constraint.add_constant", "flixOpt/math_modeling.py:_Constraint._update_length", "flixOpt/math_modeling.py:Summand", "flixOpt/math_modeling.py:PyomoModel.translate_equation", "flixOpt/math_modeling.py:PyomoModel._summand_math_expression"]}
{"id": "C02", "title": "as_sum sums exactly the requested indices", "statement": "add_summand(variable, factor, indices, as_sum=True) contributes sum_k factor[k]*variable[indices[k]] to every row, for every list of indices.", "quantifier": "every variable, factor and list of indices", "why_tests_cant": "Only full-range sums are used in tests; the claim ranges over all index lists.", "anchors": ["flixOpt/math_modeling.py:SumOfSummand", "flixOpt/math_modeling.py:PyomoModel._summand_math_expression"]}
{"id": "C03", "title": "Length mismatches are rejected when the summand is added, and what is accepted can be translated", "statement": "A constraint's length is always 1 or the common length of all its vector parts; a call whose length does not fit raises and leaves the left side and the length unchanged; a constraint that was assembled without exception is translated without exception.", "quantifier": "every sequence of add_summand/add_constant calls", "why_tests_cant": "Needs all call histories, including those with a failing call in the middle.", "anchors": ["flixOpt/math_modeling.py:_Constraint._update_length", "flixOpt/math_modeling.py:_Constraint.add_constant", "flixOpt/math_modeling.py:_Constraint.constant_vector", "flixOpt/utils.py:as_vector"]}
{"id": "C04", "title": "Every solution respects the declared variable bounds, fixed variables included", "statement": "In every solution of the translated model each entry of each variable lies within its lower_bound/upper_bound, binaries are 0 or 1, and a variable with fixed_value has exactly that value; a fixed value outside the bounds is refused when the variable is created.", "quantifier": "every variable declaration and every solution", "why_tests_cant": "Solutions form an infinite set; fixed variables bypass the bounds in the translated model so the guarantee rests on the construction-time check for all shapes.", "anchors": ["flixOpt/math_modeling.py:Variable", "flixOpt/math_modeling.py:PyomoModel.translate_variable"]}
{"id": "C05", "title": "Reported results of binary variables agree with the solver", "statement": "After solve, the reported value of a binary variable is the 0/1 value nearest to the value the solver returned (solvers return integers up to a tolerance).", "quantifier": "every value a solver may return within its integrality tolerance", "why_tests_cant": "Test solvers return exact integers on small models; tolerance-level deviations depend on the solver run.", "anchors": ["flixOpt/math_modeling.py:PyomoModel.solve"]}
{"id": "C06", "title": "A flow with on/off parameters is zero when off and inside its limits when on", "statement": "In every solution, a flow with on_off_parameters has flow_rate 0 in each time step where its on state is 0, and where it is 1 the flow rate is between size*relative_minimum (but at least epsilon) and size*relative_maximum. Conversely each such pair of on state and flow rate satisfies the generated constraints.", "quantifier": "every solution, every time step, every size and relative bound series", "why_tests_cant": "Tests look at one optimal solution; the claim is about all feasible ones.", "anchors": ["flixOpt/features.py:OnOffModel._add_on_constraints", "flixOpt/elements.py:FlowModel.do_modeling", "flixOpt/elements.py:FlowModel.absolute_flow_rate_bounds"]}
{"id": "C07", "title": "A component is on exactly when one of its flows is on", "statement": "In every solution, the on state of a component with on_off_parameters is 1 in a time step if and only if at least one of its flows is on (non-zero) in that step.", "quantifier": "every number of flows, every solution, every time step", "why_tests_cant": "All feasible solutions of models with any number of flows.", "anchors": ["flixOpt/elements.py:ComponentModel.do_modeling", "flixOpt/features.py:OnOffModel._add_on_constraints"]}
{"id": "C08", "title": "On and off are complementary", "statement": "Whenever off states are modelled, in every solution exactly one of on, off is 1 in each time step.", "quantifier": "every solution and time step", "why_tests_cant": "All feasible solutions.", "anchors": ["flixOpt/features.py:OnOffModel._add_off_constraints"]}
{"id": "C09", "title": "Consecutive on/off hours are tracked exactly", "statement": "In every solution the variable of consecutive on (off) hours equals, in every time step, the time the unit has been continuously on (off) up to the end of this step, including the time before the first step given by the previous values, and 0 while it is off (on).", "quantifier": "every horizon length, every step width, every on/off schedule, every previous duration", "why_tests_cant": "Inductive over the horizon and quantified over all schedules.", "anchors": ["flixOpt/features.py:OnOffModel._get_duration_in_hours"]}
{"id": "C10", "title": "Minimum and maximum consecutive hours hold for every run", "statement": "With consecutive_on_hours_min/max (or off) given, in every solution every completed run lasts at least the minimum that holds at its last step and no run exceeds the maximum; the unit is kept on at the first step when the run that was going before the horizon is still shorter than the minimum.", "quantifier": "every horizon, step widths, schedules, solutions", "why_tests_cant": "Needs all schedules on horizons of any length.", "anchors": ["flixOpt/features.py:OnOffModel._get_duration_in_hours"]}
{"id": "C11", "title": "Duration constraints exclude nothing else", "statement": "Every on/off schedule whose runs respect the given minimum and maximum durations can be extended to values of the duration variable that satisfy all generated constraints (the big-M is large enough).", "quantifier": "every horizon, step width, schedule and previous duration", "why_tests_cant": "A too small big-M cuts off schedules only on particular horizons; no finite set of tests covers them.", "anchors": ["flixOpt/features.py:OnOffModel._get_duration_in_hours"]}
{"id": "C12", "title": "Starts are counted exactly and limited", "statement": "In every solution switch_on is 1 exactly in the steps where the unit goes from off to on (the step before the first is the last previous value), switch_off exactly where it goes from on to off, the reported number of starts equals their count and never exceeds switch_on_total_max.", "quantifier": "every horizon, schedule and solution", "why_tests_cant": "All feasible schedules.", "anchors": ["flixOpt/features.py:OnOffModel._add_switch_constraints"]}
{"id": "C13", "title": "Total on hours", "statement": "In every solution the reported total on hours equal the sum of the widths of the steps in which the unit is on, and respect on_hours_total_min/max.", "quantifier": "every horizon, step widths and solution", "why_tests_cant": "All feasible schedules.", "anchors": ["flixOpt/features.py:OnOffModel.do_modeling"]}
{"id": "C14", "title": "The previous state of a component is on when any of its flows was on", "statement": "The state before the first step used for switch and duration constraints is on exactly when at least one of the flows of the component had a previous_flow_rate above epsilon, for scalar and array-valued previous flow rates.", "quantifier": "any number of flows, all previous values", "why_tests_cant": "Combination of number of flows and shapes is unbounded.", "anchors": ["flixOpt/features.py:OnOffModel._previous_on_values"]}
{"id": "C15", "title": "Length of the run before the horizon", "statement": "The duration carried into the first time step is the total width of the trailing block of ones of the previous on values.", "quantifier": "all binary sequences and step widths", "why_tests_cant": "Infinite family of sequences.", "anchors": ["flixOpt/features.py:OnOffModel.get_consecutive_duration"]}
{"id": "C16", "title": "Investment size is inside its limits, or zero when optional and not invested", "statement": "In every solution the size variable is fixed_size or lies in [minimum_size, maximum_size] when the investment is not optional; when optional it is 0 exactly when the decision is 0 and otherwise fixed_size or in [max(epsilon, minimum_size), maximum_size].", "quantifier": "every InvestParameters, every solution", "why_tests_cant": "All feasible solutions and parameters.", "anchors": ["flixOpt/features.py:InvestmentModel", "flixOpt/interface.py:InvestParameters"]}
{"id": "C17", "title": "An optional investment may always be declined", "statement": "If optional=True then size 0 together with a flow rate of 0 in all time steps satisfies every constraint and bound generated for the flow's investment.", "quantifier": "every InvestParameters, relative bounds and profiles of a flow", "why_tests_cant": "Depends on the combination of sizes, relative minima, profiles.", "anchors": ["flixOpt/features.py:InvestmentModel", "flixOpt/elements.py:FlowModel.absolute_flow_rate_bounds"]}
{"id": "C18", "title": "A flow never exceeds what is installed", "statement": "In every solution with an investment the flow rate is at most size*relative_maximum and, whenever the flow is on (or has no on/off state), at least size*relative_minimum; with a fixed profile it equals size*profile.", "quantifier": "every solution, every time step", "why_tests_cant": "All feasible solutions.", "anchors": ["flixOpt/features.py:InvestmentModel._create_bounds_for_defining_variable"]}
{"id": "C19", "title": "Investment effects are charged correctly", "statement": "In every solution the invest share of an element to an effect equals fix_effects (if invested) + divest_effects (if optional and not invested) + specific_effects*size + the interpolated value of effects_in_segments.", "quantifier": "every InvestParameters and solution", "why_tests_cant": "All feasible solutions.", "anchors": ["flixOpt/features.py:InvestmentModel._add_shares", "flixOpt/features.py:SingleShareModel", "flixOpt/features.py:SegmentedSharesModel"]}
{"id": "C20", "title": "Piecewise-linear relations", "statement": "In every solution, in every time step, the coupled variables lie together, at one common position, on exactly one of the given segments, or are all 0 when the segments are switched off; and every such point satisfies the constraints.", "quantifier": "every number of segments and variables, every solution and step", "why_tests_cant": "All feasible points of any number of segments.", "anchors": ["flixOpt/features.py:MultipleSegmentsModel", "flixOpt/features.py:SegmentModel"]}
{"id": "C21", "title": "Effect totals are the sum of all contributions", "statement": "In every solution the operation total of an effect is the sum over all time steps of the contributions of all flows, switching, running hours and other effects; the invest total is the sum of all invest contributions; the overall total is their sum.", "quantifier": "every set of contributions and every solution", "why_tests_cant": "Unbounded number of elements; all feasible solutions.", "anchors": ["flixOpt/features.py:ShareAllocationModel", "flixOpt/effects.py:EffectModel", "flixOpt/effects.py:EffectCollectionModel._add_share_to_effects"]}
{"id": "C22", "title": "The objective is the objective effect plus all penalties", "statement": "The minimised value equals, in every solution, the overall total of the objective effect (operation + invest) plus the total penalty.", "quantifier": "every flow system and solution", "why_tests_cant": "All feasible solutions.", "anchors": ["flixOpt/effects.py:EffectCollectionModel.do_modeling", "flixOpt/structure.py:SystemModel.do_modeling"]}
{"id": "C23", "title": "Limits on effects hold", "statement": "In every solution minimum/maximum_operation, _invest, _total and the per-hour limits (times the step width) hold for the totals and for every time step.", "quantifier": "every limit combination and solution", "why_tests_cant": "All feasible solutions.", "anchors": ["flixOpt/effects.py:EffectModel", "flixOpt/features.py:ShareAllocationModel"]}
{"id": "C24", "title": "Shares between effects are well-founded", "statement": "Effects built through the public constructor can never refer to each other in a circle, so the totals of all effects are uniquely determined by the direct contributions.", "quantifier": "every sequence of Effect constructions", "why_tests_cant": "All construction histories and all share graphs.", "anchors": ["flixOpt/effects.py:Effect", "flixOpt/effects.py:EffectCollectionModel.add_share_between_effects"]}
{"id": "C25", "title": "At most one standard and one objective effect", "statement": "After any sequence of add_effect calls, failed ones included, the collection has at most one standard effect, at most one objective effect and unique labels, and a failed call leaves the collection unchanged.", "quantifier": "every call history", "why_tests_cant": "Histories are unbounded.", "anchors": ["flixOpt/effects.py:EffectCollection.add_effect"]}
{"id": "C26", "title": "Effect values given by the user all arrive", "statement": "Every effect value given by the user for a flow (scalar, or a dictionary with or without the standard effect) is used for this flow, however often and in whichever order elements are prepared and even when the same dictionary object is given to several elements.", "quantifier": "every assignment of dictionary objects to elements and every order and number of preparations", "why_tests_cant": "Aliasing and repeated preparation histories are unbounded.", "anchors": ["flixOpt/effects.py:effect_values_to_time_series", "flixOpt/effects.py:as_effect_dict"]}
{"id": "C27", "title": "Energy balance at every bus", "statement": "In every solution, in every time step, for every bus the sum of the flows entering the bus plus excess input equals the sum of the flows leaving plus excess output; without an excess penalty inflow equals outflow exactly.", "quantifier": "every bus, number of flows, solution, time step", "why_tests_cant": "All feasible solutions of arbitrary networks.", "anchors": ["flixOpt/elements.py:BusModel.do_modeling"]}
{"id": "C28", "title": "Excess makes every bus solvable at the declared price", "statement": "For a bus with excess penalty, any non-negative flow rates can be completed with non-negative excess values satisfying the balance; the penalty charged is the sum over time of penalty*excess*width for both directions and is zero only if the flows balance (positive penalties and widths).", "quantifier": "every flow assignment and penalty", "why_tests_cant": "All flow assignments.", "anchors": ["flixOpt/elements.py:BusModel.do_modeling"]}
{"id": "C29", "title": "Every bus a flow is connected to is modelled", "statement": "After any sequence of successful add_components calls, each Bus object that a flow of an added component is connected to gets its balance constraint in the model.", "quantifier": "every sequence of additions, every sharing of bus objects and labels", "why_tests_cant": "Registration histories are unbounded.", "anchors": ["flixOpt/flow_system.py:FlowSystem.buses", "flixOpt/flow_system.py:FlowSystem.add_components"]}
{"id": "C30", "title": "Linear converters convert as declared", "statement": "In every solution, in every time step and for every given set of conversion factors, the factor-weighted sum of the inputs equals the factor-weighted sum of the outputs.", "quantifier": "every converter, factor set, solution and step", "why_tests_cant": "All feasible solutions.", "anchors": ["flixOpt/components.py:LinearConverterModel.do_modeling"]}
{"id": "C31", "title": "Named converters conserve energy", "statement": "Boiler, Power2Heat, HeatPump, CHP, CoolingTower and HeatPumpWithSource give, in every solution, output = efficiency*input; a heat pump with source satisfies P_el + Q_ab = Q_th; a CHP never outputs more than fuel*(eta_el+eta_th).", "quantifier": "every efficiency/COP value or series, every solution", "why_tests_cant": "All feasible solutions and parameters.", "anchors": ["flixOpt/linear_converters.py"]}
{"id": "C32", "title": "Storage balance", "statement": "In every solution the charge state follows c(t+1)=c(t)*(1-loss*dt)+charge*eta_c*dt-discharge*dt/eta_d for every step, hence it equals the closed form over the whole history; without losses and with ideal efficiencies, energy is conserved; and the charge state stays within its relative bounds of the capacity.", "quantifier": "every horizon, step widths, loss and efficiency series, every solution", "why_tests_cant": "Induction over the horizon.", "anchors": ["flixOpt/components.py:StorageModel"]}
{"id": "C33", "title": "Initial and final charge states are respected", "statement": "A given initial_charge_state, minimal_final_charge_state, maximal_final_charge_state hold in every solution, and initial_charge_state='lastValueOfSim' makes the charge state at the end of the horizon equal to that at its start.", "quantifier": "every storage and solution", "why_tests_cant": "All feasible solutions and parameter combinations.", "anchors": ["flixOpt/components.py:StorageModel._model_initial_and_final_charge_state"]}
{"id": "C34", "title": "Prevented simultaneous use", "statement": "In every solution, in every time step, at most one of the flows declared as not simultaneously usable is non-zero (storage charging/discharging, source/sink, both transmission directions).", "quantifier": "every number of flows, solution and step", "why_tests_cant": "All feasible solutions.", "anchors": ["flixOpt/features.py:PreventSimultaneousUsageModel", "flixOpt/elements.py:ComponentModel.do_modeling"]}
{"id": "C35", "title": "Transmission losses", "statement": "In every solution, for each direction and step, out = in*(1-relative_losses) - absolute_losses while the line is used and both are zero while it is not; absolute_losses=0 behaves as no absolute losses.", "quantifier": "every loss series and solution", "why_tests_cant": "All feasible solutions.", "anchors": ["flixOpt/components.py:TransmissionModel"]}
{"id": "C36", "title": "A transmission with investment has one size", "statement": "A bidirectional transmission with an investment on the first direction has the same size in both directions in every solution, and an inconsistent transmission (different buses, second investment) is refused.", "quantifier": "every transmission and solution", "why_tests_cant": "All feasible solutions and declarations.", "anchors": ["flixOpt/components.py:Transmission", "flixOpt/components.py:TransmissionModel"]}
{"id": "C37", "title": "Flow hours and load factors", "statement": "In every solution the reported flow hours equal the sum of flow_rate*width, respect flow_hours_total_min/max, and lie between load_factor_min and load_factor_max times size times horizon length.", "quantifier": "every horizon, widths, solution", "why_tests_cant": "All feasible solutions.", "anchors": ["flixOpt/elements.py:FlowModel._create_bounds_for_load_factor", "flixOpt/elements.py:FlowModel.do_modeling"]}
{"id": "C38", "title": "A fixed profile is followed", "statement": "A flow with fixed_relative_profile has flow_rate = size*profile in every solution and step.", "quantifier": "every profile, size and solution", "why_tests_cant": "All feasible solutions.", "anchors": ["flixOpt/elements.py:FlowModel"]}
{"id": "C39", "title": "A size of zero means no flow", "statement": "A flow declared with size=0 (or an investment with maximum_size=0 or fixed_size=0) carries no flow in any solution.", "quantifier": "every solution", "why_tests_cant": "All feasible solutions.", "anchors": ["flixOpt/elements.py:Flow.__init__", "flixOpt/interface.py:InvestParameters"]}
{"id": "C40", "title": "Step widths add up to the horizon", "statement": "For every selection of time indices accepted by a calculation the step widths are non-negative and sum to end time minus start time; there is one width per step.", "quantifier": "every time axis and index selection", "why_tests_cant": "All time axes and index lists.", "anchors": ["flixOpt/flow_system.py:FlowSystem.get_time_data_from_indices", "flixOpt/utils.py:check_time_series"]}
{"id": "C41", "title": "last_time_step_hours is a number of hours", "statement": "With last_time_step_hours=h the width of the last step is h hours, whatever the resolution of the time stamps; without it it repeats the width before.", "quantifier": "every time axis resolution and h", "why_tests_cant": "All resolutions and values.", "anchors": ["flixOpt/flow_system.py:FlowSystem.__init__"]}
{"id": "C42", "title": "A calculation sees the data the user gave, whatever ran before", "statement": "After preparing a calculation for time indices I, every time series delivers exactly the user's data at I (a scalar delivers the scalar), for every history of earlier calculations (full, segmented, aggregated) on the same flow system.", "quantifier": "every history of activations, aggregations and clearings", "why_tests_cant": "Histories are unbounded.", "anchors": ["flixOpt/core.py:TimeSeries", "flixOpt/structure.py:_create_time_series"]}
{"id": "C43", "title": "Internal compression of constant series is invisible", "statement": "Storing a constant series as a scalar never changes the values seen by constraints: expanding to the number of steps gives back the given series.", "quantifier": "every series", "why_tests_cant": "All series.", "anchors": ["flixOpt/core.py:TimeSeries.make_scalar_if_possible", "flixOpt/utils.py:as_vector"]}
{"id": "C44", "title": "Segments cover the horizon", "statement": "A SegmentedCalculation's segments are consecutive, start every segment_length steps, cover every time step of the horizon, contain nothing outside, and all but the last have at least segment_length steps.", "quantifier": "every horizon, segment length and overlap", "why_tests_cant": "All triples of integers.", "anchors": ["flixOpt/calculation.py:SegmentedCalculation._get_indices", "flixOpt/calculation.py:SegmentedCalculation"]}
{"id": "C45", "title": "Combined segment results are one value per step from the right segment", "statement": "The combined time series has exactly one value per time step, taken from the segment that owns the step at the right local position, for every result series and any segment length and overlap.", "quantifier": "every horizon, segment length, overlap and result trees", "why_tests_cant": "All triples and all nested results.", "anchors": ["flixOpt/calculation.py:_combine_nested_arrays", "flixOpt/calculation.py:SegmentedCalculation.results"]}
{"id": "C46", "title": "Each segment starts where the previous one was left", "statement": "The start values given to segment k+1 are the values of segment k at the last time step before segment k+1 begins, so that combined flow and charge-state series have no jump.", "quantifier": "every horizon, segment length and overlap", "why_tests_cant": "All triples of integers.", "anchors": ["flixOpt/calculation.py:SegmentedCalculation._transfer_start_values"]}
{"id": "C47", "title": "A segmented calculation leaves the user's start values unchanged", "statement": "After do_modeling_and_solve returns or raises, every flow's previous_flow_rate and every storage's initial_charge_state are those the user set.", "quantifier": "every number of segments and every point at which a segment may fail", "why_tests_cant": "All crash points.", "anchors": ["flixOpt/calculation.py:SegmentedCalculation.do_modeling_and_solve", "flixOpt/calculation.py:SegmentedCalculation._reset_start_values"]}
{"id": "C48", "title": "A segmented calculation works on the selected time indices", "statement": "The union of the segments' time indices is the time_indices given by the user.", "quantifier": "every selection of time indices", "why_tests_cant": "All selections.", "anchors": ["flixOpt/calculation.py:SegmentedCalculation._get_indices"]}
{"id": "C49", "title": "Aggregation makes equal periods equal", "statement": "In every solution of an aggregated calculation without corrections, the aggregated variables have the same value at the same position of all periods of the same cluster; positions not sharing a cluster are left free.", "quantifier": "every cluster assignment, period length and solution", "why_tests_cant": "All cluster assignments.", "anchors": ["flixOpt/aggregation.py:AggregationModel.equate_indices", "flixOpt/aggregation.py:Aggregation.get_equation_indices"]}
{"id": "C50", "title": "Aggregation corrections are bounded", "statement": "With percentage_of_period_freedom p, a binary variable may deviate from its cluster representative in at most round(p/100*steps) of the tied steps, and each deviation flips it in the right direction.", "quantifier": "every p, cluster assignment and solution", "why_tests_cant": "All feasible solutions.", "anchors": ["flixOpt/aggregation.py:AggregationModel.equate_indices"]}
{"id": "C51", "title": "Aggregation weights of a group sum to one", "statement": "For every group of time series with the same agg_group, the clustering weights sum to 1; other series get exactly the given agg_weight, or 1 when none was given.", "quantifier": "every collection of time series", "why_tests_cant": "All collections.", "anchors": ["flixOpt/aggregation.py:TimeSeriesCollection"]}
{"id": "C52", "title": "Everything that was modelled reaches the solver exactly once", "statement": "All variables, equations and inequations created by any element model or any of its sub-models, nested arbitrarily, are part of the solver model exactly once.", "quantifier": "every tree of element models", "why_tests_cant": "Trees of arbitrary depth and width.", "anchors": ["flixOpt/structure.py:SystemModel.sub_models", "flixOpt/structure.py:ElementModel.all_sub_models", "flixOpt/structure.py:SystemModel.translate_to_modeling_language"]}
{"id": "C53", "title": "Duplicate labels are refused", "statement": "If two different variables (or constraints) of the whole model have the same full label, the model is refused; results per label are therefore unambiguous.", "quantifier": "every tree of element models", "why_tests_cant": "All trees.", "anchors": ["flixOpt/structure.py:SystemModel.all_variables", "flixOpt/structure.py:ElementModel.all_variables", "flixOpt/structure.py:ElementModel.add_variables"]}
{"id": "C54", "title": "Valid labels give distinct full labels", "statement": "For labels accepted as valid, different (component, flow) pairs have different full labels.", "quantifier": "all strings", "why_tests_cant": "All strings.", "anchors": ["flixOpt/utils.py:label_is_valid", "flixOpt/elements.py:Flow.label_full"]}
{"id": "C55", "title": "A flow system never contains two elements of the same label", "statement": "After any sequence of add_components/add_effects/add_elements calls, all elements (components, flows, buses, effects) of the flow system have different full labels, so none of them is overlooked when data is prepared and modelled.", "quantifier": "every call history", "why_tests_cant": "All histories.", "anchors": ["flixOpt/flow_system.py:FlowSystem._check_if_element_is_unique", "flixOpt/flow_system.py:FlowSystem.all_elements"]}
{"id": "C56", "title": "Flattened results keep every value", "statement": "Flattening a nested result dictionary keeps every leaf value under the key made of its path, none is lost.", "quantifier": "every nested dictionary", "why_tests_cant": "All trees.", "anchors": ["flixOpt/results.py:flatten_dict"]}
{"id": "C57", "title": "Saving and loading results is lossless", "statement": "Converting results for saving yields only plain JSON data and loading it again gives the same tree with numeric lists as arrays.", "quantifier": "every result tree", "why_tests_cant": "All trees.", "anchors": ["flixOpt/structure.py:copy_and_convert_datatypes", "flixOpt/utils.py:convert_numeric_lists_to_arrays"]}
{"id": "C58", "title": "The balance table of a bus sums to zero", "statement": "In the table of a bus produced from the results of any solution each row sums to zero (inputs negative, outputs positive, excess included).", "quantifier": "every bus, solution and time step", "why_tests_cant": "All solutions.", "anchors": ["flixOpt/results.py:BusResults", "flixOpt/results.py:ElementResults.to_dataframe"]}
{"id": "C59", "title": "Results shown belong to the last solve", "statement": "calculation.results() returns the values of the most recent solve.", "quantifier": "every sequence of solve and results calls", "why_tests_cant": "All histories.", "anchors": ["flixOpt/calculation.py:Calculation.results"]}
{"id": "C60", "title": "Heat map reshaping loses nothing", "statement": "reshape_to_2d places value k of the series at row k mod steps and column k div steps, and fills only cells beyond the series.", "quantifier": "every series and column height", "why_tests_cant": "All series.", "anchors": ["flixOpt/plotting.py:reshape_to_2d"]}
{"id": "C61", "title": "Configuration merging", "statement": "merge_configs(defaults, overrides) has at every path the override where given and the default otherwise; overrides that are not sections replace, sections are merged recursively; merging is idempotent.", "quantifier": "every pair of nested configurations", "why_tests_cant": "All trees.", "anchors": ["flixOpt/config.py:merge_configs"]}
{"id": "C62", "title": "Created time arrays are regular", "statement": "create_datetime_array returns exactly `steps` time stamps, equally spaced by the requested frequency and starting at start; with `end` all stamps from start strictly before end.", "quantifier": "every start, number of steps, frequency text and end", "why_tests_cant": "All arguments.", "anchors": ["flixOpt/flow_system.py:create_datetime_array"]}
{"id": "C63", "title": "A horizon of a single time step can be modelled", "statement": "A system whose horizon has exactly one time step can be modelled like any longer one: on/off models, buses with excess and effects over one step yield a model, with the same meaning.", "quantifier": "every element and every system on a horizon of one step", "why_tests_cant": "The failure depends on the combination of horizon length and element parameters; the claim is about all of them.", "anchors": ["flixOpt/structure.py:create_variable", "flixOpt/features.py:OnOffModel", "flixOpt/features.py:SingleShareModel"]}
{"id": "C64", "title": "Time-varying limits of the charge state can be used", "statement": "A storage whose relative_minimum_charge_state or relative_maximum_charge_state is a time series of the horizon has a solvable model, in which each charge state respects its own limit.", "quantifier": "every series of limits, every horizon", "why_tests_cant": "Universal statement over series and horizons.", "anchors": ["flixOpt/components.py:StorageModel.absolute_charge_state_bounds", "flixOpt/components.py:StorageModel.do_modeling"]}
{"id": "C65", "title": "Aggregated calculations demand equal steps and whole periods", "statement": "AggregatedCalculation proceeds exactly if all time steps have the same non-zero width and hours_per_period is an integer multiple of it; otherwise it raises, with ValueError exactly for unequal steps.", "quantifier": "every sequence of step widths and every hours_per_period", "why_tests_cant": "All step widths and period lengths, including fractional ones.", "anchors": ["flixOpt/calculation.py:AggregatedCalculation.do_modeling"]}
{"id": "C66", "title": "Deviations from the aggregation cost exactly the given penalty", "statement": "In an aggregated calculation the penalty term of the objective equals the bus penalties plus penalty_of_period_freedom times the number of (variable, step) pairs at which an aggregated binary variable differs from its cluster representative; without freedom nothing is added.", "quantifier": "every system, cluster assignment, percentage, penalty and solution", "why_tests_cant": "All systems and feasible solutions.", "anchors": ["flixOpt/aggregation.py:AggregationModel.do_modeling", "flixOpt/effects.py:EffectCollectionModel.add_share_to_penalty"]}
{"id": "C67", "title": "Component results are complete", "statement": "The results of a component contain each of its variables and each of its flows with the values of the solution, under its own label.", "quantifier": "every accepted system, component and solution", "why_tests_cant": "All labels and component kinds; clashes only appear for particular labels.", "anchors": ["flixOpt/structure.py:ElementModel.results", "flixOpt/elements.py:ComponentModel.do_modeling"]}
{"id": "C68", "title": "Configuration loading", "statement": "load_config either installs a complete configuration with values of the declared types, taking defaults for what the file leaves out, or raises and leaves the configuration as it was.", "quantifier": "every file content and previous configuration", "why_tests_cant": "All files.", "anchors": ["flixOpt/config.py:CONFIG.load_config", "flixOpt/config.py:dataclass_from_dict_with_validation"]}
{"id": "C69", "title": "The model handed to the solver is closed and its translation keeps its meaning", "statement": "Every variable mentioned by a constraint, by a share or by the objective is itself handed to the solver; a component's constraints mention only its own variables and a bus only its excess variables and the rates of its flows. The translation to Pyomo therefore never misses a variable, and the Pyomo model has the same solutions and the same objective.", "quantifier": "every accepted system and every assignment", "why_tests_cant": "All combinations of components, features and effects; a forgotten variable is an error only for the one combination that uses it.", "anchors": ["flixOpt/math_modeling.py:PyomoModel.translate_model", "flixOpt/math_modeling.py:PyomoModel._summand_math_expression", "flixOpt/structure.py:SystemModel.all_variables", "flixOpt/structure.py:SystemModel.all_constraints"]}
{"id": "C70", "title": "Reported model sizes are those of the translated model", "statement": "The numbers of variables, equations, inequations, their single entries and the variables over time reported for a model are the numbers Pyomo receives, and no two Pyomo components share a name whatever the labels are.", "quantifier": "every model that can be translated", "why_tests_cant": "All models and labels, for instance labels that end in numbers.", "anchors": ["flixOpt/math_modeling.py:MathModel.infos", "flixOpt/math_modeling.py:MathModel.nr_of_single_equations", "flixOpt/math_modeling.py:PyomoModel._register_pyomo_comp"]}
{"id": "C71", "title": "Bookkeeping of effects never restricts operation beyond the declared limits", "statement": "Values of all variables of components and buses that respect these components and buses can be completed to a solution of the whole model exactly if there are totals of the effects that add up (direct contributions plus shares of other effects) and keep the declared limits of the effects. Without limits, and with shares between effects that do not run in circles, every such operation can be completed.", "quantifier": "every system that can be modelled and every assignment of its physical variables", "why_tests_cant": "Tests see one optimum; whether share variables, sums and equations of the collection silently exclude admissible operation needs all assignments.", "anchors": ["flixOpt/effects.py:EffectCollectionModel.do_modeling", "flixOpt/features.py:ShareAllocationModel", "flixOpt/features.py:SingleShareModel", "flixOpt/structure.py:SystemModel.do_modeling"]}
{"id": "C72", "title": "With excess at every bus a system is solvable as soon as each component is", "statement": "If every bus has an excess penalty, no effect is limited and the shares between effects do not run in circles (which no sequence of constructor calls can produce), a system has a solution as soon as each of its components, taken alone, has one.", "quantifier": "every system that can be modelled", "why_tests_cant": "Infeasibility caused by the interplay of elements in arbitrary systems cannot be excluded by solving examples.", "anchors": ["flixOpt/elements.py:BusModel.do_modeling", "flixOpt/effects.py:EffectCollectionModel.do_modeling", "flixOpt/structure.py:SystemModel"]}
{"id": "C73", "title": "The order in which elements are added does not matter", "statement": "A system whose effects, components and buses are listed in another order can be modelled as well, has the same variables, the same objective and exactly the same solutions.", "quantifier": "every system that can be modelled and every reordering of its effects, components and buses", "why_tests_cant": "All permutations of arbitrary systems; the order decides the order of summands, shares and sub models everywhere.", "anchors": ["flixOpt/structure.py:SystemModel.do_modeling", "flixOpt/elements.py:BusModel.do_modeling", "flixOpt/effects.py:EffectCollectionModel", "flixOpt/features.py:ShareAllocationModel.add_share"]}
{"id": "C74", "title": "Nothing is lost between the buses", "statement": "In every solution and every step, the sum of all component outputs plus the excess supply of the buses equals the sum of all component inputs plus the excess demand, if every flow is connected to a bus of the system.", "quantifier": "every system that can be modelled, every solution and every step", "why_tests_cant": "Balance over arbitrary networks and all feasible operations.", "anchors": ["flixOpt/elements.py:BusModel.do_modeling", "flixOpt/elements.py:ComponentModel.do_modeling"]}
{"id": "C75", "title": "Main results say what the solution says", "statement": "The penalty reported is what the excess of all buses costs and the objective is the total of the objective effect plus that penalty; a bus is listed (and warned about) exactly if it allows excess and its excess supply or demand exceeds the threshold in total; every element with a size to be found is listed exactly once, as invested or as not invested; every effect is listed with operation, investment and their sum.", "quantifier": "every system that can be modelled, every solution, all units of effects and every threshold", "why_tests_cant": "The dictionaries are keyed by joined strings and filtered by thresholds; whether something is overwritten or missed depends on labels and values of all elements.", "anchors": ["flixOpt/structure.py:SystemModel.main_results", "flixOpt/structure.py:SystemModel.solve"]}
{"id": "C76", "title": "Optimal solutions have no needless excess", "statement": "In every optimal solution, in every step where the excess of a bus has a price, its excess supply is exactly what is missing (0 if nothing is missing) and its excess demand is exactly what is too much (0 if nothing is too much); the two are never positive together.", "quantifier": "every system that can be modelled, every optimal solution, every bus with a penalty and every step with a positive price", "why_tests_cant": "Optimality quantifies over all feasible solutions of arbitrary networks.", "anchors": ["flixOpt/elements.py:BusModel.do_modeling", "flixOpt/effects.py:EffectCollectionModel.do_modeling"]}
{"id": "C77", "title": "A component that may stay idle never makes the optimum worse", "statement": "If a component can be operated so that all its flows are 0 and it costs nothing, then every solution of the system without it is, with unchanged values of all components, buses and effects, part of a solution of the system with it with the same objective; conversely an idle component can be left out; so adding it never raises the optimal objective.", "quantifier": "every system and component that can be modelled, every solution", "why_tests_cant": "Holds for all networks and all feasible solutions; a hidden coupling between elements would show only in particular combinations.", "anchors": ["flixOpt/flow_system.py:FlowSystem.add_components", "flixOpt/structure.py:SystemModel.do_modeling"]}
{"id": "C78", "title": "Energy does not come from nowhere", "statement": "If every component that is not a declared source or sink is lossy (boilers, CHPs, heat pumps counted with their heat source, storages with efficiencies at most 1, transmissions with losses at most 1, conversion tables in which every point puts out at most what it takes in), then in every solution the energy such components give out over the horizon is at most what they take in plus what storages held in stock; so everything sinks receive is covered by sources, excess supply and initial stock.", "quantifier": "every system that can be modelled, every solution, every choice of sources and sinks", "why_tests_cant": "A statement about all feasible points of all networks; a leak shows only at particular combinations of flows.", "anchors": ["flixOpt/components.py:LinearConverterModel.do_modeling", "flixOpt/components.py:TransmissionModel.do_modeling", "flixOpt/components.py:StorageModel.do_modeling", "flixOpt/elements.py:BusModel.do_modeling"]}
{"id": "C79", "title": "The reported network is the modelled network", "statement": "network_infos lists exactly the added components and the buses of their flows as nodes, each with its kind, and exactly the flows as edges, from the bus to the component for an input and from the component to the bus for an output; every edge connects two listed nodes, and the edges at a bus are exactly the flows of its balance with the right sign.", "quantifier": "every history of calls, every order in which Python runs through a set", "why_tests_cant": "Histories are unbounded and label clashes arise only for particular names and orders.", "anchors": ["flixOpt/flow_system.py:FlowSystem.network_infos", "flixOpt/elements.py:Flow.is_input_in_comp"]}
{"id": "C80", "title": "What the checks of a converter make sure of", "statement": "A linear converter is accepted exactly if it has either conversion factors or segments, fewer conversion equations than flows, factors only for its own flows and, with segments, no flow of undecided size; every accepted converter with conversion factors has, in every time step, flow rates that are not all zero and satisfy all its conversion equations.", "quantifier": "every converter, every factors, every time step", "why_tests_cant": "The freedom of a system of equations depends on all factors at once; examples check single matrices.", "anchors": ["flixOpt/components.py:LinearConverter._plausibility_checks", "flixOpt/components.py:LinearConverter.degrees_of_freedom", "flixOpt/components.py:LinearConverterModel.do_modeling"]}
{"id": "C81", "title": "A storage of undecided capacity allows exactly the intended operation", "statement": "With an investment as capacity, the solutions are exactly: the flows of the flow models, a capacity that is declined (0, if optional) or allowed, a content between the relative limits times the built capacity, the balance and the conditions at start and end.", "quantifier": "every storage with an investment as capacity, every assignment", "why_tests_cant": "Equivalence over all assignments; an additional restriction shows only at particular parameters (it does: a declined storage).", "anchors": ["flixOpt/components.py:StorageModel.do_modeling", "flixOpt/components.py:StorageModel.absolute_charge_state_bounds", "flixOpt/features.py:InvestmentModel.do_modeling"]}
{"id": "C82", "title": "The solutions are exactly what the declarations allow", "statement": "Values for rates, sizes, decisions to invest, their effects in segments, states and contents that respect what is declared for a component (limits relative to the installed size, schedules, flow hours, load factors, conversion, balance of a storage, losses of a line) are taken over by a solution of the component's model; and solutions of all components that fit together at the buses, with effect totals that keep their limits, are taken over by a solution of the whole model. Conversely every solution of a component's model is such a plan. Nothing the user allows is lost in the constraints, and nothing else gets in.", "quantifier": "all components of the five kinds, all plans, all systems", "why_tests_cant": "A test can show that one intended operation is feasible and one unintended one is not; that no constraint anywhere cuts off an intended operation, and that no unintended one remains, is a statement about all plans.", "anchors": ["flixOpt/elements.py:FlowModel.do_modeling", "flixOpt/elements.py:ComponentModel.do_modeling", "flixOpt/components.py:StorageModel.do_modeling", "flixOpt/components.py:TransmissionModel.do_modeling", "flixOpt/components.py:LinearConverterModel.do_modeling", "flixOpt/structure.py:SystemModel.do_modeling"]}
{"id": "C83", "title": "Sensible declarations are modelled and translated without an exception", "statement": "A system whose values have the right shapes, whose dictionaries of effects name declared effects once, whose histories go together, with an objective and with usable labels, is modelled completely and handed to Pyomo without any exception, and the Pyomo model has exactly the solutions of the modelled one.", "quantifier": "all systems of components of the five kinds, buses and effects over all horizons of more than one step", "why_tests_cant": "Every test shows that one system does not raise; that no combination of options of components, effects and labels raises is a statement about all systems.", "anchors": ["flixOpt/structure.py:SystemModel.do_modeling", "flixOpt/structure.py:SystemModel.all_variables", "flixOpt/structure.py:SystemModel.all_constraints", "flixOpt/math_modeling.py:PyomoModel.translate_model", "flixOpt/effects.py:EffectCollectionModel.do_modeling", "flixOpt/elements.py:ComponentModel.do_modeling", "flixOpt/components.py:StorageModel.do_modeling", "flixOpt/components.py:TransmissionModel.do_modeling", "flixOpt/components.py:LinearConverterModel.do_modeling"]}
{"id": "C84", "title": "Valid and different labels never collide", "statement": "If the labels of all components, buses and effects, and of the flows of each component, are valid, not empty and pairwise different, then all variables and all constraints of the whole model have different labels, so that a model whose parts can be built is never refused because of a duplicate.", "quantifier": "all systems, all strings as labels", "why_tests_cant": "A collision needs a particular pair of labels; a test tries a few labels, the statement is about all strings.", "anchors": ["flixOpt/structure.py:SystemModel.all_variables", "flixOpt/structure.py:SystemModel.all_constraints", "flixOpt/structure.py:create_variable", "flixOpt/structure.py:create_equation", "flixOpt/utils.py:label_is_valid", "flixOpt/features.py:ShareAllocationModel.add_share", "flixOpt/components.py:StorageModel._initial_and_final_charge_state"]}
{"id": "C85", "title": "Every row handed to Pyomo mentions a variable", "statement": "In a system without loose ends (every bus has a flow or an excess penalty, every conversion of a converter names one of its flows, segments are not empty) every scalar row of every constraint of the model has at least one summand, so that Pyomo, which refuses a row that is only a comparison of numbers, accepts all of them.", "quantifier": "all systems, all constraints, all indices", "why_tests_cant": "A row without variables needs a particular combination of missing declarations; that no builder can produce one is a statement about all declarations.", "anchors": ["flixOpt/math_modeling.py:PyomoModel.translate_equation", "flixOpt/math_modeling.py:PyomoModel.translate_inequation", "flixOpt/components.py:LinearConverter._plausibility_checks", "flixOpt/components.py:LinearConverterModel.do_modeling", "flixOpt/elements.py:BusModel.do_modeling", "flixOpt/features.py:MultipleSegmentsModel.do_modeling"]}
{"id": "C86", "title": "What a segmented calculation reports", "statement": "Exactly one of the three options of results must be chosen. Combined scalars have at a path exactly the list of the scalars that all segments have there, in order; no path has both combined arrays and combined scalars; every result is in one of the two; individual results stand under the name of their segment; and the overview of start values names every segment with the start values its model was built with.", "quantifier": "all numbers of segments, all result trees, all solvers, all start values", "why_tests_cant": "The recursion over nested dictionaries and the bookkeeping over the loop of segments concern arbitrary trees and arbitrarily many segments, also runs that raise in the middle.", "anchors": ["flixOpt/calculation.py:SegmentedCalculation.results", "flixOpt/calculation.py:_combine_nested_scalars", "flixOpt/calculation.py:SegmentedCalculation.start_values_of_segments", "flixOpt/calculation.py:SegmentedCalculation._transfer_start_values"]}
{"id": "C87", "title": "A segmented calculation is an operation of the whole horizon", "statement": "If no declaration couples distant time steps (no limits on totals over the horizon, on durations or on numbers of starts, no investment decisions, no cyclic or final charge state), a segmented calculation that runs to its end gives combined results that are part of a solution of the model of the whole horizon. The objective of that solution is the sum of the costs of the kept steps, so that the optimum of the whole horizon is never worse than the segmented one. With any of the named couplings the statement fails.", "quantifier": "all systems without such couplings, all segment lengths and overlaps, all solvers that return solutions of the segment models", "why_tests_cant": "The statement joins arbitrarily many models with arbitrary solutions at their borders; a test sees one solver's choice for one system.", "anchors": ["flixOpt/calculation.py:SegmentedCalculation.do_modeling_and_solve", "flixOpt/calculation.py:SegmentedCalculation._transfer_start_values", "flixOpt/calculation.py:_combine_nested_arrays", "flixOpt/core.py:TimeSeries.active_data", "flixOpt/flow_system.py:FlowSystem.get_time_data_from_indices"]}
{"id": "C88", "title": "Tables show the solution", "statement": "For the label of a component, a bus or a flow, to_dataframe gives a table with exactly one column for each flow concerned (and for the excess of a bus) whose values somewhere exceed the threshold; the column has the flow rates of the solution times the factor of its side, repeated once at the end of the horizon if asked for, and the index has the time stamps. Without a threshold and with opposite factors every row of a bus table sums to zero. Unknown labels raise.", "quantifier": "all systems with more than one step, all solutions, all factors, all thresholds, all labels", "why_tests_cant": "Dictionaries are merged by labels that are concatenated from user input; that no label shadows another is a statement about all labels.", "anchors": ["flixOpt/results.py:CalculationResults.to_dataframe", "flixOpt/results.py:ComponentResults.to_dataframe", "flixOpt/results.py:BusResults.to_dataframe", "flixOpt/results.py:FlowResults.to_dataframe", "flixOpt/results.py:CalculationResults.flow_results"]}
{"id": "C89", "title": "Modelling a flow system leaves nothing behind that changes the next model", "statement": "do_modeling writes into the declared flows (missing on/off parameters, the size of the second direction of a transmission). Nevertheless a flow system that has been modelled any number of times, for any selections of time steps, is modelled for the next selection exactly as if it was modelled for the first time.", "quantifier": "all systems, all histories of calculations and segments with the same flow system, all selections of time steps", "why_tests_cant": "Whether something left behind matters depends on the whole history of calculations; tests model a flow system once or twice.", "anchors": ["flixOpt/elements.py:ComponentModel.do_modeling", "flixOpt/components.py:TransmissionModel.do_modeling", "flixOpt/calculation.py:SegmentedCalculation.do_modeling_and_solve"]}
{"id": "C90", "title": "Plots show the table", "statement": "plot_operation draws every column of the table of the element exactly once, under its name, with its values and the colour of its position. As an area a column is stacked upwards (downwards) exactly if none of its values is negative (positive) beyond 1e-5. Bars of matplotlib are stacked: each positive part stands on the positive parts before it, each negative part hangs below those before it; so at a bus the bars above and below the axis have the same height in every step up to the series hidden by the threshold. plot_storage adds the charge states at all borders of steps.", "quantifier": "all systems, all solutions, all labels, all colours, both engines, all modes except heat maps", "why_tests_cant": "Plots are inspected by eye for a few systems; whether a column is drawn twice or not at all depends on signs and thresholds of all its values.", "anchors": ["flixOpt/plotting.py:with_plotly", "flixOpt/plotting.py:with_matplotlib", "flixOpt/results.py:CalculationResults.plot_operation", "flixOpt/results.py:CalculationResults.plot_storage"]}
{"id": "C91", "title": "Every part of a solution of the whole horizon solves its segment", "statement": "Take any solution of a system over the whole horizon and any run of steps. If the model of those steps starts with what the solution has there — the flow rates of the step before, the charge states at its border — then it has a solution with the same flow rates, states, charge states, excesses and effects in these steps. So a segmented calculation whose segments hand over the values of one solution of the whole horizon never gets stuck. The optimal segments of a real run need not be parts of any solution of the whole.", "quantifier": "all systems in which nothing couples distant steps, all solutions, all selections of consecutive steps, all coverings by segments", "why_tests_cant": "Whether a segment can get stuck depends on all constraints of all components at its borders; a test shows it for one system and one solution.", "anchors": ["flixOpt/calculation.py:SegmentedCalculation", "flixOpt/structure.py:SystemModel", "flixOpt/components.py:StorageModel", "flixOpt/features.py:OnOffModel"]}
{"id": "C92", "title": "An aggregated calculation is the full calculation with repeating periods", "statement": "The solutions of an aggregated calculation are exactly those solutions of the full calculation of the same data whose aggregated variables repeat in the periods of a cluster (apart from the allowed deviations of binary variables and from the first position of the periods). Each costs what it costs in the full calculation plus the penalty for its deviations. So aggregating never finds anything cheaper than the full calculation, and finds the optimum if that repeats.", "quantifier": "all systems, all time axes, all clusterings not longer than the horizon, all aggregation parameters, all assignments", "why_tests_cant": "That the additional equations, corrections and penalties change nothing but the set of admissible operations is a statement about all solutions of two models; tests compare two optima of one system.", "anchors": ["flixOpt/calculation.py:AggregatedCalculation.do_modeling", "flixOpt/aggregation.py:AggregationModel", "flixOpt/effects.py:EffectCollectionModel"]}
{"id": "C93", "title": "Solutions with the same binary decisions can be mixed", "statement": "Everything the code builds is linear apart from the binary variables: if two solutions agree in all binary variables (on, switching, choice of segments, invested or not), every weighted mean of the two is a solution, and it costs the weighted mean of the two costs.", "quantifier": "all models handed to the solver, all flow systems, all pairs of solutions with equal binary decisions, all weights between 0 and 1", "why_tests_cant": "Linearity of every row the code can ever build is a statement about all systems; a product of two variables or a forgotten binary shows up only for particular pairs of solutions.", "anchors": ["flixOpt/math_modeling.py:PyomoModel", "flixOpt/features.py", "flixOpt/elements.py", "flixOpt/components.py"]}
{"id": "C94", "title": "A bounded model has a cheapest solution", "statement": "A model that has a solution and whose objective is bounded below on its solutions attains the minimum: the solver's task is well posed, no infimum is merely approached.", "quantifier": "all models handed to the solver, all linear objectives", "why_tests_cant": "Strict inequalities or infinitely many integer choices would make the minimum unattainable only for particular data; a solver with tolerances hides this.", "anchors": ["flixOpt/math_modeling.py:MathModel", "flixOpt/math_modeling.py:PyomoModel"]}
{"id": "C95", "title": "Every solvable flow system has a cheapest solution", "statement": "If a flow system has a solution, its cost is bounded below and there is a cheapest solution; the same holds for an aggregated calculation of it. Every variable that causes effects is bounded, so no unlimited investment, flow or switching can make the cost sink without end.", "quantifier": "all flow systems whose shares between effects have no cycle and whose excess penalties are not negative, all time axes, all aggregation parameters and clusterings", "why_tests_cant": "A missing bound on one variable makes only those systems unbounded in which this variable has a negative cost; tests have to guess the combination.", "anchors": ["flixOpt/features.py:InvestmentModel", "flixOpt/features.py:OnOffModel", "flixOpt/elements.py:FlowModel", "flixOpt/elements.py:BusModel", "flixOpt/components.py:StorageModel", "flixOpt/effects.py:EffectCollectionModel", "flixOpt/aggregation.py:AggregationModel"]}
{"id": "C96", "title": "Systems without a common bus can be calculated one after the other", "statement": "If two flow systems with the same effects share no bus and no label, and the effects have no limits, then a solution of each put together is a solution of both modelled as one system, and every solution of the whole consists of a solution of each. The effects and costs add up, and the same holds for cheapest solutions.", "quantifier": "all pairs of flow systems with the same effects, no common bus or label, no limits on effects and no cycle in the shares between effects; all time axes; all solutions", "why_tests_cant": "A coupling that should not be there, such as a shared variable or a sum over the flows of all buses, shows only in particular combinations of systems.", "anchors": ["flixOpt/structure.py:SystemModel.do_modeling", "flixOpt/elements.py:BusModel.do_modeling", "flixOpt/effects.py:EffectCollectionModel", "flixOpt/features.py:ShareAllocationModel"]}
{"id": "C97", "title": "The description of a flow system determines its optimization problem", "statement": "The description of a flow system (infos, saved next to the results to document or compare flow systems) tells everything the optimization problem depends on: two flow systems with the same description have the same variables, objective and solutions, in whatever order their elements were added; and the order in which they were added does not change the description.", "quantifier": "all pairs of flow systems with any elements and parameters, before and after modelling; numpy arrays or lists, elements in full or as labels; the saved data file; all time axes", "why_tests_cant": "A parameter that is left out, or that is confused with its default, shows only in a comparison of two systems that differ in exactly that parameter; there is one such pair for each parameter of each class.", "anchors": ["flixOpt/structure.py:Interface.infos", "flixOpt/structure.py:copy_and_convert_datatypes", "flixOpt/flow_system.py:FlowSystem.infos", "flixOpt/flow_system.py:FlowSystem.to_json", "flixOpt/elements.py:Flow.infos", "flixOpt/elements.py:Component.infos", "flixOpt/structure.py:get_compact_representation", "flixOpt/calculation.py:Calculation._save_solve_infos"]}
{"id": "C98", "title": "Looser limits never exclude a solution", "statement": "If limits are loosened (larger sizes, wider bounds on rates, flow hours, load factors, running hours, starts, storage content or effects, a lower penalty for excess or excess newly allowed), every solution can still be operated with the same flow rates and the same effects at no higher cost, so the cheapest solution never becomes more expensive.", "quantifier": "all pairs of flow systems of which one has looser limits than the other, in any number of places at once; all time axes; all solutions", "why_tests_cant": "A limit with the wrong sign or a value that is mistaken for 'not given' makes a problem infeasible or more expensive only for particular combinations of limits.", "anchors": ["flixOpt/elements.py:Flow.__init__", "flixOpt/elements.py:FlowModel.do_modeling", "flixOpt/features.py:InvestmentModel", "flixOpt/features.py:OnOffModel", "flixOpt/components.py:StorageModel", "flixOpt/components.py:TransmissionModel", "flixOpt/effects.py:EffectModel", "flixOpt/elements.py:BusModel"]}
{"id": "C99", "title": "Prices decide between solutions and lower prices never raise the cost", "statement": "With consistent declarations and sizes other than zero: prices (effects per flow hour, start, running hour and size, penalties for excess, shares of one effect in another) do not decide what is feasible; a solution stays one under any other prices, with the same flow rates, if no effect is limited. If prices are lowered, and effects have no lower limits, every solution stays one with the same flow rates in which no effect grows in any step, so neither this solution nor the cheapest one becomes more expensive.", "quantifier": "all pairs of flow systems with different prices in any number of places, also negative prices; all time axes; all solutions", "why_tests_cant": "A price that enters a limit, or enters with the wrong sign or at the wrong step, shows only for particular combinations of prices, shares between effects and operation.", "anchors": ["flixOpt/elements.py:FlowModel._create_shares", "flixOpt/features.py:OnOffModel._create_shares", "flixOpt/features.py:InvestmentModel._create_shares", "flixOpt/features.py:ShareAllocationModel", "flixOpt/effects.py:EffectCollectionModel", "flixOpt/elements.py:BusModel"]}
{"id": "C100", "title": "Reported results contain every variable", "statement": "In the nested results of a solved calculation every variable of the solver's model has its own place with its value, among the results of the component, bus or effect it belongs to; flow rates, charge states and effect totals are found under the labels of their elements; and every number or array among these results is the value of a variable.", "quantifier": "all flow systems whose model is accepted, all time axes, all solutions", "why_tests_cant": "Results are nested by short labels, which may coincide; whether one entry overwrites another depends on the labels the user chooses and on which parts a component has.", "anchors": ["flixOpt/structure.py:SystemModel.results", "flixOpt/structure.py:ElementModel.results", "flixOpt/features.py:ShareAllocationModel.results", "flixOpt/math_modeling.py:Variable.result"]}
{"id": "C101", "title": "Descriptions of the model list every variable and constraint", "statement": "The descriptions of the variables and of the constraints list every variable and every constraint handed to the solver, and nothing else but the objective, both nested by model and as flat lists.", "quantifier": "all flow systems whose model is accepted", "why_tests_cant": "Descriptions are nested by labels chosen by the user, and gathered recursively over sub models that exist only for some parameters.", "anchors": ["flixOpt/structure.py:SystemModel.description_of_variables", "flixOpt/structure.py:SystemModel.description_of_constraints", "flixOpt/structure.py:ElementModel.description_of_variables", "flixOpt/structure.py:ElementModel.description_of_constraints", "flixOpt/structure.py:ElementModel.all_inequations"]}
{"id": "C102", "title": "A segmented calculation can be run again", "statement": "A segmented calculation that is run once more solves the same segments from the user's start values, and its results and its overview of start values are those of the last run; a new calculation on the same flow system after a run that returned does exactly what the first one did.", "quantifier": "all numbers of segments, all solvers, all earlier runs of the calculation whether they returned or raised, all start values set by the user between them", "why_tests_cant": "Any number of earlier runs, each with any outcome, can precede the run in question.", "anchors": ["flixOpt/calculation.py:SegmentedCalculation.do_modeling_and_solve", "flixOpt/calculation.py:SegmentedCalculation._transfer_start_values", "flixOpt/calculation.py:SegmentedCalculation.start_values_of_segments"]}
{"id": "C103", "title": "The units in which effects are counted do not matter", "statement": "If effects are counted in other units, with prices and limits of each effect, the shares of effects in one another and the penalties for excess converted accordingly, every solution is one in the new units too: all variables of components keep their values, every effect is converted in every step and for investments, and the cost is converted like the objective. The cheapest operation is therefore the same in all units.", "quantifier": "all flow systems with consistent declarations and sizes other than zero, all positive conversion factors, a different one for each effect; effects that depend piecewise on a size keep their unit; all time axes; all solutions", "why_tests_cant": "A price, limit or share that enters with a fixed number, at the wrong effect or not at all keeps the ratio only for particular factors and solutions.", "anchors": ["flixOpt/effects.py:EffectModel", "flixOpt/effects.py:EffectCollectionModel", "flixOpt/features.py:ShareAllocationModel", "flixOpt/elements.py:BusModel.do_modeling", "flixOpt/features.py:InvestmentModel", "flixOpt/features.py:OnOffModel"]}
{"id": "C104", "title": "Sizes read from a solver log are those written in it", "statement": "Whatever stands before and after it, the first report on presolving in the log of Gurobi or CBC gives exactly the numbers of rows, columns, nonzeros and kinds of variables that it contains; if the log has no such report nothing is read, and reading never fails.", "quantifier": "all logs, all numbers", "why_tests_cant": "The text around the report and the numbers in it are arbitrary; patterns may match elsewhere, partially, or across several lines.", "anchors": ["flixOpt/math_modeling.py:SolverLog.parse_infos", "flixOpt/math_modeling.py:SolverLog.infos"]}
{"id": "C105", "title": "Time series of a system have different labels", "statement": "If the elements of a system have valid, different labels and its dictionaries refer to declared effects and flows, all time series that change over time have different labels, so the aggregated calculation, which asserts that, accepts them.", "quantifier": "all systems, all data", "why_tests_cant": "Labels are put together from arbitrary labels of elements, flows and effects with fixed texts; whether two coincide depends on every combination of them and on which data change over time.", "anchors": ["flixOpt/structure.py:_create_time_series", "flixOpt/effects.py:effect_values_to_time_series", "flixOpt/components.py:LinearConverter.transform_data", "flixOpt/elements.py:Flow.transform_data", "flixOpt/interface.py:OnOffParameters.transform_data", "flixOpt/aggregation.py:TimeSeriesCollection._unique_labels"]}
{"id": "C106", "title": "Names do not matter", "statement": "If components, flows, buses and effects get other labels, different things different ones, and all references to them follow, every solution is one under the new names and there are no further ones: all flow rates, states, sizes, charge states and excesses, every effect in every step and for investments, and the cost are the same. The cheapest operation is therefore the same under all names, and what is refused in a component is refused with the same error.", "quantifier": "all systems with valid, different labels, all injective renamings for which the renamed system is accepted too, all time axes, all solutions", "why_tests_cant": "Variables, constraints and shares are found by labels put together from arbitrary texts; a comparison with a fixed label, a prefix match or a collision shows only for particular names.", "anchors": ["flixOpt/structure.py:ElementModel", "flixOpt/elements.py:FlowModel", "flixOpt/elements.py:BusModel", "flixOpt/elements.py:ComponentModel", "flixOpt/components.py:StorageModel", "flixOpt/components.py:LinearConverterModel", "flixOpt/components.py:TransmissionModel", "flixOpt/features.py:ShareAllocationModel", "flixOpt/effects.py:EffectCollectionModel"]}
{"id": "C107", "title": "The unit of energy does not matter", "statement": "If powers and energies (sizes, capacities, earlier flow rates, limits of flow hours and charge states, absolute losses, points of segments) and the two configured constants are counted in another unit and prices per flow hour, per size and per unit of excess follow, every solution is one in the new unit and there are no further ones: flow rates, sums of flow hours, sizes, charge states and excesses are converted, all other variables, every effect in every step and for investments, and the cost are the same. The cheapest operation is therefore the same in all units, and what is refused in a component is refused with the same error. If the configured constants are not converted, this fails.", "quantifier": "all systems with valid, different labels that are accepted in both units, all positive factors (the constant EPSILON below 1 in both units), all time axes, all solutions", "why_tests_cant": "A forgotten factor, an absolute tolerance or a comparison with a fixed number shows only for data of a certain magnitude; the claim is about all factors and all combinations of features.", "anchors": ["flixOpt/elements.py:FlowModel", "flixOpt/elements.py:BusModel", "flixOpt/features.py:InvestmentModel", "flixOpt/features.py:OnOffModel", "flixOpt/features.py:MultipleSegmentsModel", "flixOpt/features.py:SegmentedSharesModel", "flixOpt/components.py:StorageModel", "flixOpt/components.py:LinearConverterModel", "flixOpt/components.py:TransmissionModel", "flixOpt/config.py"]}
{"id": "C108", "title": "The solver is asked for what the user set", "statement": "Each solver class asks Pyomo for the solver it is named after and hands it the accepted gap, the limit of time (if the class has one) and the number of threads (HiGHS) under the names of its manual, no setting of a solver object is ignored, the log is written to the chosen file, the termination message tells how the solver stopped, and an answer that is not a proven optimum is reported with a warning.", "quantifier": "all solver classes, settings, earlier calls of the calculation and answers", "why_tests_cant": "All settings and answers of five external programs, none of which need be installed where the tests run.", "anchors": ["flixOpt/math_modeling.py:GurobiSolver.solve", "flixOpt/math_modeling.py:CplexSolver.solve", "flixOpt/math_modeling.py:HighsSolver.solve", "flixOpt/math_modeling.py:CbcSolver.solve", "flixOpt/math_modeling.py:GlpkSolver.solve", "flixOpt/calculation.py:FullCalculation.solve"]}
{"id": "C109", "title": "A run reports its own results", "statement": "After any earlier calls of do_modeling, solve and results on a calculation, a run of solve for which the solver finds a solution returns, every variable has exactly the values of this solution as its result, the objective of the calculation and of the solver object is its cost, and results() and the saved file show this solution; a run that fails leaves no results of an earlier run; at no time does a variable show values other than those the translated model holds.", "quantifier": "all histories of calls, all flow systems, all solvers, all answers of the solver program including failures", "why_tests_cant": "Any number of earlier calls, each with any outcome, can precede the run.", "anchors": ["flixOpt/math_modeling.py:MathModel.solve", "flixOpt/math_modeling.py:PyomoModel.solve", "flixOpt/calculation.py:Calculation.results", "flixOpt/calculation.py:FullCalculation.do_modeling", "flixOpt/calculation.py:FullCalculation.solve", "flixOpt/calculation.py:Calculation._save_solve_infos"]}
{"id": "C110", "title": "The time grid does not matter", "statement": "Divide the steps of the time grid into shorter ones, of equal or different widths, and let everything declared for a step hold for all its parts. Every solution of the model on the given grid is then a solution on the finer grid with the same flow rates and states in every part of a step, the same contents of storages at the beginning of every step, the same sizes and the same total of every effect. If nothing is decided per step (no states, no exclusion of flows, no segments, no absolute losses), the means over the parts of a step turn every solution on the finer grid into one on the given grid with the same contents, sizes and totals, so the smallest value of the objective is the same on both grids. This holds for storages without losses, with fixed limits and without a condition between first and last content, for sizes that are given or decided, with the same decisions and effects of the investments (in transmissions for given sizes), and if starts cost nothing.", "quantifier": "all flow systems, all time grids, all divisions of their steps, all solutions", "why_tests_cant": "Tests compare a few grids; the claim is about every division of every grid and every solution.", "anchors": ["flixOpt/structure.py:SystemModel", "flixOpt/components.py:StorageModel.do_modeling", "flixOpt/elements.py:FlowModel.do_modeling", "flixOpt/features.py:OnOffModel", "flixOpt/effects.py:EffectCollectionModel"]}
{"id": "C111", "title": "An aggregated calculation models the aggregated data", "statement": "An aggregated calculation that can be modelled has asked the clustering for exactly those series of the system that change over time, each once under its own label and with its own share of the weight of its group, for the width of the steps, the length and the number of the periods the user chose; peaks the user asks for are asked of the column with the values of the user's series if it changes over time. What is modelled is the system in which each of these series is replaced by the one predicted for it and nothing else changes, or the system itself if only binary variables are tied. If every period is a cluster of its own and the predicted data are the data, the aggregated calculation has exactly the solutions and costs of the full calculation.", "quantifier": "all flow systems, all data, weights and groups, all aggregation parameters, all answers of the clustering", "why_tests_cant": "The clustering is an external program; a test sees one of its answers for one data set.", "anchors": ["flixOpt/calculation.py:AggregatedCalculation.do_modeling", "flixOpt/aggregation.py:Aggregation.cluster", "flixOpt/aggregation.py:TimeSeriesCollection", "flixOpt/aggregation.py:AggregationParameters.labels_for_high_peaks", "flixOpt/core.py:TimeSeries.__init__"]}
{"id": "C112", "title": "A named converter created without a warning is physically plausible", "statement": "The constructors of Boiler, Power2Heat, HeatPump, CoolingTower, CHP and HeatPumpWithSource accept every number, array and TimeSeriesData for their efficiencies; they log no warning exactly if all values (for CHP also the sums) lie strictly between the documented bounds in every time step; and in every solution a converter created without a warning yields positive output from positive input, never more than its input (Boiler, Power2Heat, CHP), more than the electricity but less than 20 times as much (HeatPump), takes less electricity than the heat removed (CoolingTower), or takes heat from its source so that both inputs add up to the output (HeatPumpWithSource).", "quantifier": "all efficiencies (numbers, arrays, series), all time grids, all flows, all solutions", "why_tests_cant": "The implication from a silent constructor to every solution of the model ranges over all data and all solutions.", "anchors": ["flixOpt/linear_converters.py:check_bounds", "flixOpt/linear_converters.py:Boiler.__init__", "flixOpt/linear_converters.py:Power2Heat.__init__", "flixOpt/linear_converters.py:HeatPump.__init__", "flixOpt/linear_converters.py:CoolingTower.__init__", "flixOpt/linear_converters.py:CHP.__init__", "flixOpt/linear_converters.py:HeatPumpWithSource.__init__", "flixOpt/core.py:TimeSeriesData"]}
{"id": "C113", "title": "Heat maps show every value at its time", "statement": "For every frame, every documented combination of period and step and every way of filling, the data of a heat map can be made: every slot between the first and the last time has a place of its own, in the row and column that carry the calendar labels of its time; columns run with time and so do the rows of a column; the place shows the mean of the values of the first column in that slot, or, if there are none, nothing, the place before (ffill) or the place behind (bfill); all other places are empty. The labels are those of the Gregorian calendar.", "quantifier": "all frames with times from 1970 on in whole minutes, all combinations of period and step, all fill methods", "why_tests_cant": "That no two slots ever collide in the table (leap years, week numbers around the new year, sorting of labels) is a statement about all days of the calendar.", "anchors": ["flixOpt/plotting.py:heat_map_data_from_df", "flixOpt/results.py:CalculationResults.plot_operation"]}
{"id": "C114", "title": "Selected time steps keep their width", "statement": "Every time step selected for a calculation has the width it has on the time axis of the flow system, so that a calculation of selected steps counts exactly the hours of these steps. For the code as it is: the width of a selected step is the time up to the next selected step, so exactly the selections of neighbouring steps keep all widths.", "quantifier": "all time axes, all increasing selections of time indices", "why_tests_cant": "All axes with unequal widths and all selections.", "anchors": ["flixOpt/flow_system.py:FlowSystem.get_time_data_from_indices", "flixOpt/calculation.py:Calculation"]}
{"id": "C115", "title": "Log messages go where the configuration says", "statement": "After any sequence of set-ups and level changes, a message is written to exactly the targets of the last valid set-up (console or rich console, and the log file if one was asked for and can be opened), once each, if and only if its level is at least the one asked for last; a request with an unknown level raises and changes nothing; loading a configuration sets the logger up as its logging section says. In the file every line of a message stands behind its time and level, in order, and different messages stay different; the console shows the lines of the file, each in the colour of its level. For the code as it is the last holds for messages without other line breaks than line feeds.", "quantifier": "all sequences of requests, all levels, all configurations, all messages, times and level names without line breaks", "why_tests_cant": "All histories of the logger and all texts.", "anchors": ["flixOpt/config.py:setup_logging", "flixOpt/config.py:change_logging_level", "flixOpt/config.py:MultilineFormater", "flixOpt/config.py:ColoredMultilineFormater"]}
{"id": "C116", "title": "The configuration survives being written as a dictionary", "statement": "Once a configuration file was loaded, whatever files are loaded and whatever values are assigned to the fields of its sections afterwards (failing or not), every setting has a value of its declared type, and CONFIG.to_dict() loaded as a file gives the same configuration again. An assignment is accepted exactly if the section exists and the value has the declared type; it changes this setting and no other.", "quantifier": "all files, all sequences of loads and assignments to declared fields", "why_tests_cant": "All histories of the configuration.", "anchors": ["flixOpt/config.py:CONFIG.to_dict", "flixOpt/config.py:ValidatedConfig", "flixOpt/config.py:CONFIG.load_config"]}
{"id": "C117", "title": "The drawn network is the reported network", "statement": "visualize_network can draw two dictionaries of nodes and edges exactly if every node is a bus or a component and every edge connects two of the nodes; the picture then has one node per entry, a circle for a bus and a box for a component, and one arrow per edge in its direction. The network of every flow system can be drawn. With a path it is saved there, without one it is not saved; it is opened if asked for; and it is returned. For the code as it is: it is returned only if it is neither saved nor shown, and saved if it is only to be shown.", "quantifier": "all dictionaries of nodes and edges, all histories of calls of a flow system, all arguments", "why_tests_cant": "All networks.", "anchors": ["flixOpt/plotting.py:visualize_network", "flixOpt/flow_system.py:FlowSystem.visualize_network"]}
{"id": "C118", "title": "A system k times as large costs k times as much", "statement": "Let every size, capacity, limit of flow hours and charge states, absolute loss, earlier flow rate, limit of an effect, the two configured constants, and everything paid per start, per running hour or for building (or not building) at all be k times as large, with prices per flow hour, per size and per unit of excess, relative bounds, efficiencies, load factors, durations and shares between effects as before. Then both systems have a model; every solution of the small one is a solution of the large one with powers, energies, sizes and effects k times as large and all states and decisions to build the same; every solution of the large one comes from one of the small one; the cost is k times as high; and the best operation and the best sizes are k times the best of the small system.", "quantifier": "all systems of sensible declarations with valid, different labels in which no effect depends piecewise on a size, all positive k (the constant EPSILON below 1 at both sizes), all time axes with at least two steps, all solutions", "why_tests_cant": "A price applied per step instead of per unit, or a limit compared with an absolute number, shows only for certain magnitudes; the claim is about all factors and all combinations of features.", "anchors": ["flixOpt/elements.py:FlowModel", "flixOpt/elements.py:BusModel", "flixOpt/features.py:InvestmentModel", "flixOpt/features.py:OnOffModel", "flixOpt/features.py:ShareAllocationModel", "flixOpt/effects.py:EffectModel", "flixOpt/components.py:StorageModel", "flixOpt/components.py:LinearConverterModel", "flixOpt/components.py:TransmissionModel"]}
{"id": "C119", "title": "An effect that is only observed changes nothing", "statement": "Let an effect be neither the standard effect nor the objective, have no limits and no shares in other effects. Leaving it out, together with all prices declared for it (per flow hour, per start, per running hour, for investing and not investing) and the shares of other effects in it, gives a system that has a model as well. The solutions of the two systems correspond: all variables of the components and all other effects agree, the cost is the same, and the best operation without the effect is the best operation with it.", "quantifier": "all systems of sensible declarations with valid, different labels, all effects that are only observed and not named in piecewise investment effects, all time axes with at least two steps, all solutions", "why_tests_cant": "Counting something must never influence the optimum; a test compares two runs of one system, while an accidental coupling (a share added to the wrong effect, a bound on an unlimited sum) needs a certain order of effects or a certain sign to show.", "anchors": ["flixOpt/effects.py:EffectModel", "flixOpt/effects.py:EffectCollection", "flixOpt/effects.py:EffectCollectionModel", "flixOpt/features.py:ShareAllocationModel", "flixOpt/elements.py:FlowModel", "flixOpt/features.py:InvestmentModel", "flixOpt/features.py:OnOffModel"]}
{"id": "C120", "title": "The description of a clustering is right and changes nothing", "statement": "Once the periods are assigned to existing clusters and none begins after the last step, a clustering can be described. The text lists every cluster with as many ranges of steps as it has periods, every step of a period lies in a range of the cluster of its period and in no range of another cluster, and extreme periods are shown without their profiles. Describing leaves the clustering unchanged, so that it can be described again with the same text.", "quantifier": "all assignments of periods to clusters, all lengths of periods and horizons (also with a shorter last period), all extreme periods", "why_tests_cant": "The description is made once per run for the log and read by people; whether it alters the object shows only when it is asked for again, and whether ranges are right only when they are compared with the assignment.", "anchors": ["flixOpt/aggregation.py:Aggregation.describe_clusters", "flixOpt/aggregation.py:Aggregation.get_cluster_indices"]}
{"id": "C121", "title": "A high enough penalty avoids every avoidable excess", "statement": "If a flow system can be operated without excess, there is a number such that, as long as every penalty for excess is at least this number, every cheapest solution has no excess at any bus in any step, and its cost is the least cost of the same system in which no bus allows excess, whatever the penalties are. No single number does this for all systems: there is a system that can be operated without excess and whose cheapest solutions all have excess under the default penalty of 1e5.", "quantifier": "all flow systems without cyclic shares between effects, with binary decisions or not; all penalties from the number on, also different ones per bus and step", "why_tests_cant": "A test shows that one penalty works for one system. That a threshold exists for every system is a statement about all penalties above it and about infinitely many solutions, including ones with arbitrarily little excess.", "anchors": ["flixOpt/elements.py:Bus", "flixOpt/elements.py:BusModel.do_modeling", "flixOpt/effects.py:EffectCollectionModel"]}
{"id": "C122", "title": "The log of a calculation shows its main results", "statement": "After solving, the log has a message for every listed effect that shows its operation, investment and sum, a message that shows the total penalty and the objective, and a message with exactly one line for every element whose size was to be found, naming it and showing the size; larger sizes come first. Every shown number, read as a decimal number, is within half a hundredth of the value in the solution and at least ten characters wide. A warning names a bus exactly if its excess supply or demand exceeds 1/1000 in total, and the total penalty is warned of exactly if it exceeds 10. Sorting keeps exactly the given entries, by value largest first with equal values in their order, or by key in lower case.", "quantifier": "all flow systems, all solutions of their models, all dictionaries handed to the formatting", "why_tests_cant": "A test compares the log of one run with an expected text. That no element is lost or doubled by merging and sorting the decisions and that every value is rounded correctly concerns all systems and all numbers, negative ones and ties included.", "anchors": ["flixOpt/structure.py:SystemModel.solve", "flixOpt/structure.py:SystemModel.main_results", "flixOpt/utils.py:apply_formating"]}
{"id": "C123", "title": "Dearer excess is used less", "statement": "For two systems that differ only in what excess costs, the additional bill of the second penalties is for a cheapest solution under the second at most what it is for a cheapest solution under the first. Hence, if excess at some buses becomes dearer by the same amount per flow hour in every step, the flow hours of excess at these buses do not grow in the cheapest solutions. If a cheapest solution has no excess at all, higher penalties change neither the least cost nor that this operation is cheapest. The least cost is a concave function of the penalties.", "quantifier": "all flow systems, with binary decisions or not, all pairs of penalties (per bus and step), all cheapest solutions", "why_tests_cant": "Tests compare a few penalties on a few systems with the solution a solver happens to return. The claim is about every pair of penalties and every cheapest solution, of which there can be infinitely many.", "anchors": ["flixOpt/elements.py:Bus", "flixOpt/elements.py:BusModel.do_modeling", "flixOpt/effects.py:EffectCollectionModel"]}
{"id": "C124", "title": "What gets dearer is not used more", "statement": "If in a flow system only what a flow hour of one flow costs in the objective effect rises, by the same amount in every step, then no cheapest solution afterwards has more flow hours of that flow than any cheapest solution before. If it rises in one step only, the flow rate of that step does not grow; and for any change of the prices over time, the change adds at most as much to the bill of a cheapest solution afterwards as to that of one before. Likewise, if only the price per unit of the size of one flow or of the capacity of one storage rises, no cheapest size afterwards is larger than any cheapest size before. The objective effect has no limits of its own and no shares in other effects.", "quantifier": "all flow systems, with binary decisions or not, all flows, all price rises, all cheapest solutions before and after", "why_tests_cant": "Tests compare a few prices on a few systems with the solution a solver happens to return. The claim is about every pair of prices and every cheapest solution, of which there can be infinitely many, and it must hold however the flow is tied to storages, on/off decisions and other effects.", "anchors": ["flixOpt/elements.py:FlowModel._create_shares", "flixOpt/features.py:InvestmentModel", "flixOpt/effects.py:EffectCollection", "flixOpt/structure.py:SystemModel"]}
{"id": "C125", "title": "A change of prices costs between what is bought afterwards and what was bought before", "statement": "If in a flow system only the prices per flow hour of one flow in the objective effect change, in any way over time, then the least cost changes by at most the price differences on the flow as used in any cheapest solution before, and by at least the price differences on the flow as used in any cheapest solution afterwards. A cheapest solution that no solution undercuts in its additional bill stays cheapest, at exactly its old cost plus that bill. Hence the price of a flow whose flow rates are fixed decides nothing: every cheapest operation stays cheapest and costs more by exactly the fixed flow hours at the price differences. If a flow that runs forward becomes dearer, the least cost does not fall; if a cheapest solution does not use the flow, that solution stays cheapest at the same cost. The least cost at prices between two price series is at least as much between their least costs. The objective effect has no limits of its own and no shares in other effects.", "quantifier": "all flow systems, with binary decisions or not, all flows, all price changes over time, all cheapest solutions before and after", "why_tests_cant": "Tests compare single price pairs with the one optimum a solver returns. The claim bounds the least cost for every change of a price series and every cheapest solution, over systems with any components, and says of whole sets of solutions that they stay cheapest.", "anchors": ["flixOpt/elements.py:FlowModel._create_shares", "flixOpt/effects.py:EffectCollection", "flixOpt/features.py:ShareAllocationModel", "flixOpt/structure.py:SystemModel"]}
{"id": "C126", "title": "Dearer starts, running hours and investments are not chosen more often", "statement": "If in a flow system only what each start of one flow (or of one component with on/off states) costs in the objective effect rises, by the same amount in every step, then no cheapest solution afterwards has more starts of it, as counted by its switch-on variable, than any cheapest solution before; likewise, if only each running hour becomes dearer, it has no more running hours. If only the fixed price of an optional investment in one flow rises, a cheapest solution afterwards invests only if every cheapest solution before does. The objective effect has no limits of its own and no shares in other effects.", "quantifier": "all flow systems, all flows and components with on/off states, all optional investments, all price rises, all cheapest solutions before and after", "why_tests_cant": "Tests look at one schedule that a solver returns for one price. The claim compares all cheapest schedules, of which a mixed-integer problem may have many, for every rise of the price, and depends on the on/off model having the same variables and constraints at any price.", "anchors": ["flixOpt/features.py:OnOffModel", "flixOpt/features.py:InvestmentModel", "flixOpt/interface.py:OnOffParameters", "flixOpt/effects.py:EffectCollection"]}
{"id": "C127", "title": "Limits of effects cut off exactly what exceeds them", "statement": "Every solution keeps the declared limits of all effects: on operation, investment and total, and on operation per hour in each step. Conversely, a solution under one set of limits whose effects also keep another set is, with the same flows, sizes and effects and at the same cost, a solution under the other set. So tighter limits never lower the least cost; limits that a cheapest solution keeps anyway change neither its operation nor the least cost; and where they change the least cost, every cheapest solution without them exceeds them.", "quantifier": "all flow systems, all limits of all effects before and after, all solutions", "why_tests_cant": "Tests solve one system with one limit. That a limit removes nothing but what exceeds it, and that a limit which does not bind changes nothing, is about all solutions and all limits, and needs that no other variable or constraint depends on them.", "anchors": ["flixOpt/effects.py:Effect", "flixOpt/effects.py:EffectModel", "flixOpt/features.py:ShareAllocationModel"]}
{"id": "C128", "title": "The choice of the objective changes the objective only", "statement": "With any effect as the objective, what is minimised is the total of this effect over operation and investment plus the penalties of the buses. Every solution with one effect as the objective is, with the same flows, sizes and effects, a solution with any other effect as the objective. So an optimum for one effect has the least amount of it, penalties included, among all solutions whatever their objective; the cheapest solution costs no more than the cleanest and the cleanest emits no more than the cheapest.", "quantifier": "all flow systems, all pairs of effects, all solutions and optima", "why_tests_cant": "Tests optimise one example for one effect. That the set of possible operations is the same for every choice of the objective, and that optima for different effects trade off in the right direction, is a statement about all solutions of all systems.", "anchors": ["flixOpt/effects.py:EffectCollection", "flixOpt/effects.py:EffectCollectionModel", "flixOpt/structure.py:SystemModel"]}
{"id": "C129", "title": "A cap on an effect can be kept exactly if it is not below the least amount of it", "statement": "In a flow system whose buses allow no missing or surplus energy, let one effect have no limit on its total. With a cap on its total there is a solution exactly if the cap is not below the amount of this effect in a solution that is optimal for it. If an optimum for any other effect has no more than the cap anyway, it remains optimal under the cap at the same cost; and a higher cap never makes the cheapest solution dearer.", "quantifier": "all flow systems without penalties on buses, all pairs of effects, all other limits, all caps", "why_tests_cant": "Tests can try a few caps on one example. Whether a cap can be kept is a statement about the existence of solutions of a mixed-integer problem for every cap, and comparing it with the optimum of another problem needs that both have the same solutions.", "anchors": ["flixOpt/effects.py:Effect", "flixOpt/effects.py:EffectModel", "flixOpt/effects.py:EffectCollectionModel"]}
