{"claims": [
{"property": "C01", "status": "proved", "theorems": ["Flix.C01_rows", "Flix.C01_accepted"], "note": "every accepted op history"},
{"property": "C02", "status": "partial", "theorems": ["Flix.C02_exact", "Flix.C02_sum_partial", "Flix.C02_whole_partial", "Flix.C02_wrong_sum", "Flix.C02_refused"], "note": "true for whole variables; false for other index lists (the code indexes by value): exact contribution and counterexamples proved"},
{"property": "C03", "status": "partial", "theorems": ["Flix.C03_common_length", "Flix.C03_replay", "Flix.C03_failed_call", "Flix.C03_failed_constant", "Flix.C03_refused_iff", "Flix.C03_translatable_partial", "Flix.C03_untranslatable", "Flix.C03_failed_constant_wrong"], "note": "rejection proved; translatability fails for one-element array constants and after a caught refusal of add_constant (counterexamples)"},
{"property": "C04", "status": "proved", "theorems": ["Flix.C04_bounds", "Flix.C04_refused"], "note": ""},
{"property": "C05", "status": "partial", "theorems": ["Flix.C05_report_partial", "Flix.C05_wrong", "Flix.C05_continuous"], "note": "values slightly below 1 are truncated to 0 (counterexample)"},
{"property": "C06", "status": "proved", "theorems": ["Flix.C06_flow", "Flix.C06_converse"], "note": "both directions, sizes given as numbers or unset; investments in C18"},
{"property": "C07", "status": "proved", "theorems": ["Flix.C07_component"], "note": "any number of flows"},
{"property": "C08", "status": "proved", "theorems": ["Flix.C08_complementary"], "note": ""},
{"property": "C09", "status": "partial", "theorems": ["Flix.C09_on", "Flix.C09_off", "Flix.C09_on_partial", "Flix.C09_wrong"], "note": "exact inside the horizon; the hours before it are wrong for some histories of several values (counterexample)"},
{"property": "C10", "status": "proved", "theorems": ["Flix.C10_on", "Flix.C10_off"], "note": "relative to the hours before the horizon used by the code (C15)"},
{"property": "C100", "status": "partial", "theorems": ["Flix.C100_complete_partial", "Flix.C100_own_place", "Flix.C100_only", "Flix.C100_rest", "Flix.C100_flow_partial", "Flix.C100_storage_partial", "Flix.C100_effect_partial", "Flix.C100_penalty_wrong", "Flix.C100_flow_wrong"], "note": "Every variable has its own place with its value and nothing else is reported; the places of flow rates, flow hours, charge states, effect sums and the penalty are given.  Missing: flows named like a part of a component and an effect named penalty, whose results are overwritten (the _wrong theorems are witnesses); aggregated calculations (Others)."},
{"property": "C101", "status": "partial", "theorems": ["Flix.C101_variables_partial", "Flix.C101_constraints_partial", "Flix.C101_only", "Flix.C101_flat_variables", "Flix.C101_flat_constraints_partial", "Flix.C101_inequations_wrong"], "note": "Nested descriptions list all variables and constraints under the same conditions on labels as C100; flat lists of variables are complete for all labels.  Missing: inequations in the flat lists, which the code leaves out (C101_inequations_wrong is the witness)."},
{"property": "C102", "status": "partial", "theorems": ["Flix.C102_overview_partial", "Flix.C102_new", "Flix.C102_start_wrong", "Flix.C102_results_wrong"], "note": "The overview shows the last run, and a new calculation repeats the first one. False for a second run of the same calculation: its first segment starts from the end of the first run, because sub_calculations is not empty then, and results are combined over both runs."},
{"property": "C103", "status": "proved", "theorems": ["Flix.C103", "Flix.C103_optimum"], "note": "Both models are assumed to be built; effects that depend piecewise on a size keep their unit; sizes of zero and inconsistent declarations are excluded by Proper."},
{"property": "C104", "status": "partial", "theorems": ["Flix.C104_gurobi", "Flix.C104_gurobi_sound", "Flix.C104_shown", "Flix.C104_others", "Flix.C104_cbc_partial", "Flix.C104_cbc_iff", "Flix.C104_cbc_wrong", "Flix.C104_gurobi_linear"], "note": "Exact for Gurobi and for CBC logs with sizes; a CBC log without sizes is refused with a TypeError (C104_cbc_wrong), exactly then (C104_cbc_iff). Reading the file is not modelled."},
{"property": "C105", "status": "partial", "theorems": ["Flix.C105_partial", "Flix.C105_iff", "Flix.C105_chp", "Flix.C105_wrong"], "note": "Fails in the code for converters with two time-varying factors of one flow or two time-varying support points (C105_wrong, C105_chp); holds otherwise, and C105_iff shows that this is the only exception."},
{"property": "C106", "status": "proved", "theorems": ["Flix.C106", "Flix.C106_back", "Flix.C106_optimum", "Flix.C106_errors"], "note": "Both directions, with costs; errors per component.  That the renamed system is accepted as a whole is a hypothesis (it follows from C83 for sensible systems)."},
{"property": "C107", "status": "proved", "theorems": ["Flix.C107", "Flix.C107_back", "Flix.C107_optimum", "Flix.C107_errors", "Flix.C107_exists", "Flix.C107_wrong"], "note": "Stated with the two configured constants converted as well; C107_wrong shows that it fails when they are left as they are."},
{"property": "C108", "status": "partial", "theorems": ["Flix.C108", "Flix.C108_settings_partial", "Flix.C108_console_wrong", "Flix.C108_call", "Flix.C108_logfile", "Flix.C108_logfile_wrong", "Flix.C108_none_wrong", "Flix.C108_warns_partial", "Flix.C108_warns_wrong", "Flix.C108_message_partial", "Flix.C108_message_wrong"], "note": "The solver chosen is asked and gets gap, time limit and threads. The code ignores the console setting of HiGHS and the log file given to the solver, three classes never warn and their messages do not tell how the solver stopped: proved as *_wrong."},
{"property": "C109", "status": "partial", "theorems": ["Flix.C109", "Flix.C109_start", "Flix.C109_where", "Flix.C109_current", "Flix.C109_returned", "Flix.C109_results_partial", "Flix.C109_kept", "Flix.C109_results_wrong", "Flix.C109_saved_wrong", "Flix.C109_failed", "Flix.C109_objective_wrong", "Flix.C109_stuck_wrong"], "note": "What a run writes into the variables is proved for every history. results() and the saved file are right only as long as nothing was read or saved before; the objective survives a failed run: proved as *_wrong."},
{"property": "C11", "status": "proved", "theorems": ["Flix.C11_complete"], "note": "all limits of the on/off parameters together"},
{"property": "C110", "status": "partial", "theorems": ["Flix.C110_finer_partial", "Flix.C110_coarser_partial", "Flix.C110_optimum_partial", "Flix.C110_losses_wrong", "Flix.C110_cyclic_wrong"], "note": "Every solution is one on any finer grid with the same totals; without decisions per step the means lead back and the optimum is the same. Not for storages with losses or cyclic contents (wrong), varying limits, investments in transmissions and costs of starts."},
{"property": "C111", "status": "partial", "theorems": ["Flix.C111_data", "Flix.C111_peaks", "Flix.C111_full", "Flix.C111_peaks_wrong", "Flix.C111_free_wrong"], "note": "Peaks of series that do not change ask for a missing column (C111_peaks_wrong); corrections with nothing to tie fail (C111_free_wrong). The clustering (tsam) is an arbitrary function."},
{"property": "C112", "status": "partial", "theorems": ["Flix.C112_boiler", "Flix.C112_power2heat", "Flix.C112_heatpump", "Flix.C112_tower_partial", "Flix.C112_chp_partial", "Flix.C112_source_partial", "Flix.C112_series_wrong", "Flix.C112_one_wrong"], "note": "CHP, CoolingTower and HeatPumpWithSource reject TimeSeriesData (C112_series_wrong), HeatPumpWithSource a COP of 1 (C112_one_wrong)."},
{"property": "C113", "status": "proved", "theorems": ["Flix.C113", "Flix.C113_labels", "Flix.C113_invalid", "Flix.C113_columns_wrong"], "note": "Pandas resample, strftime and pivot are modelled; only the first column of the frame is shown, whatever the others hold (C113_columns_wrong)."},
{"property": "C114", "status": "partial", "theorems": ["Flix.C114_partial", "Flix.C114_widths", "Flix.C114_wrong"], "note": "Exactly the selections of neighbouring steps keep all widths; selections with gaps stretch the step before the gap (C114_wrong)."},
{"property": "C115", "status": "partial", "theorems": ["Flix.C115_setup", "Flix.C115_change", "Flix.C115_refused", "Flix.C115_history", "Flix.C115_config", "Flix.C115_file", "Flix.C115_readable", "Flix.C115_console_partial", "Flix.C115_console_wrong"], "note": "The console breaks messages at more characters than the file: lines without time and level, different messages look the same."},
{"property": "C116", "status": "proved", "theorems": ["Flix.C116_types", "Flix.C116_roundtrip", "Flix.C116_assign", "Flix.C116_only"], "note": "Sections as values; writing into the dictionary that to_dict hands out is not modelled."},
{"property": "C117", "status": "partial", "theorems": ["Flix.C117_draw", "Flix.C117_partial", "Flix.C117_wrong"], "note": "The network is returned only if it is neither saved nor shown, and saved if it is only to be shown."},
{"property": "C118", "status": "proved", "theorems": ["Flix.C118_exists", "Flix.C118", "Flix.C118_back", "Flix.C118_optimum"], "note": "For systems without piecewise investment effects, the two configured constants taken k times as large as well."},
{"property": "C119", "status": "proved", "theorems": ["Flix.C119_exists", "Flix.C119", "Flix.C119_back", "Flix.C119_optimum"], "note": "Effects named in piecewise investments are excluded by the property's quantifier."},
{"property": "C12", "status": "proved", "theorems": ["Flix.C12_starts"], "note": ""},
{"property": "C120", "status": "partial", "theorems": ["Flix.C120_ranges", "Flix.C120_number", "Flix.C120_succeeds", "Flix.C120_first", "Flix.C120_partial", "Flix.C120_wrong"], "note": "The code violates the property: with peaks, describing deletes the profiles of the extreme periods and describing again raises KeyError. Proved: the text is right, describing succeeds the first time, and without peaks nothing changes."},
{"property": "C121", "status": "proved", "theorems": ["Flix.C121", "Flix.C121_default"], "note": "Shares between effects must not be cyclic (guaranteed by the constructors); the threshold is shown to exist, its size is not computed."},
{"property": "C122", "status": "proved", "theorems": ["Flix.C122", "Flix.C122_number", "Flix.C122_order", "Flix.C122_keys", "Flix.C122_total"], "note": "Messages after solving. Exact numbers instead of floats; the headings made of # and the text of the termination message are left out."},
{"property": "C123", "status": "proved", "theorems": ["Flix.C123", "Flix.C123_dearer", "Flix.C123_settled", "Flix.C123_concave"], "note": "Cheapest solutions under two or three sets of penalties compared; existence of cheapest solutions is C95."},
{"property": "C124", "status": "proved", "theorems": ["Flix.C124", "Flix.C124_step", "Flix.C124_bill", "Flix.C124_size", "Flix.C124_capacity"], "note": "Cheapest solutions at two prices of one flow or storage compared; existence of cheapest solutions is C95."},
{"property": "C125", "status": "proved", "theorems": ["Flix.C125", "Flix.C125_kept", "Flix.C125_fixed", "Flix.C125_rise", "Flix.C125_unused", "Flix.C125_between"], "note": "For flow systems with distinct labels whose objective effect has no limits and no shares in other effects."},
{"property": "C126", "status": "proved", "theorems": ["Flix.C126", "Flix.C126_running", "Flix.C126_component", "Flix.C126_component_running", "Flix.C126_decision"], "note": "Starts as counted by the switch-on variable; the objective effect has no limits and no shares in other effects."},
{"property": "C127", "status": "proved", "theorems": ["Flix.C127", "Flix.C127_tighter", "Flix.C127_slack", "Flix.C127_binds"], "note": "for all flow systems that build under both sets of limits"},
{"property": "C128", "status": "proved", "theorems": ["Flix.C128", "Flix.C128_objective", "Flix.C128_least", "Flix.C128_tradeoff"], "note": "for all flow systems that build with both objectives"},
{"property": "C129", "status": "proved", "theorems": ["Flix.C129", "Flix.C129_loose", "Flix.C129_falling", "Flix.C129_penalty_wrong"], "note": "for all flow systems without penalties on buses, as the claim says; C129_penalty_wrong shows that with penalties it would be false"},
{"property": "C13", "status": "proved", "theorems": ["Flix.C13_total"], "note": ""},
{"property": "C14", "status": "partial", "theorems": ["Flix.C14_arrays_partial", "Flix.C14_single_partial", "Flix.C14_scalars", "Flix.C14_scalars_wrong", "Flix.C14_mixed"], "note": "true for series and single flows; several scalar values are read as a time sequence (exact behaviour and counterexample)"},
{"property": "C15", "status": "partial", "theorems": ["Flix.C15_scalar_iff", "Flix.C15_vector_partial", "Flix.C15_one_state", "Flix.C15_single", "Flix.C15_wrong"], "note": "exact set of histories for which the code is right"},
{"property": "C16", "status": "partial", "theorems": ["Flix.C16_mandatory_partial", "Flix.C16_optional_partial", "Flix.C16_converse", "Flix.C16_wrong"], "note": "Size in limits, or zero exactly if not invested; every allowed size extends to a solution. Missing: a size argument of 0 counts as not given (C16_wrong shows fixed_size=0 admits size 5)."},
{"property": "C17", "status": "partial", "theorems": ["Flix.C17_iff", "Flix.C17_partial", "Flix.C17_onOff", "Flix.C17_forced", "Flix.C17_wrong"], "note": "Exact characterisation for flows without on/off; holds with on/off. Missing: a minimum or fixed size with a positive relative minimum or profile and no on/off makes declining infeasible (C17_wrong)."},
{"property": "C18", "status": "proved", "theorems": ["Flix.C18", "Flix.C18_converse"], "note": "Both directions; the converse for flows without on/off."},
{"property": "C19", "status": "proved", "theorems": ["Flix.C19"], "note": "For scalar effect values; the total per effect of all share calls of the investment."},
{"property": "C20", "status": "proved", "theorems": ["Flix.C20_sound", "Flix.C20_complete", "Flix.C20_converter"], "note": "Any number of segments and variables, both directions; converters with segments."},
{"property": "C21", "status": "proved", "theorems": ["Flix.C21_system_operation", "Flix.C21_system_invest", "Flix.C21_system_penalty", "Flix.C21_operation", "Flix.C21_invest", "Flix.C21_total", "Flix.C21_penalty"], "note": "for the whole system: contributions are those declared at flows, on/off parameters, investments, storages and buses"},
{"property": "C22", "status": "proved", "theorems": ["Flix.C22_system", "Flix.C22", "Flix.C22_translatable"], "note": ""},
{"property": "C23", "status": "proved", "theorems": ["Flix.C23"], "note": ""},
{"property": "C24", "status": "proved", "theorems": ["Flix.C24", "Flix.C24_acyclic", "Flix.C24_check_never_fires"], "note": "hypothesis of C24: share targets are in the collection (otherwise the model raises KeyError)"},
{"property": "C25", "status": "proved", "theorems": ["Flix.C25", "Flix.C25_failed", "Flix.C25_accepted"], "note": ""},
{"property": "C26", "status": "partial", "theorems": ["Flix.C26_partial", "Flix.C26_wrong", "Flix.C26_lost"], "note": "violated when a dictionary object with a value for the standard effect is shared"},
{"property": "C27", "status": "proved", "theorems": ["Flix.C27_system", "Flix.C27_strict", "Flix.C27_excess", "Flix.C27_converse"], "note": ""},
{"property": "C28", "status": "proved", "theorems": ["Flix.C28_charge", "Flix.C28_solvable", "Flix.C28_lower", "Flix.C28_zero"], "note": ""},
{"property": "C29", "status": "partial", "theorems": ["Flix.C29_partial", "Flix.C29_iff", "Flix.C29_registered", "Flix.C29_wrong"], "note": "any history of calls; full claim fails for two bus objects with one label (C29_wrong)"},
{"property": "C30", "status": "proved", "theorems": ["Flix.C30", "Flix.C30_exact"], "note": "Conversion rows are equivalent to the declared linear relations."},
{"property": "C31", "status": "proved", "theorems": ["Flix.C31_simple", "Flix.C31_tower", "Flix.C31_chp", "Flix.C31_source"], "note": "Boiler/power-to-heat/heat pump (one factor), cooling tower, CHP and heat pump with source."},
{"property": "C32", "status": "proved", "theorems": ["Flix.C32_step", "Flix.C32_closed", "Flix.C32_conserved", "Flix.C32_no_gain", "Flix.C32_bounds_fixed", "Flix.C32_bounds_invest", "Flix.C32_netto", "Flix.C32_exact"], "note": "Balance step, closed form over the horizon, conservation, bounds, and nothing else is required."},
{"property": "C33", "status": "partial", "theorems": ["Flix.C33_initial", "Flix.C33_final_partial", "Flix.C33_last_partial", "Flix.C33_final_wrong", "Flix.C33_last_wrong"], "note": "Final limits are ignored without an initial charge state and lastValueOfSim compares the charge states 0 and n-1, not 0 and n; both shown by counterexample, the part that holds is proved."},
{"property": "C34", "status": "proved", "theorems": ["Flix.C34", "Flix.C34_exact", "Flix.C34_storage", "Flix.C34_sourceAndSink", "Flix.C34_transmission"], "note": ""},
{"property": "C35", "status": "partial", "theorems": ["Flix.C35_first", "Flix.C35_second", "Flix.C35_zero_partial", "Flix.C35_zero_wrong"], "note": "Losses as declared in every solution; absolute losses of zero raise AttributeError instead of behaving like none."},
{"property": "C36", "status": "partial", "theorems": ["Flix.C36_one_size", "Flix.C36_checks", "Flix.C36_refused_wrong"], "note": "Equal sizes in every solution; what the checks would refuse is stated exactly; they are never called in the code (counterexample)."},
{"property": "C37", "status": "proved", "theorems": ["Flix.C37_flowHours", "Flix.C37_loadFactor"], "note": ""},
{"property": "C38", "status": "partial", "theorems": ["Flix.C38_partial", "Flix.C38_wrong"], "note": "Missing: a flow with on/off parameters and a plain size may be off, its rate then is 0 (C38_wrong)."},
{"property": "C39", "status": "partial", "theorems": ["Flix.C39_partial", "Flix.C39_wrong", "Flix.C39_wrong_max"], "note": "Holds for fixed_size=0 and wherever the size variable is 0. Missing: size=0 and maximum_size=0 count as not given."},
{"property": "C40", "status": "partial", "theorems": ["Flix.C40_sum", "Flix.C40_partial", "Flix.C40_all", "Flix.C40_accepted", "Flix.C40_range", "Flix.C40_valid", "Flix.C40_instants", "Flix.C40_wrong"], "note": "every accepted selection: count and sum; increasing selections: non-negative; backwards or negative indices are accepted with negative widths (C40_wrong)"},
{"property": "C41", "status": "partial", "theorems": ["Flix.C41_ticks", "Flix.C41_iff", "Flix.C41_partial", "Flix.C41_default", "Flix.C41_float", "Flix.C41_wrong"], "note": "holds exactly for axes in hours (C41_iff); code adds ticks of the axis"},
{"property": "C42", "status": "proved", "theorems": ["Flix.C42", "Flix.C42_aggregated", "Flix.C42_out_of_range", "Flix.C42_other_system_wrong"], "note": "For every history on one flow system, including interrupted calculations, assignments and shared attributes. C42_other_system_wrong shows why the restriction to one flow system in the statement is needed."},
{"property": "C43", "status": "proved", "theorems": ["Flix.C43", "Flix.C43_select", "Flix.C43_iff", "Flix.C43_other_length"], "note": "For every series with one value per step; C43_other_length says what happens to series of another length."},
{"property": "C44", "status": "partial", "theorems": ["Flix.C44_partial", "Flix.C44_negative_wrong", "Flix.C44_negative"], "note": "For every accepted calculation with an overlap that is not negative. A negative overlap is accepted by the code and leaves steps out (C44_negative_wrong; C44_negative says which)."},
{"property": "C45", "status": "partial", "theorems": ["Flix.C45_partial", "Flix.C45_variables_partial", "Flix.C45_content", "Flix.C45_total", "Flix.C45_single_wrong", "Flix.C45_second_run_wrong"], "note": "Every series delivered as an array by all segments is combined correctly. A last segment with one step makes all series with one value per step disappear (C45_single_wrong), a second run of the same calculation doubles the results (C45_second_run_wrong)."},
{"property": "C46", "status": "partial", "theorems": ["Flix.C46_partial", "Flix.C46_all", "Flix.C46_fits", "Flix.C46_no_jump_partial", "Flix.C46_cut", "Flix.C46_wrong", "Flix.C46_index_error"], "note": "Right for segments that are not cut by the end of the horizon; otherwise the values of an earlier step are handed over (C46_wrong, C46_cut) or the run ends with an IndexError."},
{"property": "C47", "status": "partial", "theorems": ["Flix.C47_partial", "Flix.C47_unchanged", "Flix.C47_first", "Flix.C47_raise_wrong", "Flix.C47_later_wrong"], "note": "On return the values of the construction are restored; not after an exception (C47_raise_wrong), and values set after the construction are lost (C47_later_wrong)."},
{"property": "C48", "status": "partial", "theorems": ["Flix.C48_partial", "Flix.C48_iff", "Flix.C48_wrong"], "note": "True exactly for selections of the first steps; any other selection is ignored (C48_wrong)."},
{"property": "C49", "status": "partial", "theorems": ["Flix.C49_partial", "Flix.C49_iff", "Flix.C49_flows", "Flix.C49_first_wrong"], "note": "All positions except the first of each period; the code leaves first positions untied (C49_first_wrong). C49_iff: nothing else is constrained."},
{"property": "C50", "status": "proved", "theorems": ["Flix.C50", "Flix.C50_direction", "Flix.C50_complete", "Flix.C50_round", "Flix.C50_per_period_wrong"], "note": "Limit over all tied steps as in the statement; the docstring's limit per period does not hold (C50_per_period_wrong)."},
{"property": "C51", "status": "partial", "theorems": ["Flix.C51_group", "Flix.C51_partial", "Flix.C51_wrong", "Flix.C51_refused", "Flix.C51_again"], "note": "A given weight of 0 becomes 1 (C51_wrong); everything else proved."},
{"property": "C52", "status": "proved", "theorems": ["Flix.C52", "Flix.C52_mem", "Flix.C52_solves"], "note": ""},
{"property": "C53", "status": "proved", "theorems": ["Flix.C53", "Flix.C53_refused", "Flix.C53_unambiguous"], "note": ""},
{"property": "C54", "status": "proved", "theorems": ["Flix.C54", "Flix.C54_other", "Flix.C54_valid", "Flix.C54_needs_valid"], "note": "labels compared on characters; valid labels as tested by label_is_valid"},
{"property": "C55", "status": "partial", "theorems": ["Flix.C55_partial", "Flix.C55_iff", "Flix.C55_components", "Flix.C55_accepted", "Flix.C55_failed", "Flix.C55_wrong"], "note": "any history of calls; full claim fails for the code (C55_wrong), holds exactly when no two elements share a label (C55_iff)"},
{"property": "C56", "status": "partial", "theorems": ["Flix.C56_partial", "Flix.C56_distinct", "Flix.C56_sound", "Flix.C56_wrong"], "note": "Proved for keys that are valid labels and in general for distinct joined keys; nothing is invented. Keys with double underscores (effect shares have them) can collide and lose a value: C56_wrong."},
{"property": "C57", "status": "partial", "theorems": ["Flix.C57_partial", "Flix.C57_plain", "Flix.C57_exact", "Flix.C57_refused", "Flix.C57_wrong"], "note": "Saving and loading is characterised exactly (iff) by an independent relation; the file holds plain JSON; result trees with nonempty series come back exactly. An empty array comes back as an empty list: C57_wrong. Elements inside the data and JSON itself are trusted."},
{"property": "C58", "status": "partial", "theorems": ["Flix.C58_partial", "Flix.C58_threshold", "Flix.C58_single_wrong", "Flix.C58_label_wrong"], "note": "Proved for more than one time step and flows not labelled like component sub models, for all systems and solutions. One time step raises ValueError (C58_single_wrong); a flow labelled OnOff loses its results (C58_label_wrong). The index of the table is not modelled."},
{"property": "C59", "status": "partial", "theorems": ["Flix.C59_partial", "Flix.C59_saved", "Flix.C59_frozen", "Flix.C59_wrong"], "note": "results() is cached: right until the first results() or saving solve, frozen afterwards (C59_frozen), so wrong after a second solve (C59_wrong)."},
{"property": "C60", "status": "proved", "theorems": ["Flix.C60", "Flix.C60_value", "Flix.C60_refused"], "note": "Column heights as natural numbers."},
{"property": "C61", "status": "proved", "theorems": ["Flix.C61", "Flix.C61_sections", "Flix.C61_idempotent"], "note": "Contents of the merged dictionary; that the defaults are changed in place is not modelled."},
{"property": "C62", "status": "partial", "theorems": ["Flix.C62_steps", "Flix.C62_end", "Flix.C62_system", "Flix.C62_refused", "Flix.C62_wrong"], "note": "documented frequencies of fixed length; years and months raise, numbers that are not whole are taken as 1 (C62_wrong)"},
{"property": "C63", "status": "partial", "theorems": ["Flix.C63_flow_partial", "Flix.C63_onOff_wrong", "Flix.C63_flow_wrong", "Flix.C63_excess_wrong"], "note": "the code violates the property: on/off models and buses with excess cannot be modelled on a single step (proved); flows without on/off can"},
{"property": "C64", "status": "partial", "theorems": ["Flix.C64_wrong"], "note": "No storage with a time-varying limit of the charge state is ever solvable: the limits have n entries, the charge state n+1."},
{"property": "C65", "status": "proved", "theorems": ["Flix.C65", "Flix.C65_refused"], "note": "Steps and periods as exact rationals."},
{"property": "C66", "status": "proved", "theorems": ["Flix.C66", "Flix.C66_objective"], "note": "Whole aggregated system."},
{"property": "C67", "status": "partial", "theorems": ["Flix.C67_flows_partial", "Flix.C67_storage_partial", "Flix.C67_flow_wrong", "Flix.C67_storage_wrong"], "note": "Proved for flow rates and for the variables of storages unless labels coincide; coinciding labels are accepted and lose results. Contents of other sub models are left out."},
{"property": "C68", "status": "partial", "theorems": ["Flix.C68_partial", "Flix.C68_complete", "Flix.C68_wrong_type", "Flix.C68_refused", "Flix.C68_missing_wrong", "Flix.C68_failed_wrong", "Flix.C68_range_wrong"], "note": "Complete files with the declared types are installed, other types refused; missing sections are accepted without defaults or leave a half replaced configuration, ranges are not checked."},
{"property": "C69", "status": "proved", "theorems": ["Flix.C69", "Flix.C69_component", "Flix.C69_shares", "Flix.C69_bus", "Flix.C69_translation", "Flix.C69_meaning", "Flix.C69_translated"], "note": ""},
{"property": "C70", "status": "proved", "theorems": ["Flix.C70", "Flix.C70_names", "Flix.C70_nr_wrong"], "note": "The numbers in the statement are those of MathModel.infos. The further number nr_of_constraints, not part of the statement, is always 0 (C70_nr_wrong)."},
{"property": "C71", "status": "proved", "theorems": ["Flix.C71", "Flix.C71_unlimited"], "note": "Both directions; labels of solver variables identify them (C53)."},
{"property": "C72", "status": "proved", "theorems": ["Flix.C72", "Flix.C72_created"], "note": ""},
{"property": "C73", "status": "proved", "theorems": ["Flix.C73", "Flix.C73_created"], "note": ""},
{"property": "C74", "status": "proved", "theorems": ["Flix.C74"], "note": ""},
{"property": "C75", "status": "partial", "theorems": ["Flix.C75", "Flix.C75_effects_partial", "Flix.C75_effects_wrong", "Flix.C75_quiet", "Flix.C75_threshold_wrong", "Flix.C75_warnings"], "note": "Effects are listed completely only if their keys differ; the threshold of solve is not used by the code."},
{"property": "C76", "status": "proved", "theorems": ["Flix.C76", "Flix.exWaste_optimal"], "note": "Where the penalty (times the width of the step) is positive."},
{"property": "C77", "status": "proved", "theorems": ["Flix.C77", "Flix.C77_add", "Flix.C77_remove", "Flix.C77_plain", "Flix.exSink_optimal"], "note": "C77_plain: sufficient condition in terms of the declared limits for plain components."},
{"property": "C78", "status": "partial", "theorems": ["Flix.C78_partial", "Flix.C78_transmission_partial", "Flix.C78_converter", "Flix.C78_segments", "Flix.C78_storage", "Flix.C78_component", "Flix.C78_boiler", "Flix.C78_chp", "Flix.C78_source", "Flix.C78_wrong"], "note": "A transmission with out2 but no in2 is excluded; the code leaves out2 unconstrained there (C78_wrong)."},
{"property": "C79", "status": "partial", "theorems": ["Flix.C79_partial", "Flix.C79_balance_partial", "Flix.C79_closed", "Flix.C79_wrong"], "note": "Needs distinct valid labels and flow objects used once, which the code does not check (C79_wrong); that edges connect listed nodes holds always (C79_closed)."},
{"property": "C80", "status": "proved", "theorems": ["Flix.C80_check", "Flix.C80_freedom", "Flix.C80_needed"], "note": "flow labels of the converter must differ for the freedom"},
{"property": "C81", "status": "partial", "theorems": ["Flix.C81_exact_partial", "Flix.C81_forced", "Flix.C81_wrong", "Flix.investRows_iff"], "note": "the exact solution set is proved, including the extra condition that forces some optional storages to be built; effects in segments are treated in C19"},
{"property": "C82", "status": "partial", "theorems": ["Flix.C82_plain_partial", "Flix.C82_factors_partial", "Flix.C82_segments_partial", "Flix.C82_storage_partial", "Flix.C82_transmission_partial", "Flix.C82_system", "Flix.C82_plain_sound", "Flix.C82_factors_sound", "Flix.C82_segments_sound", "Flix.C82_storage_sound", "Flix.C82_transmission_sound", "Flix.C82_shared", "Flix.C82_wrong"], "note": "Exact in both directions for single components, up to conditions that the code adds (declined sizes, profiles while off, shared sizes below eps); the whole model is put together without loss."},
{"property": "C83", "status": "proved", "theorems": ["Flix.C83"], "note": "Sensible = System.Sane, System.Tied and System.Named (Spec/Sensible.lean, Spec/Tied.lean, Spec/Named.lean); horizons of more than one step."},
{"property": "C84", "status": "partial", "theorems": ["Flix.C84_partial", "Flix.C84_wrong"], "note": "A storage must not be labelled like another one with an initial charge state with _initial appended; empty labels excluded."},
{"property": "C85", "status": "proved", "theorems": ["Flix.C85", "Flix.C85_checks_wrong"], "note": "Hypothesis System.Tied (Spec/Tied.lean); the checks of a converter alone do not imply it (C85_checks_wrong)."},
{"property": "C86", "status": "partial", "theorems": ["Flix.C86_options", "Flix.C86_scalars", "Flix.C86_separate", "Flix.C86_complete_partial", "Flix.C86_complete_wrong", "Flix.C86_total", "Flix.C86_start_partial", "Flix.C86_start_wrong"], "note": "Completeness for results of the same kind in all segments; overview for start values unchanged between construction and run."},
{"property": "C87", "status": "partial", "theorems": ["Flix.C87_partial", "Flix.C87_starts_partial", "Flix.C87_cost_partial", "Flix.C87_cost_starts_partial", "Flix.C87_run_partial", "Flix.C87_run_starts_partial", "Flix.C87_segment", "Flix.C87_time", "Flix.C87_series", "Flix.C87_total_wrong", "Flix.C87_duration_wrong", "Flix.C87_cyclic_wrong", "Flix.C87_final_wrong", "Flix.C87_starts_wrong", "Flix.C87_count_wrong", "Flix.C87_size_wrong", "Flix.C87_runs", "Flix.C87_runs_flow"], "note": "For systems in which nothing couples distant steps; the _wrong theorems show that limits on totals, durations, numbers of starts, investment decisions, cyclic and final charge states break the statement in the code. Costs of starts are covered where the state at the end of a segment can be read off the last flow rates; C87_starts_wrong shows a component where it cannot."},
{"property": "C88", "status": "partial", "theorems": ["Flix.C88_component_partial", "Flix.C88_bus_partial", "Flix.C88_flow_partial", "Flix.C88_unknown", "Flix.C88_clash_wrong"], "note": "For labels without two underscores in a row and flows not labelled like sub models; the code accepts other labels (C88_clash_wrong)."},
{"property": "C89", "status": "partial", "theorems": ["Flix.C89", "Flix.C89_selection_partial", "Flix.C89_selection_wrong"], "note": "any number of calculations of the whole horizon; histories of selections provided absolute losses of transmissions are nonzero in all or none of them, otherwise a counterexample"},
{"property": "C90", "status": "partial", "theorems": ["Flix.C90_plotly", "Flix.C90_colours", "Flix.C90_colours_matplotlib", "Flix.C90_bars", "Flix.C90_steps", "Flix.C90_bus", "Flix.C90_storage_partial", "Flix.C90_storage_other", "Flix.C90_default_wrong", "Flix.C90_zero_wrong"], "note": "the data of heat maps are C113; matplotlib refuses the default mode; with_plotly called directly draws zero columns twice; flows of a storage must not be labelled like its variables"},
{"property": "C91", "status": "partial", "theorems": ["Flix.C91_partial", "Flix.C91_starts_partial", "Flix.C91_chain_partial", "Flix.C91_chain_starts_partial", "Flix.C91_greedy_wrong"], "note": "the same systems as C87; limits for the final charge state only where the segment ends with the horizon. C91_greedy_wrong: segments solved to their optimum may get stuck"},
{"property": "C92", "status": "proved", "theorems": ["Flix.C92", "Flix.C92_bound", "Flix.C92_exact"], "note": "both calculations are modelled from the same data (with aggregated data: the data inserted before modelling); the first position of every period is left out of the repetition as in C49"},
{"property": "C93", "status": "proved", "theorems": ["Flix.C93", "Flix.C93_system"], "note": "any solver model and flow systems with cost"},
{"property": "C94", "status": "proved", "theorems": ["Flix.C94"], "note": "any solver model"},
{"property": "C95", "status": "partial", "theorems": ["Flix.C95", "Flix.C95_bounded", "Flix.C95_aggregated", "Flix.C95_wrong"], "note": "needs acyclic shares between effects (guaranteed by the constructors) and penalties that are not negative; negative penalties are accepted by the code and make the model unbounded (C95_wrong)"},
{"property": "C96", "status": "proved", "theorems": ["Flix.C96", "Flix.C96_join", "Flix.C96_split"], "note": "Effects without limits and ranked shares; a limit on an effect couples both systems, so the claim does not extend to it."},
{"property": "C97", "status": "partial", "theorems": ["Flix.C97_partial", "Flix.C97_saved_partial", "Flix.C97_file_partial", "Flix.C97_json_partial", "Flix.C97_order", "Flix.C97_storage_wrong", "Flix.C97_transmission_wrong", "Flix.C97_json_wrong"], "note": "Equal descriptions give equal problems if storages and transmissions with the same label agree in whether simultaneous flows are prevented, which the code leaves out of the description; the shortened form rounds time series to two decimals."},
{"property": "C98", "status": "partial", "theorems": ["Flix.C98_partial", "Flix.C98_optimum_partial", "Flix.C98_wrong"], "note": "A solution under narrower limits gives one with the same flow rates and effect totals under wider limits at no higher cost; so does the optimum.  Missing: sizes of zero, which count as unlimited (C98_wrong is the witness); the static conditions on the data (Proper) exclude them."},
{"property": "C99", "status": "proved", "theorems": ["Flix.C99_any_price", "Flix.C99", "Flix.C99_optimum"], "note": "Any prices leave every solution feasible with the same rates if no effect is limited; lower prices leave it feasible with totals that are not higher, at no higher cost; so does the optimum."}
]}
