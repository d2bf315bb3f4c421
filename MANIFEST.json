{
 "claims": [
  {
   "property": "C01",
   "status": "proved",
   "theorems": [
    "Slide.ecm_setCurrent_atomic",
    "Slide.ecm_setCurrent_rejects_iff"
   ],
   "note": ""
  },
  {
   "property": "C02",
   "status": "partial",
   "theorems": [
    "Slide.series_setCurrent_not_atomic",
    "Slide.series_setCurrent_partial",
    "Slide.series_setCurrent_first_rejects_partial"
   ],
   "note": "False of the code (the roll-back loop does not restore the children): witness proved; SeriesSetCurrentAtomic is the full statement. Success case and rejection by the first child are proved."
  },
  {
   "property": "C03",
   "status": "partial",
   "theorems": [
    "Slide.parallel_setCurrent_not_atomic",
    "Slide.parallel_setCurrent_bad_partial",
    "Slide.parallel_setCurrent_first_rejects_partial"
   ],
   "note": "False of the code: witness proved; ParallelSetCurrentAtomic is the full statement."
  },
  {
   "property": "C04",
   "status": "partial",
   "theorems": [
    "Slide.parallel_setCurrent_not_exact",
    "Slide.parallel_setCurrent_wrong_total",
    "Slide.parallel_setCurrent_not_equalised",
    "Slide.parallel_setCurrent_empty",
    "Slide.parallel_redistribute_ends",
    "Slide.parallel_setCurrent_alike_partial",
    "Slide.parallel_redistribute_agree_partial"
   ],
   "note": "False of the code: for branches of different capacity the total current is wrong (witness), oscillating branches are accepted unequalised (witness). ParallelSetCurrentExact is the full statement. Proved for alike branches with R*C<=1, by convergence of the loop; redistributeCurrent's Success implies pairwise agreement to 1e-10."
  },
  {
   "property": "C05",
   "status": "partial",
   "theorems": [
    "Slide.module_setStates_not_atomic",
    "Slide.module_setStates_rejected_partial",
    "Slide.ecm_setStates_atomic",
    "Slide.ecm_setStates_short_ub"
   ],
   "note": "False of the code: witness proved; ModuleSetStatesAtomic is the full statement. True for cells and when the first child rejects."
  },
  {
   "property": "C06",
   "status": "proved",
   "theorems": [
    "Slide.tree_states_roundtrip",
    "Slide.tree_calls_keep_structure",
    "Slide.tree_save_restore",
    "Slide.ecm_states_roundtrip"
   ],
   "note": ""
  },
  {
   "property": "C07",
   "status": "partial",
   "theorems": [
    "Slide.series_currents_can_differ",
    "Slide.series_currents_equal_partial"
   ],
   "note": "False of the code after a rejected current: witness proved; SeriesCurrentsStayEqual is the full statement. True for sequences in which no setCurrent is rejected."
  },
  {
   "property": "C08",
   "status": "proved",
   "theorems": [
    "Slide.series_V_sum",
    "Slide.series_V_kirchhoff",
    "Slide.series_V_invalid",
    "Slide.series_limits_sum",
    "Slide.series_OCV_sum",
    "Slide.series_ohmic",
    "Slide.ecm0_ohmic"
   ],
   "note": ""
  },
  {
   "property": "C09",
   "status": "proved",
   "theorems": [
    "Slide.parallel_getVall",
    "Slide.parallel_getVall_small",
    "Slide.parallel_V_terminal"
   ],
   "note": ""
  },
  {
   "property": "C10",
   "status": "proved",
   "theorems": [
    "Slide.parallel_sums",
    "Slide.parallel_window",
    "Slide.parallel_Rtot_no_contact",
    "Slide.parallel_Rtot_meaning",
    "Slide.parallel_OCV_mean"
   ],
   "note": ""
  },
  {
   "property": "C11",
   "status": "proved",
   "theorems": [
    "Slide.ecm_apply_par",
    "Slide.ecm_charge_conservation",
    "Slide.ecm_counters_monotone"
   ],
   "note": ""
  },
  {
   "property": "C12",
   "status": "proved",
   "theorems": [
    "Slide.ecm_timeStep_batch",
    "Slide.ecm_timeStep_single",
    "Slide.series_timeStep_batch",
    "Slide.tree_timeStep_batch"
   ],
   "note": ""
  },
  {
   "property": "C13",
   "status": "proved",
   "theorems": [
    "Slide.ecm_timeStep_negative",
    "Slide.ecm_timeStep_nonneg",
    "Slide.series_timeStep_negative",
    "Slide.series_timeStep_nonneg",
    "Slide.tree_timeStep_negative"
   ],
   "note": ""
  },
  {
   "property": "C14",
   "status": "proved",
   "theorems": [
    "Slide.ecm_rc_closed_form",
    "Slide.ecm_rc_stable",
    "Slide.ecm_rc_unstable_large_step"
   ],
   "note": ""
  },
  {
   "property": "C15",
   "status": "proved",
   "theorems": [
    "Slide.checkVoltage_iff",
    "Slide.checkVoltage_classified",
    "Slide.classified_unique",
    "Slide.checkVoltage_bad_iff",
    "Slide.checkVoltage_rectifying_ok",
    "Slide.checkVoltage_none",
    "Slide.checkVoltage_needs_margin",
    "Slide.checkSafety_safe_iff"
   ],
   "note": "For limits nested with the 10 mV margin; a theorem shows the margin is necessary."
  },
  {
   "property": "C16",
   "status": "proved",
   "theorems": [
    "Slide.tree_status_worst",
    "Slide.tree_status_ok_iff",
    "Slide.tree_status_attained"
   ],
   "note": ""
  },
  {
   "property": "C17",
   "status": "proved",
   "theorems": [
    "Slide.linInt_search_onPolygon",
    "Slide.onPolygon_unique",
    "Slide.onPolygon_between",
    "Slide.linInt_outside",
    "Slide.linInt_unbounded_clamps"
   ],
   "note": "Search-based lookup including the binary search loop, with out-of-bounds reads as explicit UB outcome."
  },
  {
   "property": "C18",
   "status": "partial",
   "theorems": [
    "Slide.fixed_shortcut_out_of_bounds",
    "Slide.fixed_shortcut_incorrect",
    "Slide.fixed_shortcut_wrong_value",
    "Slide.fixed_shortcut_correct_partial",
    "Slide.checkIsFixed_iff"
   ],
   "note": "False of the code: the 1% tolerance accepts tables on which the shortcut reads out of bounds or gives a wrong value (witnesses proved). Holds for exactly equidistant tables."
  },
  {
   "property": "C19",
   "status": "partial",
   "theorems": [
    "Slide.histogram_counts",
    "Slide.inBin_existsUnique",
    "Slide.histogram_edges",
    "Slide.histogram_huge_ub",
    "Slide.histogram_default_ub"
   ],
   "note": "For every sequence of samples within the range of the index conversion each sample is counted in exactly one bin, namely the bin whose edges contain it. The full statement HistogramTotal (every sample) is false: a huge sample overflows the int conversion (histogram_huge_ub), as does a default-constructed histogram."
  },
  {
   "property": "C20",
   "status": "partial",
   "theorems": [
    "Slide.run_unknown_hardware",
    "Slide.not_runsEveryTaskOnce",
    "Slide.run_each_once_partial",
    "Slide.run_deterministic"
   ],
   "note": "RunsEveryTaskOnce (full statement) is false when the hardware concurrency is reported as 0 and no thread count is given: no task runs. Otherwise each task runs exactly once and every interleaving of independent tasks gives the same final state."
  },
  {
   "property": "C21",
   "status": "proved",
   "theorems": [
    "Slide.rest_exact",
    "Slide.rest_reaches",
    "Slide.rest_terminates",
    "Slide.rest_zero_step_diverges",
    "Slide.rest_no_time"
   ],
   "note": "rest_exact: for every tree, whenever rest returns ReachedTimeLimit exactly the requested time was simulated in every cell and reported. rest_reaches: on series strings it always returns. rest_terminates: the loop needs a bounded number of iterations for every unit. Time step 0 is shown to loop forever."
  },
  {
   "property": "C22",
   "status": "partial",
   "theorems": [
    "Slide.cc_time_accounted",
    "Slide.cc_charge_accounted",
    "Slide.cc_abort_not_accounted"
   ],
   "note": "False for aborted runs (witness: time of the last step is not accounted): CCAccountsTime is the full statement. Proved for all runs that stop on a limit."
  },
  {
   "property": "C23",
   "status": "partial",
   "theorems": [
    "Slide.cv_reports_no_time",
    "Slide.cccv_reports_cc_time",
    "Slide.cccv_time_incomplete",
    "Slide.cv_charge_partial",
    "Slide.cccv_sums_phases",
    "Slide.cccv_charge_partial"
   ],
   "note": "False of the code: the CV phase never adds to the reported time. CCCVTimeComplete is the full statement; negation by witness."
  },
  {
   "property": "C24",
   "status": "partial",
   "theorems": [
    "Slide.capacityTest_not_restored",
    "Slide.capacityTest_failure_restores_partial",
    "Slide.capacityTest_success_leaves_charge"
   ],
   "note": "False of the code: the unit is only restored when the test fails. CapacityTestRestores is the full statement."
  },
  {
   "property": "C25",
   "status": "proved",
   "theorems": [
    "Slide.cccv_invalid_Vset",
    "Slide.cccv_invalid_Vset'"
   ],
   "note": ""
  },
  {
   "property": "C26",
   "status": "partial",
   "theorems": [
    "Slide.SmallVector.pushBack_room",
    "Slide.SmallVector.pushBack_full_ub",
    "Slide.SmallVector.not_fullThrows",
    "Slide.SmallVector.pushAll_partial",
    "Slide.SmallVector.get_spec",
    "Slide.addModels_partial"
   ],
   "note": "SmallVector.FullThrows (a full list rejects a further entry with an exception) is false of the code, which writes out of bounds; everything up to the capacity is proved."
  },
  {
   "property": "C27",
   "status": "proved",
   "theorems": [
    "Slide.DynMatrix.matrix_write_read",
    "Slide.DynMatrix.matrix_index_bijective",
    "Slide.DynMatrix.make_get",
    "Slide.DynMatrix.make_sized",
    "Slide.DynMatrix.resize_sized",
    "Slide.DynMatrix.resize_keeps",
    "Slide.DynMatrix.resize_moves"
   ],
   "note": ""
  },
  {
   "property": "C28",
   "status": "partial",
   "theorems": [
    "Slide.copy_same",
    "Slide.copy_fresh",
    "Slide.copy_independent",
    "Slide.copy_parent_partial",
    "Slide.copy_never_linked",
    "Slide.copy_fullID_dangling",
    "Slide.not_copySelfConsistent"
   ],
   "note": "Copies are equal, share nothing with the original and are not affected by changes of it. CopySelfConsistent (parents inside a copy are units of the copy) is false of the code: copied children keep pointing to the original parent."
  },
  {
   "property": "C29",
   "status": "partial",
   "theorems": [
    "Slide.records_kept",
    "Slide.write_exports_all",
    "Slide.memory_bounded",
    "Slide.first_export_documented_partial",
    "Slide.not_rowsAlwaysDocumented",
    "Slide.exported_value_close_partial",
    "Slide.not_exportedValuesExact"
   ],
   "note": "Nothing lost or duplicated and the memory bound are proved for all call sequences. RowsAlwaysDocumented and ExportedValuesExact are the full statements on rows and values; false of the code: the second export continues the last row of the first, and values are written with six digits."
  },
  {
   "property": "C30",
   "status": "proved",
   "theorems": [
    "Slide.status_ok_iff_not_bad",
    "Slide.status_bad_iff",
    "Slide.status_warning_iff",
    "Slide.status_cycler_reasons_ok",
    "Slide.status_ok_safe",
    "Slide.status_code_injective",
    "Slide.status_worst_spec",
    "Slide.status_worst_fold_ok",
    "Slide.status_limit_reached_iff",
    "Slide.status_limitsReached_excludes_time"
   ],
   "note": ""
  },
  {
   "property": "C31",
   "status": "partial",
   "theorems": [
    "Slide.battery_scaling",
    "Slide.battery_power",
    "Slide.battery_ohmic",
    "Slide.battery_setCurrent_exact",
    "Slide.battery_setCurrent_no_copies",
    "Slide.battery_reports_current_partial",
    "Slide.not_batteryReportsCurrent"
   ],
   "note": "Scaling of all readings and of power is proved for every module. 'Reports exactly I' (BatteryReportsCurrent) is false for parallel modules, whose total current after an accepted set differs (witness); it is proved for every module that reports what it accepts and for all nested series strings of ECM cells."
  },
  {
   "property": "C32",
   "status": "partial",
   "theorems": [
    "Slide.converter_losses_partial",
    "Slide.converter_charge_discharge",
    "Slide.converter_charging_partial",
    "Slide.converter_idle_partial",
    "Slide.converter_below_documented",
    "Slide.converter_not_even",
    "Slide.converter_not_growing",
    "Slide.not_converterLossesPhysical",
    "Slide.converter_no_power_ub"
   ],
   "note": "ConverterLossesPhysical is the full statement and false of the code: the loss is below 1.5 kW per inverter at moderate currents, depends on the sign of the current and can fall when an inverter is added. Positivity with the bound 1290 W per inverter holds for all inputs; the documented bound and monotonicity hold when charging."
  },
  {
   "property": "C33",
   "status": "partial",
   "theorems": [
    "Slide.fan_hysteresis",
    "Slide.fan_proportional",
    "Slide.fan_proportional_value",
    "Slide.hvac_bounded",
    "Slide.fan_nonneg",
    "Slide.hvac_off_when_cold_partial",
    "Slide.not_acOffWhenCold",
    "Slide.battery_fan_onoff"
   ],
   "note": "All parts proved except 'AC off at or below the minimum temperature' (ACOffWhenCold), which is false for strategy 1 at exactly the minimum temperature."
  },
  {
   "property": "C34",
   "status": "proved",
   "theorems": [
    "Slide.cooling_energy_once",
    "Slide.cooling_reread_zero",
    "Slide.battery_cooling_load"
   ],
   "note": ""
  },
  {
   "property": "C35",
   "status": "partial",
   "theorems": [
    "Slide.spm_fresh_partial",
    "Slide.spm_setCurrent_refreshes",
    "Slide.spm_read_twice",
    "Slide.not_spmAlwaysFresh",
    "Slide.not_fresh_cycling"
   ],
   "note": "Operations other than setT, the overwrite functions, setCharacterisationParam and time steps with degradation keep the reported voltage up to date; an accepted current refreshes it from any state. The full statement (SpmAlwaysFresh) is false: setT and time steps with degradation leave an outdated cached voltage."
  },
  {
   "property": "C36",
   "status": "partial",
   "theorems": [
    "Slide.spm_setStates_atomic_partial",
    "Slide.spm_setStates_throws",
    "Slide.spm_setStates_accepts",
    "Slide.spm_decode_getStates",
    "Slide.spm_restore",
    "Slide.not_spmSetStatesAtomic"
   ],
   "note": "A rejected vector leaves the cell exactly as it was; an accepted one is stored. The full statement is false: negative lost lithium throws 15 (the only exception) and the rejected vector stays."
  },
  {
   "property": "C37",
   "status": "partial",
   "theorems": [
    "Slide.spm_factors_partial",
    "Slide.spm_factors_ignored",
    "Slide.not_spmFactorsApplied"
   ],
   "note": "Capacity and resistance factors are applied; the two degradation factors are ignored by the constructor, so the full statement is false."
  },
  {
   "property": "C38",
   "status": "partial",
   "theorems": [
    "Slide.spm_ages",
    "Slide.spm_agesOneWay_partial",
    "Slide.spm_unknown_throws",
    "Slide.spm_unknown_refused",
    "Slide.spm_sei_known_run",
    "Slide.not_spmAgesOneWay",
    "Slide.not_spmStepsDefined",
    "Slide.not_spmStepsNeverUnage"
   ],
   "note": "SEI thickness, crack surface and plated lithium never decrease for any sequence; lost lithium as long as the anode surface is not negative; unknown identifiers throw 106. False in full: a long step can make the anode surface negative, a zero-length step divides by zero, a negative number of steps un-ages."
  },
  {
   "property": "C39",
   "status": "partial",
   "theorems": [
    "Slide.heat_balance_partial",
    "Slide.not_heatBalanced"
   ],
   "note": "HeatBalanced is the full statement; false of the code: every cell multiplies the heat flow with its own clock, which may differ by up to 1 s from the clock of its neighbours. Proved for every tree whose cell clocks agree with the duration."
  },
  {
   "property": "C40",
   "status": "proved",
   "theorems": [
    "Slide.linspace_spec",
    "Slide.linspace_short",
    "Slide.linspaceFix_values"
   ],
   "note": ""
  },
  {
   "property": "C41",
   "status": "partial",
   "theorems": [
    "Slide.Csv.loadMat_reads_partial",
    "Slide.Csv.loadMat_eats_first",
    "Slide.Csv.not_matReadsAll",
    "Slide.Csv.not_matTerminates",
    "Slide.Csv.loadMat_terminates_partial",
    "Slide.Csv.load2col_reads",
    "Slide.Csv.not_twoColTerminates",
    "Slide.Csv.load2col_terminates_partial",
    "Slide.Csv.loadNcol_reads",
    "Slide.Csv.not_ncolDefined",
    "Slide.Csv.missing_file",
    "Slide.Csv.getChar_next"
   ],
   "note": "MatReadsAll and MatTerminates are the full statement; false of the code: white space in front of the first number also removes the first character of the number, and an empty file is an endless loop. Proved for files that start with a number; the 2-column and N-column readers proved for all prefixes. Numbers are exact rationals (no rounding, no overflow)."
  },
  {
   "property": "C42",
   "status": "partial",
   "theorems": [
    "Slide.cholUpdate_diagonal_partial",
    "Slide.not_cholUpdateCorrect"
   ],
   "note": "CholUpdateCorrect is the full statement; false of the code for factors with entries below the diagonal (the old entry below the diagonal is not divided by c). Proved for every dimension and diagonal factor, the only use in the library."
  },
  {
   "property": "C43",
   "status": "proved",
   "theorems": [
    "Slide.spm_soc_charge",
    "Slide.spm_profile_soc",
    "Slide.spm_closed_profile",
    "Slide.spm_equilibrium",
    "Slide.spm_rest_voltage",
    "Slide.spm_lithium_tracks_soc",
    "Slide.spm_setC_uniform"
   ],
   "note": "Over the rationals. The fixed point needs that the matrix row of the uniform concentration is zero (true of the shipped matrices) and that no side reaction is active."
  },
  {
   "property": "C44",
   "status": "partial",
   "theorems": [
    "Slide.vhigh_not_attained",
    "Slide.extreme_voltages_bound_partial",
    "Slide.vlow_attained_partial",
    "Slide.vhigh_attained_partial"
   ],
   "note": "False of the code (a module of cells with voltages below the start value): witness proved; ExtremeVoltagesAttained is the full statement."
  },
  {
   "property": "C45",
   "status": "partial",
   "theorems": [
    "Slide.series_contact_heat",
    "Slide.parallel_contact_heat_partial",
    "Slide.parallel_contact_heat_overestimates",
    "Slide.contactHeat_wrong",
    "Slide.not_contactHeatIsJoule"
   ],
   "note": "ContactHeatIsJoule is the full statement; false of the code for parallel modules: the current of the previous resistors is added again for every resistor (Module_p.cpp:313-320). Proved for series modules; for parallel modules the heat is right with at most one non-zero contact resistance path and never underestimated."
  },
  {
   "property": "C46",
   "status": "partial",
   "theorems": [
    "Slide.visit_enumerates",
    "Slide.ncells_bottomUp_partial",
    "Slide.ncells_battery",
    "Slide.not_countUpToDate",
    "Slide.ncells_new_module_ub",
    "Slide.battery_takes_one"
   ],
   "note": "The traversal visits every unit exactly once. CountUpToDate (the reported number of cells is always the number of cells in the tree) is false: counts are cached at connection and not updated when a module is filled after being connected. Proved for trees built bottom up."
  },
  {
   "property": "C47",
   "status": "proved",
   "theorems": [
    "Slide.ecm_setVoltage_spec",
    "Slide.ecm_setVoltage_no_throw"
   ],
   "note": ""
  },
  {
   "property": "C48",
   "status": "partial",
   "theorems": [
    "Slide.CachedS.V_fresh",
    "Slide.CachedS.apply_inv",
    "Slide.CachedS.cacheFresh_partial",
    "Slide.CachedS.freshV_eq",
    "Slide.CachedS.not_cacheFresh",
    "Slide.CachedS.cache_stale_after_exception",
    "Slide.CachedS.timeStep_backwards",
    "Slide.CachedS.setSUs_voltage",
    "Slide.CachedS.setRcontact_exact"
   ],
   "note": "CacheFresh is the full statement; false of the code: changing a child directly, or an exception during a time step, leaves a stale cached voltage. Proved for all call sequences made through the module without exception."
  },
  {
   "property": "C49",
   "status": "proved",
   "theorems": [
    "Slide.cycleAge_reason",
    "Slide.cycleAge_performs",
    "Slide.cycleAge_zero_interval"
   ],
   "note": "The check-up and the balancing procedure are parameters of the model (any functions on the unit)."
  },
  {
   "property": "C50",
   "status": "proved",
   "theorems": [
    "Slide.fullID_unique",
    "Slide.fullID_path",
    "Slide.fullID_separator_clash"
   ],
   "note": ""
  },
  {
   "property": "C51",
   "status": "partial",
   "theorems": [
    "Slide.status_messages_not_distinct",
    "Slide.status_messages_distinct_partial"
   ],
   "note": "False of the code: VMINsafety_violation and VMAXsafety_violation both give the fallback text."
  },
  {
   "property": "C52",
   "status": "partial",
   "theorems": [
    "Slide.series_setCurrent_overflow",
    "Slide.parallel_setCurrent_overflow"
   ],
   "note": "False of the code: for more than 100 children the fixed-size local array is written out of bounds (explicit UB outcome), proved for every such module."
  },
  {
   "property": "C53",
   "status": "proved",
   "theorems": [
    "Slide.tree_setCurrent_only_current",
    "Slide.tree_setVoltage_only_current",
    "Slide.tree_redistribute_only_current"
   ],
   "note": ""
  },
  {
   "property": "C54",
   "status": "proved",
   "theorems": [
    "Slide.tree_timeStep_steps_cells",
    "Slide.tree_timeStep_cells"
   ],
   "note": ""
  },
  {
   "property": "C55",
   "status": "partial",
   "theorems": [
    "Slide.cc_voltageLimit_spurious",
    "Slide.cc_voltageLimit_partial"
   ],
   "note": "False of the code: a charge continued with a smaller current, so that the voltage drops below the limit when the current is set, is reported to have reached the limit without any charging (cc_voltageLimit_spurious; the code itself has a TODO there). CCVoltageLimitMeans is the full statement. Proved for discharges and for charges that start below the limit, on any tree."
  },
  {
   "property": "C56",
   "status": "proved",
   "theorems": [
    "Slide.cv_status_meaning",
    "Slide.cv_time_limit"
   ],
   "note": ""
  },
  {
   "property": "C57",
   "status": "proved",
   "theorems": [
    "Slide.DegId.print_injective",
    "Slide.DegId.valid_of_addModels",
    "Slide.DegId.print_added",
    "Slide.DegId.print_needs_valid"
   ],
   "note": ""
  },
  {
   "property": "C58",
   "status": "proved",
   "theorems": [
    "Slide.battery_losses_metered",
    "Slide.battery_losses_reset"
   ],
   "note": ""
  },
  {
   "property": "C59",
   "status": "partial",
   "theorems": [
    "Slide.battery_states_roundtrip",
    "Slide.battery_states_roundtrip_tree",
    "Slide.not_batterySetStatesAtomic",
    "Slide.battery_setStates_rejected_partial"
   ],
   "note": "Round trip proved. BatterySetStatesAtomic is false of the code: the container temperature is overwritten also when the module rejects the vector."
  },
  {
   "property": "C60",
   "status": "partial",
   "theorems": [
    "Slide.setSUs_connects",
    "Slide.setSUs_null_dereference",
    "Slide.not_setSUsRefuses",
    "Slide.setSUs_refuses_partial",
    "Slide.setSUs_failed_unchanged"
   ],
   "note": "SetSUsRefuses is the full statement. It is false for a module without parent: making the error message dereferences the module's own null parent."
  },
  {
   "property": "C61",
   "status": "proved",
   "theorems": [
    "Slide.series_Cap_weakest",
    "Slide.series_Cap_usable",
    "Slide.parallel_sums"
   ],
   "note": ""
  },
  {
   "property": "C62",
   "status": "proved",
   "theorems": [
    "Slide.ecm_lookup_failed",
    "Slide.ecm_lookup_failed_iff",
    "Slide.ecm_step_outside"
   ],
   "note": ""
  },
  {
   "property": "C63",
   "status": "partial",
   "theorems": [
    "Slide.failed_thermal_discards",
    "Slide.not_failedThermalKeepsHeat",
    "Slide.failed_thermal_clock_partial",
    "Slide.thermal_once"
   ],
   "note": "FailedThermalKeepsHeat is the full statement; false of the code: the exception handler resets the pending heat."
  },
  {
   "property": "C64",
   "status": "partial",
   "theorems": [
    "Slide.battery_heat_balance_partial",
    "Slide.battery_heat_missing",
    "Slide.not_batteryHeatBalanced"
   ],
   "note": "BatteryHeatBalanced is the full statement; false of the code: the heat of only one copy reaches the battery coolant. Exact missing amount proved; exact balance proved for one copy."
  },
  {
   "property": "C65",
   "status": "partial",
   "theorems": [
    "Slide.temperatures_between_partial",
    "Slide.not_temperaturesBetween"
   ],
   "note": "TemperaturesBetween is the full statement; false for long steps (explicit Euler overshoots). Proved for every tree when the step is short compared with all thermal time constants."
  },
  {
   "property": "C66",
   "status": "proved",
   "theorems": [
    "Slide.dstate_meters",
    "Slide.cooling_meters"
   ],
   "note": ""
  },
  {
   "property": "C67",
   "status": "partial",
   "theorems": [
    "Slide.throughput_totals_partial",
    "Slide.not_rowsPerPhase",
    "Slide.throughput_heading_mismatch",
    "Slide.throughput_columns_shifted"
   ],
   "note": "RowsPerPhase is the full statement; false of the code: the rows are running totals, and the heading has five names for four columns. Proved: one row per phase with the running total, nothing left pending."
  },
  {
   "property": "C68",
   "status": "partial",
   "theorems": [
    "Slide.series_setVoltage_status",
    "Slide.parallel_setVoltage_status",
    "Slide.parallel_setVoltage_V",
    "Slide.parallel_setVoltage_iff",
    "Slide.series_setVoltage_reaches",
    "Slide.not_setVoltageAtomic_parallel",
    "Slide.not_seriesSetVoltageDefined"
   ],
   "note": "Success always means that the voltage is reached; exact convergence conditions proved for cells. SetVoltageAtomic and SeriesSetVoltageDefined are the rest of the full statement; false of the code: the old currents are not restored, and for an unreachable voltage a string divides by zero."
  },
  {
   "property": "C69",
   "status": "partial",
   "theorems": [
    "Slide.setModule_refuses",
    "Slide.setModule_builds",
    "Slide.inverters_enough",
    "Slide.not_converterAlwaysRated"
   ],
   "note": "ConverterAlwaysRated is the full statement for every order of calls; false of the code: setSeriesandParallel after setModule does not rate the converter again. Proved for setSeriesandParallel before setModule."
  },
  {
   "property": "C70",
   "status": "proved",
   "theorems": [
    "Slide.sUpdate_covariance"
   ],
   "note": ""
  },
  {
   "property": "C71",
   "status": "partial",
   "theorems": [
    "Slide.Csv.span_reads_once",
    "Slide.Csv.span_first_read",
    "Slide.Csv.span_other",
    "Slide.Csv.not_spanDefined"
   ],
   "note": "SpanDefined is the rest of the full statement; false of the code: a span longer than the data is undefined behaviour."
  },
  {
   "property": "C72",
   "status": "partial",
   "theorems": [
    "Slide.spm_acceptsOnlyValid_partial",
    "Slide.not_spmAcceptsOnlyValid"
   ],
   "note": "Proved for positive effective surfaces; the full statement is false because a negative effective surface passes the relative comparison."
  },
  {
   "property": "C73",
   "status": "proved",
   "theorems": [
    "Slide.spm_scales",
    "Slide.spm_build_scaled",
    "Slide.scaled_setCurrent",
    "Slide.scaled_timeStep"
   ],
   "note": "Over the rationals; degradation and thermal model blocked, as stated."
  },
  {
   "property": "C74",
   "status": "partial",
   "theorems": [
    "Slide.spm_characterisationRdc_partial",
    "Slide.not_spmCharacterisationRdc"
   ],
   "note": "False of the code: with equal electrodes the DC resistance becomes twice the value, plus SEI and collector."
  },
  {
   "property": "C75",
   "status": "partial",
   "theorems": [
    "Slide.spm_losesMaterial_partial",
    "Slide.not_spmLosesMaterial",
    "Slide.not_losesMaterial_charging"
   ],
   "note": "Proved while the effective surfaces are not negative and, with the porosity model, the cell is not charged; false otherwise."
  },
  {
   "property": "C76",
   "status": "partial",
   "theorems": [
    "Slide.Dai.dai_stress_partial",
    "Slide.Dai.dai_max_partial",
    "Slide.Dai.dai_radial",
    "Slide.Dai.dai_linear",
    "Slide.Dai.dai_uniform",
    "Slide.Dai.dai_ofCell_uniform",
    "Slide.Dai.not_stressAtNode",
    "Slide.Dai.not_reportsLargest"
   ],
   "note": "StressAtNode and ReportsLargest are the full statement; false of the code: the tangential stress reads the concentration array from the surface with an index counted from the centre, so nodes get the stress of their mirror image and the surface concentration is never used. Equilibrium, linearity, radial stress and the maximum over all other nodes are proved."
  },
  {
   "property": "C77",
   "status": "proved",
   "theorems": [
    "Slide.OcvFit.validOCV_spec",
    "Slide.OcvFit.checkInput_spec",
    "Slide.OcvFit.validOCV_empty"
   ],
   "note": "Columns of equal length with at least one row, as the CSV reader returns them (C41, C71); an empty curve is undefined behaviour, stated as a theorem."
  },
  {
   "property": "C78",
   "status": "proved",
   "theorems": [
    "Slide.OcvFit.cost_spec",
    "Slide.OcvFit.cost_zero_iff",
    "Slide.OcvFit.cost_recovers"
   ],
   "note": "Over the rationals; the final voltage of the measured curve is not negative (what C77 accepts), amounts of material and maximum concentrations are not 0."
  },
  {
   "property": "C79",
   "status": "partial",
   "theorems": [
    "Slide.OcvFit.fit_spec",
    "Slide.OcvFit.search_best",
    "Slide.OcvFit.fit_steps",
    "Slide.OcvFit.fit_recovers",
    "Slide.OcvFit.fit_improves_partial",
    "Slide.OcvFit.not_eachLevelImproves",
    "Slide.OcvFit.goodData_of_checkInput",
    "Slide.OcvFit.fit_ub"
   ],
   "note": "Best combination, step sizes and recovery are proved in full (measured curves with fewer than 25 million points; errors as mean squares). EachLevelImproves is the remaining part of the statement; it is false of the code: with an even number of values (the program uses 100 for the active materials) the best combination of a level is not among those of the next one, and the result can get worse. fit_improves_partial proves it for odd numbers of values."
  },
  {
   "property": "C80",
   "status": "partial",
   "theorems": [
    "Slide.OcvFit.discharge_partial",
    "Slide.OcvFit.discharge_ends",
    "Slide.OcvFit.discharge_zero_cap",
    "Slide.OcvFit.not_storedTogether",
    "Slide.OcvFit.not_fractionsInside"
   ],
   "note": "Lithium balance, start, end and termination are proved. StoredTogether and FractionsInside are the rest of the statement; both are false of the code: the voltages are looked up before the charge of a time step is exchanged, so they belong to the charge 1/7200 of the capacity before, and the last time step can leave the range of 0 to 1. The documented exception 1 is never thrown. A capacity of 0 never ends."
  },
  {
   "property": "C81",
   "status": "proved",
   "theorems": [
    "Slide.OcvFit.calculateError_spec",
    "Slide.OcvFit.calculateError_empty"
   ],
   "note": "The model returns the mean square; the square root taken by the code is zero exactly if it is."
  },
  {
   "property": "C82",
   "status": "partial",
   "theorems": [
    "Slide.checkUps_numbered_partial",
    "Slide.not_checkUpsNumbered"
   ],
   "note": "CheckUpsNumbered is the full statement; false of the code: the last check-up is told the number of cycles asked for, also if the run ended early. Proved for all other check-ups, and for the last one of a complete run."
  },
  {
   "property": "C83",
   "status": "partial",
   "theorems": [
    "Slide.useCase_days_partial",
    "Slide.not_everyPhaseReaches",
    "Slide.not_ownRowsOnly"
   ],
   "note": "Days, rests, order, reason for an early end, running totals and check-ups are proved. EveryPhaseReaches and OwnRowsOnly are the rest of the statement; both are false of the code: the states of the first charge, first discharge and second charge are ignored (a day in which both 1C phases are refused counts as completed), and because the unit is discharged before the first check-up the file is not started afresh and keeps the rows of earlier runs."
  },
  {
   "property": "C84",
   "status": "partial",
   "theorems": [
    "Slide.rebalance_cells_partial",
    "Slide.rebalance_zero_current",
    "Slide.rebalance_invalid_voltage",
    "Slide.rebalance_failing_child",
    "Slide.not_balances"
   ],
   "note": "Balances is the full statement; false of the code: only cells whose class is exactly Cell_SPM are balanced, nothing in a battery is, and the result of the CCCV phase is ignored; if a child other than the first fails the distance of unrelated objects is computed (undefined). Proved: what happens to every cell of the unit in a successful balancing."
  },
  {
   "property": "C85",
   "status": "partial",
   "theorems": [
    "Slide.setBlock_partial",
    "Slide.setBlockM_partial",
    "Slide.setBlockB_partial",
    "Slide.balancing_flags_partial",
    "Slide.not_blocksCells",
    "Slide.not_keepsBlocking"
   ],
   "note": "BlocksCells and KeepsBlocking are the full statement; false of the code: setBlockDegAndTherm is not virtual, so that a call through a storage unit sets the flag of the unit only and a call through a module reaches only its direct children, and balancing a blocked cell unblocks it."
  },
  {
   "property": "C86",
   "status": "partial",
   "theorems": [
    "Slide.checkUp_rows_partial",
    "Slide.checkUp_empty",
    "Slide.checkUp_appends",
    "Slide.not_showsState",
    "Slide.not_columnsNamed"
   ],
   "note": "ShowsState and ColumnsNamed are the rest of the full statement; both are false of the code: the states in the document are those of the copy after its capacity test, and a comma is missing in the heading, so that every value behind the cycle number stands below the name of another one (the energy throughput below Capacity). A unit without cells is undefined behaviour. Rows, order, values and the effect on the unit are proved."
  },
  {
   "property": "C87",
   "status": "proved",
   "theorems": [
    "Slide.checkMod_rows",
    "Slide.checkMod_labelled"
   ],
   "note": "Connected systems as built by the library (C60); the histogram document is not modelled (off by default)."
  },
  {
   "property": "C88",
   "status": "proved",
   "theorems": [
    "Slide.default_valid",
    "Slide.curve_defined",
    "Slide.default_discretisation",
    "Slide.default_rest_voltage",
    "Slide.restV_strictMono",
    "Slide.restV_range",
    "Slide.restV_values",
    "Slide.default_lithium",
    "Slide.default_profile_voltage"
   ],
   "note": "The numbers of the data files are part of the model (generated from them). exp, sqrt and asinh are arbitrary functions with the signs of the real ones. The settled voltage is that of the same amounts of lithium evenly distributed; how a rest reaches it is C90."
  },
  {
   "property": "C89",
   "status": "partial",
   "theorems": [
    "Slide.checkModelparam_iff",
    "Slide.wrongDiscretisationRefused_partial",
    "Slide.not_wrongDiscretisationRefused",
    "Slide.shipped_accepted"
   ],
   "note": "WrongDiscretisationRefused is the full statement; false of the code: number of nodes and radii are compared without absolute value, so that a discretisation for fewer nodes or smaller radii is accepted. The eigenvalue part, and the part for larger values, is proved. The default constructor does not call the check at all."
  },
  {
   "property": "C90",
   "status": "partial",
   "theorems": [
    "Slide.restSettles_partial",
    "Slide.not_restSettles",
    "Slide.rest_diverges",
    "Slide.rest_modes",
    "Slide.rest_surface",
    "Slide.factor_lt_one_iff",
    "Slide.default_step_ok"
   ],
   "note": "RestSettles is the full statement; false of the code: the explicit integration is unstable for time steps longer than two time constants of the fastest mode (5.7 s for the default cell with the diffusion constant at 25 degrees, less when it is warmer), no step length is refused, and the voltage then silently reads 0. Proved for all steps of at most 5 s at the default temperature; rest_modes and rest_surface hold for every cell, with the exact condition in factor_lt_one_iff."
  },
  {
   "property": "C91",
   "status": "proved",
   "theorems": [
    "Slide.timeStep_heat",
    "Slide.heat_is_loss",
    "Slide.loss_nonneg"
   ],
   "note": "Voltage up to date before the step (C35). The state at the end of the step is that of a twin with degradation and heat blocked, since degradation changes it after the heat has been computed."
  },
  {
   "property": "C92",
   "status": "proved",
   "theorems": [
    "Slide.setTenv_range",
    "Slide.timeStep_temperature",
    "Slide.timeStep_overheat"
   ],
   "note": "All three thermal models the program can be compiled with (a parameter of the model)."
  },
  {
   "property": "C93",
   "status": "partial",
   "theorems": [
    "Slide.Pack.makeBattery_pack",
    "Slide.Pack.makeBattery2_pack",
    "Slide.Pack.makeEPFLsmaller_pack",
    "Slide.Pack.makeEPFL_pack",
    "Slide.Pack.makeTest_pack",
    "Slide.Pack.makeTestParallel_pack",
    "Slide.Pack.printsNumberOfCells_partial",
    "Slide.Pack.not_printsNumberOfCells",
    "Slide.Pack.testParallel_announced",
    "Slide.Pack.module_cooling_kind",
    "Slide.Pack.pack_open_cooling"
   ],
   "note": "The six packs are proved for any class of cells (a parameter) that at rest reports one voltage and capacity and resistance within bounds. Full statement: Spec.PrintsNumberOfCells; false for makeBattery_TestParallel, which prints 72 cells for a pack of 3 (line 787). The comments of the EPFL packs describe 6 parallel cells; the code uses 7."
  },
  {
   "property": "C94",
   "status": "partial",
   "theorems": [
    "Slide.Pack.spreadOfSPM_partial",
    "Slide.Pack.not_spreadOfAgeing",
    "Slide.Pack.pack_cells_age"
   ],
   "note": "Proved for capacity and resistance. Full statement: Spec.SpreadOfAgeing; false: the constructor of the cell ignores the degradation factors (C37), so that all cells of a pack with degrateSpread age with the same rate constants."
  },
  {
   "property": "C95",
   "status": "partial",
   "theorems": [
    "Slide.Pack.names_partial",
    "Slide.Pack.not_namesTellPacksApart"
   ],
   "note": "Proved for makeBattery and makeBattery2 (all settings) and between the other suffixes. Full statement: Spec.NamesTellPacksApart; false: makeBattery_EPFL, makeBattery_EPFL_smaller and makeBattery_Test give the same name for the same settings."
  },
  {
   "property": "C96",
   "status": "partial",
   "theorems": [
    "Slide.getH_defined",
    "Slide.hotterIsCooledBetter_partial",
    "Slide.not_hotterIsCooledBetter",
    "Slide.neverHeatsTheCells_partial",
    "Slide.not_neverHeatsTheCells"
   ],
   "note": "Full statements: Spec.HotterIsCooledBetter, Spec.NeverHeatsTheCells; false of the code: the fitted formula for the coefficient has its maximum at an air speed of 25 m/s and is used without limit, so that with the proportional strategies a pack hotter than 37.5 degrees is cooled worse the hotter it gets, and above about 96 degrees the coefficient is negative. Proved for the other strategies, and up to 37.5 and 75 degrees."
  },
  {
   "property": "C97",
   "status": "partial",
   "theorems": [
    "Slide.compressorFollowsCOP_partial",
    "Slide.not_compressorFollowsCOP",
    "Slide.outsideAirIsCheap_partial",
    "Slide.not_outsideAirIsCheap"
   ],
   "note": "Full statements: Spec.CompressorFollowsCOP, Spec.OutsideAirIsCheap; false of the code: the heat is multiplied by the coefficient of performance instead of divided by it (9 times too much energy; a comment in the code shows the confusion), and the cross section of the fan for outside air does not grow with the ancillary losses. Proved: the cost is the product, and outside air is cheap for at most 14 W of ancillary losses per cell."
  },
  {
   "property": "C98",
   "status": "partial",
   "theorems": [
    "Slide.histogramsHoldIntervalMeans",
    "Slide.store_refused",
    "Slide.pointsAreIntervalMeans_partial",
    "Slide.not_pointsAreIntervalMeans"
   ],
   "note": "Histogram recording is proved in full (no sample absurdly far outside the ranges, see C19). PointsAreIntervalMeans is the full statement for point recording; false of the code: heat, energy and time of the interval are never reset, so that every row holds the means since the start. That is proved."
  },
  {
   "property": "C99",
   "status": "partial",
   "theorems": [
    "Slide.write_points",
    "Slide.printsTotalEnergy_partial",
    "Slide.not_printsTotalEnergy",
    "Slide.ac_never_recorded",
    "Slide.not_acPointsRecorded",
    "Slide.not_acHistogramsRecorded",
    "Slide.write_unopened",
    "Slide.histText_numbers",
    "Slide.printHist_numbers"
   ],
   "note": "PrintsTotalEnergy, ACPointsRecorded and ACHistogramsRecorded are the full statement; all are false of the code: the energy printed is that since the last call to store, and the recorded data of the air conditioning has the type of that of a fan, so that the overloads that do nothing are selected, and the check-up document prints an empty histogram. Module::writeData and Battery::writeData do not write the data of their cooling systems at all (the calls are disabled)."
  },
  {
   "property": "C100",
   "status": "partial",
   "theorems": [
    "Slide.moduleTimeRecorded_partial",
    "Slide.moduleFileReadable_partial",
    "Slide.moduleFile_refused",
    "Slide.not_moduleTimeRecorded",
    "Slide.not_moduleFileReadable"
   ],
   "note": "ModuleTimeRecorded and ModuleFileReadable are the full statement; both are false of the code: the time (and charge and energy) throughput of a module is never updated, so that these columns are always 0, and a second export continues the last row of the first without separator. Rows, order, current, voltage and temperature are proved, and reading a file written once."
  },
  {
   "property": "C101",
   "status": "partial",
   "theorems": [
    "Slide.LL_posterior",
    "Slide.LL_compares",
    "Slide.LL_best_noise",
    "Slide.LL_rejects",
    "Slide.LL_throws",
    "Slide.LL_short",
    "Slide.record_partial",
    "Slide.not_recordReadable"
   ],
   "note": "Likelihood proved in full over the extended reals (densities not negative, at least as many priors as parameters; fewer are undefined behaviour, LL_short). RecordReadable is the rest of the full statement; false of the code for more than one noise variance (index N_PARAM+1 throws 123511); the others are also ignored by the likelihood. Proved for one variance."
  },
  {
   "property": "C102",
   "status": "proved",
   "theorems": [
    "Slide.spm_setCurrent_never_throws",
    "Slide.spm_setCurrent_refused",
    "Slide.spm_setCurrent_accepted",
    "Slide.spm_setCurrent_unchecked"
   ],
   "note": "Doubles are rationals; a division by zero (no electrode surface, ...) is the outcome ub."
  },
  {
   "property": "C103",
   "status": "proved",
   "theorems": [
    "Slide.spm_energy",
    "Slide.spm_negative_step",
    "Slide.spm_batches",
    "Slide.spm_meters_forward"
   ],
   "note": "The voltage of each step is the one reported by a cell without ageing and heat after the same number of steps (these run once per batch, after the steps). Clock and charge counter of a time step are in C43."
  },
  {
   "property": "C104",
   "status": "partial",
   "theorems": [
    "Slide.spm_reading_no_effect_partial",
    "Slide.not_spmReadingNoEffect"
   ],
   "note": "Full statement: Spec.SpmReadingNoEffect; false of the code: setting the temperature keeps a stored voltage, so that a reading before it changes the reading after it (the same for overwriteCharacterisationStates, overwriteGeometricStates and setCharacterisationParam, see C35). Proved for sequences without these four and with at least one step per time step, ageing and heat included."
  },
  {
   "property": "C105",
   "status": "partial",
   "theorems": [
    "Slide.spm_setVoltage_partial",
    "Slide.spm_setVoltage_already",
    "Slide.not_spmSetVoltageOrRefuse",
    "Slide.spm_setVoltage_leaves_current"
   ],
   "note": "Full statement: Spec.SpmSetVoltageOrRefuse; false of the code: the iteration ignores refused currents; the two voltages it then compares are equal, it divides by zero, and the cell keeps the current of the last trial (0.01 C away). Proved: Success means the voltage is reached, and nothing but the current changes."
  },
  {
   "property": "C106",
   "status": "proved",
   "theorems": [
    "Slide.spmUnit_refines_reads",
    "Slide.spmUnit_refines_setCurrent",
    "Slide.spmUnit_refines_timeStep",
    "Slide.spmUnit_refines_setStates",
    "Slide.spmUnit_refines_history",
    "Slide.spm_series_setCurrent",
    "Slide.spm_series_currents_equal",
    "Slide.spm_parallel_redistribute",
    "Slide.spm_parallel_refuses",
    "Slide.spm_tree_batch",
    "Slide.spm_tree_roundtrip",
    "Slide.spm_tree_save_restore"
   ],
   "note": "In modules a cell is represented by the cell without the voltage it has stored and without its stress record; that a cell with them answers every call alike is proved for single cells (spmUnit_refines_*), the modules are those of C01-C16. Physical: no divisor vanishes and the curves cover all fractions between 0 and 1 (SpmGood)."
  },
  {
   "property": "C107",
   "status": "partial",
   "theorems": [
    "Slide.gammaFunctor_density_partial",
    "Slide.gammaFunctor_mode",
    "Slide.gammaFunctor_zero",
    "Slide.LL_gamma_priors",
    "Slide.not_gammaFunctorIsDensity"
   ],
   "note": "GammaFunctorIsDensity is the full statement; false of the code for negative arguments, for which the formula is used as well (exponential distribution: e at -1; for other shapes NaN). The estimation refuses such parameters before it evaluates the prior. Proved for positive arguments over the real numbers."
  },
  {
   "property": "C108",
   "status": "partial",
   "theorems": [
    "Slide.spm_failed_step_partial",
    "Slide.spm_blocked_step_never_fails",
    "Slide.spm_stress_always_prepared",
    "Slide.not_spmFailedStepNoEffect"
   ],
   "note": "Full statement: Spec.SpmFailedStepNoEffect; false of the code: the diffusion steps are applied before the voltage, heat and ageing are computed, so that a step that throws has advanced clock, charge counters and concentrations (by at least one step). Proved: what is kept, how far the cell has advanced, and the reason behind every code thrown."
  },
  {
   "property": "C109",
   "status": "proved",
   "theorems": [
    "Slide.spm_pack_setCurrent_frame",
    "Slide.spm_pack_setVoltage_frame",
    "Slide.spm_pack_timeStep",
    "Slide.spm_rest_exact",
    "Slide.spm_rest_reaches",
    "Slide.spm_cc_time",
    "Slide.spm_cc_carried",
    "Slide.spm_cc_voltageLimit",
    "Slide.spm_cv_time",
    "Slide.spm_cv_charge",
    "Slide.spm_cccv_charge",
    "Slide.spm_capacityTest_failure",
    "Slide.spm_capacityTest_success"
   ],
   "note": "Cells as in C106 (no ageing, no heat, no stored voltage). The loops of the cycler end within the given number of iterations; running out of it is a separate outcome. spm_cc_carried is for cyclers without individual voltage checks, spm_cccv_charge for a first phase that ended at one of its limits (as C22, C23). Starting a charge at its voltage limit is excluded in spm_cc_voltageLimit (as C55)."
  },
  {
   "property": "C110",
   "status": "proved",
   "theorems": [
    "Slide.agedUnit_reads",
    "Slide.agedUnit_setCurrent",
    "Slide.agedUnit_timeStep",
    "Slide.agedUnit_setStates",
    "Slide.aged_pack_timeStep",
    "Slide.aged_rest_exact",
    "Slide.aged_cc_time",
    "Slide.aged_cc_charge",
    "Slide.aged_cv_time",
    "Slide.aged_cv_charge",
    "Slide.aged_cccv_charge",
    "Slide.aged_one_way"
   ],
   "note": "Cells are `AgedUnit`s (parameters without zero divisors, curves on all of (0,1)); a step that leaves this domain is undefined and without effect. `agedUnit_*`: the units answer every call like the cell model with its voltage memory. The heat exchange between the cells of a module is left out (default thermal model leaves temperatures unchanged). Lost lithium and active material, which can go back in the code (C38, C75), are not part of the claim."
  },
  {
   "property": "C111",
   "status": "partial",
   "theorems": [
    "Slide.eachOnItsOwn_partial",
    "Slide.each_on_its_own",
    "Slide.each_on_its_own_or_9",
    "Slide.own_between",
    "Slide.not_eachOnItsOwn"
   ],
   "note": "Full statement: Spec.EachOnItsOwn; false of the code: if one cell would leave its range the update throws, and the cells before it have lost their pending heat without getting warmer. Proved: the full claim whenever the update succeeds, and that it succeeds or throws 9 exactly as the cells require, for modules of at most 100 children with coolants between 0 and 75 degrees."
  },
  {
   "property": "C112",
   "status": "proved",
   "theorems": [
    "Slide.cycleAge_not_younger",
    "Slide.useCaseAge_not_younger",
    "Slide.cycleAge_one_way",
    "Slide.useCaseAge_one_way",
    "Slide.rebalanceTree_pack",
    "Slide.checkUpTree_document"
   ],
   "note": "Cells are `AgedUnit`s as in C110. Balancing and check-up are modelled on trees of modules (`Model/Study.lean`); rebalanceTree_pack and checkUpTree_document say that they are those of C85 and of the check-up documents. The capacity tests work on copies of the cells, as in the code. That balancing a single cell switches its ageing on is C85."
  },
  {
   "property": "C113",
   "status": "proved",
   "theorems": [
    "Slide.spm_lithium_conserved",
    "Slide.spm_lithium_step",
    "Slide.spm_lost_lithium_found",
    "Slide.spm_lithium_content",
    "Slide.study_lithium"
   ],
   "note": "`CountsLi` states what the discretisation needs (exactly true of the shipped matrices: the uniform amplitude has eigenvalue 0) and that main and side reactions take the same number of electrons (1 in the code). `ExactSphere` holds of the shipped `Cheb_*.csv` up to rounding. spm_lost_lithium_found needs no hypothesis. With loss of active material the sum is not kept (example): the lithium in the lost material is not booked anywhere."
  },
  {
   "property": "C114",
   "status": "partial",
   "theorems": [
    "Slide.rest_partial",
    "Slide.rest_settles",
    "Slide.rest_ages_once",
    "Slide.not_restNeverAges"
   ],
   "note": "Full statement: RestNeverAges; false of the code: a cell remembers the stress of its previous step only, and a new cell remembers none (0), so that its first step of rest looks like a change from no stress to the stress it has and cracks the particles. Proved: nothing ages once the remembered stress is the one of the relaxed cell (`Settled`), and one accepted step of rest with ageing achieves this; so at most the first step of a rest ages the cell. Dai's stress is computed as in `Model/Dai.lean` with a quadrature that is exact on constants."
  },
  {
   "property": "C115",
   "status": "partial",
   "theorems": [
    "Slide.restores_partial",
    "Slide.spheres_kept",
    "Slide.setGeometric_spheres",
    "Slide.default_spheres",
    "Slide.not_restoresOwnStates"
   ],
   "note": "Full statement: RestoresOwnStates; false of the code: loss of active material by model 4 removes active surface but no volume, so that the relation a = 3e/R is broken and setStates refuses the states the cell itself has returned. Proved for all selections without model 4, as long as the anode is not used up."
  },
  {
   "property": "C116",
   "status": "partial",
   "theorems": [
    "Slide.OcvFit.estimate_report_partial",
    "Slide.OcvFit.estimate_refused",
    "Slide.fitted_cell",
    "Slide.setInitial_refused",
    "Slide.OcvFit.not_reportsSearchSpace"
   ],
   "note": "Full statement: estimate_report_partial together with ReportsSearchSpace; the latter is false of the code (not_reportsSearchSpace): the report prints 0 and 1 as the bounds of the start fractions and 0.02 as the relative step, but the search uses 0.38 to 0.40 (cathode), 0.55 to 0.58 (anode) and 100 points between 1 and 2.5. That the files can be opened and the printing of numbers are not modelled; fitted_cell uses the exact sphere of C113."
  },
  {
   "property": "C117",
   "status": "partial",
   "theorems": [
    "Slide.drive_record_partial",
    "Slide.drive_soc",
    "Slide.drive_columns",
    "Slide.not_driveShowsCurrent"
   ],
   "note": "Full statement: drive_record_partial together with DriveShowsCurrent; the latter is false of the code (not_driveShowsCurrent): the current column of the voltage file is copied from the profile, also in seconds in which the cell refused the current and kept the old one. The state file shows the true current. Degradation is blocked as in the example; printing and opening of files not modelled."
  },
  {
   "property": "C118",
   "status": "proved",
   "theorems": [
    "Slide.gitt_record",
    "Slide.gitt_nominal"
   ],
   "note": "For runs that end without exception, for any numbers and lengths of pulses; the preparation of the cells by the cycler is not part (cells with blocked degradation, at any state); printing not modelled."
  },
  {
   "property": "C119",
   "status": "proved",
   "theorems": [
    "Slide.reference_irrelevant",
    "Slide.reference_ocv",
    "Slide.reference_build"
   ],
   "note": "The shift is applied to both electrode curves and to the equilibrium potentials of SEI growth, plating and cathode dissolution; the entropic coefficients and the voltage limits of the cell are differences and stay."
  },
  {
   "property": "C120",
   "status": "partial",
   "theorems": [
    "Slide.sei_law",
    "Slide.layer_rate",
    "Slide.layer_squareRoot",
    "Slide.degRate_divides",
    "Slide.layerProtects_partial",
    "Slide.not_layerProtects"
   ],
   "note": "Full statement: the laws (sei_law, layer_squareRoot) together with LayerProtects; the latter is false of the code (not_layerProtects): the drop over the layer enters the overpotential as + rsei*delta*I, which on charge makes a thicker layer grow faster by models 1 to 3. Proved on discharge, at rest, and for model 4 always. The exponential function is any positive (for layerProtects_partial: growing) function."
  },
  {
   "property": "C121",
   "status": "partial",
   "theorems": [
    "Slide.crack_surface",
    "Slide.cracksCountOnce_partial",
    "Slide.not_cracksCountOnce",
    "Slide.cracksSaturate_partial",
    "Slide.not_cracksSaturate",
    "Slide.diffusion_limit",
    "Slide.cathode_limit"
   ],
   "note": "Full statement: diffusion_limit and cathode_limit together with CracksCountOnce and CracksSaturate; these two are false of the code: every selected crack model adds the whole crack surface once more to the surface on which SEI grows (not_cracksCountOnce), and one long call of the time integration carries the crack surface beyond its largest value (not_cracksSaturate). Proved for one crack model, and for calls short enough for the current."
  },
  {
   "property": "C122",
   "status": "partial",
   "theorems": [
    "Slide.ageingAsPublished_partial",
    "Slide.ageing_published_where",
    "Slide.barai_course",
    "Slide.narayanrao_course",
    "Slide.not_ageingAsPublished"
   ],
   "note": "Full statement: AgeingAsPublished; false of the code (not_ageingAsPublished): for the side reactions the entropic coefficient of the anode is looked up at the lithium fraction of the cathode, so away from the reference temperature their potential is wrong. Proved with that fraction in place of the anode's (ageingAsPublished_partial), hence the published laws at the reference temperature or with a constant coefficient (ageing_published_where)."
  },
  {
   "property": "C123",
   "status": "partial",
   "theorems": [
    "Slide.factorsMultiply_partial",
    "Slide.build_faster",
    "Slide.not_factorsMultiply",
    "Slide.largestSurface_scaled"
   ],
   "note": "Full statement: FactorsMultiply; false of the code (not_factorsMultiply): the factor also multiplies the activation energies, so away from the reference temperature rates change by another factor; and the largest crack surface is multiplied too (largestSurface_scaled). Proved at the reference temperature for all models but crack model 4. Cathode dissolution, capped by design, and the effect of the layer on the active material are excluded from the statement."
  },
  {
   "property": "C124",
   "status": "partial",
   "theorems": [
    "Slide.restRecords_partial",
    "Slide.cc_records",
    "Slide.cv_records",
    "Slide.no_records",
    "Slide.records_exported",
    "Slide.not_restRecordsAsDocumented"
   ],
   "note": "Full statement: exact intervals in all phases, for rest RestRecordsAsDocumented; false of the code (not_restRecordsAsDocumented): steps are taken several at once, so that records are up to nine steps (rest) or one step (constant current) late. Proved with that tolerance, exactly for constant voltage. Phases that end with an error, or are over before they start, make no record at their end and are excluded."
  },
  {
   "property": "C125",
   "status": "partial",
   "theorems": [
    "Slide.recordingHarmless_partial",
    "Slide.recording_interval",
    "Slide.not_recordingHarmless"
   ],
   "note": "Full statement: RecordingHarmless; false of the code (not_recordingHarmless): ndt_data also bounds the number of steps taken at once (10 for rest, 2 for constant current), so with ndt_data = 1 a phase may end at another time. Proved for intervals of at least 10 (rest) or 2 steps (constant current), and for constant voltage always."
  },
  {
   "property": "C126",
   "status": "proved",
   "theorems": [
    "Slide.fick_surface",
    "Slide.fick_timeStep",
    "Slide.profile_unique"
   ],
   "note": "Exact arithmetic; profiles are polynomials in the distance from the centre, symmetric and of degree at most twice the number of nodes. Hypothesis Spec.FickSphere: the tables discretise diffusion in a sphere exactly; checked numerically for the shipped Cheb_*.csv (true up to rounding), proved for a small instance. Diffusion constants different from zero; time steps with degradation and heat blocked (with degradation the anode also loses lithium to side reactions: C113, C120)."
  },
  {
   "property": "C127",
   "status": "partial",
   "theorems": [
    "Slide.thermal_clocks",
    "Slide.thermal_own_clock",
    "Slide.clocksNeverComplain_partial",
    "Slide.clock_cascade",
    "Slide.not_clocksNeverComplain"
   ],
   "note": "Full statement: Spec.ClocksNeverComplain; false of the code (not_clocksNeverComplain): an update that fails at one cell does not reach the cells after it, so their clocks run on and the next update is refused with 8, then the next one because of the cell after that, and so on. Proved: any number of updates up to and including the first failure."
  },
  {
   "property": "C128",
   "status": "partial",
   "theorems": [
    "Slide.lossesFollowSheet_partial",
    "Slide.losses_bracket",
    "Slide.losses_charging",
    "Slide.not_lossesFollowSheet"
   ],
   "note": "Full statement: Spec.LossesFollowSheet; false of the code (not_lossesFollowSheet): the energy of switching uses |I - 50| instead of |I| - 50, so it grows for currents below 50 A and is 10 mJ too large for all charging currents. Proved: exact from 50 A discharge on, never less than the sheet, at most 1040 W per inverter more, and exactly 1040 W more when charging."
  },
  {
   "property": "C129",
   "status": "proved",
   "theorems": [
    "Slide.voltage_kinetics",
    "Slide.voltage_side"
   ],
   "note": "Exact arithmetic. Spec.LibmRight states what is needed of exp, asinh and sqrt (exp positive and increasing, asinh inverts its hyperbolic sine, the two square roots taken are right); Spec.PhysicalCell that temperature, rate constants and dimensions are positive and resistances not negative. For a voltage that is not cached; that a cached voltage is the same is C35."
  },
  {
   "property": "C130",
   "status": "proved",
   "theorems": [
    "Slide.rc_error",
    "Slide.circuit_error",
    "Slide.circuit_converges",
    "Slide.diffusion_error"
   ],
   "note": "The exact course is any solution over the reals of the differential equations in Spec.ExactCircuit and Spec.ExactDiffusion (they exist: exactCircuit_exists, exactDiffusion_exists). Exact arithmetic in the cell. For single-particle cells with blocked or absent degradation and without thermal model; the equations of the modes are those of the given discretisation, their relation to Fick's laws is C126."
  },
  {
   "property": "C131",
   "status": "partial",
   "theorems": [
    "Slide.batteryCyclesLikeModule_partial",
    "Slide.battery_rests_like_module",
    "Slide.not_batteryCyclesLikeModule"
   ],
   "note": "Full statement: Spec.BatteryCyclesLikeModule (constant current); false of the code (not_batteryCyclesLikeModule): on discharge the cycler compares getVlow with 3.1 V and 3.0 V as a cell voltage, but Battery::getVlow returns the lowest cell voltage times the number of copies in series, so a battery with copies in series is not slowed down to single steps near empty and overshoots. Proved for charging, for batteries without series copies, and when every step is recorded; for rest always. The battery must have inverters (else its losses are undefined); T_MODEL 0."
  },
  {
   "property": "C132",
   "status": "proved",
   "theorems": [
    "Slide.energy_balance",
    "Slide.round_trip",
    "Slide.ocvThrough_exists",
    "Slide.long_steps_create_energy"
   ],
   "note": "Exact arithmetic; the stored energy is an integral over the reals. Spec.PassiveCell: open-circuit voltage known from 0 to 1 and not falling, capacity and time constants positive, resistances not negative. Spec.StaysInside: state of charge between 0 and 1 and voltage not negative after every single step, steps at most twice the time constants; that this limit is needed is long_steps_create_energy."
  },
  {
   "property": "C133",
   "status": "proved",
   "theorems": [
    "Slide.capacity_measured"
   ],
   "note": "Exact arithmetic. For a cycler without diagnostic; a report of 0 means that the test failed (C24). Slope of the open-circuit voltage: Spec.SlopeAtLeast; starting state: Spec.ReadyForTest; circuit: Spec.CircuitSound."
  },
  {
   "property": "C134",
   "status": "proved",
   "theorems": [
    "Slide.rate_capability_voltage",
    "Slide.rate_capability"
   ],
   "note": "Exact arithmetic. Cycler without diagnostic and without recording; rest: Spec.CircuitAtRest; circuit and time step: Spec.RatedCell."
  },
  {
   "property": "C135",
   "status": "partial",
   "theorems": [
    "Slide.ecm_new",
    "Slide.ecm_new_default",
    "Slide.ecm_first_pulse",
    "Slide.getIr_partial",
    "Slide.getIr_bucket",
    "Slide.not_reportsRcCurrent",
    "Slide.not_badCapacityRefused",
    "Slide.negative_capacity_fills"
   ],
   "note": "Two parts are false of the code and are stated in full as Spec.BadCapacityRefused and Spec.ReportsRcCurrent with proofs of their negations: capacities that are not positive are accepted (with a negative one, discharging fills the cell: negative_capacity_fills), and getIr of a cell without RC pairs reports the time (getIr_bucket). Everything else is proved."
  },
  {
   "property": "C136",
   "status": "proved",
   "theorems": [
    "Slide.power_balance",
    "Slide.power_balance_exact",
    "Slide.contactLoss_nonneg",
    "Slide.energy_balance_pack"
   ],
   "note": "Exact arithmetic. Operating state: Spec.InOperation; losses: Spec.contactLoss (independent of the heat that the code computes, which is wrong for parallel modules, C45)."
  },
  {
   "property": "C137",
   "status": "proved",
   "theorems": [
    "Slide.only_selected",
    "Slide.cycleAge_only_selected",
    "Slide.useCaseAge_only_selected",
    "Slide.pack_only_selected"
   ],
   "note": "OnlySelected lists, mechanism by mechanism, what must not change; proved for all histories of calls on a cell in ordinary use (overwriting states or parameters excluded) and for whole ageing studies on packs with balancing and check-ups, however they end."
  },
  {
   "property": "C138",
   "status": "partial",
   "theorems": [
    "Slide.cc_guards_partial",
    "Slide.cc_records_guarded",
    "Slide.cc_not_guarded",
    "Slide.cc_unchecked_overdrives",
    "Slide.cc_checked_stops"
   ],
   "note": "Full statement CCGuards, false of the code (cc_not_guarded): when the limit is reached at once by setting the current, no step is made and no cell is checked individually (a string reports success although a cell reported a warning), so CC reports ReachedVoltageLimit while a weak cell is discharged at 2.458 V. Proved (cc_guards_partial): if any time was simulated the statement holds; and for the recorded data (cc_records_guarded) it holds whatever the outcome, for a positive time limit."
  },
  {
   "property": "C139",
   "status": "proved",
   "theorems": [
    "Slide.uniform_readings",
    "Slide.uniform_set",
    "Slide.uniform_step",
    "Slide.uniform_history"
   ],
   "note": "For cells that answer every request and keep their state when they refuse (class Replicable: ECM, SpmUnit, AgedUnit). The reading of the voltage is for a positive cell voltage (a string with a cell at 0 V reads 0). Electrical part of the modules (no thermal model)."
  },
  {
   "property": "C140",
   "status": "proved",
   "theorems": [
    "Slide.string_cc",
    "Slide.string_rest"
   ],
   "note": "Equality of outcome, final state, record and throughput (Spec.cycString, Spec.thrString). For cells that obey LawfulCurrent and LawfulStep (ECM, SpmUnit without ageing) and whose maximum voltage is at least 3.1 V (all cells of the library). Electrical part of the module (no thermal model)."
  },
  {
   "property": "C141",
   "status": "partial",
   "theorems": [
    "Slide.ecm_setSOC",
    "Slide.socRequest_unique",
    "Slide.ecm_soc_moves",
    "Slide.spm_setSOC",
    "Slide.spm_setSOC_inert",
    "Slide.unsafeSoc_partial",
    "Slide.not_unsafeSocNotKept",
    "Slide.not_socMovesVoltage"
   ],
   "note": "Two parts are false of the code and are stated in full with proofs of their negations: Spec.UnsafeSocNotKept (without current, or with one in the other direction, values outside the safety limits are kept: not_unsafeSocNotKept sets a resting cell to 1.0 V) and Spec.SocMovesVoltage (on a single-particle cell only the charge counter is replaced, the voltage and the open-circuit voltage never notice: spm_setSOC_inert, not_socMovesVoltage). Everything else is proved."
  },
  {
   "property": "C142",
   "status": "proved",
   "theorems": [
    "Slide.string_testCapacity",
    "Slide.string_capacity"
   ],
   "note": "Exact arithmetic. Equality of report, charge, time and all states, for cells that obey LawfulCurrent, LawfulStep and LawfulStates (ECM, SpmUnit without ageing). Electrical part of the module (no thermal model)."
  },
  {
   "property": "C143",
   "status": "partial",
   "theorems": [
    "Slide.pack_cc_partial",
    "Slide.pack_cc_refused",
    "Slide.not_packCyclesLikeCell"
   ],
   "note": "Full statement: PackCyclesLikeCell; false of the code (not_packCyclesLikeCell): if the current takes the cell out of its operating window (2.7 V to 4.2 V) but not beyond the safety limits, the cell reports the violation and the cycler takes the current back, whereas a module reports success, so the cycler starts, and returns after the first step with the current left on. Proved when the cell accepts the current with status Success (pack_cc_partial) and when it refuses it because of the safety limits (pack_cc_refused). Class CheckedSet: ECM, SpmUnit without ageing. Electrical part of the modules."
  },
  {
   "property": "C144",
   "status": "partial",
   "theorems": [
    "Slide.cc_charge_flows_partial",
    "Slide.pack_charge_flows",
    "Slide.not_checkedChargeFlows",
    "Slide.not_parallelChargeFlows"
   ],
   "note": "Full statements: CheckedChargeFlows, ParallelChargeFlows; both false of the code: a current under which the voltage is not positive is refused with V_not_calculated, which Cycler::setCurrent does not take for a refusal (only the codes of voltage limits), so CC simulates the old current and reports the charge of the requested one (not_checkedChargeFlows: 2000 A for 4 s on a resting cell; not_parallelChargeFlows: the same without diagnostic, because parallel modules always check). Proved whenever the answer to the request is not V_not_calculated (cells), and for packs of identical cells when the request succeeds."
  },
  {
   "property": "C145",
   "status": "partial",
   "theorems": [
    "Slide.cvGuards_partial",
    "Slide.cv_guards_cell",
    "Slide.not_cvGuards"
   ],
   "note": "Full statement: CVGuards; false of the code (not_cvGuards): Cycler::CV does not use the diagnostic flag at all; in a string of two unbalanced cells one is charged with 6.7 A at 4.236 V when the phase reports its current limit. Proved for single cells and for packs whose cells are equal at the end of the phase."
  },
  {
   "property": "C146",
   "status": "proved",
   "theorems": [
    "Slide.cv_settles",
    "Slide.cv_fills",
    "Slide.cv_long_step_passes"
   ],
   "note": "HoldSetting and Towards (Spec/CVSettles) are the conditions in words of the statement; RC pairs must not carry current in the other direction at the start."
  },
  {
   "property": "C147",
   "status": "proved",
   "theorems": [
    "Slide.cccv_fills",
    "Slide.cccv_reproducible"
   ],
   "note": "Without individual checks (diagnostic off) and without recording (which makes no difference, C125). The bound R*Ilim is for cells without RC pairs; with RC pairs the bound contains the drop over them at the end."
  },
  {
   "property": "C148",
   "status": "proved",
   "theorems": [
    "Slide.weaker_cell_lasts",
    "Slide.weaker_cell_voltage"
   ],
   "note": "Without recording and with a cycler without diagnostic; the allowance of two time steps is the number of steps the adaptive loop may take at once."
  },
  {
   "property": "C149",
   "status": "proved",
   "theorems": [
    "Slide.parallel_currents_follow",
    "Slide.parallel_balances",
    "Slide.remaining_bounds"
   ],
   "note": "Cells without RC pairs, no contact resistances. That requested currents leave equal voltages is a condition on the history (setCurrent does not guarantee it, see C04); that successful simulations leave them equal is proved."
  },
  {
   "property": "C150",
   "status": "partial",
   "theorems": [
    "Slide.larger_cell",
    "Slide.larger_cc",
    "Slide.larger_rest",
    "Slide.larger_cv_partial",
    "Slide.larger_cccv_partial",
    "Slide.larger_capacityTest",
    "Slide.not_largerHoldsAlike"
   ],
   "note": "False for constant-voltage phases with a very small current limit: the phase also stops below a fixed 1 microampere, whatever the size of the cell (not_largerHoldsAlike). Proved when both current limits are at least 10 microampere, and without condition for everything else."
  },
  {
   "property": "C151",
   "status": "partial",
   "theorems": [
    "Slide.larger_pack_reads",
    "Slide.larger_pack_acts",
    "Slide.larger_pack_cc",
    "Slide.larger_pack_rest",
    "Slide.larger_pack_capacityTest",
    "Slide.larger_string_cv_partial",
    "Slide.larger_string_cccv_partial",
    "Slide.parallel_is_larger_cell",
    "Slide.larger_spm_pack",
    "Slide.larger_spm_pack_cc",
    "Slide.larger_spm_pack_rest",
    "Slide.larger_spm_cccv_partial",
    "Slide.larger_spm_string_cccv_partial",
    "Slide.not_largerPackHoldsAlike"
   ],
   "note": "False for setting the voltage of a parallel module, which corrects the currents by a fixed 200 A per volt, whatever the size of the cells (not_largerPackHoldsAlike), hence for constant-voltage phases on parallel modules; and for current limits below 10 microampere (C150). Everything else is proved in full; single-particle cells without ageing and heat."
  },
  {
   "property": "C152",
   "status": "partial",
   "theorems": [
    "Slide.larger_aged_call",
    "Slide.larger_aged_run",
    "Slide.larger_aged_reads",
    "Slide.larger_dai",
    "Slide.larger_ages_alike_partial",
    "Slide.larger_aged_pack",
    "Slide.larger_aged_pack_cc",
    "Slide.larger_aged_pack_rest",
    "Slide.larger_aged_cccv_partial",
    "Slide.larger_aged_string_cccv_partial",
    "Slide.sizeFree_is_aged",
    "Slide.larger_sei_differs",
    "Slide.larger_plating_differs",
    "Slide.larger_cracks_differ",
    "Slide.larger_cooling_differs",
    "Slide.not_largerAlwaysAgesAlike"
   ],
   "note": "False of the code for four reasons, each with a run: SEI models 1 to 3 (larger_sei_differs) and plating (larger_plating_differs) compute the voltage drop over the surface layer from the total current instead of the current density; the surface of the cracks of a new cell and its growth do not depend on the size of the cell (larger_cracks_differ); nor does the surface that cools a cell alone (larger_cooling_differs). Proved for SEI model 4, all models of loss of active material and of porosity, and (with a surface layer without resistance) SEI models 1 to 3 and plating, when the heat is taken by a module, no thermal model is used, or the cooling surface grows with the cell."
  },
  {
   "property": "C153",
   "status": "partial",
   "theorems": [
    "Slide.reported_energy_covered",
    "Slide.no_gain_reported_partial",
    "Slide.string_no_gain_partial",
    "Slide.not_noGainReported"
   ],
   "note": "False of the code for a cycler with individual checks of the voltages (not_noGainReported): when such a check ends the constant-current part of a charge, the batch of steps before it is in the cell but not in the reported throughput, and the charge goes on with constant voltage and reports that it finished; discharging what went in then gives more watt hours than were reported for the charge. Proved without individual checks, for cells with any number of RC pairs and time steps up to the time constants, and for strings of different cells under constant currents and rests. Charges of strings at constant voltage are left out because setVoltage can leave cells of a string with different currents (C07, C02)."
  },
  {
   "property": "C154",
   "status": "partial",
   "theorems": [
    "Slide.weakest_limits_partial",
    "Slide.not_weakestLimits",
    "Slide.unchecked_overdrives"
   ],
   "note": "Full statement: WeakestLimits; false of the code (not_weakestLimits): a current under which the voltage of a cell is not positive is refused with V_not_calculated, which the cycler does not take for a refusal, so it reports charge that never flowed (C144). Proved for every request that is not answered in this way. That individual checks are needed is unchecked_overdrives. RC pairs without current at the start."
  },
  {
   "property": "C155",
   "status": "proved",
   "theorems": [
    "Slide.parallel_follows_circuit",
    "Slide.strings_follow_circuit",
    "Slide.parallel_reports_circuitR",
    "Slide.strings_report_circuitR",
    "Slide.circuit_exists",
    "Slide.circuit_unique"
   ],
   "note": "Stated for simulation steps that return; that a request for a current can report success without reaching the circuit's currents is C04. Strings whose cells read a positive voltage. Exact arithmetic."
  },
  {
   "property": "C156",
   "status": "proved",
   "theorems": [
    "Slide.parallel_setCurrent_converges",
    "Slide.parallel_timeStep_converges",
    "Slide.strings_setCurrent_converges",
    "Slide.racks_setCurrent_converges",
    "Slide.strings_timeStep_converges"
   ],
   "note": "Generalises the positive part of C04 from alike cells without contacts to any resistances and contact ladders. For a product of capacity and resistance above the bound the iteration can oscillate (parallel_setCurrent_not_equalised, C04), and for different capacities the total can be wrong (parallel_setCurrent_wrong_total, C04). The number of corrections the code allows enters through Reachable. Exact arithmetic."
  },
  {
   "property": "C157",
   "status": "partial",
   "theorems": [
    "Slide.phases_end_partial",
    "Slide.phases_end_within",
    "Slide.cc_terminates",
    "Slide.cccv_terminates",
    "Slide.testCapacity_terminates",
    "Slide.not_phasesEnd",
    "Slide.rest_zero_step_endless",
    "Slide.cc_zero_step_endless"
   ],
   "note": "The full statement PhasesEnd is false of the code for a step of zero, where the loops never end (rest_zero_step_endless, cc_zero_step_endless). Proved for every other step, positive or negative, with the number of iterations bounded by tlim/dt for positive ones. Modules with more than 100 children write outside their arrays (C-array of MODULE_NSUs_MAX entries), which is why they are excluded. Exact arithmetic: with doubles a step below the spacing of ttot would not advance it."
  },
  {
   "property": "C158",
   "status": "partial",
   "theorems": [
    "Slide.string_order_unread",
    "Slide.string_order_call",
    "Slide.string_order_partial",
    "Slide.string_order_unchecked",
    "Slide.string_order_cc",
    "Slide.string_order_rest",
    "Slide.badString_order_shows",
    "Slide.not_orderIrrelevant"
   ],
   "note": "The full statement OrderIrrelevant (any history of calls) is false of the code: after a refused current the first child of the string keeps the new current, and which child is the first depends on the order (badString_order_shows; the cause is C02). Proved for all readings, for every history without a refused call, and for constant-current and rest phases of a cycler without individual checks."
  },
  {
   "property": "C159",
   "status": "partial",
   "theorems": [
    "Slide.cc_course",
    "Slide.rest_course",
    "Slide.cc_interrupt_partial",
    "Slide.rest_interrupt",
    "Slide.string_interrupt_partial",
    "Slide.spm_rest_interrupt",
    "Slide.interruptCell_ends",
    "Slide.not_interruptionHarmless"
   ],
   "note": "Proved for rests always and for constant-current phases that reach their time limits. The full statement InterruptionHarmless also covers phases ended by the voltage limit and is false of the code: a new phase starts with single steps again, so the limit is noticed at another moment (interruptCell_ends). For cyclers without individual checks. The energy is left out: it is summed with one voltage per group of steps and does depend on the grouping."
  },
  {
   "property": "C160",
   "status": "partial",
   "theorems": [
    "Slide.warmer_stays_warmer_partial",
    "Slide.battery_stays_warmer_partial",
    "Slide.not_warmerStaysWarmer"
   ],
   "note": "WarmerStaysWarmer is the full statement; false for long steps (the explicit step overshoots). Proved for every pair of trees, and for batteries, when the step is short compared with all thermal time constants."
  },
  {
   "property": "C161",
   "status": "partial",
   "theorems": [
    "Slide.evens_out_partial",
    "Slide.convex_sum_partial",
    "Slide.not_evensOut",
    "Slide.evens_out_always_partial",
    "Slide.not_evensOutAlways"
   ],
   "note": "EvensOut is the full statement; false for long steps (the explicit step overshoots). Proved for every tree when the step is short compared with all thermal time constants, for every convex function of the temperature, with any neighbours; and over any history of intervals in which a pack with a steady heat-transfer coefficient is left alone (entropy, distance from any reference temperature, heat and range of temperatures)."
  },
  {
   "property": "C162",
   "status": "partial",
   "theorems": [
    "Slide.calls_defined_partial",
    "Slide.states_defined_partial",
    "Slide.equal_states_defined_partial",
    "Slide.not_callsDefined"
   ],
   "note": "CallsDefined is the full statement; false of the code: when states are refused, Module::setStates writes the saved states of children 0..i all into child i, so with children of unequal build a state of charge is read as a temperature and an assertion fails (witness: a cell in series with a string). Proved: setCurrent and timeStep on all trees after any calls; writing valid states unchecked on all trees; writing any states to cells and modules of cells after any calls; writing any states to packs of any depth whose modules have children of equal build, while the pack holds valid states."
  },
  {
   "property": "C163",
   "status": "proved",
   "theorems": [
    "Slide.storage_restores"
   ],
   "note": "Refinement: every history of operations on the storage has the effect of the abstract storage (one saved value per address)."
  },
  {
   "property": "C164",
   "status": "partial",
   "theorems": [
    "Slide.views_show_partial",
    "Slide.intervals_partial",
    "Slide.not_viewsShow",
    "Slide.intervals_wrong"
   ],
   "note": "ViewsShow is the full statement; false of the code: ArrayVec::push_back uses an iterator taken before the buffer moved, Interval over a container ends one element early, PtrInterval of an empty container reads x[0]. Proved: the spans are right if and only if room was reserved beforehand; explicit bounds; non-empty pointer intervals."
  },
  {
   "property": "C165",
   "status": "partial",
   "theorems": [
    "Slide.becomes_isothermal_partial",
    "Slide.quiet_runs_partial",
    "Slide.left_alone_partial",
    "Slide.battery_isothermal_partial",
    "Slide.battery_left_alone_partial",
    "Slide.spread_decays_partial",
    "Slide.spread_decays_geometrically_partial",
    "Slide.not_becomesIsothermal"
   ],
   "note": "BecomesIsothermal is the full statement; false for long intervals (a cell and a coolant swap their temperatures for ever). Proved for every tree when no interval is longer than half of any thermal time constant and the heat-transfer coefficient is steady; and that no update fails while all temperatures are within the limits of the cells; both also for a battery whose converter has no losses. The spread shrinks geometrically, with an explicit rate."
  },
  {
   "property": "C166",
   "status": "proved",
   "theorems": [
    "Slide.overheats_in_time",
    "Slide.not_forever",
    "Slide.battery_overheats_in_time"
   ],
   "note": "The heat balance of C39 summed over any history; every update that succeeds leaves each body below its limit. Clocks of the cells equal to the interval (see C39)."
  }
 ]
}