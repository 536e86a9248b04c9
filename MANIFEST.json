{
 "claims": [
  {
   "property": "C01",
   "status": "proved",
   "theorems": [
    "Flee.C01_counters_agree",
    "Flee.C01_counters_nonneg"
   ],
   "note": "All reachable states, any order of API calls; exceptions end the history."
  },
  {
   "property": "C02",
   "status": "partial",
   "theorems": [
    "Flee.C02_visible_total_false",
    "Flee.C02_visible_total_partial",
    "Flee.C02_visible_total_open_partial"
   ],
   "note": "False as stated: closing a link under travellers hides them (C02_visible_total_false). Proved: the exact shortfall, and equality for histories without removals and closures."
  },
  {
   "property": "C03",
   "status": "proved",
   "theorems": [
    "Flee.C03_evolve_keeps_agents"
   ],
   "note": ""
  },
  {
   "property": "C04",
   "status": "proved",
   "theorems": [
    "Flee.C04_travelling_flag"
   ],
   "note": ""
  },
  {
   "property": "C05",
   "status": "proved",
   "theorems": [
    "Flee.C05_cum_ge_num",
    "Flee.C05_cum_monotone",
    "Flee.C05_cum_counts_entries"
   ],
   "note": "Entries are counted along the paths of legal moves that the step makes."
  },
  {
   "property": "C06",
   "status": "partial",
   "theorems": [
    "Flee.C06_daily_maximum_false",
    "Flee.C06_daily_maximum_partial"
   ],
   "note": "False of the code in part: flee.py:273-285. An agent that completes a link goes on with a full day's speed, so the distance of a day approaches twice the maximum. Missing from the full claim: the factor two cannot be removed (`C06_daily_maximum_false`)."
  },
  {
   "property": "C07",
   "status": "proved",
   "theorems": [
    "Flee.C07_distance_exact",
    "Flee.C07_way_in_range"
   ],
   "note": ""
  },
  {
   "property": "C08",
   "status": "partial",
   "theorems": [
    "Flee.C08_terminates_partial",
    "Flee.C08_terminates_false"
   ],
   "note": "False of the code in part: flee.py:285. `finish_travel` calls itself without a bound; links of length 0 use up no distance. Missing from the full claim: links of length 0, for which it is false (`C08_terminates_false`)."
  },
  {
   "property": "C09",
   "status": "proved",
   "theorems": [
    "Flee.C09_moves_along_links"
   ],
   "note": ""
  },
  {
   "property": "C10",
   "status": "proved",
   "theorems": [
    "Flee.C10_closing_marks_link",
    "Flee.C10_closed_link_step",
    "Flee.C10_closed_link_sends_back"
   ],
   "note": "Closing marks the object; travellers on it only leave it to its start. Histories end at clearLocations."
  },
  {
   "property": "C11",
   "status": "proved",
   "theorems": [
    "Flee.C11_not_to_full_camp",
    "Flee.C11_occupancy"
   ],
   "note": ""
  },
  {
   "property": "C12",
   "status": "proved",
   "theorems": [
    "Flee.C12_no_chance_no_departure",
    "Flee.C12_no_chance_stays",
    "Flee.C12_departure_below_chance",
    "Flee.C12_certain_departure",
    "Flee.C12_departure_planning",
    "Flee.C12_certain_departure_planning"
   ],
   "note": ""
  },
  {
   "property": "C13",
   "status": "proved",
   "theorems": [
    "Flee.C13_deactivated_stay"
   ],
   "note": ""
  },
  {
   "property": "C14",
   "status": "partial",
   "theorems": [
    "Flee.C14_recent_travel_false",
    "Flee.C14_recent_travel_partial"
   ],
   "note": "False of the code in part: flee.py:1668-1673. The index averages kilometres divided by MaxMoveSpeed, and C06 fails. Missing from the full claim: the bound 1, which is false (`C14_recent_travel_false`)."
  },
  {
   "property": "C15",
   "status": "partial",
   "theorems": [
    "Flee.C15_multiplier_is_throttle",
    "Flee.C15_multiplier_range",
    "Flee.C15_multiplier_antitone",
    "Flee.C15_zero_when_full_false",
    "Flee.C15_zero_when_full_partial"
   ],
   "note": "False of the code in part: moving.py:155-197. With `capacity_buffer` 1 the test against the buffer comes before the test for full capacity. Missing from the full claim: the buffer 1, for which it is false (`C15_zero_when_full_false`)."
  },
  {
   "property": "C16",
   "status": "proved",
   "theorems": [
    "Flee.C16_normalised"
   ],
   "note": ""
  },
  {
   "property": "C17",
   "status": "proved",
   "theorems": [
    "Flee.C17_choice_by_interval",
    "Flee.C17_never_zero_weight"
   ],
   "note": ""
  },
  {
   "property": "C18",
   "status": "proved",
   "theorems": [
    "Flee.C18_reachable_wellFormed",
    "Flee.C18_routes_are_walks"
   ],
   "note": ""
  },
  {
   "property": "C19",
   "status": "partial",
   "theorems": [
    "Flee.C19_no_loops_false",
    "Flee.C19_no_loops_partial"
   ],
   "note": "False of the code in part: moving.py:255-270. The names met before are excluded, but not the location where the search stands, so links from a location to itself are followed. Missing from the full claim: networks with self-links, for which it is false (`C19_no_loops_false`)."
  },
  {
   "property": "C20",
   "status": "proved",
   "theorems": [
    "Flee.C20_exactly_the_horizon"
   ],
   "note": ""
  },
  {
   "property": "C21",
   "status": "proved",
   "theorems": [
    "Flee.C21_search_terminates",
    "Flee.C21_scoring_terminates"
   ],
   "note": ""
  },
  {
   "property": "C22",
   "status": "partial",
   "theorems": [
    "Flee.C22_pruning_false",
    "Flee.C22_pruning_partial",
    "Flee.C22_empty_raises",
    "Flee.C22_best_kept_partial"
   ],
   "note": "False of the code in part: moving.py:457-463. `list.remove` takes the first equal route, which need not be at the position of the weight. Missing from the full claim: candidates with equal routes (parallel links), for which it is false (`C22_pruning_false`), and the empty list, for which the code raises (`C22_empty_raises`)."
  },
  {
   "property": "C23",
   "status": "partial",
   "theorems": [
    "Flee.C23_agents_move_false",
    "Flee.C23_agents_move_partial",
    "Flee.C23_index"
   ],
   "note": "False of the code in part: moving.py:488 returns an integer, flee.py:145 compares it with names. Missing from the full claim: awareness level 0, for which it is false (`C23_agents_move_false`)."
  },
  {
   "property": "C24",
   "status": "proved",
   "theorems": [
    "Flee.C24_weight_formula",
    "Flee.C24_weight_monotone"
   ],
   "note": ""
  },
  {
   "property": "C25",
   "status": "partial",
   "theorems": [
    "Flee.C25_followable_partial",
    "Flee.C25_regular_followable",
    "Flee.C25_followable_false",
    "Flee.C25_regular_best"
   ],
   "note": "False of the code in part: crawling.py:76 stores `origin_names[1:]`, but for major routes the list does not begin with the location. Missing from the full claim: major routes, which lose their first stop (`C25_followable_false`)."
  },
  {
   "property": "C26",
   "status": "partial",
   "theorems": [
    "Flee.C26_product",
    "Flee.C26_product_dry",
    "Flee.C26_positive_partial",
    "Flee.C26_positive_false",
    "Flee.C26_aging_partial",
    "Flee.C26_aging_false"
   ],
   "note": "False of the code in part: scoring.py:31-45. The decay multiplies the exponent of `ConflictWeight`, so a smaller decay factor makes a conflict zone more attractive. scoring.py:87 reads the forecast from an attribute `forecast_flood_level` that nothing sets (it is `forecast_flood_levels`, InputGeography.py:657), so while a forecast is in use every flood zone with a flood level has the score 0. Missing from the full claim: flood zones while a forecast is in use, for which it is false (`C26_positive_false`). Missing from the full claim: lists of decreasing factors, which is what the setting is for, see `C26_aging_false`."
  },
  {
   "property": "C27",
   "status": "proved",
   "theorems": [
    "Flee.C27_linkUp_symmetric",
    "Flee.C27_linkUp_unknown"
   ],
   "note": ""
  },
  {
   "property": "C28",
   "status": "partial",
   "theorems": [
    "Flee.C28_close_reopen_false",
    "Flee.C28_close_reopen_partial"
   ],
   "note": "False of the code in part: flee.py:1041-1057. Reopening opens all closed links between the two, including those closed by an earlier call. Missing from the full claim: networks where such a road was closed already, for which the claim is false."
  },
  {
   "property": "C29",
   "status": "partial",
   "theorems": [
    "Flee.C29_twoway_false",
    "Flee.C29_twoway_partial"
   ],
   "note": "False of the code in part: flee.py:1088-1096. With `twoway` the other direction is handled instead of both. Missing from the full claim: the links from the first to the second, which stay."
  },
  {
   "property": "C30",
   "status": "partial",
   "theorems": [
    "Flee.C30_equal_names_false",
    "Flee.C30_equal_names_partial"
   ],
   "note": "False of the code in part: flee.py:987-1006 and 1041-1057. Names are compared with `is not`, that is by identity. Missing from the full claim: endpoint strings that are equal to a name but are other objects, for which it is false."
  },
  {
   "property": "C31",
   "status": "proved",
   "theorems": [
    "Flee.C31_closed_location_isolated",
    "Flee.C31_closed_location_incoming"
   ],
   "note": ""
  },
  {
   "property": "C32",
   "status": "partial",
   "theorems": [
    "Flee.C32_reopen_location_false",
    "Flee.C32_reopen_location_partial"
   ],
   "note": "False of the code in part: flee.py:1182-1234. Closing with `twoway=False` closes links of the neighbours, reopening looks at the closed links of the location itself. Missing from the full claim: the one-way variant, for which it is false."
  },
  {
   "property": "C33",
   "status": "partial",
   "theorems": [
    "Flee.C33_closures_terminate_partial",
    "Flee.C33_closures_terminate_false"
   ],
   "note": "False of the code in part: flee.py:1182-1234. The position does not advance when a call closes or opens nothing. Missing from the full claim: the other cases, which run forever."
  },
  {
   "property": "C34",
   "status": "partial",
   "theorems": [
    "Flee.C34_close_border",
    "Flee.C34_reopen_border_partial",
    "Flee.C34_reopen_border_false"
   ],
   "note": "False of the code in part: flee.py:1263-1297. As C28. Missing from the full claim: networks with such roads, for which it is false."
  },
  {
   "property": "C35",
   "status": "proved",
   "theorems": [
    "Flee.C35_closure_schedule"
   ],
   "note": ""
  },
  {
   "property": "C36",
   "status": "partial",
   "theorems": [
    "Flee.C36_unknown_false",
    "Flee.C36_unknown_partial",
    "Flee.C36_known"
   ],
   "note": "False of the code in part: flee.py:939-964. An unknown name gives `False`, which is used as index 0. Missing from the full claim: the first location stays as it is."
  },
  {
   "property": "C37",
   "status": "partial",
   "theorems": [
    "Flee.C37_exclusive_partial",
    "Flee.C37_exclusive_always_partial",
    "Flee.C37_exclusive_false"
   ],
   "note": "False of the code in part: flee.py:1535-1548. A conflict ends town status only. Missing from the full claim: conflict operations on camps, forwarding hubs, markers and flood zones (`C37_exclusive_false`)."
  },
  {
   "property": "C38",
   "status": "partial",
   "theorems": [
    "Flee.C38_type_partial",
    "Flee.C38_type_false"
   ],
   "note": "False of the code in part: flee.py:1410. `self.attributes` does not exist in Ecosystem; an unknown type fails at 1428. Missing from the full claim: conflict zones (`C38_type_false`)."
  },
  {
   "property": "C39",
   "status": "proved",
   "theorems": [
    "Flee.C39_set_conflict"
   ],
   "note": ""
  },
  {
   "property": "C40",
   "status": "partial",
   "theorems": [
    "Flee.C40_schedule_false",
    "Flee.C40_onset_partial",
    "Flee.C40_constant_partial",
    "Flee.C40_flood_rules_ignore_conflicts"
   ],
   "note": "False of the code in part: InputGeography.py:682-709. The intensity is only set when a conflict starts. InputGeography.py:652-659: with flood rules the table of conflicts is not looked at. Missing from the full claim: changes of intensity during a conflict (`C40_schedule_false`), and flood rules, with which the table is not looked at (`C40_flood_rules_ignore_conflicts`)."
  },
  {
   "property": "C41",
   "status": "partial",
   "theorems": [
    "Flee.C41_camps_partial",
    "Flee.C41_idp_status_partial",
    "Flee.C41_idp_false"
   ],
   "note": "False of the code in part: flee.py:443-463. `open_camp` without IDP status does not clear the IDP flag. Missing from the full claim: opening a camp without IDP status ends an earlier IDP status."
  },
  {
   "property": "C42",
   "status": "proved",
   "theorems": [
    "Flee.C42_spawn_weights",
    "Flee.C42_spawn_weights_reachable"
   ],
   "note": ""
  },
  {
   "property": "C43",
   "status": "proved",
   "theorems": [
    "Flee.C43_fails_iff",
    "Flee.C43_interval",
    "Flee.C43_positive"
   ],
   "note": ""
  },
  {
   "property": "C44",
   "status": "proved",
   "theorems": [
    "Flee.C44_no_drift",
    "Flee.C44_follows_total"
   ],
   "note": ""
  },
  {
   "property": "C45",
   "status": "proved",
   "theorems": [
    "Flee.C45_conserved",
    "Flee.C45_nonneg"
   ],
   "note": ""
  },
  {
   "property": "C46",
   "status": "proved",
   "theorems": [
    "Flee.C46_counts",
    "Flee.C46_returns"
   ],
   "note": ""
  },
  {
   "property": "C47",
   "status": "partial",
   "theorems": [
    "Flee.C47_lookup_partial",
    "Flee.C47_lookup_false"
   ],
   "note": "False of the code in part: SimulationSettings.py:40-66. Division by the interval. Missing from the full claim: interval 0, for which the lookup fails (`C47_lookup_false`)."
  },
  {
   "property": "C48",
   "status": "proved",
   "theorems": [
    "Flee.C48_curve",
    "Flee.C48_curve_defined",
    "Flee.C48_exact",
    "Flee.C48_between",
    "Flee.C48_outside",
    "Flee.C48_raw"
   ],
   "note": ""
  },
  {
   "property": "C49",
   "status": "partial",
   "theorems": [
    "Flee.C49_total",
    "Flee.C49_camps_partial",
    "Flee.C49_empty",
    "Flee.C49_defined",
    "Flee.C49_camps_false"
   ],
   "note": "False of the code in part: DataTable.py:351-387. On day 0 the loop begins with the first column, on other days with the second. Missing for the full claim: the sum without that value."
  },
  {
   "property": "C50",
   "status": "partial",
   "theorems": [
    "Flee.C50_correction_partial",
    "Flee.C50_negative",
    "Flee.C50_no_row",
    "Flee.C50_correction_false"
   ],
   "note": "False of the code in part: handle_refugee_data.py:74-88. The factor includes the day-0 population, the scaled entries do not; without a row on the day a variable is unbound. Missing for the full claim: tables with a day-0 population, and days without such rows."
  },
  {
   "property": "C51",
   "status": "partial",
   "theorems": [
    "Flee.C51_add_partial",
    "Flee.C51_common_partial",
    "Flee.C51_late_start",
    "Flee.C51_add_false"
   ],
   "note": "False of the code in part: DataTable.py:100-160. The count of the second table is carried forward instead of interpolated, and rows after its end are dropped. Missing for the full claim: interpolation of the second table between its days, days after its end, and second tables that start later."
  },
  {
   "property": "C52",
   "status": "partial",
   "theorems": [
    "Flee.C52_one_connection_false",
    "Flee.C52_one_connection_partial",
    "Flee.C52_flag_one"
   ],
   "note": "False of the code in part: InputGeography.py:529-552. `if flag == 1` is followed by `if flag == 2 ... else ...`, so the flag 1 makes two links. Missing from the full claim: the flag 1 (`C52_one_connection_false`)."
  },
  {
   "property": "C53",
   "status": "partial",
   "theorems": [
    "Flee.C53_corrections_false",
    "Flee.C53_comments_false",
    "Flee.C53_agents_false",
    "Flee.C53_comments_partial",
    "Flee.C53_columns",
    "Flee.C53_major_kept",
    "Flee.C53_agents_partial"
   ],
   "note": "False of the code in part: InputGeography.py: in `_ReadMajorLinksFromCSV` the test for comments is followed by `pass` and not by `else`; in `ReadAgentsFromCSV` (365-404) the header must be line 0; handle_refugee_data.py:57-59 takes every line of two or more cells as a correction. Missing from the full claim: major routes (`C53_comments_false`) and agents (`C53_agents_false`)."
  },
  {
   "property": "C54",
   "status": "partial",
   "theorems": [
    "Flee.C54_one_agent_false",
    "Flee.C54_one_agent_partial",
    "Flee.C54_attributes"
   ],
   "note": "False of the code in part: InputGeography.py:365-404. The header is recognised by its line number, and inner loops reuse the line counter. Missing from the full claim: comments before the header (`C54_one_agent_false`)."
  },
  {
   "property": "C55",
   "status": "partial",
   "theorems": [
    "Flee.C55_names_false",
    "Flee.C55_empty",
    "Flee.C55_names_partial",
    "Flee.C55_latitude",
    "Flee.C55_file"
   ],
   "note": "False of the code in part: InputGeography.py, `getConflictLocationNames`: column 4 is the latitude, the type is in column 5. Missing from the full claim: all tables with conflict zones (`C55_names_false`)."
  },
  {
   "property": "C56",
   "status": "proved",
   "theorems": [
    "Flee.C56_foreign"
   ],
   "note": ""
  },
  {
   "property": "C57",
   "status": "proved",
   "theorems": [
    "Flee.C57_inserted",
    "Flee.C57_added",
    "Flee.C57_enough",
    "Flee.C57_taken"
   ],
   "note": ""
  },
  {
   "property": "C58",
   "status": "partial",
   "theorems": [
    "Flee.C58_no_locations_false",
    "Flee.C58_low_latency",
    "Flee.C58_synchronised_partial"
   ],
   "note": "False of the code in part: pflee.py:50. Assertion that the buffer is not empty. Missing from the full claim: the network without locations (`C58_no_locations_false`)."
  },
  {
   "property": "C59",
   "status": "proved",
   "theorems": [
    "Flee.C59_ranges",
    "Flee.C59_gathered"
   ],
   "note": ""
  },
  {
   "property": "C60",
   "status": "partial",
   "theorems": [
    "Flee.C60_comment_false",
    "Flee.C60_file_partial",
    "Flee.C60_message_partial",
    "Flee.C60_manager_partial",
    "Flee.C60_blanks"
   ],
   "note": "False of the code in part: coupling.py:431-440. Lines beginning with `#` are comments. Missing from the full claim: the empty name and names that begin with `#` (`C60_comment_false`)."
  },
  {
   "property": "C61",
   "status": "partial",
   "theorems": [
    "Flee.C61_lost_false",
    "Flee.C61_elsewhere_error",
    "Flee.C61_exchange_partial",
    "Flee.C61_due",
    "Flee.C61_no_locations",
    "Flee.C61_parallel_partial"
   ],
   "note": "False of the code in part: coupling.py:346-363 and 402. All coupled locations are cleared, but only those with \"out\" are written; and see C62. Missing from the full claim: agents at locations that only take agents in (`C61_lost_false`) and agents elsewhere (`C61_elsewhere_error`)."
  },
  {
   "property": "C62",
   "status": "partial",
   "theorems": [
    "Flee.C62_kept_false",
    "Flee.C62_all_partial",
    "Flee.C62_all_or_error",
    "Flee.C62_parallel_clear",
    "Flee.C62_parallel_deactivated"
   ],
   "note": "False of the code in part: flee.py, `clearLocationsFromAgents`: an agent that is kept is added to a list with `+=`, which raises for an object that is not a list. pflee.py:688-698 reads the location of deactivated agents. Missing from the full claim: any agent elsewhere (`C62_kept_false`, `C62_all_or_error`)."
  },
  {
   "property": "C63",
   "status": "partial",
   "theorems": [
    "Flee.C63_camps_are_sinks_false",
    "Flee.C63_camps_are_sicks",
    "Flee.C63_taken",
    "Flee.C63_documented_partial"
   ],
   "note": "False of the code in part: SimulationSettings.py:131-207. The key read is spelt `camps_are_sicks`."
  },
  {
   "property": "C64",
   "status": "partial",
   "theorems": [
    "Flee.C64_zero_data_false",
    "Flee.C64_zero_data",
    "Flee.C64_rounding_false",
    "Flee.C64_single_partial",
    "Flee.C64_multiples",
    "Flee.C64_whole",
    "Flee.C64_lists_partial",
    "Flee.C64_mean",
    "Flee.C64_scaled"
   ],
   "note": "False of the code in part: analysis.py. Rounding to four digits; zero for data below 1e-5. Missing from the full claim: data below 1e-5 (`C64_zero_data_false`) and exactness (`C64_rounding_false`). Missing from the full claim: exactness of the mean."
  },
  {
   "property": "C65",
   "status": "proved",
   "theorems": [
    "Flee.C65_idps"
   ],
   "note": ""
  },
  {
   "property": "C66",
   "status": "proved",
   "theorems": [
    "Flee.C66_exported_graph",
    "Flee.C66_exported_links_open"
   ],
   "note": ""
  },
  {
   "property": "C67",
   "status": "proved",
   "theorems": [
    "Flee.C67_locations"
   ],
   "note": ""
  },
  {
   "property": "C68",
   "status": "proved",
   "theorems": [
    "Flee.C68_consistent"
   ],
   "note": ""
  },
  {
   "property": "C69",
   "status": "partial",
   "theorems": [
    "Flee.C69_earlier_false",
    "Flee.C69_earlier_partial"
   ],
   "note": "False of the code in part: SimulationSettings.py:31-36 and 298-335. The dictionaries belong to the class and are not reset. Missing from the full claim: flood-driven spawning without flood rules (`C69_earlier_false`)."
  },
  {
   "property": "C70",
   "status": "partial",
   "theorems": [
    "Flee.C70_flood_tables_false",
    "Flee.C70_flood_tables_partial"
   ],
   "note": "False of the code in part: SimulationSettings.py:173-184 and 298-335. Flood rules are enabled by flood-driven spawning, the tables only come with `flood_rules`. Missing from the full claim: flood-driven spawning without that section (`C70_flood_tables_false`)."
  },
  {
   "property": "C71",
   "status": "partial",
   "theorems": [
    "Flee.C71_spawned_times",
    "Flee.C71_spawned_false",
    "Flee.C71_spawned_partial"
   ],
   "note": "False of the code in part: pflee.py:606-632 and 841-851. Every process counts every spawned agent, and the exchange sums over the processes. Missing from the full claim: several processes (`C71_spawned_false`)."
  },
  {
   "property": "C72",
   "status": "partial",
   "theorems": [
    "Flee.C72_second_ecosystem_false",
    "Flee.C72_first_partial",
    "Flee.C72_length",
    "Flee.C72_scores_lost"
   ],
   "note": "False of the code in part: pflee.py:383 and 939-940. `scores` is an attribute of the class. Missing from the full claim: later ecosystems (`C72_second_ecosystem_false`)."
  },
  {
   "property": "C73",
   "status": "partial",
   "theorems": [
    "Flee.C73_times",
    "Flee.C73_idps_false",
    "Flee.C73_idps_partial"
   ],
   "note": "False of the code in part: pflee.py:453-470. Totals that every process has are summed over the processes. Missing from the full claim: several processes (`C73_idps_false`)."
  },
  {
   "property": "C74",
   "status": "partial",
   "theorems": [
    "Flee.C74_missing_name_false",
    "Flee.C74_mean_partial"
   ],
   "note": "False of the code in part: coupling.py:526-532. The dictionary gets its keys from the first instance. Missing from the full claim: instances that send different names (`C74_missing_name_false`)."
  },
  {
   "property": "C75",
   "status": "partial",
   "theorems": [
    "Flee.C75_indirect_false",
    "Flee.C75_indirect_same",
    "Flee.C75_same_number_partial"
   ],
   "note": "False of the code in part: coupling.py:123-171, 352 and 402. The direction is only searched for \"in\" and \"out\". Missing from the full claim: other numbers (`C75_indirect_false`) and other agents."
  },
  {
   "property": "C76",
   "status": "proved",
   "theorems": [
    "Flee.C76_levels"
   ],
   "note": ""
  },
  {
   "property": "C77",
   "status": "partial",
   "theorems": [
    "Flee.C77_cells_false",
    "Flee.C77_columns",
    "Flee.C77_cells_partial",
    "Flee.C77_returns"
   ],
   "note": "False of the code in part: InputGeography.py:34-66 and 72-109. Cells are appended to the column, so a column that is missing in a row is a day behind from then on. Missing from the full claim: tables with shorter rows (`C77_cells_false`)."
  },
  {
   "property": "C78",
   "status": "partial",
   "theorems": [
    "Flee.C78_levels_read_false",
    "Flee.C78_no_levels_no_update",
    "Flee.C78_levels_read_partial",
    "Flee.C78_nothing_read_partial",
    "Flee.C78_runs"
   ],
   "note": "False of the code in part: InputGeography.py:148-157. The table is read if floods drive spawning; `AddNewConflictZones` (645-660) looks it up if flood rules are enabled. Missing from the full claim: flood rules without flood-driven spawning (`C78_levels_read_false`). Missing from the full claim: see above."
  },
  {
   "property": "C79",
   "status": "proved",
   "theorems": [
    "Flee.C79_flooded",
    "Flee.C79_dry"
   ],
   "note": ""
  },
  {
   "property": "C80",
   "status": "partial",
   "theorems": [
    "Flee.C80_level_zero_false",
    "Flee.C80_level_zero_partial"
   ],
   "note": "False of the code in part: scoring.py: the location weight of a flood zone is looked up for every level, also 0; in moving.py only for levels above 0. Missing from the full claim: the attractiveness of a flood zone without water, which is multiplied with the entry for level 0 (`C80_level_zero_false`)."
  },
  {
   "property": "C81",
   "status": "partial",
   "theorems": [
    "Flee.C81_weight_false",
    "Flee.C81_weight_partial",
    "Flee.C81_flood_zone_twice"
   ],
   "note": "False of the code in part: scoring.py and moving.py, `getEndPointScore`: both multiply with the location weight. Missing from the full claim: flood zones (`C81_weight_false`, `C81_flood_zone_twice`)."
  },
  {
   "property": "C82",
   "status": "partial",
   "theorems": [
    "Flee.C82_nobody_leaves",
    "Flee.C82_no_flood_false",
    "Flee.C82_no_flood_partial"
   ],
   "note": "False of the code in part: moving.py, `calculateMoveChance`: the chance is multiplied with the mean of the weighted levels, which is 0. Missing from the full claim: a forecast in use, for which the claim is false unless the chance is 0 anyway (`C82_no_flood_false`, `C82_nobody_leaves`)."
  },
  {
   "property": "C83",
   "status": "partial",
   "theorems": [
    "Flee.C83_timescale_partial",
    "Flee.C83_one_day_false"
   ],
   "note": "False of the code in part: moving.py, `calculateMoveChance`: the test is `flood_forecaster_timescale > 1`. Missing from the full claim: a timescale of exactly one day, which has no effect either (`C83_one_day_false`)."
  },
  {
   "property": "C84",
   "status": "partial",
   "theorems": [
    "Flee.C84_weights_partial",
    "Flee.C84_weights_false"
   ],
   "note": "False of the code in part: moving.py, `calculateMoveChance`: the weights are indexed with the day of the simulation, not with the number of days ahead. Missing from the full claim: all later days, on which the code takes the weights of the days of the simulation instead (`C84_weights_false`, `C83_timescale_partial`)."
  },
  {
   "property": "C85",
   "status": "proved",
   "theorems": [
    "Flee.C85_counts"
   ],
   "note": ""
  },
  {
   "property": "C86",
   "status": "proved",
   "theorems": [
    "Flee.C86_speed_of_the_day"
   ],
   "note": ""
  },
  {
   "property": "C87",
   "status": "partial",
   "theorems": [
    "Flee.C87_isolation_false",
    "Flee.C87_isolation_partial",
    "Flee.C87_links_partial",
    "Flee.C87_kinds_partial",
    "Flee.C87_link_kinds_partial"
   ],
   "note": "False of the code in part: flee.py:1705 and 1897. The default argument `attributes={}` is one dictionary for all calls. Missing from the full claim: locations added without attributes (`C87_isolation_false`). Missing from the full claim: other locations (`C87_isolation_false`). Missing from the full claim: other links."
  },
  {
   "property": "C88",
   "status": "partial",
   "theorems": [
    "Flee.C88_update_false",
    "Flee.C88_update_partial",
    "Flee.C88_returns"
   ],
   "note": "False of the code in part: As C87. Missing from the full claim: locations added without attributes (`C88_update_false`)."
  },
  {
   "property": "C89",
   "status": "proved",
   "theorems": [
    "Flee.C89_great_circle",
    "Flee.C89_distance"
   ],
   "note": ""
  },
  {
   "property": "C90",
   "status": "partial",
   "theorems": [
    "Flee.C90_coordinates_false",
    "Flee.C90_coordinates_partial"
   ],
   "note": "False of the code in part: InputGeography.py:446-447 stores the fourth column (latitude in all tables of conflict_input) as x, flee.py:425-428 uses x as the longitude. Missing from the full claim: the order in the tables of the project, for which latitude and longitude are exchanged (`C90_coordinates_false`)."
  },
  {
   "property": "C91",
   "status": "partial",
   "theorems": [
    "Flee.C91_home_false",
    "Flee.C91_home_partial"
   ],
   "note": "False of the code in part: moving.py:49-51. The distance is taken from `agent.location`, where the agent is now, not from `agent.home_location`. Missing from the full claim: agents elsewhere, whose distances are taken from where they are (`C91_home_false`)."
  },
  {
   "property": "C92",
   "status": "partial",
   "theorems": [
    "Flee.C92_population_false",
    "Flee.C92_population_partial",
    "Flee.C92_no_effect"
   ],
   "note": "False of the code in part: moving.py:143-144 and 148-149. `min(1.0, endpoint.pop)` bounds the population from above by 1; `max` would bound it from below. Missing from the full claim: larger populations, which count as 1 (`C92_population_false`, `C92_no_effect`)."
  },
  {
   "property": "C93",
   "status": "partial",
   "theorems": [
    "Flee.C93_age_false",
    "Flee.C93_age_partial",
    "Flee.C93_rules_off"
   ],
   "note": "False of the code in part: moving.py:39-46. There is no upper age for boys, and the rule for boys is nested in the rule for children. Missing from the full claim: these (`C93_age_false`, `C93_rules_off`)."
  },
  {
   "property": "C94",
   "status": "partial",
   "theorems": [
    "Flee.C94_ethnicity_false",
    "Flee.C94_ethnicity_partial",
    "Flee.C94_always_raises"
   ],
   "note": "False of the code in part: moving.py:137-147. `spawning` is not imported, so that matching raises NameError. Missing from the full claim: the kinds for which they are matched, where every choice raises (`C94_ethnicity_false`, `C94_always_raises`)."
  },
  {
   "property": "C95",
   "status": "partial",
   "theorems": [
    "Flee.C95_mean_partial",
    "Flee.C95_mean_false"
   ],
   "note": "False of the code in part: moving.py:121. `base *= base / timescale`: the sum of the forecast is squared. Missing from the full claim: it holds without this factor only where the sum is 0 or 1 (`C95_mean_false`)."
  },
  {
   "property": "C96",
   "status": "partial",
   "theorems": [
    "Flee.C96_no_flood_false",
    "Flee.C96_no_flood_partial",
    "Flee.C96_score_zero"
   ],
   "note": "False of the code in part: As C95: the factor is 0 when no flood is expected. Missing from the full claim: a forecast in use (`C96_no_flood_false`, `C96_score_zero`)."
  },
  {
   "property": "C97",
   "status": "partial",
   "theorems": [
    "Flee.C97_no_weighting_false",
    "Flee.C97_no_weighting_partial"
   ],
   "note": "False of the code in part: moving.py:201-276 and docs/Simulation_settings_advanced.md (awareness level). -1 behaves like 1 without looking past markers; 0 is the level without weighting. Missing from the full claim: equal weights (`C97_no_weighting_false`)."
  },
  {
   "property": "C98",
   "status": "proved",
   "theorems": [
    "Flee.C98_random_walk"
   ],
   "note": ""
  },
  {
   "property": "C99",
   "status": "proved",
   "theorems": [
    "Flee.C99_distance_free"
   ],
   "note": ""
  },
  {
   "property": "C100",
   "status": "partial",
   "theorems": [
    "Flee.C100_constant_false",
    "Flee.C100_constant_partial"
   ],
   "note": "False of the code in part: moving.py:234 and docs/Simulation_settings_advanced.md. `WeightSoftening` is added to the score before dividing by the distance and multiplying with the throttle. Missing from the full claim: the constant itself (`C100_constant_false`)."
  },
  {
   "property": "C101",
   "status": "partial",
   "theorems": [
    "Flee.C101_every_link_false",
    "Flee.C101_every_link_partial",
    "Flee.C101_once"
   ],
   "note": "False of the code in part: moving.py:234 and docs/Simulation_settings_advanced.md. `Softening` is added once to the length of the route. Missing from the full claim: routes of more links, for which the kilometres are added once (`C101_every_link_false`, `C101_once`)."
  },
  {
   "property": "C102",
   "status": "partial",
   "theorems": [
    "Flee.C102_scores_of_the_day_partial",
    "Flee.C102_scores_of_the_day_false"
   ],
   "note": "False of the code in part: flee.py:1645-1647 and scoring.py:126-129. The routes of a location are generated in the loop that updates scores, before the scores of later locations. Missing from the full claim: the scores of the day for the latter (`C102_scores_of_the_day_false`)."
  },
  {
   "property": "C103",
   "status": "partial",
   "theorems": [
    "Flee.C103_weight_false",
    "Flee.C103_weight_partial"
   ],
   "note": "False of the code in part: moving.py:493 multiplies with the score, which crawling.py:64-72 has already used; there is no capacity in either. Missing from the full claim: weights equal to those without fixed routes (`C103_weight_false`)."
  },
  {
   "property": "C104",
   "status": "partial",
   "theorems": [
    "Flee.C104_full_false",
    "Flee.C104_full_partial",
    "Flee.C104_capacity_ignored"
   ],
   "note": "False of the code in part: As C103: `getCapMultiplier` is not used with fixed routes. Missing from the full claim: fixed routes, where the capacity does not count (`C104_full_false`, `C104_capacity_ignored`)."
  },
  {
   "property": "C105",
   "status": "partial",
   "theorems": [
    "Flee.C105_destinations_false",
    "Flee.C105_destinations_partial"
   ],
   "note": "False of the code in part: crawling.py:143-165 counts markers as steps, moving.py:241-247 does not. Missing from the full claim: networks with markers (`C105_destinations_false`)."
  },
  {
   "property": "C106",
   "status": "proved",
   "theorems": [
    "Flee.C106_printed_counts"
   ],
   "note": ""
  },
  {
   "property": "C107",
   "status": "partial",
   "theorems": [
    "Flee.C107_false",
    "Flee.C107_partial"
   ],
   "note": "False of the code in part: run.py:55 and 86-95. The list of camps is made once; a location that becomes a camp later is not counted, one that ceases to be a camp still is."
  },
  {
   "property": "C108",
   "status": "proved",
   "theorems": [
    "Flee.C108_printed_total"
   ],
   "note": ""
  },
  {
   "property": "C109",
   "status": "partial",
   "theorems": [
    "Flee.C109_false",
    "Flee.C109_partial"
   ],
   "note": "False of the code in part: run.py:112-115. If the refugee count is not positive the row shows 0 for it and for the debt."
  },
  {
   "property": "C110",
   "status": "partial",
   "theorems": [
    "Flee.C110_false",
    "Flee.C110_partial"
   ],
   "note": "False of the code in part: run.py:112-115. If the refugee count is not positive the error is printed as 0."
  },
  {
   "property": "C111",
   "status": "proved",
   "theorems": [
    "Flee.C111_one_row_per_day"
   ],
   "note": ""
  },
  {
   "property": "C112",
   "status": "partial",
   "theorems": [
    "Flee.C112_false",
    "Flee.C112_partial"
   ],
   "note": "False of the code in part: InputGeography.py:645-648 and flee.py (change of location types). The weights are refreshed by new conflict zones and in `evolve`, not by a change of type to town."
  },
  {
   "property": "C113",
   "status": "proved",
   "theorems": [
    "Flee.C113_printed_data"
   ],
   "note": ""
  },
  {
   "property": "C114",
   "status": "proved",
   "theorems": [
    "Flee.C114_agents_at_start"
   ],
   "note": ""
  },
  {
   "property": "C115",
   "status": "partial",
   "theorems": [
    "Flee.C115_false",
    "Flee.C115_partial"
   ],
   "note": "False of the code in part: DataTable.py:351-363: on day 0 the loop runs over the whole header, including the column of totals (compare C49)."
  },
  {
   "property": "C116",
   "status": "partial",
   "theorems": [
    "Flee.C116_false",
    "Flee.C116_partial"
   ],
   "note": "False of the code in part: DataTable.py:351-363 and spawning.py:248-299. Only `get_daily_difference` writes `day0pops`, and it is only called when spawning follows the data."
  },
  {
   "property": "C117",
   "status": "proved",
   "theorems": [
    "Flee.C117_alike"
   ],
   "note": ""
  },
  {
   "property": "C118",
   "status": "partial",
   "theorems": [
    "Flee.C118_mode_false",
    "Flee.C118_partial",
    "Flee.C118_agree_partial"
   ],
   "note": "False of the code in part: pflee.py:793-831. Any other `parallel_mode` is accepted; scores are then updated once, by one process each. Missing from the full claim: other settings of `parallel_mode`, for which it is false (`C118_mode_false`). Missing from the full claim: as above."
  },
  {
   "property": "C119",
   "status": "partial",
   "theorems": [
    "Flee.C119_new_agent_false",
    "Flee.C119_step_partial",
    "Flee.C119_clear_partial"
   ],
   "note": "False of the code in part: pflee.py:606-632. `addAgent` raises `numAgentsSpawnedOnRank` but not `numAgents` of the location, unlike the sequential code. Missing from the full claim: states after agents have been added, for which it is false (`C119_new_agent_false`). Missing from the full claim: closed links and other states."
  },
  {
   "property": "C120",
   "status": "partial",
   "theorems": [
    "Flee.C120_closed_false",
    "Flee.C120_step_partial",
    "Flee.C120_agree_partial",
    "Flee.C120_open_partial"
   ],
   "note": "False of the code in part: pflee.py (`updateNumAgents`) counts only links that are in a list; see C02 for closed links. Missing from the full claim: agents on links that have been closed or removed, see `C120_closed_false`. Missing from the full claim: as above. Missing from the full claim: other runs."
  },
  {
   "property": "C121",
   "status": "partial",
   "theorems": [
    "Flee.C121_sinks_false",
    "Flee.C121_partial"
   ],
   "note": "False of the code in part: pflee.py:885 uses `random`, which is not imported there. Missing from the full claim: steps that end with an agent in a camp, which fail (`C121_sinks_false`)."
  },
  {
   "property": "C122",
   "status": "proved",
   "theorems": [
    "Flee.C122_persons"
   ],
   "note": ""
  },
  {
   "property": "C123",
   "status": "partial",
   "theorems": [
    "Flee.C123_drawn_false",
    "Flee.C123_partial"
   ],
   "note": "False of the code in part: pflee.py:606-632. `takeFromPopulation` is applied on every process to the location drawn on that process. Missing from the full claim: locations that differ from process to process, for which it is false (`C123_drawn_false`)."
  },
  {
   "property": "C124",
   "status": "partial",
   "theorems": [
    "Flee.C124_partial",
    "Flee.C124_alone_partial",
    "Flee.C124_false"
   ],
   "note": "False of the code in part: pflee.py:606-632 and 840-851. Every process counts every agent, and the counts are then summed over processes. Missing from the full claim: more than one process, for which it is false (`C124_false`)."
  },
  {
   "property": "C125",
   "status": "partial",
   "theorems": [
    "Flee.C125_cleared_false",
    "Flee.C125_closed_false",
    "Flee.C125_partial"
   ],
   "note": "False of the code in part: pflee.py:606-632 and 688-702. New agents go to the process given by the total, which drops when agents are removed or not counted. Missing from the full claim: other runs, for which it is false (`C125_cleared_false` and `C125_closed_false`)."
  },
  {
   "property": "C126",
   "status": "proved",
   "theorems": [
    "Flee.C126_weights"
   ],
   "note": ""
  },
  {
   "property": "C127",
   "status": "partial",
   "theorems": [
    "Flee.C127_two_way_partial",
    "Flee.C127_two_way_false"
   ],
   "note": "False of the code in part: InputGeography.py:511 compares the last cell before blank cells are dropped (513). Missing from the full claim: lines with blank cells at the end (`C127_two_way_false`)."
  },
  {
   "property": "C128",
   "status": "proved",
   "theorems": [
    "Flee.C128_not_recursive"
   ],
   "note": ""
  },
  {
   "property": "C129",
   "status": "partial",
   "theorems": [
    "Flee.C129_closed_false",
    "Flee.C129_closed_partial"
   ],
   "note": "False of the code in part: crawling.py:103-107. A major route with a closed link makes the program call `sys.exit`; the documentation says that major routes cannot be closed. Missing from the full claim: going on (`C129_closed_false`)."
  },
  {
   "property": "C130",
   "status": "partial",
   "theorems": [
    "Flee.C130_stored_false",
    "Flee.C130_stored_partial",
    "Flee.C130_hubs_partial",
    "Flee.C130_best_false"
   ],
   "note": "False of the code in part: crawling.py:75. The comparison reads `loc.routes` of the location before the end instead of `source_loc.routes`. So far ends may stay unknown, and a worse major route may replace a better one. Missing from the full claim: the comparison with another location (`C130_stored_false`)."
  },
  {
   "property": "C131",
   "status": "partial",
   "theorems": [
    "Flee.C131_capacity_false",
    "Flee.C131_mode_false",
    "Flee.C131_fixed_false",
    "Flee.C131_stale_false",
    "Flee.C131_partial"
   ],
   "note": "False of the code in part: pflee.py:210-236 and 541-582. `numAgents` as seen by decisions changes at exchanges only, so that agents which arrive within the same half of a step do not see each other, not even on the same process; flee.py counts at once. Camps fill up beyond what the sequential program allows. With fixed routes, pflee.py:793-838 updates scores several times before the first routes are generated, and `loc-par` regenerates the routes from other processes' locations only while they are empty, so that these routes go stale; an unknown `parallel_mode` does not update scores at all. Missing from the full claim: locations with a capacity, other modes, and fixed routes in the first step or with scores updated in shares. For all of these it is false (`C131_capacity_false`, `C131_mode_false`, `C131_fixed_false`, `C131_stale_false`)."
  },
  {
   "property": "C132",
   "status": "partial",
   "theorems": [
    "Flee.C132_capacity_false",
    "Flee.C132_fixed_false",
    "Flee.C132_mode_false",
    "Flee.C132_partial"
   ],
   "note": "False of the code in part: As C131, where routes cannot go stale on a single process. Missing from the full claim: locations with a capacity, other modes and fixed routes. For all of these it is false (`C132_capacity_false`, `C132_mode_false`, `C132_fixed_false`)."
  },
  {
   "property": "C133",
   "status": "partial",
   "theorems": [
    "Flee.C133_last_person_false",
    "Flee.C133_partial"
   ],
   "note": "False of the code in part: pflee.py:619-629 asserts `location.pop > 1`; flee.py:1766 takes the last person as well and goes on without people left. Missing from the full claim: the last person, for which it is false (`C133_last_person_false`)."
  },
  {
   "property": "C134",
   "status": "partial",
   "theorems": [
    "Flee.C134_new_agents_false",
    "Flee.C134_partial"
   ],
   "note": "False of the code in part: pflee.py:606-650. A new agent raises `numAgentsOnRank`, but `numAgents` is not updated before the end of the next step. Missing from the full claim: agents that were added since, for which it is false (`C134_new_agents_false`)."
  },
  {
   "property": "C135",
   "status": "proved",
   "theorems": [
    "Flee.C135_days_between",
    "Flee.C135_only_dates",
    "Flee.C135_steps"
   ],
   "note": ""
  },
  {
   "property": "C136",
   "status": "proved",
   "theorems": [
    "Flee.C136_date",
    "Flee.C136_printed_dates",
    "Flee.C136_rows"
   ],
   "note": ""
  },
  {
   "property": "C137",
   "status": "partial",
   "theorems": [
    "Flee.C137_lines_false",
    "Flee.C137_lines_partial"
   ],
   "note": "False of the code in part: DataTable.py:186-198 skips headings in the first line only, so that a comment above them makes `int` fail. DataTable.py:89 (`row[0][0]`) fails for a line that begins with an empty cell. Missing from the full claim: headings after the first line, later lines that begin with an empty cell (`C137_lines_false`)."
  },
  {
   "property": "C138",
   "status": "partial",
   "theorems": [
    "Flee.C138_corrections_false",
    "Flee.C138_files_partial",
    "Flee.C138_corrections_partial",
    "Flee.C138_shown_partial"
   ],
   "note": "False of the code in part: handle_refugee_data.py:81-85 stops the program if the last level 1 count is below 1, which depends on the scale factor. Missing from the full claim: corrections. Missing from the full claim: that it gets through with the factor (`C138_corrections_false`). Missing from the full claim: that corrections work with the factor."
  },
  {
   "property": "C139",
   "status": "proved",
   "theorems": [
    "Flee.C139_corrections",
    "Flee.C139_effect"
   ],
   "note": ""
  },
  {
   "property": "C140",
   "status": "partial",
   "theorems": [
    "Flee.C140_empty_line_false",
    "Flee.C140_period_partial"
   ],
   "note": "False of the code in part: read_period.py:35 fails for an empty line (`row[0]`). Missing from the full claim: files with empty lines (`C140_empty_line_false`)."
  },
  {
   "property": "C141",
   "status": "proved",
   "theorems": [
    "Flee.C141_file_to_row"
   ],
   "note": ""
  },
  {
   "property": "C142",
   "status": "proved",
   "theorems": [
    "Flee.C142_layout"
   ],
   "note": ""
  },
  {
   "property": "C143",
   "status": "partial",
   "theorems": [
    "Flee.C143_false",
    "Flee.C143_partial",
    "Flee.C143_chance",
    "Flee.C143_all",
    "Flee.C143_unknown",
    "Flee.C143_header"
   ],
   "note": "False of the code in part: spawning.py:157 takes the column of the values as weights if a location is called like the attribute. The documentation (spawning.py:91) gives the heading Value, for which line 164 raises KeyError. Missing from the full claim: those that are."
  },
  {
   "property": "C144",
   "status": "partial",
   "theorems": [
    "Flee.C144_false",
    "Flee.C144_overwrite",
    "Flee.C144_partial",
    "Flee.C144_directory"
   ],
   "note": "False of the code in part: spawning.py:101 takes the part of the name up to the second underscore: demographics_age_group.csv is stored as `age`, and of two files that begin alike one is lost. Drawing from such a table then raises KeyError unless it has a column `age`. Missing from the full claim: names with them."
  },
  {
   "property": "C145",
   "status": "partial",
   "theorems": [
    "Flee.C145_false",
    "Flee.C145_partial"
   ],
   "note": "False of the code in part: spawning.py:200-201 reads the tables only when a camp is filled; without camps no agent gets attributes. Missing from the full claim: runs without camps. Stronger: this holds of the agents at the start too, and agents stay with the attributes of their home wherever they go."
  },
  {
   "property": "C146",
   "status": "partial",
   "theorems": [
    "Flee.C146_region_false",
    "Flee.C146_empty_false",
    "Flee.C146_partial",
    "Flee.C146_states",
    "Flee.C146_all"
   ],
   "note": "False of the code in part: Diagnostics.py:95 uses the name `location`, which is not defined, so that log level > 0 with granularity region stops on the first agent; line 75 reads agents[0] on day 0, which raises IndexError if there is no agent yet (for runs that begin with no agents). Missing from the full claim: logs by region and a first day without agents, for which it is false (`C146_region_false`, `C146_empty_false`)."
  },
  {
   "property": "C147",
   "status": "partial",
   "theorems": [
    "Flee.C147_false",
    "Flee.C147_partial",
    "Flee.C147_once"
   ],
   "note": "False of the code in part: At log level 2, the rows on the way (Diagnostics.py:129-145) have no mark that tells them from the row on the agent. Missing from the full claim: level 2, for which it is false (`C147_false`)."
  },
  {
   "property": "C148",
   "status": "partial",
   "theorems": [
    "Flee.C148_false",
    "Flee.C148_partial"
   ],
   "note": "False of the code in part: Diagnostics.py:75 writes the attribute names of the first agent into the header only; agents with other attributes, or the same in another order, get their values into the wrong columns. Missing from the full claim: other runs, for which it is false (`C148_false`)."
  },
  {
   "property": "C149",
   "status": "partial",
   "theorems": [
    "Flee.C149_false",
    "Flee.C149_partial"
   ],
   "note": "False of the code in part: flee.py:256 stores `self.location` before the agent is moved to the end of the link, so the log lists links `L:a:b` instead of locations. Missing from the full claim: the names of the locations, for which it is false (`C149_false`)."
  },
  {
   "property": "C150",
   "status": "partial",
   "theorems": [
    "Flee.C150_closed_false",
    "Flee.C150_attribute_false",
    "Flee.C150_partial",
    "Flee.C150_sums"
   ],
   "note": "False of the code in part: Diagnostics.py:231 and 261 go over `links` only, so that closed links are missing from the log; agents without an attribute are in the total and not in the numbers by value. Missing from the full claim: closed links and agents without the attribute, for which it is false (`C150_closed_false`, `C150_attribute_false`)."
  },
  {
   "property": "C151",
   "status": "partial",
   "theorems": [
    "Flee.C151_passing_false",
    "Flee.C151_back_false",
    "Flee.C151_partial",
    "Flee.C151_newly",
    "Flee.C151_waiting_false"
   ],
   "note": "False of the code in part: flee.py:262-266 counts each time an agent reaches the end of a link to a camp, so that agents who pass the camp, or come back to it several times a day, are counted each time; agents whom a closed link sends back are not counted. The length of a journey is timesteps_since_departure, which counts all days since the agent was added, also those spent waiting at home. Missing from the full claim: agents who pass a camp are counted, and agents sent back to a camp are not (`C151_passing_false`, `C151_back_false`)."
  },
  {
   "property": "C152",
   "status": "partial",
   "theorems": [
    "Flee.C152_false",
    "Flee.C152_partial"
   ],
   "note": "False of the code in part: spawning.py:257 and 284 draw from a Poisson distribution on each process separately, although agents are dealt out to processes by a counter that must be the same everywhere; afterwards the counters differ until the next time step, so agents are created twice or not at all. Missing from the full claim: numbers drawn from a Poisson distribution, for which it is false (`C152_false`)."
  },
  {
   "property": "C153",
   "status": "proved",
   "theorems": [
    "Flee.C153_printed_counts"
   ],
   "note": ""
  },
  {
   "property": "C154",
   "status": "partial",
   "theorems": [
    "Flee.C154_false",
    "Flee.C154_partial"
   ],
   "note": "False of the code in part: As C120: pflee.py:524-590 does not count closed links, so that the printed total falls when a border is closed. New agents are dealt out to processes by this number. Missing from the full claim: agents on roads that have been closed, for which it is false (`C154_false`)."
  },
  {
   "property": "C155",
   "status": "proved",
   "theorems": [
    "Flee.C155_same_rows"
   ],
   "note": ""
  },
  {
   "property": "C156",
   "status": "proved",
   "theorems": [
    "Flee.C156_one_row_per_day"
   ],
   "note": ""
  },
  {
   "property": "C157",
   "status": "proved",
   "theorems": [
    "Flee.C157_fails",
    "Flee.C157_false"
   ],
   "note": "False of the code in part: run_par.py:65 appends to `output` before any line sets it, so that the log level idp_totals stops the program with NameError; run.py:64 appends to `output_header_string`."
  },
  {
   "property": "C158",
   "status": "partial",
   "theorems": [
    "Flee.C158_false",
    "Flee.C158_weights_false",
    "Flee.C158_partial"
   ],
   "note": "False of the code in part: pflee.py's evolve does not refresh the spawn weights, whereas flee.py's does. close_camp and open_camp set the conflict of a location to -1 and do not refresh either, so that a conflict zone which the schedule of closures treats as a camp still sends new agents on the next day in the parallel program. Totals differ as in C154. Missing from the full claim: the settings and closures named, for which it is false (`C158_false`, `C158_weights_false`; for capacities and modes see C118 and C119, for fixed routes C141)."
  },
  {
   "property": "C159",
   "status": "partial",
   "theorems": [
    "Flee.C159_nearest",
    "Flee.C159_partial",
    "Flee.C159_false",
    "Flee.C159_old",
    "Flee.C159_no_year"
   ],
   "note": "False of the code in part: between_date takes the absolute value, so that an event before the start gets a day after it (acled2locations.py:109). date_format adds 2000 to years below 50 but nothing to 50 to 99 (lines 93-96), so that an event of 1999 written with two digits is taken to be of the year 99. Missing from the full claim: events before the start, and years written as 50 to 99."
  },
  {
   "property": "C160",
   "status": "proved",
   "theorems": [
    "Flee.C160_one_row"
   ],
   "note": ""
  },
  {
   "property": "C161",
   "status": "partial",
   "theorems": [
    "Flee.C161_partial",
    "Flee.C161_false"
   ],
   "note": "False of the code in part: As C159: days before the start count as days after it, so that the nearest event is taken instead of the first. Missing from the full claim: events before the start, and years written as 50 to 99."
  },
  {
   "property": "C162",
   "status": "partial",
   "theorems": [
    "Flee.C162_no_effect",
    "Flee.C162_partial",
    "Flee.C162_false"
   ],
   "note": "False of the code in part: acled2locations.py:193 drops all rows of a region but the first before the filter is applied, and line 141 does not use the sorted table. The filter has no effect. Missing from the full claim: regions in which an event with fewer fatalities is as near to the start or nearer, and years written as 50 to 99."
  },
  {
   "property": "C163",
   "status": "partial",
   "theorems": [
    "Flee.C163_exit",
    "Flee.C163_partial",
    "Flee.C163_false"
   ],
   "note": "False of the code in part: acled2locations.py:175 keeps the column admin1 only, so that df.admin2 and df.location do not exist; the bare except at line 201 reports a wrong filter. admin3 is treated as admin2. The documentation gives location as its example. Missing from the full claim: the levels admin2, admin3 and location, and years written as 50 to 99."
  },
  {
   "property": "C164",
   "status": "proved",
   "theorems": [
    "Flee.C164_population",
    "Flee.C164_missing"
   ],
   "note": ""
  },
  {
   "property": "C165",
   "status": "partial",
   "theorems": [
    "Flee.C165_stops",
    "Flee.C165_partial",
    "Flee.C165_false"
   ],
   "note": "False of the code in part: acled2locations.py:142 calls DataFrame.append, removed in pandas 2.0; requirements.txt does not limit the version, and the bare except at line 201 reports a wrong filter. Missing from the full claim: lists with fatal events."
  },
  {
   "property": "C166",
   "status": "partial",
   "theorems": [
    "Flee.C166_false",
    "Flee.C166_partial",
    "Flee.C166_run"
   ],
   "note": "False of the code in part: plot_flee_output.py:243 looks for ' sim' anywhere in the name of a column, so that a camp such as 'al simsim' is found in its three columns and counted three times. Missing from the full claim: camps with other names."
  },
  {
   "property": "C167",
   "status": "partial",
   "theorems": [
    "Flee.C167_false",
    "Flee.C167_partial",
    "Flee.C167_shares",
    "Flee.C167_scale"
   ],
   "note": "False of the code in part: plot_flee_output.py:327 stores the rescaled numbers in an array of int64, which cuts off the fractions; the array in extract-validation-results.py:126 is of floats. Missing from the full claim: equality."
  },
  {
   "property": "C168",
   "status": "partial",
   "theorems": [
    "Flee.C168_false",
    "Flee.C168_same",
    "Flee.C168_partial"
   ],
   "note": "False of the code in part: plot_flee_compare.py:76 calls abs_diff with rescaled=False for the rescaled error as well. Missing from the full claim: other days."
  },
  {
   "property": "C169",
   "status": "partial",
   "theorems": [
    "Flee.C169_false",
    "Flee.C169_partial",
    "Flee.C169_none"
   ],
   "note": "False of the code in part: run.py:113 divides by the number of all refugees in the data, the programs divide by the number in camps, and at least by 1. On days without refugees in the data run.py:115 prints 0 while the programs count all people in camps. Missing from the full claim: days with other refugees in the data."
  },
  {
   "property": "C170",
   "status": "partial",
   "theorems": [
    "Flee.C170_false",
    "Flee.C170_partial",
    "Flee.C170_space",
    "Flee.C170_idps",
    "Flee.C170_report",
    "Flee.C170_silent"
   ],
   "note": "False of the code in part: plot_flee_output.py:128 takes the first word of a column for the name of the camp: names such as 'Bobo Dioulasso' give a KeyError. The column 'total IDPs' is not dropped (lines 108-118) and gives a KeyError. A figure is made three times for each camp. Missing from the full claim: other names, and output with the number of internally displaced people."
  },
  {
   "property": "C171",
   "status": "partial",
   "theorems": [
    "Flee.C171_false",
    "Flee.C171_partial"
   ],
   "note": "False of the code in part: get_error divides by the sum of the numbers of observations without a check (StoreDiagnostics.py:64). Missing from the full claim: the case of nobody."
  },
  {
   "property": "C172",
   "status": "partial",
   "theorems": [
    "Flee.C172_false",
    "Flee.C172_partial",
    "Flee.C172_never"
   ],
   "note": "False of the code in part: The documentation of calculate_ln_accuracy_ratio promises -1; the function has no such case (analysis.py:101) and gives inf or nan. Missing from the full claim: the case of a 0 in the actual values."
  },
  {
   "property": "C173",
   "status": "partial",
   "theorems": [
    "Flee.C173_false",
    "Flee.C173_partial"
   ],
   "note": "False of the code in part: extract-validation-results.py:145 and 153 multiply the value of the day by the number of the day instead of dividing by 7 or 30; line 152 tests the value of day 7 in place of day 30. Missing from the full claim: the sloped lines, for which it is false."
  },
  {
   "property": "C174",
   "status": "partial",
   "theorems": [
    "Flee.C174_false",
    "Flee.C174_partial"
   ],
   "note": "False of the code in part: The value of day 30 is read without a check of the length (extract-validation-results.py:139). Missing from the full claim: shorter simulations."
  },
  {
   "property": "C175",
   "status": "partial",
   "theorems": [
    "Flee.C175_waits_false",
    "Flee.C175_no_deadlock_partial",
    "Flee.C175_ends"
   ],
   "note": "False of the code in part: waitForInputFiles (coupling.py:488-494) has no limit of time and does not look whether the other processes are still there. Missing from the full claim: instances that wait for an instance that failed (`C175_waits_false`)."
  },
  {
   "property": "C176",
   "status": "partial",
   "theorems": [
    "Flee.C176_two_days_false",
    "Flee.C176_days_apart_partial"
   ],
   "note": "False of the code in part: The files of the other model are awaited, those of the own model are not (coupling.py:467-496), so that two instances of one model can be two days apart. Missing from the full claim: two days for instances of one model (`C176_two_days_false`)."
  },
  {
   "property": "C177",
   "status": "partial",
   "theorems": [
    "Flee.C177_half_file_false",
    "Flee.C177_in_step_partial",
    "Flee.C177_any_speed_partial",
    "Flee.C177_one_pair_partial"
   ],
   "note": "False of the code in part: waitForInputFiles ends when the files exist (coupling.py:492), which is so as soon as they are opened (461), before anything is in them. Missing from the full claim: files that are read too early (`C177_half_file_false`). Missing from the full claim: files that are read too early (`C177_half_file_false`). Missing from the full claim: files that are read too early (`C177_half_file_false`)."
  },
  {
   "property": "C178",
   "status": "partial",
   "theorems": [
    "Flee.C178_old_file_false",
    "Flee.C178_other_files_partial"
   ],
   "note": "False of the code in part: coupling.py:461 opens for appending and 492 finds old files. run_file_coupling.sh:83 removes them before the start; coupling.py and run_mscale.py do not. Missing from the full claim: files of the instances and days of this run (`C178_old_file_false`)."
  },
  {
   "property": "C179",
   "status": "proved",
   "theorems": [
    "Flee.C179_more_rain"
   ],
   "note": ""
  },
  {
   "property": "C180",
   "status": "partial",
   "theorems": [
    "Flee.C180_equal_false",
    "Flee.C180_fifteen_false",
    "Flee.C180_flooded_partial"
   ],
   "note": "False of the code in part: The documentation of X1_X2 (pmicro_flee.py:417-422) says greater than or equal to X2; line 540 tests <= X2, and line 543 asks for more than 15 in addition. Missing from the full claim: precipitation equal to X2 (`C180_equal_false`) or at most 15 (`C180_fifteen_false`)."
  },
  {
   "property": "C181",
   "status": "proved",
   "theorems": [
    "Flee.C181_percentiles",
    "Flee.C181_exist"
   ],
   "note": ""
  },
  {
   "property": "C182",
   "status": "partial",
   "theorems": [
    "Flee.C182_latitude_first_false",
    "Flee.C182_place_partial"
   ],
   "note": "False of the code in part: pmicro_flee.py:444-447 fixes the latitude before 449-454 looks at the longitude. Missing from the full claim: points of other latitudes (`C182_latitude_first_false`)."
  },
  {
   "property": "C183",
   "status": "partial",
   "theorems": [
    "Flee.C183_crossing_false",
    "Flee.C183_directions_partial"
   ],
   "note": "False of the code in part: pmicro_flee.py:182-188 gives the second link no link_type. Moreover get_distance of these links needs the argument time (line 509), but all callers (flee.py:232, moving.py:234 and others) call get_distance(): with weather coupling every simulation ends by a TypeError as soon as an agent looks at a link. Missing from the full claim: river crossings (`C183_crossing_false`)."
  },
  {
   "property": "C184",
   "status": "proved",
   "theorems": [
    "Flee.C184_river"
   ],
   "note": ""
  },
  {
   "property": "C185",
   "status": "partial",
   "theorems": [
    "Flee.C185_multiplier_false",
    "Flee.C185_multiplier_partial"
   ],
   "note": "False of the code in part: precipitation.py:206 returns 1000, pmicro_flee.py:544 and 547 use 10000 or 2. Missing from the full claim: more rain (`C185_multiplier_false`)."
  },
  {
   "property": "C186",
   "status": "proved",
   "theorems": [
    "Flee.C186_months"
   ],
   "note": ""
  },
  {
   "property": "C187",
   "status": "partial",
   "theorems": [
    "Flee.C187_names_false",
    "Flee.C187_ghosts_partial"
   ],
   "note": "False of the code in part: coupling.py:151 looks up the location by its name and takes the last one. Missing from the full claim: locations with the same name (`C187_names_false`)."
  },
  {
   "property": "C188",
   "status": "proved",
   "theorems": [
    "Flee.C188_conflicts"
   ],
   "note": ""
  },
  {
   "property": "C189",
   "status": "partial",
   "theorems": [
    "Flee.C189_setup_partial",
    "Flee.C189_missing",
    "Flee.C189_setup_false"
   ],
   "note": "False of the code in part: Nothing compares the two files of conflicts; the micro model raises a KeyError at coupling.py:355. (run_mscale.py cannot reach this point in the present state of the repository: it calls ReadFlareConflictInputCSV (line 366), pick_conflict_location and refresh_conflict_weights, which do not exist.) Missing from the full claim: other files of conflicts (`C189_setup_false`)."
  },
  {
   "property": "C190",
   "status": "partial",
   "theorems": [
    "Flee.C190_append_false",
    "Flee.C190_lines_partial",
    "Flee.C190_sent"
   ],
   "note": "False of the code in part: coupling.py:585 opens the file for appending and writes the names again. Missing from the full claim: files with the log of an earlier run (`C190_append_false`)."
  },
  {
   "property": "C191",
   "status": "partial",
   "theorems": [
    "Flee.C191_mean_false",
    "Flee.C191_last",
    "Flee.C191_same_partial"
   ],
   "note": "False of the code in part: coupling.py:680-684 computes the means and does not use them; line 686 writes df, the table of the last instance. Missing from the full claim: different tables (`C191_mean_false`)."
  },
  {
   "property": "C192",
   "status": "partial",
   "theorems": [
    "Flee.C192_documented",
    "Flee.C192_layout_false",
    "Flee.C192_older_partial"
   ],
   "note": "False of the code in part: micro_InputGeography.py:109-131 has the columns of an older layout, with the population in the second place, and does not set foreign. Missing from the full claim: the documented layout (`C192_documented`, `C192_layout_false`), other countries, further attributes and major routes."
  },
  {
   "property": "C193",
   "status": "partial",
   "theorems": [
    "Flee.C193_empty_false",
    "Flee.C193_empty_line_error",
    "Flee.C193_lines_partial"
   ],
   "note": "False of the code in part: run_mscale.py:30 and micro_InputGeography.py:59 look at the first cell of a line without testing that there is one, unlike InputGeography.py:179. Missing from the full claim: empty lines (`C193_empty_false`)."
  },
  {
   "property": "C194",
   "status": "partial",
   "theorems": [
    "Flee.C194_labels_false",
    "Flee.C194_labels_partial"
   ],
   "note": "False of the code in part: flee.py:1828 compares the names in the list with the name of the place of an agent, which may be a road; the name of a road is made from the names of its ends (flee.py:659). Missing from the full claim: `clearLocationsFromAgents`, for which it is false (`C194_labels_false`)."
  },
  {
   "property": "C195",
   "status": "proved",
   "theorems": [
    "Flee.C195_unit"
   ],
   "note": ""
  },
  {
   "property": "C196",
   "status": "proved",
   "theorems": [
    "Flee.C196_attributes"
   ],
   "note": ""
  },
  {
   "property": "C197",
   "status": "proved",
   "theorems": [
    "Flee.C197_alone",
    "Flee.C197_groups",
    "Flee.C197_order"
   ],
   "note": ""
  },
  {
   "property": "C198",
   "status": "proved",
   "theorems": [
    "Flee.C198_parallel",
    "Flee.C198_sequential",
    "Flee.C198_same"
   ],
   "note": ""
  },
  {
   "property": "C199",
   "status": "proved",
   "theorems": [
    "Flee.C199_view",
    "Flee.C199_elsewhere",
    "Flee.C199_neighbours"
   ],
   "note": ""
  },
  {
   "property": "C200",
   "status": "proved",
   "theorems": [
    "Flee.C200_parts",
    "Flee.C200_without"
   ],
   "note": ""
  },
  {
   "property": "C201",
   "status": "proved",
   "theorems": [
    "Flee.C201_read",
    "Flee.C201_back",
    "Flee.C201_commit",
    "Flee.C201_only",
    "Flee.C201_untagged",
    "Flee.C201_other"
   ],
   "note": ""
  },
  {
   "property": "C202",
   "status": "proved",
   "theorems": [
    "Flee.C202_apart",
    "Flee.C202_plus_needed",
    "Flee.C202_exact",
    "Flee.C202_plus",
    "Flee.C202_hidden"
   ],
   "note": ""
  },
  {
   "property": "C203",
   "status": "partial",
   "theorems": [
    "Flee.C203_missing",
    "Flee.C203_false",
    "Flee.C203_partial",
    "Flee.C203_branch",
    "Flee.C203_commit",
    "Flee.C203_unexpanded"
   ],
   "note": "False of the code in part: _version.py:193 takes any name with a digit where there is no tag, including branches; for the commit checked out on the branch release-2 the version is 'HEAD -> release-2'. Also the first tag in the order of a dictionary is taken, not the newest: 10.0 comes before 9.0. Missing from the full claim: commits without any tag, for which a name with a digit is taken."
  },
  {
   "property": "C204",
   "status": "partial",
   "theorems": [
    "Flee.C204_unknown",
    "Flee.C204_false",
    "Flee.C204_partial",
    "Flee.C204_release"
   ],
   "note": "False of the code in part: setup.cfg has no parentdir_prefix, and the template wrote the text None into _version.py:45. The package looks for a directory whose name begins with None, while versioneer.py:1462 skips this source. Missing from the full claim: such directories without git."
  },
  {
   "property": "C205",
   "status": "partial",
   "theorems": [
    "Flee.C205_returns_partial",
    "Flee.C205_days_partial",
    "Flee.C205_marker_false",
    "Flee.C205_random_false",
    "Flee.C205_pruning_false",
    "Flee.C205_false",
    "Flee.C205_always_partial"
   ],
   "note": "False of the code in part: A town whose only road leads to a marker without another road: moving.py finds no route, and flee.py:130-158 takes the length of None (TypeError). With awareness level 0 or pruning of routes, a location without open links raises ValueError. Missing from the full claim: countries without these properties, for which it is false (`C205_marker_false`, `C205_random_false`, `C205_pruning_false`). Missing from the full claim: as for one day. Missing from the full claim: as for `C205_returns_partial`."
  },
  {
   "property": "C206",
   "status": "partial",
   "theorems": [
    "Flee.C206_settled_partial",
    "Flee.C206_equal_false"
   ],
   "note": "False of the code in part: flee.py:232 compares with >: an agent that travels exactly the length of the link in a day is still on the link at the end of the day, and arrives on the next. Missing from the full claim: links that are exactly as long, for which it is false (`C206_equal_false`)."
  },
  {
   "property": "C207",
   "status": "proved",
   "theorems": [
    "Flee.C207_arrivals",
    "Flee.C207_one_agent",
    "Flee.C207_toy_escape"
   ],
   "note": ""
  },
  {
   "property": "C208",
   "status": "partial",
   "theorems": [
    "Flee.C208_peak_partial",
    "Flee.C208_peak_false",
    "Flee.C208_interpolated"
   ],
   "note": "False of the code in part: handle_refugee_data.py:111-114 looks at the first row on or after the last day before it stops, so that a count after the period can be the result. Missing from the full claim: last days between two rows, see `C208_peak_false`."
  },
  {
   "property": "C209",
   "status": "partial",
   "theorems": [
    "Flee.C209_kept_out_partial",
    "Flee.C209_arrivals_partial",
    "Flee.C209_foreign_weight",
    "Flee.C209_full_false",
    "Flee.C209_through_false",
    "Flee.C209_false"
   ],
   "note": "False of the code in part: If all other places are full, all routes get the same weight (moving.py:294-299, normalizeWeights) and agents go to places that count nothing. Agents that look two links ahead go through places that count nothing, because only the end of a route is weighed. Missing from the full claim: places that may be full, for which it is false (`C209_full_false`), and agents that look further, for which it is false, too (`C209_through_false`). Missing from the full claim: as for agents that are there from the beginning."
  },
  {
   "property": "C210",
   "status": "proved",
   "theorems": [
    "Flee.C210_all_leave",
    "Flee.C210_daily",
    "Flee.C210_held",
    "Flee.C210_toy_escape",
    "Flee.C210_camp_sink",
    "Flee.C210_tiny_closure"
   ],
   "note": ""
  },
  {
   "property": "C211",
   "status": "proved",
   "theorems": [
    "Flee.C211_no_foresight",
    "Flee.C211_longer",
    "Flee.C211_data_ahead"
   ],
   "note": ""
  },
  {
   "property": "C212",
   "status": "partial",
   "theorems": [
    "Flee.C212_raises",
    "Flee.C212_false",
    "Flee.C212_partial",
    "Flee.C212_never"
   ],
   "note": "False of the code in part: Attributes of the file of locations are text (InputGeography.py:478); flee.py:1686 (and pflee.py:890) compares a random number with it, which raises TypeError as soon as an agent is in such a camp. The documented way to make camps sinks (docs/Simulation_settings_advanced.md:87) therefore does not work; the test sets the attribute as a number by `setAttribute`. Missing from the full claim: that a run in which agents reach such a camp goes on, and that they are deactivated."
  },
  {
   "property": "C213",
   "status": "partial",
   "theorems": [
    "Flee.C213_false",
    "Flee.C213_partial",
    "Flee.C213_early",
    "Flee.C213_never",
    "Flee.C213_no_places"
   ],
   "note": "False of the code in part: `spawn_daily_displaced` (spawning.py:306-309) takes the number of people that the data show on day 0 off the capacity of each location, while `add_initial_refugees` (spawning.py:207-213) inserts the same people as agents that count as occupants. A camp with 5 places and 3 people turns everybody away. If the count reaches the number of places, the capacity becomes 0 or negative and the camp has no limit (`C213_never`). docs/Simulation_instance_construction.md:54 says that the default capacity 0 is not unlimited, but it is (`C213_no_places`). Missing from the full claim: programs that insert them, for which it is false (`C213_false`); what happens then is in `C213_early` and `C213_never`."
  },
  {
   "property": "C214",
   "status": "partial",
   "theorems": [
    "Flee.C214_false",
    "Flee.C214_partial",
    "Flee.C214_not_driven"
   ],
   "note": "False of the code in part: The rule compares the index of recent travel (flee.py:271-282), in which all earlier days count by halves, while the documentation speaks of the last two days: an agent can rest after 108 + 180 km in two days with a day's distance of 360 km (`C214_false`). Missing from the full claim: the last two days alone, for which it is false (`C214_false`)."
  },
  {
   "property": "C215",
   "status": "proved",
   "theorems": [
    "Flee.C215_covered",
    "Flee.C215_no_message",
    "Flee.C215_short"
   ],
   "note": ""
  },
  {
   "property": "C216",
   "status": "proved",
   "theorems": [
    "Flee.C216_independent",
    "Flee.C216_leaving",
    "Flee.C216_mean",
    "Flee.C216_below"
   ],
   "note": ""
  },
  {
   "property": "C217",
   "status": "proved",
   "theorems": [
    "Flee.C217_share",
    "Flee.C217_independent",
    "Flee.C217_starts",
    "Flee.C217_mean",
    "Flee.C217_not_unique"
   ],
   "note": ""
  },
  {
   "property": "C218",
   "status": "proved",
   "theorems": [
    "Flee.C218_independent",
    "Flee.C218_each",
    "Flee.C218_mean"
   ],
   "note": ""
  },
  {
   "property": "C219",
   "status": "proved",
   "theorems": [
    "Flee.C219_choice",
    "Flee.C219_share",
    "Flee.C219_heads"
   ],
   "note": ""
  },
  {
   "property": "C220",
   "status": "partial",
   "theorems": [
    "Flee.C220_override_partial",
    "Flee.C220_override_false"
   ],
   "note": "False of the code in part: DataTable.py:285-303. `override_input` says that the totals of the data are not used as input any more, but the lines that used the separate file are commented out (339-341). The file is one more column, so that its arrivals come on top of those in the camps. Missing from the full claim: that the arrivals are the change in the file (`C220_override_false`)."
  },
  {
   "property": "C221",
   "status": "proved",
   "theorems": [
    "Flee.C221_day",
    "Flee.C221_product",
    "Flee.C221_geometric",
    "Flee.C221_rest",
    "Flee.C221_run"
   ],
   "note": ""
  },
  {
   "property": "C222",
   "status": "proved",
   "theorems": [
    "Flee.C222_waiting",
    "Flee.C222_mean",
    "Flee.C222_evenings"
   ],
   "note": ""
  },
  {
   "property": "C223",
   "status": "proved",
   "theorems": [
    "Flee.C223_binomial",
    "Flee.C223_mean"
   ],
   "note": ""
  },
  {
   "property": "C224",
   "status": "partial",
   "theorems": [
    "Flee.C224_weights_partial",
    "Flee.C224_late",
    "Flee.C224_turn",
    "Flee.C224_ninety",
    "Flee.C224_false"
   ],
   "note": "False of the code in part: The decay of spawn weights comes one day late: the weights used on a day were computed in `evolve` on the day before (flee.py:1642, run.py:75-77 refreshes after spawning), unless a conflict zone is added or removed on the day. With the documented list and interval the weight is halved 91, not 90 days after the conflict began (docs/Simulation_settings_advanced.md:93); the start of a conflict elsewhere makes it come on time. For the same reason a conflict zone that location_changes.csv turns into a town or camp still has its weight for that day, so agents appear in it. Missing from the full claim: that they are always those of the day, which is false."
  },
  {
   "property": "C225",
   "status": "partial",
   "theorems": [
    "Flee.C225_partial",
    "Flee.C225_other",
    "Flee.C225_unread",
    "Flee.C225_false"
   ],
   "note": "False of the code in part: Undocumented keys decide runs: `camps_are_sicks` (a misspelling of the documented key, SimulationSettings.py:146), `use_v1_rules`, `pruning_threshold`, `ChildrenAvoidHazards`, `BoysTakeRisk` and the three `Match…Ethnicity`. The documented keys `camps_are_sinks`, `max_crossing_speed` and `max_flood_level` never have an influence on a run. Missing from the full claim: that the keys in `unlisted`, which are not documented, have no influence; they do."
  },
  {
   "property": "C226",
   "status": "partial",
   "theorems": [
    "Flee.C226_exit",
    "Flee.C226_unmentioned",
    "Flee.C226_false",
    "Flee.C226_stops",
    "Flee.C226_partial"
   ],
   "note": "False of the code in part: A settings file written as on the page on floods makes the program exit: the page does not turn off `conflict_zone_spawning_only`, which is on by default and excludes `flood_zone_spawning_only` (SimulationSettings.py:136-143). With that line added, the tables are still not found, because they are read from a section `flood_rules` that the page does not mention (298), and the first agent in a place under water makes the program fail. The key `flood_spawn_mode` of the page is not read; the code reads `spawn_mode` (193). Missing from the full claim: that this is what comes of the file that the page asks for."
  },
  {
   "property": "C227",
   "status": "partial",
   "theorems": [
    "Flee.C227_partial",
    "Flee.C227_plan",
    "Flee.C227_false"
   ],
   "note": "False of the code in part: An agent that spends a night on its way keeps its plan (flee.py:187). The next day it can go on by another route than an agent that sets out from there for the same destination, since a route is the best one within the awareness level of the place where it was planned. Missing from the full claim: agents that spend a night at a place on their way and go on with a plan from an earlier day (`C227_false`)."
  },
  {
   "property": "C228",
   "status": "partial",
   "theorems": [
    "Flee.C228_partial",
    "Flee.C228_false",
    "Flee.C228_names"
   ],
   "note": "False of the code in part: In the style `pep440-post` a commit without a tag is described as `0.postDISTANCE[.dev0]` (flee/_version.py:364), but `+gHEX` is added to it (line 379). Missing from the full claim: commits without a tag in the style `pep440-post`."
  },
  {
   "property": "C229",
   "status": "partial",
   "theorems": [
    "Flee.C229_partial",
    "Flee.C229_powers",
    "Flee.C229_false"
   ],
   "note": "False of the code in part: With fixed routes the power applies to the score per distance, and the result is multiplied by the score of the destination (moving.py:493). A far camp that is the best choice without a power can become the worse one with a larger power. Missing from the full claim: fixed routes, whose weights are powers times the score of the destination."
  },
  {
   "property": "C230",
   "status": "partial",
   "theorems": [
    "Flee.C230_equation",
    "Flee.C230_base",
    "Flee.C230_partial",
    "Flee.C230_false"
   ],
   "note": "False of the code in part: What is scaled with is the larger one of population and capacity (moving.py:346). A place with fewer people but a larger capacity has the higher chance. Missing from the full claim: a location with fewer people but a larger capacity."
  },
  {
   "property": "C231",
   "status": "partial",
   "theorems": [
    "Flee.C231_texts",
    "Flee.C231_partial",
    "Flee.C231_false"
   ],
   "note": "False of the code in part: Values are converted with `bool(…)` (SimulationSettings.py:131-150), so that every text but the empty one, also `\"False\"` and `\"no\"` in quotation marks, turns the setting on. Missing from the full claim: texts, as with the word in quotation marks; they turn the setting on, see `C231_texts`."
  },
  {
   "property": "C232",
   "status": "proved",
   "theorems": [
    "Flee.C232_shorthand"
   ],
   "note": ""
  },
  {
   "property": "C233",
   "status": "proved",
   "theorems": [
    "Flee.C233_accepted"
   ],
   "note": ""
  },
  {
   "property": "C234",
   "status": "partial",
   "theorems": [
    "Flee.C234_needs",
    "Flee.C234_false",
    "Flee.C234_partial",
    "Flee.C234_swap",
    "Flee.C234_same"
   ],
   "note": "False of the code in part: compare_out.py has the names of ten camps written into it: output that lacks one of them is never compared, it stops with a missing column (`C234_needs`, `C234_false`). Missing from the full claim: output without one of the ten camps."
  },
  {
   "property": "C235",
   "status": "partial",
   "theorems": [
    "Flee.C235_short",
    "Flee.C235_silent",
    "Flee.C235_false",
    "Flee.C235_twice_false",
    "Flee.C235_partial"
   ],
   "note": "False of the code in part: coupling.py:917 loads a log with one row (a run of one day) or with one column (no location sends agents) as a plain list, and the next lines raise an IndexError (`C235_short`, `C235_silent`, `C235_false`). A location that is coupled twice has two columns but one heading, so that the next location is drawn with its numbers (`C235_twice_false`). Missing from the full claim: runs of one day, and locations coupled twice."
  },
  {
   "property": "C236",
   "status": "partial",
   "theorems": [
    "Flee.C236_false",
    "Flee.C236_partial",
    "Flee.C236_shares",
    "Flee.C236_figures",
    "Flee.C236_space"
   ],
   "note": "False of the code in part: Differences are rounded to four digits before they are added and divided, so that a third becomes 0.33334 (`C236_false`). Missing from the full claim: the exact rescaled numbers."
  },
  {
   "property": "C237",
   "status": "partial",
   "theorems": [
    "Flee.C237_false",
    "Flee.C237_partial",
    "Flee.C237_agree",
    "Flee.C237_order",
    "Flee.C237_program",
    "Flee.C237_space"
   ],
   "note": "False of the code in part: The mean need not lie within the band: of eleven runs ten leave a camp empty and one brings eleven people, then the mean is 1 and the band is 0 (`C237_false`). Missing from the full claim: that the mean lies within the band."
  },
  {
   "property": "C238",
   "status": "partial",
   "theorems": [
    "Flee.C238_false",
    "Flee.C238_partial"
   ],
   "note": "False of the code in part: If the name of the region occurs in the path of a run but not in its folder, for instance because all runs lie below a folder with that name, `index` raises a ValueError and nothing is drawn (`C238_false`). Missing from the full claim: runs below a folder with the name of the region."
  },
  {
   "property": "C239",
   "status": "partial",
   "theorems": [
    "Flee.C239_false",
    "Flee.C239_partial",
    "Flee.C239_single",
    "Flee.C239_order",
    "Flee.C239_sums"
   ],
   "note": "False of the code in part: The program averages the runs before it compares them with the data. Errors in opposite directions cancel, so that an ensemble can be reported without any error though all its runs are wrong (`C239_false`). Missing from the full claim: equality if they are not, which is false, see `C239_false`."
  },
  {
   "property": "C240",
   "status": "partial",
   "theorems": [
    "Flee.C240_space",
    "Flee.C240_idps",
    "Flee.C240_false",
    "Flee.C240_partial",
    "Flee.C240_words"
   ],
   "note": "False of the code in part: The program takes the first word of a heading for the name of a camp. If it is no camp, the program ends with a KeyError (`C240_false`, `C240_space`); if it is, the camp with the longer name is left out without a message (`C240_words`). It also assumes that six columns follow those of the camps; with numbers of displaced people there are seven, and it ends with a KeyError (`C240_idps`). Missing from the full claim: names of several words, and output with numbers of displaced people."
  },
  {
   "property": "C241",
   "status": "partial",
   "theorems": [
    "Flee.C241_short",
    "Flee.C241_false",
    "Flee.C241_partial",
    "Flee.C241_last"
   ],
   "note": "False of the code in part: Locations are kept by their names and colours by their rows. If a name occurs twice, all later colours are those of other locations (`C241_false`, `C241_short`). Missing from the full claim: several rows with the same name."
  },
  {
   "property": "C242",
   "status": "partial",
   "theorems": [
    "Flee.C242_false",
    "Flee.C242_partial"
   ],
   "note": "False of the code in part: The simulation looks for `camp` or `town` inside a type, the map compares whole types: `refugee_camp` is a camp of the simulation but black in the map (`C242_false`). Missing from the full claim: types that only contain one of the words."
  },
  {
   "property": "C243",
   "status": "proved",
   "theorems": [
    "Flee.C243_folder",
    "Flee.C243_here",
    "Flee.C243_apart"
   ],
   "note": ""
  },
  {
   "property": "C244",
   "status": "partial",
   "theorems": [
    "Flee.C244_false",
    "Flee.C244_partial",
    "Flee.C244_cells",
    "Flee.C244_named"
   ],
   "note": "False of the code in part: Names and values are written without quotation marks (Diagnostics.py:99-115), so that a comma in the name of a place moves all later cells of its lines (`C244_false`). The order of attributes is the subject of C148. Missing from the full claim: texts with commas in them."
  }
 ]
}