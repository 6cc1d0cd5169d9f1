{
 "claims": [
  {
   "property": "C01",
   "status": "proved",
   "theorems": [
    "Verif.c01_update_only_while_started"
   ],
   "note": "Every history of requests on one controller object."
  },
  {
   "property": "C02",
   "status": "proved",
   "theorems": [
    "Verif.c02_inert_until_initialised",
    "Verif.c02_responsive_once_initialised"
   ],
   "note": "Every history of requests before the first successful init."
  },
  {
   "property": "C03",
   "status": "proved",
   "theorems": [
    "Verif.c03_state_is_last_transition",
    "Verif.c03_predicates_exclusive"
   ],
   "note": "State after any history equals the last accepted transition."
  },
  {
   "property": "C04",
   "status": "proved",
   "theorems": [
    "Verif.c04_claims_exact",
    "Verif.c04_claims_exact_multi",
    "Verif.c04_failure_reports_nothing",
    "Verif.c04_failure_reports_nothing_multi",
    "Verif.c04_called",
    "Verif.c04_called_multi"
   ],
   "note": "Both initRequest templates; any prior claims, any look-ups by user code."
  },
  {
   "property": "C05",
   "status": "proved",
   "theorems": [
    "Verif.c05_running_conflict_free",
    "Verif.c05_no_shared_resource",
    "Verif.c05_any_hereditary_check"
   ],
   "note": "Every reachable manager state (whole calls, iterations of wait loops and updates interleaved); also for any conflict check that is inherited by subsets."
  },
  {
   "property": "C06",
   "status": "proved",
   "theorems": [
    "Verif.c06_refused_no_effect",
    "Verif.c06_refused_same_future",
    "Verif.c06_refused_nothing_later"
   ],
   "note": "Refused request: same future behaviour as if never made, no callbacks."
  },
  {
   "property": "C07",
   "status": "proved",
   "theorems": [
    "Verif.c07_strict_accept_iff",
    "Verif.c07_best_effort_accept_iff"
   ],
   "note": "Iff for STRICT, and the exact rule for BEST_EFFORT."
  },
  {
   "property": "C08",
   "status": "proved",
   "theorems": [
    "Verif.c08_unknown_names_ignored",
    "Verif.c08_zero_is_best_effort"
   ],
   "note": "Equality of resulting states."
  },
  {
   "property": "C09",
   "status": "proved",
   "theorems": [
    "Verif.c09_hardware_lists_exact"
   ],
   "note": "Lists passed to prepareSwitch."
  },
  {
   "property": "C10",
   "status": "proved",
   "theorems": [
    "Verif.c10_atomic_switch"
   ],
   "note": "Trace and set of running controllers of the update in which the hardware is done."
  },
  {
   "property": "C11",
   "status": "proved",
   "theorems": [
    "Verif.c11_doSwitch_once_and_first",
    "Verif.c11_true_reply_after_doSwitch"
   ],
   "note": "Every trace of every reachable state."
  },
  {
   "property": "C12",
   "status": "proved",
   "theorems": [
    "Verif.c12_abort_has_cause",
    "Verif.c12_zero_timeout_waits"
   ],
   "note": "Every update after a request."
  },
  {
   "property": "C13",
   "status": "partial",
   "theorems": [
    "Verif.c13_true_reply_negation",
    "Verif.c13_true_reply_partial",
    "Verif.c13_true_reply_without_error"
   ],
   "note": "The code returns true for aborted switches (c13_true_reply_negation). Partial: the others; full statement proved when there is no timeout and no hardware error."
  },
  {
   "property": "C14",
   "status": "partial",
   "theorems": [
    "Verif.c14_false_reply_negation",
    "Verif.c14_false_reply_partial"
   ],
   "note": "The hardware's doSwitch may be called after a false reply (c14_false_reply_negation). Partial: nothing else happens."
  },
  {
   "property": "C15",
   "status": "proved",
   "theorems": [
    "Verif.c15_names_unique",
    "Verif.c15_objects_unique",
    "Verif.c15_state_known"
   ],
   "note": "Every reachable state."
  },
  {
   "property": "C16",
   "status": "proved",
   "theorems": [
    "Verif.c16_load_succeeds",
    "Verif.c16_load_fails"
   ],
   "note": "Success: exact listing, states and events at the return, for any behaviour in between; failure: same future."
  },
  {
   "property": "C17",
   "status": "proved",
   "theorems": [
    "Verif.c17_unload_succeeds",
    "Verif.c17_unload_fails",
    "Verif.c17_destroyed_not_running"
   ],
   "note": "Success, failure, and no object is destroyed while running (all traces)."
  },
  {
   "property": "C18",
   "status": "proved",
   "theorems": [
    "Verif.c18_not_listed_never_called",
    "Verif.c18_unloaded_never_called"
   ],
   "note": "All continuations."
  },
  {
   "property": "C19",
   "status": "proved",
   "theorems": [
    "Verif.c19_each_running_once_in_order"
   ],
   "note": "Events of every update."
  },
  {
   "property": "C20",
   "status": "proved",
   "theorems": [
    "Verif.c20_reset_restarts_running"
   ],
   "note": "Events and resulting state compared with the update without reset."
  },
  {
   "property": "C21",
   "status": "proved",
   "theorems": [
    "Verif.c21_listed_state_observed",
    "Verif.c21_listed_running_updated",
    "Verif.c21_listed_as_loaded"
   ],
   "note": "State string against observed callbacks; running entries against next update; type and claims against the load request."
  },
  {
   "property": "C22",
   "status": "proved",
   "theorems": [
    "Verif.c22_lookup_iff_listed",
    "Verif.c22_object_of_last_load"
   ],
   "note": "Lookup by name in every reachable state."
  },
  {
   "property": "C23",
   "status": "proved",
   "theorems": [
    "Verif.c23_reload_refused",
    "Verif.c23_reload_empty",
    "Verif.c23_forced_reload_empties"
   ],
   "note": "All histories after the reload request while ROS is up."
  },
  {
   "property": "C24",
   "status": "proved",
   "theorems": [
    "Verif.c24_first_loader",
    "Verif.c24_no_loader"
   ],
   "note": "Iff for the position of the loader used."
  },
  {
   "property": "C25",
   "status": "partial",
   "theorems": [
    "Verif.DoubleBuffer.c25_no_race_after_first_update_partial",
    "Verif.DoubleBuffer.c25_stable_published_list",
    "Verif.DoubleBuffer.c25_race_during_first_update_negation"
   ],
   "note": "All interleavings of single accesses once the first update has ended before the first service call; negation for the window of the first update."
  },
  {
   "property": "C26",
   "status": "proved",
   "theorems": [
    "Verif.DoubleBuffer.c26_two_updates_end_wait",
    "Verif.DoubleBuffer.c26_one_later_update_ends_wait",
    "Verif.DoubleBuffer.c26_free_list_available"
   ],
   "note": "Two further updates end any wait, from any state; one suffices if begun after publishing."
  },
  {
   "property": "C27",
   "status": "proved",
   "theorems": [
    "Verif.c27_conflict_iff",
    "Verif.c27_conflict_witness",
    "Verif.c27_order_independent",
    "Verif.c27_interface_order_independent"
   ],
   "note": "Default RobotHW::checkForConflict; iff with a counting specification."
  },
  {
   "property": "C28",
   "status": "proved",
   "theorems": [
    "Verif.c28_subgroup",
    "Verif.c28_fewer_claims",
    "Verif.c28_add_controller"
   ],
   "note": "Inheritance of conflict-freeness by sub-groups and smaller claims; exact condition for adding one."
  },
  {
   "property": "C29",
   "status": "proved",
   "theorems": [
    "Verif.c29_lookup",
    "Verif.c29_names"
   ],
   "note": "Every sequence of calls on one interface object."
  },
  {
   "property": "C30",
   "status": "proved",
   "theorems": [
    "Verif.c30_one_lookup",
    "Verif.c30_claims_history",
    "Verif.c30_claims_set"
   ],
   "note": "Every sequence of calls on one interface object, both claim policies."
  },
  {
   "property": "C31",
   "status": "proved",
   "theorems": [
    "Verif.c31_get_resource_manager",
    "Verif.c31_get_other",
    "Verif.c31_single_manager"
   ],
   "note": "Every sequence of registrations, first lookup."
  },
  {
   "property": "C32",
   "status": "partial",
   "theorems": [
    "Verif.c32_not_current_new_handle",
    "Verif.c32_not_current_replaced_interface",
    "Verif.c32_not_current_nested_manager",
    "Verif.c32_current_if_registered_first_partial",
    "Verif.c32_current_while_growing_partial",
    "Verif.c32_not_current_combination",
    "Verif.c32_repeated_lookup_same"
   ],
   "note": "The code returns a stale combination (four negations); holds if registrations precede lookups, and for interleaved histories in which new interfaces are further providers (c32_current_while_growing_partial)."
  },
  {
   "property": "C33",
   "status": "partial",
   "theorems": [
    "Verif.Combined.c33_filter_exact_partial",
    "Verif.Combined.c33_reaches_iff_partial",
    "Verif.Combined.c33_owner_iff_partial",
    "Verif.Combined.c33_only_owned",
    "Verif.Combined.c33_late_resource_negation"
   ],
   "note": "Exact split and membership iff in terms of the names the sub-hardware reports; owner iff in terms of registered interfaces if interfaces are registered complete. In full false: c33_late_resource_negation."
  },
  {
   "property": "C34",
   "status": "proved",
   "theorems": [
    "Verif.Combined.c34_conjunction",
    "Verif.Combined.c34_asked"
   ],
   "note": ""
  },
  {
   "property": "C35",
   "status": "proved",
   "theorems": [
    "Verif.Combined.c35_doSwitch",
    "Verif.Combined.c35_read_write",
    "Verif.Combined.c35_same_as_prepared"
   ],
   "note": "c35_same_as_prepared needs no set hypothesis."
  },
  {
   "property": "C36",
   "status": "partial",
   "theorems": [
    "Verif.Combined.c36_switch_result_negation",
    "Verif.Combined.c36_started_early_negation",
    "Verif.Combined.c36_done_partial"
   ],
   "note": "False in the code (c36_switch_result_negation, c36_started_early_negation); what remains is that done parts are reported done."
  },
  {
   "property": "C37",
   "status": "proved",
   "theorems": [
    "Verif.Combined.c37_result",
    "Verif.Combined.c37_kept",
    "Verif.Combined.c37_interfaces"
   ],
   "note": ""
  },
  {
   "property": "C38",
   "status": "proved",
   "theorems": [
    "Verif.Limits.c38_saturate",
    "Verif.Limits.c38_idempotent",
    "Verif.Limits.c38_monotone",
    "Verif.Limits.c38_degenerate"
   ],
   "note": "Any linear order; idempotence for all doubles."
  },
  {
   "property": "C39",
   "status": "partial",
   "theorems": [
    "Verif.Limits.c39_double_partial",
    "Verif.Limits.c39_history_partial",
    "Verif.Limits.c39_all_calls",
    "Verif.Limits.c39_reference",
    "Verif.Limits.c39_nan_negation",
    "Verif.Limits.c39_exact_partial",
    "Verif.Limits.c39_any_start",
    "Verif.Limits.c39_start_needed"
   ],
   "note": "Every history, for any arithmetic with monotone rounding and exactly; NaN commands are passed on (c39_nan_negation)."
  },
  {
   "property": "C40",
   "status": "partial",
   "theorems": [
    "Verif.Limits.c40_double_partial",
    "Verif.Limits.c40_velocity_partial",
    "Verif.Limits.c40_all_calls",
    "Verif.Limits.c40_hard_limits_partial",
    "Verif.Limits.c40_pulls_back",
    "Verif.Limits.c40_hard_limits_negation",
    "Verif.Limits.c40_excess_partial",
    "Verif.Limits.c40_reached_negation",
    "Verif.Limits.c40_exactly_when_partial"
   ],
   "note": "Exact arithmetic, every history. Velocity bound always; hard limits only if gain*period <= 1 (c40_hard_limits_negation otherwise); c40_exactly_when_partial says exactly when they are left."
  },
  {
   "property": "C41",
   "status": "partial",
   "theorems": [
    "Verif.Limits.c41_effort_saturation_partial",
    "Verif.Limits.c41_only_for_a_reason",
    "Verif.Limits.c41_at_the_limit_negation",
    "Verif.Limits.c41_nan_negation"
   ],
   "note": "Any arithmetic. Strictly beyond the limits; at the limit itself outward effort is allowed (c41_at_the_limit_negation); NaN commands are passed on."
  },
  {
   "property": "C42",
   "status": "partial",
   "theorems": [
    "Verif.Limits.c42_double_partial",
    "Verif.Limits.c42_effort_soft_partial",
    "Verif.Limits.c42_transparent",
    "Verif.Limits.c42_nan_negation"
   ],
   "note": "Exact arithmetic. NaN states switch the limiter off (c42_nan_negation)."
  },
  {
   "property": "C43",
   "status": "partial",
   "theorems": [
    "Verif.Limits.c43_double_partial",
    "Verif.Limits.c43_history_partial",
    "Verif.Limits.c43_no_acceleration",
    "Verif.Limits.c43_nan_negation",
    "Verif.Limits.c43_exact_partial",
    "Verif.Limits.c43_any_history_partial",
    "Verif.Limits.c43_lasting_negation",
    "Verif.Limits.c43_forever_negation"
   ],
   "note": "Every history without NaN commands, any arithmetic with monotone rounding; a NaN command lets the next one through (c43_nan_negation) and may do harm long after (c43_lasting_negation); c43_any_history_partial says exactly what happens in histories with NaN commands."
  },
  {
   "property": "C44",
   "status": "partial",
   "theorems": [
    "Verif.Limits.c44_double_partial",
    "Verif.Limits.c44_velocity_soft_partial",
    "Verif.Limits.c44_without_acceleration",
    "Verif.Limits.c44_acceleration_up",
    "Verif.Limits.c44_acceleration_negation",
    "Verif.Limits.c44_exceeds_partial",
    "Verif.Limits.c44_brakes"
   ],
   "note": "Full statement without acceleration limits; with them the lower side fails (c44_acceleration_negation), exactly if the measured velocity plus the maximal acceleration is still below -max_velocity (c44_exceeds_partial)."
  },
  {
   "property": "C45",
   "status": "proved",
   "theorems": [
    "Verif.Limits.c45_idempotent",
    "Verif.Limits.c45_position_saturation",
    "Verif.Limits.c45_position_soft",
    "Verif.Limits.c45_velocity_saturation",
    "Verif.Limits.c45_velocity_soft"
   ],
   "note": "Each limiter; idempotence for all doubles."
  },
  {
   "property": "C46",
   "status": "proved",
   "theorems": [
    "Verif.Transmission.c46_actuator_round_trip",
    "Verif.Transmission.c46_joint_round_trip",
    "Verif.Transmission.c46_aliasing_negation"
   ],
   "note": "Exact arithmetic; C98 is the version for doubles."
  },
  {
   "property": "C47",
   "status": "partial",
   "theorems": [
    "Verif.Transmission.c47_power_partial",
    "Verif.Transmission.c47_four_bar_partial",
    "Verif.Transmission.c47_four_bar_negation",
    "Verif.Transmission.c47_either_way_partial",
    "Verif.Transmission.c47_no_four_bar_negation"
   ],
   "note": "Partial: simple and differential transmissions conserve power; the four-bar linkage does not (c47_four_bar_negation), c47_four_bar_partial gives the exact difference."
  },
  {
   "property": "C48",
   "status": "proved",
   "theorems": [
    "Verif.Transmission.c48_simple",
    "Verif.Transmission.c48_two",
    "Verif.Transmission.c48_default",
    "Verif.Transmission.c48_parameters"
   ],
   "note": "For any representation of numbers; a NaN reduction counts as not zero and is accepted (example)."
  },
  {
   "property": "C49",
   "status": "partial",
   "theorems": [
    "Verif.Transmission.c49_constructor",
    "Verif.Transmission.c49_propagate_partial",
    "Verif.Transmission.c49_missing_negation",
    "Verif.Transmission.c49_torque_negation"
   ],
   "note": "Partial: propagate touches missing data exactly if the data the kind needs are incomplete; the constructor does not ensure completeness (c49_missing_negation) nor check the size of the actuator torque sensor data (c49_torque_negation)."
  },
  {
   "property": "C50",
   "status": "proved",
   "theorems": [
    "Verif.Transmission.c50_well_formed",
    "Verif.Transmission.c50_exactly_the_proper_ones",
    "Verif.Transmission.c50_malformed_no_effect",
    "Verif.Transmission.c50_no_root_negation"
   ],
   "note": "c50_well_formed and c50_exactly_the_proper_ones: the result is exactly one well-formed entry per element that describes a transmission, in order; c50_malformed_no_effect: a malformed element changes nothing. c50_no_root_negation: a document without root element is dereferenced through a null pointer."
  },
  {
   "property": "C51",
   "status": "partial",
   "theorems": [
    "Verif.Transmission.c51_parameters_partial",
    "Verif.Transmission.c51_numbers_by_role_partial",
    "Verif.Transmission.c51_role_order_partial",
    "Verif.Transmission.c51_negation"
   ],
   "note": "The parameters never depend on the order, and descriptions in role order pair each number with its own element. In another order the code pairs them wrongly (c51_negation)."
  },
  {
   "property": "C52",
   "status": "partial",
   "theorems": [
    "Verif.Limits.c52_specified",
    "Verif.Limits.c52_disabled",
    "Verif.Limits.c52_untouched",
    "Verif.Limits.c52_wraparound",
    "Verif.Limits.c52_result",
    "Verif.Limits.c52_again",
    "Verif.Limits.c52_soft_partial",
    "Verif.Limits.c52_soft_result",
    "Verif.Limits.c52_soft_type_negation",
    "Verif.Limits.c52_soft_flag_negation"
   ],
   "note": "Soft limits: taken if the flag and four numbers are there (c52_soft_partial, c52_soft_result); missing: values that are no numbers, and the undocumented flag (negations)."
  },
  {
   "property": "C53",
   "status": "partial",
   "theorems": [
    "Verif.Tools.c53_resources_partial",
    "Verif.Tools.c53_empty_negation"
   ],
   "note": "Missing: an empty list of resources, which raises UnboundLocalError (c53_empty_negation)."
  },
  {
   "property": "C54",
   "status": "partial",
   "theorems": [
    "Verif.c54_shutdown_partial",
    "Verif.c54_undisturbed",
    "Verif.c54_cleanup_negation",
    "Verif.c54_interrupted_partial",
    "Verif.c54_interrupted_negation"
   ],
   "note": "Proved: what the shutdown does in every state, and that it restores the listing if nobody interferes. Missing: removal of all loaded controllers in every state, which is false (c54_cleanup_negation)."
  },
  {
   "property": "C55",
   "status": "partial",
   "theorems": [
    "Verif.c55_listing_partial",
    "Verif.c55_listed_iff_partial",
    "Verif.c55_sound",
    "Verif.c55_late_resource_negation"
   ],
   "note": "Holds if no resource is added to a registered interface; otherwise false (c55_late_resource_negation), but what is listed is always there (c55_sound)."
  },
  {
   "property": "C56",
   "status": "proved",
   "theorems": [
    "Verif.c56_no_dangling_pointer",
    "Verif.c56_requests_loaded",
    "Verif.c56_dangling_during_shutdown"
   ],
   "note": "Reachable with ROS up; witness of the dangling pointer if ROS shuts down during the wait loop."
  },
  {
   "property": "C57",
   "status": "partial",
   "theorems": [
    "Verif.Race.c57_running_conflict_free_partial",
    "Verif.Race.c57_plain",
    "Verif.Race.c57_restart_race_negation"
   ],
   "note": "All interleavings that avoid the three overlaps named in carefulRun; negation for a validation during a restart."
  },
  {
   "property": "C58",
   "status": "partial",
   "theorems": [
    "Verif.Race.c58_request_lists_not_shared_partial",
    "Verif.Race.c58_give_up_negation"
   ],
   "note": "Same conditions; negation if the wall-clock limit is reached during the starts."
  },
  {
   "property": "C59",
   "status": "partial",
   "theorems": [
    "Verif.Race.c59_true_reply_partial",
    "Verif.Race.c59_names",
    "Verif.Race.c59_only_finished",
    "Verif.Race.c59_concurrent_call_negation",
    "Verif.Race.c59_whole_update",
    "Verif.Race.c59_answered"
   ],
   "note": "Same conditions; negation for a second direct call that resets the parameters before it takes the lock."
  },
  {
   "property": "C60",
   "status": "proved",
   "theorems": [
    "Verif.c60_bounded_wait"
   ],
   "note": "For every accepted switch from an idle state, any activity in between while ROS is up."
  },
  {
   "property": "C61",
   "status": "proved",
   "theorems": [
    "Verif.c61_interface_names"
   ],
   "note": "For all histories of registrations and lookups."
  },
  {
   "property": "C62",
   "status": "proved",
   "theorems": [
    "Verif.Transmission.c62_velocity_of_position",
    "Verif.Transmission.c62_offset",
    "Verif.Transmission.c62_torque_sensor",
    "Verif.Transmission.c62_absolute_position",
    "Verif.Transmission.c62_default",
    "Verif.Transmission.c62_ignore_swaps"
   ],
   "note": "Exact arithmetic. A differential transmission that ignores the reductions for absolute encoders swaps the two values (c62_ignore_swaps)."
  },
  {
   "property": "C63",
   "status": "proved",
   "theorems": [
    "Verif.Transmission.c63_each_handle",
    "Verif.Transmission.c63_order",
    "Verif.Transmission.c63_frame"
   ],
   "note": "For all kinds of handles; handles are separate if none writes a cell another one has a pointer to."
  },
  {
   "property": "C64",
   "status": "partial",
   "theorems": [
    "Verif.Transmission.Loader.c64_returns_partial",
    "Verif.Transmission.Loader.c64_ways_to_fail",
    "Verif.Transmission.Loader.c64_document_partial",
    "Verif.Transmission.Loader.c64_null_text_negation",
    "Verif.Transmission.Loader.c64_own_state_negation"
   ],
   "note": "Robots with a joint state interface of their own and number elements without text are excluded; for both the negation is proved."
  },
  {
   "property": "C65",
   "status": "proved",
   "theorems": [
    "Verif.Transmission.Loader.c65_propagates",
    "Verif.Transmission.Loader.c65_transmissions_kept"
   ],
   "note": ""
  },
  {
   "property": "C66",
   "status": "partial",
   "theorems": [
    "Verif.Transmission.Loader.c66_connected_partial",
    "Verif.Transmission.Loader.c66_stay_connected",
    "Verif.Transmission.Loader.c66_handles_stay",
    "Verif.Transmission.Loader.c66_own_command_negation",
    "Verif.Transmission.Loader.c66_same_name_negation"
   ],
   "note": "Robots with joint interfaces of their own and repeated transmission names are excluded; for both a negation is proved."
  },
  {
   "property": "C67",
   "status": "partial",
   "theorems": [
    "Verif.Transmission.Loader.c67_joints_apart",
    "Verif.Transmission.Loader.c67_within_joint",
    "Verif.Transmission.Loader.c67_separate_partial",
    "Verif.Transmission.Loader.c67_shared_joint_negation"
   ],
   "note": "Transmissions sharing a joint are excluded; the negation is proved."
  },
  {
   "property": "C68",
   "status": "partial",
   "theorems": [
    "Verif.Transmission.Loader.c68_returns_true",
    "Verif.Transmission.Loader.c68_failure_no_effect_partial",
    "Verif.Transmission.Loader.c68_first_failure",
    "Verif.Transmission.Loader.c68_document",
    "Verif.Transmission.Loader.c68_own_state_negation"
   ],
   "note": "Robots with a joint state interface of their own are excluded; for them the negation is proved (c68_own_state_negation)."
  },
  {
   "property": "C69",
   "status": "partial",
   "theorems": [
    "Verif.Limits.c69_urdf_partial",
    "Verif.Limits.c69_no_limits",
    "Verif.Limits.c69_soft",
    "Verif.Limits.c69_handles",
    "Verif.Limits.c69_acceleration_negation",
    "Verif.Limits.c69_order"
   ],
   "note": "Missing: acceleration limits, which the URDF does not specify, are dropped (c69_acceleration_negation)."
  },
  {
   "property": "C70",
   "status": "proved",
   "theorems": [
    "Verif.Tools.c70_attributes",
    "Verif.Tools.c70_interface"
   ],
   "note": ""
  },
  {
   "property": "C71",
   "status": "proved",
   "theorems": [
    "Verif.Tools.c71_configurations"
   ],
   "note": ""
  },
  {
   "property": "C72",
   "status": "partial",
   "theorems": [
    "Verif.Tools.c72_managers_partial",
    "Verif.Tools.c72_guess",
    "Verif.Tools.c72_no_master",
    "Verif.Tools.is.c72_duplicate_negation",
    "Verif.Tools.is.c72_missed_negation",
    "Verif.Tools.is.c72_stale_negation"
   ],
   "note": "Sound and complete for namespaces not containing /list_controllers; repetitions, such namespaces and stale guesses are shown by the negations."
  },
  {
   "property": "C73",
   "status": "proved",
   "theorems": [
    "Verif.c73_call",
    "Verif.c73_history",
    "Verif.c73_deterministic"
   ],
   "note": "Refinement of the manager model to a sequential specification on listings, for whole service calls with arbitrary control cycles in between."
  },
  {
   "property": "C74",
   "status": "proved",
   "theorems": [
    "Verif.c74_stops",
    "Verif.c74_restores",
    "Verif.c74_restart_negation"
   ],
   "note": "Holds if nobody interferes; the restart is all or nothing (c74_restart_negation)."
  },
  {
   "property": "C75",
   "status": "proved",
   "theorems": [
    "Verif.c75_restore",
    "Verif.c75_forced",
    "Verif.c75_not_forced",
    "Verif.c75_restart_negation"
   ],
   "note": "Also shows that starting() is called on running controllers without force (c75_restart_negation)."
  },
  {
   "property": "C76",
   "status": "proved",
   "theorems": [
    "Verif.c76_switch_group",
    "Verif.c76_switch_fails",
    "Verif.c76_spawn",
    "Verif.c76_help_negation"
   ],
   "note": "The help text of spawn is wrong (c76_help_negation)."
  },
  {
   "property": "C77",
   "status": "proved",
   "theorems": [
    "Verif.c77_start_stop",
    "Verif.c77_answer"
   ],
   "note": ""
  },
  {
   "property": "C78",
   "status": "proved",
   "theorems": [
    "Verif.Limits.c78_constructor",
    "Verif.Limits.c78_only_specified",
    "Verif.Limits.c78_needed"
   ],
   "note": "full"
  },
  {
   "property": "C79",
   "status": "proved",
   "theorems": [
    "Verif.Limits.c79_each_joint",
    "Verif.Limits.c79_assertions",
    "Verif.Limits.c79_histories",
    "Verif.Limits.c79_reset_handle_negation",
    "Verif.Limits.c79_position_limits"
   ],
   "note": "full. Also shown: handles fetched by name are copies, so resetting one has no effect on the joint (negation)"
  },
  {
   "property": "C80",
   "status": "partial",
   "theorems": [
    "Verif.Handles.c80_constructors",
    "Verif.Handles.c80_state",
    "Verif.Handles.c80_commands_partial",
    "Verif.Handles.c80_command_state",
    "Verif.Handles.c80_empty_state_negation"
   ],
   "note": "partial: the state of a command handle made of a default constructed state handle cannot be read (c80_empty_state_negation); c80_command_state says exactly when it can."
  },
  {
   "property": "C81",
   "status": "proved",
   "theorems": [
    "Verif.Handles.c81_registers",
    "Verif.Handles.c81_read_back"
   ],
   "note": ""
  },
  {
   "property": "C82",
   "status": "partial",
   "theorems": [
    "Verif.c82_single_writer_partial",
    "Verif.c82_handover",
    "Verif.c82_only_its_calls",
    "Verif.c82_update_independent",
    "Verif.c82_joint_commands",
    "Verif.c82_shared_writers_negation"
   ],
   "note": "Partial: proved for interfaces that claim resources. Interfaces with setters that do not claim (JointMode, actuator commands) are shared: c82_shared_writers_negation."
  },
  {
   "property": "C83",
   "status": "proved",
   "theorems": [
    "Verif.c83_load",
    "Verif.c83_unload",
    "Verif.c83_stop",
    "Verif.c83_kill",
    "Verif.c83_start",
    "Verif.c83_spawn",
    "Verif.c83_reload",
    "Verif.c83_other"
   ],
   "note": ""
  },
  {
   "property": "C84",
   "status": "proved",
   "theorems": [
    "Verif.Gui.c84_combo",
    "Verif.Gui.c84_selection",
    "Verif.Gui.c84_requests",
    "Verif.Gui.c84_menu",
    "Verif.Gui.c84_menu_closes"
   ],
   "note": ""
  },
  {
   "property": "C85",
   "status": "proved",
   "theorems": [
    "Verif.Gui.c85_table",
    "Verif.Gui.c85_select",
    "Verif.Gui.c85_no_exception",
    "Verif.Gui.c85_restore"
   ],
   "note": ""
  },
  {
   "property": "C86",
   "status": "partial",
   "theorems": [
    "Verif.Gui.c86_menu_partial",
    "Verif.Gui.c86_rows_partial",
    "Verif.Gui.c86_state_negation",
    "Verif.Gui.c86_stop_unload",
    "Verif.Gui.c86_load_start"
   ],
   "note": "Proved for the states the front end knows (running, stopped, initialized, uninitialized); waiting and aborted controllers have no icon and no menu (c86_state_negation)."
  },
  {
   "property": "C87",
   "status": "partial",
   "theorems": [
    "Verif.Gui.c87_alive_partial",
    "Verif.Gui.c87_chosen_partial",
    "Verif.Gui.c87_restart_negation"
   ],
   "note": "Proved while no manager is restarted under the same name, or for proxies not used before; c87_restart_negation for the rest."
  },
  {
   "property": "C88",
   "status": "proved",
   "theorems": [
    "Verif.c88_loaded",
    "Verif.c88_started"
   ],
   "note": ""
  },
  {
   "property": "C89",
   "status": "proved",
   "theorems": [
    "Verif.c89_answered",
    "Verif.c89_timeout",
    "Verif.c89_unsettled",
    "Verif.c89_no_update",
    "Verif.c89_spawner",
    "Verif.c89_tool",
    "Verif.c89_unspawner",
    "Verif.c89_group"
   ],
   "note": ""
  },
  {
   "property": "C90",
   "status": "partial",
   "theorems": [
    "Verif.Inter.c90_atomic_partial",
    "Verif.Inter.c90_patient",
    "Verif.Inter.c90_exclusive",
    "Verif.Inter.c90_calls",
    "Verif.Inter.c90_restart_negation"
   ],
   "note": "Proved for executions in which service operations do not interfere with an update that is doing a switch or is between stop and start of a restart; this holds by itself if time limits are not exceeded and controllers are not reset (c90_patient). Unload during a restart is a counterexample (c90_restart_negation); the limits of C25 (first update) and C58 (time limit) apply."
  },
  {
   "property": "C91",
   "status": "proved",
   "theorems": [
    "Verif.Cycle.c91_completes",
    "Verif.Cycle.c91_free_joints",
    "Verif.Cycle.c91_position",
    "Verif.Cycle.c91_closed_loop",
    "Verif.Cycle.c91_velocity",
    "Verif.Cycle.c91_effort",
    "Verif.Cycle.c91_soft_velocity",
    "Verif.Cycle.c91_start_negation"
   ],
   "note": "Exact arithmetic, positive periods, numbers (no NaN) from sensors and controllers; the robot is wired as in the documentation. Position limits need the joint to be in range at the first cycle and at resets (c91_start_negation shows why)."
  },
  {
   "property": "C92",
   "status": "partial",
   "theorems": [
    "Verif.c92_alternation_partial",
    "Verif.c92_stopping",
    "Verif.c92_running_negation"
   ],
   "note": "proved for requests that do not start a running controller or one controller twice (automatic for as-soon-as-possible requests and STRICT requests without repeated names); the part about update(), stopping() and destruction without conditions; negation for the rest"
  },
  {
   "property": "C93",
   "status": "proved",
   "theorems": [
    "Verif.Plug.c93_listing",
    "Verif.Plug.c93_listed_loadable",
    "Verif.Plug.c93_unlisted_fails",
    "Verif.Plug.c93_changes",
    "Verif.Plug.c93_reload_empty",
    "Verif.Plug.c93_no_orphan",
    "Verif.Plug.c93_types_listed",
    "Verif.Plug.c93_generation",
    "Verif.Plug.c93_base_classes"
   ],
   "note": ""
  },
  {
   "property": "C94",
   "status": "partial",
   "theorems": [
    "Verif.Thr.c94_exclusion",
    "Verif.Thr.c94_protected",
    "Verif.Thr.c94_progress",
    "Verif.Thr.c94_answers",
    "Verif.Thr.c94_results",
    "Verif.Thr.c94_names",
    "Verif.Thr.c94_safety",
    "Verif.Thr.c94_services_partial",
    "Verif.Thr.c94_timeouts_partial",
    "Verif.Thr.c94_libraries_partial",
    "Verif.Thr.c94_negation",
    "Verif.Thr.c94_negation_hardware",
    "Verif.Thr.c94_negation_library"
   ],
   "note": "Full statement ThreadSafe (any mix of direct calls and services) is refuted: c94_negation (a switch answered true is lost), c94_negation_hardware (doSwitch not called), c94_negation_library (reload while a controller is loaded). Proved for any mix: exclusion, protection, progress, results, names, memory safety and conflict freedom; as-if-one-thread is proved for services only, or for direct load/unload/names next to switches through the service without reloads."
  },
  {
   "property": "C95",
   "status": "proved",
   "theorems": [
    "Verif.Thr.c95_some_call_returns",
    "Verif.Thr.c95_waiting_ends",
    "Verif.Thr.c95_all_calls_return",
    "Verif.Thr.c95_fair_executions",
    "Verif.Thr.c95_starvation"
   ],
   "note": ""
  },
  {
   "property": "C96",
   "status": "partial",
   "theorems": [
    "Verif.Mgr.c96_calls_return",
    "Verif.Mgr.c96_answers_partial",
    "Verif.Mgr.c96_safety_partial",
    "Verif.Mgr.c96_switch_negation",
    "Verif.Mgr.c96_stale_negation",
    "Verif.Mgr.c96_list_negation"
   ],
   "note": "Proved: calls return, loads and unloads answered with true have been done, safety when the shutdown is noticed at loop conditions between updates. Missing because false (negations proved): a switch waiting at shutdown returns true though it was not done; a switch that gives up leaves its request, and an unloaded controller is then started; the list the realtime thread goes through is cleared under it."
  },
  {
   "property": "C97",
   "status": "partial",
   "theorems": [
    "Verif.c97_safety_partial",
    "Verif.c97_switch_goes_on",
    "Verif.c97_answers",
    "Verif.c97_update_only",
    "Verif.c97_prefix",
    "Verif.c97_recovery",
    "Verif.c97_left_behind",
    "Verif.c97_reload_left_behind",
    "Verif.c97_twice_negation",
    "Verif.c97_restart_negation",
    "Verif.c97_prepare_negation"
   ],
   "note": "Exceptions in updates: safety, completion of the pending switch, correct answers and the prefix property are proved. Violated, with witnesses: controllers started before a throwing starting() are started again; a restart left by an exception leaves the controller stopped; a throwing prepareSwitch leaves its requests for the next switch, which may use destroyed controllers."
  },
  {
   "property": "C98",
   "status": "proved",
   "theorems": [
    "Verif.Transmission.c98_to_joint",
    "Verif.Transmission.c98_to_actuator",
    "Verif.Transmission.c98_actuator_round_trip",
    "Verif.Transmission.c98_joint_round_trip",
    "Verif.Transmission.c98_torque_sensor",
    "Verif.Transmission.c98_absolute_position",
    "Verif.Transmission.c98_scale_simple",
    "Verif.Transmission.c98_scale_differential",
    "Verif.Transmission.c98_scale_four_bar",
    "Verif.Transmission.c98_exact_negation",
    "Verif.Transmission.c98_offset_negation",
    "Verif.Transmission.c98_range_negation",
    "Verif.Transmission.c98_nan_negation",
    "Verif.Transmission.c98_overflow_negation"
   ],
   "note": "Proved for all roundings to nearest in IEEE 754 binary64 with subnormal numbers, overflow and NaN. c98_exact_negation: exact restoration does not hold with doubles; c98_offset_negation: with an offset the error is not relative to the value; c98_range_negation: outside the range the product of two accepted reductions can become zero and a joint velocity infinite."
  },
  {
   "property": "C99",
   "status": "partial",
   "theorems": [
    "Verif.c99_restart_negation",
    "Verif.c99_both_lists_refused",
    "Verif.c99_two_requests_partial"
   ],
   "note": "missing: the restart by one request, which the code refuses (c99_restart_negation)"
  },
  {
   "property": "C100",
   "status": "partial",
   "theorems": [
    "Verif.c100_running_known_partial",
    "Verif.c100_exact_partial",
    "Verif.c100_compatible_partial",
    "Verif.c100_calls_fit_partial",
    "Verif.c100_part_partial",
    "Verif.c100_timeout_negation",
    "Verif.c100_error_negation",
    "Verif.c100_negation"
   ],
   "note": "Partial: proved as long as no switch call gives up waiting and (for the exact set) the hardware reports no error; negations for the rest: c100_timeout_negation, c100_error_negation."
  },
  {
   "property": "C101",
   "status": "partial",
   "theorems": [
    "Verif.Combined.c101_propagates",
    "Verif.Combined.c101_called",
    "Verif.Combined.c101_no_exception",
    "Verif.Combined.c101_prepare",
    "Verif.Combined.c101_retry_partial",
    "Verif.Combined.c101_count",
    "Verif.Combined.c101_stuck",
    "Verif.Combined.c101_twice_negation"
   ],
   "note": "Partial: everything but 'exactly once' is proved; sub-hardwares before the one that throws are switched again at every attempt (c101_twice_negation); c101_count says exactly how often."
  },
  {
   "property": "C102",
   "status": "partial",
   "theorems": [
    "Verif.Spawner.c102_names",
    "Verif.Spawner.c102_first",
    "Verif.Spawner.c102_requests",
    "Verif.Spawner.c102_done",
    "Verif.Spawner.c102_patience",
    "Verif.Spawner.c102_waits_partial",
    "Verif.Spawner.c102_crash_only",
    "Verif.Spawner.c102_crash",
    "Verif.Spawner.c102_crash_negation",
    "Verif.Spawner.c102_progress",
    "Verif.Spawner.c102_progress_topic_partial",
    "Verif.Spawner.c102_shutdown_partial",
    "Verif.Spawner.c102_interrupt",
    "Verif.Spawner.c102_interrupt_negation"
   ],
   "note": "Partial: the exception of line 170 (--wait-for without a limit) and the interrupt that is caught at line 138 are proved as negations; everything else holds for all histories."
  },
  {
   "property": "C103",
   "status": "proved",
   "theorems": [
    "Verif.Transmission.c103_to_joint",
    "Verif.Transmission.c103_to_actuator",
    "Verif.Transmission.c103_four_bar",
    "Verif.Transmission.c103_round_trip"
   ],
   "note": ""
  },
  {
   "property": "C104",
   "status": "partial",
   "theorems": [
    "Verif.c104_same_program",
    "Verif.c104_true_partial",
    "Verif.c104_told",
    "Verif.c104_only_errors",
    "Verif.c104_lines",
    "Verif.c104_list",
    "Verif.c104_load_error",
    "Verif.c104_unload_error",
    "Verif.c104_same_group",
    "Verif.c104_group_true_partial",
    "Verif.c104_restored_partial",
    "Verif.c104_reload",
    "Verif.c104_started_negation",
    "Verif.c104_restored_negation",
    "Verif.c104_code_negation",
    "Verif.c104_log_negation",
    "Verif.c104_list_text",
    "Verif.c104_list_none",
    "Verif.c104_output_partial",
    "Verif.c104_group_spawn_partial",
    "Verif.c104_group_switch_partial",
    "Verif.c104_group_list",
    "Verif.c104_reload_output",
    "Verif.c104_text"
   ],
   "note": "missing (c104_true_partial, c104_group_true_partial): 'Started' is false if the hardware reports an error (c104_started_negation); c104_restored_partial: 'Controllers restored' is printed always (c104_restored_negation); the exit code (c104_code_negation) and the log of the spawner (c104_log_negation) do not look at the answers"
  },
  {
   "property": "C105",
   "status": "partial",
   "theorems": [
    "Verif.Spawner.c105_others",
    "Verif.Spawner.c105_nothing",
    "Verif.Spawner.c105_clean_partial",
    "Verif.Spawner.c105_spinning",
    "Verif.Spawner.c105_loading_negation",
    "Verif.Spawner.c105_starting_negation",
    "Verif.Spawner.c105_late_negation"
   ],
   "note": "Full statement CleansUpAlways is false for the code (three negations: an end while loading, while starting, and a registration of the shutdown function after ROS was shut down). Proved: the controllers of others are never changed, nothing is done if the shutdown function is not called, and the listing is restored if the main thread makes no request after the shutdown function began; from the moment the spawner spins it makes none."
  },
  {
   "property": "C106",
   "status": "proved",
   "theorems": [
    "Verif.Cycle.c106_completes",
    "Verif.Cycle.c106_halts",
    "Verif.Cycle.c106_sent",
    "Verif.Cycle.c106_scale_simple",
    "Verif.Cycle.c106_free_joints",
    "Verif.Cycle.c106_nan_iff",
    "Verif.Cycle.c106_nan_sent",
    "Verif.Cycle.c106_position",
    "Verif.Cycle.c106_soft_position",
    "Verif.Cycle.c106_velocity",
    "Verif.Cycle.c106_soft_velocity",
    "Verif.Cycle.c106_effort",
    "Verif.Cycle.c106_soft_effort",
    "Verif.Cycle.c106_error_needed"
   ],
   "note": "Cycles are never lost; what is sent amounts to what the limits left, up to 2^-49 of the terms; each kind of limit keeps its bounds at the actuators for every number commanded; NaN goes through to the hardware. c106_error_needed shows that the bound does not hold without the error."
  },
  {
   "property": "C107",
   "status": "proved",
   "theorems": [
    "Verif.ThrInt.c107_atomic",
    "Verif.ThrInt.c107_one_thread",
    "Verif.ThrInt.c107_safety",
    "Verif.ThrInt.c107_libraries",
    "Verif.ThrInt.c107_answers",
    "Verif.ThrInt.c107_calls",
    "Verif.ThrInt.c107_progress",
    "Verif.ThrInt.c107_direct_negation"
   ],
   "note": "Proved under the conditions named in the statement; that they are needed is shown by c107_direct_negation and by the negations of C59, C90 and C94. Theorems: c107_atomic, c107_one_thread, c107_safety, c107_libraries, c107_answers, c107_calls, c107_progress."
  },
  {
   "property": "C108",
   "status": "partial",
   "theorems": [
    "Verif.c108_only_if_alone_partial",
    "Verif.c108_one_is_found",
    "Verif.c108_only_if_alone_negation"
   ],
   "note": "Partial: holds if every direct sub-manager has at most one interface of the type; a sub-manager with several answers null, which the parent takes for none (negation proved). That a single one is found and that only registered ones are returned holds always."
  },
  {
   "property": "C109",
   "status": "proved",
   "theorems": [
    "Verif.Transmission.Loader.c109_reading",
    "Verif.Transmission.Loader.c109_writing",
    "Verif.Transmission.Loader.c109_following",
    "Verif.Transmission.Loader.c109_shared_actuator_negation"
   ],
   "note": "From a document to the values under the names of joints and actuators: reading, writing, and both together for actuators that follow. Conditions: no joint interfaces of the robot's own (C66), no name used twice; c109_shared_actuator_negation shows that load accepts an actuator used twice, whose command is then that of one transmission only."
  },
  {
   "property": "C110",
   "status": "proved",
   "theorems": [
    "Verif.Transmission.Loader.c110_states",
    "Verif.Transmission.Loader.c110_commands",
    "Verif.Transmission.Loader.c110_there_and_back"
   ],
   "note": "bidirectional part of the robot of C109; absolute positions and torque sensors are not propagated to the actuators (as in the code)"
  },
  {
   "property": "C111",
   "status": "proved",
   "theorems": [
    "Verif.Described.c111_init",
    "Verif.Described.c111_completes",
    "Verif.Described.c111_periods",
    "Verif.Described.c111_measured",
    "Verif.Described.c111_free",
    "Verif.Described.c111_unlimited",
    "Verif.Described.c111_position",
    "Verif.Described.c111_velocity",
    "Verif.Described.c111_effort",
    "Verif.Described.c111_closed_loop"
   ],
   "note": "In exact arithmetic. Everything is stated by the names of the description; Sends is what the joint's transmission makes of the commands of its actuators."
  },
  {
   "property": "C112",
   "status": "proved",
   "theorems": [
    "Verif.Whole.c112_completes",
    "Verif.Whole.c112_periods",
    "Verif.Whole.c112_one_commander",
    "Verif.Whole.c112_commands",
    "Verif.Whole.c112_kept",
    "Verif.Whole.c112_measured",
    "Verif.Whole.c112_free",
    "Verif.Whole.c112_unlimited",
    "Verif.Whole.c112_position",
    "Verif.Whole.c112_velocity",
    "Verif.Whole.c112_effort",
    "Verif.Whole.c112_closed_loop",
    "Verif.Whole.c112_handles",
    "Verif.Whole.c112_load",
    "Verif.Whole.c112_observer"
   ],
   "note": "In exact arithmetic; services are handled between two cycles (C90, C94 and C107 are about calls in progress during updates). Holds is what a controller was given in init; that it was given the variable the limits and transmissions use is c112_load and c112_handles."
  },
  {
   "property": "C113",
   "status": "proved",
   "theorems": [
    "Verif.Described.c113_completes",
    "Verif.Described.c113_periods",
    "Verif.Described.c113_measured",
    "Verif.Described.c113_sent",
    "Verif.Described.c113_free",
    "Verif.Described.c113_nan_iff",
    "Verif.Described.c113_nan_sent",
    "Verif.Described.c113_position",
    "Verif.Described.c113_soft_position",
    "Verif.Described.c113_velocity",
    "Verif.Described.c113_soft_velocity",
    "Verif.Described.c113_effort",
    "Verif.Described.c113_soft_effort",
    "Verif.Described.c113_reached"
   ],
   "note": "what is modelled and proved: loading from the description, the limits made from it, and the cycle with doubles; the bounds for the actuators are for moderate parameters and commands, because with huge or tiny ones the transmissions overflow or underflow (C98, C106)"
  },
  {
   "property": "C114",
   "status": "proved",
   "theorems": [
    "Verif.Whole.c114_completes",
    "Verif.Whole.c114_periods",
    "Verif.Whole.c114_one_commander",
    "Verif.Whole.c114_commands",
    "Verif.Whole.c114_kept",
    "Verif.Whole.c114_measured",
    "Verif.Whole.c114_sent",
    "Verif.Whole.c114_free",
    "Verif.Whole.c114_nan_source",
    "Verif.Whole.c114_nan_sent",
    "Verif.Whole.c114_nan_stays",
    "Verif.Whole.c114_position",
    "Verif.Whole.c114_soft_position",
    "Verif.Whole.c114_velocity",
    "Verif.Whole.c114_soft_velocity",
    "Verif.Whole.c114_effort",
    "Verif.Whole.c114_soft_effort",
    "Verif.Whole.c114_reached"
   ],
   "note": "Services are handled between two cycles, as in C112; the bounds for the actuators are for moderate parameters and commands, as in C113. That a NaN command survives the controller that wrote it, through all limit handles, is what the code does."
  },
  {
   "property": "C115",
   "status": "proved",
   "theorems": [
    "Verif.Whole.c115_completes",
    "Verif.Whole.c115_hardware",
    "Verif.Whole.c115_one_commander",
    "Verif.Whole.c115_commands",
    "Verif.Whole.c115_steps",
    "Verif.Whole.c115_uninterrupted",
    "Verif.Whole.c115_progress",
    "Verif.Whole.c115_periods",
    "Verif.Whole.c115_any_period",
    "Verif.Whole.c115_unhurried",
    "Verif.Whole.c115_measured",
    "Verif.Whole.c115_free",
    "Verif.Whole.c115_position",
    "Verif.Whole.c115_velocity",
    "Verif.Whole.c115_effort",
    "Verif.Whole.c115_closed_loop",
    "Verif.Whole.c115_double_nan",
    "Verif.Whole.c115_double_position",
    "Verif.Whole.c115_double_soft_position",
    "Verif.Whole.c115_double_velocity",
    "Verif.Whole.c115_double_measured",
    "Verif.Whole.c115_double_sent",
    "Verif.Whole.c115_double_free",
    "Verif.Whole.c115_double_nan_sent",
    "Verif.Whole.c115_double_soft_velocity",
    "Verif.Whole.c115_double_effort",
    "Verif.Whole.c115_double_soft_effort",
    "Verif.Whole.c115_double_reached",
    "Verif.Whole.c115_double_nan_source",
    "Verif.Whole.c115_double_nan_stays"
   ],
   "note": "For runs in which services do not interfere with an update in progress (Spec/BusyRobot.lean, Fine; c115_unhurried gives a simpler condition; c90_restart_negation shows that restarts need one). read and write are one step each, and so is a callback."
  },
  {
   "property": "C116",
   "status": "proved",
   "theorems": [
    "Verif.Parted.c116_init",
    "Verif.Parted.c116_completes",
    "Verif.Parted.c116_periods",
    "Verif.Parted.c116_alone",
    "Verif.Parted.c116_one_commander",
    "Verif.Parted.c116_commands",
    "Verif.Parted.c116_kept",
    "Verif.Parted.c116_measured",
    "Verif.Parted.c116_free",
    "Verif.Parted.c116_position",
    "Verif.Parted.c116_velocity",
    "Verif.Parted.c116_effort",
    "Verif.Parted.c116_nan_iff",
    "Verif.Parted.c116_velocity_double",
    "Verif.Parted.c116_position_double",
    "Verif.Parted.c116_handles",
    "Verif.Parted.c116_load",
    "Verif.Parted.c116_closed_loop",
    "Verif.Parted.c116_measured_double",
    "Verif.Parted.c116_sent_double",
    "Verif.Parted.c116_free_double",
    "Verif.Parted.c116_nan_sent",
    "Verif.Parted.c116_nan_source",
    "Verif.Parted.c116_nan_stays",
    "Verif.Parted.c116_soft_position_double",
    "Verif.Parted.c116_soft_velocity_double",
    "Verif.Parted.c116_effort_double",
    "Verif.Parted.c116_soft_effort_double",
    "Verif.Parted.c116_reached_double"
   ],
   "note": ""
  },
  {
   "property": "C117",
   "status": "proved",
   "theorems": [
    "Verif.Parted.c117_completes",
    "Verif.Parted.c117_parts",
    "Verif.Parted.c117_one_commander",
    "Verif.Parted.c117_commands",
    "Verif.Parted.c117_steps",
    "Verif.Parted.c117_uninterrupted",
    "Verif.Parted.c117_progress",
    "Verif.Parted.c117_periods",
    "Verif.Parted.c117_any_period",
    "Verif.Parted.c117_unhurried",
    "Verif.Parted.c117_measured",
    "Verif.Parted.c117_free",
    "Verif.Parted.c117_position",
    "Verif.Parted.c117_velocity",
    "Verif.Parted.c117_effort",
    "Verif.Parted.c117_nan_iff",
    "Verif.Parted.c117_velocity_double",
    "Verif.Parted.c117_position_double",
    "Verif.Parted.c117_closed_loop",
    "Verif.Parted.c117_measured_double",
    "Verif.Parted.c117_sent_double",
    "Verif.Parted.c117_free_double",
    "Verif.Parted.c117_nan_sent",
    "Verif.Parted.c117_soft_position_double",
    "Verif.Parted.c117_soft_velocity_double",
    "Verif.Parted.c117_effort_double",
    "Verif.Parted.c117_soft_effort_double",
    "Verif.Parted.c117_reached_double",
    "Verif.Parted.c117_nan_source",
    "Verif.Parted.c117_nan_stays"
   ],
   "note": ""
  },
  {
   "property": "C118",
   "status": "partial",
   "theorems": [
    "Verif.Parted.c118_claims",
    "Verif.Parted.c118_told_partial",
    "Verif.Parted.c118_exact_partial",
    "Verif.Parted.c118_informed_partial",
    "Verif.Parted.c118_one_partial",
    "Verif.Parted.c118_twins_negation"
   ],
   "note": "Partial: if several parts take commands of the same kind for joints of the same name, all of them are told of a controller that holds the command of the last one (c118_twins_negation). For all other joints and robots the full statement is proved (c118_exact_partial, c118_informed_partial)."
  }
 ]
}