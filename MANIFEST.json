{
 "claims": [
  {
   "property": "C01",
   "status": "proved",
   "theorems": [
    "BeagleG.RingDeque.C01_refines_bounded_list",
    "BeagleG.RingDeque.C01_capacity_exact"
   ],
   "note": "Refinement to a bounded list for every template argument and call sequence, in 32 bit cursor arithmetic."
  },
  {
   "property": "C02",
   "status": "proved",
   "theorems": [
    "BeagleG.LineBuf.C02_lines",
    "BeagleG.LineBuf.C02_chunking",
    "BeagleG.LineBuf.C02_any_order",
    "BeagleG.LineBuf.C02_progress"
   ],
   "note": "Lines are C strings (cut at a NUL byte)."
  },
  {
   "property": "C03",
   "status": "partial",
   "theorems": [
    "BeagleG.LineBuf.C03_terminators_partial",
    "BeagleG.LineBuf.C03_mixed_loses_lines"
   ],
   "note": "True exactly if no LF-terminated line directly follows a CR-terminated line; otherwise lines are lost (C03_mixed_loses_lines)."
  },
  {
   "property": "C04",
   "status": "partial",
   "theorems": [
    "BeagleG.LineBuf.C04_memory_safe_partial",
    "BeagleG.LineBuf.C04_incompleteLine_iff",
    "BeagleG.LineBuf.C04_fails"
   ],
   "note": "True except for IncompleteLine on a completely filled buffer, which writes one byte behind it (C04_fails)."
  },
  {
   "property": "C05",
   "status": "proved",
   "theorems": [
    "BeagleG.FdMux.C05_ready",
    "BeagleG.FdMux.C05_idle",
    "BeagleG.FdMux.C05_ends",
    "BeagleG.FdMux.C05_log",
    "BeagleG.FdMux.C05_second_registration"
   ],
   "note": "Handlers may register further handlers while they run; idle handlers do not register idle handlers."
  },
  {
   "property": "C06",
   "status": "proved",
   "theorems": [
    "BeagleG.Text.C06_trim",
    "BeagleG.Text.C06_trim_unique",
    "BeagleG.Text.C06_trim_idempotent",
    "BeagleG.Text.C06_split",
    "BeagleG.Text.C06_hasPrefix",
    "BeagleG.Text.C06_toLower"
   ],
   "note": ""
  },
  {
   "property": "C07",
   "status": "proved",
   "theorems": [
    "BeagleG.Text.C07_match_next",
    "BeagleG.Text.C07_order_irrelevant",
    "BeagleG.Text.C07_expect_next"
   ],
   "note": ""
  },
  {
   "property": "C08",
   "status": "proved",
   "theorems": [
    "BeagleG.Expr.C08_keywords",
    "BeagleG.Expr.C08_accepted",
    "BeagleG.Expr.C08_evaluated",
    "BeagleG.Expr.C08_evaluated_no_minus",
    "BeagleG.Expr.C08_unambiguous"
   ],
   "note": "Float operations and strtof are arbitrary functions (strtof consumes a non-empty prefix)."
  },
  {
   "property": "C09",
   "status": "partial",
   "theorems": [
    "BeagleG.Expr.C09_within_stack_partial",
    "BeagleG.Expr.C09_value_within_stack_partial",
    "BeagleG.Expr.C09_overrun"
   ],
   "note": "False as stated (C09_overrun); an overrun needs six waiting operators at one bracket level, at least two of them prefix minus signs."
  },
  {
   "property": "C10",
   "status": "proved",
   "theorems": [
    "BeagleG.Parser.C10_case_insensitive",
    "BeagleG.Parser.C10_store_read",
    "BeagleG.Parser.C10_refused",
    "BeagleG.Parser.C10_history",
    "BeagleG.Parser.C10_unset",
    "BeagleG.Parser.C10_axis_letter",
    "BeagleG.Parser.C10_reserved_never_written",
    "BeagleG.Parser.C10_program",
    "BeagleG.Parser.C10_assignment",
    "BeagleG.Parser.C10_increment",
    "BeagleG.Parser.C10_choice",
    "BeagleG.Parser.C10_compound",
    "BeagleG.Parser.C10_operations"
   ],
   "note": ""
  },
  {
   "property": "C11",
   "status": "partial",
   "theorems": [
    "BeagleG.ParamFile.C11_roundtrip_partial",
    "BeagleG.ParamFile.C11_six_decimals_partial",
    "BeagleG.ParamFile.decimal_ok",
    "BeagleG.ParamFile.C11_negative_key",
    "BeagleG.ParamFile.C11_digit_name",
    "BeagleG.ParamFile.C11_selected_zero",
    "BeagleG.ParamFile.C11_long_name",
    "BeagleG.ParamFile.C11_without_file"
   ],
   "note": "False if a negative number was used, a name starts with a digit, 5220 was 0, or a name is longer than about 240 characters (four counterexamples)."
  },
  {
   "property": "C12",
   "status": "proved",
   "theorems": [
    "BeagleG.ParamFile.C12_killed_save",
    "BeagleG.ParamFile.C12_history"
   ],
   "note": "Assumes that fclose reports an incomplete file; the process is killed, the operating system is not."
  },
  {
   "property": "C13",
   "status": "proved",
   "theorems": [
    "BeagleG.Parser.C13_move_target",
    "BeagleG.Parser.C13_units",
    "BeagleG.Parser.C13_absolute",
    "BeagleG.Parser.C13_select",
    "BeagleG.Parser.C13_g10",
    "BeagleG.Parser.C13_g10_words",
    "BeagleG.Parser.C13_bare_axis",
    "BeagleG.Parser.C13_bare_axis_unnoticed"
   ],
   "note": "For every arithmetic; the commands are the handlers called by ParseBlock."
  },
  {
   "property": "C14",
   "status": "partial",
   "theorems": [
    "BeagleG.Parser.C14_g92_partial",
    "BeagleG.Parser.C14_suspend_restore_clear",
    "BeagleG.Parser.C14_readings",
    "BeagleG.Parser.C14_move_to_reading",
    "BeagleG.Parser.C14_other_system",
    "BeagleG.Parser.C14_rotary_inch",
    "BeagleG.Parser.C14_scaled",
    "BeagleG.Parser.C14_suspended"
   ],
   "note": "In exact arithmetic. False for rotational axes in inch mode (C14_rotary_inch), with G51 scaling (C14_scaled) and on unmentioned axes while the offset is suspended (C14_suspended)."
  },
  {
   "property": "C15",
   "status": "partial",
   "theorems": [
    "BeagleG.Parser.C15_move_partial",
    "BeagleG.Parser.C16_arc",
    "BeagleG.Parser.C16_spline",
    "BeagleG.Parser.C15_bare_axis"
   ],
   "note": "False for lines that start with an axis word (C15_bare_axis); a refused spline still counts as the previous spline."
  },
  {
   "property": "C16",
   "status": "proved",
   "theorems": [
    "BeagleG.Parser.C16_arc",
    "BeagleG.Parser.C16_spline",
    "BeagleG.Parser.moves_asked",
    "BeagleG.Parser.arcGen_target"
   ],
   "note": "For every arithmetic and every receiver."
  },
  {
   "property": "C17",
   "status": "partial",
   "theorems": [
    "BeagleG.LineBuf.C17_session_partial",
    "BeagleG.LineBuf.C17_connections",
    "BeagleG.LineBuf.C17_success",
    "BeagleG.LineBuf.C17_success_all",
    "BeagleG.LineBuf.C17_cr_loses_last_line",
    "BeagleG.LineBuf.C17_long_line_overflows"
   ],
   "note": "True for LF and CR LF and last lines shorter than half the buffer; the last line of a CR stream is lost and a line of 16384 bytes overflows the buffer."
  },
  {
   "property": "C18",
   "status": "partial",
   "theorems": [
    "BeagleG.Parser.C18_within_line_partial",
    "BeagleG.Parser.C18_faults",
    "BeagleG.Parser.C18_open_comment"
   ],
   "note": "False for a comment that is not closed (C18_open_comment)."
  },
  {
   "property": "C19",
   "status": "proved",
   "theorems": [
    "BeagleG.MotorOps.C19_no_step_lost",
    "BeagleG.MotorOps.C19_zero_steps",
    "BeagleG.MotorOps.C19_accumulator_in_range"
   ],
   "note": "For all step counts except INT_MIN and all timings (floating point timing is a parameter)."
  },
  {
   "property": "C20",
   "status": "partial",
   "theorems": [
    "BeagleG.StepGen.C20_exact_pulses",
    "BeagleG.StepGen.C20_tracks_line",
    "BeagleG.StepGen.C20_travel_never_stops_early",
    "BeagleG.StepGen.C20_early_stop_possible"
   ],
   "note": "Exact under the condition that no computed delay collides with the special value 0; without it the property is false of the firmware (C20_early_stop_possible). C64_no_early_stop shows the condition for the timing the host computes."
  },
  {
   "property": "C21",
   "status": "proved",
   "theorems": [
    "BeagleG.MotorOps.C21_direction_and_distance",
    "BeagleG.MotorOps.C21_parts_keep_sign",
    "BeagleG.MotorOps.C21_direction",
    "BeagleG.MotorOps.C21_reported"
   ],
   "note": "Direction lines for everything handed over; positions reported back with C27; that the pulses are made is C21_direction_and_distance, for segments that run to their end (C20)."
  },
  {
   "property": "C22",
   "status": "proved",
   "theorems": [
    "BeagleG.Idiv.C22_idiv_exact",
    "BeagleG.Idiv.C22_idiv_eq",
    "BeagleG.Idiv.C22_idiv_zero"
   ],
   "note": ""
  },
  {
   "property": "C23",
   "status": "proved",
   "theorems": [
    "BeagleG.PruQueue.C23_fifo",
    "BeagleG.PruQueue.C23_never_torn",
    "BeagleG.PruQueue.C23_never_overwrites",
    "BeagleG.PruQueue.C23_bounded"
   ],
   "note": "Every interleaving of host, firmware and emergency stop, sequentially consistent memory; also with emergency stops."
  },
  {
   "property": "C24",
   "status": "partial",
   "theorems": [
    "BeagleG.PruQueue.C24_pending_partial",
    "BeagleG.PruQueue.C24_pending_underreports",
    "BeagleG.PruQueue.C24_torn_read",
    "BeagleG.PruQueue.C24_loops_left"
   ],
   "note": "False of the code when all slots are occupied and the status of the next element is not yet published (C24_pending_underreports); proved otherwise."
  },
  {
   "property": "C25",
   "status": "proved",
   "theorems": [
    "BeagleG.PruQueue.C25_wait_queue_empty",
    "BeagleG.PruQueue.C25_no_abort_without_estop",
    "BeagleG.PruQueue.C25_shutdown"
   ],
   "note": ""
  },
  {
   "property": "C26",
   "status": "proved",
   "theorems": [
    "BeagleG.PruQueue.C26_stepping_stops",
    "BeagleG.PruQueue.C26_each_abort_reported_once",
    "BeagleG.PruQueue.C26_marked",
    "BeagleG.PruQueue.C26_next_use_reports"
   ],
   "note": ""
  },
  {
   "property": "C27",
   "status": "proved",
   "theorems": [
    "BeagleG.MotorOps.C27_position_report",
    "BeagleG.MotorOps.C27_reading_exact_at_ends",
    "BeagleG.MotorOps.C27_reading_monotone",
    "BeagleG.MotorOps.C27_torn_reading_overshoots"
   ],
   "note": "For a backend whose count and loop counter belong together; C27_torn_reading_overshoots shows what a torn reading does."
  },
  {
   "property": "C28",
   "status": "partial",
   "theorems": [
    "BeagleG.StepGen.C28_simulation_agrees_partial",
    "BeagleG.StepGen.C28_early_stop",
    "BeagleG.MotorOps.C28_host",
    "BeagleG.StepGen.C28_same_delay"
   ],
   "note": "Proved for segments on which the firmware does not stop early; otherwise it does not hold (C28_early_stop). C64_no_early_stop shows the condition for the timing the host computes."
  },
  {
   "property": "C29",
   "status": "proved",
   "theorems": [
    "BeagleG.Planner.C29_no_drift",
    "BeagleG.Planner.C29_account"
   ],
   "note": "For every law-free arithmetic, hence for every rounding; backend accepts all commands; motors are assigned to at most one axis (see C39)."
  },
  {
   "property": "C30",
   "status": "partial",
   "theorems": [
    "BeagleG.Planner.C30_no_overflow_partial",
    "BeagleG.Planner.C30_default_overflows"
   ],
   "note": "True for sizes up to 1023; false for 1024, the default and the accepted maximum (C30_default_overflows)."
  },
  {
   "property": "C31",
   "status": "proved",
   "theorems": [
    "BeagleG.Planner.C31_phases_partition",
    "BeagleG.Planner.C31_real",
    "BeagleG.Planner.step_sends",
    "BeagleG.Planner.planInv_init"
   ],
   "note": "Exact arithmetic over any ordered field with square roots; instantiated for the reals. Conversions to integer truncate and do not overflow."
  },
  {
   "property": "C32",
   "status": "partial",
   "theorems": [
    "BeagleG.Planner.C32_speeds_partial",
    "BeagleG.Planner.C32_peak_not_reachable"
   ],
   "note": "Reachability holds only up to the speed gained in one step, because phase lengths are truncated (C32_peak_not_reachable); everything else as stated."
  },
  {
   "property": "C33",
   "status": "partial",
   "theorems": [
    "BeagleG.Machine.C33_refused",
    "BeagleG.Machine.C33_only_within_partial",
    "BeagleG.Machine.C33_cube",
    "BeagleG.Machine.C33_nan_passes"
   ],
   "note": "Stated with the comparisons of the arithmetic; for numbers C33_cube. False for NaN, which compares with nothing (C33_nan_passes); the parser delivers NaN for X[0/0]."
  },
  {
   "property": "C34",
   "status": "proved",
   "theorems": [
    "BeagleG.Machine.C34_moves_only_homed",
    "BeagleG.Machine.C34_after_stop",
    "BeagleG.Machine.C34_m0_stops"
   ],
   "note": ""
  },
  {
   "property": "C35",
   "status": "partial",
   "theorems": [
    "BeagleG.Machine.C35_stop_partial",
    "BeagleG.Machine.C35_outputs_off_partial",
    "BeagleG.Machine.C35_motors_off_partial",
    "BeagleG.Machine.C35_stays_stopped",
    "BeagleG.Machine.C35_no_moves",
    "BeagleG.Machine.C35_initial",
    "BeagleG.Machine.C35_aux_returns",
    "BeagleG.Machine.C35_aux_in_estop"
   ],
   "note": "Motors and moves for every history and every backend that touches the hardware only by EnableMotors and auxiliary pins. False for the auxiliary outputs: moves still in the queue are executed after the outputs were switched off and set them again (C35_aux_returns)."
  },
  {
   "property": "C36",
   "status": "partial",
   "theorems": [
    "BeagleG.Machine.C36_homed",
    "BeagleG.Machine.C36_stop",
    "BeagleG.Machine.C36_unpowered",
    "BeagleG.Machine.C36_stop_during_homing",
    "BeagleG.Machine.C36_no_axis"
   ],
   "note": "Proved for emergency stops that are handled. The stop input seen only while an axis moves to its switch ends that move, but homing is reported (C36_stop_during_homing)."
  },
  {
   "property": "C37",
   "status": "partial",
   "theorems": [
    "BeagleG.Machine.C37_coordinated",
    "BeagleG.Machine.C37_rapid",
    "BeagleG.Machine.C37_feed_step",
    "BeagleG.Machine.C37_source",
    "BeagleG.Machine.C37_factor",
    "BeagleG.Machine.C37_factor_only",
    "BeagleG.Machine.C37_factor_exact",
    "BeagleG.Machine.C37_history_partial",
    "BeagleG.Machine.C37_rapid_counts",
    "BeagleG.Machine.C37_refused_forgets"
   ],
   "note": "False when the first F value comes with a rapid move: it counts for coordinated moves and the M220 factor is applied twice (C37_rapid_counts); the F value of a refused move is forgotten (C37_refused_forgets)."
  },
  {
   "property": "C38",
   "status": "proved",
   "theorems": [
    "BeagleG.Machine.C38_untouched",
    "BeagleG.Machine.C38_other_axes",
    "BeagleG.Machine.C38_in_range",
    "BeagleG.Machine.C38_passes",
    "BeagleG.Machine.C38_value"
   ],
   "note": ""
  },
  {
   "property": "C39",
   "status": "proved",
   "theorems": [
    "BeagleG.Hardware.C39_aux_last_command",
    "BeagleG.Hardware.C39_aux_untouched",
    "BeagleG.Hardware.C39_aux_mapping",
    "BeagleG.Hardware.C39_aux_refused",
    "BeagleG.Hardware.C39_outputs",
    "BeagleG.Hardware.C39_capes",
    "BeagleG.Hardware.C39_pwm_mapping",
    "BeagleG.Hardware.C39_pwm_first"
   ],
   "note": ""
  },
  {
   "property": "C40",
   "status": "proved",
   "theorems": [
    "BeagleG.Hardware.C40_mapping",
    "BeagleG.Hardware.C40_one_axis",
    "BeagleG.Hardware.C40_refused",
    "BeagleG.Hardware.C40_first_free",
    "BeagleG.Hardware.C40_assign",
    "BeagleG.Hardware.C40_read_back",
    "BeagleG.Hardware.C40_assign_read"
   ],
   "note": ""
  },
  {
   "property": "C41",
   "status": "proved",
   "theorems": [
    "BeagleG.Hardware.C41_debounced",
    "BeagleG.Hardware.C41_stable",
    "BeagleG.Hardware.C41_unmapped",
    "BeagleG.Hardware.C41_no_switch",
    "BeagleG.Hardware.C41_waits"
   ],
   "note": ""
  },
  {
   "property": "C42",
   "status": "proved",
   "theorems": [
    "BeagleG.Spindle.C42_standstill",
    "BeagleG.Spindle.C42_no_ccw",
    "BeagleG.Spindle.C42_ramps",
    "BeagleG.Spindle.C42_reaches",
    "BeagleG.Spindle.C42_returns",
    "BeagleG.Spindle.C42_nan_never_returns"
   ],
   "note": "Standstill and direction for every arithmetic; ramp sizes in exact arithmetic, max-rpm positive and speeds not negative (as the machine control guarantees). A target that is not a number makes On loop forever."
  },
  {
   "property": "C43",
   "status": "proved",
   "theorems": [
    "BeagleG.Pwm.C43_registers",
    "BeagleG.Pwm.C43_duty",
    "BeagleG.Pwm.C43_refused",
    "BeagleG.Pwm.C43_frequency",
    "BeagleG.Pwm.C43_runs",
    "BeagleG.Pwm.C43_default",
    "BeagleG.Pwm.C43_wraps_beyond",
    "BeagleG.Pwm.C43_prescaler"
   ],
   "note": "Resolution in exact arithmetic, positive frequencies; the register arithmetic for every resolution up to 0xfffffffb."
  },
  {
   "property": "C44",
   "status": "proved",
   "theorems": [
    "BeagleG.Config.C44_lines",
    "BeagleG.Config.C44_read_back",
    "BeagleG.Config.C44_read_back_unended",
    "BeagleG.Config.C44_accepted",
    "BeagleG.Config.C44_reports",
    "BeagleG.Config.C44_logged",
    "BeagleG.Config.C44_last_line_comment"
   ],
   "note": "For every reader. A comment on a last line without line end is not taken off (C44_last_line_comment)."
  },
  {
   "property": "C45",
   "status": "partial",
   "theorems": [
    "BeagleG.Config.C45_value",
    "BeagleG.Config.C45_written",
    "BeagleG.Config.C45_one_value",
    "BeagleG.Config.C45_answers",
    "BeagleG.Config.C45_accepted_partial",
    "BeagleG.Config.C45_broken_accepted"
   ],
   "note": "Well-formed expressions yield their value. False for the rest: empty text, a trailing operator and bad parentheses are accepted (C45_broken_accepted); C45_accepted_partial: these are the only ones."
  },
  {
   "property": "C46",
   "status": "proved",
   "theorems": [
    "BeagleG.EndToEnd.C46_end_to_end",
    "BeagleG.EndToEnd.C46_timed",
    "BeagleG.EndToEnd.C46_host",
    "BeagleG.EndToEnd.C46_firmware",
    "BeagleG.EndToEnd.C46_configured",
    "BeagleG.EndToEnd.C46_initial",
    "BeagleG.EndToEnd.C46_waits"
   ],
   "note": "Planner, motor operations, element bytes, queue protocol and step generation composed. 'A firmware that executes all segments' is the hypothesis NoEarlyStop for the executed segments (see C20: a segment whose delay computes to the stop value ends early); C46_timed replaces it by a condition on the speeds of the commands, with the timing computed by the host in exact arithmetic. Counts that do not fit an int are undefined behaviour and excluded."
  },
  {
   "property": "C47",
   "status": "proved",
   "theorems": [
    "BeagleG.Planner.C47_set_lookahead",
    "BeagleG.Planner.C47_m181"
   ],
   "note": ""
  },
  {
   "property": "C48",
   "status": "proved",
   "theorems": [
    "BeagleG.Machine.C48_motors",
    "BeagleG.Machine.C48_motors_due",
    "BeagleG.Machine.C48_fan"
   ],
   "note": ""
  },
  {
   "property": "C49",
   "status": "partial",
   "theorems": [
    "BeagleG.Parser.C49_branch",
    "BeagleG.Parser.C49_if",
    "BeagleG.Parser.C49_if_line",
    "BeagleG.Parser.C49_while_line",
    "BeagleG.Parser.C49_record",
    "BeagleG.Parser.C49_end",
    "BeagleG.Parser.C49_loop",
    "BeagleG.Parser.C49_simple_loop",
    "BeagleG.Parser.C49_if_two",
    "BeagleG.Parser.C49_else_in_name",
    "BeagleG.Parser.C49_body_joined"
   ],
   "note": "An IF branch is selected by the value 1, not by any true value (C49_if_two); ELSE is found inside names (C49_else_in_name); body lines from the streamer are joined (C49_body_joined)."
  },
  {
   "property": "C50",
   "status": "partial",
   "theorems": [
    "BeagleG.Stats.C50_time",
    "BeagleG.Stats.C50_segment_time",
    "BeagleG.Stats.C50_extremes",
    "BeagleG.Stats.C50_extremes_partial",
    "BeagleG.Stats.C50_extrusion",
    "BeagleG.Stats.C50_z_min_wrong",
    "BeagleG.Stats.C50_x_max_wrong",
    "BeagleG.Stats.C50_moves_not_made",
    "BeagleG.Stats.C50_homing_ignored",
    "BeagleG.Stats.C50_homing",
    "BeagleG.Stats.C50_dwell",
    "BeagleG.Stats.C50_steps"
   ],
   "note": "The time is the sum as stated. The extremes are those of the moves and of the start values 1e7 and 0: false for the minimum of Z when all moves are above 0 (C50_z_min_wrong) and for the maxima when all moves are negative (C50_x_max_wrong)."
  },
  {
   "property": "C51",
   "status": "proved",
   "theorems": [
    "BeagleG.PruQueue.C51_no_lost_wakeup",
    "BeagleG.PruQueue.C51_woken"
   ],
   "note": ""
  },
  {
   "property": "C52",
   "status": "proved",
   "theorems": [
    "BeagleG.Planner.C52_no_assertion_fails",
    "BeagleG.Planner.C52_init",
    "BeagleG.Machine.C52_machine",
    "BeagleG.Machine.C52_machine_move",
    "BeagleG.Machine.C52_machine_halt"
   ],
   "note": "Every arithmetic in which 0 == 0, every backend."
  },
  {
   "property": "C53",
   "status": "proved",
   "theorems": [
    "BeagleG.Planner.C53_axis_limits",
    "BeagleG.Planner.C53_path_speed"
   ],
   "note": "Exact arithmetic; tuning angle such that the corner factor is not negative (over the reals: not below -90 degrees, threshold plus tuning angle at most 90). Axes without steps are allowed."
  },
  {
   "property": "C54",
   "status": "partial",
   "theorems": [
    "BeagleG.Parser.C54_assignments_partial",
    "BeagleG.Parser.C54_twice"
   ],
   "note": "Lines with assignments only; false after a move (C54_twice)."
  },
  {
   "property": "C55",
   "status": "partial",
   "theorems": [
    "BeagleG.Planner.C55_sharp_corner",
    "BeagleG.Planner.C55_axis_jump_partial",
    "BeagleG.Planner.C55_start_speed_partial",
    "BeagleG.Planner.C55_reversal_at_speed"
   ],
   "note": "False below the threshold angle: an axis other than X, Y, Z may reverse at full speed (C55_reversal_at_speed)."
  },
  {
   "property": "C56",
   "status": "proved",
   "theorems": [
    "BeagleG.MotorOps.C56_enabled_before_move",
    "BeagleG.MotorOps.C56_enable_after_wait"
   ],
   "note": ""
  },
  {
   "property": "C57",
   "status": "partial",
   "theorems": [
    "BeagleG.Spindle.C57_target",
    "BeagleG.Spindle.C57_defined",
    "BeagleG.Spindle.C57_off",
    "BeagleG.Spindle.C57_reverse_never_returns"
   ],
   "note": "Switching on in reverse never returns, if the controller reports a negative speed in reverse (C57_reverse_never_returns)."
  },
  {
   "property": "C58",
   "status": "proved",
   "theorems": [
    "BeagleG.EndToEnd.C58_layout",
    "BeagleG.EndToEnd.C58_same_widths",
    "BeagleG.EndToEnd.C58_bytes"
   ],
   "note": ""
  },
  {
   "property": "C59",
   "status": "partial",
   "theorems": [
    "BeagleG.Parser.C59_program_events_partial",
    "BeagleG.Parser.C59_initial",
    "BeagleG.Parser.C59_within",
    "BeagleG.Parser.C59_once",
    "BeagleG.Parser.C59_next_stream"
   ],
   "note": "Within a stream. False after a stream that ends without M2 or M30: the next program is not announced (C59_next_stream)."
  },
  {
   "property": "C60",
   "status": "partial",
   "theorems": [
    "BeagleG.Machine.C60_endstop",
    "BeagleG.Machine.C60_home_partial",
    "BeagleG.Machine.C60_found",
    "BeagleG.Machine.C60_home_position",
    "BeagleG.Machine.C36_stop_during_homing"
   ],
   "note": "The switch is found unless the stop input is read as active during the search; if it is inactive again at the end, the position is set without having found the switch (C36_stop_during_homing). Planner invariant as hypothesis, which C52_machine establishes."
  },
  {
   "property": "C61",
   "status": "proved",
   "theorems": [
    "BeagleG.Setup.C61_numbers",
    "BeagleG.Setup.C61_settings",
    "BeagleG.Setup.C61_home",
    "BeagleG.Setup.C61_untouched",
    "BeagleG.Setup.C61_accepted",
    "BeagleG.Setup.C61_not_negative",
    "BeagleG.Setup.C61_section",
    "BeagleG.Setup.C61_int",
    "BeagleG.Setup.C61_int_tail"
   ],
   "note": "Text behind an integer is ignored (C61_int_tail). Conversion of decimal fractions is a parameter; expressions are C45."
  },
  {
   "property": "C62",
   "status": "partial",
   "theorems": [
    "BeagleG.Setup.C62_line",
    "BeagleG.Setup.C62_accepted",
    "BeagleG.Setup.C62_motors",
    "BeagleG.Setup.C62_aux",
    "BeagleG.Setup.C62_pwm",
    "BeagleG.Setup.C62_switches",
    "BeagleG.Setup.C62_connected",
    "BeagleG.Setup.C62_one_axis",
    "BeagleG.Setup.C62_passive",
    "BeagleG.Setup.C62_names",
    "BeagleG.Setup.C62_round_trip",
    "BeagleG.Setup.C62_motor_tail",
    "BeagleG.Setup.C62_unconnected_estop"
   ],
   "note": "False for the emergency stop: a switch that is not connected on the cape is accepted for it (C62_unconnected_estop); C62_connected holds for the end switches. Text behind the letter of an axis is ignored (C62_motor_tail)."
  },
  {
   "property": "C63",
   "status": "partial",
   "theorems": [
    "BeagleG.Setup.C63_accepted",
    "BeagleG.Setup.C63_result",
    "BeagleG.Setup.C63_options",
    "BeagleG.Setup.C63_one_axis",
    "BeagleG.Setup.C63_safe",
    "BeagleG.Setup.C63_wired",
    "BeagleG.Setup.C63_numbers_partial",
    "BeagleG.Setup.C63_switches",
    "BeagleG.Setup.C63_planner",
    "BeagleG.Setup.C63_machine",
    "BeagleG.Setup.C63_disjoint",
    "BeagleG.Setup.C63_limits_partial",
    "BeagleG.Setup.C63_no_acceleration",
    "BeagleG.Setup.C63_tune_angle",
    "BeagleG.Setup.C63_tune_angle_negative"
   ],
   "note": "False for the acceleration: an axis with a motor and acceleration 0 is accepted (C63_no_acceleration), by which the planner divides. A tuning angle below -90 degrees is accepted too and makes corner speeds negative (C63_tune_angle_negative). All else holds; the failing system calls and the sockets are not modelled."
  },
  {
   "property": "C64",
   "status": "partial",
   "theorems": [
    "BeagleG.MotorOps.C64_travel",
    "BeagleG.MotorOps.C64_accel_partial",
    "BeagleG.MotorOps.C64_decel",
    "BeagleG.MotorOps.C64_delays",
    "BeagleG.MotorOps.C64_no_early_stop",
    "BeagleG.MotorOps.C64_waits",
    "BeagleG.MotorOps.C64_parts",
    "BeagleG.MotorOps.C64_move_runs",
    "BeagleG.MotorOps.C64_overshoot"
   ],
   "note": "False for accelerations that do not start at rest: the firmware applies the recurrence once more than the host assumes, so that the speed is too high, by a quarter and more for series index 1 (C64_overshoot); C64_accel_partial has the exact bounds. Host arithmetic is exact (the reals are an instance), firmware arithmetic is that of the 32 bit registers."
  },
  {
   "property": "C65",
   "status": "partial",
   "theorems": [
    "BeagleG.Parser.C65_arc_partial",
    "BeagleG.Parser.C65_xz_plane",
    "BeagleG.Parser.C65_xz_wrong",
    "BeagleG.Parser.C65_on_circle",
    "BeagleG.Parser.C65_spacing",
    "BeagleG.Parser.C65_ignored",
    "BeagleG.Parser.C65_radius",
    "BeagleG.Parser.C65_radius_arc",
    "BeagleG.Parser.C65_refused",
    "BeagleG.Parser.C65_apply"
   ],
   "note": "Proved over the real numbers for the planes XY and YZ. In the XZ plane (G18) clockwise and counter-clockwise are exchanged: C65_xz_plane proves this for all arcs, C65_xz_wrong gives a witness that the property fails. Rounding of floating point is not considered; a radius of zero is left out."
  },
  {
   "property": "C66",
   "status": "partial",
   "theorems": [
    "BeagleG.Parser.C66_points",
    "BeagleG.Parser.C66_cubic",
    "BeagleG.Parser.C66_refused_partial",
    "BeagleG.Parser.C66_only_p",
    "BeagleG.Parser.C66_smooth",
    "BeagleG.Parser.C66_hull",
    "BeagleG.Parser.C66_spacing",
    "BeagleG.Parser.C66_other_axes",
    "BeagleG.Parser.C66_quadratic_partial",
    "BeagleG.Parser.C66_quadratic_error",
    "BeagleG.Parser.C66_quadratic_wrong"
   ],
   "note": "Proved over the real numbers for G5. G5.1 uses a wrong second control point: C66_quadratic_error gives the exact deviation from the quadratic curve, C66_quadratic_wrong that it is never zero between the ends unless the control point is the target. G5 with only one of P and Q is accepted (C66_only_p). Rounding of floating point is not considered."
  },
  {
   "property": "C67",
   "status": "partial",
   "theorems": [
    "BeagleG.Server.C67_one_client",
    "BeagleG.Server.C67_sessions",
    "BeagleG.Server.C67_programs",
    "BeagleG.Server.C67_refused",
    "BeagleG.Server.C67_ready",
    "BeagleG.Server.C67_fate",
    "BeagleG.Server.C67_no_leak_partial",
    "BeagleG.Server.C67_leak",
    "BeagleG.Server.C67_stale_message",
    "BeagleG.Server.C67_error_ends",
    "BeagleG.Server.C67_no_file",
    "BeagleG.Server.C67_too_many",
    "BeagleG.Server.C67_reply"
   ],
   "note": "Proved for all runs of the server in which no buffer overflows: one client at a time, the lines of the clients one after the other, reads only where select reported data, each connection with one outcome. It fails for messages of the idle machine after a client left (C67_stale_message), for the descriptor if fcntl fails (C67_leak), for a read that fails with EAGAIN (C67_error_ends), for a missing file (C67_no_file) and for very many status connections (C67_too_many)."
  },
  {
   "property": "C68",
   "status": "partial",
   "theorems": [
    "BeagleG.Gpio.C68_write",
    "BeagleG.Gpio.C68_read",
    "BeagleG.Gpio.C68_unmapped",
    "BeagleG.Gpio.C68_directions",
    "BeagleG.Gpio.C68_capes",
    "BeagleG.Gpio.C68_capes_directions",
    "BeagleG.Gpio.C68_enable",
    "BeagleG.Gpio.C68_aux",
    "BeagleG.Gpio.C68_same",
    "BeagleG.Gpio.C68_last_write",
    "BeagleG.Gpio.C68_driven",
    "BeagleG.Gpio.C68_stays_off",
    "BeagleG.Gpio.C68_inputs_untouched",
    "BeagleG.Gpio.C68_steps_untouched",
    "BeagleG.Gpio.C68_clock",
    "BeagleG.Gpio.C68_map_partial",
    "BeagleG.Gpio.C68_unmaps_failed",
    "BeagleG.Gpio.C68_start_end",
    "BeagleG.Gpio.C68_enabled_at_start"
   ],
   "note": "Proved except at the start: the enable pin becomes an output before its level is written, so motors with an active low enable pin are enabled for a moment, and stay so if the PWM timers cannot be mapped (C68_enabled_at_start). If mmap fails, munmap is called with MAP_FAILED (C68_unmaps_failed). A clock that does not start makes the program wait forever (C68_clock)."
  },
  {
   "property": "C69",
   "status": "proved",
   "theorems": [
    "BeagleG.Firmware.C69_refines",
    "BeagleG.Firmware.C69_writes_only",
    "BeagleG.Firmware.C69_progress",
    "BeagleG.Firmware.C69_capes",
    "BeagleG.Firmware.C69_headers",
    "BeagleG.Firmware.C69_slots",
    "BeagleG.Firmware.C69_bottom_zero",
    "BeagleG.Firmware.C69_leftover"
   ],
   "note": "For the whole program, instruction by instruction, on a model of the processor. The passes are those of the model of C20 and C21. The comment that the lower bytes of the status word are 0 between segments holds unless a segment ends early (C69_bottom_zero, C69_leftover)."
  },
  {
   "property": "C70",
   "status": "partial",
   "theorems": [
    "BeagleG.Firmware.C70_loop_partial",
    "BeagleG.Firmware.C70_travel_slow",
    "BeagleG.Firmware.C70_segment_partial",
    "BeagleG.Firmware.C70_first_early",
    "BeagleG.Firmware.C70_outputs",
    "BeagleG.Firmware.C70_jitter",
    "BeagleG.Firmware.C70_speed_partial",
    "BeagleG.Firmware.C70_limit_not_reached"
   ],
   "note": "The exact time is not met: only the division is compensated, so every loop takes up to 145 cycles (plus what the bus waits) longer than computed, at constant speed always at least 34 cycles (C70_travel_slow), and 1 MHz cannot be reached (C70_limit_not_reached: below 750 kHz). The first loop from rest is up to 99 cycles short (C70_first_early). Proved are these bounds for single loops, whole segments and steps at constant speed, and the window in which the outputs change. Latency of the bus is a parameter."
  },
  {
   "property": "C71",
   "status": "partial",
   "theorems": [
    "BeagleG.PruHw.C71_sizes",
    "BeagleG.PruHw.C71_device",
    "BeagleG.PruHw.C71_device_found",
    "BeagleG.PruHw.C71_paths_fit",
    "BeagleG.PruHw.C71_init",
    "BeagleG.PruHw.C71_init_pointers",
    "BeagleG.PruHw.C71_released",
    "BeagleG.PruHw.C71_regions",
    "BeagleG.PruHw.C71_runs_program",
    "BeagleG.PruHw.C71_failure_is_safe",
    "BeagleG.PruHw.C71_pruss_partial",
    "BeagleG.PruHw.C71_pruss_old_program",
    "BeagleG.PruHw.C71_shutdown",
    "BeagleG.PruHw.C71_comm_size",
    "BeagleG.PruHw.C71_alloc",
    "BeagleG.PruHw.C71_clean_partial",
    "BeagleG.PruHw.C71_bringUp",
    "BeagleG.PruHw.C71_stale_abort",
    "BeagleG.PruHw.C71_code_fits",
    "BeagleG.PruHw.Events.C71_no_lost_event",
    "BeagleG.PruHw.Events.C71_progress",
    "BeagleG.PruHw.Events.C71_not_early",
    "BeagleG.PruHw.Events.C71_order_needed"
   ],
   "note": "Proved for the genirq driver except that the unit is reset only after the queue was cleared: a program of a previous process that still runs can leave STATE_ABORT in it (C71_stale_abort; C71_clean_partial if the unit was halted). The uio_pruss driver neither resets nor verifies: if the unit still runs, the old program is started again and success reported (C71_pruss_old_program; C71_pruss_partial if it was halted). The events of both drivers are proved."
  },
  {
   "property": "C72",
   "status": "partial",
   "theorems": [
    "BeagleG.Life.C72_rights",
    "BeagleG.Life.C72_no_root",
    "BeagleG.Life.C72_refuses",
    "BeagleG.Life.C72_before",
    "BeagleG.Life.C72_groups_kept",
    "BeagleG.Life.C72_end",
    "BeagleG.Life.C72_gcode_needs",
    "BeagleG.Life.C72_reaches_loop",
    "BeagleG.Life.C72_pru",
    "BeagleG.Life.C72_param",
    "BeagleG.Life.C72_file_partial",
    "BeagleG.Life.C72_unmapped",
    "BeagleG.Life.C72_dry",
    "BeagleG.Life.C72_pru_left_running",
    "BeagleG.Life.C72_daemon_file",
    "BeagleG.Life.C72_group_root"
   ],
   "note": "Proved for the user ids, the order of the steps and the regular end. It fails for groups: without a group the ids stay those of root, and supplementary groups are never dropped (C72_groups_kept, C72_group_root). The PRU is left running if dropping rights or creating the machine control fails (C72_pru_left_running). As daemon a relative name of the G-code file is looked up in / (C72_daemon_file)."
  },
  {
   "property": "C73",
   "status": "partial",
   "theorems": [
    "BeagleG.Machine.C73_event",
    "BeagleG.Machine.C73_run",
    "BeagleG.Machine.C73_end",
    "BeagleG.Machine.C73_no_drive",
    "BeagleG.Machine.C73_no_input",
    "BeagleG.Machine.C73_inputs",
    "BeagleG.Setup.C73_dry_run",
    "BeagleG.Setup.C73_start",
    "BeagleG.Setup.C73_spindle_created",
    "BeagleG.Setup.C73_serial"
   ],
   "note": "Proved for everything behind the hardware mapping. It fails for a spindle with the Pololu controller: it is created without regard to the option, so its serial line gets the commands of the start and to stop in a dry run too (C73_spindle_created, C73_serial)."
  },
  {
   "property": "C74",
   "status": "partial",
   "theorems": [
    "BeagleG.Setup.C74_settings",
    "BeagleG.Setup.C74_accepted",
    "BeagleG.Setup.C74_default",
    "BeagleG.Spindle.Wire.C74_value",
    "BeagleG.Spindle.Wire.C74_target",
    "BeagleG.Setup.C74_pwm",
    "BeagleG.Setup.C74_pololu",
    "BeagleG.Setup.C74_unknown_type",
    "BeagleG.Setup.C74_silent",
    "BeagleG.Spindle.Wire.C74_variable",
    "BeagleG.Spindle.Wire.C74_off",
    "BeagleG.Spindle.Wire.C74_on",
    "BeagleG.Spindle.Wire.C74_init",
    "BeagleG.Spindle.Wire.C74_limit_partial",
    "BeagleG.Spindle.Wire.C74_power_off_partial",
    "BeagleG.Spindle.Wire.C74_short_read",
    "BeagleG.Spindle.Wire.C74_read_fails",
    "BeagleG.Spindle.Wire.C74_no_answer",
    "BeagleG.Machine.C74_estop_waits"
   ],
   "note": "Configuration, creation and the protocol with a controller that answers and complete reads are proved. Not: an unknown type or missing outputs are no error and M3 is then ignored without a word (C74_unknown_type, C74_silent); limits are sent modulo 2^14 (C74_limit_partial); a short read shifts all later answers by a byte, so power can go while the motor turns (C74_short_read); a failing read is taken for whatever was in the buffer (C74_read_fails); a controller that does not answer blocks the program, emergency stops included (C74_no_answer, C74_estop_waits)."
  },
  {
   "property": "C75",
   "status": "partial",
   "theorems": [
    "BeagleG.Parser.C75_reported_partial",
    "BeagleG.Parser.C49_if",
    "BeagleG.Parser.C75_noname_silent",
    "BeagleG.Parser.C75_second_comment"
   ],
   "note": "Every way to stop reading a line is listed; all that are no regular end report an error, except one: a number sign without name (#=5, #<>=5) drops the rest of the line in silence (C75_noname_silent). A second comment after a first one is reported as an error though it is none (C75_second_comment)."
  },
  {
   "property": "C76",
   "status": "partial",
   "theorems": [
    "BeagleG.Parser.C76_origin_told",
    "BeagleG.Parser.C76_initial",
    "BeagleG.Parser.C76_end_of_stream",
    "BeagleG.Parser.C76_moves_from_it",
    "BeagleG.Parser.C76_reads_back",
    "BeagleG.Parser.C76_name_after_end",
    "BeagleG.Parser.C76_name_after_reset",
    "BeagleG.Parser.C76_name_with_offset",
    "BeagleG.Machine.C76_position_shown",
    "BeagleG.Machine.C76_line",
    "BeagleG.Machine.C76_confidence"
   ],
   "note": "Proved for the position. The name is wrong in three cases: H is shown after M2/M30 though the coordinate system of before is in use (C76_name_after_end), nothing after G92.1 and G92.2 (C76_name_after_reset), and the name of the system alone if an offset of G92 applies as well (C76_name_with_offset)."
  },
  {
   "property": "C77",
   "status": "proved",
   "theorems": [
    "BeagleG.Machine.C77_position_known",
    "BeagleG.Machine.C77_at_rest",
    "BeagleG.Machine.C77_target",
    "BeagleG.Machine.C77_reported",
    "BeagleG.Machine.C77_move_and_wait",
    "BeagleG.Machine.C77_initial"
   ],
   "note": "For every history of events of the machine control, for motor backends that obey Counts and Reports (each accepted segment counts with its steps; C27 is about the backend of the code), and configurations in which no motor belongs to two axes."
  },
  {
   "property": "C78",
   "status": "partial",
   "theorems": [
    "BeagleG.Parser.C78_g30",
    "BeagleG.Machine.C78_probe_partial",
    "BeagleG.Machine.C78_exact_partial",
    "BeagleG.Machine.C78_still_moving",
    "BeagleG.Machine.C78_never_touches",
    "BeagleG.Machine.C78_no_stop"
   ],
   "note": "Proved if the machine stands when probing starts and the probe touches. If the queue is not empty then, the position read is one on the way and the result wrong by the rest of the way (C78_still_moving). If the probe never touches, the position is reported all the same, and it can be one step outside of the range (C78_never_touches). The stop input is not read while probing (C78_no_stop)."
  },
  {
   "property": "C79",
   "status": "proved",
   "theorems": [
    "BeagleG.Machine.C79_switches",
    "BeagleG.Machine.C79_places",
    "BeagleG.Machine.C79_available",
    "BeagleG.Machine.C79_status",
    "BeagleG.Machine.C79_not_seen_yet"
   ],
   "note": "Readings are those of the debounced inputs (C41). An input of which the machine has not taken notice yet is not an emergency stop (C79_not_seen_yet)."
  },
  {
   "property": "C80",
   "status": "partial",
   "theorems": [
    "BeagleG.Whole.C80_agree_partial",
    "BeagleG.Whole.C80_initial",
    "BeagleG.Whole.C80_move_recovers",
    "BeagleG.Whole.C80_home_undisturbed",
    "BeagleG.Whole.C80_reported_partial",
    "BeagleG.Whole.C80_home_without_switch",
    "BeagleG.Whole.C80_bare_axis_refused",
    "BeagleG.Whole.C80_arc_ignored",
    "BeagleG.Whole.C80_arc_interrupted"
   ],
   "note": "Proved for all texts if every move is made, homing leads to the home positions and arcs that are too short to be made end where the machine is; and after every move that is made, whatever was before. Otherwise it does not hold: homing of an axis without switch, a refused continuation of a move, an arc of radius 0, an arc that is broken off (witnesses)."
  },
  {
   "property": "C81",
   "status": "partial",
   "theorems": [
    "BeagleG.Hershey.C81_table",
    "BeagleG.Hershey.C81_width",
    "BeagleG.Hershey.C81_lines",
    "BeagleG.Hershey.C81_extent",
    "BeagleG.Hershey.C81_rows_overlap"
   ],
   "note": "Proved but for the last clause: rows are 30 units apart and glyphs reach from -7 to 25, so brackets in consecutive rows overlap (C81_rows_overlap). Exact numbers in place of float."
  },
  {
   "property": "C82",
   "status": "partial",
   "theorems": [
    "BeagleG.Visualizer.C82_box",
    "BeagleG.Visualizer.C82_tight_partial",
    "BeagleG.Visualizer.C82_parameters",
    "BeagleG.Visualizer.C82_system",
    "BeagleG.Visualizer.C82_arc_help"
   ],
   "note": "Proved if the parser makes the same calls in both passes. It does not after files that set parameters (C82_parameters) or end in another coordinate system (C82_system), because Reset keeps both; and help lines of arcs go to the center, which does not count for the frame (C82_arc_help). Tightness for files whose first program has a position and coordinates below 10^6."
  },
  {
   "property": "C83",
   "status": "partial",
   "theorems": [
    "BeagleG.Visualizer.C83_gray_partial",
    "BeagleG.Visualizer.C83_change_partial",
    "BeagleG.Visualizer.C83_rapid",
    "BeagleG.Visualizer.C83_before_first",
    "BeagleG.Visualizer.C83_speed_one",
    "BeagleG.Visualizer.C83_spindle_on"
   ],
   "note": "Proved: a gray level that is set is the right one, and it is set when the speed changes between two moves. Not right: after a rapid move, before the first speed, for speed 1 at the beginning, and for a speed given with M3 (witnesses)."
  },
  {
   "property": "C84",
   "status": "partial",
   "theorems": [
    "BeagleG.Visualizer.C84_start",
    "BeagleG.Visualizer.C84_grid",
    "BeagleG.Visualizer.C84_title_partial",
    "BeagleG.Visualizer.C84_narrow"
   ],
   "note": "The grid is proved. The title is proved for pictures that are two text sizes wide; in narrower ones its size becomes negative and it is mirrored (C84_narrow). Exact numbers in place of float."
  },
  {
   "property": "C85",
   "status": "partial",
   "theorems": [
    "BeagleG.Visualizer.C85_page_partial",
    "BeagleG.Visualizer.C85_eye",
    "BeagleG.Visualizer.C85_width",
    "BeagleG.Visualizer.C85_perspective"
   ],
   "note": "Proved without perspective, if margins amount to two points. With perspective points near to the eye leave the page (C85_perspective). The PostScript program is modelled by what its operators compute."
  },
  {
   "property": "C86",
   "status": "partial",
   "theorems": [
    "BeagleG.Visualizer.Path.C86_scale",
    "BeagleG.Visualizer.Path.C86_path_partial",
    "BeagleG.Visualizer.Path.C86_end",
    "BeagleG.Visualizer.Path.C86_defined",
    "BeagleG.Visualizer.Path.C86_colour_defined",
    "BeagleG.Visualizer.Path.C86_colour_monotone",
    "BeagleG.Visualizer.Path.C86_speed_partial",
    "BeagleG.Visualizer.Path.C86_range",
    "BeagleG.Visualizer.Path.C86_linear",
    "BeagleG.Visualizer.Path.C86_one_speed",
    "BeagleG.Visualizer.Path.C86_two_axes",
    "BeagleG.Visualizer.Path.C86_other_motor",
    "BeagleG.Visualizer.Path.C86_second_pass",
    "BeagleG.Visualizer.Path.C86_stuck_colour",
    "BeagleG.Visualizer.Path.C86_first_outside",
    "BeagleG.Visualizer.Path.C86_last_colour"
   ],
   "note": "Proved for machines that have X, Y and Z, whose motors are numbered as their axes, and paths with more than one speed; the colour is that of a speed that is not above the real one, and exact at the beginning of each segment. Witnesses for what does not hold: speed within an acceleration, a single speed, machines without Z, other motors, no homing before the second pass, the colours for lines outside of the range. Exact numbers in place of float."
  },
  {
   "property": "C87",
   "status": "partial",
   "theorems": [
    "BeagleG.Text.Number.C87_progress",
    "BeagleG.Text.Number.C87_buffer",
    "BeagleG.Text.Number.C87_chars",
    "BeagleG.Text.Number.C87_agree_partial",
    "BeagleG.Text.Number.C87_integers",
    "BeagleG.Text.Number.C87_parameters",
    "BeagleG.Text.Number.C87_configuration",
    "BeagleG.Text.Number.C87_assumption",
    "BeagleG.Text.Number.C87_exponent",
    "BeagleG.Text.Number.C87_special",
    "BeagleG.Text.Number.C87_two_signs",
    "BeagleG.Text.Number.C87_long",
    "BeagleG.Text.Number.C87_out_of_range",
    "BeagleG.Text.Number.C87_extruder"
   ],
   "note": "Each implementation reads plain numbers as written (C87_buffer up to 31 characters, C87_chars if no exponent follows, C87_integers), and what the parser assumes about the conversion holds for both. They differ for numbers followed by E and a digit (X10E5 is a million with from_chars: C87_exponent, C87_extruder), for inf and nan, two signs, long numbers and integers out of range."
  },
  {
   "property": "C88",
   "status": "partial",
   "theorems": [
    "BeagleG.Sim.C88_cycles",
    "BeagleG.Sim.C88_file_partial",
    "BeagleG.Sim.C88_lengths",
    "BeagleG.Sim.C88_pipe",
    "BeagleG.Sim.C88_long"
   ],
   "note": "Proved for files of less than four gigabytes (six hours and three quarters; longer ones have wrong lengths, C88_long) that can be positioned (pipes get eight more bytes, C88_pipe). Time is exact in the model."
  },
  {
   "property": "C89",
   "status": "partial",
   "theorems": [
    "BeagleG.Sim.C89_rows",
    "BeagleG.Sim.C89_times",
    "BeagleG.Sim.C89_average",
    "BeagleG.Sim.C89_sign",
    "BeagleG.Sim.C89_biased",
    "BeagleG.Sim.C89_other_segment",
    "BeagleG.Sim.C89_heading"
   ],
   "note": "Rows, times and steps are proved. The acceleration has the right sign, but is not the average acceleration (C89_biased), and at the beginning of a segment it is computed from loops of the segment before (C89_other_segment). Part of the heading goes to stdout (C89_heading)."
  },
  {
   "property": "C90",
   "status": "partial",
   "theorems": [
    "BeagleG.Life.Cmd.C90_forms",
    "BeagleG.Life.Cmd.C90_meaning",
    "BeagleG.Life.Cmd.C90_accepted",
    "BeagleG.Life.Cmd.C90_order",
    "BeagleG.Life.Cmd.C90_passed",
    "BeagleG.Life.Cmd.C90_file_partial",
    "BeagleG.Life.Cmd.C90_synchronous",
    "BeagleG.Life.Cmd.C90_second_file",
    "BeagleG.Life.Cmd.C90_port_and_file",
    "BeagleG.Life.Cmd.C90_emptied",
    "BeagleG.Life.Cmd.C90_no_sound",
    "BeagleG.Life.Cmd.C90_log",
    "BeagleG.Life.Cmd.C90_nan"
   ],
   "note": "Forms, meaning and acceptance are proved for all argument lists (getopt_long as in its manual). The file prevails over -S (C90_synchronous). Not refused: a speed factor or angle that is not a number (C90_nan), a second file (C90_second_file), a file with a port that is not positive (C90_port_and_file). The file of -W is emptied even if the command line is refused, and if it cannot be created this goes unnoticed."
  },
  {
   "property": "C91",
   "status": "partial",
   "theorems": [
    "BeagleG.LineBuf.C91_blocks",
    "BeagleG.LineBuf.C91_unique",
    "BeagleG.LineBuf.C91_lines_partial",
    "BeagleG.LineBuf.C91_same_partial",
    "BeagleG.LineBuf.C91_none",
    "BeagleG.LineBuf.C91_finished",
    "BeagleG.LineBuf.C91_error",
    "BeagleG.LineBuf.C91_long_line",
    "BeagleG.LineBuf.C91_cr",
    "BeagleG.LineBuf.C91_loop"
   ],
   "note": "What ReadFile passes on is proved for all files (C91_blocks, C91_unique). It agrees with the streamer, up to terminators and an empty last line, for lines of at most 8189 bytes without NUL, ended by LF or CR LF (C91_same_partial). Longer lines are cut (C91_long_line), lines ended by CR are one line (C91_cr), and bodies of loops mean something else without their line feeds (C91_loop). A read error looks like the end of the file (C91_error)."
  },
  {
   "property": "C92",
   "status": "partial",
   "theorems": [
    "BeagleG.Machine.C92_switch",
    "BeagleG.Machine.C92_pin",
    "BeagleG.Machine.C92_case_lights",
    "BeagleG.Machine.C92_fan",
    "BeagleG.Machine.C92_start",
    "BeagleG.Machine.C92_published",
    "BeagleG.Machine.C92_move_bits",
    "BeagleG.Machine.C92_finished",
    "BeagleG.Machine.C92_finished_motors",
    "BeagleG.Machine.C92_lost",
    "BeagleG.Machine.C92_stays_on",
    "BeagleG.Machine.C92_early",
    "BeagleG.Machine.C92_overwritten",
    "BeagleG.Planner.C92_in_order",
    "BeagleG.Planner.C92_from_start"
   ],
   "note": "What each code switches is proved for all states; that the bits reach the motors with their moves and in order is proved in exact arithmetic for motors that accept everything. Not satisfied: a code after the last move never takes effect (C92_lost, C92_stays_on), M64, M65, M80 and M81 publish what was to wait (C92_early), and moves in the queue undo M64 and M65 (C92_overwritten)."
  },
  {
   "property": "C93",
   "status": "partial",
   "theorems": [
    "BeagleG.Parser.C93_names",
    "BeagleG.Parser.C93_g10",
    "BeagleG.Parser.C93_select",
    "BeagleG.Parser.C93_kept_g10",
    "BeagleG.Parser.C93_kept_select",
    "BeagleG.Parser.C93_kept_store",
    "BeagleG.Parser.C93_kept_program",
    "BeagleG.Parser.C93_restart",
    "BeagleG.Parser.C93_fresh",
    "BeagleG.Parser.C93_written"
   ],
   "note": "Names and effects of the commands are proved for every arithmetic, the restart in exact arithmetic (the file keeps six decimals, C11). Not satisfied when a program writes these parameters or M501 loads them: they then contradict the systems in use (C93_written)."
  },
  {
   "property": "C94",
   "status": "partial",
   "theorems": [
    "BeagleG.Whole.C94_counts",
    "BeagleG.Whole.C94_reports",
    "BeagleG.Whole.C94_lawful",
    "BeagleG.Whole.C94_free",
    "BeagleG.Whole.C94_time",
    "BeagleG.Whole.C94_host_partial",
    "BeagleG.Whole.C94_text_to_steps_partial",
    "BeagleG.Whole.C94_aux_log",
    "BeagleG.Whole.C94_aux",
    "BeagleG.Whole.C94_example"
   ],
   "note": "The motor operations are shown to obey the laws that C35, C56, C77, C80 and C92 assume of the motors, and the chain from the text to the pulses is composed. The hypotheses of C80 (no refused move, no arc left out) remain, the firmware aborts no segment, and motors without an axis are not considered; homing and probing are C78 and C80. The auxiliary bits are in exact arithmetic."
  },
  {
   "property": "C95",
   "status": "partial",
   "theorems": [
    "BeagleG.Text.C95_of_c",
    "BeagleG.Text.C95_whole",
    "BeagleG.Text.C95_substr",
    "BeagleG.Text.C95_substr_rest",
    "BeagleG.Text.C95_substr_not_cut",
    "BeagleG.Text.C95_substr_wraps",
    "BeagleG.Text.C95_equal",
    "BeagleG.Text.C95_equal_nul",
    "BeagleG.Text.C95_find_first",
    "BeagleG.Text.C95_find_first_behind",
    "BeagleG.Text.C95_find_first_nul",
    "BeagleG.Text.C95_find",
    "BeagleG.Text.C95_find_unique",
    "BeagleG.Text.C95_remove_prefix",
    "BeagleG.Text.C95_split",
    "BeagleG.Text.C95_split_nul",
    "BeagleG.Text.C95_printf",
    "BeagleG.Text.C95_printf_long",
    "BeagleG.Text.C95_printf_fails"
   ],
   "note": "Proved for positions and lengths within the view, texts without NUL, and find_first_of on whole C strings, which is how the program uses them; find and remove_prefix without conditions. It does not hold for a length beyond the end (assertion), a position behind the end (view of 2^64 characters), texts with NUL (comparison stops there, SplitString splits there) and find_first_of on parts of a text, which looks behind the end. StringPrintf fills texts of 1024 and more characters with NUL from the 1024th on."
  },
  {
   "property": "C96",
   "status": "partial",
   "theorems": [
    "BeagleG.Stats.Tool.C96_usage",
    "BeagleG.Stats.Tool.C96_rows_partial",
    "BeagleG.Stats.Tool.C96_count",
    "BeagleG.Stats.Tool.C96_alone",
    "BeagleG.Stats.Tool.C96_dash_twice",
    "BeagleG.Stats.Tool.C96_unfit",
    "BeagleG.Stats.Tool.C96_accepted",
    "BeagleG.Stats.Tool.C96_settings",
    "BeagleG.Stats.Tool.C96_angles",
    "BeagleG.Stats.Tool.C96_finished",
    "BeagleG.Stats.Tool.C96_aligned",
    "BeagleG.Stats.Tool.C96_scan",
    "BeagleG.Stats.Tool.C96_header",
    "BeagleG.Stats.Tool.C96_code"
   ],
   "note": "Proved: the exact condition for the usage, what a finished run prints, one row per file in order, each depending on its file only, acceptance independent of homing settings, alignment. Violated and shown with witnesses: a second - is never processed, the exit code is 0 even if nothing was processed (also with a configuration the machine control refuses), and the angles are -1 and 0 instead of the 10 and 60 degrees of the machine control. The parser with the machine control is a parameter here (C50)."
  },
  {
   "property": "C97",
   "status": "partial",
   "theorems": [
    "BeagleG.Pwm.C97_pins",
    "BeagleG.Pwm.C97_separate",
    "BeagleG.Pwm.C97_calls",
    "BeagleG.Pwm.C97_map",
    "BeagleG.Pwm.C97_lost",
    "BeagleG.Pwm.C97_clocks",
    "BeagleG.Pwm.C97_failed",
    "BeagleG.Pwm.C97_init",
    "BeagleG.Pwm.C97_reset",
    "BeagleG.Pwm.C97_output_partial",
    "BeagleG.Pwm.C97_too_large",
    "BeagleG.Pwm.C97_seen_init",
    "BeagleG.Pwm.C97_seen",
    "BeagleG.Pwm.C97_capes",
    "BeagleG.Pwm.C97_cramps",
    "BeagleG.Pwm.C97_again",
    "BeagleG.Pwm.C97_munmap_failed"
   ],
   "note": "Violated: none of the PWM outputs of CRAMPS has a timer; a value above 1 keeps the old duty cycle; on a second mapping only the first timer is cleared; munmap is called with MAP_FAILED. Otherwise for all pins, capes, sequences of calls and answers of the system; values in exact arithmetic."
  },
  {
   "property": "C98",
   "status": "partial",
   "theorems": [
    "BeagleG.Log.C98_columns",
    "BeagleG.Log.C98_time",
    "BeagleG.Log.C98_colours",
    "BeagleG.Log.C98_line_partial",
    "BeagleG.Log.C98_syslog",
    "BeagleG.Log.C98_file",
    "BeagleG.Log.C98_readable",
    "BeagleG.Log.C98_start",
    "BeagleG.Log.C98_init",
    "BeagleG.Log.C98_options",
    "BeagleG.Log.C98_again",
    "BeagleG.Log.C98_memory",
    "BeagleG.Log.C98_two_lines"
   ],
   "note": "Violated without memory (the length -1 is used), for a message of several lines, and for a second Log_init (colours stay). Otherwise for all messages, times and answers of open and isatty; writes are complete."
  },
  {
   "property": "C99",
   "status": "partial",
   "theorems": [
    "BeagleG.Adc.C99_number",
    "BeagleG.Adc.C99_channel",
    "BeagleG.Adc.C99_files",
    "BeagleG.Adc.C99_answer",
    "BeagleG.Adc.C99_verbatim",
    "BeagleG.Adc.C99_text"
   ],
   "note": "Violated: a file without a number reads as 0 instead of -1. Otherwise for all contents of the files and all 32 bit numbers."
  },
  {
   "property": "C100",
   "status": "partial",
   "theorems": [
    "BeagleG.Visualizer.Options.C100_angle_partial",
    "BeagleG.Visualizer.Options.C100_bad_angle",
    "BeagleG.Visualizer.Options.C100_view",
    "BeagleG.Visualizer.Options.C100_last",
    "BeagleG.Visualizer.Options.C100_usage",
    "BeagleG.Visualizer.Options.C100_scan",
    "BeagleG.Visualizer.Options.C100_rotations",
    "BeagleG.Visualizer.Options.C100_picture",
    "BeagleG.Visualizer.Options.C100_unreadable",
    "BeagleG.Visualizer.Options.C100_parts",
    "BeagleG.Visualizer.Options.C100_effective",
    "BeagleG.Visualizer.Options.C100_defaults",
    "BeagleG.Visualizer.Options.C100_origin",
    "BeagleG.Visualizer.Options.C100_initial",
    "BeagleG.Visualizer.Options.C100_unset",
    "BeagleG.Visualizer.Options.C100_units",
    "BeagleG.Visualizer.Options.C100_margins",
    "BeagleG.Visualizer.Options.C100_code",
    "BeagleG.Visualizer.Options.C100_emptied"
   ],
   "note": "Violated: a G-code file that cannot be read gives an empty picture and success; -o empties its file even if only the usage is printed; empty angles, inf and nan are copied into the PostScript program. Otherwise for all command lines, files and configurations; the parts of the picture themselves are C82 to C86."
  },
  {
   "property": "C101",
   "status": "proved",
   "theorems": [
    "BeagleG.Visualizer.C101_frame",
    "BeagleG.Visualizer.C101_home",
    "BeagleG.Visualizer.C101_numbers",
    "BeagleG.Visualizer.C101_units",
    "BeagleG.Visualizer.C101_line",
    "BeagleG.Visualizer.C101_measures",
    "BeagleG.Visualizer.C101_longest",
    "BeagleG.Visualizer.C101_legend",
    "BeagleG.Visualizer.C101_labels",
    "BeagleG.Visualizer.C101_absent"
   ],
   "note": "In exact arithmetic; the text of a number is a parameter, how it is drawn is C81."
  },
  {
   "property": "C102",
   "status": "partial",
   "theorems": [
    "BeagleG.Visualizer.Ps.C102_marks",
    "BeagleG.Visualizer.Ps.C102_page",
    "BeagleG.Visualizer.Ps.C102_begin",
    "BeagleG.Visualizer.Ps.C102_lines",
    "BeagleG.Visualizer.Ps.C102_moves_partial",
    "BeagleG.Visualizer.Ps.C102_restart",
    "BeagleG.Visualizer.Ps.C102_no_point"
   ],
   "note": "Proved for programs that start once, with the machine origin in the picture and without -l (gray levels are C83). It fails behind the end of a program (M2, M30) in the middle of a file: gcode_start comes again, the next line begins at the origin of the machine and a rapid move is painted black (C102_restart)."
  },
  {
   "property": "C103",
   "status": "proved",
   "theorems": [
    "BeagleG.Setup.C103_summary",
    "BeagleG.Setup.C103_motors",
    "BeagleG.Setup.C103_form",
    "BeagleG.Setup.C103_never_none",
    "BeagleG.Setup.C103_home",
    "BeagleG.Setup.C103_line"
   ],
   "note": "The parts of a line are kept apart; printing them one behind the other is left out."
  },
  {
   "property": "C104",
   "status": "partial",
   "theorems": [
    "BeagleG.Visualizer.Title.C104_below_partial",
    "BeagleG.Visualizer.Title.C104_upside_down",
    "BeagleG.Visualizer.Title.C104_comment_partial",
    "BeagleG.Visualizer.Title.C104_executed"
   ],
   "note": "Proved for titles of one line in pictures that are two text sizes wide. A title with an end of line is executed as PostScript from its second line on (C104_executed), in narrower pictures it is upside down (C104_upside_down). What ends a comment is taken from the PostScript reference."
  },
  {
   "property": "C105",
   "status": "partial",
   "theorems": [
    "BeagleG.Life.Help.C105_control_partial",
    "BeagleG.Life.Help.C105_distinct",
    "BeagleG.Life.Help.C105_angles",
    "BeagleG.Life.Help.C105_hidden",
    "BeagleG.Life.Help.C105_log",
    "BeagleG.Life.Help.C105_defaults",
    "BeagleG.Life.Help.C105_picture",
    "BeagleG.Life.Help.C105_picture_hidden",
    "BeagleG.Life.Help.C105_stats"
   ],
   "note": "Proved for all lines but two: --threshold-angle and --speed-tune-angle are shown without the argument they take (C105_angles). The default of the log is another one for a daemon than the text says (C105_log)."
  },
  {
   "property": "C106",
   "status": "partial",
   "theorems": [
    "BeagleG.Machine.C106_on",
    "BeagleG.Machine.C106_off",
    "BeagleG.Machine.C106_stops",
    "BeagleG.Machine.C106_input",
    "BeagleG.Machine.C106_stays_off",
    "BeagleG.Machine.C106_pwm",
    "BeagleG.Machine.C106_early",
    "BeagleG.Machine.C106_early_off",
    "BeagleG.Machine.C106_in_estop",
    "BeagleG.Machine.C106_estop_on"
   ],
   "note": "What the spindle is told, and that only M3 and M4 start it, is proved for all histories and all spindles. The path is planned to a halt before, but the motors are not waited for (C106_early, C106_early_off), and in emergency stop M3 and M4 start it (C106_in_estop, C106_estop_on)."
  },
  {
   "property": "C107",
   "status": "partial",
   "theorems": [
    "BeagleG.FdMux.C107_returns",
    "BeagleG.FdMux.C107_handlers",
    "BeagleG.FdMux.C107_same",
    "BeagleG.FdMux.C107_prompt",
    "BeagleG.FdMux.C107_true_partial",
    "BeagleG.FdMux.C107_pipe_partial",
    "BeagleG.FdMux.C107_pipe_ends"
   ],
   "note": "Proved but for SIGPIPE: while handlers run it changes nothing (C107_pipe_partial), but one that arrives while select waits ends the loop with the result true, although descriptors are registered (C107_pipe_ends), and its handler stays behind the loop (C107_handlers). True is also returned when select fails (C107_true_partial). The handlers are installed in one step; what POSIX says of signals and select is assumed."
  },
  {
   "property": "C108",
   "status": "proved",
   "theorems": [
    "BeagleG.Visualizer.Path.C108_colours",
    "BeagleG.Visualizer.Path.C108_table",
    "BeagleG.Visualizer.Path.C108_lighter"
   ],
   "note": "How light a colour is without colours is taken from the PostScript reference. The table is copied from the source."
  },
  {
   "property": "C109",
   "status": "partial",
   "theorems": [
    "BeagleG.Sim.C109_said_partial",
    "BeagleG.Sim.C109_index",
    "BeagleG.Sim.C109_silent",
    "BeagleG.Sim.C109_rows"
   ],
   "note": "Violated by the source: the beginning of a phase is only reported if the segment begins with it (C109_silent). What is said in each pass is proved for all segments."
  },
  {
   "property": "C110",
   "status": "partial",
   "theorems": [
    "BeagleG.Setup.Shipped.C110_sample_partial",
    "BeagleG.Setup.Shipped.C110_outputs",
    "BeagleG.Setup.Shipped.C110_motors",
    "BeagleG.Setup.Shipped.C110_missing",
    "BeagleG.Setup.Shipped.C110_spindle",
    "BeagleG.Setup.Shipped.C110_bumps",
    "BeagleG.Setup.Shipped.C110_vgen5",
    "BeagleG.Setup.Shipped.C110_complete"
   ],
   "note": "Violated by the source for sample.config: motors without connector are accepted, two outputs share a pin on VGEN5. The values are those of exact numbers. The files are copied into the model line by line."
  }
 ]
}