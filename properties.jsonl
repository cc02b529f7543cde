{"id": "C01", "title": "RingDeque behaves like a bounded double-ended queue", "statement": "After any sequence of append / pop_front / pop_back calls that respects the documented bounds (append only when size()<capacity(), pop only when non-empty), size(), empty(), operator[](i) for every i<size(), and back() return exactly what an ideal list that was appended at the back and popped at either end would return; capacity is one less than the template argument.", "quantifier": "every capacity >= 2, every element type and value, every legal operation history of any length, including arbitrarily many wrap-arounds", "why_tests_cant": "The interesting states are reached only after wrap-arounds; a test samples a handful of head/tail offsets and one capacity.", "anchors": ["src/common/container.h:RingDeque"]}
{"id": "C02", "title": "Line reader delivers every line exactly once, independent of how input is chunked", "statement": "Feeding a byte stream to LinebufReader through any sequence of reads of any sizes and draining complete lines after each read yields exactly the lines of the stream, in order, each once, with the terminator removed, and keeps the unterminated rest; the result depends only on the bytes, not on where the reads were cut.", "quantifier": "every LF-, CRLF- or CR-terminated byte stream, every partition of it into reads, every buffer content and position that fits", "why_tests_cant": "The number of ways to cut a stream grows exponentially with its length, and the buffer-compaction path depends on the history of reads.", "anchors": ["src/common/linebuf-reader.cc:LinebufReader::Update", "src/common/linebuf-reader.cc:LinebufReader::ReadAndConsumeLine", "src/common/linebuf-reader.h:LinebufReader"]}
{"id": "C03", "title": "The style of line ending does not change the delivered lines", "statement": "The lines delivered for a text are the same whether its lines are terminated with LF, with CR LF or with CR, also when a read boundary falls between the CR and the LF, and also when different lines of one stream use different terminators.", "quantifier": "every list of lines, every choice of terminator per line, every chunking", "why_tests_cant": "Mixed terminators combined with arbitrary chunk boundaries are an infinite family; the existing tests only use a few fixed strings.", "anchors": ["src/common/linebuf-reader.cc:LinebufReader::ReadAndConsumeLine"]}
{"id": "C04", "title": "The line reader never touches memory outside its buffer", "statement": "No sequence of Update, ReadAndConsumeLine, IncompleteLine and Flush calls, with a reader callback that returns at most the number of bytes it was offered, reads or writes a byte outside the buffer allocated by the constructor, and the three internal positions stay ordered.", "quantifier": "every buffer size, every sequence of calls, every behaviour of the read callback within its contract", "why_tests_cant": "An out-of-bounds write needs the buffer to be exactly full at end of file; random tests with a 16 KiB buffer never reach it.", "anchors": ["src/common/linebuf-reader.cc:LinebufReader::IncompleteLine", "src/common/linebuf-reader.cc:LinebufReader::Update"]}
{"id": "C05", "title": "The event multiplexer calls exactly the handlers that are registered and ready", "statement": "In one cycle every readable handler whose descriptor select() reported as ready is called exactly once, no other handler is called, a handler that returns false is unregistered and is not called again until it is registered anew, one that returns true stays registered; on a timeout every idle handler is called exactly once under the same rule; at most one handler is registered per descriptor (a second registration is refused and changes nothing).", "quantifier": "every set of registered handlers, every result of select(), every return value of every handler, every sequence of cycles", "why_tests_cant": "The set of ready descriptors and return values in each cycle is chosen by the environment; tests exercise single descriptors.", "anchors": ["src/common/fd-mux.cc:FDMultiplexer::CallHandlers", "src/common/fd-mux.cc:FDMultiplexer::SingleCycle", "src/common/fd-mux.cc:FDMultiplexer::RunOnReadable"]}
{"id": "C06", "title": "Splitting and trimming of text lose nothing", "statement": "SplitString returns one more piece than there are separator characters, no piece contains a separator, and interleaving the pieces with the separators gives the input back; TrimWhitespace returns the unique substring obtained by removing all leading and trailing white space and is idempotent; HasPrefix is true exactly for prefixes.", "quantifier": "every byte string without NUL, every set of separators", "why_tests_cant": "Corner cases (empty string, separators at the ends, only white space) combine without bound.", "anchors": ["src/common/string-util.cc:SplitString", "src/common/string-util.cc:TrimWhitespace", "src/common/string-util.cc:HasPrefix", "src/common/string-util.cc:ToLower"]}
{"id": "C07", "title": "Keyword lexer always takes the longest registered keyword", "statement": "Given any set of registered keywords, MatchNext returns the value of the longest registered keyword that is a case-insensitive prefix of the input and advances the input exactly past it and following white space; if no keyword is a prefix it returns 0 and does not move the input; ExpectNext moves the input only if that keyword is the expected one.", "quantifier": "every finite keyword table in any registration order and every input text", "why_tests_cant": "Ambiguous prefixes ('<','<=', '*','**') interact with arbitrary following text; tests use one table.", "anchors": ["src/gcode-parser/simple-lexer.cc:SimpleLexerBase::ConsumeKeyword", "src/gcode-parser/simple-lexer.cc:SimpleLexerBase::AddKeywordAtNode", "src/gcode-parser/simple-lexer.h:SimpleLexer"]}
{"id": "C08", "title": "Expressions follow operator precedence and left associativity", "statement": "The value computed for '[...]' is the value of the expression tree of the text: '**' binds tightest, then * / MOD, then + - AND OR XOR, then the comparisons; operators of equal strength associate to the left; a minus in front of an operand binds like a multiplication by -1. Every expression without such a minus is evaluated, whatever its length and nesting; with a minus it is evaluated as long as at most 5 operators are waiting at one bracket level, and never to a wrong value.", "quantifier": "every text accepted as an expression and every well-formed expression of any length and nesting, every parameter memory, arbitrary semantics of the arithmetic operations", "why_tests_cant": "Precedence interactions depend on the whole operator sequence; a test evaluates fixed formulas.", "anchors": ["src/gcode-parser/gcode-parser.cc:gcodep_expression", "src/gcode-parser/gcode-parser.cc:precedence"]}
{"id": "C09", "title": "Evaluating an expression never overruns the evaluation stack", "statement": "Whatever text is written between brackets, evaluating it never reads or writes an operand or operator slot outside the fixed-size evaluation stack; an expression too deep for the stack is reported as an error.", "quantifier": "every input line", "why_tests_cant": "The overrun needs a particular alternation of '**' and unary minus that no ordinary test uses and that silently corrupts memory when it happens.", "anchors": ["src/gcode-parser/gcode-parser.cc:gcodep_expression"]}
{"id": "C10", "title": "Parameters behave like variables", "statement": "Reading a parameter returns the last value successfully stored in it, an unset parameter reads as 0 (an unset single axis letter reads as the position on that axis), storing one parameter never changes another, parameter 0 always reads 0 and cannot be written, numeric parameters >= 5400 are rejected with an error, and names are case-insensitive.", "quantifier": "every history of parameter reads and writes by a G-code program; parameter files that are loaded do not contain refused numbers", "why_tests_cant": "A property of arbitrary histories over an unbounded name space.", "anchors": ["src/gcode-parser/gcode-parser.cc:store_parameter", "src/gcode-parser/gcode-parser.cc:read_parameter", "src/gcode-parser/gcode-parser.cc:gcodep_set_parameter"]}
{"id": "C11", "title": "Saved parameters come back after a restart", "statement": "After SaveParams succeeds, a fresh LoadParams yields for every numeric parameter other than 0 and every global ('_...') parameter the value it had, up to the six printed decimals, and 0 for those that were 0; non-global names are not persisted.", "quantifier": "every parameter memory that a program can create", "why_tests_cant": "Depends on the ordering of arbitrary parameter names in the map; one unlucky name makes all others disappear.", "anchors": ["src/gcode-parser/gcode-parser-config.cc:GCodeParser::Config::SaveParams", "src/gcode-parser/gcode-parser-config.cc:GCodeParser::Config::LoadParams"]}
{"id": "C12", "title": "A crash while saving parameters never loses both the old and the new set", "statement": "Whatever the point at which the process is killed during SaveParams, the file system contains, complete, either the previous parameter file or the new one under the parameter file name, its '.bak' or its '.tmp' name; and the parameter file itself is never present with partial content.", "quantifier": "every crash point between any two file-system operations, every previous and new content, every failure of an individual operation", "why_tests_cant": "A test cannot enumerate kill points inside a library call sequence.", "anchors": ["src/gcode-parser/gcode-parser-config.cc:GCodeParser::Config::SaveParams"]}
{"id": "C13", "title": "Commanded coordinates are translated to machine coordinates by the selected work coordinate system", "statement": "A coordinate word on an axis results in the machine position origin(axis) + unit*value (times the scale factor of G51) in absolute mode, where origin is that of the currently selected coordinate system (G54..G59.3) plus an active G92 offset, and position + unit*value (times the scale factor) in relative mode; axes that are not mentioned do not move.", "quantifier": "every history of G10/G54-G59.3/G90/G91/G92/G92.1-3/G20/G21/M82/M83/move commands, every value", "why_tests_cant": "The result depends on the whole modal history.", "anchors": ["src/gcode-parser/gcode-parser.cc:abs_axis_pos", "src/gcode-parser/gcode-parser.cc:change_coord_system", "src/gcode-parser/gcode-parser.cc:handle_G10", "src/gcode-parser/gcode-parser.cc:handle_move"]}
{"id": "C14", "title": "G92 makes the current position read as the given coordinates and can be undone exactly", "statement": "Right after G92 with values on some axes, the current position expressed in the active coordinate system is exactly those values on these axes and unchanged on the others, and the machine does not move; G92.2 restores the coordinate system without offset, G92.3 re-activates the same offset, G92.1 clears it permanently; selecting another work coordinate system behaves as specified in the model for an active offset.", "quantifier": "every modal history, every set of axes and values", "why_tests_cant": "Offsets, suspended offsets and coordinate-system changes interact over unbounded histories.", "anchors": ["src/gcode-parser/gcode-parser.cc:handle_G92", "src/gcode-parser/gcode-parser.cc:set_current_origin", "src/gcode-parser/gcode-parser.cc:change_coord_system"]}
{"id": "C15", "title": "A move that the machine refuses leaves the parser's position unchanged", "statement": "If the event receiver refuses a move (returns false), a following relative move starts from the position before the refused move, and parameters, coordinate systems and modes are unaffected.", "quantifier": "every parser state, every move command (rapid, linear, arc, spline and lines with bare axis words), every decision of the receiver", "why_tests_cant": "Needs refusals at arbitrary points in arbitrary programs.", "anchors": ["src/gcode-parser/gcode-parser.cc:handle_move", "src/gcode-parser/gcode-parser.cc:handle_arc", "src/gcode-parser/gcode-parser.cc:ParseBlock"]}
{"id": "C16", "title": "Arcs and splines end exactly at the commanded point and stop at the first refused segment", "statement": "Every arc or spline that is accepted and not degenerate issues moves of which the last is exactly the commanded target, all with the commanded feed; once one segment is refused no further segment is issued and the command is reported as failed.", "quantifier": "every start, target, center, radius, plane, direction, every arithmetic (rounding) behaviour and every pattern of refusals", "why_tests_cant": "Rounding in the number of segments could shift the end point; refusals can occur at any segment.", "anchors": ["src/gcode-parser/arc-gen.cc:arc_gen", "src/gcode-parser/arc-gen.cc:spline_gen"]}
{"id": "C17", "title": "Every line received on a connection is parsed once, in order, and the end of the stream is announced once", "statement": "For every connection the parser receives exactly the lines of the byte stream in order, an unterminated last line included, gcode_finished(end_of_stream) is announced exactly once after the last line, the descriptor is closed exactly once, and a second stream cannot be connected while one is active.", "quantifier": "every byte stream (uniform terminators), every sequence of readiness events, read sizes, idle timeouts and read errors", "why_tests_cant": "Arbitrary interleaving of read events, timeouts and connection attempts.", "anchors": ["src/gcode-parser/gcode-streamer.cc:GCodeStreamer::ReadData", "src/gcode-parser/gcode-streamer.cc:GCodeStreamer::ConnectStream"]}
{"id": "C18", "title": "Parsing never runs past the end of a line", "statement": "Whatever bytes a line contains, splitting it into letter/value pairs, comments and parameters never reads beyond the terminating NUL.", "quantifier": "every NUL-terminated line", "why_tests_cant": "Out-of-bounds reads are usually invisible in tests; the offending input is an unterminated comment at the end of a line.", "anchors": ["src/gcode-parser/gcode-parser.cc:gcodep_parse_pair_with_linenumber", "src/gcode-parser/gcode-parser.cc:skip_white"]}
{"id": "C19", "title": "Splitting a long move into hardware segments loses no step", "statement": "Whatever the number of steps requested per motor, the segments handed to the motion backend add up, per motor, exactly to the requested signed number of steps; every segment has at least one and at most 32767 steps on its longest axis, and its loop counts fit the 16-bit hardware fields.", "quantifier": "every combination of eight signed 32-bit step counts other than INT_MIN (whose absolute value is undefined)", "why_tests_cant": "2^256 inputs; off-by-one rounding would show up only for particular ratios.", "anchors": ["src/motion-queue-motor-operations.cc:MotionQueueMotorOperations::Enqueue", "src/motion-queue-motor-operations.cc:MotionQueueMotorOperations::EnqueueInternal"]}
{"id": "C20", "title": "The firmware emits exactly the requested number of step pulses on every motor", "statement": "Executing one hardware segment toggles each motor's step output so that the number of rising edges is exactly the absolute number of steps requested for that motor, all step lines are low again at the end of the segment, and no motor ever gets ahead of or behind its ideal straight-line position by more than one step during the segment.", "quantifier": "every segment that Enqueue can produce (1..32767 steps on the longest axis, any smaller count on the seven others)", "why_tests_cant": "The fixed-point fraction is truncated; that the truncation never loses the last pulse has to hold for all (steps, defining steps) pairs and all intermediate loop counts.", "anchors": ["src/motor-interface-pru.p:STEP_GEN", "src/motor-interface-pru.p:CalculateDelay", "src/sim-firmware.cc:SimFirmwareQueue::Enqueue", "src/motion-queue-motor-operations.cc:EnqueueInternal"]}
{"id": "C21", "title": "Motors turn in the commanded direction", "statement": "For each motor the direction output during a segment is asserted exactly if the sign of its steps, mirrored when the motor is configured as mirrored, is negative; the net position change reported back for the motor equals the commanded signed steps.", "quantifier": "every segment, every mirror configuration", "why_tests_cant": "256 mirror configurations times arbitrary sign patterns.", "anchors": ["src/motion-queue-motor-operations.cc:MotionQueueMotorOperations::EnqueueInternal", "src/hardware-mapping.cc:HardwareMapping::IsMotorFlipped"]}
{"id": "C22", "title": "The firmware's division is exact", "statement": "The 32-step shift/subtract division used by the step-timing firmware returns the exact quotient and remainder for every 32-bit dividend and every non-zero 32-bit divisor.", "quantifier": "all 2^64 operand pairs", "why_tests_cant": "2^64 pairs; and the carry out of the shifted remainder must never be lost.", "anchors": ["src/idiv.hp:idiv_macro"]}
{"id": "C23", "title": "Host and firmware exchange segments in FIFO order without loss or duplication", "statement": "For every interleaving of the host filling queue slots and the firmware executing them, the sequence of segments executed is exactly the sequence of segments enqueued (a prefix of it at any time); the firmware never acts on a partially written slot and the host never overwrites a slot that has not been executed.", "quantifier": "every schedule of host and firmware steps (instruction-level interleaving of slot writes and state flips), every number of segments, no emergency stop", "why_tests_cant": "Concurrent interleavings across two processors cannot be enumerated by tests.", "anchors": ["src/pru-motion-queue.cc:PRUMotionQueue::Enqueue", "src/motor-interface-pru.p:QUEUE_READ", "src/motor-interface-pru.p:DONE_STEP_GEN"]}
{"id": "C24", "title": "The number of pending segments reported by the backend is right", "statement": "When the host asks for the pending elements without an emergency stop having occurred, the returned count is 0 only if the firmware has executed everything, and otherwise counts the segments from the one the firmware's published status refers to up to the last one enqueued; it never under-reports the number of unexecuted segments.", "quantifier": "every reachable state of the host/firmware protocol under every schedule", "why_tests_cant": "Depends on races between status publication, slot state and host position.", "anchors": ["src/pru-motion-queue.cc:PRUMotionQueue::GetPendingElements", "src/motor-interface-pru.p:UpdateQueueStatus"]}
{"id": "C25", "title": "WaitQueueEmpty and Shutdown return only when everything was executed", "statement": "When WaitQueueEmpty returns without an abort, every segment enqueued before has been executed completely; Shutdown with flush returns only after all segments and the exit marker were consumed, and the motors are disabled afterwards.", "quantifier": "every schedule and every history without emergency stop", "why_tests_cant": "Needs all interleavings of completion and waiting.", "anchors": ["src/pru-motion-queue.cc:PRUMotionQueue::WaitQueueEmpty", "src/pru-motion-queue.cc:PRUMotionQueue::Shutdown"]}
{"id": "C26", "title": "An emergency stop reaches the host as an abort and stops stepping", "statement": "When the emergency-stop input is active the firmware performs at most the step in progress and then no further step of any queued segment while the input stays active; every segment it drops is marked aborted, the host's next use of such a slot reports the abort, and a slot is never both aborted and executed to the end.", "quantifier": "every schedule, every queue content, every timing of the stop input", "why_tests_cant": "The stop can arrive at any loop of any segment.", "anchors": ["src/motor-interface-pru.p:STEP_GEN", "src/pru-motion-queue.cc:PRUMotionQueue::Enqueue"]}
{"id": "C27", "title": "The reported motor position follows the firmware exactly at segment boundaries and monotonically in between", "statement": "With a backend that reports how many segments and loops are outstanding, GetPhysicalStatus returns exactly the commanded end position when nothing is outstanding, the exact start position of the last segment when it has not begun, and in between a position on the path that never overshoots either end.", "quantifier": "every sequence of enqueued segments, every progress report of the backend in which count and loops belong together", "why_tests_cant": "The shadow history must stay aligned with the hardware queue through arbitrary interleavings of enqueues and queries.", "anchors": ["src/motion-queue-motor-operations.cc:MotionQueueMotorOperations::GetPhysicalStatus", "src/motion-queue-motor-operations.cc:MotionQueueMotorOperations::SetExternalPosition"]}
{"id": "C28", "title": "The dry-run simulation agrees with the real firmware on steps", "statement": "For every segment, the software simulation of the firmware and the firmware itself perform the same number of loops and the same number of signed steps on every motor.", "quantifier": "every hardware segment", "why_tests_cant": "Two independently written implementations must agree on every input.", "anchors": ["src/sim-firmware.cc:SimFirmwareQueue::Enqueue", "src/motor-interface-pru.p:STEP_GEN"]}
{"id": "C29", "title": "Planned motion never drifts: all emitted steps add up to the rounded target", "statement": "After any sequence of moves followed by a flush, the sum of the steps emitted for each motor equals the rounded position of the last target minus the starting position; rounding errors of individual moves and the choice of acceleration phases never accumulate.", "quantifier": "every sequence of targets, speeds, flushes and look-ahead sizes <= 1023, every floating point outcome of speed planning, no abort by the backend", "why_tests_cant": "Drift is only visible over long histories and depends on the planner's internal phase splitting.", "anchors": ["src/planner.cc:Planner::Impl::machine_move", "src/planner.cc:Planner::Impl::issue_motor_move_if_possible", "src/planner.cc:subtract_steps"]}
{"id": "C30", "title": "The look-ahead buffer never overflows", "statement": "For every look-ahead size that SetLookahead accepts, no sequence of moves makes the planning buffer exceed its capacity.", "quantifier": "every accepted look-ahead size, every sequence of moves", "why_tests_cant": "Only a run of more than a thousand un-flushed moves exposes the off-by-one.", "anchors": ["src/planner.cc:Planner::Impl::SetLookahead", "src/planner.cc:Planner::Impl::machine_move", "src/common/container.h:RingDeque"]}
{"id": "C31", "title": "Acceleration, travel and deceleration phases partition every segment", "statement": "For every planned segment the numbers of acceleration, travel and deceleration steps are non-negative and add up to the number of steps of its defining axis.", "quantifier": "every queue of planned segments, all speeds and accelerations over exact arithmetic, every configuration in which corner speeds are not negative", "why_tests_cant": "Real-valued speeds and intersections are continuous inputs.", "anchors": ["src/planner.cc:Planner::Impl::DecelerationPlanSegment", "src/planner.cc:Planner::Impl::AccelerationPlanSegment", "src/planner.cc:Planner::Impl::UpdateMotionProfile"]}
{"id": "C32", "title": "Planned speeds stay within limits and are reachable with the configured acceleration", "statement": "In exact arithmetic, every planned segment's entry, peak and exit speed is non-negative and at most its target speed, the planned peak speed is reachable from the entry speed and the exit speed from the peak within the acceleration limit over the planned steps, the exit speed never exceeds what the next segment allows, and the last segment ends at the halt speed.", "quantifier": "every queue of segments with non-negative speeds and positive acceleration", "why_tests_cant": "A continuous, history-dependent optimisation.", "anchors": ["src/planner.cc:Planner::Impl::UpdateMotionProfile", "src/planner.cc:clamp_defining_axis_limit"]}
{"id": "C33", "title": "No commanded position outside the machine cube reaches the motors", "statement": "With range checking enabled, every target accepted for a rapid or coordinated move has every non-rotational axis >= 0 and, where a range is configured, <= that range; a target violating this is refused, causes no motor activity and is answered with an error.", "quantifier": "every configuration, every target, every origin offset, every state", "why_tests_cant": "Every combination of axis, offset and range.", "anchors": ["src/gcode-machine-control.cc:move_allowed_within_machine_limits", "src/gcode-machine-control.cc:coordinated_move", "src/gcode-machine-control.cc:rapid_move"]}
{"id": "C34", "title": "Without homing no move is executed when homing is required", "statement": "If homing is required, no rapid or coordinated move and no probe produces motor activity before the first completed homing and after an emergency stop until the machine is homed again.", "quantifier": "every sequence of G-code events and switch readings", "why_tests_cant": "A safety property over all histories.", "anchors": ["src/gcode-machine-control.cc:move_allowed_homing_status", "src/gcode-machine-control.cc:go_home", "src/gcode-machine-control.cc:set_estop"]}
{"id": "C35", "title": "In emergency stop the motors stay disabled until the stop is cleared", "statement": "From the moment an emergency stop (M0 or the stop input) was handled until it is cleared by M999 or G28 with the stop input inactive, the motors are disabled, all auxiliary outputs were switched off at that moment, no move is accepted, and no command or internal flush re-enables the motors.", "quantifier": "every sequence of commands and switch readings, hardware initialised", "why_tests_cant": "A safety property over all histories, including internal flushes triggered while stopping.", "anchors": ["src/gcode-machine-control.cc:set_estop", "src/gcode-machine-control.cc:clear_estop", "src/hardware-mapping.cc:HardwareMapping::EnableMotors"]}
{"id": "C36", "title": "Homing confidence is reported truthfully", "statement": "The machine reports 'homed' only if a homing command completed without emergency stop and the motors were not disabled since by command; disabling motors after homing lowers the report to 'motors unpowered', an emergency stop lowers it to 'never homed'.", "quantifier": "every sequence of commands and switch readings", "why_tests_cant": "State machine over unbounded histories.", "anchors": ["src/gcode-machine-control.cc:motors_enable", "src/gcode-machine-control.cc:go_home", "src/gcode-machine-control.cc:set_estop"]}
{"id": "C37", "title": "Feed rates follow the F word and the speed override", "statement": "A coordinated move uses the most recent positive F value given with a coordinated move, times the configured speed factor, times the current M220 factor, and is refused while no feed was ever given; M220 accepts a factor exactly if it is at least 0.5% (negative values being relative to 100%).", "quantifier": "every history of moves and overrides", "why_tests_cant": "Modal state over histories.", "anchors": ["src/gcode-machine-control.cc:coordinated_move", "src/gcode-machine-control.cc:rapid_move", "src/gcode-machine-control.cc:set_speed_factor"]}
{"id": "C38", "title": "Clamping brings exactly the configured axes into range and changes nothing else", "statement": "clamp_to_range leaves every axis untouched unless all affected axes are configured for clamping; otherwise every configured axis ends within [0, range] (or >= 0 when no range is configured), values already in range do not change, other axes never change, and a clamped move always passes the range check on the clamped axes.", "quantifier": "every position, every configuration, every set of affected axes", "why_tests_cant": "All combinations of axes, ranges and positions.", "anchors": ["src/gcode-machine-control.cc:clamp_to_range"]}
{"id": "C39", "title": "Auxiliary outputs reflect the last command for each pin", "statement": "After any sequence of pin and named-output commands, each of the 16 auxiliary bits has the value of the last command that affected it, reading a pin (M42) returns that value, a command for one pin or output does not change bits that are not mapped to it, and switching all off clears every bit.", "quantifier": "every mapping of named outputs to pins and every sequence of commands", "why_tests_cant": "Arbitrary histories times arbitrary mappings.", "anchors": ["src/hardware-mapping.cc:HardwareMapping::UpdateAuxBits", "src/hardware-mapping.cc:HardwareMapping::UpdateAuxBitmap", "src/hardware-mapping.cc:HardwareMapping::AddAuxMapping"]}
{"id": "C40", "title": "Every motor belongs to at most one axis, and each axis drives exactly its motors", "statement": "After any sequence of motor mapping requests, no motor is mapped to two axes, a refused request changes nothing, an automatically chosen motor is free, assigning steps for all axes gives each mapped motor exactly the steps of its axis and every unmapped motor none, and the axis position read back is that of one of its motors.", "quantifier": "every sequence of mapping requests, every step assignment", "why_tests_cant": "All mappings of 8 motors to the axes and their order of configuration.", "anchors": ["src/hardware-mapping.cc:HardwareMapping::AddMotorMapping", "src/hardware-mapping.cc:HardwareMapping::AssignMotorSteps", "src/hardware-mapping.cc:HardwareMapping::GetAxisSteps"]}
{"id": "C41", "title": "Switch readings are debounced", "statement": "A switch test that returns 'triggered' (or 'not triggered') has seen the corresponding electrical level in its last three consecutive samples; unmapped switches always return the documented default.", "quantifier": "every sequence of electrical samples", "why_tests_cant": "Bouncing inputs are arbitrary infinite sequences.", "anchors": ["src/hardware-mapping.cc:HardwareMapping::TestSwitch"]}
{"id": "C42", "title": "The spindle changes direction and power only at standstill", "statement": "The direction output of the PWM spindle is changed only while the commanded duty cycle is zero, power is removed only after the duty cycle reached zero, speed changes are ramped in steps of at most 10% and always within 0..100%, and the ramp ends exactly at the requested speed; counter-clockwise rotation never happens when it is not allowed.", "quantifier": "every history of On/Off commands with any speeds that are not negative, every positive max-rpm", "why_tests_cant": "Histories of speed and direction changes.", "anchors": ["src/spindle-control.cc:PWMSpindle::On", "src/spindle-control.cc:PWMSpindle::Off", "src/spindle-control.cc:PWMSpindle::ramp_down"]}
{"id": "C43", "title": "PWM timer registers always satisfy the hardware constraints", "statement": "For every accepted duty cycle and resolution, the match register is at least 2 below the overflow value, the load register at least 2 below the match register, neither wraps around, and the high time is within the clamping distance of the requested one.", "quantifier": "every resolution the frequency computation can produce and every duty cycle in 0..1", "why_tests_cant": "Continuous duty cycle times all frequencies.", "anchors": ["src/pwm-timer.cc:pwm_timer_set_duty"]}
{"id": "C44", "title": "The configuration reader sees exactly the name/value pairs of the file", "statement": "Rendering any list of sections with name = value pairs, with arbitrary comments, blank lines, surrounding white space and LF or CR LF line ends, and parsing it delivers exactly the pairs of the sections the reader asked for, lower-cased names, trimmed values, in order and with correct line numbers; EmitConfigValues returns true exactly if every line is well-formed and every pair was accepted.", "quantifier": "every configuration text built from such lines, every reader", "why_tests_cant": "Arbitrary text and arbitrary readers.", "anchors": ["src/config-parser.cc:ConfigParser::EmitConfigValues", "src/config-parser.cc:NextLine"]}
{"id": "C45", "title": "Malformed numeric expressions in the configuration are rejected", "statement": "A numeric configuration value is accepted only if it is a well-formed multiplicative expression, and then yields its value; anything else is reported as an error.", "quantifier": "every value text", "why_tests_cant": "Infinite family of malformed texts.", "anchors": ["src/config-parser.cc:ParseDoubleExpression", "src/config-parser.cc:ConfigParser::Reader::ParseFloatExpr"]}
{"id": "C46", "title": "End to end: an accepted sequence of targets moves every motor by exactly the rounded distance", "statement": "For every sequence of targets enqueued to the planner and flushed, with a firmware that executes all segments, every motor performs exactly the number of step pulses and in exactly the direction that takes it from its starting step position to the rounded last target of its axis.", "quantifier": "every sequence of targets, every planner floating-point outcome, every motor mapping and mirroring, every host/firmware schedule without emergency stop", "why_tests_cant": "Composition of planner, splitting, fixed-point firmware and concurrent queue over all inputs.", "anchors": ["src/planner.cc:Planner::Impl::issue_motor_move_if_possible", "src/motion-queue-motor-operations.cc:MotionQueueMotorOperations::EnqueueInternal", "src/pru-motion-queue.cc:PRUMotionQueue::Enqueue", "src/motor-interface-pru.p:STEP_GEN"]}
{"id": "C47", "title": "Look-ahead changes are validated", "statement": "SetLookahead accepts exactly the sizes 1..GetMaxLookahead(), an accepted size is what Lookahead() returns afterwards, and a refused size changes nothing; M181 never passes a size that would be refused.", "quantifier": "every integer size", "why_tests_cant": "All 2^32 sizes; assertion failures abort the machine.", "anchors": ["src/planner.cc:Planner::Impl::SetLookahead", "src/gcode-machine-control.cc:handle_set_lookahead"]}
{"id": "C48", "title": "Auto-shutdown timers fire once and only after the configured idle time", "statement": "With automatic motor disable configured, the motors are disabled by an idle event only when at least the configured number of seconds has passed since the first idle event after activity, at most once per idle period, and the fan is switched off only after the configured further delay.", "quantifier": "every sequence of idle events with any non-decreasing clock", "why_tests_cant": "Timing histories are unbounded.", "anchors": ["src/gcode-machine-control.cc:input_idle"]}
{"id": "C49", "title": "IF and WHILE execute exactly the branch or body the condition selects", "statement": "An IF block executes the commands of the first branch whose condition is true and of no other branch, and a WHILE loop executes its body exactly as long as its condition evaluates true; nothing of a skipped branch or body has any effect.", "quantifier": "every chain of conditions, every parameter memory, every loop body", "why_tests_cant": "Unbounded iteration and branch chains.", "anchors": ["src/gcode-parser/gcode-parser.cc:gcodep_conditional", "src/gcode-parser/gcode-parser.cc:gcodep_while_start", "src/gcode-parser/gcode-parser.cc:gcodep_while_end"]}
{"id": "C50", "title": "Print statistics bound the print", "statement": "The reported minimum and maximum of each axis are the true extremes over all moves of the file, and the total time is the sum of segment times and dwells.", "quantifier": "every sequence of moves", "why_tests_cant": "Histories of arbitrary length.", "anchors": ["src/determine-print-stats.cc:StatsCollectingEventDelegator", "src/determine-print-stats.cc:determine_print_stats"]}
{"id": "C51", "title": "A host blocked on the queue is always woken", "statement": "Whenever the host waits for the firmware inside Enqueue or WaitQueueEmpty, a wake-up event is already pending or the firmware is running with work outstanding and raises the event after a bounded number of its own steps; no completion signalled between the host's check of the slot and its wait is lost.", "quantifier": "every schedule of host, firmware and emergency stop", "why_tests_cant": "A lost wake-up needs one particular interleaving and then hangs the machine.", "anchors": ["src/pru-motion-queue.cc:PRUMotionQueue::Enqueue", "src/pru-motion-queue.cc:PRUMotionQueue::WaitQueueEmpty", "src/uio-pruss-interface.cc:UioPrussInterface::WaitEvent", "src/motor-interface-pru.p:DONE_STEP_GEN"]}
{"id": "C52", "title": "No assertion of the planner fails under its calling protocol", "statement": "If callers move only while the position is known and set an external position only after bringing the path to a halt, no assertion of the planner fails, and after BringPathToHalt the path is marked halted and the planning buffer is a single segment without motion - also when the motor backend refuses commands at any point.", "quantifier": "every call sequence obeying the protocol, every look-ahead size <= 1023, every pattern of aborts, every floating point outcome", "why_tests_cant": "An assertion failure stops a running machine; it depends on the order of calls, the fill level and when an abort happens.", "anchors": ["src/planner.cc:Planner::Impl::machine_move", "src/planner.cc:Planner::Impl::SetExternalPosition", "src/planner.cc:Planner::Impl::DirectDrive", "src/planner.cc:Planner::Impl::bring_path_to_halt"]}
{"id": "C53", "title": "No axis exceeds its configured speed and acceleration, and no move exceeds its feed rate", "statement": "In exact arithmetic, for every segment sent to the motors and every axis, the speed of that axis at the planned peak is at most its configured maximum feed rate, its acceleration at most the configured acceleration, and the speed along the X/Y/Z path is at most the requested feed rate.", "quantifier": "every configuration with positive limits in which corner speeds are not negative, every sequence of moves with positive feed rates", "why_tests_cant": "The limits of all axes are converted to one defining axis per segment; continuous inputs.", "anchors": ["src/planner.cc:clamp_defining_axis_limit", "src/planner.cc:Planner::Impl::machine_move", "src/planner.cc:Planner::Impl::euclidian_speed"]}
{"id": "C54", "title": "Each assignment on a line takes effect exactly once", "statement": "Running a line of G-code makes every assignment that appears on it exactly once, in order from left to right.", "quantifier": "every line, every parser state, every arithmetic", "why_tests_cant": "Whether an assignment is read again depends on where the handler of the preceding command stops reading; the interactions are unbounded.", "anchors": ["src/gcode-parser/gcode-parser.cc:GCodeParser::Impl::gcodep_set_parameter", "src/gcode-parser/gcode-parser.cc:GCodeParser::Impl::gcodep_parse_pair_with_linenumber", "src/gcode-parser/gcode-parser.cc:GCodeParser::Impl::handle_move"]}
{"id": "C55", "title": "Speed is carried over a corner only where the path is smooth", "statement": "At the corner between two moves the planner plans a full stop if the path turns by 45 degrees or more, and also if any axis would have to start, stop or reverse its direction there.", "quantifier": "every pair of consecutive moves, every configuration, every arithmetic", "why_tests_cant": "The decision is a cascade of floating-point comparisons on ten axes.", "anchors": ["src/planner.cc:determine_joining_speed", "src/planner.cc:Planner::Impl::machine_move"]}
{"id": "C56", "title": "Motors are switched on before they are moved, and switched only when the queue is empty", "statement": "Every segment with steps sent to the hardware queue is sent directly after enabling the motors, and a request to enable or disable the motors is passed on only after waiting for all queued segments to be executed.", "quantifier": "every move including those split into parts, every backend behaviour", "why_tests_cant": "A missing enable only shows as lost steps on a real machine; the number of parts of a move is unbounded.", "anchors": ["src/motion-queue-motor-operations.cc:MotionQueueMotorOperations::EnqueueInternal", "src/motion-queue-motor-operations.cc:MotionQueueMotorOperations::MotorEnable"]}
{"id": "C57", "title": "Commands to the Pololu spindle controller encode the requested speed", "statement": "The speed sent to the controller is rpm scaled to 0..3200 and never more, encoded in two seven bit data bytes with the command of the requested direction; reverse is never commanded when not allowed; power is removed only after the controller reported standstill; switching on returns once the spindle has reached its speed.", "quantifier": "every speed, every history of reported speeds", "why_tests_cant": "All speeds and all reports of the external device.", "anchors": ["src/spindle-control.cc:PololuSMCSpindle::On", "src/spindle-control.cc:PololuSMCSpindle::Off", "src/spindle-control.cc:PololuSMCSpindle::set_target_speed"]}
{"id": "C58", "title": "Host and firmware agree on the layout of a queue element", "statement": "For every motion segment, the values the firmware finds in its registers after loading a queue element are the values the host stored in the fields of the same name of the packed struct; the element has the same size on both sides.", "quantifier": "every segment whose fields fit their widths", "why_tests_cant": "The layout is declared twice, once in C++ and once in assembler; a disagreement makes motors run wild.", "anchors": ["src/motion-queue.h:MotionSegment", "src/motor-interface-pru.p:TravelParameters"]}
{"id": "C59", "title": "Programs are announced exactly once", "statement": "The receiver of the parsed commands is told about the beginning of a program exactly once before the first command of it, about its end only if one is running, and no command is delivered without a program running; the next stream starts a new program.", "quantifier": "every sequence of lines and streams, every parser state reached", "why_tests_cant": "Automatic actions (fan, statistics) hang on these announcements; the flag that decides about them is changed by M2, M30, the start of commands and the end of the stream.", "anchors": ["src/gcode-parser/gcode-parser.cc:GCodeParser::Impl::ParseBlock", "src/gcode-parser/gcode-parser.cc:GCodeParser::Impl::finish_program_and_reset", "src/gcode-parser/gcode-streamer.cc:GCodeStreamer::ReadData"]}
{"id": "C60", "title": "Homing finds the switches and then sets the position", "statement": "After a successful G28 every requested axis of the home order that has a home switch was driven towards that switch until the switch was read as active and then away from it until it was read as inactive, and its position is then that of the configured end (0 at the minimum, the move range at the maximum); other axes keep their position.", "quantifier": "every machine configuration, every sequence of switch readings, every motor backend", "why_tests_cant": "All later positions are relative to homing; it depends on an external signal with arbitrary timing.", "anchors": ["src/gcode-machine-control.cc:GCodeMachineControl::Impl::home_axis", "src/gcode-machine-control.cc:GCodeMachineControl::Impl::move_to_endstop", "src/gcode-machine-control.cc:GCodeMachineControl::Impl::go_home"]}
{"id": "C61", "title": "The machine is configured as the file says", "statement": "An accepted configuration file gives every setting of the machine the value of the last line that names it, in the section of its axis or in the general section, and the default if there is none; the home position of an axis is given at most once. A file with a line in these sections that names no known setting, or gives no value for it, is refused, and no other file that is well-formed.", "quantifier": "every text, every conversion of numbers, every initial configuration", "why_tests_cant": "A misread setting (steps per mm, range, home position) makes a machine run into its limits; names are matched by a chain of macros.", "anchors": ["src/machine-control-config.cc:MachineControlConfigReader::SeenSection", "src/machine-control-config.cc:MachineControlConfigReader::SeenNameValue", "src/machine-control-config.cc:MachineControlConfigReader::SetHomePos", "src/machine-control-config.cc:MachineControlConfig::ConfigureFromFile"]}
{"id": "C62", "title": "Motors, outputs and switches are connected as the file says", "statement": "An accepted configuration file maps exactly the motors it names, each to one axis and mirrored as given, gives every output the connectors and the timer named for it, and uses every switch for what the last line naming that use says, with the level said last. It is refused if a line says nothing known, if it maps a motor or a timer twice, or if a switch is used that is not connected on the cape. Reading the file switches nothing.", "quantifier": "every text, every cape, every initial mapping", "why_tests_cant": "A wrong mapping moves the wrong motor or ignores a switch; the words are matched by hand-written chains with aliases.", "anchors": ["src/hardware-mapping.cc:HardwareMapping::ConfigureFromFile", "src/hardware-mapping.cc:HardwareMapping::ConfigReader::SeenNameValue", "src/hardware-mapping.cc:HardwareMapping::ConfigReader::SetMotorAxis", "src/hardware-mapping.cc:HardwareMapping::ConfigReader::SetSwitchOptions"]}
{"id": "C63", "title": "The program starts only with a machine it can run, and in a safe state", "statement": "If the program starts, every axis that has a motor has a positive resolution, maximum speed and acceleration; every axis with a resolution has a motor, a free one in order if none is mapped; no motor belongs to two axes; every axis with a home position has a configured and connected switch; the probe is not moved faster than its axis allows; rapid moves have the speed of the fastest axis; options of the command line win over the file; planner and machine control get the settings of the file, so that no axis is planned faster or with more acceleration than the file allows. The machine is then in emergency stop with motors and outputs off.", "quantifier": "every configuration file, every combination of options, every cape", "why_tests_cant": "The later code relies on these checks without repeating them; they are spread over three functions.", "anchors": ["src/gcode-machine-control.cc:GCodeMachineControl::Impl::Init", "src/hardware-mapping.cc:HardwareMapping::InitializeHardware", "src/machine-control.cc:main"]}
{"id": "C64", "title": "The step rate follows the commanded speeds", "statement": "The delays of the firmware realise the speeds a segment was commanded with: constant speed to within rounding of the timer, an acceleration or deceleration along the series the constant acceleration between the two speeds requires, starting with the first speed and ending with the second. No delay collides with the value that means 'done', and none wraps around. The parts of a long move follow one acceleration, from the first speed to the last.", "quantifier": "all speeds up to 390000 steps/s with acceleration of at least 36 steps/s^2 and series index below 2^26, all step counts up to 2^27", "why_tests_cant": "Host and firmware share a recurrence whose state is split between a floating point formula and 32 bit integer registers; an error is a wrong speed or lost steps, both invisible in the step count of the host.", "anchors": ["src/motion-queue-motor-operations.cc:MotionQueueMotorOperations::EnqueueInternal", "src/motion-queue-motor-operations.cc:calcAccelerationCurveValueAt", "src/motion-queue-motor-operations.cc:MotionQueueMotorOperations::Enqueue", "src/motor-interface-pru.p:CalculateDelay"]}
{"id": "C65", "title": "An arc is a circle about its center, in the commanded direction", "statement": "The points of G2 and G3 divide a helix about the given center into equal parts: every point before the last has the distance of the start from the axis, the remaining axes advance proportionally, and the last point is the target. The helix turns clockwise for G2 and counter-clockwise for G3 as seen from the positive end of the normal axis, by at most a full turn. If the target is on the circle, consecutive points are less than 0.2 mm apart, and only arcs shorter than 0.01 um are left out. An arc given by its radius is part of a circle of this radius through both ends, at most a half turn for a positive radius and at least a half turn for a negative one; it is refused only if the ends are equal or too far apart.", "quantifier": "all starts, centers, targets and radii other than zero, all three planes, in real arithmetic", "why_tests_cant": "The shape of every round part depends on these formulas; a wrong sign or branch of atan2 makes the long way round or the mirror image, which no check afterwards can notice.", "anchors": ["src/gcode-parser/arc-gen.cc:arc_gen", "src/gcode-parser/gcode-parser.cc:arc_radius_to_center", "src/gcode-parser/gcode-parser.cc:GCodeParser::Impl::handle_arc"]}
{"id": "C66", "title": "Splines are the Bezier curves of their control points", "statement": "G5 moves along the cubic Bezier curve from the current position to the target with the first control point given relative to the start (or opposite to the second one of the preceding G5, so that the curves join without a corner) and the second one relative to the target; G5.1 moves along the quadratic Bezier curve of its control point. The points are those for the parameters 0, 0.01, ..., 0.99 and the target; they stay in the rectangle about the control points, and consecutive ones differ by at most three hundredths of the largest distance of consecutive control points. G5 is refused unless P and Q are both given, and I and J both or, after another G5, neither.", "quantifier": "all positions, control points and targets, in real arithmetic", "why_tests_cant": "The documented syntax promises these curves; a wrong control point bends the path without any error message.", "anchors": ["src/gcode-parser/arc-gen.cc:spline_gen", "src/gcode-parser/arc-gen.cc:calc_bezier_point", "src/gcode-parser/gcode-parser.cc:GCodeParser::Impl::handle_spline"]}
{"id": "C67", "title": "The server takes G-code from one client at a time", "statement": "At any time at most one client is the source of G-code: while one is connected, any other is told so, closed, and nothing is read from it. The lines given to the parser are those of the connected clients, one client after the other, each as if it were alone; what parser and machine print goes to the client that is connected and to nobody else. accept and read are called only for descriptors that select reported and that still refer to the same connection. Every accepted connection is served or closed, no descriptor is lost, the program of a client ends when its connection does and not before. The reply of the status server identifies the state of emergency stop, pause, start, homing and motors.", "quantifier": "all numbers of clients, all data, all orders of events and all results of the system calls", "why_tests_cant": "Two programs mixed into one would move the machine along neither; answers to the wrong client hide errors; a lost descriptor or a read that blocks stops the server while the machine runs.", "anchors": ["src/machine-control.cc:run_gcode_server", "src/machine-control.cc:run_status_server", "src/machine-control.cc:send_file_to_machine", "src/gcode-parser/gcode-streamer.cc:GCodeStreamer::ConnectStream", "src/gcode-parser/gcode-streamer.cc:GCodeStreamer::ReadData", "src/gcode-parser/gcode-streamer.cc:GCodeStreamer::CloseStream", "src/common/fd-mux.cc:FDMultiplexer::Cycle"]}
{"id": "C68", "title": "Outputs are switched one by one, and only by the part of the program they belong to", "statement": "A call for a pin changes the level of this pin and of no other, and a read returns the level of this pin. The start makes exactly the pins of the cape outputs and inputs and leaves the others alone. Whatever the order in which host and firmware write, every output has the level last written to it. Step and direction pins are written by the firmware only, the enable pin by the host only, the inputs by nobody; so disabled motors stay disabled until the host enables them. At the start and at the end, including a start that fails, motors are disabled, auxiliary outputs off and nothing stays mapped; the system calls are used as documented.", "quantifier": "all pin definitions, all capes without duplicate pins, all contents of the registers, all interleavings of host and firmware, all results of the system calls", "why_tests_cant": "Host and firmware share the registers of all outputs without any lock; a read-modify-write or a pin in two tables would lose steps or switch a spindle.", "anchors": ["src/generic-gpio.cc:set_gpio", "src/generic-gpio.cc:clr_gpio", "src/generic-gpio.cc:get_gpio", "src/generic-gpio.cc:cfg_gpio_io", "src/generic-gpio.cc:map_gpio", "src/generic-gpio.cc:unmap_gpio", "src/generic-gpio.cc:ena_gpio_clk", "src/hardware-mapping.cc:HardwareMapping::EnableMotors", "src/hardware-mapping.cc:HardwareMapping::SetAuxOutputs", "src/hardware-mapping.cc:HardwareMapping::InitializeHardware", "src/pru-generic-io-routines.hp:SetGPIO"]}
{"id": "C69", "title": "The firmware program does what its description says, instruction by instruction", "statement": "From its first instruction on the program in the real-time unit does nothing else than: take the elements of the queue in turn, each as soon as it is marked filled; set the direction pins and the auxiliary pins of the element; for every loop of the segment set the step pins to the top bits of the motor accumulators and then report the remaining loops in the status word; mark the element empty, or aborted after an emergency stop, and only then raise the event; stop when an element says exit. It writes no other pin of a bank and no other byte of the memory shared with the host, whatever it reads, and it gets stuck in no round.", "quantifier": "all contents of the shared memory, all values of inputs, all bus latencies, all pin assignments of capes, any number of instructions", "why_tests_cant": "The firmware is assembler with registers shared between macros; a clobbered register, a branch to the wrong place or a wrong mask would move motors or switch outputs that nobody asked for.", "anchors": ["src/motor-interface-pru.p:INIT", "src/motor-interface-pru.p:QUEUE_READ", "src/motor-interface-pru.p:STEP_GEN", "src/motor-interface-pru.p:CalculateDelay", "src/motor-interface-pru.p:UpdateQueueStatus", "src/idiv.hp:idiv_macro", "src/pru-generic-io-routines.hp:SetGPIO", "hardware/VGEN5/pru-io-routines.hp:CheckForEStop"]}
{"id": "C70", "title": "The loops of the firmware take the time that was computed", "statement": "The time between the beginnings of two loops of a segment, counted in cycles of the real-time unit instruction by instruction, is two cycles per unit of the computed delay: the time of the computation itself is compensated, so the steps at constant speed come at the commanded rate, up to the limit of 1 MHz the host allows, and the step outputs of a loop change at a fixed time in it.", "quantifier": "all register contents with delays of 3 to 2*10^9 units, all capes, all bus latencies up to a bound, any number of loops", "why_tests_cant": "TIMER_FREQUENCY relates speeds to counts of a delay loop; whether a step rate is really what was commanded depends on every instruction around that loop, and nothing measures it.", "anchors": ["src/motor-interface-pru.p:CalculateDelay", "src/motor-interface-pru.p:STEP_GEN", "src/motor-interface-pru.p:UpdateQueueStatus", "src/idiv.hp:idiv_macro", "src/motor-interface-constants.h:TIMER_FREQUENCY", "src/pru-generic-io-routines.hp:SetSteps"]}
{"id": "C71", "title": "The firmware of the build runs, on a clean queue, and none of its events is lost", "statement": "After a successful start, whatever state the real-time unit was in, its instruction memory holds exactly the program of the build, it executes it from the first instruction, and the queue and the status it finds are empty; if that cannot be achieved the start fails and the unit stays halted. The device opened is the one named in the overlay, the program and the shared structure fit the memories mapped, and everything acquired, also by a start that fails halfway, is released. The host that waits for a slot always wakes up once the slot was given back, never leaves the loop before, and a failing or interrupted system call only makes it look again.", "quantifier": "all states of the unit, all programs, all answers of the kernel, all interleavings of firmware, interrupt and host, both drivers", "why_tests_cant": "An old program, a queue with leftovers or a lost interrupt would move the machine wrongly or stop it in the middle of a job.", "anchors": ["src/uio-genirq-interface.cc:OpenUioDevice", "src/uio-genirq-interface.cc:UioGenirqInterface::Init", "src/uio-genirq-interface.cc:UioGenirqInterface::AllocateSharedMem", "src/uio-genirq-interface.cc:UioGenirqInterface::StartExecution", "src/uio-genirq-interface.cc:UioGenirqInterface::WaitEvent", "src/uio-genirq-interface.cc:UioGenirqInterface::Shutdown", "src/uio-pruss-interface.cc:UioPrussInterface::StartExecution", "src/uio-pruss-interface.cc:UioPrussInterface::WaitEvent", "src/pru-motion-queue.cc:PRUMotionQueue::Init"]}
{"id": "C72", "title": "Rights are dropped before anything of others is touched, and every run ends in order", "statement": "Started as root with a user to change to, the program has the ids of this user, and the group if one is given, at every step that reads parameters or G-code, opens the status port, runs the loop or saves; it cannot become root again; if the change fails it does none of these steps. The port for G-code, the hardware and the PRU are taken with the rights of the start. No G-code is read unless configuration, port, hardware and machine control are ready. After the loop the queue is shut down once, flushing exactly at a regular end, the parameters are saved, the hardware is unmapped and the exit code tells. File names mean the same whether the program becomes a daemon or not. Everything that was started is stopped again on every way out, and in a dry run nothing is started.", "quantifier": "all options, all answers of the system and of the parts created, all credentials at the start", "why_tests_cant": "The server takes G-code from the network and writes a file; with the rights of root any mistake there is one of the whole system. A PRU left running drives motors without a program.", "anchors": ["src/machine-control.cc:main", "src/machine-control.cc:drop_privileges"]}
{"id": "C73", "title": "A dry run leaves the machine alone", "statement": "With -n, from the start through any program to the end, no output level, no PWM timer and no duty cycle changes, motors are not enabled, homing and probing drive nothing, and nothing is sent to any device of the machine. What the run does, answers and prints does not depend on the inputs.", "quantifier": "all configurations, all programs, all contents of the registers, all values of inputs", "why_tests_cant": "A dry run is used to try a program with the tool in the machine; one output that moves makes it the opposite of what was asked for.", "anchors": ["src/machine-control.cc:main", "src/hardware-mapping.cc:HardwareMapping::EnableMotors", "src/hardware-mapping.cc:HardwareMapping::SetAuxOutputs", "src/hardware-mapping.cc:HardwareMapping::SetPWMOutput", "src/hardware-mapping.cc:HardwareMapping::TestAxisSwitch", "src/gcode-machine-control.cc:GCodeMachineControl::Impl::move_to_endstop", "src/gcode-machine-control.cc:GCodeMachineControl::Impl::move_to_probe"]}
{"id": "C74", "title": "The spindle is the one of the configuration, and the motor controller is told and understood correctly", "statement": "Every setting of the section spindle has the value of the last line that names it, or its default; the file is accepted exactly if each line of the section names a setting with a valid value. The spindle asked for is created if the outputs it needs are there and its port opens; otherwise the user is told. The bytes written to the motor controller are the commands of its protocol with the configured values; an answer belongs to the question it was asked for; power is removed only after the controller reported that the motor stands. A controller that fails is noticed and stops neither the program nor an emergency stop.", "quantifier": "all configuration files, all hardware mappings, all answers of the controller, all results of read, all speeds", "why_tests_cant": "A spindle that keeps turning or loses power while the motor brakes is dangerous, and a program that runs without its spindle breaks tool and work.", "anchors": ["src/spindle-control.cc:SpindleConfigReader", "src/spindle-control.cc:SpindleConfig::ConfigureFromFile", "src/spindle-control.cc:Spindle::CreateFromConfig", "src/spindle-control.cc:PololuSMCSpindle", "src/gcode-machine-control.cc:GCodeMachineControl::Impl::set_estop"]}
{"id": "C75", "title": "What cannot be read is reported", "statement": "The parser gives up reading a line only at its end, at a comment or a checksum, after answering a question for a parameter, at an IF or WHILE, or after reporting an error. An IF of which no branch can be chosen is reported. What is correct is not reported.", "quantifier": "all lines, all parameters, all states of the parser outside the recording of a loop", "why_tests_cant": "The rest of a line that could not be understood is dropped; a machine that carries out half a line without a word damages the work piece.", "anchors": ["src/gcode-parser/gcode-parser.cc:GCodeParser::Impl::gcodep_parse_pair_with_linenumber", "src/gcode-parser/gcode-parser.cc:GCodeParser::Impl::read_param_name", "src/gcode-parser/gcode-parser.cc:GCodeParser::Impl::gcodep_set_parameter", "src/gcode-parser/gcode-parser.cc:GCodeParser::Impl::gcodep_conditional"]}
{"id": "C76", "title": "The position shown is the one of the program", "statement": "After every change of the origin the machine is told the origin that positions are relative to, together with its name; coordinates of the program are converted with exactly this origin, so the position shown after a move is the coordinate the program gave, up to the rounding to steps. The name shown is that of the origin in use. M114 and the status server show the same position. The position is called reliable only if the machine was homed and has kept its power.", "quantifier": "all programs, all parameters, all positions, all coordinate systems and offsets", "why_tests_cant": "Users place tool and work piece by the position shown; if it refers to another origin than the program, the next move goes somewhere else.", "anchors": ["src/gcode-parser/gcode-parser.cc:GCodeParser::Impl::inform_origin_offset_change", "src/gcode-parser/gcode-parser.cc:GCodeParser::Impl::change_coord_system", "src/gcode-parser/gcode-parser.cc:GCodeParser::Impl::handle_G92", "src/gcode-machine-control.cc:GCodeMachineControl::Impl::GetCurrentPosition", "src/gcode-machine-control.cc:GCodeMachineControl::Impl::mprint_current_position", "src/gcode-machine-control.cc:GCodeMachineControl::Impl::inform_origin_offset"]}
{"id": "C77", "title": "The program knows where the motors are", "statement": "After any history of commands, homing, probing, stops and refused moves included, the sum of all steps sent to the motors of an axis, counted from the position last declared, is the position the planner assumes at the end of the path; if the path was brought to a halt, the motors are there. A move that is accepted ends where it was asked to, rounded to the nearest step, and after waiting for the queue this is the position reported.", "quantifier": "all histories of events, all targets and feedrates, all configurations without a motor shared by axes, all answers of inputs, all motor backends that carry out what they accept", "why_tests_cant": "A machine without encoders knows its position only by counting; a step that is lost in the bookkeeping is an error in every move that follows.", "anchors": ["src/planner.cc:Planner::Impl::machine_move", "src/planner.cc:Planner::Impl::DirectDrive", "src/planner.cc:Planner::Impl::SetExternalPosition", "src/planner.cc:Planner::Impl::GetCurrentPosition", "src/gcode-machine-control.cc:GCodeMachineControl::Impl::home_axis", "src/gcode-machine-control.cc:GCodeMachineControl::Impl::probe_axis"]}
{"id": "C78", "title": "Probing finds the place where the probe touches", "statement": "The axis is driven in small steps, in the direction away from its home, until the probe touches or the range of the axis is exhausted; it stays within this range. The position reported is that of the motors at this moment, and the planner continues from it. If the probe never touches, no position is reported. An emergency stop ends probing.", "quantifier": "all positions, all states of the path, all behaviours of probe and stop input, all configurations", "why_tests_cant": "The position is used as the surface of the work piece; if it is wrong the tool is driven into it.", "anchors": ["src/gcode-machine-control.cc:GCodeMachineControl::Impl::probe_axis", "src/gcode-machine-control.cc:GCodeMachineControl::Impl::move_to_probe", "src/hardware-mapping.cc:HardwareMapping::TestProbeSwitch"]}
{"id": "C79", "title": "Status reports tell what is", "statement": "M119 lists exactly the switches that are configured, each once, tells for each whether the axis is homed there and what it reads now. The status server reports an emergency stop exactly if the machine is in it, as one of the hardware exactly if the input is active, pause and start inputs if there are any, and homing and motor power as they are. Asking changes nothing.", "quantifier": "all configurations, all states, all values of inputs", "why_tests_cant": "Wiring is checked with M119 before the first homing; a switch that is reported wrongly is found out by a collision.", "anchors": ["src/gcode-machine-control.cc:GCodeMachineControl::Impl::mprint_endstop_status", "src/gcode-machine-control.cc:GCodeMachineControl::Impl::GetEStopStatus", "src/gcode-machine-control.cc:GCodeMachineControl::Impl::GetPauseStatus", "src/hardware-mapping.cc:HardwareMapping::AvailableAxisSwitch", "src/machine-control.cc:run_status_server"]}
{"id": "C80", "title": "The parser knows where the machine is", "statement": "The position that the parser keeps, from which relative moves, arcs and moves of single axes are computed, is the position where the planner's path ends, rounded to whole steps: at the start, and after every line.", "quantifier": "all texts of lines, all histories of calls handled by the machine control, all configurations", "why_tests_cant": "The two are kept separately and compared by nobody. If they differ, the next relative move or arc goes to a wrong place, and a line that only sets the feed rate moves the machine.", "anchors": ["src/gcode-parser/gcode-parser.cc:GCodeParser::Impl::handle_move", "src/gcode-parser/gcode-parser.cc:GCodeParser::Impl::handle_home", "src/gcode-parser/gcode-parser.cc:GCodeParser::Impl::ParseBlock", "src/gcode-machine-control.cc:GCodeMachineControl::Impl::go_home", "src/gcode-machine-control.cc:GCodeMachineControl::Impl::coordinated_move", "src/gcode-machine-control.cc:GCodeMachineControl::GetHomePos", "src/planner.cc:Planner::Impl::SetExternalPosition"]}
{"id": "C81", "title": "Texts are drawn from the table of the font, within the width computed for them", "statement": "Every glyph of the font has as many entries as it says and fits between 0 and its width and between 7 below and 25 above the base line. TextWidth and DrawText never read outside of the table, whatever the text. The width computed is the greatest of the indents within the text, a line break begins a new row 30 units lower, and everything drawn is within the width and the rows; rows do not overlap.", "quantifier": "all texts (all characters), all sizes not negative, all alignments and positions", "why_tests_cant": "Titles and measures of the pictures are placed by the computed width; a wrong one writes over the drawing, a read outside of the table prints garbage or crashes.", "anchors": ["src/hershey.cc:TextWidth", "src/hershey.cc:DrawText", "src/hershey.cc:hershey_simplex"]}
{"id": "C82", "title": "The picture contains the whole path", "statement": "Every position of the path (moves, homing, arc help lines) that gcode2ps draws in its second pass is within the frame found in the first pass. Every bound of the frame is reached by a position of the path.", "quantifier": "all sequences of calls of the parser in the two passes; all texts", "why_tests_cant": "The picture is looked at before a machine runs; what is outside of the frame is not seen.", "anchors": ["src/gcode2ps.cc:GCodePrintVisualizer::do_move", "src/gcode2ps.cc:GCodePrintVisualizer::go_home", "src/gcode2ps.cc:AxesRange"]}
{"id": "C83", "title": "The gray of a laser path shows the spindle speed", "statement": "With the option for lasers every line is drawn in the gray level of the spindle speed in force, on a scale from the slowest speed of the file (white) to the fastest (black).", "quantifier": "all sequences of calls of the parser in the two passes; all texts", "why_tests_cant": "The gray level is what will be burnt; the picture is used to check an engraving.", "anchors": ["src/gcode2ps.cc:GCodePrintVisualizer::do_move", "src/gcode2ps.cc:GCodePrintVisualizer::change_spindle_speed"]}
{"id": "C84", "title": "Grid and title of the picture", "statement": "The grid has a line at every multiple of its distance within the range (without the upper end) and nowhere else, and drawing it ends. The title is within the width of the picture, with one text size left on both sides.", "quantifier": "all ranges, all grid distances greater than zero, all titles", "why_tests_cant": "Distances are read off the grid; a title over the measures makes them unreadable.", "anchors": ["src/gcode2ps.cc:DrawGrid", "src/gcode2ps.cc:start_grid", "src/gcode2ps.cc:ShowMesaureLines"]}
{"id": "C85", "title": "The page contains the picture", "statement": "Every point of the frame is projected into the bounding box printed in the header of the PostScript file, for all views; with perspective it is in front of the eye. With -w the page has the width asked for.", "quantifier": "all frames, all sequences of rotations, all scales and margins, all ways of rounding to nearest", "why_tests_cant": "What is outside of the bounding box is cut off.", "anchors": ["src/gcode2ps.cc:PrintPostscriptBoundingBox", "src/gcode2ps.cc:PrintHeader", "src/gcode2ps.cc:kPSHeader"]}
{"id": "C86", "title": "The machine path in the picture is that of the motors, coloured by speed", "statement": "With a configuration, gcode2ps draws, for each segment that the planner sends, the way from where the motors are to where they are after it, in parts each of which has the colour of the speed there, on a scale from slow to fast, and nothing else; the speed counted in the first pass and colour are defined for all paths.", "quantifier": "all sequences of segments and positions set, all configurations", "why_tests_cant": "The picture is used to see whether acceleration and speed of the machine are as intended before it runs.", "anchors": ["src/gcode2ps.cc:SegmentQueuePrinter::Enqueue", "src/gcode2ps.cc:SegmentQueuePrinter::PrintSegment", "src/gcode2ps.cc:SegmentQueuePrinter::SetExternalPosition"]}
{"id": "C87", "title": "Numbers are read the same way by all compilations", "statement": "Each of the two implementations of number conversion (std::from_chars, and a buffer with strtof/strtod/strtoll) returns for blanks, optional sign, digits with at most one point the number written and the text behind it; what is left is shorter than the text; the result does not depend on which one was compiled in.", "quantifier": "all texts (bytes), all continuations behind the number, floating point numbers and integers of up to 64 bits", "why_tests_cant": "The same G-code file must make the same part, no matter with which compiler the program was built.", "anchors": ["src/common/string-util.cc:convert_strto_num", "src/common/string-util.cc:convert_strto_ieee", "src/common/string-util.cc:CopyNumberTo", "src/common/string-util.cc:ParseInt64"]}
{"id": "C88", "title": "The sound file contains the steps of two motors", "statement": "The file written by the audio simulation is a WAV file with the right lengths in its header, whose samples are, left and right, the levels of the step lines of motors 0 and 1 that the firmware outputs at that time.", "quantifier": "all sequences of segments that the firmware does not end early, of all durations", "why_tests_cant": "It is used to listen to the quality of acceleration; a wrong file makes one look for errors in the planner.", "anchors": ["src/sim-audio-out.cc:SimFirmwareAudioQueue::Enqueue", "src/sim-audio-out.cc:AudioWriter", "src/sim-audio-out.cc:kWavHeader"]}
{"id": "C89", "title": "The table of the simulation shows what the firmware does", "statement": "With the simulation option there is one row for each pass of the firmware, with the time at which it ends, the signed steps of each motor so far, its speed, and its acceleration as the average over the last ten loops.", "quantifier": "all segments that the firmware does not end early, starting in all states of the simulation", "why_tests_cant": "The table is the tool to check planner and firmware without a machine.", "anchors": ["src/sim-firmware.cc:SimFirmwareQueue::Enqueue", "src/sim-firmware.cc:SimFirmwareQueue::Averager", "src/sim-firmware.cc:SimFirmwareQueue::SimFirmwareQueue"]}
{"id": "C90", "title": "The command line is understood as described, and prevails over the configuration file", "statement": "Options may be written short or long, abbreviated, joined and in any order; a value given more than once is that of the last one; a command line is refused exactly if an option is unknown or incomplete, the speed factor is not positive, the angles add up to 90 degrees or more, both homing options are given, or not exactly one of file and port; an accepted one holds against the configuration file.", "quantifier": "all lists of arguments, all configuration files, all answers of the library functions", "why_tests_cant": "An option that is accepted but has no effect, such as one that switches off a check or queueing, leads to unexpected moves.", "anchors": ["src/machine-control.cc:main", "src/machine-control.cc:usage", "src/machine-control.cc:MakeAbsoluteFile"]}
{"id": "C91", "title": "The tools that only look at a program read the lines the machine would carry out", "statement": "When a program is read from a file, all of the file reaches the parser in order, one line at a time; these are the lines that the machine gets when the same text is sent to it in pieces; the end of the program is announced once, last, and a missing file is reported.", "quantifier": "all files (any bytes, any length, with or without a read error), all texts of lines, all ways in which a connection delivers them", "why_tests_cant": "Statistics and pictures are used to decide whether a program can be run; they are worthless if they are made from another program.", "anchors": ["src/gcode-parser/gcode-parser.cc:GCodeParser::ReadFile", "src/gcode-parser/gcode-streamer.cc:GCodeStreamer::ReadData", "src/determine-print-stats.cc:determine_print_stats"]}
{"id": "C92", "title": "Outputs are switched as the M-codes are documented, and together with the moves around them", "statement": "Each documented M-code for outputs (coolant, vacuum, power, cooler, lights, numbered outputs, fan) switches exactly the outputs it names to the documented value and changes nothing else; a switch between two moves takes effect between these moves, M64 and M65 at once; at the end of a program nothing is left to be done.", "quantifier": "all M-codes for outputs with all words, all machine states, all mappings of outputs, all sequences of calls of the planner", "why_tests_cant": "A laser or a spindle that is switched with the wrong move, too early, or not at all, damages the work piece or injures somebody.", "anchors": ["src/gcode-machine-control.cc:GCodeMachineControl::Impl::aux_bit_commands", "src/gcode-machine-control.cc:GCodeMachineControl::Impl::special_commands", "src/gcode-machine-control.cc:GCodeMachineControl::Impl::set_fanspeed", "src/gcode-machine-control.cc:GCodeMachineControl::Impl::gcode_finished", "src/hardware-mapping.cc:HardwareMapping::UpdateAuxBits", "src/hardware-mapping.cc:HardwareMapping::SetAuxOutputs", "src/planner.cc:Planner::Impl::issue_motor_move_if_possible"]}
{"id": "C93", "title": "Coordinate systems are kept in their standard parameters", "statement": "Parameter 5220 is the number of the selected coordinate system, 5221 and following, 5241 and following, up to 5381 and following are the origins of the nine systems relative to the machine origin; G10 and G54 to G59.3 keep them up to date and change no other parameter; after a restart with the same parameters all systems and the selection are as before.", "quantifier": "all states of the parser, all words of G10, all numbers of systems, all assignments to other parameters", "why_tests_cant": "A coordinate system that comes back shifted after a restart makes the next program start at a wrong place.", "anchors": ["src/gcode-parser/gcode-parser.cc:GCodeParser::Impl::InitCoordSystems", "src/gcode-parser/gcode-parser.cc:GCodeParser::Impl::handle_G10", "src/gcode-parser/gcode-parser.cc:GCodeParser::Impl::change_coord_system"]}
{"id": "C94", "title": "From the text of a program to the steps of the motors", "statement": "If a text without homing and probing is read by the parser, the machine is at rest at the position of the parser before, nothing goes wrong (no refused move, no arc that is left out), and the text ends with a wait, then the pulses on the step lines during this text turn each motor of an axis by exactly the difference of the parser's positions before and after, rounded to steps; the segments carry the auxiliary bits of the moves in the order of the moves.", "quantifier": "all texts, all configurations and hardware mappings, all arithmetics, all interleavings of the host with the firmware", "why_tests_cant": "The parts of the program could each be right and still disagree about what they exchange; then the tool is not where the program says.", "anchors": ["src/motion-queue-motor-operations.cc:MotionQueueMotorOperations::Enqueue", "src/motion-queue-motor-operations.cc:MotionQueueMotorOperations::GetPhysicalStatus", "src/motion-queue-motor-operations.cc:MotionQueueMotorOperations::WaitQueueEmpty", "src/gcode-machine-control.cc:GCodeMachineControl::Impl::coordinated_move", "src/gcode-parser/gcode-parser.cc:GCodeParser::Impl::ParseBlock", "src/planner.cc:Planner::Impl::issue_motor_move_if_possible"]}
{"id": "C95", "title": "Own string view and formatted strings", "statement": "Before C++17 a class of the program stands in for std::string_view. Each of its operations (substr, comparison, find_first_of, find, remove_prefix) gives on the characters of the view what the standard says of std::string_view, and reads no memory outside of the view, so that SplitString gives the same pieces with both. StringPrintf returns the text that belongs to its format and arguments.", "quantifier": "all views, all memories around them, all positions, all texts", "why_tests_cant": "Configuration files and programs are cut into pieces with these; with another compiler they would be read differently.", "anchors": ["src/common/string-util.h:string_view", "src/common/string-util.cc:SplitString", "src/common/string-util.cc:StringPrintf", "src/common/string-util.cc:vAppendf"]}
{"id": "C96", "title": "The table of gcode-print-stats", "statement": "gcode-print-stats prints one row for each file named, in their order, below a header unless -H says otherwise; the row tells about that file alone: its statistics if it can be read (- being the standard input, as often as it is named) and has no errors, otherwise that it was not processed. The columns stand below each other. Unknown options, factors not above zero and a missing file give the usage, and the exit code says whether the files were processed. The statistics are computed with the configuration file, except for range check and homing, and with the corner angles the machine itself uses.", "quantifier": "all command lines, configuration files, file systems and results of the parser", "why_tests_cant": "The table is what people and scripts compare prints by; a row that depends on its neighbours or on other settings than the machine's is a wrong estimate.", "anchors": ["src/gcode-print-stats.cc:main", "src/gcode-print-stats.cc:print_file_stats", "src/determine-print-stats.cc:determine_print_stats", "src/machine-control-config.cc:MachineControlConfig"]}
{"id": "C97", "title": "Each PWM output drives its own timer", "statement": "The PWM pins P8_7 to P8_10, and no others, have each its own timer; a call for a pin changes only its timer, and changes nothing for pins without timer or when the timers are not mapped. Mapping succeeds exactly if the memory, the clock module and all timers could be mapped, with all clocks at 24 MHz, and otherwise leaves no timer mapped. After initialization all timers of outputs stand still at 16 kHz; setting an output of a cape to a value above 0 runs its timer alone with that duty cycle, 0 or less stops it, a reset stops all of them.", "quantifier": "all pins, capes, sequences of calls, earlier states of the timers, values up to 1 and answers of the system", "why_tests_cant": "PWM outputs drive the spindle, heaters and fans; a wrong timer drives the wrong one, a null register pointer crashes the program", "anchors": ["src/pwm-timer.cc:pwm_timer_get_data", "src/pwm-timer.cc:pwm_timers_map", "src/pwm-timer.cc:pwm_timers_unmap", "src/pwm-timer.cc:pwm_timers_ena_clk", "src/hardware-mapping.cc:SetPWMOutput", "src/hardware-mapping.cc:InitializeHardware"]}
{"id": "C98", "title": "Every message appears once in the log", "statement": "With a log file each message is written with one write as one line: level, time, message, and a newline exactly if the message has none, so that the log can be read back into the messages; escape sequences are used only on a terminal and are reset before the message. Without file, information and errors go to the system log and debugging messages nowhere. The file is used exactly if its name is given and it can be opened.", "quantifier": "all messages, levels, times, sequences of messages, file names and answers of the system", "why_tests_cant": "the log is the only trace a daemon leaves of refused commands and hardware errors", "anchors": ["src/common/logging.cc:Log_init", "src/common/logging.cc:Log_internal", "src/common/logging.cc:Log_debug", "src/common/logging.cc:Log_info", "src/common/logging.cc:Log_error"]}
{"id": "C99", "title": "M105 reports the analog inputs as they are", "statement": "M105 answers with one comment line that has the values of channels 0 to 7 in order, each the number in the file of the channel, or -1 if there is none, followed by a line with a temperature; other channels read as -1 and no file is opened.", "quantifier": "all contents of the files, all numbers of 32 bits, all channels", "why_tests_cant": "hosts poll M105 and parse its answer; a wrong number of lines confuses them", "anchors": ["src/adc.cc:arc_read_raw", "src/gcode-machine-control.cc:handle_M105", "src/gcode-machine-control.cc:mprintf"]}
{"id": "C100", "title": "The command line of gcode2ps and the parts of its picture", "statement": "gcode2ps draws a picture exactly if all options are known, angles are numbers, views are beginnings of known names, a file is named and can be read, the output can be written and the configuration is valid; otherwise it fails and changes nothing. For each option the last one counts, rotations are done in order and a view replaces those before it. Rotations, frame, grid, measures, machine path, speed legend, home and G-code path are drawn in this order, each exactly if its option asks for it; the speeds need a configuration and the machine path.", "quantifier": "all command lines, configuration files and file systems", "why_tests_cant": "the picture is how a program is checked before it is run; a part left out or a file overwritten without notice misleads", "anchors": ["src/gcode2ps.cc:main", "src/gcode2ps.cc:AppendFloatOp", "src/gcode2ps.cc:AppendViewOp", "src/gcode2ps.cc:ParseConfigIfAvailable", "src/gcode2ps.cc:ParseFile"]}
{"id": "C101", "title": "The picture of gcode2ps shows true sizes and speeds", "statement": "The box in the picture has its twelve edges, each drawn once. Each axis that is not short against the diagonal (3/40 of it) has a measure line exactly from its lowest to its highest coordinate, parallel to it and outside of the box, with their values and the length in millimetres or inches; the longest axis always has one. The home of the machine is marked by three lines along the axes. In the legend of speeds the colour at the place of a speed is at most one of 256 steps away from the colour of that speed in the picture; each label stands at the place of its speed, and the legend is left out exactly if there is only one speed.", "quantifier": "all ranges of coordinates, home positions, speeds and ways to print a number", "why_tests_cant": "sizes and speeds are read from the picture before a program is run", "anchors": ["src/gcode2ps.cc:PrintModelFrame", "src/gcode2ps.cc:ShowMesaureLines", "src/gcode2ps.cc:MeasureLine", "src/gcode2ps.cc:ShowHomePos", "src/gcode2ps.cc:PrintColorLegend"]}
{"id": "C102", "title": "The PostScript of the G-code path paints exactly the moves", "statement": "The PostScript that gcode2ps writes for the path runs without an error (no missing operand, no missing current point) and paints one line per move, from where the machine was to where it goes, rapid moves in their own colour and thin, other moves black with a width of a thousandth of the diagonal. The marks of the machine home and of named origins and the help lines of arcs and splines are painted too, and leave the operands, the current place, colour, width and dashes as they found them.", "quantifier": "for every sequence of calls of the event receiver in the second pass, every state of the interpreter before, every name of an origin and every way to round the printed numbers", "why_tests_cant": "A mark that moved the pen or changed the colour would show a path that the machine does not take; an error stops the interpreter and the rest of the picture is missing.", "anchors": ["src/gcode2ps.cc:ShowNamedOrigin", "src/gcode2ps.cc:ShowHomePos", "src/gcode2ps.cc:ShowArcHelpLines", "src/gcode2ps.cc:ShowSplineHelpLines", "src/gcode2ps.cc:set_move_style", "src/gcode2ps.cc:lineto_s", "src/gcode2ps.cc:kPSHeader", "src/gcode2ps.cc:PrintColorChoice"]}
{"id": "C103", "title": "The summary logged at the start describes the machine that runs", "statement": "When the machine control starts it logs a line for each axis. If it does start, there is a line for exactly the axes that have a motor afterwards, in the order of the axes, and each line shows what holds for the running machine: the motors that get the steps of the axis and no others, numbered from 1 and ascending, the limits, the end at which the axis is homed, the probe at the other end, and whether it is clamped or unchecked. This holds although motors are assigned to axes without one while the lines are written. No line says that there is no motor.", "quantifier": "all configurations, hardware mappings and axes", "why_tests_cant": "The summary is where a person sees which connector drives which axis before switching on the power; a line that was outdated by a later assignment would be wiring advice that is wrong.", "anchors": ["src/gcode-machine-control.cc:Init", "src/hardware-mapping.cc:DebugMotorString", "src/hardware-mapping.cc:AddMotorMapping", "src/hardware-mapping.cc:AssignMotorSteps"]}
{"id": "C104", "title": "The title does not change what the picture means", "statement": "The title given with -C only affects the title: the comment with the title is skipped by the PostScript interpreter whatever the title is, and the strokes of the title are below the box of the picture, at least half a text size away from it.", "quantifier": "all titles, all sizes of the box, everything that follows in the file", "why_tests_cant": "Titles come from the command line; only some contain characters that end a comment, and only some pictures are narrow.", "anchors": ["src/gcode2ps.cc:ShowMesaureLines", "src/hershey.cc:DrawText"]}
{"id": "C105", "title": "The usage texts tell how the options are taken", "statement": "Every option in the usage text of one of the three programs is taken by it in each spelling shown, at any place of the command line, as the same option, and it takes an argument exactly if the text shows one. The values shown as defaults are those used if the option is missing.", "quantifier": "all lines of the three usage texts, all command lines before the option, all arguments", "why_tests_cant": "An option that takes the next word although the text does not say so swallows the name of the file; the tables of the options and the texts are kept in step by hand.", "anchors": ["src/machine-control.cc:usage", "src/machine-control.cc:long_options", "src/gcode2ps.cc:usage", "src/gcode-print-stats.cc:usage"]}
{"id": "C106", "title": "M3, M4 and M5 turn the spindle on and off, after the moves before them and not in emergency stop", "statement": "M3 and M4 tell the spindle once to turn, clockwise and counter-clockwise, with the last speed S on the line, rounded; without a speed, or with a negative one, they tell it nothing. M5, M0, an emergency stop and the end of a program stop it, and after that only M3 or M4 starts it again. Before it is told anything the motors have made all moves that were commanded before. In emergency stop it is not started.", "quantifier": "all histories of events, all words on the line, all spindles", "why_tests_cant": "A spindle that stops while the tool is still in the work piece breaks it; one that starts in emergency stop injures somebody.", "anchors": ["src/gcode-machine-control.cc:set_spindle_on", "src/gcode-machine-control.cc:set_spindle_off", "src/gcode-machine-control.cc:aux_bit_commands", "src/gcode-machine-control.cc:gcode_finished", "src/gcode-machine-control.cc:set_estop"]}
{"id": "C107", "title": "Signals end the event loop in order, and SIGPIPE does not", "statement": "While Loop runs, SIGTERM, SIGINT, SIGSEGV, SIGBUS and SIGFPE do not kill the process; the round in which one of them arrives is the last, and if select was waiting no handler is called in it any more. That one was caught is printed once. Loop returns false exactly if one was caught, and true only when no descriptor is registered. SIGPIPE is ignored completely: it changes neither what is called nor the result. Behind the loop the signals have their default effect again.", "quantifier": "all handlers, all registered descriptors, all results of select, all signals at all times", "why_tests_cant": "The signals are how the machine is stopped from outside, and whether the queue is emptied or thrown away depends on the result of Loop.", "anchors": ["src/common/fd-mux.cc:Loop", "src/common/fd-mux.cc:SingleCycle", "src/common/fd-mux.cc:arm_signal_handler", "src/common/fd-mux.cc:disarm_signal_handler", "src/common/fd-mux.cc:receive_signal"]}
{"id": "C108", "title": "Faster parts of the path are drawn in a lighter colour", "statement": "For every speed that is shown the table of colours has an entry, and every entry is a colour, different from those of moves outside of the machine and of moves without a speed. Of two speeds in the same picture the greater one has the same colour or a lighter one, also when the picture is printed without colours; speeds on the scale that differ by a 255th part of it have different colours.", "quantifier": "all scales with different ends, all speeds, the whole table", "why_tests_cant": "The colour is all the picture shows of the speed.", "anchors": ["src/gcode2ps.cc:viridis_colors", "src/gcode2ps.cc:get_color_for_index"]}
{"id": "C109", "title": "The simulation says where the phases of a segment begin and end", "statement": "For each segment the simulation reports in order where its acceleration, its travel and its deceleration begin, and where acceleration and deceleration end, with the values at this moment; the row of the table with which a phase begins has a remark that names it, no other row has one.", "quantifier": "all segments", "why_tests_cant": "The marks are how phases are found in the plots of the table.", "anchors": ["src/sim-firmware.cc:SimFirmwareQueue::Enqueue"]}
{"id": "C110", "title": "The configuration files that come with the program work", "statement": "sample.config on every cape, bumps.config on BUMPS and vgen5.config on VGEN5 are accepted and the machine starts with them, with and without hardware; it then has the values, motors, switches and outputs that are written in the file, each of them is on a connector that the cape has, and none has two uses.", "quantifier": "all of the configuration files in the repository, all capes", "why_tests_cant": "They are what users begin with; a file that is refused, or silently not followed, is found only on the machine.", "anchors": ["src/hardware-mapping.cc:HardwareMapping::AddMotorMapping", "src/hardware-mapping.cc:HardwareMapping::ConfigureFromFile", "src/machine-control-config.cc:MachineControlConfig::ConfigureFromFile"]}
