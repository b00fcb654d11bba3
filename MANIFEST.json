{
 "claims": [
  {
   "property": "C01",
   "status": "proved",
   "theorems": [
    "Verif.ULog.C01_round_trip"
   ],
   "note": "Every history of opening, logging on and dropping streams (one stream of a type at a time, any interleaving, any number of sections and slabs), then closing: no panic, and reading a type returns exactly the bytes logged with it."
  },
  {
   "property": "C02",
   "status": "proved",
   "theorems": [
    "Verif.ULog.C02_sections_disjoint"
   ],
   "note": "Every reachable state of section operations, every page size above 13 and slab size."
  },
  {
   "property": "C03",
   "status": "proved",
   "theorems": [
    "Verif.ULog.C03_flushed_prefix"
   ],
   "note": "Every reachable state and every step; flushing is the bookkeeping of the flushed prefix."
  },
  {
   "property": "C04",
   "status": "proved",
   "theorems": [
    "Verif.ULog.C04_collection"
   ],
   "note": "Every reachable state."
  },
  {
   "property": "C05",
   "status": "partial",
   "theorems": [
    "Verif.ULog.C05_stream_partial",
    "Verif.ULog.C05_history_partial",
    "Verif.ULog.C05_reopened_partial",
    "Verif.ULog.C05_violated"
   ],
   "note": "Proved when the empty sections of the type (if any) come last, hence for every history that drops no stream of the type before the end of the log; C05_violated: an empty section followed by a non empty one hides it. C05_reopened_partial: streams may be dropped and opened again, if something was logged on each before the next one."
  },
  {
   "property": "C06",
   "status": "proved",
   "theorems": [
    "Verif.ULog.C06_headers"
   ],
   "note": "All headers."
  },
  {
   "property": "C07",
   "status": "partial",
   "theorems": [
    "Verif.ULog.C07_crash_partial",
    "Verif.ULog.C07_effects",
    "Verif.ULog.C07_crash_torn_partial",
    "Verif.ULog.C07_violated"
   ],
   "note": "A crash is a stop at any byte of any store an operation makes (C07_effects: the operations are exactly these stores; C07_crash_torn_partial) or between two operations: for the sections of the slabs up to the oldest one still mapped the reader gets back a prefix of what was written, at least every closed section. C07_violated: an open section hides the closed sections of later slabs."
  },
  {
   "property": "C08",
   "status": "proved",
   "theorems": [
    "Verif.C08_bounded_stack",
    "Verif.C08_capacity"
   ],
   "note": "Refinement of every client session on a fresh manager of any capacity to a bounded stack, both overflow profiles, fewer than 2^32 creations."
  },
  {
   "property": "C09",
   "status": "partial",
   "theorems": [
    "Verif.C09_ids_consecutive",
    "Verif.C09_live_ids_decrease",
    "Verif.C09_violated_id_wrap"
   ],
   "note": "Consecutive for every session of fewer than 2^32 creations; refuted beyond (the u32 counter wraps in release builds, C09_violated_id_wrap)."
  },
  {
   "property": "C10",
   "status": "partial",
   "theorems": [
    "Verif.C10_violated_dead_slots",
    "Verif.C10_iterators_partial"
   ],
   "note": "iter is exact; the mutable and ascending iterators also visit unused slots (C10_violated_dead_slots), exact shape proved."
  },
  {
   "property": "C11",
   "status": "partial",
   "theorems": [
    "Verif.CopperList.C11_logged_once",
    "Verif.CopperList.C11_available",
    "Verif.CopperList.C11_sequential_order",
    "Verif.CopperList.C11_violated_overlapping_order",
    "Verif.Runtime.C11_iteration_logged",
    "Verif.Runtime.C11_iteration_at_most_once",
    "Verif.Runtime.C11_run_logged"
   ],
   "note": "Proved for every interleaving of create/finish operations and every pool size; the in-order statement is proved for one-at-a-time processing; C11_violated_overlapping_order shows overlapping lists can be logged out of creation order."
  },
  {
   "property": "C12",
   "status": "partial",
   "theorems": [
    "Verif.Runtime.C12_iteration_partial",
    "Verif.Runtime.C12_run_partial",
    "Verif.Runtime.C12_violated_shutdown"
   ],
   "note": "Proved for iterations and runs that return Ok (including aborts); refuted for Shutdown / monitor errors (slot leaked, later panic)."
  },
  {
   "property": "C13",
   "status": "proved",
   "theorems": [
    "Verif.C13_each_task_once",
    "Verif.C13_no_panic"
   ],
   "note": "Every graph: terminates, nodup, only tasks of the graph; panics exactly on isolated tasks (see C17)."
  },
  {
   "property": "C14",
   "status": "proved",
   "theorems": [
    "Verif.C14_producers_first"
   ],
   "note": "Every graph."
  },
  {
   "property": "C15",
   "status": "proved",
   "theorems": [
    "Verif.C15_complete",
    "Verif.C15_exactly_runnable"
   ],
   "note": "Every acyclic graph without isolated tasks is fully planned; in general exactly the tasks not on/behind a cycle are."
  },
  {
   "property": "C16",
   "status": "partial",
   "theorems": [
    "Verif.C16_own_slot",
    "Verif.C16_inputs_perm_partial",
    "Verif.C16_inputs_ordered_partial",
    "Verif.C16_violated_parallel",
    "Verif.C16_violated_types",
    "Verif.C16_violated_statement"
   ],
   "note": "Own slot proved for every graph; inputs are the producers' slots up to order for every graph, in declaration order with declared types when there are no parallel connections and producers have one message type; both exceptions are refuted with witnesses."
  },
  {
   "property": "C17",
   "status": "partial",
   "theorems": [
    "Verif.C17_violated_cycle",
    "Verif.C17_violated_isolated_panics",
    "Verif.C17_truncated_iff_cyclic_partial"
   ],
   "note": "Refuted: cycles are silently dropped from an Ok plan, isolated tasks panic (exactly characterised)."
  },
  {
   "property": "C18",
   "status": "proved",
   "theorems": [
    "Verif.Runtime.C18_iteration",
    "Verif.Runtime.C18_run"
   ],
   "note": "Traces of the generated loop with arbitrary tasks, monitor, clock and simulation."
  },
  {
   "property": "C19",
   "status": "proved",
   "theorems": [
    "Verif.Runtime.C19_iteration",
    "Verif.Runtime.C19_start_stop",
    "Verif.Runtime.C19_run_ends_iff"
   ],
   "note": "Traces of the generated loop with arbitrary tasks, monitor and simulation; every decision of the monitor is honoured in the phase it was taken."
  },
  {
   "property": "C20",
   "status": "proved",
   "theorems": [
    "Verif.Runtime.C20_override"
   ],
   "note": "Simulation answers are honoured on every step of the trace."
  },
  {
   "property": "C21",
   "status": "proved",
   "theorems": [
    "Verif.Runtime.C21_same_iteration",
    "Verif.Runtime.C21_in_connection_order",
    "Verif.Runtime.C21_no_old_message"
   ],
   "note": "For every planned graph, any pool content; order of inputs under no parallel connections."
  },
  {
   "property": "C22",
   "status": "proved",
   "theorems": [
    "Verif.Runtime.C22_times_in_order"
   ],
   "note": "Whole runs with a monotone clock and tasks that leave their start time alone."
  },
  {
   "property": "C23",
   "status": "proved",
   "theorems": [
    "Verif.Runtime.C23_dump",
    "Verif.Runtime.C23_dump_undisturbed"
   ],
   "note": "Composition of the loop, the encoding of copper lists, the unified log and the export: every run that starts with a fresh copper list stream, with the other streams of the log used freely; the payload codecs are parameters assumed to round trip, the list must fit in a section. The undisturbed case identifies the lists with the iterations."
  },
  {
   "property": "C24",
   "status": "partial",
   "theorems": [
    "Verif.Runtime.C24_accessors_partial",
    "Verif.Runtime.C24_wrong_otherwise",
    "Verif.Runtime.C24_violated"
   ],
   "note": "Proved when the call order is its own inverse; otherwise some accessor is always wrong (C24_wrong_otherwise), concrete witness C24_violated."
  },
  {
   "property": "C25",
   "status": "proved",
   "theorems": [
    "Verif.C25_time_values_round_trip",
    "Verif.C25_tov_of_option",
    "Verif.C25_duration_size"
   ],
   "note": "All time types round trip with any trailing bytes."
  },
  {
   "property": "C26",
   "status": "partial",
   "theorems": [
    "Verif.C26_violated_max_time",
    "Verif.C26_option_faithful_partial",
    "Verif.C26_compact_to_option_and_back"
   ],
   "note": "Faithful for absent values and every time up to CuDuration::MAX; refuted for the single present value 2^64-1 ns (C26_violated_max_time)."
  },
  {
   "property": "C27",
   "status": "proved",
   "theorems": [
    "Verif.C27_range_is_hull",
    "Verif.C27_panics_only_on_empty"
   ],
   "note": "Hull of any non-empty list; empty list is the documented panic."
  },
  {
   "property": "C28",
   "status": "proved",
   "theorems": [
    "Verif.C28_monotone",
    "Verif.C28_elapsed",
    "Verif.C28_set_value",
    "Verif.C28_mock_reads_accumulated"
   ],
   "note": "quanta's counter is external: modelled as a u64 counter with saturating instant subtraction."
  },
  {
   "property": "C29",
   "status": "partial",
   "theorems": [
    "Verif.C29_arithmetic_exact",
    "Verif.C29_min_max",
    "Verif.C29_checked_panics",
    "Verif.C29_violated_release_underflow",
    "Verif.C29_violated_negative_scale",
    "Verif.C29_violated_duration_truncation",
    "Verif.C29_duration_conversion",
    "Verif.C29_display_unit"
   ],
   "note": "Exact whenever representable in both profiles, panic otherwise in checked builds; refuted for release builds (wrap), negative i32 scale and conversion of durations >= 2^64 ns. Display: unit choice only, digits (f64 formatting) not modelled."
  },
  {
   "property": "C30",
   "status": "partial",
   "theorems": [
    "Verif.Intern.C30_interning_partial",
    "Verif.Intern.C30_total_partial",
    "Verif.Intern.C30_violated"
   ],
   "note": "For every interleaving of any number of compilers: two strings never share an index, and the table read back gives each string at its index. A string has one index when no two compilers look it up before either writes it (NoRace). C30_violated: lookup and write are separate transactions, so a race gives one string two indices. Interning is total for strings of 1 to 511 bytes."
  },
  {
   "property": "C31",
   "status": "proved",
   "theorems": [
    "Verif.C31_entries",
    "Verif.C31_prefix"
   ],
   "note": "Full round trip of every legal entry, of streams of entries, and exact reading of any prefix."
  },
  {
   "property": "C32",
   "status": "partial",
   "theorems": [
    "Verif.C32_owned_partial",
    "Verif.C32_borrowing_partial",
    "Verif.C32_violated"
   ],
   "note": "Owned decoding round trips for every legal value. Borrowed decoding round trips exactly for characters and strings; C32_violated shows the wrong tag table."
  },
  {
   "property": "C33",
   "status": "proved",
   "theorems": [
    "Verif.C33_total_order",
    "Verif.C33_congruence",
    "Verif.C33_map_keys"
   ],
   "note": "Total order, equality and hash agree, map keys unique; floats follow ordered-float."
  },
  {
   "property": "C34",
   "status": "partial",
   "theorems": [
    "Verif.C34_holes_partial",
    "Verif.C34_pieces_partial",
    "Verif.C34_dump_partial",
    "Verif.C34_violated"
   ],
   "note": "Proved for parameter texts without braces (holes in order), for named placeholders, and for the dump. C34_violated: re-substitution of a parameter text holding {} and the documented mixed call."
  },
  {
   "property": "C35",
   "status": "proved",
   "theorems": [
    "Verif.Payload.C35_fill",
    "Verif.Payload.C35_round_trip",
    "Verif.Payload.C35_longer_rejected",
    "Verif.Payload.C35_any_bytes"
   ],
   "note": "Both containers (cu_payload CuArray and apriltag CuArrayVec): round trip of any content up to the capacity, longer encodings rejected, any input bytes give a result or an error, never more elements than the capacity. Element codec is a parameter."
  },
  {
   "property": "C36",
   "status": "partial",
   "theorems": [
    "Verif.Soa.C36_operations_partial",
    "Verif.Soa.C36_violated_empty",
    "Verif.Soa.C36_decode",
    "Verif.Soa.C36_violated_value",
    "Verif.Soa.C36_violated_panic"
   ],
   "note": "Operations refine a bounded list of records (any number of fields, any capacity, any history). Refuted: the encode/decode round trip, since the encoder writes a length per field that the decoder does not read, and decoding more records than the capacity panics."
  },
  {
   "property": "C37",
   "status": "partial",
   "theorems": [
    "Verif.PointCloud.C37_sort_partial",
    "Verif.PointCloud.C37_full_partial",
    "Verif.PointCloud.C37_violated_return_order",
    "Verif.PointCloud.C37_violated_short",
    "Verif.PointCloud.C37_violated_zero"
   ],
   "note": "Slots are sorted and time/coordinates/intensity stay together, for any content and non-zero capacity; points are preserved when the cloud is full and return orders are all equal. Refuted: return order is not moved, unused slots are sorted in (points lost), capacity 0 panics. Recursion depth (stack) not modelled."
  },
  {
   "property": "C38",
   "status": "partial",
   "theorems": [
    "Verif.Pool.C38_refines",
    "Verif.Pool.C38_conserved",
    "Verif.Pool.C38_acquire",
    "Verif.Pool.C38_exclusive",
    "Verif.Pool.C38_last_handle",
    "Verif.Pool.C38_violated_empty_pool"
   ],
   "note": "Refinement of the whole handle API (any number of pools, threads interleaved at the granularity of the lock and the reference counts) to a specification with groups of clones; conservation, exclusivity and return at the last drop are also stated on reachable states. Only refuted for size 0, which panics at construction."
  },
  {
   "property": "C39",
   "status": "partial",
   "theorems": [
    "Verif.Config.C39_round_trip_partial",
    "Verif.Config.C39_reads_built",
    "Verif.Config.C39_stable",
    "Verif.Config.C39_violated_renamed",
    "Verif.Config.C39_violated_same_name"
   ],
   "note": "Proved for every configuration built through the API (tasks added, connected, edited without changing their name) with distinct task names, and for every configuration read from a text. Renaming a task after connecting it breaks the round trip (C39_violated_renamed)."
  },
  {
   "property": "C40",
   "status": "partial",
   "theorems": [
    "Verif.Config.C40_read",
    "Verif.Config.C40_started_partial",
    "Verif.Config.C40_violated_override"
   ],
   "note": "C40_read covers every text and all combinations of sizes; a configuration given by the program instead is not validated (C40_violated_override)."
  },
  {
   "property": "C41",
   "status": "partial",
   "theorems": [
    "Verif.Ident.C41_distinct_partial",
    "Verif.Ident.C41_member_collisions",
    "Verif.Ident.C41_violated"
   ],
   "note": "False for arbitrary names (C41_violated). Proved for names made of lower case words and numbers joined by underscores, no number after a number; C41_member_collisions says exactly which names share a member name."
  },
  {
   "property": "C42",
   "status": "partial",
   "theorems": [
    "Verif.Monitoring.C42_no_panic_partial",
    "Verif.Monitoring.C42_accurate_partial",
    "Verif.Monitoring.C42_exact_partial",
    "Verif.Monitoring.C42_unbounded_partial",
    "Verif.Monitoring.C42_violated_exact",
    "Verif.Monitoring.C42_violated_range",
    "Verif.Monitoring.C42_violated_new",
    "Verif.Monitoring.C42_violated_dropped"
   ],
   "note": "The count and the choice of samples are exact; minimum, maximum and mean are those of histogram buckets: exact below 2048 ns, within 1/1024 above. Samples out of reach panic or are dropped."
  },
  {
   "property": "C43",
   "status": "proved",
   "theorems": [
    "Verif.Msp.C43_stream",
    "Verif.Msp.C43_size",
    "Verif.Msp.C43_no_panic",
    "Verif.Msp.C43_limits",
    "Verif.Msp.C43_marker"
   ],
   "note": "Any history leading to a parser between packets, any mix of versions, any noise without a start marker; writing needs exactly the advertised size; no bytes panic the parser. C43_limits and C43_marker show the limits are needed."
  },
  {
   "property": "C44",
   "status": "partial",
   "theorems": [
    "Verif.Msp.C44_altered_partial",
    "Verif.Msp.C44_recovers",
    "Verif.Msp.C44_violated_length"
   ],
   "note": "All positions of the checksummed part except the length: proved, with the frames that follow parsed normally. Altered length: violated (the checksum of a shorter frame can match by chance). Recovery after any error: proved in full."
  },
  {
   "property": "C45",
   "status": "partial",
   "theorems": [
    "Verif.Servo.C45_round_trip",
    "Verif.Servo.C45_altered_partial",
    "Verif.Servo.C45_panic_iff",
    "Verif.Servo.C45_ping",
    "Verif.Servo.C45_violated_panic",
    "Verif.Servo.C45_violated_length",
    "Verif.Servo.C45_violated_header",
    "Verif.Servo.C45_limits"
   ],
   "note": "Round trip for every id, command and up to 252 data bytes (C45_round_trip); every frame with one altered byte other than the length and the header is refused (C45_altered_partial). Violated: a length byte of 0, 1 or 2 panics (C45_violated_panic, exactly when by C45_panic_iff), an altered length can deliver a frame never sent (C45_violated_length), an altered header byte loses the frame behind it as well (C45_violated_header); C45_limits gives the sizes above which the frame announces a wrong length. Answers to a ping: C45_ping."
  },
  {
   "property": "C46",
   "status": "partial",
   "theorems": [
    "Verif.Threshold.C46_threshold_partial",
    "Verif.Threshold.C46_new",
    "Verif.Threshold.C46_violated_large",
    "Verif.Threshold.C46_violated_zero",
    "Verif.Threshold.C46_violated_radius"
   ],
   "note": "Full statement for every size with 255*w*h < 2^32 and every radius from 1 to 2^31-1, over every history of images and buffers (C46_threshold_partial). Missing because false: larger images can panic (C46_violated_large, the bound is sharp), radius 0 panics on every image (C46_violated_zero), radii from 2^31 on panic (C46_violated_radius)."
  },
  {
   "property": "C47",
   "status": "partial",
   "theorems": [
    "Verif.Aligner.C47_window_partial",
    "Verif.Aligner.C47_process_partial",
    "Verif.Aligner.C47_horizon_partial",
    "Verif.Aligner.C47_order",
    "Verif.Aligner.C47_violated_output",
    "Verif.Aligner.C47_violated_early",
    "Verif.Aligner.C47_violated_early_release",
    "Verif.Aligner.C47_violated_untimed",
    "Verif.Aligner.C47_violated_empty",
    "Verif.Aligner.C47_violated_late"
   ],
   "note": "For every state, input and build: the output is the content of one window ending at the earliest of the newest times (C47_window_partial), no crash under the stated conditions (C47_process_partial), the horizon for messages in order (C47_horizon_partial), arrival order for every history (C47_order). Violated: panics without output payload, early clock or empty message; untimed and late messages (C47_violated_*)."
  },
  {
   "property": "C48",
   "status": "partial",
   "theorems": [
    "Verif.Pid.C48_limits",
    "Verif.Pid.C48_textbook",
    "Verif.Pid.C48_hold",
    "Verif.Pid.C48_computes",
    "Verif.Pid.C48_restart",
    "Verif.Pid.C48_thaw_partial",
    "Verif.Pid.C48_violated_thaw",
    "Verif.Pid.C48_violated_nan",
    "Verif.Pid.C48_same_time",
    "Verif.Pid.C48_order"
   ],
   "note": "Over rationals, NaN as an absent value. Output and its parts within the limits (C48_limits), equal to the textbook sum (C48_textbook), held between samples (C48_hold), restart and order of messages (C48_restart, C48_order). Violated: a thawed task takes the next measurement for a first one (C48_violated_thaw; what does survive is C48_thaw_partial); two messages of one time give NaN with the default sampling period (C48_violated_nan)."
  },
  {
   "property": "C49",
   "status": "proved",
   "theorems": [
    "Verif.Adc.C49_range",
    "Verif.Adc.C49_outputs",
    "Verif.Adc.C49_constant",
    "Verif.Adc.C49_bounded",
    "Verif.Adc.C49_settles",
    "Verif.Adc.C49_bias",
    "Verif.Adc.C49_wire"
   ],
   "note": "For every history of samples: outputs are 12-bit, bounded by the samples seen, constant on a constant input, and settle within one of it (C49_range, C49_outputs, C49_constant, C49_bounded, C49_settles); C49_bias: from below the filter stays one short for ever. C49_wire: the bytes of the bus."
  },
  {
   "property": "C50",
   "status": "partial",
   "theorems": [
    "Verif.Motor.C50_applied_partial",
    "Verif.Motor.C50_monotone",
    "Verif.Motor.C50_stops",
    "Verif.Motor.C50_dryrun",
    "Verif.Motor.C50_violated_scale",
    "Verif.Motor.C50_violated_gap",
    "Verif.Motor.C50_violated_skipped"
   ],
   "note": "Over rationals. The command applied is the compensated power for forward motion and for every history without failures (C50_applied_partial), monotone (C50_monotone), stopped without payload (C50_stops), no motion in dry run (C50_dryrun). Violated: backward power exceeds full scale with any dead zone (C50_violated_scale); after a gap, a failure or a thaw the same command is skipped and the motor stays stopped (C50_violated_gap, C50_violated_skipped)."
  },
  {
   "property": "C51",
   "status": "partial",
   "theorems": [
    "Verif.Lidar.C51_livox_partial",
    "Verif.Lidar.C51_hesai_reject_partial",
    "Verif.Lidar.C51_hesai_partial",
    "Verif.Lidar.C51_hesai_release_partial",
    "Verif.Lidar.C51_utc",
    "Verif.Lidar.C51_idle",
    "Verif.Lidar.C51_failure",
    "Verif.Lidar.C51_violated_empty",
    "Verif.Lidar.C51_violated_time",
    "Verif.Lidar.C51_violated_past",
    "Verif.Lidar.C51_violated_early"
   ],
   "note": "For every datagram from 1 byte (Livox) or 2 bytes (Hesai) on: decoded completely or refused (C51_livox_partial, C51_hesai_reject_partial, C51_hesai_partial; release builds C51_hesai_release_partial), the UTC time by the Gregorian calendar (C51_utc). Violated: shorter datagrams panic (C51_violated_empty), times of points are not those of the protocol (C51_violated_time), packets before the reference or just after the origin panic a debug build (C51_violated_past, C51_violated_early)."
  },
  {
   "property": "C52",
   "status": "partial",
   "theorems": [
    "Verif.Runtime.C52_no_panic_partial",
    "Verif.Runtime.C52_run_no_panic_partial",
    "Verif.Runtime.C52_violated_declaration_order"
   ],
   "note": "Proved for every acyclic connected graph with tasks declared producers first, and for release builds in any order; refuted in debug builds for other orders."
  },
  {
   "property": "C53",
   "status": "partial",
   "theorems": [
    "Verif.Runtime.C53_only_own_messages_partial",
    "Verif.Runtime.C53_violated_after_abort"
   ],
   "note": "Proved for iterations that are not aborted; refuted after an abort."
  },
  {
   "property": "C54",
   "status": "proved",
   "theorems": [
    "Verif.Image.C54_buffer",
    "Verif.Image.C54_image",
    "Verif.Image.C54_lines"
   ],
   "note": "Full round trip and bounds; mutation of the public fields after construction is outside the model."
  },
  {
   "property": "C55",
   "status": "partial",
   "theorems": [
    "Verif.Msp.C55_delivers_partial",
    "Verif.Msp.C55_violated_batch",
    "Verif.Msp.C55_violated_panic"
   ],
   "note": "Proved for reads of at most 90 bytes (at most 15 packets can then complete) and convertible packets; violated for more than 16 packets in a read and for unlisted commands or short data, which panic."
  },
  {
   "property": "C56",
   "status": "proved",
   "theorems": [
    "Verif.Msp.C56_sends",
    "Verif.Msp.C56_requests"
   ],
   "note": "All batches of requests with 16 channels (the array type of the code). Serial writes are assumed to succeed."
  },
  {
   "property": "C57",
   "status": "partial",
   "theorems": [
    "Verif.C57_roundtrip_partial",
    "Verif.C57_exact_partial",
    "Verif.C57_logged_partial",
    "Verif.C57_integers",
    "Verif.C57_bytes",
    "Verif.C57_struct_seq",
    "Verif.C57_again",
    "Verif.C57_missing",
    "Verif.C57_copy_partial",
    "Verif.C57_violated_copy",
    "Verif.C57_violated_dynamic",
    "Verif.C57_violated_tuple"
   ],
   "note": "For every type of the grammar whose map keys hold no floats and no maps (C57_roundtrip_partial, exact without maps C57_exact_partial, through the log bytes C57_logged_partial, other integer types C57_integers, copies C57_copy_partial for values without times). Missing: other map keys, 128 bit integers (refused). Violated: copies lose times (C57_violated_copy), dynamic values are wrapped (C57_violated_dynamic), long sequences are cut (C57_violated_tuple)."
  },
  {
   "property": "C58",
   "status": "partial",
   "theorems": [
    "Verif.Runtime.C58_replay_partial",
    "Verif.Runtime.C58_ended_partial",
    "Verif.Runtime.C58_from_log_partial",
    "Verif.Runtime.C58_deterministic_partial",
    "Verif.Runtime.C58_again_partial",
    "Verif.Runtime.C58_completes",
    "Verif.Runtime.C58_declared_in_order",
    "Verif.Runtime.C58_violated_accessor",
    "Verif.Runtime.C58_violated_clock",
    "Verif.Runtime.C58_violated_abort"
   ],
   "note": "Proved by lock-step simulation for every task graph, task code, source, sink, clock and recording simulation, with failing tasks, from the logged lists and from the log files (C23); termination of the replay from C52; runs that end with an error or a shutdown (C58_ended_partial); replays of any lists are deterministic and replaying a replay's log gives it again (C58_deterministic_partial, C58_again_partial). Missing: applications whose accessors read the wrong slot (C24), a genuine violation; tasks that read the clock; runs with iterations aborted by the monitor, a genuine violation (C58_violated_abort); the memories after a shutdown decided when the list was logged already, whose iteration the replay completes."
  },
  {
   "property": "C59",
   "status": "partial",
   "theorems": [
    "Verif.Runtime.C59_safe",
    "Verif.Runtime.C59_crash_partial",
    "Verif.Runtime.C59_violated"
   ],
   "note": "Safety (an initial segment, each list as logged) is proved for every crash point between two operations. That only the lists of the section being filled are missing holds when this section is in the oldest slab in use, and is false otherwise: C59_violated. Crashes inside an operation: C94."
  },
  {
   "property": "C60",
   "status": "partial",
   "theorems": [
    "Verif.ULog.C60_round_trip",
    "Verif.ULog.C60_stream",
    "Verif.ULog.C60_crash_safe",
    "Verif.ULog.C60_crash_partial"
   ],
   "note": "Round trip and byte stream reading for every interleaving of threads (streams may be dropped and opened again if something was logged on each), and what a kill leaves, with calls waiting for the lock. Partial: after a kill the amount lost is bounded only when the section of the stream is in the oldest slab in use (otherwise C59_violated applies); a kill in the middle of actions is C96; several live streams of one type are C81."
  },
  {
   "property": "C61",
   "status": "partial",
   "theorems": [
    "Verif.LogRt.C61_calls",
    "Verif.LogRt.C61_thread_times",
    "Verif.LogRt.C61_recorded",
    "Verif.LogRt.C61_real_time",
    "Verif.LogRt.C61_order_violated",
    "Verif.LogRt.C61_two_loggers_violated",
    "Verif.LogRt.C61_panic_violated",
    "Verif.LogRt.C61_log"
   ],
   "note": "Proved for every schedule: each call has one fate, order per thread, real time order, recording while a working destination is set, and reading back through the unified log. Violated: order of times across threads, second logger cut by the drop of the first and its clock ignored, a panicking destination blocks all threads."
  },
  {
   "property": "C62",
   "status": "partial",
   "theorems": [
    "Verif.Alloc.C62_scope_partial",
    "Verif.Alloc.C62_own",
    "Verif.Alloc.C62_balance",
    "Verif.Alloc.C62_threads_violated",
    "Verif.Alloc.C62_reset_violated"
   ],
   "note": "Proved: what a counter reports for every schedule without reset, nothing of a thread is missed, totals balance. Violated: other threads are counted in; reset makes counters panic or wrap."
  },
  {
   "property": "C63",
   "status": "partial",
   "theorems": [
    "Verif.Params.C63_last",
    "Verif.Params.C63_given",
    "Verif.Params.C63_integer_partial",
    "Verif.Params.C63_bool_string",
    "Verif.Params.C63_text",
    "Verif.Params.C63_millis",
    "Verif.Params.C63_truncated_violated",
    "Verif.Params.C63_kind_violated"
   ],
   "note": "Last write wins and exact delivery are proved for every sequence of sets and every type that has the integer, including the re-read from a text and durations in milliseconds. Out-of-range integers are truncated and values of another kind panic (both proved), instead of an error."
  },
  {
   "property": "C64",
   "status": "partial",
   "theorems": [
    "Verif.Spatial.C64_faer",
    "Verif.Spatial.C64_faer_size",
    "Verif.Spatial.C64_nalgebra",
    "Verif.Spatial.C64_glam_round_trip",
    "Verif.Spatial.C64_glam_partial",
    "Verif.Spatial.C64_glam_violated",
    "Verif.Spatial.C64_tag_partial",
    "Verif.Spatial.C64_tag_glam",
    "Verif.Spatial.C64_tag_violated",
    "Verif.Spatial.C64_default_violated"
   ],
   "note": "faer and nalgebra proved (nalgebra: given that quaternions leave the rotation as it is). glam round trips but transposes the rotation; tag poses are transposed and lack the last row. Arithmetic is over the rationals."
  },
  {
   "property": "C65",
   "status": "partial",
   "theorems": [
    "Verif.Payloads.C65_poses",
    "Verif.Payloads.C65_readings",
    "Verif.Payloads.C65_detections",
    "Verif.Payloads.C65_plain",
    "Verif.Payloads.C65_servo_bytes",
    "Verif.Payloads.C65_requests",
    "Verif.Payloads.C65_point_partial",
    "Verif.Payloads.C65_reflectivity_violated",
    "Verif.Payloads.C65_readings_value_violated"
   ],
   "note": "Round trips proved for all payloads except the reflectivity of points (characterised exactly, violated) and readings as dynamic values (violated). MSP responses are not included."
  },
  {
   "property": "C66",
   "status": "partial",
   "theorems": [
    "Verif.Msp.C66_decodes",
    "Verif.Msp.C66_command",
    "Verif.Msp.C66_panics_partial",
    "Verif.Msp.C66_to_packet_violated",
    "Verif.Msp.C66_shadowed_violated",
    "Verif.Msp.C66_task"
   ],
   "note": "Packets to responses proved for every packet and packing; three parts of the claim are false of the code (responses to packets, two kinds never received, panics) and their negations are proved."
  },
  {
   "property": "C67",
   "status": "partial",
   "theorems": [
    "Verif.Tags.C67_reported_partial",
    "Verif.Tags.C67_no_image",
    "Verif.Tags.C67_many_violated",
    "Verif.Tags.C67_filtered",
    "Verif.Tags.C67_logged",
    "Verif.Tags.C67_read"
   ],
   "note": "Rows, order, filter, time and logging proved for up to 16 located tags; for more the code panics, proved."
  },
  {
   "property": "C68",
   "status": "partial",
   "theorems": [
    "Verif.VideoSource.C68_delivered",
    "Verif.VideoSource.C68_order",
    "Verif.VideoSource.C68_fresh",
    "Verif.VideoSource.C68_lossless",
    "Verif.VideoSource.C68_stale_time_violated"
   ],
   "note": "Delivery proved for every history; the clause about the time of an empty message is false of the code, witness proved."
  },
  {
   "property": "C69",
   "status": "partial",
   "theorems": [
    "Verif.Devices.C69_encoder_partial",
    "Verif.Devices.C69_encoder_violated",
    "Verif.Devices.C69_readme_violated",
    "Verif.Devices.C69_gpio_violated",
    "Verif.Devices.C69_gpio_partial",
    "Verif.Devices.C69_wt901",
    "Verif.Devices.C69_wt901_range",
    "Verif.Devices.C69_mag_violated",
    "Verif.Devices.C69_wt901_violated"
   ],
   "note": "Encoder below 2^31 edges, sensor registers proved; the other clauses are false of the code, negations proved."
  },
  {
   "property": "C70",
   "status": "partial",
   "theorems": [
    "Verif.ConsoleMon.C70_latencies_partial",
    "Verif.ConsoleMon.C70_stop_violated",
    "Verif.ConsoleMon.C70_names_partial",
    "Verif.ConsoleMon.C70_names_violated",
    "Verif.ConsoleMon.C70_no_panic_partial",
    "Verif.ConsoleMon.C70_empty_status_violated",
    "Verif.ConsoleMon.C70_slow_violated",
    "Verif.ConsoleMon.C70_statuses",
    "Verif.ConsoleMon.C70_answers",
    "Verif.ConsoleMon.C70_nodes",
    "Verif.ConsoleMon.C70_nodes_plan",
    "Verif.ConsoleMon.C70_type_partial",
    "Verif.ConsoleMon.C70_type_violated",
    "Verif.ConsoleMon.C70_pools",
    "Verif.ConsoleMon.C70_first_rate",
    "Verif.ConsoleMon.C70_rate_partial",
    "Verif.ConsoleMon.C70_rate_violated",
    "Verif.ConsoleMon.C70_pane_partial",
    "Verif.ConsoleMon.C70_pane_violated",
    "Verif.ConsoleMon.C70_run_partial"
   ],
   "note": "Partial: accurate rows, statuses, kinds of nodes and pools are proved; negations proved for the names of rows, empty statuses, slow tasks, cut type names, stop, pool rates and the debug pane after a resize. C70_run_partial extends C70_names_partial to runs of any number of iterations."
  },
  {
   "property": "C71",
   "status": "partial",
   "theorems": [
    "Verif.Runtime.C71_repeats_violated",
    "Verif.Runtime.C71_first_partial",
    "Verif.Runtime.C71_first_violated",
    "Verif.Runtime.C71_unwritten_violated"
   ],
   "note": "The property fails: a quiet task repeats its previous message (proved for every application and any two undisturbed iterations), and in the first iteration may send a payload made of zeroes. The part that holds: in the first iteration nothing is sent when the payload type has a tag of its own."
  },
  {
   "property": "C72",
   "status": "partial",
   "theorems": [
    "Verif.Camera.C72_frames_partial",
    "Verif.Camera.C72_message",
    "Verif.Camera.C72_images_stay",
    "Verif.Camera.C72_no_panic_partial",
    "Verif.Camera.C72_timeout_violated",
    "Verif.Camera.C72_timeout_panic_violated",
    "Verif.Camera.C72_empty_violated",
    "Verif.Camera.C72_keep_violated",
    "Verif.Camera.C72_restart_violated",
    "Verif.Camera.C72_time_partial",
    "Verif.Camera.C72_time_violated",
    "Verif.Camera.C72_size_partial",
    "Verif.Camera.C72_size_violated",
    "Verif.Camera.C72_fourcc",
    "Verif.Camera.C72_open_partial",
    "Verif.Camera.C72_open_violated",
    "Verif.Camera.C72_granted_violated"
   ],
   "note": "Delivery in order and untouched images for every history without two starts in a row; no panic only while every call finds a frame that is not empty and no task keeps images. Opening gives a source or an error if the device lets itself be stopped and the timeout is below 2^31 ms (C72_open_partial). Timeouts, empty frames, kept images, restarts, clock offset, unknown sizes, devices in use, long timeouts and devices that grant fewer buffers are violated by the code, with witnesses."
  },
  {
   "property": "C73",
   "status": "partial",
   "theorems": [
    "Verif.Bridge.C73_once_in_order",
    "Verif.Bridge.C73_complete_partial",
    "Verif.Bridge.C73_overflow_violated",
    "Verif.Bridge.C73_again_violated",
    "Verif.Bridge.C73_empty_violated",
    "Verif.Bridge.C73_status_violated",
    "Verif.Bridge.C73_stopped",
    "Verif.Bridge.C73_service"
   ],
   "note": "Once, in order, for every interleaving and number of sources; completeness while no more than the buffer wait. Overflow, repetition, messages without payload and the status are violated, with witnesses."
  },
  {
   "property": "C74",
   "status": "partial",
   "theorems": [
    "Verif.PyView.C74_values_partial",
    "Verif.PyView.C74_equal_keys",
    "Verif.PyView.C74_maps",
    "Verif.PyView.C74_keys_violated",
    "Verif.PyView.C74_key_panic_violated",
    "Verif.PyView.C74_options_violated",
    "Verif.PyView.C74_time_partial",
    "Verif.PyView.C74_time_violated",
    "Verif.PyView.C74_order",
    "Verif.PyView.C74_entries",
    "Verif.PyView.C74_damaged",
    "Verif.PyView.C74_ended_violated"
   ],
   "note": "Iteration for every log; conversion injective and without panic on values Python can tell apart; time right on the first day only. The rest is violated by the code, with witnesses."
  },
  {
   "property": "C75",
   "status": "partial",
   "theorems": [
    "Verif.Velodyne.C75_points_partial",
    "Verif.Velodyne.C75_dual_violated",
    "Verif.Velodyne.C75_unexpected_violated",
    "Verif.Velodyne.C75_time_violated",
    "Verif.Velodyne.C75_reflectivity_violated",
    "Verif.Velodyne.C75_config_partial",
    "Verif.Velodyne.C75_config_violated",
    "Verif.Velodyne.C75_stopped",
    "Verif.Velodyne.C75_played",
    "Verif.Velodyne.C75_pace_partial",
    "Verif.Velodyne.C75_pace_all_partial",
    "Verif.Velodyne.C75_pace_violated"
   ],
   "note": "All points in order for single returns on a started source; the player's payloads for every capture. Panics, time, reflectivity and pace are violated by the code, with witnesses."
  },
  {
   "property": "C76",
   "status": "partial",
   "theorems": [
    "Verif.ULog.C76_names",
    "Verif.ULog.C76_documented",
    "Verif.ULog.C76_names_violated",
    "Verif.ULog.C76_found",
    "Verif.ULog.C76_closed",
    "Verif.ULog.C76_others",
    "Verif.ULog.C76_crash_partial",
    "Verif.ULog.C76_crash_clean",
    "Verif.ULog.C76_crash_violated",
    "Verif.ULog.C76_build",
    "Verif.ULog.C76_default"
   ],
   "note": "Names, the search for the files, a closed log, other logs and the builder are proved. Missing: two base names without and with a leading dot share files, and a log killed with its file exactly full continues into an old file; both are proved as violations."
  },
  {
   "property": "C77",
   "status": "partial",
   "theorems": [
    "Verif.AlignedBuffer.C77_arrays_partial",
    "Verif.AlignedBuffer.C77_inside_partial",
    "Verif.AlignedBuffer.C77_apart_partial",
    "Verif.AlignedBuffer.C77_new",
    "Verif.AlignedBuffer.C77_checked",
    "Verif.AlignedBuffer.C77_overflow_violated",
    "Verif.AlignedBuffer.C77_alignment_violated",
    "Verif.AlignedBuffer.C77_zero_violated"
   ],
   "note": "Proved for every program and every allocator that keeps its contract, when the bytes can be counted in 64 bits and are not zero. Wrapping sizes, too small alignments and empty buffers are proved as violations."
  },
  {
   "property": "C78",
   "status": "partial",
   "theorems": [
    "Verif.Render.C78_drawing_partial",
    "Verif.Render.C78_no_type",
    "Verif.Render.C78_type_violated",
    "Verif.Render.C78_param_violated",
    "Verif.Render.C78_name_violated",
    "Verif.Params.C78_params_partial",
    "Verif.Params.C78_gets_partial",
    "Verif.Params.C78_kind_violated"
   ],
   "note": "Proved for names, types and parameters without the characters <, > and &; message types may have them. The other cases are proved as violations. C78_params_partial starts from the values of the parameters; C78_gets_partial says that what is drawn alike is read alike by components, for values of one kind (C78_kind_violated otherwise)."
  },
  {
   "property": "C79",
   "status": "partial",
   "theorems": [
    "Verif.Launch.C79_effect",
    "Verif.Launch.C79_bad_file",
    "Verif.Launch.C79_created_partial",
    "Verif.Launch.C79_failed_partial",
    "Verif.Launch.C79_cause_violated",
    "Verif.Launch.C79_builder",
    "Verif.Launch.C79_compiled",
    "Verif.Launch.C79_same",
    "Verif.Launch.C79_order_violated",
    "Verif.Launch.C79_fewer_violated",
    "Verif.Launch.C79_monitor_violated",
    "Verif.Launch.C79_ignored_violated"
   ],
   "note": "Proved for run-time configurations that begin with the tasks of the compiled one, in order: each component is created once with the parameters of its name, the first failure ends the start with its message, placeholders stand for sources and sinks of a simulation, builder and precedence of configurations. Violated: other orders swap parameters, fewer tasks panic, other types, tasks and connections are ignored, monitor errors panic, causes are overwritten."
  },
  {
   "property": "C80",
   "status": "partial",
   "theorems": [
    "Verif.Launch.C80_setup",
    "Verif.Launch.C80_starts_partial",
    "Verif.Launch.C80_too_large",
    "Verif.Launch.C80_validated_violated",
    "Verif.Launch.C80_default_violated"
   ],
   "note": "Proved: the start succeeds exactly if a slab holds one section (both directions). Violated: the validated slab size is never used, so an accepted configuration can panic at the start, and so can large copper lists with default sizes."
  },
  {
   "property": "C81",
   "status": "partial",
   "theorems": [
    "Verif.ULog.C81_streams",
    "Verif.ULog.C81_threads",
    "Verif.ULog.C81_order_violated",
    "Verif.ULog.C81_hidden_violated"
   ],
   "note": "Proved for every history and interleaving: whole objects, one stream per section, order within a stream, nothing lost or doubled (section reader). Violated: order between streams of a type; an empty stream hides later ones from the byte stream reader."
  },
  {
   "property": "C82",
   "status": "partial",
   "theorems": [
    "Verif.Monitoring.C82_percentile",
    "Verif.Monitoring.C82_defined",
    "Verif.Monitoring.C82_limits",
    "Verif.Monitoring.C82_monotone",
    "Verif.Monitoring.C82_deviation",
    "Verif.Monitoring.C82_small",
    "Verif.Monitoring.C82_exact_violated"
   ],
   "note": "Full for every history and fraction, up to one part in 1024 (percentiles) and one part in 2048 of the largest sample (deviation). Exactness holds below 2048 ns only: C82_exact_violated. Floating point of the histogram crate is exact in the model."
  },
  {
   "property": "C83",
   "status": "partial",
   "theorems": [
    "Verif.ULog.C83_power_partial",
    "Verif.ULog.C83_order_violated",
    "Verif.ULog.C83_async_violated"
   ],
   "note": "Proved for sections closed with all earlier ones closed, up to the oldest slab still mapped, if flushes are durable when the operation ends. Violated for sections closed after one still open in the slab, and if the asynchronous flush has not been done."
  },
  {
   "property": "C84",
   "status": "partial",
   "theorems": [
    "Verif.PidFp.C84_limits_partial",
    "Verif.PidFp.C84_numbers",
    "Verif.PidFp.C84_accuracy",
    "Verif.PidFp.C84_total",
    "Verif.PidFp.C84_nan_violated",
    "Verif.PidFp.C84_inf_violated"
   ],
   "note": "C84_limits_partial: every part of an output is within its limit or NaN, for all measurements. C84_numbers: numbers within the limits for parameters and measurements up to about a million, for histories of any length. C84_accuracy: each part follows the law of a PID up to two millionths of the magnitudes it is computed from. C84_total: no panic. Missing: measurements that are NaN or infinite, for which the property is false (C84_nan_violated, C84_inf_violated)."
  },
  {
   "property": "C85",
   "status": "partial",
   "theorems": [
    "Verif.MotorFp.C85_applied_partial",
    "Verif.MotorFp.C85_monotone",
    "Verif.MotorFp.C85_stops",
    "Verif.MotorFp.C85_scale_violated"
   ],
   "note": "C85_applied_partial: the whole property forwards; backwards direction and positivity hold but full scale is exceeded (C85_scale_violated), at most 3. C85_monotone: monotone. C85_stops: missing input stops the motor."
  },
  {
   "property": "C86",
   "status": "partial",
   "theorems": [
    "Verif.ReadingsFp.C86_imu",
    "Verif.ReadingsFp.C86_devices",
    "Verif.ReadingsFp.C86_ordered",
    "Verif.ReadingsFp.C86_wide_partial",
    "Verif.ReadingsFp.C86_wide_violated",
    "Verif.ReadingsFp.C86_servo_partial",
    "Verif.ReadingsFp.C86_servo_violated",
    "Verif.ReadingsFp.C86_cell_partial",
    "Verif.ReadingsFp.C86_cell_violated"
   ],
   "note": "C86_imu, C86_devices: every reading of the inertial unit, converter, lidars and servos up to a millionth, exactly where representable. C86_ordered: none are confused. C86_wide_partial: encoders up to 2^24 (C86_wide_violated beyond). C86_servo_partial: at most one step (C86_servo_violated). C86_cell_partial: 1 to 25 cells (C86_cell_violated)."
  },
  {
   "property": "C87",
   "status": "proved",
   "theorems": [
    "Verif.ShowTime.C87_reads",
    "Verif.ShowTime.C87_ordered"
   ],
   "note": "C87_reads: accuracy of the text for every duration; C87_ordered: order across units."
  },
  {
   "property": "C88",
   "status": "partial",
   "theorems": [
    "Verif.Bot.C88_total",
    "Verif.Bot.C88_flow",
    "Verif.Bot.C88_cut",
    "Verif.Bot.C88_bounds_partial",
    "Verif.Bot.C88_stop",
    "Verif.Bot.C88_quit_violated",
    "Verif.Bot.C88_scale_violated",
    "Verif.Bot.C88_resume_violated",
    "Verif.Bot.C88_tov_violated"
   ],
   "note": "C88_total: no panic, the loop goes on. C88_flow: an iteration of the generated runtime is the function drive of what the sensors delivered in it. C88_cut: all the reasons to stop the motor. C88_bounds_partial: one direction at a time, at most 1 forwards but 1.61 backwards (C88_scale_violated). C88_stop: disabled when the stop flag is set, not when q is pressed (C88_quit_violated). Not met: driving again after a failed reading (C88_resume_violated), time of the command (C88_tov_violated)."
  },
  {
   "property": "C89",
   "status": "partial",
   "theorems": [
    "Verif.Dataflow.C89_meaning",
    "Verif.Dataflow.C89_run_partial",
    "Verif.Dataflow.C89_total_partial",
    "Verif.Dataflow.C89_order_partial",
    "Verif.Dataflow.C89_influence",
    "Verif.Dataflow.C89_run_violated",
    "Verif.Dataflow.C89_order_violated",
    "Verif.Dataflow.C89_read_partial"
   ],
   "note": "Refinement of the generated loop to the recursive equations a configuration stands for. Partial: no two connections between the same tasks (the inputs are then delivered in another order: C89_run_violated); for termination without panic, producers declared first or a build without overflow checks (C89_order_violated), and fewer than 2^32 iterations in a checked build."
  },
  {
   "property": "C90",
   "status": "partial",
   "theorems": [
    "Verif.Examples.Multi.C90_sources_partial",
    "Verif.Examples.Multi.C90_sources_violated",
    "Verif.Examples.Multi.C90_overflow_violated",
    "Verif.Examples.Cater.C90_caterpillar"
   ],
   "note": "By C89, with the equations of the configurations solved. Partial: the float stops at 16777216 (C90_sources_violated); the integer overflows in a checked build (C90_overflow_violated). The caterpillar is proved without restriction as long as the console does not end it."
  },
  {
   "property": "C91",
   "status": "partial",
   "theorems": [
    "Verif.BotSim.C91_total",
    "Verif.BotSim.C91_quit_violated",
    "Verif.BotSim.C91_forces",
    "Verif.BotSim.C91_same",
    "Verif.BotSim.C91_bounded",
    "Verif.BotSim.C91_cut",
    "Verif.BotSim.C91_diverged",
    "Verif.BotSim.C91_paused",
    "Verif.BotSim.C91_paused_violated",
    "Verif.BotSim.C91_reading_partial",
    "Verif.BotSim.C91_reading_violated"
   ],
   "note": "The force of every frame is that of the controllers (C91_forces, C91_same), bounded, and zero where it should be (C91_cut, C91_paused). Violated: quitting is a panic of the simulator; a rod dragged while paused gets the full force; the reading reaches 4096 and a position that is not a number reads as 0."
  },
  {
   "property": "C92",
   "status": "partial",
   "theorems": [
    "Verif.BotResim.C92_hardware",
    "Verif.BotResim.C92_simulation",
    "Verif.BotResim.C92_motor_violated",
    "Verif.BotResim.C92_times_violated",
    "Verif.BotResim.C92_stops"
   ],
   "note": "Full for what the log says apart from process times and the motor's own message, whose differences are shown as violations; both for recordings of the hardware (C88's model) and of the simulator (C91's model)."
  },
  {
   "property": "C93",
   "status": "partial",
   "theorems": [
    "Verif.C93_integers",
    "Verif.C93_values_partial",
    "Verif.C93_texts_violated",
    "Verif.C93_log_partial",
    "Verif.C93_map_violated"
   ],
   "note": "Proved from the compilers' interning to the printed lines for any threads and interleavings, for calls whose holes are filled by values without braces in their texts and without empty maps (or plain pieces with named arguments). Violated for texts inside sequences, empty maps, and maps beside named arguments."
  },
  {
   "property": "C94",
   "status": "partial",
   "theorems": [
    "Verif.ULog.C94_effects",
    "Verif.ULog.C94_stream",
    "Verif.Runtime.C94_safe",
    "Verif.Runtime.C94_crash_partial",
    "Verif.Runtime.C94_hang_violated",
    "Verif.C94_text_partial"
   ],
   "note": "Safety is proved for every history of operations and every instant of every operation: the lists exported are an initial segment of those logged, and when the section of the copper lists is in the oldest slab in use only lists of that section are missing; the text lines printed are likewise an initial segment of those logged (C94_text_partial). Violated: a kill between the magic number and the size of a new section header makes the reader loop forever once it has delivered what is left (C94_hang_violated); sections of later slabs (C59_violated). Assumes that the bytes of a store reach the map in order and that pages are multiples of 256 bytes; one thread."
  },
  {
   "property": "C95",
   "status": "partial",
   "theorems": [
    "Verif.ULog.C95_partial",
    "Verif.ULog.C95_only_logs",
    "Verif.ULog.C95_inside",
    "Verif.ULog.C95_cut",
    "Verif.ULog.C95_violated",
    "Verif.ULog.C95_middle_violated"
   ],
   "note": "C95_partial characterises exactly when the reader returns sections, reports an error, panics or loops, for any files, in terms of a specification of how sections chain; C95_only_logs and C95_inside follow from it. C95_cut: a log whose end is missing is never taken for a complete one. Missing: the property wants an error instead of the panics and of the loop (C95_violated), and files cut in the middle go unnoticed (C95_middle_violated)."
  },
  {
   "property": "C96",
   "status": "partial",
   "theorems": [
    "Verif.ULog.C96_effects",
    "Verif.ULog.C96_stream",
    "Verif.C96_export_partial"
   ],
   "note": "Initial segment of each stream, of the copper lists and of the text lines, whatever the interleaving and the instant of the kill (C96_stream, C96_export_partial); the effects considered are those of the actions (C96_effects). Partial: text lines for the debug! calls that Says covers, pages that are multiples of 256 bytes, and the amount lost is bounded only when the section is in the oldest slab in use (see C59_violated)."
  },
  {
   "property": "C97",
   "status": "partial",
   "theorems": [
    "Verif.Frozen.C97_snapshot",
    "Verif.Frozen.C97_default",
    "Verif.Frozen.C97_caterpillar",
    "Verif.Frozen.C97_stateless",
    "Verif.Frozen.C97_threshold_partial",
    "Verif.Frozen.C97_violated_counters",
    "Verif.Frozen.C97_violated_restart",
    "Verif.Frozen.C97_violated_buffers",
    "Verif.Frozen.C97_pid_partial",
    "Verif.Frozen.C97_violated_pid",
    "Verif.Frozen.C97_violated_motor"
   ],
   "note": "C97_snapshot: tasks that resume each, resume together from one stream of bytes. C97_default: with the default methods a task resumes exactly if its outputs never depend on its history. C97_caterpillar, C97_stateless, C97_threshold_partial: the tasks that do resume (the threshold for images whose sums fit 32 bits, the domain of C46). Violated by the counting sources, the encoder and the converter (C97_violated_counters, C97_violated_restart), the aligner and the serial source (C97_violated_buffers), the PID task for every configuration (C97_violated_pid, with C97_pid_partial for what it does restore) and the motor (C97_violated_motor)."
  },
  {
   "property": "C98",
   "status": "partial",
   "theorems": [
    "Verif.Arrow.C98_and_kleene",
    "Verif.Arrow.C98_or_kleene",
    "Verif.Arrow.C98_and_or",
    "Verif.Arrow.C98_lengths",
    "Verif.Arrow.C98_not",
    "Verif.Arrow.C98_is_null",
    "Verif.Arrow.C98_and_not_partial",
    "Verif.Arrow.C98_violated_and_not",
    "Verif.Arrow.C98_violated_and_not_panic",
    "Verif.Arrow.C98_slice"
   ],
   "note": "All kernels of boolean.rs on any arrays and slices; C98_slice: a slice holds just these slots of its array. The claim is false of and_not: C98_violated_and_not gives a wrong slot, C98_violated_and_not_panic shows that every slice of a whole number of bytes, not from the first slot on, panics; C98_and_not_partial covers arrays that are not slices."
  },
  {
   "property": "C99",
   "status": "partial",
   "theorems": [
    "Verif.Arrow.C99_sum_partial",
    "Verif.Arrow.C99_min_max_partial",
    "Verif.Arrow.C99_violated_overflow",
    "Verif.Arrow.C99_booleans",
    "Verif.Arrow.C99_bits",
    "Verif.Arrow.C99_bytes",
    "Verif.Arrow.C99_sum_checked",
    "Verif.Arrow.C99_sum_dict",
    "Verif.Arrow.C99_nan_partial",
    "Verif.Arrow.C99_violated_nan",
    "Verif.Arrow.C99_violated_float"
   ],
   "note": "Sums, minima and maxima for any integers and any total order in every build except one (C99_violated_overflow: one-byte elements, vectors of 64 bytes, overflow checks: panic). Booleans, bitwise aggregates, bytes, checked sums and dictionaries without exception. C99_violated_nan: the documented place of NaN holds only if its sign is positive (C99_nan_partial). C99_violated_float: sums of floating point numbers depend on the machine."
  },
  {
   "property": "C100",
   "status": "partial",
   "theorems": [
    "Verif.Arrow.C100_unary",
    "Verif.Arrow.C100_try_unary",
    "Verif.Arrow.C100_binary",
    "Verif.Arrow.C100_lengths",
    "Verif.Arrow.C100_try_binary_partial",
    "Verif.Arrow.C100_primitive",
    "Verif.Arrow.C100_binary_mut",
    "Verif.Arrow.C100_try_binary_mut",
    "Verif.Arrow.C100_shared",
    "Verif.Arrow.C100_violated_dictionary",
    "Verif.Arrow.C100_dict_access",
    "Verif.Arrow.C100_dict",
    "Verif.Arrow.C100_try_dict_partial",
    "Verif.Arrow.C100_violated_dict",
    "Verif.Arrow.C100_unary_mut",
    "Verif.Arrow.C100_dyn_partial",
    "Verif.Arrow.C100_try_dyn_partial",
    "Verif.Arrow.C100_dyn_error",
    "Verif.Arrow.C100_violated_dyn",
    "Verif.Arrow.C100_integer",
    "Verif.Arrow.C100_integer_lengths",
    "Verif.Arrow.C100_neg",
    "Verif.Arrow.C100_bitwise",
    "Verif.Arrow.C100_bitwise_scalar",
    "Verif.Arrow.C100_shift",
    "Verif.Arrow.C100_shift_scalar",
    "Verif.Arrow.C100_float"
   ],
   "note": "The kernels of arity.rs (also in place, and those that find the type out), the bitwise ones, integer arithmetic and that of floats (as any type with operations) are proved slot by slot for all arrays. Partial: try_binary over dictionaries with null values, try_unary over dictionaries with unused values and unary_dyn over dictionaries of another type violate the claim, which is proved with witnesses; dates and intervals are C105, decimals C103."
  },
  {
   "property": "C101",
   "status": "partial",
   "theorems": [
    "Verif.Runtime.C101_sections",
    "Verif.Runtime.C101_export_partial",
    "Verif.Runtime.C101_hidden_violated"
   ],
   "note": "C101_sections: the sections of the log have the lists of all applications, whatever they did. C101_export_partial: so has the export, if every application but the last has logged a list; missing: an application that logged none hides those after it, C101_hidden_violated."
  },
  {
   "property": "C102",
   "status": "proved",
   "theorems": [
    "Verif.Examples.Template.C102_template",
    "Verif.Examples.Once.C102_once",
    "Verif.Launch.C102_reserved",
    "Verif.Launch.C102_logging_size"
   ],
   "note": "Proved for every clock that does not go back, every page size and both build modes: C102_template (any number of turns), C102_once (the exact sequence of events of one iteration), C102_reserved and C102_logging_size (what the log reports as used)."
  },
  {
   "property": "C103",
   "status": "partial",
   "theorems": [
    "Verif.Arrow.C103_partial",
    "Verif.Arrow.C103_possible",
    "Verif.Arrow.C103_scale",
    "Verif.Arrow.C103_neg",
    "Verif.Arrow.C103_fixed_partial",
    "Verif.Arrow.C103_fixed_wrapping_partial",
    "Verif.Arrow.C103_fixed_scale",
    "Verif.Arrow.C103_violated_panic",
    "Verif.Arrow.C103_violated_product",
    "Verif.Arrow.C103_violated_remainder",
    "Verif.Arrow.C103_violated_division",
    "Verif.Arrow.C103_violated_digits",
    "Verif.Arrow.C103_violated_fixed"
   ],
   "note": "Proved for all values and nulls when the powers of ten between the scales exist (Op.Possible) and, for sums and remainders, an i8 counts the digits before the point: exact result or error, slot by slot, with the type and its room for digits; fixed point products round to the nearest number when at most 76 digits are dropped. Violated beyond: panic, saturated scale, wrapped power of ten, refused quotients, one digit too many, 77 digits dropped."
  },
  {
   "property": "C104",
   "status": "partial",
   "theorems": [
    "Verif.Arrow.C104_calendar",
    "Verif.Arrow.C104_parts",
    "Verif.Arrow.C104_timestamp",
    "Verif.Arrow.C104_zone",
    "Verif.Arrow.C104_date",
    "Verif.Arrow.C104_time",
    "Verif.Arrow.C104_duration",
    "Verif.Arrow.C104_interval",
    "Verif.Arrow.C104_violated_months",
    "Verif.Arrow.C104_dictionary"
   ],
   "note": "All types and parts, over every calendar with the right first and next days. The months of two kinds of intervals are not counted alike (C104_violated_months)."
  },
  {
   "property": "C105",
   "status": "partial",
   "theorems": [
    "Verif.Arrow.C105_partial",
    "Verif.Arrow.C105_commutes",
    "Verif.Arrow.C105_neg",
    "Verif.Arrow.C105_violated_null"
   ],
   "note": "C105_partial covers all pairs of types at once; missing are dates beyond the calendar, which panic even under nulls (C105_violated_null). Moving by an interval is a parameter."
  },
  {
   "property": "C106",
   "status": "partial",
   "theorems": [
    "Verif.LogFile.C106_file_partial",
    "Verif.LogFile.C106_sound",
    "Verif.LogFile.C106_violated_torn"
   ],
   "note": "For all disks, kills and calls none of which fails to log, the file is a part of the log from its start, with everything before a successful flush; on a disk on which writes get on, everything. Partial: after a failed log call the claim is false (C106_violated_torn)."
  },
  {
   "property": "C107",
   "status": "partial",
   "theorems": [
    "Verif.C107_new",
    "Verif.C107_start_partial",
    "Verif.C107_violated_start",
    "Verif.C107_recent_partial",
    "Verif.C107_violated_recent"
   ],
   "note": "C107_new and C107_start_partial hold for all values of the counter that do not decrease, the latter for start times up to the counter; beyond it from_ref_time panics (C107_violated_start). C107_recent_partial bounds the cheap reading by what is published; nothing in the repository publishes anything, so it is always 0 (C107_violated_recent)."
  },
  {
   "property": "C108",
   "status": "partial",
   "theorems": [
    "Verif.Pool.C108_refines",
    "Verif.Pool.C108_conserved",
    "Verif.Pool.C108_fresh",
    "Verif.Pool.C108_round_trip_partial",
    "Verif.Pool.C108_violated_stale",
    "Verif.Pool.C108_violated_panics",
    "Verif.Pool.C108_violated_unseen"
   ],
   "note": "Proved for every history: results of the specification, conservation of device buffers, zeros at the start, and what comes back starts with what was copied and is exactly it when the lengths agree (partial). Violated: a shorter source leaves the data of the previous user in the rest; a copy panics without a free buffer, from a longer buffer and from the device; device pools are not in the statistics."
  },
  {
   "property": "C109",
   "status": "partial",
   "theorems": [
    "Verif.ConsoleMon.C109_delivery",
    "Verif.ConsoleMon.C109_after_quit_partial",
    "Verif.ConsoleMon.C109_drains_partial",
    "Verif.ConsoleMon.C109_shown_partial",
    "Verif.ConsoleMon.C109_violated_waits",
    "Verif.ConsoleMon.C109_violated_endless",
    "Verif.ConsoleMon.C109_violated_lost",
    "Verif.ConsoleMon.C109_violated_resize",
    "Verif.ConsoleMon.C109_violated_small"
   ],
   "note": "Proved for every interleaving: delivery once and in order per thread while the user interface runs, what happens to lines after a quit (partial: up to a thousand are lost), that a round without further lines empties the channel (partial), and that the most recent messages are shown on a terminal that keeps its size (partial). Violated: the logging thread waits after a thousand lines, a round need not end, lines are lost at a quit, the newest lines are hidden after a resize, fewer than five rows panic."
  },
  {
   "property": "C110",
   "status": "partial",
   "theorems": [
    "Verif.Runtime.C110_killed_partial"
   ],
   "note": "Partial because of what C58 leaves out: accessors that do not read the sources' messages, tasks that read the clock, runs with aborted iterations."
  },
  {
   "property": "C111",
   "status": "partial",
   "theorems": [
    "Verif.Runtime.C111_safe",
    "Verif.Runtime.C111_lost_partial",
    "Verif.Runtime.C111_hidden_violated"
   ],
   "note": "C111_safe: no condition beyond the layout of the log. C111_lost_partial: what is lost is in the section being filled, if every application but the last has logged a list (C111_hidden_violated shows the condition is needed: the reader takes the empty section for the end) and the section is in the oldest slab in use (see C59_violated)."
  },
  {
   "property": "C112",
   "status": "partial",
   "theorems": [
    "Verif.ULog.C112_sections",
    "Verif.ULog.C112_export_partial",
    "Verif.ULog.C112_export_violated",
    "Verif.ULog.C112_noticed_violated",
    "Verif.ULog.C112_header_violated"
   ],
   "note": "C112_sections holds in full. C112_export_partial: the objects before the damage are exported, all of them if the damage is in another type's section. C112_export_violated, C112_noticed_violated, C112_header_violated: later intact sections are not exported, damage is not noticed, one header byte hides the rest."
  },
  {
   "property": "C113",
   "status": "partial",
   "theorems": [
    "Verif.C113_written",
    "Verif.C113_before_partial",
    "Verif.C113_any_partial",
    "Verif.C113_files_partial",
    "Verif.C113_violated",
    "Verif.C113_memory_violated"
   ],
   "note": "C113_written: logs as written are dumped whole, with memory in proportion. C113_before_partial, C113_any_partial: lines in front of damage are printed; the three causes of a panic. C113_violated, C113_memory_violated: one damaged byte makes the dump panic; few bytes ask for any amount of memory. From damaged files of any history, read with any buffer sizes, the lines logged before the damaged section are printed first, and all of them if the damage is in a section of another type (C113_files_partial)."
  },
  {
   "property": "C114",
   "status": "partial",
   "theorems": [
    "Verif.ULog.C114_stream_partial",
    "Verif.ULog.C114_export_partial",
    "Verif.ULog.C114_lost_failed",
    "Verif.ULog.C114_idle_violated"
   ],
   "note": "Proved for what was logged before a moment after which every stream left its section and whose slabs but the last are out of use. Missing: anything logged while one stream stays in an early section, for which nothing is flushed (C114_idle_violated, for every such history), and later slabs (C07_violated). Assumes ranges given to flush_async_range are on the disk when the action ends; see C83_async_violated."
  },
  {
   "property": "C115",
   "status": "partial",
   "theorems": [
    "Verif.Wire.C115_written",
    "Verif.Wire.C115_before_partial",
    "Verif.Wire.C115_any_partial",
    "Verif.Wire.C115_image",
    "Verif.Wire.C115_files_partial",
    "Verif.Wire.C115_violated",
    "Verif.Wire.C115_memory_violated"
   ],
   "note": "Violated. Proved for all lists of slots: lists as written are all exported and none asks for more memory than it has bytes (C115_written); lists in front of any damage are exported (C115_before_partial); on any bytes the export either ends with exactly the lists of the decoder without memory, or it panics, and it panics exactly when a list behind readable ones says a status or a payload larger than the address space (C115_any_partial), made concrete for images (C115_image). From damaged files, of any history, read with any buffer sizes, the lists logged before the damaged section are exported first, and all of them if the damage is in a section of another type (C115_files_partial). One damaged byte makes it panic (C115_violated) and fifteen bytes ask for any amount of memory (C115_memory_violated). Vectors of larger elements in payloads are not modelled."
  },
  {
   "property": "C116",
   "status": "partial",
   "theorems": [
    "Verif.LogReader.C116_lists",
    "Verif.LogReader.C116_text",
    "Verif.LogReader.C116_missing",
    "Verif.LogReader.C116_success_partial",
    "Verif.LogReader.C116_text_success_partial",
    "Verif.LogReader.C116_format_violated",
    "Verif.LogReader.C116_exit_violated",
    "Verif.LogReader.C116_text_exit_violated"
   ],
   "note": "Proved for every closed log. Violated: the export format asked for changes nothing but the first line; an export of lists cut short by damaged data or a reader error still ends with success, sometimes without a word; the text likewise when an entry's index reads as zero. What success does imply is proved for any log."
  },
  {
   "property": "C117",
   "status": "partial",
   "theorems": [
    "Verif.Bot.C117_wire",
    "Verif.Bot.C117_resimulated",
    "Verif.Bot.C117_found_partial",
    "Verif.Bot.C117_power_partial"
   ],
   "note": "C117_wire: every list the robot logs is read back as it was. C117_resimulated: for any kill, what is found are the lists of the first k iterations, and they are resimulated to the end, with the state of the controllers after k iterations. C117_found_partial: how many iterations are found; missing: a section of copper lists in a slab later than the oldest in use, of which all may be lost (C59_violated). C117_power_partial: a power failure instead of a kill, with several threads logging; missing: sections still in use, asynchronous flushes (C83_async_violated), idle streams (C114_idle_violated)."
  },
  {
   "property": "C118",
   "status": "partial",
   "theorems": [
    "Verif.Runtime.C118_promises",
    "Verif.Runtime.C118_ignored_partial",
    "Verif.Runtime.C118_violated"
   ],
   "note": "C118_promises: the full composition when the requirement covers what tasks leave when they fail. C118_ignored_partial: tasks promise nothing of the payload of a failed call, and the monitor goes on after errors. C118_violated: with a monitor that aborts, the payload a failed task left is logged."
  },
  {
   "property": "C119",
   "status": "partial",
   "theorems": [
    "Verif.Msp.C119_channels",
    "Verif.Msp.C119_numbers_violated",
    "Verif.Msp.C119_numbers_partial",
    "Verif.Msp.C119_code",
    "Verif.Msp.C119_baudrate",
    "Verif.Msp.C119_serial"
   ],
   "note": "C119_channels: what is on the wire after any sequence of settings. C119_numbers_partial / C119_numbers_violated: the numbers of MspRcChannel agree with the places in MspRc except for throttle and yaw, which are exchanged. C119_code, C119_baudrate, C119_serial: codes, texts and numbers."
  },
  {
   "property": "C120",
   "status": "partial",
   "theorems": [
    "Verif.Runtime.C120_transparent",
    "Verif.Runtime.C120_standin_partial",
    "Verif.Runtime.C120_abort_violated",
    "Verif.Runtime.C120_duration_violated"
   ],
   "note": "Proved for callbacks that leave everything to the runtime with no further assumption, and for callbacks that stand in for tasks with a simulated clock and a monitor that ignores errors of process; false with a decision to abort and with a clock that goes on while tasks work, both with a witness."
  },
  {
   "property": "C121",
   "status": "partial",
   "theorems": [
    "Verif.Runtime.C121_power_partial"
   ],
   "note": "Partial: lists in the sections in use at the failure are not covered, nor flushes that do not wait for the disk (C83_async_violated) and a stream that stays in its section (C114_idle_violated); the tasks are deterministic and no monitor's decision disturbs the iterations, as in C58."
  },
  {
   "property": "C122",
   "status": "partial",
   "theorems": [
    "Verif.Dataflow.C122_run_partial",
    "Verif.Dataflow.C122_total_partial",
    "Verif.Dataflow.C122_fidelity_partial",
    "Verif.Dataflow.C122_stale_violated"
   ],
   "note": "For machines that look at anything of a message but the times noted by the runtime. Partial: two connections between the same tasks are left out (C89_run_violated); a callback that does not touch the message of a sensor sends an old one (C122_stale_violated)."
  },
  {
   "property": "C123",
   "status": "partial",
   "theorems": [
    "Verif.Dataflow.C123_meaning",
    "Verif.Dataflow.C123_replay_partial",
    "Verif.Dataflow.C123_changed_partial",
    "Verif.Dataflow.C123_from_log_partial",
    "Verif.Dataflow.C123_killed_partial",
    "Verif.Dataflow.C123_power_partial"
   ],
   "note": "Partial: two connections between the same tasks (C89_run_violated) and sensors whose accessor reads the message of another task (C58_violated_accessor) are excluded; tasks that look at the clock are not covered (C58_violated_clock). That the replay ends is C58_completes. C123_meaning shows that what a replay has to send is determined. C123_from_log_partial starts from the files of the log, C123_killed_partial from what is left of them when the robot is killed at any instant, and C123_power_partial from the disk after a power failure; for the last two iterations that a monitor has aborted are excluded, and the limits of C121 hold."
  },
  {
   "property": "C124",
   "status": "partial",
   "theorems": [
    "Verif.Image.C124_whole",
    "Verif.Image.C124_tags_partial",
    "Verif.Image.C124_tags_violated",
    "Verif.Image.C124_image_partial",
    "Verif.Image.C124_color_violated",
    "Verif.Image.C124_wide_violated",
    "Verif.Image.C124_kornia_partial",
    "Verif.Image.C124_kornia_violated"
   ],
   "note": "Partial: the code violates it. Color images make the conversions panic, samples of two bytes and decoded images with short buffers are read beyond the buffer, kornia's view of images that are not square depends on the crate. Proved for gray images that have all their bytes: the detector for any stride, the two crates without gaps. Data races with a writer of the buffer (the pointer is used outside the lock) are not modelled."
  },
  {
   "property": "C125",
   "status": "partial",
   "theorems": [
    "Verif.ComponentNew.C125_pid_partial",
    "Verif.ComponentNew.C125_aligner_partial",
    "Verif.ComponentNew.C125_threshold_partial",
    "Verif.ComponentNew.C125_servos_partial",
    "Verif.ComponentNew.C125_ports_partial",
    "Verif.ComponentNew.C125_video_partial",
    "Verif.ComponentNew.C125_pins_partial",
    "Verif.ComponentNew.C125_motor_partial",
    "Verif.ComponentNew.C125_camera_partial",
    "Verif.ComponentNew.C125_only",
    "Verif.ComponentNew.C125_missing_violated",
    "Verif.ComponentNew.C125_kind_violated",
    "Verif.ComponentNew.C125_range_violated",
    "Verif.ComponentNew.C125_servos_violated",
    "Verif.ComponentNew.C125_port_violated",
    "Verif.ComponentNew.C125_large_violated",
    "Verif.ComponentNew.C125_size_violated",
    "Verif.ComponentNew.C125_stepwise_violated",
    "Verif.ComponentNew.C125_name_violated"
   ],
   "note": "Partial: refused by a panic, or not refused, in the cases of C125_missing_violated, C125_kind_violated, C125_range_violated, C125_servos_violated, C125_port_violated, C125_large_violated, C125_size_violated, C125_stepwise_violated and C125_name_violated. The positive theorems are for all configurations whose values are of the kinds asked for; the Velodyne is C75."
  },
  {
   "property": "C126",
   "status": "partial",
   "theorems": [
    "Verif.Servo.C126_answers_partial",
    "Verif.Servo.C126_any",
    "Verif.Servo.C126_silent",
    "Verif.Servo.C126_unsent",
    "Verif.Servo.C126_late_violated",
    "Verif.Servo.C126_short_violated"
   ],
   "note": "Partial: proved for a bus on which the servos answer at once. Neither the servo nor the command of a response is compared with the question (C126_any), so that a late answer is taken for that of the next question (C126_late_violated), and a short one ends the program (C126_short_violated). A servo that does not answer is an error that leaves nothing behind (C126_silent), and so is a question that cannot be written (C126_unsent)."
  },
  {
   "property": "C127",
   "status": "partial",
   "theorems": [
    "Verif.ConsoleMon.C127_run_partial",
    "Verif.ConsoleMon.C127_rows_partial",
    "Verif.ConsoleMon.C127_names_violated",
    "Verif.ConsoleMon.C127_deviation_violated",
    "Verif.ConsoleMon.C127_pools_partial",
    "Verif.ConsoleMon.C127_pools_violated"
   ],
   "note": "Proved for every history: each row of a task and the row of whole iterations reads as the figures of the times (within 0.0501 % of display and the accuracy of C70 and C82), except: a name of more than ten characters is cut (C127_names_violated), a deviation within half a microsecond below a second is shown as zero (C127_deviation_violated), and the row of whole iterations after a stop (C70_stop_violated). Pools of up to 2^53 bytes read as their figures, except the size of buffers that is no multiple of a kilobyte (C127_pools_violated). The terminal is taken to be wide enough for the tables, every character one column wide. C127_run_partial: in a run of the generated loop without failures, the row of a task shows the times of that task, for the call orders of C24."
  },
  {
   "property": "C128",
   "status": "partial",
   "theorems": [
    "Verif.ConsoleMon.C128_screens_partial",
    "Verif.ConsoleMon.C128_quit_partial",
    "Verif.ConsoleMon.C128_terminal_violated",
    "Verif.ConsoleMon.C128_interrupt_violated",
    "Verif.ConsoleMon.C128_stop_violated",
    "Verif.Runtime.C128_run_partial",
    "Verif.Runtime.C128_last_violated"
   ],
   "note": "Model/ConsoleKeys: the thread of the interface next to the monitor of C70, any interleaving of calls, drawings, keys and failures of the terminal. C128_screens_partial: the screen of the last menu key; the graph shows the errors since it was last drawn, else the last statuses; the table is exact since the last reset typed on it. C128_quit_partial: the run ends at the first iteration after q and only then. Violated: C128_terminal_violated (a failed terminal cannot be quit any more), C128_interrupt_violated (Control-C is ignored), C128_stop_violated (drawing goes on after the application stopped). Props/ConsoleQuit: C128_run_partial (over the runtime of C01: an error of the monitor ends the run in this iteration, and the log holds the iterations before), C128_last_violated (the list of the last iteration is not logged). Missing: scrolling."
  }
 ]
}