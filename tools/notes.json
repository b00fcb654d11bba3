{
 "C01": {
  "note": "Every history of opening, logging on and dropping streams (one stream of a type at a time, any interleaving, any number of sections and slabs), then closing: no panic, and reading a type returns exactly the bytes logged with it."
 },
 "C02": {
  "note": "Every reachable state of section operations, every page size above 13 and slab size."
 },
 "C03": {
  "note": "Every reachable state and every step; flushing is the bookkeeping of the flushed prefix."
 },
 "C04": {
  "note": "Every reachable state."
 },
 "C05": {
  "note": "Proved when the empty sections of the type (if any) come last, hence for every history that drops no stream of the type before the end of the log; C05_violated: an empty section followed by a non empty one hides it. C05_reopened_partial: streams may be dropped and opened again, if something was logged on each before the next one."
 },
 "C06": {
  "note": "All headers."
 },
 "C07": {
  "note": "A crash is a stop at any byte of any store an operation makes (C07_effects: the operations are exactly these stores; C07_crash_torn_partial) or between two operations: for the sections of the slabs up to the oldest one still mapped the reader gets back a prefix of what was written, at least every closed section. C07_violated: an open section hides the closed sections of later slabs."
 },
 "C08": {
  "note": "Refinement of every client session on a fresh manager of any capacity to a bounded stack, both overflow profiles, fewer than 2^32 creations."
 },
 "C09": {
  "note": "Consecutive for every session of fewer than 2^32 creations; refuted beyond (the u32 counter wraps in release builds, C09_violated_id_wrap)."
 },
 "C10": {
  "note": "iter is exact; the mutable and ascending iterators also visit unused slots (C10_violated_dead_slots), exact shape proved."
 },
 "C100": {
  "note": "The kernels of arity.rs (also in place, and those that find the type out), the bitwise ones, integer arithmetic and that of floats (as any type with operations) are proved slot by slot for all arrays. Partial: try_binary over dictionaries with null values, try_unary over dictionaries with unused values and unary_dyn over dictionaries of another type violate the claim, which is proved with witnesses; dates and intervals are C105, decimals C103."
 },
 "C101": {
  "note": "C101_sections: the sections of the log have the lists of all applications, whatever they did. C101_export_partial: so has the export, if every application but the last has logged a list; missing: an application that logged none hides those after it, C101_hidden_violated."
 },
 "C102": {
  "note": "Proved for every clock that does not go back, every page size and both build modes: C102_template (any number of turns), C102_once (the exact sequence of events of one iteration), C102_reserved and C102_logging_size (what the log reports as used)."
 },
 "C103": {
  "note": "Proved for all values and nulls when the powers of ten between the scales exist (Op.Possible) and, for sums and remainders, an i8 counts the digits before the point: exact result or error, slot by slot, with the type and its room for digits; fixed point products round to the nearest number when at most 76 digits are dropped. Violated beyond: panic, saturated scale, wrapped power of ten, refused quotients, one digit too many, 77 digits dropped."
 },
 "C104": {
  "note": "All types and parts, over every calendar with the right first and next days. The months of two kinds of intervals are not counted alike (C104_violated_months)."
 },
 "C105": {
  "note": "C105_partial covers all pairs of types at once; missing are dates beyond the calendar, which panic even under nulls (C105_violated_null). Moving by an interval is a parameter."
 },
 "C106": {
  "note": "For all disks, kills and calls none of which fails to log, the file is a part of the log from its start, with everything before a successful flush; on a disk on which writes get on, everything. Partial: after a failed log call the claim is false (C106_violated_torn)."
 },
 "C107": {
  "note": "C107_new and C107_start_partial hold for all values of the counter that do not decrease, the latter for start times up to the counter; beyond it from_ref_time panics (C107_violated_start). C107_recent_partial bounds the cheap reading by what is published; nothing in the repository publishes anything, so it is always 0 (C107_violated_recent)."
 },
 "C108": {
  "note": "Proved for every history: results of the specification, conservation of device buffers, zeros at the start, and what comes back starts with what was copied and is exactly it when the lengths agree (partial). Violated: a shorter source leaves the data of the previous user in the rest; a copy panics without a free buffer, from a longer buffer and from the device; device pools are not in the statistics.",
  "status": "partial"
 },
 "C109": {
  "note": "Proved for every interleaving: delivery once and in order per thread while the user interface runs, what happens to lines after a quit (partial: up to a thousand are lost), that a round without further lines empties the channel (partial), and that the most recent messages are shown on a terminal that keeps its size (partial). Violated: the logging thread waits after a thousand lines, a round need not end, lines are lost at a quit, the newest lines are hidden after a resize, fewer than five rows panic.",
  "status": "partial"
 },
 "C11": {
  "note": "Proved for every interleaving of create/finish operations and every pool size; the in-order statement is proved for one-at-a-time processing; C11_violated_overlapping_order shows overlapping lists can be logged out of creation order."
 },
 "C110": {
  "note": "Partial because of what C58 leaves out: accessors that do not read the sources' messages, tasks that read the clock, runs with aborted iterations."
 },
 "C111": {
  "note": "C111_safe: no condition beyond the layout of the log. C111_lost_partial: what is lost is in the section being filled, if every application but the last has logged a list (C111_hidden_violated shows the condition is needed: the reader takes the empty section for the end) and the section is in the oldest slab in use (see C59_violated)."
 },
 "C112": {
  "note": "C112_sections holds in full. C112_export_partial: the objects before the damage are exported, all of them if the damage is in another type's section. C112_export_violated, C112_noticed_violated, C112_header_violated: later intact sections are not exported, damage is not noticed, one header byte hides the rest."
 },
 "C113": {
  "note": "C113_written: logs as written are dumped whole, with memory in proportion. C113_before_partial, C113_any_partial: lines in front of damage are printed; the three causes of a panic. C113_violated, C113_memory_violated: one damaged byte makes the dump panic; few bytes ask for any amount of memory. From damaged files of any history, read with any buffer sizes, the lines logged before the damaged section are printed first, and all of them if the damage is in a section of another type (C113_files_partial)."
 },
 "C114": {
  "note": "Proved for what was logged before a moment after which every stream left its section and whose slabs but the last are out of use. Missing: anything logged while one stream stays in an early section, for which nothing is flushed (C114_idle_violated, for every such history), and later slabs (C07_violated). Assumes ranges given to flush_async_range are on the disk when the action ends; see C83_async_violated."
 },
 "C115": {
  "note": "Violated. Proved for all lists of slots: lists as written are all exported and none asks for more memory than it has bytes (C115_written); lists in front of any damage are exported (C115_before_partial); on any bytes the export either ends with exactly the lists of the decoder without memory, or it panics, and it panics exactly when a list behind readable ones says a status or a payload larger than the address space (C115_any_partial), made concrete for images (C115_image). From damaged files, of any history, read with any buffer sizes, the lists logged before the damaged section are exported first, and all of them if the damage is in a section of another type (C115_files_partial). One damaged byte makes it panic (C115_violated) and fifteen bytes ask for any amount of memory (C115_memory_violated). Vectors of larger elements in payloads are not modelled."
 },
 "C116": {
  "note": "Proved for every closed log. Violated: the export format asked for changes nothing but the first line; an export of lists cut short by damaged data or a reader error still ends with success, sometimes without a word; the text likewise when an entry's index reads as zero. What success does imply is proved for any log."
 },
 "C117": {
  "note": "C117_wire: every list the robot logs is read back as it was. C117_resimulated: for any kill, what is found are the lists of the first k iterations, and they are resimulated to the end, with the state of the controllers after k iterations. C117_found_partial: how many iterations are found; missing: a section of copper lists in a slab later than the oldest in use, of which all may be lost (C59_violated). C117_power_partial: a power failure instead of a kill, with several threads logging; missing: sections still in use, asynchronous flushes (C83_async_violated), idle streams (C114_idle_violated)."
 },
 "C118": {
  "note": "C118_promises: the full composition when the requirement covers what tasks leave when they fail. C118_ignored_partial: tasks promise nothing of the payload of a failed call, and the monitor goes on after errors. C118_violated: with a monitor that aborts, the payload a failed task left is logged."
 },
 "C119": {
  "note": "C119_channels: what is on the wire after any sequence of settings. C119_numbers_partial / C119_numbers_violated: the numbers of MspRcChannel agree with the places in MspRc except for throttle and yaw, which are exchanged. C119_code, C119_baudrate, C119_serial: codes, texts and numbers."
 },
 "C12": {
  "note": "Proved for iterations and runs that return Ok (including aborts); refuted for Shutdown / monitor errors (slot leaked, later panic)."
 },
 "C120": {
  "note": "Proved for callbacks that leave everything to the runtime with no further assumption, and for callbacks that stand in for tasks with a simulated clock and a monitor that ignores errors of process; false with a decision to abort and with a clock that goes on while tasks work, both with a witness."
 },
 "C121": {
  "note": "Partial: lists in the sections in use at the failure are not covered, nor flushes that do not wait for the disk (C83_async_violated) and a stream that stays in its section (C114_idle_violated); the tasks are deterministic and no monitor's decision disturbs the iterations, as in C58."
 },
 "C122": {
  "note": "For machines that look at anything of a message but the times noted by the runtime. Partial: two connections between the same tasks are left out (C89_run_violated); a callback that does not touch the message of a sensor sends an old one (C122_stale_violated)."
 },
 "C123": {
  "note": "Partial: two connections between the same tasks (C89_run_violated) and sensors whose accessor reads the message of another task (C58_violated_accessor) are excluded; tasks that look at the clock are not covered (C58_violated_clock). That the replay ends is C58_completes. C123_meaning shows that what a replay has to send is determined. C123_from_log_partial starts from the files of the log, C123_killed_partial from what is left of them when the robot is killed at any instant, and C123_power_partial from the disk after a power failure; for the last two iterations that a monitor has aborted are excluded, and the limits of C121 hold.",
  "status": "partial"
 },
 "C124": {
  "note": "Partial: the code violates it. Color images make the conversions panic, samples of two bytes and decoded images with short buffers are read beyond the buffer, kornia's view of images that are not square depends on the crate. Proved for gray images that have all their bytes: the detector for any stride, the two crates without gaps. Data races with a writer of the buffer (the pointer is used outside the lock) are not modelled.",
  "status": "partial"
 },
 "C125": {
  "note": "Partial: refused by a panic, or not refused, in the cases of C125_missing_violated, C125_kind_violated, C125_range_violated, C125_servos_violated, C125_port_violated, C125_large_violated, C125_size_violated, C125_stepwise_violated and C125_name_violated. The positive theorems are for all configurations whose values are of the kinds asked for; the Velodyne is C75.",
  "status": "partial"
 },
 "C126": {
  "note": "Partial: proved for a bus on which the servos answer at once. Neither the servo nor the command of a response is compared with the question (C126_any), so that a late answer is taken for that of the next question (C126_late_violated), and a short one ends the program (C126_short_violated). A servo that does not answer is an error that leaves nothing behind (C126_silent), and so is a question that cannot be written (C126_unsent)."
 },
 "C127": {
  "note": "Proved for every history: each row of a task and the row of whole iterations reads as the figures of the times (within 0.0501 % of display and the accuracy of C70 and C82), except: a name of more than ten characters is cut (C127_names_violated), a deviation within half a microsecond below a second is shown as zero (C127_deviation_violated), and the row of whole iterations after a stop (C70_stop_violated). Pools of up to 2^53 bytes read as their figures, except the size of buffers that is no multiple of a kilobyte (C127_pools_violated). The terminal is taken to be wide enough for the tables, every character one column wide. C127_run_partial: in a run of the generated loop without failures, the row of a task shows the times of that task, for the call orders of C24.",
  "status": "partial"
 },
 "C128": {
  "note": "Model/ConsoleKeys: the thread of the interface next to the monitor of C70, any interleaving of calls, drawings, keys and failures of the terminal. C128_screens_partial: the screen of the last menu key; the graph shows the errors since it was last drawn, else the last statuses; the table is exact since the last reset typed on it. C128_quit_partial: the run ends at the first iteration after q and only then. Violated: C128_terminal_violated (a failed terminal cannot be quit any more), C128_interrupt_violated (Control-C is ignored), C128_stop_violated (drawing goes on after the application stopped). Props/ConsoleQuit: C128_run_partial (over the runtime of C01: an error of the monitor ends the run in this iteration, and the log holds the iterations before), C128_last_violated (the list of the last iteration is not logged). Missing: scrolling."
 },
 "C13": {
  "note": "Every graph: terminates, nodup, only tasks of the graph; panics exactly on isolated tasks (see C17)."
 },
 "C14": {
  "note": "Every graph."
 },
 "C15": {
  "note": "Every acyclic graph without isolated tasks is fully planned; in general exactly the tasks not on/behind a cycle are."
 },
 "C16": {
  "note": "Own slot proved for every graph; inputs are the producers' slots up to order for every graph, in declaration order with declared types when there are no parallel connections and producers have one message type; both exceptions are refuted with witnesses."
 },
 "C17": {
  "note": "Refuted: cycles are silently dropped from an Ok plan, isolated tasks panic (exactly characterised)."
 },
 "C18": {
  "note": "Traces of the generated loop with arbitrary tasks, monitor, clock and simulation."
 },
 "C19": {
  "note": "Traces of the generated loop with arbitrary tasks, monitor and simulation; every decision of the monitor is honoured in the phase it was taken."
 },
 "C20": {
  "note": "Simulation answers are honoured on every step of the trace."
 },
 "C21": {
  "note": "For every planned graph, any pool content; order of inputs under no parallel connections."
 },
 "C22": {
  "note": "Whole runs with a monotone clock and tasks that leave their start time alone."
 },
 "C23": {
  "note": "Composition of the loop, the encoding of copper lists, the unified log and the export: every run that starts with a fresh copper list stream, with the other streams of the log used freely; the payload codecs are parameters assumed to round trip, the list must fit in a section. The undisturbed case identifies the lists with the iterations.",
  "status": "proved"
 },
 "C24": {
  "note": "Proved when the call order is its own inverse; otherwise some accessor is always wrong (C24_wrong_otherwise), concrete witness C24_violated."
 },
 "C25": {
  "note": "All time types round trip with any trailing bytes."
 },
 "C26": {
  "note": "Faithful for absent values and every time up to CuDuration::MAX; refuted for the single present value 2^64-1 ns (C26_violated_max_time)."
 },
 "C27": {
  "note": "Hull of any non-empty list; empty list is the documented panic."
 },
 "C28": {
  "note": "quanta's counter is external: modelled as a u64 counter with saturating instant subtraction."
 },
 "C29": {
  "note": "Exact whenever representable in both profiles, panic otherwise in checked builds; refuted for release builds (wrap), negative i32 scale and conversion of durations >= 2^64 ns. Display: unit choice only, digits (f64 formatting) not modelled."
 },
 "C30": {
  "note": "For every interleaving of any number of compilers: two strings never share an index, and the table read back gives each string at its index. A string has one index when no two compilers look it up before either writes it (NoRace). C30_violated: lookup and write are separate transactions, so a race gives one string two indices. Interning is total for strings of 1 to 511 bytes."
 },
 "C31": {
  "note": "Full round trip of every legal entry, of streams of entries, and exact reading of any prefix."
 },
 "C32": {
  "note": "Owned decoding round trips for every legal value. Borrowed decoding round trips exactly for characters and strings; C32_violated shows the wrong tag table."
 },
 "C33": {
  "note": "Total order, equality and hash agree, map keys unique; floats follow ordered-float."
 },
 "C34": {
  "note": "Proved for parameter texts without braces (holes in order), for named placeholders, and for the dump. C34_violated: re-substitution of a parameter text holding {} and the documented mixed call."
 },
 "C35": {
  "note": "Both containers (cu_payload CuArray and apriltag CuArrayVec): round trip of any content up to the capacity, longer encodings rejected, any input bytes give a result or an error, never more elements than the capacity. Element codec is a parameter.",
  "status": "proved"
 },
 "C36": {
  "note": "Operations refine a bounded list of records (any number of fields, any capacity, any history). Refuted: the encode/decode round trip, since the encoder writes a length per field that the decoder does not read, and decoding more records than the capacity panics.",
  "status": "partial"
 },
 "C37": {
  "note": "Slots are sorted and time/coordinates/intensity stay together, for any content and non-zero capacity; points are preserved when the cloud is full and return orders are all equal. Refuted: return order is not moved, unused slots are sorted in (points lost), capacity 0 panics. Recursion depth (stack) not modelled.",
  "status": "partial"
 },
 "C38": {
  "note": "Refinement of the whole handle API (any number of pools, threads interleaved at the granularity of the lock and the reference counts) to a specification with groups of clones; conservation, exclusivity and return at the last drop are also stated on reachable states. Only refuted for size 0, which panics at construction.",
  "status": "partial"
 },
 "C39": {
  "note": "Proved for every configuration built through the API (tasks added, connected, edited without changing their name) with distinct task names, and for every configuration read from a text. Renaming a task after connecting it breaks the round trip (C39_violated_renamed)."
 },
 "C40": {
  "note": "C40_read covers every text and all combinations of sizes; a configuration given by the program instead is not validated (C40_violated_override)."
 },
 "C41": {
  "note": "False for arbitrary names (C41_violated). Proved for names made of lower case words and numbers joined by underscores, no number after a number; C41_member_collisions says exactly which names share a member name."
 },
 "C42": {
  "note": "The count and the choice of samples are exact; minimum, maximum and mean are those of histogram buckets: exact below 2048 ns, within 1/1024 above. Samples out of reach panic or are dropped."
 },
 "C43": {
  "note": "Any history leading to a parser between packets, any mix of versions, any noise without a start marker; writing needs exactly the advertised size; no bytes panic the parser. C43_limits and C43_marker show the limits are needed."
 },
 "C44": {
  "note": "All positions of the checksummed part except the length: proved, with the frames that follow parsed normally. Altered length: violated (the checksum of a shorter frame can match by chance). Recovery after any error: proved in full."
 },
 "C45": {
  "note": "Round trip for every id, command and up to 252 data bytes (C45_round_trip); every frame with one altered byte other than the length and the header is refused (C45_altered_partial). Violated: a length byte of 0, 1 or 2 panics (C45_violated_panic, exactly when by C45_panic_iff), an altered length can deliver a frame never sent (C45_violated_length), an altered header byte loses the frame behind it as well (C45_violated_header); C45_limits gives the sizes above which the frame announces a wrong length. Answers to a ping: C45_ping."
 },
 "C46": {
  "note": "Full statement for every size with 255*w*h < 2^32 and every radius from 1 to 2^31-1, over every history of images and buffers (C46_threshold_partial). Missing because false: larger images can panic (C46_violated_large, the bound is sharp), radius 0 panics on every image (C46_violated_zero), radii from 2^31 on panic (C46_violated_radius)."
 },
 "C47": {
  "note": "For every state, input and build: the output is the content of one window ending at the earliest of the newest times (C47_window_partial), no crash under the stated conditions (C47_process_partial), the horizon for messages in order (C47_horizon_partial), arrival order for every history (C47_order). Violated: panics without output payload, early clock or empty message; untimed and late messages (C47_violated_*)."
 },
 "C48": {
  "note": "Over rationals, NaN as an absent value. Output and its parts within the limits (C48_limits), equal to the textbook sum (C48_textbook), held between samples (C48_hold), restart and order of messages (C48_restart, C48_order). Violated: a thawed task takes the next measurement for a first one (C48_violated_thaw; what does survive is C48_thaw_partial); two messages of one time give NaN with the default sampling period (C48_violated_nan)."
 },
 "C49": {
  "note": "For every history of samples: outputs are 12-bit, bounded by the samples seen, constant on a constant input, and settle within one of it (C49_range, C49_outputs, C49_constant, C49_bounded, C49_settles); C49_bias: from below the filter stays one short for ever. C49_wire: the bytes of the bus."
 },
 "C50": {
  "note": "Over rationals. The command applied is the compensated power for forward motion and for every history without failures (C50_applied_partial), monotone (C50_monotone), stopped without payload (C50_stops), no motion in dry run (C50_dryrun). Violated: backward power exceeds full scale with any dead zone (C50_violated_scale); after a gap, a failure or a thaw the same command is skipped and the motor stays stopped (C50_violated_gap, C50_violated_skipped)."
 },
 "C51": {
  "note": "For every datagram from 1 byte (Livox) or 2 bytes (Hesai) on: decoded completely or refused (C51_livox_partial, C51_hesai_reject_partial, C51_hesai_partial; release builds C51_hesai_release_partial), the UTC time by the Gregorian calendar (C51_utc). Violated: shorter datagrams panic (C51_violated_empty), times of points are not those of the protocol (C51_violated_time), packets before the reference or just after the origin panic a debug build (C51_violated_past, C51_violated_early)."
 },
 "C52": {
  "note": "Proved for every acyclic connected graph with tasks declared producers first, and for release builds in any order; refuted in debug builds for other orders."
 },
 "C53": {
  "note": "Proved for iterations that are not aborted; refuted after an abort."
 },
 "C54": {
  "note": "Full round trip and bounds; mutation of the public fields after construction is outside the model.",
  "status": "proved"
 },
 "C55": {
  "note": "Proved for reads of at most 90 bytes (at most 15 packets can then complete) and convertible packets; violated for more than 16 packets in a read and for unlisted commands or short data, which panic."
 },
 "C56": {
  "note": "All batches of requests with 16 channels (the array type of the code). Serial writes are assumed to succeed."
 },
 "C57": {
  "note": "For every type of the grammar whose map keys hold no floats and no maps (C57_roundtrip_partial, exact without maps C57_exact_partial, through the log bytes C57_logged_partial, other integer types C57_integers, copies C57_copy_partial for values without times). Missing: other map keys, 128 bit integers (refused). Violated: copies lose times (C57_violated_copy), dynamic values are wrapped (C57_violated_dynamic), long sequences are cut (C57_violated_tuple)."
 },
 "C58": {
  "note": "Proved by lock-step simulation for every task graph, task code, source, sink, clock and recording simulation, with failing tasks, from the logged lists and from the log files (C23); termination of the replay from C52; runs that end with an error or a shutdown (C58_ended_partial); replays of any lists are deterministic and replaying a replay's log gives it again (C58_deterministic_partial, C58_again_partial). Missing: applications whose accessors read the wrong slot (C24), a genuine violation; tasks that read the clock; runs with iterations aborted by the monitor, a genuine violation (C58_violated_abort); the memories after a shutdown decided when the list was logged already, whose iteration the replay completes."
 },
 "C59": {
  "note": "Safety (an initial segment, each list as logged) is proved for every crash point between two operations. That only the lists of the section being filled are missing holds when this section is in the oldest slab in use, and is false otherwise: C59_violated. Crashes inside an operation: C94."
 },
 "C60": {
  "note": "Round trip and byte stream reading for every interleaving of threads (streams may be dropped and opened again if something was logged on each), and what a kill leaves, with calls waiting for the lock. Partial: after a kill the amount lost is bounded only when the section of the stream is in the oldest slab in use (otherwise C59_violated applies); a kill in the middle of actions is C96; several live streams of one type are C81."
 },
 "C61": {
  "note": "Proved for every schedule: each call has one fate, order per thread, real time order, recording while a working destination is set, and reading back through the unified log. Violated: order of times across threads, second logger cut by the drop of the first and its clock ignored, a panicking destination blocks all threads.",
  "status": "partial"
 },
 "C62": {
  "note": "Proved: what a counter reports for every schedule without reset, nothing of a thread is missed, totals balance. Violated: other threads are counted in; reset makes counters panic or wrap.",
  "status": "partial"
 },
 "C63": {
  "note": "Last write wins and exact delivery are proved for every sequence of sets and every type that has the integer, including the re-read from a text and durations in milliseconds. Out-of-range integers are truncated and values of another kind panic (both proved), instead of an error."
 },
 "C64": {
  "note": "faer and nalgebra proved (nalgebra: given that quaternions leave the rotation as it is). glam round trips but transposes the rotation; tag poses are transposed and lack the last row. Arithmetic is over the rationals."
 },
 "C65": {
  "note": "Round trips proved for all payloads except the reflectivity of points (characterised exactly, violated) and readings as dynamic values (violated). MSP responses are not included."
 },
 "C66": {
  "note": "Packets to responses proved for every packet and packing; three parts of the claim are false of the code (responses to packets, two kinds never received, panics) and their negations are proved.",
  "status": "partial"
 },
 "C67": {
  "note": "Rows, order, filter, time and logging proved for up to 16 located tags; for more the code panics, proved.",
  "status": "partial"
 },
 "C68": {
  "note": "Delivery proved for every history; the clause about the time of an empty message is false of the code, witness proved.",
  "status": "partial"
 },
 "C69": {
  "note": "Encoder below 2^31 edges, sensor registers proved; the other clauses are false of the code, negations proved.",
  "status": "partial"
 },
 "C70": {
  "note": "Partial: accurate rows, statuses, kinds of nodes and pools are proved; negations proved for the names of rows, empty statuses, slow tasks, cut type names, stop, pool rates and the debug pane after a resize. C70_run_partial extends C70_names_partial to runs of any number of iterations.",
  "status": "partial"
 },
 "C71": {
  "note": "The property fails: a quiet task repeats its previous message (proved for every application and any two undisturbed iterations), and in the first iteration may send a payload made of zeroes. The part that holds: in the first iteration nothing is sent when the payload type has a tag of its own."
 },
 "C72": {
  "note": "Delivery in order and untouched images for every history without two starts in a row; no panic only while every call finds a frame that is not empty and no task keeps images. Opening gives a source or an error if the device lets itself be stopped and the timeout is below 2^31 ms (C72_open_partial). Timeouts, empty frames, kept images, restarts, clock offset, unknown sizes, devices in use, long timeouts and devices that grant fewer buffers are violated by the code, with witnesses."
 },
 "C73": {
  "note": "Once, in order, for every interleaving and number of sources; completeness while no more than the buffer wait. Overflow, repetition, messages without payload and the status are violated, with witnesses."
 },
 "C74": {
  "note": "Iteration for every log; conversion injective and without panic on values Python can tell apart; time right on the first day only. The rest is violated by the code, with witnesses."
 },
 "C75": {
  "note": "All points in order for single returns on a started source; the player's payloads for every capture. Panics, time, reflectivity and pace are violated by the code, with witnesses."
 },
 "C76": {
  "note": "Names, the search for the files, a closed log, other logs and the builder are proved. Missing: two base names without and with a leading dot share files, and a log killed with its file exactly full continues into an old file; both are proved as violations."
 },
 "C77": {
  "note": "Proved for every program and every allocator that keeps its contract, when the bytes can be counted in 64 bits and are not zero. Wrapping sizes, too small alignments and empty buffers are proved as violations."
 },
 "C78": {
  "note": "Proved for names, types and parameters without the characters <, > and &; message types may have them. The other cases are proved as violations. C78_params_partial starts from the values of the parameters; C78_gets_partial says that what is drawn alike is read alike by components, for values of one kind (C78_kind_violated otherwise)."
 },
 "C79": {
  "note": "Proved for run-time configurations that begin with the tasks of the compiled one, in order: each component is created once with the parameters of its name, the first failure ends the start with its message, placeholders stand for sources and sinks of a simulation, builder and precedence of configurations. Violated: other orders swap parameters, fewer tasks panic, other types, tasks and connections are ignored, monitor errors panic, causes are overwritten."
 },
 "C80": {
  "note": "Proved: the start succeeds exactly if a slab holds one section (both directions). Violated: the validated slab size is never used, so an accepted configuration can panic at the start, and so can large copper lists with default sizes."
 },
 "C81": {
  "note": "Proved for every history and interleaving: whole objects, one stream per section, order within a stream, nothing lost or doubled (section reader). Violated: order between streams of a type; an empty stream hides later ones from the byte stream reader.",
  "status": "partial"
 },
 "C82": {
  "note": "Full for every history and fraction, up to one part in 1024 (percentiles) and one part in 2048 of the largest sample (deviation). Exactness holds below 2048 ns only: C82_exact_violated. Floating point of the histogram crate is exact in the model."
 },
 "C83": {
  "note": "Proved for sections closed with all earlier ones closed, up to the oldest slab still mapped, if flushes are durable when the operation ends. Violated for sections closed after one still open in the slab, and if the asynchronous flush has not been done."
 },
 "C84": {
  "note": "C84_limits_partial: every part of an output is within its limit or NaN, for all measurements. C84_numbers: numbers within the limits for parameters and measurements up to about a million, for histories of any length. C84_accuracy: each part follows the law of a PID up to two millionths of the magnitudes it is computed from. C84_total: no panic. Missing: measurements that are NaN or infinite, for which the property is false (C84_nan_violated, C84_inf_violated)."
 },
 "C85": {
  "note": "C85_applied_partial: the whole property forwards; backwards direction and positivity hold but full scale is exceeded (C85_scale_violated), at most 3. C85_monotone: monotone. C85_stops: missing input stops the motor."
 },
 "C86": {
  "note": "C86_imu, C86_devices: every reading of the inertial unit, converter, lidars and servos up to a millionth, exactly where representable. C86_ordered: none are confused. C86_wide_partial: encoders up to 2^24 (C86_wide_violated beyond). C86_servo_partial: at most one step (C86_servo_violated). C86_cell_partial: 1 to 25 cells (C86_cell_violated)."
 },
 "C87": {
  "note": "C87_reads: accuracy of the text for every duration; C87_ordered: order across units."
 },
 "C88": {
  "note": "C88_total: no panic, the loop goes on. C88_flow: an iteration of the generated runtime is the function drive of what the sensors delivered in it. C88_cut: all the reasons to stop the motor. C88_bounds_partial: one direction at a time, at most 1 forwards but 1.61 backwards (C88_scale_violated). C88_stop: disabled when the stop flag is set, not when q is pressed (C88_quit_violated). Not met: driving again after a failed reading (C88_resume_violated), time of the command (C88_tov_violated)."
 },
 "C89": {
  "note": "Refinement of the generated loop to the recursive equations a configuration stands for. Partial: no two connections between the same tasks (the inputs are then delivered in another order: C89_run_violated); for termination without panic, producers declared first or a build without overflow checks (C89_order_violated), and fewer than 2^32 iterations in a checked build."
 },
 "C90": {
  "note": "By C89, with the equations of the configurations solved. Partial: the float stops at 16777216 (C90_sources_violated); the integer overflows in a checked build (C90_overflow_violated). The caterpillar is proved without restriction as long as the console does not end it."
 },
 "C91": {
  "note": "The force of every frame is that of the controllers (C91_forces, C91_same), bounded, and zero where it should be (C91_cut, C91_paused). Violated: quitting is a panic of the simulator; a rod dragged while paused gets the full force; the reading reaches 4096 and a position that is not a number reads as 0."
 },
 "C92": {
  "note": "Full for what the log says apart from process times and the motor's own message, whose differences are shown as violations; both for recordings of the hardware (C88's model) and of the simulator (C91's model)."
 },
 "C93": {
  "note": "Proved from the compilers' interning to the printed lines for any threads and interleavings, for calls whose holes are filled by values without braces in their texts and without empty maps (or plain pieces with named arguments). Violated for texts inside sequences, empty maps, and maps beside named arguments."
 },
 "C94": {
  "note": "Safety is proved for every history of operations and every instant of every operation: the lists exported are an initial segment of those logged, and when the section of the copper lists is in the oldest slab in use only lists of that section are missing; the text lines printed are likewise an initial segment of those logged (C94_text_partial). Violated: a kill between the magic number and the size of a new section header makes the reader loop forever once it has delivered what is left (C94_hang_violated); sections of later slabs (C59_violated). Assumes that the bytes of a store reach the map in order and that pages are multiples of 256 bytes; one thread."
 },
 "C95": {
  "note": "C95_partial characterises exactly when the reader returns sections, reports an error, panics or loops, for any files, in terms of a specification of how sections chain; C95_only_logs and C95_inside follow from it. C95_cut: a log whose end is missing is never taken for a complete one. Missing: the property wants an error instead of the panics and of the loop (C95_violated), and files cut in the middle go unnoticed (C95_middle_violated)."
 },
 "C96": {
  "note": "Initial segment of each stream, of the copper lists and of the text lines, whatever the interleaving and the instant of the kill (C96_stream, C96_export_partial); the effects considered are those of the actions (C96_effects). Partial: text lines for the debug! calls that Says covers, pages that are multiples of 256 bytes, and the amount lost is bounded only when the section is in the oldest slab in use (see C59_violated)."
 },
 "C97": {
  "note": "C97_snapshot: tasks that resume each, resume together from one stream of bytes. C97_default: with the default methods a task resumes exactly if its outputs never depend on its history. C97_caterpillar, C97_stateless, C97_threshold_partial: the tasks that do resume (the threshold for images whose sums fit 32 bits, the domain of C46). Violated by the counting sources, the encoder and the converter (C97_violated_counters, C97_violated_restart), the aligner and the serial source (C97_violated_buffers), the PID task for every configuration (C97_violated_pid, with C97_pid_partial for what it does restore) and the motor (C97_violated_motor)."
 },
 "C98": {
  "note": "All kernels of boolean.rs on any arrays and slices; C98_slice: a slice holds just these slots of its array. The claim is false of and_not: C98_violated_and_not gives a wrong slot, C98_violated_and_not_panic shows that every slice of a whole number of bytes, not from the first slot on, panics; C98_and_not_partial covers arrays that are not slices.",
  "status": "partial"
 },
 "C99": {
  "note": "Sums, minima and maxima for any integers and any total order in every build except one (C99_violated_overflow: one-byte elements, vectors of 64 bytes, overflow checks: panic). Booleans, bitwise aggregates, bytes, checked sums and dictionaries without exception. C99_violated_nan: the documented place of NaN holds only if its sign is positive (C99_nan_partial). C99_violated_float: sums of floating point numbers depend on the machine.",
  "status": "partial"
 }
}