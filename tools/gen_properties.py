#!/usr/bin/env python3
"""Writes /verif/properties.jsonl (one property per line)."""
import json, os
P = []
def p(title, statement, quantifier, why, anchors):
    P.append(dict(id="C%02d" % (len(P) + 1), title=title, statement=statement,
                  quantifier=quantifier, why_tests_cant=why, anchors=anchors))

UL = "core/cu29_unifiedlog/src/lib.rs"
RT = "core/cu29_runtime/src/curuntime.rs"
CL = "core/cu29_runtime/src/copperlist.rs"
DV = "core/cu29_derive/src/lib.rs"
CK = "core/cu29_clock/src/lib.rs"

# ---- unified log
p("Unified log round trip",
  "Whatever is logged on a stream of a given entry type, then closed, is exactly what a reader asking for that entry type gets back: the same bytes, in the same order, nothing lost, duplicated or mixed with another stream's bytes, however many sections and slab files the data spans and however the writes of different streams interleave.",
  "every page size below 64 KiB, every slab size, every set of streams of distinct types, every interleaving of log calls of any sizes that fit a section",
  "Section rollover, slab rollover and page alignment meet at boundaries that depend on the exact sizes of all previous writes; a test exercises a handful of size sequences out of an unbounded set.",
  [UL+": stream_write, MmapStream::log, SlabEntry::add_section, UnifiedLoggerWrite::add_section, UnifiedLoggerRead::read_next_section_type"])
p("Log sections never overlap",
  "Two sections handed out by the logger never share a byte, no section overlaps the file header of the first slab, and none runs past the end of its slab file.",
  "every sequence of section requests (any size, any type) and section closings",
  "Overlap would appear only for particular size/alignment combinations and would silently corrupt another stream.",
  [UL+": SlabEntry::add_section, align_to_next_page, UnifiedLoggerWrite::add_section"])
p("Background flush never passes an open section",
  "The prefix of a slab that has been handed to the OS for flushing only grows, never passes the allocated end of the slab and never reaches into a section that is still being written; when the last open section of a slab is closed the whole allocated prefix is flushed.",
  "every interleaving of section openings and closings, in any closing order",
  "Out-of-order closing of many concurrent sections is a schedule space; tests close in one order.",
  [UL+": SlabEntry::flush_section, flush_until"])
p("Slab files are kept open exactly while needed",
  "A slab file that still has an open section is never closed by garbage collection, every non-current slab without open sections is closed at the next collection, and a section being closed is always found in one of the retained slabs.",
  "every history of section openings, closings and slab rollovers",
  "The number of back slabs and the order their sections close in are unbounded.",
  [UL+": UnifiedLoggerWrite::garbage_collect_backslabs, flush_section, SlabEntry::is_it_my_section"])
p("Chunked log reading is transparent",
  "Reading a type through the std::io::Read adapter, with any caller buffer sizes, yields the same byte stream as concatenating the section contents, and reports end of stream only at the end of the log.",
  "every log content, every sequence of read buffer sizes",
  "The adapter's cursor crosses section boundaries at positions determined by caller chunk sizes; combinations are unbounded.",
  [UL+": UnifiedLoggerIOReader::read, fill_buffer"])
p("Section headers fit and round trip",
  "For every entry type, section size and filled size, the encoded section header fits in the space reserved in front of each section and decodes to the same header; likewise the main header.",
  "all 4 entry types, all u32 sizes, all u16 page sizes and offsets",
  "Variable-length integers change the header length at 251, 65536, 2^32; the input space is 2^66.",
  [UL+": SectionHeader, MAX_HEADER_SIZE, SectionHandle::update_header, read_section_header"])
p("Process crash loses only open sections",
  "If the process dies at any point, every section that had been closed before the crash can still be read back from the files with its complete content.",
  "every crash point in every history of logger operations",
  "Crash points times histories; cannot be enumerated by tests.",
  [UL+": flush_section, read_next_section_type, UnifiedLoggerWrite::drop"])

# ---- copper lists
p("Copper list pool behaves as a bounded stack",
  "A manager of N copper lists behaves exactly like a bounded stack of capacity N: create pushes (and fails exactly when N lists are live), pop and drop_last remove the newest, peek shows the newest, len/is_empty/is_full/clear report and reset the stack; no operation panics.",
  "every capacity N (including 0 and 1) and every sequence of operations",
  "Wrap-around of the ring index depends on the whole history.",
  [CL+": CuListsManager::{new,create,pop,drop_last,peek,clear,len,is_full,is_empty}"])
p("Copper list ids are consecutive",
  "Copper lists receive ids 0,1,2,... in creation order, never reused, whatever lists are freed in between; ids of live lists are strictly decreasing from newest to oldest.",
  "every sequence of fewer than 2^32 creations interleaved with frees",
  "Requires a statement over unbounded histories, including the wrap of the 32-bit counter.",
  [CL+": CuListsManager::create, current_cl_id"])
p("Copper list iteration visits the live lists",
  "Iterating over the manager (shared, mutable, ascending, ascending mutable) visits every live list exactly once, from most recent to oldest (resp. the reverse), and nothing else.",
  "every reachable manager state, every N",
  "The wrap-around iterators differ only in partly filled rings; tests check a few fill levels of N=3 or 5.",
  [CL+": iter, iter_mut, asc_iter, asc_iter_mut"])
p("Each copper list is logged once, complete, in order",
  "A copper list is written to the log only after its processing finished, at most once, and before its slot is reused; when lists finish in the order they were created one at a time, the log contains them in creation order.",
  "every sequence of list creations and completions (in any order)",
  "Completion order is a schedule; the free/pop bookkeeping depends on all previous completions.",
  [RT+": CuRuntime::end_of_processing, available_copper_lists"])
p("Copper list slots are never leaked",
  "Every iteration of the application returns the copper list slot it took, so an application can run forever without exhausting its copper lists.",
  "every sequence of iterations with every combination of task errors and monitor decisions",
  "Exhaustion appears only after a number of failing iterations equal to the pool size.",
  [DV+": run_one_iteration generation, process step generation", RT+": end_of_processing"])

# ---- planner
p("Plan runs every task at most once",
  "The execution plan computed from a configuration contains each task at most once, only tasks of the configuration, and never fails to terminate.",
  "every task graph (any number of nodes and connections, parallel connections and cycles included)",
  "The plan is a traversal over arbitrary graphs; tests cover four small graphs.",
  [RT+": compute_runtime_plan, plan_tasks_tree_branch"])
p("Plan respects data dependencies",
  "Every task appears in the plan after all the tasks it receives messages from.",
  "every task graph",
  "Diamonds, multi-source joins and multiple paths of different lengths combine without bound.",
  [RT+": plan_tasks_tree_branch"])
p("Plan is complete",
  "In an acyclic configuration where every source has an outgoing connection and every task is fed, every task appears in the plan.",
  "every such acyclic task graph",
  "Completeness can fail only in particular graph shapes (joins fed from sources declared later).",
  [RT+": compute_runtime_plan"])
p("Plan wires each input to its producer's slot",
  "Each planned task writes to its own message slot, distinct from every other task's, and each of its inputs refers to the slot written by the connected producer; there is one input per incoming connection and inputs are ordered by the order of the connections in the configuration.",
  "every task graph",
  "Slot numbers are assigned during a traversal whose order depends on the graph.",
  [RT+": plan_tasks_tree_branch, find_output_index_type_from_nodeid, sort_inputs_by_cnx_id"])
p("Invalid graphs are rejected, not silently truncated",
  "A configuration with a cycle, or with a task that is not connected, is reported as an error rather than planned partially or crashing the build.",
  "every task graph",
  "Only particular malformed graphs trigger it.",
  [RT+": compute_runtime_plan, find_task_type_for_id", "core/cu29_runtime/src/config.rs: get_src_edges"])

# ---- runtime loop
p("Lifecycle ordering",
  "In each iteration every task's preprocess is called before any process, processes are called in plan order, and every postprocess after all processes; start is called once on every task before the first iteration and stop on every task after the last.",
  "every plan, every task behaviour without errors, every number of iterations",
  "The ordering must hold for every generated application.",
  [DV+": start_all_tasks, stop_all_tasks, run_one_iteration, run"])
p("Monitor decisions are honoured",
  "When a task step fails, the monitor's decision is applied exactly: Ignore continues with the next step (the failed task's output has no payload), Abort ends the current iteration without running further steps and without error, Shutdown ends the run with an error.",
  "every plan, every failing step, every monitor policy",
  "Failing step x phase x decision x plan shape.",
  [DV+": start/stop/preprocess/process/postprocess step generation", "core/cu29_runtime/src/monitoring.rs: Decision"])
p("Simulation override is honoured",
  "In simulation, a task's real code is run for a step exactly when the simulation callback answers ExecuteByRuntime; ExecutedBySim skips it and Errored is treated like an error returned by the task.",
  "every plan, every callback, every lifecycle step",
  "Callback behaviours are arbitrary functions of history.",
  [DV+": sim mode generation", "core/cu29_runtime/src/simulation.rs: SimOverride, CuTaskCallbackState"])
p("Messages flow within one iteration",
  "A task's process in an iteration sees as inputs exactly the messages its producers left in that same iteration (no payload if the producer failed and was ignored), never another iteration's message.",
  "every plan, every task behaviour that sets or clears its output, every history",
  "Slots are reused across iterations without clearing; staleness shows only in specific error histories.",
  [DV+": process step generation", CL+": create"])
p("Processing times are recorded consistently",
  "After an iteration each executed task's message metadata holds its processing start and end time with start <= end, and successive plan steps do not overlap in time.",
  "every monotonic clock, every plan",
  "All clock readings.",
  [DV+": process step generation", "core/cu29_runtime/src/cutask.rs: CuMsgMetadata"])
p("Logged copper lists can be dumped back",
  "The copper lists obtained by exporting the log of a run are exactly the ones of the completed iterations, in order, each with its id and all the messages.",
  "every run length, every message content, every section and slab size that fits one list",
  "End-to-end composition over unbounded runs.",
  ["core/cu29_export/src/lib.rs: copperlists_dump", DV+": tuple encode/decode", UL, RT])
p("Per-task output accessors name the right task",
  "The accessor generated for a task's output returns the message produced by that task, and the collected metadata follows the task declaration order.",
  "every task graph",
  "Declaration order and plan order coincide in all the tests; the mapping matters only for particular permutations.",
  [DV+": gen_culist_support"])

# ---- clock / time
p("Time values round trip through the log",
  "Durations, optional times, (partial) time ranges and times of validity decode to the value that was encoded and consume exactly their own bytes.",
  "all 2^64 durations, all time ranges and Tov variants, any following bytes",
  "Variable-length encoding; 2^64 values.",
  [CK+": CuDuration Encode/Decode, OptionCuTime, PartialCuTimeRange, Tov"])
p("Optional time is faithful",
  "Converting an optional time to its compact form and back gives the same value, absent stays absent and a present time stays present.",
  "all optional times",
  "A single bit pattern out of 2^64 is reserved.",
  [CK+": OptionCuTime, CuDuration::MAX"])
p("Time range of samples is their hull",
  "The time range built from a list of times contains all of them and its two bounds are members of the list.",
  "every non-empty list of times",
  "Lists of any length and order.",
  [CK+": From<&[CuDuration]> for CuTimeRange"])
p("Robot clock is monotone and settable under mock",
  "Successive readings of a robot clock never decrease when the underlying counter does not; a mocked clock reads exactly the accumulated increments and set values.",
  "every sequence of mock operations, every counter history",
  "All histories.",
  [CK+": RobotClock, RobotClockMock"])
p("Duration arithmetic and display are exact",
  "Adding, subtracting, scaling durations gives the exact nanosecond result or panics; display picks the largest unit that does not exceed the value.",
  "all pairs of durations in range",
  "2^128 operand pairs.",
  [CK+": impl Add/Sub/Mul/Div, Display"])

# ---- structured log
p("Log strings are interned faithfully",
  "Every format string or parameter name is given a stable index: the same string always gets the same index, different strings different indices, index 0 is never used, and reading back the string table maps each index to its string.",
  "every sequence of interning requests, including requests spread over several compilations",
  "Histories of any length.",
  ["core/cu29_log_derive/src/index.rs: intern_string, get_next_index", "core/cu29_intern_strs/src/lib.rs: read_interned_strings"])
p("Structured log entries round trip",
  "A structured log entry (time, message index, parameter names, parameter values of any nesting) decodes to exactly what was logged and consumes exactly its own bytes, so a stream of entries is read back as written.",
  "every entry, any value nesting, any number of entries",
  "Recursive values of any depth.",
  ["core/cu29_log/src/lib.rs: CuLogEntry Encode/Decode", "core/cu29_value/src/benc.rs", "core/cu29_value/src/bdec.rs", "core/cu29_export/src/lib.rs: textlog_dump"])
p("Both value decoders agree",
  "Decoding an encoded dynamic value gives back the value, whichever of the two decoding interfaces (owned or borrowing) is used.",
  "every dynamic value",
  "20 variants with recursive nesting.",
  ["core/cu29_value/src/bdec.rs: Decode, BorrowDecode"])
p("Dynamic values are totally ordered",
  "Comparison of dynamic values is a total order consistent with equality (floats included: NaN equals itself and sorts last, -0 equals 0), so they can safely be used as map keys.",
  "all triples of dynamic values of any nesting",
  "Transitivity quantifies over triples of recursive values.",
  ["core/cu29_value/src/lib.rs: PartialEq, Ord, discriminant"])
p("Log lines are rebuilt with the right parameters",
  "The rebuilt log line is the original format string where the k-th {} is replaced by the k-th argument and named arguments appear next to their names.",
  "every format string, every argument list, every argument text",
  "Argument text may itself contain placeholder syntax.",
  ["core/cu29_log/src/lib.rs: format_logline, rebuild_logline", "core/cu29_log_derive/src/lib.rs: debug!"])

# ---- payload containers
p("Fixed capacity payload arrays round trip",
  "A bounded array payload never exceeds its capacity, encodes and decodes to the same elements, and decoding a longer one is rejected with an error instead of overflowing.",
  "every capacity, element count and element value",
  "Capacity boundary and arbitrary input bytes.",
  ["core/cu29_runtime/src/payload.rs: CuArray", "components/tasks/cu_apriltag/src/lib.rs: CuArrayVec"])
p("Structure-of-arrays payloads behave as a list of records",
  "A generated structure-of-arrays container behaves as a bounded list of records under push, pop, get, set, iteration and apply, and survives an encode/decode round trip.",
  "every capacity, field count and operation sequence",
  "Operation histories of any length.",
  ["core/cu29_soa_derive/src/lib.rs"])
p("Point clouds sort by time without losing points",
  "Sorting a point cloud orders the points by time of validity and keeps every point intact (each point keeps its own coordinates, intensity and return order).",
  "every point cloud content and length",
  "Permutations of any size.",
  ["components/payloads/cu_sensor_payloads/src/pointcloud.rs: sort, quicksort, partition, swap"])
p("Pool buffers are conserved and exclusive",
  "A pool of n buffers always has (free + in use) = n, a buffer is never handed out to two live holders, a buffer returns to the pool exactly when its last handle is dropped, and acquisition fails exactly when all are in use.",
  "every pool size, every interleaving of acquire, clone and drop",
  "Handle clone/drop histories are unbounded.",
  ["core/cu29_runtime/src/pool.rs: CuHostMemoryPool, CuHandle, acquire"])

# ---- config
p("Configuration round trips through its text form",
  "Serializing a configuration and reading it back gives the same tasks in the same order with the same connections, and monitor and logging settings.",
  "every configuration with distinct task names",
  "Graphs of any shape.",
  ["core/cu29_runtime/src/config.rs: Serialize/Deserialize for CuConfig, read_configuration_str, validate_logging_config"])
p("Logging configuration is validated",
  "A configuration whose log section size exceeds its slab size is rejected, and every other one accepted.",
  "all combinations of optional slab and section sizes",
  "All pairs of u64 with presence flags.",
  ["core/cu29_runtime/src/config.rs: validate_logging_config"])
p("Distinct task names stay distinct in generated code",
  "Two tasks with different configuration names get different generated identifiers.",
  "all pairs of task names",
  "All strings.",
  ["core/cu29_derive/src/utils.rs: config_id_to_enum, config_id_to_struct_member"])
p("Live statistics are exact",
  "After any sequence of recorded durations the statistics report the number of samples, the exact minimum, maximum and mean, the jitter statistics are those of absolute differences of successive samples, and min <= mean <= max.",
  "every sequence of samples",
  "Sequences of any length.",
  ["core/cu29_runtime/src/monitoring.rs: LiveStatistics, CuDurationStatistics"])

# ---- components
p("MSP packets round trip",
  "A flight controller (MSP v1 or v2) packet serialized to bytes and fed to the parser produces exactly that packet, whatever garbage without a start marker precedes it, and a concatenation of packets produces exactly those packets in order.",
  "every command, direction, payload within protocol limits; every parser history",
  "The parser is a byte-wise state machine over unbounded streams.",
  ["components/common/cu_msp_lib/src/lib.rs: MspParser::parse, MspPacket::serialize, serialize_v2"])
p("MSP corruption is detected and recovered from",
  "A packet in which one byte of the checksummed part was altered is never delivered; after any error the parser is back in its initial state and parses the next packet normally.",
  "every packet, every position, every altered value",
  "All positions x values x packets.",
  ["components/common/cu_msp_lib/src/lib.rs: parse, reset, serialize"])
p("Servo bus frames are read back and checked",
  "A servo frame sent on the bus is decoded to the same servo id, command and data; a frame with one altered byte after the id is rejected and no received frame makes the driver crash.",
  "every id, command, data and altered byte; every received byte sequence",
  "All byte sequences.",
  ["components/sinks/cu_lewansoul/src/lib.rs: send_packet, read_response, compute_checksum"])
p("Adaptive threshold compares with the local mean",
  "A pixel of the thresholded image is white exactly when it is strictly brighter than the mean of the pixels of the window around it clipped to the image.",
  "every image size, window radius and pixel content",
  "Border clipping and integral image sums for all sizes.",
  ["components/tasks/cu_dynthreshold/src/cu_dynthreshold_impl.rs"])
p("Aligned data falls in one window",
  "The aligner's output for every input stream contains only messages whose time of validity lies in the same window ending at the earliest of the streams' most recent times; nothing older than the horizon is kept and the buffers keep arrival order.",
  "every number of streams, every arrival history",
  "Arrival histories across several streams.",
  ["components/tasks/cu_aligner/src/buffers.rs", "components/tasks/cu_aligner/src/lib.rs"])
p("PID outputs respect their limits and sampling",
  "Every PID output and each of its terms stays within the configured limits; between sampling periods the last output is repeated unchanged; no output is produced from an out-of-cutoff measurement; a frozen and thawed controller continues as the original.",
  "every gain, limit, measurement and time sequence",
  "Continuous inputs and unbounded histories.",
  ["components/tasks/cu_pid/src/lib.rs"])
p("ADC filter stays within its readings",
  "The filtered ADC value always lies between the smallest and largest reading since start, and is stationary on a constant input.",
  "every sequence of readings",
  "Rounding errors of an integer filter accumulate over unbounded sequences.",
  ["components/sources/cu_ads7883/src/lib.rs"])
p("Motor driver applies the commanded power",
  "The duty cycle applied to the motor has the commanded sign and never exceeds full scale, is zero exactly for a zero command, and after a stop caused by missing input the next command is applied.",
  "every power in [-1,1], every deadzone in [0,1), every command history",
  "Histories of commands and gaps.",
  ["components/sinks/cu_rp_sn754410/src/lib.rs"])
p("Lidar datagrams are decoded safely",
  "Any received datagram is either decoded completely into at most the capacity of the output cloud, with one point per channel at its own time of validity, or rejected with an error; none crashes the driver.",
  "every byte sequence",
  "All datagrams.",
  ["components/sources/cu_livox/src/parser.rs", "components/sources/cu_hesai/src/parser.rs", "components/sources/cu_hesai/src/lib.rs"])

p("A healthy application never panics",
  "An iteration of an application whose tasks, monitor and log stream do not panic does not panic, whatever errors they report and in whatever order the tasks are declared.",
  "every acyclic task graph, every behaviour of tasks, monitor, simulation and clock, every number of iterations",
  "Depends on the declaration order of the tasks, the plan and the whole history of the pool.",
  ["core/cu29_derive/src/lib.rs", "core/cu29_runtime/src/curuntime.rs", "core/cu29_runtime/src/copperlist.rs"])
p("The log holds only messages of its own iteration",
  "Every message found in a logged copper list was produced by a task during the iteration of that copper list.",
  "every task graph, every behaviour of tasks and monitor, every history of iterations",
  "Stale content shows only for particular failures after particular histories.",
  ["core/cu29_derive/src/lib.rs", "core/cu29_runtime/src/copperlist.rs"])

p("Buffers and images survive logging",
  "A buffer or image taken from a pool and logged is decoded, outside the pool, with the same content, format and sequence number; every byte of every line announced by the format of an image is in its buffer.",
  "every content, every image format, pooled or detached buffers",
  "All sizes, formats and contents.",
  ["core/cu29_runtime/src/pool.rs: CuHandle", "components/payloads/cu_sensor_payloads/src/image.rs: CuImage"])

p("The MSP source delivers every packet received",
  "However the bytes sent by the flight controller are split over the reads of the source task, and whatever reads fail in between, the batches it outputs put together hold exactly the responses of the packets received, in order, and no received frame crashes it.",
  "every stream of frames, every splitting into reads, every failure of reads",
  "All ways to split unbounded streams over iterations.",
  ["components/sources/cu_msp_src/src/lib.rs: process", "components/common/cu_msp_lib/src/structs.rs: From<MspPacket> for MspResponse"])
p("The MSP sink sends what it is given",
  "The bytes written by the sink task over any number of iterations are read by a parser at the other end as exactly the requests it was given, in order.",
  "every sequence of batches of requests",
  "All requests and channel values, over unbounded histories.",
  ["components/sinks/cu_msp_sink/src/lib.rs: process", "components/common/cu_msp_lib/src/structs.rs: From<&MspRequest> for MspPacket"])

p("A logged parameter is the value that was passed",
  "A Rust value of any serializable type, turned into a dynamic value by a logging macro, written to the log, decoded and read back as its type, is the same value; an integer can also be read as any other integer type that holds it and never as another number; a copy of a dynamic value is the same value.",
  "every type built from numbers, text, bytes, options, newtypes, sequences, tuples, structs, enums and maps, nested without bound, and every value of it",
  "All types and all values: newtypes named like the clock types, empty and nested options, maps iterated in any order.",
  ["core/cu29_value/src/ser.rs: to_value, Serializer", "core/cu29_value/src/de.rs: ValueDeserializer, EnumDeserializer, ValueVisitor", "core/cu29_value/src/lib.rs: deserialize_into"])

p("Replaying a log reproduces the run",
  "The copper lists of a run, read back from its log and replayed through the same tasks with the sources answered for from the log, give the same messages: same payload, time of validity and status from every source and every task, list by list, and the tasks end up in the same state; a replay comes to its end.",
  "every task graph, every task code, every behaviour of sources, sinks, clock and simulation in the recorded run, every number of iterations",
  "All applications, all histories of messages and failures; a unit test replays one log of one robot.",
  ["examples/cu_rp_balancebot/src/resim.rs: main, run_one_copperlist", "core/cu29_runtime/src/simulation.rs: SimOverride, CuTaskCallbackState", "core/cu29_derive/src/lib.rs: gen_sim_support, run_one_iteration", "core/cu29_export/src/lib.rs: copperlists_dump"])

p("What survives when a robot is killed",
  "Kill the process of a run at any point of the use of its log and export the copper lists from the files left: the lists obtained are an initial segment of those logged before the kill, each as logged; only the lists of the section being filled are missing.",
  "every application, every task code, every number of iterations, every crash point between two operations on the log, every size of the buffers of the reader",
  "All histories of interleaved streams and all crash points; a unit test closes its log properly.",
  ["core/cu29_unifiedlog/src/lib.rs: MmapStream, SlabEntry, UnifiedLoggerWrite, UnifiedLoggerRead, UnifiedLoggerIOReader", "core/cu29_export/src/lib.rs: copperlists_dump", "core/cu29_runtime/src/curuntime.rs: end_of_processing"])

p("Threads sharing a log do not disturb each other",
  "Several threads log to their own streams of one log, in any interleaving: nothing panics, and the closed log holds for each type exactly the objects logged, in the order of the calls. If the process is killed at any point, also while calls wait for the lock, the objects read back for a type are an initial segment of those logged.",
  "every number of threads and streams, every sequence of objects of any size that fits, every interleaving of the part of a call outside the lock with those of other threads, every crash point between these parts",
  "Interleavings and histories are unbounded; a test runs the few that the scheduler happens to produce.",
  ["core/cu29_unifiedlog/src/lib.rs: stream_write, MmapStream::log, MmapStream::drop, SlabEntry, UnifiedLoggerWrite"])

p("Text lines logged by several threads",
  "Every line a thread logs while a logger is set up is recorded exactly once, unchanged, with the time of the call, and the lines of a thread are in the order of its calls; the log is in the order of time; a logger records what is logged until it is dropped; a line that cannot be recorded does not prevent others from being recorded.",
  "every number of threads, every interleaving of their calls with the setting up and dropping of loggers, every behaviour of the destination",
  "All schedules of unboundedly many calls.",
  ["core/cu29_log_runtime/src/lib.rs: LoggerRuntime::init, LoggerRuntime::drop, log", "core/cu29_unifiedlog/src/lib.rs: MmapStream::log"])

p("Allocation counters count every allocation",
  "A scoped allocation counter reports the bytes allocated and freed in its scope, whatever other threads do; the difference of the process totals is the memory the process holds when no allocation is under way.",
  "every number of threads, every interleaving of allocations and deallocations of any sizes with the creation, reading and dropping of counters and with resets",
  "All schedules; overflow and underflow of the counters depend on the build profile.",
  ["core/cu29_runtime/src/monitoring.rs: CountingAllocator, ScopedAllocCounter"])

p("A component reads the parameters it was given",
  "A parameter read by a component has the value last given to it, in the program or in the configuration text; an integer is delivered exactly in any integer type that has it, and a value that the type asked for does not have, or of another kind, is reported as an error.",
  "every sequence of parameters set, every key, every value and every type asked for",
  "All integers times all target types; conversions truncate only outside the ranges tests use.",
  ["core/cu29_runtime/src/config.rs: Value, ComponentConfig::get/set, Node::get_param/set_param", "components/tasks/cu_aligner/src/lib.rs: new", "components/tasks/cu_pid/src/lib.rs: GenericPIDTask::new"])

p("Poses keep their meaning through conversions",
  "A pose converted to the type of a linear algebra library moves every point as the pose does, and converting it back gives the pose; the pose of a detected tag is the estimated one.",
  "every pose, every point, each of the three libraries",
  "Tests convert back and forth, which hides a transposition; all rotations and points.",
  ["components/payloads/cu_spatial_payloads/src/lib.rs: From impls of faer, nalgebra and glam", "components/tasks/cu_apriltag/src/lib.rs: AprilTags::process"])

p("Component payloads survive the log",
  "Every payload type that comes with the components is decoded from the log exactly as it was encoded, the decoder consuming exactly its bytes.",
  "every value of every payload type, whatever follows it in the log",
  "All values; unit conversions in decoders are exact only for some of them.",
  ["components/payloads/cu_sensor_payloads/src/pointcloud.rs: Encode/Decode", "components/payloads/cu_spatial_payloads/src/lib.rs: Transform3D", "components/sources/cu_wt901/src/lib.rs: PositionalReadingsPayload", "components/tasks/cu_apriltag/src/lib.rs: AprilTagDetections", "components/sinks/cu_lewansoul/src/lib.rs: ServoPositionsPayload", "components/sinks/cu_msp_sink/src/lib.rs: MspRequestBatch"])

p("Responses of a flight controller are what their command says",
  "A packet received from a flight controller gives the structure of its command, from its first bytes, and reports that command; every kind of response can be received, any packet is converted without a panic, and any response can be made into a packet that is converted back to it.",
  "every packet, every kind of response, every structure",
  "All commands times all lengths of data; a test of one command says nothing about the others.",
  ["components/libs/cu_msp_lib/src/structs.rs: MspResponse, From<MspPacket>, to_bytes", "components/libs/cu_msp_lib/src/lib.rs: decode_as", "components/libs/cu_msp_lib/src/commands.rs: MspCommandCode"])

p("Detected tags are reported with their own pose",
  "For every image, the message of the tag detector lists each tag that was detected and located, in order, its number next to its own pose and margin, with the time of the image; the filter by margin gives exactly the rows above the threshold; the message can be logged as a dynamic value and read back; any number of tags in the image is handled.",
  "every result of the detector, every threshold, every message",
  "All combinations of located and unlocated tags and all counts; the test image has one tag.",
  ["components/tasks/cu_apriltag/src/lib.rs: AprilTags::process, AprilTagDetections"])

p("Video frames are delivered in order and only overrun ones are lost",
  "Each iteration of a video source delivers the oldest frame not delivered before among the last N that arrived, or no payload if there is none; frames are delivered in order, at most once, never from before a restart, and none is lost while at most N are waiting; a message without a frame carries no time.",
  "every interleaving of arrivals, iterations, starts and stops, every N",
  "Arrivals come from the threads of the pipeline at any time between iterations.",
  ["components/sources/cu_gstreamer/src/cu_gstreamer_impl.rs: CuGStreamer::process, start, stop"])

p("Simple device drivers report and do what the device says",
  "The encoder reports how far the wheel turned, for any sequence of edges; the output pin is high when the message says on and a cycle without a message leaves it; the inertial sensor reports its registers in the scales it states, with the time of the reading, and an error of its bus is an error of the task.",
  "every sequence of edges, every message, all bytes of the sensor",
  "Counters overflow after billions of edges; all register values.",
  ["components/sources/cu_rp_encoder/src/lib.rs: Encoder", "components/sinks/cu_rp_gpio/src/lib.rs: RPGpio", "components/sources/cu_wt901/src/lib.rs: WT901"])

p("The console shows what the tasks did",
  "For every history of iterations, failures, redraws and stops, each row of the console monitor shows the count, minimum, mean and maximum of the times its task took since the last reset and of their changes; the graph shows each task's last unseen error, else its last status; an error is answered as documented; nodes are shown as source, task or sink by their connections; each buffer pool with its last figures; the debug pane the last lines that fit.",
  "every history of events, every graph, every length of status, type name and log",
  "Long histories, unusual texts and durations; the interface has no tests.",
  ["components/monitors/cu_consolemon/src/lib.rs: CuConsoleMon, TaskStats, UI, PoolStats", "components/monitors/cu_consolemon/src/debug_pane.rs: DebugLog"])

p("A task that writes nothing sends nothing",
  "In any iteration, when a task succeeds without writing to its output message, the tasks reading it receive a message without payload, time and status, and the log says so.",
  "every graph, every behaviour of the tasks, every iteration including the first",
  "Depends on what earlier iterations left in the message, and on the bytes of messages never written.",
  ["core/cu29_derive/src/lib.rs: gen_runtime", "core/cu29_runtime/src/copperlist.rs: CuListsManager::new, create", "core/cu29_runtime/src/cutask.rs: CuMsg"])

p("The camera delivers each frame once and leaves delivered images alone",
  "For every history of starts, stops, frames of the device, calls and tasks keeping or dropping images, the camera source delivers the frames the device had room for, each once and in order, with the time of the robot when it was taken; an image in a message or kept by a task is never written to; after a time without frames it delivers again; no call panics; the size and pixel format are the configured ones or an error is reported.",
  "every history, every number of buffers, every frame, size and format",
  "Depends on when the device fills which buffer and on who holds images; needs a camera.",
  ["components/sources/cu_v4l/src/lib.rs: V4l", "components/sources/cu_v4l/src/v4lstream.rs: CuV4LStream"])

p("Messages between robot processes arrive once, in order",
  "For every history of starts, stops, messages sent by the sink and calls of any number of sources, each source takes the messages sent while both were started, each once and in order, with their payload, time and status; a message without payload is no error; when nothing was sent nothing is repeated; and a source that is called often enough takes all of them.",
  "every interleaving of the processes, every number of sources, every size of buffer",
  "Depends on the interleaving of several processes and on the buffers between them.",
  ["components/sinks/cu_iceoryx2_sink/src/lib.rs: IceoryxSink", "components/sources/cu_iceoryx2_src/src/lib.rs: IceoryxSrc"])

p("A Python program sees what was logged",
  "Iterating over a log in Python gives the entries written, up to the end or the tear, and raises an exception at damaged bytes; two different values of one type are different objects in Python and no value makes the conversion panic; maps are dictionaries with the same entries; the time of an entry is the time it was logged, to the microsecond.",
  "every log, every nested value, every time",
  "Nested values, unusual keys and long uptimes; the bindings have no tests.",
  ["core/cu29_export/src/lib.rs: PyLogIterator, PyCuLogEntry, value_to_py"])

p("Velodyne packets, live or recorded, become point clouds",
  "For every traffic on its port, the Velodyne source turns each packet into a message with all its points in order, their reflectivity and time, and never panics; the address and the returns are the configured ones; the player of recorded packets sends the payload of each packet in order, at the recorded pace.",
  "every configuration, datagram, silence of the sensor and capture",
  "Needs the sensor or a network; foreign packets and silences.",
  ["components/sources/cu_vlp16/src/lib.rs: Vlp16", "components/testing/cu_udp_inject/src/lib.rs: PcapStreamer"])

p("A log of several files is found again by its base name",
  "The files of a log are named after its base name and numbered from 0; opening the log by its base name for reading finds all of them in order and nothing else, also if the run was killed at any point, if files of earlier runs of the same name or other files are in the directory; two logs of different names never share files; asking the builder for a reader or a writer gives that.",
  "every base name, directory, length of the log, moment of a crash, and previous use of the directory",
  "Old files, crashes exactly at the end of a file and unusual names do not occur in tests.",
  ["core/cu29_unifiedlog/src/lib.rs: build_slab_path, make_slab_file, open_slab_index, UnifiedLoggerRead::next_slab, UnifiedLoggerBuilder"])

p("An aligned buffer is an array of its own",
  "For every program that creates, writes, reads and drops aligned buffers, with every allocator: what is read from an element is what was last written to it, every element lies in the memory of its buffer at an address that suits its type, buffers never overlap, dropping gives back exactly the memory of the buffer, and a buffer that cannot be created is refused with a panic.",
  "every history of operations, every number of elements, size of the elements, alignment and allocator",
  "Unsafe code whose mistakes show only for extreme sizes or by chance of the allocator.",
  ["core/cu29_runtime/src/pool.rs: AlignedBuffer"])

p("The drawing of a configuration shows the configuration",
  "For every configuration, the text given to the drawing program parses and the picture shows each task with its name, type and parameters, and each connection with its type, exactly as they are written in the configuration.",
  "every graph of tasks, every name, type and parameter",
  "Needs all names, types and parameter texts, with the characters the drawing language treats specially.",
  ["core/cu29_runtime/src/config.rs: CuConfig::render"])

p("An application is built from the configuration in effect",
  "The configuration in effect is the one the program gives, else the file, else the one it was compiled with. Each task of the configuration is created once, in order, with its own parameters and the type the configuration names; in a simulation the sources and sinks are placeholders and the simulation is told of every task with its parameters; the first task that fails ends the start with its error and cause; a builder without clock, log or callback is an error; a configuration that does not fit the application is an error.",
  "every configuration at compile time and at run time, every set of components and every failure of them",
  "Configurations that differ from the compiled one in order or number of tasks are not in the tests, nor failing components.",
  ["core/cu29_derive/src/lib.rs: copper_runtime (generated new, builder)", "core/cu29_runtime/src/curuntime.rs: CuRuntime::new", "core/cu29_runtime/src/simulation.rs: CuSimSrcTask, CuSimSinkTask", "core/cu29_traits/src/lib.rs: CuError"])

p("A robot whose logging configuration was accepted starts",
  "After the basic setup of the log, an application whose components can be created starts for every logging configuration that was accepted, and for every size of its copper lists: the log has room for a section of them.",
  "every page size, slab size, section size, size of copper lists and logging configuration",
  "The combination of sizes in the program, the configuration and the generated code is tried in tests for one value.",
  ["core/cu29_helpers/src/lib.rs: basic_copper_setup", "core/cu29_derive/src/lib.rs: new", "core/cu29_runtime/src/config.rs: validate_logging_config", "core/cu29_unifiedlog/src/lib.rs: add_section"])

p("Streams of the same type keep their objects apart",
  "Any number of streams of one entry type may be open on a log at the same time, in one thread or several. Reading the type then delivers every object logged on any of them exactly once; each section holds whole objects of one stream; the objects of a stream keep their order; objects of different streams are delivered in the order in which they were logged; a stream without objects does not disturb the others.",
  "every history of opening, logging and dropping streams, every interleaving of threads, every section size",
  "Several streams of a type at a time are not tested, and the interleavings of full sections are unbounded.",
  ["core/cu29_unifiedlog/src/lib.rs: stream_write, MmapStream::log, Drop for MmapStream, add_section, flush_section, UnifiedLoggerRead, UnifiedLoggerIOReader"])

p("Percentiles and standard deviations describe the samples",
  "After any history of recorded durations and resets, the percentile reported for a fraction of the samples is the smallest sample such that this fraction is at most it, up to the resolution of the statistics; it is between minimum and maximum and grows with the fraction; the standard deviation is that of the samples up to the same resolution. The same holds for the jitter figures and the differences of successive samples.",
  "every sequence of samples and resets, every fraction",
  "Sequences of any length and every fraction; the accuracy is a bound over all of them.",
  ["core/cu29_runtime/src/monitoring.rs: LiveStatistics::percentile, CuDurationStatistics::percentile, stddev, jitter_percentile, jitter_stddev"])

p("A power failure loses only what was not flushed",
  "The power fails at any moment, in the middle of an operation on the log or not, after the operating system has written back any bytes of the mapped files in any order. Every section that was closed, with all sections before it closed as well, is found on the disk by a reader with exactly the data logged to it.",
  "every history of sections opened, written and closed, every choice of bytes written back by the system at any time, every moment of the failure",
  "The bytes that reach the disk are chosen by the system: there are exponentially many disks for each history.",
  ["core/cu29_unifiedlog/src/lib.rs: SlabEntry::flush_until, SlabEntry::flush_section, SlabEntry::drop, UnifiedLoggerRead"])

p("A PID stays within its limits in single precision",
  "With the rounding, overflow, infinities and NaN of single precision, every part of every output of a PID task is a number within its configured limit. For parameters and measurements of ordinary magnitude the sum of errors never overflows, however long the task runs. A measurement never panics the task while time does not go back.",
  "every configuration with limits that are not negative, every history of measurements (infinities and NaN included), of any length",
  "Rounding errors accumulate over histories of any length and NaN propagates; exact arithmetic hides both.",
  ["components/tasks/cu_pid/src/lib.rs: PIDController::next_control_output, GenericPIDTask::process"])

p("The motor is driven as commanded in single precision",
  "With the rounding of single precision, after any history of commands the motor turns in the direction of the last one, stands still exactly for zero and for a command that is not a number, gets exactly full scale for full power, never more than full scale, exactly the commanded power without a dead zone, and not less for a greater command.",
  "every dead zone and power that single precision can represent within range, every history of commands of any values, NaN and infinities included",
  "There are 2^62 pairs of a dead zone and a power, and rounding could take any of them past full scale.",
  ["components/sinks/cu_rp_sn754410/src/lib.rs: SN754410::process"])

p("Raw readings keep their value and order in single precision",
  "Every raw reading of an inertial unit, converter, encoder, lidar, servo or battery is converted to the number it stands for, up to a millionth (exactly where possible); no two readings are confused, greater readings give greater numbers, and a servo told to go to the position it reports stays where it is.",
  "every reading of each device (all values of its integer type)",
  "Rounding depends on each of the values; tests try a few, and the failures are at single values (269 of a servo, 2^24 + 1 of an encoder).",
  ["components/sources/cu_wt901/src/lib.rs: convert_acc, convert_ang_vel, convert_mag, convert_angle", "components/sources/cu_rp_encoder/src/lib.rs: From<&EncoderPayload> for f32", "components/sources/cu_ads7883/src/lib.rs: From<&ADCReadingPayload<u16>> for f32", "components/sources/cu_hesai/src/parser.rs: azimuth, distance, reflectivity", "components/sources/cu_livox/src/parser.rs", "components/sinks/cu_lewansoul/src/lib.rs: read_current_position, angle_to_position", "components/common/cu_msp_lib/src/structs.rs: MspBatteryState::cell_voltage"])

p("A duration that is shown reads as the duration",
  "The text of a duration, read as a decimal number and a unit, is the duration up to half of the last digit shown (0.0501 % of the duration), exactly below a microsecond. A longer duration is never shown as a shorter one, whatever units they are shown in.",
  "every duration of 64 bits, every pair of durations",
  "There are 2^64 durations; a wrong divisor or boundary of one unit only shows in that range.",
  ["core/cu29_clock/src/lib.rs: Display for CuDuration"])

p("The balancing robot stops its motor when it should, and drives it with what it measured",
  "The program of the balancing robot does not panic whatever its sensors deliver. In each iteration the motor receives what the two PIDs make of the measurements of this same iteration. It is not driven when the rod cannot be read, the rod or the cart are beyond their limits, or there is a first measurement only; its duty cycles stay within the period; it drives again when the measurements are back; it is disabled when the program ends; the command carries the time of the measurement.",
  "every sequence of readings, failures of the converter, positions of the cart and times of a clock that does not go back; every number of iterations up to 2^32 - 1",
  "The example needs the hardware; its simulation replaces the sensors and the motor, so that none of these paths is ever run in a test.",
  ["examples/cu_rp_balancebot/src/main.rs: main", "examples/cu_rp_balancebot/src/tasks.rs: PIDMerger::process", "examples/cu_rp_balancebot/copperconfig.ron", "components/sources/cu_ads7883/src/lib.rs: process", "components/sources/cu_rp_encoder/src/lib.rs: process", "components/tasks/cu_pid/src/lib.rs: process", "components/sinks/cu_rp_sn754410/src/lib.rs: process", "core/cu29_derive/src/lib.rs: gen_application"])

p("An application computes what its configuration describes",
  "A configuration without cycles determines, without reference to any runtime, what each task sends in each turn: every task takes what its producers send in the same turn, in the order of its connections. An application runs for as many iterations as it is asked to, every task goes through just those states, and the log holds just those payloads. The order in which tasks and connections are declared does not change what is computed, and a task influences those its messages lead to and no other.",
  "every acyclic configuration, every set of deterministic tasks, including tasks that fail when the monitor ignores the error, every number of iterations, every rearrangement of the declarations",
  "A test runs one graph with its tasks; nothing in it says that another graph, or the same one declared in another order, computes what was drawn.",
  ["core/cu29_runtime/src/curuntime.rs: compute_runtime_plan, plan_tasks_tree_branch", "core/cu29_derive/src/lib.rs: gen_application", "core/cu29_runtime/src/copperlist.rs: CuListsManager", "core/cu29_runtime/src/cutask.rs: CuSrcTask, CuTask, CuSinkTask"])

p("The example applications do in every iteration what their configurations draw",
  "In the example with two sources both sinks print in every iteration the integer and the float sent in this iteration, one more than in the one before, and the log has the same. In the caterpillar all eight pins have the same level after every iteration, each at the pin of its configuration, the level changes with every iteration, and the log has the same for the source and all segments. Neither panics.",
  "every number of iterations, every clock that does not go back, both kinds of build",
  "The examples run for ever and write to devices and to the terminal; they have no tests, and the numbers at which they go wrong are reached after millions of iterations.",
  ["examples/cu_multisources/src/tasks.rs", "examples/cu_multisources/copperconfig.ron", "examples/cu_multisources/src/main.rs", "examples/cu_caterpillar/src/tasks.rs", "examples/cu_caterpillar/copperconfig.ron", "examples/cu_caterpillar/src/main.rs", "components/sinks/cu_rp_gpio/src/lib.rs"])

p("The simulation of the balancing robot drives the cart as the robot's controllers would",
  "Run in the simulator, the robot's application answers every frame of the physics with a force on the cart that is the one of its two controllers fed with the simulated readings, and given the same readings the robot itself commands the same power. The force is a number between -2 and 2 in every frame; it is 0 in the first frame, when the rod has fallen, when the cart is too far away, and while the physics stands still. The simulated readings are those of the sensors, to about a count. The simulation goes on whatever the physics computes, and ends when the user quits.",
  "every sequence of frames whose time does not go back, with angles and positions that may be infinite or not a number",
  "The simulator needs a renderer and a physics engine, which no test starts; the frames that go wrong are those with a rare angle or a time that stands still.",
  ["examples/cu_rp_balancebot/src/sim.rs", "examples/cu_rp_balancebot/src/tasks.rs", "examples/cu_rp_balancebot/copperconfig.ron", "components/tasks/cu_pid/src/lib.rs", "core/cu29_runtime/src/simulation.rs"])

p("Resimulating a log of the balancing robot reproduces the controllers",
  "The log of any run of the balancing robot, on its hardware or in the simulator, is resimulated list by list to its end without a panic. The resimulation logs the same number of lists, with the same payloads, times of validity and statuses in the messages of the sensors, of the two PIDs and of the merger, and leaves the two PIDs in the state they had at the end of the run, whatever the sensors delivered and whichever readings failed.",
  "every run of the robot on the hardware and every simulation, of any length up to the number of lists, with any sensor values, failed readings and clock",
  "Resimulation is what users debug their robot with: a difference in one list out of millions is what they would be looking for, and what would mislead them.",
  ["examples/cu_rp_balancebot/src/resim.rs", "examples/cu_rp_balancebot/src/main.rs", "examples/cu_rp_balancebot/src/sim.rs", "core/cu29_runtime/src/simulation.rs", "core/cu29_derive/src/lib.rs"])

p("What debug! was told is what the log reader prints",
  "For any set of crates compiled in any order, any threads calling debug! in any interleaving, with any format strings and argument values, the log reader prints one line for each recorded call, in the order in which the calls were recorded, with the time of the call, the format string of that call site and the text of each value in its place. Integers are printed so that they can be read back, and two different values of the same shape are printed differently.",
  "every compile schedule, every interleaving of the threads and of the other users of the log, every format string and every dynamic value, nested to any depth",
  "The line crosses a macro, a shared string index, a binary encoding, a log file shared with other streams and a text formatter; a value whose text looks like a placeholder corrupts the line only for that value.",
  ["core/cu29_value/src/lib.rs", "core/cu29_log_derive/src/lib.rs", "core/cu29_log_runtime/src/lib.rs", "core/cu29_log/src/lib.rs", "core/cu29_intern_strs/src/lib.rs", "core/cu29_export/src/lib.rs"])

p("A process killed at any instant leaves a log whose export is a beginning of what was logged",
  "Whatever the application does, if its process is killed at any instant, in the middle of writing an object or a section header included, the copper lists exported from what is left of its log are the first of those it logged before the kill, in order, none altered, none cut, none invented, and the text lines printed are the first of those it logged; the ones missing are in the section that was being filled. The export tool then ends.",
  "every task graph, every behaviour of the tasks, every history of operations on the streams of the log, every instant of every operation, every number of bytes of a store that reached the map, every sequence of read buffer sizes",
  "A kill in the middle of a header leaves a section whose size or content length was only partly written; which instant matters depends on the section sizes and on the values of individual bytes.",
  ["core/cu29_unifiedlog/src/lib.rs", "core/cu29_export/src/lib.rs", "core/cu29_derive/src/lib.rs"])

p("Whatever the files contain, the log reader follows the sections or reports an error",
  "Given any files, the log reader returns exactly the contents of the sections of the type asked for, in the order in which the section headers of the files lead from one to the next up to the end marker; nothing is made up and nothing is left out. If the files are not a complete log (no log at all, a copy that was interrupted, a missing last file) it reports an error, and what it delivered before is a beginning of what the complete log holds.",
  "every list of files with any bytes in them, every type of section, every way in which the end of a log can be missing",
  "Damaged and foreign files are unboundedly many; tests only read logs that were just written.",
  ["core/cu29_unifiedlog/src/lib.rs"])

p("A process killed while several threads write its log leaves a beginning of each stream",
  "Several threads use one log. The process is killed at any instant: one thread may be in the middle of an action under the lock of the log (opening or dropping a stream, getting a new section), and any number of others in the middle of storing an object in the sections of their own streams. What is then read of each type of data is a beginning of what was logged with that type; the copper lists exported are the first ones and the text lines printed are those of the first calls, none altered, none invented, none mixed with those of another thread.",
  "every interleaving of the actions of any number of threads, every instant of the actions under way, every subset of the bytes of their stores that an order of the threads allows, all objects and all sizes of buffers of the reader",
  "The instants at which several threads can be stopped are unboundedly many and tests cannot stop threads between two stores.",
  ["core/cu29_unifiedlog/src/lib.rs"])

p("A task thawed from a snapshot goes on like the one that was frozen",
  "A task can be frozen at any moment. A new instance that is thawed from what was written reads exactly that, whatever follows it, and from then on puts out, for any inputs, what the frozen task would have put out. The tasks of an application can therefore be frozen one after the other into one snapshot, and restored from it together.",
  "every task of the library and of the examples that is modelled, every history before the snapshot, all inputs after it, any number of tasks in a snapshot, anything that follows it",
  "The states in which a task can be frozen are unboundedly many, and equality of all later outputs is not observable by a test.",
  ["core/cu29_runtime/src/cutask.rs: Freezable", "components/tasks/cu_pid/src/lib.rs", "components/sinks/cu_rp_sn754410/src/lib.rs", "examples/cu_caterpillar/src/tasks.rs", "components/sources/cu_ads7883/src/lib.rs", "components/tasks/cu_aligner/src/lib.rs"])

p("Logic over arrays of booleans follows the three-valued tables, on arrays and on slices of them",
  "For two arrays of booleans of the same length, with or without nulls and sliced anywhere, the Kleene operations give in every slot what Kleene's logic says of the two slots; the plain operations give the result where both slots hold a value and null elsewhere; negation and the null tests act slot by slot. Arrays of different lengths are refused.",
  "all arrays of booleans, of any length, with any nulls, sliced at any offset",
  "The kernels work on words of 64 bits assembled across byte boundaries, so an error shows only for some lengths, offsets and bits of padding.",
  ["patches/arrow-arith/src/boolean.rs: and_kleene", "patches/arrow-arith/src/boolean.rs: or_kleene", "patches/arrow-arith/src/boolean.rs: and", "patches/arrow-arith/src/boolean.rs: or", "patches/arrow-arith/src/boolean.rs: and_not", "patches/arrow-arith/src/boolean.rs: not", "patches/arrow-arith/src/boolean.rs: is_null"])

p("An aggregate of an array is that of the values in it that are not null",
  "The sum, minimum, maximum, bitwise and logical aggregates of an array are those of its values that are not null, in whatever way the values are split over the lanes of the machine's vectors; there is no aggregate if there is no such value. The checked sum is exact, or an error when the sum of an initial part does not fit.",
  "all arrays of integers of any width, of strings, of booleans and of floating point numbers, any length, any nulls at any offset, vectors of 16, 32 or 64 bytes, builds with and without overflow checks",
  "Which code path runs depends on the length, the nulls and the machine; a test runs on one machine with few lengths.",
  ["patches/arrow-arith/src/aggregate.rs: sum", "patches/arrow-arith/src/aggregate.rs: min", "patches/arrow-arith/src/aggregate.rs: max", "patches/arrow-arith/src/aggregate.rs: sum_checked", "patches/arrow-arith/src/aggregate.rs: bit_and", "patches/arrow-arith/src/aggregate.rs: min_boolean", "patches/arrow-arith/src/aggregate.rs: max_string"])

p("Element-wise operations on arrays compute slot by slot, and never on what lies under a null",
  "Applying an operation to one array, or to two of the same length, gives in every slot the result of the operation on the slots, and null where an operand is null. An operation that can fail is applied only where no operand is null, in order, and the first failure is the result. Integer arithmetic is exact, wraps around if asked to, or fails where the result does not fit; a single value stands for as many as the other operand has; working in place changes nothing but the place.",
  "all arrays of any length, with any nulls, sliced at any offset; all operations; all integer types; arrays and single values on either side; shared and unshared buffers",
  "Whether a slot under a null is evaluated depends on how many nulls there are and of which kind; a test sees some combinations of nulls, lengths and values.",
  ["patches/arrow-arith/src/arity.rs: unary", "patches/arrow-arith/src/arity.rs: try_unary", "patches/arrow-arith/src/arity.rs: binary", "patches/arrow-arith/src/arity.rs: try_binary", "patches/arrow-arith/src/arity.rs: binary_mut", "patches/arrow-arith/src/arity.rs: try_binary_mut", "patches/arrow-arith/src/numeric.rs: add", "patches/arrow-arith/src/numeric.rs: rem", "patches/arrow-arith/src/bitwise.rs: bitwise_shift_left"])

p("Applications used one after the other in a program share its log",
  "A program may create an application, use it, drop it, and create another, with a varied configuration, on the same log. Whatever calls it makes and however the runs end, reading the log back gives the copper lists of all of them, those of the first application first, each list once and complete.",
  "all numbers of applications; all sequences of calls on each (start, iterations, stop, run); all tasks, monitors and other uses of the log before, between and during the runs; all sizes of sections, slabs and reading buffers",
  "Where the sections of the runs lie in the files, and whether one of them is empty, depends on the sizes and on what every run has logged.",
  ["examples/cu_config_variation/src/main.rs: main", "core/cu29_unifiedlog/src/lib.rs: stream_write", "core/cu29_unifiedlog/src/lib.rs: MmapStream::drop", "core/cu29_unifiedlog/src/lib.rs: UnifiedLoggerIOReader::read", "core/cu29_derive/src/lib.rs: copper_runtime"])

p("The project template and the examples of one iteration do what they say",
  "The application the project template creates runs as long as it is left running: its task receives 42 and its sink 43 in every turn, and both are in the log. The examples that make a single iteration start, process and stop every task once, in this order, show their monitor the times of the three tasks before the list is logged, and never fail; the example about log sizes finds more than 100 MiB in use in a file of 150 MiB.",
  "all clocks that do not go back; all numbers of turns; builds with and without overflow checks; all page sizes; all copper lists that fit a section",
  "A test of an example sees one clock, one page size and a few turns.",
  ["templates/cu_full/src/tasks.rs: MySource, MyTask, MySink", "examples/cu_monitoring/src/main.rs: main", "examples/cu_logging_size/src/main.rs: main", "core/cu29_unifiedlog/src/lib.rs: UnifiedLoggerWrite::stats"])

p("Arithmetic on arrays of decimals is exact or an error",
  "Adding, subtracting, multiplying, dividing, taking the remainder of and negating arrays of decimals gives, slot by slot, the result for the numbers the slots stand for at their scales: exactly for sums, differences, products and remainders, cut after the digits of the result for quotients; null where an operand is null; otherwise an error, for a division by zero or an integer the type does not hold. The type of the result depends on the types of the operands only, and has room for the digits unless that is more than there can be. A multiplication to a required scale gives the nearest number.",
  "all arrays of decimals of 128 and 256 bits and their nulls; single values and arrays; all precisions and scales; builds with and without overflow checks",
  "Tests use a handful of numbers of two scales; scales that are far apart or negative are combined in none.",
  ["patches/arrow-arith/src/numeric.rs: decimal_op, neg", "patches/arrow-arith/src/arithmetic.rs: multiply_fixed_point, multiply_fixed_point_checked, divide_and_round, get_fixed_point_info"])

p("The parts of dates, times, durations and intervals are exact",
  "The year, quarter, month, week, day, day of the week or of the year, hour, minute, second and part of the second extracted from an array of dates, timestamps or times of the day are, slot by slot, those of the Gregorian calendar and of the clock in the zone of the array; null stays null, and so is what has no such time. Those of a duration or an interval are the whole number of units in it, towards zero, null if it does not fit into 32 bits. A part the type does not have, or a zone that does not exist, is an error. A dictionary keeps its keys.",
  "all arrays of dates, timestamps of all units and zones, times of the day, durations and intervals, and their nulls; all parts; dictionaries of them",
  "Tests use a few dates of a few years; the ends of the calendar, dates before 1970, leap years of the centuries and values under nulls are in few or none of them.",
  ["patches/arrow-arith/src/temporal.rs: date_part, ExtractDatePartExt, get_date_time_part_extract_fn, get_tz"])

p("Sums and differences of dates, timestamps, durations and intervals are exact, or an error",
  "Which sums and differences of arrays of dates, timestamps, durations and intervals there are depends on their types only, as does the type of the result: two timestamps of one unit differ by a duration of that unit, two dates by a duration, a timestamp keeps its zone. Slot by slot the result is exact, null where an operand is null, otherwise an error; a date or a timestamp is moved by an interval as the calendar says. A sum is the same either way round, intervals are added field by field, the negative of a duration or an interval is exact or an error. All other combinations, units that differ and zones that do not exist are refused.",
  "all arrays of dates, timestamps of all units and zones, times, durations and intervals, their nulls, single values and arrays; all operations",
  "Tests cover a few pairs of types with a few values; there are hundreds of combinations of types, units, operations and single values, and what lies under nulls is in none.",
  ["patches/arrow-arith/src/numeric.rs: arithmetic_op, timestamp_op, date_op, duration_op, interval_op, neg, float_op"])

p("A structured log in a plain file holds the first of the entries logged, all of them after a flush",
  "Entries logged to a plain file are read back as logged, in their order. Whatever the disk does (short writes, interruptions, errors) and whenever the process is killed, the file holds a part of the entries from the first one on, which the log reader reads without an error; all entries before a flush that succeeded are among them, and a flush that failed can be repeated. If the process is not killed, no more than the buffer is missing. After an entry could not be logged, the file is still a log of the others.",
  "all sequences of entries and of calls of log and flush, all ways in which the encoder cuts an entry into pieces, all outcomes of each write to the disk, all instants at which the process is killed",
  "Tests log a few entries to a working disk. Short writes, a disk that is full for a while, and a kill in the middle of a write cannot be produced in a unit test, and the buffer makes all of them depend on the history.",
  ["core/cu29_log_runtime/src/lib.rs: SimpleFileWriter, OwningIoWriter", "core/cu29_export/src/lib.rs: textlog_dump"])

p("A robot clock starts where it is told to and follows the time",
  "A new robot clock reads the time since it was made. A clock can be started at any time, reads that time, and from then on that time plus what has passed. Its cheap reading does not decrease, is never later than the exact one, and follows it.",
  "all values of the counter of the machine when the clock is made and when it is read, all times to start at, all histories of what is published for cheap readings",
  "Tests start a clock at one second on a machine that has been up for longer, and compare one cheap reading with one exact one, which holds of a clock that stands still.",
  [CK+": RobotClock::new, from_ref_time, now, recent"])

p("What goes to the device through a device pool comes back",
  "A pool of device memory gives out each of its buffers to one group of handles at a time and gets it back after the last handle, like a host pool; its buffers start as zeros. A host buffer copied to the device and later to another host buffer is what that buffer then holds. A copy that cannot be made is reported, and device pools are among the pools whose use is shown.",
  "all histories of any number of host and device pools, acquisitions, clones, drops, copies in both directions, kernels, and refusals by the driver",
  "The tests of device pools need a device and copy one full buffer each way once; they never reuse a buffer, copy a shorter one, run out of buffers or look at the statistics.",
  ["core/cu29_runtime/src/pool.rs: CuCudaPool::new, acquire, copy_from, copy_to_host_pool, PoolMonitor, CudaSliceWrapper"])

p("Text lines reach the debug pane and do not hold up the robot",
  "Every line logged as text above the trace level reaches the debug pane of the console once, in the order of its thread, until the user quits, and the standard error after that. The pane shows the most recent lines that fit the terminal. Logging a line never waits for the user interface, and the user interface keeps drawing.",
  "all numbers of threads and lines, all interleavings of logging with the rounds of the user interface, all heights of the terminal and changes of it, all times to quit",
  "There is no test of the pane; one would log a few lines from one thread on a terminal of the usual size, never a thousand lines between two rounds, lines during a round, a resize or a quit with lines on the way.",
  ["components/monitors/cu_consolemon/src/debug_pane.rs: DebugLog, LogSubscriber, UIExt", "components/monitors/cu_consolemon/src/lib.rs: UI::run_app, CuConsoleMon::start"])

p("The log of a robot that was killed replays to where the log ends",
  "After a robot's process is killed at any instant, the copper lists that can be read from its log are those of its first iterations, and replaying them reproduces, list by list, what the sources and tasks put in their messages; the tasks end up in the condition they had in the robot after exactly these iterations.",
  "all applications whose tasks depend on their inputs only, all runs, all instants at which the process can be killed, in the middle of a store included, all sizes of the log's slabs, pages and reads, all behaviours of clock, sources, sinks and log of the replay",
  "The resimulation example is tried with the log of a run that was ended properly; a kill at a chosen instant is not tested, let alone at all of them.",
  ["examples/cu_rp_balancebot/src/resim.rs: main, run_one_copperlist", "core/cu29_unifiedlog/src/lib.rs: MmapUnifiedLoggerWrite, UnifiedLoggerIOReader", "core/cu29_export/src/lib.rs: copperlists_dump"])

p("A killed program that used several applications leaves a usable log",
  "After the process of a program that creates, uses and drops applications one after the other is killed at any instant, exporting its log gives an initial segment of the copper lists all the applications have logged, none altered, invented or cut; what is missing is at most what is in the section being filled, so every list of the applications that had ended is there.",
  "all applications, all numbers of them, all sequences of calls on each, all other uses of the log in between, all instants at which the process can be killed, in the middle of a store included, all sizes of slabs, pages and reads",
  "No test kills a process, and none uses two applications with one log.",
  ["core/cu29_unifiedlog/src/lib.rs: MmapUnifiedLoggerWrite, MmapStream, UnifiedLoggerIOReader", "core/cu29_export/src/lib.rs: copperlists_dump", "core/cu29_derive/src/lib.rs: gen_cu_runtime"])

p("Damage to a log affects only the section it is in",
  "If bytes of the files of a log change after it was written, in the content of one section, reading any type returns the content of every other section as it was; if anything happens to the files from some section on, the sections before it are still found as they were. The export then returns at least the objects logged before the damaged section, and all of them if the damage is in a section of another type; objects in intact sections behind the damage are exported too, and damage is noticed.",
  "all histories of a log, all sections, all changes to any number of bytes of the content, all changes from a header on, shorter or longer or missing files included, all types, all sizes of slabs, pages and reads",
  "Tests read the files as they were written; no test changes a byte of a log.",
  ["core/cu29_unifiedlog/src/lib.rs: UnifiedLoggerRead, UnifiedLoggerIOReader", "core/cu29_export/src/lib.rs: copperlists_dump"])

p("Dumping a damaged text log ends with an error, not with a crash",
  "Whatever bytes a text log consists of, dumping it prints the lines of the entries in front of the first damage and then ends, with or without an error; it does not panic, and the memory it asks for is in proportion to the data.",
  "all sequences of bytes, all logs of entries followed by any bytes, all tables of strings",
  "Tests dump logs as they were written; the byte sequences a damaged file can hold cannot be enumerated.",
  ["core/cu29_log/src/lib.rs: CuLogEntry Decode, rebuild_logline", "core/cu29_export/src/lib.rs: textlog_dump"])

p("What a power failure leaves of what threads logged",
  "When the power of a robot fails at any instant, with threads in the middle of logging, everything logged up to a moment after which all streams have moved on to new sections is read back from the disk, in order, whatever happened to bytes that were not written back yet.",
  "all interleavings of threads, all histories before and after the moment, all instants of the failure, all orders in which the kernel writes bytes back, all contents of the bytes that were not written back, all buffer sizes of the reader",
  "The order in which a kernel writes pages back and the instant of a power failure cannot be chosen in a test.",
  ["core/cu29_unifiedlog/src/lib.rs: MmapStream::log, Drop for MmapStream, SlabEntry::flush_until, Drop for SlabEntry, UnifiedLoggerRead, UnifiedLoggerIOReader"])

p("Exporting a damaged log of copper lists ends with an error, not with a crash",
  "Exporting the copper lists of a log whose bytes may be damaged yields every list in front of the damage and then ends with an error or at the end of the data; it does not crash, and it does not ask for more memory than in proportion to the data.",
  "all lists of slots, all messages and payloads, all damage to the bytes",
  "The lengths within the data can be anything once bytes are damaged; a test tries a few.",
  ["core/cu29_export/src/lib.rs: copperlists_dump", "core/cu29_runtime/src/cutask.rs: Decode for CuCompactString", "components/payloads/cu_sensor_payloads/src/image.rs: Decode for CuImage"])

p("The log reader program exports the log in the format asked for and its exit status tells whether all was exported",
  "Run on a log that was closed, the log reader program prints every copper list, or every line of text, in order and in the format asked for, and ends with success; if the log cannot be opened or some of it cannot be exported, it ends with failure.",
  "all histories of a log, all files of earlier logs in the directory, all buffer sizes of the decoder, all damage",
  "The program is run by hand on logs that are intact; what a damaged log does depends on where the damage is.",
  ["core/cu29_export/src/lib.rs: run_cli, ExportFormat, copperlists_dump, textlog_dump", "templates/cu_full/src/logreader.rs: main"])

p("The log of a balancing robot that was killed is resimulated to where it ends",
  "Kill the balancing robot at any instant, also in the middle of writing its log: what can be read of the log is that of its first iterations, with every number as it was, and resimulating it runs to the end, logs the same messages of the sensors, the controllers and the merger, and leaves the controllers in the state they had in the robot after exactly these iterations.",
  "all sensor readings and failures, all numbers of iterations, all operations on the log around the lists, all instants of the kill, all buffer sizes of the reader",
  "A resimulation is run on logs of runs that were stopped; a kill can fall between any two stores into the mapped files, and the numbers written depend on the readings.",
  ["examples/cu_rp_balancebot/src/main.rs: main", "examples/cu_rp_balancebot/src/resim.rs: main, run_one_copperlist", "components/tasks/cu_pid/src/lib.rs: PIDControlOutputPayload", "components/sinks/cu_rp_sn754410/src/lib.rs: MotorPayload", "core/cu29_unifiedlog/src/lib.rs: UnifiedLogger", "core/cu29_derive/src/lib.rs: CuMsgs codecs"])

p("What tasks promise of their messages holds of all messages of the application",
  "If each task, taken alone, leaves a message as its output requires when the messages it is given are as theirs require, then every message given to a task, left by a task or logged is as required, in every run of the application. A task need promise this only of the calls that succeed: what it leaves when it fails is not sent nor logged.",
  "all applications, states, requirements on messages, task graphs, failures, decisions of the monitor, simulations, numbers of iterations and of copper lists",
  "Tasks are tested one at a time; which messages meet in one application, and which are stale or left by a failed task, depends on the whole history.",
  ["core/cu29_derive/src/lib.rs: process steps, run_one_iteration, run", "core/cu29_runtime/src/copperlist.rs: CuListsManager::new, create", "core/cu29_runtime/src/curuntime.rs: end_of_processing", "core/cu29_runtime/src/monitoring.rs: Decision"])

p("The channels and settings a program names are those a flight controller gets",
  "Whatever radio channels a program sets by name, in any order and as often as it likes, the flight controller reads one packet with the value each was last set to, at the place of that channel, and 0 for the others; the numbers the library gives to the channels are these places. A text or number is taken for a baud rate or a serial port exactly if it is that of the rate or port.",
  "all sequences of settings, all values, all texts, all numbers",
  "Tests set a channel or two; a value in the place of another channel flies the drone elsewhere, and the sequences of settings are unbounded.",
  ["components/common/cu_msp_lib/src/structs.rs: MspRc, MspRcChannel, MspRequest, SerialIdentifier, Baudrate", "components/sinks/cu_msp_sink/src/lib.rs: MSPSink::process"])

p("A simulation that does what the tasks would have done is the application",
  "An application run with a simulation callback that leaves every step to the runtime does what the application without simulation does: same states, same lists, same log, same result, same panics. The same holds of a callback which, for any steps it chooses, does what the task would have done and reports the result the task would have reported.",
  "all applications, all callbacks of this kind, all errors and decisions of the monitor, any number of iterations",
  "A test compares one run; a discrepancy between simulated and real step may need an error, a decision of the monitor and a message left from a list before.",
  ["core/cu29_derive/src/lib.rs: gen_runtime (sim_mode), run_one_iteration, start_all_tasks, stop_all_tasks, run", "core/cu29/src/simulation.rs: SimOverride"])

p("What a robot did before it lost power can be replayed from its disk",
  "The power of a robot fails at any instant, while several threads log. Every copper list that was logged before all streams went on to new sections of the log is found on the disk, in order and without loss, whatever else the disk holds; and a replay of what is found takes the tasks through the same iterations, with the same messages and the same memories, up to there.",
  "all applications with deterministic tasks, all interleavings of threads, all instants of the failure, all contents of the parts of the disk that were not flushed",
  "No test cuts the power; the pages a kernel has written at that instant are arbitrary.",
  ["core/cu29_unifiedlog/src/lib.rs: MmapUnifiedLoggerWrite::flush_section, SlabEntry::flush_until, MmapStream::log", "core/cu29_export/src/lib.rs: copperlists_reader", "examples/cu_rp_balancebot/src/resim.rs: run_one_copperlist", "core/cu29_derive/src/lib.rs: gen_runtime"])

p("What is computed in simulation is what is computed on the robot",
  "An application generated for simulation computes what its configuration describes, with what the callback does in place of the tasks it replaces. If the simulated sensors send in every iteration what the sensors of the robot send, all tasks of the simulation send what those of the robot send, and the tasks that are not drivers are in the same states. A simulated sensor for which the callback writes nothing sends nothing.",
  "all configurations without cycles, all deterministic tasks and callbacks, which may replace any steps, fail or leave steps to the runtime, any number of iterations",
  "A test compares a few recordings of one application; the question is whether the control code tested in simulation is what runs on the robot, for every graph and every sensor history.",
  ["core/cu29_runtime/src/simulation.rs: SimOverride, CuTaskCallbackState", "core/cu29_derive/src/lib.rs: gen_runtime (sim_mode)", "examples/cu_rp_balancebot/src/sim.rs"])

p("Replaying a log with changed tasks changes only what is behind them",
  "The log of a robot is replayed by an application some of whose tasks were changed. Every task which receives nothing, directly or through others, of what a changed task sends goes through the same memories and sends the same messages as it did on the robot, in every iteration; and what all the others send is determined by what the sensors sent and by the new tasks.",
  "all task graphs without cycles, all tasks, all changes, all logs, any number of iterations",
  "A regression test of a changed task compares one log with one replay.",
  ["examples/cu_caterpillar/src/resim.rs: run_one_copperlist", "core/cu29_derive/src/lib.rs: gen_runtime", "core/cu29_runtime/src/simulation.rs: SimOverride"])

p("A view of an image shows its pixels and nothing else",
  "An image can be looked at as an image of the crates image and kornia, and by the detector of tags. Every such view has the pixels of the image, each where the width, height and stride of its format say, and reads no memory but the buffer of the image, also for images that were logged and read again.",
  "all formats, all buffers, all columns and rows, all pixel types",
  "Undefined behaviour need not show; tests use a few images without gaps between rows, made by the test.",
  ["components/payloads/cu_sensor_payloads/src/image.rs: CuImage::new, as_image_buffer, as_kornia_image", "components/tasks/cu_apriltag/src/lib.rs: image_from_cuimage"])

p("A component is made with the settings its configuration gives, or is refused",
  "Making a component of the repository from its configuration gives a component with exactly the settings of the configuration, and the documented defaults for those that are not given. A configuration that lacks a setting that is needed, gives one that is of another kind or out of range, or asks for something that cannot be had, is refused with an error that names it.",
  "all configurations, all devices, checked and unchecked arithmetic",
  "A configuration is any map of names to values of any kind; tests make components from one or two configurations that are right.",
  ["components/tasks/cu_pid/src/lib.rs: GenericPIDTask::new, getcfg", "components/tasks/cu_aligner/src/lib.rs: new", "components/tasks/cu_dynthreshold/src/cu_dynthreshold_impl.rs: DynThreshold::new", "components/sinks/cu_lewansoul/src/lib.rs: Lewansoul::new", "components/sinks/cu_rp_gpio/src/lib.rs: RPGpio::new", "components/sinks/cu_rp_sn754410/src/lib.rs: SN754410::new", "components/sinks/cu_msp_sink/src/lib.rs: MSPSink::new", "components/sources/cu_msp_src/src/lib.rs: MSPSrc::new", "components/sources/cu_ads7883/src/lib.rs: ADS7883::new, open_spi", "components/sources/cu_rp_encoder/src/lib.rs: Encoder::new", "components/sources/cu_gstreamer/src/cu_gstreamer_impl.rs: CuGStreamer::new", "components/sources/cu_hesai/src/lib.rs: Xt32::new", "components/sources/cu_livox/src/lib.rs: Tele15::new", "components/sources/cu_v4l/src/lib.rs: V4l::new", "components/sinks/cu_iceoryx2_sink/src/lib.rs: IceoryxSink::new", "components/sources/cu_iceoryx2_src/src/lib.rs: IceoryxSrc::new"])

p("What is asked of a servo is answered by that servo",
  "Any sequence of questions to the servos of a bus (position, voltage, temperature, limits, ping) is answered, each with what that servo knew when it was asked, in degrees and volts; an answer that is missing, late, too short or of another servo is an error and does not disturb later questions.",
  "all sequences of questions, all servos and what they know, everything that can arrive on the line and when",
  "The only test needs two servos on a bus that answer at once; late and stray answers depend on timing.",
  ["components/sinks/cu_lewansoul/src/lib.rs: reassign_servo_id, read_current_position, read_present_voltage, read_temperature, read_angle_limits, ping, send_packet, read_response"])

p("The tables of the console can be read",
  "In a terminal which is wide enough, the table of latencies of the console has a row for every task and one for whole iterations; each can be read as the name of the task and, within the precision of a displayed duration, as the smallest, largest and mean time, the deviation, and the mean and largest change of the times since the last reset. Each row of the table of memory pools can be read as the megabytes in use and in total, their share, the size of a buffer, and the handles in use and their rate.",
  "all histories of the monitor, all numbers and names of tasks, all times, all pools",
  "There is no test of the table; whether a text fits its column depends on the figure, the failing figures are rare.",
  ["components/monitors/cu_consolemon/src/lib.rs: UI::draw_latency_table, draw_memory_pools", "core/cu29_clock/src/lib.rs: Display for CuDuration", "core/cu29_runtime/src/monitoring.rs: CuDurationStatistics"])

p("The console does what its keys say",
  "Whatever the application does meanwhile, the console shows the screen of the last key of its menu; on the graph, an error of a task stays marked until the graph has been drawn; on the table of latencies, the figures are those since they were last reset there; and the run is ended by the first iteration after the user quits, and only then; the log then holds all iterations of the run.",
  "all interleavings of the calls of the application with drawings, keys and failures of the terminal; all numbers of tasks",
  "The interface is a thread that races with the application; there is no test of it, and a test would fix one sequence of keys.",
  ["components/monitors/cu_consolemon/src/lib.rs: UI::run_app, UI::draw, CuConsoleMon::start, process_copperlist, process_error, stop"])

with open(os.path.join(os.path.dirname(__file__), "..", "properties.jsonl"), "w") as f:
    for x in P:
        f.write(json.dumps(x, ensure_ascii=False) + "\n")
print(len(P))
