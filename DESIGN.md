# Formal model of copper-rs: design

The model is written in Lean 4 (4.33.0), core library first, single Mathlib
modules only where needed.  `/repo` is read as text; every model definition
cites the file and lines it models.

## Layout

* `lean/Verif/Model/*.lean`  – executable model of the Rust code, function by function.
* `lean/Verif/Spec/*.lean`   – small, independent specifications (bounded stack, list of
  records, byte logs, sums, hulls, ...), with no reference to the model's helpers.
* `lean/Verif/Proofs/*.lean` – helper lemmas and invariants.
* `lean/Verif/Props/*.lean`  – property theorems (named `Cxx_...`), each with a non-vacuity
  `example`; theorems that refute a property on the unchanged code are called
  `Cxx_violated_...` and sit next to the strongest `Cxx_..._partial` statement.

## Conventions

* Rust integers are `UIntN` when the value is part of a byte format or when wrap-around
  matters, otherwise `Nat` with an explicit comment.
* Panics are explicit error values (`Except`/`Option`/dedicated constructors).  A
  function that mutates through `&mut` returns the new value.
* Loops are folds / structural recursion, or take fuel with a proof that the fuel suffices.
* Floats: where only data movement matters a float is its bit pattern; where arithmetic
  matters (PID, motor, units) the model is over exact rationals and the statement is labelled
  accordingly (no rounding, no NaN).  `Model/Fp.lean` is an executable model of IEEE 754 arithmetic; the PID
  and the motor are modelled a second time over it (C84, C85).
* bincode 2.0.0 `standard()` is an external crate: its wire format is modelled in
  `Model/Bincode.lean` and belongs to the trusted base.

## Plan per property

| id | model | proof |
|----|-------|-------|
| C01 | `UnifiedLog`: slabs as byte arrays, `add_section`, `flush_section`, stream `log`, reader | invariant over op lists: the section table written so far is decodable from the bytes; read = concatenation |
| C02 | same | invariant: section intervals pairwise disjoint, aligned, inside slab |
| C03 | same (`SlabEntry` bookkeeping) | invariant by induction over add/flush ops |
| C04 | same (`UnifiedLoggerWrite` bookkeeping) | invariant by induction |
| C05 | `IOReader` cursor machine over section list | induction over read sizes; negation witness for empty sections |
| C06 | `Bincode` + header codecs | round trip, length bound |
| C07 | reader over the bytes of a crashed log; `UnifiedLogCrash`: an operation as the stores it makes, a crash after any byte of any store | prefix theorem between operations and inside them (bytes of a torn store: each old or new); negation witness for an open section hiding closed ones |
| C08–C10 | `CopperList` ring | refinement to a bounded stack; negation witness for mutable/ascending iterators on partly filled ring |
| C11 | `Runtime.end_of_processing` on ring | invariant on logged ids |
| C12 | generated loop state machine | invariant on outcomes that complete; negation witness (Shutdown / log error) |
| C13–C17 | `Planner` over node/edge lists (petgraph iteration order modelled) | invariants on the plan; termination with fuel bound; completeness by well-founded argument; negation witnesses (cycles, isolated nodes) |
| C18–C22 | `Runtime` generated loop with abstract tasks | trace theorems by induction over plan |
| C23 | `Wire` (codec of copper lists) and the composition of loop, unified log and export | invariant over the run tying the operations on the copper list stream to the lists logged; round trip of `Wire`; C05 |
| C24 | accessor table generation | equality for the identity permutation; negation witness |
| C25–C29 | `Clock` | round trips, arithmetic; negation witness for u64::MAX |
| C30 | `Intern` | invariant over intern requests |
| C31–C33 | `Value`, `LogEntry` | structural induction, total order laws; negation witness for the borrowing decoder |
| C34 | `LogLine` text model | induction on placeholders; negation witness |
| C35–C37 | `CuArray`, `Soa`, `PointCloud` | refinement to bounded lists; negation witnesses |
| C38 | `Pool` | invariant by induction over acquire/clone/drop |
| C39–C41 | `Config`, `Ident` | round trip; decision table; negation witness |
| C42 | `Monitoring` | exact statistics over Nat/Rat |
| C43–C44 | `Msp` parser/serializer | simulation of parser over serialized bytes; CRC linearity |
| C45 | `Lewansoul` framing | round trip; negation witness (short length) |
| C46 | `DynThreshold` integral image | 2-D prefix sum identity |
| C47 | `Aligner` buffers | filters over lists |
| C48 | `Pid` over rationals | clamp bounds; state machine invariants; negation witness for freeze/thaw |
| C49 | `Ads7883` | interval invariant |
| C50 | `Sn754410` over rationals | case analysis; negation witnesses |
| C51 | `Livox`, `Hesai` datagram checks | case analysis; negation witness (empty datagram) |
| C52 | generated loop | totality of each stage under an invariant on the pool; negation witness (declaration order in debug builds) |
| C53 | generated loop | traces; negation witness (aborted iteration) |
| C54 | `Pool` handles, `Image` | round trip; arithmetic |
| C55, C56 | `MspTasks` | refinement to the parser over all splittings; negation witnesses |
| C57 | `ValueSerde`: serde types as trees, `to_value`, `deserialize_into`, the `Serialize`/`Deserialize` of `Value` | round trip by induction on the type, `Same` up to the order of map entries; composed with the codec of C32; negations for times, dynamic values, long tuples |
| C58 | `Replay`: the loop and the callback of the resimulation, on `Runtime` | lock-step simulation of the recorded run and of the replay: memories and contents of the slots agree after each step, iteration and run; composed with C23 (log files) and C52 (no panic); runs ended by an error or a shutdown reduce to the iterations before; negation witnesses (accessor, clock, aborted iterations) |
| C59 | the run of C23 killed after any operation on its log; the files are read by the model of the IO reader until it ends, and dumped | refinement: the operations on streams are operations on sections (C07), of which all but the last of each type are closed and not empty; the reader stops at the first open section or at the first slab not truncated; negation witness for a text log section kept open in an earlier slab |
| C60 | `UnifiedLogConc`: a call of `log` is two actions, the encoding outside the lock and, if there was no room, the rest under the lock; the actions of the streams interleave | invariant over interleavings: the object of a waiting call is still owed to its type; refinement to the sections of C07 for kills |
| C61 | `LogRuntime`: the global writer, its lock and its clock; a call of `log` is two actions, reading the clock and handing over the entry; loggers are set up and dropped at any time; a destination may record, refuse or panic | invariant over interleavings: the calls of a thread are what it handed over and its call under way; cut lemma for real time order; composition with C60 and C31; negation witnesses for the order of times, for two loggers and for a panic |
| C62 | `AllocCounter`: an allocation is two actions, the system allocator and the counter; scoped counters read the totals | counters = sums over the calls that ended; invariant: totals, blocks and calls under way balance; negation witnesses for other threads and for `reset` |
| C63 | `Params`: values of `ron`, the conversions from and to them, parameters of a node | last write wins, by induction over the sets; exactness = range of the type; negation witnesses for truncation and for panics |
| C64 | `Spatial`: poses as matrices of numbers, the types of faer, nalgebra and glam, the pose of a tag | equality of the actions on points over the rationals; negation witnesses for the transposed rotations and the default pose |
| C65 | `Payloads`: the codecs of the payloads of the components | round trips; negation witnesses for reflectivity and for readings as dynamic values |
| C66 | `MspResponses`: the commands, the kinds of responses, packets to responses and back, for any packed structures | decision logic over all commands; negation for every response made into a packet |
| C67 | `Tags`: the loop over the results of the detector, the filter, the serde of the message | induction over the detections; round trip through dynamic values; negation for more than 16 tags |
| C68 | `VideoSource`: the ring, and any history of arrivals and calls | refinement to numbered arrivals; negation witness for the time of an empty message |
| C69 | `Devices`: interrupts of the encoder, the pin, the registers of the sensor | induction over the edges; arithmetic over the rationals; negation witnesses |
| C70 | `ConsoleMon`: the statistics, the statuses, the answers to errors, the kinds of nodes, the pools, the debug pane | induction over the events against the lists of latencies and the last statuses; negation witnesses |
| C71 | `FreshList`: zeroed copper lists on the model of the runtime | induction over the plan of an iteration; negations: a quiet task repeats its message, zeroes may be a payload |
| C72 | `Camera`: the source, its buffers, the queues of the kernel, the holders of images | refinement to a queue of frames by induction over the events; no panic while frames come; opening and dropping the stream for all answers of the device; negation witnesses |
| C73 | `Bridge`: one sink, any number of sources, the buffer of each subscriber | induction over the events: taken messages are a sublist of those sent, all of them while no more than the buffer wait; negations |
| C74 | `PyView`: the conversion of values, the time, the iterator, Python's dictionaries | mutual induction: conversion is injective on values of a type; arithmetic of the time; streams of entries; negation witnesses |
| C75 | `Velodyne`: configuration, `process`, the player | induction over points and packets; negations |
| C76 | `SlabFiles`: names of files, the directory, writing, finding and opening them, the builder | names are injective on numbers (digits); the search stops at the first missing number; composition with the proofs of `UnifiedLogRead`; negation witnesses |
| C77 | `AlignedBuffer`: bytes of memory, blocks in use, any allocator that keeps its contract | refinement to independent arrays by induction over the operations; negation witnesses |
| C78 | `Render`: the text written for the drawing program | the text is parsed back by a small specification of the parts used; with the parameters as values, each line is read back (`ShowParam`); negation witnesses |
| C79 | `Launch`: what is compiled from the configuration, the builder, `new`, `CuRuntime::new`; components are functions | induction over the tasks; the plan is read off the graph; negation witnesses |
| C80 | `Launch` with `UnifiedLog`: `basic_copper_setup`, the section of copper lists | a section is given exactly if it fits (invariant of the log); negation witnesses |
| C81 | `UnifiedLog`, `UnifiedLogConc`, without the restriction of C01 and C60 to one stream per type | invariant: the sections in order with the stream and the objects each holds; induction over interleavings; negation witnesses |
| C82 | `Monitoring`, `Quantile` | cumulative counts of buckets against ranks of samples; Cauchy-Schwarz for the deviation (over the reals) |
| C83 | `UnifiedLog`, `UnifiedLogCrash`, `PowerCut` | bytes below the flushed offset never change and are on the disk (induction over histories); the disk then holds the layout of the closed sections, which the reader's theorem reads |
| C84 | `Fp`, `PidFp` | rounding is monotone and exact on representable numbers; a clamped value is within its limits or NaN; invariant over histories: the sum of errors saturates below 2^45 because rounding absorbs further terms |
| C85 | `Fp`, `MotorFp` | error of rounding `1 - dz`; monotonicity of rounding; exact conversion to `f64`; induction over the commands |
| C86 | `Fp`, `ReadingsFp` | bounds on the errors of chains of roundings (`Proofs/FpErr`), smaller than half a step of the reading; negation witnesses |
| C87 | `Fp`, `ShowTime` | errors of two roundings and of the decimal; rounding is monotone and exact at the boundaries of the units; a reader of the text as specification |
| C88 | `BalanceBot` on `Runtime`, `Planner`, `FreshList`, `PidFp`, `MotorFp`, `Ads7883` | the generated runtime with the plan computed from the configuration, refined to one function from readings to duty cycles (`drive`); invariant over iterations; negation witnesses evaluated by the kernel |
| C89 | `Runtime`, `Planner` | denotation of a configuration as the solution of recursive equations (`Solution`), existence and uniqueness by the rank of the graph; refinement of the generated loop to it; renaming of tasks; unary non-interference; parallel connections and backward declarations as negation witnesses |
| C90 | `ExampleApps` on `Runtime`, `Planner`, `FreshList`, `Fp`, `Devices` | instances of C89: the recursive equations of the two configurations solved by induction over the turns |
| C91 | `BalanceSim` on `BalanceBot`, `Runtime`, `PidFp`, `ReadingsFp` | refinement of the simulated application to the two controllers by induction over the frames; rounding errors of the readings; the PID's memory of the last frame |
| C92 | `BalanceResim` on `BalanceBot`, `BalanceSim`, `Runtime` and the replay of C58 | the tasks are shown to see only the contents of their messages (`Plays`); one recorded iteration and its replay are synchronised, by induction over the lists; no panic from C52 |
| C93 | `ShowValue` (the text of values) on top of `Intern`, `LogEntry`, `LogRuntime`, `UnifiedLogConc` and `Export` | structural induction over values for the text (prefix-free for values of one shape); composition of C30, C34, C60 and C61 |
| C94 | `UnifiedLogKill`: the stores, file truncations and file creations of every stream operation in program order; a kill keeps the completed ones and the first bytes of the one under way | every stream operation is a sequence of section operations, so that a kill falls in one of them; what a partly written header can decode to; the reader at the end of what is left; decoders that read from the front fail on a cut object; negation witness for a reader that hangs |
| C95 | the reader of `UnifiedLogRead`, on any bytes | a relation saying how section headers chain in files, without the reader; the reader computes it (exact characterisation of its four outcomes, with the fuel shown to suffice); determinism of the chain; a cut log has a beginning of the chain; negation witnesses |
| C96 | the effects on the files of an action of a thread, and the files a kill can leave when several threads perform theirs at once (`Model/UnifiedLogKillConc`) | stores of a thread outside the lock are confined to the free part of its section, apart from every effect of the action under the lock, so they commute with it; what is then in free parts of sections is never delivered; then C94 for the remaining action |
| C97 | the default methods of `Freezable` and its implementations over the models of the tasks (`Model/Freeze`) | induction over the tasks of a snapshot; invariants of the states a task reaches, and a relation between states preserved by the calls; witnesses for the tasks that lose their state |
| C98 | the kernels over buffers of bits, read in words of 64 (`Model/ArrowBool`) | the bits of the words against those of the buffer; a case distinction per slot; witnesses for `and_not` on slices |
| C99 | the accumulators, the lanes and the loops over words of validity (`Model/ArrowAggregate`) | an accumulator that is a commutative monoid gives the total of the picked values whatever the lanes; induction over chunks of 64 and over the tree of the reduction; witnesses for the shift that overflows, for NaN and for sums of floating point numbers |
| C100 | the kernels as loops over indices (`Model/ArrowArity`) | the loop over the valid indices against the list of results slot by slot; the union of nulls bit by bit; witnesses for dictionaries |
| C101 | sequences of calls on applications whose streams are opened and dropped in turn (`Spec/Session`) | induction over the applications: the bytes logged, the streams open, whether the last one is still unused; C01 and the byte stream reader of C05 for histories in which streams are reopened; witness for an application that logged nothing |
| C102 | the three programs on the model of the generated runtime (`Model/OneShot`), `stats` of the log | C89 for the template; evaluation of one iteration with an arbitrary clock; the sections of the setup and of the start, for an arbitrary page size |
| C103 | `decimal_op`, `neg` of decimals and the fixed point products over the kernels of C100 (`Model/ArrowDecimal`); numbers as rationals in the specification | the factors are the powers of ten between the scales; element by element over the rationals; witnesses for what wraps or saturates |
| C104 | `date_part` over all its types and parts, the calendar of `chrono` as documented (`Model/ArrowParts`); in the specification a calendar is any function with the right first day and the right next day | the date of a day by years that begin in March; that calendar is the only one; parts from the exact nanoseconds; slot by slot |
| C105 | `arithmetic_op` on dates, timestamps, durations and intervals, `neg` of them, `float_op` (`Model/ArrowTime`); moving a date by an interval is a parameter | a table of outcomes for all pairs of types in the specification; each kernel against it slot by slot, by the lemmas of C100 through the injections of the element types |
| C106 | `SimpleFileWriter` over a buffer and a file whose writes follow any plan, a kill among them (`Model/LogFile`) | file and buffer together are what was logged, by induction over the calls; a part of a stream of entries read as in C94; a witness for a write that fails |
| C107 | `RobotClock` over a counter and the value published for cheap readings (`Model/Clock`) | arithmetic; witnesses for a start beyond the counter and for a value never published |
| C108 | host and device memory as two worlds of pools and handles (`Model/CudaPool`), operations with the answers of the driver | refinement of an abstract pair of worlds, reusing the invariant of C38; stability of device buffers along histories; witnesses for the stale rest, the panics and the missing statistics |
| C109 | threads, the bounded channel and the thread of the user interface as moves (`Model/DebugPane`) | invariant on what is in the pane, in the channel, lost and printed; schedules built for a full channel and a round that does not end |
| C110 | the composition of the models of C94 (a killed process) and C58 (a replay) | the lists found are those of an undisturbed run of as many iterations (`Proofs/KilledReplay`), then C94 and C58 |
| C111 | the composition of the models of C94 (a killed process) and C101 (applications one after the other) | the lists whose calls were made are the first of the session (`Proofs/KilledSession`), then `log_kill`, which now holds whatever streams were dropped before |
| C112 | the reader of C13 and the export of C61 on files other than those that were written: `Spot` (where the content of a section is), `DamagedIn`, `DamagedFrom` (`Spec/Damage`) | the files hold a layout of sections (`Holds`); changed content is the layout with other content (`relay`), files changed from a header on agree with the layout in front of it (`Proofs/Damage`, `Proofs/DamageRead`); violated: there is no checksum, the export stops at the first object that does not decode, one byte of a header hides all that follows or makes the reader loop |
| C113 | `LogEntry.decodeMem` (the decoder of entries with the memory `SmallVec::with_capacity` asks for), `textLoop` (`textlog_dump`) in `Model/TextDumpMem` | induction over the entries; the decoder agrees with the one of C31 unless it panics; the panics are characterised; violated: the room for as many parameters as the data says is asked for before any is read, and an index outside the table panics |
| C114 | `PoweredThreads` (threads, and what is on the disk behind the maps) in `Model/PowerThreads`, with the effects of threads of C96 and the disk of C83 | the effects of threads spare what was flushed; sections only grow; a section left by its stream with all before it closed is flushed; then the reader of damaged files of C112; violated: a stream that stays in the first section keeps everything else from being flushed |
| C115 | `MDec` (decoders with the memory they ask for), `clMem` (copper lists), `listLoop` (`copperlists_dump`) in `Model/ListDumpMem` | the decoder agrees with the one of C23 unless it panics; an exact characterisation of the panics by what the data say; induction over the lists; violated: the room for a status or an image is made from a length that nothing bounds |
| C116 | `Format`, `Command`, `runCli` (`run_cli`), `listsRun`, `textRun`, `pull` (the byte stream with how it stops) in `Model/LogReader` | the stream of a closed log from C03/C112, the decoders of C113 and C115, induction over lists and entries; what success implies for any log; violated: the format is ignored, and an export cut short by an error ends with success |
| C117 | the bit patterns of `f32` (`Model/FpBits`), the codecs of the robot's payloads (`Model/BalanceWire`), on top of C88, C92 and C94 | an invariant of any application (`Keeps`: what its tasks leave in a message is of the type of its slot) carried through the runtime, the pool and the log; the numbers of the PIDs stay single precision numbers, which their bits determine; the kill of C94; the resimulation of C92 for the run stopped where the log ends; after a power failure (`Props/BalancePower`) the lists of C114 instead of those of C94, and the resimulation of what follows them on the disk only adds; partial: how much is found, as in C94, and what C114 leaves open |
| C118 | the model of the runtime; requirements as a predicate on the message of each slot (`Spec/TypedRun`) | an invariant on the events of a run, the messages in the pool and the state, through every step of the runtime (`Proofs/TypedRun`); negation: what a failed task left is logged when the monitor aborts the list |
| C119 | `Model/MspRc` on top of C56: the setters, the numbers of channels and ports, the texts of baud rates | induction over the settings, the round trip of C56; the text and number conversions by cases of their chains; negation: throttle and yaw are numbered differently in `MspRcChannel` and `MspRc` |
| C120 | `Model/Runtime` with and without a simulation (`Spec/StandIn`) | one simulation relation (same state, same pool, same events but those left out) carried through every function from `lifeStep` to `run`; negations: a decision to abort, a clock that goes on while tasks work |
| C121 | the composition of the models of C114 (power failures) and C58 (a replay) | the lists of the calls that had returned are the first of what is found (C114), they are those of an undisturbed run of as many iterations (`Proofs/KilledReplay`), a replay of a longer list goes through that of its beginning, then C58 |
| C122 | the loop of the generated code with a callback (`Model/Runtime`), machines for the callback and the task behind it together (`Spec/Simulated`) | the proofs of C89 need only that each step behaves as a machine (`Behaves`), shown here of simulated steps; solutions of two systems of equations that agree on the sensors agree on what is behind them, by rank and turn |
| C123 | the models of C58 (a replay) and C89 (what a configuration describes), with the machines of C122 | each turn of a replay is a simulated turn whose sensors are the list that is replayed (`Proofs/WhatIf.replay_simulates`), `iteration_view` of C89 for it, induction over the lists; two solutions agree on all that no changed task reaches, by induction over turns and ranks; after a kill or a power failure (`Props/WhatIfKilled`) with C94 and C114, which say what lists are found |
| C124 | the conversions of images, reads beyond the buffer being a value `outside` (`Model/ImageViews`) | arithmetic on rows and columns; the violations by computation or for all images of a kind |
| C125 | the `new` of every component that reads parameters, on any configuration, what can be opened being a parameter (`Model/ComponentNew`) | by cases on what the configuration gives; the controllers and the motor of the balancing robot are those of C88 by computation |
| C126 | the calls of the servo driver over a line, what arrives in consequence of a frame being a parameter (`Model/ServoBus`, on the frames of C45 and the conversions of C86) | a frame as the specification has it is what is sent and what is read; one question leaves nothing on the line, induction over the questions; negation witnesses |
| C127 | the table of latencies as the texts in its columns (`Model/ConsoleTables`), on the statistics of C70 and C82 and the texts of C87; the texts of the table of pools (`Model/PoolTable`) | the invariant of C70 over histories; the length of the text of a duration from the monotonicity of rounding; the lower end of a bucket is never just below a second; the deviation is at most the largest median; megabytes are exact in `f64` below 2^53 bytes, so that only the decimal is rounded; runs of the generated loop by induction over the iterations, with C24 (`Props/ConsoleRun`); negation witnesses |
| C128 | the interface of the console as a screen next to the monitor of C70 (`Model/ConsoleKeys`): calls, drawings, keys and failures in any order | the monitor is what the history of calls, seen drawings and resets makes of it, by induction on the history; then C70; the flag of quitting by induction; negation witnesses |

## What is modelled, what is not

| code | model | not modelled |
|------|-------|--------------|
| bincode wire format | `Model/Bincode` | decode limits; the value of a u16/u32/u64 is accepted in non-minimal form as in the crate |
| core/cu29_clock | `Model/Clock` | raw counters (`rtsc`), serde, float conversions |
| cu29_runtime/copperlist.rs | `Model/CopperList`, `CopperListOps` | allocation of the buffer (its zeroes: `Model/FreshList`) |
| cu29_runtime/curuntime.rs | `Model/EndOfProcessing`, `Model/Planner` | construction of the tasks, graphviz |
| codec of copper lists and messages (copperlist.rs, cutask.rs, cu29_derive tuple) | `Model/Wire` | payload codecs are parameters |
| core/cu29_unifiedlog/lib.rs | `Model/UnifiedLog`, `Model/UnifiedLogRead` | mmap/`msync` calls (a flush is the bookkeeping of the flushed prefix), file naming, `stats`, mutex poisoning; addresses are (slab, offset) pairs; `align_to_next_page` as rounding up, equal to the mask for powers of two |
| same, several threads | `Model/UnifiedLogConc` | each part of a call is atomic (outside the lock it only touches the section of its stream, C02); at most one live stream per type; mutex poisoning; weak memory is not modelled (the file is read after the threads are joined) |
| same, crash inside an operation | `Model/UnifiedLogCrash` | the process stops, the machine does not: stores reach the file in program order, each byte of the store under way is old or new; `set_len` and file creation are atomic |
| core/cu29_value/lib.rs, bincode_impl.rs | `Model/Value`, `Model/BincodeText` | serde conversions, `Display` of the leaf values, float arithmetic (floats are bit patterns) |
| core/cu29_log, cu29_log_runtime, cu29_log_derive/lib.rs | `Model/LogEntry` | macro token handling, format specifiers of strfmt |
| core/cu29_log_runtime/lib.rs, global writer | `Model/LogRuntime` | two threads that race for the first `init`; the extra text logger of debug builds (its lines are in C34); `SimpleFileWriter` and its buffering (a destination that records) |
| core/cu29_log_derive/index.rs, cu29_intern_strs | `Model/Intern` | call sites, LMDB map size |
| core/cu29_export/lib.rs (`copperlists_dump`, `textlog_dump`) | `Model/Export` | command line (Python bindings are in `Model/PyView`) |
| cu29_runtime/payload.rs (`CuArray`), cu_apriltag (`CuArrayVec`) | `Model/Payload` | serde; the element type is a codec |
| core/cu29_soa_derive/lib.rs (generated container) | `Model/Soa` | token generation; all fields share one type `V`, the record is a list of `V` |
| cu_sensor_payloads/pointcloud.rs (`sort`) | `Model/PointCloud` | float arithmetic of units; stack depth of the recursion |
| core/cu29_runtime/pool.rs | `Model/Pool` | mutex poisoning (a panic ends the history), replacing the `CuHandleInner` of a handle by hand, order of the statistics |
| cu_sensor_payloads/image.rs | `Model/Image` | conversions to other image crates |
| cu29_runtime/config.rs | `Model/Config` | the RON text (a text is the tree it denotes), parameter values of tasks (opaque), removal of tasks through the public graph |
| cu29_derive/utils.rs (identifiers) | `Model/Ident` | names with characters outside ASCII |
| cu29_runtime/monitoring.rs (statistics) | `Model/Monitoring` | percentiles, standard deviation, floating point rounding of the mean, saturation of counters |
| same, allocation counters | `Model/AllocCounter` | a failed system allocation; the two stores of `reset` are one action; memory orders (all are sequentially consistent) |
| cu29_runtime/config.rs (parameters) | `Model/Params` | the hash map (a list of entries); the kinds of `ron` values that no parameter can be read as are one; conversions of integers to floats (a parameter); `Display` |
| cu_spatial_payloads/lib.rs, cu_apriltag/lib.rs (poses) | `Model/Spatial` | rounding (`as f32`, quaternions of nalgebra: they leave rotations as they are); `translation` and `rotation` with units |
| payloads of cu_sensor_payloads, cu_spatial_payloads, cu_wt901, cu_apriltag, cu_lewansoul, cu_pid, cu_rp_encoder, cu_rp_gpio, cu_rp_sn754410, cu_ads7883, cu_gstreamer, cu_msp_sink | `Model/Payloads` | the arithmetic of units (the conversion from percent is a parameter); serde of the detections |
| cu_msp_lib/structs.rs (responses), commands.rs | `Model/MspResponses` | the fields of the structures (any packing) |
| cu_apriltag/lib.rs (task, filter, serde) | `Model/Tags` | the detector (any list of results); the image handed to it; `new` |
| cu_gstreamer/cu_gstreamer_impl.rs | `Model/VideoSource` | gstreamer itself: frames arrive at any time |
| cu_rp_encoder, cu_rp_gpio, cu_wt901 (lib.rs) | `Model/Devices` | pins, bus; rounding of f32 |
| cu_consolemon (lib.rs, debug_pane.rs) | `Model/ConsoleMon` | drawing on the terminal, keys other than reset and quit, system information |
| copperlist.rs `new` (zeroed buffer) | `Model/FreshList` | how rustc lays out types: a parameter of the theorems |
| cu_v4l (lib.rs, v4lstream.rs) | `Model/Camera` | failures of the ioctls that set the format, the negotiation beyond size and pixel format, times beyond an `i64` |
| cu_iceoryx2_sink, cu_iceoryx2_src | `Model/Bridge` | several sinks on a service, failures of iceoryx2, payloads with pointers (not valid in another process) |
| cu29_export lib.rs (python) | `Model/PyView` | opening of files (`Model/UnifiedLogRead`, `Model/Intern`) |
| cu_vlp16, cu_udp_inject | `Model/Velodyne` | decoding of packets by `velodyne_lidar`, failures to open a capture or to send |
| core/cu29_unifiedlog file names and builder | `Model/SlabFiles` | errors of the file system (a panic in `make_slab_file`), several processes on one directory |
| core/cu29_runtime/pool.rs `AlignedBuffer` | `Model/AlignedBuffer` | that fresh memory is uninitialised for the compiler |
| core/cu29_runtime/config.rs `render`, `Display for Value` | `Model/Render`, `Model/ShowParam` | the drawing program itself, order of the parameters, text of floats and of values that no parameter can be read as |
| core/cu29_derive start of an application, builder, `sim_mode` placeholders; cu29_helpers | `Model/Launch` | the generated code of the run itself (in `Model/Runtime`), the text logger of the helper |
| cu29_unifiedlog: disk behind the maps | `PowerCut` | write-back of arbitrary bytes at any time, flushes done or not; creation and sizes of files are taken to be durable |
| arithmetic of f32 and f64 | `Model/Fp` | signed zeros (one zero, positive in a division); NaN payloads; operations other than + - * /, comparisons, clamp and conversions |
| cu_pid/lib.rs in single precision | `Model/PidFp` | as `Model/Pid`, every operation rounded |
| cu_rp_sn754410/lib.rs in single precision | `Model/MotorFp` | requests to the outputs succeed |
| conversions of readings in single precision | `Model/ReadingsFp` | unit constructors of uom |
| cu29_clock `Display for CuDuration` | `Model/ShowTime` | - |
| examples/cu_rp_balancebot main.rs, tasks.rs, copperconfig.ron | `Model/BalanceBot` | sim.rs, resim.rs, world.rs; the GPIO interrupts and devices (inputs of the model); the texts of statuses (a parameter) |
| examples/cu_multisources, examples/cu_caterpillar: tasks.rs, main.rs, copperconfig.ron | `Model/ExampleApps` | the set up of the log; the mock of the pins; freezing of the source |
| examples/cu_rp_balancebot/src/sim.rs: the callbacks and the frame system | `Model/BalanceSim` | the physics engine and the world (a frame is any time, yaw and position); how long a force applied to the cart persists; the exit handler |
| examples/cu_rp_balancebot/src/resim.rs | `Model/BalanceResim` | printing the lists; stopping the tasks at the end; reading the lists from the files is C23/C58 |
| core/cu29_value/src/lib.rs, `Display` | `Model/ShowValue` | the text of floats is a parameter without braces and brackets |
| core/cu29_unifiedlog/src/lib.rs:64-134, effects in program order | `Model/UnifiedLogKill` | the bytes of a store reach the memory map in the order of their addresses; `set_len` and the creation of a file are atomic; one thread |
| core/cu29_unifiedlog/src/lib.rs:560-683 on arbitrary files | `Model/UnifiedLogRead` | empty files can be mapped |
| core/cu29_unifiedlog/src/lib.rs:55-134, actions of several threads under way at once | `Model/UnifiedLogKillConc` | a store is made from its first byte to its last; threads other than the one with the lock are in the part of `log` before the lock |
| core/cu29_runtime/src/cutask.rs:176-192 and the implementations of `Freezable` | `Model/Freeze` | nothing in the code calls them; the encodings of floating point numbers in the PID task and the motor are arbitrary |
| patches/arrow-arith/src/boolean.rs | `Model/ArrowBool` | the operations on buffers of `arrow-buffer` (`bitwise_bin_op_helper`, `BitChunks`, `BooleanBuffer`, `NullBuffer`) as documented there |
| patches/arrow-arith/src/aggregate.rs | `Model/ArrowAggregate` | the arithmetic of the element types (`ArrowNativeTypeOp`) is a parameter; the arrays of views and of dictionaries are the list of what their slots stand for |
| patches/arrow-arith/src/arity.rs, bitwise.rs, numeric.rs (integers) | `Model/ArrowArity` | the arithmetic of the elements (`ArrowNativeTypeOp`) as documented: checked, wrapping; decimals, dates and intervals, floats of numeric.rs are in the models below |
| examples/cu_config_variation/src/main.rs | `Spec/Session` | any number of applications instead of two; the configurations and the tasks are arbitrary |
| templates/cu_full/src/{main,tasks}.rs, examples/cu_monitoring/src/main.rs, examples/cu_logging_size/src/main.rs | `Model/OneShot` | text lines are not logged; the monitor of cu_monitoring only prints |
| patches/arrow-arith/src/numeric.rs `decimal_op`, `neg` of decimals; patches/arrow-arith/src/arithmetic.rs | `Model/ArrowDecimal` | texts of errors are not modelled; `multiply_fixed_point_dyn` (a downcast) is not |
| patches/arrow-arith/src/temporal.rs | `Model/ArrowParts` | the deprecated functions of one part each call `date_part`; texts of errors are not modelled, and an error of the parser of zones has the kind of the others |
| patches/arrow-arith/src/numeric.rs: `timestamp_op`, `date_op`, `duration_op`, `interval_op`, `float_op` | `Model/ArrowTime` | what moves a date or a timestamp by an interval is in `arrow-array`, a parameter here; floats are any type with operations |
| core/cu29_log_runtime/src/lib.rs: `SimpleFileWriter`, `OwningIoWriter` | `Model/LogFile` | `BufWriter` and `File` from the standard library; opening the file is not modelled, it is empty at first |
| core/cu29_clock/src/lib.rs: `RobotClock::new`, `from_ref_time`, `recent` | `Model/Clock` | the counter and what is published are values of `quanta` |
| core/cu29_runtime/src/pool.rs: module `cuda` | `Model/CudaPool` | what kernels compute, several devices and streams, poisoned locks after a panic |
| components/monitors/cu_consolemon/src/debug_pane.rs, lib.rs:613-624, 655-727, 778-803 | `Model/DebugPane` | messages of several rows or wider than the terminal, the redirection of the standard error (`gag`), what else is drawn |
| cu29_log/src/lib.rs:58-84 (again, with memory), cu29_export/src/lib.rs:116-149 as one loop | `Model/TextDumpMem` | the memory that bincode's own decoders ask for within a value |
| cu29_unifiedlog/src/lib.rs:55-134, 235-274 with several threads and the disk | `Model/PowerThreads` | files other than those of the log, file system metadata |
| cutask.rs:82-89, 97-136, copperlist.rs:46-51, image.rs:38-51 (again, with memory), cu29_export/src/lib.rs:85-109 as one loop | `Model/ListDumpMem` | vectors of elements larger than a byte in payloads; an allocator that fails |
| cu29_export/src/lib.rs:11-82 (and 85-149 again, with what is printed), templates/cu_full/src/logreader.rs:10-13 | `Model/LogReader` | the parsing of the command line (clap); the texts of errors and of `{:#?}`, which are parameters |
| cu_ads7883/src/lib.rs:39-48, cu_rp_encoder/src/lib.rs:38-41, cu_pid/src/lib.rs:9-19, cu_rp_sn754410/src/lib.rs:25-28 (derived codecs) | `Model/BalanceWire`, `Model/FpBits` | the sign of a zero and the payload of a NaN |
| cu_msp_lib/structs.rs:336-363, 640-757, 895-943, 956-966 | `Model/MspRc` | the channels Aux5 to Aux16 of `MspRcChannel`, which have no setter |
| cu_sensor_payloads/image.rs:70-117, cu_apriltag/lib.rs:211-228 | `Model/ImageViews` |
| `new` of cu_pid, cu_aligner, cu_dynthreshold, cu_lewansoul, cu_msp_sink, cu_msp_src, cu_ads7883, cu_rp_gpio, cu_rp_encoder, cu_rp_sn754410, cu_iceoryx2_sink, cu_iceoryx2_src, cu_gstreamer, cu_hesai, cu_livox, cu_v4l | `Model/ComponentNew` |
| components/sinks/cu_lewansoul `reassign_servo_id` to `ping` | `Model/ServoBus` |
| components/monitors/cu_consolemon `draw_latency_table`, `draw_memory_pools` | `Model/ConsoleTables`, `Model/PoolTable` |
| components/monitors/cu_consolemon `run_app`, `draw`, `start` | `Model/ConsoleKeys` | scrolling, resizing, what is drawn of the system information; leaving the loop and setting the flag are one action |
| cu_msp_lib/lib.rs | `Model/Msp` | - |
| cu_msp_src, cu_msp_sink, cu_msp_lib/structs.rs (requests, responses) | `Model/MspTasks` | fields of the response structures, failures of serial writes, the serial port |
| cu_lewansoul/lib.rs (framing) | `Model/Lewansoul` | the serial port (an exchange is a list of bytes), `process` (`todo!()`), the angle conversions |
| cu_dynthreshold_impl.rs | `Model/DynThreshold` | exhaustion of the pool (an error), the fields of the image besides its bytes |
| cu_pid/lib.rs | `Model/Pid` | floating point rounding: gains, limits and measurements are rationals, NaN is an absent value |
| cu_ads7883/lib.rs | `Model/Ads7883` | the SPI device (a transfer is two bytes), conversion of sensor errors |
| cu_rp_sn754410/lib.rs | `Model/Sn754410` | rounding of f32; a PWM request may fail at any point |
| cu_aligner/buffers.rs, lib.rs | `Model/Aligner` | parsing of the configuration; all streams share one payload type |
| cu_livox/parser.rs, lib.rs; cu_hesai/parser.rs, lib.rs | `Model/Lidar` | conversion of the integers of a point to lengths and ratios in floating point; sockets |
| core/cu29_value/ser.rs, de.rs | `Model/ValueSerde` | error messages (an error is `none`), conversions between integers and floats (a parameter), the collection of map entries with equal keys, 128 bit integers (refused by the serializer) |
| cu_rp_balancebot/resim.rs | `Model/Replay`, for any application | the code of the sink's stand-in (a parameter), the printing of the lists |
| cu29_derive/lib.rs (generated loop) | `Model/Runtime` | token generation itself; panics inside tasks; `sim_mode` placeholders are in `Model/Launch` |

## Findings: properties the code does not have

Each is proved as a `_violated` theorem with a concrete witness.

* C05: an empty section (a stream dropped without logging, then another one of the same type) is
  taken for the end of the data by the byte stream reader.
* C07: after a crash, an open section (or a slab not collected yet) hides every section of the later
  slabs, closed or not: the unused end of its slab is not cut and the reader stops there with an
  error.
* C01, outside its quantifier: page sizes from 64 KiB on are truncated in the file header; a section
  of 4 GiB or more is truncated in its header (a size of 0 makes the reader loop forever).
* C08-C10: see the notes in MANIFEST.json.
* C11: two lists in flight that finish out of order are logged newest first.
* C12: an iteration ended by `Shutdown` (or by an error of the monitor) keeps its slot; after N of
  them the next iteration panics.
* C16: parallel connections or several message types leaving a task.
* C17: cycles are dropped silently; an isolated task makes the planner panic.
* C24: accessors and collected metadata use the call order permutation where its inverse is
  needed: wrong unless the permutation is its own inverse.
* C52: a debug build panics in the first iteration if the last task called is declared before the
  first one (end to end latency underflow).
* C53: an aborted iteration logs messages of earlier iterations in the slots of the tasks that did
  not run.
* C30: lookup and insertion are separate transactions: two compilers racing on one string give it
  two indices. The empty string and strings above 511 bytes (LMDB key sizes) panic the macro.
* C32: the borrowing decoder of dynamic values uses another tag table than the encoder; only
  characters and strings agree.
* C36: the encoder of a structure-of-arrays container writes the length and then one slice per field
  (each with its own length), the decoder reads the length and the elements only. Decoding a
  container longer than the capacity panics.
* C37: `sort` sorts all the slots, used or not (points of a cloud that is not full are lost), does
  not move the return order, and panics for capacity 0.
* C38: a pool of size 0 panics when made. A buffer is counted as in use until its drop has finished:
  a thread can fail to acquire just after another one dropped the last handle.
* C39: replacing a task by one with another name (`get_node_mut`) leaves the old name in its
  connections; the text written then cannot be read back. With two tasks of one name a connection
  moves to the first of them.
* C40: a configuration given by the program (`config_override`) is never validated. The slab size of
  a configuration is used by the validation only: the logger takes its own.
* C41: names that differ in punctuation, in case or in the place of capitals share an identifier;
  `v_1_2` and `v_12` share an enum entry although not a member name.
* C42: figures are those of histogram buckets: exact below 2048 ns only, else within one part in
  1024. A sample out of reach of the bound panics (durations) or is dropped (`LiveStatistics`); a
  bound below 2 panics.
* C43, outside its quantifier: version 1 silently truncates commands and lengths from 256 on. A stray
  start marker just before a frame loses the frame (`C43_marker`).
* C44: an altered length byte can deliver a packet that was never sent, in both versions.
* C55: the source stops reading its buffer with the sixteenth packet, the rest is lost; a correct frame
  with a command code that is not listed or with too little data panics. Not modelled: `to_bytes` of a
  response packs into an empty slice and its caller unwraps the error, so turning a response into a
  packet always panics.
* C45: a length byte of at most 2 panics `read_response`; `ping` panics on a correct frame without data; an
  altered length can deliver a frame never sent; a wrong header byte loses the next frame as well; from
  253 data bytes on the frame sent is wrong (or its length overflows).
* C46: the integral image is summed in 32 bits: a bright image of more than 16.8 million pixels panics; so
  does a radius of 0 or of 2^31 and more.
* C48: a thawed controller takes the next measurement as its first (no output until the next one); two
  messages with one time and no sampling period make the output NaN; the first interval is counted with an
  extra sampling period; a message older than the last one panics in debug builds.
* C49: the filter can stay one below a constant input for ever; its state is not frozen.
* C50: backward power is scaled by 1 + deadzone instead of 1 - deadzone and exceeds full scale; after a gap in
  the input (the motor is stopped), a failed request or a thaw, the same command is taken for applied
  and skipped.
* C47: the output of a fresh message has no payload and the first aligned data panic; a debug build panics
  (a release build forgets everything) while the clock is behind the horizon, and for a window that starts
  before 0; a message without time takes its stream out of the count; a message with a time and no payload
  panics; a message that arrives late stays behind the horizon. Without aligned data the output
  is left as found.
* C51: a datagram of no byte (Livox) or of at most one (Hesai) panics. Hesai times: all blocks get the time of the
  sixth, the channels are one slot early, one return is taken for two and two for one. A packet
  from before the reference, or in the first 0.3 ms, panics a debug build. Livox: the message carries no
  time and its points the time of the device. On an error the message keeps an empty cloud.
* C57: a copy of a dynamic value turns times into numbers, and may merge two keys of a map; `to_value` of
  a dynamic value wraps it instead of returning it; a sequence too long for a tuple is cut without an error.
  `to_value` refuses 128 bit integers, on which the logging macros panic (`expect`).
* C61: the time of a line is read before the lock is taken, so lines of different threads that overlap may be
  recorded in the wrong order (`C61_order_violated`). A second `LoggerRuntime` keeps the clock of the first,
  and dropping the first one cuts the log of the second (`C61_two_loggers_violated`). A line larger than a
  section panics its thread while it holds the lock; from then on every `debug!` of every thread panics
  (`C61_panic_violated`).
* C62: a scoped allocation counter counts the allocations of all threads, not those of its scope
  (`C62_threads_violated`); a `reset` while it is in use makes it, and its drop, panic in a debug build
  (`C62_reset_violated`).
* C63: an integer parameter that does not fit the type asked for is truncated without a word (pin 300 is
  pin 44, a period of -1 is 4294967295, `C63_truncated_violated`); a parameter of another kind, such as
  `10.0` for an integer, panics the start of the application (`C63_kind_violated`).
* C64: the conversions from and to glam take rows for columns: the rotation is inverted
  (`C64_glam_violated`). The pose of a tag takes the row-major data of the estimate by columns, with the
  same effect, and leaves its last row 0 (`C64_tag_violated`); through glam the two errors cancel
  (`C64_tag_glam`). The default pose is the zero matrix, which sends every point to the origin.
* C65: the reflectivity of a point is divided by 100 each time it is decoded
  (`C65_reflectivity_violated`); readings of the inertial sensor cannot be read back from a dynamic value:
  they are written as a struct and read as an array (`C65_readings_value_violated`), in other units.
* C66: no response can be made into a packet: the structure is packed into the slice of a new empty
  buffer, an error that is unwrapped (`C66_to_packet_violated`). Two kinds of responses are never
  received, their commands give another kind (`C66_shadowed_violated`). A command that is not in the
  list, or a short packet, panics (`C66_panics_partial`).
* C67: more than 16 located tags in an image panic (`C67_many_violated`). (Not modelled: the C image
  structure allocated for each frame by `image_from_cuimage` is never freed.)
* C68: a message without a frame keeps the time of an earlier frame (`C68_stale_time_violated`).
* C69: the count of the encoder overflows: in checked builds the interrupt panics, which poisons the lock,
  and every later iteration panics (`C69_encoder_violated`); the configuration its README gives is refused
  (`C69_readme_violated`). The output pin is low when on, and a message without payload panics
  (`C69_gpio_violated`). The magnetic field is 32768 times too small for the resolution stated beside the
  code (`C69_mag_violated`); readings have no time, bus errors panic (`C69_wt901_violated`).
* C70: the console gives rows the names of tasks by declaration but fills them in the order of calls, mapped
  twice (`C70_names_violated`); an empty status panics (`C70_empty_status_violated`), as does a task of more
  than about 8.6 s (`C70_slow_violated`), and a type name with a long character at the cut
  (`C70_type_violated`); a stop resets the rows of tasks and not that of whole iterations
  (`C70_stop_violated`); the rate of a pool is the change since the last report over the time since the last
  rate (`C70_rate_violated`); after the terminal shrinks the debug pane keeps more lines than fit
  (`C70_pane_violated`).
* C71: a task that succeeds without writing sends its previous message again (`C71_repeats_violated`); in the
  first iteration, if its payload has a layout with unused values, it sends a payload nobody wrote
  (`C71_first_violated`); a message never written has a status of NULs and times of zero
  (`C71_unwritten_violated`).
* C72: a camera that refuses to be stopped, as one in use by another program does, makes `with_buffers` panic in `drop`
  where it was about to report an error (v4lstream.rs:157-173); a timeout above 2^31 - 1 ms is a panic
  (v4lstream.rs:83-85, `C72_open_violated`); the number of buffers granted is ignored (v4lstream.rs:72), and with fewer than
  requested no start succeeds (`C72_granted_violated`).
* C72: after one frame timeout every later call of the camera source fails until it is stopped
  (`C72_timeout_violated`), or panics when the message is not cleared (`C72_timeout_panic_violated`); an empty
  frame after an image, a task keeping one image, or a second start can exhaust the pool, which is a panic
  (`C72_empty_violated`, `C72_keep_violated`, `C72_restart_violated`); the difference of the clocks is added
  where it should be subtracted (`C72_time_violated`); a size the device does not offer is asked for as 0 by 0,
  and stepwise sizes panic (`C72_size_violated`).
* C73: more messages than the subscriber's buffer are lost without an error (`C73_overflow_violated`); with
  nothing new the source sends its old message again (`C73_again_violated`); a message without payload is an
  error of the source (`C73_empty_violated`); the status does not arrive (`C73_status_violated`).
* C74: after the first day, `ts` counts the days twice (`C74_time_violated`); entries whose keys are equal in
  Python are lost (`C74_keys_violated`); a sequence as a key panics (`C74_key_panic_violated`); nested options
  collapse (`C74_options_violated`); an iterator that ended goes on (`C74_ended_violated`).
* C75: a silent lidar, a foreign datagram or dual returns make the Velodyne source panic
  (`C75_unexpected_violated`, `C75_dual_violated`), as does a missing configuration (`C75_config_violated`); it
  does not set the time of its message (`C75_time_violated`); reflectivity is a hundred times too small
  (`C75_reflectivity_violated`); the player keeps the recorded pace only for the second packet
  (`C75_pace_violated`).
* C76: a base name `n` and `.n`, without extension, share their files (`C76_names_violated`); a log killed
  when a file is exactly full is continued, for the reader, by the file of an earlier run (`C76_crash_violated`).
* C77: without overflow checks the number of bytes wraps (`C77_overflow_violated`); an alignment too small for the
  elements is accepted (`C77_alignment_violated`); a buffer without elements asks the allocator for no bytes
  (`C77_zero_violated`).
* C78: type parameters are not shown (`C78_type_violated`); parameters with `<`, `>` or `&` break the text
  (`C78_param_violated`) and names with an entity are shown otherwise (`C78_name_violated`); texts are drawn without
  quotes, so that `"5"` looks like `5` (`C78_kind_violated`).
* C79: a configuration with its tasks in another order gives tasks the parameters of others
  (`C79_order_violated`); with fewer tasks it panics (`C79_fewer_violated`); other types, tasks and connections are
  silently ignored (`C79_ignored_violated`); an error of the monitor is a panic (`C79_monitor_violated`); the cause of
  a component's error is overwritten (`C79_cause_violated`).
* C80: the slab size of the configuration is validated but never used, so that an accepted configuration can panic at
  the start (`C80_validated_violated`); so do large copper lists with the default sizes (`C80_default_violated`).
* C81: objects of different streams of a type are not read in the order of the calls (`C81_order_violated`); a stream
  that has logged nothing hides the later ones from the byte stream reader (`C81_hidden_violated`).
* C82: percentiles are the upper ends of buckets: two samples of 2048 ns have a median of 2049 ns (`C82_exact_violated`).
* C83: a section closed while an earlier one of its slab is open is not flushed; after a power failure its header can be on the disk without its data, and a reader gets zeros that were never logged (`C83_order_violated`).
* C83: all flushes use `flush_async_range`, also when a slab is dropped (lib.rs:237, 268-274), so nothing waits for the disk. If the system has not done the write-back, a log with closed sections cannot be opened (`C83_async_violated`). On Linux `MS_ASYNC` does nothing.
* C84: a NaN measurement passes the safety check (`measure > setpoint + cutoff` is false for NaN): the output is NaN and so is every later one until the task is stopped, because the sum of errors stays NaN (`C84_nan_violated`).
* C85: the power asked for backwards exceeds full scale in single precision as well (`C85_scale_violated`: 1.2 for a dead zone of 0.1).
* C86: an encoder beyond 2^24 ticks stands still for a PID while it turns (`C86_wide_violated`).
* C86: a servo told to go to the position it reports moves: 269 is read as 64.56 degrees, which is converted to 268 (`C86_servo_violated`), because the conversion truncates instead of rounding.
* C86: the voltage of a cell overflows `u8` for 26 cells and more (panic, or 24 V per cell), and is infinite or NaN for none (`C86_cell_violated`).
* C84: an infinite measurement is reported as an error but summed: the following outputs are NaN (`C84_inf_violated`).
* C88: backwards the motor is asked for a duty cycle of up to 1.6 (`C88_scale_violated`): the compensation of the dead zone is not symmetric (see C47).
* C88: after one failed reading of the rod the motor is stopped, but the driver remembers the last power: as long as the PIDs give the same command it is not driven again (`C88_resume_violated`).
* C88: pressing `q` on the console makes the iteration return an error; `main` panics on it in `expect`, `stop_all_tasks` is not called and the motor is left enabled, until it is dropped by the unwinding (`C88_quit_violated`).
* C88: the merger copies the time of validity of the output of the PID, which the PID never sets: in the log the commands of the motor have no time (`C88_tov_violated`).
* C89: two connections between the same tasks with one from a third task between them are delivered in another order than declared (`C89_run_violated`, see C16).
* C89: declared consumers first, a configuration panics in a checked build (`C89_order_violated`, see C52): there the order of declaration matters.
* C90: in the example with two sources the float stops at 16777216 after sixteen million iterations (`C90_sources_violated`), and the integer panics after 2147483605 of them in a checked build (`C90_overflow_violated`).
* C90: in the caterpillar all the pins change in the same iteration: there is no time between the segments.
* C91: pressing `q` in the monitor makes the iteration fail, which `expect` in the simulator turns into a panic: the tasks are not stopped (`C91_quit_violated`).
* C91: a rod moved by the user while the physics is paused has an infinite derivative and gets the full force (`C91_paused_violated`).
* C91: the simulated converter delivers 4096 just before the end of the turn, which 12 bits cannot; a cart whose position is not a number is read as one in the middle (`C91_reading_violated`).
* C92: the resimulation writes the status the simulation would have written in the motor's message, also for a log of the hardware, where there is none (`C92_motor_violated`); the process times are not reproduced, all tasks being called at the time of `balpos` (`C92_times_violated`, the code has a TODO).
* C93: texts are written without quotes, so `["a, b"]` and `["a", "b"]` are printed alike (`C93_texts_violated`); a map without entries is printed `{}`, which takes the value of the next argument, and a map beside a named argument makes the whole line disappear (`C93_map_violated`).
* C94: a process killed between the magic number and the size of a new section header leaves a header of an
  empty section of size 0, on which the reader loops forever (`C94_hang_violated`).
* C95: the reader panics on a file that is shorter than a header and on a section that does not fit in its
  file, and loops on a section of size 0 (`C95_violated`); if the end of a file in the middle is missing, the
  rest can be taken for the whole log (`C95_middle_violated`).
- C97: sources that count (`IntegerSrcTask`, `FloatSrcTask`), the encoder, the converter (whose comment says "This device is stateless"), the aligner and the source of the serial protocol have a state and the empty implementation of `Freezable`: a thawed instance starts from nothing. The PID task does not write `first_run` and `last_tov`, so whatever its configuration a thawed one takes the next measurement for a first one; a thawed motor driver believes that its power is applied and accepts the running command without turning the motor.
- C98: `and_not` (patches/arrow-arith/src/boolean.rs:289-294) passes the offset of the left array for the right one and the reverse, and then reads the result, which starts at bit 0, from the offset of the left one: on slices the result is wrong, and whenever the length is a multiple of 8 and the left offset is not 0 it panics.
- C99: in a build with overflow checks for a machine with vectors of 64 bytes (`avx512f`), every array of one-byte elements that has some nulls and 64 elements or more makes `sum`, `min` and `max` panic: `validity >>= LANES` shifts a word by all its bits (patches/arrow-arith/src/aggregate.rs:248). The documentation of `min` and `max` says that NaN is greater than any other value; a NaN with a negative sign is the least. The sum of floating point numbers depends on the size of the vectors of the machine.
- C100: `try_binary` looks at the nulls an array itself has to decide whether there are any, and at those it means for which they are (patches/arrow-arith/src/arity.rs:364-368): for a dictionary with a null among its values and none among its keys, the operation is applied under nulls and the result is not null. `try_unary_dict` fails for a value of the dictionary that no key stands for. `unary_dyn` panics on a dictionary of another type, of which `try_unary_dyn` reports an error (arity.rs:81, 114, 140); `try_unary_dyn` refuses dictionaries of timestamps with a zone, which `unary_dyn` takes; neither keeps the zone.
- C101: an application that is created and dropped without having logged a copper list leaves an empty section; the byte stream reader takes it for the end of the log (core/cu29_unifiedlog/src/lib.rs:724-728), so the lists of all applications created afterwards are in the log but not in its export.
* C103: adding decimals of a scale below -89 with 38 digits panics in a build that checks for overflow (`C103_violated_panic`); the scale of a product stops at -128, so 10^100 times 10^100 is 10^128 (`C103_violated_product`); the remainder uses a power of ten that wraps around, so 10^10 modulo 5·10^-38 is 3·10^-38 (`C103_violated_remainder`); dividing by a number of 35 or more digits behind the point, or of a negative scale, can be refused although the quotient is small (`C103_violated_division`); a sum of the greatest precision can have a digit more (`C103_violated_digits`); a fixed point product that drops 77 digits gives ten for zero times zero (`C103_violated_fixed`).
* C104: the month of an interval of months leaves out its years, that of an interval of months, days and nanoseconds does not, though its year counts them as well (`C104_violated_months`); a timestamp in seconds with a zone that does not exist is an error for every part but those of the second.
* C105: a date that cannot be moved, being beyond the calendar, panics even if it lies under a null (`C105_violated_null`); timestamps in the same place give an error.
* C106: a call of `log` that fails keeps the first pieces of the entry in the buffer, or in the file (core/cu29_log_runtime/src/lib.rs:199-208, 244-248), and `LoggerRuntime` goes on with the next entry: from there on the log is read from the middle of an entry. In the witness an entry is read that was never logged, and one that was logged and flushed without an error is not (`C106_violated_torn`).
* C107: `from_ref_time` panics for a time beyond the counter of the machine, which starts when the machine does (core/cu29_clock/src/lib.rs:400). `recent` reads what `quanta::Upkeep` publishes, which nothing in the repository starts: it is always 0 (`C107_violated_recent`).
* C108: copying a shorter buffer to a device pool is accepted and leaves the data of the previous user in the rest of the buffer (core/cu29_runtime/src/pool.rs:507-513). A copy panics when no buffer is free, when the source is longer, and always when the source is on the device, since its length is asked through `Deref`, which panics (pool.rs:325). `CuCudaPool::new` does not call `register_pool`: device pools are not in `pools_statistics`.
* C109: a thread that logs waits when a thousand messages are in the channel (components/monitors/cu_consolemon/src/debug_pane.rs:27, 85): up to the 50 ms of a round, or longer. A round (`try_iter`, debug_pane.rs:53) goes on as long as threads log, without drawing or reading keys. Messages in the channel when the user quits are lost. After a resize the pane keeps as many messages as the terminal has rows (lib.rs:713), five more than it shows, and shows the oldest. On a terminal of fewer than five rows `height - 5` (lib.rs:793) overflows and the user interface panics.
- C112: copper lists in intact sections behind a damaged one are delivered by the reader but not exported, because `copperlists_dump` ends at the first error; a changed payload byte is exported as if it had been logged; one changed byte in the header of a section makes everything behind it unreadable (`read_next_section_type` gives an error), and a section size of zero makes it read the same section without end.
- C113: one damaged byte of a text log, the number of names of an entry or the index of its message, makes `textlog_dump` panic; eleven bytes make it ask for any amount of memory (`SmallVec::with_capacity` with a number from the data, cu29_log/src/lib.rs:65-66, 71-72).
- C114: `flush_until` is only called up to the first section in flight. A stream that logs little, like the one of the text log, keeps its first section for the whole run, so nothing else is ever asked to be flushed: a power failure can leave nothing of the copper lists, however many sections were closed (`C114_idle_violated`).
- C115: one damaged byte, the length of a status or of an image, makes `copperlists_dump` panic instead of ending with an error; fifteen bytes make it ask for any amount of memory (cutask.rs:84, image.rs:42).
- C116: `--export-format` only changes the first line printed, every format is `{:#?}` (export lib.rs:66-77); an error of the data or of the reader ends the export of lists and the program still ends with success (lib.rs:89-108); an entry whose index is damaged to zero ends the text with success (lib.rs:121-149).
* C118: when the monitor decides to abort a copper list, the message of the task that failed is logged as that task
  left it, and those of the later tasks as an earlier list left them (`C118_violated`).
* C119: `MspRcChannel` numbers yaw 2 and throttle 3, `MspRc::set_throttle` writes channel 2 and `set_yaw` channel 3
  (`C119_numbers_violated`).
* C120: a step which the callback reports as failed is left without times when the monitor decides to abort, or with those
  of an earlier list in the same slot, while a task that fails has both (`C120_abort_violated`). Both times of a step
  which the callback does are read after it, so it is recorded as taking no time (`C120_duration_violated`).
* C121: nothing is proved of the lists in the sections in use when the power fails; what is found after the others may be
  anything, a replay that goes on with it may panic.
* C122: a callback that answers `ExecutedBySim` for a source without touching the message sends again what an earlier
  iteration left in it (`C122_stale_violated`).
* C124: `as_image_buffer` makes a slice of as many samples as the buffer has bytes (image.rs:85), so with samples of two
  bytes a view reads beyond the end of the buffer (`C124_wide_violated`). Both conversions ask that the stride, in bytes,
  be the width, in pixels, so an image of colors with the stride it needs makes them panic (`C124_color_violated`).
  `as_kornia_image` gives height and width in this order, and compares no length (image.rs:104-114): pixels are elsewhere
  if the crate takes a pair for width and height, and a view of several samples reads beyond the buffer
  (`C124_kornia_violated`). `image_from_cuimage` compares no length either, and decoding an image does not
  (`C124_tags_violated`); the structure it allocates is never freed.
* C125: a setting that is needed and missing is an `expect` in cu_rp_gpio, cu_lewansoul and cu_dynthreshold, and one of
  another kind a panic everywhere (`C125_missing_violated`, `C125_kind_violated`); pins and servo ids are taken modulo 256
  (`C125_range_violated`); servos behind a gap in the numbers are forgotten (`C125_servos_violated`); ports and addresses
  that cannot be used are `unwrap`s in the MSP components and the lidars (`C125_port_violated`); the sizes of the buffers
  of the threshold overflow (`C125_large_violated`); a camera that does not have the size requested is asked for 0 by 0
  (cu_v4l/lib.rs:137-147), a width without a height is ignored (`C125_size_violated`), and cameras with ranges of sizes end
  the program (`C125_stepwise_violated`); misspelt settings are not noticed (`C125_name_violated`).
* C126: neither the id nor the command of a response is compared with those of the question (cu_lewansoul/lib.rs:104-156,
  `C126_any`), so that after one late answer every question gets the answer to the one before (`C126_late_violated`);
  responses with too little data are indexed out of range (`C126_short_violated`).
* C127: a column of the table of latencies keeps the end of a text that is too long (cu_consolemon/lib.rs:431-510): a
  deviation from 999.9995 ms to a second is rounded to `1000.000 ms`, which does not fit in ten characters, and is
  shown as `000.000 ms` (`C127_deviation_violated`); names of tasks with the same last ten characters are shown alike
  (`C127_names_violated`); buffers of less than a kilobyte are shown with `0 KB` (`C127_pools_violated`).
* C128: when an operation on the terminal fails, the thread of the console panics without setting the flag of quitting
  (cu_consolemon/lib.rs:655-665, 811, 825, 830): no iteration ends the run any more (`C128_terminal_violated`).  The
  terminal is in raw mode, and the key Control-C is ignored (`C128_interrupt_violated`).  The console goes on drawing
  after the application stopped (`C128_stop_violated`).  The error with which the monitor ends the run is
  returned before `end_of_processing` (cu29_derive/lib.rs:983-984): the list of the last iteration, whose tasks all ran
  and which the monitor was shown, is not logged (`C128_run_partial`, `C128_last_violated`).
* C59: a kill loses more than the section being filled: lists in closed sections of a later slab are not
  reachable while any other stream keeps a section open in an earlier slab (`C59_violated`), because the
  files of slabs in use are not truncated and the reader fails on the zeros at their end.
* C58: an iteration that the monitor aborts before its list is created leaves no list in the log, but the tasks
  declared before the failing one have already had their `preprocess` call. A replay makes one iteration per list,
  so a task whose memory depends on those calls gives other messages from there on (`C58_violated_abort`).
* C58: with tasks declared in an order for which C24 fails, a replay feeds the sources with messages of other
  tasks (where the types allow it). The clock of a replay is set once per list, so a task that reads the
  clock behaves differently; process times are always those of the replay.
* C34: a parameter text containing `{}` is substituted again by the next parameter; the documented
  mix of named and unnamed parameters under `{}` placeholders cannot be rebuilt; the live line of a
  debug build pairs names with the unnamed parameters; a rebuilt line with named parameters shows
  the time twice in the text dump, one without named parameters once; the text dump
  stops at the first entry whose message index is 0 (never produced by the interner).

## Trusted base

* Lean's kernel; axioms at most `propext`, `Classical.choice`, `Quot.sound`.
* Faithfulness of the hand translation (cited line by line).
* Behaviour of external crates as modelled: bincode (wire format), petgraph (iteration
  order), memmap2/OS (a flushed or unflushed mmap is visible to a later reader after a process
  crash; for the loss of power see `Model/PowerCut`), std collections.
* LMDB/rkv: write transactions are atomic and serialised, a reader sees the last committed state,
  keys have 1 to 511 bytes. strfmt: plain `{name}` placeholders are replaced by their binding, an
  unknown or empty name is an error. object_pool: a stack of
  objects, pulled and pushed atomically; a pulled object is pushed back when dropped. arrayvec: `push` panics when full, `new` panics when the
  capacity does not fit a u32. ordered-float: all NaN equal and greatest, -0 = +0.
* hdrhistogram: as stated in `Model/Monitoring`. convert_case: as stated in `Model/Ident` (the
  theorems hold with and without boundaries between letters and digits). serde/ron: a written tree
  reads back as the same tree, with the rules of derived serializers and `implicit_some`; derived
  `Serialize` and `Deserialize` make the calls listed in `Model/ValueSerde`.
* Mathlib's `linarith`, `ring`, `field_simp` and rational order lemmas in the proofs of C48 and C50 (proofs
  only, checked by the kernel).
* circular_buffer: `push_back` on a full buffer drops the oldest element. bytemuck: a packed structure is the
  sequence of its fields. chrono: proleptic Gregorian calendar, no leap seconds.
* ron: `Number::into_f64` converts the number; a text keeps the numeric value of an integer, not its width.
  faer, nalgebra, glam: entries and axes as in `Model/Spatial` (glam: the axes are columns). apriltag: the
  data of a matrix are row after row. uom: `new::<base unit>` is the identity.
* packed_struct: `pack_to_slice` fails unless the slice has the size of the structure.
* circular-buffer: `push_back` on a full buffer drops the oldest element. rppal: an interrupt runs its
  callback in another thread; a panic there ends that callback. std: a lock held by a thread that panics is
  poisoned.
* rustc: `Option<T>` uses an unused value of a byte of `T` for `None` when there is one (`Layout.niche`), and
  otherwise a tag which is zero for `None`. compact_str: 24 zero bytes are a text of 24 NULs.
* V4L2: `VIDIOC_QBUF` refuses an index not granted or already queued; buffers are filled in the order queued;
  stopping the stream gives all of them back; waiting ends with a filled buffer or the timeout.
* iceoryx2: a subscriber gets what is sent after its creation, in order, in a buffer that drops the oldest
  sample when it is full (its default configuration). velodyne_lidar: a function from datagrams to points.
* Python and pyo3: `dict` keys compare numbers by value and are kept at their first place; lists and
  dictionaries cannot be keys; a `timedelta` that is not normalized keeps its three fields.
* html_escape `encode_text`: replaces `&`, `<`, `>`. The allocator: a block with a size is aligned and overlaps no
  block in use. `Layout::from_size_align`: power of two and less than half of the address space.
* C83: a flush that was asked for is on the disk at the end of the operation (the hypothesis `Powered true`); without it, see `C83_async_violated`.
* C84, C85: `Model/Fp` is the arithmetic of Rust's `f32` and `f64`: IEEE 754 with rounding to the nearest, ties to even, every operation rounded separately.
* C87: `{:.3}` of an `f64` is the nearest decimal number with three digits (ties to even); `{}` of an integer its decimal digits.
* C88: the interrupts of the encoder and the devices are inputs; the requests to the PWM outputs succeed; dropping the PWM outputs is not modelled.
* The bytes of a store reach the memory map in the order of their addresses (C94 only: C07 holds for any
  subset of them).
- The crates `arrow-buffer`, `arrow-array` and `arrow-data`, which the patched `arrow-arith` builds on: what their functions do is taken from their documentation.
* `arrow-array`: `DecimalType` (greatest precision and scale), `validate_decimal_precision_and_scale`, the checked and wrapping arithmetic of `i128` and `i256`.
* `chrono`: its calendar (years -262143 to 262142), the time of day, the ISO week and the offsets of zones; `arrow-array`: `unary_opt` and the conversions of `temporal_conversions`.
* `arrow-array`: `add_year_months`, `add_day_time`, `add_month_day_nano` and the functions that subtract, of dates and timestamps.
* `std::io::BufWriter`: a buffer of 8192 bytes, `write_all`, `flush_buf`, `drop`; `File::write_all`.
* `quanta`: `Instant - Duration` panics below zero; `Clock::recent` is 0 until a value is published.
* `cudarc` (device pools): `memcpy_htod` and `memcpy_dtoh` assert that the destination is not shorter than the source and wait for the copy; the first copies the whole source and nothing more; what the second writes after the source is left open. `alloc_zeros` gives zeros.
* `std::sync::mpsc::sync_channel`: first in first out, `send` waits while it is full and fails once the receiver is dropped, whose messages are dropped with it. `ratatui`: `Paragraph` draws from the first line and cuts what does not fit; a `Line` aligned to the right which is longer than its cell loses its start (0.29).
- `SmallVec::with_capacity` (smallvec 1.14): no memory up to the inline capacity, otherwise the size of the elements, a panic above `isize::MAX` bytes (C113).
- `Decode for Vec<u8>` (bincode 2.0): the length is read, `vec![0u8; len]` is made, then the bytes are read; a panic above `isize::MAX` bytes (C115).
* The bit patterns of `f32` (IEEE 754 binary32) as in `Model/FpBits`.
* The order AETR of the channels in `MSP_SET_RAW_RC` (`Spec/MspRc`), that of the default map of Betaflight.
* image: `ImageBuffer::from_raw` compares the length of the slice with width times height times samples, `get_pixel` reads
  the samples of a pixel in rows without gaps. kornia: rows without gaps, no check of lengths in `from_raw_parts`; which of
  the two numbers of a pair is the width is a parameter (version 0.1 takes the first, as far as we know). apriltag: the
  detector reads `buf[y * stride + x]` within width and height.
* v4l, serialport, spidev, rppal, iceoryx2, gstreamer, socket2: which devices, pins, names, pipelines and addresses can be
  had are parameters of the models of `new`; a camera answers the queries of its formats and sizes.
* crossterm: in raw mode Control-C is a key like others; an event is delivered once.
* crc-any: `crc8dvb_s2` is the checksum with polynomial 0xD5, initial value 0, not reflected.
  packed_struct: `u16` fields are packed in the byte order given.
