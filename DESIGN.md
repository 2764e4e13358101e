# Formal model of McMaster-Rocketry-Team/rust-monorepo in Lean 4

## 1. Layout

* `lean/Verif/Model/*.lean`  – the model: total, computable Lean functions that follow the Rust
  functions of `/repo` one by one. Every definition carries a comment `-- models <file>:<lines>`
  and states its simplifications.
* `lean/Verif/Lemmas/*.lean` – helper lemmas and invariants (no property is stated here).
* `lean/Verif/Spec/*.lean`   – small independent specifications used by the property statements.
* `lean/Verif/Props/*.lean`  – the property theorems `Cxx_...`, each with a doc comment saying what
  it claims and with `example`s beside it showing that a concrete non-trivial case meets its
  hypotheses.
* `properties.jsonl`, `MANIFEST.json`, `seeded/LOG.jsonl` – list of properties, status of each, log
  of the wrong-program experiments.

## 2. Trusted base

1. Lean 4.33.0's kernel. No axioms are added; no compiled evaluation (`native_decide`, `bv_decide`)
   is used. Every theorem depends at most on Lean's standard axioms `propext`, `Classical.choice`
   and `Quot.sound` (`lean/Verif/Axioms.lean` fails the build if any theorem depends on another axiom, and prints the ones used).
2. The correspondence between `/repo` and the model, which is by reading (no build of the Rust code
   was possible). Each definition cites the lines it models.
3. The environment assumptions written as hypotheses or as model primitives:
   * flash: a page program of one 256-byte page and a sector/block erase are the atomic steps at
     which power may be lost (where a property needs it, a torn page/erase with arbitrary content is
     also allowed; this is said at the theorem). A page program ANDs into the page (NOR flash); on an erased page this is the replacement of
     `vlfs/src/flash/memory_flash.rs`.
   * CRC / cipher / Reed-Solomon / rkyv (external crates and hardware) are abstract functions; where
     a property needs a fact about them it is an explicit hypothesis (e.g. "decrypt inverts
     encrypt").
   * floating point is replaced by exact rationals (or integers) where the property is about the
     algorithm; rounding errors of f32/f64 arithmetic are not modelled. This is stated per module.
   * async code: a task runs without interruption between two `.await` points; `poll` of a future is
     a step. Where schedules matter (RwLock, zero-copy channel, managed erase) every interleaving of
     such steps is modelled as an inductively defined set of histories.
   * Rust panics and overflows are explicit outcomes (`Option`/`Except`) where the code can reach
     them.

## 3. What is modelled, module by module, and what is not

`vlfs` (C01–C26, C66, C67, C83, C34, C61, C62)
* Modelled: Hamming ECC, super block / header / directory records, allocation table reader, builder and
  commit, sector map, writer, reader, claim/return of sectors, mount, iteration, lookup, removal, RwLock,
  background (managed) erase, CRC chunking.
* API calls are atomic except where a theorem says otherwise (C21, C22, C23, C83 interleave calls).
* Histories (`Spec/FsHistory.lean`) contain power loss between calls, during a write/flush/close, during a
  directory update, during the two calls that create a writer on an empty file and during a ring rotation
  (page-atomic; writes torn within a page are covered by separate theorems, Lemmas/LossAny). Power loss during
  open-for-append is not in these histories: C67 proves that it is not safe.
* Not modelled: `fair_mutex.rs`, the underflow panic for sector indices below 32, `reset` of the managed
  erase flash, real flash drivers, dropping a reader/writer without closing (it panics).

Logging (C27–C33, C63, C76, C87–C90)
* Modelled: bit (de)serialization, fixed point and delta factories, delta logger and reader, time
  synchronization, tagged record stream, ring of segments, buffered logger, sensor logs in files (C87) and rings of
  them (C88), on the model of the file system and its power loss.
* Floats are rationals with an abstract monotone rounding of relative error `u` (no overflow, no
  underflow); compile-time f32 evaluation of the factory bounds is taken as exact. Errors of the sink
  are modelled in C87–C88 only as calls after which the run is not followed. The rkyv codecs of the tagged stream are abstract. A failed ring rotation ends the task.
  The buffered logger treats one event per poll; `log` and `log_unix_time` are one kind of entry.

Radio, CAN, RPC, module bus (C35–C40, C54–C57, C61, C68, C69, C72, C80–C82)
* Reed–Solomon, ChaCha20-Poly1305, packed_struct, rkyv are abstract functions with laws, or modelled from
  their documentation. Serial errors are modelled only where stated (C61). A late answer is late as a whole.
* Module bus: the rkyv layout is the declared field order with zero padding; undefined behaviour of the
  unchecked decoder is taken as "ignored by the slave"; an answer is read as a whole.
* Console file transfer: each call reaches the handler once; a panic or hang of a reader is "no answer".

Avionics (C41–C48, C64, C70–C79)
* Flight computers use fully abstract float operations (C42, C44), exact rationals for the filters (C49–C51,
  C60, C78, C79). eskf, nalgebra and icao conversions are abstract parameters; biquad is modelled from its
  documentation. Tasks: any interleaving of polls; actuator drivers do not fail; the CAN bus does not block
  the event task; a switch change and its debounce poll are one step. Ground test: errors of storage and
  drivers are not modelled.

Synchronization helpers (C52, C53): one receiver guard at a time, `receive` is not cancelled; embassy's
MultiWakerRegistration, PubSub, Signal and Channel are modelled from their documentation.

GPS (C58–C60): ASCII sentences, f32 parsing abstract, the crate `nmea` is a parameter; the LUT's binary search
and `map_range` are taken from their documentation.

Config files (C62): contents are bytes (rkyv not modelled).

Calibration (C65, C84, C85, C86): exact reals, unbounded counters; nalgebra's `try_inverse` and matrix
operations are the mathematical ones. The parameter file (C86) is over 32-bit patterns.

OZYS app (TypeScript, C103–C106): numbers are exact (integers or rationals; rounding of doubles is not covered),
the low-pass filter is a parameter; IndexedDB is modelled from its documentation (adds take effect in the order
issued, at any later time, and a query sees the rows there at one moment). Not modelled: the React components,
the web-audio and mock devices, the filter design (fili), comlink.

Not modelled at all: hardware drivers and the STM32/host binaries, GUI and simulator rendering
(`launch-simulator`, bevy), FFT of `strain_gauges`, LoRa radio timing, USB, logging macros, crates left out of the workspace
(`vl-simulink-bridge`, `vl8-ctrl-protocol`), console programs the firmware no longer compiles, `nyoom` (only `todo!()`), proc-macro plumbing, `tiered_ring_delta_logger` (only `todo!()`).

## 4. Per-property plan

* **C01 ECC round trip of directory records** – bits of a 13-byte word as a function Nat->Bool; encode copies data bits and computes the 7 range parities as in the code; syndrome of a codeword shown to be the XOR of the indices of its one-bits; round trip by that linearity.
* **C02 Single-bit correction** – flipping bit i XORs the syndrome with i and toggles the overall parity; then decode's match is evaluated symbolically for every i < 104.
* **C03 Double-bit detection** – two flips leave overall parity unchanged and give a non-zero syndrome (i xor j, i != j); decode then takes an error branch.
* **C04 Blank flash is not a directory record** – same syndrome calculus on the constant words.
* **C05 Directory record and table header round trip** – big-endian byte codecs proved to be inverse (generic lemma on base-256 digits), composed with C01.
* **C06 Four-fold redundant sector metadata** – decision logic over arbitrary four-tuples; proved by case analysis.
* **C07 File write/read round trip** – flash = page map; writer state machine (buffer, sector length, current sector, free-sector supply) function by function; invariant relating flash + buffer to the list of bytes appended so far; reader proved to return the list by induction on pages; reads split by a separate lemma.
* **C08 Flushed data survives power loss** – same invariant, observed at every intermediate flash state (the writer emits a list of flash operations; every prefix of the list is a crash state). During directory calls the pages may be torn anywhere (`Lemmas/LossAny.lean`): a partly written table is unreadable or holds exactly the new files.
* **C09 Corrupted pages are reported, never returned** – reader over an arbitrary flash; invariant of read_slice that each returned byte belongs to a page with matching CRC.
* **C10 Reopening for write appends** – model of the read-modify-write of the last sector in open_file_for_write, then C07's invariant re-established.
* **C11 Reported file size** – sum of the stored sector lengths along the chain, by the same invariant.
* **C12 Directory updates are atomic under power loss** – four-slot model with table images, update = erase slot; write header; write entries page by page; footer. Crash states = every prefix, torn page content arbitrary but not accepted as a complete table is NOT assumed: completeness is judged by the footer, see theorem.
* **C13 The newest directory copy wins** – ring of four slots; invariant: slot (seq mod 4) holds seq; selection returns the max.
* **C14 File ids are never reused** – histories of create/remove/restart on the directory model with the persisted max id; invariant by induction.
* **C15 Lookup by id is exact** – binary search as in the code on lists sorted by id; sortedness is an invariant of all directory operations.
* **C16 Outcome of remove** – function-level model of remove_file/remove_files with the open list.
* **C17 An open file cannot be removed or opened twice (finding)** – file system histories; invariant: list of open files has no duplicates and at most 32 entries; negations for create_file_and_open_for_write and for a failed open.
* **C18 Sector map levels agree** – three-level bitmap model, invariant over set_used/set_unused.
* **C19 A sector is never handed out twice** – allocator state machine with a nondeterministic rng; invariant: used/reserved/erase-ahead disjoint and duplicate-free.
* **C20 Free space accounting and device full** – count invariant over the same state machine.
* **C21 Concurrent file iteration** – iterator state (id,index) against any sequence of directory changes; invariant on the index; specification = least id above the last one.
* **C22 Reader/writer lock exclusion** – interleaving semantics of poll/cancel/drop with N tasks; invariant on the lock word.
* **C23 Reader/writer lock progress** – concrete schedules with a lost wake-up and with a cancelled writer: negations; partial theorem for the schedules without writers.
* **C24 CRC is independent of chunking** – word-accumulator model with abstract word step; induction on the bytes.
* **C25 Background erase is transparent** – chip model with busy/suspended flag and explicit error on illegal command; simulation against immediate flash.
* **C26 Directory capacity (finding)** – address arithmetic of the builder; bound theorem for directories within capacity; negation with a concrete history of 2518 files.
* **C27 Bit-level serialization round trip** – bit lists; writer/reader state with drained bytes; codec combinators (each primitive has an exact inverse).
* **C28 Sensor log round trip** – header/field encoder over an abstract fixed-width codec; parser inverse; induction over the log.
* **C29 Time-sync records (finding)** – what holds (a record not directly following another is in place) and the negations (second in a row not flushed / late / middle one dropped / 4-byte data panics), all for every history of the logger.
* **C30 Delta encoding does not accumulate error** – exact arithmetic over rationals; the encoder tracks the decoder state, hence one-step error.
* **C31 Fixed-point quantisation** – rational model of to_fixed_point/to_float with round-half-away; bits computed by ceil(log2).
* **C32 Tagged record stream round trip** – tag table + fixed-size payload codec; induction over records; prefix for a cut.
* **C33 Ring logs are bounded and drop only the oldest** – Model/Ring (rotation of the directory, `new`, `create_new_segment`); the rotation is a call of the directory histories (Reach, C12-C16) and of the file system histories (Hist, C07-C11); RingRun adds the ring on top, the invariant is count = counter ≤ capacity and the newest is the current one. Findings: DeleteLogs, stale counter.
* **C34 Loggers do not share file types (finding)** – the table of constants; all pairs distinct except GPS/low-G IMU; consequence on two rings started one after the other.
* **C35 Radio packet framing** – CRC-8 concrete; Reed–Solomon and ChaCha20 as parameters with laws (`Spec/Radio`), met by a polynomial code over GF(256) (`Lemmas/Mds`); bit-level packets through the C27 codec; builders after any history (`Reach`).
* **C36 Malformed radio packets (finding)** – independent layout spec `parseUplink`/`parseDownlink` with a panic outcome; the deserializers equal it for every byte string; exact condition for panics and witnesses.
* **C37 Telemetry packet fields** – `Model/Telemetry`: packing through the C31 factories, accessors, update closures as arbitrary functions on the public fields; combined with C35.
* **C38 Uplink retry protocol (finding)** – `Model/VlpClient`: both client loops, the radio and clock as inputs per attempt, signals as options. Induction over the attempts; each attempt is classified by a specification function that only uses what a fresh client decodes; lossy link as a relation between frames, rocket states and receptions.
* **C39 CAN identifier packing (finding)** – `Model/Can` with fields as numbers; arithmetic (omega); arbitration is a bitwise specification, proved to select the minimum.
* **C40 CAN message payloads (finding)** – concrete encoders and decoders; round trip, exact panic condition.
* **C41 Backup flight computer event order** – `Model/FlightCore`: floating point operations, biquad coefficients and the standard atmosphere are parameters, so the theorems hold for IEEE arithmetic incl. NaN; corollary of the C42 timeline.
* **C42 Backup flight computer deployment conditions** – `Spec/Flight`: a timeline relation (First/Never over reading numbers) between the readings and the announcements; invariant by induction on the number of readings.
* **C43 Manual (third) flight computer** – same method, any interleaving of triggers and ticks.
* **C44 Primary flight computer stage order** – same method; Kalman filter, vectors abstract; conditions stated on the values it publishes; 100-snapshot history and 4-sample windows as lists of the last snapshots.
* **C45 Primary flight computer never deploys (finding)** – corollary of the C44 timeline.
* **C46 Pyro channels fire at most once and only on their event (finding)** – `Model/Avionics`: shared state of all tasks, one step = one poll of one task; invariant per pyro task by induction over the run; cause by step analysis; lost event by a concrete run.
* **C47 Arming requires both switches** – flags are functions of the packet history and of the debouncer output (C48) by induction over the run.
* **C48 Debounce** – `Model/Debounce`: poll machine; invariant gives a justification for every output.
* **C49 Moving averages** – windows as newest-first lists over an abstract arithmetic; the window equals the last n samples since the last clear by induction on the history from the right; exact-arithmetic equality of the two implementations; negation for the running sum under f64-like absorption.
* **C50 Ticker** – rationals for f64 times; the environment chooses call times and oversleep; closed form of the k-th return time by induction on the calls; ceil of Mathlib for next_skip_missed.
* **C51 Unix clock** – state machine over GPS times, PPS edges and polls; `Marks` is the specification of a used edge; correctness against a world with a true time origin by induction on the history; waiters via C53.
* **C52 Zero-copy channel** – steps startSend/finish/receive/release in any order; refinement to an inductively specified ideal lossy FIFO; invariant: unread indices are the last slots before the sender, modulo n; concrete clash as negation.
* **C53 Waker registration** – slots as a list; after any history they hold the accepted wakers since the last wake, each once; wake wakes exactly those.
* **C54 RPC framing** – the server loop as a byte-fed machine with abstract handlers; unique decomposition of the stream by induction from the right; resynchronisation: the flush is longer than any unfinished request.
* **C55 Module bus codec (finding)** – `encode`/`decode` byte by byte, structures as declared; every payload is a result, an error or undefined behaviour; round trip by cases over the packages.
* **C56 Module event queue** – bounded queue refinement.
* **C57 Module bus requests (finding)** – `World.request` over an arbitrary fate of each attempt; induction over the attempts; negations by concrete lines.
* **C58 NMEA validation (finding)** – `Model/Nmea` byte by byte with panics as outcomes; exclusive-or algebra for detection; concrete crashing sentences.
* **C59 GPS assembly (finding)** – `gpsByte`/`gpsRead` as the driver loops; invariant "the buffer holds what was received of the current sentence, or anything between sentences"; induction over reads.
* **C60 Timestamp conversion (finding)** – `Model/Lut` over exact rationals, the search by its specification; case analysis over segments.
* **C61 Pulling a file from a device** – Model/ConsoleFiles.lean (session handlers, host loops), Spec/ConsoleRun.lean (`ConsoleRun`, `PullRun`: any interleaving with other tasks; `Pulls`: 128-byte chunks of a stream with bad pages); C83 gives the content; list via C21; findings proved.
* **C62 Configuration files (finding)** – Model/ConfigFile over the file system model, all histories (`Hist`); reading by the reader specification, writing as remove+create+open+extend+close; crash points by cases on the flash operations of each call (Lemmas/ConfigCrash); negations: crash point after the removal, old file open during the write.
* **C63 Buffered logger (finding)** – Model/BufferedLogger: state machine with one event per poll of a task (publish, flush, cancelled flush, into_inner, polls); invariants over all event lists; embassy PubSub (one subscriber) from its documentation.
* **C64 Continuity is read on the selected pyro channel (finding)** – `Model/GroundTest`: mapping tables, two continuity tasks that claim the device mutex (a claim of a held mutex panics); induction over polls.
* **C65 Calibration sequence (finding)** – the calibrator as a step function over readings, histories with ghost traces of which reading was taken in which state; invariant over all streams; negations for "constant rate" and "reading after the result".
* **C66 File ids across power loss (finding)** – directory histories with power loss (Reach.crash); negation with 248 files.
* **C67 Opening a file for append is not crash-safe (finding)** – concrete history on the file system model, with what holds.
* **C68 Replayed uplink commands (finding)** – the rocket side of `Model/VlpClient`; replay of an accepted frame.
* **C69 Strain gauge recording state** – CAN message handler of the strain gauge board as a state machine over received frames.
* **C70 No deployment unless armed (finding)** – invariant: flight computers or events imply an armed prefix (uses C47 invariant).
* **C71 Low power mode (finding)** – packet history function; frame argument for packet-free continuations.
* **C72 Flight events on the CAN bus (finding)** – all published states are in a list of five; induction.
* **C73 Camera follows arming (finding)** – reading function of the camera task; concrete run for the lost arming.
* **C74 Panics of the avionics (finding)** – invariant: the backup computer knows the pad altitude when it needs it.
* **C75 Causes of a deployment** – invariant from event back to the tick or packet that caused it.
* **C76 Logging stops when storage is full** – log as a function of the history, by induction.
* **C77 Ground test firing (finding)** – `Model/GroundTest`: firing task as a state machine; invariant over histories.
* **C78 Vertical speed filter** – exact arithmetic instance of the abstract floats; the biquad is proved to compute the difference equation (functional induction), the filter state is characterised by a small specification (status, used rates), output = max(low-pass, previous − 45·dt); noninterference during a hold by comparing two recordings; corollary on the backup flight computer via C42.
* **C79 Barometer reading filter** – same instance; invariant: head of the history and last surge; output characterised for every reading.
* **C80 Checksum of RPC requests** – one bit step of CRC-8 has an inverse (256 cases by kernel evaluation, an exhaustive proof over all bytes), hence the state after any suffix determines the state before.
* **C81 Answers and calls** – client and server joined by a line; induction over the calls; concrete witnesses for late answers and for a reset that completes a request.
* **C82 Module events on their way to the drivers** – `World` (module, answers waiting on the line), `World.request` with arbitrary fate of each attempt, histories `busRun`; invariant: delivered ++ events on the line ++ queue is a subsequence of the pushed events. Slot model for the drivers; negations with concrete histories.
* **C83 Stable readers** – Spec/OpenReader.lean (`ReadRun`) interleaves reads with arbitrary `Step`s; frame lemma `step_to` (files held open keep their entry and sectors), then the reader invariant is carried along; rotation finding proved.
* **C84 Calibration of a sensor is exact (finding)** – calculation over exact reals with Mathlib matrices; sensor model Spec/Sensor.lean; algebra of the column differences; negation with a concrete session.
* **C85 Reported noise (finding)** – the same calculation on sessions without noise.
* **C86 Calibration parameter file (finding)** – byte form over bit patterns; save = the calls of ConfigFile::write, so the C62 lemmas give the crash states; reader modelled with its two unwraps.
* **C87 Sensor log survives power loss, end to end** – `Model/LogFile.lean`: the calls of `DeltaLogger` with a `FileWriter` as sink. Every call is a sequence of writer calls whose bytes are what the pure logger of C28 hands to its sink (`Does`), so the history of the file system (C08) gives a file content between the flushed and the written bytes; `cut_log` shows that a log cut at any byte behind a flush reads back as a prefix with all flushed entries.
* **C88 Ring of sensor logs** – `Model/RingLog.lean`: `RingDeltaLogger` on `DeltaLogger`, `FileWriter` and the directory rotation, each part of `create_new_segment` between two suspension points its own step; the ring reader. `Spec/RingLog.lean` has the runs (`RingLogging`), the crash points (`RingCut`) and what a directory with the ring looks like (`RingHolds`). Invariant `RInv` (files of the type = files of earlier rings, closed segments, segments in use, pending one), proved over all runs; power loss via the file histories of C08/C87. Power loss during a rotation that drops a file is C93. Not covered: the timing of the ticker; failing calls.
* **C89 Sensor log on a full chip (finding)** – model: the existing Model/LogFile (errors leave the bit buffer as it is). Spec/LogFull: `Tries` (calls that follow the first failure, errors ignored, other users allowed while no sector is free), `feed`/`answer` (a stream of readings). Proof: a failed append leaves the writer with a filled sector (extendLoop_filled), on which every nonempty append fails without effect (extend_filled); each attempt grows the bit buffer by at least `leastEntry`; counting bits produced against the capacity of the chip gives `C89_fed_for_ever`. Witness C89_case: a log on a fresh chip fed with any readings answers DeviceFull and later panics.
* **C90 Two tiers of sensor logs** – model: Model/Tiered (`MergedLogger` on two ring loggers that share one file system). Spec/Tiered: `RingStep` (the steps of `RingLogging` as a relation), `TieredLogging` (two rings of different types, steps interleaved at will), `CallCut`/`TieredCut`. Proof: every step of a ring is a `Chain` of file-system calls that leaves what is known about files of other types alone, so the other ring survives it as an `other` step; power loss by `ring_cut` for the ring in the call and `cut_others` for the other one.
* **C91 Tables of downloaded readings** – Model/Export: pull_files (list_files + pull_file of C61), parse_delta_readings (two passes of the C28 reader, the C60 table), pull_flight_data with the types it asks for. Spec/Export: readingsOf, syncsOf, Shows. Composes C61, C28/C88 (LogReads), C60; C91_ring goes from a closed ring of segments to the table.
* **C92 Strain gauge samples from the ADC to the tables** – Model/StrainGauge: processor, main loop, storing loop with the flags of the ring writer, host parser and tables. Proved by an invariant on the state after any prefix of reads (filter state, kept samples, FFT window position), induction over the storing events, and C32 for the files. The numbers (f32 addition, biquad, f16) are parameters.
* **C93 Power loss while a ring drops its oldest segment** – `Hist.lossRotate` in Spec/FsHistory: the histories of files contain power loss inside `rotate`; a file that was to be dropped becomes `damaged` (nothing is claimed about its content, its sectors may have been erased before the new table was complete). `Lemmas/SystemRotate`: trace of the operations of `rotate` (table slot, claimed sector), crash images before and after the footer. C93_ring_cut composes with the runs of rings of C88. Any crash image (torn pages, any footer position), via `Lemmas/LossAny`.
* **C94 Fair mutex** – Model/FairMutex (poll of lock(), guard drop), Spec/FairMutex (schedules: any polls, cancellations, drops; `calm` = as an executor without spurious polls runs at most N tasks that cancel nothing). Invariants over schedules; the findings are concrete schedules (families in N and in the number of rounds).
* **C95 Calls between tasks** – Model/RpcChannel (the two one-element channels, poll of `call`, server loop of gcm_main), Spec/RpcChannel (schedules with a record of requests, answers and returned calls). Invariant: requests = handled ++ being handled ++ in the channel, answers = returned ++ in the channel ++ held by the server, counting gives the lag after dropped calls. Embassy channels are external, from their documentation.
* **C96 Mailbox of downlink packets** – mailboxPut/mailboxPoll in Model/RpcChannel (try_send/try_receive on a channel of one element), runs of arrivals and questions, induction over the run.
* **C97 Every page program hits an erased page** – `OpOk`/`OpsOk` (Spec/WriteOnce) state what the data sheet asks of a sequence of flash operations. Carried through the invariants of the allocator (regions handed out are blank), the writer, the directory builder and open-for-append; proved for every step of `Hist`, for mounting any content, and for the whole log since start; equality with the page-replacing simulation follows.
* **C98 Blink patterns (finding)** – `Model/Indicator`: the loop with arbitrary latencies; `lit` (Spec/Indicator) is the meaning of a pattern as a function of time. Induction over entries and rounds with the invariant start ≤ now ≤ start + B.
* **C99 Start-up (finding)** – `Model/StartUp`: the main task as a list of steps (await, claim, tone, blink, run, panic) computed from the environment, an interpreter with the set of held devices; closed forms per mode, then iff characterisations.
* **C100 Flash transfers of any length (finding)** – model `Flash::read`/`write` with their chunking and the five scratch bytes as a parameter of the driver; loop invariant on the bytes done; negations with concrete chips.
* **C101 Buzzer queue and arming beeps (finding)** – state machine of the runner over the pub/sub model; invariant over all interleavings; losses by witness families.
* **C102 Log of the vacuum test (finding)** – the two tasks over the pub/sub model and the backup flight computer; invariant over all histories, the flight computer by C42; loss by an invariant "message m is lost".
* **C103 Circular buffer of the OZYS app** – the TypeScript class over a list of cells, related to a plain list (a bounded deque) by an invariant preserved by every call.
* **C104 Resampler of the OZYS app (finding)** – exact rational arithmetic (rounding of doubles not covered), the filter a parameter; induction over the readings, with the samples emitted so far as an interval of sample numbers. The filter coefficients (fili) are not modelled.
* **C105 Strain graph of the OZYS app** – the player over C103 and C104; invariant relating the resampler to the last run of packets; delivery by the deque invariant.
* **C106 Readings database of the OZYS app (finding)** – transition system of packets, writes taking effect, queries, answers, reloads; invariant relating rows stored and on their way to the packets that came; a player compared with the strictly increasing list of packets.
* **C107 Operator's commands reach the avionics and act once** – command table of the CLI composed with the radio client (C38) and the avionics model; effect of each command as a structure of the changed and unchanged parts; idempotence of retries by a simulation between the history with and without the extra copy; two findings with witness histories
* **C108 Device names (finding)** – RkyvVec/RkyvString as list and length, UTF-8 from Lean's String; exact characterisation of what is shown and of the crash; prefix of the encoding ⇔ prefix of the characters
* **C109 Radio key as text** – the formatting loop; JSON arrays as a grammar (relation); membership by induction on the loop, unambiguity by a character scanner that agrees with the grammar
* **C110 Numbers in files** – typed calls over the file model, reduced to the byte round trip C07
* **C111 Spectrogram frequency axis** – Model/Spectrogram.lean on top of the resampler of C104 (exact numbers, filter a parameter). Store loop and fill-up loop by induction, giving each cell by index; then restated in Hz (C111_axis), shift (C111_shift), not-a-number cells (C111_nan), termination (C111_returns).
* **C112 Spectrogram time axis** – Model/Resampler2D.lean; simulation of each column by the resampler of C104; for the nearest-neighbour case the resampler is run beside a one-dimensional one that is fed 0, 1, 2, …, whose output is the place.
* **C113 Strain graph's players** – Model/StrainGraph.lean: selection, player map, the FIFO of mutex tasks with an interleaving point at each await; invariant: pending tasks turn the keys into the selection, created players = held + in progress + disposed (as multisets).
* **C114 Strain graph's drawing** – the commands given to the canvas, interpreted by a small canvas semantics in Props/StrainGraph.lean; geometry of the window in exact numbers.
* **C115 OZYS app devices: gapless streams, exact lookup, exact delivery (findings)** – Model/OzysDevices: the timers of MockOzysDevice as a step function over events (aligned, tick, control, disconnect, audio), the microphone device, the manager with its list; Spec/OzysDevices: readings/spectra of a channel in a list of calls, nearest multiple, firings. Proved by induction over the history with the invariant "sent = all multiples of the step up to the last tick", projections of the joint history to one device, and composition with C106.
* **C116 Simulated clock: delays return exactly when due, no wakeup is lost** – Model/SimClock: the heap as a list with extraction of the least, delay futures as states (fresh, waiting, over), operations create/poll/drop/update. Invariant by induction over the history: the state of a delay and the entries of the heap about it are determined by its polls and the updates (`Alive`, registered). f64 as rationals, NaN not modelled.
* **C117 Virtual sensors and switches of the Simulink bridge (finding: a change that is none)** – Model/VirtSensor: the signal as a place for one value, histories of operations; induction over the history with the invariant that a full signal holds the position and an empty one means the last report is the position.
* **C118 Virtual serial links and mock radio (findings)** – Model/VirtSerial: queue of messages plus rest of the last one, both directions; message link with close; watch channel with version, receive in two halves. Conservation "read ++ on the way = written" by induction over the history, state invariant of the watch channel.
* **C119 Spectra in the database (finding: five behind)** – Model/OzysFft: table rows per channel, pending writes, circular cache of 5, query/ready/dispose of players, reload. Invariants over histories: rows sorted and unique by timestamp, feed of a player = rows, then later cached, then new; completeness under the cache bound; negation otherwise.
* **C120 Spectrogram player** – Model/SpectrogramPlayer on top of the axis (C111) and row resampler (C112): spec cuts the columns into runs 100 ms apart and resamples each afresh; induction over the history with the invariant that the live resampler is the fresh one fed with the current run. Delivery by the circular buffer lemma. Times by the grid lemma of the resampler.
* **C121 Refused page programs while writing a file (findings)** – `Model/FlashFault.lean`: the writer functions with a chip that may refuse each page program (`ok : Nat → Bool`); proof by relating the state after the refusal to a state of the accepting model (`StuckPage`, `StuckSector`) and the system invariant. Not modelled: refusals of erases and of directory writes, and reads that fail.
* **C122 Refused operations while files are created or removed (findings)** – `Model/DirFault.lean`: the builder and the three calls in the `Except Dev` monad, an error being the panic of the dropped builder with the chip at that moment; proof by a cut relation (`Cut`) between the refusing and the accepting run that is closed under sequencing, and the power loss theorems of C08. Not modelled: reads that fail, `open_file_for_write`.
* **C123 Flash with statistics** – Model/StatFlash: the wrapper over any driver on a state of the world; programs as trees of calls (Prog), so transparency is over adaptive users. Statistics against an event list (Spec/StatFlash: callsSince, totalTime) by induction on the history. The default read/write of the trait as programs, counted by induction on the remaining length.
* **C124 Log of records survives power loss and can be downloaded** – Model/RecordFile.lean (the generated logger on a file writer; the host readers), Spec/RecordFile.lean (`Records`: the runs, next to any other use; `RecordsCut`: power loss anywhere, also during a ring rotation of the barometer log). Invariant: the content of the file is the encoding of the records so far, what was flushed is durable; with the crash lemmas of the file writer (runWriter_crash) and of directory changes (Lemmas/LossAny.lean) the content after a loss lies between the two; a cut stream reads as a prefix (C32). Download with C91.
* **C125 Key frame animations** – keyframe.rs builder and player over an ordered field; the loop of `update` characterised by the segment it stops in; partial sums of positive durations are strictly monotone.
* **C126 Simulated calibration** – the thirteen animations of calibration_system.rs as data (integer rotation matrices, millimetres) against the order of announcements of C65; closed statements about orientations are evaluated by the kernel, the place where the device is when a movement starts is a variable; timing through C125.
* **C127 Console upload** – write_file.rs over the file system model; the loop keeps a history (Hist) in which the new file holds the parts received; C11 gives the size query and the reading.
* **C128 Message files sent over the console** – the program as a function of the number of requests; the byte stream the host gets is compared with a specification on the file content (induction over requests, 64-byte parts by strong induction); empty messages refute the end mark.
* **C129 Simulated motor and mount** – the systems as a transition function on mounts, player and force, with the animation player of C125; closed form of the thrust curve over the rationals, induction over frames and clicks; the residual force is exhibited for every frame sequence that misses the end of the burn.
* **C130 Strain graph menu and zoom** – the React state as a transition function; invariant by induction over clicks (parity of box clicks, last colour, product of turns), rational zoom factors.
* **C131 Strain gauge board: lamp, health, battery time syncs** – the tasks as events on shared state; blink patterns as lists compared over all 16 states, cycle starts over rationals; the battery syncs equal a specification on the event list (induction); the tasks that are not started give the finding.
* **C132 The simulated sensors** – a sender that remembers the last time and velocity, over the reals, orientations as invertible linear maps (Model/SimSensors.lean); the readings by unfolding, their sum by induction on the updates, the height by comparing powers.
* **C133 The simulated chutes** – signals, events and components of the parts as a state machine with frames in either order (Model/SimChutes.lean); counting invariant, progress per frame, invariants on the parts and on the impulses.
* **C134 The calibration program's sounds and answer** – the loop over the calibrator of C65 with sounds as lists of tones (Model/CalibProgram.lean); induction on the readings with C65_panic/C65_result; unique decodability by a check of all pairs of states plus an induction on the announcements.
* **C135 A module's arming switch as the flight computer sees it** – switch, queue, slot, driver and application as a state machine (Model/MasterSwitch.lean); invariants by induction on the schedule; the findings as theorems for all continuations without a change.
* **C136 The app's window layout** – tabs with a flag for the border, the storage and the debounced save (Model/AppLayout.lean); invariant on the tabs, invariant on the save, induction on the bursts for the finding.
* **C137 The debug flash page** – `vlfs/debug-flash-ui` modelled function by function (Flash.ts whole; getRequestRange, getPrevByte, getCurrentByte, receive and resume of useHandleWebsocket.ts); erase loops by induction on the iterations left, the read-back by induction over the history against “last request touching the address”; addresses and bytes are naturals (the schema would admit any JSON number).
