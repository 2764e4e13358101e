{"id": "C01", "title": "ECC round trip of directory records", "statement": "Encoding any 12-byte directory record with the on-flash ECC and decoding the 13 stored bytes returns the same 12 bytes.", "quantifier": "every 96-bit record value", "why_tests_cant": "2^96 records; tests use a handful", "anchors": ["vlfs/src/fs/hamming.rs: hamming_encode, hamming_decode"]}
{"id": "C02", "title": "Single-bit correction", "statement": "If exactly one of the 104 stored bits of an encoded directory record is flipped, decoding still returns the original record.", "quantifier": "every 96-bit record and every one of the 104 bit positions", "why_tests_cant": "2^96 x 104 cases", "anchors": ["vlfs/src/fs/hamming.rs: hamming_encode, hamming_decode"]}
{"id": "C03", "title": "Double-bit detection", "statement": "If exactly two distinct stored bits of an encoded directory record are flipped, decoding reports an error: it never returns a (wrong) record.", "quantifier": "every 96-bit record and every pair of distinct bit positions", "why_tests_cant": "2^96 x 5356 cases", "anchors": ["vlfs/src/fs/hamming.rs: hamming_encode, hamming_decode"]}
{"id": "C04", "title": "Blank flash is not a directory record", "statement": "13 bytes of erased flash (all 0xFF) and 13 zero bytes are rejected by the decoder even after any single further bit flip is applied to them, so erased table space is never read as a file or as the end-of-table marker.", "quantifier": "the two blank patterns and every single-bit disturbance of them", "why_tests_cant": "the claim is about every disturbance and about the absence of any decoding", "anchors": ["vlfs/src/fs/hamming.rs: hamming_decode", "vlfs/src/fs/allocation_table.rs: read_file_entry"]}
{"id": "C05", "title": "Directory record and table header round trip", "statement": "Writing a file entry (id, type, optional first sector), the end-of-table footer, or a table header (version, sequence number) to flash and reading it back yields exactly the same record; a footer is never read back as a file and a file (type other than 0xFFFF) never as a footer.", "quantifier": "every u64 id, u16 type, optional sector index below 0xFFFF, u32 version and u64 sequence number", "why_tests_cant": "2^96 values", "anchors": ["vlfs/src/fs/allocation_table.rs: FileEntry::serialize, FileEntry::deserialize, TableHeader"]}
{"id": "C06", "title": "Four-fold redundant sector metadata", "statement": "A 16-bit sector field stored four times is read back correctly after arbitrary corruption of any one copy; a value is reported only if at least two copies agree on it, and when no two copies agree the reader reports the field as unknown.", "quantifier": "every 16-bit value, every corruption of one copy, and every four-tuple of stored values", "why_tests_cant": "2^64 possible stored tuples", "anchors": ["vlfs/src/fs/utils.rs: find_most_common_u16_out_of_4, CopyFromU16x4"]}
{"id": "C07", "title": "File write/read round trip", "statement": "Bytes appended to a file through any sequence of extend_from_slice calls interleaved with any flushes, followed by close, are returned unchanged and in order by a reader, for any sequence of read sizes, and end of file is reported exactly when the bytes are exhausted.", "quantifier": "every byte string, every way of chunking and flushing the writes, every sequence of read sizes", "why_tests_cant": "unbounded sizes and chunkings; page (252/236 bytes) and sector (4016 bytes) boundaries combine", "anchors": ["vlfs/src/fs/writer.rs: FileWriter", "vlfs/src/fs/reader.rs: FileReader"]}
{"id": "C08", "title": "Flushed data survives power loss", "statement": "If power is lost after any flash operation of a writer, the bytes a reader finds in the file after restart are a prefix of the bytes appended and include every byte appended before the last completed flush. Power loss at any moment of creating, removing or first opening files, in the middle of a page program included, leaves the directory before or after the call, and all files in it keep their content.", "quantifier": "every sequence of appends and flushes and every crash point between flash page operations", "why_tests_cant": "crash points x histories are unbounded", "anchors": ["vlfs/src/fs/writer.rs: FileWriter::_flush, extend_from_slice, write_page", "vlfs/src/fs/reader.rs"]}
{"id": "C09", "title": "Corrupted pages are reported, never returned", "statement": "Every byte a reader returns comes from a page whose stored CRC matches the CRC of its content; when a page's CRC does not match, the read stops and reports a corrupted page instead of returning its bytes.", "quantifier": "every flash content and every read length", "why_tests_cant": "all flash contents", "anchors": ["vlfs/src/fs/reader.rs: read_next_page, read_slice"]}
{"id": "C10", "title": "Reopening for write appends", "statement": "Opening an existing file for write and appending bytes makes its content the old content followed by the new bytes.", "quantifier": "every old content, every appended content", "why_tests_cant": "all content lengths, in particular all positions of the old end within a sector", "anchors": ["vlfs/src/fs/writer.rs: open_file_for_write"]}
{"id": "C11", "title": "Reported file size", "statement": "The size reported for a closed file equals the number of bytes appended to it.", "quantifier": "every byte string and chunking", "why_tests_cant": "unbounded lengths", "anchors": ["vlfs/src/fs/mod.rs: get_file_size", "vlfs/src/fs/writer.rs"]}
{"id": "C12", "title": "Directory updates are atomic under power loss", "statement": "If power is lost at any point of a directory update (between or during flash operations), the next start sees either the complete old directory or the complete new one, never a mixture and never an empty one.", "quantifier": "every reachable directory history, every directory-changing call (new directory of at most 2517 files, file types below 0x4000), every crash point, every (possibly partial) last page write or erase", "why_tests_cant": "crash points and contents are unbounded", "anchors": ["vlfs/src/fs/at_builder.rs: ATBuilder", "vlfs/src/fs/allocation_table.rs: read_latest_allocation_table"]}
{"id": "C13", "title": "The newest directory copy wins", "statement": "After any number of completed directory updates, restart selects the copy written by the last completed update among the four slots.", "quantifier": "every number of updates and every starting slot", "why_tests_cant": "unbounded update histories", "anchors": ["vlfs/src/fs/allocation_table.rs: read_latest_allocation_table, increment_position"]}
{"id": "C14", "title": "File ids are never reused", "statement": "Every created file gets an id larger than that of every file ever created before on this device, also after deletions and after restarts.", "quantifier": "every history of creations, deletions and restarts", "why_tests_cant": "unbounded histories; deleting the newest file is the corner case", "anchors": ["vlfs/src/fs/at_builder.rs: get_new_file_id, write, commit", "vlfs/src/fs/allocation_table.rs: create_file"]}
{"id": "C15", "title": "Lookup by id is exact", "statement": "A file id is found by lookup if and only if a file with that id is in the directory, and the entry returned is that file's.", "quantifier": "every directory reachable by creations and deletions, every id", "why_tests_cant": "unbounded directory sizes (binary search boundaries)", "anchors": ["vlfs/src/fs/allocation_table.rs: find_file_entry", "vlfs/src/fs/at_builder.rs"]}
{"id": "C16", "title": "Outcome of remove", "statement": "Removing a file succeeds exactly when the file exists and is not open; otherwise it reports that the file is in use or does not exist, and changes no other file. Bulk removal removes exactly the matching files that are not open and counts the ones it had to skip.", "quantifier": "every directory, set of open files, and filter", "why_tests_cant": "all directories and filters", "anchors": ["vlfs/src/fs/mod.rs: remove_file, remove_files"]}
{"id": "C17", "title": "An open file cannot be removed or opened twice (finding)", "statement": "While a file opened with open_file_for_read or open_file_for_write is open, remove reports it as in use (removal by filter keeps it) and it cannot be opened again, until it is closed; once closed it can be opened again; at most 32 files are open at a time. Findings: the writer returned by create_file_and_open_for_write does not protect its file (it can be removed or opened while being written), and a failure of open_file_for_write for lack of space leaves the file marked open for ever.", "quantifier": "every history of open/create/close/remove calls", "why_tests_cant": "histories are unbounded", "anchors": ["vlfs/src/fs/allocation_table.rs: mark_file_opened, mark_file_closed", "vlfs/src/fs/at_builder.rs: write_new_file_and_open_for_write", "vlfs/src/fs/mod.rs"]}
{"id": "C18", "title": "Sector map levels agree", "statement": "A 32 KiB (64 KiB) region is reported free exactly when all of its 8 (16) sectors are free, and the free-sector count equals the number of free sectors.", "quantifier": "every sequence of claiming and releasing sectors", "why_tests_cant": "unbounded histories over 16352 sectors", "anchors": ["vlfs/src/fs/sector_management.rs: SectorMap"]}
{"id": "C19", "title": "A sector is never handed out twice", "statement": "A sector handed to a file is not handed out again until it has been released, and a sector is handed out only if it was free.", "quantifier": "every history of claims and releases and every random choice of the starting sector", "why_tests_cant": "unbounded histories and random choices", "anchors": ["vlfs/src/fs/sector_management.rs: claim_avaliable_sector_and_erase, claim_erase_region"]}
{"id": "C20", "title": "Free space accounting and device full", "statement": "Free space reported equals 4016 bytes times the number of sectors that are neither used by a file nor reserved, allocation fails with DeviceFull only when no sector is available, and whenever it fails nothing has been allocated.", "quantifier": "every history of claims and releases", "why_tests_cant": "unbounded histories", "anchors": ["vlfs/src/fs/mod.rs: free", "vlfs/src/fs/sector_management.rs"]}
{"id": "C21", "title": "Concurrent file iteration", "statement": "While files are created and removed between calls, the concurrent iterator yields strictly increasing ids, each existing at the time it is yielded, always the smallest existing id above the previous one; hence it never yields a file twice and never skips a file that exists throughout.", "quantifier": "every interleaving of iterator steps with file creations and removals", "why_tests_cant": "unbounded interleavings", "anchors": ["vlfs/src/fs/iter.rs: ConcurrentFilesIterator"]}
{"id": "C22", "title": "Reader/writer lock exclusion", "statement": "While a write guard exists no other guard exists; any number of read guards may coexist only when no write guard exists.", "quantifier": "every interleaving of polls, cancellations and guard drops by any number of tasks", "why_tests_cant": "all schedules", "anchors": ["vlfs/src/utils/rwlock.rs: RwLock"]}
{"id": "C23", "title": "Reader/writer lock progress (finding)", "statement": "A waiting writer is always registered or already woken, and is woken whenever the lock is free. Readers have no such guarantee: there is a schedule without cancellations that ends with the lock free, nobody scheduled, and a reader waiting for ever; and once a pending write() has been dropped no read() is ever granted again.", "quantifier": "every schedule, including cancelled lock futures", "why_tests_cant": "all schedules", "anchors": ["vlfs/src/utils/rwlock.rs: RwLock::read, RwLock::write"]}
{"id": "C24", "title": "CRC is independent of chunking", "statement": "The checksum computed over a byte string does not depend on how the string was split into calls, up to the last incomplete word.", "quantifier": "every byte string, every split", "why_tests_cant": "unbounded splits", "anchors": ["vlfs/src/utils/u8_crc.rs: U8Crc"]}
{"id": "C25", "title": "Background erase is transparent", "statement": "With the managed-erase wrapper, every sequence of aligned erases, page programs and reads within one sector gives what it would on a flash whose erases complete immediately, and no command reaches the chip that it does not accept while an erase is running or suspended. (A read that straddles the start of the range being erased is not covered and can return garbage.)", "quantifier": "every sequence of erase/read/write calls and every timing of erase completion", "why_tests_cant": "all schedules and timings", "anchors": ["vlfs/src/flash/managed_erase_flash.rs: ManagedEraseFlash"]}
{"id": "C26", "title": "Directory capacity (finding)", "statement": "A directory update whose result has at most 2518 files changes nothing on the chip in the directory area outside its own 32 KiB slot. Finding: the limit is not enforced: with 2518 files, creating one more succeeds and programs a page behind the slot (in the next slot, or in the data region), instead of being refused.", "quantifier": "every number of files", "why_tests_cant": "needs thousands of files", "anchors": ["vlfs/src/fs/at_builder.rs: write, commit", "vlfs/src/fs/mod.rs: MAX_FILES"]}
{"id": "C27", "title": "Bit-level serialization round trip", "statement": "Any sequence of primitive values (bool, u8, u32, i64, f32, f64, fixed-width integers, options, arrays) written with the bit writer and drained in any byte-aligned portions is read back value for value by the bit reader.", "quantifier": "every value sequence, every drain point", "why_tests_cant": "unbounded sequences and bit alignments", "anchors": ["firmware-common/src/common/delta_logger/bitslice_serialize.rs", "firmware-common/src/common/delta_logger/bitslice_primitive.rs", "firmware-common/src/common/variable_int.rs"]}
{"id": "C28", "title": "Sensor log round trip", "statement": "Reading back a sensor log yields exactly the readings that were accepted for logging, in order, and a reading reported as not logged is absent; each value equals what the delta encoder reconstructs.", "quantifier": "every sequence of readings, flushes and time-sync records", "why_tests_cant": "unbounded sequences", "anchors": ["firmware-common/src/common/delta_logger/delta_logger.rs: DeltaLogger, DeltaLoggerReader"]}
{"id": "C29", "title": "Time-sync records in the sensor log (finding)", "statement": "A time-sync record that does not directly follow another one is in the log at its position. The same is false of a record that directly follows another one: it is missing from the log after a flush, it appears only behind the next reading although it was logged before it, and of three records in a row the second is never written. With 4-byte readings (the battery log) logging a time-sync record panics.", "quantifier": "every sequence of readings and time-sync records", "why_tests_cant": "unbounded sequences", "anchors": ["firmware-common/src/common/delta_logger/delta_logger.rs: log_unix_time, log, flush"]}
{"id": "C30", "title": "Delta encoding does not accumulate error", "statement": "Every reconstructed sensor value (ADC, barometer, IMU, magnetometer, GPS) differs from the logged value by at most the maximum error configured for one delta plus the float resolution, no matter how many deltas precede it; GPS time and satellite count are reconstructed exactly as long as GPS time does not go backwards. When GPS time steps back the delta wraps and the reconstructed time is 256 s late, accumulating (finding).", "quantifier": "every sequence of values", "why_tests_cant": "unbounded sequences", "anchors": ["firmware-common/src/common/delta_logger/delta_factory.rs", "firmware-common/src/common/fixed_point.rs"]}
{"id": "C31", "title": "Fixed-point quantisation", "statement": "A value inside the configured range is encoded and decodes to within the configured maximum error, codes are monotone in the value, and a value outside the range (infinities included) is refused rather than clipped; the capped variant encodes the nearest value in the range. NaN is neither encoded nor refused: both conversions panic (finding).", "quantifier": "every range, error bound and value", "why_tests_cant": "real-valued inputs", "anchors": ["firmware-common/src/common/fixed_point.rs: fixed_point_factory", "calculate-required-bits/src/lib.rs: calculate_required_bits"]}
{"id": "C32", "title": "Tagged record stream round trip", "statement": "Records written one after another with the tagged record logger are read back in order; a stream cut at any byte (power loss) yields a prefix of the records; an unknown tag ends the stream without inventing a record.", "quantifier": "every record sequence and every cut position", "why_tests_cant": "unbounded streams x cut positions", "anchors": ["firmware-common/src/common/serialized_enum.rs: create_serialized_enum"]}
{"id": "C33", "title": "Ring logs are bounded and drop only the oldest", "statement": "A ring log never keeps more than the configured number of segment files as long as nobody else removes files of its type: it removes only the oldest segments of its own type, and never touches other files or their content. (Finding: the ground command 'delete logs' removes the segment being written, and afterwards a full ring keeps only one segment for ever.)", "quantifier": "every history of writes, restarts and initial directory contents", "why_tests_cant": "unbounded histories", "anchors": ["firmware-common/src/common/delta_logger/ring_file_writer.rs", "firmware-common/src/common/delta_logger/ring_delta_logger.rs"]}
{"id": "C34", "title": "Loggers do not share file types (finding)", "statement": "Distinct loggers use distinct file types, so one ring log never removes or interleaves with another's segments — except the GPS and the low-G IMU loggers, which share both their types and remove each other's segments.", "quantifier": "every pair of loggers", "why_tests_cant": "a global property of the configuration", "anchors": ["firmware-common/src/common/file_types.rs"]}
{"id": "C35", "title": "Radio packet framing", "statement": "Any up- or downlink packet serialized with the shared key and deserialized by the peer yields the same packet, even when up to one byte in ten (one byte of a command or acknowledgement, four of a telemetry packet) was changed on the way; the data/ECC split computed by the receiver from the total length equals the sender's; the packet never exceeds the maximum size. This holds after any history of both packet builders.", "quantifier": "every packet, key and payload length", "why_tests_cant": "all packets and lengths", "anchors": ["firmware-common/src/common/vlp/packet_builder.rs", "firmware-common/src/common/vlp/packet.rs"]}
{"id": "C36", "title": "Malformed radio packets (finding)", "statement": "Every received byte string that is too short, cannot be corrected or has a wrong checksum is rejected with an error. A string that passes these checks crashes the receiver exactly when it names a known packet type and is too short for it, or (commands) names a pyro channel other than 1, 2, 3; such strings exist for every key.", "quantifier": "every byte string", "why_tests_cant": "all byte strings", "anchors": ["firmware-common/src/common/vlp/packet.rs: deserialize", "firmware-common/src/common/vlp/packet_builder.rs"]}
{"id": "C37", "title": "Telemetry packet fields", "statement": "Telemetry fields survive packing and the radio link: booleans, flight core states and up to 31 satellites exactly, the time in whole seconds, analogue values cut to their range within their configured error, a missing position as missing and a position as itself unless both coordinates are zero (finding: that one is reported as missing). The reported maxima are the largest of zero and the values set so far and never decrease. (Finding: NaN in an analogue value panics.)", "quantifier": "every telemetry state and update sequence", "why_tests_cant": "all states", "anchors": ["firmware-common/src/common/vlp/telemetry_packet.rs"]}
{"id": "C38", "title": "Uplink retry protocol (finding)", "statement": "The ground station transmits a command at most five times, every transmission is that command for every receiver with the key, and it stops at the first attempt that is acknowledged, fails or crashes; success is reported exactly when an acknowledgement was received in time, failure exactly when five transmissions went unanswered. Over a link that loses packets both ways, success implies the rocket received the command at least once (it executes it once per transmission heard, up to five times). Findings, proved as counterexamples: a radio error while sending drops the command and the caller of send waits for ever; an acknowledgement does not name its command, so any old one counts; if transmitting the acknowledgement fails the rocket drops the command; outside low power mode the rocket hears nothing unless it has telemetry to send.", "quantifier": "every pattern of losses, errors and timeouts", "why_tests_cant": "all loss patterns", "anchors": ["firmware-common/src/common/vlp/downlink_client.rs", "firmware-common/src/common/vlp/uplink_client.rs"]}
{"id": "C39", "title": "CAN identifier packing (finding)", "statement": "Packing then unpacking a CAN identifier is the identity on its fields and vice versa, distinct field values give distinct identifiers, the result fits 29 bits, and under CAN arbitration the identifier that comes first in the order of priority, message type, node type, node id (each numerically) wins; so a numerically smaller priority always wins. Finding: the documentation of send calls 7 the highest priority, but an identifier built with 7 loses against every other priority.", "quantifier": "every field combination", "why_tests_cant": "2^29 identifiers and their ordering", "anchors": ["firmware-common/src/common/can_bus/id.rs"]}
{"id": "C40", "title": "CAN message payloads (finding)", "statement": "Every CAN message decodes, under its message type, to the message that was encoded; payloads have the length of their type and fit a frame; unused bits do not matter. Finding: a payload of the wrong length, a flight event 4..7 or health state 3 crashes the node that decodes it (exactly these).", "quantifier": "every message and every payload", "why_tests_cant": "all payloads", "anchors": ["firmware-common/src/common/can_bus/messages.rs", "firmware-common/src/common/can_bus/message.rs"]}
{"id": "C41", "title": "Backup flight computer event order", "statement": "For every stream of barometer readings the backup flight computer announces armed, drogue, main and landed events at most once each and in that order.", "quantifier": "every reading stream", "why_tests_cant": "unbounded streams", "anchors": ["firmware-common/src/avionics/backup_flight_core.rs"]}
{"id": "C42", "title": "Backup flight computer deployment conditions", "statement": "After any number of readings, whatever the floating point operations do, the backup flight computer has not crashed, and the drogue has been announced exactly at the first reading later by more than the drogue delay than the first reading with published vertical speed below -20 m/s; the main chute exactly at the first reading later by more than its delay than the first reading, after the drogue, below the configured altitude above the first reading of the flight; landing at the first reading after that with a speed under 1 m/s. The published speed is the one used.", "quantifier": "every reading stream and profile", "why_tests_cant": "unbounded streams", "anchors": ["firmware-common/src/avionics/backup_flight_core.rs"]}
{"id": "C43", "title": "Manual (third) flight computer", "statement": "For every sequence of triggers and ticks the timer-based flight computer announces the drogue exactly at the first manual trigger, the main at the first later tick at least the first interval after the trigger, landing at the first tick at least the second interval after that one; each at most once.", "quantifier": "every tick stream and trigger time", "why_tests_cant": "unbounded streams", "anchors": ["firmware-common/src/avionics/backup_backup_flight_core.rs"]}
{"id": "C44", "title": "Primary flight computer stage order", "statement": "For every snapshot stream that does not crash it, the primary flight computer announces armed, ascent, coast, descent and landing at most once each and in this order, and each exactly at the first snapshot that meets its condition (mean of four accelerations above 50 after a hundred snapshots; mean magnitude under 10 after four; published speed not positive; then the drogue and main conditions; published speed under 0.5). 'Did not reach minimum apogee' is announced at most once, after descent, and excludes landing.", "quantifier": "every stream of sensor snapshots", "why_tests_cant": "unbounded streams", "anchors": ["firmware-common/src/avionics/flight_core.rs"]}
{"id": "C45", "title": "Primary flight computer never announces a deployment (finding)", "statement": "In no flight does the primary flight computer announce drogue or main deployment: it passes through these stages silently, so no pyro channel ever fires on it.", "quantifier": "every stream of sensor snapshots", "why_tests_cant": "absence over all streams", "anchors": ["firmware-common/src/avionics/flight_core.rs"]}
{"id": "C46", "title": "Pyro channels fire at most once and only on their event (finding)", "statement": "The deployment task of a parachute switches on only the channel the profile assigns, only after a flight computer announced that deployment, at most once per boot, for a pulse of at least 3 s that ends at its first poll after 3 s. It fires if the announcement is unread and among the last ten events; finding: an announcement followed by ten more events before the task runs is lost for good.", "quantifier": "every event history", "why_tests_cant": "unbounded histories", "anchors": ["firmware-common/src/avionics/mod.rs: avionics_main"]}
{"id": "C47", "title": "Arming requires both switches", "statement": "The rocket is armed exactly if software arming was last commanded on (leaving low power mode counts as a command to disarm) and the last output of the 1 s debouncer fed with the hardware switch is on; the flight computers exist exactly while it is armed, as soon as the tasks that take over a change have run.", "quantifier": "every history of switch changes", "why_tests_cant": "unbounded histories", "anchors": ["firmware-common/src/avionics/arming_state.rs"]}
{"id": "C48", "title": "Debounce", "statement": "A debounced signal takes the first value at once, changes later only to a value that has been stable for the debounce time, and never reports two equal values in a row.", "quantifier": "every timed input history", "why_tests_cant": "all timed histories", "anchors": ["firmware-common/src/common/debounced_signal.rs"]}
{"id": "C49", "title": "Moving averages report the mean of the last n samples (finding for the running-sum one)", "statement": "After any history of additions and clears, the moving average used by the flight computer reports the sum of exactly the last n samples since the last clear divided by their number (zero if there are none), with whatever arithmetic is used, and says it is full exactly if at least n samples were added since the clear. The running-sum one used by the calibrator reports the same mean in exact arithmetic; with rounding a large sample that already left its window can remain in the average for ever (finding).", "quantifier": "every sample history and window size", "why_tests_cant": "unbounded histories", "anchors": ["firmware-common/src/common/moving_average.rs", "ferraris-calibration/src/moving_average.rs"]}
{"id": "C50", "title": "Tickers do not drift and never tick early (finding for skipping)", "statement": "With exact times and however the calls are spaced and delays oversleep, the k-th tick of a ticker returns at start + k·interval (plus the oversleep of that call only) if it is called for before that time and at once otherwise, so no tick is early, at most (T−start)/interval ticks return by time T, and overdue ticks are delivered in a burst, not skipped. next_skip_missed returns at the least multiple of the interval from the call on; it ignores the ticker's start, and called again while the clock reads the same it delivers the same tick again (findings).", "quantifier": "every sequence of delays", "why_tests_cant": "all timings", "anchors": ["firmware-common/src/common/ticker.rs"]}
{"id": "C51", "title": "GPS-disciplined clock is right once ready (finding)", "statement": "After any history of GPS times, PPS edges and waiting tasks, the clock is changed only by a PPS edge less than 800 ms after the last GPS time was received, and then shows that second plus one at the edge and publishes it; before the first such edge it shows the time since boot. In a world where GPS times arrive during the second they name and edges are at whole seconds, it shows the Unix time exactly from then on. Up to ten tasks can wait for it and each is woken once. Findings: without any GPS time an edge in the first 800 ms after boot sets the clock to 1970; an eleventh waiting task panics.", "quantifier": "every history of GPS times and PPS edges", "why_tests_cant": "all histories", "anchors": ["firmware-common/src/common/unix_clock.rs"]}
{"id": "C52", "title": "Zero-copy channel is a lossy FIFO unless a receive meets a send on a full channel (finding)", "statement": "On any interleaving, the value behind a receiver guard never changes while it is held. If no poll of receive happens in the middle of a send while all n slots are unread, the channel behaves as an ideal queue that drops the oldest beyond n: values arrive unchanged, in order, at most once, and a poll delivers the oldest unread value at once. Otherwise a value can arrive out of order and twice (finding).", "quantifier": "every interleaving of send and receive", "why_tests_cant": "all schedules", "anchors": ["firmware-common/src/common/zerocopy_channel.rs"]}
{"id": "C53", "title": "Multi-waker wakes every registered task", "statement": "After wake, every task whose registration was accepted since the last wake has been woken, a task is never registered twice, and registration is refused only when N other tasks are registered.", "quantifier": "every history of register/wake", "why_tests_cant": "all histories", "anchors": ["firmware-common/src/common/multi_waker.rs", "vl8-ctrl-protocol/src/multi_waker.rs"]}
{"id": "C54", "title": "RPC framing", "statement": "Every byte stream a server receives falls into requests with matching checksums, requests with other checksums and bytes that are no command, followed by an unfinished request, and the server handles exactly the first kind, in order and with the bytes received. Whatever was received before, the client's reset succeeds and leaves the server at a command boundary with nothing on its way to the client, so the next request is handled with the bytes sent and, answered in time, the call returns the handler's response.", "quantifier": "every byte stream received before", "why_tests_cant": "all byte streams", "anchors": ["firmware-common/src/common/console/create_rpc.rs"]}
{"id": "C55", "title": "Module bus codec (finding: payload not validated)", "statement": "Every package encoded for the module bus is decoded to the same package, a frame whose length byte disagrees with its size is rejected, an unknown number is rejected, and packages of different kinds have distinct ids. Finding: the payload is not validated: a payload shorter than its structure, or a boolean byte other than 0 and 1, is undefined behaviour, and there is no checksum.", "quantifier": "every package and byte string", "why_tests_cant": "all packages and byte strings", "anchors": ["vl8-ctrl-protocol/src/codec.rs"]}
{"id": "C56", "title": "Module event queue", "statement": "Events polled from a module come out in order, and when more than five are pending only the oldest are dropped; the reported number of events left is exact.", "quantifier": "every history of pushes and polls", "why_tests_cant": "unbounded histories", "anchors": ["vl8-ctrl-protocol/src/slave.rs"]}
{"id": "C57", "title": "Module bus requests (finding: late answers)", "statement": "A master request writes the frame at least once and at most five times, returns the first valid answer and otherwise the last error; the module handles it at most five times; if the line delivers nothing late, a success is the module's answer to this request. Findings: a late answer is taken for the answer to a later request, and a request that reports an error may have been done.", "quantifier": "every pattern of failures", "why_tests_cant": "all patterns", "anchors": ["vl8-ctrl-protocol/src/master.rs: request"]}
{"id": "C58", "title": "NMEA sentences are validated (finding: crashes)", "statement": "A sentence with a wrong checksum is refused and never changes the reported position; any single changed byte in the body of a valid sentence is detected; a sentence with 6 to 40 separators does not crash the parser. Findings: text with a passing checksum and too few or too many fields crashes the parser, transposed characters pass, and the milliseconds of the time are hundredths.", "quantifier": "every sentence", "why_tests_cant": "all sentences", "anchors": ["tiny-nmea/src/lib.rs"]}
{"id": "C59", "title": "GPS sentence assembly (finding: unframed text)", "statement": "Sentences that begin with $ and end with a line feed, of at most 84 characters, are assembled exactly and in order however the serial driver splits the bytes into reads and whatever was in the buffer before. Findings: text after a line feed that does not begin with $ is doubled if it comes in the same read; a location is published for every line, with the old position if the line was refused.", "quantifier": "every byte stream and split", "why_tests_cant": "all splits", "anchors": ["firmware-common/src/driver/uart_gps.rs"]}
{"id": "C60", "title": "Timestamp conversion (finding: mixed runs)", "statement": "Boot timestamps are converted to unix time by linear interpolation through the recorded sync points: exact at sync points, linear between neighbours, monotone also outside the recorded range when the sync points are, no result with fewer than two points. Findings: two points with equal boot timestamps make results infinite, and points of two runs in one table give times that are in neither run.", "quantifier": "every list of sync points and timestamp", "why_tests_cant": "all lists", "anchors": ["vl-host-lib/src/common/unix_timestamp_lut.rs"]}
{"id": "C61", "title": "Pulling a file from a device (finding: damaged pages, interrupted transfers)", "statement": "Pulling a file over the console while other tasks use the file system yields its whole content and leaves it closed; listing yields the existing files of the type in order. Damaged pages are not reported to the user of the host tool: a bad page behind a multiple of 128 good bytes ends the transfer early with success, any other one is left out silently. An abandoned transfer leaves the file open, and losing the connection during a transfer panics the device.", "quantifier": "every file content and corruption pattern", "why_tests_cant": "all contents", "anchors": ["vl-host-lib/src/common/pull_file.rs", "firmware-common/src/common/console/vl_rpc.rs: ReadFile"]}
{"id": "C62", "title": "Configuration files (finding: not atomic)", "statement": "Reading a configuration returns the first bytes of the oldest file of its type, or none if there is no file, it is too short, it is open, or a page of it fails its checksum. After a successful write the next read returns what was written and all other files are unchanged; a write fails only if 32 files are open or the chip is full, and over the console every failure is a panic. After a power loss at any point of a write the configuration reads as the old one, the new one or none, never a mixture (any flash operation, torn in any way). It is not atomic: for every update there is a crash point that leaves no configuration; and an old configuration that is open during the write stays in effect after it.", "quantifier": "every configuration and crash point", "why_tests_cant": "all crash points", "anchors": ["firmware-common/src/common/config_file.rs"]}
{"id": "C63", "title": "Buffered logger (finding: flush hangs)", "statement": "Readings given to the buffered logger reach the logger behind it in order and each at most once, under every interleaving of caller and runner. From the first poll of the runner on, only the oldest readings are lost, only when the buffer is full, and the newest CAP readings are never lost; without overflow nothing is lost. A flush request makes the runner hand over everything queued and then flush. into_inner returns the logger only after everything queued was handed over and flushed. Findings: flush() never returns to its caller (no response is ever sent); readings given before the runner first runs are silently lost although log reports success; into_inner before the runner first runs makes the runner panic.", "quantifier": "all sequences of log/flush/cancel/into_inner calls and polls of the runner, all capacities", "why_tests_cant": "interleavings of two tasks and unbounded histories; the hang only shows as the absence of an event", "anchors": ["firmware-common/src/common/delta_logger/buffered_logger.rs: BufferedLogger, BufferedLoggerRunner::run", "firmware-common/src/common/rpc_channel.rs: RpcChannelClient::call"]}
{"id": "C64", "title": "Continuity is read on the selected pyro channel (finding)", "statement": "Control of a pyro selection addresses the selected channel. Continuity does for channels 1 and 2; finding: for channel 3 it is read on channel 2. With separate continuity devices both continuity tasks report the first reading and every change, and no claim of a device fails; finding: if both use the same device (channels 2 and 3, or equal selections), the firmware panics as soon as both continuity tasks have run, which is right at the start of the flight software.", "quantifier": "every selection", "why_tests_cant": "a mapping property", "anchors": ["firmware-common/src/common/pyro_macro.rs"]}
{"id": "C65", "title": "Calibration sequence (finding)", "statement": "The interactive calibrator goes through its states in one fixed order (for each axis: the still position with the axis up, with its variance phase; with the axis down, with its variance phase; the rotation), leaves a sampling phase exactly when it has more than 300 readings spanning more than 3 s, counts a sensor as at rest only after readings spanning at least 4.9 s whose spread stays under the threshold, and computes its result from exactly the readings taken in the sampling phases; parameters are available if and only if the state is Success. Findings: a further reading after the result panics, and a sensor turning at a constant rate counts as at rest.", "quantifier": "every stream of IMU readings", "why_tests_cant": "unbounded streams", "anchors": ["ferraris-calibration/src/interactive_calibrator.rs"]}
{"id": "C66", "title": "Ids stay unique across power loss (finding)", "statement": "A file id that was handed out is never handed out again, also when power was lost during a directory update (pages programmed completely or not at all) and the file system restarted, provided the footer of the directory being written does not cross a page boundary. Finding: without that proviso it is false: there is a history in which the torn footer of a page-crossing directory still parses with a smaller highest id, and the next created file gets the id of an earlier file.", "quantifier": "every history of directory calls, every power loss during an update, every later creation", "why_tests_cant": "depends on where a record of a table of arbitrary size meets a page boundary and on the crash point", "anchors": ["vlfs/src/fs/at_builder.rs: commit", "vlfs/src/fs/allocation_table.rs: AllocationTableFooter, read_latest_allocation_table"]}
{"id": "C67", "title": "Opening for append is not crash-safe (finding)", "statement": "A user would expect that power loss while an existing closed file is being opened for write leaves its content as it was. This does not hold: there is a reachable state with a closed file holding bytes and a point during open_file_for_write at which power loss leaves a chip that mounts and lists the file, but on which those bytes are gone.", "quantifier": "the crash points of open_file_for_write (an existence claim with a reachable witness, for every CRC function)", "why_tests_cant": "Needs every crash point between the flash operations that move the last sector.", "anchors": ["vlfs/src/fs/writer.rs: VLFS::open_file_for_write"]}
{"id": "C68", "title": "Uplink commands are not bound to a time or session (finding)", "statement": "A recorded uplink command frame is accepted again, as the same command, by every receiver with the same key at any later time and after any history: nothing in the frame or the receiver state distinguishes a replay.", "quantifier": "every command, key, history of both sides and time", "why_tests_cant": "all histories and times", "anchors": ["firmware-common/src/common/vlp/packet_builder.rs: get_nonce", "firmware-common/src/common/vlp/packet_builder.rs: deserialize_uplink"]}
{"id": "C69", "title": "Strain gauge recording state (finding)", "statement": "After any sequence of CAN frames with at least one data frame the strain gauge board records exactly if the newest avionics status says armed and the newest flight event is not the landing; its time synchronization is the newest time message. Finding: a single malformed frame of any node crashes the board.", "quantifier": "every sequence of received frames", "why_tests_cant": "unbounded histories of frames", "anchors": ["firmware-common/src/strain_gauges/mid_prio.rs", "firmware-common/src/common/can_bus/messages.rs"]}
{"id": "C70", "title": "No deployment unless armed (finding)", "statement": "No pyro channel is switched on in a boot in which the rocket was not armed before; flight events are published only while it is armed or the message about the disarming is still unread. Finding: disarming does not stop a deployment already announced.", "quantifier": "every interleaving of the avionics tasks and every input history", "why_tests_cant": "unbounded interleavings", "anchors": ["firmware-common/src/avionics/mod.rs: avionics_main"]}
{"id": "C71", "title": "Low power mode (finding)", "statement": "Low power mode is on exactly if the last handled packet switched it on. Finding: switching it on leaves the rocket armed, but until the next packet no reading reaches the flight computer, so it announces nothing; switching it off disarms.", "quantifier": "every interleaving of the avionics tasks and every input history", "why_tests_cant": "unbounded interleavings", "anchors": ["firmware-common/src/avionics/mod.rs: avionics_main"]}
{"id": "C72", "title": "Flight events on the CAN bus (finding)", "statement": "A landing announced since the task last looked and among the last ten events is sent on the CAN bus. Finding: no other flight event (ignition, coast, apogee) is ever sent, because the flight computers in use never announce them.", "quantifier": "every interleaving of the avionics tasks and every input history", "why_tests_cant": "unbounded interleavings", "anchors": ["firmware-common/src/avionics/mod.rs: avionics_main"]}
{"id": "C73", "title": "Camera follows arming (finding)", "statement": "Outside the minute after a landing, the camera task switches the camera on at each arming and off at each disarming, in order, if at most ten events are unread; a landing switches it off at the first poll a minute later. Finding: an arming during that minute can be lost, so that an armed rocket does not record.", "quantifier": "every interleaving of the avionics tasks and every input history", "why_tests_cant": "unbounded interleavings", "anchors": ["firmware-common/src/avionics/mod.rs: avionics_main"]}
{"id": "C74", "title": "Panics of the avionics (finding)", "statement": "The avionics tasks panic exactly at a failed sensor read outside low power mode; the flight computers never panic. Finding: one failed read ends everything, no deployment happens after it.", "quantifier": "every interleaving of the avionics tasks and every input history", "why_tests_cant": "unbounded interleavings", "anchors": ["firmware-common/src/avionics/mod.rs: avionics_main"]}
{"id": "C75", "title": "Causes of a deployment", "statement": "A pyro channel is switched on only if before that, with the flight computers set up, the vertical speed estimated from the barometer was a fall at more than 20 m/s, or a manual deployment command was handled.", "quantifier": "every interleaving of the avionics tasks and every input history", "why_tests_cant": "unbounded interleavings", "anchors": ["firmware-common/src/avionics/mod.rs: avionics_main", "firmware-common/src/avionics/backup_flight_core.rs", "firmware-common/src/avionics/backup_backup_flight_core.rs"]}
{"id": "C76", "title": "Logging stops when storage is full", "statement": "Exactly the readings taken outside low power mode while at least 1 MiB was free at the last check are handed to the loggers, in order.", "quantifier": "every interleaving of the avionics tasks and every input history", "why_tests_cant": "unbounded interleavings", "anchors": ["firmware-common/src/avionics/mod.rs: avionics_main"]}
{"id": "C77", "title": "Ground test firing (finding)", "statement": "In ground test mode nothing is switched unless the first packet is a deployment command; then only the selected channel, on at least 3 s after the command, off at least 3 s later, once, and the logged fire time is the time it was switched on. Finding: the arming switch is ignored, and every packet after the first is ignored.", "quantifier": "every history of packets, switch changes and polls", "why_tests_cant": "unbounded histories", "anchors": ["firmware-common/src/ground_test_avionics/mod.rs: ground_test_avionics"]}
{"id": "C78", "title": "Vertical speed estimate is limited and ignores jumps", "statement": "In exact arithmetic and for readings with increasing times, the vertical speed reported by the barometric filter is zero at first and then the second-order low-pass of the used rates of climb, except that between any two readings it never falls faster than 45 m/s per second; a rate above 3000 m/s (either way) and every reading of the 500 ms after it have no influence at all. Hence whatever the barometer reads, the backup flight computer does not announce the drogue within (v+20)/45 s of a published speed v preceding its detection of the fall.", "quantifier": "every recording with increasing times, every altitude function, every filter coefficients", "why_tests_cant": "All barometer recordings of any length; noninterference compares pairs of recordings", "anchors": ["firmware-common/src/avionics/vertical_speed_filter.rs:VerticalSpeedFilter", "firmware-common/src/avionics/backup_flight_core.rs:BackupFlightCore"]}
{"id": "C79", "title": "Pressure surges are marked to be ignored for 500 ms", "statement": "In exact arithmetic and for readings with times from zero on, the barometer reading filter never panics; within 500 ms from a reading at which the pressure rose by more than 3000 Pa/s it marks readings as to be ignored and gives the reading of the latest such surge, and at all other times it gives the reading unchanged and not marked.", "quantifier": "every recording, every reading", "why_tests_cant": "All recordings of any length", "anchors": ["firmware-common/src/avionics/baro_reading_filter.rs:BaroReadingFilter"]}
{"id": "C80", "title": "A request damaged in one byte is not executed", "statement": "Two byte strings that differ in one byte have different CRC-8 checksums; a request in which one payload byte or the checksum was changed on the line is not handled, not answered and changes nothing, and the server is at a command boundary after it.", "quantifier": "every request, every position, every change of one byte", "why_tests_cant": "All payloads and positions", "anchors": ["firmware-common/src/common/console/create_rpc.rs:run_rpc_server"]}
{"id": "C81", "title": "RPC answers belong to their calls only if all come in time (finding)", "statement": "From a command boundary with an empty line, if every call is answered before its timeout, each call of any sequence returns the response to its own request. Otherwise not: an answer that comes after the timeout is taken by the next call as its own, and all later calls are answered with the response to the call before until a reset; and the bytes of a reset can complete an unfinished request with a matching checksum, so that a request the client never sent is handled (findings).", "quantifier": "every sequence of calls", "why_tests_cant": "All sequences of calls", "anchors": ["firmware-common/src/common/console/create_rpc.rs:RpcClient"]}
{"id": "C82", "title": "Module events on their way to the drivers (finding: events get lost)", "statement": "The events the master's polls return are the module's events, in order, none twice, on any line that loses or delays packages; a driver takes only its own events, each once, in order. Findings: an event whose answer is lost on the line is gone although the request is repeated, and the master keeps a single event, so an event is gone if the next poll brings another before its driver ran.", "quantifier": "all histories of pushes and requests, all losses and delays of packages, all schedules of the driver tasks", "why_tests_cant": "needs every combination of losses, delays and task schedules", "anchors": ["vl8-ctrl-protocol/src/master.rs", "vl8-ctrl-protocol/src/master_drivers.rs", "vl8-ctrl-protocol/src/slave.rs"]}
{"id": "C83", "title": "A file being read is stable (finding: not against log rotation)", "statement": "While a file without a writer is open for reading, reads of any sizes return the content it had when it was opened, whatever other tasks do with the file system between the reads. The only call that can drop an open file from the directory is the rotation of a ring log, which drops the oldest segments whether they are open or not.", "quantifier": "every reachable file system, every sequence of reads and every interleaving with other calls", "why_tests_cant": "interleavings and histories are unbounded", "anchors": ["vlfs/src/fs/reader.rs: FileReader", "vlfs/src/fs/mod.rs", "firmware-common/src/common/delta_logger/ring_file_writer.rs: create_new_segment", "firmware-common/src/common/vl_rpc.rs: ReadFile"]}
{"id": "C84", "title": "Calibration of a sensor is exact (finding)", "statement": "Calibrating a sensor with linear errors (any invertible accelerometer matrix and offset, any invertible gyroscope matrix, gravity influence and offset) in a session carried out as documented, with equally many readings in the two directions of each axis, yields parameters that turn every reading of that sensor into the true acceleration and angular rate. Finding: with unequal numbers of readings the gyroscope offset is wrong whenever gravity influences the gyroscope.", "quantifier": "every sensor, every documented session, every later reading", "why_tests_cant": "ranges over all real sensors and sessions of any length", "anchors": ["ferraris-calibration/src/calibrator.rs", "ferraris-calibration/src/calibration_info.rs", "ferraris-calibration/src/interactive_calibrator.rs"]}
{"id": "C85", "title": "Reported noise of a calibrated sensor (finding)", "statement": "The noise reported by a calibration of a noise-free sensor is not zero when the accelerometer has an offset: the mean square deviations are passed through the calibration like a reading, offset included, so what is reported is the square root of the calibrated offset.", "quantifier": "every noise-free sensor and documented session", "why_tests_cant": "ranges over all real sensors", "anchors": ["ferraris-calibration/src/calibrator.rs", "ferraris-calibration/src/calibration_info.rs"]}
{"id": "C86", "title": "Calibration parameter file (finding)", "statement": "The calibration parameters are stored bit for bit (156 bytes) and read back as written after a completed save; after power loss at any point of the save, reading gives the old parameters, the new ones, none, or panics, never a mixture. Findings: for every save there is a point of power loss after which reading panics (a file shorter than 156 bytes), and reading also panics instead of returning none when a page of the file is damaged or the file is open.", "quantifier": "all parameters (all bit patterns), every history of the file system, every point of power loss", "why_tests_cant": "crash points and histories cannot be enumerated by tests", "anchors": ["ferraris-calibration/src/calibration_info.rs", "firmware-common/src/common/imu_calibration_file.rs", "firmware-common/src/common/console/programs/calibrate.rs"]}
{"id": "C87", "title": "A sensor log survives power loss, end to end", "statement": "Readings and time-sync records are logged into a file of the file system while anything else uses the file system. Whenever power is lost (between calls, or at any flash operation of a call of the logger or of another user), the chip mounts, the log file opens, and reading it back never panics, yields a prefix of what was logged, and before the end all entries logged up to the last successful flush. A log that was flushed and closed reads back exactly.", "quantifier": "every history of the logger and of other file system users with successful logger calls, every crash point, every chunking of reads", "why_tests_cant": "crash points and interleavings of two layers (bit-level log format on a flash file system) cannot be enumerated", "anchors": ["firmware-common/src/common/delta_logger/delta_logger.rs: DeltaLogger", "vlfs/src/fs/writer.rs: FileWriter"]}
{"id": "C88", "title": "Ring of sensor logs: bounded, newest kept, survives power loss, reads back in order", "statement": "While readings are logged to a ring of sensor logs (at least two segments per ring), with new segments begun, swapped in, flushed and closed at any time and other users of the file system in between: the directory lists at most the configured number of files of the type, holding the newest segments in order and always the current one; a segment is only gone when the ring is full and no file of an earlier ring is left. Power loss at any point (except during the directory update of a rotation that drops a file: C93) leaves a chip that mounts and on which every listed segment reads back as a prefix of its entries with at least what was flushed; all but the last two segments are complete. A closed ring reads back exactly, and the ring reader returns the entries of all segments in order, then the end, without panicking. (finding) With one segment per ring, a new segment removes the file being written.", "quantifier": "every history of logger calls and segment changes, every start state of the file system, every crash point outside the excluded call, every chunking of reads", "why_tests_cant": "the interleaving of logging with the steps of a segment change, times the crash points, is unbounded", "anchors": ["firmware-common/src/common/delta_logger/ring_delta_logger.rs: RingDeltaLogger RingDeltaLoggerReader", "vlfs/src/fs/at_builder.rs: write_new_file_and_open_for_write"]}
{"id": "C89", "title": "Sensor log on a chip that has become full (finding: a caller that goes on logging runs into a panic)", "statement": "As long as every call succeeded, logging a reading does not panic; the first call that fails answers DeviceFull, and then no sector of the chip is free. From then on, while the chip stays full, no call of the logger hands a byte to the file. (Finding) Every further reading that does not come too early is nevertheless added to the logger's bit buffer, which is cleared only after a successful write, so only a bounded number of further readings (8*buffer bytes / shortest entry, a handful for the firmware's sensors) is answered with an error: the next one panics and stops the computer. The logger task ignores these errors and goes on (try_or_warn), so a log that is fed for ever with nobody freeing storage always ends in a panic.", "quantifier": "every recording, every interleaving of later log / time-sync / flush calls and other file system use that leaves the chip full, every reading and random choice", "why_tests_cant": "Filling a 64 MiB chip and then exhausting the bit buffer in each possible state is out of reach of unit tests; the bound must hold for every sensor type and every history.", "anchors": ["firmware-common/src/common/delta_logger/delta_logger.rs:log", "firmware-common/src/common/delta_logger/bitslice_serialize.rs:BitSliceWriter", "firmware-common/src/common/delta_logger/buffered_logger.rs:run", "vlfs/src/fs/writer.rs:extend_from_slice"]}
{"id": "C90", "title": "Two tiers of sensor logs do not disturb each other", "statement": "The avionics keep two rings of log files for every sensor, a fast and a slow one, behind a merged logger. A reading handed to the merged logger is offered to both rings, and each records it in its newest segment unless it comes too early for that ring; the answer says whether at least one did. A failing ring does not keep the reading from the other, and the error names the ring that failed. Each ring stays a ring of sensor logs with all guarantees of C88 whatever the other one does and in whatever order their calls and segment changes interleave, and after a power loss during a call on either ring every segment of both rings that is on the chip reads back with at least what was flushed and at most what was logged.", "quantifier": "all sensor codecs, all ring sizes of at least two, all pairs of different file types, all reachable file systems, all interleavings of calls on the two rings and of other users of the file system, all moments of a power loss except those excluded in C88", "why_tests_cant": "The guarantee is about every interleaving of two loggers on one flash chip and every torn flash operation; a unit test sees a handful of schedules.", "anchors": ["firmware-common/src/common/delta_logger/merged_logger.rs", "firmware-common/src/avionics/mod.rs", "firmware-common/src/common/delta_logger/ring_delta_logger.rs:RingDeltaLogger"]}
{"id": "C91", "title": "Tables of downloaded readings (finding: second tier, GPS)", "statement": "Downloading a type of sensor log and converting it to a table gives, file by file in the order of creation, exactly the readings that were logged (after a power loss: at least what was flushed), each with the unix time the time-sync records of its own file give; these unix times do not run backwards; with fewer than two records there are none. The device is left as it was. Findings: the table of second tier barometer readings is made from the first tier's files, decoded with the wrong number format, so the second tier's readings are never downloaded; GPS logs have the type of the IMU logs and end up in the IMU table.", "quantifier": "every history of the device, every log content, every way the bytes arrive", "why_tests_cant": "unbounded logs and histories, all interleavings of sync records and readings", "anchors": ["vl-host-lib/src/common/parse_delta_readings.rs: parse_delta_readings", "vl-host-lib/src/common/pull_file.rs: pull_files", "vl-host-lib/src/common/sensor_reading_csv_writer.rs", "vl-host-lib/src/vl/pull_flight_data.rs: pull_flight_data"]}
{"id": "C92", "title": "Strain gauge samples from the ADC to the tables (finding: gaps, rotation, unused spectra)", "statement": "For every sequence of ADC reads, after every 40th read one message per channel is sent with the start time of the batch and the low-passed sample of each of its reads; the messages are stored in order across rotations; and the tables made from the downloaded files show for channel c in row j the sample of read j (rounded to f16) under the start time of its batch plus 5 ms per read, for every read of the complete batches and nothing else. Once a time sync is known every segment holds the newest one. A file cut by a power loss gives its complete records. Findings: after a pause in the middle of a batch samples are shown earlier than they were taken; up to 39 reads are not stored at the end; a reading arriving in the middle of a rotation is stored without time sync and makes the next rotation be skipped; the spectra computed every batch are never stored; and since the CAN task is not run (commented out) no file ever has a time sync.", "quantifier": "all sequences of reads of any length with any samples, any filter, any stale content of the message slots, any interleaving of messages, time syncs and rotations, any chunking of the host's reads, any cut", "why_tests_cant": "the position of windows, batches, channels and rows in unbounded sequences, the carried filter state and the interleaving with rotations cannot be covered by sampled runs", "anchors": ["firmware-common/src/strain_gauges/low_prio.rs:SGChannelProcessor", "firmware-common/src/strain_gauges/low_prio.rs:sg_low_prio_main", "firmware-common/src/strain_gauges/mid_prio.rs:sg_mid_prio_main", "firmware-common/src/common/delta_logger/ring_file_writer.rs:RingFileWriter", "vl-host-lib/src/ozys/parse_sg_data.rs:parse_sg_data", "vl-host-lib/src/ozys/sg_data_csv_writer.rs:SGCSVWriter", "vl-host-lib/src/ozys/pull_ozys_data.rs:pull_ozys_data"]}
{"id": "C93", "title": "Power loss while a ring drops its oldest segment", "statement": "When power is lost while the oldest files of a type are dropped and a new file is begun (one call, as a full ring of logs does for a new segment), the chip mounts again; the directory lists the same files as before, or all files except the dropped ones plus the new one; every file that was not to be dropped keeps its content (everything for closed files, at least the flushed bytes for open ones). For a ring of sensor logs: every segment except the oldest one reads back.", "quantifier": "every reachable file system, every number of dropped files, every prefix of the operations issued to the flash, every full ring of sensor logs", "why_tests_cant": "the crash point falls between any two operations of a call whose length depends on the directory and on the chains of the dropped files", "anchors": ["vlfs/src/fs/at_builder.rs: write_new_file_and_open_for_write", "vlfs/src/fs/sectors_mng.rs: claim_avaliable_sector", "firmware-common/src/common/delta_logger/ring_delta_logger.rs: create_new_segment"]}
{"id": "C94", "title": "Fair mutex: exclusion and progress (finding: not fair, wake-ups lost)", "statement": "In every schedule at most one guard of a FairMutex exists, and a free mutex is given to any task that polls lock(). With at most N tasks, no dropped lock() and polls after wake-ups only, a waiting task stands in the queue or has been woken, and whenever the mutex is free and tasks wait, one of them has been woken. A release wakes the longest queued task only. (finding) The mutex is not fair: a task that waits all the time can be overtaken any number of times; with more than N waiting tasks a waker is dropped and its task waits for ever on a free mutex; a woken task that drops its lock() takes the wake-up with it.", "quantifier": "every schedule of polls, guard drops and cancellations of any number of tasks, every queue capacity", "why_tests_cant": "the number of interleavings of tasks is unbounded, and the losses need particular ones", "anchors": ["vlfs/src/utils/fair_mutex.rs: FairMutex lock FairMutexGuard"]}
{"id": "C95", "title": "Calls between tasks get their own answers (finding: dropped and concurrent calls)", "statement": "Calls through an RpcChannel: the server handles requests in the order sent, each at most once, and the k-th call that returns gets the answer to the k-th request sent. When calls do not overlap and none is dropped while it waits for its answer, every call returns the answer to its own request; a call in progress returns as soon as the server goes on. (finding) After d calls were dropped while waiting, every later call returns the answer to the request sent d requests earlier; the serial and the USB console share one channel, and with both in a call each can get the other's answer; on a device in another mode than GCM nobody answers, and the console that asks for an uplink waits for ever.", "quantifier": "every schedule of any number of callers and the server, every point at which a call is dropped", "why_tests_cant": "the mix-up needs a particular interleaving of two consoles or a dropped call", "anchors": ["firmware-common/src/common/rpc_channel.rs: RpcChannel RpcChannelClient RpcChannelServer", "firmware-common/src/gcm/mod.rs: gcm_main", "firmware-common/src/vl_main.rs: vl_main"]}
{"id": "C96", "title": "Downlink packets handed to the console (finding: the oldest, not the newest)", "statement": "Asking the ground station for a downlink packet returns a packet that was received, and no packet is returned twice; the answer is the first packet received since the previous question, or none if none was received. (finding) So the packet can be older than any number of packets that were received since and are lost.", "quantifier": "every sequence of received packets and questions", "why_tests_cant": "the loss depends on how many packets arrive between two questions", "anchors": ["firmware-common/src/gcm/mod.rs: gcm_main", "firmware-common/src/common/console/vl_rpc.rs: GCMPollDownlinkPacket"]}
{"id": "C97", "title": "Every page program hits an erased page", "statement": "Whatever calls are made (create, remove, rotate, open, write, flush, close, start, also after power losses), every flash page the file system programs is inside the chip, starts at a multiple of 256 and is completely erased when it is programmed; every erase is an aligned 4, 32 or 64 KiB block inside the chip. Therefore the chip (which can only clear bits) and the flash simulations of the tests (which replace pages) end with the same content, also when power is lost between two operations.", "quantifier": "every reachable state of the file system (all histories of calls, restarts and power losses), every next call, every content of the chip at start", "why_tests_cant": "the test flash replaces page content, so a second program of a page is invisible in tests; only all histories of allocation, erase-ahead and power loss show that it never happens", "anchors": ["vlfs/src/fs/writer.rs:FileWriter", "vlfs/src/fs/at_builder.rs:ATBuilder", "vlfs/src/fs/sectors_mng.rs:claim_avaliable_sector_and_erase", "vlfs/src/fs/init.rs", "vlfs/src/flash/memory_flash.rs:write_256b"]}
{"id": "C98", "title": "Blink patterns (finding)", "statement": "A lamp that runs a pattern (durations in ms, alternately on and off, zero durations allowed) shows at every moment, in every round however late, what the pattern prescribes for a moment at most as much earlier as one switching and one late wake-up take (exactly, if these take no time): latencies do not accumulate. No switching ever happens early. Every round waits, so other tasks run, exactly if the pattern has an entry that is not zero; finding: a pattern of zeros only hangs the firmware.", "quantifier": "all patterns, all start times, all latencies of lamp and timer (up to 1 ms in sum for the tight bound), all rounds", "why_tests_cant": "drift over an unbounded number of rounds and all latencies cannot be sampled", "anchors": ["firmware-common/src/common/indicator_controller.rs:IndicatorController::run_single", "firmware-common/src/common/indicator_controller.rs:IndicatorController::run"]}
{"id": "C99", "title": "Start-up: which mode runs (finding)", "statement": "The flight software and the ground test run exactly if the configuration selects them, USB was not connected in the first 500 ms, flight profile / log files / sensors / radio parameters are in order and the parachute channels do not share a continuity device. With USB at boot only the ground station runs; without configuration nothing runs; then the consoles can be used. A compiled-in configuration wins. Start-up panics only for the named causes; no other claim of a device fails. Findings: a failed self test sounds like a passed one; a magnetometer that cannot be reset makes the flight computer panic although it is meant to be optional; a ground station with invalid stored radio parameters panics at every start before the consoles run.", "quantifier": "all configurations, USB times, flight profiles, outcomes of resets, readings and file creation", "why_tests_cant": "the combinations of configuration, hardware outcome and order of polling are not reachable in unit tests", "anchors": ["firmware-common/src/vl_main.rs:vl_main", "firmware-common/src/avionics/mod.rs:avionics_main", "firmware-common/src/avionics/self_test.rs:self_test", "firmware-common/src/common/vl_device_manager.rs:claim_devices", "firmware-common/src/common/device_config.rs:LoraConfig", "firmware-common/src/gcm/mod.rs:gcm_main", "firmware-common/src/ground_test_avionics/mod.rs:ground_test_avionics", "firmware-common/src/vacuum_test/mod.rs:vacuum_test_main"]}
{"id": "C100", "title": "Flash transfers of any length (finding)", "statement": "Reading n bytes through the flash interface returns the n bytes at that address for every n up to 4096 on every driver, and for every n on a driver that leaves the five scratch bytes of a buffer alone. (Finding) On a driver that puts the SPI command in these five bytes, as the interface asks it to, a read of more than 4096 bytes returns, instead of the last bytes before every 4 KiB boundary, the command bytes of the next chunk. A write of a multiple of 256 bytes programs exactly these bytes, and they read back; (finding) a write of any other length programs the rest of its last page from whatever the buffer holds after the data. Too small a buffer is a panic, not a wrong answer.", "quantifier": "all flash contents, addresses, lengths, buffers and drivers", "why_tests_cant": "the tests of the repository use the memory driver, which does not touch the scratch bytes, and short transfers", "anchors": ["vlfs/src/driver/flash.rs:Flash::read", "vlfs/src/driver/flash.rs:Flash::write", "vlfs/src/driver/memory_flash.rs", "vlfs/src/driver/file_flash.rs"]}
{"id": "C101", "title": "Buzzer queue and arming beeps (finding)", "statement": "Tones asked for are played in the order asked for, none twice, never overlapping and each followed by its silence; while no more than ten tones wait none is lost. (Finding) If eleven are asked for while the runner is busy the oldest is silently lost; tones asked for before the runner first runs are lost. The arming task asks for the rising beeps exactly when the switch goes from disarmed to armed and the falling ones exactly when it goes back, and the last beeps asked for tell the last position of the switch.", "quantifier": "all interleavings of requests and polls, all sequences of switch messages", "why_tests_cant": "no test exercises the queue under load", "anchors": ["firmware-common/src/common/buzzer_queue.rs:BuzzerQueueRunner::run", "firmware-common/src/common/buzzer_queue.rs:BuzzerQueue::publish", "firmware-common/src/avionics/mod.rs:arming_beep_fut", "firmware-common/src/ground_test_avionics/mod.rs"]}
{"id": "C102", "title": "Log of the vacuum test (finding)", "statement": "For every stream of readings, every scheduling and every failure: the states in the file of the vacuum test are a selection, in order and without repetition, of armed, drogue, main, landed, each announced by the flight computer for the readings that came (C42), with timestamps that never go back; the indicator shows the last state the logging task took, and it beeped once per deployment taken. While no more than three events are unread nothing is lost, and the file then has every announced state. (Finding) Every reading publishes an event and the channel holds three: an announced state not yet taken is lost for ever if three readings (15 ms) arrive while the task is writing. One failed reading or write ends the test: nothing is logged after it.", "quantifier": "all profiles, filters, readings, interleavings of the two tasks and failures", "why_tests_cant": "the loss depends on how long a flash write takes while readings arrive", "anchors": ["firmware-common/src/vacuum_test/mod.rs:vacuum_test_main", "firmware-common/src/avionics/backup_flight_core.rs:BackupFlightCore::tick"]}
{"id": "C103", "title": "Circular buffer of the OZYS app", "statement": "For every capacity and every sequence of calls, the circular buffer answers as a plain list of at most that many items would: addLast drops the first item when full, addStart the last one, peek counts from the front or (negative) from the back, toArray, firstN and lastN give the items in order. A capacity that is not positive is refused.", "quantifier": "every capacity, every sequence of calls with any arguments", "why_tests_cant": "the buffer wraps around; every combination of head, size and call matters, for any number of calls", "anchors": ["ozys-app/src/utils/CircularBuffer.ts"]}
{"id": "C104", "title": "Resampler of the OZYS app (finding)", "statement": "For every stream of readings, every pair of rates, offset and filter: the resampler returns exactly one sample for each target time from the start on that lies within the readings so far, in order, and its value lies on the polygon through the filtered readings, never outside the two neighbouring ones. (Finding) The polygon is drawn one source period too early: a straight line through the readings comes out shifted. (Finding) When the first reading is negative, the low-pass filter is not run in.", "quantifier": "every list of readings, rates, offset, start time, filter", "why_tests_cant": "every split of the stream into calls and every ratio of the rates", "anchors": ["ozys-app/src/database/Resampler.ts", "ozys-app/src/database/Filter.ts"]}
{"id": "C105", "title": "Strain graph of the OZYS app", "statement": "Whatever packets come and however often the graph is redrawn: the points added are those of the maximal runs of packets 10 ms apart of the player's channel, each run resampled from its first packet on, with one gap mark between two runs; each redraw gets the points since the last one in order (the newest ones if there are more than fit), so that with redraws in time every point is delivered once. With packets of at most 20 readings the points are at whole multiples of duration/count and strictly later each time, across gaps too.", "quantifier": "every history of packets of any channels and redraws, every duration and number of samples", "why_tests_cant": "histories and interleavings of packets, gaps and redraws are unbounded", "anchors": ["ozys-app/src/database/RealtimeStrainGraphPlayer.ts", "ozys-app/src/database/Resampler.ts", "ozys-app/src/utils/CircularBuffer.ts"]}
{"id": "C106", "title": "Readings database of the OZYS app (finding)", "statement": "For every history of packets, database writes taking effect, players opened and closed, and reloads of the page: every row of the database holds exactly the ten packets of one aligned 100 ms interval that came one after the other, once, in order; every interval that came completely since the page was loaded is stored or on its way; rows stay. A player gets the rows in its range, then the cached packets after them, then all packets that come: in order, none twice, nothing else; and if nothing was lost it gets everything, no matter how far the database is behind (up to 50 packets). (Finding) Packets of an interval that is not complete are lost to new players once a later interval is stored; a packet sent twice can be stored at the time of a missing one.", "quantifier": "every history of packets of all channels, writes, queries, reloads; every range", "why_tests_cant": "the database writes and queries are asynchronous; every interleaving and every pattern of lost packets counts", "anchors": ["ozys-app/src/database/DatabaseWorker.ts", "ozys-app/src/utils/CircularBuffer.ts"]}
{"id": "C107", "title": "Operator's commands reach the avionics and act once", "statement": "Every command of the ground station's command line tool (calibrate, arm, disarm, low power on/off, reset, delete logs, manual deployment) is sent as a packet that no other command or time gives; whatever the link loses, the rocket hears at most five copies, each as that command, success is reported exactly if an answer came back, and then the rocket has heard it. In the avionics each command sets exactly its part of the state: the arming flag, low power mode, the restart, or the announcement of the manual deployment, and no command by itself switches a pyro channel. A repeated copy of a command (retry after a lost answer) received before any other packet changes nothing but possibly a pending notice of the arming state; for the manual deployment this holds unless the flight computers are set up in between. Findings: a manual deployment received before the flight computers are set up is acknowledged and dropped, and a retry of it then deploys; with the commands of the tool alone a ground test never fires, because the tool has no command for it.", "quantifier": "every command, time stamp, loss pattern of the link, state of the avionics, and history before, between and after the copies", "why_tests_cant": "the interleavings of retries, lost answers, arming state changes and tasks are unbounded; a test runs one of them", "anchors": ["vl-cli/src/main.rs:GCMUplinkPacket", "firmware-common/src/gcm/mod.rs", "firmware-common/src/avionics/mod.rs", "firmware-common/src/common/vlp/uplink_client.rs", "firmware-common/src/ground_test_avionics/mod.rs"]}
{"id": "C108", "title": "Device names (finding)", "statement": "A device name of up to 64 bytes (UTF-8) set in the configuration is shown unchanged when the host tool lists the devices; of a longer name exactly its first characters are shown that fill 64 bytes (ASCII names: the first 64 characters). Finding: a longer name whose 64th byte does not end a character makes the host tool crash whenever it lists that device. The fixed-size vectors used for it keep the first N items and never exceed N.", "quantifier": "every string, every capacity and list", "why_tests_cant": "names are unbounded strings over all of Unicode; the crash depends on where byte 64 falls", "anchors": ["vl-host-lib/src/vl/device_config.rs", "firmware-common/src/common/rkyv_structs.rs", "vl-host-lib/src/common/probe_device_type.rs", "firmware-common/src/common/console/vl_rpc.rs"]}
{"id": "C109", "title": "Radio key as text", "statement": "The text printed for a generated radio key is a JSON array of numbers that denotes exactly the bytes of the key and nothing else, so pasting it into the configuration files of two devices gives both the same key; different keys have different texts.", "quantifier": "every key", "why_tests_cant": "2^256 keys", "anchors": ["vl-host-lib/src/vl/lora_key.rs", "vl-cli/src/main.rs"]}
{"id": "C110", "title": "Numbers in files", "statement": "8-, 16-, 32- and 64-bit numbers written to a new file by the typed write calls, in any order and with flushes anywhere, are read back by the same sequence of typed reads after closing, and every further read says that the file ends. In general typed reads give the big-endian numbers made of the bytes of the file; a read that meets the end gives no number, reports the end, and its bytes are gone.", "quantifier": "every file system history, program of typed writes and flushes, sequence of typed reads", "why_tests_cant": "sequences and file system histories are unbounded; page and sector boundaries fall anywhere inside numbers", "anchors": ["vlfs/src/utils/io_traits.rs", "vlfs/src/fs/reader.rs", "vlfs/src/fs/writer.rs"]}
{"id": "C111", "title": "The spectrogram's frequency axis is exact, except that it is one band early (finding)", "statement": "The frequency axis of the OZYS app's spectrogram is resampled from 200 bands of 10 Hz (0-2 kHz) and 360 bands of 50 Hz (2-20 kHz) into cells of equal width from the lowest frequency on. Every cell inside the axis at or below 1980 Hz, or from 2000 to 19900 Hz, shows the straight-line interpolation of the (smoothed) bands, from the right half; up to 2 kHz and 20 kHz the last value is repeated; above 20 kHz the cell is left as it was; no cell outside the buffer is written and the buffer keeps its size. Findings: the interpolation is read one band late, so that the cell at the frequency of band i shows band i+1 and band 0 never appears; and a lowest frequency between 1980 and 2000 Hz gives cells that are not numbers. The computation ends whenever the low-pass filters settle on the first band of each half.", "quantifier": "all axes (lowest frequency, cell width) whose cell grid contains the lowest frequency and 2 kHz, all band values, all filters, all previous buffer contents", "why_tests_cant": "Tests use constant bands, which cannot show a shift, and two axes.", "anchors": ["ozys-app/src/database/RealtimeSpectrogramPlayer.ts:resampleFrequencyAxis", "ozys-app/src/database/Resampler.ts:Resampler"]}
{"id": "C112", "title": "The spectrogram's time axis: each cell is resampled on its own, the nearest row is shown whole, one period late", "statement": "The time-axis resampler of the OZYS app's spectrogram: when it shows fewer rows per second than come in, every row it emits has the width of the axis and each cell of it is exactly what the one-dimensional resampler (C104) makes of that cell's own history, at the same times, so that no cell influences another. When it shows at least as many, the samples are at the same times and in the same number as C104's, and each is one whole incoming row, unchanged: the one nearest to its place (the later one in the middle); as in C104 the place is one source period late (finding: the first row is never shown). It returns whenever the filter of each cell settles on its first value.", "quantifier": "all widths, rates, offsets of at most one target period before the start, filters and all sequences of rows", "why_tests_cant": "Tests feed one row.", "anchors": ["ozys-app/src/database/Resampler2D.ts:Resampler2D", "ozys-app/src/database/Resampler.ts:Resampler"]}
{"id": "C113", "title": "The strain graph's players follow the selection and none is left over", "statement": "In the OZYS app's strain graph, however drawing with new selections, zooming, resizing and the asynchronous creation of players interleave: when the graph's queued tasks are done (and they come to an end if creations succeed) exactly the channels of the last selection drawn have a player, one each; every other player ever created has been disposed of exactly once; and if the graph itself has been disposed of, every player has been, exactly once. Findings: a channel selected while the graph is hidden (width 0) never gets a player, even when the graph is shown later, as long as it stays selected; a change of zoom after dispose leaves a player that is never disposed of.", "quantifier": "all histories of draws, zooms, resizes, dispose and completions of player creations, in any interleaving", "why_tests_cant": "The interleavings of awaits with user actions are not controllable in a test.", "anchors": ["ozys-app/src/components/straingraph/StrainGraphCanvas.ts:StrainGraphCanvas"]}
{"id": "C114", "title": "What the strain graph draws", "statement": "For each channel the strain graph draws exactly the straight lines between neighbouring readings, each once and in order, and none across a gap in the data. A reading within the window lies on the canvas, and no two readings of a channel are in the same column. The number of readings the graph keeps is enough: without gaps, and with no reading more than 200 ms in the future, every reading that has been dropped is older than the window.", "quantifier": "all sizes, zooms, times and all sequences of readings and gaps", "why_tests_cant": "Canvas output is not tested at all; the claims are about all window sizes and sequences.", "anchors": ["ozys-app/src/components/straingraph/StrainGraphCanvas.ts:draw"]}
{"id": "C115", "title": "OZYS app devices: gapless streams, exact lookup, exact delivery to the database (findings: disconnected too early, clock set back)", "statement": "While the clock does not go back, a mock device sends, for each channel left on, a packet of readings for every 10 ms and a spectrum for every 100 ms between the first and the last firing of its timers, each once and in order, however irregularly the timers fire; once disconnected after both timers were started it never sends again. The microphone device turns each delivery in a new tenth of a second into ten packets, so deliveries at least every 100 ms give a gapless stream. No two devices or channels have the same id; the lookup finds exactly the channel of a listed device; disconnecting removes exactly that device; what reaches the database for a channel is exactly what its device sent, until the manager is terminated, and every whole tenth of a second is then stored. Findings: a mock device disconnected while it still waits to be aligned starts sending all the same and cannot be stopped; if the clock is set back packets of the same time are sent again.", "quantifier": "all histories of timer firings, enable/disable commands, audio deliveries, additions and disconnections, any waveform", "why_tests_cant": "depends on arbitrary timer jitter and interleavings of several devices", "anchors": ["ozys-app/src/device/OzysDevice.ts", "ozys-app/src/device/MockOzysDevice.ts", "ozys-app/src/device/MicOzysDevice.ts", "ozys-app/src/device/OzysDevicesManager.tsx"]}
{"id": "C116", "title": "Simulated clock: delays return exactly when due, no wakeup is lost", "statement": "A delay on the simulated clock returns at exactly that poll which is the first to find the clock at or past the time of its first poll plus its duration – never earlier, whatever wakes it and however the clock is moved back and forth, at most once, and at the first poll if there is nothing to wait for. Its waker is called at an update exactly if the delay is due and has been polled in vain since the last update at which it was due; so no wakeup is lost: the first update at which a waiting delay is due wakes it, and it then returns when polled. One update wakes the delays in the order they are due. Only updates move the clock.", "quantifier": "all histories of calls, polls (also spurious), drops and clock updates (also backward) over any number of delays", "why_tests_cant": "lost wakeups and early returns depend on interleavings and on the order in the heap", "anchors": ["vl-simulink-bridge/src/clock.rs:SimulationClock", "vl-simulink-bridge/src/clock.rs:Delay"]}
{"id": "C117", "title": "Virtual sensors and switches of the Simulink bridge (finding: a change that is none)", "statement": "A read of a virtual sensor returns the reading given last, if one was given since the read before, and panics otherwise; of several readings given without a read in between only the last is seen, and no reading is seen twice or out of order. Reading a switch gives its position; a wait for a change that returns gives the position, and one that goes on finds the firmware informed of it; every change makes the next wait return. Outputs show what the firmware set last. Finding: a switch moved back and forth between two waits is reported as changed to the position already known.", "quantifier": "all histories of readings given, reads, switch movements and waits", "why_tests_cant": "interleavings of simulation and firmware", "anchors": ["vl-simulink-bridge/src/virtual_sensors.rs"]}
{"id": "C118", "title": "Virtual serial links and mock radio: nothing lost or reordered (findings: split anew, empty write, long message, package received twice, sender gone)", "statement": "On the link of the Simulink bridge each end reads exactly the bytes the other wrote, in order, for any sizes of writes and buffers; a read waits only if all was read; reading on gets everything. On the link of the simulator messages that fit arrive whole, one a read, in order. On the mock radio a receive returns the newest package, a package sent is received by the next receive even if receives timed out in between, and no more packages are received than were sent. Findings: splitting an end anew loses the unread rest of a message; an empty write looks like the end of the stream; a message longer than the buffer panics; a package sent while another is being received is received twice; once the sender is gone every receive returns the last package again.", "quantifier": "all histories of writes, reads with any buffer sizes, sends, receives, timeouts and their interleavings at both ends", "why_tests_cant": "depends on sizes and interleavings without bound", "anchors": ["vl-simulink-bridge/src/virtual_serial.rs", "launch-simulator/src/virt_drivers/serial.rs", "launch-simulator/src/virt_drivers/vlp_phy.rs"]}
{"id": "C119", "title": "Spectra in the OZYS app's database: kept once, and fed to the spectrogram in order (finding: five behind)", "statement": "Every spectrum a device sends is stored once per channel and timestamp (the first that came), the rows of a channel are ordered by time and stay across reloads of the page. A spectrogram player gets the stored spectra of the time it asked for, then the cached later ones, and then everything new from the moment it is ready, in order of time and none twice; and it gets every one, if at most five spectra were not yet stored when it asked or came before it was ready. Finding: a spectrum that was not yet stored when the player asked and was followed by five others before the player was ready never reaches the player, though it is in the database.", "quantifier": "every history of packets, commits, queries, players and reloads, any content of spectra", "why_tests_cant": "when commits and queries finish relative to packets is up to the browser; tests cannot go through all interleavings", "anchors": ["ozys-app/src/database/DatabaseWorker.ts: DatabaseWorker", "ozys-app/src/utils/CircularBuffer.ts: CircularBuffer"]}
{"id": "C120", "title": "The spectrogram shows each gapless run of spectra from its own start, with one gap mark in between, and loses no column", "statement": "Whatever spectra come and however often the picture is redrawn, the columns the spectrogram player of the OZYS app gives out are those of the maximal runs of its channel's spectra 100 ms apart, each run resampled from its first spectrum on (in the frequency axis as C111, in time as C112), with exactly one gap mark between two runs and none elsewhere; spectra of other channels change nothing. A redraw gets the columns that came since the last one, at most as many as the picture is wide (the newest); if it is redrawn in time every column is given out once and in order. Without gaps going back in time the columns' times increase strictly and are multiples of the picture's column period; and (without low-pass filter, and an axis from at most 1980 Hz) every history runs without failure.", "quantifier": "every history of spectra, other channels' spectra and redraws; every filter, axis and picture width", "why_tests_cant": "histories and window sizes are unbounded; the unit tests only cover single spectra", "anchors": ["ozys-app/src/database/RealtimeSpectrogramPlayer.ts: RealtimeSpectrogramPlayer", "ozys-app/src/utils/CircularBuffer.ts: CircularBuffer"]}
{"id": "C121", "title": "Refused page programs while writing a file (findings)", "statement": "In every reachable state of the file system (any history), let the flash chip refuse any page programs (the driver returns an error) while a file is written. (1) If it refuses none, the calls are those of the other properties. (2) A write that fails this way, followed by closing the writer on a chip that accepts, leaves a file that reads as its earlier content followed by some first part p of the bytes of that write; all other files are untouched. A flush that fails this way, followed by closing, leaves the file reading as all that was written. (3, findings) Writing again after a failed write appends after p, so repeating the failed write stores p twice; when the refused page was the fifteenth of its sector the next write panics. A flush whose first page was accepted and whose second was refused, followed by a write and a close which all succeed, leaves a file that does not read as what was written. Closing panics if the chip refuses.", "quantifier": "every reachable file-system history, every slice, every pattern of refused page programs, every random source", "why_tests_cant": "the refused page can be any one of any write of any history; tests can only inject a few", "anchors": ["vlfs/src/fs/writer.rs:extend_from_slice", "vlfs/src/fs/writer.rs:flush", "vlfs/src/fs/writer.rs:close", "vlfs/src/fs/writer.rs:write_page"]}
{"id": "C122", "title": "Refused operations while files are created or removed (findings)", "statement": "For every state and every pattern of operations (erases, page programs) that the flash chip refuses during create_file, create_file_and_open_for_write or remove_files: a call that returns has done exactly what it does on a chip that refuses nothing. In every reachable state a call that meets a refused operation panics; after the restart the directory is the one before or the one after the call, and all files in it have kept their content. Findings: a refused operation is never returned as an error, the call panics; and on a full chip create_file_and_open_for_write panics instead of returning that the device is full.", "quantifier": "every reachable file-system history, every call and argument, every pattern of refused flash operations", "why_tests_cant": "the refused operation can be any one of any call of any history", "anchors": ["vlfs/src/fs/at_builder.rs:ATBuilder", "vlfs/src/fs/allocation_table.rs:create_file", "vlfs/src/fs/allocation_table.rs:create_file_and_open_for_write", "vlfs/src/fs/mod.rs:remove_files"]}
{"id": "C123", "title": "Flash with statistics", "statement": "The firmware runs the file system on a flash driver with statistics. It is transparent: whatever a program does with it, however it reacts to the results, it gets the same results and leaves the chip in the same state as on the driver below. The statistics say, for each of the five kinds of operations, how many calls there were since the statistics were last cleared (failed calls included) and the sum of the times they took. A successful read of n bytes counts one read for every begun 4096 bytes, a write one page for every begun 256 bytes.", "quantifier": "every driver, every program that uses it adaptively, every history of calls, clearings and other events, every length", "why_tests_cant": "quantifies over all programs and all histories of calls with all outcomes", "anchors": ["vlfs/src/flash/stat_flash.rs:StatFlash", "vlfs/src/flash/stat_flash.rs:run_with_stat", "vlfs/src/driver/flash.rs:Flash::read", "vlfs/src/driver/flash.rs:Flash::write"]}
{"id": "C124", "title": "Log of records survives power loss and can be downloaded", "statement": "While tagged records are written to a log file (as the vacuum test does) and the file system is used for anything else (other writers, creating and removing files, a rotating ring log), power may be lost at any moment, in the middle of any page program: afterwards the chip mounts, the log can be opened, and the host's reader returns, without panic and whatever chunks it gets, all records written up to the last successful flush followed by some of the later ones, in order, and nothing else; records each flushed are all there. Downloading a vacuum test shows the records of all its logs, file by file, and the readings of all its barometer logs with the unix times their files give.", "quantifier": "every record type with a proper codec, every history of the file system, every power-loss point, every chunking of the reader, every set of logs on the device", "why_tests_cant": "unit tests cannot place the power loss at every flash operation and byte, nor run every interleaving with other users of the file system", "anchors": ["firmware-common/src/common/serialized_enum.rs", "firmware-common/src/vacuum_test/mod.rs", "vl-host-lib/src/common/parse_serialized_enums.rs", "vl-host-lib/src/vl/pull_vacuum_test.rs", "vlfs/src/fs/writer.rs"]}
{"id": "C125", "title": "A simulated movement passes through its key frames, on time", "statement": "The movements of the simulator are animations made of key frames. While a player of an animation with positive durations runs, whatever the lengths of the simulation's frames, what it shows depends only on the time passed: at the moment a key frame is due (the sum of the durations before it) it shows exactly that key frame; in between it shows the point between the two neighbouring key frames in proportion to the time; at a key frame both neighbouring segments agree, so there is no jump; after the last key frame it is finished. An animation made with the builder always has one key frame more than durations and keeps them in order. Findings: the time given to add_keyframe_absolute is the time of the next key frame, not of the one it is given with; an animation of a single key frame panics at its first frame.", "quantifier": "all key frame types whose interpolation is exact at its ends, all animations, all sequences of frame lengths", "why_tests_cant": "a test plays one animation with one frame rate; the statement is about every animation and every sequence of frame times, including those that fall exactly on a key frame", "anchors": ["launch-simulator/src/keyframe.rs: AnimationBuilder", " AnimationPlayer::update"]}
{"id": "C126", "title": "The simulated calibration moves the device as the calibrator asks", "statement": "The simulator answers each announcement of the interactive calibrator with a movement of the device. Over a whole calibration, wherever the device is when a movement starts: each movement begins with the orientation the one before ended with, the first begins and the last ends upright; whenever the calibrator is about to measure at rest with an axis up or down, the device has been put down on the table with exactly that axis up or down; when it asks for a rotation about an axis, the device stands with that axis up and is turned about it by four quarter turns in the negative sense, on the spot – the -360 degrees the calibrator expects; no movement is started while the calibrator measures; two key frames in a row are never half a turn apart (there the interpolation would panic); and every key frame is reached at its whole second however the simulation's frames fall.", "quantifier": "all axes, signs, announcements and places of the device, all interpolations exact at their ends", "why_tests_cant": "the choreography is spread over thirteen hand-written animations whose orientations are products of up to five rotations; a test would have to run the graphical simulation", "anchors": ["launch-simulator/src/calibration_system.rs: calibration_system", "launch-simulator/src/keyframe.rs", "ferraris-calibration/src/interactive_calibrator.rs"]}
{"id": "C127", "title": "A file sent over the console arrives complete", "statement": "The console program that receives a file is told a type and a size, asks the host for parts and ends with the id of the file. On any file system with room in its directory, for any messages of the host: if it ends, the file system has one new file, with a new id and the announced type, that holds exactly the bytes of the host's parts, as many as announced, and all other files are as they were; the host was asked for parts of 64 bytes and a shorter last one, and was told the id. While it waits, everything the host has sent is in the file being written. It stops on a part that does not have the length asked for (also when a part arrives in two pieces), and otherwise only on an error of the file system; a host that sends what it is asked for gets its file stored and readable. Note: the program is not among those the devices start.", "quantifier": "all reachable file systems, types, sizes, contents and sequences of host messages", "why_tests_cant": "the protocol cuts a file at multiples of 64 bytes; a test covers one content and one file system", "anchors": ["firmware-common/src/common/console/programs/write_file.rs: WriteFile::start"]}
{"id": "C128", "title": "Message files are sent over the console message by message", "statement": "The console program that sends a file of length-prefixed messages gives the host, for each byte it sends, the next message with its length before it, in order and complete, and after the last one four zero bytes, then the file is closed; it never panics on a file that reads without errors, and what a host receives of any such file is the file's own bytes. (Finding) An empty message cannot be told from the end: the host stops there, the device waits with the file open, and the messages behind it are never sent; a message cut off at the end of the file is announced with its full length.", "quantifier": "all lists of messages, all file contents that read without errors, all numbers of requests", "why_tests_cant": "the message boundaries against the 64-byte buffer, the end of the file and empty or cut-off messages are unbounded combinations", "anchors": ["firmware-common/src/common/console/programs/read_nyoom.rs: ReadNyoom::start", "vlfs/src/utils/io_traits.rs: AsyncReader::read_u32"]}
{"id": "C129", "title": "The simulated rocket's motor and launch mount", "statement": "While the simulated motor burns (3.5 s from the ignition), after every frame the force on the motor tube is along its axis as it is turned in that frame and 1.1 times the thrust curve at that time, for frames of any lengths. The rocket stands in as many mounts as it was set up more often than ignited. (Finding) Unless a frame falls on the very end of the burn, the force of the last frame before it stays on the tube for the rest of the simulation, in the direction the tube had then. (Finding) Igniting a rocket that is not in a mount, or was ignited before, and setting its launch angle then, kill the simulator; a rocket set up twice is still held when its motor burns.", "quantifier": "all sequences of frames of any lengths and rotations, and of clicks", "why_tests_cant": "frame times are arbitrary, and the residual force shows only after the burn", "anchors": ["launch-simulator/src/motor.rs: motor_ignitor", " motor_system", "launch-simulator/src/launch.rs: create_launch", " ignition_handler", " set_launch_angle"]}
{"id": "C130", "title": "The channel menu and zoom of the strain graph", "statement": "Whatever the user clicks in the strain graph's menu, as long as no handler throws: each channel is drawn at most once, exactly the channels whose box was clicked an odd number of times are drawn, each in the colour picked last since it was checked (black before), and the scale is the product of all turns of the wheel, positive while no turn is 1000 or farther up. (Findings) Picking a colour for a channel that is not checked throws; one turn of 1000 up makes the scale zero for good, a farther one negative; turning the wheel there and back leaves the graph zoomed in.", "quantifier": "all sequences of clicks, colours and turns of the wheel", "why_tests_cant": "the state after every history of clicks, and the accumulated zoom", "anchors": ["ozys-app/src/components/straingraph/StrainGraph.tsx: StrainGraph"]}
{"id": "C131", "title": "The strain gauge board's lamp, health message and battery time syncs", "statement": "The lamp's blink patterns tell apart exactly the four cases USB connected, error, recording and idle (in this order of importance), and at any time the lamp shows the state of at most a second ago; the health message says whether there was no error when it was sent; the battery log gets the newest time sync at each look every five minutes, except the one it got last, and never one twice in a row. (Finding) The two CAN bus tasks are not started: whatever the other tasks do, no CAN error is ever found, no health message sent, and no time sync ever reaches the readings or the battery log.", "quantifier": "all error states, all times and delays, all interleavings of the tasks' events", "why_tests_cant": "the order of the events of several tasks is unbounded", "anchors": ["firmware-common/src/strain_gauges/mid_prio.rs: sg_mid_prio_main", "firmware-common/src/strain_gauges/high_prio.rs: sg_high_prio_main", "firmware-common/src/strain_gauges/global_states.rs: SGLEDState"]}
{"id": "C132", "title": "The simulated sensors", "statement": "The sensors of the launch simulator give, after every update but the first, a reading whose acceleration, turned into the world's axes, is the change of the velocity per second plus 9.81 up plus noise, and whose turn rate is the body's in degrees per second plus noise; a rocket that does not move shows 9.81 up in any orientation; over any number of updates at increasing times the accelerations times the times between updates add up to the change of velocity; there is no reading before the second update. (Finding) The simulated pressure is that of 50 °C air while the firmware reckons with the standard atmosphere: at every height up to 12 km it computes less than nine tenths of the height.", "quantifier": "all histories of updates, velocities, orientations, times and noise; all heights", "why_tests_cant": "the readings depend on continuous values and on arbitrarily long histories; a test samples a few", "anchors": ["launch-simulator/src/virt_drivers/sensors.rs: SensorSender::update_state", " is_ready", " baro_imposter", "firmware-common/src/driver/barometer.rs: BaroData::altitude"]}
{"id": "C133", "title": "The simulated chutes", "statement": "In the launch simulator every order to eject a chute (pyro switched on, or button clicked) is carried out exactly once, none is lost and none made up, whatever the order in which the systems of a frame run; switching a pyro off orders and stops nothing; a part is fixed to the body before its first ejection and hangs on a rope of 3 m with the chute's damping after it; as long as orders for the two chutes never wait at the same time the impulses add up to zero. (Findings) Ordered within the same frame, the body gets only the drogue's impulse and the whole rocket is pushed; a pyro switched on twice ejects twice; an order before a rocket is set up makes the simulator panic within two frames.", "quantifier": "all sequences of pyro switches, clicks and frames, all orders of the systems, all axes of the parts", "why_tests_cant": "the interleaving of the avionics thread with the frames cannot be enumerated by tests", "anchors": ["launch-simulator/src/rocket.rs: rocket_pyro_receiver_system", " rocket_chute_system", "launch-simulator/src/virt_drivers/pyro.rs: VirtualPyro::set_enable", " PyroReceiver::try_recv", " create_pyro"]}
{"id": "C134", "title": "The calibration program's sounds and answer", "statement": "For all readings the console's calibration program does not panic: it announces the calibrator's states by sounds in turn, ends at the first reading with which the calibrator succeeds (answers 1 and stores the parameters) or fails (answers 0 and stores nothing, so an earlier calibration stays), and goes on otherwise. The pitches of the tones alone tell which states were announced: no two different sequences of audible states sound alike. No announcement keeps the sensor unread for more than 1.75 s.", "quantifier": "all streams of readings, all sequences of announced states", "why_tests_cant": "streams of thousands of readings and all sequences of announcements cannot be enumerated", "anchors": ["firmware-common/src/common/console/programs/calibrate.rs: Calibrate::run", " waiting_still_sound", " axis_sound", " direction_sound", " event_sound", " success_sound", " failure_sound"]}
{"id": "C135", "title": "A module's arming switch as the flight computer sees it", "statement": "If no event is lost and the driver's first request was answered, then for every schedule, once no change is on its way, reading the switch gives its real position and the application was (or will at its next wait be) told this position last. Whatever is lost, only positions the switch has had are told. (Findings) A lost event is never made up for: the flight computer may read armed for as long as nobody moves a disarmed switch; a first request that is not answered leaves an armed switch read as disarmed; and a change that is told may be older than the answer told before it, so a disarmed switch is told as armed.", "quantifier": "all schedules of switch movements, polls (answered or lost), driver tasks and waits", "why_tests_cant": "interleavings of the module, the bus, the driver tasks and the application cannot be enumerated", "anchors": ["vl8-ctrl-protocol/src/master_drivers.rs: MasterHardwareArming::run", " wait_arming_change", " read_arming", " MasterPyroContinuity", "vl8-ctrl-protocol/src/master.rs: poll_event", "vl8-ctrl-protocol/src/slave.rs: push_event"]}
{"id": "C136", "title": "The app's window layout", "statement": "Whatever the user drags, closes, adds or reloads, the Ozys app always has exactly one Devices tab, it is in the border, and no other tab ever gets into the border, nor into the stored layout. Half a second after the user's last action, opening the page anew gives the layout as it was; a stored value that is not a layout gives the default one. (Finding) A change is lost if the page is closed within half a second, and while changes follow each other within half a second nothing is saved, however many.", "quantifier": "all histories of user actions at all times, all stored values", "why_tests_cant": "histories of drags and reloads at arbitrary times cannot be enumerated", "anchors": ["ozys-app/src/components/FlexLayout.tsx: FlexLayout", " initModel", " saveModel", " createTab", "ozys-app/src/workspace/onAllowDrop.ts: onAllowDrop", "ozys-app/src/workspace/defaultLayout.ts: defaultLayout"]}
{"id": "C137", "title": "The debug flash page executes exactly what it previews", "statement": "For every page state and every proper pending request (a page write carries 256 bytes and lies in the chip), the byte the page shows as current for any address of the chip before resume is the byte that is there after it; after any history of proper requests each served in turn, a read within the chip answers for every address the byte of the last request touching it (0 if none); a resumed proper request is answered exactly once and nothing stays pending. Findings: a request arriving before the previous one is resumed replaces it unanswered; a write past the end leaves the page stuck however often resume is clicked; a write stores its bytes instead of clearing bits, and the fresh chip reads 0 rather than 0xff.", "quantifier": "all chip contents, all requests, all addresses, all histories of requests, any number of clicks", "why_tests_cant": "histories of requests and chip contents are unbounded and any address may be the wrong one; the page has no tests", "anchors": ["vlfs/debug-flash-ui/src/useHandleWebsocket.ts:useHandleWebsocket", "vlfs/debug-flash-ui/src/Flash.ts:Flash"]}
