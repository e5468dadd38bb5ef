{"id": "C01", "title": "DRX frame: written frame is read back unchanged", "statement": "A simulated DRX frame turned into bytes and read back with the DRX reader gives the same beam, tuning, polarisation, decimation, time offset, time tag and the same 4096 complex samples (after rounding/clipping to 4-bit two's complement), and the reader leaves the file exactly at the end of the frame.", "quantifier": "every valid frame (beam 1-4, tune 1-2, pol 0-1, any 16-bit decimation/offset, any 64-bit time tag, any 64-bit flags word, any 4096 samples), with any bytes before and after it", "why_tests_cant": "a unit test writes a handful of frames; the header and nibble packing has to be inverted for every header value and every sample pair", "anchors": ["lsl/sim/drx.py:frame_to_frame, SimFrame", "lsl/reader/drx.cpp:read_drx", "lsl/reader/drx.py:read_frame, FrameHeader.id"]}
{"id": "C02", "title": "DRX/DRX8 reader: exact position and outcome for any bytes", "statement": "Reading a frame from an arbitrary byte string at an arbitrary position either returns a frame and advances by exactly one frame length, or reports end-of-file exactly when fewer bytes than one frame remain, or reports a sync error exactly when a whole frame is available whose first four bytes are not the sync word; decoded samples are always in the documented range (-8..7 for DRX, -128..127 for DRX8) and there are exactly 4096 of them.", "quantifier": "every file content, every position", "why_tests_cant": "only the shipped test file and a few truncated variants can be tried", "anchors": ["lsl/reader/drx.cpp:read_drx", "lsl/reader/drx8.cpp:read_drx8", "lsl/reader/gofast.cpp:initLWALUTs", "lsl/reader/errors.py"]}
{"id": "C03", "title": "DRX stream: N concatenated frames are read as exactly N frames", "statement": "Reading frame by frame through a file that is the concatenation of N encoded frames (optionally with a truncated tail shorter than a frame) returns those N frames in order, never a sync error, and then end-of-file.", "quantifier": "every list of frames of any length and every short tail", "why_tests_cant": "the length of the stream is unbounded", "anchors": ["lsl/reader/drx.py:read_frame", "lsl/reader/drx.cpp:read_drx", "lsl/sim/drx.py:SimFrame.write_raw_frame"]}
{"id": "C04", "title": "DRX id byte: beam, tune, pol are faithfully packed and separated from DRX8", "statement": "The one-byte identifier that the buffers and the simulator build from (beam, tune, pol) is decoded by the readers to the same triple; the DRX test and the DRX8 test on the id are mutually exclusive and exhaustive; two different triples in range never share an id.", "quantifier": "every beam, tune in 0..7, pol in 0..1 and every id byte 0..255", "why_tests_cant": "two independent implementations (buffer/simulator vs reader) must agree on all values, tests look at three ids", "anchors": ["lsl/reader/drx.py:FrameHeader.id, is_drx", "lsl/reader/drx8.py:FrameHeader.id, is_drx8", "lsl/reader/buffer.py:DRXFrameBuffer.create_fill", "lsl/sim/drx.py:SimFrame._update"]}
{"id": "C05", "title": "DRX file alignment: leading junk is skipped and nothing else", "statement": "Opening a DRX file whose content is some junk followed by valid frames leaves the reader at the first byte of the first valid frame, provided no sync word occurs earlier at a place where a whole frame could be read; no valid frame is skipped.", "quantifier": "every junk prefix without an embedded sync word and every following list of frames", "why_tests_cant": "alignment has to work for every junk length and content", "anchors": ["lsl/reader/ldp.py:DRXFile._ready_file", "lsl/reader/drx.py:read_frame"]}
{"id": "C06", "title": "VDIF frame: written frame is read back unchanged", "statement": "A VDIF frame written by the writer and read with the reader has the same seconds, reference epoch, frame number, station, thread, bit depth, data kind, and the same samples for every sample value in range of the bit depth; and the version field reads as written.", "quantifier": "every real or complex payload of whole 32-bit words with bits in {1,2,4,8}, every header value in its field width", "why_tests_cant": "header bit packing and sample packing for all bit depths and lengths", "anchors": ["lsl/writer/vdif.py:Frame.create_raw_frame", "lsl/reader/vdif.cpp:read_vdif", "lsl/reader/vdif.py:read_frame"]}
{"id": "C07", "title": "VDIF header: every 32-bit word decodes to fields that re-encode to it", "statement": "Decoding the four common VDIF header words gives field values within their widths, and packing these fields back gives exactly the same words; so distinct headers are never confused.", "quantifier": "every four 32-bit words", "why_tests_cant": "2^128 headers", "anchors": ["lsl/reader/vdif.cpp:parse header bit-fields"]}
{"id": "C08", "title": "VDIF reader: a corrupt length never moves the file backwards past the frame start", "statement": "If the header claims a frame shorter than its own header the reader raises a sync error with the file position exactly where the frame started; if the payload is truncated it raises end-of-file; otherwise it advances by exactly 8 times the frame length field.", "quantifier": "every byte string, every position", "why_tests_cant": "arbitrary corrupted input", "anchors": ["lsl/reader/vdif.cpp:read_vdif"]}
{"id": "C09", "title": "TBX reader: result does not depend on what was read before", "statement": "Reading a TBX frame at a given position of a given file gives the same frame and final position whichever frames (of whatever stand/channel configuration) the process has read before, and the reader's automatic re-read after a configuration change always terminates.", "quantifier": "every history of earlier reads (every cached configuration) and every file content and position", "why_tests_cant": "the reader keeps process-wide cached state; only a few histories can be exercised by tests", "anchors": ["lsl/reader/tbx.cpp:read_tbx, tbx_impl", "lsl/reader/tbx.py:read_frame"]}
{"id": "C10", "title": "COR reader: result does not depend on what was read before", "statement": "Reading a COR frame at a given position gives the same frame (same number of channels and data) whichever files were read earlier by the process.", "quantifier": "every history of earlier reads (every cached channel count) and every file content and position", "why_tests_cant": "process-wide cached channel count; unit tests read one file format per process", "anchors": ["lsl/reader/cor.cpp:read_cor", "lsl/reader/cor.py:read_frame"]}
{"id": "C11", "title": "DR spectrometer reader: parsing stays inside the data block it read", "statement": "For every polarisation product code found in a spectrometer frame header, the parser reads no more floating point values from the data block than the block contains and never divides by a zero fill count.", "quantifier": "every stokes-format byte, every number of channels, every fill count", "why_tests_cant": "memory-safety over all header values; tests contain only the formats that the recorder writes today", "anchors": ["lsl/reader/drspec.cpp:read_drspec, parse_linear_*, parse_stokes_*"]}
{"id": "C12", "title": "Frame timestamp: time tag conversion is exact and invertible", "statement": "Converting an integer time tag (and offset) to the integer-seconds plus fraction form gives a fraction in [0,1), and converting back gives the original tag minus offset.", "quantifier": "every non-negative integer tag and offset with offset <= tag", "why_tests_cant": "time tags are 64-bit", "anchors": ["lsl/reader/base.py:FrameTimestamp.from_dp_timetag, dp_timetag"]}
{"id": "C13", "title": "Frame timestamp: normalised representation after construction and arithmetic", "statement": "Whatever integer and fractional seconds a timestamp is built from, the fraction kept is in [0,1) and the represented instant is the exact sum; indexing a timestamp gives whole seconds and a fraction in [0,1) from which the same instant is rebuilt; a day/millisecond pair is converted exactly.", "quantifier": "every integer second and every rational fraction, positive or negative", "why_tests_cant": "boundary values (exact negative integers, carries) in an infinite domain", "anchors": ["lsl/reader/base.py:FrameTimestamp.__init__, __add__, __sub__, __lt__, __eq__"]}
{"id": "C14", "title": "Frame buffer: nothing at or before an already returned time is ever returned again", "statement": "After the buffer has returned the frames of a time step, no later get or flush returns that time step or (in the order of gets) an earlier one; late frames are dropped and counted.", "quantifier": "every sequence of append/get operations with any frames", "why_tests_cant": "unbounded arrival orders and reorderings", "anchors": ["lsl/reader/buffer.py:FrameBufferBase.append, get, flush"]}
{"id": "C15", "title": "Frame buffer: every accepted frame is returned exactly once", "statement": "If no frame is duplicated, each frame that was accepted (not counted as dropped) comes out of exactly one get or flush, in the group of its own time step, together with fill frames for precisely the missing ids, and the group has exactly the expected number of frames.", "quantifier": "every sequence of appends of frames with distinct (time, id), then get/flush", "why_tests_cant": "arrival orders and losses are unbounded", "anchors": ["lsl/reader/buffer.py:FrameBufferBase.append, get, flush, _get_missing_list"]}
{"id": "C16", "title": "Frame buffer: duplicated frames never displace a different frame", "statement": "When frames are duplicated on the network, the group returned for a time step still contains every distinct frame received for that step once, and fill frames for the ids never received.", "quantifier": "every multiset of received frames for a time step", "why_tests_cant": "needs all combinations of duplicates and losses", "anchors": ["lsl/reader/buffer.py:FrameBufferBase.get, CORFrameBuffer"]}
{"id": "C17", "title": "Frame buffer: statistics add up", "statement": "The counters satisfy: frames appended = frames dropped as late + frames held in the buffer + real frames handed out + duplicates discarded, at every moment of every history.", "quantifier": "every sequence of append/get/flush operations", "why_tests_cant": "an accounting invariant over all histories", "anchors": ["lsl/reader/buffer.py:FrameBufferBase.append, get, flush, status"]}
{"id": "C18", "title": "Frame buffer: bounded memory while reading", "statement": "With the usual loop (append one group, get when the buffer reports it is ready), the number of buffered time steps never exceeds nsegments plus the number of time steps one appended group touches (so nsegments+1 for ordinary files).", "quantifier": "every stream of frames and every nsegments >= 1", "why_tests_cant": "holds for all arrival patterns or not at all", "anchors": ["lsl/reader/buffer.py:FrameBufferBase.get, filled, overfilled"]}
{"id": "C19", "title": "Split file: behaves like the concatenation of its parts", "statement": "Reading from, seeking in and telling the position of a multi-part file gives the same bytes and positions as the same operations on one file holding the concatenated parts.", "quantifier": "every list of parts (any number, any sizes, including empty), every sequence of read/seek/tell", "why_tests_cant": "reads that span several part boundaries at every offset", "anchors": ["lsl/reader/utils.py:SplitFileWrapper.read, seek, tell"]}
{"id": "C20", "title": "File cache: eviction respects the size limit and only removes oldest files", "statement": "After cache management the total size is at most the limit or a single file is left; every removed file is at least as old as every kept one; with no limit nothing is removed.", "quantifier": "every directory content (sizes, ages) and every limit", "why_tests_cant": "all combinations of sizes and ages, and termination of the eviction loop", "anchors": ["lsl/misc/file_cache.py:FileCache._cache_management", "lsl/misc/file_cache.py:MemoryCache._cache_management"]}
{"id": "C21", "title": "Memory file: write then read gives back what was written", "statement": "A file in the memory cache opened for writing (or appending) and then read contains exactly what a regular file would contain after the same operations, including append mode adding at the end.", "quantifier": "every sequence of open/write/close/open/read with every content", "why_tests_cant": "unbounded operation histories", "anchors": ["lsl/misc/file_cache.py:MemoryFile, MemoryCache.open"]}
{"id": "C22", "title": "File lock: mutual exclusion between users of the lock", "statement": "At any time at most one holder is between a successful acquire and the matching release, for processes and for threads sharing one lock object, including nested acquires.", "quantifier": "every interleaving of acquire/release by any number of threads and processes", "why_tests_cant": "schedules cannot be enumerated by tests", "anchors": ["lsl/misc/file_lock.py:FileLock.acquire, release", "lsl/misc/file_lock.py:MemoryLock"]}
{"id": "C23", "title": "MJD/MPM: date conversion round trip and correctness", "statement": "Converting a UTC date and time (millisecond resolution) to MJD and milliseconds-past-midnight and back gives the same date and time; MJD advances by exactly one per calendar day and MPM is in 0..86399999.", "quantifier": "every Gregorian date", "why_tests_cant": "calendar arithmetic must hold for all dates including leap years and century rules", "anchors": ["lsl/common/mcs.py:datetime_to_mjdmpm, mjdmpm_to_datetime"]}
{"id": "C24", "title": "Beamformer delay words round trip within the hardware resolution", "statement": "Converting a delay to the 16-bit big-endian word of the beamformer and back returns the delay rounded down to 1/16 sample, for all representable delays; delays beyond the range are not silently turned into another delay.", "quantifier": "every non-negative delay", "why_tests_cant": "all representable delays and the boundary of the range", "anchors": ["lsl/common/mcs.py:delay_to_mcsd, mcsd_to_delay, _two_byte_swap", "lsl/common/ndp.py:delay_to_ndpd, ndpd_to_delay"]}
{"id": "C25", "title": "Beamformer gain words round trip", "statement": "Converting a gain to the 16-bit big-endian word and back returns the gain to within the quantisation step, including negative gains, which the 2x2 gain matrices use.", "quantifier": "every gain in -1..1", "why_tests_cant": "sign handling and byte swap for all words", "anchors": ["lsl/common/mcs.py:gain_to_mcsg, mcsg_to_gain", "lsl/common/ndp.py:gain_to_ndpg, ndpg_to_gain"]}
{"id": "C26", "title": "Tuning words: frequency and word conversions are inverse", "statement": "word -> frequency -> word is the identity for every 32-bit word, frequency -> word -> frequency is within half a tuning step, and the conversion is monotone.", "quantifier": "every 32-bit word, every frequency 0..196 MHz", "why_tests_cant": "2^32 words, all frequencies", "anchors": ["lsl/common/ndp.py:freq_to_word, word_to_freq"]}
{"id": "C27", "title": "flat_to_multi: reshaping keeps every element at the C position", "statement": "Reshaping a flat array into nested lists with the given dimensions puts element with C row-major index at the nested position, loses nothing, and flattening gives the original array back.", "quantifier": "every list and every list of dimensions whose product is the length", "why_tests_cant": "arbitrary rank and sizes", "anchors": ["lsl/common/mcs.py:flat_to_multi"]}
{"id": "C28", "title": "MIB integer values decode to the stored number", "statement": "An integer MIB entry (1, 2, 4 or 8 byte) decodes to the number that was stored in the entry's bytes.", "quantifier": "every byte string of the given width", "why_tests_cant": "all values, in particular those with zero bytes", "anchors": ["lsl/common/mcs.py:MIBEntry._parse_value, from_entry"]}
{"id": "C29", "title": "Session validation: overlapping observations are always rejected and only those", "statement": "For observations with positive durations, the overlap check of session validation passes exactly when the time intervals of the observations are pairwise disjoint.", "quantifier": "every list of observations (any starts across days, any durations)", "why_tests_cant": "all relative placements of all numbers of observations", "anchors": ["lsl/common/sdf.py:Session.validate"]}
{"id": "C30", "title": "Observation duration: string form round trip", "statement": "Setting a duration and reading it back as H:MM:SS.SSS, and setting from that string again, preserves the duration in milliseconds; so a rendered and re-parsed session definition has the same durations.", "quantifier": "every duration in milliseconds", "why_tests_cant": "carries between ms, s, min and h for all values", "anchors": ["lsl/common/sdf.py:Observation.duration", "lsl/common/sdf.py:parse_sdf"]}
{"id": "C31", "title": "Session definition file: render then parse gives back the same observations", "statement": "Rendering a session to the text format and parsing the text yields the same observations with the same settings; in particular a setting of one observation never changes another one.", "quantifier": "every list of observations with any mix of beam settings, gains and spectrometer options", "why_tests_cant": "the parser carries state across observations; only a few files are tested", "anchors": ["lsl/common/sdf.py:parse_sdf", "lsl/common/sdf.py:Project.render, _render_file"]}
{"id": "C32", "title": "Stepped observation: the documented maximum number of steps is accepted", "statement": "A stepped observation is rejected for its number of steps exactly when it has more than MAX_STP_N steps.", "quantifier": "every number of steps", "why_tests_cant": "boundary of a large limit", "anchors": ["lsl/common/sdf.py:Stepped.validate"]}
{"id": "C33", "title": "Baseline list: complete, duplicate free, and searchable", "statement": "The list of baselines of N antennas contains each unordered pair exactly once (N(N-1)/2, or N(N+1)/2 with autocorrelations), in index order; baseline number to antennas to baseline number is the identity; looking up a pair that is not a baseline returns -1.", "quantifier": "every number of antennas, with and without autocorrelations, every pair", "why_tests_cant": "all array sizes and pairs", "anchors": ["lsl/correlator/uvutils.py:get_baselines, baseline_to_antennas, antennas_to_baseline"]}
{"id": "C34", "title": "uvw coordinates: rotation preserves length, antisymmetry and closure", "statement": "For any source position, the uvw coordinates of a baseline have the length of the baseline in wavelengths, change sign when antennas are swapped, and add up to zero around any closed triangle.", "quantifier": "every hour angle, declination, latitude, antenna positions, frequency", "why_tests_cant": "real-valued domain", "anchors": ["lsl/correlator/uvutils.py:compute_uvw"]}
{"id": "C35", "title": "Configuration: temporary change is always undone", "statement": "After leaving the temporary-change context (normally or through an exception, and nested), the parameter has the value it had before; a permanent change made is visible to later reads.", "quantifier": "every sequence of get/set/set_temp with every nesting", "why_tests_cant": "histories and crash points inside the context", "anchors": ["lsl/config.py:LSLConfigContainer.set, set_temp, get"]}
{"id": "C36", "title": "Configuration: saved settings are the settings loaded next time", "statement": "Settings changed during a session and saved are seen with the same values by the next session.", "quantifier": "every set of string, integer, float, boolean or empty values; every sequence of saves in a session", "why_tests_cant": "all value spellings (\"True\", \"123\", \"\") and save histories", "anchors": ["lsl/config.py:LSLConfigContainer._load_config, _save_config, __str__"]}
{"id": "C37", "title": "Telemetry: no use is counted twice or lost, and ignore() suppresses counting", "statement": "The total of the counts in the written log files plus those in memory equals the number of tracked calls while active; calls inside ignore() are not counted.", "quantifier": "every sequence of track/write/clear/enable/disable with every timing of writes", "why_tests_cant": "depends on write timing (same second) and on history", "anchors": ["lsl/misc/telemetry/__init__.py:_TelemetryClient.track, write, clear, ignore"]}
{"id": "C38", "title": "Text headers: the parsed header gives back what was written", "statement": "Writing a structured header with (nested) sections and key/value pairs and parsing the text gives back the same nested structure and values.", "quantifier": "every nested structure and every value", "why_tests_cant": "the parser is indentation driven; all layouts matter", "anchors": ["lsl/common/header.py:parse_header, _BaseHeader"]}
{"id": "C39", "title": "Open-file registry: a file is listed exactly while a reader is open", "statement": "The registry of open data files reports a filename exactly when at least one reader object opened on it has not been closed.", "quantifier": "every sequence of open and close of readers on any files", "why_tests_cant": "histories", "anchors": ["lsl/reader/ldp.py:_LDPFileRegistry"]}
{"id": "C40", "title": "Data file reading: consecutive reads return contiguous, non-overlapping data", "statement": "Repeatedly reading a duration from a DRX file returns, over all calls, every frame of the file exactly once and in order, each call at least one frame and no more than requested.", "quantifier": "every number of frames in the file and every sequence of requested durations", "why_tests_cant": "all splittings of a file in reads", "anchors": ["lsl/reader/ldp.py:DRXFile.read"]}
{"id": "C41", "title": "Sexagesimal angles: conversion round trip and ranges", "statement": "Converting decimal degrees to degrees/minutes/seconds or hours/minutes/seconds and back preserves the angle and sign, fields are in range (minutes and seconds below 60), and normalised angles lie in [0,360) and hours in [0,24).", "quantifier": "every rational angle", "why_tests_cant": "boundary values on an infinite domain", "anchors": ["lsl/astro.py:deg_to_dms, deg_to_hms, dms.to_deg, hms.to_deg, range_degrees, range_hours, add_hms"]}
{"id": "C42", "title": "Day of week is correct for every date", "statement": "The day of the week computed from a Julian date is the civil one for every instant of every day.", "quantifier": "every Julian date", "why_tests_cant": "the rounding behaviour at midnight alternates between days", "anchors": ["lsl/astro.py:get_day_of_week"]}
{"id": "C43", "title": "Downsampling keeps the total of the used samples", "statement": "Downsampling by n returns floor(N/n) values, each the sum of its n consecutive samples, so the total equals the total of the first n*floor(N/n) samples.", "quantifier": "every vector and every factor >= 1", "why_tests_cant": "all lengths not divisible by the factor", "anchors": ["lsl/misc/mathutils.py:downsample"]}
{"id": "C44", "title": "Spherical harmonic coefficient indexing is consistent", "statement": "Fitting and evaluating use the same number and order of coefficients for every maximum degree, for real-only and full expansions.", "quantifier": "every lmax", "why_tests_cant": "index arithmetic for all degrees", "anchors": ["lsl/misc/mathutils.py:sphfit, sphval"]}
{"id": "C45", "title": "Observation specification file: truncated files are rejected", "statement": "Reading a binary observation specification file that was cut short at any byte raises an error instead of returning a wrong observation.", "quantifier": "every well-formed file and every cut point", "why_tests_cant": "every crash/truncation point", "anchors": ["lsl/common/metabundle.py:read_obs_file"]}
{"id": "C46", "title": "Metadata tarballs: nothing is written outside the temporary directory", "statement": "Whatever member names a metadata tarball contains, extraction only writes to paths below the temporary directory, and only files below it are then read.", "quantifier": "every member name (absolute, with .., repeated separators)", "why_tests_cant": "adversarial names", "anchors": ["lsl/common/metabundle.py:get_sdf, get_observation_spec", "lsl/common/_metabundle_utils.py:get_session_metadata"]}
{"id": "C47", "title": "ASP configuration summary is the mode", "statement": "The summary value of each ASP setting is a value that occurs at least as often as every other value.", "quantifier": "every list of settings", "why_tests_cant": "all frequency patterns including ties", "anchors": ["lsl/common/_metabundle_utils.py:get_asp_configuration_summary"]}
{"id": "C48", "title": "Station file: each antenna gets its own hardware and antennas come out in digitizer order", "statement": "For a station file whose assignments are one-to-one, the resulting antennas are ordered by digitizer with digitizer numbers 1..N, each antenna keeps its own stand/FEE/cable/board, each setting line changes only its own entry with its own value, and hardware marked as unassigned does not alter any antenna.", "quantifier": "every one-to-one assignment of any size", "why_tests_cant": "permutations are unbounded", "anchors": ["lsl/common/stations.py:parse_ssmif, _parse_ssmif_text, LWAStationBase._sort_antennas"]}
{"id": "C49", "title": "Data file cache: a fetch interrupted or failed never leaves a bad file that later opens accept", "statement": "After fetching a data file, whatever the sequence of download failures, a later open sees either a complete copy or triggers a new fetch; when no source is reachable the fetch reports failure.", "quantifier": "every sequence of failures/crash points of local copy and downloads", "why_tests_cant": "crash points and failures of the network", "anchors": ["lsl/common/data_access.py:_DataAccess.fetch_data_file, _download_worker, _local_copy_worker"]}
{"id": "C50", "title": "Progress bar text has a fixed width", "statement": "The rendered progress bar has exactly the requested width for every amount between 0 and the maximum, and increments/decrements never make the amount negative.", "quantifier": "every amount, maximum, span and every sequence of inc/dec", "why_tests_cant": "all amounts and spans", "anchors": ["lsl/common/progress.py:ProgressBar.inc, dec, show"]}
{"id": "C51", "title": "Command line lists: every number of every range is selected exactly as written", "statement": "A comma separated list of integers and inclusive ranges is parsed to exactly those integers in order; time and date arguments that are accepted are valid times.", "quantifier": "every list of ranges; every milliseconds-past-midnight value", "why_tests_cant": "all ranges and boundary times", "anchors": ["lsl/misc/parser.py:csv_int_list, mpm, time"]}
{"id": "C52", "title": "Colour markup: removing colours inverts adding colours", "statement": "Text produced by the colour markup contains the original text when colour codes are removed, and uncolouring is idempotent.", "quantifier": "every text without markup characters and every nesting of markup", "why_tests_cant": "all strings", "anchors": ["lsl/common/color.py:colorfy, uncolorfy"]}
{"id": "C53", "title": "DRX file opening works for every file size", "statement": "A DRX file holding at least 32 usable frames without a large time gap can be opened, and reading starts at its first usable frame, whatever the number of frames.", "quantifier": "every number of frames >= 32, every frame contents, any leading junk without sync words and any incomplete tail", "why_tests_cant": "only special file sizes trigger the failure", "anchors": ["lsl/reader/ldp.py:DRXFile._ready_file"]}
{"id": "C54", "title": "Frame buffer: reorder option sorts each group by frame id", "statement": "With reorder=True every group handed out by a DRX buffer is ordered by beam, then tuning, then polarization, whatever the arrival order; likewise a correlator buffer orders by stand pair.", "quantifier": "every history of append/get/flush, every arrival order and every id set", "why_tests_cant": "The number of arrival permutations is factorial and only a few hand-written orders are tested; the sort key for stand pairs is not monotone in the pair.", "anchors": ["lsl/reader/buffer.py:_cmp_frames", "lsl/reader/buffer.py:FrameBufferBase.get"]}
{"id": "C55", "title": "Frame timestamp: pulsar MJD triple is exact and normalised", "statement": "The (day, second of day, fraction) triple given for a timestamp adds up to exactly the instant, with second of day in 0..86399 and fraction in [0,1).", "quantifier": "every instant after MJD 0 (every split of the Julian date into a whole part and a fraction of at most half a day)", "why_tests_cant": "a continuum of instants; the failing ones are one second per day", "anchors": ["lsl/reader/base.py:FrameTimestamp.pulsar_mjd, from_pulsar_mjd"]}
{"id": "C56", "title": "VDIF integer reader: memory accesses stay inside the sample array", "statement": "Reading a VDIF frame, real or complex, with the float or the integer reader only accesses memory of the sample array it allocated.", "quantifier": "every number of samples, both readers, real and complex frames", "why_tests_cant": "an out-of-bounds read usually goes unnoticed in a test; whether it can happen is a question about every frame size", "anchors": ["lsl/reader/vdif.cpp:parse_vdif, read_vdif", "lsl/reader/vdif.py:read_frame_i8"]}
{"id": "C57", "title": "VDIF writer: time is split into epoch, second and frame number consistently with the reader", "statement": "The reference epoch, second and frame number written for a time denote that time to within half a frame for the reader, the frame number being below the number of frames per second.", "quantifier": "every date, sample rate, frame size and time", "why_tests_cant": "depends on calendar half years, on rounding at the end of a second and on six-bit wrap-around, for all times", "anchors": ["lsl/writer/vdif.py:Frame._set_epoch, create_raw_frame", "lsl/reader/vdif.py:FrameHeader.time"]}
{"id": "C58", "title": "uv tracks: every point is a position the baseline really takes", "statement": "Every point of the uv track computed for a baseline is the (u, v) position of that baseline at some hour angle of the source, all positions of the baseline lie on the ellipse of the track, and the track is closed at its two ends.", "quantifier": "every baseline, declination, latitude, frequency and point of the track", "why_tests_cant": "a statement about real-valued geometry for all positions; tests compare only shapes", "anchors": ["lsl/correlator/uvutils.py:compute_uv_track"]}
{"id": "C59", "title": "Configuration: a session is marked for saving exactly when something changed", "statement": "After any sequence of permanent changes the configuration is marked for saving exactly when some parameter differs from the value it had when the session started, or the file was written by another version.", "quantifier": "every sequence of changes of any parameters to any values", "why_tests_cant": "changing back and forth through equal values of different types has unboundedly many histories", "anchors": ["lsl/config.py:LSLConfigContainer.set"]}
{"id": "C60", "title": "Telemetry upload: files are removed only after they were sent", "statement": "Running the upload removes log files only when the server accepted the data, and then only files whose contents were part of the data.", "quantifier": "every set of log files of any ages, readable or not, and every answer of the server", "why_tests_cant": "failure of the network and damaged files are not part of tests", "anchors": ["lsl/misc/_telemetry_send.py:main"]}
{"id": "C61", "title": "Calendar: local time conversion is exact", "statement": "Converting a calendar date to a zone date shifts it by exactly the zone offset and converting back gives the original date.", "quantifier": "every date with any fraction of a second and every zone offset", "why_tests_cant": "only fractions of a second in a narrow window are affected by the printing of the date in between", "anchors": ["lsl/astro.py:date_to_zonedate, zonedate_to_date"]}
{"id": "C62", "title": "Spherical harmonics: the real-only expansion agrees with the full one", "statement": "For real data, fitting and evaluating with real_only gives the same values as the full expansion.", "quantifier": "every real data set, grid, degree and mode", "why_tests_cant": "an algebraic identity over all coefficients; tests use few smooth patterns", "anchors": ["lsl/misc/mathutils.py:sphfit, sphval"]}
{"id": "C63", "title": "Smoothing keeps the samples in place", "statement": "Smoothing returns as many samples as it was given, leaves constant signals unchanged including their ends, and away from the ends each value is the mean of the samples around it weighted by the centred window.", "quantifier": "every signal, window and window length up to the signal length", "why_tests_cant": "all lengths relative to the window; the failure is at one length only", "anchors": ["lsl/misc/mathutils.py:smooth"]}
{"id": "C64", "title": "Session and command files: read back exactly, damage is reported", "statement": "Reading a session file or command script returns exactly the fields and commands written, and a file that was cut short or contains an invalid record raises an error.", "quantifier": "every script of any number of commands, and every cut point", "why_tests_cant": "every truncation point and script length", "anchors": ["lsl/common/metabundle.py:read_ses_file, read_cs_file"]}
{"id": "C65", "title": "C structure layouts are those of the C compiler", "statement": "The fields of a structure built from a C declaration keep their order, do not overlap, start at multiples of their element size with no more padding than needed, and lie inside the structure.", "quantifier": "every list of fields of any sizes and counts", "why_tests_cant": "all declarations", "anchors": ["lsl/common/mcs.py:parse_c_struct"]}
{"id": "C66", "title": "Metadata tarballs: the expected member is read or an error is raised", "statement": "Each metadata function reads the member with the expected name, and raises an error when the tarball has none.", "quantifier": "every list of member names", "why_tests_cant": "all orders and absences of members", "anchors": ["lsl/common/_metabundle_utils.py:get_session_metadata", "lsl/common/metabundle.py:get_asp_configuration"]}
{"id": "C67", "title": "Metadata tarballs: repeated calls see the current file", "statement": "A metadata function called on a tarball gives what the file contains at the time of the call.", "quantifier": "every history of calls and changes of files", "why_tests_cant": "histories of changes between calls", "anchors": ["lsl/common/_metabundle_utils.py:_open_tarball"]}
{"id": "C68", "title": "ASP configuration: each MIB entry sets its own antenna", "statement": "After reading the MIB each antenna has the filter and attenuator values of its own entries and -1 without one; other entries change nothing.", "quantifier": "every sequence of MIB entries", "why_tests_cant": "all subsets and orders of entries", "anchors": ["lsl/common/_metabundle_utils.py:get_asp_configuration"]}
{"id": "C69", "title": "Frequency and wavelength ranges come out in order", "statement": "A frequency or wavelength range argument gives two values, the smaller first, which are the values written at its two ends; a start without units takes the units of the stop, and a start with units and a stop without is refused.", "quantifier": "every text, every number format and unit conversion", "why_tests_cant": "unbounded texts and both orders, including units that reverse the order", "anchors": ["lsl/misc/parser.py:_frequency_conversion_base, _wavelength_conversion_base, frequency_range, wavelength_range"]}
{"id": "C70", "title": "Visibility files give back every visibility with its own baseline, product and time", "statement": "For FITS-IDI (standard, AIPS, extended) and UVFITS files: if the data sets of some integrations are added in any order and written, reading an integration gives its time, the products, and for every baseline exactly the visibilities and weights that were added for that pair of stands, product and channel.", "quantifier": "every array, every number of integrations, baselines, products and channels, every order of the data sets", "why_tests_cant": "unbounded arrays, numbers of integrations, and orders of baselines and data sets", "anchors": ["lsl/writer/fitsidi.py:_UVData.argsort, set_stokes, set_geometry, _write_uvdata_hdu", "lsl/writer/uvfits.py:merge_baseline, split_baseline, _write_primary_hdu", "lsl/imaging/utils.py:CorrelatedDataIDI, CorrelatedDataUV, get_data_set"]}
{"id": "C71", "title": "Visibility containers keep each visibility with its baseline", "statement": "Sorting, reordering, cutting by baseline length and selecting antennas move or drop whole lines: the visibilities, weights, flags and coordinates of a baseline stay together, exactly the lines asked for remain, and sorting puts baselines in order of first and then second antenna; integrations in one container have different times and the same size.", "quantifier": "every data set, every number of baselines, products and channels, every order, cut and selection", "why_tests_cant": "unbounded arrays and all selections and orders", "anchors": ["lsl/imaging/data.py:PolarizationDataSet, VisibilityDataSet, VisibilityData"]}
{"id": "C72", "title": "Stokes parameters and polarization products convert back exactly", "statement": "Linear products converted to Stokes parameters and back have the same visibilities, as have Stokes parameters converted to linear products and back; circular products determine the Stokes parameters; each pair of products is converted if both are there, and data already of the kind asked for are refused.", "quantifier": "every data set, every set of products present, every visibility", "why_tests_cant": "all values and all subsets of products", "anchors": ["lsl/imaging/utils.py:convert_to_stokes, convert_to_linear, convert_to_circular"]}
{"id": "C73", "title": "The F engine transforms each stand's own delayed samples", "statement": "With an overlap that divides the transform length, the F engine reads only samples of the stand in hand, writes every output cell exactly once with no two threads sharing a cell, and gives for each stand and window the weighted transform of the samples delayed by the whole sample part of the delay, rotated in phase by the rest, channels in order of frequency; windows with a clipped sample are zero and marked invalid.", "quantifier": "every number of stands, samples, channels, taps and windows, every delay, window function and clip level", "why_tests_cant": "all sizes and all delays; accesses just outside the arrays are usually not noticed", "anchors": ["lsl/correlator/core.cpp:compute_fengine_real, compute_fengine_complex, FEngine, PFBEngine", "lsl/correlator/fx.py:FXMaster (freq)"]}
{"id": "C74", "title": "The X engines average over common valid windows", "statement": "The X engines give one row for each pair of stands in order; each visibility is the mean over the windows valid for both signals of the first spectrum times the conjugate of the second; autocorrelations are real and exchanging the stands conjugates; the Stokes engine gives XX+YY, XX-YY, XY+YX and (XY-YX)/i of these.", "quantifier": "every number of stands, channels and windows, all spectra and flags", "why_tests_cant": "all sizes and all patterns of flagged windows", "anchors": ["lsl/correlator/core.cpp:compute_xengine_two, compute_xengine_three", "lsl/correlator/stokes.cpp:compute_xengine_three"]}
{"id": "C75", "title": "Power spectra are means over unclipped windows, channels in order of frequency", "statement": "SpecMaster and StokesMaster give for each stand and channel the mean over the windows without a clipped sample of |X|^2, or of |X|^2+|Y|^2, |X|^2-|Y|^2, 2Re(XY*) and 2Im(XY*), divided by the transform length, with channels in order of frequency; all accesses are inside the arrays; the power of complex samples is kept, and the polarized power is at most the total.", "quantifier": "every number of stands, samples, channels, taps and windows, all data and clip levels", "why_tests_cant": "all sizes and all data; reads just past the end of an array go unnoticed", "anchors": ["lsl/correlator/spec.cpp:compute_spec_real, compute_spec_complex", "lsl/correlator/stokes.cpp:compute_stokes_real, compute_stokes_complex", "lsl/correlator/fx.py:SpecMaster, StokesMaster"]}
{"id": "C76", "title": "Each row of a correlator front end is for the baseline it is returned with", "statement": "FXMaster, FXStokes, XMaster and XStokes return one row for each returned baseline and in the same order, computed from the signals of the two antennas of that baseline, each with its own delay and gain; delays differ by cable and geometry only, are never negative at the reference channel, and one of them is zero there.", "quantifier": "every list of antennas, signals, delays, positions, polarization strings and options", "why_tests_cant": "any list of antennas; a wrong pairing gives plausible visibilities", "anchors": ["lsl/correlator/fx.py:FXMaster", "lsl/correlator/fx.py:FXStokes", "lsl/correlator/fx.py:XMaster", "lsl/correlator/fx.py:XStokes", "lsl/correlator/fx.py:pol_to_pols"]}
{"id": "C77", "title": "A beam is the coherent mean over the working antennas of its polarization", "statement": "The beam forming engine stays inside its arrays and gives for every channel and time the mean over the chosen antennas of coefficient times sample, whatever the number of times modulo the block size; with the delays of calc_delay a plane wave from the pointing direction comes out of every polarization undiminished and with one common reference time; circular polarizations keep the power.", "quantifier": "every number of antennas, channels and times, every choice of antennas, positions, cables, frequencies and pointings", "why_tests_cant": "block edges, array bounds and any geometry; a wrong address gives plausible numbers", "anchors": ["lsl/misc/beamformer.cpp:phase_and_sum_real", "lsl/misc/beamformer.cpp:phase_and_sum_complex", "lsl/misc/beamformer.cpp:BEngine", "lsl/misc/beamformer.py:calc_delay", "lsl/misc/beamformer.py:phase_and_sum", "lsl/misc/beamformer.py:circularize"]}
{"id": "C78", "title": "Gridding spreads every visibility on a torus and projects every w plane with its phase", "statement": "The w planes are non empty, cover every visibility once and are narrower than the w resolution; gridding stays inside its arrays and gives the sum over the visibilities of value times a product of two weights on a torus; the image of the result is the sum over the planes of the image of the plane times the phase for its mean w; with phase one the planes make no difference; the correction is the product of two transforms of the kernel.", "quantifier": "every number and order of visibilities, every size of the plane from four, every kernel of 225 entries, every ring with roots of unity", "why_tests_cant": "array bounds, plane edges and wrap around for any coordinates; the identity of images holds for all visibilities", "anchors": ["lsl/imaging/gridder.cpp:compute_planes", "lsl/imaging/gridder.cpp:compute_gridding", "lsl/imaging/gridder.cpp:w_projection_kernel", "lsl/imaging/gridder.cpp:compute_kernel_correction", "lsl/imaging/gridder.cpp:WProjection"]}
{"id": "C79", "title": "An image is made of every visibility and its mirror image, and is real", "statement": "What is gridded is every visibility of the channels asked for and its mirror image, each once, ordered by w, with uvw, data and weights in step; planes are then narrower than the w resolution on both sides; with phase one the uv plane is the sum over visibilities and mirror images, is Hermitian, and has a real image; uniform and robust weighting divide each cell by the weight given; the image keywords give the number and size of pixels asked for; the phase centre is at the reference pixel.", "quantifier": "every data set, sorting order, channel selection, kernel, plane of four cells or more, weights", "why_tests_cant": "holds for all orders that sort and all coordinates; state left in the object shows only in sequences of calls", "anchors": ["lsl/imaging/utils.py:build_gridded_image", "lsl/imaging/utils.py:ImgWPlus", "lsl/imaging/utils.py:get_image_radec", "lsl/imaging/utils.py:plot_gridded_image"]}
{"id": "C80", "title": "A measurement set gives back what was written", "statement": "Integrations written by `Ms` are read back by `CorrelatedDataMS` in order of time, each with its middle, integration time, source name, products, and for every baseline (with or without autocorrelations) the positions of its stands, its uvw coordinates and all channels of all windows; the baselines come in order of the antennas; coordinates read are those of compute_uvw.", "quantifier": "every set of integrations with one list of baselines, any order of adding, any sorting of equal keys, one or two windows, any values", "why_tests_cant": "holds for all lists of baselines, orders and sizes; the failures need three windows, changed baselines or close zenith pointings", "anchors": ["lsl/writer/measurementset.py:Ms", "lsl/writer/measurementset.py:_write_main_table", "lsl/writer/measurementset.py:_write_observation_table", "lsl/imaging/utils.py:CorrelatedDataMS"]}
{"id": "C81", "title": "Simulated visibilities are the sum over the sources", "statement": "FastVis returns for every baseline and requested channel the coordinates of the baseline towards the phase centre and the sum over the sources of flux, response of a resolved source and phase relative to the phase centre; channels not asked for are zero, every access is inside its array if and only if channels and antennas exist; sources add, their order is irrelevant, swapping the antennas conjugates, phases close around triangles; rephasing is the phase of the new centre and can be undone; scaling by gains can be undone and keeps closure phases.", "quantifier": "every array, number of sources, channels and baselines, every direction and source shape", "why_tests_cant": "holds for every array and sky; out of bounds accesses need not show in a test", "anchors": ["lsl/sim/simfast.cpp:compute_visibility", "lsl/sim/simfast.cpp:FastVis", "lsl/sim/vis.py:build_sim_data", "lsl/sim/vis.py:scale_data", "lsl/sim/vis.py:add_baseline_noise", "lsl/imaging/data.py:VisibilityData.rephase"]}
{"id": "C82", "title": "Dedispersion puts the frequencies of a signal back in step", "statement": "Delays are relative to the highest frequency and follow the inverse square; incoherent dedispersion moves every channel by its delay, wrapped or filled; the window of coherent dedispersion is a power of two from two to four times the delay of the band; on all samples computed its result is the stream, with the samples before and after, filtered with the response of the chirp, with the times given, for every piece of a stream the same; the chirp removes the phase of dispersion exactly, up to the delay of the centre; the cache never changes a result.", "quantifier": "every list of frequencies, dispersion measure, window, data, neighbours and history of the cache", "why_tests_cant": "holds for all sizes, pieces of streams and chirps; the failures need certain dispersion measures or lengths", "anchors": ["lsl/misc/dedispersion.py:delay", "lsl/misc/dedispersion.py:incoherent", "lsl/misc/dedispersion.py:get_coherent_sample_size", "lsl/misc/dedispersion.py:coherent", "lsl/misc/dedispersion.py:_chirp"]}
{"id": "C83", "title": "The filter bank is a filtered transform of all its taps", "statement": "fft of N channels and P taps gives for every channel the sum over N*P samples of sample, window, coefficient and phase, that is every P-th channel of the plain transform; the coefficients are symmetric; signals add; a real signal has conjugate channels; a shorter signal is refused.", "quantifier": "every signal, window, number of channels and taps", "why_tests_cant": "holds for all sizes and signals", "anchors": ["lsl/correlator/filterbank.py:fft", "lsl/correlator/filterbank.py:__filterCoeff"]}
{"id": "C84", "title": "The mode and the runs test", "statement": "The half-sample mode lies between values of the data, does not depend on their order, moves with their origin and unit, exists for different values, and with an odd number of them takes the narrowest half sample; the runs counted are the maximal runs, the same backwards and with the signs changed, and the mean and variance used are those over all arrangements of the data.", "quantifier": "every data set, every number of positive and negative values", "why_tests_cant": "the mean and variance are over all arrangements of any number of values; the mode recursion is of any depth", "anchors": ["lsl/statistics/robust.py:mode", "lsl/statistics/stattests.py:_count_runs", "lsl/statistics/stattests.py:wald_wolfowitz"]}
{"id": "C85", "title": "Spectral kurtosis and its limits", "statement": "The variance and third moment are those of the kurtosis of Gaussian noise; the distribution that the limits are taken from has parameters in its range and exactly that mean, variance and third moment; the estimator does not depend on unit or order, is zero exactly for constant power and at most M N + 1; the NumPy error levels are restored on return.", "quantifier": "every number of measurements from two and of spectra from one, every list of powers", "why_tests_cant": "an identity of algebraic functions of two integers and inequalities over all data", "anchors": ["lsl/statistics/kurtosis.py:var", "lsl/statistics/kurtosis.py:skew", "lsl/statistics/kurtosis.py:_alpha", "lsl/statistics/kurtosis.py:_beta", "lsl/statistics/kurtosis.py:_delta", "lsl/statistics/kurtosis.py:get_limits", "lsl/statistics/kurtosis.py:spectral_power"]}
{"id": "C86", "title": "Robust averages and deviations follow the data", "statement": "The robust mean is the average of a part of the data and lies within them; mean, standard deviation and biweight mean follow a shift, and the first two a change of unit that does not cross the smallest number; they do not depend on order; constant data give their value and no deviation; few outliers on spread data are cut.", "quantifier": "every list of real numbers, every cut, shift and unit", "why_tests_cant": "invariance under all shifts, units and orders of data of any length", "anchors": ["lsl/statistics/robust.py:biweight_mean", "lsl/statistics/robust.py:mean", "lsl/statistics/robust.py:std"]}
{"id": "C87", "title": "Robust fits are least squares and exact on exact data", "statement": "linefit with at least one pass returns zero or the line of least squares for some weights that are not negative; data on a line give that line; moved data give the moved line. The weights of checkfit add up to one and vanish exactly from the limit on, and an exact fit is accepted. polyfit gives a polynomial through all points when there is one, for every order from one; the coefficients put back are those of the moved polynomial.", "quantifier": "every list of points, every slope, intercept, polynomial and order, every number of passes", "why_tests_cant": "a minimum over all lines, for data of any length and any number of passes", "anchors": ["lsl/statistics/robust.py:checkfit", "lsl/statistics/robust.py:linefit", "lsl/statistics/robust.py:__polyfit_rescale", "lsl/statistics/robust.py:polyfit"]}
{"id": "C88", "title": "Antenna gains, areas and flux densities agree", "statement": "Gains in dBi, dBd and K/Jy convert to one another and back; a gain is the temperature for one jansky in the effective area, which is so many decibels above the isotropic one; the SEFD doubles the temperature, the same for a gain as for its area; strengths in dBm and flux densities are inverse; units do not matter and what is not positive raises.", "quantifier": "every positive gain, frequency, area, bandwidth and flux density, every value of the constants", "why_tests_cant": "identities over all real arguments", "anchors": ["lsl/misc/rfutils.py:dBi_to_gain", "lsl/misc/rfutils.py:gain_to_dBi", "lsl/misc/rfutils.py:calculate_sefd", "lsl/misc/rfutils.py:calculate_effective_area", "lsl/misc/rfutils.py:Jy_to_dBm", "lsl/misc/rfutils.py:dBm_to_Jy"]}
{"id": "C89", "title": "Removing scattering loses nothing", "statement": "Screens are not negative, add up to one and are zero before the pulse. After any number of passes the profile is the residuals and the components scattered again, the flux is kept and no component is negative; the passes end below the level of the noise or at their number. The search gives the best of the times. With the zero of the times in the middle a component is restored at its place.", "quantifier": "every profile, all times, every scattering time, gain and number of passes", "why_tests_cant": "an invariant of any number of passes on any profile", "anchors": ["lsl/misc/scattering.py:thin", "lsl/misc/scattering.py:thick", "lsl/misc/scattering.py:uniform", "lsl/misc/scattering.py:unscatter", "lsl/misc/scattering.py:_positivity", "lsl/misc/scattering.py:_skewness"]}
{"id": "C90", "title": "Self-calibration finds the phases and delays of antennas", "statement": "For data that differ from the model by phases of antennas less than half a turn apart on every baseline, and baselines that connect the antennas, k passes find all but (1-gain)^k of the phases and it converges with enough passes; the same for delays. Returned data are always the original ones with the returned delays and phases, which are zero for the reference antenna and within a turn.", "quantifier": "every array, data set, model, gain between zero and two, number of passes and exact least-squares solver", "why_tests_cant": "an invariant of any number of passes on all data", "anchors": ["lsl/imaging/selfcal.py:_self_cal", "lsl/imaging/selfcal.py:_scale_data", "lsl/imaging/selfcal.py:_build_phase_a", "lsl/imaging/selfcal.py:_build_phase_c", "lsl/imaging/selfcal.py:_build_delay_a", "lsl/imaging/selfcal.py:_build_delay_c", "lsl/imaging/selfcal.py:_build_amplitude_a", "lsl/imaging/selfcal.py:_build_amplitude_c"]}
{"id": "C91", "title": "Deconvolution keeps the image as residuals and beams", "statement": "After any number of passes of clean and clean_sources the image is the residuals and the beams of the components, which keep flux and place when shared by pixels; a cached beam is the one of its position. Every component is the largest value of the residuals. The minor cycle keeps the sum of the image. The model of lsq is never negative, its deviation never grows and it ends by itself.", "quantifier": "every image, beam, fit, gain, threshold and number of passes", "why_tests_cant": "an invariant of loops of any length on all images", "anchors": ["lsl/imaging/deconv.py:_interpolate", "lsl/imaging/deconv.py:clean", "lsl/imaging/deconv.py:clean_sources", "lsl/imaging/deconv.py:_minor_cycle", "lsl/imaging/deconv.py:lsq"]}
{"id": "C92", "title": "Background levels and point sources", "statement": "Every tile of an image has a level between its values or within one and a half of their range, which moves with origin and unit; at most a ninth of the values are clipped; tiles without a level take the median of the others. find_point_sources reports exactly the pixels whose smoothed value reaches the threshold and is not below that of any pixel in the detection box, with shape statistics within the limits; a single bright pixel is found once; scaling image and threshold scales only the flux.", "quantifier": "every image, window, threshold, width and limits", "why_tests_cant": "the criterion is on all pixels of all images", "anchors": ["lsl/imaging/analysis.py:estimate_background", "lsl/imaging/analysis.py:find_point_sources"]}
{"id": "C93", "title": "Sky maps and overlays", "statement": "The scale of a map passes through the surveys, is a power law between them and raises outside. The projected map holds exactly the pixels above the horizon, all columns in the same order, with direction cosines of unit length; the visible power is the sum of the normalised powers. Overlays draw exactly the sources above the horizon and put back the date of the array.", "quantifier": "every survey, map, site, time and list of sources", "why_tests_cant": "statements on all maps and sites", "anchors": ["lsl/skymap.py:SkyMapLFSM._load", "lsl/skymap.py:SkyMapGSM._load", "lsl/skymap.py:SkyMapBase.compute_total_power", "lsl/skymap.py:ProjectedSkyMap.__init__", "lsl/skymap.py:ProjectedSkyMap.get_direction_cosines", "lsl/skymap.py:ProjectedSkyMap.compute_visible_power", "lsl/imaging/overlay.py:_radec_of", "lsl/imaging/overlay.py:sources", "lsl/imaging/overlay.py:graticule_azalt"]}
{"id": "C94", "title": "Interferometer definition files are read back", "statement": "Writing a project and reading the file gives the project with scans in the order of their starts, numbers to the digits written, user name taken out of the comments, and settings that are not written as left by earlier scans; with uniform settings and numbers that fit it gives the project itself.", "quantifier": "every project, any number of scans, alternate phase centers and stations", "why_tests_cant": "texts, numbers and orders are unbounded, and the state kept between scans depends on all earlier ones", "anchors": ["lsl/common/idf.py:Project.render", "lsl/common/idf.py:parse_idf", "lsl/common/idf.py:_parse_create_scan_object"]}
{"id": "C95", "title": "Checks of interferometer definitions and their session definitions", "statement": "A scan, run or project is valid exactly if all of its conditions hold: duration, tunings, filter, visibility at every sample and station, alternate phase centers and data volume, no overlaps, one filter, distinct stations. generate_sdfs makes one definition per station in order with consecutive session ids, the same observations in time order and numbered alternate phase centers in the comments of the project office.", "quantifier": "every project, sky and number of stations, scans and alternate phase centers", "why_tests_cant": "the conditions are on all samples, scans and stations", "anchors": ["lsl/common/idf.py:Project.validate", "lsl/common/idf.py:Run.validate", "lsl/common/idf.py:Scan.validate", "lsl/common/idf.py:Scan.target_visibility", "lsl/common/idf.py:Project.generate_sdfs"]}
{"id": "C96", "title": "Times of session definitions are read as the moments they are", "statement": "parse_time accepts exactly the texts of its pattern, takes month names in any case, reads a time in UTC, in a named zone or with a shift as that moment to the nearest millisecond, and maps a local sidereal time to a moment of the day at which that sidereal time holds; setting the start of an observation to its own text leaves it as it is. Sizes and bandwidths are in the greatest unit and right to half the last digit.", "quantifier": "every text, date, zone, longitude and size", "why_tests_cant": "the texts and dates are unbounded, the loops of sidereal time run over centuries of days, and fractions fail only in the last half millisecond", "anchors": ["lsl/common/_sdf_utils.py:parse_time", "lsl/common/_sdf_utils.py:render_file_size", "lsl/common/_sdf_utils.py:render_bandwidth", "lsl/common/sdf.py:Observation.start"]}
{"id": "C97", "title": "Spectrometer files give every frame once, and moving goes where it says", "statement": "Opening a spectrometer file finds the first frame behind other bytes and describes it. Reading durations until the end returns the values of every frame once and in order, in pieces of the frame count nearest to the duration, with the time of the first frame of each, and then the end of the file. Moving by a time goes to the frame nearest to it, returns the time actually moved and describes the file anew; past the end and before the start it raises.", "quantifier": "every file of frames of one kind, of any number, behind any bytes without a frame; every position, duration and shift", "why_tests_cant": "files are of any length, and the faults need a gap, a damaged frame or a cut at particular places", "anchors": ["lsl/reader/ldp.py:DRSpecFile._ready_file", "lsl/reader/ldp.py:DRSpecFile._describe_file", "lsl/reader/ldp.py:DRSpecFile.offset", "lsl/reader/ldp.py:DRSpecFile.read", "lsl/reader/ldp.py:LDPFileBase.read_sequence", "lsl/reader/ldp.py:LDPFileBase.get_remaining_frame_count", "lsl/reader/drspec.py:get_frame_size"]}
{"id": "C98", "title": "Consecutive reads of TBX and COR files give every step once and in order", "statement": "Reading a TBX or COR file piece by piece returns its time steps one after the other, each call as many as asked for or left, the data of each channel or baseline at their place with zeros for missing frames, the time of the first step, and `EOFError` at the end. Durations are rounded to the nearest number of steps, at least one. Every call ends. Moving in a TBX file goes to the step that far from the current one and leaves the rest readable.", "quantifier": "every regular file of any number of steps, channels and inputs, with missing, late and other frames; every sequence of calls and durations", "why_tests_cant": "files and call sequences are of any length, and the faults need particular positions, averages or damaged places", "anchors": ["lsl/reader/ldp.py:TBXFile.read", "lsl/reader/ldp.py:TBXFile.offset", "lsl/reader/ldp.py:CORFile.read", "lsl/reader/ldp.py:CORFile.offset", "lsl/reader/buffer.py:TBXFrameBuffer", "lsl/reader/buffer.py:CORFrameBuffer"]}
{"id": "C99", "title": "Maps of the ionosphere are read and interpolated as the format and the times say", "statement": "A file in the IONEX format is read to the times, grid, height and maps it was written from, with missing values marked and 24:00 as the start of the next day. The value at the time of a map is that of the map, in between it is interpolated linearly between the two maps around it; at points of the grid it is the value of the map, elsewhere it lies between those of the map. Each map has an uncertainty at every point. The file opened is the one downloaded, final before rapid.", "quantifier": "all files of any number of maps, latitudes and longitudes with any other lines before and after; all times and places; all spacings of maps", "why_tests_cant": "the library's tests download a few days and compare one value; the faults need hourly maps at their own times, maps wider than high, or the last half second of a day", "anchors": ["lsl/misc/ionosphere/_utils.py:_parse_tec_map", "lsl/misc/ionosphere/_utils.py:load_mjd", "lsl/misc/ionosphere/__init__.py:get_tec_value", "lsl/misc/ionosphere/_ustec.py:_parse_ustec_individual", "lsl/misc/ionosphere/_ustec.py:_parse_ustec_height", "lsl/misc/ionosphere/_glotec.py:_download", "lsl/misc/ionosphere/_glotec.py:load_mjd"]}
{"id": "C100", "title": "The magnetic field is minus the gradient of the model's potential for the time asked for", "statement": "At every place off the axis the Earth-fixed field is minus the gradient of the potential with the model's coefficients, in Schmidt's normalisation, and has no sources. The local components are the projections to north, east and up, and declination and inclination are the angles of that vector. The coefficients are those of the table in its years, interpolated linearly in between, and extrapolated with the secular change for five years. The decimal year is the year and the part of it that has passed.", "quantifier": "all coefficient tables of any degrees, all places off the axis, all years and dates; all fields", "why_tests_cant": "the library's tests compare a few places and dates to other software within tolerances; derivatives of Legendre functions of any degree and the loss of the time of day are below the tolerance", "anchors": ["lsl/misc/ionosphere/__init__.py:get_magnetic_field", "lsl/misc/ionosphere/__init__.py:_compute_igrf_coefficents", "lsl/misc/ionosphere/__init__.py:_load_igrf", "lsl/misc/ionosphere/__init__.py:_Snm", "lsl/misc/ionosphere/__init__.py:_Pnm", "lsl/misc/ionosphere/__init__.py:_dPnm", "lsl/misc/ionosphere/__init__.py:compute_magnetic_declination", "lsl/misc/ionosphere/__init__.py:compute_magnetic_inclination"]}
{"id": "C101", "title": "Rise, set and transit times are those of the horizon and the culmination", "statement": "For an object that rises and sets the times given are those of its next crossing of the horizon upwards and downwards, to the minute of the search, and of its highest point in between; for an object that does not rise or does not set, None.", "quantifier": "all latitudes, declinations and times; all altitude functions that are monotone within the search window", "why_tests_cant": "the library's tests compare a few objects seen from the north; stars with a southern lower culmination, times just after a rise, and the seconds of the transit are not compared", "anchors": ["lsl/astro.py:get_object_rst", "lsl/astro.py:_get_solar_system_rst"]}
{"id": "C102", "title": "Pointing corrections are rotations, and offsets between places are along their axes", "statement": "apply_pointing_correction returns the azimuth (0 to 360) and elevation (-90 to 90) of the direction turned by psi, right handed, about the axis with the given angles, can be undone with -psi, and gives the same in degrees and radians; the two matrices of a station are inverse to each other and right handed, with the axes east, north and up at its latitude; get_enz_offset is the difference of the places along east, north and up, and for the location of a stand it is the stand's position.", "quantifier": "all real angles, latitudes and longitudes, places and stands; directions off the vertical for the azimuth to come back", "why_tests_cant": "the library's tests look at three corrections of one direction to a tenth of a degree, none of which crosses north or goes near the zenith", "anchors": ["lsl/common/mcs.py:apply_pointing_correction", "lsl/common/mcs.py:_get_rotation_matrix", "lsl/common/stations.py:eci_transform_matrix", "lsl/common/stations.py:eci_inverse_transform_matrix", "lsl/common/stations.py:get_enz_offset", "lsl/common/stations.py:get_pointing_and_distance", "lsl/common/stations.py:earth_location"]}
{"id": "C103", "title": "Cables, filters and the order of antennas are as documented", "statement": "Delays of cables in a row add and attenuations multiply, gain and attenuation are inverse in factors and in dB, and a copy of a cable has the same delay and gain; each filter of an ARX board has its own column with its pass band, and unsupported filters raise ValueError; antennas are totally ordered, equal ones have equal hashes, and a station keeps its antennas in the order of their digitizers.", "quantifier": "all cables with real parameters and all frequencies; all boards and filters; all lists of antennas", "why_tests_cant": "the library's tests compare one cable with stored numbers, do not look at ARX responses (the data files are remote), and do not look at cables after a copy", "anchors": ["lsl/common/stations.py:Cable", "lsl/common/stations.py:delay, attenuation, gain, response", "lsl/common/stations.py:ARX.revision, ARX.response", "lsl/common/stations.py:Antenna.__eq__, __lt__, __hash__, combined_status", "lsl/common/stations.py:_sort_antennas, antennas, __setitem__", "lsl/common/stations.py:Stand.__add__, __sub__", "lsl/misc/mathutils.py:to_dB, from_dB"]}
{"id": "C104", "title": "Dipole responses are those of the fields", "statement": "The Mueller matrix of a dipole model takes the Stokes parameters of a field to those of what the dipoles receive, and is real; the responses for I, Q, U and V are its first column up to a factor of two; the fitted pattern is 1 at the zenith, 0 at the horizon and symmetric; fields are at most 1; interpolation gives the value at points of the grid, lies between values, and has no step at north; azimuth and altitude may be numbers or angles of ephem or astropy.", "quantifier": "all Jones matrices, all fields, all parameters of the fit, all grids and all directions", "why_tests_cant": "the library's tests only check that the functions run, and the data files are remote", "anchors": ["lsl/sim/beam.py:_load_response_fitted", "lsl/sim/beam.py:_load_response_full", "lsl/sim/beam.py:_jones_matrix", "lsl/sim/beam.py:mueller_matrix", "lsl/sim/beam.py:_compute_from_feeds", "lsl/sim/beam.py:beam_response"]}
{"id": "C105", "title": "Sources of a simulation have their flux in every channel, polarization and baseline", "statement": "A satellite gives each channel the mean flux density of its Doppler shifted signals; frequencies may be in Hz or GHz and beam widths are full widths at half maximum; filters are normalised mean power responses and multiply visibilities once; every polarization of every baseline is computed with the flux times the bandpass and the responses of its own antennas, whatever the other polarizations, and the flux is restored at the end; sources below the horizon are left out.", "quantifier": "all satellites, all lists of channels, all responses and gains of antennas, all lists of polarizations and sources", "why_tests_cant": "the library's tests simulate one array of equal antennas with a flat response or the standard beam, and no satellites", "anchors": ["lsl/sim/vis.py:RadioEarthSatellite.update_jys", "lsl/sim/vis.py:build_sim_array", "lsl/sim/vis.py:AntennaArray.set_asp_filter", "lsl/sim/vis.py:__build_sim_data"]}
{"id": "C106", "title": "A station dynamic MIB is read as it is written", "statement": "For every content of the file, every subsystem has its own summary, text and time, every part its own state (ARX and SNAP boards in rows of 16 and 64), every stand and polarization its own state, every interval and setting its value; antennas get the state of their stand and polarization and nothing else changes; a status can be printed, and files that are too short are refused.", "quantifier": "all contents within the ranges of the fields, any padding bytes, any bytes after the end, all lists of antennas, files cut anywhere", "why_tests_cant": "the library's tests read one file, and look at the length of the lists and at statuses of a few antennas", "anchors": ["lsl/common/sdm.py:SubSystemStatus.binary_read", "lsl/common/sdm.py:SubSubSystemStatus.binary_read", "lsl/common/sdm.py:StationSettings.binary_read", "lsl/common/sdm.py:SDM.update_antennas", "lsl/common/sdm.py:parse_sdm", "lsl/common/mcs.py:STATION_SETTINGS_STRUCT"]}
{"id": "C107", "title": "Conversions of positions keep the direction", "statement": "Every conversion between horizontal, equatorial, ecliptic and galactic positions, between equinoxes and to apparent positions gives the same direction in the frame asked for, conversions there and back give the same angles, copies are equal in meaning to what they are copies of, angles and the object of astropy never get out of step, and positions of transform.py are the direction in the frame of their format and epoch or are refused.", "quantifier": "all skies (any directions and frames with inverse coordinates), all positions plain or with an object of any frame, all sites, times and equinoxes", "why_tests_cant": "the library's tests convert a few plain positions in one step each and compare numbers; no result of one conversion is given to another one", "anchors": ["lsl/astro.py:get_hrz_from_equ", "lsl/astro.py:get_equ_from_hrz", "lsl/astro.py:get_equ_from_ecl", "lsl/astro.py:get_ecl_from_equ", "lsl/astro.py:get_gal_from_equ", "lsl/astro.py:get_apparent_posn", "lsl/astro.py:equ_posn.from_astropy", "lsl/transform.py:CelestialPosition.__init__", "lsl/transform.py:PlanetaryPosition.__init__", "lsl/transform.py:PointingDirection.hrz"]}
{"id": "C108", "title": "A time read in any format is the moment it was given as", "statement": "Time takes a moment as Julian day, modified Julian day, Unix seconds, ticks of 196 MHz, day and milliseconds, date, text or astropy time, in UTC or TAI where that makes sense, refuses everything else with the documented error, gives the same number back in the same format and system and the same moment in all others, gives milliseconds of the day below 86400000, and compares by moments.", "quantifier": "all values, formats, systems and clocks (any pair of inverse monotone scales)", "why_tests_cant": "the library's tests set a few times; the ticks of the only test are a whole number of seconds and no time is near midnight", "anchors": ["lsl/transform.py:Time.__init__", "lsl/transform.py:Time.utc_dp", "lsl/transform.py:Time.utc_mcs", "lsl/transform.py:Time.__cmp__", "lsl/transform.py:Time.tai_timet"]}
{"id": "C109", "title": "Catalogs have every source of their files, once, with its place and aliases", "statement": "Every line of a catalog file that is not empty or a comment is one source with the name, aliases, right ascension, declination with its sign and epoch that its columns say, every record of the pulsar file is one pulsar or left out, lines that cannot be read are told of, a key gives the last source of that name and else the last with that alias, a catalog goes over its names once each in the order of the file, and the factory reads each catalog once.", "quantifier": "all files with any number of lines, all texts in the columns and between them, all records with any other lines between, all sequences of requests to the factory", "why_tests_cant": "the library's tests read the files that come with it and look at a few sources", "anchors": ["lsl/catalog.py:Catalog.lookup", "lsl/catalog.py:LWA_Catalog.parse_file", "lsl/catalog.py:PSR_Catalog.parse_file", "lsl/catalog.py:PKS_Catalog.parse_file", "lsl/catalog.py:PKS90_Catalog.parse_file", "lsl/catalog.py:C3C_Catalog.parse_file", "lsl/catalog.py:C4C_Catalog.parse_file", "lsl/catalog.py:Fermi_LAT_Catalog.parse_file", "lsl/catalog.py:CatalogFactory.get_catalog"]}
{"id": "C110", "title": "Single dish files have every spectrum of every scan in its row", "statement": "Whatever the order in which data sets are given, the table of an SDFITS file has one row for every scan and beam, scans in the order of time and beams in the order of their numbers, with the number, date, time and integration time of the scan and the spectra of all its products in the order of the products, and a reader finds the codes of the products and the frequencies of the channels that were set.", "quantifier": "all numbers of scans, beams and products, all times, all orders of the data sets, all frequency axes", "why_tests_cant": "the library's tests write one scan of one product", "anchors": ["lsl/writer/sdfits.py:Sd.write", "lsl/writer/sdfits.py:Sd._write_singledish_hdu", "lsl/writer/sdfits.py:Sd.add_data_set", "lsl/writer/fitsidi.py:WriterBase.set_frequency", "lsl/writer/fitsidi.py:WriterBase.set_stokes"]}
{"id": "C111", "title": "Files of antenna simulations are read and changed as they are written", "statement": "The frequency of an output file is the one after its heading, every frequency has its impedance in the order of the file also where numbers touch, the part of the power that a line takes is between 0 and 1 and is that of the impedances, a change of the frequency changes this field of every FR card and nothing else, every direction above the horizon has the gain or current and the phase of its line, and complex patterns have these as absolute value and phase.", "quantifier": "all files with any lines between those that count, all numbers of frequencies, fields, directions and records, all impedances, all ways to part the fields of a card", "why_tests_cant": "the library's tests read one file and do not look at phases", "anchors": ["lsl/sim/necutils.py:open_and_get_nec_freq", "lsl/sim/necutils.py:change_nec_freq", "lsl/sim/necutils.py:calculate_ime", "lsl/sim/necutils.py:NECImpedance", "lsl/sim/necutils.py:NECPattern", "lsl/sim/necutils.py:NECPattern._read_radiation", "lsl/sim/necutils.py:NECPattern._read_excitation", "lsl/sim/necutils.py:close_to"]}
{"id": "C112", "title": "VDIF files: threads, frames in a second, rates, times and extended user data", "statement": "The number of threads of a VDIF file is that of its different threads, the number of frames in a second and the sample rate are those of every thread wherever in a second the file begins, frames are as many samples apart as they have, extended user data of every version give the values that were packed into their words and the rate that the writer put there, and only files with a GUPPI header are taken to have one.", "quantifier": "all numbers of threads, frames and seconds, all places where a file begins and ends, all values of the fields", "why_tests_cant": "the library's tests read one file of one thread", "anchors": ["lsl/reader/vdif.py:get_thread_count", "lsl/reader/vdif.py:get_frames_per_second", "lsl/reader/vdif.py:get_sample_rate", "lsl/reader/vdif.py:FrameHeader.extended_user_data", "lsl/reader/vdif.py:FrameHeader.time", "lsl/reader/vdif.py:_crcc", "lsl/reader/vdif.py:has_guppi_header"]}
{"id": "C113", "title": "Frame arithmetic: values, copies, order and spectrometer products", "statement": "Adding, subtracting, multiplying and dividing frames combines their numbers one by one, and with a number all of them, with the values of arithmetic; the operations in place change that frame only and the others none; comparisons are those of the times; spectrometer frames are combined in all products or an error is raised that leaves them as they were.", "quantifier": "all frames, types, lengths, numbers, operations and sets of products", "why_tests_cant": "the library's tests use one complex frame with itself and small integers", "anchors": ["lsl/reader/base.py:FrameBase.__add__, __iadd__, __sub__, __mul__, __floordiv__, __truediv__", "lsl/reader/base.py:FrameBase.__eq__, __lt__", "lsl/reader/base.py:FrameBase.__init__", "lsl/reader/drspec.py:Frame.__iadd__, __isub__, __imul__, __ifloordiv__, __itruediv__"]}
{"id": "C114", "title": "Mathematical functions: regridding, polar numbers, non-uniform transform and moments", "statement": "Linear regridding gives the old values at the old abscissas and values on the line between them elsewhere, and refuses keys outside; polar numbers and complex numbers are converted into each other without loss; the non-uniform transform is that of the data at the frequencies returned, and for regular times the discrete Fourier transform; parameters of Gaussian data are the greatest value and the moments, which scale and move with the data.", "quantifier": "all abscissas and keys, all complex numbers, all numbers of samples and times, all data in one and two axes", "why_tests_cant": "the library's tests compare a few values with tolerances", "anchors": ["lsl/misc/mathutils.py:regrid, _regrid_linear", "lsl/misc/mathutils.py:cpolar, cmagnitude, cphase", "lsl/misc/mathutils.py:crect, creal, cimag", "lsl/misc/mathutils.py:ndft", "lsl/misc/mathutils.py:gaussparams"]}
{"id": "C115", "title": "GUPPI headers: cards, values, continuations and units", "statement": "Reading a GUPPI header gives every name of its cards the value that was written, numbers as numbers and texts without quotes and comments, puts continued texts together, gives bandwidth and frequency in Hz, and leaves the file after the last card; headers without an end are refused.", "quantifier": "all numbers of cards, names, integers and texts", "why_tests_cant": "the library's tests read one header of one file", "anchors": ["lsl/reader/vdif.py:read_guppi_header"]}
