# Formal model of LSL (LWA Software Library)

The source under study is `/repo` (python and C++).  It is read as text only; nothing
is run.  The model is in `lean/Verif`, one Lean 4 module per source area:

* `Verif/Model/*.lean` - executable model definitions, each citing file and lines;
* `Verif/Spec/*.lean` - small specifications that do not use the model's helpers;
* `Verif/Lemmas/*.lean` - helper lemmas;
* `Verif/Props/*.lean` - the property theorems (names in `MANIFEST.json`).

Exceptions are values, files are byte lists with a position, process-wide caches are
explicit state, floats are exact rationals unless said otherwise.

## Plan per property

* **C01 DRX frame: written frame is read back unchanged.** `Model/Drx.lean`: byte-level encoder of sim/drx.py and decoder of drx.cpp over `List UInt8`; round trip by lemmas on big-endian words and a per-nibble lemma lifted over the list.
* **C02 DRX/DRX8 reader: exact position and outcome for any bytes.** Same file: `readFrame : Bytes -> Nat -> Except Err (Frame x Nat)`; case analysis gives the exact outcome; sample range from two's complement lemma.
* **C03 DRX stream: N concatenated frames are read as exactly N frames.** Induction over the list of frames, using C01 with context.
* **C04 DRX id byte: beam, tune, pol are faithfully packed and separated from DRX8.** `packId`/`unpackId` on `Nat` bit operations; finite table over all 256 bytes lifted, plus injectivity.
* **C05 DRX file alignment: leading junk is skipped and nothing else.** `readyFile` loop with fuel/termination measure (remaining bytes); induction on the junk length.
* **C06 VDIF frame: written frame is read back unchanged.** `Model/Vdif.lean`: writer and reader over bytes; per-bit-depth packing lemma by induction on words. Version field expected to fail (writer sets bit 6 of byte 11): prove the negation, keep the rest as partial.
* **C07 VDIF header: every 32-bit word decodes to fields that re-encode to it.** Words as naturals < 2^32, div/mod arithmetic.
* **C08 VDIF reader: a corrupt length never moves the file backwards past the frame start.** Reader as state machine over (bytes,position); case analysis.
* **C09 TBX reader: result does not depend on what was read before.** `Model/Tbx.lean`: reader with explicit cached configuration in the state. Expected: terminates; independence holds when enough bytes remain, fails near end of file; negation + partial.
* **C10 COR reader: result does not depend on what was read before.** `Model/Cor.lean`: same with the cached channel count; expected to fail (192 after 33); negation + partial.
* **C11 DR spectrometer reader: parsing stays inside the data block it read.** `Model/Drspec.lean`: number of floats read by each parser vs block size, dispatch table copied; prove safe iff format in supported set; negation for the rest.
* **C12 Frame timestamp: time tag conversion is exact and invertible.** `Model/Timestamp.lean`: integers and rationals; floats of the code idealised to exact rationals.
* **C13 Frame timestamp: normalised representation after construction and arithmetic.** Same; expected failure at exact negative integers; negation + partial.
* **C14 Frame buffer: nothing at or before an already returned time is ever returned again.** `Model/Buffer.lean`: state machine with ordered dictionary, done-queue; invariants by induction over operation lists.
* **C15 Frame buffer: every accepted frame is returned exactly once.** Same; invariant relating accepted frames to buffer content and output.
* **C16 Frame buffer: duplicated frames never displace a different frame.** Same; negation for the equal-count and COR cases, partial for what holds.
* **C17 Frame buffer: statistics add up.** Same; accounting invariant by induction.
* **C18 Frame buffer: bounded memory while reading.** Same; invariant on the number of keys.
* **C19 Split file: behaves like the concatenation of its parts.** `Model/SplitFile.lean`: parts list, refinement to a single byte list; expected failure for reads across three parts and seek from end; partial for at most one boundary.
* **C20 File cache: eviction respects the size limit and only removes oldest files.** `Model/FileCache.lean`: eviction loop with fuel-free structural recursion on the sorted list.
* **C21 Memory file: write then read gives back what was written.** `Model/MemoryFile.lean`: operations vs POSIX-like reference file; append mode expected to fail.
* **C22 File lock: mutual exclusion between users of the lock.** `Model/FileLock.lean`: interleaving semantics of processes and threads; exclusion for distinct lock objects, negation for a shared object and nested use.
* **C23 MJD/MPM: date conversion round trip and correctness.** `Model/McsTime.lean`: integer calendar arithmetic against an independent definition of the Gregorian day count.
* **C24 Beamformer delay words round trip within the hardware resolution.** `Model/Words.lean`: 16-bit words, delays as rationals.
* **C25 Beamformer gain words round trip.** Same, gains; negative gains expected to fail for round trip.
* **C26 Tuning words: frequency and word conversions are inverse.** Same; rationals with round-half-even.
* **C27 flat_to_multi: reshaping keeps every element at the C position.** `Model/FlatMulti.lean`: nested list tree, induction on the dimension list.
* **C28 MIB integer values decode to the stored number.** `Model/Mib.lean`: bytes truncated at first NUL then decoded; negation + partial.
* **C29 Session validation: overlapping observations are always rejected and only those.** `Model/SdfOverlap.lean`: intervals over integers (ms), iff by induction.
* **C30 Observation duration: string form round trip.** `Model/SdfDuration.lean`: integer ms, string form as (h, m, ms) digits.
* **C31 Session definition file: render then parse gives back the same observations.** `Model/SdfParse.lean`: token-level renderer and parser with the carried `obs_temp` state; negation (sticky settings) + partial (single observation; uniform settings).
* **C32 Stepped observation: the documented maximum number of steps is accepted.** `Model/SdfSteps.lean`: validation counter; off-by-one, negation + partial.
* **C33 Baseline list: complete, duplicate free, and searchable.** `Model/Baselines.lean`: list comprehension; counts and uniqueness by induction; lookup failure for equal antennas.
* **C34 uvw coordinates: rotation preserves length, antisymmetry and closure.** `Model/Uvw.lean`: 3x3 real matrices with symbolic sines/cosines satisfying s^2+c^2=1.
* **C35 Configuration: temporary change is always undone.** `Model/Config.lean`: state machine; nested contexts as a tree of programs with exceptions.
* **C36 Configuration: saved settings are the settings loaded next time.** Same plus text rendering of values; negation for strings that look like numbers and for second save.
* **C37 Telemetry: no use is counted twice or lost, and ignore() suppresses counting.** `Model/Telemetry.lean`: state machine with clock; negation for two writes in the same second and for ignore().
* **C38 Text headers: the parsed header gives back what was written.** `Model/Header.lean`: line-level (indent, content) renderer and parser.
* **C39 Open-file registry: a file is listed exactly while a reader is open.** `Model/Registry.lean`: state machine.
* **C40 Data file reading: consecutive reads return contiguous, non-overlapping data.** `Model/LdpRead.lean`: frame-count arithmetic and read loop on a list of frames.
* **C41 Sexagesimal angles: conversion round trip and ranges.** `Model/Astro.lean`: exact rationals.
* **C42 Day of week is correct for every date.** Same: round-half-even of JD.
* **C43 Downsampling keeps the total of the used samples.** `Model/MathUtils.lean`: lists of integers.
* **C44 Spherical harmonic coefficient indexing is consistent.** Same: index enumeration and counts.
* **C45 Observation specification file: truncated files are rejected.** `Model/ObsFile.lean`: readinto on truncated input.
* **C46 Metadata tarballs: nothing is written outside the temporary directory.** `Model/TarPath.lean`: lexical path normalisation on component lists.
* **C47 ASP configuration summary is the mode.** `Model/AspMode.lean`: ordered counting dictionary.
* **C48 Station file: each antenna gets its own hardware and antennas come out in digitizer order.** `Model/Ssmif.lean`: arrays of assignments with python negative indexing.
* **C49 Data file cache: a fetch interrupted or failed never leaves a bad file that later opens accept.** `Model/DataAccess.lean`: cache as map, outcomes of each source as parameters.
* **C50 Progress bar text has a fixed width.** `Model/Progress.lean`: string lengths.
* **C51 Command line lists: every number of every range is selected exactly as written.** `Model/Parser.lean`: token-level lists.
* **C52 Colour markup: removing colours inverts adding colours.** `Model/Color.lean`: character lists.
* **C53 DRX file opening works for every file size.** `Model/Drx.lean` (`readyFile`): same loop as C05 with the gap check; expected to fail for small files (the check reads a frame that may not exist); negation + partial.
* **C54 Frame buffer: reorder option sorts each group by frame id.** `Model/Buffer.lean`: insertion sort on the comparison key used by the code; negation for stand pairs + partial for DRX.
* **C55 Frame timestamp: pulsar MJD triple is exact and normalised.** `Model/Timestamp.lean`: rational arithmetic; negation in the first second after midnight + partial.
* **C56 VDIF integer reader: memory accesses stay inside the sample array.** `Model/Vdif.lean`: bytes allocated versus bytes read by the complex branch; expected to fail for the int8 reader (negation + partial).
* **C57 VDIF writer: time is split into epoch, second and frame number consistently with the reader.** `Model/Vdif.lean`: `timeSplit` on rationals, epoch arithmetic; expected to fail in the last half frame of a second and from 2032 (negations + partial).
* **C58 uv tracks: every point is a position the baseline really takes.** `Model/Uvw.lean`: `uvTrack` on real numbers; existence of an hour angle from a point of the unit circle.
* **C59 Configuration: a session is marked for saving exactly when something changed.** `Model/Config.lean`: invariant relating the list of changes to the values at the start, by induction over changes.
* **C60 Telemetry upload: files are removed only after they were sent.** `Model/Telemetry.lean`: `send`; expected to fail for unreadable files (negation + partial).
* **C61 Calendar: local time conversion is exact.** `Model/Astro.lean`: whole seconds and fraction; the printed seconds round up (negation + partial).
* **C62 Spherical harmonics: the real-only expansion agrees with the full one.** `Model/MathUtils.lean`: complex numbers with rational parts, `Y_lm` as given values with their mirror symmetry; expected to fail.
* **C63 Smoothing keeps the samples in place.** `Model/MathUtils.lean`: slices and `np.convolve(mode='same')` over lists of rationals, any window values.
* **C64 Session and command files: read back exactly, damage is reported.** `Model/ObsFile.lean`: the two readers over bytes, with short reads as they are; independent encoder in `Spec/ObsFile.lean`.
* **C65 C structure layouts are those of the C compiler.** `Model/CStruct.lean`: layout of a list of fields, induction over the fields.
* **C66 Metadata tarballs: the expected member is read or an error is raised.** `Model/TarPath.lean`: the search loop over the members, `pick`.
* **C67 Metadata tarballs: repeated calls see the current file.** `Model/TarPath.lean`: the one-entry cache, `openTarball`.
* **C68 ASP configuration: each MIB entry sets its own antenna.** `Model/AspMode.lean`: MIB entries applied in turn, python indexing.
* **C69 Frequency ranges.** `Model/Parser.lean`: text cut at `~`, number and unit parsers as parameters.
* **C70 Visibility files.** `Model/UvTable.lean`: the writing loops of `fitsidi.py` and `uvfits.py`, and the readers, as lists of rows; complex numbers and weights abstract.
* **C71 Visibility containers.** `Model/VisData.lean`: the classes of `imaging/data.py` as values; a line is all that
  is known of one baseline.
* **C72 Stokes conversions.** `Model/VisData.lean`: the conversions of `imaging/utils.py` over exact complex numbers.
* **C73 F engine.** `Model/CMem.lean`: flat C arrays where any access outside is a fault. `Model/FEngine.lean`:
  `FEngine` and `PFBEngine` of `correlator/core.cpp` over a commutative ring, with an abstract `e x` for `exp(2πi x)`.
* **C74 X engines.** `Model/XEngine.lean`: `XEngine2` and `XEngine3` of `core.cpp` and `XEngine3` of `stokes.cpp`;
  means are kept as sum and number. `Model/Cx.lean`: complex numbers with rational parts for the examples.
* **C75 Power spectra.** `Model/PSD.lean`: `FPSD` and `PFBPSD` of `spec.cpp` and `stokes.cpp`, sharing windows with
  the F engine; the shift of channels works on memory in units of half a `double`, since the number of bytes moved is
  `8*nChan/2`.
* **C76 Correlator front ends.** `Model/FX.lean`: `FXMaster`, `FXStokes`, `XMaster` and `XStokes` of `fx.py`: which
  signals and delays go to which row, and which baseline a row is returned with. What the engines compute for one
  antenna or one pair is a parameter; C73 and C74 are about that.
* **C77 Beam forming.** `Model/Beam.lean`: the engine of `beamformer.cpp` with its blocks of 32 times, address by
  address, and `calc_delay`, `phase_and_sum` and `circularize` of `beamformer.py`. `Props/Turn.lean` shows that the
  complex numbers with `exp(2 pi i x)` satisfy every law that C74, C75 and C77 ask of the ring, of conjugation and of
  the exponential.
* **C78 Gridding with w projection.** `Model/Gridder.lean`: `gridder.cpp` in full: the w planes with their arrays of
  1024, the spreading of a visibility over 49 cells, the projection by two transforms, the correction for the kernel,
  the static `norm`. Specification: weights on a torus, an image per plane times a phase. Transforms are the sums that
  define them, over any ring with roots of unity; `Props/Turn.lean` gives the complex numbers.
* **C79 Images.** `Model/Imaging.lean`: `build_gridded_image` and `ImgWPlus` of `imaging/utils.py`: the points and
  mirror images handed to the gridder, the state kept between data sets, the weightings with the aliasing of `wgt` and
  `self.bm`, the positions of pixels. Specification: every visibility and its mirror image once; cells divided by
  their weights; positions on a circle of pixels.
* **C80 Measurement sets.** `Model/MeasSet.lean`: the writer `Ms` (order of baselines, antenna numbers, source names,
  the matrix of products and windows, rows of the main table, source table) and the reader `CorrelatedDataMS` (times,
  sorting, windows, phase centre). `Model/MeasUvw.lean`: `get_uvw`. Specification: every integration is read back with
  its middle, source, products, baselines, coordinates and channels.
* **C81 Simulated visibilities.** `Model/SimFast.lean`: `compute_visibility`/`FastVis` of `simfast.cpp` on flat memory
  (every read and write checked), the phase centre, resolved sources, `rephase`, `scale_data`, the fluxes of
  successive products, the horizon filter and `add_baseline_noise`. Specification: a visibility is the sum over
  sources of flux, shape and phase towards the phase centre.
* **C82 Dedispersion.** `Model/Dedisp.lean`: `delay`, `incoherent` by columns, `get_coherent_sample_size`, the chirp,
  the windows and the cache of `coherent`. Specification (`Spec/Dedisp.lean`): a stream around an array, filtered with
  the impulse response of the chirp; a column in step with its delay.
* **C83 Filter bank.** `Model/FilterBank.lean`: `filterbank.fft` with its coefficients and numpy broadcasting.
  Specification: a channel is the sum over all taps of sample, window, coefficient and phase.
* **C84 Mode and runs.** `Model/Stats.lean`: `robust.mode` and the runs test of `stattests`. Specification: the widths
  of half samples, maximal runs of a list, and the list of all arrangements.
* **C85 Spectral kurtosis.** `Model/Kurtosis.lean`: `kurtosis` over the real numbers. Specification: the moments of a
  Dirichlet distribution (shares of noise power) and of a Pearson distribution of type VI, both as known formulae.
* **C86 Robust averages.** `Model/Robust.lean`: `robust.biweight_mean`, `mean` and `std`. Specification: what a change
  of unit or origin, the order of the data and a majority of equal values must do.
* **C87 Robust fits.** `Model/RobustFit.lean`: `robust.checkfit`, `linefit` (without the bisector), the start of
  `polyfit` and its rescaling. Specification (`Spec/RobustFit.lean`): sums of squared residuals and polynomials.
* **C88 Antenna gains.** `Model/RfUtils.lean`: all of `rfutils` in SI units. Specification (`Spec/RfUtils.lean`):
  effective areas, temperatures and decibels.
* **C89 Scattering.** `Model/Scatter.lean`: `scattering.thin`, `thick`, `uniform`, the passes and search of
  `unscatter`, its figures of merit and the restored profile. Specification: the profile is the residuals and the
  scattered components.
* **C90 Self-calibration.** `Model/SelfCal.lean`: the matrices, right sides, passes and loop of `selfcal._self_cal`;
  least squares are given. Specification (`Spec/SelfCal.lean`): the model is the data with gains and phases of
  antennas put on, and baselines connect the antennas.
* **C91 Deconvolution.** `Model/Deconv.lean`: `_interpolate`, the search for peaks, components shared by pixels, the
  cached beams and the loops of `clean` and `clean_sources`, the restored image, the minor cycle, and the passes of
  `lsq`. Fits, beams and deviations are given.
* **C92 Backgrounds and point sources.** `Model/Analysis.lean`: tiles, clipping, levels, filling and the median filter
  of `estimate_background` up to the spline, and all of `find_point_sources` with the background given: kernel,
  convolution, peaks, sharpness, roundness and centre.
* **C93 Sky maps and overlays.** `Model/SkyMap.lean`: the scale between surveys, the map as a sum of components, the
  visible part of the sky and its power, `_radec_of`, `sources` and the places of labels. Coordinate transforms, cubic
  splines and projections are given.
* **C94 Interferometer definition files.** `Model/Idf.lean`: `Project.render` and `parse_idf` on the characters of the
  file: lines, keywords, numbers with fixed decimals, user names in comments, alternate phase centers and the one
  dictionary that is kept for all scans.
* **C95 Checks and session definitions of interferometer projects.** `Model/IdfCheck.lean`: `target_visibility`,
  `Scan.validate`, `Run.validate`, `Project.validate` and `generate_sdfs`. The sky, cosines and dates are given.
* **C96 Times, sizes and widths in session definitions.** `Model/SdfUtils.lean`: the pattern of `parse_time` on
  characters, time zones and shifts, sidereal times with their two loops, the start of an observation,
  `render_file_size` and `render_bandwidth`. Zones, longitude and the equation of the equinoxes are given.
* **C97 Spectrometer files.** `Model/LdpSpec.lean`: opening, description, `read`, `read_sequence`, remaining frames
  and `offset` of `DRSpecFile` over bytes, on top of the frame reader of C11. Times are exact ticks.
* **C98 TBX and COR files.** `Model/LdpGroup.lean`: `read` of `TBXFile` and `CORFile` over the reordering buffer of
  C14-C18 (one reader with parameters), the count of remaining frames, `offset` of TBX, durations and the time step of
  COR in double precision. A file is a list of what `read_frame` meets (frame, other frame, damaged place).
* **C99 Maps of the ionosphere.** `Model/Ionex.lean`: the reader of IONEX files line by line at character level
  (labels, columns, words, maps as shared objects), the choice of maps by time and their interpolation in time and
  place, the uncertainties and height of USTEC, the day of GloTEC files, the choice between final and rapid files.
  `Spec/Ionex.lean`: a writer of the format with Fortran columns.
* **C100 The Earth's magnetic field.** `Model/MagField.lean`: Legendre functions, the Schmidt factor, the three
  components of the field as sums over degrees and orders, the change to Earth-fixed and local axes, declination and
  inclination, over the real numbers. `Spec/MagField.lean`: the potential as a sum of solid harmonics and the local
  axes. `Model/Igrf.lean`: the table, its interpolation in time and the decimal year.
* **C101 Rise, set and transit.** `Model/Rst.lean`: the rough search for lower culminations and samples above the
  horizon, the fine search with `interp1d`, the transit from a cubic, over any ordered field with altitude and azimuth
  as given functions. `Spec/Rst.lean`: the daily motion of a star by spherical trigonometry.
* **C102 Pointing corrections and places.** `Model/Pointing.lean`: the rotation matrix, the correction of azimuth and
  elevation with the angles astropy takes from a vector, the matrices of a station, offsets between places and places
  of stands, over the real numbers. `Spec/Pointing.lean`: what turning about an axis is, and the axes at a place as
  the normal of the Earth and its derivatives.
* **C103 Cables, ARX boards and the order of antennas.** `Model/Hardware.lean`: delay, attenuation, gain and copies of
  cables over the real numbers, the column of an ARX filter, order, equality and hash of antennas, sorting of a
  station's antennas, arithmetic of stands. `Spec/Hardware.lean`: cables in a row, and the documented pass bands of
  the filters.
* **C104 Dipole beams.** `Model/Dipole.lean`: Jones and Mueller matrices, products of the feeds, the fitted pattern,
  normalisation, interpolation on the grid of azimuth and altitude, angles of the arguments; over the complex numbers.
  `Spec/Dipole.lean`: the Stokes parameters of a field.
* **C105 Sources and beams of a simulation.** `Model/SimSky.lean`: flux densities of satellites in the channels, units
  and beam widths of `build_sim_array`, filters of `set_asp_filter`, the loop of `__build_sim_data` over
  polarizations. `Spec/SimSky.lean`: the mean flux density of a signal in a channel, and the flux of a source in the
  visibility of two antennas.
* **C106 The station dynamic MIB.** `Model/Sdm.lean`: the C structures, the states of subsystems and parts, settings,
  and what is given to antennas. `Spec/Sdm.lean`: the bytes of the file.
* **C107 Positions and frames.** `Model/Posn.lean`: positions with angles and perhaps an object of astropy,
  conversions of `astro.py` and positions of `transform.py`. `Spec/Posn.lean`: directions of the sky and their
  coordinates in frames, as a structure with two laws.
* **C108 Times.** `Model/TimeObj.lean`: `transform.Time` with its formats, systems, setters, getters and comparisons;
  ticks with the machine's numbers. `Spec/TimeObj.lean`: moments and clocks of UTC and TAI as a structure with three
  laws.
* **C109 Catalogs.** `Model/Catalog.lean`: the maps of names and aliases, the columns of five catalogs, the machine
  that reads pulsars line by line, Fermi names, the factory. `Spec/Catalog.lean`: the source of a key is the last of
  that name, else the last with that alias.
* **C110 Single dish files.** `Model/SdFits.lean`: the sort keys of data sets, the loop that gathers the products of a
  scan into rows, the axes of products and frequencies, date and time. `Spec/SdFits.lean`: scans with a spectrum for
  every product and beam, and their rows.
* **C111 Antenna simulations.** `Model/Nec.lean`: search for lines, frequencies, impedances, cards and their change,
  tables of gains and records of currents; `Model/NecPhase.lean`: complex values. `Spec/Nec.lean`: blocks of an output
  file, cards with their separators, the power an antenna gives to a line.
* **C112 VDIF files.** `Model/VdifFile.lean`: counts of threads and of frames in a second, times within the second,
  the versions of extended user data, the search for a GUPPI header. `Spec/VdifFile.lean`: files of frames with the
  same rate in every thread, packed decimal digits.
* **C113 arithmetic of frames.** `Model/FrameMath.lean`: arrays in a heap, the operations of frames in place and on
  copies, conversion of numbers, order by time, and the loop over products of spectrometer frames that can end in the
  middle. `Spec/FrameMath.lean`: sums and products of complex numbers, bytes modulo 256.
* **C114 mathematical functions.** `Model/MathFns.lean`: linear regridding with the comparisons that `numpy.interp`
  makes first, moments of data in one and two axes. `Model/Ndft.lean`: polar numbers and the non-uniform transform
  over the complex numbers. Specs: points on a line, plain sums, the transform at any frequency.
* **C115 GUPPI headers.** `Model/Guppi.lean`: the loop over cards of 80 characters with the name and value of the card
  before, conversion of values, and the change of units at the end. `Spec/Guppi.lean`: cards as they are written.

## Trusted base

* The Lean 4.33.0 kernel.  Each theorem depends on no axioms beyond `propext`, `Classical.choice`
  and `Quot.sound` (the manifest theorems are checked for this by the build gate); there are no
  project axioms, no `sorry`, no `native_decide`, no `bv_decide`.
* The reading of `/repo` recorded in the comments of the model definitions; python and C semantics
  (integer division, slicing, dictionary order, `struct`, `ctypes`) are as written there.
* Floats are idealised to exact rationals in: Timestamp, Words, McsTime, Sdf, SdfParse, Config, Telemetry,
  and to reals in Uvw (see each file header).
  `PyNum.lean` defines python's `round` (half to even) and `int` (towards zero) on rationals.
* Operating system, network, FITS/HDF5 libraries, numpy FFTs and astropy are not modelled.

## Findings (properties that are false of the code)

Each one has a theorem proving the negation with a witness or for a whole family.

* C13 `FrameTimestamp` built with a negative whole fractional part keeps fraction 1 (not below 1).
* C14 after `flush` (which does not mark the steps as done) a later append/get can return a step again.
* C16 a duplicated frame makes an incomplete group count as complete, so no fill is made; the COR
  buffer takes frames with equal stand pairs but different channels as duplicates.
* C24 delays of 4096 samples or more wrap silently; C25 negative gains decode to gains above 1.
* C26 (observation) `freq_to_word(88 MHz)` is 1928352664, one above `DRX_TUNING_WORD_MAX`, so an
  88.0 MHz tuning is refused by sdf.py although documented as the upper limit.
* C28 MIB integers with a zero byte (for example every 4-byte number below 2^24) decode to 0.
* C53 `DRXFile` cannot open a file holding exactly 255 frames (the gap check reads past the end).
* C54 COR groups are not ordered by stand pair; C55 `pulsar_mjd` gives second 86400 of the previous
  day in the first second after UTC midnight.
* C06 the VDIF writer's version 1 is read back as 2; data filling an odd number of 4-byte words are
  lost.  C56 the int8 reader of complex data reads four times the bytes of its array.  C57 the frame
  number can equal the frames per second; the epoch field wraps in 2032.
* C09 a complete TBX file shorter than the frame of the last mode read is reported as end of file.
  (Also, from reading: `FRAME_SIZE` and `FRAME_CHANNEL_COUNT` are undefined names in tbx.py.)
* C10 a 192-channel COR frame read after a 33-channel one is cut to 33 channels; a first channel or
  gain with the top bit set is reported above four billion.
* C11 a spectrometer format byte outside the recorded set makes the parser read past its block; zero
  fills (or a 32-bit overflow of nFreqs*fills) are divided by.
* C19 one read over three parts (or over an empty part) of a split file comes back short before the end;
  seeks from the end use the opposite sign of regular files; seeking before the start opens the last part.
* C20 cache management never ends if the oldest entry cannot be unlinked (a sub-directory made by
  `open('sub/x', 'w')`).
* C21 append mode of the memory cache overwrites the start of the file; reading a missing file creates it;
  iteration gives one line; a file being written can be evicted; (from reading) `getmtime` indexes a
  named tuple with a string.
* C22 `FileLock` does not exclude threads that share the object; a nested release frees the lock; a `with`
  block runs after a timeout; `MemoryLock.locked()` is false while held after a nested release or after a
  timeout of another thread.
* C30 a duration given as an astropy quantity always raises (`seconds` used before assignment).
* C31 the parser uses one dictionary for all observations: high dynamic range beams, DRX gains, beam
  dipoles and FEE/ASP settings reach all later observations that leave them at the default, custom delays
  reach the following steps; an FEE setting for one polarisation of all antennas is not written; an RA that
  rounds to 24.000000000 h makes the file unreadable.
* C32 a stepped observation with exactly `MAX_STP_N` steps is refused (the count starts at 1).
* C33 `antennas_to_baseline` of an antenna with itself gives the first baseline it is part of when
  autocorrelations are not listed, or come later.
* C35 a permanent change inside `set_temp` of the same parameter is undone on leaving; a `KeyError` raised in
  the body comes out as `ValueError`; `set` of a view does not fall back to the unprefixed name as `get` does.
* C36 strings such as `123`, `True` or with outer blanks change type or content; an optional parameter set to
  `None` comes back as its default; only the first save of a session is kept; with a version change the
  file of a concurrent session is overwritten by the values said to be abandoned.
* C37 two log files written in one second replace each other; `ignore()` does not stop counting (and turns
  counting on for a read-only client).  C60 unreadable log files are deleted unsent.
* C38 a section after a key/value pair at the same level is taken as an empty value with the content
  flattened; a key after an empty section is put into it; the comment character is removed from values.
* C39 closing a reader twice, or a failing constructor, leaves the file listed.
* C40 a gap among the last buffered steps, or any gap in a file without tuning 1 X, is not filled and the
  call raises; if the file ends inside a step while a gap is to be filled, `cFrames[0]` raises IndexError;
  frames out of order at the end of the file raise; a tuning that was not seen when the file was opened is put
  at the start of its row, shifted in time; with one buffered step a call can return nothing before `EOFError`.
* C41 `deg_to_hms` drops the sign (-15 degrees gives 1 h) and raises from 360 degrees on; `deg_to_dms` of 360
  degrees or more builds an object the constructor refuses; `add_hms` sets `dest.degrees` instead of
  `dest.hours` (1 h + 2 h = 2 h); `range_hours(-24)` is 24; `range_degrees(-1e-20)` is 360.0 in floats; minutes
  and seconds are computed apart, so 4.35 degrees is 4d 21m 59.999999999998s, one minute too much.
  (From reading: `tt_to_tdb` uses the scale 'tai'; `date.load` uses an undefined name in its error path.)
* C42 at exact midnight every second day is reported as the day before.
* C61 in the last half millisecond of each second local time conversions are one second late.
* C62 the real-only evaluation adds `Re(t conj(Y))` for the negative modes where `Re(t Y)` is needed; the full fit
  is not multiplied by the cell size.  (From reading: with SciPy 1.15 or later `sph_harm_y` takes the polar angle
  first, the code passes azimuth first.)
* C63 a signal as long as the window loses a sample; the reflected copies are one sample off at both ends.
* **C64 is false of the code.** `fh.readinto` does not report short reads: a session file cut anywhere is accepted with zeros for the rest (`C64_session_cut`). A command script cut between two commands is accepted as the shorter script (`C64_script_cut_between`), cut after the subsystem number it ends with command 0, which is `MCSSHT` (shutdown), for that subsystem (`C64_script_cut_inside`), cut in the data it ends with less data (`C64_script_cut_data`). Data are cut at the first zero byte because of the ctypes `char` array. The `IOError` for a length above 256 is caught by the `except IOError: break` around it, so the script ends there without an error (`C64_script_bad_length`).
* C45 holds: the alignment word is read into a new, zeroed structure each time, so a missing word never equals the expected one.
* **C46 is false of the code.** Members whose name leads out of the temporary directory are skipped, but the same joined path is then opened, so a file elsewhere on the machine is read (`C46_open_witness`). The check is on names only: a symbolic link in the tarball takes a later member out of the directory (`C46_link_witness`). Without links the writes are confined (`C46_writes_partial`).
* **C66 is false of the code.** Without a matching member the loop variable keeps the last member, which is then read (`C66_pick_none`).
* **C67 is false of the code.** `lru_cache(maxsize=1)` on the name: a tarball replaced between calls is given as it was (`C67_stale`).
* **C68 is false for index 0.** `3.0` sets the last antenna through the negative index (`C68_zero_witness`); the index `4` alone raises an uncaught `IndexError` (`C68_short_witness`).
* `MIBEntry.from_entry` copies `sizeof(record)` bytes from a buffer that may be shorter (read past its end); not modelled.
* **C52 is false of the code beyond ten levels.** `_label` moves on by five characters after inserting a label, whatever its number of digits: eleven levels damage the text (`C52_eleven`), and with three digits the loop finds its own insertion again and never ends (`C52_hang`). `re.sub` reads backslashes of the text as escapes (`C52_backslash`), `.` does not match a line end (`C52_newline`), a text ending in `{{` raises `IndexError`, and removing codes can make a new code (`C52_not_idempotent`).
* **C50 is false for narrow bars and for the derived classes.** The bar cannot be narrower than its brackets and percentage (`C50_narrow`); `ProgressBarPlus` and `DownloadBar` add nine characters to the width asked for (`C50_plus_width_partial`, `C50_down_width_partial`). `inc` of a negative amount can make the amount negative (`C50_negative_step`).
* **C51: times past the end of the day are accepted.** `time` and `mpm` allow 86400000 to 86400999 ms and give `24:00:00.xxx` (`C51_time_end`). A range written backwards selects nothing without a message (`C51_backwards`), numbered hosts lose leading zeros (`C51_host_zeros`), address fields up to 999 pass (`C51_host_bytes`); `csv_hours_list('')` raises `IndexError`.
* **C49 is false of the code.** Only `received < 3` is checked, not the `Content-Length`, so a connection closed early leaves a part that every later call accepts (`C49_truncated`). Exceptions other than `IOError` (no `Content-Length`, bad date, bad compressed data) and the end of the process leave a partial or empty file (`C49_raised`, `C49_crash`, `C49_local_crash`). A refresh removes the copy before fetching, so when the sources fail it is lost (`C49_refresh_lost`), and a local file is taken again although the refresh was caused by a newer remote one (`C49_local_first`).
* **C48 station files** (`lsl/common/stations.py`). Several statements of the property are false for the code.
  * `ARB_PORT` lines write `arxRack` (lines 1393-1395): `C48_arb_port`.
  * `ASP_AT3[i]` stores the last `ASP_AT1` value, and the file is refused with an `UnboundLocalError` when there was none before: `C48_asp_at3`, `C48_at3_refused`.
  * A FEE port, cable or SNAP channel marked 0 (unassigned) changes `antennas[-1]`, the last antenna; only ARX channels are skipped: `C48_spare_fee`, `C48_spare_cable`, `C48_spare_channel`, `C48_spares`.
  * Antennas above 512 never get an ARX channel, and a board with an antenna but no `ARB_ID` makes the file unreadable: `C48_arx_limit`, `C48_arx_unnamed`.
  * A missing index or an index 0 changes the last or second last entry: `C48_index_zero`.
  * ASP attenuation of entry `i` goes to cable `i` whatever antenna the cable serves, and only to as many cables as there are ASP entries: `C48_asp`.
  * A comment after the station name leaves a blank in it and the station becomes "New LWA Station": `C48_station_comment`.
* C70: `fitsidi.py` and `uvfits.py` sort the rows of a data set by the order of the last one whenever it has as many rows. If a
  later integration lists its baselines in another order, its visibilities get the wrong baselines (`C70_not_reordered`).
* C70: files say only the first code and the step of the products. `XX` and `XY` without `YY` are read as `XX` and `YY`
  (`C70_not_gaps`).
* C70: readers take at most three digits of an antenna name, so stand 1001 is read as stand 1 (`C70_stands_partial`,
  `C70_not_stands`). Baseline numbers of the extended format from stand 32768 on do not fit 32 bits (`C70_not_wide`).
* C70: two integrations at the same time are mixed (`C70_not_simultaneous`). UVFITS drops weights (`C70_not_weights`).
* C71: `PolarizationDataSet.append` compares the shape of what is added with that of the old weights, so that a
  visibility can not be added to a new product, nor to one with two or more; the data are changed before the exception
  (`C71_not_add`).
* C71: `VisibilityData.get_antenna_subset` ignores `indicies` and takes stand numbers as positions (`C71_not_stands`).
  `VisibilityData.get_uv_range` fails when integrations keep different numbers of baselines (`C71_not_many`).
* C71: `VisibilityData.extend` does not check times and sizes (`C71_not_extend`), and `append` does not check sizes
  after an empty integration (`C71_not_alike`).
* C72: linear products are half sums of Stokes parameters but circular ones are full sums, so the total of `RR` and
  `LL` is twice that of `XX` and `YY` (`C72_not_total`).
* C73: the number of windows is found from the step rounded down (`core.cpp:428`) but their positions from the step
  that is not (`core.cpp:174, 286`); for every overlap that does not divide the transform length there are arrays for
  which samples beyond the end are read (`C73_not_inside`, `C73_not_own`). `spec.cpp:296, 422` and `stokes.cpp:377,
  531` have the same. An overlap of 0 or above the transform length divides by zero (`C73_not_many`).
* C73: in `PFBEngine` the first windows are computed with zeros in place of earlier samples and are marked valid
  (`C73_not_full`).
* C74: `XEngine3` of `stokes.cpp` takes the second cross product with the stands exchanged (`stokes.cpp:675`), so that
  it is the conjugate of the first: `U` and `V` of all baselines are real (`C74_not_phase`, `C74_not_uv`). It divides
  all sums by the number of windows valid in X of the first and Y of the second stand, though `I` and `Q` are sums
  over others (`C74_not_count`).
* C74: with no common valid window the mean is 0/0 (`C74_not_number`). The wrappers do not compare the number of
  dimensions and the last dimension of the two arrays of 8 bit integer pairs.
* C75: for complex data and an odd number of channels the shift moves `sizeof(OutType)*nChan/2` bytes, half a number
  too many: with the last row bytes beyond the end of the output are read, for all data (`C75_not_odd`;
  `spec.cpp:227`, `stokes.cpp:285`), and with other rows half a number of the next row, which another thread may be
  writing. The half number is overwritten after, so that the result is right (`shiftRow_ok`).
* C75: with no window, or all of them clipped, the result is 0/0 (`C75_not_number`). Overlaps fail as in the F engine
  (`C75_not_inside`, `C75_not_many`).
* C76: `FXStokes` with `gain_correct` loops over `output.shape[0]`, the four Stokes parameters, instead of the
  baselines: only the first four baselines are corrected, and with fewer than four there is an `IndexError`
  (`C76_not_gain`; `fx.py:486`). `XStokes` has `output.shape[1]`.
* C76: `XStokes` multiplies all four parameters with the phase of the X antenna of the first stand and the Y antenna
  of the second. If the two polarizations of a stand have different delays even the total power of a single stand
  becomes complex (`C76_not_power`; `fx.py:706-709`). `U` and `V` are wrong also for equal delays, since the engine
  has already added a conjugate (`C76_not_uv`).
* C76: `FXMaster` for a cross polarization and `FXStokes` call the F engine once for each polarization; each call
  drops its own longest delay, so that the numbers of windows can differ and the X engine refuses (`C76_not_windows`;
  `fx.py:314-324`).
* C76: autocorrelations are removed by stand number but the baseline list leaves them out by place, so that rows and
  baselines disagree when the polarizations list the stands in different orders (`C76_not_order`) or a stand number is
  used twice (`C76_not_twice`); a stand with one polarization makes cross products fail (`C76_not_fewer`). `XL` and
  `RX` are accepted as polarization products (`C76_not_mixed`).
* C77: `BEngine` takes any array of bytes with four dimensions as pairs without looking at the last dimension; with a
  last dimension of 1 it reads beyond the array (`C77_not_pairs`). Other types with four dimensions are accepted and
  read as if they had three (`C77_not_dimensions`; `beamformer.cpp:213-240`).
* C77: `phase_and_sum` without a working antenna returns one row of zeros, and one row when only one polarization
  works, without telling which (`C77_not_which`). Without an antenna of the first 256 stands `calc_delay` returns
  `nan` (`C77_not_outriggers`).
* C78: when all visibilities fall in one w plane, `compute_planes` reads `planeStop[-1]` (`C78_not_single`;
  `gridder.cpp:114`); what is in memory there decides if the plane is gridded at all. More than 1024 planes are
  written beyond the arrays (`C78_not_many`).
* C78: `norm` is `static` (`gridder.cpp:215`): the first call of a process fixes it, and images of another size come
  out with a factor `n^2/n0^2` (`C78_not_static`). It cancels against the beam only if both are used from the same
  call.
* C78: baselines longer than twice the plane are put in other rows or written outside of the array (`C78_not_far`),
  and so are all on planes of fewer than four cells (`C78_not_small`).
* C78: the correction for the kernel uses `FFTW_REDFT01`, which is the transform at half pixels: every pixel is
  corrected with the value half a pixel further out (`C78_correction`, `C78_not_centered`), and for odd sizes the two
  pixels at the edge differ (`C78_not_odd`).
* C79: `build_gridded_image` of a `VisibilityData` returns the image of the last data set only: `im.uv` is overwritten
  (`C79_not_all`; `utils.py:1700`).
* C79: the uv plane is not weighted with the visibility weights (the beam is), and masks are ignored: flagged data are
  imaged (`C79_not_weighted`, `C79_not_masked`).
* C79: `image` with uniform or Briggs weighting divides `self.uv` in place; a second call divides again, and natural
  weighting afterwards is not natural (`C79_not_pure`, `C79_not_repeatable`). `bm_image('uniform')` turns cells
  without weight into not-a-number and spoils later images (`C79_not_beam`, `C79_not_order`).
* C79: visibilities with `w = 0` only make the gridder read and write before its array (`C79_not_flat`).
* C79: `get_image_radec(shifted=False)` is one pixel off for odd image sizes (`C79_not_unshift`); `wcs` fails for a
  phase centre that is an `equ_posn`, though the setter accepts it (`C79_not_posn`; `utils.py:1590`).
* C80: with three or more spectral windows a measurement set cannot be read back, the reader halves the baselines
  instead of dividing them by the number of windows (`C80_not_windows`; `imaging/utils.py:1104`).
* C80: the writer keeps the antenna numbers of the first integration: other baselines later are mislabelled if they
  are as many (`C80_not_reordered`) and refused otherwise (`C80_not_count`).
* C80: two zenith integrations with one name (within 0.1 s of sidereal time) have one entry in the main table's
  numbering and two in the source table, so that later sources are read wrongly (`C80_not_zenith`;
  `measurementset.py:488` against `838`).
* C80: antenna positions are the geocentric positions plus the geocentric position of the array (`C80_not_position`);
  the time read is half an integration after the one given (`C80_not_time`).
* C80 (read, not modelled): the reader asks for a column `WEIGHT SPECTRUM`, which does not exist; the name is
  `WEIGHT_SPECTRUM`.
* C81: `FastVis` checks neither the channel range nor the antenna numbers; a last channel or an antenna past the end
  is read and written out of bounds (`C81_not_channel`, `C81_not_antenna`; `simfast.cpp:74,96,127`).
* C81: `scale_data` on several integrations scales all of them with the order of baselines of the first
  (`C81_not_scale_order`; `vis.py:1207`).
* C81: the fluxes of later products are not numbers once the beam of an earlier product was zero, as the beam is
  multiplied in and divided out again (`C81_not_zero_beam`; `vis.py:1102`).
* C81: `add_baseline_noise` indexes the sensitivities by antenna number, not position, and raises for a subset of the
  antennas (`C81_not_noise`; `vis.py:1286`).
* C81 (read, not modelled): `rephase` of a data set without polarizations changes the phase centre and not the
  coordinates; `rephase` of several integrations stops half-way if a later one finds the centre below the horizon;
  with a flat response all products share one array.
* C82: the window of `coherent` leaves a quarter on either side, half the delay of the band, but the lower half of a
  band has more than half of its delay; for every band there are dispersion measures with a response that does not fit
  (`C82_not_wings`; `dedispersion.py:107-110,202`).
* C82: `coherent` without dispersion is an exception (`C82_not_zero`), for a dispersion of a quarter to half a sample
  all times and samples returned are zero (`C82_not_one`).
* C82: if more than half a window is left over, the samples at the end are left zero even with samples after
  (`C82_not_all`).
* C82: `boundary='fill'` does not fill for negative dispersion measures but wraps (`C82_not_fill`,
  `C82_not_fill_negative`); a single frequency is an exception (`C82_not_single`), as `delay` returns a number.
* C82: the centre of the chirp is half a channel below the frequency given (`C82_centre`).
* C83: a signal of a single sample is accepted for any length and taken as constant (`C83_not_short`); one tap is not
  a plain transform (`C83_not_plain`); no taps are an exception.
* C84: `mode` raises (`j` has no value) whenever the recursion comes to four or more equal values, so for every data
  set of seven or more with a value that more than half of them take (`C84_not_constant`, `C84_not_majority`;
  `robust.py:188`).
* C84: with an even number of values the last half sample is not looked at (`C84_not_last`), so the mode of the
  negated data is not the negated mode (`C84_not_mirror`; `robust.py:183`). Of three values the upper two are never
  averaged, as the second comparison is the same as the first (`C84_not_three`; `robust.py:176`).
* C84: no data have one run (`C84_not_empty`); runs of one value are counted although the documentation says two or
  more (`C84_not_two`); data of one sign divide by a variance of zero (`C84_not_one_sign`); as many runs as expected
  are judged like one too many (`C84_not_centred`).
* C85: `spectral_power` and `spectral_fft` take the number of measurements from the first axis whichever axis is
  summed; along the second axis constant power has a kurtosis other than zero, even negative (`C85_not_axis`;
  `kurtosis.py:163`).
* C85: an error in the parameters in `get_limits`, as for one measurement, leaves NumPy raising all floating point
  errors (`C85_not_restored`; `kurtosis.py:114`).
* C86: when more than half of the values are equal the second estimate of the spread keeps outliers: the mean of 0, 0,
  0, o, o with cut 3 is 2/5 o (`C86_not_majority`, robust.py:119); `biweight_mean` of one value divides by zero and of
  two differing values raises (`C86_not_biweight_few`).
* C87: the weights are not squared (`C87_not_bisquare`, robust.py:303); a fit of zero is accepted whatever the
  residuals, which is what `linefit(bisector=True)` hands over (`C87_not_zero`, robust.py:399,468); one point gives
  the line zero (`C87_not_single`); `polyfit` of order zero loses the mean (`C87_not_mean`); the segments of large
  fits overlap by one point and leave out the last (`C87_not_segments`, robust.py:560). Read but not modelled: `lsqfit
  = 0` (line 549) is tested as `lsqFit` (line 573), an exception for 10000 or more points with few good ones.
* C88: `dBi_to_dBd` is missing from `__all__`, which has `dBd_to_dBi` twice (`C88_not_exported`, rfutils.py:19).
* C89: for times that start at zero the restored profile is moved by half its length towards the start
  (`C89_not_restored`, scattering.py:236-239); thick and uniform screens divide by zero when the peak is the last
  sample (`C89_not_last`); the skewness is not normalised by the sum of the components (`C89_not_skewness`,
  scattering.py:107-108). Read but not modelled: line 221 tests `tScat` instead of `bestTau`.
* C90: with amplitudes every pass starts again from the original data, so that gains are raised to the number of
  passes, phases multiplied by it, and it does not converge (`C90_not_amplitude`); the gains are never put on the
  returned data (`C90_data`, selfcal.py:387). Gains far below one count as converged (`C90_not_cutoff`,
  selfcal.py:343-348). Phases next to delays use a gain of a half instead of `loop_gain` (`C90_not_gain`,
  selfcal.py:472). Autocorrelations draw phases to zero (`C90_not_auto`).
* C91: `_interpolate` of right ascensions on both sides of zero gives the opposite side of the sky (`C91_not_angle`).
  A component in the last row or column raises even if nothing belongs there (`C91_not_last`, deconv.py:277-292). A
  peak near the first row makes the slice of the fit start at the end and be empty (`C91_not_border`, deconv.py:214).
  A position before the first row changes the flux (`C91_not_outside`). An image without positive components divides
  zero by zero (`C91_not_dark`, deconv.py:323). In `lsq` `oldModel` is the same array as `mdl`, so that a worse model
  is not taken back while the residuals are (`C91_not_restored`, deconv.py:770, 812, 846); there is no result if the
  first pass has nothing to model (`C91_not_nothing`).
* C92: the tiles are half a window wide and do not overlap, unlike documented (`C92_not_overlap`, analysis.py:62), and
  their places are half a pixel off (`C92_not_middle`, :81-82). A constant image has no background (`C92_not_flat`,
  :67). `medfilt` takes zeros outside, so that the four corner levels are zero for positive images and all levels with
  one row of tiles (`C92_not_corner`, `C92_not_row`, :90). The correction of the centre is transposed
  (`C92_not_centre`, :247-248). Shape statistics include the background, so that sources on high backgrounds are
  rejected (`C92_not_background`, :229-233). A source between two pixels is found twice (`C92_not_apart`, :206). A
  threshold that every pixel reaches raises IndexError (`C92_not_threshold`, :202-207).
* C93: `1.0/4.0*np.pi` multiplies with a quarter of pi instead of dividing by four pi (`C93_not_mean`, skymap.py:249).
  Pixels of a map with a known shape cover 4 pi squared (`C93_not_sphere`, :246). The date of the array is not put
  back if a source raises (`C93_not_restored`, overlay.py:92-105).
* C94: settings of a scan that are written only if they are set stay in force for the scans that follow when the file
  is read: gain, ASP filter, proper motion, number of alternate phase centers (`C94_not_reset`, `C94_not_gain`,
  `C94_not_mixed`, idf.py:1270, 1354-1357); a scan without alternate phase centers after one with them makes the file
  unreadable (`C94_not_readable`). A right ascension just below 24 h is written as 24 and refused (`C94_not_range`).
  `ucfuser:me//data` loses the user name (`C94_not_user`). Comments of the project office stay where they are when
  scans are sorted (`C94_not_office`). An empty target is read as that of the scan before (`C94_not_target`).
* C95: visibility is sampled every five minutes from the start, so that a target may set before the end unless the
  duration is a multiple of five minutes (`C95_not_sampled`, idf.py:848-862). With both tunings off an alternate phase
  center raises ZeroDivisionError (`C95_not_refused`, :915). `generate_sdfs` drops the ASP filter (`C95_not_asp`,
  :334-348), raises without comments on a scan (`C95_not_silent`, :328-329), without comments of the project office on the
  run (`C95_not_fresh`, :316), for an empty but valid run (`C95_not_empty`, :303) and if proper motion takes a target
  past 24 h (`C95_not_past`, :326).
* C96: `parse_time` rounds fractions to milliseconds without carrying, so that fractions of .9995 s and more raise
  ValueError in texts, datetimes and sidereal times (`C96_not_rounded`, `C96_not_aware`, `C96_not_lst`,
  _sdf_utils.py:138, 124, 273). A shift `+1:30` is read as 13 hours, `-7:00` and `-07` raise (`C96_not_shift`,
  :178-179). `[ -/]` is a range, so that `(` or `,` are separators (`C96_not_separator`, :89). `astropy` times are
  announced but always refused, since `Time.datetime` is naive (`C96_not_astropy`, :115-120). EST and EDT are one zone
  (`C96_not_summer`). A sidereal time of 99:99:99 is accepted (`C96_not_hour`). 1048575 bytes are 1024.00 kB
  (`C96_not_size`), filter 3 is 1000.000 kHz (`C96_not_width`, :51).
* C97: a spectrometer file of one frame cannot be opened, since the size is taken from the second frame
  (`C97_not_single`, `C97_not_sized`, ldp.py:1257). At a damaged frame `read` returns nothing and does not move, so
  that `read_sequence` never ends (`C97_not_stuck`, :1422). After a gap that raises, every later read raises too and
  loses a frame (`C97_not_resumed`, :1426-1433). A failing first read leaves the time 0, and the next read raises
  (`C97_not_first`, :1402). Bytes at the end shorter than a header give a read without data whose time is None
  (`C97_not_tail`). `offset` into a gap never converges: it gives up after having moved once more, so that the file is
  elsewhere than the time returned says (`C97_not_moved`, `C97_not_gap`, `C97_not_nearest`, :1337-1344), and frames
  after a gap are reported as past the end (`C97_not_found`). `nframe` counts bytes before the first frame
  (`C97_not_count`). A frame of one channel is spread over all channels, missing products are NaN (`C97_not_kind`).
* C98: after `TBXFile.offset` over `k` of `N` steps the position is taken off twice and only `N - 2k` steps count as
  left: every read raises `ValueError` or gives nothing from half the file on (`C98_not_offset_reads`, ldp.py:1617,
  1691-1693); after a read it starts from behind the buffer instead of from the last step given
  (`C98_not_offset_position`), and with an empty buffer raises `AttributeError` (`C98_not_offset_empty_buffer`,
  :1600). Less than one step's worth of frames at the end, or as much as a frame before the first one, give empty
  results for ever (`C98_not_short_end`, `C98_not_leading_bytes`). Gaps are filled with steps of 8192 whatever the
  file has (`C98_not_gap_filled`, `C98_not_double_step`, :1750-1767). 8-bit reading of a damaged place raises
  `NameError` (`C98_not_sync_ci8`). A damaged frame in a COR file is read for ever (`C98_not_cor_ends`, :2079-2092).
  `int(tint * fS)` is one short for 29 averages and others, so that good files raise at the second step
  (`C98_not_corSkip`, `C98_not_cor_navg29`, :2054). `CORFile.read()` without a duration raises (:2061),
  `CORFile.offset` needs `cor.FRAME_SIZE`, which does not exist (:1996). Baselines are numbered for 256 inputs
  (`C98_not_cor_fewer_inputs`). A frame that comes twice while another is missing shifts the channel
  (`C98_not_twice`).
* C99: `get_tec_value` takes every map closer than two hours and draws a line from the first to the last of them
  (misc/ionosphere/__init__.py:460-469). CODE files have hourly maps (`_01D_01H_GIM`, _code.py): at the time of a map
  the result is the mean of its neighbours and the map is not used (`C99_at_map`, `C99_not_hourly`); with UQR's
  quarter hours the chord goes over almost four hours (`C99_chord`). USTEC: the difference of double precision times
  is below 15 minutes at many map times, so the same happens there (`C99_not_ustec`). USTEC uncertainties are filled
  only in as many columns as there are rows (`range(lats.shape[0])` twice, _ustec.py:180-182), the others stay zero
  (`C99_not_ustec_rms`). GloTEC: in the last half second of a day the next day's file is downloaded and this day's
  opened (`C99_not_glotec`). A map with an impossible date is added to the rows of the previous map
  (`C99_not_impossible_day`). EXPONENT of the header is not used (`C99_not_exponent`). Longitudes past 180 degrees get
  the value at the edge (`C99_not_wrap`).
* C100: the decimal year is computed with `mjd0 = mjd0 + mpm/…` where `mpm0`, the milliseconds of January 1st, is
  meant (misc/ionosphere/__init__.py:247-248), so the time of day is taken off again and the year is constant over a
  day (`C100_not_time_of_day`, `C100_not_noon`). The error stays below a day (`C100_year_partial`).
  `compute_magnetic_declination` gives 0 instead of 180 degrees for a field that points exactly south
  (`C100_not_south`): the half-angle formula is arctan2(0, 0) there. From five years after the last model on an
  IndexError comes from an empty list (`C100_too_late`), not the RuntimeError there is for early years.
* C101: `get_object_rst` looks for a drop of the azimuth from 360 to 0 degrees and returns `None` without one
  (astro.py:2432-2435). A star whose lower culmination is in the south has none: every star south of the equator with
  declination below minus the latitude gives `None`, even if it rises and sets (`C101_not_southern`,
  `C101_not_southern_visible`; Centaurus A from the LWA is such a source). The transit is a root of a*t^2 + b*t + c
  for a fitted cubic a*t^3 + b*t^2 + c*t + d, that is the other time with the altitude of the best sample, not the
  stationary point (2482-2484, `C101_not_transit`). What rose in the minutes before the time asked for is given with
  its past rise (`C101_not_next`). A source never seen above the horizon between its lower culminations raises
  IndexError (`C101_not_never_up`).
* C102: the argument `lat` of `apply_pointing_correction` is not used (mcs.py:820). At the zenith the azimuth is lost
  even without a rotation (`C102_not_zenith`).
* C103: `ARX.response` gives filter 7 of a revision I board (20 to 73 MHz) the column of filter 4 (20 to 83 MHz);
  column 6 is given to no filter (stations.py:973, `C103_not_filter_7`, `C103_not_column_6`). `Cable.__reduce__`
  leaves out `clock_offset` and `asp_atten_db`, so copies and pickles of a station have other delays and gains
  (766-767, `C103_not_copy`). An antenna without a cable has `Cable('', 0)` with a velocity factor of 0, whose delay
  raises ZeroDivisionError (463, 790, `C103_not_no_cable`). Equal antennas, stands, cables and boards may have
  different hashes (`C103_not_hash`). `station[i] = antenna` does not keep the order of the digitizers
  (`C103_not_put_order`). Adding a numpy scalar to a stand raises IndexError where a float is fine (606-617,
  `C103_not_numpy`).
* C104: the response for V is always zero, since the real part is taken of the imaginary `XY - YX` (beam.py:303-305,
  332, `C104_not_V`). The Jones matrix of the empirical model makes unpolarised emission fully polarised in U
  (`C104_not_unpolarised`). Fields are divided by the complex number with the greatest real part, which need not be
  the strongest (148-150, `C104_not_normalised`). Negative azimuths have no value (`C104_not_negative`). An altitude
  of ephem is not converted to degrees, since it is asked whether the azimuth is one, which has been converted before
  (251, 355, `C104_not_ephem`).
* C105: the factor for the flux density of a satellite is the wrong way round: narrow signals are too strong and wide
  ones too weak by the ratio of channel width and bandwidth (vis.py:222, `C105_not_narrow`, `C105_not_wide`); a narrow
  signal between the middles of two channels is lost (220-221, `C105_not_between`); two signals in one channel count
  as one (`C105_not_added`). Frequencies in whole numbers of Hz raise (859, `C105_not_ints`). Power responses become
  amplitudes of antennas, and so visibilities have their squares (669-676, `C105_not_power`). A polarization with a
  zero response makes all later ones nan (1102, `C105_not_zero`). Bandpass and beams of antennas 0 and 1 are used for
  all baselines (979-984, `C105_not_own`).
* C106: reporting and update intervals of DR5 are never read and stay −1 (sdm.py:172-188, `C106_not_dr5`). `str` of a
  status always raises: a member of an enumeration is no number for `%i`, and after a file is read the summary is a
  plain number without a description (31-32, 45, `C106_not_str`). Stand 0 gets the state of stand 256 (259,
  `C106_not_stand_zero`). A file that is cut off is read as if zeros followed (`C106_not_cut`, `C106_not_empty`).
* C107: `get_equ_from_hrz` and `get_equ_from_ecl` make frame objects and no `SkyCoord`; what they give can be
  converted to no horizontal, ecliptic, galactic or apparent position, `TypeError` is raised (astro.py:2104-2108,
  2145-2149 with 715, 920, 1181, 1487; `C107_not_plain_frame`, `C107_not_hrz_round`), so a `CelestialPosition` of
  ecliptic angles is of no use (`C107_not_ecl`), and `get_ecl_from_rect` always raises (2124-2127, `C107_not_rect`).
  Copies and pickles have the angles only: positions of other frames become positions of J2000 (1142,
  `C107_not_copy`), also in `CelestialPosition` (transform.py:506, `C107_not_celestial_frame`). Separations of plain
  positions raise: `format='fk5'` is no argument of `SkyCoord` (2272-2277, `C107_not_separation`).
* C108: the setter of `Time.utc_dp` gives astropy `value % fS` as seconds though it is ticks: a time with k ticks
  beyond a whole second is taken about k seconds late (transform.py:233, `C108_not_dp`, `C108_dp_iff`). `fS` is a
  float, so numbers of ticks near each other are not kept apart (ndp.py:29, `C108_not_dp_apart`), and the getter gives
  multiples of 32 only since 1993 (226, `C108_not_dp_grain`). In the last half millisecond of a day `utc_mcs` gives
  86400000 milliseconds of that day (235-239, `C108_not_mcs_range`).
* C109: in the pulsar catalog a right ascension that is not of two or three parts raises `UnboundLocalError` if it is
  the first one (catalog.py:261-266, `C109_not_psr_first`; the same branch for declinations has `continue`), minutes
  with a fraction raise and no catalog is made (265, `C109_not_psr_fraction`), `RAJD` lines are taken for `RAJ` (253,
  `C109_not_psr_prefix`), and a pulsar after the last line of hyphens is lost (298, `C109_not_psr_last`). The last
  alias of 4C loses a character if the file has no line end (556, `C109_not_4c_end`); 3C and 4C take no empty lines
  (`C109_not_blank`); short lines raise `IndexError` (193, `C109_not_short`).
* C110: the sort key of SDFITS data is time·10^7 + code (sdfits.py:163), so scans of XX and YY less than 8.6 ms apart
  (26 ms for all four products) are mixed (`C110_not_fast`); a scan without its last product has the number and
  spectra of the next (`C110_not_missing`), without its first it is lost or raises `UnboundLocalError`
  (`C110_not_first_lost`, `C110_not_first`); beams that only later products have are lost (`C110_not_beam`); I and V
  are read back as I and Q (`C110_not_gaps`); `NUMERIC_STOKES[-4]` is RL (43, `C110_names`); descending frequencies
  are written as ascending (fitsidi.py:276-294, `C110_not_down`).
* C111: phases of gains are multiplied by 180/π in place of π/180 (necutils.py:325, `C111_not_phase`; line 360 has it
  right); a comma with a blank after it counts as two separators, so that `change_nec_freq` changes another field of
  the `FR` card (98-100, `C111_not_comma_blank`) and short cards raise (`C111_not_short`); without an output file and
  with `rerun=False` there is `NameError` for `filefreq` (275, `C111_not_file`); the last record of currents is lost
  if nothing follows it (340-345, `C111_not_last`), and 16 lines after it raise `IndexError` (`C111_not_more`); a
  frequency without impedance gets that of the next one (`C111_not_impedance`).
* C112: a VDIF file that begins with the last frame of a second is said to have one frame in a second
  (vdif.py:518-580, `C112_not_last`), one with a thread missing at first raises `KeyError` (553, `C112_not_missing`),
  and a thread that stops makes the others count on (`C112_not_stopped`); the Mark 5B frame number loses its fifteenth
  bit (241, `C112_not_frame`), the time code has a digit of the check (254, `C112_not_timecode`), and of the check
  only eight bits are compared (256, `C112_not_check`) with a function that is not a cyclic check (`state |= i`, 80,
  `C112_not_linear`); the rate in frames is rounded down (169, `C112_not_offset`); samples can be taken for a GUPPI
  header (353, `C112_not_guppi`).
* C113: numbers are made the type of the frame first, so a byte frame (`vdif.read_frame_i8`) times 0.5 is zero
  (base.py:137, `C113_not_half`, `C113_not_fraction`), and imaginary parts of arrays are dropped
  (`C113_not_imaginary`); sums of bytes wrap (`C113_not_mean`); CI8 frames have no arithmetic, and `numpy.int64` and
  `numpy.float32` numbers are refused though comparisons take them (114, `C113_not_all`); `frame == None` raises (302,
  `C113_not_equal`); a wrong header raises `AttributeError` for `__type__` (85, `C113_not_init`); spectrometer frames
  with different products raise `NameError` for `attrs` with part of the frame changed already (drspec.py:391,
  `C113_not_products`), or leave products out (`C113_not_symmetric`).
* C114: regridding with a decreasing axis gives the last value for every key without an error (mathutils.py:55-60,
  `C114_not_decreasing`); `ndft` divides by the time from the first to the last sample, so that for regular times it
  is not the discrete transform: constant data have the value 1 where it should be 0 (263, `C114_not_dft`); with
  integer times all frequencies are zero (267, `C114_not_frequencies`); `gaussparams` refuses images of integers
  (337), uses no axis given alone (332, `C114_not_integers`) and moves with a background (`C114_not_background`).
* C115: a value with a comment is a text with the comment in it (vdif.py:385-393, `C115_not_comment`), and a bandwidth
  with a comment raises `TypeError` (395, `C115_not_bandwidth`); `COMMENT` cards and empty continuations raise
  `ValueError` (385, 382, `C115_not_comment_card`, `C115_not_empty`); any name that begins with END ends the header
  (379, `C115_not_end`); blanks before the closing quote are kept and doubled quotes lost (393, `C115_not_text`);
  continuing a text without `&` drops its last character (383, `C115_not_continued`).
