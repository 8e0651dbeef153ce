# Formal model of nenupy — design

## What this is

A Lean 4 model of the pure logic of nenupy (scheduling, constraints, calendar
accounting, observation configuration, parsets, instrument arrays, spectra and
correlation data handling, astronomy geometry) with theorems proved for all inputs.
The English properties are in `properties.jsonl`; `MANIFEST.json` maps each to theorems.

## Layout

* `lean/Verif/<Area>/*Model.lean` — shallow models. Each definition cites the file and lines it mirrors
  (paths relative to `/repo`) and says where it simplifies.
* `lean/Verif/<Area>/*Lemmas.lean` — helper lemmas, when they are long enough to separate.
* `lean/Verif/<Area>/*Props.lean` — specifications (small, independent of model helpers) and the property theorems,
  each followed by `example`s showing that a concrete non-trivial case meets its hypotheses.

## Conventions

* Exceptions are values (`Except Err α`), mutations of Python objects are explicit state passing.
* numpy arrays are functions on indices or lists; boolean masks are `Bool`-valued lists.
* Floating point numbers are modelled by exact rationals or reals. Rounding is out of scope unless stated.
* Times are rationals (seconds or days from an arbitrary origin); astropy leap-second details are out of scope.
* Where the code violates the English property, the theorem named `..._violated` / `not_...` proves the negation
  with a concrete witness about the model of the code as it is, and a `..._partial` theorem proves
  what does hold. These are listed in the section "Disagreements found".

## Trusted base

* Lean 4.33.0's kernel, and the axioms `propext`, `Classical.choice`, `Quot.sound` only (no `sorry`, no added axioms, no `native_decide`/`bv_decide`).
  `decide`/`rfl`/`norm_num` on concrete witnesses (negations and satisfiability examples) are checked by the kernel.
* The reading of the Python source: each model was transcribed by hand from `/repo`; the code was not executed.
* The modelled semantics of the numpy/astropy/dask operations used (slicing, masks, `roll`, `where`, `argmax`,
  `np.add.at`, stable sort, `Longitude` wrapping...), as stated in comments beside each definition.

* The semantics of Python's `re` for the constructs used in `parset_user_options.json` (`Parset/Regex.lean`: classes, groups,
  alternatives, greedy repetitions, anchors, word edges, back-references, look-aheads, the flag `(?i)`). The reader and the matcher
  of the model were compared with Python's own `re` on 35 patterns and 180 texts each, with the same answers; only ASCII characters
  are classified. The matcher is proved equivalent to a declarative relation (`fullmatch_iff`) for patterns without back-references.

* Times in parsets (`Parset/PropsReread.lean`, `Parset/Replay.lean`): which texts are times and how a time is written are parameters with the
  stated properties (`IsoLike`: years, months, hours... written with digits, `-`, `:` and `T`, and read again as times); the sky used by replays
  (next transit of a target, names of the bodies of the solar system, conversion of angles to texts) is a parameter (`Sky`).

* The export of parsets (`Parset/Json.lean`): the numbers read by `TimeDelta(text, format='sec')` are a parameter; that a text ending with "s" is refused is a hypothesis of
  `export_violated`. The sky coordinates of a pointing are a parameter.

* Scores kept by constraints and windows tried by extensions (`Cnst/Cache.lean`, `Cnst/Windows.lean`): the scores computed from the sky are a parameter (`sky`); the length of
  a kept array and windows whose evaluation raises are left out.

* Treatments of slices (`IO/Treat.lean`): the peaks found in the profile, the models fitted between them and the standard deviation are parameters; a division by zero is
  taken as a missing value.
* Spreadsheets and calendars (`Cal/Sheets.lean`): texts are ASCII; which texts `Angle` reads as hours is a parameter; the checks of the setters of the package `ics` are
  those of its documentation.
* Reference antennas (`Instru/Reference.lean`): the positions of the file, given to a micrometre, are read as the points of a triangular lattice, and `np.isclose` as equality.
* Radiometry (`Instru/Radio.lean`, `Instru/Area.lean`): the gains of the amplifier are a parameter, the effective area and the longest baseline of an array are parameters of
  `Dish` with the stated properties (`IsDish`: sine law); quotients by zero are `none`; positions of antennas are exact.
* Pointing corrections (`Instru/Squint.lean`, `Instru/Grid.lean`): the squint table is copied from the .sav file with its exact single precision values; the tables of
  2019 and 2022 are parameters (their values at whole degrees keep the corrected elevation within 90 degrees, and reach -101 and -42 minutes of arc at 15 degrees: read
  outside Lean); linear interpolation of scipy on a regular grid is bilinear; `SkyCoord.insert` refuses another observing time.
* Beam corrections (`Astro/BeamCor.lean`): DreamBeam is not modelled, only the times and shapes it gets; gains, conversions of coordinates and the correction of the orders
  are parameters; the quotient of durations is exact.
* Reduced files (`TF/Reduced.lean`, `TF/ReducedSlice.lean`): h5py as documented (a slash in a name makes a group, names are listed in order, modes), numpy's rules for
  indices and for arrays of names; names are ASCII; Julian dates are doubles of a precision of 2^-31 day; units are exact factors.
* Bandpass and clipping (`TF/Bandpass.lean`, `TF/Rfi.lean`): the coefficients of the filter are a parameter; `np.polyfit` is any function which gives least squares when
  there are more points than the degree (one exists: `fit_exists`); dimensions of polarisations are counted as one; infinite quotients are kept as such.
* Profiles of a UV coverage (`Astro/UvProfile.lean`): baselines are pairs of reals, all times and frequencies in one list; the sets of bins of `np.arange` and `np.histogram2d` are those of exact arithmetic. Figures and the Gaussian fit are left out.
* Images (`IO/Imaging.lean`): visibilities are complex numbers or NaN; positions, uvw coordinates, rephasing factors, altitudes and image coordinates of pixels are parameters; dask only counts where a chunk of no pixel makes it divide by zero (read from its source, not checked by running it).
* Directions of exported blocks (`Parset/Center.lean`): `_get_pointing_center_dict` and `_constrain_angle` in full; conversions between frames, ephemerides and `float` are parameters, and every theorem holds for all of them.
* Calendars and booking files (`Sched/Booking.lean`): the events of a calendar and the rows of a file are lists; the packages which parse them (ics, `np.loadtxt`) are trusted to give these, in any order for events, with fields cut as their formats say.
* Binary files (`Raw/`): a file is the list of its bytes, structures are packed and little-endian, floats are the integers of their bits; numpy's refusals (too few bytes, sizes which are not multiples, negative shapes, a shape of 1 read as no shape) are written from knowledge of the library. Texts of the headers of NenuFAR-TV files are not parsed.
* Limits of spectra (`TF/Limits.lean`): exact rationals; starts of blocks are parameters.
* Site (`Geom/Site.lean`): real numbers; a time zone is two offsets and a set of summer times, and the choice of `pytz` between them for a local time which happens twice or never (`is_dst=False`) is written from knowledge of the library.
* Beam statistics (`Bst/`): tables of a file are lists of rows, times and frequencies exact numbers; conditions of `get` are parsed already; a setter gives the state it leaves and its exception.
* Parents (`GA/Parents`): `randGen.choice` is taken as numpy documents it: it refuses negative probabilities and less nonzero ones than asked, and may
  return any rows of nonzero probabilities. Not-a-number scores are left out.
* Beams (`Geom/Beam`): one time, frequency and direction; the interpolation of healpix maps between pixels is a parameter; the analog pointing of
  mini-arrays is in `Instru/`. scipy's barycentric interpolator is taken with distinct frequencies.
* Cleaning of dynamic spectra (`Dyn/Clean`): exact reals, NaN as `none`; the linear rank of numpy's percentile and the treatment of NaN by astropy's convolution (left
  out of the weighted mean, NaN if nothing is under the kernel) are taken from the documentation of these libraries; infinite values are left out.
* Analog pointings (`Instru/Analog`): exact reals, the angle between directions as the arc cosine of the scalar product of unit vectors; a pointing object is its directions from the sky and those set by hand; the computation of the beam for given directions is a parameter.
* Corrections of sub-bands (`TF/Lna`, `Dyn/BandCorr`): exact reals, the coefficients of the fits as decimal numbers; the coefficients of the polyphase filter are a parameter; infinite values are taken as missing.
* Fine tuning (`Sched/FineTune.lean`): scores are rationals given by the constraints; blocks of the same start are taken in their order (`np.argsort` need not keep it); ranks of blocks are those of the list of blocks.
* Common beam and LOFAR temperature (`Instru/CommonBeam.lean`): separations of the sources are given by astropy, a source is fixed or has one position at each time; real numbers are exact.
* Fit of a transit (`IO/Transit.lean`): `curve_fit` is a parameter called after the checks that scipy does (shapes, bounds, first guess), and `median_filter` a parameter; these checks are from knowledge of scipy, not run.
* Files of the NenuFAR-TV (`IO/TvFits.lean`): `save_fits`/`from_fits` of images and near-fields, with the file as a value. `write_map`, `read_map`, `mask_bad` and `mask_good` of healpy and the headers of astropy (upper-case names, blanks at the ends of strings, refusal of NaN) are written from the knowledge of these libraries, not run.
* Point sources (`Astro/PointSource.lean`): `add_point_source` and `add_point_source_snr` over real values; positions are pixels, `hp.smoothing` is a parameter, `np.isclose` has its default tolerances.
* Selections (`IO/XstSelect`, `Bst/SstGet`): conditions are predicates on times and frequencies; `squeeze` and the rounding of default bounds to text are outside these two files.
* Antenna tables (`Instru/Cst`): angles in degrees and gains are rational; the check of axes and the linear interpolation of `RegularGridInterpolator` (which accepts decreasing axes in recent versions of scipy) and the rings of HEALPix are written from their documentation; only the default columns are modelled.
* Mini-arrays of a beam (`IO/BeamSelect`): one time and one frequency; the antennas of the core are numbered by their positions in the array, as in the table of the package.
* Drift scans and target tracking (`Astro/Drift.lean`): the conversions between horizontal and equatorial directions and the positions of targets are parameters; sites are
  numbers, 0 for NenuFAR; azimuth and elevation are one value, whose broadcasting to the times is as in the code.
* Phase centres of slices (`Geom/Rephase.lean`): one baseline and one frequency, lists over the times; conversions from horizontal directions are parameters.
* Whole reading of spectra (`Raw/Spectra.lean`): `Spectra.__init__` and `Spectra.get` composed from the models of decoding, dating, selection, unpacking and
  Stokes parameters, for a pipeline with the Stokes task alone; the value of a float is an arbitrary function of its bits, times and frequencies are exact.
* Times left out (`Astro/Session.lean`): a program is the time at which its modules are read and its calls with their clock times; the default `Time.now()` of a signature is evaluated once, as Python does.
* Layout of mini-arrays (`Instru/Layout.lean`): exact reals before the conversion to single precision, the same lattice as for the reference antennas; an index is an integer or a value which the format `03d` refuses.
* UVW coordinates (`Astro/UvwRun.lean`): positions in the frame of the Earth are given (the conversion from Lambert coordinates is not part of it); the position of the zenith on the sky is a parameter; arrays of different lengths put into one array are a ValueError (numpy 1.24 and later).
* Local times (`Cnst/Zone.lean`): `localize` is modelled from the source of pytz (read from memory, not run): two candidate offsets, gaps read six hours before, daylight saving off in overlaps. Times are whole seconds.
* Fast conversions (`Geom/Horizon.lean`): the change of equinox (astropy's FK5) is a parameter.
* Computed Jones matrices (`TF/DreamBeam.lean`): what DreamBeam computes is a parameter, its frequencies are a list; the number and the times of its matrices are those of `compute_projection_corrections`, which repeats its computation; times are rounded to the nearest microsecond; the inverse of an array of matrices fails as a whole.
* Conversions of positions (`Geom/Lambert.lean`): the projections of pyproj are parameters; arrays have one or two dimensions and are handed over by reference; storing a decimal number in an array of integers rounds towards zero.
* Parts of data sets (`IO/SDataCut.lean`): no missing values; the rounding of a time written as text is a parameter; frequencies are in MHz.
* Positions of targets (`Cnst/Position.lean`): the coordinates of the date (astropy's FK5) and the date read back from its text are parameters; angles are real numbers, without rounding; at the zenith, where the code divides by zero, the value is that of `x / 0 = 0`.
* Lane files read by the older reader (`Dyn/File`): floats are an arbitrary function of their bits and are added exactly; corrections, averages and dispersion are left at their defaults; negative numbers of beams and sub-bands are left out; the names of the files are not checked.
* Images of skies (`Astro/SkyImage`): positions on the image are given, except in the statements on the whole-sky image, where the Hammer-Aitoff projection about a centre on the equator is written out from the FITS standard; colours, axes and regions are left out.
* Drawing of a sky (`Astro/SkyPlot`): the image is the list of its values, figures are counted; that matplotlib places contours from the first row and column of the image on is from knowledge of the library; colours, ticks, grids and the coverage in horizontal coordinates are left out.
* Angle of linear polarisation (`TF/PolAngle`): exact real numbers; a zero `Q` is the positive zero (with the negative one the sign of the angle is the opposite).
* Plot of cumulative volumes (`Config/VolumePlot`): up to the curves given to the plotting library, which is assumed to refuse arrays of different lengths.
* Drawings of a schedule (`Sched/Rows.lean`): times are days counted from a midnight, without leap seconds; a drawing is the list of its rows with what is drawn in each. That the axis grows with what is drawn until its limits are set, and that texts outside the limits are written, is from knowledge of matplotlib; so is the exception raised for a length of zero.
* Drawings of spectra (`IO/Draw`): what `ax.plot` and `ax.pcolormesh` are given, limits, scales, titles and files; keywords are names which are accepted or refused. Left out: labels, colours, overlays and pointings, NaN in reduced spectra, minus infinity in percentiles, what matplotlib makes of it.
* Matrix of correlations (`IO/Corr`): the loop on missing numbers, the means, the cells which are written and the errors of numpy on shapes and indices. Left out: limits of colours, ticks, labels, and whether the figure is shown or saved.
* Drawing of a pointing (`Instru/Current`): beams of mini-arrays, altitudes of sources and the percentile of the beam are parameters; the map of the sky, texts and axes are left out; a percentile of zero is left out.
* Drawing of a block (`Cnst/Show`): changes of case are those of ASCII; the limits 0.5 and 0.8 are exact; sizes and places of texts are left out.
* Description of a file of reduced data (`TF/ReducedInfo`): the text is modelled by what it tells; that h5py lists names in alphabetical order and that groups have no shape is from knowledge of the library; attributes are left out.
* Spreadsheet of the mini-arrays (`Instru/Sheet`): rows as pandas reads them; that a column without texts has no `.str` and that `Longitude` turns angles to 0-360 is from knowledge of the libraries; how astropy reads an angle is a parameter.
* Events drawn on a calendar (`Cal/DrawEvent`): boxes over the whole height of a line, as `axvspan` of matplotlib before 3.9 returns them; upper and lower cases of ASCII; refreshing of the figure and colours are left out.
* History of a genetic search (`GA/History.lean`): only the numbers given to matplotlib are modelled; it is taken to refuse lists of different lengths, and to leave out masked points; colours, the limits of the axes and the file of the figure are left out.
* Names of files (`IO/Names.lean`): `abspath` and which files exist are parameters; only ASCII digits are digits; what is exported of each parset file is a parameter there.
* Pictures of near-fields (`IO/TvDraw.lean`): pixels are real numbers (no NaN), arrays are flattened row by row; `imshow` with an extent is taken to share it evenly between the cells, first row at the top. In `IO/TvPicture.lean` separations and the simulated beam are parameters.
* Comparison of SST sets (`IO/SstEq.lean`): `os.path.basename` is a function on names; `Pointing` has no attribute `filename` (read in astro/pointing.py); any other object is one value without `filename`.
* Returns of the profiles of a UV coverage (`Astro/UvReturn.lean`): the Gaussian fit is a function of the points it is given; whether numpy works on an array beside a number (before 1.24) or refuses (since) is a parameter.
* Smoothing of curves (`IO/Smooth.lean`): values are real numbers without NaN; the number of passes is a natural number (with a negative one the loop does not end).
* Global sky model (`Astro/Gsm.lean`): that `np.array` drops the unit of a quantity, that pygdsm refuses numbers outside of 10-94000 MHz, and that healpy's `rotate_map_pixel` takes the last two of several maps for Q and U is from knowledge of the libraries.
* Horizon regions (`Astro/Horizon.lean`): the change of coordinates and the texts of angles are functions; the name of the file is left out.
* Decameter Array (`Instru/Nda.lean`): gains of antennas; interpolation by `healpy` is a list of pixels and weights per direction, the rotation of the map a function of pixels; broadcasting of the assignment is modelled. The constructor reads a file of the machine of the author and is not modelled.
* Sky models in local coordinates (`Astro/LocalMap`): `Skymodel.altaz_map_at` and `Skymodel.to_sky`. The change of coordinates and the HEALPix
  interpolation are one unknown function; angles are exact.
* Limit on the volume (`TF/Volume`): the tables have their shape and bytes; `de_disperse_array` and the other tasks are parameters here.
* Events crossing an event (`Cal/Crossings`): the calendars are lists, in the order in which the events are gone through; two events are equal if their
  times, programmes and names are.
* Contamination maps (`Contam/`): array factors of the mini-arrays, antenna gains, altitudes and the sky cell of a direction are parameters; a coverage of mocpy is a list of cells.

## Not modelled

Plotting, logging, progress bars, file formats on disk (FITS, HDF5, raw memmaps), network access (TAP, VCR download, name resolution),
healpix geometry, ephemerides and precise coordinate frames, antenna gain tables, dask laziness, multiprocessing,
performance, floating-point rounding, `nda.py` (hard-coded private path), `bin/` scripts.

## Plan per property

* **C01** Heuristic booking never double-books a time slot. Model `book` heuristic path slot by slot (`Sched.Booking`): fold over blocks in any order, occupancy as `Nat → Bool`. Prove by induction over the block list an invariant: every booked range was free before and is not free after.
* **C02** Booked blocks lie inside the schedule and off reserved slots. Same model; invariant also tracks range bounds and initial occupancy.
* **C03** Heuristic booking takes the first best feasible window. Model of score masking and `argmax`; refinement to an abstract 'first maximiser over feasible starts'.
* **C04** Processing delays are respected between booked blocks. Same fold with the processing counters; invariant relating counters to booked delayed blocks.
* **C05** Re-booking with reset starts from a clean schedule. Model `_reset`; compare state before booking with state after reset. Free slots: exact restoration. Processing counters: off by one — negation with witness, partial for zero delays.
* **C06** Optimised (genetic) booking never double-books. Model the clean-up pass after the GA for arbitrary genomes; invariant by induction.
* **C07** Reservations are counted: removing one keeps the others. State machine add/remove of reservations vs. abstract multiset of reservations. Negation for overlap; partial for disjoint reservations.
* **C08** Slots partition the schedule time range and time lookups are exact. Slots over rationals; exact characterisation of `floor(period/dt)` slots and both lookups.
* **C09** set_free_slots leaves exactly the requested windows bookable. Model `set_free_slots` as list of reservations over gaps; exact characterisation for sorted windows.
* **C10** Shifting an observation is all-or-nothing and collision free. Model `_shift_obsblock` with explicit exceptions and state at raise; positive theorem for success, negation of atomicity.
* **C11** Export returns exactly the booked blocks above the threshold, in time order. filter+sort model; permutation and sortedness.
* **C12** Extending observations keeps them disjoint and never shrinks them. Model of the extension loop for a candidate window list; invariant.
* **C13** is_within detects every overlap with a time window. Formula over rationals vs. interval overlap; negation at coincident bounds, partial for non-coincident bounds.
* **C14** Blocks algebra preserves blocks and order. List model.
* **C15** Combined constraint scores stay in [0,1] and any violated constraint vetoes. Rational weighted mean with `Option` for NaN.
* **C16** Periodic constraint accepts exactly the times near a multiple of the period. Float modulo as `a - b*floor(a/b)`; existence of integer k.
* **C17** Hour-window constraints handle midnight wrap. Decision logic over rationals; wrap case boundaries.
* **C18** Evaluating or combining constraints has no side effects on inputs. Shared-array state model for NightTimeCnst and Constraints.__add__; negations with witnesses and value-level partial theorem.
* **C19** Genetic search never loses its best solution and terminates. Evolution loop over an arbitrary stream of generations (oracle) – monotonicity by induction.
* **C20** Crossover only recombines parental genes locus by locus. Locus-wise list model of the three crossovers.
* **C21** Night/day accounting of observing time adds up. Rational-hours model of `_sort_night_time` against an explicit interval-intersection spec.
* **C22** Event overlap detection is exact. Interval logic.
* **C23** Merging contiguous events preserves allocated time. Merge loop model; sum preserved; crash witness.
* **C24** Season and night masks follow the published night hours. Decision logic with constants; winter evening negation, summer exact theorem.
* **C25** Backend configurations never hold out-of-range values. Attribute store state machine, arbitrary assignment sequence; power-of-two bit trick on naturals.
* **C26** Estimated data volumes are non-negative and additive. Volume formulas over rationals; RAW negative witness.
* **C27** Cumulative volume is non-decreasing and ends at the total. Cumulative sum model.
* **C28** Frequency/time resolution snapping respects the channelisation constraint. Model of `_checkDFvsDT`.
* **C29** Parset index lists round-trip. String-level model of list rendering and parsing (character lists).
* **C30** Sub-band grouping into consecutive runs is lossless. Run grouping on integer lists: flatten = original, runs consecutive, maximal.
* **C31** ParsetUser keeps beam numbering consistent under any edit history. State machine of `ParsetUser` with lists of beams; invariant over arbitrary op lists, negation for phase centres.
* **C32** Parset edits touch only what they name. Association-list model.
* **C33** Parset JSON export is repeatable and uses unique identifiers. Model of `_JsonEntry.data` accumulation and idx assignment; negations with witnesses.
* **C34** Sub-band index and frequency conversions are inverse. Rationals with floor.
* **C35** Interferometer selection, union and difference act on whole antennas. Records (name, position, gain, weight) in lockstep arrays; refinement to list of records; invariant under op lists.
* **C36** Array factor is normalised. Complex exponentials over `Finset` sums (Mathlib).
* **C37** Baselines are antisymmetric and complete. Index model of `tril_indices`.
* **C38** NenuFAR beam grouping by rotation equals the full sum. Finite sums grouped by key.
* **C39** Analog pointing orders round-trip. Index maps on naturals.
* **C40** Sub-array generation partitions the mini-arrays. Cumulative integer boundaries.
* **C41** Mini-array rotation and coordinate rotations preserve geometry. Real matrices with sin/cos.
* **C42** Spectra re-ordering is a permutation onto a monotone frequency axis. Index arithmetic (div/mod) bijection.
* **C43** De-dispersion shifts every channel by exactly its delay. Function-on-index model, both implementations.
* **C44** Stokes parameters satisfy their identities and agree across readers. Complex algebra.
* **C45** Faraday de-rotation rotates only linear polarisation. 2x2 complex matrices.
* **C46** Rebinning averages disjoint, complete consecutive bins of the requested size. Index arithmetic + sums.
* **C47** Channel masking hits exactly the requested channels of every sub-band. Index sets.
* **C48** Pipeline parameters stay valid under any history. State machine with parameter rules.
* **C49** Reading data with per-call options does not change the reader. State + exits model of `get`.
* **C50** Pipeline task list edits keep invariants. List edits with repeatability flag.
* **C51** Time selection returns the blocks containing the requested range. Rational time model of block lookup.
* **C52** Corrupted blocks are blanked. Mask model.
* **C53** Cross-correlation lookup returns the requested correlation. Triangular index arithmetic.
* **C54** Beamforming from correlations equals the coherent power. Complex finite sums.
* **C55** Re-phasing is consistent. Real/complex algebra.
* **C56** Concatenating data along time or frequency keeps labels attached. List pairs model.
* **C57** Arithmetic between data sets requires identical axes. List comparison.
* **C58** Default selections return all of the data and filters are exact. State machine for selections.
* **C59** Decorated functions receive their own defaults. Argument binding model against Python's binding rule.
* **C60** Beam data slices. Beam list model.
* **C61** Fast equatorial/horizontal transforms are inverse. Real trigonometry (arcsin/arccos).
* **C62** Extremal elevations are the true extremes. Real trigonometry.
* **C63** Crossing-time search brackets real crossings within the precision. Refinement loop over arbitrary functions ℚ → ℚ, with fuel eliminated by a termination proof.
* **C64** Pointing lookup returns the pointing active at the given time. List lookup; interval tiling; `insert(-1)` witness.
* **C65** Jones to Mueller conversion is a faithful action on Stokes vectors. Complex 2x2/4x4 algebra.
* **C66** UV coverage counts every baseline and its conjugate. Integer square roots.
* **C67** Sky arithmetic does not modify operands. Heap/alias model.
* **C68** Database query reflects the current filters. Filter state machine.
* **C69** Direction cosines are well defined. Real trigonometry.
* **C70** Weights, delays and steering respect documented bounds. Setter state machine.
* **C71** Starts of corrupted blocks are reconstructed. TF/Select.lean models np.interp on the block numbers; proofs by induction on the nearest good blocks.
* **C72** Parallactic corrections are computed for every time sample. TF/Stokes.lean: timeGroups and parallacticJones.
* **C73** Rebinning a slice averages disjoint consecutive windows no wider than asked. Model of the index computation; proof for all lengths and ratios.
* **C74** Circular polarisation has one meaning. Model the named constructors on top of the elliptical polarisers and circular fields; compute the Stokes parameters transmitted.
* **C75** Score of a booked block. Model blockScore and getScore on rational scores with NaN as none; induction on the list of constraints.
* **C76** Which blocks are candidates for booking. Exact characterisation of the row of scores (rolling mean and availability mask), then of the filters.
* **C77** The genetic search prefers schedules without conflicts. Model the fitness over rationals with any sorting permutation as argsort; prove by induction on the sorted list that the count of overlaps is zero exactly without shared slots; bound the mean of relative scores. The delay term reads delays and lengths at wrong positions: witnesses for a false alarm and a missed conflict.
* **C78** The printed pipeline tells which tasks will run. Model the update of a task (active only ever set to true) and the conditions under which each task returns its input; characterise what is shown for all histories; show which tasks are displayed rightly and give histories for which the display is wrong.
* **C79** Axes and labels fit the data after any pipeline. Model the effect of every task on the shapes, with the exceptions raised; induction over the list of tasks.
* **C80** Averages reach the requested step and tasks use the step of the data. Follow the number of recorded samples in one output sample through the run; exact for one average; witnesses for repeated averages and for tasks placed after an average.
* **C81** Flattening makes tilted sub-bands flat and keeps the rest. Model medians over sorted lists, the two levels, the line, its normalisation and the division; compute the result exactly for all affine profiles: the line is half a channel away from the profile.
* **C82** A time selection of the older reader gives the spectra of the requested range. Lane axes as arithmetic progressions, nearest index by argmax; proved by ordering arguments on the distances.
* **C83** The whole observation can be read. Same model; the last spectrum is shown never to be read, whatever the range.
* **C84** A frequency selection gives whole sub-bands which cover the range. Nearest channel to each bound on an increasing axis, rounded to sub-bands.
* **C85** A range with data in it returns data. Two samples on each axis are enough (partial); one is not (violated, for all lanes).
* **C86** Settings of the older reader stay valid. State machine of the setters; invariant by induction on the history.
* **C87** Removing edge channels leaves the others. Slices with negative bounds; exact for fewer than half, all data lost at exactly half.
* **C88** The files listed are the files read. Loop over the files with the state kept at an exception.
* **C89** Gathering lanes keeps every sample with its time and frequency. Fold of the join of two data sets; permutation of the samples by induction.
* **C90** Spectra can be written for the documented Stokes parameters. Shapes through squeeze and indexing, with the state of the reader.
* **C91** Each spectrum is corrected with the matrix of its time. Indices selected along the time axis; exact for regular axes and incomplete last block.
* **C92** Each spectrum is corrected for jumps once. Edges of the intervals and the list of the fits which apply to a spectrum; the fits themselves are not modelled.
* **C93** Median band-pass works for several Stokes parameters. Sizes of the arrays before and after reshaping.
* **C94** The parameters of a digital beam are read as they are written. Texts as lists of characters; induction over the options, for both separators. Witness for a value glued to the colon.
* **C95** Each digital beam of a parset is counted once, by the backend it is meant for. The loops as recursive functions with exceptions; kind of a beam as a separate specification; induction over the beams. Witnesses for wide beams, missing or spaced receivers and missing resolutions.
* **C96** The correlator volume of a parset covers the whole observation. Values of the constructed object from those of the file; witnesses for several analog beams and for fractional dump times.
* **C97** The beamlet statistics last as long as the digital beams. Union of times as a finite set of rationals, compared with the set of covered seconds. Witnesses for half seconds and minutes.
* **C98** Validating a user parset checks every value that was given. Model of the regular expressions used in the options (reader of patterns, matcher) and of the tables of options; induction over fields, blocks and beams.
* **C99** Accepted lists of mini-arrays and sub-bands mean mini-arrays and sub-bands. Matcher proved equivalent to a declarative reading relation; language of the list patterns by induction on the repetition; reading back by the list lemmas of C29.
* **C100** Values written by the package are accepted by its own validation. Language of each pattern as an equivalence with a small description; composition with the model of the stored texts.
* **C101** Loading a parset file into a user parset keeps its content. Model of the dictionaries of the file and of the loop over blocks; induction over beams; writing then reading a value by case analysis on what reading can give.
* **C102** Replaying a parset file moves it in time without changing the observation. Times as whole seconds, the sky (transits, names of bodies) as parameters; inversion of each step of a successful replay, for every sky.
* **C103** Every parset file can be exported, with its version, topic and beams. Model of the whole export over the values that reading gives; universal failure for files with an analog beam; inversion of the steps for any other reading of durations; language of the pattern of topics.
* **C104** The receiver exported for a beam is the one its task and parameters ask for. Model of the settings over the dictionaries of options; composition with the theorems on the texts of parameters (C94).
* **C105** A relaxed sidereal-time constraint gives 1 at the crossing and decreases with the distance to it. Model of the longest row without crossing (changes of a mask) and of the convolution by a triangular kernel; exactness of the longest row for all masks; closed form of the scores for one crossing; failing patterns.
* **C107** A schedule books a block with the scores of this block on this schedule. Heap of shared targets and constraints with kept positions and scores; induction over the blocks for objects that are not shared; universal failure for shared or reused constraints.
* **C106** Extending observations keeps their constraints. Model of the scores of windows as the evaluation over the slots of the window but the last one; blindness to the last slot for all constraints; reachable schedule extended out of its time range; partial theorem on the other slots.
* **C108** Interpolated meridian transits are the transits of the period. Model of the sampling, of the flattening of the hour angle and of the interpolation; flattening equals the continuous hour angle by induction on the samples; soundness, completeness before the last sample, exactness for regular motions; universal and concrete failures at both ends.
* **C109** Sidereal-time and transit constraints find the right slots. Model of the sidereal time with its rational coefficients; exact reduction to a turn; characterisation of the slots that are marked, by cases on the turns; universal failure below the longitude of the site.
* **C110** Sets of SST files stay usable when joined, reduced and read. Dictionaries as lists in insertion order, sets of files as sorted lists; invariant relating files and keys; the search of an integer in an object that only has `__getitem__`, by the sequence protocol of Python.
* **C111** Contamination maps tell where and when sources are in the lobes. Array factors per mini-array and cells of the sky as parameters, NaN as none; maxima with NaN by induction on lists; the attribute holding the coverage as a sum type.
* **C112** Contamination maps can be added, drawn, written and read back. Bytes as integers modulo 256, floats as rationals; the rotation of the axis by lists with one fall.
* **C113** Bookings of a spreadsheet become events and totals which agree. Both expressions as recognisers on lists of characters, proved equal to a declarative form of a booking; totals by induction on the cells.
* **C114** Calendars of several files keep all their events, which can be moved and drawn. Dictionaries as lists of pairs with one entry for each project; moves on rationals with the checks of the setters; months as integers.
* **C115** Averages of slices are those of their bins. Tables as functions with missing values as `none`; bins as blocks of consecutive indices; sums by induction; the dimensions dropped by `squeeze` are modelled.
* **C116** Flattening, cleaning, switch correction and backgrounds of beamlet data. Medians as in C81; intervals between switches by induction on the sorted list of limits; peaks, fits and the standard deviation as parameters.
* **C117** Each antenna is given the response of a measured antenna like it. Exact real geometry on a triangular lattice; existence by the symmetries of the hexagon (turns of sixty degrees, reflection, sign) acting on directions modulo five degrees; absence of references by sums and largest projections.
* **C118** Temperatures, flux densities, sensitivity, resolution and confusion follow the documented formulas. Exact reals with real powers; piecewise linear interpolation proved on every segment; scaling laws by algebra of powers and square roots.
* **C119** The effective area is that of the discs of the antennas. The grid of 500 by 500 points as it is, over exact reals; counts of grid points in a disc by the kernel, for all positions and frequencies by scaling; against the Lebesgue measure of the union, cells of the grid are disjoint and lie between the unions of discs of radii shortened and lengthened by half a diagonal, whose areas differ by rings; overlap of neighbouring mini-arrays by plane geometry of the hexagon.
* **C120** Squint, pointing corrections, pointing grid and attenuation are those of their tables. The squint table is copied exactly and checked by the kernel; interpolation lemmas for tables with plateaux; bilinear interpolation over any table; plane and spherical trigonometry over the reals for the grid; the coordinates object as a state which keeps its observing time.
* **C121** Beam corrections are computed at the times asked and compare the direction desired with the one pointed at. Steps as microseconds with integer division; the pointings of C64, with any conversions, correction, and gain as parameters; lookups by the lemmas on intervals.
* **C122** Reduced data stored in a file are read back as they were. The file as a state: header, groups and datasets, with the rules of h5py for names with a slash and for modes; stores as transitions returning the state also when they fail; times rounded to doubles.
* **C123** Selections of reduced data keep values with their labels. The rules of numpy on numbers, slices and lists as flattened arrays; row order lemmas; all combinations of kinds of indices.
* **C124** The bandpass of a sub-band depends on the place of channels only. Fourier sums over complex numbers, slices of numpy as list operations, the filter as a function of the relative frequency; periodicity and conjugation of the exponential.
* **C125** Clipping of interferences. Medians over sorted lists with NaN and infinite quotients; polynomial fit characterised as least squares (existence and uniqueness proved), the rest branch by branch; scaling lemmas for each step.
* **C126** Profiles and point spread function of a UV coverage. Lists of pairs of reals; bins as closed intervals, counts as countP; double counting made exact by a sum over bins; discrete Fourier transform as a finite complex sum exchanged with the sum over baselines.
* **C127** Images and near-field images of correlations. Complex numbers or NaN in lists; sums over pairs by induction on the lower triangle; triangle inequality for the bounds; limit of distances for the imprint of sources; concrete witnesses for the violations.
* **C128** Direction recorded for an exported block. Case analysis over the branches of the code with the conversions as parameters; limits of angles as a specification; integer argument for directions modulo a turn.
* **C129** Schedules and reservations made from calendars and booking files. Events as a list; permutation invariance of sorting; reduction to the exact theorem on free windows (C09); concrete and universal witnesses for what fails.
* **C130** Binary files of the receivers, whole or interrupted. Files as lists of bytes; a writer as specification; round trip by induction on the fields and on the blocks; readers of a prefix of a file, for all lengths of the prefix.
* **C131** Limits in time and frequency announced for a file of spectra. Model of the axes and of the limits; lowest and highest values as independent specification; exact distance between limits and axes.
* **C132** Positions on the Earth, sidereal and local times, parallactic angles. Formulas over the reals; the ellipsoid, its normal, the zenith in the frame of the source and the clock of a zone as independent specifications.
* **C133** Beam statistics: beams, pointings and selections. State machine of the selections with refused actions; invariant by induction on histories; cells of the result compared with the tables of the file.
* **C134** Selection of the parents in the genetic search and functions given to it. A draw is any pair numpy may return; the set of possible pairs and the probabilities are computed exactly; wrong cases (negative scores, ties, tournaments, names of parameters) are proved for whole families.
* **C135** Beam patterns of antennas, mini-arrays and the whole array. Barycentric formula shown to be the interpolating polynomial, unbounded when not constant; beams from the array factor of C36; the received power as a separate specification.
* **C136** Removal of interferences from dynamic spectra. Medians, percentile, convolution which leaves out NaN and product of profiles modelled over the reals; homogeneity of each step; profiles with one value apart worked out by their sorted lists.
* **C137** Analog pointings are made from the directions asked, at each call and in each group. Pointings as objects whose directions are replaced in place; the grid and squint of C120 composed; induction over the calls and over the groups.
* **C138** Correction of the sub-bands with the filter of the amplifiers. The fits are modelled over the reals with their coefficients; bounds of the sigmoids on both sides of their centres; inversion of the response.
* **C139** Corrections of the sub-bands of dynamic spectra. Medians over times, channels and sub-bands with missing values; medians of scaled lists; a signal times a response worked out for all sizes.
* **C140** Fine tuning of schedules. The whole loop on the sorted blocks; invariants over all its iterations; a measure (number of better starts) for the end.
* **C141** The former export of parsets. Function by function over the model of the files read; beams and fields followed by their positions.
* **C142** Highest frequency for two sources in one analog beam. Maximum of the filtered grid, with the width decreasing in frequency; list of values by induction on the times.
* **C143** Temperature of the LOFAR instrument. Bernstein form of the two polynomials on a few intervals, all coefficients positive; values at the ends of the bands.
* **C144** Summary of a calendar. Loop over the sorted events, with the exception as a value; splitting of lines at commas; invariants of the insertion sort.
* **C145** Fit of a transit. Branch by branch, with the solver of scipy as a parameter after its checks of shapes, bounds and first guess; group of the peak by its two ends.
* **C146** Images and near-fields of the NenuFAR-TV in files. Files as values; partial maps as lists of pixels with their positions; round trip by induction on the pixels and on the sources; nearest resolution by injectivity.
* **C147** Point sources in a model of the sky. Branch by branch with the comparison of times of numpy and the exceptions as values; smoothing of healpy as a parameter.
* **C148** Axes of slices of cross-correlations. Masks of numpy as lists of positions, a slice as two axes and the place in the file of each value; the exceptions of the broadcasts as values.
* **C149** Selections of mini-array statistics. Masks as lists of positions; each value of a slice is related to the record by a separate specification.
* **C150** Models of antennas from CST tables. Rows as triples of rationals, the interpolator as bilinear interpolation with its checks, rings of HEALPix with their exact azimuths; texts as lists of characters.
* **C151** Mini-arrays of a beam formed from cross-correlations. Selections as lists, the masked triangle of correlations with its order; the beam of C54 applied to what is selected.
* **C152** Pointings fixed on the ground or on a target. The three constructors and the look-up with its horizontal coordinates and its site, over any conversions of coordinates; steps that hold a time as a separate specification.
* **C153** Phase centres of slices of cross-correlations. The choice of the current centre, branch by branch, and the values and coordinates of images on top of the factors of C55; point sources as specification.
* **C154** Azimuth constraints follow the motion of the target. The two crossing tests on top of the score model of C15; the specification is the shorter arc between two azimuths, modulo whole turns.
* **C155** A file of spectra, read from beginning to end, gives the Stokes parameters of the fields at their times and frequencies. The models of C42, C44, C51, C71 and of the file format are put together as `Spectra` does, on the bytes of a file written from any list of blocks; the specification is the recorder: what it writes for given fields.
* **C156** The estimated volume is the number of values written, times their size. The values written are elements of a finite set (time step, pair, sub-band, channel, polarization); the volume of the model of C26 is proved to be its number of elements times four or eight bytes, for all sizes. The pairs of mini-arrays are counted by induction.
* **C157** Without ranges, the older reader takes the whole band and the whole observation. Bounds of the channels of a lane, then smallest and largest over the lanes by induction, and both bounds are attained; put together with the selection of C82 to C85.
* **C158** A call without a time is about the present. A program is the time at which the modules are read and a list of calls with their clock times; soundness and completeness of the search (C63) give where the answers lie, for calls with and without a time.
* **C159** A mini-array stands as its rotation says. Injectivity of the formatted key; trigonometric identities for positions and delays; the hexagon is mapped to itself by turns of sixty degrees (permutation of the antennas), the square grid of analog directions is not (irrationality of the square root of three); the two layouts are compared through the cosine of twice the rotation, and projections along the dipoles are bounded for the measured antennas.
* **C160** Baselines are projected on the axes of the phase centre. The axes are specified in the frame fixed to the Earth, from the sidereal time of Greenwich; the code is shown to give the coordinates along the axes of a direction turned by the longitude of the observer, for every input which is not refused.
* **C161** Local times are those of the clocks. A time zone is a function from UTC times to offsets; the look-up of an offset for a date and time of the clocks is modelled as the library does it (candidates one day before and after, gaps and overlaps), and solved in closed form around one change.
* **C162** Fast conversions between sky and horizon undo each other. The change to the equinox of the time is a parameter; C61 gives the spherical trigonometry, and what remains is equal exactly if the parameter leaves the position where it is.
* **C163** Computed Jones matrices correct the samples they are computed for. The matrices are a parameter; the times at which they are computed, the ranks which are used, the groups and the samples left over are modelled. Proved with closed forms of the ranks and of the number of matrices.
* **C164** Conversions of positions leave the given positions as they are. A memory of arrays handed over by reference, with the projections as parameters; induction over series of calls.
* **C165** Parts and median profiles of a data set keep their labels. Python slices are modelled with their clipping and proved to name the items between the bounds at whole numbers of steps; parts and joins are equalities of data sets; a median is characterised by counting.
* **C166** Positions of scheduled targets are those of the sky at each date. Elevation and azimuth are proved to be the components of the direction of the source on the zenith, the north and the east, with the hour angle of C109; extremes over a day give the circumpolar part; the rest are equalities of lists.
* **C167** Lists of antennas accepted for a mini-array name each antenna once. The search of the regular expression is characterised for look-aheads and references, then the texts it accepts are proved to be the joined lists of numbers without repetition.
* **C168** Words accepted by an observation request are the documented ones and are read and exported as such. Patterns without repetition are turned into the finite list of their sequences of character classes, proved to give the same texts; the accepted texts are then read off for each property.
* **C169** Lists accepted for the outputs of an observation are lists of existing sub-bands and receivers. The texts of a bracketed pattern with a repeated part are proved, by induction on the number of repetitions, to be the joined lists of its elements, and the elements to be the numbers.
* **C170** Angles accepted by an observation request are angles, and all of them. The languages of the parts of the patterns (signs, digits, decimals) are proved one by one and composed; the numbers of a given length are counted with the digits of natural numbers.
* **C171** Lane files of an observation are read into the Stokes parameters of what was recorded. The model of decoding (C130), unpacking (C42), selection (C83) and gathering (C89) are composed as the reader does; what is read is compared with what a recorder writes, block by block, by the layout of the file.
* **C172** An image of a sky shows the values of its directions. The accumulation on repeated indices is a fold; each pixel of it is proved to be the mean of the directions whose position has its number as whole part. The projection of the opposite direction is bounded with real analysis.
* **C173** The angle of linear polarisation is that of the field. The data of a wave at a position angle are defined from its field; the arc tangent of a tangent is unfolded with the number of half turns, whose parity is the sign of Q.
* **C174** The total of the plotted data volumes is that of all receivers. The loop over receivers, the dictionary and the sum of arrays with its broadcasting are modelled; points of a sorted list are related to the configurations which have started, independently of the order.
* **C175** The covariance matrix tells the Jones matrices behind a Mueller matrix. All entries of the matrix are computed from the products of the code; rank one and positivity follow from the components of a Jones matrix on the Pauli matrices.
* **C176** The drawings of a schedule show each moment and each block once. A drawing as the list of its rows with limits, marks, rectangles and titles; uniqueness of the row of a time by floors, for all rational times and lengths.
* **C177** Drawings of spectra show each value at its own time and frequency. A drawing as its curve or table with limits, scale and title; exactness for all shapes, counts of values outside percentiles by the sorted list, errors for the shapes which fail.
* **C178** The matrix of correlations shows each pair at its own mini-arrays. The loop as a fold on each index, with an invariant on the count of numbers below; the matrix as the last value written to each cell; composed with the reader of the file.
* **C179** The drawing of a pointing shows its direction, its beam and the sources in the sky. Beams, altitudes and percentiles as parameters; rotations from the table of the array; levels as real powers; the pointing file from the model of pointings.
* **C180** The drawing of a block tells its programme, its number, its quality and its path. The table of programmes as data; titles as lists of characters; scores from the model of constraints; topics from the model of parsets.
* **C181** Options and overlays of the drawing of a sky. The keywords as a structure, the steps in the order of the code with their exceptions; the image as a list of values; grids of image and contours from the number of pixels; figures counted.
* **C182** Description of a file of reduced data. Over the model of files of C122: names as h5py lists them, all but the first described; groups have no shape; numbers read back from the names.
* **C183** Table of the mini-arrays made from the spreadsheet. Rows as pandas reads them, the dictionary as a list with replacement; the reading of an angle by astropy as a parameter.
* **C184** Title, place and selection of an event drawn on a calendar. Titles as lists of characters cut in pieces; lines as intervals of times over the pages of C114; clicks as points, histories as folds.
* **C185** Places of the sources of a contamination map. Names as lists of characters, the other packages as parameters; the meaning of names as an inductive relation, shown to be what is computed; composed with the counts of C111.
* **C186** Files are recognised by their names, and exported ones are not confused. The checks on names, the search for the lane, `basename` and `replace` are functions on lists of characters. Exact languages (iff) for lanes, raw lanes and parset files; the search finds one place at most, by induction. Violated: lanes of two digits are refused or cut, any character stands for the dot, exports of files with the same name in two directories overwrite each other, as do two names of one directory; nothing is written by the conversion of spreadsheets.
* **C187** The history of a genetic search is drawn as it happened. The curve and the points given to matplotlib are lists, and its refusal of lists of different lengths an error. After any list of calls the counter is the number of scores less the number of calls (induction), so the plot succeeds exactly after one call which evaluated a generation; then the points are computed from the record of the populations. Violated: after a second call the history cannot be drawn any more.
* **C188** The picture of a near-field shows every pixel and every source where it is, and only shows it. Images are functions of the flattened index, the loop over the sources passes on the array of distances and the changed imprints. The key lemma is that cutting the distances below their median is idempotent (the median is monotone), so that the place of a name only depends on its imprint; that the corners are less than half of the pixels gives the weights in closed form. Violated: the imprints are divided by their maxima in the object itself; a bright pixel at the border keeps its name there; the borders of both sides differ; with four pixels names go to the first one; pixels are not centred on their points.
* **C189** The picture of a NenuFAR-TV image names the known sources which it shows. Separations are parameters; the call of the plot is a record of its keywords. The names are computed exactly (filters of lists) and compared with the radius for every field of view. Violated: beyond 12.5 degrees some sources shown have no name, below it some named sources are not shown; a text given by the user is drawn or dropped depending on the sky; the centre, the radius and the label are refused.
* **C190** Two sets of SST files are equal exactly when they hold the same files. The comparison is computed exactly for any two sets (three-way characterisation), on the model of sets of SST files with joining and removing. Proved: transitive, reflexive without pointing file, both directions together decide equality of names. Violated: the test is one-sided (a join equals each part, a set equals whatever is left after a removal, everything equals the empty set); with pointing files on both sides, and with any other object, it raises.
* **C191** Smoothing a curve removes what stands out and nothing else. The loop over passes is modelled as it is, with the medians and deviations of all the windows. Proved by induction on the passes: range, flat curves, gain and offset, number of useful passes; a lone peak of any height is removed for any window of three samples or more and clippings up to two deviations. Violated: a lone dip of any depth is kept, the clipping is one-sided.
* **C192** The global sky model is put on a sky at the frequencies asked for. The libraries are functions (map at a number of MHz, change of resolution, interpolation on turned pixels, angle of the turn); the calls, the shapes and the order of axes are modelled as they are. Proved: exact values for all lists of frequencies in MHz, exact condition of refusal. Violated: the unit is dropped (kHz give the map of another frequency, Hz and GHz are refused); `Skymodel` with several frequencies mixes the maps of the last two; `shaped_like` loses the polarisations.
* **C193** The horizon written for an image of the sky is complete. The loop which writes the text is modelled on lists of characters, the change of coordinates is a function. Proved by induction on the points: the text between the parentheses, cut at the commas, gives back all the fields in order; spacing, closing and the largest distance to a point.
* **C194** Gains of the antennas of the Decameter Array. Interpolation is a list of pixels and weights per direction; the assignment of the values follows the rules of broadcasting. Bounds by induction on the weights; the gain is positive in every direction which reads a pixel off the horizon.
* **C195** Parts of slices. Python slices as in C165; values are rows or tables as in C56. Samples by rank; cutting and joining by induction on the rows; conversion and cutting commute.
* **C196** Sky models in local coordinates. Angles as rationals; the change of coordinates and the interpolation are one function. Grids by index, coverage by rounding, the reshaped values by induction on the frequencies.
* **C197** Limit on the volume of the data. Tables with their shape and size of item; the other tasks are arbitrary functions. Induction on the lists of tasks.
* **C198** Events crossing an event of a calendar. The loops as folds; invariants of the three variables by induction on the events; the test of crossing from C22.
* **C199** Limits of the figure of a UV coverage. Least and greatest coordinates as folds, characterised by induction; the other theorems from the bounds. Drawing itself is not modelled.

## Disagreements found

Theorems which prove that the code, as modelled, does not have a property it was expected to have. Each has a concrete witness or holds for all inputs of the stated form.

* C02, `Verif.Scheduler.reservation_lost_violated`: (lost reservations, for every schedule): wherever a reservation covers a booked observation, it is lost by the reset made before the next booking; all the slots of the observation are offered again.
* C02, `Verif.Scheduler.reservation_over_booked_violated`: A reservation placed over a booked observation is accepted, but the next booking uses its slot again.
* C03, `Verif.Scheduler.last_start_violated`: A block whose constraints are met only at the very last slot of the schedule, which is free, is not booked.
* C03, C05, `Verif.Scheduler.excluded_forever_violated`: (lost blocks, for every schedule): a block which one booking left out as impossible is never booked again by any further heuristic bookings, whatever their options, with or without reset, and whatever was freed in between by the resets.
* C03, C05, `Verif.Scheduler.rebook_violated`: `book()`, then `book(reset_booking=False)`, then `book()` again: nothing is booked at the end, although the first call booked the block and nothing was reserved in between.
* C04, `Verif.Scheduler.extension_delay_all_violated`: Whatever the processing delays of the observations and the slots frozen for them, the extension ends in the same way: same outcome, same free slots, same timetable. So no delay, however long, ever prevents an extension.
* C04, `Verif.Scheduler.extension_delay_violated`: Extending observations ignores processing delays: two blocks with a one-slot delay end up next to each other.
* C04, `Verif.Scheduler.processing_delay_violated`: The same `book()` call made twice: the second result breaks the processing delay, since the reset between the two left the counters wrong.
* C05, `Verif.Scheduler.genetic_leak_all_violated`: Whatever the genome, the fine tuning and the scores, and whether the call returns or raises, a slot used by an observation booked before is never offered again, be this observation moved or unbooked by the call.
* C05, `Verif.Scheduler.genetic_leak_violated`: The block is unbooked by the clean-up, but its slot stays unavailable.
* C05, `Verif.Scheduler.genetic_unbooks_violated`: An observation booked before and which the call has not to place is unbooked by the call, whatever the genome and the scores, as soon as there is something else to place and the fine tuning leaves it where it is: the clean-up finds that its slots are taken, by itself.
* C05, `Verif.Scheduler.reset_counters_violated`: For every schedule without frozen processing slots and every block with a delay `d` booked at a start `st > d`, booking the block and resetting leaves slot `st - d - 1` marked as frozen (counter `-1`).
* C06, `Verif.Scheduler.bookGA_strict_violated`: When only the strict filter removes every block, the genetic booking raises a `TypeError` instead of leaving the schedule empty, whatever the genome.
* C06, `Verif.Scheduler.genetic_conflict_violated`: Two blocks compete for slot 5 in a genetic booking; the one with the *lower* score keeps it.
* C06, `Verif.Scheduler.worse_kept_violated`: (the better block loses, for every schedule): of two blocks which want a common slot, the one with the higher score is taken out whenever the other one is kept.
* C07, `Verif.Scheduler.removal_frees_violated`: (removed over others, for every schedule): removing a reservation makes each of its slots available, whatever else uses them: another reservation which was not removed, or a booked observation.
* C07, `Verif.Scheduler.remove_over_booked_violated`: Removing a reservation that overlaps a booked observation makes the observation's slot available, and a booking without reset then puts a second observation on the same slot.
* C07, `Verif.Scheduler.reservations_counted_violated`: Two overlapping reservations, one of which is removed: the slots they share become available although the other reservation is still there.
* C09, `Verif.Scheduler.free_windows_atomic_violated`: When overlapping windows are refused, the first gap has already been reserved.
* C09, `Verif.Scheduler.free_windows_half_violated`: (not atomic, for every schedule): windows whose first backward gap is `bad` are refused, but all the gaps before it stay reserved.
* C09, `Verif.Scheduler.free_windows_two_violated`: The same for two windows which overlap: the time before the first one stays reserved.
* C09, `Verif.Scheduler.touching_windows_violated`: With two windows `[a, m]` and `[m, b]`, which leave no gap, a slot which has `m` inside of it is not available any more.
* C10, `Verif.Scheduler.shift_atomic_violated`: Shifting a three-slot block by two slots onto a window whose first slots are taken by another observation: the call raises, but the block has been moved onto the other observation and its old slots were released.
* C10, `Verif.Scheduler.shift_earlier_violated`: Shifting *earlier* by an explicit duration always does what shifting *later* does.
* C10, `Verif.Scheduler.shift_edge_violated`: A block with processing time which is so close to an end of the schedule that the processing time reaches over it can be booked, but a shift of it never succeeds: whenever it is carried out, it raises.
* C10, `Verif.Scheduler.shift_raises_violated`: (not atomic, for every schedule): whenever the shift of a booked block raises, the block has been moved all the same.
* C100, `Verif.Parset.receivers_violated`: No list is accepted for the receivers of the imager, which are read as a list.
* C100, `Verif.Parset.start_impossible_violated`: And the 31st of February at 24:59:59 is accepted.
* C100, `Verif.Parset.start_refused_violated`: So a start time of 2030 or later is refused.
* C100, `Verif.Parset.target_blank_violated`: Fails for names with blanks: no name with a space, such as the one of the documentation, is accepted for a target.
* C101, `Verif.Parset.load_duration_violated`: Fails for durations in minutes or hours: the text of the new file is refused by the validation.
* C101, `Verif.Parset.load_gap_violated`: Fails for files whose analog beams are not numbered from zero: a numerical beam that gives the right number cannot be loaded.
* C101, `Verif.Parset.load_order_violated`: Fails for other orders: the numerical beam of the analog beam "bb" becomes one of the analog beam "aa", both numbered 0 in the new file.
* C101, `Verif.Parset.reload_empty_violated`: Fails for a list whose ranges are all decreasing: it is empty, and the list read from the new file has an empty text.
* C101, `Verif.Parset.reload_negative_violated`: Fails for negative numbers, which ranges only understand: they are texts in the new file.
* C102, `Verif.Parset.replay_beam_violated`: The same for numerical beams.
* C102, `Verif.Parset.replay_j2000_violated`: Fails: in a file the usual direction type is "J2000", which is read in lower case; it is not recognised as such, and a file with such a beam cannot be replayed.
* C102, `Verif.Parset.replay_past_violated`: Fails: "from" a time, but whenever the time of day asked for is later than that of the old start, the new start is in the past of the time asked for.
* C102, `Verif.Parset.replay_pointing_violated`: Fails: pointings at a fixed azimuth and elevation, and any other kind of tracking, are refused.
* C102, `Verif.Parset.same_lst_violated`: Fails: replays at the same sidereal time never succeed.
* C102, `Verif.Parset.transit_nearest_violated`: Fails: the transit written is not the nearest. For a source that passed the meridian `k` seconds before the start, with `k` less than half a turn, it is one turn later.
* C103, `Verif.Parset.export_violated`: Fails: the duration of an analog beam is read as a text that ends with "s", which is then refused as a number of seconds. No file with an analog beam that has a duration can be exported, whatever the rest.
* C103, `Verif.Parset.remote_nickel_violated`: Fails for remote mini-arrays: they are to be removed when no pointing of the field uses the imaging receiver, but are removed in any case; here the only pointing of the only field uses it.
* C103, `Verif.Parset.topic_lost_violated`: Fails: whatever topic a file gives, the exported one is "LT00 DEBUG" (or nothing is exported): codes are looked for in capitals, in a text put in lower case.
* C103, `Verif.Parset.version_number_violated`: Fails for a version of one number: it is read as a number, and nothing can be exported.
* C104, `Verif.Parset.old_nickel_violated`: Fails in old files with the imager: one more pointing is always added to the first field of view, even for files with a beam to do "tbd", which is one already (the test looks for capitals in texts put in lower case); its name is that of the receiver, and its settings are not those of a receiver.
* C104, `Verif.Parset.single_receiver_violated`: Fails for single pulses without a number of samples to average: the whole export fails, where the estimate of the volume has a default.
* C104, `Verif.Parset.tf_receiver_violated`: Fails for a time-frequency beam that gives only one of its steps: the receiver is empty, where a beam that gives none gets both by default.
* C105, `Verif.Cnst.relaxed_above_violated`: When the sidereal time is reached at the limit of two slots both count, and the score of each is larger than one.
* C105, `Verif.Cnst.relaxed_all_violated`: Fails as well when each slot holds a crossing, for instance the only slot of a schedule.
* C105, `Verif.Cnst.relaxed_none_violated`: Fails when the sidereal time is not reached in an even number of slots: an exception is raised instead of a null score.
* C105, `Verif.Cnst.relaxed_short_violated`: When no two slots in a row are without a crossing, but some are, all the scores are undefined, those of the crossings included.
* C106, `Verif.Cnst.extension_violated`: The block booked in slots 4 and 5, which are the only ones that its constraints allow, is extended to slot 6 with a threshold of 9/10.
* C106, `Verif.Cnst.last_slot_violated`: For any block of an even number of slots with a non-null mean score, and any threshold below 1, the extension by the slot which follows is kept, though nothing of this slot is looked at (`window_blind`): it may not meet any of the constraints.
* C106, `Verif.Cnst.odd_first_violated`: The smallest window of a block with an odd number of slots starts one slot before it, so that what is evaluated holds this slot and not the last one of the block: a block at the very beginning of what its constraints allow is never extended.
* C106, `Verif.Cnst.one_slot_violated`: With a threshold of 1, the extension by one slot is never kept, whatever the scores.
* C106, `Verif.Cnst.perfect_violated`: With a threshold of 1, an observation of which the smallest extension is perfect is never extended.
* C107, `Verif.Cnst.second_schedule_violated`: Fails too for a block inserted in another schedule: the scores of the times of the first schedule are used, and the positions of its target are not known, which makes an extension fail.
* C107, `Verif.Cnst.shared_constraints_violated`: Fails for blocks which share their constraints: the second one is used with the score of the first one, whatever its target and length.
* C108, `Verif.Astro.transit_day_violated`: A star that transits once in the day, less than half an hour before its end: nothing is found by default.
* C108, `Verif.Astro.transit_first_violated`: A transit at the first time is not returned either, for all rates, durations and steps.
* C108, `Verif.Astro.transit_last_violated`: Nothing is returned from the last sample on, which is at least one step before the end: transits of the last step are missed.
* C109, `Verif.Cnst.lst_lost_violated`: For sidereal times below the longitude of the site (8 min 46 s), with slots shorter than what is missing, no slot of any schedule ever holds a crossing.
* C109, `Verif.Cnst.sidereal_above_violated`: A sidereal time of less than a turn is not always given: at some dates it is 24 hours or more.
* C110, `Verif.IO.all_mas_violated`: **Violated.** Joining two sets opened with all the mini-arrays gives a set restricted to the mini-arrays used.
* C110, `Verif.IO.pointed_violated`: **Violated.** Sets with a pointing file (`altazA`) can never be joined, nor can files be removed from them.
* C110, `Verif.IO.range_empty_violated`: An empty list is kept as a range by the setter, and stops every later selection on a set that has files: the bounds are looked up with an `IndexError`.
* C110, `Verif.IO.select_violated`: **Violated.** `select` never returns anything on a set of files that was opened (whatever its content and the arguments): choosing a mini-array raises, and so does not choosing one.
* C110, `Verif.IO.set_ma_violated`: **Violated.** On a set that has files, no mini-array can be chosen.
* C110, `Verif.IO.sub_pointed_violated`: Subtracting from a set with a pointing file: `TypeError` if the other has one as well, `AttributeError` otherwise.
* C110, `Verif.IO.sub_same_name_violated`: **Violated.** Two files with the same base name, in different directories, opened in the reverse of their sorted order: removing one of them leaves a set that lists one of the files and knows the properties of the other, so that its file is not found (`KeyError`).
* C110, `Verif.IO.sub_twice_violated`: **Violated.** A file joined twice and removed once is still listed, with no properties: the limits of the set cannot be read.
* C111, `Verif.Contam.horizon_violated`: Violated: one pointing at or below the horizon empties the lobes of all times and frequencies, whatever the threshold, so that no source is ever found.
* C111, `Verif.Contam.plot_first_violated`: Violated: lobes which have just been computed cannot be drawn; a search for sources has to come first, although nothing has to be found.
* C111, `Verif.Contam.pointings_violated`: Violated: when a pointing is not above the horizon and there are not as many pointings as times, no `BeamLobes` can be made.
* C111, `Verif.Contam.rotations_empty_violated`: Violated: an empty list of rotations is accepted, and the computation then stops on an undefined variable or on a missing method.
* C111, `Verif.Contam.weights_then_sources_violated`: Violated: weights replace the lobes by truth values; sources can no longer be searched, until the lobes are computed again.
* C112, `Verif.Contam.bytes_change_violated`: Violated: writing as bytes changes the map: every value from 1/255 on is replaced by a number of at least 1, 255 for a weight of 1.
* C112, `Verif.Contam.bytes_counts_violated`: Violated: a map of numbers of sources written as bytes is not read back: all numbers of two or more are read as at most one, and 256 sources as none.
* C112, `Verif.Contam.bytes_twice_violated`: Violated: the second file is not the first one: a weight of 1 is written as 255, then as 1.
* C112, `Verif.Contam.roll_violated`: Violated: an axis which goes back to its beginning more than once, as sidereal times of more than a day may do, is drawn out of order.
* C113, `Verif.Cal.counted_unread_violated`: Violated: a text which is counted without any error can prevent the file from being read.
* C113, `Verif.Cal.drawn_violated`: Violated: a booking of an hour and a half from midnight drawn over three hours is accepted, and one from half past midnight to a quarter past one drawn over one hour.
* C113, `Verif.Cal.unread_violated`: Violated: the text which is not understood is reported, but it stops the reading of the whole file, whatever the other texts.
* C114, `Verif.Cal.ics_violated`: Violated: with two calendar files of the same project, the events of the first one are lost.
* C114, `Verif.Cal.key_violated`: Violated: moving the selected event with the keyboard moves it, and then raises an error; no key press on a selected event draws it where it is.
* C114, `Verif.Cal.name_violated`: Violated: a name can contain the letters of a project before the project itself.
* C114, `Verif.Cal.page_violated`: Violated: an event over more than two months is not drawn in the months between the first and the last; an event ending in the month of the same name, a year later, is not drawn after the month in which it begins.
* C114, `Verif.Cal.xls_violated`: Violated: with two spreadsheets which have the same project, its events in the first one are lost.
* C115, `Verif.IO.rebin_again_violated`: Violated: a slice which is averaged down to one value cannot be averaged again, whatever is asked.
* C115, `Verif.IO.rebin_bins_violated`: Violated: with missing values the mean of a bin is not the mean of its values, and the median is never that of the values of the bin but a median of medians.
* C115, `Verif.IO.rebin_gap_violated`: Violated: with a gap in the times, samples of a bin can be further apart than the width which is asked for; a gap in the frequencies is refused.
* C115, `Verif.IO.rebin_one_missing_violated`: Violated in every bin with one missing value: let `m` be the mean of the values left in the channel of the missing one, and `o` the mean of the other channels of the bin. The average which is written is the mean of the values of the bin only if `m = o`; otherwise it is pulled towards `m`, by the share `(wf - 1) / (wf (wt wf - 1))` of their difference.
* C116, `Verif.IO.background_missing_violated`: Violated: with several polarisations, one missing value in the first channel makes the background fail, whatever the rest of the data.
* C116, `Verif.IO.background_violated`: Violated: two polarisations which are the same up to any gain `g` are not the same once divided by the background: the gain is found again, upside down.
* C116, `Verif.IO.clean_constant_violated`: Violated: cleaning data which are all the same removes everything, for any number of deviations.
* C116, `Verif.IO.switch_step_violated`: Violated: with the default duration of a pointing, six minutes, and the default margin, correcting the switches fails for all the data which have samples of 144 seconds or longer, and only for them.
* C117, `Verif.Instru.centre_response_violated`: The response of the central antenna is read from a dipole that sees its mini-array like it, except on the mini-arrays turned by 40 or 50 degrees (modulo 60): there, for both polarisations, the file is the one of a dipole alike but the column read is the one of its other polarisation, which is not alike.
* C118, `Verif.Instru.below_horizon_violated`: Below the horizon the flux density is negative, and nothing is refused.
* C118, `Verif.Instru.image_below_beam_violated`: For arrays of `n` antennas of the same area, whose area is the sum, the noise of a beam is `n` times below that of one antenna, but the noise of an image is below that of the coherent beam of the same antennas, by a factor which grows as their number: the formula holds with the flux density of one antenna, and the one used is that of the whole array.
* C118, `Verif.Instru.sefd_source_violated`: With a source, an efficiency below 1 or an elevation under the zenith, the flux density is always above the documented one.
* C119, `Verif.Instru.area_others_violated`: The area at one frequency depends on the other frequencies of the call: asked with 10 MHz, one antenna has at 85 MHz an area of more than a third of the square of the wavelength; asked alone, of less.
* C119, `Verif.Instru.area_overlap_violated`: The area of the array counts some of the ground twice: at 10 MHz, for two mini-arrays at most 27 m apart, whatever the rotation `φ` of the first one, the disc of one of its corners (11 m from its centre) overlaps that of the central antenna of the second one.
* C12, `Verif.Scheduler.extension_crash_violated`: (crash, for every schedule): an extension up to a duration which takes fewer slots than some booked block always raises, and nothing is extended.
* C12, `Verif.Scheduler.extension_shorter_violated`: Asking for an extension up to a duration shorter than a booked block raises instead of leaving the block alone.
* C120, `Verif.Instru.attenuation_twice_violated`: The call changes the object of the caller: used again at another time, it is refused.
* C120, `Verif.Instru.correction_order_violated`: The correction changes the order of the elevations: if it is negative at 15 degrees (it is, by 101 minutes of arc in the file of 2022 and by 42 in that of 2019), a position above 15 degrees is sent below one at 15 degrees of the same azimuth.
* C120, `Verif.Instru.squint_below_violated`: Below the horizon, where a lower elevation should be pointed at, the horizon is.
* C121, `Verif.Astro.factor_file_violated`: (violated): this happens with every file of a digital beam, as in the example of the documentation: from ten seconds after its last but one row to its last row.
* C121, `Verif.Astro.factor_hole_violated`: (violated): when the digital pointing has a hole, or once it is over and for a day, the direction desired is taken to be the zenith, while the array is taken to follow the last order: the factor has nothing to do with the target. An array with the same gain in all directions but the zenith, which needs no correction, gets the factor 2.
* C121, `Verif.Astro.factor_single_violated`: (violated): a pointing with one coordinate, whatever its times, is refused.
* C121, `Verif.Astro.projection_days_violated`: (violated): a step of any number of whole days stops on a division by zero; a step of a day and `s` seconds is taken as `s` seconds in the number of matrices.
* C121, `Verif.Astro.projection_fraction_violated`: (violated): for every step with a fraction of a second, all durations long enough get matrices after their end.
* C121, `Verif.Astro.projection_second_violated`: Steps of one second or less are refused, as is the step of exactly one second, which the message allows.
* C122, `Verif.TF.header_violated`: (violated): the limits in the header of a file are those of its first beam, whatever is added to it.
* C122, `Verif.TF.ratio_both_violated`: (violated): a parameter and its ratio to `I` cannot be stored together; the file keeps the first one only, and a new attempt in the same file is refused.
* C122, `Verif.TF.ratio_violated`: (violated): the selection given in the documentation, `["I", "Q", "V/I"]`, is stored without any error, but then neither the beam nor the ratio can be read.
* C122, `Verif.TF.stokes_text_violated`: (violated): saved with `stokes="V/I"`, a ratio gives the very file that the parameter `V` would give: it is read as `V`.
* C122, `Verif.TF.store_failed_violated`: (violated): with too few names the storing fails, but the beam is in the file: storing it again with all the names is refused.
* C122, `Verif.TF.store_missing_violated`: (violated): appending to a file which does not exist makes an empty one, in which nothing can be appended any more.
* C122, `Verif.TF.stored_times_violated`: (violated): of any three samples 20 µs apart or closer, two have the same time in the file.
* C123, `Verif.TF.select_lists_violated`: (violated): two lists of the same length, of times and of frequencies, are refused, though each is right alone.
* C123, `Verif.TF.select_mixed_violated`: (violated): several polarisations by a list, at one time, for several frequencies: nothing is refused, and the values are not those of their labels. The value given for the first frequency and the second polarisation is that of the second frequency and the first polarisation.
* C124, `Verif.TF.bandpass_place_violated`: C124 (violated), for every accepted number of channels which is not a multiple of 16: all the channels but the central one are corrected for a place further from the centre of the sub-band than theirs, by the same factor for all, and the first channel for a place out of the sub-band.
* C124, `Verif.TF.bandpass_stretched_violated`: C124 (violated). With 24 channels, accepted, the central channel may get half of the value it has with 16 or 48 channels: the response of the neighbouring sub-bands is taken 24 channels away in a sub-band cut in 16.
* C125, `Verif.TF.rfi_dead_violated`: C125 (violated). One polarisation of zeros or of NaN (a dead one, a Stokes parameter which is zero) stops the clipping of all.
* C125, `Verif.TF.rfi_flat_violated`: C125 (violated). In flat data (same median at all times and at all frequencies), whatever the factor, every value above the median is clipped: the factor multiplies the deviation of the fitted background, not the one of the data.
* C125, `Verif.TF.rfi_polarisations_violated`: C125 (violated). What is clipped in a polarisation depends on the other ones: the same values, with the same parameters, are clipped when the polarisation is alone and kept when another one goes with it.
* C126, `Verif.Astro.azimuthal_refused_violated`: C126 (violated, current numpy). The azimuthal profile is never returned: with a numpy which refuses arrays of unequal lengths, the call raises for every coverage and every step, after all has been computed.
* C126, `Verif.Astro.east_west_violated`: C126 (violated). Baselines along the `u` axis (east-west at the transit) are in neither profile, whatever their number.
* C126, `Verif.Astro.north_south_violated`: C126 (violated). Baselines along the `v` axis (north-south) are all counted twice in the azimuthal profile, for all the steps which divide 90 degrees, 5 (the default one) among them.
* C126, `Verif.Astro.psf_stretched_violated`: C126 (violated). The grid always goes from the lowest to the highest `u` and `v`: the values are the same for all frequencies (`c = d`), and for an array stretched along one axis (`c ≠ d`).
* C126, `Verif.Astro.radial_limit_violated`: C126 (violated). Lengths of 1, 2 and 3, in bins of 1: the length of 2 is counted in both bins, hence four baselines in all.
* C126, `Verif.Astro.radial_one_violated`: C126 (violated). There is no radial profile for baselines of one length (two antennas at one time, for instance).
* C127, `Verif.IO.image_few_violated`: C127 (violated). A field with fewer pixels than processors is a division by zero.
* C127, `Verif.IO.image_smeared_all_violated`: C127 (violated). As soon as one baseline has, at one time and frequency, another phase towards the source than its mean has (not by whole turns), the source is fainter than its power at its own direction; it has its power exactly when no baseline has.
* C127, `Verif.IO.image_smeared_violated`: C127 (violated). The mean baseline is used for all times: a source away from the centre is lost when baselines turn during the exposure. Two times, two mini-arrays, one frequency: nothing is left of the source at its own direction.
* C127, `Verif.IO.nearfield_flat_violated`: C127 (violated). With one frequency the near-field is the same at all pixels, whatever the data: transmitters are not located.
* C128, `Verif.Parset.azelfile_violated`: Fails for blocks which follow a file: the zenith is recorded, whatever the file, the angles, the offsets and the type of direction.
* C128, `Verif.Parset.azimuth_wrap_violated`: Fails for offsets across the north: the recorded direction is that of the north, whatever the offset, which is not that of the azimuth asked for (for any sky where the two differ).
* C128, `Verif.Parset.ra_wrap_violated`: Fails for offsets across the origin of right ascensions: the recorded value is 360 or 0 degrees, which is not the direction of the block.
* C128, `Verif.Parset.zero_offset_violated`: Fails for equatorial blocks below the horizon at their middle: an offset of zero, which asks for nothing, moves the recorded direction to the horizon (for any sky where points of the horizon are on the horizon).
* C129, `Verif.Scheduler.ics_overlap_violated`: Fails for events which overlap: the calendar is refused, although the times are well defined.
* C129, `Verif.Scheduler.ics_touch_violated`: Fails for events which touch within a slot: whatever the two events and the step, exactly the slot in which they touch is lost, although all its times are in the events.
* C129, `Verif.Scheduler.ics_unnamed_violated`: Fails for calendars with an event without name, when a name is asked for: the whole calendar is refused.
* C129, `Verif.Scheduler.matched_long_violated`: Fails for programs of more than four letters, which are never found.
* C129, `Verif.Scheduler.matched_order_violated`: Fails for files which are not in order: two bookings of the program in the schedule, the later first, are refused.
* C129, `Verif.Scheduler.vcr_long_violated`: Fails for names of more than four letters: excluding them has no effect.
* C129, `Verif.Scheduler.vcr_none_violated`: Fails when all programs are excluded: there is nothing to reserve, which is an error.
* C129, `Verif.Scheduler.vcr_one_violated`: Fails for files of one row, which are refused.
* C13, `Verif.Scheduler.is_within_violated`: A block is not reported within its own time interval.
* C130, `Verif.Raw.cal_divisor_violated`: **A number of mini-arrays which divides the one of the table is accepted, and the numbers are attributed to other sub-bands and mini-arrays**: mini-array `m` of sub-band `f` gets what was stored for the mini-array and the sub-band which come at the same place.
* C130, `Verif.Raw.lane_negative_violated`: **A negative number of sub-bands in the first header**, which `Spectra` reads, is refused by the reader of lanes.
* C130, `Verif.Raw.lane_single_violated`: A recording of one sub-band is refused by the reader of lanes too.
* C130, `Verif.Raw.raw_cut_violated`: **An interrupted waveform file is refused as a whole**, however many complete blocks it has.
* C130, `Verif.Raw.raw_samples_violated`: **The samples of a waveform cannot be obtained**: two files which differ only by their samples are read alike.
* C130, `Verif.Raw.spectra_cut_violated`: **An interrupted recording is refused as a whole.** However many complete blocks precede the interruption, a file cut anywhere but between two blocks is not read: `ValueError`.
* C130, `Verif.Raw.spectra_single_violated`: **A recording of one sub-band is refused**, whatever it contains.
* C131, `Verif.TF.frequency_offset_violated`: **The announced limits are not those of the data**: the lowest frequency of the data is half a sub-band under `frequency_min`, and the highest one is half a sub-band and a channel under `frequency_max`.
* C131, `Verif.TF.frequency_order_violated`: **Sub-bands recorded in another order**: with two sub-bands in one beam, the announced lowest frequency is the start of the first one and the announced highest one is the end of the second one, even if the first one is the higher.
* C131, `Verif.TF.lane_gap_violated`: **A gap in a lane is not seen**: sample `j` of block `i` is given its time if, and only if, block `i` starts when the previous ones, laid end to end, stop.
* C132, `Verif.Geom.local_time_violated`: **Violated**: in the hours that follow the beginning of summer the hour is late by the change, and early by it in those that follow its end.
* C132, `Verif.Geom.parallactic_company_violated`: **Violated**: the angle returned for a source depends on the sources asked with it. East of the meridian, it is a turn larger if the mean declination is above the latitude than if it is not.
* C132, `Verif.Geom.ss_circumpolar_violated`: **Violated**: at the other times it sets. Whatever the declinations of the body, if it stays above the horizon with one of them and not with another, it is said to be circumpolar.
* C133, `Verif.Bst.analog_single_violated`: **Violated**: the only pointing of an analog beam is read by `BST` but makes `BST_Data` raise when it is the last row of the table.
* C133, `Verif.Bst.beam_kept_violated`: **Violated** for a file whose tables disagree: a beam whose analog beam does not exist is refused, but chosen all the same.
* C133, `Verif.Bst.digital_reversed_violated`: **Violated**: the last digital pointing ends with the table of the *analog* ones. When it begins after the last row of that table, it ends before it begins.
* C133, `Verif.Bst.get_float_violated`: **Violated**: a float equal to the index of a beam is accepted as beam, and then nothing can be read.
* C133, `Verif.Bst.get_forgets_beam_violated`: **Violated**: the beam chosen for the reader, when it is built or later, is not the one which is read: without `beam`, `get` reads beam 0 and makes it the current one.
* C133, `Verif.Bst.get_squeezed_violated`: **Violated**: with one time or one frequency the slice loses an axis.
* C133, `Verif.Bst.select_refused_violated`: **Violated**: a selection that is refused is not forgotten. With a list of bounds which are not two an exception is raised but the beam is changed.
* C134, `Verif.GA.fps_negative_violated`: **Violated**: with negative scores only, the lower a score the more likely its individual.
* C134, `Verif.GA.fps_signs_violated`: **Violated**: negative scores, which are accepted, stop the search: as soon as scores of both signs have a sum which is not zero.
* C134, `Verif.GA.mutation_name_violated`: **Violated**: a mutation whose parameter is not called `genome` is accepted when it is given, and refused when it is used.
* C134, `Verif.GA.rks_ties_violated`: **Violated**: `argsort` is not a rank. When all individuals but the best have the same score, the best has the weight 2, whereas the last but one has the highest one, the number of individuals.
* C134, `Verif.GA.tns_same_violated`: **Violated**: the two parents of a tournament may be the same individual: the best one, if it is drawn twice. Always so in a population of two.
* C135, `Verif.Geom.array_normalise_violated`: **Violated**: without normalisation the beam of the whole array is still normalised by the number of mini-arrays: only the beams of mini-arrays, of `m` antennas each, are not.
* C135, `Verif.Geom.beam_complex_violated`: **Violated**: the complex beam is not the amplitude of the beam: the square of its modulus has the gain of the antennas once too many.
* C135, `Verif.Geom.beam_gains_violated`: **Violated** when antennas have different gains: the mean of the gains is used in place of the gain of each. Two antennas half a wavelength apart, one of which receives nothing from the direction: the other one alone gives a quarter, the beam is nought.
* C135, `Verif.Geom.gain_inside_violated`: **Violated**: also between the frequencies of the file: three equally spaced ones, where the gain is full at the first two and nought at the third.
* C135, `Verif.Geom.gain_outside_violated`: **Violated**: the interpolated gain of a pixel which is not the same at all the frequencies of the file leaves the range from 0 to 1, as far as one wants.
* C136, `Verif.Dyn.clean_few_violated`: With two to five channels the kernel has a single point: the background is unknown in the contaminated channel, which is never removed, however strong it is. The English claim is that values over the background are removed.
* C136, `Verif.Dyn.clean_margin_violated`: The deviation is that of the background, not that of the data: on a flat background noise has no right to any margin, and what is over the median goes whatever the threshold. Here values 1, 2, 3 in a Latin square: all the 3 are removed with a threshold of a thousand.
* C137, `Verif.Instru.beam_drift_violated`: **The pointing moves by one step at each call** towards the zenith, along the axes where it is in the second half of the grid: the direction of the beam after `n` calls, without squint correction, for every mini-array and every direction of its grid. The English claim is that a beam computed again is the same.
* C137, `Verif.Instru.beam_zenith_violated`: In the second half of both axes, 63 calls lead to the zenith, whatever the direction asked.
* C137, `Verif.Instru.numerical_moved_violated`: Without it, the array factor of the next call is computed for the analog direction of the last group: here an array of one group, pointed at a node of the grid, where the second call is one step off.
* C137, `Verif.Instru.squint_again_violated`: **The squint correction is made again at each call**: below 15 MHz the correction for 60 degrees points between 35 and 40 degrees, but the second call with the same pointing is corrected as if 35 to 40 degrees were asked, and points below 5 degrees.
* C138, `Verif.TF.correct_again_violated`: **The array given is modified** if it is one of numpy: computing the correction again with it makes it twice. Arrays of dask are kept.
* C138, `Verif.TF.lna_shape_violated`: With the filters at 10 and 20 MHz the response is turned over near 100 MHz: lower in the middle of the sub-band than at its edges.
* C139, `Verif.Dyn.median_polarisations_violated`: The median correction is refused for several polarisations at once: two or more, with full sub-bands.
* C14, `Verif.Blocks.add_same_violated`: Is false when the same block object occurs twice: for all blocks, `a + a` holds the same object twice, and both entries have index 1.
* C14, `Verif.Blocks.copy_stands_for_original_violated`: A block made by multiplication stands, in later sums and products, for the block it was copied from: the tuple it contributes (`own`) holds the original. Changing the copy (here its payload becomes 9) and then adding it to another block gives the unchanged original instead.
* C14, `Verif.Blocks.periodic_empty_violated`: Is false of empty ranges: when `stop` is not after `start`, the result is the integer 0 and not an empty container.
* C14, `Verif.Blocks.shared_indices_violated`: Is false of containers that share blocks: after `x = a + b`, evaluating `b + a` renumbers the blocks of `x`, and so does selecting some of them.
* C140, `Verif.Scheduler.tune_empty_violated`: No booked block: the maximum of nothing.
* C140, `Verif.Scheduler.tune_lone_violated`: A block with a delay which is the only one of its kind is compared with itself, and never moved, whatever the scores.
* C140, `Verif.Scheduler.tune_overlap_violated`: The second block slides over the first: two blocks of two slots, the second at a better place one slot earlier.
* C140, `Verif.Scheduler.tune_slides_violated`: **Whenever the second of two blocks follows the first one at once and would gain by moving left** (more than to the right, while the first one would not gain), it is moved onto the last slot of the first: for all starts, durations and scores.
* C141, `Verif.Parset.old_export_violated`: The duration of a file is read as a text that ends with "s", which is refused: no file with an analog beam that has a duration can be exported (as with `to_json`).
* C141, `Verif.Parset.old_numbers_violated`: The pointing of cross-correlations gets the number of a beam.
* C141, `Verif.Parset.old_receivers_violated`: A file without entry for the high rate receivers cannot be exported.
* C141, `Verif.Parset.old_skipped_violated`: A pulsar or time-frequency beam without parameters is not exported at all.
* C141, `Verif.Parset.old_task_violated`: A beam of unknown task (such as `TBD` without the imager, or `none`), in a field of view with remote mini-arrays, makes the whole export fail.
* C141, `Verif.Parset.old_topic_other_violated`: Even as written in the file, topics of other kinds get the code `ES00`.
* C141, `Verif.Parset.old_topic_violated`: But a topic read from a file is in lower case: its code is lost, and its text is exported as the name of `ES00`.
* C142, `Verif.Instru.common_fixed_violated`: Two fixed sources: the value at a single time, but an error for two times or more.
* C143, `Verif.Instru.lofar_edge_violated`: At the upper end of the low band the fit gives over a hundred thousand kelvins, a hundred times the value at 65 MHz, without warning; it is 140 K at 54 MHz.
* C143, `Verif.Instru.lofar_high_violated`: In the high band the fit is of 350 to 390 K at 120 and 150 MHz, but of over 20000 K at 240 MHz, the upper end of the band of LOFAR.
* C144, `Verif.Cal.summary_comma_violated`: A comma in the name of an event gives a line of more than four fields: nothing is quoted.
* C144, `Verif.Cal.summary_order_violated`: Two events that overlap are left in the order in which they are, even if the second one starts and ends before.
* C144, `Verif.Cal.summary_stop_violated`: An inconsistent event stops the summary, but the file stays on the disk with the lines of the events before it only.
* C145, `Verif.IO.transit_chi_sign_violated`: With fitted values below 1, the quality of the other methods is at most 0, and lower for worse fits.
* C145, `Verif.IO.transit_chi_violated`: The quality of the other methods compares values divided by their maximum with fitted values which are not: a fit through all the values gives the sum of `log(max)² / log(value)`, which is positive for values above 1, and not 0.
* C145, `Verif.IO.transit_constant_violated`: Constant values cannot be adjusted with a background: the bounds of its level are the same.
* C145, `Verif.IO.transit_gaussian_violated`: The first method fails as soon as a transit is seen: if the filtered values are over half of the maximum at two neighbouring samples, one of which is the peak, and below it anywhere.
* C145, `Verif.IO.transit_method_violated`: Any other name of method is taken as the fit of the loads, without a message.
* C145, `Verif.IO.transit_short_violated`: The first method also fails when there are less than 10 samples, since the first guess of the width is 10.
* C145, `Verif.IO.transit_threshold_violated`: With a threshold that drops a sample, the two other methods always fail: values are compared with fits of another size.
* C146, `Verif.IO.near_blank_violated`: Blanks at the end of the name of a source are lost.
* C146, `Verif.IO.near_nan_violated`: A near-field with a NaN, or without any pixel, cannot be saved.
* C146, `Verif.IO.near_reserved_violated`: The imprint of a source is lost if its name is one of the three reserved ones, in any case, unless another source loses blanks to get this name.
* C146, `Verif.IO.tv_blank_violated`: An image without any number cannot be saved with the default arguments.
* C146, `Verif.IO.tv_moment_violated`: The moment of the analog pointing is replaced by the time of the image: the direction read back is another one as soon as these differ by the precision.
* C146, `Verif.IO.tv_rest_violated`: Only the first time, frequency and polarisation are saved: images that differ elsewhere give the same file.
* C146, `Verif.IO.tv_seconds_violated`: Times of a sky without digits for the seconds, as those of the NenuFAR-TV, are moved by up to half a second.
* C146, `Verif.IO.tv_stokes_violated`: The image computed from the data of a file is labelled with the total intensity, whatever the Stokes parameter that was asked for and imaged.
* C147, `Verif.Astro.point_negative_violated`: With an angular size, the sky never decreases, even for negative values.
* C147, `Verif.Astro.point_sign_violated`: With an angular size for which nothing is smoothed, a value and its opposite do the same.
* C147, `Verif.Astro.point_single_violated`: A body positioned at an array of one time cannot be added to a sky of two times or more within 24 days.
* C147, `Verif.Astro.point_sizes_violated`: Any source with another number of times than the sky, neither being one, is refused instead of being computed at the times of the sky.
* C147, `Verif.Astro.point_stale_violated`: A body positioned at a date is added to the skies of other dates, up to 24 days away, at its position of the former date.
* C147, `Verif.Astro.snr_flat_violated`: On a flat sky all ratios give the same result: twice the sky.
* C147, `Verif.Astro.snr_level_violated`: The excess of the pixel over the mean of the map, in deviations of this map, is the ratio asked for plus what the pixel had: it is the ratio only where the map is 0.
* C147, `Verif.Astro.snr_median_violated`: The mean, not the median announced: on a map of zeros (the median of three pixels or more) with one other pixel `q` of value `m`, the source of ratio zero, wherever it is, gets `m / npix`.
* C148, `Verif.IO.rephase_axis_violated`: `rephase` uses the frequencies of the first time of the file; for files of the NenuFAR-TV it always raises an error.
* C148, `Verif.IO.xst_axes_violated`: So, for every file of two times or more with the same sub-bands, and every selection which keeps something, the axes of the slice are not those of its values.
* C148, `Verif.IO.xst_column_violated`: If everything is selected, the values of a column are put together whatever the frequencies are: the value at place `(i, j)` is that of the file at `(i, j)`, for all times, even where two times have different frequencies in column `j`.
* C148, `Verif.IO.xst_image_violated`: The image of such a slice, with or without a phase centre, and its beamforming, raise an error as soon as two frequencies are selected.
* C148, `Verif.IO.xst_moved_violated`: A sub-band which is recorded in one column at a time and in another one at another time cannot be selected over both times: if it is the only one selected at the first of them, and is elsewhere at the second, the selection is refused.
* C148, `Verif.IO.xst_moving_violated`: Sub-bands which change with time: values of different frequencies are put in the same column, or the selection is refused.
* C149, `Verif.Bst.sst_label_violated`: **Violated**: the slice does not say which polarisation it holds: each slice of `'NE'` says `'NW'`.
* C15, `Verif.Cnst.night_never_violated`: A night constraint that no slot satisfies raises instead of giving zero scores, whatever the number of slots except two.
* C15, `Verif.Cnst.night_positive_violated`: Is false of night constraints with a positive maximal Sun elevation: as soon as the Sun is below the horizon in one slot, every slot with the Sun above the horizon, though allowed, gets a negative score.
* C15, `Verif.Cnst.planet_proximity_violated`: Is false of blocks on a Solar System target: as soon as the distance to the Sun is constrained, with whatever limits and whatever other constraints (but for the night, which may fail before), the evaluation raises an `AttributeError`.
* C15, `Verif.Cnst.unevaluated_vetoes_violated`: Is false when some constraints of a block cannot be evaluated and others can. A block with no target always carries the default elevation constraint, which needs one; adding any satisfied constraint on time then turns its score to zero in every slot, although no evaluated constraint is violated: such a block can never be booked.
* C15, C75, `Verif.Cnst.block_score_violated`: The score of a booked block raises `TypeError` as soon as one of its constraints was never evaluated (a block without target).
* C151, `Verif.IO.beam_name_violated`: `XX`, the name of this product everywhere else in the class, gives the other polarisation.
* C151, `Verif.IO.calibration_violated`: In any file where a mini-array comes before one with a smaller number, a beam with both of them has calibrations exchanged.
* C151, `Verif.IO.remote_violated`: A mini-array which is far from the core cannot be part of a beam, although its correlations are in the file.
* C152, `Verif.Astro.default_duration_violated`: (violated): without durations, each step should last until the next one. It lasts one second: then, until the next step, drift scans and targets are replaced by the zenith.
* C152, `Verif.Astro.drift_sky_violated`: (violated): as soon as the sky has moved since the beginning of the step, the direction on the sky which is found is not that of the horizontal direction found with it.
* C152, `Verif.Astro.track_site_violated`: (violated): the site of a pointing is lost. Seen from another site, a target is found where NenuFAR sees it.
* C153, `Verif.Geom.file_rephase_violated`: (violated): if the file has one phase centre per time, the new centre is taken for the current ones: nothing is turned.
* C153, `Verif.Geom.image_twice_violated`: (violated): the image of a slice of `rephase` towards its own centre turns it twice.
* C153, `Verif.Geom.image_zenith_violated`: (violated): the image of a slice, when no centre is asked, is made with the coordinates of the zenith wherever the slice is phased. At the pixel of a source each baseline should contribute one: it contributes the factor from the zenith to the centre of the slice.
* C153, `Verif.Geom.slice_centre_violated`: (violated): a slice which has been turned to the centre `a` is turned again from the zenith. What is found for the centre `b` is the factor from `a` to `b` times that from the zenith to `a`; visibilities phased towards `a` become right ones only if the latter is one.
* C154, `Verif.Cnst.azimuth_decreasing_violated`: (violated): a target which culminates between the zenith and the pole without being circumpolar moves towards smaller azimuths. It passes through all of those between its positions, and none is found.
* C154, `Verif.Cnst.azimuth_north_violated`: (violated): in the slot in which such a target passes through the north (towards the west), every azimuth is found except those through which it passes.
* C154, `Verif.Cnst.azimuth_south_violated`: (violated): in the slot in which a circumpolar target passes through the south, every azimuth is found except those through which the target passes.
* C155, `Verif.Raw.read_cut_violated`: A file cut anywhere but between two blocks cannot be read at all.
* C155, `Verif.Raw.read_gap_violated`: **Without a search for missing data, gaps are ignored.** A block recorded `gap` seconds later than if nothing were missing is dated `gap` seconds too early.
* C155, `Verif.Raw.read_short_violated`: **The last block of a recording of short blocks is never returned.** When the last two blocks, together with what follows up to the end of the request, last less than one second, the last block is left out of every request which ends in it or after it.
* C155, `Verif.Raw.read_single_violated`: A recording of one sub-band cannot be read at all.
* C157, `Verif.Dyn.default_last_violated`: Without ranges, the last spectrum of each lane is never read, although it lies in the range of times which is used.
* C157, `Verif.Dyn.default_single_violated`: From a lane of one spectrum, or for a beam of one channel, nothing is read, without ranges or with any.
* C158, `Verif.Astro.find_past_violated`: Fails for searches over a duration as well: everything found is before the clock once this duration has passed since the modules were read.
* C158, `Verif.Astro.next_passed_violated`: Fails: so it is as soon as one crossing has passed since the modules were read (one which the search sees: it is not undone within six hours).
* C158, `Verif.Astro.next_past_violated`: Fails: in a program which has been running for more than two days, the "next" crossing of a call without a time is always in the past.
* C158, `Verif.Astro.previous_missed_violated`: Fails: the "previous" crossing of a call without a time is never one which happened since the modules were read.
* C158, `Verif.Astro.same_answer_violated`: Fails: within one program all the calls without a time have the same answer, however much time passes between them.
* C158, `Verif.Parset.replay_default_violated`: Fails: a replay without a time starts on the day on which the modules were read; in a program which ran past midnight, this is always in the past.
* C158, `Verif.Parset.replay_stale_violated`: Fails: its result is the same whenever the call is made, and that of the day on which the modules were read: any time of this day gives it.
* C159, `Verif.Instru.first_turned_violated`: So it is for the first antenna and north-west dipoles of all the mini-arrays turned by 0, 150, 160 or 170 degrees, modulo 180.
* C159, `Verif.Instru.group_grid_violated`: Fails for the analog directions: of the directions to which a mini-array can be pointed, only the zenith is also one of a mini-array whose rotation is larger by sixty degrees. The grouping modulo sixty degrees points all but the first mini-array of a group elsewhere.
* C159, `Verif.Instru.reference_layout_violated`: Fails: the antennas are where `ant_pol_to_ref` expects them only when the rotation is a multiple of thirty degrees.
* C159, `Verif.Instru.response_turned_violated`: Fails: the response of such an antenna is read in the file of a measured antenna which does not see the antennas around it like it.
* C160, `Verif.Astro.mini_uvw_violated`: (violated): a flat mini-array looking at the zenith of a place of latitude `lat`. All its antennas are at the same distance of a source there, so that the third coordinates should be zero. They are `cos lat` times the distance along the first axis.
* C160, `Verif.Astro.uvw_longitude_violated`: (violated): anywhere else, for every phase centre but the poles and at every time, there are two antennas whose third coordinate is not the one towards the phase centre.
* C161, `Verif.Cnst.local_slot_violated`: (violated): between `T` and `T + b`, a constraint on local hours keeps a slot which starts at another hour of the clocks than the one asked.
* C161, `Verif.Cnst.local_time_violated`: (violated): around a change of the offset from `a` to `b` at `T`, the local time is wrong exactly between `T` and `T + b`, and there it is wrong by the difference of the offsets.
* C161, `Verif.Cnst.paris_local_violated`: (violated): in Paris, two hours after the change in spring and one hour after the change in autumn.
* C162, `Verif.Geom.fast_back_violated`: (violated): so one never comes back to a position which the change of equinox moves.
* C162, `Verif.Geom.fast_moved_violated`: (violated): for every position which the change of equinox moves, there is a time at which one does not come back to it.
* C163, `Verif.TF.dream_days_violated`: Steps of whole days are a division by zero.
* C163, `Verif.TF.dream_gap_violated`: Sub-bands which do not follow each other are refused: there are more frequencies between the first and the last than sub-bands.
* C163, `Verif.TF.dream_late_violated`: With a step which is not of whole seconds, the matrix of the samples left over is computed for a time after the last sample, by as many steps as one wants for a long enough observation.
* C163, `Verif.TF.dream_shift_violated`: When the time of the first sample is rounded down to microseconds, each group is corrected with the matrix of the next group, if there is one more.
* C163, `Verif.TF.dream_singular_violated`: One matrix of the last time without an inverse leaves all the samples left over uncorrected, in all sub-bands.
* C163, `Verif.TF.dream_start_refused_violated`: With a step of whole seconds and no sample left over there is none more: three groups or more are refused.
* C164, `Verif.Geom.etrs_overwrites_violated`: C164, violated by `l93_to_etrs`: the result is the given array itself, so that the given positions are lost as soon as the conversion moves one of them.
* C164, `Verif.Geom.etrs_then_geo_violated`: C164, violated: after a conversion to ETRS the geographic positions of the same interferometer are those of other places, one by one, when the conversion moves the positions and different positions have different geographic coordinates.
* C164, `Verif.Geom.etrs_times_violated`: C164, violated: after any number of calls the array holds positions converted as many times.
* C164, `Verif.Geom.etrs_twice_violated`: C164, violated: converting the same positions a second time converts the result of the first time.
* C164, `Verif.Geom.etrs_whole_violated`: C164, violated: positions given as integers are converted to integers. Each coordinate of the result is an integer, less than a metre away from the true one and never further from zero.
* C164, `Verif.Geom.geo_shape_violated`: C164, violated for one position: `geo_to_l93` gives an array with one row although it is said to have three elements, and the way back gives an array of one location instead of a location. The values are right and the Lambert ORN coordinates do keep the shape.
* C165, `Verif.IO.cut_join_violated`: C165, violated: joined in the other order the times are exchanged and the values are not.
* C165, `Verif.IO.median_time_violated`: C165, violated for the time of the median spectrum: data of one spectrum at a time which is not the one read back from its text get another time, and cannot be compared with their own median spectrum any more.
* C166, `Verif.Cnst.azimuth_pole_violated`: (violated): at the north celestial pole the azimuth is 360 degrees during half of the day and 0 during the other half, although the direction does not move.
* C166, `Verif.Cnst.circumpolar_date_violated`: (violated): the declination of the catalogue decides, not the one of the date. When they are on both sides of the limit, a target said to be circumpolar is below the horizon at its lower culmination.
* C166, `Verif.Cnst.positions_scalar_violated`: (violated): for one date two positions are kept, both for the date read back from its text.
* C167, `Verif.Parset.ant_twice_violated`: (violated): an antenna is accepted twice if it is written once with a 0 in front, and read twice.
* C167, `Verif.Parset.ant_zero_violated`: (violated): antenna 0, which does not exist, is accepted after any other one.
* C168, `Verif.Parset.beam_direction_violated`: Fails for the directions of numerical beams and phase centers: any text is accepted.
* C168, `Verif.Parset.nickel_beam_violated`: Fails for the imager: its task, known by the export, is refused for a beam, where the former files have it; it is accepted for a phase center only.
* C169, `Verif.Parset.imager_range_violated`: Fails for ranges: accepted for the sub-bands of a beam, they are refused for those of the imager.
* C169, `Verif.Parset.imager_twice_violated`: Fails for the imager: the same sub-band may come twice.
* C169, `Verif.Parset.receivers_any_violated`: Fails for receivers: any word of small letters is accepted.
* C169, `Verif.Parset.xst_first_violated`: Fails for the cross-correlations, which have 16 sub-bands: a number from 16 to 19 is accepted when it comes first, and refused elsewhere.
* C17, `Verif.Cnst.hour_window_bounds_violated`: Is false of the bounds of a window across midnight: for every such window, neither bound is accepted, although the bounds of the other windows are.
* C17, `Verif.Cnst.local_hour_violated`: Local hours are computed with the wrong offset after a change to summer time: between 1h and 3h UTC the offset is one hour short, so that a slot at 02:30 UTC (04:30 in Paris) is seen at 03:30 and accepted by a window which ends at 4h.
* C170, `Verif.Parset.azimuth_range_violated`: Fails beyond a turn: the numbers up to 999 are accepted.
* C170, `Verif.Parset.elevation_range_violated`: Fails for elevations above 90 degrees or below the horizon, which are accepted.
* C170, `Verif.Parset.hour_signs_violated`: Fails for signs: any number of them is accepted before an hour angle.
* C170, `Verif.Parset.hour_unit_violated`: Fails for numbers without a unit, such as the value which is written for the delay after the transit when none is given: they are refused.
* C170, `Verif.Parset.sky_bare_violated`: Fails for numbers and texts without quotes: they are refused.
* C170, `Verif.Parset.sky_parts_violated`: Fails for the parts of an angle: 99 minutes and 99 seconds are accepted.
* C170, `Verif.Parset.sky_range_violated`: Fails without bounds: any number is accepted as a declination or a right ascension, also below zero.
* C171, `Verif.Dyn.read_gap_violated`: (violated) The dates of the blocks after the first one are not looked at: when a block was not written right after the ones before, its values are returned with times which are not its own.
* C171, `Verif.Dyn.read_last_violated`: (violated) The last spectrum is never returned, whatever the ranges.
* C171, `Verif.Dyn.read_late_violated`: (violated) When a lane starts after the first one by one step or less, its values are returned with the times of the first one: all too early.
* C171, `Verif.Dyn.read_refused_violated`: (violated) One file with a single sub-band, or with an odd number of channels, and nothing can be read, whatever the other files.
* C172, `Verif.Astro.first_half_violated`: (violated) Directions within the first half pixel of the image are not drawn at all.
* C172, `Verif.Astro.half_pixel_violated`: (violated) Directions past the middle of a pixel, in the second half of the way to the next centre, are drawn one pixel too low: a direction alone in the image is not in the pixel whose centre is the nearest.
* C172, `Verif.Astro.horizon_pixel_violated`: (violated) When only the visible sky is drawn, a pixel on the horizon is left blank although there are visible directions in it.
* C172, `Verif.Astro.opposite_violated`: (violated) The whole sky does not fit: at any resolution the direction opposite to the centre is left of the first pixel.
* C173, `Verif.TF.angle_across_violated`: Violated: all data with `Q` negative, whatever their intensities, are given the direction perpendicular to the field.
* C173, `Verif.TF.angle_perpendicular_violated`: Violated: two perpendicular waves, of any amplitudes, are given the same angle, unless they lie along the diagonals.
* C174, `Verif.Config.total_default_violated`: Violated: nothing can be plotted without saying which receivers, unless all of them have a configuration; without any receiver a variable is not bound; an unknown receiver is refused.
* C174, `Verif.Config.total_lengths_violated`: Violated: two receivers with different numbers of configurations, more than one each, cannot be plotted together; neither can they when the last one has a single configuration.
* C174, `Verif.Config.total_single_violated`: Violated: the volume of a receiver with a single configuration is counted in all points of the total, also in those before its start.
* C174, `Verif.Config.total_times_violated`: Violated: with as many configurations of both receivers, the total is drawn at the times of the last receiver alone: volumes of the first one are counted before their start.
* C175, `Verif.Astro.covariance_documented_violated`: Violated: the two differ: for a device that changes nothing the documented matrix has an entry out of the first one.
* C176, `Verif.Scheduler.first_row_violated`: "Every row shows some of the schedule." The first row is empty when it ends before the first slot.
* C176, `Verif.Scheduler.marks_cut_violated`: "Every slot is marked." A slot which begins in a row and ends in the next one is marked in no row.
* C176, `Verif.Scheduler.range_end_violated`: "Blocks within the range are drawn." A block which ends with the range is not.
* C176, `Verif.Scheduler.range_title_violated`: "Titles are within the drawing." A block with less than half of its time in a range has its title outside the limits.
* C177, `Verif.IO.multi_curves_violated`: **Violated: spectra and light curves in several panels**: always an error, since the label of the colours is given to functions without colours.
* C177, `Verif.IO.multi_single_violated`: **Violated: a single panel**, as for a single polarisation: always an error.
* C177, `Verif.IO.rs_single_violated`: **Violated: one time and one frequency**: an error, whatever the arguments.
* C177, `Verif.IO.scale_functions_violated`: **Violated: two functions given for the scale** are never used: the names of the functions of the code are read before they are set.
* C177, `Verif.IO.sdata_curve_violated`: **Violated: data of one frequency can never be drawn**, whatever the times and arguments: the limits are set with a function which axes do not have.
* C177, `Verif.IO.sdata_shown_violated`: **Violated: a drawing is never shown**: without a name of file it is only made.
* C177, `Verif.IO.st_same_violated`: Values over time, where there are as many times as frequencies, are drawn against the frequencies.
* C177, `Verif.IO.st_single_violated`: A single value (one time and one frequency, where no axis is left) cannot be drawn.
* C178, `Verif.IO.matrix_order_violated`: **Violated: mini-arrays of a slice in another order**: the autocorrelation of at least one of them is drawn at the place of another one.
* C179, `Verif.Instru.levels_first_violated`: **Violated: the lowest contour is not at the percentile**: natural logarithms are used as if they were decimal, and it is at the power `ln 10` of it, which is below, for all percentiles.
* C179, `Verif.Instru.to_sky_violated`: **Violated: several times**: always refused, for any frequencies and directions.
* C18, `Verif.Cnst.add_mutates_violated`: Is false of the addition of constraints: adding an elevation constraint to a set which still holds its default one removes the default from the left operand, for every such set.
* C18, `Verif.Cnst.night_leak_violated`: Is false of the night constraint: evaluating it masks the schedule's own array of Sun elevations, so that another block with a looser constraint, evaluated later, loses the slots that the first one excluded. For every Sun elevation `e` between the two limits the slot is satisfied by the second constraint alone, and undefined after the first one was evaluated.
* C180, `Verif.Cnst.label_violated`: **Violated: score and status shown together agree**: with two decimals, all scores a bit below a limit are shown as the limit, with the lower status.
* C180, `Verif.Cnst.topics_codes_violated`: **Violated: codes of topics are programmes**: rapid programmes which a parset may have are refused by the scheduler.
* C181, `Verif.Astro.contours_half_violated`: On a whole sky of other directions, contours only cover the left half of the image, at all resolutions.
* C181, `Verif.Astro.coverages_violated`: Only the first two coverages of any list are drawn, the others silently left out.
* C181, `Verif.Astro.figures_violated`: Drawings which are shown or saved close all figures, those of the caller too; those which are refused or returned leave one more open, even if a figure was given.
* C181, `Verif.Astro.limits_zero_violated`: In decibels, any pixel with the value zero takes the lower limit of the colours to minus infinity, whatever the others are.
* C181, `Verif.Astro.opacity_zero_violated`: If all opacities are zero or missing, no pixel has an opacity at all: instead of a transparent image.
* C181, `Verif.Astro.text_letter_violated`: A text given as such for one direction, not in a list, is accepted but only its first letter is written; the empty one is refused.
* C182, `Verif.TF.info_ratio_violated`: (violated): the ratio of the documentation is stored, and then nothing is told of the file.
* C182, `Verif.TF.info_violated`: (violated): one item whose name comes before `COORDINATES`, or one ratio (stored as a group), and nothing is told of any beam of the file.
* C182, `Verif.TF.order_violated`: (violated): beams of four digits which begin with 1 are told before the beams 200 to 999.
* C184, `Verif.Cal.click_many_violated`: (violated): one click selects all the events drawn at this place, so that a key moves them together.
* C184, `Verif.Cal.title_filler_violated`: (violated): an event named `filler`, in any case and of any programme, has another title, on the pages of months.
* C184, `Verif.Cal.titled_violated`: (violated): if its middle is in a month between the first and the last, no line of any page has the title of the event.
* C187, `Verif.GA.plot_again_violated`: Is false of a search continued by a second call, whatever the fitness, the arguments and the draws of the two calls: the history cannot be drawn.
* C19, `Verif.GA.again_genome_violated`: Is false of a further call on the same object, whatever the object, the draws and the limit: if no individual beats the score which was kept, the genome reported is the first one drawn for this call, whatever its fitness, next to the best score of an earlier call.
* C19, `Verif.GA.again_none_violated`: With a limit that was reached already nothing is evaluated: the genome reported is an individual nobody evaluated, the best score is that of an earlier call, and the counter goes down by one.
* C19, `Verif.GA.again_once_violated`: A search that used up its generations is not continued by a further call with the same limit: this one evaluates the newly drawn population and nothing else, and the counter does not move.
* C19, `Verif.GA.negative_fitness_violated`: Is false when all the fitnesses are negative or zero: the genome is then the first individual drawn, not the best. Fitnesses -3 and -1; the first is kept.
* C19, `Verif.GA.odd_population_violated`: With an odd population and no random individual, every new generation holds a row of zeros that nobody chose.
* C19, `Verif.GA.second_call_violated`: Is false of a second call to `evolve` on the same object: the best genome is replaced by the first individual of the new population while the best score is kept, so that they no longer agree. The first call reaches 4/5; the second, from weaker individuals, ends with genome 1/10 and best score 4/5.
* C190, `Verif.IO.eq_nothing_violated`: Every set without pointing file equals the set without any file.
* C190, `Verif.IO.eq_one_side_violated`: A single comparison does not: however two sets are joined, the result equals each of the two; and as soon as one base name of the second is new, the first does not equal the result, so the answer depends on the side.
* C190, `Verif.IO.eq_other_violated`: A comparison with anything which is not a set of SST files (`None`, a number, a text) raises instead of answering `False`.
* C190, `Verif.IO.eq_removed_violated`: Taking files away is not seen from the left side either: whatever is removed, the set equals what is left of it.
* C190, `Verif.IO.eq_self_violated`: Of a set with a pointing file, not even the comparison with itself is possible.
* C192, `Verif.Astro.gsm_hertz_violated`: Violated: a frequency of at least 10 MHz is refused when it is given in Hz, and one of less than 10 GHz when it is given in GHz.
* C192, `Verif.Astro.gsm_shaped_violated`: Violated: it does not have the shape of the other one as soon as this has not exactly one polarisation.
* C192, `Verif.Astro.gsm_unit_violated`: Violated: the unit of the frequencies is not looked at. The same numbers in any other unit give the same values, so a frequency of 50000 kHz is shown with the map at 50000 MHz.
* C192, `Verif.Astro.skymodel_mixed_violated`: Violated: with several frequencies, the maps at the last two are mixed as if they were the parameters Q and U of one polarisation. In a pixel where they are not both zero, both are right only if the angle of the turn is a multiple of 180 degrees.
* C194, `Verif.Instru.nda_below_violated`: **Violated: nothing is received from below the ground.** The gain is positive in every direction, above or below the horizon, unless all the pixels read there come from the horizon itself: the square of the sine is the same on both sides.
* C194, `Verif.Instru.nda_polarisations_violated`: **Violated: polarisations are told apart.** Left and right circular polarisations have the same gain, always, as any other thing given as a polarisation.
* C194, `Verif.Instru.nda_shape_violated`: **Violated: skies at several times have a gain.** With another number of frequencies than of times, it fails, one frequency included.
* C194, `Verif.Instru.nda_times_violated`: **Violated: the gain follows the sky.** With several times and as many frequencies, the gain at a time and a frequency is that of another time, the one which has the rank of the frequency.
* C195, `Verif.IO.cut_join_time_violated`: C195, violated: a table cut in two at any of its times is never given back when its parts are joined in time; unless the cut is in the middle, they cannot be joined at all.
* C195, `Verif.IO.slice_part_curve_violated`: C195, violated: no part of a light curve or of a spectrum can be taken, not even the whole of it: the values have one axis and two slices are asked for.
* C195, `Verif.IO.slice_part_pointings_violated`: C195, violated: a part still lists the pointings which begin after it (or which ended before it).
* C195, `Verif.IO.slice_sdata_curve_violated`: C195, violated: no light curve and no spectrum can be made a data set.
* C196, `Verif.Astro.local_map_repeats_violated`: C196, violated: the map repeats directions. Its first and last columns are the north, and its last row is the zenith seen from all azimuths, for all numbers of azimuths and elevations from 2 on.
* C196, `Verif.Astro.local_map_single_violated`: C196, violated: with one elevation the whole map is the horizon, and with one azimuth it is the northern half of the meridian.
* C196, `Verif.Astro.to_sky_times_violated`: C196, violated: no sky of several times, or of none, can be made from the model, whatever the frequencies and directions.
* C197, `Verif.TF.dedispersion_order_violated`: C197, violated: so a reduction of large data returns a result, below the limit and not de-dispersed, if it comes after the de-dispersion, and a result reduced and then de-dispersed if it comes before.
* C197, `Verif.TF.dedispersion_skipped_violated`: C197, violated: data of 2 GiB or more are not de-dispersed, and no exception tells it: whatever the measure, the tasks before and after, the return value and the stored file are those of the pipeline without de-dispersion.
* C198, `Verif.Cal.crossings_unavailable_violated`: C198, violated: on the calendars which can be made from events, the count always fails, whatever the events.
* C199, `Verif.Astro.uv_figure_flat_violated`: C199, violated: with autocorrelations only, whatever their number, the figure has no width.
* C21, `Verif.Cal.long_event_violated`: An event of more than one day is not counted in full: 25 hours are counted as one.
* C22, `Verif.Cal.empty_event_violated`: (violated): every event of no length inside another one is reported as an overlap, although they share no time.
* C23, `Verif.Cal.merge_comments_violated`: Three contiguous bookings with the same comment are not merged into one.
* C23, `Verif.Cal.row_first_merged_violated`: A row that begins inside a merged region (a booking that goes on from the day before): its first hours are given to whoever holds the last hour of the row, whatever the sheet shows.
* C23, `Verif.Cal.vcr_empty_violated`: An empty calendar cannot be written.
* C23, `Verif.Cal.vcr_last_merge_violated`: When the last two bookings belong to the same project and follow each other, the file cannot be written, whatever comes before.
* C23, `Verif.Cal.vcr_overlap_violated`: After a merge the next overlap is not seen: overlapping lines are written without error.
* C23, `Verif.Cal.vcr_renamed_violated`: A booking of project `LT00` can never be written: its name is changed, then compared with the unchanged project.
* C24, `Verif.Cal.season_unsorted_violated`: Times that are not sorted: a summer time of an earlier year than the first one is taken for a winter time.
* C24, `Verif.Cal.winter_evening_violated`: In winter no hour after 4 h is ever night: the whole evening is missed.
* C25, `Verif.Config.nan_violated`: NaN passes all checks and is stored.
* C26, `Verif.Config.assign_ignored_violated`: Changing an attribute of any other configuration has no effect on its volume.
* C26, `Verif.Config.raw_volume_violated`: A raw observation shorter than one minute has a negative volume, for all values of the attributes.
* C27, `Verif.Config.cumulative_empty_violated`: A receiver without any configuration, as in a new `ObsConfig`, has no cumulated volume: an exception is raised instead of empty arrays.
* C27, `Verif.Config.cumulative_violated`: A short raw observation makes the cumulative volume decrease.
* C28, `Verif.Config.resolution_closest_violated`: The accepted frequency resolution is not always the closest one the receiver can do.
* C29, `Verif.Parset.angle_wrap_violated`: Azimuths are not wrapped: a pointing moved past 360°, by less than a turn, stays at 360° instead of the same direction.
* C29, `Verif.Parset.duration_minutes_violated`: Durations in minutes become something else: "60m" is stored as "60ms".
* C29, `Verif.Parset.empty_list_violated`: An empty list is not read back as an empty list.
* C29, `Verif.Parset.list_text_violated`: A negative number is read back as text, and so is a number after a blank.
* C29, `Verif.Parset.name_case_violated`: Names lose their case when read.
* C31, `Verif.Parset.no_beam_violated`: The analog beam of a numerical beam can be set to one that does not exist.
* C31, `Verif.Parset.phase_center_numbers_violated`: Removing an analog beam leaves the numbers of the phase centers as they were: one phase center announced, numbered 1.
* C32, `Verif.Parset.comment_line_violated`: A comment line that starts like a beam and holds no dot makes the previous assignment a second time, and raises when the previous line was not about a beam.
* C32, `Verif.Parset.leading_blank_violated`: A file that starts with an empty line cannot be read.
* C33, `Verif.Parset.data_twice_violated`: Reading the exported data a second time from the same entry lists all pointings twice.
* C33, `Verif.Parset.ids_collision_violated`: (violated): without numerical beams, in any file with phase centers and cross-correlations, the last phase center and the first cross-correlation get the same identifier.
* C33, `Verif.Parset.ids_order_violated`: (violated): so do a numerical beam and a phase center in any file whose numerical beams are listed in such an order that one of them has a number after the last.
* C33, `Verif.Parset.remote_dropped_violated`: Mini-arrays above 96 are dropped even when the correlator uses them.
* C34, `Verif.Instru.sb_512_violated`: (violated): all frequencies of the upper half of the last band, up to 100 MHz, are given sub-band 512, which `sb2freq` refuses in any list.
* C34, `Verif.Instru.sb_start_violated`: The documented start of sub-band `k` is `k` times the width; the value returned is half a width lower.
* C34, `Verif.Instru.sb_zero_violated`: (violated): any list with sub-band 0, which starts below 0 MHz, is refused by `freq2sb` on the way back.
* C35, `Verif.Instru.full_slice_violated`: The full slice cannot be taken.
* C35, `Verif.Instru.negative_index_violated`: (violated): negative positions, which count from the end everywhere else, are accepted and select nothing.
* C35, `Verif.Instru.open_slice_violated`: (violated): a slice without an end selects the antennas before its start instead of those from its start.
* C35, `Verif.Instru.remove_all_violated`: Removing everything raises rather than giving an empty array.
* C38, `Verif.Instru.beam_repeat_violated`: Computing the beam changes the pointing object, so that a second computation with the same arguments gives another result.
* C38, `Verif.Instru.grouping_violated`: Otherwise the analog direction of the second group starts from that of the first one: two mini-arrays that round the pointing to multiples of 10 and 6.
* C39, `Verif.Instru.ma_order_violated`: The beam simulation's own order is one step off when the closest direction is in the second half of an axis: its direction is not the closest one.
* C42, C60, `Verif.TF.beam_edges_violated`: The sub-bands of a beam which are not consecutive: the range attributed to the beam contains channels of another one.
* C43, `Verif.TF.dedisperse_imag_violated`: Values are lost: on complex data, written as (real part, imaginary part), the result does not depend on the imaginary parts. The task of the pipeline is meant to run on complex data, before the computation of the Stokes parameters (tf.py:519-538).
* C43, `Verif.TF.dedisperse_last_violated`: (violated): if the delay of the last channel is negative the function fails instead of shifting the data.
* C43, `Verif.TF.dedisperse_negative_violated`: (violated): with a negative dispersion measure, no delay in the last channel (the reference) and negative ones below, the function succeeds and the beginning of each channel, which should be missing, is the end of the channel below.
* C43, `Verif.TF.dedisperse_old_negative_violated`: The older functions, with a channel above the reference frequency: only samples coming from the wrong end of the data are kept.
* C43, `Verif.TF.dedisperse_old_reference_violated`: The older functions blank every channel with no delay: in particular the reference channel is always lost.
* C44, `Verif.TF.stokes_xst_sign_violated`: The sign of `V` is not the one of the time-frequency readers: for every field with circular polarisation the two differ.
* C45, `Verif.TF.faraday_nonhermitian_violated`: On data which are not hermitian, the `V` that is read is not preserved.
* C46, `Verif.TF.rebin_old_violated`: Averaging 10 spectra by 4 with the older reader averages them by 5.
* C47, `Verif.TF.crop_negative_violated`: (violated): a negative number of channels is accepted by the check and blanks all the channels of the sub-bands but the last ones.
* C47, `Verif.TF.remove_all_violated`: (violated): removing every channel is not rejected, as it is when cropping: all the data are blanked.
* C48, `Verif.TF.params_nan_violated`: A value which is not a number passes the bounds: frequencies and times may be set to NaN.
* C49, `Verif.TF.get_refused_violated`: A call with a valid and an invalid option changes the reader although it fails.
* C49, `Verif.TF.get_volume_violated`: A call which gives up because of the volume of the data leaves all its options in the reader; so does an interruption.
* C50, `Verif.TF.remove_two_violated`: (violated): removing positions 0 and 1 in one call removes the tasks at 0 and 2: positions are those after the previous removals.
* C50, `Verif.TF.tasks_ctor_violated`: Tasks given to the constructor are not checked: any non-repeatable one can be given twice, anywhere.
* C51, `Verif.TF.select_long_blocks_violated`: With blocks of ten seconds the start of the interval is looked for in the next block: the end of the first one is lost.
* C51, `Verif.TF.select_long_violated`: (violated): blocks longer than two seconds. From an interval which starts in a block, but closer to the next one by two seconds, no sample of the block is returned.
* C51, `Verif.TF.select_one_sample_violated`: An interval within one sample is reported as empty, or fails in the last block, although it contains data.
* C51, `Verif.TF.select_short_blocks_violated`: With blocks of half a second the end of the interval is looked for in an earlier block: the second half of the data is lost.
* C51, `Verif.TF.select_short_violated`: (violated): blocks shorter than a second. The end of the interval is looked for in the first block which starts less than a second before it: no sample of the following blocks is returned, although they are within the interval.
* C52, `Verif.TF.blank_never_violated`: Bad blocks are left untouched too: they are never blanked, whatever the mask.
* C53, `Verif.IO.get_any_order_violated`: In general: all orders of the request give the same values, in the order of the file.
* C53, `Verif.IO.get_order_violated`: Mini-arrays asked for in another order: the values are those of the order of the file, under the labels of the request.
* C53, `Verif.IO.get_xy_violated`: The product `XY` cannot be read when several times and several frequencies are selected, nor for a single time and frequency.
* C54, `Verif.IO.beamform_off_violated`: Violated: a source in the direction of the beam, seen by `k` mini-arrays whose antennas are numbers `real a`, should give `k² |x|²`. The beam gives less, unless the errors made on the delays, by taking antenna number `idx a` in the place of number `real a`, are the same for all mini-arrays up to whole turns.
* C54, `Verif.IO.beamform_violated`: With mini-arrays 1 and 2 in the file, the positions of antennas 0 and 1 are used: two fields which cancel in the direction of the beam give a power of 4.
* C55, `Verif.Geom.rephase_data_violated`: The visibilities that `rephase_visibilities` and `XST.rephase` return are the bare factors: they have modulus one whatever was observed, so that they are not the re-phased data.
* C56, `Verif.IO.or_tables_violated`: Joining two tables in time never gives data which follow their axes: frequencies are joined instead.
* C56, `Verif.IO.sdata_and_shifted_violated`: (violated): times which differ by up to one step are accepted: the data of the right operand get the times of the left one, their own are lost.
* C56, `Verif.IO.sdata_and_violated`: Times which differ by up to one step are accepted, and those of the right operand are lost.
* C56, `Verif.IO.sdata_or_swapped_violated`: (violated): in the other order the data are swapped but not the times. With as many times on both sides, every sample of the right operand gets the time of one of the left operand, and conversely.
* C56, `Verif.IO.sdata_or_violated`: (violated): for example, each of two samples gets the time of the other one.
* C57, `Verif.IO.sdata_op_common_violated`: (violated): one common time and one common frequency are enough for data sets of the same dimensions to be added, whatever the others; the result has the axes of the left one.
* C57, `Verif.IO.sdata_op_violated`: One common time is enough for data sets to be added, whatever the others.
* C58, `Verif.IO.bst_beam_violated`: (violated): choosing another beam keeps the columns of the previous one: as beams have their own columns, any selection which is not empty fails.
* C58, `Verif.IO.bst_default_violated`: The lowest frequency of the file is never part of the default selection.
* C58, `Verif.IO.bst_lowest_violated`: The default selection runs from the lowest to the highest frequency of the file which is not zero, and yet leaves out the beamlet that has the lowest one: frequencies are moved by half a sub-band after the bounds are known.
* C58, `Verif.IO.default_times_violated`: With a first time written later than it is, the first sample is not read by default.
* C58, `Verif.IO.sst_eq_violated`: (violated): equality of sets of files is not symmetric: a set equals all of its parts, and no proper part equals it.
* C58, `Verif.IO.sst_skip_violated`: A file is left out as soon as the range asked for ends above its highest frequency, even if they overlap.
* C59, `Verif.IO.accepts_default_violated`: Called with `a = 0` and `b = 5`, it receives the default of `b` as `c`.
* C59, `Verif.IO.accepts_excess_violated`: Arguments in excess are dropped instead of refused.
* C59, `Verif.IO.accepts_keyword_violated`: Called with `a = 0` and `c = 5`, it fails.
* C59, `Verif.IO.accepts_shifted_violated`: (violated): whatever the function, when some but not all of its optional arguments are given by position, the others receive the defaults of earlier parameters.
* C59, `Verif.IO.accepts_skipped_violated`: (violated): a parameter left to its default, before the ones which are given by keyword, makes the call fail.
* C62, `Verif.Geom.circumpolar_south_violated`: (violated): in the southern hemisphere no object which never sets is said to be circumpolar.
* C62, `Verif.Geom.culmination_violated`: (violated): it is wrong for all the circumpolar objects that culminate south of the zenith, and for all the objects that set but culminate north of it: it gives the opposite azimuth.
* C63, `Verif.Astro.azimuth_circumpolar_violated`: A circumpolar source moving through the south: a time when its azimuth is 180 degrees is returned as a transit at 90 degrees.
* C63, `Verif.Astro.azimuth_lost_violated`: Violated: nothing is found when the azimuth is below the one asked for at all the coarse samples: a source which passes it and then the north between two samples is lost, whatever the precision.
* C63, `Verif.Astro.azimuth_wrap_violated`: A transit at an azimuth just before 360 degrees is lost.
* C63, `Verif.Astro.crossing_endless_violated`: With a precision of zero the search of an existing crossing never ends.
* C63, `Verif.Astro.crossing_short_violated`: Spans no longer than the precision fail.
* C63, `Verif.Astro.crossing_twice_violated`: Violated: an event exactly at a coarse sample inside the span is returned twice, once before and once after its time, whatever the precision.
* C63, `Verif.Astro.rise_sample_violated`: Violated: a source which rises only once in the span, exactly at a coarse sample, is said to rise twice.
* C63, `Verif.Astro.rise_twice_violated`: A source which rises exactly at a sample is said to rise twice.
* C63, `Verif.Astro.south_returned_violated`: Violated: when a circumpolar source passes the south between two coarse samples, a time between them is returned for every azimuth of the eastern half below that of the first sample, although the source does not pass at it there.
* C64, `Verif.Astro.bst_north_all_violated`: Violated: with more directions than `max_points`, whatever the track, each time a kept time falls inside a step on which the source crosses the north (azimuth from the last quadrant to the first one), the azimuth of the pointing is between the two on the side of the south: it is outside of the arc which is crossed.
* C64, `Verif.Astro.bst_north_violated`: With more directions the azimuths are interpolated through the south when the source crosses the north.
* C64, `Verif.Astro.file_analog_last_violated`: The last direction of an analog beam with two or more rows is never used.
* C64, `Verif.Astro.file_digital_single_violated`: A digital beam with a single row cannot be read.
* C64, `Verif.Astro.file_digital_violated`: (violated): whatever the digital beam, the direction before the last only holds for ten seconds, and the last one holds for as long as there is between the two.
* C65, `Verif.Astro.mueller_dims_violated`: Three leading dimensions or more cannot be converted.
* C65, `Verif.Astro.retarder_violated`: Fails for retarders: both calculi delay the opposite component, as for the quarter-wave plate.
* C65, `Verif.Astro.stokes_unpolarised_violated`: No field is given for an unpolarised Stokes vector: numpy returns NaN.
* C65, `Verif.Astro.to_jones_violated`: Fails for other matrices: the phases of the remaining entries are lost, and the Mueller matrix changes unless the two entries off the diagonal were in phase.
* C66, `Verif.Astro.coverage_w_violated`: Fails for `w`: the mirror of a baseline out of the plane is not among the points, since `w` keeps its sign.
* C67, `Verif.Astro.div_operand_violated`: Fails for quotients: the sky itself is returned, with the new values, whatever holds them.
* C67, `Verif.Astro.div_violated`: Concretely: the half of a sky of value one makes it a sky of value one half.
* C67, `Verif.Astro.mul_failed_violated`: Then a product fails, and yet the values of the operand are multiplied.
* C67, `Verif.Astro.mul_operand_violated`: Fails for all values held by numpy: the operand of a product takes the values of the product.
* C67, `Verif.Astro.mul_violated`: Concretely: twice a sky of value one turns it into a sky of value two.
* C67, `Verif.Astro.shapes_violated`: Fails when an axis is assigned: whatever the history before, the values keep the previous shape.
* C67, `Verif.Astro.share_violated`: (violated): a sky shares the array it is given: when the values of a sky are assigned to another one, a division of the first changes the second.
* C67, `Verif.Astro.slice_violated`: (violated): a part of the coordinates can be selected, but the slice is given all of them: there are always fewer values than coordinates.
* C68, `Verif.Astro.query_violated`: Fails when the radius is assigned after the centre: whatever was done before, the query keeps the previous radius.
* C69, `Verif.Geom.lmn_far_violated`: (violated): beyond, the third cosine always has the wrong sign.
* C70, `Verif.Instru.nan_weight_violated`: (violated): a NaN hides any other value: with one of them, weights outside of `[0, 1]` are accepted.
* C71, `Verif.TF.reconstruct_end_violated`: (violated): all the bad blocks at the end of the file get the same start, that of the last good one: several blocks of the axis have the same times.
* C72, `Verif.TF.time_groups_violated`: A time step of less than half a sample is not handled: division by zero.
* C74, `Verif.Astro.circular_names_violated`: Fails: the right-handed polariser stops the right-handed state entirely and lets the left-handed one through.
* C74, `Verif.Astro.circular_stokes_violated`: Fails for Stokes vectors: none of the circular states can be made.
* C76, `Verif.Scheduler.last_window_violated`: Fails for blocks which only fit at the very end of the schedule: the last window is never scored.
* C76, `Verif.Scheduler.very_strict_violated`: The strict filter refuses all the blocks of two slots or more which could be booked at a single place: it asks for `nSlots` starts in a row instead of one.
* C77, `Verif.Scheduler.delays_false_alarm_all_violated`: C77, violated for all pairs of delayed candidates: whenever the first of all candidates is longer than the gap between the two, a genome which keeps all delays and has no conflict gets half of its quality.
* C77, `Verif.Scheduler.delays_false_alarm_violated`: Disagreement: in general the delays are read at the wrong candidates. A genome without any conflict, all at the best scores, gets half of the fitness of a perfect one.
* C77, `Verif.Scheduler.delays_missed_all_violated`: C77, violated for all pairs of delayed candidates: whenever the first of all candidates fits in the gap between the two, a genome without conflict gets its whole quality, although the second one starts during the processing of the first one.
* C77, `Verif.Scheduler.delays_missed_violated`: Disagreement: and a genome which starts a block during the processing of another one gets the maximal fitness.
* C77, `Verif.Scheduler.last_gene_violated`: Disagreement: the last start which fits, `size - n`, is not reachable: it is never scored, and a mutation to it is moved one slot back.
* C78, `Verif.TF.bandpass_hidden_violated`: Disagreement: with the default parameters the bandpass correction is displayed as inactive, whatever the data, but it is applied.
* C78, `Verif.TF.sticky_violated`: Disagreement: once a task was displayed or run with its parameters set, it is displayed as active for ever. After a reset, the de-dispersion is displayed as active but does nothing.
* C79, `Verif.TF.few_channels_violated`: Disagreement: files with fewer than 16 channels per sub-band cannot be read with the default pipeline.
* C79, `Verif.TF.jones_after_stokes_violated`: Disagreement: after the computation of four Stokes parameters the parallactic correction, if it accepts the matrices, takes the parameters for a matrix, and the run ends; the result cannot be labelled.
* C80, `Verif.TF.dedisperse_after_violated`: Violated in general: a de-dispersion placed after an average of `w` samples in time moves a channel whose delay is `d` by a time which is wrong by at least `(w - 1) d`, less half of a sample, whatever the data and the dispersion measure.
* C80, `Verif.TF.dedisperse_step_violated`: Disagreement: a de-dispersion placed after an average in time is given the recorded step: here the samples are four times longer, and a channel at 50 MHz is moved by 10 samples instead of 3.
* C80, `Verif.TF.rebin_twice_violated`: Disagreement: the average, which can be repeated, always compares the request with the recorded step. If one average joins `w` samples, `n` of them join `w ^ n`, whatever the request.
* C80, `Verif.TF.remove_after_rebin_violated`: Disagreement: channels removed after an average in frequency are not the requested ones. The 64 channels of four sub-bands are averaged by two and the first channel of each sub-band is to be removed; the sample which holds channel 16, the first one of the second sub-band, is kept.
* C80, `Verif.TF.remove_after_violated`: Violated in general: when channels were averaged by `w` before, the sample which holds the first channel of sub-band number `s` is taken out only if `s` is a multiple of `w`; the first channel was asked for in all of them.
* C81, `Verif.TF.flatten_one_violated`: Disagreement: with one channel per sub-band everything is lost.
* C81, `Verif.TF.flatten_sign_violated`: Disagreement: if a sub-band grows by more than twice its first value from channel to channel, its first channel becomes negative; with exactly twice, it is lost.
* C81, `Verif.TF.flatten_tilt_violated`: Disagreement, for all data whose sub-bands have positive affine profiles: if the slope is not zero, the result is not flat; no two channels of a sub-band get the same value, at any time when the signal is not zero.
* C83, `Verif.Dyn.last_spectrum_violated`: Whatever the requested range, the last spectrum of a file is never read: in particular when the range is left at its default, the whole observation.
* C85, `Verif.Dyn.between_violated`: A range which lies between two neighbouring channels, and contains none, is read if its ends are nearest to one and to the other: both channels are given, with their whole sub-bands.
* C85, `Verif.Dyn.edge_channel_violated`: A range which ends on the first channel of the lane contains this channel; nothing is read.
* C85, `Verif.Dyn.narrow_all_violated`: A range of frequencies around any channel of the beam, narrow enough for both its ends to be nearest to that channel, is not read, although it contains the channel.
* C85, `Verif.Dyn.narrow_violated`: A range of frequencies which contains a channel only is not read, whereas one which contains none, but lies between two sub-bands, gives both of them.
* C85, `Verif.Dyn.one_spectrum_violated`: A range of times around one spectrum only, with all frequencies: nothing is read.
* C87, `Verif.Dyn.half_edges_violated`: Half of the channels at both edges is accepted, against the purpose of the check: no data are left.
* C87, `Verif.Dyn.other_lane_violated`: The number of channels is the one of the first lane: a lane with another number, whose data are not a multiple of it, cannot be treated.
* C88, `Verif.Dyn.files_append_violated`: On a reader with lanes, the new ones are added: data of the former files are still read, while the list of files has the new ones only.
* C88, `Verif.Dyn.files_refused_violated`: When a file is refused, the ones before it are read nevertheless, and the list of files stays as it was.
* C89, `Verif.Dyn.gather_order_violated`: With any three lanes which do not overlap and whose second one is the highest, the frequencies gathered are not increasing, although each lane has increasing ones.
* C90, `Verif.Dyn.documented_stokes_violated`: Three of the values documented for the Stokes parameters are refused.
* C90, `Verif.Dyn.write_beam_violated`: The beam set by the user is changed by the attempt.
* C90, `Verif.Dyn.write_raises_violated`: The exception tells nothing about the cause: a list of parameters has no `upper`, the data of one parameter have no third axis left, and when nothing is within the ranges the missing data have no attribute.
* C90, `Verif.Dyn.write_violated`: Writing never succeeds: whatever the data, the beams (one or more) and the Stokes parameters (one or more), an exception is raised.
* C91, `Verif.Dyn.pol_leftover_violated`: The spectra after the last complete block are treated with the last matrix of the whole observation, whatever their time.
* C91, `Verif.Dyn.pol_multiple_violated`: When the number of spectra is a multiple of the number of spectra per matrix, the data cannot be treated.
* C91, `Verif.Dyn.pol_short_violated`: Data which start with the observation and last less than two blocks cannot be treated.
* C92, `Verif.Dyn.jump_missed_violated`: When more spectra are left after the last whole six minutes than there are before the first jump, the last jump is not an edge: two sides of it are fitted together.
* C92, `Verif.Dyn.jump_twice_violated`: A spectrum on a jump is divided by the fits of both sides.
* C93, `Verif.Dyn.median_several_violated`: With two polarisations or more it fails.
* C94, `Verif.Config.glued_lost_violated`: Without a blank after the colon the first value of a time-frequency beam is never found, whatever the mode, the value and the words which follow.
* C94, `Verif.Config.glued_refused_violated`: A beam written in this way, starting with its time step, cannot be built.
* C94, `Verif.Config.glued_value_violated`: Without a blank after the colon the first value of a time-frequency beam is not found, and the beam cannot be built.
* C95, `Verif.Config.no_receivers_violated`: A file that names no receiver of the beamformer output: the whole estimate is refused, also for the correlator.
* C95, `Verif.Config.no_resolution_violated`: One time-frequency beam without its resolutions: no beam of the file is counted, the estimate is refused.
* C95, `Verif.Config.receiver_blank_violated`: A blank before the name of the receiver in the list: nothing is counted.
* C95, `Verif.Config.single_flag_violated`: So do the samples averaged by a single-pulse beam: a bare `dstime` asks for no averaging.
* C95, `Verif.Config.tf_flag_violated`: A parameter written without a value counts as one instead of being refused: the time resolution of a time-frequency beam becomes the one closest to a millisecond.
* C95, `Verif.Config.wide_beam_violated`: Number of sub-bands above the largest one of a lane: the default, which is the largest, is used.
* C95, `Verif.Config.zero_width_violated`: Channels of no width are not refused: the widest ones that the receiver can do are counted.
* C96, `Verif.Config.nickel_first_violated`: Only the first analog beam counts: the others change nothing.
* C96, `Verif.Config.nickel_flag_violated`: A dump time written as a boolean counts as a number of seconds: `true` is one second, `false` is none.
* C96, `Verif.Config.nickel_fraction_violated`: A dump time that is not a whole number of seconds is refused.
* C97, `Verif.Config.bst_half_second_violated`: Two simultaneous beams that start half a second apart count twice.
* C97, `Verif.Config.minutes_refused_violated`: Durations in minutes, as users may write them, stop the estimate.
* C98, `Verif.Parset.dump_time_violated`: When it is given, whatever its value and whatever the rest of the file, the validation fails with an exception.
* C98, `Verif.Parset.placeholder_violated`: The answer `True` does not tell that all that is written is well formed: the e-mail address written when none is given is matched by no pattern.
* C99, `Verif.Parset.ma_list_empty_violated`: A range written backwards is accepted and read as no mini-array at all.
* C99, `Verif.Parset.ma_list_violated`: Any list with a range over the gap is accepted, and read with the number of no mini-array.
* C99, `Verif.Parset.sb_zero_place_violated`: Violated: whatever the list of sub-bands, a lone 0 anywhere after the first place makes it refused, although it is read as the sub-bands it stands for; in the first place, before other sub-bands, it is accepted.
* C99, `Verif.Parset.sb_zero_violated`: Sub-band 0 is refused after the first place: the order of a list matters.
* –, `Verif.IO.border_sides_violated`: (sides of the border, violated): the border is not the same on both sides: with a multiple of ten pixels, the column of rank `n / 10` from the left is at the border, that of the same rank from the right is not.
* –, `Verif.IO.dip_kept_violated`: Violated: the smoothing is one-sided. A lone dip, however deep, is left as it is by a pass, for all windows of three samples and more and all clippings.
* –, `Verif.IO.drawing_changes_violated`: (side effect, violated): drawing a near-field changes it: an imprint whose maximum is positive and not one is not the same afterwards, in any pixel where it is not zero; a file saved after the picture differs from one saved before it.
* –, `Verif.IO.excel_violated`: (violated): a spreadsheet is never converted; whatever the names, no file is written.
* –, `Verif.IO.json_directory_violated`: (violated): of two parset files with the same name in different directories, only the last one exported is kept.
* –, `Verif.IO.json_name_violated`: (violated): so are two different names of one directory, as the extension is replaced everywhere.
* –, `Verif.IO.keyword_twice_violated`: (keywords refused, violated): the centre, the radius and the label of the bar cannot be chosen although the other arguments of `plot` can: they always raise.
* –, `Verif.IO.lane_digits_violated`: (violated): lanes of two digits or more are refused.
* –, `Verif.IO.lane_dot_violated`: (violated): any character may stand for the dot.
* –, `Verif.IO.name_border_violated`: (names at the border, violated): a source seen in one pixel of the border only, not in a corner, keeps its name at the border, although names are to be moved from there.
* –, `Verif.IO.names_four_violated`: (four pixels, violated): with two pixels a side all distances are the same and are cut to zero: a name to be moved is written at the first pixel, whatever the imprint.
* –, `Verif.IO.outside_violated`: (names outside, violated): in a field of view narrower than 12.5 degrees, listed sources outside the radius drawn are named: all those up to eight tenths of the field of view.
* –, `Verif.IO.pixel_shift_violated`: (centres of pixels, violated): but it is not at the centre of the cell, except in the middle: the shift grows to half a cell at the edges.
* –, `Verif.IO.raw_digits_violated`: (violated): of the lane of a raw file only the last digit is read, so that those which differ by tens are confused.
* –, `Verif.IO.unnamed_violated`: (names left out, violated): in any field of view wider than 12.5 degrees, as the one by default, a listed source can be inside the radius drawn and have no name: all those farther than eight tenths of the field of view.
* –, `Verif.IO.user_text_violated`: (keywords, violated): the text of the user is drawn or dropped depending on the sky: it is dropped exactly when names are asked for and a listed source is in the field.
* –, `Verif.Instru.all_built_violated`: (violated): once all mini-arrays are built, so that the column has numbers only, no table can be made.
* –, `Verif.Instru.gain_gap_violated`: A table whose azimuths begin after 0 has no gain before its first azimuth, although the grid goes all around the sky.
* –, `Verif.Instru.latitude_violated`: (violated): every latitude south of the equator is written as a longitude, from 270 to 360 degrees.
* –, `Verif.Instru.map_moved_violated`: The map of any resolution has rings which are moved, so that it is not the reversed one.
* –, `Verif.Instru.repeated_violated`: (violated): of two rows with the same number only the last is told, without any error.

## Modelled code

Lines of `/repo/nenupy` cited by the definitions of the model, by file, followed by the functions of that file which are not modelled (plots, text output and trivial accessors included).

* `__init__.py`. Not modelled: HiddenPrints.__enter__, HiddenPrints.__exit__, getDefaultArgs, logdebug, logdebug.wrapper, LogMethodMetaClass.__new__, DummyCtMgr.__enter__, DummyCtMgr.__exit__.
* `astro/astro_tools.py`. Modelled: 68-79 (`bodies`, Contam/Sources.lean); 90-138 (`Lib`, Contam/Sources.lean); 92 (`timeArg`, Astro/Session.lean); 191-202 (`fastLst`, Geom/Site.lean); 199,202,323 (`wrap360`, Geom/Site.lean); 220-248 (`toLocalTime`, Cnst/Zone.lean); 220-248 (`toLocal`, Geom/Site.lean); 239 (`Zone`, Cnst/Zone.lean); 239 (`Zone`, Geom/Site.lean); 240 (`offsetsOf`, Cnst/Zone.lean); 240 (`smallest`, Cnst/Zone.lean); 240 (`chosen`, Cnst/Zone.lean); 240-243 (`localOffset`, Cnst/Zone.lean); 240-243 (`Zone.offset`, Geom/Site.lean); 240-248 (`toLocals`, Geom/Site.lean); 256-323 (`fastHourAngle`, Geom/Site.lean); 323 (`spread`, Astro/UvwRun.lean); 323,565-566 (`oneTurn`, Geom/Horizon.lean); 402-458 (`fastAltaz`, Geom/Horizon.lean); 402-450 (`toAltaz`, Geom/Model.lean); 403-405,1198-1207 (`orders`, Astro/BeamCor.lean); 434 (`sinEl`, Geom/Model.lean); 539-566 (`fastRadec`, Geom/Horizon.lean); 539-568 (`toHadec`, Geom/Model.lean); 580-649 (`parallactic`, Geom/Site.lean); 642 (`arctan2`, Geom/Site.lean); 642-645 (`rawParallactic`, Geom/Site.lean); 647 (`wrapTurn`, Geom/Site.lean); 657-698 (`skyTemp`, Instru/Radio.lean); 692-695 (`waveOf`, Instru/Radio.lean); 756-761 (`dispDelay`, TF/Model.lean); 805-843 (`Heap`, Geom/Lambert.lean); 805-843 (`l93ToEtrs`, Geom/Lambert.lean); 805,886 (`PosCall`, Geom/Lambert.lean); 805-927 (`PosCall.after`, Geom/Lambert.lean); 805-927 (`posCalls`, Geom/Lambert.lean); 830-833,904-908 (`Arr`, Geom/Lambert.lean); 830 (`threeCols`, Geom/Lambert.lean); 838-842 (`Held`, Geom/Lambert.lean); 838 (`Heap.set`, Geom/Lambert.lean); 838-842,914-918 (`triple`, Geom/Lambert.lean); 838 (`towardsZero`, Geom/Lambert.lean); 838 (`storedAs`, Geom/Lambert.lean); 838 (`rowOf`, Geom/Lambert.lean); 838-842 (`convertHeld`, Geom/Lambert.lean); 852-880 (`geoToL93`, Geom/Lambert.lean); 872,966 (`Loc.all`, Geom/Lambert.lean); 886-927 (`l93ToGeo`, Geom/Lambert.lean); 923-927 (`Loc`, Geom/Lambert.lean); 935-980 (`geoToOrn`, Geom/Lambert.lean); 988-1030 (`geoToEtrs`, Geom/Site.lean); 1016 (`earthB`, Geom/Site.lean); 1017 (`earthA`, Geom/Site.lean); 1018 (`earthE`, Geom/Site.lean); 1026 (`earthN`, Geom/Site.lean); 1097-1112 (`sub`, Geom/Model.lean); 1097-1112 (`transpose`, Geom/Model.lean); 1097-1112 (`etrsToEnu`, Geom/Model.lean); 1102-1110 (`enuMatrix`, Geom/Model.lean); 1123 (`horizonPoints`, Astro/Horizon.lean); 1123 (`horizonAzimuth`, Astro/Horizon.lean); 1124-1129 (`horizonAt`, Astro/Horizon.lean); 1130-1144 (`horizonRegion`, Astro/Horizon.lean); 1131-1135 (`regionHeader`, Astro/Horizon.lean); 1138-1141 (`addVertex`, Astro/Horizon.lean); 1182-1216 (`Track`, Instru/Analog.lean); 1183-1207 (`Track.horizontal`, Instru/Analog.lean); 1198-1207 (`SitePointing.seen`, Astro/Drift.lean); 1210-1216 (`SitePointing`, Astro/Drift.lean); 1219-1250 (`groundProj`, Geom/Model.lean); 1318-1323 (`faradayAngle`, TF/Stokes.lean). Not modelled: SolarSystemSource.__contains__, wavelength, AstroObject.frequency, AstroObject.local_sidereal_time, AstroObject.hour_angle.
* `astro/beam_correction.py`. Modelled: 41-77 (`dreamTimes`, TF/DreamBeam.lean); 61-63 (`micro`, TF/DreamBeam.lean); 118-119,134-137 (`projectionTimes`, Astro/BeamCor.lean); 135 (`secondsOf`, Astro/BeamCor.lean); 135 (`matrixCount`, Astro/BeamCor.lean); 170-179 (`hdf5Check`, Astro/BeamCor.lean); 281-300 (`realPointing`, Astro/BeamCor.lean); 281-327,341 (`factor`, Astro/BeamCor.lean); 301-322 (`beamValue`, Astro/BeamCor.lean); 303,314 (`dirAt`, Astro/BeamCor.lean). Not modelled: convert_to_mueller.
* `astro/jones_mueller.py`. Modelled: 25-27 (`pauli`, Astro/Covariance.lean); 28 (`unitary`, Astro/Jones.lean); 29 (`unitaryInv`, Astro/Jones.lean); 56-64 (`Hand`, Astro/Jones.lean); 56-64 (`jonesCircularPolariser`, Astro/Jones.lean); 56-64 (`muellerCircularPolariser`, Astro/Jones.lean); 118-146 (`applyField`, Astro/Jones.lean); 148-169 (`rad`, Astro/Jones.lean); 148-169 (`jonesElliptical`, Astro/Jones.lean); 172-199 (`jonesRetarder`, Astro/Jones.lean); 201-220 (`toMueller`, Astro/Jones.lean); 205,214-216 (`kron`, Astro/Jones.lean); 211-219 (`muellerC`, Astro/Jones.lean); 256-263 (`mkMueller`, Astro/Jones.lean); 266-291 (`muellerElliptical`, Astro/Jones.lean); 294-313 (`muellerRetarder`, Astro/Jones.lean); 315-334 (`toHermitian`, Astro/Covariance.lean); 317-318 (`documentedMatrix`, Astro/PropsCovariance.lean); 323-330 (`sigmaIJ`, Astro/Covariance.lean); 327 (`conjM`, Astro/Covariance.lean); 327 (`kronOf`, Astro/Covariance.lean); 336-408 (`atan2`, Astro/Jones.lean); 336-408 (`toJones`, Astro/Jones.lean); 425-428,459-467,556-558 (`stokesCircular`, Astro/Jones.lean); 459-467 (`jonesCircular`, Astro/Jones.lean); 487-497 (`Field`, Astro/Jones.lean); 487-497 (`fieldLinear`, Astro/Jones.lean); 501-506 (`fieldCircular`, Astro/Jones.lean); 508-522 (`toStokes`, Astro/Jones.lean); 542-554 (`stokesElliptical`, Astro/Jones.lean); 560-573 (`stokesToJones`, Astro/Jones.lean). Not modelled: PolarizerMatrix.__new__, PolarizerMatrix.__array_finalize__, PolarizerMatrix.elliptical, PolarizerMatrix.linear_retarder, PolarizerMatrix.linear, PolarizerMatrix.quarter_waveplate_retarder, PolarizerMatrix.half_waveplate_retarder, PolarVector.__new__, PolarVector.linear, PolarVector.circular, PolarVector.horizontal, PolarVector.vertical, PolarVector.diagonal, PolarVector.anti_diagonal, JonesVector.__new__, StokesVector.__new__.
* `astro/pointing.py`. Modelled: 53-112 (`samePointing`, IO/SstEq.lean); 102-111 (`Dirs.count`, Astro/BeamCor.lean); 102-111 (`Dirs.list`, Astro/BeamCor.lean); 102-111,867 (`SitePointing`, Astro/Drift.lean); 102-111 (`Dirs`, Astro/Pointing.lean); 102-111,281-294 (`Pointing`, Astro/Pointing.lean); 102-111,281-294 (`mkPointing`, Astro/Pointing.lean); 102-111 (`Track`, Instru/Analog.lean); 118-202 (`SitePointing.look`, Astro/Drift.lean); 121 (`Pointing.durOf`, Astro/Pointing.lean); 126-134 (`Pointing.dirList`, Astro/Pointing.lean); 142-168 (`Pointing.at`, Astro/Pointing.lean); 144 (`Pointing.hits`, Astro/Pointing.lean); 166-180 (`lookIn`, Astro/Drift.lean); 170-180 (`customAt`, Astro/Drift.lean); 182-202,297-316 (`SitePointing.seen`, Astro/Drift.lean); 259-263 (`TimeArg`, Astro/Drift.lean); 259-263 (`TimeArg.list`, Astro/Drift.lean); 297-316 (`orders`, Astro/BeamCor.lean); 298-316 (`Track.horizontal`, Instru/Analog.lean); 418-453 (`fromBst`, Astro/Pointing.lean); 425-435 (`interp`, Astro/Pointing.lean); 425-435 (`linspace`, Astro/Pointing.lean); 425-435 (`bstTrack`, Astro/Pointing.lean); 496-566,598-605 (`fromAltazA`, Astro/Pointing.lean); 507-508,577-578 (`beamRows`, Astro/Pointing.lean); 551-555 (`padRows`, Astro/Pointing.lean); 557-566 (`diffs`, Astro/Pointing.lean); 557-566 (`closedRows`, Astro/Pointing.lean); 567-605 (`fromAltazB`, Astro/Pointing.lean); 587 (`insertBeforeLast`, Astro/Pointing.lean); 658-663 (`targetTracking`, Astro/Drift.lean); 659,859-862 (`shaped`, Astro/Drift.lean); 728-762 (`targetTransit`, Astro/Pointing.lean); 741-742 (`transitSteps`, Astro/Pointing.lean); 846-868 (`azelDrift`, Astro/Drift.lean); 913-919 (`zenithTracking`, Astro/Drift.lean). Not modelled: Pointing.__str__, Pointing.time, Pointing.duration, Pointing.plot.
* `astro/sky.py`. Modelled: 67-81 (`SkyPart`, Astro/SkyImage.lean); 84-90 (`SkyPart.sub`, Astro/SkyImage.lean); 223-235 (`PlotArgs`, Astro/SkyPlot.lean); 223-513 (`skyPlot`, Astro/SkyPlot.lean); 243,502-513 (`figuresAfter`, Astro/SkyPlot.lean); 244-257 (`AxArg`, Astro/SkyPlot.lean); 244-257 (`placed`, Astro/SkyPlot.lean); 265-274 (`alphaOf`, Astro/SkyPlot.lean); 274 (`greatest`, Astro/SkyPlot.lean); 277-278 (`scaled`, Astro/SkyPlot.lean); 280-281 (`limitsOf`, Astro/SkyPlot.lean); 284-513 (`SkyDrawn`, Astro/SkyPlot.lean); 332-339 (`cardinals`, Astro/SkyPlot.lean); 403-404 (`mocsDrawn`, Astro/SkyPlot.lean); 436-483 (`Triple`, Astro/SkyPlot.lean); 436-453 (`marksOf`, Astro/SkyPlot.lean); 455-475 (`textsOf`, Astro/SkyPlot.lean); 464,471 (`Texts`, Astro/SkyPlot.lean); 467-475 (`written`, Astro/SkyPlot.lean); 471 (`Texts.items`, Astro/SkyPlot.lean); 477-495 (`contourOf`, Astro/SkyPlot.lean); 484-489 (`contourGrid`, Astro/SkyPlot.lean); 547-550 (`imageScale`, Astro/SkyImage.lean); 551-556 (`imageDims`, Astro/SkyImage.lean); 558-561 (`aitoffPixel`, Astro/SkyImage.lean); 559 (`pixelSize`, Astro/SkyImage.lean); 561 (`aitoff`, Astro/SkyImage.lean); 564,652 (`wcsShape`, Astro/SkyPlot.lean); 567-602 (`skyImage`, Astro/SkyImage.lean); 569-598 (`Spot`, Astro/SkyImage.lean); 571-573 (`Canvas`, Astro/SkyImage.lean); 571,602,669-675 (`imageGrid`, Astro/SkyPlot.lean); 573,597-598 (`weightsOf`, Astro/SkyImage.lean); 575-578 (`Spot.pixel`, Astro/SkyImage.lean); 576-579 (`inside`, Astro/SkyImage.lean); 583-590 (`Spot.shown`, Astro/SkyImage.lean); 596 (`clear`, Astro/SkyImage.lean); 599 (`plusNan`, Astro/SkyImage.lean); 599 (`addAll`, Astro/SkyImage.lean); 600 (`divideAll`, Astro/SkyImage.lean); 690,892 (`timeArg`, Astro/Session.lean); 696-701 (`skyNew`, Astro/Sky.lean); 696-810 (`SkyOp`, Astro/Sky.lean); 696-810 (`SkyOp.step`, Astro/Sky.lean); 716-730 (`Arr.zip`, Astro/Sky.lean); 716-721 (`skyDiv`, Astro/Sky.lean); 724-730 (`Arr`, Astro/Sky.lean); 724-730 (`World`, Astro/Sky.lean); 724-730 (`World.arr?`, Astro/Sky.lean); 724-730 (`Factor`, Astro/Sky.lean); 724-730 (`factorVals`, Astro/Sky.lean); 724-730 (`augment`, Astro/Sky.lean); 724-730 (`skyMul`, Astro/Sky.lean); 733-750 (`Ix`, Astro/Sky.lean); 733-750 (`Ix.dims`, Astro/Sky.lean); 733-750 (`Ix.sel`, Astro/Sky.lean); 733-750 (`SliceOut`, Astro/Sky.lean); 733-750 (`skySlice`, Astro/Sky.lean); 759-777 (`Dims`, Astro/Sky.lean); 759-777 (`Dims.size`, Astro/Sky.lean); 759-777 (`SkyObj`, Astro/Sky.lean); 759-777 (`setRef`, Astro/Sky.lean); 759-777 (`NewVal`, Astro/Sky.lean); 759-777 (`skySetValue`, Astro/Sky.lean); 760-777 (`hpxGsm`, Astro/Gsm.lean); 761-766 (`HpxShape.dims`, Astro/Gsm.lean); 784-810 (`skySetAxes`, Astro/Sky.lean); 863-873 (`lmn`, Geom/Model.lean); 904-924,760-777 (`tvSky`, IO/TvFits.lean); 968-989 (`resolIndex`, Astro/Sky.lean); 968-989,949-962 (`shapedIndex`, Astro/SkyImage.lean). Not modelled: SkySliceBase.visible_sky, SkySlice.__init__, HpxSkySlice.__init__, Sky.shape, Sky.visible_mask, HpxSky.__getitem__.
* `astro/skymodel.py`. Modelled: 57-72,97-102 (`HpxShape`, Astro/Gsm.lean); 57-70 (`hpxGsm`, Astro/Gsm.lean); 60,267 (`Freqs`, Astro/Gsm.lean); 74-102 (`gsmShapedLike`, Astro/Gsm.lean); 104-167 (`addPoint`, Astro/PointSource.lean); 135-167 (`GsmSky`, Astro/PointSource.lean); 135-139 (`Added`, Astro/PointSource.lean); 135-139 (`addedOf`, Astro/PointSource.lean); 142 (`isClose`, Astro/PointSource.lean); 142 (`allClose`, Astro/PointSource.lean); 142-143 (`atTimes`, Astro/PointSource.lean); 146-154 (`SrcPix`, Astro/PointSource.lean); 146-158 (`SrcPix.pixAt`, Astro/PointSource.lean); 156-167 (`shapeOf`, Astro/PointSource.lean); 164-165 (`onePixel`, Astro/PointSource.lean); 169-209 (`addSnr`, Astro/PointSource.lean); 201 (`skyMean`, Astro/PointSource.lean); 202 (`skyStd`, Astro/PointSource.lean); 213-257 (`gsmMap`, Astro/Gsm.lean); 223-257 (`HpxMap`, Astro/Gsm.lean); 224-250,311-317 (`GsmLib`, Astro/Gsm.lean); 225,311,236-237 (`generate`, Astro/Gsm.lean); 228-233 (`regrade`, Astro/Gsm.lean); 246-248,317 (`rotateMaps`, Astro/Gsm.lean); 253-257 (`Arr4`, Astro/Gsm.lean); 254 (`tiled`, Astro/Gsm.lean); 255 (`moveAxis`, Astro/Gsm.lean); 267-269,308-317 (`skymodelData`, Astro/Gsm.lean); 280-296 (`altazMap`, Astro/LocalMap.lean); 281-282 (`linDeg`, Astro/LocalMap.lean); 281-282 (`linChecked`, Astro/LocalMap.lean); 283 (`meshDeg`, Astro/LocalMap.lean); 293-296 (`LocalMap`, Astro/LocalMap.lean); 298-304 (`toSky`, Astro/LocalMap.lean); 300-306 (`toSky`, Instru/Current.lean); 303 (`skyFlat`, Astro/LocalMap.lean); 303 (`reshapeSky`, Astro/LocalMap.lean); 311 (`Freqs.mhz`, Astro/Gsm.lean). Not modelled: Skymodel.radec_project.
* `astro/target.py`. Modelled: 71,292,370,418,515,565,616,694,752,810,888,946,1145,1168,1282,1306 (`timeArg`, Astro/Session.lean); 92-104 (`circumpolar`, Geom/Model.lean); 108-113 (`culminationAzimuth`, Geom/Model.lean); 117-139 (`elevationMin`, Geom/Model.lean); 143-164 (`elevationMax`, Geom/Model.lean); 207 (`sepList`, Instru/CommonBeam.lean); 291-365,615-690,809-884 (`findCall`, Astro/Session.lean); 358-360 (`transitPair`, Astro/Cross.lean); 369-414 (`transitTimes`, Astro/Interp.lean); 378-382 (`sampleStep`, Astro/Interp.lean); 383 (`sampleCount`, Astro/Interp.lean); 387 (`sampleTime`, Astro/Interp.lean); 404-406 (`turns`, Astro/Interp.lean); 406 (`flatHa`, Astro/Interp.lean); 490-501 (`wrapDeg`, Astro/Cross.lean); 490-501 (`azCircPair`, Astro/Cross.lean); 502-504 (`azPair`, Astro/Cross.lean); 513-560,692-748,750-806,886-942,944-1000 (`TimedCall`, Astro/Session.lean); 682-684 (`risePair`, Astro/Cross.lean); 693-748,887-942 (`nextCall`, Astro/Session.lean); 693-748,887-942 (`nextRun`, Astro/Session.lean); 740-748,934-942 (`nextCrossing`, Astro/Cross.lean); 751-806,945-1000 (`previousCall`, Astro/Session.lean); 798-806,992-1000 (`previousCrossing`, Astro/Cross.lean); 876-878 (`setPair`, Astro/Cross.lean); 1017-1063 (`findCrossings`, Astro/Cross.lean); 1030-1038 (`maxDt`, Astro/Cross.lean); 1030-1038 (`downFactor`, Astro/Cross.lean); 1041-1063 (`pass`, Astro/Cross.lean); 1041-1063 (`refine`, Astro/Cross.lean); 1045-1051 (`rowHits`, Astro/Cross.lean); 1083,1086 (`interpUnit`, Astro/Interp.lean); 1083-1088 (`interpTimes`, Astro/Interp.lean); 1084 (`maxTo`, Astro/Interp.lean); 1084 (`cycles`, Astro/Interp.lean); 1085 (`crossValues`, Astro/Interp.lean); 1086 (`leftOf`, Astro/Interp.lean); 1214-1224,1326-1340 (`Src`, Astro/PointSource.lean); 1214-1224,1326-1340 (`Src.update`, Astro/PointSource.lean); 1227-1234,1344-1350 (`shaped`, Astro/Drift.lean); 1303-1323 (`Heavens`, Parset/Center.lean). Not modelled: Target.time, Target.plot, Target.update_time, Target._get_source_coordinates, FixedTarget.horizontal_coordinates, SolarSystemTarget.horizontal_coordinates.
* `astro/uvw.py`. Modelled: 48-119 (`computeUvw`, Astro/UvwRun.lean); 50 (`UvwCentre`, Astro/UvwRun.lean); 51,156 (`timeArg`, Astro/Session.lean); 57-58 (`itrfBaselines`, Astro/UvwRun.lean); 63-75 (`centreRa`, Astro/UvwRun.lean); 63-78 (`centreDec`, Astro/UvwRun.lean); 76,87 (`inRad`, Astro/UvwRun.lean); 106-119 (`projected`, Astro/UvwRun.lean); 106-114 (`uvwMatrix`, Geom/Model.lean); 117 (`neg`, Geom/Model.lean); 117 (`mulVec`, Geom/Model.lean); 117 (`uvw`, Geom/Model.lean); 129-141 (`uvCoverage`, Astro/Uv.lean); 132-134 (`nAntennas`, Astro/Uv.lean); 135,139 (`crossMask`, Astro/Uv.lean); 139 (`Uvw`, Astro/Uv.lean); 139 (`flipped`, Astro/Uv.lean); 139 (`asUvw`, Astro/UvwRun.lean); 144-147 (`uvDistance`, Astro/Uv.lean); 150-165 (`coverageOf`, Astro/UvwRun.lean); 167-176 (`coverageXst`, Astro/UvwRun.lean); 207-227,289 (`radialProfile`, Astro/UvProfile.lean); 207-289 (`radialReturn`, Astro/UvReturn.lean); 208-210,311-313 (`keptHalf`, Astro/UvProfile.lean); 211,314 (`uvLength`, Astro/UvProfile.lean); 216-221,320-325 (`binCount`, Astro/UvProfile.lean); 217 (`lowestOf`, Astro/UvProfile.lean); 218,226,329 (`highestOf`, Astro/UvProfile.lean); 221,325 (`edgeAt`, Astro/UvProfile.lean); 221-225 (`radialRaw`, Astro/UvProfile.lean); 222,225,326-328 (`binHits`, Astro/UvProfile.lean); 223,327 (`binMiddle`, Astro/UvProfile.lean); 231 (`peakRank`, Astro/UvReturn.lean); 289,373 (`stdTwo`, Astro/UvReturn.lean); 310-331 (`azimuthalProfile`, Astro/UvProfile.lean); 310-373 (`azimuthalReturn`, Astro/UvReturn.lean); 315 (`uvAngle`, Astro/UvProfile.lean); 329 (`azimuthalDensity`, Astro/UvReturn.lean); 398-403 (`crossOnly`, Astro/UvProfile.lean); 398-409,439 (`psf`, Astro/UvProfile.lean); 401-405 (`histRank`, Astro/UvProfile.lean); 401-405 (`gridCell`, Astro/UvProfile.lean); 401-405 (`uvGrid`, Astro/UvProfile.lean); 408 (`gridPhase`, Astro/UvProfile.lean); 408 (`gridFft`, Astro/UvProfile.lean); 457-465 (`inWaves`, Astro/UvPlot.lean); 473 (`lowestUv`, Astro/UvPlot.lean); 473-477,491 (`uvExtent`, Astro/UvPlot.lean); 474 (`highestUv`, Astro/UvPlot.lean); 475-477 (`withMargin`, Astro/UvPlot.lean). Not modelled: UV_Coverage._prepare_plot.
* `beamlet/beamlet.py`. Modelled: 61-83 (`listed`, IO/Slices.lean); 91-110 (`File`, Bst/Model.lean). Not modelled: Beamlet.__init__, Beamlet.t_min, Beamlet.t_max.
* `beamlet/bstdata.py`. Modelled: 112-120 (`start`, Bst/Model.lean); 117-120 (`bstInit`, IO/Slices.lean); 189-199 (`masOf`, Bst/Model.lean); 229-239 (`beamBeamlets`, Bst/Model.lean); 229-255 (`BstFile`, IO/Slices.lean); 229-255 (`BstFile.current`, IO/Slices.lean); 243-255 (`beamFreqs`, Bst/Model.lean); 254 (`halfWidth`, Bst/Model.lean); 254 (`hbw`, IO/Slices.lean); 259-271 (`freqOf`, Bst/Model.lean); 267-271 (`announced`, IO/Slices.lean); 284,609 (`pickAt`, Bst/Model.lean); 290-312 (`anaAims`, Bst/Model.lean); 316-335 (`utana`, Bst/Model.lean); 332-334,381-383 (`ranges`, Bst/Model.lean); 332-334,381-383 (`stacked`, Bst/Model.lean); 365-384 (`utdig`, Bst/Model.lean); 401-610 (`Left`, Bst/Model.lean); 401-416 (`setAbeam`, Bst/Model.lean); 402,433 (`Given`, Bst/Model.lean); 412,443,474-475,545-546,608-609 (`State`, Bst/Model.lean); 432-448 (`setDbeam`, Bst/Model.lean); 432-448 (`BstState`, IO/Slices.lean); 432-448 (`setBeam`, IO/Slices.lean); 447 (`followAbeam`, Bst/Model.lean); 463-476 (`setPolar`, Bst/Model.lean); 474,534 (`positions`, Bst/Model.lean); 523-547 (`setTime`, Bst/Model.lean); 526-534,590-597 (`chosenIn`, Bst/Model.lean); 528,591 (`nearest`, Bst/Model.lean); 585-610 (`setFreq`, Bst/Model.lean); 585-610 (`setRange`, IO/Slices.lean); 615,656-674 (`Kwargs`, Bst/Model.lean); 615-648 (`select`, Bst/Model.lean); 635-648 (`bstSelect`, IO/Slices.lean); 636-644 (`readAt`, Bst/Model.lean); 636-648 (`readState`, Bst/Model.lean); 643-648 (`Selected`, Bst/Model.lean); 653-675 (`fillAttr`, Bst/Model.lean); 671-674 (`thenSet`, Bst/Model.lean). Not modelled: BST_Data.bstfile, BST_Data.abeams, BST_Data.dbeams, BST_Data.marot, BST_Data.ants, BST_Data.azdig, BST_Data.eldig, BST_Data.abeam.
* `beamlet/sdata.py`. Modelled: 177-181 (`SData`, IO/Slices.lean); 188-219 (`hstack3`, IO/Slices.lean); 188-219 (`sdataAnd`, IO/Slices.lean); 199 (`closeTimes`, IO/Slices.lean); 222-252 (`sdataOr`, IO/Slices.lean); 255-292 (`sdataOp`, IO/Slices.lean); 255-332,762-778 (`withOther`, IO/Treat.lean); 300-380 (`SCube`, IO/Draw.lean); 334-347 (`PySlice`, IO/SDataCut.lean); 334-347 (`SData.item`, IO/SDataCut.lean); 337-341 (`CutArg`, IO/SDataCut.lean); 337-341 (`CutArg.slices`, IO/SDataCut.lean); 342-347 (`SData.part`, IO/SDataCut.lean); 343-346 (`PySlice.stride`, IO/SDataCut.lean); 343-346 (`clipUp`, IO/SDataCut.lean); 343-346 (`clipDown`, IO/SDataCut.lean); 343-346 (`PySlice.first`, IO/SDataCut.lean); 343-346 (`PySlice.last`, IO/SDataCut.lean); 343-346 (`PySlice.count`, IO/SDataCut.lean); 343-346 (`PySlice.ranks`, IO/SDataCut.lean); 343-346 (`takeRanks`, IO/SDataCut.lean); 354-356 (`Slice.toSData`, IO/SliceCut.lean); 354-364 (`mkSData`, IO/Slices.lean); 355-362 (`readState`, Bst/Model.lean); 355-409 (`labels`, TF/Run.lean); 361 (`stokesShape`, Dyn/Model.lean); 394-409 (`stokesPolar`, Dyn/Model.lean); 460 (`squeeze`, Dyn/Model.lean); 475-485 (`SData.medianF`, IO/SDataCut.lean); 481 (`SData.column`, IO/SDataCut.lean); 482 (`SData.midTime`, IO/SDataCut.lean); 489-499 (`SData.medianT`, IO/SDataCut.lean); 495 (`spectrumOf`, IO/SDataCut.lean); 503-535 (`Cube`, IO/Treat.lean); 504-535 (`background`, IO/Treat.lean); 529 (`profMax`, IO/Treat.lean); 539-550 (`fBackground`, IO/Treat.lean); 559-732 (`SDrawing`, IO/Draw.lean); 559-732 (`sPlot`, IO/Draw.lean); 563-570 (`polPlace`, IO/Draw.lean); 572-681 (`sShape`, IO/Draw.lean); 577 (`inDb`, IO/Draw.lean); 577 (`drawnAs`, IO/Draw.lean); 619-630 (`percentile`, IO/Draw.lean); 619-630 (`colourLimits`, IO/Draw.lean); 682-708 (`axisOf`, IO/Draw.lean); 683-707 (`YScale`, IO/Draw.lean); 686-703 (`Axis`, IO/Draw.lean); 687-702 (`scaleNamed`, IO/Draw.lean); 718-732 (`sEnd`, IO/Draw.lean); 737-761 (`conform`, IO/Slices.lean); 762-778 (`Other`, IO/Treat.lean). Not modelled: SData.__repr__, SData.shape, SData.mjd, SData.jd, SData.datetime, SData.db.
* `beamlet/sstdata.py`. Modelled: 206-215 (`Sst`, IO/Sst.lean); 206-215 (`openSst`, IO/Sst.lean); 243-252 (`addSst`, IO/Sst.lean); 250 (`dictMerge`, IO/Sst.lean); 255-259 (`sumSst`, IO/Sst.lean); 262-292 (`subSst`, IO/Sst.lean); 267-282 (`dropBase`, IO/Sst.lean); 295-316 (`eqSst`, IO/SstEq.lean); 295 (`neSst`, IO/SstEq.lean); 298-300 (`sstEq`, IO/Slices.lean); 298-301 (`sameFiles`, IO/SstEq.lean); 303-312 (`samePointing`, IO/SstEq.lean); 321-336 (`Sst.names`, IO/Sst.lean); 337-347 (`setFiles`, IO/Sst.lean); 369-381 (`getTimeRange`, IO/Sst.lean); 393-405 (`getFreqRange`, IO/Sst.lean); 417-429 (`getPolar`, IO/Sst.lean); 430-441 (`setPolar`, IO/Sst.lean); 444-456 (`getMa`, IO/Sst.lean); 457-473 (`setMa`, IO/Sst.lean); 464-472 (`maIn`, IO/Sst.lean); 464-472 (`maAll`, IO/Sst.lean); 476-517 (`minOf`, IO/Sst.lean); 476-517 (`maxOf`, IO/Sst.lean); 485 (`Sst.tMin`, IO/Sst.lean); 497 (`Sst.tMax`, IO/Sst.lean); 507 (`Sst.fMin`, IO/Sst.lean); 517 (`Sst.fMax`, IO/Sst.lean); 520-530 (`masOf`, IO/PropsSst.lean); 535-561 (`SstArg`, IO/Sst.lean); 535-627 (`selectSst`, IO/Sst.lean); 559-561,382-390,406-414 (`setArg`, IO/Sst.lean); 559-561 (`setArgs`, IO/Sst.lean); 572-621 (`fileStep`, IO/Sst.lean); 572-621 (`fileLoop`, IO/Sst.lean); 574-579 (`sstSkipped`, IO/Slices.lean); 574-577 (`dictGet`, IO/Sst.lean); 574-577 (`pairOf`, IO/Sst.lean); 582-614 (`fileData`, IO/Sst.lean); 583-602 (`axisMask`, IO/Sst.lean); 593-608 (`SstContent`, IO/Sst.lean); 608-613 (`keepMask`, IO/Sst.lean); 610 (`lastIndex`, IO/Sst.lean); 639-650 (`SstProps`, IO/Sst.lean); 639-650 (`dictSet`, IO/Sst.lean); 661-688 (`bounds`, IO/Sst.lean). Not modelled: SST_Data.__str__, SST_Data.altazA, SST_Data._getPropList.
* `instru/antenna.py`. Modelled: 107-120 (`Grid`, Instru/Cst.lean); 107-121 (`interpolator`, Instru/Cst.lean); 110,192-195 (`cell`, Instru/Cst.lean); 110-115,191-198 (`gridOf`, Instru/Cst.lean); 117-121 (`monotonic`, Instru/Cst.lean); 117-121,137 (`lerp`, Instru/Cst.lean); 124-129 (`ringSize`, Instru/Cst.lean); 124-129 (`shifted`, Instru/Cst.lean); 124-129 (`pixels`, Instru/Cst.lean); 124-129 (`azimuth`, Instru/Cst.lean); 124-137 (`toHealpix`, Instru/Cst.lean); 137 (`rowsAt`, Instru/Cst.lean); 137 (`gainAt`, Instru/Cst.lean); 143-147 (`freqText`, Instru/Cst.lean); 144 (`after`, Instru/Cst.lean); 144 (`freqGroup`, Instru/Cst.lean); 165-174 (`columns`, Instru/Cst.lean); 172-174 (`column`, Instru/Cst.lean); 176-182 (`Row`, Instru/Cst.lean); 185-189 (`shape`, Instru/Cst.lean); 232-270 (`writeFile`, Instru/Cst.lean); 242-261 (`polColumns`, Instru/Cst.lean); 249-261 (`Model`, Instru/Cst.lean); 278-392 (`references`, Instru/Reference.lean); 324-330,407-427 (`measured`, Instru/Reference.lean); 332-335 (`polVectors`, Instru/Reference.lean); 341-342 (`antennas`, Instru/Reference.lean); 343 (`arrays`, Instru/Reference.lean); 343 (`rotation`, Instru/Reference.lean); 344 (`turnAngle`, Instru/Reference.lean); 345-352 (`turned`, Instru/Reference.lean); 359,376 (`antennaAt`, Instru/Reference.lean); 362,381-382 (`sortReals`, Instru/Reference.lean); 363-366,377-380 (`scalars`, Instru/Reference.lean); 372-376 (`candidates`, Instru/Reference.lean); 373,376-380 (`seenBy`, Instru/Reference.lean); 383 (`sameScalars`, Instru/Reference.lean); 384-390 (`Dipole`, Instru/Reference.lean). Not modelled: CSTModel.__init__, CSTModel.cst_file, CSTModel.x_column, CSTModel.y_column, CSTModel.gain_column, CSTModel.complex_gain, CSTModel.plot.
* `instru/instrument_tools.py`. Modelled: 85-92 (`freq2sb`, Instru/Model.lean); 90,143 (`sbWidth`, Instru/Model.lean); 100-142 (`sb2freq`, Parset/Text.lean); 131-145 (`sb2freq`, Instru/Model.lean); 131-145 (`rawChannels`, Raw/Model.lean); 139 (`width`, Parset/Text.lean); 153-201 (`instTemp`, Instru/Radio.lean); 189-192 (`Lna`, Instru/Radio.lean); 189-192 (`Lna.table`, Instru/Radio.lean); 199 (`stepBelow`, Instru/Radio.lean); 199 (`onSegment`, Instru/Radio.lean); 199 (`npInterp`, Instru/Radio.lean); 233-240 (`rotatedLike`, Instru/Model.lean); 272-289 (`calHeader`, Raw/Model.lean); 290-294 (`doubles`, Raw/Model.lean); 290-308 (`calTable`, Raw/Model.lean); 318-379 (`pickFrom`, Instru/Model.lean); 318-379 (`pick`, Instru/Model.lean); 318-379 (`subarrays`, Instru/Model.lean); 371 (`edge`, Instru/Model.lean); 372 (`inSub`, Instru/Model.lean); 400-431 (`lofarTemp`, Instru/CommonBeam.lean); 402-412,424 (`lbaPoly`, Instru/CommonBeam.lean); 413-423,425 (`hbaPoly`, Instru/CommonBeam.lean); 438-495,489-490 (`gridDir`, Instru/Grid.lean); 467-480 (`kOne`, Instru/Grid.lean); 474-479 (`step1`, Instru/Model.lean); 475-480 (`step2`, Instru/Model.lean); 484 (`gridCos`, Instru/Grid.lean); 497-551 (`toolsOrder`, Instru/Model.lean); 533-543 (`argminGrid`, Instru/Model.lean); 547 (`fixWrong`, Instru/Model.lean); 549 (`fixRight`, Instru/Model.lean); 553-565 (`toolsSteps`, Instru/Model.lean); 569-678 (`correction`, Instru/Squint.lean); 632,665-676 (`corrected`, Instru/Squint.lean); 635-651 (`yearTable`, Instru/Squint.lean); 654-658 (`CorTable`, Instru/Squint.lean); 657-662 (`cellOf`, Instru/Squint.lean); 657-662 (`gridValue`, Instru/Squint.lean); 661-662 (`bilinear`, Instru/Squint.lean); 672-676 (`checkAlt`, Instru/Squint.lean); 709-721 (`degrees`, Instru/Sheet.lean); 713 (`point`, Instru/Sheet.lean); 713-715 (`cleaned`, Instru/Sheet.lean); 717 (`turn`, Instru/Sheet.lean); 725-746 (`tableOf`, Instru/Sheet.lean); 725-760 (`fromSheet`, Instru/Sheet.lean); 733,736-737 (`Mark`, Instru/Sheet.lean); 733 (`Mark.isText`, Instru/Sheet.lean); 733 (`Mark.unbuilt`, Instru/Sheet.lean); 735-746 (`putItem`, Instru/Sheet.lean); 735-746 (`entries`, Instru/Sheet.lean); 736-745 (`Row`, Instru/Sheet.lean); 736-737 (`Mark.number`, Instru/Sheet.lean); 736-744 (`entryOf`, Instru/Sheet.lean); 737-744 (`Entry`, Instru/Sheet.lean); 738 (`towardsZero`, Instru/Sheet.lean). 
* `instru/interferometer.py`. Modelled: 76-90,227-228 (`maIn`, IO/Sst.lean); 126-132 (`itrfBaselines`, Astro/UvwRun.lean); 129-132 (`bsl`, Instru/Model.lean); 144-150 (`flatten`, Instru/Model.lean); 181-194 (`Interf`, Instru/Model.lean); 181-194 (`Interf.new`, Instru/Model.lean); 196-238 (`Interf.selectSlice`, Instru/Model.lean); 197-238 (`antennasOf`, IO/BeamSelect.lean); 197-238 (`seqContains`, IO/Sst.lean); 198-200 (`sliceIdx`, Instru/Model.lean); 212-238 (`Interf.mask`, Instru/Model.lean); 212-238 (`nameIn`, Instru/Model.lean); 212-238 (`Interf.selectNames`, Instru/Model.lean); 212-238 (`Interf.selectIdx`, Instru/Model.lean); 231-240 (`cutEtrs`, Geom/Lambert.lean); 232-238,252-257,263-268 (`assemble`, Instru/Model.lean); 235 (`Heap.alloc`, Geom/Lambert.lean); 235 (`cutRows`, Geom/Lambert.lean); 249-257 (`Interf.add`, Instru/Model.lean); 260-268 (`Interf.sub`, Instru/Model.lean); 274-281 (`Interf.size`, Instru/Model.lean); 378-389 (`checkWeights`, Instru/Model.lean); 378-406 (`Steering`, Instru/Model.lean); 378-406 (`Assign`, Instru/Model.lean); 378-406 (`Steering.set`, Instru/Model.lean); 385 (`outOfRange`, Instru/Model.lean); 399-406 (`checkDelays`, Instru/Model.lean); 713-733 (`complexFactor`, Geom/Model.lean); 737 (`arrayFactor`, Geom/Model.lean); 740-815 (`beamPower`, Geom/Beam.lean); 740-815 (`beamComplex`, Geom/Beam.lean); 782-783 (`maBeam`, Instru/Analog.lean); 795-801 (`meanAnt`, Geom/Beam.lean); 834-898 (`sysTemp`, Instru/Radio.lean); 894-897 (`srcTemp`, Instru/Radio.lean); 901-960,958 (`sefd`, Instru/Radio.lean); 959,1068-1070,1119 (`over`, Instru/Radio.lean); 963-1075 (`sensitivity`, Instru/Radio.lean); 1067-1071 (`ObsMode`, Instru/Radio.lean); 1078-1119 (`resolution`, Instru/Radio.lean); 1114-1117 (`waveOf`, Instru/Radio.lean); 1118 (`apart`, Instru/Radio.lean); 1118 (`longestOf`, Instru/Radio.lean); 1122-1190 (`confusion`, Instru/Radio.lean); 1195-1228 (`geoDelay`, Geom/Model.lean); 1195-1228 (`posAt`, Instru/Layout.lean); 1216-1223 (`rot90`, Geom/Model.lean). Not modelled: AntennaNameError.__init__, AntennaNameError.__str__, DuplicateAntennaError.__init__, DuplicateAntennaError.__str__, Baseline.__getitem__, Baseline.distance, Interferometer.__repr__, Interferometer.__str__, Interferometer.baselines, Interferometer.antenna_names, Interferometer.antenna_positions, Interferometer.antenna_position_geo, Interferometer.antenna_gains, Interferometer.position, Interferometer.antenna_weights, Interferometer.plot, Interferometer.plot_map, Interferometer.plot_map.image_spoof, Interferometer.effective_area, Interferometer.instrument_temperature.
* `instru/nda.py`. Modelled: 60-83 (`ndaValues`, Instru/Nda.lean); 73 (`ndaRaw`, Instru/Nda.lean); 76-82 (`ndaRotated`, Instru/Nda.lean); 82,89-95 (`ndaInterp`, Instru/Nda.lean); 83 (`ndaMax`, Instru/Nda.lean); 98-103,173-179 (`NdaPol`, Instru/Nda.lean); 101-103 (`ndaMap`, Instru/Nda.lean); 159-181 (`ndaGain`, Instru/Nda.lean); 173-179 (`ndaPol`, Instru/Nda.lean); 180 (`ndaAssign`, Instru/Nda.lean). Not modelled: NDA.__init__, NDA.effective_area, NDA.instrument_temperature.
* `instru/nenufar.py`. Modelled: 77-96 (`Response`, Instru/Reference.lean); 77-94 (`response`, Instru/Reference.lean); 81-85 (`firstReference`, Instru/Reference.lean); 101-131 (`antGain`, Geom/Beam.lean); 135-178 (`loadGain`, Geom/Beam.lean); 137-166 (`GainFile`, Geom/Beam.lean); 141-144 (`readNames`, Instru/Cst.lean); 156 (`gainFields`, Geom/Beam.lean); 156-166 (`readPol`, Instru/Cst.lean); 161-167 (`gainValues`, Geom/Beam.lean); 168 (`gainPeak`, Geom/Beam.lean); 172-176 (`baryWeight`, Geom/Beam.lean); 172-176,116 (`bary`, Geom/Beam.lean); 188-213 (`BeamConf`, Instru/Analog.lean); 204-213 (`FreqArg`, Instru/Analog.lean); 204-213 (`setFreq`, Instru/Analog.lean); 305-323 (`MaIndex`, Instru/Layout.lean); 305-349 (`maNew`, Instru/Layout.lean); 314 (`zeroPad`, Instru/Layout.lean); 314 (`maKey`, Instru/Layout.lean); 316-327 (`maTable`, Instru/Layout.lean); 320-323 (`MaErr`, Instru/Layout.lean); 325-326 (`latticePos`, Instru/Layout.lean); 325-338 (`layoutAt`, Instru/Layout.lean); 327-330 (`rotRad`, Instru/Layout.lean); 330-337 (`M3`, Geom/Model.lean); 330-337 (`maRotation`, Geom/Model.lean); 338 (`V3`, Geom/Model.lean); 338 (`vecMul`, Geom/Model.lean); 338 (`maPosition`, Geom/Model.lean); 400-402 (`antennaGeo`, Geom/Lambert.lean); 402 (`shiftRows`, Geom/Lambert.lean); 454-582 (`maBeam`, Instru/Analog.lean); 577-582 (`beamPower`, Geom/Beam.lean); 585-690 (`effectiveArea`, Instru/Area.lean); 651-658 (`discRadius`, Instru/Area.lean); 659,663-673 (`topOf`, Instru/Area.lean); 661-674 (`gridStart`, Instru/Area.lean); 663-675 (`gridAt`, Instru/Area.lean); 677-686 (`inDisc`, Instru/Area.lean); 683-690 (`covered500`, Instru/Area.lean); 683-690 (`areaWith`, Instru/Area.lean); 693-792,774 (`attenuation`, Instru/Squint.lean); 752-792 (`attenuation`, Geom/Beam.lean); 768-774 (`SkyObj`, Instru/Squint.lean); 768-771 (`SkyObj.stamp`, Instru/Squint.lean); 837-858,927-928 (`snap`, Instru/Analog.lean); 837-840 (`maSteps`, Instru/Model.lean); 843-858 (`maOrder`, Instru/Model.lean); 849-856 (`node`, Instru/Analog.lean); 850 (`angleOf`, Instru/Analog.lean); 850-856 (`argminGrid`, Instru/Model.lean); 857 (`fixWrong`, Instru/Model.lean); 861-902 (`squintDir`, Instru/Analog.lean); 861-902 (`squint`, Instru/Squint.lean); 887-889 (`firstLeast`, Instru/Squint.lean); 887-889 (`squintIndex`, Instru/Squint.lean); 888 (`squintFreqs`, Instru/Squint.lean); 892 (`npInterp`, Instru/Radio.lean); 892 (`squintPointed`, Instru/Squint.lean); 892 (`squintRow`, Instru/Squint.lean); 905-938 (`analogPoint`, Instru/Analog.lean); 917-931 (`analogDir`, Instru/Analog.lean); 957-968 (`polUsed`, Geom/Beam.lean); 972-975 (`miniItrf`, Astro/UvwRun.lean); 979-1012 (`gridDir`, Instru/Grid.lean); 984-998 (`kOne`, Instru/Grid.lean); 992-997 (`step1`, Instru/Model.lean); 993-998 (`step2`, Instru/Model.lean); 1002 (`gridCos`, Instru/Grid.lean); 1014-1041 (`uniqueIndex`, Instru/Model.lean); 1032-1041 (`antennaGroups`, Instru/Model.lean); 1106-1133 (`nenufarNew`, Instru/Analog.lean); 1110-1119 (`MaEntry`, Instru/Analog.lean); 1151-1156 (`rotationsOf`, Instru/Analog.lean); 1173-1178 (`setRemote`, Instru/Analog.lean); 1183,1243 (`PosCall`, Geom/Lambert.lean); 1243,1183 (`arrayOrn`, Geom/Lambert.lean); 1248-1363 (`arrayRun`, Instru/Analog.lean); 1248-1363 (`nenufarBeam`, Instru/Model.lean); 1326-1363 (`arrayBeam`, Geom/Beam.lean); 1334-1338 (`groups`, Instru/Model.lean); 1345-1356 (`groupMean`, Geom/Beam.lean); 1345-1354 (`groupBeams`, Instru/Analog.lean); 1345-1356 (`gainSum`, Instru/Model.lean); 1345-1356 (`meanGain`, Instru/Model.lean); 1418-1434 (`arrayArea`, Instru/Area.lean); 1478-1491 (`toItrf`, Geom/Lambert.lean); 1485 (`Heap.alloc`, Geom/Lambert.lean). Not modelled: MiniArrayUnknownIndex.__init__, MiniArrayUnknownIndex.__str__, MiniArrayBadIndexFormat.__init__, MiniArrayBadIndexFormat.__str__, MiniArray.__repr__, MiniArray.__str__, MiniArray.index, MiniArray.rotation, MiniArray.position_lambert93, MiniArray.position_lambertorn, MiniArray.instrument_temperature, NenuFAR.__repr__, NenuFAR.__str__, NenuFAR.miniarray_antennas, NenuFAR.include_remote_mas, NenuFAR.instrument_temperature.
* `io/bst.py`. Modelled: 100-111 (`analogBeam`, Bst/Model.lean); 111,160-162 (`Digital`, Bst/Model.lean); 111,160-162 (`indexOf`, Bst/Model.lean); 115-146 (`aimed`, Bst/Model.lean); 115-129 (`analogPointing`, Bst/Model.lean); 127-128,144-145 (`Aim`, Bst/Model.lean); 127-128,144-145 (`rowsOf`, Bst/Model.lean); 133-146 (`digitalPointing`, Bst/Model.lean); 150-163 (`beamFreqs`, Bst/Model.lean); 161-163 (`halfWidth`, Bst/Model.lean); 167-180 (`masOf`, Bst/Model.lean); 178-180 (`Analog`, Bst/Model.lean); 194-201 (`checkBeam`, Bst/Model.lean); 196 (`Given`, Bst/Model.lean); 206-303 (`get`, Bst/Model.lean); 257-303 (`bstColumns`, IO/Slices.lean); 260-303 (`getBeam`, Bst/Model.lean); 264-265 (`beamBeamlets`, Bst/Model.lean); 270 (`Op.holds`, IO/Slices.lean); 270 (`maskOf`, IO/Slices.lean); 270 (`defaultTimes`, IO/Slices.lean); 274-280 (`polGot`, Bst/Model.lean); 290-303 (`Slice`, Bst/Model.lean); 293 (`squeezed`, Bst/Model.lean). Not modelled: BST.__init__, BST.analog_beams, BST.digital_beams, BST.beam.
* `io/io_tools.py`. Modelled: 48-55 (`Op`, IO/Slices.lean); 107-137 (`File`, Bst/Model.lean); 140-164 (`splitAmp`, IO/Slices.lean); 140-164 (`readConds`, IO/Slices.lean); 140-164 (`parseConds`, IO/Slices.lean); 146-157 (`readCond`, IO/Slices.lean); 148-149 (`findOp`, IO/Slices.lean); 169,175 (`tagEq`, IO/Slices.lean); 229-242 (`sstGet`, Bst/SstGet.lean); 229-242 (`StVal`, IO/Draw.lean); 229-242 (`StSlice`, IO/Draw.lean); 229-242 (`Val`, IO/Slices.lean); 229-242 (`Slice`, IO/Slices.lean); 245-278 (`hstack`, IO/Slices.lean); 245-278 (`eqAll`, IO/Slices.lean); 245-278 (`allBefore`, IO/Slices.lean); 245-278 (`sliceAnd`, IO/Slices.lean); 281-318 (`sliceOr`, IO/Slices.lean); 321-336 (`Val.cut`, IO/SliceCut.lean); 321-336 (`Slice.item`, IO/SliceCut.lean); 324-328 (`CutArg.pair`, IO/SliceCut.lean); 329-336 (`Slice.part`, IO/SliceCut.lean); 427-441 (`Slice.toSData`, IO/SliceCut.lean); 588-605 (`Shape`, IO/Draw.lean); 588-605 (`stPlot`, IO/Draw.lean); 596-597 (`drawnAs`, IO/Draw.lean); 597 (`inDb`, IO/Draw.lean); 636-727 (`rebinSlice`, IO/Treat.lean); 674-676 (`Binned`, IO/Treat.lean); 676-718 (`Arr`, IO/Treat.lean); 679-684 (`Method`, IO/Treat.lean); 679-684 (`Method.fn`, IO/Treat.lean); 690-716 (`binOf`, IO/Treat.lean); 690-716 (`binCount`, IO/Treat.lean); 690-700,708,715 (`binValues`, IO/Treat.lean); 694,701,709,716 (`binAxis`, IO/Treat.lean); 702 (`squeeze`, IO/Treat.lean); 798-813 (`cleanRfi`, IO/Treat.lean); 802,981,1023 (`medFreq`, IO/Treat.lean); 803,986,1024 (`medTime`, IO/Treat.lean); 804-805 (`above`, IO/Treat.lean); 816-976 (`fitTransit`, IO/Transit.lean); 824-840 (`loadOf`, IO/Transit.lean); 826-840 (`Fit`, IO/Transit.lean); 830-831 (`gaussOf`, IO/Transit.lean); 833-837 (`backOf`, IO/Transit.lean); 842-851 (`prepared`, IO/Transit.lean); 843-850 (`keptSamples`, IO/Transit.lean); 843,886,912 (`stepsOf`, IO/Transit.lean); 851 (`fillNan`, IO/Transit.lean); 853-899 (`gaussFit`, IO/Transit.lean); 858,871,897,921 (`topOf`, IO/Transit.lean); 861 (`highMask`, IO/Transit.lean); 863-865 (`sameRun`, IO/Transit.lean); 863-866 (`peakGroup`, IO/Transit.lean); 865 (`peakOf`, IO/Transit.lean); 867-884 (`gaussPoints`, IO/Transit.lean); 896-899 (`chiOf`, IO/Transit.lean); 904-963 (`otherFit`, IO/Transit.lean); 905-906,929-930 (`normed`, IO/Transit.lean); 905-918,929-942 (`boundsOk`, IO/Transit.lean); 907,929-934 (`bottomOf`, IO/Transit.lean); 919,944 (`modelled`, IO/Transit.lean); 924-926,961-963 (`spread`, IO/Transit.lean); 924-926,961-963 (`logChi`, IO/Transit.lean); 967-976 (`Fitted`, IO/Transit.lean); 979-986 (`nanDiv`, IO/Treat.lean); 979-981 (`flattenFreq`, IO/Treat.lean); 984-986 (`flattenTime`, IO/Treat.lean); 1005-1077 (`clearSwitch`, IO/Treat.lean); 1034-1045 (`peakDistance`, IO/Treat.lean); 1036 (`roundEven`, IO/Treat.lean); 1047-1051 (`switchLimits`, IO/Treat.lean); 1060-1070 (`switchCorr`, IO/Treat.lean); 1061-1070 (`switchStep`, IO/Treat.lean); 1146-1147 (`percentile`, IO/Draw.lean); 1146-1147 (`colourLimits`, IO/Draw.lean); 1199-1221 (`freqBins`, IO/Treat.lean); 1205 (`evenly`, IO/Treat.lean); 1213-1221,1236-1248 (`sliceBins`, IO/Slices.lean); 1224-1248 (`timeBins`, IO/Treat.lean); 1251-1282 (`mapVal`, IO/Slices.lean); 1251-1282 (`sliceOp`, IO/Slices.lean); 1295-1321 (`smoothData`, IO/Smooth.lean); 1301-1319 (`smoothLoop`, IO/Smooth.lean); 1302-1304 (`windowAt`, IO/Smooth.lean); 1302-1316 (`smoothPass`, IO/Smooth.lean); 1303,1312-1315 (`windowsWith`, IO/Smooth.lean); 1305-1307 (`threshold`, IO/Smooth.lean); 1306 (`windowMed`, IO/Smooth.lean); 1308-1310 (`tooHigh`, IO/Smooth.lean). Not modelled: StatisticsData.__init__, StatisticsData.frequencies, StatisticsData.info, InconsistentShapeError.__init__, InconsistentShapeError.__str__, ST_Slice.__add__, ST_Slice.__sub__, ST_Slice.__mul__, ST_Slice.__truediv__, ST_Slice.time, ST_Slice.frequency, ST_Slice.polarization, ST_Slice.value, ST_Slice.analog_pointing_times, ST_Slice.digital_pointing_times, ST_Slice.median_filter, ST_Slice._overplot_pointings, ST_Slice._plot_spectrum, ST_Slice._plot_lightcurve.
* `io/sst.py`. Modelled: 60-94 (`SstRec`, Bst/SstGet.lean); 82-94 (`minisOf`, Bst/SstGet.lean); 152-201,190-201 (`sstGet`, Bst/SstGet.lean); 159 (`defaultTimes`, IO/Slices.lean); 164 (`miniAt`, Bst/SstGet.lean); 175-180 (`sstPol`, Bst/SstGet.lean). 
* `io/tf.py`. Modelled: 31-53 (`bytes`, Raw/Lemmas.lean); 31-53,1681-1685 (`unsigned`, Raw/Model.lean); 31-53 (`Header`, Raw/Model.lean); 31-53 (`headerAt`, Raw/Model.lean); 35-52 (`sbytes`, Raw/Lemmas.lean); 35-52,1699-1701 (`signed`, Raw/Model.lean); 55 (`bandWidth`, TF/Limits.lean); 57 (`volumeLimit`, TF/Volume.lean); 148-153 (`Task`, TF/Pipeline.lean); 148-153 (`TaskSt`, TF/Run.lean); 149 (`TaskSt.new`, TF/Run.lean); 209-800 (`PTask`, TF/Run.lean); 301-302,383-388,435-439,503-504,562-573,627-628,669-670,708-709 (`idle`, TF/Run.lean); 559-582 (`deDisperseTask`, TF/Volume.lean); 565,1809 (`Cube`, TF/Volume.lean); 565,1809 (`Cube.nbytes`, TF/Volume.lean); 566-568,1810-1812 (`tooBig`, TF/Volume.lean); 819-832 (`TaskSt.update`, TF/Run.lean); 830 (`missing`, TF/Run.lean); 834-881 (`Frame`, TF/Run.lean); 834-881 (`runTask`, TF/Run.lean); 972-978 (`shownActive`, TF/Run.lean); 998-1004 (`defaultTasks`, TF/Pipeline.lean); 998-1101 (`TaskOp`, TF/Pipeline.lean); 998-1101 (`applyTask`, TF/Pipeline.lean); 998-1004 (`defaultKinds`, TF/Run.lean); 1021-1028 (`pyInsert`, TF/Pipeline.lean); 1021-1028 (`insertTask`, TF/Pipeline.lean); 1043-1050 (`appendTask`, TF/Pipeline.lean); 1089-1101 (`removeTasks`, TF/Pipeline.lean); 1090-1101 (`RmArg`, TF/Pipeline.lean); 1090-1101 (`pyIndex`, TF/Pipeline.lean); 1090-1101 (`removeOne`, TF/Pipeline.lean); 1126 (`containsTask`, TF/Pipeline.lean); 1150-1154 (`runTasks`, TF/Pipeline.lean); 1150-1154 (`runAll`, TF/Run.lean); 1150-1154 (`VTask`, TF/Volume.lean); 1150-1154 (`VTask.run`, TF/Volume.lean); 1150-1154 (`runVol`, TF/Volume.lean); 1187-1220 (`Opened`, Raw/Spectra.lean); 1187-1220 (`openSpectra`, Raw/Spectra.lean); 1187-1220,1423-1460 (`readSpectra`, Raw/Spectra.lean); 1194-1204,1718-1741 (`maskOf`, Raw/Spectra.lean); 1208,1743-1757 (`startsOf`, Raw/Spectra.lean); 1211-1213 (`subStart`, TF/Limits.lean); 1241-1254 (`timeMin`, TF/Limits.lean); 1257-1273 (`timeMax`, TF/Limits.lean); 1274-1293 (`frequencyMin`, TF/Limits.lean); 1288-1291 (`freqMins`, TF/Limits.lean); 1296-1315 (`frequencyMax`, TF/Limits.lean); 1310-1313 (`freqMaxs`, TF/Limits.lean); 1423-1460 (`Opened.get`, Raw/Spectra.lean); 1423-1485 (`spectraGet`, TF/Pipeline.lean); 1425-1426 (`setAll`, TF/Pipeline.lean); 1428-1485 (`Outcome`, TF/Pipeline.lean); 1438-1478 (`getVol`, TF/Volume.lean); 1444-1460,1866-1871 (`Got`, Raw/Spectra.lean); 1468-1478 (`saveFrom`, TF/Reduced.lean); 1555-1673 (`Sel`, TF/Select.lean); 1555-1673 (`selectRaw`, TF/Select.lean); 1556,1559,1649,1650 (`nearIdx`, TF/Select.lean); 1568-1573,1576-1581 (`inBlock`, TF/Select.lean); 1618-1630 (`timeSlice`, TF/Select.lean); 1677-1715,1200-1219,1212,1755 (`spectraBlocks`, Raw/Model.lean); 1679-1685 (`firstHeader`, Raw/Model.lean); 1681-1715 (`piece`, Raw/Model.lean); 1696-1705 (`Beamlet`, Raw/Model.lean); 1696-1705 (`beamletSize`, Raw/Model.lean); 1696-1705 (`beamletAt`, Raw/Model.lean); 1702-1703 (`words`, Raw/Model.lean); 1706 (`Block`, Raw/Model.lean); 1706 (`blockSize`, Raw/Model.lean); 1706 (`blockAt`, Raw/Model.lean); 1715 (`chunks`, Raw/Model.lean); 1715 (`view`, Raw/Model.lean); 1725-1746 (`headerOf`, Raw/Spectra.lean); 1725-1729 (`Header`, TF/Select.lean); 1725-1735 (`badMask`, TF/Select.lean); 1745-1753 (`reconstruct`, TF/Select.lean); 1746,1756 (`blockStart`, Raw/Spectra.lean); 1748-1752 (`prevGood`, TF/Select.lean); 1748-1752 (`nextGood`, TF/Select.lean); 1748-1752 (`interpAt`, TF/Select.lean); 1755-1757 (`regularStart`, TF/Select.lean); 1772-1783 (`matrices`, Raw/Spectra.lean); 1772-1779 (`blank`, TF/Select.lean); 1808-1832 (`toNumpy`, TF/Volume.lean); 1853-1871 (`labels`, TF/Run.lean). Not modelled: TFTask.__repr__, TFTask._func_call, TFTask.is_active, TFTask.args_to_update, TFPipeline.__init__, TFPipeline.__repr__, TFPipeline.__iter__, TFPipeline.parameters, Spectra.filename, Spectra.info.
* `io/tf_utils.py`. Modelled: 70-79 (`DreamCall`, TF/DreamBeam.lean); 70-245 (`dreamCorrect`, TF/DreamBeam.lean); 134-208 (`dreamPlan`, TF/DreamBeam.lean); 134-245,754-839 (`jonesShape`, TF/Run.lean); 143-207 (`DreamPlan`, TF/DreamBeam.lean); 143-156 (`timeGroups`, TF/Stokes.lean); 186-208 (`dreamRanks`, TF/DreamBeam.lean); 189-190,199 (`firstTrue`, TF/DreamBeam.lean); 205-208,213-218 (`leftMatrix`, TF/DreamBeam.lean); 210-245 (`dreamApply`, TF/DreamBeam.lean); 212-215 (`M2.det`, TF/DreamBeam.lean); 212-215 (`M2.inv`, TF/DreamBeam.lean); 218 (`M2.one`, TF/DreamBeam.lean); 232-245 (`along`, TF/DreamBeam.lean); 276 (`Lna`, TF/Lna.lean); 276-280 (`lnaOf`, TF/Lna.lean); 283-284 (`sigmoid`, TF/Lna.lean); 289-290 (`slantedSigmoid`, TF/Lna.lean); 292-298 (`fitSig`, TF/Lna.lean); 300-306 (`fitConst`, TF/Lna.lean); 308-328 (`lnaSlope`, TF/Lna.lean); 308-329 (`lnaOffset`, TF/Lna.lean); 386-411 (`Arr`, TF/Model.lean); 386-411 (`size`, TF/Model.lean); 386-411 (`ix4`, TF/Model.lean); 386-411 (`ofFn4`, TF/Model.lean); 386-411 (`Arr.get2`, TF/Model.lean); 386-411 (`Arr.reshape`, TF/Model.lean); 386-411 (`swap12`, TF/Model.lean); 386-411 (`rev2`, TF/Model.lean); 386-411 (`blocksToTf`, TF/Model.lean); 460-468 (`specFreq`, TF/Model.lean); 524-534 (`specTime`, TF/Model.lean); 610-665 (`stokesShape`, TF/Run.lean); 613-665 (`computeStokes`, TF/Stokes.lean); 621-663 (`stokesCell`, Raw/Spectra.lean); 622-655 (`stokesKnown`, TF/Run.lean); 622 (`stokesName`, TF/Stokes.lean); 624-655 (`ratio`, TF/Stokes.lean); 624-655 (`stokesOne`, TF/Stokes.lean); 626-632,1931-1950 (`angleOf`, TF/PolAngle.lean); 670-738 (`correctBandpass`, TF/Lna.lean); 711-733 (`bandFactor`, TF/Lna.lean); 712-738 (`bandpassShape`, TF/Run.lean); 720-733 (`argumentAfter`, TF/Lna.lean); 728-732 (`lnaResponse`, TF/Lna.lean); 778-813 (`parallacticRank`, TF/Stokes.lean); 801-805 (`parallacticJones`, TF/Stokes.lean); 816-839 (`applyJones`, TF/Stokes.lean); 911-931 (`cropEdges`, TF/Model.lean); 1037-1074 (`scatter`, TF/Model.lean); 1037-1074 (`deDisperse`, TF/Model.lean); 1037-1074 (`dedisperseShape`, TF/Run.lean); 1044-1052 (`rint`, TF/Model.lean); 1044-1052 (`cellDelay`, TF/Model.lean); 1065 (`keepIdx`, TF/Model.lean); 1066 (`wrapIdx`, TF/Model.lean); 1066 (`movePair`, TF/Model.lean); 1191-1208 (`faradayShape`, TF/Run.lean); 1191-1192 (`faradayDims`, TF/Stokes.lean); 1198-1208 (`M2.mul`, TF/Stokes.lean); 1198-1208 (`M2.transpose`, TF/Stokes.lean); 1198-1208 (`deFaraday`, TF/Stokes.lean); 1205 (`rotMatrix`, TF/Stokes.lean); 1241-1264 (`bandpass`, TF/Bandpass.lean); 1249-1253 (`highRes`, TF/Bandpass.lean); 1253 (`fourier`, TF/Bandpass.lean); 1255 (`lastItems`, TF/Bandpass.lean); 1255 (`middleBand`, TF/Bandpass.lean); 1256 (`rightBand`, TF/Bandpass.lean); 1257 (`butLast`, TF/Bandpass.lean); 1257 (`leftBand`, TF/Bandpass.lean); 1372-1431 (`flattenSubband`, TF/Flatten.lean); 1372-1431 (`flattenShape`, TF/Run.lean); 1382-1422 (`median`, TF/Flatten.lean); 1382-1422 (`nanmedian`, TF/Flatten.lean); 1382 (`freqProfile`, TF/Flatten.lean); 1395-1398,1416-1420 (`lineAt`, TF/Flatten.lean); 1399-1401 (`lowerLevel`, TF/Flatten.lean); 1402-1404 (`upperLevel`, TF/Flatten.lean); 1415-1431 (`quot`, TF/Flatten.lean); 1420 (`subbandLine`, TF/Flatten.lean); 1422-1427 (`subbandNorm`, TF/Flatten.lean); 1511-1560 (`mitigate`, TF/Rfi.lean); 1524-1560 (`clipAlong`, TF/Rfi.lean); 1527,1536 (`medianBy`, TF/Rfi.lean); 1527 (`midReal`, TF/Rfi.lean); 1527-1529 (`levelAt`, TF/Rfi.lean); 1530 (`topLevel`, TF/Rfi.lean); 1530-1531 (`quotTop`, TF/Rfi.lean); 1530-1531 (`flatAt`, TF/Rfi.lean); 1535,1540 (`finiteLog`, TF/Rfi.lean); 1535-1540 (`profileAt`, TF/Rfi.lean); 1536 (`midTop`, TF/Rfi.lean); 1540-1541 (`goodRanks`, TF/Rfi.lean); 1546-1549 (`fitPoints`, TF/Rfi.lean); 1549-1550 (`smoothAt`, TF/Rfi.lean); 1558 (`meanOf`, TF/Rfi.lean); 1558 (`stdOf`, TF/Rfi.lean); 1558 (`smoothAll`, TF/Rfi.lean); 1558 (`clipLimit`, TF/Rfi.lean); 1558 (`clipped`, TF/Rfi.lean); 1570-1586 (`Keys`, IO/Draw.lean); 1570-1586 (`tableKeys`, IO/Draw.lean); 1570-1586,1781-1794,1858-1871 (`rsDraw`, IO/Draw.lean); 1675-1725 (`RsDrawing`, IO/Draw.lean); 1681-1693,1748-1760 (`limitsOf`, IO/Draw.lean); 1683-1691 (`leastOf`, IO/Draw.lean); 1683-1691 (`greatestOf`, IO/Draw.lean); 1781-1794,1858-1871 (`curveKeys`, IO/Draw.lean); 1931-1950 (`polAngle`, TF/PolAngle.lean); 1950 (`overZero`, TF/PolAngle.lean); 2012-2059 (`nanmean`, TF/Model.lean); 2012-2059 (`window`, TF/Model.lean); 2012-2059 (`rebin`, TF/Model.lean); 2012-2059 (`timeRebinShape`, TF/Run.lean); 2012-2059 (`freqRebinShape`, TF/Run.lean); 2021-2033 (`rebinSizes`, TF/Model.lean); 2033-2046 (`rebinWidth`, TF/Run.lean); 2113-2141 (`removeChannels`, TF/Model.lean); 2113-2141 (`removeShape`, TF/Run.lean); 2182-2191 (`subbandsOk`, TF/Model.lean); 2211-2219 (`beamEdges`, TF/Model.lean); 2214 (`beamWhere`, TF/Model.lean); 2252-2269 (`matrixOf`, Raw/Spectra.lean); 2252-2255 (`recR`, TF/PropsStokes.lean); 2252-2269 (`M2`, TF/Stokes.lean); 2252-2269 (`specMatrix`, TF/Stokes.lean); 2283-2294 (`ToStore`, TF/Reduced.lean); 2388-2480 (`store`, TF/Reduced.lean); 2390-2394 (`realMode`, TF/Reduced.lean); 2397 (`lowest`, TF/Reduced.lean); 2398 (`highest`, TF/Reduced.lean); 2400-2431 (`H5`, TF/Reduced.lean); 2400 (`asResult`, TF/Reduced.lean); 2400-2480 (`storeIn`, TF/Reduced.lean); 2401 (`threeDigits`, TF/ReducedInfo.lean); 2401,3311 (`beamKey`, TF/ReducedInfo.lean); 2403-2427,2440-2480 (`newFile`, TF/Reduced.lean); 2406-2423 (`headerOf`, TF/Reduced.lean); 2411-2423 (`FileHeader`, TF/Reduced.lean); 2426,3310 (`pointingKey`, TF/ReducedInfo.lean); 2429-2435,2440-2480 (`appendBeam`, TF/Reduced.lean); 2440-2456 (`BeamGroup`, TF/Reduced.lean); 2440-2480 (`beamOf`, TF/Reduced.lean); 2450 (`jdFloat`, TF/Reduced.lean); 2463-2480 (`Node`, TF/Reduced.lean); 2463-2480 (`storePol`, TF/Reduced.lean); 2463-2480 (`storePols`, TF/Reduced.lean); 2464 (`Pols`, TF/Reduced.lean); 2464 (`Pols.item`, TF/Reduced.lean); 2470 (`splitName`, TF/Reduced.lean); 2470-2472 (`addPlain`, TF/Reduced.lean); 2470-2472 (`addIn`, TF/Reduced.lean); 2470-2472 (`addNode`, TF/Reduced.lean); 2509-2523 (`checked`, TF/Pipeline.lean); 2528-2551 (`PyVal`, TF/Pipeline.lean); 2528-2551 (`Param`, TF/Pipeline.lean); 2560-2654 (`Kind`, TF/Pipeline.lean); 2574,2603-2616,2634-2641,2650-2654 (`expected`, TF/Pipeline.lean); 2604-2609 (`ltNum`, TF/Pipeline.lean); 2604-2609 (`belowMin`, TF/Pipeline.lean); 2610-2615 (`gtNum`, TF/Pipeline.lean); 2610-2615 (`aboveMax`, TF/Pipeline.lean); 2635-2640 (`allAvailable`, TF/Pipeline.lean); 2698-2707 (`Pars`, TF/Pipeline.lean); 2706-2707 (`Pars.mk'`, TF/Pipeline.lean); 2709-2720 (`Pars.set`, TF/Pipeline.lean); 2709-2783 (`ParOp`, TF/Pipeline.lean); 2709-2783 (`Pars.apply`, TF/Pipeline.lean); 2719-2720,2751-2759 (`Param.assign`, TF/Pipeline.lean); 2719-2720,2751-2759 (`lowerName`, TF/Pipeline.lean); 2719-2720,2751-2759 (`assignFirst`, TF/Pipeline.lean); 2722-2723 (`Pars.get`, TF/Pipeline.lean); 2783 (`Pars.reset`, TF/Pipeline.lean); 2876-3016 (`RunPars`, TF/Run.lean); 2876-3016 (`RunPars.default`, TF/Run.lean); 3022-3032 (`RsSlice`, IO/Draw.lean); 3022-3032 (`RSlice`, TF/ReducedSlice.lean); 3024-3032 (`mkSlice`, TF/ReducedSlice.lean); 3034-3049 (`Idx`, TF/ReducedSlice.lean); 3034-3056 (`RSlice.getItem`, TF/ReducedSlice.lean); 3036-3056 (`select3`, TF/ReducedSlice.lean); 3045,3049 (`wholeAxis`, TF/ReducedSlice.lean); 3052-3055 (`onePos`, TF/ReducedSlice.lean); 3052-3054 (`Idx.positions`, TF/ReducedSlice.lean); 3055 (`Idx.isSlice`, TF/ReducedSlice.lean); 3055 (`Idx.isList`, TF/ReducedSlice.lean); 3055 (`together`, TF/ReducedSlice.lean); 3055 (`pick`, TF/ReducedSlice.lean); 3055 (`product`, TF/ReducedSlice.lean); 3055 (`gather`, TF/ReducedSlice.lean); 3055 (`advLengths`, TF/ReducedSlice.lean); 3055 (`numpyIndex`, TF/ReducedSlice.lean); 3088-3137 (`rsPlot`, IO/Draw.lean); 3100-3108 (`polPlace`, IO/Draw.lean); 3111-3135 (`rsValues`, IO/Draw.lean); 3166-3193 (`rsMulti`, IO/Draw.lean); 3170-3177,3183-3189 (`panelKeys`, IO/Draw.lean); 3181-3189 (`rsPanels`, IO/Draw.lean); 3198-3213 (`itemAt`, TF/ReducedInfo.lean); 3250-3283 (`fileInfo`, TF/ReducedInfo.lean); 3262-3277 (`allOk`, TF/ReducedInfo.lean); 3264,3274 (`idOf`, TF/ReducedInfo.lean); 3270 (`inOrder`, TF/ReducedInfo.lean); 3272-3277 (`beamInfo`, TF/ReducedInfo.lean); 3276 (`beamNames`, TF/ReducedInfo.lean); 3276-3277 (`beamLines`, TF/ReducedInfo.lean); 3277 (`Node.size`, TF/ReducedInfo.lean); 3277 (`datasetLine`, TF/ReducedInfo.lean); 3310-3333 (`getReduced`, TF/Reduced.lean); 3315-3328 (`chosen`, TF/Reduced.lean); 3315-3333 (`readBeam`, TF/Reduced.lean); 3333 (`Stacked`, TF/Reduced.lean); 3333 (`Node.shape`, TF/Reduced.lean); 3333 (`Node.value`, TF/Reduced.lean); 3333 (`Node.texts`, TF/Reduced.lean); 3333 (`stackFrom`, TF/Reduced.lean); 3333 (`stack`, TF/Reduced.lean); 3333 (`Reduced`, TF/Reduced.lean). Not modelled: bandpass_correction_coefficients.constant, _time_to_keywords, _TFParameter.__init__, _TFParameter.__str__, _TFParameter.value, _TFParameter.info, _TFParameter.is_expected_value, TFPipelineParameters.copy, ReducedSpectraSlice.shape, ReducedSpectra.__init__, ReducedSpectra.plot, ReducedSpectra.close, ReducedSpectra._build_axes.
* `io/xst.py`. Modelled: 69-89 (`visMatrix`, Geom/Model.lean); 101-136 (`PhSlice`, Geom/Rephase.lean); 124-127 (`XSlice`, IO/XstSelect.lean); 193-220 (`corrMatrix`, IO/Corr.lean); 195,205 (`corrCell`, IO/Corr.lean); 197-200 (`moved`, IO/Corr.lean); 202-205 (`corrEntries`, IO/Corr.lean); 205 (`meanVis`, IO/Corr.lean); 207-216 (`corrTable`, IO/Corr.lean); 285-326 (`PhSlice.factors`, Geom/Rephase.lean); 307-309,322-324 (`mul`, Geom/Model.lean); 307-309,322-324 (`rephaseUvw`, Geom/Model.lean); 309-320,816-831 (`turned`, Geom/Rephase.lean); 310-314,821-825 (`dot`, Geom/Model.lean); 310-314,821-825 (`rephasePhase`, Geom/Model.lean); 315-320,826-831 (`rephaseFactor`, Geom/Model.lean); 333,426 (`imageLabel`, IO/TvFits.lean); 389-409 (`imageUvw`, Geom/Rephase.lean); 396-409,453 (`PhSlice.imaged`, Geom/Rephase.lean); 407,453,315-320 (`imageFreqsAt`, IO/XstSelect.lean); 412-413,575-576 (`crossPairs`, IO/Imaging.lean); 412-469,389-409,437 (`makeImage`, IO/Imaging.lean); 414-419 (`meanUvw`, IO/Imaging.lean); 416-417,453-459 (`imageFreqs`, IO/XstSelect.lean); 432-434 (`SkyPixel`, IO/Imaging.lean); 432-433 (`inField`, IO/Imaging.lean); 434-435,449-450 (`imagePhase`, IO/Imaging.lean); 449-460 (`dirtyAt`, IO/Imaging.lean); 453,459,563,600 (`meanC`, IO/Imaging.lean); 453-455,600 (`timeMean`, IO/Imaging.lean); 453 (`rephased`, IO/Imaging.lean); 453-459,1049 (`joined`, IO/XstSelect.lean); 458,565 (`nanmeanR`, IO/Imaging.lean); 561-567 (`imprint`, IO/Imaging.lean); 570-572,1880-1882 (`cutEtrs`, Geom/Lambert.lean); 570-572 (`PosCall`, Geom/Lambert.lean); 570-621 (`nearfield`, IO/Imaging.lean); 582-583 (`groundAt`, IO/Imaging.lean); 584-586 (`groundPoint`, IO/Imaging.lean); 587-589 (`distTo`, IO/Imaging.lean); 590-592,613-616 (`nearPhase`, IO/Imaging.lean); 640-676 (`simuSource`, IO/Imaging.lean); 648-654 (`toEnu`, IO/Imaging.lean); 664-674 (`sourceVis`, IO/Imaging.lean); 745-759 (`xstGet`, IO/XstSelect.lean); 745-759 (`tvGet`, IO/XstSelect.lean); 749-759,925-940,1232-1234 (`sliceOf`, IO/XstSelect.lean); 781-839 (`rephaseFile`, Geom/Rephase.lean); 787-806 (`Stored`, Geom/Rephase.lean); 787-806 (`currentCentres`, Geom/Rephase.lean); 830 (`rephaseAxis`, IO/XstSelect.lean); 830 (`rephaseAxisTv`, IO/XstSelect.lean); 900-923 (`stokesXst`, TF/Stokes.lean); 1001-1012 (`beamMinis`, IO/BeamSelect.lean); 1001-1093 (`beamOf`, IO/BeamSelect.lean); 1002-1005 (`antennasOf`, IO/BeamSelect.lean); 1013-1014 (`beamMask`, IO/BeamSelect.lean); 1017-1029 (`calOf`, IO/BeamSelect.lean); 1021-1027 (`calColumn`, IO/BeamSelect.lean); 1035 (`beamPol`, IO/BeamSelect.lean); 1039-1049 (`trilAt`, IO/BeamSelect.lean); 1040-1049 (`beamformFreqs`, IO/XstSelect.lean); 1049-1050 (`visMatrix`, IO/Xst.lean); 1049-1093 (`beamform`, IO/Xst.lean); 1085-1092 (`phaseMatrix`, IO/Xst.lean); 1142 (`defaultTimes`, IO/Slices.lean); 1152-1172 (`tril`, IO/Xst.lean); 1152-1172 (`crossIdx`, IO/Xst.lean); 1158-1160 (`maIndices`, IO/Xst.lean); 1163 (`Pol`, IO/Xst.lean); 1163 (`polOf`, IO/Xst.lean); 1174-1234 (`pick`, IO/Xst.lean); 1174-1234 (`Prod2`, IO/Xst.lean); 1174-1234 (`getCross`, IO/Xst.lean); 1196 (`bothMask`, IO/XstSelect.lean); 1204 (`maskTimes`, IO/XstSelect.lean); 1205 (`maskFreqs`, IO/XstSelect.lean); 1214,1232 (`maskCells`, IO/XstSelect.lean); 1223-1229 (`merge`, IO/Xst.lean); 1224 (`pickMask`, IO/Xst.lean); 1291-1335 (`TvImage`, IO/TvFits.lean); 1294-1335,1352-1356 (`mkTv`, IO/TvFits.lean); 1337-1355 (`TvPoint`, IO/TvFits.lean); 1383-1410,1447-1474 (`TvFile`, IO/TvFits.lean); 1383-1410 (`readTv`, IO/TvFits.lean); 1386-1389 (`unseen`, IO/TvFits.lean); 1386 (`readMap`, IO/TvFits.lean); 1387-1389 (`fillBad`, IO/TvFits.lean); 1388-1389 (`badMargin`, IO/TvFits.lean); 1389 (`maskBad`, IO/TvFits.lean); 1392-1400 (`TvSky`, IO/TvFits.lean); 1392-1400 (`tvSky`, IO/TvFits.lean); 1396,1406,1457,1753,1785 (`isot`, IO/TvFits.lean); 1398,1461 (`PolLabel`, IO/TvFits.lean); 1412-1479 (`saveTv`, IO/TvFits.lean); 1456-1461 (`firstOf`, IO/TvFits.lean); 1464-1474 (`maskGood`, IO/TvFits.lean); 1464-1474 (`MapData`, IO/TvFits.lean); 1464-1474 (`goodPixels`, IO/TvFits.lean); 1464-1474 (`writeMap`, IO/TvFits.lean); 1486 (`Keywords`, IO/TvPicture.lean); 1527-1579 (`savePng`, IO/TvPicture.lean); 1533-1553 (`textOf`, IO/TvPicture.lean); 1534-1550 (`kept`, IO/TvPicture.lean); 1537-1550 (`Source`, IO/TvPicture.lean); 1538-1550 (`Listed`, IO/TvPicture.lean); 1555-1570 (`contourOf`, IO/TvPicture.lean); 1572-1579 (`Plot`, IO/TvPicture.lean); 1649-1657 (`Plane`, IO/TvFits.lean); 1649-1663 (`Near`, IO/TvFits.lean); 1649-1663 (`mkNear`, IO/TvFits.lean); 1693-1710 (`Hdu`, IO/TvFits.lean); 1693 (`reservedNames`, IO/TvFits.lean); 1693-1710 (`readNear`, IO/TvFits.lean); 1695-1698 (`hduOf`, IO/TvFits.lean); 1702-1706 (`setEntry`, IO/TvFits.lean); 1702-1706 (`readImprints`, IO/TvFits.lean); 1703,1708 (`cardText`, IO/TvFits.lean); 1712-1806 (`saveNear`, IO/TvFits.lean); 1730-1746 (`primaryHdu`, IO/TvFits.lean); 1749-1768,1779-1801 (`planeHdu`, IO/TvFits.lean); 1754-1755,1786-1787 (`rangeOk`, IO/TvFits.lean); 1760,1792 (`upperStr`, IO/TvFits.lean); 1760,1792-1793 (`printable`, IO/TvFits.lean); 1770-1774 (`miniHdu`, IO/TvFits.lean); 1779-1802 (`sourceHdus`, IO/TvFits.lean); 1780,1799-1801 (`hduName`, IO/TvFits.lean); 1895-1902 (`cell`, IO/TvDraw.lean); 1895-1902 (`drawnCell`, IO/TvDraw.lean); 1896 (`flipud`, IO/TvDraw.lean); 1932-1974 (`savePng`, IO/TvDraw.lean); 1933-1935 (`distAt`, IO/TvDraw.lean); 1936-1937,1954-1959 (`atBorder`, IO/TvDraw.lean); 1938-1974 (`names`, IO/TvDraw.lean); 1940-1941 (`normalised`, IO/TvDraw.lean); 1941,1962 (`maxR`, IO/TvDraw.lean); 1951-1963 (`place`, IO/TvDraw.lean); 1952,1961-1963 (`argmaxR`, IO/TvDraw.lean); 1960 (`median`, IO/TvDraw.lean); 1960 (`cut`, IO/TvDraw.lean); 1961-1963 (`recentred`, IO/TvDraw.lean); 1965-1974 (`Label`, IO/TvDraw.lean); 1965-1974 (`labelAt`, IO/TvDraw.lean); 2095-2106 (`computeTv`, IO/TvFits.lean); 2188-2190 (`doubles`, Raw/Model.lean); 2188-2190 (`TvRecord`, Raw/Model.lean); 2188-2190 (`tvAt`, Raw/Model.lean); 2189 (`tvCount`, Raw/Model.lean); 2193-2194 (`tvRecords`, Raw/Model.lean). Not modelled: Crosslet.phase_center, Crosslet._parse_frequency_condition, Crosslet._parse_time_condition, Crosslet._select_mini_arrays, Crosslet._get_freq_mask, XST.__init__, XST.phase_center, XST.mini_arrays, NenufarTV.__init__, NenufarTV.compute_nearfield_tv.
* `miscellaneous.py`. Modelled: 44-74 (`bindFrom`, IO/Slices.lean); 44-74 (`checkFrom`, IO/Slices.lean); 44-74 (`accepts`, IO/Slices.lean); 46-54 (`bindArg`, IO/Slices.lean); 56-72 (`checkArg`, IO/Slices.lean). 
* `observation/obs_config.py`. Modelled: 41-218 (`Attr`, Config/Model.lean); 41-218 (`Range`, Config/Model.lean); 41-218 (`table`, Config/Model.lean); 257-293 (`allAttrs`, Config/Model.lean); 257-293 (`construct`, Config/Model.lean); 285-293 (`initLoop`, Config/Model.lean); 315-475 (`pow2Ok`, Config/Model.lean); 315-475 (`State`, Config/Model.lean); 315-475 (`setAttr`, Config/Model.lean); 315-475 (`trySet`, Config/Model.lean); 315-475 (`Conf.assign`, Config/Model.lean); 316,331,346,361,376,393,410,431,452,469 (`Val`, Config/Model.lean); 316,331,346,361,376,393,410,431,452,469 (`accepted`, Config/Model.lean); 413,434 (`isPow2`, Config/Model.lean); 497-512 (`Val.num`, Config/Model.lean); 497-512 (`checkAttr`, Config/Model.lean); 523-524,618-619,861-874,1047-1054,1176-1183,1323-1330,1468-1475 (`Conf.new`, Config/Model.lean); 529-563,624-664 (`Conf.volume`, Config/Model.lean); 562-563,660-664,848-850,1032-1036,1162-1165,1309-1312,1453-1457 (`Beam`, Config/Model.lean); 562-563,660-664,848-850,1032-1036,1162-1165,1309-1312,1453-1457 (`Beam.volume`, Config/Model.lean); 588-607,689-714 (`PSet`, Config/FromParset.lean); 588-607 (`bstOf`, Config/FromParset.lean); 595-602 (`allTimes`, Config/FromParset.lean); 596-602,982-1005 (`DBeam`, Config/FromParset.lean); 597-601 (`beamTimes`, Config/FromParset.lean); 598,708,1002,1132,1279,1424,1572 (`seconds`, Config/FromParset.lean); 689-714 (`nickelOf`, Config/FromParset.lean); 695-704 (`nickelOn`, Config/FromParset.lean); 700,978,1123,1252,1399,1545 (`contains`, Config/FromParset.lean); 707-714 (`ABeam`, Config/FromParset.lean); 707-714 (`nickelBeam`, Config/FromParset.lean); 709,711 (`toVal`, Config/FromParset.lean); 747-776 (`paramsOf`, Config/FromParset.lean); 752-753 (`modeOf`, Config/FromParset.lean); 755-774 (`PV`, Config/FromParset.lean); 755-774 (`find`, Config/FromParset.lean); 756-758,766-768 (`valued`, Config/FromParset.lean); 757-763,772 (`splitDash`, Config/FromParset.lean); 760-764,770-774 (`flags`, Config/FromParset.lean); 761,771 (`rstrip`, Config/FromParset.lean); 768 (`wordsFrom`, Config/FromParset.lean); 768 (`words`, Config/FromParset.lean); 783-824 (`checkDFvsDT`, Config/Model.lean); 793-801 (`tick`, Config/Model.lean); 793-801 (`fftlen`, Config/Model.lean); 794,804-808 (`nfft2int`, Config/Model.lean); 797-808 (`nearestPow`, Config/Model.lean); 837-838,1021-1022,1151-1152,1298-1299,1442-1443 (`mkBeam`, Config/FromParset.lean); 848-850 (`toBeam`, Config/FromParset.lean); 861-874 (`bare`, Config/FromParset.lean); 861-874,1047-1054 (`Conf`, Config/Model.lean); 940-943,1084-1087,1213-1216,1360-1363,1506-1509 (`beamsVolume`, Config/Model.lean); 968-1008,1112-1138,1241-1285,1388-1429,1534-1578 (`undysputed`, Config/FromParset.lean); 978 (`need`, Config/FromParset.lean); 982-1005,1127-1135,1256-1282,1403-1426,1549-1575 (`beamOf`, Config/FromParset.lean); 982-1005 (`collect`, Config/FromParset.lean); 983-993,1257-1270,1404-1417,1550-1563 (`inMode`, Config/FromParset.lean); 994-1004,797-801 (`tfBeam`, Config/FromParset.lean); 995-996,1278 (`pvFloat`, Config/FromParset.lean); 995-996 (`floatAt`, Config/FromParset.lean); 999-1004 (`kwOf`, Config/FromParset.lean); 1003 (`lenVal`, Config/FromParset.lean); 1130-1134 (`rawBeam`, Config/FromParset.lean); 1162-1163,1309-1310,1453-1454 (`afterBurn`, Config/Model.lean); 1272-1281 (`foldBeam`, Config/FromParset.lean); 1277,1570 (`polVal`, Config/FromParset.lean); 1278 (`floatOr`, Config/FromParset.lean); 1280,1571,1573 (`pvInt`, Config/FromParset.lean); 1280,1571,1573 (`intOr`, Config/FromParset.lean); 1421-1426 (`waveBeam`, Config/FromParset.lean); 1565-1574 (`singleBeam`, Config/FromParset.lean); 1583-1593 (`order`, Config/FromParset.lean); 1583-1593 (`Backend`, Config/Model.lean); 1599-1607 (`Obs`, Config/Model.lean); 1610-1618 (`Obs.add`, Config/Model.lean); 1623-1654 (`Obs.volume`, Config/Model.lean); 1679-1686 (`obsOf`, Config/FromParset.lean); 1682-1686 (`obsLoop`, Config/FromParset.lean); 1685 (`confOf`, Config/FromParset.lean); 1718-1723 (`Obs.empty`, Config/Model.lean); 1718-1723 (`Obs.total`, Config/Model.lean); 1759-1769 (`getCumulative`, Config/Model.lean); 1763-1769 (`cumsum`, Config/Model.lean); 1763-1769 (`cumulative`, Config/Model.lean); 1763-1769 (`byStart`, Config/Model.lean); 1818-1861 (`plotVolume`, Config/VolumePlot.lean); 1818,1583-1593 (`plotVolumeAll`, Config/VolumePlot.lean); 1835-1851 (`Drawn`, Config/VolumePlot.lean); 1835-1851 (`drawLoop`, Config/VolumePlot.lean); 1841-1844 (`putCurve`, Config/VolumePlot.lean); 1854-1861 (`totalCurve`, Config/VolumePlot.lean); 1856 (`addCurves`, Config/VolumePlot.lean); 1856 (`sumCurves`, Config/VolumePlot.lean). Not modelled: doc, doc.document, _BackendConfig.__str__, _BackendConfig.nSubBands, _BackendConfig.durationSec, _UnDySPuTeDConfig.__init__, _UnDySPuTeDConfig.__str__.
* `observation/obs_tools.py`. Modelled: 49-116 (`sameBeam`, Instru/CommonBeam.lean); 82-89 (`SkySource`, Instru/CommonBeam.lean); 92-98 (`sepList`, Instru/CommonBeam.lean); 101 (`bandFreq`, Instru/CommonBeam.lean); 102-104 (`halfWidth`, Instru/CommonBeam.lean); 108,111-115 (`commonFreq`, Instru/CommonBeam.lean); 109-112 (`beamFreqs`, Instru/CommonBeam.lean); 110-116 (`commonFreqs`, Instru/CommonBeam.lean); 160-328 (`CurrentMap`, Instru/Current.lean); 160-328 (`currentPlot`, Instru/Current.lean); 163-176 (`directionOf`, Instru/Current.lean); 178-185 (`MapFreq`, Instru/Current.lean); 178-185 (`freqOf`, Instru/Current.lean); 216-234 (`analogSum`, Instru/Current.lean); 219 (`rotatedMas`, Instru/Current.lean); 235 (`analogShown`, Instru/Current.lean); 238-245 (`contoured`, Instru/Current.lean); 242 (`contourLevels`, Instru/Current.lean); 274-292 (`sourcesShown`, Instru/Current.lean); 275 (`sourceNames`, Instru/Current.lean); 317-328 (`FigEnd`, Instru/Current.lean); 317-328 (`figEnd`, Instru/Current.lean); 335-387 (`summerMask`, Cal/Model.lean); 374-382 (`Years`, Cal/Model.lean); 374-382 (`Years.Ok`, Cal/Model.lean); 374-382 (`summerLoop`, Cal/Model.lean); 394-427 (`nightMask`, Cal/Model.lean); 407-410 (`nightBounds`, Cal/Model.lean). 
* `observation/parset.py`. Modelled: 49 (`width`, Parset/Text.lean); 60-62 (`Props`, Parset/Load.lean); 65-66 (`item`, Parset/Json.lean); 71-149 (`splitOn`, Parset/Text.lean); 71-149 (`parseElems`, Parset/Text.lean); 71-149 (`PVal`, Parset/Text.lean); 71-149 (`lower`, Parset/Text.lean); 71-149 (`rstripS`, Parset/Text.lean); 71-149 (`hasSub`, Parset/Text.lean); 71-149 (`IsFloat`, Parset/Text.lean); 71-149 (`setItem`, Parset/Text.lean); 74-75 (`clean`, Parset/Text.lean); 82-106 (`splitDots`, Parset/Text.lean); 82-106 (`hasDots`, Parset/Text.lean); 82-106 (`isDigits`, Parset/Text.lean); 82-106 (`isBlank`, Parset/Text.lean); 82-106 (`strip`, Parset/Text.lean); 82-106 (`parseElem`, Parset/Text.lean); 85 (`Str`, Parset/Text.lean); 85 (`signed`, Parset/Text.lean); 85 (`pyInt`, Parset/Text.lean); 85 (`pyRange`, Parset/Text.lean); 85 (`Item`, Parset/Text.lean); 85 (`parseRange`, Parset/Text.lean); 171 (`textOf`, Parset/Json.lean); 197-206,655 (`listOf`, Parset/Json.lean); 211-223 (`constrain`, Parset/Center.lean); 211-223 (`constrainAngle`, Parset/Text.lean); 226,380 (`secOf`, Parset/Json.lean); 226-228,380-393 (`placeOf`, Parset/Json.lean); 227-228 (`beginOf`, Parset/Center.lean); 227-375 (`pointingCenter`, Parset/Center.lean); 230,239,333 (`has`, Parset/Center.lean); 230-233 (`withFile`, Parset/Center.lean); 236 (`directionText`, Parset/Center.lean); 236-364 (`position`, Parset/Center.lean); 237-238,286,291 (`angleOf`, Parset/Center.lean); 237-238,286,291 (`anglesOf`, Parset/Center.lean); 239-263,333-352 (`moved`, Parset/Center.lean); 240-259 (`Heavens`, Parset/Center.lean); 246-263,283-298,336-352 (`shiftAz`, Parset/Center.lean); 249,254,265-266,286,291,301,306,339,344,354-355 (`floatOf`, Parset/Center.lean); 249,254,265-266,286,291,301,306,339,344,354-355 (`offset`, Parset/Center.lean); 265-276,299-309,354-364 (`shiftEq`, Parset/Center.lean); 386,593,603-604 (`isoOf`, Parset/Json.lean); 395-411 (`freqOf`, Parset/Json.lean); 395-411 (`mapE`, Parset/Text.lean); 395-411 (`frequencyDict`, Parset/Text.lean); 399-402 (`itemInt`, Parset/Json.lean); 399-402 (`intsOf`, Parset/Json.lean); 399-402,1328-1331,1356-1359 (`runs`, Parset/Text.lean); 404-409 (`minMax`, Parset/Text.lean); 404-409 (`freqGroup`, Parset/Text.lean); 413-548 (`Receiver`, Parset/Json.lean); 413-425 (`defaultSetting`, Parset/Json.lean); 424,444,453,460,467,477,508 (`beamFreq`, Parset/Json.lean); 427-471 (`pulsarSetting`, Parset/Json.lean); 438-471 (`pulsarMode`, Parset/Json.lean); 442,450,459,466 (`srcOf`, Parset/Json.lean); 443,452,494 (`truthy`, Parset/Json.lean); 443,452 (`polarsOf`, Parset/Json.lean); 473-478 (`waveformSetting`, Parset/Json.lean); 480-514 (`tfSetting`, Parset/Json.lean); 494-509 (`tfOf`, Parset/Json.lean); 510-514 (`noKey`, Parset/Json.lean); 516-542 (`nickelSetting`, Parset/Json.lean); 528,545,851,863 (`tupleLt`, Parset/Json.lean); 528,545,851,863 (`recent`, Parset/Json.lean); 530-536 (`centerParams`, Parset/Json.lean); 544-548 (`tbdSetting`, Parset/Json.lean); 545,864 (`usesNickel`, Parset/Json.lean); 550-557,672-673 (`receiverOf`, Parset/Json.lean); 574-588 (`JsonEntry.data`, Parset/User.lean); 579-580 (`attach`, Parset/User.lean); 611-626 (`topicText`, Parset/Json.lean); 611-626 (`topicOf`, Parset/Json.lean); 613 (`topicPattern`, Parset/Json.lean); 613 (`isWord`, Parset/Regex.lean); 613-626 (`capOf`, Parset/Regex.lean); 613-614,2454 (`run`, Parset/Regex.lean); 613,2454 (`escCls`, Parset/Regex.lean); 613,2454 (`escRe`, Parset/Regex.lean); 613,2454 (`readCls`, Parset/Regex.lean); 613 (`skipName`, Parset/Regex.lean); 613,2454 (`closing`, Parset/Regex.lean); 613,2454 (`readAlt`, Parset/Regex.lean); 613,2454 (`readSeq`, Parset/Regex.lean); 613,2454 (`readAtom`, Parset/Regex.lean); 613,2454 (`compileRe`, Parset/Regex.lean); 614-626 (`decodeTopic`, Parset/Json.lean); 614 (`matchCaps`, Parset/Regex.lean); 617-620 (`debugTopic`, Parset/Json.lean); 638-656 (`Fov`, Parset/Json.lean); 638-656 (`fovOf`, Parset/Json.lean); 653-655 (`listAt`, Parset/Json.lean); 655 (`filterInt`, Parset/Json.lean); 655 (`filterTime`, Parset/Json.lean); 655 (`filtersOf`, Parset/Json.lean); 659-678,681-696,716-738 (`Pointing`, Parset/Json.lean); 659-678 (`pointingOf`, Parset/Json.lean); 672 (`toDoOf`, Parset/Json.lean); 676 (`beamNumber`, Parset/Json.lean); 676 (`fovPos`, Parset/User.lean); 681-696 (`nickelPointing`, Parset/Json.lean); 698-738 (`xstOf`, Parset/Json.lean); 698-738 (`xstPointings`, Parset/User.lean); 741-760 (`coreItems`, Parset/Json.lean); 741-760 (`keptMiniArrays`, Parset/User.lean); 763-767 (`save`, IO/Names.lean); 780-784 (`PSet`, Parset/Load.lean); 797-812 (`parsetFile`, IO/Names.lean); 815-823 (`versionOf`, Parset/Json.lean); 819-823 (`versionText`, Parset/Json.lean); 828-882 (`Json`, Parset/Json.lean); 828-874 (`toJson`, Parset/Json.lean); 833-874 (`JsonEntry`, Parset/User.lean); 833-874 (`whenL`, Parset/User.lean); 833-874 (`buildEntry`, Parset/User.lean); 846-871 (`pointingsOf`, Parset/Json.lean); 846-855 (`addPointings`, Parset/User.lean); 846-848 (`lastKey`, Parset/User.lean); 851-855 (`PFile`, Parset/User.lean); 851-855 (`pcPointings`, Parset/User.lean); 859 (`pvTrue`, Parset/Json.lean); 863-871 (`oldNickel`, Parset/Json.lean); 876-882 (`exportAll`, IO/Names.lean); 878,1146 (`basename`, IO/Names.lean); 878,1146 (`replGo`, IO/Names.lean); 878,1146 (`jsonName`, IO/Names.lean); 885-1152 (`toJsonOld`, Parset/JsonOld.lean); 888-1152 (`OldJson`, Parset/JsonOld.lean); 908-912 (`oldTopic`, Parset/JsonOld.lean); 924-927 (`oldReceivers`, Parset/JsonOld.lean); 941-960,1075 (`OldFov`, Parset/JsonOld.lean); 964-1073 (`oldBeam`, Parset/JsonOld.lean); 965-1075,1094-1113 (`OldPointing`, Parset/JsonOld.lean); 971-1068 (`oldReceiver`, Parset/JsonOld.lean); 974-1060 (`OldRec`, Parset/JsonOld.lean); 976-1068 (`oldToDo`, Parset/JsonOld.lean); 977-983,1028-1034 (`withParams`, Parset/JsonOld.lean); 983,1034,1054 (`OldSetting`, Parset/JsonOld.lean); 985-1018 (`oldPulsar`, Parset/JsonOld.lean); 989,997,1006,1013 (`oldSrc`, Parset/JsonOld.lean); 1050-1054 (`orSkip`, Parset/JsonOld.lean); 1055-1068 (`oldNickelRec`, Parset/JsonOld.lean); 1072-1075,1077-1113 (`oldFill`, Parset/JsonOld.lean); 1077-1113 (`oldXst`, Parset/JsonOld.lean); 1089-1092 (`oldNext`, Parset/JsonOld.lean); 1121-1144 (`oldRemote`, Parset/JsonOld.lean); 1126,1140 (`remoteItem`, Parset/JsonOld.lean); 1133 (`usesImager`, Parset/JsonOld.lean); 1189-1232 (`readFile`, Parset/Load.lean); 1196-1232 (`collect`, Parset/Load.lean); 1196-1232 (`cut`, Parset/User.lean); 1196-1232 (`assignLine`, Parset/User.lean); 1196-1232 (`decode`, Parset/User.lean); 1205-1230 (`dictSet`, Parset/Load.lean); 1205-1230 (`PSet.assign`, Parset/Load.lean); 1205-1230 (`beamIndex`, Parset/User.lean); 1205-1230 (`sectOf`, Parset/User.lean); 1211-1230 (`setBeam`, Parset/Load.lean); 1212,1219,1226 (`bracketDigits`, Parset/User.lean); 1212,1219,1226 (`searchIndex`, Parset/User.lean); 1353-1368 (`miniarrayDict`, Parset/Text.lean); 1363-1364 (`endsOf`, Parset/Text.lean); 1550-1552 (`fresh`, Parset/Validate.lean); 1552 (`Field`, Parset/User.lean); 1552 (`Block`, Parset/User.lean); 1573-1606 (`PVal.toU`, Parset/Load.lean); 1573-1606 (`modify`, Parset/User.lean); 1576-1606 (`setKey`, Parset/User.lean); 1582-1596 (`UVal`, Parset/User.lean); 1582-1596 (`roundEven`, Parset/User.lean); 1582-1596 (`UVal.stored`, Parset/User.lean); 1595-1596 (`Item.text`, Parset/Load.lean); 1595-1596 (`intStr`, Parset/Text.lean); 1595-1596 (`join`, Parset/Text.lean); 1595-1596 (`listStr`, Parset/Text.lean); 1609-1623 (`blockEntries`, Parset/Load.lean); 1609-1623,2503-2528 (`numberedEntries`, Parset/Load.lean); 1609-1623 (`written`, Parset/User.lean); 1613-1620 (`natStr`, Parset/Text.lean); 1613-1620 (`Sect`, Parset/User.lean); 1613-1620 (`Sect.text`, Parset/User.lean); 1620 (`Entry`, Parset/User.lean); 1620 (`Entry.line`, Parset/User.lean); 1631-1634,2054-2055,2075-2076 (`blockOf`, Parset/Load.lean); 1652-1655 (`getDuration`, Parset/Text.lean); 1659-1663 (`unitSeconds`, Parset/Text.lean); 1732-1738 (`propagate`, Parset/Load.lean); 1732-1738 (`ABeam`, Parset/User.lean); 1732-1738 (`ABeam.propagate`, Parset/User.lean); 1806-1809 (`UFile`, Parset/Validate.lean); 1812-1886 (`UFile.entries`, Parset/Load.lean); 1812-1886,2531-2538 (`Numbering`, Parset/User.lean); 1812-1886,2531-2538 (`numbering`, Parset/User.lean); 1889-1923 (`load`, Parset/Load.lean); 1891-1893 (`copyFields`, Parset/Load.lean); 1909-1913 (`addBlocks`, Parset/Load.lean); 1911,1917 (`dictGet`, Parset/Load.lean); 1911,1917,2192 (`noBeamOf`, Parset/Load.lean); 1915-1919 (`addCenters`, Parset/Load.lean); 1927 (`replayCall`, Parset/PropsReplaySession.lean); 1927-2033 (`Sky`, Parset/Replay.lean); 1927-2033 (`replay`, Parset/Replay.lean); 1937 (`startOf`, Parset/Replay.lean); 1937-1944 (`replayShift`, Parset/Replay.lean); 1941 (`daySec`, Parset/Replay.lean); 1941 (`newStart`, Parset/Replay.lean); 1946-2010 (`newParams`, Parset/Replay.lean); 1948-1996 (`beamParams`, Parset/Replay.lean); 1949-1962 (`replaceIf`, Parset/Replay.lean); 1951 (`shiftTime`, Parset/Replay.lean); 1960 (`shiftItem`, Parset/Replay.lean); 1960 (`shiftList`, Parset/Replay.lean); 1967-1996 (`trackParams`, Parset/Replay.lean); 1968-1996 (`Aim`, Parset/Replay.lean); 1968-1985 (`aimOf`, Parset/Replay.lean); 1969-1980 (`fixedOf`, Parset/Replay.lean); 1992-1994 (`transitOf`, Parset/Replay.lean); 1998-2008 (`receiversOf`, Parset/Replay.lean); 2013-2031 (`newBlock`, Parset/Replay.lean); 2019-2023 (`newBeams`, Parset/Replay.lean); 2025-2029 (`newCenters`, Parset/Replay.lean); 2079-2103 (`addAna`, Parset/User.lean); 2128-2163 (`pyIndex`, Parset/User.lean); 2128-2163 (`rmAna`, Parset/User.lean); 2128-2300 (`Edit`, Parset/User.lean); 2128-2300 (`edit`, Parset/User.lean); 2166-2199 (`addNum`, Parset/User.lean); 2192-2199 (`addBlock`, Parset/Load.lean); 2196-2198 (`ABeam.addNum`, Parset/User.lean); 2202-2231 (`modNum`, Parset/User.lean); 2222-2231,2272-2281 (`NBeam`, Parset/User.lean); 2222-2231,2272-2281 (`atNum`, Parset/User.lean); 2234-2282 (`rmNum`, Parset/User.lean); 2285-2318 (`addPc`, Parset/User.lean); 2311-2318 (`addCenter`, Parset/Load.lean); 2315-2317 (`ABeam.addPc`, Parset/User.lean); 2341-2350,2391-2400 (`atPc`, Parset/User.lean); 2353-2401 (`rmPc`, Parset/User.lean); 2404-2483,1641-1645 (`UFile.validate`, Parset/Validate.lean); 2433-2462 (`checkKeys`, Parset/Validate.lean); 2437-2460 (`checkField`, Parset/Validate.lean); 2439-2442 (`synOf`, Parset/Validate.lean); 2454 (`Re`, Parset/Regex.lean); 2454 (`Pos`, Parset/Regex.lean); 2454 (`inCls`, Parset/Regex.lean); 2454 (`wordAt`, Parset/Regex.lean); 2454 (`lastOr`, Parset/Regex.lean); 2454 (`Pos.after`, Parset/Regex.lean); 2454 (`Pos.read`, Parset/Regex.lean); 2454 (`iter`, Parset/Regex.lean); 2454 (`stepCls`, Parset/Regex.lean); 2454 (`Pos.start`, Parset/Regex.lean); 2454 (`fullmatch`, Parset/Regex.lean); 2454 (`readNat`, Parset/Regex.lean); 2454 (`readBounds`, Parset/Regex.lean); 2454 (`readQuant`, Parset/Regex.lean); 2454 (`compile`, Parset/Regex.lean); 2454 (`fullmatchText`, Parset/Regex.lean); 2465-2481 (`UFile.blocks`, Parset/Validate.lean); 2465-2481 (`checkAll`, Parset/Validate.lean); 2486-2499 (`writeUser`, IO/Names.lean); 2503-2509 (`PUser`, Parset/User.lean); 2503-2509 (`numberFrom`, Parset/User.lean); 2503-2509 (`renumNums`, Parset/User.lean); 2512-2518 (`renumPcs`, Parset/User.lean); 2521-2528 (`updateAna`, Parset/User.lean); 2523-2527 (`renumAna`, Parset/User.lean); 2531-2538 (`UFile.numbered`, Parset/Validate.lean). Not modelled: _ParsetProperty.__delitem__, _ParsetProperty.__iter__, _ParsetProperty.__len__, _ParsetProperty.__repr__, _JsonEntry.__init__, _JsonEntry.fov_indices, Parset.parset, Parset._parse_parameters, Parset._array_to_dict_array, Parset._get_time_dict, Parset._get_pointing_center_dict, Parset._get_pointing_center_dict._constrain_angle, _ParsetBlock.__setitem__, _ParsetBlock.__getitem__, _ParsetBlock.fields, _BeamParsetBlock.__str__, _NumericalBeamParsetBlock.__init__, _NumericalBeamParsetBlock.__repr__, _PhaseCenterParsetBlock.__init__, _PhaseCenterParsetBlock.__repr__, _AnalogBeamParsetBlock.__init__, _AnalogBeamParsetBlock.__repr__, _AnalogBeamParsetBlock._add_numerical_beam, _AnalogBeamParsetBlock._add_phase_center, _OutputParsetBlock.__init__, _OutputParsetBlock.__str__, _ObservationParsetBlock.__init__, _ObservationParsetBlock.__str__, ParsetUser.modify_analog_beam.
* `observation/tapdatabase.py`. Modelled: 155-178 (`Db.new`, Astro/Db.lean); 160-169,429-438 (`defaultMeta`, Astro/Db.lean); 200-216 (`Db`, Astro/Db.lean); 200-216 (`setMeta`, Astro/Db.lean); 200-366,426-446 (`DbOp`, Astro/Db.lean); 200-366,426-446 (`DbOp.step`, Astro/Db.lean); 235-255 (`setTimeRange`, Astro/Db.lean); 241-250,281-290 (`RangeArg`, Astro/Db.lean); 241-250,281-290 (`checkRange`, Astro/Db.lean); 275-297 (`wavelengthOf`, Astro/Db.lean); 275-297 (`setFreqRange`, Astro/Db.lean); 316-327 (`RadiusArg`, Astro/Db.lean); 316-327 (`setRadius`, Astro/Db.lean); 346-366 (`CenterArg`, Astro/Db.lean); 346-366 (`setCenter`, Astro/Db.lean); 370-382 (`Cond`, Astro/Db.lean); 370-382 (`Db.conditions`, Astro/Db.lean); 403-423 (`dbSearch`, Astro/Db.lean); 426-446 (`dbReset`, Astro/Db.lean). Not modelled: ObsDatabase.meta_names, ObsDatabase.query.
* `schedule/constraints.py`. Modelled: 180 (`blockScore`, Cnst/Model.lean); 218-228 (`ValidCn`, Cnst/Eval.lean); 218-228 (`setWeight`, Cnst/Model.lean); 388-1319 (`Cn`, Cnst/Eval.lean); 388,539,621,719 (`Cn.onTarget`, Cnst/Eval.lean); 437-445 (`setElevMin`, Cnst/Model.lean); 494-531 (`npDiv`, Cnst/Model.lean); 494-531 (`nanmax`, Cnst/Model.lean); 494-531 (`elevScore`, Cnst/Model.lean); 510-513 (`elevMean`, Cnst/Model.lean); 573-581 (`getScore`, Cnst/Eval.lean); 586-613 (`transitHit`, Cnst/Model.lean); 593-612,684-709,758-783 (`crossScore`, Cnst/Model.lean); 667-679 (`angle180`, Cnst/Model.lean); 667-679 (`azHitCircum`, Cnst/Model.lean); 681-682 (`azHit`, Cnst/Model.lean); 744-755 (`wrap180`, Cnst/Model.lean); 744-755 (`lstHit`, Cnst/Model.lean); 784-804 (`relaxedScore`, Cnst/Relax.lean); 786-787 (`noHit`, Cnst/Relax.lean); 788 (`diffs`, Cnst/Relax.lean); 788-796 (`longestRun`, Cnst/Relax.lean); 789-795 (`whereTrue`, Cnst/Relax.lean); 790-792 (`edges`, Cnst/Relax.lean); 796 (`evens`, Cnst/Relax.lean); 797 (`kernelSize`, Cnst/Relax.lean); 798-799 (`kernelAt`, Cnst/Relax.lean); 800 (`convAt`, Cnst/Relax.lean); 865-880 (`trueOffset`, Cnst/Model.lean); 868-875 (`toLocalTime`, Cnst/Zone.lean); 870-875 (`usedOffset`, Cnst/Model.lean); 870 (`Zone`, Cnst/Zone.lean); 871 (`offsetsOf`, Cnst/Zone.lean); 871-874 (`localOffset`, Cnst/Zone.lean); 877-879 (`hourOf`, Cnst/Zone.lean); 882-889 (`hourMask`, Cnst/Model.lean); 890-891,969-970,1046-1047,1240-1241 (`maskScore`, Cnst/Model.lean); 1038-1045 (`timeRangeMask`, Cnst/Model.lean); 1080-1097 (`nanmin`, Cnst/Model.lean); 1080-1097 (`nightEval`, Cnst/Model.lean); 1083 (`nightMask`, Cnst/Model.lean); 1092-1096 (`nightSlot`, Cnst/Model.lean); 1237-1238 (`pyMod`, Cnst/Model.lean); 1237-1238 (`periodicMask`, Cnst/Model.lean); 1281-1319 (`sunScore`, Cnst/Model.lean); 1284 (`Ephem.separation`, Cnst/Eval.lean); 1284-1290 (`sunMask`, Cnst/Model.lean); 1287-1290 (`sunOut`, Cnst/Model.lean); 1309-1313 (`sunRaw`, Cnst/Model.lean); 1332-1356 (`Kind`, Cnst/Model.lean); 1332-1356 (`C`, Cnst/Model.lean); 1332-1356 (`Cs`, Cnst/Model.lean); 1332-1356 (`mkCs`, Cnst/Model.lean); 1335 (`Heap`, Cnst/Cache.lean); 1359-1379 (`addCs`, Cnst/Model.lean); 1400-1447 (`Block`, Sched/Model.lean); 1417-1447 (`slotRows`, Cnst/Eval.lean); 1417-1447 (`evaluate`, Cnst/Eval.lean); 1421-1433 (`Row`, Cnst/Model.lean); 1421 (`entry`, Cnst/Model.lean); 1421-1447 (`combine`, Cnst/Model.lean); 1423-1433 (`Ephem`, Cnst/Eval.lean); 1423-1433 (`Env`, Cnst/Eval.lean); 1423-1433 (`evalOne`, Cnst/Eval.lean); 1423-1433 (`evalRows`, Cnst/Eval.lean); 1440-1446 (`average`, Cnst/Model.lean); 1441-1447 (`keepScore`, Cnst/Cache.lean); 1454-1505 (`windowScores`, Cnst/Windows.lean); 1458-1475 (`windowEnv`, Cnst/Windows.lean); 1459-1464 (`shiftEphem`, Cnst/Windows.lean); 1478-1491 (`windowRows`, Cnst/Windows.lean); 1480-1491 (`windowOne`, Cnst/Windows.lean). Not modelled: Constraint.__call__, Constraint.__str__, Constraint.weight, Constraint.plot, Constraint._plot_constraint, Constraint._is_numpy_instance, TargetConstraint.__init__, TargetConstraint._is_target_instance, TargetConstraint._pass_angle_instance, ScheduleConstraint.__init__, ScheduleConstraint._is_time_instance, Constraints.__getitem__, Constraints.__len__, Constraints.__del__, Constraints.plot.
* `schedule/contamination.py`. Modelled: 48-49 (`maTable`, Contam/Model.lean); 55-61 (`Sil`, Contam/Model.lean); 64-76 (`addSil`, Contam/Model.lean); 66-67 (`sameAxis`, Contam/Model.lean); 103-116 (`rollIndex`, Contam/Model.lean); 106,114 (`falls`, Contam/Model.lean); 121,123 (`rollBack`, Contam/Model.lean); 161-200 (`exportSil`, Contam/Model.lean); 175 (`plainVal`, Contam/Model.lean); 176-178,196 (`Column`, Contam/Model.lean); 182-199 (`Fits`, Contam/Model.lean); 206-222 (`fromFits`, Contam/Model.lean); 271-310 (`Beam`, Contam/Model.lean); 274-310 (`Setup`, Contam/Model.lean); 274-310 (`newBeam`, Contam/Model.lean); 288,364,409 (`Moc`, Contam/Model.lean); 290,440-442,457-464 (`Shown`, Contam/Model.lean); 321-334 (`setRotations`, Contam/Model.lean); 340-370 (`computeWeights`, Contam/Model.lean); 340-370 (`weightsOfNames`, Contam/Sources.lean); 348-362 (`anyIn`, Contam/Model.lean); 364,369 (`weight`, Contam/Model.lean); 372-407 (`mocArray`, Contam/Model.lean); 372-409 (`computeMoc`, Contam/Model.lean); 391,554 (`nanMax`, Contam/Model.lean); 391 (`peak`, Contam/Model.lean); 391-396 (`inLobes`, Contam/Model.lean); 394 (`atLeast`, Contam/Model.lean); 400-403 (`lobeCells`, Contam/Model.lean); 413-448 (`gsmInLobes`, Contam/Model.lean); 451-482 (`sourcesInLobes`, Contam/Model.lean); 451-482 (`namesInLobes`, Contam/Sources.lean); 471-476 (`countIn`, Contam/Model.lean); 494-501 (`plotIndex`, Contam/Model.lean); 503-516 (`plotReady`, Contam/Model.lean); 521-554 (`arrayFactor`, Contam/Model.lean); 527,532 (`selectedMas`, Contam/Model.lean); 528-543 (`rawAf`, Contam/Model.lean); 529,550-552 (`maskedAf`, Contam/Model.lean); 554 (`pixMax`, Contam/Model.lean); 554 (`divMax`, Contam/Model.lean); 557 (`Txt`, Contam/Sources.lean); 557-590 (`skyCoords`, Contam/Sources.lean); 572-573 (`Pos`, Contam/Sources.lean); 575-589 (`sourcePos`, Contam/Sources.lean); 576-589 (`Lib`, Contam/Sources.lean); 580-585 (`localPos`, Contam/Sources.lean); 581 (`unbracket`, Contam/Sources.lean); 581 (`twoParts`, Contam/Sources.lean); 582 (`readNum`, Contam/Sources.lean); 582 (`latitude`, Contam/Sources.lean). Not modelled: SourceInLobes.lst_time, BeamLobes.miniarray_rotations.
* `schedule/geneticalgo.py`. Modelled: 43-53 (`fresh`, GA/Model.lean); 63-74 (`setPop`, GA/Model.lean); 83-181 (`errOf`, GA/Parents.lean); 83-108,117-144,153-181 (`setFn`, GA/Parents.lean); 85-106 (`Tried`, GA/Parents.lean); 92-106,128-142,165-179 (`checked`, GA/Parents.lean); 152-163 (`Sched.bookGA`, Sched/Model.lean); 157-159,303-308 (`Fn`, GA/Parents.lean); 157-159 (`callPos`, GA/Parents.lean); 184-188 (`generations`, GA/History.lean); 193-230 (`Call`, GA/History.lean); 193-331 (`evolves`, GA/History.lean); 193-218 (`Params`, GA/Model.lean); 193-331 (`evolve`, GA/Model.lean); 201-215 (`evolveChecks`, GA/Parents.lean); 233-329 (`loop`, GA/Model.lean); 235-236 (`childScores`, GA/History.lean); 235-245 (`St`, GA/Model.lean); 235-245 (`evalGen`, GA/Model.lean); 239 (`bestOf`, GA/Model.lean); 281-317 (`Oracle`, GA/Model.lean); 281-317 (`nextGen`, GA/Model.lean); 303-308 (`callGenome`, GA/Parents.lean); 334-378 (`plot`, GA/History.lean); 347-378 (`Drawn`, GA/History.lean); 355-358 (`width`, GA/History.lean); 355-366 (`hexagons`, GA/History.lean); 358 (`repeatEach`, GA/History.lean); 412-427 (`fps`, GA/Parents.lean); 416-418 (`fpsScores`, GA/Parents.lean); 419-420 (`fpsWeights`, GA/Parents.lean); 422-427,454-459 (`drawPair`, GA/Parents.lean); 433-445 (`tournament`, GA/Model.lean); 433-435 (`tournamentSize`, GA/Model.lean); 436-445 (`tns`, GA/Parents.lean); 447-459 (`rks`, GA/Parents.lean); 452 (`rksRanks`, GA/Parents.lean); 469-522 (`Method`, GA/Model.lean); 469-522 (`splice`, GA/Model.lean); 469-522 (`masked`, GA/Model.lean); 469-522 (`crossOver`, GA/Model.lean); 487-511 (`Method.Drawn`, GA/Props.lean). Not modelled: GeneticAlgorithm.populationSize, GeneticAlgorithm.populate.
* `schedule/obsblocks.py`. Modelled: 43-189 (`programmeTable`, Cnst/Show.lean); 43-189 (`programmes`, Cnst/Show.lean); 208-210 (`mkBlock`, Blocks/Model.lean); 219-237 (`mul`, Blocks/Model.lean); 223-236 (`copies`, Blocks/Model.lean); 240-250 (`add`, Blocks/Model.lean); 278-291 (`get`, Blocks/Model.lean); 294-298 (`reset`, Blocks/Model.lean); 303-307 (`Heap`, Blocks/Model.lean); 303-307 (`Heap.update`, Blocks/Model.lean); 303-307 (`assign`, Blocks/Model.lean); 354-371 (`Obj`, Blocks/Model.lean); 354-371 (`newObs`, Blocks/Model.lean); 354-371 (`ObsSpec`, Sched/Model.lean); 381-385,549-558 (`setProgramme`, Cnst/Show.lean); 383 (`lowerStr`, Cnst/Show.lean); 394-404 (`insertBlk`, Cnst/Cache.lean); 420-424 (`colourOf`, Cnst/Show.lean); 427-439 (`titleOf`, Cnst/Show.lean); 434 (`upperStr`, Cnst/Show.lean); 444-514 (`Sum`, Blocks/Model.lean); 444-514 (`periodic`, Blocks/Model.lean); 499-502 (`repetitions`, Blocks/Model.lean); 506-511 (`timeRangeKind`, Blocks/Model.lean); 506-511 (`PBlock`, Blocks/Model.lean); 506-511 (`pblock`, Blocks/Model.lean); 948-1006 (`fromVcr`, Sched/Booking.lean); 971,990 (`Txt`, Sched/Booking.lean); 971,990 (`lowerTxt`, Sched/Booking.lean); 974-982 (`Row`, Sched/Booking.lean); 980 (`Row.code`, Sched/Booking.lean); 986-1000 (`vcrKept`, Sched/Booking.lean). Not modelled: Block.__len__, Block.__radd__, Block.__getitem__, Block.size, ObsBlock.program, ObsBlock.target, ObsBlock.constraints, ObsBlock2.__init__, ObsBlock2.program, ObsBlock2.target, ObsBlock2.constraints, ObsBlock2.startIdx, ObsBlock2.kpColor, ObsBlock2.statusColor, ObsBlock2.title, ObsBlock2.score, ObsBlock2.evaluateScore, ObsBlock2.plot, ObsBlock2._isKP, ObsBlock2._display, ReservedBlock.__init__, ReservedBlock.is_within, ReservedBlock._display.
* `schedule/open_time.py`. Modelled: 63-66 (`Season`, Cal/Model.lean); 63-66 (`nightBounds`, Cal/Model.lean); 69-82 (`seasonOf`, Cal/Model.lean); 84-97 (`sortNight`, Cal/Model.lean); 101-389 (`Txt`, Cal/Sheets.lean); 126-150 (`sheetBooks`, Cal/Sheets.lean); 132,219 (`dayTexts`, Cal/Sheets.lean); 133-150 (`cellBook`, Cal/Sheets.lean); 134 (`blank`, Cal/Sheets.lean); 134,616 (`kpKinds`, Cal/Sheets.lean); 134,239 (`kpAt`, Cal/Sheets.lean); 134 (`blanks1`, Cal/Sheets.lean); 134 (`hourAt`, Cal/Sheets.lean); 134 (`dash`, Cal/Sheets.lean); 134 (`inBrackets`, Cal/Sheets.lean); 134 (`rstrip`, Cal/Sheets.lean); 134 (`tailOk`, Cal/Sheets.lean); 134 (`parseBooking`, Cal/Sheets.lean); 143-150 (`Book`, Cal/Sheets.lean); 155-171 (`Bk`, Cal/Model.lean); 155-171 (`mergeGo`, Cal/Model.lean); 155-171 (`mergeBk`, Cal/Model.lean); 163-166 (`commentOf`, Cal/Model.lean); 197-317 (`sheetInfo`, Cal/Sheets.lean); 199-213 (`Totals`, Cal/Sheets.lean); 215-223 (`Item`, Cal/Sheets.lean); 218-220 (`dayItems`, Cal/Sheets.lean); 223-307 (`infoCell`, Cal/Sheets.lean); 227 (`strictOk`, Cal/Sheets.lean); 254 (`nextWord`, Cal/Sheets.lean); 254 (`splitAt`, Cal/Sheets.lean); 254 (`splitWhole`, Cal/Sheets.lean); 254 (`looseTimes`, Cal/Sheets.lean); 289-302 (`lateErrors`, Cal/Sheets.lean); 294-302 (`cellsWrong`, Cal/Sheets.lean); 345,352-379 (`rowToList`, Cal/Model.lean); 352-379 (`Cell`, Cal/Model.lean); 352-379 (`Cell.val`, Cal/Model.lean); 352-379 (`rowGo`, Cal/Model.lean); 394 (`siderealDay`, Cal/Sheets.lean); 398-405 (`Drawn`, Cal/DrawEvent.lean); 412-413 (`Ev`, Cal/Model.lean); 412-413 (`Ev.lt`, Cal/Model.lean); 412-413 (`NEvent.before`, Cal/Summary.lean); 415-434 (`Ev.overlaps`, Cal/Model.lean); 436-439 (`boxContains`, Cal/DrawEvent.lean); 441-447 (`connect`, Cal/DrawEvent.lean); 441-447 (`clickAll`, Cal/DrawEvent.lean); 466-503 (`drawEvent`, Cal/DrawEvent.lean); 480-486 (`eventTitle`, Cal/DrawEvent.lean); 486 (`textPieces`, Cal/DrawEvent.lean); 489 (`middleOf`, Cal/DrawEvent.lean); 491-503,948-958 (`titledOn`, Cal/DrawEvent.lean); 511-529 (`Slot`, Cal/Sheets.lean); 511-514 (`Slot.earlier`, Cal/Sheets.lean); 513,524 (`Slot.setBegin`, Cal/Sheets.lean); 514,523 (`Slot.setEnd`, Cal/Sheets.lean); 521-524 (`Slot.later`, Cal/Sheets.lean); 531-548 (`Marked`, Cal/DrawEvent.lean); 531-548 (`onClick`, Cal/DrawEvent.lean); 535 (`Click`, Cal/DrawEvent.lean); 550-561 (`Key`, Cal/Sheets.lean); 550-565 (`keyPress`, Cal/Sheets.lean); 598-605 (`NenuCal`, Cal/Crossings.lean); 600-601 (`NenuCal.make`, Cal/Crossings.lean); 608-635 (`fromIcs`, Cal/Sheets.lean); 610,640,680 (`Cals`, Cal/Sheets.lean); 616,646,686,777 (`kpSearch`, Cal/Sheets.lean); 625 (`putCal`, Cal/Sheets.lean); 629-633,669-673,700-702 (`calEvents`, Cal/Sheets.lean); 638-675 (`fromCsv`, Cal/Sheets.lean); 651-652 (`getCal`, Cal/Sheets.lean); 678-704 (`fromXls`, Cal/Sheets.lean); 713-740 (`eventHours`, Cal/Model.lean); 753-792 (`writeSummary`, Cal/Summary.lean); 763 (`orderEvents`, Cal/Summary.lean); 765-769 (`summaryName`, Cal/Summary.lean); 767 (`baseName`, Cal/Summary.lean); 767,769 (`joinPath`, Cal/Summary.lean); 772-792 (`NEvent`, Cal/Summary.lean); 772 (`summaryHeader`, Cal/Summary.lean); 773-790 (`summaryLine`, Cal/Summary.lean); 773-790 (`summaryLoop`, Cal/Summary.lean); 795-867 (`writeVcr`, Cal/Model.lean); 795,865-867 (`writeVcrAll`, Cal/Model.lean); 807 (`sortEvents`, Cal/Model.lean); 818-863 (`vcrLoop`, Cal/Model.lean); 848-863 (`Line`, Cal/Model.lean); 848-863 (`lineOf`, Cal/Model.lean); 849-852 (`rename`, Cal/Model.lean); 881-899 (`onPage`, Cal/Sheets.lean); 948-958 (`drawnOn`, Cal/Sheets.lean); 1067-1095 (`timeIntersection`, Cal/Model.lean); 1097-1127 (`NenuCal.nIntersections`, Cal/Crossings.lean); 1099-1101 (`CrossSt`, Cal/Crossings.lean); 1099-1127 (`crossings`, Cal/Crossings.lean); 1117-1126 (`crossStep`, Cal/Crossings.lean); 1170-1188 (`excelToIcs`, IO/Names.lean). Not modelled: NenuEvent.__repr__, NenuEvent.__str__, NenuEvent._erase_drawing, NenuEvent._change_facecolor, NenuEvent._update_draw.
* `schedule/schedule.py`. Modelled: 59-63 (`Status`, Cnst/Show.lean); 74-103,1739,871 (`Block`, Sched/Model.lean); 74-103 (`ObsSpec.toBlock`, Sched/Model.lean); 75-104 (`Blk`, Cnst/Cache.lean); 99,103,1764 (`ceilSlots`, Sched/Model.lean); 113-118 (`Sched.isBooked`, Sched/Model2.lean); 134-150 (`blockScore`, Cnst/Model.lean); 134-150 (`shownScore`, Cnst/Show.lean); 153-164 (`statusOf`, Cnst/Show.lean); 153-164 (`blockStatus`, Cnst/Show.lean); 170-192 (`freshScore`, Cnst/Cache.lean); 176-177 (`locate`, Cnst/Cache.lean); 181-187 (`blkEnv`, Cnst/Cache.lean); 194-199 (`isWithin`, Sched/Model2.lean); 211-222 (`pathTimes`, Cnst/Show.lean); 289-290,1589-1591,1705-1707 (`bookedAt`, Sched/Rows.lean); 318-331 (`titlesIn`, Sched/Rows.lean); 319 (`textPos`, Sched/Rows.lean); 406-430,820-871 (`Sched.insertObs`, Sched/Model.lean); 414-424 (`insertBlk`, Cnst/Cache.lean); 443-482,696-729,618-633 (`Sched`, Sched/Model.lean); 443-482,599-616 (`mkSched`, Sched/Model.lean); 541-544,559 (`Sched.time2idx1`, Sched/Model.lean); 545-559 (`Sched.time2idx2`, Sched/Model.lean); 562-586 (`Sched.addBooking`, Sched/Model.lean); 589-594 (`Sched.removeBooking`, Sched/Model.lean); 613 (`Sched.slotStart`, Sched/Model.lean); 614 (`Sched.slotStop`, Sched/Model.lean); 788-818 (`fromIcs`, Sched/Booking.lean); 795-804 (`Event`, Sched/Booking.lean); 798 (`Event.le`, Sched/Booking.lean); 798-800 (`icsEvents`, Sched/Booking.lean); 799-800,931 (`Txt`, Sched/Booking.lean); 800 (`Event.named`, Sched/Booking.lean); 803-818 (`icsSchedule`, Sched/Booking.lean); 816 (`raised`, Sched/Booking.lean); 858-865 (`Sched.insertReserved`, Sched/Model.lean); 859-860 (`Sched.reserveAll`, Sched/Model2.lean); 874-914 (`Sched.setFreeSlots`, Sched/Model2.lean); 892-914 (`gapList`, Sched/Model2.lean); 900 (`innerGaps`, Sched/Model2.lean); 917-971 (`Sched.matchBooking`, Sched/Booking.lean); 919-927 (`Row`, Sched/Booking.lean); 925 (`Row.code`, Sched/Booking.lean); 935-947 (`Sched.bookings`, Sched/Booking.lean); 940-942 (`matchBookingMask`, Sched/Model2.lean); 974 (`BookParams`, Sched/Model.lean); 974-1077,1137-1237 (`Sched.book`, Sched/Model.lean); 1048-1077 (`Sched.prepare`, Sched/Model.lean); 1069-1077 (`hasRun`, Sched/Model.lean); 1069-1077 (`Sched.veryStrict`, Sched/Model.lean); 1079-1135 (`Sched.bookGA`, Sched/Model.lean); 1095-1111 (`assignGenome`, Sched/Model.lean); 1117-1127 (`Sched.cleanStep`, Sched/Model.lean); 1118 (`insertByScore`, Sched/Model.lean); 1118 (`sortByScore`, Sched/Model.lean); 1159-1227 (`BState`, Sched/Model.lean); 1159-1227 (`bookStep`, Sched/Model.lean); 1159-1227 (`bookLoop`, Sched/Model.lean); 1165-1168 (`Sched.avail`, Sched/Model.lean); 1173-1176 (`masked`, Sched/Model.lean); 1176 (`Sched.availStart`, Sched/Model.lean); 1179-1191 (`b2q`, Sched/Model.lean); 1179-1191 (`Sched.bookScore`, Sched/Model.lean); 1181-1190 (`hoursWeight`, Sched/Model.lean); 1191-1206 (`Sched.choose`, Sched/Model.lean); 1204-1207 (`argmax`, Common/Prelude.lean); 1208-1221 (`Sched.setFree`, Sched/Model.lean); 1208-1221 (`Sched.setBlock`, Sched/Model.lean); 1208,1220-1221 (`Sched.placed`, Sched/Model.lean); 1208-1221 (`Sched.bookAt`, Sched/Model.lean); 1225,1227 (`countIn`, Sched/Model.lean); 1240-1366 (`extendWith`, Cnst/Windows.lean); 1240-1366 (`Sched.extend`, Sched/Model.lean); 1261-1315 (`allCandidates`, Sched/Model.lean); 1266-1315 (`extCandidates`, Sched/Model.lean); 1288-1316 (`keepSize`, Cnst/Windows.lean); 1288-1292 (`extWindow`, Sched/Model.lean); 1294-1308 (`windowScore`, Cnst/Windows.lean); 1298 (`windowScores`, Cnst/Windows.lean); 1303-1307 (`treat`, Cnst/Windows.lean); 1314 (`better`, Cnst/Windows.lean); 1324-1364 (`extendIter`, Sched/Model.lean); 1328-1362 (`extendBlock`, Sched/Model.lean); 1338-1360 (`Sched.extendAttempt`, Sched/Model.lean); 1347 (`consecutive`, Sched/Model.lean); 1368-1460 (`tuneRun`, Sched/FineTune.lean); 1376-1455 (`tuneStep`, Sched/FineTune.lean); 1378-1388 (`TBlock`, Sched/FineTune.lean); 1390-1395 (`tSort`, Sched/FineTune.lean); 1401-1404 (`leftGain`, Sched/FineTune.lean); 1401-1420 (`leftScore`, Sched/FineTune.lean); 1402-1403 (`gapLow`, Sched/FineTune.lean); 1405-1406 (`gapHigh`, Sched/FineTune.lean); 1405-1407 (`rightGain`, Sched/FineTune.lean); 1405-1427 (`rightScore`, Sched/FineTune.lean); 1413 (`withDelay`, Sched/FineTune.lean); 1415 (`prevDelay`, Sched/FineTune.lean); 1422 (`nextDelay`, Sched/FineTune.lean); 1430-1438 (`bestScore`, Sched/FineTune.lean); 1436-1438 (`tunedRank`, Sched/FineTune.lean); 1436-1447 (`Sched.tuneMove`, Sched/Model.lean); 1445-1446 (`moveBlock`, Sched/FineTune.lean); 1446 (`newStart`, Sched/FineTune.lean); 1463-1524 (`insertByKey`, Sched/Model2.lean); 1463-1524 (`sortByKey`, Sched/Model2.lean); 1463-1524 (`Sched.export`, Sched/Model2.lean); 1527-1617 (`plotRange`, Sched/Rows.lean); 1569-1577,1689-1698 (`marksIn`, Sched/Rows.lean); 1620-1727 (`plotRows`, Sched/Rows.lean); 1655 (`firstMidnight`, Sched/Rows.lean); 1655-1671 (`rowCount`, Sched/Rows.lean); 1656 (`lastStop`, Sched/Rows.lean); 1680-1708 (`RowDrawn`, Sched/Rows.lean); 1680-1708 (`plotRow`, Sched/Rows.lean); 1682 (`rowLeft`, Sched/Rows.lean); 1683 (`rowRight`, Sched/Rows.lean); 1704-1708 (`bookedBlocks`, Sched/Rows.lean); 1732-1789 (`Sched.computeScores`, Sched/Model.lean); 1745-1751 (`Grid`, Cnst/Cache.lean); 1753-1771 (`usedScore`, Cnst/Cache.lean); 1753-1785 (`usedScores`, Cnst/Cache.lean); 1753-1784 (`Sched.scoreBlock`, Sched/Model.lean); 1764-1775 (`sumTo`, Common/Prelude.lean); 1764-1775 (`cnstRow`, Sched/Model.lean); 1792-1806 (`resetLoop`, Sched/Model.lean); 1792-1806 (`Sched.reset`, Sched/Model.lean); 1809-1819 (`boundGene`, Sched/Model2.lean); 1840-1847 (`populateGene`, Sched/Fitness.lean); 1852-1924 (`fitness`, Sched/Fitness.lean); 1858-1871 (`quality`, Sched/Fitness.lean); 1862-1866,1891-1895 (`Cand`, Sched/Fitness.lean); 1862-1866 (`candAt`, Sched/Fitness.lean); 1891 (`delayedIdx`, Sched/Fitness.lean); 1891-1906 (`delayCount`, Sched/Fitness.lean); 1892 (`delayedStart`, Sched/Fitness.lean); 1893,1909 (`IsArgsort`, Sched/Fitness.lean); 1896-1906,1910-1920 (`badPairs`, Sched/Fitness.lean); 1908-1920 (`overlapCount`, Sched/Fitness.lean); 1927-1938 (`mutateGenome`, Sched/Fitness.lean); 1962-1988 (`Sched.freeProc`, Sched/Model.lean); 1990-2013 (`pyBound`, Common/Prelude.lean); 1990-2013 (`inSlice`, Common/Prelude.lean); 1990-2013 (`Sched.freezeProc`, Sched/Model.lean); 2015-2040 (`Sched.freeSlots`, Sched/Model.lean); 2042-2067 (`Sched.freezeSlots`, Sched/Model.lean); 2069-2129 (`andThen`, Sched/Model.lean); 2069-2129 (`Sched.shift`, Sched/Model.lean); 2131-2158 (`Sched.shiftLater`, Sched/Model.lean); 2160-2185 (`Sched.shiftEarlier`, Sched/Model.lean). Not modelled: _isTime, _isTDelta, ScheduleBlock.__del__, ScheduleBlock.indices, ScheduleBlocks.__init__, ScheduleBlocks.__len__, ScheduleBlocks.__getitem__, ScheduleBlocks.__del__, ScheduleBlocks.size, ScheduleBlocks.nSlots, ScheduleBlocks.n_delay_slots, _TimeSlots.time_min, _TimeSlots.time_max, _TimeSlots.dt, _TimeSlots.free_processing_slots, Schedule.__getitem__, Schedule.observation_blocks, Schedule.reserved_blocks, Schedule.score.
* `schedule/targets.py`. Modelled: 46-50 (`siteLat`, Cnst/Position.lean); 46-50 (`siteLon`, Cnst/Sidereal.lean); 75-81 (`Heap`, Cnst/Cache.lean); 75-81 (`Placed`, Cnst/Position.lean); 75-81,132-138 (`Kept`, Cnst/Position.lean); 120-128 (`sliceTarget`, Cnst/Cache.lean); 120-128 (`slicePlaced`, Cnst/Position.lean); 120-128 (`shiftEphem`, Cnst/Windows.lean); 141-154 (`computePosition`, Cnst/Position.lean); 144-149 (`WhenArg`, Cnst/Position.lean); 144-149 (`WhenArg.dates`, Cnst/Position.lean); 151-154 (`placeAt`, Cnst/Position.lean); 159-174 (`siderealDeg`, Cnst/Sidereal.lean); 163-165 (`rawGmst`, Cnst/Sidereal.lean); 169-173 (`fixLst`, Cnst/Sidereal.lean); 186-199 (`hourAngleDeg`, Cnst/Sidereal.lean); 207-210 (`rad`, Cnst/Position.lean); 207-218 (`elevationDeg`, Cnst/Position.lean); 215-218,234 (`degOf`, Cnst/Position.lean); 220-223 (`rawAzimuth`, Cnst/Position.lean); 220-234 (`azimuthDeg`, Cnst/Position.lean); 266-271 (`ssCircumpolar`, Geom/Site.lean); 294-296 (`Ephem.separation`, Cnst/Eval.lean); 334-337 (`circumpolarDeg`, Cnst/Position.lean); 334-337 (`esCircumpolar`, Geom/Site.lean). Not modelled: _Target.target, _Target.hourAngle, _Target.elevation, _Target.azimuth, _Target._positionAtEquinox, _Target._attrWarning, SSTarget.__init__, SSTarget._positionAtEquinox, ESTarget.__init__, ESTarget.fromName, ESTarget.fromCoordinates.
* `undysputed/dynspec.py`. Modelled: 47-57 (`Header`, Raw/Model.lean); 47-57 (`headerAt`, Raw/Model.lean); 96-108 (`laneFile`, IO/Names.lean); 101 (`laneHere`, IO/Names.lean); 102 (`laneFound`, IO/Names.lean); 107 (`digitVal`, IO/Names.lean); 110-113 (`laneStart`, TF/Limits.lean); 115-118 (`laneEnd`, Dyn/Model.lean); 115-118 (`laneEnd`, TF/Limits.lean); 121-123,243 (`laneMin`, TF/Limits.lean); 126-128,244 (`laneMax`, TF/Limits.lean); 189-250 (`Loaded`, Dyn/File.lean); 189-250 (`loadLane`, Dyn/File.lean); 189-250 (`Lane`, Dyn/Model.lean); 196-241 (`laneOf`, Dyn/File.lean); 204,243 (`laneWidth`, TF/Limits.lean); 214-217 (`ejonesOf`, Dyn/File.lean); 243 (`laneFmin`, Dyn/Model.lean); 244 (`laneFmax`, Dyn/Model.lean); 252-288,207-217 (`laneBlocks`, Raw/Model.lean); 253-263 (`firstHeader`, Raw/Model.lean); 272-280 (`Beamlet`, Raw/Model.lean); 281-283 (`blockSize`, Raw/Model.lean); 285-288 (`chunks`, Raw/Model.lean); 290-300 (`laneTime`, Dyn/Model.lean); 290-300 (`laneTime`, TF/Limits.lean); 302-315 (`laneFreq`, Dyn/Model.lean); 303-316 (`laneFreq`, TF/Limits.lean); 326-334 (`beamEdgesOld`, TF/Model.lean); 329 (`beamWhere`, TF/Model.lean); 342-366 (`blocksToTf`, TF/Model.lean); 368-383 (`Ejones`, Dyn/File.lean); 368-383 (`ejonesAt`, Dyn/File.lean); 377-383 (`ejones`, TF/Stokes.lean); 543-563,604-622 (`readFiles`, Dyn/File.lean); 543-563 (`Reader`, Dyn/Model.lean); 543-563 (`create`, Dyn/Model.lean); 604-622 (`setFiles`, Dyn/Model.lean); 615-620 (`readAll`, Dyn/Model.lean); 625-641 (`timeRange`, Dyn/Model.lean); 643-968 (`Set`, Dyn/Model.lean); 643-968 (`applySet`, Dyn/Model.lean); 644-657 (`setTimes`, Dyn/Model.lean); 660-676 (`freqRange`, Dyn/Model.lean); 679-690 (`setFreqs`, Dyn/Model.lean); 708-718 (`setBeam`, Dyn/Model.lean); 709,946 (`Arg`, Dyn/Model.lean); 715,1102 (`least`, Dyn/Model.lean); 867-876 (`bandMode`, Dyn/BandCorr.lean); 868 (`BandMode`, Dyn/BandCorr.lean); 944-968 (`setEdges`, Dyn/Model.lean); 1076-1085 (`nchan`, Dyn/Model.lean); 1088-1102 (`beamsOf`, Dyn/Model.lean); 1106,1204-1208 (`Stokes`, Dyn/Model.lean); 1144-1203 (`getLanes`, Dyn/File.lean); 1144-1194 (`gather`, Dyn/Model.lean); 1148-1188 (`pieceOf`, Dyn/File.lean); 1187 (`stokesPolar`, Dyn/Model.lean); 1191-1194 (`join`, Dyn/Model.lean); 1250-1306 (`writeHdf5`, Dyn/Model.lean); 1264-1275 (`writeStokes`, Dyn/Model.lean); 1264-1306 (`writeAll`, Dyn/Model.lean); 1274 (`firstPol`, Dyn/Model.lean); 1318-1329 (`stokesItem`, Dyn/File.lean); 1318-1336 (`stokesCell`, Dyn/File.lean); 1318 (`stokesItems`, Dyn/Model.lean); 1318-1329 (`stokesOld`, TF/Stokes.lean); 1320-1327 (`known`, Dyn/Model.lean); 1329 (`stokesShape`, Dyn/Model.lean); 1349-1365 (`deFaradayOld`, TF/Stokes.lean); 1362 (`rotMatrix`, TF/Stokes.lean); 1386-1443 (`polTimes`, Dyn/Model.lean); 1389 (`tailLen`, Dyn/Model.lean); 1408-1413 (`firstTrue`, Dyn/Model.lean); 1408-1409 (`jonesSlice`, Dyn/Model.lean); 1431-1443 (`broadcast`, Dyn/Model.lean); 1530-1570 (`selectData`, Dyn/Model.lean); 1540,1541,1548,1551 (`closest`, Dyn/Model.lean); 1540-1544 (`selTimes`, Dyn/Model.lean); 1548-1560 (`selFreqs`, Dyn/Model.lean); 1567-1573 (`cellsOf`, Dyn/File.lean); 1567-1570 (`Sel`, Dyn/Model.lean); 1599-1632,1577-1597 (`bandCorrect`, Dyn/BandCorr.lean); 1609-1619 (`medianCorr`, Dyn/BandCorr.lean); 1609-1619 (`medianBandpass`, Dyn/Model.lean); 1615,1625 (`bandLevel`, Dyn/BandCorr.lean); 1619,1626,1628 (`ratioOf`, Dyn/BandCorr.lean); 1621-1629 (`adjustedCorr`, Dyn/BandCorr.lean); 1624-1627 (`bandProfile`, Dyn/BandCorr.lean); 1634-1648 (`removeEdges`, Dyn/Model.lean); 1655-1702 (`background`, Dyn/Clean.lean); 1667 (`freqMed`, Dyn/Clean.lean); 1667-1696 (`freqSmooth`, Dyn/Clean.lean); 1668-1670,1684-1686 (`pct90`, Dyn/Clean.lean); 1668-1671,1684-1687 (`cutProfile`, Dyn/Clean.lean); 1672-1674,1688-1690 (`kernelSize`, Dyn/Clean.lean); 1675-1680 (`under`, Dyn/Clean.lean); 1675-1680,1691-1696 (`smoothed`, Dyn/Clean.lean); 1677,1693 (`bell`, Dyn/Clean.lean); 1683 (`timeMed`, Dyn/Clean.lean); 1683-1696 (`timeSmooth`, Dyn/Clean.lean); 1700 (`nanTop`, Dyn/Clean.lean); 1704-1732 (`cleaned`, Dyn/Clean.lean); 1714-1730 (`cleanAll`, Dyn/Clean.lean); 1718 (`backValues`, Dyn/Clean.lean); 1718-1722 (`cleanLimit`, Dyn/Clean.lean); 1744-1759 (`deDisperseOld`, TF/Model.lean); 1746-1752 (`cellDelay`, TF/Model.lean); 1753-1756 (`rollBlank`, TF/Model.lean); 1814-1829 (`rebinOld`, TF/Model.lean); 1968-1987 (`jumpEdges`, Dyn/Model.lean); 1968-1971 (`nJumps`, Dyn/Model.lean); 1972 (`perJump`, Dyn/Model.lean); 1998-2028 (`fitsOf`, Dyn/Model.lean). Not modelled: _time_to_keywords, _Lane.__init__, _Lane.lanefile, _Lane.get_stokes, Dynspec.lanefiles, Dynspec.jump_correction, Dynspec.tmin, Dynspec.tmax, Dynspec.dt, Dynspec.fmin, Dynspec.fmax, Dynspec.df, Dynspec._polarization_correction2, Dynspec._polarization_correction2.prepare_intervals, Dynspec._freqFlattening, Dynspec._correct_jumps.switchLoadFunc.
* `undysputed/utils.py`. Modelled: 59-82 (`deDisperseOld`, TF/Model.lean); 66-74 (`cellDelay`, TF/Model.lean); 77-80 (`rollBlank`, TF/Model.lean). 
* `undysputed/waveform.py`. Modelled: 63-77,163-165 (`rawFile`, IO/Names.lean); 160-254 (`rawLoad`, Raw/Model.lean); 182-253 (`RawLane`, Raw/Model.lean); 188-195 (`rawWidth`, Raw/Model.lean); 209-224 (`allocAt`, Raw/Model.lean); 246-249 (`rawTime`, Raw/Model.lean); 252 (`rawChannels`, Raw/Model.lean). Not modelled: _RawLane.__init__, _RawLane.rawlanefile, Waveform.__init__.
