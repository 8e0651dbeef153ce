{"id": "C01", "title": "Heuristic booking never double-books a time slot", "statement": "After Schedule.book(optimize=False), whatever the blocks, constraint scores, reserved slots, sort order, weights and minimal score, no time slot is occupied by two booked observation blocks.", "quantifier": "every schedule size, block list (any durations, delays), score table, initial occupancy and processing order", "why_tests_cant": "the interleaving of block durations, scores and remaining free slots is unbounded; a collision can hide in one particular arrangement", "anchors": ["nenupy/schedule/schedule.py:Schedule.book", "nenupy/schedule/schedule.py:ScheduleBlock"]}
{"id": "C02", "title": "Booked blocks lie inside the schedule and off reserved slots", "statement": "Every block booked by Schedule.book(optimize=False) occupies a contiguous run of exactly ceil(duration/dt) slots, all inside the schedule and all free (not reserved) when booking began.", "quantifier": "every schedule, reservation set, block list and order", "why_tests_cant": "boundary windows (first/last slots) and reservation patterns are unbounded", "anchors": ["nenupy/schedule/schedule.py:Schedule.book", "nenupy/schedule/schedule.py:Schedule._compute_block_constraint_scores"]}
{"id": "C03", "title": "Heuristic booking takes the first best feasible window", "statement": "When the heuristic books a block, the chosen start is feasible, has positive score at least minimal_score somewhere, no feasible start has a strictly larger weighted score and no earlier start has an equal one; a block is left unbooked only if no start has a positive score reaching the minimum.", "quantifier": "every score row, occupancy and weight vector", "why_tests_cant": "maximality quantifies over all alternative placements", "anchors": ["nenupy/schedule/schedule.py:Schedule.book"]}
{"id": "C04", "title": "Processing delays are respected between booked blocks", "statement": "After heuristic booking, a block with a processing delay is never placed such that the slots frozen by previously booked delayed blocks are used by it; any block booked later that itself has a delay keeps at least the earlier-booked block's delay between them.", "quantifier": "every history of bookings with arbitrary delays", "why_tests_cant": "depends on booking order, overlaps of frozen zones and clipping at schedule ends", "anchors": ["nenupy/schedule/schedule.py:Schedule.book", "nenupy/schedule/schedule.py:Schedule._freeze_processing_slots"]}
{"id": "C05", "title": "Re-booking with reset starts from a clean schedule", "statement": "Schedule.book(reset=True) first un-books all blocks so that slot availability and processing availability are exactly those before any booking.", "quantifier": "every booked state reachable by heuristic booking", "why_tests_cant": "the leak needs a second booking pass with delays at particular positions", "anchors": ["nenupy/schedule/schedule.py:Schedule._reset", "nenupy/schedule/schedule.py:Schedule._freeze_processing_slots"]}
{"id": "C06", "title": "Optimised (genetic) booking never double-books", "statement": "After Schedule.book(optimize=True), for whatever genome the genetic algorithm returns, the blocks left booked occupy pairwise disjoint, free slots.", "quantifier": "every genome, block list, score vector and occupancy", "why_tests_cant": "the genome space is unbounded", "anchors": ["nenupy/schedule/schedule.py:Schedule.book"]}
{"id": "C07", "title": "Reservations are counted: removing one keeps the others", "statement": "After any sequence of inserting and removing reserved blocks a slot is available exactly when no remaining reservation covers it.", "quantifier": "every history of reservation insertions and removals", "why_tests_cant": "needs overlapping reservations in a particular order", "anchors": ["nenupy/schedule/schedule.py:_TimeSlots.add_booking", "nenupy/schedule/schedule.py:_TimeSlots.remove_booking"]}
{"id": "C08", "title": "Slots partition the schedule time range and time lookups are exact", "statement": "The slots built by a schedule are contiguous, disjoint, of equal duration dt, start at time_min, end at most at time_max with less than dt left over; time2idx(t) returns exactly the slot containing t, and time2idx(t0,t1) returns exactly the slots overlapping (t0,t1).", "quantifier": "every start, stop, granularity and query time", "why_tests_cant": "continuous times and every slot boundary", "anchors": ["nenupy/schedule/schedule.py:_TimeSlots._compute_slots_time_range", "nenupy/schedule/schedule.py:_TimeSlots.time2idx"]}
{"id": "C09", "title": "set_free_slots leaves exactly the requested windows bookable", "statement": "Schedule.set_free_slots(starts, stops) with sorted non-overlapping windows leaves a slot bookable exactly when it does not overlap the complement of the windows within the schedule; malformed inputs are rejected.", "quantifier": "every list of windows and every schedule", "why_tests_cant": "unbounded number of windows and alignments", "anchors": ["nenupy/schedule/schedule.py:Schedule.set_free_slots"]}
{"id": "C10", "title": "Shifting an observation is all-or-nothing and collision free", "statement": "Moving a booked observation either succeeds with the block on free slots and its old slots released, or raises and leaves the schedule unchanged.", "quantifier": "every booked state and every shift", "why_tests_cant": "failure point in the middle of a multi-step update", "anchors": ["nenupy/schedule/schedule.py:Schedule._shift_obsblock", "nenupy/schedule/schedule.py:Schedule._freeze_slots", "nenupy/schedule/schedule.py:Schedule._free_slots"]}
{"id": "C11", "title": "Export returns exactly the booked blocks above the threshold, in time order", "statement": "Schedule.export(score_min) returns every booked block whose score is at least score_min, nothing else, sorted by start time, and rejects thresholds outside [0,1].", "quantifier": "every block list, scores and threshold", "why_tests_cant": "sorting and filtering over unbounded lists", "anchors": ["nenupy/schedule/schedule.py:Schedule.export"]}
{"id": "C12", "title": "Extending observations keeps them disjoint and never shrinks them", "statement": "Schedule.extend_scheduled_observations only takes free slots or slots of the block itself; afterwards booked blocks are still disjoint, and each block keeps a contiguous slot range inside the schedule.", "quantifier": "every booked schedule and extension limit", "why_tests_cant": "interaction between neighbours being extended successively", "anchors": ["nenupy/schedule/schedule.py:Schedule.extend_scheduled_observations"]}
{"id": "C13", "title": "is_within detects every overlap with a time window", "statement": "ScheduleBlock.is_within(start, stop) is True exactly when the block's time interval and [start, stop] overlap.", "quantifier": "all pairs of intervals", "why_tests_cant": "all boundary coincidences of four reals", "anchors": ["nenupy/schedule/schedule.py:ScheduleBlock.is_within", "nenupy/schedule/obsblocks.py:ReservedBlock.is_within"]}
{"id": "C14", "title": "Blocks algebra preserves blocks and order", "statement": "ObsBlock * n yields n blocks, sums of blocks concatenate in order, indices are 0..n-1, and periodic_observation makes one block per period with a tolerance window centred on start + i*period, covering [start, stop).", "quantifier": "every number of blocks/periods", "why_tests_cant": "unbounded repetition counts", "anchors": ["nenupy/schedule/obsblocks.py:Block.__mul__", "nenupy/schedule/obsblocks.py:ObsBlock.periodic_observation"]}
{"id": "C15", "title": "Combined constraint scores stay in [0,1] and any violated constraint vetoes", "statement": "Constraints.evaluate gives per-slot scores that are weighted means of the individual scores in [0,1], lie in [0,1], and are zero exactly when some constraint scores zero or is undefined there.", "quantifier": "every set of constraints, weights and scores", "why_tests_cant": "unbounded numbers of constraints and weights", "anchors": ["nenupy/schedule/constraints.py:Constraints.evaluate"]}
{"id": "C16", "title": "Periodic constraint accepts exactly the times near a multiple of the period", "statement": "PeriodicCnst scores 1 at time t exactly when t is within the tolerance of start + k*period for some integer k.", "quantifier": "all times, periods, tolerances", "why_tests_cant": "integer k is unbounded, incl. times before start", "anchors": ["nenupy/schedule/constraints.py:PeriodicCnst._evaluate"]}
{"id": "C17", "title": "Hour-window constraints handle midnight wrap", "statement": "Hour windows with hMin<hMax accept exactly hours in [hMin,hMax]; windows with hMin>hMax accept exactly the complementary circular window including its bounds.", "quantifier": "all hours and bounds", "why_tests_cant": "boundary coincidences", "anchors": ["nenupy/schedule/constraints.py:LocalTimeCnst", "nenupy/schedule/constraints.py:LocalTimeCnst"]}
{"id": "C18", "title": "Evaluating or combining constraints has no side effects on inputs", "statement": "Evaluating a constraint or adding constraint objects leaves the operands unchanged, so re-evaluating gives the same answer.", "quantifier": "every sequence of evaluations and additions", "why_tests_cant": "aliasing shows only in particular histories", "anchors": ["nenupy/schedule/constraints.py:NightTimeCnst._evaluate", "nenupy/schedule/constraints.py:Constraints.__add__"]}
{"id": "C19", "title": "Genetic search never loses its best solution and terminates", "statement": "The best fitness reported by the genetic algorithm never decreases from one generation to the next, the final genome is the best one ever evaluated, population size is constant, and the number of generations is bounded by the configured maximum.", "quantifier": "every fitness function, random choices and parameters", "why_tests_cant": "all random streams", "anchors": ["nenupy/schedule/geneticalgo.py:GeneticAlgorithm.evolve"]}
{"id": "C20", "title": "Crossover only recombines parental genes locus by locus", "statement": "For every crossover method, at each locus the two children carry exactly the two parents' genes at that locus.", "quantifier": "all genomes, cut points and masks", "why_tests_cant": "all random cut choices", "anchors": ["nenupy/schedule/geneticalgo.py:GeneticAlgorithm._crossOver"]}
{"id": "C21", "title": "Night/day accounting of observing time adds up", "statement": "For each event the night duration plus the day duration equals the event duration, both are non-negative, and the night part equals the measure of the intersection with the night hours for events within one day.", "quantifier": "all start/stop times and seasons", "why_tests_cant": "continuous times", "anchors": ["nenupy/schedule/open_time.py:_sort_night_time"]}
{"id": "C22", "title": "Event overlap detection is exact", "statement": "Two calendar events are reported overlapping exactly when their open intervals intersect; the intersection test is symmetric.", "quantifier": "all interval pairs", "why_tests_cant": "boundary coincidences", "anchors": ["nenupy/schedule/open_time.py:NenuEvent.__contains__", "nenupy/schedule/open_time.py:_time_intersection"]}
{"id": "C23", "title": "Merging contiguous events preserves allocated time", "statement": "Writing/merging a calendar's contiguous same-programme events preserves total booked time and order, and never crashes on valid calendars.", "quantifier": "all event lists", "why_tests_cant": "depends on adjacency pattern at list end", "anchors": ["nenupy/schedule/open_time.py:write_vcr_csv"]}
{"id": "C24", "title": "Season and night masks follow the published night hours", "statement": "time_to_night_mask marks a time as night exactly when its hour is before the morning limit or after the evening limit of its season.", "quantifier": "all times of the year", "why_tests_cant": "both seasons x all hours", "anchors": ["nenupy/observation/obs_tools.py:time_to_night_mask", "nenupy/observation/obs_tools.py:time_to_season_mask"]}
{"id": "C25", "title": "Backend configurations never hold out-of-range values", "statement": "After any sequence of attribute assignments to a backend configuration, each attribute is within its documented bounds (out-of-range assignments fall back to the default); power-of-two attributes are powers of two.", "quantifier": "every sequence of assignments of arbitrary values", "why_tests_cant": "unbounded histories", "anchors": ["nenupy/observation/obs_config.py:_BackendConfig._checkAttr", "nenupy/observation/obs_config.py:fftlen setter"]}
{"id": "C26", "title": "Estimated data volumes are non-negative and additive", "statement": "The data volume estimated for each backend is non-negative, and the volume of a combined configuration is the sum of its parts regardless of grouping.", "quantifier": "all durations, channel counts, and configuration lists", "why_tests_cant": "unbounded compositions, short durations", "anchors": ["nenupy/observation/obs_config.py:volume properties", "nenupy/observation/obs_config.py:ObsConfig.__add__", "nenupy/observation/obs_config.py:ObsConfig.volume"]}
{"id": "C27", "title": "Cumulative volume is non-decreasing and ends at the total", "statement": "getCumulativeVolume returns non-decreasing values at sorted times whose last value equals the total volume.", "quantifier": "every list of observations", "why_tests_cant": "unbounded lists", "anchors": ["nenupy/observation/obs_config.py:ObsConfig.getCumulativeVolume"]}
{"id": "C28", "title": "Frequency/time resolution snapping respects the channelisation constraint", "statement": "After configuring dt and df on the time-frequency backend, the accepted pair is realisable and lies on the allowed grid.", "quantifier": "all requested dt, df", "why_tests_cant": "continuous requests", "anchors": ["nenupy/observation/obs_config.py:TFConfig._checkDFvsDT"]}
{"id": "C29", "title": "Parset index lists round-trip", "statement": "A list of indices written as '[a..b,c,...]' parses to exactly the indices it denotes in order; a mini-array/sub-band list rendered as ranges and parsed back is the same list.", "quantifier": "all lists", "why_tests_cant": "unbounded list lengths and run structure", "anchors": ["nenupy/observation/parset.py:_ParsetProperty.__setitem__", "nenupy/observation/parset.py:_get_frequency_dict"]}
{"id": "C30", "title": "Sub-band grouping into consecutive runs is lossless", "statement": "Grouping a beam's sub-band list into contiguous runs covers each sub-band exactly once, each run is maximal and start/stop frequencies correspond to its first and last sub-bands.", "quantifier": "all sub-band lists", "why_tests_cant": "run structure unbounded", "anchors": ["nenupy/observation/parset.py:_get_frequency_dict", "nenupy/observation/parset.py:_get_miniarray_dict"]}
{"id": "C31", "title": "ParsetUser keeps beam numbering consistent under any edit history", "statement": "After any sequence of add/remove of analog beams, numerical beams and phase centers, analog beams are numbered 0..n-1 in order, announced counts equal actual counts and each numerical beam refers to an existing analog beam, the one it was attached to.", "quantifier": "every history of edits", "why_tests_cant": "unbounded histories", "anchors": ["nenupy/observation/parset.py:ParsetUser.add_analog_beam", "nenupy/observation/parset.py:ParsetUser.remove_analog_beam", "nenupy/observation/parset.py:ParsetUser._updates_anabeams_indices"]}
{"id": "C32", "title": "Parset edits touch only what they name", "statement": "Modifying property values by keyword changes only the named keys, rejects unknown keys and serialisation writes exactly the modified or required properties.", "quantifier": "every property table and keyword set", "why_tests_cant": "unbounded tables and edit orders", "anchors": ["nenupy/observation/parset.py:_ParsetBlock._modify_properties", "nenupy/observation/parset.py:_ParsetBlock._write_block_list"]}
{"id": "C33", "title": "Parset JSON export is repeatable and uses unique identifiers", "statement": "Exporting a parset twice yields the same document, and all exported pointing identifiers are distinct.", "quantifier": "every parset with any numbers of beams", "why_tests_cant": "depends on beam-count combinations", "anchors": ["nenupy/observation/parset.py:_JsonEntry.data", "nenupy/observation/parset.py:Parset.to_json"]}
{"id": "C34", "title": "Sub-band index and frequency conversions are inverse", "statement": "freq2sb(sb2freq(k)) == k for every sub-band; every frequency maps to the sub-band whose band contains it; out-of-range inputs are rejected.", "quantifier": "all sub-bands and all real frequencies in range", "why_tests_cant": "continuous domain", "anchors": ["nenupy/instru/instrument_tools.py:freq2sb", "nenupy/instru/instrument_tools.py:sb2freq"]}
{"id": "C35", "title": "Interferometer selection, union and difference act on whole antennas", "statement": "Selecting, adding or removing antennas keeps names, positions, gains and weights of each antenna attached to each other, names stay unique, and the resulting set is the intersection / union / difference of the name sets; invalid requests raise.", "quantifier": "all arrays and any chain of operations", "why_tests_cant": "unbounded chains", "anchors": ["nenupy/instru/interferometer.py:Interferometer.__getitem__", "nenupy/instru/interferometer.py:Interferometer.__add__", "nenupy/instru/interferometer.py:Interferometer.__sub__"]}
{"id": "C36", "title": "Array factor is normalised", "statement": "The array factor lies in [0,1] for any weights in [0,1] and equals 1 in the pointed direction for unit weights.", "quantifier": "all antenna positions, weights, directions, frequencies", "why_tests_cant": "continuous domain and unbounded antenna counts", "anchors": ["nenupy/instru/interferometer.py:Interferometer.array_factor"]}
{"id": "C37", "title": "Baselines are antisymmetric and complete", "statement": "The baseline list contains each antenna pair exactly once (autos included), with vector pos[j]-pos[i].", "quantifier": "all arrays", "why_tests_cant": "unbounded size", "anchors": ["nenupy/instru/interferometer.py:Interferometer.baselines", "nenupy/astro/uvw.py:compute_uvw"]}
{"id": "C38", "title": "NenuFAR beam grouping by rotation equals the full sum", "statement": "Evaluating mini-array gains once per rotation modulo 60 degrees and weighting by multiplicity equals averaging over every mini-array, when gains depend only on rotation modulo 60.", "quantifier": "all mini-array selections and rotations", "why_tests_cant": "unbounded selections", "anchors": ["nenupy/instru/nenufar.py:NenuFAR.beam"]}
{"id": "C39", "title": "Analog pointing orders round-trip", "statement": "The pointing order chosen for a direction maps back to the grid direction closest to it.", "quantifier": "all orders", "why_tests_cant": "grid of 128x128 orders with an index gap at the centre", "anchors": ["nenupy/instru/nenufar.py:MiniArray._skycoord_to_order", "nenupy/instru/instrument_tools.py:mini_array_pointing_order"]}
{"id": "C40", "title": "Sub-array generation partitions the mini-arrays", "statement": "generate_nenufar_subarrays(n) splits the mini-arrays into n groups that are disjoint and whose union is the whole array.", "quantifier": "all n and array sizes", "why_tests_cant": "unbounded", "anchors": ["nenupy/instru/instrument_tools.py:generate_nenufar_subarrays"]}
{"id": "C41", "title": "Mini-array rotation and coordinate rotations preserve geometry", "statement": "The rotations applied to antenna positions, uvw and ETRS/ENU conversions preserve lengths and scalar products.", "quantifier": "all angles and vectors", "why_tests_cant": "continuous domain", "anchors": ["nenupy/instru/nenufar.py:MiniArray", "nenupy/astro/uvw.py:compute_uvw", "nenupy/astro/astro_tools.py:etrs_to_enu", "nenupy/io/xst.py:rephase_visibilities"]}
{"id": "C42", "title": "Spectra re-ordering is a permutation onto a monotone frequency axis", "statement": "Unpacking raw blocks puts every sample at exactly one (time, frequency) position, and the k-th frequency of the computed axis is the frequency of the k-th channel; odd channel counts are rejected.", "quantifier": "all block shapes and data", "why_tests_cant": "unbounded shapes", "anchors": ["nenupy/io/tf_utils.py:blocks_to_tf_data", "nenupy/io/tf_utils.py:compute_spectra_frequencies"]}
{"id": "C43", "title": "De-dispersion shifts every channel by exactly its delay", "statement": "De-dispersed data at (t,f) equals the input at (t+delay_f,f) if that exists and is missing otherwise; no valid sample is altered and the reference channel is unchanged.", "quantifier": "all data sizes and delays", "why_tests_cant": "unbounded", "anchors": ["nenupy/io/tf_utils.py:de_disperse_array", "nenupy/undysputed/utils.py:de_disperse_array", "nenupy/undysputed/dynspec.py:Dynspec._dedisperse"]}
{"id": "C44", "title": "Stokes parameters satisfy their identities and agree across readers", "statement": "Stokes parameters computed from hermitian coherency data satisfy I^2 >= Q^2+U^2+V^2 for rank-one fields with equality, are real, and the definitions agree between the spectra reader, the dynamic-spectrum reader and the cross-correlation reader up to the documented factor.", "quantifier": "all complex fields", "why_tests_cant": "continuous domain", "anchors": ["nenupy/io/tf_utils.py:compute_stokes_parameters", "nenupy/undysputed/dynspec.py:_Lane.get_stokes", "nenupy/io/xst.py:Crosslet.get_stokes"]}
{"id": "C45", "title": "Faraday de-rotation rotates only linear polarisation", "statement": "De-rotating by an angle preserves I and V and rotates (Q,U) by twice the angle; rotation by -angle undoes it.", "quantifier": "all Jones/coherency data and angles", "why_tests_cant": "continuous domain", "anchors": ["nenupy/io/tf_utils.py:de_faraday_data", "nenupy/astro/astro_tools.py:faraday_angle"]}
{"id": "C46", "title": "Rebinning averages disjoint, complete consecutive bins of the requested size", "statement": "Each rebinned sample is the mean of exactly bin consecutive inputs, bins are disjoint and ordered, and fewer than bin trailing samples are dropped.", "quantifier": "all lengths and bin sizes", "why_tests_cant": "unbounded", "anchors": ["nenupy/io/tf_utils.py:rebin_along_dimension", "nenupy/undysputed/dynspec.py:Dynspec._rebin", "nenupy/io/io_tools.py:ST_Slice.rebin"]}
{"id": "C47", "title": "Channel masking hits exactly the requested channels of every sub-band", "statement": "Cropping edges / removing channels blanks exactly the requested in-band positions in each sub-band and leaves all other data untouched; requests that would remove everything are rejected.", "quantifier": "all sub-band counts, channel counts, requests", "why_tests_cant": "unbounded", "anchors": ["nenupy/io/tf_utils.py:crop_subband_edges", "nenupy/io/tf_utils.py:remove_channels_per_subband", "nenupy/undysputed/dynspec.py:edge_channels_to_remove"]}
{"id": "C48", "title": "Pipeline parameters stay valid under any history", "statement": "After any sequence of set/reset operations, each pipeline parameter holds a value accepted by its rule; a rejected assignment changes nothing; reset restores defaults.", "quantifier": "all histories", "why_tests_cant": "unbounded", "anchors": ["nenupy/io/tf_utils.py:TFPipelineParameters", "nenupy/io/tf_utils.py:_ValueParameter"]}
{"id": "C49", "title": "Reading data with per-call options does not change the reader", "statement": "Spectra.get(**options) leaves the pipeline parameters as they were, whatever the outcome of the call.", "quantifier": "all options and outcomes", "why_tests_cant": "every exit path incl. errors", "anchors": ["nenupy/io/tf.py:Spectra.get"]}
{"id": "C50", "title": "Pipeline task list edits keep invariants", "statement": "Inserting, appending and removing pipeline tasks keeps non-repeatable tasks unique and otherwise edits only the requested position; running applies the tasks in order.", "quantifier": "all edit histories", "why_tests_cant": "unbounded", "anchors": ["nenupy/io/tf.py:TFPipeline"]}
{"id": "C51", "title": "Time selection returns the blocks containing the requested range", "statement": "Selecting raw data between tmin and tmax reads every block that intersects the interval, and the axes returned have the data's dimensions.", "quantifier": "all block durations and intervals", "why_tests_cant": "continuous", "anchors": ["nenupy/io/tf.py:Spectra.select_raw_data"]}
{"id": "C52", "title": "Corrupted blocks are blanked", "statement": "Blocks flagged bad are replaced by missing values and good blocks are left untouched.", "quantifier": "all masks", "why_tests_cant": "all masks", "anchors": ["nenupy/io/tf.py:Spectra._to_dask_tf"]}
{"id": "C53", "title": "Cross-correlation lookup returns the requested correlation", "statement": "For every pair of mini-arrays and polarisations the value read from the packed triangle is the stored correlation of these two inputs, conjugated when the transposed entry is stored.", "quantifier": "all array sizes and pairs", "why_tests_cant": "unbounded", "anchors": ["nenupy/io/xst.py:Crosslet._get_cross_idx", "nenupy/io/xst.py:Crosslet._get"]}
{"id": "C54", "title": "Beamforming from correlations equals the coherent power", "statement": "The beamformed power computed from the correlations of antenna fields equals |sum of phased fields|^2 (hence non-negative) for any mini-array subset.", "quantifier": "all fields, phases, subsets", "why_tests_cant": "unbounded", "anchors": ["nenupy/io/xst.py:Crosslet.get_beamform"]}
{"id": "C55", "title": "Re-phasing is consistent", "statement": "Re-phasing visibilities from centre a to b then b to c equals a to c, and rephasing to the same centre is the identity.", "quantifier": "all uvw and centres", "why_tests_cant": "continuous", "anchors": ["nenupy/io/xst.py:rephase_visibilities"]}
{"id": "C56", "title": "Concatenating data along time or frequency keeps labels attached", "statement": "Joining two data sets along time or frequency pairs every data row/column with its own coordinate, whatever the order of the operands.", "quantifier": "all data sizes and orders", "why_tests_cant": "unbounded", "anchors": ["nenupy/beamlet/sdata.py:SData.__or__", "nenupy/beamlet/sdata.py:SData.__and__", "nenupy/io/io_tools.py:ST_Slice.__or__", "nenupy/io/io_tools.py:ST_Slice.__and__"]}
{"id": "C57", "title": "Arithmetic between data sets requires identical axes", "statement": "Adding/subtracting/dividing data sets whose axes differ anywhere is rejected.", "quantifier": "all axes", "why_tests_cant": "a single differing coordinate among many", "anchors": ["nenupy/beamlet/sdata.py:SData._check_conformity", "nenupy/io/io_tools.py:ST_Slice._operation_with_other"]}
{"id": "C58", "title": "Default selections return all of the data and filters are exact", "statement": "Without filters all beamlets are returned; frequency/time filters return exactly the samples within the bounds; changing the beam keeps selections coherent.", "quantifier": "all beams, ranges and selection histories", "why_tests_cant": "history dependent", "anchors": ["nenupy/beamlet/bstdata.py:BST_Data.select", "nenupy/beamlet/sstdata.py:SST_Data.select", "nenupy/io/io_tools.py:StatisticsData._parse_condition"]}
{"id": "C59", "title": "Decorated functions receive their own defaults", "statement": "A function decorated with the type-checking decorator receives the same argument values as the undecorated one would, when types are right.", "quantifier": "all signatures and call shapes", "why_tests_cant": "all mixtures of positional/keyword/default", "anchors": ["nenupy/miscellaneous.py:accepts"]}
{"id": "C60", "title": "Beam data slices", "statement": "The frequency index range computed for each beam covers exactly the channels of that beam.", "quantifier": "all beam layouts", "why_tests_cant": "unbounded", "anchors": ["nenupy/io/tf_utils.py:sort_beam_edges", "nenupy/undysputed/dynspec.py:_Lane._sort_beam_edges"]}
{"id": "C61", "title": "Fast equatorial/horizontal transforms are inverse", "statement": "Converting (hour angle, declination) to (azimuth, elevation) and back returns the original direction, and both land in their nominal ranges.", "quantifier": "all directions and latitudes off the poles", "why_tests_cant": "continuous domain with quadrant branches", "anchors": ["nenupy/astro/astro_tools.py:radec_to_altaz", "nenupy/astro/astro_tools.py:altaz_to_radec"]}
{"id": "C62", "title": "Extremal elevations are the true extremes", "statement": "elevation_min/elevation_max are the minimum and maximum over all hour angles of the elevation, reached at some hour angle; circumpolar targets (northern observer) never set.", "quantifier": "all declinations and latitudes", "why_tests_cant": "continuous", "anchors": ["nenupy/astro/target.py:Target.elevation_min", "nenupy/astro/target.py:Target.elevation_max", "nenupy/astro/target.py:Target.is_circumpolar"]}
{"id": "C63", "title": "Crossing-time search brackets real crossings within the precision", "statement": "Every time returned by rise/set/transit searches lies within `precision` of an interval where the crossing condition holds, and no crossing bracketed by the coarse sampling is lost by refinement; the search terminates.", "quantifier": "all elevation curves, windows and precisions", "why_tests_cant": "arbitrary functions, unbounded refinement depth", "anchors": ["nenupy/astro/target.py:Target._find_crossing_times"]}
{"id": "C64", "title": "Pointing lookup returns the pointing active at the given time", "statement": "Pointing[t] returns the last programmed direction whose validity interval contains t, and zenith when none; for pointings read from files, validity intervals tile the programmed span.", "quantifier": "all pointing tables and query times", "why_tests_cant": "unbounded tables", "anchors": ["nenupy/astro/pointing.py:Pointing.__getitem__", "nenupy/astro/pointing.py:Pointing.from_file"]}
{"id": "C65", "title": "Jones to Mueller conversion is a faithful action on Stokes vectors", "statement": "The Mueller matrix of a Jones matrix is real, multiplicative, and acting on the Stokes vector of a field gives the Stokes vector of the transformed field; polariser and retarder constructors agree between both calculi; converting back recovers the Jones matrix up to a global phase.", "quantifier": "all complex matrices and vectors", "why_tests_cant": "continuous domain", "anchors": ["nenupy/astro/jones_mueller.py:JonesMatrix.to_mueller", "nenupy/astro/jones_mueller.py:MuellerMatrix.to_jones", "nenupy/astro/jones_mueller.py:JonesVector.to_stokes"]}
{"id": "C66", "title": "UV coverage counts every baseline and its conjugate", "statement": "From n(n+1)/2 baselines UV_Coverage recovers n and adds the mirror of each cross-baseline and none of the autos.", "quantifier": "all n", "why_tests_cant": "unbounded; square root truncation", "anchors": ["nenupy/astro/uvw.py:UV_Coverage"]}
{"id": "C67", "title": "Sky arithmetic does not modify operands", "statement": "Multiplying or dividing a sky by a factor returns a new sky and leaves the original unchanged; sky values always have the shape announced by the axes.", "quantifier": "all histories of operations", "why_tests_cant": "aliasing", "anchors": ["nenupy/astro/sky.py:Sky.__mul__", "nenupy/astro/sky.py:Sky.__truediv__", "nenupy/astro/sky.py:Sky.value"]}
{"id": "C68", "title": "Database query reflects the current filters", "statement": "The query sent always carries exactly the currently set time, frequency and position filters.", "quantifier": "all histories of filter settings", "why_tests_cant": "history dependent", "anchors": ["nenupy/observation/tapdatabase.py:ObsDatabase"]}
{"id": "C69", "title": "Direction cosines are well defined", "statement": "l^2+m^2 <= 1 so n is real, and n equals the cosine of the angular separation for directions within 90 degrees of the phase center.", "quantifier": "all directions", "why_tests_cant": "continuous", "anchors": ["nenupy/astro/sky.py:Sky.compute_lmn"]}
{"id": "C70", "title": "Weights, delays and steering respect documented bounds", "statement": "Antenna weights outside [0,1] or of the wrong size and delays of the wrong size are rejected and the array keeps its previous values.", "quantifier": "all histories", "why_tests_cant": "unbounded", "anchors": ["nenupy/instru/interferometer.py:Interferometer.antenna_weights"]}
{"id": "C71", "title": "Starts of corrupted blocks are reconstructed", "statement": "When a file has corrupted blocks, the start of every good block is the recorded one, corrupted blocks between good ones get their true start if the recording is regular, and the time axis never decreases.", "quantifier": "all masks and block starts", "why_tests_cant": "arbitrary positions of corrupted blocks", "anchors": ["nenupy/io/tf.py:Spectra._reconstruct_time"]}
{"id": "C72", "title": "Parallactic corrections are computed for every time sample", "statement": "The beam and parallactic corrections cut the time axis into groups which cover every sample exactly once, and use for each a rotation which keeps I and V.", "quantifier": "all numbers of samples and steps", "why_tests_cant": "unbounded", "anchors": ["nenupy/io/tf_utils.py:correct_parallactic", "nenupy/io/tf_utils.py:apply_dreambeam"]}
{"id": "C73", "title": "Rebinning a slice averages disjoint consecutive windows no wider than asked", "statement": "Rebinning a data slice to a given step groups consecutive samples in disjoint windows of equal size, no longer than the step asked for, and leaves out fewer samples than one window.", "quantifier": "all axis lengths and all step ratios", "why_tests_cant": "any pair of length and ratio", "anchors": ["nenupy/io/io_tools.py: ST_Slice._rebin_time_indices, _rebin_frequency_indices, rebin"]}
{"id": "C74", "title": "Circular polarisation has one meaning", "statement": "The circular polarisers and the circular states made under the same name agree: a right-handed polariser lets the right-handed state through and stops the left-handed one, in both the Jones and the Mueller calculus.", "quantifier": "all named states and polarisers, both calculi", "why_tests_cant": "statements about all fields and both representations", "anchors": ["nenupy/astro/jones_mueller.py:PolarizerMatrix.right_circular", "nenupy/astro/jones_mueller.py:PolarVector.right_circular", "nenupy/astro/jones_mueller.py:StokesVector.circular"]}
{"id": "C75", "title": "Score of a booked block", "statement": "The score given to a booked block is the weighted mean of the scores of its constraints on the slots it occupies: one or zero for crossings, one or nothing for windows of hours, the fraction of good slots for elevations; it lies between the smallest and the largest of them.", "quantifier": "all constraints, weights, schedules and booked positions", "why_tests_cant": "any combination of constraints, weights and slots", "anchors": ["nenupy/schedule/constraints.py: Constraint.get_score, Constraints.evaluate, blockScore"]}
{"id": "C76", "title": "Which blocks are candidates for booking", "statement": "A block which may be booked somewhere is kept as a candidate, and one kept as a candidate may be booked somewhere.", "quantifier": "all schedules, availabilities and constraint scores", "why_tests_cant": "any number of slots and any mask of available ones", "anchors": ["nenupy/schedule/schedule.py: Schedule._scoreConstraints, Schedule.book, very_strict"]}
{"id": "C77", "title": "The genetic search prefers schedules without conflicts", "statement": "During a genetic booking, every trial assignment of starts gets a fitness between 0 and 1. It is 1 exactly if every block is at its best score and no block overlaps another or its processing delay; overlaps always cost at least half. The first trials start at slots with a non-zero score and random changes keep all the blocks inside the schedule.", "quantifier": "every list of candidate blocks, score rows, durations and processing delays, every trial assignment, every order chosen by the sort for equal starts, every random draw", "why_tests_cant": "The fitness is internal to a stochastic search; a test sees one random run and cannot tell a wrong fitness from bad luck.", "anchors": ["nenupy/schedule/schedule.py:Schedule._fitness", "nenupy/schedule/schedule.py:Schedule._populate", "nenupy/schedule/schedule.py:Schedule._mutation", "nenupy/schedule/schedule.py:Schedule._bound_to_schedule"]}
{"id": "C78", "title": "The printed pipeline tells which tasks will run", "statement": "A task printed without parentheses, or whose is_active is true, is applied by the next run, and a task printed in parentheses leaves the data as they are.", "quantifier": "all tasks, parameters and histories of displays, runs and changes of parameters", "why_tests_cant": "The state shown depends on the whole history of displays and runs and on which parameters are unset.", "anchors": ["nenupy/io/tf.py:TFTask", "nenupy/io/tf.py:TFPipeline.info", "nenupy/io/tf.py:TFPipeline.run"]}
{"id": "C79", "title": "Axes and labels fit the data after any pipeline", "statement": "Whatever the tasks, their order and their parameters, a run that ends returns time and frequency axes of the sizes of the data and one polarisation label per plane; the default pipeline ends on all whole sub-bands.", "quantifier": "all lists of tasks, parameters, numbers of samples, sub-bands and polarisations", "why_tests_cant": "The number of orders and repetitions of tasks is unbounded.", "anchors": ["nenupy/io/tf.py:TFPipeline.run", "nenupy/io/tf.py:Spectra._to_sdata", "nenupy/io/tf.py:TFTask"]}
{"id": "C80", "title": "Averages reach the requested step and tasks use the step of the data", "statement": "After averages to a requested step, the samples have the largest multiple of the recorded step that does not exceed the request, and the tasks that follow use the step and channels of the data they get.", "quantifier": "all pipelines, steps and numbers of samples", "why_tests_cant": "It depends on the order and repetition of tasks.", "anchors": ["nenupy/io/tf.py:TFTask.time_rebin", "nenupy/io/tf.py:TFTask.frequency_rebin", "nenupy/io/tf.py:TFPipeline.run", "nenupy/io/tf_utils.py:rebin_along_dimension", "nenupy/io/tf_utils.py:de_disperse_array", "nenupy/io/tf_utils.py:remove_channels_per_subband"]}
{"id": "C81", "title": "Flattening makes tilted sub-bands flat and keeps the rest", "statement": "Flattening turns sub-bands whose median profile is a straight line into flat ones, leaves flat sub-bands unchanged, keeps the variations in time and the sign of the data, and refuses data that do not hold whole sub-bands.", "quantifier": "all numbers of times, sub-bands and channels and all data", "why_tests_cant": "The level depends on medians of halves of sub-bands of any size and on all the data.", "anchors": ["nenupy/io/tf_utils.py:flatten_subband", "nenupy/io/tf.py:TFTask.flatten_subband"]}
{"id": "C82", "title": "A time selection of the older reader gives the spectra of the requested range", "statement": "The spectra returned for a lane lie in the requested range up to half a time step at its start and no later than half a step before its end, and every spectrum of the range is among them, except possibly the one closest to its end.", "quantifier": "every lane, time step, beam, pair of ranges", "why_tests_cant": "the indices come from the nearest sample to each bound, so the boundary cases depend on every value of step, start and range", "anchors": ["nenupy/undysputed/dynspec.py: Dynspec._select_data", "nenupy/undysputed/dynspec.py: Dynspec.time_range", "nenupy/undysputed/dynspec.py: _Lane._compute_times"]}
{"id": "C83", "title": "The whole observation can be read", "statement": "With the time range left at its default, or containing the whole file, all spectra of the file are returned.", "quantifier": "every lane and every range containing it", "why_tests_cant": "one missing spectrum out of millions is invisible in a test", "anchors": ["nenupy/undysputed/dynspec.py: Dynspec._select_data", "nenupy/undysputed/dynspec.py: Dynspec.time_range"]}
{"id": "C84", "title": "A frequency selection gives whole sub-bands which cover the range", "statement": "What is read from a lane are whole sub-bands, every channel of the beam within the requested range is among them, and a lane entirely outside the range gives nothing.", "quantifier": "every lane with increasing frequencies, beam and range", "why_tests_cant": "depends on the position of the bounds relative to channels and sub-bands", "anchors": ["nenupy/undysputed/dynspec.py: Dynspec._select_data", "nenupy/undysputed/dynspec.py: _Lane._compute_frequencies", "nenupy/undysputed/dynspec.py: _Lane._sort_beam_edges"]}
{"id": "C85", "title": "A range with data in it returns data", "statement": "When a spectrum and a channel of the beam are within the requested ranges, the selection is not empty.", "quantifier": "every lane, beam and pair of ranges", "why_tests_cant": "fails only for narrow ranges or ranges touching the edge of a lane", "anchors": ["nenupy/undysputed/dynspec.py: Dynspec._select_data", "nenupy/undysputed/dynspec.py: Dynspec.get"]}
{"id": "C86", "title": "Settings of the older reader stay valid", "statement": "After any sequence of settings, accepted or refused, the beam is one of the data, the time and frequency ranges have a positive extent, and the channels removed at both edges fit in a sub-band; an accepted range is the one used.", "quantifier": "every sequence of settings on every reader", "why_tests_cant": "an invariant over histories", "anchors": ["nenupy/undysputed/dynspec.py: Dynspec.time_range", "nenupy/undysputed/dynspec.py: Dynspec.freq_range", "nenupy/undysputed/dynspec.py: Dynspec.beam", "nenupy/undysputed/dynspec.py: Dynspec.edge_channels_to_remove"]}
{"id": "C87", "title": "Removing edge channels leaves the others", "statement": "The channels asked for are set to missing at both edges of every sub-band, the other ones are unchanged, and a number which would leave nothing is refused.", "quantifier": "every number of channels, lane and row", "why_tests_cant": "the boundary is exactly half of the channels", "anchors": ["nenupy/undysputed/dynspec.py: Dynspec.edge_channels_to_remove", "nenupy/undysputed/dynspec.py: Dynspec._remove_edge_channels"]}
{"id": "C88", "title": "The files listed are the files read", "statement": "After setting the list of lane files, the lanes used are those of the listed files, and a refused list changes nothing.", "quantifier": "every history of lists, and every file refused", "why_tests_cant": "needs two assignments on the same object or a failure in the middle of a list", "anchors": ["nenupy/undysputed/dynspec.py: Dynspec.lanefiles"]}
{"id": "C89", "title": "Gathering lanes keeps every sample with its time and frequency", "statement": "The data gathered from lanes on the same times have exactly the samples of all lanes, on an increasing frequency axis.", "quantifier": "every number and order of lanes", "why_tests_cant": "depends on the order in which files are listed", "anchors": ["nenupy/undysputed/dynspec.py: Dynspec.get", "nenupy/beamlet/sdata.py: SData.__and__"]}
{"id": "C90", "title": "Spectra can be written for the documented Stokes parameters", "statement": "Writing a dynamic spectrum succeeds for beams and Stokes parameters of the data, refuses unknown beams, and leaves the settings alone; all documented Stokes parameters are accepted.", "quantifier": "every list of beams, of parameters, and all data", "why_tests_cant": "the failure concerns all inputs, but needs real data files to be seen", "anchors": ["nenupy/undysputed/dynspec.py: Dynspec.write_hdf5", "nenupy/undysputed/dynspec.py: Dynspec._compute_stokes", "nenupy/beamlet/sdata.py: SData.amp"]}
{"id": "C91", "title": "Each spectrum is corrected with the matrix of its time", "statement": "The correction of the polarisation applies to every spectrum the Jones matrix of its own block of time.", "quantifier": "every number of spectra, matrices, and start of the selection", "why_tests_cant": "depends on the remainder of the number of spectra by the block size", "anchors": ["nenupy/undysputed/dynspec.py: Dynspec._polarization_correction"]}
{"id": "C92", "title": "Each spectrum is corrected for jumps once", "statement": "The correction of the jumps divides every spectrum by the fit of exactly one interval, and every jump separates two intervals.", "quantifier": "every number of spectra, step and position of the first jump", "why_tests_cant": "edges of intervals only", "anchors": ["nenupy/undysputed/dynspec.py: Dynspec._correct_jumps"]}
{"id": "C93", "title": "Median band-pass works for several Stokes parameters", "statement": "The median band-pass correction applies to data of any number of polarisations.", "quantifier": "every number of channels, sub-bands and polarisations", "why_tests_cant": "shape arithmetic", "anchors": ["nenupy/undysputed/dynspec.py: Dynspec._bp_correct"]}
{"id": "C94", "title": "The parameters of a digital beam are read as they are written", "statement": "When a configuration is read from a parset, every option written in the parameters of a digital beam is found with its value or as a flag, in capital or small letters, and options that are not written are not found.", "quantifier": "every list of options, of values and of blanks between them", "why_tests_cant": "Tests parse two or three lines; the claim is about every text.", "anchors": ["nenupy/observation/obs_config.py:_UnDySPuTeDConfig._parseParameters"]}
{"id": "C95", "title": "Each digital beam of a parset is counted once, by the backend it is meant for", "statement": "The configuration of a backend read from a parset holds one beam for each digital beam recorded with this backend, in order, with its duration, sub-bands and parameters; no digital beam is counted by two backends.", "quantifier": "every parset, every number and kind of digital beams", "why_tests_cant": "Tests use files with a few beams of one kind.", "anchors": ["nenupy/observation/obs_config.py:TFConfig.fromParset", "nenupy/observation/obs_config.py:RAWConfig.fromParset", "nenupy/observation/obs_config.py:PulsarFoldConfig.fromParset", "nenupy/observation/obs_config.py:PulsarWaveConfig.fromParset", "nenupy/observation/obs_config.py:PulsarSingleConfig.fromParset", "nenupy/observation/obs_config.py:ObsConfig.fromParset"]}
{"id": "C96", "title": "The correlator volume of a parset covers the whole observation", "statement": "The NICKEL configuration read from a parset has the duration of all analog beams, and the dump time, sub-bands, channels and mini-arrays of the file; without NICKEL it has no volume.", "quantifier": "every parset", "why_tests_cant": "Tests use one file with one analog beam and a dump time of one second.", "anchors": ["nenupy/observation/obs_config.py:NICKELConfig.fromParset"]}
{"id": "C97", "title": "The beamlet statistics last as long as the digital beams", "statement": "The BST configuration read from a parset lasts as many seconds as are covered by at least one digital beam; simultaneous beams count once.", "quantifier": "every number, start and duration of digital beams", "why_tests_cant": "Tests use one beam or identical beams.", "anchors": ["nenupy/observation/obs_config.py:BSTConfig.fromParset"]}
{"id": "C98", "title": "Validating a user parset checks every value that was given", "statement": "For every user parset, `ParsetUser.validate()` returns a boolean, and it is True exactly when every property given by the user, in the observation, output, analog beam, numerical beam and phase center blocks, has a value matched by the pattern documented for it. In particular a True answer means that what is written to the file is well formed.", "quantifier": "all user parsets: any number of beams, any properties set, any values", "why_tests_cant": "The patterns are about fifty regular expressions and the number of blocks is free; tests can only try some values of some properties.", "anchors": ["nenupy/observation/parset.py: ParsetUser.validate", "nenupy/observation/parset.py: ParsetUser._update_beam_numbers", "nenupy/observation/parset_user_options.json"]}
{"id": "C99", "title": "Accepted lists of mini-arrays and sub-bands mean mini-arrays and sub-bands", "statement": "A text is accepted for a list of mini-arrays or of sub-bands exactly when it is a non-empty list of numbers and ranges between brackets with existing numbers (mini-arrays 0-95 and 100-107, sub-bands 0-511), and reading an accepted list back from the file gives existing mini-arrays or sub-bands only, at least one of them.", "quantifier": "all texts given to `maList` and `subbandList`, of any length", "why_tests_cant": "The accepted texts are an infinite language described by a pattern with a repetition and a look-ahead; tests try a few lists.", "anchors": ["nenupy/observation/parset_user_options.json: maList, subbandList", "nenupy/observation/parset.py: ParsetUser.validate", "nenupy/observation/parset.py: _ParsetProperty.__setitem__"]}
{"id": "C100", "title": "Values written by the package are accepted by its own validation", "statement": "Times, durations, booleans and lists of mini-arrays given as objects are written as texts that the validation accepts whenever they are meaningful; accepted durations are understood as the number times its unit, and accepted dates exist.", "quantifier": "all dates, all durations, both booleans, all lists of numbers", "why_tests_cant": "Dates, durations and lists are unbounded, and the set of texts accepted by a pattern can only be sampled by tests.", "anchors": ["nenupy/observation/parset.py: _ParsetBlock._modify_properties", "nenupy/observation/parset.py: ParsetUser.validate", "nenupy/observation/parset_user_options.json"]}
{"id": "C101", "title": "Loading a parset file into a user parset keeps its content", "statement": "`ParsetUser.load_from_parset(f)` succeeds for every parset file that `Parset` reads, the new user parset has the same analog beams, numerical beams and phase centers with the same attachments, and writing it and reading the new file gives the values of the first file.", "quantifier": "all parset files: any number of blocks of any numbering and order, any values", "why_tests_cant": "Files are of any length and numbering; tests can only load some files, and there is none in the suite.", "anchors": ["nenupy/observation/parset.py: ParsetUser.load_from_parset", "nenupy/observation/parset.py: Parset._decode_parset", "nenupy/observation/parset.py: _ParsetProperty.__setitem__", "nenupy/observation/parset.py: _ParsetBlock._modify_properties"]}
{"id": "C102", "title": "Replaying a parset file moves it in time without changing the observation", "statement": "`ParsetUser.replay_from_parset(f, from_time)` gives a user parset whose beams are those of the file, moved by one same shift to the first possible start not before `from_time` at the same time of day (or sidereal time with `same_lst`), with the transit and filter times moved accordingly and nothing else changed.", "quantifier": "all parset files, all requested times, all durations, all skies", "why_tests_cant": "Times, targets and files are unbounded; replays depend on the order of dates, which tests only sample.", "anchors": ["nenupy/observation/parset.py: ParsetUser.replay_from_parset", "nenupy/observation/parset.py: _ParsetBlock._modify_properties"]}
{"id": "C103", "title": "Every parset file can be exported, with its version, topic and beams", "statement": "`Parset(f).to_json()` returns, for every well-formed parset file, the topic of the observation, one field of view per analog beam and one pointing per numerical beam, each in the field of view of its analog beam; `Parset(f).version` is the version written in the file.", "quantifier": "all parset files: any versions, topics, numbers of beams and values", "why_tests_cant": "Files, versions and topics are unbounded; no test of the suite exports a file.", "anchors": ["nenupy/observation/parset.py: Parset.to_json", "nenupy/observation/parset.py: Parset.version", "nenupy/observation/parset.py: _JsonEntry", "nenupy/observation/parset.py: _get_time_dict"]}
{"id": "C104", "title": "The receiver exported for a beam is the one its task and parameters ask for", "statement": "For every numerical beam or phase center, the exported receiver has the kind given by `toDo`, the steps, source and number of polarisations written in `parameters` (or the defaults when they are not there), and the frequencies of its sub-bands; the imager is exported once.", "quantifier": "all beams: all tasks, all texts of parameters, all lists of sub-bands, all versions", "why_tests_cant": "Parameters are free texts; tests can only sample them.", "anchors": ["nenupy/observation/parset.py: _dynamicspectrum_setting", "nenupy/observation/parset.py: _pulsar_setting", "nenupy/observation/parset.py: _nickel_setting", "nenupy/observation/parset.py: _tbd_setting", "nenupy/observation/parset.py: _JsonEntry.add_nickel_pointing"]}
{"id": "C105", "title": "A relaxed sidereal-time constraint gives 1 at the crossing and decreases with the distance to it", "statement": "With `LocalSiderealTimeCnst(lst, strict_crossing=False)` every schedule gets scores in [0, 1]: 1 in the slot where the sidereal time is reached, a positive score in the other slots, smaller as they are further away, and no failure whatever the number of slots and of crossings.", "quantifier": "all sidereal times, all schedules (numbers of slots, lengths, dates) and so all patterns of crossings", "why_tests_cant": "Patterns of crossings and numbers of slots are unbounded; edge patterns (none, everywhere, alternating) are not in the suite.", "anchors": ["nenupy/schedule/constraints.py: LocalSiderealTimeCnst._evaluate"]}
{"id": "C107", "title": "A schedule books a block with the scores of this block on this schedule", "statement": "When blocks are inserted into a schedule and booked, the scores used for each block are those of its own constraints for its own target at the times of this schedule, whatever other blocks and schedules these objects were given to before.", "quantifier": "all lists of blocks, all sharing of targets and constraints between them, all sequences of schedules", "why_tests_cant": "Sharing patterns and histories of objects are unbounded; the suite uses new objects for each schedule.", "anchors": ["nenupy/schedule/schedule.py: Schedule.insert", "nenupy/schedule/schedule.py: Schedule.book", "nenupy/schedule/schedule.py: ScheduleBlock.evaluate_score", "nenupy/schedule/obsblocks.py: Block.constraints", "nenupy/schedule/targets.py: _Target.__getitem__"]}
{"id": "C106", "title": "Extending observations keeps their constraints", "statement": "After `extend_scheduled_observations()` every slot of an extended observation meets the constraints of its block, and an observation is extended as soon as a longer window has a mean score at least as good as the threshold asked for.", "quantifier": "all schedules, blocks, constraints, thresholds and maximal durations", "why_tests_cant": "Windows and constraints are unbounded; the suite never checks the scores of the extended slots.", "anchors": ["nenupy/schedule/schedule.py: Schedule.extend_scheduled_observations", "nenupy/schedule/constraints.py: Constraints.evaluate_various_nslots"]}
{"id": "C108", "title": "Interpolated meridian transits are the transits of the period", "statement": "`meridian_transit_2(t_min, duration, time_sampling)` returns one time for each transit of the source between `t_min` and `t_min + duration`, within one sampling step of the true one, and exactly the true one for a star, whatever the step asked for.", "quantifier": "all sources whose hour angle increases by less than one turn in twelve hours, all start times, durations and steps", "why_tests_cant": "Durations, steps and hour angles are unbounded; the suite does not call this method.", "anchors": ["nenupy/astro/target.py: Target.meridian_transit_2", "nenupy/astro/target.py: Target._interpolate_crossing_times"]}
{"id": "C109", "title": "Sidereal-time and transit constraints find the right slots", "statement": "For every schedule, the sidereal time of each slot is in [0 h, 24 h), the hour angle of the target in [0\u00b0, 360\u00b0] is their difference, `MeridianTransitCnst` marks the slots in which the target crosses the meridian and `LocalSiderealTimeCnst(lst)` those in which the sidereal time `lst` is reached, for every `lst`.", "quantifier": "all dates, all slot lengths up to half a day, all right ascensions, all sidereal times", "why_tests_cant": "Dates and angles are unbounded; the values around 0 h are not in the suite.", "anchors": ["nenupy/schedule/targets.py: _Target._localSiderealTime", "nenupy/schedule/targets.py: _Target._computeHourAngle", "nenupy/schedule/constraints.py: LocalSiderealTimeCnst", "nenupy/schedule/constraints.py: MeridianTransitCnst"]}
{"id": "C110", "title": "Sets of SST files stay usable when joined, reduced and read", "statement": "Whatever files are opened, joined with `+` or `sum` and removed with `-`, an `SST_Data` lists exactly the files expected, knows the properties of each of them and announces their exact time and frequency limits; `select` returns the samples of the asked ranges, polarisation and mini-array.", "quantifier": "all lists of files, directories and base names, all sequences of joins and removals, all selections", "why_tests_cant": "Histories of joins and removals are unbounded, and the suite has no SST file.", "anchors": ["nenupy/beamlet/sstdata.py: SST_Data.__add__", "nenupy/beamlet/sstdata.py: SST_Data.__sub__", "nenupy/beamlet/sstdata.py: SST_Data.select", "nenupy/beamlet/sstdata.py: SST_Data.ma", "nenupy/instru/interferometer.py: Interferometer.__getitem__"]}
{"id": "C111", "title": "Contamination maps tell where and when sources are in the lobes", "statement": "For every time and frequency of a `BeamLobes`, the coverage computed by `compute_moc` holds exactly the visible parts of the sky which receive at least the asked fraction of the maximum of that time and frequency; `sources_in_lobes`, `gsm_in_lobes` and `compute_weight_moc` count exactly the sources, model cells and thresholds found in it; asked rotations of mini-arrays are the ones summed, and the methods can be called in any order once the coverage exists.", "quantifier": "all array factors, gains, altitudes, pointings, rotations, thresholds, lists of sources and orders of calls", "why_tests_cant": "The maps depend on every time, frequency and cell at once; the suite never builds a BeamLobes.", "anchors": ["nenupy/schedule/contamination.py: BeamLobes", "nenupy/schedule/contamination.py: BeamLobes.compute_moc", "nenupy/schedule/contamination.py: BeamLobes.compute_weight_moc", "nenupy/schedule/contamination.py: BeamLobes.sources_in_lobes", "nenupy/schedule/contamination.py: BeamLobes.gsm_in_lobes"]}
{"id": "C112", "title": "Contamination maps can be added, drawn, written and read back", "statement": "Adding two `SourceInLobes` requires the same times and frequencies and adds the values; a map written with `export` and read with `from_fits` is the same map, up to 1/255 when bytes are asked for, and `export` leaves the map as it is; `plot` draws the samples in increasing time, values with their times.", "quantifier": "all maps, axes and values", "why_tests_cant": "Values, axes and sequences of exports are unbounded; the suite has no test of it.", "anchors": ["nenupy/schedule/contamination.py: SourceInLobes.__add__", "nenupy/schedule/contamination.py: SourceInLobes.export", "nenupy/schedule/contamination.py: SourceInLobes.from_fits", "nenupy/schedule/contamination.py: SourceInLobes.plot"]}
{"id": "C113", "title": "Bookings of a spreadsheet become events and totals which agree", "statement": "Reading a spreadsheet of bookings with `XLSFile.to_ical` gives one event for each different text of each day, with the project, the start and the stop which are written; a text which is not understood is reported and the others are kept. The hours printed by `info` are the day hours plus the night hours, the hours of all projects add up to those of the file, they are the total duration of the events, and a file without errors can be read.", "quantifier": "all spreadsheets, texts, projects, seasons and both strictness settings", "why_tests_cant": "Texts are unbounded words of two regular expressions which must agree on all of them; the suite reads no spreadsheet.", "anchors": ["nenupy/schedule/open_time.py: XLSFile.to_ical", "nenupy/schedule/open_time.py: XLSFile.info"]}
{"id": "C114", "title": "Calendars of several files keep all their events, which can be moved and drawn", "statement": "Calendars read with `NenuCalendar.from_ics`, `from_csv` and `from_xls` hold the events of all the files, each with the project of its file; moving an event one sidereal day earlier or later keeps its duration and can be undone; an event is drawn on the line of each day it has in common.", "quantifier": "all lists of files, names, events, moves and months", "why_tests_cant": "Files, names and events are unbounded; the suite reads no calendar and opens no window.", "anchors": ["nenupy/schedule/open_time.py: NenuCalendar.from_ics", "nenupy/schedule/open_time.py: NenuCalendar.from_csv", "nenupy/schedule/open_time.py: NenuCalendar.from_xls", "nenupy/schedule/open_time.py: NenuCalendar"]}
{"id": "C115", "title": "Averages of slices are those of their bins", "statement": "`ST_Slice.rebin` on regular axes gives for each bin the mean (or median) of the values of the bin and its centre in time and frequency; a bin is missing only when all its values are; widths below one sample change nothing; the result of an average can be averaged again; bins are never wider than asked.", "quantifier": "all slices, axes, widths, missing values and both methods", "why_tests_cant": "Sizes, ratios of widths to steps and places of missing values are unbounded; the suite averages no slice with missing values or gaps.", "anchors": ["nenupy/io/io_tools.py: ST_Slice.rebin", "nenupy/io/io_tools.py: ST_Slice._rebin_time_indices", "nenupy/io/io_tools.py: ST_Slice._rebin_frequency_indices"]}
{"id": "C116", "title": "Flattening, cleaning, switch correction and backgrounds of beamlet data", "statement": "Flattening leaves a median of one in each channel (or time) and removes any gain; cleaning removes exactly the values above the thresholds; the correction of pointing switches divides every sample once, by the model fitted to the pointing it belongs to; dividing by the background flattens data which are a time profile times a spectrum; arithmetic with numbers or arrays changes each value by the one at its place.", "quantifier": "all tables with missing values, thresholds, lists of peaks, fitted models, sample durations, profiles, spectra and polarisations", "why_tests_cant": "Tables and lists of peaks are unbounded, and the default parameters are only wrong for some sample durations.", "anchors": ["nenupy/io/io_tools.py: ST_Slice.flatten_frequency", "nenupy/io/io_tools.py: ST_Slice.flatten_time", "nenupy/io/io_tools.py: ST_Slice.clean_rfi", "nenupy/io/io_tools.py: ST_Slice.clear_pointing_switch", "nenupy/beamlet/sdata.py: SData.background", "nenupy/beamlet/sdata.py: SData.fbackground"]}
{"id": "C117", "title": "Each antenna is given the response of a measured antenna like it", "statement": "For every mini-array, antenna and polarisation, `ant_pol_to_ref` returns exactly the measured dipoles which see the antennas around them alike (same projections on the dipole, up to order and sign), and there is always one; unknown names are refused. The response then used for the antenna is the one measured for such a dipole.", "quantifier": "all mini-arrays, antennas, polarisations and names", "why_tests_cant": "There are 3876 dipoles, the response files are downloaded separately, and that each has a reference, and none of the other polarisation, follows from the symmetries of the array; the suite checks none.", "anchors": ["nenupy/instru/antenna.py: ant_pol_to_ref", "nenupy/instru/antenna.py: download_ant_ref_models", "nenupy/instru/nenufar.py: _AntennaGain.__init__"]}
{"id": "C118", "title": "Temperatures, flux densities, sensitivity, resolution and confusion follow the documented formulas", "statement": "For every frequency, elevation, efficiency, list of sources, duration and bandwidth, the sky, instrument and system temperatures, `sefd`, `sensitivity`, `angular_resolution` and `confusion_noise` of an array are those of their documentation, scale as they should with frequency, elevation, integration and number of antennas, and refuse unknown filters, unknown modes and single antennas.", "quantifier": "all frequencies, elevations, efficiencies, sources, durations, bandwidths and arrays", "why_tests_cant": "The quantities are continuous, and the errors show only away from the default values (a source low above the horizon, images of the whole array).", "anchors": ["nenupy/instru/interferometer.py: Interferometer.sefd", "nenupy/instru/interferometer.py: Interferometer.sensitivity", "nenupy/instru/interferometer.py: Interferometer.system_temperature", "nenupy/instru/interferometer.py: Interferometer.angular_resolution", "nenupy/instru/interferometer.py: Interferometer.confusion_noise", "nenupy/instru/instrument_tools.py: instrument_temperature", "nenupy/astro/astro_tools.py: sky_temperature"]}
{"id": "C119", "title": "The effective area is that of the discs of the antennas", "statement": "For every mini-array, list of frequencies and elevation, `effective_area` is the area of the union of discs of a third of the square of the wavelength around the antennas, times the sine of the elevation; it does not depend on where the mini-array is nor on the other frequencies asked, does not grow with frequency, and adds up over mini-arrays whose discs do not meet.", "quantifier": "all positions of antennas, frequencies and elevations", "why_tests_cant": "The area is counted on a grid which depends on all the frequencies of the call and on the positions; the suite checks a few numbers.", "anchors": ["nenupy/instru/nenufar.py: MiniArray.effective_area", "nenupy/instru/nenufar.py: NenuFAR.effective_area"]}
{"id": "C120", "title": "Squint, pointing corrections, pointing grid and attenuation are those of their tables", "statement": "For every frequency, elevation, azimuth and rotation: the squint correction of a mini-array uses the closest tabulated frequency, never points above the desired elevation and keeps the order of elevations; the pointing correction is that of the table of the year at whole degrees and within its values elsewhere; every node of the analog grid points where its two steps say, and every target has a real node nearby; the attenuation is the gain relative to the zenith, whatever was computed before with the same coordinates.", "quantifier": "all frequencies, elevations, azimuths, rotations, correction tables, coordinates and histories of calls", "why_tests_cant": "Corrections are tabulated and interpolated over the whole sky: errors show at the edges of the tables, at low elevation, or in the second call with the same object.", "anchors": ["nenupy/instru/nenufar.py: MiniArray.beamsquint_correction", "nenupy/instru/nenufar.py: MiniArray.attenuation_from_zenith", "nenupy/instru/nenufar.py: MiniArray._generate_analog_directions", "nenupy/instru/instrument_tools.py: pointing_correction", "nenupy/instru/instrument_tools.py: mini_array_analog_pointing_grid"]}
{"id": "C121", "title": "Beam corrections are computed at the times asked and compare the direction desired with the one pointed at", "statement": "For every start, step and duration, projection matrices are computed at the multiples of the step up to the duration; for every digital pointing and every time, the pointing correction factor is the gain of the array towards the direction really pointed at over its gain towards the direction desired, per time, frequency and polarisation; matrices are written only when their shape matches the axes.", "quantifier": "all steps, durations, pointings, times, frequencies, polarisations, gains and shapes", "why_tests_cant": "The number of samples and the direction at a time depend on the fractions of the step and on the holes of the pointing; an example has neither.", "anchors": ["nenupy/astro/beam_correction.py: compute_projection_corrections", "nenupy/astro/beam_correction.py: matrices_to_hdf5", "nenupy/astro/beam_correction.py: pointing_correction_factor"]}
{"id": "C122", "title": "Reduced data stored in a file are read back as they were", "statement": "For every history of stores in a file and every beam, polarisations, times and frequencies: data stored are read back under their names, with their times and frequencies; other beams do not change; a store which is refused leaves the file usable; the limits of the header are those of the data.", "quantifier": "all data, names, beams, units, modes, states of the file and sequences of stores", "why_tests_cant": "The layout of the file depends on the names of the polarisations, and its state on what was done before, failures included.", "anchors": ["nenupy/io/tf_utils.py: store_dask_tf_data", "nenupy/io/tf_utils.py: ReducedSpectra.get", "nenupy/io/tf_utils.py: ReducedSpectra._build_axes", "nenupy/io/tf.py: Spectra.get"]}
{"id": "C123", "title": "Selections of reduced data keep values with their labels", "statement": "For every slice of reduced data and every triple of indices (numbers, slices, lists), the selection is refused or has exactly the times, frequencies and polarisations selected, each value being that of its time, frequency and polarisation.", "quantifier": "all sizes, values and indices", "why_tests_cant": "The mistakes come from the rules of numpy on mixed indices, for particular combinations of kinds of indices.", "anchors": ["nenupy/io/tf_utils.py: ReducedSpectraSlice.__init__", "nenupy/io/tf_utils.py: ReducedSpectraSlice.__getitem__"]}
{"id": "C124", "title": "The bandpass of a sub-band depends on the place of channels only", "statement": "For every accepted number of channels, the correction has one value per channel, is symmetric about the central channel, and is the inverse of the power of the filter (with the two neighbouring sub-bands folded) at the place of the channel in the sub-band; numbers below 16 and odd numbers are refused.", "quantifier": "all numbers of channels and all coefficients of the filter", "why_tests_cant": "Tests compare a few powers of two with stored arrays; the property is an identity between Fourier transforms for all sizes.", "anchors": ["nenupy/io/tf_utils.py: get_bandpass"]}
{"id": "C125", "title": "Clipping of interferences", "statement": "For all data, factors and degrees: values are kept or set to NaN; a larger factor clips less; the unit of the data does not matter; data at the level of the background within the factor asked are kept; each polarisation is treated according to its own data.", "quantifier": "all data with NaN, sizes, factors, degrees of the polynomial, both axes", "why_tests_cant": "The result depends on medians, a least squares fit and a deviation over the whole data set.", "anchors": ["nenupy/io/tf_utils.py: mitigate_rfi_along_axis", "nenupy/io/tf.py: TFTask.mitigate_frequency_rfi", "nenupy/io/tf.py: TFTask.mitigate_time_rfi"]}
{"id": "C126", "title": "Profiles and point spread function of a UV coverage", "statement": "For every array and time range: each baseline is counted once in the radial and azimuthal profiles, in the bin of its length or angle; the point spread function has its highest value, the number of baselines, at its centre, is symmetric in modulus, and is the sum of the waves of the baselines; it depends on the frequency and on the shape of the array.", "quantifier": "all lists of baselines, steps, frequencies and grid sizes", "why_tests_cant": "A sum over all baselines; exact limits and the axes of the plane are measure-zero cases which random tests miss.", "anchors": ["nenupy/astro/uvw.py: UV_Coverage.radial_profile", "nenupy/astro/uvw.py: UV_Coverage.azimuthal_profile", "nenupy/astro/uvw.py: UV_Coverage.psf"]}
{"id": "C127", "title": "Images and near-field images of correlations", "statement": "For all data, arrays, frequencies and fields: the image and the near-field are the documented sums over the pairs of mini-arrays without missing values; a transmitter on the ground is seen at its pixel with its power, which is the highest value; the imprint of a source is that of a transmitter far away in its direction; a source of the sky is seen at its direction with its power; any field of view is accepted.", "quantifier": "all visibilities with NaN, positions, wavelengths, numbers of times and pixels, numbers of processors", "why_tests_cant": "Sums over all baselines and frequencies; tests compare one recorded file with stored values.", "anchors": ["nenupy/io/xst.py: XST_Slice.make_image", "nenupy/io/xst.py: XST_Slice.make_nearfield"]}
{"id": "C128", "title": "Direction recorded for an exported block", "statement": "For every block of a parset with a start and a duration, and whatever the sky: the exported direction is that of the block at its middle, with its offsets in azimuth, elevation, right ascension and declination; it is a right ascension and a declination in their ranges; an unknown type of direction is refused, a test has no direction; an offset of zero changes nothing, and the export does not change the parset.", "quantifier": "all properties of a block, types of direction, angles, offsets, and all conversions between frames", "why_tests_cant": "Offsets across the north or the origin of right ascensions, or blocks below the horizon, are not in the tests, which export a few recorded files.", "anchors": ["nenupy/observation/parset.py: _get_pointing_center_dict", "nenupy/observation/parset.py: _constrain_angle"]}
{"id": "C129", "title": "Schedules and reservations made from calendars and booking files", "statement": "For every calendar, the schedule made from it covers the events asked for, whatever their order, and its available slots are those within these events; for every booking file, the reservations are those of the programs not excluded, and a schedule matched to a program keeps exactly the slots which this program has booked; what is missing or unknown is refused.", "quantifier": "all calendars, names, steps, booking files, programs and schedules", "why_tests_cant": "Files may list events in any order, overlapping or alone; the tests do not read any such file.", "anchors": ["nenupy/schedule/schedule.py: Schedule.from_ics", "nenupy/schedule/schedule.py: Schedule.match_booking", "nenupy/schedule/obsblocks.py: ReservedBlock.from_VCR"]}
{"id": "C130", "title": "Binary files of the receivers, whole or interrupted", "statement": "For every file written in the format of the receivers (spectra, waveforms, NenuFAR-TV, tables of calibration), every field of every header and every number of every block is read as it was written; when the recording stops at any byte, the blocks which are complete are still read; a table read for a number of mini-arrays it does not have is refused.", "quantifier": "all headers, numbers of blocks, sub-bands, times and channels, all contents, all bytes at which a file may stop", "why_tests_cant": "A file may stop at any byte and have any shape; the tests read no binary file, or one short one.", "anchors": ["nenupy/io/tf.py: Spectra._lazy_load_data", "nenupy/undysputed/dynspec.py: _Lane._decode_first_header", "nenupy/undysputed/dynspec.py: _Lane._decode_data", "nenupy/undysputed/waveform.py: _RawLane._load", "nenupy/io/xst.py: NenufarTV._load_tv_data", "nenupy/instru/instrument_tools.py: read_cal_table"]}
{"id": "C131", "title": "Limits in time and frequency announced for a file of spectra", "statement": "For every file, the lowest and highest frequencies and the first and last times announced by the two readers are those of the axes of its data, whatever the beams and the order of the sub-bands.", "quantifier": "all lists of sub-bands and of beams, numbers of channels, starts of the blocks and steps", "why_tests_cant": "Beams may be interleaved, unordered and have any sub-bands; tests with one file cannot settle it.", "anchors": ["nenupy/io/tf.py: Spectra.frequency_min", "nenupy/io/tf.py: Spectra.frequency_max", "nenupy/io/tf.py: Spectra.time_min", "nenupy/io/tf.py: Spectra.time_max", "nenupy/undysputed/dynspec.py: _Lane._load", "nenupy/undysputed/dynspec.py: _Lane._compute_frequencies", "nenupy/undysputed/dynspec.py: _Lane._compute_times"]}
{"id": "C132", "title": "Positions on the Earth, sidereal and local times, parallactic angles", "statement": "For every place, the geocentric position is on the ellipsoid and its height is along the vertical that the local frame uses; for every date the fast sidereal time and hour angle are in one turn and come back after each sidereal day; for every source away from the zenith the parallactic angle is that between north and zenith seen from the source, and does not depend on the sources asked with it; the local time of every UTC time is that of the clocks; a target is circumpolar exactly when it never sets.", "quantifier": "all latitudes, longitudes, heights, dates, declinations, hour angles, time zones with one summer", "why_tests_cant": "Angles and dates are continuous, and the hours around a change of clocks or the sources of one call are never all tried.", "anchors": ["nenupy/astro/astro_tools.py: geo_to_etrs", "nenupy/astro/astro_tools.py: local_sidereal_time", "nenupy/astro/astro_tools.py: hour_angle", "nenupy/astro/astro_tools.py: parallactic_angle", "nenupy/astro/astro_tools.py: to_local_time", "nenupy/schedule/targets.py: SSTarget.isCircumpolar", "nenupy/schedule/targets.py: ESTarget.isCircumpolar"]}
{"id": "C133", "title": "Beam statistics: beams, pointings and selections", "statement": "For every file of beam statistics and whatever was selected before, asking for a beam, ranges and a polarisation gives exactly the times and frequencies of the ranges with the values recorded at them; a refused selection changes nothing; selections always name beams, times and polarisations of the file; at every time of the observation exactly one pointing of a beam is on; the two readers of such files agree; the beam chosen for a reader is the one read.", "quantifier": "all files, all histories of selections, accepted or refused, all times and frequencies", "why_tests_cant": "Results depend on the history of selections and on the tables of the file; tests with one file and one selection cannot settle it.", "anchors": ["nenupy/beamlet/bstdata.py: BST_Data.select", "nenupy/beamlet/bstdata.py: BST_Data.dbeam", "nenupy/beamlet/bstdata.py: BST_Data.timerange", "nenupy/beamlet/bstdata.py: BST_Data.utana", "nenupy/beamlet/bstdata.py: BST_Data.utdig", "nenupy/io/bst.py: BST.get", "nenupy/io/bst.py: BST.beam", "nenupy/io/bst.py: BST.analog_pointing"]}
{"id": "C134", "title": "Selection of the parents in the genetic search and functions given to it", "statement": "Proportional selection draws two different individuals of nonzero scores with probabilities in proportion of their scores, whatever the scores a fitness function may give; rank selection gives a weight that grows with the rank; the two parents are different individuals; a function given for the population, the fitness or the mutation is kept exactly if what it gives has the right shape, otherwise the former one stays; a function which was accepted can be used.", "quantifier": "all scores, population sizes, orders of equal scores, draws and functions given", "why_tests_cant": "Probabilities and draws are over all scores and all orders of equal scores; tests draw a few pairs.", "anchors": ["nenupy/schedule/geneticalgo.py: GeneticAlgorithm._selectPair", "nenupy/schedule/geneticalgo.py: GeneticAlgorithm.populate", "nenupy/schedule/geneticalgo.py: GeneticAlgorithm.fitness", "nenupy/schedule/geneticalgo.py: GeneticAlgorithm.mutation", "nenupy/schedule/geneticalgo.py: GeneticAlgorithm.evolve"]}
{"id": "C135", "title": "Beam patterns of antennas, mini-arrays and the whole array", "statement": "At the frequencies of its file the gain of an antenna is the recorded one over the highest value of its polarisation, and between them it stays from 0 to 1; beams are from 0 to 1, and equal to the mean gain of the antennas in the pointed direction; the beam is the power received by the antennas, each with its own gain; the squared modulus of the complex beam is the beam; without normalisation the beam is multiplied by the square of the number of antennas; the attenuation from zenith is one at zenith and does not depend on the normalisation.", "quantifier": "all gain files, polarisations, frequencies, positions, weights, delays, directions, wavelengths and numbers of antennas", "why_tests_cant": "Tests look at a few directions and frequencies of one file; ranges and identities must hold everywhere.", "anchors": ["nenupy/instru/nenufar.py: _AntennaGain.load_file", "nenupy/instru/nenufar.py: _AntennaGain.__getitem__", "nenupy/instru/nenufar.py: MiniArray._antenna_gain", "nenupy/instru/nenufar.py: MiniArray.beam", "nenupy/instru/nenufar.py: MiniArray.attenuation_from_zenith", "nenupy/instru/nenufar.py: NenuFAR.beam", "nenupy/instru/interferometer.py: Interferometer.beam"]}
{"id": "C136", "title": "Removal of interferences from dynamic spectra", "statement": "Cleaning a dynamic spectrum only turns values into NaN: those over the background plus the chosen number of standard deviations, no others; a threshold of zero changes nothing, a higher threshold keeps more; polarisations are independent and the gain does not matter; a channel which is always contaminated, or a burst over all channels, is removed as a whole and nothing else is; values within the noise are kept.", "quantifier": "all dynamic spectra (with NaN), sizes, thresholds, gains and polarisations", "why_tests_cant": "A test cleans one simulated spectrum; what is removed must follow from the threshold for all data, sizes and gains.", "anchors": ["nenupy/undysputed/dynspec.py: _background", "nenupy/undysputed/dynspec.py: _clean"]}
{"id": "C137", "title": "Analog pointings are made from the directions asked, at each call and in each group", "statement": "The beam of a mini-array is pointed at the node of its grid closest to the direction asked, corrected once for the squint; computing a beam again with the same pointing gives the same beam, each group of mini-arrays starts from the directions given by the user, and the numerical pointing is not moved by the analog one. The mini-arrays of the whole array have the name, position, rotation and gain of one entry of the table.", "quantifier": "all rotations, frequencies, directions, pointings, histories of calls, groups and tables of mini-arrays", "why_tests_cant": "Tests compute a beam once with a fresh pointing, mostly near the zenith; the drift shows after several calls with one pointing object.", "anchors": ["nenupy/instru/nenufar.py: MiniArray.analog_pointing", "nenupy/instru/nenufar.py: MiniArray.beam", "nenupy/instru/nenufar.py: NenuFAR.beam", "nenupy/instru/nenufar.py: NenuFAR.__init__"]}
{"id": "C138", "title": "Correction of the sub-bands with the filter of the amplifiers", "statement": "For each known filter and each frequency of the instrument the response is positive, follows that of the sub-band, changes without step, and the correction undoes it exactly; unknown filters, cut sub-bands and missing frequencies are refused; the data given by the user are not modified.", "quantifier": "all filters, frequencies up to 100 MHz, numbers of channels and data", "why_tests_cant": "Tests correct a few sub-bands; a response which vanishes or is turned over at some frequency would spoil the data only there.", "anchors": ["nenupy/io/tf_utils.py: bandpass_correction_coefficients", "nenupy/io/tf_utils.py: correct_bandpass"]}
{"id": "C139", "title": "Corrections of the sub-bands of dynamic spectra", "statement": "The standard correction is the one of the other reader; the median correction gives all channels of a sub-band the level of the sub-band and changes nothing when made again; the adjusted correction takes out the response common to the sub-bands and keeps the signal; missing values stay missing, and all corrections accept several polarisations.", "quantifier": "all data (with NaN), sizes, numbers of channels, polarisations and names of corrections", "why_tests_cant": "Tests have one file and one polarisation; the result must be right for all signals and responses.", "anchors": ["nenupy/undysputed/dynspec.py: Dynspec.bp_correction", "nenupy/undysputed/dynspec.py: _bp_correct", "nenupy/undysputed/dynspec.py: _bandpass"]}
{"id": "C140", "title": "Fine tuning of schedules", "statement": "Fine tuning moves booked blocks by one slot at a time to starts of higher score, so that the scores only increase and it ends by itself; at the end no block would gain by a move into a free slot; blocks stay in the schedule, never come to starts of score zero, do not overlap, and the processing delays between blocks are kept.", "quantifier": "all schedules, scores, numbers of blocks, delays and numbers of iterations", "why_tests_cant": "Tests tune a schedule or two; overlaps occur only for certain orders and scores of the blocks.", "anchors": ["nenupy/schedule/schedule.py: Schedule.fine_tune"]}
{"id": "C141", "title": "The former export of parsets", "statement": "`Parset.to_json_old` exports one field of view for each analog beam, with remote mini-arrays exactly when the imager is used; each numerical beam in the field of its analog beam with its receiver, whatever its task; pointings with different numbers; the code and name of the topic; and the receivers of the file.", "quantifier": "all parset files: beams, numbers, tasks, parameters, mini-arrays, receivers and topics", "why_tests_cant": "Tests export a few files; lost beams, repeated numbers or a failing export depend on the order and tasks of the beams.", "anchors": ["nenupy/observation/parset.py: Parset.to_json_old"]}
{"id": "C142", "title": "Highest frequency for two sources in one analog beam", "statement": "`in_analog_beam_max_frequency` gives, at each time, the highest frequency of the band (to less than a step of its grid) at which the separation of the two sources is within half of the width of the analog beam, and 0 exactly when there is none; both sources are in the beam at all lower frequencies; closer sources give higher frequencies, and the order of the sources does not matter.", "quantifier": "all separations, sources (fixed or moving), numbers of times and sizes of mini-arrays", "why_tests_cant": "Tests look at a few pairs of sources and times; that the answer is the highest admissible frequency is a claim on all separations.", "anchors": ["nenupy/observation/obs_tools.py: in_analog_beam_max_frequency", "nenupy/instru/interferometer.py: Interferometer.angular_resolution"]}
{"id": "C143", "title": "Temperature of the LOFAR instrument", "statement": "`lofar_instrument_temperature` is positive at every frequency from 0 to 90 MHz and from 110 MHz, undefined strictly between, and stays of the order of the measured temperatures within the bands.", "quantifier": "all frequencies", "why_tests_cant": "Polynomials of degree 6 with alternating signs can be negative between the frequencies tested.", "anchors": ["nenupy/instru/instrument_tools.py: lofar_instrument_temperature"]}
{"id": "C144", "title": "Summary of a calendar", "statement": "`NenuCalendar.write_summary_csv` writes, in the folder asked, a header and exactly one line of four fields for each event (start, stop, project, name), in the order of the times, and refuses calendars where a name does not mention the project of its calendar.", "quantifier": "all lists of events, names, folders and file names", "why_tests_cant": "Tests write a few calendars; commas in names, inconsistent events in the middle or overlapping events are cases of all lists.", "anchors": ["nenupy/schedule/open_time.py: NenuCalendar.write_summary_csv", "nenupy/schedule/open_time.py: NenuEvent.__lt__"]}
{"id": "C145", "title": "Fit of a transit", "statement": "`ST_Slice.fit_transit` adjusts the samples below the threshold with NaN replaced by their median, gives one fitted value for each time, a time of transit within the times of the slice, and a quality that is 0 for a perfect fit; it works for any slice in which a source crosses the beam, with or without threshold, for each method.", "quantifier": "all profiles, times, thresholds, methods, median filters and results of the solver", "why_tests_cant": "The only test fits one profile with a tolerance of thousands of days; whether arrays have the same sizes depends on the shape of the profile.", "anchors": ["nenupy/io/io_tools.py: ST_Slice.fit_transit"]}
{"id": "C146", "title": "Images and near-fields of the NenuFAR-TV in files", "statement": "`TV_Image` and `TV_Nearfield` saved with `save_fits` and read back with `from_fits` are the same: all pixels (missing ones as NaN), the resolution, the time, the frequency, the Stokes parameter, the direction and its moment, the field of view, and the imprint of each source under its name; saving again gives the same file.", "quantifier": "all images of any resolution, masks, times, labels and directions; all near-fields, sets of sources and names", "why_tests_cant": "Tests write one image; names of sources, missing pixels, several times or polarisations and the rounding of times are cases of all inputs.", "anchors": ["nenupy/io/xst.py: TV_Image.from_fits", "nenupy/io/xst.py: TV_Image.save_fits", "nenupy/io/xst.py: TV_Nearfield", "nenupy/io/xst.py: NenufarTV.compute_nenufar_tv"]}
{"id": "C147", "title": "Point sources in a model of the sky", "statement": "`HpxGSM.add_point_source` adds exactly the value asked for, at the position of the source at each time of the sky, and changes nothing else; with an angular size the value is spread; `add_point_source_snr` gives a source of the ratio asked for, computed from the median and the deviation of the map.", "quantifier": "all skies, sources (fixed or not), times of the source, values and arrays", "why_tests_cant": "Tests add one source to one sky; the dates at which a position is kept and the numbers of times are cases of all inputs.", "anchors": ["nenupy/astro/skymodel.py: HpxGSM.add_point_source", "nenupy/astro/skymodel.py: HpxGSM.add_point_source_snr", "nenupy/astro/target.py: SolarSystemTarget.update_time"]}
{"id": "C148", "title": "Axes of slices of cross-correlations", "statement": "A slice of cross-correlations (`XST.get`, `get_stokes`, or those of a NenuFAR-TV file) has one time and one frequency for each row and column of its values, those the values were recorded at; it can then be imaged or beamformed, at the right frequencies.", "quantifier": "all files of any number of times and sub-bands, and all selections of times and frequencies", "why_tests_cant": "The file of the tests has one time; the shape of the axis of frequencies depends on the number of times.", "anchors": ["nenupy/io/xst.py: XST.frequencies", "nenupy/io/xst.py: Crosslet._get_cross_idx", "nenupy/io/xst.py: XST.get", "nenupy/io/xst.py: XST_Slice.make_image", "nenupy/io/xst.py: XST_Slice.get_beamform", "nenupy/io/xst.py: XST_Slice.rephase_visibilities"]}
{"id": "C149", "title": "Selections of mini-array statistics", "statement": "`SST.get` returns exactly the recorded values of the mini-array and polarisation that were asked, at the times and frequencies which meet the conditions, in order, and says which polarisation it holds; a mini-array that is not in the file is refused.", "quantifier": "all files, mini-arrays, polarisations and selections", "why_tests_cant": "There is no test of this reader; which values are selected is a statement on all files and conditions.", "anchors": ["nenupy/io/sst.py: SST.get", "nenupy/io/sst.py: SST.mini_arrays", "nenupy/io/io_tools.py: ST_Slice.__init__"]}
{"id": "C150", "title": "Models of antennas from CST tables", "statement": "A table of gains computed by CST is read on its own grid (`CSTModel`), whatever the order of its rows, closed or not in azimuth; its sky map (`to_healpix`) has at each pixel the gain interpolated in the direction of this pixel, and a gain everywhere; the file written from several of them (`write_healpix_antenna_file`) gives back the maps of each polarisation by increasing frequency.", "quantifier": "all tables of any number of azimuths and zenith distances, all resolutions of the map, all sets of files", "why_tests_cant": "No test reads such a file; the pairing of pixels and directions is a statement on every pixel of every resolution.", "anchors": ["nenupy/instru/antenna.py: CSTModel.to_healpix", "nenupy/instru/antenna.py: CSTModel._infer_2d_shape", "nenupy/instru/antenna.py: CSTModel._get_coordinate_axes", "nenupy/instru/antenna.py: CSTModel._infer_frequency_from_name", "nenupy/instru/antenna.py: CSTModel._read_cst_data", "nenupy/instru/antenna.py: write_healpix_antenna_file"]}
{"id": "C151", "title": "Mini-arrays of a beam formed from cross-correlations", "statement": "The beam formed from cross-correlations (`get_beamform`) is made of exactly the mini-arrays that were asked for, in any order, each with its own correlations, calibration and position, for the polarisation that was named; mini-arrays which are not recorded are refused, recorded ones are accepted.", "quantifier": "all files, whatever the recorded mini-arrays and their order, all selections, polarisations and calibrations", "why_tests_cant": "The tests beamform the mini-arrays of one file; the pairing of three separately ordered lists must hold for every selection.", "anchors": ["nenupy/io/xst.py: Crosslet.get_beamform", "nenupy/io/xst.py: Crosslet._get", "nenupy/instru/interferometer.py: Interferometer.__getitem__"]}
{"id": "C152", "title": "Pointings fixed on the ground or on a target", "statement": "A drift scan (`azel_driftscan`) is, at every time of its steps, in the horizontal direction that was asked, and on the sky where that direction points at that time; tracking the zenith is at the zenith; tracking a target is where the observer of the pointing sees the target. Without durations each step lasts until the next one. Out of the steps the pointing is at the zenith.", "quantifier": "all directions, targets, times, durations, observers and times of look-up", "why_tests_cant": "The tests look at one pointing at its own times; what is found between the beginnings of the steps, out of them and from other sites must hold for every time.", "anchors": ["nenupy/astro/pointing.py: Pointing.azel_driftscan", "nenupy/astro/pointing.py: Pointing.zenith_tracking", "nenupy/astro/pointing.py: Pointing.target_tracking", "nenupy/astro/pointing.py: Pointing.__getitem__", "nenupy/astro/astro_tools.py: AstroObject.horizontal_coordinates"]}
{"id": "C153", "title": "Phase centres of slices of cross-correlations", "statement": "A slice of cross-correlations is known to be phased towards its phase centre: re-phasing a file or a slice starts from its current centre, whatever the way the centre is given, and an image made from a re-phased slice shows each source at its place.", "quantifier": "all baselines, times, phase centres, files and sequences of re-phasings", "why_tests_cant": "Tests re-phase once from the zenith; what a slice keeps of its centre matters for every later step.", "anchors": ["nenupy/io/xst.py: Crosslet.rephase", "nenupy/io/xst.py: XST_Slice.rephase_visibilities", "nenupy/io/xst.py: XST_Slice.make_image", "nenupy/io/xst.py: XST_Slice.__init__"]}
{"id": "C154", "title": "Azimuth constraints follow the motion of the target", "statement": "An azimuth constraint keeps exactly the slots in which the target passes through the azimuth (and their neighbours), whichever way the target moves and wherever the azimuths start again from zero.", "quantifier": "all azimuths of constraints and all azimuth tables of targets, circumpolar or not", "why_tests_cant": "Whether a slot is kept depends on where the turn is cut; tests use one target that crosses the south.", "anchors": ["nenupy/schedule/constraints.py: AzimuthCnst._evaluate"]}
{"id": "C155", "title": "A file of spectra, read from beginning to end, gives the Stokes parameters of the fields at their times and frequencies", "statement": "Opening a `.spectra` file and asking for the Stokes parameters of a beam returns, at each row and column, the parameters of the fields received at the time of the row and the frequency of the column; a request over the whole recording returns every recorded sample of the beam once, in order.", "quantifier": "all recordings (numbers of blocks, sub-bands, times and channels, contents, gaps, damaged headers), requests and names of parameters", "why_tests_cant": "The result goes through decoding, dating, unpacking, selection and polarisation; each step has its own tests at most, on one file, and an exchange of axes in one of them can hide behind another.", "anchors": ["nenupy/io/tf.py: Spectra", "nenupy/io/tf.py: Spectra.get", "nenupy/io/tf.py: Spectra.select_raw_data", "nenupy/io/tf.py: Spectra._to_dask_tf", "nenupy/io/tf_utils.py: blocks_to_tf_data", "nenupy/io/tf_utils.py: compute_stokes_parameters"]}
{"id": "C156", "title": "The estimated volume is the number of values written, times their size", "statement": "The volume given by a configuration is the number of values which its backend writes during the observation (time steps, pairs of mini-arrays, sub-bands, channels, phase bins, polarizations) times the size of a value; a longer observation never gives a smaller volume, and the pulsar modes write nothing during the first minute.", "quantifier": "all configurations whose duration holds a whole number of time steps, and all asked resolutions; monotony for all configurations within bounds", "why_tests_cant": "A volume is a single number of many gigabytes: a factor two, a missing autocorrelation or a division turned into a product give plausible numbers, and no test can write the data to count it.", "anchors": ["nenupy/observation/obs_config.py: BSTConfig.volume", "nenupy/observation/obs_config.py: NICKELConfig.volume", "nenupy/observation/obs_config.py: _TFBeamConfig.volume", "nenupy/observation/obs_config.py: _RawBeamConfig.volume", "nenupy/observation/obs_config.py: _FoldBeamConfig.volume", "nenupy/observation/obs_config.py: _WaveolafBeamConfig.volume", "nenupy/observation/obs_config.py: _SingleBeamConfig.volume"]}
{"id": "C157", "title": "Without ranges, the older reader takes the whole band and the whole observation", "statement": "When no range of frequencies or times was set, the ranges used go from the lowest to the highest edge of the channels of all lanes, and from the first to the last spectrum; with them, all channels of the beam and all spectra of every lane are read.", "quantifier": "all readers, with any number of lanes in any order, any sub-bands, channels and time steps", "why_tests_cant": "Lanes may be listed in any order and overlap; a test has one or two files whose first lane is the lowest one.", "anchors": ["nenupy/undysputed/dynspec.py: Dynspec.freq_range", "nenupy/undysputed/dynspec.py: Dynspec.time_range", "nenupy/undysputed/dynspec.py: Dynspec.fmin", "nenupy/undysputed/dynspec.py: Dynspec.fmax", "nenupy/undysputed/dynspec.py: _Lane", "nenupy/undysputed/dynspec.py: Dynspec._select_data"]}
{"id": "C158", "title": "A call without a time is about the present", "statement": "Functions documented with the current time as default (rise and set times, transits, replays of observations) answer, when no time is given, for the time at which they are called: the next rise is in the future, the previous one is the latest before the call, a replay does not start before the call.", "quantifier": "all motions of the source, all precisions, all times at which the modules are read and calls are made, all sequences of calls", "why_tests_cant": "A test runs within a second of the import; the property is about programs which run for hours or days.", "anchors": ["nenupy/astro/target.py: Target.next_rise_time", "nenupy/astro/target.py: Target.previous_rise_time", "nenupy/astro/target.py: Target.next_set_time", "nenupy/astro/target.py: Target.previous_set_time", "nenupy/astro/target.py: Target.rise_time", "nenupy/astro/target.py: Target.meridian_transit", "nenupy/observation/parset.py: ParsetUser.replay_from_parset"]}
{"id": "C159", "title": "A mini-array stands as its rotation says", "statement": "A mini-array is made for the numbers of the table only, other integers being unknown and other values badly formatted. Its antennas are turned by its rotation: a larger rotation moves each antenna to an azimuth larger by as much, and the array factor only depends on directions relative to the rotation. Mini-arrays whose rotations differ by sixty degrees are interchangeable, as the beam of the whole array supposes, and the measured antenna responses are chosen for the antennas where the mini-array has them.", "quantifier": "all indices, rotations, directions, pointings, wavelengths, weights and delays; all antennas, mini-arrays and polarisations of the tables", "why_tests_cant": "The statement is about all angles, and a sign error in a rotation cannot be seen on mini-arrays which are turned by multiples of thirty degrees.", "anchors": ["nenupy/instru/nenufar.py: MiniArray.__init__", "nenupy/instru/nenufar.py: MiniArray._generate_analog_directions", "nenupy/instru/nenufar.py: NenuFAR.beam", "nenupy/instru/interferometer.py: Interferometer.array_factor", "nenupy/instru/antenna.py: ant_pol_to_ref"]}
{"id": "C160", "title": "Baselines are projected on the axes of the phase centre", "statement": "The uvw coordinates of an interferometer are, for each time and each pair of antennas, the vector between them along the east, the north and the direction of the phase centre (the zenith if none is given). They are given for one phase centre, or one for each time, and refused otherwise. Baselines keep their lengths; a coverage has a point for each ordered pair of antennas at each time; the coverage of cross-correlations is the one halfway through them.", "quantifier": "all positions of antennas, longitudes, phase centres, lists of phase centres and times", "why_tests_cant": "Tests compare shapes, or numbers which the code itself gave; a frame turned by a few degrees looks like a valid coverage.", "anchors": ["nenupy/astro/uvw.py: compute_uvw", "nenupy/astro/uvw.py: UV_Coverage.compute", "nenupy/astro/uvw.py: UV_Coverage.from_xst", "nenupy/instru/interferometer.py: Baseline", "nenupy/instru/nenufar.py: MiniArray._toITRF"]}
{"id": "C161", "title": "Local times are those of the clocks", "statement": "The local time of a UTC time is what a clock of the time zone shows at that time, before, during and after the changes to and from daylight saving; a constraint on local hours keeps the slots which start at these hours of the clocks.", "quantifier": "all time zones, all changes of their offsets, all times and hours", "why_tests_cant": "The difference shows during one or two hours a year, and depends on the zone.", "anchors": ["nenupy/astro/astro_tools.py: to_local_time", "nenupy/schedule/constraints.py: LocalTimeCnst"]}
{"id": "C162", "title": "Fast conversions between sky and horizon undo each other", "statement": "A sky position converted to azimuth and elevation at a time with the fast computation, and converted back, is the same position; so is a direction of the horizon converted to the sky and back.", "quantifier": "all positions, latitudes, sidereal times and changes of equinox", "why_tests_cant": "The comparison on a few positions is made within tolerances which hide the precession; the statement is about all positions.", "anchors": ["nenupy/astro/astro_tools.py: radec_to_altaz", "nenupy/astro/astro_tools.py: altaz_to_radec"]}
{"id": "C163", "title": "Computed Jones matrices correct the samples they are computed for", "statement": "Time-frequency data which went through the response of the antennas come back as they were before it, once corrected with the Jones matrices computed for the observation: each sample with the matrix of its interval of time and of its sub-band, the last ones included; what cannot be corrected is refused.", "quantifier": "all observations (lengths, resolutions, starts, sub-bands), all intervals between matrices and all matrices", "why_tests_cant": "Tests compute matrices for one start, one resolution and contiguous sub-bands; the rank of a matrix depends on all of them and on fractions of microseconds.", "anchors": ["nenupy/io/tf_utils.py: apply_dreambeam_corrections", "nenupy/astro/beam_correction.py: compute_jones_matrices"]}
{"id": "C164", "title": "Conversions of positions leave the given positions as they are", "statement": "Converting positions between Lambert 93, ETRS, geographic and Lambert ORN coordinates gives one converted position for each given one, in their order and with the shape of what was given; the positions which were given, and those of an interferometer, stay as they are after any series of conversions; converting back gives the positions one started from; positions without three coordinates are refused.", "quantifier": "all arrays of positions, all selections of antennas, all projections and all series of calls", "why_tests_cant": "Tests convert one literal array once and look at the result, not at the array which was given nor at a second conversion.", "anchors": ["nenupy/astro/astro_tools.py: l93_to_etrs, geo_to_l93, l93_to_geo, geo_to_orn", "nenupy/instru/nenufar.py: NenuFAR._toITRF, antenna_position_geo, antenna_positions_lambertorn", "nenupy/io/xst.py: make_nearfield"]}
{"id": "C165", "title": "Parts and median profiles of a data set keep their labels", "statement": "A part of a data set taken with three slices has exactly the times, frequencies and polarisations that the slices name, in their order, and each of its values is the one of the data set under the same labels; a part before and a part after a time, or a frequency, joined again give the data set; the median spectrum and the median curve keep the labels of the axis that is left, get the middle of the other one, and hold medians; anything but three slices is refused.", "quantifier": "all data sets, all slices with positive and negative starts, stops and steps, all places to cut, all values", "why_tests_cant": "Tests take one slice of one array; bounds out of range, negative steps and the order of the parts when they are joined are not tried.", "anchors": ["nenupy/beamlet/sdata.py: SData.__getitem__, SData.__or__, SData.__and__, SData.medianFProfile, SData.medianTProfile"]}
{"id": "C166", "title": "Positions of scheduled targets are those of the sky at each date", "statement": "For each date given, a target of a schedule gets one elevation and one azimuth, those of its direction seen from the site at the true sidereal time and at its coordinates of that date, in the order of the dates; a target said never to set is above the horizon at every date; a target with fixed coordinates is at the same elevation after each sidereal day; a part of a target is the target at the part of the dates; what is not a date is refused and changes nothing.", "quantifier": "all dates, all coordinates of the date, all previous computations, all slices", "why_tests_cant": "A test compares one source with one value; the quadrant of the azimuth, the poles, single dates and the precession of sources near the circumpolar limit are not tried.", "anchors": ["nenupy/schedule/targets.py: _Target.computePosition, _Target._computeHorizontalCoords, _Target.__getitem__, _Target.reset, ESTarget.isCircumpolar"]}
{"id": "C167", "title": "Lists of antennas accepted for a mini-array name each antenna once", "statement": "The validation of an observation request accepts a list of antennas exactly if it names antennas of a mini-array (1 to 19), separated by commas between brackets and none of them twice; every list of distinct antennas given by a user is accepted, and an accepted list is read as these numbers.", "quantifier": "all texts, all lists of numbers", "why_tests_cant": "The pattern uses a look-ahead with a reference to a group; a test tries a few lists, not every place at which a number can come again, nor each way of writing it.", "anchors": ["nenupy/observation/parset_user_options.json: anabeam.antList", "nenupy/observation/parset.py: _BlockUser.validate, _ParsetProperty.__setitem__"]}
{"id": "C168", "title": "Words accepted by an observation request are the documented ones and are read and exported as such", "statement": "For the properties of an observation request which take a word or a small number (tracking and direction types, switches, flags, tasks, numbers of bits, channels of the imager, frequency of the squint correction) the validation accepts exactly the documented values, whatever their case where case is said not to matter; an accepted value is read as this word, flag or number, and the export knows the task.", "quantifier": "all texts, all beams with an accepted task", "why_tests_cant": "A test tries a few words; the texts which a pattern lets through besides (prefixes, other cases, other ends) are infinitely many.", "anchors": ["nenupy/observation/parset_user_options.json", "nenupy/observation/parset.py: _BlockUser.validate, _ParsetProperty.__setitem__, BEAM_SETTINGS"]}
{"id": "C169", "title": "Lists accepted for the outputs of an observation are lists of existing sub-bands and receivers", "statement": "The validation accepts for the cross-correlations the lists of sub-bands numbers 0 to 15, for the imager the lists of sub-bands 0 to 511 and for the receivers the lists of their names; every such list given by a user is accepted, and an accepted list is read as these numbers.", "quantifier": "all texts, all lists of numbers", "why_tests_cant": "The elements of a list are checked by two separate parts of a pattern, the first one and the following ones, which may differ; a test tries a few lists.", "anchors": ["nenupy/observation/parset_user_options.json: output.xst_sbList, output.nri_subbandList, output.hd_receivers", "nenupy/observation/parset.py: _BlockUser.validate, _ParsetProperty.__setitem__"]}
{"id": "C170", "title": "Angles accepted by an observation request are angles, and all of them", "statement": "The validation accepts as right ascension, declination, azimuth, elevation, offset or hour angle the texts of numbers and of sexagesimal angles which are in the range of this coordinate, with at most one sign; every such value given by a user, as a number or a text, and every one written by a replay is accepted.", "quantifier": "all texts, all whole numbers of degrees with any decimals, all sexagesimal angles", "why_tests_cant": "A test tries a few angles; which ones of the infinitely many texts are let through, and which numbers are refused because of the way they are written, needs the whole language of the patterns.", "anchors": ["nenupy/observation/parset_user_options.json: ra, dec, azimuth, elevation, decal_az, decal_el, startHA, stopHA, decal_transit", "nenupy/observation/parset.py: _BlockUser.validate, replay"]}
{"id": "C171", "title": "Lane files of an observation are read into the Stokes parameters of what was recorded", "statement": "When the lane files of one observation are read, with any choice of beam, times and frequencies, each value returned is the Stokes parameter of what was recorded in one of the files for this beam, at the time and frequency given with it; without a choice of times and frequencies everything recorded for the beam is returned, each value once; a file which was interrupted gives its complete blocks.", "quantifier": "all lane files: any number of files, blocks, sub-bands, times and channels, any contents; all sequences of settings", "why_tests_cant": "The chain goes from bytes through headers, unpacking, reordering of channels, selections by nearest values and joining of lanes; an index wrong in one of them is seen only for some shapes, and a test on one small file has few of them.", "anchors": ["nenupy/undysputed/dynspec.py: _Lane, Dynspec.get, Dynspec._select_data, Dynspec._compute_stokes, Dynspec.lanefiles", "nenupy/undysputed/sdata.py: SData.__and__"]}
{"id": "C172", "title": "An image of a sky shows the values of its directions", "statement": "Each pixel of the image of a sky holds the mean of the values of the directions which are nearest to its centre, visible ones only if asked for, and is blank if there is none; the whole sky fits in the image without a radius; pixels have the resolution asked for, up to a factor of two; a difference of two skies is made only between the same directions, times, frequencies and polarisations.", "quantifier": "all skies: any number of directions, values, some of them missing, and positions; all resolutions and radii", "why_tests_cant": "Pixels with many directions, directions on the edge of the image or of the horizon and fractional positions are rare in a test on one map, and an image looks right when it is shifted by half a pixel.", "anchors": ["nenupy/astro/sky.py: SkySlice.plot, SkySlice.__sub__, SkySliceBase._compute_wcs, SkySliceBase._fullsky_projection, HpxSky.shaped_like"]}
{"id": "C173", "title": "The angle of linear polarisation is that of the field", "statement": "The angle computed from the Stokes parameters U and Q is the position angle of the field, up to a half turn, whatever the intensity, the circular part and the unpolarised part of the data; perpendicular fields have different angles; data corrected for Faraday rotation give the angle the field was emitted with, and the angles at two wavelengths differ by the rotation measure times the difference of the squares of the wavelengths.", "quantifier": "all data with a linear part, all position angles, rotation measures and wavelengths", "why_tests_cant": "Half of all position angles give a wrong answer and the other half a right one; a test on one source in one quadrant sees only one half.", "anchors": ["nenupy/io/tf_utils.py: polarization_angle, compute_stokes_parameters, de_faraday_data"]}
{"id": "C174", "title": "The total of the plotted data volumes is that of all receivers", "statement": "In the plot of cumulative data volumes, the curve of a receiver tells at each time the volume of its configurations which have started, and the total tells that of all plotted receivers, whatever the numbers and starts of their configurations, and whether all receivers are plotted or some.", "quantifier": "all sets of configurations, all lists of receivers, all lists of parset files in any order", "why_tests_cant": "Files give each receiver the same number of configurations with the same starts; only configurations built in another way show whether the curves are added at the same times.", "anchors": ["nenupy/observation/obs_config.py: ObsConfig.plotCumulativeVolume, ObsConfig.getCumulativeVolume, ObsConfig.fromParsetList"]}
{"id": "C175", "title": "The covariance matrix tells the Jones matrices behind a Mueller matrix", "statement": "The matrix derived from a Mueller matrix is hermitian, its trace is the transmission of unpolarised light, it loses nothing of the Mueller matrix; it has rank one for the Mueller matrix of a Jones matrix and tells its components, and it has no negative eigenvalue for any mixture of Jones matrices with positive weights.", "quantifier": "all real 4 x 4 matrices, all Jones matrices, all mixtures of any number of them", "why_tests_cant": "A sign or an order of the Pauli matrices which is not that of the Stokes parameters shows only in a few of the sixteen entries, and positivity is a statement on all vectors and mixtures.", "anchors": ["nenupy/astro/jones_mueller.py: MuellerMatrix.to_hermitian, JonesMatrix.to_mueller"]}
{"id": "C176", "title": "The drawings of a schedule show each moment and each block once", "statement": "For every schedule and length of rows, `Schedule.plot` draws rows which follow one another from the midnight before the schedule, such that each moment of the schedule lies in exactly one row, each row shows some of the schedule, each slot is marked and each booked block has its title in exactly one row; `Schedule.plot_range` draws exactly the blocks which share some time with the range, with their titles within it.", "quantifier": "all schedules, lengths of rows, ranges and booked blocks", "why_tests_cant": "The number of rows depends on the hour of the first slot and on the length of the rows, and limits of blocks, slots, rows and ranges can coincide or cross in every way; the suite draws nothing.", "anchors": ["nenupy/schedule/schedule.py: Schedule.plot", "nenupy/schedule/schedule.py: Schedule.plot_range", "nenupy/schedule/schedule.py: ScheduleBlock._display", "nenupy/schedule/obsblocks.py: ReservedBlock._display"]}
{"id": "C177", "title": "Drawings of spectra show each value at its own time and frequency", "statement": "For all data, `ST_Slice.plot`, `SData.plot`, `ReducedSpectraSlice.plot` and `multi_plot` draw the data of the polarisation asked for as a table, spectrum or light curve in which each value (in decibels where asked) stands at its own time and frequency; default limits of colours leave out at most a twentieth of the values on each side, or none; the scales of the axis have inverses and keep higher frequencies higher; drawings are saved where asked.", "quantifier": "all axes, values, polarisations, keywords, numbers of panels and names of scales", "why_tests_cant": "Which of the three drawings is made depends on comparisons of sizes, which coincide for some shapes only; whether keywords are accepted depends on the shape; the suite draws nothing.", "anchors": ["nenupy/io/io_tools.py: ST_Slice.plot", "nenupy/beamlet/sdata.py: SData.plot", "nenupy/io/tf_utils.py: ReducedSpectraSlice.plot", "nenupy/io/tf_utils.py: ReducedSpectraSlice.multi_plot", "nenupy/io/tf_utils.py: plot_dynamic_spectrum"]}
{"id": "C178", "title": "The matrix of correlations shows each pair at its own mini-arrays", "statement": "For every selection of mini-arrays, `XST_Slice.plot_correlaton_matrix` draws the mean over times and frequencies of each pair at the column and the row of the numbers of its mini-arrays, whichever numbers are missing, and leaves all other cells (and the diagonal if it is masked) empty.", "quantifier": "all sets of mini-arrays, orders of selection, numbers of times and frequencies and values", "why_tests_cant": "Numbers of rows and columns come from shifting indices once for each missing number; this is right for all gaps only by an invariant, and tests have no drawing.", "anchors": ["nenupy/io/xst.py: XST_Slice.plot_correlaton_matrix", "nenupy/io/xst.py: Crosslet.get"]}
{"id": "C179", "title": "The drawing of a pointing shows its direction, its beam and the sources in the sky", "statement": "For every time, pointing file and frequency, `plot_current_pointing` adds the beams of mini-arrays whose rotations stand for all rotations of the array, exactly once each; it normalises their sum, draws contours from the 98th percentile to the maximum, and the sources over the horizon, around the direction which holds at this time (the zenith without a file or outside of it). A sky model gives a `Sky` for any times and frequencies.", "quantifier": "all times, files of pointings, frequencies, beams, percentiles, altitudes of sources, figure names, and numbers of times, frequencies and directions", "why_tests_cant": "The choice of six mini-arrays is right only by all rotations of the table; contour levels depend on a logarithm of any beam; tests do not draw.", "anchors": ["nenupy/observation/obs_tools.py: plot_current_pointing", "nenupy/astro/skymodel.py: Skymodel.to_sky"]}
{"id": "C180", "title": "The drawing of a block tells its programme, its number, its quality and its path", "statement": "For every block: the programme is accepted in any case exactly if it is one of the known codes, as those of the topics of parsets; the title gives the number, the programme and the start of the name, so that different blocks have different titles; the status is good, medium or bad by its score, which is always from 0 to 1 and 0 if the block is not booked, and agrees with the score written next to it; the path of the target is drawn from the start to the end of the block.", "quantifier": "all programmes, numbers, names, weights and scores of constraints, times and numbers of points", "why_tests_cant": "Titles are cut and joined: that they stay different is a statement on all pairs of blocks; scores are means of any number of constraints.", "anchors": ["nenupy/schedule/obsblocks.py: ObsBlock.program, ObsBlock.title, ObsBlock.kpColor", "nenupy/schedule/schedule.py: ScheduleBlock.score, ScheduleBlock.statusColor, ScheduleBlock.plot"]}
{"id": "C181", "title": "Options and overlays of the drawing of a sky", "statement": "For every sky which is drawn: the new axes take the place of those given and the others stay; the opacity of each pixel is from 0 to 1 in the proportion of what is given, and an opacity of zero is transparent; limits of colours are those given or the least and greatest value of the image, and finite; all coverages, marks, texts and contours which are given are drawn, each text at its direction and contours over the whole image; malformed arguments are refused; only the figure of the drawing is opened and closed.", "quantifier": "all images, opacities, limits, numbers of coverages and texts, resolutions, radii, names of figures", "why_tests_cant": "Each option depends on the sizes of lists and images; contours cover the image at all resolutions or none.", "anchors": ["nenupy/astro/sky.py: SkySliceBase.plot, SkySlice._compute_wcs, HpxSkySlice._compute_wcs"]}
{"id": "C182", "title": "Description of a file of reduced data", "statement": "For every file of reduced data: the description tells the number of each beam in increasing order, and for each beam exactly the datasets which can be read from it, with their sizes, whatever their names; two indices give the whole beam, any other number of indices is refused.", "quantifier": "all files, numbers of beams, names and numbers of datasets, sizes, indices", "why_tests_cant": "The datasets told depend on the alphabetical order of the names in the file, and on names with a slash: a test with the usual names sees nothing of it.", "anchors": ["nenupy/io/tf_utils.py: ReducedSpectra.info, ReducedSpectra.__getitem__, store_dask_tf_data"]}
{"id": "C183", "title": "Table of the mini-arrays made from the spreadsheet", "statement": "For every spreadsheet: each row which is not marked as unbuilt gives the entry of its mini-array, with its number, rotation, longitude, latitude (south as negative), height, position, delay and attenuation; unbuilt ones are left out; two rows with the same number, or rows without a number or rotation, are refused; the file of the package is replaced only when asked for and confirmed.", "quantifier": "all sheets: rows, marks, texts of angles, numbers; answers of the user", "why_tests_cant": "Depends on the marks of all rows together and on texts of angles; the real sheet is one point of the domain.", "anchors": ["nenupy/instru/instrument_tools.py: nenufar_mini_array_json_from_spreadsheet"]}
{"id": "C184", "title": "Title, place and selection of an event drawn on a calendar", "statement": "For every event which is drawn: its box is from its begin to its end; its title is its name, cut in lines of the length asked for without loss; on the pages of months the title is written on exactly one line, that of the middle of the event; a click selects the one event at this place and unselects the others, a click out of the lines changes nothing; only drawn events can be clicked.", "quantifier": "all names, sizes of lines, events, months, sequences of clicks", "why_tests_cant": "Titles depend on lengths and on the place of the middle of long events; selections on whole histories of clicks.", "anchors": ["nenupy/schedule/open_time.py: NenuEvent.draw, NenuEvent.contains, NenuEvent._on_click, NenuEvent.connect_to_plot_events, NenuCalendar.month_plot"]}
{"id": "C185", "title": "Places of the sources of a contamination map", "statement": "For every list of sources: a body of the Solar System (in any case of letters) follows its ephemeris at every time, `altaz:(azimuth,altitude)` is this place of the local sky at every time, any other name is resolved and does not move. Positions are found exactly when every source has a place, in the order of the sources; the first source without a place stops the computation with its own error and leaves the object as it was. The map then counts exactly the names whose place is in the lobes.", "quantifier": "all lists of names, texts, answers of the ephemerides and of the resolution of names, beams, thresholds", "why_tests_cant": "Names are free text: brackets, cases, commas and wrong numbers may come in any combination and any position of the list.", "anchors": ["nenupy/schedule/contamination.py: BeamLobes._get_skycoord_array, BeamLobes.sources_in_lobes, BeamLobes.compute_weight_moc", "nenupy/astro/astro_tools.py: SolarSystemSource, solar_system_source"]}
{"id": "C186", "title": "Files are recognised by their names, and exported ones are not confused", "statement": "A lane file, a raw lane file or a parset file is taken exactly if it is there and its name has the form which is documented, and the lane read in it is the one written in the name, whatever the number of digits; a parset_user file which was written can be read; JSON files exported from different parset files in one directory are all kept; a spreadsheet which is converted gives a calendar file.", "quantifier": "all texts as names, all sets of existing files, all lists of parset files exported one after the other in one directory", "why_tests_cant": "tests use names of the observatory, with lanes of one digit and one directory; which texts are accepted by a pattern with an unescaped dot, or which pairs of names collide, is a question about all texts", "anchors": ["nenupy/undysputed/dynspec.py:_Lane.lanefile", "nenupy/undysputed/waveform.py:_RawLane.rawlanefile", "nenupy/observation/parset.py:Parset.parset", "nenupy/observation/parset.py:Parset.to_json", "nenupy/observation/parset.py:ParsetUser.write", "nenupy/schedule/open_time.py:excel_to_ics"]}
{"id": "C187", "title": "The history of a genetic search is drawn as it happened", "statement": "Plotting a genetic search shows each generation which was evaluated once, in order, with the fitness of the best individual of its population, and every individual with a nonzero fitness at its generation; this holds however many times the search was continued.", "quantifier": "all fitness functions, random draws, arguments and populations, any number of calls to evolve on one object before the plot", "why_tests_cant": "the number of generations depends on the random draws and on which of three conditions stops the search; a test would have to know how many generations were run and to look at a figure", "anchors": ["nenupy/schedule/geneticalgo.py:GeneticAlgorithm.plot", "nenupy/schedule/geneticalgo.py:GeneticAlgorithm.generations", "nenupy/schedule/geneticalgo.py:GeneticAlgorithm.evolve"]}
{"id": "C188", "title": "The picture of a near-field shows every pixel and every source where it is, and only shows it", "statement": "Drawing a near-field puts every pixel where it was computed on the ground, writes the name of each source at the brightest pixel of its imprint, or, if that pixel is at the border, away from the border, independently of the other sources; and the near-field is the same after the drawing as before.", "quantifier": "all near-fields and imprints with positive maxima, numbers of pixels, radii, numbers and orders of sources, repeated drawings", "why_tests_cant": "the array of distances is shared and changed by the sources drawn one after the other, so a wrong place may only show for some orders of sources; tests look at neither the texts on a figure nor the object after it was drawn", "anchors": ["nenupy/io/xst.py:TV_Nearfield.save_png"]}
{"id": "C189", "title": "The picture of a NenuFAR-TV image names the known sources which it shows", "statement": "In the picture of a NenuFAR-TV image, a listed radio source is named exactly when it lies within the radius which is drawn, and the keywords passed on to the plot (texts, contours, centre, radius, label) have the effect they have for a sky.", "quantifier": "all fields of view, lists of sources and separations from the centre, options and keywords", "why_tests_cant": "which sources are in the field depends on the pointing and on the time; a test uses one field of view and looks at no text on a figure", "anchors": ["nenupy/io/xst.py:TV_Image.save_png", "nenupy/io/nenufar_tv_sources.json"]}
{"id": "C190", "title": "Two sets of SST files are equal exactly when they hold the same files", "statement": "Comparing two sets of SST files answers True exactly when both hold files of the same names, False otherwise, whichever side each is written on; comparing with any other object answers False.", "quantifier": "all sets of files (any number, directories, repetitions, pointing files) and all other objects, joined and reduced in any way", "why_tests_cant": "an asymmetric comparison answers rightly for equal sets and for sets which do not overlap; a test of a few pairs compares in one direction", "anchors": ["nenupy/beamlet/sstdata.py:SST_Data.__eq__"]}
{"id": "C191", "title": "Smoothing a curve removes what stands out and nothing else", "statement": "Smoothing a curve keeps its length and its range of values, leaves flat curves as they are, does not depend on the gain and offset of the curve, settles after enough passes, and takes out a lone sample which stands out, above or below; a window longer than the curve is refused.", "quantifier": "all curves, window lengths, clipping levels and numbers of passes (not negative)", "why_tests_cant": "each pass depends on medians and deviations of all the windows around a sample and the window changes between passes; a test looks at one noisy curve", "anchors": ["nenupy/io/io_tools.py:ST_Slice._smooth_data"]}
{"id": "C192", "title": "The global sky model is put on a sky at the frequencies asked for", "statement": "A sky filled with the global sky model has, at every time, in every pixel and for every frequency, the model at that frequency in equatorial coordinates, whatever unit the frequency is written in and whatever the other frequencies are; frequencies outside of the model are refused; a sky made in the shape of another one has its shape.", "quantifier": "all frequencies with their units, numbers of times, resolutions and models", "why_tests_cant": "a test looks at one frequency in MHz; the result depends on the unit and on the other frequencies of the list", "anchors": ["nenupy/astro/skymodel.py:HpxGSM", "nenupy/astro/skymodel.py:HpxGSM._generate_gsm_map", "nenupy/astro/skymodel.py:HpxGSM.shaped_like", "nenupy/astro/skymodel.py:Skymodel._load_gsm"]}
{"id": "C193", "title": "The horizon written for an image of the sky is complete", "statement": "The region file of the horizon holds one closed polygon, of points on the horizon evenly spaced in azimuth from the north round to the north, whose coordinates are read back in order from the text; no direction of the horizon is far from a point of it.", "quantifier": "all times and positions (all texts of coordinates without comma), all azimuths", "why_tests_cant": "a test looks at one file; the spacing of the points and the reading back hold for all directions and all texts", "anchors": ["nenupy/astro/astro_tools.py:draw_horizon_ds9_region"]}
{"id": "C194", "title": "Gains of the antennas of the Decameter Array", "statement": "For every sky, the gain of an antenna of the Decameter Array is from 0 to 1, has one value for each time, frequency, polarisation and coordinate, follows the sky with time, tells the left and right polarisations apart, and is zero below the horizon.", "quantifier": "all skies: times, frequencies, polarisations (valid or not) and directions; all weights of interpolation", "why_tests_cant": "a test looks at one direction and one time; the sign below the horizon and the order of the axes hold for all", "anchors": ["nenupy/instru/nda.py:_NDAAntennaGain", "nenupy/instru/nda.py:NDA._antenna_gain"]}
{"id": "C195", "title": "Parts of slices", "statement": "Taking a part of a data slice with two Python slices gives exactly the samples named, under their own times and frequencies, for tables, light curves and spectra; a slice cut in two is given back when its parts are joined; the slice can be made a data set, before or after the part is taken; other indices are refused.", "quantifier": "all slices (tables, light curves, spectra), all Python slices (any bounds and steps), all cuts", "why_tests_cant": "a test takes one part of one table; negative bounds and steps, empty parts and joined parts are families of inputs", "anchors": ["nenupy/io/io_tools.py:ST_Slice.__getitem__", "nenupy/io/io_tools.py:ST_Slice.sdata", "nenupy/io/io_tools.py:ST_Slice.__and__", "nenupy/io/io_tools.py:ST_Slice.__or__"]}
{"id": "C196", "title": "Sky models in local coordinates", "statement": "A map of a sky model in azimuth and elevation has the size asked for; its directions run in equal steps from the horizon to the zenith and around the whole horizon, its values are those of the model in these directions, each direction once, and every direction above the horizon is within half a step of one of the map. A sky made from the model has the values of the model at all its times, frequencies and directions.", "quantifier": "all sky models, all numbers of azimuths and elevations, all directions, all lists of frequencies and directions, all numbers of times", "why_tests_cant": "a test makes one map of one size; the coverage of all directions at all sizes is a statement over infinitely many inputs", "anchors": ["nenupy/astro/skymodel.py:Skymodel.altaz_map_at", "nenupy/astro/skymodel.py:Skymodel.to_sky", "nenupy/astro/skymodel.py:Skymodel.radec_project"]}
{"id": "C197", "title": "Limit on the volume of the data", "statement": "A request for data returns what its tasks compute if it is below 2 GiB or if the limit is to be ignored, and returns nothing otherwise; it is stored in a file whatever its volume. Data that are asked to be de-dispersed are de-dispersed, or an exception tells that they are not.", "quantifier": "all tables (any numbers of times, frequencies, polarisations and bytes), all lists of tasks before and after the de-dispersion, all dispersion measures, results returned or stored", "why_tests_cant": "the limit concerns data of 2 GiB and more, which no test of the suite handles; the order of the tasks is free", "anchors": ["nenupy/io/tf.py:Spectra.get", "nenupy/io/tf.py:TFTask.de_disperse", "nenupy/io/tf.py:Spectra._data_to_numpy_array"]}
{"id": "C198", "title": "Events crossing an event of a calendar", "statement": "The events of a calendar which cross one of its events are counted: those before it and those after it, in the order of the calendars, together all other events with an instant in common; none is counted exactly when there is none; the total does not depend on the order.", "quantifier": "all lists of calendars of events of positive length, all events, all orders", "why_tests_cant": "the number and order of the events are unbounded; the events of a calendar are a set, gone through in any order", "anchors": ["nenupy/schedule/open_time.py:NenuCalendar._n_intersections_event", "nenupy/schedule/open_time.py:NenuCalendar._time_intersection"]}
{"id": "C199", "title": "Limits of the figure of a UV coverage", "statement": "The figure of a UV coverage is a square which contains all the baselines, with 1% of their extent as a margin on each side; it is centred on zero when each baseline is there in both directions; in wavelengths it is the figure in metres divided by the wavelength; it always has a width.", "quantifier": "all coverages, all wavelengths", "why_tests_cant": "the figure depends on the extreme coordinates of any number of baselines, times and frequencies", "anchors": ["nenupy/astro/uvw.py:UV_Coverage.plot"]}
