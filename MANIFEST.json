{
 "claims": [
  {
   "property": "C01",
   "status": "proved",
   "theorems": [
    "Verif.Scheduler.no_double_booking",
    "Verif.Scheduler.heuristic_no_double_booking"
   ],
   "note": "Every reachable state of any history of insertions, reservations, bookings and extensions."
  },
  {
   "property": "C02",
   "status": "partial",
   "theorems": [
    "Verif.Scheduler.booked_inside",
    "Verif.Scheduler.heuristic_off_reserved",
    "Verif.Scheduler.slot_accounting",
    "Verif.Scheduler.reservation_over_booked_violated",
    "Verif.Scheduler.reservation_lost_violated"
   ],
   "note": "Holds for every history; a reservation placed over an already booked observation is lost at the next booking (violated)."
  },
  {
   "property": "C03",
   "status": "partial",
   "theorems": [
    "Verif.Scheduler.heuristic_first_best_partial",
    "Verif.Scheduler.last_start_violated",
    "Verif.Scheduler.rebook_violated",
    "Verif.Scheduler.book_raises",
    "Verif.Scheduler.excluded_forever_violated",
    "Verif.Scheduler.excluded_by"
   ],
   "note": "Exact argmax characterisation over all starts but the last one; the code never considers the last start (violated), and blocks can stay excluded after a booking without reset (violated)."
  },
  {
   "property": "C04",
   "status": "partial",
   "theorems": [
    "Verif.Scheduler.processing_delay_respected",
    "Verif.Scheduler.processing_delay_violated",
    "Verif.Scheduler.extension_delay_violated",
    "Verif.Scheduler.extension_delay_all_violated"
   ],
   "note": "Holds for a first booking; fails on a second booking (counters corrupted by reset) and on extension."
  },
  {
   "property": "C05",
   "status": "partial",
   "theorems": [
    "Verif.Scheduler.reset_restores_slots",
    "Verif.Scheduler.reset_counters_partial",
    "Verif.Scheduler.reset_counters_violated",
    "Verif.Scheduler.genetic_leak_violated",
    "Verif.Scheduler.genetic_leak_all_violated",
    "Verif.Scheduler.genetic_unbooks_violated",
    "Verif.Scheduler.rebook_violated",
    "Verif.Scheduler.excluded_forever_violated"
   ],
   "note": "Slot availability is restored exactly; processing counters are not when a delay is set."
  },
  {
   "property": "C06",
   "status": "proved",
   "theorems": [
    "Verif.Scheduler.no_double_booking",
    "Verif.Scheduler.genetic_no_double_booking",
    "Verif.Scheduler.bookGA_succeeds",
    "Verif.Scheduler.boundGene_fits",
    "Verif.Scheduler.genetic_conflict_violated",
    "Verif.Scheduler.bookGA_strict_violated",
    "Verif.Scheduler.slot_accounting",
    "Verif.Scheduler.cleanup_order",
    "Verif.Scheduler.stable_order_unique",
    "Verif.Scheduler.cleanup_exact",
    "Verif.Scheduler.worse_kept_violated"
   ],
   "note": "Disjointness for every genome, moves and scores. Side findings: conflicts are won by the lower-scored block; when only very_strict removes every block the call raises a TypeError."
  },
  {
   "property": "C07",
   "status": "partial",
   "theorems": [
    "Verif.Scheduler.reservation_last_call_wins",
    "Verif.Scheduler.reservations_counted_partial",
    "Verif.Scheduler.reservations_counted_violated",
    "Verif.Scheduler.remove_over_booked_violated",
    "Verif.Scheduler.removal_frees_violated"
   ],
   "note": "Exact behaviour of the code for all histories; the counting property holds for reservations sharing no slot and is false for overlapping ones."
  },
  {
   "property": "C08",
   "status": "proved",
   "theorems": [
    "Verif.Scheduler.slots_partition",
    "Verif.Scheduler.time_lookup_exact",
    "Verif.Scheduler.range_lookup_exact",
    "Verif.Scheduler.overlap_iff_common_time"
   ],
   "note": ""
  },
  {
   "property": "C09",
   "status": "partial",
   "theorems": [
    "Verif.Scheduler.free_windows_exact",
    "Verif.Scheduler.free_windows_malformed",
    "Verif.Scheduler.free_windows_overlapping",
    "Verif.Scheduler.free_windows_atomic_violated",
    "Verif.Scheduler.touching_windows_violated",
    "Verif.Scheduler.free_windows_half_violated",
    "Verif.Scheduler.free_windows_two_violated"
   ],
   "note": "Exact for sorted windows separated by gaps; windows that touch lose the slot of contact, and a refused call leaves reservations behind."
  },
  {
   "property": "C10",
   "status": "partial",
   "theorems": [
    "Verif.Scheduler.shift_success_partial",
    "Verif.Scheduler.shift_exact",
    "Verif.Scheduler.shift_edge_violated",
    "Verif.Scheduler.shift_one",
    "Verif.Scheduler.shift_duration",
    "Verif.Scheduler.shift_atomic_violated",
    "Verif.Scheduler.shift_raises_violated",
    "Verif.Scheduler.shift_earlier_violated"
   ],
   "note": "All outcomes of a shift are exact, with slots and counters; failing shifts are not atomic, blocks whose processing time reaches over an end cannot be shifted, and shifting earlier by a duration moves later (violated)."
  },
  {
   "property": "C100",
   "status": "partial",
   "theorems": [
    "Verif.Parset.duration_accepted",
    "Verif.Parset.duration_understood",
    "Verif.Parset.delta_accepted",
    "Verif.Parset.start_accepted",
    "Verif.Parset.start_refused_violated",
    "Verif.Parset.start_impossible_violated",
    "Verif.Parset.bool_accepted",
    "Verif.Parset.ma_numbers_accepted",
    "Verif.Parset.receivers_violated",
    "Verif.Parset.target_accepted",
    "Verif.Parset.target_blank_violated"
   ],
   "note": "Exact languages of durations, dates and lists of numbers; dates from 2030 on are refused, impossible dates accepted, no list of imager receivers is accepted, and names of targets with spaces, as documented, are refused (violated)."
  },
  {
   "property": "C101",
   "status": "partial",
   "theorems": [
    "Verif.Parset.reread_exact",
    "Verif.Parset.block_lines",
    "Verif.Parset.load_exact",
    "Verif.Parset.load_succeeds_iff",
    "Verif.Parset.load_analog_reread",
    "Verif.Parset.load_beam_reread",
    "Verif.Parset.load_center_reread",
    "Verif.Parset.load_structure_partial",
    "Verif.Parset.reload_empty_violated",
    "Verif.Parset.reload_negative_violated",
    "Verif.Parset.load_order_violated",
    "Verif.Parset.load_gap_violated",
    "Verif.Parset.load_duration_violated",
    "Verif.Parset.load_default_beam"
   ],
   "note": "Exact condition of success and round trip of all values for all files, except empty lists and negative numbers; analog beams not listed by number from zero lose or exchange their beams, and durations in minutes are then refused (violated)."
  },
  {
   "property": "C102",
   "status": "partial",
   "theorems": [
    "Verif.Parset.replay_start_refused",
    "Verif.Parset.filter_times_refused",
    "Verif.Parset.start_same_hour",
    "Verif.Parset.shift_exact",
    "Verif.Parset.replay_start_partial",
    "Verif.Parset.replay_past_violated",
    "Verif.Parset.same_lst_violated",
    "Verif.Parset.beam_replayed",
    "Verif.Parset.replay_analog_partial",
    "Verif.Parset.replay_j2000_violated",
    "Verif.Parset.replay_beam_violated",
    "Verif.Parset.replay_pointing_violated",
    "Verif.Parset.transit_next",
    "Verif.Parset.transit_nearest_violated",
    "Verif.Parset.receivers_exact",
    "Verif.Parset.filter_times_replayed",
    "Verif.Parset.aim_written"
   ],
   "note": "Exact shift and values of the beams of every replay that succeeds; the start may be before the time asked for, the same sidereal time is never available, tracked J2000 and fixed directions are refused, and the transit is the next one, not the nearest (violated)."
  },
  {
   "property": "C103",
   "status": "partial",
   "theorems": [
    "Verif.Parset.version_exact",
    "Verif.Parset.recent_exact",
    "Verif.Parset.version_missing",
    "Verif.Parset.version_number_violated",
    "Verif.Parset.topic_lost_violated",
    "Verif.Parset.export_violated",
    "Verif.Parset.export_fields_partial",
    "Verif.Parset.export_pointings_partial",
    "Verif.Parset.recent_single",
    "Verif.Parset.core_exact",
    "Verif.Parset.remote_lost",
    "Verif.Parset.remote_nickel_violated",
    "Verif.Parset.export_start_refused",
    "Verif.Parset.bands_refused",
    "Verif.Parset.bands_alone_refused",
    "Verif.Parset.parameters_refused",
    "Verif.Parset.polars_exact",
    "Verif.Parset.source_refused",
    "Verif.Parset.lists_refused",
    "Verif.Parset.filters_refused",
    "Verif.Parset.beam_numbers",
    "Verif.Parset.xst_numbers",
    "Verif.Parset.userfile_exact"
   ],
   "note": "Exact versions of two numbers or more, and exact fields and pointings for any reading of durations; as durations are read, no file with an analog beam can be exported, topics are always lost, versions of one number fail, and remote mini-arrays are removed also from the fields which use them (violated)."
  },
  {
   "property": "C104",
   "status": "partial",
   "theorems": [
    "Verif.Parset.tf_receiver_exact",
    "Verif.Parset.tf_receiver_default",
    "Verif.Parset.fold_receiver_exact",
    "Verif.Parset.nickel_receiver_exact",
    "Verif.Parset.standard_receiver",
    "Verif.Parset.tf_receiver_violated",
    "Verif.Parset.single_receiver_violated",
    "Verif.Parset.old_nickel_violated"
   ],
   "note": "Exact for all lists of options of time-frequency and folding beams; one missing step empties the receiver, single pulses without averaging fail, and the imager of old files is always added, under its own name and without receiver (violated)."
  },
  {
   "property": "C105",
   "status": "partial",
   "theorems": [
    "Verif.Cnst.longest_run_exact",
    "Verif.Cnst.longest_run_exists",
    "Verif.Cnst.relaxed_exact_partial",
    "Verif.Cnst.relaxed_single_partial",
    "Verif.Cnst.relaxed_none_violated",
    "Verif.Cnst.relaxed_all_violated",
    "Verif.Cnst.relaxed_short_violated",
    "Verif.Cnst.relaxed_above_violated",
    "Verif.Cnst.limit_hits_both"
   ],
   "note": "Exact longest row without crossing for all masks and closed form of the scores; a schedule without crossing and with an even number of slots fails, as one where every slot is a crossing; rows of one slot give no score, and a crossing at the limit of two slots gives scores above 1 (violated)."
  },
  {
   "property": "C106",
   "status": "partial",
   "theorems": [
    "Verif.Cnst.window_slots",
    "Verif.Cnst.window_blind",
    "Verif.Cnst.window_evaluate",
    "Verif.Cnst.extension_slots_partial",
    "Verif.Cnst.last_slot_violated",
    "Verif.Cnst.extension_violated",
    "Verif.Cnst.one_slot_violated",
    "Verif.Cnst.perfect_violated",
    "Verif.Cnst.odd_first_violated"
   ],
   "note": "For all blocks, sound constraints and thresholds, every slot of a kept window but the last one meets the constraints, and its score is above the threshold; the last slot is never looked at, so a reachable schedule extends a block out of its range of dates; by default an extension by one slot, or of an observation with perfect scores, is never kept, nor is that of a block with an odd number of slots at the beginning of its range (violated). Missing: windows cut by other observations are not evaluated again."
  },
  {
   "property": "C107",
   "status": "partial",
   "theorems": [
    "Verif.Cnst.own_scores_partial",
    "Verif.Cnst.shared_constraints_violated",
    "Verif.Cnst.second_schedule_violated"
   ],
   "note": "Own scores for all lists of blocks whose constraints are not shared nor used before, without night constraint; blocks that share their constraints all get the scores of the first, and a block given to a second schedule keeps those of the first one (violated)."
  },
  {
   "property": "C108",
   "status": "partial",
   "theorems": [
    "Verif.Astro.transit_sound",
    "Verif.Astro.transit_found_partial",
    "Verif.Astro.transit_linear",
    "Verif.Astro.last_before",
    "Verif.Astro.transit_last_violated",
    "Verif.Astro.transit_day_violated",
    "Verif.Astro.transit_first_violated"
   ],
   "note": "Sound for all sources, steps and durations, complete between the first and the last sample, exact for regular motions; nothing is found in the last step of the period nor at its first time, so that the only transit of a day can be missed (violated)."
  },
  {
   "property": "C109",
   "status": "partial",
   "theorems": [
    "Verif.Cnst.sidereal_range",
    "Verif.Cnst.hour_angle_range",
    "Verif.Cnst.lst_slot_partial",
    "Verif.Cnst.transit_slot",
    "Verif.Cnst.lst_reached",
    "Verif.Cnst.lst_lost_violated",
    "Verif.Cnst.sidereal_above_violated"
   ],
   "note": "Exact for all dates, right ascensions, slots of less than half a day and sidereal times from 8 min 46 s on; smaller sidereal times are given as 24 h and more, and are never found by schedules with short slots (violated). Left out: hour angles of exactly 360 degrees."
  },
  {
   "property": "C11",
   "status": "proved",
   "theorems": [
    "Verif.Scheduler.export_exact"
   ],
   "note": ""
  },
  {
   "property": "C110",
   "status": "partial",
   "theorems": [
    "Verif.IO.open_good",
    "Verif.IO.add_good",
    "Verif.IO.sum_good",
    "Verif.IO.limits_exact",
    "Verif.IO.sub_good_partial",
    "Verif.IO.range_bounds",
    "Verif.IO.file_exact",
    "Verif.IO.select_one_partial",
    "Verif.IO.pointed_violated",
    "Verif.IO.all_mas_violated",
    "Verif.IO.sub_same_name_violated",
    "Verif.IO.sub_twice_violated",
    "Verif.IO.set_ma_violated",
    "Verif.IO.select_violated",
    "Verif.IO.sub_pointed_violated",
    "Verif.IO.no_limits",
    "Verif.IO.set_ma_exact",
    "Verif.IO.polar_exact",
    "Verif.IO.range_kept",
    "Verif.IO.range_reset",
    "Verif.IO.range_empty_violated"
   ],
   "note": "Usable for all sets opened, joined and summed, with exact limits, and for removals when base names differ and no file is listed twice; removals mix files of the same base name, sets with pointing files cannot be combined, and `select` can never return on an opened set, since a mini-array can neither be chosen nor left out (violated). Left out: ranges of several dimensions, the names of the mini-arrays."
  },
  {
   "property": "C111",
   "status": "partial",
   "theorems": [
    "Verif.Contam.lobes_exact_partial",
    "Verif.Contam.sources_counted",
    "Verif.Contam.lobes_grow",
    "Verif.Contam.weights_exact",
    "Verif.Contam.model_reported",
    "Verif.Contam.rotations_kept",
    "Verif.Contam.rotations_summed",
    "Verif.Contam.rotations_default",
    "Verif.Contam.plot_index",
    "Verif.Contam.rotations_empty_violated",
    "Verif.Contam.horizon_violated",
    "Verif.Contam.pointings_violated",
    "Verif.Contam.weights_then_sources_violated",
    "Verif.Contam.plot_first_violated"
   ],
   "note": "Exact for all maps, thresholds, sources and rotations when every pointing is above the horizon; one pointing at or below the horizon empties the lobes of all times, or prevents the computation when there are not as many pointings as times; weights replace the coverage so that sources cannot be searched afterwards; an empty list of rotations and a drawing before any search fail (violated). Left out: astropy, healpy and mocpy; cells whose array factor is zero everywhere."
  },
  {
   "property": "C112",
   "status": "partial",
   "theorems": [
    "Verif.Contam.add_exact",
    "Verif.Contam.floats_back",
    "Verif.Contam.bytes_back_partial",
    "Verif.Contam.roll_none",
    "Verif.Contam.roll_sorted",
    "Verif.Contam.bytes_counts_violated",
    "Verif.Contam.bytes_change_violated",
    "Verif.Contam.bytes_twice_violated",
    "Verif.Contam.roll_violated"
   ],
   "note": "Exact for floats, within 1/255 for weights in bytes, in order for axes which go back at most once; numbers of sources wrap modulo 256 in bytes, and a byte export replaces the values of the map, so that a second file differs (violated); sidereal times of more than a day are drawn out of order (violated). Left out: rounding of floats, axes of length 1 extended in sums."
  },
  {
   "property": "C113",
   "status": "partial",
   "theorems": [
    "Verif.Cal.parse_exact",
    "Verif.Cal.sheet_exact",
    "Verif.Cal.sheet_read",
    "Verif.Cal.info_adds_up",
    "Verif.Cal.info_by_project",
    "Verif.Cal.booking_counted",
    "Verif.Cal.info_events",
    "Verif.Cal.strict_booking",
    "Verif.Cal.drawn_accepted",
    "Verif.Cal.drawn_reported",
    "Verif.Cal.unread_violated",
    "Verif.Cal.counted_unread_violated",
    "Verif.Cal.drawn_violated"
   ],
   "note": "Exact events and totals for all spreadsheets whose texts are all understood; one text which is not understood stops the reading of the whole file, and such a text can be counted by `info` without any error (violated). A booking drawn on the cells it touches is never reported; one drawn on a cell too many or too few may not be (violated). Left out: merging of the events, the order of the texts of a day, texts out of ASCII; the reading of hours as angles is a parameter."
  },
  {
   "property": "C114",
   "status": "partial",
   "theorems": [
    "Verif.Cal.name_project",
    "Verif.Cal.csv_exact",
    "Verif.Cal.csv_read",
    "Verif.Cal.ics_last",
    "Verif.Cal.ics_partial",
    "Verif.Cal.xls_last",
    "Verif.Cal.shift_exact",
    "Verif.Cal.shift_back",
    "Verif.Cal.page_partial",
    "Verif.Cal.name_violated",
    "Verif.Cal.ics_violated",
    "Verif.Cal.xls_violated",
    "Verif.Cal.key_violated",
    "Verif.Cal.page_violated",
    "Verif.Cal.slot_bounds"
   ],
   "note": "Exact for all CSV files, and for calendars and spreadsheets of different projects; with the same project in two of them the events of the first are lost, a name such as RESULTS_… is taken for a project, every key press which moves an event raises an error, and events over three months or a year are not drawn on all their pages (violated)."
  },
  {
   "property": "C115",
   "status": "partial",
   "theorems": [
    "Verif.IO.rebin_mean_exact",
    "Verif.IO.rebin_missing",
    "Verif.IO.rebin_profile",
    "Verif.IO.rebin_fine",
    "Verif.IO.rebin_bins_violated",
    "Verif.IO.rebin_channels",
    "Verif.IO.rebin_one_missing_violated",
    "Verif.IO.rebin_again_violated",
    "Verif.IO.rebin_gap_violated"
   ],
   "note": "Exact means and centres for all regular axes without missing values; for all missing values and both methods a bin is missing exactly when all its values are, and lies between them. With missing values the result is a mean of means (or a median of medians), a slice averaged to one value cannot be averaged again, and gaps in time are not seen (violated). Left out: rounding of floats, which can make regular frequencies look irregular."
  },
  {
   "property": "C116",
   "status": "partial",
   "theorems": [
    "Verif.IO.flatten_one",
    "Verif.IO.flatten_gain",
    "Verif.IO.clean_exact",
    "Verif.IO.switch_exact",
    "Verif.IO.pointing_unique",
    "Verif.IO.background_partial",
    "Verif.IO.fbackground_one",
    "Verif.IO.other_exact",
    "Verif.IO.clean_constant_violated",
    "Verif.IO.switch_step_violated",
    "Verif.IO.background_violated",
    "Verif.IO.background_missing_violated"
   ],
   "note": "Flattening, cleaning, switches and arithmetic exact for all tables; data which do not vary are removed entirely by cleaning, the default correction of switches fails for samples of 144 s and more, the background has a different scale for each polarisation and fails when a value is missing (violated). Left out: finding the peaks, fitting the models, the fit of the background with missing values and one polarisation; a division by zero is taken as missing."
  },
  {
   "property": "C117",
   "status": "partial",
   "theorems": [
    "Verif.Instru.ref_exact",
    "Verif.Instru.ref_found",
    "Verif.Instru.ref_self",
    "Verif.Instru.ref_refused",
    "Verif.Instru.response_partial",
    "Verif.Instru.centre_response_violated"
   ],
   "note": "Exact references for all dipoles, and at least one for each of them; but the response is read for the requested polarisation in the file of the first reference, whatever its polarisation: for every mini-array turned by 40 or 50 degrees (modulo 60) the central antenna is given the response of a dipole which is not like it (violated). Left out: the tolerance of the comparisons, the content of the files."
  },
  {
   "property": "C118",
   "status": "partial",
   "theorems": [
    "Verif.Instru.interp_segment",
    "Verif.Instru.interp_range",
    "Verif.Instru.sky_scaling",
    "Verif.Instru.inst_range",
    "Verif.Instru.sys_exact",
    "Verif.Instru.sefd_partial",
    "Verif.Instru.sefd_source_violated",
    "Verif.Instru.sefd_elevation",
    "Verif.Instru.below_horizon_violated",
    "Verif.Instru.beam_noise",
    "Verif.Instru.image_noise",
    "Verif.Instru.image_below_beam_violated",
    "Verif.Instru.longest_exact",
    "Verif.Instru.resolution_exact",
    "Verif.Instru.resolution_one",
    "Verif.Instru.confusion_scaling",
    "Verif.Instru.wave_speed"
   ],
   "note": "Temperatures, resolution, confusion and scaling laws exact for all inputs; the flux density is the documented one without source, or at the zenith with full efficiency: otherwise the temperature of the sources is taken at the zenith with full efficiency, and the result is too high (violated). Below the horizon it is negative and nothing is refused; the noise of an image is below that of the coherent beam of the same antennas, since the flux density of the whole array stands for that of one antenna (violated). Left out: units, rounding of floats; the tables of the amplifier and the effective area are parameters."
  },
  {
   "property": "C119",
   "status": "partial",
   "theorems": [
    "Verif.Instru.area_elevation",
    "Verif.Instru.area_refused",
    "Verif.Instru.area_range",
    "Verif.Instru.area_frequency",
    "Verif.Instru.area_positive",
    "Verif.Instru.area_shift",
    "Verif.Instru.area_array",
    "Verif.Instru.area_single",
    "Verif.Instru.area_union",
    "Verif.Instru.union_apart",
    "Verif.Instru.union_range",
    "Verif.Instru.area_others_violated",
    "Verif.Instru.area_overlap_violated"
   ],
   "note": "For all positions, frequencies and elevations: sine law, shifts, monotony in frequency within one call, at most the rectangle around the discs, positive; one antenna has the area of a dipole within 1/2000; for any number of antennas the result is the Lebesgue measure of the union of the discs within n π d (2 r + d), d being half a diagonal of the grid, and discs apart from one another add up. The result at a frequency depends on the others of the call, and the discs of mini-arrays less than 27 m apart meet at 10 MHz whatever their rotation, so that some ground is counted twice (violated)."
  },
  {
   "property": "C12",
   "status": "partial",
   "theorems": [
    "Verif.Scheduler.extension_grows",
    "Verif.Scheduler.extension_bounded",
    "Verif.Scheduler.extension_shorter_violated",
    "Verif.Scheduler.extension_crash_violated"
   ],
   "note": "Holds from any reachable state when the call returns; a maximal duration shorter than a booked block raises."
  },
  {
   "property": "C120",
   "status": "partial",
   "theorems": [
    "Verif.Instru.squint_closest",
    "Verif.Instru.squint_lower",
    "Verif.Instru.squint_mono",
    "Verif.Instru.squint_below_violated",
    "Verif.Instru.correction_table",
    "Verif.Instru.correction_exact",
    "Verif.Instru.correction_none",
    "Verif.Instru.correction_order_violated",
    "Verif.Instru.grid_direction",
    "Verif.Instru.grid_reach",
    "Verif.Instru.grid_visible",
    "Verif.Instru.grid_axis_far",
    "Verif.Instru.attenuation_exact_partial",
    "Verif.Instru.attenuation_twice_violated"
   ],
   "note": "Exact for all frequencies, elevations above the horizon, tables and rotations, and for coordinates used at one time only. Below the horizon the squint correction points higher than asked; the pointing correction has a step at 15 degrees, so that a higher position is sent below a lower one; along its axes the grid stops 19 degrees above the horizon; the attenuation changes the coordinates given, which are refused at another time (violated). Left out: rounding of floats; the two tables of pointing corrections and the gain of a mini-array are parameters."
  },
  {
   "property": "C121",
   "status": "partial",
   "theorems": [
    "Verif.Astro.projection_partial",
    "Verif.Astro.projection_fraction_violated",
    "Verif.Astro.projection_second_violated",
    "Verif.Astro.projection_days_violated",
    "Verif.Astro.hdf5_checked",
    "Verif.Astro.real_pointing_exact",
    "Verif.Astro.factor_partial",
    "Verif.Astro.factor_hole_violated",
    "Verif.Astro.factor_file_violated",
    "Verif.Astro.factor_single_violated"
   ],
   "note": "Exact times for steps of whole seconds below a day, exact factor for every time at which the digital pointing is defined. Steps with a fraction of a second give matrices after the end, steps of whole days a division by zero, and one second is refused; in the holes of a pointing, after its end, and between the last two rows of every file of a digital beam, the zenith is taken as the direction desired; a pointing with one coordinate is refused (violated). Left out: DreamBeam, the gain itself (a parameter), the interpolation and the writing."
  },
  {
   "property": "C122",
   "status": "partial",
   "theorems": [
    "Verif.TF.store_read_partial",
    "Verif.TF.append_keeps",
    "Verif.TF.store_refused",
    "Verif.TF.store_missing_violated",
    "Verif.TF.stokes_text_violated",
    "Verif.TF.ratio_violated",
    "Verif.TF.ratio_both_violated",
    "Verif.TF.store_failed_violated",
    "Verif.TF.header_violated",
    "Verif.TF.stored_times",
    "Verif.TF.stored_times_violated",
    "Verif.TF.header_exact",
    "Verif.TF.save_keeps",
    "Verif.TF.get_other_refused"
   ],
   "note": "Exact for all data, beams, modes and names without slash. Ratios such as V/I: given as a text they are stored as V, given in a list they are stored but cannot be read, and together with V they stop the store; a store which fails leaves a part of the beam in the file, and a missing file open for appending becomes an unusable one; the header has the limits of the first beam only; samples 20 microseconds apart get equal times (violated). Left out: attributes other than the limits, chunked writing, empty time axes."
  },
  {
   "property": "C123",
   "status": "partial",
   "theorems": [
    "Verif.TF.select_partial",
    "Verif.TF.select_short",
    "Verif.TF.select_empty",
    "Verif.TF.number_position",
    "Verif.TF.whole_positions",
    "Verif.TF.lists_refused",
    "Verif.TF.select_mixed_violated",
    "Verif.TF.select_lists_violated"
   ],
   "note": "Exact for all selections with at most one list, but for lists of polarisations at one time: these are given with values of other frequencies and polarisations; two lists of the same length are refused (violated). Left out: steps and bounds of slices, which are given by the positions they select."
  },
  {
   "property": "C124",
   "status": "partial",
   "theorems": [
    "Verif.TF.bandpass_partial",
    "Verif.TF.bandpass_exact",
    "Verif.TF.bandpass_symmetric",
    "Verif.TF.bandpass_refused",
    "Verif.TF.bandpass_stretched_violated",
    "Verif.TF.bandpass_place_violated"
   ],
   "note": "Exact for the multiples of 16. Other even numbers are accepted and the response is stretched (24 channels cut the sub-band in 16): the central channel may get half of its value (violated). Left out: the coefficients of the file, which are a parameter; floats."
  },
  {
   "property": "C125",
   "status": "partial",
   "theorems": [
    "Verif.TF.rfi_refused",
    "Verif.TF.rfi_keeps",
    "Verif.TF.rfi_factor",
    "Verif.TF.rfi_units",
    "Verif.TF.rfi_flat_violated",
    "Verif.TF.rfi_dead_violated",
    "Verif.TF.rfi_polarisations_violated"
   ],
   "note": "Kept or NaN, monotone in the factor, independent of units: for all data. The factor multiplies the deviation of the fitted background over all polarisations: in flat data all values above the median are clipped whatever the factor, and what is clipped in a polarisation depends on the others; one dead polarisation stops the computation (violated). Left out: dask chunks, floats, fits with fewer points than the degree."
  },
  {
   "property": "C126",
   "status": "partial",
   "theorems": [
    "Verif.Astro.radial_partial",
    "Verif.Astro.radial_deviation",
    "Verif.Astro.azimuthal_return_partial",
    "Verif.Astro.azimuthal_refused_violated",
    "Verif.Astro.azimuthal_partial",
    "Verif.Astro.psf_peak",
    "Verif.Astro.psf_mirror",
    "Verif.Astro.psf_points",
    "Verif.Astro.radial_limit_violated",
    "Verif.Astro.radial_one_violated",
    "Verif.Astro.east_west_violated",
    "Verif.Astro.north_south_violated",
    "Verif.Astro.psf_stretched_violated"
   ],
   "note": "Exact totals for all arrays, all steps: baselines with v = 0 are never counted, those exactly on a limit between two bins are counted twice, in particular all north-south ones in the azimuthal profile; baselines of one length are refused; the point spread function has an exact peak and symmetry, but is the same for all frequencies and for arrays stretched along an axis (violated). Left out: floats, figures, how the Gaussian is fitted. The whole return: deviations are half distances; numpy from 1.24 on refuses the last line of the azimuthal profile (violated)."
  },
  {
   "property": "C127",
   "status": "partial",
   "theorems": [
    "Verif.IO.nearfield_exact",
    "Verif.IO.ground_exact",
    "Verif.IO.ground_one",
    "Verif.IO.enu_exact",
    "Verif.IO.nearfield_transmitter",
    "Verif.IO.source_far",
    "Verif.IO.source_imprint",
    "Verif.IO.image_partial",
    "Verif.IO.image_source_bound",
    "Verif.IO.image_source_partial",
    "Verif.IO.nearfield_flat_violated",
    "Verif.IO.image_few_violated",
    "Verif.IO.image_smeared_violated",
    "Verif.IO.image_smeared_exact",
    "Verif.IO.image_smeared_all_violated"
   ],
   "note": "Exact for all data with NaN, arrays and wavelengths; a transmitter has the highest value at its pixel, and the imprint of a source is the limit of that of a transmitter. With one frequency the near-field is the same at all pixels; a field with fewer pixels than processors is a division by zero; the mean baseline stands for all times, so that a source away from the centre fades when baselines turn during the exposure (violated). Left out: floats, dask chunks but for the failing one; the uvw coordinates and the rephasing factors are parameters (modelled in Geom/)."
  },
  {
   "property": "C128",
   "status": "partial",
   "theorems": [
    "Verif.Parset.center_equatorial",
    "Verif.Parset.center_equatorial_partial",
    "Verif.Parset.center_horizontal",
    "Verif.Parset.center_horizontal_partial",
    "Verif.Parset.center_moved_partial",
    "Verif.Parset.center_body",
    "Verif.Parset.center_refused",
    "Verif.Parset.center_natif",
    "Verif.Parset.center_range",
    "Verif.Parset.azelfile_changed",
    "Verif.Parset.ra_wrap_violated",
    "Verif.Parset.azimuth_wrap_violated",
    "Verif.Parset.zero_offset_violated",
    "Verif.Parset.azelfile_violated",
    "Verif.Parset.center_start_refused"
   ],
   "note": "Exact for all blocks and skies as long as the sums of angles and offsets stay in their ranges: across the north or the origin of right ascensions they are cut at 360 or 0 degrees, which is another direction; an equatorial block below the horizon at its middle is recorded on the horizon as soon as an offset, even of zero, is given; a block which follows a file is recorded at the zenith, and its type of direction is changed in the parset (violated). Left out: rounding of floats; the conversions of astropy are parameters."
  },
  {
   "property": "C129",
   "status": "partial",
   "theorems": [
    "Verif.Scheduler.ics_order",
    "Verif.Scheduler.ics_partial",
    "Verif.Scheduler.ics_empty",
    "Verif.Scheduler.vcr_partial",
    "Verif.Scheduler.matched_partial",
    "Verif.Scheduler.matched_unknown",
    "Verif.Scheduler.ics_unnamed_violated",
    "Verif.Scheduler.ics_overlap_violated",
    "Verif.Scheduler.ics_touch_violated",
    "Verif.Scheduler.vcr_one_violated",
    "Verif.Scheduler.vcr_none_violated",
    "Verif.Scheduler.vcr_long_violated",
    "Verif.Scheduler.matched_long_violated",
    "Verif.Scheduler.matched_order_violated"
   ],
   "note": "Exact for events and bookings which neither overlap nor touch, in order for booking files. Overlapping events are refused, a slot where two events touch is lost, an event without name stops a selection by name; a booking file of one row, or all of whose programs are excluded, is refused; programs are cut to four letters, so that longer names are never excluded nor found; bookings must be in order of time (violated). Left out: parsing of the files themselves, schedules shorter than a step."
  },
  {
   "property": "C13",
   "status": "partial",
   "theorems": [
    "Verif.Scheduler.is_within_iff",
    "Verif.Scheduler.is_within_partial",
    "Verif.Scheduler.is_within_violated",
    "Verif.Scheduler.match_booking_exact"
   ],
   "note": "Exact characterisation of the code; equal bounds are missed."
  },
  {
   "property": "C130",
   "status": "partial",
   "theorems": [
    "Verif.Raw.spectra_read_partial",
    "Verif.Raw.spectra_boundary_partial",
    "Verif.Raw.spectra_cut_violated",
    "Verif.Raw.spectra_single_violated",
    "Verif.Raw.lane_cut_partial",
    "Verif.Raw.lane_short",
    "Verif.Raw.lane_negative_violated",
    "Verif.Raw.lane_single_violated",
    "Verif.Raw.raw_read",
    "Verif.Raw.raw_cut_violated",
    "Verif.Raw.raw_samples_violated",
    "Verif.Raw.raw_width_refused",
    "Verif.Raw.channels_refused",
    "Verif.Raw.tv_read",
    "Verif.Raw.tv_count",
    "Verif.Raw.cal_read",
    "Verif.Raw.cal_refused",
    "Verif.Raw.cal_divisor_violated",
    "Verif.Raw.cal_header"
   ],
   "note": "Exact round trip for all files of two sub-bands and more, and for all waveforms, NenuFAR-TV records and tables. A file of spectra or a waveform interrupted within a block is refused as a whole, whereas the reader of lanes keeps the complete blocks; one sub-band is refused by both readers of spectra (numpy reads a shape of 1 as no shape), a negative number of sub-bands by that of lanes; the samples of waveforms are never kept; a table read with a divisor of its number of mini-arrays is shuffled (violated). Left out: structures over 2 GiB, overflows of 32-bit products."
  },
  {
   "property": "C131",
   "status": "partial",
   "theorems": [
    "Verif.TF.frequency_limits_partial",
    "Verif.TF.frequency_offset_violated",
    "Verif.TF.frequency_order_violated",
    "Verif.TF.frequency_none",
    "Verif.TF.time_limits_partial",
    "Verif.TF.lane_limits",
    "Verif.TF.lane_none",
    "Verif.TF.ends_differ",
    "Verif.TF.lane_gap_violated"
   ],
   "note": "Limits of lanes exact for all orders of sub-bands; limits of times exact when the blocks are in order. The frequencies announced by Spectra are half a sub-band over those of its data, and wrong when the sub-bands of a beam are not in order; a lane ends at the start of its last sample and ignores gaps between blocks (violated). Left out: rounding of floats."
  },
  {
   "property": "C132",
   "status": "partial",
   "theorems": [
    "Verif.Geom.etrs_height",
    "Verif.Geom.etrs_enu_up",
    "Verif.Geom.etrs_normal",
    "Verif.Geom.etrs_ellipsoid",
    "Verif.Geom.etrs_turn",
    "Verif.Geom.etrs_mirror",
    "Verif.Geom.etrs_equator",
    "Verif.Geom.fast_lst_exact",
    "Verif.Geom.fast_lst_targets",
    "Verif.Geom.fast_lst_period",
    "Verif.Geom.fast_hour_angle",
    "Verif.Geom.parallactic_raw",
    "Verif.Geom.parallactic_exact",
    "Verif.Geom.parallactic_range_partial",
    "Verif.Geom.parallactic_sign",
    "Verif.Geom.parallactic_company_violated",
    "Verif.Geom.es_circumpolar",
    "Verif.Geom.ss_circumpolar",
    "Verif.Geom.ss_circumpolar_violated",
    "Verif.Geom.local_time_partial",
    "Verif.Geom.local_time_violated",
    "Verif.Geom.local_time_plain"
   ],
   "note": "Exact for all places, dates and sources away from the zenith (the ellipsoid to 2e-15, the constants being rounded). East of the meridian the parallactic angle is a turn larger when the mean declination of the sources of the call is above the latitude; the local time is wrong after each change of clocks (two hours in spring and one in autumn in Paris) because the UTC time is read as a local one; a body of the Solar System is circumpolar as soon as it is at one of the times (violated). Left out: rounding of floats, precession, the apparent sidereal time of astropy; zones with several changes are covered one summer at a time."
  },
  {
   "property": "C133",
   "status": "partial",
   "theorems": [
    "Verif.Bst.select_exact_partial",
    "Verif.Bst.select_history",
    "Verif.Bst.select_again",
    "Verif.Bst.select_refused_violated",
    "Verif.Bst.history_usable",
    "Verif.Bst.start_usable",
    "Verif.Bst.beam_follows",
    "Verif.Bst.beam_refused",
    "Verif.Bst.beam_kept_violated",
    "Verif.Bst.nearest_time",
    "Verif.Bst.ranges_get",
    "Verif.Bst.ranges_cover",
    "Verif.Bst.analog_cover",
    "Verif.Bst.analog_readers",
    "Verif.Bst.times_refused",
    "Verif.Bst.analog_single_violated",
    "Verif.Bst.digital_readers",
    "Verif.Bst.digital_reversed_violated",
    "Verif.Bst.get_exact",
    "Verif.Bst.get_forgets_beam_violated",
    "Verif.Bst.get_refused",
    "Verif.Bst.get_float_violated",
    "Verif.Bst.get_unknown_polarisation",
    "Verif.Bst.get_squeezed_violated",
    "Verif.Bst.mini_arrays_agree",
    "Verif.Bst.mini_arrays_used"
   ],
   "note": "Exact for all files whose tables agree, all histories and all selections which give a beam, two ranges and a polarisation; frequency selections kept from another beam are the subject of C58. A refused selection keeps the part of it which was made before; the only pointing of an analog beam cannot be read when it is the last row; the last digital pointing ends with the analog ones, possibly before it begins; the beam given to the reader is forgotten by get, which takes beam 0; a float is accepted as beam and then nothing can be read; one time or one frequency takes an axis away (violated). Left out: parsing of the conditions (C58), units, booleans given as beams, the list of antennas."
  },
  {
   "property": "C134",
   "status": "partial",
   "theorems": [
    "Verif.GA.fps_exact",
    "Verif.GA.fps_flat",
    "Verif.GA.fps_again",
    "Verif.GA.fps_signs_violated",
    "Verif.GA.fps_negative_violated",
    "Verif.GA.rks_ranks_partial",
    "Verif.GA.rks_draws",
    "Verif.GA.rks_ties_violated",
    "Verif.GA.tns_same_violated",
    "Verif.GA.setter_exact",
    "Verif.GA.mutation_named",
    "Verif.GA.mutation_name_violated",
    "Verif.GA.evolve_checks"
   ],
   "note": "Proportional selection exact for scores which are not negative. Negative scores are accepted by the setter, then stop the search or favour the worst. Ranks are right only if no two scores are equal (argsort is not a rank). The two parents of tournaments may be the same. A mutation whose parameter is not called genome is accepted and fails when used."
  },
  {
   "property": "C135",
   "status": "partial",
   "theorems": [
    "Verif.Geom.gain_refused",
    "Verif.Geom.gain_tabulated",
    "Verif.Geom.bary_node",
    "Verif.Geom.bary_lagrange",
    "Verif.Geom.bary_polynomial",
    "Verif.Geom.gain_outside_violated",
    "Verif.Geom.gain_inside_violated",
    "Verif.Geom.polarisation_used",
    "Verif.Geom.beam_range",
    "Verif.Geom.beam_pointed",
    "Verif.Geom.beam_normalised",
    "Verif.Geom.beam_alike_partial",
    "Verif.Geom.beam_gains_violated",
    "Verif.Geom.beam_complex_violated",
    "Verif.Geom.array_beam_range",
    "Verif.Geom.array_normalise_violated",
    "Verif.Geom.attenuation_exact"
   ],
   "note": "Gains exact at the frequencies of the file; elsewhere the polynomial leaves the range from 0 to 1, even between frequencies of the file. Beams are the received power only if all antennas have the same gain. The squared modulus of the complex beam has the gain once too many. The whole array without normalisation is still divided by the number of mini-arrays."
  },
  {
   "property": "C136",
   "status": "partial",
   "theorems": [
    "Verif.Dyn.clean_exact",
    "Verif.Dyn.clean_off",
    "Verif.Dyn.clean_monotone",
    "Verif.Dyn.clean_polarisations",
    "Verif.Dyn.clean_unit",
    "Verif.Dyn.cut_tenth",
    "Verif.Dyn.smooth_impulse",
    "Verif.Dyn.clean_flat",
    "Verif.Dyn.clean_channel",
    "Verif.Dyn.clean_burst",
    "Verif.Dyn.clean_few_violated",
    "Verif.Dyn.clean_margin_violated"
   ],
   "note": "Exact for all data. The deviation is that of the background and not of the noise: on a flat background everything over the median is removed, whatever the threshold. With two to five channels a contaminated channel has no background and is never removed (violated). Left out: rounding of floats, infinite values."
  },
  {
   "property": "C137",
   "status": "partial",
   "theorems": [
    "Verif.Instru.node_spec",
    "Verif.Instru.node_self",
    "Verif.Instru.snap_self",
    "Verif.Instru.point_fresh",
    "Verif.Instru.point_repeat",
    "Verif.Instru.beam_drift_violated",
    "Verif.Instru.beam_again_partial",
    "Verif.Instru.beam_zenith_violated",
    "Verif.Instru.zenith_kept",
    "Verif.Instru.squint_again_violated",
    "Verif.Instru.squint_frequency_checked",
    "Verif.Instru.groups_chain",
    "Verif.Instru.groups_first_partial",
    "Verif.Instru.numerical_kept_partial",
    "Verif.Instru.numerical_moved_violated",
    "Verif.Instru.array_rows",
    "Verif.Instru.array_remote_checked",
    "Verif.Instru.rotations_follow"
   ],
   "note": "The first call and the first group are pointed as asked, at the first of the closest nodes (then one step off in the second half of the grid, C39). The pointing object is modified: each further call or group starts from the directions left, so that the beam moves by a step of the grid at each call until the axis of the zenith, the squint is corrected again each time, and a numerical pointing which is also the analog one is moved for the next call (violated). Left out: rounding of floats, refraction and the numbers of directions of astropy."
  },
  {
   "property": "C138",
   "status": "partial",
   "theorems": [
    "Verif.TF.lna_positive",
    "Verif.TF.lna_smooth",
    "Verif.TF.lna_shape_partial",
    "Verif.TF.lna_shape_violated",
    "Verif.TF.lna_monotone",
    "Verif.TF.lna_accepted",
    "Verif.TF.correct_plain",
    "Verif.TF.correct_undoes",
    "Verif.TF.correct_refused",
    "Verif.TF.correct_again_violated"
   ],
   "note": "Exact reals. With the filters at 10 and 20 MHz the response is turned over at 100 MHz (it follows the sub-band up to 90 MHz); arrays of numpy are modified in place, so that a second call corrects twice (violated)."
  },
  {
   "property": "C139",
   "status": "partial",
   "theorems": [
    "Verif.Dyn.mode_names",
    "Verif.Dyn.mode_kept",
    "Verif.Dyn.none_kept",
    "Verif.Dyn.standard_agrees",
    "Verif.Dyn.median_level",
    "Verif.Dyn.median_again",
    "Verif.Dyn.median_polarisations_violated",
    "Verif.Dyn.median_made",
    "Verif.Dyn.adjusted_made",
    "Verif.Dyn.adjusted_product",
    "Verif.Dyn.adjusted_missing",
    "Verif.Dyn.adjusted_robust"
   ],
   "note": "Exact reals; positive levels. The median correction is refused for two polarisations or more, because the size of the whole spectrum is taken for its number of channels (violated). Infinite values are taken as missing."
  },
  {
   "property": "C14",
   "status": "partial",
   "theorems": [
    "Verif.Blocks.reset_exact",
    "Verif.Blocks.mul_exact",
    "Verif.Blocks.mul_nonpos",
    "Verif.Blocks.add_exact",
    "Verif.Blocks.get_exact",
    "Verif.Blocks.copies_share_constraints",
    "Verif.Blocks.periodic_exact",
    "Verif.Blocks.periodic_covers",
    "Verif.Blocks.periodic_window_twice",
    "Verif.Blocks.add_same_violated",
    "Verif.Blocks.shared_indices_violated",
    "Verif.Blocks.copy_stands_for_original_violated",
    "Verif.Blocks.periodic_empty_violated"
   ],
   "note": "Products, sums and periodic repetitions are exact on a heap of shared objects; numbering fails for repeated or shared blocks, copies stand for their original, an empty period range gives the integer 0."
  },
  {
   "property": "C140",
   "status": "partial",
   "theorems": [
    "Verif.Scheduler.tune_one_block",
    "Verif.Scheduler.tune_better",
    "Verif.Scheduler.tune_ends",
    "Verif.Scheduler.tune_optimum",
    "Verif.Scheduler.tune_optimum_delay",
    "Verif.Scheduler.tune_inside",
    "Verif.Scheduler.tune_reserved",
    "Verif.Scheduler.tune_disjoint_partial",
    "Verif.Scheduler.tune_overlap_violated",
    "Verif.Scheduler.tune_slides_violated",
    "Verif.Scheduler.tune_delays",
    "Verif.Scheduler.tune_delays_run",
    "Verif.Scheduler.tune_lone_violated",
    "Verif.Scheduler.tune_empty_violated"
   ],
   "note": "Proved for each iteration and for all runs. The second block by time ignores the first one, and may slide over it (violated; it is the only way to make an overlap). A block with a delay which is the only one of its kind is compared with itself and never moved; without any booked block there is an error (violated). Left out: rounding of floats; blocks of the same start are taken in their order."
  },
  {
   "property": "C141",
   "status": "partial",
   "theorems": [
    "Verif.Parset.old_fields",
    "Verif.Parset.old_beams",
    "Verif.Parset.old_only",
    "Verif.Parset.old_numbers_partial",
    "Verif.Parset.old_numbers_violated",
    "Verif.Parset.old_skipped_violated",
    "Verif.Parset.old_task_violated",
    "Verif.Parset.old_modes_exact",
    "Verif.Parset.old_spectra_exact",
    "Verif.Parset.old_xst_exact",
    "Verif.Parset.old_receivers_exact",
    "Verif.Parset.old_receivers_violated",
    "Verif.Parset.old_export_violated",
    "Verif.Parset.old_topic_exact",
    "Verif.Parset.old_topic_violated",
    "Verif.Parset.old_topic_other_violated"
   ],
   "note": "For all files. Beams for pulsars or dynamic spectra without parameters are left out; beams of other tasks in a field with remote mini-arrays, or the lack of high rate receivers, make the export fail; the pointing of cross-correlations can get the number of a beam; topics in lower case or of other kinds lose their code; durations read from files are refused as in to_json (violated). Left out: writing of the file, coordinates of the sky."
  },
  {
   "property": "C142",
   "status": "partial",
   "theorems": [
    "Verif.Instru.half_resolution",
    "Verif.Instru.common_spec",
    "Verif.Instru.common_inside",
    "Verif.Instru.common_highest",
    "Verif.Instru.common_monotone",
    "Verif.Instru.common_times",
    "Verif.Instru.common_symmetric",
    "Verif.Instru.common_fixed_violated"
   ],
   "note": "For all separations and numbers of times. Two fixed sources at two times or more make the function fail (violated). Left out: resolution of names and positions of the sources (given)."
  },
  {
   "property": "C143",
   "status": "partial",
   "theorems": [
    "Verif.Instru.lofar_positive",
    "Verif.Instru.lofar_edge_violated",
    "Verif.Instru.lofar_high_violated"
   ],
   "note": "For all frequencies, over the reals. Near the ends of the bands the fits diverge: above 100000 K at 90 MHz and 20000 K at 240 MHz (violated). Left out: rounding."
  },
  {
   "property": "C144",
   "status": "partial",
   "theorems": [
    "Verif.Cal.summary_exact",
    "Verif.Cal.summary_order_partial",
    "Verif.Cal.summary_order_violated",
    "Verif.Cal.summary_stop_violated",
    "Verif.Cal.summary_fields_partial",
    "Verif.Cal.summary_comma_violated",
    "Verif.Cal.summary_name",
    "Verif.Cal.path_joined"
   ],
   "note": "For all lists of events. A comma in a name gives a line of more fields; an inconsistent event leaves a truncated file; overlapping events are not sorted (violated). Left out: text of the times (given)."
  },
  {
   "property": "C145",
   "status": "partial",
   "theorems": [
    "Verif.IO.transit_samples",
    "Verif.IO.transit_time_within",
    "Verif.IO.transit_values",
    "Verif.IO.transit_curve",
    "Verif.IO.transit_gaussian_partial",
    "Verif.IO.transit_gaussian_violated",
    "Verif.IO.transit_short_violated",
    "Verif.IO.transit_threshold_violated",
    "Verif.IO.transit_method_violated",
    "Verif.IO.transit_constant_violated",
    "Verif.IO.transit_background_partial",
    "Verif.IO.transit_chi",
    "Verif.IO.transit_chi_violated",
    "Verif.IO.transit_chi_sign_violated",
    "Verif.IO.transit_background_curve",
    "Verif.IO.transit_loads_partial"
   ],
   "note": "For all profiles and solvers. The first method fails as soon as the profile goes below half of its maximum (the abscissas are not cut), and for less than 10 samples; with a threshold that drops samples the two others fail; their quality is not 0 for a perfect fit and may be negative; unknown methods are accepted (violated). Left out: the solver and the median filter of scipy (parameters), rounding."
  },
  {
   "property": "C146",
   "status": "partial",
   "theorems": [
    "Verif.IO.tv_saved",
    "Verif.IO.tv_again",
    "Verif.IO.tv_blank_violated",
    "Verif.IO.tv_rest_violated",
    "Verif.IO.tv_moment_violated",
    "Verif.IO.tv_seconds_violated",
    "Verif.IO.tv_stokes_violated",
    "Verif.IO.tv_frame",
    "Verif.IO.near_saved_partial",
    "Verif.IO.near_imprints_exact",
    "Verif.IO.near_checked",
    "Verif.IO.near_reserved_violated",
    "Verif.IO.near_blank_violated",
    "Verif.IO.near_nan_violated",
    "Verif.IO.label_upper",
    "Verif.IO.extension_name",
    "Verif.IO.card_spec",
    "Verif.IO.missing_exact",
    "Verif.IO.printable_exact",
    "Verif.IO.near_missing"
   ],
   "note": "For all images and near-fields. Only the first time, frequency and polarisation are saved; the moment of the pointing becomes that of the image; images without any number and near-fields with a NaN cannot be saved; the images of compute_nenufar_tv are all labelled \"I\"; sources named like one of the three extensions are lost (violated). Left out: layout of FITS files, floats, data types."
  },
  {
   "property": "C147",
   "status": "partial",
   "theorems": [
    "Verif.Astro.point_adds",
    "Verif.Astro.point_shape",
    "Verif.Astro.point_scalar",
    "Verif.Astro.point_order",
    "Verif.Astro.point_moves",
    "Verif.Astro.point_fixed_partial",
    "Verif.Astro.point_stale_violated",
    "Verif.Astro.point_single_violated",
    "Verif.Astro.point_sizes_violated",
    "Verif.Astro.point_far",
    "Verif.Astro.point_negative_violated",
    "Verif.Astro.point_sign_violated",
    "Verif.Astro.snr_exact",
    "Verif.Astro.snr_level_violated",
    "Verif.Astro.snr_flat_violated",
    "Verif.Astro.snr_median_violated"
   ],
   "note": "For all skies and sources. Dates are compared with a relative tolerance of numpy which is 24 days for Julian days, so that bodies keep a former position; arrays of one time or of other lengths make it fail; with an angular size negative values are added as positive ones; the ratio is taken from the mean and on top of the sky, and is not the one of the result (violated). Left out: positions of healpy and astropy, smoothing (parameters)."
  },
  {
   "property": "C148",
   "status": "partial",
   "theorems": [
    "Verif.IO.tv_slice_axes",
    "Verif.IO.xst_one_time",
    "Verif.IO.xst_values",
    "Verif.IO.xst_axes_violated",
    "Verif.IO.xst_image_violated",
    "Verif.IO.xst_single_frequency",
    "Verif.IO.xst_moving_violated",
    "Verif.IO.xst_refused",
    "Verif.IO.xst_moved_violated",
    "Verif.IO.xst_column_violated",
    "Verif.IO.rephase_axis_violated"
   ],
   "note": "For all files and selections. Right for NenuFAR-TV files and for files of one time; for files of several times the axis of the frequencies is repeated once per time of the file, and images and beamforming fail as soon as two frequencies are selected (violated). rephase always fails for NenuFAR-TV files. Left out: the parsing of the conditions (C133, IO/Slices), values of the images."
  },
  {
   "property": "C149",
   "status": "partial",
   "theorems": [
    "Verif.Bst.sst_refused",
    "Verif.Bst.sst_get_exact",
    "Verif.Bst.sst_unknown_polarisation",
    "Verif.Bst.sst_label_violated",
    "Verif.Bst.sst_minis"
   ],
   "note": "For all files, mini-arrays, polarisations and conditions. The values are exact; the slice always says \"NW\", also when \"NE\" was read (violated), and has no times of pointings. Left out: the parsing of the conditions, squeeze."
  },
  {
   "property": "C15",
   "status": "partial",
   "theorems": [
    "Verif.Cnst.slot_score_range_and_veto",
    "Verif.Cnst.combined_score_is_weighted_mean",
    "Verif.Cnst.combined_score_between",
    "Verif.Cnst.no_target_scores_one",
    "Verif.Cnst.no_target_rows",
    "Verif.Cnst.no_target_evaluate",
    "Verif.Cnst.unevaluated_vetoes_violated",
    "Verif.Cnst.night_positive_violated",
    "Verif.Cnst.night_never_violated",
    "Verif.Cnst.block_score_violated",
    "Verif.Cnst.elev_min_accepted",
    "Verif.Cnst.weight_accepted",
    "Verif.Cnst.cross_score_one",
    "Verif.Cnst.cross_score_half",
    "Verif.Cnst.planet_proximity_violated"
   ],
   "note": "Proved for blocks with a target, any constraints and weights; false when some constraints cannot be evaluated (no target), for positive Sun elevation limits, and for planets whose distance to the Sun is constrained (AttributeError)."
  },
  {
   "property": "C150",
   "status": "partial",
   "theorems": [
    "Verif.Instru.Cst.frequency_of_name",
    "Verif.Instru.Cst.no_frequency",
    "Verif.Instru.Cst.columns_read",
    "Verif.Instru.Cst.shape_spec",
    "Verif.Instru.Cst.grid_read",
    "Verif.Instru.Cst.closed_table_refused",
    "Verif.Instru.Cst.theta_major_refused",
    "Verif.Instru.Cst.gain_bilinear",
    "Verif.Instru.Cst.gain_node",
    "Verif.Instru.Cst.gain_closed",
    "Verif.Instru.Cst.gain_bounded",
    "Verif.Instru.Cst.gain_everywhere_partial",
    "Verif.Instru.Cst.gain_gap_violated",
    "Verif.Instru.Cst.map_pixels",
    "Verif.Instru.Cst.azimuth_reversed",
    "Verif.Instru.Cst.azimuth_moved",
    "Verif.Instru.Cst.map_moved_violated",
    "Verif.Instru.Cst.map_full",
    "Verif.Instru.Cst.map_length",
    "Verif.Instru.Cst.file_read",
    "Verif.Instru.Cst.file_single",
    "Verif.Instru.Cst.byFreq_spec",
    "Verif.Instru.Cst.file_none"
   ],
   "note": "For all tables, resolutions and sets of files. Exact for tables whose Theta changes the fastest, with azimuths from 0 to less than 360 degrees. The same grid with Phi changing the fastest or with 360 degrees in it is refused; a table which begins after 0 has no gains before its first azimuth; the reversed list of azimuths moves every second ring of the equatorial zone by one pixel (violated). Left out: elevations of rings (parameter), astropy tables and units, float conversion of the frequencies, FITS."
  },
  {
   "property": "C151",
   "status": "partial",
   "theorems": [
    "Verif.IO.beam_minis",
    "Verif.IO.remote_violated",
    "Verif.IO.calibration_own",
    "Verif.IO.calibration_violated",
    "Verif.IO.cross_all",
    "Verif.IO.mask_exact",
    "Verif.IO.beam_select",
    "Verif.IO.beam_select_partial",
    "Verif.IO.beam_uncalibrated_partial",
    "Verif.IO.beam_polarisation",
    "Verif.IO.beam_name_violated"
   ],
   "note": "For all files and selections. Exact when the file holds mini-arrays 0 to n-1. The calibrations are in increasing order of the mini-arrays and the correlations in the order of the file: each has its own one exactly when those of the file are increasing; recorded mini-arrays outside of the core are refused; any name other than NW, also XX, means NE when there is no calibration (violated). Positions: see C54. Left out: the reading of the calibration (C130), selections of times and frequencies (C148)."
  },
  {
   "property": "C152",
   "status": "partial",
   "theorems": [
    "Verif.Astro.drift_made",
    "Verif.Astro.drift_ground",
    "Verif.Astro.drift_sky",
    "Verif.Astro.drift_sky_violated",
    "Verif.Astro.drift_single",
    "Verif.Astro.zenith_always",
    "Verif.Astro.zenith_sky",
    "Verif.Astro.track_exact",
    "Verif.Astro.track_fixed",
    "Verif.Astro.track_out",
    "Verif.Astro.track_site_violated",
    "Verif.Astro.default_duration_violated"
   ],
   "note": "For all directions, times, durations and conversions. Horizontal directions of drift scans and of the zenith are exact. On the sky a drift scan stays where it was at the beginning of the step (violated whenever the sky moves); the observer is lost by a look-up, which is then seen from NenuFAR (violated for other sites); without durations the steps last one second instead of the documented difference (violated)."
  },
  {
   "property": "C153",
   "status": "partial",
   "theorems": [
    "Verif.Geom.file_rephase",
    "Verif.Geom.file_rephase_sky",
    "Verif.Geom.file_rephase_violated",
    "Verif.Geom.file_refused",
    "Verif.Geom.image_phased_partial",
    "Verif.Geom.slice_centre_violated",
    "Verif.Geom.image_twice_violated",
    "Verif.Geom.image_zenith_violated"
   ],
   "note": "For all baselines, times and centres. From the zenith everything is right; a slice keeps its centre but later re-phasings and images start again from the zenith (violated), and a file with one centre per time is not turned at all (violated). The bare factors returned instead of data are in C55."
  },
  {
   "property": "C154",
   "status": "partial",
   "theorems": [
    "Verif.Cnst.azimuth_circumpolar_partial",
    "Verif.Cnst.azimuth_other_partial",
    "Verif.Cnst.azimuth_row_partial",
    "Verif.Cnst.azimuth_south_violated",
    "Verif.Cnst.azimuth_decreasing_violated",
    "Verif.Cnst.azimuth_north_violated"
   ],
   "note": "For all azimuths. Exact for circumpolar targets outside of the south and for targets whose azimuth increases; in the slot where a circumpolar target passes through the south every other azimuth is found, and targets which culminate north of the zenith are missed."
  },
  {
   "property": "C155",
   "status": "partial",
   "theorems": [
    "Verif.Raw.read_sample",
    "Verif.Raw.read_stokes",
    "Verif.Raw.read_whole_partial",
    "Verif.Raw.read_short_violated",
    "Verif.Raw.read_gap_violated",
    "Verif.Raw.read_cut_violated",
    "Verif.Raw.read_single_violated"
   ],
   "note": "For all recordings, requests and names: every returned element is the recorded one, with its frequency, and with its time when the header of its block is good (or, without the search for missing data, when no block is missing before it). The whole recording is returned when blocks start at least one second apart and the sub-bands of the beam are side by side in increasing order; the last block of a recording of short blocks is never returned, gaps shift the times when missing data are not looked for, files cut within a block or with one sub-band cannot be read (violated). Left out: other tasks of the pipeline (C45 to C54), floating-point rounding, the volume threshold."
  },
  {
   "property": "C156",
   "status": "proved",
   "theorems": [
    "Verif.Config.bst_volume",
    "Verif.Config.nickel_volume",
    "Verif.Config.tf_volume",
    "Verif.Config.tf_volume_asked",
    "Verif.Config.raw_volume",
    "Verif.Config.fold_volume",
    "Verif.Config.single_volume",
    "Verif.Config.waveolaf_volume",
    "Verif.Config.pulsar_minute",
    "Verif.Config.volume_longer"
   ],
   "note": "Exact for whole numbers of time steps; the bytes per second of pulsar waveforms are a constant of the code. Raw data of less than a minute: see C26."
  },
  {
   "property": "C157",
   "status": "partial",
   "theorems": [
    "Verif.Dyn.lane_band",
    "Verif.Dyn.default_band",
    "Verif.Dyn.default_times",
    "Verif.Dyn.default_read_partial",
    "Verif.Dyn.default_last_violated",
    "Verif.Dyn.default_single_violated"
   ],
   "note": "The ranges are exact for all readers; all is read but the last spectrum of each lane (violated, see C83), when the lane has two spectra and the beam two channels."
  },
  {
   "property": "C158",
   "status": "partial",
   "theorems": [
    "Verif.Astro.call_time",
    "Verif.Astro.given_next_partial",
    "Verif.Astro.given_previous_partial",
    "Verif.Astro.given_find_partial",
    "Verif.Astro.same_answer_violated",
    "Verif.Astro.next_past_violated",
    "Verif.Astro.next_passed_violated",
    "Verif.Astro.previous_missed_violated",
    "Verif.Astro.find_past_violated",
    "Verif.Parset.replay_default_violated",
    "Verif.Parset.replay_stale_violated",
    "Verif.Parset.replay_given_partial"
   ],
   "note": "Holds for calls with a time. Without one the time is that at which the modules were read: all such calls of a program have the same answer, the next crossing is in the past as soon as one crossing has passed, the previous one is never one which happened since, and replays start on the day on which the modules were read."
  },
  {
   "property": "C159",
   "status": "partial",
   "theorems": [
    "Verif.Instru.new_exact",
    "Verif.Instru.known_numbers",
    "Verif.Instru.layout_turn",
    "Verif.Instru.factor_turn",
    "Verif.Instru.layout_sixty",
    "Verif.Instru.factor_sixty",
    "Verif.Instru.group_grid_violated",
    "Verif.Instru.reference_layout_violated",
    "Verif.Instru.response_turned_violated",
    "Verif.Instru.first_turned_violated",
    "Verif.Instru.key_width"
   ],
   "note": "Numbers, positions and array factors as stated. Violated: mini-arrays sixty degrees apart share no analog direction but the zenith; the measured antennas are chosen for a layout turned the other way, which is the same only for multiples of thirty degrees, and so differ from what the mini-array has."
  },
  {
   "property": "C16",
   "status": "proved",
   "theorems": [
    "Verif.Cnst.periodic_exact"
   ],
   "note": ""
  },
  {
   "property": "C160",
   "status": "partial",
   "theorems": [
    "Verif.Astro.uvw_refused",
    "Verif.Astro.uvw_rows",
    "Verif.Astro.uvw_greenwich_partial",
    "Verif.Astro.uvw_longitude_violated",
    "Verif.Astro.uvw_distances",
    "Verif.Astro.coverage_of_count",
    "Verif.Astro.coverage_xst",
    "Verif.Astro.mini_uvw_violated",
    "Verif.Astro.coverage_of_pairs"
   ],
   "note": "Violated: the positions are in the frame of the Earth (first axis towards the meridian of Greenwich) and the hour angle is the local one, so that all coordinates are those of a direction turned westwards by the longitude of the observer (2.19 degrees at NenuFAR); they are right on the meridian of Greenwich only. Violated: the positions of a mini-array are local ones, not in the frame of the Earth: towards the zenith its baselines have a third coordinate. Refused exactly: lists of phase centres of another length than the times, a list of one position with several times included."
  },
  {
   "property": "C161",
   "status": "partial",
   "theorems": [
    "Verif.Cnst.local_steady_partial",
    "Verif.Cnst.local_time_partial",
    "Verif.Cnst.local_time_violated",
    "Verif.Cnst.paris_local_violated",
    "Verif.Cnst.local_slot_violated",
    "Verif.Cnst.offset_used",
    "Verif.Cnst.chosen_winter"
   ],
   "note": "Violated: the UTC date and time is looked up as if it were a local one. Around a change of the offset to b at the time T, the local time is wrong exactly between T and T + b: in Paris the two hours after the change in spring and the hour after the change in autumn. Right at all other times."
  },
  {
   "property": "C162",
   "status": "partial",
   "theorems": [
    "Verif.Geom.fast_back_partial",
    "Verif.Geom.fast_back_violated",
    "Verif.Geom.fast_forth_partial",
    "Verif.Geom.fast_moved_violated"
   ],
   "note": "Violated: the conversion to the horizon moves the position to the equinox of the time, the conversion back does not undo it. The position found is the moved one; one comes back exactly if it was not moved."
  },
  {
   "property": "C163",
   "status": "partial",
   "theorems": [
    "Verif.TF.jones_undone",
    "Verif.TF.dream_groups_partial",
    "Verif.TF.dream_left_partial",
    "Verif.TF.dream_late_violated",
    "Verif.TF.dream_singular_violated",
    "Verif.TF.dream_singular_refused",
    "Verif.TF.dream_shift_violated",
    "Verif.TF.dream_start_refused_violated",
    "Verif.TF.dream_gap_violated",
    "Verif.TF.dream_short_refused",
    "Verif.TF.dream_days_violated"
   ],
   "note": "Exact for contiguous sub-bands, steps of whole seconds and a first sample which is not after its time rounded to microseconds. Violated: the samples left over use the last matrix computed, which is for a time beyond the observation, by any number of steps, when the step is not of whole seconds; one singular matrix leaves all of them uncorrected; a start rounded down by less than a microsecond shifts all groups to the next matrix, or is refused; sub-bands with gaps are refused; steps of whole days divide by zero."
  },
  {
   "property": "C164",
   "status": "partial",
   "theorems": [
    "Verif.Geom.etrs_exact_partial",
    "Verif.Geom.etrs_refused",
    "Verif.Geom.etrs_overwrites_violated",
    "Verif.Geom.etrs_twice_violated",
    "Verif.Geom.etrs_times_violated",
    "Verif.Geom.etrs_then_geo_violated",
    "Verif.Geom.etrs_whole_violated",
    "Verif.Geom.itrf_exact",
    "Verif.Geom.positions_kept_partial",
    "Verif.Geom.selected_etrs",
    "Verif.Geom.geo_exact",
    "Verif.Geom.geo_round_partial",
    "Verif.Geom.geo_shape_violated",
    "Verif.Geom.antenna_geo",
    "Verif.Geom.array_orn"
   ],
   "note": "Holds for every conversion but l93_to_etrs, and for l93_to_etrs on the new array made by a selection of antennas (near-field images). Violated: l93_to_etrs writes its result into the array which was given and returns this array, so that the positions are lost, a second call converts converted positions, and the geographic positions of the same interferometer are those of other places; integer positions are converted to integers; geo_to_l93 of one location gives a (1, 3) array which comes back as an array of locations."
  },
  {
   "property": "C165",
   "status": "partial",
   "theorems": [
    "Verif.IO.slice_up",
    "Verif.IO.slice_down",
    "Verif.IO.part_exact",
    "Verif.IO.part_refused",
    "Verif.IO.part_whole",
    "Verif.IO.cut_join_time",
    "Verif.IO.cut_join_violated",
    "Verif.IO.cut_join_freq",
    "Verif.IO.median_spectrum_partial",
    "Verif.IO.median_time_violated",
    "Verif.IO.median_curve",
    "Verif.IO.median_refused"
   ],
   "note": "Parts are exact for all slices, and cutting and joining gives the data set back when the earlier part comes first (in any order for frequencies). Violated: joined with the later part first, the times are exchanged and the values are not. The time of a median spectrum is the middle only to within the rounding of its text, so that data of a single spectrum cannot be compared with their own median spectrum."
  },
  {
   "property": "C166",
   "status": "partial",
   "theorems": [
    "Verif.Cnst.position_exact_partial",
    "Verif.Cnst.elevation_exact",
    "Verif.Cnst.azimuth_pole_violated",
    "Verif.Cnst.positions_many",
    "Verif.Cnst.positions_scalar_violated",
    "Verif.Cnst.positions_refused",
    "Verif.Cnst.slice_positions",
    "Verif.Cnst.circumpolar_up_partial",
    "Verif.Cnst.circumpolar_date_violated",
    "Verif.Cnst.elevation_returns"
   ],
   "note": "Elevations are exact everywhere, azimuths away from the celestial poles, the zenith and the nadir (where the code divides by zero). Violated: at the pole the azimuth is 360 during half of the day and 0 during the other half; for a single date two equal positions are kept; whether a target never sets is decided with the declination of the catalogue, not of the date."
  },
  {
   "property": "C167",
   "status": "partial",
   "theorems": [
    "Verif.Parset.ant_list_accepted",
    "Verif.Parset.ant_list_read",
    "Verif.Parset.ant_numbers_accepted",
    "Verif.Parset.ant_list_partial",
    "Verif.Parset.ant_zero_violated",
    "Verif.Parset.ant_twice_violated",
    "Verif.Parset.ant_range_refused"
   ],
   "note": "The accepted texts are known exactly. Violated: antenna 0 is accepted anywhere but in first place, and an antenna from 1 to 9 may come twice if one of them is written with a 0 in front; lists without such numbers hold distinct antennas from 1 to 19."
  },
  {
   "property": "C168",
   "status": "partial",
   "theorems": [
    "Verif.Parset.tracking_accepted",
    "Verif.Parset.direction_accepted",
    "Verif.Parset.switch_accepted",
    "Verif.Parset.flag_accepted",
    "Verif.Parset.task_accepted",
    "Verif.Parset.bits_accepted",
    "Verif.Parset.channels_accepted",
    "Verif.Parset.squint_frequency_accepted",
    "Verif.Parset.tracking_read",
    "Verif.Parset.flag_read",
    "Verif.Parset.channels_read",
    "Verif.Parset.task_known",
    "Verif.Parset.beam_direction_violated",
    "Verif.Parset.nickel_beam_violated"
   ],
   "note": "The accepted texts are known exactly for all properties named in the theorems. Violated: any text is accepted as the direction type of a numerical beam or phase center; the imager, which the export knows as a task of a beam, is refused there."
  },
  {
   "property": "C169",
   "status": "partial",
   "theorems": [
    "Verif.Parset.xst_list_accepted",
    "Verif.Parset.xst_list_read",
    "Verif.Parset.xst_numbers_partial",
    "Verif.Parset.xst_first_violated",
    "Verif.Parset.imager_list_accepted",
    "Verif.Parset.imager_list_read",
    "Verif.Parset.imager_numbers_accepted",
    "Verif.Parset.imager_twice_violated",
    "Verif.Parset.imager_range_violated",
    "Verif.Parset.receivers_accepted",
    "Verif.Parset.receivers_any_violated",
    "Verif.Parset.receivers_blank_refused"
   ],
   "note": "The accepted texts are known exactly. Violated: 16 to 19 are accepted in first place for the cross-correlations; the same sub-band may come twice for the imager, whose ranges are refused; any word of small letters is accepted as a receiver."
  },
  {
   "property": "C17",
   "status": "partial",
   "theorems": [
    "Verif.Cnst.hour_window_plain",
    "Verif.Cnst.hour_window_midnight_partial",
    "Verif.Cnst.hour_window_bounds_violated",
    "Verif.Cnst.local_hour_partial",
    "Verif.Cnst.local_hour_violated"
   ],
   "note": "Exact characterisation; windows across midnight exclude their own bounds, and local hours are wrong for two hours at the time change."
  },
  {
   "property": "C170",
   "status": "partial",
   "theorems": [
    "Verif.Parset.sky_accepted",
    "Verif.Parset.sky_written",
    "Verif.Parset.sky_range_violated",
    "Verif.Parset.sky_parts_violated",
    "Verif.Parset.sky_bare_violated",
    "Verif.Parset.azimuth_accepted",
    "Verif.Parset.azimuth_numbers",
    "Verif.Parset.azimuth_partial",
    "Verif.Parset.azimuth_range_violated",
    "Verif.Parset.azimuth_refused",
    "Verif.Parset.elevation_accepted",
    "Verif.Parset.elevation_numbers",
    "Verif.Parset.elevation_range_violated",
    "Verif.Parset.offset_accepted",
    "Verif.Parset.hour_accepted",
    "Verif.Parset.hour_signs_violated",
    "Verif.Parset.hour_unit_violated"
   ],
   "note": "The accepted texts are known exactly. Violated: nothing bounds right ascensions and declinations, nor their minutes and seconds; they are refused without quotes, thus as numbers; azimuths go up to 999, elevations from -99 to 99; hour angles may have any number of signs and need a unit, which the value put in the file for the delay after the transit has not."
  },
  {
   "property": "C171",
   "status": "partial",
   "theorems": [
    "Verif.Dyn.load_exact",
    "Verif.Dyn.load_cut",
    "Verif.Dyn.read_sound",
    "Verif.Dyn.read_fields",
    "Verif.Dyn.read_default_partial",
    "Verif.Dyn.read_last_violated",
    "Verif.Dyn.read_gap_violated",
    "Verif.Dyn.read_late_violated",
    "Verif.Dyn.read_refused_violated"
   ],
   "note": "For all files, settings and contents: each value read is the one recorded for the beam, with its frequency and its time counted from the first block; without ranges everything but the last spectrum is read, each value once, when the files start together and the sub-bands of the beam are side by side. Violated: the last spectrum is never returned; a gap between blocks shifts all later times; the values of a lane which starts one step later or less get the times of the first lane; one file with a single sub-band or an odd number of channels and nothing is read. Corrections are left at their defaults and all four parameters are asked for."
  },
  {
   "property": "C172",
   "status": "partial",
   "theorems": [
    "Verif.Astro.image_exact",
    "Verif.Astro.shown_values",
    "Verif.Astro.image_constant",
    "Verif.Astro.nearest_partial",
    "Verif.Astro.horizon_pixel_violated",
    "Verif.Astro.half_pixel_violated",
    "Verif.Astro.first_half_violated",
    "Verif.Astro.pixel_size",
    "Verif.Astro.image_size",
    "Verif.Astro.opposite_violated",
    "Verif.Astro.centre_pixel",
    "Verif.Astro.part_difference",
    "Verif.Astro.shaped_same"
   ],
   "note": "Each pixel is the mean of the directions whose position has its number as whole part. Violated: positions are cut instead of rounded, thus half of the directions in each axis are drawn one pixel too low and those of the first half pixel are lost; a pixel with one hidden direction is blank although others are visible; at any resolution the direction opposite to the centre is outside of the whole-sky image."
  },
  {
   "property": "C173",
   "status": "partial",
   "theorems": [
    "Verif.TF.wave_polarised",
    "Verif.TF.polarised_exists",
    "Verif.TF.angle_positive_partial",
    "Verif.TF.angle_across_violated",
    "Verif.TF.angle_diagonal",
    "Verif.TF.angle_range",
    "Verif.TF.angle_perpendicular_violated",
    "Verif.TF.angle_faraday_partial",
    "Verif.TF.angle_emitted",
    "Verif.TF.angle_measure_partial"
   ],
   "note": "Right for all data whose Q is positive or zero. Violated: all data whose Q is negative are given the perpendicular direction, thus perpendicular waves get the same angle; angles are only within an eighth of a turn of zero. Faraday rotation and its correction are followed up to quarter turns."
  },
  {
   "property": "C174",
   "status": "partial",
   "theorems": [
    "Verif.Config.receiver_curve",
    "Verif.Config.total_exact_partial",
    "Verif.Config.total_files",
    "Verif.Config.total_lengths_violated",
    "Verif.Config.total_single_violated",
    "Verif.Config.total_times_violated",
    "Verif.Config.total_default_violated"
   ],
   "note": "Right for all receivers whose configurations start at the same times, thus for all lists of files. Violated: arrays are added by rank and drawn at the times of the last receiver: other times give volumes before they are recorded, a single configuration is counted from the first point on, other lengths raise; without a list of receivers all of them need a configuration."
  },
  {
   "property": "C175",
   "status": "proved",
   "theorems": [
    "Verif.Astro.components_sum",
    "Verif.Astro.covariance_hermitian",
    "Verif.Astro.covariance_trace",
    "Verif.Astro.covariance_pure",
    "Verif.Astro.covariance_positive",
    "Verif.Astro.covariance_back",
    "Verif.Astro.covariance_documented",
    "Verif.Astro.covariance_documented_violated"
   ],
   "note": "For all matrices. The formula of the documentation lacks the change of basis which the code makes: the two matrices differ but are similar."
  },
  {
   "property": "C176",
   "status": "partial",
   "theorems": [
    "Verif.Scheduler.rows_cover",
    "Verif.Scheduler.title_once",
    "Verif.Scheduler.row_content",
    "Verif.Scheduler.rows_refused",
    "Verif.Scheduler.marks_cut_violated",
    "Verif.Scheduler.marks_once_partial",
    "Verif.Scheduler.first_row_violated",
    "Verif.Scheduler.range_blocks_partial",
    "Verif.Scheduler.range_content",
    "Verif.Scheduler.range_title_violated",
    "Verif.Scheduler.range_end_violated"
   ],
   "note": "Each moment of the schedule is in exactly one row and each booked block has its title in exactly one row, for all lengths of rows. Violated: a slot across two rows is marked nowhere, rows before the first slot are empty, the title of a block with less than half of its time in a range is written outside the drawing, and a block which ends with the range is not drawn."
  },
  {
   "property": "C177",
   "status": "partial",
   "theorems": [
    "Verif.IO.decibels_exact",
    "Verif.IO.decibels_missing",
    "Verif.IO.linear_exact",
    "Verif.IO.st_table",
    "Verif.IO.st_curves",
    "Verif.IO.st_single_violated",
    "Verif.IO.st_same_violated",
    "Verif.IO.percentile_below",
    "Verif.IO.percentile_above",
    "Verif.IO.percentile_regular",
    "Verif.IO.colour_limits",
    "Verif.IO.pol_place",
    "Verif.IO.sdata_table",
    "Verif.IO.sdata_spectrum",
    "Verif.IO.sdata_curve_violated",
    "Verif.IO.sdata_shown_violated",
    "Verif.IO.sdata_saved",
    "Verif.IO.scale_exact",
    "Verif.IO.scale_names",
    "Verif.IO.axis_named",
    "Verif.IO.scale_functions_violated",
    "Verif.IO.limits_linear",
    "Verif.IO.limits_log",
    "Verif.IO.limits_given",
    "Verif.IO.rs_table",
    "Verif.IO.rs_curves",
    "Verif.IO.rs_refused",
    "Verif.IO.rs_single_violated",
    "Verif.IO.multi_partial",
    "Verif.IO.multi_few",
    "Verif.IO.multi_curves_violated",
    "Verif.IO.multi_single_violated"
   ],
   "note": "Tables, spectra and light curves are exact for all shapes which are drawn. Violated: a single value cannot be drawn; values over time are drawn against frequency when there are as many of both; `SData.plot` always fails for one frequency, never shows a drawing and never uses functions given for the scale; `multi_plot` always fails for spectra, light curves and one panel."
  },
  {
   "property": "C178",
   "status": "partial",
   "theorems": [
    "Verif.IO.moved_rank",
    "Verif.IO.matrix_rank",
    "Verif.IO.matrix_exact_partial",
    "Verif.IO.matrix_order_violated",
    "Verif.IO.matrix_refused",
    "Verif.IO.matrix_repeated",
    "Verif.IO.rank_of_selection",
    "Verif.IO.matrix_of_file"
   ],
   "note": "Proved for all sets of mini-arrays; read from a file in increasing order, pairs are at their place for all orders of selection. Violated: a slice whose mini-arrays are not in increasing order (with its values in the same order) has pairs drawn at the place of others. Left out: limits of colours, ticks and labels, rounding of floats."
  },
  {
   "property": "C179",
   "status": "partial",
   "theorems": [
    "Verif.Instru.six_rotations",
    "Verif.Instru.sum_six",
    "Verif.Instru.shown_max",
    "Verif.Instru.levels_accepted",
    "Verif.Instru.levels_first_violated",
    "Verif.Instru.levels_flat",
    "Verif.Instru.sources_exact",
    "Verif.Instru.direction_exact",
    "Verif.Instru.frequency_checked",
    "Verif.Instru.figure_end",
    "Verif.Instru.current_exact",
    "Verif.Instru.current_times",
    "Verif.Instru.current_refused",
    "Verif.Instru.to_sky_one",
    "Verif.Instru.to_sky_violated"
   ],
   "note": "Beams, direction, sources and refusals are proved for all inputs. Violated: levels are powers of ten of a natural logarithm, so the lowest contour is at the power ln 10 of the percentile, below it, for all percentiles under one; a sky model refuses all lists of several times."
  },
  {
   "property": "C18",
   "status": "partial",
   "theorems": [
    "Verif.Cnst.evaluation_pure_partial",
    "Verif.Cnst.night_idempotent_partial",
    "Verif.Cnst.add_pure_partial",
    "Verif.Cnst.built_one_of_each",
    "Verif.Cnst.night_leak_violated",
    "Verif.Cnst.add_mutates_violated"
   ],
   "note": "Night constraints mask the shared Sun elevations and additions of elevation constraints change the left operand (both violated); pure otherwise."
  },
  {
   "property": "C180",
   "status": "partial",
   "theorems": [
    "Verif.Cnst.codes_regular",
    "Verif.Cnst.programme_exact",
    "Verif.Cnst.programme_refused",
    "Verif.Cnst.programme_entries",
    "Verif.Cnst.programme_colours",
    "Verif.Cnst.codes_topics",
    "Verif.Cnst.topics_codes_violated",
    "Verif.Cnst.title_lines",
    "Verif.Cnst.title_identifies",
    "Verif.Cnst.status_exact",
    "Verif.Cnst.status_none",
    "Verif.Cnst.label_violated",
    "Verif.Cnst.path_exact"
   ],
   "note": "Proved for all blocks. Violated: codes of topics which parsets accept (RP2A, LT1) are refused as programmes; all scores a bit below a limit are written as the limit with the lower status."
  },
  {
   "property": "C181",
   "status": "partial",
   "theorems": [
    "Verif.Astro.axes_replaced",
    "Verif.Astro.axes_alone",
    "Verif.Astro.opacity_partial",
    "Verif.Astro.opacity_zero_violated",
    "Verif.Astro.limits_exact",
    "Verif.Astro.limits_zero_violated",
    "Verif.Astro.limits_empty",
    "Verif.Astro.cardinals_exact",
    "Verif.Astro.coverages_partial",
    "Verif.Astro.coverages_violated",
    "Verif.Astro.texts_exact",
    "Verif.Astro.text_letter_violated",
    "Verif.Astro.image_grid",
    "Verif.Astro.contours_partial",
    "Verif.Astro.contours_half_violated",
    "Verif.Astro.sky_accepted",
    "Verif.Astro.sky_content",
    "Verif.Astro.sky_tuples",
    "Verif.Astro.figures_violated"
   ],
   "note": "Proved for all arguments. Violated: zero opacities give no opacity at all instead of a transparent image; a zero value in decibels takes the lower limit of colours to minus infinity; only two coverages are drawn; a text not in a list is cut to its first letter; contours over a whole sky of directions other than HEALPix cells only cover the left half of the image, at all resolutions; all figures of the caller are closed, and a returned or refused drawing leaves one more open. Left out: colours, ticks, grids, the coverage in horizontal coordinates."
  },
  {
   "property": "C182",
   "status": "partial",
   "theorems": [
    "Verif.TF.id_exact",
    "Verif.TF.order_partial",
    "Verif.TF.order_violated",
    "Verif.TF.info_partial",
    "Verif.TF.info_violated",
    "Verif.TF.info_empty",
    "Verif.TF.info_new",
    "Verif.TF.info_ratio_violated",
    "Verif.TF.item_exact"
   ],
   "note": "Proved for all files. Violated: a name before COORDINATES in the alphabet, or a ratio such as V/I, stops the description of the whole file, for all data; beams of four digits are told before others of three. Left out: the attributes printed on request."
  },
  {
   "property": "C183",
   "status": "partial",
   "theorems": [
    "Verif.Instru.Sheet.cleaned_exact",
    "Verif.Instru.Sheet.number_text",
    "Verif.Instru.Sheet.unbuilt_iff",
    "Verif.Instru.Sheet.table_partial",
    "Verif.Instru.Sheet.table_refused",
    "Verif.Instru.Sheet.unbuilt_apart",
    "Verif.Instru.Sheet.saved_exact",
    "Verif.Instru.Sheet.latitude_violated",
    "Verif.Instru.Sheet.all_built_violated",
    "Verif.Instru.Sheet.repeated_violated"
   ],
   "note": "Proved for all sheets. Violated: latitudes are read as longitudes, so all southern ones are written from 270 to 360; once no row is marked as unbuilt the function fails; of two rows with the same number the first is lost without a word. The reading of angles is a parameter; texts of numbers with signs or spaces are left out."
  },
  {
   "property": "C184",
   "status": "partial",
   "theorems": [
    "Verif.Cal.title_exact",
    "Verif.Cal.title_short",
    "Verif.Cal.title_zero",
    "Verif.Cal.title_filler_violated",
    "Verif.Cal.drawn_exact",
    "Verif.Cal.titled_partial",
    "Verif.Cal.titled_violated",
    "Verif.Cal.click_exact",
    "Verif.Cal.clicks_last",
    "Verif.Cal.click_many_violated"
   ],
   "note": "Proved for all events. Violated: an event named filler of any programme has the title of another one on the pages of months; an event whose middle is in a month between its first and its last has no title on any line; a click selects all the events at this place."
  },
  {
   "property": "C185",
   "status": "proved",
   "theorems": [
    "Verif.Contam.positions_exact",
    "Verif.Contam.located_unique",
    "Verif.Contam.refused_exact",
    "Verif.Contam.named_still",
    "Verif.Contam.names_counted",
    "Verif.Contam.names_weighted",
    "Verif.Contam.bodies_exact",
    "Verif.Contam.names_refused"
   ],
   "note": "Ephemerides, changes of frame, the resolution of names and the reading of floats are parameters; cases are those of ASCII letters."
  },
  {
   "property": "C186",
   "status": "partial",
   "theorems": [
    "Verif.IO.Names.lane_exact",
    "Verif.IO.Names.lane_refused",
    "Verif.IO.Names.lane_partial",
    "Verif.IO.Names.lane_digits_violated",
    "Verif.IO.Names.lane_dot_violated",
    "Verif.IO.Names.raw_exact",
    "Verif.IO.Names.raw_digits_violated",
    "Verif.IO.Names.parset_exact",
    "Verif.IO.Names.parset_refused",
    "Verif.IO.Names.written_read",
    "Verif.IO.Names.json_name_partial",
    "Verif.IO.Names.json_distinct_partial",
    "Verif.IO.Names.exported_exact",
    "Verif.IO.Names.json_directory_violated",
    "Verif.IO.Names.json_name_violated",
    "Verif.IO.Names.excel_violated",
    "Verif.IO.Names.excel_refused"
   ],
   "note": "For all texts. Violated: lanes of several digits, the character before the extension, exports of files with the same name in two directories, names with the extension twice, and the conversion of spreadsheets."
  },
  {
   "property": "C187",
   "status": "partial",
   "theorems": [
    "Verif.GA.plot_calls",
    "Verif.GA.plot_once_partial",
    "Verif.GA.plot_again_violated"
   ],
   "note": "For all fitnesses, draws and arguments. Exact after one call; after a second one the counter of generations and the scores differ and the plot is refused (violated). matplotlib is taken to refuse lists of different lengths and to leave out masked points."
  },
  {
   "property": "C188",
   "status": "partial",
   "theorems": [
    "Verif.IO.TvDraw.names_drawn",
    "Verif.IO.TvDraw.named_unique",
    "Verif.IO.TvDraw.imprints_after",
    "Verif.IO.TvDraw.drawing_changes_violated",
    "Verif.IO.TvDraw.drawing_twice",
    "Verif.IO.TvDraw.name_inside",
    "Verif.IO.TvDraw.name_border_violated",
    "Verif.IO.TvDraw.names_four_violated",
    "Verif.IO.TvDraw.border_sides_violated",
    "Verif.IO.TvDraw.pixel_cell",
    "Verif.IO.TvDraw.pixel_shift_violated"
   ],
   "note": "For all imprints with positive maxima. Places of names are exact and independent of the other sources (three pixels a side or more); a second drawing changes nothing. Violated: the drawing normalises the imprints of the object, names can stay at the border, the borders differ by one pixel, pixels are drawn off their points by up to half a cell. NaN and colours are left out."
  },
  {
   "property": "C189",
   "status": "partial",
   "theorems": [
    "Verif.IO.TvPicture.picture_names",
    "Verif.IO.TvPicture.picture_names_partial",
    "Verif.IO.TvPicture.unnamed_violated",
    "Verif.IO.TvPicture.outside_violated",
    "Verif.IO.TvPicture.user_text_violated",
    "Verif.IO.TvPicture.keyword_twice_violated"
   ],
   "note": "Exact for all fields of view. Names and radius agree at 12.5 degrees only (violated above and below it); texts of the user are dropped when a source is in the field, and three keywords are refused (violated). Separations and contours are parameters."
  },
  {
   "property": "C19",
   "status": "partial",
   "theorems": [
    "Verif.GA.evolve_best",
    "Verif.GA.evolve_monotone",
    "Verif.GA.generations_monotone",
    "Verif.GA.evolve_stops",
    "Verif.GA.tournament_winner",
    "Verif.GA.tournament_fits",
    "Verif.GA.negative_fitness_violated",
    "Verif.GA.second_call_violated",
    "Verif.GA.odd_population_violated",
    "Verif.GA.population_size",
    "Verif.GA.evolve_counts",
    "Verif.GA.again_genome_violated",
    "Verif.GA.again_once_violated",
    "Verif.GA.again_none_violated"
   ],
   "note": "Proved for a first call and any fitness, draws and parameters; a second call on the same object and non-positive fitnesses break the agreement of genome and score."
  },
  {
   "property": "C190",
   "status": "partial",
   "theorems": [
    "Verif.IO.eq_exact",
    "Verif.IO.eq_self_partial",
    "Verif.IO.eq_self_violated",
    "Verif.IO.eq_trans",
    "Verif.IO.eq_both_partial",
    "Verif.IO.eq_one_side_violated",
    "Verif.IO.eq_removed_violated",
    "Verif.IO.eq_nothing_violated",
    "Verif.IO.eq_other_violated",
    "Verif.IO.eq_directories"
   ],
   "note": "Exact answer of the comparison for any two sets; symmetry, comparison of sets with pointing files and comparison with other objects are disproved for all inputs."
  },
  {
   "property": "C191",
   "status": "partial",
   "theorems": [
    "Verif.IO.Smooth.smooth_refused",
    "Verif.IO.Smooth.smooth_bounds",
    "Verif.IO.Smooth.smooth_flat",
    "Verif.IO.Smooth.pass_exact",
    "Verif.IO.Smooth.smooth_affine",
    "Verif.IO.Smooth.smooth_passes",
    "Verif.IO.Smooth.peak_removed",
    "Verif.IO.Smooth.dip_kept_violated"
   ],
   "note": "For all curves, windows, clippings and numbers of passes. Lone dips are never removed by a pass (violated for all depths). Values are exact reals without NaN; a negative number of passes, with which the loop does not end, is left out."
  },
  {
   "property": "C192",
   "status": "partial",
   "theorems": [
    "Verif.Astro.gsm_exact",
    "Verif.Astro.gsm_mhz",
    "Verif.Astro.gsm_refused",
    "Verif.Astro.gsm_unit_violated",
    "Verif.Astro.gsm_hertz_violated",
    "Verif.Astro.gsm_shaped",
    "Verif.Astro.gsm_shaped_none",
    "Verif.Astro.gsm_shaped_violated",
    "Verif.Astro.skymodel_units",
    "Verif.Astro.skymodel_single",
    "Verif.Astro.skymodel_first",
    "Verif.Astro.skymodel_mixed_violated"
   ],
   "note": "Exact values and exact refusals for all frequencies in MHz, times and resolutions; the unit of the frequencies is dropped, the last two maps of several are mixed as polarisations, and the polarisations of a sky are lost by shaped_like (violated)."
  },
  {
   "property": "C193",
   "status": "proved",
   "theorems": [
    "Verif.Astro.region_exact",
    "Verif.Astro.region_points",
    "Verif.Astro.region_near",
    "Verif.Astro.region_closed"
   ],
   "note": "For all coordinates whose texts have no comma: exact fields in order, spacing, closing, and distance of any azimuth to a point."
  },
  {
   "property": "C194",
   "status": "partial",
   "theorems": [
    "Verif.Instru.nda_one",
    "Verif.Instru.nda_polarisations_violated",
    "Verif.Instru.nda_below_violated",
    "Verif.Instru.nda_times_violated",
    "Verif.Instru.nda_shape_violated"
   ],
   "note": "At one time the gain is that of the map, from 0 to 1. Violated for all skies: both polarisations are the same; directions below the horizon have a positive gain; at several times the axis of times is put on that of frequencies, or the call fails. Left out: the constructor, which reads a file of the machine of the author; floats."
  },
  {
   "property": "C195",
   "status": "partial",
   "theorems": [
    "Verif.IO.slice_part_exact",
    "Verif.IO.slice_part_refused",
    "Verif.IO.slice_part_curve_violated",
    "Verif.IO.slice_part_pointings_violated",
    "Verif.IO.cut_join",
    "Verif.IO.cut_join_time_violated",
    "Verif.IO.slice_sdata",
    "Verif.IO.slice_sdata_curve_violated",
    "Verif.IO.slice_part_sdata"
   ],
   "note": "Exact for all tables, bounds and steps, and parts in frequency join back. Violated: no part of a light curve or spectrum can be taken nor made a data set, tables cut in time never join back, and a part keeps pointings outside of it."
  },
  {
   "property": "C196",
   "status": "partial",
   "theorems": [
    "Verif.Astro.local_map_exact",
    "Verif.Astro.local_map_refused",
    "Verif.Astro.local_map_near",
    "Verif.Astro.local_map_repeats_violated",
    "Verif.Astro.local_map_single_violated",
    "Verif.Astro.to_sky_exact",
    "Verif.Astro.to_sky_times_violated"
   ],
   "note": "Exact for all sizes, and every direction is near one of the map. Violated: north is in the map twice and the zenith in all columns, one elevation is the horizon only, and no sky of several times can be made. Left out: the change of coordinates and the interpolation (libraries), floats."
  },
  {
   "property": "C197",
   "status": "partial",
   "theorems": [
    "Verif.TF.volume_limit_exact",
    "Verif.TF.volume_samples",
    "Verif.TF.dedispersed_below",
    "Verif.TF.dedispersion_skipped_violated",
    "Verif.TF.dedispersion_order_violated"
   ],
   "note": "Exact for all tables and lists of tasks. Violated for all large data: the de-dispersion is left out without exception, so that a smaller result computed from them, or a file, is not de-dispersed. Left out: the parameters after an interruption (C49), the values of the tasks (other properties)."
  },
  {
   "property": "C198",
   "status": "partial",
   "theorems": [
    "Verif.Cal.crossings_total",
    "Verif.Cal.crossings_sides",
    "Verif.Cal.crossings_absent",
    "Verif.Cal.crossings_order",
    "Verif.Cal.crossings_none",
    "Verif.Cal.crossings_available",
    "Verif.Cal.crossings_unavailable_violated"
   ],
   "note": "Exact for all calendars, orders and events of positive length. Violated: calendars made by the constructor lack the attributes which the count reads, so that it always fails. Equality of events is that of their times, programmes and names."
  },
  {
   "property": "C199",
   "status": "partial",
   "theorems": [
    "Verif.Astro.uv_figure_exact",
    "Verif.Astro.uv_figure_contains",
    "Verif.Astro.uv_figure_centred",
    "Verif.Astro.uv_figure_empty",
    "Verif.Astro.uv_figure_waves",
    "Verif.Astro.uv_figure_flat_violated"
   ],
   "note": "Exact for all coverages, with exact numbers. Violated: with autocorrelations only the figure has no width. The drawing is left out."
  },
  {
   "property": "C20",
   "status": "proved",
   "theorems": [
    "Verif.GA.crossover_locus",
    "Verif.GA.spco_exchanges",
    "Verif.GA.tpco_keeps_last",
    "Verif.GA.crossover_unknown"
   ],
   "note": ""
  },
  {
   "property": "C21",
   "status": "partial",
   "theorems": [
    "Verif.Cal.night_split_exact",
    "Verif.Cal.event_hours_exact",
    "Verif.Cal.long_event_violated",
    "Verif.Cal.long_event_loses_days"
   ],
   "note": "Exact for events of at most 24 h; whole days are lost for longer events."
  },
  {
   "property": "C22",
   "status": "partial",
   "theorems": [
    "Verif.Cal.overlap_exact",
    "Verif.Cal.overlap_symm",
    "Verif.Cal.intersection_exact",
    "Verif.Cal.overlap_agree",
    "Verif.Cal.empty_event_violated"
   ],
   "note": "Exact for events of positive length; empty events inside another are reported."
  },
  {
   "property": "C23",
   "status": "partial",
   "theorems": [
    "Verif.Cal.sort_chain",
    "Verif.Cal.neighbours_enough",
    "Verif.Cal.vcr_keeps_time",
    "Verif.Cal.vcr_succeeds_partial",
    "Verif.Cal.vcr_add_error",
    "Verif.Cal.vcr_no_repeat",
    "Verif.Cal.merge_keeps_time",
    "Verif.Cal.merge_two",
    "Verif.Cal.comment_exact",
    "Verif.Cal.merge_complete_partial",
    "Verif.Cal.row_exact",
    "Verif.Cal.row_refused",
    "Verif.Cal.row_first_merged_violated",
    "Verif.Cal.vcr_last_merge_violated",
    "Verif.Cal.vcr_overlap_violated",
    "Verif.Cal.vcr_renamed_violated",
    "Verif.Cal.vcr_empty_violated",
    "Verif.Cal.merge_comments_violated"
   ],
   "note": "Time is kept exactly whenever the file is written; several well-formed calendars crash or hide overlaps (violated)."
  },
  {
   "property": "C24",
   "status": "partial",
   "theorems": [
    "Verif.Cal.summer_mask_exact",
    "Verif.Cal.season_agrees",
    "Verif.Cal.night_mask_partial",
    "Verif.Cal.season_unsorted_violated",
    "Verif.Cal.winter_evening_violated"
   ],
   "note": "Season mask exact for sorted times; night mask exact in summer, misses winter evenings."
  },
  {
   "property": "C25",
   "status": "partial",
   "theorems": [
    "Verif.Config.config_in_range_partial",
    "Verif.Config.assignments_in_range_partial",
    "Verif.Config.isPow2_iff",
    "Verif.Config.defaults_fine",
    "Verif.Config.construct_default",
    "Verif.Config.in_range_kept",
    "Verif.Config.out_of_range_default",
    "Verif.Config.nan_violated"
   ],
   "note": "All backends, all sequences of assignments; NaN passes the checks (violated)."
  },
  {
   "property": "C26",
   "status": "partial",
   "theorems": [
    "Verif.Config.volume_nonneg_partial",
    "Verif.Config.volume_add",
    "Verif.Config.volume_total",
    "Verif.Config.volume_total_perm",
    "Verif.Config.assign_used",
    "Verif.Config.raw_volume_violated",
    "Verif.Config.assign_ignored_violated"
   ],
   "note": "Raw observations below one minute have negative volumes; later assignments are ignored by multi-beam backends (both violated)."
  },
  {
   "property": "C27",
   "status": "partial",
   "theorems": [
    "Verif.Config.cumulative_exact_partial",
    "Verif.Config.byStart_sorted",
    "Verif.Config.cumulative_get",
    "Verif.Config.cumulative_violated",
    "Verif.Config.cumulative_empty_violated"
   ],
   "note": "Proved for non-negative volumes; short raw observations make it decrease; a receiver without configurations raises."
  },
  {
   "property": "C28",
   "status": "partial",
   "theorems": [
    "Verif.Config.resolutions_realisable",
    "Verif.Config.resolutions_nearest",
    "Verif.Config.resolutions_fixed",
    "Verif.Config.resolutions_idempotent",
    "Verif.Config.resolutions_in_range",
    "Verif.Config.resolution_closest_violated"
   ],
   "note": "Realisable pair for all requests; nearest in number of channels, not in resolution."
  },
  {
   "property": "C29",
   "status": "partial",
   "theorems": [
    "Verif.Parset.list_read_exact",
    "Verif.Parset.list_round_trip_partial",
    "Verif.Parset.empty_list_violated",
    "Verif.Parset.list_text_violated",
    "Verif.Parset.bad_range",
    "Verif.Parset.name_case_violated",
    "Verif.Parset.duration_seconds_partial",
    "Verif.Parset.duration_minutes_violated",
    "Verif.Parset.duration_exact",
    "Verif.Parset.duration_restored",
    "Verif.Parset.angle_clipped",
    "Verif.Parset.angle_wrap_violated"
   ],
   "note": "Every list of plain numbers and increasing ranges parses to exactly what it denotes; non-empty lists of numbers round trip; empty lists and lists of other texts do not (violated)."
  },
  {
   "property": "C30",
   "status": "proved",
   "theorems": [
    "Verif.Parset.runs_exact",
    "Verif.Parset.frequency_exact",
    "Verif.Parset.miniarrays_exact",
    "Verif.Parset.frequency_errors"
   ],
   "note": ""
  },
  {
   "property": "C31",
   "status": "partial",
   "theorems": [
    "Verif.Parset.index_exact",
    "Verif.Parset.numbering_consistent_partial",
    "Verif.Parset.phase_centers_numbered_partial",
    "Verif.Parset.remove_beam_exact",
    "Verif.Parset.add_beam_exact",
    "Verif.Parset.remove_analog_exact",
    "Verif.Parset.other_edits_exact",
    "Verif.Parset.remove_center_exact",
    "Verif.Parset.add_center_exact",
    "Verif.Parset.edits_refused",
    "Verif.Parset.phase_center_numbers_violated",
    "Verif.Parset.no_beam_violated"
   ],
   "note": "All histories of additions and removals; phase-center numbers go stale when an analog beam is removed, and the beam reference can be set by hand to a missing beam (violated)."
  },
  {
   "property": "C32",
   "status": "partial",
   "theorems": [
    "Verif.Parset.stored_bool",
    "Verif.Parset.stored_time",
    "Verif.Parset.stored_delta",
    "Verif.Parset.stored_list",
    "Verif.Parset.modify_exact",
    "Verif.Parset.unknown_keys_ignored",
    "Verif.Parset.written_exact",
    "Verif.Parset.file_round_trip",
    "Verif.Parset.beamIndex_refused",
    "Verif.Parset.leading_blank_violated",
    "Verif.Parset.comment_line_violated"
   ],
   "note": "Unknown keys are ignored with a warning rather than rejected; files starting with an empty line cannot be read (violated)."
  },
  {
   "property": "C33",
   "status": "partial",
   "theorems": [
    "Verif.Parset.ids_distinct_partial",
    "Verif.Parset.data_exact",
    "Verif.Parset.core_kept",
    "Verif.Parset.unknown_fov",
    "Verif.Parset.ids_collision_violated",
    "Verif.Parset.ids_order_violated",
    "Verif.Parset.data_twice_violated",
    "Verif.Parset.remote_dropped_violated"
   ],
   "note": "Identifiers distinct for files with at least one numerical beam and beams numbered in order; collisions otherwise, and reading an entry twice duplicates pointings (violated). The export of C103 fails before this for files with durations."
  },
  {
   "property": "C34",
   "status": "partial",
   "theorems": [
    "Verif.Instru.freq2sb_exact",
    "Verif.Instru.sb_round_trip_partial",
    "Verif.Instru.sb_range",
    "Verif.Instru.sb_zero_violated",
    "Verif.Instru.sb_512_violated",
    "Verif.Instru.sb_start_violated"
   ],
   "note": "freq2sb is exact for the bands centred on multiples of the width; the round trip holds for sub-bands 1 to 511 and fails for 0; 512 is returned near 100 MHz and refused by sb2freq; sb2freq is half a band below its documentation."
  },
  {
   "property": "C35",
   "status": "partial",
   "theorems": [
    "Verif.Instru.select_names_exact",
    "Verif.Instru.select_names_succeeds",
    "Verif.Instru.select_idx_exact",
    "Verif.Instru.select_idx_succeeds",
    "Verif.Instru.select_slice_exact",
    "Verif.Instru.add_exact",
    "Verif.Instru.add_succeeds",
    "Verif.Instru.sub_exact",
    "Verif.Instru.sub_succeeds",
    "Verif.Instru.chain_exact",
    "Verif.Instru.mask_rows",
    "Verif.Instru.select_errors",
    "Verif.Instru.negative_index_violated",
    "Verif.Instru.open_slice_violated",
    "Verif.Instru.full_slice_violated",
    "Verif.Instru.remove_all_violated"
   ],
   "note": "All chains of selections, unions and differences keep whole antennas and distinct names; negative positions are dropped, open slices select other antennas, empty results raise (violated)."
  },
  {
   "property": "C36",
   "status": "proved",
   "theorems": [
    "Verif.Geom.array_factor_range",
    "Verif.Geom.geo_delay_path",
    "Verif.Geom.array_factor_peak",
    "Verif.Geom.array_factor_unit",
    "Verif.Geom.array_factor_translation",
    "Verif.Geom.array_factor_symmetric"
   ],
   "note": ""
  },
  {
   "property": "C37",
   "status": "proved",
   "theorems": [
    "Verif.Instru.baselines_exact",
    "Verif.Instru.baselines_count",
    "Verif.Instru.baselines_algebra",
    "Verif.Instru.fresh_exact"
   ],
   "note": ""
  },
  {
   "property": "C38",
   "status": "partial",
   "theorems": [
    "Verif.Instru.groups_total",
    "Verif.Instru.groups_index",
    "Verif.Instru.grouping_exact_partial",
    "Verif.Instru.grouping_one_rotation_partial",
    "Verif.Instru.rotated_like_exact",
    "Verif.Instru.rotated_like_error",
    "Verif.Instru.grouping_violated",
    "Verif.Instru.beam_repeat_violated"
   ],
   "note": "Exact when the analog direction of one group does not depend on the previous one; it does in the code, and the pointing is left changed (violated)."
  },
  {
   "property": "C39",
   "status": "partial",
   "theorems": [
    "Verif.Instru.tools_order_closest",
    "Verif.Instru.tools_order_range",
    "Verif.Instru.tools_order_round_trip",
    "Verif.Instru.ma_order_closest_partial",
    "Verif.Instru.ma_order_violated",
    "Verif.Instru.unique_index_exact",
    "Verif.Instru.unique_index_least",
    "Verif.Instru.ma_order_rows"
   ],
   "note": "Closest grid direction for any separation function in instrument_tools; the order used in beam simulations is one step off in half of the grid (violated)."
  },
  {
   "property": "C40",
   "status": "proved",
   "theorems": [
    "Verif.Instru.subarrays_partition",
    "Verif.Instru.subarrays_error"
   ],
   "note": ""
  },
  {
   "property": "C41",
   "status": "proved",
   "theorems": [
    "Verif.Geom.ma_rotation_keeps",
    "Verif.Geom.rot90_keeps",
    "Verif.Geom.enu_keeps",
    "Verif.Geom.uvw_keeps",
    "Verif.Geom.vis_keeps",
    "Verif.Geom.distances_kept",
    "Verif.Geom.uvw_length",
    "Verif.Geom.ma_relative_rotation"
   ],
   "note": ""
  },
  {
   "property": "C42",
   "status": "partial",
   "theorems": [
    "Verif.TF.blocks_exact",
    "Verif.TF.blocks_bijection",
    "Verif.TF.freq_of_channel",
    "Verif.TF.time_of_row",
    "Verif.TF.freq_increasing",
    "Verif.TF.blocks_odd",
    "Verif.TF.blocks_dims",
    "Verif.TF.blocks_mismatch",
    "Verif.TF.beam_edges_exact",
    "Verif.TF.beam_edges_found",
    "Verif.TF.beam_edges_old",
    "Verif.TF.beam_edges_violated"
   ],
   "note": "Re-ordering of blocks, times and frequencies exact for all sizes; beams whose sub-bands are not contiguous in the file get those of others (violated)."
  },
  {
   "property": "C43",
   "status": "partial",
   "theorems": [
    "Verif.TF.rint_near",
    "Verif.TF.rint_int",
    "Verif.TF.cell_delay_near",
    "Verif.TF.cell_delay_law",
    "Verif.TF.cell_delay_ref",
    "Verif.TF.cell_delay_nonneg",
    "Verif.TF.dedisperse_exact",
    "Verif.TF.dedisperse_reference",
    "Verif.TF.dedisperse_mismatch",
    "Verif.TF.dedisperse_imag_violated",
    "Verif.TF.dedisperse_negative_violated",
    "Verif.TF.dedisperse_last_violated",
    "Verif.TF.dedisperse_old_partial",
    "Verif.TF.dedisperse_old_reference_violated",
    "Verif.TF.dedisperse_old_negative_violated"
   ],
   "note": "Each channel is moved by its own delay for all non-negative delays; imaginary parts are lost, negative dispersion measures wrap (violated)."
  },
  {
   "property": "C44",
   "status": "partial",
   "theorems": [
    "Verif.TF.stokes_exact",
    "Verif.TF.stokes_fractions",
    "Verif.TF.stokes_inequality",
    "Verif.TF.stokes_equality",
    "Verif.TF.stokes_refused",
    "Verif.TF.stokes_readers_agree",
    "Verif.TF.stokes_xst_partial",
    "Verif.TF.stokes_xst_sign_violated"
   ],
   "note": "All Jones matrices; the XST reader has V with the other sign (violated)."
  },
  {
   "property": "C45",
   "status": "partial",
   "theorems": [
    "Verif.TF.rotate_add",
    "Verif.TF.faraday_undo",
    "Verif.TF.faraday_restores",
    "Verif.TF.rotate_field",
    "Verif.TF.rotate_stokes",
    "Verif.TF.faraday_stokes",
    "Verif.TF.recorded_hermitian",
    "Verif.TF.faraday_readers_agree",
    "Verif.TF.faraday_nonhermitian_violated",
    "Verif.TF.faraday_dims",
    "Verif.TF.parallactic_stokes"
   ],
   "note": "The two readers agree for data from recorded spectra (hermitian); they do not for other matrices."
  },
  {
   "property": "C46",
   "status": "partial",
   "theorems": [
    "Verif.TF.nanmean_some",
    "Verif.TF.nanmean_none",
    "Verif.TF.bin_size_spec",
    "Verif.TF.rebin_exact_partial",
    "Verif.TF.rebin_whole",
    "Verif.TF.rebin_errors",
    "Verif.TF.rebin_old_width",
    "Verif.TF.rebin_old_violated"
   ],
   "note": "Every output bin is the mean of the valid samples of its window for all sizes; trailing samples are dropped."
  },
  {
   "property": "C47",
   "status": "partial",
   "theorems": [
    "Verif.TF.crop_exact",
    "Verif.TF.crop_rejected",
    "Verif.TF.crop_negative_violated",
    "Verif.TF.remove_exact",
    "Verif.TF.remove_rejected",
    "Verif.TF.remove_all_violated"
   ],
   "note": "Exact blanking of the requested channels for all shapes; negative counts and the whole-band removal misbehave (violated)."
  },
  {
   "property": "C48",
   "status": "partial",
   "theorems": [
    "Verif.TF.params_valid",
    "Verif.TF.params_reset",
    "Verif.TF.params_rejected",
    "Verif.TF.params_accepted",
    "Verif.TF.params_refused",
    "Verif.TF.params_nan_violated"
   ],
   "note": "All histories of assignments and resets; NaN passes the bounds and None is always accepted (violated)."
  },
  {
   "property": "C49",
   "status": "partial",
   "theorems": [
    "Verif.TF.get_pure_partial",
    "Verif.TF.get_refused_exact",
    "Verif.TF.get_one_refused_partial",
    "Verif.TF.get_refused_violated",
    "Verif.TF.get_volume_violated"
   ],
   "note": "The reader is unchanged when all options are accepted and the call ends normally or with an exception; options leak when a later one is refused, when the volume is too large and on interruption (violated)."
  },
  {
   "property": "C50",
   "status": "partial",
   "theorems": [
    "Verif.TF.tasks_unique_partial",
    "Verif.TF.insert_exact",
    "Verif.TF.append_exact",
    "Verif.TF.remove_name_exact",
    "Verif.TF.remove_index_exact",
    "Verif.TF.remove_negative_exact",
    "Verif.TF.run_append",
    "Verif.TF.run_order",
    "Verif.TF.remove_two_violated",
    "Verif.TF.tasks_ctor_violated"
   ],
   "note": "All histories of edits; removing two positions at once shifts the second, and the constructor does not check repetitions (violated)."
  },
  {
   "property": "C51",
   "status": "partial",
   "theorems": [
    "Verif.TF.select_axes",
    "Verif.TF.near_block_partial",
    "Verif.TF.select_covers_partial",
    "Verif.TF.near_subband",
    "Verif.TF.select_short_violated",
    "Verif.TF.select_long_violated",
    "Verif.TF.select_short_blocks_violated",
    "Verif.TF.select_long_blocks_violated",
    "Verif.TF.select_one_sample_violated"
   ],
   "note": "Axes always match the data; every requested sample is returned for blocks lasting one to two seconds; requested samples are lost for shorter and longer blocks, and a one-sample selection is reported empty (violated)."
  },
  {
   "property": "C52",
   "status": "partial",
   "theorems": [
    "Verif.TF.blank_good",
    "Verif.TF.bad_exact",
    "Verif.TF.blank_never_violated"
   ],
   "note": "Good blocks are untouched, but no block is ever blanked, for any mask (violated)."
  },
  {
   "property": "C53",
   "status": "partial",
   "theorems": [
    "Verif.IO.cross_idx_exact",
    "Verif.IO.cross_idx_length",
    "Verif.IO.get_exact_partial",
    "Verif.IO.get_xy_partial",
    "Verif.IO.get_refused",
    "Verif.IO.get_xy_violated",
    "Verif.IO.get_order_violated",
    "Verif.IO.get_any_order_violated"
   ],
   "note": "Exact for all sorted lists of mini-arrays and polarisations XX, YX, YY; XY cannot be read unless exactly one time or one frequency is selected, and unsorted requests get mislabelled baselines (violated)."
  },
  {
   "property": "C54",
   "status": "partial",
   "theorems": [
    "Verif.IO.beamform_exact",
    "Verif.IO.beamform_nonneg",
    "Verif.IO.beamform_steered_partial",
    "Verif.IO.beamform_source",
    "Verif.IO.beamform_violated",
    "Verif.IO.beamform_off_violated"
   ],
   "note": "Coherent power for all fields and sizes when the file holds mini-arrays 0 to n-1; otherwise the positions of other antennas are used (violated)."
  },
  {
   "property": "C55",
   "status": "partial",
   "theorems": [
    "Verif.Geom.rephase_identity",
    "Verif.Geom.rephase_compose",
    "Verif.Geom.rephase_point_source",
    "Verif.Geom.image_focus",
    "Verif.Geom.uvw_in_frame",
    "Verif.Geom.rephase_data_violated"
   ],
   "note": "Identity, composition and effect on point sources proved for all baselines, times and centres; the functions return the bare factors and not the re-phased data (violated)."
  },
  {
   "property": "C56",
   "status": "partial",
   "theorems": [
    "Verif.IO.and_tables",
    "Verif.IO.sdata_and_close",
    "Verif.IO.and_same_times",
    "Verif.IO.or_same_freqs",
    "Verif.IO.and_spectra",
    "Verif.IO.or_curves",
    "Verif.IO.sdata_or_partial",
    "Verif.IO.sdata_and_partial",
    "Verif.IO.or_tables_violated",
    "Verif.IO.sdata_or_violated",
    "Verif.IO.sdata_or_swapped_violated",
    "Verif.IO.sdata_and_shifted_violated",
    "Verif.IO.sdata_and_violated"
   ],
   "note": "Labels kept for all tables and spectra joined in frequency and light curves joined in time; tables joined in time, SData joined in time with the later first, and SData on shifted times lose them (violated)."
  },
  {
   "property": "C57",
   "status": "partial",
   "theorems": [
    "Verif.IO.op_axes",
    "Verif.IO.op_exact",
    "Verif.IO.sdata_op_refused_partial",
    "Verif.IO.sdata_op_common_violated",
    "Verif.IO.sdata_op_violated",
    "Verif.IO.op_curves",
    "Verif.IO.op_mixed",
    "Verif.IO.join_refused",
    "Verif.IO.sdata_join_refused"
   ],
   "note": "Exact for slices; SData are only refused if all their coordinates differ (violated)."
  },
  {
   "property": "C58",
   "status": "partial",
   "theorems": [
    "Verif.IO.parse_one",
    "Verif.IO.parse_two",
    "Verif.IO.parse_count",
    "Verif.IO.mask_range",
    "Verif.IO.bst_get_exact",
    "Verif.IO.default_times_partial",
    "Verif.IO.bst_select_exact",
    "Verif.IO.sst_skip_partial",
    "Verif.IO.default_times_violated",
    "Verif.IO.bst_default_violated",
    "Verif.IO.bst_beam_violated",
    "Verif.IO.sst_skip_violated",
    "Verif.IO.sst_eq_violated",
    "Verif.IO.parse_refused",
    "Verif.IO.bst_lowest_violated"
   ],
   "note": "Texts of one or two conditions are read exactly; first or last samples are lost by the default time selection, the lowest sub-band by the default BST_Data selection, and beams or files by others (violated)."
  },
  {
   "property": "C59",
   "status": "partial",
   "theorems": [
    "Verif.IO.accepts_positional",
    "Verif.IO.accepts_strict",
    "Verif.IO.accepts_arg_partial",
    "Verif.IO.accepts_shifted_violated",
    "Verif.IO.accepts_skipped_violated",
    "Verif.IO.accepts_default_violated",
    "Verif.IO.accepts_keyword_violated",
    "Verif.IO.accepts_excess_violated"
   ],
   "note": "Exact for calls with all or none of the optional arguments; other calls get wrong defaults or fail (violated)."
  },
  {
   "property": "C60",
   "status": "partial",
   "theorems": [
    "Verif.TF.beam_edges_exact",
    "Verif.TF.beam_edges_found",
    "Verif.TF.beam_edges_old",
    "Verif.TF.beam_edges_violated"
   ],
   "note": "Exact for beams whose sub-bands are contiguous in the file; otherwise channels of other beams are included (violated)."
  },
  {
   "property": "C61",
   "status": "proved",
   "theorems": [
    "Verif.Geom.toAltaz_exact",
    "Verif.Geom.toAltaz_range",
    "Verif.Geom.altaz_round_trip",
    "Verif.Geom.hadec_round_trip"
   ],
   "note": "Over the real numbers, off the zenith and the poles."
  },
  {
   "property": "C62",
   "status": "partial",
   "theorems": [
    "Verif.Geom.elevation_extremes",
    "Verif.Geom.circumpolar_partial",
    "Verif.Geom.culmination_true",
    "Verif.Geom.culmination_partial",
    "Verif.Geom.circumpolar_south_violated",
    "Verif.Geom.culmination_violated"
   ],
   "note": "Extremes exact for all latitudes and declinations; the circumpolar test only holds in the northern hemisphere and the culmination azimuth fails for some declinations (violated)."
  },
  {
   "property": "C63",
   "status": "partial",
   "theorems": [
    "Verif.Astro.crossing_ends",
    "Verif.Astro.crossing_sound",
    "Verif.Astro.crossing_kept",
    "Verif.Astro.crossing_found",
    "Verif.Astro.crossing_sorted",
    "Verif.Astro.next_crossing",
    "Verif.Astro.previous_crossing",
    "Verif.Astro.rise_splits",
    "Verif.Astro.set_splits",
    "Verif.Astro.az_splits",
    "Verif.Astro.azCirc_splits",
    "Verif.Astro.transit_splits",
    "Verif.Astro.transit_exact",
    "Verif.Astro.meridian_exact",
    "Verif.Astro.rise_found",
    "Verif.Astro.azimuth_circumpolar_violated",
    "Verif.Astro.azimuth_wrap_violated",
    "Verif.Astro.rise_twice_violated",
    "Verif.Astro.crossing_twice_violated",
    "Verif.Astro.rise_sample_violated",
    "Verif.Astro.azimuth_lost_violated",
    "Verif.Astro.south_returned_violated",
    "Verif.Astro.crossing_short_violated",
    "Verif.Astro.crossing_endless_violated"
   ],
   "note": "Termination, soundness and completeness of the refinement for all curves, windows and positive precisions; crossings at a sample are returned twice, azimuth crossings near 360 degrees are lost, false ones appear for circumpolar targets, short windows and a zero precision fail (violated)."
  },
  {
   "property": "C64",
   "status": "partial",
   "theorems": [
    "Verif.Astro.lookup_exact",
    "Verif.Astro.lookup_single",
    "Verif.Astro.durations_checked",
    "Verif.Astro.file_analog",
    "Verif.Astro.file_analog_single",
    "Verif.Astro.file_absent",
    "Verif.Astro.file_digital_partial",
    "Verif.Astro.bst_pointing",
    "Verif.Astro.transitSteps_odd",
    "Verif.Astro.transit_held",
    "Verif.Astro.transit_none",
    "Verif.Astro.file_digital_violated",
    "Verif.Astro.file_digital_single_violated",
    "Verif.Astro.file_analog_last_violated",
    "Verif.Astro.bst_north_violated",
    "Verif.Astro.bst_north_all_violated"
   ],
   "note": "Lookup exact for all tables and times; digital beams of files do not tile the span, the last direction of an analog beam is never used and interpolated azimuths pass through the south (violated)."
  },
  {
   "property": "C65",
   "status": "partial",
   "theorems": [
    "Verif.Astro.mueller_im",
    "Verif.Astro.mueller_real",
    "Verif.Astro.mueller_mul",
    "Verif.Astro.mueller_stokes",
    "Verif.Astro.to_stokes_exact",
    "Verif.Astro.elliptical_agree",
    "Verif.Astro.mueller_phase",
    "Verif.Astro.retarder_opposite",
    "Verif.Astro.retarder_partial",
    "Verif.Astro.half_wave",
    "Verif.Astro.retarder_disagree",
    "Verif.Astro.retarder_violated",
    "Verif.Astro.to_jones_partial",
    "Verif.Astro.to_jones_violated",
    "Verif.Astro.mueller_dims_violated",
    "Verif.Astro.stokes_to_jones",
    "Verif.Astro.stokes_round_trip",
    "Verif.Astro.stokes_unpolarised_violated",
    "Verif.Astro.stokes_elliptical",
    "Verif.Astro.linear_polariser"
   ],
   "note": "All matrices, fields and angles over the real numbers; retarders have opposite signs in both calculi, and matrices whose first entry is zero are not recovered (violated)."
  },
  {
   "property": "C66",
   "status": "partial",
   "theorems": [
    "Verif.Astro.antennas_exact",
    "Verif.Astro.coverage_exact",
    "Verif.Astro.coverage_count",
    "Verif.Astro.coverage_pairs",
    "Verif.Astro.coverage_distance",
    "Verif.Astro.distance_length",
    "Verif.Astro.coverage_refused",
    "Verif.Astro.coverage_w_violated"
   ],
   "note": "All numbers of antennas and baselines; u and v are mirrored but w is not (violated)."
  },
  {
   "property": "C67",
   "status": "partial",
   "theorems": [
    "Verif.Astro.mul_values",
    "Verif.Astro.mul_pure_partial",
    "Verif.Astro.mul_operand_violated",
    "Verif.Astro.mul_violated",
    "Verif.Astro.div_operand_violated",
    "Verif.Astro.div_violated",
    "Verif.Astro.div_others",
    "Verif.Astro.shapes_partial",
    "Verif.Astro.shapes_violated",
    "Verif.Astro.mul_failed_violated",
    "Verif.Astro.set_checked",
    "Verif.Astro.share_violated",
    "Verif.Astro.slice_partial",
    "Verif.Astro.slice_succeeds_iff",
    "Verif.Astro.slice_violated",
    "Verif.Astro.resolution_nearest"
   ],
   "note": "All histories; products leave the operands alone only for dask values, quotients never do, and assigning an axis breaks the shapes (violated)."
  },
  {
   "property": "C68",
   "status": "partial",
   "theorems": [
    "Verif.Astro.query_partial",
    "Verif.Astro.query_circle",
    "Verif.Astro.query_radius_partial",
    "Verif.Astro.query_violated",
    "Verif.Astro.failed_unchanged",
    "Verif.Astro.names_known",
    "Verif.Astro.search_exact",
    "Verif.Astro.reset_exact",
    "Verif.Astro.freq_condition",
    "Verif.Astro.ranges_assigned",
    "Verif.Astro.wavelength_exact"
   ],
   "note": "All histories of assignments; a radius set after the centre is not used by the query (violated)."
  },
  {
   "property": "C69",
   "status": "proved",
   "theorems": [
    "Verif.Geom.lmn_exact",
    "Verif.Geom.lmn_near",
    "Verif.Geom.lmn_far_violated"
   ],
   "note": "Beyond 90 degrees n keeps the positive sign (outside of the property)."
  },
  {
   "property": "C70",
   "status": "partial",
   "theorems": [
    "Verif.Instru.assign_exact",
    "Verif.Instru.steering_always_ok_partial",
    "Verif.Instru.nan_weight_violated"
   ],
   "note": "All histories of assignments without NaN; a NaN hides out-of-range weights (violated)."
  },
  {
   "property": "C71",
   "status": "partial",
   "theorems": [
    "Verif.TF.reconstruct_exact",
    "Verif.TF.reconstruct_regular",
    "Verif.TF.reconstruct_monotone",
    "Verif.TF.reconstruct_all_bad",
    "Verif.TF.regular_blocks",
    "Verif.TF.reconstruct_end_violated"
   ],
   "note": "Exact and monotone for all masks; bad blocks at either end get the start of the nearest good one (violated)."
  },
  {
   "property": "C72",
   "status": "partial",
   "theorems": [
    "Verif.TF.time_groups_cover",
    "Verif.TF.parallactic_rank",
    "Verif.TF.parallactic_stokes",
    "Verif.TF.time_groups_violated"
   ],
   "note": "Groups cover all samples once; a step below the sampling time fails with a division by zero (violated)."
  },
  {
   "property": "C73",
   "status": "proved",
   "theorems": [
    "Verif.IO.slice_bins"
   ],
   "note": "All lengths and non-negative ratios; windows as computed by the index function, averaging itself is in C46."
  },
  {
   "property": "C74",
   "status": "partial",
   "theorems": [
    "Verif.Astro.circular_polarisers_agree",
    "Verif.Astro.circular_stokes",
    "Verif.Astro.circular_names_violated",
    "Verif.Astro.circular_stokes_violated"
   ],
   "note": "The polarisers agree between both calculi; they stop the state of the same name, and Stokes vectors of circular states cannot be made (violated)."
  },
  {
   "property": "C75",
   "status": "partial",
   "theorems": [
    "Verif.Cnst.block_score_mean",
    "Verif.Cnst.block_score_between",
    "Verif.Cnst.block_score_nan",
    "Verif.Cnst.get_score_crossing",
    "Verif.Cnst.get_score_window",
    "Verif.Cnst.get_score_fraction",
    "Verif.Cnst.block_score_violated"
   ],
   "note": "All constraints, weights and slots; a constraint whose score cannot be computed breaks the statement (violated)."
  },
  {
   "property": "C76",
   "status": "partial",
   "theorems": [
    "Verif.Scheduler.row_exact",
    "Verif.Scheduler.candidates_exact",
    "Verif.Scheduler.very_strict_exact",
    "Verif.Scheduler.last_window_violated",
    "Verif.Scheduler.very_strict_violated"
   ],
   "note": "All schedules and scores, exact characterisations; the last window is never scored, and the strict filter asks for too many starts (violated)."
  },
  {
   "property": "C77",
   "status": "partial",
   "theorems": [
    "Verif.Scheduler.overlap_exact",
    "Verif.Scheduler.fitness_unit",
    "Verif.Scheduler.fitness_one",
    "Verif.Scheduler.fitness_overlap",
    "Verif.Scheduler.fitness_conflictless",
    "Verif.Scheduler.delays_exact_partial",
    "Verif.Scheduler.populate_scored",
    "Verif.Scheduler.populate_all",
    "Verif.Scheduler.mutation_inside",
    "Verif.Scheduler.delays_false_alarm_violated",
    "Verif.Scheduler.delays_missed_violated",
    "Verif.Scheduler.delays_two",
    "Verif.Scheduler.kept_two",
    "Verif.Scheduler.delays_false_alarm_all_violated",
    "Verif.Scheduler.delays_missed_all_violated",
    "Verif.Scheduler.last_gene_violated"
   ],
   "note": "Exact for all candidates without processing delay and all orders of equal starts; with delays the count is exact only if all candidates have one, otherwise it reads the delays of other blocks: false alarms and missed conflicts (violated, for all pairs of delayed candidates)."
  },
  {
   "property": "C78",
   "status": "partial",
   "theorems": [
    "Verif.TF.shown_exact",
    "Verif.TF.shown_runs_partial",
    "Verif.TF.shown_runs_others",
    "Verif.TF.idle_same",
    "Verif.TF.bandpass_hidden_violated",
    "Verif.TF.sticky_violated"
   ],
   "note": "Exact for all histories; first display right for seven tasks, and for the others exactly for the listed parameters; wrong after a reset and for the default bandpass correction (violated)."
  },
  {
   "property": "C79",
   "status": "partial",
   "theorems": [
    "Verif.TF.run_axes",
    "Verif.TF.labels_matrices",
    "Verif.TF.labels_stokes_partial",
    "Verif.TF.default_run",
    "Verif.TF.few_channels_violated",
    "Verif.TF.jones_after_stokes_violated"
   ],
   "note": "Axes fit for all pipelines; labels fit unless a Jones correction follows the Stokes parameters (violated); fewer than 16 channels per sub-band fail by default (violated)."
  },
  {
   "property": "C80",
   "status": "partial",
   "theorems": [
    "Verif.TF.rebin_once_partial",
    "Verif.TF.fresh_step",
    "Verif.TF.rebin_twice_violated",
    "Verif.TF.dedisperse_step_violated",
    "Verif.TF.dedisperse_after_violated",
    "Verif.TF.remove_after_violated",
    "Verif.TF.remove_after_rebin_violated"
   ],
   "note": "Exact for one average and for the tasks before it; repeated averages and tasks placed after an average use the recorded step (violated)."
  },
  {
   "property": "C81",
   "status": "partial",
   "theorems": [
    "Verif.TF.flatten_affine",
    "Verif.TF.flatten_flat_partial",
    "Verif.TF.flatten_times",
    "Verif.TF.flatten_refused",
    "Verif.TF.flatten_tilt_violated",
    "Verif.TF.flatten_sign_violated",
    "Verif.TF.flatten_one_violated"
   ],
   "note": "Exact value for all positive affine profiles; flat sub-bands and ratios in time are kept; every tilted sub-band stays uneven because the line is half a channel off (violated)."
  },
  {
   "property": "C82",
   "status": "proved",
   "theorems": [
    "Verif.Dyn.time_within",
    "Verif.Dyn.time_complete"
   ],
   "note": "All lanes with a positive step, all ranges."
  },
  {
   "property": "C83",
   "status": "partial",
   "theorems": [
    "Verif.Dyn.whole_file_partial",
    "Verif.Dyn.last_spectrum_violated"
   ],
   "note": "All lanes and ranges: the last spectrum is never read (violated); all others are."
  },
  {
   "property": "C84",
   "status": "proved",
   "theorems": [
    "Verif.Dyn.whole_subbands",
    "Verif.Dyn.freq_complete",
    "Verif.Dyn.outside_nothing"
   ],
   "note": "All lanes whose frequencies increase over the beam, all ranges."
  },
  {
   "property": "C85",
   "status": "partial",
   "theorems": [
    "Verif.Dyn.two_each_partial",
    "Verif.Dyn.edge_channel_violated",
    "Verif.Dyn.one_spectrum_violated",
    "Verif.Dyn.narrow_violated",
    "Verif.Dyn.narrow_all_violated",
    "Verif.Dyn.between_violated"
   ],
   "note": "Something is read when two spectra and two channels are in the ranges; ranges around one spectrum, or ending on the first channel, give nothing (violated)."
  },
  {
   "property": "C86",
   "status": "proved",
   "theorems": [
    "Verif.Dyn.settings_valid",
    "Verif.Dyn.range_set"
   ],
   "note": "All histories of settings on all readers."
  },
  {
   "property": "C87",
   "status": "partial",
   "theorems": [
    "Verif.Dyn.edges_exact_partial",
    "Verif.Dyn.half_edges_violated",
    "Verif.Dyn.other_lane_violated"
   ],
   "note": "Exact below half of the channels; half of them is accepted and leaves nothing, and lanes of another size fail (violated)."
  },
  {
   "property": "C88",
   "status": "partial",
   "theorems": [
    "Verif.Dyn.files_first_partial",
    "Verif.Dyn.files_append_violated",
    "Verif.Dyn.files_refused_violated"
   ],
   "note": "Exact for the first list; later lists are added to the former lanes, and a refused list leaves some of its lanes (violated)."
  },
  {
   "property": "C89",
   "status": "partial",
   "theorems": [
    "Verif.Dyn.gather_samples",
    "Verif.Dyn.gather_order_partial",
    "Verif.Dyn.gather_order_violated"
   ],
   "note": "Samples are kept for all numbers and orders of lanes; the axis is increasing when the lanes are in order, not in general (violated)."
  },
  {
   "property": "C90",
   "status": "partial",
   "theorems": [
    "Verif.Dyn.write_unknown_beam",
    "Verif.Dyn.text_refused",
    "Verif.Dyn.write_violated",
    "Verif.Dyn.write_raises_violated",
    "Verif.Dyn.write_beam_violated",
    "Verif.Dyn.documented_stokes_violated"
   ],
   "note": "Unknown beams are refused; writing fails for all data and parameters, changes the beam, and three documented parameters are refused (violated)."
  },
  {
   "property": "C91",
   "status": "partial",
   "theorems": [
    "Verif.Dyn.pol_blocks_partial",
    "Verif.Dyn.pol_multiple_violated",
    "Verif.Dyn.pol_leftover_violated",
    "Verif.Dyn.pol_short_violated"
   ],
   "note": "Exact for complete blocks of regular axes when the last block is incomplete; fails when it is complete, and the remaining spectra use the last matrix of the observation (violated)."
  },
  {
   "property": "C92",
   "status": "partial",
   "theorems": [
    "Verif.Dyn.jump_covered_partial",
    "Verif.Dyn.jump_once_partial",
    "Verif.Dyn.jump_twice_violated",
    "Verif.Dyn.jump_missed_violated"
   ],
   "note": "Every spectrum is treated, once away from the jumps; twice on them, and the last jump can be missed (violated)."
  },
  {
   "property": "C93",
   "status": "partial",
   "theorems": [
    "Verif.Dyn.median_one_partial",
    "Verif.Dyn.median_several_violated"
   ],
   "note": "Works for one polarisation and fails for all larger numbers (violated)."
  },
  {
   "property": "C94",
   "status": "partial",
   "theorems": [
    "Verif.Config.pulsar_text_exact",
    "Verif.Config.tf_text_exact",
    "Verif.Config.case_ignored",
    "Verif.Config.glued_value_violated",
    "Verif.Config.glued_lost_violated",
    "Verif.Config.glued_refused_violated"
   ],
   "note": "Exact for all lists of well-written options, of both kinds; a value glued to the colon is lost and the estimate refused (violated)."
  },
  {
   "property": "C95",
   "status": "partial",
   "theorems": [
    "Verif.Config.beams_match_partial",
    "Verif.Config.counted_once",
    "Verif.Config.tf_values",
    "Verif.Config.zero_width_violated",
    "Verif.Config.fold_values",
    "Verif.Config.single_values",
    "Verif.Config.tf_flag_violated",
    "Verif.Config.single_flag_violated",
    "Verif.Config.seconds_exact",
    "Verif.Config.obs_one_each",
    "Verif.Config.wide_beam_violated",
    "Verif.Config.no_receivers_violated",
    "Verif.Config.receiver_blank_violated",
    "Verif.Config.no_resolution_violated",
    "Verif.Config.obs_beams"
   ],
   "note": "One beam per digital beam of the kind, with its values, for all files; wide beams are cut to 192 sub-bands, and missing or spaced receivers and missing resolutions lose or refuse the estimate (violated)."
  },
  {
   "property": "C96",
   "status": "partial",
   "theorems": [
    "Verif.Config.nickel_one_partial",
    "Verif.Config.nickel_off",
    "Verif.Config.nickel_named",
    "Verif.Config.nickel_first_violated",
    "Verif.Config.nickel_fraction_violated",
    "Verif.Config.nickel_flag_violated"
   ],
   "note": "Exact with one analog beam and a whole dump time; the other analog beams are ignored and fractional dump times refused (violated)."
  },
  {
   "property": "C97",
   "status": "partial",
   "theorems": [
    "Verif.Config.bst_seconds_partial",
    "Verif.Config.bst_half_second_violated",
    "Verif.Config.minutes_refused_violated"
   ],
   "note": "Exact for beams that start on whole seconds; others are counted twice, and durations in minutes are refused (violated)."
  },
  {
   "property": "C98",
   "status": "partial",
   "theorems": [
    "Verif.Parset.word_exact",
    "Verif.Parset.validate_partial",
    "Verif.Parset.dump_time_violated",
    "Verif.Parset.placeholder_violated",
    "Verif.Parset.counts_accepted",
    "Verif.Parset.numbered_counts",
    "Verif.Parset.required_written"
   ],
   "note": "Exact for all files which do not give the dump time of the imager; with it the validation fails for every file, and required properties left to their placeholders are written although they match no pattern (violated)."
  },
  {
   "property": "C99",
   "status": "partial",
   "theorems": [
    "Verif.Parset.ma_list_accepted",
    "Verif.Parset.ma_list_read",
    "Verif.Parset.ma_list_partial",
    "Verif.Parset.ma_list_violated",
    "Verif.Parset.ma_list_empty_violated",
    "Verif.Parset.sb_list_accepted",
    "Verif.Parset.pc_list_accepted",
    "Verif.Parset.sb_list_in_band",
    "Verif.Parset.sb_zero_violated",
    "Verif.Parset.sb_zero_place_violated"
   ],
   "note": "Exact languages for all texts, and sub-bands read are always in band; ranges over 96-99 and decreasing ranges are accepted, and sub-band 0 is refused after the first place (violated)."
  }
 ]
}