{
 "claims": [
  {
   "property": "C01",
   "status": "proved",
   "theorems": [
    "Xboa.C01_last_write_wins",
    "Xboa.C01_write_frame"
   ],
   "note": ""
  },
  {
   "property": "C02",
   "status": "proved",
   "theorems": [
    "Xboa.C02_pointwise_context",
    "Xboa.C02_pointwise_number_right",
    "Xboa.C02_pointwise_number_left"
   ],
   "note": ""
  },
  {
   "property": "C03",
   "status": "proved",
   "theorems": [
    "Xboa.C03_operator_fresh",
    "Xboa.C03_frame_history",
    "Xboa.C03_alias"
   ],
   "note": ""
  },
  {
   "property": "C04",
   "status": "partial",
   "theorems": [
    "Xboa.C04_invert_pointwise",
    "Xboa.C04_invert_selects_complement",
    "Xboa.C04_double_invert_is_zero",
    "Xboa.C04_double_invert_false"
   ],
   "note": "Pointwise law of invert proved for every context; the stronger reading `not not c = c` is false (double inversion loses non-zero weights) and its negation is proved."
  },
  {
   "property": "C05",
   "status": "partial",
   "theorems": [
    "Xboa.C05_false",
    "Xboa.C05_swapped",
    "Xboa.C05_partial"
   ],
   "note": "False of the code: PyHitcore/Hitcore look up the context with event and particle exchanged. Negation with witness, exact law (C05_swapped) and the restricted positive statement are proved."
  },
  {
   "property": "C06",
   "status": "proved",
   "theorems": [
    "Xboa.C06_shared",
    "Xboa.C06_exact"
   ],
   "note": ""
  },
  {
   "property": "C07",
   "status": "partial",
   "theorems": [
    "Xboa.C07_clear_resets_to_default",
    "Xboa.C07_false",
    "Xboa.C07_partial"
   ],
   "note": "False when a context with default weight other than 1 is installed; exact law (reset to the context's default) proved for all states, value 1 proved for all histories that install no context."
  },
  {
   "property": "C08",
   "status": "partial",
   "theorems": [
    "Xboa.C08_set_get_double",
    "Xboa.C08_set_get_int",
    "Xboa.C08_other_hits",
    "Xboa.C08_total_weight",
    "Xboa.C08_int_wraps_false"
   ],
   "note": "Proved for all doubles and for integers that fit 32 bits; larger integers are silently wrapped (C08_int_wraps_false)."
  },
  {
   "property": "C09",
   "status": "partial",
   "theorems": [
    "Xboa.C09_false",
    "Xboa.C09_partial"
   ],
   "note": "False: rejected values leave -1 behind (C09_false); proved for numbers, excluding t'."
  },
  {
   "property": "C10",
   "status": "proved",
   "theorems": [
    "Xboa.C10_copy_equal"
   ],
   "note": ""
  },
  {
   "property": "C11",
   "status": "partial",
   "theorems": [
    "Xboa.C11_false",
    "Xboa.C11_partial"
   ],
   "note": "False for hits with id (0,0,0): new_from_dict sets global_weight before the ids. Proved for every other hit."
  },
  {
   "property": "C12",
   "status": "proved",
   "theorems": [
    "Xboa.C12_true",
    "Xboa.C12_false_result",
    "Xboa.C12_noop"
   ],
   "note": ""
  },
  {
   "property": "C13",
   "status": "partial",
   "theorems": [
    "Xboa.C13_false",
    "Xboa.C13_partial",
    "Xboa.C13_false_only_near"
   ],
   "note": "False for 'p': energy below the mass raises IndexError and leaves px = -1 (C13_false). Proved for px, py, pz and energy, with the exact slack of the 1e-6 tolerance."
  },
  {
   "property": "C14",
   "status": "partial",
   "theorems": [
    "Xboa.C14_p_false",
    "Xboa.C14_p_partial",
    "Xboa.C14_slopes",
    "Xboa.C14_slopes_total",
    "Xboa.C14_ct_ek",
    "Xboa.C14_tP"
   ],
   "note": "x', y', t', ct and kinetic energy proved for all values; p proved for values >= 0, false for negative values (C14_p_false)."
  },
  {
   "property": "C15",
   "status": "proved",
   "theorems": [
    "Xboa.C15_eq_iff",
    "Xboa.C15_refl_symm",
    "Xboa.C15_separates"
   ],
   "note": ""
  },
  {
   "property": "C16",
   "status": "partial",
   "theorems": [
    "Xboa.C16_translate",
    "Xboa.C16_translate_back_partial",
    "Xboa.C16_translate_back_false",
    "Xboa.C16_abelian",
    "Xboa.C16_abelian_inverse"
   ],
   "note": "Translation, affine transformation and its inverse proved for stored double variables; translate-and-back is false with derived variables (C16_translate_back_false)."
  },
  {
   "property": "C17",
   "status": "proved",
   "theorems": [
    "Xboa.C17_count",
    "Xboa.C17_count_all_handles",
    "Xboa.C17_safe",
    "Xboa.C17_freed_exactly"
   ],
   "note": ""
  },
  {
   "property": "C18",
   "status": "proved",
   "theorems": [
    "Xboa.C18_exactly_once",
    "Xboa.C18_first_and_length",
    "Xboa.C18_python"
   ],
   "note": ""
  },
  {
   "property": "C19",
   "status": "proved",
   "theorems": [
    "Xboa.C19_moment",
    "Xboa.C19_moment_default",
    "Xboa.C19_zero_weight",
    "Xboa.C19_order",
    "Xboa.C19_weightless_hits"
   ],
   "note": ""
  },
  {
   "property": "C20",
   "status": "partial",
   "theorems": [
    "Xboa.C20_false",
    "Xboa.C20_partial",
    "Xboa.C20_missing_is_zero"
   ],
   "note": "False when the dictionary defines only some of the variables: the rest are taken about 0 (C20_false, exact law C20_missing_is_zero). Proved for empty and complete dictionaries."
  },
  {
   "property": "C21",
   "status": "proved",
   "theorems": [
    "Xboa.C21_core_entries",
    "Xboa.C21_core_symmetric",
    "Xboa.C21_core_psd",
    "Xboa.C21_bunch_entries",
    "Xboa.C21_bunch_symmetric_psd"
   ],
   "note": ""
  },
  {
   "property": "C22",
   "status": "proved",
   "theorems": [
    "Xboa.C22_moment_tensor",
    "Xboa.C22_first_is_one"
   ],
   "note": ""
  },
  {
   "property": "C23",
   "status": "proved",
   "theorems": [
    "Xboa.C23_local",
    "Xboa.C23_global",
    "Xboa.C23_local_observed",
    "Xboa.C23_global_observed",
    "Xboa.C23_local_idempotent",
    "Xboa.C23_global_idempotent",
    "Xboa.C23_local_dict",
    "Xboa.C23_global_dict"
   ],
   "note": ""
  },
  {
   "property": "C24",
   "status": "partial",
   "theorems": [
    "Xboa.C24_partial",
    "Xboa.C24_new_partial",
    "Xboa.C24_false"
   ],
   "note": "Every safe history of list operations keeps hits and Bunchcore in step; false for pop/del/insert-style operations that Bunch does not override or that fail half way (C24_false)."
  },
  {
   "property": "C25",
   "status": "partial",
   "theorems": [
    "Xboa.C25_false",
    "Xboa.C25_exact",
    "Xboa.C25_partial"
   ],
   "note": "False: negative indices are off (C25_false). Exact law C25_exact; non-negative indices proved."
  },
  {
   "property": "C26",
   "status": "partial",
   "theorems": [
    "Xboa.C26_local",
    "Xboa.C26_global",
    "Xboa.C26_local_partial",
    "Xboa.C26_global_partial",
    "Xboa.C26_default",
    "Xboa.C26_false"
   ],
   "note": "False for values that differ by less than the tolerance: a match just below is not found (C26_false). For all variables: unmatched hits are cut, exact matches are kept, nothing else changes; exact law for integer variables incl. the default ones."
  },
  {
   "property": "C27",
   "status": "proved",
   "theorems": [
    "Xboa.C27_conditional_remove",
    "Xboa.C27_error_keeps"
   ],
   "note": ""
  },
  {
   "property": "C28",
   "status": "partial",
   "theorems": [
    "Xboa.C28_groups_by_int",
    "Xboa.C28_nothing_lost",
    "Xboa.C28_partial",
    "Xboa.C28_false"
   ],
   "note": "False for non-integer values: split groups by int(value) (C28_false). Exact grouping law and conservation of hits proved for all values; the full statement proved for integer valued variables."
  },
  {
   "property": "C29",
   "status": "proved",
   "theorems": [
    "Xboa.C29_period",
    "Xboa.C29_time",
    "Xboa.C29_unique"
   ],
   "note": ""
  },
  {
   "property": "C30",
   "status": "partial",
   "theorems": [
    "Xboa.C30_ellipse_2d",
    "Xboa.C30_penn",
    "Xboa.C30_rejects",
    "Xboa.C30_false"
   ],
   "note": "All three construction functions proved; the documented ValueError for a bad beta or mass is false: beta = 0 gives ZeroDivisionError (gamma is computed first) and build_ellipse_2d does not check mass or p."
  },
  {
   "property": "C31",
   "status": "proved",
   "theorems": [
    "Xboa.C31_multisort",
    "Xboa.C31_errors"
   ],
   "note": ""
  },
  {
   "property": "C32",
   "status": "proved",
   "theorems": [
    "Xboa.C32_histogram_2d",
    "Xboa.C32_histogram_1d"
   ],
   "note": ""
  },
  {
   "property": "C33",
   "status": "partial",
   "theorems": [
    "Xboa.C33_false",
    "Xboa.C33_partial"
   ],
   "note": "False: bins are half open and the last edge is the greatest value, so the greatest point is lost (C33_false). Proved for all data and bin counts: exactly the points below the greatest are counted (all points if they agree to 1e-9)."
  },
  {
   "property": "C34",
   "status": "partial",
   "theorems": [
    "Xboa.C34_partial",
    "Xboa.C34_false",
    "Xboa.C34_short_weights"
   ],
   "note": "False: weights shorter than the data append entries to the caller's list, longer weights raise IndexError, a negative margin excludes points (C34_false, C34_short_weights). Bounds, explicit limits and purity proved for matching or absent weights and margin >= 0."
  },
  {
   "property": "C35",
   "status": "partial",
   "theorems": [
    "Xboa.C35_grid",
    "Xboa.C35_cube",
    "Xboa.C35_single",
    "Xboa.C35_partial",
    "Xboa.C35_false",
    "Xboa.C35_indefinite"
   ],
   "note": "Grid: proved for all n >= 2 and all dimensions. Shell: proved for n <= 31623; false for larger n, where points near the centre are dropped by the absolute tolerance (C35_false)."
  },
  {
   "property": "C36",
   "status": "proved",
   "theorems": [
    "Xboa.C36_result",
    "Xboa.C36_workers",
    "Xboa.C36_terminates",
    "Xboa.C36_returns"
   ],
   "note": ""
  },
  {
   "property": "C37",
   "status": "proved",
   "theorems": [
    "Xboa.C37_icool",
    "Xboa.C37_mars",
    "Xboa.C37_charge"
   ],
   "note": ""
  },
  {
   "property": "C38",
   "status": "partial",
   "theorems": [
    "Xboa.C38_file",
    "Xboa.C38_partial",
    "Xboa.C38_on_shell",
    "Xboa.C38_false",
    "Xboa.C38_mars_energy_false"
   ],
   "note": "False after Hit.set_g4bl_unit('cm') (written in cm, read as mm) and for the energy column of MARS (ignored on reading); proved for all hits, words and all five line formats otherwise, for one line (C38_partial), and for whole files (C38_file). Numbers are exact: the rounding of str/float is not modelled."
  },
  {
   "property": "C39",
   "status": "partial",
   "theorems": [
    "Xboa.C39_success",
    "Xboa.C39_unknown_pid",
    "Xboa.C39_g4beamline",
    "Xboa.C39_partial",
    "Xboa.C39_false"
   ],
   "note": "False when the output file fails during the write: the pid is left as the ICOOL/MARS code (C39_false). Proved on success, on an unknown pid and for G4Beamline formats at every failure point."
  },
  {
   "property": "C40",
   "status": "proved",
   "theorems": [
    "Xboa.C40_list"
   ],
   "note": "Proved for the built-in line formats and an output file that does not fail."
  },
  {
   "property": "C41",
   "status": "partial",
   "theorems": [
    "Xboa.C41_line",
    "Xboa.C41_partial",
    "Xboa.C41_false",
    "Xboa.C41_user"
   ],
   "note": "False: one word that is not a number, or one unknown particle code, aborts the whole read (C41_false). Proved for files in which the lines with the right number of words are well formed, for built-in (C41_partial) and user formats (C41_user)."
  },
  {
   "property": "C42",
   "status": "proved",
   "theorems": [
    "Xboa.C42_virtual_hits",
    "Xboa.C42_primaries",
    "Xboa.C42_primaries_repeated",
    "Xboa.C42_file"
   ],
   "note": "Proved for all lists of hits for maus_json_virtual_hit and maus_json_primary. For primaries two hits with the same event and particle number raise IOError (proved), so no hit is lost silently."
  },
  {
   "property": "C43",
   "status": "proved",
   "theorems": [
    "Xboa.C43_uphill"
   ],
   "note": ""
  },
  {
   "property": "C44",
   "status": "partial",
   "theorems": [
    "Xboa.C44_sound",
    "Xboa.C44_exact",
    "Xboa.C44_partial",
    "Xboa.C44_false"
   ],
   "note": "Soundness and an exact law for all window sizes, steps and thresholds. Completeness proved for windows of three or more values; false for windows of two (C44_false)."
  },
  {
   "property": "C45",
   "status": "proved",
   "theorems": [
    "Xboa.C45_weighted_mean",
    "Xboa.C45_bounds",
    "Xboa.C45_constant",
    "Xboa.C45_linear",
    "Xboa.C45_interior"
   ],
   "note": ""
  },
  {
   "property": "C46",
   "status": "partial",
   "theorems": [
    "Xboa.C46_partial",
    "Xboa.C46_counts",
    "Xboa.C46_false"
   ],
   "note": "False: a variable other than the first hitting its end exactly stops the scan early, and the generator always ends with RuntimeError (StopIteration raised inside a generator). Proved: full odometer order when no later variable hits its end exactly."
  },
  {
   "property": "C47",
   "status": "proved",
   "theorems": [
    "Xboa.C47_cut",
    "Xboa.C47_indices",
    "Xboa.C47_new"
   ],
   "note": ""
  },
  {
   "property": "C48",
   "status": "proved",
   "theorems": [
    "Xboa.C48_track_one",
    "Xboa.C48_track_many",
    "Xboa.C48_determined",
    "Xboa.C48_new"
   ],
   "note": ""
  },
  {
   "property": "C49",
   "status": "partial",
   "theorems": [
    "Xboa.C49_false",
    "Xboa.C49_split_partial",
    "Xboa.C49_order",
    "Xboa.C49_partial"
   ],
   "note": "False for Python 3: n_hits/int(n_processes) is a float and slicing with it raises TypeError for every hit list and number of processes >= 1. Proved: order of results for all schedules, and the whole claim for Python 2 division."
  },
  {
   "property": "C50",
   "status": "proved",
   "theorems": [
    "Xboa.C50_fit_ellipse",
    "Xboa.C50_unweighted"
   ],
   "note": ""
  },
  {
   "property": "C51",
   "status": "proved",
   "theorems": [
    "Xboa.C51_range",
    "Xboa.C51_repeat"
   ],
   "note": ""
  },
  {
   "property": "C52",
   "status": "proved",
   "theorems": [
    "Xboa.C52_seeds",
    "Xboa.C52_track_many",
    "Xboa.C52_spills"
   ],
   "note": "For all histories of calls, including calls that raise, and any simulation. Spill numbers: less than 2^31 calls (a spill number is a C int) and answers whose integers fit in a C int. C52_track_many gives the full result of a call; a call that raises uses up its seeds but not the spill number."
  },
  {
   "property": "C53",
   "status": "partial",
   "theorems": [
    "Xboa.C53_partial",
    "Xboa.C53_rejected_partial",
    "Xboa.C53_false"
   ],
   "note": "False of the code: 10 is accepted as the number of a station or plane, and plane 10 of station 0 has the number of plane 0 of station 1 (C53_false). C53_partial: unique if the numbers of station and plane are below 10. C53_rejected_partial: numbers out of range raise ValueError."
  },
  {
   "property": "C54",
   "status": "partial",
   "theorems": [
    "Xboa.C54_exact",
    "Xboa.C54_partial",
    "Xboa.C54_false"
   ],
   "note": "beta*gamma - alpha^2 = 1 proved for the default momentum convention; false for an explicit geometric argument that differs from the global flag, because get_emittance ignores it (exact law C54_exact)."
  },
  {
   "property": "C55",
   "status": "proved",
   "theorems": [
    "Xboa.C55_cut_decreases",
    "Xboa.C55_bunch_weight"
   ],
   "note": ""
  },
  {
   "property": "C56",
   "status": "partial",
   "theorems": [
    "Xboa.C56_false",
    "Xboa.C56_covs_ignore_hits",
    "Xboa.C56_partial"
   ],
   "note": "False: means are only compared over the keys of the left operand, and a recorded covariance matrix hides the hits (C56_false, C56_covs_ignore_hits). Proved for bunches without recorded moments."
  },
  {
   "property": "C57",
   "status": "partial",
   "theorems": [
    "Xboa.C57_false",
    "Xboa.C57_partial",
    "Xboa.C57_no_key_left",
    "Xboa.C57_unchanged"
   ],
   "note": "False when keys can overlap in the text (C57_false: ab and bc in abc). Order independence, completeness and frame proved for tables whose keys and values share no characters with other keys."
  },
  {
   "property": "C58",
   "status": "proved",
   "theorems": [
    "Xboa.C58_mean_amplitude"
   ],
   "note": ""
  },
  {
   "property": "C63",
   "status": "partial",
   "theorems": [
    "Xboa.C63_false",
    "Xboa.C63_partial"
   ],
   "note": "False for nuclei: charge 0 is listed for d, t, 3He and 4He, and -311 (MARS code 25) has no entry (C63_false). Proved for all other listed particles against the PDG numbering scheme."
  },
  {
   "property": "C64",
   "status": "partial",
   "theorems": [
    "Xboa.C64_false",
    "Xboa.C64_partial"
   ],
   "note": "The root of the determinant is always the square root, so the documented cut is applied in two dimensions only (C64_partial); false in one dimension (C64_false)."
  },
  {
   "property": "C65",
   "status": "partial",
   "theorems": [
    "Xboa.C65_false",
    "Xboa.C65_partial",
    "Xboa.C65_python2_partial",
    "Xboa.C65_signal_partial",
    "Xboa.C65_constant",
    "Xboa.C65_short_false"
   ],
   "note": "False in Python 3 for every input: range() is given a float (true division), so smooth always raises TypeError (C65_false, C65_partial). With the integer division of Python 2: for signals not shorter than the window exactly the outliers are rejected, for whole tables (C65_python2_partial, C65_signal_partial), and constant signals are kept (C65_constant); for shorter signals the mean is that of the last 2n - step values only (C65_short_false)."
  },
  {
   "property": "C66",
   "status": "partial",
   "theorems": [
    "Xboa.C66_partial",
    "Xboa.C66_false"
   ],
   "note": "False: advances of earlier data are never cleared and enter the mean (concrete witness). Proved: the exact law (mean of all advances in the life of the object) and independence for a new object."
  },
  {
   "property": "C67",
   "status": "partial",
   "theorems": [
    "Xboa.C67_partial",
    "Xboa.C67_false"
   ],
   "note": "False for whole number columns with a unit and for formats with 'spill' (C67_false). Proved for blank columns, numbers with any known unit and whole numbers without unit."
  },
  {
   "property": "C68",
   "status": "partial",
   "theorems": [
    "Xboa.C68_types_false",
    "Xboa.C68_partial",
    "Xboa.C68_primaries_partial",
    "Xboa.C68_false",
    "Xboa.C68_special_partial"
   ],
   "note": "False: with Python 3 reading raises AttributeError (dict.iteritems) for every non-empty file (C68_false), and types after the first in list_of_maus_types give no hits since the file handle is at its end (C68_types_false). With the meaning of Python 2 all virtual hits are read back (C68_partial). Primaries: C68_primaries_partial."
  },
  {
   "property": "C69",
   "status": "partial",
   "theorems": [
    "Xboa.C69_partial",
    "Xboa.C69_false",
    "Xboa.C69_truncated_false"
   ],
   "note": "False of the code: the charge is looked up with the charge instead of the pid, so all primaries are read with charge 0 (C69_false); a primary with less energy than its mass silently ends the reading of the file (C69_truncated_false). C69_partial: everything except the charge, for files whose primaries have enough energy."
  },
  {
   "property": "C70",
   "status": "partial",
   "theorems": [
    "Xboa.C70_virtual_hits",
    "Xboa.C70_steps_partial",
    "Xboa.C70_steps_false",
    "Xboa.C70_types"
   ],
   "note": "Virtual hits proved for all files. Steps of particles that are not in the table of masses raise KeyError for the whole file (C70_steps_false); C70_steps_partial covers the other files. C70_types: several types, test function and number of hits."
  },
  {
   "property": "C71",
   "status": "partial",
   "theorems": [
    "Xboa.C71_false",
    "Xboa.C71_partial"
   ],
   "note": "False of the code since Python 3.7: the generator of track points ends with raise StopIteration, which PEP 479 turns into RuntimeError for every spill with a reconstructed event (C71_false). C71_partial: the full statement before Python 3.7."
  },
  {
   "property": "C59",
   "status": "partial",
   "theorems": [
    "Xboa.C59_hits",
    "Xboa.C59_mean",
    "Xboa.C59_covariance",
    "Xboa.C59_covariance_about",
    "Xboa.C59_false"
   ],
   "note": "Proved for coordinate variables without mass shell variable (with one: C105). The documented default origin (bunch mean) is false: the origin is 0 (C59_false)."
  },
  {
   "property": "C60",
   "status": "partial",
   "theorems": [
    "Xboa.C60_var_bins",
    "Xboa.C60_var_bins_2d",
    "Xboa.C60_partial",
    "Xboa.C60_maximum_left_out",
    "Xboa.C60_2d_default_false",
    "Xboa.C60_false"
   ],
   "note": "histogram_var_bins proved in full (C60_var_bins, C60_var_bins_2d). histogram: limits are multiplied by the unit while the points are divided by it, and without limits the hits of greatest value are in no bin (C60_false, C60_maximum_left_out); two dimensions without ny_bins always raise ZeroDivisionError (C60_2d_default_false). C60_partial: one dimension, unit 1, given limits."
  },
  {
   "property": "C61",
   "status": "partial",
   "theorems": [
    "Xboa.C61_default_false",
    "Xboa.C61_matrix_false",
    "Xboa.C61_partial",
    "Xboa.C61_condition"
   ],
   "note": "False of the code: for every bunch set_covariance_matrix() raises ValueError after storing the matrix, and every later moment raises ValueError (C61_default_false); a given matrix raises at once (C61_matrix_false). C61_partial: switching off. Rests on numpy comparing arrays with None element by element."
  },
  {
   "property": "C62",
   "status": "proved",
   "theorems": [
    "Xboa.C62_default",
    "Xboa.C62_origin"
   ],
   "note": "For any eigenvector routine that returns an orthogonal matrix of eigenvectors (an instance is built from the spectral theorem). Without mass shell variable; determinant 1 in modulus, the sign depends on the routine; the default origin is 0 and not the bunch mean (see C59_false)."
  },
  {
   "property": "C72",
   "status": "partial",
   "theorems": [
    "Xboa.C72_standard_deviation",
    "Xboa.C72_standard_deviation_default",
    "Xboa.C72_cut_local",
    "Xboa.C72_cut_global",
    "Xboa.C72_remove_partial",
    "Xboa.C72_remove_false"
   ],
   "note": "standard_deviation and cut proved. conditional_remove takes the square root twice (C72_remove_false); C72_remove_partial says what is removed."
  },
  {
   "property": "C73",
   "status": "partial",
   "theorems": [
    "Xboa.C73_kinetic",
    "Xboa.C73_kinetic_default",
    "Xboa.C73_kinetic_geometric",
    "Xboa.C73_canonical_partial",
    "Xboa.C73_canonical_geometric_false"
   ],
   "note": "Kinetic proved in both conventions. Canonical with geometric momenta and default axis raises KeyError for every bunch (C73_canonical_geometric_false); C73_canonical_partial: momentum variables. The documentation lacks the factor 1/2 of the code, which is the physically right one."
  },
  {
   "property": "C74",
   "status": "partial",
   "theorems": [
    "Xboa.C74_dispersion",
    "Xboa.C74_dispersion_prime",
    "Xboa.C74_rsquared_partial",
    "Xboa.C74_rsquared_false",
    "Xboa.C74_prime_default_false"
   ],
   "note": "get_dispersion and get_dispersion_prime proved. get_dispersion_prime ignores set_geometric_momentum (C74_prime_default_false); get_dispersion_rsquared uses central moments for <r^2> (C74_rsquared_false), C74_rsquared_partial: bunches on axis."
  },
  {
   "property": "C75",
   "status": "partial",
   "theorems": [
    "Xboa.C75_local",
    "Xboa.C75_clear_partial",
    "Xboa.C75_clear_false"
   ],
   "note": "clear_local_weights proved. clear_weights clears the global weights of all hits, also those outside the bunch, and gives the default weight of the context (C75_clear_false); C75_clear_partial: contexts of default weight 1."
  },
  {
   "property": "C76",
   "status": "partial",
   "theorems": [
    "Xboa.C76_get_hits",
    "Xboa.C76_equality",
    "Xboa.C76_tolerance_false",
    "Xboa.C76_comparator"
   ],
   "note": "get_hits proved. hit_equality ignores its tolerance (C76_tolerance_false); C76_equality gives the exact meaning, with the default tolerance."
  },
  {
   "property": "C77",
   "status": "proved",
   "theorems": [
    "Xboa.C77_list_get",
    "Xboa.C77_get",
    "Xboa.C77_errors",
    "Xboa.C77_no_variables"
   ],
   "note": "Any dict of bunches for which the variables can be calculated."
  },
  {
   "property": "C78",
   "status": "partial",
   "theorems": [
    "Xboa.C78_moments_partial",
    "Xboa.C78_one_target",
    "Xboa.C78_normalised",
    "Xboa.C78_ellipse_false",
    "Xboa.C78_centred_false"
   ],
   "note": "Closed form of the moments after apply_weights, for any number of targets; with one target the target is reached exactly, and the weights are normalised. False for two or more targets (the matrix inverted has f_i g_j where g_i f_j is needed: C78_ellipse_false) and for the constructor's ellipse when the mean is not zero (used as uncentred moments: C78_centred_false)."
  },
  {
   "property": "C79",
   "status": "partial",
   "theorems": [
    "Xboa.FFTTune.C79_partial",
    "Xboa.FFTTune.C79_coarse",
    "Xboa.FFTTune.C79_no_peaks",
    "Xboa.FFTTune.C79_stale_false",
    "Xboa.FFTTune.C79_ends",
    "Xboa.FFTTune.C79_tolerance",
    "Xboa.FFTTune.C79_again",
    "Xboa.FFTTune.C79_biased_false",
    "Xboa.FFTTune.C79_zero_false",
    "Xboa.FFTTune.C79_hanning",
    "Xboa.FFTTune.C79_hanning_spectrum",
    "Xboa.FFTTune.C79_sft_grid"
   ],
   "note": "For all data, finders and tolerances: the table that the finder keeps is the spectrum at p(n+1)/n for position p, before and after refinement, and no peak is stronger than the position returned (C79_partial); exact result without refinement (C79_coarse); the recursion ends for every positive tolerance and not otherwise (C79_ends, C79_tolerance); asking again changes nothing (C79_again); no peak gives ValueError on a new finder (C79_no_peaks). False: the position returned is n/(n+1) of the frequency (C79_biased_false, all odd n), it can be 0 (C79_zero_false), and a finder that is used again returns a tune from the peaks of the earlier data (C79_stale_false)."
  },
  {
   "property": "C80",
   "status": "partial",
   "theorems": [
    "Xboa.ClosedOrbit.C80_points",
    "Xboa.ClosedOrbit.C80_points_end",
    "Xboa.ClosedOrbit.C80_sigma",
    "Xboa.ClosedOrbit.C80_no_noise",
    "Xboa.ClosedOrbit.C80_partial",
    "Xboa.ClosedOrbit.C80_ends_false",
    "Xboa.ClosedOrbit.C80_none_false",
    "Xboa.ClosedOrbit.C80_fixed_false",
    "Xboa.ClosedOrbit.C80_singular_false",
    "Xboa.ClosedOrbit.C80_check",
    "Xboa.ClosedOrbit.C80_noise",
    "Xboa.ClosedOrbit.C80_linear",
    "Xboa.ClosedOrbit.C80_stop"
   ],
   "note": "For all trackings: bound on the number of iterations, what each holds, where the next starts (C80_partial); the points are consecutive tracked hits and at least as many as asked for, and collecting them ends (C80_points, C80_points_end); the mean noise is d |C|^(1/d) when nothing is cut (C80_noise); get_sigma_noise is the standard deviation (C80_sigma); linear maps give the closed orbit at once (C80_linear); what check_closed_orbit returns (C80_check). False: the generator always ends in an exception (C80_ends_false); max_iterations None raises TypeError (C80_none_false); values exactly on the closed orbit raise RuntimeError (C80_fixed_false); a singular set of points raises ValueError unless there are more points than asked for (C80_singular_false)."
  },
  {
   "property": "C81",
   "status": "partial",
   "theorems": [
    "Xboa.ClosedOrbit.C81_partial",
    "Xboa.ClosedOrbit.C81_exact_false",
    "Xboa.ClosedOrbit.C81_no_variables"
   ],
   "note": "Proved for all grids in which no variable but the first reaches its end exactly: all grid points in order, then RuntimeError instead of a normal end (C81_partial). False when a later variable does reach its end exactly: the scan stops within the first row (C81_exact_false). Without variables IndexError follows the first point (C81_no_variables)."
  },
  {
   "property": "C82",
   "status": "partial",
   "theorems": [
    "Xboa.Newton.C82_partial",
    "Xboa.Newton.C82_affine",
    "Xboa.Newton.C82_root_kept",
    "Xboa.Newton.C82_silent_false",
    "Xboa.Newton.C82_tolerance_false",
    "Xboa.Newton.C82_wrap_partial",
    "Xboa.Newton.C82_wrap_false",
    "Xboa.Newton.C82_limits_false",
    "Xboa.Newton.C82_wrapper",
    "Xboa.Newton.C82_nested_false"
   ],
   "note": "For all functions and dimensions the result is what the specified Newton iteration arrives at, with and without limits (C82_partial); affine functions give the exact root (C82_affine), roots are kept (C82_root_kept), nd_newton_raphson1 is nd_newton_raphson2 pointwise (C82_wrapper), and limits move a value by whole periods (C82_wrap_partial). False: a constant function returns the start without an exception (C82_silent_false); the point returned is one step past the one tested (C82_tolerance_false); limits are right just when lower is 0 or the period 1 (C82_wrap_false), and the result can be outside (C82_limits_false); nested nd_newton_raphson1 evaluates the wrong function (C82_nested_false)."
  },
  {
   "property": "C83",
   "status": "partial",
   "theorems": [
    "Xboa.Decoupled.C83_py3_false",
    "Xboa.Decoupled.C83_constructs",
    "Xboa.Decoupled.C83_partial",
    "Xboa.Decoupled.C83_decoupled_partial",
    "Xboa.Decoupled.C83_twiss_partial",
    "Xboa.Decoupled.C83_rejects",
    "Xboa.Decoupled.C83_emittance_false",
    "Xboa.Decoupled.C83_uncoupled_false",
    "Xboa.Decoupled.C83_transpose_false"
   ],
   "note": "With integer division as in Python 2, for all stable matrices of every size: M V M^T = V, symmetric, positive definite (C83_partial); M R = R T with T in blocks and the phase advances (C83_decoupled_partial); the blocks are cos phi + s sin phi ((alpha, beta), (-gamma, -alpha)) with what get_alpha, get_beta, get_gamma, get_phase_advance return (C83_twiss_partial); matrices that are refused (C83_rejects); when the constructor succeeds (C83_constructs). False: in Python 3 the constructor always raises (C83_py3_false); the ellipse has emittance e/(beta+gamma), at most half of that asked for (C83_emittance_false); M^T V M = V as documented (C83_transpose_false); uncoupled 4 x 4 matrices give nan because axis i uses eigenvector i instead of 2i (C83_uncoupled_false)."
  },
  {
   "property": "C84",
   "status": "partial",
   "theorems": [
    "Xboa.HullContent.C84_simplex",
    "Xboa.HullContent.C84_content",
    "Xboa.HullContent.C84_py3_false",
    "Xboa.HullContent.C84_partial"
   ],
   "note": "In Python 2, for all dimensions: the Cayley-Menger determinant with the coefficient of the code is the square of |det(edges)|/d! (C84_simplex); the content of a tile is the sum over its simplices, 0 if open (C84_content); tile_content_list has the contents by point number if region_list holds 0..n-1, each once in any order (C84_partial). False: any other region_list raises IndexError or TypeError (C84_partial); in Python 3 every closed tile raises NameError because of xrange (C84_py3_false). Voronoi, Delaunay and Pool.map are parameters."
  },
  {
   "property": "C85",
   "status": "partial",
   "theorems": [
    "Xboa.Voronoi.C85_partial",
    "Xboa.Voronoi.C85_track_false",
    "Xboa.Voronoi.C85_py3_false",
    "Xboa.Voronoi.C85_new",
    "Xboa.Voronoi.C85_density"
   ],
   "note": "In Python 2, for all bunches, bounds and dimensions: weights, zeros and nothing else changed if the weights are stored in different places (C85_partial); get_pdf is the density of Mathlib's multivariateGaussian (C85_density); what the constructor accepts and refuses (C85_new). False: Python 3 always raises TypeError in apply_weights and ValueError for a mean of two or more variables (C85_py3_false); global weights of hits on the same track are those of the last hit, or 0 if one of them is cut (C85_track_false). scipy's Voronoi and Delaunay are parameters; ellipses of negative determinant (nan) are not modelled."
  },
  {
   "property": "C86",
   "status": "partial",
   "theorems": [
    "Xboa.RefinePeak.C86_partial",
    "Xboa.RefinePeak.C86_parabola",
    "Xboa.RefinePeak.C86_find_peaks",
    "Xboa.RefinePeak.C86_py3_false",
    "Xboa.RefinePeak.C86_index_false",
    "Xboa.RefinePeak.C86_carry_false",
    "Xboa.RefinePeak.C86_gradient"
   ],
   "note": "In Python 2, with ROOT's fit as a parameter: every outcome (C86_partial), exact vertex for data on a parabola and every least squares fit (C86_parabola), derivatives (C86_gradient), rounding down in find_peaks (C86_find_peaks). False: Python 3 raises TypeError for every peak (C86_py3_false); the quality of the fit of one peak is carried to the next, so that peaks that are refined on their own raise ZeroDivisionError together (C86_carry_false); find_peaks can return len(data), not an index (C86_index_false)."
  },
  {
   "property": "C87",
   "status": "partial",
   "theorems": [
    "Xboa.HitShell.C87_partial",
    "Xboa.HitShell.C87_count_false",
    "Xboa.HitShell.C87_weight_false",
    "Xboa.HitShell.C87_shell_false",
    "Xboa.HitShell.C87_variables"
   ],
   "note": "C87_partial for the mass shell variables '', px, py, pz, energy and p. False: the documented number of hits n^d for odd n (C87_count_false), a default global_weight reaches only event 0 (C87_weight_false), too little energy gives hits off the mass shell without an exception (C87_shell_false)."
  },
  {
   "property": "C88",
   "status": "partial",
   "theorems": [
    "Xboa.BunchCopy.C88_new_from_hits",
    "Xboa.BunchCopy.C88_partial",
    "Xboa.BunchCopy.C88_equal",
    "Xboa.BunchCopy.C88_covs_false",
    "Xboa.BunchCopy.C88_weight_false"
   ],
   "note": "C88_new_from_hits, C88_partial, C88_equal. False: deepcopy raises ValueError once a covariance matrix of several elements was recorded (C88_covs_false); making the copies sets the weight of track (0,0,0), so hits of the original can change weight (C88_weight_false). Missing: infinities and nan, whose repr is not an expression."
  },
  {
   "property": "C89",
   "status": "partial",
   "theorems": [
    "Xboa.BunchRead.C89_dict",
    "Xboa.BunchRead.C89_partial",
    "Xboa.BunchRead.C89_false"
   ],
   "note": "C89_partial (integer variables), C89_dict (any variable, grouped by the value without decimals). False: hits with different non-integer values share a bunch (C89_false). Missing: malformed lines (C41_false), MAUS formats."
  },
  {
   "property": "C90",
   "status": "partial",
   "theorems": [
    "Xboa.C90_partial",
    "Xboa.C90_three",
    "Xboa.C90_false"
   ],
   "note": "C90_partial: exact when the phase advance is m/N of a turn on N turns. False in general: C90_three shows that any three points give 1/3 or 2/3, C90_false gives a quarter-turn lattice. numpy.linalg.inv and cholesky are any functions obeying their laws. Missing: bounds on the error when the points do not close."
  },
  {
   "property": "C91",
   "status": "partial",
   "theorems": [
    "Xboa.C91_dphi",
    "Xboa.C91_fft_partial",
    "Xboa.C91_fft_false",
    "Xboa.C91_fft_t_false",
    "Xboa.C91_shell_false",
    "Xboa.C91_tune"
   ],
   "note": "C91_dphi, C91_fft_partial (x, y, z), C91_tune (exact tune end to end). False: other axes of FFTTuneFinder raise IndexError half way (C91_fft_false), t pairs with the transverse momentum (C91_fft_t_false), the tracked particle is off the mass shell (C91_shell_false)."
  },
  {
   "property": "C92",
   "status": "partial",
   "theorems": [
    "Xboa.C92_partial",
    "Xboa.C92_accepts_false",
    "Xboa.C92_rejects_false"
   ],
   "note": "C92_partial: never raises, accepts all hits exactly on the shell, what it accepts is within 1+tolerance. False within the tolerance: both squares are rounded to integers first, so hits off by almost 1 are accepted (C92_accepts_false) and hits off by arbitrarily little are rejected (C92_rejects_false), for every particle type."
  },
  {
   "property": "C93",
   "status": "proved",
   "theorems": [
    "Xboa.C93",
    "Xboa.C93_shape"
   ],
   "note": "C93 and C93_shape."
  },
  {
   "property": "C94",
   "status": "partial",
   "theorems": [
    "Xboa.C94_partial",
    "Xboa.C94_false",
    "Xboa.C94_raises_false"
   ],
   "note": "C94_partial: what is drawn, exactly. False: the last bin is never drawn, so that the largest value is always missing (C94_false, with the exact number of entries drawn); weights that are all 0 raise IndexError (C94_raises_false). numpy.histogram is modelled as binning between exact equal edges."
  },
  {
   "property": "C95",
   "status": "partial",
   "theorems": [
    "Xboa.C95_partial",
    "Xboa.C95_false",
    "Xboa.C95_raises"
   ],
   "note": "C95_partial and C95_raises. False: with sort the caller's lists are reordered in place (C95_false)."
  },
  {
   "property": "C96",
   "status": "partial",
   "theorems": [
    "Xboa.BunchWrite.C96_for009",
    "Xboa.BunchWrite.C96_partial",
    "Xboa.BunchWrite.C96_one_bunch",
    "Xboa.BunchWrite.C96_bunch",
    "Xboa.BunchWrite.C96_comment_false",
    "Xboa.BunchWrite.C96_newline_false"
   ],
   "note": "C96_partial for icool_for009, C96_for009 for any dictionary (what happens to hits with other stations or unknown pids), C96_bunch for one bunch and every text format. False: the other formats have no column for the station, so everything comes back as one bunch (C96_one_bunch, for every dictionary); the comment is dropped (C96_comment_false); a comment with a newline makes an icool_for009 file unreadable (C96_newline_false)."
  },
  {
   "property": "C97",
   "status": "partial",
   "theorems": [
    "Xboa.BunchWrite.C97_partial",
    "Xboa.BunchWrite.C97_false",
    "Xboa.BunchWrite.C97_unchanged"
   ],
   "note": "C97_partial without a comparator; with one every call raises TypeError (C97_false)."
  },
  {
   "property": "C98",
   "status": "partial",
   "theorems": [
    "Xboa.Plots.C98_partial",
    "Xboa.Plots.C98_two_dimensions",
    "Xboa.Plots.C98_largest_false",
    "Xboa.Plots.C98_negative_false",
    "Xboa.Plots.C98_draw_option_false",
    "Xboa.Plots.C98_empty_false",
    "Xboa.Plots.C98_few_false",
    "Xboa.Plots.C98_matplot_few_false"
   ],
   "note": "C98_partial and C98_two_dimensions: what is filled, bins and limits (hits in the closed interval). False: the hits with the largest value are always in the overflow (C98_largest_false), hits of negative weight outside the others too (C98_negative_false); a draw option makes the second variable be forgotten (C98_draw_option_false); an empty bunch raises TypeError (C98_empty_false); fewer than ten hits give no bins (C98_few_false), and nothing at all is drawn by matplot_histogram (C98_matplot_few_false)."
  },
  {
   "property": "C99",
   "status": "partial",
   "theorems": [
    "Xboa.Plots.C99_partial",
    "Xboa.Plots.C99_no_points",
    "Xboa.Plots.C99_comparator_false",
    "Xboa.Plots.C99_matplot"
   ],
   "note": "C99_partial and C99_no_points for root_graph, C99_matplot for matplot_graph, without comparator; with one both raise TypeError (C99_comparator_false)."
  },
  {
   "property": "C100",
   "status": "partial",
   "theorems": [
    "Xboa.Plots.C100_partial",
    "Xboa.Plots.C100_no_points",
    "Xboa.Plots.C100_negative_false",
    "Xboa.Plots.C100_matplot_false"
   ],
   "note": "C100_partial and C100_no_points for root_scatter_graph. False: hits of negative weight are drawn although weights <= 0 are to be left out (C100_negative_false); matplot_scatter_graph labels the y axis with the x variable and raises TypeError after drawing (C100_matplot_false)."
  },
  {
   "property": "C101",
   "status": "partial",
   "theorems": [
    "Xboa.Plots.C101_partial",
    "Xboa.Plots.C101_raises",
    "Xboa.Plots.C101_matplot",
    "Xboa.Plots.C101_false"
   ],
   "note": "C101_partial and C101_raises for make_root_multigraph, C101_matplot for what make_matplot_multigraph draws; the latter sorts the caller's lists (C101_false)."
  },
  {
   "property": "C102",
   "status": "partial",
   "theorems": [
    "Xboa.Amp.C102_partial",
    "Xboa.Amp.C102_cut",
    "Xboa.Amp.C102_global",
    "Xboa.Amp.C102_remove",
    "Xboa.Amp.C102_mean",
    "Xboa.Amp.C102_nsigma",
    "Xboa.Amp.C102_unknown",
    "Xboa.Amp.C102_twice_false",
    "Xboa.C102_size"
   ],
   "note": "C102_partial: the values; C102_cut, C102_global, C102_remove: cuts; C102_mean; C102_nsigma: a cut with value_is_nsigma_bool; C102_unknown: KeyError. False: the same cut applied again cuts further hits, because the amplitudes are then relative to the bunch after the first cut (C102_twice_false)."
  },
  {
   "property": "C103",
   "status": "partial",
   "theorems": [
    "Xboa.Node.C103_false",
    "Xboa.Node.C103_partial",
    "Xboa.Node.C103_before",
    "Xboa.Node.C103_one_child",
    "Xboa.Node.C103_join",
    "Xboa.Node.C103_result",
    "Xboa.Node.C103_stale_false"
   ],
   "note": "False in Python 3: the files are opened in text mode, so set_hit_list always raises and no history of calls ever gives a return value (C103_false). If they were opened in binary mode: any value returned is what the tracking makes of one of the hit lists set before (C103_partial) and of the right one in the usual order of calls (C103_result), but the results of an earlier job are returned after one that was killed (C103_stale_false). Proved as claimed in any case: the order of calls (C103_before, C103_one_child, C103_join)."
  },
  {
   "property": "C104",
   "status": "partial",
   "theorems": [
    "Xboa.FileConvert.C104_partial",
    "Xboa.FileConvert.C104_rotate",
    "Xboa.FileConvert.C104_origin_false",
    "Xboa.FileConvert.C104_plots_false",
    "Xboa.FileConvert.C104_comments",
    "Xboa.FileConvert.C104_cm_false"
   ],
   "note": "Proved for text formats from control file to output file with station, translation of stored coordinates and the mass shell condition on px, py, pz or energy; the rotation step on its own (covariance, emittance and the map of the hits); the control file's words and comments. Missing: the condition on 'p', MAUS formats, rotation and writing in one theorem. False of the code: the origin is handed to transform_to as a translation, so a hit at a non-zero origin never stays there (C104_origin_false); any plot line means that no file is written (C104_plots_false); G4Beamline input whose header says cm is read as mm (C104_cm_false)."
  },
  {
   "property": "C105",
   "status": "partial",
   "theorems": [
    "Xboa.BunchShell.C105_translate",
    "Xboa.BunchShell.C105_linear",
    "Xboa.BunchShell.C105_partial",
    "Xboa.BunchShell.C105_translation_false",
    "Xboa.BunchShell.C105_p_false"
   ],
   "note": "C105_translate, C105_linear and C105_partial (transform_to, covariances). False: a translation of a variable that is not in the list is ignored, also in the documented example of transform_to (C105_translation_false); with 'p' a hit of too little energy raises IndexError in the middle of the bunch, with the hits before it moved and those after it not (C105_p_false)."
  },
  {
   "property": "C106",
   "status": "partial",
   "theorems": [
    "Xboa.PeakErrors.C106_partial",
    "Xboa.PeakErrors.C106_found",
    "Xboa.PeakErrors.C106_scale",
    "Xboa.PeakErrors.C106_parabola_partial",
    "Xboa.PeakErrors.C106_false",
    "Xboa.PeakErrors.C106_draw_false"
   ],
   "note": "C106_partial, C106_found, C106_scale; the fit of ROOT is a parameter, textbook_least shows that one exists. False: for data on a parabola the result is half a position below the vertex, always (C106_parabola_partial, C106_false); with draw every peak raises TypeError (C106_draw_false)."
  },
  {
   "property": "C107",
   "status": "partial",
   "theorems": [
    "Xboa.Generator.C107_one_false",
    "Xboa.Generator.C107_hit",
    "Xboa.Generator.C107_partial",
    "Xboa.Generator.C107_bad_lines",
    "Xboa.Generator.C107_lists_false"
   ],
   "note": "C107_hit (every factory), C107_partial (text files, one generator after the other). False: a generator gives one hit and ends (C107_one_false); after two bad lines it raises RuntimeError although hits follow (C107_bad_lines), as it does at the end of the file; the two lists raise AttributeError (C107_lists_false)."
  },
  {
   "property": "C108",
   "status": "partial",
   "theorems": [
    "Xboa.EllipseFunction.C108_section",
    "Xboa.EllipseFunction.C108_partial",
    "Xboa.EllipseFunction.C108_projection_false",
    "Xboa.EllipseFunction.C108_limits_false",
    "Xboa.EllipseFunction.C108_one_variable"
   ],
   "note": "C108_partial (two variables). False for more variables: the function is that of the section through the mean (C108_section, C108_projection_false); one limit that is missing replaces the other three (C108_limits_false)."
  },
  {
   "property": "C109",
   "status": "partial",
   "theorems": [
    "Xboa.RefCount.C109_safe",
    "Xboa.RefCount.C109_countdown",
    "Xboa.RefCount.C109_lost",
    "Xboa.RefCount.C109_calls",
    "Xboa.RefCount.C109_false",
    "Xboa.RefCount.C109_partial"
   ],
   "note": "C109_safe for all histories; C109_partial: hits, lengths, values and names are given back. False: C109_false, and C109_lost and C109_calls for exactly how many objects every call loses: (n + 1)^2 for a covariance matrix of n axes, one for each hit of a cut."
  },
  {
   "property": "C110",
   "status": "partial",
   "theorems": [
    "Xboa.C110_statistics",
    "Xboa.C110_partial",
    "Xboa.C110_same_shape",
    "Xboa.C110_merged",
    "Xboa.C110_false"
   ],
   "note": "C110_statistics: equal mean, moments (given and default means) and covariance matrix, and scaled weight, for any two bunches of the same shape; C110_same_shape: reordering with scaling, repetition and weightless hits give the same shape; C110_merged: the law of two bunches together; C110_partial: emittance, Twiss functions and amplitudes, for the same mass of the first hit.  C110_false: weights scaled below 1e-9 give ZeroDivisionError; with different masses the order of the hits changes the emittance, since the mass of hit 0 is used."
  },
  {
   "property": "C111",
   "status": "partial",
   "theorems": [
    "Xboa.Subprocess.C111_partial",
    "Xboa.Subprocess.C111_stuck",
    "Xboa.Subprocess.C111_root",
    "Xboa.Subprocess.C111_switch",
    "Xboa.Subprocess.C111_false"
   ],
   "note": "C111_partial: after every calm history (no failed start, no closed object, no forked child waited for, no child made by multiprocessing that ignores SIGTERM) all processes started by the function are stopped and others untouched.  C111_stuck: otherwise the loop stops at the first bad object and everything after it, with all forked children, runs on.  C111_root: the documented ImportError is caught by the handler next to it, and the call forks.  C111_switch: xboa.common.kill_subprocesses_at_exit is a copy that nothing reads.  C111_false: a history for each event."
  },
  {
   "property": "C112",
   "status": "partial",
   "theorems": [
    "Xboa.Figures.C112_call",
    "Xboa.Figures.C112_scatter",
    "Xboa.Figures.C112_partial",
    "Xboa.Figures.C112_new",
    "Xboa.Figures.C112_unique",
    "Xboa.Figures.C112_multigraph_false",
    "Xboa.Figures.C112_false",
    "Xboa.Figures.C112_size_false"
   ],
   "note": "For all programs: what each call adds and where (C112_call), numbers given out are distinct (C112_unique), exact condition for a new figure (C112_new). Partial: a new figure for programs that only name numbers given out before. False in general: a figure named by the caller or made with pyplot has the number that is given out next (C112_false); make_multigraph always raises NameError (C112_multigraph_false)."
  },
  {
   "property": "C113",
   "status": "proved",
   "theorems": [
    "Xboa.Invariants.C113_scaling",
    "Xboa.Invariants.C113_invariant",
    "Xboa.Invariants.C113_lattice",
    "Xboa.Invariants.C113_optics"
   ],
   "note": "For all invertible matrices (C113_scaling), determinant 1 or -1 (C113_invariant), sequences of maps by induction (C113_lattice), Twiss rule (C113_optics)."
  },
  {
   "property": "C114",
   "status": "proved",
   "theorems": [
    "Xboa.CutSequences.C114_sequence",
    "Xboa.CutSequences.C114_order",
    "Xboa.CutSequences.C114_transmission",
    "Xboa.CutSequences.C114_weights_differ"
   ],
   "note": "Props/CutSequences.lean. C114_sequence is the whole statement by induction over the calls, with rejection expressed in the state before the first call; C114_order and C114_transmission are what follows for order, repetition and bunch_weight. transmission_cut with its default test variables (integers). C114_weights_differ shows that the restriction to variables other than the weights is needed. Cuts in units of standard deviations (value_is_nsigma_bool) depend on the weights and are not part of the claim."
  },
  {
   "property": "C115",
   "status": "proved",
   "theorems": [
    "Xboa.ClosedOrbit.C115_converges",
    "Xboa.ClosedOrbit.C115_precision",
    "Xboa.ClosedOrbit.C115_plane"
   ],
   "note": "Props/ClosedOrbitConverges.lean. C115_converges gives the bound for every iteration in any dimension if no point is cut, C115_precision the limit, C115_plane removes the condition on the cut for two variables (chi squared of a point is at most the number of points; determinant at most (r R)^4). Built on the iterations of C80, so the same trusted parts: pure tracking, exact arithmetic, lawful inverse and roots."
  },
  {
   "property": "C116",
   "status": "partial",
   "theorems": [
    "Xboa.Matching.C116_plane",
    "Xboa.Matching.C116_geometric",
    "Xboa.Matching.C116_penn_partial",
    "Xboa.Matching.C116_any_charge",
    "Xboa.Matching.C116_angular_momentum_partial",
    "Xboa.Matching.C116_transform_to",
    "Xboa.Matching.C116_transform_to_penn_partial",
    "Xboa.Matching.C116_canonical_false",
    "Xboa.Matching.C116_charge_false"
   ],
   "note": "C116_plane and C116_geometric (one plane), C116_penn_partial and C116_angular_momentum_partial (two planes, charge 1 or -1), C116_transform_to and C116_transform_to_penn_partial (end to end with transform_to), C116_any_charge (exact emittance for any charge). False: for charge -1 get_canonical_angular_momentum does not take the charge into account while build_penn_ellipse does (C116_canonical_false: built for 0, 4 returned); for charges other than 1 and -1 the emittance is not that asked for (C116_charge_false)."
  },
  {
   "property": "C117",
   "status": "proved",
   "theorems": [
    "Xboa.CutTransport.C117_local",
    "Xboa.CutTransport.C117_global",
    "Xboa.CutTransport.C117_other",
    "Xboa.CutTransport.C117_moved"
   ],
   "note": "C117_local (the two worlds are equal), C117_global (same hits, same weight of every track in every context), C117_other (stored variables that are not moved). C117_moved shows that the condition of C117_other is needed: a cut at x > 3 and a shift of x by 5 do not commute."
  },
  {
   "property": "C118",
   "status": "proved",
   "theorems": [
    "Xboa.C118_bound",
    "Xboa.C118_order"
   ],
   "note": "C118_bound is the bound, C118_order the consequence for two lattices. Real arithmetic; numpy.linalg.inv and cholesky are any functions that invert and factorise (LinAlg.Lawful, CholLaw), math.atan2 is the real one. That no point is cut by fit_ellipse is proved (leverage: no point is further from the mean than the number of points, in units of the covariance matrix), not assumed."
  },
  {
   "property": "C119",
   "status": "partial",
   "theorems": [
    "Xboa.C119_sent_partial",
    "Xboa.C119_partial",
    "Xboa.C119_false",
    "Xboa.C119_same_false"
   ],
   "note": "False for two or more processes, with Python 2, in which MultiTrack runs (C49_false for Python 3): every job is a copy of the same MAUSTracking, and its first hit goes out with the same seed (C119_false). Beams of equal particles come back from every process with equal hits, spill and event numbers (C119_same_false). The MAUSTracking that MultiTrack was made with is not changed, so that later calls use the same seeds again. Proved: the exact seeds of every process (C119_sent_partial) and that one process has no repetition in a call (C119_partial). MAUS is any function of what was sent to it, the same in every process; starting of processes and pickle are taken to work."
  },
  {
   "property": "C120",
   "status": "partial",
   "theorems": [
    "Xboa.Reload.C120_round_partial",
    "Xboa.Reload.C120_partial",
    "Xboa.Reload.C120_false"
   ],
   "note": "False for comments with the words 'cm cm cm' (C120_false): reading such a file sets the unit for writing to cm, while reading always takes mm, so that from the second round on each round divides the positions by ten. C120_round_partial is the exact effect of one round for every unit of length and comment, C120_partial the claim for all lists of comments without these words, starting with mm. Hits have station 0 (the format has no column for it) and comments one line (C96_newline_false). Numbers as field elements, str and float exact."
  },
  {
   "property": "C121",
   "status": "partial",
   "theorems": [
    "Xboa.Decoupling.C121_partial",
    "Xboa.Decoupling.C121_matrix_false",
    "Xboa.Decoupling.C121_order_false",
    "Xboa.Decoupling.C121_false"
   ],
   "note": "C121_partial: if all coupled axes are axes of the emittance, the decoupled emittance is the emittance, for every order of the eigenvalues and of the axes. False otherwise: the order of the eigenvalues decides which of them are taken, so a beam without coupling can get the emittance of another plane (C121_order_false); for a beam coupled by a skew quadrupole no order gives the emittance before (C121_false); a given matrix raises ValueError (C121_matrix_false)."
  },
  {
   "property": "C122",
   "status": "partial",
   "theorems": [
    "Xboa.Batch.C122_substr",
    "Xboa.Batch.C122_partial",
    "Xboa.Batch.C122_alive",
    "Xboa.Batch.C122_false",
    "Xboa.Batch.C122_lost_false",
    "Xboa.Batch.C122_suspended_false"
   ],
   "note": "Text search is exact for all texts and keys; the life of the job holds for every sequence of calls, given Python 2 and a batch system that says what it does. False: in Python 3 the constructor always raises, and start would submit a job and then raise without recording it; a suspended job counts as ended with exit code 0 and is left behind by the next start."
  },
  {
   "property": "C123",
   "status": "proved",
   "theorems": [
    "Xboa.Planes.C123_planes",
    "Xboa.Planes.C123_each"
   ],
   "note": "Real numbers; det and the root are characterised by LinAlg.Lawful. The case of a negative weight is outside the statement: the covariance matrix then need not be positive semidefinite."
  },
  {
   "property": "C124",
   "status": "proved",
   "theorems": [
    "Xboa.Joined.C124_join"
   ],
   "note": "Real numbers; det and the root are characterised by LinAlg.Lawful. The joined bunch may have the hits in any order; its first hit has the mass of the others, since get_emittance divides by the mass of the first hit."
  }
 ]
}