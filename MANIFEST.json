{
 "claims": [
  {
   "property": "C01",
   "status": "proved",
   "theorems": [
    "Tavi.C01_lattice_roundtrip",
    "Tavi.C01_upper_b_roundtrip",
    "Tavi.C01_b_roundtrip",
    "Tavi.C01_singular_fallback"
   ],
   "note": ""
  },
  {
   "property": "C02",
   "status": "proved",
   "theorems": [
    "Tavi.C02_gram",
    "Tavi.C02_q_norm"
   ],
   "note": ""
  },
  {
   "property": "C03",
   "status": "proved",
   "theorems": [
    "Tavi.C03_real_vectors",
    "Tavi.C03_duality",
    "Tavi.C03_reciprocal_params",
    "Tavi.C03_reciprocal_basis"
   ],
   "note": ""
  },
  {
   "property": "C04",
   "status": "proved",
   "theorems": [
    "Tavi.C04_ub_decomposition",
    "Tavi.C04_recovers",
    "Tavi.C04_lattice_rotation_invariant"
   ],
   "note": ""
  },
  {
   "property": "C05",
   "status": "proved",
   "theorems": [
    "Tavi.C05_uv_ub"
   ],
   "note": ""
  },
  {
   "property": "C06",
   "status": "proved",
   "theorems": [
    "Tavi.C06_r_mat_rotation",
    "Tavi.C06_refusal",
    "Tavi.C06_success_iff"
   ],
   "note": ""
  },
  {
   "property": "C07",
   "status": "proved",
   "theorems": [
    "Tavi.C07_angles_recovered",
    "Tavi.C07_matrix_recovered"
   ],
   "note": ""
  },
  {
   "property": "C08",
   "status": "proved",
   "theorems": [
    "Tavi.C08_limits_respected",
    "Tavi.C08_refused_iff",
    "Tavi.C08_set_limit"
   ],
   "note": ""
  },
  {
   "property": "C09",
   "status": "partial",
   "theorems": [
    "Tavi.C09_huber_roundtrip_partial",
    "Tavi.C09_huber_close",
    "Tavi.C09_near_plane_fails",
    "Tavi.C09_gimbal_fails"
   ],
   "note": "Exact round trip away from the code's 1e-5 thresholds and from gimbal lock (sgl = +-90). C09_huber_close covers every reflection: the one found differs by at most 6 times the distance from the plane (or the normal) if that is below 1e-5, else by nothing, divided by cos sgl. Both exceptions are real: within the strip the reflection found is another one (C09_near_plane_fails), at gimbal lock different reflections get the same angles (C09_gimbal_fails)."
  },
  {
   "property": "C10",
   "status": "partial",
   "theorems": [
    "Tavi.C10_bisect_roundtrip_partial",
    "Tavi.C10_sense_plus_inverts"
   ],
   "note": "Proved for sense \"-\". For sense \"+\" the negation is proved: the angles observe -hkl."
  },
  {
   "property": "C100",
   "status": "partial",
   "theorems": [
    "Tavi.C100_panels",
    "Tavi.C100_seen_partial",
    "Tavi.C100_shift",
    "Tavi.C100_unseen",
    "Tavi.C100_lost"
   ],
   "note": "The contents of the panels are proved in full. That they can be seen holds on axes at 90 degrees (C100_seen_partial) and fails on skewed axes: the ellipses are drawn at x + y*cot(angle) but the limits are centred on x (C100_shift), so they are outside their panel as soon as y*cot(angle) exceeds the widths (C100_unseen; C100_lost is a cubic crystal at (1, 0, 0) in the axes (1, 1, 0), (0, 1, 0), (0, 0, 1))."
  },
  {
   "property": "C101",
   "status": "proved",
   "theorems": [
    "Tavi.C101_history",
    "Tavi.C101_get",
    "Tavi.C101_group",
    "Tavi.C101_group_refused",
    "Tavi.C101_data",
    "Tavi.C101_folder",
    "Tavi.C101_saved",
    "Tavi.C101_linked"
   ],
   "note": "Entries may have a link to the data of the monitor, which making a scan removes; it must not contain the points of the scan (a dataset cannot, C101_linked)."
  },
  {
   "property": "C102",
   "status": "proved",
   "theorems": [
    "Tavi.C102_converted",
    "Tavi.C102_folder",
    "Tavi.C102_listing",
    "Tavi.C102_refused"
   ],
   "note": "The scans are compared as in C82/C86 (two lists of the header are counted as columns differently). That the conversion succeeds is C86_scans."
  },
  {
   "property": "C103",
   "status": "partial",
   "theorems": [
    "Tavi.C103_kept_partial",
    "Tavi.C103_added_partial",
    "Tavi.C103_first",
    "Tavi.C103_again",
    "Tavi.C103_failed",
    "Tavi.C103_text",
    "Tavi.C103_comments_kept",
    "Tavi.C103_comments_added",
    "Tavi.C103_comments_start",
    "Tavi.C103_rewritten",
    "Tavi.C103_comment",
    "Tavi.C103_twice",
    "Tavi.C103_indented",
    "Tavi.C103_slash",
    "Tavi.C103_percent"
   ],
   "note": "Kept and added are proved for files without lines that begin with #, ; or / (after blanks), and for files with # or ; comments in which no line is indented or begins with / whenever the start succeeds (C103_comments_kept, C103_comments_added), which it does if the file does not begin with a comment and the comments differ (C103_comments_start). Otherwise the claim is false with comments: the parser of the start takes # and ; for fields and / for comments, so a comment at the top, two equal comments, or a comment before an indented line stop the application from starting (C103_comment, C103_twice, C103_indented) though get_data reads the file, lines of values that begin with / are deleted (C103_slash), and the comments themselves are rewritten (C103_rewritten)."
  },
  {
   "property": "C104",
   "status": "proved",
   "theorems": [
    "Tavi.C104_file",
    "Tavi.C104_supplemented",
    "Tavi.C104_without",
    "Tavi.C104_no_file",
    "Tavi.C104_matrix",
    "Tavi.C104_loads",
    "Tavi.C104_cell_ignored",
    "Tavi.JsonDemo.tidy",
    "Tavi.JsonDemo.storable",
    "Tavi.JsonDemo.loaded"
   ],
   "note": "The documents are those json.load gives, with the values that occur (numbers, texts, true/false, null, lists of numbers or texts). The two assumptions on names are those of Spec.TidyConfig. C104_cell_ignored is a finding: the cell parameters of the sample file are not taken, also when its ub_matrix is, so that the entry then pairs the UB matrix of the sample file with the cell of the data file."
  },
  {
   "property": "C105",
   "status": "partial",
   "theorems": [
    "Tavi.C105_sample",
    "Tavi.C105_same_partial",
    "Tavi.C105_convention",
    "Tavi.C105_ignored",
    "Tavi.C105_scan",
    "Tavi.JsonDemo.turned_tidy",
    "Tavi.JsonDemo.turned_describes",
    "Tavi.JsonDemo.turned_loaded",
    "Tavi.JsonDemo.turned_json"
   ],
   "note": "Agreement with Sample.from_json is proved for the Spice convention only: for files in the Mantid convention it is false (C105_convention). The header describes a sample as in C85; the mosaic of the sample file does not reach the sample (C105_ignored)."
  },
  {
   "property": "C106",
   "status": "proved",
   "theorems": [
    "Tavi.C106_columns",
    "Tavi.C106_loads",
    "Tavi.JsonDemo.turned_storable",
    "Tavi.JsonDemo.turned_plain"
   ],
   "note": "Names the files speak about are excluded: such a parameter takes the place of a column of the same name in its group."
  },
  {
   "property": "C107",
   "status": "partial",
   "theorems": [
    "Tavi.C107_round_trip",
    "Tavi.C107_scans",
    "Tavi.C107_files",
    "Tavi.C107_without",
    "Tavi.C107_no_file",
    "Tavi.C107_refused",
    "Tavi.JsonDemo.turned_writable",
    "Tavi.JsonDemo.four_with"
   ],
   "note": "Proved for names that are no paths (as C106), and as C82/C86 for all columns but the lists of the header and for scans read without their number. The axes of the default plot must not be replaced by the configuration files. C107_refused is a finding: lists of texts in the sample file are accepted when reading, but then writing fails."
  },
  {
   "property": "C108",
   "status": "partial",
   "theorems": [
    "Tavi.C108_instrument",
    "Tavi.C108_table_ignored",
    "Tavi.JsonDemo.tabled_own",
    "Tavi.JsonDemo.tabled_plain"
   ],
   "note": "Proved for crystals, their senses and the collimation; false for the sense of the sample table, which is never taken from the instrument file (C108_table_ignored)."
  },
  {
   "property": "C109",
   "status": "proved",
   "theorems": [
    "Tavi.C109_local",
    "Tavi.C109_turned",
    "Tavi.C109_mounting",
    "Tavi.C109_equivalent",
    "Tavi.C109_opposite",
    "Tavi.Demo.reso_in_plane",
    "Tavi.Demo.turned",
    "Tavi.Demo.consistent2",
    "Tavi.Demo.quarter_rot"
   ],
   "note": "Proved outside the thresholds of the tilt computation and gimbal lock, which the statement excludes. C109_turned is the general form."
  },
  {
   "property": "C11",
   "status": "partial",
   "theorems": [
    "Tavi.C11_both_fixed_partial",
    "Tavi.C11_both_fixed_close",
    "Tavi.C11_positions",
    "Tavi.C11_inelastic_fails"
   ],
   "note": "The positions observe the reflection at every energy transfer (C11_positions, within the bound of C09). The conversion back always uses zero energy transfer: proved to fail for every en != 0 when only one energy is fixed; holds when both energies are fixed."
  },
  {
   "property": "C110",
   "status": "proved",
   "theorems": [
    "Tavi.C110_coarser",
    "Tavi.C110_widths",
    "Tavi.C110_axes",
    "Tavi.C110_intensity",
    "Tavi.Demo.coarser",
    "Tavi.Demo.reso_like"
   ],
   "note": "Uses the textbook form of the resolution (C65): inverses of positive matrices are antitone, determinants monotone."
  },
  {
   "property": "C111",
   "status": "proved",
   "theorems": [
    "Tavi.C111_mirror",
    "Tavi.C111_reversed",
    "Tavi.C111_mirror_widths",
    "Tavi.C111_reversed_widths",
    "Tavi.C111_mirror_axes",
    "Tavi.C111_reversed_axes",
    "Tavi.C111_angles",
    "Tavi.Demo.mirrored_image",
    "Tavi.Demo.reso_sense"
   ],
   "note": "The reversal is stated for energies that agree with the fixed energy of the instrument, as those of the resolution calculation do. In crystal axes, and for the motor angles: reflections in the scattering plane, tables without bisecting mode, outside gimbal lock."
  },
  {
   "property": "C112",
   "status": "proved",
   "theorems": [
    "Tavi.C112_prints",
    "Tavi.C112_head",
    "Tavi.C112_widths",
    "Tavi.C112_rows",
    "Tavi.C112_energies",
    "Tavi.C112_crystals",
    "Tavi.C112_collimators",
    "Tavi.C112_orientation",
    "Tavi.Demo.printed100"
   ],
   "note": "The incoherent widths are stated for variances below 1e8, as in C25. Formatting of numbers and the layout of the table are parameters."
  },
  {
   "property": "C113",
   "status": "proved",
   "theorems": [
    "Tavi.C113_calculated",
    "Tavi.C113_refused",
    "Tavi.C113_glued",
    "Tavi.C113_angles",
    "Tavi.C113_told"
   ],
   "note": "C113_glued records that the line of the peaks is not ended, so a scattering plane set after three or more peaks stands on it. Formatting of arrays and numbers is a parameter."
  },
  {
   "property": "C114",
   "status": "proved",
   "theorems": [
    "Tavi.C114_enlarged",
    "Tavi.C114_widths",
    "Tavi.C114_angles",
    "Tavi.C114_axes",
    "Tavi.Demo.enlarged_is",
    "Tavi.Demo.enlarged_case"
   ],
   "note": "The motor angles, and the resolution in reciprocal lattice units: for reflections in the plane and tables without bisecting mode. The incoherent widths are left out: the projection compares entries with the fixed number 1e-8 (C26)."
  },
  {
   "property": "C12",
   "status": "partial",
   "theorems": [
    "Tavi.C12_minimal_tilt_partial",
    "Tavi.C12_close",
    "Tavi.C12_near_plane_fails",
    "Tavi.C12_refusals"
   ],
   "note": "Proved away from the 1e-5 thresholds; inside the strip 0 < |n.Q| < 1e-5 the returned matrix is proved not to be a rotation (C12_near_plane_fails), but to be within 2 |n.Q| / |Q| of a rotation with minimal tilt (C12_close)."
  },
  {
   "property": "C13",
   "status": "proved",
   "theorems": [
    "Tavi.C13_triangle",
    "Tavi.C13_side",
    "Tavi.C13_q_lab",
    "Tavi.C13_closes_iff",
    "Tavi.C13_too_short"
   ],
   "note": "The wave vectors and |Q| are above the resolution of the code, 1e-6, where two-theta and psi are shown to be returned; below it they are proved to be refused (C13_too_short)."
  },
  {
   "property": "C14",
   "status": "proved",
   "theorems": [
    "Tavi.C14_two_peaks",
    "Tavi.C14_true_orientation",
    "Tavi.C14_stored"
   ],
   "note": ""
  },
  {
   "property": "C15",
   "status": "partial",
   "theorems": [
    "Tavi.C15_three_peaks_partial",
    "Tavi.C15_coplanar_refused",
    "Tavi.C15_order_matters"
   ],
   "note": "The code compares the signed triple product with 1e-6: a left-handed order of the same three peaks is refused (C15_order_matters is the proved negation)."
  },
  {
   "property": "C16",
   "status": "proved",
   "theorems": [
    "Tavi.C16_minimiser",
    "Tavi.C16_coplanar_refused",
    "Tavi.C16_exact",
    "Tavi.C16_three",
    "Tavi.C16_permutation",
    "Tavi.C16_stored"
   ],
   "note": ""
  },
  {
   "property": "C17",
   "status": "partial",
   "theorems": [
    "Tavi.C17_one_peak_partial",
    "Tavi.C17_every_peak",
    "Tavi.C17_out_of_plane",
    "Tavi.C17_plane_inverted",
    "Tavi.C17_non_orthogonal_fails",
    "Tavi.C17_stored_normal"
   ],
   "note": "Proved when the peak lies mostly along v1 and v1, v2 are orthogonal. Otherwise the claim is false; for all plane vectors and all peaks in the plane C17_every_peak tells whether v1 x v2 ends up pointing up, down, or nothing is found (NaN); where something is found it is a rotation and the peak is in the measured direction, also for peaks out of the plane (C17_out_of_plane)."
  },
  {
   "property": "C18",
   "status": "proved",
   "theorems": [
    "Tavi.C18_plane_normal"
   ],
   "note": ""
  },
  {
   "property": "C19",
   "status": "proved",
   "theorems": [
    "Tavi.C19_set_get",
    "Tavi.C19_unknown_refused",
    "Tavi.C19_angles_independent",
    "Tavi.C19_copies_agree"
   ],
   "note": ""
  },
  {
   "property": "C20",
   "status": "partial",
   "theorems": [
    "Tavi.C20_energy_momentum",
    "Tavi.C20_momentum_energy",
    "Tavi.C20_bragg",
    "Tavi.C20_crystal_roundtrip_partial",
    "Tavi.C20_crystal_roundtrip_fails"
   ],
   "note": "The two crystal formulas use inconsistent constants (9.045 and 81.81): the round trip scales energy by 81.81/81.812025."
  },
  {
   "property": "C21",
   "status": "proved",
   "theorems": [
    "Tavi.C21_ei_ef",
    "Tavi.C21_both_known"
   ],
   "note": ""
  },
  {
   "property": "C22",
   "status": "partial",
   "theorems": [
    "Tavi.C22_one_update",
    "Tavi.C22_history",
    "Tavi.C22_impossible_accepted",
    "Tavi.C22_accepted_b_defined_partial",
    "Tavi.C22_triangle",
    "Tavi.C22_spanned",
    "Tavi.C22_defined_iff"
   ],
   "note": "Updates are atomic and all-or-nothing; but impossible cells (angle 0, 180 or incompatible triples) are accepted. Which of the accepted parameters are possible cells is characterised completely: those whose angles satisfy the spherical triangle inequalities, equivalently those that three independent vectors span, equivalently those for which B is defined."
  },
  {
   "property": "C23",
   "status": "proved",
   "theorems": [
    "Tavi.C23_angle_between",
    "Tavi.C23_motor_positions"
   ],
   "note": ""
  },
  {
   "property": "C24",
   "status": "proved",
   "theorems": [
    "Tavi.C24_positive",
    "Tavi.C24_defined"
   ],
   "note": ""
  },
  {
   "property": "C25",
   "status": "proved",
   "theorems": [
    "Tavi.C25_widths",
    "Tavi.C25_convolution_sigmas",
    "Tavi.C25_widths_any",
    "Tavi.C25_convolution_any"
   ],
   "note": "For matrices whose variances are below 1e8, which keeps every pivot above the numerical threshold of the code (the quantifier of the property); for all other symmetric positive definite matrices coherent <= incoherent <= true width is proved."
  },
  {
   "property": "C26",
   "status": "partial",
   "theorems": [
    "Tavi.C26_block_of_inverse_partial",
    "Tavi.C26_order_partial",
    "Tavi.C26_shadow",
    "Tavi.C26_convolution_same",
    "Tavi.C26_small_pivot_differs",
    "Tavi.C26_within",
    "Tavi.C26_small_pivot"
   ],
   "note": "Proved when the variances are below 1e8. Without that limit the result is proved to lie within the true projection; an axis below the pivot threshold of the code is cut, which is the projection iff the axis is not coupled to the others."
  },
  {
   "property": "C27",
   "status": "partial",
   "theorems": [
    "Tavi.C27_same_form",
    "Tavi.C27_coordinates",
    "Tavi.C27_defined",
    "Tavi.C27_angle_partial",
    "Tavi.C27_angle_energy_first",
    "Tavi.C27_angle_wrong",
    "Tavi.C27_angle_table",
    "Tavi.C27_frame",
    "Tavi.C27_local",
    "Tavi.C27_along_q",
    "Tavi.C27_positive",
    "Tavi.C27_in_plane"
   ],
   "note": "Form and coordinates proved for every placement of the energy axis; the angle proved for the energy axis last; for every placement it is proved which angle is drawn, which is a wrong one unless the energy is last (C27_angle_wrong is a concrete request: 90 drawn, 45 true)."
  },
  {
   "property": "C28",
   "status": "proved",
   "theorems": [
    "Tavi.C28_batch",
    "Tavi.C28_returns",
    "Tavi.C28_refuses"
   ],
   "note": "Positions fail with a message and do not disturb others; missing energies or unusable instrument parameters refuse the whole batch (C28_refuses)."
  },
  {
   "property": "C29",
   "status": "proved",
   "theorems": [
    "Tavi.C29_values",
    "Tavi.C29_refused",
    "Tavi.C29_product"
   ],
   "note": ""
  },
  {
   "property": "C30",
   "status": "proved",
   "theorems": [
    "Tavi.C30_grid",
    "Tavi.C30_grid_renorm",
    "Tavi.C30_tol",
    "Tavi.C30_tol_renorm",
    "Tavi.C30_no_column",
    "Tavi.C30_partition"
   ],
   "note": ""
  },
  {
   "property": "C31",
   "status": "proved",
   "theorems": [
    "Tavi.C31_counts",
    "Tavi.C31_counts_renorm"
   ],
   "note": ""
  },
  {
   "property": "C32",
   "status": "partial",
   "theorems": [
    "Tavi.C32_covered_partial",
    "Tavi.C32_point_lost",
    "Tavi.C32_kept_iff",
    "Tavi.C32_range_iff",
    "Tavi.C32_counts_lost"
   ],
   "note": "Characterised completely: a point is kept iff below the right edge of the last bin; the whole range is kept iff it exceeds a whole number of steps by less than 0.49 or at least 0.99 of a step; otherwise the counts missing are proved to be those of the points beyond that edge (witness {0, 0.9}, step 1)."
  },
  {
   "property": "C33",
   "status": "proved",
   "theorems": [
    "Tavi.C33_weighted_mean",
    "Tavi.C33_scale_invariant",
    "Tavi.C33_proportional",
    "Tavi.C33_renorm"
   ],
   "note": ""
  },
  {
   "property": "C34",
   "status": "proved",
   "theorems": [
    "Tavi.C34_positions"
   ],
   "note": ""
  },
  {
   "property": "C35",
   "status": "proved",
   "theorems": [
    "Tavi.C35_permutation",
    "Tavi.C35_scan_order",
    "Tavi.C35_scan_order_2d"
   ],
   "note": ""
  },
  {
   "property": "C36",
   "status": "proved",
   "theorems": [
    "Tavi.C36_cells",
    "Tavi.C36_conserved",
    "Tavi.C36_empty_undefined"
   ],
   "note": ""
  },
  {
   "property": "C37",
   "status": "partial",
   "theorems": [
    "Tavi.C37_concatenation_partial",
    "Tavi.C37_single_partial",
    "Tavi.C37_separate_renorm",
    "Tavi.C37_del_q_refused",
    "Tavi.C37_underscore_refused",
    "Tavi.C37_group_refuses",
    "Tavi.C37_underscore_scan"
   ],
   "note": "Proved for stored columns without underscore in the name of the counts column, equal presets and a non-zero norm value. Proved to fail, in general: del_q axes (every group refuses), counts columns with an underscore (every scan with a normal preset refuses)."
  },
  {
   "property": "C38",
   "status": "partial",
   "theorems": [
    "Tavi.C38_equal_length_partial",
    "Tavi.C38_different_length_fails",
    "Tavi.C38_operand_destroyed",
    "Tavi.C38_unequal"
   ],
   "note": "Equal lengths proved. Different lengths: proved for all operands that the code raises, or gives undefined intensities only and destroys the second operand."
  },
  {
   "property": "C39",
   "status": "partial",
   "theorems": [
    "Tavi.C39_accepted_iff",
    "Tavi.C39_refusal",
    "Tavi.C39_idempotent",
    "Tavi.C39_grid_wins",
    "Tavi.C39_can_be_done_partial",
    "Tavi.C39_accepted_impossible"
   ],
   "note": "Acceptance, normalisation, idempotence and precedence proved. A zero step and a pair without step are proved to be accepted although they can never be carried out."
  },
  {
   "property": "C40",
   "status": "proved",
   "theorems": [
    "Tavi.C40_hkle",
    "Tavi.C40_dependent_refused"
   ],
   "note": ""
  },
  {
   "property": "C41",
   "status": "partial",
   "theorems": [
    "Tavi.C41_rows_partial",
    "Tavi.C41_not_divisible_refused",
    "Tavi.C41_rows_mixed",
    "Tavi.C41_any_lengths"
   ],
   "note": "Proved for scans of equal length. For scans of any lengths what comes out is characterised, and the rows are the scans only if the lengths are equal: scans of unequal length with divisible total are mixed."
  },
  {
   "property": "C42",
   "status": "partial",
   "theorems": [
    "Tavi.C42_history",
    "Tavi.C42_ignores_logs",
    "Tavi.C42_found",
    "Tavi.C42_absent",
    "Tavi.C42_sound",
    "Tavi.C42_kept_partial",
    "Tavi.C42_logs_first",
    "Tavi.C42_logs_lost"
   ],
   "note": "Values and independence of the history proved. Proved to fail: any look-up removes the logs from the entry, after which reading them raises UnboundLocalError."
  },
  {
   "property": "C43",
   "status": "partial",
   "theorems": [
    "Tavi.C43_round_trip",
    "Tavi.C43_others_untouched",
    "Tavi.C43_rewrite",
    "Tavi.C43_history",
    "Tavi.C43_by_number_partial",
    "Tavi.C43_by_number_attrs",
    "Tavi.C43_strings_differ",
    "Tavi.C43_numerals",
    "Tavi.C43_whole_numbers",
    "Tavi.C43_not_numbers"
   ],
   "note": "Round trip, isolation and idempotence proved for every well-formed tree (strings, numbers, numeric arrays). Proved to fail: lists of strings come back as one string, and reading one entry by number loses its attributes. Soft links of the data group: see C80 and C46_file."
  },
  {
   "property": "C44",
   "status": "partial",
   "theorems": [
    "Tavi.C44_filed_partial",
    "Tavi.C44_get",
    "Tavi.C44_get_num",
    "Tavi.C44_lost",
    "Tavi.C44_same_name_lost"
   ],
   "note": "After any loads the scans of an experiment are exactly those of the last load containing it. Proved to fail in general: a second load of an experiment drops its earlier scans; two files of a folder with one entry name collide."
  },
  {
   "property": "C45",
   "status": "partial",
   "theorems": [
    "Tavi.C45_injective",
    "Tavi.C45_order",
    "Tavi.C45_reported_partial",
    "Tavi.C45_reported_wrong"
   ],
   "note": "Injectivity and order proved; the reported number is the requested one up to 9999 and is proved wrong from 10000 on."
  },
  {
   "property": "C46",
   "status": "partial",
   "theorems": [
    "Tavi.C46_saved_partial",
    "Tavi.C46_after_reads_partial",
    "Tavi.C46_file",
    "Tavi.C46_scans",
    "Tavi.C46_file_unnamed",
    "Tavi.C46_no_plot",
    "Tavi.C46_unnamed_fails",
    "Tavi.C46_logs_lost"
   ],
   "note": "Saving under a name and opening gives back every scan with all content. Proved to fail: saving without a name raises TypeError, logs of entries looked at before are not saved, one entry whose plot group says not what to plot keeps the session from being saved. C46_file and C46_scans include the soft links of the default plots: after opening, every scan has the same tree, its plot shows the right columns, and scans loaded from data files give the same scan object."
  },
  {
   "property": "C47",
   "status": "proved",
   "theorems": [
    "Tavi.C47_distinct",
    "Tavi.C47_given"
   ],
   "note": ""
  },
  {
   "property": "C48",
   "status": "partial",
   "theorems": [
    "Tavi.C48_values",
    "Tavi.C48_end_time",
    "Tavi.C48_others",
    "Tavi.C48_total",
    "Tavi.C48_value_partial",
    "Tavi.C48_blanks_lost",
    "Tavi.C48_swallowed"
   ],
   "note": "Proved for every header: every key gets all its values joined in file order, other lines go to the unrecognised list, the end time comes from the last line that mentions the end. Proved to fail: inner blanks around = are not kept, lines that merely mention scan completed/stopped are swallowed."
  },
  {
   "property": "C49",
   "status": "partial",
   "theorems": [
    "Tavi.C49_partition_partial",
    "Tavi.C49_lines_lost",
    "Tavi.C49_no_marker",
    "Tavi.C49_errors_dropped"
   ],
   "note": "Proved for files with the summary; proved to fail: without summary the lines after the columns are lost, and the log group drops the error messages."
  },
  {
   "property": "C50",
   "status": "proved",
   "theorems": [
    "Tavi.C50_channels",
    "Tavi.C50_total"
   ],
   "note": ""
  },
  {
   "property": "C51",
   "status": "partial",
   "theorems": [
    "Tavi.C51_plain_partial",
    "Tavi.C51_int_partial",
    "Tavi.C51_vector",
    "Tavi.C51_signed_fails",
    "Tavi.C51_int_fraction"
   ],
   "note": "Plain numerals and lists keep their exact value; proved to fail: a lone numeral with sign or exponent raises UnboundLocalError."
  },
  {
   "property": "C52",
   "status": "partial",
   "theorems": [
    "Tavi.C52_read_partial",
    "Tavi.C52_temp_fails",
    "Tavi.C52_dropped"
   ],
   "note": "Read when it is in the UBConf folder; proved to fail: from the temp folder, and the log group drops the configuration."
  },
  {
   "property": "C53",
   "status": "partial",
   "theorems": [
    "Tavi.C53_filter_partial",
    "Tavi.C53_repeat",
    "Tavi.C53_total",
    "Tavi.C53_le_wrong",
    "Tavi.C53_missing_fails",
    "Tavi.C53_stale"
   ],
   "note": "All answers of any number of calls proved for every operator but <=; proved to fail: <= accepts a scan with one point below, a scan without the keyword makes the filter raise, and changing the conditions keeps the scans found before."
  },
  {
   "property": "C54",
   "status": "proved",
   "theorems": [
    "Tavi.C54_history",
    "Tavi.C54_nested",
    "Tavi.C54_possible",
    "Tavi.C54_one_broker"
   ],
   "note": "Publications nested inside listeners included."
  },
  {
   "property": "C55",
   "status": "proved",
   "theorems": [
    "Tavi.C55_load",
    "Tavi.C55_schedule",
    "Tavi.C55_history"
   ],
   "note": "Every completion order of the worker threads."
  },
  {
   "property": "C56",
   "status": "proved",
   "theorems": [
    "Tavi.C56_validate",
    "Tavi.C56_idempotent",
    "Tavi.C56_get"
   ],
   "note": ""
  },
  {
   "property": "C57",
   "status": "partial",
   "theorems": [
    "Tavi.C57_next_partial",
    "Tavi.C57_padding_lost",
    "Tavi.C57_unknown"
   ],
   "note": "Proved without padding; proved to fail: the zero padding is lost."
  },
  {
   "property": "C58",
   "status": "partial",
   "theorems": [
    "Tavi.C58_ranges",
    "Tavi.C58_twice",
    "Tavi.C58_conv_partial",
    "Tavi.C58_misaligned",
    "Tavi.C58_short"
   ],
   "note": "points, values and errors hold for every history of ranges; the resolution parameters of a convolution fit are not restricted along with the points (C58_misaligned)"
  },
  {
   "property": "C59",
   "status": "proved",
   "theorems": [
    "Tavi.C59_prefixes",
    "Tavi.C59_added",
    "Tavi.C59_conv_prefixes",
    "Tavi.C59_conv_text"
   ],
   "note": ""
  },
  {
   "property": "C60",
   "status": "partial",
   "theorems": [
    "Tavi.C60_equal_partial",
    "Tavi.C60_plain",
    "Tavi.C60_inverted"
   ],
   "note": "holds for equal errors; with unequal errors the weights are the errors themselves instead of their inverses (C60_inverted)"
  },
  {
   "property": "C61",
   "status": "proved",
   "theorems": [
    "Tavi.C61_inverse",
    "Tavi.C61_parallel",
    "Tavi.C61_direction"
   ],
   "note": ""
  },
  {
   "property": "C62",
   "status": "proved",
   "theorems": [
    "Tavi.C62_labels",
    "Tavi.C62_shown",
    "Tavi.C62_zero_fails"
   ],
   "note": ""
  },
  {
   "property": "C63",
   "status": "partial",
   "theorems": [
    "Tavi.C63_columns_partial",
    "Tavi.C63_digit_fails",
    "Tavi.C63_collision_lost",
    "Tavi.C63_no_points_fails",
    "Tavi.C63_column_cut"
   ],
   "note": "holds for tables with points, two or more columns and distinct plain names; a leading digit, a file without points or a single point in one column make loading fail"
  },
  {
   "property": "C64",
   "status": "partial",
   "theorems": [
    "Tavi.C64_refl",
    "Tavi.C64_symmetric_partial",
    "Tavi.C64_asymmetric",
    "Tavi.C64_missing",
    "Tavi.C64_both",
    "Tavi.C64_complete"
   ],
   "note": "holds for the same motors with clear cut readings; the relative tolerance and missing motors break symmetry, != is not the opposite of =="
  },
  {
   "property": "C65",
   "status": "proved",
   "theorems": [
    "Tavi.C65_textbook",
    "Tavi.C65_prefactor"
   ],
   "note": ""
  },
  {
   "property": "C66",
   "status": "partial",
   "theorems": [
    "Tavi.C66_cut_partial",
    "Tavi.C66_projection_partial",
    "Tavi.C66_order_ignored",
    "Tavi.C66_projection_within",
    "Tavi.C66_swapped",
    "Tavi.C66_decreasing_iff"
   ],
   "note": "Proved for increasing axes (the projection within the limits of C26); for decreasing axes the centre is swapped, the matrix is not, which is right iff the two diagonal entries agree."
  },
  {
   "property": "C67",
   "status": "proved",
   "theorems": [
    "Tavi.C67_half_height",
    "Tavi.C67_around"
   ],
   "note": ""
  },
  {
   "property": "C68",
   "status": "proved",
   "theorems": [
    "Tavi.C68_in_plane",
    "Tavi.C68_bisect"
   ],
   "note": ""
  },
  {
   "property": "C69",
   "status": "partial",
   "theorems": [
    "Tavi.C69_columns_partial",
    "Tavi.C69_ragged",
    "Tavi.C69_column_cut",
    "Tavi.C69_single"
   ],
   "note": "Tables with at least two columns (or one row): every column under its name with all its numbers; a table with one column loses all but the first row; a table of a single number is refused."
  },
  {
   "property": "C70",
   "status": "partial",
   "theorems": [
    "Tavi.C70_convert_partial",
    "Tavi.C70_loaded",
    "Tavi.C70_distances",
    "Tavi.C70_arms"
   ],
   "note": "all distances are converted from the first one (C70_distances)"
  },
  {
   "property": "C71",
   "status": "partial",
   "theorems": [
    "Tavi.C71_file",
    "Tavi.C71_exact",
    "Tavi.C71_countfile",
    "Tavi.C71_total",
    "Tavi.C71_no_marker",
    "Tavi.C71_first_lost",
    "Tavi.C71_short_end_fails"
   ],
   "note": "the meaning of every file is determined; `key=value` without blank loses a character, a short line mentioning completed/stopped makes the file unreadable"
  },
  {
   "property": "C72",
   "status": "partial",
   "theorems": [
    "Tavi.C72_scans",
    "Tavi.C72_total",
    "Tavi.C72_ub_partial",
    "Tavi.C72_tmp_fails",
    "Tavi.C72_no_tmp_fails",
    "Tavi.C72_no_folder_fails"
   ],
   "note": "columns, metadata and messages hold for every file system; UB files in tmp and missing folders make loading fail"
  },
  {
   "property": "C73",
   "status": "partial",
   "theorems": [
    "Tavi.C73_sum",
    "Tavi.C73_none",
    "Tavi.C73_riemann_partial",
    "Tavi.C73_volume_le",
    "Tavi.C73_volume_wrong",
    "Tavi.C73_linear",
    "Tavi.C73_nonneg",
    "Tavi.C73_factor"
   ],
   "note": "the value is determined for every model; the volume used is det^(-1/2) of the momentum block. The result is proved to be the Riemann sum times the square root of the determinant of the correlations of the momentum directions, which is 1 iff they are not correlated (C73_volume_wrong is a case where they are)"
  },
  {
   "property": "C74",
   "status": "proved",
   "theorems": [
    "Tavi.C74_skipped",
    "Tavi.C74_truncation",
    "Tavi.C74_shift"
   ],
   "note": "for every positive definite resolution matrix without widths above 10^4"
  },
  {
   "property": "C75",
   "status": "partial",
   "theorems": [
    "Tavi.C75_columns_partial",
    "Tavi.C75_absent",
    "Tavi.C75_totals_lost",
    "Tavi.C75_unknown_lost"
   ],
   "note": "proved for the columns the builder knows; columns with any other name are dropped (C75_unknown_lost), and so are time/monitor/mcu of a scan with a count file (C75_totals_lost) and detectors after a gap in the numbering; scanToNx_ok shows that a complete header with finite counts does load; other columns may hold nan"
  },
  {
   "property": "C76",
   "status": "partial",
   "theorems": [
    "Tavi.C76_data_partial",
    "Tavi.C76_only",
    "Tavi.C76_ok",
    "Tavi.C76_no_points",
    "Tavi.C76_bad_name",
    "Tavi.C76_names_sized",
    "Tavi.C76_detectors_hidden",
    "Tavi.C76_vector_listed"
   ],
   "note": "every known column is in the data with its numbers and nothing else is but vectors of the header; the code disagrees where numbered detectors stand beside a plain one (C76_detectors_hidden), where a header vector is as long as the scan (C76_vector_listed), for instruments whose name contains \"dataset\" (C76_bad_name) and for files without point numbers (C76_no_points)"
  },
  {
   "property": "C77",
   "status": "partial",
   "theorems": [
    "Tavi.C77_sample",
    "Tavi.C77_instrument",
    "Tavi.C77_normal",
    "Tavi.C77_countfile_partial",
    "Tavi.C77_no_ub_fails",
    "Tavi.C77_name_lost",
    "Tavi.C77_channels_lost",
    "Tavi.C77_preset_fails"
   ],
   "note": "sample, crystals, senses, collimation, title, axes, times and presets are those of the header; the code disagrees for the instrument name, which is never reported (C77_name_lost), for channels after the twelfth (C77_channels_lost), for a header without UB matrix (C77_no_ub_fails) and for other preset types (C77_preset_fails)"
  },
  {
   "property": "C78",
   "status": "partial",
   "theorems": [
    "Tavi.C78_folder",
    "Tavi.C78_one_each_partial",
    "Tavi.C78_scan_lost",
    "Tavi.C78_refused"
   ],
   "note": "one entry per file if the scan names differ; of two files with the same scan name (say, of two experiments) the first is lost without notice (C78_scan_lost)"
  },
  {
   "property": "C79",
   "status": "partial",
   "theorems": [
    "Tavi.C79_scan",
    "Tavi.C79_data_partial",
    "Tavi.C79_missing",
    "Tavi.C79_ambiguous"
   ],
   "note": "proved when one file has the number; with several such files the last is taken without notice, under the data set name of the first (C79_ambiguous); columns as for C76"
  },
  {
   "property": "C80",
   "status": "partial",
   "theorems": [
    "Tavi.C80_default_plot",
    "Tavi.C80_no_signal",
    "Tavi.C80_no_data",
    "Tavi.C80_group_axis",
    "Tavi.C80_others"
   ],
   "note": "proved for axis names that stand for a dataset or for nothing; a name that stands for a group (a temperature column called sample) is linked to the group, and the entry cannot be written again (C80_group_axis)"
  },
  {
   "property": "C81",
   "status": "proved",
   "theorems": [
    "Tavi.C81_lookup"
   ],
   "note": "for entries whose axes, when looked up, give the dataset that is linked; C80 says what the links are"
  },
  {
   "property": "C82",
   "status": "partial",
   "theorems": [
    "Tavi.C82_round_trip",
    "Tavi.C82_by_number",
    "Tavi.C82_extra_column"
   ],
   "note": "proved when the scan is read without its number, for all columns but the lists of the header; asked for by number, scan_info raises KeyError (C82_by_number); a collimation with as many numbers as there are points becomes a column (C82_extra_column); column names with / and axes called monitor or sample excluded"
  },
  {
   "property": "C83",
   "status": "partial",
   "theorems": [
    "Tavi.C83_attributes_partial",
    "Tavi.C83_untouched",
    "Tavi.C83_crystal",
    "Tavi.C83_unknown_crystal",
    "Tavi.C83_refused",
    "Tavi.C83_not_atomic",
    "Tavi.C83_update",
    "Tavi.C83_update_type"
   ],
   "note": "proved for configurations that are accepted; a refused configuration is not without effect, the components before the refused one are loaded (C83_not_atomic); update of the crystal type leaves the d-spacing (C83_update_type)"
  },
  {
   "property": "C84",
   "status": "partial",
   "theorems": [
    "Tavi.C84_lattice",
    "Tavi.C84_orientation",
    "Tavi.C84_mosaic_partial",
    "Tavi.C84_accepted",
    "Tavi.C84_refused",
    "Tavi.C84_half_ignored",
    "Tavi.C84_unknown_accepted"
   ],
   "note": "lattice, orientation and refusals proved for all files; a mosaic given for one direction only, or a size without the other sizes and the shape, is ignored (C84_half_ignored); an unknown convention is not refused when the file gives no orientation (C84_unknown_accepted)"
  },
  {
   "property": "C85",
   "status": "partial",
   "theorems": [
    "Tavi.C85_sample",
    "Tavi.C85_uv",
    "Tavi.C85_roundtrip_partial",
    "Tavi.C85_close",
    "Tavi.C85_refused",
    "Tavi.C85_no_normal_fails",
    "Tavi.C85_mosaic"
   ],
   "note": "proved when the header has a plane normal; without one there is no sample (C85_no_normal_fails, TypeError); the way back from the angles exactly away from the thresholds of the tilt computation and from sgl = 90, and for every reflection within the bound of C09 (C85_close)"
  },
  {
   "property": "C86",
   "status": "partial",
   "theorems": [
    "Tavi.C86_files",
    "Tavi.C86_scans",
    "Tavi.C86_no_slash",
    "Tavi.C86_inside"
   ],
   "note": "proved for folders written as the code expects them: the output folder with a slash at the end, the folder with the data without one; otherwise the files are put elsewhere (C86_no_slash, C86_inside). Scans are compared as in C82"
  },
  {
   "property": "C87",
   "status": "partial",
   "theorems": [
    "Tavi.C87_tree_partial",
    "Tavi.C87_known",
    "Tavi.C87_click",
    "Tavi.C87_click_any",
    "Tavi.C87_no_file",
    "Tavi.C87_not_shown",
    "Tavi.C87_stale",
    "Tavi.C87_first_only"
   ],
   "note": "proved for folders with files whose first name, if it has exp in it, has an underscore; other folders are loaded but not shown (C87_not_shown). A file whose scan part has no number is selected while the window goes on showing the previous one (C87_stale). Clicks proved for SPICE file names and for all names whose scan parts are scan<number>.dat"
  },
  {
   "property": "C88",
   "status": "partial",
   "theorems": [
    "Tavi.C88_drawn",
    "Tavi.C88_total",
    "Tavi.C88_no_labels",
    "Tavi.C88_format_partial",
    "Tavi.C88_same_label",
    "Tavi.C88_shared_format",
    "Tavi.C88_title_lost",
    "Tavi.C88_label_lost"
   ],
   "note": "all calls on the axes are determined for every history; the code disagrees for the format of data added to several plots (C88_shared_format), for the title set by the user (C88_title_lost) and the labels set by the user (C88_label_lost)"
  },
  {
   "property": "C89",
   "status": "partial",
   "theorems": [
    "Tavi.C89_curve_partial",
    "Tavi.C89_half",
    "Tavi.C89_unique",
    "Tavi.C89_center_fails",
    "Tavi.C89_no_width",
    "Tavi.C89_plot_partial",
    "Tavi.C89_plot_fails"
   ],
   "note": "proved when the user sets the attribute cen; the centre of the class is the attribute center, which is not read: AttributeError (C89_center_fails)"
  },
  {
   "property": "C90",
   "status": "partial",
   "theorems": [
    "Tavi.C90_rank",
    "Tavi.C90_load_partial",
    "Tavi.C90_unsupported",
    "Tavi.C90_select_partial",
    "Tavi.C90_select_fails",
    "Tavi.C90_shared",
    "Tavi.C90_combine_fails",
    "Tavi.C90_combine_points"
   ],
   "note": "loading proved when no facility is named or ORNL; every other name, also a supported one, makes the project lose its scans without an error (C90_unsupported). Selecting raises AttributeError unless the program sets scan_list itself (C90_select_fails); then it is the selection of C53, but shared by all projects (C90_shared). combine_1d raises for all inputs (C90_combine_fails)"
  },
  {
   "property": "C91",
   "status": "partial",
   "theorems": [
    "Tavi.C91_drawn",
    "Tavi.C91_total",
    "Tavi.C91_curve_format",
    "Tavi.C91_shared_format",
    "Tavi.C91_title_lost",
    "Tavi.C91_label_lost"
   ],
   "note": "all calls on the axes are determined for every history; the code disagrees for the format of curves, which is ignored (C91_curve_format), of objects added to several plots (C91_shared_format), for the title set by the user (C91_title_lost) and the labels set by the user (C91_label_lost)"
  },
  {
   "property": "C92",
   "status": "partial",
   "theorems": [
    "Tavi.C92_limits",
    "Tavi.C92_detector",
    "Tavi.C92_bragg",
    "Tavi.C92_parameters",
    "Tavi.C92_roundtrip_partial",
    "Tavi.C92_close",
    "Tavi.C92_ready",
    "Tavi.C92_missing",
    "Tavi.C92_limits_lifted"
   ],
   "note": "limits, detector side and angle, Bragg angles and resolution parameters proved for all files; the way back from the angles as for C09 (exactly away from the thresholds of the tilt computation and from sgl = 90, and for every reflection within the bound of C09, C92_close); proved to fail: limits given for some motors lift the built-in limits of the others (C92_limits_lifted)"
  },
  {
   "property": "C93",
   "status": "partial",
   "theorems": [
    "Tavi.C93_result",
    "Tavi.C93_fit",
    "Tavi.C93_guess",
    "Tavi.C93_curve_guess",
    "Tavi.C93_curve_fitted",
    "Tavi.C93_curve_deconv",
    "Tavi.C93_no_components",
    "Tavi.C93_components",
    "Tavi.C93_components_sum",
    "Tavi.C93_components_none",
    "Tavi.C93_bar",
    "Tavi.C93_bar_missing",
    "Tavi.C93_points",
    "Tavi.C93_private",
    "Tavi.C93_conv_curve",
    "Tavi.C93_conv_bar",
    "Tavi.C93_conv_guess_partial",
    "Tavi.C93_deconv_partial",
    "Tavi.C93_conv_background",
    "Tavi.C93_deconv_background"
   ],
   "note": "proved for Fit1D with the contract of lmfit stated in Model/FitCurve.lean (arbitrary shapes, guesses and minimiser). For ConvFit1D proved without backgrounds; with a background the code disagrees: the guess lacks its parameter, so neither a fit nor a curve comes of it (C93_conv_background), and the deconvolved curve lacks the background (C93_deconv_background)"
  },
  {
   "property": "C94",
   "status": "partial",
   "theorems": [
    "Tavi.C94_shown",
    "Tavi.C94_normalised",
    "Tavi.C94_grid",
    "Tavi.C94_tolerance",
    "Tavi.C94_polarised",
    "Tavi.C94_group",
    "Tavi.C94_group_grid",
    "Tavi.C94_drawn",
    "Tavi.C94_underscore_fails",
    "Tavi.C94_abscissa_ignored"
   ],
   "note": "proved for every loaded file, axes, normalisation and rebinning. Two requests are not met, and the negations are proved: data of a scan that is not polarised cannot be asked for by a name with an underscore, as detector_1 or q_1 (C94_underscore_fails); the plot of a polarised scan without ordinate ignores the abscissa and the normalisation of the caller (C94_abscissa_ignored). C94_group assumes the same preset in all scans when no normalisation is given; with different presets nothing is combined (C95_mixed)"
  },
  {
   "property": "C95",
   "status": "partial",
   "theorems": [
    "Tavi.C95_map",
    "Tavi.C95_rows",
    "Tavi.C95_cut",
    "Tavi.C95_mixed",
    "Tavi.C95_default",
    "Tavi.C95_name_lost",
    "Tavi.C95_rows_any"
   ],
   "note": "proved for every group of loaded files whose scans have the same number of points where no grid is given (otherwise C95_rows_any tells what comes out), wherever the energy is listed. One thing is not met, and its negation is proved: the counts of a cut are always called detector (C95_name_lost)"
  },
  {
   "property": "C96",
   "status": "proved",
   "theorems": [
    "Tavi.C96_init",
    "Tavi.C96_fit",
    "Tavi.C96_scan",
    "Tavi.C96_conv",
    "Tavi.C96_zero_counts"
   ],
   "note": "The minimiser is arbitrary. Weights are the errors (see C60), so points without counts take no part (C96_zero_counts); resolution parameters are not selected with the points (see C58)."
  },
  {
   "property": "C97",
   "status": "partial",
   "theorems": [
    "Tavi.C97_radial",
    "Tavi.C97_rocking",
    "Tavi.C97_recorded",
    "Tavi.C97_computed",
    "Tavi.C97_arc",
    "Tavi.C97_shown_radial",
    "Tavi.C97_shown_rocking",
    "Tavi.C97_no_default"
   ],
   "note": "all is proved but the default angle, whose negation is proved: an axis without an angle in brackets raises AttributeError for every rocking scan (C97_no_default)"
  },
  {
   "property": "C98",
   "status": "proved",
   "theorems": [
    "Tavi.C98_convolution",
    "Tavi.C98_curve",
    "Tavi.C98_constant",
    "Tavi.C98_gaussian"
   ],
   "note": "Real arithmetic; resolution widths of zero give nan (convPoint). Points and resolution parameters are paired by position (see C58 for what ranges do to that)."
  },
  {
   "property": "C99",
   "status": "proved",
   "theorems": [
    "Tavi.C99_schedule",
    "Tavi.C99_calculate",
    "Tavi.C99_raises",
    "Tavi.C99_no_bands"
   ],
   "note": "Every job that is waited for finishes (no worker dies, functions can be sent to the workers)."
  }
 ]
}