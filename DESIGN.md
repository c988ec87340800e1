# Design of the formal model of TAVI

The code under study is `/repo/src/tavi` (Python). The model is Lean 4 (+ Mathlib),
in `/verif/lean/Verif`. Every definition of the model cites the Python file and the lines it models.

## Layout

* `Verif/Basic.lean`      – `PyErr` (Python exceptions) and small shared helpers.
* `Verif/Model/*.lean`    – the model, one file per Python module.
* `Verif/Spec/*.lean`     – independent specifications (what a user means: "proper rotation", "metric tensor",
                            "bin j of the histogram", ...). They do not use model helpers.
* `Verif/Lemmas/*.lean`   – auxiliary mathematics.
* `Verif/Props/*.lean`    – property theorems, with a non-trivial concrete `example` beside each.

## Trusted base

* The Lean 4.33.0 kernel. Axioms: only `propext`, `Classical.choice`, `Quot.sound`
  (Mathlib's real numbers need all three). No own axioms, no `sorry`, no `native_decide`, no `bv_decide`.
* The reading of the Python code by the author of the model (every definition cites its lines).
* Numbers: Python/numpy floats are modelled as exact reals `ℝ`. Rounding, overflow, NaN propagation are outside
  the model, except where a `nan`/`inf` result is the observable effect in question (division by zero, empty bins);
  there the model returns `Option` or the error `PyErr.nonFinite`.
* numpy/scipy: `np.arctan2 y x` is `Complex.arg (x + y i)`; `np.sqrt/arccos/arcsin` are `Real.sqrt/arccos/arcsin`
  (inside their domains; outside, Python yields nan and the model is only used with the domain as hypothesis or
  with an explicit `none`); `np.linalg.inv` raises `LinAlgError` iff the determinant is 0; `np.cross`, `np.dot`,
  `np.linalg.norm` are the mathematical operations; `np.linspace`, `np.arange`, `np.digitize`-like code is modelled by its
  documented closed form.
* Python: dict = insertion-ordered association list; strings = `List Char`; exceptions = `Except PyErr`.
* h5py, lmfit, threads, Qt: only the contract used is modelled (stated in the model file's header).

Not modelled: Qt (the tree and the texts of the main window are, C87), what matplotlib draws, logging text, the `print` side channel,
JSON decoding (the decoded document is), lmfit's optimiser, Monte-Carlo style numerical convolution accuracy.
Also not modelled: functions without a body (`ResoEllipsoid.volume`, `ScanData2D.__sub__`, `load_insrument_params_from_scan`,
`save_instrument_params_*`, `load_data_from_oncat`, `load_tavi`, `save_tavi`, `combine_data`, `fit_data`, `plot_data`), the one-line `__repr__` of
samples, crystals, goniometers and spectrometers, and the divergence of the guide in radians, which nothing reads.

## Properties

See `properties.jsonl` for the statements, `MANIFEST.json` for the status and theorem names.
For each property: what is modelled and how it is proved.

| id | modelled code | proof plan |
|----|---------------|------------|
| C01 | lattice_algorithm B, reciprocal parameters, metric → parameters | BᵀB = G⁻¹ by trigonometric algebra; invert; read back lengths/angles with arccos∘cos |
| C02 | q_norm_from_hkl, Sample.get_q_norm | both squared norms = hklᵀ G⁻¹ hkl·4π² |
| C03 | real/reciprocal vectors | direct algebra, cross-product identities |
| C04 | u/b from UB | U Uᵀ = 1 from BᵀB = UBᵀUB |
| C05 | uv ↔ UB | orthonormal frames |
| C06 | goni r_mat | rotation matrices multiply |
| C07 | goni angles_from_r_mat | polar coordinates via Complex.arg |
| C08 | limits | state machine, induction over histories |
| C09 | calculate_motor_angles ∘ calculate_hkl_from_angles | compose C07, C12, C13; within the thresholds of C12 the matrix is a skewed rotation: bound what the three angles rebuild of it, by the distance of the reflection from the plane |
| C10 | bisect mode | direct; negation for positive sense |
| C11 | inelastic round trip | counterexample + partial |
| C12 | r_matrix_with_minimal_tilt | three branches; optimality by Cauchy–Schwarz |
| C13 | triangle functions | law of cosines |
| C14–C17 | UB determination | frame algebra; normal equations; trace inequality |
| C18 | plane normals | algebra |
| C19 | UBConf | conversion matrices are mutually inverse rotations; invariance of angles |
| C20–C21 | energies | algebra; case analysis |
| C22 | Sample state machine | induction over histories |
| C23 | angles between reflections | isometry invariance |
| C24–C27 | resolution matrices | positive definiteness via rank of BA, Schur complements |
| C28–C29 | batch calculation | list induction |
| C30–C41 | rebinning/combining | list/sum algebra, floor arithmetic |
| C42–C46 | NexusEntry, TAVI stores | mutual induction over trees; state machines |
| C47 | ScanGroup names | induction over histories |
| C48–C52, C69 | SPICE reader/builder | string functions on `List Char` |
| C53–C57 | filter, broker, loader, configuration, file names | list lemmas, permutation invariance |
| C63, C71, C72 | ORNL loader | string functions, loop invariants |
| C73–C74 | convolution with the resolution function | finite sums, quadratic forms |
| C75–C79 | nexus_builder, scans | every group of the entry is characterised by its key list; name search over eleven groups |
| C80 | soft links of written entries | one link as an edit of the tree, invariant `Made2`; reading as a fold over links |
| C81 | look-ups in entries read back from a file | both entries reduced to a normal form without attributes (`norm`); one empty group filled with bare datasets |
| C82 | SPICE file → entry → NeXus file → `Scan` | the list of names of the written entry is computed from the pieces of the entry (`KeptSomewhere`) and compared with the one before |
| C83 | component classes, `TASBase.load_instrument_params_from_json`, `update` (Config) | attributes are association lists; induction over the list of components with the state after an error kept |
| C84 | `Sample.from_json` (Config) | inversion of the reading, C19 for the orientation |
| C85 | `Sample.from_scan` (Config) | C77 for what the scan reports, C19 for the axes, C09 for the way back |
| C86 | `convert_spice_to_nexus` (Convert) | C78 for the entries, C82 for the way back, paths as texts |
| C87 | `MainWindow`: presenters, proxies, tree widget, project and next-file model (Window) | state machine of the window; induction over the actions of the user, C55 for the worker threads |
| C88 | `Plot1D` (Plot) | plots and data as objects with identity; invariant of a plot by induction over the history |
| C89 | `ResoCurve` (Curve) | Gaussian integral; the curve is determined by centre, width and area |
| C90 | `TaviProject`, `TaviData`, `LoadManager`, `CombineManager` (Manager) | projects as objects; induction over the history; C53 for the selection |
| C91 | `Plot2D`, `ResoEllipse` (Plot2D) | as C88; C67 for the ellipses and C61 for skewed axes |
| C92 | from the files to the calculations (Setup, Config, Tas) | C83 and C84 for the files, C08, C13, C20 and C09 for the calculations |
| C93 | fitting and the curves of fits (Fit, FitCurve) | induction over histories; lookup of parameters by prefix from C59 |
| C94 | `Scan.get_data`, `Scan.plot`, `make_labels`, `_combine_data_1d` on loaded scans (ScanPlot) | C76 and C77 for what was loaded, C29–C33 and C37 for the arithmetic, C88 for the plot |
| C95 | `_combine_data_2d`, `combine_data` without axes, `combine_data_hkle` and their labels on loaded scans (ScanMap) | C76 and C77 for what was loaded, C36, C40 and C41 for the cells, C62 for the labels |
| C96 | the constructors of fits on the data of loaded scans (FitInit) | C94 for the points, C93 for results and curves, induction over histories |
| C97 | `_get_del_q` and `get_data` over it (Scan) | the last brackets of a text by search from the end; law of cosines; bounds of the sine |
| C98 | `conv_1d` (Fit) against the convolution integral | Lipschitz bound of Riemann sums, tails of the Gaussian, Gaussian integrals of Mathlib |
| C99 | `calculate`, the cached `generate_meshgrid` (ConvPool) | invariant over schedules: caches hold what the function gives, finished jobs have their own outcome |
| C100 | `plot_ellipses` (ResoFigure) over `get_ellipse`, `Plot2D.plot` | C12/C27 for the contours; Cauchy–Schwarz for the extent of a contour; limits against the sheared points |
| C101 | `get_scan`, `group_scans` with the entry changed in place, `ScanGroup.get_data` (SessionScans) | a relation between sessions with the same scans that every request keeps; composed with C78 (folders) and C46 (files) |
| C102 | `load_nexus_data_from_disk`, `load_spice_data_from_disk` on a disk (FolderSession) | the files written (C86), what is read from them (C82), filing (C44) and asking (C101) are composed; any folder: an induction over the sorted names |
| C103 | `configuration.py` on the text of the files: `__init__`, `validate`, `get_data`; `help_function` (Ini) | what the reader of `configparser` stores has a normal form (induction over the lines); the text written from a normal form is read back as it is, by both readers; validation keeps the form; interpolation only looks names up; with comments the reader of the start runs beside that of `get_data` and differs from it by the comments only (`Props/IniComments.lean`) |
| C104 | `spice_scan_to_nxdict` with `path_to_instrument_json`, `path_to_sample_json` (BuilderJson) | each loop over the parameters of a section is a run of additions to a group (induction); the groups of the builder without files are found by inversion |
| C105 | `Sample.from_scan` after `Scan.from_spice` with configuration files (BuilderJson, Config) | the sample group is found by C104; the look-ups of `from_scan` are followed through it, with and without each parameter |
| C106 | the columns of such a scan (BuilderJson, Builder) | the two entries have the same keys in the same order, and their groups agree on the path looked for; this relation is preserved by every step of the builder and decides the look-up |
| C107 | `convert_spice_to_nexus` with configuration files (Convert, BuilderJson) | the entry made with files is a fine entry in the sense of C82 when its values can be written (`Beside.fine`); the written and read entry then decides every look-up (`entry_written`, `back_get`); the conversion as in C86 |
| C108 | `instrument_info` of scans read with configuration files (Builder, BuilderJson) | the groups of the supplemented entry are flat (`Flats`), so a path into a component and a name of one group only are decided by that group; the group by C104 |
| C109 | resolution, mounting, equivalent reflections (Resolution, Tas, UB) | the frame of the tilt computation is built from dot and cross products, so it turns with the crystal (`tiltFrame_turn`, `minimalTilt_turn`); the rest depends on the sample through \|Q\| and mosaic only (`C109_local`), the change of axes by C27 |
| C110 | resolution with coarser optics (Resolution) | the exponent of C65 falls term by term; inverses of positive matrices are antitone (`inv_anti`), determinants monotone (`det_mono`) |
| C111 | mirror image and reversal of the spectrometer (Resolution) | both exchange or negate the eight angles of C65 and the signs of the displacement (`transport`); the prefactor is the textbook's (`C65_prefactor`); in crystal axes through `C27_in_plane`, which replaces the laboratory by the components along Q, across it and along the normal |
| C112 | the written summary of a resolution calculation (Report) | the summary is a block of lines (`printed_ok`), every claim is a run of consecutive lines of it; every returned ellipsoid is positive definite in its axes (`C27_positive`), so its widths exist |
| C113 | what is shown of an orientation and of a set of angles (UBText) | the text of a configuration found from peaks is a block of lines; the entries of a set of angles can be read back (`commas_inj`, `entries_inj`) |
| C114 | enlarged experiment (Resolution) | all eight angles of C65 stay, every wave number is divided by the factor; covariance and mosaic term are those of the original in enlarged units; the prefactor goes with the cubes of the two wave numbers |
| C58–C60 | fit | list filters; least squares weights |
| C65–C68 | resolution ellipse/ellipsoid, textbook Cooper–Nathans, reachability | algebra |
| C61–C64, C70 | plotting helper, labels, columns, motor comparison, unit conversion of components | case analysis |

Where the code violates the property as a user would state it, the negation is proved with a concrete witness
and the part that does hold is proved under the suffix `_partial`; see "Disagreements" below.

## Disagreements found (code vs. property)

Each entry is a proved theorem (a witness or a general negation), not an observation.

* C10 `C10_sense_plus_inverts` – bisect mode with sense "+": the motor angles observe `-hkl` (goni.py bisect branch).
* C11 `C11_inelastic_fails` – `calculate_hkl_from_angles` always uses the energies of zero energy transfer (tas.py), so for
  every `en ≠ 0` with one fixed energy the result differs from the hkl that was asked for.
* C09 `C09_gimbal_fails` – if the plane normal lies along the axis of `sgu`, `sgl` stands at ±90° and the direction in the plane is
  lost: two reflections of one length get the same motor positions.
* C09 `C09_near_plane_fails` – if `0 < |n·Q/2π| < 1e-5` the matrix the angles are taken from is not a rotation (C12), and unless the
  normal is nearly perpendicular to the axis of `sgu` the angles lead to another reflection than the one asked for. It is close:
  `C09_huber_close` bounds the distance by six times the distance from the plane, divided by the cosine of `sgl`.
* C12 `C12_near_plane_fails` – if `0 < |n·Q/2π| < 1e-5` the "rotation" is built from non-orthogonal vectors and is not a rotation.
* C15 `C15_order_matters` – three peaks in left-handed order are refused as coplanar: the signed triple product is compared
  with `1e-6`.
* C113 `C113_glued` – the line of the peaks in the text of a UB configuration is not ended: a plane normal set after three or more peaks
  is shown on the same line.
* C17 `C17_plane_inverted`, `C17_non_orthogonal_fails` – peak nearer to `v2`: `v1 × v2` is sent down instead of up;
  non-orthogonal plane vectors can produce NaN.
* C20 `C20_crystal_roundtrip_fails` – `9.045` and `81.81` in mono_ana.py are not each other's square.
* C21 `C21_both_known` – when both energies are given they are not compared with the energy transfer.
* C22 `C22_impossible_accepted` – cells which cannot exist (angle 0 or 180, incompatible angle triples) are accepted. `C22_triangle`,
  `C22_spanned` and `C22_defined_iff` characterise them: B is defined for an accepted cell exactly if each angle is less than the
  sum of the other two and the three add up to less than 360°, and those are the cells that three independent vectors span.

Modelling note: where numpy would carry on with `nan` (e.g. `update_from_g_star` on a degenerate metric) the model stops
with `PyErr.nonFinite`. A theorem concluding `.ok x` therefore also says that no `nan` arises.

* C32 `C32_point_lost`, `C32_range_iff` – the last bin boundary is computed with `floor`, so a point above it is silently dropped;
  this can happen iff the range exceeds a whole number of steps by at least 0.49 and less than 0.99 of a step.

Data arrays are lists of `Num = Option ℝ`, `none` standing for nan or inf (not told apart).

* C37 `C37_del_q_refused`, `C37_underscore_refused` – `del_q` axes work for a scan but not for a group; a counts column with
  an underscore works for a group but not for a scan with a normal preset (the curve label is indexed).
* C38 `C38_different_length_fails`, `C38_operand_destroyed` – subtraction of data sets of different length reads
  `ScanData1D.ZERO`, which does not exist; if no point is in range the second operand is overwritten with NaN.
* C39 `C39_accepted_impossible` – a zero step and a pair without step pass the check and fail later.
* C41 `C41_rows_mixed`, `C41_any_lengths` – scans of unequal length are reshaped into wrong rows when the total number of points is divisible.
* C26 `C26_small_pivot_differs`, `C26_small_pivot` – a pivot below `1e-8` is skipped by `quadric_proj`, so the projection is then the plain
  block of the matrix and not the block of the inverse.
* C27 `C27_angle_energy_first`, `C27_angle_table` – when the energy axis is not last the angle between two plotted momentum axes is taken from the
  wrong entry of the stored angles.
* C66 `C66_order_ignored`, `C66_swapped`, `C66_decreasing_iff` – `get_ellipse((j, i))` with `j > i` swaps the centre but not the matrix.
* C28 `C28_refuses` – a missing fixed energy refuses the whole batch (not one position of it).
* C42 `C42_logs_lost` – `NexusEntry.get` pops the SPICE/DAS logs from the entry itself; afterwards `get_data_from_daslogs` and
  `get_metadata_from_daslogs` raise `UnboundLocalError`.
* C43 `C43_strings_differ` – a dataset that is a list of strings is read back as numpy's printout of the list.
* C43 `C43_by_number_attrs` – `from_nexus(path, scan_num)` does not read the attributes of the entry (experiment id).
* C44 `C44_lost` – `load_data` collects the scans of a load per experiment and assigns the whole experiment, so scans of earlier
  loads of the same experiment are dropped; `C44_same_name_lost` – entries of different experiments with the same name in one
  folder of NeXus files collide before they are filed.
* C45 `C45_reported_wrong` – `Scan.scan_info` takes the last four characters of the scan name, wrong from scan 10000 on.
* C46 `C46_unnamed_fails` – `save()` without a name passes `None` on to `to_nexus` and raises `TypeError`;
  `C46_logs_lost` – the logs of entries that were looked at are not saved; `C46_no_plot` – one entry whose plot group does not
  say what to plot keeps the whole session from being saved (`KeyError`).

SPICE files: numbers are exact rationals, nan is `none`; the XML parser of `parse_xml` is a parameter. `np.genfromtxt` is
modelled by its documented rules (comments cut at `#`, blank lines skipped, fields split at white space, unreadable fields
nan, rows of unequal length refused). Of nexus_builder.py only `_recast_type` and the SPICE log group are modelled.

* C48 `C48_blanks_lost` – white space next to an `=` inside a value is lost; `C48_swallowed` – every header line mentioning that
  something was completed or stopped is taken for the end of the scan, also a title.
* C49 `C49_lines_lost` – without `Sum of Counts` the comment lines after the column names are dropped; `C49_errors_dropped` –
  `_create_spicelogs` stores the error messages exactly when there are none.
* C51 `C51_signed_fails` – `str.isdigit` after removing one dot refuses signs and exponents, then `UnboundLocalError`.
* C52 `C52_temp_fails` – the file found in `temp` is read from the wrong folder; `C52_dropped` – the log group of the entry drops
  the UB configuration.
* C69 `C69_column_cut` – a table with one column and several rows keeps only the first row.
* C69 `C69_single` – a table that consists of a single number is refused with `TypeError` (numpy gives an array without dimension).

Application layer (`Model/App.lean`): worker threads of the loader are modelled as an arbitrary order of completion; each
append is atomic. The event broker is a relation, so listeners may publish and register while an event is delivered; deliveries
that raise or never end are not covered. Configuration values contain no `%` (in C56; the text of
the files, with interpolation, is in `Model/Ini.lean`, C103). File numbers in `getNextFile` are integers.

* C53 `C53_le_wrong` – `<=` tests the smallest point, so one point below is enough; `C53_missing_fails` – a scan without the
  keyword reaches `logger.log` with a text as level, which raises; `C53_stale` – `_output` is never cleared, so after changing
  the conditions an "or" filter still returns the scans found before.
* C57 `C57_padding_lost` – the next name is written without the zero padding (`scan0042` → `scan43`).

Fits and helpers (`Model/Fit.lean`, `Model/Misc.lean`): of lmfit only the documented objective (sum of squares of weight times
deviation) and the names of parameters (prefix plus own name) are modelled, not the minimiser and not the shapes; `fmt3`, the text
of a number with three decimals, is a parameter. A convolution with zero width gives nan.

Fitting (`Model/FitCurve.lean`): shapes, their `guess` and the minimiser are arbitrary functions (structure `Lmfit`). Assumed of
lmfit, after its documentation: the parameters of a model are named by prefix and argument; evaluating looks arguments up with the
prefix taken off; evaluating a sum adds; `eval_components` gives values by prefix; `fit` refuses missing parameters; a result keeps
the models it was made from and changes values only. Bounds, expressions and uncertainties are left out.

Plots of loaded scans (`Model/ScanPlot.lean`): how f-strings write numbers and arrays is an arbitrary function. What the scan reports
is asked for before the columns, so of two exceptions another one may come first. Columns of texts count as absent. The same holds for maps and cuts
(`Model/ScanMap.lean`); `.3f` and `.4g` are arbitrary functions.

* C58 `C58_misaligned` – `ConvFit1D.set_range` restricts the points but not `rez_params`, so after dropping points at the front
  every point is convolved with the resolution of another one; `C58_short` – arrays of unequal length raise.
* C59 `C59_conv_text` – an unknown background name is appended as a text (no exception), an unknown signal name raises after the
  counter went up. Prefixes stay distinct in both cases.
* C93 `C93_conv_background` – `ConvFit1D.guess` goes over `_background_models_instrinsic`, which nothing is ever added to: with a
  background, the guess lacks its parameter, fitting from it is refused and no curve can be drawn before a fit.
  `C93_deconv_background` – for the same reason the deconvolved curve lacks the background. `C93_conv_bar` – a resolution bar cannot
  be put at a convolution fit (`eval_components` at a number reaches `len`). `C93_private` – `_add_fit_from_fitting` hands the number
  of points over as the first point.
* C95 `C95_name_lost` – `combine_data_hkle` writes `detector` on the colour axis, whichever column was asked for (scan_group.py line 368).
* C94 `C94_underscore_fails` – `get_data` takes a name with an underscore for a channel of a polarised scan (`int` of the last part,
  then an index into the preset): scans that are not polarised give no data for such a name. `C94_abscissa_ignored` – plotting a
  polarised scan without naming the ordinate drops the abscissa and the normalisation given by the caller.
* C100 `C100_shift`, `C100_unseen`, `C100_lost` – on skewed axes `plot_ellipses` centres the limits on x, the ellipses are drawn about
  x + y·cot(angle): they can be entirely outside their panel.
* C97 `C97_no_default` – `_get_del_q` means to take `s1` when no angle is named, but `re.match` gives `None` there and `.groups()` raises
  `AttributeError`; the branch for the default cannot be reached (a match always has two groups).
* C60 `C60_inverted` – `weights=self.err` instead of `1/err`: points with larger errors pull more; C96 `C96_zero_counts` – points without
  counts take no part in a fit with error bars.
* C62 `C62_zero_fails` – a zero vector in the projection takes the letters of others or fails.
* C64 `C64_asymmetric` – `np.allclose` is not symmetric; `C64_missing` – a motor missing in the second position raises, in the
  first it is ignored; `C64_both` – only `__eq__` is defined on the named tuple, `!=` compares exactly.
* C70 `C70_distances` – all five internal distances are computed from `src_mono`; `C70_arms` – the attribute is announced as
  `arms` but filled as `distances`.

ORNL loader (`Model/Ornl.lean`): the dynamically made dataclasses are association lists from attribute to value; which names Python
accepts as fields is the parameter `ident`, the XML parser the parameter `xml`. Names that a class has anyway (`mro`, `__doc__`) are
not treated specially. `isdigit` covers the ASCII digits. `_create_spicelogs` of the second reader is not modelled (unused copy).

* C63 `C63_digit_fails` – the underscore is put before a leading digit before the column is looked up, so the look-up fails;
  `C63_collision_lost` – names that differ in dots, hyphens or blanks only share an attribute; `C63_no_points_fails` – a scan without
  points cannot be loaded, nor can the other files; `C63_column_cut` – a single column keeps its first point.
* C71 `C71_first_lost`, `C71_short_end_fails`.
* C72 `C72_tmp_fails` – a UB file found in `tmp` is opened in the folder above; `C72_no_tmp_fails` – a missing UB file raises unless
  `tmp` exists; `C72_no_folder_fails` – without any folder `os.path.join(None, …)` raises.

Convolution (`Model/Convolution.lean`): the user's dispersion and intensity are pointwise functions per band, without nan;
`np.linalg.eigvalsh` is the list of eigenvalues of Mathlib's spectral theorem for the symmetric matrix with the given lower
triangle. `calculate` and the cache of the meshes are in `Model/ConvPool.lean`: workers with a cache each, and a schedule.
`plot_ellipses` is in `Model/ResoFigure.lean`; `suptitle` and `tight_layout` are not modelled. Requests for scans are in
`Model/SessionScans.lean`; which datasets of an experiment are Python lists is an argument (`divergence_x` after loading SPICE files).
Loading folders into a session is in `Model/FolderSession.lean`; what `os.listdir` gives is an argument (`Lists`: the names on the disk).
The text of the settings and the parts of the standard library's `configparser` that read and write it (CPython 3.11, `Lib/configparser.py`:
`_read`, `_join_multiline_values`, `write`, `BasicInterpolation`) are in `Model/Ini.lean`: decoded text with line ends `\n`, `lower` on ASCII
letters, no inline comments (the default). The model was also compared with the library on 12 000 random texts (a test, not part of the
proof). The section proxy `get_data` returns without a name is modelled by its raw items.

* C102 `C102_refused` – `load_nexus_data_from_disk` takes every name that starts with `scan` for a NeXus file: one file of notes called `scan…`
  in the folder and nothing is loaded; an empty text is an `IndexError`.
* C103 `C103_comment` – `Configuration` reads the settings with `comment_prefixes="/"`, `get_data` with the usual `#` and `;`: a file that
  begins with a comment stops the application from starting (`MissingSectionHeaderError` is no `ValueError`, so nothing catches it).
* C103 `C103_twice`, `C103_indented` – so do two equal comments in a section (`DuplicateOptionError`) and a comment before an indented line
  (`AttributeError`, from `configparser` itself).
* C103 `C103_slash` – lines of a value that begin with `/` (a list of paths) are deleted from the user's file by starting the application.
* C103 `C103_rewritten` – comments are written back as fields: `# See HTTPS://host/A` becomes `# see https = //host/A`.
* C103 `C103_percent` – a `%` in the address of the help page passes validation; `get_data` then raises `InterpolationSyntaxError`.
* C73 `C73_volume_wrong`, `C73_factor` – the sum is multiplied by `det^(-1/2)` of the momentum block, but the grid is laid out along the axes with
  the widths of the axes: for correlated momentum directions the cells are larger, and the result is too small. The comment says
  "5-sigma", the threshold is a squared distance of `5**3`, about 11 sigma.

NeXus entries from SPICE files (`Verif/Model/Builder.lean`): nexus_builder.py is modelled dataset by dataset, as is reading a folder.
The conversion of the date to ISO format is a parameter `iso` (it may raise), XML (UB file) likewise. Text stored next to numbers
(units, `EX_required` markers) is kept. `nan` in a column stays an undefined number (`Leaf.arr` holds `Option ℝ`); where counts are cut to
integers the model stops with `nonFinite` (numpy warns and stores an arbitrary integer).

* C75 `C75_unknown_lost` – a column whose name is not in the builder's lists is not in the entry at all; it can only be found under
  `SPICElogs`, which every read by name removes.
* C75 `C75_totals_lost` – for scans with a count file the plain `time`, `monitor` and `mcu` columns are dropped; only the numbered
  ones are kept.
* C76 `C76_bad_name` – `get_dataset_names` tests `"dataset" in value`, which is also tried on the text of the instrument name; an
  instrument with `dataset` in its name (the default name is taken from the file name) makes loading fail with `TypeError`.
* C76 `C76_no_points` – a file without a `Pt.` column cannot become a scan (`len(None)`).
* C76 `C76_detectors_hidden` – with a plain `detector` column the numbered ones are not in the data: the look-up stops at `detector`.
* C76 `C76_vector_listed` – a vector of the header (unit cell, UB matrix, plane normal, divergence) that has as many elements as the
  scan has points is taken for a column.
* C77 `C77_name_lost` – the instrument name a scan reports is the initial value, not the one of the file.
* C77 `C77_channels_lost` – `range(1, 13)`: of more than twelve polarisation channels only twelve are reported.
* C77 `C77_no_ub_fails` – without `ubmatrix` in the header `sample_ub_info` raises `AttributeError` (`None.reshape`).
* C77 `C77_preset_fails` – with a preset type other than `normal` and `countfile` (or none) `scan_info` raises
  `UnboundLocalError`.
* C78 `C78_scan_lost` – entries are keyed by the scan name only; with two experiments in a folder the scans of the first are lost.
* C79 `C79_ambiguous` – for the same reason a scan number that occurs twice gives the last file, under the data set name built from
  the first.

Soft links (`Verif/Model/Links.lean`): a file is a tree of groups and datasets together with the list of its soft links, which `to_nexus`
makes in the group `data` of an entry. Reading follows them. `Verif/Model/TaviFile.lean` is `TAVI.save` and `TAVI.open_file` on such
files, one group of entries per experiment (`C46_file`, `C46_scans`).

* C80 `C80_group_axis` – the axis is looked up by name among groups as well; a scan against a column called `sample` gets a link to
  the whole sample group, and saving the entry a second time fails with `ValueError`.

`to_nexus` switches on `track_order`, so the members of a group are read back in the order in which they were made; the model keeps
this order. (The root of a file is opened before the switch; the order of the entries of a file is not claimed.) Column names with `/` (which HDF5 would take for a path) are excluded by hypothesis (`Plain`).

* C82 `C82_by_number` – `Scan.from_nexus(path, n)` reads the members of the group but not its attributes; `scan_info` of such a scan
  raises `KeyError` (`"attrs"`), while the same file read without a number works.
* C82 `C82_extra_column` – lists are not columns before writing, but are read back as arrays: a scan with as many points as there are
  collimators gets an additional column `divergence_x`.

Conversion (`Verif/Model/Convert.lean`): the disk has text files, folders and NeXus files; a path is a text, taken apart at the
slashes, without `..`. Making the folder fails if a file is in the way (one kind of error). What a failed conversion leaves behind
is not modelled. `convertSpiceWith` is the conversion with the two configuration files, `convertSpice` (C86) the one without; `C107_without` says
that they agree.

Configuration files when scans are read (`Verif/Model/BuilderJson.lean`): `spice_scan_to_nxdict` with the two documents `json.load` gives,
section by section over the builder of `Model/Builder.lean`. A number carries the text `str` makes of it; nested values are one value
(`other`), storing it is an error. A text for a quantity that is no number is one kind of error (the code leaves `dataset` unbound). Flags
of the curvature are stored as the texts `True`/`False`; `plane_normal` and `in_plane_ref` get the units `cm` (not claimed).

* C108 `C108_table_ignored` – of the section `goniometer` of the instrument file only `type` is taken: the sense of the sample table reported
  is the header's, between two senses of the file.
* C107 `C107_refused` – a parameter of the sample given as a list of texts (or its shape as a list of numbers) is accepted when the scan is
  read, but the entry cannot be written: h5py has no type for it.
* C104 `C104_cell_ignored` – the cell parameters of the sample file are not taken, also when its `ub_matrix` is: the entry then pairs the
  UB matrix of the sample file with the cell of the data file. The message for a missing sample file names the instrument file.
* C105 `C105_convention` – the `convention` of the sample file is ignored when it is given with the scans: a matrix in the Mantid
  convention is taken for one in the Spice convention, its axes are exchanged.
* C105 `C105_ignored` – cell, mosaic, shape and in-plane vector of a sample file given with the scans do not reach `Sample.from_scan`.

Setting up (`Verif/Model/Setup.lean`): the attributes of the components made from the files are turned into the records `Model/Tas.lean`
and `Model/Reso.lean` calculate with; missing attributes are errors, defaults are those of the classes.

Configuration files (`Verif/Model/Config.lean`): a JSON document is what `json.load` gives, restricted to the values that occur
(numbers, texts, lists of numbers, lists of ranges, true/false, null). A component is the list of its attributes.

* C83 `C83_not_atomic` – components are replaced one after the other; if one is refused (`KeyError` for an unknown crystal) the
  earlier ones are already the new ones, while `json_path` is still the old one.
* C83 `C83_update_type` – `update("type", "Si111")` changes the type but not the d-spacing, and accepts unknown crystals.
* C84 `C84_unknown_accepted` – an unknown convention in the sample file is accepted when the file gives no matrix and no vectors.
* C84 `C84_half_ignored` – `if None not in [...]`: a mosaic given for one direction only, or a width without depth, is ignored.
* C85 `C85_no_normal_fails` – `np.array(None)` is not `None`: without a plane normal in the header `Sample.from_scan` raises
  `TypeError` in the change of axes, although the normal is optional.
* C85 – `SampleUBInfo` has no in-plane vector, so a sample made from a scan never has one. The mosaic of a scan is used in minutes
  of arc, while the NeXus entry labels it as degrees.
* C86 `C86_no_slash` – the name of the scan is appended to the text of the output folder: without a slash at the end the folder is
  made, but the files are put beside it, called `<folder><scan>.h5`.
* C86 `C86_inside` – `*parent_path, _ = path.split("/")`: if the folder with the data is written with a slash at the end, the output
  folder is made inside it.
* C86 – the name of the data set is `"IPTS" + proposal`, and files say `proposal = IPTS-890`: the folder is `IPTSIPTS-890_HB1A_exp0266`.

Main window (`Verif/Model/Window.lean`): a window is its tree, its two texts and the models behind it. Signals queued to the GUI
thread are delivered before the next action of the user; one window per process; exceptions are returned beside the window.

* C87 `C87_not_shown` – the title of a folder is taken from the first file: an empty folder raises `IndexError`, and so does a first
  file such as `exp.log`; the files are in the list of the project, but not in the tree.
* C87 `C87_stale` – clicking on `scan_notes.txt` selects it, and `int("")` raises before the window is updated: file and next file
  shown are still those of the click before.
* C87 `C87_first_only` – the dialog lets the user choose several files, only the first path is loaded (as a folder).

Printed texts (`Verif/Model/Report.lean`, `Verif/Model/UBText.lean`): the text of a single number, array, table or tuple is an arbitrary function;
how these texts are put together is modelled. The order in which the attributes of a UB configuration were set is an argument.

Plots (`Verif/Model/Plot.lean`): plots hold references to scan data; drawing is the list of calls on the axes. The order of a Python
set is a parameter.

* C88 `C88_shared_format` – `add_scan` writes the format into the scan data: adding it to a second plot changes the first one.
* C88 `C88_title_lost` – `plot` overwrites the title set by the user with the title of the last scan, also for later.
* C88 `C88_label_lost` – `xlabel` and `ylabel` set by the user only suppress the labels of the scans; they are never drawn.
* C88 `C88_no_labels` – scan data on which `make_labels` has not been called raises `AttributeError`.
* C91 `C91_curve_format` – `Plot2D.plot` draws curves without the format they were added with (a label makes an empty legend appear).
* C91 `C91_shared_format`, `C91_title_lost`, `C91_label_lost` – as for C88.
* C89 `C89_center_fails` – `ResoCurve` has an attribute `center`, `generate_curve` reads `cen`: `AttributeError`.
* C90 `C90_unsupported` – `LoadManager.load` has a case for `ORNL` only: any other facility, also those in `supported_facilities`,
  gives `None`, which replaces the scans of the project.
* C90 `C90_select_fails` – `select_scans` reads `tavi_data.scan_list`; `TaviData` has no such attribute (the scans are in `rawdataptr`).
* C90 `C90_shared` – `show_selected_data: dict = {}` is one dictionary for all projects.
* C90 `C90_combine_fails` – the parameter `range` of `combine_1d` hides the built-in that is called later: `TypeError` for all inputs.
  The number of bins is 10 whatever the step.
* C92 `C92_limits_lifted` – `limits` in a configuration replaces the whole dict: a file with a limit for `two_theta` alone lifts the
  10 degrees of the tilts.
* C92 `C92_missing` – a configuration without goniometer, crystals or collimators is loaded without complaint; `AttributeError` later.
