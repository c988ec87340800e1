{"id": "C01", "title": "Lattice parameters survive the trip through the B matrix", "statement": "Computing a B matrix from lattice parameters and reading lattice parameters back from that B matrix returns exactly the six numbers the user started with.", "quantifier": "for every physically possible unit cell (positive lengths, angles strictly between 0 and 180 degrees, positive cell volume)", "why_tests_cant": "Tests compare a handful of cells with a tolerance; the claim ranges over a 6-dimensional continuum including arbitrarily skewed triclinic cells.", "anchors": ["src/tavi/lattice_algorithm.py:b_mat_from_lattice", "src/tavi/lattice_algorithm.py:lattice_params_from_b_mat", "src/tavi/lattice_algorithm.py:lattice_params_from_g_star_mat", "src/tavi/lattice_algorithm.py:reciprocal_latt_params"]}
{"id": "C02", "title": "B^T B is the inverse of the direct metric tensor, so |Q| is right for every reflection", "statement": "The B matrix satisfies B^T B = (direct metric tensor)^-1, hence the length of momentum transfer computed for a reflection from B, and the one computed by the sample from the reciprocal vectors, are the same number and equal 2*pi times sqrt(hkl . G^-1 . hkl).", "quantifier": "for every possible cell and every real (h,k,l)", "why_tests_cant": "Only sampled hkl/cell pairs can be tried; two independent code paths must agree everywhere.", "anchors": ["src/tavi/lattice_algorithm.py:b_mat_from_lattice", "src/tavi/ub_algorithm.py:q_norm_from_hkl", "src/tavi/sample.py:Sample.get_q_norm"]}
{"id": "C03", "title": "Real and reciprocal lattice vectors are dual and have the stated lengths and angles", "statement": "The three Cartesian lattice vectors have lengths a, b, c and mutual angles alpha, beta, gamma; the reciprocal vectors satisfy a_i . a*_j = 2 pi delta_ij; and the reported reciprocal lengths/angles are those of the reciprocal vectors.", "quantifier": "for every possible cell", "why_tests_cant": "Continuum of cells; a sign error in one off-diagonal entry only shows for triclinic cells.", "anchors": ["src/tavi/lattice_algorithm.py:real_space_vectors", "src/tavi/lattice_algorithm.py:reciprocal_space_vectors", "src/tavi/lattice_algorithm.py:reciprocal_latt_params", "src/tavi/lattice_algorithm.py:v_alpha_beta_gamma_calc"]}
{"id": "C04", "title": "UB decomposes into a rotation times the B matrix of its own lattice", "statement": "Splitting an invertible UB matrix into U and B gives U orthogonal and U.B = UB, B upper triangular, and the lattice parameters read from UB do not change when UB is pre-multiplied by any rotation.", "quantifier": "for every invertible 3x3 UB matrix and every rotation", "why_tests_cant": "Uncountably many matrices; tests use a few refined UB matrices.", "anchors": ["src/tavi/ub_algorithm.py:b_mat_from_ub_matrix", "src/tavi/ub_algorithm.py:u_mat_from_ub_matrix", "src/tavi/ub_algorithm.py:ub_matrix_to_lattice_params"]}
{"id": "C05", "title": "Orientation vectors u,v and the UB matrix determine each other", "statement": "The UB matrix built from u, v and a cell is a rotation times B; it sends u to the +z (beam) direction and v into the horizontal plane with positive x; the cell is recovered from it; and converting it back gives u up to a positive factor and a v' in span(u,v).", "quantifier": "for every possible cell and every pair of linearly independent u,v", "why_tests_cant": "Continuum of inputs.", "anchors": ["src/tavi/ub_algorithm.py:uv_to_ub_matrix", "src/tavi/ub_algorithm.py:ub_matrix_to_uv", "src/tavi/ub_algorithm.py:ub_matrix_to_lattice_params"]}
{"id": "C06", "title": "Goniometer matrices are proper rotations and the advertised inverse is the inverse", "statement": "Whenever the goniometer returns a matrix for a set of motor angles it is orthogonal with determinant one, the matrix returned as its inverse really is, and every other goniometer type or missing angle is refused with a ValueError.", "quantifier": "for every motor position, every sign pattern of the axes, both supported stackings, every type string", "why_tests_cant": "Angles are reals; the sign patterns multiply the cases.", "anchors": ["src/tavi/instrument/components/goni.py:Goniometer.r_mat", "src/tavi/instrument/components/goni.py:Goniometer.r_mat_inv", "src/tavi/instrument/components/goni.py:Goniometer.motor_senses", "src/tavi/utilities.py:rot_x,rot_y,rot_z"]}
{"id": "C07", "title": "Huber-table angles are recovered from their rotation matrix", "statement": "Decomposing the rotation matrix of a Huber table returns the motor angles it was built from (|sgl|<90, omega and sgu in (-180,180] after sign), and conversely rebuilding the matrix from the decomposed angles returns the matrix for every rotation that is not in gimbal lock.", "quantifier": "for every motor position in the stated ranges, every sign pattern, and every rotation matrix without gimbal lock", "why_tests_cant": "Quadrant errors of arctan2 appear only in parts of the continuum.", "anchors": ["src/tavi/instrument/components/goni.py:Goniometer.angles_from_r_mat", "src/tavi/instrument/components/goni.py:Goniometer.r_mat"]}
{"id": "C08", "title": "Motor positions handed to the user always respect the limits", "statement": "Every motor position returned by the angle calculation lies within the limits in force (inclusive), whatever sequence of limit changes came before; the last limit set for a motor is the one in force, an unknown motor name is rejected and changes nothing.", "quantifier": "for every history of limit updates and every request", "why_tests_cant": "Histories are unbounded.", "anchors": ["src/tavi/instrument/components/goni.py:Goniometer.set_limit", "src/tavi/instrument/components/goni.py:Goniometer.validate_motor_positions", "src/tavi/instrument/tas.py:TAS.calculate_motor_angles"]}
{"id": "C09", "title": "hkl -> motor angles -> hkl is the identity for elastic scattering on a Huber table", "statement": "If motor angles are computed for a reflection at zero energy transfer, converting those motor angles back gives the same (h,k,l).", "quantifier": "for every UB configuration consistent with the sample lattice, every reachable hkl, every goniometer sense and sign pattern", "why_tests_cant": "Continuum of hkl and orientations, three branches of the tilt algorithm.", "anchors": ["src/tavi/instrument/tas.py:TAS.calculate_motor_angles", "src/tavi/instrument/tas.py:TAS.calculate_hkl_from_angles", "src/tavi/ub_algorithm.py:r_matrix_with_minimal_tilt"]}
{"id": "C10", "title": "hkl -> motor angles -> hkl is the identity for a four-circle in bisect mode", "statement": "If four-circle motor angles are computed in bisect mode at zero energy transfer, converting them back gives the same (h,k,l), for either sense of the goniometer.", "quantifier": "for every UB, every reachable hkl, both goniometer senses, all axis signs", "why_tests_cant": "Continuum; tests exercise only an instrument with negative sense.", "anchors": ["src/tavi/instrument/components/goni.py:Goniometer.angles_in_bisect_mode", "src/tavi/instrument/tas.py:TAS.calculate_hkl_from_angles"]}
{"id": "C100", "title": "The figure of the resolution ellipses shows them, with limits around them", "statement": "plot_ellipses draws six panels, one for each pair of the four coordinates. Each shows the half-height contour of the projection of the resolution function to the pair (dashed) and of the cut through its centre (solid), both about the momentum and energy of the ellipsoid, on axes at the angle of the pair, labelled with its labels; the legend is in the panel of the third axis and the energy; the limits are 0.6 full widths to each side. All points of both contours are within the limits of their panel.", "quantifier": "for every ellipsoid with a positive definite matrix, every choice of axes and place of the energy, all labels and every routine that diagonalises", "why_tests_cant": "Tests draw a figure and look at it, or only check that nothing raises; that contours are inside the limits, for all ellipsoids and all skewed axes, is a statement about all matrices and angles.", "anchors": ["src/tavi/instrument/resolution/ellipsoid.py:261-292", "src/tavi/plotter.py"]}
{"id": "C101", "title": "Scans asked of a session, alone or in groups, are always the same", "statement": "get_scan and group_scans of a session give the scans filed under the experiment and scan number; a number alone means the first experiment. The answer does not depend on what was asked before, in which order, how often, or whether it raised, although making a scan changes the entry of the session. A group has the scans asked for in their order, each as asking for it alone gives it, and the first one that is missing decides the exception; anything that is neither a number nor a pair raises ValueError before anything is looked up, an empty session StopIteration, a missing scan KeyError. get_data of a group gives the data of each scan in order. After loading a SPICE folder a scan is that of its file, also after saving and opening the session.", "quantifier": "for all sessions, all histories of requests, all folders of data files", "why_tests_cant": "Tests ask for a few scans of one session once; that no history of requests changes an answer is a statement about all histories, and asking does change the entries in place.", "anchors": ["src/tavi/data/tavi.py:142-190", "src/tavi/data/scan_group.py:380-391", "src/tavi/data/scan.py:82-85", "src/tavi/data/nexus_entry.py:326-361"]}
{"id": "C102", "title": "A session loaded from converted files is that of the data files", "statement": "After convert_spice_to_nexus has converted a SPICE folder into a folder in which nothing was called scan..., a TAVI session that calls load_nexus_data_from_disk on the converted folder and one that calls load_spice_data_from_disk on the SPICE folder give the same scan for every number (name, columns, metadata, what it reports), and both raise KeyError for every other number, whatever was asked of either session before. load_nexus_data_from_disk reads exactly the files whose names start with scan; other names and the order of the listing make no difference; whether the text for the folder ends with a slash makes no difference; of entries of the same name that of the last file counts. A folder that is missing, a file in its place, or one name starting with scan that is not a NeXus file makes it raise, and the session is as before.", "quantifier": "for all folders of data files, all disks, all sessions, all histories of requests", "why_tests_cant": "Tests load one prepared folder and count the scans; that conversion and both ways of loading agree for every folder and number, and which files of any folder count, are statements about all folders.", "anchors": ["src/tavi/data/tavi.py:38-73", "src/tavi/data/tavi.py:142-160", "src/tavi/convert_spice_to_nexus.py:7-36", "src/tavi/data/nexus_entry.py:214-237"]}
{"id": "C103", "title": "Starting the application keeps the settings of the user", "statement": "Constructing Configuration keeps the settings in the user's configuration.ini: every value get_data gives before the start it gives after it; a field the file does not have is then that of the template; without a file the start makes one that is read as the template is; starting again leaves the file as it is, character by character; a start that fails leaves the file as it was. Settings written as [section] and field = value lines are what get_data gives, the field name in any case, the words True, False and None as such, and None for fields and sections that are not there.", "quantifier": "for all texts of the file and of the template, all sections and names, any number of starts", "why_tests_cant": "Tests write one file and look at one field; the two parsers the code builds differ in what is a comment, so that a file may be read by one and refused or rewritten by the other is a statement about all texts.", "anchors": ["src/tavi/configuration.py:20-52", "src/tavi/configuration.py:54-73", "src/tavi/configuration.py:79-102", "src/tavi/help/help_model.py:8-12"]}
{"id": "C104", "title": "Configuration files given when scans are read supplement the entries", "statement": "Reading scans with an instrument and a sample configuration file (NexusEntry.from_spice with path_to_instrument_json, path_to_sample_json) gives the same scans in the same order as reading without them, each entry supplemented by what the files say: every parameter of the sections source, monochromator, analyzer and detector and of the sample file is found in its group under its own name (ub_matrix as orientation_matrix), with its value and its units, in place of that of the data file; of goniometer and monitor only type and shape are taken; the collimations of one direction are replaced when all four are given, kept when one is missing. Null and empty texts change nothing, nor do the cell parameters of the sample file; everything else is as without the files. Without files the entries are those of the data files; a path at which there is no file is refused with ValueError, as is a matrix that has not nine numbers; files of storable values are never refused. Assumed: the sample file does not give the matrix under both of its names, and no parameter of the detector begins with detector_.", "quantifier": "for all data folders, all configuration documents, all scan numbers", "why_tests_cant": "No test reads a scan with configuration files whose values differ from those of the data file; which group a parameter ends up in, and that the rest stays, is a statement about all documents.", "anchors": ["src/tavi/data/nexus_builder.py:168-183", "src/tavi/data/nexus_builder.py:202-211", "src/tavi/data/nexus_builder.py:229-244", "src/tavi/data/nexus_builder.py:262-277", "src/tavi/data/nexus_builder.py:286-295", "src/tavi/data/nexus_builder.py:314-336", "src/tavi/data/nexus_builder.py:374-379", "src/tavi/data/nexus_builder.py:440-445", "src/tavi/data/nexus_builder.py:502-518"]}
{"id": "C105", "title": "The sample of a scan read with configuration files", "statement": "For a scan read with configuration files (Scan.from_spice or NexusEntry.from_spice with path_to_sample_json), Sample.from_scan gives the sample with the UB matrix and plane normal of the sample file where it gives them, those of the header of the data file otherwise, always with the cell and mosaic of the header and in the Spice convention. If the sample file gives matrix and normal, is in the Spice convention (or names none) and its cell is that of the header, this sample has the same cell, convention, matrix and normal as the one Sample.from_json makes of the same file, and calculates the same angles unless the file also gives an in-plane vector. A file in the Mantid convention is read with its axes exchanged: every reflection is put at another place, unless it is along the first axis. Two sample files with the same matrix and normal give the same sample, whatever else they say. Scan.from_spice by number gives the scan of the one file with that number.", "quantifier": "for all data files, all configuration documents without duplicate names, all headers that describe a sample", "why_tests_cant": "No test makes a sample from a scan that was read with a sample file; the agreement of the two ways to a sample is a relation between two readers over all documents.", "anchors": ["src/tavi/sample.py:149-170", "src/tavi/data/scan.py:147-174", "src/tavi/data/nexus_builder.py:502-518", "src/tavi/data/scan.py:91-105"]}
{"id": "C106", "title": "Configuration files do not touch what was measured", "statement": "A scan read with configuration files has the same data as the scan read without them: for every name the files do not speak about, Scan.data has the same column, or has none in both cases. Whatever can be read without the files can be read with them, if their values can be stored. Assumed: the names in the files are no paths and none of attrs, dataset, detector, monitor, sample, and they give no parameters called Pt. or data; the assumptions on names of C104.", "quantifier": "for all data files, all configuration documents, all column names", "why_tests_cant": "No test compares the columns of a scan read with and without configuration files; a look-up by name walks through all groups of the entry, so a parameter anywhere could hide a column.", "anchors": ["src/tavi/data/nexus_builder.py:202-211", "src/tavi/data/nexus_builder.py:229-244", "src/tavi/data/nexus_builder.py:286-303", "src/tavi/data/nexus_builder.py:502-518", "src/tavi/data/nexus_entry.py:277-306", "src/tavi/data/nexus_entry.py:326-361", "src/tavi/data/scan.py:190-196"]}
{"id": "C107", "title": "Converting with configuration files keeps what they say", "statement": "convert_spice_to_nexus with path_to_instrument_json and path_to_sample_json writes one file <scan>.h5 for every scan of the folder and changes nothing else; a folder of data files with different scan names, each of which can be loaded with the configuration files and shown, is converted if nothing is in the way. Loading a scan from its NeXus file gives the scan that loading the data file with the configuration files gives: the same name and columns, the same value for every key outside the plot (so every parameter the configuration files set), and the same reports of Scan.scan_info, sample_ub_info and instrument_info. Assumed: the axes named in the header are not replaced by the configuration files, texts are not given as lists and no numbers for a word. Without configuration files this is the conversion of C86; if one of the two files does not exist nothing is converted. A parameter of the sample given as a list of texts, or its shape as numbers, is read but the entry cannot be written.", "quantifier": "for all folders, disks, configuration documents, keys and columns", "why_tests_cant": "The conversion is not tested; keeping every parameter of two further files through the builder, the writer and the reader is a statement over all documents and keys.", "anchors": ["src/tavi/convert_spice_to_nexus.py:7-36", "src/tavi/data/nexus_builder.py:202-211", "src/tavi/data/nexus_builder.py:502-518", "src/tavi/data/nexus_entry.py:77-130", "src/tavi/data/nexus_entry.py:173-269", "src/tavi/data/scan.py:107-146"]}
{"id": "C108", "title": "The instrument of a scan read with configuration files", "statement": "For a scan read with configuration files Scan.instrument_info reports the instrument that the instrument file describes: crystal and sense of monochromator and analyser, the sense of the sample table, and the four horizontal collimations; where the file says nothing the report is that of the header of the data file (C77). Assumed: no parameter is called like one of these groups or like the stored collimation, no key is given twice. For the sample table this fails: the sense in the section goniometer of the file is not used, the middle sense of the report is always that of the header, although the senses on both sides of it come from the file.", "quantifier": "for all data files, configuration documents and scans read with them", "why_tests_cant": "A mixture of two sources decided separately for each of six values; no test reads a scan with an instrument file that contradicts the header.", "anchors": ["src/tavi/data/scan.py:171-192", "src/tavi/data/nexus_builder.py:202-320", "src/tavi/data/nexus_builder.py:355-385"]}
{"id": "C109", "title": "Resolution, mounting and equivalent reflections", "statement": "TAS.cooper_nathans depends on the sample only through its mosaic and the length of the momentum transfer as long as the ellipsoid is expressed in the local frame. In reciprocal-lattice or projection axes (goniometers without bisecting mode) it does not depend on how the crystal is mounted: turning the UB matrix, the plane normal and the in-plane reference by any rotation leaves prefactor and ellipsoid unchanged wherever both positions can be reached. If a rotation about the plane normal is a symmetry of the reciprocal lattice, the ellipsoid at an equivalent reflection is that at the original one carried over by the symmetry; at the opposite reflection in the plane it is that at the original one with momentum displacements in the plane reversed. Assumed: the UB matrix has the metric of the lattice, Q is exactly in the plane or outside the 1e-5 thresholds of the tilt computation (C12), sgl is not 90 degrees.", "quantifier": "for all instruments, cells, mountings, rotations, reflections, energies, projection axes and displacements", "why_tests_cant": "An invariance under arbitrary rotations relating two complete calculations; tests compare single results with stored numbers.", "anchors": ["src/tavi/instrument/tas.py:256-355", "src/tavi/instrument/resolution/cooper_nathans.py:138-192", "src/tavi/instrument/resolution/ellipsoid.py:92-152", "src/tavi/ub_algorithm.py:271-339"]}
{"id": "C11", "title": "Converting motor angles back to hkl also works for inelastic positions", "statement": "Motor angles computed for (h,k,l) at energy transfer en convert back to the same (h,k,l).", "quantifier": "for every energy transfer, not only zero", "why_tests_cant": "Tests only check elastic positions.", "anchors": ["src/tavi/instrument/tas.py:TAS.calculate_hkl_from_angles", "src/tavi/instrument/tas.py:TAS._get_ei_ef"]}
{"id": "C110", "title": "Coarser optics, poorer resolution; wider collimators, more intensity", "statement": "At the same position, a spectrometer none of whose collimators, monochromator, analyser and sample mosaics is finer has a resolution function that nowhere falls off faster: in every direction of momentum and energy, in the local frame and in any projection axes, the quadratic form is not larger, the variance is not smaller, and on every axis neither the coherent nor the incoherent full width is smaller (the latter for variances below 1e8, see C25). Opening the collimators alone never lowers the prefactor r0.", "quantifier": "for all instruments, reflections, energies, projection axes and displacements, and all pairs of optics", "why_tests_cant": "A comparison between any two settings in every direction of a four-dimensional space; tests evaluate single settings.", "anchors": ["src/tavi/instrument/resolution/cooper_nathans.py:58-192", "src/tavi/instrument/resolution/ellipsoid.py:92-173", "src/tavi/instrument/tas.py:322-355"]}
{"id": "C111", "title": "Mirror image and reversal of the spectrometer", "statement": "A spectrometer whose sample, monochromator and analyser senses are all opposite has the mirror image of the resolution function: the form is the same after changing the sign of the component across Q in the scattering plane, and the prefactor is the same. A spectrometer in which the neutrons travel the other way (monochromator and analyser, fixed energies and the order of the collimators exchanged) has, for the opposite energy transfer, the same resolution function up to the signs of the energy and of the component across Q, and the same prefactor. All coherent and incoherent widths of the ellipsoid along and across Q are the same in both cases. For a reflection in the scattering plane the resolution in any axes of the crystal is, in both cases, the mirror image through the plane of Q and the normal. The mirror image reaches such a reflection at the opposite two-theta with the same tilts, the sample turned about the vertical by twice the angle between beam and Q.", "quantifier": "for all instruments, reflections and energies for which both calculations return", "why_tests_cant": "The two arms are coded separately with signs of their own; a sign or index wrong in one of them leaves each single result plausible and positive definite.", "anchors": ["src/tavi/instrument/resolution/cooper_nathans.py:58-192", "src/tavi/instrument/tas.py:96-161", "src/tavi/instrument/components/goni.py:86-94", "src/tavi/instrument/components/mono_ana.py:68-75"]}
{"id": "C112", "title": "The written summary of a resolution calculation", "statement": "Every ellipsoid returned by cooper_nathans can be printed, for every instrument, position and projection. The summary gives the position, momentum transfer, energy and prefactor of that ellipsoid, its matrix with rows and columns named by the labels of the axes without their units, and for each of the four axes the coherent width (from the diagonal of the matrix) and the incoherent width (from the diagonal of its inverse) next to the label of that axis. The instrument part names exactly the energies that are held fixed, each crystal with its own spacing and its horizontal before its vertical mosaic, the collimators in the order of the flight path, the cell, and two vectors of which the first lies along the incident beam and the second across it in the horizontal plane when all angles are zero.", "quantifier": "for all instruments, positions and projections for which cooper_nathans returns, and all ways of formatting numbers", "why_tests_cant": "A summary with two values or two labels exchanged looks like any other; tests print a few ellipsoids and compare no text.", "anchors": ["src/tavi/instrument/resolution/ellipsoid.py:60-90", "src/tavi/instrument/resolution/cooper_nathans.py:28-56", "src/tavi/instrument/tas.py:322-355"]}
{"id": "C113", "title": "What is shown of an orientation and of a set of angles", "statement": "The UB configuration returned by calculate_ub_matrix is shown, line by line, as the name of its convention, the B matrix the sample then has, the UB matrix and (from one or two peaks) the plane normal and the in-plane reference, each with the value its attribute reads in that convention and that can be assigned back unchanged, and at the end how many peaks were used and the indices of each in the order given. With a convention of another name showing it raises a ValueError. A scattering plane that is set after a calculation from three or more peaks is shown on the unfinished line of the peaks. A set of angles is shown as name and value of exactly the motors that are set, in the order of the motors; two sets are shown alike exactly when the same motors are set and their values have the same text.", "quantifier": "for all instruments, lists of peaks and scattering planes for which calculate_ub_matrix returns a configuration, all sets of angles, and all ways of formatting arrays and numbers (numbers without commas)", "why_tests_cant": "The tests print configurations but compare no text; a matrix shown in the stored axes instead of those of the convention looks like any other.", "anchors": ["src/tavi/ub_algorithm.py:105-130", "src/tavi/utilities.py:45-49", "src/tavi/instrument/tas.py:163-245"]}
{"id": "C114", "title": "Units: the enlarged experiment", "statement": "Multiply the lattice constants of the sample and the d-spacings of monochromator and analyser by a positive factor g and divide all energies by g squared, so that every wavelength is g times as long and every angle is unchanged. Then the resolution function is the original one in enlarged units: a displacement gets the value that the original gives to the displacement with momenta multiplied by g and energy by g squared. The prefactor is divided by g to the sixth power, the length of the momentum transfer by g, and the coherent widths of the ellipsoid are divided by g, the one in energy by g squared. Reflections in the scattering plane are reached at the same motor angles. In reciprocal lattice units their resolution is the same but for the unit of energy.", "quantifier": "for all factors, instruments, orientations, reflections and energies for which both calculations return", "why_tests_cant": "A momentum used where an energy belongs, or a constant in the wrong unit, gives numbers of a plausible size at the energies of a test; that they scale wrongly shows only when all experiments are compared.", "anchors": ["src/tavi/instrument/resolution/cooper_nathans.py:58-192", "src/tavi/utilities.py:82-134", "src/tavi/instrument/tas.py:69-161", "src/tavi/instrument/resolution/ellipsoid.py:159-162"]}
{"id": "C12", "title": "Minimal-tilt rotation puts Q on the scattering vector with the least tilt of the plane normal", "statement": "The rotation chosen for a reflection maps the sample-frame Q exactly onto the lab-frame scattering vector, is a proper rotation, brings the plane normal vertical when Q lies in the plane, and otherwise makes the vertical component of the plane normal as large as any rotation reaching Q can.", "quantifier": "for every UB, plane normal, reachable hkl; compared against every competing rotation", "why_tests_cant": "Optimality quantifies over all rotations.", "anchors": ["src/tavi/ub_algorithm.py:r_matrix_with_minimal_tilt"]}
{"id": "C13", "title": "Scattering triangle closes or is refused", "statement": "two-theta and psi are returned exactly when ki, kf and |Q| form a triangle; then |q_lab(two-theta)| equals |Q|, q_lab makes the angle psi with the beam, and psi and two-theta have opposite signs fixed by the goniometer sense.", "quantifier": "for every hkl, Ei, Ef and cell", "why_tests_cant": "Continuum with boundary cases (degenerate triangles).", "anchors": ["src/tavi/ub_algorithm.py:q_lab", "src/tavi/ub_algorithm.py:two_theta_from_hkle", "src/tavi/ub_algorithm.py:psi_from_hkle", "src/tavi/utilities.py:get_angle_from_triangle", "src/tavi/instrument/tas.py:TAS.get_two_theta", "src/tavi/instrument/tas.py:TAS.get_psi"]}
{"id": "C14", "title": "UB from two peaks reproduces the measured directions", "statement": "U from two non-collinear peaks is a proper rotation, sends B.hkl1 exactly onto the measured direction of peak 1, sends the plane of the two reflections onto the plane of the two measured directions with the right handedness, and equals the true orientation whenever the measurements are consistent with one.", "quantifier": "for every pair of non-collinear peaks and every true orientation", "why_tests_cant": "Continuum.", "anchors": ["src/tavi/ub_algorithm.py:find_u_from_two_peaks", "src/tavi/instrument/tas.py:TAS.calculate_ub_matrix"]}
{"id": "C15", "title": "UB from three non-coplanar peaks reproduces all three measurements", "statement": "Given three non-coplanar peaks, in any order, the UB matrix is determined and maps each hkl onto its measured Q; three coplanar peaks are refused.", "quantifier": "for every triple of non-coplanar peaks in any order", "why_tests_cant": "Order and handedness of the triple.", "anchors": ["src/tavi/ub_algorithm.py:find_ub_from_three_peaks", "src/tavi/instrument/tas.py:TAS.calculate_ub_matrix"]}
{"id": "C16", "title": "UB from many peaks is the least-squares solution", "statement": "The UB matrix from more than three peaks minimises the summed squared deviation between UB.hkl and the measured Q among all 3x3 matrices, is exact for error-free peaks, coincides with the three-peak formula for three peaks and does not depend on the order of the peaks.", "quantifier": "for every list of peaks spanning reciprocal space, every competing matrix, every permutation", "why_tests_cant": "Optimality over all matrices; unbounded list length.", "anchors": ["src/tavi/ub_algorithm.py:find_ub_from_multiple_peaks"]}
{"id": "C17", "title": "UB from one peak and a scattering plane", "statement": "U is a proper rotation which sends B.hkl of the peak onto its measured direction and sends the normal of the plane spanned by the peak and the auxiliary in-plane vector to the vertical direction of the measured position.", "quantifier": "for every peak measured in the horizontal plane and every scattering plane containing it", "why_tests_cant": "Continuum and four sign branches.", "anchors": ["src/tavi/ub_algorithm.py:find_u_from_one_peak_and_scattering_plane", "src/tavi/ub_algorithm.py:plane_normal_from_one_peak"]}
{"id": "C18", "title": "Plane normals are unit, perpendicular to the plane and point up", "statement": "The plane normal stored after a two-peak determination has length one, is perpendicular to both reflections in the sample frame and never points down; the in-plane reference is a unit vector in the plane.", "quantifier": "for every pair of non-collinear reflections and every rotation U", "why_tests_cant": "Continuum, sign flip branch.", "anchors": ["src/tavi/ub_algorithm.py:plane_normal_from_two_peaks"]}
{"id": "C19", "title": "Spice and Mantid conventions are faithful translations of each other", "statement": "Setting UB, U, plane normal or in-plane reference in either convention and reading it back in the same convention returns what was set; an unknown convention is refused; computed motor angles do not depend on which convention the user chose to describe the same crystal; the two copies of the conversion in the code base agree.", "quantifier": "for every matrix/vector and convention string, any sequence of assignments", "why_tests_cant": "Continuum and histories.", "anchors": ["src/tavi/ub_algorithm.py:UBConf", "src/tavi/ub_algorithm.py:mantid_to_spice,spice_to_mantid", "src/tavi/utilities.py:spice_to_mantid,mantid_to_spice"]}
{"id": "C20", "title": "Energy, momentum and Bragg angle conversions are inverse to each other", "statement": "Energy->momentum->energy and back are identities, negative inputs are refused; the monochromator/analyser angle satisfies Bragg's law with the sign of the crystal sense or is refused; and energy->Bragg angle->energy of a monochromator returns the same energy.", "quantifier": "for every energy, momentum and d-spacing", "why_tests_cant": "Continuum; two different physical constants are hard-coded in two methods.", "anchors": ["src/tavi/utilities.py:en2q,q2en,get_angle_bragg", "src/tavi/instrument/tas.py:TAS.get_theta_m,get_theta_a", "src/tavi/instrument/components/mono_ana.py:get_bragg_angle_from_energy,get_energy_from_bragg_angle"]}
{"id": "C21", "title": "Ei and Ef are consistent with the energy transfer", "statement": "Explicit arguments win over the fixed energies, a missing energy is derived so that Ei - Ef = en, and asking with neither known is refused.", "quantifier": "for every combination of given/fixed energies and every en", "why_tests_cant": "16 presence combinations times a continuum.", "anchors": ["src/tavi/instrument/tas.py:TAS._get_ei_ef"]}
{"id": "C22", "title": "Lattice updates are validated atomically", "statement": "After any sequence of attempted lattice updates the sample holds the last accepted one, a refused update leaves every parameter unchanged, and an accepted one is a possible unit cell for which B is well defined.", "quantifier": "for every history of updates", "why_tests_cant": "Unbounded histories; acceptance of impossible angle combinations is a corner of a continuum.", "anchors": ["src/tavi/sample.py:Sample.update_lattice_parameters", "src/tavi/sample.py:Sample.update_lattice_parametres_from_b_mat"]}
{"id": "C23", "title": "Angles between reflections agree with angles between their motor positions", "statement": "The angle between two reflections is symmetric, between 0 and 180 degrees, independent of the orientation, and equals the angle between the two motor positions at which the reflections are observed.", "quantifier": "for all pairs of reflections, all orientations and goniometer positions", "why_tests_cant": "Continuum.", "anchors": ["src/tavi/ub_algorithm.py:angle_between_two_hkls", "src/tavi/ub_algorithm.py:angle_between_two_motor_positions"]}
{"id": "C24", "title": "The Cooper-Nathans resolution matrix is symmetric positive definite", "statement": "For every valid instrument configuration with non-zero momentum transfer the covariance and the resolution matrix are symmetric positive definite, so every FWHM and ellipse derived from it is well defined; the prefactor R0 is non-negative whatever the signs of the scattering senses.", "quantifier": "for all mosaics, collimations, energies, take-off angles and scattering angles that pass validation and are non-zero", "why_tests_cant": "High-dimensional continuum.", "anchors": ["src/tavi/instrument/resolution/cooper_nathans.py:CooperNathans.calculate_at_hkle", "src/tavi/instrument/resolution/cooper_nathans.py:mat_f,mat_g,calc_mat_a,calc_mat_b,calc_mat_c"]}
{"id": "C25", "title": "Incoherent width is never smaller than coherent width", "statement": "For each axis the coherent FWHM is at most the incoherent FWHM, and the incoherent FWHM is sig2fwhm times the square root of the diagonal entry of the inverse resolution matrix.", "quantifier": "for every symmetric positive definite 4x4 matrix whose intermediate pivots exceed the numerical threshold, every axis", "why_tests_cant": "Continuum.", "anchors": ["src/tavi/instrument/resolution/ellipsoid.py:coh_fwhms,incoh_fwhms,quadric_proj"]}
{"id": "C26", "title": "Projecting out axes does not depend on the order", "statement": "Projecting a resolution matrix along several axes one after another gives the same lower-dimensional ellipsoid whatever the order, namely the inverse of the corresponding block of the inverse; the projection contains the shadow of the ellipsoid: the projected quadratic form is the minimum over the eliminated coordinate.", "quantifier": "for every symmetric positive definite matrix and every order", "why_tests_cant": "Continuum.", "anchors": ["src/tavi/instrument/resolution/ellipsoid.py:quadric_proj,get_ellipse", "src/tavi/instrument/resolution/convolution.py:quadric_proj"]}
{"id": "C27", "title": "Changing the projection axes preserves the resolution function", "statement": "The resolution matrix in user projection axes evaluates to the same quadratic form as the local-frame matrix on the same physical displacement, the reported Q coordinates reconstruct the original hkl, and the angle drawn between two plotted axes is the angle between those axes wherever the energy axis is placed. Its matrix is symmetric and positive definite in every choice of axes.", "quantifier": "for every right-handed projection, position of the energy axis and displacement", "why_tests_cant": "Continuum times 4 placements of the energy axis.", "anchors": ["src/tavi/instrument/resolution/ellipsoid.py:_project_to_frame,get_ellipse"]}
{"id": "C28", "title": "Batch resolution calculation keeps order and accounts for every failure", "statement": "A list of positions yields one result per position in the same order, a position that fails is reported as None with exactly one error message in order, successes are unaffected by failures elsewhere, and a single position yields a bare result.", "quantifier": "for every list of positions and every pattern of failures", "why_tests_cant": "All patterns of failures over unbounded lists.", "anchors": ["src/tavi/instrument/tas.py:TAS.cooper_nathans", "src/tavi/instrument/resolution/resolution_calculator.py:generate_hkleief_list"]}
{"id": "C29", "title": "Grid generation is the full Cartesian product in the documented axes", "statement": "The generated (h,k,l,E) list contains each combination of grid values exactly once, in row-major order, with hkl = u*p1 + v*p2 + w*p3 and the energy taken from the energy axis wherever that axis is placed; malformed grids are refused.", "quantifier": "for every grid and axes tuple", "why_tests_cant": "Unbounded grids and axis placements.", "anchors": ["src/tavi/instrument/resolution/resolution_calculator.py:generate_hkle"]}
{"id": "C30", "title": "Each data point lands in the bin that contains it and in no other", "statement": "When rebinning, bin j collects exactly the points x with left_j <= x < right_j where the edges are min+(j-1/2)step and min+(j+1/2)step shifted by step/100, bins do not overlap and cover one contiguous window; points outside the window are ignored.", "quantifier": "for every data set, minimum, maximum and positive step", "why_tests_cant": "Half-open boundary behaviour over a continuum.", "anchors": ["src/tavi/data/scan_data.py:ScanData1D.rebin_tol,rebin_grid,rebin_grid_renorm,rebin_tol_renorm"]}
{"id": "C31", "title": "Rebinning conserves counts and monitor", "statement": "The sum over bins of (rebinned intensity times its normalisation) equals the sum of the raw counts of all points inside the window; likewise for the accumulated monitor; error bars are sqrt(total counts)/normalisation.", "quantifier": "for every data set and binning", "why_tests_cant": "Unbounded data sets.", "anchors": ["src/tavi/data/scan_data.py:ScanData1D.rebin_grid,rebin_grid_renorm,rebin_tol,rebin_tol_renorm"]}
{"id": "C32", "title": "No measured point inside the requested range is lost", "statement": "Every point with min <= x <= max contributes to some bin; in particular with the default range no point of the scan is dropped.", "quantifier": "for every data set, range and positive step", "why_tests_cant": "Depends on the fractional part of (max-min)/step.", "anchors": ["src/tavi/data/scan_data.py:ScanData1D.rebin_grid"]}
{"id": "C33", "title": "Normalised intensities are weighted means and scale correctly", "statement": "A rebinned, renormalised intensity lies between the smallest and largest individually normalised intensity in its bin; multiplying all counts and all monitors by the same factor changes nothing; the result is proportional to the normalisation value; an empty bin is reported as undefined (NaN), never as zero.", "quantifier": "for every data set with positive monitors", "why_tests_cant": "Unbounded data sets.", "anchors": ["src/tavi/data/scan_data.py:rebin_grid_renorm,rebin_tol_renorm,renorm"]}
{"id": "C34", "title": "Tolerance binning reports positions inside their bin and identical for identical points", "statement": "With positive weights the x reported for a bin by tolerance binning lies inside that bin, between the smallest and largest x it collected.", "quantifier": "for every data set, positive weights, binning", "why_tests_cant": "Unbounded data sets.", "anchors": ["src/tavi/data/scan_data.py:rebin_tol,rebin_tol_renorm"]}
{"id": "C35", "title": "Rebinning does not depend on the order in which points or scans are combined", "statement": "Permuting the data points (together with their counts and monitors), or the order of the scans in a group, leaves the rebinned data unchanged.", "quantifier": "for every data set and permutation", "why_tests_cant": "Factorially many orders.", "anchors": ["src/tavi/data/scan_data.py", "src/tavi/data/scan_group.py:_combine_data_1d"]}
{"id": "C36", "title": "2D rebinning is the product of two 1D rebinnings", "statement": "A point contributes to cell (i,j) exactly when x lies in x-bin i and y in y-bin j; counts and monitor over all cells are conserved; empty cells are NaN.", "quantifier": "for every 2D data set and binning", "why_tests_cant": "Unbounded data sets.", "anchors": ["src/tavi/data/scan_data.py:ScanData2D.rebin_grid,rebin_grid_renorm"]}
{"id": "C37", "title": "Combining scans is concatenation followed by the single-scan operation", "statement": "The combined data of a group equals what the single-scan pipeline would give for the concatenated scan; a group of one scan gives exactly that scan's data; grouped renormalisation without rebinning agrees with renormalising each scan separately.", "quantifier": "for every group of scans, channel, normalisation and binning", "why_tests_cant": "Unbounded groups.", "anchors": ["src/tavi/data/scan_group.py:_combine_data_1d", "src/tavi/data/scan.py:Scan.get_data"]}
{"id": "C38", "title": "Subtracting data sets", "statement": "Subtracting two 1D data sets of equal length is pointwise with errors added in quadrature and leaves both operands unchanged; data sets of different length are first matched onto the x grid of the first and also leave both operands unchanged.", "quantifier": "for every pair of data sets", "why_tests_cant": "Different-length path needs a generic argument; aliasing of operands.", "anchors": ["src/tavi/data/scan_data.py:ScanData1D.__sub__"]}
{"id": "C39", "title": "Rebin parameters are normalised or refused", "statement": "A step, a (min,max) pair or a (min,max,step) triple is normalised to a triple, normalising twice changes nothing, and every accepted request can be carried out: reversed ranges and non-positive steps are refused; when both grid and tolerance binning are requested the grid request wins.", "quantifier": "for every parameter value", "why_tests_cant": "Value zero and two-element tuples are corner cases.", "anchors": ["src/tavi/data/scan.py:Scan.format_rebin_params", "src/tavi/data/scan.py:Scan.get_data"]}
{"id": "C40", "title": "Combining scans in (h,k,l,E) selects and projects correctly", "statement": "Points are kept exactly when both integrated coordinates lie strictly inside the requested intervals, coordinates are the expansion coefficients of hkl in the projection axes, and the plotted axes appear in the order the user listed them wherever the energy axis was listed.", "quantifier": "for every projection, grid, placement of the energy axis", "why_tests_cant": "24 placements times a continuum.", "anchors": ["src/tavi/data/scan_group.py:combine_data_hkle"]}
{"id": "C41", "title": "A 2D map without rebinning keeps each scan on its own row", "statement": "Combining N scans into a 2D map without rebinning puts the points of scan i, in order, in row i.", "quantifier": "for every list of scans", "why_tests_cant": "Scans of different lengths.", "anchors": ["src/tavi/data/scan_group.py:_combine_data_2d"]}
{"id": "C42", "title": "Reading from an entry does not change the entry", "statement": "Looking up datasets or attributes returns the stored value regardless of earlier look-ups, ignores the data-acquisition logs, and leaves the entry, including its logs, as it was, so that logs can still be read and saved afterwards.", "quantifier": "for every entry and every sequence of look-ups", "why_tests_cant": "Histories of look-ups.", "anchors": ["src/tavi/data/nexus_entry.py:NexusEntry.get", "src/tavi/data/nexus_entry.py:NexusEntry._getitem_recursively", "src/tavi/data/nexus_entry.py:get_data_from_daslogs,get_dataset_names"]}
{"id": "C43", "title": "Entries survive being written and read back", "statement": "Writing an entry to a file and reading it back yields the same tree of groups, datasets and attributes; writing a second entry under another name leaves the first one untouched; rewriting the same entry is idempotent. Texts declared to be numbers are stored as the numbers they stand for, in their order; a text that is no number is refused.", "quantifier": "for every well-formed tree and write history", "why_tests_cant": "Unbounded trees.", "anchors": ["src/tavi/data/nexus_entry.py:NexusEntry._write_recursively,_read_recursively"]}
{"id": "C44", "title": "Loaded scans are filed under their experiment and never lost", "statement": "After any sequence of loads every loaded scan can be retrieved under its own experiment id, and the scans of an experiment are exactly those loaded for it (a later scan of the same name replacing an earlier one).", "quantifier": "for every sequence of loads", "why_tests_cant": "Histories with repeated experiments.", "anchors": ["src/tavi/data/tavi.py:TAVI.load_data,load_spice_data_from_disk,load_nexus_data_from_disk,get_scan"]}
{"id": "C45", "title": "Scan numbers and scan names correspond one to one", "statement": "Different scan numbers address different scan names, names sort like numbers up to 9999, and the scan number reported by a scan is the number it was requested by.", "quantifier": "for every scan number", "why_tests_cant": "Numbers with more than four digits.", "anchors": ["src/tavi/data/tavi.py:TAVI.get_scan", "src/tavi/data/scan.py:Scan.scan_info"]}
{"id": "C46", "title": "Saving writes everything that was loaded", "statement": "Saving, with or without a file name, writes every loaded scan with all its content, whatever was looked at between loading and saving.", "quantifier": "for every history of loads and reads before the save", "why_tests_cant": "Histories.", "anchors": ["src/tavi/data/tavi.py:TAVI.save", "src/tavi/data/nexus_entry.py:to_nexus"]}
{"id": "C47", "title": "Automatically named scan groups have distinct names", "statement": "Scan groups created without a name get pairwise different names within a session.", "quantifier": "for every sequence of group creations, named or not", "why_tests_cant": "Unbounded histories.", "anchors": ["src/tavi/data/scan_group.py:ScanGroup.__init__"]}
{"id": "C48", "title": "SPICE metadata is read faithfully", "statement": "Every 'key = value' header line is returned under its key with its value, including values containing '='; a key occurring several times keeps all values in order; other lines are kept as unrecognised; a completion line sets the end time only.", "quantifier": "for every list of header lines", "why_tests_cant": "Free-text user input in headers.", "anchors": ["src/tavi/data/spice_reader.py:metadata_to_dict"]}
{"id": "C49", "title": "SPICE header lines are partitioned and error messages are kept", "statement": "Every comment line of a data file before and after the data ends up in exactly one of metadata, column names or error messages, and error messages of a scan are stored in the SPICE logs.", "quantifier": "for every data file", "why_tests_cant": "Unbounded files; logs of aborted scans.", "anchors": ["src/tavi/data/spice_reader.py:read_spice_datafile", "src/tavi/data/spice_reader.py:_create_spicelogs"]}
{"id": "C50", "title": "Polarised count files are decoded channel by channel", "statement": "Each 'count preset' command of a count file yields one channel, numbered consecutively from one, labelled with the polarisation direction and flipper state in force at that command.", "quantifier": "for every count file", "why_tests_cant": "Unbounded command sequences with state.", "anchors": ["src/tavi/data/spice_reader.py:parse_countfile"]}
{"id": "C51", "title": "Numeric header values are converted without loss", "statement": "A numeric header string, whatever its sign or notation, is converted to the number it denotes.", "quantifier": "for every numeric string", "why_tests_cant": "Negative and exponent notation.", "anchors": ["src/tavi/data/nexus_builder.py:_recast_type"]}
{"id": "C52", "title": "UB configuration files are found and kept", "statement": "A UB configuration file present in the UB folder or in its temp folder is read, and its contents are kept in the SPICE logs of the entry.", "quantifier": "for every placement of the file", "why_tests_cant": "File-system states.", "anchors": ["src/tavi/data/spice_reader.py:_create_spicelogs", "src/tavi/data/nexus_builder.py:_formatted_spicelogs"]}
{"id": "C53", "title": "Scan filters implement boolean set logic", "statement": "Filtering returns the sorted list, without repetitions, of exactly the scans meeting any (or) / all (and) of the conditions; repeating the call gives the same answer; '==' requires all points within tolerance, '>' '>=' '<' '<=' require all points to satisfy the comparison.", "quantifier": "for every scan collection, list of conditions and data columns", "why_tests_cant": "Unbounded collections, boundary values.", "anchors": ["src/tavi/tavi_model/filter.py:Filter.filter_data", "src/tavi/tavi_model/filter.py:Filter._condition_factory"]}
{"id": "C54", "title": "Events reach exactly the registered listeners in order", "statement": "Publishing an event calls every callable registered for exactly that event type, once per registration, in registration order, and no other, through whatever broker handle the registration or publication was made.", "quantifier": "for every history of registrations and publications", "why_tests_cant": "Unbounded histories.", "anchors": ["src/tavi/EventBroker/event_broker.py:EventBroker"]}
{"id": "C55", "title": "Parallel folder loading loses and duplicates nothing", "statement": "Loading a folder adds every listed file exactly once to the project and announces the sorted list of exactly the files of this load, whatever order the worker threads finish in; counters agree with the lists.", "quantifier": "for every folder listing and every completion order, any number of successive loads", "why_tests_cant": "Schedules.", "anchors": ["src/tavi/tavi_model/dummy_model.py:TaviProject.load"]}
{"id": "C56", "title": "Configuration validation completes without overwriting", "statement": "After validation every section and field of the template exists, values the user had set are unchanged, fields unknown to the template survive, validating again changes nothing; boolean and None strings are returned as such.", "quantifier": "for every user configuration and template", "why_tests_cant": "All configurations.", "anchors": ["src/tavi/configuration.py:Configuration.validate", "src/tavi/configuration.py:get_data"]}
{"id": "C57", "title": "The next-file suggestion names the next scan", "statement": "For a selected SPICE file INSTR_expNNNN_scanMMMM.dat the suggested next file is the same name with the scan number increased by one in the same zero-padded format.", "quantifier": "for every file name in the SPICE naming scheme", "why_tests_cant": "All scan numbers.", "anchors": ["src/tavi/tavi_model/random_model.py:RandomModel.get_next_file"]}
{"id": "C58", "title": "Fit range selection keeps points, values and errors aligned", "statement": "Restricting a fit to a range keeps exactly the points inside (inclusive), keeps x, y and error aligned and in order; restricting twice equals restricting to the intersection; the resolution parameters used by a convolution fit stay aligned with the points.", "quantifier": "for every data set and sequence of ranges", "why_tests_cant": "Histories.", "anchors": ["src/tavi/data/fit.py:Fit1D.set_range", "src/tavi/data/convfit.py:ConvFit1D.set_range,conv_1d"]}
{"id": "C59", "title": "Fit components have distinct parameter prefixes", "statement": "Whatever sequence of signals and backgrounds is added, including attempts with unknown model names, no two components of a fit share a parameter prefix.", "quantifier": "for every sequence of additions", "why_tests_cant": "Unbounded histories including failures.", "anchors": ["src/tavi/data/fit.py:Fit1D.add_signal,add_background"]}
{"id": "C60", "title": "Fits weight points by their errors", "statement": "With error bars in use the minimised quantity is the sum of squared deviations each divided by its error, so that a point with a larger error influences the fit less.", "quantifier": "for every data set and model", "why_tests_cant": "Quantifies over models and data.", "anchors": ["src/tavi/data/fit.py:Fit1D.fit", "src/tavi/data/convfit.py:ConvFit1D.fit"]}
{"id": "C61", "title": "Axis transforms of skewed plots are inverse to each other", "statement": "Transforming plot coordinates to the skewed axes and back is the identity in both directions.", "quantifier": "for every point and every angle", "why_tests_cant": "Continuum.", "anchors": ["src/tavi/plotter.py:tr,inv_tr"]}
{"id": "C62", "title": "Projection labels use each of H, K, L at most once", "statement": "For three projection vectors, each non-zero, label generation never fails and gives the three axes three different letters; a vector along a reciprocal axis gets that axis' own letter if it is listed first.", "quantifier": "for every triple of non-zero vectors, wherever the energy axis is", "why_tests_cant": "All zero patterns.", "anchors": ["src/tavi/utilities.py:labels_from_projection"]}
{"id": "C63", "title": "Data columns are available under sanitised names", "statement": "Every column of an ORNL data file, whatever its name, is available afterwards under its sanitised attribute name with its own values.", "quantifier": "for every list of column names", "why_tests_cant": "Names beginning with a digit.", "anchors": ["src/tavi/tavi_model/FileSystem/Facilities/load_ornl.py:LoadORNL._load_files"]}
{"id": "C64", "title": "Motor position comparison is an equivalence up to tolerance", "statement": "Comparing motor positions is reflexive and symmetric, and not-equal is the negation of equal.", "quantifier": "for every pair of positions", "why_tests_cant": "Optional fields.", "anchors": ["src/tavi/utilities.py:MotorAngles.__eq__"]}
{"id": "C65", "title": "The resolution matrix is the textbook Gaussian one", "statement": "The resolution matrix is the inverse covariance (in FWHM units) of the momentum and energy displacement, when the four horizontal and four vertical collimator angles and the horizontal and vertical mosaic tilts are Gaussian with exactly the widths given by the user, each in its own place (monochromator/analyser, horizontal/vertical, collimator 1-4). The prefactor r0 is the one of the textbook for that same exponent: the reflected intensities of monochromator and analyser, (pi^2/4)/(sin thetaM sin thetaA), and the square root of the ratio of the mosaic determinant to that of the exponent.", "quantifier": "for all mosaics, collimations, energies, senses and scattering angles for which the calculation returns", "why_tests_cant": "Swapping two collimators or mosaics leaves the result plausible, and equal values in test fixtures hide it; the claim ranges over a 12-dimensional continuum.", "anchors": ["src/tavi/instrument/resolution/cooper_nathans.py:CooperNathans.calculate_at_hkle", "src/tavi/instrument/resolution/cooper_nathans.py:mat_f,mat_g,calc_mat_a,calc_mat_b,calc_mat_c"]}
{"id": "C66", "title": "The two-dimensional ellipse follows the requested axes", "statement": "Asking for the ellipse on axes (i, j) gives a 2x2 matrix whose first row belongs to axis i and whose second row belongs to axis j, for cut and projection alike, with the centre in the same order.", "quantifier": "for every ellipsoid, every ordered pair of distinct axes, cut and projection, origin on or off", "why_tests_cant": "12 ordered pairs times a continuum of matrices; symmetric fixtures hide a swap.", "anchors": ["src/tavi/instrument/resolution/ellipsoid.py:get_ellipse,quadric_proj"]}
{"id": "C67", "title": "The drawn ellipse is the half-height contour", "statement": "Every point of the drawn ellipse satisfies x^T M x = 2 ln 2 relative to the centre, i.e. the resolution function has dropped to exactly one half there.", "quantifier": "for every positive definite 2x2 matrix, centre and number of points", "why_tests_cant": "Continuum of matrices; tests only draw.", "anchors": ["src/tavi/instrument/resolution/ellipse.py:ResoEllipse,get_points"]}
{"id": "C68", "title": "Every reflection inside the energy triangle can be reached", "statement": "On a Huber table whose horizontal plane is the scattering plane, every reflection in that plane whose wave vectors close a triangle gets motor angles with both tilts at exactly zero, and the reflection is observed there; in bisect mode without limits every reflection whose triangle closes gets motor angles.", "quantifier": "for all lattices, orientations, energies, in-plane reflections and tilt limits containing zero", "why_tests_cant": "Tests try a few reflections of a few crystals.", "anchors": ["src/tavi/instrument/tas.py:TAS.calculate_motor_angles", "src/tavi/ub_algorithm.py:r_matrix_with_minimal_tilt", "src/tavi/instrument/components/goni.py:angles_from_r_mat,angles_in_bisect_mode"]}
{"id": "C69", "title": "Data columns are returned under their own names", "statement": "Reading a data file returns, for each column name of the header, exactly the numbers that stand under it, in row order; a table whose rows differ in length is refused.", "quantifier": "for every data file, number of rows and columns and every way of writing the numbers and blanks", "why_tests_cant": "Tests read a handful of recorded files, all with many rows and columns; single rows and single columns take other paths through numpy.", "anchors": ["src/tavi/data/spice_reader.py:read_spice_datafile"]}
{"id": "C70", "title": "Every component parameter is converted from its own value", "statement": "Each length, size and divergence a component reports in internal units is the conversion of the parameter of the same name, and a parameter that was not given stays not given; loading a configuration stores every component it names under that name with the parameters given and leaves the others alone.", "quantifier": "for all parameter values, given or missing, and all configurations", "why_tests_cant": "Tests use instruments whose parameters are all given, and never read the internal distances.", "anchors": ["src/tavi/instrument/components/component_base.py:TASComponent._min2rad,_cm2angstrom_given_shape,Distances", "src/tavi/instrument/components/collimators.py:Collimators", "src/tavi/instrument/tas_base.py:TASBase._load_instrument_parameters"]}
{"id": "C71", "title": "Header lines of ORNL files are read word for word", "statement": "After reading an ORNL file each key has exactly the value written after `key = ` by the last metadata line with that key, including blanks and equal signs inside it; lines without meaning are kept in order; the error messages are exactly the comment lines between the column names and the summary.", "quantifier": "for every file with a column header, whatever the lines say", "why_tests_cant": "Tests read a few recorded files.", "anchors": ["src/tavi/tavi_model/FileSystem/spice_reader.py:read_spice_datafile"]}
{"id": "C72", "title": "Loading gives one scan per file, from that file's own content", "statement": "Loading a folder or a list of files gives exactly one scan for each file; its columns, metadata, remaining lines and error messages come from that file alone, and its UB configuration from the UB file it names, looked up in the folder given, else in the folder UBConf beside the data, else in its folder tmp; a missing UB file leaves the configuration empty and does not stop the loading.", "quantifier": "for all file systems, folders, lists of files and contents", "why_tests_cant": "Tests load one folder where every UB file exists.", "anchors": ["src/tavi/tavi_model/FileSystem/Facilities/load_ornl.py:LoadORNL._load_files", "src/tavi/tavi_model/FileSystem/spice_reader.py:read_spice_ubconf"]}
{"id": "C73", "title": "Convolution is the Gaussian-weighted sum of the model over the resolution volume", "statement": "For a resolution matrix M, a dispersion and an intensity, convolution() returns r0 times sqrt(det M)/(2 pi)^2 times the Riemann sum, over an equidistant grid of plus/minus three standard deviations cut to the ellipsoid and over all bands, of intensity times exp(-1/2 d^T M d), where d is the offset in momentum and energy; the result is linear in the intensity, and is zero when nothing is in the window.", "quantifier": "for every positive definite resolution matrix, dispersion, intensity, number of bands, energy resolution factor and step limit", "why_tests_cant": "Models and matrices form a continuum; the normalisation error only shows for correlated resolution matrices.", "anchors": ["src/tavi/instrument/resolution/convolution.py:convolution", "src/tavi/instrument/resolution/convolution.py:generate_pts", "src/tavi/instrument/resolution/convolution.py:compute_weights", "src/tavi/instrument/resolution/convolution.py:get_max_step"]}
{"id": "C74", "title": "Shortcuts of the convolution drop only negligible contributions", "statement": "When convolution() gives up early every sampled Gaussian is below exp(-9/2); the nodes it leaves out of the sum change it by at most exp(-125/2) of the summed intensity; moving measurement and model together changes nothing.", "quantifier": "for every resolution matrix, dispersion and intensity", "why_tests_cant": "Needs the relation between widths and quadratic form for every matrix.", "anchors": ["src/tavi/instrument/resolution/convolution.py:convolution"]}
{"id": "C75", "title": "Every column of a SPICE file can be read back from the loaded scan", "statement": "After a SPICE data file has been turned into a NeXus entry, reading a column by its name gives exactly the numbers of that column in the file, in the order of the file (counts and point numbers as integers, rounded toward zero), whichever other names were read before; a column that the file does not have reads as absent.", "quantifier": "for every file the reader accepts, every column it has, every number of polarisation channels, every sequence of earlier reads", "why_tests_cant": "The name is looked up in a tree of some ninety datasets spread over eleven groups, and the choice of group depends on the preset type and on how many numbered detectors there are; tests read a handful of names from a few files.", "anchors": ["src/tavi/data/nexus_builder.py:157-616", "src/tavi/data/nexus_entry.py:62-140", "src/tavi/data/spice_reader.py:100-160"]}
{"id": "C76", "title": "The data of a loaded scan are exactly the columns of its file", "statement": "A scan made from a SPICE file has in its data every column of the file, under the name it is read by, with the numbers of the file in the order of the points, and nothing that is not a column of the file.", "quantifier": "for every file the reader accepts and every column it has, any number of points and of polarisation channels", "why_tests_cant": "What counts as data is decided by comparing lengths of everything in the tree with the number of points, by a substring test on names, and by nested look-ups that stop at the first match; tests load files whose header vectors happen to differ in length from the number of points.", "anchors": ["src/tavi/data/scan.py:67-131", "src/tavi/data/nexus_entry.py:141-205", "src/tavi/data/nexus_builder.py:545-616"]}
{"id": "C77", "title": "A loaded scan reports what the header of its file says", "statement": "What a scan made from a SPICE file reports about itself is what the header of the file says: title, axes (momentum and energy transfer under their NeXus names), times, how counting was preset (channel and value, or one channel, value and label for each polarisation state), the sample with its lattice, mosaic, plane normal and UB matrix row by row, and the instrument with its name, crystals, senses and collimation. For a crystal the two vectors reported for the scattering plane are those the UB matrix sends along and across the beam.", "quantifier": "for every file the reader accepts, every header text in the form SPICE writes it, any number of polarisation channels", "why_tests_cant": "Each reported field goes through a text parser, a tree of groups and a name search that can stop at a like-named entry elsewhere; tests compare a few fields of a few example files.", "anchors": ["src/tavi/data/scan.py:67-200", "src/tavi/data/nexus_builder.py:157-616"]}
{"id": "C78", "title": "Loading a SPICE folder gives one entry per data file", "statement": "Loading a folder of SPICE files either loads every data file or fails; when it succeeds there is one entry for each data file, under the scan name in the file name, made from that file, in the order of the file names, and all entries bear the data set name built from the first file. A path that is no folder or has no data folder is refused.", "quantifier": "for every folder whose data files are called instrument_experiment_scan.dat, any number of files", "why_tests_cant": "It is about all folders, including ones that mix experiments, in which scan names repeat; the test data hold one experiment per folder.", "anchors": ["src/tavi/data/nexus_builder.py:552-616", "src/tavi/data/nexus_entry.py:161-213"]}
{"id": "C79", "title": "A scan asked for by number is the one in the file with that number", "statement": "Scan.from_spice with a scan number gives the scan of the one file with that number, named after it, with the columns of that file as data; it fails if there is no such file, and if there are several.", "quantifier": "for every folder, every listing order and every scan number", "why_tests_cant": "The file is chosen by the ending of its name and the entry by a dict that forgets earlier entries of the same name; tests use folders in which the number is unique.", "anchors": ["src/tavi/data/scan.py:89-103", "src/tavi/data/nexus_builder.py:552-616"]}
{"id": "C80", "title": "A written entry opens with its default plot and is otherwise unchanged", "statement": "Writing an entry to a NeXus file under a new name makes the members of its group data that are named after the signal and the axis show the numbers of the datasets these names stand for in the entry (the detector counts for detector), marks these datasets with the path as target, and leaves everything else as it is: reading the file gives back every group, dataset and other attribute of the entry, and the other entries of the file read as before. An axis that stands for nothing gets no member. An entry with a group data that names no signal or axis is refused. The other entries read as before also when an entry is written over one of the same name.", "quantifier": "for every well-formed entry, every file it is added to, every two axis names that each occur once in the entry outside of data and SPICElogs", "why_tests_cant": "The tests look at one link of one file; the claim is about the whole content of the file, including what the links must not touch, for all entries.", "anchors": ["src/tavi/data/nexus_entry.py:11-29", "src/tavi/data/nexus_entry.py:239-275", "src/tavi/data/nexus_entry.py:131-159"]}
{"id": "C81", "title": "Written entries give the same data when read back", "statement": "Writing an entry with an empty plot group to a file under a new name and reading the file gives an entry in which every key that is looked up gives the same data as in the entry that was written: the same dataset, the same error or None. The links that were added to the plot group are never taken for the data themselves.", "quantifier": "for every well-formed entry, every file it is added to, every two axis names that occur once in the entry, and every key that does not lead into the plot group", "why_tests_cant": "The look-up searches the whole tree in order, so an added link can shadow a dataset deep below; only an argument over all trees and all keys shows that it never does.", "anchors": ["src/tavi/data/nexus_entry.py:11-29", "src/tavi/data/nexus_entry.py:42-82", "src/tavi/data/nexus_entry.py:131-159", "src/tavi/data/nexus_entry.py:277-306"]}
{"id": "C82", "title": "A scan survives the way through a NeXus file", "statement": "A scan loaded from a SPICE data file, written as a NeXus entry to a new file and loaded from that file again with Scan.from_nexus, has the same name, the same columns with the same numbers, gives the same value (or error) for every key outside the plot group, and reports the same scan_info, sample_ub_info and instrument_info. Loading it by its number instead must make no difference.", "quantifier": "for every data file that loads, every header and every set of columns whose default plot is over two different known columns, every data set name", "why_tests_cant": "Writing, linking and reading go through recursive searches over trees whose shape depends on the header and on which columns exist; a test compares a few files and a few keys.", "anchors": ["src/tavi/data/scan.py:80-110", "src/tavi/data/scan.py:112-196", "src/tavi/data/nexus_entry.py:131-159", "src/tavi/data/nexus_entry.py:214-275", "src/tavi/data/nexus_entry.py:326-361", "src/tavi/data/nexus_builder.py:440-520"]}
{"id": "C83", "title": "The spectrometer is the one of the configuration", "statement": "After an instrument configuration has been loaded, every attribute of a component it describes has the value given there, or the default value if none is given; the d-spacing of monochromator and analyzer is the tabulated one for the type of crystal. Components that are not described keep their attributes. A configuration with an unknown crystal is refused and must leave the spectrometer as it was. update changes the named attribute, with everything that follows from it, and nothing else.", "quantifier": "for every configuration with distinct names, every spectrometer it is loaded into, every component and attribute", "why_tests_cant": "The tests load a few instrument files and look at some attributes; the claim is about every attribute of every component, and about configurations that are refused half way.", "anchors": ["src/tavi/instrument/tas_base.py:37-90", "src/tavi/instrument/components/component_base.py:19-40", "src/tavi/instrument/components/mono_ana.py:10-62"]}
{"id": "C84", "title": "The sample is the one of the JSON file", "statement": "Sample.from_json gives a sample with the lattice parameters, the UB matrix (row by row), the plane normal and the in-plane vector of the file, in the convention of the file and Spice if none is given. What the file does not give has its default value; what it gives is used. Missing or impossible lattice parameters and unknown conventions are refused.", "quantifier": "for every decoded file: every set of keys, values and conventions", "why_tests_cant": "The tests read two files with all entries; the claim covers every combination of missing entries.", "anchors": ["src/tavi/sample.py:98-150", "src/tavi/sample.py:175-228", "src/tavi/ub_algorithm.py:47-103"]}
{"id": "C85", "title": "The sample of a scan is the one its header describes", "statement": "Sample.from_scan gives a sample with the lattice parameters, the mosaic, the UB matrix and the plane normal of the header of the data file, in the Spice convention. The plane vectors of the sample on an instrument are those the scan reports. Motor angles calculated with this sample for an elastic reflection lead back to the reflection.", "quantifier": "for every data file that loads and whose header describes a sample, every instrument with a Huber table, every reflection", "why_tests_cant": "The way goes from the text of the header through the NeXus entry and two changes of axes to the goniometer angles; a test follows it for one file and a few reflections.", "anchors": ["src/tavi/sample.py:152-172", "src/tavi/data/scan.py:139-171", "src/tavi/ub_algorithm.py:47-103", "src/tavi/instrument/tas.py:247-400"]}
{"id": "C86", "title": "A converted folder holds the same scans", "statement": "convert_spice_to_nexus leaves one file <scan>.h5 for every scan of the folder, in the output folder given, or else in a folder with the name of the data set beside the folder with the data; other files are not changed. Loading a scan from its NeXus file gives the scan that loading the data file gives: name, columns, metadata and what it reports.", "quantifier": "for every folder of data files that load, every working directory, every text of the two folders, every state of the disk", "why_tests_cant": "The conversion is not tested; it goes through the parser, the builder, the writer and the reader, and depends on how the paths are written.", "anchors": ["src/tavi/convert_spice_to_nexus.py:7-36", "src/tavi/data/nexus_entry.py:173-269"]}
{"id": "C87", "title": "The main window shows the folders loaded and the file clicked on", "statement": "In the main window, the tree has one node per folder that was loaded, in the order of loading; each node has all files of its folder in alphabetical order, under the experiment named by the first file or under Folder. Clicking on a file selects it, shows it together with its place in the list of files of the project, and shows the name of the file with the next scan number; the tree is not changed.", "quantifier": "for every history of loads and clicks, every content of the folders, every order in which the worker threads finish", "why_tests_cant": "The window is tested with one folder and one click; the statement is about all histories and schedules.", "anchors": ["src/tavi/mainwindow.py:20-50", "src/tavi/tavi_presenter/load_presenter.py:21-53", "src/tavi/tavi_presenter/metadata_presenter.py:19-45", "src/tavi/tavi_presenter/random_presenter.py:19-40", "src/tavi/tavi_view/load_view.py:146-160", "src/tavi/multithreading/proxy.py:10-32", "src/tavi/tavi_model/dummy_model.py:34-69", "src/tavi/tavi_model/random_model.py:19-37"]}
{"id": "C88", "title": "A plot draws what was added to it", "statement": "Drawing a Plot1D draws every scan added to it, in the order they were added, with its values, its errors if it has any, and the format given when it was added; then every fit curve with its format, then every resolution bar, as wide as the resolution, with caps of size 3 unless others are asked for. The limits, the title and the labels of the axes are those set by the user; without them the axes carry the labels of the scans, each once. There is a legend if and only if a scan or a fit has a label. Other plots and drawing before do not matter.", "quantifier": "for every history of operations on any number of plots sharing scan data", "why_tests_cant": "Plots are looked at, not tested; sharing of data between plots and the attributes title, xlabel, ylabel are not covered.", "anchors": ["src/tavi/plotter.py:26-190", "src/tavi/data/scan_data.py:12-46"]}
{"id": "C89", "title": "The resolution curve has the given centre, width and area", "statement": "ResoCurve.generate_curve gives points spread evenly over the given number of standard deviations on both sides of the centre, and at these points the values of the bell curve with the given centre, full width at half maximum and area. ResoCurve.generate_plot draws this curve over three standard deviations with 100 points, in the colour and style asked for and with the texts of the curve, whatever range was generated before.", "quantifier": "for every centre, positive width, area, number of standard deviations and number of points", "why_tests_cant": "There is no test of the class; a test would compare numbers at single points, the area is an integral.", "anchors": ["src/tavi/instrument/resolution/curve.py:24-63"]}
{"id": "C90", "title": "A project has the scans loaded into it and the selections made in it", "statement": "TaviProject.load_scans leaves the project with exactly the scans the loader of the facility returns; without a facility the one with the highest score is taken, and a load that raises changes nothing. select_scans keeps, under the given name, the scans of the project that meet the conditions; other projects are not affected. CombineManager.combine_1d bins the points of all scans.", "quantifier": "for every history of operations on any number of projects, every outcome of the loader, all conditions", "why_tests_cant": "Tests load one project once; selecting is only in the __main__ part of the file; sharing between projects needs two of them.", "anchors": ["src/tavi/tavi_model/tavi_project.py:42-109", "src/tavi/tavi_model/tavi_data.py:66-80", "src/tavi/tavi_model/FileSystem/load_manager.py:35-101", "src/tavi/tavi_model/combine_data.py:9-35"]}
{"id": "C91", "title": "A two-dimensional plot draws what was added to it", "statement": "Drawing a Plot2D draws every contour map added to it with its values and format, every curve with its values, errors and format, and every resolution ellipse as the contour at half height, on axes at the angle of the ellipse (angles within 0.0109 degrees of 90 count as 90). The limits, the title and the labels of the axes are those set by the user; without them the axes carry the labels of the ellipses, or of the contour maps if there are no ellipses, each once and in alphabetical order. There is a legend if and only if something added has a label. The image returned for the colour bar is that of the last contour map. Other plots and drawing before do not matter.", "quantifier": "for every history of operations on any number of plots sharing objects, every positive definite matrix, centre and angle", "why_tests_cant": "Plots are looked at, not tested; sharing of objects between plots, skewed axes and the attributes title, xlabel, ylabel are not covered.", "anchors": ["src/tavi/plotter.py:192-281", "src/tavi/instrument/resolution/ellipse.py:26-48"]}
{"id": "C92", "title": "An experiment set up from files calculates with the numbers of the files", "statement": "After loading an instrument configuration and mounting a sample read from its file, every motor position that is calculated is within the limits of the configuration, the detector angle closes the scattering triangle of the lattice in the sample file on the side the configuration says, monochromator and analyzer stand at the Bragg angles of the crystals named there, the positions for an elastic reflection lead back to the reflection, and the resolution is calculated from the divergences and mosaics of the files (defaults where nothing is given). Limits for some motors leave the built-in limits of the others in force.", "quantifier": "for every configuration, sample file, previous state of the spectrometer, reflection, energy transfer and energy", "why_tests_cant": "The tests load one configuration per instrument and check single numbers; which defaults survive a partial configuration depends on combinations of missing entries.", "anchors": ["src/tavi/instrument/tas_base.py:37-118", "src/tavi/instrument/components/component_base.py:19-28", "src/tavi/instrument/components/goni.py:30-48", "src/tavi/instrument/components/goni.py:238-248", "src/tavi/instrument/tas.py:96-161"]}
{"id": "C93", "title": "The curve of a fit is the sum of the components that were fitted, with the parameters that were found", "statement": "The result of a fit object is always that of the last fit that succeeded; adding components, selecting a range or a fit that fails does not change it. Before any fit has succeeded the curve drawn is the sum of all components, each with the guess made for its own shape from the selected points and named with its own prefix; afterwards it is the sum of the components that were fitted with the fitted parameters, at the points asked for or else at the selected points. The curves of the single components add up to the curve of the fit, have the formats they were given, and a format list of the wrong length adds nothing. A resolution bar is put at the fitted centre of the first signal, half of it above the rest. Fits with a resolution draw every component convolved with the resolution of the point, and the deconvolved curve is the sum of all components without convolution.", "quantifier": "for every history of adding components, selecting ranges and fitting, with failures, every set of points, every shape, guess and minimiser", "why_tests_cant": "The tests fit one or two data sets; that no failure or later change spoils the result, and that every curve has its own parameters, is a statement about all histories.", "anchors": ["src/tavi/data/fit.py:145-206", "src/tavi/data/convfit.py:95-199", "src/tavi/plotter.py:71-160"]}
{"id": "C94", "title": "What is shown of a loaded scan is what its file says", "statement": "Asked for the data of a scan that was loaded from a SPICE file, the scan gives the numbers of the columns of the file: positions and counts of its default axes or of the axes asked for, with the square roots of the counts as errors, or counts per channel times the value asked for, or the bins of a grid or of a tolerance filled with the points of the file. The labels give the axis, per how much of which channel, the number of the scan and the title in the header. A polarised scan is shown as one curve for each state, each per its own channel, labelled with its state. A group of scans shows the points of all its files together, under a title with their numbers. The plot draws every curve with its errors, its own colour and its label.", "quantifier": "for every SPICE file that could be loaded, every choice of axes, normalisation and rebinning, every number of states and every group of scans", "why_tests_cant": "The tests plot a few recorded scans and compare one or two arrays; that the labels and numbers belong together for every file and every request is a statement about all files.", "anchors": ["src/tavi/data/scan.py:261-370", "src/tavi/data/scan_data.py:18-60", "src/tavi/data/scan_group.py:61-123"]}
{"id": "C95", "title": "A map of loaded scans shows what their files say", "statement": "A group of scans loaded from SPICE files shows a map of the points of all the files: without a grid one row for each scan, point by point, with a grid the mean counts of the points in each cell, and with a normalisation the counts per channel times the value asked for. A cut through (h, k, l, E) shows exactly the points of the files inside both intervals, at their coefficients along the vectors, whichever place the energy is given. The axes are labelled with the names or vectors asked for, each vector with a letter of its own, the label of the counts names the column and tells per how much of which channel, the title gives the numbers of the scans, or the two axes that were integrated with their intervals. Scans counted up to different values or channels are combined only after normalisation, and without axes only if their default axes agree.", "quantifier": "for every group of loaded files, every choice of columns, vectors, intervals, grids and normalisation, and every place of the energy", "why_tests_cant": "The tests look at one or two maps of recorded scans and hardly at labels; that cells, axes and title belong together for every order of the axes and every group is a statement about all of them.", "anchors": ["src/tavi/data/scan_group.py:41-59", "src/tavi/data/scan_group.py:125-204", "src/tavi/data/scan_group.py:238-378", "src/tavi/data/scan_data.py:266-288"]}
{"id": "C96", "title": "A fit of a loaded scan fits the points of its file", "statement": "A fit made from the data of a scan that was loaded from a SPICE file works on the points of the file: positions and counts of the chosen columns, with the square roots of the counts as errors, or the counts per channel. After any history of added components, ranges and fits, failures included, it works on exactly the points inside all the ranges given so far, in the order of the file; the minimiser was given the points, errors and components there were at the last fit that succeeded; and the curve drawn has its values at the points selected now. The constructor takes nothing, one name or a tuple of names for signals and for backgrounds, and raises unless all have a model.", "quantifier": "for every loaded file, every choice of columns, normalisation, range, signals and backgrounds, and every history", "why_tests_cant": "Fits in the tests use a few recorded scans and look at the result only; that no step between the file and the minimiser drops, moves or doubles a point is a statement about all files and histories.", "anchors": ["src/tavi/data/fit.py:37-125", "src/tavi/data/fit.py:193-206", "src/tavi/data/convfit.py:53-93", "src/tavi/data/scan.py:get_data", "src/tavi/plotter.py:83-100"]}
{"id": "C97", "title": "The axis del_q measures momentum from the middle point", "statement": "Over the axis del_q a scan whose |Q| changes by more than 1.1e-4 shows |Q| minus that of its middle point (the earlier of two), and a rocking scan over del_q(angle) shows the arc from the middle point: the angle from there in radians times the mean |Q|, which is never shorter than the distance between the two Q vectors and exceeds it by at most |Q|*delta^3/24. |Q| is the recorded column, or the length of ki-kf from the incident energy, the final energy (or incident minus transfer) and the scattering angle (s2 or 2theta). Without a named angle s1 is used.", "quantifier": "for every scan, every loaded file, every number of points and every text of the axis", "why_tests_cant": "One recorded rocking scan cannot show the origin for even and odd numbers of points, the choice between the two kinds of scans, all texts of the axis, or the sources of |Q|.", "anchors": ["src/tavi/data/scan.py:223-259", "src/tavi/data/scan.py:get_data", "src/tavi/utilities.py:get_side_from_triangle"]}
{"id": "C98", "title": "A convolution fit shows the signal smeared with the resolution", "statement": "Each point of the curve of a convolution fit is the signal function smeared with a Gaussian of the area and the full width at half maximum given for that point: the error of the sum is at most |r0|*(0.003*M + 0.0041*sigma*L) for a signal bounded by M with slopes up to L. A constant is multiplied by the area within 0.3 per cent; a Gaussian peak stays a Gaussian peak at its place, its area multiplied by that of the resolution and the squares of the widths added.", "quantifier": "for every bounded signal with bounded slopes, every list of points, every area and every positive width of the resolution", "why_tests_cant": "Tests compare a handful of curves with stored ones; that a sum is an integral within a bound, for all signals and widths, is an analytic statement.", "anchors": ["src/tavi/data/convfit.py:11-34", "src/tavi/data/convfit.py:41-44"]}
{"id": "C99", "title": "Convolutions in a pool of processes are those of the points, in order", "statement": "calculate returns one number per point, in the order of the points: the one convolution gives for it, and nan for points without resolution parameters, whichever process does which point, in whatever order they finish, whatever meshes the processes have cached before. If points raise, the exception of the first of them is raised, although others may have failed earlier or have been cancelled.", "quantifier": "for every list of points, every model, every number of processes, every schedule and all states of the caches", "why_tests_cant": "Tests run one schedule; that caches and scheduling never matter is a statement about all interleavings.", "anchors": ["src/tavi/instrument/resolution/convolution.py:78-96", "src/tavi/instrument/resolution/convolution.py:218-223"]}
