{
 "C01": "all candidate lists, usage tables and numbers of cameras; numpy.sort assumed to return some ordering by the key (correlation) field",
 "C02": "same model as C01; ties may be ordered in any way",
 "C03": "four cameras; theorem C03_empty_camera_raises records that a camera without targets makes the call raise",
 "C04": "soundness unconditional, completeness unless the scratch array filled up; well-formedness of adjacency lists proved from match_pairs",
 "C05": "refuted as stated: stale zero slots of the 40-slot candidate row act as links to target 0 (C05_refuted); proved: soundness up to that, and completeness",
 "C06": "exact characterisation of the pairs found",
 "C07": "refuted as stated: the unused zero-filled tail of the scratch array is sorted and taken too, so a spurious (0,0,0,0) tuple can be reported (C07_spurious_zero_tuple); proved: every reported tuple is found or is this zero tuple",
 "C08": "all target lists and segments; real arithmetic",
 "C09": "proved for fewer than 8190 targets; refuted at 8190 (the start-point search can overshoot by more than 12)",
 "C10": "real arithmetic",
 "C100": "Full for what is stated. The bounds at the near depth limit are those of C52 (refuted there for a glass plane that is not at z = 0). The entered volume has no y limits; the run starts from y = 0 (class default) and widens.",
 "C101": "False: the constructor writes the computed bounds into the shared VolumePar. C101_changes_partial says exactly what can change; C101_limits_refuted: for every set-up with a falling lower depth limit the parameters change and the depth limit that epi_mm uses is another one afterwards.",
 "C102": "True if all targets are found and selected (C102_all_used_partial, C102_array_partial). False otherwise: orient writes rows for the used points only, full_calibration reads row 2*ix for target ix, so the rows are shifted and the last ones are changes of parameters or zeros (C102_rows_partial says exactly what every row is, C102_shift_refuted that it is not the target's residual). `used` has an entry for every target, used or not. The design matrix rows are those of the model of orient; sigmabeta is not modelled.",
 "C103": "Partial: no lens distortion and one refractive index (dist_to_flat stops at a tolerance; C27, C64), fewer than 8190 targets per camera sorted by y (C13); a particle for which nothing at all is near is skipped (C94). With a lens and a window, up to the measurement error: C136_added.",
 "C104": "True for one step, with one or two cameras that show a target each, at least one correspondence per frame, and particles that can be tracked whatever is added (C104_step_returns_partial). False for the steps after one that adds: add_particle overwrites the correspondences of particles 0 and 1 (C65), and the next step raises IndexError for particle 0 whenever the target number written there does not exist in the second camera (C104_run_refuted).",
 "C105": "C77 with the real searches, cameras and geometry, and a specification that does not mention the tracking code. As in C79, which displacement is tested depends on the reason, and for new positions the difference is taken backwards. For the last step the frame after next is the one of C78.",
 "C106": "True for the reader of sortgrid.py (C106_points_partial), which is all or nothing (C106_all_or_none). False across readers: a block file the calibration reads is refused by the manual orientation with ValueError (it wants the number of points in the first line), and a file with that line makes the calibration reader raise IndexError (C106_manual_refuted, C106_counted_refuted).",
 "C107": "Proved with line numbers in place of point numbers, for at least four points (C107_points_partial). Numbers in the block file are not looked at (C107_numbers_refuted, C107_swapped_refuted), and a point whose line is missing is put at the origin without a word (C107_short_refuted).",
 "C108": "Proved by an ownership invariant over all histories: getters return what was last set (C108_set_get_partial), defaults, independence of objects, setters accept arrays of the right length, increments (C108_increment). False: increment_attribute of an angle leaves the old matrix until update_rotation_matrix (C108_stale_refuted; true otherwise, C108_rotation_partial, C108_rotation_after_update); set_rotation_matrix always raises; the arrays of get_radial_distortion, get_decentering, get_affine and get_glass_vec are the object itself (C108_snapshot_refuted, C108_view_refuted; the other four getters copy: C108_snapshot_partial).",
 "C109": "End to end in air: C69 (epipolar segment contains the image) + C09 (search is complete) give the six links with distance 0, so the correlation is infinite; C04 and C02 (greedy) give the quadruplet, or one of equal correlation that shares a target, all of whose distances are then 0. C109_no_overflow gives a condition in target counts; C109_position with C60; C109_returns and C109_raises: the call returns exactly if the epipolar lines can be computed. Example: four cameras in a row, one particle.",
 "C11": "any list and any linear order",
 "C110": "C110_distribution: for all valid data for which the epipolar lines can be computed. C110_particle_listed combines it with C109. The documentation says that the third result is the total number of targets; it is the number of entries.",
 "C111": "C46 (relabelling), C23 and C66 (pixels to flat coordinates), C109/C110, C60. Hypotheses are stated about detections in the order of the user, not the sorted coordinates. C111_inside: with default lens parameters, inside the sensor means inside the picture. Example: four cameras in a row.",
 "C112": "True with the default lens parameters (C112_found_partial). False in general (C112_sensor_refuted): find_candidate corrects the corner after it has subtracted the principal point, dist_to_flat corrects first and subtracts then; with x scale 2 and xh = 10 a target in the picture is outside the sensor and not found.",
 "C113": "C46, C23, C66, C26, C29 and C36 composed. C113_dispatch: point_positions without calibrations raises ValueError, with two or more it is multi_cam_point_positions, whose result is wrong for other reasons (C36).",
 "C114": "C111 per frame (one target per picture makes the search unambiguous; the result has exactly one entry) and C98 over the frames. How results are recorded as a frame is not code of the repository; it is the relation Recorded of the specification. Example: four cameras in a row, frames 0 to 5.",
 "C115": "False for the first target in the order by x (number 0): unused slots of the candidate lists hold number 0, so that the search reports a quadruplet of the targets 0 (C07) which takes them (C115_refuted). Proved for all other numbers, and without uniqueness: reported or taken by a result at least as exact (C115_reported_or_taken). C115_room: fewer than 40000 possible triplets are room enough.",
 "C116": "As C115. C116_reported_or_taken needs only that no other target of the second camera fits the first.",
 "C117": "False for a rotation of a buffer that is not full: rotations turn the storage without regard to head and size, so that frames come out in the wrong order and frames that were never pushed come out (C117_rotation_refuted, for every buffer with at least three places). Proved for all histories in which rotations happen on a full buffer; a FrameBuf starts full.",
 "C118": "With equal numbers the positions do not come back (example).",
 "C119": "C43 for the files, C100 for the volume. A missing tracking file is a TypeError (C43). Numbers are rational (no rounding).",
 "C12": "images up to 10^19 pixels (1e20 is the code's initial distance)",
 "C120": "False for every positive half width: the call raises a ValueError, because slices of two rows and of one row are added (C120_blur_refuted). With half width 0 the image is returned unchanged. Every schedule of the parallel loop gives the result (or exception) of the sequential loop (C120_any_schedule, for pictures wider than the window). The mask is proved.",
 "C121": "Composition of C37, C38 and C71 with the triangle inequality: the missing condition of C71 follows from the distances.",
 "C122": "Without distortion only: with it C63_refuted applies. The camera must carry the rotation matrix of its angles (c.upd = c), as every read or updated calibration does.",
 "C123": "Partial: without adjustment of the glass. With it the columns of the glass are refuted (C123_glass_refuted: from the second pass the image with the glass of the beginning is subtracted from the image with the present one) and its changes are lost (C61). The solver (scipy/numpy least squares) is an oracle assumed to minimise; exists_leastSquares shows there is one. raw_orient is proved in full.",
 "C124": "Partial: without distortion at the present calibration. With an x scale of 2 the entry for the x scale is twice the derivative (C124_scale_refuted); with a shear the second entry for xh is sin(shear), though that coordinate does not depend on xh (C124_shear_refuted): the code evaluates the columns at the distorted image point.",
 "C125": "Whatever the particles do. The step itself need not be within the limits (C79): when a candidate is confirmed in the frame after next, only the step after it is checked. C125_longest_step gives B as the diagonal of the limits. With adding on an added position is only compared with the expected one, so links may grow from frame to frame.",
 "C126": "If the run returns (with three or four cameras it may raise, C99). C126_followed is for any calibration (also refracting) with the visibility stated through the search windows; C126_followed_in_air states it through the images only. The example runs two particles through six frames.",
 "C128": "C128_position_error for any media, stated through the rays; C128_measured for one refractive index, stated through the image positions; exact arithmetic.",
 "C129": "C129_spots (any discontinuity, spots that hold together), C129_connected (sufficient condition), C129_one_spot, C129_inside for every picture. Exact rational centre.",
 "C13": "proved for fewer than 8190 targets, also for candsearch_in_pix_rest; refuted at 8190",
 "C130": "C130_followed_on_files, C130_run_on_files_returns. Positions are exact reals in memory, printed with %.3f; target numbers below -1 in files are read as -1. The example (Props/FileTrackEx.lean) evaluates both theorems on the texts of 15 files.",
 "C131": "Proved at the granularity of files, for files with three and four decimals. Refuted for files with more decimals (C131_decimals_refuted: after the restart the rounded position is read and a trajectory is lost) and inside the writing of a file (C131_emptied_file_refuted: the file is emptied first; the run cannot be started again).",
 "C132": "Proved for runs that return (C130_run_on_files_returns and C99 say when they do).",
 "C133": "C133_condition_needed is the witness that the condition on the decimals cannot be dropped for the second run.",
 "C134": "True for layers of one index with the number of layers stated (C134_stack_accuracy_partial; C134_one_window_partial: the image is that through one window of the total thickness, no table). False otherwise: set_layers leaves the number of layers (C134_number_refuted), layers on default parameters whose first has index 1 are not seen at all (C134_unseen_refuted), the index of all layers but the first is ignored (C134_index_ignored_refuted, C134_index_refuted: 75.33 mm for 80 mm), and the line of sight ignores all layers but the first (C134_sight_ignores_refuted, C134_sight_refuted: it misses the point by 4.67 mm).",
 "C135": "One plate, no look-up table, real arithmetic, undistorted coordinates. C135_sight: the line of sight passes the point within 0.001 times the ratio of the way behind the outer face to the way in front (as long as 40 passes are enough). C135_position: position within d (1 + 2/s) and ray distance at most 2 d, for cameras of that error at most d and lines crossing with sine at least s.",
 "C136": "One plate, no look-up table, real arithmetic; the lens has radial terms only and displaces by at most a 24th of the radius, or has any terms and is weak (C147). C136_sight, C136_position: undistorted images measured within ε. C136_lens, C136_pixels: what the lens correction and the pixel size make of a pixel error. C136_new_position: assess_new_position followed by point_position, for targets sorted by y and fewer than 8190 per camera. C136_added: the tracking step, when something else is near (otherwise the code skips the particle, C94).",
 "C137": "Links of the other particles are arbitrary, but mutual. The last two frames must be linked. The first frame of the sequence is updated in memory but written under the number of the second (C21, C84), so it is left out. That such runs return is C138.",
 "C138": "Proved for one or two cameras, a target in every camera, target numbers that are numbers of particles, and positions at which all angles exist. Refuted beyond: unlike the forward loop (track.py:853), the backward loop (track.py:1172) does not check that a target number is one of a particle: IndexError (C138_number_refuted); three cameras: list without end mark (C138_no_end_refuted, as in C99). Frames in which the first one has links further back are excluded.",
 "C139": "False for all objects: copy binds its argument to a new object and returns nothing, so that the object passed in keeps its values (C139_nothing_copied_refuted; C139_refuted is a case). Proved: copy returns and disturbs nothing. The look-up table is not modelled.",
 "C14": "refuted: an empty result slot is -1 but the caller tests for -999, so targets[-1] is registered (C14_refuted), and a camera without targets raises (C14_refuted_empty); proved: nothing else is ever registered",
 "C140": "Proved for lists the object made itself and that were never handed out (C140_defaults_partial, C140_read_partial, C140_names_partial), and for the moment after the setter (C140_set_get). False otherwise: set_layers keeps the lists (C140_layers_shared_refuted), and set_img_base_name writes into the list it was made with, so that a SequencePar made with the names of a ControlPar renames its images (C140_names_shared_refuted).",
 "C141": "Numbers are exact (no NaN). False: a target compared with an object of another kind raises AttributeError (C141_foreign_refuted); vec_cmp also uses the default relative tolerance 1e-5 of numpy, so that positions further apart than any given multiple of the tolerance compare equal and the order of the arguments matters (C141_tolerance_refuted, C141_symmetry_refuted); reset_links keeps registered candidates (C141_reset_refuted).",
 "C142": "sort_target_y is proved, and that a search in the sorted list finds a nearest target in the window (fewer than 8190 targets, C13). False for detected targets as they are, which nothing in the package sorts: they come in the order of their brightest rows (C142_detection_refuted), and the search then misses a target in the middle of its window (C142_missed_refuted).",
 "C143": "Exact real arithmetic. There must be no overflow of the scratch array, fewer than 8190 coordinates per camera, sorted by x.",
 "C144": "The last sentence is proved for targets whose number in the order by x is not 0; it is false for number 0 (C115_refuted, C116_refuted), because unused slots of the adjacency lists and of the scratch array name target 0. For the same reason the score of a competing triplet is only known if it does not end in target 0.",
 "C145": "Exact real arithmetic; fewer than 8190 coordinates per camera, sorted by x.",
 "C146": "Partial because the program does not meet it fully: a targets file that is cut inside its last number is read with another particle number (C146_number_refuted), and a correspondence file that is cut after its header (or after any line) is read without an exception, with particles at the origin in place of the missing ones (C146_particles_lost_refuted, C146_cut_paths); the old positions are lost then. Files that were closed are assumed to be on the disk, and of an open file a beginning of what was written. Cuts inside a line of the path files are not covered by C146_cut_paths.",
 "C147": "Real arithmetic. Complements C24, whose exact round trip fails for shear and decentering (C24_shear_refuted, C24_decentering_refuted): here is how much remains. C147_position: any number of cameras, one plate. C136_new_position and C136_added admit these lenses too (LensWithin).",
 "C148": "Real arithmetic. Rows: any calibration with or without a look-up table. C148_recovered: one plate, no look-up table, at least two cameras; the rows are triangulated one by one, because multi_cam_point_positions returns the last position only (C36). The way back uses the scalar pixel_to_metric, because arr_pixel_to_metric refuses float arrays (C23).",
 "C149": "Real arithmetic; no lens distortion, no layers, adding off, for the tracking. If the run returns; C99_run_four_partial says when it does, and the example (two particles, four cameras, noisy pictures) uses both. Frames are recorded from the results of py_correspondences by the specification Recorded (the program leaves this to its user).",
 "C15": "refuted: record swap on a numpy recarray copies (views), so candidates are lost or repeated; proved: order, exact camera counts, maximality of the head, meaning of the count, and that a particle registered by as many cameras as any other is not lost",
 "C150": "Every operation is followed by a rounding of which only the error is known (relative 2^-53, absolute 2^-1075 below the normal range; sines and cosines: one unit in the last place). Rounding to the nearest double is shown to be one. Functions that numba compiles with fastmath, which may rearrange operations, are not covered. skew_midpoint: the rays are given numbers (the errors made in tracing them are not included); np.dot and np.linalg.norm are any functions with the usual error bounds, met by the plain sum with roundings. point_position: likewise, the rays are given numbers; cameras that do not see the particle are allowed. Projection: the collinearity equations with the matrix computed from the angles; the position behind refraction is a given number. weighted_dumbbell_precision: the positions are given numbers, with the errors that the theorem on point_position allows.",
 "C151": "Exact arithmetic: proved, including the converse (NaN under total reflection). Double precision: refuted, by the central ray of a camera that looks at the window at a right angle, both turned by arctan(5/12): the cosine is computed as -1.0000000000000002 and np.sqrt(1 - n**2) is NaN. The dot products are taken as summed from left to right with a rounding after each operation, and vec / norm as a division; another order of operations makes other orientations fail. The angle in the witness is the exact one; the sine and cosine are the nearest doubles. In double precision also proved (C151_oblique_partial), for any order of summation: the result is numbers for every ray that meets the window at 1e-4 or more from the normal and is not within 2 % of total reflection, for camera matrices as near to a rotation as C150 says and indices between 1 and 2; what is missing are the rays in between, some of which fail.",
 "C152": "Exact arithmetic: proved. Double precision: refuted for a particle that goes straight on but faster, (0,0,0) predicted at (1,1,1) and found at (2,2,2): the cosine is computed as 1.0000000000000002, the angle is NaN, and the candidate is rejected although its acceleration is below the limit. Proved: angles that differ from 0 and 200 gon by more than 0.0001 gon are numbers, with an error below 0.000001 gon; accelerations have an error below 10^-9 mm. The refutation takes the operations in the order written; compiled with fastmath they may be rearranged, and then other positions fail. The positive theorem holds for any order of the sums within the stated precision of np.sum and np.linalg.norm.",
 "C153": "Proved if the result is another array than the two factors, for any addition and multiplication (rounded or not), with termination. Refuted if the result is stored into a factor: the result is wrong for some schedules and right for others. Indices are within the arrays; the two reads of one round are one step.",
 "C154": "Proved for all pairs of setters and getters, except that a setter that raises may already have changed one attribute: set_image_size and set_pixel_size with a tuple that is too short (C154_short_size_refuted). Attribute values are abstract; setters of lists are in C140.",
 "C155": "Copying is right if the slices do not overlap or the destination begins before the source; if the destination begins within the source it is wrong (C155_overlap_refuted, C155_moved_up_refuted: moved up by one place, the first record is copied all the way). The package itself does not call copy_foundpix_array. Arrays shorter than the given length (IndexError) are not modelled.",
 "C16": "linking phase for all candidate lists; whole forward runs for every geometry (all geometric functions are unconstrained parameters), every disk contents without links, every length",
 "C17": "all candidate lists; decision values in any linear order (no NaN)",
 "C18": "refuted: a stolen link is counted twice; proved: never below, exact without conflicts",
 "C19": "any buffer length and any number of rotations",
 "C20": "every range and every geometry; frame numbers are a ghost field of the frame",
 "C21": "refuted for every completed backward run: frame first is written to the file of first+1; proved: all other writes are right",
 "C22": "acceptance test of the phase is an arbitrary function; frames of any size",
 "C23": "Real arithmetic; pixel sizes non-zero. False of arr_pixel_to_metric for arrays that are not of type int32, such as the result of arr_metric_to_pixel: its numba signature accepts int32 only, and the call raises TypeError (C23_array_float_refuted). That a numba function with an explicit signature refuses other array types is part of the trusted reading of numba.",
 "C24": "refuted with decentering (C24_decentering_refuted: y line of distort uses the overwritten x) and with shear plus radial terms (C24_shear_refuted: correction uses the iterate y instead of y/cos); proved: exact inverse without radial/decentering terms, identity for defaults, exact residual at a converged point, and quantitative round trips for radial distortion within the 1/24 bound",
 "C25": "any angles",
 "C26": "one glass layer as in the code (further layers are ignored by it); hypotheses: camera direction not parallel to the plate, no total reflection",
 "C27": "any number of layers for the factor; the projection uses the zero table that flat_image_coord passes on, so the table's values never matter (C27_table_ignored)",
 "C28": "any non-zero glass vector",
 "C29": "real arithmetic; move_along_ray, epi_mm_2D and epi_mm; also the depth limits of the volume and the line of sight without refraction",
 "C30": "non-parallel rays; real arithmetic; parallel rays give NaN in the code (none in the model)",
 "C31": "any number of cameras; fewer than two usable cameras give NaN/None as modelled (C31_no_pair)",
 "C32": "formula proved for all batches; zero iff all errors and all length errors vanish; monotone in the weight",
 "C33": "projection is an arbitrary function of the camera, so it holds for img_coord with any media",
 "C34": "the least-squares solver is an arbitrary function of the system; projections arbitrary; sigmabeta and residual values are not modelled",
 "C35": "refuted: orient and raw_orient work on the caller's calibration and never restore it (solver is an oracle; witness solver keeps answering the same correction). Proved: failure happens exactly after 80 passes without convergence and then the exterior orientation has moved by the sum of the corrections; success means the last correction was below the limit",
 "C36": "refuted: multi_cam_point_positions rebinds its result array to a single position, so only the last point is returned (C36_refuted); proved what it returns, and that the single-camera version is right",
 "C37": "Exact reals; search radius up to 1e19 (the code's initial best distance is 1e20).",
 "C38": "For every projection function (so every calibration, with failure modelled), every detection list and reference list; radii up to 1e19. Entries are aliases of the detections as in Python: a later claim changes the number seen through an earlier entry.",
 "C39": "All images, regions and limits, threshold >= 0. Grey values are integers, the centre an exact rational.",
 "C40": "Threshold >= 0: targ_rec either returns or overflows its 20480 entry wait list, and that needs a connected set of more than 20480 pixels above the threshold. C40_negative_threshold_refuted: with threshold -1 the flood fill never ends.",
 "C41": "any target list, any disk contents; floats are exact rationals printed with ties to even; partial: base names with a % format, no #, positive frame numbers, at least one target; refuted otherwise: an empty list (np.savetxt raises ValueError and the file is left empty), num_targets above the list length, old-style names, frame 0",
 "C42": "any particle list and disk; partial: a priority base name is needed (C42_refuted: TypeError without one)",
 "C43": "readers of the nine parameter files: result iff every value is on its documented line; write_target_par/read round trip for four thresholds, refuted for any other number; missing files",
 "C44": "refuted: the writer writes True/False, the reader calls int() on it; the reader's meaning is proved (C44_reader)",
 "C45": "holds for layers of equal length; refuted: from_dict changes its argument, a second call on the same dictionary raises TypeError; c.to_dict() without argument is a TypeError, to_dict being a class method (not modelled)",
 "C46": "For all target lists and calibrations; match_coords is a sorted rearrangement of one row per target and get_by_pnrs finds the rows again.",
 "C47": "Acceleration and angle formula for all real inputs; the angle is exact for non-degenerate displacements, and the special cases for a particle at rest / starting / stopping are refuted with witnesses (0 resp. 100 gon instead of an undefined angle).",
 "C48": "Linear prediction is exact for uniform motion, its error equals the second difference, and a link needs every velocity component strictly inside the limits.",
 "C49": "any rotation function; partial because Calibration.write without added parameter file raises IOError after writing and read_ori returns the default calibration; C49_rotation bounds the change of the matrix over the reals",
 "C50": "C50_recorded_partial: for a touch list with at least four places. C50_refuted: the peaks made by the package have an empty list, so the first touch event is an IndexError.",
 "C51": "Proved for every filter_hp, the filter from a file included (C51_filter, C51_error; what C makes of a sum that does not fit into 8 bits is an arbitrary function). C51_highpass_refuted: image and low-pass are combined with a bitwise or, so no pixel gets darker and the background is never removed. C51_preprocess: preprocess_image cannot name a filter file, so filter_hp = 2 has no effect there. scipy.ndimage.uniform_filter and convolve are modelled as their C code works on uint8 (each mean cut to an integer). Partial because of the refuted part only.",
 "C52": "refuted in general: the lower plane is intersected at z_min + 2*X.z because of a sign (C52_refuted, a camera with glass at z = 5); proved: z limits, upper plane, inclusion of the given bounds, and the full claim for rays crossing the glass at z = 0",
 "C53": "refuted at the edges: IndexError in the outermost cell of the top layer, extrapolation just below the origin, wrap to the next radial line in the top layer; proved: exact bilinear interpolation and bounds inside, 0 outside",
 "C54": "any linear order",
 "C55": "any number of slots; POSI = 80 in the code (C55_particle)",
 "C56": "four cameras: no exception when the targets fit; refuted for 2 and 3 cameras: always raises",
 "C57": "refuted (C57_refuted): three cameras, two particles; proved: terminated unless every record is used",
 "C58": "one plate, 0 < n1 <= n2, n3; real arithmetic",
 "C59": "one plate, camera in front of the glass and looking towards it, empty look-up table",
 "C60": "one refractive index (n1=n2=n3), cameras looking at the point; any number of cameras and usage pattern",
 "C61": "refuted: every pass resets the glass vector to its initial value, so only the last correction survives; proved exactly that",
 "C62": "refuted (glass facing x); proved when the first two components of the glass vector agree (includes the default)",
 "C63": "raw_orient: proved for cameras without distortion (it resets distortion first). orient: proved without distortion; refuted with distortion (corrected detections are compared with distorted projections)",
 "C64": "Corners for every projection function; the whole box for air without distortion. The refracting case is not covered.",
 "C65": "False of the code: ref_corres is the whole correspondence table, so the first num_cams particles lose their correspondences. Proved: what the call does instead, with and without candidates, with a witness, and that the first particle of a frame cannot be added with two or more cameras (IndexError).",
 "C66": "refuted for p1 != 0 (y is distorted with the already distorted x, C66_decentering_refuted); proved for p1 = 0 and all other parameters, media and tables",
 "C67": "solver and projection arbitrary; the rows of the system are characterised exactly",
 "C68": "refuted: a negative lower limit is rounded upwards, and a second init keeps stale values; proved: values of a fresh table, look-up at raster points, and the range covered",
 "C69": "air (n = 1) with any glass; depth limits as Zmin/Zmax interpolate them at the glass crossing point",
 "C70": "all media for the sampling; own-camera consistency without refraction and lens distortion",
 "C71": "Proved when different references have different nearest detections; C71_refuted shows two references that share one detection: the first entry then carries the number of the second reference.",
 "C72": "C72_refuted: for every image, peak_fit raises IndexError as soon as there is a peak, and returns [] otherwise. The unreachable rest of the function is an arbitrary parameter of the model.",
 "C73": "Proved when the control parameters state at most the real image size and threshold >= 0 (C73_rejects_partial, C73_region_partial); C73_refuted: with a larger stated width and an explicit sub-range a column outside the image is read.",
 "C74": "dictionaries modelled, YAML text itself trusted; refuted for ControlPar: mm stays a dictionary",
 "C75": "compare_mm_np only looks at the first layer. The four comparisons by annotated attributes are proved to be equality (numbers are rationals: no NaN); only compare_mm_np, and compare_control_par through it, fail.",
 "C76": "compare_calibration decides equality of everything except the distortion parameters, which it does not look at (C76_distortion_refuted); C76_decides says exactly what it decides, with the tolerance for the matrix.",
 "C77": "Proved for one step on any frames without earlier links (C77_links_have_reasons) and for the frames a run writes (C77_run). Geometry is a parameter (C105 has the real one); new positions are found in the images of the frames as read, with targets used up by particles added before; for the last step of a run the frame after next is the one of C78.",
 "C78": "Partial: proved for all steps but the last. C78_last_step_refuted: in every run of three or more steps the last step uses frame n-2 in place of n+2; C78_link_from_the_past_refuted is a run where a link exists only because of that.",
 "C79": "Partial: some displacement of the reason is within the limits. C79_refuted: the displacement of a link with a continuation is never tested (C79_cameras_refuted: the same with two cameras, limits 2 along the x axis, a run links a step of 2.6); C79_sign_refuted: for new particles the difference is taken the wrong way round.",
 "C80": "Partial: fewer than 8190 targets sorted by y (C13). C80_marker_refuted: for every camera without a target the index is -1, not PT_UNUSED, and add_particle gives the new number to the last target of the camera, in every frame. Projections and distortion are parameters.",
 "C81": "Partial: near or last in the list of the camera. C81_refuted: a particle far from the search rectangle, last in two lists, is offered. C81_search_sane discharges the assumption on the search in C16, C18, C20, C77, C78 for the real search; C81_run_mutual is C16 with it.",
 "C82": "",
 "C83": "Refuted for all inputs: trackback_c checks Ymin < y < Ymax with Ymin = Ymax = 0, so no position is ever inside the volume and nothing is ever added; positions, targets and correspondences are the same after every step.",
 "C84": "Proved for every frame but the first one of the sequence: the updated first frame is consistent with the rest, but it is written under the number of the second one (C21), which C84_refuted shows on a run.",
 "C85": "Proved if every camera has a target. With an empty camera write raises ValueError and leaves an empty targets file, so that the frame cannot be read any more: C85_empty_camera_refuted, for every such frame.",
 "C86": "File names of targets of different cameras must differ for all positive frame numbers, which the caller decides with the format; the names of path files, and of different frames of one camera, are proved to differ.",
 "C87": "For target numbers that exist (or -1); the position arrays are modelled as lists of rows, NaN as none.",
 "C88": "For frame numbers from 1 up and file names of cameras that differ (C88_files_isolated, C88_memory_isolated show that the real file formats meet the hypotheses of the general theorems).",
 "C89": "The write that raises counts as done (its files may be incomplete).",
 "C90": "Runs of at least two frames, frame numbers from 1 up; the computing part is that of C76/C77 with an abstract geometry whose search returns numbers of existing targets.",
 "C91": "Proved from frame first + 2 up. Refuted for the first two frames (C91_first_frames_refuted): the files of frame first + 1 contain the particles of frame first afterwards, and frame first does not get its new links.",
 "C92": "With C82 this determines the links of a backward step. A particle that loses a conflict does not get its second best candidate (example beside the theorem).",
 "C93": "The next frames are taken as they are when the search looks at them (AtTurn: the step run over the particles before; AtCandidate: over the candidates before); with adding off they are the frames as read.",
 "C94": "Holds if the search list of the next frame has an entry besides the end mark. If nothing at all is near, the loop goes on to the next particle before the section that adds (track.py:837-839), so that the path ends: C94_nothing_near_skipped_partial for every step, C94_lost_added_refuted with a witness.",
 "C95": "Fewer than 8190 targets per camera and images up to 1e19 pixels (bounds of the search, C13).",
 "C96": "Over the real numbers. C96_uniform_motion_tracked: any calibrations, with the search windows assumed to surround the projection; C96_uniform_motion_in_air: no such assumption for cameras in air.",
 "C97": "Over the real numbers; two to four cameras, adding off.",
 "C98": "Over the real numbers, adding off. Target positions are arbitrary: a camera that finds nothing registers its last target in the empty slots (C14), which is the only one here.",
 "C99": "True for one or two cameras with adding off (C99_step_returns_partial, C99_run_returns_partial; with adding: C104): the candidate list then has at most 7 candidates and an end mark, so that at most 56 of 80 candidate places are used. False with three cameras (all 12 records used: no end mark, IndexError), with four cameras and two particles (196 candidates for 80 places, IndexError), for a camera that shows no target in a frame (IndexError, for every arrangement), and for a particle that rests for one frame and then moves (ZeroDivisionError, for every set-up). C99_run_four_partial: with two to four cameras the run returns if the last targets of all cameras belong to one particle in every frame and no search window holds more than three targets."
}