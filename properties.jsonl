{"id": "C01", "title": "Best-candidate selection never reuses a target", "statement": "Among the tuples returned by take_best_candidates, no two share a target in the same camera, and none uses a target that was already marked used when the call was made; after the call exactly the targets of the returned tuples have been newly marked used.", "quantifier": "every candidate list (any length, any correlation values incl. ties), every number of cameras, every initial target-usage table", "why_tests_cant": "Depends on arbitrary conflict graphs between candidates; tests sample a few", "anchors": ["openptv_python/correspondences.py:take_best_candidates"]}
{"id": "C02", "title": "Best-candidate selection is greedy-maximal in correlation order", "statement": "take_best_candidates returns only tuples from its input, in non-increasing order of correlation; every input tuple that was not returned shares a target with one already marked used or with a returned tuple of at least as high correlation.", "quantifier": "every candidate list and every initial usage table", "why_tests_cant": "Global optimality-style statement over all conflict patterns", "anchors": ["openptv_python/correspondences.py:take_best_candidates"]}
{"id": "C03", "title": "A detected target belongs to at most one reported correspondence", "statement": "After correspondences() has run its quadruplet, triplet and pair stages on four cameras, no target of any camera occurs in two reported n-tuples, whichever stage each came from, and every target's correspondence number (tnr) points at the n-tuple that contains it.", "quantifier": "every set of pairwise candidate lists, thresholds and target counts", "why_tests_cant": "Interplay of three stages sharing one usage table, over unbounded data", "anchors": ["openptv_python/correspondences.py:correspondences", "openptv_python/correspondences.py:take_best_candidates"]}
{"id": "C04", "title": "Quadruplet search is sound and complete", "statement": "four_camera_matching reports a quadruplet iff its six pairwise links are all present in the pairwise candidate lists and its correlation exceeds the acceptance threshold, as long as the scratch buffer does not fill up; the reported correlation is the sum of the six link correlations divided by the sum of the six link distances.", "quantifier": "every set of six pairwise candidate lists, any base-target count, any threshold", "why_tests_cant": "Completeness is a statement about all quadruplets that were not reported", "anchors": ["openptv_python/correspondences.py:four_camera_matching"]}
{"id": "C05", "title": "Triplet search reports only mutually linked, unused targets", "statement": "three_camera_matching reports only triplets whose three targets are unused and whose three pairwise links are all present in the pairwise candidate lists, with correlation above the threshold.", "quantifier": "every set of pairwise lists and usage tables", "why_tests_cant": "The failing case depends on stale buffer contents that no ordinary data set shows", "anchors": ["openptv_python/correspondences.py:three_camera_matching"]}
{"id": "C06", "title": "Pair search reports exactly the unambiguous pairs", "statement": "consistent_pair_matching reports a pair iff both targets are unused, the first target has exactly one candidate in the second camera, and that candidate's correlation exceeds the threshold.", "quantifier": "every set of pairwise lists and usage tables", "why_tests_cant": "Both directions quantify over all pairs", "anchors": ["openptv_python/correspondences.py:consistent_pair_matching"]}
{"id": "C07", "title": "Only correspondences that were actually found are reported", "statement": "Every n-tuple reported by the matching stages is one that the corresponding stage's search produced (so its correlation exceeds corrmin).", "quantifier": "every set of pairwise lists", "why_tests_cant": "The violation depends on which target numbers happen to be left free", "anchors": ["openptv_python/correspondences.py:correspondences", "openptv_python/correspondences.py:take_best_candidates", "openptv_python/correspondences.py:four_camera_matching"]}
{"id": "C08", "title": "Epipolar candidates satisfy every acceptance test", "statement": "Every candidate that find_candidate returns is an existing target within eps0 of the epipolar line (perpendicular distance < eps0), strictly inside the segment's bounding box grown by eps0, with all four size/grey ratios above their thresholds; its recorded tolerance is its distance from the line and its recorded correlation the documented weighted ratio sum; candidates come in increasing target order without repetition and there are at most MAXCAND of them.", "quantifier": "every target list, epipolar segment, tolerance and volume parameters", "why_tests_cant": "All inputs; boundary conditions of five simultaneous tests", "anchors": ["openptv_python/find_candidate.py:find_candidate"]}
{"id": "C09", "title": "Epipolar candidate search misses no target", "statement": "If the targets are sorted by x, find_candidate returns every target that passes all acceptance tests (up to the MAXCAND limit).", "quantifier": "every x-sorted target list of any length", "why_tests_cant": "The binary search start is only wrong for particular lengths in the thousands", "anchors": ["openptv_python/find_candidate.py:find_candidate", "openptv_python/find_candidate.py:find_start_point_binary"]}
{"id": "C10", "title": "Size ratio is a similarity in [0,1]", "statement": "quality_ratio is symmetric, lies in [0,1] for non-negative sizes, equals 1 iff the two (positive) sizes are equal, and is invariant under scaling both.", "quantifier": "all pairs of non-negative sizes", "why_tests_cant": "All real inputs", "anchors": ["openptv_python/find_candidate.py:quality_ratio"]}
{"id": "C11", "title": "The start-point search never indexes outside the list", "statement": "find_start_point_binary only reads targets at valid indices and returns a valid index (or 0), for any list, sorted or not.", "quantifier": "every non-empty target list, sorted or not, any window", "why_tests_cant": "All branch histories of the search", "anchors": ["openptv_python/find_candidate.py:find_start_point_binary", "openptv_python/track.py:candsearch_in_pix"]}
{"id": "C12", "title": "Pixel window search returns nearest in-window targets, best first", "statement": "candsearch_in_pix returns at most four distinct target indices, all used (tnr assigned), all strictly inside the clipped search window, ordered by strictly increasing distance from the search centre.", "quantifier": "every target list, window and image size", "why_tests_cant": "All inputs and tie patterns", "anchors": ["openptv_python/track.py:candsearch_in_pix"]}
{"id": "C13", "title": "Pixel window search never misses the nearest target", "statement": "On a y-sorted target list, whenever some used target lies strictly inside the clipped search window, candsearch_in_pix's first result is a target at the minimum distance from the centre; and every in-window used target that is not returned is at least as far as the worst returned one or ties with an examined one.", "quantifier": "every y-sorted list", "why_tests_cant": "Completeness over all lists and ties", "anchors": ["openptv_python/track.py:candsearch_in_pix"]}
{"id": "C14", "title": "Tracking never registers a neighbour that was not found in the window", "statement": "register_closest_neighbs registers, for a camera, only correspondence numbers of targets that candsearch_in_pix reported.", "quantifier": "every frame content and search window", "why_tests_cant": "The failing case is an encoding mismatch between two modules visible only with fewer than four neighbours", "anchors": ["openptv_python/track.py:register_closest_neighbs", "openptv_python/track.py:candsearch_in_pix"]}
{"id": "C15", "title": "Sorting found candidates by frequency loses nobody", "statement": "sort_candidates_by_freq returns each distinct registered correspondence number once, with the number of cameras that saw it, in non-increasing frequency.", "quantifier": "every contents of the candidate buffer", "why_tests_cant": "Depends on aliasing semantics and arbitrary contents", "anchors": ["openptv_python/track.py:sort_candidates_by_freq"]}
{"id": "C16", "title": "Trajectory links are one-to-one and mutually consistent", "statement": "After the linking phase of a forward tracking step, particle h of the current frame points forward to k iff particle k of the next frame points back to h; so no particle has two successors or two predecessors.", "quantifier": "every assignment of candidate link lists and decision values", "why_tests_cant": "All conflict patterns between trajectories", "anchors": ["openptv_python/track.py:trackcorr_c_loop"]}
{"id": "C17", "title": "Link conflicts are resolved in favour of the better candidate", "statement": "After the linking phase, if particle h holds the link to k then no other particle whose best candidate is k had a strictly smaller decision value; and every particle that has candidates but no link lost its best candidate to one with a decision value no larger.", "quantifier": "every set of candidates and decision values", "why_tests_cant": "All conflict patterns", "anchors": ["openptv_python/track.py:trackcorr_c_loop"]}
{"id": "C18", "title": "The reported number of links is the number of links", "statement": "The link count that a tracking step adds to run_info.nlinks equals the number of particles in the current frame that are linked to the next frame when the step ends.", "quantifier": "every set of candidate lists", "why_tests_cant": "Only visible when links are stolen", "anchors": ["openptv_python/track.py:trackcorr_c_loop"]}
{"id": "C19", "title": "Frame buffer rotation is lossless", "statement": "fb_next and fb_prev are inverse, never drop or duplicate a frame, and rotating buf_len times restores the buffer; fb.buf()[i] after fb_next is the former fb.buf()[i+1].", "quantifier": "every buffer length, contents and sequence of rotations", "why_tests_cant": "Arbitrary operation histories", "anchors": ["openptv_python/tracking_frame_buf.py:FrameBufBase"]}
{"id": "C20", "title": "Forward tracking reads and writes every frame exactly once, in order", "statement": "A full forward run (track_forward_start, trackcorr_c_loop for every step first..last-1, trackcorr_c_finish) with last > first reads frames first..last once each (the buffer is primed with three frames, so a one-step run also reads first+2) and writes frames first..last once each, in increasing order, each under its own frame number; during step s the buffer positions 1,2,3 hold frames s, s+1, s+2 whenever those are within the sequence. With last = first it raises ZeroDivisionError.", "quantifier": "every sequence range and every contents", "why_tests_cant": "Unbounded schedule", "anchors": ["openptv_python/track.py:track_forward_start", "openptv_python/track.py:trackcorr_c_loop", "openptv_python/track.py:trackcorr_c_finish"]}
{"id": "C21", "title": "Backward tracking writes each frame back under its own number", "statement": "A trackback_c run writes each frame it modified back to the file of that same frame number.", "quantifier": "every sequence range", "why_tests_cant": "Off-by-one at the end of an unbounded schedule", "anchors": ["openptv_python/track.py:trackback_c"]}
{"id": "C22", "title": "Back-linking never overwrites an existing trajectory", "statement": "In trackback_c a link is only added between two particles that both lacked it: an existing forward link of a particle in the earlier frame is never changed, and added links are one-to-one and mutually consistent.", "quantifier": "every frame contents and candidate lists", "why_tests_cant": "All conflict patterns", "anchors": ["openptv_python/track.py:trackback_c"]}
{"id": "C23", "title": "Pixel and metric coordinates are inverse", "statement": "pixel_to_metric and metric_to_pixel are mutually inverse for every image size and non-zero pixel size, and the array versions agree element-wise with the scalar ones.", "quantifier": "all coordinates and camera parameters", "why_tests_cant": "All real inputs", "anchors": ["openptv_python/trafo.py:pixel_to_metric", "openptv_python/trafo.py:metric_to_pixel", "openptv_python/trafo.py:arr_pixel_to_metric", "openptv_python/trafo.py:arr_metric_to_pixel"]}
{"id": "C24", "title": "Distortion correction undoes distortion", "statement": "With default added parameters distortion and its correction are the identity; without radial/decentering terms, correction is the exact inverse of distortion for every non-degenerate affine part; in general a point at which the correction iteration has converged is mapped by distort_brown_affine exactly to the input.", "quantifier": "all points and added parameters", "why_tests_cant": "All real inputs, unbounded iteration", "anchors": ["openptv_python/trafo.py:distort_brown_affine", "openptv_python/trafo.py:correct_brown_affine"]}
{"id": "C25", "title": "Exterior rotation is a proper rotation", "statement": "For any three angles the matrix computed by rotation_matrix / Exterior.set_rotation_matrix is orthogonal with determinant 1, and equals the product of the elementary rotations about x, y, z.", "quantifier": "all angles", "why_tests_cant": "All reals", "anchors": ["openptv_python/calibration.py:rotation_matrix"]}
{"id": "C26", "title": "Ray tracing obeys Snell's law", "statement": "ray_tracing returns a point on the inner (water-side) glass plane and a unit direction; at both interfaces the ray stays in the plane of incidence and the tangential components satisfy n1 sin a1 = n2 sin a2; for equal refractive indices the traced ray is the straight continuation of the camera ray.", "quantifier": "all calibrations, image points, glass positions and refractive indices without total reflection", "why_tests_cant": "All real inputs", "anchors": ["openptv_python/ray_tracing.py:ray_tracing"]}
{"id": "C27", "title": "Without refraction there is no radial shift", "statement": "If all refractive indices are equal to that of air, the multimedia radial factor is exactly 1 and flat_image_coord is the pinhole collinearity projection; a point on the optical normal also has factor 1; the iteration always stops within its iteration limit.", "quantifier": "all points, camera positions and glass vectors", "why_tests_cant": "All real inputs", "anchors": ["openptv_python/multimed.py:multimed_r_nlay", "openptv_python/multimed.py:fast_multimed_r_nlay", "openptv_python/imgcoord.py:flat_image_coord"]}
{"id": "C28", "title": "Camera-glass coordinate transform is invertible", "statement": "back_trans_point undoes trans_cam_point: for every non-zero glass vector and every point not on the camera's glass normal, transforming into the 2-D glass frame and back returns the same point, and the transform preserves the radial distance and depth.", "quantifier": "all points, camera positions and glass vectors", "why_tests_cant": "All real inputs", "anchors": ["openptv_python/multimed.py:trans_cam_point", "openptv_python/multimed.py:back_trans_point"]}
{"id": "C29", "title": "Epipolar rays stay on the line of sight", "statement": "move_along_ray returns a point on the given ray with the requested z, for every ray not parallel to the z plane; epi_mm_2D's point is on the traced ray at the middle of the Z range.", "quantifier": "all rays and depths", "why_tests_cant": "All real inputs", "anchors": ["openptv_python/multimed.py:move_along_ray", "openptv_python/epi.py:epi_mm_2D"]}
{"id": "C30", "title": "Skew-line midpoint is the closest-approach point", "statement": "For two non-parallel rays skew_midpoint returns the midpoint of the shortest connecting segment and its length: the segment is perpendicular to both rays, no pair of points on the rays is closer, the result is symmetric in the rays, and for intersecting rays the distance is 0 and the point is the intersection.", "quantifier": "all pairs of non-parallel rays", "why_tests_cant": "All real inputs", "anchors": ["openptv_python/orientation.py:skew_midpoint"]}
{"id": "C31", "title": "Point reconstruction is the mean over used camera pairs", "statement": "point_position ignores cameras whose image coordinate is unused, averages the pairwise midpoints of the others, and returns the exact point with zero error when all rays meet; with fewer than two usable cameras it has no defined result.", "quantifier": "all camera numbers, rays and usage patterns", "why_tests_cant": "All subsets of cameras and all rays", "anchors": ["openptv_python/orientation.py:point_position", "openptv_python/orientation.py:skew_midpoint"]}
{"id": "C32", "title": "Dumbbell measure is non-negative, and zero for a perfect calibration", "statement": "weighted_dumbbell_precision is non-negative; it is zero when all rays of every point meet exactly and every pair of points is at the dumbbell distance; it grows with the ray-convergence error and with the weight.", "quantifier": "all target sequences and calibrations", "why_tests_cant": "All inputs", "anchors": ["openptv_python/orientation.py:weighted_dumbbell_precision"]}
{"id": "C33", "title": "Numerical derivatives leave the calibration unchanged", "statement": "num_deriv_exterior returns the forward difference quotients of the projection with respect to the six exterior parameters and leaves the exterior orientation it was given as it was.", "quantifier": "all calibrations, points and step sizes", "why_tests_cant": "All inputs", "anchors": ["openptv_python/orientation.py:num_deriv_exterior"]}
{"id": "C34", "title": "Parameters whose flag is off are never adjusted", "statement": "During orient, an interior/added/glass parameter whose flag is off keeps its initial value through every iteration, whatever the least-squares solver returns.", "quantifier": "all flag combinations, all solver outcomes, all iteration counts", "why_tests_cant": "All histories of the solver", "anchors": ["openptv_python/orientation.py:orient"]}
{"id": "C35", "title": "Failed orientation leaves the calibration untouched", "statement": "If orient (or raw_orient) does not converge, the calibration passed in has the values it had before the call.", "quantifier": "all inputs on which the iteration does not converge, all behaviours of the solver", "why_tests_cant": "All histories of the solver", "anchors": ["openptv_python/orientation.py:orient", "openptv_python/orientation.py:raw_orient"]}
{"id": "C36", "title": "Batch triangulation returns one position per point", "statement": "multi_cam_point_positions returns for every input point the same position and error that point_position returns for it alone.", "quantifier": "all numbers of points and cameras", "why_tests_cant": "Every batch size", "anchors": ["openptv_python/orientation.py:multi_cam_point_positions"]}
{"id": "C37", "title": "Nearest-detection lookup is correct", "statement": "nearest_neighbour_pix returns the index of the closest target strictly inside the square window around the given position (the first one on ties), and the not-found value iff no target is in the window.", "quantifier": "every target list, position and radius", "why_tests_cant": "All inputs", "anchors": ["openptv_python/sortgrid.py:nearest_neighbour_pix"]}
{"id": "C38", "title": "sortgrid assigns each detection to at most one reference point", "statement": "sortgrid returns one entry per reference point; an entry is either marked unused or a copy of a detection that is nearest to the projection of that reference point, within eps of it in each coordinate, where the projection is within eps of the image; no detection is claimed (pnr equal to the entry's index) by two reference points, and the last reference point that picked a detection claims it.", "quantifier": "every set of detections, references and calibrations", "why_tests_cant": "All conflict patterns and aliasing", "anchors": ["openptv_python/sortgrid.py:sortgrid"]}
{"id": "C39", "title": "Segmented targets are disjoint blobs above threshold", "statement": "targ_rec only returns targets made of pixels above the grey threshold, whose pixel sets are pairwise disjoint and each connected to the local maximum that seeded it, with n, nx, ny and sumg describing exactly this pixel set and within the configured limits, and numbered 0,1,2,...", "quantifier": "every image, region of interest, threshold and limits", "why_tests_cant": "All images of every size", "anchors": ["openptv_python/segmentation.py:fast_targ_rec", "openptv_python/segmentation.py:targ_rec"]}
{"id": "C40", "title": "Segmentation stays inside the image and terminates", "statement": "For every image and parameter set, targ_rec clamps the search region to the image interior, never indexes outside the image and terminates.", "quantifier": "every image size, sub-range and threshold", "why_tests_cant": "All images; non-termination cannot be tested", "anchors": ["openptv_python/segmentation.py:targ_rec", "openptv_python/segmentation.py:fast_targ_rec"]}
{"id": "C41", "title": "Target files round-trip", "statement": "Reading a targets file written by write_targets returns the same number of targets with identical integer fields and positions rounded to the written precision; writing the result again produces an identical file.", "quantifier": "all target lists and frame numbers", "why_tests_cant": "All values incl. negative, wide, boundary roundings", "anchors": ["openptv_python/tracking_frame_buf.py:write_targets", "openptv_python/tracking_frame_buf.py:read_targets"]}
{"id": "C42", "title": "Path files round-trip", "statement": "read_path_frame applied to files written by write_path_frame returns the same correspondences, links and priorities, with positions rounded to three decimals.", "quantifier": "all particle lists and frame numbers", "why_tests_cant": "All values", "anchors": ["openptv_python/tracking_frame_buf.py:write_path_frame", "openptv_python/tracking_frame_buf.py:read_path_frame"]}
{"id": "C43", "title": "Parameter files round-trip", "statement": "A parameter set written by its writer and read back by its reader is unchanged (TargetPar), and readers assign every value of the file to the parameter documented for that position (VolumePar, TrackPar, SequencePar, ControlPar and the others); read_sortgrid_par gives the integer on the first line of the file, and 25 if the file cannot be read.", "quantifier": "all parameter values", "why_tests_cant": "All values and all files", "anchors": ["openptv_python/parameters.py:TargetPar", "openptv_python/parameters.py:write_target_par", "openptv_python/parameters.py:VolumePar", "openptv_python/parameters.py:ControlPar"]}
{"id": "C44", "title": "PftVersionPar round-trips", "statement": "PftVersionPar.from_file applied to a file written by PftVersionPar.write returns the written flag.", "quantifier": "both flag values, any state of the class", "why_tests_cant": "Depends on the representation of booleans in text", "anchors": ["openptv_python/parameters.py:PftVersionPar"]}
{"id": "C45", "title": "Control parameters survive to_dict/from_dict", "statement": "ControlPar.from_dict(ControlPar.to_dict(c)) has the same fields as c.", "quantifier": "all control parameter sets, any order of the keys", "why_tests_cant": "All values", "anchors": ["openptv_python/parameters.py:ControlPar"]}
{"id": "C46", "title": "Corrected coordinates are an x-sorted relabelling of the targets", "statement": "MatchedCoords holds, sorted by x, exactly one flat coordinate per target, and its pnr column maps each back to the target it came from; get_by_pnrs returns the coordinates of the requested targets.", "quantifier": "all target lists and calibrations", "why_tests_cant": "All inputs and ties", "anchors": ["openptv_python/tracking_frame_buf.py:MatchedCoords"]}
{"id": "C47", "title": "Angle/acceleration measure is well-defined", "statement": "angle_acc returns an acceleration equal to the norm of the second difference and an angle in [0,200] gon, which is 0 iff the motion direction is unchanged and 200 iff it reverses.", "quantifier": "all triples of positions", "why_tests_cant": "All reals incl. degenerate displacements", "anchors": ["openptv_python/track.py:angle_acc"]}
{"id": "C48", "title": "Velocity gates are open boxes", "statement": "pos3d_in_bounds accepts exactly displacements strictly inside the box of the velocity limits; prediction by search_volume_center_moving / predict is exact for constant-velocity motion.", "quantifier": "all displacements and bounds", "why_tests_cant": "All reals and boundary cases", "anchors": ["openptv_python/track.py:pos3d_in_bounds", "openptv_python/track.py:predict", "openptv_python/track.py:search_volume_center_moving"]}
{"id": "C49", "title": "Calibration files round-trip to written precision", "statement": "Calibration.from_file applied to files produced by write_ori (or Calibration.write) returns the same parameters rounded to the written number of decimals, with the rotation matrix of the angles; a second round trip changes nothing; read_ori returns what the files hold.", "quantifier": "all calibrations", "why_tests_cant": "All values", "anchors": ["openptv_python/calibration.py:write_ori", "openptv_python/calibration.py:Calibration.from_file", "openptv_python/calibration.py:read_ori"]}
{"id": "C50", "title": "Touching peaks are recorded once, without overflow", "statement": "After any history of check_touch calls for a peak, the recorded touching peaks are pairwise different, none is the background or the peak itself, there are at most three, and none is missing unless three are recorded; no call fails.", "quantifier": "all peaks and touch histories", "why_tests_cant": "All histories", "anchors": ["openptv_python/segmentation.py:check_touch"]}
{"id": "C51", "title": "Image preparation keeps images in range and averages", "statement": "prepare_image on an 8-bit image returns an image of the same size with 8-bit grey values; its low-pass image is, at every pixel, the mean over the (2*dim_lp+1)^2 square around the pixel (zero outside the image) up to less than two grey values of truncation; with filter_hp = 2 the image is convolved with the nine numbers of the filter file, and an IOError is raised exactly if the file does not hold nine numbers; where the image is constant around a pixel the prepared image has the same grey value (with a filter file: if its numbers add up to 1); and the high-pass image removes the background (claimed by its comment \"Subtract low-pass filtered image\").", "quantifier": "every image size, 8-bit content, low-pass size and filter_hp setting", "why_tests_cant": "All images and filter sizes; a test sees one image", "anchors": ["openptv_python/image_processing.py: prepare_image, preprocess_image"]}
{"id": "C52", "title": "Measurement volume encloses its corner rays", "statement": "volumedimension returns bounds that contain every corner-ray/Z-plane intersection of every camera, with zmin/zmax the extremes of the volume's Z limits.", "quantifier": "all cameras and volumes", "why_tests_cant": "All reals", "anchors": ["openptv_python/multimed.py:volumedimension"]}
{"id": "C53", "title": "Look-up table interpolation stays between its neighbours", "statement": "get_mmf_from_mmlut returns a convex combination of four neighbouring table entries or 0 outside the table, and never indexes outside the table.", "quantifier": "all points and tables", "why_tests_cant": "All reals; boundary cells", "anchors": ["openptv_python/multimed.py:get_mmf_from_mmlut"]}
{"id": "C54", "title": "Pair sort is a stable reordering of (key,index) pairs", "statement": "track.sort orders the first n decisions increasingly and carries the link indices along: the multiset of (decision, link) pairs is unchanged and the tail is untouched.", "quantifier": "all n and arrays", "why_tests_cant": "All arrays and ties", "anchors": ["openptv_python/track.py:sort"]}
{"id": "C55", "title": "Candidate registration never exceeds the particle's slots", "statement": "register_link_candidate appends exactly one (decision, link) pair, keeps the earlier ones and fails rather than corrupting memory once POSI candidates are stored.", "quantifier": "all registration histories", "why_tests_cant": "Arbitrary histories", "anchors": ["openptv_python/tracking_frame_buf.py:Pathinfo.register_link_candidate"]}
{"id": "C56", "title": "Correspondences work for 2, 3 and 4 cameras", "statement": "py_correspondences returns a result, without raising, for every number of cameras from 2 to 4 and any detections that fit the buffers.", "quantifier": "2, 3 and 4 cameras, every set of pairwise candidate lists, thresholds and target counts", "why_tests_cant": "the claim quantifies over all detections and thresholds; a test exercises one image set", "anchors": ["openptv_python/correspondences.py: py_correspondences, correspondences, take_best_candidates"]}
{"id": "C57", "title": "Candidate lists are terminated", "statement": "The candidate list returned by sorted_candidates_in_volume always ends with an unused record (ftnr = -1), which is what the loops of trackcorr_c_loop and trackback_c stop at.", "quantifier": "every contents of the candidate buffer", "why_tests_cant": "Only some arrangements of found targets over the camera slots lose the terminator", "anchors": ["openptv_python/track.py:sorted_candidates_in_volume", "openptv_python/track.py:sort_candidates_by_freq", "openptv_python/track.py:trackcorr_c_loop"]}
{"id": "C58", "title": "Radial shift solves the refraction equation", "statement": "For a point behind a single glass plate, a camera in front of it, and first index not larger than the other two, there is exactly one apparent radius that satisfies Snell's law at both interfaces, and the radial factor returned by the multimedia iteration, times the true radius r, differs from it by at most (d-Z)/(z0-d) * max(0.001, q^40 * r), where q=(d-Z)/(z0-Z) < 1 (d plate thickness, z0 camera height, Z point height over the inner glass plane).", "quantifier": "every radius, plate thickness, camera height, point depth and indices 0<n1<=n2,n3", "why_tests_cant": "The loop stops after 40 rounds or when a step is below 0.001; that it is then near the physical solution is a convergence statement over all real geometries, samples cannot show it.", "anchors": ["openptv_python/multimed.py: fast_multimed_r_nlay"]}
{"id": "C59", "title": "Projection inverts ray tracing", "statement": "Every point on the ray that ray tracing returns for an image point projects back onto that image point: exactly when all refraction indices are equal, and otherwise as the pinhole image of a point within the radial accuracy bound of the camera ray through that image point.", "quantifier": "every image point, camera pose (any rotation), glass plane, plate thickness, indices 0<n1<=n2,n3, and every point of the ray behind the glass", "why_tests_cant": "Two unrelated algorithms (closed form tracing, fixed point projection) have to agree on a continuum of cameras, media and points.", "anchors": ["openptv_python/ray_tracing.py: ray_tracing", "openptv_python/imgcoord.py: flat_image_coord", "openptv_python/multimed.py: multimed_r_nlay"]}
{"id": "C60", "title": "Triangulation recovers the projected point", "statement": "If a point is projected into at least two cameras (one refractive index, the point visible to them, rays not all parallel), then point_position of these image points returns exactly that point, with ray-convergence error 0, whichever other cameras are unused.", "quantifier": "all points, camera poses, glass planes, numbers and subsets of cameras", "why_tests_cant": "Composes two independent algorithms (projection and ray intersection) over a continuum of cameras and points.", "anchors": ["openptv_python/orientation.py: point_position", "openptv_python/imgcoord.py: flat_image_coord"]}
{"id": "C61", "title": "Glass corrections accumulate over the iterations of orient", "statement": "With the interface flag on, the glass vector returned by orient is the initial one plus the sum of the corrections of all passes, as it is for every other adjusted parameter.", "quantifier": "all inputs, all behaviours of the solver, all numbers of passes", "why_tests_cant": "Depends on the whole history of the iteration.", "anchors": ["openptv_python/orientation.py: orient"]}
{"id": "C62", "title": "Glass adjustment directions are tangent to the glass", "statement": "The two directions in which orient turns the glass are unit vectors, perpendicular to the glass normal and to each other.", "quantifier": "all non-zero glass vectors", "why_tests_cant": "A continuum of glass vectors; tests use only the default direction.", "anchors": ["openptv_python/orientation.py: orient"]}
{"id": "C63", "title": "Perfect data is a fixed point of orientation", "statement": "If every reference point already projects exactly to its detected position, orient and raw_orient report success after one pass and leave the calibration unchanged.", "quantifier": "all cameras, media, reference points, flags, and solvers that answer a zero right-hand side with zero", "why_tests_cant": "All cameras and distortion parameters.", "anchors": ["openptv_python/orientation.py: orient", "openptv_python/orientation.py: raw_orient"]}
{"id": "C64", "title": "Search window covers the velocity box", "statement": "The pixel search window that searchquader returns for a predicted position covers the projections of all corners of the box of admissible displacements that are inside the image; for a camera in air without distortion it covers the projection of every admissible next position that is visible in the image, so the candidate search cannot miss a particle that respects the velocity limits.", "quantifier": "all predicted positions, velocity limits, cameras (whole box: air, no distortion, box in front of the camera)", "why_tests_cant": "All real inputs; the window must contain the image of a continuum of points", "anchors": ["openptv_python/track.py:searchquader", "openptv_python/track.py:point_to_pixel", "openptv_python/track.py:reset_foundpix_array"]}
{"id": "C65", "title": "Adding a particle leaves existing correspondences intact", "statement": "add_particle appends one particle at the given position, records its candidate targets as its correspondences, numbers exactly these targets with it and leaves the correspondences of the particles already in the frame unchanged.", "quantifier": "all frames, positions and candidate lists", "why_tests_cant": "History: corrupted correspondences only show when the frame is used later", "anchors": ["openptv_python/track.py:add_particle"]}
{"id": "C66", "title": "Image coordinate is the Brown-distorted projection", "statement": "img_coord returns the flat (multimedia) projection of the point, moved to the principal point and distorted by Brown's model followed by scale and shear; in air the flat projection is the pinhole projection; without lens distortion dist_to_flat recovers the flat projection exactly.", "quantifier": "all points, cameras, media and look-up tables", "why_tests_cant": "All real inputs and parameter combinations", "anchors": ["openptv_python/imgcoord.py:img_coord", "openptv_python/trafo.py:flat_to_dist", "openptv_python/trafo.py:distort_brown_affine"]}
{"id": "C67", "title": "Only found and selected points enter orientation", "statement": "The result of orient and of its residual system does not depend on reference points whose target was not found or that are excluded by the point selection: they contribute no row, and changing their coordinates changes nothing; every other point contributes its two rows.", "quantifier": "all reference point lists, targets and selection flags, every solver", "why_tests_cant": "Arbitrary mixes of used and unused points", "anchors": ["openptv_python/orientation.py:orient"]}
{"id": "C68", "title": "Look-up table holds the exact factors and covers the volume", "statement": "A freshly initialised multimedia table holds at every raster point the radial factor that the iteration computes without a table, a look-up at a raster point returns that factor, and the table covers the part of the volume seen by the camera; initialising again after a change gives the table of the new parameters.", "quantifier": "all cameras, media and volumes", "why_tests_cant": "All reals; table size depends on the geometry", "anchors": ["openptv_python/multimed.py:init_mmlut", "openptv_python/multimed.py:get_mmf_from_mmlut"]}
{"id": "C69", "title": "The epipolar segment contains the true match", "statement": "In air, for every particle within the depth limits of the volume, the segment returned by epi_mm for its image in camera 1 contains its image in camera 2.", "quantifier": "all pairs of cameras, all particles in front of both within the depth limits", "why_tests_cant": "All real geometries", "anchors": ["openptv_python/epi.py:epi_mm", "openptv_python/imgcoord.py:flat_image_coord"]}
{"id": "C70", "title": "epipolar_curve samples the image of the line of sight", "statement": "epipolar_curve returns num_points pixels; the i-th is the image in the second camera of the point of the first camera's line of sight at the i-th of num_points evenly spaced depths, from the lower to the upper limit; in its own camera (no refraction, no lens distortion) the curve of a pixel is that pixel.", "quantifier": "all cameras, pixels, media and numbers of points", "why_tests_cant": "All real geometries, any number of points", "anchors": ["openptv_python/epi.py:epipolar_curve"]}
{"id": "C71", "title": "Matched detections carry the index of their reference point", "statement": "match_detection_to_ref (sortgrid) returns targets whose pnr is the index of the reference point they were matched to, one per matched reference point.", "quantifier": "every set of references, detections and calibrations", "why_tests_cant": "All conflict patterns: the same detection object can be written by several references", "anchors": ["openptv_python/orientation.py:match_detection_to_ref", "openptv_python/sortgrid.py:sortgrid"]}
{"id": "C72", "title": "peak_fit reports the peaks of an image", "statement": "For an image with a grey value peak above the threshold in the search region, peak_fit returns (and does not fail).", "quantifier": "every image, threshold and search region", "why_tests_cant": "All images", "anchors": ["openptv_python/segmentation.py:peak_fit"]}
{"id": "C73", "title": "target_recognition searches the requested part of the image only", "statement": "target_recognition raises a ValueError exactly if the requested sub-range exceeds the image; otherwise it reports targets made of pixels of the requested sub-range (the whole image by default, without the border), misses no local maximum there and never reads outside the image.", "quantifier": "every image, control parameters and sub-ranges", "why_tests_cant": "All images and regions; out of bounds reads in compiled code are silent", "anchors": ["openptv_python/segmentation.py:target_recognition", "openptv_python/segmentation.py:targ_rec"]}
{"id": "C74", "title": "YAML files round-trip", "statement": "A parameter set read by from_yaml from a file written by to_yaml equals the one written.", "quantifier": "all multimedia and control parameter sets, any order of the keys in the file", "why_tests_cant": "All values; nested objects", "anchors": ["openptv_python/parameters.py:Parameters.to_yaml", "openptv_python/parameters.py:Parameters.from_yaml"]}
{"id": "C75", "title": "Comparison of parameter sets is equality", "statement": "compare_control_par and compare_mm_np, and compare_sequence_par, compare_track_par, compare_volume_par and compare_target_par, return True exactly if the two parameter sets are equal.", "quantifier": "all pairs of parameter sets", "why_tests_cant": "All pairs of values, any number of layers", "anchors": ["openptv_python/parameters.py:compare_control_par", "openptv_python/parameters.py:compare_mm_np", "openptv_python/parameters.py:compare_sequence_par", "openptv_python/parameters.py:compare_track_par", "openptv_python/parameters.py:compare_volume_par", "openptv_python/parameters.py:compare_target_par"]}
{"id": "C76", "title": "Comparison of calibrations is equality", "statement": "compare_calibration returns True for a calibration and itself and only for calibrations with the same parameters.", "quantifier": "all pairs of calibrations", "why_tests_cant": "All pairs of values", "anchors": ["openptv_python/calibration.py:compare_calibration", "openptv_python/calibration.py:compare_exterior"]}
{"id": "C77", "title": "Every link has a reason", "statement": "Every link of a forward run from a particle at x1 to a particle at x3 of the next frame was made for one of the documented reasons: a particle of the frame after next (or a new position triangulated from at least two images inside the volume) continues the path, or the particle already has a predecessor and x3 continues that path, or x3 is itself a triangulated new position near the expected one; in each case the acceleration and angle against the predicted position pass the acceptance test, and the decision value stored with the link is the one of that reason.", "quantifier": "all geometries, limits, frames, sequences and links that a run writes", "why_tests_cant": "Any number of particles and frames, any geometry: the reason must hold for links that survived competition too", "anchors": ["openptv_python/track.py:trackcorr_c_loop", "openptv_python/track.py:angle_acc", "openptv_python/track.py:pos3d_in_bounds"]}
{"id": "C78", "title": "A link decision looks at the frame after next", "statement": "In every step n of a forward run the link decisions are made on the frames n-1, n, n+1 and n+2; the outcome does not depend on any other frame.", "quantifier": "all sequences of any length, all steps", "why_tests_cant": "The frames in the buffer depend on the whole history of reads and rotations", "anchors": ["openptv_python/track.py:trackcorr_c_loop", "openptv_python/tracking_frame_buf.py:FrameBuf"]}
{"id": "C79", "title": "Linked displacements are within the velocity limits", "statement": "The displacement of every link of a forward run lies within the limits dvxmin..dvxmax, dvymin..dvymax, dvzmin..dvzmax.", "quantifier": "all geometries, limits, frames and links of a run", "why_tests_cant": "All configurations of particles, including those that no test scene contains", "anchors": ["openptv_python/track.py:trackcorr_c_loop", "openptv_python/track.py:angle_acc", "openptv_python/track.py:pos3d_in_bounds"]}
{"id": "C80", "title": "New positions use the nearest free targets", "statement": "assess_new_position returns for every camera the nearest target not yet used by a particle within 3 pixels of the projected position (index and flat coordinates), marks every other camera as having none, and returns the number of cameras that have one; add_particle, given this result, changes only the targets found.", "quantifier": "all positions, cameras, target lists and images", "why_tests_cant": "Any number of targets in any arrangement in any number of cameras; the mark is only misread when a camera sees nothing", "anchors": ["openptv_python/track.py:assess_new_position", "openptv_python/track.py:candsearch_in_pix_rest", "openptv_python/track.py:add_particle"]}
{"id": "C81", "title": "Offered candidates are near in two cameras", "statement": "Every candidate that sorted_candidates_in_volume offers has a target in the search rectangle of at least two cameras (of one, if it is the only one), candidates come in order of decreasing camera support, and every number offered is a particle number.", "quantifier": "all positions, up to four cameras, all target lists", "why_tests_cant": "All arrangements of targets in all cameras together", "anchors": ["openptv_python/track.py:sorted_candidates_in_volume", "openptv_python/track.py:register_closest_neighbs", "openptv_python/track.py:sort_candidates_by_freq"]}
{"id": "C82", "title": "Backward links have reasons", "statement": "Every link that a step of trackback makes goes from a particle that has a link to the later frame and none to the earlier one, to a particle of the earlier frame without a link to a later one, with velocity, angle and acceleration accepted; a particle that already has a path is only taken if its path continues smoothly; the stored decision value is the one of that link. No other link and no position changes.", "quantifier": "all geometries, parameters and four frames as read from disk", "why_tests_cant": "All arrangements of particles and links over four frames, including those no test scene contains", "anchors": ["openptv_python/track.py:trackback_c"]}
{"id": "C83", "title": "The add flag works backward", "statement": "With the add flag, trackback adds a particle where unmatched targets in at least two images give a position inside the measurement volume that continues the path.", "quantifier": "all geometries, flags, frames and targets", "why_tests_cant": "The claim is about the whole volume; a test that adds nothing looks like a scene without candidates", "anchors": ["openptv_python/track.py:trackback_c"]}
{"id": "C84", "title": "Backward run keeps the sequence consistent", "statement": "A backward run over a sequence of frames that agree on their links leaves on disk a sequence of frames that agree on their links, with every particle and every link that was there, and with new links that have reasons.", "quantifier": "all sequences of consistently linked frames, all lengths of at least three frames", "why_tests_cant": "Any number of frames and links; only the composition of steps and writes shows what is on disk at the end", "anchors": ["openptv_python/track.py:trackback_c", "openptv_python/tracking_frame_buf.py:FrameBuf"]}
{"id": "C85", "title": "A frame survives the disk", "statement": "A frame that is written to disk and read back is the same frame up to the precision of the file formats: the same particles with the same links and target numbers, and in every camera the same targets in the same order.", "quantifier": "all frames, cameras, file names with number formats, positive frame numbers, states of the disk and frame objects that are read into", "why_tests_cant": "Every field of every particle and target, for every number of cameras; a test writes one frame", "anchors": ["openptv_python/tracking_frame_buf.py:Frame.write", "openptv_python/tracking_frame_buf.py:Frame.read"]}
{"id": "C86", "title": "Frames on disk do not disturb each other", "statement": "Writing a frame does not change what is read of any other frame, whether the write succeeds or raises.", "quantifier": "all frames, file bases, pairs of different frame numbers, states of the disk, exceptions in the middle of a write", "why_tests_cant": "File names are computed from the frame number; all pairs of numbers and all failures would have to be tried", "anchors": ["openptv_python/tracking_frame_buf.py:Frame.write", "openptv_python/tracking_frame_buf.py:Frame.read", "openptv_python/tracking_frame_buf.py:write_path_frame", "openptv_python/tracking_frame_buf.py:write_targets"]}
{"id": "C87", "title": "Positions follow the particles", "statement": "positions and target_positions_for_camera return one row per particle of the frame, in the same order: its position, and the image position of its target in the camera, or NaN if it was not matched there.", "quantifier": "all frames and cameras", "why_tests_cant": "Any number of particles and any matching of targets to particles", "anchors": ["openptv_python/tracking_frame_buf.py:Frame.positions", "openptv_python/tracking_frame_buf.py:Frame.target_positions_for_camera"]}
{"id": "C88", "title": "A run does not read what it has written", "statement": "A tracking run over files that it changes itself behaves as a run over the files as they were at its start: the frames it computes with are the same, and afterwards the files are the initial ones with the frames it wrote.", "quantifier": "all files, ranges of frames, computations of a step, file bases", "why_tests_cant": "Reads and writes of a run interleave over one set of files, for any number of frames", "anchors": ["openptv_python/track.py:track_forward_start", "openptv_python/track.py:trackcorr_c_loop", "openptv_python/track.py:trackcorr_c_finish", "openptv_python/track.py:trackback_c", "openptv_python/tracking_frame_buf.py:FrameBuf"]}
{"id": "C89", "title": "An interrupted run leaves a prefix", "statement": "However a tracking run stops, by an exception of any read, write or computation or regularly, the files are the initial ones with a prefix of the sequence of frames written in order; all other frames are untouched.", "quantifier": "all files, exceptions at any operation of the run, ranges of frames", "why_tests_cant": "Every point of interruption of runs of any length", "anchors": ["openptv_python/track.py:trackcorr_c_loop", "openptv_python/track.py:trackcorr_c_finish", "openptv_python/track.py:trackback_c"]}
{"id": "C90", "title": "Links on disk after tracking", "statement": "After a forward run that ends regularly every frame of the sequence can be read from its files, with its particles up to the precision of the files, and in neighbouring frames particle i points to k exactly if k points back to i.", "quantifier": "all files, geometries, frame ranges and numbers of cameras", "why_tests_cant": "Composition of search, linking, buffer, number formats and files over runs of any length", "anchors": ["openptv_python/track.py:track_forward_start", "openptv_python/track.py:trackcorr_c_loop", "openptv_python/track.py:trackcorr_c_finish", "openptv_python/tracking_frame_buf.py:Frame.write", "openptv_python/tracking_frame_buf.py:Frame.read"]}
{"id": "C91", "title": "Links on disk after backward tracking", "statement": "After a backward run over consistently linked files every frame of the sequence can be read, has its particles and all the links it had, and neighbouring frames agree on their links.", "quantifier": "all files with consistent links, geometries, frame ranges and numbers of cameras", "why_tests_cant": "Composition of search, linking, buffer and files over runs of any length", "anchors": ["openptv_python/track.py:trackback_c", "openptv_python/tracking_frame_buf.py:Frame.write", "openptv_python/tracking_frame_buf.py:Frame.read"]}
{"id": "C92", "title": "Backward tracking misses no link", "statement": "A particle that is linked to the later frame but not to the earlier one gets the best acceptable particle among those the search offers in the earlier frame: least decision value, then least number. It stays without a link only if none is acceptable, or the best one already had a link, was taken by a particle with a smaller number in the same step, or has a path of its own that does not continue smoothly.", "quantifier": "all geometries, parameters and four frames as read from disk", "why_tests_cant": "All arrangements of particles, search results and conflicts between particles", "anchors": ["openptv_python/track.py:trackback_c"]}
{"id": "C93", "title": "Forward tracking misses no link", "statement": "If the search offers a particle of the next frame, and a particle of the frame after next (or a position triangulated from unmatched targets there) continues the path acceptably with decision value d, then the current particle gets a link with a value of at most d, or the particle it wants goes to another one with a value at least as good. An acceptable step without such a continuation is enough for a particle that has a predecessor.", "quantifier": "all geometries, parameters and buffers of four frames", "why_tests_cant": "All arrangements of particles, search results and conflicts between particles", "anchors": ["openptv_python/track.py:trackcorr_c_loop"]}
{"id": "C94", "title": "A lost particle is added from its images", "statement": "With adding on, if a tracked particle has no match in the next frame but unmatched targets of at least two cameras near the expected position give an acceptable position, a particle is added there and the path goes on.", "quantifier": "all geometries, parameters and buffers of four frames with adding on", "why_tests_cant": "All arrangements of particles and targets; depends on what else is near", "anchors": ["openptv_python/track.py:trackcorr_c_loop", "openptv_python/track.py:assess_new_position", "openptv_python/track.py:add_particle"]}
{"id": "C95", "title": "A clearly seen particle is tracked", "statement": "With adding off and two to four cameras: if every camera shows a particle of the next frame strictly inside its search window around the position where the current particle is expected (no other target exactly as near, fewer than four nearer), and the step is within the limits, then the current particle is linked, or what it prefers goes to another particle with a value at least as good. With a clearly seen continuation in the frame after next, the same holds for particles without predecessor, with a bound on the decision value.", "quantifier": "all cameras, target lists sorted by y, parameters and buffers of four frames", "why_tests_cant": "All images and arrangements of other particles; the pixel search, the merge of the cameras and the linking act together", "anchors": ["openptv_python/track.py:trackcorr_c_loop", "openptv_python/track.py:sorted_candidates_in_volume", "openptv_python/track.py:candsearch_in_pix", "openptv_python/track.py:sort_candidates_by_freq"]}
{"id": "C96", "title": "Uniform motion is followed", "statement": "A particle that moves on with the same velocity, shown by all cameras at its exact projection, is linked (or what it prefers goes to another particle with a value at least as good): for calibrations with refraction and distortion if each search window surrounds the projection, and for undistorted cameras in air always.", "quantifier": "all calibrations, parameters, positions and velocities inside the limits, buffers of four frames", "why_tests_cant": "All camera arrangements and trajectories; joins projection, search windows, pixel search and linking", "anchors": ["openptv_python/track.py:trackcorr_c_loop", "openptv_python/track.py:searchquader", "openptv_python/track.py:search_volume_center_moving", "openptv_python/track.py:angle_acc"]}
{"id": "C97", "title": "Smooth motion is followed", "statement": "For undistorted cameras in air: a particle that stays inside the velocity box around its expected position, within the velocity, acceleration and angle limits, and that all cameras show without crowding, is linked (or what it prefers goes to another particle with a value at least as good).", "quantifier": "all calibrations in air, parameters, positions inside the limits, buffers of four frames", "why_tests_cant": "All camera arrangements and trajectories; the search windows must contain the image of every point of the velocity box", "anchors": ["openptv_python/track.py:trackcorr_c_loop", "openptv_python/track.py:searchquader", "openptv_python/track.py:sorted_candidates_in_volume"]}
{"id": "C98", "title": "A lone particle is followed through the whole run", "statement": "A particle alone in the volume, in uniform motion or in smooth motion (the velocity changes by less than a tenth of the acceleration limit and by less than half of itself per frame), shown by each of one to four cameras as its only target: forward tracking of at least four frames does not raise, and the files written hold one complete trajectory, from the first frame to the last, with correct links in both directions.", "quantifier": "all calibrations (refracting, distorting) that project the positions where the tracker looks, all velocities within the limits, run lengths, buffers before the run", "why_tests_cant": "Runs of every length and all camera arrangements; reading, the ring of frames, projection, search, decision and writing act together", "anchors": ["openptv_python/track.py:trackcorr_c_loop", "openptv_python/track.py:trackcorr_c_finish", "openptv_python/track.py:sorted_candidates_in_volume", "openptv_python/track.py:assess_new_position"]}
{"id": "C99", "title": "Forward tracking does not raise", "statement": "A forward tracking step, and a whole forward run, on valid frames (as read: no links, correspondences that point to existing targets) returns and writes every frame, whatever the number and arrangement of particles and targets; it never ends in an IndexError or ZeroDivisionError.", "quantifier": "all calibrations, numbers and positions of particles and targets, predecessors, run lengths, buffers before the run", "why_tests_cant": "One crash in one step of a run of thousands of frames loses the rest of the run; which combination of targets triggers it depends on ranks in three or four target lists", "anchors": ["openptv_python/track.py:trackcorr_c_loop", "openptv_python/track.py:sorted_candidates_in_volume", "openptv_python/track.py:sort_candidates_by_freq", "openptv_python/track.py:register_closest_neighbs", "openptv_python/track.py:angle_acc", "openptv_python/tracking_frame_buf.py:Pathinfo.register_link_candidate"]}
{"id": "C100", "title": "The volume of a tracking run", "statement": "A tracking run set up from parameters and calibrations tracks in a volume that encloses the entered one in x and z, and every point at the far depth limit on the line of sight of an image corner; a position inside these limits passes the volume check; no displacement within the velocity limits is longer than the length the run divides by; and setting the run up again with the parameters it left gives the same run.", "quantifier": "all parameters, volumes, velocity limits, numbers of cameras and calibrations for which the set-up returns", "why_tests_cant": "Which part of the volume is cut off depends on the geometry of every camera and on the order in which the cameras widen the bounds", "anchors": ["openptv_python/tracking_run.py:TrackingRun.__init__", "openptv_python/multimed.py:volumedimension"]}
{"id": "C101", "title": "Setting up a run leaves the parameters as they were", "statement": "Creating a TrackingRun does not change the volume parameters object of the caller, which the correspondence search uses as well.", "quantifier": "all parameters, volumes, numbers of cameras and calibrations for which the set-up returns", "why_tests_cant": "A shared object changed in a constructor shows only when the caller uses it again; the change depends on the volume", "anchors": ["openptv_python/tracking_run.py:TrackingRun.__init__", "openptv_python/epi.py:epi_mm"]}
{"id": "C102", "title": "Residuals belong to their targets", "statement": "full_calibration returns, for every target used, its residual (change of its image by the last correction, minus its misfit) in the row of that target, and in `used` which targets these are.", "quantifier": "all calibrations, reference points, detections (found or not), flags, image and media parameters, and solvers for which the calibration succeeds", "why_tests_cant": "Whether rows and targets go together depends on which of the points are found and selected; with all points found every test passes", "anchors": ["openptv_python/orientation.py:full_calibration", "openptv_python/orientation.py:orient"]}
{"id": "C103", "title": "A new particle is where its images say", "statement": "If, near the images of the expected position, the nearest free targets of at least two cameras are images of one particle, then the position the tracker computes for a new particle is that of the particle, exactly, and the path is continued to it if it is inside the volume and the motion is accepted.", "quantifier": "all camera arrangements, positions, target lists and tracking parameters", "why_tests_cant": "It must hold for every arrangement of cameras and every set of nearby targets; tests use one rig", "anchors": ["openptv_python/track.py:assess_new_position", "openptv_python/orientation.py:point_position", "openptv_python/track.py:trackcorr_c_loop"]}
{"id": "C104", "title": "Adding particles does not stop a run", "statement": "A forward tracking run with adding switched on does not raise, whatever particles it adds, on inputs on which it does not raise with adding off.", "quantifier": "all set-ups, frames and histories of added particles", "why_tests_cant": "What is added depends on everything before; the correspondence table only goes wrong after a particle has been added", "anchors": ["openptv_python/track.py:add_particle", "openptv_python/track.py:trackcorr_c_loop", "openptv_python/track.py:assess_new_position"]}
{"id": "C105", "title": "Links in space", "statement": "Every link in the files a forward tracking run writes has a reason that can be stated by positions, displacements, angles and the limits of the run: a continuation in the frame after next (a particle of that frame, or a position triangulated from targets near the expected one in at least two cameras), an accepted step from the frame before, or a triangulated position; angle and acceleration of the reason are below their limits, or the acceleration is below a tenth of its limit, and the decision value written is that of the reason.", "quantifier": "all camera arrangements up to four cameras, media, tracking parameters, frames, sequences and adding on or off", "why_tests_cant": "It quantifies over all links of all runs; the angles, displacements and positions are real-valued functions of all inputs", "anchors": ["openptv_python/track.py:trackcorr_c_loop", "openptv_python/track.py:angle_acc", "openptv_python/track.py:pos3d_in_bounds", "openptv_python/track.py:search_volume_center_moving", "openptv_python/track.py:assess_new_position"]}
{"id": "C106", "title": "One block file serves calibration and manual orientation", "statement": "Every reader of a calibration block file returns, for a file with one line (number, x, y, z) per point, the points of the file in order with their numbers and positions as written; a file accepted by one reader is accepted by the other.", "quantifier": "all block files, numbers of points, numbers of decimals and cameras", "why_tests_cant": "The file is written by the user; tests read one file with each reader", "anchors": ["openptv_python/sortgrid.py:read_calblock", "openptv_python/orientation.py:read_calblock", "openptv_python/orientation.py:read_man_ori_fix"]}
{"id": "C107", "title": "Manual orientation uses the points that were named", "statement": "The four points that the manual orientation of a camera uses are those of the block file whose numbers stand in the line of that camera in the file of clicked points, in that order; if one of them does not exist the manual orientation is told so.", "quantifier": "all block files, lists of clicked points and cameras", "why_tests_cant": "It depends on two files that the user writes; tests use one pair, numbered 1..n in order", "anchors": ["openptv_python/orientation.py:read_man_ori_fix", "openptv_python/orientation.py:read_calblock"]}
{"id": "C108", "title": "Calibration objects keep what they are given", "statement": "After any sequence of calls, each getter of a Calibration object returns what the last call of its setter gave (or the documented default), increment_attribute adds to the parameter it names and to nothing else, the rotation matrix is the rotation by the angles, calls on one object do not change another, and an array that a getter returned is a value: later calls do not change it and writing into it does not change the object.", "quantifier": "all histories of constructor, getter, setter, increment and update calls on any number of objects, with writes into returned arrays", "why_tests_cant": "It is about all interleavings of calls and about shared arrays; tests set and get once", "anchors": ["openptv_python/calibration.py:Calibration", "openptv_python/calibration.py:Calibration.increment_attribute", "openptv_python/calibration.py:Calibration.set_angles", "openptv_python/calibration.py:Calibration.get_radial_distortion", "openptv_python/calibration.py:Calibration.set_rotation_matrix"]}
{"id": "C109", "title": "A particle that four cameras see exactly is reported", "statement": "In air, if a particle is seen by all four cameras, each of its coordinates exact and inside the sensor, its targets alike, its epipolar lines not parallel to the y axis and not crowded (at most 40 fitting coordinates), and the scratch array does not overflow, then correspondences reports its four targets as a quadruplet, unless one of them is part of another quadruplet that is as exact; and triangulating the reported coordinates gives the particle, with error 0. The call returns whenever the epipolar lines can be computed.", "quantifier": "all arrangements of four cameras, volumes, acceptance criteria, target lists and particles", "why_tests_cant": "It combines projection, epipolar geometry, candidate search, matching and greedy selection for every arrangement; tests use one rig", "anchors": ["openptv_python/correspondences.py:correspondences", "openptv_python/correspondences.py:match_pairs", "openptv_python/correspondences.py:four_camera_matching", "openptv_python/epi.py:epi_mm", "openptv_python/find_candidate.py:find_candidate", "openptv_python/orientation.py:point_position"]}
{"id": "C110", "title": "The lists returned by py_correspondences", "statement": "py_correspondences returns, for quadruplets, triplets and pairs, lists in which every entry of a camera names an existing target with its pixel position or says that the camera is not part (identifier -1, position -999); exactly four, three, two cameras are part; no target of a camera is named twice in all lists; the tnr of a target that is named is the number of its entry, counted through all three lists, other targets keep their tnr; the last result is the number of entries.", "quantifier": "all target lists, calibrations, parameters and results of the searches", "why_tests_cant": "It is about every outcome of the searches and the bookkeeping between sorted coordinates and targets", "anchors": ["openptv_python/correspondences.py:py_correspondences", "openptv_python/correspondences.py:correspondences"]}
{"id": "C111", "title": "From pixel positions to the particle", "statement": "In air and with cameras without lens distortion: if the image of a particle in each of four pictures is exactly the pixel position of a target, then match_coords of the pictures, py_correspondences, get_by_pnrs of the identifiers it lists as quadruplets and point_position of its rows find the particle: one row lists its four targets with their pixel positions, and point_position of that row is the particle, with error 0 (if the particle is unambiguous, not on one line with two cameras, not in a crowd, and nothing overflows).", "quantifier": "all arrangements of four cameras, lists of detections in any order, volumes, criteria and particles", "why_tests_cant": "It is the composition of five functions over sorted and unsorted numberings; tests check each alone on one rig", "anchors": ["openptv_python/tracking_frame_buf.py:match_coords", "openptv_python/correspondences.py:py_correspondences", "openptv_python/tracking_frame_buf.py:get_by_pnrs", "openptv_python/orientation.py:point_position", "openptv_python/trafo.py:pixel_to_metric"]}
{"id": "C112", "title": "A target inside the picture is inside the sensor of the search", "statement": "If a target lies inside the picture and on the epipolar segment, passes the criteria and has at most 40 competitors, find_candidate finds it, whatever the lens parameters of the camera.", "quantifier": "all cameras, detections and segments", "why_tests_cant": "The sensor corners and the targets go through different formulas; tests use cameras whose x scale is 1 or whose principal point is 0", "anchors": ["openptv_python/find_candidate.py:find_candidate", "openptv_python/trafo.py:dist_to_flat"]}
{"id": "C113", "title": "Measuring with a single camera", "statement": "single_cam_correspondences of a camera's targets and the coordinates match_coords makes of them lists every target exactly once, with its pixel position, in the order of the flat x coordinate, and gives every target the number of its entry as tnr. In air and without lens distortion, if the image of a particle is exactly the pixel position of a target and the particle is half way between the depth limits, point_positions of the coordinates that get_by_pnrs looks up for these identifiers returns the particle in the row of that target, with error 0.", "quantifier": "all cameras, lists of detections in any order, volumes and particles", "why_tests_cant": "The numbering of targets, coordinates and entries must agree for every list; tests use one list of sorted targets", "anchors": ["openptv_python/correspondences.py:single_cam_correspondences", "openptv_python/tracking_frame_buf.py:match_coords", "openptv_python/tracking_frame_buf.py:get_by_pnrs", "openptv_python/orientation.py:point_positions", "openptv_python/orientation.py:single_cam_point_positions"]}
{"id": "C114", "title": "From pictures to the trajectory", "statement": "Four cameras in air without lens distortion take pictures of one particle in uniform or smooth motion; in every frame the target of each picture is exactly the image of the particle. If the results of match_coords, py_correspondences, get_by_pnrs and point_position are recorded frame by frame and the frames are tracked, the run does not raise and writes one complete trajectory: the true positions, linked from the first frame to the last.", "quantifier": "all arrangements of four cameras, criteria, motions within the limits, and sequence lengths", "why_tests_cant": "It is the composition of the whole chain over all frames; tests run single stages or one data set", "anchors": ["openptv_python/correspondences.py:py_correspondences", "openptv_python/tracking_frame_buf.py:match_coords", "openptv_python/orientation.py:point_position", "openptv_python/track.py:trackcorr_c_loop"]}
{"id": "C115", "title": "A particle seen by three of four cameras becomes a triplet", "statement": "In air, if exactly three of four cameras see a particle, its coordinates there are exact, and its three targets fit one another only, then correspondences (without all_cam_flag, and with room for all triplets) reports these three targets as a triplet.", "quantifier": "all arrangements of cameras, criteria, particles, other targets, and choices of three cameras", "why_tests_cant": "A lost or stolen particle depends on all other targets and on the order of the search", "anchors": ["openptv_python/correspondences.py:correspondences", "openptv_python/correspondences.py:match_pairs", "openptv_python/correspondences.py:take_best_candidates", "openptv_python/correspondences.py:three_camera_matching"]}
{"id": "C116", "title": "A particle seen by two of four cameras becomes a pair", "statement": "In air, if exactly two of four cameras see a particle, its coordinates there are exact, and its two targets fit one another only, then correspondences (without all_cam_flag, and with room for all pairs) reports these two targets as a pair.", "quantifier": "all arrangements of cameras, criteria, particles, other targets, and choices of two cameras", "why_tests_cant": "A lost or stolen particle depends on all other targets and on the order of the search", "anchors": ["openptv_python/correspondences.py:correspondences", "openptv_python/correspondences.py:match_pairs", "openptv_python/correspondences.py:take_best_candidates", "openptv_python/correspondences.py:consistent_pair_matching"]}
{"id": "C117", "title": "The frame buffer is a queue", "statement": "Under every history of push, pop, fb_next and fb_prev the frame buffer behaves as a queue of buf_len places: frames come out once each and in the order in which they were pushed, a full buffer refuses a frame, an empty one returns nothing, a rotation moves the oldest frame to the end (or the newest to the front), and no call raises.", "quantifier": "all buffers, lengths, frames and histories of calls", "why_tests_cant": "Arbitrary histories of calls, any number of rounds through the ring", "anchors": ["openptv_python/tracking_frame_buf.py:FrameBufBase", "openptv_python/tracking_frame_buf.py:FrameBuf"]}
{"id": "C118", "title": "Matched coordinates as arrays", "statement": "matched_coords_as_arrays returns the positions and numbers of all matched coordinates in order, and get_by_pnrs with the returned numbers returns the returned positions, if the numbers are different (which they are after match_coords with reset numbers).", "quantifier": "all lists of matched coordinates, all contents of uninitialised memory", "why_tests_cant": "All lists; leftovers of uninitialised memory appear by chance", "anchors": ["openptv_python/tracking_frame_buf.py:matched_coords_as_arrays", "openptv_python/tracking_frame_buf.py:get_by_pnrs", "openptv_python/tracking_frame_buf.py:match_coords"]}
{"id": "C119", "title": "A tracking run from files is as written", "statement": "If tr_new returns, the run uses the cameras, image and pixel sizes, media, frame range, base names, velocity limits, angle and acceleration that are written on the documented lines of the four files, in a volume that encloses the written one; superfluous calibrations change nothing; a missing file or too few calibrations raise.", "quantifier": "all contents of the four files, calibrations and tolerances", "why_tests_cant": "All files; a value read from the wrong line shows only in the tracking result", "anchors": ["openptv_python/tracking_run.py:tr_new", "openptv_python/parameters.py:read_control_par", "openptv_python/parameters.py:read_track_par", "openptv_python/parameters.py:convert_track_par_to_tuple"]}
{"id": "C120", "title": "Box blur and mask", "statement": "fast_box_blur_numba returns an image whose pixels away from the edges are the means of the windows around them, whatever the schedule of its parallel loop over the rows; subtract_mask clears exactly the pixels under a zero mask.", "quantifier": "all images, sizes, half widths and schedules of the parallel loop", "why_tests_cant": "All sizes; the code has separate loops for edges and middle", "anchors": ["openptv_python/image_processing.py:fast_box_blur_numba", "openptv_python/image_processing.py:subtract_mask"]}
{"id": "C121", "title": "A calibration block is identified", "statement": "If the guess of a camera puts every reference point at most d pixels from its dot, d less than the search window, all dots are in the picture and every other detection is more than 2 d from the dot of a point, then match_detection_to_ref returns for every point its own dot, numbered with the index of the point, an unused target for every point that is not seen, and leaves all other detections as they were.", "quantifier": "all cameras, media, blocks, lists of detections in any order with any dirt, offsets d and windows", "why_tests_cant": "All blocks and orders of detections; ties and shared neighbours depend on all of them", "anchors": ["openptv_python/orientation.py:match_detection_to_ref", "openptv_python/sortgrid.py:sortgrid", "openptv_python/sortgrid.py:nearest_neighbour_pix"]}
{"id": "C122", "title": "Calibrating with perfect data changes nothing", "statement": "If a camera without lens distortion sees points of a block exactly where its parameters put them, in any order, among other detections and with points missing, match_detection_to_ref followed by full_calibration succeeds, reports residual 0 for every target and the indices of the points that were seen, and leaves every parameter as it was.", "quantifier": "all cameras without distortion, media, blocks, detections, flags and solvers that answer 0 for a zero right-hand side", "why_tests_cant": "All blocks, flags and solvers; two functions of two modules must agree on numbering and on units", "anchors": ["openptv_python/orientation.py:match_detection_to_ref", "openptv_python/orientation.py:full_calibration", "openptv_python/orientation.py:orient"]}
{"id": "C123", "title": "The adjustment is a sequence of least-squares steps", "statement": "Every pass of orient and raw_orient minimises the squared misfits of the used points, linearised at the present parameters, plus (in orient) the squared distances of the inner parameters from the given ones, weighted 1 when they may be adjusted and 1e20 when not, and then carries out exactly the changes of parameters that may be adjusted. orient ends after the first pass in which no change is larger than 0.0001, or fails after 80; raw_orient ends after the first pass without a change larger than 0.1, or fails after 20.", "quantifier": "all cameras, media, numbers of points, detections, flags and least-squares solvers", "why_tests_cant": "All systems and numbers of passes; a wrong sign, weight or column changes only the speed or place of convergence of an example", "anchors": ["openptv_python/orientation.py:orient", "openptv_python/orientation.py:raw_orient", "openptv_python/orientation.py:num_deriv_exterior"]}
{"id": "C124", "title": "The lens columns are derivatives", "statement": "For a calibration without lens distortion, the entries of the linear system of orient for principal point, k1, k2, k3, p1, p2, x scale and shear are the exact partial derivatives of the image of the point over these parameters.", "quantifier": "all points, cameras without distortion, media and parameters", "why_tests_cant": "A statement about limits for all points and cameras", "anchors": ["openptv_python/orientation.py:orient", "openptv_python/imgcoord.py:img_coord", "openptv_python/trafo.py:distort_brown_affine"]}
{"id": "C125", "title": "Links are short", "statement": "With adding off, every link of a forward run joins positions less than B + 2 dacc apart (less than B + dacc if the particle has no predecessor), where B is the longest displacement the velocity limits allow.", "quantifier": "all frames, particle numbers, cameras and calibrations, run lengths", "why_tests_cant": "The bound must hold for every configuration of particles and every history of links before", "anchors": ["openptv_python/track.py:trackcorr_c_loop", "openptv_python/track.py:pos3d_in_bounds", "openptv_python/track.py:angle_acc"]}
{"id": "C126", "title": "A particle that keeps away from the others is followed", "statement": "Adding off, two to four cameras: a particle in smooth motion, clearly seen by all cameras where it is expected, that keeps the distance B + 2 dacc from the other particles (B the longest displacement within the velocity limits) is linked from the first frame to the last, whatever the others do: every written frame has it at its position, linked to itself in the frames before and after.", "quantifier": "all numbers of particles and frames, all motions of the other particles, any numbering in each frame", "why_tests_cant": "The others may be any number and do anything: enter, leave, be lost or be linked wrongly", "anchors": ["openptv_python/track.py:trackcorr_c_loop", "openptv_python/track.py:sorted_candidates_in_volume", "openptv_python/tracking_run.py:TrackingRun"]}
{"id": "C127", "title": "Which file a frame goes to", "statement": "A frame of targets written under an old-type name changes one file only: the name with the frame number, zero-filled to five digits and never cut, in the place of the mark # (or at the end), followed by _targets; it is read back under the name with %05d in that place. A link or priority with decimals in a path file is read without them.", "quantifier": "all names without further % and #, all positive frame numbers, all files on the disk, all lists of targets", "why_tests_cant": "For every name and number; a fixed width would cut large frame numbers", "anchors": ["openptv_python/tracking_frame_buf.py:write_targets", "openptv_python/tracking_frame_buf.py:read_targets", "openptv_python/tracking_frame_buf.py:read_path_frame"]}
{"id": "C128", "title": "Triangulation with measuring errors", "statement": "If the rays of all used cameras (at least two) pass a point at a distance of at most δ, and any two of them cross with an angle of sine at least σ, the triangulated position is within δ (1 + 2/σ) of the point and the reported ray distance is at most 2 δ. In air it is enough that every image position is in error by at most δ · cc / depth.", "quantifier": "all numbers of cameras, calibrations, media (first part), points and measuring errors", "why_tests_cant": "The bound is over a continuum of geometries and errors", "anchors": ["openptv_python/orientation.py:point_position", "openptv_python/orientation.py:skew_midpoint", "openptv_python/ray_tracing.py:ray_tracing"]}
{"id": "C129", "title": "Separate spots are detected one by one", "statement": "If a picture is dark (at or below the threshold) apart from spots that do not touch each other, lie in the search region and hold together for the discontinuity parameter (every connected spot does if the parameter is at least the range of grey values), target recognition returns exactly one target for each spot within the size limits and no other target, with the pixel count, extents, summed grey value and grey-value-weighted centre of the spot. For every picture the position of a target lies within the columns and rows of its pixels.", "quantifier": "all images, regions, limits, thresholds >= 0, numbers, shapes and grey values of the spots", "why_tests_cant": "Shapes and arrangements of spots are unbounded; the scan order, used pixels and the growth rule interact", "anchors": ["openptv_python/segmentation.py:targ_rec", "openptv_python/segmentation.py:fast_targ_rec"]}
{"id": "C130", "title": "Trajectories on disk", "statement": "Frames first .. last are on files (targets, correspondences). If one particle moves smoothly through them, all cameras see it clearly where it is expected, and it keeps its distance from all others, then after a forward tracking run (adding off) that returns, reading the files with links gives this particle in every frame at its position (rounded to three decimals), linked to itself in the frames before and after, with no link at the two ends; although the run overwrites files that it reads. The run on the files returns whenever the same run in memory returns, all frames can be read, and every camera has a target in every frame.", "quantifier": "all calibrations of two to four cameras, file contents, numbers of frames and particles, particle numbers in each frame, positions and motions of the other particles", "why_tests_cant": "File texts, frame numbers and the interleaving of reads and writes are unbounded; tests use one data set", "anchors": ["openptv_python/track.py:trackcorr_c_loop", "openptv_python/track.py:trackcorr_c_finish", "openptv_python/track.py:track_forward_start", "openptv_python/tracking_frame_buf.py:FrameBuf.read_frame_at_end", "openptv_python/tracking_frame_buf.py:FrameBuf.write_frame_from_start"]}
{"id": "C131", "title": "Restart after an interruption", "statement": "A forward tracking run (adding off) overwrites the files it reads. If the run on some files ends regularly, and it is interrupted at any point instead, so that every file on disk is either still the old one or already the new one, then starting it again ends regularly with exactly the files of the uninterrupted run. This needs files whose numbers have no more decimals than the run writes (three for positions, four for images), which all files written by the package have.", "quantifier": "all file contents and names, numbers of frames, geometries and searches; all mixtures of old and new files, i.e. all crash points between files and every order in which files reach the disk", "why_tests_cant": "The number of crash points and of mixtures of old and new files is exponential in the length of the sequence; a test interrupts a run at one point", "anchors": ["openptv_python/track.py:trackcorr_c_loop", "openptv_python/track.py:trackcorr_c_finish", "openptv_python/track.py:track_forward_start", "openptv_python/tracking_frame_buf.py:Frame.read", "openptv_python/tracking_frame_buf.py:Frame.write", "openptv_python/tracking_frame_buf.py:write_path_frame", "openptv_python/tracking_frame_buf.py:read_path_frame", "openptv_python/tracking_frame_buf.py:write_targets"]}
{"id": "C132", "title": "A swarm is reconstructed", "statement": "Adding off, two to four cameras: if every particle of every frame belongs to a swarm whose particles move smoothly, are clearly seen by all cameras where they are expected, and keep the distance B + 2 dacc from one another between two frames, then a forward run that returns leaves exactly the true links: every frame has as many particles as before, and every particle is linked to itself in the frame before and the frame after and to nothing else - in the frames written and, with positions rounded to three decimals, when the files are read again. Whatever the particles do, the run loses none of them from the files and moves none.", "quantifier": "all calibrations, numbers of particles and of frames, trajectories, orders of the particles in the frames and file contents that meet the conditions", "why_tests_cant": "The particles compete for one another in every step; all numbers of particles, orders and lengths must be covered", "anchors": ["openptv_python/track.py:trackcorr_c_loop", "openptv_python/track.py:trackcorr_c_finish", "openptv_python/tracking_frame_buf.py:Frame.write", "openptv_python/tracking_frame_buf.py:Frame.read"]}
{"id": "C133", "title": "Tracking a sequence again", "statement": "A forward run (adding off) over files that such a run has already tracked: the third run and all later ones return, with the result of the second, and leave every file exactly as it was. The second run also changes nothing if the original files had no more than three decimals for positions and four for images.", "quantifier": "all file contents and names, numbers of frames, geometries and searches", "why_tests_cant": "All contents of the files and all lengths of sequences; equality of whole files", "anchors": ["openptv_python/track.py:trackcorr_c_loop", "openptv_python/track.py:trackcorr_c_finish", "openptv_python/tracking_frame_buf.py:Frame.read", "openptv_python/tracking_frame_buf.py:Frame.write"]}
{"id": "C134", "title": "Several layers of glass", "statement": "A point behind several plane layers of given refractive indices and thicknesses is imaged where the refraction at every face puts it, up to the accuracy of the iteration, the line of sight of that image point passes through the point, and set_layers is all that is needed to describe the layers.", "quantifier": "all stacks of layers, media, cameras and points", "why_tests_cant": "All numbers of layers, indices, thicknesses and points; with one layer every test passes", "anchors": ["openptv_python/parameters.py:MultimediaPar.set_layers", "openptv_python/multimed.py:fast_multimed_r_nlay", "openptv_python/multimed.py:multimed_r_nlay", "openptv_python/imgcoord.py:img_coord", "openptv_python/ray_tracing.py:ray_tracing"]}
{"id": "C135", "title": "Triangulation through a window", "statement": "The line of sight of the image that is computed for a point behind the window passes the point within the accuracy of the refraction iteration, and at least two such images, with lines of sight that cross, are triangulated to a position near the point with a small reported ray distance.", "quantifier": "all cameras in front of the window, points behind it, thicknesses and refractive indices not below that of the first medium", "why_tests_cant": "All positions, orientations, media and points: the images come out of an iteration that stops early and the lines of sight out of a direct computation, so that tests see only that they agree for the points tried", "anchors": ["openptv_python/imgcoord.py:flat_image_coord", "openptv_python/multimed.py:fast_multimed_r_nlay", "openptv_python/ray_tracing.py:ray_tracing", "openptv_python/orientation.py:point_position"]}
{"id": "C136", "title": "Measured positions through lens and window", "statement": "Targets measured with an error of at most η pixels, in cameras with a radially distorting lens, or any weak one, behind which a window lies, are triangulated to a position near the particle: the lens correction at most doubles the error, the window adds the accuracy of its iteration, and the position is within δ(1+2/σ) of the particle, where δ bounds the miss of each line of sight and σ the sine of the angles at which they cross. The same holds of the new particle that tracking makes of free targets near the expected image, and the path is continued to it if every position within that error would be accepted.", "quantifier": "all cameras with mild radial or weak lenses in front of the window, points behind it, pixel errors, media and positions", "why_tests_cant": "All orientations, media, lens parameters and measuring errors within the bounds: two iterations that stop early (lens, refraction) and a direct computation are composed, and a test can only try some points and some errors", "anchors": ["openptv_python/trafo.py:correct_brown_affine", "openptv_python/imgcoord.py:flat_image_coord", "openptv_python/ray_tracing.py:ray_tracing", "openptv_python/orientation.py:point_position", "openptv_python/track.py:assess_new_position"]}
{"id": "C137", "title": "Backward tracking closes gaps", "statement": "A trajectory that is only partly linked in consistently linked files - with any number of gaps, at any place, wide or narrow - is whole after a backward run: if backward in time the motion at each gap is smooth, the other particles keep away from it by more than the longest step within the velocity limits, and all cameras show the particle where it is expected, then every frame the run writes under its own number has the particle where it was, linked to the particle of the frame before and of the frame after.", "quantifier": "all calibrations with two to four cameras, velocity limits, sequences and trajectories, numbers and places of gaps, other particles and their links, buffers before the run", "why_tests_cant": "Numbers of frames, gaps and other particles are unbounded, and each link made in one step is what the next step starts from", "anchors": ["openptv_python/track.py:trackback_c", "openptv_python/track.py:sorted_candidates_in_volume", "openptv_python/track.py:angle_acc", "openptv_python/tracking_frame_buf.py:FrameBufBase"]}
{"id": "C138", "title": "Backward tracking does not raise", "statement": "A backward tracking step, and a whole backward run, over consistently linked frames returns, whatever the number and arrangement of particles and targets and whether or not particles are to be added; it never ends in an IndexError or ZeroDivisionError.", "quantifier": "all calibrations, numbers and positions of particles and targets, links, run lengths, buffers before the run", "why_tests_cant": "One crash in one step of a run of thousands of frames loses the rest of the run; which combination triggers it depends on ranks in several target lists, and forward and backward tracking guard differently against bad numbers", "anchors": ["openptv_python/track.py:trackback_c", "openptv_python/track.py:sorted_candidates_in_volume", "openptv_python/track.py:angle_acc", "openptv_python/tracking_frame_buf.py:Pathinfo.register_link_candidate"]}
{"id": "C139", "title": "Copying a calibration", "statement": "After a.copy(b), b has the values of a in every attribute, a is unchanged, and no other object is affected.", "quantifier": "all histories of calls on any number of calibration objects before the copy, all pairs of objects", "why_tests_cant": "The result depends on which arrays the objects refer to after a history of setters and getters", "anchors": ["openptv_python/calibration.py:Calibration.copy"]}
{"id": "C140", "title": "Parameter objects keep what they are given", "statement": "A list attribute of a parameter object (layers, depth limits, image names, thresholds) has the value that was set, read or is the documented default, whatever the caller does later to the lists it passed and to other parameter objects, until it is set again.", "quantifier": "all histories of constructor, setter, getter and list operations on any number of objects and lists", "why_tests_cant": "Sharing shows only when a list is changed after it was passed on; the histories are unbounded", "anchors": ["openptv_python/parameters.py:MultimediaPar.set_layers", "openptv_python/parameters.py:VolumePar.set_z_min_lay", "openptv_python/parameters.py:SequencePar.set_img_base_name", "openptv_python/parameters.py:TargetPar.get_grey_thresholds"]}
{"id": "C141", "title": "Records compare equal exactly if they are equal", "statement": "compare_targets, compare_path_info and compare_corres say True exactly for records with equal fields, a record is not equal to an object of another kind, vec_cmp says True exactly for vectors that agree within the tolerance, reset_links makes the links of a record those of a new one, and register_link_candidate appends to the two lists of a record, up to 80 candidates, and raises IndexError after that.", "quantifier": "all records, vectors and tolerances", "why_tests_cant": "All pairs of values; a field that is forgotten shows only for records that differ in nothing else", "anchors": ["openptv_python/tracking_frame_buf.py:Target.__eq__", "openptv_python/tracking_frame_buf.py:compare_targets", "openptv_python/tracking_frame_buf.py:Pathinfo.__eq__", "openptv_python/tracking_frame_buf.py:Pathinfo.reset_links", "openptv_python/tracking_frame_buf.py:compare_corres", "openptv_python/vec_utils.py:vec_cmp", "openptv_python/tracking_frame_buf.py:Pathinfo.register_link_candidate"]}
{"id": "C142", "title": "Targets are in the order the tracker searches them", "statement": "Detected targets are in the order of y that the search of the tracker relies on, so that a target inside the search window is found; sort_target_y returns the same targets in this order, equal ones in their old order.", "quantifier": "all pictures, target lists and search windows", "why_tests_cant": "All arrangements of spots; with round spots of one size the order is usually right", "anchors": ["openptv_python/segmentation.py:targ_rec", "openptv_python/tracking_frame_buf.py:sort_target_y", "openptv_python/track.py:candsearch_in_pix"]}
{"id": "C143", "title": "Four targets that fit are reported unless a better quadruplet takes one", "statement": "In any media, and however inexact the coordinates are, if four targets, one of each camera, lie pairwise within eps0 of each other's epipolar lines (which meet the sensors and have at most 40 fitting targets), are alike, and their score (sum of correlations over sum of distances) is above corrmin, then correspondences reports them as a quadruplet, or one of them is part of a reported quadruplet with a score at least as high. If they fit nothing else, they are reported.", "quantifier": "all calibrations, media, volumes, target lists, and all groups of four targets", "why_tests_cant": "All arrangements of targets of four cameras and all competitions between quadruplets", "anchors": ["openptv_python/correspondences.py:correspondences", "openptv_python/correspondences.py:match_pairs", "openptv_python/correspondences.py:take_best_candidates", "openptv_python/find_candidate.py:find_candidate", "openptv_python/epi.py:epi_mm", "openptv_python/correspondences.py:four_camera_matching"]}
{"id": "C144", "title": "Three or two targets that fit are reported unless a better group takes one", "statement": "In any media, and however inexact the coordinates are, if three targets of different cameras fit one another with a score above corrmin, then correspondences (without all_cam_flag, with room for all triplets) reports them as a triplet, or one of them is part of a reported quadruplet or of a reported triplet with a score at least as high; likewise for two targets, where the second is the only fit of the first, and pairs. If they fit nothing else, they are reported.", "quantifier": "all calibrations, media, volumes, target lists, and all groups of three or two targets", "why_tests_cant": "All arrangements of targets of four cameras and all competitions between groups", "anchors": ["openptv_python/correspondences.py:correspondences", "openptv_python/correspondences.py:match_pairs", "openptv_python/correspondences.py:take_best_candidates", "openptv_python/find_candidate.py:find_candidate", "openptv_python/epi.py:epi_mm", "openptv_python/correspondences.py:three_camera_matching", "openptv_python/correspondences.py:consistent_pair_matching"]}
{"id": "C145", "title": "A cloud of particles gives exactly its quadruplets", "statement": "If every target of the four cameras is the (inexact) image of one of N particles that all cameras see, targets of the same particle fit with a score above corrmin and targets of different particles never fit, then correspondences finds exactly N quadruplets, one for every particle, no triplets and no pairs, and marks every target with the number of its quadruplet; the position computed for each is then as near to the particle as C128 says.", "quantifier": "all N, all media, calibrations and clouds of particles, all noise", "why_tests_cant": "Every number and arrangement of particles", "anchors": ["openptv_python/correspondences.py:correspondences", "openptv_python/correspondences.py:match_pairs", "openptv_python/correspondences.py:four_camera_matching", "openptv_python/correspondences.py:take_best_candidates", "openptv_python/find_candidate.py:find_candidate", "openptv_python/epi.py:epi_mm", "openptv_python/orientation.py:point_position"]}
{"id": "C146", "title": "Killed while writing a frame", "statement": "If the process is killed at any point while a frame is written, every file is as before or a beginning of what the complete write makes of it; the targets files are begun after the path files are complete, in the order of the cameras; all other frames read as before. What is left of the targets of a camera is read as before, or refused with an exception, or equals the targets that were being written. A forward run that is killed leaves the frames before that one completely written and the ones after it as they were.", "quantifier": "all frames, files, file names, numbers of cameras and particles, all points in the sequence of file operations and all lengths of the part of an open file that reached the disk, all runs", "why_tests_cant": "Every crash point in every write", "anchors": ["openptv_python/tracking_frame_buf.py:write_path_frame", "openptv_python/tracking_frame_buf.py:write_targets", "openptv_python/tracking_frame_buf.py:Frame.write", "openptv_python/tracking_frame_buf.py:read_path_frame", "openptv_python/tracking_frame_buf.py:read_targets", "openptv_python/track.py:trackcorr_c_loop"]}
{"id": "C147", "title": "Correction of any weak lens", "statement": "For every lens with radial distortion, decentering, scale and shear that together displace by at most a part κ ≤ 1 % of the radius up to R: whatever point within R, and whatever measured point within 0.9 R, dist_to_flat of the measured point is as near to the point as the measured point is to flat_to_dist of the point, up to the factor 5/2 and a rest of second order in the distortion (products of shear or decentering with the distortion), one of third order (two passes are all that the stopping rule guarantees) and one proportional to κ times the tolerance. Positions triangulated from measured points through such lenses and through a window are correspondingly near.", "quantifier": "all lens parameters, radii, points, measured points, principal points and tolerances within the bounds", "why_tests_cant": "All real parameters; the iteration stops at any of 201 passes", "anchors": ["openptv_python/trafo.py:distort_brown_affine", "openptv_python/trafo.py:correct_brown_affine", "openptv_python/trafo.py:flat_to_dist", "openptv_python/trafo.py:dist_to_flat", "openptv_python/orientation.py:point_position", "openptv_python/track.py:assess_new_position"]}
{"id": "C148", "title": "Synthetic images lead back to the positions", "statement": "image_coordinates (flat_image_coordinates) of an array of positions has one row per position, equal to img_coord (flat_image_coord) of it; it raises exactly if the projection of a position raises, and ValueError if a row has not three columns. Positions behind the windows of cameras with weak lenses, projected with image_coordinates, converted to pixels with arr_metric_to_pixel and back with pixel_to_metric, corrected with dist_to_flat and triangulated with point_position, are recovered within the accuracy of lens correction and refraction.", "quantifier": "all arrays of positions, cameras with weak lenses in front of a window, media, pixel sizes and tolerances", "why_tests_cant": "All real positions and orientations, arrays of any length", "anchors": ["openptv_python/imgcoord.py:image_coordinates", "openptv_python/imgcoord.py:flat_image_coordinates", "openptv_python/trafo.py:arr_metric_to_pixel", "openptv_python/trafo.py:pixel_to_metric", "openptv_python/trafo.py:dist_to_flat", "openptv_python/orientation.py:point_position"]}
{"id": "C149", "title": "From inexact pictures of a swarm to its trajectories", "statement": "Four cameras in air film any number of particles, with inexact targets. If in every frame the targets of a particle fit one another well enough, targets of different particles do not fit, and the lines of sight pass the particle at most at the distance δ, crossing at angles of sine at least σ, then correspondences and point_position give exactly the particles, each within δ(1+2/σ) of its place; and if the particles keep apart, move smoothly and are seen where they are expected, a forward tracking run on the recorded results links every particle to itself, and to nothing else, in every frame.", "quantifier": "all numbers of particles and frames, all motions, calibrations, orders of targets and errors within the bounds", "why_tests_cant": "All real positions, errors and arrangements of pictures, for runs of any length", "anchors": ["openptv_python/correspondences.py:py_correspondences", "openptv_python/correspondences.py:correspondences", "openptv_python/tracking_frame_buf.py:get_by_pnrs", "openptv_python/orientation.py:point_position", "openptv_python/track.py:trackcorr_c_loop", "openptv_python/tracking_run.py:TrackingRun"]}
{"id": "C150", "title": "Rounding errors of conversions, rotations, projection and triangulation are negligible", "statement": "In double precision, pixel_to_metric and metric_to_pixel are right, and lead back to where they started, up to two billionths of a pixel, for images up to 100 000 pixels wide, pixels between a nanometre and a millimetre and positions up to a million pixels; and the matrix that a Calibration computes from its angles is the rotation by them up to 2e-15 in every entry, and orthonormal up to 2e-14; and the midpoint that skew_midpoint computes from two rays is right up to 1e-7 mm in every coordinate, and its distance of the rays up to 3e-7 mm, if the rays begin within ten metres of the origin, cross under six degrees or more and come nearest to each other within ten metres of their beginnings; and the position that point_position computes from such rays of up to forty cameras is right up to 2e-7 mm, the mean distance of the rays up to 4e-7 mm; and the score that weighted_dumbbell_precision computes from up to 1600 such positions within twenty metres of the origin is right up to 6e-7, plus 9e-7 times the weight, for weights up to a thousand and dumbbells of a millimetre or longer, and so is the score computed from the rays, by triangulating in double precision; and the collinearity equations of flat_image_coord give the position in the picture up to 3e-7 mm, for principal distances up to a metre, cameras and points within ten metres of the origin, points at least a centimetre from the plane of the camera and a field of view up to 63 degrees to either side.", "quantifier": "all positions, image and pixel sizes within the bounds, all angles, every way of rounding with the errors of double precision, all pairs of rays so placed, every order in which the dot products are summed", "why_tests_cant": "All double precision numbers; the errors add up differently for every input", "anchors": ["openptv_python/trafo.py:pixel_to_metric", "openptv_python/trafo.py:metric_to_pixel", "openptv_python/calibration.py:rotation_matrix", "openptv_python/orientation.py:skew_midpoint", "openptv_python/orientation.py:point_position", "openptv_python/imgcoord.py:flat_image_coord", "openptv_python/orientation.py:weighted_dumbbell_precision"]}
{"id": "C151", "title": "Every ray that passes the window is traced", "statement": "ray_tracing of an image point of a camera with a nonzero principal distance, a rotation matrix and a glass vector returns numbers, not NaN, exactly if the ray is not totally reflected at the window; in particular for a ray that meets the window at a right angle.", "quantifier": "all image points, orientations, positions, glass vectors, thicknesses and refractive indices; exact and double precision arithmetic", "why_tests_cant": "The failure in double precision depends on the last digit of a sum of squares: it happens for some orientations and not for their neighbours", "anchors": ["openptv_python/ray_tracing.py:ray_tracing", "openptv_python/ray_tracing.py:fast_ray_tracing", "openptv_python/vec_utils.py:unit_vector"]}
{"id": "C152", "title": "The angle of a moving particle is a number", "statement": "angle_acc of a particle that is predicted to move and has moved returns an angle and an acceleration that are numbers, near the exact angle between predicted and found displacement and the exact distance between predicted and found position; a particle that goes straight on with an acceleration below the limit is kept by the tracker.", "quantifier": "all start, predicted and found positions (within ten metres of the origin for the accuracy); exact and double precision arithmetic, any library functions of that precision", "why_tests_cant": "The failure in double precision depends on the last digit of a product of square roots: it happens for some straight motions and not for their neighbours", "anchors": ["openptv_python/track.py:angle_acc", "openptv_python/track.py:trackcorr_c_loop"]}
{"id": "C153", "title": "The parallel matrix product does not depend on the schedule", "statement": "matmul_numba_optimized(a, b, c, m, n, k) stores into the first m rows and k columns of a the product of the first m rows and n columns of b and the first n rows and k columns of c, every entry summed in the order of the indices, and changes no other entry, however the steps of the threads are interleaved and whichever arrays are passed.", "quantifier": "all sizes, contents and aliasings of the arrays, and all interleavings of the threads", "why_tests_cant": "A schedule cannot be chosen in a test, and small matrices are done by one thread before the next begins", "anchors": ["openptv_python/ray_tracing.py:matmul_numba_optimized"]}
{"id": "C154", "title": "Setters and getters of single attributes", "statement": "The getters of SequencePar, TrackPar, ControlPar, TargetPar and Target (for VolumePar, the attributes) return what was given to the setter of the same name in its last successful call, or, if there was none, what the object was made with; no other setter changes it. A setter that raises changes nothing.", "quantifier": "all objects, all values and all histories of calls of setters, successful or not", "why_tests_cant": "The histories of calls are unbounded; a setter that writes another attribute shows only in the order in which the other one is used", "anchors": ["openptv_python/parameters.py:SequencePar", "openptv_python/parameters.py:TrackPar", "openptv_python/parameters.py:VolumePar", "openptv_python/parameters.py:ControlPar", "openptv_python/parameters.py:TargetPar", "openptv_python/tracking_frame_buf.py:Target"]}
{"id": "C155", "title": "Arrays of found pixels are copied and reset", "statement": "copy_foundpix_array makes the first records of the destination equal to those of the source in number, count and the marks of the given cameras, and changes nothing else, also if both are slices of one array; reset_foundpix_array clears these fields of the first records and changes nothing else.", "quantifier": "all arrays and slices (overlapping or not), lengths and numbers of cameras", "why_tests_cant": "Slices share memory: whether a copy is right depends on how they overlap", "anchors": ["openptv_python/track.py:copy_foundpix_array", "openptv_python/track.py:reset_foundpix_array"]}
