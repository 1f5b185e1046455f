# Design: a Lean 4 model of OpenPTV/openptv-python

This file is assembled by `tools/design.py` from `tools/design_head.md` (written by hand), `tools/plan.json` (the
plan per property, made before the proofs and extended with the list), `MANIFEST.json` and `properties.jsonl`.

## Approach
* Shallow functional models, function by function, each definition citing file:lines of /repo.
  `Verif/Model/*` holds the models, `Verif/Spec/*` the small independent specifications, `Verif/Proofs/*` helper
  lemmas and `Verif/Props/*` the property theorems, named after the property id, with non-vacuity examples beside them.
* Python exceptions (IndexError, ValueError, TypeError, IOError …) are values of `Py = Except PyErr`; an access that
  could raise in the code is checked in the model. Negative list indices count from the end as in Python.
* Mutable numpy arrays and objects are threaded explicitly (state in, state out). Aliasing is modelled where the
  code depends on it: record views in `sort_candidates_by_freq`, shared `Target` objects in `sortgrid`, the shared
  correspondence table in `add_particle`, the dictionary changed by `ControlPar.from_dict`, the calibration changed in
  place by `orient`.
* Parts outside a property are parameters the theorem quantifies over: the geometry in the tracking schedule, the
  least-squares solver in the orientation, the projection in `sortgrid` and in the numerical derivatives, the rotation
  function in the calibration files, the tie order of `numpy.sort`.
* Where the code violates a property: a `_refuted` theorem with a witness (or for all inputs), and a `_partial`
  theorem for what does hold, with the missing part said in its comment and in the manifest.
* `seeded/LOG.jsonl` records the mutation tests (`tools/mut.py`): edit one definition in a scratch copy, rebuild, the
  named theorems must fail.

## Trusted base
* Lean 4.33.0's kernel, and Mathlib's definitions as far as statements use them (ℝ, ℚ, `Real.sqrt`, `Real.sin`,
  `Real.arccos`, lists, permutations, matrices spelled out by components).
* Axioms: `propext`, `Classical.choice`, `Quot.sound`, the three of Lean/Mathlib. No theorem depends on any other axiom:
  none is declared, no proof is left open, and neither compiled evaluation of `decide` nor SAT certificates are used
  (`decide +kernel` lets the kernel itself evaluate).
* That the model says what the Python code does. This is checked by reading only (the sandbox cannot run the code).
  The deliberate simplifications:
  * *Floating point is idealised.* Geometry is over ℝ, decision logic over ℚ, ℤ or an arbitrary linear order, text
    files over ℚ with decimals rounded to nearest (ties to even). IEEE rounding, overflow, `fastmath`, negative zero and
    denormals are not modelled, except for the conversions, the rotation matrix, the triangulation (C150), the tracing of rays (C151) and the angle and acceleration of a track (C152) (`Model/Rounded.lean`, `Model/RoundedTrace.lean`, `Model/RoundedAngle.lean`). NaN and infinities are modelled only where they decide something (`Fl` in the
    correspondences: division by zero in the correlation; the sort order of NaN); elsewhere an operation that would give NaN is
    outside the hypotheses of the theorem or returns `none` (parallel rays, no usable camera pair). `sqrt`, `arcsin` and
    `arccos` outside their domain take Mathlib's values; theorems exclude these cases by hypotheses.
  * *numba is taken to have Python semantics.* `@njit` functions do not check indices; the model does, and the theorems
    that say no access is out of range hold for them too. Integer overflow is not modelled. An explicit numba signature refuses arrays of other
    types with TypeError; this is modelled for `arr_pixel_to_metric` only (C23), the other functions are called with the types they take.
  * *numpy.sort* returns some ordering by its key; the theorems hold for every tie order. `np.linalg.lstsq` is an arbitrary
    function. `np.savetxt`, `np.fromstring`, `str.split`, `int`, `float`, `%`-formatting and `f"{x:.kf}"` are modelled at
    character level in `Model/Text.lean` (ASCII white space, no exponents or underscores in numbers).
  * *Loops* `while True` run on fuel; theorems either prove the fuel irrelevant (termination) or hold for every fuel.
  * *Files* are a map from names to texts; directories, encodings, permissions and concurrent changes are not modelled. YAML
    text is not modelled (a YAML file is the dictionary it holds, in any order).

## What is modelled
| source file | modelled | not modelled |
|---|---|---|
| calibration.py | `Calibration` (constructor, getters, setters, `increment_attribute`, `update_rotation_matrix`, as a heap of arrays), `rotation_matrix`, `from_file`, `write`, `write_ori`, `read_ori`, `compare_*`, `copy` | look-up table fields |
| correspondences.py | everything but `safely_allocate_adjacency_lists` (its result is the initial state of `match_pairs`); for four cameras as a whole, with the geometry of the searches (Model/FullCorr; particles seen by four, three or two cameras; clouds with inexact targets), and from detections to positions (Model/Pictures) | printing |
| epi.py | `epi_mm`, `epi_mm_2D`, `epipolar_curve` | `Coord2d` sorting helpers (library sort) |
| find_candidate.py | all | |
| image_processing.py | `prepare_image`, `preprocess_image` (with scipy's `uniform_filter` and `convolve` on 8-bit images), `fast_box_blur_numba` (with the threads of its parallel loop), `subtract_mask` | the TypeError for other image types; `filter_3`, `lowpass_3`, `fast_box_blur`, `subtract_img` (scipy calls inside `@njit`, which numba refuses; not used by the package), `copy_images`, the part of `fast_box_blur_numba` behind its first exception |
| imgcoord.py | all, with the array versions (C148); the collinearity equations also with rounding (C150) | |
| multimed.py | all (`fast_*` versions where there are two) | numba specifics |
| orientation.py | `skew_midpoint`, `point_position`, `weighted_dumbbell_precision`, `num_deriv_exterior`, `orient`, `raw_orient`, `match_detection_to_ref`, `single_cam_point_positions`, `multi_cam_point_positions`, `point_positions`, `full_calibration`, `external_calibration`, `read_man_ori_fix`, `read_calblock`, and what the last sections of the table below list | statistics (`sigmabeta`), printing, scipy minimisation |
| parameters.py | all readers, `write_target_par`, `PftVersionPar.write`, dictionaries, YAML up to its text, `compare_mm_np`, `compare_control_par`, `compare_sequence/track/volume/target_par`, setters of `MultimediaPar`, all setters and getters of list attributes (as a heap of lists) and of single values (C154) | `__str__` |
| ray_tracing.py | `ray_tracing`, `fast_ray_tracing`, also with rounding and NaN (C151); `matmul_numba_optimized` with its threads (C153) | |
| segmentation.py | `targ_rec`, `fast_targ_rec`, `target_recognition`, `check_touch`, `peak_fit` up to its first exception | `peak_fit_new` (scipy), unreachable rest of `peak_fit` |
| sortgrid.py | `sortgrid`, `nearest_neighbour_pix`, `read_calblock`, `read_sortgrid_par` | |
| track.py | `copy_foundpix_array`, `reset_foundpix_array` (C155), all searches, sorting, registration, prediction, gates, `add_particle`, `assess_new_position`, `sorted_candidates_in_volume`, all of `trackcorr_c_loop` and `trackback_c`, whole runs on files with exceptions at any point | the geometry is a parameter of the schedule; `Model/Tracker.lean` puts the modelled projection, windows, triangulation and volume in for C96 ff.; `Model/FileTrack.lean` runs it on the files (C130, adding off) |
| tracking_frame_buf.py | `register_link_candidate`, frame buffers with all their methods, `matched_coords_as_arrays`, `read_targets`, `write_targets`, `read_path_frame`, `write_path_frame`, `match_coords`, `get_by_pnrs`, `Frame.read`, `Frame.write`, `Frame.positions`, `Frame.target_positions_for_camera`, `quicksort_n_tupel`; the writes also operation by operation (C146) | `__repr__` |
| tracking_run.py | what `TrackingRun.__init__` computes (volume, `lmax`, the caller's parameters), `tr_new` | |
| trafo.py, vec_utils.py | all that the modelled code uses, `vec_cmp`; the scalar conversions also with rounding (C150) | |

## Per property: plan and outcome
* **C01 Best-candidate selection never reuses a target** — Model `take_best_candidates` as sort+flip+greedy fold over an abstract tuple list with a usage table (cam,target ↦ count); invariant over the fold. **proved**: all candidate lists, usage tables and numbers of cameras; numpy.sort assumed to return some ordering by the key (correlation) field.
* **C02 Best-candidate selection is greedy-maximal in correlation order** — Same model; invariants 'rejected ⇒ conflict with an earlier one'; sort modelled by a verified merge sort on (corr,p). **proved**: same model as C01; ties may be ordered in any way.
* **C03 A detected target belongs to at most one reported correspondence** — Model the three-stage pipeline of `correspondences` (4 cameras) with the shared scratch and usage buffers; compose C01 across stages; tnr assignment as a fold, target by target. **proved**: four cameras; theorem C03_empty_camera_raises records that a camera without targets makes the call raise.
* **C04 Quadruplet search is sound and complete** — Nested loops as flatMap; membership characterisation both ways. Division modelled with numpy's inf/nan results. **proved**: soundness unconditional, completeness unless the scratch array filled up; well-formedness of adjacency lists proved from match_pairs.
* **C05 Triplet search reports only mutually linked, unused targets** — Same style; stale slots of the 40-slot row are modelled. Expect refutation (target 0) + partial theorem. **partial**: refuted as stated: stale zero slots of the 40-slot candidate row act as links to target 0 (C05_refuted); proved: soundness up to that, and completeness.
* **C06 Pair search reports exactly the unambiguous pairs** — Same style. **proved**: exact characterisation of the pairs found.
* **C07 Only correspondences that were actually found are reported** — Scratch is modelled with its zero-initialised tail. Expect refutation + partial theorem. **partial**: refuted as stated: the unused zero-filled tail of the scratch array is sorted and taken too, so a spurious (0,0,0,0) tuple can be reported (C07_spurious_zero_tuple); proved: every reported tuple is found or is this zero tuple.
* **C08 Epipolar candidates satisfy every acceptance test** — Model loop with early return; characterise the result list. **proved**: all target lists and segments; real arithmetic.
* **C09 Epipolar candidate search misses no target** — Same; completeness needs the bound on the binary search start. Expect a length limit + refutation witness. **partial**: proved for fewer than 8190 targets; refuted at 8190 (the start-point search can overshoot by more than 12).
* **C10 Size ratio is a similarity in [0,1]** — Rational arithmetic. **proved**: real arithmetic.
* **C11 The start-point search never indexes outside the list** — Search model with checked array access (Option); prove no failure. **proved**: any list and any linear order.
* **C12 Pixel window search returns nearest in-window targets, best first** — Loop as fold over a 4-slot insertion; invariant. **proved**: images up to 10^19 pixels (1e20 is the code's initial distance).
* **C13 Pixel window search never misses the nearest target** — Same fold, plus start-point bound. **partial**: proved for fewer than 8190 targets, also for candsearch_in_pix_rest; refuted at 8190.
* **C14 Tracking never registers a neighbour that was not found in the window** — Model both functions with the actual constants. Expect refutation + partial. **partial**: refuted: an empty result slot is -1 but the caller tests for -999, so targets[-1] is registered (C14_refuted), and a camera without targets raises (C14_refuted_empty); proved: nothing else is ever registered.
* **C15 Sorting found candidates by frequency loses nobody** — Model numpy record swap (aliasing) exactly. Expect refutation + partial. **partial**: refuted: record swap on a numpy recarray copies (views), so candidates are lost or repeated; proved: order, exact camera counts, maximality of the head, meaning of the count, and that a particle registered by as many cameras as any other is not lost.
* **C16 Trajectory links are one-to-one and mutually consistent** — Linking loop as fold over particles on two link tables; invariant. **proved**: linking phase for all candidate lists; whole forward runs for every geometry (all geometric functions are unconstrained parameters), every disk contents without links, every length.
* **C17 Link conflicts are resolved in favour of the better candidate** — Same fold; history invariant. **proved**: all candidate lists; decision values in any linear order (no NaN).
* **C18 The reported number of links is the number of links** — Same fold with the counter. Expect refutation + partial (lower bound, and equality without steals). **partial**: refuted: a stolen link is counted twice; proved: never below, exact without conflicts.
* **C19 Frame buffer rotation is lossless** — Buffer as list rotation; refinement to an index function on ℤ mod n. **proved**: any buffer length and any number of rotations.
* **C20 Forward tracking reads and writes every frame exactly once, in order** — Schedule as state machine over (buffer, log of file operations); invariant over steps. **proved**: every range and every geometry; frame numbers are a ghost field of the frame.
* **C21 Backward tracking writes each frame back under its own number** — Same state machine for trackback. Expect refutation + partial. **partial**: refuted for every completed backward run: frame first is written to the file of first+1; proved: all other writes are right.
* **C22 Back-linking never overwrites an existing trajectory** — Back-linking loop as fold; invariant. **proved**: acceptance test of the phase is an arbitrary function; frames of any size.
* **C23 Pixel and metric coordinates are inverse** — Field arithmetic over ℝ/any field. **partial**: Real arithmetic; pixel sizes non-zero. False of arr_pixel_to_metric for arrays that are not of type int32, such as the result of arr_metric_to_pixel: its numba signature accepts int32 only, and the call raises TypeError (C23_array_float_refuted). That a numba function with an explicit signature refuses other array types is part of the trusted reading of numba.
* **C24 Distortion correction undoes distortion** — ℝ with sin/cos; fixed-point iteration as recursion with the code's iteration limit. **partial**: refuted with decentering (C24_decentering_refuted: y line of distort uses the overwritten x) and with shear plus radial terms (C24_shear_refuted: correction uses the iterate y instead of y/cos); proved: exact inverse without radial/decentering terms, identity for defaults, exact residual at a converged point, and quantitative round trips for radial distortion within the 1/24 bound.
* **C25 Exterior rotation is a proper rotation** — ℝ sin/cos, matrix identities. **proved**: any angles.
* **C26 Ray tracing obeys Snell's law** — ℝ with sqrt; vector algebra. **proved**: one glass layer as in the code (further layers are ignored by it); hypotheses: camera direction not parallel to the plate, no total reflection.
* **C27 Without refraction there is no radial shift** — ℝ; loop with fuel = code's limit. **proved**: any number of layers for the factor; the projection uses the zero table that flat_image_coord passes on, so the table's values never matter (C27_table_ignored).
* **C28 Camera-glass coordinate transform is invertible** — ℝ vectors; glass≠0. **proved**: any non-zero glass vector.
* **C29 Epipolar rays stay on the line of sight** — Field arithmetic. **proved**: real arithmetic; move_along_ray, epi_mm_2D and epi_mm; also the depth limits of the volume and the line of sight without refraction.
* **C30 Skew-line midpoint is the closest-approach point** — ℝ vectors: perpendicularity + Pythagoras. **proved**: non-parallel rays; real arithmetic; parallel rays give NaN in the code (none in the model).
* **C31 Point reconstruction is the mean over used camera pairs** — Model pair loop over cameras as fold over pairs; exactness from C30. **proved**: any number of cameras; fewer than two usable cameras give NaN/None as modelled (C31_no_pair).
* **C32 Dumbbell measure is non-negative, and zero for a perfect calibration** — Model over abstract point_position results. **proved**: formula proved for all batches; zero iff all errors and all length errors vanish; monotone in the weight.
* **C33 Numerical derivatives leave the calibration unchanged** — Model mutation sequence as state threading. **proved**: projection is an arbitrary function of the camera, so it holds for img_coord with any media.
* **C34 Parameters whose flag is off are never adjusted** — Model the iteration with the solver as an arbitrary oracle (list of updates); invariant over iterations. **proved**: the least-squares solver is an arbitrary function of the system; projections arbitrary; sigmabeta and residual values are not modelled.
* **C35 Failed orientation leaves the calibration untouched** — Same. Expect refutation + partial. **partial**: refuted: orient and raw_orient work on the caller's calibration and never restore it (solver is an oracle; witness solver keeps answering the same correction). Proved: failure happens exactly after 80 passes without convergence and then the exterior orientation has moved by the sum of the corrections; success means the last correction was below the limit.
* **C36 Batch triangulation returns one position per point** — Model the loop. Expect refutation + partial. **partial**: refuted: multi_cam_point_positions rebinds its result array to a single position, so only the last point is returned (C36_refuted); proved what it returns, and that the single-camera version is right.
* **C37 Nearest-detection lookup is correct** — Fold with running minimum; characterise. **proved**: Exact reals; search radius up to 1e19 (the code's initial best distance is 1e20).
* **C38 sortgrid assigns each detection to at most one reference point** — Model object aliasing by a store of detections; invariant. **proved**: For every projection function (so every calibration, with failure modelled), every detection list and reference list; radii up to 1e19. Entries are aliases of the detections as in Python: a later claim changes the number seen through an earlier entry.
* **C39 Segmented targets are disjoint blobs above threshold** — Flood-fill state machine over image function; invariants over arbitrary images. **proved**: All images, regions and limits, threshold >= 0. Grey values are integers, the centre an exact rational.
* **C40 Segmentation stays inside the image and terminates** — Same, with checked accesses and a decreasing measure. **partial**: Threshold >= 0: targ_rec either returns or overflows its 20480 entry wait list, and that needs a connected set of more than 20480 pixels above the threshold. C40_negative_threshold_refuted: with threshold -1 the flood fill never ends.
* **C41 Target files round-trip** — Character-level model of %d / %.4f formatting and numeric parsing. **partial**: any target list, any disk contents; floats are exact rationals printed with ties to even; partial: base names with a % format, no #, positive frame numbers, at least one target; refuted otherwise: an empty list (np.savetxt raises ValueError and the file is left empty), num_targets above the list length, old-style names, frame 0.
* **C42 Path files round-trip** — Same text layer. **partial**: any particle list and disk; partial: a priority base name is needed (C42_refuted: TypeError without one).
* **C43 Parameter files round-trip** — Same text layer / line readers. **partial**: readers of the nine parameter files: result iff every value is on its documented line; write_target_par/read round trip for four thresholds, refuted for any other number; missing files.
* **C44 PftVersionPar round-trips** — Text model of booleans. Expect refutation. **partial**: refuted: the writer writes True/False, the reader calls int() on it; the reader's meaning is proved (C44_reader).
* **C45 Control parameters survive to_dict/from_dict** — Dictionary model. **partial**: holds for layers of equal length; refuted: from_dict changes its argument, a second call on the same dictionary raises TypeError; c.to_dict() without argument is a TypeError, to_dict being a class method (not modelled).
* **C46 Corrected coordinates are an x-sorted relabelling of the targets** — Sort + permutation. **proved**: For all target lists and calibrations; match_coords is a sorted rearrangement of one row per target and get_by_pnrs finds the rows again.
* **C47 Angle/acceleration measure is well-defined** — ℝ with arccos. **partial**: Acceleration and angle formula for all real inputs; the angle is exact for non-degenerate displacements, and the special cases for a particle at rest / starting / stopping are refuted with witnesses (0 resp. 100 gon instead of an undefined angle).
* **C48 Velocity gates are open boxes** — Ordered field; open box as an independent specification. **proved**: Linear prediction is exact for uniform motion, its error equals the second difference, and a link needs every velocity component strictly inside the limits.
* **C49 Calibration files round-trip to written precision** — Same text layer. **partial**: any rotation function; partial because Calibration.write without added parameter file raises IOError after writing and read_ori returns the default calibration; C49_rotation bounds the change of the matrix over the reals.
* **C50 Touching peaks are recorded once, without overflow** — State machine of touch events on the list of a peak. **partial**: C50_recorded_partial: for a touch list with at least four places. C50_refuted: the peaks made by the package have an empty list, so the first touch event is an IndexError.
* **C51 Image preparation keeps images in range and averages** — Integer image model. **partial**: Proved for every filter_hp, the filter from a file included (C51_filter, C51_error; what C makes of a sum that does not fit into 8 bits is an arbitrary function). C51_highpass_refuted: image and low-pass are combined with a bitwise or, so no pixel gets darker and the background is never removed. C51_preprocess: preprocess_image cannot name a filter file, so filter_hp = 2 has no effect there. scipy.ndimage.uniform_filter and convolve are modelled as their C code works on uint8 (each mean cut to an integer). Partial because of the refuted part only.
* **C52 Measurement volume encloses its corner rays** — min/max folds. **partial**: refuted in general: the lower plane is intersected at z_min + 2*X.z because of a sign (C52_refuted, a camera with glass at z = 5); proved: z limits, upper plane, inclusion of the given bounds, and the full claim for rays crossing the glass at z = 0.
* **C53 Look-up table interpolation stays between its neighbours** — Index model with checked access. Possibly refuted at the last cell. **partial**: refuted at the edges: IndexError in the outermost cell of the top layer, extrapolation just below the origin, wrap to the next radial line in the top layer; proved: exact bilinear interpolation and bounds inside, 0 outside.
* **C54 Pair sort is a stable reordering of (key,index) pairs** — Sort + permutation. **proved**: any linear order.
* **C55 Candidate registration never exceeds the particle's slots** — State machine of registrations. **proved**: any number of slots; POSI = 80 in the code (C55_particle).
* **C56 Correspondences work for 2, 3 and 4 cameras** — Run the pipeline model with 2, 3 and 4 cameras; checked accesses. Expect refutation for 2 and 3. **partial**: four cameras: no exception when the targets fit; refuted for 2 and 3 cameras: always raises.
* **C57 Candidate lists are terminated** — Model the terminator written after the search; invariant over the array. Expect refutation. **partial**: refuted (C57_refuted): three cameras, two particles; proved: terminated unless every record is used.
* **C58 Radial shift solves the refraction equation** — Existence by the intermediate value theorem, accuracy from the contraction of the iteration. **proved**: one plate, 0 < n1 <= n2, n3; real arithmetic.
* **C59 Projection inverts ray tracing** — Compose the models of ray tracing and projection over ℝ. **proved**: one plate, camera in front of the glass and looking towards it, empty look-up table.
* **C60 Triangulation recovers the projected point** — C30 and C31 with the rays of the cameras through one point. **proved**: one refractive index (n1=n2=n3), cameras looking at the point; any number of cameras and usage pattern.
* **C61 Glass corrections accumulate over the iterations of orient** — Loop invariant of orient for the glass vector. Expect refutation. **partial**: refuted: every pass resets the glass vector to its initial value, so only the last correction survives; proved exactly that.
* **C62 Glass adjustment directions are tangent to the glass** — Vector identities over ℝ. Expect refutation for some directions. **partial**: refuted (glass facing x); proved when the first two components of the glass vector agree (includes the default).
* **C63 Perfect data is a fixed point of orientation** — Residual zero implies zero correction for every solver that solves homogeneous systems by zero. **partial**: raw_orient: proved for cameras without distortion (it resets distortion first). orient: proved without distortion; refuted with distortion (corrected detections are compared with distorted projections).
* **C64 Search window covers the velocity box** — Fold with running minima and maxima over the corners; convexity of the projection in air. **proved**: Corners for every projection function; the whole box for air without distortion. The refracting case is not covered.
* **C65 Adding a particle leaves existing correspondences intact** — State machine of the correspondence table with aliasing. Expect refutation. **partial**: False of the code: ref_corres is the whole correspondence table, so the first num_cams particles lose their correspondences. Proved: what the call does instead, with and without candidates, with a witness, and that the first particle of a frame cannot be added with two or more cameras (IndexError).
* **C66 Image coordinate is the Brown-distorted projection** — Compose projection and distortion models. **partial**: refuted for p1 != 0 (y is distorted with the already distorted x, C66_decentering_refuted); proved for p1 = 0 and all other parameters, media and tables.
* **C67 Only found and selected points enter orientation** — Characterise the rows of the system. **proved**: solver and projection arbitrary; the rows of the system are characterised exactly.
* **C68 Look-up table holds the exact factors and covers the volume** — Table as a list filled by the two loops. Expect refutation for rounding and stale data. **partial**: refuted: a negative lower limit is rounded upwards, and a second init keeps stale values; proved: values of a fresh table, look-up at raster points, and the range covered.
* **C69 The epipolar segment contains the true match** — C29 and convexity between the two depth limits. **proved**: air (n = 1) with any glass; depth limits as Zmin/Zmax interpolate them at the glass crossing point.
* **C70 epipolar_curve samples the image of the line of sight** — Sample points of the segment, compose models. **proved**: all media for the sampling; own-camera consistency without refraction and lens distortion.
* **C71 Matched detections carry the index of their reference point** — Store of detections as in C38; expect refutation for shared detections. **partial**: Proved when different references have different nearest detections; C71_refuted shows two references that share one detection: the first entry then carries the number of the second reference.
* **C72 peak_fit reports the peaks of an image** — Model peak_fit up to its first exception. Expect refutation. **partial**: C72_refuted: for every image, peak_fit raises IndexError as soon as there is a peak, and returns [] otherwise. The unreachable rest of the function is an arbitrary parameter of the model.
* **C73 target_recognition searches the requested part of the image only** — Reduce to C39/C40 with the region replaced. **partial**: Proved when the control parameters state at most the real image size and threshold >= 0 (C73_rejects_partial, C73_region_partial); C73_refuted: with a larger stated width and an explicit sub-range a column outside the image is read.
* **C74 YAML files round-trip** — Dictionary model, any order of keys. Expect refutation for nested objects. **partial**: dictionaries modelled, YAML text itself trusted; refuted for ControlPar: mm stays a dictionary.
* **C75 Comparison of parameter sets is equality** — Case analysis on the fields. Expect refutation for several layers. The other comparisons as a loop over attribute names; equality by induction over the names. **partial**: compare_mm_np only looks at the first layer. The four comparisons by annotated attributes are proved to be equality (numbers are rationals: no NaN); only compare_mm_np, and compare_control_par through it, fail.
* **C76 Comparison of calibrations is equality** — Case analysis on the fields. Expect refutation for distortion parameters. **partial**: compare_calibration decides equality of everything except the distortion parameters, which it does not look at (C76_distortion_refuted); C76_decides says exactly what it decides, with the tolerance for the matrix.
* **C77 Every link has a reason** — Model trackcorr_c_loop with the geometry as parameters; an inductive specification of the reasons; invariant over the search loop, then over the run. **proved**: Proved for one step on any frames without earlier links (C77_links_have_reasons) and for the frames a run writes (C77_run). Geometry is a parameter (C105 has the real one); new positions are found in the images of the frames as read, with targets used up by particles added before; for the last step of a run the frame after next is the one of C78.
* **C78 A link decision looks at the frame after next** — Invariant on the frame numbers in the buffer, over all steps. Expect refutation at the end of the sequence. **partial**: Partial: proved for all steps but the last. C78_last_step_refuted: in every run of three or more steps the last step uses frame n-2 in place of n+2; C78_link_from_the_past_refuted is a run where a link exists only because of that.
* **C79 Linked displacements are within the velocity limits** — From C77; expect refutation by a concrete run. **partial**: Partial: some displacement of the reason is within the limits. C79_refuted: the displacement of a link with a continuation is never tested (C79_cameras_refuted: the same with two cameras, limits 2 along the x axis, a run links a step of 2.6); C79_sign_refuted: for new particles the difference is taken the wrong way round.
* **C80 New positions use the nearest free targets** — Model assess_new_position over any list of cameras, compose with C13 and C65. **partial**: Partial: fewer than 8190 targets sorted by y (C13). C80_marker_refuted: for every camera without a target the index is -1, not PT_UNUSED, and add_particle gives the new number to the last target of the camera, in every frame. Projections and distortion are parameters.
* **C81 Offered candidates are near in two cameras** — Model the search over all cameras, compose C14 and C15; use it as the search of the tracking step. **partial**: Partial: near or last in the list of the camera. C81_refuted: a particle far from the search rectangle, last in two lists, is offered. C81_search_sane discharges the assumption on the search in C16, C18, C20, C77, C78 for the real search; C81_run_mutual is C16 with it.
* **C82 Backward links have reasons** — Model the search of trackback_c; induction over candidates and particles; compose with C22. **proved**: .
* **C83 The add flag works backward** — Model the volume check with the values the code gives its limits. **partial**: Refuted for all inputs: trackback_c checks Ymin < y < Ymax with Ymin = Ymax = 0, so no position is ever inside the volume and nothing is ever added; positions, targets and correspondences are the same after every step.
* **C84 Backward run keeps the sequence consistent** — Invariant over the steps of the backward run, with the frames of the disk as reference. **partial**: Proved for every frame but the first one of the sequence: the updated first frame is consistent with the rest, but it is written under the number of the second one (C21), which C84_refuted shows on a run.
* **C85 A frame survives the disk** — Compose the models of the path and targets files over one file system state; frame lemma: each write changes only its own file; disjointness of file names from their form. **partial**: Proved if every camera has a target. With an empty camera write raises ValueError and leaves an empty targets file, so that the frame cannot be read any more: C85_empty_camera_refuted, for every such frame.
* **C86 Frames on disk do not disturb each other** — Frame lemma for every outcome of a write; names of path files are injective in the frame number (decimal representation), and a path file never has the name of a targets file. **proved**: File names of targets of different cameras must differ for all positive frame numbers, which the caller decides with the format; the names of path files, and of different frames of one camera, are proved to differ.
* **C87 Positions follow the particles** — Induction over the rows. **proved**: For target numbers that exist (or -1); the position arrays are modelled as lists of rows, NaN as none.
* **C88 A run does not read what it has written** — Simulation between the run over a store and the run over a fixed disk: each read happens before any write of the same frame number; frames isolated from each other by C86. **proved**: For frame numbers from 1 up and file names of cameras that differ (C88_files_isolated, C88_memory_isolated show that the real file formats meet the hypotheses of the general theorems).
* **C89 An interrupted run leaves a prefix** — Induction over the steps for every outcome of every operation. **proved**: The write that raises counts as done (its files may be incomplete).
* **C90 Links on disk after tracking** — C88 reduces the run to the one of C77; C85 reads the written frames back. **proved**: Runs of at least two frames, frame numbers from 1 up; the computing part is that of C76/C77 with an abstract geometry whose search returns numbers of existing targets.
* **C91 Links on disk after backward tracking** — C88 reduces the run to the one of C84; C85 reads the written frames back; the last write goes to a wrong number. **partial**: Proved from frame first + 2 up. Refuted for the first two frames (C91_first_frames_refuted): the files of frame first + 1 contain the particles of frame first afterwards, and frame first does not get its new links.
* **C92 Backward tracking misses no link** — The candidate list is exactly the set of acceptable offers (induction over the search list); invariant of the linking loop about the particles already visited. **proved**: With C82 this determines the links of a backward step. A particle that loses a conflict does not get its second best candidate (example beside the theorem).
* **C93 Forward tracking misses no link** — Every acceptable offer is registered (induction over both search lists), frames only grow, then C17 on the linking phase. **proved**: The next frames are taken as they are when the search looks at them (AtTurn: the step run over the particles before; AtCandidate: over the candidates before); with adding off they are the frames as read.
* **C94 A lost particle is added from its images** — As C93 with the section that adds; the early continue is followed through the linking phase; witness by evaluation. **partial**: Holds if the search list of the next frame has an entry besides the end mark. If nothing at all is near, the loop goes on to the next particle before the section that adds (track.py:837-839), so that the path ends: C94_nothing_near_skipped_partial for every step, C94_lost_added_refuted with a witness.
* **C95 A clearly seen particle is tracked** — C13 gives the target among the nearest four of each camera, C15_no_loss_best keeps the particle seen by all cameras in the sorted list, C93 links it. **proved**: Fewer than 8190 targets per camera and images up to 1e19 pixels (bounds of the search, C13).
* **C96 Uniform motion is followed** — The concrete tracker over the reals as a geometry for the step; the expected position is the exact one, so that C95 applies; in air the window surrounds the projection because a quotient of affine functions takes its extremes at the corners of the box. **proved**: Over the real numbers. C96_uniform_motion_tracked: any calibrations, with the search windows assumed to surround the projection; C96_uniform_motion_in_air: no such assumption for cameras in air.
* **C97 Smooth motion is followed** — As C96, with the strict form of the window theorem for every point of the open box. **proved**: Over the real numbers; two to four cameras, adding off.
* **C98 A lone particle is followed through the whole run** — The search of a one-target image is computed exactly (candidate list, look ahead, added positions); induction over the steps with the contents of the four frames as invariant; then the files written. **proved**: Over the real numbers, adding off. Target positions are arbitrary: a camera that finds nothing registers its last target in the empty slots (C14), which is the only one here.
* **C99 Forward tracking does not raise** — Each function is shown to return under explicit conditions on its input (totality lemmas from the searches up to the run); the decisive one is that the sorted candidate list of two cameras always keeps an unused record at its end, although the sort overwrites records. The refutations are exact runs of the step (kernel evaluation) and, for rest and for empty cameras, general theorems. **partial**: True for one or two cameras with adding off (C99_step_returns_partial, C99_run_returns_partial; with adding: C104): the candidate list then has at most 7 candidates and an end mark, so that at most 56 of 80 candidate places are used. False with three cameras (all 12 records used: no end mark, IndexError), with four cameras and two particles (196 candidates for 80 places, IndexError), for a camera that shows no target in a frame (IndexError, for every arrangement), and for a particle that rests for one frame and then moves (ZeroDivisionError, for every set-up). C99_run_four_partial: with two to four cameras the run returns if the last targets of all cameras belong to one particle in every frame and no search window holds more than three targets.
* **C100 The volume of a tracking run** — The constructor is modelled as a function of parameters and calibrations that returns the run and the caller's parameters; the volume statement follows from C52, the fixpoint statement from monotonicity and idempotence of the widening over all cameras and corners. **proved**: Full for what is stated. The bounds at the near depth limit are those of C52 (refuted there for a glass plane that is not at z = 0). The entered volume has no y limits; the run starts from y = 0 (class default) and widens.
* **C101 Setting up a run leaves the parameters as they were** — The model returns the caller's volume parameters after the constructor; the theorem bounds the change and the refutation covers every set-up with zMin[1] < zMin[0]. **partial**: False: the constructor writes the computed bounds into the shared VolumePar. C101_changes_partial says exactly what can change; C101_limits_refuted: for every set-up with a falling lower depth limit the parameters change and the depth limit that epi_mm uses is another one afterwards.
* **C102 Residuals belong to their targets** — orient is extended by the arrays of its last pass (proved equal to the model of orient without them); the residual vector is split into the rows of the used points (induction over the points), the identities (shown to be the parameter changes) and unused rows, and full_calibration's reading of it is a theorem about this split. **partial**: True if all targets are found and selected (C102_all_used_partial, C102_array_partial). False otherwise: orient writes rows for the used points only, full_calibration reads row 2*ix for target ix, so the rows are shifted and the last ones are changes of parameters or zeros (C102_rows_partial says exactly what every row is, C102_shift_refuted that it is not the target's residual). `used` has an entry for every target, used or not. The design matrix rows are those of the model of orient; sigmabeta is not modelled.
* **C103 A new particle is where its images say** — assess_new_position by C80, undoing pixel and metric coordinates, and point_position on rays through one point by C36; in the step by C94. **partial**: Partial: no lens distortion and one refractive index (dist_to_flat stops at a tolerance; C27, C64), fewer than 8190 targets per camera sorted by y (C13); a particle for which nothing at all is near is skipped (C94). With a lens and a window, up to the measurement error: C136_added.
* **C104 Adding particles does not stop a run** — The no-raise argument of C99 with an invariant on frames that grow: targets keep their places, free targets stay free or get the new number, correspondences only get more; the refutation follows the overwritten row through the next step for all set-ups. **partial**: True for one step, with one or two cameras that show a target each, at least one correspondence per frame, and particles that can be tracked whatever is added (C104_step_returns_partial). False for the steps after one that adds: add_particle overwrites the correspondences of particles 0 and 1 (C65), and the next step raises IndexError for particle 0 whenever the target number written there does not exist in the second camera (C104_run_refuted).
* **C105 Links in space** — C77_run specialised to the geometry of Model/Tracker.lean; each reason is translated: angle_acc by C47, positions by soundness of the searches on unsorted lists, adding by induction over the added particles. **proved**: C77 with the real searches, cameras and geometry, and a specification that does not mention the tracking code. As in C79, which displacement is tested depends on the reason, and for new positions the difference is taken backwards. For the last step the frame after next is the one of C78.
* **C106 One block file serves calibration and manual orientation** — The text of a block file by induction over its points with the number formats of Model/Text.lean; the two refutations from what each reader needs of the first line. **partial**: True for the reader of sortgrid.py (C106_points_partial), which is all or nothing (C106_all_or_none). False across readers: a block file the calibration reads is refused by the manual orientation with ValueError (it wants the number of points in the first line), and a file with that line makes the calibration reader raise IndexError (C106_manual_refuted, C106_counted_refuted).
* **C107 Manual orientation uses the points that were named** — Induction over the lines read with the four rows filled so far and the count of hits; the count is four iff the numbers are different line numbers (a bijection of finite sets). **partial**: Proved with line numbers in place of point numbers, for at least four points (C107_points_partial). Numbers in the block file are not looked at (C107_numbers_refuted, C107_swapped_refuted), and a point whose line is missing is put at the origin without a word (C107_short_refuted).
* **C108 Calibration objects keep what they are given** — Heap of arrays with objects and returned arrays as references; invariant that every place belongs to one array of one object or to one returned copy, kept by every call; a frame theorem for every call and attribute, then induction over the history. **partial**: Proved by an ownership invariant over all histories: getters return what was last set (C108_set_get_partial), defaults, independence of objects, setters accept arrays of the right length, increments (C108_increment). False: increment_attribute of an angle leaves the old matrix until update_rotation_matrix (C108_stale_refuted; true otherwise, C108_rotation_partial, C108_rotation_after_update); set_rotation_matrix always raises; the arrays of get_radial_distortion, get_decentering, get_affine and get_glass_vec are the object itself (C108_snapshot_refuted, C108_view_refuted; the other four getters copy: C108_snapshot_partial).
* **C109 A particle that four cameras see exactly is reported** — Model match_pairs with epi_mm and find_candidate; compose C69, C09, C04, C02 and C60. **proved**: End to end in air: C69 (epipolar segment contains the image) + C09 (search is complete) give the six links with distance 0, so the correlation is infinite; C04 and C02 (greedy) give the quadruplet, or one of equal correlation that shares a target, all of whose distances are then 0. C109_no_overflow gives a condition in target counts; C109_position with C60; C109_returns and C109_raises: the call returns exactly if the epipolar lines can be computed. Example: four cameras in a row, one particle.
* **C110 The lists returned by py_correspondences** — Model the distribution loops; the pure form of an entry; C03 for uniqueness and numbers; counting the cameras of each kind of tuple. **proved**: C110_distribution: for all valid data for which the epipolar lines can be computed. C110_particle_listed combines it with C109. The documentation says that the third result is the total number of targets; it is the number of entries.
* **C111 From pixel positions to the particle** — Model a picture as its detections; show that the sorted coordinates are a relabelling; transfer the hypotheses of C109 and the result of C110 through it. **proved**: C46 (relabelling), C23 and C66 (pixels to flat coordinates), C109/C110, C60. Hypotheses are stated about detections in the order of the user, not the sorted coordinates. C111_inside: with default lens parameters, inside the sensor means inside the picture. Example: four cameras in a row.
* **C112 A target inside the picture is inside the sensor of the search** — Compare the corners of the sensor with the flat positions; C09 for the part that holds, a camera with x scale 2 as witness. **partial**: True with the default lens parameters (C112_found_partial). False in general (C112_sensor_refuted): find_candidate corrects the corner after it has subtracted the principal point, dist_to_flat corrects first and subtracts then; with x scale 2 and xh = 10 a target in the picture is outside the sensor and not found.
* **C113 Measuring with a single camera** — Induction over the loop with the set of targets already numbered; then compose with the lookup by number, the ray of the image (C26) and the depth of epi_mm_2D (C29). **proved**: C46, C23, C66, C26, C29 and C36 composed. C113_dispatch: point_positions without calibrations raises ValueError, with two or more it is multi_cam_point_positions, whose result is wrong for other reasons (C36).
* **C114 From pictures to the trajectory** — Show that the result has one entry (C110), that every recording of it is a frame with one particle at the true position (C111), and apply C98. **proved**: C111 per frame (one target per picture makes the search unambiguous; the result has exactly one entry) and C98 over the frames. How results are recorded as a frame is not code of the repository; it is the relation Recorded of the specification. Example: four cameras in a row, frames 0 to 5.
* **C115 A particle seen by three of four cameras becomes a triplet** — The three links exist (C109 machinery for a set S of cameras), the triplet is a candidate; greedy selection (C06) takes it unless a target is taken; whoever takes it fits it, so it is the triplet itself or comes from a slot with number 0. **partial**: False for the first target in the order by x (number 0): unused slots of the candidate lists hold number 0, so that the search reports a quadruplet of the targets 0 (C07) which takes them (C115_refuted). Proved for all other numbers, and without uniqueness: reported or taken by a result at least as exact (C115_reported_or_taken). C115_room: fewer than 40000 possible triplets are room enough.
* **C116 A particle seen by two of four cameras becomes a pair** — The same for pairs. **partial**: As C115. C116_reported_or_taken needs only that no other target of the second camera fits the first.
* **C117 The frame buffer is a queue** — Refinement: the ring represents a list; every call preserves the representation and returns what the queue returns. **partial**: False for a rotation of a buffer that is not full: rotations turn the storage without regard to head and size, so that frames come out in the wrong order and frames that were never pushed come out (C117_rotation_refuted, for every buffer with at least three places). Proved for all histories in which rotations happen on a full buffer; a FrameBuf starts full.
* **C118 Matched coordinates as arrays** — The loop overwrites every entry; the rest is C46. **proved**: With equal numbers the positions do not come back (example).
* **C119 A tracking run from files is as written** — Unfold tr_new into the four readers and the constructor; compose C43 and C100. **proved**: C43 for the files, C100 for the volume. A missing tracking file is a TypeError (C43). Numbers are rational (no rounding).
* **C120 Box blur and mask** — Follow the lengths of the slices to the first addition that numpy refuses; telescoping sums for half width 0. The parallel loop as interleaved stores of the rows; invariant: every row is stored up to where its thread is. **partial**: False for every positive half width: the call raises a ValueError, because slices of two rows and of one row are added (C120_blur_refuted). With half width 0 the image is returned unchanged. Every schedule of the parallel loop gives the result (or exception) of the sequential loop (C120_any_schedule, for pictures wider than the window). The mask is proved.
* **C121 A calibration block is identified** — The dot is the strictly nearest detection by the triangle inequality; C38 does the rest. **proved**: Composition of C37, C38 and C71 with the triangle inequality: the missing condition of C71 follows from the distances.
* **C122 Calibrating with perfect data changes nothing** — One pass with zero right-hand sides: rows of the used points, identities, mask, convergence, residuals. **proved**: Without distortion only: with it C63_refuted applies. The camera must carry the rotation matrix of its angles (c.upd = c), as every read or updated calibration does.
* **C123 The adjustment is a sequence of least-squares steps** — Rows = difference quotients and lens columns; the system is the objective; C35 for the end of the passes. **partial**: Partial: without adjustment of the glass. With it the columns of the glass are refuted (C123_glass_refuted: from the second pass the image with the glass of the beginning is subtracted from the image with the present one) and its changes are lost (C61). The solver (scipy/numpy least squares) is an oracle assumed to minimise; exists_leastSquares shows there is one. raw_orient is proved in full.
* **C124 The lens columns are derivatives** — The projection before the distortion does not depend on lens parameters; each column is the linear coefficient of a polynomial (sin, cos for the shear). **partial**: Partial: without distortion at the present calibration. With an x scale of 2 the entry for the x scale is twice the derivative (C124_scale_refuted); with a shear the second entry for xh is sin(shear), though that coordinate does not depend on xh (C124_shear_refuted): the code evaluates the columns at the distorted image point.
* **C125 Links are short** — The reasons for a link (C105) each bound its length by the triangle inequality, given that the link before is short; induction over the frames of the run. Refutation: exact run of one particle, all hypotheses of C95 and C99 checked. **proved**: Whatever the particles do. The step itself need not be within the limits (C79): when a candidate is confirmed in the frame after next, only the step after it is checked. C125_longest_step gives B as the diagonal of the limits. With adding on an added position is only compared with the expected one, so links may grow from frame to frame.
* **C126 A particle that keeps away from the others is followed** — Steps of a run one by one (run_noadd); C95: the particle is served; C125: what it is linked to, and what is linked to it, is near, hence itself; induction over the frames. **proved**: If the run returns (with three or four cameras it may raise, C99). C126_followed is for any calibration (also refracting) with the visibility stated through the search windows; C126_followed_in_air states it through the images only. The example runs two particles through six frames.
* **C127 Which file a frame goes to** — Induction over the characters of the name through the model of the % operator; digits by the core lemmas on Nat.toDigits. **proved**: .
* **C128 Triangulation with measuring errors** — The feet of the shortest connection differ from the points near P by s a and t b with |s a - t b| ≤ 2 δ by orthogonality; the angle bounds s and t; means over the pairs by the triangle inequality. **proved**: C128_position_error for any media, stated through the rays; C128_measured for one refractive index, stated through the image positions; exact arithmetic.
* **C129 Separate spots are detected one by one** — Invariant of the scan: the used pixels are whole spots; a peak of the remaining picture is a local maximum of the picture in an unused spot and its blob is this spot; each spot has a brightest pixel, which is found. **proved**: C129_spots (any discontinuity, spots that hold together), C129_connected (sufficient condition), C129_one_spot, C129_inside for every picture. Exact rational centre.
* **C130 Trajectories on disk** — Composition: C88 (run on changing files = run on the initial files), a simulation from frames with file data to what the searches see, C126 (the run follows the particle), C85 (what is written is read back), and the converse of C88 for returning. **proved**: C130_followed_on_files, C130_run_on_files_returns. Positions are exact reals in memory, printed with %.3f; target numbers below -1 in files are read as -1. The example (Props/FileTrackEx.lean) evaluates both theorems on the texts of 15 files.
* **C131 Restart after an interruption** — Every write is an overlay that does not depend on the files below; reading is composed of single files; frames with few decimals are read after the run as before it (C42, C85); so the frames read are the same in every mixture, and C88 with its converse gives the same run and the same final files. **partial**: Proved at the granularity of files, for files with three and four decimals. Refuted for files with more decimals (C131_decimals_refuted: after the restart the rounded position is read and a trajectory is lost) and inside the writing of a file (C131_emptied_file_refuted: the file is emptied first; the run cannot be started again).
* **C132 A swarm is reconstructed** — C126 and C130 for every particle of the swarm; with adding off a run writes as many particles as it reads, at their positions (induction over the steps), and the files give back what was written. **proved**: Proved for runs that return (C130_run_on_files_returns and C99 say when they do).
* **C133 Tracking a sequence again** — Corollary of C131 for the disk after the run; files that were written have few decimals (C131_written_decimals), so that the corollary applies to the files of the first run. **proved**: C133_condition_needed is the witness that the condition on the decimals cannot be dropped for the second run.
* **C134 Several layers of glass** — The equation of a stack of one index is that of one plate with shifted heights, so that C58 applies; transformation into the frame of the glass and back are the same for both. Refutations by unfolding and by rational tangents (3-4-5). **partial**: True for layers of one index with the number of layers stated (C134_stack_accuracy_partial; C134_one_window_partial: the image is that through one window of the total thickness, no table). False otherwise: set_layers leaves the number of layers (C134_number_refuted), layers on default parameters whose first has index 1 are not seen at all (C134_unseen_refuted), the index of all layers but the first is ignored (C134_index_ignored_refuted, C134_index_refuted: 75.33 mm for 80 mm), and the line of sight ignores all layers but the first (C134_sight_ignores_refuted, C134_sight_refuted: it misses the point by 4.67 mm).
* **C135 Triangulation through a window** — The iteration stays between the radius of the point and that of the window above it, so that the imaged point is in view; the line of sight arrives at the height of the point at the radius whose apparent radius the iteration returned, and arrival radius is a monotone, non-expanding function of apparent radius; then C58 (accuracy) and C128 (position error). **proved**: One plate, no look-up table, real arithmetic, undistorted coordinates. C135_sight: the line of sight passes the point within 0.001 times the ratio of the way behind the outer face to the way in front (as long as 40 passes are enough). C135_position: position within d (1 + 2/s) and ray distance at most 2 d, for cameras of that error at most d and lines crossing with sine at least s.
* **C136 Measured positions through lens and window** — An image error moves the apparent point; the line of sight is a radial map of the apparent point that does not expand (as C135), so that the miss is bounded by the error at the farthest apparent distance; the lens map expands by at least 1/2 where it is mild, so that its inverse at most doubles errors (plus the tolerance of C25's iteration); then C128 and C80. **proved**: One plate, no look-up table, real arithmetic; the lens has radial terms only and displaces by at most a 24th of the radius, or has any terms and is weak (C147). C136_sight, C136_position: undistorted images measured within ε. C136_lens, C136_pixels: what the lens correction and the pixel size make of a pixel error. C136_new_position: assess_new_position followed by point_position, for targets sorted by y and fewer than 8190 per camera. C136_added: the tracking step, when something else is near (otherwise the code skips the particle, C94).
* **C137 Backward tracking closes gaps** — One backward step links the particle: it is offered (C15/C126 search lemma), it is the only one within the limits, so the best, and C92 says what can prevent the link: a link of its own (excluded by the gap), another particle that takes it (too far away), or the continuation test (assumed). Induction over the steps on top of the invariant of C84. **proved**: Links of the other particles are arbitrary, but mutual. The last two frames must be linked. The first frame of the sequence is updated in memory but written under the number of the second (C21, C84), so it is left out. That such runs return is C138.
* **C138 Backward tracking does not raise** — Totality of each part of the backward step (search returns a list with end mark, numbers in range, angles exist, at most seven candidates), then induction over the run with the invariant of C84; small exact cases as counterexamples. **partial**: Proved for one or two cameras, a target in every camera, target numbers that are numbers of particles, and positions at which all angles exist. Refuted beyond: unlike the forward loop (track.py:853), the backward loop (track.py:1172) does not check that a target number is one of a particle: IndexError (C138_number_refuted); three cameras: list without end mark (C138_no_end_refuted, as in C99). Frames in which the first one has links further back are excluded.
* **C139 Copying a calibration** — Add copy to the heap of calibration objects of C108; its ownership invariant is kept by copy, and no read changes. **partial**: False for all objects: copy binds its argument to a new object and returns nothing, so that the object passed in keeps its values (C139_nothing_copied_refuted; C139_refuted is a case). Proved: copy returns and disturbs nothing. The look-up table is not modelled.
* **C140 Parameter objects keep what they are given** — Heap of lists with references from objects and from the caller; invariant: a list made by a default factory or by from_file and never handed out has exactly one reference; induction over histories. **partial**: Proved for lists the object made itself and that were never handed out (C140_defaults_partial, C140_read_partial, C140_names_partial), and for the moment after the setter (C140_set_get). False otherwise: set_layers keeps the lists (C140_layers_shared_refuted), and set_img_base_name writes into the list it was made with, so that a SequencePar made with the names of a ControlPar renames its images (C140_names_shared_refuted).
* **C141 Records compare equal exactly if they are equal** — Field by field comparison over exact numbers; witnesses for vec_cmp. **partial**: Numbers are exact (no NaN). False: a target compared with an object of another kind raises AttributeError (C141_foreign_refuted); vec_cmp also uses the default relative tolerance 1e-5 of numpy, so that positions further apart than any given multiple of the tolerance compare equal and the order of the arguments matters (C141_tolerance_refuted, C141_symmetry_refuted); reset_links keeps registered candidates (C141_reset_refuted).
* **C142 Targets are in the order the tracker searches them** — Stable merge sort, composed with C13; a picture of a streak beside a dot, evaluated by the kernel, as counterexample. **partial**: sort_target_y is proved, and that a search in the sorted list finds a nearest target in the window (fewer than 8190 targets, C13). False for detected targets as they are, which nothing in the package sorts: they come in the order of their brightest rows (C142_detection_refuted), and the search then misses a target in the middle of its window (C142_missed_refuted).
* **C143 Four targets that fit are reported unless a better quadruplet takes one** — C08/C09 say that the adjacency lists hold exactly the fits with their distances and correlations; C04 and C02 then give the competition. No property of the geometry is used. **proved**: Exact real arithmetic. There must be no overflow of the scratch array, fewer than 8190 coordinates per camera, sorted by x.
* **C144 Three or two targets that fit are reported unless a better group takes one** — As C143, with C05 for triplets and the single-candidate rule for pairs; the isolated case by excluding every other group. **partial**: The last sentence is proved for targets whose number in the order by x is not 0; it is false for number 0 (C115_refuted, C116_refuted), because unused slots of the adjacency lists and of the scratch array name target 0. For the same reason the score of a competing triplet is only known if it does not end in target 0.
* **C145 A cloud of particles gives exactly its quadruplets** — C143 for each particle; distinct particles give distinct quadruplets (injectivity), and C01/C07 leave no target for other groups; the scratch array cannot overflow because each target has at most one candidate (C145_no_overflow). **proved**: Exact real arithmetic; fewer than 8190 coordinates per camera, sorted by x.
* **C146 Killed while writing a frame** — The write is modelled as a list of operations (open, write, close) in the order of the program (Model/Crash.lean), a kill as a beginning of this list with a cut of every open file. Operations on one file can be taken out of the list; every file is opened at most once. Texts: words of a cut row are the first words and a part of the next one. Runs: a store whose write of frame m is killed (killStore), by induction on the steps. **partial**: Partial because the program does not meet it fully: a targets file that is cut inside its last number is read with another particle number (C146_number_refuted), and a correspondence file that is cut after its header (or after any line) is read without an exception, with particles at the origin in place of the missing ones (C146_particles_lost_refuted, C146_cut_paths); the old positions are lost then. Files that were closed are assumed to be on the disk, and of an open file a beginning of what was written. Cuts inside a line of the path files are not covered by C146_cut_paths.
* **C147 Correction of any weak lens** — One pass of the iteration keeps the state within 8 % of the input (so it is never damped) and takes an error e to at most 1.05 n + 13.5 κ e + 7 (shear + decentering) κ R, where n is the error of the measurement; induction over the passes; the final evaluation uses the radial term of the last but one radius, which the stopping rule or the error bound of the last two states brings near. The input at the centre is returned at once and is treated by shrinking R. **proved**: Real arithmetic. Complements C24, whose exact round trip fails for shear and decentering (C24_shear_refuted, C24_decentering_refuted): here is how much remains. C147_position: any number of cameras, one plate. C136_new_position and C136_added admit these lenses too (LensWithin).
* **C148 Synthetic images lead back to the positions** — Rows by induction over the array; the way back is C23 (arrays and inverse), C147_flat without noise, and C136_position for each row. **proved**: Real arithmetic. Rows: any calibration with or without a look-up table. C148_recovered: one plate, no look-up table, at least two cameras; the rows are triangulated one by one, because multi_cam_point_positions returns the last position only (C36). The way back uses the scalar pixel_to_metric, because arr_pixel_to_metric refuses float arrays (C23).
* **C149 From inexact pictures of a swarm to its trajectories** — C145 (cloud of inexact pictures) gives the groups, C36 and the noisy triangulation give the positions, and the tracker of C126 is run with expectations known up to three times the error. **proved**: Real arithmetic; no lens distortion, no layers, adding off, for the tracking. If the run returns; C99_run_four_partial says when it does, and the example (two particles, four cameras, noisy pictures) uses both. Frames are recorded from the results of py_correspondences by the specification Recorded (the program leaves this to its user).
* **C150 Rounding errors of conversions, rotations, projection and triangulation are negligible** — Error of each operation from the error of its arguments; numeric bounds along each function; orthonormality from the exact rotation (C25). Triangulation: nearest points from the exact theory bound the parameters along the rays, so that the quotients stay well conditioned. Position: the errors of sums of up to 1600 pairs, then of the mean, along the double loop. Projection: errors of the three dot products, then of the quotient. Dumbbell score: the smaller of a ratio and its inverse changes no faster than the distance; sums along the loop. **proved**: Every operation is followed by a rounding of which only the error is known (relative 2^-53, absolute 2^-1075 below the normal range; sines and cosines: one unit in the last place). Rounding to the nearest double is shown to be one. Functions that numba compiles with fastmath, which may rearrange operations, are not covered. skew_midpoint: the rays are given numbers (the errors made in tracing them are not included); np.dot and np.linalg.norm are any functions with the usual error bounds, met by the plain sum with roundings. point_position: likewise, the rays are given numbers; cameras that do not see the particle are allowed. Projection: the collinearity equations with the matrix computed from the angles; the position behind refraction is a given number. weighted_dumbbell_precision: the positions are given numbers, with the errors that the theorem on point_position allows.
* **C151 Every ray that passes the window is traced** — fast_ray_tracing with a rounding after each operation and with the root of a negative number as no result. Exact arithmetic as a special case: Cauchy-Schwarz for the first root, Snell for the others. Double precision: evaluate nearest doubles of a Pythagorean triple by the kernel. Oblique rays: errors of direction and normal, then the radicands; the second pair of roots exists because the computed direction has the computed cosine (the tangential part stays perpendicular to the normal up to rounding). **partial**: Exact arithmetic: proved, including the converse (NaN under total reflection). Double precision: refuted, by the central ray of a camera that looks at the window at a right angle, both turned by arctan(5/12): the cosine is computed as -1.0000000000000002 and np.sqrt(1 - n**2) is NaN. The dot products are taken as summed from left to right with a rounding after each operation, and vec / norm as a division; another order of operations makes other orientations fail. The angle in the witness is the exact one; the sine and cosine are the nearest doubles. In double precision also proved (C151_oblique_partial), for any order of summation: the result is numbers for every ray that meets the window at 1e-4 or more from the normal and is not within 2 % of total reflection, for camera matrices as near to a rotation as C150 says and indices between 1 and 2; what is missing are the rays in between, some of which fail.
* **C152 The angle of a moving particle is a number** — angle_acc with a rounding after each operation and with the arc cosine of a number outside [-1, 1] as no result. Exact arithmetic: Cauchy-Schwarz. Refutation: nearest doubles of the roots of 3 and 12 evaluated by the kernel. Accuracy: relative errors of the differences, the scalar product and the norms give a cosine within 10^-14; mean value theorem for the arc cosine; nearly parallel vectors excluded by their cosine. **partial**: Exact arithmetic: proved. Double precision: refuted for a particle that goes straight on but faster, (0,0,0) predicted at (1,1,1) and found at (2,2,2): the cosine is computed as 1.0000000000000002, the angle is NaN, and the candidate is rejected although its acceleration is below the limit. Proved: angles that differ from 0 and 200 gon by more than 0.0001 gon are numbers, with an error below 0.000001 gon; accelerations have an error below 10^-9 mm. The refutation takes the operations in the order written; compiled with fastmath they may be rearranged, and then other positions fail. The positive theorem holds for any order of the sums within the stated precision of np.sum and np.linalg.norm.
* **C153 The parallel matrix product does not depend on the schedule** — Small-step semantics of the threads on a shared memory; a schedule is a list of thread numbers. Invariant: factors unchanged, finished entries are the sums, `temp` is the partial sum. Termination by counting the steps of each thread. **partial**: Proved if the result is another array than the two factors, for any addition and multiplication (rounded or not), with termination. Refuted if the result is stored into a factor: the result is wrong for some schedules and right for others. Indices are within the arrays; the two reads of one round are one step.
* **C154 Setters and getters of single attributes** — Objects as functions from attribute names, classes as tables of setters and getters; the setters of a class write disjoint attributes, induction over the history. Refutation for short tuples. **partial**: Proved for all pairs of setters and getters, except that a setter that raises may already have changed one attribute: set_image_size and set_pixel_size with a tuple that is too short (C154_short_size_refuted). Attribute values are abstract; setters of lists are in C140.
* **C155 Arrays of found pixels are copied and reset** — Memory as a sequence of records, arrays by their first record; induction over the loop. Refutation for a slice moved up by one place. **partial**: Copying is right if the slices do not overlap or the destination begins before the source; if the destination begins within the source it is wrong (C155_overlap_refuted, C155_moved_up_refuted: moved up by one place, the first record is copied all the way). The package itself does not call copy_foundpix_array. Arrays shorter than the given length (IndexError) are not modelled.

## Disagreements between code and property (all proved)
* C05 Triplet search reports only mutually linked, unused targets: `C05_refuted`. refuted as stated: stale zero slots of the 40-slot candidate row act as links to target 0 (C05_refuted); proved: soundness up to that, and completeness.
* C07 Only correspondences that were actually found are reported: `C07_refuted`. refuted as stated: the unused zero-filled tail of the scratch array is sorted and taken too, so a spurious (0,0,0,0) tuple can be reported (C07_spurious_zero_tuple); proved: every reported tuple is found or is this zero tuple.
* C09 Epipolar candidate search misses no target: `C09_refuted`. proved for fewer than 8190 targets; refuted at 8190 (the start-point search can overshoot by more than 12).
* C13 Pixel window search never misses the nearest target: `C13_refuted`. proved for fewer than 8190 targets, also for candsearch_in_pix_rest; refuted at 8190.
* C14 Tracking never registers a neighbour that was not found in the window: `C14_refuted`, `C14_refuted_empty`. refuted: an empty result slot is -1 but the caller tests for -999, so targets[-1] is registered (C14_refuted), and a camera without targets raises (C14_refuted_empty); proved: nothing else is ever registered.
* C15 Sorting found candidates by frequency loses nobody: `C15_refuted`. refuted: record swap on a numpy recarray copies (views), so candidates are lost or repeated; proved: order, exact camera counts, maximality of the head, meaning of the count, and that a particle registered by as many cameras as any other is not lost.
* C18 The reported number of links is the number of links: `C18_refuted`. refuted: a stolen link is counted twice; proved: never below, exact without conflicts.
* C21 Backward tracking writes each frame back under its own number: `C21_refuted`, `C21_single_frame_refuted`. refuted for every completed backward run: frame first is written to the file of first+1; proved: all other writes are right.
* C23 Pixel and metric coordinates are inverse: `C23_array_float_refuted`. Real arithmetic; pixel sizes non-zero. False of arr_pixel_to_metric for arrays that are not of type int32, such as the result of arr_metric_to_pixel: its numba signature accepts int32 only, and the call raises TypeError (C23_array_float_refuted). That a numba function with an explicit signature refuses other array types is part of the trusted reading of numba.
* C24 Distortion correction undoes distortion: `C24_decentering_refuted`, `C24_shear_refuted`. refuted with decentering (C24_decentering_refuted: y line of distort uses the overwritten x) and with shear plus radial terms (C24_shear_refuted: correction uses the iterate y instead of y/cos); proved: exact inverse without radial/decentering terms, identity for defaults, exact residual at a converged point, and quantitative round trips for radial distortion within the 1/24 bound.
* C35 Failed orientation leaves the calibration untouched: `C35_refuted`, `C35_raw_refuted`. refuted: orient and raw_orient work on the caller's calibration and never restore it (solver is an oracle; witness solver keeps answering the same correction). Proved: failure happens exactly after 80 passes without convergence and then the exterior orientation has moved by the sum of the corrections; success means the last correction was below the limit.
* C36 Batch triangulation returns one position per point: `C36_refuted`. refuted: multi_cam_point_positions rebinds its result array to a single position, so only the last point is returned (C36_refuted); proved what it returns, and that the single-camera version is right.
* C40 Segmentation stays inside the image and terminates: `C40_negative_threshold_refuted`. Threshold >= 0: targ_rec either returns or overflows its 20480 entry wait list, and that needs a connected set of more than 20480 pixels above the threshold. C40_negative_threshold_refuted: with threshold -1 the flood fill never ends.
* C41 Target files round-trip: `C41_empty_refuted`, `C41_count_refuted`, `C41_old_names_refuted`, `C41_frame_zero_refuted`. any target list, any disk contents; floats are exact rationals printed with ties to even; partial: base names with a % format, no #, positive frame numbers, at least one target; refuted otherwise: an empty list (np.savetxt raises ValueError and the file is left empty), num_targets above the list length, old-style names, frame 0.
* C42 Path files round-trip: `C42_refuted`. any particle list and disk; partial: a priority base name is needed (C42_refuted: TypeError without one).
* C43 Parameter files round-trip: `C43_target_more_refuted`, `C43_target_refuted`. readers of the nine parameter files: result iff every value is on its documented line; write_target_par/read round trip for four thresholds, refuted for any other number; missing files.
* C44 PftVersionPar round-trips: `C44_refuted`. refuted: the writer writes True/False, the reader calls int() on it; the reader's meaning is proved (C44_reader).
* C45 Control parameters survive to_dict/from_dict: `C45_layers_refuted`, `C45_reuse_refuted`. holds for layers of equal length; refuted: from_dict changes its argument, a second call on the same dictionary raises TypeError; c.to_dict() without argument is a TypeError, to_dict being a class method (not modelled).
* C47 Angle/acceleration measure is well-defined: `C47_rest_refuted`, `C47_start_stop_refuted`. Acceleration and angle formula for all real inputs; the angle is exact for non-degenerate displacements, and the special cases for a particle at rest / starting / stopping are refuted with witnesses (0 resp. 100 gon instead of an undefined angle).
* C49 Calibration files round-trip to written precision: `C49_write_refuted`, `C49_read_ori_refuted`. any rotation function; partial because Calibration.write without added parameter file raises IOError after writing and read_ori returns the default calibration; C49_rotation bounds the change of the matrix over the reals.
* C50 Touching peaks are recorded once, without overflow: `C50_refuted`. C50_recorded_partial: for a touch list with at least four places. C50_refuted: the peaks made by the package have an empty list, so the first touch event is an IndexError.
* C51 Image preparation keeps images in range and averages: `C51_highpass_refuted`. Proved for every filter_hp, the filter from a file included (C51_filter, C51_error; what C makes of a sum that does not fit into 8 bits is an arbitrary function). C51_highpass_refuted: image and low-pass are combined with a bitwise or, so no pixel gets darker and the background is never removed. C51_preprocess: preprocess_image cannot name a filter file, so filter_hp = 2 has no effect there. scipy.ndimage.uniform_filter and convolve are modelled as their C code works on uint8 (each mean cut to an integer). Partial because of the refuted part only.
* C52 Measurement volume encloses its corner rays: `C52_refuted`. refuted in general: the lower plane is intersected at z_min + 2*X.z because of a sign (C52_refuted, a camera with glass at z = 5); proved: z limits, upper plane, inclusion of the given bounds, and the full claim for rays crossing the glass at z = 0.
* C53 Look-up table interpolation stays between its neighbours: `C53_index_refuted`, `C53_extrapolation_refuted`, `C53_wrap_refuted`. refuted at the edges: IndexError in the outermost cell of the top layer, extrapolation just below the origin, wrap to the next radial line in the top layer; proved: exact bilinear interpolation and bounds inside, 0 outside.
* C56 Correspondences work for 2, 3 and 4 cameras: `C56_refuted`. four cameras: no exception when the targets fit; refuted for 2 and 3 cameras: always raises.
* C57 Candidate lists are terminated: `C57_refuted`. refuted (C57_refuted): three cameras, two particles; proved: terminated unless every record is used.
* C61 Glass corrections accumulate over the iterations of orient: `C61_refuted`. refuted: every pass resets the glass vector to its initial value, so only the last correction survives; proved exactly that.
* C62 Glass adjustment directions are tangent to the glass: `C62_refuted`. refuted (glass facing x); proved when the first two components of the glass vector agree (includes the default).
* C63 Perfect data is a fixed point of orientation: `C63_refuted`. raw_orient: proved for cameras without distortion (it resets distortion first). orient: proved without distortion; refuted with distortion (corrected detections are compared with distorted projections).
* C65 Adding a particle leaves existing correspondences intact: `C65_refuted`, `C65_first_particle_refuted`. False of the code: ref_corres is the whole correspondence table, so the first num_cams particles lose their correspondences. Proved: what the call does instead, with and without candidates, with a witness, and that the first particle of a frame cannot be added with two or more cameras (IndexError).
* C66 Image coordinate is the Brown-distorted projection: `C66_decentering_refuted`. refuted for p1 != 0 (y is distorted with the already distorted x, C66_decentering_refuted); proved for p1 = 0 and all other parameters, media and tables.
* C68 Look-up table holds the exact factors and covers the volume: `C68_lower_limit_refuted`, `C68_stale_refuted`. refuted: a negative lower limit is rounded upwards, and a second init keeps stale values; proved: values of a fresh table, look-up at raster points, and the range covered.
* C71 Matched detections carry the index of their reference point: `C71_refuted`. Proved when different references have different nearest detections; C71_refuted shows two references that share one detection: the first entry then carries the number of the second reference.
* C72 peak_fit reports the peaks of an image: `C72_refuted`. C72_refuted: for every image, peak_fit raises IndexError as soon as there is a peak, and returns [] otherwise. The unreachable rest of the function is an arbitrary parameter of the model.
* C73 target_recognition searches the requested part of the image only: `C73_refuted`. Proved when the control parameters state at most the real image size and threshold >= 0 (C73_rejects_partial, C73_region_partial); C73_refuted: with a larger stated width and an explicit sub-range a column outside the image is read.
* C74 YAML files round-trip: `C74_control_refuted`. dictionaries modelled, YAML text itself trusted; refuted for ControlPar: mm stays a dictionary.
* C75 Comparison of parameter sets is equality: `C75_mm_refuted`. compare_mm_np only looks at the first layer. The four comparisons by annotated attributes are proved to be equality (numbers are rationals: no NaN); only compare_mm_np, and compare_control_par through it, fail.
* C76 Comparison of calibrations is equality: `C76_distortion_refuted`. compare_calibration decides equality of everything except the distortion parameters, which it does not look at (C76_distortion_refuted); C76_decides says exactly what it decides, with the tolerance for the matrix.
* C78 A link decision looks at the frame after next: `C78_last_step_refuted`, `C78_link_from_the_past_refuted`. Partial: proved for all steps but the last. C78_last_step_refuted: in every run of three or more steps the last step uses frame n-2 in place of n+2; C78_link_from_the_past_refuted is a run where a link exists only because of that.
* C79 Linked displacements are within the velocity limits: `C79_cameras_refuted`, `C79_refuted`, `C79_sign_refuted`. Partial: some displacement of the reason is within the limits. C79_refuted: the displacement of a link with a continuation is never tested (C79_cameras_refuted: the same with two cameras, limits 2 along the x axis, a run links a step of 2.6); C79_sign_refuted: for new particles the difference is taken the wrong way round.
* C80 New positions use the nearest free targets: `C80_marker_refuted`. Partial: fewer than 8190 targets sorted by y (C13). C80_marker_refuted: for every camera without a target the index is -1, not PT_UNUSED, and add_particle gives the new number to the last target of the camera, in every frame. Projections and distortion are parameters.
* C81 Offered candidates are near in two cameras: `C81_refuted`. Partial: near or last in the list of the camera. C81_refuted: a particle far from the search rectangle, last in two lists, is offered. C81_search_sane discharges the assumption on the search in C16, C18, C20, C77, C78 for the real search; C81_run_mutual is C16 with it.
* C83 The add flag works backward: `C83_no_particle_added_refuted`. Refuted for all inputs: trackback_c checks Ymin < y < Ymax with Ymin = Ymax = 0, so no position is ever inside the volume and nothing is ever added; positions, targets and correspondences are the same after every step.
* C84 Backward run keeps the sequence consistent: `C84_refuted`. Proved for every frame but the first one of the sequence: the updated first frame is consistent with the rest, but it is written under the number of the second one (C21), which C84_refuted shows on a run.
* C85 A frame survives the disk: `C85_empty_camera_refuted`. Proved if every camera has a target. With an empty camera write raises ValueError and leaves an empty targets file, so that the frame cannot be read any more: C85_empty_camera_refuted, for every such frame.
* C91 Links on disk after backward tracking: `C91_first_frames_refuted`. Proved from frame first + 2 up. Refuted for the first two frames (C91_first_frames_refuted): the files of frame first + 1 contain the particles of frame first afterwards, and frame first does not get its new links.
* C94 A lost particle is added from its images: `C94_lost_added_refuted`. Holds if the search list of the next frame has an entry besides the end mark. If nothing at all is near, the loop goes on to the next particle before the section that adds (track.py:837-839), so that the path ends: C94_nothing_near_skipped_partial for every step, C94_lost_added_refuted with a witness.
* C99 Forward tracking does not raise: `C99_rest_refuted`, `C99_empty_camera_refuted`, `C99_no_end_refuted`, `C99_eighty_refuted`. True for one or two cameras with adding off (C99_step_returns_partial, C99_run_returns_partial; with adding: C104): the candidate list then has at most 7 candidates and an end mark, so that at most 56 of 80 candidate places are used. False with three cameras (all 12 records used: no end mark, IndexError), with four cameras and two particles (196 candidates for 80 places, IndexError), for a camera that shows no target in a frame (IndexError, for every arrangement), and for a particle that rests for one frame and then moves (ZeroDivisionError, for every set-up). C99_run_four_partial: with two to four cameras the run returns if the last targets of all cameras belong to one particle in every frame and no search window holds more than three targets.
* C101 Setting up a run leaves the parameters as they were: `C101_limits_refuted`. False: the constructor writes the computed bounds into the shared VolumePar. C101_changes_partial says exactly what can change; C101_limits_refuted: for every set-up with a falling lower depth limit the parameters change and the depth limit that epi_mm uses is another one afterwards.
* C102 Residuals belong to their targets: `C102_shift_refuted`. True if all targets are found and selected (C102_all_used_partial, C102_array_partial). False otherwise: orient writes rows for the used points only, full_calibration reads row 2*ix for target ix, so the rows are shifted and the last ones are changes of parameters or zeros (C102_rows_partial says exactly what every row is, C102_shift_refuted that it is not the target's residual). `used` has an entry for every target, used or not. The design matrix rows are those of the model of orient; sigmabeta is not modelled.
* C104 Adding particles does not stop a run: `C104_run_refuted`. True for one step, with one or two cameras that show a target each, at least one correspondence per frame, and particles that can be tracked whatever is added (C104_step_returns_partial). False for the steps after one that adds: add_particle overwrites the correspondences of particles 0 and 1 (C65), and the next step raises IndexError for particle 0 whenever the target number written there does not exist in the second camera (C104_run_refuted).
* C106 One block file serves calibration and manual orientation: `C106_manual_refuted`, `C106_counted_refuted`. True for the reader of sortgrid.py (C106_points_partial), which is all or nothing (C106_all_or_none). False across readers: a block file the calibration reads is refused by the manual orientation with ValueError (it wants the number of points in the first line), and a file with that line makes the calibration reader raise IndexError (C106_manual_refuted, C106_counted_refuted).
* C107 Manual orientation uses the points that were named: `C107_numbers_refuted`, `C107_swapped_refuted`, `C107_short_refuted`. Proved with line numbers in place of point numbers, for at least four points (C107_points_partial). Numbers in the block file are not looked at (C107_numbers_refuted, C107_swapped_refuted), and a point whose line is missing is put at the origin without a word (C107_short_refuted).
* C108 Calibration objects keep what they are given: `C108_stale_refuted`, `C108_set_rotation_refuted`, `C108_snapshot_refuted`, `C108_view_refuted`. Proved by an ownership invariant over all histories: getters return what was last set (C108_set_get_partial), defaults, independence of objects, setters accept arrays of the right length, increments (C108_increment). False: increment_attribute of an angle leaves the old matrix until update_rotation_matrix (C108_stale_refuted; true otherwise, C108_rotation_partial, C108_rotation_after_update); set_rotation_matrix always raises; the arrays of get_radial_distortion, get_decentering, get_affine and get_glass_vec are the object itself (C108_snapshot_refuted, C108_view_refuted; the other four getters copy: C108_snapshot_partial).
* C112 A target inside the picture is inside the sensor of the search: `C112_sensor_refuted`. True with the default lens parameters (C112_found_partial). False in general (C112_sensor_refuted): find_candidate corrects the corner after it has subtracted the principal point, dist_to_flat corrects first and subtracts then; with x scale 2 and xh = 10 a target in the picture is outside the sensor and not found.
* C115 A particle seen by three of four cameras becomes a triplet: `C115_refuted`. False for the first target in the order by x (number 0): unused slots of the candidate lists hold number 0, so that the search reports a quadruplet of the targets 0 (C07) which takes them (C115_refuted). Proved for all other numbers, and without uniqueness: reported or taken by a result at least as exact (C115_reported_or_taken). C115_room: fewer than 40000 possible triplets are room enough.
* C116 A particle seen by two of four cameras becomes a pair: `C116_refuted`. As C115. C116_reported_or_taken needs only that no other target of the second camera fits the first.
* C117 The frame buffer is a queue: `C117_rotation_refuted`. False for a rotation of a buffer that is not full: rotations turn the storage without regard to head and size, so that frames come out in the wrong order and frames that were never pushed come out (C117_rotation_refuted, for every buffer with at least three places). Proved for all histories in which rotations happen on a full buffer; a FrameBuf starts full.
* C120 Box blur and mask: `C120_blur_refuted`. False for every positive half width: the call raises a ValueError, because slices of two rows and of one row are added (C120_blur_refuted). With half width 0 the image is returned unchanged. Every schedule of the parallel loop gives the result (or exception) of the sequential loop (C120_any_schedule, for pictures wider than the window). The mask is proved.
* C123 The adjustment is a sequence of least-squares steps: `C123_glass_refuted`. Partial: without adjustment of the glass. With it the columns of the glass are refuted (C123_glass_refuted: from the second pass the image with the glass of the beginning is subtracted from the image with the present one) and its changes are lost (C61). The solver (scipy/numpy least squares) is an oracle assumed to minimise; exists_leastSquares shows there is one. raw_orient is proved in full.
* C124 The lens columns are derivatives: `C124_scale_refuted`, `C124_shear_refuted`. Partial: without distortion at the present calibration. With an x scale of 2 the entry for the x scale is twice the derivative (C124_scale_refuted); with a shear the second entry for xh is sin(shear), though that coordinate does not depend on xh (C124_shear_refuted): the code evaluates the columns at the distorted image point.
* C131 Restart after an interruption: `C131_emptied_file_refuted`, `C131_decimals_refuted`. Proved at the granularity of files, for files with three and four decimals. Refuted for files with more decimals (C131_decimals_refuted: after the restart the rounded position is read and a trajectory is lost) and inside the writing of a file (C131_emptied_file_refuted: the file is emptied first; the run cannot be started again).
* C134 Several layers of glass: `C134_number_refuted`, `C134_unseen_refuted`, `C134_index_ignored_refuted`, `C134_index_refuted`, `C134_sight_ignores_refuted`, `C134_sight_refuted`. True for layers of one index with the number of layers stated (C134_stack_accuracy_partial; C134_one_window_partial: the image is that through one window of the total thickness, no table). False otherwise: set_layers leaves the number of layers (C134_number_refuted), layers on default parameters whose first has index 1 are not seen at all (C134_unseen_refuted), the index of all layers but the first is ignored (C134_index_ignored_refuted, C134_index_refuted: 75.33 mm for 80 mm), and the line of sight ignores all layers but the first (C134_sight_ignores_refuted, C134_sight_refuted: it misses the point by 4.67 mm).
* C138 Backward tracking does not raise: `C138_number_refuted`, `C138_no_end_refuted`. Proved for one or two cameras, a target in every camera, target numbers that are numbers of particles, and positions at which all angles exist. Refuted beyond: unlike the forward loop (track.py:853), the backward loop (track.py:1172) does not check that a target number is one of a particle: IndexError (C138_number_refuted); three cameras: list without end mark (C138_no_end_refuted, as in C99). Frames in which the first one has links further back are excluded.
* C139 Copying a calibration: `C139_nothing_copied_refuted`, `C139_refuted`. False for all objects: copy binds its argument to a new object and returns nothing, so that the object passed in keeps its values (C139_nothing_copied_refuted; C139_refuted is a case). Proved: copy returns and disturbs nothing. The look-up table is not modelled.
* C140 Parameter objects keep what they are given: `C140_layers_shared_refuted`, `C140_names_shared_refuted`. Proved for lists the object made itself and that were never handed out (C140_defaults_partial, C140_read_partial, C140_names_partial), and for the moment after the setter (C140_set_get). False otherwise: set_layers keeps the lists (C140_layers_shared_refuted), and set_img_base_name writes into the list it was made with, so that a SequencePar made with the names of a ControlPar renames its images (C140_names_shared_refuted).
* C141 Records compare equal exactly if they are equal: `C141_foreign_refuted`, `C141_tolerance_refuted`, `C141_symmetry_refuted`, `C141_reset_refuted`. Numbers are exact (no NaN). False: a target compared with an object of another kind raises AttributeError (C141_foreign_refuted); vec_cmp also uses the default relative tolerance 1e-5 of numpy, so that positions further apart than any given multiple of the tolerance compare equal and the order of the arguments matters (C141_tolerance_refuted, C141_symmetry_refuted); reset_links keeps registered candidates (C141_reset_refuted).
* C142 Targets are in the order the tracker searches them: `C142_detection_refuted`, `C142_missed_refuted`. sort_target_y is proved, and that a search in the sorted list finds a nearest target in the window (fewer than 8190 targets, C13). False for detected targets as they are, which nothing in the package sorts: they come in the order of their brightest rows (C142_detection_refuted), and the search then misses a target in the middle of its window (C142_missed_refuted).
* C146 Killed while writing a frame: `C146_particles_lost_refuted`, `C146_number_refuted`. Partial because the program does not meet it fully: a targets file that is cut inside its last number is read with another particle number (C146_number_refuted), and a correspondence file that is cut after its header (or after any line) is read without an exception, with particles at the origin in place of the missing ones (C146_particles_lost_refuted, C146_cut_paths); the old positions are lost then. Files that were closed are assumed to be on the disk, and of an open file a beginning of what was written. Cuts inside a line of the path files are not covered by C146_cut_paths.
* C151 Every ray that passes the window is traced: `C151_perpendicular_refuted`. Exact arithmetic: proved, including the converse (NaN under total reflection). Double precision: refuted, by the central ray of a camera that looks at the window at a right angle, both turned by arctan(5/12): the cosine is computed as -1.0000000000000002 and np.sqrt(1 - n**2) is NaN. The dot products are taken as summed from left to right with a rounding after each operation, and vec / norm as a division; another order of operations makes other orientations fail. The angle in the witness is the exact one; the sine and cosine are the nearest doubles. In double precision also proved (C151_oblique_partial), for any order of summation: the result is numbers for every ray that meets the window at 1e-4 or more from the normal and is not within 2 % of total reflection, for camera matrices as near to a rotation as C150 says and indices between 1 and 2; what is missing are the rays in between, some of which fail.
* C152 The angle of a moving particle is a number: `C152_straight_refuted`, `C152_kept_refuted`. Exact arithmetic: proved. Double precision: refuted for a particle that goes straight on but faster, (0,0,0) predicted at (1,1,1) and found at (2,2,2): the cosine is computed as 1.0000000000000002, the angle is NaN, and the candidate is rejected although its acceleration is below the limit. Proved: angles that differ from 0 and 200 gon by more than 0.0001 gon are numbers, with an error below 0.000001 gon; accelerations have an error below 10^-9 mm. The refutation takes the operations in the order written; compiled with fastmath they may be rearranged, and then other positions fail. The positive theorem holds for any order of the sums within the stated precision of np.sum and np.linalg.norm.
* C153 The parallel matrix product does not depend on the schedule: `C153_in_place_refuted`. Proved if the result is another array than the two factors, for any addition and multiplication (rounded or not), with termination. Refuted if the result is stored into a factor: the result is wrong for some schedules and right for others. Indices are within the arrays; the two reads of one round are one step.
* C154 Setters and getters of single attributes: `C154_short_size_refuted`. Proved for all pairs of setters and getters, except that a setter that raises may already have changed one attribute: set_image_size and set_pixel_size with a tuple that is too short (C154_short_size_refuted). Attribute values are abstract; setters of lists are in C140.
* C155 Arrays of found pixels are copied and reset: `C155_overlap_refuted`, `C155_moved_up_refuted`. Copying is right if the slices do not overlap or the destination begins before the source; if the destination begins within the source it is wrong (C155_overlap_refuted, C155_moved_up_refuted: moved up by one place, the first record is copied all the way). The package itself does not call copy_foundpix_array. Arrays shorter than the given length (IndexError) are not modelled.
