# Design: a Lean 4 model of OpenPTV/openptv-python

This file is assembled by `tools/design.py` from `tools/design_head.md` (written by hand), `tools/plan.json` (the
plan per property, made before the proofs and extended with the list), `MANIFEST.json` and `properties.jsonl`.

## Approach
* Shallow functional models, function by function, each definition citing file:lines of /repo.
  `Verif/Model/*` holds the models, `Verif/Spec/*` the small independent specifications, `Verif/Proofs/*` helper
  lemmas and `Verif/Props/*` the property theorems, named after the property id, with non-vacuity examples beside them.
* Python exceptions (IndexError, ValueError, TypeError, IOError …) are values of `Py = Except PyErr`; an access that
  could raise in the code is checked in the model. Negative list indices count from the end as in Python.
* Mutable numpy arrays and objects are threaded explicitly (state in, state out). Aliasing is modelled where the
  code depends on it: record views in `sort_candidates_by_freq`, shared `Target` objects in `sortgrid`, the shared
  correspondence table in `add_particle`, the dictionary changed by `ControlPar.from_dict`, the calibration changed in
  place by `orient`.
* Parts outside a property are parameters the theorem quantifies over: the geometry in the tracking schedule, the
  least-squares solver in the orientation, the projection in `sortgrid` and in the numerical derivatives, the rotation
  function in the calibration files, the tie order of `numpy.sort`.
* Where the code violates a property: a `_refuted` theorem with a witness (or for all inputs), and a `_partial`
  theorem for what does hold, with the missing part said in its comment and in the manifest.
* `seeded/LOG.jsonl` records the mutation tests (`tools/mut.py`): edit one definition in a scratch copy, rebuild, the
  named theorems must fail.

## Trusted base
* Lean 4.33.0's kernel, and Mathlib's definitions as far as statements use them (ℝ, ℚ, `Real.sqrt`, `Real.sin`,
  `Real.arccos`, lists, permutations, matrices spelled out by components).
* Axioms: `propext`, `Classical.choice`, `Quot.sound`, the three of Lean/Mathlib. No theorem depends on any other axiom:
  none is declared, no proof is left open, and neither compiled evaluation of `decide` nor SAT certificates are used
  (`decide +kernel` lets the kernel itself evaluate).
* That the model says what the Python code does. This is checked by reading only (the sandbox cannot run the code).
  The deliberate simplifications:
  * *Floating point is idealised.* Geometry is over ℝ, decision logic over ℚ, ℤ or an arbitrary linear order, text
    files over ℚ with decimals rounded to nearest (ties to even). IEEE rounding, overflow, `fastmath`, negative zero and
    denormals are not modelled, except for the conversions, the rotation matrix, the triangulation (C150), the tracing of rays (C151) and the angle and acceleration of a track (C152) (`Model/Rounded.lean`, `Model/RoundedTrace.lean`, `Model/RoundedAngle.lean`). NaN and infinities are modelled only where they decide something (`Fl` in the
    correspondences: division by zero in the correlation; the sort order of NaN); elsewhere an operation that would give NaN is
    outside the hypotheses of the theorem or returns `none` (parallel rays, no usable camera pair). `sqrt`, `arcsin` and
    `arccos` outside their domain take Mathlib's values; theorems exclude these cases by hypotheses.
  * *numba is taken to have Python semantics.* `@njit` functions do not check indices; the model does, and the theorems
    that say no access is out of range hold for them too. Integer overflow is not modelled. An explicit numba signature refuses arrays of other
    types with TypeError; this is modelled for `arr_pixel_to_metric` only (C23), the other functions are called with the types they take.
  * *numpy.sort* returns some ordering by its key; the theorems hold for every tie order. `np.linalg.lstsq` is an arbitrary
    function. `np.savetxt`, `np.fromstring`, `str.split`, `int`, `float`, `%`-formatting and `f"{x:.kf}"` are modelled at
    character level in `Model/Text.lean` (ASCII white space, no exponents or underscores in numbers).
  * *Loops* `while True` run on fuel; theorems either prove the fuel irrelevant (termination) or hold for every fuel.
  * *Files* are a map from names to texts; directories, encodings, permissions and concurrent changes are not modelled. YAML
    text is not modelled (a YAML file is the dictionary it holds, in any order).

## What is modelled
| source file | modelled | not modelled |
|---|---|---|
| calibration.py | `Calibration` (constructor, getters, setters, `increment_attribute`, `update_rotation_matrix`, as a heap of arrays), `rotation_matrix`, `from_file`, `write`, `write_ori`, `read_ori`, `compare_*`, `copy` | look-up table fields |
| correspondences.py | everything but `safely_allocate_adjacency_lists` (its result is the initial state of `match_pairs`); for four cameras as a whole, with the geometry of the searches (Model/FullCorr; particles seen by four, three or two cameras; clouds with inexact targets), and from detections to positions (Model/Pictures) | printing |
| epi.py | `epi_mm`, `epi_mm_2D`, `epipolar_curve` | `Coord2d` sorting helpers (library sort) |
| find_candidate.py | all | |
| image_processing.py | `prepare_image`, `preprocess_image` (with scipy's `uniform_filter` and `convolve` on 8-bit images), `fast_box_blur_numba` (with the threads of its parallel loop), `subtract_mask` | the TypeError for other image types; `filter_3`, `lowpass_3`, `fast_box_blur`, `subtract_img` (scipy calls inside `@njit`, which numba refuses; not used by the package), `copy_images`, the part of `fast_box_blur_numba` behind its first exception |
| imgcoord.py | all, with the array versions (C148); the collinearity equations also with rounding (C150) | |
| multimed.py | all (`fast_*` versions where there are two) | numba specifics |
| orientation.py | `skew_midpoint`, `point_position`, `weighted_dumbbell_precision`, `num_deriv_exterior`, `orient`, `raw_orient`, `match_detection_to_ref`, `single_cam_point_positions`, `multi_cam_point_positions`, `point_positions`, `full_calibration`, `external_calibration`, `read_man_ori_fix`, `read_calblock`, and what the last sections of the table below list | statistics (`sigmabeta`), printing, scipy minimisation |
| parameters.py | all readers, `write_target_par`, `PftVersionPar.write`, dictionaries, YAML up to its text, `compare_mm_np`, `compare_control_par`, `compare_sequence/track/volume/target_par`, setters of `MultimediaPar`, all setters and getters of list attributes (as a heap of lists) and of single values (C154) | `__str__` |
| ray_tracing.py | `ray_tracing`, `fast_ray_tracing`, also with rounding and NaN (C151); `matmul_numba_optimized` with its threads (C153) | |
| segmentation.py | `targ_rec`, `fast_targ_rec`, `target_recognition`, `check_touch`, `peak_fit` up to its first exception | `peak_fit_new` (scipy), unreachable rest of `peak_fit` |
| sortgrid.py | `sortgrid`, `nearest_neighbour_pix`, `read_calblock`, `read_sortgrid_par` | |
| track.py | `copy_foundpix_array`, `reset_foundpix_array` (C155), all searches, sorting, registration, prediction, gates, `add_particle`, `assess_new_position`, `sorted_candidates_in_volume`, all of `trackcorr_c_loop` and `trackback_c`, whole runs on files with exceptions at any point | the geometry is a parameter of the schedule; `Model/Tracker.lean` puts the modelled projection, windows, triangulation and volume in for C96 ff.; `Model/FileTrack.lean` runs it on the files (C130, adding off) |
| tracking_frame_buf.py | `register_link_candidate`, frame buffers with all their methods, `matched_coords_as_arrays`, `read_targets`, `write_targets`, `read_path_frame`, `write_path_frame`, `match_coords`, `get_by_pnrs`, `Frame.read`, `Frame.write`, `Frame.positions`, `Frame.target_positions_for_camera`, `quicksort_n_tupel`; the writes also operation by operation (C146) | `__repr__` |
| tracking_run.py | what `TrackingRun.__init__` computes (volume, `lmax`, the caller's parameters), `tr_new` | |
| trafo.py, vec_utils.py | all that the modelled code uses, `vec_cmp`; the scalar conversions also with rounding (C150) | |

