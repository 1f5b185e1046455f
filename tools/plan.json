{
 "C01": "Model `take_best_candidates` as sort+flip+greedy fold over an abstract tuple list with a usage table (cam,target ↦ count); invariant over the fold.",
 "C02": "Same model; invariants 'rejected ⇒ conflict with an earlier one'; sort modelled by a verified merge sort on (corr,p).",
 "C03": "Model the three-stage pipeline of `correspondences` (4 cameras) with the shared scratch and usage buffers; compose C01 across stages; tnr assignment as a fold, target by target.",
 "C04": "Nested loops as flatMap; membership characterisation both ways. Division modelled with numpy's inf/nan results.",
 "C05": "Same style; stale slots of the 40-slot row are modelled. Expect refutation (target 0) + partial theorem.",
 "C06": "Same style.",
 "C07": "Scratch is modelled with its zero-initialised tail. Expect refutation + partial theorem.",
 "C08": "Model loop with early return; characterise the result list.",
 "C09": "Same; completeness needs the bound on the binary search start. Expect a length limit + refutation witness.",
 "C10": "Rational arithmetic.",
 "C100": "The constructor is modelled as a function of parameters and calibrations that returns the run and the caller's parameters; the volume statement follows from C52, the fixpoint statement from monotonicity and idempotence of the widening over all cameras and corners.",
 "C101": "The model returns the caller's volume parameters after the constructor; the theorem bounds the change and the refutation covers every set-up with zMin[1] < zMin[0].",
 "C102": "orient is extended by the arrays of its last pass (proved equal to the model of orient without them); the residual vector is split into the rows of the used points (induction over the points), the identities (shown to be the parameter changes) and unused rows, and full_calibration's reading of it is a theorem about this split.",
 "C103": "assess_new_position by C80, undoing pixel and metric coordinates, and point_position on rays through one point by C36; in the step by C94.",
 "C104": "The no-raise argument of C99 with an invariant on frames that grow: targets keep their places, free targets stay free or get the new number, correspondences only get more; the refutation follows the overwritten row through the next step for all set-ups.",
 "C105": "C77_run specialised to the geometry of Model/Tracker.lean; each reason is translated: angle_acc by C47, positions by soundness of the searches on unsorted lists, adding by induction over the added particles.",
 "C106": "The text of a block file by induction over its points with the number formats of Model/Text.lean; the two refutations from what each reader needs of the first line.",
 "C107": "Induction over the lines read with the four rows filled so far and the count of hits; the count is four iff the numbers are different line numbers (a bijection of finite sets).",
 "C108": "Heap of arrays with objects and returned arrays as references; invariant that every place belongs to one array of one object or to one returned copy, kept by every call; a frame theorem for every call and attribute, then induction over the history.",
 "C109": "Model match_pairs with epi_mm and find_candidate; compose C69, C09, C04, C02 and C60.",
 "C11": "Search model with checked array access (Option); prove no failure.",
 "C110": "Model the distribution loops; the pure form of an entry; C03 for uniqueness and numbers; counting the cameras of each kind of tuple.",
 "C111": "Model a picture as its detections; show that the sorted coordinates are a relabelling; transfer the hypotheses of C109 and the result of C110 through it.",
 "C112": "Compare the corners of the sensor with the flat positions; C09 for the part that holds, a camera with x scale 2 as witness.",
 "C113": "Induction over the loop with the set of targets already numbered; then compose with the lookup by number, the ray of the image (C26) and the depth of epi_mm_2D (C29).",
 "C114": "Show that the result has one entry (C110), that every recording of it is a frame with one particle at the true position (C111), and apply C98.",
 "C115": "The three links exist (C109 machinery for a set S of cameras), the triplet is a candidate; greedy selection (C06) takes it unless a target is taken; whoever takes it fits it, so it is the triplet itself or comes from a slot with number 0.",
 "C116": "The same for pairs.",
 "C117": "Refinement: the ring represents a list; every call preserves the representation and returns what the queue returns.",
 "C118": "The loop overwrites every entry; the rest is C46.",
 "C119": "Unfold tr_new into the four readers and the constructor; compose C43 and C100.",
 "C12": "Loop as fold over a 4-slot insertion; invariant.",
 "C120": "Follow the lengths of the slices to the first addition that numpy refuses; telescoping sums for half width 0. The parallel loop as interleaved stores of the rows; invariant: every row is stored up to where its thread is.",
 "C121": "The dot is the strictly nearest detection by the triangle inequality; C38 does the rest.",
 "C122": "One pass with zero right-hand sides: rows of the used points, identities, mask, convergence, residuals.",
 "C123": "Rows = difference quotients and lens columns; the system is the objective; C35 for the end of the passes.",
 "C124": "The projection before the distortion does not depend on lens parameters; each column is the linear coefficient of a polynomial (sin, cos for the shear).",
 "C125": "The reasons for a link (C105) each bound its length by the triangle inequality, given that the link before is short; induction over the frames of the run. Refutation: exact run of one particle, all hypotheses of C95 and C99 checked.",
 "C126": "Steps of a run one by one (run_noadd); C95: the particle is served; C125: what it is linked to, and what is linked to it, is near, hence itself; induction over the frames.",
 "C127": "Induction over the characters of the name through the model of the % operator; digits by the core lemmas on Nat.toDigits.",
 "C128": "The feet of the shortest connection differ from the points near P by s a and t b with |s a - t b| ≤ 2 δ by orthogonality; the angle bounds s and t; means over the pairs by the triangle inequality.",
 "C129": "Invariant of the scan: the used pixels are whole spots; a peak of the remaining picture is a local maximum of the picture in an unused spot and its blob is this spot; each spot has a brightest pixel, which is found.",
 "C13": "Same fold, plus start-point bound.",
 "C130": "Composition: C88 (run on changing files = run on the initial files), a simulation from frames with file data to what the searches see, C126 (the run follows the particle), C85 (what is written is read back), and the converse of C88 for returning.",
 "C131": "Every write is an overlay that does not depend on the files below; reading is composed of single files; frames with few decimals are read after the run as before it (C42, C85); so the frames read are the same in every mixture, and C88 with its converse gives the same run and the same final files.",
 "C132": "C126 and C130 for every particle of the swarm; with adding off a run writes as many particles as it reads, at their positions (induction over the steps), and the files give back what was written.",
 "C133": "Corollary of C131 for the disk after the run; files that were written have few decimals (C131_written_decimals), so that the corollary applies to the files of the first run.",
 "C134": "The equation of a stack of one index is that of one plate with shifted heights, so that C58 applies; transformation into the frame of the glass and back are the same for both. Refutations by unfolding and by rational tangents (3-4-5).",
 "C135": "The iteration stays between the radius of the point and that of the window above it, so that the imaged point is in view; the line of sight arrives at the height of the point at the radius whose apparent radius the iteration returned, and arrival radius is a monotone, non-expanding function of apparent radius; then C58 (accuracy) and C128 (position error).",
 "C136": "An image error moves the apparent point; the line of sight is a radial map of the apparent point that does not expand (as C135), so that the miss is bounded by the error at the farthest apparent distance; the lens map expands by at least 1/2 where it is mild, so that its inverse at most doubles errors (plus the tolerance of C25's iteration); then C128 and C80.",
 "C137": "One backward step links the particle: it is offered (C15/C126 search lemma), it is the only one within the limits, so the best, and C92 says what can prevent the link: a link of its own (excluded by the gap), another particle that takes it (too far away), or the continuation test (assumed). Induction over the steps on top of the invariant of C84.",
 "C138": "Totality of each part of the backward step (search returns a list with end mark, numbers in range, angles exist, at most seven candidates), then induction over the run with the invariant of C84; small exact cases as counterexamples.",
 "C139": "Add copy to the heap of calibration objects of C108; its ownership invariant is kept by copy, and no read changes.",
 "C14": "Model both functions with the actual constants. Expect refutation + partial.",
 "C140": "Heap of lists with references from objects and from the caller; invariant: a list made by a default factory or by from_file and never handed out has exactly one reference; induction over histories.",
 "C141": "Field by field comparison over exact numbers; witnesses for vec_cmp.",
 "C142": "Stable merge sort, composed with C13; a picture of a streak beside a dot, evaluated by the kernel, as counterexample.",
 "C143": "C08/C09 say that the adjacency lists hold exactly the fits with their distances and correlations; C04 and C02 then give the competition. No property of the geometry is used.",
 "C144": "As C143, with C05 for triplets and the single-candidate rule for pairs; the isolated case by excluding every other group.",
 "C145": "C143 for each particle; distinct particles give distinct quadruplets (injectivity), and C01/C07 leave no target for other groups; the scratch array cannot overflow because each target has at most one candidate (C145_no_overflow).",
 "C146": "The write is modelled as a list of operations (open, write, close) in the order of the program (Model/Crash.lean), a kill as a beginning of this list with a cut of every open file. Operations on one file can be taken out of the list; every file is opened at most once. Texts: words of a cut row are the first words and a part of the next one. Runs: a store whose write of frame m is killed (killStore), by induction on the steps.",
 "C147": "One pass of the iteration keeps the state within 8 % of the input (so it is never damped) and takes an error e to at most 1.05 n + 13.5 κ e + 7 (shear + decentering) κ R, where n is the error of the measurement; induction over the passes; the final evaluation uses the radial term of the last but one radius, which the stopping rule or the error bound of the last two states brings near. The input at the centre is returned at once and is treated by shrinking R.",
 "C148": "Rows by induction over the array; the way back is C23 (arrays and inverse), C147_flat without noise, and C136_position for each row.",
 "C149": "C145 (cloud of inexact pictures) gives the groups, C36 and the noisy triangulation give the positions, and the tracker of C126 is run with expectations known up to three times the error.",
 "C15": "Model numpy record swap (aliasing) exactly. Expect refutation + partial.",
 "C150": "Error of each operation from the error of its arguments; numeric bounds along each function; orthonormality from the exact rotation (C25). Triangulation: nearest points from the exact theory bound the parameters along the rays, so that the quotients stay well conditioned. Position: the errors of sums of up to 1600 pairs, then of the mean, along the double loop. Projection: errors of the three dot products, then of the quotient. Dumbbell score: the smaller of a ratio and its inverse changes no faster than the distance; sums along the loop.",
 "C16": "Linking loop as fold over particles on two link tables; invariant.",
 "C17": "Same fold; history invariant.",
 "C18": "Same fold with the counter. Expect refutation + partial (lower bound, and equality without steals).",
 "C19": "Buffer as list rotation; refinement to an index function on ℤ mod n.",
 "C20": "Schedule as state machine over (buffer, log of file operations); invariant over steps.",
 "C21": "Same state machine for trackback. Expect refutation + partial.",
 "C22": "Back-linking loop as fold; invariant.",
 "C23": "Field arithmetic over ℝ/any field.",
 "C24": "ℝ with sin/cos; fixed-point iteration as recursion with the code's iteration limit.",
 "C25": "ℝ sin/cos, matrix identities.",
 "C26": "ℝ with sqrt; vector algebra.",
 "C27": "ℝ; loop with fuel = code's limit.",
 "C28": "ℝ vectors; glass≠0.",
 "C29": "Field arithmetic.",
 "C30": "ℝ vectors: perpendicularity + Pythagoras.",
 "C31": "Model pair loop over cameras as fold over pairs; exactness from C30.",
 "C32": "Model over abstract point_position results.",
 "C33": "Model mutation sequence as state threading.",
 "C34": "Model the iteration with the solver as an arbitrary oracle (list of updates); invariant over iterations.",
 "C35": "Same. Expect refutation + partial.",
 "C36": "Model the loop. Expect refutation + partial.",
 "C37": "Fold with running minimum; characterise.",
 "C38": "Model object aliasing by a store of detections; invariant.",
 "C39": "Flood-fill state machine over image function; invariants over arbitrary images.",
 "C40": "Same, with checked accesses and a decreasing measure.",
 "C41": "Character-level model of %d / %.4f formatting and numeric parsing.",
 "C42": "Same text layer.",
 "C43": "Same text layer / line readers.",
 "C44": "Text model of booleans. Expect refutation.",
 "C45": "Dictionary model.",
 "C46": "Sort + permutation.",
 "C47": "ℝ with arccos.",
 "C48": "Ordered field; open box as an independent specification.",
 "C49": "Same text layer.",
 "C50": "State machine of touch events on the list of a peak.",
 "C51": "Integer image model.",
 "C52": "min/max folds.",
 "C53": "Index model with checked access. Possibly refuted at the last cell.",
 "C54": "Sort + permutation.",
 "C55": "State machine of registrations.",
 "C56": "Run the pipeline model with 2, 3 and 4 cameras; checked accesses. Expect refutation for 2 and 3.",
 "C57": "Model the terminator written after the search; invariant over the array. Expect refutation.",
 "C58": "Existence by the intermediate value theorem, accuracy from the contraction of the iteration.",
 "C59": "Compose the models of ray tracing and projection over ℝ.",
 "C60": "C30 and C31 with the rays of the cameras through one point.",
 "C61": "Loop invariant of orient for the glass vector. Expect refutation.",
 "C62": "Vector identities over ℝ. Expect refutation for some directions.",
 "C63": "Residual zero implies zero correction for every solver that solves homogeneous systems by zero.",
 "C64": "Fold with running minima and maxima over the corners; convexity of the projection in air.",
 "C65": "State machine of the correspondence table with aliasing. Expect refutation.",
 "C66": "Compose projection and distortion models.",
 "C67": "Characterise the rows of the system.",
 "C68": "Table as a list filled by the two loops. Expect refutation for rounding and stale data.",
 "C69": "C29 and convexity between the two depth limits.",
 "C70": "Sample points of the segment, compose models.",
 "C71": "Store of detections as in C38; expect refutation for shared detections.",
 "C72": "Model peak_fit up to its first exception. Expect refutation.",
 "C73": "Reduce to C39/C40 with the region replaced.",
 "C74": "Dictionary model, any order of keys. Expect refutation for nested objects.",
 "C75": "Case analysis on the fields. Expect refutation for several layers. The other comparisons as a loop over attribute names; equality by induction over the names.",
 "C76": "Case analysis on the fields. Expect refutation for distortion parameters.",
 "C77": "Model trackcorr_c_loop with the geometry as parameters; an inductive specification of the reasons; invariant over the search loop, then over the run.",
 "C78": "Invariant on the frame numbers in the buffer, over all steps. Expect refutation at the end of the sequence.",
 "C79": "From C77; expect refutation by a concrete run.",
 "C80": "Model assess_new_position over any list of cameras, compose with C13 and C65.",
 "C81": "Model the search over all cameras, compose C14 and C15; use it as the search of the tracking step.",
 "C82": "Model the search of trackback_c; induction over candidates and particles; compose with C22.",
 "C83": "Model the volume check with the values the code gives its limits.",
 "C84": "Invariant over the steps of the backward run, with the frames of the disk as reference.",
 "C85": "Compose the models of the path and targets files over one file system state; frame lemma: each write changes only its own file; disjointness of file names from their form.",
 "C86": "Frame lemma for every outcome of a write; names of path files are injective in the frame number (decimal representation), and a path file never has the name of a targets file.",
 "C87": "Induction over the rows.",
 "C88": "Simulation between the run over a store and the run over a fixed disk: each read happens before any write of the same frame number; frames isolated from each other by C86.",
 "C89": "Induction over the steps for every outcome of every operation.",
 "C90": "C88 reduces the run to the one of C77; C85 reads the written frames back.",
 "C91": "C88 reduces the run to the one of C84; C85 reads the written frames back; the last write goes to a wrong number.",
 "C92": "The candidate list is exactly the set of acceptable offers (induction over the search list); invariant of the linking loop about the particles already visited.",
 "C93": "Every acceptable offer is registered (induction over both search lists), frames only grow, then C17 on the linking phase.",
 "C94": "As C93 with the section that adds; the early continue is followed through the linking phase; witness by evaluation.",
 "C95": "C13 gives the target among the nearest four of each camera, C15_no_loss_best keeps the particle seen by all cameras in the sorted list, C93 links it.",
 "C96": "The concrete tracker over the reals as a geometry for the step; the expected position is the exact one, so that C95 applies; in air the window surrounds the projection because a quotient of affine functions takes its extremes at the corners of the box.",
 "C97": "As C96, with the strict form of the window theorem for every point of the open box.",
 "C98": "The search of a one-target image is computed exactly (candidate list, look ahead, added positions); induction over the steps with the contents of the four frames as invariant; then the files written.",
 "C99": "Each function is shown to return under explicit conditions on its input (totality lemmas from the searches up to the run); the decisive one is that the sorted candidate list of two cameras always keeps an unused record at its end, although the sort overwrites records. The refutations are exact runs of the step (kernel evaluation) and, for rest and for empty cameras, general theorems.",
 "C151": "fast_ray_tracing with a rounding after each operation and with the root of a negative number as no result. Exact arithmetic as a special case: Cauchy-Schwarz for the first root, Snell for the others. Double precision: evaluate nearest doubles of a Pythagorean triple by the kernel. Oblique rays: errors of direction and normal, then the radicands; the second pair of roots exists because the computed direction has the computed cosine (the tangential part stays perpendicular to the normal up to rounding).",
 "C152": "angle_acc with a rounding after each operation and with the arc cosine of a number outside [-1, 1] as no result. Exact arithmetic: Cauchy-Schwarz. Refutation: nearest doubles of the roots of 3 and 12 evaluated by the kernel. Accuracy: relative errors of the differences, the scalar product and the norms give a cosine within 10^-14; mean value theorem for the arc cosine; nearly parallel vectors excluded by their cosine.",
 "C153": "Small-step semantics of the threads on a shared memory; a schedule is a list of thread numbers. Invariant: factors unchanged, finished entries are the sums, `temp` is the partial sum. Termination by counting the steps of each thread.",
 "C154": "Objects as functions from attribute names, classes as tables of setters and getters; the setters of a class write disjoint attributes, induction over the history. Refutation for short tuples.",
 "C155": "Memory as a sequence of records, arrays by their first record; induction over the loop. Refutation for a slice moved up by one place."
}