# Formal model of RGB-D-SLAM in Lean 4

This file says what is modelled, how each property of `properties.jsonl` is proved,
what is trusted, and where the code does not do what the property says.

## 1. Trusted base

* Lean 4.33.0's kernel.
* The axioms `propext`, `Classical.choice`, `Quot.sound` (Lean core / Mathlib); section 6 lists them per
  theorem. No axiom is added, there is no `sorry`, `admit`, `native_decide`, `bv_decide`, `unsafe` or
  `implemented_by`.
* The reading of the C++ source: every definition of the model cites the file and lines it
  models, and says where it simplifies.  The correspondence between C++ and Lean is by reading only: nothing
  was compiled or run.

Modelling conventions

* Real valued code (`double`, `float`) is modelled over exact arithmetic: `ℝ` for geometry, covariances, optimisation
  and depth alignment, any ordered field for plane fitting, `ℚ` or `Int` when only the four operations and comparisons
  matter (RANSAC scores, TUM time stamps, keypoints, concave hull).  Rounding, overflow to infinity and NaN are NOT
  modelled, except where a definition says so (an explicit NaN value in the optimiser residuals).
* Unsigned machine integers are `Nat` reduced modulo `2^32` / `2^64` where wrapping can matter; elsewhere
  a comment says that the bound is ignored.
* `std::unordered_map` is a list of (key, value) pairs: the list order is the unspecified iteration order.
  Theorems quantify over all lists, and the histories contain re-ordering steps, so they hold for every iteration order.
* Threads (`tbb::parallel_for`) are interleavings of single reads and writes of the shared variables, under sequential
  consistency; data races are reported as such (C24).
* `throw`, `exit`, failing `assert`, exceptions leaving a `noexcept` function (terminate) and undefined behaviour are
  distinct outcomes (`Outcome`, Model/Outcome.lean), never a default value.
* Asserts are taken as active.

Assumptions on libraries.  They enter as universally quantified parameters (oracles), with only these properties used:

* OpenCV: keypoint detectors, descriptors and Lucas-Kanade flow return arbitrary values. The brute-force matcher returns the
  two smallest distances among the candidates of the mask, first index first (modelled).
* Eigen 3.4: `normalized`, `toRotationMatrix`, `inverse`, `slerp`, `eulerAngles` and the products have their documented
  real-number meaning.  The complete orthogonal decomposition gives a Moore-Penrose pseudo-inverse.  The self adjoint
  solver used for plane fitting returns a unit eigenvector of the smallest eigenvalue.  The Levenberg-Marquardt minimiser
  is an arbitrary function.
* Boost.Geometry: polygon union, intersection and simplification are arbitrary functions unless a theorem states the
  property used.  The repair of polygons is one for the operations of `Model/PolygonOps`, and is modelled in
  `Model/PolygonRepair`.
* FLANN: the neighbour search of the concave hull is any function that returns points still in the index (the counterexamples
  use the exact search).
* The random generator returns arbitrary values of its documented range.

## 2. Organisation

`lean/Verif/` has, for each part of the code, a model file (`Model/X.lean`), where the English vocabulary needs
it a small specification independent of the model (`Spec/X.lean`), and the property theorems with their witnesses
(`Props/X.lean`).  Helper lemmas are in `Lemmas/X.lean` or private in the props file.  Theorems are called
`Cnn_...` after the property; a theorem about only part of a property ends with `_partial`; a theorem showing that
the property is false of the code ends with `_false`.  Beside each theorem an `example` shows a concrete case that meets
its hypotheses.

`seeded/LOG.jsonl` records the wrong programs tried against the theorems: each line is one edit of a model definition,
the claim it breaks, and the theorems that stopped proving.


## 3. Plan per property

| id | title | status | what is modelled and how it is proved |
|---|---|---|---|
| C01 | Tracking-lost status is decided by the current run of failures | proved | state machine `Slam.step` over frame outcomes; invariant by induction on the history; spec = run length of failures since last success. Counter is 32-bit: wrap after 2^32 failures is shown. |
| C02 | track() returns the last optimised pose | proved | same machine; induction on the history against a `lastSuccess` spec. |
| C03 | Keypoints are fully re-detected at least once every five frames | proved | same machine; modular invariant on the counter. |
| C04 | The map is re-seeded only when tracking is lost | proved | same machine; trace of re-seeding events. |
| C05 | Configuration accepted by parse_file is usable | partial | `Params` model with 32-bit conversion; decision theorem; the negative size case is a counterexample. |
| C06 | Map feature ids are unique, non zero and never reused | proved | allocator as 64-bit counter; induction on the number of allocations; map history invariant (ids strictly below the allocator). |
| C07 | Candidates and map features stay disjoint and keyed by their id | proved | generic `FeatureMap` model with callbacks as oracles; invariant by induction over operation lists. |
| C08 | A 3D point enters the map after three net matches and is dropped when its net count reaches zero | proved | counter model of one staged point refined from `update_staged_map`; spec = first passage of a walk. |
| C09 | A plane enters the map after four net matches and is dropped after two consecutive misses | proved | same with plane thresholds. |
| C10 | A map feature is removed exactly after its allowed number of consecutive misses | proved | counter model refined from `update_local_map*`. |
| C11 | Every finished map feature is exported exactly once | proved | trace of writes in the generic map; multiset balance by induction over histories. |
| C12 | A rejected map update leaves the map untouched | proved | Except-valued `LocalMap.update`; theorem: on throw the state is the initial state. |
| C13 | A deactivated feature map never changes | proved | case analysis of each operation on the deactivated state. |
| C14 | Rejecting an outlier match only undoes that match | proved | frame theorem for `markOutliers` by induction on the outlier list. |
| C15 | Unused detected features become candidates exactly once | proved | refinement of the staging loop to filter/zipIdx spec. |
| C16 | A keypoint becomes either a 3D point or a 2D point candidate, never both | proved | decision theorem over depth values. |
| C17 | Map update terminates | partial | fuel-indexed loop; termination when promotion never throws; divergence witness when it always throws (property false in that case). |
| C18 | No detected plane is matched to two map planes | partial | fold of the matching loop; Nodup invariant; index 0 counterexample. |
| C19 | No detected point is matched to two map points | proved | matching loop with optical-flow ids; counterexample plus partial theorem without flow ids / duplicate ids. |
| C20 | 2D (depth-less) map points take part in pose estimation | partial | model of the return structure of `find_matches`; proved false: the result is always empty. |
| C21 | Upgraded features are moved, not copied or lost | partial | conservation theorem for extraction and insertion. |
| C22 | Inlier/outlier split is a partition | proved | list partition theorem. |
| C23 | A pose accepted by RANSAC is supported by enough matches | proved | interleaving semantics of the parallel loop (read / test / write steps); invariant over all schedules. |
| C24 | RANSAC keeps the best candidate | partial | counterexample (overload rule), plus partial statement (score never more than the tolerance below ...). |
| C25 | Random subsets are faithful | proved | model on a permutation oracle; theorems for every permutation. |
| C26 | Pose covariance estimation never divides by zero | partial | model with iteration counts in Nat; edge cases iterations = 1 refute; PSD of the sample covariance over ℝ. |
| C27 | OBJ export refers to the right vertices | partial | writer as state machine producing lines; resolve indexes against written vertices; induction over op lists. |
| C28 | XYZ and PCD exports contain exactly the points | partial | same. |
| C29 | World and camera frames are exchanged without loss | proved | ℝ matrices/quaternions, ring identities. |
| C30 | Plane changes of frame are consistent with points | proved | same. |
| C31 | Screen and camera coordinates are inverse of each other | partial | field identities. |
| C32 | Inverse-depth points describe a ray | partial | trigonometric identities over ℝ. |
| C33 | The three optimisation parameters always encode a rotation | proved | field identities. |
| C34 | The quaternion Jacobian used for covariance propagation is the derivative | partial | HasDerivAt; sign error shown as counterexample. |
| C35 | Kalman update keeps a valid covariance and never loses information | proved | Mathlib PosSemidef / Schur complement. |
| C36 | Covariance propagation yields covariances | proved | Mathlib PosSemidef. |
| C37 | Depth quantisation is bounded below and monotone in range | proved | nlinarith over ℝ. |
| C38 | Motion model predicts from the poses it was given | proved | recurrence, induction over pose lists. |
| C39 | Every pixel of the depth image lands in its own slot of the organised cloud | proved | Nat div/mod bijection. |
| C40 | Depth rectification does not depend on thread scheduling | partial | last-writer model, two schedules differ; partial: no collision => independent. |
| C41 | Histogram seeds are taken among the remaining cells of the most frequent direction | partial | histogram state machine; counterexample (removed cells join bin 1); partial invariant by induction on the removals. |
| C42 | Region growing collects exactly the mergeable connected cells | proved | DFS refinement to inductive reachability. |
| C43 | Plane extraction terminates and never assigns a cell twice | proved | measure argument; disjointness invariant. |
| C44 | Merging planes produces a consistent labelling | proved | double loop invariant. |
| C45 | Plane adjacency is symmetric and complete | partial | grid enumeration; counterexample in last row/column; partial. |
| C46 | Accumulated plane statistics equal those of the union of points | partial | sums as monoid homomorphism from point lists; covariance PSD by Lagrange identity; seed counted twice is shown. |
| C47 | A detected cylinder has the radius of its segments | partial | copy-constructor model; proved false (0/0). |
| C48 | Cylinder segmentation terminates with disjoint sub-segments | proved | measure on remaining mask; disjointness. |
| C49 | Keypoint lookup finds every candidate around the projection | partial | grid model with UInt32 wrap; counterexamples; partial completeness inside. |
| C50 | Optical-flow ids are carried over faithfully | proved | filter model; sublist theorem; map lookup. |
| C51 | TUM frames are associated one to one within the time tolerance | partial | greedy matching model over ℚ; comparator refutation. |
| C52 | Projection on a plane basis is a faithful chart | proved | inner product algebra. |
| C53 | The closest point on a line is the closest | partial | inner product algebra. |
| C54 | Random integers stay in range | proved | floor arithmetic. |
| C55 | A failed point update leaves the map point unchanged | partial | two-phase update model with throwing points. |
| C56 | The optimiser refuses an inconsistent problem | partial | prefix-sum segments model. |
| C57 | Concave hull retries with growing neighbourhoods | partial | retry loop model; false, counterexample. |
| C58 | Enough matches are requested before falling back to candidates | proved | decision theorem on the matching function. |
| C59 | Camera intrinsics follow the last configuration | partial | cache of the intrinsics as state; proved false (frozen at first use); partial: the first use sees the current configuration. |
| C60 | The second matching pass looks further than the first | partial | grid index of the keypoints with both search radii; proved false with a concrete grid. |
| C61 | A keypoint is accepted as match only if it is the clear winner | proved | two nearest neighbours and ratio test modelled; decision theorem with the exact condition. |
| C62 | Feature ids are unique over all maps, and each map lives its own history | proved | local map = three feature maps on one id allocator; invariant over all operation histories. |
| C63 | The matches given to the optimisation are those of the maps | proved | refinement: concatenation of the matches of the three maps. |
| C64 | A keypoint matched to a map feature is not a new candidate | partial | three maps with one detection; counterexample across maps. |
| C65 | The frame loop never breaks in the local map | partial | Outcome of each frame operation; invariant over histories under explicit non-failure hypotheses; counterexample otherwise. |
| C66 | Every map seen by the frame loop is a reachable one | proved | simulation: every frame loop state is reachable by local map operations. |
| C67 | A failed pose optimisation returns nothing | partial | Outcome of optimisation; decision theorem; counterexample when only the variance fails. |
| C68 | Merging counts the points of each plane once | partial | statistics as sums over cell multisets; counterexample (chain merge counts twice). |
| C69 | A fitted plane goes through the mean of its points | proved | any solver returning a unit eigenvector; algebra in an ordered field. |
| C70 | Planar cells are dense, continuous and flat | partial | loop over the middle row / column as an index list; exact set of tested pixels. |
| C71 | World axes are x forward, y left, z up | proved | matrix computation over ℝ. |
| C72 | A zero plane residual means the same plane | partial | reduced plane form; injectivity off the origin. |
| C73 | Projecting a polygon projects its points | proved | polygon as list of plane coordinates; map/inner product algebra. |
| C74 | Polygons change frame as their points | proved | same, with the frame changes of C29. |
| C75 | Transforming a polygon keeps its shape in its plane | partial | same; the exact offset is computed. |
| C76 | The distance of two lines joins their closest points | partial | cross product algebra. |
| C77 | The difference of two angles is the short way round | proved | atan2 of sin/cos, congruence modulo 2π. |
| C78 | The orientation of a pose is always a rotation | partial | pose as state machine; unit norm invariant. |
| C79 | A point is flagged as moving exactly when it was seen too far away | partial | decision theorem on the moving test. |
| C80 | An updated map plane is the plane of the fused parameters | partial | plane update model; scalar counterexample. |
| C81 | Jacobians of the coordinate conversions are their derivatives | proved | HasFDerivAt / HasDerivAt for each conversion. |
| C82 | Jacobians of the screen and plane covariance conversions are derivatives | partial | same; wrong entries exhibited. |
| C83 | Predicted rotation keeps the observed axis | partial | slerp model; axis algebra. |
| C84 | Pose optimisation succeeds only on a sufficient problem | proved | decision theorem with the minimiser as an oracle. |
| C85 | Pose variance reflects the spread of the sampled poses | partial | sample covariance over ℝ and Euler angles model. |
| C86 | Inliers are the matches whose reprojection error is small | partial | decision theorem on reprojection error. |
| C87 | Inliers among points without depth | partial | same for depth-less points. |
| C88 | Aligning the depth image with an identical colour camera changes nothing | partial | pixel loop as interleavings of row writes. |
| C89 | A depth is moved to the colour pixel that sees the measured point | partial | same, with exact projections. |
| C90 | Measured points outside of the colour image are dropped | partial | same, with the double to unsigned conversion. |
| C91 | The aligned depth is the depth of the closest surface | partial | last writer semantics. |
| C92 | Every image size is accepted | partial | slot arithmetic with div / mod. |
| C93 | TUM images are associated with the nearest image first | proved | greedy matching as sorted list fold; stability (no blocking pair). |
| C94 | A TUM frame gets the closest ground truth | partial | same. |
| C95 | The start index option skips the first frames | partial | index loop model. |
| C96 | The jump option keeps every j-th frame | proved | index loop, induction on the length. |
| C97 | A fitted boundary is made of the points given | proved | recursion on the candidate list with fuel; invariant: vertices are input points. |
| C98 | A fitted boundary does not cross itself | partial | invariant: a new edge was tested against all previous ones. |
| C99 | A fitted boundary encloses the points it was fitted to | partial | ray crossing count; exact disjunction proved. |
| C100 | A fitted boundary is closed | partial | invariant on the last pushed vertex. |
| C101 | The depth of a keypoint is that of its nearest pixel | proved | `get_depth` and the two loops of `set` over ℚ; floor arithmetic and induction on the lists. |
| C102 | A keypoint stays tracked exactly when the optical flow agrees both ways | proved | refinement of the two loops to one filter. |
| C103 | Every pixel is searched for keypoints exactly once | partial | windows as rectangles; linear arithmetic for all sizes; counterexample 640 x 480. |
| C104 | The number of keypoints of a frame is bounded | partial | counters, mask, `retainBest` and `removeDuplicated` of OpenCV modelled; counting lemmas; counterexamples evaluated by the kernel. |
| C105 | New keypoints are the strongest free ones, whatever the schedule | proved | same model; the schedule is any permutation of the windows. |
| C106 | New keypoints are searched only when needed | proved | decision theorem over `compute_keypoints` with all OpenCV answers as parameters. |
| C107 | The area of a polygon is always that of its present boundary | proved | `Model/PolygonOps`: polygons with their cached area and every operation on them; the geometry library (Boost) is a record of arbitrary functions. Invariant by induction over the operation list. |
| C108 | Moving a polygon keeps its area, projecting it scales it by a cosine | partial | Shoelace area of an affine image of a closed ring, then the transforms of `Model/Geometry`. |
| C109 | The union and intersection of polygons are their biggest part | proved | The loop over the parts, with the aliasing of the first part, by induction over the number of turns. |
| C110 | Intersection over union is a ratio | partial | From C109, with the hypothesis that each part of an intersection lies in a part of the union. |
| C111 | Merging polygons does not lose area | partial | From C109 and the acceptance test of the simplification, with the hypothesis that the union covers its first polygon. |
| C112 | A polygon is visible exactly when the image sees a part of it | partial | Refinement of the screen boundary to the pinhole image of the corners. |
| C113 | The boundary of a detected plane is made of points of its edge | proved | Masks as functions of the cell, erosion and dilation as minimum and maximum over the kernel; the boundary mask is proved to be the edge, then the points are the filter of the visits, in any order. |
| C114 | Cylinders are dropped only when nothing of them is left after erosion | partial | Dilation, erosion and the min/max test on the same masks; equivalence with filled gaps and cells with all their neighbours, witness for the whole grid. |
| C115 | Similar planes are near each other | partial | The two tests over the reals; equivalence with angles through the monotony of the arc cosine, distance of the feet of the planes by expansion. |
| C116 | Patches are merged only when aligned and near | proved | `can_be_merged` and the tolerance of the cells over the reals; same technique as C115. |
| C117 | Whether two patches are merged does not depend on which one is asked | partial | Same model as C116; bound by Cauchy-Schwarz and a witness pair. |
| C118 | A point without depth is visible when its segment meets the image | proved | The case analysis on the number of crossings; the margin to the border along the segment is concave and continuous, hence at most two crossings and the intermediate value theorem. |
| C119 | Clamping a segment keeps its visible part | partial | Same model and margin function as C118; universal refutation for a half visible segment. |
| C120 | A point is promoted to 3D only when its depth is well known | partial | The linearity index over the reals with the NaN cases, the promotion with the exceptions it catches; covariance by the propagation lemmas of C36. |
| C121 | Random variations move only the map feature, within its uncertainty | proved | The three variations as functions of the drawn numbers; clamps and the constructor with its exceptions. |
| C122 | A map plane is matched to the detected plane that covers it most | partial | The search loop by induction over the detections: it returns the first best candidate. |
| C123 | The masks of the returned planes are the cells of the planes | proved | label map of the merged planes and masks of the returned ones; membership by the invariant of the merge, disjointness from the labels. |
| C124 | Regions are grown from the best seed of a frequent direction | proved | growing loop over the histogram; a turn relation in Spec/Primitives, the seed is minimal by induction over the candidates. |
| C125 | A pose search stops early only for a good pose | proved | consensus search with a relation that follows the turns (Spec/Ransac); induction over it. |
| C126 | The patches of a cylinder are the inliers of the best hypothesis | proved | RANSAC iterations with the distances as inputs; induction over the hypotheses and over the rounds. |
| C127 | Exact cylinders are recovered exactly | proved | least squares formulas over the reals; the cost of any circle is the cost of the fitted one plus a sum of squares. |
| C128 | The distance to a cylinder segment is the distance to its surface | proved | distance formulas over the reals; Lagrange identity, induction over the sub-segments. |
| C129 | Cylinder shapes can be compared and measured | partial | similarity and distance of cylinder shapes; trigonometry, witness for the distance. |
| C130 | Merging keypoints into map points never ends the program | proved | Model/Updates.lean: constructors and updates of the point features on the real geometry and covariances, as concrete feature types of the map. Invariant of the features, plugged into the frame loop theorem of C65. |
| C131 | Merging a detected plane into a map plane never ends the program | partial | Model/Updates.lean: the update of a map plane; case analysis of all outcomes, counterexample with a plane seen from its other side. |
| C132 | The points followed from image to image are matched, visible points of the map | proved | Model the loop over the maps with the random draws; theorem by induction over the store, the invariant of all histories gives the uniqueness of ids, C50 the ids found again. |
| C133 | Every followed point is detected anew now and then | partial | Same model; a counterexample with a generator that gives small numbers for ever, and the exact set left out. |
| C134 | Features of the map never make the pose optimisation refuse a frame | proved | Standard deviations as square roots that may be undefined; validity is equivalent to non-negative variances, which C130 gives over all histories. |
| C135 | The poses found from three points solve the problem | partial | `Model/P3p`: the solver statement by statement over the reals, undefined numbers as `none`. The closed formula gives a root of the cubic, the two eigenvectors split the degenerate conic in two planes, the quadratic gives lengths with null residuals, the Gram matrices agree, so the matrix is a rotation. A computed example at scale 1e-6 refutes the full statement. |
| C136 | No pose that solves the three point problem is missed | partial | The same chain backwards: the lengths of a solution are on one of the two planes, their quotient is a root, the rotation is determined by two differences. The isosceles case has a null leading coefficient. |
| C137 | The configured offset of the second camera is applied | partial | The matrix of a product of unit quaternions is the product of their matrices, each factor is an elementary rotation (`Model/Angles`). |
| C138 | Euler angles of an orientation give it back | proved | The rotation of Euler angles is the product of three elementary rotations; Eigen's function is specified by its documentation and shown to exist for every rotation. |
| C139 | Errors between poses are distances | proved | The angle is characterised by the trace of the relative rotation; uniqueness by injectivity of the cosine on 0..pi. |
| C140 | An association file gives its frames and their ground truth | partial | Refinement of the reader to a filter of the lines and to the first line of each time (`Model/TumRun`). |
| C141 | The saved trajectory has a line per treated frame | proved | Induction over the frames: the loop refines a declarative choice of frames and a chain of calls of an arbitrary tracker. |
| C142 | The reported error is the distance to the ground truth | partial | The invariant of C141, and a run with a tracker that answers the truth. |
| C143 | The tracker starts at the true pose | partial | Unfolding of the start of the program, against the pose of the file in millimetres. |
| C144 | An outline that crosses itself is cut at its crossings | partial | Model/PolygonRepair: the table of vertices, crossings and jumps, and the walk that cuts the outline; boost self_turns is a parameter and the crossings are specified by Spec/PolygonRepair AllCrossings. Exact evaluation of the walk for one crossing; for several kept crossings the walk is a permutation of the table (Lemmas/PolygonTable, PolygonWalk), whose cycles are the loops; the parity of the edges on the right of the left side of the outline is constant along a loop and differs between the two ways through a crossing (Lemmas/PolygonParity, PolygonColor), so that no loop comes back to a crossing; counterexamples for the rest. |
| C145 | The repaired polygon is the set of points with a non zero winding number | partial | Model/PolygonRepair fill and correctPolygon; points of a polygon are an abstract set. Induction over the loops for the scores. |
| C146 | Merging polygons keeps what they cover | proved | Model/PolygonRepair combine; induction over the list, for all polygons. |
| C147 | Lines are built from separate groups of aligned pixels | proved | Model the gradient, the growth of a region as a loop over a list that grows, with fuel, and the search over the pixels in any order. Prove termination and the partition by an invariant of the growth, for any rule of alignment; then alignment for exact angles. |
| C148 | A detected line is the best line of its pixels | partial | Model the moments, the choice of the direction, the projections. Prove that the assertions hold since a kept group has two pixels, the minimum by the smallest eigenvalue of a 2 by 2 form and the parallel axis theorem, and refute the orientation on a ramp. |
| C149 | Displaying the detected lines reads the depth inside the image | partial | Model the truncations and the reads of the mask. Refute on an image whose segment ends out of it; prove the reads when the ends are inside, by cases modulo 4 on the rounding. |
| C150 | Log lines are not mixed | partial | Threads with lists of calls, a mutex for each of the three functions and the nine insertions of a call as steps; invariant over all schedules: what a function wrote is whole lines and the beginning of the line of the holder of its mutex. A measure gives the end of every schedule. |
| C151 | Geodesic dilation and erosion | partial | Images as functions on rows and columns, elements as lists of offsets, the do while loop with a step budget. Levels of the iterates characterised by walks, by induction; growing bounded images are stable after at most 255 turns for each pixel. Erosion by complements. |
| C152 | Holes are filled | partial | fillHole on top of the dilation; the content of the uninitialised marker is a parameter. Reduced to paths of touching pixels by the theorem on reconstructions. |
| C153 | The example program for numbered images treats the frames it is asked for | partial | The loop of main_CAPE.cpp over an arbitrary tracker, with fuel; files are missing, unreadable or images. By induction over the turns, against the list of wanted frames before the first absent one. |
| C154 | Trajectory files are named after the time of the run | partial | Names as lists of characters; injectivity by splitting at separators, equality with the interpolated stamp of shifted fields. |
| C155 | Removing duplicates keeps each point once | partial | relational std::sort then std::unique; lexicographic order on separated coordinates, induction over the sorted list; counterexample with a tolerance that is not transitive. |
| C156 | The boundary of a constant list is the boundary of its distinct points | partial | search with positions in the index kept apart from the numbers of the points; equality with the search of Model/ConcaveHull when they agree; counterexample of four points. |
| C157 | The boundary is followed by the least turn | partial | polar form of atan2, normalisation of angles; relational std::sort; counterexample with arctan bounds. |
| C158 | Two lines intersect where they meet | partial | boost intersection as a parameter with a contract; line test reduced to segments of length 100; two counterexamples. |
| C159 | Refined lines are dense | proved | refinement on top of the region growing of C147; invariant on the map of used pixels; the radius decreases by 9/16 until one pixel is left; fuel bound existential. |
| C160 | A line is as meaningful as its aligned pixels are unlikely | partial | real arithmetic, binomial tail as the specification; counterexample with a bound on e^3. |
| C161 | Random numbers of a thread depend on the seed only | proved | threads with a lazily created engine each, requests as one interleaved list; induction on the list against the stream of one engine. |
| C162 | The threads of the pose search try different subsets | partial | iterations given to threads by an arbitrary list, on top of C161; the set of answers is an initial segment of the stream. |
| C163 | The planes and cylinders of a frame depend on this frame only | proved | all the members of the detector as state; the frame resets each part it reads; invariant on the sizes of the grid, equality with the model of C41. |
| C164 | Trackers for cameras of different sizes in one program | partial | static variables as an optional state set once; parts of images throw when they leave the image. |
| C165 | The keypoints given for a frame are those of this frame | proved | the static handler as an optional state; what `set` keeps is the size of the grid only. |
| C166 | A detected plane has a covariance | proved | `Model/PlaneCovariance` adds the covariance of a plane to the statistics of `Model/PlaneSegment`. The accepted fit has a covariance of nonzero determinant, so the sum of squares is the sum of a positive definite matrix and of the squares of the mean; Mathlib gives its inverse positive definite and the inequality of determinants. |
| C167 | The debug image shows the features of the map where the camera sees them | partial | `Model/Drawing`: a drawing is the list of the calls to OpenCV; conversions to `int` are undefined out of range. Points: case analysis on the projection. Points without depth: the ends kept by the clamp are crossings, in the image. Planes: the change of frame keeps the boundary; induction on the sides. |
| C168 | The value of a line counts the pixels of its rectangle | partial | corners, sort, walk over the rows with integer steps; induction on the rows. |
| C169 | Improving a line never makes it worse | proved | five stages of five variations as one loop; invariant that ties the best rectangle to the first one (shift across the direction, width). |
| C170 | Advanced refinement keeps the meaningful lines | proved | the search is the standard one followed by a filter; then C159 and C169. |
| C171 | Lines at several scales are placed in the image | partial | sizes of the reduced images, key lines and mask; induction on the octaves and on the lines. |
| C172 | Comparing lines counts the pixels that differ | partial | lists of pixels, exclusive or; counting by induction. |
| C173 | The consistency checks of the map never stop the tracker | proved | the operations of the maps once more with every assertion and index check as an outcome (`Model/CheckedMap`); refinement of the unchecked frame loop by induction on the frames with the invariants of C12 and C65 |
| C174 | The statistics printed at the end are the means of the measured times and their percentages are shares | partial | The readings of the clock of a frame are a record of sections; the counters of the objects and the shared ones are folds over the history of calls; `show_statistics` gives a list of lines. Means by induction over the history; shares from the order of the sections in time |
| C175 | The random searches try often enough for the requested probability | partial | Numbers of tries as functions of the settings with infinities and NaN; the probability of a good try is a sum over all the outcomes of independent tries; equivalence with the logarithms, then least number. Concrete numbers by exact rational powers |
| C176 | The loops cut out of an outline turn around every point as often as the outline | partial | Model/PolygonRepair correctRing with the winding number of Spec/PolygonRepair (crossings of a half line). The walk of C144 keeps every quantity that adds up along a line; the crossings of a half line are one. |
| C177 | With the odd-even rule, the repaired polygon is the set of points with an odd number of loops around | partial | Model/PolygonRepair fillOddEven, correctOddEven and correctAllOddEven; symmetric differences are an abstract operation on sets of points. Invariant of each pass: the parity of the number of sets around a point. |
| C178 | The holes are cut out of the repaired polygons | partial | Model/PolygonRepair correctHoles and correctAll. From C145 and C146, by induction over the holes and the polygons. |
| C179 | The outline fitted to the points of a plane is a valid polygon | partial | the construction of the plane basis is known to succeed for a unit normal; the cases of the hull and of the simplification are followed; the library is any record of functions |
| C180 | A fused map feature is the best compromise between the map and the detection | proved | the gain solves G(M + R) = M, which makes the gradient of the sum zero at the new value; the rest is a sum of squares |
| C181 | A map point that is seen again and again at one place goes there | proved | induction over the detections, with the invariant that the error is within v standard deviations of the covariance; each update multiplies v by r / (r + q) |
| C182 | The choice of the world frame does not matter | partial | Spec: a rigid motion and what it does to points, planes, inverse depth points and poses. The errors of the matches go through the transformed matrices, which factor through the motion; the Kalman filter with the static matrix is conjugated by the rotation. Two witnesses for the parts the code breaks. |
| C183 | The line detector follows the strongest edges first | proved | Model of the end of ll_angle (greatest gradient, bins, std::sort as any sorted permutation) and of the calls of detect on one detector, with what stays in ordered_points. Proof: the bins are in the range of an int; sorted bins give gradients sorted up to a bin; a region can only hold pixels that come after its first pixel in the order, by induction on the search. |
| C184 | The map does not depend on the order in which its features are stored | partial | `Op.rehash` of `Model/FeatureMap` reorders the tables between two calls; two states are the same when their tables are permutations of each other. Every call is shown to respect this relation; the search of matches has a closed form when no two features compete. The far points are a matter of the mask of the keypoint handler, which never looks further than 30 pixels. The counterexample is evaluated by the kernel. |
| C185 | A still camera recognises its map | partial | the whole frame loop on the local map and the keypoint handler in front of equal frames; induction on the number of frames with the invariant that the map holds exactly the features of the keypoints, in order, each found t times; the search result of a frame is computed from the candidate theorem of C49 and the ratio test of C61. |
| C186 | Matches without any error are all kept | proved | An invariant of the parallel loop of Model/Ransac.lean: every candidate keeps all the matches, the best score is 1 or the total, the inlier set is empty or everything, and an iteration that has gone past its update has seen everything kept; then `finish` and `optimizedPose`. |
| C187 | A moving camera makes one map feature per scene point | partial | The lemmas of C185, with the search made from the previous pose and the merging with the new one; every frame has its own handler, either filled with new keypoints (`Spec.Redetected`) or with followed ones (`Spec.Followed`).  Induction on the trip. |
| C188 | A point without depth that is seen again and again at one place goes there | proved | `Spec.MergedAll` is a sequence of calls of `update_with_cartesian` that all return true. The two jacobians of the conversions are inverse of each other (`block_inverse`), so that the covariance in the world after a merge is the fused one plus the one of the first pose; then the contraction of C181. |
| C189 | A detection makes a point without depth more certain | partial | Bounds of the fused covariance by each of the two inputs, from the optimality of the gain (C35), plus the covariance of the first pose. Witness of the failure: a point with the same variance in all directions. |
| C190 | A camera that does not move does not find out depths | partial | `Spec.Watched n`: a keypoint without depth becomes a map point and is merged n times from the same camera. Invariant `Blind`: the point stays two metres away; its variance along the line of sight is at least 10^6/(n+1) (sum of the information) and at most (10^6+b)/(n+1) + n(b+0.0001) (optimality of the gain against the gain 1/(n+2)). |
| C191 | A map point seen without depth keeps its distance | partial | the update of a 3D point without depth composed with the place of a new inverse depth point (C190) and the convergence of the filter (C181); the bound of one step from the Joseph form of the covariance and its optimality |
| C192 | A plane seen at every frame enters the map | partial | a frame is matching, update and staging of the plane map of Model/FeatureMap with the find of Model/MapKinds; the scene (Spec.StillPlanes) is any relation `Stands` between detection and map plane kept by building and tracking, under which a map plane is similar only to its detection. Proof by an invariant (`CalmState`) over the frames: which identifiers are candidates or map planes, with which counters, and the two unmatched candidates of the first detection. The single plane claim is an invariant (`Lonely`) of every history of calls. |
| C193 | Measurements without error give no drift | proved | the frame loop of C187 with the 3D map points of Model/Updates.lean (their constructors, Kalman filter and screen to world conversion); the specification (Spec.ExactView, Spec.Reprojects) is the pinhole equations between pixel, depth and scene point. Proof by induction over the frames: at the true place the detection of a point is its own map point, the innovation is zero and the filter leaves it there; a pose without reprojection error is then the true place. |
| C194 | A plane measured without error stays where it is | partial | the plane filter with a zero innovation keeps the 4 parameters, and the normalisation keeps a unit normal; the detection in world space is the wall because two planes with the same signed distances are equal; induction over the detections. The witness on the other side has a gain of three quarters |
| C195 | A few frames without any detection do not cost the map | partial | The frame loop of C193 with blind frames in between: the state of the map is `one feature per scene point, not found for c frames`, an invariant of both kinds of frames as long as c is at most 10 (induction on the journey); the eleventh failure is followed separately, and so are blind frames during the first two frames, when the map only has candidates. |
| C196 | The exported map of a run without error is the scene | partial | write_to_file of the three feature types and the destructor of the map are modelled (Model/Export.lean) on top of the frame loop of C195 and the OBJ writer of C27; the file is read back by the reader of Spec/MapWriter.lean. Both ends of a feature, dropped during the run or still in the map at the end, give the same vertices. |
| C197 | The error of a map point stays bounded by that of its detections | partial | The error of the fused point is a combination of the two errors; measured with the covariance of the point it grows by at most the error of the detection, and the noise added before each update shrinks it by a fixed factor, so that it stays bounded. The two counterexamples are computed with the same filter. |
| C198 | The walls of a room enter the map, exactly where they are | partial | Model/PlaneMap.lean: the map of planes (FeatureMap, MapKinds) with the real update, creation and entry of a plane (Updates) and the two similarity tests (Refine). The frames may all differ. Proof: the invariant of C192 per frame, with the exact step of C194 as merge and the inverse transform for the similarity tests. |
| C199 | The map of a long run stays bounded | proved | The frame loop (`Model/Slam.lean`) on the maps of the program (`Model/System.lean`), the detectors being arbitrary but giving at most n keypoints and m planes per frame. Invariant after every frame: for each j, the number of features (map and candidates) last seen j frames ago is at most the quota of the type; matches are exclusive, unused detections become candidates of class 0, a miss moves a feature from class j to j + 1, the lost test empties the classes above 10 (9 for planes). Lemmas in `Lemmas/MapSize.lean`. |
| C200 | Without a pose for eleven frames nothing is left of the map | proved | invariant of the counters of every reachable map (map features missed at most 10 or 9 times, candidates at most 2 confirmations or 1 miss), then induction over the frames without a pose: the miss count of what is left is at least the number of these frames; the written contents and the contents of the map stay the same multiset |
| C201 | A camera that lost everything is tracked again | proved | The whole frame loop over all three feature maps. A run of any kind, then frames without detections: by C200 the maps are emptied, and since such frames give no ids nothing is staged either. Then the induction of C187 with ids that start at the number of ids given so far. |
| C202 | After a loss the poses and the map are those of the scene | partial | C201 with the 3D points of C193 and exact measurements. Moving the scene and the camera by the same rigid motion changes no pixel, so the scene seen from the true place is the moved scene seen from the last pose; a place without reprojection error is then the moved true place. |
| C203 | A scene point is at most once in the map | partial | Runs of the whole frame step over the point map, with the detections of a frame as the list of its keypoints and a labelling of the map features by scene points. The invariant is that the list of scene points shown by the candidates and the features has no duplicate; each pass of the matching, the removal of lost features, the promotion of candidates and the staging of new keypoints is shown to permute or shorten that list, or to add a scene point that is not in it. |
| C204 | A wall that fills the image is found as one plane | partial | Model: the members of the detector and the cells of `Verif/Model/Detector.lean` and `Verif/Model/PlaneSegment.lean`. Proof: a flat cell has a covariance of null determinant (a vector of its kernel), so no cell is planar (`_false`); the smallest eigenvalue is below the spread along the normal of the plane (`C204_noisy_cell`); all cells of a grid are reachable from any seed, the seed is found in the most populated direction, and the region grown takes all cells (`C204_wall_partial`). |
| C205 | The example programs treat at most the requested number of frames per second | partial | Model: `Verif/Model/FrameRate.lean`, the time asked from `usleep`, the duration of a turn of the loop and the rate written in the image, on rational durations. Proof: bounds of one turn by the floor of the microseconds, then induction on the frames; witnesses for the false parts. |
| C206 | Searching a window twice gives the keypoints of the sensitive detector | proved | The thresholds are exact ceilings of 41.2378 * 0.99945^n; the FAST detector of OpenCV is defined on gray images (`Model/Fast.lean`). A pixel is a corner for the thresholds up to its score, and suppression compares scores, so that the answers for a higher threshold are those of a lower one with a large enough response (`fast_filter`). The n strongest keypoints are then the same in both lists when the first has n of them (`retainBest_filter`), which gives the equality of the two programs; the rest follows from counting. |
| C207 | What is written about a pose and about an optimisation is right | partial | The numbers of the text of a pose are modelled with the titles they stand under; reading back uses C138 (Euler angles give the orientation back) and the factor between degrees and radians. The end messages and the values of the statuses are a table; the claim is a case analysis over the twelve ends. |
| C208 | The keypoints do not depend on the lighting | partial | On the model of FAST of C206. A gain divides the threshold of the corner test (`corner_adjusted`), so that scores keep their strict order; a pixel is among the n strongest when fewer than n are stronger (`mem_retainBest`), and no pixel becomes stronger than one it was not stronger than. |
| C209 | The counters of the map in long runs | proved | Histories of calls of Model/LocalMap (Spec.updates counts the updates, Spec.features lists all features). Invariant over the history: counters within the number of updates (C209_counters); C209_no_overflow draws the ranges of int and size_t from it, which justifies the unbounded counters of Model/FeatureMap; C209_overflow is a run by induction where one point is matched in every frame. |
| C210 | The exported file of any run holds every finished feature once | proved | Composition of the map (C62: what is exported, by id), write_to_file (Model/Export) and the OBJ writer (C27) for any history. The model of the file lists dropped features type by type; WrittenOrder ranges over all interleavings, which removes that simplification. Vertices and faces are compared as multisets with Spec.places and Spec.boundaries. |
| C211 | Image lists and association files are read whatever their layout | proved | The text is a list of characters (`Model/TumText`): lines of `getline`, `istringstream` extraction of words and numbers with its failures. Round trip for lines written in any layout (`Spec/TumText`), and inversion of the extraction for any text. |
| C212 | The ground truth of a dataset is the one that is written | partial | Same model; round trip for complete lines, witnesses with a cut line and an empty line. |
| C213 | The example program treats the dataset that is in its directory | partial | Composition (`Model/TumProgram`) of the readers of text (C211, C212), of the association (C51) and of the main loop (C141) on the directory of a dataset, an arbitrary record of files and images. |
| C214 | What a run reports of its first frames depends neither on what follows nor on the way it is stopped | proved | Models of C141 and C153. The loop over a concatenation is the loop over its parts; simulations between the loop with keys and the loop over a prefix without keys, between a dataset and one that extends it, and between loops that differ by the option that saves. |
| C215 | The six numbers of a pose tell where the camera is | proved | Model of `eulerAngles` of Eigen and of `get_vector` (`Model/Optimizer`). From the orthogonality of the matrix and its cofactors: the three angles satisfy the equations of the product of the three rotations, whatever branch is taken. |
| C216 | The exported file after a loss holds the old map and the new one | proved | Composition of C201 (contents written during the dark frames, map after the trip), C202 (places of the new features) and the writer of C196: the calls of the writer are compared up to order, through the content of features. |
| C217 | Losses add up | proved | Induction over an inductive specification of a history of losses; each step is C201, C202 and C216 for the run so far, with the state at its end (last pose, counters, ids) as the invariant. |
| C218 | The trajectory saved for an exact dataset is the true one | proved | Props/TumExact.lean puts the loop of the example program (Model/TumRun.lean) around the tracker (Model/Slam.lean, Model/LocalMap): slamTrack is the call in the loop. loop_slam shows by induction on the dataset that the loop writes a line per returned pose; C193_no_drift gives the places of the returned poses; lineOf_place shows that the position and angles of a line describe the place of the pose, because the angles give back the rotation matrix. Spec.placeOf reads a line as a reader of the file would. Example: a camera that swings in front of a wall, any number of images, with the angles Eigen computes. |
| C219 | The pose error shown for an exact dataset is zero | partial | Props/TumError.lean: with the end pose of C218 and the record of the loop (run_spec of C141), end_pose computes the pose of the tracker from the change of frame between the ground truth and the tracker: the rotation is the true one and the position is 1000 g − 999 g0, where g0 and g are the numbers of the file for the first and last images; shown_error computes the displayed numbers. C219_shown_error_false is a run of two exact images two centimetres apart, with a saved trajectory that equals the ground truth and a displayed error of 1.998 cm. |
| C220 | The trajectory saved for exact numbered images is the true one | proved | Props/CapeExact.lean puts the loop of the program for numbered images (Model/CapeRun.lean) around the tracker (Model/Slam.lean, Model/LocalMap.lean). loop_slam shows by induction on the bound of the loop that it writes a line per returned pose and ends before the bound; the rest is as for C218. Spec.Gives says which images a frame gives. Example: a camera that swings in front of a wall, any number of numbered images. |
| C221 | The trajectory saved for a dataset with losses of tracking | proved | Props/TumLosses.lean: report_places says what the example program writes when the returned poses are known; trip_state and C217_losses_add_up give the poses of a run with any number of losses (Anew.Spec.Losses, the specification of C217); losses_rigid shows that all places are rigid, so that the angles of a line describe them. Example: a camera that swings, is covered and pushed aside, and is covered again k times, for any k below 2^32. |
| C222 | The saved trajectory and the exported map of one run fit together | proved | Both files of the same run: the calls of the program are a run of Slam.run (tracked_slam), which report_places turns into the trajectory and C196 with C217 into the file of the map |
| C223 | Both files of a run on numbered images | proved | The loop of main_CAPE does what Slam.run does on the treated numbers (loop_slam of C220); trajectory and map file as in C222 |
| C224 | From the directory of a dataset to the trajectory and the map | proved | The elements of a directory are determined by its lines (isElement_unique), so every run on it is the run on the list of C222 |
| C225 | A dataset gives the same trajectory in both formats | proved | Induction on the elements with both loops in related states (loop_same); loop_end for the numbers after the last image |
| C226 | The image lists of a synchronised camera are associated as they were taken | proved | C93 gives for each frame an association at least as close; by the triangle inequality it is the frame itself, so no two are crossed and the sort is that of the colour times |
| C227 | A dataset given by its image lists is tracked frame by frame | proved | The text of each list is read as in C211 and associated as taken as in C226; the run on the resulting elements is then that of C222. The example is a directory of lists of any length, with colour images at 1, 11, 111, ... seconds and depth images 0.1 s later. |
| C228 | Writing down the association of a dataset does not change its run | partial | Both runs are shown to be the run on the same elements: C226 and an induction over the ground truth assignment for the lists, C211 for the association file. The full claim is refuted by a dataset of one frame whose ground truth is 0.01 s after it. |
| C229 | A dataset of a synchronised camera always gives the same result | proved | The frames before the ground truth is assigned are those of C226, whatever the sorts did; the assignment is a function of their times, so every run is one and the same call. |

## 4. Where the code does not do what the property says

Each line names a property whose full statement is false of the model, the theorem that shows it with a
concrete input, and the reason.  The `_partial` theorems of the same property prove what remains true.

* **C05** (Configuration accepted by parse_file is usable): `C05_negative_size_accepted_false` — C05_negative_size_accepted_false: a negative image size is accepted by the parser (cast to unsigned); the equivalence holds for files without negative sizes.
* **C13** (A deactivated feature map never changes): `C13_upgrades_not_blocked` — Matching, update, staging, outliers and reset are blocked; C13_upgrades_not_blocked shows that the two upgrade calls still change a deactivated map.
* **C17** (Map update terminates): `C17_update_may_loop_false` — False in general (C17_update_may_loop_false): if building a map feature throws, the loop does not advance. Proved under the hypothesis that it does not throw.
* **C18** (No detected plane is matched to two map planes): `C18_first_plane_never_matched_false` — Exclusivity and range proved; the last part is false: detection number 0 is never matched (C18_first_plane_never_matched_false).
* **C20** (2D (depth-less) map points take part in pose estimation): `C20_2d_points_never_contribute_false` — False: C20_2d_points_never_contribute_false, a 2D point never contributes a match (map_point2d.cpp:118 returns before the push).
* **C21** (Upgraded features are moved, not copied or lost): `C21_upgraded_points_lost_false` — Proved when no constructor of an upgraded point throws; otherwise the converged points are lost (C21_upgraded_points_lost_false).
* **C24** (RANSAC keeps the best candidate): `C24_mixed_matches_false`, `C24_lost_update_false`, `C24_data_race_false` — False: C24_mixed_matches_false (tie rule), C24_lost_update_false (comparison outside the lock), C24_data_race_false. Proved for the deterministic build when all matches count the same; in general no candidate evaluated is better than the one kept by more than 0.1 per iteration.
* **C26** (Pose covariance estimation never divides by zero): `C26_no_sample_false` — false for one requested iteration (C26_no_sample_false); proved for two or more, with the value of the covariance and independence of the storing order
* **C27** (OBJ export refers to the right vertices): `C27_point_shows_next_vertex_false` — Lines and polygons: proved. Points: false, C27_point_shows_next_vertex_false (the vertex number is incremented before it is written). The file is its text; the printed form of a coordinate is any text without blank.
* **C28** (XYZ and PCD exports contain exactly the points): `C28_pcd_count_false` — C28_pcd_count_false: the PCD header always announces 0 points. The point lines themselves are proved for both formats.
* **C31** (Screen and camera coordinates are inverse of each other): `C31_left_of_image_false` — Screen to camera and back proved. False for camera points whose projection is left of or above the image: C31_left_of_image_false (the back-projection throws).
* **C32** (Inverse-depth points describe a ray): `C32_interval_false` — Ray, distance and both round trips proved. The confidence interval is wrong: C32_interval_false (min instead of max).
* **C34** (The quaternion Jacobian used for covariance propagation is the derivative): `C34_jacobian_false` — false at every triple but zero: the three diagonal entries have a wrong sign (C34_jacobian_false); the other nine entries proved
* **C40** (Depth rectification does not depend on thread scheduling): `C40_schedule_false` — False in general: two interleavings with different results (C40_schedule_false). Proved when no two pixels land on the same pixel.
* **C41** (Histogram seeds are taken among the remaining cells of the most frequent direction): `C41_removed_cell_returned_false`, `C41_not_most_populated_false` — Proved before any removal, and after removals for all bins but bin 1; removing a cell out of the grid is an error (C41_out_of_range). False for bin 1, in which the code puts the removed cells: C41_removed_cell_returned_false, C41_not_most_populated_false.
* **C45** (Plane adjacency is symmetric and complete): `C45_last_row_false` — Symmetric, irreflexive and sound; complete except for pairs inside the last row or the last column (C45_last_row_false).
* **C46** (Accumulated plane statistics equal those of the union of points): `C46_seed_counted_twice_false` — Statistics, centroid and covariance proved. A grown plane counts its seed twice (C46_seed_counted_twice_false).
* **C47** (A detected cylinder has the radius of its segments): `C47_radius_lost_false` — False for every cylinder returned: C47_radius_lost_false (0/0, the copy constructor drops the count).
* **C49** (Keypoint lookup finds every candidate around the projection): `C49_portrait_overrun_false`, `C49_border_finds_nothing_false` — Only candidates are considered (full). All candidates are considered at least one cell from the left/top border; nearer, nothing is found (C49_border_finds_nothing_false). No overrun for images at least as wide as high; C49_portrait_overrun_false for the others.
* **C51** (TUM frames are associated one to one within the time tolerance): `C51_order_undefined_false` — Proved for all runs that return, with all orders of equal scores. The order of the sequence is false in general: when the greedy association crosses two pairs the comparison of the final sort is not an order and its behaviour is undefined (C51_order_undefined_false; exact condition C51_undefined_iff_crossed).
* **C53** (The closest point on a line is the closest): `C53_set_normal_false` — Segments and constructed lines proved in every dimension. False after set_normal with a direction that is not unit: C53_set_normal_false.
* **C55** (A failed point update leaves the map point unchanged): `C55_inverse_depth_false` — points and planes proved; false for inverse depth points straight above or below their first observation (C55_inverse_depth_false), proved elsewhere
* **C56** (The optimiser refuses an inconsistent problem): `C56_nan_false` — false when a distance contains a NaN (C56_nan_false); proved for distances without NaN, hence for the three kinds of matches over the reals
* **C57** (Concave hull retries with growing neighbourhoods): `C57_larger_size_false`, `C57_last_size_false` — False of the code: size 3 is tried twice and 97 never (C57_larger_size_false, C57_last_size_false). Proved: the exact sequence of sizes, that only failures are retried, and when the search gives up. The neighbour search is an arbitrary function.
* **C59** (Camera intrinsics follow the last configuration): `C59_intrinsics_frozen_false` — C59_intrinsics_frozen_false: intrinsics are cached at first use, so a later configuration is ignored.
* **C60** (The second matching pass looks further than the first): `C60_wider_search_not_wider_false` — False: C60_wider_search_not_wider_false shows the wide search considers a subset of the narrow one. Proved: away from the borders it considers all of them.
* **C64** (A keypoint matched to a map feature is not a new candidate): `C64_matched_keypoint_staged_elsewhere_false` — False: C64_matched_keypoint_staged_elsewhere_false. Proved inside one map whose features have at most one match each.
* **C65** (The frame loop never breaks in the local map): `C65_frame_loop_terminated_false` — Concrete for the point features in C130. Proved when merging a detection and copying a candidate do not fail (C65_frame_loop_terminated_false, C17_update_may_loop_false). The search grid is C49.
* **C67** (A failed pose optimisation returns nothing): `C67_failure_changes_pose_false` — False when only the variance estimation fails: C67_failure_changes_pose_false.
* **C68** (Merging counts the points of each plane once): `C68_counted_twice_false`, `C68_two_planes_false` — False: C68_counted_twice_false, C68_two_planes_false. Proved: all cells are present in the representative.
* **C70** (Planar cells are dense, continuous and flat): `C70_first_pixel_false`, `C70_last_pixel_false` — False for the first pixel of the lines and the last pixel of the column: C70_first_pixel_false, C70_last_pixel_false.
* **C72** (A zero plane residual means the same plane): `C72_through_centre_false` — Proved for planes that do not contain the camera centre; false for those that do: C72_through_centre_false.
* **C75** (Transforming a polygon keeps its shape in its plane): `C75_moved_false` — False: C75_moved_false (the translation ignores the rotation of the centre). The exact offset is proved.
* **C76** (The distance of two lines joins their closest points): `C76_parallel_direction_false` — Proved for lines that are not parallel. For parallel lines only the length is right: C76_parallel_direction_false.
* **C78** (The orientation of a pose is always a rotation): `C78_update_false` — False for updates with quaternions that are not unit: C78_update_false. Proved otherwise.
* **C79** (A point is flagged as moving exactly when it was seen too far away): `C79_moving_false` — false: the difference is compared without its absolute value (C79_moving_false); one direction proved, and both for detections on the negative side
* **C80** (An updated map plane is the plane of the fused parameters): `C80_fused_plane_false` — false: the normal is normalised and the distance is not (C80_fused_plane_false); proved parallel, and equal when the fused normal has length one or the plane passes through the origin
* **C82** (Jacobians of the screen and plane covariance conversions are derivatives): `C82_screen_to_camera_false`, `C82_plane_distance_false` — false left of or above the principal point, and for the distance of every plane; the other entries proved
* **C83** (Predicted rotation keeps the observed axis): `C83_same_axis_false` — false in general (C83_same_axis_false); proved when all orientations are rotations around one axis
* **C85** (Pose variance reflects the spread of the sampled poses): `C85_angles_false` — false for the angles (C85_angles_false); proved for positions and for rotations of one sign around the first axis
* **C86** (Inliers are the matches whose reprojection error is small): `C86_behind_false` — false for points behind the camera (C86_behind_false); the rest proved
* **C87** (Inliers among points without depth): `C87_far_inlier_false` — false: the signed distance is compared without its absolute value (C87_far_inlier_false); one direction proved
* **C88** (Aligning the depth image with an identical colour camera changes nothing): `C88_border_false` — False on the first row and column, which are always zeroed (C88_border_false). Proved for the other pixels.
* **C89** (A depth is moved to the colour pixel that sees the measured point): `C89_intrinsics_false` — False when the intrinsics differ: those of the depth camera are never used (C89_intrinsics_false). Proved for equal intrinsics.
* **C90** (Measured points outside of the colour image are dropped): `C90_left_false`, `C90_zero_depth_exit_false` — False left of and above the image, where a negative double is converted to unsigned (C90_left_false), and at depth zero, where the program exits (C90_zero_depth_exit_false). Proved when all projections have non negative coordinates.
* **C91** (The aligned depth is the depth of the closest surface): `C91_closest_false` — False: the last write wins, even sequentially (C91_closest_false). Proved: every non zero depth is the depth of some measured point that projects on the pixel.
* **C92** (Every image size is accepted): `C92_shared_slot_false`, `C92_out_of_range_false` — False for sizes that are not multiples of the patch size (C92_shared_slot_false, C92_out_of_range_false); multiples are C39.
* **C94** (A TUM frame gets the closest ground truth): `C94_closest_false` — False in general, an earlier frame may have taken the element (C94_closest_false). Proved among the elements that earlier frames did not take.
* **C95** (The start index option skips the first frames): `C95_start_index_false` — False: the index only shifts which frames are jumped, the first frame is always considered (C95_start_index_false).
* **C98** (A fitted boundary does not cross itself): `C98_edges_apart_false` — False of the code: parallel edges may overlap (C98_edges_apart_false). Proved: edges that are not neighbours meet only when parallel up to the tolerance.
* **C99** (A fitted boundary encloses the points it was fitted to): `C99_enclosed_false` — False of the code: a point whose ray meets no edge counts as inside (C99_enclosed_false). Proved: vertices, or an odd number of crossings, or none.
* **C100** (A fitted boundary is closed): `C100_closed_false` — False of the code: when every point is a vertex the boundary is left open (C100_closed_false). Proved for boundaries with another number of vertices.
* **C103** (Every pixel is searched for keypoints exactly once): `C103_last_column_false` — False when a side is not a multiple of 3, as the default 640 pixel width (C103_last_column_false). Proved: windows are disjoint, in the image, and exactly the last width%3 columns and height%3 rows are missed.
* **C104** (The number of keypoints of a frame is bounded): `C104_equal_responses_false`, `C104_more_than_maximum_false` — False: keypoints of equal response are all kept (C104_equal_responses_false), and shares are per window so that unevenly tracked points exceed the maximum (C104_more_than_maximum_false). Proved for distinct responses: shares per window, at most 99 new keypoints.
* **C108** (Moving a polygon keeps its area, projecting it scales it by a cosine): `C108_hole_lost_false` — False for a polygon with a hole, which a union can give: every rebuild of the polygon drops the holes (C108_hole_lost_false). Proved for polygons without hole.
* **C110** (Intersection over union is a ratio): `C110_several_parts_false` — False when the intersection or the union has several parts: only the biggest part of each is compared (C110_several_parts_false). Proved: between zero and one when each part of the intersection lies in a part of the union; one for a polygon and itself.
* **C111** (Merging polygons does not lose area): `C111_shrinks_false` — False: the simplification that follows a merge can shrink the polygon (C111_shrinks_false). Proved: a merge never costs more than a quarter of the area, and a simplification neither.
* **C112** (A polygon is visible exactly when the image sees a part of it): `C112_behind_false` — False for a polygon behind the camera, which is declared visible (C112_behind_false). Proved: with no corner in the plane of the camera, visible exactly when the polygon of the pixels of the corners meets the image.
* **C114** (Cylinders are dropped only when nothing of them is left after erosion): `C114_whole_image_false` — Exact for every mask that leaves a cell out once its gaps are filled. False for a cylinder that covers the whole grid: its eroded mask is constant and it is thrown away as if it were empty.
* **C115** (Similar planes are near each other): `C115_opposite_sides_false`, `C115_same_plane_false` — The direction test is exact up to the sign of the normals, the distance test compares signed distances. Planes oriented the same way that are similar are near each other; with opposite normals the test accepts planes far apart, on both sides of the camera, and refuses the same plane seen from its other side.
* **C117** (Whether two patches are merged does not depend on which one is asked): `C117_symmetric_false` — False: the distance test uses the plane of one patch and the mean point of the other. Proved: the two distances compared differ by at most the distance of the normals times the distance of the mean points.
* **C119** (Clamping a segment keeps its visible part): `C119_half_visible_false` — False: a segment with one end inside and one end outside is always reduced to the point where it crosses the border. Proved when both ends are out of the frame, and when nothing is crossed.
* **C120** (A point is promoted to 3D only when its depth is well known): `C120_uncertain_depth_false` — False: the test multiplies the uncertainty by the cosine of the parallax angle, so that at a right angle any uncertainty is accepted. Proved: the exact test, the position and the covariance of the promoted point.
* **C122** (A map plane is matched to the detected plane that covers it most): `C122_first_plane_false` — False: the first detected plane of the frame is never matched, and hides the other candidates when it is the best. Proved for all the other detections.
* **C129** (Cylinder shapes can be compared and measured): `C129_distance_false` — False for the distance: a cylinder shape answers 0 for every point. Proved for similarity.
* **C131** (Merging a detected plane into a map plane never ends the program): `C131_opposite_side_false` — Every update returns and keeps the plane well formed, unless the weighted mean of the two normals is zero, when the program is ended. The matching ignores the sign of the normal, so a plane close to the camera can be matched with its other side (C131_opposite_side_false). The merge of boundaries by boost is assumed to return.
* **C133** (Every followed point is detected anew now and then): `C133_refreshed_false` — The code disagrees: the generator is local to the thread and every frame follows the points in a new thread, so the numbers start again in every frame; number i of the followable points is left out in all frames or in none. Proved: exactly which ones are left out.
* **C135** (The poses found from three points solve the problem): `C135_sound_false` — The code disagrees: discriminants down to -1e-12 are clipped to zero and lengths whose residuals sum to less than 1e-10 are accepted, both absolute bounds; on points a millionth apart a matrix that is not a rotation is returned. Proved: every pose that does not come from a clipped discriminant solves the problem exactly, and at most four poses are returned. A pose with entries that are not finite numbers counts as not returned.
* **C136** (No pose that solves the three point problem is missed): `C136_complete_false` — The code disagrees: when the first two points are placed and seen alike with respect to the third (an isosceles triangle seen from its plane of symmetry), the leading coefficient of the cubic is zero and no pose with finite entries is returned. Proved: every pose is returned when no number on the way is undefined and the roots are equal or not too close.
* **C137** (The configured offset of the second camera is applied): `C137_offset_false` — The code disagrees: EulerAngles takes yaw, pitch, roll and is given the offsets x, y, z, so that the angle configured around x turns the camera around z and conversely. Proved: the translation is the configured one, the rotation is the product of the rotations of rz around x, ry around y and rx around z, and it is the configured one when both angles are equal.
* **C140** (An association file gives its frames and their ground truth): `C140_association_false` — The code disagrees: with an association file, only a ground truth with exactly the time of the colour image is found. Proved: the frames are the complete lines in order, with the first ground truth of exactly this time.
* **C142** (The reported error is the distance to the ground truth): `C142_error_false` — The code disagrees: the positions of the files are in metres and are compared with the millimetres of the tracker, so that a perfect tracker is reported wrong by 999 thousandths of its distance to the origin. Proved: when an error is reported, and that it is the distance to the numbers of the file and the angle to its orientation.
* **C143** (The tracker starts at the true pose): `C143_start_false` — The code disagrees: the position of the file, in metres, is taken for millimetres; the start is right only at the origin. Proved: the orientation is that of the file, the position the numbers of the file; the default pose without ground truth.
* **C144** (An outline that crosses itself is cut at its crossings): `C144_open_false`, `C144_dropped_false`, `C144_area_false`, `C144_dangling_false` — Proved: the tables are complete for all outlines, the result without crossing, the exact result (two closed loops whose areas add up) for one kept crossing, and for any number of crossings in general position that are all kept: the walk ends, the loops are closed and their areas add up. False in general: crossings further from the starts of both edges than these are from each other are dropped (the outline then still crosses itself, or the areas do not add up), a list of points that is not closed is returned, and a reference to an erased point is read. Missing: crossings at a corner or at the same point.
* **C145** (The repaired polygon is the set of points with a non zero winding number): `C145_three_nested_false`, `C145_four_nested_false` — Proved when no three loops are nested, for all lists of loops that are nested or apart. False with three nested loops (the innermost one is cut out although it turns -1 times) and with four (filled although it turns 0 times).
* **C148** (A detected line is the best line of its pixels): `C148_direction_false` — C148_returns holds for any arc tangent. C148_segments: best line, covering, ends reached, for an exact arc tangent. C148_direction_false: the direction of the segment is turned by half a turn as soon as it is more than 22.5 degrees away from the mean direction of the pixels, so that the segment of a group that is wider than it is long along its direction can go the opposite way; a ramp of 7 by 2 pixels does this. C148_direction_partial: when the segment is along or against the mean direction up to 22.5 degrees, it goes along. The refinements of the detector are not modelled, the program does not use them.
* **C149** (Displaying the detected lines reads the depth inside the image): `C149_display_false` — C149_display_false: the ends of a segment can be out of the image, since they are the extreme projections on a line drawn to the strongest pixels; an image of 8 by 8 pixels (reduced from 27 by 27) gives a segment that ends two rows above the image, whose mask is read out of bounds. C149_display_partial: when both ends are in the image, all reads are, with the rounding of opencv to even, and the three colours say what they should. The whole display is only compiled with USE_LINE_DETECTION.
* **C150** (Log lines are not mixed): `C150_error_false` — Proved for the standard output, and for the standard error when only one of the two functions writes to it; no deadlock, and every schedule has eleven steps for each call. False for the standard error in general: log_warning and log_error have different mutexes, a warning and an error can be mixed within a line.
* **C151** (Geodesic dilation and erosion): `C151_reconstruction_false` — Proved, with a bound on the number of turns, for every structuring element that contains its anchor, and for every element when the number of iterations is not negative. False in general: the reconstruction with an element without its anchor can run for ever.
* **C152** (Holes are filled): `C152_memory_false`, `C152_side_false` — False twice: the marker image is created without a value and only its border is written, so holes can stay unfilled depending on what the memory held; the two sides are given the corner values of the last row, so what is open to a side only can be filled. Proved: it returns, no pixel gets darker, what is joined to the first or last row is kept; and the full property when the memory held zeros and no pixel of a side is darker than the last one of that side.
* **C153** (The example program for numbered images treats the frames it is asked for): `C153_negative_false` — False of the code for a negative index option, which is taken for a number near 2^32: a dataset with frames 0 to 999 is not read at all (C153_negative_false). Proved for the others, with any dataset that ends below 2^32.
* **C154** (Trajectory files are named after the time of the run): `C154_time_false` — False of the code: hour, minute and second are one too many, up to 24:60:60 (C154_time_false). Proved: names of different datasets or seconds differ, and the name is exactly the stamp shifted by one hour, one minute and one second.
* **C155** (Removing duplicates keeps each point once): `C155_order_false` — Proved for points whose coordinates are pairwise equal or more than 2^-52 apart: every outcome of the sort gives the same places, each once. False in general: the comparison with a tolerance is not a strict weak order on (1, 0), (1 + 2^-52, 0), (1 + 2^-51, 0), and the behaviour of std::sort is undefined.
* **C156** (The boundary of a constant list is the boundary of its distinct points): `C156_constant_false` — Proved when the points, once sorted, are numbered by their places. False in general: the sort does not renumber the points, and the first vertex is removed from the index by its old number, so another point is lost (C156_constant_false: a boundary is returned that leaves (2, 3) outside). Polygon::compute_concave_hull calls the other overload, which keeps duplicates.
* **C157** (The boundary is followed by the least turn): `C157_order_false` — Proved for every outcome of the sort: a permutation of the candidates, by increasing turn up to 2^-52; the sort is defined when turns are equal or more than 2^-52 apart. False in general: on three candidates one tolerance apart the comparison is not a strict weak order and the behaviour is undefined (C157_order_false). Angles are real numbers.
* **C158** (Two lines intersect where they meet): `C158_lines_false`, `C158_empty_false` — Proved for segments, and for lines whose common point is in front of both starts and at most 100 away, assuming that boost::geometry::intersection tells by its return value whether it found points; whatever is found is on both lines. False in general: lines that meet behind a start are not found (C158_lines_false), and if boost returns true without a point, as clamp_to_screen of the same file provides for, the first element of an empty vector is read (C158_empty_false).
* **C160** (A line is as meaningful as its aligned pixels are unlikely): `C160_meaningful_false` — Proved exact when no pixel or every pixel is aligned. In all other cases, proved that the value is the wanted one for a probability multiplied by e^(n+1)/n! and known up to the ten percent of the code (C160_shifted_partial); and the lines found with this refinement are shown to meet the bound so shifted (C160_detected_partial). False otherwise: the first term has n + 1 where it needs the logarithm of n factorial; for one aligned pixel of two with probability 1/2 the value is too small by more than one (C160_meaningful_false). The program does not use this refinement.
* **C162** (The threads of the pose search try different subsets): `C162_false` — Proved for one thread, where the iterations use successive numbers. False for several threads: all of them start from the same seed, so the first iterations of two threads always draw the same subset (C162_false), and a search tries no more subsets than its busiest thread has iterations (C162_tried_partial).
* **C164** (Trackers for cameras of different sizes in one program): `C164_smaller_false`, `C164_bigger_false` — Proved for trackers with images of one size. False otherwise: the sizes of the windows and of the mask are static and keep the values of the first tracker, so a tracker for smaller images ends the program at the first search without tracked points (C164_smaller_false), and one for larger images never finds a keypoint out of the size of the first images (C164_bigger_false).
* **C167** (The debug image shows the features of the map where the camera sees them): `C167_close_plane_false`, `C167_behind_camera_false` — Points, points without depth and maps proved in full. Planes: the lines are those of the sides in front of the camera, when their pixels fit an int. False otherwise: a matched plane that passes beside the camera gives the conversion of a number out of the int range (C167_close_plane_false). A point without depth that is behind the camera is drawn in the image as if it were in front (C167_behind_camera_false).
* **C168** (The value of a line counts the pixels of its rectangle): `C168_flat_false`, `C168_slanted_false` — Proved that the count ends without a failing assertion, that the pixels counted are pixels of the image in the rows of the rectangle, and that each is counted once. False otherwise: the second step of each side reads a column for a row and the quotients are those of integers; of a flat line only the first column of pixels is counted, however long it is (C168_flat_false), and of a slanted rectangle some pixels are left out and others out of it are counted (C168_slanted_false). The program does not use this refinement.
* **C171** (Lines at several scales are placed in the image): `C171_no_mask_false`, `C171_scale_false`, `C171_size_false` — Proved for the reduction factor 2, with a mask, for images that can be halved that often; no image of the pyramid is empty (C171_not_empty). False otherwise: without a mask an assertion fails, it compares the mask with an image that is still empty (C171_no_mask_false); with a factor of 3 or more opencv throws (C171_scale_false); the size is negative for a line that goes up to the right (C171_size_false). The program does not use this function.
* **C172** (Comparing lines counts the pixels that differ): `C172_empty_false` — Proved for sets with lines; the pixels that opencv draws for a line are a parameter. False for an empty set: the matrix made of it has no type and an assertion fails (C172_empty_false). The program does not use this function.
* **C174** (The statistics printed at the end are the means of the measured times and their percentages are shares): `C174_percentages_false`, `C174_total_false`, `C174_details_false` — False with several objects in the process: the counters of the pose optimisation are static, so an object that has computed no pose prints the time of the others (C174_percentages_false). The two detections run at the same time, so that all the lines together can exceed 100 percent (C174_total_false), and so can the details of the pose optimisation when its iterations run at the same time (C174_details_false). The line of the line extraction is always zero: it is never measured. Rounding of the numbers and lost updates of the static counters by two threads are not modelled.
* **C175** (The random searches try often enough for the requested probability): `C175_cylinder_tries_false`, `C175_accepted_false`, `C175_cylinder_accepted_false` — Proved for the search of the pose with settings strictly inside their ranges (119 tries with the settings of the program). False of the search of cylinders, whose quotient is cut instead of rounded up: 43 tries, one less than needed (C175_cylinder_tries_false). The ends of the ranges are accepted and give a search that always gives up or an undefined number of tries (C175_accepted_false); the check of the cylinder probability accepts everything, and a small probability stops the program (C175_cylinder_accepted_false). Rounding of the floats is not modelled.
* **C176** (The loops cut out of an outline turn around every point as often as the outline): `C176_dropped_false` — Proved for outlines in general position whose crossings are all kept, with any number of crossings: the sum over the loops, those without area included. False when crossings are dropped: around the middle of a star the pieces turn three times and the outline twice. Missing: crossings at the same point or at a corner.
* **C177** (With the odd-even rule, the repaired polygon is the set of points with an odd number of loops around): `C177_flat_false` — Proved for all polygons whose outline has a loop with an area, for any number of loops, holes and polygons, for all unions given by their sets of points; and for an outline in general position from its corners on (C177_outline_partial). False when the outline has no area: its holes are lost instead of being kept.
* **C178** (The holes are cut out of the repaired polygons): `C178_nested_false` — Proved when no three loops of an outline or of a hole are nested (the same limit as C145). False otherwise: a loop around which the outline turns once is cut out.
* **C179** (The outline fitted to the points of a plane is a valid polygon): `C179_repaired_false` — Proved but for one case. False otherwise: when the repair of an invalid concave hull gives an invalid polygon first, this polygon is used, although the other polygons of the repair and the convex hull are valid (C179_repaired_false). The library is a parameter of the model.
* **C182** (The choice of the world frame does not matter): `C182_moving_false`, `C182_plane_false` — exact real arithmetic. The errors of the matches and the inliers do not depend on the world frame, nor does the fused point and its covariance. False of the code: whether a point is declared moving depends on the directions of the axes, because each coordinate is compared with its own deviation (C182_moving_false); the fused plane depends on the origin, because the same noise is added to the normal and to the distance to the origin (C182_plane_false)
* **C183** (The line detector follows the strongest edges first): `C183_exact_false` — exact real arithmetic, on the image once blurred and resized by opencv; std::sort is any function that gives a sorted permutation. C183_exact_false: within a bin a weaker pixel may be taken before a stronger one, with the 1024 bins of the program too
* **C184** (The map does not depend on the order in which its features are stored): `C184_order_matters_false` — Proved for all histories that differ by reorderings of the tables, under the hypothesis that no two features compete for a detection whenever matches are searched (C184_history_partial); the update of the map never depends on the order (C184_update). The hypothesis is established for the point maps when the points project more than 60 pixels apart, or are tracked. Without it the claim is false: C184_order_matters_false gives the only keypoint of a frame to the feature that happens to be visited first.
* **C185** (A still camera recognises its map): `C185_border_false` — False within 31 pixels of the left and the top border: a keypoint there is not recognised on the next frame and becomes a new candidate with a new id (C185_border_false, witness with six keypoints). Proved when every map point projects at least 31 pixels from these borders, for every number of frames.
* **C189** (A detection makes a point without depth more certain): `C189_more_certain_false` — False: the covariance of the first camera position is written back at each merge and added again by the next conversion to the world (C189_more_certain_false: a detection as certain as the point makes it less certain in each direction). Proved: the bounds with this covariance added, and that the point is never more certain than the first position.
* **C190** (A camera that does not move does not find out depths): `C190_depth_unknown_false` — False: each detection without depth is merged as if it were a measure of two metres, so that after 800 looks or less a still camera makes a 3D point two metres away of any point without depth, whatever its true distance (C190_depth_unknown_false, for every camera whose position is known to a millimetre). Proved: not before 400 looks.
* **C191** (A map point seen without depth keeps its distance): `C191_distance_kept_false` — false as stated: a keypoint without depth is fused as if it had been measured two metres away, so that a 3D map point matched with such keypoints from one place goes to two metres from the camera, whatever its distance and its certainty (C191_distance_kept_false, for all cameras, pixels and points). Proved: how much one such match can change the distance, at most |2000 - r| times a thousandth of the standard deviation along the sight
* **C192** (A plane seen at every frame enters the map): `C192_first_plane_false`, `C192_single_plane_false` — false as stated: a map plane never accepts the first detected plane of a frame (the index of the selected plane is compared with 0 by <=), so that the first plane of an unchanging scene is staged again and again and never enters the map (C192_first_plane_false), and when each frame shows at most one plane no plane ever enters the map or is exported, whatever the history of calls (C192_single_plane_false). Proved for every other plane: recognised at every frame, in the map from the fifth frame on under its identifier; the map holds exactly these planes and there are at most two more candidates
* **C194** (A plane measured without error stays where it is): `C194_other_side_false` — Proved when the wall is always seen from the same side. A wall seen from its other side has the opposite normal; the matching ignores the sign, and the filter averages the two parametrisations: the plane can go to half its distance (C194_other_side_false) or end the program (C131). The merge of boundaries (boost) is a parameter that returns.
* **C195** (A few frames without any detection do not cost the map): `C195_early_false` — C195_blackout_partial: after at least three tracked frames, any journey of exact frames and blind frames, at most ten blind ones in a row: only the blind frames are untracked, every pose is the true place, the map keeps one feature per scene point at its place, nothing is written. C195_given_up: the eleventh blind frame in a row empties the map and writes each feature once. Missing, and false: C195_early_false, a blind second or third frame empties the map, and the next three frames are not tracked and add nothing although they see the scene, since the tracking does not count as lost before four failures.
* **C196** (The exported map of a run without error is the scene): `C196_display_false`, `C196_short_false` — The vertices of the file are the scene points, also after the map was given up. False of what a viewer shows: the element of each point names the next vertex (C196_display_false). False of runs of fewer than four frames: the file is empty (C196_short_false).
* **C197** (The error of a map point stays bounded by that of its detections): `C197_farther_false`, `C197_overconfident_false` — The error never builds up: a bound that does not depend on the number of detections, and the exact bound for covariances that are the same in all directions. False in general: two detections 1 mm away can give a point 1.5 mm away (C197_farther_false), and a point is not within the deviations it announces when the errors are equal (C197_overconfident_false).
* **C198** (The walls of a room enter the map, exactly where they are): `C198_first_wall_false` — Proved for every wall but the one that is detected first, which never enters the map (C198_first_wall_false).  Areas and visibility of the outlines are parameters; walls that overlap on the screen differ by 20 degrees or more.
* **C202** (After a loss the poses and the map are those of the scene): `C202_moved_in_the_dark_false` — Proved for a camera that did not move in the dark. False of the code otherwise: the program keeps the last pose and starts the new map there, so the movement in the dark displaces everything after it, while the map from before the loss, already written, is not displaced. The displacement is proved to be exactly that movement. The optimiser is a parameter: it finds a pose without reprojection error, and only the true place has none.
* **C203** (A scene point is at most once in the map): `C203_once_in_the_map_false`, `C203_outlier_false` — Proved for runs in which the matching is faithful, no match is an outlier and no frame without a pose adds a scene point that the map already has. The two _false theorems show with runs that both conditions are needed: reseeding while the map is there, and an outlier, each put a scene point in the map twice.
* **C204** (A wall that fills the image is found as one plane): `C204_perfect_wall_false` — C204_perfect_wall_false: when the points of each cell lie exactly in a plane, the covariance has a null determinant, fit_plane returns early, and nothing is found (in exact arithmetic; rounding may give a determinant that is not null). C204_noisy_cell: a cell with all points measured, close depths, within the depth quantisation of a plane and a determinant that is not null is planar. C204_wall_partial: when the cells are planar and merge with their neighbours, and the fit on all of them is accepted, one plane made of all the cells is found, and no cylinder, whatever the frames treated before.
* **C205** (The example programs treat at most the requested number of frames per second): `C205_zero_false`, `C205_reached_false`, `C205_whole_rate_false` — Proved: never faster than the target, up to one microsecond per frame (C205_not_faster_partial, C205_time_of_frames), and slow frames are not delayed (C205_slow_frames). False of the code: the target 0 converts an infinite double to an integer (C205_zero_false); the time of the rest of the loop is not taken off the time to sleep, so the target is not reached (C205_reached_false); the rate in the image is always above the true one, by one for whole rates (C205_shown_rate, C205_whole_rate_false). Durations are exact rationals.
* **C207** (What is written about a pose and about an optimisation is right): `C207_angle_order_false`, `C207_exchanged_messages_false` — The orientation is written yaw, pitch, roll and its deviations roll, pitch, yaw (C207_angle_order_false). Two end messages are exchanged (C207_exchanged_messages_false), but only failures are written and their messages are right. Numbers are written without loss in the model; the program writes six digits.
* **C208** (The keypoints do not depend on the lighting): `C208_less_contrast_false` — The thresholds are absolute, so less contrast loses keypoints (C208_less_contrast_false); more contrast loses none (C208_more_contrast_partial, for whole factors), and brightness and negation change nothing. Same model of FAST as C206; sub-pixel refinement is not modelled.
* **C212** (The ground truth of a dataset is the one that is written): `C212_truth_false` — Proved of files whose lines are all comments or complete. False otherwise (C212_truth_false): a cut line is kept with numbers that were never read, hides the complete line of the same time and is given to a frame; a line without values is kept at the time 0.
* **C213** (The example program treats the dataset that is in its directory): `C213_image_lists_false` — Proved with an association file. Without it, proved of the runs that report; false in general (C213_image_lists_false): the comparison given to the final sort is not an order when depth images are crossed, and the behaviour of the run is undefined.
* **C219** (The pose error shown for an exact dataset is zero): `C219_shown_error_false` — holds for the angle, and the displayed distance is given exactly (C219_shown_error_partial); not zero in general, because metres are taken for millimetres: C219_shown_error_false
* **C228** (Writing down the association of a dataset does not change its run): `C228_same_run_false` — Proved when every frame closer than 0.05 s to a pose of the ground truth has one of its very time, in particular without ground truth (C228_same_run_partial). False in general (C228_same_run_false): from the lists an image has the closest pose under 0.05 s, from an association file only a pose of the very same time, so the start pose and the reported error can differ.
* **C229** (A dataset of a synchronised camera always gives the same result): `C229_unsynchronised_false` — C229_unsynchronised_false shows that the synchronisation is needed: a depth image halfway between two colour images goes to either. Holds for every result that the two sorts of the reader may have; the tracker is a function of its state and the images, as in the other claims about the example programs.

## 5. What is modelled, file by file

| file in /repo | modelled | not modelled |
|---|---|---|
| src/rgbd_slam.cpp, .hpp | status machine, forced detection, reseeding, frame loop over the local map (`Model/Slam`, `Model/System`), statistics (`Model/Statistics`), frame rate text (`Model/FrameRate`) | drawing, logging |
| src/parameters.cpp, .hpp | parsing with 32-bit conversion, validity checks, intrinsics cache, constants (`Model/Params`), offset of the second camera (`Model/Angles`) | YAML reader of OpenCV |
| src/map_management/feature_map.hpp | all public operations (`Model/FeatureMap`), with the assertions (`Model/CheckedMap`), drawing (`Model/Drawing`) | |
| src/map_management/local_map.hpp | all public operations over the three maps (`Model/LocalMap`), with the assertions (`Model/CheckedMap`) | drawing |
| src/map_management/map_features/*.cpp | thresholds, matching, update, upgrade (`Model/MapKinds`, `Model/MapPoints`); visibility and promotion of points without depth, random variations (`Model/Points2d`); constructors and updates with real covariances (`Model/Updates`); validity of matches (`Model/Validity`); points followed by optical flow (`Model/TrackedFeatures`) | drawing, descriptors' content |
| src/matches_containers.hpp | match sets, scores (`Model/Ransac`) | |
| src/pose_optimization/ransac.hpp | subsets, split (`Model/Ransac`) | |
| src/pose_optimization/pose_optimization.cpp | RANSAC loop with threads, final optimisation, variance sampling, inlier tests (`Model/Ransac`, `Model/Optimizer`) | drawing of random variations of the features |
| src/pose_optimization/levenberg_marquardt_functors.cpp | residual layout, coefficients, Jacobian (`Model/Optimizer`), end messages (`Model/Display`) | the minimiser |
| src/coordinates/*.cpp | all conversions and distances (`Model/Geometry`, `Model/Covariance`) | |
| src/utils/camera_transformation.cpp, pose.cpp, line.hpp, angle_utils.cpp, distance_utils.hpp | yes (`Model/Geometry`, `Model/Angles`), printing of poses (`Model/Display`) | digits of the printed numbers |
| src/utils/line.cpp | `clamp_to_screen` (`Model/Points2d`), `intersects` (`Model/Crossing`) | Boost intersection itself |
| src/utils/covariances.cpp | yes (`Model/Covariance`) | |
| src/utils/random.hpp | integers and subsets (`Model/Ransac`), engines of the threads (`Model/RandomThreads`) | the normal generator |
| src/utils/polygon.cpp, src/coordinates/polygon_coordinates.cpp | projection, transforms, basis (`Model/Geometry`); areas, set operations, merge, simplification, visibility (`Model/PolygonOps`), display (`Model/Drawing`) | Boost itself, an arbitrary record of functions |
| src/tracking/*.cpp, .hpp | Kalman filter, tracked points, planes, inverse depth points, motion model (`Model/Covariance`, `Model/Optimizer`) | |
| src/features/keypoints/keypoint_handler.cpp | grid, lookup, matching (`Model/Keypoints`) | |
| src/features/keypoints/keypoint_detection.cpp | flow filter, windows, mask, detection, decision (`Model/Keypoints`, `Model/KeypointDetection`), static variables (`Model/KeypointStatics`, `Model/KeypointHistory`), thresholds and FAST detectors (`Model/Fast`) | descriptors, sub-pixel refinement |
| src/features/primitives/depth_map_transformation.cpp | yes (`Model/DepthMap`) | |
| src/features/primitives/histogram.hpp | yes (`Model/Histogram`) | |
| src/features/primitives/plane_segment.cpp | yes (`Model/PlaneSegment`, `Model/PlaneCovariance`) | |
| src/features/primitives/cylinder_segment.cpp | segmentation loop, hypotheses kept, averages (`Model/Cylinder`); axis, projection, least squares, distances (`Model/CylinderFit`) | the eigenvalue solver |
| src/features/primitives/primitive_detection.cpp | seed, growing, merging, adjacency, labelling (`Model/Primitives`); masks, boundary points, cylinders kept, cell tolerances (`Model/Refine`); members kept between frames (`Model/Detector`) | debug images |
| src/features/primitives/shape_primitives.cpp | similarity of planes (`Model/Refine`), cylinders (`Model/CylinderFit`) | |
| src/outputs/map_writer.cpp | yes, as text (`Model/MapWriter`) | file system errors |
| third_party/concave_fitting.cpp | yes (`Model/ConcaveHull`, `Model/HullOrder`) | FLANN |
| third_party/p3p.cpp | yes, over the reals (`Model/P3p`) | poses with entries that are not finite |
| examples/TUM_parser.hpp, main_TUM.cpp | readers, association, frame choice (`Model/Tum`), association files, main loop, reports (`Model/TumRun`), text of the files (`Model/TumText`), whole program (`Model/TumProgram`), sleeping (`Model/FrameRate`) | display, command line |
| third_party/correct_boost_polygon.hpp | yes, over the rationals (`Model/PolygonRepair`) | boost self_turns, union, difference |
| src/features/lines/line_detection.cpp | detection, reads of the display (`Model/Lsd`), statistics (`Model/Statistics`) | drawing |
| third_party/line_segment_detector.cpp | gradient, regions, segments, over the reals (`Model/Lsd`); order of the pixels (`Model/LsdOrder`); standard refinement (`Model/LsdRefine`), `nfa` (`Model/LsdNfa`), advanced refinement (`Model/LsdAdvanced`), several scales and comparison of segments (`Model/LsdKeylines`), not used by the program | blur and reduction of the image, drawing of segments |
| third_party/geodesic_operations.cpp | yes (`Model/Geodesic`) | dilations and erosions of OpenCV are modelled by their definition |
| src/outputs/logger.cpp | yes (`Model/Logger`) | exceptions and buffers of the streams |
| examples/main_CAPE.cpp | loading of images, main loop, report, file name (`Model/CapeRun`), sleeping (`Model/FrameRate`) | display, command line |


## 6. Axioms of each theorem

Obtained with `#print axioms` on every theorem of `MANIFEST.json`.

* no axiom at all (1 theorems): C207_messages_differ

* `propext` (10 theorems): C12_update_rejected_unchanged, C12_add_all_rejected_unchanged, C13_deactivated_silent, C25_subset_reaches_all, C27_polygon_complete, C59_first_intrinsics_current_partial, C95_start_index_false, C162_false, C167_map, C173_new_map_undefined

* `Quot.sound`, `propext` (49 theorems): C05_parse_true_iff_usable_partial, C05_negative_size_accepted_false, C05_missing_file_gives_default, C05_construct_iff, C06_ids_nonzero, C06_ids_distinct, C06_id_reuse_after_wrap, C06_ids_never_reused, C07_keyed_and_disjoint, C11_exported_at_most_once, C11_only_lost_features_written, C11_exported_exactly_once, C12_add_all_throws_iff, C12_update_no_other_exception, C13_deactivated_unchanged, C14_outliers_only_undo_their_match, C15_unused_detections_staged_once, C17_update_terminates_partial, C25_subset, C27_later_calls_append, C28_xyz_exactly_the_points_partial, C37_at_least_half, C44_representatives, C44_linked, C44_merges_happen, C45_symmetric, C45_sound, C45_complete_partial, C45_last_row_false, C46_cell_statistics, C46_union, C46_centroid, C58_second_search, C59_intrinsics_frozen_false, C63_matches_complete, C64_same_map_partial, C66_frame_loop_maps_reachable, C67_success, C68_all_cells_present_partial, C103_last_column_false, C104_equal_responses_false, C104_more_than_maximum_false, C146_apart, C151_reconstruction_false, C164_partial, C164_smaller_false, C173_other_detections_refused, C184_matches_partial, C184_update

* `Classical.choice`, `Quot.sound`, `propext` (654 theorems): C01_lost_iff_recent_failures, C01_wrap, C01_three_failures_tolerated, C02_returns_last_optimized, C02_first_returns_start, C02_failed_frame_keeps_pose, C03_forced_iff, C03_forced_in_every_window, C04_reseeded_iff, C04_reseed_needs_four_failures, C08_point_life, C08_point2d_life, C09_plane_life, C10_point_lost_at_eleventh_miss, C10_point2d_lost_at_eleventh_miss, C10_plane_lost_at_tenth_miss, C11_plane_exported_exactly_once, C12_late_exception_leaves_changes, C13_upgrades_not_blocked, C16_one_point_map, C16_tracked_not_staged, C17_update_may_loop_false, C18_plane_matches_exclusive_partial, C18_plane_matches_similar, C18_first_plane_never_matched_false, C19_point_matches_exclusive, C19_point2d_matches_exclusive, C20_2d_points_never_contribute_false, C21_upgraded_points_move_partial, C21_upgraded_points_lost_false, C22_split_is_partition, C22_set_score, C23_accepted_pose_supported, C23_failure_leaves_nothing, C23_too_few_matches, C23_never_terminates, C23_no_deadlock, C23_always_ends, C24_sequential_close_partial, C24_turn_partial, C24_sequential_best_partial, C24_mixed_matches_false, C24_lost_update_false, C24_data_race_false, C25_score_with_duplicates, C25_score_from_empty, C25_subset_with_score, C25_subset_with_duplicates, C26_accepted_partial, C26_reported, C26_too_many_failures, C26_any_order, C26_no_sample_false, C27_lines_and_polygons_shown_partial, C27_numbers_in_range_partial, C27_point_shows_next_vertex_false, C28_pcd_exactly_the_points_partial, C28_pcd_count_false, C29_camera_round_trip, C29_world_round_trip, C29_distances_to_world, C29_distances_to_camera, C29_matrix_round_trip, C30_signed_distance, C30_on_plane, C30_unit_normal, C30_camera_round_trip, C30_world_round_trip, C30_center, C31_screen_round_trip, C31_camera_round_trip_partial, C31_left_of_image_false, C31_refused, C31_in_screen, C32_cartesian_round_trip, C32_on_ray_partial, C32_back_partial, C32_first_observation, C32_interval_false, C33_always_a_rotation, C33_stereographic, C33_pose, C33_round_trip, C33_pose_round_trip, C33_back, C33_not_recovered_near_pole, C34_off_diagonal_partial, C34_diagonal_error_partial, C34_only_at_zero_partial, C34_jacobian_false, C35_update, C35_invalid_rejected, C35_sequence, C35_uninitialised, C36_check, C36_accepted_symmetric, C36_propagate, C36_first_order, C36_approximate_symmetry_counterexample, C36_points, C36_screen_point, C36_planes, C36_world_plane, C36_inverse_depth, C36_moved_variance, C37_monotone, C37_value, C38_first_prediction, C38_unit_prediction, C38_position, C38_position_from, C38_first_prediction_from, C38_constant_pose, C38_variance, C39_bijection, C39_patch_contiguous, C39_cloud, C40_schedule_independent_partial, C40_schedule_false, C41_out_of_range, C41_seeds_initial, C41_seeds_after_removals_partial, C41_removed_cell_returned_false, C41_not_most_populated_false, C42_region_is_reachable_cells, C43_terminates, C43_one_shape_per_cell, C43_labels_are_the_shapes, C43_label_kept, C43_result_reached, C44_refused_pairs, C46_covariance, C46_seed_counted_twice_false, C46_counted_once_but_seed_partial, C47_mean_of_original_partial, C47_radius_lost_false, C48_disjoint_segments, C49_no_grid_overrun_partial, C49_portrait_overrun_false, C49_only_candidates, C49_all_candidates_partial, C49_border_finds_nothing_false, C50_lookup_returns_tracked_keypoint, C50_flow_keeps_ids, C51_parse_images, C51_parse_truth, C51_association_partial, C51_total, C51_undefined_iff_crossed, C51_order_undefined_false, C52_basis, C52_orthogonal_projection, C52_recovered, C52_distances, C52_refused, C53_segment_partial, C53_line_partial, C53_distance_partial, C53_set_normal_false, C54_random_in_range, C54_random_reaches_all, C54_empty_interval, C55_inverse_depth_updated, C55_point, C55_point_succeeds, C55_plane, C55_inverse_depth_partial, C55_inverse_depth_off_vertical, C55_inverse_depth_false, C56_built_iff, C56_every_slot_written_partial, C56_own_slots, C56_matches, C56_nan_false, C57_sizes_partial, C57_ends, C57_larger_size_false, C57_last_size_false, C58_point_candidates, C58_plane_candidates, C60_wider_search_not_wider_false, C60_as_wide_partial, C61_match_iff_clear_winner, C62_ids_unique_over_all_maps, C62_each_map_has_a_history, C62_exported_once, C63_matches_of_the_map, C64_matched_keypoint_staged_elsewhere_false, C65_frame_loop_keeps_running_partial, C65_frame_loop_terminated_false, C67_failure_unchanged_partial, C67_failure_changes_pose_false, C68_counted_twice_false, C68_two_planes_false, C69_fit, C70_planar_cell_partial, C70_first_pixel_false, C70_last_pixel_false, C70_no_out_of_bounds, C71_camera_axes, C71_camera_centre, C72_zero_on_match, C72_zero_means_same_plane_partial, C72_through_centre_false, C73_projection, C73_same_place, C74_to_world, C74_to_camera, C74_round_trip, C75_offset_partial, C75_centre_at_origin_partial, C75_moved_false, C76_skew_partial, C76_parallel_length_partial, C76_parallel_direction_false, C77_congruent, C77_range, C77_zero, C78_unit_orientation_partial, C78_update_false, C79_moving_partial, C79_moving_false, C80_fused_plane_partial, C80_fused_plane_false, C81_spherical_to_cartesian, C81_cartesian_to_spherical, C81_inverse_depth_to_world, C81_world_to_inverse_depth, C81_camera_to_screen, C81_plane_reduction, C82_screen_to_camera_partial, C82_screen_to_camera_false, C82_plane_normal_partial, C82_plane_distance_false, C83_same_axis_false, C83_planar_partial, C84_success, C84_search_started, C85_positions_partial, C85_one_sided_partial, C85_opposite_samples, C85_angles_false, C86_point_partial, C86_plane, C86_behind_false, C87_close_is_inlier_partial, C87_far_inlier_false, C88_identity_partial, C88_border_false, C89_registered_partial, C89_intrinsics_false, C90_outside_dropped_partial, C90_left_false, C90_zero_depth_exit_false, C91_closest_false, C91_depth_is_measured_partial, C92_shared_slot_false, C92_out_of_range_false, C92_multiples_partial, C93_no_closer_pair, C94_closest_remaining_partial, C94_closest_false, C95_shift_partial, C96_every_jth, C96_in_order, C97_ends, C97_vertices, C98_edges_apart_partial, C98_last_edge_partial, C98_edges_apart_false, C99_enclosed_partial, C99_enclosed_false, C100_closed_partial, C100_closed_false, C101_depth_of_nearest_pixel, C101_keypoints_have_their_depth, C101_keypoints_in_order, C102_still_tracked, C103_windows_partial, C104_quota_partial, C105_detected, C105_schedule_independent, C105_strongest, C106_search_when_needed, C106_first_call_tracks_nothing, C107_area_up_to_date, C107_area_of_boundary, C108_projected_on_normal_partial, C108_moved_to_normal_partial, C108_normal_refused, C108_projected_area_partial, C108_area_kept_partial, C108_transform_partial, C108_hole_lost_false, C109_biggest_part, C110_between_zero_and_one_partial, C110_itself_partial, C110_shared_area, C110_several_parts_false, C111_merge_keeps_area_partial, C111_simplify, C111_shrinks_false, C112_visible_partial, C112_behind_false, C113_boundary, C113_kept, C113_schedule, C114_kept_partial, C114_core_kept_partial, C114_whole_image_false, C115_directions, C115_distances, C115_similar_partial, C115_opposite_sides_false, C115_same_plane_false, C116_merge, C116_tolerance, C116_cells, C117_symmetric_false, C117_symmetric_partial, C118_kept_is_in_image, C118_in_frame_is_kept, C118_visible, C119_clamped_partial, C119_half_visible_false, C120_promoted_partial, C120_uncertain_depth_false, C120_always_answers, C121_point, C121_plane, C121_point2d, C122_best_plane_partial, C122_no_candidate, C122_first_plane_false, C123_masks, C123_disjoint, C123_covered, C124_seeds, C125_early_stop, C125_not_skipped, C125_sequential, C126_best_hypothesis, C126_nothing, C126_sub_segments, C127_least_squares, C127_exact_cylinder, C127_hypothesis, C127_all_inliers, C127_axis, C127_projected_patch, C128_distance, C128_smallest, C129_distance_false, C129_similar_partial, C129_angle_partial, C130_new_point, C130_new_point2d, C130_copied, C130_upgraded, C130_bad_pose, C130_failed_update, C130_point_updated, C130_point2d_updated, C130_outside_terminates, C130_points_keep_running, C131_new_plane, C131_plane_updated_partial, C131_plane_not_refused, C131_opposite_side_false, C132_no_drop, C132_followed_points, C132_inactive, C132_ids, C132_found_again, C132_positions, C133_same_numbers_partial, C133_refreshed_false, C134_point_match, C134_plane_match, C134_new_plane_match, C134_deviations, C134_valid_iff, C134_planes, C134_never_refused, C134_one_refuses_all, C135_at_most_four, C135_refine_step, C135_sound_partial, C135_sound_false, C136_complete_partial, C136_symmetric_missed, C136_complete_false, C137_offset_partial, C137_offset_false, C138_matrix_of_angles, C138_euler_round_trip, C139_rotation_error, C139_rotation_error_distance, C139_position_error, C140_association_partial, C140_association_false, C141_trajectory, C141_ends, C142_error_partial, C142_error_false, C143_start_partial, C143_start_false, C144_open_false, C144_crossings_partial, C144_table_complete, C144_no_crossing, C144_one_crossing_partial, C144_dropped_false, C144_area_false, C144_dangling_false, C145_non_zero_winding_partial, C145_three_nested_false, C145_four_nested_false, C146_covered, C146_count, C147_directions, C147_regions, C147_aligned, C148_returns, C148_segments, C148_direction_false, C148_direction_partial, C149_display_partial, C149_display_false, C150_one_level_partial, C150_output, C150_error_partial, C150_no_deadlock, C150_ends, C150_error_false, C151_iterations, C151_reconstruction_partial, C151_erosion, C151_erosion_reconstruction, C152_kept_partial, C152_filled_partial, C152_memory_false, C152_side_false, C153_frames_partial, C153_ends, C153_negative_false, C154_names_partial, C154_shifted_partial, C154_time_false, C155_once_partial, C155_order_false, C156_constant_partial, C156_constant_false, C157_order_partial, C157_sorted_partial, C157_order_false, C158_segments_partial, C158_lines_partial, C158_lines_false, C158_empty_false, C159_lines, C159_released, C159_dense, C160_detected_partial, C160_meaningful_partial, C160_shifted_partial, C160_tiny_partial, C160_meaningful_false, C161_threads, C161_new_thread, C162_partial, C162_tried_partial, C163_history, C163_frame, C163_detect, C164_bigger_false, C165_history, C165_always, C165_any_sizes, C166_covariance, C166_added, C167_point, C167_point2d, C167_plane_partial, C167_close_plane_false, C167_behind_camera_false, C168_counted_partial, C168_flat_false, C168_slanted_false, C169_improve, C170_lines, C170_kept, C171_keylines_partial, C171_not_empty, C171_no_mask_false, C171_scale_false, C171_size_false, C172_compare_partial, C172_distance_partial, C172_canvas_partial, C172_empty_false, C173_no_assertion_fails, C173_no_assertion_fails_total, C173_foreign_outlier_undefined, C174_printed_means, C174_percentages_partial, C174_percentages_false, C174_total_false, C174_details_partial, C174_details_false, C175_pose_tries, C175_cylinder_tries_partial, C175_pose_default, C175_cylinder_tries_false, C175_accepted_partial, C175_accepted_false, C175_cylinder_accepted_false, C176_winding_partial, C176_dropped_false, C177_odd_even_partial, C177_several_partial, C177_flat_false, C177_outline_partial, C178_holes_partial, C178_nested_false, C179_fit_partial, C179_repaired_false, C180_best_compromise, C181_converges, C181_limit, C182_errors, C182_inliers, C182_fused_partial, C182_moving_false, C182_plane_false, C183_strongest_first, C183_exact_false, C184_history_partial, C184_points_partial, C184_points2d_partial, C184_order_matters_false, C185_still_camera_partial, C185_border_false, C186_all_kept, C186_all_kept_deterministic, C186_pose_optimised, C186_still_camera, C187_moving_camera_partial, C188_converges, C188_limit, C188_merged_or_above, C189_more_certain_partial, C189_more_certain_false, C190_depth_unknown_partial, C190_depth_unknown_false, C191_distance_kept_partial, C191_distance_kept_false, C192_plane_enters_partial, C192_first_plane_false, C192_single_plane_false, C193_no_drift, C194_plane_stays_partial, C194_plane_starts, C194_other_side_false, C195_blackout_partial, C195_given_up, C195_early_false, C196_file_is_scene_partial, C196_file_after_loss_partial, C196_display_false, C196_short_false, C197_bounded_partial, C197_round, C197_farther_false, C197_overconfident_false, C198_walls_enter_partial, C198_first_wall_false, C199_map_size_bounded, C200_map_given_up, C201_found_again, C202_displaced, C202_true_after_loss_partial, C202_moved_in_the_dark_false, C203_once_in_the_map_partial, C203_once_in_the_map_false, C203_outlier_false, C204_noisy_cell, C204_perfect_wall_false, C204_wall_partial, C204_cell_of_the_grid, C205_time_of_frames, C205_not_faster_partial, C205_slow_frames, C205_zero_false, C205_reached_false, C205_shown_rate, C205_whole_rate_false, C206_thresholds, C206_thresholds_used, C206_as_sensitive_search, C206_nothing_lost, C207_pose_from_text, C207_text_tells_poses_apart, C207_deviations, C207_angle_order_false, C207_logged_message_partial, C207_exchanged_messages_false, C208_more_contrast_partial, C208_brightness, C208_negative, C208_less_contrast_false, C209_counters, C209_no_overflow, C209_overflow, C210_vertices, C210_elements, C211_images, C211_images_written, C211_associations, C211_associations_written, C212_truth_partial, C212_truth_false, C213_association_file, C213_image_lists_partial, C213_image_lists_false, C214_numbered_images, C214_numbered_images_saving, C214_causal, C214_stopped, C214_stopped_trajectory, C214_saving, C215_angles, C215_vector, C215_apart, C216_old_and_new, C216_scene_twice, C217_losses_add_up, C217_file_grows, C218_saved_trajectory, C219_shown_error_partial, C219_shown_error_false, C220_saved_trajectory, C221_saved_after_losses, C222_both_files, C223_both_files, C224_directory, C225_same_trajectory, C226_synchronised, C227_lists, C227_files, C228_same_run_partial, C228_same_run_false, C229_same_result, C229_unsynchronised_false

