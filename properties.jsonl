{"id": "C01", "title": "Tracking-lost status is decided by the current run of failures", "statement": "After every call of track(), the system reports tracking as lost (red overlay of get_debug_image, forced keypoint detection, re-seeding of the map) exactly when no second frame was treated yet or when the frames since the last successful one number at least four (fewer than 2^32 in a row, the counter is a 32-bit one); one success clears it, and three failures in a row after a success never raise it.", "quantifier": "every finite sequence of frames, each of which may fail pose optimisation, succeed, or succeed with a throwing map update", "why_tests_cant": "the status depends on the whole history; a test fixes one short sequence of outcomes", "anchors": ["src/rgbd_slam.cpp: RGBD_SLAM::compute_new_pose, RGBD_SLAM::RGBD_SLAM"]}
{"id": "C02", "title": "track() returns the last optimised pose", "statement": "The pose returned by track() is the pose of the most recent frame whose optimisation succeeded, or the start pose given to the constructor when there is none; a failed frame never moves the camera, and the first frame always returns the start pose.", "quantifier": "every start pose and every finite sequence of frame outcomes", "why_tests_cant": "needs every interleaving of failures and successes, including map-update exceptions", "anchors": ["src/rgbd_slam.cpp: RGBD_SLAM::track, compute_new_pose"]}
{"id": "C03", "title": "Keypoints are fully re-detected at least once every five frames", "statement": "In any window of five consecutive calls of track() keypoint detection is forced at least once, it is forced on the very first frame, and it is forced on every frame during which tracking is lost.", "quantifier": "every history of frame outcomes and every window position", "why_tests_cant": "a periodic counter must stay correct at every length of history", "anchors": ["src/rgbd_slam.cpp: compute_new_pose, detect_features", "src/parameters.hpp: keypointRefreshFrequency"]}
{"id": "C04", "title": "The map is re-seeded only when tracking is lost", "statement": "All detected features of a frame are inserted unconditionally as new candidates (add_all_features_to_map) exactly on failed frames that begin with tracking lost and a valid position covariance; no frame with a valid pose does it, and it can happen at most once before five consecutive failures once a frame after the first has been treated.", "quantifier": "every history of frame outcomes", "why_tests_cant": "history property", "anchors": ["src/rgbd_slam.cpp: compute_new_pose", "src/map_management/local_map.hpp: add_all_features_to_map"]}
{"id": "C05", "title": "Configuration accepted by parse_file is usable", "statement": "Parameters::parse_file returns true only if every image size is a positive number of pixels as written in the file and every optical centre is non negative; it returns false for a missing file but leaves a usable default configuration; the SLAM object can be constructed exactly when the last configuration step left the parameters valid.", "quantifier": "every configuration file content (all integer sizes including negative ones, all real centres) and every sequence of parse_file / construction calls", "why_tests_cant": "the space of configuration values is unbounded and conversions wrap", "anchors": ["src/parameters.cpp: parse_file, load_defaut, check_parameters_validity", "src/rgbd_slam.cpp: RGBD_SLAM::RGBD_SLAM"]}
{"id": "C06", "title": "Map feature ids are unique, non zero and never reused", "statement": "Every map feature ever created gets an id different from 0 and from the id of every feature created before it, as long as fewer than 2^64-1 ids were given out; the id of a feature is unchanged when it is promoted from candidate to map feature.", "quantifier": "every sequence of id allocations and every history of map operations", "why_tests_cant": "uniqueness ranges over all histories, including the wrap of the 64 bit counter", "anchors": ["src/map_management/feature_map.hpp: MapIdAllocator::get_new_id, Feature_Map"]}
{"id": "C07", "title": "Candidates and map features stay disjoint and keyed by their id", "statement": "At every moment each stored feature is stored under its own id, no id is present twice, and no id is both a candidate (staged) and a map feature (local).", "quantifier": "every finite sequence of Feature_Map operations (matching, update, update without pose, staging, outlier marking, upgrades, reset) with every outcome of the feature callbacks", "why_tests_cant": "an invariant over all histories", "anchors": ["src/map_management/feature_map.hpp: Feature_Map::update_map, add_features_to_staged_map, get_upgraded_features, add_upgraded_features"]}
{"id": "C08", "title": "A 3D point enters the map after three net matches and is dropped when its net count reaches zero", "statement": "When building the map point from the candidate does not throw, a staged point is promoted at exactly the update at which its matched-minus-unmatched count first reaches three, is discarded at exactly the update at which that count is zero or less, and otherwise stays staged; no other event promotes or discards it.", "quantifier": "every sequence of per-frame outcomes (matched and updated, or not)", "why_tests_cant": "a counter race over unbounded histories; tests cover a handful of sequences", "anchors": ["src/map_management/map_features/map_point.hpp: StagedMapPoint", "src/map_management/map_features/map_point.cpp: should_remove_from_staged, should_add_to_local_map", "src/map_management/feature_map.hpp: update_staged_map"]}
{"id": "C09", "title": "A plane enters the map after four net matches and is dropped after two consecutive misses", "statement": "When building the map plane from the candidate does not throw, a staged plane is promoted at exactly the first update at which its net match count reaches four, is discarded at exactly the update that makes two consecutive misses, and otherwise stays staged.", "quantifier": "every sequence of per-frame outcomes", "why_tests_cant": "as above", "anchors": ["src/map_management/map_features/map_primitive.cpp: StagedMapPlane::should_remove_from_staged, should_add_to_local_map", "src/map_management/feature_map.hpp: update_staged_map"]}
{"id": "C10", "title": "A map feature is removed exactly after its allowed number of consecutive misses", "statement": "A map point is removed exactly at its eleventh consecutive frame without successful match, a map plane exactly at its tenth; any successful match restarts the count and no other event removes it (upgrades and reset aside).", "quantifier": "every sequence of per-frame outcomes, with or without a valid pose", "why_tests_cant": "off-by-one between feature kinds only shows on long histories", "anchors": ["src/map_management/map_features/map_point.cpp: LocalMapPoint::is_lost", "src/map_management/map_features/map_primitive.cpp: LocalMapPlane::is_lost", "src/map_management/feature_map.hpp: update_local_map, update_local_map_with_no_tracking"]}
{"id": "C11", "title": "Every finished map feature is exported exactly once", "statement": "Over the whole life of a feature map, each map feature that is removed as lost or still present when the map is destroyed is sent to the map file exactly once; nothing else is written; on a successful frame features flagged as moving are dropped without being written.", "quantifier": "every history of map operations ending with destruction", "why_tests_cant": "exactly-once over all histories", "anchors": ["src/map_management/feature_map.hpp: update_local_map, update_local_map_with_no_tracking, destroy"]}
{"id": "C12", "title": "A rejected map update leaves the map untouched", "statement": "When the pose covariance is invalid, Local_Map::update and add_all_features_to_map throw before changing any stored feature, match flag or output file; after the exception the map equals the map before the call.", "quantifier": "every map content, every set of detected features and outliers", "why_tests_cant": "strong exception guarantee: all states", "anchors": ["src/map_management/local_map.hpp: update, add_all_features_to_map", "src/map_management/feature_map.hpp: update_map, add_features_to_staged_map"]}
{"id": "C13", "title": "A deactivated feature map never changes", "statement": "Once deactivate() was called on a feature map no further operation except adding upgraded features / extracting upgrades changes its content, matches nothing, tracks nothing and writes nothing.", "quantifier": "every history after deactivation", "why_tests_cant": "ranges over all histories", "anchors": ["src/map_management/feature_map.hpp: deactivate, reset, destroy, get_matches, update_map, update_with_no_tracking"]}
{"id": "C14", "title": "Rejecting an outlier match only undoes that match", "statement": "Marking a match as outlier removes exactly the pair (map feature, detected feature) from the current matches: other features keep their matches, the other match indexes of the same feature are kept, no feature is added or removed, and ids unknown to the map change nothing.", "quantifier": "every map state, every list of outliers in any order and with repetitions", "why_tests_cant": "frame condition over all states", "anchors": ["src/map_management/feature_map.hpp: mark_outliers_as_unmatched, mark_feature_with_id_as_unmatched", "src/map_management/local_map.hpp: mark_outliers_as_unmatched"]}
{"id": "C15", "title": "Unused detected features become candidates exactly once", "statement": "After a successful frame, the features newly staged correspond one to one, in order, to the detected features that were not consumed by the update and that are admissible; a detected feature consumed by an update is never staged.", "quantifier": "every detection list, every set of used indexes, every admissibility outcome", "why_tests_cant": "ranges over all lists and subsets", "anchors": ["src/map_management/feature_map.hpp: add_features_to_staged_map, add_detected_feature_to_staged_map"]}
{"id": "C16", "title": "A keypoint becomes either a 3D point or a 2D point candidate, never both", "statement": "Offered to both point maps, a detected keypoint with a descriptor is accepted by exactly one of them according to its depth being valid; without descriptor by none.", "quantifier": "every keypoint (any depth value, descriptor present or not)", "why_tests_cant": "all depth values including boundaries and invalid ones", "anchors": ["src/map_management/map_features/map_point.hpp: StagedMapPoint::can_add_to_map", "src/map_management/map_features/map_point2d.hpp: StagedMapPoint2D::can_add_to_map", "src/coordinates/point_coordinates.cpp: is_depth_valid"]}
{"id": "C17", "title": "Map update terminates", "statement": "Local_Map::update returns for every map content: each stored feature is processed exactly once, in any iteration order of the containers.", "quantifier": "every map content and callback outcome, including features whose promotion throws", "why_tests_cant": "termination for all inputs", "anchors": ["src/map_management/feature_map.hpp: update_local_map, update_staged_map"]}
{"id": "C18", "title": "No detected plane is matched to two map planes", "statement": "In one matching pass the detected plane indexes given to map planes are pairwise different, each in range, and every detected plane (whatever its index) can be matched.", "quantifier": "every map, every detection list, every overlap outcome", "why_tests_cant": "injectivity over all inputs", "anchors": ["src/map_management/map_features/map_primitive.cpp: MapPlane::find_match / find_matches", "src/map_management/feature_map.hpp: get_matches"]}
{"id": "C19", "title": "No detected point is matched to two map points", "statement": "In one matching pass each detected keypoint is given to at most one map point.", "quantifier": "every map and detection list, with and without optical-flow ids", "why_tests_cant": "injectivity over all inputs", "anchors": ["src/map_management/map_features/map_point.cpp: MapPoint::find_matches", "src/features/keypoints/keypoint_handler.cpp: get_tracking_match_index, get_match_indexes", "src/map_management/feature_map.hpp: get_matches"]}
{"id": "C20", "title": "2D (depth-less) map points take part in pose estimation", "statement": "A visible 2D map point whose detected counterpart is found contributes a match to the pose optimisation.", "quantifier": "every 2D map point and every detection result", "why_tests_cant": "the code path silently yields nothing for every input", "anchors": ["src/map_management/map_features/map_point2d.cpp: MapPoint2D::find_matches"]}
{"id": "C21", "title": "Upgraded features are moved, not copied or lost", "statement": "A 2D point that converges is removed from its map and exactly one new 3D map point with a fresh id appears; features that do not upgrade stay where they are and the number of added features never exceeds the number of upgraded ones.", "quantifier": "every map state and every upgrade outcome", "why_tests_cant": "conservation over all states", "anchors": ["src/map_management/feature_map.hpp: get_upgraded_features, add_upgraded_features", "src/map_management/local_map.hpp: update", "src/map_management/map_features/map_point2d.cpp: compute_upgraded"]}
{"id": "C22", "title": "Inlier/outlier split is a partition", "statement": "For any pose the matches are split into inliers and outliers that together contain each match exactly once in the original order, and the reported score is the sum of the inlier scores.", "quantifier": "every match list and every inlier predicate", "why_tests_cant": "all lists", "anchors": ["src/pose_optimization/pose_optimization.cpp: get_features_inliers_outliers, get_feature_set_optimization_score"]}
{"id": "C23", "title": "A pose accepted by RANSAC is supported by enough matches", "statement": "compute_pose_with_ransac returns true only if the final inlier set reaches the minimal optimisation score of one, for every scheduling of the parallel iterations and every random draw; with a total score below one it returns false without any iteration.", "quantifier": "every match list, every random choice, every interleaving of iterations", "why_tests_cant": "schedule quantification", "anchors": ["src/pose_optimization/pose_optimization.cpp: compute_pose_with_ransac"]}
{"id": "C24", "title": "RANSAC keeps the best candidate", "statement": "The candidate retained by RANSAC has the highest inlier score among all evaluated candidates.", "quantifier": "every sequence of candidate evaluations and every interleaving", "why_tests_cant": "order and schedule dependent", "anchors": ["src/pose_optimization/pose_optimization.cpp: compute_pose_with_ransac"]}
{"id": "C25", "title": "Random subsets are faithful", "statement": "get_random_subset(n) returns n elements drawn without repetition from the container and throws exactly when n exceeds its size; get_random_subset_with_score returns a subset whose score reaches the target, minimal for its draw order, and throws exactly when the total score is too small.", "quantifier": "every container, every target, every random permutation", "why_tests_cant": "all permutations", "anchors": ["src/pose_optimization/ransac.hpp: get_random_subset, get_random_subset_with_score, get_random_subset_with_duplicates"]}
{"id": "C26", "title": "Pose covariance estimation never divides by zero", "statement": "When compute_pose_variance reports success the covariance comes from at least two sampled poses, is symmetric and positive semi-definite, and no division by zero occurred.", "quantifier": "every requested iteration count and every pattern of failed samples", "why_tests_cant": "boundary iteration counts", "anchors": ["src/pose_optimization/pose_optimization.cpp: compute_pose_variance"]}
{"id": "C27", "title": "OBJ export refers to the right vertices", "statement": "In the exported OBJ file every element (point, line, polygon) refers to the vertices written for it, all indexes are between 1 and the number of vertices, and elements written later do not disturb earlier ones.", "quantifier": "every sequence of add_point / add_line / add_polygon calls with any number of vertices", "why_tests_cant": "global index arithmetic over unbounded sequences", "anchors": ["src/outputs/map_writer.cpp: OBJ_Map_Writer"]}
{"id": "C28", "title": "XYZ and PCD exports contain exactly the points", "statement": "The XYZ and PCD files contain one line per added point, in order, and nothing for lines and polygons; the point count announced in the PCD header equals the number of points.", "quantifier": "every sequence of writer calls", "why_tests_cant": "unbounded sequences", "anchors": ["src/outputs/map_writer.cpp: XYZ_Map_Writer, PCD_Map_Writer"]}
{"id": "C29", "title": "World and camera frames are exchanged without loss", "statement": "For every pose with unit orientation, transforming a point from world to camera and back (and conversely) gives the same point, and distances between points are preserved.", "quantifier": "every unit quaternion, every position, every point (exact arithmetic)", "why_tests_cant": "continuum of inputs", "anchors": ["src/utils/camera_transformation.cpp: compute_camera_to_world_transform, compute_world_to_camera_transform", "src/coordinates/point_coordinates.cpp: to_world_coordinates, to_camera_coordinates"]}
{"id": "C30", "title": "Plane changes of frame are consistent with points", "statement": "A camera point lies on a camera plane exactly when its world image lies on the world image of the plane, signed distances are preserved, and world->camera after camera->world is the identity on planes.", "quantifier": "every pose, plane and point", "why_tests_cant": "continuum of inputs", "anchors": ["src/utils/camera_transformation.cpp: compute_plane_camera_to_world_matrix, compute_plane_world_to_camera_matrix", "src/coordinates/plane_coordinates.cpp"]}
{"id": "C31", "title": "Screen and camera coordinates are inverse of each other", "statement": "Back-projecting a screen point with positive depth and projecting it again gives the same screen point, and conversely every camera point in front of the camera is recovered from its projection and depth.", "quantifier": "all camera intrinsics with non zero focals, all points with non zero depth", "why_tests_cant": "continuum of inputs", "anchors": ["src/coordinates/point_coordinates.cpp: ScreenCoordinate::to_camera_coordinates, CameraCoordinate::to_screen_coordinates"]}
{"id": "C32", "title": "Inverse-depth points describe a ray", "statement": "The cartesian image of an inverse depth point lies on the ray from the first observation pose, at distance equal to the inverse of the stored inverse depth; converting the point back to inverse depth recovers bearing and inverse depth; the closest and farthest points of the confidence interval bracket the estimate.", "quantifier": "every observation pose, bearing angles and inverse depth > 0", "why_tests_cant": "continuum of inputs", "anchors": ["src/coordinates/inverse_depth_coordinates.cpp: to_world_coordinates, get_closest_estimation, get_furthest_estimation", "src/coordinates/basis_changes.cpp"]}
{"id": "C33", "title": "The three optimisation parameters always encode a rotation", "statement": "Every triple of optimisation coefficients is mapped to a quaternion of norm one; mapping a unit quaternion to coefficients and back returns it, except near the pole where the third vector component is close to -1.", "quantifier": "every real triple and every unit quaternion", "why_tests_cant": "continuum of inputs", "anchors": ["src/pose_optimization/levenberg_marquardt_functors.cpp: get_optimization_coefficients_from_quaternion, get_quaternion_from_optimization_coefficients"]}
{"id": "C34", "title": "The quaternion Jacobian used for covariance propagation is the derivative", "statement": "The matrix returned by get_quaternion_from_optimization_coefficients_jacobian equals the partial derivatives of the coefficients-to-quaternion map at every point.", "quantifier": "every real triple, every entry", "why_tests_cant": "derivative identity on a continuum", "anchors": ["src/pose_optimization/levenberg_marquardt_functors.cpp: get_quaternion_from_optimization_coefficients_jacobian"]}
{"id": "C35", "title": "Kalman update keeps a valid covariance and never loses information", "statement": "With valid input covariances the updated covariance is symmetric and positive semi-definite and not larger than the predicted one; the updated state is the predicted state moved by the gain times the innovation; invalid inputs are rejected without a result.", "quantifier": "every dimension, state, measurement and covariance (exact arithmetic)", "why_tests_cant": "matrix inequality over a continuum", "anchors": ["src/tracking/kalman_filter.hpp: get_new_state"]}
{"id": "C36", "title": "Covariance propagation yields covariances", "statement": "Propagating a symmetric positive semi-definite covariance through any jacobian (points to camera, camera to world, inverse depth to world, plane) yields a symmetric positive semi-definite matrix.", "quantifier": "every jacobian, dimension and covariance", "why_tests_cant": "continuum", "anchors": ["src/utils/covariances.hpp: propagate_covariance, is_covariance_valid", "src/utils/covariances.cpp: get_camera_point_covariance, get_world_point_covariance"]}
{"id": "C37", "title": "Depth quantisation is bounded below and monotone in range", "statement": "The depth quantisation error is at least 0.5 mm for every depth, and does not decrease with depth for non negative depths.", "quantifier": "every real depth", "why_tests_cant": "continuum", "anchors": ["src/utils/covariances.cpp: get_depth_quantization", "src/utils/covariances.hpp"]}
{"id": "C38", "title": "Motion model predicts from the poses it was given", "statement": "The first prediction after construction or a reset without arguments returns the given pose; later predictions add an exponentially averaged velocity of the successive differences; a constant pose is predicted unchanged.", "quantifier": "every sequence of poses and resets", "why_tests_cant": "recurrence over unbounded sequences", "anchors": ["src/tracking/motion_model.cpp: predict_next_pose, reset"]}
{"id": "C39", "title": "Every pixel of the depth image lands in its own slot of the organised cloud", "statement": "When the image dimensions are multiples of the patch size the pixel to cell-ordered index map is a bijection of the pixels onto 0..width*height-1 and each patch occupies a contiguous block.", "quantifier": "every image size and patch size", "why_tests_cant": "bijection over all sizes", "anchors": ["src/features/primitives/depth_map_transformation.cpp: init_matrices, get_organized_cloud_array"]}
{"id": "C40", "title": "Depth rectification does not depend on thread scheduling", "statement": "rectify_depth gives the same output image for every scheduling of its parallel rows.", "quantifier": "every depth image and every interleaving", "why_tests_cant": "schedule quantification", "anchors": ["src/features/primitives/depth_map_transformation.cpp: rectify_depth"]}
{"id": "C41", "title": "Histogram seeds are taken among the remaining cells of the most frequent direction", "statement": "At any time the cells returned as candidates are exactly the not-yet-removed cells whose quantised normal falls in the most populated bin; a removed cell is never returned again and bin counters equal the number of remaining cells of the bin.", "quantifier": "every set of normals and every sequence of removals", "why_tests_cant": "history of operations", "anchors": ["src/features/primitives/histogram.hpp: Histogram::init_histogram, get_points_from_most_frequent_bin, remove_point"]}
{"id": "C42", "title": "Region growing collects exactly the mergeable connected cells", "statement": "The cells activated from a seed are exactly those reachable from it through neighbouring unassigned cells whose pairs pass the merge test; growth terminates and does not depend on visiting order.", "quantifier": "every grid size, every merge predicate, every seed and set of unassigned cells", "why_tests_cant": "reachability over unbounded grids", "anchors": ["src/features/primitives/primitive_detection.cpp: region_growing"]}
{"id": "C43", "title": "Plane extraction terminates and never assigns a cell twice", "statement": "The growing loop stops for every depth image; every grid cell belongs to at most one extracted plane or cylinder.", "quantifier": "every grid and callback outcome", "why_tests_cant": "termination and disjointness for all inputs", "anchors": ["src/features/primitives/primitive_detection.cpp: grow_planes_and_cylinders, grow_plane_segment_at_seed, add_plane_segment_to_features"]}
{"id": "C44", "title": "Merging planes produces a consistent labelling", "statement": "After merging, every plane is labelled by a representative that labels itself, has an index not greater than the plane's, and is linked to it by a chain of merges; planes never merged keep their own label.", "quantifier": "every number of planes, every adjacency and merge test outcome", "why_tests_cant": "all graphs", "anchors": ["src/features/primitives/primitive_detection.cpp: merge_planes, add_planes_to_primitives"]}
{"id": "C45", "title": "Plane adjacency is symmetric and complete", "statement": "Two planes are reported adjacent exactly when some pair of horizontally or vertically neighbouring grid cells carries their two labels; the relation is symmetric and irreflexive.", "quantifier": "every label grid", "why_tests_cant": "all grids", "anchors": ["src/features/primitives/primitive_detection.cpp: get_connected_components_matrix"]}
{"id": "C46", "title": "Accumulated plane statistics equal those of the union of points", "statement": "Expanding a plane segment by other segments gives the count, sums, centroid and (positive semi-definite) covariance of the union of the point sets, in any order; a grown plane counts every one of its points once.", "quantifier": "every point set and every order of expansion", "why_tests_cant": "algebra over unbounded sets", "anchors": ["src/features/primitives/plane_segment.cpp: expand_segment, get_point_cloud_Huygen_covariance, fit_plane", "src/features/primitives/primitive_detection.cpp: grow_plane_segment_at_seed"]}
{"id": "C47", "title": "A detected cylinder has the radius of its segments", "statement": "The radius of each cylinder returned by primitive detection is the mean of the radii of its segments, a non negative number.", "quantifier": "every cylinder segmentation", "why_tests_cant": "the copy semantics lose the data for all inputs", "anchors": ["src/features/primitives/shape_primitives.cpp: Cylinder::Cylinder", "src/features/primitives/cylinder_segment.cpp: Cylinder_Segment copy constructor", "src/features/primitives/primitive_detection.cpp: add_cylinders_to_primitives"]}
{"id": "C48", "title": "Cylinder segmentation terminates with disjoint sub-segments", "statement": "Splitting a set of plane patches in cylinders terminates, and each patch belongs to at most one cylinder sub-segment.", "quantifier": "every patch set and every random draw", "why_tests_cant": "termination for all draws", "anchors": ["src/features/primitives/cylinder_segment.cpp: Cylinder_Segment::Cylinder_Segment, run_ransac_loop"]}
{"id": "C49", "title": "Keypoint lookup finds every candidate around the projection", "statement": "A search around a projected point considers every detected, unmatched keypoint within the search radius, never one that is already matched or outside, and never reads outside the search grid.", "quantifier": "every image size, keypoint set, projection and radius", "why_tests_cant": "boundary cells and image shapes", "anchors": ["src/features/keypoints/keypoint_handler.cpp: get_search_space_index, compute_key_point_mask, fill_keypoint_mask, get_match_indexes"]}
{"id": "C50", "title": "Optical-flow ids are carried over faithfully", "statement": "Each keypoint tracked by optical flow keeps the map id it had, ids appear in the same order and at most as often as in the input, and looking an id up returns a keypoint carrying this id.", "quantifier": "every list of tracked points and every status / backward check outcome", "why_tests_cant": "all lists", "anchors": ["src/features/keypoints/keypoint_detection.cpp: get_keypoints_from_optical_flow", "src/features/keypoints/keypoint_handler.cpp: set, get_tracking_match_index"]}
{"id": "C51", "title": "TUM frames are associated one to one within the time tolerance", "statement": "Every RGB image appears exactly once in the associated sequence, each depth image at most once, associated images are less than 0.15 s apart, each ground truth is used at most once and is less than 0.05 s away, and the sequence is in time order.", "quantifier": "every set of RGB, depth and ground truth timestamps", "why_tests_cant": "greedy matching over all sets", "anchors": ["examples/TUM_parser.hpp: DatasetParser::associate_data"]}
{"id": "C52", "title": "Projection on a plane basis is a faithful chart", "statement": "Projecting a point on the (orthonormal) polygon basis and lifting it back gives the orthogonal projection on the plane; points of the plane are recovered exactly; distances inside the plane are preserved.", "quantifier": "every orthonormal basis, centre and point", "why_tests_cant": "continuum", "anchors": ["src/utils/polygon.cpp: get_point_from_plane_coordinates, get_projected_plan_coordinates"]}
{"id": "C53", "title": "The closest point on a line is the closest", "statement": "The point returned for a line and a query point is on the line and no other point of the line is nearer; the reported distance is its distance.", "quantifier": "every line with unit direction and every point", "why_tests_cant": "continuum", "anchors": ["src/utils/line.hpp: get_closest_point_on_line, distance", "src/utils/distance_utils.hpp"]}
{"id": "C54", "title": "Random integers stay in range", "statement": "get_random_uint(max) is always smaller than max for max > 0, and can reach every value below it.", "quantifier": "every max and every generator output in [0,1)", "why_tests_cant": "all generator outputs", "anchors": ["src/utils/random.hpp: get_random_uint"]}
{"id": "C55", "title": "A failed point update leaves the map point unchanged", "statement": "When tracking a map point with a new observation fails, its position and covariance are exactly the ones before the call.", "quantifier": "every observation and every failure point", "why_tests_cant": "all failure points of the update", "anchors": ["src/tracking/point_with_tracking.cpp: Point::track", "src/tracking/inverse_depth_with_tracking.cpp", "src/tracking/plane_with_tracking.cpp"]}
{"id": "C56", "title": "The optimiser refuses an inconsistent problem", "statement": "The pose estimator can only be built with at least one feature and feature part counts that add up to its residual size; every residual slot is written by exactly one feature.", "quantifier": "every feature list", "why_tests_cant": "all lists", "anchors": ["src/pose_optimization/levenberg_marquardt_functors.cpp: Global_Pose_Estimator"]}
{"id": "C57", "title": "Concave hull retries with growing neighbourhoods", "statement": "When the hull search fails, the next larger neighbourhood size of the table is tried until the table is exhausted.", "quantifier": "every sequence of failures", "why_tests_cant": "loop over all retries", "anchors": ["third_party/concave_fitting.cpp: compute_concave_hull, PointInPolygon"]}
{"id": "C58", "title": "Enough matches are requested before falling back to candidates", "statement": "Candidate (staged) features contribute to the pose optimisation exactly when the map features gave fewer than three times the minimal number of matches; a second, wider matching pass runs exactly when the first gave fewer than the minimum; its result replaces the first.", "quantifier": "every map and matching outcome", "why_tests_cant": "decision logic over all states", "anchors": ["src/map_management/feature_map.hpp: get_matches"]}
{"id": "C59", "title": "Camera intrinsics follow the last configuration", "statement": "The pinhole parameters used by all projections are those of the most recently loaded configuration, also when a configuration is loaded after an earlier one was already used.", "quantifier": "every sequence of configuration loads and uses", "why_tests_cant": "a cached value is only wrong after a particular order of calls", "anchors": ["src/parameters.cpp: get_camera_1_intrinsics, parse_file, load_default"]}
{"id": "C60", "title": "The second matching pass looks further than the first", "statement": "When the first search around a projected map point finds too few matches, the second search with twice the radius considers every keypoint the first one considered and keypoints further away.", "quantifier": "every handler content, projection and set of already matched keypoints", "why_tests_cant": "for all images and keypoint layouts, including the borders", "anchors": ["src/features/keypoints/keypoint_handler.cpp: get_match_index, get_keypoint_mask", "src/map_management/map_point.cpp: find_matches"]}
{"id": "C61", "title": "A keypoint is accepted as match only if it is the clear winner", "statement": "A search returns at most one keypoint; it returns keypoint i exactly when i is considered and its descriptor distance is less than 70 percent of the distance of every other considered keypoint.", "quantifier": "every set of keypoints, descriptors and flags", "why_tests_cant": "for all descriptor sets, including ties and a single candidate", "anchors": ["src/features/keypoints/keypoint_handler.cpp: get_match_index"]}
{"id": "C62", "title": "Feature ids are unique over all maps, and each map lives its own history", "statement": "At any time no two features known to the program (3D points, 2D points, planes, stored or already written) have the same id; nothing is written twice; whatever calls are made on the local map, each of its maps goes through a sequence of its own operations.", "quantifier": "every sequence of calls of the local map", "why_tests_cant": "the id counter is shared by all maps: all interleavings", "anchors": ["src/map_management/feature_map.hpp: MapIdAllocator", "src/map_management/local_map.hpp: foreach_map, update, add_all_features_to_map, find_feature_matches"]}
{"id": "C63", "title": "The matches given to the optimisation are those of the maps", "statement": "find_feature_matches returns, as a multiset and whatever the order of the merged lists, exactly the matches of the single maps; every match names a feature that is in the map and a detection this feature is matched to.", "quantifier": "every map content, every frame, every order of the list elements", "why_tests_cant": "list merge with an order given by addresses", "anchors": ["src/map_management/local_map.hpp: find_feature_matches", "src/map_management/feature_map.hpp: get_matches"]}
{"id": "C64", "title": "A keypoint matched to a map feature is not a new candidate", "statement": "After an update no detection that was matched to a feature of the map is also used to create a new candidate in the same frame.", "quantifier": "every frame and map content", "why_tests_cant": "depends on combinations of map states over the feature types", "anchors": ["src/map_management/local_map.hpp: update", "src/map_management/feature_map.hpp: add_features_to_staged_map"]}
{"id": "C65", "title": "The frame loop never breaks in the local map", "statement": "Whatever the frames, poses and answers of the optimisation, the calls of track on the local map read only detections that exist, never fail the assertion on the match flags, terminate and do not end the program.", "quantifier": "every history of frames", "why_tests_cant": "memory safety and termination over all histories", "anchors": ["src/rgbd_slam.cpp: compute_new_pose", "src/map_management/local_map.hpp: find_feature_matches, update, update_no_pose, add_all_features_to_map"]}
{"id": "C66", "title": "Every map seen by the frame loop is a reachable one", "statement": "After each frame of each run the content of the local map is the result of a sequence of calls of its public operations, so every invariant of such sequences holds between frames.", "quantifier": "every history of frames, detectors, poses, optimisation results, exceptions", "why_tests_cant": "refinement over all histories", "anchors": ["src/rgbd_slam.cpp: compute_new_pose, track"]}
{"id": "C67", "title": "A failed pose optimisation returns nothing", "statement": "When compute_optimized_pose reports a failure the pose and the match sets given to it are as before the call; when it reports success every match is valid, the pose comes from an accepted consensus and it carries the variance computed for this pose and its inliers.", "quantifier": "every match list, every schedule of the consensus search and every outcome of the variance estimation", "why_tests_cant": "the failing combinations depend on random draws and thread interleavings", "anchors": ["src/pose_optimization/pose_optimization.cpp: compute_optimized_pose, compute_pose_with_ransac"]}
{"id": "C68", "title": "Merging counts the points of each plane once", "statement": "When planes are merged, the points of every plane are accumulated in its representative, exactly once, and in no other plane.", "quantifier": "every set of planes, every adjacency and every outcome of the merge tests", "why_tests_cant": "depends on chains and cycles of adjacent planes", "anchors": ["src/features/primitives/primitive_detection.cpp: merge_planes"]}
{"id": "C69", "title": "A fitted plane goes through the mean of its points", "statement": "The plane fitted to a set of points goes through their mean, has a unit normal turned to the camera (offset not negative), and its mean square error is the mean of the squared distances of the points to the plane.", "quantifier": "every point set with a non null determinant", "why_tests_cant": "algebraic identity over all point sets", "anchors": ["src/features/primitives/plane_segment.cpp: fit_plane, get_point_cloud_Huygen_covariance"]}
{"id": "C70", "title": "Planar cells are dense, continuous and flat", "statement": "A grid cell is declared planar only if enough of its pixels have a depth, no two successive measured depths of its middle row or middle column differ by more than four times the depth quantisation, and the mean square error of its plane is at most the squared quantisation at its centroid; reading the cell never leaves its block.", "quantifier": "every depth image", "why_tests_cant": "all depth patterns of a cell", "anchors": ["src/features/primitives/plane_segment.cpp: init_plane_segment, is_cell_vertical_continuous, is_cell_horizontal_continuous"]}
{"id": "C71", "title": "World axes are x forward, y left, z up", "statement": "At the identity pose a camera point (x right, y down, z forward) is placed in the world at (z, -x, -y), and the camera centre is placed at the position of the pose with the same change of axes.", "quantifier": "every point, pose and orientation", "why_tests_cant": "the axes come from a composition of two rotations by trigonometric functions", "anchors": ["src/utils/camera_transformation.cpp: CameraToWorld, compute_camera_to_world_transform", "src/utils/angle_utils.cpp: get_quaternion_from_euler_angles"]}
{"id": "C72", "title": "A zero plane residual means the same plane", "statement": "The residual of a map plane and a detected plane is zero exactly when the detected plane is the image of the map plane in the camera frame.", "quantifier": "every pose and pair of planes", "why_tests_cant": "continuum of planes, including degenerate positions", "anchors": ["src/coordinates/plane_coordinates.cpp: get_reduced_signed_distance"]}
{"id": "C73", "title": "Projecting a polygon projects its points", "statement": "Projecting a polygon on another plane gives a polygon of that plane whose boundary points are the orthogonal projections of the original boundary points.", "quantifier": "every polygon and target placement with orthonormal axes", "why_tests_cant": "continuum", "anchors": ["src/utils/polygon.cpp: project"]}
{"id": "C74", "title": "Polygons change frame as their points", "statement": "Moving a polygon from camera to world or from world to camera moves every point of its boundary as the point transformation does, and going forth and back gives the same polygon.", "quantifier": "every pose and polygon with orthonormal axes", "why_tests_cant": "continuum", "anchors": ["src/coordinates/polygon_coordinates.cpp: to_world_space, to_camera_space"]}
{"id": "C75", "title": "Transforming a polygon keeps its shape in its plane", "statement": "Transforming a polygon to new axes and centre keeps the plane coordinates of its boundary points.", "quantifier": "every polygon, axes and centre", "why_tests_cant": "continuum", "anchors": ["src/utils/polygon.cpp: transform, transform_boundary", "src/coordinates/point_coordinates.cpp: get_transformation_matrix"]}
{"id": "C76", "title": "The distance of two lines joins their closest points", "statement": "The vector returned for two lines joins a point of the first and a point of the second, and no two points of the lines are nearer to each other.", "quantifier": "every pair of lines", "why_tests_cant": "continuum, with parallel lines", "anchors": ["src/utils/distance_utils.hpp: signed_line_distance, compute_closest_points", "src/coordinates/inverse_depth_coordinates.cpp: compute_signed_distance"]}
{"id": "C77", "title": "The difference of two angles is the short way round", "statement": "The angle distance is congruent to the difference of the angles modulo a turn, lies in (-pi, pi] and is zero exactly for equal angles modulo a turn.", "quantifier": "every pair of angles", "why_tests_cant": "continuum", "anchors": ["src/utils/distance_utils.cpp: angle_distance"]}
{"id": "C78", "title": "The orientation of a pose is always a rotation", "statement": "After any sequence of settings and updates of a pose its orientation is a unit quaternion.", "quantifier": "every history of settings and updates", "why_tests_cant": "unbounded history", "anchors": ["src/utils/pose.cpp: set_parameters, update"]}
{"id": "C79", "title": "A point is flagged as moving exactly when it was seen too far away", "statement": "After a successful update with a detection, a map point is flagged as moving exactly when along some axis the distance between its old position and the detection is larger than the standard deviation of the detection.", "quantifier": "every map point, detection and covariance", "why_tests_cant": "continuum of positions; one sided comparisons pass on half of the inputs", "anchors": ["src/tracking/point_with_tracking.cpp: Point::track"]}
{"id": "C80", "title": "An updated map plane is the plane of the fused parameters", "statement": "After a successful update of a map plane, the points of the stored plane are exactly those that satisfy the plane equation of the fused parameters.", "quantifier": "every pair of planes and covariances", "why_tests_cant": "continuum of planes; equal planes hide the difference", "anchors": ["src/tracking/plane_with_tracking.cpp: Plane::track, update_boundary_polygon", "src/coordinates/plane_coordinates.hpp"]}
{"id": "C81", "title": "Jacobians of the coordinate conversions are their derivatives", "statement": "The jacobians reported with the conversions spherical to cartesian, cartesian to spherical, inverse depth to world, world to inverse depth, and used for camera to screen and plane to reduced plane, contain the partial derivatives of those conversions.", "quantifier": "every point at which the conversion is differentiable, every entry", "why_tests_cant": "derivative identity on a continuum", "anchors": ["src/coordinates/basis_changes.cpp", "src/coordinates/inverse_depth_coordinates.cpp: from_cartesian, to_world_coordinates", "src/utils/covariances.cpp: get_screen_point_covariance, compute_reduced_plane_point_cloud_covariance"]}
{"id": "C82", "title": "Jacobians of the screen and plane covariance conversions are derivatives", "statement": "The jacobians used to convert the covariance of a screen point to camera space and the covariance of reduced plane parameters to full plane parameters contain the partial derivatives of those conversions.", "quantifier": "every pixel, depth and plane, every entry", "why_tests_cant": "derivative identity on a continuum", "anchors": ["src/utils/covariances.cpp: get_camera_point_covariance, compute_plane_covariance"]}
{"id": "C83", "title": "Predicted rotation keeps the observed axis", "statement": "After the camera was seen turning around an axis of the world, the orientation predicted by the motion model differs from the current one by a rotation around the same axis.", "quantifier": "every pair of successive orientations, every history of calls", "why_tests_cant": "a wrong composition order agrees with the right one on rotations around one axis, which is what tests use", "anchors": ["src/tracking/motion_model.cpp: predict_next_pose"]}
{"id": "C84", "title": "Pose optimisation succeeds only on a sufficient problem", "statement": "compute_optimized_global_pose never throws; it succeeds only when the scores of the matches add up to at least one and there are at least six residuals, and then returns a unit orientation; otherwise it leaves the output pose unchanged. With the matches of the three feature maps a total score of one always gives at least six residuals.", "quantifier": "every list of matches, every behaviour of the minimiser", "why_tests_cant": "ranges over all mixes of points and planes and all results of the minimisation", "anchors": ["src/pose_optimization/pose_optimization.cpp: compute_optimized_global_pose", "src/pose_optimization/levenberg_marquardt_functors.cpp: Global_Pose_Estimator"]}
{"id": "C85", "title": "Pose variance reflects the spread of the sampled poses", "statement": "The covariance reported for the optimised pose measures how far the sampled poses are from each other: positions by their sample covariance, and orientations that are all close to each other by a small angular variance.", "quantifier": "every list of sampled poses", "why_tests_cant": "depends on where the samples fall relative to the branch cut of the angles", "anchors": ["src/pose_optimization/pose_optimization.cpp: compute_pose_variance", "src/utils/pose.hpp: get_vector"]}
{"id": "C86", "title": "Inliers are the matches whose reprojection error is small", "statement": "A point match is counted as an inlier of a pose exactly when the map point is in front of the camera and projected within three pixels of the observation; a plane match exactly when the projected normal and distance are within their thresholds.", "quantifier": "every match, every pose", "why_tests_cant": "poses and points are continuous; the failing ones are behind the camera", "anchors": ["src/map_management/map_features/map_point.cpp: PointOptimizationFeature::is_inlier", "src/map_management/map_features/map_primitive.cpp: PlaneOptimizationFeature::is_inlier"]}
{"id": "C87", "title": "Inliers among points without depth", "statement": "A 2D point match is counted as an inlier exactly when the observation is within three pixels of the projected segment, in each coordinate.", "quantifier": "every match, every pose", "why_tests_cant": "the error only shows on one side of the projection", "anchors": ["src/map_management/map_features/map_point2d.cpp: Point2dOptimizationFeature::is_inlier, get_distance"]}
{"id": "C88", "title": "Aligning the depth image with an identical colour camera changes nothing", "statement": "When the depth and colour cameras have the same intrinsics and the same position, rectify_depth leaves every depth of the image unchanged.", "quantifier": "every depth image, every camera and every scheduling of the parallel rows", "why_tests_cant": "all images and schedulings", "anchors": ["src/features/primitives/depth_map_transformation.cpp: rectify_depth"]}
{"id": "C89", "title": "A depth is moved to the colour pixel that sees the measured point", "statement": "rectify_depth writes the depth of a pixel of the depth camera at the pixel of the colour camera on which the measured point projects, for every pair of camera calibrations.", "quantifier": "every pair of calibrations, every pixel and every depth", "why_tests_cant": "all calibrations and depths", "anchors": ["src/features/primitives/depth_map_transformation.cpp: init_matrices, rectify_depth", "src/parameters.cpp: get_camera_2_to_camera_1_transformation"]}
{"id": "C90", "title": "Measured points outside of the colour image are dropped", "statement": "rectify_depth returns for every depth image: points that project outside of the colour image, in any direction, are ignored.", "quantifier": "every depth image and every transformation between the cameras", "why_tests_cant": "all images and extrinsics; undefined behaviour does not show in a test", "anchors": ["src/features/primitives/depth_map_transformation.cpp: rectify_depth"]}
{"id": "C91", "title": "The aligned depth is the depth of the closest surface", "statement": "When several measured points project on the same colour pixel, the aligned depth image holds the smallest of their depths; when none does it holds zero.", "quantifier": "every depth image, every transformation and every scheduling", "why_tests_cant": "all images and schedulings", "anchors": ["src/features/primitives/depth_map_transformation.cpp: rectify_depth"]}
{"id": "C92", "title": "Every image size is accepted", "statement": "For every image size the organised cloud gives each pixel with a depth its own slot, inside the array.", "quantifier": "every image size and patch size", "why_tests_cant": "all sizes", "anchors": ["src/features/primitives/depth_map_transformation.cpp: init_matrices, get_organized_cloud_array", "src/rgbd_slam.cpp: RGBD_SLAM"]}
{"id": "C93", "title": "TUM images are associated with the nearest image first", "statement": "When a colour and a depth image of a TUM dataset are within the tolerance and not associated together, at least one of them is associated with an image that is at least as close in time.", "quantifier": "every set of time stamps and every order of equal scores", "why_tests_cant": "greedy matching over all sets", "anchors": ["examples/TUM_parser.hpp: DatasetParser::associate_data"]}
{"id": "C94", "title": "A TUM frame gets the closest ground truth", "statement": "A frame gets the ground truth element closest in time to its colour image, if one is less than 0.05 s away.", "quantifier": "every set of time stamps", "why_tests_cant": "all sets", "anchors": ["examples/TUM_parser.hpp: DatasetParser::associate_data"]}
{"id": "C95", "title": "The start index option skips the first frames", "statement": "The example program started with index i gives the tracker no frame before the i-th of the dataset.", "quantifier": "every dataset length, start index and jump", "why_tests_cant": "all options", "anchors": ["examples/main_TUM.cpp: main"]}
{"id": "C96", "title": "The jump option keeps every j-th frame", "statement": "The example program with jump j gives the tracker the frames whose position is a multiple of j, in order and once each, and all the frames when j is zero.", "quantifier": "every dataset length and jump", "why_tests_cant": "all options", "anchors": ["examples/main_TUM.cpp: main"]}
{"id": "C97", "title": "A fitted boundary is made of the points given", "statement": "Fitting a boundary to a set of points always ends; its vertices are points of the set, none used twice, except that the boundary may end at the vertex where it started.", "quantifier": "every set of points and every order in which the neighbour search returns them", "why_tests_cant": "all point sets and all answers of a randomised index", "anchors": ["third_party/concave_fitting.cpp: ConcaveHull", "src/utils/polygon.cpp: Polygon::compute_concave_hull"]}
{"id": "C98", "title": "A fitted boundary does not cross itself", "statement": "Two edges of a fitted boundary that do not share an end have no common point.", "quantifier": "every set of points", "why_tests_cant": "all point sets", "anchors": ["third_party/concave_fitting.cpp: ConcaveHull, Intersects"]}
{"id": "C99", "title": "A fitted boundary encloses the points it was fitted to", "statement": "When a boundary is returned, every point given is a vertex, on an edge or inside.", "quantifier": "every set of points", "why_tests_cant": "all point sets", "anchors": ["third_party/concave_fitting.cpp: PointInPolygon, MultiplePointInPolygon"]}
{"id": "C100", "title": "A fitted boundary is closed", "statement": "The last vertex of a fitted boundary is its first vertex.", "quantifier": "every set of points", "why_tests_cant": "all point sets", "anchors": ["third_party/concave_fitting.cpp: ConcaveHull", "src/utils/polygon.cpp: Polygon::compute_concave_hull"]}
{"id": "C101", "title": "The depth of a keypoint is that of its nearest pixel", "statement": "Every keypoint returned for a frame has the depth of the pixel of the depth image nearest to it, or 0 when it is on the outermost pixels of the image.", "quantifier": "every depth image, every detected and tracked position", "why_tests_cant": "rounding and border cases over all positions", "anchors": ["src/features/keypoints/keypoint_handler.cpp: get_depth, set"]}
{"id": "C102", "title": "A keypoint stays tracked exactly when the optical flow agrees both ways", "statement": "A keypoint of the last frame is kept exactly when the forward flow finds it inside the new image and the backward flow brings it back to at most 30 pixels of where it was; kept keypoints have the forward position and their old id, in the old order.", "quantifier": "every list of keypoints and every answer of the optical flow", "why_tests_cant": "all combinations of flow answers", "anchors": ["src/features/keypoints/keypoint_detection.cpp: get_keypoints_from_optical_flow"]}
{"id": "C103", "title": "Every pixel is searched for keypoints exactly once", "statement": "The detection windows lie in the image and every pixel of the image belongs to exactly one of them.", "quantifier": "every image size", "why_tests_cant": "all image sizes", "anchors": ["src/features/keypoints/keypoint_detection.cpp: Key_Point_Extraction constructor"]}
{"id": "C104", "title": "The number of keypoints of a frame is bounded", "statement": "Detection brings each window to at most its share of keypoints, and a frame to at most the configured maximum number of points.", "quantifier": "every set of tracked points, every detector answer, every thread schedule", "why_tests_cant": "all detector answers and schedules", "anchors": ["src/features/keypoints/keypoint_detection.cpp: perform_keypoint_detection", "src/parameters.hpp: maximumPointPerFrame"]}
{"id": "C105", "title": "New keypoints are the strongest free ones, whatever the schedule", "statement": "New keypoints are in the image, outside of the masked discs around tracked keypoints and at distinct positions; in each window they are the strongest answers of the detector, as many as wanted when available; the set found does not depend on the order in which the parallel searches end.", "quantifier": "every detector answer, tracked points and thread schedule", "why_tests_cant": "all schedules", "anchors": ["src/features/keypoints/keypoint_detection.cpp: perform_keypoint_detection, compute_key_point_mask"]}
{"id": "C106", "title": "New keypoints are searched only when needed", "statement": "A frame searches new keypoints exactly when it is requested or fewer than the maximum number of points are tracked; otherwise all its keypoints are tracked ones; the first frame tracks nothing.", "quantifier": "every frame input and every answer of the image library", "why_tests_cant": "all histories of tracked counts", "anchors": ["src/features/keypoints/keypoint_detection.cpp: compute_keypoints"]}
{"id": "C107", "title": "The area of a polygon is always that of its present boundary", "statement": "Whatever was done to a polygon since its construction (fit on points, projection, transformation, change of frame, union, merge, simplification), the area it reports is the area of its present boundary; for a polygon built from a boundary, it is the area inside this boundary, whichever way it turns, closed or not.", "quantifier": "every sequence of operations, every boundary, every answer of the geometry library", "why_tests_cant": "all operation histories", "anchors": ["src/utils/polygon.hpp: Polygon::get_area, Polygon::project, Polygon::transform, Polygon::merge, Polygon::merge_union, Polygon::simplify", "src/utils/polygon.cpp: Polygon::compute_area"]}
{"id": "C108", "title": "Moving a polygon keeps its area, projecting it scales it by a cosine", "statement": "A polygon moved between the camera and the world frame, or rotated to another plane, keeps its area; a polygon projected on another plane has its area multiplied by the cosine of the angle between the planes.", "quantifier": "every polygon, pose and plane", "why_tests_cant": "all real poses and boundaries", "anchors": ["src/coordinates/polygon_coordinates.cpp: to_world_space, to_camera_space", "src/utils/polygon.cpp: Polygon::project, Polygon::transform"]}
{"id": "C109", "title": "The union and intersection of polygons are their biggest part", "statement": "When the union or the intersection of two polygons has several parts, the one that is returned is the biggest; an error is thrown exactly when there are several parts and none has an area.", "quantifier": "every pair of polygons, every list of parts", "why_tests_cant": "all lists of parts", "anchors": ["src/utils/polygon.cpp: Polygon::union_one, Polygon::inter_one"]}
{"id": "C110", "title": "Intersection over union is a ratio", "statement": "The intersection over union of two polygons is the area of their intersection divided by the area of their union; it is between zero and one, and one for a polygon with an area and itself.", "quantifier": "every pair of polygons", "why_tests_cant": "all pairs of polygons", "anchors": ["src/utils/polygon.cpp: Polygon::inter_over_union"]}
{"id": "C111", "title": "Merging polygons does not lose area", "statement": "A polygon merged with another one is never smaller than before.", "quantifier": "every pair of polygons", "why_tests_cant": "all pairs of polygons and answers of the geometry library", "anchors": ["src/utils/polygon.cpp: Polygon::merge, Polygon::merge_union, Polygon::simplify"]}
{"id": "C112", "title": "A polygon is visible exactly when the image sees a part of it", "statement": "A polygon is declared visible when the pixels that see it cover a part of the image, and never when it is behind the camera.", "quantifier": "every polygon in camera space, every camera matrix", "why_tests_cant": "all polygons and poses", "anchors": ["src/coordinates/polygon_coordinates.cpp: CameraPolygon::is_visible_in_screen_space, CameraPolygon::to_screen_space, CameraPolygon::get_static_screen_boundary_polygon"]}
{"id": "C113", "title": "The boundary of a detected plane is made of points of its edge", "statement": "The boundary points of a detected plane are exactly the points measured at the centre pixels of the cells on the edge of its set of cells, when that pixel has a depth and the point is at less than three standard deviations of the plane; each is taken once, the pixels read are in the image, and another thread scheduling gives the same points in another order. The plane is given up exactly when there are less than three such points.", "quantifier": "every depth image, image size, cell size, set of cells, plane, deviation and order of the parallel visits", "why_tests_cant": "the edge and the schedule depend on the image and on the threads; a test runs one of each", "anchors": ["src/features/primitives/primitive_detection.cpp: Primitive_Detection::compute_plane_segment_boundary", "src/features/primitives/primitive_detection.cpp: Primitive_Detection::add_planes_to_primitives"]}
{"id": "C114", "title": "Cylinders are dropped only when nothing of them is left after erosion", "statement": "A cylinder found in the grid is returned exactly when, once its gaps of one cell are filled, it holds at least one cell with all its neighbours.", "quantifier": "every grid size and every set of cells of the cylinder", "why_tests_cant": "a test uses a few masks; the claim is on every mask, including the one that covers the whole image", "anchors": ["src/features/primitives/primitive_detection.cpp: Primitive_Detection::add_cylinders_to_primitives"]}
{"id": "C115", "title": "Similar planes are near each other", "statement": "Two planes are accepted as similar exactly when their normals make less than 20 degrees and they are at less than 100 millimetres of each other as seen from the camera.", "quantifier": "every pair of planes with unit normals", "why_tests_cant": "planes range over a continuum, and the orientation of the normals matters", "anchors": ["src/features/primitives/shape_primitives.cpp: Plane::is_normal_similar", "src/features/primitives/shape_primitives.cpp: Plane::is_distance_similar"]}
{"id": "C116", "title": "Patches are merged only when aligned and near", "statement": "Two plane patches may be merged exactly when their normals make less than 18 degrees and the mean point of one is near the plane of the other: at less than 50 millimetres, and for a cell of the grid less than its diagonal times the sine of that angle times the root of its point count. Non planar cells are never merged.", "quantifier": "every pair of patches with unit normals, mean points, corners and point counts", "why_tests_cant": "patches range over a continuum, and a test compares a few of them", "anchors": ["src/features/primitives/plane_segment.cpp: Plane_Segment::can_be_merged", "src/features/primitives/primitive_detection.cpp: Primitive_Detection::init_planar_cell_fitting"]}
{"id": "C117", "title": "Whether two patches are merged does not depend on which one is asked", "statement": "Asking one plane patch if it may be merged with another gives the same answer as asking the other.", "quantifier": "every pair of patches with unit normals and mean points on their planes", "why_tests_cant": "patches range over a continuum; the two answers agree on most examples", "anchors": ["src/features/primitives/plane_segment.cpp: Plane_Segment::can_be_merged"]}
{"id": "C118", "title": "A point without depth is visible when its segment meets the image", "statement": "A map point without depth is reported visible only if some point of its segment on the screen is in the image, and it is reported visible whenever some point of that segment is in the image at a pixel of the border or more.", "quantifier": "all segments that do not run along the border, all image sizes", "why_tests_cant": "the segment can cross the image in every way: through it, at a corner, from inside, or not at all", "anchors": ["src/utils/line.cpp: clamp_to_screen", "src/map_management/map_features/map_point2d.cpp: MapPoint2D::is_visible"]}
{"id": "C119", "title": "Clamping a segment keeps its visible part", "statement": "The segment given by clamp_to_screen is the part of the input segment that is in the image (up to one pixel at the border).", "quantifier": "all segments that do not run along the border, all image sizes", "why_tests_cant": "the four cases of number of crossings and of position of the ends must all be right", "anchors": ["src/utils/line.cpp: clamp_to_screen"]}
{"id": "C120", "title": "A point is promoted to 3D only when its depth is well known", "statement": "A map point without depth is promoted to a 3D map point only when the uncertainty of its depth is small next to its distance to the camera; the 3D point is on the first line of sight at the estimated depth, with the propagated covariance.", "quantifier": "all points without depth, covariances and camera poses", "why_tests_cant": "the decision depends on continuous values of the covariance and of the geometry", "anchors": ["src/map_management/map_features/map_point2d.cpp: MapPoint2D::compute_upgraded", "src/tracking/inverse_depth_with_tracking.cpp: PointInverseDepth::compute_linearity_score"]}
{"id": "C121", "title": "Random variations move only the map feature, within its uncertainty", "statement": "The random variation of a match keeps the detection, the identifiers and the uncertainty; it moves the map feature by the drawn number of standard deviations, keeps plane normals of length one and the angles of points without depth in their range, and never stops the program.", "quantifier": "all matches and all drawn numbers", "why_tests_cant": "the draws are unbounded and the angles wrap", "anchors": ["src/map_management/map_features/map_point.cpp: PointOptimizationFeature::compute_random_variation", "src/map_management/map_features/map_point2d.cpp: Point2dOptimizationFeature::compute_random_variation", "src/map_management/map_features/map_primitive.cpp: PlaneOptimizationFeature::compute_random_variation"]}
{"id": "C122", "title": "A map plane is matched to the detected plane that covers it most", "statement": "A visible map plane is matched to the detected plane that is not used yet, is near it, has enough of its area in common with it, and shares the greatest area; it is left unmatched exactly when there is none.", "quantifier": "all map planes, detections, used flags and both search modes", "why_tests_cant": "the winner depends on all the detections and on their order", "anchors": ["src/map_management/map_features/map_primitive.cpp: MapPlane::find_matches"]}
{"id": "C123", "title": "The masks of the returned planes are the cells of the planes", "statement": "The mask of each plane returned by the detection covers exactly the grid cells attributed to the planes that were merged into it. Two returned planes never share a cell, no plane shares a cell with a cylinder, and every cell attributed to a plane is in the mask of a returned plane unless the plane that represents it was rejected.", "quantifier": "all depth grids, merge decisions and rejected planes", "why_tests_cant": "the masks depend on the labels written by all the merges before", "anchors": ["src/features/primitives/primitive_detection.cpp: Primitive_Detection::find_primitives, Primitive_Detection::add_planes_to_primitives"]}
{"id": "C124", "title": "Regions are grown from the best seed of a frequent direction", "statement": "The detection only grows a region in a direction that enough of the remaining cells share (0.8 percent of the grid), and from the cell of that direction with the smallest plane error. It stops only when no cell is left, when the most frequent direction is too rare or when no cell of it has a finite error.", "quantifier": "all depth grids and histograms", "why_tests_cant": "each turn depends on what all the turns before removed", "anchors": ["src/features/primitives/primitive_detection.cpp: Primitive_Detection::grow_planes_and_cylinders", "src/features/primitives/histogram.hpp: Histogram"]}
{"id": "C125", "title": "A pose search stops early only for a good pose", "statement": "The search of a pose by random sampling ends before its last draw only after a pose that more inliers follow than the stopping threshold, and not in the first turns; otherwise all the draws are made.", "quantifier": "all match sets, draws, pose estimations and schedules of the parallel loop", "why_tests_cant": "the number of turns depends on the results of all turns and, in the parallel version, on their interleaving", "anchors": ["src/pose_optimization/pose_optimization.cpp: Pose_Optimization::compute_pose_with_ransac"]}
{"id": "C126", "title": "The patches of a cylinder are the inliers of the best hypothesis", "statement": "The patches put in a sub-segment of a cylinder are exactly the remaining ones within the tolerance of one drawn hypothesis, which has the smallest cost of those examined. All the drawn hypotheses are examined unless more than nine tenths of the remaining patches agree with one. Nothing is found exactly when no patch is within the tolerance of any hypothesis.", "quantifier": "all sets of patches, draws and numbers of rounds", "why_tests_cant": "it ranges over all draws and over the sequence of the sub-segments", "anchors": ["src/features/primitives/cylinder_segment.cpp: Cylinder_Segment::run_ransac_loop, Cylinder_Segment::Cylinder_Segment"]}
{"id": "C127", "title": "Exact cylinders are recovered exactly", "statement": "For patches that all lie on one cylinder, with normals seen from the same side and not all parallel, the direction of least variance of the normals is the axis, any hypothesis drawn from patches with different normals has all patches as inliers, and the fitted cylinder has the exact axis and radius with a null mean squared error. For other patches the fitted circle has the smallest possible sum of squared residuals.", "quantifier": "all cylinders, sets of patches and triplets", "why_tests_cant": "it ranges over all real configurations", "anchors": ["src/features/primitives/cylinder_segment.cpp: Cylinder_Segment::Cylinder_Segment, Cylinder_Segment::run_ransac_loop"]}
{"id": "C128", "title": "The distance to a cylinder segment is the distance to its surface", "statement": "The distance of a point to a cylinder segment is its distance to the axis minus the radius, negative inside, and with several sub-segments the smallest of theirs.", "quantifier": "all points and cylinder segments with at least one sub-segment", "why_tests_cant": "it ranges over all real points", "anchors": ["src/features/primitives/cylinder_segment.cpp: Cylinder_Segment::get_distance"]}
{"id": "C129", "title": "Cylinder shapes can be compared and measured", "statement": "Similarity of two cylinder shapes is symmetric, does not depend on the direction chosen on the axes, and says that the angle between the axes is below 20 degrees. The distance of a point to a cylinder shape is its distance to the surface.", "quantifier": "all pairs of cylinders and points", "why_tests_cant": "it ranges over all real axes", "anchors": ["src/features/primitives/shape_primitives.cpp: Cylinder::is_similar, Cylinder::get_distance"]}
{"id": "C130", "title": "Merging keypoints into map points never ends the program", "statement": "Whatever the history of frames, images, keypoints, poses with a symmetric covariance and optimiser answers: merging a matched keypoint into a 3D or 2D map point, promoting a candidate, turning a 2D point into a 3D one and adding new points always return. At any time every point of the maps has a covariance (symmetric, without negative variance) and a descriptor, and a matched 3D point takes the descriptor of the keypoint if it has one.", "quantifier": "all histories of frames, images, keypoints, cameras and matching decisions", "why_tests_cant": "a crash needs one particular combination of pixel, depth, covariance and history", "anchors": ["src/map_management/map_features/map_point.cpp: MapPoint::update_with_match, StagedMapPoint, LocalMapPoint", "src/map_management/map_features/map_point2d.cpp: MapPoint2D::update_with_match, MapPoint2D::compute_upgraded", "src/tracking/point_with_tracking.cpp", "src/tracking/inverse_depth_with_tracking.cpp"]}
{"id": "C131", "title": "Merging a detected plane into a map plane never ends the program", "statement": "A map plane that passes the tests of the matching and is merged with the detection keeps a covariance, a normal of length one and a boundary with orthonormal axes, or is left unchanged; the program is not ended.", "quantifier": "all cameras, detected planes and map planes", "why_tests_cant": "it ranges over all real covariances; the failing case is a set of measure zero that no random test meets", "anchors": ["src/map_management/map_features/map_primitive.cpp: MapPlane::update_with_match, MapPlane::find_matches", "src/tracking/plane_with_tracking.cpp: Plane::track, Plane::update_boundary_polygon", "src/features/primitives/shape_primitives.cpp: Plane::is_normal_similar"]}
{"id": "C132", "title": "The points followed from image to image are matched, visible points of the map", "statement": "For every map and every sequence of random numbers, the points handed to the optical flow are exactly the 3D points of the local map (not of the staged one) that were matched in the last frame and are visible from the predicted pose, less those whose draw says to refresh them, at the position where they project, each once and under its own id; the positions lie in the image and in front of the camera; and an identifier found again in the next image is that of such a point, at the position where the flow has led it.", "quantifier": "all maps, reachable by any history, all predicted poses, all random numbers, all answers of the optical flow", "why_tests_cant": "The set followed depends on the whole history of the map and on random numbers; a wrong id attaches an observation to the wrong point silently.", "anchors": ["src/map_management/local_map.hpp:Local_Map::get_tracked_features", "src/map_management/feature_map.hpp:Feature_Map::get_tracked_features", "src/map_management/map_features/map_point.cpp:MapPoint::add_to_tracked", "src/features/keypoints/keypoint_detection.cpp:Key_Point_Extraction::compute_keypoints"]}
{"id": "C133", "title": "Every followed point is detected anew now and then", "statement": "A point that stays matched and visible is, in some frame, left out of the optical flow (one chance in ten per frame), so that its drift is corrected by a new detection.", "quantifier": "all infinite sequences of frames, all random generators that give small numbers again and again", "why_tests_cant": "It speaks of infinite runs and of the interplay of thread creation with the seeding of the random generator.", "anchors": ["src/map_management/map_features/map_point.cpp:MapPoint::add_to_tracked", "src/utils/random.hpp:Random::get_random_engine", "src/rgbd_slam.cpp:RGBD_SLAM::detect_features"]}
{"id": "C134", "title": "Features of the map never make the pose optimisation refuse a frame", "statement": "The pose optimisation refuses a whole frame as soon as one matched feature has a standard deviation that is not a number. At any time of any history the matches of 3D points of the map, and of planes accepted by the map, pass this test: the answer is that of the consensus search and of the variance estimation.", "quantifier": "all histories of frames, all matches, all answers of the search and of the variance estimation", "why_tests_cant": "A single negative variance after thousands of Kalman updates would stop the localisation for ever; whether one can appear depends on all histories.", "anchors": ["src/pose_optimization/pose_optimization.cpp:Pose_Optimization::compute_optimized_pose", "src/map_management/map_features/map_point.cpp:PointOptimizationFeature::is_valid", "src/map_management/map_features/map_primitive.cpp:PlaneOptimizationFeature::is_valid"]}
{"id": "C135", "title": "The poses found from three points solve the problem", "statement": "Given three unit rays and three distinct points, each pose returned by the solver is a rotation and a translation that move each point onto its ray, not behind the camera, and at most four poses are returned.", "quantifier": "all triples of unit rays and all triples of distinct points, in real arithmetic", "why_tests_cant": "the solver goes through a cubic root, an eigenvalue problem and two quadratic equations; tests try random scenes of one size", "anchors": ["third_party/p3p.cpp lambdatwist::p3p", "third_party/p3p.cpp compute_eig3x3known0", "third_party/p3p.cpp refine_lambda"]}
{"id": "C136", "title": "No pose that solves the three point problem is missed", "statement": "Given three unit rays and three points that are not aligned, every pose that moves the points onto their rays in front of the camera is returned by the solver.", "quantifier": "all triples of unit rays, triples of points and poses, in real arithmetic", "why_tests_cant": "the configurations where a division by zero occurs on the way have measure zero: random tests do not meet them, regular scenes do", "anchors": ["third_party/p3p.cpp lambdatwist::p3p", "third_party/p3p.hpp p3p"]}
{"id": "C137", "title": "The configured offset of the second camera is applied", "statement": "The transformation from the second camera to the first one translates by the configured offsets along x, y and z, and turns by the configured angles around the x, y and z axes.", "quantifier": "every offset", "why_tests_cant": "a wrong order of three numbers of the same type is invisible with equal or zero angles", "anchors": ["src/parameters.cpp Parameters::parse_file", "configuration_example.yaml camera_2_rotation_offset_x", "src/types.hpp EulerAngles", "src/utils/angle_utils.cpp get_quaternion_from_euler_angles"]}
{"id": "C138", "title": "Euler angles of an orientation give it back", "statement": "The angles reported for an orientation, given to the function that builds an orientation from angles, give the same rotation, including at the singularities of the angles.", "quantifier": "every unit orientation", "why_tests_cant": "the singular orientations have measure zero", "anchors": ["src/utils/angle_utils.cpp get_euler_angles_from_quaternion", "src/utils/angle_utils.cpp get_quaternion_from_euler_angles"]}
{"id": "C139", "title": "Errors between poses are distances", "statement": "The position error of two poses is the distance between their positions; the rotation error is the angle of the rotation from one to the other in degrees, between 0 and 180. Both are symmetric, and zero exactly for the same position and the same orientation, opposite quaternions included.", "quantifier": "every pair of poses", "why_tests_cant": "all poses", "anchors": ["src/utils/pose.cpp PoseBase::get_position_error", "src/utils/pose.cpp PoseBase::get_rotation_error"]}
{"id": "C140", "title": "An association file gives its frames and their ground truth", "statement": "With an association file, the dataset has a frame for each line that names two images, in the order of the file, and each frame gets the closest ground truth less than 0.05 s away, as without association file.", "quantifier": "every association file and ground truth file", "why_tests_cant": "all contents", "anchors": ["examples/TUM_parser.hpp DatasetParser::parse_association_file"]}
{"id": "C141", "title": "The saved trajectory has a line per treated frame", "statement": "The example program gives the tracker the frames kept by its options in order until the user quits, with depths in millimetres and images of the size of the camera, black or empty when a file is missing. The trajectory file has one line for each of them, with the pose that the tracker returned, and the end pose is the last one.", "quantifier": "every dataset, options, tracker and sequence of keys", "why_tests_cant": "all histories of keys and frames", "anchors": ["examples/main_TUM.cpp main", "examples/main_TUM.cpp check_user_inputs"]}
{"id": "C142", "title": "The reported error is the distance to the ground truth", "statement": "When the last treated frame has a ground truth, the program reports the distance in centimetres and the angle in degrees between the end pose and the ground truth of this frame; otherwise no error.", "quantifier": "every dataset, options, tracker and sequence of keys", "why_tests_cant": "depends on the units of a file that tests do not read", "anchors": ["examples/main_TUM.cpp main", "src/utils/pose.cpp PoseBase::get_position_error"]}
{"id": "C143", "title": "The tracker starts at the true pose", "statement": "The example program starts the tracker at the ground truth of the first frame of the dataset, in the units of the tracker.", "quantifier": "every dataset", "why_tests_cant": "depends on the units of a file that tests do not read", "anchors": ["examples/main_TUM.cpp main"]}
{"id": "C144", "title": "An outline that crosses itself is cut at its crossings", "statement": "Cutting the outline of a plane that crosses itself ends, gives closed loops that together have the area of the outline and does not read outside its tables. An outline without crossing is returned closed and clockwise.", "quantifier": "every outline, every list of its crossings", "why_tests_cant": "all outlines, and all orders of the crossings along them", "anchors": ["third_party/correct_boost_polygon.hpp dissolve_find_intersections", "third_party/correct_boost_polygon.hpp dissolve_generate_rings", "src/utils/polygon.cpp Polygon::Polygon"]}
{"id": "C145", "title": "The repaired polygon is the set of points with a non zero winding number", "statement": "A point is in the repaired polygon exactly when the outline turns around it a number of times that is not zero.", "quantifier": "every list of loops and every point", "why_tests_cant": "all nestings of the loops", "anchors": ["third_party/correct_boost_polygon.hpp fill_non_zero_winding"]}
{"id": "C146", "title": "Merging polygons keeps what they cover", "statement": "Adding polygons one by one to a list, with unions of the ones that meet, keeps the set of points that they cover, leaves polygons that are apart and never adds more polygons than there were.", "quantifier": "every list of polygons and every order", "why_tests_cant": "all lists", "anchors": ["third_party/correct_boost_polygon.hpp result_combine", "third_party/correct_boost_polygon.hpp result_combine_multiple"]}
{"id": "C147", "title": "Lines are built from separate groups of aligned pixels", "statement": "The line segment detector groups the pixels of an image that have a clear gradient. The grouping always ends. Each such pixel is in exactly one group, each group is in one piece, and a pixel joins a group only when the direction of its edge is at most 22.5 degrees away from the mean direction of the pixels already there, counted around the circle.", "quantifier": "every image of any size, every order the sort of the pixels can give, every group", "why_tests_cant": "Groups grow while they are walked through, over an image of any size, and the mean direction changes with each pixel. A test sees a few images, not the wrap around of angles at each place nor all orders of equal gradients.", "anchors": ["third_party/line_segment_detector.cpp: LSD::ll_angle, LSD::region_grow, LSD::isAligned", "src/features/lines/line_detection.cpp: Line_Detection::detect_lines"]}
{"id": "C148", "title": "A detected line is the best line of its pixels", "statement": "Detecting lines always returns, without a failed assertion, one segment for each group that is large enough. The segment lies on the line with the smallest weighted sum of squared distances to the pixels of the group, it covers the projections of all of them and no more, and it goes the way of the mean direction of the pixels.", "quantifier": "every image of any size, every order of its pixels, every scale", "why_tests_cant": "Whether the eigenvector formulas give a minimum, in all their degenerate cases, is a statement on all sets of pixels. The assertions guard against empty sums that only special images could give.", "anchors": ["third_party/line_segment_detector.cpp: LSD::detect, LSD::flsd, LSD::region2rect, LSD::get_theta"]}
{"id": "C149", "title": "Displaying the detected lines reads the depth inside the image", "statement": "Showing the detected lines over a depth image only reads the depth at pixels of that image, and tells lines with depth at both ends from lines without.", "quantifier": "every image, every line the detector returns for it, every depth image", "why_tests_cant": "The ends of a fitted segment are not pixels of the group: whether they can be out of the image depends on the shape and weights of the group.", "anchors": ["src/features/lines/line_detection.cpp: Line_Detection::get_image_with_lines", "third_party/line_segment_detector.cpp: LSD::region2rect"]}
{"id": "C150", "title": "Log lines are not mixed", "statement": "Whatever the threads of a program that call log, log_warning and log_error, and whatever their schedule: no call blocks for ever, every call returns, and each stream (standard output, standard error) receives whole lines, one for each call, those of a thread in the order of its calls.", "quantifier": "every number of threads, every list of calls of each of them, every schedule of the locks and of the nine insertions of each call", "why_tests_cant": "Depends on the interleaving of the threads; a test sees one schedule.", "anchors": ["src/outputs/logger.cpp: log, log_warning, log_error"]}
{"id": "C151", "title": "Geodesic dilation and erosion", "statement": "GeodesicDilation of a marker below a mask returns for every structuring element; with n iterations a pixel has the level v exactly when a walk of n steps of the element on pixels where the mask has the level v leads to a pixel where the marker has it; with a negative number, when a walk of any length does. GeodesicErosion is the same in the negatives.", "quantifier": "every image size, marker, mask, structuring element and number of iterations", "why_tests_cant": "The loop has no bound: whether it ends, and what it has reached, depends on every pixel.", "anchors": ["third_party/geodesic_operations.cpp: GeodesicDilation, GeodesicErosion"]}
{"id": "C152", "title": "Holes are filled", "statement": "fillHole returns the image in which a pixel is as dark as u exactly when a path of touching pixels as dark as u leads from it to the border of the image: holes are filled, all that is open to the border is kept.", "quantifier": "every image with at least one pixel, every content of the memory it allocates", "why_tests_cant": "Connectivity of an arbitrary image, and uninitialised memory that is often zero in a test.", "anchors": ["third_party/geodesic_operations.cpp: fillHole"]}
{"id": "C153", "title": "The example program for numbered images treats the frames it is asked for", "statement": "Run on a dataset of images numbered one by one, the example program gives to the tracker, in order, every frame whose number is at least the index option and is a multiple of the jump option (every one without jump), each with its own colour and depth image of the size of the camera, until the first of them that lacks an image or until the user quits. It then ends, the end pose it shows is the last pose of the tracker, the trajectory file has one line per treated frame with the pose of this frame, and the frame number it shows is that of the frame that lacks an image, or the one that follows the last treated frame when the user quits.", "quantifier": "all datasets (any set of files, readable or not), indices, jumps, keys of the user, trackers and rectifications", "why_tests_cant": "Depends on which of the numbered files exist, on when the user quits and on the tracker; a test covers one folder and one sequence of keys.", "anchors": ["examples/main_CAPE.cpp: main, load_images, check_user_inputs", "src/rgbd_slam.cpp: rectify_depth"]}
{"id": "C154", "title": "Trajectory files are named after the time of the run", "statement": "The trajectory file of an example program bears the date and the time at which the run started, so that runs of different datasets, or started at different seconds, never share a file.", "quantifier": "all times and dataset names", "why_tests_cant": "A test runs at one instant; the claim is about all pairs of instants.", "anchors": ["examples/main_CAPE.cpp: main", "examples/main_TUM.cpp: main"]}
{"id": "C155", "title": "Removing duplicates keeps each point once", "statement": "The removal of duplicates that precedes the search of a boundary gives a list with the same places as the points received and no place twice.", "quantifier": "all lists of points", "why_tests_cant": "Depends on how close the coordinates are to each other; a comparison with a tolerance is not an order on every list, which samples of separate points do not show.", "anchors": ["third_party/concave_fitting.cpp: RemoveDuplicates, PointsEqual, LessThan, Equal"]}
{"id": "C156", "title": "The boundary of a constant list is the boundary of its distinct points", "statement": "Searching the boundary of a list of points that must not change gives what the search gives on the list of its distinct points: each of them is a vertex or inside.", "quantifier": "all lists of points, all orders of the candidates of the search, all numbers of attempts", "why_tests_cant": "The vertex that goes wrong depends on the order in which the points are sorted; on points already sorted the search is right.", "anchors": ["third_party/concave_fitting.cpp: compute_concave_hull (constant dataset), RemoveDuplicates, RemovePoint, ConcaveHull"]}
{"id": "C157", "title": "The boundary is followed by the least turn", "statement": "At each vertex of a boundary under construction, the candidates are tried by increasing counterclockwise turn from the direction back to the previous vertex (from the direction of the first axis at the first vertex), and none of them is lost.", "quantifier": "all sets of candidates, all vertices and previous vertices", "why_tests_cant": "A continuum of directions, with ties and near ties; tests use a few polygons.", "anchors": ["third_party/concave_fitting.cpp: SortByAngle, Angle, NormaliseAngle, ConcaveHull"]}
{"id": "C158", "title": "Two lines intersect where they meet", "statement": "The intersection test of two segments, or of two lines, in two or three dimensions, returns true exactly when they have a point in common, and then gives such a point.", "quantifier": "all pairs of segments and of lines, in two and three dimensions", "why_tests_cant": "A continuum of pairs; where the common point is relative to the starting points of the lines decides the answer.", "anchors": ["src/utils/line.cpp: intersects", "src/utils/line.hpp: ILine, Segment, Line"]}
{"id": "C159", "title": "Refined lines are dense", "statement": "With the standard refinement, the detection of line segments always returns. Each line comes from a group of two pixels or more with a clear gradient, the groups share no pixel, the segment is the best line of its group, and the group fills its rectangle to the density asked for. The pixels that a refinement drops are free for other lines, and groups that are dense enough from the start are not changed.", "quantifier": "all images, orders of the pixels, scales and density thresholds", "why_tests_cant": "Termination and disjointness depend on which pixels each refinement releases; the loop shrinks a radius until a density is met, for every image.", "anchors": ["third_party/line_segment_detector.cpp: LSD::flsd, LSD::refine, LSD::reduce_region_radius, LSD::region_grow, LSD::region2rect"]}
{"id": "C160", "title": "A line is as meaningful as its aligned pixels are unlikely", "statement": "The value computed for a rectangle with k aligned pixels of n is minus the logarithm of the number of tests times the probability that at least k of n pixels are aligned by chance.", "quantifier": "all numbers of pixels, of aligned pixels, probabilities and numbers of tests", "why_tests_cant": "A numeric formula over all n, k and p; an error in one term leaves the trivial cases right.", "anchors": ["third_party/line_segment_detector.cpp: LSD::nfa"]}
{"id": "C161", "title": "Random numbers of a thread depend on the seed only", "statement": "The random numbers a thread gets depend on the seed and on what this thread asked for before, not on the other threads nor on the order in which the threads run.", "quantifier": "all numbers of threads, interleavings of their requests, and seeds", "why_tests_cant": "Interleavings cannot be enumerated by tests, and a shared engine gives the same numbers in most runs.", "anchors": ["src/utils/random.hpp: Random::get_random_double, get_random_uint, get_normal_double"]}
{"id": "C162", "title": "The threads of the pose search try different subsets", "statement": "The iterations of a pose search draw their subsets of features from successive random numbers, so that more iterations try more subsets, on any number of threads.", "quantifier": "all distributions of the iterations over threads and all generators", "why_tests_cant": "The number of threads and the distribution of the iterations are chosen at run time by the scheduler.", "anchors": ["src/utils/random.hpp: Random", "src/pose_optimization/pose_optimization.cpp: compute_pose_with_ransac"]}
{"id": "C163", "title": "The planes and cylinders of a frame depend on this frame only", "statement": "A detector gives for a frame the planes and cylinders a new detector gives for it, whatever the frames it treated before; the results are a function of the depth image and of the seed.", "quantifier": "all histories of frames, frames and seeds", "why_tests_cant": "The detector reuses its grid, histogram, masks and lists of planes; a missing reset shows only for some sequences of frames.", "anchors": ["src/features/primitives/primitive_detection.cpp: Primitive_Detection::find_primitives, reset_data, init_planar_cell_fitting", "src/features/primitives/plane_segment.cpp: Plane_Segment::init_plane_segment, clear_plane_parameters"]}
{"id": "C164", "title": "Trackers for cameras of different sizes in one program", "statement": "A tracker searches the whole of its images for keypoints, also in a program that used other trackers before.", "quantifier": "all sequences of trackers, image sizes and images", "why_tests_cant": "Depends on the history of the program; tests that use one image size never meet it.", "anchors": ["src/features/keypoints/keypoint_detection.cpp: Key_Point_Extraction::Key_Point_Extraction, perform_keypoint_detection, compute_key_point_mask"]}
{"id": "C165", "title": "The keypoints given for a frame are those of this frame", "statement": "The positions, depths, descriptors and identifiers of the keypoints of a frame are those of this frame, whatever the frames treated before, although they are kept in one variable for the whole program.", "quantifier": "all histories of frames", "why_tests_cant": "A missing reset shows only after some sequences of frames.", "anchors": ["src/features/keypoints/keypoint_detection.cpp: compute_keypoints", "src/features/keypoints/keypoint_handler.cpp: Keypoint_Handler::set, clear"]}
{"id": "C166", "title": "A detected plane has a covariance", "statement": "Every segment that the fit accepts as a plane has a valid covariance, symmetric and positive definite, which is the inverse of the sum of the squares of its points: building a plane and adding it to the result never throws nor ends the program.", "quantifier": "all sets of points accepted as a plane", "why_tests_cant": "A cloud with a singular sum of squares must be excluded for all clouds.", "anchors": ["src/features/primitives/plane_segment.cpp: get_point_cloud_covariance", "src/features/primitives/shape_primitives.cpp: Plane::Plane", "src/features/primitives/primitive_detection.cpp: add_planes_to_primitives"]}
{"id": "C167", "title": "The debug image shows the features of the map where the camera sees them", "statement": "On the debug image, a map point is drawn exactly when it is in front of the camera and in the image, at its pixel, with a red centre when it is not matched; a point without depth is drawn exactly when it is visible, by a segment of its projection in the image; a plane is drawn only if matched, by its sides in front of the camera; nothing is drawn of a map that is not activated, and staged features only on request. Drawing never has an undefined behaviour.", "quantifier": "all features, poses, image sizes and maps", "why_tests_cant": "The positions are all those of space.", "anchors": ["src/map_management/map_features/map_point.cpp: MapPoint::draw", "src/map_management/map_features/map_point2d.cpp: MapPoint2D::draw", "src/map_management/map_features/map_primitive.cpp: MapPlane::draw", "src/coordinates/polygon_coordinates.cpp: CameraPolygon::display", "src/map_management/feature_map.hpp: draw_on_image"]}
{"id": "C168", "title": "The value of a line counts the pixels of its rectangle", "statement": "With the advanced refinement, the value of a line is computed from the pixels of the image that lie in its rectangle: each of them is counted once, and no other pixel is.", "quantifier": "all sizes of images, all rectangles", "why_tests_cant": "the pixels are found by a walk along the sides of a rotated rectangle; a test checks a few rectangles", "anchors": ["third_party/line_segment_detector.cpp: rect_nfa"]}
{"id": "C169", "title": "Improving a line never makes it worse", "statement": "The improvement of a line returns the value of the rectangle it leaves, which is not below that of the first rectangle. A meaningful rectangle is left as it is. The new rectangle lies in the first one, in the same direction, and is at least half a pixel wide if it was made thinner; when it is not meaningful at first, no precision halved up to five times gives a better value, and when nothing better is found no rectangle thinner by up to five half pixels, on both sides or on one of them, has a better value.", "quantifier": "all images, all rectangles, all thresholds", "why_tests_cant": "each improvement depends on the ones before and on the image; a test follows one path", "anchors": ["third_party/line_segment_detector.cpp: rect_improve"]}
{"id": "C170", "title": "Advanced refinement keeps the meaningful lines", "statement": "With the advanced refinement, the detection of line segments always returns, with lines of value above the threshold. Each line comes from a group of two pixels or more with a clear gradient, that fills the rectangle of its best segment to the density asked for; the rectangle of the line lies in that one. The groups share no pixel. They are groups of the standard refinement, and each one whose rectangle is meaningful is found.", "quantifier": "all images, all thresholds, all orders of the pixels", "why_tests_cant": "ending, and that no assertion fails, must hold for every image", "anchors": ["third_party/line_segment_detector.cpp: flsd, rect_improve, refine"]}
{"id": "C171", "title": "Lines at several scales are placed in the image", "statement": "Detecting lines at several scales, with any reduction factor and with a mask or without one, returns key lines whose ends are in the image, at the place of the segment found in the reduced image. With a mask one end at least is on it, and each segment with an end on it is kept. Length, middle, direction and response are those of the segment, the size is the area around it, and the identifiers increase.", "quantifier": "all sizes of images, all numbers of scales, all segments found, all masks", "why_tests_cant": "the places are clamped, scaled and looked up in the mask for each scale; a test has one image", "anchors": ["third_party/line_segment_detector.cpp: detect, computeGaussianPyramid, checkLineExtremes"]}
{"id": "C172", "title": "Comparing lines counts the pixels that differ", "statement": "Comparing two sets of lines returns the number of pixels covered by one set only. It is a distance: zero between a set and itself, symmetric, and with the triangle inequality. The optional image shows the first set in blue and the second in red, and its other pixels are left as they are.", "quantifier": "all sets of lines, all sizes of images", "why_tests_cant": "the triangle inequality and the colours must hold for all sets of lines", "anchors": ["third_party/line_segment_detector.cpp: compareSegments"]}
{"id": "C173", "title": "The consistency checks of the map never stop the tracker", "statement": "Whatever the frames, poses, detections and matches, a run of the tracker in which every internal check of the map is active (each feature stored under its own id, a new candidate never replaces another, each frame updates the map with the detections it was matched with, every match flag that is written exists) gives the same poses and the same map as a run without the checks: none of them ever fires, provided that fewer than 2^64 ids were given and that the pose optimisation only rejects matches it received. A map update with another set of detections than the one last searched is refused.", "quantifier": "all histories of frames, all detections produced by the keypoint handler, all feature geometries, poses, optimiser answers and orders of the match list", "why_tests_cant": "the checks compare state built over the whole history (ids, match flags, the last detections searched); a test runs a few frames", "anchors": ["src/map_management/feature_map.hpp: get_matches, update_local_map, update_staged_map, add_detected_feature_to_staged_map, mark_feature_with_id_as_unmatched, get_upgraded_features", "src/map_management/local_map.hpp: find_feature_matches, update, add_all_features_to_map", "src/matches_containers.hpp: DetectedFeatureContainer", "src/rgbd_slam.cpp: compute_new_pose"]}
{"id": "C174", "title": "The statistics printed at the end are the means of the measured times and their percentages are shares", "statement": "show_statistics prints, for an object that has treated at least one frame, one line for each stage with the mean time of that stage over the frames of that object and the percentage of the mean frame time given by the caller; nothing is printed for an object without frame. With a clock that never goes back every percentage is between 0 and 100, the stages that run one after the other add up to at most 100, and the details of a stage add up to at most 100 percent of that stage.", "quantifier": "every history of calls of track on any number of objects of the process, every reading of the clock that does not go back, every interleaving of the two detections and of the iterations of RANSAC", "why_tests_cant": "The readings of the clock, the frames, the failures of a stage and the overlap of threads vary from run to run; a test sees one run, and the counters shared between objects show only when a process has several.", "anchors": ["src/rgbd_slam.cpp: RGBD_SLAM::show_statistics, get_percent_of_elapsed_time, RGBD_SLAM::track", "src/features/keypoints/keypoint_detection.cpp: show_statistics, compute_keypoints", "src/features/primitives/primitive_detection.cpp: show_statistics, find_primitives", "src/features/lines/line_detection.cpp: show_statistics", "src/map_management/local_map.hpp: show_statistics", "src/pose_optimization/pose_optimization.cpp: show_statistics, compute_pose_with_ransac, compute_pose_variance"]}
{"id": "C175", "title": "The random searches try often enough for the requested probability", "statement": "The number of tries of the search of the pose and of the search of cylinders is the least one with which, for the configured proportion of inliers, at least one try is made of inliers only with the configured probability of success; every setting accepted when the program is compiled gives such a number.", "quantifier": "every requested probability, proportion of inliers and number of features, in particular all those accepted when the program is compiled", "why_tests_cant": "The claim is about the probability over all outcomes of the random tries, for every setting; a run shows one outcome for one setting.", "anchors": ["src/pose_optimization/pose_optimization.cpp: compute_pose_with_ransac (maximumIterations)", "src/features/primitives/cylinder_segment.cpp: run_ransac_loop, constructor (maximumIterations)", "src/parameters.hpp: probabilityOfSuccess, inlierProportion, featureTrustCount, cylinderRansacInlierProportions, cylinderRansacProbabilityOfSuccess", "src/parameters.cpp: check_parameters_validity (static_assert)"]}
{"id": "C176", "title": "The loops cut out of an outline turn around every point as often as the outline", "statement": "An outline that crosses itself is cut into closed loops. Around every point, the numbers of turns of the loops add up to the number of turns of the outline, which is taken clockwise.", "quantifier": "every outline in general position and every point", "why_tests_cant": "all outlines, with any number of crossings, and all points", "anchors": ["third_party/correct_boost_polygon.hpp: dissolve_find_intersections, dissolve_generate_rings"]}
{"id": "C177", "title": "With the odd-even rule, the repaired polygon is the set of points with an odd number of loops around", "statement": "With the odd-even rule, a point is in the repair of a list of polygons exactly when an odd number of the loops of their outlines and holes are around it.", "quantifier": "every list of polygons with holes, every number of loops and every point", "why_tests_cant": "all numbers of loops, which are combined by halves", "anchors": ["third_party/correct_boost_polygon.hpp: fill_odd_even, correct_odd_even"]}
{"id": "C178", "title": "The holes are cut out of the repaired polygons", "statement": "A point is in the repair of a list of polygons exactly when the outline of one of them turns around it, and none of the holes of this polygon does.", "quantifier": "every list of polygons with any number of holes, and every point", "why_tests_cant": "all lists of polygons and holes", "anchors": ["third_party/correct_boost_polygon.hpp: correct, fill_non_zero_winding, result_combine_multiple"]}
{"id": "C179", "title": "The outline fitted to the points of a plane is a valid polygon", "statement": "Fitting a polygon to three points or more of a plane with a unit normal always succeeds and gives a polygon of this plane around the given centre; the polygon is valid whenever the geometry library finds a valid hull of the points or a valid repair of it; a valid concave hull is kept, except for corners that the simplification removes, and then at least three quarters of its area are left", "quantifier": "every list of three points or more, every unit normal, every centre, every behaviour of the geometry library", "why_tests_cant": "the hull depends on every arrangement of the points, and on the answers of the geometry library", "anchors": ["src/utils/polygon.cpp: Polygon::Polygon, Polygon::simplify"]}
{"id": "C180", "title": "A fused map feature is the best compromise between the map and the detection", "statement": "The update of a feature that does not move gives the one value for which the squared disagreements (in standard deviations) with the predicted value and with the detection have the least sum, and the inverse of its covariance is the sum of the inverses of the two covariances", "quantifier": "every dimension, value, detection, covariance and positive process noise (exact arithmetic)", "why_tests_cant": "optimality is a claim about all the other values", "anchors": ["src/tracking/kalman_filter.hpp: get_new_state", "src/tracking/point_with_tracking.cpp: track"]}
{"id": "C181", "title": "A map point that is seen again and again at one place goes there", "statement": "A map point detected n times at the same place, with valid covariances that may change but whose variances stay below a bound r in every direction, is tracked without error; its squared distance to this place is at most 1000 r (r / (r + 0.001))^(n-1) times the first one, so that it tends to 0", "quantifier": "every point, valid covariance, place, number of detections and sequence of covariances (exact arithmetic)", "why_tests_cant": "a limit over sequences of any length", "anchors": ["src/tracking/point_with_tracking.cpp: track", "src/tracking/kalman_filter.hpp: get_new_state"]}
{"id": "C182", "title": "The choice of the world frame does not matter", "statement": "Nothing in a run depends on where the user puts the origin of the world or how they turn its axes: if the map and the pose are moved together by a rigid motion, every match has the same error, the same matches are inliers, and a feature of the map is fused with a new detection to the moved version of what it would have been.", "quantifier": "every rotation and translation of the world, every list of matches of points, points without depth and planes, every pose and its moved version, every map feature with its covariance and every detection", "why_tests_cant": "tests run in one world frame; the claim ranges over all rigid motions and all maps", "anchors": ["src/coordinates/point_coordinates.cpp: get_signed_distance_2D_px", "src/coordinates/plane_coordinates.cpp: get_reduced_signed_distance, to_camera_coordinates", "src/tracking/point_with_tracking.cpp: track", "src/tracking/plane_with_tracking.cpp: track", "src/pose_optimization/levenberg_marquardt_functors.cpp: operator()"]}
{"id": "C183", "title": "The line detector follows the strongest edges first", "statement": "Whatever images were given to a line detector before, a detection considers every pixel that has a gradient exactly once, never a pixel of an earlier image, and gives the lines a new detector would give. It takes the pixels from the strongest gradient to the weakest, up to the size of a bin (the strongest gradient of the image divided by the number of bins but one): each line is followed from its strongest pixel, and the lines are found from the one with the strongest pixel to the weakest.", "quantifier": "every sequence of images given to one detector, every number of bins, every order in which std::sort may leave pixels of equal bins", "why_tests_cant": "the order depends on all the pixels of all the images and on an unspecified order of equal elements; tests see a few images and one standard library", "anchors": ["third_party/line_segment_detector.cpp: ll_angle, detect, flsd", "third_party/line_segment_detector.hpp: compare_norm"]}
{"id": "C184", "title": "The map does not depend on the order in which its features are stored", "statement": "The features of a map are kept in hash tables, whose iteration order is not specified. The map a sequence of calls builds (the features, their ids, their states, their matches, and what is exported) does not depend on that order. This is the case as long as no two features can be matched with the same detection: the tables may be reordered at any time. In particular two map points do not interfere when one of them is tracked by optical flow, or when they project more than 60 pixels apart. It is not the case when two untracked map points compete for one keypoint: the one that is visited first gets it.", "quantifier": "every history of calls, every way to reorder the tables between the calls, every kind of feature", "why_tests_cant": "Tests see one iteration order, the one of the standard library they are built with; the claim is about all of them.", "anchors": ["src/map_management/feature_map.hpp: get_matches, update_map, update_with_no_tracking, add_features_to_staged_map, mark_outliers_as_unmatched, get_upgraded_features, add_upgraded_features", "src/map_management/map_features/map_point.cpp: find_matches", "src/features/keypoints/keypoint_handler.cpp: get_match_indexes"]}
{"id": "C185", "title": "A still camera recognises its map", "statement": "In front of a scene that does not change, with at least five keypoints of known depth that can be told apart and no plane, a camera that does not move adds one candidate per keypoint on its first frame; on every later frame each of them is found again in its own keypoint and the frame is tracked. From the fourth frame on the map holds exactly one map feature per keypoint and nothing else; no further id is ever given, and the pose does not change.", "quantifier": "all numbers of frames, all sets of keypoints and descriptors, all image sizes, all orders of the match list", "why_tests_cant": "It speaks of every number of frames and of every arrangement of keypoints; a test shows one scene for some frames.", "anchors": ["src/rgbd_slam.cpp: compute_new_pose", "src/map_management/local_map.hpp: find_feature_matches, update, add_all_features_to_map", "src/map_management/feature_map.hpp: get_matches, update_map, add_features_to_staged_map", "src/features/keypoints/keypoint_handler.cpp: get_match_indexes"]}
{"id": "C186", "title": "Matches without any error are all kept", "statement": "When no association is wrong and the errors are small, so that every sufficient subset of the matches gives a pose with which all the matches agree, the estimation of the pose succeeds: it keeps every match and rejects none, for every interleaving of the parallel iterations and every random draw, in the default and in the deterministic build. In particular a camera that does not move, and whose minimisation stays where it is, gets its own pose back with no outlier.", "quantifier": "all sets of matches of total score at least 1, all minimisers and inlier tests that satisfy the assumption, all numbers of iterations but 0, all draws and interleavings", "why_tests_cant": "The number of interleavings and draws is unbounded, and the races on the best score are not reproducible", "anchors": ["src/pose_optimization/pose_optimization.cpp: compute_pose_with_ransac, compute_optimized_pose, get_features_inliers_outliers, get_random_subset, compute_optimized_global_pose"]}
{"id": "C187", "title": "A moving camera makes one map feature per scene point", "statement": "A camera moves in front of at least five scene points. The first frame detects them, all with a known depth; every later frame detects them again at most 30 pixels from where the previous pose puts them, or follows them by optical flow, and the pose estimation rejects nothing. Then however long the trip is, every frame but the first is tracked and returns the estimated pose, and the map holds exactly one feature per scene point, with the ids 1, 2, and so on: a candidate on the first three frames, a map feature from then on. Nothing is duplicated, lost or exported.", "quantifier": "all trips of any length, all poses, all mixtures of frames with new and with followed keypoints, all scenes, descriptors and merging functions that keep the map points recognisable", "why_tests_cant": "The property is about every length and every path of the camera", "anchors": ["src/rgbd_slam.cpp: track, compute_new_pose", "src/map_management/local_map.hpp: find_feature_matches, update, add_features_to_map", "src/map_management/feature_map.hpp: get_matches, update_map, add_features_to_map", "src/features/keypoints/keypoint_handler.cpp: get_tracking_match_index, get_match_indexes"]}
{"id": "C188", "title": "A point without depth that is seen again and again at one place goes there", "statement": "A map point that was first seen without depth and is merged n times with detections at the same place, with valid covariances that may change but whose variances stay below a bound r in every direction, has then a squared distance to this place of at most 10000 r (r / (r + 0.0001))^(n-1) times the first one, so that it tends to 0; a merge can fail only if the compromise is exactly above or below the place the point was first seen from", "quantifier": "every point without depth with a valid covariance, every place, number of merges and sequence of covariances (exact arithmetic)", "why_tests_cant": "a limit over sequences of any length, through two conversions of coordinates and of covariances at each step", "anchors": ["src/tracking/inverse_depth_with_tracking.cpp: update_with_cartesian, compute_cartesian_covariance, compute_inverse_depth_covariance", "src/coordinates/inverse_depth_coordinates.cpp: from_cartesian, to_world_coordinates", "src/tracking/kalman_filter.hpp: get_new_state"]}
{"id": "C189", "title": "A detection makes a point without depth more certain", "statement": "After a map point without depth was merged with a detection, its uncertainty in each direction is at most the one of the detection, and at most the one before the merge up to the noise of the process", "quantifier": "every point without depth with a valid covariance, every detection with a valid covariance, every direction", "why_tests_cant": "it is a statement about all covariances; the error is small when the first pose is well known", "anchors": ["src/tracking/inverse_depth_with_tracking.cpp: update_with_cartesian, compute_cartesian_covariance, compute_inverse_depth_covariance"]}
{"id": "C190", "title": "A camera that does not move does not find out depths", "statement": "A point that was never seen with a depth is not made a 3D point of the map as long as the camera has not moved, however often it is seen: nothing is known of its distance", "quantifier": "every camera and pose with a valid covariance, every pixel, every number of frames", "why_tests_cant": "it must hold for any number of frames; the failure needs hundreds of frames", "anchors": ["src/tracking/inverse_depth_with_tracking.cpp: track, PointInverseDepth", "src/map_management/map_features/map_point2d.cpp: update_with_match, compute_upgraded, compute_linearity_score", "src/coordinates/inverse_depth_coordinates.cpp: InverseDepthWorldPoint"]}
{"id": "C191", "title": "A map point seen without depth keeps its distance", "statement": "When a 3D map point is matched with a keypoint for which the sensor gave no depth, nothing was measured about its distance to the camera: the map keeps the distance it knew.", "quantifier": "every camera pose and covariance, every 3D map point and covariance, every pixel, every number of such matches", "why_tests_cant": "The drift of one match is a fraction of a percent, below any test tolerance; what the repetition of the matches tends to is a limit.", "anchors": ["src/map_management/map_features/map_point.cpp: MapPoint::update_with_match", "src/tracking/inverse_depth_with_tracking.cpp: PointInverseDepth", "src/tracking/point_with_tracking.cpp: Point::track"]}
{"id": "C192", "title": "A plane seen at every frame enters the map", "statement": "When the camera stands in front of an unchanging scene and the same planes are detected at every frame, every one of these planes is recognised at every frame, becomes a plane of the map at the fifth frame and stays in it under one identifier; the map holds one plane for each of them and no other, and the list of candidates stays bounded.", "quantifier": "every number of detected planes, every number of frames, every way of scoring the overlap for which a map plane only recognises its own detection, every state of the identifier counter short of 2^64", "why_tests_cant": "how many frames and planes there are is unbounded, and the candidate that replaces an unrecognised one is created and dropped over several frames, so that no number of frames tried tells what the map is at the next one", "anchors": ["src/map_management/map_features/map_primitive.cpp: MapPlane::find_matches, StagedMapPlane", "src/map_management/feature_map.hpp: get_matches, update_map, add_features_to_staged_map"]}
{"id": "C193", "title": "Measurements without error give no drift", "statement": "When the camera starts at its true pose and moves in front of at least five scene points whose pixels and depths are measured without error, and the pose optimisation finds a pose without reprojection error, then every pose returned by track() puts the camera at its true place, however long the trip is, every frame but the first is tracked, and the map holds exactly one feature per scene point, whose coordinates are exactly those of the scene point.", "quantifier": "every number of frames and scene points (5 to 2^64 - 1), every trajectory and every scene whose pixels determine the pose, frames with new keypoints (less than 30 pixels from where the previous pose puts them) and frames with followed keypoints in any order, every covariance of the poses", "why_tests_cant": "it is an induction over an unbounded sequence of frames in which each pose comes from the map and each update of the map from the pose", "anchors": ["src/rgbd_slam.cpp: track, compute_new_pose", "src/map_management/map_features/map_point.cpp: update_with_match", "src/tracking/point_with_tracking.cpp: track", "src/coordinates/point_coordinates.cpp: to_world_coordinates", "src/map_management/local_map.cpp: find_feature_matches, update"]}
{"id": "C194", "title": "A plane measured without error stays where it is", "statement": "If a wall is measured without error by every camera that sees it, then the first detection puts a plane exactly where the wall is, and the plane stays exactly there however often, in whatever order and from wherever it is detected again. No update ends the program, and an update is refused only when the wall passes through the origin of the world or the centre of the camera.", "quantifier": "all walls, all camera positions, orientations and covariances, all finite sequences of detections without error, all valid covariances of the map plane, and every way of merging boundaries that returns", "why_tests_cant": "the sequences of viewpoints and covariances are unbounded; a test runs a few updates with a few covariances", "anchors": ["src/map_management/map_features/map_primitive.cpp: MapPlane::update_with_match, StagedMapPlane, LocalMapPlane", "src/tracking/plane_with_tracking.cpp: Plane::track, update_boundary_polygon", "src/coordinates/plane_coordinates.cpp: to_world_coordinates"]}
{"id": "C195", "title": "A few frames without any detection do not cost the map", "statement": "Once the map is established, frames in which nothing is detected (covered lens, darkness, motion blur) cost neither the map nor the pose: up to ten of them in a row return the last pose, and the frames that see the scene again near that pose are tracked at once, with the same map features at the same places; the eleventh blind frame in a row empties the map, and every map feature is then written to the output exactly once.", "quantifier": "all scenes of at least 5 points, all camera trips, all sequences of seeing and blind frames with at most ten blind ones in a row, of any length", "why_tests_cant": "a test covers the lens once; whether the map survives depends on counters that every interleaving of seeing and blind frames moves, over sequences of any length", "anchors": ["src/rgbd_slam.cpp: RGBD_SLAM::compute_new_pose", "src/map_management/feature_map.hpp: update_with_no_tracking, update_local_map_with_no_tracking, get_matches", "src/map_management/map_features/map_point.cpp: LocalMapPoint::is_lost, MapPoint::find_matches", "src/map_management/local_map.hpp: Local_Map::update_no_pose, Local_Map::add_all_features_to_map"]}
{"id": "C196", "title": "The exported map of a run without error is the scene", "statement": "When every measurement is exact and the program ends after at least four frames that see the scene, the exported map file has one vertex per scene point, at its true place, and nothing else; this is still so when the camera was blinded for so long that the map was given up.", "quantifier": "every scene of points with depth, every route of the camera and journey with blind frames, every printed form of the numbers", "why_tests_cant": "A test compares one file of one run; whether each point is written exactly once depends on the whole history of the map and on when it was dropped.", "anchors": ["src/map_management/local_map.hpp: Local_Map::~Local_Map", "src/map_management/feature_map.hpp: destroy", "src/map_management/map_features/map_point.cpp: MapPoint::write_to_file", "src/map_management/map_features/map_point2d.cpp: MapPoint2D::write_to_file", "src/map_management/map_features/map_primitive.cpp: MapPlane::write_to_file", "src/outputs/map_writer.cpp: OBJ_Map_Writer::add_point"]}
{"id": "C197", "title": "The error of a map point stays bounded by that of its detections", "statement": "A map point of a scene point that does not move is never farther from it than a bound given by the errors of its detections, however many detections there are and however their errors conspire; with covariances that are the same in all directions it is never farther than its farthest detection.", "quantifier": "every true place, every list of detections of it with bounded errors and covariances of bounded variances", "why_tests_cant": "A test samples random errors of zero mean; the bound has to hold for biased and correlated errors and for histories of any length.", "anchors": ["src/tracking/point_with_tracking.cpp: PointWithTracking::track", "src/tracking/kalman_filter.hpp: get_new_state"]}
{"id": "C198", "title": "The walls of a room enter the map, exactly where they are", "statement": "A camera that moves freely in a room and measures every wall without error has, from the fifth frame on, every wall in its map of planes, exactly where the wall is; the map holds nothing else.", "quantifier": "all rooms, all motions of the camera that keep the walls in view, all numbers of frames, all covariances of the measurements", "why_tests_cant": "a test follows one recorded motion in one scene; the claim is about every motion and every room", "anchors": ["src/map_management/map_features/map_primitive.cpp: find_matches, update_with_match, StagedMapPlane, LocalMapPlane", "src/map_management/feature_map.hpp: get_matches, update_map, add_features_to_staged_map", "src/tracking/plane_with_tracking.cpp: track"]}
{"id": "C199", "title": "The map of a long run stays bounded", "statement": "However long the run, whatever the camera sees and whatever the pose optimisation answers: if no frame ever has more than n keypoints and m planes, then after every frame the map holds at most 11 n points without depth, 132 n points with depth and 10 m planes, candidates included. (Provided that copying a candidate into the map does not throw and that fewer than 2^64 ids were given.)", "quantifier": "every number of frames, every sequence of detections, poses, outliers and failures of the optimisation, every n and m", "why_tests_cant": "the number of features depends on the whole history of matches, misses, promotions and upgrades; a leak of one feature per frame shows only in long runs", "anchors": ["src/map_management/feature_map.hpp: update_local_map, update_staged_map, add_features_to_staged_map, update_with_no_tracking, size", "src/map_management/local_map.hpp: find_feature_matches, update, update_no_pose, add_all_features_to_map", "src/rgbd_slam.cpp: compute_new_pose", "src/map_management/map_features/map_point.cpp: is_lost, should_remove_from_staged", "src/map_management/map_features/map_primitive.cpp: is_lost, should_remove_from_staged"]}
{"id": "C200", "title": "Without a pose for eleven frames nothing is left of the map", "statement": "After eleven frames in a row for which no pose was found (ten for planes), whatever the run was before and whatever these frames detected, no feature of the former map is left, neither as map feature nor as candidate; each map feature was written to the output exactly once, as it was when the last pose was found, and nothing else was written; the pose returned meanwhile is the last one found, and the tracking is reported as lost.", "quantifier": "every run of the program (any detections, poses, optimiser answers) followed by any number of frames without a pose", "why_tests_cant": "holds for every history and every content of the map, not for one sequence of images", "anchors": ["src/map_management/feature_map.hpp: update_with_no_tracking, update_local_map_with_no_tracking, update_staged_map_with_no_tracking, add_all_features_to_staged_map", "src/map_management/local_map.hpp: update_no_pose, add_all_features_to_map", "src/rgbd_slam.cpp: compute_new_pose"]}
{"id": "C201", "title": "A camera that lost everything is tracked again", "statement": "After any run of the program, let at least eleven frames detect nothing, and then let the camera see at least five scene points of known depth and no planes.  The dark frames and the first frame that sees return the last pose.  The first frame that sees starts a new map, with ids that were never given before.  If in each later frame the points are detected within 30 pixels of where the previous pose puts them, or followed by the optical flow, and the optimiser gives a pose with no outlier, then every later frame is tracked and returns that pose, and the map holds exactly one feature per scene point.  The features of the map from before the loss were each written to the output exactly once, and nothing else was.", "quantifier": "every run before the loss (any detections, poses, maps), every number of dark frames from eleven on, every scene with at least five points, every trip of any length after it", "why_tests_cant": "A test replays one loss with one map and one number of dark frames; that nothing of any earlier map, of any id given before and of any counter disturbs the new start holds for all histories only.", "anchors": ["src/rgbd_slam.cpp: RGBD_SLAM::track, compute_new_pose", "src/map_management/local_map.hpp: Local_Map::add_all_features_to_map, update_no_pose", "src/map_management/feature_map.hpp: Feature_Map::update_with_no_tracking, add_features_to_staged_map, get_matches"]}
{"id": "C202", "title": "After a loss the poses and the map are those of the scene", "statement": "Let all measurements be exact, and let the camera see nothing for eleven frames or more and then see the scene again.  The poses returned from then on are the true places of the camera, and the new map points are where the scene points are.  (False of the code if the camera moves in the dark: then all poses and all map points after the loss are moved by the one rigid motion that takes the true place of the camera to its last known pose.)", "quantifier": "every run before the loss, every number of dark frames from eleven on, every rigid movement in the dark, every scene with at least five points, every trip of any length after it", "why_tests_cant": "A test replays one movement and one scene; that the whole rest of the run is displaced by one and the same motion, or by none, holds for all of them only.", "anchors": ["src/rgbd_slam.cpp: RGBD_SLAM::track, compute_new_pose", "src/map_management/local_map.hpp: Local_Map::add_all_features_to_map", "src/map_management/map_features/map_point.cpp: MapPoint::update_with_match"]}
{"id": "C203", "title": "A scene point is at most once in the map", "statement": "Take a run in which every feature of the map is recognised in the keypoint of the scene point it shows, and in no other, and in which no match is rejected as an outlier. Then no scene point is in the map twice, as a candidate or as a feature, and after each tracked frame every scene point that the frame shows is in the map. In the code this fails in two ways: a frame without a pose that reseeds the candidates while the map is still there adds every scene point again, and a right match that is taken for an outlier adds its keypoint again.", "quantifier": "every sequence of frames, every set of scene points, every order of the keypoints, every pose, every kind of loss", "why_tests_cant": "A duplicate appears only after a history of frames, losses and rejected matches; a test replays one history.", "anchors": ["src/map_management/feature_map.hpp: get_matches, update_map, add_features_to_staged_map, update_with_no_tracking", "src/map_management/local_map.cpp: find_feature_matches, update, update_no_pose, add_features_to_map", "src/rgbd_slam.cpp: compute_new_pose"]}
{"id": "C204", "title": "A wall that fills the image is found as one plane", "statement": "When the camera faces a wall that fills the depth image, whatever images were treated before, the detection gives one plane that covers the whole image, and no cylinder. A cell of the grid whose points are all measured and lie close to a plane is accepted as planar.", "quantifier": "every sequence of depth images treated before, every size of the grid, every cloud of the wall, and every choice of the numerical thresholds", "why_tests_cant": "A test looks at one recorded wall. The claim is about every wall, every former content of the detector and every grid, and its failure on perfectly flat cells needs points without any noise, which no recorded image has.", "anchors": ["src/features/primitives/primitive_detection.cpp: find_primitives, init_planar_cell_fitting, grow_planes_and_cylinders", "src/features/primitives/plane_segment.cpp: init_plane_segment, fit_plane"]}
{"id": "C205", "title": "The example programs treat at most the requested number of frames per second", "statement": "With the frame rate option r of the example programs, any n frames in a row take n/r seconds at least; a frame that already takes longer is not delayed; a machine that is fast enough reaches the rate r; and the rate written in the debug image is the number of frames per second of the tracking.", "quantifier": "every target rate, every sequence of frames and every duration of the tracking, of the rest of the loop and of the sleep", "why_tests_cant": "The rate depends on the durations of the frames, which a test cannot choose; a test on one machine sees one sequence of durations.", "anchors": ["examples/main_TUM.cpp: main", "examples/main_CAPE.cpp: main", "src/rgbd_slam.cpp: get_debug_image"]}
{"id": "C206", "title": "Searching a window twice gives the keypoints of the sensitive detector", "statement": "A part of the image in which the normal FAST detector finds too few new keypoints is searched again with a more sensitive one. For every image and whatever is already tracked: both thresholds are valid and the second one is never above the first, no keypoint that the first search found is lost by the second, and the new keypoints of a frame are exactly those of a program that always searches with the sensitive detector; the first search only saves time.", "quantifier": "every gray image of every size, every list of tracked keypoints, every schedule of the parallel search; the thresholds for every maximum number of points", "why_tests_cant": "A test compares the two searches on a few images; that non maximum suppression and the limit on the number of keypoints never make the second search lose a keypoint is a statement about all images.", "anchors": ["src/features/keypoints/keypoint_detection.cpp: Key_Point_Extraction::Key_Point_Extraction, perform_keypoint_detection"]}
{"id": "C207", "title": "What is written about a pose and about an optimisation is right", "statement": "The text of a pose determines it: position and orientation can be read back from it and different poses have different texts. Under each title of the table of standard deviations stands that of this coordinate, in meters or degrees, and the angles of the orientation stand in the order of these titles. The message for the end of an optimisation names this end.", "quantifier": "every pose with a unit orientation and every variance; every end of an optimisation", "why_tests_cant": "A test reads one text; an exchange of two angles shows only on some orientations, and the orientation must come back from every singular one.", "anchors": ["src/utils/pose.cpp: PoseBase::display, Pose::display", "src/pose_optimization/levenberg_marquardt_functors.cpp: get_human_readable_end_message", "src/pose_optimization/pose_optimization.cpp: compute_optimized_global_pose"]}
{"id": "C208", "title": "The keypoints do not depend on the lighting", "statement": "The same scene seen brighter, darker, with more or with less contrast, without saturation of the image, gives new keypoints at the same positions: a uniform change of brightness changes nothing, the negative of an image has the same keypoints, and a change of contrast loses no keypoint.", "quantifier": "every gray image of every size, every gain and offset that does not saturate it, every list of tracked keypoints, every schedule of the parallel search", "why_tests_cant": "Tests try a few images and settings; the interplay of thresholds, non maximum suppression and the limit on the number of keypoints per window must keep each position for all images.", "anchors": ["src/features/keypoints/keypoint_detection.cpp: Key_Point_Extraction::Key_Point_Extraction, perform_keypoint_detection"]}
{"id": "C209", "title": "The counters of the map in long runs", "statement": "After any run in which the map was updated n times (a frame updates it once, or twice when the first update throws), the count of matches of every feature is between -n and n and its count of misses at most n.  So in a run with at most 2147483647 updates (more than two years at 30 frames per second) no counter of the map overflows.  This bound is the best one: a point matched in each of 2147483647 frames has the greatest count an int can hold, and its next match is a signed overflow.", "quantifier": "all geometries, detections, poses, orders of iteration and histories of calls of any length", "why_tests_cant": "a test cannot run for two billion frames, nor look at all histories of shorter runs", "anchors": ["src/map_management/feature_map.hpp: IMapFeature::update_matched, IMapFeature::update_unmatched, _successivMatchedCount, _failedTrackingCount", "src/map_management/local_map.hpp: update, update_no_pose"]}
{"id": "C210", "title": "The exported file of any run holds every finished feature once", "statement": "Whatever calls the local map received and in whichever order it dropped features of the three types, the OBJ file left when the program ends has these vertices, each once: the place of every 3D point that was dropped as a map feature or is in the map at the end, and the boundary vertices of every such plane; no feature is there twice.  The faces a viewer shows are exactly the boundaries of these planes, there is one point element for each of these points (which vertex it names is C27), and points without known depth leave nothing.", "quantifier": "all histories of calls, geometries, detections, orders of iteration, interleavings of dropped features and printed forms of numbers", "why_tests_cant": "the file depends on the whole history of the run and on unspecified iteration orders", "anchors": ["src/map_management/local_map.hpp: Local_Map::~Local_Map", "src/map_management/feature_map.hpp: destroy, update_local_map", "src/outputs/map_writer.cpp: OBJ_Map_Writer", "src/map_management/map_features/map_point.cpp: write_to_file", "src/map_management/map_features/map_primitive.cpp: write_to_file"]}
{"id": "C211", "title": "Image lists and association files are read whatever their layout", "statement": "Comments, lines without values, separators (tabulations and carriage returns among them) and the presence of a last end of line do not change what is read of a list of images or of an association file: every line with its times and paths gives its image or its frame, in signed decimal or exponent notation. Whatever the text, reading has a defined behaviour and invents nothing: an image or a frame that is read is written on a line that is not a comment, with all its fields, numbers where times are expected.", "quantifier": "every text of every length, every list of lines, numeral, path and separator", "why_tests_cant": "layouts of text files are unbounded, and the time stamps of an association line are variables that are not initialised", "anchors": ["examples/TUM_parser.hpp: parse_file, parse_association_file"]}
{"id": "C212", "title": "The ground truth of a dataset is the one that is written", "statement": "A ground truth file gives, for each time, the first pose written with that time, with its seven numbers; a line that does not have all its numbers is not used.", "quantifier": "every text of a ground truth file", "why_tests_cant": "a test has complete files; what a cut or empty line gives depends on variables that are not initialised", "anchors": ["examples/TUM_parser.hpp: parse_ground_truth, GroundTruth"]}
{"id": "C213", "title": "The example program treats the dataset that is in its directory", "statement": "Run on the directory of a dataset, from the text of its files to the report. With an association file the tracker is given, in the order of its lines and up to the jump option and the user's key, the two images named on each line; an element has a true pose exactly when the ground truth file has one for the time of its colour image, the first one written there, and a file without images gives no report. Without it, the tracker is given every colour image of the list once, by increasing time, each with at most one depth image, of its list, less than 0.15 s away and not used twice. The report has the last pose, and the trajectory a line per treated image.", "quantifier": "every directory, text of its files, tracker, sequence of keys and options", "why_tests_cant": "the text of a dataset, the order in which the sort leaves equal elements and the tracker are all unbounded", "anchors": ["examples/main_TUM.cpp: get_data_association, main", "examples/TUM_parser.hpp: DatasetParser"]}
{"id": "C214", "title": "What a run reports of its first frames depends neither on what follows nor on the way it is stopped", "statement": "In both example programs, frames added at the end of a dataset do not change the lines of the trajectory of the frames that come before, and a run on the longer dataset that ends without error does so on the shorter one. A run that the user stops ends exactly as if the dataset had ended there, and its trajectory is the beginning of the trajectory of the whole run. Saving the trajectory changes neither the end of the run, nor its last pose, nor the error it shows.", "quantifier": "every dataset, every continuation of it, every sequence of keys, every number of skipped frames and every tracker seen as a state machine", "why_tests_cant": "A test compares two runs of chosen lengths; independence of the future and of the moment of the interruption is a statement about all of them.", "anchors": ["examples/main_TUM.cpp: main, check_user_inputs", "examples/main_CAPE.cpp: main, load_images"]}
{"id": "C215", "title": "The six numbers of a pose tell where the camera is", "statement": "The first three numbers of the vector of a pose are its position. The last three are angles whose rotations around X, Y and Z, multiplied in this order, give the orientation of the pose, at the singularities of the angles too; the first angle is at least zero and less than pi. Two poses with the same vector are at the same place with the same orientation.", "quantifier": "every pose whose orientation is a unit quaternion, and every rotation matrix", "why_tests_cant": "The branches of the computation depend on signs of reals, and the singular orientations have measure zero: no sample of poses reaches them.", "anchors": ["src/utils/pose.hpp: get_vector"]}
{"id": "C216", "title": "The exported file after a loss holds the old map and the new one", "statement": "If tracking is lost after any run, because nothing is seen for eleven frames or more, and the scene is then seen again without measurement error from a camera that moved meanwhile, the vertices of the exported map file are exactly those of the file that would have been written had the program ended before the loss, and, if at least four frames follow the loss, one vertex per scene point, displaced by the motion the program missed. Nothing mapped before the loss is missing or written twice; nothing is merged or corrected, so a scene mapped before and after the loss is in the file twice.", "quantifier": "every run, map and pose before the loss, every number of dark frames from eleven on, every rigid motion in the dark, every scene of at least five points and every later trip with exact measurements; every printed form of the numbers", "why_tests_cant": "the file depends on the whole history of the map; a test checks one file of one run", "anchors": ["src/map_management/local_map.hpp: Local_Map", "src/map_management/feature_map.hpp: Feature_Map::destroy, Feature_Map::update_map", "src/outputs/map_writer.cpp: XYZ_Map_Writer, OBJ_Map_Writer", "src/rgbd_slam.cpp: RGBD_SLAM::track"]}
{"id": "C217", "title": "Losses add up", "statement": "If tracking is lost any number of times, and the camera moves each time while it sees nothing, then with exact measurements after each loss every frame returns a pose, and each pose returned is the true place of the camera moved by the product of all motions the program missed so far: no later observation ever corrects it. The exported map file holds what it would have held before the first loss and one more copy of the scene per loss, each displaced by the motions missed until then, so that it grows by the number of scene points with every loss.", "quantifier": "every run before the first loss, every number of losses, every number of dark frames from eleven on at each loss, every rigid motion in each of them, every scene of at least five points and every trip of at least four frames after each loss", "why_tests_cant": "the claim is about histories with any number of losses; a test shows one history", "anchors": ["src/rgbd_slam.cpp: RGBD_SLAM::track, RGBD_SLAM::compute_new_pose", "src/map_management/local_map.hpp: Local_Map", "src/map_management/feature_map.hpp: Feature_Map", "src/outputs/map_writer.cpp: OBJ_Map_Writer"]}
{"id": "C218", "title": "The trajectory saved for an exact dataset is the true one", "statement": "Let the example program treat a dataset whose images are exact views of a scene of at least five points, with any number of images skipped and the user quitting at any time or never. Then the program ends normally; the trajectory file, when it is asked for, has one line per treated image; the position and the three angles of each line describe exactly the place from which that image was taken, in the frame where the first treated image is taken from the start pose; and the end pose is the place of the last treated image.", "quantifier": "every exact dataset of any length, number of skipped images, keys pressed, scene of at least 5 points, image size over 31 pixels, camera intrinsics, start pose, ground truth present or missing, and way the keypoints are detected again or followed", "why_tests_cant": "The claim is about whole runs of the program over datasets of any length, with real-valued rotations written as angles; a test follows one dataset and compares within a tolerance.", "anchors": ["examples/main_TUM.cpp: main", "src/rgbd_slam.cpp: RGBD_SLAM::track", "src/utils/angle_utils.cpp: get_euler_angles_from_quaternion"]}
{"id": "C219", "title": "The pose error shown for an exact dataset is zero", "statement": "Let the example program treat an exact dataset as in C218, whose first image is not skipped and whose first and last treated images have a correct ground truth in metres, as the TUM files do. Then the pose error displayed at the end should be 0 cm and 0 degrees. The angle is indeed 0, but the code takes the metres of the file for millimetres both for the start pose and for the comparison, so that the displayed distance is 99.9 cm per metre between the first and the last place: it is 0 only when the camera ends where it began.", "quantifier": "every exact dataset of any length with a ground truth for its first and last images, every scene of at least 5 points, camera, start pose and frame of the ground truth", "why_tests_cant": "The claim is about whole runs over datasets of any length and any trajectory; a test with one dataset sees one number and cannot tell drift of the tracker from a mistake in the comparison.", "anchors": ["examples/main_TUM.cpp: main", "src/utils/pose.cpp: get_position_error, get_rotation_error"]}
{"id": "C220", "title": "The trajectory saved for exact numbered images is the true one", "statement": "Let the example program for numbered images treat a dataset whose images are exact views of a scene of at least five points, with any first frame, any number of frames skipped and the user quitting at any time or never. Then the program ends at the first wanted frame that lacks an image or where the user quits; the trajectory file, when it is asked for, has one line per treated frame; the position and the three angles of each line describe exactly the place from which that frame was taken, in the frame where the first treated image is taken from the default pose; and the end pose is the place of the last treated frame.", "quantifier": "every exact numbered dataset of fewer than 2^32 frames, first frame, number of skipped frames, keys pressed, rectification, scene of at least 5 points, image size over 31 pixels, and camera", "why_tests_cant": "The claim is about whole runs of the program over datasets of any length, with real-valued rotations written as angles; a test follows one dataset and compares within a tolerance.", "anchors": ["examples/main_CAPE.cpp: main, load_images", "src/rgbd_slam.cpp: RGBD_SLAM::track", "src/utils/angle_utils.cpp: get_euler_angles_from_quaternion"]}
{"id": "C221", "title": "The trajectory saved for a dataset with losses of tracking", "statement": "Let the example program treat a dataset that begins with exact views of a scene, and in which, any number of times, eleven or more treated images show nothing while the camera moves, after which the scene is seen again from four places or more without measurement error. Then the program ends normally and the trajectory file, when it is asked for, still has one line per treated image: the true places before the first loss; the last place repeated while nothing is seen; and after each loss the true places moved by the product of all motions that were not seen so far. No later line is ever corrected.", "quantifier": "every such dataset with any number of losses of any length under 2^32, every rigid motion during a loss, number of skipped images, keys pressed, scene of at least 5 points, image size and camera", "why_tests_cant": "It is a claim about every history of losses and every motion during them; a test follows one history.", "anchors": ["examples/main_TUM.cpp: main", "src/rgbd_slam.cpp: RGBD_SLAM::track", "src/map_management/local_map.hpp: Local_Map"]}
{"id": "C222", "title": "The saved trajectory and the exported map of one run fit together", "statement": "Let the example program treat a dataset that begins with at least four exact views of a scene, and in which tracking may be lost any number of times as in C221. Then the program ends normally; its tracker after the treated images is the result of successive calls of track on the decoded images; the trajectory file, when asked for, has the places of C221; and the map file written when that tracker is destroyed has as vertices the scene points, each once, and for each loss each scene point once more, moved by the same motion as the trajectory lines that follow that loss. Without a loss the trajectory is the true one and the vertices are exactly the scene points.", "quantifier": "every such dataset with any number of losses (none included) of any length, every rigid motion during a loss, number of skipped images, keys pressed, scene of at least 5 points, image size, camera and number format", "why_tests_cant": "Both files are the result of a whole history; a test compares them for one history.", "anchors": ["examples/main_TUM.cpp: main", "src/rgbd_slam.cpp: RGBD_SLAM::track", "src/map_management/local_map.hpp: Local_Map"]}
{"id": "C223", "title": "Both files of a run on numbered images", "statement": "Let the example program for numbered images treat a folder whose treated images begin with at least four exact views of a scene, and in which, any number of times, eleven or more treated images show nothing while the camera moves, after which the scene is seen again exactly. Then the program ends normally, at the first wanted number without images or when the user quits; the trajectory file, when asked for, has one line per treated image, with the true place moved by the product of the motions that were not seen so far, the last line being the end pose; and the map file written when its tracker is destroyed has as vertices each scene point once, and for each loss once more, moved by that same product.", "quantifier": "every such folder with any number of losses (none included) of any length, first number, jump, keys pressed, rectification of the depth images, scene of at least 5 points, image size, camera and number format", "why_tests_cant": "Both files are the result of a whole history; a test compares them for one folder.", "anchors": ["examples/main_CAPE.cpp: main, load_images", "src/rgbd_slam.cpp: RGBD_SLAM::track, RGBD_SLAM::rectify_depth", "src/map_management/local_map.hpp: Local_Map"]}
{"id": "C224", "title": "From the directory of a dataset to the trajectory and the map", "statement": "Let the directory of a TUM dataset have an association file and a ground truth file, with comments, blanks and numbers written in any of the accepted ways, and let the images that its lines name be as in C222: at least four exact views of a scene, then any number of losses of tracking each followed by exact views. Then the example program on this directory has exactly one outcome: it ends normally, it starts from the pose that the ground truth has for the first line, the trajectory it saves has the places of C222 and the map its tracker writes has the vertices of C222.", "quantifier": "every directory with an association file, layout of its text files, dataset and history of losses as in C222, jump, keys pressed, values left in variables that were not read", "why_tests_cant": "It is about every text of the files and every history at once; a test has one directory.", "anchors": ["examples/main_TUM.cpp: main, get_data_association", "examples/TUM_parser.hpp: DatasetParser::parse_association_file, parse_ground_truth", "src/rgbd_slam.cpp: RGBD_SLAM::track"]}
{"id": "C225", "title": "A dataset gives the same trajectory in both formats", "statement": "Convert a TUM dataset into a folder of numbered images: the same colour images, the depths in millimetres (a fifth of those of the TUM files), numbered without a gap from the start index on and nothing after them. Let the first element have no ground truth, and let the rectification of depths have nothing to change. Then, with the same options, camera, tracker and keys, the example programs for both formats have the same outcome: both end normally with the same trajectory lines and the same end pose, or both fail in the same way.", "quantifier": "every tracker (also one that fails), dataset of at least one image with its sizes right or wrong, start index, jump, save option and keys pressed, while the numbers stay under 2^32", "why_tests_cant": "The two programs are separate texts with different loops and stop conditions; a test compares them on one dataset.", "anchors": ["examples/main_TUM.cpp: main, check_user_inputs", "examples/main_CAPE.cpp: main, load_images, check_user_inputs"]}
{"id": "C226", "title": "The image lists of a synchronised camera are associated as they were taken", "statement": "Let the lists of colour and depth images of a dataset be those of a camera that takes both images of a frame at most delta apart, delta being less than the tolerance of 0.15 seconds, with more than twice delta between the colour images; the lines of each file may be in any order. Then reading the dataset without an association file has no undefined behaviour, and gives every colour image with its own depth image, by increasing time.", "quantifier": "every delta under 0.15 s, number of frames, times and paths, order of the lines of both files, ground truth", "why_tests_cant": "The reader sorts by scores and then with a comparison that is not always an order (C51); that this does no harm must be shown for all times.", "anchors": ["examples/TUM_parser.hpp: DatasetParser::associate_data, parse_dataset"]}
{"id": "C227", "title": "A dataset given by its image lists is tracked frame by frame", "statement": "Let the directory of a TUM dataset have no association file, and let its colour and depth lists, in any accepted layout and order, be those of a synchronised camera as in C226: both images of a frame at most delta apart, delta under 0.15 seconds, and more than twice delta between colour images. Then no run of the example program on it is undefined, and each treats the frames as taken, by increasing time, each colour image with its own depth image. If moreover there is no ground truth file and these images are as in C222 (at least four exact views of a scene, then any number of losses of tracking each followed by exact views), the program has exactly one outcome, whose trajectory has the places of C222 and whose map has the vertices of C222.", "quantifier": "every directory without association file, layout of its lists, delta under 0.15 s, times and paths, first index, keys pressed, values left in variables that were not read; for the files, every history as in C222", "why_tests_cant": "It is about every text of the lists and every history at once; a test has one directory.", "anchors": ["examples/main_TUM.cpp: main, get_data_association", "examples/TUM_parser.hpp: DatasetParser::parse_dataset, associate_data", "src/rgbd_slam.cpp: RGBD_SLAM::track"]}
{"id": "C228", "title": "Writing down the association of a dataset does not change its run", "statement": "Let a directory have the lists of a synchronised camera as in C226 and no association file, and let another have the same images and ground truth and an association file with the two images of each frame, by increasing time. Then the example program has the same outcomes on both.", "quantifier": "every pair of such directories, layout of their text files, delta under 0.15 s, times and paths, options, tracker and keys pressed", "why_tests_cant": "The two readers are different code; that they agree must hold for every dataset, not for one that was converted.", "anchors": ["examples/main_TUM.cpp: main, get_data_association", "examples/TUM_parser.hpp: DatasetParser::parse_association_file, parse_dataset, associate_data"]}
{"id": "C229", "title": "A dataset of a synchronised camera always gives the same result", "statement": "Let two directories have the same images and the same ground truth file, no association file, and colour and depth lists of the same frames of a synchronised camera as in C226, each in its own layout and order of lines. Then the example program has exactly one outcome on the first and the same one on the second: running it again, or sorting, commenting or reformatting the lists, changes nothing.", "quantifier": "every pair of such directories, ground truth, layout and order of the lists, delta under 0.15 s, options, tracker and keys pressed", "why_tests_cant": "The order of equal elements in a sort is not specified, so agreement of two runs in a test shows nothing for another library; and the layouts are infinitely many.", "anchors": ["examples/main_TUM.cpp: main, get_data_association", "examples/TUM_parser.hpp: DatasetParser::parse_dataset, parse_file, associate_data"]}
