{"id": "C01", "title": "AprilGrid behaves as a map from (tag, corner) to keypoint", "statement": "After any sequence of add, remove(tag,corner), remove(tag) and clear calls with in-range arguments, has(t,c) is true exactly when the last add of (t,c) has not been undone, and keypoint(t,c) / get_measurements return the keypoint of that last add.", "quantifier": "all grid dimensions, all finite operation histories, all keypoint values", "why_tests_cant": "the answer depends on the whole history of calls; a unit test runs a handful of histories on one grid size", "anchors": ["yac/lib/util/aprilgrid.cpp: add, remove, clear, has, keypoint, get_measurements"]}
{"id": "C02", "title": "AprilGrid detection counter equals the number of stored corners", "statement": "After any operation history the public field nb_detections equals the number of corners for which has() is true, and detected is true exactly when that number is positive.", "quantifier": "all grid dimensions and all operation histories, including adding the same corner twice", "why_tests_cant": "the counter is maintained incrementally, so it can drift only on particular histories", "anchors": ["yac/lib/util/aprilgrid.cpp: add, remove, clear, nb_detections, detected"]}
{"id": "C03", "title": "get_measurements lists every stored corner once, in tag-then-corner order", "statement": "get_measurements returns, when the grid is detected, exactly the stored corners, strictly increasing in (tag, corner), each with its keypoint and its object point; its four output vectors have equal length; the keypoints()/object_points()/tag_ids() accessors agree with it.", "quantifier": "all reachable grids", "why_tests_cant": "exhaustiveness and order over arbitrary sparse grids cannot be sampled", "anchors": ["yac/lib/util/aprilgrid.cpp: get_measurements, keypoints, object_points, tag_ids"]}
{"id": "C04", "title": "Tag corner indexing is in range and injective", "statement": "Each valid (tag, corner) pair of an r x c grid is stored in its own row of the 4*r*c row table, and every row is used; a tag id or corner index outside the grid is rejected rather than addressing a row outside the table.", "quantifier": "all rows, cols, tag ids and corner indices", "why_tests_cant": "off-by-one acceptance shows only at the boundary id for each grid size", "anchors": ["yac/lib/util/aprilgrid.cpp: grid_index, has, keypoint, add, remove"]}
{"id": "C05", "title": "Object point geometry", "statement": "object_point(tag, corner) is the corner of an axis-aligned square of side tag_size whose lower-left corner is at (col, row)*(tag_size*(1+tag_spacing)); corners run anticlockwise; the points of a grid with positive size and nonnegative spacing are pairwise distinct, lie within the board extents, and center() is the centre of those extents; the calibrator's own corner table holds the same points.", "quantifier": "all grid sizes, tag sizes, spacings, tags and corners", "why_tests_cant": "needs a for-all over real sizes and integer grids", "anchors": ["yac/lib/util/aprilgrid.cpp: object_point, center", "yac/lib/calib_params.cpp: fiducial_corners_t, get_corner"]}
{"id": "C06", "title": "AprilGrid save then load restores the grid", "statement": "Loading the CSV written by save yields a grid equal to the saved one up to the printed precision (10 decimals for keypoints, 6 for the others): same timestamp, dimensions, detected flag, detection count and corners.", "quantifier": "all reachable grids with at least one detection", "why_tests_cant": "the round trip must hold for every set of detections and every numeric value", "anchors": ["yac/lib/util/aprilgrid.cpp: save, load"]}
{"id": "C07", "title": "Pairwise grid intersection keeps exactly the common corners", "statement": "After intersect(a,b) both grids hold exactly the corners that both held before, keypoints unchanged, and both counters and detected flags agree with the new contents.", "quantifier": "all pairs of reachable grids of equal dimension", "why_tests_cant": "depends on arbitrary pairs of subsets", "anchors": ["yac/lib/util/aprilgrid.cpp: aprilgrid_t::intersect(aprilgrid_t&, aprilgrid_t&)"]}
{"id": "C08", "title": "Multi-grid intersection keeps exactly the corners common to all", "statement": "After intersect over a list of grids every grid holds exactly the corners present in all of them, with its own keypoints.", "quantifier": "all lists of grids of equal dimension", "why_tests_cant": "arbitrary number of grids and subsets", "anchors": ["yac/lib/util/aprilgrid.cpp: aprilgrid_t::intersect(std::vector<aprilgrid_t*>&)"]}
{"id": "C09", "title": "common_measurements pairs up the shared corners", "statement": "common_measurements(a,b) returns, in a's order, exactly the corners present in both grids with a's keypoints, b's keypoints and the object points aligned index by index.", "quantifier": "all pairs of grids", "why_tests_cant": "alignment between three parallel vectors must hold for all subsets", "anchors": ["yac/lib/util/aprilgrid.cpp: aprilgrid_t::common_measurements"]}
{"id": "C10", "title": "Random sampling returns distinct stored measurements", "statement": "sample(n) returns min(n, nb_detections) distinct stored corners, each with its own keypoint and object point, whatever the random numbers drawn, whenever it returns.", "quantifier": "all grids, all n, all random streams", "why_tests_cant": "correctness must hold for every random stream", "anchors": ["yac/lib/util/aprilgrid.cpp: aprilgrid_t::sample"]}
{"id": "C11", "title": "Timeline is an ordered multimap of events", "statement": "After any sequence of add calls, timestamps lists each added timestamp once in increasing order, nb_events(ts) is the number of add calls made at ts, and get_events(ts) lists exactly the events added at ts in the order they were added.", "quantifier": "all finite sequences of camera/IMU/grid add calls", "why_tests_cant": "ordering and completeness over arbitrary interleavings", "anchors": ["yac/lib/util/timeline.cpp: add, nb_events, get_events"]}
{"id": "C12", "title": "Set helpers compute set difference and symmetric difference", "statement": "set_diff(a,b) and set_symmetric_diff(a,b) of sorted duplicate-free sequences are sorted, duplicate-free and contain exactly the elements of a\\b, respectively of exactly one of a and b; set_union contains exactly the elements of either set.", "quantifier": "all sets", "why_tests_cant": "must hold for every pair of sets", "anchors": ["yac/lib/util/data.hpp: set_union, set_diff, set_symmetric_diff"]}
{"id": "C13", "title": "intersection returns the elements common to every input list", "statement": "intersection(lists) returns exactly the values that occur in every one of the lists.", "quantifier": "all lists of lists, including lists with repeated values", "why_tests_cant": "the counting algorithm is wrong only for particular multiplicities", "anchors": ["yac/lib/util/data.hpp: intersection"]}
{"id": "C14", "title": "ordered_set_t keeps first-insertion order without duplicates", "statement": "After any sequence of insert and clear calls ordered_set_t iterates over the distinct inserted values in order of first insertion since the last clear.", "quantifier": "all histories", "why_tests_cant": "depends on arbitrary histories", "anchors": ["yac/lib/util/data.hpp: ordered_set_t"]}
{"id": "C15", "title": "Vector helpers: pop_front, slice, extend", "statement": "pop_front removes exactly the first element (as a multiset), slice(v,m,n) is the subsequence from m to n inclusive for in-range indices, extend appends in order.", "quantifier": "all vectors and indices", "why_tests_cant": "index arithmetic for all sizes", "anchors": ["yac/lib/util/data.hpp: pop_front, slice, extend"]}
{"id": "C16", "title": "Little-endian byte decoding", "statement": "int8/uint8/int16/uint16/sint32/uint32 decode the little-endian (two's complement) value at the given offset, for every byte content and only reading bytes of that word.", "quantifier": "all byte buffers and offsets", "why_tests_cant": "2^32 contents per word", "anchors": ["yac/lib/util/data.cpp: int8, uint8, int16, uint16, sint32, uint32"]}
{"id": "C17", "title": "CSV matrix round trip", "statement": "csv2mat applied to the file written by mat2csv returns a matrix of the same shape holding the same values to the printed 6 decimals.", "quantifier": "all matrices, all shapes", "why_tests_cant": "fails only for particular shapes (e.g. one column)", "anchors": ["yac/lib/util/data.cpp: csv_rows, csv_cols, csv2mat, mat2csv"]}
{"id": "C18", "title": "Saved IMU data can be loaded back", "statement": "Loading the file written by save_imu_data with load_imu_data returns the same timestamps, accelerations and angular velocities.", "quantifier": "all IMU sequences", "why_tests_cant": "depends on every row and on column conventions on both sides", "anchors": ["yac/lib/util/data.cpp: save_imu_data", "yac/lib/calib_data.cpp: load_imu_data"]}
{"id": "C19", "title": "Saved poses can be loaded back", "statement": "Loading the file written by save_poses with load_poses returns the same timestamps, positions and quaternions in order (to printed precision).", "quantifier": "all pose sequences", "why_tests_cant": "every row and column", "anchors": ["yac/lib/util/data.cpp: save_poses, load_poses, load_pose, save_extrinsics"]}
{"id": "C20", "title": "Path helpers", "statement": "path_split/paths_join/strip/parse_fname/dir_name treat '/'-separated paths consistently: splitting a join gives the concatenated components, '..' components of the second path remove that many trailing components of the first, and strip removes exactly the leading and trailing target characters.", "quantifier": "all strings", "why_tests_cant": "string algorithms over all inputs, including empty and all-separator strings", "anchors": ["yac/lib/util/fs.cpp: strip, strip_end, path_split, paths_join, parse_fname, parse_fext, parse_dir, remove_ext"]}
{"id": "C21", "title": "Configuration lookup by dotted key", "statement": "parse(config, \"a.b.c\") reads the node reached by descending the keys in order; a missing mandatory key is fatal, a missing optional key leaves the output unchanged, and yaml_has_key agrees with that lookup.", "quantifier": "all configuration trees and keys", "why_tests_cant": "all tree shapes and key depths", "anchors": ["yac/lib/util/config.cpp: yaml_get_node, yaml_has_key, parse"]}
{"id": "C22", "title": "Configuration vectors and matrices are size checked", "statement": "A vector or matrix node is accepted only if it has exactly the number of elements of the requested type, and matrix data is filled row by row.", "quantifier": "all nodes and shapes", "why_tests_cant": "size mismatch classes are unbounded", "anchors": ["yac/lib/util/config.hpp: yaml_check_vector, yaml_check_matrix", "yac/lib/util/config.cpp: parse"]}
{"id": "C23", "title": "IMU buffer trimming keeps the interval still needed", "statement": "After trim(t) the buffer holds exactly the measurements from the last one before t (if any) onwards, in order, so that an integration starting at t is still bracketed; timestamps, accelerations and angular rates stay aligned.", "quantifier": "all buffers with increasing timestamps, all t", "why_tests_cant": "boundary conditions on t relative to every sample", "anchors": ["yac/lib/util/core.hpp: imu_data_t::trim, add, clear, size"]}
{"id": "C24", "title": "IMU buffer extraction returns the measurements of an interval", "statement": "extract(t0,t1) returns the measurements between t0 and t1 with interpolated end points and drops the consumed measurements from the buffer, never using uninitialised values.", "quantifier": "all buffers and intervals", "why_tests_cant": "depends on the alignment of t0,t1 with samples", "anchors": ["yac/lib/util/core.hpp: imu_data_t::extract"]}
{"id": "C25", "title": "Pose interpolation passes through its end points", "statement": "interp_pose(p0,p1,0) is p0 and interp_pose(p0,p1,1) is p1, for translation and rotation; intermediate translations are the affine combination.", "quantifier": "all pairs of poses and all alpha in [0,1]", "why_tests_cant": "continuum of poses", "anchors": ["yac/lib/util/core.cpp: interp_pose, slerp, lerp_pose"]}
{"id": "C26", "title": "Stream synchronisation", "statement": "interp_poses, closest_poses and lerp_data return one output per requested timestamp that lies inside the data range, in order, and never read past the end of either sequence.", "quantifier": "all pairs of strictly increasing timestamp sequences", "why_tests_cant": "interleavings of two streams are unbounded", "anchors": ["yac/lib/util/core.cpp: interp_poses, closest_poses, lerp_timestamps, lerp_data, align_front, align_back", "yac/lib/calib_data.cpp: lerp_body_poses"]}
{"id": "C27", "title": "Timestamp decomposition round trip", "statement": "tsform applied to the seconds and nanoseconds produced by tsdecomp returns the original timestamp.", "quantifier": "all 64-bit timestamps, all rounding behaviours of the floating-point division", "why_tests_cant": "2^63 timestamps and inexact arithmetic", "anchors": ["yac/lib/util/core.cpp: tsdecomp, tsform, sec2ts, ts2sec"]}
{"id": "C28", "title": "linspace end points and spacing", "statement": "linspace(a,b,n) has n elements, starts at a, ends exactly at b (n>=2) and is evenly spaced.", "quantifier": "all a,b,n", "why_tests_cant": "for all n", "anchors": ["yac/lib/util/core.hpp: linspace"]}
{"id": "C29", "title": "Descriptive statistics", "statement": "median is an order statistic of the sample and does not depend on sample order, mean/var/stddev/rmse are the textbook values, are permutation invariant, var and rmse are nonnegative and var is zero exactly for constant samples.", "quantifier": "all nonempty samples", "why_tests_cant": "permutation invariance and equalities for all samples", "anchors": ["yac/lib/util/core.cpp: median, mean, var, stddev, rmse, max, sum, range"]}
{"id": "C30", "title": "Angle wrapping", "statement": "wrap180 and wrap360 return an angle congruent to the input modulo 360 in [-180,180) respectively [0,360).", "quantifier": "all real angles", "why_tests_cant": "continuum; fails only for sufficiently negative inputs", "anchors": ["yac/lib/util/core.cpp: wrap180, wrap360, wrapPi, wrap2Pi"]}
{"id": "C31", "title": "Matrix/array/vector conversions are lossless", "statement": "load_matrix, mat2array, mat2vec, array2vec, vec2array and vecs2mat keep every entry at the place the documentation promises and round trip.", "quantifier": "all matrices of all shapes", "why_tests_cant": "index arithmetic for every shape", "anchors": ["yac/lib/util/core.cpp: load_matrix, mat2array, mat2vec, vec2array, array2vec, vecs2mat, hstack, vstack, dstack"]}
{"id": "C32", "title": "Rigid transform algebra", "statement": "tf_inv(T) is the two-sided inverse of T for every rigid transform, tf_point composes ((T1*T2) applied to p is T1 applied to T2 applied to p), and tf_rot/tf_trans/tf_vec recover what tf was built from.", "quantifier": "all rotations and translations", "why_tests_cant": "continuum", "anchors": ["yac/lib/util/core.cpp: tf, tf_inv, tf_point, tf_rot, tf_trans, tf_vec"]}
{"id": "C33", "title": "Quaternion matrices agree with the quaternion product", "statement": "quat_lmul/quat_rmul/quat_mul (w,x,y,z) and plus/oplus (x,y,z,w) reproduce the Hamilton product; the rotation matrix of a unit quaternion is orthonormal with determinant one and the map is a homomorphism; quat_inv inverts.", "quantifier": "all quaternions", "why_tests_cant": "continuum; polynomial identities in 8 variables", "anchors": ["yac/lib/util/core.cpp: quat_lmul, quat_rmul, quat_mul, quat_inv, quat2rot", "yac/lib/util/ceres_utils.cpp: plus, oplus"]}
{"id": "C34", "title": "Euler and axis rotations are proper rotations and consistent", "statement": "rotx/roty/rotz, euler123, euler321 and rvec2rot return proper rotations; euler321 equals rotz(yaw)*roty(pitch)*rotx(roll); euler2quat and quat2euler agree with it on their domain.", "quantifier": "all angles", "why_tests_cant": "continuum", "anchors": ["yac/lib/util/core.cpp: rotx, roty, rotz, euler123, euler321, euler2quat, quat2euler, rvec2rot"]}
{"id": "C35", "title": "Skew operator", "statement": "skew(v) is antisymmetric and skew(a)*b is the cross product; skewsq(v)= skew(v)*skew(v).", "quantifier": "all vectors", "why_tests_cant": "continuum", "anchors": ["yac/lib/util/core.cpp: skew, skewsq"]}
{"id": "C36", "title": "Pose difference of equal poses is zero and detects rotation", "statement": "pose_diff(p,p) is (0,0) and its rotation component is the angle of the relative rotation of the two stored poses.", "quantifier": "all poses in the stored layout", "why_tests_cant": "layout conventions over all quaternions", "anchors": ["yac/lib/util/core.cpp: pose_diff"]}
{"id": "C37", "title": "Projection Jacobians are the derivatives of projection", "statement": "For pinhole-radtan4 and pinhole-equi4 the reported 2x3 point Jacobian and 2x8 parameter Jacobian are the exact derivatives of the image point with respect to the 3D point and the camera parameters.", "quantifier": "all points in front of the camera and all parameters", "why_tests_cant": "finite-difference tests sample a few points with tolerances", "anchors": ["yac/lib/util/cv.cpp: radtan4_*, equi4_*, pinhole_*_project, *_project_jacobian, *_params_jacobian"]}
{"id": "C38", "title": "project reports validity and frame membership", "statement": "project returns 0 only for points in front of the camera whose image lies inside the image; otherwise it returns an error code; the image point is the pinhole image of the distorted normalised point.", "quantifier": "all points, parameters and resolutions", "why_tests_cant": "boundary cases z=0, image borders", "anchors": ["yac/lib/util/cv.cpp: pinhole_radtan4_project, pinhole_equi4_project, pinhole_project"]}
{"id": "C39", "title": "Back-projection inverts projection", "statement": "With zero distortion, back_project of the projection of a point in front of the camera is the ray through that point; in general the normalised image point of back_project is the undistortion of the pixel.", "quantifier": "all points and intrinsics", "why_tests_cant": "continuum", "anchors": ["yac/lib/util/cv.cpp: back_project, undistort, radtan4_undistort, equi4_undistort, pinhole_K, pinhole_focal"]}
{"id": "C40", "title": "Robust loss functions report consistent derivatives", "statement": "Each loss reports rho(s) together with its exact first and second derivative at s.", "quantifier": "all s >= 0 and all parameters", "why_tests_cant": "continuum", "anchors": ["yac/lib/calib_loss.cpp: BlakeZissermanLoss, CauchyLoss, HuberLoss"]}
{"id": "C41", "title": "Pose update and its inverse", "statement": "pose plus(dx) followed by minus(dx) restores the pose exactly; plus(0) is the identity; perturb(i,h) followed by perturb(i,-h) restores the pose; the quaternion stays unit.", "quantifier": "all poses and all increments", "why_tests_cant": "continuum", "anchors": ["yac/lib/calib_params.cpp: pose_t::plus, minus, perturb, param_t"]}
{"id": "C42", "title": "The manifold Jacobian is the derivative of the pose update", "statement": "PoseLocalParameterization::PlusJacobian is the derivative of Plus(x, delta) at delta=0 and Plus(x,0)=x for unit quaternions; lift_pose_jacobian is a left inverse of it.", "quantifier": "all poses", "why_tests_cant": "continuum", "anchors": ["yac/lib/util/ceres_utils.cpp: PoseLocalParameterization, lift_pose_jacobian, deltaQ"]}
{"id": "C43", "title": "Residual Jacobians are exact derivatives", "statement": "For the reprojection, fiducial, mocap and pose-prior residuals each reported minimal Jacobian block equals the derivative of the weighted residual with respect to the local perturbation of that parameter block.", "quantifier": "all poses, points and weights with the point in front of the camera", "why_tests_cant": "numerical Jacobian tests sample a few configurations", "anchors": ["yac/lib/calib_residuals.cpp: reproj_residual_t, fiducial_residual_t, mocap_residual_t, pose_prior_t"]}
{"id": "C44", "title": "IMU propagation is consistent with kinematics", "statement": "With constant specific force and angular rate the preintegrated velocity, position and attitude changes, and the covariance bookkeeping, equal the closed-form values regardless of how the interval is cut into samples; elapsed time equals the requested interval.", "quantifier": "all sample grids covering the interval", "why_tests_cant": "all partitions of an interval", "anchors": ["yac/lib/calib_residuals.cpp: imu_residual_t::propagation, redoPreintegration"]}
{"id": "C45", "title": "Marginalisation preserves the optimum of the remaining parameters", "statement": "The Schur complement (H_marg, b_marg) computed from (H,b) has as solution exactly the remaining-parameter part of the full solution; the linearised residual reproduces H_marg and b_marg.", "quantifier": "all symmetric positive definite systems of any size and split", "why_tests_cant": "for all matrices and sizes", "anchors": ["yac/lib/calib_residuals.cpp: marg_residual_t", "yac/lib/util/core.cpp: schurs_complement"]}
{"id": "C46", "title": "Solver problem bookkeeping is consistent", "statement": "After any sequence of add_param, add_residual, remove_residual and remove_param calls, num_params and num_residuals are the sizes of the current sets, a residual is in the problem exactly if it was added and neither it nor one of its parameters was removed since, and no legal call aborts.", "quantifier": "all call histories", "why_tests_cant": "histories with shared parameters are unbounded", "anchors": ["yac/lib/solver.cpp: add_param, add_residual, remove_param, remove_residual, num_params, num_residuals"]}
{"id": "C47", "title": "Levenberg-Marquardt never worsens the cost", "statement": "yac_solver_t::solve with LEVENBERG-MARQUARDT ends in a state whose cost is at most the initial cost whatever the linear solver returns, costs of accepted iterates strictly decrease, and a rejected step restores every parameter exactly.", "quantifier": "all problems, all linear-solver results (including NaN costs), any iteration count", "why_tests_cant": "must hold for every sequence of steps", "anchors": ["yac/lib/solver.cpp: _solve_lm, _cache_params, _restore_params, _calculate_cost"]}
{"id": "C48", "title": "Gauss-Newton never returns a worse point than the start", "statement": "yac_solver_t::solve with GAUSS-NEWTON ends with cost at most the initial cost.", "quantifier": "all problems, all step sequences", "why_tests_cant": "every step sequence", "anchors": ["yac/lib/solver.cpp: _solve_gn"]}
{"id": "C49", "title": "Normal equations are assembled correctly", "statement": "The assembled Hessian equals J^T J and the right-hand side equals -J^T r for the stacked Jacobian J whose columns are grouped by parameter; parameters occupy disjoint column ranges covering the matrix; fixed parameters get none; the update adds to each parameter exactly its segment of dx.", "quantifier": "all problems: residual sets, parameter sharing patterns, block sizes", "why_tests_cant": "unbounded combinatorics of blocks", "anchors": ["yac/lib/solver.cpp: _eval_residuals, _form_jacobian, _form_hessian, _update"]}
{"id": "C50", "title": "Camera chain answers extrinsics queries", "statement": "After any sequence of insert calls, find(i,j) returns 0 with the transform obtained by composing inserted extrinsics along a path from i to j whenever the cameras are connected, and a nonzero code otherwise; find(i,i) is identity; find(j,i) is the inverse of find(i,j).", "quantifier": "all insertion histories / camera graphs", "why_tests_cant": "all graphs", "anchors": ["yac/lib/calib_camera.cpp: camchain_t::insert, contains, find"]}
{"id": "C51", "title": "Outlier filtering removes exactly the outlying corners", "statement": "filter_view removes from the view and the solver exactly the measurements whose residual magnitude exceeds the threshold in x or y, keeps the rest, and reports how many it removed.", "quantifier": "all views, residual values and thresholds", "why_tests_cant": "all combinations of signs and cameras", "anchors": ["yac/lib/calib_camera.cpp: calib_view_t::filter_view"]}
{"id": "C52", "title": "A rejected next-best-view leaves the calibration unchanged", "statement": "If add_nbv_view returns false the set of views, the camera parameters, extrinsics and all other poses are exactly what they were before the call.", "quantifier": "all calibrator states, all solver outcomes and information values", "why_tests_cant": "every solver outcome", "anchors": ["yac/lib/calib_camera.cpp: add_nbv_view, _cache_estimates, _restore_estimates, remove_view, add_view"]}
{"id": "C53", "title": "Views, poses and solver stay consistent", "statement": "After any sequence of add_view/remove_view/remove_all_views/marginalize calls every view has a pose, calib_view_timestamps lists exactly the timestamps of the views, and the solver holds exactly the residuals of the present views; remove_all_views leaves no residual.", "quantifier": "all histories", "why_tests_cant": "history dependent", "anchors": ["yac/lib/calib_camera.cpp: add_view, add_pose, remove_view, remove_all_views, nb_views"]}
{"id": "C54", "title": "Next-best-view selection returns the best candidate", "statement": "find_nbv returns a candidate whose information value is minimal among all candidates and reports -2 exactly when the gain is below the threshold.", "quantifier": "all candidate maps and information values", "why_tests_cant": "argmin over all score tables", "anchors": ["yac/lib/calib_camera.cpp: find_nbv, find_nbv_fast"]}
{"id": "C55", "title": "Multi-camera measurements are processed only when synchronised", "statement": "add_measurement(image) reports ready only if the buffered images of all cameras carry the same timestamp.", "quantifier": "all arrival orders of camera images", "why_tests_cant": "all interleavings", "anchors": ["yac/lib/calib_camera.cpp: add_measurement", "yac/lib/calib_vi.cpp: add_measurement"]}
{"id": "C56", "title": "Simulated target view contains exactly the visible corners", "statement": "nbv_target_grid contains a corner exactly when its projection is valid, with the projected pixel as keypoint; check_fully_observable is true exactly when it contains all corners; calib_target_origin returns 0 only with a pose that sees the whole target.", "quantifier": "all targets, cameras and poses", "why_tests_cant": "continuum of poses", "anchors": ["yac/lib/calib_nbv.cpp: nbv_target_grid, check_fully_observable, calib_target_origin, nbv_reached"]}
{"id": "C57", "title": "Initialisation of the visual-inertial calibrator", "statement": "initialize places the fiducial at the origin without changing the relative pose between sensor and fiducial implied by the camera observation, and estimate_sensor_pose returns the pose for which the observation is exact.", "quantifier": "all observed poses, extrinsics and attitudes", "why_tests_cant": "continuum", "anchors": ["yac/lib/calib_vi.cpp: initialize, estimate_sensor_pose"]}
{"id": "C58", "title": "Visual-inertial sliding window is bounded", "statement": "With marginalisation enabled the number of views never exceeds the window size after a measurement is processed, views stay in increasing time order and every consecutive pair is connected by an IMU factor.", "quantifier": "all measurement streams", "why_tests_cant": "unbounded streams", "anchors": ["yac/lib/calib_vi.cpp: add_measurement, add_view, marginalize"]}
{"id": "C59", "title": "Only well-formed tag detections enter a grid", "statement": "detect returns a grid whose corners all belong to tags that are inside the grid, lie inside the image border margin and were refined by less than the threshold, and reports nothing when too few tags were seen.", "quantifier": "all raw detector outputs", "why_tests_cant": "all detector outputs", "anchors": ["yac/lib/util/aprilgrid.cpp: aprilgrid_detector_t::detect, aprilgrid_detect_thread"]}
{"id": "C60", "title": "Numerical Jacobian checking", "statement": "check_jacobian reports success only if every entry of the two matrices of equal shape differs by less than the threshold.", "quantifier": "all matrices and thresholds", "why_tests_cant": "all shapes", "anchors": ["yac/lib/util/data.cpp: check_jacobian"]}
{"id": "C61", "title": "Circle and line geometry helpers", "statement": "intersect_circles returns points lying on both circles; closest_point returns the orthogonal projection; point_left_right gives the side of the line; cross_track_error is the distance to the line.", "quantifier": "all inputs in the plane", "why_tests_cant": "continuum", "anchors": ["yac/lib/util/core.cpp: intersect_circles, closest_point, point_left_right, cross_track_error, fit_circle"]}
{"id": "C62", "title": "Local geodetic offset round trip", "statement": "latlon_offset followed by latlon_diff recovers the north and east offsets.", "quantifier": "all origins and offsets", "why_tests_cant": "continuum", "anchors": ["yac/lib/util/core.cpp: latlon_offset, latlon_diff"]}
{"id": "C63", "title": "binomial coefficients", "statement": "binomial(n,k) is the binomial coefficient n choose k for all 0 <= k <= n and terminates.", "quantifier": "all n,k", "why_tests_cant": "recursion over all n", "anchors": ["yac/lib/util/core.cpp: binomial"]}
{"id": "C64", "title": "AprilGrid comparison", "statement": "equal(a,a) is true for every initialised grid, and equal(a,b) is true only for grids with the same timestamp, dimensions, sizes, detected flag, detection count and corner flags whose keypoints and object points differ by less than 1e-6 in every coordinate.", "quantifier": "all pairs of grids", "why_tests_cant": "ranges over all pairs of grids of any size and any real coordinates", "anchors": ["yac/lib/util/aprilgrid.cpp: aprilgrid_t::equal"]}
{"id": "C65", "title": "Tolerance comparison", "statement": "fltcmp(a,b) is 0 exactly if a and b differ by at most 1e-4, otherwise it is the sign of a-b; it is antisymmetric, and sign(x) equals fltcmp(x,0).", "quantifier": "all pairs of numbers", "why_tests_cant": "continuum of inputs, boundary cases", "anchors": ["yac/lib/util/core.cpp: fltcmp, sign"]}
{"id": "C66", "title": "Random helpers respect their bounds", "statement": "randi(ub,lb) and randf(ub,lb) return a value between the two bounds, whatever the random number generator produces.", "quantifier": "all bounds, all generator outputs", "why_tests_cant": "random outputs; all bounds", "anchors": ["yac/lib/util/core.cpp: randi, randf"]}
{"id": "C67", "title": "Rotation between two directions", "statement": "vecs2rot(a, g) is a proper rotation that takes the direction of a to the direction of g, for all non-zero vectors.", "quantifier": "all pairs of non-zero vectors", "why_tests_cant": "continuum; the antiparallel case has measure zero", "anchors": ["yac/lib/util/core.cpp: vecs2rot"]}
{"id": "C68", "title": "enforce_psd", "statement": "enforce_psd(A) is symmetric positive semidefinite for every square A and leaves a symmetric positive semidefinite A unchanged.", "quantifier": "all square matrices", "why_tests_cant": "all sizes, all real entries", "anchors": ["yac/lib/util/core.cpp: enforce_psd"]}
{"id": "C69", "title": "Look-at camera poses", "statement": "lookat(position, target, up) is a rigid pose at the camera position whose optical axis points at the target, with the x axis orthogonal to the up axis.", "quantifier": "all camera positions, targets and up axes", "why_tests_cant": "continuum of viewing directions, including those along the up axis", "anchors": ["yac/lib/util/core.cpp: lookat"]}
{"id": "C70", "title": "Matrix comparison", "statement": "equals(A,B) is true exactly when the matrices have the same shape and all corresponding entries differ by at most 1e-4.", "quantifier": "all matrices of all shapes", "why_tests_cant": "all sizes and entries", "anchors": ["yac/lib/util/core.cpp: equals"]}
{"id": "C71", "title": "Searching for the next best view does not disturb the calibration", "statement": "find_nbv leaves cameras, extrinsics, poses, views, recorded detections and the problem handed to the optimiser exactly as they were, whatever candidates it evaluates.", "quantifier": "all calibrator states, candidate maps and information values", "why_tests_cant": "every candidate and every information outcome", "anchors": ["yac/lib/calib_camera.cpp: find_nbv, add_view, remove_view"]}
{"id": "C72", "title": "A new view starts from the camera that saw most", "statement": "When add_view creates a pose for a new timestamp, the pose is the one estimated by the calibrated camera with the most detected corners, transformed into the first camera's frame by that camera's extrinsics.", "quantifier": "all calibrator states and detection maps", "why_tests_cant": "all numbers of cameras and detections", "anchors": ["yac/lib/calib_camera.cpp: add_pose, add_view"]}
{"id": "C73", "title": "Detections are filed under their camera and timestamp", "statement": "add_camera_data records the timestamps of all grids and files each grid under its own timestamp and the given camera, leaving everything filed under other cameras or timestamps alone.", "quantifier": "all calibrator states, cameras and grid lists", "why_tests_cant": "all histories", "anchors": ["yac/lib/calib_camera.cpp: add_camera_data"]}
{"id": "C74", "title": "Reset returns the visual-inertial calibrator to a working empty state", "statement": "After reset() the visual-inertial calibrator holds no views, no buffered measurements and no residuals, and behaves like a freshly configured calibrator: a new run of measurements initialises it and it can marginalise views again.", "quantifier": "all histories of the calibrator before and after the reset", "why_tests_cant": "all histories of calls; the fault shows only in a later window slide", "anchors": ["yac/lib/calib_vi.cpp: reset, marginalize, add_view"]}
{"id": "C75", "title": "A visual-inertial view holds exactly the measurements of its grids", "statement": "Every view of the visual-inertial calibrator holds one reprojection residual for each estimable measured corner of the detected grids it was made from, bears the timestamp of a detected grid, and buffered grids are used up once there is one per camera, before which an IMU sample changes nothing but the IMU buffer.", "quantifier": "all measurement streams", "why_tests_cant": "unbounded streams and all detection patterns", "anchors": ["yac/lib/calib_vi.cpp: calib_vi_view_t, add_measurement, add_view"]}
{"id": "C76", "title": "The fiducial parameter keeps yaw and position", "statement": "The fiducial parameter exposes only roll and pitch to the solver: whatever updates are made, its transform keeps the yaw and translation it was created with, estimate() returns the transform of the current roll and pitch and changes nothing, and an update followed by its opposite restores it.", "quantifier": "all transforms and all sequences of updates", "why_tests_cant": "continuum of poses, all histories", "anchors": ["yac/lib/calib_params.cpp: fiducial_t"]}
{"id": "C77", "title": "Simulated calibration trajectories are smooth, closed, self-consistent and keep the target in front", "statement": "lissajous_traj_t accepts exactly eight figure names. At every timestamp of its period the pose is the documented figure on a sphere around the target centre; get_velocity is the time derivative of the position in get_pose, get_acceleration the derivative of get_velocity, get_angular_velocity the rate of the rotation in get_pose and get_q_OS/get_q_OS_dot a unit quaternion for that rotation and its rate; the trajectory starts and ends at rest at the same pose above the target centre. The eight trajectories of nbt_lissajous_trajs are defined at every timestamp between start and end, rejected outside, and always have the target centre in front of the sensor at 1.2 times the larger side of the target.", "quantifier": "all figure names, periods, radii, frames, targets and timestamps", "why_tests_cant": "Derivatives hold at every instant of a continuous path; tests compare finite differences at sample times of sample trajectories.", "anchors": ["yac/lib/calib_nbt.cpp: lissajous_traj_t::lissajous_traj_t, get_q_OS, get_q_OS_dot, get_pose, get_velocity, get_acceleration, get_angular_velocity, nbt_lissajous_trajs"]}
{"id": "C78", "title": "Simulated IMU and camera data describe the trajectory they were taken on", "statement": "simulate_imu samples at ts_start, ts_start + 1/rate, ... up to and including ts_end and delivers at each instant the timestamp, pose, velocity and the accelerometer and gyroscope readings whose integration moves the body along the trajectory (rotation rate C [w]x, velocity rate C a - g). simulate_cameras stores at each frame time the pose of the rig and, for every camera, the grid this camera sees of the target from where it is then. nbt_create_timeline delivers all IMU samples and all grids that detected something at their timestamps.", "quantifier": "all trajectories, intervals, rates, camera rigs, targets and prior contents of the outputs", "why_tests_cant": "The claim is about every instant of every trajectory and about derivatives; a test looks at sample data of one trajectory.", "anchors": ["yac/lib/calib_nbt.cpp: simulate_aprilgrid, simulate_cameras, simulate_imu, nbt_create_timeline", "yac/lib/util/core.cpp: sim_imu_reset, sim_imu_measurement"]}
{"id": "C79", "title": "The next best trajectory is the one that adds most information", "statement": "nbt_find returns the index of the first trajectory whose information matrix has the greatest determinant, if that is greater than the determinant of the present information matrix, and -1 otherwise; it reports the entropies in bits of the present estimate and of the chosen one. A trajectory that could not be evaluated is never chosen.", "quantifier": "all information matrices and all lists of evaluations", "why_tests_cant": "Selection among arbitrarily many real valued candidates; tests try a few.", "anchors": ["yac/lib/calib_nbt.cpp: nbt_find"]}
{"id": "C80", "title": "Outlier removal keeps the calibration problem consistent and only removes corners", "statement": "Whatever sequence of adding, trying, removing, filtering, marginalising and solving a calibrator goes through, every corner a view holds was recorded for that camera at that time, no corner is held twice, and views, poses and the optimisation problem agree. Outlier removal treats the views it visits one after the other: it removes exactly the corners beyond the thresholds, keeps the view iff the information it contributes exceeds the threshold, counts what it removed, and leaves camera parameters, extrinsics and pose values as they were.", "quantifier": "every history of a calibrator, every numerical behaviour of the solver, of pose estimation and of the information measure, every threshold", "why_tests_cant": "The effect of one call depends on the outcome of two trial solves per view and on the whole history; tests see a few data sets on which pose estimation and the information measure never fail.", "anchors": ["yac/lib/calib_camera.cpp: calib_camera_t::_remove_outliers, _restore_estimates, _cache_estimates, add_view, remove_view"]}
{"id": "C81", "title": "Next-best-view calibration tries each frame once, in order, and stops as configured", "statement": "Next-best-view calibration tries every recorded frame in which something was detected, in the order of corners and motion; the history holds one outcome per tried frame; it stops at the first frame at which more views in a row were rejected than the threshold; the views it ends with were accepted; with marginalisation there are never more views than the window; every accepted view lowers the information measure by twice the threshold.", "quantifier": "every data set loaded into a calibrator, every shuffle, every setting, every numerical behaviour", "why_tests_cant": "The loop, its early stop, and the sliding window depend on the sequence of outcomes; tests run a few recordings whose poses can all be estimated.", "anchors": ["yac/lib/calib_camera.cpp: calib_camera_t::_calculate_motion, _solve_nbv, _track_estimates, add_nbv_view, marginalize, _filter_all_views"]}
{"id": "C82", "title": "Batch calibration uses every detected frame; incremental calibration keeps the window", "statement": "Batch calibration makes a view of every recorded frame in which something was detected, with all corners of the calibrated cameras, and solves; calling it again does no harm. Incremental calibration solves and ends with the views of the last frames of the window.", "quantifier": "every data set loaded into a calibrator, every window, every numerical behaviour", "why_tests_cant": "The claim ranges over all data sets and window sizes; tests use one recording that is longer than the window.", "anchors": ["yac/lib/calib_camera.cpp: calib_camera_t::_solve_batch, _solve_inc, solve, add_view, marginalize"]}
{"id": "C83", "title": "The C reader of CSV files delivers the table in the file", "statement": "For a text file of comments and rows of cells, csv_rows returns the number of rows, csv_cols the number of cells of the first row, csv_fields the names in the last comment before it, and csv_data every number of every row; a missing file is reported by -1 or NULL.", "quantifier": "every file: any comments, any number of rows and columns, any cell texts, any length of lines", "why_tests_cant": "Fixed buffers, the order of comments and rows, and the shape of the table decide between a correct result and undefined behaviour; tests use one square-ish sample file.", "anchors": ["yac/lib/util/data.cpp: csv_rows(const char *), csv_cols(const char *), csv_fields, csv_data"]}
{"id": "C84", "title": "Array files of the C interface are read back element by element", "statement": "load_iarrays and load_darrays deliver one array per row of the file: the announced length followed by the elements.", "quantifier": "every file of rows that begin with their length, any comments, any lengths and numbers", "why_tests_cant": "Whether the elements fit the allocated memory depends on the announced length and on the line length; tests that read one file cannot see a write of one element past the end.", "anchors": ["yac/lib/util/data.cpp: parse_iarray_line, load_iarrays, parse_darray_line, load_darrays"]}
{"id": "C85", "title": "The byte readers return little-endian integers", "statement": "uint16 and uint32 return the little-endian value of the bytes at the offset, int8, int16 and sint32 the two's complement number with that bit pattern.", "quantifier": "every buffer and offset", "why_tests_cant": "The claim is about all 2^32 bit patterns and every offset, including those at the end of the buffer.", "anchors": ["yac/lib/util/data.cpp: int8, uint8, int16, uint16, sint32, uint32"]}
{"id": "C86", "title": "Marginal covariance of the solver", "statement": "estimate_covariance(params) returns, for the requested parameters that are not fixed and in the order given, exactly their rows and columns of the inverse of the information matrix sum J\u1d40J of all optimised parameters, and fails cleanly otherwise", "quantifier": "every list of evaluated residuals with any Jacobians, any parameter types, sizes and fixed flags, every list of requested parameters", "why_tests_cant": "the result depends on the layout of every parameter block, on a pseudo inverse with a threshold and on a check that only looks at a sum of entries; tests compare one well scaled problem", "anchors": ["yac/lib/solver.cpp:solver_t::estimate_covariance"]}
{"id": "C87", "title": "The reported visual-inertial cost is that of the optimisation problem", "statement": "After any sequence of measurements, resets and solves, the cost a visual-inertial calibrator reports is half the sum of the squares of the residuals that are in its optimisation problem; if a residual cannot be evaluated the query fails.", "quantifier": "every history of calls, every value of the residuals", "why_tests_cant": "which residuals are counted depends on the whole history of views, IMU factors, marginalisations and removed outliers", "anchors": ["yac/lib/calib_vi.cpp: calib_vi_t::cost, calib_vi_t::eval_residuals"]}
{"id": "C88", "title": "Outlier rejection removes the outliers and nothing else", "statement": "When solve() rejects outliers, each view loses exactly the measurements whose reprojection error is longer than the configured factor times the standard deviation of the errors in the view; the optimisation problem loses exactly the same residuals; times, grids, IMU factors and everything else stay, and the number reported is the number removed.", "quantifier": "every history of calls, every value of the reprojection errors, every factor", "why_tests_cant": "the set removed depends on all errors of a view; that view and problem stay consistent must hold after every history", "anchors": ["yac/lib/calib_vi.cpp: calib_vi_view_t::filter_view, calib_vi_t::solve"]}
{"id": "C89", "title": "solve() of the visual-inertial calibrator keeps fixed parameters fixed", "statement": "solve() hands the whole problem to the solver; every parameter that the user asked to keep fixed is held constant in every run of the solver, and no other.", "quantifier": "every history of calls, every setting of fixed parameters, with and without outlier rejection", "why_tests_cant": "the sets of constant blocks and residuals must be right in every run of the solver, after every history", "anchors": ["yac/lib/calib_vi.cpp: calib_vi_t::solve, calib_vi_t::add_imu"]}
{"id": "C90", "title": "Queries of the visual-inertial calibrator", "statement": "The camera and IMU rates are the reciprocal of the median gap between consecutive times, fail for fewer than two, and lie between the rates of the shortest and longest gap; a pose or speed query by time answers for the one view at that time and fails or answers nothing if there is none; the reprojection errors are listed by camera, one per measurement.", "quantifier": "every sequence of times, every history of calls, every monotone rounding", "why_tests_cant": "medians, orders and uniqueness are statements about all sequences and histories", "anchors": ["yac/lib/calib_vi.cpp: get_camera_rate, get_imu_rate, get_imu_pose, get_pose_param, get_sb_param, get_reproj_errors"]}
{"id": "C91", "title": "Next-best-view mocap calibration keeps a consistent problem", "statement": "Whatever the order in which calib_mocap tries its views, whatever the optimiser answers and whatever the information is: constructing, adding, trying, filtering and removing views never fails on a legal history; the views, their corners, the mocap poses and the problem handed to the optimiser agree at every moment; every grid in which something was detected is tried exactly once, the first four are kept without asking, the views that remain are those not rejected, in the order tried; and every view kept later lowers the stored log-determinant by at least twice the configured gain.", "quantifier": "all detected grids, mocap poses, estimators, optimiser outcomes, information values, thresholds, orders of views and histories of add/try/remove/filter/solve calls", "why_tests_cant": "The outcome of each step depends on numerical results and a random order of views; the invariant must survive every combination.", "anchors": ["yac/lib/calib_mocap.cpp: calib_mocap_t, _add_view, _remove_view, solve_nbv, mocap_view_t", "yac/lib/solver.cpp: ceres_solver_t"]}
{"id": "C92", "title": "A rejected view leaves the mocap calibration as it was", "statement": "A view that is rejected by solve_nbv changes nothing: intrinsics, target pose, extrinsics, other mocap poses, stored information and the other views with their corners are as before. (The code restores seven of eight intrinsics, and removes outliers of other views before remembering anything: refuted; the rest is proved.)", "quantifier": "all calibrators reached by legal histories, all views, optimiser outcomes and thresholds", "why_tests_cant": "Needs a comparison of whole states before and after, for every outcome of the optimiser.", "anchors": ["yac/lib/calib_mocap.cpp: solve_nbv, _cache_estimates, _restore_estimates, calib_mocap_cache_t"]}
{"id": "C93", "title": "Mocap calibration with all views, outlier removal and fixed parameters", "statement": "solve() of a new calibrator uses one view for every grid with all its corners, solves, removes from views and problem exactly the corners beyond one common threshold and solves again; outlier removal answers with the number of corners removed; parameters the user fixed never change in any history; and solve() may be called again. (The last is refuted: the residuals of the replaced views stay in the problem after they are freed.)", "quantifier": "all calibrators, histories of calls, optimiser outcomes, thresholds", "why_tests_cant": "The set of removed corners and the fixed parameters have to be followed through every history.", "anchors": ["yac/lib/calib_mocap.cpp: solve, _filter_all_views, _filter_last_view, filter_view"]}
{"id": "C94", "title": "Body poses are interpolated at the times of the target observations", "statement": "lerp_body_poses keeps exactly the grids strictly between the first and last (time shifted) body samples, in their order, and gives one pose for each of them, interpolated at the time of the grid between the two neighbouring body samples that bracket it. (Refuted when no grid lies between the samples, when two grids lie between two neighbouring samples, and when grids are not chronological; proved when every two consecutive grids are separated by a sample.)", "quantifier": "all lists of body samples and grids, all interpolation functions, all time offsets", "why_tests_cant": "Which samples are neighbours depends on the interleaving of two time series of any length.", "anchors": ["yac/lib/calib_data.cpp: lerp_body_poses"]}
{"id": "C95", "title": "Preprocessing detects every image once, whatever the schedule, and can be resumed", "statement": "calib_data_preprocess run by any number of threads in any interleaving returns, for every image with a timestamp name, exactly the grid the detector finds in it (or the grid stored by an earlier run), and leaves one file per grid; the cameras are independent; what the camera calibrator makes of the result does not depend on the schedule; run again, it answers the same without detecting anything. (Refuted: a crash in the middle of a save leaves a torn file that is read as a complete grid; a grid without detections cannot be used after reloading; the second file format cannot be read back; the order of the result depends on the schedule, and lerp_body_poses depends on the order.)", "quantifier": "all sets of images, detectors, earlier grid directories, numbers of threads, interleavings and crash points", "why_tests_cant": "There are exponentially many interleavings and crash points; a test runs one.", "anchors": ["yac/lib/calib_data.cpp: calib_data_preprocess", "yac/lib/aprilgrid.cpp: aprilgrid_t::save, load, loadv2"]}
{"id": "C96", "title": "The score of a candidate view is the uncertainty the calibration would be left with", "statement": "nbv_evaluator_t(calib).eval(candidate) is the binary logarithm of the determinant of the covariance that the calibration parameters (cameras, and extrinsics that are not fixed) have once the residuals of the candidate view are added to those of the calibration, with all poses marginalised; it is infinite exactly if the information matrix is singular. (Refuted for the first view, for fixed cameras and for cameras only the candidate sees; proved otherwise, whatever the numbers of cameras, views and residuals, if the information matrix of the poses has no eigenvalue below the threshold.)", "quantifier": "all numbers of cameras and views, all residual Jacobians, all candidates, all eigen and singular value decompositions that meet their contract", "why_tests_cant": "The score is a function of Jacobians of any size; the statement relates it to the inverse of a matrix the code never forms, for every decomposition the library may return.", "anchors": ["yac/lib/calib_camera.cpp: nbv_evaluator_t::nbv_evaluator_t, form_param_order, form_hessian, estimate_log_det_covar, eval"]}
{"id": "C97", "title": "The focal length of a fisheye image of the board is found exactly", "statement": "For a completely seen image of the calibration board under an equidistant projection of focal length f (each line of corners lies on a circle, and neighbouring circles meet in the two vanishing points, f\u00b7\u03c0 apart), focal_init(grid, axis) returns exactly f, for every board size, every axis and every least-squares solver; an image in which corners are missing gives no focal length. (Refuted for boards whose corner was detected several times while others are missing: the process stops; and for neighbouring lines on one circle.)", "quantifier": "all board sizes, all images, both axes, all focal lengths, all least-squares solvers", "why_tests_cant": "The value is a median over a number of intersections that grows with the board, of circles fitted by least squares; a test fixes one board and one focal length.", "anchors": ["yac/lib/calib_params.cpp: focal_init", "yac/lib/util/core.cpp: fit_circle, intersect_circles, median"]}
{"id": "C98", "title": "The intrinsics a camera starts from", "statement": "A camera added without intrinsics starts with the focal length that the data added for it gave (the median over at least four completely seen boards), else with that of a field of view of 120 degrees; with its principal point at the centre of the image; without distortion; with the fixed flags asked for (camera 0 always has fixed extrinsics); no other camera changes; models other than pinhole with radtan4 or equi4 are refused; it does not matter whether the data or the camera is added first. (Refuted: data added in several calls does not count together, and intrinsics the user fixed are overwritten.)", "quantifier": "all resolutions, models, numbers of cameras and boards, all orders of the calls", "why_tests_cant": "The result depends on the whole history of calls, and on numbers of images that are not bounded.", "anchors": ["yac/lib/calib_camera.cpp: calib_camera_t::add_camera, add_camera_data", "yac/lib/calib_params.cpp: camera_params_t::init, proj_params, dist_params"]}
{"id": "C99", "title": "The initialisation solves every camera alone, then all of them", "statement": "calib_camera_t::solve first calibrates the intrinsics of every camera as if it were the only one, then starts the joint problem with every camera at the relative pose of a frame that it and camera 0 both see; the frames used are exactly those in which something was detected; the pose of a frame starts from the grid with the most detections; each detected corner is one measurement; fixed intrinsics are not changed; camera 0 is the origin. (Refuted: extrinsics that the user fixed are overwritten and freed, and one frame whose pose cannot be estimated makes the initialisation fail.)", "quantifier": "all numbers of cameras and frames, all pose estimators, all solvers", "why_tests_cant": "Independence of the cameras compares two runs on different data sets, for every solver; no test enumerates these.", "anchors": ["yac/lib/calib_camera.cpp: calib_initialize, calib_camera_t::_initialize_intrinsics, _initialize_extrinsics", "yac/lib/calib_camera.hpp: camchain_t"]}
{"id": "C100", "title": "The validation error is the root mean square reprojection error", "statement": "calib_camera_t::inspect(valid_data) returns the root mean square, over all detected corners that project, of the distance between corner and projection, where the pose of the board at a time is the first that can be estimated in the order of the cameras; it is 0 for exact images and exact poses. (Refuted for calibrated cameras that took no validation images: it throws; and for boards whose pose cannot be estimated: the pose is not initialised.)", "quantifier": "all calibrators, all validation data, all pose estimators and camera models", "why_tests_cant": "The value is a sum over data of any size; the failures depend on combinations of cameras and times.", "anchors": ["yac/lib/calib_camera.cpp: calib_camera_t::inspect"]}
{"id": "C101", "title": "Information and entropy are those of the joint covariance of the free parameters", "statement": "After a solve, the calibrator reports as information the binary logarithm of the determinant of the joint covariance of all intrinsics and extrinsics that are not fixed, and as entropy the differential entropy of the normal distribution with that covariance; half the difference of the information of two calibrations, which is compared with the threshold when a view is added, is the loss of entropy in bits; if the covariance cannot be computed no information is reported. (Refuted: a singular covariance is reported as information -infinity; a fixed parameter handed to estimate_covariance overwrites the covariance of a free one; a mocap calibration with fixed extrinsics writes out of bounds.)", "quantifier": "all numbers and sizes of parameters, all patterns of fixed parameters, all covariances", "why_tests_cant": "The matrix is assembled from blocks whose number and sizes depend on the problem; a test fixes a handful.", "anchors": ["yac/lib/solver.cpp: ceres_solver_t::estimate_covariance, estimate_log_det_covar", "yac/lib/calib_camera.cpp: calib_camera_t::_calc_info", "yac/lib/calib_mocap.cpp: calib_mocap_t::_calc_info"]}
{"id": "C102", "title": "A simulated data set is the exact record of a motion on a circle", "statement": "For every positive radius, the simulated data set contains a camera frame for every thirtieth and an IMU sample for every four-hundredth of a second of one round at 0.3 m/s: recorded positions, velocities and attitudes satisfy the equations of motion with the recorded accelerometer and gyroscope values; camera and IMU are rigidly mounted with a constant relative pose; every frame lists exactly the features whose image lies inside the frame, with their image, in ascending order; the timeline has every frame and every sample once, ordered by time; features lie on the walls of the room, a quarter on each; the initial estimates of the camera poses are within 0.1 m and one degree per axis of the true ones. A radius of zero is a division by zero.", "quantifier": "all radii, all random numbers, all times", "why_tests_cant": "The random numbers, the radius and the times range over uncountable sets.", "anchors": ["yac/lib/calib_sim.cpp: vio_sim_data_t::vio_sim_data_t, calib_sim_data_t::calib_sim_data_t, create_3d_features, create_3d_features_perimeter", "yac/lib/util/core.cpp: add_noise, randf"]}
{"id": "C103", "title": "Sparse matrices are what the dense ones were", "statement": "Converting a dense matrix to the compressed-column form used by the least squares solver and back, for any size, threshold and content of fresh memory, never writes outside of an array and gives the same matrix with the entries not above the threshold set to zero; a matrix flagged symmetric is read from its upper triangle alone; the column norm is the Euclidean norm of the column; the numerical rank of descending singular values is the number of those above the tolerance, and gap and log-sum are those of the values counted.", "quantifier": "all matrices of all sizes, all thresholds, all contents of uninitialised memory, all descending sequences", "why_tests_cant": "Sizes and values are unbounded; memory contents are arbitrary.", "anchors": ["yac/lib/suitesparse.cpp: cholmod_convert, colNorm, estimateNumericalRank, rankTol, svGap, truncated_solver_t::getSingularValuesLog2Sum"]}
{"id": "C104", "title": "The sparse least squares solver solves the problem, whatever it marginalises", "statement": "For every overdetermined system and every number of leading unknowns that are eliminated first: if these columns are independent beyond the tolerance, the cached symbolic factorisation is that of this sparsity pattern and no eigenvalue of the reduced information lies between zero and the tolerance, the solver succeeds, the residual is orthogonal to every column that is not negligible, unknowns of negligible columns are zero, and no vector has a smaller sum of squares; the Gauss-Newton step computed with it satisfies the normal equations and is a descent direction; without the gap, the residual is still orthogonal to every eliminated column and to every direction with information above the tolerance; the determinant estimate is the natural logarithm of the determinant of the covariance of the remaining unknowns.", "quantifier": "all matrices of all sizes, all right hand sides, all numbers of eliminated unknowns, all options, all cache contents, all QR and SVD routines that satisfy their contracts", "why_tests_cant": "Sizes and values are unbounded and the factorisation routines are not unique.", "anchors": ["yac/lib/suitesparse.cpp: truncated_solver_t::solve, truncated_solver_t::analyze_marginal, reduceLeftHandSide, reduceRightHandSide, solveSVD, solveQR, columnScalingMatrix, rowSubmatrix, columnSubmatrix", "yac/lib/solver.cpp: solver_t::estimate_log_det_covar, yac_solver_t::_solve_gn"]}
{"id": "C105", "title": "Feature grids spread the keypoints over the image", "statement": "For every image, grid and detector: sort_keypoints returns the requested number of keypoints with the largest responses (rounded towards zero); grid_fast and grid_good cut the image into cells that cover every pixel once and return, cell by cell, the best keypoints of the cell up to the limit per cell; every point returned lies inside the image and under the mask; no more points than requested are returned; draw_grid_features draws the borders of these cells.", "quantifier": "all image sizes, all grids, all limits, all masks, all results of the corner detectors within their contract, all outcomes of the sort", "why_tests_cant": "Image sizes, grids and detector results are unbounded.", "anchors": ["yac/lib/util/cv.cpp: sort_keypoints, grid_fast, grid_good, draw_grid_features"]}
{"id": "C106", "title": "Matrices survive the conversion between Eigen and OpenCV", "statement": "For every matrix: converting Eigen to OpenCV and back, or a double OpenCV matrix to Eigen and back, gives the same matrix; is_equal holds exactly for matrices of the same size with equal elements; conversions to grey and colour have the right number of channels and are idempotent.", "quantifier": "all sizes and all elements", "why_tests_cant": "Sizes and elements are unbounded.", "anchors": ["yac/lib/util/cv.cpp: convert, is_equal, gray2rgb, rgb2gray"]}
{"id": "C107", "title": "A continuous trajectory passes through its poses and its velocities are its derivatives", "statement": "For every list of at least five positions and unit orientations and every time range with room for them: the constructor returns; every pose is a rigid transform; at the time of each given pose the pose is the given one; the velocity, acceleration and angular velocity returned are the derivatives of the pose with respect to time in seconds; the table saved has one row for each given pose with its time, position, orientation and velocity; inputs of different lengths or of no duration and queries outside are refused.", "quantifier": "all lists of poses, all time ranges, all query times, every interpolation that passes through its data and is twice differentiable", "why_tests_cant": "Derivatives and all query times; the loop that unwraps rotation vectors is unbounded.", "anchors": ["yac/lib/util/core.cpp: ctraj_t, ctraj_init, ctraj_get_pose, ctraj_get_velocity, ctraj_get_acceleration, ctraj_get_angular_velocity, ctraj_save", "yac/lib/util/core.hpp: ctraj_t, linspace"]}
{"id": "C108", "title": "The initial attitude levels the mean acceleration and has no yaw", "statement": "imu_init_attitude returns, for any accelerometer samples whose mean over the first buffer_size samples is not zero, a rotation that maps the direction of the mean onto the upward vertical and whose yaw is zero, and it is the only such rotation in the roll-pitch form; a device at rest in attitude R with zero yaw gets R back. Fewer samples than buffer_size read outside the vector; buffer_size 0 divides zero by zero; in free fall the result is the identity.", "quantifier": "every list of samples, every buffer size, every mean direction including upside down", "why_tests_cant": "the result depends on the real direction of the mean; the upside-down and level cases are measure zero and any finite test set misses them", "anchors": ["yac/lib/util/core.cpp: imu_init_attitude, vecs2rot, quat2euler, euler321"]}
{"id": "C109", "title": "Exp maps a rotation vector to its rotation, and Jr is the right Jacobian of Exp", "statement": "lie::Exp(phi) is the rotation about phi by the angle |phi|, and lie::Jr(psi) is its right Jacobian: when the vector moves with rate v', the rotation turns in its own frame with rate Jr v'. Exp keeps its axis and Exp(-phi) is the transpose.", "quantifier": "every rotation vector and every differentiable path of rotation vectors", "why_tests_cant": "derivatives and the identity on all vectors cannot be sampled; the small-angle branch is off by terms below any test tolerance", "anchors": ["yac/lib/util/core.cpp: lie::Exp, lie::Jr"]}
{"id": "C110", "title": "Pseudo-inverse, SVD solve and rank tests give the linear algebra they name", "statement": "pinv(A, tol) is the Moore-Penrose pseudo-inverse (the inverse, for an invertible matrix), linsolve_dense_svd(A, b) the least-squares solution of least length, full_rank(A) true exactly for invertible matrices.", "quantifier": "every real matrix of every shape, every right-hand side, every singular value decomposition meeting its contract", "why_tests_cant": "quantifies over all matrices, including those whose singular values sit at the tolerance", "anchors": ["yac/lib/util/core.cpp: pinv, rank, full_rank", "yac/lib/solver.cpp: linsolve_dense_svd"]}
{"id": "C111", "title": "Random normals come in polar pairs; a perturbed pose stays within the bounds", "statement": "gauss_normal takes pairs of rand() until a point falls inside the unit circle, returns x and then y along that point with x^2 + y^2 = -2 ln s, the second call taking no number. tf_perturb moves each coordinate by at most |dr|, turns about each fixed axis by at most |drot|, and the result is a pose. rmse of vectors is componentwise.", "quantifier": "every stream of rand() results, every pose, every bound", "why_tests_cant": "the rejection loop and the rare tiny angle depend on the whole random stream", "anchors": ["yac/lib/util/core.cpp: gauss_normal, tf_perturb, tf_perturb_rot, tf_perturb_trans, rmse"]}
{"id": "C112", "title": "Numerical Jacobians", "statement": "For every block of plain parameters, the numerical Jacobian of a residual holds for each component the central difference quotient of the residuals at the parameters moved forward and backward by the step, and leaves the parameters as they were; it tends to the partial derivatives as the step goes to zero, and is exact for residuals quadratic along the component. For a pose the columns are the central differences along and about the three axes and the pose is left the same rigid transform. The Jacobian check succeeds exactly if every entry of the analytic Jacobian is within the tolerance of the forward difference quotient; for small steps it accepts the right Jacobian and rejects one wrong by more than the tolerance. The time delay Jacobian of the IMU residual is the slope of the residual with respect to the delay, up to the whole nanoseconds delays are truncated to.", "quantifier": "all parameter values, block sizes, residual functions, steps and tolerances; all IMU data, delays and steps", "why_tests_cant": "tests check one residual at one parameter value with one step; the statements quantify over every residual function, parameter value, step size (including the limit) and delay", "anchors": ["yac/lib/calib_residuals.cpp: calib_residual_t::get_numerical_jacobian", "yac/lib/calib_residuals.cpp: calib_residual_t::check_jacs", "yac/lib/calib_residuals.cpp: imu_residual_t::EvaluateWithMinimalJacobians"]}
{"id": "C113", "title": "Information matrix of a visual-inertial calibration", "statement": "For every set of views and IMU factors, the matrix formed for the information gain has disjoint column ranges for the free parameters, extrinsics first, covering it exactly, and each entry is the information that all residuals of the views and the marginalisation residual hold about the two components; the order in which residuals are stored does not matter, and a residual that cannot be evaluated is a fatal error.", "quantifier": "all sets of views, residual functions, Jacobians, fixed flags and iteration orders of the hash map", "why_tests_cant": "a test sees one problem and one iteration order of the unordered container; the statement is over every problem and every order", "anchors": ["yac/lib/calib_vi.cpp: calib_vi_t::eval_residuals", "yac/lib/calib_vi.cpp: calib_vi_t::form_hessian"]}
{"id": "C114", "title": "Recovered covariance of the IMU extrinsics", "statement": "For every visual-inertial calibration problem that determines all its free parameters, the recovered information of the IMU-camera extrinsics is the symmetric positive definite marginal information (the least sum of squares any values of the other parameters leave when the extrinsics move) and the recovered covariance is its inverse; if the problem does not determine its parameters, or the extrinsics are fixed, neither is returned.", "quantifier": "all Jacobians of the problem with respect to the extrinsics and the other parameters, of every size and rank", "why_tests_cant": "a test compares one problem; marginalisation and rank deficiency are statements about every Jacobian", "anchors": ["yac/lib/calib_vi.cpp: calib_vi_t::recover_calib_covar", "yac/lib/calib_vi.cpp: calib_vi_t::recover_calib_info"]}
{"id": "C115", "title": "Reported reprojection errors and metrics", "statement": "For every set of views the camera and motion-capture calibrations report the pixel distances of exactly the corners that project into the image, in the order of views and cameras; the per-camera lists partition the list of all errors; the printed number of corners, RMSE, mean, median and standard deviation are the statistics of these lists, and the per-camera blocks add up to the total. The same holds for the visual-inertial calibration.", "quantifier": "all views, cameras, corner measurements, poses and camera parameters, including corners that do not project", "why_tests_cant": "tests print the report of one data set; agreement of the two queries, the partition and the behaviour for failing corners are statements about every history of views", "anchors": ["yac/lib/calib_camera.cpp: calib_camera_t::get_reproj_errors", "yac/lib/calib_camera.cpp: calib_camera_t::get_all_reproj_errors", "yac/lib/calib_camera.cpp: calib_camera_t::print_metrics", "yac/lib/calib_vi.cpp: calib_vi_t::get_reproj_errors", "yac/lib/calib_vi.cpp: calib_vi_t::print_stats", "yac/lib/calib_mocap.cpp: calib_mocap_t::get_reproj_errors", "yac/lib/calib_residuals.cpp: reproj_residual_t::get_reproj_error", "yac/lib/calib_residuals.cpp: fiducial_residual_t::get_reproj_error", "yac/lib/calib_residuals.cpp: mocap_residual_t::get_reproj_error"]}
{"id": "C116", "title": "Weighting of residuals", "statement": "The square-root information every residual is multiplied by is an upper-triangular factor U of the information matrix inv(covar), U' U = inv(covar), whenever the covariance is positive definite, so that the squared norm of the weighted residual is the Mahalanobis distance e' inv(covar) e; identity covariance leaves residuals unchanged.", "quantifier": "every covariance matrix of every size and every residual vector", "why_tests_cant": "The claim is for all symmetric positive definite matrices of any size; and it must be known what happens for the others, since the status of the factorisation is never examined.", "anchors": ["yac/lib/calib_residuals.cpp: prior_t, pose_prior_t, reproj_residual_t, fiducial_residual_t, mocap_residual_t, imu_residual_t::redo"]}
{"id": "C117", "title": "Loading the data of a camera calibration", "statement": "load_data reads for every camera and timestamp the last grid file named after it and nothing else, makes a view at exactly the timestamps at which something was detected, out of exactly the corners in the files, adds exactly their residuals to the problem, and sets the pose of every view listed in camera_poses.csv to the last row of its timestamp; solving afterwards uses every measurement once.", "quantifier": "every data set: any number of cameras, files, corners and pose rows, and any reachable calibrator without data", "why_tests_cant": "The set of files, their names, contents and the pose table are unbounded, and the claim about the problem is about the whole state of calibrator and solver.", "anchors": ["yac/lib/calib_camera.cpp: calib_camera_t::_load_views, _load_camera_poses, load_data, solve", "yac/lib/util/aprilgrid.cpp: aprilgrid_t::aprilgrid_t", "yac/demo/calib_camera.cpp"]}
{"id": "C118", "title": "Loading the data of a visual-inertial calibration", "statement": "load_data hands every grid and every IMU sample over exactly once, in the order of their timestamps, whatever order the preprocessing threads returned the grids in; if all cameras have grids at the same times, a frame is processed exactly if an IMU sample precedes it and it is the newest one when the next sample arrives, and the views are those processed frames in which the target was seen, from the first one with three samples on, each made of the grids of all cameras at its time; tables of poses and speed-biases set the views they list to the last row of their time.", "quantifier": "every data set: any number of cameras, frames, IMU samples, detections and table rows, every order of the preprocessed grids", "why_tests_cant": "The data sets are unbounded and the preprocessing order depends on the thread schedule.", "anchors": ["yac/lib/calib_vi.cpp: calib_vi_t::load_data, calib_vi_t::add_measurement", "yac/lib/util/core.cpp: tsform", "yac/lib/util/timeline.cpp: timeline_t::add"]}
{"id": "C119", "title": "Image intake: detections come from the latest image of every camera", "statement": "Images that arrive before the first IMU sample are refused and leave no trace. Afterwards an image is answered with true exactly when no camera that has sent images so far has only older ones; then the grids waiting for the next IMU sample are exactly those detected in the latest image of every camera, with pixels in full resolution whatever the detection scale, and otherwise the waiting grids stay as they were. For the camera-only calibrator every image gives the grid of that image.", "quantifier": "every history of images, grids, IMU samples and resets, of any number of cameras, every image scale and every detector result", "why_tests_cant": "Which images are paired depends on the whole interleaving of the calls, and detection results are arbitrary.", "anchors": ["yac/lib/calib_vi.cpp: calib_vi_t::add_measurement(image), calib_vi_t::reset", "yac/lib/calib_camera.cpp: calib_camera_t::add_measurement", "yac/lib/util/aprilgrid.cpp: aprilgrid_detector_t::detect"]}
{"id": "C120", "title": "Levenberg-Marquardt makes progress, keeps stationary points and converges for linear problems", "statement": "solver_t::solve (Levenberg-Marquardt, with its own cost, normal equations, damping and sparse QR) never returns parameters with a larger sum of squares than the initial ones and never moves fixed parameters; if the residuals can be evaluated near the initial parameters, have correct Jacobians and the gradient is not zero, then with enough iterations the sum of squares is smaller; parameters with zero gradient are returned unchanged; if the residuals are affine functions with curvature above the rounding unit, the distance to the solution is multiplied by less than one in every iteration and becomes arbitrarily small.", "quantifier": "every problem (parameters, residual functions, Jacobians), every initial value, every damping above the rounding unit, every max_iter, every sparse QR that meets its specification", "why_tests_cant": "Convergence and descent are statements about all problems and all iteration counts; a test runs one problem.", "anchors": ["yac/lib/solver.cpp: solver_t::_solve_lm, _calculate_cost, _eval_residuals, _form_hessian, _update, _cache_params, _restore_params", "yac/lib/solver.hpp: solver_t"]}
{"id": "C121", "title": "A calibrator is built exactly as its configuration file says", "statement": "Constructing calib_camera_t, calib_vi_t or calib_mocap_t from a configuration file whose sections are maps succeeds exactly when the file gives the calibration target completely, gives every camera that has a section cam0..cam99 a resolution, a supported pair of models (and, for visual-inertial calibration, parameters and a pose), has at least one camera, and every other key that is present can be converted; the calibrator then has exactly the settings, target, cameras, poses, IMU parameters and loss functions of the file, with the documented defaults for the optional keys that are missing.", "quantifier": "All documents (trees of maps, sequences and scalars), all conversions of scalars, all settings; settings or cameras may be present or absent in any combination.", "why_tests_cant": "There are unboundedly many documents; tests sample a few files. Repeated look-ups share (and may modify) the YAML tree, so an error in an early look-up can change a later one.", "anchors": ["yac/lib/calib_camera.cpp: calib_camera_t::calib_camera_t, add_camera", "yac/lib/calib_vi.cpp: calib_vi_t::calib_vi_t, add_imu, add_camera, _create_loss_fn", "yac/lib/calib_mocap.cpp: calib_mocap_t::calib_mocap_t", "yac/lib/calib_data.cpp: calib_target_t::load", "yac/lib/core.hpp: parse"]}
{"id": "C122", "title": "EuRoC datasets are read as they are on disk", "statement": "Reading an EuRoC directory gives, for every data.csv with a header and well-formed lines (either line ending), the timestamps, angular velocities, accelerations, image paths and ground-truth states of all lines in order, together with the values of sensor.yaml; a missing file, image or key, or a blank line, is fatal. A dataset has the events of both cameras and the IMU at each time, its first and last timestamp, and the relative time of every timestamp; calibration data keeps equal numbers of images for both cameras.", "quantifier": "every disk, directory, number and content of lines, configuration document, and every value that may lie behind the end of the set of timestamps", "why_tests_cant": "Tests read one or two recordings; files, names, timestamps and numbers of images are unbounded, and the out-of-bounds read shows only by chance.", "anchors": ["yac/lib/util/euroc.hpp:euroc_imu_t", "yac/lib/util/euroc.hpp:euroc_camera_t", "yac/lib/util/euroc.hpp:euroc_ground_truth_t", "yac/lib/util/euroc.hpp:euroc_data_t", "yac/lib/util/euroc.hpp:euroc_target_t", "yac/lib/util/euroc.hpp:euroc_calib_t"]}
{"id": "C123", "title": "Gimbal kinematics: residuals, initial target pose and report", "statement": "The residual of a corner is the difference between its pixel and the pinhole image of the point of the camera frame that the chain body - gimbal - joint - link - joint - link - joint - end effector - camera carries to the point of the target; it is zero exactly if the pixel is that image. It does not change if body and target are moved together, nor if a joint offset is moved into a neighbouring frame. The joint residual is the deviation over the standard deviation. If all views agree, the initial target pose is their common pose. The report compares each transform with its ground truth.", "quantifier": "all poses with unit quaternions, joint angles, corners, cameras and lists of views", "why_tests_cant": "The chain has nine transforms and the invariances hold for every motion; tests compare a few numbers, and a wrong sign or swapped frame can hide in the free parameters.", "anchors": ["yac/demo/calib_gimbal.cpp:GimbalReprojError", "yac/demo/calib_gimbal.cpp:GimbalJointError", "yac/demo/calib_gimbal.cpp:CalibData::init_fiducial_pose", "yac/demo/calib_gimbal.cpp:CalibEval", "yac/demo/calib_gimbal.cpp:pose_perturb"]}
{"id": "C124", "title": "Gimbal text files are read as written", "statement": "A well-formed calib.config (counts, camera sections with any indentation, six transforms) is read as written; a missing file, a missing line or another key is fatal. joint_angles.dat with three angles per row gives the timestamps in order and, for every timestamp, the angles of its last row. Splitting a line gives its non-empty pieces and never writes beyond its array.", "quantifier": "all files, numbers of cameras and rows, texts of numbers and names, line contents, with and without assertions", "why_tests_cant": "C string parsing with fixed buffers fails only for particular lengths and contents; files are unbounded.", "anchors": ["yac/demo/calib_gimbal.cpp:parse_key_value", "yac/demo/calib_gimbal.cpp:parse_vector_line", "yac/demo/calib_gimbal.cpp:string_split", "yac/demo/calib_gimbal.cpp:CalibData::load_config", "yac/demo/calib_gimbal.cpp:CalibData::load_joints", "yac/demo/calib_gimbal.cpp:save_results"]}
{"id": "C125", "title": "Gimbal optimisation problem: data split, cost, fixed parameters, saved results", "statement": "For every shuffle four fifths of the timestamps (rounded down, in double arithmetic) are used for training and the others for the test, without overlap. The cost is the sum of squared pixel errors of all corners of both cameras at the training timestamps plus the squared joint deviations. Camera poses, gimbal pose and body pose are not changed by the solver, and neither are two coordinates of the link offsets. After the optimisation the results are written.", "quantifier": "all lists of timestamps, shuffles, grids, parameters and states of the solver", "why_tests_cant": "The shuffle is random and the data unbounded; which timestamps are dropped, how often a measurement counts and when the results are lost cannot be seen in one run.", "anchors": ["yac/demo/calib_gimbal.cpp:main", "yac/demo/calib_gimbal.cpp:inspect_calib"]}
{"id": "C126", "title": "Results are printed with enough digits", "statement": "A double printed at full precision (vec2str and mat2str with max_digits, 17 significant digits) and read back is the same double, for every double; so is every entry of a vector or matrix of any size printed that way. With the default precision it is read back up to 5.0001e-6 of itself, with %e up to 5.0001e-7 of itself, with %f up to 5.0001e-7 and the rounding to double.", "quantifier": "every double (53 significant bits, any exponent), every vector, every matrix with non-empty rows, every indentation of blanks", "why_tests_cant": "Whether digits suffice depends on every one of the 2^64 doubles, in particular those next to powers of two and of ten; tests print a few numbers.", "anchors": ["yac/lib/util/core.cpp:vec2str", "yac/lib/util/core.cpp:arr2str", "yac/lib/util/core.cpp:mat2str"]}
{"id": "C127", "title": "Saved visual-inertial results can be loaded again", "statement": "The results file of a visual-inertial calibration with cameras 0..N-1 and an estimated target pose is accepted by the constructor that reads configuration files. The new calibrator has the same cameras (resolution, models, projection and distortion parameters exactly), target, IMU and solver settings (to the printed digits), the same target pose, and the same pose of every camera with respect to the IMU (exactly, if the relative poses are doubles). The tables of poses, speeds and biases give every view of the same timestamp the saved values to six decimals; timestamps are exact. Saving succeeds just if the cameras are numbered without gaps from 0 and the target has a pose.", "quantifier": "every calibrator (any number of cameras up to 100, any parameters, settings and views, timestamps up to 2^62 ns), any statistics in the file", "why_tests_cant": "Any of the dozens of printed keys could be misspelled, of too few digits, or in another frame than the reader takes it to be; a test with one rig (identity poses, round numbers) does not see it.", "anchors": ["yac/lib/calib_vi.cpp:print_settings", "yac/lib/calib_vi.cpp:print_calib_target", "yac/lib/calib_vi.cpp:print_imu", "yac/lib/calib_vi.cpp:print_cameras", "yac/lib/calib_vi.cpp:print_extrinsics", "yac/lib/calib_vi.cpp:print_fiducial_pose", "yac/lib/calib_vi.cpp:print_imu_poses", "yac/lib/calib_vi.cpp:print_speed_biases", "yac/lib/calib_vi.cpp:save_results", "yac/lib/calib_vi.cpp:calib_vi_t"]}
{"id": "C128", "title": "Saved camera results can be loaded again, and start a visual-inertial calibration", "statement": "The results file of a camera calibration that has camera 0 (other indices below 100, with or without gaps) is accepted by the constructor of calib_camera_t that reads configuration files. The new calibrator has the same settings and target (to the printed digits), the same IMU parameters if any, the same cameras with exactly the same models and parameters, and every extrinsic is the pose with respect to camera 0, so that all relative poses are kept (exactly, if the printed numbers are doubles). If IMU parameters were in it, the same file starts calib_vi_t with these cameras held fixed; if not, calib_vi_t refuses it. Saving succeeds just if there is a camera 0.", "quantifier": "every camera calibrator (any indices, parameters, settings), any statistics in the file", "why_tests_cant": "Any of the printed keys could be misspelled, of too few digits or in another frame than one of the two readers takes it to be; a test with one rig whose camera 0 is the origin does not see it.", "anchors": ["yac/lib/calib_camera.cpp:print_settings", "yac/lib/calib_camera.cpp:print_calib_target", "yac/lib/calib_camera.cpp:print_camera_params", "yac/lib/calib_camera.cpp:print_estimates", "yac/lib/calib_camera.cpp:print_imu", "yac/lib/calib_camera.cpp:save_results", "yac/lib/calib_camera.cpp:calib_camera_t", "yac/lib/calib_vi.cpp:calib_vi_t"]}
{"id": "C129", "title": "Saved motion capture results can be loaded again", "statement": "The results file of a calibration against motion capture is accepted by the constructor of calib_mocap_t that reads configuration files: the same settings, target and loss function (to the printed digits) and exactly the same camera, whose intrinsics are then not calibrated again. The poses that were estimated (mocap body to camera, target in the world) are not restored.", "quantifier": "every calibrator with a known camera model, any poses and statistics in the file", "why_tests_cant": "One misspelled key among two dozen makes the constructor fail or take a default silently.", "anchors": ["yac/lib/calib_mocap.cpp:print_settings", "yac/lib/calib_mocap.cpp:print_calib_target", "yac/lib/calib_mocap.cpp:print_camera_params", "yac/lib/calib_mocap.cpp:print_fiducial_pose", "yac/lib/calib_mocap.cpp:print_mocap_camera_extrinsics", "yac/lib/calib_mocap.cpp:save_results", "yac/lib/calib_mocap.cpp:calib_mocap_t"]}
{"id": "C130", "title": "Exported data files hold the data that was given", "statement": "vec2csv, ts2csv, save_data, save_features, save_extrinsics, the save functions of the simulations and the trajectory export write one line per item, in order, whose fields read back as the items: integers exactly, real numbers to the printed digits. The sample times of a trajectory are evenly spaced from start to end.", "quantifier": "every list of vectors, timestamps, features, poses, every simulation and trajectory", "why_tests_cant": "The lines of a file depend on the lengths of several lists at once and on the printed digits of every number; a test compares a few rows.", "anchors": ["yac/lib/util/data.cpp:vec2csv", "yac/lib/util/data.cpp:ts2csv", "yac/lib/util/data.cpp:save_data", "yac/lib/util/data.cpp:save_features", "yac/lib/util/data.cpp:save_extrinsics", "yac/lib/calib_sim.cpp:vio_sim_data_t::save", "yac/lib/calib_sim.cpp:calib_sim_data_t::save", "yac/lib/calib_nbt.cpp:lissajous_traj_t::save", "yac/lib/util/core.hpp:linspace"]}
{"id": "C131", "title": "File operations do what they say to the whole disk", "statement": "file_copy makes the destination equal to the source and changes nothing else; file_exists and dir_exists tell what is there; list_dir and list_files yield each entry once (list_files sorted); remove_dir removes a directory and all that is in it and nothing else; dir_create and create_dir make a directory and report failures; a detection saved under a path is written there.", "quantifier": "every tree of files and directories, permissions, free space, file contents, buffer size, order of directory entries, and path", "why_tests_cant": "The result depends on everything on the disk: nested directories, files in the way, aliases of one file, a full disk. A test sees one small tree.", "anchors": ["yac/lib/util/fs.cpp:file_copy", "yac/lib/util/fs.cpp:file_exists", "yac/lib/util/fs.cpp:dir_exists", "yac/lib/util/fs.cpp:list_dir", "yac/lib/util/fs.cpp:list_files", "yac/lib/util/fs.cpp:remove_dir", "yac/lib/util/fs.cpp:dir_create", "yac/lib/util/fs.cpp:create_dir", "yac/lib/util/aprilgrid.cpp:aprilgrid_t::save"]}
{"id": "C132", "title": "Preprocessing images for the motion capture calibration", "statement": "Preprocessing a directory of images yields one grid for each image, in the order of the file names: the saved grid if there is one, otherwise what the detector sees, which is saved; no other file changes, and running it again detects nothing, changes no file and yields the same grids as read back from their files. Loading a directory of grids yields exactly the grids with corners, in the order of the file names. A directory that cannot be listed is fatal.", "quantifier": "all directories of images named after their time, all contents of the grid directory, all detectors, targets and number formats", "why_tests_cant": "Which saved grids exist depends on the history of earlier runs (and their target); a test sees one history, one directory and one order of the directory entries.", "anchors": ["yac/lib/calib_mocap.cpp:_preprocess", "yac/lib/util/aprilgrid.cpp:load_aprilgrids", "yac/lib/util/aprilgrid.cpp:aprilgrid_t", "yac/lib/util/fs.cpp:list_dir"]}
{"id": "C133", "title": "Evaluating a candidate trajectory", "statement": "nbt_eval replays a candidate trajectory: a calibrator with the cameras and fixed flags of the data is given every simulated IMU sample and every detected grid exactly once, in the order of time (sample before grids); on a trajectory with the target in sight the views are exactly the frames with two samples before them and a sample after them not later than the next frame, each with what the cameras see at that time, and all ideal IMU readings are in the buffer; the result is H plus the information of the IMU extrinsics, or -1 when the covariance is not available or rank deficient.", "quantifier": "every trajectory, rig, target, sensor rates, noise, covariance outcome and environment of the calibrator", "why_tests_cant": "the replay depends on the interleaving of two clocks over the whole trajectory, for all rates and durations; tests run one pair of rates", "anchors": ["yac/lib/calib_nbt.cpp:nbt_eval", "yac/lib/calib_nbt.cpp:nbt_create_timeline", "yac/lib/calib_vi.cpp:calib_vi_t::add_measurement", "yac/lib/calib_vi.cpp:calib_vi_t::recover_calib_info"]}
{"id": "C134", "title": "The information report", "statement": "calib_info gives the calibrator the grids of a data set time by time and writes a table with a line per time at which the information could be estimated: in camera mode the views are the sets of grids with one time, a time is reported exactly if the information can be computed for the calibrator that holds the views up to and including this time, with the values computed then; in visual-inertial mode a time is reported exactly if the IMU sample of this time (given the grids up to its time and the earlier samples) makes a view and the covariance of the IMU extrinsics can be recovered, with minus the binary logarithm of the determinant of the information and the entropy of the normal distribution; the file has the lines in ascending order of time, numbered from zero, with six decimals.", "quantifier": "every data set, calibrator, environment, outcome of the covariance estimate, mode and number of arguments", "why_tests_cant": "the report is about every prefix of a data set of arbitrary length; tests run one data set and one mode", "anchors": ["yac/demo/calib_info.cpp:load_camera_data", "yac/demo/calib_info.cpp:eval_camera_info", "yac/demo/calib_info.cpp:eval_vi_info", "yac/demo/calib_info.cpp:save_results", "yac/demo/calib_info.cpp:main", "yac/lib/calib_vi.cpp:calib_vi_t::recover_calib_covar"]}
{"id": "C135", "title": "The gimbal program for two fixed and two moving cameras", "statement": "calib_gimbal2 reads a well-formed configuration as written (cameras 0 and 2 are origins); the initial pose of the target is the common pose of all views of camera 0 with twenty corners; the residual of a corner is the difference between its pixel and the pinhole image of the only point of the moving camera that the chain mount - joint - link - joint - link - joint - end effector - camera carries, in the frame of camera 0, to the point of the target; the cost is the sum of the squared pixel errors of all corners of cameras 2 and 3 at all timestamps, whatever the shuffle; camera poses, target and two coordinates of the link offsets are not changed; the solution is determined by the data; the results are written and can be read again.", "quantifier": "all poses with unit quaternions, joint angles, corners, cameras, lists of views and timestamps, shuffles, key presses, texts", "why_tests_cant": "the chain has nine transforms and the data are unbounded and shuffled; gauge freedoms and lost results cannot be seen in one run", "anchors": ["yac/demo/calib_gimbal2.cpp:GimbalReprojError", "yac/demo/calib_gimbal2.cpp:CalibData::load_config", "yac/demo/calib_gimbal2.cpp:CalibData::init_fiducial_pose", "yac/demo/calib_gimbal2.cpp:inspect_calib", "yac/demo/calib_gimbal2.cpp:save_results", "yac/demo/calib_gimbal2.cpp:main"]}
{"id": "C136", "title": "Convergence, pose and error tables of the reports", "statement": "The tables that the calibrators print after a calibration say what happened: the convergence table has one row for every tracked estimate, in order, with its index, time, acceptance, information, entropy and error statistics; the extrinsics tables one row for every tracked estimate and every camera but the first; the camera tables one row for every tracked estimate and every camera with the intrinsics; the pose tables one row for every view; the error table one row for every corner of every view. Each number is printed so that it is read back within the rounding of its format, and each table has as many entries as the announced rows and columns.", "quantifier": "all histories of tracked estimates (any number, repeated times), sets of cameras, parameters, views and corners", "why_tests_cant": "the tables are concatenated by hand from unbounded histories; wrong separators, announced sizes or rows of another time show only for particular histories", "anchors": ["yac/lib/calib_camera.cpp:_track_estimates", "yac/lib/calib_camera.cpp:print_convergence", "yac/lib/calib_camera.cpp:print_camera_convergence", "yac/lib/calib_camera.cpp:print_extrinsics_convergence", "yac/lib/calib_camera.cpp:print_poses", "yac/lib/calib_camera.cpp:print_reproj_errors", "yac/lib/calib_mocap.cpp:print_mocap_poses"]}
{"id": "C137", "title": "The parallel search for the next best view does not depend on the threads", "statement": "find_nbv_fast returns the same result however the cameras are shared between the threads and however the threads are interleaved: at the end every candidate has its score in the table, and the result is that of the search with one thread. No two threads use the table of scores at the same time while one of them changes its structure.", "quantifier": "all candidates, all divisions of the cameras between any number of threads, all interleavings", "why_tests_cant": "schedules cannot be enumerated by tests; a race in a map shows once in many runs", "anchors": ["yac/lib/calib_camera.cpp:find_nbv_fast"]}
{"id": "C138", "title": "TCP server and client", "statement": "Server and client report success exactly when their socket was created and bound or connected to the given port; the peer of a connected client is the given address and port. The client loop calls its callback until it returns -1. Under every schedule the list of connections of the server is that of the accepted ones, in order, each with one handler thread; the loop ends at the first failing accept. Every connection is served by the handler that was started for it.", "quantifier": "all ports, addresses, results of system calls, sequences of callback results, sequences of connections, interleavings of loop and handlers", "why_tests_cant": "depends on the interleaving of threads and on failures of the operating system", "anchors": ["yac/lib/util/net.cpp:ip_port_info", "yac/lib/util/net.cpp:tcp_server_config", "yac/lib/util/net.cpp:tcp_server_loop", "yac/lib/util/net.cpp:tcp_client_config", "yac/lib/util/net.cpp:tcp_client_loop"]}
{"id": "C139", "title": "Progress bar", "statement": "A bar of n cycles can be updated n times. After every update the line of the terminal shows the percentage of updates made (0 after the first, 100 after the last, never decreasing) and a bar of fifty cells of which one is filled for every two percent. reset makes it as new.", "quantifier": "all numbers of cycles, all numbers of updates, with and without bar", "why_tests_cant": "the line is the result of the history of all characters and backspaces written; errors show for particular numbers of cycles only", "anchors": ["yac/lib/util/progressbar.hpp:update", "yac/lib/util/progressbar.hpp:reset", "yac/lib/util/progressbar.hpp:set_niter", "yac/lib/calib_camera.cpp:find_nbv"]}
{"id": "C140", "title": "The EuRoC program", "statement": "The EuRoC calibration program calibrates the cameras, writes the results to a file and then calibrates the IMU with the cameras read back from that file: the IMU half starts with the same cameras, models, resolutions and intrinsics, the same camera poses to the printed digits, all held fixed; and every detected grid and IMU sample of the second data set is handed over exactly once, in the order of the timestamps. (Refuted parts: that a failure to write the file is noticed; that a data set in which one camera never saw the target still gives views.)", "quantifier": "all complete camera calibrations, all earlier contents of the results file, all writability outcomes, all data sets of grids and IMU samples, all calibrator states", "why_tests_cant": "Tests run one data set whose results file can always be written and whose cameras both see the target; the claims range over every calibration and data set, including unwritable files and blind cameras.", "anchors": ["yac/demo/calib_euroc.cpp:calibrate_cameras", "yac/demo/calib_euroc.cpp:load_calib_vi_data", "yac/demo/calib_euroc.cpp:calibrate_imu", "yac/demo/calib_euroc.cpp:main"]}
{"id": "C141", "title": "The files of AprilGrids, character by character", "statement": "A grid with corners that is saved to a file and loaded from it again is loaded completely: the same timestamp, target dimensions and set of corners, every keypoint to the tenth decimal and everything else to the sixth. A file in the second (key: value) format is read as it says, and announcing more corners than it lists stops the program. (Refuted parts: that a file torn by a crash is recognised: torn inside a timestamp it is loaded as a grid whose time is the timestamp without its last digits; that either format can be read as the other.)", "quantifier": "all histories of a grid, all timestamps, target sizes and rational coordinates, all grids loaded into, all torn positions inside a timestamp, all files of the second format", "why_tests_cant": "Tests save and load one grid and compare with a tolerance; the claims range over every number that can be printed and every place at which the writing can stop.", "anchors": ["yac/lib/util/aprilgrid.cpp:aprilgrid_t::save", "yac/lib/util/aprilgrid.cpp:aprilgrid_t::load", "yac/lib/util/aprilgrid.cpp:aprilgrid_t::loadv2", "yac/lib/util/aprilgrid.cpp:aprilgrid_parse_line", "yac/lib/util/fs.cpp:skip_line"]}
{"id": "C142", "title": "The pose of the target from one image", "statement": "Given a camera and a grid of detected corners, the estimate of the pose of the target is the true pose whenever the corners on the image are measured exactly and one tag is seen whole (and the camera is not in the plane of the target); with too few corners the call reports failure and leaves the pose alone.", "quantifier": "every camera, every history of corners added to and removed from the grid, every pose of the target, every way OpenCV may answer", "why_tests_cant": "tests try a few poses; that one tag fixes the pose among all rotations and positions, and what happens for every number of corners on the image, is a statement over a continuum of poses and all grids", "anchors": ["yac/lib/util/cv.cpp: solvepnp", "yac/lib/util/aprilgrid.cpp: aprilgrid_t::estimate"]}
{"id": "C143", "title": "Loss functions: which is used, what it weighs, who uses it", "statement": "solve() creates the loss function the settings ask for and applies it to the residuals it adds; the Blake-Zisserman loss gives the chosen weight to a residual at the chosen quantile and more to smaller ones; no loss makes a residual cost more; the choice of solver does not change whether the loss counts; settings changed between two calls of solve() take effect.", "quantifier": "every setting of the calibrator, every residual, every history of solves", "why_tests_cant": "statements about real-valued weights over all residuals, and about settings changed between any two solves", "anchors": ["yac/lib/calib_camera.cpp: calib_camera_t::solve", "yac/lib/calib_loss.cpp: BlakeZissermanLoss, CauchyLoss, HuberLoss", "yac/lib/solver.cpp: _calculate_cost, ceres_solver_t::add"]}
{"id": "C144", "title": "The camera calibrator gives back what it was given", "statement": "After any calls of add_camera_data, get_camera_data(i) returns the grids of camera i in the order of time, one per time, each the one handed over last. After add_view, get_last_view is the view just added and removing it makes the one before it the last again; it never returns nothing while views exist. get_camera_params / get_camera_extrinsics return what add_camera was given, adding another camera does not change them, and asking for an unknown camera throws.", "quantifier": "every history of calls of add_camera_data, every reachable calibrator state, every set of detections and every camera index", "why_tests_cant": "tests look at one recording in order; the claim is about every order and repetition of calls and every interleaving of adding and removing views", "anchors": ["yac/lib/calib_camera.cpp: calib_camera_t::get_camera_data", "yac/lib/calib_camera.cpp: calib_camera_t::get_last_view", "yac/lib/calib_camera.cpp: calib_camera_t::get_camera_params", "yac/lib/calib_camera.cpp: calib_camera_t::get_camera_extrinsics", "yac/lib/calib_camera.cpp: calib_camera_t::add_camera_data"]}
{"id": "C145", "title": "A sliding window forgets nothing", "statement": "After any number of marginalisations, each with the residual left by the previous one among its residuals, the last residual is the exact summary of everything marginalised so far: for all values of the kept parameters its squared norm is, up to a constant, the least first-order cost of all residuals ever handed over, minimised over all parameters marginalised so far. With unchanged linearisation points this is the same as marginalising all of them at once.", "quantifier": "every number of marginalisations, every set of residuals and parameters of the known types, every change of the values of non-pose parameters between marginalisations, every value of the kept parameters", "why_tests_cant": "a test marginalises once or twice on a recorded problem and compares estimates with a tolerance; the claim is about windows of any length and the whole cost function", "anchors": ["yac/lib/calib_residuals.cpp: marg_residual_t::form_hessian", "yac/lib/calib_residuals.cpp: marg_residual_t::marginalize", "yac/lib/calib_residuals.cpp: marg_residual_t::EvaluateWithMinimalJacobians", "yac/lib/calib_vi.cpp: calib_vi_t::marginalize", "yac/lib/calib_camera.cpp: calib_view_t::marginalize"]}
{"id": "C146", "title": "Residual sizes", "statement": "Every residual a calibrator builds declares to the optimiser the true length of each of its parameter vectors, reserves a Jacobian of residuals-by-parameters (and residuals-by-degrees-of-freedom) for each of them, and evaluating it, by itself or by the optimiser, reads and writes exactly those buffers.", "quantifier": "every residual class and every number of projection and distortion parameters", "why_tests_cant": "tests build residuals for cameras with eight parameters only and evaluate them with their own buffers, never through the optimiser", "anchors": ["yac/lib/calib_params.cpp: constructors, set_param", "yac/lib/calib_residuals.cpp: constructors, eval, Evaluate", "yac/lib/solver.cpp: ceres_solver_t::add_residual"]}
{"id": "C147", "title": "Marginalisation object history", "statement": "A marginalisation residual to which any residuals have been added has, after linearising, exactly the remaining parameters as its parameters, declares and reserves their sizes, lays their columns one behind the other behind those to marginalise, and evaluates inside its buffers; linearising again changes nothing.", "quantifier": "all lists of residuals added, all kinds and flags of their parameters, any number of linearisations", "why_tests_cant": "tests linearise one object once", "anchors": ["yac/lib/calib_residuals.cpp: marg_residual_t::add, add_remain_param, form_hessian, EvaluateWithMinimalJacobians"]}
{"id": "C148", "title": "Console output", "statement": "Printed vectors and matrices can be read back, every number to within half a unit of the sixth decimal; a printed timestamp is its digits; the string of an array splits into its numbers; the progress bar is sixty characters wide and filled in proportion for every fraction.", "quantifier": "all names, vectors, matrices of any shape, timestamps and fractions", "why_tests_cant": "tests print a few values and look at nothing", "anchors": ["yac/lib/util/core.cpp: print_vector, print_matrix, timestamp_print, array2str", "yac/lib/util/data.cpp: print_progress, all_true"]}
{"id": "C149", "title": "Drawing helpers", "statement": "Drawing tracks or matches marks, for each tracked or matched point and nothing else, its two places and the line between them (those of the second picture moved below the first); drawing a grid marks and labels exactly the corners it holds.", "quantifier": "all point lists, flags, index pairs, and all histories of a grid", "why_tests_cant": "tests draw one picture and show it", "anchors": ["yac/lib/util/cv.cpp: draw_tracks, draw_matches", "yac/lib/util/aprilgrid.cpp: aprilgrid_t::draw"]}
{"id": "C150", "title": "The command-line programs", "statement": "calib_camera, calib_vi and calib_mocap take a configuration file and a data directory; with any other number of arguments they do nothing and exit with -1. The results of the calibrator made of that configuration and those data end up in the one file <data>/calib_<name>-results.yaml, no other file is written, and a calibration that fails leaves earlier results alone. calib_inspect reports the error of the configured calibration on the grids of mav0/cam0 and mav0/cam1, or the statistics of all views with nothing rejected, and accepts no other mode.", "quantifier": "all argument lists, file systems, configurations, data sets, faults in any step and sets of writable paths", "why_tests_cant": "every point at which a step can fail and every earlier content of the file of results", "anchors": ["yac/demo/calib_camera.cpp main", "yac/demo/calib_vi.cpp main", "yac/demo/calib_mocap.cpp main", "yac/demo/calib_inspect.cpp main, load_dataset", "yac/lib/calib_camera.cpp calib_camera_t::save_results", "yac/lib/calib_vi.cpp calib_vi_t::save_results", "yac/lib/calib_mocap.cpp calib_mocap_t::save_results"]}
{"id": "C151", "title": "Every event of a timeline is freed exactly once", "statement": "A program that creates, fills and destroys timelines, without copying one, never frees an event twice and never leaks one: as long as a timeline exists, asking it for the events of a time gives pointers to exactly the events that were added to it for that time, in the order they were added, and they can be read; every allocated event belongs to exactly one existing timeline, there is one for every call of add, and when all timelines are gone so are all events. Copying a timeline (also by returning it by value) keeps this true.", "quantifier": "all histories of creating, filling and destroying any number of timelines with any events at any times; all copies of a timeline with at least one event", "why_tests_cant": "memory safety has to hold for every history; a use after free shows only if the allocator happens to have reused the block, and the tests return timelines by value from functions where the compiler elides the copy", "anchors": ["yac/lib/util/timeline.hpp: timeline_t, event_t", "yac/lib/util/timeline.cpp: timeline_t::timeline_t, ~timeline_t, add, get_events", "yac/lib/util/euroc.hpp: timeline()", "yac/demo/calib_euroc.cpp: load_calib_vi_data"]}
{"id": "C152", "title": "The camera calibrator and its solver never use freed memory", "statement": "Whatever a program does with a camera calibrator (adding cameras and views, removing views and outliers, marginalising, solving, in any order), nothing that was freed is used or freed again, and everything the optimisation problem points to (parameters, residuals, and the parameters the residuals point to) is allocated. Everything allocated has an owner: a parameter is that of a camera or the pose of a time, a residual belongs to a view or to the marginalisation prior.", "quantifier": "all histories of adding cameras and views (with any corners of any cameras), removing views, dropping outliers, marginalising views and solving", "why_tests_cant": "a dangling pointer is only noticed if the allocator has reused the block; the tests add every camera once and every view once", "anchors": ["yac/lib/calib_camera.cpp: add_camera, add_pose, add_view, remove_view, marginalize, calib_view_t::filter_view, calib_view_t::marginalize, ~calib_camera_t", "yac/lib/solver.cpp: add_param, add_residual, remove_param, remove_residual, ceres_solver_t::solve"]}
{"id": "C153", "title": "A copied solver is a separate solver for the same problem", "statement": "A solver built from a pointer to another one (yac_solver_t b{&a}) holds the same optimisation problem: it answers num_params, num_residuals and has_param alike, reacts alike to every later change of the problem, and solves alike. From then on the two are independent: adding, removing, clearing, solving or destroying one leaves the bookkeeping of the other as it was. However solvers are created, copied, used and destroyed, the sparse factorisation each caches is never used or freed after it was freed, and none is left over.", "quantifier": "all programs that create, copy, change, solve with and destroy any number of solvers, in any order; all problems, parameter values and iteration counts", "why_tests_cant": "a shared factorisation shows only when both solvers are destroyed or one solves after the other, and as heap corruption rather than a wrong number", "anchors": ["yac/lib/solver.cpp: solver_t(const solver_t *), yac_solver_t(const solver_t *), clear, solve, estimate_log_det_covar", "yac/lib/solver.hpp: solver_t, yac_solver_t", "yac/lib/suitesparse.cpp: truncated_solver_t, ~truncated_solver_t, clear, solve, analyze_marginal"]}
{"id": "C154", "title": "The visual-inertial calibrator gives back the cameras and the IMU it was given", "statement": "After any calls of add_camera and add_imu, get_camera_params, get_camera_extrinsics, get_imu_extrinsics and get_imucam_time_delay answer what the camera or IMU was last added with, whatever else was added before and after; a camera that was never added raises an exception. Extrinsics, IMU extrinsics and time delay are in the optimisation problem and held constant exactly if that was asked for; intrinsics are in it before the first view exactly if they are fixed, and then constant. Everything the problem points to is allocated.", "quantifier": "all histories of add_camera and add_imu, in any order and with repetitions, for all cameras, values and fix flags", "why_tests_cant": "the dangling pointer left by a second add_imu is only noticed if the allocator has reused the block; the tests add everything once", "anchors": ["yac/lib/calib_vi.cpp: add_imu, add_camera, get_camera_resolution, get_camera_params, get_camera_extrinsics, get_imu_extrinsics, get_imucam_time_delay"]}
