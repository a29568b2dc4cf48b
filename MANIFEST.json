{
 "claims": [
  {
   "property": "C01",
   "status": "proved",
   "theorems": [
    "Yac.AprilGrid.C01_map_refinement",
    "Yac.AprilGrid.C01_frame"
   ],
   "note": "refinement of every legal call history; frame theorem for untouched corners"
  },
  {
   "property": "C02",
   "status": "partial",
   "theorems": [
    "Yac.AprilGrid.C02_counter_exact",
    "Yac.AprilGrid.C02_counter_partial",
    "Yac.AprilGrid.C02_not_detected_empty",
    "Yac.AprilGrid.C02_counter_refuted"
   ],
   "note": "nb_detections over-counts when a corner is added twice (refuted); exact value of the counter for every history, equality for histories without re-adds"
  },
  {
   "property": "C03",
   "status": "proved",
   "theorems": [
    "Yac.AprilGrid.C03_measurements",
    "Yac.AprilGrid.C03_held_list"
   ],
   "note": ""
  },
  {
   "property": "C04",
   "status": "partial",
   "theorems": [
    "Yac.AprilGrid.C04_index_bijective",
    "Yac.AprilGrid.C04_rejects_partial",
    "Yac.AprilGrid.C04_tag_boundary_refuted",
    "Yac.AprilGrid.C04_corner_alias_refuted"
   ],
   "note": "tag id rows*cols passes the range check and writes outside the table; has/keypoint/remove do not check the corner index (both refuted); everything else proved"
  },
  {
   "property": "C05",
   "status": "proved",
   "theorems": [
    "Yac.AprilGrid.C05_object_point",
    "Yac.AprilGrid.C05_fiducial_corners",
    "Yac.AprilGrid.C05_geometry"
   ],
   "note": ""
  },
  {
   "property": "C06",
   "status": "partial",
   "theorems": [
    "Yac.AprilGrid.C06_save_load_partial",
    "Yac.AprilGrid.C06_empty_refuted"
   ],
   "note": "round trip for grids with at least one detection; a saved empty grid does not load (refuted)"
  },
  {
   "property": "C07",
   "status": "partial",
   "theorems": [
    "Yac.AprilGrid.C07_intersect_partial",
    "Yac.AprilGrid.C07_detected_kept",
    "Yac.AprilGrid.C07_detected_refuted"
   ],
   "note": "contents and counters proved; the detected flag stays true after an empty intersection (refuted)"
  },
  {
   "property": "C08",
   "status": "partial",
   "theorems": [
    "Yac.AprilGrid.C08_intersect_all",
    "Yac.AprilGrid.C08_empty_list_ub"
   ],
   "note": "contents proved for a non-empty list; empty list is undefined behaviour (C08_empty_list_ub)"
  },
  {
   "property": "C09",
   "status": "proved",
   "theorems": [
    "Yac.AprilGrid.C09_shared_list",
    "Yac.AprilGrid.C09_common_measurements"
   ],
   "note": ""
  },
  {
   "property": "C10",
   "status": "partial",
   "theorems": [
    "Yac.AprilGrid.C10_sample_safe",
    "Yac.AprilGrid.C10_sample_returns",
    "Yac.AprilGrid.C10_sample_div_zero_refuted"
   ],
   "note": "any returned sample is correct for every random stream; it does return for fair streams; division by zero on an empty detected grid (refuted)"
  },
  {
   "property": "C11",
   "status": "proved",
   "theorems": [
    "Yac.Timeline.C11_timeline",
    "Yac.Timeline.C11_timeline_iteration"
   ],
   "note": ""
  },
  {
   "property": "C12",
   "status": "proved",
   "theorems": [
    "Yac.C12_set_union",
    "Yac.C12_set_diff",
    "Yac.C12_set_symmetric_diff",
    "Yac.C12_set_insert",
    "Yac.C12_set_diff_unsorted_refuted"
   ],
   "note": "for the documented precondition (sorted inputs); unsorted inputs refuted"
  },
  {
   "property": "C13",
   "status": "partial",
   "theorems": [
    "Yac.C13_intersection_refuted",
    "Yac.C13_intersection_partial",
    "Yac.C13_intersection_exact"
   ],
   "note": "correct for duplicate-free lists, refuted in general; exact characterisation proved"
  },
  {
   "property": "C14",
   "status": "proved",
   "theorems": [
    "Yac.C14_ordered_set",
    "Yac.C14_ordered_set_nodup"
   ],
   "note": ""
  },
  {
   "property": "C15",
   "status": "proved",
   "theorems": [
    "Yac.C15_popFront_multiset",
    "Yac.C15_popFront_exact",
    "Yac.C15_popFront_order_refuted",
    "Yac.C15_extend",
    "Yac.C15_slice",
    "Yac.C15_slice_bounds"
   ],
   "note": "as stated (multiset); order is not kept (refuted separately)"
  },
  {
   "property": "C16",
   "status": "proved",
   "theorems": [
    "Yac.Num.C16_decode"
   ],
   "note": "decoders return the two's complement little-endian value; length and sign cases included"
  },
  {
   "property": "C17",
   "status": "partial",
   "theorems": [
    "Yac.Text.C17_roundtrip_partial",
    "Yac.Text.C17_close",
    "Yac.Text.C17_stable",
    "Yac.Text.C17_column_refuted",
    "Yac.Text.C17_empty_refuted",
    "Yac.Text.C17_header"
   ],
   "note": "Character-level model of the writer, the reader and the decimal conversions. Two or more columns and at least one row: what is read back has the same shape, equals the value rounded to the printed decimals and is close to it, and a second round trip is stable. Missing, with counterexamples: one-column and zero-row matrices (C17_column_refuted, C17_empty_refuted)."
  },
  {
   "property": "C18",
   "status": "partial",
   "theorems": [
    "Yac.Text.C18_format",
    "Yac.Text.C18_roundtrip_refuted",
    "Yac.Text.C18_empty",
    "Yac.Text.C18_malformed",
    "Yac.Text.C18_lengths"
   ],
   "note": "The format of the written file is proved (C18_format). The round trip is refuted (C18_roundtrip_refuted): the loader skips the first data row and swaps gyroscope and accelerometer columns."
  },
  {
   "property": "C19",
   "status": "proved",
   "theorems": [
    "Yac.Text.C19_roundtrip",
    "Yac.Text.C19_rotation",
    "Yac.Text.C19_load_pose",
    "Yac.Text.C19_malformed",
    "Yac.Text.C19_lengths"
   ],
   "note": "Round trip of the pose file and of its rotation, and load_pose; the conversion of a matrix to a quaternion is the exact model of Geom, decimal printing and parsing are modelled on characters and binary64 rounding exactly."
  },
  {
   "property": "C20",
   "status": "partial",
   "theorems": [
    "Yac.Fs.C20_fname",
    "Yac.Fs.C20_separators",
    "Yac.Fs.C20_ext",
    "Yac.Fs.C20_ext_none",
    "Yac.Fs.C20_ext_dir_refuted",
    "Yac.Fs.C20_strip_partial",
    "Yac.Fs.C20_strip_refuted",
    "Yac.Fs.C20_strip_end",
    "Yac.Fs.C20_split",
    "Yac.Fs.C20_join_partial",
    "Yac.Fs.C20_join_trailing_refuted",
    "Yac.Fs.C20_join_middle_refuted",
    "Yac.Fs.C20_join_empty_refuted",
    "Yac.Fs.C20_join_above"
   ],
   "note": "File name, extension, strip, split and join on all character strings; the cases where the functions disagree with the description are C20_*_refuted (extension of a directory with a dot, strip of an all-blank target, join of trailing, middle and empty parts)."
  },
  {
   "property": "C21",
   "status": "partial",
   "theorems": [
    "Yac.Config.C21_found",
    "Yac.Config.C21_value",
    "Yac.Config.C21_missing",
    "Yac.Config.C21_later",
    "Yac.Config.C21_scalar_refuted",
    "Yac.Config.C21_cases",
    "Yac.Config.C21_has_key",
    "Yac.Config.C21_seq_refuted",
    "Yac.Config.C21_vector_partial",
    "Yac.Config.C21_append_refuted"
   ],
   "note": "Proved for every tree and every dotted path of non-empty keys through maps. Missing, with counterexamples: a path through a scalar throws even when optional (C21_scalar_refuted), a lookup through a sequence changes the configuration (C21_seq_refuted), std::vector outputs are appended to (C21_append_refuted). yaml-cpp is modelled by its documented behaviour."
  },
  {
   "property": "C22",
   "status": "partial",
   "theorems": [
    "Yac.Config.C22_vector_partial",
    "Yac.Config.C22_vector_refuted",
    "Yac.Config.C22_vecx",
    "Yac.Config.C22_scalar_refuted",
    "Yac.Config.C22_matrix",
    "Yac.Config.C22_fields",
    "Yac.Config.C22_shape_refuted",
    "Yac.Config.C22_matx_partial",
    "Yac.Config.C22_matx_refuted"
   ],
   "note": "Fixed-size matrices are accepted exactly with n*n elements, row by row (C22_matrix). Vectors and matx_t are accepted with surplus elements (C22_vector_refuted, C22_matx_refuted), rows and cols are not compared for fixed types (C22_shape_refuted), a scalar is taken for an empty vecx_t (C22_scalar_refuted)."
  },
  {
   "property": "C23",
   "status": "partial",
   "theorems": [
    "Yac.Stream.C23_trim_partial",
    "Yac.Stream.C23_bracket",
    "Yac.Stream.C23_trim_refuted",
    "Yac.Stream.C23_add"
   ],
   "note": "exact when some measurement is at or after t; when all are earlier the buffer is emptied, losing the bracketing sample (refuted)"
  },
  {
   "property": "C24",
   "status": "partial",
   "theorems": [
    "Yac.Stream.C24_extract_partial",
    "Yac.Stream.C24_extract_refuted",
    "Yac.Stream.C24_extract_range"
   ],
   "note": "exact when both interval ends coincide with sample timestamps; otherwise the interpolation uses uninitialised values (refuted); out-of-range intervals are rejected"
  },
  {
   "property": "C25",
   "status": "partial",
   "theorems": [
    "Yac.Stream.C25_slerp",
    "Yac.Stream.C25_slerp_angle",
    "Yac.Stream.C25_translation",
    "Yac.Stream.C25_interp_partial",
    "Yac.Stream.C25_rotation_refuted",
    "Yac.Stream.C25_rigid",
    "Yac.Stream.C25_lerp_pose"
   ],
   "note": "translation exact for every alpha; rotation: slerp reaches both ends, refuted end-point where the code swaps operands; lerp_pose included"
  },
  {
   "property": "C26",
   "status": "partial",
   "theorems": [
    "Yac.Stream.C26_interp_safe",
    "Yac.Stream.C26_interp_partial",
    "Yac.Stream.C26_interp_refuted",
    "Yac.Stream.C26_closest_refuted",
    "Yac.Stream.C26_closest_partial",
    "Yac.Stream.C26_closest_wrong_refuted",
    "Yac.Stream.C26_lerp_partial",
    "Yac.Stream.C26_lerp_linear",
    "Yac.Stream.C26_lerp_safe_partial",
    "Yac.Stream.C26_lerp_oob_refuted",
    "Yac.Stream.C26_lerp_stale_refuted",
    "Yac.Stream.C26_lerp_last_refuted",
    "Yac.Stream.C26_lerp_timestamps",
    "Yac.Stream.C26_sync_partial"
   ],
   "note": "interp_poses, closest_poses, lerp_data, lerp_timestamps, align: results characterised under explicit separation hypotheses; out-of-bounds reads, stale samples and dropped requests refuted; lerp_body_poses not modelled"
  },
  {
   "property": "C27",
   "status": "proved",
   "theorems": [
    "Yac.Num.C27_round_trip",
    "Yac.Num.C27_exact_parts",
    "Yac.Num.C27_seconds_exact",
    "Yac.Num.C27_nsec_range_refuted"
   ],
   "note": "round trip within the double rounding of the seconds value; nanosecond remainder outside [0,1e9) for negative stamps is refuted separately"
  },
  {
   "property": "C28",
   "status": "proved",
   "theorems": [
    "Yac.Num.C28_linspace",
    "Yac.Num.C28_negative"
   ],
   "note": "num>=2 exact over a field; num=1, num<=0 outcomes stated"
  },
  {
   "property": "C29",
   "status": "partial",
   "theorems": [
    "Yac.Num.C29_median",
    "Yac.Num.C29_empty_ub",
    "Yac.Num.C29_max",
    "Yac.Num.C29_mean",
    "Yac.Num.C29_var",
    "Yac.Num.C29_perm",
    "Yac.Num.C29_var_single",
    "Yac.Num.C29_mean_vec",
    "Yac.Num.C29_mean_vec_refuted",
    "Yac.Num.C29_stddev_rmse"
   ],
   "note": "proved for non-empty inputs; empty input is undefined (shown), vector mean uses a float32 reciprocal so the exact mean is refuted"
  },
  {
   "property": "C30",
   "status": "partial",
   "theorems": [
    "Yac.Num.C30_wrap_partial",
    "Yac.Num.C30_wrap_id",
    "Yac.Num.C30_range_refuted",
    "Yac.Num.C30_wrapPi_partial"
   ],
   "note": "congruence modulo a full turn for all angles; range for angles not below -180 (-360); range below that is refuted with the exact interval returned"
  },
  {
   "property": "C31",
   "status": "partial",
   "theorems": [
    "Yac.Geom.C31_load",
    "Yac.Geom.C31_store_load",
    "Yac.Geom.C31_mat2array",
    "Yac.Geom.C31_mat2array_load",
    "Yac.Geom.C31_mat2vec",
    "Yac.Geom.C31_vecs2mat",
    "Yac.Geom.C31_stack",
    "Yac.Geom.C31_array2vec_refuted",
    "Yac.Geom.C31_store_nonempty_refuted"
   ],
   "note": "index arithmetic of load/store proved; header-declared by-reference array2vec and non-empty-store cases refuted"
  },
  {
   "property": "C32",
   "status": "proved",
   "theorems": [
    "Yac.Geom.C32_inverse",
    "Yac.Geom.C32_point",
    "Yac.Geom.C32_recover",
    "Yac.Geom.C32_rebuild",
    "Yac.Geom.C32_vec",
    "Yac.Geom.C32_vec_params"
   ],
   "note": "inverse, composition, recovery, and tf(tf_vec(T))=T including Eigen's matrix-to-quaternion conversion for every proper rotation; quaternion recovered up to sign"
  },
  {
   "property": "C33",
   "status": "proved",
   "theorems": [
    "Yac.Geom.C33_hamilton",
    "Yac.Geom.C33_layout",
    "Yac.Geom.C33_quat2array",
    "Yac.Geom.C33_inv",
    "Yac.Geom.C33_inv_nonunit_refuted",
    "Yac.Geom.C33_sandwich",
    "Yac.Geom.C33_rotation",
    "Yac.Geom.C33_nonunit_refuted",
    "Yac.Geom.C33_homomorphism",
    "Yac.Geom.C33_blocks"
   ],
   "note": "against Mathlib's Hamilton quaternions; inverse for unit quaternions, with the non-unit failure shown"
  },
  {
   "property": "C34",
   "status": "partial",
   "theorems": [
    "Yac.Geom.C34_rotations",
    "Yac.Geom.C34_axes",
    "Yac.Geom.C34_euler321_partial",
    "Yac.Geom.C34_euler321_refuted",
    "Yac.Geom.C34_euler2quat",
    "Yac.Geom.C34_quat2euler",
    "Yac.Geom.C34_euler_of_quat",
    "Yac.Geom.C34_rvec2rot_partial",
    "Yac.Geom.C34_rvec2rot_refuted"
   ],
   "note": "all proper rotations; the product formula holds with transposed axis rotations and is refuted as stated; rvec2rot below its threshold refuted"
  },
  {
   "property": "C35",
   "status": "proved",
   "theorems": [
    "Yac.Geom.C35_skew"
   ],
   "note": ""
  },
  {
   "property": "C36",
   "status": "partial",
   "theorems": [
    "Yac.Geom.C36_pose_diff_partial",
    "Yac.Geom.C36_angle_refuted"
   ],
   "note": "zero on equal poses, detects rotation, equals the chord 2 sin(angle/2); equality with the angle refuted"
  },
  {
   "property": "C37",
   "status": "partial",
   "theorems": [
    "Yac.Cam.C37_radtan",
    "Yac.Cam.C37_equi_partial",
    "Yac.Cam.C37_equi_axis_refuted"
   ],
   "note": "radtan: full; equidistant: more than 1e-8 off the optical axis, on the axis the Jacobians are undefined (refuted)"
  },
  {
   "property": "C38",
   "status": "partial",
   "theorems": [
    "Yac.Cam.C38_radtan",
    "Yac.Cam.C38_pinhole_partial",
    "Yac.Cam.C38_equi_partial",
    "Yac.Cam.C38_equi_axis",
    "Yac.Cam.C38_border_refuted"
   ],
   "note": "radtan: full; equidistant and plain pinhole accept the right/bottom border (refuted), formula at least 1e-8 off axis and on the axis"
  },
  {
   "property": "C39",
   "status": "partial",
   "theorems": [
    "Yac.Cam.C39_radtan",
    "Yac.Cam.C39_equi_partial",
    "Yac.Cam.C39_equi_axis_refuted",
    "Yac.Cam.C39_undistort",
    "Yac.Cam.C39_equi_solution",
    "Yac.Cam.C39_radtan_newton",
    "Yac.Cam.C39_equi_iterates",
    "Yac.Cam.C39_pinholeK",
    "Yac.Cam.C39_focal"
   ],
   "note": "zero distortion: radtan full, equidistant off-axis, on the axis refuted; general: back-projection is undistortion, exact when the iteration reached a solution"
  },
  {
   "property": "C40",
   "status": "partial",
   "theorems": [
    "Yac.Cam.C40_huber",
    "Yac.Cam.C40_cauchy",
    "Yac.Cam.C40_blake_partial",
    "Yac.Cam.C40_blake_refuted"
   ],
   "note": "Huber and Cauchy full (clamp inactive); Blake-Zisserman first derivative only, second refuted"
  },
  {
   "property": "C41",
   "status": "partial",
   "theorems": [
    "Yac.Geom.C41_param",
    "Yac.Geom.C41_pose_partial",
    "Yac.Geom.C41_pose_meaning",
    "Yac.Geom.C41_set_tf",
    "Yac.Geom.C41_perturb_partial",
    "Yac.Geom.C41_perturb_small_refuted"
   ],
   "note": "exact for plain parameters; poses: exact for zero or >2e-6 rotation steps and within 3e-30 otherwise; perturb restores the transform for steps of at least 1e-8, unit norm refuted below"
  },
  {
   "property": "C42",
   "status": "partial",
   "theorems": [
    "Yac.Geom.C42_lift",
    "Yac.Geom.C42_plus_zero_partial",
    "Yac.Geom.C42_plus_zero_refuted",
    "Yac.Geom.C42_jacobian"
   ],
   "note": "derivative along every direction and left inverse proved; Plus(x,0)=x up to quaternion sign, refuted for negative scalar part"
  },
  {
   "property": "C43",
   "status": "partial",
   "theorems": [
    "Yac.Residual.C43_prior",
    "Yac.Residual.C43_pose_prior_partial",
    "Yac.Residual.C43_pose_prior_zero",
    "Yac.Residual.C43_radtan",
    "Yac.Residual.C43_equi_partial",
    "Yac.Residual.C43_invalid",
    "Yac.Residual.C43_outside_refuted",
    "Yac.Residual.C43_values",
    "Yac.Residual.C43_unwritten_refuted",
    "Yac.Residual.C43_fiducial_invalid_refuted",
    "Yac.Residual.C43_reproj",
    "Yac.Residual.C43_fiducial",
    "Yac.Residual.C43_mocap"
   ],
   "note": "reprojection, fiducial (roll/pitch), mocap, plain prior: all blocks, both update rules; pose prior off the branch boundaries; points outside the image and unwritten pixels refuted"
  },
  {
   "property": "C44",
   "status": "partial",
   "theorems": [
    "Yac.Imu.C44_consistent",
    "Yac.Imu.C44_start_refuted",
    "Yac.Imu.C44_inside_refuted",
    "Yac.Imu.C44_empty_interval_refuted",
    "Yac.Imu.C44_late_interval_refuted",
    "Yac.Imu.C44_covariance",
    "Yac.Imu.C44_covariance_partial",
    "Yac.Imu.C44_covariance_refuted",
    "Yac.Imu.C44_residual",
    "Yac.Imu.C44_error_jacobian_partial",
    "Yac.Imu.C44_attitude_jacobian_refuted",
    "Yac.Imu.C44_accel_jacobian",
    "Yac.Imu.C44_gyro_jacobian_partial",
    "Yac.Imu.C44_pose_jacobian",
    "Yac.Imu.C44_right_jacobian",
    "Yac.Imu.C44_elapsed",
    "Yac.Imu.C44_refused",
    "Yac.Imu.C44_empty_refuted",
    "Yac.Imu.C44_steps",
    "Yac.Imu.C44_motion_partial",
    "Yac.Imu.C44_translation",
    "Yac.Imu.C44_attitude",
    "Yac.Imu.C44_partition_refuted",
    "Yac.Imu.C44_transition_partial",
    "Yac.Imu.C44_transition_gyro",
    "Yac.Imu.C44_transition_refuted"
   ],
   "note": "Real arithmetic. The propagation loop is modelled statement by statement. Elapsed time, sample interpolation at both ends, the trapezoidal motion and its exactness on constant turn and acceleration, covariance positive (semi)definiteness and the weighted residual are proved. The attitude and velocity rows of the covariance transition are the derivative of a step; the position row is not (C44_transition_partial gives the difference, C44_transition_refuted a covariance of the wrong sign). The derivative blocks of the residual are the true derivatives of the error with respect to poses, velocity and accelerometer bias (gyroscope bias: for data that does not turn or turns by at least 1e-4 per step, poses within 120 degrees; the attitude row of the propagation Jacobian for the gyroscope bias is refuted). C44_consistent: the residual vanishes exactly for the state that propagation predicts when the interval starts at a sample; refuted where it starts or lies between samples. An empty interval, or one that ends after the last sample, reads out of bounds (refuted). Empty data, partition of the interval and the bias blocks of the covariance are refuted where the code departs."
  },
  {
   "property": "C45",
   "status": "partial",
   "theorems": [
    "Yac.Marg.C45_defined",
    "Yac.Marg.C45_other_refuted",
    "Yac.Marg.C45_util_partial",
    "Yac.Marg.C45_util_check_refuted",
    "Yac.Marg.C45_minus_plain",
    "Yac.Marg.C45_minus_pose",
    "Yac.Marg.C45_sign_refuted",
    "Yac.Marg.C45_pose_jacobian_partial",
    "Yac.Marg.C45_pose_jacobian_refuted",
    "Yac.Marg.C45_jacobian",
    "Yac.Marg.C45_all_written",
    "Yac.Marg.C45_solution_partial",
    "Yac.Marg.C45_small_refuted",
    "Yac.Marg.C45_marginalize_partial"
   ],
   "note": "Proved in exact arithmetic, end to end from the residual blocks to the new residual: the squared norm of the new residual plus a constant is the minimum of the linearised cost over the marginalised parameters, for every value of the kept ones (C45_marginalize_partial), and the Schur complement keeps the solution of the normal equations (C45_solution_partial). Missing, with counterexamples: eigenvalues in (0, 1e-8] or below the relative tolerance are dropped (C45_small_refuted), a free kept parameter of another type (time delay) is forgotten (C45_other_refuted), the pose Jacobian is taken at the stored value and not where the residual is evaluated (C45_pose_jacobian_refuted), the increment depends on the sign of the quaternion (C45_sign_refuted), and the inverse check of the helper in util can be passed by a singular matrix (C45_util_check_refuted). The eigen-decomposition is assumed correct; rounding is not modelled."
  },
  {
   "property": "C46",
   "status": "partial",
   "theorems": [
    "Yac.Solver.C46_ceres_bookkeeping",
    "Yac.Solver.C46_ceres_rejects",
    "Yac.Solver.C46_base_bookkeeping_partial",
    "Yac.Solver.C46_base_shared_refuted",
    "Yac.Solver.C46_ceres_clear_refuted"
   ],
   "note": "ceres-backed solver: full refinement for every legal history and rejection of illegal ones; yac_solver_t: refinement when no removed parameter's residual has another parameter, refuted otherwise; clear on the ceres solver refuted"
  },
  {
   "property": "C47",
   "status": "partial",
   "theorems": [
    "Yac.Solver.C47_lm_step",
    "Yac.Solver.C47_lm_never_worse",
    "Yac.Solver.C47_solve_returns",
    "Yac.Solver.C47_unregistered_refuted"
   ],
   "note": "proved when every residual's parameters are registered with add_param; refuted otherwise"
  },
  {
   "property": "C48",
   "status": "partial",
   "theorems": [
    "Yac.Solver.C48_gn_not_worse_partial",
    "Yac.Solver.C48_gn_nan_refuted"
   ],
   "note": "proved up to floating-point comparison; a NaN final cost is kept (refuted)"
  },
  {
   "property": "C49",
   "status": "partial",
   "theorems": [
    "Yac.Solver.C49_columns",
    "Yac.Solver.C49_normal_equations",
    "Yac.Solver.C49_jacobian_layout",
    "Yac.Solver.C49_update",
    "Yac.Solver.C49_defined",
    "Yac.Solver.C49_no_camera_refuted",
    "Yac.Solver.C49_unknown_type_refuted"
   ],
   "note": "proved for well-formed residual lists with at least one free camera parameter; without one the column lookup throws, and unknown parameter types get no columns (both refuted)"
  },
  {
   "property": "C50",
   "status": "partial",
   "theorems": [
    "Yac.Calib.C50_find_partial",
    "Yac.Calib.C50_opposite",
    "Yac.Calib.C50_adjacency",
    "Yac.Calib.C50_chain_refuted",
    "Yac.Calib.C50_disconnected_refuted",
    "Yac.Calib.C50_build",
    "Yac.Calib.C50_build_ok"
   ],
   "note": "directly inserted pairs answered, opposite query is the inverse; paths through an intermediate camera and disconnected cameras refuted"
  },
  {
   "property": "C51",
   "status": "partial",
   "theorems": [
    "Yac.Calib.C51_filter_partial",
    "Yac.Calib.C51_magnitude_refuted",
    "Yac.Calib.C51_thresholds",
    "Yac.Calib.C51_per_camera_refuted",
    "Yac.Calib.C51_filter_all"
   ],
   "note": "exact effect of filter_view on view, grid, solver and count for every threshold; residuals are compared with their sign (C51_magnitude_refuted) and with thresholds per camera every threshold is applied to every camera (C51_per_camera_refuted)"
  },
  {
   "property": "C52",
   "status": "partial",
   "theorems": [
    "Yac.Calib.C52_reject_partial",
    "Yac.Calib.C52_decision",
    "Yac.Calib.C52_present_view_refuted"
   ],
   "note": "for every solver outcome and information value, when the timestamp is not yet a view; refuted for the timestamp of a present view, which the rejection deletes"
  },
  {
   "property": "C53",
   "status": "partial",
   "theorems": [
    "Yac.Calib.C53_consistent_partial",
    "Yac.Calib.C53_add_view",
    "Yac.Calib.C53_add_view_ok",
    "Yac.Calib.C53_remove_view",
    "Yac.Calib.C53_remove_all_views",
    "Yac.Calib.C53_marginalize",
    "Yac.Calib.C53_duplicate_refuted"
   ],
   "note": "invariant over all histories of the modelled calls with fresh view timestamps; refuted for a repeated timestamp; remove_all_views is fatal exactly when a marginalisation prior exists"
  },
  {
   "property": "C54",
   "status": "partial",
   "theorems": [
    "Yac.Calib.C54_find_nbv_partial",
    "Yac.Calib.C54_find_nbv_fast_partial",
    "Yac.Calib.C54_nonnegative_refuted"
   ],
   "note": "argmin over all candidates when some candidate has negative information, and exact return code; refuted when no candidate is negative (candidate 0 of camera 0 is reported)"
  },
  {
   "property": "C55",
   "status": "partial",
   "theorems": [
    "Yac.Calib.C55_ready_partial",
    "Yac.Calib.C55_in_order",
    "Yac.Calib.C55_newer_refuted",
    "Yac.Calib.C55_missing_refuted"
   ],
   "note": "exact readiness condition; in-order arrival gives the property; refuted for late images and for cameras that have not delivered yet"
  },
  {
   "property": "C56",
   "status": "proved",
   "theorems": [
    "Yac.Nbv.C56_grid",
    "Yac.Nbv.C56_observable",
    "Yac.Nbv.C56_observable_grid",
    "Yac.Nbv.C56_centre",
    "Yac.Nbv.C56_origin",
    "Yac.Nbv.C56_origin_sees",
    "Yac.Nbv.C56_coverage",
    "Yac.Nbv.C56_init_poses",
    "Yac.Nbv.C56_front_refuted",
    "Yac.Nbv.C56_nbv_poses",
    "Yac.Nbv.C56_multi",
    "Yac.Nbv.C56_multi_fail",
    "Yac.Nbv.C56_reached",
    "Yac.Nbv.C56_reached_refuted",
    "Yac.Nbv.C56_entropy",
    "Yac.Nbv.C56_draw"
   ],
   "note": "The whole of calib_nbv.cpp is modelled over the two camera geometries of cv.cpp in exact real arithmetic (drawing into the image left out). C56_grid, C56_observable, C56_observable_grid, C56_origin, C56_origin_sees and C56_centre settle the property for every rigid pose; C56_coverage, C56_init_poses, C56_nbv_poses, C56_multi, C56_multi_fail, C56_reached, C56_entropy and C56_draw cover the rest of the file. Refuted beside it: a measured grid sharing no corner with the target view counts as reached (C56_reached_refuted); the pose in front of the target is built and then cleared (C56_front_refuted)."
  },
  {
   "property": "C57",
   "status": "partial",
   "theorems": [
    "Yac.VI.C57_fresh",
    "Yac.VI.C57_sensor_pose",
    "Yac.VI.C57_again_refuted",
    "Yac.VI.C57_again_fiducial",
    "Yac.VI.C57_attitude_partial",
    "Yac.VI.C57_attitude_limit_partial",
    "Yac.VI.C57_upside_down_refuted"
   ],
   "note": "Proved for the first initialisation (C57_fresh, exact prediction and target at the origin; C57_attitude_partial for the gravity alignment) and for estimate_sensor_pose (C57_sensor_pose). Refuted for a second initialisation with a fiducial present unless the first camera has identity extrinsics (C57_again_refuted) and for a sensor exactly upside down (C57_upside_down_refuted)."
  },
  {
   "property": "C58",
   "status": "partial",
   "theorems": [
    "Yac.VI.C58_window",
    "Yac.VI.C58_result",
    "Yac.VI.C58_connected",
    "Yac.VI.C58_problem",
    "Yac.VI.C58_prior",
    "Yac.VI.C58_order_partial",
    "Yac.VI.C58_order_refuted",
    "Yac.VI.C58_zero_window_refuted",
    "Yac.VI.C58_negative_window_refuted",
    "Yac.VI.C58_no_failure",
    "Yac.VI.C58_other_camera_refuted"
   ],
   "note": "Bound, connectivity and problem bookkeeping are proved for every history (C58_window, C58_connected, C58_problem, C58_prior); time order needs measurements newer than the last view (C58_order_partial) and is refuted otherwise (C58_order_refuted). Window sizes 0 and below do not bound the window (C58_zero_window_refuted, C58_negative_window_refuted). C58_no_failure gives conditions under which no call aborts; C58_other_camera_refuted shows initialisation aborts when only a camera other than the first sees the target."
  },
  {
   "property": "C59",
   "status": "partial",
   "theorems": [
    "Yac.AprilGrid.C59_detect",
    "Yac.AprilGrid.C59_thread",
    "Yac.AprilGrid.C59_colour",
    "Yac.AprilGrid.C59_in_image",
    "Yac.AprilGrid.C59_strip_refuted",
    "Yac.AprilGrid.C59_v3_refuted",
    "Yac.AprilGrid.C59_v3_stray_refuted",
    "Yac.AprilGrid.C59_repeated_refuted",
    "Yac.AprilGrid.C59_paths_refuted",
    "Yac.AprilGrid.C59_cameras"
   ],
   "note": "The tag detectors, cornerSubPix and the order of equal ids are arbitrary parameters; pixels rational, distances exact. C59_detect / C59_thread characterise the returned grid completely (which corners, which keypoints, when nothing) for every detector output with nonnegative ids. Refuted: AprilTags 3 detections are not filtered and a stray id throws or writes out of bounds; a one-row or one-column board is never detected; repeated ids are counted twice; the two code paths use different rules."
  },
  {
   "property": "C60",
   "status": "partial",
   "theorems": [
    "Yac.Misc.C60_check_partial",
    "Yac.Misc.C60_shape_refuted"
   ],
   "note": "full for non-empty matrices of equal shape; shape mismatch and empty matrices are reported as success (refuted)"
  },
  {
   "property": "C61",
   "status": "partial",
   "theorems": [
    "Yac.Misc.C61_closest_point",
    "Yac.Misc.C61_left_right",
    "Yac.Misc.C61_cross_track_refuted",
    "Yac.Misc.C61_cross_track_partial",
    "Yac.Misc.C61_intersect",
    "Yac.Misc.C61_intersect_refuted",
    "Yac.Misc.C61_fit_circle",
    "Yac.Misc.C61_circle_sphere"
   ],
   "note": "closest_point, point_left_right, intersect_circles (distinct centres), fit_circle (points on a circle) full; cross_track_error refuted; coincident circles refuted; near-tangent circles to 1e-10 as coded"
  },
  {
   "property": "C62",
   "status": "partial",
   "theorems": [
    "Yac.Misc.C62_roundtrip_refuted",
    "Yac.Misc.C62_east_refuted",
    "Yac.Misc.C62_diff_partial",
    "Yac.Misc.C62_zero_partial"
   ],
   "note": "round trip refuted (axes exchanged, degrees/radians); latlon_diff and latlon_dist proved right"
  },
  {
   "property": "C63",
   "status": "proved",
   "theorems": [
    "Yac.Num.C63_binomial",
    "Yac.Num.C63_diverges"
   ],
   "note": "equals Nat.choose for k<=n; non-termination otherwise"
  },
  {
   "property": "C64",
   "status": "proved",
   "theorems": [
    "Yac.AprilGrid.C64_equal_refl",
    "Yac.AprilGrid.C64_equal_sound"
   ],
   "note": ""
  },
  {
   "property": "C65",
   "status": "proved",
   "theorems": [
    "Yac.Num.C65_fltcmp",
    "Yac.Num.C65_not_transitive"
   ],
   "note": ""
  },
  {
   "property": "C66",
   "status": "partial",
   "theorems": [
    "Yac.Num.C66_randf",
    "Yac.Num.C66_randi_partial",
    "Yac.Num.C66_randi_refuted"
   ],
   "note": "randf proved; randi returns a value in [first, first+second), so the two-bounds reading is refuted, and a zero span divides by zero"
  },
  {
   "property": "C67",
   "status": "partial",
   "theorems": [
    "Yac.Geom.C67_vecs2rot_partial",
    "Yac.Geom.C67_opposite_refuted"
   ],
   "note": "all non-zero vectors not pointing in opposite directions; opposite directions refuted (zero matrix)"
  },
  {
   "property": "C68",
   "status": "partial",
   "theorems": [
    "Yac.Geom.C68_enforce_psd_partial",
    "Yac.Geom.C68_psd_refuted"
   ],
   "note": "symmetric with nonnegative diagonal proved; positive semidefiniteness refuted"
  },
  {
   "property": "C69",
   "status": "partial",
   "theorems": [
    "Yac.Misc.C69_lookat",
    "Yac.Misc.C69_lookat_refuted"
   ],
   "note": "every non-degenerate configuration; viewing along the up axis refuted"
  },
  {
   "property": "C70",
   "status": "proved",
   "theorems": [
    "Yac.Misc.C70_equals"
   ],
   "note": "all shapes and entries, exact arithmetic"
  },
  {
   "property": "C71",
   "status": "partial",
   "theorems": [
    "Yac.Calib.C71_find_nbv_frame_partial",
    "Yac.Calib.Witness.C71_recorded_data_refuted"
   ],
   "note": "everything but the recorded detections; those gain an entry (C71_recorded_data_refuted)"
  },
  {
   "property": "C72",
   "status": "proved",
   "theorems": [
    "Yac.Calib.C72_initial_pose"
   ],
   "note": ""
  },
  {
   "property": "C73",
   "status": "proved",
   "theorems": [
    "Yac.Calib.C73_add_camera_data",
    "Yac.Calib.C73_add_cameras_data"
   ],
   "note": "without init_intrinsics"
  },
  {
   "property": "C74",
   "status": "partial",
   "theorems": [
    "Yac.VI.C74_reset_partial",
    "Yac.VI.C74_reset_refuted"
   ],
   "note": "Holds when no marginalisation prior exists (C74_reset_partial); refuted otherwise: reset keeps the id of a residual that is gone and every later marginalisation fails (C74_reset_refuted)."
  },
  {
   "property": "C75",
   "status": "proved",
   "theorems": [
    "Yac.VI.C75_view",
    "Yac.VI.C75_grid",
    "Yac.VI.C75_imu"
   ],
   "note": "For every history of the modelled calls."
  },
  {
   "property": "C76",
   "status": "partial",
   "theorems": [
    "Yac.VI.C76_new_partial",
    "Yac.VI.C76_history_partial",
    "Yac.VI.C76_pitch_refuted",
    "Yac.VI.C76_gimbal_refuted"
   ],
   "note": "Holds while the pitch stays strictly within 90 degrees (C76_history_partial, C76_new_partial); refuted beyond (C76_pitch_refuted: estimate() toggles the yaw by 180 degrees and disagrees with the residual) and in gimbal lock (C76_gimbal_refuted)."
  },
  {
   "property": "C77",
   "status": "proved",
   "theorems": [
    "Yac.Nbt.C77_shape",
    "Yac.Nbt.C77_velocity",
    "Yac.Nbt.C77_acceleration",
    "Yac.Nbt.C77_quaternion",
    "Yac.Nbt.C77_angular_velocity",
    "Yac.Nbt.C77_rest",
    "Yac.Nbt.C77_generated",
    "Yac.Nbt.C77_radius_refuted",
    "Yac.Nbt.C77_period_refuted",
    "Yac.Nbt.C77_catalogue"
   ],
   "note": "Exact real arithmetic; literals for pi/2 and 2 pi read as such. Limits: the class checks neither radius nor period (C77_radius_refuted, C77_period_refuted); the generator always passes a large enough radius."
  },
  {
   "property": "C78",
   "status": "partial",
   "theorems": [
    "Yac.Nbt.C78_imu_partial",
    "Yac.Nbt.C78_times",
    "Yac.Nbt.C78_period",
    "Yac.Nbt.C78_kinematics",
    "Yac.Nbt.C78_noise_refuted",
    "Yac.Nbt.C78_rate_check_refuted",
    "Yac.Nbt.C78_reset",
    "Yac.Nbt.C78_bias",
    "Yac.Nbt.C78_first_bias",
    "Yac.Nbt.C78_stuck_refuted",
    "Yac.Nbt.C78_grid",
    "Yac.Nbt.C78_cameras",
    "Yac.Nbt.C78_cameras_missing",
    "Yac.Nbt.C78_timeline",
    "Yac.Nbt.C78_timeline_oob"
   ],
   "note": "Exact real arithmetic. Proved for rates up to one per nanosecond and a first timestamp that passes the rate check. Refuted: that check is inverted and made on the first sample only (C78_rate_check_refuted), noise densities and random draws never reach the measurements (C78_noise_refuted), a rate above 1e9 loops for ever (C78_stuck_refuted)."
  },
  {
   "property": "C79",
   "status": "partial",
   "theorems": [
    "Yac.Nbt.C79_best_partial",
    "Yac.Nbt.C79_failed_refuted"
   ],
   "note": "nbt_eval (Ceres) is an input. Proved when every evaluation succeeds; refuted otherwise: a failed evaluation counts as determinant 1 and is chosen over all others when their determinants are below 1 (C79_failed_refuted)."
  },
  {
   "property": "C80",
   "status": "partial",
   "theorems": [
    "Yac.Calib.C80_sound",
    "Yac.Calib.C80_remove_outliers",
    "Yac.Calib.C80_frame_partial",
    "Yac.Calib.C80_last_refuted",
    "Yac.Calib.C80_again_refuted",
    "Yac.Calib.Witness.C80_estimates_refuted",
    "Yac.Calib.Witness.C80_abort_refuted",
    "Yac.Calib.Witness.C80_vanish_refuted"
   ],
   "note": "The statement that estimates are untouched is proved for calls in which the information can be computed and refuted otherwise; \"only the last view\" is the one with the largest timestamp, refuted as a treatment of the view just added; a view that consists of outliers only vanishes uncounted; re-adding a filtered view can abort."
  },
  {
   "property": "C81",
   "status": "partial",
   "theorems": [
    "Yac.Calib.C81_pose",
    "Yac.Calib.C81_filter",
    "Yac.Calib.C81_track",
    "Yac.Calib.Witness.C81_tags_refuted",
    "Yac.Calib.Witness.C81_removed_refuted",
    "Yac.Calib.C81_order_partial",
    "Yac.Calib.C81_ends_refuted",
    "Yac.Calib.C81_empty_refuted",
    "Yac.Calib.C81_history",
    "Yac.Calib.C81_window",
    "Yac.Calib.C81_gain_partial",
    "Yac.Calib.C81_gain_run"
   ],
   "note": "The first and last frame with a pose are never tried, of frames with equal keys only the last, the corner counts are those of other frames when a pose could not be estimated, an empty list of poses is read out of bounds, and the final count of removed outliers is overwritten: refuted. The gain statement is for runs without outlier removal inside the loop."
  },
  {
   "property": "C82",
   "status": "partial",
   "theorems": [
    "Yac.Calib.C82_batch",
    "Yac.Calib.C82_batch_ok",
    "Yac.Calib.C82_twice_refuted",
    "Yac.Calib.C82_incremental",
    "Yac.Calib.C82_unsolved_refuted",
    "Yac.Calib.C82_final",
    "Yac.Calib.Witness.C82_fixed_refuted"
   ],
   "note": "A second solve adds every view again (refuted), incremental calibration never solves when there are fewer detected frames than the window (refuted) and aborts when all cameras are fixed (refuted)."
  },
  {
   "property": "C83",
   "status": "partial",
   "theorems": [
    "Yac.Text.C83_rows",
    "Yac.Text.C83_missing_refuted",
    "Yac.Text.C83_long_refuted",
    "Yac.Text.C83_cols_partial",
    "Yac.Text.C83_cols_refuted",
    "Yac.Text.C83_data_partial",
    "Yac.Text.C83_data_refuted",
    "Yac.Text.C83_none",
    "Yac.Text.C83_ragged_refuted",
    "Yac.Text.C83_last_refuted",
    "Yac.Text.C83_fields"
   ],
   "note": "csv_data is correct exactly for square tables and undefined for every other shape (refuted for all shapes); csv_cols also counts commas left in the buffer by a longer comment (refuted); lines of more than 1022 characters are counted twice (refuted); a missing file is undefined behaviour (refuted); a last line without newline loses its last number (refuted); rows with fewer fields shift the numbers (C83_ragged_refuted); C83_none: an empty table."
  },
  {
   "property": "C84",
   "status": "partial",
   "theorems": [
    "Yac.Text.C84_integers_partial",
    "Yac.Text.C84_int",
    "Yac.Text.C84_doubles_refuted",
    "Yac.Text.C84_doubles_partial",
    "Yac.Text.C84_long_refuted",
    "Yac.Text.C84_missing_refuted"
   ],
   "note": "Proved for integers (lines of at most 1022 characters, numbers that fit an int). For doubles every correctly announced array is written past its end (refuted for all such files); it works only when more elements are announced than follow. Long rows are split, and a missing file is undefined behaviour (refuted)."
  },
  {
   "property": "C85",
   "status": "proved",
   "theorems": [
    "Yac.Text.C85_unsigned",
    "Yac.Text.C85_signed"
   ],
   "note": "Reading past the end of the buffer is the outcome oob. The shift of a byte above 127 by 24 in int (undefined before C++20) is taken as wrap-around."
  },
  {
   "property": "C86",
   "status": "partial",
   "theorems": [
    "Yac.Solver.C86_covariance_partial",
    "Yac.Solver.C86_succeeds_partial",
    "Yac.Solver.C86_all_refuted",
    "Yac.Solver.C86_unused_refuted",
    "Yac.Solver.C86_small_refuted",
    "Yac.Solver.C86_rejects_refuted",
    "Yac.Solver.C86_kind_refuted"
   ],
   "note": "eigenvalues of the marginalised block in (0, 1e-8], nothing left to marginalise, unused or unknown parameters excluded (each refuted)"
  },
  {
   "property": "C87",
   "status": "partial",
   "theorems": [
    "Yac.VI.C87_cost_partial",
    "Yac.VI.C87_newest_refuted"
   ],
   "note": "C87_cost_partial: the cost is half the sum of squares of all residuals of the problem except the fiducial residuals of the newest view. C87_newest_refuted: the full claim is false as soon as one of those is not zero."
  },
  {
   "property": "C88",
   "status": "partial",
   "theorems": [
    "Yac.VI.C88_filter_partial",
    "Yac.VI.C88_sound",
    "Yac.VI.C88_negative_refuted",
    "Yac.VI.C88_equal_refuted"
   ],
   "note": "C88_filter_partial: exactly the measurements with a component above the limit are lost, consistently in views and problem. C88_sound: these do have an error longer than the limit. C88_negative_refuted: long errors with negative components are kept. C88_equal_refuted: in a view with equal errors every error with a positive component is removed."
  },
  {
   "property": "C89",
   "status": "partial",
   "theorems": [
    "Yac.VI.C89_solve_partial",
    "Yac.VI.C89_delay_refuted"
   ],
   "note": "C89_solve_partial: runs, residuals and constant blocks other than the time delay are as claimed; the time delay is constant in the first run and free in the others. C89_delay_refuted: a time delay the user fixed is estimated."
  },
  {
   "property": "C90",
   "status": "partial",
   "theorems": [
    "Yac.VI.C90_rate",
    "Yac.VI.C90_finite",
    "Yac.VI.C90_poses",
    "Yac.VI.C90_no_view_refuted",
    "Yac.VI.C90_errors"
   ],
   "note": "C90_rate, C90_finite, C90_poses (for images handed in in time order), C90_errors. C90_no_view_refuted: the newest-pose query before the first view reads outside the container."
  },
  {
   "property": "C91",
   "status": "proved",
   "theorems": [
    "Yac.Mocap.C91_create",
    "Yac.Mocap.C91_mismatch",
    "Yac.Mocap.C91_sound",
    "Yac.Mocap.C91_total",
    "Yac.Mocap.C91_nbv",
    "Yac.Mocap.C91_gain"
   ],
   "note": "C91_create (initial guess exists iff some grid is estimable, otherwise uninitialised read), C91_sound, C91_total, C91_nbv, C91_gain."
  },
  {
   "property": "C92",
   "status": "partial",
   "theorems": [
    "Yac.Mocap.C92_reject_partial",
    "Yac.Mocap.C92_unknown",
    "Yac.Mocap.Witness.C92_intrinsic_refuted",
    "Yac.Mocap.Witness.C92_corners_refuted"
   ],
   "note": "Partial: C92_reject_partial (7 of 8 intrinsics, target pose, extrinsics, poses, information, view list); C92_intrinsic_refuted (last intrinsic keeps the rejected value) and C92_corners_refuted (other views lose corners) show the rest is false of the code."
  },
  {
   "property": "C93",
   "status": "partial",
   "theorems": [
    "Yac.Mocap.C93_solve_partial",
    "Yac.Mocap.C93_fixed",
    "Yac.Mocap.C93_filter",
    "Yac.Mocap.Witness.C93_twice_refuted"
   ],
   "note": "Partial: C93_solve_partial for a new calibrator; C93_filter, C93_fixed for all histories; C93_twice_refuted: a second solve evaluates freed residuals."
  },
  {
   "property": "C94",
   "status": "partial",
   "theorems": [
    "Yac.Data.C94_lerp_partial",
    "Yac.Data.C94_count_partial",
    "Yac.Data.C94_none_refuted",
    "Yac.Data.C94_dense_refuted",
    "Yac.Data.C94_nosamples",
    "Yac.Data.Witness.C94_extrapolated_refuted",
    "Yac.Data.Witness.C94_order_refuted"
   ],
   "note": "Partial: C94_lerp_partial, C94_count_partial (grids separated by samples); C94_none_refuted, C94_dense_refuted, C94_extrapolated_refuted, C94_order_refuted show the full statement false of the code; C94_nosamples."
  },
  {
   "property": "C95",
   "status": "partial",
   "theorems": [
    "Yac.Data.C95_order_free",
    "Yac.Data.C95_blank_refuted",
    "Yac.Data.C95_v2_refuted",
    "Yac.Data.C95_formats_refuted",
    "Yac.Data.C95_schedule",
    "Yac.Data.C95_cameras",
    "Yac.Data.C95_resume_partial",
    "Yac.Data.C95_torn_refuted",
    "Yac.Data.C95_names",
    "Yac.Data.C95_directory",
    "Yac.Data.C95_v2_load",
    "Yac.Data.C95_v2_short",
    "Yac.Data.Witness.C95_order_refuted"
   ],
   "note": "Partial: C95_schedule, C95_cameras, C95_order_free for all schedules; C95_resume_partial (complete runs resumed); C95_torn_refuted (crash), C95_blank_refuted, C95_v2_refuted, C95_formats_refuted, C95_order_refuted; C95_names, C95_directory, C95_v2_load, C95_v2_short."
  },
  {
   "property": "C96",
   "status": "partial",
   "theorems": [
    "Yac.Info.C96_score_partial",
    "Yac.Info.C96_first_refuted",
    "Yac.Info.C96_fixed_refuted",
    "Yac.Info.C96_unseen_refuted"
   ],
   "note": "Partial: C96_score_partial (all cameras optimised and seen before, at least one view); C96_first_refuted, C96_fixed_refuted, C96_unseen_refuted show the other cases false of the code."
  },
  {
   "property": "C97",
   "status": "partial",
   "theorems": [
    "Yac.Setup.C97_focal",
    "Yac.Setup.C97_unseen",
    "Yac.Setup.C97_coincident_refuted",
    "Yac.Setup.C97_repeated_refuted",
    "Yac.Setup.C97_axis",
    "Yac.Setup.C97_single"
   ],
   "note": "C97_focal and C97_unseen hold for all inputs; C97_repeated_refuted and C97_coincident_refuted give the inputs for which the code fails although the English claim covers them."
  },
  {
   "property": "C98",
   "status": "partial",
   "theorems": [
    "Yac.Setup.C98_default",
    "Yac.Setup.C98_unsupported",
    "Yac.Setup.C98_init",
    "Yac.Setup.C98_parts",
    "Yac.Setup.C98_few",
    "Yac.Setup.C98_focal",
    "Yac.Setup.C98_order",
    "Yac.Setup.C98_fisheye",
    "Yac.Setup.C98_fixed_refuted",
    "Yac.Setup.C98_split_refuted",
    "Yac.Setup.C98_all_off",
    "Yac.Setup.C98_all_on"
   ],
   "note": "C98_default, C98_unsupported, C98_init, C98_parts, C98_few, C98_focal, C98_order, C98_fisheye are proved in full; C98_fixed_refuted and C98_split_refuted refute the rest of the claim of the code."
  },
  {
   "property": "C99",
   "status": "partial",
   "theorems": [
    "Yac.Setup.C99_frames",
    "Yac.Setup.C99_fixed_intrinsics",
    "Yac.Setup.C99_reference",
    "Yac.Setup.C99_extrinsics",
    "Yac.Setup.C99_bad_frame_refuted",
    "Yac.Setup.C99_independent",
    "Yac.Setup.C99_succeeds",
    "Yac.Setup.C99_flags",
    "Yac.Setup.InitWitness.C99_fixed_extrinsics_refuted"
   ],
   "note": "C99_independent, C99_succeeds, C99_flags, C99_frames, C99_fixed_intrinsics, C99_reference, C99_extrinsics are proved for all inputs; C99_fixed_extrinsics_refuted and C99_bad_frame_refuted refute the rest of the code."
  },
  {
   "property": "C100",
   "status": "partial",
   "theorems": [
    "Yac.Setup.C100_value",
    "Yac.Setup.C100_exact",
    "Yac.Setup.C100_missing_refuted",
    "Yac.Setup.C100_uninit_refuted",
    "Yac.Setup.C100_missing"
   ],
   "note": "C100_value characterises every defined result and C100_exact is its consequence; C100_missing_refuted and C100_uninit_refuted are the inputs on which the code has no defined result."
  },
  {
   "property": "C101",
   "status": "partial",
   "theorems": [
    "Yac.Info.C101_covariance",
    "Yac.Info.C101_info",
    "Yac.Info.C101_gain",
    "Yac.Info.C101_fails",
    "Yac.Info.C101_mocap",
    "Yac.Info.C101_singular_refuted",
    "Yac.Info.C101_fixed_refuted",
    "Yac.Info.C101_mocap_fixed_refuted"
   ],
   "note": "C101_covariance, C101_info, C101_gain, C101_fails, C101_mocap are proved for all inputs; C101_singular_refuted, C101_fixed_refuted, C101_mocap_fixed_refuted are the inputs on which the code deviates."
  },
  {
   "property": "C102",
   "status": "proved",
   "theorems": [
    "Yac.Sim.C102_data",
    "Yac.Sim.C102_kinematics",
    "Yac.Sim.C102_rig",
    "Yac.Sim.C102_seen",
    "Yac.Sim.C102_camera",
    "Yac.Sim.C102_features",
    "Yac.Sim.C102_noise",
    "Yac.Sim.C102_zero",
    "Yac.Sim.C102_image"
   ],
   "note": "C102_data, C102_kinematics, C102_rig, C102_seen, C102_camera, C102_features, C102_noise, C102_zero; in exact real arithmetic (the accumulated rounding of t += dt is outside the model)."
  },
  {
   "property": "C103",
   "status": "proved",
   "theorems": [
    "Yac.Sparse.C103_roundtrip",
    "Yac.Sparse.C103_symmetric",
    "Yac.Sparse.C103_norm",
    "Yac.Sparse.C103_rank"
   ],
   "note": "C103_roundtrip, C103_symmetric, C103_norm, C103_rank; exact real arithmetic."
  },
  {
   "property": "C104",
   "status": "partial",
   "theorems": [
    "Yac.Sparse.C104_solve",
    "Yac.Sparse.C104_minimum",
    "Yac.Sparse.C104_truncated",
    "Yac.Sparse.C104_step",
    "Yac.Sparse.C104_logdet_partial",
    "Yac.Sparse.C104_singular_refuted",
    "Yac.Sparse.C104_cache_refuted",
    "Yac.Sparse.C104_none_left",
    "Yac.Sparse.C104_too_many"
   ],
   "note": "C104_solve, C104_minimum, C104_truncated, C104_step, C104_logdet_partial. Refuted: with a singular information the estimate is the logarithm of the pseudo-determinant, so a measurement without information has value 0 and a weak one a positive value (C104_singular_refuted); the symbolic factorisation is reused when only the numbers of rows, columns and entries are the same, so it may be one of another matrix (C104_cache_refuted). estimate_log_det_covar also ignores its argument params (UNUSED). Exact real arithmetic; CHOLMOD operations other than the converters are matrix operations."
  },
  {
   "property": "C105",
   "status": "partial",
   "theorems": [
    "Yac.Cv.C105_sort",
    "Yac.Cv.C105_sort_whole",
    "Yac.Cv.C105_sort_refuted",
    "Yac.Cv.C105_fast",
    "Yac.Cv.C105_good",
    "Yac.Cv.C105_inside",
    "Yac.Cv.C105_count",
    "Yac.Cv.C105_even",
    "Yac.Cv.C105_limit_refuted",
    "Yac.Cv.C105_zero_refuted",
    "Yac.Cv.C105_fine_refuted",
    "Yac.Cv.C105_empty_grid",
    "Yac.Cv.C105_small_mask",
    "Yac.Cv.C105_lines",
    "Yac.Cv.C105_lines_refuted"
   ],
   "note": "C105_sort, C105_sort_whole, C105_fast, C105_good, C105_inside, C105_count, C105_even, C105_small_mask, C105_lines, C105_empty_grid. Refuted: responses are truncated to integers before sorting (C105_sort_refuted); more points than requested are returned when the grid does not divide the image or the limit (C105_limit_refuted, C105_zero_refuted); a grid finer than the image never ends (C105_fine_refuted)."
  },
  {
   "property": "C106",
   "status": "partial",
   "theorems": [
    "Yac.Cv.C106_roundtrip",
    "Yac.Cv.C106_type_refuted",
    "Yac.Cv.C106_equal",
    "Yac.Cv.C106_colour_refuted",
    "Yac.Cv.C106_channels",
    "Yac.Cv.C106_roundtrip_equal"
   ],
   "note": "C106_roundtrip, C106_equal, C106_channels. Refuted: a matrix of another element type is read out of bounds (C106_type_refuted); is_equal throws for colour images (C106_colour_refuted)."
  },
  {
   "property": "C107",
   "status": "partial",
   "theorems": [
    "Yac.Ctraj.C107_velocity",
    "Yac.Ctraj.C107_angular_partial",
    "Yac.Ctraj.C107_failures",
    "Yac.Ctraj.C107_times",
    "Yac.Ctraj.C107_save",
    "Yac.Ctraj.C107_orientation_refuted",
    "Yac.Ctraj.C107_snap_refuted",
    "Yac.Ctraj.C107_init",
    "Yac.Ctraj.C107_ends",
    "Yac.Ctraj.C107_rigid",
    "Yac.Ctraj.C107_through",
    "Yac.Ctraj.C107_orientation_partial",
    "Yac.Ctraj.C107_one_axis"
   ],
   "note": "C107_init, C107_ends, C107_rigid, C107_through, C107_orientation_partial (steps of at most half a turn), C107_one_axis, C107_velocity, C107_angular_partial (rotations of at least 1e-12 radians), C107_times, C107_save, C107_failures. Refuted: for larger steps whole turns are taken off along the difference of the rotation vectors, so the trajectory has other orientations than given (C107_orientation_refuted); within 1e-4 of the duration of either end the pose is frozen although the velocity is not zero (C107_snap_refuted)."
  },
  {
   "property": "C108",
   "status": "proved",
   "theorems": [
    "Yac.Att.C108_attitude",
    "Yac.Att.C108_unique",
    "Yac.Att.C108_static",
    "Yac.Att.C108_short",
    "Yac.Att.C108_none",
    "Yac.Att.C108_free_fall"
   ],
   "note": "C108_attitude, C108_unique, C108_static; failures C108_short, C108_none, C108_free_fall."
  },
  {
   "property": "C109",
   "status": "partial",
   "theorems": [
    "Yac.Lie.C109_exp",
    "Yac.Lie.C109_small",
    "Yac.Lie.C109_exp_refuted",
    "Yac.Lie.C109_axis",
    "Yac.Lie.C109_jr",
    "Yac.Lie.C109_exp_moves",
    "Yac.Lie.C109_jr_zero_refuted",
    "Yac.Lie.C109_imu_jr"
   ],
   "note": "C109_exp (>= 1e-3), C109_small (within |phi|^2), C109_axis, C109_jr, C109_exp_moves, C109_imu_jr; refuted: C109_exp_refuted (below 1e-3 not a rotation), C109_jr_zero_refuted (0/0 at zero)."
  },
  {
   "property": "C110",
   "status": "partial",
   "theorems": [
    "Yac.Dense.C110_pinv_partial",
    "Yac.Dense.C110_inverse_partial",
    "Yac.Dense.C110_truncated",
    "Yac.Dense.C110_pinv_refuted",
    "Yac.Dense.C110_solve_partial",
    "Yac.Dense.C110_full_rank"
   ],
   "note": "C110_pinv_partial, C110_inverse_partial (no singular value in (0, tol]), C110_truncated (every matrix: pseudo-inverse of one within tol), C110_pinv_refuted (tol * I gives 0), C110_solve_partial, C110_full_rank. linsolve_dense_cholesky, _qr, _sparse_qr are single calls of Eigen and not modelled."
  },
  {
   "property": "C111",
   "status": "partial",
   "theorems": [
    "Yac.Rand.C111_pair",
    "Yac.Rand.C111_diverges",
    "Yac.Rand.C111_perturb_partial",
    "Yac.Rand.C111_perturb_refuted",
    "Yac.Rand.C111_rmse"
   ],
   "note": "C111_pair, C111_diverges, C111_perturb_partial, C111_perturb_refuted (0 < drot < 1e-8), C111_rmse. The distribution of the results is not claimed."
  },
  {
   "property": "C112",
   "status": "partial",
   "theorems": [
    "Yac.NumJac.C112_pose_sign_refuted",
    "Yac.NumJac.C112_check_partial",
    "Yac.NumJac.C112_check_empty_refuted",
    "Yac.NumJac.C112_check_limit",
    "Yac.NumJac.C112_delay",
    "Yac.NumJac.C112_delay_error",
    "Yac.NumJac.C112_delay_flat_refuted",
    "Yac.NumJac.C112_delay_step_refuted",
    "Yac.NumJac.C112_central",
    "Yac.NumJac.C112_converges",
    "Yac.NumJac.C112_pose_partial"
   ],
   "note": "Refuted: a pose whose stored quaternion is not the canonical one is changed by the (const) function (C112_pose_sign_refuted); check_jacs succeeds for an empty Jacobian (C112_check_empty_refuted); the time delay Jacobian is zero for steps below a nanosecond about zero and 5% off for the default step at a delay of half a nanosecond (C112_delay_flat_refuted, C112_delay_step_refuted). Steps below 1e-8 for poses are excluded (the code's rotation is then not a rotation, C41)."
  },
  {
   "property": "C113",
   "status": "partial",
   "theorems": [
    "Yac.VI.Hess.C113_hessian_partial",
    "Yac.VI.Hess.C113_fatal",
    "Yac.VI.Hess.C113_newest_refuted",
    "Yac.VI.Hess.C113_time_delay_refuted"
   ],
   "note": "Refuted: the newest view, which has no IMU factor, is left out (C113_newest_refuted); a free time delay has a type the function does not know, its information is added to the first column and the column counted for it stays zero (C113_time_delay_refuted). The theorem is for free parameters of the five known types."
  },
  {
   "property": "C114",
   "status": "proved",
   "theorems": [
    "Yac.VI.Recover.C114_info",
    "Yac.VI.Recover.C114_rank",
    "Yac.VI.Recover.C114_fixed"
   ],
   "note": "ceres::Covariance is a library: its contract is the hypothesis `Free`, met by the witness. Exact arithmetic."
  },
  {
   "property": "C115",
   "status": "partial",
   "theorems": [
    "Yac.Metrics.C115_all",
    "Yac.Metrics.C115_cameras",
    "Yac.Metrics.C115_report_partial",
    "Yac.Metrics.C115_empty_refuted",
    "Yac.Metrics.C115_mocap",
    "Yac.Metrics.C115_residuals",
    "Yac.Metrics.C115_vi_partial",
    "Yac.Metrics.C115_vi_nocorner_refuted",
    "Yac.Metrics.C115_vi_invalid_refuted",
    "Yac.Metrics.C115_vi_unwritten_refuted"
   ],
   "note": "Refuted: with no corner that projects the report takes the median of an empty list (C115_empty_refuted, C115_vi_nocorner_refuted for a visual-inertial camera without residuals); the visual-inertial report counts corners that do not project (C115_vi_invalid_refuted) and for an equidistant camera uses a pixel never written for a corner behind the camera (C115_vi_unwritten_refuted). Formatting with four decimals is not modelled."
  },
  {
   "property": "C116",
   "status": "partial",
   "theorems": [
    "Yac.Chol.C116_factor",
    "Yac.Chol.C116_success",
    "Yac.Chol.C116_mahalanobis",
    "Yac.Chol.C116_identity",
    "Yac.Chol.C116_singular",
    "Yac.Chol.C116_indefinite_refuted",
    "Yac.Chol.C116_residuals",
    "Yac.Chol.C116_imu"
   ],
   "note": "C116_indefinite_refuted: an indefinite covariance is silently accepted and the residual is then weighted with a matrix that does not factor its inverse, because the status of the factorisation is never checked. Eigen's LLT is library code and modelled as its unblocked algorithm in exact arithmetic."
  },
  {
   "property": "C117",
   "status": "partial",
   "theorems": [
    "Yac.Calib.C117_views_partial",
    "Yac.Calib.C117_problem",
    "Yac.Calib.C117_names",
    "Yac.Calib.C117_short_names_refuted",
    "Yac.Calib.C117_poses",
    "Yac.Calib.C117_no_poses",
    "Yac.Calib.C117_solve_refuted"
   ],
   "note": "C117_short_names_refuted: grids with a timestamp of fewer than 19 digits are ignored. C117_solve_refuted: load_data followed by solve adds every view a second time, and the residuals of the first copy stay in the problem unowned. C117_views_partial assumes that the timestamp in a file is the one in its name."
  },
  {
   "property": "C118",
   "status": "partial",
   "theorems": [
    "Yac.VI.C118_order",
    "Yac.VI.C118_frames",
    "Yac.VI.C118_uses",
    "Yac.VI.C118_views",
    "Yac.VI.C118_unsynchronised_refuted",
    "Yac.VI.C118_tsform",
    "Yac.VI.C118_tables",
    "Yac.VI.C118_short_row_refuted"
   ],
   "note": "C118_unsynchronised_refuted: if each camera lacks a grid at the time of the other, grids of different times are put into one view. C118_views is for enable_marginalization = false (with it, C58 describes the window). Poses and speed-biases are abstract values."
  },
  {
   "property": "C119",
   "status": "partial",
   "theorems": [
    "Yac.Image.C119_camera",
    "Yac.Image.C119_before_imu",
    "Yac.Image.C119_image",
    "Yac.Image.C119_same_time",
    "Yac.Image.C119_frame",
    "Yac.Image.C119_waits_refuted",
    "Yac.Image.C119_dead_camera",
    "Yac.Image.C119_reset_refuted",
    "Yac.Image.C119_partial_frame",
    "Yac.Image.C119_scale_refuted"
   ],
   "note": "C119_waits_refuted: the first image of a rig is \"ready\" alone (the number of cameras is not compared). C119_reset_refuted: reset keeps the image buffer, so after a reset new images are paired with old ones. C119_partial_frame: a frame in which one camera does not see the target is lost. C119_dead_camera: a camera that stops blocks all later frames."
  },
  {
   "property": "C120",
   "status": "partial",
   "theorems": [
    "Yac.Lm.C120_linear",
    "Yac.Lm.C120_converges",
    "Yac.Lm.C120_never_worse",
    "Yac.Lm.C120_progress",
    "Yac.Lm.C120_stationary",
    "Yac.Lm.C120_failing_residual_refuted"
   ],
   "note": "C120_failing_residual_refuted: _calculate_cost leaves out residuals that cannot be evaluated, so a step that makes a residual fail is accepted, the solver returns parameters where not all residuals can be evaluated and one more iteration throws. Loss functions are ignored by this solver (their scaling is commented out in calib_residuals.cpp). Real arithmetic; SPQR is specified, not implemented."
  },
  {
   "property": "C121",
   "status": "partial",
   "theorems": [
    "Yac.Ctor.C121_camera",
    "Yac.Ctor.C121_mocap",
    "Yac.Ctor.C121_vi",
    "Yac.Ctor.C121_ignored",
    "Yac.Ctor.C121_origin",
    "Yac.Ctor.C121_vi_origin",
    "Yac.Ctor.C121_huber",
    "Yac.Ctor.C121_every_camera_refuted",
    "Yac.Ctor.C121_identity_refuted",
    "Yac.Ctor.C121_lengths_refuted",
    "Yac.Ctor.C121_scalar_section",
    "Yac.Ctor.C121_mocap_distortion_refuted",
    "Yac.Ctor.C121_unknown"
   ],
   "note": "C121_camera, C121_vi, C121_mocap are equivalences for every document whose sections are maps. Refuted expectations: every camera section becomes a camera (only cam0..cam99 are looked at, C121_every_camera_refuted), camera 0 is at the origin (T_cam0_cam0 is honoured by calib_camera_t and ignored by calib_vi_t, C121_identity_refuted, C121_vi_origin), parameter vectors have four entries (C121_lengths_refuted), projection parameters come with distortion parameters (C121_mocap_distortion_refuted); a scalar section ends the program (C121_scalar_section); calib_mocap_t has no Huber loss (C121_huber). Not modelled: a missing file, the detector, the registration with the solver, ints out of range."
  },
  {
   "property": "C122",
   "status": "partial",
   "theorems": [
    "Yac.Euroc.C122_relative",
    "Yac.Euroc.C122_relative_refuted",
    "Yac.Euroc.C122_data_refuted",
    "Yac.Euroc.C122_data_partial",
    "Yac.Euroc.C122_data_behind_refuted",
    "Yac.Euroc.C122_second_camera_refuted",
    "Yac.Euroc.C122_calib_partial",
    "Yac.Euroc.C122_calib_refuted",
    "Yac.Euroc.C122_calib_timeline",
    "Yac.Euroc.C122_target",
    "Yac.Euroc.C122_imu",
    "Yac.Euroc.C122_missing",
    "Yac.Euroc.C122_blank",
    "Yac.Euroc.C122_truth",
    "Yac.Euroc.C122_camera_partial",
    "Yac.Euroc.C122_no_image",
    "Yac.Euroc.C122_name_refuted",
    "Yac.Euroc.C122_notarget",
    "Yac.Euroc.C122_empty_refuted",
    "Yac.Euroc.C122_past_refuted"
   ],
   "note": "Readers of IMU, camera, ground truth and target are proved as iff for well-formed files; camera names are limited to 49 characters (C122_name_refuted: a longer name overflows a local array). euroc_data_t is refuted in general: it reads the element behind the end of the set (C122_data_refuted), so what it gives is proved only under the assumption that this memory holds another number (C122_data_partial); its second camera is a copy of the first (C122_second_camera_refuted); nanoseconds are lost in the relative time (C122_relative_refuted; error bound C122_relative). euroc_calib_t evens out the numbers of images only if they differ by at most one (C122_calib_partial, C122_calib_refuted). The ground-truth quaternion is read in the order x, y, z, w (C122_truth), although the published files have w first. Not modelled: size of the first image, operator<<."
  },
  {
   "property": "C123",
   "status": "partial",
   "theorems": [
    "Yac.Gimbal.C123_slide",
    "Yac.Gimbal.C123_joint_error",
    "Yac.Gimbal.C123_vector",
    "Yac.Gimbal.C123_perturb_partial",
    "Yac.Gimbal.C123_initial",
    "Yac.Gimbal.C123_none",
    "Yac.Gimbal.C123_residual",
    "Yac.Gimbal.C123_zero",
    "Yac.Gimbal.C123_world",
    "Yac.Gimbal.C123_offset",
    "Yac.Gimbal.C123_median_refuted",
    "Yac.Gimbal.C123_report_partial",
    "Yac.Gimbal.C123_report_refuted"
   ],
   "note": "Residual, its zeros, both invariances, joint error and initial pose from agreeing views are proved. Refuted: the median of the Euler angles of views that agree up to noise can be far off where an angle wraps (C123_median_refuted); the report labels the end effector cam0 and camera 0 cam1, camera 1 is never compared (C123_report_refuted; what it does print: C123_report_partial). pose_perturb is proved to stay within its bounds for rotations of zero or at least 1e-8 rad (C123_perturb_partial). solvepnp and ceres are inputs. Real arithmetic is exact."
  },
  {
   "property": "C124",
   "status": "partial",
   "theorems": [
    "Yac.Gimbal.C124_config_partial",
    "Yac.Gimbal.C124_config",
    "Yac.Gimbal.C124_missing",
    "Yac.Gimbal.C124_key",
    "Yac.Gimbal.C124_results_refuted",
    "Yac.Gimbal.C124_count_refuted",
    "Yac.Gimbal.C124_name_refuted",
    "Yac.Gimbal.C124_split",
    "Yac.Gimbal.C124_joints",
    "Yac.Gimbal.C124_joints_refuted",
    "Yac.Gimbal.C124_models_refuted",
    "Yac.Gimbal.C124_vector_partial",
    "Yac.Gimbal.C124_no_value"
   ],
   "note": "Configuration and joint files are proved for well-formed input. Refuted: the camera models of the file are ignored, every camera is pinhole/radtan4 (C124_models_refuted; C124_config holds for those); too few numbers of a vector are silently zero and too many overrun the array (C124_count_refuted); a model name of 30 characters overruns its buffer (C124_name_refuted); rows with fewer than three angles read a null pointer (C124_joints_refuted); the results file the program writes cannot be read back (C124_results_refuted). Exponents, inf and nan are not modelled in numbers."
  },
  {
   "property": "C125",
   "status": "partial",
   "theorems": [
    "Yac.Gimbal.C125_split",
    "Yac.Gimbal.C125_empty_refuted",
    "Yac.Gimbal.C125_leak_refuted",
    "Yac.Gimbal.C125_cost",
    "Yac.Gimbal.C125_joint_count",
    "Yac.Gimbal.C125_weight_refuted",
    "Yac.Gimbal.C125_fixed",
    "Yac.Gimbal.C125_free",
    "Yac.Gimbal.C125_saved",
    "Yac.Gimbal.C125_lost_refuted",
    "Yac.Gimbal.C125_undistort"
   ],
   "note": "Proved: the split for every permutation - one timestamp is in neither part (C125_split); exact cost (C125_cost): each joint deviation counts once per corner (C125_joint_count, C125_weight_refuted); fixed and free parameters given ceres' contract (C125_fixed, C125_free); when results are written (C125_saved). Refuted: an empty list of timestamps runs past the end (C125_empty_refuted), duplicated timestamps leak into the test data (C125_leak_refuted), one missing image loses the results depending on the shuffle (C125_lost_refuted). ceres::Solve, drawing and image reading are not modelled."
  },
  {
   "property": "C126",
   "status": "proved",
   "theorems": [
    "Yac.Fmt.C126_exact",
    "Yac.Fmt.C126_six",
    "Yac.Fmt.C126_e",
    "Yac.Fmt.C126_f",
    "Yac.Fmt.C126_six_refuted",
    "Yac.Fmt.C126_f_refuted",
    "Yac.Fmt.C126_vector",
    "Yac.Fmt.C126_vector_six",
    "Yac.Fmt.C126_array",
    "Yac.Fmt.C126_matrix"
   ],
   "note": "Infinities, NaN, signed zero and subnormal numbers are not modelled. C126_six_refuted, C126_f_refuted: the default precision and %f lose digits (a small value becomes zero)."
  },
  {
   "property": "C127",
   "status": "proved",
   "theorems": [
    "Yac.Save.C127_relative",
    "Yac.Save.C127_saves",
    "Yac.Save.C127_lost_refuted",
    "Yac.Save.C127_reload",
    "Yac.Save.C127_table",
    "Yac.Save.C127_views",
    "Yac.Save.C127_gap_refuted",
    "Yac.Save.C127_early_refuted"
   ],
   "note": "The step from the printed text to the YAML document (block maps, comments) is part of the model; flow sequences are split from the printed characters. C127_lost_refuted: verbose, estimate_time_delay, img_scale and the estimated time delay are not restored. C127_gap_refuted, C127_early_refuted: with a gap in the camera indices, or before the target has a pose, the file stays unfinished."
  },
  {
   "property": "C128",
   "status": "proved",
   "theorems": [
    "Yac.Save.C128_reload",
    "Yac.Save.C128_chain",
    "Yac.Save.C128_noimu",
    "Yac.Save.C128_saves",
    "Yac.Save.C128_lost_refuted",
    "Yac.Save.C128_relative",
    "Yac.Save.C128_fixed"
   ],
   "note": "The step from the printed text to the YAML document (block maps, comments) is part of the model; flow sequences are split from the printed characters. C128_lost_refuted: the solver and whether intrinsics are fixed are not restored."
  },
  {
   "property": "C129",
   "status": "proved",
   "theorems": [
    "Yac.Save.C129_reload",
    "Yac.Save.C129_lost_refuted",
    "Yac.Save.C129_fixed"
   ],
   "note": "C129_lost_refuted: two calibrators that differ in the estimated poses or in the fixed flags are loaded as the same calibrator."
  },
  {
   "property": "C130",
   "status": "partial",
   "theorems": [
    "Yac.Csv.C130_vectors",
    "Yac.Csv.C130_data",
    "Yac.Csv.C130_lengths",
    "Yac.Csv.C130_fixed",
    "Yac.Csv.C130_unopened_refuted",
    "Yac.Csv.C130_sim_partial",
    "Yac.Csv.C130_empty_frame_refuted",
    "Yac.Csv.C130_trajectory",
    "Yac.Csv.C130_sim_saved",
    "Yac.Csv.C130_times",
    "Yac.Csv.C130_times_refuted"
   ],
   "note": "C130_empty_frame_refuted: a camera frame without observations does not end its line, so two rows are merged. C130_unopened_refuted: some functions write to a file that could not be opened. C130_times_refuted: times of epoch recordings go through a double and are off by up to 256 ns. Lists of different lengths are read out of bounds (C130_lengths)."
  },
  {
   "property": "C131",
   "status": "partial",
   "theorems": [
    "Yac.Disk.C131_list_files",
    "Yac.Disk.C131_list_files_refuted",
    "Yac.Disk.C131_remove_partial",
    "Yac.Disk.C131_remove_refuted",
    "Yac.Disk.C131_mkdir_partial",
    "Yac.Disk.C131_create_dir_refuted",
    "Yac.Disk.C131_blank_refuted",
    "Yac.Disk.C131_save_partial",
    "Yac.Disk.C131_save_plain_refuted",
    "Yac.Disk.C131_no_process",
    "Yac.Disk.C131_remove_missing",
    "Yac.Disk.C131_names",
    "Yac.Disk.C131_copy",
    "Yac.Disk.C131_copy_same",
    "Yac.Disk.C131_copy_self_refuted",
    "Yac.Disk.C131_copy_missing_refuted",
    "Yac.Disk.C131_file_exists",
    "Yac.Disk.C131_file_exists_refuted",
    "Yac.Disk.C131_dir_exists",
    "Yac.Disk.C131_dir_exists_refuted",
    "Yac.Disk.C131_list"
   ],
   "note": "Refuted: a source or destination that cannot be opened is undefined behaviour instead of -1/-2; copying a file onto itself empties it; a full disk is not reported; directories count as files; dir_exists ends the program when asked about a file; remove_dir reports success and leaves the directory if a subdirectory is not empty; create_dir reports success when it failed; a blank in the path makes two directories; saving a detection under a plain file name makes a directory of that name and fails. Symbolic links and characters special to the shell are not modelled."
  },
  {
   "property": "C132",
   "status": "partial",
   "theorems": [
    "Yac.Data.C132_each",
    "Yac.Data.C132_order_partial",
    "Yac.Data.C132_order_refuted",
    "Yac.Data.C132_again",
    "Yac.Data.C132_stale_refuted",
    "Yac.Data.C132_other_refuted",
    "Yac.Data.C132_load",
    "Yac.Data.C132_no_directory",
    "Yac.Data.Witness.C132_remnant_refuted"
   ],
   "note": "Refuted in part, and proved otherwise: the grids come in the order of the characters of the file names, which is the order of time only if the times have equally many digits; a file in the directory whose name is not a number makes everything fail with an exception; saved grids of another target or of other images are returned silently; grids of earlier recordings in the grid directory are loaded with the others."
  },
  {
   "property": "C133",
   "status": "partial",
   "theorems": [
    "Yac.Nbt.C133_eval_partial",
    "Yac.Nbt.C133_setup",
    "Yac.Nbt.C133_setup_missing",
    "Yac.Nbt.C133_replay",
    "Yac.Nbt.C133_views_partial",
    "Yac.Nbt.C133_result",
    "Yac.Nbt.C133_delay_refuted",
    "Yac.Nbt.C133_rates",
    "Yac.Nbt.C133_rates_ok",
    "Yac.Nbt.C133_rates_refuted",
    "Yac.Nbt.C133_localise_refuted",
    "Yac.Nbt.C133_mixed_refuted"
   ],
   "note": "Full claim fails of the code, proved as _refuted theorems (rates above 2/3 of the IMU rate, unlocalised frames, alternating misses, fixed delay freed); the _partial theorems assume the target in sight of all cameras at every frame."
  },
  {
   "property": "C134",
   "status": "partial",
   "theorems": [
    "Yac.Tool.C134_frames",
    "Yac.Tool.C134_camera",
    "Yac.Tool.C134_unseen_refuted",
    "Yac.Tool.C134_file",
    "Yac.Tool.C134_modes",
    "Yac.Tool.C134_mode_refuted",
    "Yac.Tool.C134_vi",
    "Yac.Tool.C134_values"
   ],
   "note": "Two parts fail of the code, proved as _refuted theorems (times without detection are reported; unknown modes are not refused)."
  },
  {
   "property": "C135",
   "status": "partial",
   "theorems": [
    "Yac.Gimbal2.C135_cost",
    "Yac.Gimbal2.C135_shuffle",
    "Yac.Gimbal2.C135_fixed",
    "Yac.Gimbal2.C135_free",
    "Yac.Gimbal2.C135_offset_refuted",
    "Yac.Gimbal2.C135_slide_refuted",
    "Yac.Gimbal2.C135_saved",
    "Yac.Gimbal2.C135_lost_refuted",
    "Yac.Gimbal2.C135_residual",
    "Yac.Gimbal2.C135_initial",
    "Yac.Gimbal2.C135_none_refuted",
    "Yac.Gimbal2.C135_config",
    "Yac.Gimbal2.C135_results_refuted",
    "Yac.Gimbal2.C135_no_file",
    "Yac.Gimbal2.C135_origin"
   ],
   "note": "Determined solution, readable results and written results fail of the code, proved as _refuted theorems."
  },
  {
   "property": "C136",
   "status": "partial",
   "theorems": [
    "Yac.Report.C136_mocap_poses",
    "Yac.Report.C136_errors_partial",
    "Yac.Report.C136_errors_untracked",
    "Yac.Report.C136_errors_refuted",
    "Yac.Report.C136_cameras_partial",
    "Yac.Report.C136_cameras_refuted",
    "Yac.Report.C136_poses",
    "Yac.Report.C136_camera_poses",
    "Yac.Report.C136_distinct",
    "Yac.Report.C136_convergence",
    "Yac.Report.C136_extrinsics",
    "Yac.Report.C136_mocap_poses_refuted",
    "Yac.C136_behind"
   ],
   "note": "Announced sizes and separators of the camera, error and motion capture tables fail of the code, proved as _refuted theorems."
  },
  {
   "property": "C137",
   "status": "partial",
   "theorems": [
    "Yac.Par.C137_scores",
    "Yac.Par.C137_schedule",
    "Yac.Par.C137_race_partial",
    "Yac.Par.C137_race_refuted",
    "Yac.C137_unscored"
   ],
   "note": "With two busy threads the table of scores is changed without a lock: C137_race_refuted. The result is proved for steps that are atomic."
  },
  {
   "property": "C138",
   "status": "partial",
   "theorems": [
    "Yac.Net.C138_port",
    "Yac.Net.C138_peer_partial",
    "Yac.Net.C138_peer_refuted",
    "Yac.Net.C138_config",
    "Yac.Net.C138_client",
    "Yac.Net.C138_client_idle",
    "Yac.Net.C138_server",
    "Yac.Net.C138_serves_partial",
    "Yac.Net.C138_serves_refuted",
    "Yac.Net.C138_race_refuted"
   ],
   "note": "Handlers cannot tell which connection is theirs (C138_serves_refuted), read the list without a lock (C138_race_refuted); C138_peer_refuted."
  },
  {
   "property": "C139",
   "status": "partial",
   "theorems": [
    "Yac.Bar.C139_percent",
    "Yac.Bar.C139_line_partial",
    "Yac.Bar.C139_line_refuted",
    "Yac.Bar.C139_single_refuted",
    "Yac.Bar.C139_reset",
    "Yac.C139_opened"
   ],
   "note": "The line is proved for 101 or more cycles; C139_line_refuted (three cycles) and C139_single_refuted (one cycle, undefined)."
  },
  {
   "property": "C140",
   "status": "partial",
   "theorems": [
    "Yac.C140_nothing",
    "Yac.Tool.Euroc.C140_cameras",
    "Yac.Tool.Euroc.C140_stale_refuted",
    "Yac.Tool.Euroc.C140_order",
    "Yac.Tool.Euroc.C140_load",
    "Yac.Tool.Euroc.C140_blind_refuted"
   ],
   "note": "Refuted: C140_stale_refuted (an unwritable results file goes unnoticed; the old one is used), C140_blind_refuted (a camera that never saw the target means no views at all). The rest is proved."
  },
  {
   "property": "C141",
   "status": "partial",
   "theorems": [
    "Yac.GridFile.C141_roundtrip",
    "Yac.GridFile.C141_torn_refuted",
    "Yac.GridFile.C141_second",
    "Yac.GridFile.C141_formats_refuted",
    "Yac.C141_empty",
    "Yac.C141_null",
    "Yac.C141_words"
   ],
   "note": "Refuted: C141_torn_refuted (a torn file gives a grid with a truncated timestamp), C141_formats_refuted (the two formats cannot be read as each other; the saved one makes loadv2 fatal). Round trip and reading of the second format are proved."
  },
  {
   "property": "C142",
   "status": "partial",
   "theorems": [
    "Yac.Pnp.C142_unique",
    "Yac.Pnp.C142_general",
    "Yac.Pnp.C142_radtan",
    "Yac.Pnp.C142_equi_partial",
    "Yac.Pnp.C142_nothing",
    "Yac.Pnp.C142_few_refuted",
    "Yac.Pnp.C142_phantom_refuted",
    "Yac.Pnp.C142_unsolved_refuted",
    "Yac.Pnp.C142_axis_refuted",
    "Yac.C142_unequal"
   ],
   "note": "exactness proved for cameras without distortion (or wherever undistortion is exact, C142_general); failures that should be reported are not (refuted)"
  },
  {
   "property": "C143",
   "status": "partial",
   "theorems": [
    "Yac.Loss.C143_weight",
    "Yac.Loss.C143_documentation_refuted",
    "Yac.Loss.C143_bounded",
    "Yac.Loss.C143_perfect_refuted",
    "Yac.Loss.C143_same_cost",
    "Yac.Loss.C143_ignored_refuted",
    "Yac.Loss.C143_solve",
    "Yac.Loss.C143_unsupported",
    "Yac.Loss.C143_zero_refuted",
    "Yac.Loss.C143_sticky_refuted",
    "Yac.Loss.C143_algorithm_refuted",
    "Yac.C143_cost_value",
    "Yac.C143_negative"
   ],
   "note": "selection, weights and flow of solve proved; the own solver ignores the loss function, settings stick after the first solve, |param|<1 throws, documented meaning of p false (refuted)"
  },
  {
   "property": "C144",
   "status": "partial",
   "theorems": [
    "Yac.Calib.C144_data",
    "Yac.Calib.C144_view_refuted",
    "Yac.Calib.C144_last_added",
    "Yac.Calib.C144_last_removed",
    "Yac.Calib.C144_last",
    "Yac.Calib.C144_camera",
    "Yac.C144_unknown"
   ],
   "note": "The grids of views added with add_view are not returned by get_camera_data (C144_view_refuted); get_last_view without views reads outside the vector (second half of C144_last)."
  },
  {
   "property": "C145",
   "status": "partial",
   "theorems": [
    "Yac.Marg.C145_window",
    "Yac.Marg.C145_together"
   ],
   "note": "Proved when the eigenvalues stay clear of the fixed thresholds (C45_small_refuted shows why) and pose-like parameters keep the value of the first marginalisation; the increment of a pose that was moved between marginalisations is not additive."
  },
  {
   "property": "C146",
   "status": "partial",
   "theorems": [
    "Yac.Shape.C146_params",
    "Yac.Shape.C146_built",
    "Yac.Shape.C146_safe",
    "Yac.Shape.C146_camera_refuted",
    "Yac.Shape.C146_fiducial_refuted",
    "Yac.Shape.C146_prior_refuted",
    "Yac.Shape.C146_prior",
    "Yac.Shape.C146_set_param",
    "Yac.C146_names"
   ],
   "note": "Holds for eight camera parameters. Refuted for every other number, which add_camera accepts (C146_camera_refuted, C146_fiducial_refuted), and for prior_t and pose_prior_t (C146_prior_refuted, C146_prior)."
  },
  {
   "property": "C147",
   "status": "partial",
   "theorems": [
    "Yac.Shape.C147_once",
    "Yac.Shape.C147_again_refuted",
    "Yac.Shape.C147_eval_refuted",
    "Yac.Shape.C147_add_remain_refuted",
    "Yac.Shape.C147_index"
   ],
   "note": "Holds for the first linearisation of an object. Each further one adds the sizes again and the evaluation then leaves its buffers (C147_again_refuted, C147_eval_refuted, C147_add_remain_refuted)."
  },
  {
   "property": "C148",
   "status": "partial",
   "theorems": [
    "Yac.Print.C148_vector",
    "Yac.Print.C148_matrix",
    "Yac.Print.C148_timestamp",
    "Yac.Print.C148_array",
    "Yac.Print.C148_all_true",
    "Yac.Print.C148_progress",
    "Yac.Print.C148_progress_refuted"
   ],
   "note": "Proved for non-empty vectors and fractions between 0 and 1; the bar is wider, and full for negative fractions (C148_progress_refuted); an empty array is read out of bounds (C148_array)."
  },
  {
   "property": "C149",
   "status": "partial",
   "theorems": [
    "Yac.Draw.C149_tracks",
    "Yac.Draw.C149_tracks_refuted",
    "Yac.Draw.C149_matches",
    "Yac.Draw.C149_pairs",
    "Yac.Draw.C149_matches_refuted",
    "Yac.Draw.C149_grid",
    "Yac.C149_labels_short"
   ],
   "note": "Holds when every flag or index has its points; otherwise the lists are read out of bounds (C149_tracks_refuted, C149_matches_refuted)."
  },
  {
   "property": "C150",
   "status": "partial",
   "theorems": [
    "Yac.Tool.Prog.C150_inspect_mode",
    "Yac.Tool.Prog.C150_save",
    "Yac.Tool.Prog.C150_usage",
    "Yac.Tool.Prog.C150_results",
    "Yac.Tool.Prog.C150_other_files",
    "Yac.Tool.Prog.C150_fails",
    "Yac.Tool.Prog.C150_status_partial",
    "Yac.Tool.Prog.C150_status_refuted",
    "Yac.Tool.Prog.C150_earlier_refuted",
    "Yac.Tool.Prog.C150_inspect_usage",
    "Yac.Tool.Prog.C150_inspect_camera",
    "Yac.Tool.Prog.C150_inspect_vi",
    "Yac.Tool.Prog.C150_third_camera_refuted",
    "Yac.Tool.Prog.C150_dataset",
    "Yac.Tool.Prog.C150_target_refuted"
   ],
   "note": "Refuted: the exit status is 0 although the results could not be written (save_results' return value is dropped); a calibration with no camera 0 leaves a broken file in the place of earlier results (the file is emptied before anything is computed); calib_inspect measures the boards with the default target whatever the configuration says, and can inspect no configuration with a camera other than 0 and 1."
  },
  {
   "property": "C151",
   "status": "partial",
   "theorems": [
    "Yac.Timeline.Own.C151_safe",
    "Yac.Timeline.Own.C151_no_leak",
    "Yac.Timeline.Own.C151_copy_refuted"
   ],
   "note": "Proved for programs that do not copy timelines; C151_copy_refuted: timeline_t has a destructor but the implicit copy constructor, so that after a copy and the destruction of one of the two, reading the events of the other is a use after free and its destruction a double free."
  },
  {
   "property": "C152",
   "status": "partial",
   "theorems": [
    "Yac.CamMem.C152_safe",
    "Yac.CamMem.C152_complete",
    "Yac.CamMem.C152_no_leak",
    "Yac.CamMem.C152_camera_refuted",
    "Yac.CamMem.C152_leak_refuted"
   ],
   "note": "Proved for histories that add no camera twice (C152_safe) and, for the owners, no view for a time that has one (C152_no_leak). Refuted otherwise: add_camera for an index in use frees parameters the problem still points to (C152_camera_refuted); add_view for a time in use leaks the view and its residuals (C152_leak_refuted)."
  },
  {
   "property": "C153",
   "status": "partial",
   "theorems": [
    "Yac.SolverObj.C153_safe_partial",
    "Yac.SolverObj.C153_members_refuted",
    "Yac.SolverObj.C153_members_solve_refuted",
    "Yac.SolverObj.C153_members_use_refuted",
    "Yac.SolverObj.C153_new",
    "Yac.SolverObj.C153_separate",
    "Yac.SolverObj.C153_same",
    "Yac.SolverObj.C153_damping_refuted"
   ],
   "note": "Proved: same problem and reactions, same results of solve when the damping is the default or the algorithm is Gauss-Newton (C153_same), independence (C153_separate), memory safety and no leak of every program that copies from pointers only (C153_safe_partial). Refuted: copying by value, which the class allows, double-frees the cached factorisation (C153_members_refuted, C153_members_solve_refuted); the copy constructor drops lambda (C153_damping_refuted)."
  },
  {
   "property": "C154",
   "status": "partial",
   "theorems": [
    "Yac.Rig.C154_alive_partial",
    "Yac.Rig.C154_again_refuted",
    "Yac.Rig.C154_camera",
    "Yac.Rig.C154_imu",
    "Yac.Rig.C154_unknown"
   ],
   "note": "Proved: getters and constants for every history (C154_camera, C154_imu, C154_unknown). The problem points only at allocated parameters exactly if no camera and no IMU is added twice (C154_alive_partial); a second add_imu leaves dangling pointers (C154_again_refuted). Before the first view: afterwards views own the parameters too."
  }
 ]
}