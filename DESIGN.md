# Formal model of chutsu/yac in Lean 4

## Approach

The C++ library in `yac/lib` is modelled function by function as total Lean
definitions under `lean/Verif/<Area>/Model.lean`; every definition cites the
file and lines it models and names its simplifications. Small independent
specifications live in `Spec.lean` files (or at the top of `Props.lean`),
helper lemmas in `Lemmas.lean`, and the property theorems, each with a concrete
witness, in `Props.lean`.

* **Discrete code** (grids, timelines, containers, solver bookkeeping,
  calibrator state machines, stream synchronisation, parsers) is modelled with
  `List`/`Nat`/`Int`/structures. Out-of-range access, uninitialised reads,
  `FATAL` and C++ exceptions are explicit outcomes, never defaulted away.
* **Numeric code** (geometry, cameras, residuals, losses, statistics) is
  modelled over exact real numbers (or an arbitrary commutative ring / field
  when only ring operations are used). Floating-point rounding is not modelled
  unless said so; NaN is modelled where control flow depends on it (solver).
* **External code** (Ceres, SuiteSparse, OpenCV, AprilTags, Eigen
  decompositions, random numbers, wall clock, file system) is modelled by
  oracles: arbitrary functions or arbitrary inputs, so the theorems hold for
  whatever they return, or by their documented contract where stated.

Where the code does not have a property, the negation is proved with a concrete
witness (theorem name ending `_refuted`), and what does hold is proved as a
`_partial` theorem.

## Trusted base

Lean 4.33.0's kernel, Mathlib's definitions, and the axioms `propext`,
`Classical.choice` and `Quot.sound` (no others; no compiled evaluation is
trusted). The correspondence between the C++ text and the Lean definitions is
by reading; it is not machine checked.

## Property plan

| id | property | model and proof plan |
|---|---|---|
| C01 | AprilGrid behaves as a map from (tag, corner) to keypoint | Grid as list of rows (flag,keypoint,object point) indexed by tag*4+corner; ops as total functions returning an explicit error for fatal calls. Refinement of every op history to a function (tag,corner)->Option keypoint, by induction over the history. |
| C02 | AprilGrid detection counter equals the number of stored corners | Same model; counter maintained as in the code. Refuted by a concrete re-add history; proved for histories that do not re-add (partial). |
| C03 | get_measurements lists every stored corner once, in tag-then-corner order | get_measurements as the row scan; proved equal to the ordered filtered enumeration of (tag,corner). |
| C04 | Tag corner indexing is in range and injective | grid_index as in the code, with explicit failure; bijection theorem; refutation at tag_id = rows*cols. |
| C05 | Object point geometry | Over a linear ordered field (reals): formula, injectivity, extents, centre, agreement with fiducial_corners_t. |
| C06 | AprilGrid save then load restores the grid | File as header line plus typed rows with decimal rounding; load as the line parser; round trip theorem. |
| C07 | Pairwise grid intersection keeps exactly the common corners | intersect model on two grids; pointwise characterisation; stale detected flag refuted. |
| C08 | Multi-grid intersection keeps exactly the corners common to all | row-count algorithm on a list of grids; pointwise characterisation. |
| C09 | common_measurements pairs up the shared corners | model of the lookup loop, equal to filterMap specification. |
| C10 | Random sampling returns distinct stored measurements | random stream as an arbitrary function Nat->Nat; loop with fuel; any returned result is a duplicate-free sublist of measurements. |
| C11 | Timeline is an ordered multimap of events | sorted-set + multimap model; refinement to list of (ts,event) in insertion order. |
| C12 | Set helpers compute set difference and symmetric difference | merge-style algorithms as in the standard library specification; sortedness and membership. |
| C13 | intersection returns the elements common to every input list | counting model; membership for duplicate-free lists; refutation with duplicates. |
| C14 | ordered_set_t keeps first-insertion order without duplicates | vector+set model; invariant; equals dedup of the history. |
| C15 | Vector helpers: pop_front, slice, extend | list model with explicit undefined behaviour for out-of-range indices. |
| C16 | Little-endian byte decoding | BitVec 8 bytes; decode equals the little-endian value; inverse of encode. |
| C17 | CSV matrix round trip | character-level files: getline, comma counting, printing of rounded decimals as typed cells; shape theorem for cols>=2; refutation for one column. |
| C18 | Saved IMU data can be loaded back | typed rows; refutation of the round trip, and what is actually returned. |
| C19 | Saved poses can be loaded back | typed rows; round trip. |
| C20 | Path helpers | strings as List Char. |
| C21 | Configuration lookup by dotted key | configuration as an inductive tree; lookup by descent. |
| C22 | Configuration vectors and matrices are size checked | size-check predicates as coded; refutation of wrong-size acceptance. |
| C23 | IMU buffer trimming keeps the interval still needed | three parallel lists; trim loop as coded; characterisation with dropWhile for sorted timestamps. |
| C24 | IMU buffer extraction returns the measurements of an interval | extract as coded, uninitialised reads as explicit outcome. |
| C25 | Pose interpolation passes through its end points | translation and (abstract spherical) rotation interpolation; refutation of end-point property for rotation, proof for translation. |
| C26 | Stream synchronisation | state machines as coded over Int timestamps with explicit out-of-bounds outcome. |
| C27 | Timestamp decomposition round trip | sec = any real function result; truncation arithmetic on integers; holds for all roundings. |
| C28 | linspace end points and spacing | over a field of characteristic zero. |
| C29 | Descriptive statistics | over the reals. |
| C30 | Angle wrapping | fmod modelled as truncated remainder over the reals. |
| C31 | Matrix/array/vector conversions are lossless | Mathlib Matrix / lists, index arithmetic. |
| C32 | Rigid transform algebra | Mathlib Matrix over reals, SO(3) as orthogonal with det 1. |
| C33 | Quaternion matrices agree with the quaternion product | polynomial identities over a commutative ring. |
| C34 | Euler and axis rotations are proper rotations and consistent | Real.sin / Real.cos. |
| C35 | Skew operator | matrix identities over a commutative ring. |
| C36 | Pose difference of equal poses is zero and detects rotation | model with layout; refutation. |
| C37 | Projection Jacobians are the derivatives of projection | HasFDerivAt/HasDerivAt statements over the reals. |
| C38 | project reports validity and frame membership | decision model over the reals, z=0 division explicit. |
| C39 | Back-projection inverts projection | over the reals. |
| C40 | Robust loss functions report consistent derivatives | HasDerivAt statements; refutation for the second derivative of Blake-Zisserman. |
| C41 | Pose update and its inverse | quaternion product over the reals, sinc/cos. |
| C42 | The manifold Jacobian is the derivative of the pose update | HasDerivAt of each tangent direction. |
| C43 | Residual Jacobians are exact derivatives | HasDerivAt of the residual along each perturbation direction, camera model abstract with given derivative. |
| C44 | IMU propagation is consistent with kinematics | loop model over the sample list; induction over samples. |
| C45 | Marginalisation preserves the optimum of the remaining parameters | block matrices over the reals. |
| C46 | Solver problem bookkeeping is consistent | finite sets/maps as lists; operation histories; refutation for the base solver (shared parameter) and invariant for the ceres variant. |
| C47 | Levenberg-Marquardt never worsens the cost | state machine with an oracle for steps and costs with NaN; induction over iterations. |
| C48 | Gauss-Newton never returns a worse point than the start | same with Gauss-Newton acceptance. |
| C49 | Normal equations are assembled correctly | block assembly as functions; equality with J^T J by sums over residuals. |
| C50 | Camera chain answers extrinsics queries | adjacency model; BFS as coded with `.at` throwing on missing keys; refutation; theorem for direct pairs; corrected BFS is not part of the code. |
| C51 | Outlier filtering removes exactly the outlying corners | list model; refutation for negative residuals; exact characterisation of what is removed. |
| C52 | A rejected next-best-view leaves the calibration unchanged | calibrator state machine with oracle solver. |
| C53 | Views, poses and solver stay consistent | same state machine, invariant over histories. |
| C54 | Next-best-view selection returns the best candidate | fold over candidates; refutation when all scores are nonnegative. |
| C55 | Multi-camera measurements are processed only when synchronised | buffer model over arrival histories. |
| C56 | Simulated target view contains exactly the visible corners | abstract camera projection; uses the AprilGrid model. |
| C57 | Initialisation of the visual-inertial calibrator | matrix model of rigid transforms. |
| C58 | Visual-inertial sliding window is bounded | state machine over the measurement stream. |
| C59 | Only well-formed tag detections enter a grid | filter pipeline on raw detections. |
| C60 | Numerical Jacobian checking | matrix comparison loop. |
| C61 | Circle and line geometry helpers | plane geometry over the reals. |
| C62 | Local geodetic offset round trip | refutation by witness. |
| C63 | binomial coefficients | recursion with fuel; equality with Nat.choose; non-termination for k>n. |
| C64 | AprilGrid comparison | equality model as coded (squared matrix norm below 1e-12). |
| C65 | Tolerance comparison | fltcmp as coded over an ordered field; exact characterisation, antisymmetry, and refutation of transitivity. |
| C66 | Random helpers respect their bounds | generator output as an arbitrary natural below RAND_MAX; exact rationals. |
| C67 | Rotation between two directions | half-angle construction over the reals; quaternion sandwich identities. |
| C68 | enforce_psd | Mathlib matrices over an ordered field. |
| C69 | Look-at camera poses | Real 4x4 matrices; the inverse computed by exhibiting it; singular case refuted. |
| C70 | Matrix comparison | Dynamic matrices over an ordered field. |
| C71 | Searching for the next best view does not disturb the calibration | calibrator state machine with an arbitrary numerical environment; evaluating a candidate is add then remove, shown to restore the problem by induction over candidates |
| C72 | A new view starts from the camera that saw most | fold invariant of the search for the best grid |
| C73 | Detections are filed under their camera and timestamp | induction over the grids against lookup in the two-level map |
| C74 | Reset returns the visual-inertial calibrator to a working empty state | State machine of VI/Model.lean; RunR is the set of histories in which reset is not called while a marginalisation prior exists. Proved for those (C74_reset_partial); with a prior present the stale pointer to the removed residual makes every later marginalisation fail (C74_reset_refuted). |
| C75 | A visual-inertial view holds exactly the measurements of its grids | VI/Model.lean; induction over the history (C75_view), case analysis of the buffering calls (C75_grid, C75_imu). |
| C76 | The fiducial parameter keeps yaw and position | VI/InitModel.lean models fiducial_t (two parameters); induction over update histories with the pitch strictly within 90 degrees; refutations for larger pitch and for gimbal lock. |
| C77 | Simulated calibration trajectories are smooth, closed, self-consistent and keep the target in front | Verif/Nbt/Traj.lean models the class formula by formula over the reals; the derivative theorems use HasDerivAt, the constructor is related to a table of shapes (specification), facing by a sign argument on the half angles. |
| C78 | Simulated IMU and camera data describe the trajectory they were taken on | Verif/Nbt/Sim.lean models the loops with fuel (a loop that does not stop is the fault diverge), the simulated sensor with an arbitrary stream of random vectors, and the maps of grids. Loop = fold over the sample times, then induction; kinematics from C77; grids from C56; timeline from C11. |
| C79 | The next best trajectory is the one that adds most information | Verif/Nbt/Sim.lean models nbt_find with the results of nbt_eval as input; fold invariant, comparison of logarithms reduced to comparison of determinants. |
| C80 | Outlier removal keeps the calibration problem consistent and only removes corners | Model of _remove_outliers over abstract numerical parts (LoopModel.lean); invariant Tidy proved for every operation (LoopInv, LoopOps), per-view relation Visit (LoopVisit), chained by induction (LoopRan). False when the information measure cannot be computed (estimates are not restored), when the pose of the filtered grids cannot be estimated (abort), and for views other than the one with the largest timestamp: refuted. |
| C81 | Next-best-view calibration tries each frame once, in order, and stops as configured | Model of the loop with the stale counter (LoopModel.lean); relation Steps proved by induction over the list (NbvLoopLemmas.lean); map of motion keys characterised by induction (calculateMotion_spec). |
| C82 | Batch calibration uses every detected frame; incremental calibration keeps the window | Fold over the sorted timestamps with the invariant that the views are the last window - 1 detected frames (BatchProps.lean). |
| C83 | The C reader of CSV files delivers the table in the file | Character-level model with the 1024-byte line buffer, the 100-byte entry buffer and uninitialised memory as outcomes (Text/CModel.lean); the character loop is shown to deliver the cells (lineLoop_line), then induction over rows. |
| C84 | Array files of the C interface are read back element by element | Same character-level model (Text/CModel.lean) with the size of the allocation tracked; induction over cells and rows (Text/ArrayProps.lean). |
| C85 | The byte readers return little-endian integers | Bytes as UInt8, shifts and or on naturals; proved equal to the positional value (C85_unsigned) and to the representative in the signed range (C85_signed). |
| C86 | Marginal covariance of the solver | Model Solver/CovModel.lean: tracking, column order, Hessian assembly, pseudo inverse, Schur complement, inverse check and inversion. Specification CovSpec.lean without layout: derivatives by parameter, the information matrix applied to a vector indexed by parameters, a column of its inverse. Proof: the layout is a bijection, sums over columns are sums over parameters, the generalised Schur complement solves exactly the kept part; C86_succeeds_partial for when a matrix is returned. Refuted: a small positive eigenvalue halves the variance without an error, unobservable nuisance parameters are rejected, requesting everything aborts, an unused requested parameter spoils all, a free time delay shares a column with a pose. |
| C87 | The reported visual-inertial cost is that of the optimisation problem | VI/QueryModel.lean models the collection of residuals and the sum; by the invariant of VI/Lemmas.lean, extended to histories with solve(), the counted residuals are those of the problem without the newest view; refuted in full |
| C88 | Outlier rejection removes the outliers and nothing else | VI/QueryModel.lean models filter_view camera by camera with the removal from the Ceres problem; closed form by induction, invariants preserved; the one-sided test of the components is stated as it is and the claim about lengths refuted |
| C89 | solve() of the visual-inertial calibrator keeps fixed parameters fixed | VI/QueryModel.lean models solve() as the list of solver runs with constant blocks and residuals; proved for all parameters but the time delay, refuted for it |
| C90 | Queries of the visual-inertial calibrator | VI/QueryModel.lean; ranks transported through the conversion to seconds; uniqueness from the time order of the views (C58) |
| C91 | Next-best-view mocap calibration keeps a consistent problem | Model of calib_mocap_t over an arbitrary ordered field with numerical parts as arbitrary functions; invariant WF by induction over histories (Ran); solve_nbv characterised by the relations Tried/Trials. |
| C92 | A rejected view leaves the mocap calibration as it was | From the relation Tried (proved to describe every step): equality of the state components; refutations by evaluation of concrete runs in the kernel. |
| C93 | Mocap calibration with all views, outlier removal and fixed parameters | Same model; Reduced/Fixed invariants by induction; C93_twice_refuted by kernel evaluation. |
| C94 | Body poses are interpolated at the times of the target observations | Model of the loop with its index and early exit over arbitrary lists; induction on the samples with the grids still to be reached; the interpolation function is a parameter, instantiated with lerp_pose. |
| C95 | Preprocessing detects every image once, whatever the schedule, and can be resumed | Small-step model of the parallel loop (one program counter per image; load, detect, write lines, append under the lock), arbitrary schedules; inductive invariant Inv; runs that end are permutations of the sequential result; crash = prefix of a schedule. |
| C96 | The score of a candidate view is the uncertainty the calibration would be left with | Model of the evaluator over arbitrary parameter sets: column assignment, accumulation of JtJ, columns given to unknown parameters, Schur complement with the pseudo inverse of the code, singular values; the accumulated matrix is JtJ of the stacked Jacobian, unused columns do not change the projection onto the pose columns (proj_unique), the determinant of the Schur complement is that of the inverse covariance, and the product of the singular values its absolute value. |
| C97 | The focal length of a fisheye image of the board is found exactly | Model of focal_init on top of the models of circle fit (C61), circle intersection and median (C29): lines of corners per axis, circles of all pairs of neighbouring lines, the median; each guess is f, a median of equal numbers is that number. |
| C98 | The intrinsics a camera starts from | Model of the calls on top of the calibrator (C66) and focal_init (C97): the two orders of calls are computed and compared; the fisheye theorem composes with C97. |
| C99 | The initialisation solves every camera alone, then all of them | Model with the pose estimator and the solver as arbitrary functions of the problem they are handed; loop invariants over the cameras and frames; a run with one camera only is compared with the run of all. |
| C100 | The validation error is the root mean square reprojection error | Model of both loops with pose estimation and projection as arbitrary functions; the map of poses is shown to hold the first estimate of each time; equivalence of the returned number with the specification over lists. |
| C101 | Information and entropy are those of the joint covariance of the free parameters | Model with ceres::Covariance as a parameter; an invariant of the loop over pairs says which blocks are final; the determinant is that of the matrix indexed by (parameter, component), by an explicit bijection to rows. |
| C102 | A simulated data set is the exact record of a motion on a circle | Model over the reals with the random numbers as a stream; loop induction gives a closed form of every frame and sample; derivatives of the closed form are compared with the recorded measurements. |
| C103 | Sparse matrices are what the dense ones were | Arrays as lists with bounds-checked writes; loop invariants relate the arrays to the list of the entries of the columns. |
| C104 | The sparse least squares solver solves the problem, whatever it marginalises | Block elimination over the reals with QR and SVD as oracles under contracts (which are shown to be satisfiable by the spectral theorem); normal equations from the projection identities. |
| C105 | Feature grids spread the keypoints over the image | Cell arithmetic over the integers with the detectors as oracles; partition lemmas by induction over the cell rows and columns. |
| C106 | Matrices survive the conversion between Eigen and OpenCV | Functions of row and column; out of bounds reads as faults. |
| C107 | A continuous trajectory passes through its poses and its velocities are its derivatives | Reals with the spline fit as an oracle under a contract (satisfied by Lagrange interpolation); the angular velocity by differentiating the quaternion of a rotation vector. |
| C108 | The initial attitude levels the mean acceleration and has no yaw | Model the summation loop with out-of-range outcome and the composition vecs2rot, quat_t(mat3), quat2euler, euler321 over the reals; prove by the third-row characterisation of Euler angles. |
| C109 | Exp maps a rotation vector to its rotation, and Jr is the right Jacobian of Exp | Model both over the reals with the threshold branch; Rodrigues formula against the unit-quaternion rotation, derivative of the exponential; refute below 1e-3 rad (not a rotation) and Jr at zero (0/0). |
| C110 | Pseudo-inverse, SVD solve and rank tests give the linear algebra they name | SVD and its rank as oracles with a contract shown satisfiable (svd_exists, rank_exists); Penrose equations, uniqueness, normal equations; truncation to a matrix within tol. |
| C111 | Random normals come in polar pairs; a perturbed pose stays within the bounds | The stream of rand() as a function of the position, the loop with fuel (diverge outcome); induction on rejected pairs; composition of axis rotations; refuted for drot below 1e-8 where rvec2rot is not a rotation. |
| C112 | Numerical Jacobians | Verif/NumJac: loops of get_numerical_jacobian and check_jacs over an arbitrary evaluation and perturbation function; instantiated with param_t and pose_t perturbation and with the IMU residual as a function of the time delay. Proved by induction over the components; limits through derivatives. |
| C113 | Information matrix of a visual-inertial calibration | Verif/VI/Hess: collection of the residuals, evaluation, column assignment and accumulation of the blocks; reuses the solver's block lemmas. Permutation invariance by List.Perm. |
| C114 | Recovered covariance of the IMU extrinsics | Verif/VI/Recover: ceres::Covariance as a parameter with the specification `Free` (block of the inverse of JᵀJ, fails exactly if rank deficient); Schur complement and least squares over any finite index types. |
| C115 | Reported reprojection errors and metrics | Verif/Metrics: get_residual of the three residual types over the camera models of Verif/Cam, the error queries as folds over maps, the report as the statistics of Verif/Num with the median's out-of-bounds read explicit. Induction over views and cameras; permutation argument for the partition. |
| C116 | Weighting of residuals | Model the unblocked Cholesky factorisation of the information matrix over the reals (Chol/Model.lean), prove by induction over the columns that it factors every positive definite matrix, and connect it with the residual models. |
| C117 | Loading the data of a camera calibration | Model the directory as a list of named files per camera and camera_poses.csv as its text (Calib/LoadModel.lean); prove the loops by induction over files and timestamps on top of the well-formedness invariant of the calibrator (C53). |
| C118 | Loading the data of a visual-inertial calibration | Model load_data as a fold over the timeline of C11 with the calls of C58 (VI/LoadModel.lean); prove by induction over prefixes of the timestamps that it refines a loop over IMU samples; tsform with an abstract rounding that is exact on 53-bit mantissas. |
| C119 | Image intake: detections come from the latest image of every camera | Model the image buffer and the calls as a state machine (Image/Model.lean); invariant: the buffer holds the last accepted image of each camera (Image/Spec.lean lastOf); detection through C59, rescaling with exact rationals. |
| C120 | Levenberg-Marquardt makes progress, keeps stationary points and converges for linear problems | Lm/Model.lean composes the evaluation, cost, normal equations (Solver/Model.lean), damping, the conversion to cholmod triplets and SPQR (Sparse/*) into _solve_lm over the reals; Lm/Linear.lean: the damped matrix is definite so the QR is exact; Lm/Smooth.lean: first-order expansion of the cost; Lm/Props.lean: progress by growing damping; Lm/Linconv.lean: contraction. |
| C121 | A calibrator is built exactly as its configuration file says | Model the three constructors over the document model of C21/C22 with the document threaded through; prove an 'if and only if' with an independent specification of what the file says (tables of names and defaults, presence, conversion) for every document; refute the natural expectations the code does not meet. |
| C122 | EuRoC datasets are read as they are on disk | Euroc/Model.lean: the constructors over a disk (texts, documents, existing files) with the fscanf formats, the buffer of 50 characters, the set iteration past its end and double rounding of the relative time. Spec.lean writes the files independently (decimal numbers, lines, CSV with LF or CRLF). Proof: scanf inverts the written text by induction over fields and lines; sensor.yaml as iff over keys; the timeline by C11; the time loop by induction; the relative time by the rounding error bound. |
| C123 | Gimbal kinematics: residuals, initial target pose and report | Gimbal/Model.lean: transforms as 4x4 matrices, chain, residuals, median of the views, report. Spec.lean states the kinematics by quaternion rotation of points and composition, without matrices. Proof: matrices act on homogeneous points as the specification; rigid transforms are invertible; medians of a constant list (C29) and Euler angles of a rotation (C34). |
| C124 | Gimbal text files are read as written | Gimbal/TextModel.lean: fgets, strtok, strip, atoi, strtol and the vector parser over C strings with buffer sizes. TextSpec.lean writes the files. Proof: each reader inverts its writer by induction over characters, cells, cameras and rows; the map by last row. |
| C125 | Gimbal optimisation problem: data split, cost, fixed parameters, saved results | Gimbal/ProblemModel.lean: the count with double rounding, the list of residual blocks with their parameter blocks, cost as a sum, lookups of the inspection. Proof: rounding error bound and monotonicity at integers; permutation arguments; induction over grids and timestamps. |
| C126 | Results are printed with enough digits | Model of decimal printing (%.Pg, %e, %f) and of correctly rounded reading over the rationals. Proof: the printed decimal is within half a unit of the last digit; 10^16 > 2^53 puts it closer to the double than half (below a power of two: a quarter) of the last bit, so that rounding returns it; the texts are split at commas. |
| C127 | Saved visual-inertial results can be loaded again | Model of the document that save_results prints (keys and printed numbers, C126) composed with the model of the constructor (C121) and of the tables of load_data (C118). Proof: lookups in the document; the characterisation C121_vi; algebra of the relative poses; bounds on the rounding in the decomposition of timestamps. |
| C128 | Saved camera results can be loaded again, and start a visual-inertial calibration | Model of the document that save_results prints (keys and printed numbers, C126) composed with the models of both constructors (C121). Proof: lookups in the document; the characterisations C121_camera and C121_vi; algebra of relative poses. |
| C129 | Saved motion capture results can be loaded again | As C128, with C121_mocap. |
| C130 | Exported data files hold the data that was given | Model of the text written, character by character (number formats of C126); the specification splits the file into lines and fields. Proof by induction over the lists. |
| C131 | File operations do what they say to the whole disk | Model of the disk as a tree with permissions and free space, path resolution by components, the loops of the functions, and `mkdir -p` for command lines without special characters. Proof by induction over the buffer reads, the entries and the components. |
| C132 | Preprocessing images for the motion capture calibration | Model: the loop over the sorted listing (list_dir of the disk model C131), stoull, the cache of csv files, the detector as an arbitrary function (Data/MocapPreModel). Proof: induction over the loop with the invariant that files of images not yet seen are as at the start; the reread grids by C95's lemmas. |
| C133 | Evaluating a candidate trajectory | Nbt/EvalModel.lean composes the models of the simulators (C78), the timeline (C11), the calibrator (C45) and the recovery of information (C114); the numerical solve and ceres::Covariance are an arbitrary function of the calibrator and of the constant blocks. Weaving lemma: the fold over the timeline equals a fold over samples and frames merged by time; induction over the merge with the invariant Calm; closed form of the used frames. Refuted: camera rates above two thirds of the IMU rate end the program (fewer than five samples at the second view), a frame that cannot be localised ends the program instead of giving -1, cameras that miss the target alternately mix grids of different times in one view, a fixed time delay is freed. |
| C134 | The information report | Tool/InfoModel.lean composes the models of the camera calibrator (C53), the visual-inertial calibrator (C45), the timeline (C11) and the covariance recovery (C114); the information estimate of camera mode and ceres::Covariance are arbitrary functions of the calibrator. Tool/InfoLemmas.lean: a fold that notes values in two maps says, about a key, what the last step with this key noted. Uniqueness of the stable order by time identifies the prefix of the replay before a sample. Refuted: a time at which nothing was detected is reported with the values of the time before, so view_idx does not count views; a mode that does not exist is not refused and replaces the file by an empty report. |
| C135 | The gimbal program for two fixed and two moving cameras | Gimbal2/Model.lean; functions identical with calib_gimbal.cpp are shared with the model of C123-C125. The residual is reduced to that of C123 with the body at the origin (inverse of a product of rigid transforms). Cost by induction over corners and timestamps, invariance under permutations. Refuted: turning the mount about the first joint axis and all angles back, or sliding the first joint along its axis, changes no cost and is open to the solver, because the measured angles are starting values only; without a view of twenty corners an empty vector is read; the results file cannot be read again; a missing grid of camera 1, which is not used, loses the results. |
| C136 | Convergence, pose and error tables of the reports | Report/Model.lean: history as association lists filled by every call, tables as announced size and text. Rows are split at commas (Fmt) and each entry is compared with its meaning (Csv cells). Induction over the history and the rows. Refuted: the camera tables announce one column too many; the error table has no comma between the rows of two cameras or views, and has rows of corners that are not projected and not counted; it throws when the time of a view was never tracked (every batch calibration); the motion capture table announces frames in which the target was not located. |
| C137 | The parallel search for the next best view does not depend on the threads | Par/Model.lean: threads with the candidates that are left and the score in hand; a step computes or stores. Invariant over schedules: every candidate is still to do or has its score in the table. Absence of races proved when at most one thread has candidates; refuted otherwise, for every division in which two threads have candidates: nbv_scores is shared without a lock and operator[] inserts. |
| C138 | TCP server and client | Net/Model.lean: system calls as parameters; the server as loop and handlers with any schedule, a handler being any function of the connections that it sees. Invariant over schedules. Refuted: for every such function there is a schedule in which two handlers serve the same connection; the list is changed while handlers read it; ip_port_info of a socket without peer reads an array that was not written. |
| C139 | Progress bar | Bar/Model.lean with a terminal line (cells and cursor). Induction over the updates; the 201 steps from one percentage to the same or the next are evaluated by the kernel for all percentages. Refuted: fewer than 101 cycles (percentages are skipped, the erased text is too short and cells are left out); one cycle converts 0/0 to int. |
| C140 | The EuRoC program | Tool/EurocModel: the file between the two halves (reusing the writer of C128 and the reader of C121) and the timeline of the second. Proof: the reader is characterised by loop_iff and is unique on its document, so it returns exactly the cameras kept by the writer; the timeline fold is flattened to a stable sort by timestamp; with a blind camera the grid buffer never holds one grid per camera, so no view is ever made. |
| C141 | The files of AprilGrids, character by character | GridFile/Model: the exact characters that save prints (%ld, %d, %f, %.10f) and fscanf, fgets, strtok, atoi, atol, atof as the loaders use them. Proof: what a printed number is read as (parseReal_fmtFix, parseInt_fmtLd), line by line through the loops, which reduces the text to the field-level model of C06 and C95; digits of a number cut at the end are the number divided by a power of ten. |
| C142 | The pose of the target from one image | Pnp/Model.lean models both functions with OpenCV solvePnP as a parameter assumed only to solve problems that have one solution. Pnp/Props.lean proves that four corners of a tag have one solution (so the assumption applies), that the points handed over are the corners on the image in order, and hence exactness for both camera models without distortion (equidistant: off the axis); and refutes the rest: fewer than four corners on the image throw, a corner added twice and removed leaves an empty grid on which the call throws, OpenCV failing is reported as success with an unwritten pose, and an equidistant corner on the principal point hands over not-a-number. |
| C143 | Loss functions: which is used, what it weighs, who uses it | Loss/Model.lean models the constructors (boost quantile as a parameter), the cost each solver minimises and solve() as a whole on top of the models of its parts. Loss/Props.lean proves the weight at the quantile, the bound by the plain cost, what a successful solve did (C143_solve), and refutes: the documented meaning of p, non-negative cost of a perfect fit, the loss counting in the own solver, parameters below one, changed settings and the algorithm left behind by a next best view run. |
| C144 | The camera calibrator gives back what it was given | Calib/GetModel.lean models the getters over the state of the calibrator of CameraModel.lean; the data part is an invariant over the list of grids handed over, the view part uses the well-formedness of reachable states. |
| C145 | A sliding window forgets nothing | Marg/ChainModel.lean evaluates a marginalisation residual as a residual block of the next form_hessian; induction over the window with the invariant that the reduced quadratic form is the partial minimum of the total cost (Marg/ChainProps.lean), on top of the one-step theorem of C45. |
| C146 | Residual sizes | Model: sizes only (Verif/Shape/Model). Proved for eight camera parameters (C146_built, C146_safe). Refuted for any other number (the optimiser aborts, or evaluation leaves the buffers) and for the two priors (null pointer when the optimiser asks for Jacobians; a prior on a pose writes 49 numbers into 36 places). |
| C147 | Marginalisation object history | Model: the sizes in the object as a state machine (Verif/Shape/Model MargObj). Proved for the first linearisation (C147_once, C147_index). Refuted for repeated ones by induction on their number (C147_again_refuted, C147_eval_refuted) and for a parameter added by hand. |
| C148 | Console output | Model: the text written (Verif/Print/Model). A separate reader (readRow, readRows) is proved to recover the numbers by induction. The bar outside 0..1 and the empty array are refuted. |
| C149 | Drawing helpers | Model: the list of marks drawn (Verif/Draw/Model); rasterisation is OpenCV. Proved by induction over the lists; the grid by C03. Refuted for flags or indices beyond the lists. |
| C150 | The command-line programs | The programs over a file system, with the constructors, load_data and solve as parameters and the saved document of C127-C128; calib_inspect over the models of C95, C100 and of VI solve.  Case analysis; the data set of an inspection by C95_cameras. |
| C151 | Every event of a timeline is freed exactly once | Verif/Timeline/OwnModel.lean adds a heap to the timeline model; invariant: the pointers of the existing timelines are distinct, alive, disjoint and cover the heap. The last sentence is refuted: the implicit copy shares the pointers. |
| C152 | The camera calibrator and its solver never use freed memory | Verif/CamMem/{Model,Props}.lean: the heap, who owns what and what the problem points to; invariant over all histories. The property is refuted for a camera that is added twice (use after free) and a view that is added twice (leak); it is proved without these. |
| C153 | A copied solver is a separate solver for the same problem | Verif/SolverObj/{Model,Props}.lean: solver objects over the bookkeeping model of Verif/Solver/Book.lean plus the heap of factorisations; ownership invariant over all programs. Refuted for the copy constructor the compiler provides (the factorisation is freed twice) and for the damping, which is not copied. |
| C154 | The visual-inertial calibrator gives back the cameras and the IMU it was given | Verif/Rig/{Model,Props}.lean: parameters as objects with owners, the problem as the list of raw pointers and the constants; invariants over all histories. The last sentence is refuted: adding a camera or the IMU a second time frees parameters the problem points to; proved to be the only way. |

## Which code is modelled

Generated from the citations in the Lean files. The last column lists the functions of a file of which less than 40 % of the lines are cited by a model, i.e. that are not modelled (drawing, printing, plotting and thin wrappers around external libraries are most of them).

| Source file | Lean modules | Functions not modelled |
|---|---|---|
| yac/demo/calib_camera.cpp | Tool/ProgModel | — |
| yac/demo/calib_euroc.cpp | Tool/EurocModel | `calibrate_cameras` |
| yac/demo/calib_gimbal.cpp | Gimbal/Model, Gimbal/ProblemModel, Gimbal/TextModel, Gimbal/TextSpec, Gimbal2/Model | — |
| yac/demo/calib_gimbal2.cpp | Gimbal2/Model, Gimbal2/Spec | `ROTZ`, `quat2rot`, `transform_copy`, `transform`, `transform_vector`, `pose_perturb`, `pose_copy`, `gimbal_joint_transform`, `string_copy`, `string_strip`, `string_strip_char`, `string_split`, `parse_skip_line`, `parse_vector_line`, `parse_key_value`, `inspect_calib` |
| yac/demo/calib_info.cpp | Tool/InfoModel | `print_usage` |
| yac/demo/calib_inspect.cpp | Tool/ProgModel | `print_usage` |
| yac/demo/calib_mocap.cpp | Tool/ProgModel | — |
| yac/demo/calib_vi.cpp | Tool/ProgModel | — |
| yac/lib/calib_camera.cpp | Calib/CamchainModel, Calib/CameraModel, Calib/GetModel, Calib/LoadModel, Calib/LoopModel, Calib/ViewModel, CamMem/Model, Ctor/Model, Image/Model, Info/CeresModel, Info/NbvModel, Loss/Model, Metrics/Model, Par/Model, Report/Model, Save/CamModel, Setup/InitModel, Setup/InspectModel, Setup/RigModel, Tool/ProgModel | `camchain_t::clear`, `calib_camera_t::~calib_camera_t`, `calib_camera_t::_print_stats` |
| yac/lib/calib_camera.hpp | Calib/LoopModel, Calib/ViewModel, CamMem/Model, Ctor/Model, Image/Model, Info/NbvModel, Loss/Model, Report/Model, Save/CamModel | — |
| yac/lib/calib_data.cpp | Ctor/Model, Data/LerpModel, Data/PreModel, Text/Model | `calib_target_t::print` |
| yac/lib/calib_data.hpp | Ctor/Model, Nbv/Model, Save/CamModel, Tool/ProgModel | — |
| yac/lib/calib_loss.cpp | Cam/Model, Loss/Model | `HuberLoss::~HuberLoss`, `CauchyLoss::~CauchyLoss` |
| yac/lib/calib_loss.hpp | Loss/Model | — |
| yac/lib/calib_mocap.cpp | Ctor/Model, Data/MocapPreModel, Info/CeresModel, Metrics/Model, Mocap/Model, Report/Model, Save/CamModel, Tool/ProgModel | `calib_mocap_t::get_mocap_camera_extrinsics`, `calib_mocap_t::_add_camera`, `calib_mocap_t::_add_fiducial_pose`, `calib_mocap_t::_add_mocap_camera_extrinsics`, `calib_mocap_t::_print_stats`, `calib_mocap_t::print_metrics`, `calib_mocap_t::show_results` |
| yac/lib/calib_mocap.hpp | Ctor/Model, Mocap/Model, Save/CamModel | — |
| yac/lib/calib_nbt.cpp | Csv/Model, Nbt/EvalModel | — |
| yac/lib/calib_nbt.hpp | Nbt/Traj | — |
| yac/lib/calib_nbv.cpp | Nbv/Model | — |
| yac/lib/calib_params.cpp | AprilGrid/Model, Calib/ViewModel, Metrics/Model, Setup/FocalModel, Setup/RigModel, Shape/Model, VI/InitModel | `fiducial_t::fiducial_t`, `extrinsics_t::perturb` |
| yac/lib/calib_params.hpp | Info/CeresModel, Shape/Model | — |
| yac/lib/calib_residuals.cpp | Calib/CameraModel, Calib/ViewModel, CamMem/Model, Chol/Model, Imu/Model, Lm/Model, Loss/Model, Marg/ChainModel, Marg/Model, Metrics/Model, Mocap/Model, NumJac/Model, Report/Model, Residual/Model, Shape/Model, VI/Model, VI/QueryModel | `calib_residual_t::calib_residual_t`, `imu_residual_t::Evaluate`, `marg_residual_t::marg_residual_t`, `marg_residual_t::set_residual_size`, `marg_residual_t::get_params`, `marg_residual_t::get_param_ptrs` |
| yac/lib/calib_residuals.hpp | CamMem/Model, Shape/Model | — |
| yac/lib/calib_sim.cpp | Csv/Model, Sim/Model | `vio_sim_data_t::_add`, `calib_sim_data_t::_add` |
| yac/lib/calib_sim.hpp | Csv/Model, Sim/Model | — |
| yac/lib/calib_vi.cpp | Calib/CameraModel, Ctor/Model, Image/Model, Marg/ChainModel, Metrics/Model, Nbt/EvalModel, Rig/Model, Save/ViModel, Timeline/OwnModel, Tool/ProgModel, VI/InitModel, VI/LoadModel, VI/Model, VI/QueryModel | `calib_vi_view_t::get_camera_indices`, `calib_vi_view_t::get_reproj_errors`, `calib_vi_t::get_camera_indices`, `calib_vi_t::print_time_delay`, `calib_vi_t::show_results` |
| yac/lib/calib_vi.hpp | Ctor/Model, Save/ViModel, VI/Model | — |
| yac/lib/solver.cpp | Calib/CameraModel, CamMem/Model, Dense/Model, Info/CeresModel, Lm/Model, Loss/Model, Mocap/Model, Shape/Model, Solver/CovModel, Solver/Model, SolverObj/Model | `linsolve_dense_cholesky`, `linsolve_dense_qr`, `linsolve_sparse_qr`, `solver_t::_eval_residual`, `solver_t::_eval_residuals` |
| yac/lib/solver.hpp | SolverObj/Model | — |
| yac/lib/suitesparse.cpp | SolverObj/Model, Sparse/Model | `solve_qr` |
| yac/lib/suitesparse.hpp | SolverObj/Model | `deleteCholdmodPtr` |
| yac/lib/util/aprilgrid.cpp | AprilGrid/Model, Calib/LoadModel, Data/MocapPreModel, Data/PreModel, Disk/Model, Draw/Model, GridFile/Model, Pnp/Model | `aprilgrid_t::imshow`, `apriltag_cmp`, `std::ostream &operator<<(std::` |
| yac/lib/util/aprilgrid.hpp | AprilGrid/Model | — |
| yac/lib/util/ceres_utils.cpp | Imu/Model | `evaluate_residual_block`, `PoseLocalParameterization::MinusJacobian` |
| yac/lib/util/config.cpp | Config/Model | `config_t::config_t`, `yaml_load_file`, `yaml_has_key` |
| yac/lib/util/config.hpp | Config/Model | `yaml_check_vector` |
| yac/lib/util/core.cpp | AprilGrid/Model, Att/LieModel, Att/Model, Ctraj/Model, Dense/Model, Fmt/Model, Gimbal/TextSpec, Gimbal2/Spec, Imu/Model, Marg/Model, Misc/Model, Num/Model, NumJac/Model, Print/Model, Rand/Model, Sim/Model, Stream/InterpModel, Stream/SyncModel, VI/LoadModel | `print_shape`, `print_array`, `print_vector`, `print_quaternion`, `cond`, `zeros`, `I`, `ones`, `mvn`, `toc`, `time_now` |
| yac/lib/util/core.hpp | Csv/Model, Ctor/Model, Ctraj/Model, Misc/Model, Nbv/Model, Num/Model, Stream/ImuModel, Stream/InterpModel, Stream/SyncModel, VI/InitModel | `vec2str`, `lookat`, `mvn`, `tf` |
| yac/lib/util/cv.cpp | Cam/Model, Cv/Model, Draw/Model, Pnp/Model | `radtan_undistort_image`, `equi_undistort_image`, `illum_invar_transform` |
| yac/lib/util/cv.hpp | Nbv/Model | — |
| yac/lib/util/data.cpp | Csv/Model, Misc/Model, Num/Model, Print/Model, Text/CModel, Text/Model | — |
| yac/lib/util/data.hpp | Containers/Model | `pop_front`, `extend`, `slice`, `lookup` |
| yac/lib/util/euroc.hpp | Euroc/Model | — |
| yac/lib/util/fs.cpp | Calib/LoadModel, Disk/Model, Fs/Model, GridFile/Model, Text/Model | `file_open` |
| yac/lib/util/net.cpp | Net/Model | — |
| yac/lib/util/progressbar.hpp | Bar/Model | — |
| yac/lib/util/timeline.cpp | Timeline/Model, Timeline/OwnModel | — |
| yac/lib/util/timeline.hpp | Timeline/Model, Timeline/OwnModel | — |

Files of which nothing is modelled: yac/lib/calib_nbv.hpp, yac/lib/util/ceres_utils.hpp, yac/lib/util/fs.hpp, yac/lib/util/net.hpp, yac/lib/util/util.hpp, yac/lib/yac.hpp.

## Statements that are false of the code

Each is proved as a theorem; the text is the comment of the theorem.

* `C02_counter_refuted`: C02, full statement, is false: adding a corner twice counts it twice; the corner is then removed and the empty grid still says one corner is detected.
* `C04_tag_boundary_refuted`: C04 fails at the boundary: tag id `rows*cols` (one past the last) passes the range check of `add`, which then writes outside the data matrix.
* `C04_corner_alias_refuted`: C04 fails for the corner index of `has`, `keypoint` and `remove`: corner `c + 4` of tag `t` is not rejected but is corner `c` of tag `t + 1`.
* `C06_empty_refuted`: C06 is false for a grid without corners: the file has no data line, so a fresh grid loaded from it has dimensions 0 x 0 and timestamp 0 whatever was saved.
* `C07_detected_refuted`: C07: the `detected` flag of a grid emptied by `intersect` stays set.
* `C10_sample_div_zero_refuted`: C10: `sample` on such a grid divides by zero: the counter says one corner is there but the list of tags to draw from is empty.
* `C12_set_diff_unsorted_refuted`: C12: the sortedness premise is needed: on unsorted vectors (the template accepts them) the merge loop of `set_diff` returns elements of `b`'s complement wrongly.
* `C13_intersection_refuted`: C13, full statement, is false: a value repeated inside one vector is counted as if it were in several.
* `C15_popFront_order_refuted`: C15: consequently `pop_front` does *not* keep the order of the remaining elements.
* `C17_column_refuted`: C17 is false for every matrix with one column: it comes back without columns.
* `C17_empty_refuted`: C17 is false for matrices without rows: the number of columns is lost.
* `C18_roundtrip_refuted`: C18 is false for every non-empty sequence of samples: the first sample is lost, and in the others acceleration and angular velocity are exchanged.
* `C20_ext_dir_refuted`: The extension is searched in the whole path: a dot in a directory name is taken for it.
* `C20_strip_refuted`: C20 is false for strings of target characters only: `strip` returns them unchanged.
* `C20_join_trailing_refuted`: C20 is false for a first path that ends in a slash: `..` does not remove a directory, and a slash is doubled.
* `C20_join_middle_refuted`: C20 is false for a second path with a `..` that does not come first: a component of the second path is dropped in its place.
* `C20_join_empty_refuted`: C20 is false when everything is removed from a relative path: the result is the root directory, or the behaviour is undefined.
* `C21_scalar_refuted`: C21 refuted: a path through a scalar holds no node, but the lookup throws, even for an optional key and in `yaml_has_key`.
* `C21_seq_refuted`: C21 refuted for paths through a sequence: asking for the missing optional key `cam.res.x` changes the configuration, and the vector `cam.res` that was readable before is not afterwards.
* `C21_append_refuted`: C21 refuted for `std::vector`: two reads of the same key into the same variable give its elements twice.
* `C22_vector_refuted`: C22 refuted for vectors: for every size a longer vector is accepted.
* `C22_scalar_refuted`: C22 refuted: a plain value is taken for an empty vector.
* `C22_shape_refuted`: C22 refuted for the shape of fixed matrices: `rows` and `cols` are not compared, here a 1 by 4 matrix is read as a 2 by 2 one.
* `C22_matx_refuted`: C22 refuted for matrices of any size: surplus elements are ignored.
* `C23_trim_refuted`: **C23 refuted.** Trimming at a time after the last measurement empties the buffer, although the last measurement precedes `t` and should be kept.
* `C24_extract_refuted`: **C24 refuted.** For an interval inside the buffer, if either end point is not exactly the timestamp of a measurement, `extract` reads an uninitialised vector: the interpolated end points are never computed.
* `C25_rotation_refuted`: **C25 refuted.** The rotation is interpolated backwards: at 0 the result has the rotation of the *second* pose and at 1 that of the *first*, so whenever the two rotations differ neither end point is reached.
* `C26_interp_refuted`: **C26 refuted (`interp_poses`).** Two requests between the same two samples: only one pose is returned, although both requests lie inside the data range.
* `C26_closest_refuted`: **C26 refuted (`closest_poses`).** Whenever the call returns, at least one target was not served: serving the last target makes the code read past the end of the targets.
* `C26_closest_wrong_refuted`: **C26 refuted (`closest_poses`).** Later targets may be served with a sample that is not the closest: a sample exactly at the second target is passed over for a later one.
* `C26_lerp_oob_refuted`: **C26 refuted (`lerp_data` reads past the end).** If two samples follow all requests (and the requests are not before the second sample in vain), the interpolation points are read past their end.
* `C26_lerp_stale_refuted`: **C26 refuted (`lerp_data` interpolates over stale samples).** The value at 15 between the samples (10, 0) and (20, 10) should be 5; the code interpolates from the sample at 0.
* `C26_lerp_last_refuted`: **C26 refuted (`lerp_data` drops a request).** A request equal to the last sample is not served.
* `C27_nsec_range_refuted`: With `double` arithmetic the nanosecond part can be negative and the seconds part one too large: the parts are not quotient and remainder for current epoch timestamps.
* `C29_mean_vec_refuted`: With IEEE single precision the mean of three equal vectors is not that vector.
* `C30_range_refuted`: C30 fails for sufficiently negative angles.
* `C31_array2vec_refuted`: C31 fails for `array2vec`: the output vector of the caller is not changed.
* `C31_store_nonempty_refuted`: C31 fails for `load_matrix(A, x)` into a non-empty list: the values are appended, and loading them back gives other numbers.
* `C33_inv_nonunit_refuted`: C33, the inverse of other quaternions: `quat_inv` does not invert.
* `C33_nonunit_refuted`: C33: without the unit-norm condition `quat2rot` scales by the squared norm and Eigen's conversion is no rotation.
* `C34_euler321_refuted`: C34 refuted as stated: `euler321` is not `rotz(yaw) * roty(pitch) * rotx(roll)`.
* `C34_rvec2rot_refuted`: C34 refuted for short rotation vectors: below `eps` the result is `I + skew(v)`, whose determinant is `1 + |v|²`, so it is a proper rotation only for `v = 0`.
* `C36_angle_refuted`: C36 refuted as stated: for a half turn the rotation component is 2, not π.
* `C37_equi_axis_refuted`: C37 refuted on the optical axis: the equidistant camera projects the point (0,0,z) but both Jacobians are quotients zero by zero there.
* `C38_border_refuted`: C38 refuted at the border: the radtan camera rejects an image point on the right border, the equidistant and the plain pinhole camera accept it. With a 640 x 480 image, `u = 640` is not a pixel of the image.
* `C39_equi_axis_refuted`: C39 refuted on the axis: the principal point of an equidistant camera has no back-projection (the code divides zero by zero), although the points of the optical axis project to it.
* `C40_blake_refuted`: C40 refuted: the second derivative of the Blake-Zisserman loss is negative for every `s`, the code reports a positive number.
* `C41_perturb_small_refuted`: C41 refuted for very small rotation steps: perturbing the identity pose about z by 0 < |h| < 1e-8 gives a quaternion that is not unit.
* `C42_plus_zero_refuted`: C42 refuted as stated: for the unit pose with quaternion scalar part -1, `Plus(x, 0)` is not `x`.
* `C43_outside_refuted`: C43 refuted for points in front of the camera that fall outside the image: the residual is still reported and changes with the principal point, but the reported derivative is zero.
* `C43_unwritten_refuted`: C43 refuted for the equidistant camera: behind the camera the residual uses a pixel that was never written.
* `C43_fiducial_invalid_refuted`: C43: for an invalid projection the fiducial residual hands Ceres the unmasked Jacobian of the camera parameters while the minimal one is zero, so the two disagree unless the former is zero.
* `C44_start_refuted`: Where the interval starts between two samples, `propagation` does not interpolate the first measurement: with the specific force rising linearly from 0 to 2 in two seconds, the velocity gained in the second second is 1 instead of 3/2, which `redoPreintegration` gets right; so the residual of the predicted state is not zero.
* `C44_inside_refuted`: If the interval lies between two samples the measurement at its end is wrong, too: with the specific force rising from 0 to 4 in four seconds, the velocity gained between seconds 1 and 3 is 8/3 instead of 4.
* `C44_empty_interval_refuted`: An interval of no length makes the residual read past the last sample.
* `C44_late_interval_refuted`: So does an interval that ends after the last sample (for instance because of the time delay).
* `C44_covariance_refuted`: C44 refuted for the covariance of the position: with accelerometer noise alone and a body at rest, over one second, one step gives the variance 1/2 and two steps give 1/4 (that of the continuous process is 1/3).
* `C44_attitude_jacobian_refuted`: The block of the Jacobian of `propagation` for the attitude and the gyroscope bias is not the derivative: it leaves out the right Jacobian (`redoPreintegration` has it).
* `C44_partition_refuted`: C44 refuted for rotating bodies: over the same second, with the same constant measurements, one step from end to end gives a different velocity than two.
* `C44_transition_refuted`: C44 refuted for the position row of the transition: over a second at rest, from the start, a greater accelerometer bias gives a smaller position (by half of it), but the covariance of the two that is delivered is positive.
* `C45_other_refuted`: C45 is false when a kept free parameter is of a type unknown to the marginalisation (a free time delay): the new residual does not depend on it although the cost does.
* `C45_util_check_refuted`: C45, `schurs_complement` of util/core.cpp: the check of the inverse can pass although the matrix has no inverse, because entries of opposite sign cancel.
* `C45_sign_refuted`: C45: the increment depends on the sign of the quaternion, although both signs are the same pose.
* `C45_pose_jacobian_refuted`: C45 is false for the Jacobian at other values than those stored in the parameter (the trial points of the solver): whatever is stored, it is wrong at one of three unit poses.
* `C45_small_refuted`: C45 is false for a positive definite system whose marginalised block is below the threshold: the coupled system below has a unique solution, and the Schur complement has another one.
* `C46_base_shared_refuted`: C46 fails for `yac_solver_t`: with a residual over two parameters, removing both parameters one after the other is legal but the second call aborts.
* `C46_ceres_clear_refuted`: `clear` is not virtual: on a `ceres_solver_t` it empties the base bookkeeping but the `ceres::Problem` keeps its residuals, so `num_residuals` is unchanged.
* `C47_unregistered_refuted`: C47 fails when a residual uses a parameter that was not registered with `add_param`: the rejected step is not undone and the cost grows.
* `C48_gn_nan_refuted`: C48 fails when the iteration produces a NaN cost: `cost_k > cost_init` is false and the parameters are not restored. (Levenberg-Marquardt restores them.)
* `C49_no_camera_refuted`: C49 fails without a camera parameter: one residual on one free pose is undefined behaviour.
* `C49_unknown_type_refuted`: C49 fails for an optimised parameter of a type the solver does not know (for instance `time_delay_t`): it is given column 0, which belongs to another parameter, so both parameters are updated with the same segment and `H` has no column for it.
* `C50_chain_refuted`: **C50 refuted.** Two cameras connected through a third one: the query throws `std::out_of_range` instead of returning the composed transform.
* `C50_disconnected_refuted`: **C50 refuted.** Two separate groups of cameras: the query throws as well, where an error code is promised.
* `C51_magnitude_refuted`: C51 for the magnitude of residuals is false: a residual that is far below the threshold on the negative side stays.
* `C51_per_camera_refuted`: C51 with a threshold per camera is false: a measurement within its own camera's threshold is removed when it exceeds another camera's.
* `C52_present_view_refuted`: C52 is false for the timestamp of a present view: the rejected call deletes that view.
* `C53_duplicate_refuted`: C53 is false when `add_view` is called with the timestamp of a present view: the timestamp is then listed twice, and after `remove_view` it is listed without a view.
* `C54_nonnegative_refuted`: C54 is false when no candidate has negative information: the result is then always candidate 0 of camera 0 with information 0, whatever the candidates' values are.
* `C55_newer_refuted`: C55 is false: a late image is processed together with newer images of other cameras.
* `C55_missing_refuted`: C55 is false: the first camera's image is processed alone, before any other camera has delivered one.
* `C56_front_refuted`: C56, refuted: the initial poses do not include the pose in front of the target's centre that the code builds first ("Push first pose to be infront of target center"): it is cleared.
* `C56_reached_refuted`: C56, refuted: a grid that shares no corner with the target view counts as having reached it, whatever the threshold (the mean of no distances is NaN): here the view shows tag 0 only and the camera sees tag 1 only.
* `C57_again_refuted`: C57 is false for a second initialisation (after `reset`, or with a preset fiducial): the predicted observation is turned by the inverse camera extrinsics, so it is exact only if the first camera's extrinsics are the identity.
* `C57_upside_down_refuted`: C57 is false for a sensor that is exactly upside down: the attitude is the zero matrix, so that the sensor pose is not a rigid transform.
* `C58_order_refuted`: **C58, time order refuted.** Nothing checks the time of a grid: a detection older than the last view becomes the last view.
* `C58_zero_window_refuted`: **C58, window of size 0 refuted.** A calibrator that has been initialised always holds a view, so a window of size 0 is exceeded.
* `C58_negative_window_refuted`: **C58, negative windows refuted.** A negative window size means a window of almost `2^64` views: nothing is dropped.
* `C58_other_camera_refuted`: **C58, initialisation refuted.** The comment says that initialisation waits until camera 0 sees the target; the condition accepts a detection by any camera, and the call then fails.
* `C59_strip_refuted`: A board with a single row or column of tags is never detected: the threshold asks for one tag more than it has.
* `C59_v3_refuted`: AprilTags 3 detections are not filtered: whatever their quality, position and number, they all enter the grid.
* `C59_v3_stray_refuted`: A tag that does not belong to the board makes AprilTags 3 detection fail; the first id past the board is written out of bounds.
* `C59_repeated_refuted`: Repeated ids are counted twice: two detections of the only tag of a board give a count of eight.
* `C59_paths_refuted`: The detector for several cameras uses other rules: four tags of a large board are enough for it, but not for `detect`; and it drops a tag with one bad corner that `detect` keeps in part.
* `C60_shape_refuted`: **C60 refuted.** Empty matrices and matrices of different shapes are reported as a success, whatever they contain.
* `C61_cross_track_refuted`: **C61 refuted (`cross_track_error`).** The function reads the x coordinates of both line points twice; its value does not depend on the line at all: it is the distance of `pos` to the diagonal x = y (or a division by zero when both points have the same x coordinate).
* `C61_intersect_refuted`: **C61 refuted (`intersect_circles`).** Concentric circles of equal radius: the code divides by the distance of the centres, zero.
* `C62_roundtrip_refuted`: **C62 refuted.** As coded, `latlon_offset` exchanges north and east and adds radians to degrees: measured back, its north distance is the east offset scaled by π/180, so the round trip recovers the offsets only if they happen to be in that ratio.
* `C62_east_refuted`: **C62 refuted, second component.** At the equator the east distance measured back is the north offset times π/180 times the cosine of the new latitude.
* `C66_randi_refuted`: C66 fails for `randi` with the documented meaning (upper bound, lower bound): values above the upper bound come out, and a lower bound 0 is a division by zero.
* `C67_opposite_refuted`: C67 refuted for opposite directions: the result is the zero matrix.
* `C68_psd_refuted`: C68 fails: the result of `enforce_psd` need not be positive semidefinite.
* `C69_lookat_refuted`: **C69 refuted.** Looking exactly along the up axis the matrix is singular.
* `C71_recorded_data_refuted`: C71 is false for the recorded detections: `find_nbv` files the first simulated view under the timestamp after the last.
* `C74_reset_refuted`: **C74, with a prior: refuted.** `reset` removes the prior from the problem but keeps the reference to it. After that no history can ever marginalise again: the attempt fails, so the calibrator fails as soon as the window overflows.
* `C76_pitch_refuted`: C76 is false beyond a pitch of 90 degrees: whenever the pitch has a negative cosine, the estimate is not the transform the residual uses, and two estimates in a row differ.
* `C76_gimbal_refuted`: C76 is false in gimbal lock: for every transform pitched by 90 degrees with heading other than that of the level one, the estimate of a new object is another transform.
* `C77_radius_refuted`: C77 (limit): the class does not check the radius it is given. With a radius smaller than the amplitude the square root is taken of a negative number: at the middle of the period of a horizontal pan at radius `1/2` in front of a target of width 1, the pose is NaN.
* `C77_period_refuted`: C77 (limit): a period of zero is accepted and every reading is NaN.
* `C78_noise_refuted`: C78 (limit): the noise densities and the random draws have no effect on the simulated data.
* `C78_rate_check_refuted`: C78 (limit): the check of the sample rate is the wrong way round and made on the first sample only: a sensor whose first sample is exactly one period after time zero is rejected, on every trajectory, and a later sample is accepted at any time.
* `C78_stuck_refuted`: C78 (limit): with a rate above one per nanosecond the period is cut to zero and the loop never ends.
* `C79_failed_refuted`: C79 (limit): a trajectory whose evaluation failed counts as one with determinant 1: it is chosen over every other one when all determinants are below 1.
* `C80_last_refuted`: C80 is false for a view that is not the latest: the call made after a view was accepted looks at the view with the largest timestamp, so any other view keeps its outliers.
* `C80_again_refuted`: C80 is false for a view that was the latest before: it is not looked at again, whatever the estimates are by then.
* `C80_estimates_refuted`: C80 is false when the information cannot be computed: the parameters keep the values of the trial solve, and the outliers removed on the way are not counted.
* `C80_abort_refuted`: C80 is false when too few corners are left to estimate a pose: a calibration whose views could all be added dies while an outlier is removed.
* `C80_vanish_refuted`: C80 is false for the views that are kept: a view whose information is worth keeping but which consists of outliers is neither kept nor counted as dropped (`Visits` with 0 dropped views).
* `C81_tags_refuted`: C81 is false for the order: the counts of corners are those of all frames, the poses those of the frames that have one. Without a pose for frame 1, frame 4 with one corner is tried before frame 3 with two.
* `C81_removed_refuted`: C81 is false for the number of removed outliers: two were removed and counted, and the last step of the calibration sets the count to what it removes itself.
* `C81_ends_refuted`: C81 is false for the first and the last frame with a pose: they are never tried.
* `C81_empty_refuted`: C81 is false when no pose can be estimated: the loop over the frames runs past the end of an empty list; with one or two poses, or without a detection between the first and the last, the calibration is aborted.
* `C82_twice_refuted`: C82 is false for a calibrator that is solved twice: every view is added again, each timestamp is listed twice, and the list no longer tells the number of views.
* `C82_unsolved_refuted`: C82 is false when there are fewer frames than the window: nothing is ever solved.
* `C82_fixed_refuted`: C82 is false when all cameras are fixed: there is nothing a view could be marginalised onto, and incremental calibration is aborted at the first full window.
* `C83_missing_refuted`: A file is not required to exist by the interface; a missing one is not reported by `-1` or `NULL`.
* `C83_long_refuted`: A row of more than 1022 characters is counted more than once.
* `C83_cols_refuted`: A comma at the end of a comment that is longer than the first row is counted as well.
* `C83_data_refuted`: Any other shape is undefined behaviour: a table with more columns than rows is written past the end of the pointer array, one with more rows than columns goes through pointers that were never set.
* `C83_ragged_refuted`: A row with more cells than the first one is written past its end.
* `C83_last_refuted`: The last number of a file that does not end with a newline is lost.
* `C84_doubles_refuted`: C84, doubles: every row that announces the number of elements that follow it is written past the end of its array.
* `C84_long_refuted`: An array whose row has more than 1022 characters is split: more than one array is delivered.
* `C84_missing_refuted`: A missing file is not reported.
* `C86_all_refuted`: C86 fails when nothing is left to marginalise: the covariance of all optimised parameters cannot be had, the program aborts.
* `C86_unused_refuted`: C86 fails for a requested parameter that no residual depends on: no covariance is ever returned, not even for the other parameters.
* `C86_small_refuted`: **C86 fails for badly scaled problems.** The information matrix is nonsingular, but the parameters to be marginalised have an eigenvalue between 0 and 1e-8 whose eigenvector sums to zero: the inverse check passes, the direction is dropped and the returned variance is half the true one.
* `C86_rejects_refuted`: C86 fails for unobservable nuisance parameters: the covariance of the requested parameter is well defined (its column of the information matrix is solvable and its variance unique), the pseudo inverse is there to handle this case, but -1 is returned: the check asks for an inverse.
* `C86_kind_refuted`: C86 fails with a free parameter of another type (a time delay): it shares the first column with a pose, and the returned variance is 3/2 instead of 2.
* `C87_newest_refuted`: **C87, refuted.** The cost is less than half the sum of the squares of all residuals of the problem as soon as one measurement of the newest view has an error that is not zero.
* `C88_negative_refuted`: **C88, refuted.** A measurement whose error has no positive component is kept, however long the error is.
* `C88_equal_refuted`: **C88, refuted (2).** In a view whose errors all have the same length there is no outlier, yet every measurement whose error has a positive component is lost.
* `C89_delay_refuted`: **C89, refuted.** A time delay that the user asked to keep fixed is estimated: the last run of the solver in `solve()` does not hold it constant, nor do later runs.
* `C90_no_view_refuted`: Before the first view, the query without a time reads outside the container.
* `C92_intrinsic_refuted`: C92 is false for the intrinsics: the fifth view is rejected, and the last intrinsic keeps the value of the solution with that view.
* `C92_corners_refuted`: C92 is false for the other views: the fifth view is rejected, and view 3 has lost its two corners for good, because outliers are removed before anything is remembered.
* `C93_twice_refuted`: C93 is false for a second calibration: the views of the first one are replaced, their residuals are freed, and the optimiser evaluates them.
* `C94_none_refuted`: C94 is false if no grid lies between the first and the last sample: memory past the end of an empty array is read.
* `C94_dense_refuted`: C94 is false if several grids lie between two samples: with two samples there is one pose, however many grids.
* `C94_extrapolated_refuted`: C94 is false if two grids lie between two samples, even if there is a sample after them: the second is extrapolated from the next two samples.
* `C94_order_refuted`: C94 is false if the grids are not in chronological order: the second of them is never reached, and its pose is missing.
* `C95_blank_refuted`: C95 is false for an image without corners: the grid of the first run says of every corner that it is not there; the grid of the second run reads past the end of an empty table.
* `C95_v2_refuted`: C95 is false for format 2: a grid that was loaded is not marked as initialised, so the first question about a corner stops the program.
* `C95_formats_refuted`: C95 is false for format 2: the program cannot read the files it writes; the second run stops with an error.
* `C95_torn_refuted`: C95 is false for a crash while a grid is saved: after `j` of its lines the next run takes the file for the whole grid, without any complaint; it has the first `j` corners only, and none at all if only the header was written.
* `C95_order_refuted`: C95 is false for the order of the grids, and C94 depends on it: with one schedule both grids get their pose, with another one only one of them.
* `C96_first_refuted`: **C96 refuted, the first view.** Without any view in the calibration every candidate with a parameter that is not fixed reads the last element of an empty vector.
* `C96_fixed_refuted`: **C96 refuted, a fixed camera.** The columns of the candidate's predecessors move into the place of the fixed camera: with nothing to calibrate the score is -16 although the determinant of the (empty) covariance is 1.
* `C96_unseen_refuted`: **C96 refuted, a camera not seen before.** The parameters of a camera that only the candidate sees share the columns of the candidate's pose: the score is `-log₂ 729` although the information matrix is the identity, and the determinant of the covariance 1.
* `C97_coincident_refuted`: Two neighbouring lines on one and the same circle: the first guess is NaN.
* `C97_repeated_refuted`: A corner detected repeatedly counts every time, so a board may pass the test although corners are missing: then the process stops.
* `C98_fixed_refuted`: **C98 refuted.** Intrinsics that the user gave and fixed are overwritten by data added with the default arguments: whatever the focal lengths of a camera were, four estimates replace them.
* `C98_split_refuted`: **C98 refuted.** Data added in two calls is not the same as data added in one: with at most three estimates in each, no focal length is found, however many there are together.
* `C99_bad_frame_refuted`: **C99 refuted.** One frame whose pose cannot be estimated makes the whole initialisation fail, however good the others are.
* `C99_fixed_extrinsics_refuted`: **C99 refuted.** Extrinsics of camera 1 that the user fixed at 5 come out of the initialisation changed, and not fixed.
* `C100_missing_refuted`: **C100 refuted.** A calibrated camera without an entry in the validation data makes `inspect` throw, whatever the other cameras have.
* `C100_uninit_refuted`: **C100 refuted.** A detected board whose pose cannot be estimated in any camera: its pose is read from a matrix that was never initialised; the call has no defined result.
* `C101_singular_refuted`: **C101 is false of a singular covariance.** If the joint covariance has determinant 0, the information is reported as -infinity, not as unavailable: the comment in the code says that the rank is to be checked, but the check is commented out.
* `C101_fixed_refuted`: **C101 is false of fixed parameters passed to `estimate_covariance`.** A fixed parameter has no rows of its own; its zero covariance overwrites that of the first free parameter of the same size.
* `C101_mocap_fixed_refuted`: **C101 is false of a fixed mocap extrinsics.** `_calc_info` of the mocap calibration writes the 6 x 6 covariance of fixed extrinsics into a matrix of size 0.
* `C104_singular_refuted`: **C104 is false without information.** A measurement that says nothing about the unknown has the value zero, and a weak one a positive value: by the value, which the next best view is chosen by, the useless one is the better one.
* `C104_cache_refuted`: **C104 is false for a sequence of problems.** If the columns to marginalise have the same number of rows, columns and entries as in the call before but not the same places, the symbolic factorisation of that call is used for a matrix that it is not of; the call on its own succeeds.
* `C105_sort_refuted`: For other responses it is not: the stronger of two keypoints can be dropped.
* `C105_limit_refuted`: In general more points than requested are returned: the limit per cell is rounded up, and an image that is not divided evenly has more cells than the grid.
* `C105_zero_refuted`: Also nothing requested does not mean nothing returned.
* `C105_fine_refuted`: A grid with more columns or rows than the image has pixels is never finished, whatever the detectors find.
* `C105_lines_refuted`: **C105.** `draw_grid_features` without rows or columns divides by zero; with more columns (rows) than pixels, or a negative number of them, its loop does not end.
* `C106_type_refuted`: A non-empty OpenCV matrix of another element type (an 8-bit image, say) is read out of bounds.
* `C106_colour_refuted`: Two colour images of the same size are not compared at all: an exception.
* `C107_orientation_refuted`: **C107, refuted: the trajectory passes through the given orientations.** Not when consecutive rotation vectors are more than half a turn apart: whole turns are taken off along the difference of the two vectors, which is not the axis of either. Half a turn about `x`, then half a turn about `y`: at the time of the second pose the orientation is another one, for every interpolation.
* `C107_snap_refuted`: **C107, refuted: the pose moves with the velocity returned, up to the ends.** A body moving at one metre per second for four seconds: the velocity returned is one metre per second at every time, but the pose stays where it is for the first 0.4 milliseconds (and then jumps, `C107_velocity`).
* `C109_exp_refuted`: Below 1e-3 rad, other than at zero, `Exp` is not a rotation: the full claim, that `Exp` is the rotation for every vector, is false.
* `C109_jr_zero_refuted`: At zero, where the right Jacobian is the identity, `Jr` divides zero by zero.
* `C110_pinv_refuted`: With a positive tolerance `pinv` is not always the pseudo-inverse: `tol` times the identity is invertible, and `pinv` returns zero.
* `C111_perturb_refuted`: With a rotation bound that is positive but below 1e-8 the perturbed pose is not a pose: the determinant of its rotation is above one.
* `C112_pose_sign_refuted`: A pose is stored differently after `get_numerical_jacobian`, a `const` function, when its quaternion is not the one the conversion from the rotation matrix gives.
* `C112_check_empty_refuted`: With no residual or no component the check succeeds whatever the code wrote.
* `C112_delay_flat_refuted`: A step of less than a nanosecond about a zero delay makes the time delay Jacobian zero, whatever the motion.
* `C112_delay_step_refuted`: With the default step of `1e-8` s and a delay of half a nanosecond, the time delay Jacobian of a residual is 95 per cent of its slope between the two delays it is evaluated at.
* `C113_newest_refuted`: **C113 refuted.** The newest view, which has no IMU factor yet, is left out: whatever its cameras saw, the matrix is the one without it.
* `C113_time_delay_refuted`: **C113 refuted.** With a free time delay, a type the function does not know, the information about the delay (25, derivative 5) and its correlation are added to the first extrinsics column and the column counted for it stays zero.
* `C115_empty_refuted`: C115 refuted: with no residual that evaluates (for instance before any view is added) the report takes the median of an empty list and reads out of bounds.
* `C115_vi_nocorner_refuted`: C115 refuted: a camera of a visual-inertial calibration that has no residual makes the report take the median of an empty list.
* `C115_vi_invalid_refuted`: C115 refuted for visual-inertial calibrations: a corner that projects outside the image, whose residual does not evaluate, is reported with its error and counted among the corners.
* `C115_vi_unwritten_refuted`: C115 refuted for visual-inertial calibrations with an equidistant camera: a corner behind the camera makes the report use a pixel that was never written.
* `C116_indefinite_refuted`: C116 refuted: a covariance that is not positive definite is accepted, and the weighted error is not its quadratic form: the factorisation stopped half way and nobody looked.
* `C117_short_names_refuted`: C117 refuted: ... but the grids of a data set whose timestamps have fewer digits, such as a simulated one that starts at zero, are all ignored.
* `C117_solve_refuted`: C117 refuted: `load_data` followed by `solve`, as the calibration program does, adds every view a second time: the residuals of the loaded views stay in the problem although no view owns them any more, next to those of the new views, so that every measurement counts twice and only one copy can ever be filtered.
* `C118_unsynchronised_refuted`: C118 refuted: grids of different cameras are put into one view although they were taken at different times, if each camera lacks a grid at the time of the other.
* `C118_short_row_refuted`: **C118.** A row of a table without both parts of the timestamp is read out of bounds.
* `C119_waits_refuted`: C119: the very first image is answered with `true` whatever the number of cameras, as the code only looks at cameras that have sent something.
* `C119_reset_refuted`: C119: `reset` keeps the images, so after a restart with an earlier clock the first image of one camera is paired with the image another camera sent before the reset.
* `C119_scale_refuted`: **C119.** With a scale that is not positive the image that completes a frame throws.
* `C120_failing_residual_refuted`: **C120, refuted.** A residual that cannot be evaluated after a step is left out of the cost, so that the step is accepted because of it: the solver returns parameters for which not all residuals can be evaluated although all of them could be at the beginning, and with one more iteration it does not return.
* `C121_every_camera_refuted`: Not every camera section of a file that is accepted becomes a camera.
* `C121_identity_refuted`: The pose of camera 0, whose frame is the frame of the rig, is not always the identity.
* `C121_lengths_refuted`: The number of parameters of a camera is not checked.
* `C121_mocap_distortion_refuted`: `proj_params` may be given without `dist_params`: the distortion is then empty, and the camera is not calibrated first.
* `C122_relative_refuted`: C122 is false of nanoseconds: two events one nanosecond apart, at a time of the order of EuRoC's, have the same relative time.
* `C122_data_refuted`: C122 is false of `euroc_data_t`: after the last timestamp the loop reads the element behind the end of the set. So no execution of the constructor is free of undefined behaviour.
* `C122_data_behind_refuted`: C122: if the memory behind the end of the set holds the last timestamp, the loop goes on behind the end.
* `C122_second_camera_refuted`: C122 is false of the second camera: `cam1` of a dataset is always a copy of `cam0`, and all its images are those of `cam0`, whatever is in the directory `cam1`.
* `C122_calib_refuted`: C122 is false of larger differences: only one image is dropped, so two or more too many leave the cameras with different numbers of images.
* `C122_name_refuted`: C122 is false of long names: a name of 50 characters or more is written beyond the end of a local array.
* `C122_empty_refuted`: The first and last timestamps of an empty data set are undefined.
* `C122_past_refuted`: The loop over the timestamps reads past the end of the set, whatever the set is: if nothing is there, or by chance a timestamp equal to the last, the behaviour is undefined.
* `C123_median_refuted`: The median of Euler angles is not a median of orientations: for every small `d` two exact-looking estimates that turn the target by half a turn plus and minus `d` (so they differ by `2 d`) give an initial pose that is not turned at all.
* `C123_report_refuted`: The lines about the cameras are not about the cameras: "cam0" shows the change of the end effector and "cam1" that of camera 0, the change of camera 1 is not shown at all.
* `C124_results_refuted`: The file the program writes at the end is not a configuration it can read: the transforms come in another order.
* `C124_count_refuted`: Fewer numbers than expected are accepted, the rest is zero; more overrun the array.
* `C124_name_refuted`: A model name of thirty characters or more overruns its buffer.
* `C124_joints_refuted`: Rows with fewer than three angles: the program reads a missing string (or stops, if the number of angles is not the announced one and assertions are compiled in).
* `C124_models_refuted`: The models of the file are ignored: an equidistant camera is read as `radtan4`.
* `C125_empty_refuted`: Without timestamps the iterators of the test data run past the end.
* `C125_leak_refuted`: A timestamp that is listed twice can be used for both training and test.
* `C125_weight_refuted`: So the measurement of one angle is not used once: with eighty corners it counts eighty times.
* `C125_lost_refuted`: One missing image: whether the results of the same data are written depends on the shuffle.
* `C126_six_refuted`: Six digits do not determine a double: "0.333333" is not a third.
* `C126_f_refuted`: A small value vanishes under `%f`.
* `C127_lost_refuted`: `verbose`, `estimate_time_delay`, `img_scale` and the estimated time delay are not in the calibrator that is made: any two calibrators that differ only there give the same one.
* `C127_gap_refuted`: Cameras 0 and 2, which `add_camera` accepts: saving fails with the file half written.
* `C127_early_refuted`: Saving before the target has a pose dereferences a null pointer after the extrinsics have been written.
* `C128_lost_refuted`: The solver and which parameters are fixed are not restored: calibrators that differ only there give the same one.
* `C129_lost_refuted`: The results of a motion capture calibration: the estimated poses, which are the point of it, are not read back, nor are the `fixed` flags.
* `C130_unopened_refuted`: A file that cannot be opened is written to nevertheless.
* `C130_empty_frame_refuted`: A frame that sees no feature does not end its line: the files have fewer lines than there are frames, and the row of the next frame is appended to the row of this one.
* `C130_times_refuted`: The first time of a recording of 2014 is not printed as it is.
* `C131_list_files_refuted`: **C131 (files only), refuted.** Directories are listed too.
* `C131_remove_refuted`: **C131 (removing), refuted.** If a subdirectory is not empty, the directory stays, with all of that subdirectory, but success is reported and the other entries are gone.
* `C131_create_dir_refuted`: **C131 (failures), refuted.** `create_dir` is documented to return -1 for failure, but if something is in the way it returns 0, and the directory is not there.
* `C131_blank_refuted`: **C131 (blanks), refuted.** A name with a blank makes two directories instead of the one that was asked for.
* `C131_save_plain_refuted`: **C131 (saving to a plain file name), refuted.** Saving a detection as `name`, without a directory, makes a directory of that name and fails.
* `C131_copy_self_refuted`: **C131 (copying onto itself), refuted.** A file that is copied onto itself is emptied, and the call reports success.
* `C131_copy_missing_refuted`: **C131 (missing files), refuted.** The documentation promises -1 for a source, and -2 for a destination, that cannot be opened; instead the behaviour is undefined.
* `C131_file_exists_refuted`: **C131 (existence of files), refuted.** Every directory that may be read is reported to be a file.
* `C131_dir_exists_refuted`: **C131 (existence of directories), refuted.** Asked about a path at which there is a file, the program ends.
* `C132_order_refuted`: **C132 (order), refuted.** Ten is sorted before nine.
* `C132_stale_refuted`: **C132 (stale grids), refuted.** If there is a file with corners for each image, the target and the detector do not matter: grids of another target, or of other images, are returned.
* `C132_other_refuted`: **C132 (other files), refuted.** One file whose name does not begin with a number, such as `.DS_Store`, and the preprocessing of the whole directory fails with an exception.
* `C132_remnant_refuted`: **C132 (remnants), refuted.** `load_aprilgrids` loads every file of the directory: the grid of an image that is not among the recording's images any more is returned with the others.
* `C133_delay_refuted`: C133 (limit): a time delay that the data say is fixed is not held constant when the information of a candidate is computed.
* `C133_rates_refuted`: C133 (limit): cameras as fast as the IMU, or nearly so, end the program on every trajectory of more than two frame periods.
* `C133_localise_refuted`: C133 (limit): a frame from which the pose of the camera cannot be told ends the program; the candidate is not given up with -1.
* `C133_mixed_refuted`: C133 (limit): a camera that does not see the target in a frame leaves the frame incomplete, and the next frame completes it: here the view of time `k1` holds the grid which the second camera saw at the later time `k2`.
* `C134_unseen_refuted`: **C134 is false for times at which nothing was seen.** A time at which no camera detected the target adds no view, and yet is reported, with the values of the time before: the column `view_idx` does not count views.
* `C134_mode_refuted`: **C134 is false for other modes.** A mode that does not exist is not refused: a report without lines replaces the file.
* `C135_offset_refuted`: **C135: the calibration does not determine the mount of the gimbal.** Whatever the data: turning the mount by any angle `a` about the axis of the first joint and all first joint angles back is a move the solver may make, and it changes no cost - the measured angles do not hold it, because they enter as starting values only.
* `C135_slide_refuted`: **C135: nor does it determine where the first joint sits.** Shifting the mount by `d` along the axis and the first link back (its third coordinate, which the solver may change) changes no cost.
* `C135_lost_refuted`: **C135: a missing grid of camera 1 loses the results**, although camera 1 is not used by the calibration; those of the cameras that are used may be missing.
* `C135_none_refuted`: Without a view of the first camera with twenty corners the program reads outside an empty vector.
* `C135_results_refuted`: **C135 is false for its own results.** The file the program writes is not a configuration it can read: it has `cam0_ext` where `cam0_cam1_ext` is expected.
* `C136_errors_refuted`: **C136, refuted.** With two cameras there is no comma between the rows of the first and those of the second, so that there are fewer entries than announced; and a corner that is not projected has a row that is not counted.
* `C136_cameras_refuted`: **C136, refuted.** The table of a camera does not have the size that it announces.
* `C136_mocap_poses_refuted`: **C136, refuted.** A calibration with a frame in which the target could not be located: the table of motion capture poses does not have the size that it announces.
* `C137_race_refuted`: **C137, refuted.** Whenever two threads have candidates to score, there is a schedule in which both are about to insert into the shared table at the same time.
* `C138_peer_refuted`: **C138, refuted.** Asking for the peer of a socket that has none (as the server's own) reads an array that was never written.
* `C138_serves_refuted`: **C138, refuted.** Whatever a handler makes of what it sees in `server.conns`: for any two connections there is a schedule after which both handlers serve the same one, so that the other is never served.
* `C138_race_refuted`: **C138, refuted.** A handler can be about to read `server.conns` when the loop is about to add to it, for any two connections.
* `C139_line_refuted`: **C139, refuted.** With three cycles the bar that is shown at 100 percent is neither full nor fifty cells long.
* `C139_single_refuted`: **C139, refuted.** With one cycle (a search with one candidate) the update is undefined; with none it throws.
* `C140_stale_refuted`: **C140, refuted.** If the results cannot be written, the IMU calibration goes on with the cameras of whatever calibration left its results there before.
* `C140_blind_refuted`: **C140, refuted.** If the target was never seen by one of the cameras, no view is made, whatever the others have seen.
* `C141_torn_refuted`: **C141, refuted.** If saving is interrupted in the timestamp of a line, what is left of the file is loaded as a grid with corners whose time is the timestamp without its last digits; that something is wrong shows only in the value returned, which the preprocessing (calib_data.cpp:205-210) does not look at.
* `C141_formats_refuted`: **C141, refuted.** What `save` writes cannot be read as the second format (the program stops), and a file in the second format is read as the first as a grid without corners: only the value returned says that nothing was read.
* `C142_few_refuted`: C142 refuted: with one, two or three corners on the image (however many are held) the call throws instead of returning an error.
* `C142_phantom_refuted`: C142 refuted: a corner added twice and removed leaves a grid that holds nothing and on which the call throws.
* `C142_unsolved_refuted`: C142 refuted: when OpenCV finds no pose the call still reports success, with a pose made of numbers never written.
* `C142_axis_refuted`: C142 refuted: with an equidistant camera, one corner on the principal point hands OpenCV a pixel that is not a number, so that however well it solves the problems it is given properly, any pose may come out.
* `C143_documentation_refuted`: C143 refuted: the documentation says that with `p` = 0.99 the smaller 99 of 100 squared errors are not down-weighted. Every one of them is, and those just below the quantile nearly down to the weight `w`.
* `C143_perfect_refuted`: C143 refuted: with the Blake-Zisserman loss a perfect fit has a negative cost.
* `C143_ignored_refuted`: C143 refuted: the solver of this library does not use the loss functions: its cost is that of the same residuals without them, whereas Ceres' is not.
* `C143_zero_refuted`: C143 refuted: the parameter of the Blake-Zisserman loss is cut to a whole number; below one in size, the call throws.
* `C143_sticky_refuted`: C143 refuted: once a loss function was used, changing the settings (or switching it off) has no effect on the next `solve`.
* `C143_algorithm_refuted`: C143 refuted: after a next best view run the solver stays with the algorithm chosen for it, also for batch solutions.
* `C144_view_refuted`: C144 refuted: the grids of a view added with `add_view` to a calibrator that was given no others are not returned.
* `C146_camera_refuted`: **C146** The full claim fails for a camera with any other number of parameters, which `add_camera` takes without a check: the reprojection and mocap residuals declare eight, and the optimiser aborts on them.
* `C146_fiducial_refuted`: **C146** The full claim fails for the residual of the visual-inertial calibrator: it declares the camera's own number of parameters and is accepted, but its evaluation reads and writes eight: with fewer it leaves the buffers, with more it does not write the Jacobian it declares.
* `C146_prior_refuted`: **C146** The full claim fails for the two priors: the optimiser takes them, but its evaluation of the Jacobians dereferences a null pointer, whatever the parameter.
* `C147_again_refuted`: **C147** The full claim, that linearising again gives the sizes of the residuals added, fails: each further time the declared number of residuals grows by that of the first, and the part to marginalise faster still.
* `C147_eval_refuted`: **C147** Nor does it evaluate inside its buffers any more, if any parameter remains.
* `C147_add_remain_refuted`: **C147** A parameter added by hand after the linearisation has no Jacobian buffer.
* `C148_progress_refuted`: **C148** The full claim, that the bar is sixty wide for every fraction, fails outside: above 1 it grows, and below 0 it is shown full and twice as wide.
* `C149_tracks_refuted`: **C149** The full claim, for every list of flags, fails: a flag for a point that is not in both lists is read outside.
* `C149_matches_refuted`: **C149** Matches with an index outside the keypoints, or pictures of different widths.
* `C150_status_refuted`: **C150, refuted.** The exit status is 0 although the results could not be written: the file of an earlier calibration, if there is one, is still there.
* `C150_earlier_refuted`: **C150, refuted.** The results of an earlier calibration do not survive one whose results cannot be printed: with no camera 0 `calib_camera` calibrates and then leaves a broken file in their place.
* `C150_third_camera_refuted`: **C150, refuted.** A configuration with a third camera cannot be inspected, whatever is in the data set.
* `C150_target_refuted`: **C150, refuted.** The boards of an inspection are measured as 6 x 6 tags of 88 mm with a spacing of 0.3, whatever target the configuration names.
* `C151_copy_refuted`: **C151, refuted.** If a timeline with an event is copied, and that is what happens when a function returns one by value and the compiler does not elide the copy, the copy is left with freed events when the original is destroyed: looking at them is a use after free, and destroying the copy frees them a second time.
* `C152_camera_refuted`: **C152, refuted for a camera that is added twice.** The parameters of the first are freed, but the problem still points to them, so that the next solution reads freed memory.
* `C152_leak_refuted`: **C152, refuted for views that are added twice.** The residuals of the first are never freed.
* `C153_members_refuted`: C153: the code does not forbid the other copy, which the compiler provides: copying a solver that has solved, then destroying both, frees its factorisation twice.
* `C153_members_solve_refuted`: C153: … and even solving with the copy alone leaves the original with a freed factorisation.
* `C153_members_use_refuted`: C153: … and destroying the copy leaves the original with a freed factorisation, which it goes on using.
* `C153_damping_refuted`: C153: a copied solver solves as the original does, whatever its settings: refuted, the damping is not copied. Two solvers, the damping of the first set to 1, then copied: one iteration that steps by the damping ends in different parameters.
* `C154_again_refuted`: **C154, refuted**: the IMU is added twice, for instance to correct its parameters, and the problem points at freed memory.
