#!/usr/bin/env python3
"""Writes /verif/properties.jsonl. One entry per property; see DESIGN.md for how each is modelled."""
import json, os
P = []
def p(title, statement, quantifier, why, *anchors):
    P.append(dict(id="C%02d" % (len(P)+1), title=title, statement=statement, quantifier=quantifier,
                  why_tests_cant=why, anchors=list(anchors)))
ROT="src/util/Rotations.cpp"; ATT="src/util/Attitude.cpp"; NU="src/util/NavUtils.cpp"; GR="src/util/Gravity.cpp"
CMP="src/inertial/compensator.cpp"; SD="src/inertial/strapdown.cpp"; INI="src/inertial/initialization.cpp"; PVA="src/inertial/pvaErrorDynamics.cpp"
BLS="src/filter/BatchLeastSquares.cpp"; KF="src/filter/KalmanFilter.cpp"

# ---- time ----
p("Timestamp to UTC calendar date","unixTimestampToDateVec, given any timestamp from the Unix epoch on, appends exactly the proleptic-Gregorian UTC year, month, day, hour, minute and (whole) second of that instant.","every int64 microsecond timestamp >= 0 and every prior content of the output vector","infinitely many days, leap-year rules at 4/100/400 years and month boundaries; a test samples a handful of dates",f"{ROT}:Rotations::unixTimestampToDateVec")
p("Timestamp conversion is free of undefined behaviour","unixTimestampToDateVec never reads outside its month-length table, for any timestamp.","every int64 timestamp, past or future","an out-of-range read of a stack array usually returns something harmless in a test run, so no test can settle it",f"{ROT}:Rotations::unixTimestampToDateVec")
p("Pre-epoch timestamps","For timestamps before 1970 the returned date vector is the UTC calendar date and time (non-negative time-of-day fields).","every negative int64 timestamp","half of the input domain; tests only use recent dates",f"{ROT}:Rotations::unixTimestampToDateVec")
p("Date vector output is exactly six fields, appended","The conversion appends exactly six entries to the caller's vector and leaves earlier entries in place; a vector that already held entries is therefore refused by the frame rotations.","every prior vector content and timestamp","history property: depends on what the caller left in the vector",f"{ROT}:Rotations::unixTimestampToDateVec",f"{ROT}:Rotations::computeRJ2k2Ecef")
p("Microsecond-to-second conversion survives double rounding","Dividing the int64 timestamp by the double 1e6 and truncating gives the exact whole second although the quotient is rounded to 53 bits.","every timestamp of magnitude below 2^33 seconds, every faithful monotone rounding to 53 bits","rounding can only go wrong at isolated timestamps near a second boundary; there are 10^16 candidates",f"{ROT}:Rotations::unixTimestampToDateVec")
p("Modified Julian Date is a day counter","The date-to-MJD conversion used by the J2000 rotations assigns consecutive integers to consecutive calendar days (Gregorian after 1582-10-15, Julian before, with the ten-day gap), with MJD 0 = 1858-11-17.","every valid calendar date, unbounded in year","unbounded years, two calendars and a wrap at March; tests only look at one date",f"{ROT}:Rotations::convertDatevec2Mjd")
p("Timestamp and MJD agree","Converting a timestamp to a date vector and that to an MJD gives 40587 + (whole seconds since the epoch)/86400.","every non-negative timestamp not on a 31 December","end-to-end equation between two independent algorithms over all days",f"{ROT}:Rotations::unixTimestampToDateVec",f"{ROT}:Rotations::convertDatevec2Mjd")
p("MJD fraction orders instants","MJD is strictly increasing in the time of day within a day and its integer part is the day: floor(MJD) is the day number for every accepted h/m/s.","every accepted hour/minute/second triple and every calendar date","continuous domain; floor can fail only at boundaries",f"{ROT}:Rotations::convertDatevec2Mjd")
p("Date validation accepts exactly real dates","A date vector is accepted exactly when its fields form a real calendar date and a time of day in [00:00:00, 24:00:00).","every vector of six finite numbers","acceptance is a predicate on six real numbers; tests probe a few corners",f"{ROT}:Rotations::convertDatevec2Mjd")
# ---- EOP ----
p("EOP file parsing","After loading a well-formed CSV with any number of data rows, row k of the table holds the MJD, x-pole, y-pole, UT1-UTC, LOD and DAT columns of data line k, the header is skipped, all six columns have equal length, and anything loaded earlier is replaced.","every well-formed file, any number of rows, any earlier state","unbounded number of rows and previous load history",f"{ROT}:Rotations::getEops")
p("Failed EOP load changes nothing","If the path is invalid, or a field does not parse and an exception escapes, the previously loaded table and the loaded flag are unchanged.","every file content, every prior state, every row at which parsing fails","crash-point property: failure can happen at any field of any row",f"{ROT}:Rotations::getEops")
p("Successful EOP load means rows were read","getEops returns true only if the data rows of the file were read.","every file and file permission","depends on open-mode permissions of the environment",f"{ROT}:Rotations::getEops")
p("EOP lookup selects the right day","An EOP query succeeds exactly when a table was loaded and contains the day floor(mjd); it uses the first such row, and linearly interpolates towards the next row (or holds the value on the last row); TAI-UTC is not interpolated.","every table (any length, unsorted or with repeats) and every query time","quantifies over all tables and all instants",f"{ROT}:Rotations::getCurrentEop")
p("Interpolated EOP values stay between table values","Polar motion, UT1-UTC and LOD returned for an instant lie between the values of the two bracketing rows and equal the row's value at midnight.","every rectangular table and every query time","continuous domain",f"{ROT}:Rotations::getCurrentEop")
p("EOP lookup never reads outside the table","A lookup in a table produced by any successful load never indexes past the end of a column.","every file that getEops accepts, including rows with missing columns, and every query","needs every malformed file; out-of-range reads are silent",f"{ROT}:Rotations::getCurrentEop",f"{ROT}:Rotations::getEops")
p("Rotation requests are pure","computeRJ2k2Ecef / computeREcef2J2k depend only on the date vector and the loaded table: the eopFile argument is not consulted and the object is not modified, so any interleaving of requests gives the same answers.","every sequence of requests and every eopFile string","history / non-interference property",f"{ROT}:Rotations::computeRJ2k2Ecef",f"{ROT}:Rotations::computeREcef2J2k")
# ---- J2000 ----
p("J2000-to-ECEF matrix is a rotation","Whenever computeRJ2k2Ecef returns true the matrix is orthonormal with determinant +1.","every accepted date and every EOP table","the matrix is a product of seven trigonometric matrices with 106-term series arguments; tests check one date",f"{ROT}:Rotations::computeRJ2k2Ecef",f"{ROT}:Rotations::computePrecession",f"{ROT}:Rotations::computeNutation",f"{ROT}:Rotations::computeGreenwichHourAngle",f"{ROT}:Rotations::polarRotation")
p("ECEF-to-J2000 is the exact inverse","computeREcef2J2k succeeds exactly when computeRJ2k2Ecef does and returns its transpose bit for bit, hence its inverse; transforming a vector forth and back restores it.","every date, table and vector; the transpose part for every scalar arithmetic","universally quantified equation between two functions",f"{ROT}:Rotations::computeREcef2J2k",f"{ROT}:Rotations::computeRJ2k2Ecef")
p("Nutation angles are bounded","The nutation in longitude and obliquity used by the rotations never exceed the sums of the absolute series coefficients, at every epoch; the fundamental arguments are reduced to one revolution and the reduction does not change the angles.","every real epoch","continuous domain, 106-term trigonometric series",f"{ROT}:Rotations::nutationAngles")
p("Failed rotation requests leave the output alone","If a J2000/ECEF/NED rotation or LLA conversion returns false the caller's output is unchanged.","every input for which false is returned","frame property over all failing inputs",f"{ROT}:Rotations::computeRJ2k2Ecef",f"{ROT}:Rotations::computeREcef2Ned",f"{ROT}:Rotations::lla2Ecef")
# ---- ECEF/NED/LLA ----
p("ECEF/NED matrices are mutually inverse rotations","computeREcef2Ned and computeRNed2Ecef return orthonormal, determinant +1 matrices that are each other's transpose (bit for bit) and inverse.","every latitude and longitude in range","continuous domain",f"{ROT}:Rotations::computeREcef2Ned",f"{ROT}:Rotations::computeRNed2Ecef")
p("Latitude/longitude range check","The ECEF/NED rotations and lla2Ecef return true exactly for |lat| <= pi/2 and |lon| <= pi (for finite inputs); NaN inputs are not rejected.","every pair of doubles including NaN and infinities","boundary and special-value behaviour over all doubles",f"{ROT}:Rotations::computeREcef2Ned",f"{ROT}:Rotations::computeRNed2Ecef",f"{ROT}:Rotations::lla2Ecef")
p("NED axes are the local tangent frame of lla2Ecef","The columns of the NED-to-ECEF matrix are the unit vectors along which lla2Ecef moves when latitude, longitude and (negative) altitude increase, with metric factors equal to the meridian and transverse radii plus altitude.","every in-range latitude, longitude and every altitude","a statement about derivatives at every point",f"{ROT}:Rotations::computeRNed2Ecef",f"{ROT}:Rotations::lla2Ecef",f"{NU}:NavUtils::strapdownDynamics")
p("lla2Ecef describes the ellipsoid","Zero-altitude points satisfy the ellipsoid equation with semi-axes a and a(1-f); altitude is the distance moved along the outward normal; distinct geodetic coordinates off the poles (non-negative altitude) give distinct points.","every latitude, longitude, altitude in range","continuous domain",f"{ROT}:Rotations::lla2Ecef")
p("ecef2Lla inverts lla2Ecef","ecef2Lla(lla2Ecef(lat, lon, alt)) = (lat, lon, alt).","every in-range latitude, longitude and altitude, including the poles","continuous domain; the inverse is approximate and singular on the axis, tests check one point",f"{ROT}:Rotations::ecef2Lla",f"{ROT}:Rotations::lla2Ecef")
p("ecef2Lla outputs are in range","ecef2Lla returns longitude in [-pi, pi] and latitude in [-pi/2, pi/2], which are accepted by lla2Ecef and the NED rotations.","every ECEF position","every position including the Earth's interior and axis",f"{ROT}:Rotations::ecef2Lla")
p("ecef2Lla symmetries","Mirroring the position in the equator negates latitude and keeps longitude and altitude; rotating it about the polar axis changes only longitude.","every ECEF position off the polar axis","metamorphic relation over all positions",f"{ROT}:Rotations::ecef2Lla")
# ---- attitude ----
p("Quaternion to DCM yields a rotation","computeDcmFromQuaternion returns an orthonormal determinant +1 matrix for every non-zero quaternion, depends only on the quaternion's direction (q, -q and any non-zero multiple give the same matrix) and realises v -> q^-1 v q.","every non-zero quaternion and vector","continuous domain",f"{ATT}:Attitude::computeDcmFromQuaternion")
p("Quaternion/DCM round trip","computeQuaternionFromDcm returns a unit quaternion representing the given rotation matrix, so converting back restores the matrix.","every rotation matrix","branching on the largest component with ties on a measure-zero set that random tests never hit",f"{ATT}:Attitude::computeQuaternionFromDcm",f"{ATT}:Attitude::computeDcmFromQuaternion")
p("Rotation vector to quaternion","computeQuaternionFromRotationVec returns the unit quaternion of that rotation; its DCM is the transposed Rodrigues matrix; the zero vector gives the identity quaternion.","every rotation vector including zero","continuous domain with a removable singularity at zero",f"{ATT}:Attitude::computeQuaternionFromRotationVec")
p("Rotation vector/quaternion round trip","computeRotationVecFromQuaternion inverts computeQuaternionFromRotationVec for rotation angles up to pi.","every rotation vector of length at most pi","continuous domain, sign conventions, small-angle cut-off",f"{ATT}:Attitude::computeRotationVecFromQuaternion",f"{ATT}:Attitude::computeQuaternionFromRotationVec")
p("Rotation vector of a quaternion reproduces its DCM","For a unit quaternion the returned vector has length at most pi and the Rodrigues matrix of that vector (the strapdown attitude increment) equals the quaternion's DCM, outside the documented small-angle cut-off.","every unit quaternion","continuous domain",f"{ATT}:Attitude::computeRotationVecFromQuaternion",f"{ATT}:Attitude::computeDcmFromQuaternion",f"{SD}:Strapdown::updateAttitude")
p("Quaternion-equivalent matrix is quaternion multiplication","buildQuaternionEquivalent(p) times q is the Hamilton product p q; products of such matrices represent products of quaternions; DCMs compose accordingly.","every pair of quaternions","algebraic law over R^8",f"{ATT}:Attitude::buildQuaternionEquivalent",f"{ATT}:Attitude::computeDcmFromQuaternion")
p("Euler angles to DCM yields a rotation","euler2Dcm returns an orthonormal determinant +1 matrix for every roll/pitch/heading, 2*pi-periodic in each angle.","every angle triple","continuous domain",f"{ATT}:Attitude::euler2Dcm")
p("euler2Dcm maps body axes to NED","The matrix returned for roll/pitch/heading maps body-frame vectors to NED (a vehicle at heading psi, level, has its forward axis at (cos psi, sin psi, 0)), as its name, documentation and the strapdown navigator use it.","every angle triple","frame convention for all angles; symmetric test inputs cannot tell a matrix from its transpose",f"{ATT}:Attitude::euler2Dcm",f"{SD}:Strapdown::initialize")
p("Euler angle round trip","dcm2Euler(euler2Dcm(angles)) = angles, with roll and pitch in (-pi/2, pi/2) and any heading, and the DCM of the returned angles equals the input DCM.","every attitude away from gimbal lock","continuous domain; quadrant errors appear on whole half-planes the test avoids",f"{ATT}:Attitude::dcm2Euler",f"{ATT}:Attitude::euler2Dcm")
p("dcm2Euler rejects only gimbal lock","dcm2Euler returns false exactly for matrices outside its domain: (near-)zero R11 or R33, or R13 outside [-1,1]; every other rotation is accepted, and outputs are untouched on failure.","every 3x3 matrix","predicate over R^9",f"{ATT}:Attitude::dcm2Euler")
p("Attitude functions check dimensions","Each attitude conversion returns false exactly when an argument has the wrong size, then leaves the output unchanged, and never triggers an out-of-range access.","all argument sizes, all contents","unbounded sizes",f"{ATT}")
# ---- utilities ----
p("Skew-symmetric matrix is the cross product","skewSymmetric(v) w = v x w, the matrix is exactly antisymmetric (also in floating point), linear in v.","every pair of vectors","algebraic law",f"{NU}:NavUtils::skewSymmetric")
p("RK4 step is the classical fourth-order step","strapdownRk4 equals the classical Runge-Kutta tableau applied to the NED navigation equations and returns false, leaving the output, exactly for wrong sizes.","every state, step, delta-velocity, gravity","continuous domain",f"{NU}:NavUtils::strapdownRk4",f"{NU}:NavUtils::strapdownDynamics")
p("RK4 step is consistent with the navigation equations","As the time step tends to zero at fixed specific force, the change of state per unit time produced by strapdownRk4 tends to the right-hand side of the NED navigation equations (position rates, gravity, Coriolis and transport terms).","every regular state, specific force and gravity","limit statement over all step sizes",f"{NU}:NavUtils::strapdownRk4",f"{NU}:NavUtils::strapdownDynamics")
p("A stationary navigator stays put","With zero velocity and a delta-velocity that exactly cancels gravity, integration leaves position and velocity unchanged, for any number of steps.","every regular position (off the poles, above the ellipsoid centre), step size and number of steps","unbounded histories",f"{NU}:NavUtils::strapdownRk4",f"{SD}:Strapdown::integrate")
p("NED kinematics agree with the ellipsoid","The position rates used by the integrator are the ones for which the ECEF velocity of lla2Ecef is the NED-to-ECEF rotation of the NED velocity.","every state off the poles","differential identity between three functions",f"{NU}:NavUtils::strapdownDynamics",f"{ROT}:Rotations::lla2Ecef",f"{ROT}:Rotations::computeRNed2Ecef")
p("Zero time step is harmless","A step with dt = 0 (repeated time stamp) and zero inertial increments leaves the navigation state finite and unchanged.","every state and measurement","division by a zero time difference depends on arrival times of messages",f"{NU}:NavUtils::strapdownDynamics",f"{SD}:Strapdown::integrate")
p("Simple gravity is inverse square","simpleGravity points to the origin with magnitude G*M/r^2, and rotating the position rotates the result.","every non-zero position and every rotation","continuous domain",f"{GR}:Gravity::simpleGravity")
p("Ellipsoidal gravity bounds","gravityNed on the ellipsoid lies between the equatorial and polar constants and attains them, has no north or east component there; the down component is even and the north component odd in latitude; the east component is always zero.","every latitude and altitude","continuous domain",f"{GR}:Gravity::gravityNed")
p("Gravity decreases with altitude","For altitudes from 0 to 20 km the down component is positive and strictly decreasing in altitude.","every latitude and every pair of altitudes","two-variable monotonicity",f"{GR}:Gravity::gravityNed")
# ---- strapdown ----
p("Attitude stays orthonormal forever","After initialize and any number of integrate calls with non-zero angle increments the attitude matrix is orthonormal with determinant +1.","every initial attitude and every finite history of increments","unbounded histories",f"{SD}:Strapdown::initialize",f"{SD}:Strapdown::integrate",f"{SD}:Strapdown::updateAttitude")
p("Zero angle increment keeps the attitude","An integrate call with a zero angle increment leaves the attitude unchanged.","every state","exact zero is a single point that random tests miss, but is what an ideal stationary or quantised gyro reports",f"{SD}:Strapdown::updateAttitude")
p("Attitude increments about one axis add up","Successive increments about the same axis compose to the increment with the summed angle; opposite increments cancel.","every axis and every finite sequence of increments","unbounded sequences",f"{SD}:Strapdown::updateAttitude")
p("Time bookkeeping","After any successful history the stored time of validity is the last one supplied and dt is the difference of the last two, in seconds.","every history of initialize/integrate calls","histories",f"{SD}:Strapdown::integrate",f"{SD}:Strapdown::initialize")
p("Integrate requires initialisation","integrate before initialize reads indeterminate state; after initialize no call sequence with representable time differences does, and every call returns true.","every call sequence","order-of-calls property",f"{SD}:Strapdown::integrate")
# ---- compensator ----
p("Compensator getters return the last setter","After any history of setter/getter/compensation calls, the getters return the values of the last accepted setter call of that sensor; rejected calls and calls for the other sensor have no effect.","every call history and argument size","unbounded histories",f"{CMP}:Compensator::setAccelerometerErrors",f"{CMP}:Compensator::getAccelerometerErrors",f"{CMP}:Compensator::setGyroscopeErrors",f"{CMP}:Compensator::getGyroscopeErrors")
p("Compensation removes the modelled errors","If the raw measurement is bias + (SF*MIS)^-1 applied to the true value, compensation returns the true value; the map is affine and uses only that sensor's parameters.","every parameter set with invertible SF*MIS and every measurement","algebraic law over R^15",f"{CMP}:Compensator::compensateMeasurement")
p("Zero errors mean no change","With all-zero bias, misalignment and scale-factor errors, compensation returns the measurement unchanged.","every measurement","documentation-level contract for the neutral parameter value, on all measurements",f"{CMP}:Compensator::compensateMeasurement")
p("Compensation before calibration is not silently wrong","Compensating before the sensor's errors were set reads indeterminate values; after a successful set it never does.","every call history","order-of-calls property",f"{CMP}:Compensator::compensateMeasurement")
# ---- initialization ----
p("Coarse alignment recovers the attitude","From ideal stationary accelerometer and gyroscope readings coarseAttitudeAlignment returns exactly the body-to-NED rotation.","every true attitude, latitude away from the poles, non-zero gravity and Earth rate","continuous domain SO(3) x latitude",f"{INI}:Initialization::coarseAttitudeAlignment")
p("Coarse alignment degenerates at the poles","If cos(lat), g or the Earth rate is zero the result is non-finite although true is returned.","every reading","measure-zero set of inputs",f"{INI}:Initialization::coarseAttitudeAlignment")
p("Fine alignment accepts exactly eight states","The fine-alignment predict and update calls return true exactly when all arguments describe eight states, never hit undefined behaviour, and leave outputs unchanged otherwise.","all argument sizes","unbounded sizes, checks split over two functions",f"{INI}:Initialization::fineAlignmentPredict",f"{INI}:Initialization::fineAlignmentAzimuthUpdate",f"{INI}:Initialization::fineAlignmentVelocityUpdate")
p("Fine-alignment prediction keeps constant states","Prediction keeps the gyro-bias estimates (modelled as constants) and, over a vanishing interval, the whole state.","every state and covariance","continuous domain",f"{INI}:Initialization::fineAlignmentPredict")
p("Fine-alignment updates never lose information","Azimuth and velocity updates map a positive semidefinite covariance to one that is positive semidefinite and no larger; a measurement equal to the prediction leaves the state unchanged; states uncorrelated with the measured ones are unchanged.","every state, positive semidefinite covariance, positive noise and interval","matrix inequality over all covariances",f"{INI}:Initialization::fineAlignmentAzimuthUpdate",f"{INI}:Initialization::fineAlignmentVelocityUpdate")
# ---- PVA ----
p("Inertial-frame error dynamics","F dx + G du computed from inertialErrorDynamics equals (-R dw, a x psi + Gamma p + R da + dg, v) for every error state and forcing.","every acceleration, gradient, rotation, error state, forcing","linear law over R^30",f"{PVA}:PvaErrorDynamics::inertialErrorDynamics")
p("ECEF-frame error dynamics","F dx + G du from ecefErrorDynamics equals (-O psi - R dw, a x psi - 2 O v - (O O - Gamma) p + R da + dg, v); with zero Earth rate it reduces to the inertial case.","every input","linear law over R^39",f"{PVA}:PvaErrorDynamics::ecefErrorDynamics")
p("NED error dynamics are the Jacobian of the NED navigation equations","Every entry of the 9x9 NED error matrix is the partial derivative of the NED attitude-rate and position-acceleration equations in (latitude, longitude, height) coordinates.","every regular trajectory point","derivative identity at every point for 81 entries",f"{PVA}:PvaErrorDynamics::nedErrorDynamics")
p("Error-dynamics calls check dimensions","Each returns true exactly for 9x9 F and G, leaves them untouched otherwise, overwrites every entry on success (no dependence on previous content), and never indexes out of range.","all sizes and previous contents","unbounded sizes",f"{PVA}")
# ---- least squares ----
p("Linear least squares minimises the residual","UnweightedLinearLeastSquares returns the unique minimiser of |y - Hx|^2 and J is half that minimum.","every full-column-rank H (any size) and y","unbounded sizes; optimality against all x",f"{BLS}:BatchLeastSquares::UnweightedLinearLeastSquares")
p("Weighted least squares minimises the weighted residual","WeightedLinearLeastSquares returns the unique minimiser of (y-Hx)'W(y-Hx) for symmetric positive definite W; scaling W does not change it; W = I gives the unweighted result.","every full-column-rank H, SPD W, y","unbounded sizes",f"{BLS}:BatchLeastSquares::WeightedLinearLeastSquares")
p("Reported weighted cost is the minimised cost","The J reported by WeightedLinearLeastSquares is half the weighted cost that was minimised.","every input","universally quantified equation",f"{BLS}:BatchLeastSquares::WeightedLinearLeastSquares",f"{BLS}:BatchLeastSquares::ComputeCostFunction")
p("Consistent data are recovered exactly","If y = H x0 then every linear least-squares variant returns x0 with J = 0.","every full-rank H and x0","unbounded sizes",f"{BLS}")
p("Least-squares argument checking","Each solver returns false exactly for inconsistent sizes or an underdetermined system, then leaves outputs unchanged; on success no undefined behaviour occurs in the linear solvers.","all sizes","unbounded sizes",f"{BLS}")
p("Nonlinear solver as shipped","The nonlinear solvers, as shipped with their placeholder measurement model, run without undefined behaviour.","every argument, sizes consistent","an assertion or out-of-range read depending on build flags; tests only use arguments that skip the loop",f"{BLS}:BatchLeastSquares::UnweightedNonlinearLeastSquares",f"{BLS}:BatchLeastSquares::ComputePredictedNonlinearMeasurement")
p("Nonlinear solver stops only at small steps","If a nonlinear solve returns true, the last Gauss-Newton step (or the initial gap) has norm at most eps, and for a linear measurement model the result is the linear least-squares estimate, reached within two iterations.","every measurement model, start, eps >= 0","loop with unbounded iteration count and arbitrary user model",f"{BLS}:BatchLeastSquares::UnweightedNonlinearLeastSquares",f"{BLS}:BatchLeastSquares::WeightedNonlinearLeastSquares")
p("Nonlinear solver terminates","The nonlinear solvers terminate for every measurement model and tolerance.","every model and eps","non-termination cannot be observed by a test",f"{BLS}:BatchLeastSquares::UnweightedNonlinearLeastSquares")
# ---- Kalman ----
p("Prediction preserves covariance","filterPredict returns Phi x and Phi P Phi' + Q; symmetric positive semidefinite P and Q give a symmetric positive semidefinite result.","every dimension, Phi, P, Q","unbounded dimension",f"{KF}:KalmanFilter::filterPredict")
p("Update keeps covariance positive semidefinite and never inflates it","filterUpdate maps symmetric PSD P and positive definite R to a symmetric PSD result that is <= P.","every dimension, P, H, R, z","matrix inequality for all directions",f"{KF}:KalmanFilter::filterUpdate")
p("Joseph form equals the short form","The updated covariance equals (I - K H) P and P - K S K'.","every dimension, PSD P, PD R","algebraic identity for all dimensions",f"{KF}:KalmanFilter::filterUpdate")
p("Kalman gain is optimal","For every other gain the resulting linear-update covariance is at least as large (in the positive semidefinite order, hence in trace and in every direction).","every dimension and every competing gain","optimality against all gains",f"{KF}:KalmanFilter::filterUpdate")
p("Update is the Bayesian/regularised least squares estimate","With invertible P and R the updated state is the unique minimiser of (x-xk)'P^-1(x-xk) + (z-Hx)'R^-1(z-Hx), and the inverse updated covariance is P^-1 + H'R^-1H.","every dimension and candidate x","optimality against all x",f"{KF}:KalmanFilter::filterUpdate")
p("Sequential equals batch","Processing two independent measurements one after the other, in either order, gives the same state and covariance as processing them stacked.","every dimension and pair of measurements","order independence over all inputs",f"{KF}:KalmanFilter::filterUpdate")
p("Covariance health over whole runs","Starting from a PSD covariance, any sequence of predictions and updates (PSD Q, PD R) keeps the covariance symmetric PSD, and no call fails.","every finite history of filter calls","unbounded histories",f"{KF}:KalmanFilter::filterPredict",f"{KF}:KalmanFilter::filterUpdate")
p("Filter calls check dimensions","Each of the four filter calls returns false exactly for inconsistent sizes, then leaves outputs unchanged, and no call can trigger a size mismatch or out-of-range access.","all sizes","unbounded sizes",f"{KF}")
p("In-place filter calls","Passing the input state and covariance objects as outputs gives the same result as separate output objects.","every aliasing of inputs with outputs","aliasing patterns",f"{KF}:KalmanFilter::filterPredict",f"{KF}:KalmanFilter::filterUpdate")
p("UKF prediction moments","filterUkfPredict returns the weighted mean and Q plus the weighted scatter; translation-equivariant when weights sum to one; symmetric for symmetric Q; PSD for non-negative weights and PSD Q.","every dimension, weights, sigma points","unbounded dimension",f"{KF}:KalmanFilter::filterUkfPredict")
p("UKF prediction covariance stays PSD","For weights that sum to one (possibly with a negative centre weight) and PSD Q the predicted covariance is PSD.","every weight vector summing to one","counterexamples need specific negative weights",f"{KF}:KalmanFilter::filterUkfPredict")
p("UKF update equals the Kalman update on linear models","If the sigma points reproduce state and covariance and the measurement is linear, filterUkfUpdate returns the same state and covariance as filterUpdate.","every dimension, linear model, sigma-point set matching the first two moments","equivalence of two algorithms in all dimensions",f"{KF}:KalmanFilter::filterUkfUpdate",f"{KF}:KalmanFilter::filterUpdate")
p("UKF update never inflates covariance","With a positive definite innovation covariance the UKF-updated covariance is symmetric and <= P.","every dimension","matrix inequality",f"{KF}:KalmanFilter::filterUkfUpdate")
# ---- added while the model grew ----
p("UT1-TAI from the EOP lookup","UT1-TAI implied by a lookup (UT1-UTC minus TAI-UTC) lies between the values of the two rows used, as UT1-TAI has no leap seconds.","every table and query time","only wrong on the day before a leap second",f"{ROT}:Rotations::getCurrentEop")
p("J2000 rotation follows the IAU models","On success computeRJ2k2Ecef returns polar motion x R3(GAST) x nutation x precession with the IAU 1976 precession angles and IAU 1980 obliquity at TT = UTC + (TAI-UTC) + 32.184 s, and GAST = GMST(UT1) + dpsi cos(obliquity).","every accepted date and EOP table","equality of matrices at every epoch, against independently written polynomials",f"{ROT}:Rotations::computeRJ2k2Ecef",f"{ROT}:Rotations::computePrecession",f"{ROT}:Rotations::computeNutation",f"{ROT}:Rotations::computeGreenwichHourAngle",f"{ROT}:Rotations::polarRotation")
p("Sidereal time is the IAU 1982 polynomial","The mean sidereal time agrees with the IAU 1982 GMST polynomial of UT1 modulo whole days to 1e-10 s at every instant, so it is continuous across midnight up to that amount.","every real UT1 instant","a bound over all real epochs",f"{ROT}:Rotations::computeGreenwichHourAngle")
p("Integrate is one Runge-Kutta step","One integrate call advances position and velocity by one classical RK4 step of the NED navigation equations, with the velocity increment spread over the step and rotated by the updated attitude and gravity at the previous position.","every finite state, increment and time step whose stages are regular","real-valued equality for all states; tests compare one vector",f"src/inertial/strapdown.cpp:Strapdown::integrate")
p("Attitude is kept relative to north-east-down","For a vehicle at rest that senses exactly the earth's rotation the attitude matrix does not change.","every attitude, latitude and step","needs exact real comparison over all attitudes and rates",f"src/inertial/strapdown.cpp:Strapdown::updateAttitude")
p("Initial attitude convention","After initialize RB2N_ is the body-to-NED matrix of the given roll, pitch and heading.","every attitude","all angles",f"src/inertial/strapdown.cpp:Strapdown::initialize")
p("Re-initialisation forgets the past","After initialize, every further call sequence behaves the same whatever happened to the object before.","every pair of prior states and every call sequence","quantifies over pairs of histories",f"src/inertial/strapdown.cpp:Strapdown::initialize",f"src/inertial/strapdown.cpp:Strapdown::integrate")
p("Coarse alignment yields a rotation exactly for consistent readings","The matrix returned by coarseAttitudeAlignment is a rotation if and only if |a| = |g|, |w| = |wE| and a.w = g wE sin(lat).","every finite pair of readings, every latitude away from the poles","an equivalence over R^6 x latitude",f"src/inertial/initialization.cpp:Initialization::coarseAttitudeAlignment")
p("Fine alignment never estimates the gyroscope biases","After a prediction followed by any sequence of predictions and azimuth/velocity updates the three gyroscope-bias estimates and all their covariances are exactly zero, whatever was measured.","every call sequence, every measurement, every initial estimate","unbounded call sequences",f"src/inertial/initialization.cpp:Initialization::fineAlignmentPredict",f"src/inertial/initialization.cpp:Initialization::fineAlignmentVelocityUpdate")
p("Whole runs of the filter are honest and optimal","In a linear world driven by white noise with the covariances the filter is told, from an initial guess that is right on average, every call succeeds along every realisation, the final covariance is the same for all realisations and equals the second moment of the final estimation error, and no estimator affine in all measurements has a smaller error second moment in any direction.","every probability space, every number of states, every finite sequence of motions and measurements of any sizes with time-varying F, Q, H, R, every competing estimator","a statement about expectations over unbounded histories and against all estimators",f"{KF}:KalmanFilter::filterPredict",f"{KF}:KalmanFilter::filterUpdate")
p("Covariance soundness does not rely on the matrix inverse","Whatever matrix inverse() returns, filterUpdate returns a symmetric positive semidefinite covariance (also along whole runs), and that covariance is exactly the second moment of the error of the returned state.","every dimension, every (even wrong) inverse, every covariance P and R, every H, z, every probability space","quantifies over all possible failures of the inversion",f"{KF}:KalmanFilter::filterUpdate")
p("Weighted least squares is the best unbiased estimator (Gauss-Markov)","With W = R^-1 and zero-mean noise of covariance R the estimate is right on average, its error covariance is (H'R^-1H)^-1, and no affine estimator that is right on average for every state does better in any direction.","every size, every full-column-rank H, every positive definite R, every probability space, every competing estimator","optimality against all estimators, in expectation",f"src/filter/BatchLeastSquares.cpp:BatchLeastSquares::WeightedLinearLeastSquares")
p("Recursive estimation equals batch estimation","Starting the filter from a weighted least-squares solution with its covariance and updating with further measurements gives exactly the weighted least-squares solution of all measurements together, and its covariance.","every size, every full-column-rank first batch, every second batch, positive definite noise covariances","equality of two different algorithms in all dimensions",f"src/filter/BatchLeastSquares.cpp:BatchLeastSquares::WeightedLinearLeastSquares",f"{KF}:KalmanFilter::filterUpdate")
p("The navigation equations are Newton's law","Along any motion whose latitude, longitude, altitude and NED velocity have the rates returned by strapdownDynamics, with gravity equal to gravitation minus the centripetal acceleration of the rotating Earth, the position in the inertial frame (lla2Ecef rotated with the Earth) has second derivative equal to specific force plus gravitation.","every such motion over any open time interval away from the poles and the antimeridian, every specific force and every gravitation field","a statement about second derivatives along all trajectories",f"src/util/NavUtils.cpp:NavUtils::strapdownDynamics",f"src/util/Rotations.cpp:Rotations::lla2Ecef",f"src/util/Rotations.cpp:Rotations::computeRNed2Ecef")
p("The attitude update is the exact flow of the attitude equation","For a body turning at a constant rate relative to the navigation frame the attitude after integrate is exactly the solution of the attitude differential equation at the end of the step, for steps of any length.","every attitude, every nonzero rate, every nonzero step, every solution of the differential equation","exactness of a differential equation's flow over all rates and step sizes",f"src/inertial/strapdown.cpp:Strapdown::updateAttitude",f"src/inertial/strapdown.cpp:Strapdown::integrate")
p("The integrator has order four","For constant specific force and gravity, one strapdownRk4 step of length dt differs from the exact solution of the navigation equations by O(dt^5).","every regular state, specific force, gravity and exact solution","asymptotic statement over all step sizes and all trajectories",f"src/util/NavUtils.cpp:NavUtils::strapdownRk4",f"src/util/NavUtils.cpp:NavUtils::strapdownDynamics")
p("Repeated integration converges with the fourth power of the step","Repeating strapdownRk4 with a constant step along an exact solution on [0,T], the error at every step is at most a constant times dt^4, for all sufficiently small steps.","every exact solution at regular positions on any compact time interval, every number of steps","global convergence over unboundedly many steps",f"src/util/NavUtils.cpp:NavUtils::strapdownRk4")
p("The complete navigation step is accurate to first order only","With the inputs integrate gives to strapdownRk4 (velocity increment rotated with the end attitude, gravity at the start position), a constant body rate w and a constant body specific force f, the step error divided by dt^2 tends to half of C(w x f) minus the rate of change of gravity, in the velocity components, and to zero in the position components. From rest, with a specific force not along the axis of rotation, the error is at least a positive multiple of dt^2 for all small steps, so the order is one and no better.","every motion with constant body rate and specific force from a regular state","a limit over all step sizes; it shows what the fourth-order integrator cannot repair",f"src/inertial/strapdown.cpp:Strapdown::integrate",f"src/util/NavUtils.cpp:NavUtils::strapdownRk4",f"src/util/Gravity.cpp:Gravity::gravityNed")
p("The complete navigator converges to the true motion","Repeating the navigation step (end attitude, gravity at the current position) along a motion with constant body rate and specific force on [0,T], the error at every step is at most a constant times the step length, for all sufficiently small steps.","every such motion at regular positions on any compact time interval, every number of steps","global convergence over unboundedly many steps",f"src/inertial/strapdown.cpp:Strapdown::integrate",f"src/util/NavUtils.cpp:NavUtils::strapdownRk4",f"src/util/Gravity.cpp:Gravity::gravityNed")
p("The Modified Julian Date survives rounding","In double precision, in every rounding mode: the MJD of midnight of a civil date is the exact whole number; the MJD computed from a timestamp through the date vector is within three microseconds of the exact one; and a later whole second gives a strictly larger MJD.","every valid date up to 10^9 years away; every timestamp up to 2242 not on a 31 December; every monotone rounding exact on 53-bit numbers","the constants 30.6001 and 365.25 are not representable, so this depends on rounding at every date",f"{ROT}:Rotations::convertDatevec2Mjd",f"{ROT}:Rotations::unixTimestampToDateVec")
p("More cautious settings never report less uncertainty","Two runs with the same models, the second with initial, process and measurement covariances at least as large, report covariances ordered the same way after every sequence of predictions and updates.","every finite sequence of calls, every dimension, every measured values","relational statement about pairs of unboundedly long runs",f"{KF}:KalmanFilter::filterPredict",f"{KF}:KalmanFilter::filterUpdate")
p("A filter with cautious settings is never overconfident","If the actual noises are uncorrelated with the past and have second moments at most what the filter is told, and the first guess (possibly biased) has an error second moment at most P0, then the actual error of the estimate has at every time a second moment of at most the reported covariance, whatever inverse() returns.","every probability space, every finite sequence of motions and measurements","statement about expectations over unboundedly long random runs",f"{KF}:KalmanFilter::filterPredict",f"{KF}:KalmanFilter::filterUpdate")
p("The innovations are white","Under correct noise settings the differences between measurement and predicted measurement have mean zero, exactly the covariance H P H' + R the update uses, and are uncorrelated between any two measurements of a run.","every probability space, every run, every pair of measurements in it","statement about expectations over unboundedly long random runs",f"{KF}:KalmanFilter::filterUpdate",f"{KF}:KalmanFilter::filterPredict")
p("Bounded drift of the attitude in double precision","After initialize and n calls of integrate in double precision, every call has returned true, every entry of the attitude matrix is within (122+770n) ulp (2^-52) of an exact rotation matrix, and its departure from orthogonality is at most 2.1 times that.","every n up to 5*10^11, every sequence of angle increments between 1e-160 and 4 rad, every time stamps; every rounding that keeps 53-bit numbers, every order of summation and every faithfully rounded library","error accumulation over unboundedly many steps; tests run a handful of steps with a tolerance",f"src/inertial/strapdown.cpp:Strapdown::integrate",f"src/inertial/strapdown.cpp:Strapdown::updateAttitude",f"src/inertial/strapdown.cpp:Strapdown::initialize")
p("Filter runs on finite data stay finite","With the partial-pivoting LU elimination behind Eigen's inverse(), every sequence of predictions and updates with positive semidefinite P0 and Q and positive definite R, on finite data, succeeds without any division by zero, overflow to infinity or NaN (rounding apart) and ends with the estimate and covariance of exact arithmetic.","every finite sequence of calls, every dimension, all data","division by a zero pivot could occur at any matrix; unbounded runs",f"{KF}:KalmanFilter::filterPredict",f"{KF}:KalmanFilter::filterUpdate")
p("An update that reports success has finite outputs","If filterUpdate returns true on finite arguments, the new estimate and covariance are finite.","every finite argument, every dimension","only singular innovation covariances break it",f"{KF}:KalmanFilter::filterUpdate")
p("Least squares by LDLT is the minimiser","With the pivoted LDLT elimination Eigen performs (including its cut-off for small pivots), linear least squares on finite data returns finite values, the unique minimiser of the (weighted) squared residual; for rank-deficient H a minimiser.","every size, every H of full column rank, every y, every symmetric positive definite weights","unbounded sizes; the cut-off acts only on extreme scales",f"{BLS}:BatchLeastSquares::UnweightedLinearLeastSquares",f"{BLS}:BatchLeastSquares::WeightedLinearLeastSquares")
p("Undetermined least-squares problems are refused","If the measurements do not determine the state (H does not have full column rank), the linear solvers return false.","every size, every H, y and weights, every solver","infinitely many rank-deficient matrices",f"{BLS}:BatchLeastSquares::UnweightedLinearLeastSquares",f"{BLS}:BatchLeastSquares::WeightedLinearLeastSquares")
p("What is observed becomes known, what is not stays unknown","Without process noise: if every initial deviation v leaves a noise-weighted trace of at least c|v|^2 in the measurements of a run, the final variance in direction u is at most |Phi' u|^2/c whatever was believed before; exact measurements then drive the error to zero like 1/c; N repetitions of a full-rank measurement give variance at most 1/(N c); a direction that leaves no trace keeps exactly the variance it would have without measurements; with white noise the actual mean-square error obeys the same bound.","every run of noise-free predictions and updates, every dimension, every initial covariance and values; every probability space","bounds in terms of an observability condition over unboundedly long runs",f"{KF}:KalmanFilter::filterPredict",f"{KF}:KalmanFilter::filterUpdate")
p("Coarse alignment degrades gracefully","With accelerometer error da and gyroscope error dw on a vehicle at rest, the returned matrix differs from the true body-to-NED rotation by exactly |da|/g in the down row, by at most |dw|/(wE cos lat) + tan(lat)|da|/g in the north row (attained when da = 0) and by at most |dw|/(wE cos lat) + |da|/(g cos lat) + |da||dw|/(g wE cos lat) in the east row.","every attitude, every latitude except the poles, every sensor errors","bound over a six-dimensional set of errors and all attitudes","src/inertial/initialization.cpp:Initialization::coarseAttitudeAlignment")
p("Frame matrices are rotations in double precision","Whatever the time stamp and the table, a matrix returned with success by the J2000 functions is a proper rotation up to 400/2^52 (< 1e-13) and one returned by the ECEF/NED functions up to 6/2^52: lengths are kept, the rows are orthonormal and the determinant is positive, rounding included.","every time stamp, table, latitude and longitude, every rounding mode","all doubles and all tables; an isolated check sees one rounding pattern",f"{ROT}:Rotations::computeRJ2k2Ecef",f"{ROT}:Rotations::computeREcef2J2k",f"{ROT}:Rotations::computeRNed2Ecef",f"{ROT}:Rotations::computeREcef2Ned")
p("J2000 matrices lose little to rounding","Between 1900 and 2100 each entry of the computed J2000-to-ECEF matrix (106 nutation terms, polynomials of large arguments, reductions modulo a turn) is within 3.2e-10 of the value in exact arithmetic, and the mapped position within 6e-10 of its length (4 mm on the ground).","every UTC instant from 1900 to 2100, every table entry in the usual ranges, every rounding mode","needs a bound over every instant of two centuries; no higher precision reference in the tests",f"{ROT}:Rotations::computeRJ2k2Ecef",f"{ROT}:Rotations::computeREcef2J2k",f"{ROT}:Rotations::computeNutation",f"{ROT}:Rotations::computeGreenwichHourAngle")
p("Time stamps to Earth orientation","From a time stamp in microseconds to the J2000-to-ECEF matrix (date vector, MJD, Earth orientation parameters, precession, nutation, sidereal angle, polar motion) in double precision, the matrix applied to any position is within 1.3e-9 of its length of the IAU orientation of the Earth at the instant of the time stamp.","every time stamp from 1970 to 2100 outside 31 December, every rounding mode with 53 bits, every rectangular table with values of the usual size, every position","the fraction of the second is lost without any error being reported; every test at a whole second agrees, and the error in between depends on a continuous time",f"{ROT}:Rotations::unixTimestampToDateVec",f"{ROT}:Rotations::computeRJ2k2Ecef",f"{ROT}:Rotations::getCurrentEop")
p("Forgetting of the initial estimate","If no covariance reported during a filter run exceeds b in any direction, every prediction adds process noise of at least q > 0 in every direction and no measurement noise is negative, then two runs with the same calls and initial covariance, started from estimates at most sqrt(c) standard deviations apart, have estimates whose squared distance after k predictions is at most c*b*(1-q/b)^k; with measurements that agree exactly with the motion of a true state, the estimate converges to that state geometrically. This holds whatever the matrix inverse returns.","every dimension, every pair of starting estimates, every sequence of predictions and updates satisfying the bounds","a statement about arbitrarily long runs of all models at once; a test sees one model over a finite number of steps",f"{KF}:KalmanFilter::filterPredict",f"{KF}:KalmanFilter::filterUpdate")
p("Change of units in the Kalman filter","Expressing the state in other units or axes (T, with F'T = TF, Q' = TQT^T, H'T = UH, R' = URU^T, measurements Uz with invertible U) gives a run whose estimate is T times the original one and whose covariance is T P T^T, after every number of calls.","Every T (also not invertible), every invertible U, every start and every sequence of calls.","Infinitely many changes of units, models and runs.",f"{KF}:KalmanFilter::filterPredict",f"{KF}:KalmanFilter::filterUpdate")
p("Northern and southern hemisphere are treated alike","Mirroring all inputs of a navigator run in the equator plane (latitude, north velocity, the corresponding body axis, pitch and heading increments) mirrors the whole result and changes nothing else, including which calls fail and which are undefined. A vehicle on the equator that is given nothing telling north from south stays exactly on the equator.","Every state of the object (also uninitialised), every sequence of initialize and integrate calls, every input; exact arithmetic with NaN and infinities, and every arithmetic whose rounding is symmetric, so double precision.","All runs of all lengths with all inputs; the equality is exact, bit for bit, not up to a tolerance.",f"{SD}:Strapdown::integrate",f"{SD}:Strapdown::initialize",f"{NU}:NavUtils::strapdownDynamics")
p("Origin of longitude and of time","Increasing every longitude given to the navigator by the same amount and every time stamp by the same amount increases the longitudes and time stamps it holds by these amounts and changes nothing else. For the time stamps this is exact in rounded arithmetic as well.","Every state (also uninitialised), every sequence of calls, every shift of longitude and time, every input including NaN and infinities.","All shifts and all runs; the outputs must agree exactly.",f"{SD}:Strapdown::integrate",f"{SD}:Strapdown::initialize",f"{NU}:NavUtils::strapdownRk4")
p("The navigator in double precision","Perform initialize and then n integrate calls (steps of 1 to 20 ms, specific force up to 50 m/s^2, angle increments between 1e-160 and 4 rad) in double precision and in exact arithmetic on the same numbers, the exact flight staying below 71.5 degrees of latitude, 19.99 km of altitude and 299 m/s. With T the elapsed seconds and B = exp(0.0027 T)(1.25e-8 n + 26000 T (122 + 770 n) 2^-52): while B <= 1 all calls succeed and altitude differs by at most B metres, latitude by 1.6e-7 B rad, longitude by 5e-7 B rad and velocity by 0.002 B m/s; over 100 s and 10000 calls that is less than 1 cm","all rounding modes, all initial states, all sequences of calls, all previous contents of the object","an accumulated rounding error can only be measured on particular trajectories, and no test has an exact reference to compare with",f"{SD}:Strapdown::integrate",f"{NU}:NavUtils::strapdownRk4",f"{NU}:NavUtils::strapdownDynamics")
p("No overflow in flight: the navigator on doubles with infinities and NaN","On doubles with rounding, overflow, infinities and NaN, the flights of C124 produce no overflow and no NaN in any operation: initialize and every integrate call succeed, and position and velocity are finite and obey the error bound of C124.","every rounding mode; every run meeting the limits of C124, of any length up to 5e11 calls","A test runs a handful of flights; it cannot exclude that some intermediate of some admissible flight overflows or becomes NaN.",f"{SD}:Strapdown::initialize",f"{SD}:Strapdown::integrate",f"{SD}:Strapdown::updateAttitude",f"{NU}:NavUtils::strapdownRk4")
p("Angle increments that underflow","A finite non-zero angle increment leaves a finite attitude finite, in double precision.","all finite states and all finite non-zero angle increments, default rounding mode","Tests use increments of ordinary size; the failure needs increments whose squares underflow.",f"{SD}:Strapdown::updateAttitude",f"{SD}:Strapdown::integrate")
p("Hand-over from coarse alignment to the navigator","For a vehicle at rest, feeding the matrix of coarseAttitudeAlignment through dcm2Euler into Strapdown::initialize makes the navigator start with the vehicle's true body-to-NED attitude.","all rotations away from the rejections of dcm2Euler, all latitudes but the poles, all gravity and Earth rates, all navigator states","The three functions are only tested one by one; whether their conventions and angle ranges fit together is a statement about all attitudes.",f"{INI}:Initialization::coarseAttitudeAlignment",f"{ATT}:Attitude::dcm2Euler",f"{SD}:Strapdown::initialize")
p("How sensor and initial errors spread","Two runs of the navigator, one with true and one with measured initial values and increments, stay within an explicit bound of each other that grows linearly with the accelerometer error, the initial errors and the gyroscope error and exponentially with a time constant of 370 s; attitude errors add up and are not amplified.","all runs of any length within flight limits, all bounded initial, accelerometer and gyroscope errors","Tests compare one run with stored numbers; they say nothing about how a run reacts to perturbations of its inputs.",f"{SD}:Strapdown::initialize",f"{SD}:Strapdown::integrate",f"{SD}:Strapdown::updateAttitude",f"{NU}:NavUtils::strapdownRk4")
p("Covariance health in double precision","On doubles with rounding, predictions and updates keep the covariance symmetric and nonnegative. (False exactly: rounding to nearest can give two different off-diagonal entries and a negative variance; true up to an explicit bound.)","all sizes, all runs of any length with finite gains, every IEEE rounding mode","A test with a tolerance does not notice a variance of minus 2^-104; the loss shows only for particular bit patterns.",f"{KF}:KalmanFilter::filterPredict",f"{KF}:KalmanFilter::filterUpdate")
p("The Kalman filter in double precision","A run in double precision with finite gains and modest magnitudes neither overflows nor makes a NaN, and its estimate and covariance differ from those of the exact linear observer with the computed gains by at most 2^-51 per rounding relative to the magnitudes involved; whatever the matrix inversion returns.","all state and measurement sizes, all runs of any length up to 10^15 roundings, all inversions, every IEEE rounding mode","The rounding error of every product in every rounding mode cannot be enumerated; tests use one mode, small matrices and tolerances.",f"{KF}:KalmanFilter::filterPredict",f"{KF}:KalmanFilter::filterUpdate")
p("The mounting of the inertial unit does not matter","Two navigators of the same vehicle, one with an inertial unit whose axes are turned by an arbitrary rotation, hold exactly the same position, velocity and time after any number of intervals, and attitudes that differ by exactly that rotation; also when a run leaves the finite numbers or hits undefined behaviour.","all rotations, all states, all sequences of finite increments with non-zero rotation","Relational between two runs of any length and over all rotations; tests use the identity mounting.",f"{SD}:Strapdown::integrate",f"{SD}:Strapdown::updateAttitude",f"{SD}:Strapdown::initialize")
p("Unscented and linear filter runs agree on linear models","A program that, before every call, picks sigma points reproducing the current estimate and covariance and maps them linearly gets from filterUkfPredict and filterUkfUpdate, after any number of calls, exactly what filterPredict and filterUpdate give; the usual sigma points qualify for every kappa > -n, every order and every square root of the covariance.","all sizes, all sequences of linear predictions and updates, all rules for choosing points, all weights (also negative)","Relational between two programs over unbounded runs; tests compare single calls for one rule.",f"{KF}:KalmanFilter::filterUkfPredict",f"{KF}:KalmanFilter::filterUkfUpdate",f"{KF}:KalmanFilter::filterPredict",f"{KF}:KalmanFilter::filterUpdate")
p("With constant models the covariance settles","With constant models, from zero covariance the reported covariance never decreases from cycle to cycle and stays below every uncertainty that some constant-gain estimator keeps. If moreover every prediction adds at least the variance q > 0 in every direction and that uncertainty is at most b, exactly one covariance is left unchanged by a cycle and every run converges to it at least like (1-q/b)^k, whatever the initial covariance and the measurements.","all sizes, all constant models, all initial covariances, all measurement sequences of any length","Limit statement about unboundedly long runs from all initial covariances; a test sees a few cycles of one system.",f"{KF}:KalmanFilter::filterPredict",f"{KF}:KalmanFilter::filterUpdate")
p("Geodetic and ECEF conversions in double precision","In double precision, in every rounding mode and with overflow modelled: an accepted call of lla2Ecef with altitude up to 1e7 m writes finite coordinates within 1e-7 m of the exact position; ecef2Lla, given doubles within 1e-7 m of a place with altitude in [-2e4, 1e7] m, at least 64 m from the axis and not next to the date line, finds finite coordinates within 1e-13 rad (latitude), 1e-13/cos(lat) rad (longitude) and 3e-6/cos(lat) m (altitude) of the place on top of the error of the formula itself; hence the same for the round trip.","all finite inputs in the stated ranges, all rounding modes","Cancellation in the eccentricity, the branch cut of atan2 and division by a small cosine matter at particular inputs; a test samples a few places.",f"{ROT}:Rotations::lla2Ecef",f"{ROT}:Rotations::ecef2Lla")
p("Compensator and navigator together","A program that compensates every raw accelerometer and gyroscope measurement and hands the results to the navigator does, with the sensors' true biases, misalignments and scale factors in the compensator, exactly what the navigator does on the true increments, outcome by outcome; with parameters that leave a relative error kappa and a bias beta per second, position, velocity and attitude stay within the spread of C128 for accelerometers wrong by 40 kappa + beta and gyroscopes wrong by omega kappa' + beta'.","all sensor errors with an invertible error model, all flights and navigator states (exact part); all low flights with steps of 1 to 20 ms (residual part)","Calibration residuals act through whole flights; a test compensates single vectors and never feeds the navigator.",f"{CMP}:Compensator::compensateMeasurement",f"{CMP}:Compensator::compensateMeasurement",f"{SD}:Strapdown::integrate")
p("Outputs that share memory with inputs","Every routine takes its inputs and outputs by reference. Called with any objects for them, also one object in two places, ecef2Lla, simpleGravity, strapdownDynamics and strapdownRk4 leave in memory exactly what the call on separate objects leaves, and so do lla2Ecef and the four batch estimators.","all memories, all choices of the objects passed (outputs of one call pairwise different), every arithmetic, linear solver and measurement model","The tests always pass separate objects; sharing is a property of the call, and the number of sharing patterns times inputs is unbounded.",f"{ROT}:Rotations::lla2Ecef",f"{ROT}:Rotations::ecef2Lla","src/util/Gravity.cpp:Gravity::simpleGravity",f"{NU}:NavUtils::strapdownRk4",f"{NU}:NavUtils::strapdownDynamics",f"{BLS}:UnweightedLinearLeastSquares",f"{BLS}:UnweightedNonlinearLeastSquares")
p("Quaternions and rotation matrices in double precision","In IEEE 754 double arithmetic, any rounding mode, every quaternion of nearly unit length becomes a matrix within 1e-14 of the exact rotation; every matrix within 1e-14 of a rotation becomes that rotation's unit quaternion, up to sign, within 1.6e-13; and the two conversions undo each other to 1.6e-13 and 3.1e-12. Nothing overflows and nothing becomes NaN.","all quaternions with squared length between 0.9 and 1.1, all matrices within 1e-14 of a rotation, every rounding mode","The conversions are exercised on a few literals with a tolerance; how rounding decides between the four formulas depends on every bit of the input.",f"{ATT}:Attitude::computeDcmFromQuaternion",f"{ATT}:Attitude::computeQuaternionFromDcm",f"{ATT}:Attitude::euler2Dcm")
p("Euler angles in double precision","In IEEE 754 double arithmetic, any rounding mode: for all finite angles the matrix is within 1.5e-14 of the exact one in every entry; every matrix that close to the exact one gives the angles within 5e-14 divided by the cosine of the pitch; angles converted to a matrix and back return within that bound. Nothing overflows and nothing becomes NaN.","all finite angles, all matrices within 1.5e-14 of the exact one, every rounding mode","The loss of accuracy near vertical pitch and the branch at due north depend on the last bits of the matrix.",f"{ATT}:Attitude::euler2Dcm",f"{ATT}:Attitude::dcm2Euler")
p("Rotation vectors in double precision","In IEEE 754 double arithmetic: a rotation vector of at most 4 rad with a component of at least 2^-537 rad is converted to a quaternion without overflow or NaN, the scalar part within 5e-15 and each vector component accurate relative to that component of the rotation vector; converting back returns the rotation vector within 1.4e-13 divided by the cosine of half the angle; a quaternion whose vector part is shorter than 9.99e-7 is converted to exactly zero.","all finite rotation vectors up to 4 rad (first conversion) or less than a half turn (both), every rounding mode","Underflow of the squares and a computed length just above one occur only for particular last bits of the input.",f"{ATT}:Attitude::computeQuaternionFromRotationVec",f"{ATT}:Attitude::computeRotationVecFromQuaternion")
p("Compensation in double precision","In IEEE 754 double arithmetic, in every rounding mode and summation order, compensation with scale factors up to s, misalignments up to one, biases and measurements up to X neither overflows nor gives NaN, and every component is within 2e-14 s X of the exact error model; a NaN in one component of the measurement makes all three components of the result NaN.","all parameters and measurements within the bounds; NaN: all parameters","rounding error and NaN propagation over a continuous domain and all rounding modes",f"{CMP}:Compensator::compensateMeasurement",f"{CMP}:Compensator::compensateMeasurement")
p("Coarse alignment in double precision","In IEEE 754 double arithmetic with any faithful sin and cos, away from the poles and for readings of at most twice the true length, coarseAttitudeAlignment returns finite entries within 1.6e-13/|cos lat| of its exact-arithmetic result, however differently gravity and Earth rate are scaled; from readings with errors the result is within the sensor-error bounds plus 3.2e-13/|cos lat| per row of the true rotation.","all latitudes with |cos lat| >= 1e-10, all readings up to twice gravity and twice the Earth rate, all true rotations","the 3x3 matrix to invert has entries between 1e-9 and 10, so only an analysis for all inputs shows that nothing cancels",f"{INI}:Initialization::coarseAttitudeAlignment")
p("Scalar Kalman update in double precision","In IEEE 754 double arithmetic, with Eigen's own inverse, a Kalman update by one measurement whose innovation variance is not the result of cancellation succeeds, overflows nowhere, and its state and covariance are those of the exact update to within a stated multiple of the unit roundoff relative to the magnitudes; the azimuth update of fine alignment is such an update and is accurate to 1e-12 G X in the state and 4e-12 G^2 (p + r) in the covariance (gains up to G).","every dimension, state, covariance, measurement and rounding mode","rounding error over unbounded dimensions and all rounding modes",f"{KF}:KalmanFilter::filterUpdate",f"{INI}:Initialization::fineAlignmentAzimuthUpdate")
p("Earth orientation lookup in double precision","In IEEE 754 double arithmetic, at every double time of at least four days: a lookup of a tabulated day returns finite numbers, UT1-UTC and length of day exactly between the two tabulated values (exactly the tabulated ones at midnight), all values within a few units in the last place; where a column of a table of consecutive days never falls (rises) the interpolated value never falls (rises) from any time to any later one, across midnight too; a NaN or infinite time is rejected.","all tables of doubles, all double times, every rounding mode","a + (b - a) f is not exact and can overshoot b in floating point; only the spacing of the times rules it out",f"{ROT}:Rotations::getCurrentEop")
p("Unscented filter in double precision","In IEEE 754 double arithmetic filterUkfPredict and filterUkfUpdate succeed with finite numbers and return the exact weighted mean and scatter (the exact update with the gain that was computed) up to one part in 2^51 per rounding on the longest path, relative to the magnitudes involved; with nonnegative weights no predicted variance falls below that of the process noise.","every dimension up to 10^9, every rounding mode, all weights, sigma points and noises up to 10^15, 10^20 and 10^40","error bounds that grow with the dimension; a test compares a few sizes with a tolerance",f"{KF}:KalmanFilter::filterUkfPredict",f"{KF}:KalmanFilter::filterUkfUpdate")
p("Unscented covariances stay sound in double precision","In IEEE 754 double arithmetic, with nonnegative weights and sound noise matrices, the covariance returned by filterUkfPredict is symmetric and nonnegative, and that of filterUkfUpdate is symmetric and lies between zero and the one before.","every dimension up to 10^9, every rounding mode","needs inputs where two roundings go different ways",f"{KF}:KalmanFilter::filterUkfPredict",f"{KF}:KalmanFilter::filterUkfUpdate")
p("Error dynamics in double precision","In IEEE 754 double arithmetic the three error-dynamics functions return finite matrices. In the inertial frame no operation rounds. In the earth frame G and all of F are exact, except for the effect of position on velocity, which is within 2e-15 (3 w^2 + g). In the north-east-down frame each entry of F is within a stated bound of the exact one (1e-18 on the attitude rows, 8e-18 on the horizontal accelerations, 2e-10 on the vertical one), and each row of G is within 6e-14 of its scale.","inertial: all finite inputs; earth: earth rotation up to 1e90 and gradient up to 1e190; NED: all latitudes up to 71.6 degrees, altitudes within 20 km, rates up to 1e-3 rad/s and 400 m/s, specific forces up to 100 m/s^2; every rounding mode and order of summation","bounds over a continuum of flight states, through an inverse computed by cofactors",f"{PVA}:PvaErrorDynamics::inertialErrorDynamics",f"{PVA}:PvaErrorDynamics::ecefErrorDynamics",f"{PVA}:PvaErrorDynamics::nedErrorDynamics")
p("Matrix inverse in double precision","In IEEE 754 double arithmetic Eigen's LU solver and inverse(), as called by the Kalman update, are backward stable: whenever the returned numbers are finite they satisfy A x = b (A Y = I) up to 16 2^n 2^-52 times the size of the terms, whatever the condition number. A finite result that is not too large proves that A is invertible, so a singular innovation covariance is never inverted silently into moderate numbers. On a matrix that is not too close to singular the result is always finite, no pivot vanishes, and its distance from the exact inverse is bounded.","all n x n matrices and right-hand sides of doubles of moderate scale (n <= 100 for the residual, n <= 30 for finiteness and accuracy); every rounding mode and order of summation","any matrix of any size; the growth of rounding errors along an elimination of data-dependent pivots",f"{KF}:KalmanFilter::filterUpdate",f"{KF}:KalmanFilter::filterUkfUpdate")
p("Kalman gain and update in double precision with Eigen's inverse","In IEEE 754 double arithmetic, with the inverse computed by Eigen, the gain P H^T (H P H^T + R)^-1 is finite and within a stated bound of the exact one, in terms of the ratio of the innovation covariance to the noise floor. The whole update succeeds with finite numbers; the new estimate differs from the exact Kalman update by rounding plus the error of the gain times the innovation, and the new covariance from (I - G H) P by rounding plus a term of second order in the error of the gain.","all numbers of states up to 1000 and measurements up to 30, all covariances P and noise matrices R >= rho I of moderate scale, all H, estimates and measurements up to 1e30; every rounding mode and order of summation","a continuum of filter states in every dimension, through an elimination with data-dependent pivots",f"{KF}:KalmanFilter::filterUpdate")
p("LDLT solution in double precision","In IEEE 754 double arithmetic Eigen's LDLT solver, as called by the batch least-squares estimators, returns finite numbers on every well-conditioned symmetric positive definite system: no pivot vanishes or changes sign, the returned vector satisfies the system to within 2(n^3+22n^2+18n) 2^-52 times the largest diagonal entry times the solution, and it lies within a stated multiple of the condition number of the exact solution. In any arithmetic the entries above the diagonal are never read.","all symmetric positive definite systems of up to 100 unknowns of moderate scale with condition number below the stated limit; every rounding mode and order of summation","a continuum of matrices in every dimension, through an elimination with data-dependent pivots",f"{BLS}:BatchLeastSquares::UnweightedLinearLeastSquares",f"{BLS}:BatchLeastSquares::WeightedLinearLeastSquares")
p("Batch least squares in double precision","In IEEE 754 double arithmetic, with the normal equations formed by Eigen's products and solved by its LDLT, the linear fits succeed on every well-posed batch. The estimate is finite and within a stated bound of the unique minimiser of the (weighted) cost; the cost of the unweighted estimate exceeds the minimum only by the square of that bound; the reported J is half the unweighted cost of the estimate up to rounding.","all batches of up to 10^6 measurements and 100 unknowns with H^T H (H^T W H) bounded below and entries of moderate scale; every rounding mode and order of summation","a continuum of batches of every size; the normal equations square the condition number, so an accidental loss of accuracy shows only on ill-conditioned data",f"{BLS}:BatchLeastSquares::UnweightedLinearLeastSquares",f"{BLS}:BatchLeastSquares::WeightedLinearLeastSquares",f"{BLS}:BatchLeastSquares::ComputeCostFunction")
p("Convergence of the nonlinear solvers","For a measurement function with Lipschitz continuous Jacobian of full column rank, the nonlinear solvers started close enough to a stationary point of the weighted cost converge to it: each round reduces the distance s to at most (l/2c) s^2 + (l e/c^2) s, quadratically when the data are consistent (e = 0). They finish within an explicit number of rounds, report success, and the result lies within q/(1-q) eps of the stationary point, which is a strict minimum of the weighted cost.","all smooth measurement functions of any number of states and measurements, weights, data, starting points within the radius of contraction, tolerances eps > 0 below the initial gap","a continuum of functions and starting points; the number of rounds is unbounded as eps tends to 0",f"{BLS}:BatchLeastSquares::UnweightedNonlinearLeastSquares",f"{BLS}:BatchLeastSquares::WeightedNonlinearLeastSquares")
p("Reported nonlinear cost","When a nonlinear solve succeeds, the reported J is half the sum of squared residuals of the returned estimate.","all measurement models, data and starting points","a wrong value is plausible; the estimate itself is right, so that only a comparison with the true cost for nonlinear functions shows it",f"{BLS}:BatchLeastSquares::UnweightedNonlinearLeastSquares",f"{BLS}:BatchLeastSquares::ComputeCostFunction")
p("Nonlinear least squares in double precision","In IEEE 754 double arithmetic, with Eigen's LDLT and with a measurement function and Jacobian evaluated to within a and b, each round of the unweighted nonlinear solver maps the distance s from the stationary point to at most q s + phi with an explicit floor phi. Started in the contraction radius the solver finishes for every tolerance above the noise of the computation, within an explicit number of rounds, reports success with finite estimate and cost, and the estimate is within q/(1-q) eps plus noise of the stationary point.","all smooth measurement functions of up to 100 states and 10^6 measurements of moderate scale, all starting points in the radius; every rounding mode and order of summation","a continuum of functions and starting points; whether a loop controlled by a rounded norm ends",f"{BLS}:BatchLeastSquares::UnweightedNonlinearLeastSquares")
p("Long-run numerical stability of the Kalman filter","Over runs of filterUpdate and filterPredict of any length, in IEEE 754 double arithmetic with Eigen's inverse and without any re-symmetrisation, the computed estimate and covariance stay finite and within bounds of the exact Kalman filter that do not depend on the number of cycles: every computed variance is within a fixed relative error of the exact one, the asymmetry of the computed covariance does not accumulate, and the estimate is within a fixed distance.","all lists of models F, Q, H, R (time-varying, sizes up to 1000 states and 30 measurements) with Q and R bounded below, and all measurements, for which the exact variances stay below a bound and the explicit size conditions hold; every rounding mode and order of summation; for a directly measured random walk all of this is discharged","arbitrarily long runs; accumulation of rounding over millions of cycles",f"{KF}:KalmanFilter::filterUpdate",f"{KF}:KalmanFilter::filterPredict")
p("Fine alignment is honest about its accuracy","Throughout a fine alignment of a vehicle at rest the reported covariance is at least the second moment of the actual error of the estimate, and later measurements are still weighed against a realistic uncertainty.","all sequences of fineAlignmentPredict, fineAlignmentAzimuthUpdate and fineAlignmentVelocityUpdate, all initial covariances and random errors, at all latitudes up to 84 degrees","whole sequences of calls and all error distributions",f"{INI}:Initialization::fineAlignmentPredict",f"{INI}:Initialization::fineAlignmentAzimuthUpdate",f"{INI}:Initialization::fineAlignmentVelocityUpdate")
p("The error models describe the errors of a navigator","A navigator that integrates the equations of motion (attitude, velocity, position in a uniformly rotating or inertial frame) with errors u in rate, specific force and gravity and with wrong initial values is off by the solution x of x' = F x + G u, with F and G as returned by ecefErrorDynamics (inertialErrorDynamics) along the true motion, up to an explicit constant times the square of the size of the disturbances.","all motions with bounded rates and forces on [0,T], all disturbances of size s <= 1 that vary with time, all gravity fields with a Lipschitz gradient","a continuum of motions; the relation between a matrix and the solutions of a nonlinear differential equation",f"{PVA}:PvaErrorDynamics::ecefErrorDynamics",f"{PVA}:PvaErrorDynamics::inertialErrorDynamics")
p("From the time stamp to the orientation of the Earth with overflow","In double precision, including overflow and NaN, the two matrices computed from a time stamp consist of finite numbers whatever the output held before, are rotations up to 5.2e-14 and transposes of each other, and take every position to within 1.3e-9 of its length (plus 7.3e-11 per microsecond since the last whole second) of where the IAU orientation takes it. A day that is not in the table, or no table, is refused and nothing is written.","all time stamps from 1970 to 2099 except on 31 December, all tables with values of the usual size (any lod), all rounding modes","every microsecond of 130 years, every table and every rounding mode; an overflow in one of the 106-term series or a NaN in the output shows up only for particular inputs",f"{ROT}:Rotations::computeRJ2k2Ecef",f"{ROT}:Rotations::computeREcef2J2k",f"{ROT}:Rotations::unixTimestampToDateVec",f"{ROT}:Rotations::convertDatevec2Mjd",f"{ROT}:Rotations::getCurrentEop")
p("Coordinates and units in least squares","Expressing the states in other coordinates x = T z + c and multiplying the measurements by an invertible matrix (with the weights changed accordingly) yields the same estimate in the new coordinates, and the same cost when the matrix is orthogonal; for the nonlinear solvers, with T a rotation, reflection or common change of unit and the tolerance in the new unit, both solves take the same rounds, pass the same points and end (or do not end) alike.","all full-rank problems of all sizes, all invertible T and U, all origins, all nonlinear models with full-rank Jacobians, all starts and tolerances, any number of rounds","a relation between pairs of runs for all transformations; a test compares a few hand-made pairs",f"{BLS}:BatchLeastSquares::UnweightedLinearLeastSquares",f"{BLS}:BatchLeastSquares::WeightedLinearLeastSquares",f"{BLS}:BatchLeastSquares::UnweightedNonlinearLeastSquares",f"{BLS}:BatchLeastSquares::WeightedNonlinearLeastSquares")
p("Coordinates, units and order of points in the unscented filter","Whole runs of the unscented filter with nonlinear models give the same estimate and covariance in other coordinates z = T x + c, each measurement in units of its own, when the sigma points are chosen accordingly; and the order in which sigma points and weights are listed does not matter.","all runs of any length, all nonlinear models, all invertible T and measurement transformations, all rules for points with nonnegative weights, all permutations","a relation between pairs of whole runs for all transformations and models",f"{KF}:KalmanFilter::filterUkfPredict",f"{KF}:KalmanFilter::filterUkfUpdate")
p("Fine-alignment predictions and velocity updates are accurate in double precision",
  "In double precision, in every rounding mode, order of summation and with any faithful sin, cos and tan: fineAlignmentPredict returns true and finite numbers; with coefficients of its matrix up to f, states up to X and covariance entries up to p, the states are the matrix times the states to within 5e-14 f X and the covariance Phi P Phi^T to within 1e-12 f^2 p; the gyroscope biases and all their covariances become exactly zero. fineAlignmentVelocityUpdate with Eigen's inverse returns true and finite numbers; if p is at most c <= 1000 times sigma^2 dt, then for a noise variance within 5 parts in 1e16 of sigma^2 dt its states are those of the exact update to within 1e-7 c^2 X and its covariance to within 2e-7 c^2 (p + sigma^2 dt).",
  "for all latitudes off the poles, rates, gravities, radii, states, covariances, velocities, noise levels in the stated ranges, all rounding modes and summation orders",
  "no finite set of runs covers all latitudes, states and covariances, and a run on one machine says nothing about other rounding modes, summation orders or library functions",
  f"{INI}:Initialization::fineAlignmentPredict", f"{INI}:Initialization::fineAlignmentVelocityUpdate", f"{KF}:KalmanFilter::filterUpdate")
p("Unscented update in double precision with Eigen's inverse",
  "In IEEE 754 double arithmetic, with the inverse computed by Eigen, the gain of filterUkfUpdate is finite and within a stated bound of the exact gain T S^-1, in terms of the ratio of the innovation covariance S to its smallest value. The whole update succeeds with finite numbers; the new state differs from that of the exact unscented update by rounding plus the error of the gain times the innovation, and the new covariance by rounding plus a term of first order in the error of the gain. With nonnegative weights the noise matrix alone bounds the smallest value of S from below.",
  "all numbers of states up to 1000 and measurements up to 30, all sigma points, weights (also negative ones, as long as S stays bounded below), noise matrices, states and measurements of moderate scale; every rounding mode and order of summation",
  "The inputs, rounding modes and summation orders are unbounded sets; a test compares one run with one reference value.",
  f"{KF}:KalmanFilter::filterUkfUpdate")
p("Weighted nonlinear least squares in double precision",
  "In IEEE 754 double arithmetic, with Eigen's LDLT solver and the user's measurement function and Jacobian evaluated with small errors, WeightedNonlinearLeastSquares started close enough to a stationary point of the weighted cost contracts towards it in every round up to a stated rounding floor. For every tolerance above that floor it finishes after a stated number of rounds, reports success with finite numbers, and its result is within q/(1-q) times the tolerance, plus the floor, of the stationary point, where q is the contraction factor in the metric of the weights.",
  "all smooth measurement functions, positive definite weight matrices (also with correlations), measurements and starting points of moderate scale; up to 100 states and 10^6 measurements; every rounding mode and order of summation",
  "The inputs, rounding modes and summation orders are unbounded sets; a test observes one run.",
  f"{BLS}:BatchLeastSquares::WeightedNonlinearLeastSquares")
p("Shared memory in gravity, rotations, alignment and error dynamics",
  "Called with any objects, also with an input that is part of an output, gravityNed, computeREcef2Ned, computeRNed2Ecef, nutationAngles, getCurrentEop, computeQuaternionFromRotationVec, the three fine alignment calls and the three error dynamics leave in memory exactly what the call on separate objects leaves: angles and heights may be coefficients of the result, a fine alignment may update the state and covariance in place with scalars taken from them, and the date may be overwritten. The error dynamics need two different matrices: with one object for F and G the inertial dynamics report success and leave a matrix that is neither.",
  "all memories, all choices of the objects passed (outputs of one call pairwise different), every arithmetic, linear solver and EOP table",
  "The tests always pass separate objects; the number of sharing patterns times inputs is unbounded.",
  f"{GR}:Gravity::gravityNed",f"{ROT}:Rotations::computeREcef2Ned",f"{ROT}:Rotations::nutationAngles",f"{ROT}:Rotations::getCurrentEop",f"{INI}:Initialization::fineAlignmentAzimuthUpdate",f"{PVA}:PvaErrorDynamics::inertialErrorDynamics")
p("Earth orientation after any history of use",
  "After any sequence of loads and rotations, in any order and with any failures among them, a Rotations object is what its last successful load alone would have made of a new object: every later rotation or query is answered as by that object, nothing of earlier tables remains, failed loads and rotations change nothing. The flag is set exactly if some load has succeeded; before that every query and every rotation reports failure and leaves its output alone.",
  "all finite histories of calls, all files, every numeral reader, every arithmetic, all time stamps",
  "A test runs one load and one rotation; the claim is an invariant over unboundedly long call sequences.",
  f"{ROT}:Rotations::getEops",f"{ROT}:Rotations::getCurrentEop",f"{ROT}:Rotations::computeRJ2k2Ecef",f"{ROT}:Rotations::computeREcef2J2k")
p("A wrong altitude runs away",
  "Give the navigator the readings of a vehicle at rest on the equator at altitude h0 and start it at the right place, at rest, but delta > 0 too high. Along the motion these readings describe the altitude error is at least delta cosh(t / 580 s) as long as that motion is below 20 km, and the computed altitude error is at least this less a multiple of the step length: the error doubles within 13 minutes and has grown more than 240-fold after an hour. No choice of step size or sensor quality avoids it; an altitude aid is needed.",
  "every longitude, altitude h0 >= 0 and error delta > 0, every attitude that keeps the vehicle upright, all sufficiently small steps, any number of steps",
  "A lower bound on the growth over arbitrarily long runs, for all initial errors; a test sees one short run and no instability.",
  f"{SD}:Strapdown::integrate",f"{NU}:NavUtils::strapdownRk4",f"{NU}:NavUtils::strapdownDynamics",f"{GR}:Gravity::gravityNed")
p("Bounded measurements give bounded estimates",
  "Run the Kalman filter with models that may change from cycle to cycle, with process noise at least q and measurement noise at least rho in every direction, for each of which some gain keeps an uncertainty M of at most b. If no measurement exceeds Z then, however long the run, the covariance stays below M and no entry of the estimate exceeds Z b sqrt(m / (rho q)), even when the tracked state itself can drift without limit. Disturbing every measurement by at most Z changes no covariance and moves the estimates by no more than that. In double precision, with Eigen's inverse and in any rounding mode, the computed run stays within the run-length independent distances of C154 from the exact one, and this now follows from conditions on the models alone.",
  "all numbers of states and measurements, all models within the bounds, all measurement sequences and run lengths, all rounding modes",
  "A bound that does not depend on the length of the run, uniform over all disturbances; tests run finitely many cycles on one sequence.",
  f"{KF}:KalmanFilter::filterUpdate",f"{KF}:KalmanFilter::filterPredict")
p("A vehicle at rest, measured without error, stays at rest",
  "Initialise the navigator exactly, with any attitude R0, for a vehicle at rest on the Earth, and give it perfect readings: the gyroscopes read the rotation of the Earth, the accelerometers read gravity. Its position and velocity should not change.",
  "every longitude, altitude from 0 to 20 km, attitude and sufficiently small step (the refutation is for the equator)",
  "A statement about ten minutes of steps in the limit of small steps; tests of the repository integrate one step.",
  f"{SD}:Strapdown::integrate",f"{SD}:Strapdown::updateAttitude",f"{NU}:NavUtils::strapdownRk4",f"{GR}:Gravity::gravityNed")
p("The computed gravity is a conservative field to within two percent of its variation with latitude",
  "At every altitude from 0 to 20 km gravityNed's down component grows strictly from the equator to the pole. The north component is the one a potential would require: the derivative with respect to altitude of (north component times distance per radian of latitude) equals minus the derivative of the down component with respect to latitude to within two percent, at every latitude. Consequently the work done by the computed gravity around any loop north along a meridian, up, south and down, between 0 and 20 km, is at most 1.1 mJ per kilogram and metre of altitude difference, scaled by the difference of the squared sines of the latitudes.",
  "All geodetic latitudes (all pairs of northern latitudes for the loop), all altitudes from 0 to 20 km (all pairs for the loop), exact reals.",
  "A wrong sign or size of the tiny north component (at most 0.16 mm/s^2) is invisible in any single-point check of the gravity vector; it shows only as curl, which is a statement about derivatives at every point.",
  f"{GR}:Gravity::gravityNed")
p("Energy balance of the navigation equations",
  "The Coriolis and transport terms of strapdownDynamics do no work, for any state and any arguments. Along every solution of the equations it evaluates, with gravity from gravityNed and between 0 and 20 km, the energy (half the squared velocity plus the work of lifting against the computed gravity) grows at the rate at which the specific force does work, to within 2.1 percent of the power of the north component of gravity; over a whole flight the energy gained is the work done to within 3.4e-6 V T (V bounds the velocity north, T is the time).",
  "All states and arguments (first part); all solutions of any length, all specific forces varying in time, altitudes from 0 to 20 km, exact reals.",
  "A conservation law relates all terms of the dynamics over whole trajectories; a single wrong sign in a Coriolis or transport term changes one step by less than a test tolerance but creates energy for ever.",
  f"{NU}:NavUtils::strapdownDynamics",f"{GR}:Gravity::gravityNed")
p("One rotation rate of the Earth in sidereal time and in the navigation equations",
  "The Earth-rotation matrix of computeGreenwichHourAngle (nutation held fixed) at any two instants differs by a rotation about the pole through wE times the elapsed time, wE being the constant of the navigation equations and of gravity, to within 9e-12 rad per second of elapsed time plus 2e-14 rad.",
  "All pairs of instants (UT1) from 1900 to 2100, all times for the nutation, exact reals.",
  "The two constants live in different files, in different units (seconds of sidereal time per century against radians per second), and no test compares them; the statement is about all pairs of instants, across all midnights, where the code's formula changes pieces.",
  f"{ROT}:Rotations::computeGreenwichHourAngle",f"{NU}:NavUtils::strapdownDynamics")
p("Level flight along a parallel is tracked exactly",
  "A vehicle flying east or west with constant speed at constant latitude and altitude, turning about its own axes in any way and measured without error, is tracked without error: after every integrate call the position is the starting one advanced along the parallel by speed times elapsed time over the radius of the parallel, and velocity and attitude (turned by the increments) are the true ones.",
  "All latitudes off the poles, longitudes, altitudes above the ellipsoid, speeds of either sign, attitudes, sequences of non-zero rotation increments, sequences of differing time stamps (forwards or backwards, any lengths), numbers of calls; NaN and infinities modelled.",
  "The claim is exact equality over unboundedly many calls with arbitrary intervals and rotations; a simulated flight compares within a tolerance, one trajectory at one rate.",
  f"{SD}:Strapdown::integrate",f"{NU}:NavUtils::strapdownRk4",f"{NU}:NavUtils::strapdownDynamics",f"{GR}:Gravity::gravityNed")
p("The navigator's position can be converted to Earth-fixed coordinates",
  "Whenever the navigator was initialised at a position that lla2Ecef, computeREcef2Ned and computeRNed2Ecef accept, and its calls report success, those functions accept the position it holds. The code violates this at the 180th meridian: integrate never reduces the longitude, the conversions refuse longitudes beyond pi.",
  "All latitudes off the poles, altitudes, eastward speeds, attitudes, intervals; whole eastbound flights of any length; NaN and infinities modelled.",
  "The failure needs a flight across the date line through two modules that the tests exercise separately, and the claim is about every such flight.",
  f"{SD}:Strapdown::integrate",f"{ROT}:Rotations::lla2Ecef",f"{ROT}:Rotations::computeREcef2Ned",f"{ROT}:Rotations::computeRNed2Ecef")
p("The two gravity models agree",
  "At every point up to 20 km above the ellipsoid the attraction of simpleGravity, evaluated at the point given by lla2Ecef and turned into the axes given by computeREcef2Ned, exceeds gravityNed by 0.016 to 0.034 m/s^2 along the vertical (less than half a percent, of the size of the centrifugal acceleration that simpleGravity leaves out), differs from it by at most 0.034 m/s^2 northwards and not at all eastwards.",
  "All latitudes in [-pi/2, pi/2], longitudes in [-pi, pi], altitudes from 0 to 20 km, all previous contents of the outputs; exact reals.",
  "Two independently written models in different frames, joined by two conversions of a third module; the bound is over a three-dimensional continuum and covers sign and axis mistakes in any of the four functions.",
  f"{GR}:Gravity::simpleGravity",f"{GR}:Gravity::gravityNed",f"{ROT}:Rotations::lla2Ecef",f"{ROT}:Rotations::computeREcef2Ned")
p("Attitude under changing rates is second order and has no coning compensation",
  "Let the body turn at a rate at most M that changes by at most L per second and let every integrate call receive the exact integral of the rate since the last call. Then a call after the time h adds at most 2 L M h^3 to the error of the attitude, so that with calls at most d apart every entry of the attitude matrix stays within 2 L M d^2 T of the truth after the time T. The order cannot be improved: for a coning rate every single call over a time h of up to 0.1 s leaves an error of at least h^3/24, because the update uses the increment alone, without coning compensation; and these errors accumulate, at every call rate, until an entry of the attitude is wrong by one half.",
  "All differentiable attitude motions with bounded, Lipschitz rates; all sequences of call times; any number of calls; any velocity increments and positions (infinities and NaN included); non-zero angle increments.",
  "The truth is the solution of a differential equation with an arbitrary rate function; a simulation tests one motion and compares with another integrator.",
  f"{SD}:Strapdown::integrate",f"{SD}:Strapdown::updateAttitude")
p("The sign of a zero matters only on the date line",
  "Geodetic-to-ECEF conversion, the local frames, the J2000-to-ECEF rotation, both gravity models, all attitude conversions, the sensor compensation, the prediction of the Kalman filter, coarse alignment where it is defined, and the whole navigator along any history of calls in which the longitude stays finite, compute the same values whatever the signs of the zeros among their inputs. ECEF-to-geodetic conversion is the exception, and exactly so: on the half-plane of the date line (y zero, x negative or a negative zero) the longitude is pi or -pi depending on the sign of y, and where the latitude is pi, deep inside the earth, it is -pi if z is a negative zero; the height never depends on a sign.",
  "All inputs with every combination of signs of zeros, infinities and NaN included (finite positions for ECEF-to-geodetic conversion); every history of navigator calls.",
  "Signs of zeros arise from cancellations and products along every path through the arithmetic; tests compare with ==, which does not see them, and the places where they become visible (division by zero, atan2) are measure zero.",
  f"{ROT}:Rotations::ecef2Lla",f"{ROT}:Rotations::lla2Ecef",f"{SD}:Strapdown::integrate",f"{ATT}:Attitude::dcm2Euler",f"{GR}:Gravity::gravityNed")
p("The attitude depends on the gyroscopes alone",
  "After initialisation the attitude is a function of the initial Euler angles and the gyroscope samples, to the last bit: two navigators initialised with the same angles and fed the same gyroscope samples report the same attitude, whatever their positions, velocities, accelerometer samples and time stamps, and whatever state the objects were in before. In particular no transport rate, earth rate or position feeds back into it.",
  "Every arithmetic, all pairs of object states, initial positions, velocities and times, all histories of further calls of any length that agree in their angles and gyroscope samples.",
  "A claim about pairs of runs of any length that differ in everything else.",
  f"{SD}:Strapdown::integrate",f"{SD}:Strapdown::updateAttitude",f"{SD}:Strapdown::initialize")
p("A sample that is not newer than the state is refused",
  "Strapdown::integrate refuses a sample whose time of validity is not later than that of the current state: it reports failure and leaves the state as it was.",
  "Every arithmetic, all initialised states, samples and time stamps.",
  "Tests feed increasing stamps; the claim is about all the others.",
  f"{SD}:Strapdown::integrate")
p("A sample that is not finite is never forgotten",
  "integrate does not look at the values it is given. One gyroscope component that is NaN or infinite turns attitude, position and velocity into NaN; one accelerometer component that is NaN or infinite makes all three velocities non-finite; each time the call reports success. Through whatever samples follow, every position or velocity component that is not finite stays so, and a row of the attitude matrix with one non-finite entry loses all its entries, for good: only initialize brings the navigator back.",
  "All states, finite or not, all samples including NaN and infinities, all further sequences of samples of any length, with time differences in the range of int64.",
  "Absence of recovery is a statement about every continuation; tests feed finite samples.",
  f"{SD}:Strapdown::integrate",f"{SD}:Strapdown::updateAttitude",f"{NU}:NavUtils::strapdownRk4")
p("Predictions merge and simultaneous measurements commute",
  "Any number of consecutive predictions has the effect of a single one over the whole interval, with the product of the transition matrices and the accumulated noise, whatever calls follow. Handing over a block of measurements in any other order, anywhere in a run, leaves every later estimate and covariance unchanged.",
  "All dimensions, all numbers of intervals, all blocks of measurements of any sizes and all their permutations, all runs before and after, singular covariances included.",
  "A relation between pairs of runs of any length; n! orders of n measurements.",
  f"{KF}:KalmanFilter::filterPredict",f"{KF}:KalmanFilter::filterUpdate")
p("The navigator works at the poles",
  "The acceleration that strapdownDynamics computes differs from specific force plus gravity by an amount that is bounded for bounded velocity, at every latitude, and integrate keeps a finite state finite, the poles included.",
  "All states, samples, attitudes and time stamps at the poles; all latitudes, heights, velocities and forces otherwise.",
  "The tests stay at moderate latitudes; what happens at the pole itself does not show in any neighbourhood that tests visit.",
  f"{NU}:NavUtils::strapdownDynamics",f"{SD}:Strapdown::integrate")
p("The Earth turns without jumps",
  "With one row a day in the table and no leap second in between, the J2000-to-ECEF matrix of two instants at most one second apart differs by at most the rotation of the Earth (6.303 rad per day) and at least by 6.298 rad per day, up to 2e-14 rad, also when midnight, where the rows used change, lies between them.",
  "All gap-free tables of usual size, all instants from 1900 to 2100, all steps up to 1.2e-5 days.",
  "A jump would occur at one instant of a day only; tests evaluate the matrix at isolated dates and cannot compare neighbouring instants everywhere.",
  f"{ROT}:Rotations::getCurrentEop",f"{ROT}:Rotations::computeRJ2k2Ecef")
p("The error model shows the Schuler oscillation",
  "Errors that obey inertialErrorDynamics with the gradient of simpleGravity and a constant specific force a: along every horizontal direction n the position error swings with the frequency sqrt(GM/|r|^3) about n.(a x psi)/(GM/|r|^3), bounded for ever; along the vertical it follows cosh and sinh of sqrt(2) times that frequency. At the surface of the Earth the period is between 84 and 84.5 minutes.",
  "All positions other than the centre of the Earth, specific forces, sensor attitudes, initial errors and times; all distances from 6356752 m to 6378137 m for the period.",
  "The tests compare single matrices with tabulated numbers; the behaviour over 84 minutes is a property of the solutions of the differential equation.",
  "src/inertial/pvaErrorDynamics.cpp:PvaErrorDynamics::inertialErrorDynamics",f"{GR}:Gravity::simpleGravity")
p("The unscented mean is right to third order",
  "Let the state have mean m, covariance P and no skewness, let the sigma points lie in pairs about m with covariance P and weights summing to one, and let the dynamics differ from a cubic polynomial by at most M |x-m|^4. Then the mean returned by filterUkfPredict differs from the mean of the propagated state by at most M times the sum of the fourth moments of the sigma points and of the state; for cubic dynamics it is exact. The covariance has no such accuracy.",
  "All dimensions, finite distributions, weights of either sign, sigma points, dynamics, noise matrices and previous outputs.",
  "Tests compare one propagated set of points with stored numbers; they never compare with the distribution that the points stand for.",
  f"{KF}:KalmanFilter::filterUkfPredict")
p("From Earth-fixed coordinates to latitude and back",
  "A position at least 6300 km from the centre, converted with ecef2Lla and back with lla2Ecef, comes out with success, x and y exact and z off by at most 2.6e-8 |r|^2/p, where p is its distance from the polar axis; for |r| up to 6400 km by at most 5.6e-11 |r|^2/p (0.36 mm on the equator). Every position off the axis has geodetic coordinates.",
  "All positions with |r| >= 6300 km and p >= 2e-5 |r| (127 m at the surface), at every height above that.",
  "The tests convert single points in one direction and compare with tables; that no position anywhere comes back displaced cannot be sampled.",
  f"{ROT}:Rotations::ecef2Lla",f"{ROT}:Rotations::lla2Ecef")
p("An update moves the estimate towards the measurement",
  "With u = S^-1 (z - H x), S = H P H^T + R: the residual z - H x' after filterUpdate is R u, the step is P H^T u, and |z - H x'|^2 + 2 u^T H P H^T u <= |z - H x|^2 in the metric R^-1. For a single measured number the predicted measurement after the update lies between the one before (included) and the measurement (excluded).",
  "All dimensions, states, covariances (singular ones included), measurement matrices, positive definite noise, measurements and previous outputs.",
  "Tests check one update against stored numbers; that no combination of values makes the filter overshoot is a statement about all of them.",
  f"{KF}:KalmanFilter::filterUpdate")
p("Coarse alignment follows the mounting of the sensors, and does not notice sensors that count backwards",
  "If both readings are turned by the rotation B, coarseAttitudeAlignment returns its previous result times B, for arbitrary (noisy, inconsistent) readings. If both readings are negated it returns, again with true, the previous result turned by half a turn about the east axis, which is a rotation exactly when the right one is, and never equal to it.",
  "All rotations B, latitudes other than the poles, non-zero rates and gravities, and all pairs of readings.",
  "A test aligns from a few stored readings; the relation between the results for all pairs of differently mounted sensors is not visible in any of them.",
  f"{INI}:Initialization::coarseAttitudeAlignment")
p("The earth-fixed and the inertial error model describe the same errors",
  "Let C(t) turn earth-fixed into inertial axes with C' = C O. A differentiable error (psi, v, p) obeys x' = F x + G u with F, G from ecefErrorDynamics exactly if (C psi, C (v + O p), C p) obeys the same equation with the matrices that inertialErrorDynamics returns for C a, C Gamma C^T and C R and the disturbance with turned gravity error.",
  "All specific forces, gravity gradients, sensor attitudes, matrices O, motions C of the axes, times, differentiable errors and disturbances.",
  "A test compares single matrices with stored numbers; that the Coriolis and centrifugal blocks are exactly those that the change of axes demands concerns all motions and errors at once.",
  f"{PVA}:PvaErrorDynamics::ecefErrorDynamics",f"{PVA}:PvaErrorDynamics::inertialErrorDynamics")
p("Fine alignment uses the error equations of a vehicle at rest",
  "The matrix of fineAlignmentPredict maps tilts, gyroscope biases and level velocity errors to their rates of change psi' = -W x psi + w(v) - b, b' = 0, v' = s x psi - 2 W x v of a vehicle at rest. Violated in one coefficient: the effect of the east velocity on the heading is +tan(lat)/r, not -tan(lat)/r; nedErrorDynamics has the right sign.",
  "All latitudes except the poles, Earth rates, gravities, radii, states and covariances.",
  "A test compares the matrix with numbers taken from the same formula; that the coefficients are those of the equations of motion can only be seen by deriving them.",
  f"{INI}:Initialization::fineAlignmentPredict",f"{PVA}:PvaErrorDynamics::nedErrorDynamics")
p("The azimuth update treats azimuths as angles",
  "fineAlignmentAzimuthUpdate corrects the heading error by the gain times the turn, in (-pi, pi], from the estimated to the measured azimuth (minus the estimated error), so that a full turn more or less in the measurement changes nothing. Violated: the two numbers are subtracted and not reduced. It holds exactly if their difference is in (-pi, pi]; across north, 2 eps apart, the heading is turned by at least pi - eps.",
  "All measured and estimated azimuths, states, covariances, positive intervals and non-zero deviations.",
  "Tests use azimuths of a few degrees; the wrong correction appears only on the two sides of north.",
  f"{INI}:Initialization::fineAlignmentAzimuthUpdate")
p("A perfect azimuth measurement does not spoil a perfect estimate",
  "If the navigator's attitude is off by small tilts, the filter's estimate is exactly these tilts and the azimuth is measured without error, fineAlignmentAzimuthUpdate leaves the estimate alone to first order. Holds for a level vehicle. For a pitched one the measured azimuth also depends on the level tilts, which the measurement matrix leaves out: the heading estimate is moved by the gain times -c2 (psi0 c0 + psi1 c1)/(c0^2 + c1^2), c the direction of the first body axis.",
  "All covariances, deviations, intervals, tilts, and axis directions other than straight down, straight up and due south.",
  "The first-order effect of arbitrary tilts at arbitrary attitudes is a derivative, which a test at one attitude with one matrix does not see.",
  f"{INI}:Initialization::fineAlignmentAzimuthUpdate")
p("The azimuth update uses the documented measurement noise",
  "sigAz is documented as the noise of the azimuth measurement in radians. The heading variance that fineAlignmentAzimuthUpdate reports is the mean square error after its correction, and no other correction does better. Violated: the variance used is sigAz^2 dtAz. Both parts hold exactly if dtAz = 1 (or the heading is known exactly); for dtAz < 1 the reported variance is below the mean square error of every possible correction.",
  "All measurements, states, covariances, positive intervals and non-zero deviations.",
  "The tests of the repository use dtAz = 0.1 and check only the return value; what variance is right is not something an example can tell.",
  f"{INI}:Initialization::fineAlignmentAzimuthUpdate")
p("Four readings determine a calibration",
  "Two calibrated compensators that give the same values for four readings in general position have the same bias, misalignments and scale factors, hence agree on every reading. Three readings never suffice: there is always a second calibration, invertible too, with other misalignments or scale factors, that agrees on them.",
  "All pairs of finite calibrations of which one is invertible, all readings, accelerometer and gyroscope.",
  "A test compares outputs for given parameters; that outputs determine the parameters quantifies over all pairs of calibrations.",
  f"{CMP}:Compensator::compensateMeasurement",f"{CMP}:Compensator::compensateAccelerometer",f"{CMP}:Compensator::compensateGyroscope")
p("Simultaneous measurements act through their total information",
  "Two lists of simultaneous measurement updates with the same total information (sum of H' R^-1 H) and the same total of H' R^-1 z have the same effect on estimate and covariance, however many measurements they consist of and whatever their sizes. In particular N measurements of one quantity have the effect of one measurement of their mean with the noise covariance divided by N.",
  "All lists of updates with positive definite noise, all estimates, all covariances (also singular ones), all calls that follow.",
  "Unbounded lists of measurements of arbitrary sizes.",
  f"{KF}:KalmanFilter::filterUpdate")
p("Additional data never lower the cost",
  "Additional measurements never lower the cost that linear least squares reports. They leave it as it was if and only if they agree with the estimate from the first measurements; then the estimate stays too. Violated by the weighted solver: the cost it reports is unweighted and can fall when a measurement is added; for the weighted cost of its estimate the claim holds.",
  "All sizes, measurements, full-rank matrices and positive definite weights.",
  "Quantifies over all data sets and all additions to them.",
  f"{BLS}:BatchLeastSquares::UnweightedLinearLeastSquares",f"{BLS}:BatchLeastSquares::WeightedLinearLeastSquares")
p("A weight of zero removes a measurement",
  "Weighted least squares with weight zero for some measurements gives what it gives without them. The estimate does, for every solver. Violated by the reported cost, which still contains the residuals of the measurements with weight zero, and by readings that are NaN, which make the reported cost NaN whatever their weight.",
  "All sizes, measurements, matrices, weights of the others and all solvers.",
  "Quantifies over all data sets, all removed values and all solvers.",
  f"{BLS}:BatchLeastSquares::WeightedLinearLeastSquares",f"{BLS}:BatchLeastSquares::ComputeCostFunction")
p("Coarse alignment, units and scale factors",
  "coarseAttitudeAlignment depends only on the ratios of the readings to gravity and Earth rate: readings, gravity and Earth rate in other units give the same result, so increments over an interval can be used. With scale factors l (accelerometers) and k (gyroscopes) that are not accounted for, at rest, the result is a rotation exactly if l^2 = k^2 = 1 and l = k (or the latitude is zero), and the attitude exactly if l = k = 1; the return value is true in all cases.",
  "All readings, attitudes, latitudes except the poles, non-zero gravities, Earth rates and unit factors, all scale factors.",
  "Continuous families of attitudes, latitudes and factors; the second part is an equivalence.",
  f"{INI}:Initialization::coarseAttitudeAlignment")
p("Kalman filter, states that have nothing to do with each other",
  "If a group of states is uncorrelated with the others at the start, is predicted by a model and noise of its own, and is not measured, then filterPredict and filterUpdate for all states together return what two separate filters return: the measured group is estimated as if the other did not exist, and the unmeasured group is only predicted. No correlation between the groups arises.",
  "All sizes of both groups, all starting values, all sequences of predictions and updates of any length and measurement size, whatever the linear solver returns.",
  "Arbitrarily long sequences, all sizes and real matrices.",
  f"{KF}:KalmanFilter::filterPredict", f"{KF}:KalmanFilter::filterUpdate")
p("An infinite variance stands for no information",
  "filterUpdate with an infinite measurement noise variance leaves the estimate as it is, and with an infinite prior variance returns the weighted least-squares estimate of the measurement.",
  "All sizes, all data, whatever the linear solver returns (negative part); all covariances and measurements (limits).",
  "All sizes and positions of the infinite entry; the positive part is a statement about limits.",
  f"{KF}:KalmanFilter::filterUpdate")
p("Altitude is the distance from the ellipsoid",
  "The altitude given to lla2Ecef (its magnitude below the surface) is the distance of the returned point from the reference ellipsoid: the point with the same latitude and longitude and altitude zero is that far away, and every other point of the ellipsoid is farther away. Consequently the altitudes of two points on or above the ellipsoid differ by no more than the distance of the points.",
  "All latitudes and longitudes in range, including the poles, all altitudes of at least -6335 km, all points of the ellipsoid.",
  "A minimum over a surface, for a continuum of points.",
  f"{ROT}:Rotations::lla2Ecef")
p("The Kalman covariance does not depend on the data, the estimate is linear in them",
  "Two runs of filterPredict and filterUpdate with the same models and starting covariance, but different starting estimates and measured values, both succeed and report the same covariance to the last bit. In exact arithmetic the run from a x + b y with measurements a z + b w returns a x' + b y', where x' and y' are the results of the runs with x, z and y, w.",
  "All sizes, all sequences of calls of any length, all data, whatever the linear solver returns; the first part in every arithmetic, including double precision with infinities and NaN.",
  "All data and sequences of any length; bit-for-bit equality in every rounding mode.",
  f"{KF}:KalmanFilter::filterPredict", f"{KF}:KalmanFilter::filterUpdate")
p("What the unscented update depends on",
  "The covariance returned by filterUkfUpdate does not depend on the measured value, to the last bit. If the weights sum to one, the given estimate is used only as an offset: another estimate with the same sigma points gives a result that differs by the same amount, and the same covariance. The sum of the weights is not checked; if it is not one, this is false and the returned variance can be negative.",
  "All sizes, estimates, sigma points and measurements, whatever the linear solver returns; the first part in every arithmetic.",
  "All data; bit-for-bit equality in every rounding mode.",
  f"{KF}:KalmanFilter::filterUkfUpdate")
p("A least-squares cost that is a number certifies the data and the estimate",
  "If linear least squares (unweighted or weighted) returns true with a cost that is a finite number, then all measurements, all entries of the model matrix and all entries of the estimate are finite. For unweighted least squares with Eigen's LDLT the cost is finite exactly if the measurements and the model matrix are.",
  "All sizes, all data including infinities and NaN; the first part whatever the linear solver returns.",
  "All positions of a bad value in data of all sizes, every solver.",
  f"{BLS}:BatchLeastSquares::UnweightedLinearLeastSquares", f"{BLS}:BatchLeastSquares::WeightedLinearLeastSquares", f"{BLS}:BatchLeastSquares::ComputeCostFunction")
open(os.path.join(os.path.dirname(__file__),"..","properties.jsonl"),"w").write("".join(json.dumps(x)+"\n" for x in P))
print(len(P))
for x in P: print(x["id"],x["title"])
