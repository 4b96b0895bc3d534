{
 "C01": "Proved for every timestamp that does not fall on a 31 December. Missing: 31 December, where the code reads daysOfMonth[12]; the refutation exhibits that.",
 "C02": "Exact set of timestamps on which the call is defined; the full statement is refuted by a 31 December and by timestamps at or before -1 day.",
 "C03": "Refuted. The theorem says what happens on every negative timestamp instead (undefined behaviour, or 1970-01-01 with non-positive time fields).",
 "C05": "At rounded reals, for every rounding that is monotone and keeps every number of 53 significant bits.",
 "C09": "The accepted set is characterised exactly; it differs from the real dates (31 February, day 0, month 0 accepted; seconds in (59,60) refused; NaN accepted).",
 "C12": "Holds when the file can be opened for reading and writing (each column of the table is then the list of the numbers of that column of the data lines); refuted for a file that can only be read.",
 "C15": "Holds when every data row has the DAT column; refuted by a file with a short row. Exact: the lookup of row i is safe iff more than i lines have the TAI-UTC column and the row interpolated towards exists; with a new whole day on the last line, all lookups are safe iff every line with a day has all eleven columns.",
 "C22": "Includes that NaN passes the check, as the statement says.",
 "C25": "Proved off the poles and down to 100 km below the ellipsoid within an explicit error bound (Bowring's single step is not exact, and the code's b differs from a(1-f)); exact at the equator. Refuted at the poles (NaN altitude) and as an exact statement at altitude.",
 "C26": "Longitude always; latitude everywhere outside an explicit ellipsoid of 43 km around the Earth's centre. Refuted at a point inside it; C26_characterised determines the exact set of positions.",
 "C27": "Mirror symmetry except on the equatorial disc of radius e^2 a (43 km) around the centre; refuted on all of it (C27_characterised: if and only if). Rotation symmetry always.",
 "C29": "Proved when the largest of the first three squared components is unique, or the fourth component is non-zero (the code's strict comparisons). On every other rotation matrix all four components are NaN with success (C29_irregular_fails, C29_characterised), for example for a quarter turn about x.",
 "C30": "Proved for every non-zero rotation vector; refuted for zero (0/0).",
 "C31": "The round trip returns the negated vector (above the cut-off) or zero (below it), so no non-zero vector survives; proved up to the sign above the cut-off, and refuted as stated. Zero survives only because two faults cancel.",
 "C32": "Includes the error bound for the small-angle cut-off.",
 "C35": "The matrix is the transpose of the documented one: refuted as stated, proved for the NED-to-body direction. Exactly the identity and the half turns come out right (C35_characterised).",
 "C36": "Headings in [0, pi) that are not refused; refuted for every westerly heading. Both the matrix and the angle form are decided exactly (C36_matrix_characterised, C36_angles_characterised).",
 "C37": "Exact rejection set; refuted that it is only gimbal lock (heading east is refused, NaN is accepted).",
 "C40": "The tableau is an independent definition in Spec; finiteness of the result is proved at XR.",
 "C44": "Refuted for dt = 0 (every result is NaN); for dt ≠ 0 and zero increments a resting state is unchanged.",
 "C49": "Refuted: the zero increment turns the attitude into NaN for ever. The partial theorem gives the limit for small increments.",
 "C55": "Refuted: a zero scale factor multiplies by zero. Holds with unit scale factors; and only with those, zero bias and zero misalignment (C55_characterised).",
 "C57": "At XR (so that no division by zero is hidden) with the ideal readings of a stationary body.",
 "C60": "Refuted: the biases are set to zero by one prediction. The partial theorem says the prediction returns F x and F P F', i.e. the rate. C60_characterised: with the constants of the Earth the prediction keeps the state exactly when it is zero, and the biases exactly when they are zero.",
 "C64": "Every entry except F(4,8); that entry is refuted. Jacobian proved by differentiation of the navigation equations.",
 "C66": "For every LinSolver satisfying its contract.",
 "C67": "For every LinSolver satisfying its contract.",
 "C68": "Refuted with a witness; what is reported is half the unweighted residual. Exactly (C68_characterised): right for all measurements iff weighted and unweighted squares agree on all residuals with H'W r = 0.",
 "C71": "Refuted: the placeholder model leaves the prediction empty, so the first loop body has a size mismatch. The partial theorem describes all runs as shipped.",
 "C72": "The exit condition and the linear case are proved; refuted for equal starting points, where the loop body never runs and the starting point is returned.",
 "C73": "Refuted by a cycling model and by a negative tolerance; proved for contracting models.",
 "C75": "For every LinSolver satisfying its contract (also C76-C80, C85, C86).",
 "C82": "The memory of the calls is modelled as a store of vectors and matrices; parameters are addresses and may coincide.",
 "C84": "Refuted for a negative centre weight; proved for non-negative weights and for symmetric sigma points around the mean. Exactly (C84_characterised): for weights summing to one the prediction is a covariance for all sigma points iff no weight is negative.",
 "C87": "Proved for every rectangular table when both rows carry the same TAI-UTC, with the exact value in general (interpolation plus the elapsed part of the day times the leap); refuted across a leap second. C87_characterised: interpolated correctly iff at the start of a day or without a leap between the rows.",
 "C91": "Refuted: the attitude is propagated without Earth and transport rate. The partial theorem says the attitude is kept relative to inertial space. Exactly (C91_characterised): it is kept over a step iff the Earth makes whole turns in it.",
 "C112": "Proved whenever the innovation covariance is invertible. Refuted for every singular one: no entry of either output is a number and the call reports success (C112_every_singular_fails, C112_characterised), and NaN outputs stay for ever.",
 "C113": "Proved when H (weighted by W) does not shrink vectors below 2^-511; refuted for H = [2^-512]. Eigen's algorithms are modelled from the published source, which is not in the repository.",
 "C114": "Refuted for every rank-deficient H with n <= m; only n > m is refused.",
 "C111": "No rounding; Eigen's LU is modelled from the published source.",
 "C119": "Proved within 1.3e-9 at whole seconds, and within that plus 7.3e-11 per microsecond elsewhere; refuted between whole seconds, where the Earth turns by what the dropped microseconds are worth.",
 "C92": "Refuted (transpose); the partial theorem identifies the stored matrix. Exactly the identity and the half turns are stored correctly (C92_characterised).",
 "C125": "Towards zero, IEEE 754 returns the largest finite double on overflow where the model has an infinity; the theorem shows that no overflow occurs, so the difference does not matter.",
 "C131": "Exact on extended reals: finite increments with non-zero rotation (zero rotation gives NaN in both).",
 "C132": "Exact arithmetic with a correct matrix inverse, covariances and positive definite measurement noise. The library does not choose sigma points; the rule is part of the calling program.",
 "C133": "Exact arithmetic with a correct matrix inverse. Boundedness is not assumed of the run but follows from some constant-gain estimator that keeps an uncertainty.",
 "C134": "sin, cos, atan2 and pow are taken as faithfully rounded. Places within 64 m of the axis, next to the date line or more than 20 km below the ellipsoid are left out of the inverse conversion (C25, C26 say what happens there).",
 "C135": "Exact arithmetic. The residual part inherits C128's assumptions on the flight and needs compensated angle increments that are not zero.",
 "C136": "True of ecef2Lla, simpleGravity, strapdownDynamics and strapdownRk4 for every sharing pattern. False of lla2Ecef (the components are written one after another and the angles are read again), of linear least squares (the cost is computed from the overwritten measurements) and of the iterative estimators (the loop never runs): proved with witnesses, and proved correct when the objects named in the `_partial` theorems differ.",
 "C137": "Matrix to quaternion needs the two largest squared components to differ by 2e-14. Without that it is false: for a turn about the first axis with a cosine below 2^-53, in particular for the matrix that euler2Dcm makes of a roll of M_PI/2, all three comparisons are decided against the large components by rounding and the result is NaN with success. Elementary functions are taken to be faithfully rounded.",
 "C138": "Matrix to angles needs roll and pitch within a quarter turn, heading between 0 and pi, cos pitch >= 1e-3, cos roll >= 1e-5, |cos heading| >= 1e-5, sin heading >= 1e-10. At due north the claim is false: the level matrix off by 2^-47 in one entry gives a heading of 180 degrees with success. Elementary functions are taken to be faithfully rounded.",
 "C139": "The conversion back returns the negative of the rotation vector (C31), so the accuracy is proved up to that sign, for sin(angle/2) >= 1.1e-6 and cos(angle/2) >= 2e-5. False for rotation vectors whose squares underflow (NaN with success) and for some rotation vectors close to a half turn: (593, 102942, 0)/2^15 there and back gives NaN with success, because the computed length of the vector part exceeds one. Elementary functions are taken to be faithfully rounded, for the half-turn witness correctly rounded.",
 "C129": "Refuted exactly (rounding to nearest, two states); the partial theorem bounds asymmetry and negative variance for whole runs in every rounding mode.",
 "C130": "Any order in which Eigen adds up the products, without fused multiply-add. Finite gains are assumed, not derived, since inverse() is a black box.",
 "C128": "Exact arithmetic (reals); the flight limits are those of C124, on the true run only. The bound is for errors up to about a metre (B at most 1).",
 "C127": "Proved for half of the upright attitudes (westerly headings of a level vehicle); refuted on the other half, where every call reports success and the stored attitude is turned by half a turn about the vertical body axis. The composition itself is not in the repository: all three headers name the matrix RB2N.",
 "C126": "Refuted exactly for increments whose components all have a square of at most 2^-1075 (they underflow to 0/0 = NaN); proved for every other increment of up to 4 rad (C126_characterised says if and only if), with an error bound from 2^-537 rad.",
 "C145": "False of the code in exact terms: (W a) b and (W b) a round differently, so the predicted covariance can be asymmetric (C145_symmetry_fails), and P - K S K^T with sigma points rounded to double can leave a negative variance (C145_nonnegative_fails). Proved: symmetry, nonnegativity of the prediction and no growth in the update, all up to the rounding bound of C144.",
 "C152": "Refuted: fitting x^2 to 4 the solver returns the perfect fit 2 and reports the cost 8 instead of 0, because ComputeCostFunction evaluates y - H x with the last Jacobian. The partial theorem says what J is on every successful run; it is right for linear functions.",
 "C155": "Refuted: every prediction divides all reported variances by at least 10^4 whatever is measured (C155_collapse_fails), later azimuth measurements are ignored in the same proportion, and a single prediction declares an unknown azimuth error known exactly. Proved for alignments by measurements alone.",
 "C157": "Dates on 31 December are excluded: the conversion of the date reads past a table there (C01).",
 "C160": "Completes C142 (azimuth update). The bound of the velocity update grows with the square of the ratio of covariance to noise; it inherits the pivot growth of the general LU analysis (C147, C148).",
 "C161": "Composes C144 (sigma point sums and last steps) with C147 (inverse). Unlike the Joseph form of filterUpdate (C148) the covariance feels the error of the gain to first order.",
 "C162": "The weighted counterpart of C153; the smallness of the errors and the contraction factor are measured in the metric of the weights.",
 "C163": "Complements C82 and C136. C163_inertial_same shows what happens with one object for both outputs, which the property excludes.",
 "C164": "Success of the whole load in the sense of its return value; C12 and C15 say what a successful load may still have missed.",
 "C165": "Inherent to free inertial navigation with height-dependent gravity, not an error of the code; complements the upper bound of C128.",
 "C166": "C154 without its assumption on the exact run. For the two-state tracker the rounding bound of the estimate is weak (0.6 of measurements of size 1); that of the variances is 4e-5.",
 "C167": "The consequence of C91 in numbers. Fails for every altitude and attitude on the equator: the computed velocity east is at least 3.4e-4 t^2 m/s, more than 120 m/s and 24 km after ten minutes. What holds: with rates relative to north-east-down that do not tilt the vehicle the state never changes. C167_everywhere_fails: the same effect at every latitude off the poles, every altitude up to 20 km and every attitude, from the very first moment (velocity east more than 3.3e-4 cos(lat) T² m/s after the time T).",
 "C168": "The meridian radius of curvature, the work along a meridian and along a vertical, and the work of the loop are specified as integrals of the components that gravityNed returns. The bound 1.1e-3 is two percent of the largest rate, 0.053.",
 "C169": "Solutions are curves whose derivative is what strapdownDynamics returns; that whole runs of the navigator follow them is C105. The two meridian radii in the code (from b, and from the flattening) are shown to agree to a centimetre.",
 "C170": "The remaining 9e-12 rad/s is the precession of the equinox, against which sidereal time is counted (7.1e-12), and the rounding of wE.",
 "C171": "",
 "C172": "Violated: C172_date_line_fails (one exact reading on the 180th meridian is enough, at every latitude, altitude and eastward speed). Proved instead: C172_eastbound_partial decides for every level eastbound flight when the position is accepted (exactly until the longitude counted on from the start passes pi), and C172_wrapped_partial shows that reducing the longitude by whole turns before the conversion gives the right point and axes. Missing: flights over a pole, where the latitude leaves its range too.",
 "C173": "",
 "C174": "C174_changing_rates: upper bound for all motions; C174_no_better: the order of one call cannot be improved; C174_drifts_away: on a coning body the errors accumulate until an entry of the attitude is wrong by one half, at every call rate of at least 10 Hz.",
 "C175": "Proved at the instance SZ (exact reals with NaN, infinities and signed zeros). Gives the range of C26 with signs: the longitude lies in [-pi, pi] and is -pi exactly if y is a negative zero and x has its sign bit set.",
 "C176": "Strapdown::updateAttitude reads only the previous attitude and the gyroscope sample; the induction carries equality of the stored attitude, all other fields of the two objects are free.",
 "C177": "Violated: no comparison of time stamps exists. Every earlier or equal stamp (up to the overflow of C52) is accepted with success, the stored time goes backwards and the attitude takes the turn again (C177_late_sample_refused_fails). An equal stamp also makes position and velocity NaN (C44). Proved part: a newer sample is accepted and time advances.",
 "C178": "Generalises C49_never_recovers_fails: no value of the state or of later samples is assumed. That initialize restores the navigator is C93.",
 "C179": "Exact reals; measurement noises positive definite, initial covariance any positive semidefinite matrix.",
 "C180": "Violated: the longitude rate divides by cos(lat). At a pole of the exact arithmetic one call makes all velocities non-finite with success, also for a vehicle at rest (C180_at_the_pole_fails), for good by C178. In double precision cos(M_PI/2) is 6.1e-17 instead of 0; there one metre per second east gives a northward acceleration of more than 10^9 m/s^2 (C180_next_to_the_pole_fails, evaluated in exact reals at that latitude). Proved part: the bound 2V(2 Omega + V/(6300 km cos lat)).",
 "C181": "C181_no_jumps: both bounds in the operator norm, about getCurrentEop and j2kProduct over the reals. Leap seconds are excluded by the hypothesis that TAI-UTC is the same at both instants; what happens there is C87.",
 "C182": "C182_gravity_gradient (the gradient is the derivative of simpleGravity in every direction), C182_schuler (all solutions), C182_period. The matrix is held constant, i.e. position and specific force of the vehicle do not change.",
 "C183": "C183_unscented_mean for random states on finite probability spaces; C183_covariance_is_not_exact shows why the statement is about the mean only (the squared state +-1 has variance 0, three points of centre weight 2/3 report 2), which is a limit of the method and not of this code.",
 "C184": "C184_there_and_back in exact arithmetic with NaN and infinities; geodetic_exists gives the geodetic coordinates by the intermediate value theorem, back_core bounds the error by that of Bowring's step. On the axis itself the altitude is NaN (C25_pole_fails), close to it the bound grows like 1/p.",
 "C185": "C185_residual_shrinks and, for one measured number, C185_between. The inverse is any correct one.",
 "C186": "C186_mounting; C186_reversed_sensors_unnoticed shows that reversed sensor axes produce a plausible but wrong attitude and the value true. Arithmetic is exact and total (X): the inverse is evaluated, not assumed.",
 "C187": "C187_same_errors, an equivalence. C63_no_rotation is the case O = 0.",
 "C188": "C188_resting_errors_partial: seven of the eight components agree and the heading is off by 2 tan(lat)/r v_east. C188_heading_sign_fails: away from the equator the claim is false for every state with an east velocity error. C188_nedErrorDynamics_right: the other error model of the code has the sign of the equations.",
 "C189": "C189_azimuth_characterised_partial says exactly when the claim holds; C189_full_turn_fails refutes it for every state and covariance with an uncertain heading, C189_across_north_fails for azimuths close to north.",
 "C190": "C190_tilted_azimuth_partial: the first-order movement at every attitude, zero for a level vehicle. C190_pitched_fails: not zero for some tilts at every pitched attitude. The matrix H = (0 0 1 0 ...) is a modelling choice that is exact only for level vehicles. Tilts are those of the error equations of C156 and C188.",
 "C191": "C191_documented_noise_characterised_partial: equivalences; C191_overconfident_fails: refuted for every uncertain heading and dtAz < 1; C191_velocity_overconfident_fails: the same for velocities (sigVel, whose unit the header does not give) and every state correlated with a level velocity error. The reading of sigAz is that of include/inertial/initialization.hpp:76; if it were meant as a density the documentation is wrong.",
 "C192": "C192_four_readings: injectivity of the parameters; C192_three_not_enough: sharpness, next to the compensator without errors.",
 "C193": "C193_total_information: general; C193_averaging: N equal sensors against their mean.",
 "C194": "C194_more_data: unweighted, exact; C194_weighted_more_data_partial: the weighted cost and the estimate; C194_weighted_cost_falls_fails: the reported cost, witness with three numbers. Consequence of C68.",
 "C195": "C195_zero_weight_partial: the estimate, and what the cost is; C195_cost_fails: the reported cost grows unless the removed values agree with the estimate; C195_nan_fails: NaN (extended reals).",
 "C196": "C196_units: arbitrary readings; C196_scale_factors: exact conditions for a rotation and for the right one. Extends C94, C116 and C186.",
 "C197": "C197_uncoupled: by induction over the calls, exact arithmetic, arbitrary solver; run_succeeds shows that the separate runs always succeed.",
 "C198": "False with infinities: C198_infinite_noise_fails and C198_infinite_prior_fails (in double arithmetic with infinities and NaN, for every solver, no entry of the resulting covariance is a number, and the call reports success). What holds are the limits of growing finite variances: C198_large_noise_partial, C198_large_prior_partial.",
 "C199": "C199_nearest: strict minimum, by the convexity of the ellipsoid; below the surface down to the smallest radius of curvature. C199_climb: consequence for two points. Extends C24.",
 "C200": "C200_covariance: every scalar arithmetic and solver; C200_superposition: real numbers, every solver.",
 "C201": "C201_covariance: every arithmetic and solver. C201_offset: real numbers, every solver. C201_weights_needed: a concrete case with weights of sum two (variance -1/3).",
 "C202": "C202_unweighted, C202_weighted: arithmetic with infinities and NaN (without rounding and overflow), every solver; C202_characterised: exact condition with Eigen's LDLT. A weight matrix that is not finite is not covered by the first part, since the cost does not contain it (C68)."
}