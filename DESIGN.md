# NavFuse: a formal model in Lean 4

Subject: the C++ library in `/repo` (NavFuse, pinned commit). The code is read as text; it is not built or run.
Everything machine-checked lives in `lean/Verif`; `properties.jsonl` lists the properties, `MANIFEST.json` maps
each property to theorems, `seeded/LOG.jsonl` records tests of the theorems against deliberately broken models.

## 1. Trusted base

* Lean 4.33.0's kernel (every constant is replayed by `vcheck`) and Mathlib's definitions of the real numbers,
  trigonometric functions, matrices, positive (semi)definiteness, derivatives.
* Axioms: at most `propext`, `Classical.choice`, `Quot.sound` for every theorem. No own axioms, no `sorry`,
  no `native_decide`, no `bv_decide`.
* That the definitions in `Verif/Model/*` are faithful transcriptions of the cited C++ lines. `Verif/Conformance.lean`
  evaluates the very same definitions at Lean's IEEE-754 `Float` on the inputs of the repository's unit tests and
  compares with the values those tests expect. (That file contains tests, not proofs, and no property relies on it.)
* The idealisations in section 2.

## 2. What the model is

**Scalars.** Each C++ function is transcribed once, over an arbitrary scalar type `α` that only has the *operations*
of `double` and `<cmath>` (`+ - * /`, negation, literals, `sqrt sin cos tan asin atan atan2 fmod floor abs pow`,
comparisons, conversions) and *no laws* (`Verif/Scalar.lean`). Theorems come in four strengths:

1. *for every α*: true for any arithmetic whatsoever, in particular bit for bit for IEEE doubles (dimension checks,
   undefined-behaviour freedom, frame conditions, exact transposes, histories of getters/setters, EOP parsing);
2. *at ℝ*: exact real arithmetic; rounding error is not modelled. Division by zero is totalised in Mathlib (`x/0=0`),
   therefore theorems at ℝ that involve a division either assume the denominator non-zero or are restated at `XR`;
3. *at `XR`* = ℝ extended with `nan`, `+∞`, `-∞` and the IEEE rules for special values, exact on finite values. Used to
   prove what happens on divisions by zero, and that results are finite. Zeros are unsigned in `XR` (the sign of an
   infinity produced by `x/0` is therefore not meaningful and no theorem mentions it). `SZ` (C175) adds the sign of zeros and shows where it could
   matter: only in `ecef2Lla`, where the open end of C26's longitude range becomes closed;
4. *at `Rnd r`*: every operation is the exact one followed by a rounding function `r`. The only hypothesis on `r` (`Rounds53`) is that it is
   monotone and keeps the numbers `m 2^e` with `|m| <= 2^53`, `e >= -1074`; so gradual underflow is included, overflow is not. `Ieee.lean` shows
   that the hypothesis holds for the IEEE rounding modes (nearest with ties to even, up, down, towards zero) and that `ieeeEven` returns the
   closest double. Used where rounding is the point (C05, C106, C110, C117-C119, C124). Two things are left open and quantified over (class `Machine`): the order in
   which Eigen adds up the terms of a product or norm (any bracketing of any permutation, chosen per number of terms), and how the functions of `<cmath>` that IEEE 754
   does not require to be correctly rounded (`sin cos tan asin atan atan2 pow`) round: each result is faithful, that is, the exact value rounded by some
   `Rounds53` function, which may differ between functions and arguments and from the arithmetic's. Stronger assumptions on the library are hypotheses where
   they are needed: `Machine.Symmetric` (C122: both signs alike), `LibDoubles` (C137's roll witness: results are doubles), `Machine.Correct` (C139's half-turn
   witness: `sin` correctly rounded). The other refutations need none;
5. *at `Dbl r`*: the values of `XR` with the rounding of `Rnd r`, and an infinity where the rounded value reaches 2^1024 (C125, C126, C129, C130, C134, C137-C150, C153, C154, C157, C160-C162, C166). Where no
   overflow occurs the results are those of `Rnd r`; `Lemmas/Approx.lean` and `Lemmas/DblBound.lean` prove that together with the error bounds.

**Undefined behaviour** is a distinct outcome. A call returns `Out β`, either `ok` of (returned `bool`, new values of
the reference parameters, new object state), or `ub why` (index out of range, Eigen size mismatch, read of an
indeterminate value, signed overflow), or `throws` (`std::stod`). A C++ `while` loop that need not end (the nonlinear
least-squares solvers) is a fuel-indexed iteration; "does not terminate" means no amount of fuel suffices. Eigen expressions are checked operations on
dynamically sized vectors/matrices (`DVec`, `DMat`), so "no size mismatch" is something to prove. `std::vector::operator[]`
and C arrays are checked likewise.

**External algorithms.** Eigen's fixed-size 3x3 `inverse()` is modelled as Eigen implements it (cofactors times `1/det`).
The dynamic-size `inverse()` (partial-pivot LU) and `ldlt().solve` are parameters (`LinSolver`) with the contract
"`A * inv A = 1` for invertible `A`" and "`A * solve A b = b` for symmetric positive definite `A`" where a theorem needs it;
the contract is shown satisfiable. Theorems that do not need it hold for any `inv`/`solve`.
C111-C114 use the two algorithms themselves (`Model/Solvers.lean`: partial-pivoting LU, and pivoted LDLT with its cut-off `2^-1022`), written
from the published Eigen 3.4 sources, which are not in the sandbox. The LU inverse meets its contract; LDLT meets it only above the cut-off (C113).
`std::stod` is a parameter `String → Option α` (`none` = it throws).
Files are modelled by what the two `open` calls and the reads can observe: openable for reading, openable for reading and
writing, contents.

**Not modelled:** console messages; memory exhaustion; concurrency (the library has no threads and no shared global state);
rounding error except at `Rnd` and `Dbl`; signed zeros except at `SZ`; `errno`; the contents of headers other than the constants; CMake/test code;
the Python/Docker scaffolding. Aliasing of reference parameters is modelled for the Kalman calls (C82), the least-squares estimators, `ecef2Lla`, `lla2Ecef`, `simpleGravity`,
`strapdownDynamics` and `strapdownRk4` (C136), `gravityNed`, the ECEF/NED rotations, `nutationAngles`, `getCurrentEop`, `computeQuaternionFromRotationVec`, fine alignment and
the error dynamics (C163); the remaining functions have no output of the type of an input, or read every input before the first write.
Eigen's evaluation order inside sums is a parameter of the scalar type (`Flt.order`), so no theorem depends on it; only the `Float` tests and the instances ℝ and `XR`, where the order makes no difference (`XR.fsum_any_order`), fix it to left-to-right. Fused multiply-add is not modelled (the build files do not enable it).

**Layout.** `Scalar.lean`, `Outcome.lean`, `Eigen.lean` (infrastructure) · `RealInst.lean`, `XR.lean`, `Rnd.lean`, `Ieee.lean`, `Dbl.lean` (the scalar types) ·
`Conformance.lean` (unit-test vectors at `Float`; generated by `tools/gen_conformance.py` from `/repo/test`) · `Model/*.lean` (transcription, each definition cites
file and lines) · `Spec/*.lean` (what the properties mean, independent of the model) · `Lemmas/*.lean` (helpers) ·
`Props/*.lean` (the property theorems, with a non-vacuity `example` beside each).

**Coverage.** All functions in `/repo/src` are modelled: `util/` (Rotations, Attitude, Gravity, NavUtils), `inertial/` (strapdown, compensator, initialization, pvaErrorDynamics),
`filter/` (KalmanFilter, BatchLeastSquares). `include/util/dataTypes.hpp` only declares structs that no function uses. Reference parameters are values in, values out,
except in `Model/KalmanStore.lean`, `Model/Refs.lean` and `Model/RefsMore.lean`, which transcribe the calls once more over a memory.

## 3. Findings (places where the code does not have the property)

For these the full statement is kept, its negation is proved with a witness, and what does hold is proved as `_partial`.

| property | finding |
|---|---|
| C02, C01 | every 31 December the month loop reads `daysOfMonth[12]` (one past the end): undefined behaviour |
| C02, C03 | timestamps at or below -1 day read `daysOfMonth[-1]`; for -1 day < t < 0 the date is 1970-01-01 with non-positive h/m/s |
| C09 | month 0, day 0 and e.g. 31 February are accepted, NaN fields too; seconds in (59,60) are rejected |
| C12 | the second open uses `in|out`; on a read-only file it fails and `getEops` returns true with an empty table |
| C15 | a data row without the DAT column makes the columns unequal; lookups then read out of range |
| C13, C87 | interpolation goes to the next table row even if that is not the next day; UT1-UTC is interpolated across leap seconds |
| C22 | NaN latitude/longitude pass the range check |
| C25 | on the polar axis the altitude is NaN; elsewhere one Bowring step leaves up to 2.4e-8 rad, and `b` is not exactly `a(1-f)` |
| C26, C27 | near the Earth's centre latitude leaves its range (pi at (1,0,0)) and the mirror symmetry fails |
| C29 | every tie for the largest component with a zero fourth component (e.g. exact 90 degree rotations about x) divides by zero: NaN |
| C30 | the zero rotation vector gives NaN |
| C31 | round trip returns the negated rotation vector |
| C35, C92 | `euler2Dcm` returns the NED-to-body matrix (transpose of the documented one), and `Strapdown::initialize` stores it as `RB2N_` |
| C36, C37 | headings outside [0,pi) come back shifted by pi; heading exactly +-90 degrees is refused as a singularity; NaN is accepted |
| C44 | repeated time stamp (dt = 0) turns position and velocity into NaN |
| C45 | at the origin `simpleGravity` is NaN and returns true |
| C49 | zero angle increment turns the whole navigation state into NaN, permanently, while every call returns true |
| C126 | a non-zero angle increment of at most 2^-537.5 rad about each axis does the same: its squares underflow, the length is 0 and 0/0 is NaN |
| C129 | in double precision the predicted covariance can be asymmetric and can have a negative variance (of the size of the rounding) |
| C127 | the attitude of coarse alignment, converted with `dcm2Euler` and given to `initialize`, comes out turned by half a turn for every easterly heading of a level vehicle; all three calls report success |
| C52 | `integrate` before `initialize` reads indeterminate values; a time difference outside int64 overflows |
| C91 | the attitude update ignores Earth rate and transport rate: a vehicle at rest that senses the Earth's rotation drifts |
| C167 | the consequence of C91, at every latitude off the poles: at rest on the equator with perfect sensors the navigator reports more than 120 m/s and 24 km of travel after ten minutes |
| C172 | `integrate` never reduces the longitude: after the 180th meridian it exceeds pi and `lla2Ecef`, `computeREcef2Ned`, `computeRNed2Ecef` refuse the navigator's position |
| C177 | `integrate` compares no time stamps: a late or repeated sample is accepted with success, the stored time goes backwards and the attitude takes the turn again |
| C178 | NaN or infinite samples are integrated with success and are never forgotten: only `initialize` brings the navigator back |
| C180 | the longitude rate divides by `cos(lat)`: at a pole every velocity becomes non-finite with success, and at the double `M_PI/2` one metre per second east means 10^9 m/s² north |
| C188 | the matrix of `fineAlignmentPredict` has `+tan(lat)/r` for the effect of the east velocity on the heading; the error equations, and `nedErrorDynamics`, have `-tan(lat)/r` |
| C189 | `fineAlignmentAzimuthUpdate` subtracts azimuths without reducing the difference: with the compass just west and the estimate just east of north the heading is turned by up to a whole turn |
| C190 | the measurement matrix of the azimuth update leaves out the level tilts: for a pitched vehicle a perfect measurement spoils a perfect estimate in first order |
| C191 | `fineAlignmentAzimuthUpdate` uses the variance `sigAz² dtAz` although `sigAz` is documented in radians: with more than one azimuth per second the reported variance is below what any filter can reach |
| C194 | the cost reported by `WeightedLinearLeastSquares` can fall when a measurement is added (it is the unweighted cost of the weighted estimate, see C68) |
| C195 | `WeightedLinearLeastSquares` reports a cost that still contains measurements of weight zero, and NaN if one of them is NaN |
| C198 | `filterUpdate` given an infinite variance (noise or prior) returns a covariance without a single number in it and reports success |
| C55 | scale factor "error" 0 multiplies the measurement by 0 |
| C56 | compensation and getters before calibration read indeterminate values |
| C58, C94 | degenerate coarse alignment (pole, g = 0, wE = 0) is not finite and reports success; inconsistent readings give a non-rotation and success |
| C60, C95 | `Phik` is filled with the continuous-time matrix, not the transition matrix: prediction zeroes the gyro-bias states, for ever |
| C64 | entry F(5,9) drops the longitude-rate factor. The repository's test expects the right value (-6.18e-10) and passes because it compares whole matrices |
| C64 | `F` uses the Gaussian mean radius plus height, `G` the two radii separately (two different radii of curvature for the same point) |
| C68 | weighted least squares reports the unweighted cost |
| C71 | the placeholder measurement model leaves `yx` empty: size mismatch as soon as the loop body runs |
| C72 | equal starting points return the starting point with success; a NaN step also ends the loop with success |
| C152 | the cost reported by the nonlinear solvers is half ‖y - Hk x‖² with the last Jacobian, not that of the measurement function: a perfect fit of x^2 to 4 is reported with J = 8 |
| C73 | negative tolerance never terminates; non-contracting models neither |
| C112 | every singular innovation covariance (e.g. an exact measurement of an exactly known state, or the same exact measurement twice) makes all of estimate and covariance non-finite with success; NaN stays through all later calls |
| C113 | `LDLT::solve` zeroes directions whose pivot is at most 2^-1022: H = [2^-512], y = [1] yields x = 0 instead of 2^512, with success |
| C114 | a rank-deficient H with at least as many rows as columns is solved with success (`ldlt().info()` is never read, and would not tell) |
| C174 | `updateAttitude` has no coning compensation (its header leaves that to the sensor; for plain integrated rates it is missing): with perfect sensors on a coning vehicle the attitude drifts at every constant call rate until it is wrong by one half in an entry |
| C104 | the attitude at the end of the step and gravity at its start make the navigator a first-order method although `strapdownRk4` has order four |
| C119 | `unixTimestampToDateVec` drops the microseconds (integer seconds in the date vector), so the Earth orientation of a time stamp is that of the whole second before it: up to 7.3e-5 rad, 465 m on the ground |
| C139 | `computeQuaternionFromRotationVec` gives (1, NaN, NaN, NaN) with success when the squares of all components are at most 2⁻¹⁰⁷⁵; for the rotation vector (593, 102942, 0)/2¹⁵, just under a half turn, the conversion there and back gives NaN with success, because the computed length of the vector part exceeds one and the argument of `asin` is not clamped |
| C145 | in double precision the unscented prediction can return an asymmetric covariance, and the unscented update of a state with variance 2, measured with noise 2⁻⁷⁰ through sigma points 0, ±√2 rounded to double, returns the variance -2⁻⁵¹ with success |
| C138 | `dcm2Euler` of a level matrix for heading north, off by 2⁻⁴⁷ in one entry, reports a heading of 180 degrees with success |
| C137 | in double precision the NaN of C29 is not limited to exact ties: a roll of `M_PI/2` through `euler2Dcm` and `computeQuaternionFromDcm` gives NaN with success |
| C136 | `lla2Ecef` with the angles stored in the output vector returns a wrong point (y of the wrong sign in the witness); linear least squares with x written over y reports a wrong cost; iterative least squares with one object for the old and the new estimate returns it unchanged with success |
| C155 | every call of `fineAlignmentPredict` divides all reported variances by at least 10⁴, whatever was measured; after a few calls the filter ignores its measurements |
| C84 | negative centre weight can produce an indefinite covariance |

## 4. Plan per property

`E` = for every scalar type, `R` = at ℝ, `X` = at XR, `r` = at Rnd, `d` = at Dbl.

* C01 (R, integers) model: the whole function. Spec: a civil calendar given by a successor-day function and month lengths; the date of
  second `s` is the `s / 86400`-fold successor of 1970-01-01. Induction on years/months. Partial: not on 31 December.
* C02, C03 (R) exact characterisation of the inputs with UB; negation witnesses.
* C04 (E) list equation.  * C05 (r) truncation of the rounded quotient.
* C06-C09 (R) integer arithmetic after evaluating `floor`; spec = successor-day function with the 1582 gap.
* C10-C15 (E, R for interpolation) parser as a function of the character list; spec via split lines/fields of a rendered table.
* C16 (E) equations.  * C17, C18, C19, C20 (R / E) products of elementary rotations; transposes for every α.
* C21-C27 (R, X) trigonometric algebra, derivatives via `HasDerivAt`.
* C28-C38 (R, X, E) quaternions compared with Mathlib's `Quaternion`; Rodrigues formula.
* C39-C44 (R, X) RK4 against an independent tableau; limits with `HasDerivAt`.
* C45-C47 (R, X).  * C48-C52 (R, X, E) invariants over histories (lists of calls).
* C53-C56 (E, R) state machine against an abstract map.  * C57-C61 (R, X, E).
* C62-C65 (R) `mulVec` equations; C64 by `HasDerivAt` for each entry.
* C66-C73 (R, E) normal equations, completing the square; loop as fuel-indexed iteration with a divergence outcome.
* C74-C86 (R, E) matrix algebra and Mathlib's `PosSemidef`, Schur-complement-free completing of squares; histories by list induction.

* C87-C95 were added while modelling: C87 (R), C88, C89 (R) IAU series and sidereal time against `Spec/Iau.lean`; C90-C93 (X, E) navigator;
  C94 (X) consistency of coarse alignment, C95 (R) histories of alignment calls.
* C96 (R) `Spec/Stochastic.lean` describes a linear world with white noise on an arbitrary probability space (Mathlib measures, square-integrable
  random variables); induction over the run with the orthogonality principle as invariant. C97 (R, any `LinSolver`), C98, C99 (R).
* C100 (R) second derivatives by `HasDerivAt`, using C43 for the first one. C101 (X) uniqueness for the attitude equation: the candidate
  solution composed with the inverse turning motion has derivative zero.
* C102-C105 (R) `Lemmas/RungeKutta.lean` expands stages and exact solution with Mathlib power series; `Lemmas/Convergence.lean` turns
  pointwise into uniform local order and sums the errors (stability + consistency imply convergence). The statements of C104 and C105 are about
  `strapdownRk4` fed as C90/C101 say `integrate` feeds it, not about `integrate` itself: its time stamps are whole microseconds, so a step cannot tend to zero.
* C106 (r) error analysis of the date formulas: every intermediate result that has to be a whole number is one, and the products with 365.25 and
  30.6001 stay away from whole numbers, in every rounding mode. The replacement 30.6 for 30.6001 is caught here.
* C107-C109 (R) order on covariances (Mathlib `PosSemidef`), the same stochastic spec as C96 with inequalities instead of equalities, and
  orthogonality of innovations along a run.
* C110 (r) forward error analysis of one attitude step (rotation vector to matrix and product) summed over the run; the comparison rotation is an
  exact one that follows the computed increments. C111, C112 (X) with Eigen's LU, C113 (X, R) with Eigen's LDLT, C114 (R, any solver).
* C115 (R) information form: along a run without process noise the filter is equivalent to one estimate of the initial state with
  `(1 + P0 G) P = P0`, `G` the observability Gramian. C116 (X) rows of the triad solution in closed form, then norms.
* C117, C118 (r) forward error analysis of the frame matrices. `Lemmas/Approx.lean` has a calculus of statements "the rounded `x` is within `d` of
  the real `y`, which is at most `M`"; `Lemmas/RoundJ2000.lean` applies it line by line to the polynomials, the 106-row table and the reductions
  modulo a turn (where a computed floor may differ from the exact one by a whole turn, which the sine and cosine do not see).
* C119 (r) composition of C05, C106, C13 and C118 with a Lipschitz estimate of the IAU orientation in time (`Lemmas/EarthLip.lean`): upper bound by the
  rates of precession, nutation, sidereal angle and polar motion, lower bound by turning the equator.
* C120 (R) the quantity `sup (v·e)² / vᵀPv` shrinks by the factor `1 - q/b` at each prediction and does not grow at updates (Joseph form); no
  assumption on the matrix inverse.
* C121 (R) induction over the run; the gain transforms as `T K U⁻¹`.
* C122 (E, for every arithmetic with the listed sign laws; shown for X and for every odd rounding) equivariance of every step, lifted to runs.
* C123 (E, for every arithmetic where the shift can be added before or after; shown for X; clock shifts in every arithmetic).
* C124 (r against R) rounding error of one step by the calculus of C118 (`Lemmas/RoundNav.lean`, `NavStep.lean`), growth of differences by a linear
  sensitivity calculus (`Lemmas/NavLip.lean`, `NavSens.lean`; the bounds in these files were generated by interval propagation and are checked line by
  line), attitude error from C110, discrete Gronwall inequality over the run. The exact flight staying in the stated region is a hypothesis;
  `cruising_of_room` proves it for every run short enough for its start.
* C125 (d against R) every step of the calculus of C124 carries along that the double is finite and has the value of the rounded real; the attitude
  with coarse power-of-two bounds (`Lemmas/DblBound.lean`).
* C126 (d) refutation by evaluation in the default rounding mode; the set of increments that fail is characterised exactly (`C126_characterised`): between
  2^-537 and 1e-20 rad the computed `(1 - cos m)/m²` is up to 2^1021 and meaningless, but times the square of the angle it stays below a few units
  in the last place (`Lemmas/RoundTiny.lean`).
* C127 (X) composition of C57, C36 and C34; the refutation because `dcm2Euler` cannot see a common sign of the first two columns. No function in
  the repository makes this composition; the three headers give the matrix the same name and meaning.
* C128 (R) the sensitivity calculus of C124 with errors in the increments instead of rounding errors; the rotation depends on the rotation vector with
  Lipschitz constant one (`Lemmas/TurnLip.lean`, mean value inequality along `exp(sX) exp((1-s)Y)`).
* C129, C130 (d) componentwise error analysis for any size (`Lemmas/RoundMat.lean`): after k roundings a number is within (1 + 2^-52)^k - 1 of the exact
  one, relative to the same expression of magnitudes. Magnitudes are taken not below 1e-50, so that gradual underflow is covered by the relative
  error. The update is compared with the exact update *with the computed gain*, which by C97 is an honest filter; so nothing is needed about `inverse()`.
* C131 (X) two navigators related by a mounting rotation, by induction on the calls: the attitude increment of a turned rotation vector is the turned increment.
* C132 (R) the program around the library (choice of sigma points, mapping of the points) is part of the statement; the choice is an arbitrary rule with exact mean and scatter.
* C133 (R) monotone bounded sequences of quadratic forms; no continuity of the inverse is used: the limit is a fixed point because it is sandwiched, and the gap between
  two runs shrinks because the gain of the smaller covariance is suboptimal for the larger one (`Lemmas/Riccati.lean`).
* C134 (d against R) the calculus of C124 with `atan2`, cubes and quotients bounded by their exact value (`Lemmas/RoundGeodesy.lean`), then C25.
* C135 (X; residual part R) the program `navigate` in `Props/Calibrated.lean` joins the two classes; the exact part is C54 per call and induction over the flight, the residual part turns calibration errors into C128's sensor errors.
* C136 (E; refutations R/X) `Model/Refs.lean` transcribes the calls with objects addressed in a store, reads and writes in the order of the code; the theorems compare it with the value-passing model for every memory. Refuted in place for `lla2Ecef`, linear and iterative least squares.
* C137 (d) error calculus `Aj` through the two conversions (`Lemmas/RoundQuat.lean`); the comparisons are decided as in exact arithmetic when the margin exceeds the error of the squares. The refutation computes with `ieeeEven` (round to nearest even).
* C138 (d) arctangent of a quotient by the subtraction formula, so that the quotient may be large (`arctan_quot`, `arctan_rd`); arcsine through the arctangent (`arcsin_near`); heading branch decided with the margin at north.
* C139 (d) the factor sin(m/2)/m computed from any length m of at least 2^-537 is accurate to 3 units in the last place (`half_coef`), and below 10⁻²⁰ rad it is 1/2 whatever the relative error of m; relative error of the vector part carried to the arcsine (`back_core`, `back_exact`); the half-turn witness is evaluated operation by operation.
* C140 (d) relative errors with an absolute floor carried through the two 3x3 products (`Rz` calculus of Lemmas/RoundZero, which keeps exact zeros exact); NaN is absorbed by every summation tree.
* C141 (d) every entry of the matrix, of its adjugate and of the determinant is a product of signed monomials without cancellation (Lemmas/RoundAlign), so the inverse is accurate entry by entry; then C116 for the sensor errors.
* C142 (d) 1x1 inverse with Eigen's partial-pivoting LU (`luInverse_one`), gain accurate to twice the condition times the rounding count (`gain_rl`), then the update with a gain that is itself rounded (`update_rl'`).
* C143 (d) the day fraction of a double of at least 4 is exact and at most 1 - 2⁻⁵¹, which is just enough to absorb the two roundings of (b - a) f (`fract_double`, `lerp_mem` in Lemmas/RoundLerp; small differences are exact, `sub_exact`); falling columns through the mirrored rounding function.
* C144 (d) running sums of weighted terms (`Rl.foldl`, `meanC_rl`, `scatterC_rl` in Lemmas/RoundUkf); the update takes the finite gain that was computed as given (`UkfGainIs`), so its bound does not depend on the conditioning of the innovation covariance. The variance floor is monotonicity of rounding: adding a nonnegative term to a double never goes below it.
* C145 (d) from C144 and the exact quadratic form of the scatter; the two refutations compute with rounding to nearest on concrete doubles (`even_eq`, `ieeeEven_neg`).
* C146 (d) the entries of `F` by interval propagation (`nedF_ap`, Lemmas/RoundPva, generated and checked line by line); `G` through a relative error bound for Eigen's cofactor inverse of any diagonal matrix (`inv_diag_rz`, Lemmas/RoundDiag), where the entries off the diagonal are exactly zero.
* C147 (d) by induction on the eliminated columns (Lemmas/RoundLu): the residual of each row of `luSolve`, with pivot growth at most two per column and elimination factors at most one by monotone rounding; finiteness because each computed Schur complement shrinks vectors hardly more than the matrix itself (`Low.schur`). Regularity of `A` from Gershgorin's theorem.
* C148 (d) composes C147 with the rounding of the products; the noise floor bounds the inverse of the innovation covariance (`innovation_low`), and the exact covariance is a minimum in the gain (`KA.joseph_gap`), whence the second order. C129 and C130 left the inverse as a black box.
* C149 (d) by induction on the eliminated columns (Lemmas/RoundLdlt): the computed Schur complement keeps its eigenvalues above `c` minus the accumulated rounding (`PosL.schur`, `PosL.perturb`), its diagonal never grows, hence no pivot reaches the threshold below which Eigen drops it; backward error of each row. The factor `(16κ)^n` in `Posed.grow` only guards against overflow of the reduced right-hand side.
* C150 (d) composes C149 with the rounding of the products `HᵀH`, `Hᵀy` (`Rl` calculus). The two triangles of the computed `HᵀWH` may differ; only the lower one counts (`lowerOf_near`).
* C151 (R) Taylor's theorem with a Lipschitz Jacobian (Lemmas/GaussNewton, monotonicity of a scalar function along the segment), Cauchy-Schwarz in the metric of the weights, and induction over the rounds of the loop. The positive counterpart of C73.
* C152 (R) every successful run; a nonlinear witness against the full claim.
* C153 (d) composes C149 with the perturbed Newton step (`gn_perturbed`) and the rounding of the loop's norm (`vnorm_D`, whose argument is never negative, `Dbl.NN`); induction over the rounds with the noise floor as part of the invariant.
* C154 (d) splits the computed covariance into its symmetric and skew part and shows that one cycle contracts the skew part and the relative error of the variances, because Q is bounded below (`skew_step`, `var_step`, `est_step` in `Lemmas/KalmanStab`), while rounding adds a fixed amount (`cycle_dbl` in `Lemmas/RoundCycle`); induction over the cycles.
* C155 (R) bounds the reported covariance by a weighted diagonal that one prediction shrinks by 10^-4 (`wt_phi`), by induction over the calls; the honest part is C108 through a translation of the alignment calls (`sights_run`).
* C156 (R) the equations of motion are `Spec/Motion`; Gronwall's inequality twice, for the errors (`Excursion.drift`) and for their difference from the linear model; exact cancellation of the first-order terms by C63 and R (d x) R^T = (R d) x.
* C157 (d) bounds 2^k of all intermediate values (`Lemmas/J2000Dbl`, with a tactic that adds the exponents along an expression), so that the doubles are those of `Rnd r`; accuracy from C117 and C119.
* C158 (R) the normal equations of the two problems have corresponding solutions; the two loops are run in step. The cost that the nonlinear solvers report is only compared for changes without a shift of origin: it is y - H x, not y - h(x) (C152).
* C159 (R) weighted means and scatters are equivariant; induction over the run. The rule that chooses the points is the caller's and a parameter.
* C160 (d) predictions and velocity updates of fine alignment: finite, with explicit error bounds; the biases are zeroed exactly.
* C161 (d) the analysis of a product with a computed inverse (as in C148) for rounded factors, composed with C144; the difference of `K S Kᵀ` for two gains
  expanded with `S Gᵀ = Tᵀ`.
* C162 (d) as C153, with the triangle and Cauchy–Schwarz inequalities in the metric of the weights and the normal equations of C150 (weighted).
* C163 (E) `Model/RefsMore.lean` transcribes the remaining calls over a memory; the sums of `nutationAngles`, accumulated in the outputs, by induction over the table; locals of
  the alignment at fresh addresses, then C82.
* C164 (E) each call depends on the object only through "replace or keep" (`load_cases`), rotations keep it; induction over the history.
* C165 (R) the plane of the equator is invariant (Gronwall), angular momentum about the axis is conserved there, and the remaining equation for the altitude
  error is a differential inequality `x'' ≥ x / 580²` (convexity of the centrifugal term, gravity gradient of the code); the navigator by C105.
* C166 (R, d) the estimate in any direction is bounded by a multiple of the reported standard deviation in that direction: Cauchy-Schwarz splits a cycle into the
  carried-over part and the new measurement, and the process noise leaves room for the new part. Gives `Along`, the run assumption of C154.
* C167 (R) violated. The specific force the navigator computes turns with the Earth (explicit solution of the attitude equation); the resulting motion on the equator is computed in closed form and carried over to the navigator; `C167_everywhere_fails` extends it to every latitude off the poles (short-time law 3.3e-4 cos(lat) T² m/s).
  exists for ten minutes (Picard-Lindelof with the right-hand side cut off outside a box, in which the solution is then shown to stay) and is bounded from below
  component by component; the navigator by C105. Unconditional: nothing is assumed about the motion.
  `C105_run`, `C165_run` and `C167_run_fails` state these for runs of `integrateDt`, which is `integrate` with the interval given as a number instead of as the
  difference of two microsecond counts (`integrate_eq_integrateDt` says that it is the same function).
* C168 (R) `C168_grows_poleward`, `C168_mixed_derivatives`, `C168_closed_loop`: the north and down components of `gravityNed` fit together as the gradient of one potential, to within two percent of the variation of gravity with latitude, from 0 to 20 km; stated by derivatives and by the work around a closed loop (integrals of the returned components).
* C169 (R) `C169_fictitious_forces_do_no_work`, `C169_energy_balance`, `C169_energy_of_a_flight`: energy balance along solutions of the equations `strapdownDynamics` evaluates, with `gravityNed`; the lift energy is an integral of the returned down component.
* C170 (R) `C170_rates_agree`: the sidereal rotation of `computeGreenwichHourAngle` and the constant `wE` of the navigation equations describe the same rotation of the Earth, to 9e-12 rad/s, for any two instants from 1900 to 2100.
* C171 (X) `C171_level_flight`: level flight along any parallel is reproduced exactly by any number of calls (spec: `lonRate`, `levelForce`); `level_flight_exists` shows that such readings exist for every start, all times and all rotations.
* C172 (X, R) `C172_date_line_fails`, `C172_eastbound_partial`, `C172_wrapped_partial`: the navigator does not wrap the longitude, so beyond the 180th meridian the frame conversions refuse its position; exactly when, and what a caller can do.
* C173 (R) `C173_models_agree`: `simpleGravity` at the point of `lla2Ecef`, in the axes of `computeREcef2Ned`, exceeds `gravityNed` by 0.016 to 0.034 m/s² vertically and at most 0.034 m/s² horizontally, everywhere up to 20 km.
* C174 (X) `C174_changing_rates`: with exact angle increments each call adds at most `2 L M h³` to the attitude error, for every rate function bounded by `M` and Lipschitz with `L`; `C174_no_better`: for a coning rate a call over `h ≤ 0.1 s` errs by at least `h³/24`; `C174_drifts_away`: these errors accumulate, at every constant call rate of at least 10 Hz, until an entry of the attitude matrix is wrong by one half.
* C175 (S) at `SZ` the value of every operation except division by a negative zero and `atan2` is that of `XR`, so the work is to show which divisors can be a negative zero (closure rules in Verif/SZ.lean); `C175_navigator` by induction on the calls, a finite longitude excludes a zero divisor in all four stages; `C175_ecef2Lla_characterised` follows the sign of z through Bowring's formula.
* C176 (E) relational induction over two histories; the invariant is equality of the stored attitude only.
* C177 (E) the negation for every initialised state; the partial theorem keeps the direction that holds.
* C178 (X) every sum with a non-finite term and every product with a non-finite factor is non-finite, in any order of evaluation; the new position and velocity are the old ones plus corrections, the new attitude rows are combinations of the old row.
* C179 (R) merging by induction over the intervals; commuting by induction over the permutation from the exchange of two updates (C79).
* C180 (X, R) `C180_at_the_pole_fails` for every state whose latitude has cosine 0; `C180_next_to_the_pole_fails` covers the double `M_PI/2`; the partial theorem bounds the Coriolis and transport terms of `strapdownDynamics` for all other latitudes.
* C181 (R) `C181_no_jumps`: lookups on both sides of midnight use different rows; in a table with one row a day they meet, and the matrix moves only with the Earth.
* C182 (R) `C182_gravity_gradient`, `C182_schuler`, `C182_period`: all solutions of x' = F x in closed form, F being what `inertialErrorDynamics` writes.
* C183 (R) `C183_unscented_mean`: mean of the propagated random state against the weighted mean of the propagated points, by moments; `C183_covariance_is_not_exact` is the limit of the method.
* C184 (X, R) `C184_there_and_back`: the other direction of C25, for positions instead of coordinates; the horizontal part is exact because the altitude is computed from it.
* C185 (R) `C185_residual_shrinks`, `C185_between`: no overshoot, singular covariances included.
* C186 (X) `C186_mounting`, `C186_reversed_sensors_unnoticed`: coarse alignment under turned and reversed sensors.
* C187 (X) `C187_same_errors`: the two error models are one model in two sets of axes.
* C188 (R; X for `nedErrorDynamics`) `C188_resting_errors_partial`, `C188_heading_sign_fails`, `C188_nedErrorDynamics_right`: the coefficients of the fine alignment matrix against the error equations; one has the wrong sign.
* C189 (R) `C189_azimuth_characterised_partial`, `C189_full_turn_fails`, `C189_across_north_fails`: the azimuth residual is not reduced to a half turn (spec: Mathlib's `Real.Angle.toReal`).
* C190 (R) `C190_tilted_azimuth_partial`, `C190_pitched_fails`: the derivative of the azimuth residual by `Complex.log`; the measurement matrix of the azimuth is right for level vehicles only.
* C191 (R) `C191_documented_noise_characterised_partial`, `C191_overconfident_fails`, `C191_velocity_overconfident_fails`: the azimuth and velocity variances against the best linear correction.
* C192 (X) `C192_four_readings`, `C192_three_not_enough`: how many readings determine a calibration.
* C193 (R) `C193_total_information`, `C193_averaging`: simultaneous measurements act through the totals of `Hᵀ R⁻¹ H` and `Hᵀ R⁻¹ z`.
* C194 (R) `C194_more_data`, `C194_weighted_more_data_partial`, `C194_weighted_cost_falls_fails`: cost and estimate when measurements are added.
* C195 (R, X) `C195_zero_weight_partial`, `C195_cost_fails`, `C195_nan_fails`: measurements with weight zero.
* C196 (X) `C196_units`, `C196_scale_factors`: units and unknown scale factors in coarse alignment.
* C197 (R) `C197_uncoupled`: uncoupled, unmeasured states neither influence the others nor are influenced.
* C198 (X, R) `C198_infinite_noise_fails`, `C198_infinite_prior_fails`, `C198_large_noise_partial`, `C198_large_prior_partial`: infinite and growing variances.
* C199 (R) `C199_nearest`, `C199_climb`: altitude is the distance from the ellipsoid.
* C200 (E, R) `C200_covariance`, `C200_superposition`: covariance independent of the data, estimate linear in them.
* C201 (E, R) `C201_covariance`, `C201_offset`, `C201_weights_needed`: what the unscented update depends on.
* C202 (X) `C202_unweighted`, `C202_weighted`, `C202_characterised`: a finite cost certifies data and estimate.

Nothing in `properties.jsonl` is considered inexpressible.

## 5. Testing the theorems

`seeded/LOG.jsonl` has one line per deliberately broken model: the definition, the edit, the claim it breaks and the declarations that no longer
check. Edits known to be equivalent at the modelled arithmetic (for instance the previous
against the current attitude where both are equal) are not logged as caught. `Conformance.lean` is left out of those runs, so that only theorems catch anything.
