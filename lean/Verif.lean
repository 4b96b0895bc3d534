import Verif.Attr
import Verif.Conformance
import Verif.Dbl
import Verif.Eigen
import Verif.Ieee
import Verif.Lemmas.Approx
import Verif.Lemmas.AttitudeEval
import Verif.Lemmas.Bowring
import Verif.Lemmas.BowringErr
import Verif.Lemmas.Calendar
import Verif.Lemmas.Convergence
import Verif.Lemmas.DblBound
import Verif.Lemmas.EarthLip
import Verif.Lemmas.Ellipsoid
import Verif.Lemmas.EntryDeriv
import Verif.Lemmas.Eop
import Verif.Lemmas.GaussNewton
import Verif.Lemmas.J2000
import Verif.Lemmas.J2000Dbl
import Verif.Lemmas.KalmanAlgebra
import Verif.Lemmas.KalmanEval
import Verif.Lemmas.KalmanStab
import Verif.Lemmas.Mjd
import Verif.Lemmas.Moments
import Verif.Lemmas.NavEval
import Verif.Lemmas.NavLip
import Verif.Lemmas.NavSens
import Verif.Lemmas.NavSmooth
import Verif.Lemmas.NavStep
import Verif.Lemmas.PvaEval
import Verif.Lemmas.PvaNedEval
import Verif.Lemmas.Riccati
import Verif.Lemmas.Rot
import Verif.Lemmas.RoundAlign
import Verif.Lemmas.RoundAttitude
import Verif.Lemmas.RoundCycle
import Verif.Lemmas.RoundDiag
import Verif.Lemmas.RoundEuler
import Verif.Lemmas.RoundFrames
import Verif.Lemmas.RoundGeodesy
import Verif.Lemmas.RoundIncrement
import Verif.Lemmas.RoundJ2000
import Verif.Lemmas.RoundKalman
import Verif.Lemmas.RoundLdlt
import Verif.Lemmas.RoundLerp
import Verif.Lemmas.RoundLu
import Verif.Lemmas.RoundMat
import Verif.Lemmas.RoundNav
import Verif.Lemmas.RoundNonlinear
import Verif.Lemmas.RoundPva
import Verif.Lemmas.RoundQuat
import Verif.Lemmas.RoundRotVec
import Verif.Lemmas.RoundScalar
import Verif.Lemmas.RoundTiny
import Verif.Lemmas.RoundUkf
import Verif.Lemmas.RoundZero
import Verif.Lemmas.Rounding
import Verif.Lemmas.RungeKutta
import Verif.Lemmas.Solvers
import Verif.Lemmas.Stochastic
import Verif.Lemmas.StrapdownEval
import Verif.Lemmas.SumOrder
import Verif.Lemmas.SumSmall
import Verif.Lemmas.TurnLip
import Verif.Model.Attitude
import Verif.Model.Calendar
import Verif.Model.Compensator
import Verif.Model.Eop
import Verif.Model.Geodesy
import Verif.Model.Gravity
import Verif.Model.Init
import Verif.Model.J2000
import Verif.Model.Kalman
import Verif.Model.KalmanStore
import Verif.Model.LeastSquares
import Verif.Model.NavUtils
import Verif.Model.NutTable
import Verif.Model.Pva
import Verif.Model.Refs
import Verif.Model.RefsMore
import Verif.Model.Solvers
import Verif.Model.Strapdown
import Verif.Outcome
import Verif.Props.AlignExact
import Verif.Props.AlignModel
import Verif.Props.AlignMount
import Verif.Props.AlignNoise
import Verif.Props.AlignRuns
import Verif.Props.AlignScale
import Verif.Props.AlignStepDbl
import Verif.Props.AttitudeRnd
import Verif.Props.AzimuthTilt
import Verif.Props.AzimuthTurn
import Verif.Props.Calendar
import Verif.Props.CalendarRnd
import Verif.Props.CalibIdent
import Verif.Props.Calibrated
import Verif.Props.Compensator
import Verif.Props.CompensatorDbl
import Verif.Props.CompensatorExact
import Verif.Props.Coning
import Verif.Props.ConingDrift
import Verif.Props.CostExact
import Verif.Props.DateLine
import Verif.Props.Decoupled
import Verif.Props.EarthContinuity
import Verif.Props.EarthRate
import Verif.Props.Ellipsoid
import Verif.Props.Energy
import Verif.Props.Eop
import Verif.Props.EopDbl
import Verif.Props.EopExact
import Verif.Props.EopHistory
import Verif.Props.Estimators
import Verif.Props.Euler
import Verif.Props.EulerDbl
import Verif.Props.EulerExact
import Verif.Props.Exact
import Verif.Props.FiniteCost
import Verif.Props.GainDbl
import Verif.Props.GaussNewton
import Verif.Props.Geodesy
import Verif.Props.GeodesyDbl
import Verif.Props.Gravity
import Verif.Props.GravityAgree
import Verif.Props.GravityField
import Verif.Props.Handover
import Verif.Props.Information
import Verif.Props.Init
import Verif.Props.InitDbl
import Verif.Props.InitFineDbl
import Verif.Props.InitSens
import Verif.Props.J2000
import Verif.Props.J2000Rnd
import Verif.Props.Kalman
import Verif.Props.KalmanAlias
import Verif.Props.KalmanBounded
import Verif.Props.KalmanConservative
import Verif.Props.KalmanDbl
import Verif.Props.KalmanForget
import Verif.Props.KalmanInfo
import Verif.Props.KalmanInnovations
import Verif.Props.KalmanLongRun
import Verif.Props.KalmanOrder
import Verif.Props.KalmanRun
import Verif.Props.KalmanScalarDbl
import Verif.Props.KalmanSteady
import Verif.Props.KalmanTowards
import Verif.Props.KalmanUncoupled
import Verif.Props.LdltDbl
import Verif.Props.LeastSquares
import Verif.Props.LeastSquaresDbl
import Verif.Props.Lla
import Verif.Props.LlaBack
import Verif.Props.LlaRange
import Verif.Props.LsqUnits
import Verif.Props.Mjd
import Verif.Props.MjdRnd
import Verif.Props.MoreData
import Verif.Props.Mounting
import Verif.Props.NavExact
import Verif.Props.NavUtils
import Verif.Props.NavigatorDbl
import Verif.Props.NavigatorOrder
import Verif.Props.NavigatorRnd
import Verif.Props.NavigatorRun
import Verif.Props.Nearest
import Verif.Props.Newton
import Verif.Props.NoInfo
import Verif.Props.NonlinearDbl
import Verif.Props.NonlinearWDbl
import Verif.Props.Order
import Verif.Props.Poison
import Verif.Props.Pole
import Verif.Props.Pva
import Verif.Props.PvaDbl
import Verif.Props.PvaFrames
import Verif.Props.PvaLinear
import Verif.Props.PvaNed
import Verif.Props.Quaternion
import Verif.Props.QuaternionDbl
import Verif.Props.Refs
import Verif.Props.RefsMore
import Verif.Props.RestDrift
import Verif.Props.RestEverywhere
import Verif.Props.RotVec
import Verif.Props.RotVecDbl
import Verif.Props.Schuler
import Verif.Props.SensorErrors
import Verif.Props.SignedZero
import Verif.Props.SignedZeroMore
import Verif.Props.Solvers
import Verif.Props.SolversDbl
import Verif.Props.Strapdown
import Verif.Props.StrapdownNav
import Verif.Props.StrapdownOde
import Verif.Props.Superposition
import Verif.Props.Symmetry
import Verif.Props.TimeFrame
import Verif.Props.TimeFrameDbl
import Verif.Props.Ukf
import Verif.Props.UkfDbl
import Verif.Props.UkfExact
import Verif.Props.UkfGainDbl
import Verif.Props.UkfOffset
import Verif.Props.UkfOrder
import Verif.Props.UkfRun
import Verif.Props.UkfUnits
import Verif.Props.VerticalChannel
import Verif.Props.ZeroWeight
import Verif.RealInst
import Verif.Rnd
import Verif.SZ
import Verif.Scalar
import Verif.Spec.Calendar
import Verif.Spec.Csv
import Verif.Spec.Earth
import Verif.Spec.ErrorModel
import Verif.Spec.Estimation
import Verif.Spec.Iau
import Verif.Spec.Motion
import Verif.Spec.Rotation
import Verif.Spec.Stochastic
import Verif.XR
