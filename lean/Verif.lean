import Verif.Props.MatrixOps
import Verif.Props.Decomposition
import Verif.Props.Steps
import Verif.Props.Safety
import Verif.Props.Riccati
import Verif.Props.History
import Verif.Props.ExtendedHistory
import Verif.Props.Builder
import Verif.Props.Aliasing
import Verif.Props.FixedPoint
import Verif.Props.Rounding
import Verif.Props.RoundingChol
import Verif.Props.Stochastic
import Verif.Props.Crash
import Verif.Props.Coordinates
import Verif.Props.LeastSquares
import Verif.Props.Monotone
import Verif.Props.Examples
import Verif.Props.ExtendedSteps
import Verif.Props.Radar
import Verif.Props.RoundingCorrect
import Verif.Props.Order

import Verif.Props.Float
import Verif.Props.Residual
import Verif.Props.WorstCase
import Verif.Props.Apart
import Verif.Props.Steady
import Verif.Props.Parametric
import Verif.Props.Fixed
import Verif.Props.GravityFixed
import Verif.Props.Schedule
import Verif.Props.FloatPrograms
import Verif.Props.Builds
import Verif.Props.Limit
import Verif.Props.LimitExtended
import Verif.Props.Checked
import Verif.Props.CheckedGravity
import Verif.Props.CheckedLimit
import Verif.Props.CheckedOps
import Verif.Props.Linearised
import Verif.Props.OpenLoop
import Verif.Props.Rest
import Verif.Props.Convergence
import Verif.Props.GaussNewton
import Verif.Props.ExtendedShared
import Verif.Props.ExtendedCrash
import Verif.Props.Storage
import Verif.Props.FirmwareCalls
import Verif.Props.FailedCorrection
import Verif.Props.Variance
import Verif.Props.Observer
import Verif.Props.ExtendedCovariance
import Verif.Props.CorrectFixed
import Verif.Props.Forever
import Verif.Props.ForeverFixed
import Verif.Props.ForeverExtended
import Verif.Props.Range
import Verif.Props.Parts
import Verif.Props.PartsExtended
import Verif.Props.CoordinatesExtended
import Verif.Props.Overshoot
import Verif.Props.Late
import Verif.Props.Clone
import Verif.Props.Known
