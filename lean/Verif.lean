import Verif.Spec.Discount
import Verif.Spec.Moments
import Verif.Spec.ElasticNet
import Verif.Spec.LeastSquares
import Verif.Spec.LinearModel
import Verif.Model.Gram
import Verif.Model.Flt
import Verif.Model.Scaler
import Verif.Model.Utils
import Verif.Model.CoordinateDescent
import Verif.Model.Methods
import Verif.Model.InformationCriteria
import Verif.Model.Py
import Verif.Model.LinearModel
import Verif.Model.Factory
import Verif.Lemmas.Discount
import Verif.Lemmas.Gram
import Verif.Lemmas.Scaler
import Verif.Lemmas.CoordinateDescent
import Verif.Lemmas.Methods
import Verif.Lemmas.InformationCriteria
import Verif.Lemmas.LeastSquares
import Verif.Lemmas.LinearModel
import Verif.Lemmas.LinearModelOls
import Verif.Props.Gram
import Verif.Props.Utils
import Verif.Props.Scaler
import Verif.Props.CoordinateDescent
import Verif.Props.Methods
import Verif.Props.InformationCriteria
import Verif.Props.LeastSquares
import Verif.Props.Factory
import Verif.Props.LinearModel
import Verif.Props.Penalty
import Verif.Model.RobustMath
import Verif.Model.Links
import Verif.Model.SpecialFunctions
import Verif.Model.Scipy
import Verif.Model.Distributions
import Verif.Model.DistributionFunctions
import Verif.Spec.Law
import Verif.Spec.Distributions
import Verif.Lemmas.Polygamma
import Verif.Lemmas.Scores
import Verif.Lemmas.LogPdf
import Verif.Lemmas.LogDensity
import Verif.Lemmas.Info
import Verif.Props.Scores
import Verif.Props.Density
import Verif.Spec.Links
import Verif.Lemmas.Links
import Verif.Props.Links
import Verif.Lemmas.Law
import Verif.Lemmas.InflatedLaw
import Verif.Props.Cdf
import Verif.Props.InitialValues
import Verif.Model.GamlssOptions
import Verif.Model.Gamlss
import Verif.Lemmas.PyLogic
import Verif.Lemmas.GammaShape
import Verif.Lemmas.GamlssOptions
import Verif.Lemmas.Gamlss
import Verif.Lemmas.GamlssCalls
import Verif.Lemmas.GamlssLoops
import Verif.Props.GamlssOptions
import Verif.Props.GamlssLoops
import Verif.Lemmas.GamlssErrors
import Verif.Props.GamlssCalls
import Verif.Model.ConditionalStart
import Verif.Props.ConditionalStart
import Verif.Model.GamlssInstances
import Verif.Props.GamlssPredict
import Verif.Lemmas.GamlssOverlay
import Verif.Model.GamlssDebug
import Verif.Props.GamlssDebug
import Verif.Lemmas.GamlssSuccess
import Verif.Props.GamlssSuccess
import Verif.Lemmas.GamlssToy
import Verif.Props.GamlssFitted
import Verif.Props.GamlssExamples
import Verif.Model.OnlineLasso
import Verif.Props.OnlineLasso
import Verif.Lemmas.LawChange
import Verif.Lemmas.LawStudent
import Verif.Lemmas.LawInverseGauss
import Verif.Lemmas.ExpFamily
import Verif.Lemmas.LawOf
import Verif.Lemmas.BaseMoments
import Verif.Lemmas.BaseMoments2
import Verif.Spec.Information
import Verif.Lemmas.Fisher
import Verif.Lemmas.Fisher2
import Verif.Lemmas.Fisher3
import Verif.Lemmas.Euler
import Verif.Props.Fisher
import Verif.Spec.LawMoments
import Verif.Props.Moments
import Verif.Props.StartMoments
import Verif.Props.CdfAll
import Verif.Model.RandomVariates
import Verif.Props.RandomVariates
import Verif.Lemmas.GamlssNormalRun
import Verif.Lemmas.GamlssOls
import Verif.Lemmas.GamlssNormalValues
import Verif.Lemmas.GamlssNormal
import Verif.Spec.GamlssNormal
import Verif.Lemmas.GamlssNormalFit
import Verif.Props.GamlssNormal
import Verif.Spec.Working
import Verif.Lemmas.Working
import Verif.Props.GamlssWorking
import Verif.Model.GramFlt
import Verif.Lemmas.Nan
import Verif.Props.GamlssNan
import Verif.Spec.Selection
import Verif.Lemmas.Selection
import Verif.Lemmas.SelectionLoops
import Verif.Lemmas.GamlssPathToy
import Verif.Props.GamlssSelection
import Verif.Props.GamlssPooling
import Verif.Lemmas.GamlssHidden
import Verif.Lemmas.GamlssTwins
import Verif.Lemmas.LinearModelTwins
import Verif.Spec.Units
import Verif.Spec.Likelihood
import Verif.Lemmas.Units
import Verif.Props.Refit
import Verif.Props.Units
import Verif.Lemmas.ResponseUnits
import Verif.Lemmas.LinearModelUnits
import Verif.Lemmas.Scoring
import Verif.Props.ResponseUnits
import Verif.Props.Scoring
import Verif.Spec.RowOrder
import Verif.Lemmas.RowOrder
import Verif.Lemmas.Along
import Verif.Lemmas.GamlssRows
import Verif.Lemmas.GamlssRowsUpdate
import Verif.Lemmas.GamlssRowsCalls
import Verif.Lemmas.RowOrderInstances
import Verif.Props.RowOrder
import Verif.Spec.FitTrace
import Verif.Lemmas.FitTrace
import Verif.Lemmas.UpdateTrace
import Verif.Props.FitTrace
import Verif.Props.FittedValues
import Verif.Spec.Accuracy
import Verif.Lemmas.CDAccuracy
import Verif.Lemmas.CDConvergence
import Verif.Props.CDAccuracy
import Verif.Spec.Frequencies
import Verif.Lemmas.Frequencies
import Verif.Props.Frequencies
import Verif.Spec.Columns
import Verif.Lemmas.Columns
import Verif.Props.Columns
import Verif.Spec.Fading
import Verif.Lemmas.Fading
import Verif.Props.Fading
import Verif.Props.Quantiles
import Verif.Lemmas.GamlssSource
import Verif.Spec.WorkingRegression
import Verif.Lemmas.GamlssPackage
import Verif.Props.GamlssSource
import Verif.Lemmas.GamlssRidge
import Verif.Props.GamlssRidge
import Verif.Props.GamlssPathCase
import Verif.Props.GamlssPackage
import Verif.Props.GamlssEquation
import Verif.Props.GaussMarkov
import Verif.Props.Directions
import Verif.Props.Coordinates
import Verif.Props.MaximumLikelihood
import Verif.Props.Rounding
import Verif.Props.Adaptation
import Verif.Props.Improvement
import Verif.Props.WeightUnits
import Verif.Props.PenalisedBatch
import Verif.Spec.Calibration
import Verif.Spec.Stability
import Verif.Props.Calibration
import Verif.Props.Stability
import Verif.Spec.Origin
import Verif.Props.Origin
import Verif.Props.PointsOfRest
import Verif.Spec.GamlssWeightUnits
import Verif.Lemmas.GamlssWeightUnits
import Verif.Lemmas.GamlssWeightUnitsCalls
import Verif.Lemmas.EarlyStop
import Verif.Lemmas.EarlyStopFit
import Verif.Props.GamlssWeightUnits
import Verif.Spec.GamlssCoordinates
import Verif.Lemmas.GamlssCoordinates
import Verif.Lemmas.GamlssCoordinatesOls
import Verif.Lemmas.GamlssCoordinatesCalls
import Verif.Props.GamlssCoordinates
import Verif.Spec.GamlssOrigin
import Verif.Lemmas.GamlssOrigin
import Verif.Lemmas.GamlssOriginLoops
import Verif.Lemmas.GamlssOriginOls
import Verif.Lemmas.GamlssOriginCalls
import Verif.Lemmas.GamlssOriginDist
import Verif.Props.GamlssOrigin
import Verif.Spec.PathTradeoff
import Verif.Props.PathTradeoff
import Verif.Spec.RowByRow
import Verif.Props.RowByRow
import Verif.Spec.Nested
import Verif.Props.Nested
import Verif.Spec.UnitOfResponse
import Verif.Props.UnitOfResponse
import Verif.Spec.Relatives
import Verif.Props.Relatives
import Verif.Props.Ordering
import Verif.Props.FairComparison
import Verif.Spec.BestForecasts
import Verif.Props.BestForecasts
import Verif.Props.Prequential
import Verif.Props.Regret
import Verif.Props.LeaveOneOut
import Verif.Props.Repetition
