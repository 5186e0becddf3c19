import Verif.Model.BTTB
import Verif.Model.Base
import Verif.Model.Bench
import Verif.Model.BenchCogp
import Verif.Model.BenchData
import Verif.Model.BenchFigures
import Verif.Model.BenchLmc
import Verif.Model.BenchRun
import Verif.Model.FFT
import Verif.Model.FunctionalKernel
import Verif.Model.Gpy
import Verif.Model.GpyLMC
import Verif.Model.GridKernel
import Verif.Model.Interp
import Verif.Model.Iterative
import Verif.Model.Kern
import Verif.Model.LLGP
import Verif.Model.LLGPState
import Verif.Model.Likelihood
import Verif.Model.Matrix
import Verif.Model.Mean
import Verif.Model.Modes
import Verif.Model.MultiGP
import Verif.Model.Multilevel
import Verif.Model.Noaa
import Verif.Model.NumpyUtil
import Verif.Model.Optimization
import Verif.Model.Optimizer
import Verif.Model.Parameterization
import Verif.Model.Pickle
import Verif.Model.PriorOptim
import Verif.Model.Priors
import Verif.Model.PyUtil
import Verif.Model.RawProduct
import Verif.Model.Readme
import Verif.Model.Search
import Verif.Model.Setters
import Verif.Model.Shared
import Verif.Model.Shur
import Verif.Model.TestHelpers
import Verif.Model.TestingUtils
import Verif.Model.Toeplitz
import Verif.Model.Work
import Verif.Proofs.Amplitude
import Verif.Proofs.ApproxGrad
import Verif.Proofs.ApproxUnbiased
import Verif.Proofs.BTTB
import Verif.Proofs.Base
import Verif.Proofs.BenchGrads
import Verif.Proofs.BenchLmc
import Verif.Proofs.BenchOps
import Verif.Proofs.BenchOpt
import Verif.Proofs.BenchRun
import Verif.Proofs.Beyond
import Verif.Proofs.Bicubic
import Verif.Proofs.Built
import Verif.Proofs.CalibratedPredictions
import Verif.Proofs.Calibration
import Verif.Proofs.Cholesky
import Verif.Proofs.Continuity
import Verif.Proofs.Csr
import Verif.Proofs.EigBound
import Verif.Proofs.EigBound2
import Verif.Proofs.FFT
import Verif.Proofs.FK
import Verif.Proofs.Fit
import Verif.Proofs.Gibbs
import Verif.Proofs.GpyLMC
import Verif.Proofs.GridKernel
import Verif.Proofs.GridOps
import Verif.Proofs.Influence
import Verif.Proofs.Interp
import Verif.Proofs.Isomorphic
import Verif.Proofs.KernPsd
import Verif.Proofs.LLGP
import Verif.Proofs.LLGPAnswer
import Verif.Proofs.LLGPAnyState
import Verif.Proofs.LLGPCache
import Verif.Proofs.LLGPComplete
import Verif.Proofs.LLGPExample
import Verif.Proofs.LLGPExplained
import Verif.Proofs.LLGPHistory
import Verif.Proofs.LLGPInterp
import Verif.Proofs.LLGPMixed
import Verif.Proofs.LLGPNew
import Verif.Proofs.LLGPPredict
import Verif.Proofs.LLGPRaw
import Verif.Proofs.LLGPSim
import Verif.Proofs.LLGPThrough
import Verif.Proofs.LLGPTiny
import Verif.Proofs.LLGPUpdate
import Verif.Proofs.LLGPValid
import Verif.Proofs.LLGPVar
import Verif.Proofs.Likelihood
import Verif.Proofs.LikelihoodNear
import Verif.Proofs.MadeFrom
import Verif.Proofs.MatDeriv
import Verif.Proofs.Matern
import Verif.Proofs.Matrix
import Verif.Proofs.Matrix2
import Verif.Proofs.Matrix3
import Verif.Proofs.Measured
import Verif.Proofs.Modes
import Verif.Proofs.MoreVariance
import Verif.Proofs.MultiInterp
import Verif.Proofs.NDArr
import Verif.Proofs.Noaa
import Verif.Proofs.NumpyUtil
import Verif.Proofs.Observations
import Verif.Proofs.Optimizer
import Verif.Proofs.OptimizerLoop
import Verif.Proofs.OptimizerRun
import Verif.Proofs.OptimizerValid
import Verif.Proofs.Pointwise
import Verif.Proofs.Ppf
import Verif.Proofs.RawProduct
import Verif.Proofs.Reached
import Verif.Proofs.Relabelled
import Verif.Proofs.Renumbered
import Verif.Proofs.Reordered
import Verif.Proofs.Repeated
import Verif.Proofs.SameCovariance
import Verif.Proofs.Setters
import Verif.Proofs.SettersStale
import Verif.Proofs.SettersValid
import Verif.Proofs.Shared
import Verif.Proofs.Shift
import Verif.Proofs.Shur
import Verif.Proofs.SkiAccuracy
import Verif.Proofs.SkiGrids
import Verif.Proofs.SkiLimit
import Verif.Proofs.SkiPsd
import Verif.Proofs.SkiVariance
import Verif.Proofs.SmallModel
import Verif.Proofs.Smooth
import Verif.Proofs.Spread
import Verif.Proofs.Stretched
import Verif.Proofs.TestingUtils
import Verif.Proofs.Toeplitz
import Verif.Proofs.Tolerance
import Verif.Proofs.Uncoupled
import Verif.Proofs.Units
import Verif.Proofs.Unseen
import Verif.Proofs.Update
import Verif.Proofs.Values
import Verif.Proofs.VarianceBounds
import Verif.Proofs.Work
import Verif.Proofs.WorkBound
import Verif.Proofs.WorkPrice
import Verif.Props.Amplitude
import Verif.Props.ApproxUnbiased
import Verif.Props.Autogrid
import Verif.Props.BasicModel
import Verif.Props.Bench
import Verif.Props.BenchCogp
import Verif.Props.BenchData
import Verif.Props.BenchFigures
import Verif.Props.BenchLmc
import Verif.Props.BenchRun
import Verif.Props.BenchTables
import Verif.Props.Beyond
import Verif.Props.Calibration
import Verif.Props.CalibrationDraws
import Verif.Props.Continuity
import Verif.Props.Documented
import Verif.Props.Eig
import Verif.Props.FK
import Verif.Props.FK2
import Verif.Props.Fit
import Verif.Props.Gpy
import Verif.Props.GpyLMC
import Verif.Props.Grid
import Verif.Props.Grid2
import Verif.Props.Grids
import Verif.Props.Influence
import Verif.Props.Interp
import Verif.Props.Interp2
import Verif.Props.Iterative
import Verif.Props.Kern
import Verif.Props.KernPsd
import Verif.Props.LLGP
import Verif.Props.LLGPPredict
import Verif.Props.LLGPState
import Verif.Props.LLGPViolated
import Verif.Props.LikReady
import Verif.Props.Likelihood
import Verif.Props.Likelihood2
import Verif.Props.LinAlg
import Verif.Props.LogLikBounds
import Verif.Props.Mean
import Verif.Props.Measured
import Verif.Props.MetricsValues
import Verif.Props.Modes
import Verif.Props.MoreVariance
import Verif.Props.MultiGP
import Verif.Props.Multilevel
import Verif.Props.Noaa
import Verif.Props.Objective
import Verif.Props.Observations
import Verif.Props.Optimization
import Verif.Props.Optimizer
import Verif.Props.OptimizerGrad
import Verif.Props.Parameterization
import Verif.Props.Pickle
import Verif.Props.Pointwise
import Verif.Props.Predict
import Verif.Props.PriorOptim
import Verif.Props.Priors
import Verif.Props.ProperScore
import Verif.Props.PyUtil
import Verif.Props.RawProduct
import Verif.Props.Reached
import Verif.Props.ReachedMore
import Verif.Props.Readme
import Verif.Props.Relabelled
import Verif.Props.Renumbered
import Verif.Props.Reordered
import Verif.Props.Repeated
import Verif.Props.SameCovariance
import Verif.Props.Search
import Verif.Props.Setters
import Verif.Props.Shared
import Verif.Props.Shur
import Verif.Props.SingleGrad
import Verif.Props.SkiAccuracy
import Verif.Props.Smooth
import Verif.Props.Spread
import Verif.Props.Stochastic
import Verif.Props.Stretched
import Verif.Props.Symmetry
import Verif.Props.TestHelpers
import Verif.Props.TestingUtils
import Verif.Props.Tolerance
import Verif.Props.Transcript
import Verif.Props.TwoModels
import Verif.Props.Uncoupled
import Verif.Props.Unseen
import Verif.Props.Update
import Verif.Props.Util
import Verif.Props.ValueGradient
import Verif.Props.Values
import Verif.Props.VarianceBounds
import Verif.Props.Work
import Verif.Spec.Amplitude
import Verif.Spec.BTTB
import Verif.Spec.Bench
import Verif.Spec.BenchCogp
import Verif.Spec.BenchData
import Verif.Spec.BenchFigures
import Verif.Spec.BenchLmc
import Verif.Spec.BenchRun
import Verif.Spec.Built
import Verif.Spec.Calibration
import Verif.Spec.Continuity
import Verif.Spec.Documented
import Verif.Spec.Eig
import Verif.Spec.FK
import Verif.Spec.Fit
import Verif.Spec.Gpy
import Verif.Spec.GpyLMC
import Verif.Spec.Grid
import Verif.Spec.Grids
import Verif.Spec.Influence
import Verif.Spec.Interp
import Verif.Spec.Iterative
import Verif.Spec.Kern
import Verif.Spec.LLGP
import Verif.Spec.LLGPState
import Verif.Spec.LLGPValid
import Verif.Spec.Likelihood
import Verif.Spec.LinAlg
import Verif.Spec.LogLikBounds
import Verif.Spec.Measured
import Verif.Spec.MetricsValues
import Verif.Spec.Modes
import Verif.Spec.MoreVariance
import Verif.Spec.MultiGP
import Verif.Spec.Multilevel
import Verif.Spec.Noaa
import Verif.Spec.Observations
import Verif.Spec.Optimization
import Verif.Spec.Optimizer
import Verif.Spec.Parameterization
import Verif.Spec.Predict
import Verif.Spec.PriorOptim
import Verif.Spec.Priors
import Verif.Spec.ProperScore
import Verif.Spec.RawProduct
import Verif.Spec.Reached
import Verif.Spec.Readme
import Verif.Spec.Relabelled
import Verif.Spec.Renumbered
import Verif.Spec.Repeated
import Verif.Spec.SameCovariance
import Verif.Spec.Search
import Verif.Spec.Setters
import Verif.Spec.Shared
import Verif.Spec.SkiAccuracy
import Verif.Spec.Smooth
import Verif.Spec.Spread
import Verif.Spec.Stretched
import Verif.Spec.Symmetry
import Verif.Spec.TestHelpers
import Verif.Spec.TestingUtils
import Verif.Spec.Tolerance
import Verif.Spec.Uncoupled
import Verif.Spec.Unseen
import Verif.Spec.Update
import Verif.Spec.ValueGradient
import Verif.Spec.Values
import Verif.Spec.Work
