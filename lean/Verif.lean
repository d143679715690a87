import Verif.Props.Categorical
import Verif.Props.LogLik
import Verif.Props.Graded
import Verif.Props.Scores
import Verif.Props.Construct
import Verif.Props.Nested
import Verif.Props.Mix
import Verif.Props.Surprisal
import Verif.Props.ScoreDist
import Verif.Props.Sharing
import Verif.Props.OneHot
import Verif.Props.Impute
import Verif.Props.Splits
import Verif.Props.Activation
import Verif.Props.Poly
import Verif.Props.Linear
import Verif.Props.Monotone
import Verif.Props.Splines
import Verif.Props.RQSpline
import Verif.Props.Rescale
import Verif.Props.FlowLink
import Verif.Props.RankCDF
import Verif.Props.Outlier
import Verif.Props.Bit
import Verif.Props.BitPath
import Verif.Props.BitJacobian
import Verif.Props.Information
import Verif.Props.Quadrature
import Verif.Props.Imv
import Verif.Props.Mixture
import Verif.Props.Scoring
import Verif.Props.LatentScores
import Verif.Props.Training
import Verif.Props.VAE
import Verif.Props.LatentFunctions
import Verif.Props.Utils
import Verif.Props.Encoders
import Verif.Props.Correlation
import Verif.Props.Entropy
import Verif.Props.Classification
import Verif.Props.Residuals
import Verif.Props.GroupFit
import Verif.Props.Groups
import Verif.Props.SumScores
import Verif.Props.Persist
import Verif.Props.Density
import Verif.Props.Marginal
import Verif.Props.Posterior
import Verif.Props.LinkLoss
import Verif.Props.Dependence
import Verif.Props.Plotter
import Verif.Props.Sampling
import Verif.Props.SplineBatch
import Verif.Props.Datasets
import Verif.Props.Directions
import Verif.Props.ScaleTraining
import Verif.Props.CvPool
import Verif.Props.FlowDensity
import Verif.Props.Figures
import Verif.Props.LikelihoodSum
import Verif.Props.Autoencoder
import Verif.Props.ScoreOrder
import Verif.Props.Sufficient
import Verif.Props.ScoreSearch
import Verif.Props.Underflow
import Verif.Props.BitLimit
import Verif.Props.MmlSymmetry
import Verif.Props.MmlNotBest
import Verif.Props.Fisher
import Verif.Props.Identify
import Verif.Props.Nesting
import Verif.Props.Constructors
import Verif.Props.SplineConstructors
import Verif.Props.Lifecycle
import Verif.Props.Joint
import Verif.Props.JointTwoItems
import Verif.Props.ItemFigures
import Verif.Props.FitOrder
import Verif.Props.EncoderNet
import Verif.Props.BatchNormFit
import Verif.Props.EvaluationOrder
import Verif.Props.EvaluatorCalls
import Verif.Props.DependenceTests
import Verif.Props.TestScores
import Verif.Props.FitCrash
import Verif.Props.ScoreEquations
import Verif.Props.MinimumExists
import Verif.Props.Autograd
import Verif.Props.Recode
import Verif.Props.Reach
import Verif.Props.Frequencies
import Verif.Props.ItemOrder
import Verif.Props.Population
import Verif.Props.TrueModel
import Verif.Props.LogLikMean
import Verif.Props.ExpectedFit
import Verif.Model.MixScorer
import Verif.Spec.Mix
import Verif.Props.MixScoring
import Verif.Lemmas.ImportanceSamples
import Verif.Props.VaeSamples
import Verif.Spec.Affinity
import Verif.Props.LongTests
import Verif.Spec.LargeSample
import Verif.Lemmas.LargeSample
import Verif.Props.LargeSample
import Verif.Props.MixEvaluation
import Verif.Props.LinkRecovery
import Verif.Props.LinkMonotone
import Verif.Spec.Objectivity
import Verif.Props.Objectivity
import Verif.Model.Layout
import Verif.Spec.Layout
import Verif.Props.Layout
import Verif.Spec.LongSearch
import Verif.Props.LongSearch
import Verif.Props.LongTestsLogit
import Verif.Model.Rounding
import Verif.Spec.Rounding
import Verif.Lemmas.Rounding
import Verif.Lemmas.Truncation
import Verif.Props.Rounding
import Verif.Spec.Stability
import Verif.Props.Stability
import Verif.Lemmas.HermiteLimit
import Verif.Lemmas.HermiteRule
import Verif.Spec.QuadratureLimit
import Verif.Props.QuadratureLimit
import Verif.Spec.ModelChoice
import Verif.Props.ModelChoice
import Verif.Spec.Convention
import Verif.Props.Convention
import Verif.Spec.LeftOut
import Verif.Props.LeftOut
import Verif.Model.Reset
import Verif.Spec.Reset
import Verif.Props.Reset
import Verif.Spec.EapStability
import Verif.Props.EapStability
import Verif.Props.MixVae
import Verif.Spec.ScoreMoments
import Verif.Props.ScoreMoments
import Verif.Props.BitSlope
import Verif.Spec.MixtureImage
import Verif.Props.MixtureScale
import Verif.Model.JointFit
import Verif.Props.JointOrder
import Verif.Props.JointOrderModels
import Verif.Spec.NormalPopulation
import Verif.Props.NormalPopulation
import Verif.Props.DefaultBias
import Verif.Props.CalibratedScores
import Verif.Spec.OtherPopulation
import Verif.Props.OtherPopulation
import Verif.Props.TwoPLIdentified
import Verif.Props.GradedIdentified
import Verif.Lemmas.SingleCrossing
import Verif.Props.SimpleStructure
import Verif.Props.Rotation
import Verif.Spec.Booklets
import Verif.Props.Booklets
import Verif.Props.BookletsGraded
import Verif.Props.RaschBooklets
import Verif.Props.BookletScores
import Verif.Props.BookletGroups
import Verif.Props.SingleItems
import Verif.Spec.Saturated
import Verif.Props.Saturated
import Verif.Props.Merging
import Verif.Props.SumScoreInfo
