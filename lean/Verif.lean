import Verif.Model.Instances
import Verif.Proofs.Hist
import Verif.Proofs.HistRep
import Verif.Proofs.Variance
import Verif.Proofs.Criteria
import Verif.Proofs.Reductions
import Verif.Proofs.MseVar
import Verif.Proofs.Arms
import Verif.Proofs.Sample
import Verif.Proofs.MakeHists
import Verif.Proofs.XFOrd
import Verif.Proofs.Exact
import Verif.Proofs.Threshold
import Verif.Props.Histogram
import Verif.Props.Criteria
import Verif.Props.Exact
import Verif.Spec.Loop
import Verif.Proofs.Mab
import Verif.Proofs.MabLoop
import Verif.Proofs.MabRun
import Verif.Props.Solvers
import Verif.Proofs.MabPoint
import Verif.Proofs.MabTotal
import Verif.Proofs.MabFull
import Verif.Proofs.MabRound
import Verif.Props.Solvers2
import Verif.Spec.Grow
import Verif.Proofs.TreeStep
import Verif.Proofs.TreeSim
import Verif.Proofs.TreeNodes
import Verif.Proofs.TreeShape
import Verif.Proofs.TreePass
import Verif.Proofs.TreeTerm
import Verif.Proofs.TreeFacts
import Verif.Proofs.TreeGrow
import Verif.Proofs.TreeBudget
import Verif.Props.Tree
import Verif.Props.Tree2
import Verif.Proofs.Counts
import Verif.Proofs.TreePredict
import Verif.Proofs.TreeSum
import Verif.Props.Predict
import Verif.Proofs.TreeTotal
import Verif.Props.Total
import Verif.Proofs.Utils
import Verif.Props.Utils
import Verif.Props.Binning
import Verif.Model.HistVec
import Verif.Proofs.HistVec
import Verif.Props.HistVec
import Verif.Spec.Forest
import Verif.Proofs.Forest
import Verif.Props.ForestEx
import Verif.Props.Forest
import Verif.Proofs.ForestPredict
import Verif.Props.ForestPredict
import Verif.Props.Boost
import Verif.Proofs.Mdi
import Verif.Props.Mdi
import Verif.Proofs.Oob
import Verif.Props.Oob
import Verif.Model.Importance
import Verif.Proofs.Stability
import Verif.Props.Stability
import Verif.Props.Used
import Verif.Props.Importance
import Verif.Proofs.ForestTotal
import Verif.Props.ForestTotal
import Verif.Model.Wrappers
import Verif.Props.Wrappers
import Verif.Props.Discrete
import Verif.Props.Limits
import Verif.Props.Grid
import Verif.Props.Spearman
import Verif.Model.CriteriaVec
import Verif.Props.CriteriaVec
import Verif.Props.TrainError
import Verif.Proofs.Recode
import Verif.Proofs.RecodeMab
import Verif.Proofs.RecodeTree
import Verif.Proofs.RecodeForest
import Verif.Proofs.RecodeRun
import Verif.Props.Recode
import Verif.Props.RecodeTotal
import Verif.Props.Sampled
import Verif.Props.Forget
import Verif.Spec.Cart
import Verif.Proofs.Cart
import Verif.Props.Cart
import Verif.Proofs.Prefix
import Verif.Props.Prefix
import Verif.Proofs.Unspent
import Verif.Props.Unspent
import Verif.Model.Print
import Verif.Spec.Outline
import Verif.Props.Print
import Verif.Props.OneTree
import Verif.Model.Recursive
import Verif.Spec.Recursive
import Verif.Proofs.Recursive
import Verif.Props.Recursive
import Verif.Model.Boosting
import Verif.Spec.Boosting
import Verif.Spec.Merge
import Verif.Props.Boosting
import Verif.Spec.Wrappers
import Verif.Props.Kinds
import Verif.Spec.Experiment
import Verif.Props.Experiment
import Verif.Proofs.MabEst
import Verif.Props.Regret
import Verif.Model.Rounding
import Verif.Spec.Rounding
import Verif.Proofs.Rounding
import Verif.Props.Rounding
import Verif.Spec.Sampling
import Verif.Proofs.Sampling
import Verif.Proofs.SamplingMse
import Verif.Props.Sampling
import Verif.Proofs.SamplingGini
import Verif.Props.SamplingGini
import Verif.Spec.CartMore
import Verif.Proofs.CartMore
import Verif.Props.CartMore
import Verif.Props.Listed
import Verif.Props.AutoBins
import Verif.Props.Box
import Verif.Props.IntTargets
import Verif.Props.Answers
import Verif.Props.Compare
import Verif.Props.Verdict
import Verif.Props.StabTest
import Verif.Props.BiasVar
import Verif.Props.Huge
import Verif.Model.Missing
import Verif.Spec.Missing
import Verif.Props.Missing
import Verif.Proofs.Missing
import Verif.Props.MissingFit
import Verif.Model.Interrupt
import Verif.Props.Interrupt
import Verif.Model.InterruptTree
import Verif.Props.InterruptTree
import Verif.Model.Threads
import Verif.Proofs.Threads
import Verif.Props.Threads
import Verif.Spec.OneBatch
import Verif.Proofs.OneBatch
import Verif.Props.OneBatch
import Verif.Spec.Chance
import Verif.Proofs.GiniError
import Verif.Proofs.Chance
import Verif.Props.Chance
import Verif.Spec.MabCost
import Verif.Props.MabCost
import Verif.Model.FitThreads
import Verif.Spec.FitThreads
import Verif.Proofs.FitQuiet
import Verif.Proofs.FitResume
import Verif.Proofs.FitThreads
import Verif.Proofs.FitMachine
import Verif.Props.FitThreads
import Verif.Proofs.FitSound
import Verif.Props.FitSound
import Verif.Props.MoreLeaves
import Verif.Props.Memorise
import Verif.Props.CostBound
import Verif.Props.Average
import Verif.Model.RoundGini
import Verif.Spec.RoundGini
import Verif.Props.RoundGini
import Verif.Model.RoundMse
import Verif.Props.RoundMse
import Verif.Spec.ColOrder
import Verif.Props.ColOrder
import Verif.Model.RoundAnswers
import Verif.Spec.RoundAnswers
import Verif.Props.RoundAnswers
import Verif.Model.Heart
import Verif.Spec.Heart
import Verif.Props.Heart
import Verif.Spec.Mirror
import Verif.Props.Mirror
import Verif.Props.MoreBudget
import Verif.Proofs.BudgetScan
import Verif.Props.BudgetError
import Verif.Model.Tables
import Verif.Spec.Tables
import Verif.Props.Tables
import Verif.Model.Scaling
import Verif.Props.Scaling
import Verif.Model.Holdout
import Verif.Spec.Holdout
import Verif.Props.Holdout
import Verif.Props.Balanced
import Verif.Proofs.SplitGain
import Verif.Props.BoostProgress
import Verif.Model.LogRead
import Verif.Spec.LogRead
import Verif.Props.LogRead
import Verif.Spec.Greedy
import Verif.Props.SmallData
import Verif.Spec.Blind
import Verif.Proofs.Blind
import Verif.Props.Blind
import Verif.Model.Baseline
import Verif.Spec.Baseline
import Verif.Props.Baseline
import Verif.Spec.Size
import Verif.Props.Size
import Verif.Spec.ExactCost
import Verif.Props.ExactCost
import Verif.Model.Explore
import Verif.Spec.Explore
import Verif.Props.Explore
import Verif.Model.Toy
import Verif.Spec.Separable
import Verif.Props.Separable
import Verif.Props.SeparableForest
import Verif.Model.Profile
import Verif.Spec.Profile
import Verif.Props.Profile
import Verif.Spec.Voting
import Verif.Props.Voting
import Verif.Spec.Balance
import Verif.Props.Balance
import Verif.Model.CsvLog
import Verif.Spec.CsvLog
import Verif.Props.CsvLog
import Verif.Model.RunFiles
import Verif.Props.RunFiles
import Verif.Model.Reproduce
import Verif.Spec.Reproduce
import Verif.Props.Reproduce
