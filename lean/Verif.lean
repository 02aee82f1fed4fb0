import Verif.Props.Adafactor
import Verif.Props.Adam
import Verif.Props.AppRun
import Verif.Props.Attack
import Verif.Props.AttackConfig
import Verif.Props.AttackFiles
import Verif.Props.AttackLoss
import Verif.Props.AttackModel
import Verif.Props.AttackRestore
import Verif.Props.AttackRouting
import Verif.Props.AttackRun
import Verif.Props.Attention
import Verif.Props.BalanceGradients
import Verif.Props.BatchOrder
import Verif.Props.BatchSpec
import Verif.Props.Bfloat16
import Verif.Props.CapacityMonotone
import Verif.Props.CentralCrop
import Verif.Props.ChoiceGradient
import Verif.Props.CkptFiles
import Verif.Props.ConfigOverride
import Verif.Props.Contrastive
import Verif.Props.ContrastiveEval
import Verif.Props.ContrastiveStep
import Verif.Props.DataPipeline
import Verif.Props.DataShare
import Verif.Props.DecayRules
import Verif.Props.DenseTransport
import Verif.Props.DirSync
import Verif.Props.DirectoryBuilder
import Verif.Props.Donation
import Verif.Props.Downhill
import Verif.Props.Encoder
import Verif.Props.Ensemble
import Verif.Props.EnsembleBlock
import Verif.Props.EnsembleEval
import Verif.Props.EnsembleLoss
import Verif.Props.EnsembleModel
import Verif.Props.EnsembleStart
import Verif.Props.EvalAction
import Verif.Props.EvalRun
import Verif.Props.Evaluator
import Verif.Props.ExampleStorage
import Verif.Props.ExchangeLayout
import Verif.Props.ExpertChoiceBlock
import Verif.Props.Exploration
import Verif.Props.Fewshot
import Verif.Props.FewshotAction
import Verif.Props.FewshotBest
import Verif.Props.FewshotRidge
import Verif.Props.FewshotStep
import Verif.Props.FilteredEval
import Verif.Props.FineTune
import Verif.Props.Hooks
import Verif.Props.IdleDrift
import Verif.Props.IdleExperts
import Verif.Props.ImageOps
import Verif.Props.Influence
import Verif.Props.InitRules
import Verif.Props.InitVmoe
import Verif.Props.InterruptedData
import Verif.Props.Layout
import Verif.Props.LazyChunks
import Verif.Props.LoadGradient
import Verif.Props.LoadNoise
import Verif.Props.LossFn
import Verif.Props.LossGradients
import Verif.Props.Mapping
import Verif.Props.MappingDonation
import Verif.Props.MeshLog
import Verif.Props.MeshOther
import Verif.Props.MicrostepGroups
import Verif.Props.Mixup
import Verif.Props.ModelGradient
import Verif.Props.ModuleConfig
import Verif.Props.MoeAxes
import Verif.Props.MoeBlock
import Verif.Props.MoeCapacity
import Verif.Props.MoeDense
import Verif.Props.MoeExpertChoice
import Verif.Props.MoeRouting
import Verif.Props.Multihost
import Verif.Props.NaturalSort
import Verif.Props.NoNan
import Verif.Props.Optimizer
import Verif.Props.OptimizerFull
import Verif.Props.OptimizerRecipes
import Verif.Props.OtRouting
import Verif.Props.Overflow
import Verif.Props.PaddedBatch
import Verif.Props.PaperConfigs
import Verif.Props.ParseCall
import Verif.Props.Partitioned
import Verif.Props.Partitioning
import Verif.Props.Placement
import Verif.Props.PpOps
import Verif.Props.Prefetch
import Verif.Props.ProcessText
import Verif.Props.Progress
import Verif.Props.Regex
import Verif.Props.RegexSub
import Verif.Props.Relabel
import Verif.Props.RemovePool
import Verif.Props.RestorePool
import Verif.Props.RestoreStructure
import Verif.Props.RouterGradient
import Verif.Props.RoutingStability
import Verif.Props.RulesParse
import Verif.Props.RunCapacity
import Verif.Props.SafeZip
import Verif.Props.Schedule
import Verif.Props.Serialization
import Verif.Props.SinkhornLimit
import Verif.Props.SoftConfigs
import Verif.Props.SoftGradient
import Verif.Props.SoftLoss
import Verif.Props.SoftMetrics
import Verif.Props.SoftModel
import Verif.Props.SoftMoe
import Verif.Props.SoftRouter
import Verif.Props.Splits
import Verif.Props.Spmd
import Verif.Props.StartMethods
import Verif.Props.StateFile
import Verif.Props.StepSummaries
import Verif.Props.Summarizer
import Verif.Props.SummarizerConfig
import Verif.Props.SummarizerOps
import Verif.Props.TotalLoss
import Verif.Props.TowerGradient
import Verif.Props.TowerMetrics
import Verif.Props.TrainLoop
import Verif.Props.TrainStart
import Verif.Props.TrainState
import Verif.Props.TrainStep
import Verif.Props.TrainStream
import Verif.Props.Trainer
import Verif.Props.Upcycling
import Verif.Props.Vit
import Verif.Props.VmoeModel
import Verif.Audit
