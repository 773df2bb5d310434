import Verif.Props.Config
import Verif.Props.CompHist
import Verif.Props.Weighted
import Verif.Props.Component
import Verif.Props.Hist
import Verif.Props.Parameter
import Verif.Props.Interp
import Verif.Props.Likelihood
import Verif.Props.Context
import Verif.Props.Fit
import Verif.Props.Json
import Verif.Props.Randgen
import Verif.Props.Sigmas
import Verif.Props.Plugins
import Verif.Props.Yields
import Verif.Props.Omega
import Verif.Props.Shipped
import Verif.Props.Register
import Verif.Props.Profiler
import Verif.Props.Utils
import Verif.Props.Chain
import Verif.Props.MapPlot
import Verif.Props.MapSave
import Verif.Props.Autocorr
import Verif.Props.Acceptance
import Verif.Props.Binomial
import Verif.Props.GenPoisson
import Verif.Props.Whole
import Verif.Props.Limit
import Verif.Props.Lineage
import Verif.Props.Declare
import Verif.Props.Recompile
import Verif.Props.Show
import Verif.Props.Graph
import Verif.Props.Template
import Verif.Props.PriorPlot
import Verif.Props.BurnIn
import Verif.Props.HistPlot
import Verif.Props.Single
import Verif.Lemmas.NegBinom
import Verif.Props.NegBinom
import Verif.Model.MapFile
import Verif.Props.MapFile
import Verif.Model.ShippedMaps
import Verif.Model.MapUse
import Verif.Lemmas.Quantile
import Verif.Props.Quantile
import Verif.Lemmas.ShippedMaps
import Verif.Props.ShippedMaps
import Verif.Model.ProfileTime
import Verif.Spec.ProfileTime
import Verif.Lemmas.ProfileTime
import Verif.Props.ProfileTime
import Verif.Model.Wrapper
import Verif.Props.Wrapper
import Verif.Model.Names
import Verif.Model.ShippedNames
import Verif.Spec.Names
import Verif.Lemmas.Names
import Verif.Lemmas.ShippedNames
import Verif.Props.Names
import Verif.Model.MapPic
import Verif.Spec.MapPic
import Verif.Lemmas.MapPic
import Verif.Props.MapPic
import Verif.Props.MapBand
import Verif.Spec.Signals
import Verif.Lemmas.Signals
import Verif.Props.Signals
import Verif.Props.YieldLaws
import Verif.Spec.Sampler
import Verif.Lemmas.Sampler
import Verif.Props.Sampler
import Verif.Model.Messages
import Verif.Spec.Messages
import Verif.Lemmas.Messages
import Verif.Lemmas.MessageText
import Verif.Props.Messages
import Verif.Model.Files
import Verif.Lemmas.Files
import Verif.Props.Files
import Verif.Spec.Counts
import Verif.Lemmas.Counts
import Verif.Props.Counts
import Verif.Model.Summary
import Verif.Spec.Summary
import Verif.Lemmas.Summary
import Verif.Props.Summary
import Verif.Model.Session
import Verif.Spec.Session
import Verif.Lemmas.Session
import Verif.Props.Session
import Verif.Model.Contexts
import Verif.Spec.Contexts
import Verif.Lemmas.Contexts
import Verif.Props.Contexts
import Verif.Model.Instruct
import Verif.Spec.Instruct
import Verif.Lemmas.Instruct
import Verif.Props.Instruct
import Verif.Model.Keys
import Verif.Spec.Keys
import Verif.Lemmas.Keys
import Verif.Props.Keys
import Verif.Spec.Rates
import Verif.Lemmas.Rates
import Verif.Props.Rates
import Verif.Spec.Composition
import Verif.Lemmas.Composition
import Verif.Props.Composition
import Verif.Spec.FileDocs
import Verif.Props.FileDocs
import Verif.Spec.Noise
import Verif.Lemmas.Noise
import Verif.Props.Noise
import Verif.Model.Equiprob
import Verif.Spec.Equiprob
import Verif.Props.Equiprob
import Verif.Spec.Width
import Verif.Lemmas.Width
import Verif.Props.Width
import Verif.Spec.Walk
import Verif.Model.Walk
import Verif.Lemmas.Walk
import Verif.Props.Walk
import Verif.Lemmas.Stored
import Verif.Props.Stored
import Verif.Spec.Thin
import Verif.Lemmas.Thin
import Verif.Props.Thin
import Verif.Model.SingleNorm
import Verif.Lemmas.SingleNorm
import Verif.Props.SingleNorm
import Verif.Model.Continue
import Verif.Props.Continue
import Verif.Model.SingleBins
import Verif.Lemmas.Round
import Verif.Props.SingleBins
import Verif.Lemmas.BinomialSpread
import Verif.Props.BinomialSpread
import Verif.Model.SingleLlh
import Verif.Props.SingleLlh
import Verif.Props.RoundedCounts
import Verif.Props.Smooth
import Verif.Props.SingleModel
import Verif.Props.PriorSample
import Verif.Props.InstructOptions
import Verif.Model.ShippedLiterature
import Verif.Model.Literature
import Verif.Props.Literature
import Verif.Model.ShippedPars
import Verif.Props.ShippedPars
import Verif.Lemmas.SigmaSolve
import Verif.Props.SigmaSolve
import Verif.Model.SingleMaps
import Verif.Lemmas.SingleMaps
import Verif.Props.SingleMaps
import Verif.Lemmas.SpreadLow
import Verif.Props.SpreadLow
import Verif.Spec.Truth
import Verif.Lemmas.Truth
import Verif.Props.Truth
import Verif.Spec.Refine
import Verif.Lemmas.Refine
import Verif.Props.Refine
import Verif.Spec.Units
import Verif.Lemmas.Units
import Verif.Props.Units
import Verif.Model.ChainPlots
import Verif.Spec.ChainPlots
import Verif.Lemmas.ChainPlots
import Verif.Props.AutocorrPlot
import Verif.Lemmas.Corner
import Verif.Props.CornerPlot
import Verif.Spec.Peak
import Verif.Lemmas.PriorConcave
import Verif.Lemmas.Peak
import Verif.Props.Peak
import Verif.Model.MarginalPlot
import Verif.Spec.MarginalPlot
import Verif.Lemmas.MarginalPlot
import Verif.Props.MarginalPlot
import Verif.Model.ContextClasses
import Verif.Props.ContextClasses
import Verif.Spec.Larger
import Verif.Lemmas.Larger
import Verif.Props.Larger
import Verif.Spec.TruthAll
import Verif.Lemmas.TruthAll
import Verif.Props.TruthAll
import Verif.Spec.Proper
import Verif.Lemmas.Proper
import Verif.Props.Proper
import Verif.Spec.Unread
import Verif.Lemmas.Unread
import Verif.Props.Unread
import Verif.Spec.Order
import Verif.Lemmas.Order
import Verif.Props.Order
import Verif.Spec.Repeats
import Verif.Lemmas.Repeats
import Verif.Props.Repeats
import Verif.Spec.Scale
import Verif.Lemmas.Scale
import Verif.Props.Scale
import Verif.Model.Startup
import Verif.Props.Startup
import Verif.Spec.Measured
import Verif.Lemmas.Measured
import Verif.Props.Measured
import Verif.Spec.Lengths
import Verif.Lemmas.Lengths
import Verif.Props.Lengths
import Verif.Spec.Runs
import Verif.Lemmas.Runs
import Verif.Props.Runs
import Verif.Spec.Events
import Verif.Lemmas.Events
import Verif.Props.Events
import Verif.Spec.Fixing
import Verif.Lemmas.Fixing
import Verif.Props.Fixing
import Verif.Spec.Reprior
import Verif.Lemmas.Reprior
import Verif.Props.Reprior
import Verif.Spec.Renaming
import Verif.Lemmas.Renaming
import Verif.Props.Renaming
import Verif.Model.UniformKey
import Verif.Props.UniformKey
import Verif.Spec.Blocks
import Verif.Lemmas.Blocks
import Verif.Props.Blocks
import Verif.Props.MapLoaded
import Verif.Props.EmptyPlugin
