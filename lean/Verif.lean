import Verif.Props.Ring
import Verif.Props.Trajectory
import Verif.Props.Series
import Verif.Props.Histogram
import Verif.Props.HistogramAction
import Verif.Props.BirthDeath
import Verif.Props.Rates
import Verif.Props.Potential
import Verif.Props.Polynomial
import Verif.Props.MuellerBrown
import Verif.Props.Langevin
import Verif.Props.LangevinReal
import Verif.Props.Heap
import Verif.Props.Grid
import Verif.Props.Trapz
import Verif.Props.Convolve
import Verif.Props.Density
import Verif.Props.Approximation
import Verif.Model.InputParser
import Verif.Spec.InputParser
import Verif.Lemmas.InputParser
import Verif.Props.InputParser
import Verif.Props.InputSections
import Verif.Model.Interpolation
import Verif.Props.Interpolation
import Verif.Model.Fes
import Verif.Spec.Fes
import Verif.Props.Fes
import Verif.Props.States
import Verif.Props.FesGrid
import Verif.Model.Init
import Verif.Props.Init
import Verif.Props.InitInput
import Verif.Model.Plot
import Verif.Model.Main
import Verif.Spec.Main
import Verif.Props.Main
import Verif.Props.MainRun
import Verif.Props.MainDemo
import Verif.Props.MainDemoFes
import Verif.Props.Seeds
import Verif.Props.Variant
import Verif.Props.Dependencies
import Verif.Props.MainParts
import Verif.Props.Setup
import Verif.Props.EndToEnd
import Verif.Props.MainResults
import Verif.Props.MainAnalysis
import Verif.Props.MainExamples
import Verif.Props.Plot
import Verif.Props.Progress
import Verif.Props.MainProgress
import Verif.Props.MainFiles
import Verif.Props.MainOutput
import Verif.Props.MainOutputHist
import Verif.Model.Files
import Verif.Props.Files
import Verif.Model.Headers
import Verif.Props.Headers
import Verif.Model.Header
import Verif.Props.HeaderRoundTrip
import Verif.Props.MainGridFiles
import Verif.Props.MainOutputGrid
import Verif.Spec.Options
import Verif.Spec.Path
import Verif.Props.MainSetup
import Verif.Props.MainPath
import Verif.Props.MainPathDemo
import Verif.Spec.Selection
import Verif.Spec.Run
import Verif.Props.BirthDeathExact
import Verif.Props.MainBirthDeath
import Verif.Props.MainSimulation
import Verif.Props.MainSimulationDemo
import Verif.Spec.Plot
import Verif.Props.MainPlots
import Verif.Props.PlotImage
import Verif.Spec.Report
import Verif.Model.Report
import Verif.Props.Report
import Verif.Props.ReportDemo
import Verif.Props.MainPlotsDemo
import Verif.Props.Distribution
import Verif.Props.Equilibrium
import Verif.Props.Copies
import Verif.Props.EventRates
import Verif.Spec.Correction
import Verif.Props.MainCorrection
import Verif.Props.MainCorrectionDemo
import Verif.Props.Accuracy
import Verif.Props.MainAccuracy
import Verif.Spec.Stationary
import Verif.Lemmas.Measure
import Verif.Props.Stationary
import Verif.Props.StationaryHarmonic
import Verif.Props.BoundaryDistribution
import Verif.Props.Rounding
import Verif.Spec.Computed
import Verif.Props.RoundingEvents
import Verif.Model.FloatRates
import Verif.Spec.RoundingRates
import Verif.Lemmas.RoundingRates
import Verif.Props.RoundingRates
import Verif.Props.RoundingExact
import Verif.Props.RoundingDemo
import Verif.Props.RoundingRun
import Verif.Props.AddParticle
import Verif.Spec.OutputSettings
import Verif.Props.OutputSettings
import Verif.Props.OutputSettingsDemo
import Verif.Spec.Text
import Verif.Model.Text
import Verif.Lemmas.Text
import Verif.Props.Text
import Verif.Props.TextFiles
import Verif.Props.TextRun
import Verif.Props.TextHeader
import Verif.Props.TextDemo
import Verif.Model.FloatFes
import Verif.Spec.RoundingFes
import Verif.Lemmas.RoundingFes
import Verif.Props.RoundingFes
import Verif.Props.RoundingFesDemo
import Verif.Spec.InputText
import Verif.Props.InputText
import Verif.Props.InputTextDemo
import Verif.Model.ConfigText
import Verif.Spec.ConfigText
import Verif.Lemmas.ConfigText
import Verif.Props.ConfigText
import Verif.Props.ConfigMeaning
import Verif.Props.ConfigDemo
import Verif.Props.Bandwidth
import Verif.Model.PyNumber
import Verif.Spec.PyNumber
import Verif.Props.PyNumber
import Verif.Props.PyNumberRead
import Verif.Spec.Consistent
import Verif.Props.LineProgress
import Verif.Props.ExampleInput
import Verif.Spec.RoundingPoly
import Verif.Model.FloatPolynomial
import Verif.Lemmas.RoundingPoly
import Verif.Props.RoundingPoly
import Verif.Model.FloatHistogram
import Verif.Spec.RoundingBins
import Verif.Props.RoundingBins
import Verif.Model.CoeffText
import Verif.Spec.CoeffText
import Verif.Props.CoeffText
import Verif.Spec.ConsistentSpace
import Verif.Props.SpaceProgress
import Verif.Props.SpaceExample
import Verif.Model.FloatMuellerBrown
import Verif.Spec.RoundingMB
import Verif.Props.RoundingMB
import Verif.Props.RoundingMBDemo
import Verif.Props.RoundingMBForce
import Verif.Spec.Defaults
import Verif.Props.Defaults
import Verif.Props.DefaultsDemo
import Verif.Props.References
import Verif.Props.NewtonRun
import Verif.Props.GeneratorBussi
import Verif.Props.UnitTests
import Verif.Props.ForgetExamples
import Verif.Model.Log
import Verif.Spec.Faults
import Verif.Props.FaultParse
import Verif.Props.FaultSections
import Verif.Props.FaultInput
import Verif.Props.FaultSetup
import Verif.Props.Faults
import Verif.Props.LogRun
import Verif.Props.LogDemo
import Verif.Model.Console
import Verif.Spec.Console
import Verif.Props.ConsoleErase
import Verif.Props.ConsoleSetup
import Verif.Props.ConsoleRun
import Verif.Props.ConsoleMessages
import Verif.Props.ConsoleWarnings
import Verif.Props.ConsoleDemo
import Verif.Model.DeltaFExt
import Verif.Props.DeltaFExt
import Verif.Props.DeltaFDemo
import Verif.Spec.ManyWalkers
import Verif.Props.ManyWalkers
import Verif.Props.ManyWalkersDemo
import Verif.Model.Particle
import Verif.Props.Particle
import Verif.Props.EventRatesRecalc
import Verif.Model.DeltaFText
import Verif.Spec.TextExt
import Verif.Props.DeltaFText
import Verif.Model.Prompt
import Verif.Props.Prompt
import Verif.Model.CommandLine
import Verif.Spec.CommandLine
import Verif.Props.CommandLine
import Verif.Model.Printf
import Verif.Spec.Printf
import Verif.Props.Printf
import Verif.Props.PrintfRun
import Verif.Props.WalkerBias
import Verif.Model.ReportText
import Verif.Spec.ReportText
import Verif.Props.ReportText
import Verif.Props.ReportTextDemo
import Verif.Spec.Units
import Verif.Lemmas.BdMap
import Verif.Props.Units
import Verif.Props.UnitsRun
import Verif.Props.UnitsMain
import Verif.Props.UnitsDemo
import Verif.Props.Corners
import Verif.Props.LongerRun
import Verif.Props.LongerRunDemo
import Verif.Props.UnitsLine
import Verif.Spec.BinsRequested
import Verif.Props.MainBins
import Verif.Props.MainBinsDemo
import Verif.Props.UnitsHist
import Verif.Model.Disk
import Verif.Props.Disk
import Verif.Props.DiskNames
import Verif.Props.DiskDemo
import Verif.Model.Halt
import Verif.Props.Halt
import Verif.Props.HaltDemo
import Verif.Spec.Sampling
import Verif.Props.Sampling
import Verif.Props.SamplingCanonical
import Verif.Props.SamplingDemo
import Verif.Spec.Ensemble
import Verif.Props.Ensemble
import Verif.Props.MainEnsemble
import Verif.Props.MainEnsembleDemo
import Verif.Spec.LongRun
import Verif.Props.LongRun
import Verif.Props.MainLongRun
import Verif.Props.MainLongRunDemo
import Verif.Props.LongRunDeltaF
import Verif.Props.LongRunDeltaFDemo
import Verif.Props.Doeblin
import Verif.Props.MainBox
import Verif.Props.MainBoxDemo
import Verif.Props.Escape
import Verif.Props.EscapeDemo
import Verif.Props.EscapeBussi
import Verif.Props.EscapeBussiDemo
import Verif.Props.RunAway
import Verif.Props.RunAwayMueller
import Verif.Props.RunAwayDemo
import Verif.Props.RunAwayPeriodic
import Verif.Props.RunAwayPeriodicDemo
import Verif.Props.RunAwayRing
import Verif.Props.RunAwayRingDemo
import Verif.Props.RunAwaySum
import Verif.Props.RunAwaySumDemo
import Verif.Props.MuellerShift
