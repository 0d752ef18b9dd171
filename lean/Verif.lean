import Verif.Lemmas.CmdLine
import Verif.Lemmas.CmdLineComplete
import Verif.Lemmas.CmdLineRead
import Verif.Lemmas.CmdLineRt
import Verif.Lemmas.CmdLineRtRead
import Verif.Lemmas.CmdLineSound
import Verif.Lemmas.Curve
import Verif.Lemmas.Far
import Verif.Lemmas.Invert
import Verif.Lemmas.InvertDecode
import Verif.Lemmas.InvertFb
import Verif.Lemmas.InvertFit
import Verif.Lemmas.InvertTotal
import Verif.Lemmas.JoinAreas
import Verif.Lemmas.JoinStart
import Verif.Lemmas.ListSum
import Verif.Lemmas.Lsq
import Verif.Lemmas.Merge
import Verif.Lemmas.Move
import Verif.Lemmas.NoException
import Verif.Lemmas.Run
import Verif.Lemmas.SiteAlign
import Verif.Lemmas.SiteArea
import Verif.Lemmas.SiteLoop
import Verif.Lemmas.SiteMath
import Verif.Lemmas.SiteOls
import Verif.Lemmas.SiteRescale
import Verif.Lemmas.SiteRun
import Verif.Lemmas.SiteSystem
import Verif.Lemmas.SiteTotal
import Verif.Lemmas.Smooth
import Verif.Lemmas.Totality
import Verif.Lemmas.Util
import Verif.Lemmas.Window
import Verif.Model.AlignRun
import Verif.Model.Catalog
import Verif.Model.CmdLine
import Verif.Model.CmdLineRt
import Verif.Model.Collect
import Verif.Model.Crash
import Verif.Model.Data
import Verif.Model.Dump
import Verif.Model.Energy
import Verif.Model.EventFigure
import Verif.Model.FigureBand
import Verif.Model.FigureOpt
import Verif.Model.FigureSource
import Verif.Model.Figures
import Verif.Model.Filter
import Verif.Model.Freqs
import Verif.Model.Imaging
import Verif.Model.Invert
import Verif.Model.InvertFb
import Verif.Model.JoinAreas
import Verif.Model.Load
import Verif.Model.OptOptions
import Verif.Model.Response
import Verif.Model.Results
import Verif.Model.Rt
import Verif.Model.RtFigure
import Verif.Model.Run
import Verif.Model.Site
import Verif.Model.SiteMean
import Verif.Model.SiteScatter
import Verif.Model.Source
import Verif.Model.Trace
import Verif.Model.Util
import Verif.Model.Window
import Verif.Model.Wrapper
import Verif.Props.Accuracy
import Verif.Props.Again
import Verif.Props.AgainExample
import Verif.Props.AgainSource
import Verif.Props.AlignFrame
import Verif.Props.AlignRun
import Verif.Props.AlignRunExample
import Verif.Props.AlignSource
import Verif.Props.AlignedRuns
import Verif.Props.BandSteps
import Verif.Props.Catalog
import Verif.Props.CatalogueMagnitude
import Verif.Props.CmdLine
import Verif.Props.CmdLineRt
import Verif.Props.Collect
import Verif.Props.CommandLine
import Verif.Props.Crash
import Verif.Props.DataInit
import Verif.Props.DataSource
import Verif.Props.Dump
import Verif.Props.Energy
import Verif.Props.EventFigure
import Verif.Props.EventSize
import Verif.Props.EventSizeWrapper
import Verif.Props.Events
import Verif.Props.FigureEnergies
import Verif.Props.FigureEvent
import Verif.Props.FigureFits
import Verif.Props.FigureMags
import Verif.Props.FigureNames
import Verif.Props.FigureOpt
import Verif.Props.FigureRegression
import Verif.Props.FigureResults
import Verif.Props.FigureSds
import Verif.Props.FigureSites
import Verif.Props.FigureVelocity
import Verif.Props.FilterWidth
import Verif.Props.FixedBands
import Verif.Props.FreeSurface
import Verif.Props.Freqs
import Verif.Props.HypothesisExamples
import Verif.Props.Imaging
import Verif.Props.Invert
import Verif.Props.InvertError
import Verif.Props.InvertNorm
import Verif.Props.InvertOrder
import Verif.Props.InvertOrderNorm
import Verif.Props.InvertOrderSource
import Verif.Props.InvertRepeat
import Verif.Props.InvertScale
import Verif.Props.InvertSource
import Verif.Props.Jobs
import Verif.Props.JoinAreas
import Verif.Props.LengthUnits
import Verif.Props.Load
import Verif.Props.LocalMin
import Verif.Props.Magnitudes
import Verif.Props.MovedStation
import Verif.Props.NoException
import Verif.Props.NoResult
import Verif.Props.Noise
import Verif.Props.OneEvent
import Verif.Props.OptOptions
import Verif.Props.OtherBands
import Verif.Props.OtherBandsSeparate
import Verif.Props.OtherBandsVelocity
import Verif.Props.OtherEvents
import Verif.Props.Pairs
import Verif.Props.PlainWindows
import Verif.Props.ProperInversion
import Verif.Props.RecalcRepeat
import Verif.Props.Rejected
import Verif.Props.Reproducible
import Verif.Props.Response
import Verif.Props.Returns
import Verif.Props.RtAbsorb
import Verif.Props.RtArray
import Verif.Props.RtEnergy
import Verif.Props.RtFigure
import Verif.Props.RtPlugin
import Verif.Props.RtScale
import Verif.Props.RtValues
import Verif.Props.RunAlign
import Verif.Props.RunFigures
import Verif.Props.RunFlow
import Verif.Props.RunJson
import Verif.Props.RunOptions
import Verif.Props.RunResult
import Verif.Props.RunReturns
import Verif.Props.SOnset
import Verif.Props.SameIds
import Verif.Props.SameIdsTogether
import Verif.Props.SiteAlign
import Verif.Props.SiteArea
import Verif.Props.SiteGauge
import Verif.Props.SiteIdem
import Verif.Props.SiteMean
import Verif.Props.SitePin
import Verif.Props.SiteScatter
import Verif.Props.SiteSelect
import Verif.Props.SiteSparse
import Verif.Props.SiteTotal
import Verif.Props.SiteTruth
import Verif.Props.Smooth
import Verif.Props.SmoothAlike
import Verif.Props.SourceExact
import Verif.Props.SourceFit
import Verif.Props.SourceLimits
import Verif.Props.SourceModel
import Verif.Props.SourceRecalc
import Verif.Props.SourceScale
import Verif.Props.SourceTotal
import Verif.Props.Stat
import Verif.Props.StatValue
import Verif.Props.Suppressed
import Verif.Props.Tables
import Verif.Props.TimeAxis
import Verif.Props.TimeStr
import Verif.Props.Truth
import Verif.Props.TruthChain
import Verif.Props.TruthExample
import Verif.Props.Units
import Verif.Props.UselessSeparate
import Verif.Props.UselessStations
import Verif.Props.WeightedMean
import Verif.Props.Windows
import Verif.Props.Wrapper
import Verif.Props.WrapperKeys
import Verif.Py.Basic
import Verif.Spec.CmdLine
import Verif.Spec.CmdLineRt
import Verif.Spec.Invert
import Verif.Spec.InvertFb
import Verif.Spec.JoinAreas
import Verif.Spec.Run
import Verif.Spec.Site
import Verif.Spec.Smooth
import Verif.Spec.Sound
import Verif.Spec.Source
import Verif.Spec.Stat
import Verif.Spec.Window
