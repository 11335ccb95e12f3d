import Verif.Props.RawA1
import Verif.Props.RawText
import Verif.Props.RawFilter
import Verif.Props.RawMain
import Verif.Props.FilterChain
import Verif.Props.FftNumeric
import Verif.Props.TextDamage
import Verif.Props.ConvertFail
import Verif.Props.Joined
import Verif.Props.Order
import Verif.Props.RawReport
import Verif.Props.EpochT1
import Verif.Props.EpochOrder
import Verif.Props.EpochBits
import Verif.Props.EpochT3
import Verif.Props.EpochNames
import Verif.Props.Utils
import Verif.Props.UtilsFft
import Verif.Props.UtilsMore
import Verif.Props.UtilsSwap
import Verif.Props.FpMain
import Verif.Props.FpFind
import Verif.Props.Freqcd
import Verif.Props.FreqcdRuns
import Verif.Props.FreqcdFaults
import Verif.Props.FreqcdChannel
import Verif.Props.FreqcdMain
import Verif.Props.FreqcdExact
import Verif.Props.FreqcdProgram
import Verif.Props.TestGen
import Verif.Props.EpochDates
import Verif.Props.FpAccuracy
import Verif.Props.EndToEnd
import Verif.Props.G2
import Verif.Props.Logging
import Verif.Props.Rounded
import Verif.Props.FpRounded
import Verif.Props.Detune
import Verif.Props.DetuneScript
import Verif.Props.FpScanRounded
import Verif.Props.Plot
import Verif.Props.Decimal
import Verif.Props.Text
import Verif.Props.FpText
import Verif.Props.FpRun
import Verif.Props.FpShift
import Verif.Props.FpLocal
import Verif.Props.Stub
import Verif.Props.FpWindows
import Verif.Props.FpTwoWay
import Verif.Props.EpochEnds
import Verif.Props.RawA1More
import Verif.Props.FpFloat
import Verif.Props.FpOutput
import Verif.Props.EpochA1
import Verif.Props.EpochHead
import Verif.Props.EpochWrite
import Verif.Props.FpThreshold
import Verif.Spec.EpochRaw
import Verif.Props.EpochRaw
import Verif.Props.FreqcdUpdates
import Verif.Props.FreqcdTwice
import Verif.Props.FpNoise
import Verif.Props.FpNoiseRun
import Verif.Props.FpConverge
import Verif.Props.FpPrinted
import Verif.Props.EpochLiteral
import Verif.Props.FpInputRun
import Verif.Props.FreqcdPieces
import Verif.Props.FreqcdDrift
import Verif.Props.Pipeline
import Verif.Props.Exchange
import Verif.Props.Significance
import Verif.Spec.SignificantRun
import Verif.Props.SignificantRun
import Verif.Spec.Chain
import Verif.Props.Chain
import Verif.Spec.Quiet
import Verif.Props.Quiet
import Verif.Model.LogEmit
import Verif.Spec.LogEmit
import Verif.Props.LogEmit
import Verif.Props.Coverage
import Verif.Model.Argparse
import Verif.Spec.Argparse
import Verif.Lemmas.Argparse
import Verif.Props.Argparse
import Verif.Spec.Shell
import Verif.Props.Shell
import Verif.Props.FreqcdDecimal
import Verif.Spec.ShellEpochs
import Verif.Props.ShellEpochs
import Verif.Lemmas.Separation
import Verif.Props.Separation
import Verif.Spec.Irrelevant
import Verif.Props.Irrelevant
import Verif.Model.PlotCli
import Verif.Spec.PlotCli
import Verif.Lemmas.PlotCli
import Verif.Props.PlotCli
import Verif.Spec.ArgNames
import Verif.Props.ArgNames
import Verif.Spec.FpSelf
import Verif.Props.FpSelf
import Verif.Spec.ConvertRun
import Verif.Props.ConvertRun
import Verif.Spec.TextLayout
import Verif.Props.TextLayout
import Verif.Spec.SelectRun
import Verif.Props.SelectRun
import Verif.Spec.PlotSame
import Verif.Props.PlotSame
import Verif.Spec.SkipEpochs
import Verif.Props.SkipEpochs
import Verif.Spec.EpochRun
import Verif.Props.EpochRun
import Verif.Props.ScanTried
import Verif.Props.ReportMemory
import Verif.Props.PrintedLine
import Verif.Props.Written
