import Verif.Model.Base
import Verif.Model.Float
import Verif.Model.Time
import Verif.Model.Text
import Verif.Model.Subtitle
import Verif.Model.Collect
import Verif.Model.Ssa
import Verif.Model.SubRip
import Verif.Model.WebVtt
import Verif.Model.StlText
import Verif.Model.Iso6937
import Verif.Model.StlTables
import Verif.Model.Utf8
import Verif.Model.StlUtil
import Verif.Model.StlWriter
import Verif.Model.StlReader
import Verif.Model.Compose
import Verif.Model.Exceptions
import Verif.Model.Dump
import Verif.Model.Resources
import Verif.Lemmas.Float
import Verif.Lemmas.Time
import Verif.Props.Time
import Verif.Props.TimeFloat
import Verif.Lemmas.Text
import Verif.Lemmas.Collect
import Verif.Lemmas.Split
import Verif.Props.Print
import Verif.Props.Collect
import Verif.Props.Position
import Verif.Props.Values
import Verif.Props.Timestamp
import Verif.Lemmas.SubRip
import Verif.Lemmas.Err
import Verif.Props.SubRipLine
import Verif.Props.SubRipFile
import Verif.Props.SubRipRead
import Verif.Props.LineEnds
import Verif.Props.SubRipText
import Verif.Lemmas.WebVtt
import Verif.Props.WebVtt
import Verif.Props.Compose
import Verif.Props.Dump
import Verif.Props.Locale
import Verif.Props.StlText
import Verif.Props.Ssa
import Verif.Props.SsaStyle
import Verif.Props.SsaTags
import Verif.Props.SsaStack
import Verif.Props.Iso6937
import Verif.Props.IsoUnicode
import Verif.Spec.Stl
import Verif.Lemmas.StlWriter
import Verif.Props.StlTables
import Verif.Props.StlHeader
import Verif.Props.StlWriter
import Verif.Props.SsaEvent
import Verif.Lemmas.Utf8
import Verif.Props.StlReader
import Verif.Props.StlRoundTrip
import Verif.Lemmas.Regroup
import Verif.Props.Regroup
import Verif.Props.EndToEnd
import Verif.Props.Collectable
import Verif.Props.CollectableExact
import Verif.Props.StlWritable
import Verif.Props.Failures
import Verif.Conformance
import Verif.Props.SsaFile
import Verif.Props.SsaRuns
import Verif.Props.StlMetadata
import Verif.Props.SsaDoc
import Verif.Props.SsaSubtitles
import Verif.Props.StlSubtitles
import Verif.Props.StlCounts
import Verif.Props.StlTextSubtitles
import Verif.Props.SubRipReject
import Verif.Props.IsoStandard
import Verif.Props.WebVttReject
import Verif.Props.Incremental
import Verif.Props.SsaColumns
import Verif.Props.ColourRange
import Verif.Props.Equality
import Verif.Props.Places
import Verif.Props.DumpText
import Verif.Props.FloatText
import Verif.Props.DumpTool
import Verif.Props.StlAgain
import Verif.Props.Messages
import Verif.Props.StlTextReport
import Verif.Props.Threads
import Verif.Props.ThreadTrace
import Verif.Props.SsaToStl
import Verif.Props.FileLines
import Verif.Props.TimeRates
import Verif.Props.StlRows
import Verif.Props.HexColours
import Verif.Props.StlProcess
import Verif.Props.StlThreads
import Verif.Props.WebVttExact
import Verif.Props.FontColour
import Verif.Props.SubRipExact
import Verif.Props.NumberText
import Verif.Props.SsaTagExact
import Verif.Props.SsaLineExact
import Verif.Props.SsaEventExact
import Verif.Props.SsaFileExact
import Verif.Props.StlTextExact
import Verif.Props.StlExact
import Verif.Props.CollectExact
import Verif.Props.DumpExact
import Verif.Props.StlWriteExact
import Verif.Props.StlReadable
import Verif.Props.TimeExact
import Verif.Props.Ieee
import Verif.Props.NoInvention
import Verif.Props.TimeOrder
import Verif.Props.Retime
import Verif.Props.WrittenTimes
import Verif.Props.Resources
import Verif.Props.SubRipToVtt
import Verif.Props.WebVttFails
import Verif.Props.SsaFails
import Verif.Props.StlTextFails
import Verif.Props.StlFails
import Verif.Props.StlWriteFails
import Verif.Props.SsaInf
import Verif.Props.XfLimits
import Verif.Props.SrtInf
import Verif.Props.ReadLocale
import Verif.Props.CueOrder
import Verif.Props.Cut
import Verif.Props.Output
import Verif.Props.IsoGen
import Verif.Props.Regex
import Verif.Props.OutInf
import Verif.Props.CodeOrder
import Verif.Props.Alike
import Verif.Props.Bytes
import Verif.Props.SignBits
import Verif.Props.SignBitsMore
import Verif.Props.AlikeMore
import Verif.Props.ReadError
import Verif.Props.HexGlibc
import Verif.Props.SsaTextAlike
import Verif.Props.SsaStyleOrder
import Verif.Props.SsaStyleTable
import Verif.Props.SsaEventTable
