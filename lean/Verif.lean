import Verif.Py.Num
import Verif.Py.Binary64
import Verif.Lemmas.Num
import Verif.Model.Calibration
import Verif.Lemmas.Calibration
import Verif.Props.Calibration
import Verif.Props.Converter
import Verif.Props.Harvester
import Verif.Props.Source
import Verif.Props.SourceConfig
import Verif.Props.Recorder
import Verif.Props.Reports
import Verif.Props.Uart
import Verif.Props.Fixtures
import Verif.Props.Experiment
import Verif.Props.Store
import Verif.Props.FwTools
import Verif.Props.CalBytes
import Verif.Props.CalMeas
import Verif.Props.DataTools
import Verif.Props.CutFile
import Verif.Props.Cli
import Verif.Props.Export
import Verif.Props.Mppt
import Verif.Props.CutName
import Verif.Props.Decimate
import Verif.Props.Plot
import Verif.Props.Baud
import Verif.Props.GpioUart
import Verif.Props.Inventory
import Verif.Props.LocalTime
import Verif.Props.Client
import Verif.Props.CalFloat
import Verif.Props.Tasks
import Verif.Props.Features
import Verif.Props.Meta
import Verif.Props.Commands
import Verif.Props.Firmware
import Verif.Props.Shipped
import Verif.Props.Registers
import Verif.Props.ShippedTables
import Verif.Props.ShippedSrc
import Verif.Props.Details
import Verif.Props.Climb
import Verif.Props.Repair
import Verif.Props.Eenv
import Verif.Props.InFloats
import Verif.Props.Residue
import Verif.Props.Prime
import Verif.Props.Fingerprint
import Verif.Props.ModelFiles
import Verif.Props.Balance
import Verif.Props.BalanceFl
import Verif.Props.Links
import Verif.Props.HalfStop
import Verif.Props.BalanceSrc
import Verif.Props.SimFile
import Verif.Props.Layout
import Verif.Props.UartAgain
import Verif.Props.HeapDb
import Verif.Props.Verbose
import Verif.Props.MpptFl
import Verif.Props.Calendar
import Verif.Props.CsvText
import Verif.Props.FixCache
import Verif.Props.Race
import Verif.Props.YamlDump
import Verif.Props.ReportStats
import Verif.Props.FloatText
import Verif.Props.ExportRace
import Verif.Props.FixIter
import Verif.Props.Resample
import Verif.Props.Spline
import Verif.Props.StampText
import Verif.Props.YamlText
import Verif.Props.YamlTypes
import Verif.Props.YamlTree
