import Verif.Props.Date
import Verif.Props.DateText
import Verif.Props.Builder
import Verif.Props.Compact
import Verif.Props.Ops
import Verif.Props.Ops2
import Verif.Props.Price
import Verif.Props.PriceMap
import Verif.Props.Register
import Verif.Props.Import
import Verif.Props.Import2
import Verif.Props.Accum
import Verif.Props.Accum2
import Verif.Props.Accum3
import Verif.Props.Accum4
import Verif.Props.Alias
import Verif.Props.Loader
import Verif.Props.Loader2
import Verif.Props.Export
import Verif.Props.ExportPrices
import Verif.Props.BookOp
import Verif.Props.OpText
import Verif.Props.Print
import Verif.Props.Table
import Verif.Props.Html
import Verif.Props.HtmlText
import Verif.Props.Beancount
import Verif.Props.CLIConfig
import Verif.Model.Download
import Verif.Model.Config
import Verif.Model.IRR
import Verif.Spec.Download
import Verif.Spec.IRR
import Verif.Props.Download
import Verif.Props.Download2
import Verif.Props.Config
import Verif.Props.IRR
import Verif.Props.Heap
import Verif.Props.Text
import Verif.Props.Web
import Verif.Props.ConfigFile
import Verif.Props.Flags
import Verif.Props.Script
import Verif.Props.Generate
import Verif.Props.Commands
import Verif.Props.AcctNames
import Verif.Props.RegisterCmd
import Verif.Props.Csv
import Verif.Props.JsonOut
import Verif.Props.Login
import Verif.Props.Token
import Verif.Props.BeanText
import Verif.Props.File
import Verif.Props.Screen
import Verif.Props.RegText
import Verif.Props.ReportText
import Verif.Props.ReportCmd
import Verif.Props.ReportSaved
import Verif.Props.RegisterFull
import Verif.Props.RegReport
import Verif.Props.Download3
import Verif.Props.Download4
import Verif.Props.State
import Verif.Props.State2
import Verif.Props.Lang
import Verif.Props.ExportCmd
import Verif.Props.ImportCmd
import Verif.Props.ScriptBook
import Verif.Props.ListCmds
import Verif.Props.Pager
import Verif.Props.MonzoLogin
import Verif.Props.SumCmd
import Verif.Props.Order
import Verif.Props.Labels
import Verif.Props.Labels2
import Verif.Props.Cost
import Verif.Props.Period
import Verif.Props.Laws
import Verif.Props.Parts
import Verif.Props.Again
import Verif.Props.OrderReg
import Verif.Props.SavedLedger
import Verif.Props.Nordigen
import Verif.Props.LoaderErr
import Verif.Props.Main
import Verif.Props.Zero
import Verif.Props.MainImport
import Verif.Props.MainImport2
import Verif.Props.GenerateCmd
import Verif.Props.MainGen
import Verif.Props.Exit
import Verif.Props.PriceOrder
import Verif.Props.Included
import Verif.Props.Program
import Verif.Props.Later
import Verif.Props.Days
import Verif.Props.During
import Verif.Props.Cycle
import Verif.Props.Moved
import Verif.Props.Renamed
import Verif.Props.Scripts
import Verif.Props.Amounts
import Verif.Props.CcyRenamed
import Verif.Props.MainDownload
import Verif.Props.Address
import Verif.Props.MainMacros
import Verif.Props.MapMove
import Verif.Props.Scaled
import Verif.Props.LawsReg
import Verif.Props.OnDay
import Verif.Props.OnDayMain
import Verif.Props.OnDayToday
import Verif.Props.Repriced
import Verif.Props.RepricedSum
import Verif.Props.PriceAdded
