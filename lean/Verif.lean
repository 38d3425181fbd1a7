import Verif.Base.BMap
import Verif.Model.Read
import Verif.Model.Write
import Verif.Props.Load
import Verif.Props.Fre
import Verif.Props.Raw
import Verif.Props.Lookup
import Verif.Props.Builder
import Verif.Props.Write
import Verif.Props.Merge
import Verif.Props.MergeAll
import Verif.Props.Profile
import Verif.Props.Convert
import Verif.Props.Convert2
import Verif.Props.Convert3
import Verif.Props.Main2
import Verif.Props.Main1
import Verif.Props.Dump
import Verif.Props.Text
import Verif.Props.Pipeline
import Verif.Props.Lookup2
import Verif.Props.Inject
import Verif.Props.Merge2
import Verif.Props.Debug
import Verif.Props.Unwind
import Verif.Props.Api
import Verif.Props.Texts
import Verif.Props.Cfi
import Verif.Props.Reader2
import Verif.Props.Convert4
import Verif.Props.Narrow
import Verif.Props.Dwarfdump
import Verif.Props.Dwarfdump2
import Verif.Props.Report
import Verif.Props.Report1
import Verif.Props.Report1b
import Verif.Props.Execute
import Verif.Props.Agree
import Verif.Props.Execute2
import Verif.Props.Execute3
import Verif.Props.Api2
import Verif.Props.Tests
import Verif.Props.Stream
import Verif.Props.Stream2
import Verif.Props.Exact
import Verif.Props.Exact2
import Verif.Props.Process
import Verif.Props.Process2
import Verif.Props.Process3
import Verif.Spec.Rewrite
import Verif.Props.Rewrite
import Verif.Spec.Rewrite2
import Verif.Props.Rewrite2
import Verif.Props.Truncate
import Verif.Props.Probes
import Verif.Props.Columns
import Verif.Props.WalkExact
import Verif.Props.DebugText
import Verif.Props.Merge3
import Verif.Props.Options
import Verif.Props.Published
import Verif.Spec.Numeral
import Verif.Props.Numeral
import Verif.Spec.DebugText
import Verif.Proofs.DebugRead
import Verif.Props.DebugNames
import Verif.Spec.Messages
import Verif.Props.Messages
import Verif.Spec.Listing
import Verif.Props.Listing
import Verif.Spec.CfiText
import Verif.Props.CfiText
import Verif.Spec.DwarfText
import Verif.Props.DwarfText
import Verif.Spec.LookupPanics
import Verif.Props.LookupPanics
import Verif.Props.Ties
import Verif.Props.Ties2
import Verif.Model.Stderr
import Verif.Props.Stderr
import Verif.Model.Printing
import Verif.Proofs.Printing
import Verif.Proofs.Printing1
import Verif.Proofs.Printing2
import Verif.Props.Printing
import Verif.Props.Ending
import Verif.Proofs.Unused
import Verif.Props.Unused
import Verif.Props.Moving
import Verif.Props.MovingDump
import Verif.Props.Separate
import Verif.Props.MovingWarn
import Verif.Props.MovingText
import Verif.Props.MovingFail
import Verif.Props.Alone
import Verif.Props.Alone2
import Verif.Props.Alone3
import Verif.Props.MovingDwarf
import Verif.Props.Appended
import Verif.Props.Repeated
