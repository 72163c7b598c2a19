import Verif.Attr.Props
import Verif.Scope.Props
import Verif.Scope.Exact
import Verif.Root.Props
import Verif.RootConc.Props
import Verif.RecordBuf.Props
import Verif.Async.Props
import Verif.File.Props
import Verif.Config.Props
import Verif.File.FactoryProps
import Verif.Registry.Props
import Verif.Console.Props
import Verif.Syslog.Props
import Verif.Socket.Props
import Verif.StringView.Props
import Verif.Fmt.Props
import Verif.Fmt.Text
import Verif.Fmt.Safe
import Verif.Pattern.Props
import Verif.Pattern.Accept
import Verif.StringFmt.Props
import Verif.StringFmt.Fields
import Verif.StringFmt.Severity
import Verif.Tskv.Props
import Verif.Tskv.Exact
import Verif.Json.Props
import Verif.Json.Text
import Verif.Json.Factory
import Verif.Time.Props
import Verif.Date.Clock
import Verif.Date.Exact
import Verif.DateOther.Props
import Verif.DateOther.Exact
import Verif.MetaFormat.Props
import Verif.Facade.Props
import Verif.Async.Progress
import Verif.File.Disk
import Verif.File.DiskProps
import Verif.Buffer.Props
import Verif.Essentials.Model
import Verif.Essentials.Props
import Verif.Essentials.Refused
import Verif.Pipeline.Model
import Verif.Pipeline.Spec
import Verif.Pipeline.Lemmas
import Verif.Pipeline.Props
import Verif.Pipeline.Formats
import Verif.Pipeline.Reports
import Verif.Fmt.Dynamic
import Verif.Lock.Model
import Verif.Lock.Spec
import Verif.Lock.Lemmas
import Verif.Lock.Progress
import Verif.Lock.Plain
import Verif.Shared.Model
import Verif.Shared.Lemmas
import Verif.Shared.Props
import Verif.Shared.Streams
import Verif.Shared.Cases
import Verif.Shared.Characters
import Verif.Shared.Replaced
import Verif.Shared.Others
import Verif.Shared.Snapshots
import Verif.Lock.Text
import Verif.Dev.Model
import Verif.Dev.Spec
import Verif.Dev.Props
import Verif.Dev.Threads
import Verif.Fmt.Errors
import Verif.Socket.Threads
import Verif.Socket.ThreadsProps
import Verif.Lock.Serial
import Verif.Double.Model
import Verif.Double.Spec
import Verif.Double.Lemmas
import Verif.Double.Place
import Verif.Double.Write
import Verif.Double.Props
import Verif.Chain.Props
import Verif.Reenter.Props
import Verif.Attr.Args
import Verif.Attr.ArgsProps
import Verif.FmtArgs.Model
import Verif.FmtArgs.Spec
import Verif.FmtArgs.List
import Verif.FmtArgs.Plain
import Verif.FmtArgs.Pieces
import Verif.FmtArgs.Props
import Verif.FmtArgs.Errors
import Verif.FmtArgs.Dynamic
import Verif.FmtArgs.Overload
import Verif.FmtArgs.OverloadProps
import Verif.AsyncReenter.Model
import Verif.AsyncReenter.Spec
import Verif.AsyncReenter.Lemmas
import Verif.AsyncReenter.Props
import Verif.Lifetime.Model
import Verif.Lifetime.Spec
import Verif.Lifetime.Lemmas
import Verif.Lifetime.Progress
import Verif.Lifetime.Props
import Verif.Ring.Model
import Verif.Ring.Spec
import Verif.Ring.Lemmas
import Verif.Ring.Refine
import Verif.Ring.History
import Verif.Ring.Progress
import Verif.Ring.Full
import Verif.Ring.Props
import Verif.AsyncMem.Model
import Verif.AsyncMem.Spec
import Verif.AsyncMem.Lemmas
import Verif.AsyncMem.Props
import Verif.Ostream.Model
import Verif.Ostream.Spec
import Verif.Ostream.Lemmas
import Verif.Ostream.DevLemmas
import Verif.Ostream.Props
import Verif.Builder.Model
import Verif.Builder.Spec
import Verif.Builder.Props
import Verif.Builder.Chain
import Verif.Builder.ChainProps
import Verif.Spin.Model
import Verif.Spin.Spec
import Verif.Spin.Props
import Verif.Spin.Counts
import Verif.Wrapper.Model
import Verif.Wrapper.Spec
import Verif.Wrapper.Props
import Verif.Durable.Model
import Verif.Durable.Spec
import Verif.Durable.Props
import Verif.RegLife.Model
import Verif.RegLife.Spec
import Verif.RegLife.Lemmas
import Verif.RegLife.Props
import Verif.Together.Model
import Verif.Together.Spec
import Verif.Together.Lemmas
import Verif.Together.Props
import Verif.Race.Model
import Verif.Race.Spec
import Verif.Race.Lemmas
import Verif.Race.Steps
import Verif.Race.Props
import Verif.Printf.Model
import Verif.Printf.Spec
import Verif.Printf.Lemmas
import Verif.Printf.Parse
import Verif.Printf.Directive
import Verif.Printf.Float
import Verif.Printf.Props
import Verif.Printf.Safe
import Verif.Printf.Wrong
import Verif.FmtStream.Model
import Verif.FmtStream.Spec
import Verif.FmtStream.Props
import Verif.ArrayWriter.Model
import Verif.ArrayWriter.Spec
import Verif.ArrayWriter.Props
import Verif.SysError.Model
import Verif.SysError.Spec
import Verif.SysError.Props
import Verif.Wire.Spec
import Verif.Wire.Lemmas
import Verif.Wire.Props
import Verif.ValueMem.Model
import Verif.ValueMem.Spec
import Verif.ValueMem.Lemmas
import Verif.ValueMem.Props
import Verif.FmtPrint.Model
import Verif.FmtPrint.Spec
import Verif.FmtPrint.Props
import Verif.StringRef.Model
import Verif.StringRef.Props
import Verif.LockRace.Model
import Verif.LockRace.Spec
import Verif.LockRace.Lemmas
import Verif.LockRace.Props
import Verif.JsonRead.Model
import Verif.JsonRead.Spec
import Verif.JsonRead.Gaps
import Verif.JsonRead.Strings
import Verif.JsonRead.Numbers
import Verif.JsonRead.Lemmas
import Verif.JsonRead.Errors
import Verif.JsonRead.Props
import Verif.JsonRead.Written
import Verif.Flush.Model
import Verif.Flush.Props
import Verif.Flush.Lines
import Verif.Ostream.Numbers
import Verif.Ident.Model
import Verif.Ident.Props
import Verif.Exhaust.Model
import Verif.Exhaust.Props
import Verif.Peer.Model
import Verif.Peer.Props
import Verif.PackLife.Model
import Verif.PackLife.Props
import Verif.ProcName.Model
import Verif.ProcName.Props
import Verif.ProcName.Mac
import Verif.Lazy.Model
import Verif.Lazy.Props
import Verif.Lazy.Text
import Verif.Lazy.HandlerModel
import Verif.Lazy.Handlers
import Verif.RingNest.Model
import Verif.RingNest.Props
import Verif.RingNest.Fill
import Verif.RingWeak.Model
import Verif.RingWeak.Spec
import Verif.RingWeak.Lemmas
import Verif.RingWeak.Order
import Verif.RingWeak.Steps
import Verif.RingWeak.Includes
import Verif.RingWeak.Props
import Verif.Ring.Wait
import Verif.Ring.Fair
import Verif.Ring.Stops
import Verif.Ring.Starve
