import Verif.Lemmas.Alias
import Verif.Lemmas.Argv
import Verif.Lemmas.Auto
import Verif.Lemmas.Bsd
import Verif.Lemmas.BsdDaemon
import Verif.Lemmas.BsdDescr
import Verif.Lemmas.BsdLink
import Verif.Lemmas.BsdMedia
import Verif.Lemmas.BsdMulti
import Verif.Lemmas.BsdSys
import Verif.Lemmas.Build
import Verif.Lemmas.Caps
import Verif.Lemmas.CdpDecode
import Verif.Lemmas.Chain
import Verif.Lemmas.Chksum
import Verif.Lemmas.Cli
import Verif.Lemmas.Conform
import Verif.Lemmas.Conn
import Verif.Lemmas.Decode
import Verif.Lemmas.Details
import Verif.Lemmas.Detect
import Verif.Lemmas.Dump
import Verif.Lemmas.Emit
import Verif.Lemmas.Fetch
import Verif.Lemmas.Fetched
import Verif.Lemmas.Filter
import Verif.Lemmas.Flap
import Verif.Lemmas.Follow
import Verif.Lemmas.Frame
import Verif.Lemmas.Heap
import Verif.Lemmas.HeapChild
import Verif.Lemmas.HeapDecode
import Verif.Lemmas.HeapTable
import Verif.Lemmas.Imsg
import Verif.Lemmas.Ipc
import Verif.Lemmas.Keep
import Verif.Lemmas.Learn
import Verif.Lemmas.Life
import Verif.Lemmas.Link
import Verif.Lemmas.LldpDecode
import Verif.Lemmas.Lock
import Verif.Lemmas.Log
import Verif.Lemmas.Main
import Verif.Lemmas.Netif
import Verif.Lemmas.Network
import Verif.Lemmas.OtherDecode
import Verif.Lemmas.Output
import Verif.Lemmas.Packet
import Verif.Lemmas.Parent
import Verif.Lemmas.Path
import Verif.Lemmas.Plan
import Verif.Lemmas.Print
import Verif.Lemmas.Queue
import Verif.Lemmas.Rawfd
import Verif.Lemmas.Refresh
import Verif.Lemmas.Refs
import Verif.Lemmas.Report
import Verif.Lemmas.ReportText
import Verif.Lemmas.Round
import Verif.Lemmas.Run
import Verif.Lemmas.Sane
import Verif.Lemmas.Segment
import Verif.Lemmas.Send
import Verif.Lemmas.Session
import Verif.Lemmas.Sizes
import Verif.Lemmas.Source
import Verif.Lemmas.Stale
import Verif.Lemmas.Start
import Verif.Lemmas.Strl
import Verif.Lemmas.Sysinfo
import Verif.Lemmas.Tailq
import Verif.Lemmas.Timer
import Verif.Lemmas.Title
import Verif.Lemmas.Total
import Verif.Lemmas.Unshow
import Verif.Lemmas.Unvis
import Verif.Lemmas.View
import Verif.Lemmas.Views
import Verif.Lemmas.Vis
import Verif.Model.Alias
import Verif.Model.Argv
import Verif.Model.Basic
import Verif.Model.Bsd
import Verif.Model.BsdDaemon
import Verif.Model.BsdDescr
import Verif.Model.BsdMedia
import Verif.Model.BsdMulti
import Verif.Model.BsdSys
import Verif.Model.BsdTimer
import Verif.Model.BsdTyped
import Verif.Model.Child
import Verif.Model.Cli
import Verif.Model.Client
import Verif.Model.Conn
import Verif.Model.Decode
import Verif.Model.Dump
import Verif.Model.FdTable
import Verif.Model.Fetch
import Verif.Model.Files
import Verif.Model.Filter
import Verif.Model.Heap
import Verif.Model.Http
import Verif.Model.Imsg
import Verif.Model.Ipc
import Verif.Model.Life
import Verif.Model.Log
import Verif.Model.Main
import Verif.Model.Media
import Verif.Model.Netif
import Verif.Model.Netlink
import Verif.Model.Packet
import Verif.Model.Parent
import Verif.Model.Path
import Verif.Model.Print
import Verif.Model.Send
import Verif.Model.Start
import Verif.Model.Strl
import Verif.Model.Strvis
import Verif.Model.Sysinfo
import Verif.Model.Tailq
import Verif.Model.Timer
import Verif.Model.Title
import Verif.Model.Tlv
import Verif.Model.Typed
import Verif.Model.Vis
import Verif.Props.Alias
import Verif.Props.Alive
import Verif.Props.Argv
import Verif.Props.Bsd
import Verif.Props.BsdDaemon
import Verif.Props.BsdDescr
import Verif.Props.BsdMulti
import Verif.Props.BsdSys
import Verif.Props.BsdTable
import Verif.Props.BsdTimer
import Verif.Props.BsdTyped
import Verif.Props.Cli
import Verif.Props.CliText
import Verif.Props.Client
import Verif.Props.Clock
import Verif.Props.Conform
import Verif.Props.Conn
import Verif.Props.Decode
import Verif.Props.Descr
import Verif.Props.Details
import Verif.Props.Dump
import Verif.Props.Either
import Verif.Props.FdTable
import Verif.Props.Fetch
import Verif.Props.Files
import Verif.Props.Filter
import Verif.Props.Flood
import Verif.Props.FloodDescr
import Verif.Props.Follow
import Verif.Props.Heap
import Verif.Props.Http
import Verif.Props.Imsg
import Verif.Props.ImsgFlush
import Verif.Props.Ipc
import Verif.Props.Latest
import Verif.Props.Life
import Verif.Props.Link
import Verif.Props.Log
import Verif.Props.Main
import Verif.Props.Mixed
import Verif.Props.Netlink
import Verif.Props.Network
import Verif.Props.Packet
import Verif.Props.Parent
import Verif.Props.Path
import Verif.Props.PeerText
import Verif.Props.Print
import Verif.Props.Queue
import Verif.Props.ReportText
import Verif.Props.Script
import Verif.Props.Segment
import Verif.Props.Send
import Verif.Props.Shown
import Verif.Props.Site
import Verif.Props.Stale
import Verif.Props.Start
import Verif.Props.Strvis
import Verif.Props.Sysinfo
import Verif.Props.Tailq
import Verif.Props.Text
import Verif.Props.Timer
import Verif.Props.Title
import Verif.Props.Typed
import Verif.Props.Views
import Verif.Props.Watch
import Verif.Spec.Advert
import Verif.Spec.Alias
import Verif.Spec.Alive
import Verif.Spec.Argv
import Verif.Spec.Bsd
import Verif.Spec.BsdDaemon
import Verif.Spec.BsdDescr
import Verif.Spec.BsdMulti
import Verif.Spec.BsdSys
import Verif.Spec.BsdTimer
import Verif.Spec.BsdTyped
import Verif.Spec.Capture
import Verif.Spec.Cli
import Verif.Spec.Client
import Verif.Spec.Clock
import Verif.Spec.Conform
import Verif.Spec.Conn
import Verif.Spec.Details
import Verif.Spec.FdTable
import Verif.Spec.Files
import Verif.Spec.Flood
import Verif.Spec.Follow
import Verif.Spec.Heap
import Verif.Spec.Http
import Verif.Spec.Ifs
import Verif.Spec.Imsg
import Verif.Spec.Ipc
import Verif.Spec.Latest
import Verif.Spec.Life
import Verif.Spec.Link
import Verif.Spec.Log
import Verif.Spec.Main
import Verif.Spec.Mixed
import Verif.Spec.Netlink
import Verif.Spec.Network
import Verif.Spec.Output
import Verif.Spec.Parent
import Verif.Spec.Print
import Verif.Spec.Segment
import Verif.Spec.Send
import Verif.Spec.Site
import Verif.Spec.Stale
import Verif.Spec.Start
import Verif.Spec.Sysinfo
import Verif.Spec.Table
import Verif.Spec.Tailq
import Verif.Spec.Text
import Verif.Spec.Timer
import Verif.Spec.Title
import Verif.Spec.Typed
import Verif.Spec.Unvis
import Verif.Spec.Views
import Verif.Spec.Wire
