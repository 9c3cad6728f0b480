import Verif.Model.Print
import Verif.Model.Conn
import Verif.Model.Http
import Verif.Model.Dump
import Verif.Model.Log
/-!
# The client as a whole

`cli_main`, /repo/src/cli.c lines 64-232, from the options to the exit status, with its messages on the standard error, for the names
chosen by /repo/configure.ac lines 6, 82 and 97-102 without options.
-/

namespace Ladvd

/-- What the client is told by the system: its own name, the width of the terminal on its standard input (`TIOCGWINSZ`), the values of `errno` after
the two calls of `socket` and after `connect` (0 if they succeed), the time (or the value of `errno`), `strerror`, `inet_ntop`, the messages read
with the time at which each is handled, the kind of its standard output and the times of the records written to it, and for `-p` the port of
the service "http", the name of this host and the answers of the server. -/
structure CliWorld where
  prog : Bytes
  cols : Option Nat
  first : Nat
  second : Nat
  connect : Nat
  time : Except Nat Int
  strerror : Nat → Bytes
  ntop6 : Bytes → Bytes
  input : List (Int × CliIn)
  stdout : Stdout
  clock : Nat → Option (Nat × Nat)
  url : Bytes
  port : Nat
  own : Bytes
  server : Nat → Option Nat

/-- What is left when the client has ended: its standard output, its standard error, the requests it posted, and how it ended, with its exit status. -/
structure CliExit where
  out : Bytes := []
  err : Bytes := []
  posts : List HttpReq := []
  how : Res Nat := .ok 0
  deriving Repr, DecidableEq

/-- `usage`, /repo/src/cli.c lines 426-452; the version is that of /repo/configure.ac line 6. -/
def cliUsage (prog : Bytes) : Bytes :=
  lit "ladvd version 1.1.3\nUsage: " ++ prog ++ lit " [-LCEFN] [INTERFACE] [INTERFACE]\n\t-L = Print LLDP\n\t-C = Print CDP\n\t-E = Print EDP\n\t-F = Print FDP\n\t-N = Print NDP\n\t-b = Print scriptable output\n\t-d = Dump pcap-compatible packets to stdout\n\t-f = Print full decode\n\t-o = Decode only one packet\n\t-p <url> = Post decode to url\n\t-v = Increase logging verbosity\n\t-h = Print this message\n"

/-- `my_fatal` and `my_fatale` in the client, /repo/src/util.c lines 32-52 and 66-79: `err` is the value of `errno`, 0 for `my_fatal`; `pid` is 0 and
`options` has no `OPT_DAEMON`. -/
def cliFatal (w : CliWorld) (level : Int) (func : Bytes) (err : Nat) (text : Bytes) : CliExit where
  err := (if level = 3 then func ++ lit ": " else []) ++ text ++ (if err ≠ 0 then lit ": " ++ w.strerror err else []) ++ [0x0a]
  how := .ok 1

/-- `cli_header`, /repo/src/cli.c lines 292-297. -/
def cliHeader (w : Widths) : Bytes :=
  lit "Capability Codes:\n\tr - Repeater, B - Bridge, H - Host, R - Router, S - Switch,\n\tW - WLAN Access Point, C - DOCSIS Device, T - Telephone, O - Other\n\n" ++
    (lit "Device ID" ++ List.replicate (w.host - 9) 0x20) ++ lit " Local Intf    Proto   Hold-time    Capability    Port ID\n"

/-- The output of a run whose loop ended as `r`, `text` giving what the neighbours shown amount to.  Simplification: what was written before an invalid
access is left out. -/
def cliText (text : List Shown → Bytes) (r : Res (List (List Bytes × Option Shown))) : CliExit :=
  match r with
  | .ok l => { out := text (l.filterMap (·.2)) }
  | .fail => { how := .fail }
  | .oob => { how := .oob }
  | .abort => { how := .abort }
  | .stuck => { how := .stuck }

/-- The messages of `my_pcap_init`, /repo/src/util.c lines 470-476; the value of `errno` after `fdopen` is taken to be 22. -/
def dumpFatal (w : CliWorld) (level : Int) : Option CliExit :=
  match w.stdout with
  | .missing => some (cliFatal w level (lit "my_pcap_init") 0 (lit "stdin fd not available"))
  | .terminal => some (cliFatal w level (lit "my_pcap_init") 0 (lit "please redirect stdout to tcpdump or a file"))
  | .unusable => some (cliFatal w level (lit "my_pcap_init") 22 (lit "failed to create stdio stream"))
  | .file => none

/-- From `modes[mode].init` to the end, /repo/src/cli.c lines 171-231: header, loop and dispatch in each mode.  Simplification: with `-p`, the
set-up of the connection (lines 344-362) succeeds, and the messages about failed requests are left out. -/
def cliShowAll (w : CliWorld) (level : Int) (c : CliConf) (now : Int) : CliExit :=
  let es := w.input.map (·.2)
  match c.mode with
  | .table => cliText (fun l => cliHeader (cliWidths w.cols) ++ l.flatMap (tableLine (cliWidths w.cols))) (clientLoop c now {} es)
  | .batch => cliText (batchAll w.ntop6 0) (clientLoop c now {} es)
  | .print =>
    let r := reportLoop c w.ntop6 now {} w.input
    { out := r.text, how := do
        let _ ← r.res
        pure 0 }
  | .debug =>
    match dumpFatal w level with
    | some r => r
    | none => cliText (fun l => match clientDump w.stdout w.clock l with | .ok t => t | _ => []) (clientLoop c now {} es)
  | .http =>
    match clientLoop c now {} es with
    | .ok l =>
      let r := httpRun w.url w.port (lit "ladvdc/1.1.3") w.own w.server (l.filterMap (·.2))
      { posts := r.1, how := .ok r.2 }
    | _ => cliText (fun _ => []) (clientLoop c now {} es)

/-- `cli_main`, /repo/src/cli.c lines 64-232: `opts` are the option letters, `args` the indexes of the interfaces named (`none` if there is no such
interface). -/
def cliMain (w : CliWorld) (opts : List Char) (args : List (Option Nat)) : CliExit :=
  match cliOptions opts args with
  | none => { err := cliUsage w.prog, how := .ok 1 }
  | some c =>
    let level := logLevel (opts.count 'v')
    match connOpen w.first w.second with
    | none =>
      if w.first = 93 then cliFatal w level (lit "my_socket") w.second (lit "opening socket failed")
      else cliFatal w level (lit "cli_main") w.first (lit "failed to create socket")
    | some _ =>
      if w.connect = 13 then cliFatal w level (lit "cli_main") 0 (lit "please add yourself to the ladvd group")
      else if w.connect = 111 then cliFatal w level (lit "cli_main") 0 (lit "please enable receive mode before using ladvdc")
      else if w.connect ≠ 0 then cliFatal w level (lit "cli_main") w.connect (lit "failed to open /var/run/ladvd.sock")
      else
        match w.time with
        | .error e => cliFatal w level (lit "cli_main") e (lit "failed to fetch time")
        | .ok now => cliShowAll w level c now

end Ladvd
