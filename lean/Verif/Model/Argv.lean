import Verif.Model.Start
import Verif.Model.Client
/-!
# The command line as typed

From the words of the command line to the settings of the daemon or the output of the client: /repo/src/main.c lines 67-216 and 285-319, and
/repo/src/cli.c lines 64-150, with the messages written on the way.  `getopt` is modelled after POSIX and its manuals.
-/

namespace Ladvd

/-- What differs between C libraries: whether `getopt` looks for options behind the first operand (glibc, unless `POSIXLY_CORRECT` is set), and what it
writes about a letter it does not know or that lacks its argument. -/
structure Libc where
  permute : Bool
  invalid : UInt8 → Bytes
  lacking : UInt8 → Bytes

/-- The option string, as `getopt` searches it: whether the letter is known, and whether it takes an argument. -/
def optKind : Bytes → UInt8 → Option Bool
  | [], _ => none
  | d :: ds, c =>
    if c = 0x3a then none
    else if d = c then some (ds.head? = some 0x3a)
    else optKind ds c

/-- The letters of one word behind its dash: the options, and a letter whose argument is the next word.  A failure is the option `?`; as its argument the
model keeps the text `getopt` has written. -/
def getoptWord (l : Libc) (spec : Bytes) : Bytes → List Opt × Option UInt8
  | [] => ([], none)
  | c :: cs =>
    match optKind spec c with
    | none => let r := getoptWord l spec cs; (⟨'?', l.invalid c⟩ :: r.1, r.2)
    | some false => let r := getoptWord l spec cs; (⟨Char.ofNat c.toNat, []⟩ :: r.1, r.2)
    | some true => if cs = [] then ([], some c) else ([⟨Char.ofNat c.toNat, cs⟩], none)

/-- All calls of `getopt`, /repo/src/main.c line 84 and /repo/src/cli.c line 77, then `optind` (/repo/src/main.c lines 193-194): the options and the
operands; `pending` is a letter waiting for its argument. -/
def getoptAll (l : Libc) (spec : Bytes) : Option UInt8 → List Bytes → List Opt × List Bytes
  | none, [] => ([], [])
  | some c, [] => ([⟨'?', l.lacking c⟩], [])
  | some c, w :: ws => let r := getoptAll l spec none ws; (⟨Char.ofNat c.toNat, w⟩ :: r.1, r.2)
  | none, w :: ws =>
    if w = lit "--" then ([], ws)
    else if w.head? = some 0x2d ∧ 2 ≤ w.length then
      let o := getoptWord l spec (w.drop 1)
      let r := getoptAll l spec o.2 ws
      (o.1 ++ r.1, r.2)
    else if l.permute then let r := getoptAll l spec none ws; (r.1, w :: r.2)
    else ([], w :: ws)

/-- The option string of the daemon, /repo/src/main.c line 84. -/
def daemonSpec : Bytes := lit "ade:fhm:noqrstu:vwyzc:l:LCEFN"

/-- The option string of the client, /repo/src/cli.c line 77. -/
def clientSpec : Bytes := lit "LCEFNbdfp:ovh"

/-! ## The daemon -/

/-- `usage`, /repo/src/main.c lines 286-319, built for Linux (`HAVE_SYSFS`), with the version of /repo/configure.ac line 6 and the user chosen there. -/
def mainUsage (prog : Bytes) : Bytes :=
  lit "ladvd version 1.1.3\nUsage: " ++ prog ++ lit " [-a] [INTERFACE] [INTERFACE]\n" ++ List.flatten [
    lit "\t-a = Auto-enable protocols based on received packets\n",
    lit "\t-d = Dump pcap-compatible packets to stdout\n",
    lit "\t-e <interface> = Exclude this interface\n",
    lit "\t-f = Run in the foreground\n",
    lit "\t-h = Print this message\n",
    lit "\t-m <interface> = Management interface\n",
    lit "\t-n = Use addresses of mgmt interface for all interfaces\n",
    lit "\t-o = Run Once\n",
    lit "\t-q = Generate per-interface chassis-id values\n",
    lit "\t-r = Receive Packets\n",
    lit "\t-s = Silent, don't transmit packets\n",
    lit "\t-t = Use Tun/Tap interfaces\n",
    lit "\t-u <user> = Setuid User (defaults to ladvd)\n",
    lit "\t-v = Increase logging verbosity\n",
    lit "\t-w = Use wireless interfaces\n",
    lit "\t-z = Save received info in interface description / alias\n",
    lit "\t-c <CC> = System Country Code\n",
    lit "\t-l <location> = System Location\n",
    lit "\t-L = Enable LLDP\n",
    lit "\t-C = Enable CDP\n",
    lit "\t-E = Enable EDP\n",
    lit "\t-F = Enable FDP\n",
    lit "\t-N = Enable NDP\n"]

/-- How option processing ends: the program exits with a status, or goes on with these settings. -/
inductive MainEnd where
  | exits (status : Nat)
  | starts (s : MainSt) (pwd : Option (Nat × Nat))
  deriving Repr, DecidableEq

/-- What is written while the options are processed, and how that ends. -/
structure MainOut where
  told : List LogOut
  how : Res MainEnd
  deriving Repr, DecidableEq

/-- The messages about one option, /repo/src/main.c lines 101, 117-121; `vs` is the number of `-v` so far.  What `getopt` says itself comes first. -/
def optTold (h : Host) (s : MainSt) (vs : Nat) (o : Opt) : List LogOut :=
  match o.ch with
  | '?' => [.stderr o.arg]
  | 'e' => if h.hasIf o.arg then [] else myLog s.opts (logLevel vs) 0 (lit "main") (lit "invalid exclude interface " ++ o.arg)
  | 'm' =>
    let s := s.on OPT_MNETIF
    if h.hasIf o.arg then []
    else if (h.pton4 o.arg).isNone ∧ (h.pton6 o.arg).isNone then
      myLog s.opts (logLevel vs) 0 (lit "main") (lit "invalid management address " ++ o.arg)
    else myLog s.opts (logLevel vs) 1 (lit "main") (lit "please specify a management interface, not an addr")
  | _ => []

/-- The option loop with its messages, /repo/src/main.c lines 84-191; the messages, the number of `-v`, and the result of `mainLoop`. -/
def loopTold (h : Host) : List Opt → MainSt → Nat → List LogOut × Nat × Res MainSt
  | [], s, vs => ([], vs, .ok s)
  | o :: os, s, vs =>
    match mainOpt h s o with
    | .ok s' =>
      let r := loopTold h os s' (if o.ch = 'v' then vs + 1 else vs)
      (optTold h s vs o ++ r.1, r.2)
    | r => (optTold h s vs o, vs, r)

/-- `main` up to the validation of the user, /repo/src/main.c lines 84-216: `argv` are the words behind the name of the program. -/
def daemonMain (l : Libc) (prog : Bytes) (h : Host) (argv : List Bytes) : MainOut :=
  let g := getoptAll l daemonSpec none argv
  let r := loopTold h g.1 {} 0
  match r.2.2 with
  | .ok s =>
    let s := if g.2.length ≠ 0 then s.on OPT_ARGV else s
    if !s.opts.has OPT_AUTO && s.protos == 0 then
      ⟨r.1 ++ myLog s.opts (logLevel r.2.1) 0 (lit "main") (lit "no protocols enabled") ++ [.stderr (mainUsage prog)], .ok (.exits 1)⟩
    else if s.opts.has OPT_DEBUG then ⟨r.1, .ok (.starts s none)⟩
    else
      match h.user s.user with
      | some pwd => ⟨r.1, .ok (.starts s (some pwd))⟩
      | none =>
        ⟨r.1 ++ myLog s.opts (max 0 (logLevel r.2.1)) 0 (lit "main") (lit "user " ++ s.user ++ lit " does not exist"), .ok (.exits 1)⟩
  | .fail => ⟨r.1 ++ [.stderr (mainUsage prog)], .ok (.exits 1)⟩
  | .oob => ⟨r.1, .oob⟩
  | .abort => ⟨r.1, .abort⟩
  | .stuck => ⟨r.1, .stuck⟩

/-! ## The client -/

/-- What `getopt` writes before the client stops processing options, /repo/src/cli.c lines 77-131. -/
def cliTold : List Opt → CliConf → Bytes
  | [], _ => []
  | o :: os, c =>
    match cliOpt c o.ch with
    | some c => cliTold os c
    | none => if o.ch = '?' then o.arg else []

/-- `cli_main`, /repo/src/cli.c lines 64-232, from the words behind the name of the program; `ix` is `if_nametoindex`. -/
def clientMain (l : Libc) (w : CliWorld) (ix : Bytes → Option Nat) (argv : List Bytes) : CliExit :=
  let g := getoptAll l clientSpec none argv
  let r := cliMain { w with url := ((g.1.find? (fun o => o.ch = 'p')).map (·.arg)).getD [] } (g.1.map (·.ch)) (g.2.map ix)
  { r with err := cliTold g.1 {} ++ r.err }

/-- The program installed under two names, /repo/src/main.c lines 67-69. -/
def mainOf (l : Libc) (w : CliWorld) (ix : Bytes → Option Nat) (h : Host) (argv : List Bytes) : CliExit ⊕ MainOut :=
  if w.prog = lit "ladvdc" then .inl (clientMain l w ix argv) else .inr (daemonMain l w.prog h argv)

end Ladvd
