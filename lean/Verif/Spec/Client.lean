import Verif.Model.Client
import Verif.Spec.Start
import Verif.Spec.Output
/-!
# What users of the client expect
-/

namespace Ladvd.Spec

/-! ## The command line -/

/-- The documented options, /repo/doc/ladvdc.8.in, as the help describes them. -/
def helpLines : List (Char × Bytes) :=
  [('L', lit "Print LLDP"), ('C', lit "Print CDP"), ('E', lit "Print EDP"), ('F', lit "Print FDP"), ('N', lit "Print NDP"),
   ('b', lit "Print scriptable output"), ('d', lit "Dump pcap-compatible packets to stdout"), ('f', lit "Print full decode"),
   ('o', lit "Decode only one packet"), ('p', lit "Post decode to url"), ('v', lit "Increase logging verbosity"), ('h', lit "Print this message")]

/-- One line of the help; `-p` takes an argument. -/
def helpLine (x : Char × Bytes) : Bytes :=
  lit "\t-" ++ [UInt8.ofNat x.1.toNat] ++ (if x.1 = 'p' then lit " <url>" else []) ++ lit " = " ++ x.2 ++ lit "\n"

/-- The help. -/
def helpText (prog : Bytes) : Bytes :=
  lit "ladvd version 1.1.3\nUsage: " ++ prog ++ lit " [-LCEFN] [INTERFACE] [INTERFACE]\n" ++ helpLines.flatMap helpLine

/-- A command line that is not understood, or that asks for help: a letter that is not documented or `h`, a second URL, or an interface this host
does not have. -/
def Misused (opts : List Char) (args : List (Option Nat)) : Prop :=
  (∃ ch ∈ opts, ch = 'h' ∨ ch ∉ helpLines.map (·.1)) ∨ 2 ≤ opts.count 'p' ∨ none ∈ args

/-- The mode letter that counts: the last one. -/
def modeLetter (opts : List Char) : Option Char := (opts.filter (fun ch => ['b', 'd', 'f', 'p'].contains ch)).getLast?

/-! ## Reaching the daemon -/

/-- Someone using the client. -/
structure User where
  uid : Nat
  groups : List Nat
  deriving Repr, DecidableEq

/-- The answer of `connect`, after unix(7), for a control socket made by root in a directory everyone may search: the value of `errno`, 0 for success.
2 is `ENOENT`, 13 `EACCES`, 111 `ECONNREFUSED`. -/
def World.connect (w : World) (u : User) : Nat :=
  match w.sock with
  | none => 2
  | some (mode, group) =>
    if u.uid ≠ 0 ∧ (if group ∈ u.groups then mode / 16 % 2 else mode / 2 % 2) = 0 then 13
    else if w.bound ∧ w.listening then 0 else 111

/-- The client ends with a message and the exit status 1, and nothing else. -/
def Complains (r : CliExit) (text : Bytes) : Prop := r = ⟨[], text ++ lit "\n", [], .ok 1⟩

/-! ## The table -/

/-- The columns on a terminal of this width: heading, first position, width, and what a neighbour has there. -/
def columns (host port : Nat) (s : Shown) : List (Bytes × Nat × Nat × Bytes) :=
  [(lit "Device ID", 0, host, shortHost host (s.peer.hostname.getD [])),
   (lit "Local Intf", host + 1, 13, s.name),
   (lit "Proto", host + 15, 7, protocolName s.proto),
   (lit "Hold-time", host + 23, 12, numeral s.hold),
   (lit "Capability", host + 36, 13, s.peer.cap.getD []),
   (lit "Port ID", host + 50, port, shortPort ((s.peer.portname.or s.peer.portdescr).getD []))]

/-- The line of the headings: the one above the neighbours. -/
def headings (header : Bytes) : Bytes := ((header.reverse.drop 1).takeWhile (· ≠ 0x0a)).reverse

end Ladvd.Spec
