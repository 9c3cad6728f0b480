import Verif.Model.Child
/-!
# The command line client

/repo/src/cli.c: options, the loop over the entries the daemon sends, and the output formats.
-/

namespace Ladvd

/-! ## Options -/

/-- `MODE_*`, /repo/src/cli.c lines 33-47. -/
inductive CliMode where
  | table | print | batch | debug | http
  deriving Repr, DecidableEq

/-- The variables set from the command line, /repo/src/cli.c lines 66-68 and 75; `indexes` is `NULL` (`none`) without interface arguments, and `host`
tells whether `http_host` is set. -/
structure CliConf where
  protos : Nat := 0
  indexes : Option (List Nat) := none
  mode : CliMode := .table
  once : Bool := false
  host : Bool := false
  deriving Repr, DecidableEq

/-- One option, /repo/src/cli.c lines 77-131: the letter.  `none` is `usage()`.  Simplifications: the argument of `-p` is not kept and `-v` only
changes logging. -/
def cliOpt (c : CliConf) (ch : Char) : Option CliConf :=
  if ch = 'L' then some { c with protos := c.protos ||| 1 }
  else if ch = 'C' then some { c with protos := c.protos ||| 2 }
  else if ch = 'E' then some { c with protos := c.protos ||| 4 }
  else if ch = 'F' then some { c with protos := c.protos ||| 8 }
  else if ch = 'N' then some { c with protos := c.protos ||| 16 }
  else if ch = 'b' then some { c with mode := .batch }
  else if ch = 'd' then some { c with mode := .debug }
  else if ch = 'f' then some { c with mode := .print }
  else if ch = 'p' then (if c.host then none else some { c with mode := .http, host := true })
  else if ch = 'o' then some { c with once := true }
  else if ch = 'v' then some c
  else none

/-- The interface arguments, /repo/src/cli.c lines 140-147; `none` as argument is a name `if_nametoindex` does not know. -/
def cliArgs : List (Option Nat) → Option (List Nat)
  | [] => some []
  | none :: _ => none
  | some i :: r => (cliArgs r).map (i :: ·)

/-- Option processing, /repo/src/cli.c lines 75-147; `none` is `usage()`. -/
def cliOptions (opts : List Char) (args : List (Option Nat)) : Option CliConf := do
  let c ← opts.foldlM cliOpt {}
  let c := if c.protos = 0 then { c with protos := 255 } else c
  if args = [] then pure c
  else do
    let ix ← cliArgs args
    pure { c with indexes := some ix }

/-! ## The loop -/

/-- `struct parent_msg` after a `read` of `PARENT_MSG_MAX` bytes, /repo/src/cli.c line 176.  `name` is the C string; `msg` the whole array of
1518 bytes. -/
structure CliIn where
  index : Nat
  name : Bytes
  proto : Nat
  received : Int
  len : Int
  msg : Bytes
  deriving Repr, DecidableEq

/-- What the daemon writes for an entry of its table, /repo/src/child.c line 511. -/
def CliIn.ofEntry (e : Entry) : CliIn := ⟨e.index, e.name, e.proto, e.received, e.len, e.msg⟩

/-- The members of `*msg` that `read` does not overwrite and decoding uses. -/
structure CliSt where
  ttl : Nat := 0
  peer : Peer := {}
  deriving Repr, DecidableEq

/-- The arguments of `modes[mode].write`, /repo/src/cli.c line 214. -/
structure Shown where
  index : Nat
  name : Bytes
  proto : Nat
  ttl : Nat
  hold : Nat
  peer : Peer
  frame : Bytes
  deriving Repr, DecidableEq

/-- `skip unwanted interfaces`, /repo/src/cli.c lines 184-192. -/
def cliWants (c : CliConf) (index : Nat) : Bool :=
  match c.indexes with
  | none => true
  | some l => l.contains index

/-- After decoding, /repo/src/cli.c lines 207-217: expired messages are skipped without releasing the peer data, others are shown and the
structure is cleared.  `holdtime` is an `uint16_t`. -/
def cliShow (now : Int) (e : CliIn) (m : Msg) : Res (CliSt × List Bytes × Option Shown) :=
  if (m.ttl : Int) < now - e.received then .ok (⟨m.ttl, m.peer⟩, m.out, none)
  else do
    let frame ← rd e.msg 0 e.len.toNat
    pure ({}, m.out, some ⟨e.index, e.name, m.proto, m.ttl, ((m.ttl - (now - e.received)) % 65536).toNat, m.peer, frame⟩)

/-- One pass of the loop, /repo/src/cli.c lines 176-224: the new state, the peer's texts printed while decoding (`-f`), and what is passed to
the output function.  Simplifications: texts printed by a decoder that fails are left out, as is the lifetime it leaves behind (all decoders
assign it before they succeed, `Props.C20_ttl`). -/
def clientMsg (c : CliConf) (now : Int) (st : CliSt) (e : CliIn) : Res (CliSt × List Bytes × Option Shown) :=
  match Proto.ofNum e.proto with
  | none => .ok (st, [], none)
  | some p =>
    if e.len < ETHER_MIN_LEN - 4 ∨ e.len > ETHER_MAX_LEN then .ok (st, [], none)
    else if !cliWants c e.index then .ok (st, [], none)
    else if !c.protos.testBit e.proto then .ok (st, [], none)
    else
      let print := c.mode == .print
      match p.decode print (e.msg ++ [if print then 2 else 1, 0]) e.len.toNat { proto := e.proto, ttl := st.ttl, peer := st.peer } with
      | .abort => .abort
      | .oob => .oob
      | .stuck => .stuck
      | .fail => .ok ({}, [], none)
      | .ok (m, n) => if n = 0 then .ok ({}, [], none) else cliShow now e m

/-- The loop, /repo/src/cli.c lines 176-224, over the messages read: what is printed and shown for each.  With `-o` it ends with the first
message shown. -/
def clientLoop (c : CliConf) (now : Int) : CliSt → List CliIn → Res (List (List Bytes × Option Shown))
  | _, [] => .ok []
  | st, e :: es => do
    let (st, texts, s) ← clientMsg c now st e
    if s.isSome && c.once then pure [(texts, s)]
    else do
      let r ← clientLoop c now st es
      pure ((texts, s) :: r)

/-! ## Output -/

/-- `STR`, /repo/src/cli.c line 244. -/
def strOr (o : Option Bytes) : Bytes := o.getD []

/-- `swapchr`, /repo/src/cli.c lines 234-242. -/
def swapchr (c d : UInt8) : Bytes → Bytes
  | [] => []
  | b :: bs => (if b = c then d else b) :: swapchr c d bs

/-- `%u`. -/
def decimal32 (n : Nat) : Bytes := decimalAux 10 n []

/-- `protos[p].name`, /repo/src/main.h lines 24-38. -/
def protoName (n : Nat) : Bytes :=
  match Proto.ofNum n with
  | some .lldp => lit "LLDP"
  | some .cdp => lit "CDP"
  | some .edp => lit "EDP"
  | some .fdp => lit "FDP"
  | some .ndp => lit "NDP"
  | some .cdp1 => lit "CDP1"
  | none => []

/-- A lower case hexadecimal digit. -/
def hexDigit (n : Nat) : UInt8 := if n < 10 then UInt8.ofNat (48 + n) else UInt8.ofNat (87 + n)

/-- `%02x:...`, /repo/src/proto/tlv.c lines 75-80 and 143-149. -/
def macText : Bytes → Bytes
  | [] => []
  | [b] => [hexDigit (b.toNat / 16), hexDigit (b.toNat % 16)]
  | b :: bs => hexDigit (b.toNat / 16) :: hexDigit (b.toNat % 16) :: 0x3a :: macText bs

/-- `inet_ntop(AF_INET, ...)`. -/
def inet4Text : Bytes → Bytes
  | [] => []
  | [b] => decimal16 b.toNat
  | b :: bs => decimal16 b.toNat ++ 0x2e :: inet4Text bs

/-- One line of `batch_write`, /repo/src/cli.c lines 257-268. -/
def batchLine (label : Bytes) (count : Nat) (value : Bytes) : Bytes :=
  label ++ lit "_" ++ decimal32 count ++ lit "='" ++ value ++ lit "'\n"

/-- `batch_write`, /repo/src/cli.c lines 246-271.  `ntop6` is libc's `inet_ntop(AF_INET6, ...)`. -/
def batchText (ntop6 : Bytes → Bytes) (count : Nat) (s : Shown) : Bytes :=
  batchLine (lit "INTERFACE") count s.name ++
  batchLine (lit "HOSTNAME") count (strOr (s.peer.hostname.map (swapchr 0x27 0x22))) ++
  batchLine (lit "PORTNAME") count (strOr (s.peer.portname.map (swapchr 0x27 0x22))) ++
  batchLine (lit "PORTDESCR") count (strOr (s.peer.portdescr.map (swapchr 0x27 0x22))) ++
  batchLine (lit "PROTOCOL") count (protoName s.proto) ++
  batchLine (lit "ADDR_INET4") count (strOr (s.peer.inet4.map inet4Text)) ++
  batchLine (lit "ADDR_INET6") count (strOr (s.peer.inet6.map ntop6)) ++
  batchLine (lit "ADDR_802") count (strOr (s.peer.mac.map macText)) ++
  batchLine (lit "VLAN_ID") count (strOr s.peer.vlan) ++
  batchLine (lit "CAPABILITIES") count (strOr s.peer.cap) ++
  batchLine (lit "TTL") count (decimal16 s.ttl) ++
  batchLine (lit "HOLDTIME") count (decimal16 s.hold)

/-- The output of all calls of `batch_write`: `count` is a static variable, an `unsigned int`. -/
def batchAll (ntop6 : Bytes → Bytes) : Nat → List Shown → Bytes
  | _, [] => []
  | count, s :: ss => batchText ntop6 count s ++ batchAll ntop6 ((count + 1) % 2 ^ 32) ss

/-- `term_width`, `host_width` and `port_width`. -/
structure Widths where
  term : Nat := 0
  host : Nat := 20
  port : Nat := 10
  deriving Repr, DecidableEq

/-- `cli_header`, /repo/src/cli.c lines 273-290: `cols` is the width the terminal reports. -/
def cliWidths : Option Nat → Widths
  | none => {}
  | some cols =>
    if cols > 80 then
      if cols - 80 > 20 then ⟨cols, 30, cols - 80⟩
      else ⟨cols, 20 + (cols - 80) / 2, 10 + ((cols - 80) - (cols - 80) / 2)⟩
    else ⟨cols, 20, 10⟩

/-- `%-w.ws`. -/
def column (w : Nat) (s : Bytes) : Bytes := s.take w ++ List.replicate (w - s.length) 0x20

/-- `cli_write`, /repo/src/cli.c lines 300-325. -/
def tableLine (w : Widths) (s : Shown) : Bytes :=
  let host := s.peer.hostname.map (fun h => if h.length > w.host then h.takeWhile (· ≠ 0x2e) else h)
  let port := (match s.peer.portname with
    | some p => some p
    | none => s.peer.portdescr).map portnameAbbr
  column w.host (strOr host) ++ lit " " ++ column 13 s.name ++ lit " " ++ column 7 (protoName s.proto) ++ lit " " ++
    (decimal16 s.hold ++ List.replicate (12 - (decimal16 s.hold).length) 0x20) ++ lit " " ++ column 13 (strOr s.peer.cap) ++ lit " " ++
    (if w.term > 0 then column w.port (strOr port) else strOr port) ++ lit "\n"

/-- The body of the request made by `http_request`, /repo/src/cli.c lines 365-383.  `enc` is libevent's `evhttp_encode_uri`; `host` the name of
this host. -/
def httpBody (enc : Bytes → Bytes) (host : Bytes) (s : Shown) : Bytes :=
  lit "hostname=" ++ host ++ lit "&interface=" ++ s.name ++ lit "&peer_hostname=" ++ enc (strOr s.peer.hostname) ++
    lit "&peer_portname=" ++ enc (strOr s.peer.portname) ++ lit "&protocol=" ++ protoName s.proto ++
    lit "&capabilities=" ++ strOr s.peer.cap ++ lit "&ttl=" ++ decimal16 s.ttl ++ lit "&holdtime=" ++ decimal16 s.hold ++ lit "\r\n\r\n"

end Ladvd
