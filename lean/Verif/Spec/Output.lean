import Verif.Spec.Print
/-!
# Specification of what the command line client shows

The values and columns of a displayed neighbour, in terms of the fields of the record `Shown` the client passes to its output functions.
Notation of numbers is Lean's own (`toString`).
-/

namespace Ladvd.Spec

/-- The protocols by number: /repo/src/main.h lines 24-38, the letters L, C, E, F and N of the options, and version 1 of CDP. -/
def protocolName (n : Nat) : Bytes := [lit "LLDP", lit "CDP", lit "EDP", lit "FDP", lit "NDP", lit "CDP1"].getD n []

/-- A number in decimal notation. -/
def numeral (n : Nat) : Bytes := lit (toString n)

/-- The values a neighbour is displayed with in batch mode. -/
def batchValues (ntop6 : Bytes → Bytes) (s : Shown) : List (Bytes × Bytes) :=
  [(lit "INTERFACE", s.name), (lit "HOSTNAME", requoted s.peer.hostname), (lit "PORTNAME", requoted s.peer.portname),
   (lit "PORTDESCR", requoted s.peer.portdescr), (lit "PROTOCOL", protocolName s.proto),
   (lit "ADDR_INET4", (s.peer.inet4.map dottedText).getD []), (lit "ADDR_INET6", (s.peer.inet6.map ntop6).getD []),
   (lit "ADDR_802", (s.peer.mac.map etherText).getD []), (lit "VLAN_ID", s.peer.vlan.getD []), (lit "CAPABILITIES", s.peer.cap.getD []),
   (lit "TTL", numeral s.ttl), (lit "HOLDTIME", numeral s.hold)]

/-- The variables set for a list of neighbours: those of the n-th neighbour have the suffix n. -/
def batchVars (ntop6 : Bytes → Bytes) (ss : List Shown) : List (Bytes × Bytes) :=
  ss.zipIdx.flatMap (fun x => (batchValues ntop6 x.1).map (fun p => (p.1 ++ lit "_" ++ numeral x.2, p.2)))

/-- A text in a column of a table: cut or filled with spaces to the width. -/
def cell (w : Nat) (t : Bytes) : Bytes := (t ++ List.replicate w 0x20).take w

/-- "ethernet", each letter small or capital. -/
def isEthernet (w : Bytes) : Bool :=
  w.length == 8 && (w.zip ((lit "ethernet").zip (lit "ETHERNET"))).all (fun p => p.1 == p.2.1 || p.1 == p.2.2)

/-- A port name with its media word shortened. -/
def shortPort (s : Bytes) : Bytes :=
  if lit "FastEthernet" <+: s then lit "Fa" ++ s.drop 12
  else if lit "GigabitEthernet" <+: s then lit "Gi" ++ s.drop 15
  else if lit "TenGigabitEthernet" <+: s then lit "Te" ++ s.drop 18
  else if isEthernet (s.take 8) then s.take 3 ++ s.drop 8
  else s

/-- A host name that does not fit is shown without its domain. -/
def shortHost (w : Nat) (t : Bytes) : Bytes := if t.length ≤ w then t else t.takeWhile (· ≠ 0x2e)

/-- Width of the column of host names on a terminal. -/
def hostWidth (cols : Nat) : Nat := min 30 (20 + (cols - 80) / 2)

/-- The first five columns and the text of the last one. -/
def tableCells (host : Nat) (s : Shown) : List Bytes × Bytes :=
  ([cell host (shortHost host (s.peer.hostname.getD [])), cell 13 s.name, cell 7 (protocolName s.proto), cell 12 (numeral s.hold),
    cell 13 (s.peer.cap.getD [])],
   shortPort ((s.peer.portname.or s.peer.portdescr).getD []))

/-- The fields of the HTTP request. -/
def httpFields (enc : Bytes → Bytes) (host : Bytes) (s : Shown) : List Bytes :=
  [lit "hostname=" ++ host, lit "interface=" ++ s.name, lit "peer_hostname=" ++ enc (s.peer.hostname.getD []),
   lit "peer_portname=" ++ enc (s.peer.portname.getD []), lit "protocol=" ++ protocolName s.proto,
   lit "capabilities=" ++ s.peer.cap.getD [], lit "ttl=" ++ numeral s.ttl, lit "holdtime=" ++ numeral s.hold ++ lit "\r\n\r\n"]

end Ladvd.Spec
