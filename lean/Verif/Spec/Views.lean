import Verif.Spec.Print
import Verif.Spec.Output
/-!
# Specification: the two views of a neighbour

What the table of `ladvdc` knows about a neighbour is on the lines of the full report.
-/

namespace Ladvd.Spec

/-- Whole lines. -/
def Whole (a : Bytes) : Prop := a = [] ∨ a.getLast? = some 0x0a

/-- A line (with its line end), or several, of a text. -/
def HasLine (text line : Bytes) : Prop := ∃ a b, text = a ++ line ++ b ∧ Whole a

/-- The report of a LLDP neighbour contains what the table knows of it. -/
structure LldpShows (ntop6 : Bytes → Bytes) (text : Bytes) (p : Peer) : Prop where
  hostname : ∀ t ∈ p.hostname, HasLine text (labelled (lit "System Name") t)
  portname : ∀ t ∈ p.portname, HasLine text (labelled (lit "Port id") t)
  portdescr : ∀ t ∈ p.portdescr, HasLine text (paragraph (lit "Port Description") t)
  cap : ∀ t ∈ p.cap, HasLine text (labelled (lit "Enabled Capabilities") t)
  inet4 : ∀ a ∈ p.inet4, HasLine text (labelled (lit "Management Address IPv4") (dottedText a))
  inet6 : ∀ a ∈ p.inet6, HasLine text (labelled (lit "Management Address IPv6") (ntop6 a))
  mac : ∀ a ∈ p.mac, HasLine text (labelled (lit "Management Address Ethernet") (etherText a))
  vlan : ∀ t ∈ p.vlan, HasLine text (labelled (lit "Port VLAN ID") t)

/-- The report of a CDP neighbour on an interface contains what the table knows of it. -/
structure CdpShows (name : Bytes) (ntop6 : Bytes → Bytes) (text : Bytes) (p : Peer) : Prop where
  hostname : ∀ t ∈ p.hostname, HasLine text (labelled (lit "Device ID") t) ∨ HasLine text (labelled (lit "System Name") t)
  portname : ∀ t ∈ p.portname, HasLine text (lit "Interface: " ++ name ++ lit ", Port ID (outgoing port): " ++ t ++ lit "\n")
  portdescr : p.portdescr = none
  cap : ∀ t ∈ p.cap, HasLine text (labelled (lit "Capabilities") t)
  inet4 : ∀ a ∈ p.inet4, HasLine text (labelled (lit "  IP address") (dottedText a))
  inet6 : ∀ a ∈ p.inet6, HasLine text (labelled (lit "  IPv6 address") (ntop6 a))
  mac : p.mac = none
  vlan : ∀ t ∈ p.vlan, HasLine text (labelled (lit "Native VLAN") t)

/-- The report of a neighbour says what the table says; there is none for EDP, FDP and NDP. -/
def Agree (ntop6 : Bytes → Bytes) (text : Bytes) (s : Shown) : Prop :=
  (s.proto = 0 → LldpShows ntop6 text s.peer ∧ HasLine text (lit "Time remaining: " ++ decimal s.hold ++ lit " seconds\n")) ∧
  (s.proto = 1 ∨ s.proto = 5 → CdpShows s.name ntop6 text s.peer ∧ HasLine text (labelled (lit "Holdtime") (decimal s.hold))) ∧
  (s.proto ∈ [2, 3, 4] → text = [])

end Ladvd.Spec
