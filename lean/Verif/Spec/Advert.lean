import Verif.Model.Packet
import Verif.Spec.Wire
/-!
# Specification of the advertisements

What each advertisement has to say about an interface, as lists of TLVs, written from the protocol formats and
the documentation; from the model only the input record `PktEnv` and the byte order helpers are used.
-/

namespace Ladvd.Spec

/-! ## Legal inputs -/

/-- A C string of at most `n` characters. -/
def cText (n : Nat) (s : Bytes) : Prop := s.length ≤ n ∧ ∀ c ∈ s, c ≠ 0

instance (n : Nat) (s : Bytes) : Decidable (cText n s) := by unfold cText; infer_instance

/-- Field sizes of an interface record; a name is never empty. -/
def NetifOk (n : Netif) : Prop :=
  n.index < 4294967296 ∧ cText 15 n.name ∧ n.name ≠ [] ∧ cText 63 n.description ∧ cText 63 n.deviceName ∧
  n.hwaddr.length = 6 ∧ n.ipaddr4.length = 4 ∧ n.ipaddr6.length = 16 ∧ n.mtu < 65536 ∧ n.vlanId < 65536

instance (n : Netif) : Decidable (NetifOk n) := by unfold NetifOk; infer_instance

/-- Field sizes of the system information. -/
def SysOk (s : SysInfo) : Prop :=
  cText 255 s.hostname ∧ cText 255 s.utsStr ∧ cText 255 s.platform ∧ cText 255 s.location ∧ cText 2 s.country ∧
  s.utsRel.length = 3 ∧ s.hwaddr.length = 6 ∧ s.cap < 65536 ∧ s.capActive < 65536 ∧ s.capLldpmed < 65536 ∧
  cText 32 s.hinv.hwRevision ∧ cText 32 s.hinv.fwRevision ∧ cText 32 s.hinv.swRevision ∧
  cText 32 s.hinv.serialNumber ∧ cText 32 s.hinv.manufacturer ∧ cText 32 s.hinv.modelName ∧
  cText 32 s.hinv.assetId

instance (s : SysInfo) : Decidable (SysOk s) := by unfold SysOk; infer_instance

/-- Everything an advertisement is made of fits its fields. -/
def EnvOk (e : PktEnv) : Prop :=
  NetifOk e.nif ∧ (∀ p ∈ e.parent, NetifOk p) ∧ (∀ m ∈ e.mnetif, NetifOk m) ∧ (∀ v ∈ e.netifs, NetifOk v) ∧
  SysOk e.sys

instance (e : PktEnv) : Decidable (EnvOk e) := by unfold EnvOk; infer_instance

/-- Active capabilities are available ones, as far as LLDP announces them. -/
def CapsOk (s : SysInfo) : Prop := ∀ b ∈ [1, 3, 4, 5], s.capActive.testBit b = true → s.cap.testBit b = true

instance (s : SysInfo) : Decidable (CapsOk s) := by unfold CapsOk; infer_instance

/-! ## Who is advertised -/

/-- The interface that carries the addresses: the aggregate, if the port belongs to one. -/
def carrier (e : PktEnv) : Netif := match e.parent with | some p => p | none => e.nif

/-- The interface used for management. -/
def manager (e : PktEnv) : Netif := match e.mnetif with | some m => m | none => carrier e

/-- An address is configured. -/
def configured (a : Bytes) : Prop := ∃ b ∈ a, b ≠ 0

instance (a : Bytes) : Decidable (configured a) := by unfold configured; infer_instance

/-- The address that identifies the chassis: that of the port with `-q`, that of the system otherwise. -/
def chassisAddr (e : PktEnv) : Bytes := if e.opts.testBit 13 then e.nif.hwaddr else e.sys.hwaddr

/-- With interfaces on the command line only these take part, otherwise all but the members of aggregates. -/
def inScope (o : Opts) (n : Netif) : Prop := if o.testBit 5 then n.argv ≠ 0 else n.child = 0

instance (o : Opts) (n : Netif) : Decidable (inScope o n) := by unfold inScope; infer_instance

/-- The VLAN interfaces on top of the port or its aggregate. -/
def vlansOf (e : PktEnv) : List Netif :=
  e.netifs.filter (fun v => inScope e.opts v ∧ v.type = -1 ∧
    (v.vlanParent = e.nif.index ∨ v.vlanParent = (carrier e).index))

/-! ## CDP and FDP -/

/-- Address list value: number of addresses, then NLPID IPv4 and SNAP IPv6 entries. -/
def addrTlv (t : Nat) (n : Netif) : List Tlv :=
  let v4 : List Bytes := if configured n.ipaddr4 then [[1, 1, 0xcc, 0, 4] ++ n.ipaddr4] else []
  let v6 : List Bytes := if configured n.ipaddr6 then
    [[2, 8, 0xaa, 0xaa, 0x03, 0x00, 0x00, 0x00, 0x86, 0xdd, 0, 16] ++ n.ipaddr6] else []
  let es := v4 ++ v6
  if es = [] then [] else [(t, be32 es.length ++ es.flatten)]

/-- CDP capability bits of the active capabilities: host 0x10 if that is all, otherwise bridge 2, router 1,
switch 8. -/
def cdpCapBits (c : Nat) : Nat :=
  if c = 4 then 16
  else (if c.testBit 1 then 2 else 0) + (if c.testBit 3 then 1 else 0) + (if c.testBit 4 then 8 else 0)

/-- The CDP management address TLV: the addresses of the management interface, if one was selected. -/
def mgmtAddrs (e : PktEnv) : List Tlv := match e.mnetif with | some m => addrTlv 0x16 m | none => []

/-- The CDP TLVs of an interface. -/
def cdpAdvert (e : PktEnv) : List Tlv :=
  [(0x01, e.sys.hostname), (0x05, e.sys.utsStr), (0x06, e.sys.platform), (0x03, e.nif.name),
   (0x04, be32 (cdpCapBits e.sys.capActive))] ++
  addrTlv 0x02 (carrier e) ++
  mgmtAddrs e ++
  (if e.nif.mtu = 0 then [] else [(0x11, be32 e.nif.mtu)]) ++
  (if e.nif.duplex = -1 then [] else [(0x0b, [UInt8.ofInt e.nif.duplex])]) ++
  (if e.sys.location = [] then [] else [(0x17, 0 :: e.sys.location)]) ++
  [(0x14, e.sys.hostname)]

/-- FDP capability name. -/
def fdpCapName (c : Nat) : Bytes :=
  if c.testBit 3 then [0x52, 0x6f, 0x75, 0x74, 0x65, 0x72]
  else if c.testBit 4 then [0x53, 0x77, 0x69, 0x74, 0x63, 0x68]
  else if c.testBit 1 then [0x42, 0x72, 0x69, 0x64, 0x67, 0x65]
  else [0x48, 0x6f, 0x73, 0x74]

/-- The FDP TLVs of an interface. -/
def fdpAdvert (e : PktEnv) : List Tlv :=
  [(1, e.sys.hostname), (3, e.nif.name), (4, fdpCapName e.sys.capActive), (5, e.sys.utsStr), (6, e.sys.platform)] ++
  addrTlv 2 (manager e)

/-! ## EDP -/

/-- The EDP TLVs of an interface: display name, info (slot 0, port, version), one VLAN TLV per VLAN, null. -/
def edpAdvert (e : PktEnv) : List Tlv :=
  [(1, e.sys.hostname ++ [0]),
   (2, [0, 0] ++ be16 e.nif.index ++ List.replicate 8 0 ++ e.sys.utsRel ++ [0, 0xff, 0xff] ++ List.replicate 14 0)] ++
  (if configured (carrier e).ipaddr4 then
    [(5, [0x80, 0, 0, 0, 0, 0, 0, 0] ++ (carrier e).ipaddr4 ++ e.nif.name ++ [0])] else []) ++
  (vlansOf e).map (fun v =>
    (5, [(if configured v.ipaddr4 then 0x80 else 0), 0] ++ be16 v.vlanId ++ [0, 0, 0, 0] ++ v.ipaddr4 ++
      e.nif.name)) ++
  [(0, [])]

/-! ## LLDP -/

/-- The port description: with interface descriptions in use for neighbours the device name, otherwise the
first nonempty one of port, aggregate and device. -/
def portDescr (e : PktEnv) : Bytes :=
  if e.opts.testBit 11 then e.nif.deviceName
  else (([e.nif.description, (carrier e).description].filter (· ≠ [])).headD e.nif.deviceName)

/-- LLDP capability bits: bridge or switch 4, router 16, wlan 8; station only 128. -/
def lldpCapWord (c : Nat) : Nat :=
  (if c.testBit 1 ∨ c.testBit 4 then 4 else 0) + (if c.testBit 3 then 16 else 0) + (if c.testBit 5 then 8 else 0)

/-- A system that is nothing but a host announces "station only". -/
def lldpCapPair (s : SysInfo) : Bytes :=
  if s.cap = 4 then [0, 128, 0, 128] else be16 (lldpCapWord s.cap) ++ be16 (lldpCapWord s.capActive)

/-- A management address value: address length with family, family, address, interface numbering, no OID. -/
def mgmtTlv (fam : UInt8) (a : Bytes) (index : Nat) : Tlv :=
  (8, [UInt8.ofNat (a.length + 1), fam] ++ a ++ [2] ++ be32 index ++ [0])

/-- An optional LLDP-MED inventory TLV. -/
def inventory (sub : UInt8) (v : Bytes) : List Tlv :=
  if v = [] then [] else [(127, [0x00, 0x12, 0xbb, sub] ++ v)]

/-- The TLVs between the mandatory ones and the End TLV. -/
def lldpAdvert (e : PktEnv) : List Tlv :=
  (if portDescr e = [] then [] else [(4, portDescr e)]) ++
  [(5, e.sys.hostname), (6, e.sys.utsStr), (7, lldpCapPair e.sys)] ++
  (if configured (manager e).ipaddr4 then [mgmtTlv 1 (manager e).ipaddr4 (manager e).index] else []) ++
  (if configured (manager e).ipaddr6 then [mgmtTlv 2 (manager e).ipaddr6 (manager e).index] else []) ++
  [mgmtTlv 6 (manager e).hwaddr (manager e).index] ++
  (vlansOf e).map (fun v =>
    (127, [0x00, 0x80, 0xc2, 3] ++ be16 v.vlanId ++ [UInt8.ofNat v.name.length] ++ v.name)) ++
  (if e.nif.autonegSupported = -1 then [] else
    [(127, [0x00, 0x12, 0x0f, 1, UInt8.ofInt (e.nif.autonegSupported + 2 * e.nif.autonegEnabled)] ++
      be16 e.nif.autonegPmd ++ be16 e.nif.mau)]) ++
  (if (carrier e).bondingMode = 1 then [(127, [0x00, 0x12, 0x0f, 3, 3] ++ be32 e.nif.lacpIndex)] else []) ++
  (if e.nif.mtu = 0 then [] else [(127, [0x00, 0x12, 0x0f, 4] ++ be16 (e.nif.mtu + 22))]) ++
  [(127, [0x00, 0x12, 0xbb, 1] ++ be16 e.sys.capLldpmed ++ [UInt8.ofInt e.sys.lldpmedDevtype])] ++
  (if e.sys.country.length = 2 ∧ e.sys.location ≠ [] then
    [(127, [0x00, 0x12, 0xbb, 3, 2, UInt8.ofNat (5 + e.sys.location.length), 2] ++ e.sys.country ++
      [22, UInt8.ofNat e.sys.location.length] ++ e.sys.location)] else []) ++
  inventory 5 e.sys.hinv.hwRevision ++ inventory 6 e.sys.hinv.fwRevision ++
  inventory 7 e.sys.hinv.swRevision ++ inventory 8 e.sys.hinv.serialNumber ++
  inventory 9 e.sys.hinv.manufacturer ++ inventory 10 e.sys.hinv.modelName ++
  inventory 11 e.sys.hinv.assetId

/-- All LLDP TLVs: chassis ID (MAC address), port ID (interface name), lifetime 180 s, the others, End. -/
def lldpTlvs (e : PktEnv) : List Tlv :=
  [(1, 4 :: chassisAddr e), (2, 5 :: e.nif.name), (3, [0, 180])] ++ lldpAdvert e ++ [(0, [])]

/-! ## Checksums -/

/-- Sixteen-bit one's complement addition (end-around carry). -/
def onesAdd (x y : Nat) : Nat := if x + y ≥ 65536 then x + y - 65535 else x + y

/-- One's complement sum of the big-endian sixteen-bit words.  An odd last octet is the high octet of a last
word (RFC 1071), in the Cisco variant the low octet. -/
def onesSum (cisco : Bool) : Bytes → Nat
  | a :: b :: r => onesAdd (a.toNat * 256 + b.toNat) (onesSum cisco r)
  | [a] => if cisco then a.toNat else a.toNat * 256
  | [] => 0

/-- The data including its checksum verifies: the sum is all ones. -/
def Verifies (cisco : Bool) (data : Bytes) : Prop := onesSum cisco data = 65535

instance (cisco : Bool) (data : Bytes) : Decidable (Verifies cisco data) := by unfold Verifies; infer_instance

end Ladvd.Spec
