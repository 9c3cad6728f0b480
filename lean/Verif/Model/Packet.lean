import Verif.Model.Tlv
import Verif.Model.Netif
import Verif.Model.Decode
/-!
# The packet builders
-/

namespace Ladvd

/-- The word sum of `my_chksum`, /repo/src/util.c lines 264-277: little-endian host, `uint32_t` accumulator;
an odd last byte is the high byte of a word in the Cisco variant, the low byte otherwise. -/
def chksumLoop (cisco : Bool) : Bytes → Nat → Nat
  | a :: b :: r, sum => chksumLoop cisco r ((sum + (a.toNat + 256 * b.toNat)) % 4294967296)
  | [a], sum => (sum + (if cisco then 256 * a.toNat else a.toNat)) % 4294967296
  | [], sum => sum

/-- `my_chksum`, /repo/src/util.c lines 262-282. -/
def myChksum (data : Bytes) (cisco : Bool) : Nat :=
  let sum := chksumLoop cisco data 0
  let sum := sum / 65536 + sum % 65536
  let sum := sum + sum / 65536
  65535 - sum % 65536

/-- A `uint16_t` in host byte order (little-endian), as the `checksum` struct member is stored. -/
def le16 (n : Nat) : Bytes := [UInt8.ofNat n, UInt8.ofNat (n / 256)]

/-- What a builder is called with (/repo/src/common.h lines 319-320): the interface, its `parent`, the management interface
`sysinfo->mnetif`, the interface list, system information and options. -/
structure PktEnv where
  nif : Netif
  parent : Option Netif := none
  mnetif : Option Netif := none
  netifs : List Netif := []
  sys : SysInfo
  opts : Opts := 0
  deriving Repr, DecidableEq

/-- "fixup parent netif", e.g. /repo/src/proto/cdp.c lines 92-96. -/
def PktEnv.par (e : PktEnv) : Netif := e.parent.getD e.nif

/-- `ipaddr4 != 0`. -/
def Netif.has4 (n : Netif) : Bool := n.ipaddr4 != [0, 0, 0, 0]
/-- `!IN6_IS_ADDR_UNSPECIFIED(ipaddr6)`. -/
def Netif.has6 (n : Netif) : Bool := n.ipaddr6 != [0, 0, 0, 0, 0, 0, 0, 0, 0, 0, 0, 0, 0, 0, 0, 0]

/-- A signed 8-bit value stored in an octet. -/
def u8 (i : Int) : Nat := (i % 256).toNat

/-- The loop over the VLAN interfaces of the advertised interface, /repo/src/proto/lldp.c lines 236-256 and
/repo/src/proto/edp.c lines 121-141. -/
def vlanW (e : PktEnv) (body : Netif → W → Res W) : W → Res W :=
  (netifTraverse e.opts e.netifs).foldr (fun v k =>
    whenW (v.type == NETIF_VLAN && (v.vlanParent == e.nif.index || v.vlanParent == e.par.index)) (body v) ⋙ k) nopW

/-- The LLC/SNAP header bytes, e.g. /repo/src/proto/cdp.c lines 107-112. -/
def llcHdr (org : Bytes) (pid : Nat) : Bytes := [0xaa, 0xaa, 0x03] ++ org ++ be16 pid

/-- One address of an address TLV, /repo/src/proto/cdp.c lines 196-218. -/
def addrW (pt : Nat) (protocol addr : Bytes) : W → Res W :=
  push8 pt ⋙ push8 protocol.length ⋙ push protocol ⋙ push16 addr.length ⋙ push addr

/-- An address TLV of type `t` for interface `n`, nothing without addresses: /repo/src/proto/cdp.c lines 182-221
and 224-263, /repo/src/proto/fdp.c lines 139-177. -/
def addrsW (t : Nat) (n : Netif) : W → Res W :=
  let count := (if n.has4 then 1 else 0) + (if n.has6 then 1 else 0)
  whenW (decide (count > 0)) (cdpTlvW t (push32 count ⋙
    whenW n.has4 (addrW 1 [0xcc] n.ipaddr4) ⋙
    whenW n.has6 (addrW 2 [0xaa, 0xaa, 0x03, 0x00, 0x00, 0x00, 0x86, 0xdd] n.ipaddr6)))

/-- `cap`, /repo/src/proto/cdp.c lines 165-172. -/
def cdpCapVal (capActive : Nat) : Nat :=
  if capActive = 4 then 0x10
  else (if capActive.testBit 1 then 0x02 else 0) ||| (if capActive.testBit 3 then 0x01 else 0) |||
    (if capActive.testBit 4 then 0x08 else 0)

/-- The TLVs of `cdp_packet`, /repo/src/proto/cdp.c lines 129-307. -/
def cdpBody (e : PktEnv) : W → Res W :=
  cdpTlvW 0x01 (push e.sys.hostname) ⋙
  cdpTlvW 0x05 (push e.sys.utsStr) ⋙
  cdpTlvW 0x06 (push e.sys.platform) ⋙
  cdpTlvW 0x03 (push e.nif.name) ⋙
  cdpTlvW 0x04 (push32 (cdpCapVal e.sys.capActive)) ⋙
  addrsW 0x02 e.par ⋙
  (match e.mnetif with | none => nopW | some m => addrsW 0x16 m) ⋙
  whenW (e.nif.mtu != 0) (cdpTlvW 0x11 (push32 e.nif.mtu)) ⋙
  whenW (e.nif.duplex != -1) (cdpTlvW 0x0b (push8 (u8 e.nif.duplex))) ⋙
  whenW (e.sys.location != []) (cdpTlvW 0x17 (push8 0 ⋙ push e.sys.location)) ⋙
  cdpTlvW 0x14 (push e.sys.hostname)

/-- The parts shared by the LLC builders: LLC header, protocol header area `hdr` at offset 22, TLVs, then the
final protocol header computed from the data, then the Ethernet header.  /repo/src/proto/cdp.c lines 102-126 and
310-319, /repo/src/proto/fdp.c lines 60-82 and 180-189. -/
def llcPacket (mem : Bytes) (dst org : Bytes) (pid : Nat) (src hdr : Bytes) (body : W → Res W)
    (final : Bytes → Bytes) : Res (Bytes × Nat) := do
  let mem ← wr mem 14 (llcHdr org pid)
  let mem ← wr mem 22 hdr
  let w ← body ⟨mem, 22 + hdr.length, ETHER_MAX_LEN - (22 + hdr.length)⟩
  let data ← rd w.mem 22 (w.pos - 22)
  let mem ← wr w.mem 22 (final data)
  let mem ← wr mem 0 (dst ++ src ++ be16 (w.pos - 14))
  pure (mem, w.pos)

/-- `cdp_packet`, /repo/src/proto/cdp.c lines 73-320: frame buffer afterwards and return value; `fail` is the
return value 0.  `cdp1` says that it is called for `PROTO_CDP1`. -/
def cdpPacket (cdp1 : Bool) (mem : Bytes) (e : PktEnv) : Res (Bytes × Nat) :=
  let ver : UInt8 := if cdp1 then 1 else 2
  llcPacket mem CDP_DST CDP_ORG CDP_PID e.nif.hwaddr [ver, UInt8.ofNat LADVD_TTL, 0, 0] (cdpBody e)
    (fun data => [ver, UInt8.ofNat LADVD_TTL] ++ le16 (myChksum data true))

/-- The capability string, /repo/src/proto/fdp.c lines 103-111. -/
def fdpCapStr (capActive : Nat) : Bytes :=
  if capActive.testBit 3 then lit "Router"
  else if capActive.testBit 4 then lit "Switch"
  else if capActive.testBit 1 then lit "Bridge"
  else lit "Host"

/-- The TLVs of `fdp_packet`, /repo/src/proto/fdp.c lines 54-57 and 85-177. -/
def fdpBody (e : PktEnv) : W → Res W :=
  cdpTlvW 1 (push e.sys.hostname) ⋙
  cdpTlvW 3 (push e.nif.name) ⋙
  cdpTlvW 4 (push (fdpCapStr e.sys.capActive)) ⋙
  cdpTlvW 5 (push e.sys.utsStr) ⋙
  cdpTlvW 6 (push e.sys.platform) ⋙
  addrsW 2 (e.mnetif.getD e.par)

/-- `fdp_packet`, /repo/src/proto/fdp.c lines 26-190. -/
def fdpPacket (mem : Bytes) (e : PktEnv) : Res (Bytes × Nat) :=
  llcPacket mem FDP_DST FDP_ORG FDP_PID e.nif.hwaddr [1, UInt8.ofNat LADVD_TTL, 0, 0] (fdpBody e)
    (fun data => [1, UInt8.ofNat LADVD_TTL] ++ le16 (myChksum data false))

/-- The TLVs of `edp_packet`, /repo/src/proto/edp.c lines 80-148.  The VLAN TLVs carry `netif->name`, as in the
code. -/
def edpBody (e : PktEnv) : W → Res W :=
  edpTlvW 1 (push (e.sys.hostname ++ [0])) ⋙
  edpTlvW 2 (push16 0 ⋙ push16 e.nif.index ⋙ push16 0 ⋙ push32 0 ⋙ push16 0 ⋙ push e.sys.utsRel ⋙ push8 0 ⋙
    push16 0xffff ⋙ push16 0 ⋙ push32 0 ⋙ push32 0 ⋙ push32 0) ⋙
  whenW e.par.has4 (edpTlvW 5 (push8 128 ⋙ push8 0 ⋙ push16 0 ⋙ push32 0 ⋙ push e.par.ipaddr4 ⋙
    push e.nif.name ⋙ push8 0)) ⋙
  vlanW e (fun v => edpTlvW 5 (push8 (if v.has4 then 128 else 0) ⋙ push8 0 ⋙ push16 v.vlanId ⋙ push32 0 ⋙
    push v.ipaddr4 ⋙ push e.nif.name)) ⋙
  edpTlvW 0 nopW

/-- `hwaddr`, /repo/src/proto/lldp.c line 94 and /repo/src/proto/edp.c line 54. -/
def PktEnv.chassis (e : PktEnv) : Bytes := if e.opts.has OPT_CHASSIS_IF then e.nif.hwaddr else e.sys.hwaddr

/-- The EDP header with its length and checksum fields, /repo/src/proto/edp.h lines 27-35. -/
def edpHdr (len : Nat) (ck : Bytes) (seq : Nat) (hwaddr : Bytes) : Bytes :=
  [1, 0] ++ be16 len ++ ck ++ be16 seq ++ [0, 0] ++ hwaddr

/-- `edp_packet`, /repo/src/proto/edp.c lines 26-163; `seq` is the static `edp_count` before the call.  The header
area keeps its old contents while the TLVs are written (lines 69-77); the header is stored once without and
once with the checksum (lines 151-155). -/
def edpPacket (mem : Bytes) (e : PktEnv) (seq : Nat) : Res (Bytes × Nat) := do
  let mem ← wr mem 14 (llcHdr EDP_ORG EDP_PID)
  let w ← edpBody e ⟨mem, 22 + 16, ETHER_MAX_LEN - (22 + 16)⟩
  let mem ← wr w.mem 22 (edpHdr (w.pos - 22) [0, 0] seq e.chassis)
  let data ← rd mem 22 (w.pos - 22)
  let mem ← wr mem 22 (edpHdr (w.pos - 22) (le16 (myChksum data false)) seq e.chassis)
  let mem ← wr mem 0 (EDP_DST ++ e.nif.hwaddr ++ be16 (w.pos - 14))
  pure (mem, w.pos)

/-- `ndp_packet`, /repo/src/proto/ndp.c lines 29-81; `NDP_PADDING` is 64 - 14 - 8 - 11 bytes. -/
def ndpPacket (mem : Bytes) (e : PktEnv) : Res (Bytes × Nat) := do
  let mem ← wr mem 14 (llcHdr NDP_ORG NDP_PID)
  let mem ← wr mem 22 (e.par.ipaddr4 ++ [0, 0, UInt8.ofNat e.nif.index, 1, 12, 3, UInt8.ofNat e.sys.physifCount])
  let mem ← wr mem 33 (List.replicate 31 0)
  let mem ← wr mem 0 (NDP_DST ++ e.nif.hwaddr ++ be16 50)
  pure (mem, 64)

/-- `description`, /repo/src/proto/lldp.c lines 125-133. -/
def PktEnv.descr (e : PktEnv) : Bytes :=
  if e.opts.has OPT_IFDESCR then e.nif.deviceName
  else if e.nif.description.length ≠ 0 then e.nif.description
  else if e.par.description.length ≠ 0 then e.par.description
  else e.nif.deviceName

/-- LLDP capability bits of one set, /repo/src/proto/lldp.c lines 167-177. -/
def lldpCapBits (c : Nat) : Nat :=
  (if c.testBit 1 then 4 else 0) ||| (if c.testBit 3 then 16 else 0) ||| (if c.testBit 4 then 4 else 0) |||
  (if c.testBit 5 then 8 else 0)

/-- `cap` and `cap_active`, /repo/src/proto/lldp.c lines 163-178. -/
def lldpCapVals (s : SysInfo) : Nat × Nat :=
  if s.cap = 4 then (128, 128) else (lldpCapBits s.cap, lldpCapBits s.capActive)

/-- A management address TLV, /repo/src/proto/lldp.c lines 188-231. -/
def lldpMgmtW (fam : Nat) (addr : Bytes) (index : Nat) : W → Res W :=
  lldpTlvW 8 (push8 (1 + addr.length) ⋙ push8 fam ⋙ push addr ⋙ push8 2 ⋙ push32 index ⋙ push8 0)

/-- An inventory TLV, /repo/src/proto/lldp.c lines 337-427. -/
def hinvW (sub : Nat) (v : Bytes) : W → Res W :=
  whenW (decide (v.length > 0)) (lldpTlvW 127 (push [0x00, 0x12, 0xbb] ⋙ push8 sub ⋙ push v))

/-- The TLVs of `lldp_packet`, /repo/src/proto/lldp.c lines 78-81 and 93-436. -/
def lldpBody (e : PktEnv) : W → Res W :=
  let mgmt := e.mnetif.getD e.par
  lldpTlvW 1 (push8 4 ⋙ push e.chassis) ⋙
  lldpTlvW 2 (push8 5 ⋙ push e.nif.name) ⋙
  lldpTlvW 3 (push16 LADVD_TTL) ⋙
  whenW (decide (e.descr.length > 0)) (lldpTlvW 4 (push e.descr)) ⋙
  lldpTlvW 5 (push e.sys.hostname) ⋙
  lldpTlvW 6 (push e.sys.utsStr) ⋙
  lldpTlvW 7 (push16 (lldpCapVals e.sys).1 ⋙ push16 (lldpCapVals e.sys).2) ⋙
  whenW mgmt.has4 (lldpMgmtW 1 mgmt.ipaddr4 mgmt.index) ⋙
  whenW mgmt.has6 (lldpMgmtW 2 mgmt.ipaddr6 mgmt.index) ⋙
  lldpMgmtW 6 mgmt.hwaddr mgmt.index ⋙
  vlanW e (fun v => lldpTlvW 127 (push [0x00, 0x80, 0xc2] ⋙ push8 3 ⋙ push16 v.vlanId ⋙ push8 v.name.length ⋙
    push v.name)) ⋙
  whenW (e.nif.autonegSupported != -1) (lldpTlvW 127 (push [0x00, 0x12, 0x0f] ⋙ push8 1 ⋙
    push8 (u8 (e.nif.autonegSupported + e.nif.autonegEnabled * 2)) ⋙ push16 e.nif.autonegPmd ⋙ push16 e.nif.mau)) ⋙
  whenW (e.par.bondingMode == 1) (lldpTlvW 127 (push [0x00, 0x12, 0x0f] ⋙ push8 3 ⋙ push8 3 ⋙
    push32 e.nif.lacpIndex)) ⋙
  whenW (e.nif.mtu != 0) (lldpTlvW 127 (push [0x00, 0x12, 0x0f] ⋙ push8 4 ⋙ push16 (e.nif.mtu + 22))) ⋙
  lldpTlvW 127 (push [0x00, 0x12, 0xbb] ⋙ push8 1 ⋙ push16 e.sys.capLldpmed ⋙ push8 (u8 e.sys.lldpmedDevtype)) ⋙
  whenW (e.sys.country.length == 2 && e.sys.location.length != 0) (lldpTlvW 127 (push [0x00, 0x12, 0xbb] ⋙
    push8 3 ⋙ push8 2 ⋙ push8 (5 + e.sys.location.length) ⋙ push8 2 ⋙ push e.sys.country ⋙ push8 22 ⋙
    push8 e.sys.location.length ⋙ push e.sys.location)) ⋙
  hinvW 5 e.sys.hinv.hwRevision ⋙
  hinvW 6 e.sys.hinv.fwRevision ⋙
  hinvW 7 e.sys.hinv.swRevision ⋙
  hinvW 8 e.sys.hinv.serialNumber ⋙
  hinvW 9 e.sys.hinv.manufacturer ⋙
  hinvW 10 e.sys.hinv.modelName ⋙
  hinvW 11 e.sys.hinv.assetId ⋙
  lldpTlvW 0 nopW

/-- `lldp_packet`, /repo/src/proto/lldp.c lines 55-441. -/
def lldpPacket (mem : Bytes) (e : PktEnv) : Res (Bytes × Nat) := do
  let mem ← wr mem 0 (LLDP_DST ++ e.nif.hwaddr ++ be16 ETHERTYPE_LLDP)
  let w ← lldpBody e ⟨mem, 14, ETHER_MAX_LEN - 14⟩
  pure (w.mem, w.pos)

/-- `protos[p].build`, /repo/src/main.h lines 24-38; `seq` is the static sequence number of `edp_packet`. -/
def Proto.build : Proto → Bytes → PktEnv → Nat → Res (Bytes × Nat)
  | .lldp, mem, e, _ => lldpPacket mem e
  | .cdp, mem, e, _ => cdpPacket false mem e
  | .edp, mem, e, seq => edpPacket mem e seq
  | .fdp, mem, e, _ => fdpPacket mem e
  | .ndp, mem, e, _ => ndpPacket mem e
  | .cdp1, mem, e, _ => cdpPacket true mem e

end Ladvd
