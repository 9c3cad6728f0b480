import Verif.Model.Fetch
import Verif.Model.Media
import Verif.Model.Parent
/-!
# Interface detection on FreeBSD

The functions of /repo/src/netif_bsd.c and the FreeBSD branches of /repo/src/netif.c, with if_vlan, lagg, if_bridge, net80211, if_media
and if_mib support compiled in.  What the kernel answers is an input (`BsdKernel`).
-/

namespace Ladvd

/-! ## What the kernel reports -/

/-- The address of one `getifaddrs` entry, as far as /repo/src/netif.c lines 118-152 and 337-400 look at it: absent, an `AF_LINK` address
(type and index of the interface, hardware address), IPv4, IPv6, or another family. -/
inductive BAddr where
  | absent
  | link (type : Nat) (index : Nat) (hw : Bytes)
  | inet (a : Bytes)
  | inet6 (a : Bytes)
  | other
  deriving Repr, DecidableEq

/-- One `getifaddrs` entry. -/
structure BIfAddr where
  name : Bytes
  addr : BAddr
  deriving Repr, DecidableEq

/-- Reply to `SIOCGLAGG`, /repo/src/netif_bsd.c lines 284-324: the protocol, and names and flags of the ports. -/
structure Lagg where
  proto : Nat
  ports : List (Bytes × Nat)
  deriving Repr, DecidableEq

/-- Everything the detection asks the kernel: the list of addresses, `IFF_UP`, the 802.11 query, `ifi_type`, the driver name sysctl (by
index), `SIOCGETVLAN` (parent and tag), `SIOCGLAGG`, the members of a bridge, `SIOCGIFDESCR`, and string sysctls by name.  `realloc`
says which buffer sizes can be allocated; `reqSize` is `sizeof(struct ifbreq)`. -/
structure BsdKernel where
  ifaddrs : Option (List BIfAddr)
  up : Bytes → Bool := fun _ => true
  wireless : Bytes → Bool := fun _ => false
  ifType : Bytes → Nat := fun _ => 6
  driver : Nat → Option Bytes := fun _ => none
  vlan : Bytes → Option (Bytes × Nat) := fun _ => none
  lagg : Bytes → Option Lagg := fun _ => none
  members : Bytes → Option (List Bytes) := fun _ => none
  descr : Bytes → Option Bytes := fun _ => none
  sysctl : Bytes → Option Bytes := fun _ => none
  realloc : Nat → Bool := fun _ => true
  reqSize : Nat := 80

/-! ## Interface types -/

/-- `isdigit` (libc). -/
def isDigit (b : UInt8) : Bool := 48 ≤ b && b ≤ 57

/-- A sysctl that returns a string, written to a buffer of `n` bytes: the string and its NUL as far as they fit. -/
def sysctlOut (n : Nat) (s : Bytes) : Bytes := (s ++ [0]).take n

/-- `netif_driver`, /repo/src/netif_bsd.c lines 164-182, called with the size 16: the contents of `dname`, which has 17 bytes and was zero before. -/
def bsdDriver (k : BsdKernel) (index : Nat) : Bytes :=
  let out := sysctlOut 16 ((k.driver index).getD [])
  out ++ List.replicate (17 - out.length) 0

/-- "zap dunit", /repo/src/netif_bsd.c lines 114-117, on the string without its NUL: digits are removed from the end. -/
def zapUnit (d : Bytes) : Bytes := (d.reverse.dropWhile isDigit).reverse

/-- `netif_type`, /repo/src/netif_bsd.c lines 81-160.  6, 209, 161 and 135 are `IFT_ETHER`, `IFT_BRIDGE`, `IFT_IEEE8023ADLAG` and
`IFT_L2VLAN` (net/if_types.h). -/
def bsdType (k : BsdKernel) (index : Nat) (name : Bytes) : Int :=
  if k.wireless name then NETIF_WIRELESS
  else if k.ifType name = 6 then
    if (k.vlan name).isSome then NETIF_VLAN
    else
      let dname := zapUnit (cstr (bsdDriver k index))
      if dname = lit "tun" ∨ dname = lit "tap" ∨ dname = lit "vxlan" then NETIF_TAP
      else if dname = lit "ipfw" then NETIF_INVALID
      else if (k.lagg name).isSome then NETIF_BONDING
      else NETIF_REGULAR
  else if k.ifType name = 209 then NETIF_BRIDGE
  else if k.ifType name = 161 then NETIF_REGULAR
  else if k.ifType name = 135 then NETIF_VLAN
  else NETIF_INVALID

/-! ## The list of interfaces -/

/-- `SIOCGIFDESCR` with a buffer of 64 bytes, /repo/src/netif.c lines 219-227: the kernel copies the description only if it fits with its NUL. -/
def bsdDescr (k : BsdKernel) (name : Bytes) : Bytes :=
  match k.descr name with
  | none => []
  | some d => if d.length + 1 ≤ 64 then cstr d else []

/-- A new or reset `struct netif`, /repo/src/netif.c lines 196-227: everything zero, except index, name, type, description, and for an existing
interface `protos` and the fields behind `entries`. -/
def bsdNetif (k : BsdKernel) (index : Nat) (name : Bytes) (type : Int) (old : Option Netif) : Netif :=
  let o : Netif := old.getD { index := index, name := [], hwaddr := [] }
  { index := index, name := name.take 15, hwaddr := [0, 0, 0, 0, 0, 0], type := type,
    duplex := 0, autonegSupported := 0, autonegEnabled := 0, description := bsdDescr k name,
    protos := o.protos, linkEvent := o.linkEvent, deviceIdentified := o.deviceIdentified, deviceName := o.deviceName }

/-- Local state of the detection loop: that of the other systems, and `ifr.ifr_name` (`none` while uninitialised). -/
structure BsdAcc where
  acc : FetchAcc
  ifr : Option Bytes
  deriving Repr, DecidableEq

/-- One iteration of the detection loop of `netif_fetch`, /repo/src/netif.c lines 116-234.  The name in `ifr` is set for every
link level address, also for those that are skipped. -/
def bsdStep (k : BsdKernel) (m : Mgmt) (s : BsdAcc) (ia : BIfAddr) : BsdAcc :=
  match ia.addr with
  | .link sdl index _ =>
    let a := s.acc
    let ifr := some (ia.name.take 15)
    if sdl ≠ 209 ∧ sdl ≠ 6 then ⟨a, ifr⟩
    else
      let up := k.up ia.name
      let type := bsdType k index ia.name
      let a := { a with sys := typeCaps type up a.sys }
      if type = NETIF_INVALID then ⟨a, ifr⟩
      else if !up then ⟨a, ifr⟩
      else
        let old := netifByIndex a.netifs index
        let new := bsdNetif k index ia.name type old
        let netifs := match old with
          | some _ => setNetif a.netifs index (fun _ => new)
          | none => a.netifs ++ [new]
        ⟨{ a with
          netifs := netifs,
          mnetif := if m.mifname = some new.name then some index else a.mnetif,
          count := a.count + 1 }, ifr⟩
  | _ => s

/-! ## Aggregates, VLANs, devices -/

/-- `netif_bond`, /repo/src/netif_bsd.c lines 266-327, with lagg support.  The kernel reports at most `LAGG_MAX_PORTS` = 32 ports, as many as the
buffer holds.  4 and 2 are `LAGG_PROTO_LACP` and `LAGG_PROTO_FAILOVER`, 4 is `LAGG_PORT_ACTIVE` (net/if_lagg.h). -/
def bsdBond (k : BsdKernel) (l : List Netif) (parent : Netif) : List Netif :=
  match k.lagg parent.name with
  | none => l
  | some g =>
    let l := setNetif l parent.index (fun n =>
      { n with bondingMode := if g.proto = 4 then 1 else if g.proto = 2 then 2 else n.bondingMode })
    let ps := (g.ports.take 32).zipIdx.map (fun (p, i) =>
      ((fun (l : List Netif) => netifByName l p.1),
       fun (n : Netif) => { n with child := if p.2 &&& 4 = 0 then 2 else 1, lacpIndex := i % 256 }))
    linkPorts parent.index ps l parent.index

/-- The loop of `netif_bridge` that reads the members into a buffer, /repo/src/netif_bsd.c lines 395-420, for a bridge of `n` members: how many are
read, `none` if memory runs out.  The kernel reports as many as fit into `len` bytes.  `len` is an `int`: doubling it beyond its range is undefined. -/
def bridgeRead (k : BsdKernel) (n : Nat) : Nat → Nat → Res (Option Nat)
  | 0, _ => .stuck
  | fuel + 1, len =>
    if 2147483648 ≤ len then .oob
    else if !k.realloc len then .ok none
    else
      let got := k.reqSize * min n (len / k.reqSize)
      if got + k.reqSize < len then .ok (some (got / k.reqSize))
      else bridgeRead k n fuel (len * 2)

/-- `netif_bridge`, /repo/src/netif_bsd.c lines 373-441. -/
def bsdBridge (k : BsdKernel) (l : List Netif) (parent : Netif) : Res (List Netif) :=
  match k.members parent.name with
  | none => .ok l
  | some ms =>
    (bridgeRead k ms.length 32 8192).bind (fun r => match r with
      | none => .ok l
      | some cnt => .ok (linkPorts parent.index ((ms.take cnt).map (fun s =>
          ((fun (l : List Netif) => netifByName l s), fun (n : Netif) => { n with child := 1 }))) l parent.index))

/-- `netif_vlan`, /repo/src/netif_bsd.c lines 445-462.  The kernel is asked about the interface named in `ifr`; `vlr_tag` is an `uint16_t`. -/
def bsdVlan (k : BsdKernel) (ifr : Option Bytes) (l : List Netif) (vlan : Netif) : Res (List Netif) :=
  match ifr with
  | none => .oob
  | some name =>
    match k.vlan name with
    | none => .ok l
    | some (dev, tag) =>
      match netifByName l dev with
      | none => .ok l
      | some n => .ok (setNetif l vlan.index (fun v => { v with vlanParent := n.index, vlanId := tag % 65536 }))

/-- "find the unit number at the end of dname" and "insert dot", /repo/src/netif_bsd.c lines 244-254: `memmove` writes over the NUL of the string,
the byte behind it has to be zero.  `none` if there is no unit number. -/
def unitDot (dname : Bytes) : Option Bytes :=
  let s := cstr dname
  let stem := zapUnit s
  let unit := s.drop stem.length
  if unit = [] then none
  else some ((stem ++ [46] ++ unit ++ dname.drop (s.length + 1)))

/-- `"dev.%s.%%desc"` printed to a buffer of 64 bytes, /repo/src/netif_bsd.c line 256; `oob` if the string in `dname` has no NUL. -/
def descSysctl (dname : Bytes) : Res Bytes :=
  if 0 ∈ dname then .ok ((lit "dev." ++ cstr dname ++ lit ".%desc").take 63) else .oob

/-- `netif_device_id`, /repo/src/netif_bsd.c lines 228-263.  `device_name` has 64 bytes and is zero before; what is kept of it here is everything
before its first NUL, or all 64 bytes if there is none. -/
def bsdDeviceId (k : BsdKernel) (l : List Netif) (n : Netif) : Res (List Netif) :=
  if n.deviceIdentified ≠ 0 then .ok l
  else
    let l := setNetif l n.index (fun n => { n with deviceIdentified := 1 })
    let dname := bsdDriver k n.index
    if cstr dname = [] then .ok l
    else match unitDot dname with
      | none => .ok l
      | some dname => (descSysctl dname).bind (fun name =>
          match k.sysctl name with
          | none => .ok l
          | some d => .ok (setNetif l n.index (fun n => { n with deviceName := cstr (sysctlOut 64 d) })))

/-- The `switch` of the settings loop of `netif_fetch`, /repo/src/netif.c lines 253-278, without libteam. -/
def bsdDetect (k : BsdKernel) (ifr : Option Bytes) (l : List Netif) (i : Nat) : Res (List Netif) :=
  match netifByIndex l i with
  | none => .ok l
  | some n =>
    if n.type = NETIF_BONDING then .ok (bsdBond k l n)
    else if n.type = NETIF_BRIDGE then bsdBridge k l n
    else if n.type = NETIF_VLAN then bsdVlan k ifr l n
    else if n.type = NETIF_REGULAR then bsdDeviceId k l n
    else .ok l

/-- The settings loop. -/
def bsdDetectAll (k : BsdKernel) (ifr : Option Bytes) : List Nat → List Netif → Res (List Netif)
  | [], l => .ok l
  | i :: is, l => (bsdDetect k ifr l i).bind (bsdDetectAll k ifr is)

/-- An address as `netif_addrs` sees it, /repo/src/netif.c lines 393-400: the code is the same as that for `AF_PACKET`, the hardware address comes
from `LLADDR`. -/
def bsdIfAddr (ia : BIfAddr) : IfAddr :=
  ⟨ia.name, match ia.addr with
    | .absent => .absent
    | .link sdl index hw => .link (sdl = 209 ∨ sdl = 6) index hw
    | .inet a => .inet a
    | .inet6 a => .inet6 a
    | .other => .other⟩

/-- `netif_fetch`, /repo/src/netif.c lines 75-317, on FreeBSD. -/
def bsdFetch (o : Opts) (names : List Bytes) (m : Mgmt) (k : BsdKernel) (s : Ifs) : Res (Ifs × Nat) :=
  match k.ifaddrs with
  | none => .ok (s, 0)
  | some addrs =>
    let sys := { s.sys with cap := s.sys.cap &&& 12, capActive := s.sys.capActive &&& 12, physifCount := 0 }
    let b := addrs.foldl (bsdStep k m) ⟨⟨s.netifs.map (fun n => { n with type := NETIF_OLD }), sys, s.mnetif, 0⟩, none⟩
    let a := b.acc
    let old := a.netifs.filter (fun n => n.type == NETIF_OLD)
    let l := a.netifs.filter (fun n => n.type != NETIF_OLD)
    let mn := if old.any (fun n => a.mnetif == some n.index) then none else a.mnetif
    (bsdDetectAll k b.ifr (l.map (·.index)) l).bind (fun l =>
      let (l, mn) := netifAddrs o m (addrs.map bsdIfAddr) l mn
      let sys := match l with
        | [] => a.sys
        | n :: _ => { a.sys with hwaddr := n.hwaddr }
      let (l, count) := if names = [] then (l, a.count)
        else let (l, c) := markArgs names l; (l, if c = names.length then c else 0)
      .ok (⟨l, sys, mn, s.closed ++ old.map (·.index)⟩, count % 65536))

/-! ## Aggregates on macOS -/

/-- The loop over the members of a bond, /repo/src/netif_bsd.c lines 351-363 (macOS): `name` is that of the first member, the pointer is never
advanced; `i` is also incremented when a member is found. -/
def macLoop (parent : Nat) (name : Bytes) (total : Nat) (fuel : Nat) (i : Nat) (cur : Nat) (l : List Netif) : List Netif :=
  match fuel with
  | 0 => l
  | fuel + 1 =>
    if total ≤ i then l
    else match netifByName l name with
      | some s =>
        if s.type < NETIF_PARENT then
          macLoop parent name total fuel (i + 2) s.index
            (linkPort parent (fun n => { n with child := 1, lacpIndex := i % 256 }) l cur s.index)
        else macLoop parent name total fuel (i + 1) cur l
      | none => macLoop parent name total fuel (i + 1) cur l

/-- `netif_bond`, /repo/src/netif_bsd.c lines 329-368 (macOS): `lacp` is the mode reported, `members` are the names of the members; both queries
are answered. -/
def macBond (lacp : Bool) (members : List Bytes) (l : List Netif) (parent : Netif) : List Netif :=
  let l := setNetif l parent.index (fun n => { n with bondingMode := if lacp then 1 else n.bondingMode })
  match members with
  | [] => l
  | name :: _ => macLoop parent.index name members.length members.length 0 parent.index l

/-! ## Link notifications -/

/-- `child_link`, /repo/src/child.c lines 608-636, with a routing socket: `got` is what `read` delivers, `none` for an error (its -1 is compared as
the unsigned 2^64 - 1).  The buffer of 2048 bytes is zero before.  Result: the index of the interface for which `child_send` is called.
Layout on a 64 bit FreeBSD (net/route.h, net/if.h): `struct rt_msghdr` has 152 bytes; `rtm_version` is at 2, `rtm_type` at 3, `ifm_flags` at 8,
`ifm_index` at 12, `ifi_type` at 16, `ifi_link_state` at 20; 5 is `RTM_VERSION`, 14 `RTM_IFINFO`, 6 `IFT_ETHER`, 0x41 `IFF_RUNNING|IFF_UP`,
2 `LINK_STATE_UP`, 0 `LINK_STATE_UNKNOWN` (/repo/src/child.c lines 32-35). -/
def routeLink (got : Option Bytes) : Option Nat :=
  let data := (got.getD []).take 2048
  let len : Nat := match got with | none => 2 ^ 64 - 1 | some _ => data.length
  let msg := data ++ List.replicate (2048 - data.length) 0
  let at1 (i : Nat) : Nat := (msg.getD i 0).toNat
  if len < 152 ∨ at1 2 ≠ 5 ∨ at1 3 ≠ 14 then none
  else if at1 16 ≠ 6 then none
  else if leNat ((msg.drop 8).take 4) &&& 0x41 ≠ 0x41 then none
  else if ¬ (at1 20 ≥ 2 ∨ at1 20 = 0) then none
  else some (leNat ((msg.drop 12).take 2))

end Ladvd
