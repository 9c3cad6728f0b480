import Verif.Model.Child
import Verif.Model.Packet
/-!
# Interface detection

`netif_fetch` and `netif_addrs` of /repo/src/netif.c and the Linux helpers of /repo/src/netif_linux.c.  What the kernel
and the privileged process answer is an input (`Kernel`).
-/

namespace Ladvd

/-! ## What the kernel reports -/

/-- The address of one `getifaddrs` entry, as far as /repo/src/netif.c lines 116-140 and 335-402 look at it: absent, an
`AF_PACKET` address (is the hardware type Ethernet, interface index, hardware address), IPv4, IPv6, or another family. -/
inductive KAddr where
  | absent
  | link (ether : Bool) (index : Nat) (hw : Bytes)
  | inet (a : Bytes)
  | inet6 (a : Bytes)
  | other
  deriving Repr, DecidableEq

/-- One `getifaddrs` entry. -/
structure IfAddr where
  name : Bytes
  addr : KAddr
  deriving Repr, DecidableEq

/-- What `netif_type` finds out about an interface, /repo/src/netif_linux.c lines 73-140: driver name (empty if unknown),
and whether the wireless name query, the `PARENT_DEVICE` request and the VLAN query succeed. -/
structure Probe where
  driver : Bytes := []
  wireless : Bool := false
  device : Bool := false
  vlan : Bool := false
  deriving Repr, DecidableEq

/-- Reply to `SIOCBONDINFOQUERY` and the `SIOCBONDSLAVEINFOQUERY` calls, /repo/src/netif_linux.c lines 243-296: the mode, and for
each slave number the name and whether it is a backup (`none` if the query fails). -/
structure BondInfo where
  mode : Nat
  slaves : List (Option (Bytes × Bool))
  deriving Repr, DecidableEq

/-- `struct parent_team_info`, /repo/src/common.h lines 242-248; `ports` are the first `cnt` elements of `netifs`. -/
structure TeamInfo where
  mode : Nat
  ports : List Nat
  active : Nat
  deriving Repr, DecidableEq

/-- Everything `netif_fetch` asks the kernel and the privileged process.  `ifaddrs = none` if `getifaddrs` fails. -/
structure Kernel where
  ifaddrs : Option (List IfAddr)
  up : Bytes → Bool := fun _ => true
  probe : Nat → Bytes → Probe := fun _ _ => { device := true }
  alias : Nat → Option Bytes := fun _ => none
  deviceId : Nat → Option Bytes := fun _ => none
  bond : Bytes → Option BondInfo := fun _ => none
  bridge : Bytes → Option (List Nat) := fun _ => none
  team : Nat → Option TeamInfo := fun _ => none
  vlan : Bytes → Option (Bytes × Option Nat) := fun _ => none

/-- The management selection of the command line, /repo/src/common.h lines 185-187 and /repo/src/main.c: interface name,
IPv4 and IPv6 address (all zero if not given). -/
structure Mgmt where
  mifname : Option Bytes := none
  maddr4 : Bytes := [0, 0, 0, 0]
  maddr6 : Bytes := [0, 0, 0, 0, 0, 0, 0, 0, 0, 0, 0, 0, 0, 0, 0, 0]
  deriving Repr, DecidableEq

/-- State of the interface detection: the list, the system information, `sysinfo->mnetif` as an index, and (not in the
code) the `PARENT_CLOSE` requests made. -/
structure Ifs where
  netifs : List Netif := []
  sys : SysInfo := {}
  mnetif : Option Nat := none
  closed : List Nat := []
  deriving Repr, DecidableEq

/-- `netif_byname`, /repo/src/util.h lines 69-80. -/
def netifByName (l : List Netif) (name : Bytes) : Option Netif := l.find? (fun n => n.name == name)

/-! ## Interface types -/

/-- `dname` after `netif_driver`, /repo/src/netif_linux.c lines 76, 86 and 143-165: the driver name is copied with `strlcpy` and the size `IFNAMSIZ`,
so at most 15 characters of it are kept. -/
def driverName (p : Probe) : Bytes := p.driver.take 15

/-- `netif_type`, /repo/src/netif_linux.c lines 73-140, with sysfs, VLAN and ethtool support compiled in. -/
def netifType (p : Probe) : Int :=
  let dname := driverName p
  if p.wireless then NETIF_WIRELESS
  else if p.device then NETIF_REGULAR
  else if p.vlan then NETIF_VLAN
  else if dname ≠ [] then
    if dname = lit "bonding" then NETIF_BONDING
    else if dname = lit "team" then NETIF_TEAMING
    else if dname = lit "bridge" then NETIF_BRIDGE
    else if dname = lit "802.1Q VLAN Support" then NETIF_VLAN
    else if dname = lit "tun" ∨ dname = lit "veth" ∨ dname = lit "vxlan" then NETIF_TAP
    else NETIF_REGULAR
  else NETIF_INVALID

/-- The capability bookkeeping of `netif_fetch`, /repo/src/netif.c lines 163-185; bits 5 and 1 are `CAP_WLAN` and
`CAP_BRIDGE`. -/
def typeCaps (type : Int) (up : Bool) (s : SysInfo) : SysInfo :=
  if type = NETIF_REGULAR then { s with physifCount := (s.physifCount + 1) % 65536 }
  else if type = NETIF_WIRELESS then
    { s with cap := s.cap ||| 32, capActive := s.capActive ||| (if up then 32 else 0) }
  else if type = NETIF_BRIDGE then
    { s with cap := s.cap ||| 2, capActive := s.capActive ||| (if up then 2 else 0) }
  else s

/-! ## The list of interfaces -/

/-- Local state of the detection loop of `netif_fetch`, /repo/src/netif.c lines 78-83. -/
structure FetchAcc where
  netifs : List Netif
  sys : SysInfo
  mnetif : Option Nat
  count : Nat := 0
  deriving Repr, DecidableEq

/-- A new or reset `struct netif`, /repo/src/netif.c lines 197-218: everything zero, except index, name, type, the
description from the alias, and for an existing interface `protos` and the fields behind `entries`. -/
def freshNetif (k : Kernel) (index : Nat) (name : Bytes) (type : Int) (old : Option Netif) : Netif :=
  let o : Netif := old.getD { index := index, name := [], hwaddr := [] }
  { index := index, name := name.take 15, hwaddr := [0, 0, 0, 0, 0, 0], type := type,
    duplex := 0, autonegSupported := 0, autonegEnabled := 0,
    description := ((k.alias index).map (fun d => (cstr d).take 63)).getD [],
    protos := o.protos, linkEvent := o.linkEvent, deviceIdentified := o.deviceIdentified, deviceName := o.deviceName }

/-- One iteration of the detection loop of `netif_fetch`, /repo/src/netif.c lines 116-234. -/
def fetchStep (k : Kernel) (m : Mgmt) (a : FetchAcc) (ia : IfAddr) : FetchAcc :=
  match ia.addr with
  | .link true index _ =>
    let up := k.up ia.name
    let type := netifType (k.probe index ia.name)
    let a := { a with sys := typeCaps type up a.sys }
    if type = NETIF_INVALID then a
    else if !up then a
    else
      let old := netifByIndex a.netifs index
      let new := freshNetif k index ia.name type old
      let netifs := match old with
        | some _ => setNetif a.netifs index (fun _ => new)
        | none => a.netifs ++ [new]
      { a with
        netifs := netifs,
        mnetif := if m.mifname = some new.name then some index else a.mnetif,
        count := a.count + 1 }
  | _ => a

/-! ## Aggregates and VLANs -/

/-- A port is appended to the chain of an aggregate, e.g. /repo/src/netif_linux.c lines 281-288.  `cur` is `csubif`, the end
of the chain; `f` sets the other fields of the port. -/
def linkPort (parent : Nat) (f : Netif → Netif) (l : List Netif) (cur : Nat) (s : Nat) : List Netif :=
  setNetif (setNetif l s (fun n => { f n with parent := some parent })) cur (fun n => { n with subif := some s })

/-- The loops over the ports, /repo/src/netif_linux.c lines 219-231, 271-293 and 318-329: `ps` are the ports as reported, each
with the way it is looked up in the list and the fields it gets. -/
def linkPorts (parent : Nat) : List ((List Netif → Option Netif) × (Netif → Netif)) → List Netif → Nat → List Netif
  | [], l, _ => l
  | (look, f) :: ps, l, cur =>
    match look l with
    | some s => if s.type < NETIF_PARENT then linkPorts parent ps (linkPort parent f l cur s.index) s.index
                else linkPorts parent ps l cur
    | none => linkPorts parent ps l cur

/-- `netif_bond`, /repo/src/netif_linux.c lines 243-296; 4 is `BOND_MODE_8023AD`, 1 is `BOND_MODE_ACTIVEBACKUP`. -/
def netifBond (k : Kernel) (l : List Netif) (parent : Netif) : List Netif :=
  match k.bond parent.name with
  | none => l
  | some b =>
    let l := setNetif l parent.index (fun n =>
      { n with bondingMode := if b.mode = 4 then 1 else if b.mode = 1 then 2 else n.bondingMode })
    let ps := (b.slaves.zipIdx.filterMap (fun (s, i) => s.map (fun (name, backup) =>
      ((fun (l : List Netif) => netifByName l name),
       fun (n : Netif) => { n with child := if backup then 2 else 1, lacpIndex := i % 256 }))))
    linkPorts parent.index ps l parent.index

/-- `netif_bridge`, /repo/src/netif_linux.c lines 300-332; `BRIDGE_MAX_PORTS` is 1024. -/
def netifBridge (k : Kernel) (l : List Netif) (parent : Netif) : List Netif :=
  match k.bridge parent.name with
  | none => l
  | some is =>
    linkPorts parent.index ((is.take 1024).map (fun i =>
      ((fun (l : List Netif) => netifByIndex l i), fun (n : Netif) => { n with child := 1 }))) l parent.index

/-- The end of `netif_team`, /repo/src/netif_linux.c lines 233-237: the active port of a failover team. -/
def teamActive (t : TeamInfo) (l : List Netif) : List Netif :=
  if t.mode % 256 = 2 then
    match netifByIndex l t.active with
    | some s => setNetif l s.index (fun n => { n with child := 1 })
    | none => l
  else l

/-- `netif_team`, /repo/src/netif_linux.c lines 203-238.  The port check there is `type > NETIF_PARENT`; no interface has
type `NETIF_PARENT`, so that it is the same check as for bonds and bridges. -/
def netifTeam (k : Kernel) (l : List Netif) (parent : Netif) : List Netif :=
  match k.team parent.index with
  | none => l
  | some t =>
    let l := setNetif l parent.index (fun n => { n with bondingMode := t.mode % 256 })
    teamActive t (linkPorts parent.index (t.ports.map (fun i =>
      ((fun (l : List Netif) => netifByIndex l i),
       fun (n : Netif) => { n with child := if t.mode % 256 = 2 then 2 else 1 }))) l parent.index)

/-- `netif_vlan`, /repo/src/netif_linux.c lines 336-362. -/
def netifVlan (k : Kernel) (l : List Netif) (vlan : Netif) : List Netif :=
  match k.vlan vlan.name with
  | none => l
  | some (dev, vid) =>
    match netifByName l dev with
    | none => l
    | some n => setNetif l vlan.index (fun v =>
        { v with vlanParent := n.index, vlanId := (vid.map (· % 65536)).getD v.vlanId })

/-- `netif_device_id`, /repo/src/netif_linux.c lines 183-200. -/
def netifDeviceId (k : Kernel) (l : List Netif) (n : Netif) : List Netif :=
  if n.deviceIdentified ≠ 0 then l
  else setNetif l n.index (fun n => { n with
    deviceIdentified := 1,
    deviceName := ((k.deviceId n.index).map (fun d => (cstr d).take 63)).getD n.deviceName })

/-- The `switch` of the settings loop of `netif_fetch`, /repo/src/netif.c lines 253-278, with libteam compiled in. -/
def detectOne (k : Kernel) (l : List Netif) (i : Nat) : List Netif :=
  match netifByIndex l i with
  | none => l
  | some n =>
    if n.type = NETIF_TEAMING then netifTeam k l n
    else if n.type = NETIF_BONDING then netifBond k l n
    else if n.type = NETIF_BRIDGE then netifBridge k l n
    else if n.type = NETIF_VLAN then netifVlan k l n
    else if n.type = NETIF_REGULAR then netifDeviceId k l n
    else l

/-! ## Addresses -/

/-- `IN6_IS_ADDR_LINKLOCAL` (libc): fe80::/10. -/
def isLinkLocal (a : Bytes) : Bool := a.getD 0 0 == 0xfe && a.getD 1 0 &&& 0xc0 == 0x80

/-- One iteration of the address loop of `netif_addrs`, /repo/src/netif.c lines 335-402. -/
def addrStep (m : Mgmt) (s : List Netif × Option Nat) (ia : IfAddr) : List Netif × Option Nat :=
  if ia.addr = .absent then s
  else match netifByName s.1 ia.name with
  | none => s
  | some n =>
    match ia.addr with
    | .inet a =>
      if n.has4 then s
      else
        let l := setNetif s.1 n.index (fun n => { n with ipaddr4 := a })
        if s.2.isSome || m.maddr4 == [0, 0, 0, 0] then (l, s.2)
        else if m.maddr4 = a then (l, some n.index)
        else (l, s.2)
    | .inet6 a =>
      if n.has6 then s
      else if isLinkLocal a then s
      else
        let l := setNetif s.1 n.index (fun n => { n with ipaddr6 := a })
        if s.2.isSome || m.maddr6 == [0, 0, 0, 0, 0, 0, 0, 0, 0, 0, 0, 0, 0, 0, 0, 0] then (l, s.2)
        else if m.maddr6 = a then (l, some n.index)
        else (l, s.2)
    | .link _ _ hw => (setNetif s.1 n.index (fun n => { n with hwaddr := hw.take 6 }), s.2)
    | _ => s

/-- `netif_addrs`, /repo/src/netif.c lines 321-414.  In the last loop `mnetif` points into the list itself. -/
def netifAddrs (o : Opts) (m : Mgmt) (addrs : List IfAddr) (l : List Netif) (mn : Option Nat) :
    List Netif × Option Nat :=
  let (l, mn) := addrs.foldl (addrStep m) (l, mn)
  if !o.has OPT_MADDR then (l, mn)
  else match mn.bind (netifByIndex l) with
    | none => (l, mn)
    | some s => (l.map (fun n => { n with ipaddr4 := s.ipaddr4, ipaddr6 := s.ipaddr6 }), mn)

/-! ## netif_fetch -/

/-- The validation of the interfaces of the command line, /repo/src/netif.c lines 288-304: marks them and counts the valid ones. -/
def markArgs (names : List Bytes) (l : List Netif) : List Netif × Nat :=
  names.foldl (fun s name =>
    match netifByName s.1 name with
    | none => s
    | some n => if n.type = NETIF_VLAN then s
                else (setNetif s.1 n.index (fun n => { n with argv := 1 }), s.2 + 1)) (l, 0)

/-- `netif_fetch`, /repo/src/netif.c lines 75-317, on Linux: the new state and the number returned (an `uint16_t`).
`names` are the interfaces of the command line. -/
def netifFetch (o : Opts) (names : List Bytes) (m : Mgmt) (k : Kernel) (s : Ifs) : Ifs × Nat :=
  match k.ifaddrs with
  | none => (s, 0)
  | some addrs =>
    let sys := { s.sys with cap := s.sys.cap &&& 12, capActive := s.sys.capActive &&& 12, physifCount := 0 }
    let a := addrs.foldl (fetchStep k m) ⟨s.netifs.map (fun n => { n with type := NETIF_OLD }), sys, s.mnetif, 0⟩
    let old := a.netifs.filter (fun n => n.type == NETIF_OLD)
    let l := a.netifs.filter (fun n => n.type != NETIF_OLD)
    let mn := if old.any (fun n => a.mnetif == some n.index) then none else a.mnetif
    let l := (l.map (·.index)).foldl (detectOne k) l
    let (l, mn) := netifAddrs o m addrs l mn
    let sys := match l with
      | [] => a.sys
      | n :: _ => { a.sys with hwaddr := n.hwaddr }
    let (l, count) := if names = [] then (l, a.count)
      else let (l, c) := markArgs names l; (l, if c = names.length then c else 0)
    (⟨l, sys, mn, s.closed ++ old.map (·.index)⟩, count % 65536)

end Ladvd
