import Verif.Model.Bsd
import Verif.Spec.Details
import Verif.Spec.Link
/-!
# Specification of interface detection on FreeBSD

From the model only the record types and the kernel's answers (`BsdKernel`, `BsdMedia`) are used.
-/

namespace Ladvd.Spec

open Ladvd

/-- A decimal digit, as in a unit number. -/
def unitDigit (b : UInt8) : Prop := 48 ≤ b.toNat ∧ b.toNat ≤ 57

instance (b : UInt8) : Decidable (unitDigit b) := by unfold unitDigit; infer_instance

/-- A driver with this name, followed by a unit number or not. -/
def DriverIs (k : BsdKernel) (i : Nat) (stem : Bytes) : Prop :=
  ∃ d ∈ (k.driver i).toList, stem <+: d ∧ ∀ c ∈ d.drop stem.length, unitDigit c

instance (k : BsdKernel) (i : Nat) (stem : Bytes) : Decidable (DriverIs k i stem) := by unfold DriverIs; infer_instance

/-- How an interface is classified, in order of precedence: the wireless query; for Ethernet interfaces the VLAN query, the driver and
the lagg query; otherwise the type. -/
def bsdRows (k : BsdKernel) (i : Nat) (name : Bytes) : List (Bool × Option Int) :=
  let ether := k.ifType name = 6
  [(k.wireless name, some 1), (ether ∧ k.vlan name ≠ none, some (-1)),
   (ether ∧ DriverIs k i (lit "tun"), some 2), (ether ∧ DriverIs k i (lit "tap"), some 2), (ether ∧ DriverIs k i (lit "vxlan"), some 2),
   (ether ∧ DriverIs k i (lit "ipfw"), none), (ether ∧ k.lagg name ≠ none, some 12), (ether, some 0),
   (k.ifType name = 209, some 13), (k.ifType name = 161, some 0), (k.ifType name = 135, some (-1))]

/-- The kind of an interface; `none` if it is not used. -/
def bsdKind (k : BsdKernel) (i : Nat) (name : Bytes) : Option Int := ((bsdRows k i name).find? (·.1)).bind (·.2)

/-- The Ethernet interfaces and bridges that are up and of a known kind. -/
def bsdUsable (k : BsdKernel) (ia : BIfAddr) : Option Link :=
  match ia.addr with
  | .link t i _ =>
    if (t = 6 ∨ t = 209) ∧ k.up ia.name then (bsdKind k i ia.name).map (fun t => ⟨i, ia.name, t⟩) else none
  | _ => none

/-- All usable interfaces, in the kernel's order. -/
def bsdUsables (k : BsdKernel) (addrs : List BIfAddr) : List Link := addrs.filterMap (bsdUsable k)

/-- Sizes of the addresses. -/
def bsdAddrOk (ia : BIfAddr) : Prop :=
  match ia.addr with
  | .inet a => a.length = 4
  | .inet6 a => a.length = 16
  | .link _ _ a => a.length = 6
  | _ => True

instance (ia : BIfAddr) : Decidable (bsdAddrOk ia) := by unfold bsdAddrOk; cases ia.addr <;> infer_instance

/-- The indexes in the link level addresses. -/
def linkIndexes (addrs : List BIfAddr) : List Nat := addrs.filterMap (fun ia => match ia.addr with | .link _ i _ => some i | _ => none)

/-- What is assumed of the kernel's answers: indexes and names of the usable interfaces are distinct; names of interfaces and drivers have
at most 15 characters; texts have no NUL, those of devices at most 63 characters; a bridge has at most 1024 members; memory for them can be
allocated. -/
structure BsdOk (k : BsdKernel) (addrs : List BIfAddr) : Prop where
  index : ((bsdUsables k addrs).map (·.index)).Nodup
  name : ((bsdUsables k addrs).map (·.name)).Nodup
  short : ∀ ia ∈ addrs, ia.name.length ≤ 15
  addr : ∀ ia ∈ addrs, bsdAddrOk ia
  driver : ∀ i ∈ linkIndexes addrs, ∀ d ∈ (k.driver i).toList, d.length ≤ 15 ∧ 0 ∉ d
  device : ∀ name, ∀ d ∈ (k.sysctl name).toList, d.length ≤ 63 ∧ 0 ∉ d
  descr : ∀ e ∈ bsdUsables k addrs, ∀ d ∈ (k.descr e.name).toList, 0 ∉ d
  bridge : ∀ e ∈ bsdUsables k addrs, ∀ ms ∈ (k.members e.name).toList, ms.length ≤ 1024
  memory : ∀ n, k.realloc n = true
  req : 0 < k.reqSize ∧ k.reqSize ≤ 4096

/-- The description of an interface: FreeBSD hands it over if it has at most 63 characters. -/
def bsdDescrOf (k : BsdKernel) (name : Bytes) : Bytes :=
  match k.descr name with
  | some d => if d.length ≤ 63 then d else []
  | none => []

/-- The ports of an aggregate, as the kernel reports them: those that are in the list and can be ports. -/
def bsdPorts (k : BsdKernel) (l : List Netif) (n : Netif) : List Nat :=
  let reported : List Bytes :=
    if n.type = 12 then match k.lagg n.name with | some g => (g.ports.take 32).map (·.1) | none => []
    else if n.type = 13 then (k.members n.name).getD []
    else []
  (((reported.map (withName l)).filterMap id).filter (fun s => canBePort s)).map (·.index)

/-- Every port is reported once and by one aggregate. -/
structure BsdOnce (k : BsdKernel) (l : List Netif) : Prop where
  nodup : ∀ n ∈ l, (bsdPorts k l n).Nodup
  once : ∀ n ∈ l, ∀ n' ∈ l, ∀ m ∈ bsdPorts k l n, m ∈ bsdPorts k l n' → n = n'

instance (k : BsdKernel) (l : List Netif) : Decidable (BsdOnce k l) :=
  decidable_of_iff ((∀ n ∈ l, (bsdPorts k l n).Nodup) ∧
    (∀ n ∈ l, ∀ n' ∈ l, ∀ m ∈ bsdPorts k l n, m ∈ bsdPorts k l n' → n = n'))
    ⟨fun h => ⟨h.1, h.2⟩, fun h => ⟨h.1, h.2⟩⟩

/-! ## Addresses -/

/-- The IPv4, IPv6 and hardware addresses of the interface with a name, as the kernel lists them. -/
def bsd4Of (addrs : List BIfAddr) (name : Bytes) : List Bytes :=
  addrs.filterMap (fun ia => match ia.addr with | .inet a => if ia.name = name then some a else none | _ => none)
def bsd6Of (addrs : List BIfAddr) (name : Bytes) : List Bytes :=
  addrs.filterMap (fun ia => match ia.addr with | .inet6 a => if ia.name = name then some a else none | _ => none)
def bsdHwOf (addrs : List BIfAddr) (name : Bytes) : List Bytes :=
  addrs.filterMap (fun ia => match ia.addr with | .link _ _ a => if ia.name = name then some a else none | _ => none)

/-- The address an interface has on its own: the first one that is configured, for IPv6 also not link local. -/
def bsdOwn4 (addrs : List BIfAddr) (name : Bytes) : Bytes :=
  ((bsd4Of addrs name).find? (fun a => configured a)).getD [0, 0, 0, 0]
def bsdOwn6 (addrs : List BIfAddr) (name : Bytes) : Bytes :=
  ((bsd6Of addrs name).find? (fun a => configured a ∧ ¬ linkLocal a)).getD
    [0, 0, 0, 0, 0, 0, 0, 0, 0, 0, 0, 0, 0, 0, 0, 0]

/-! ## Details -/

/-- The announced kind of aggregation: 1 is LACP, 2 is failover, 0 is none of these. -/
def bsdMode (k : BsdKernel) (n : Netif) : Nat :=
  if n.type = 12 then
    match k.lagg n.name with
    | some g => match g.proto with | 4 => 1 | 2 => 2 | _ => 0
    | none => 0
  else 0

/-- The role (1 active, 2 standby) and the position of a port of an aggregate: in a lagg the kernel says which ports are active (bit 2), and
positions are counted in its list. -/
def BsdRole (k : BsdKernel) (l : List Netif) (n : Netif) (j : Nat) (c x : Nat) : Prop :=
  (n.type = 12 ∧ ∃ g p, k.lagg n.name = some g ∧ x < 32 ∧ g.ports[x]? = some p ∧
    (withName l p.1).map (·.index) = some j ∧ c = if p.2.testBit 2 then 1 else 2) ∨
  (n.type = 13 ∧ x = 0 ∧ c = 1)

/-- Index of the interface below a VLAN and its VLAN id by the answer of the kernel about the interface `name`, both 0 if they are not known. -/
def bsdVlanOf (k : BsdKernel) (l : List Netif) (name : Bytes) : Nat × Nat :=
  match k.vlan name with
  | some (dev, tag) =>
    match withName l dev with
    | some p => (p.index, tag % 65536)
    | none => (0, 0)
  | none => (0, 0)

/-- The name in the last link level address the kernel lists. -/
def lastName (addrs : List BIfAddr) : Option Bytes :=
  ((addrs.filter (fun ia => match ia.addr with | .link _ _ _ => true | _ => false)).getLast?).map (·.name)

/-- The device `stem` with unit number `unit` drives the interface with this index; `text` describes it. -/
def DeviceIs (k : BsdKernel) (i : Nat) (text : Option Bytes) : Prop :=
  ∃ stem unit, k.driver i = some (stem ++ unit) ∧ unit ≠ [] ∧ (∀ c ∈ unit, unitDigit c) ∧ (∀ c, stem.getLast? = some c → ¬ unitDigit c) ∧
    text = k.sysctl (lit "dev." ++ stem ++ lit "." ++ unit ++ lit ".%desc")

/-! ## Link notifications -/

/-- The message of the kernel that reports the state of an interface (`struct if_msghdr`, net/if.h on a 64 bit system): Ethernet or not, its flags
and index, and the state of the link. -/
structure RtReport where
  ifType : Nat
  flags : Nat
  index : Nat
  link : Nat

/-- `msg` is such a message: version 5, type 14, numbers with the lowest byte first; the other bytes are not of interest. -/
def RtReport.LaidOut (r : RtReport) (msg : Bytes) : Prop :=
  ∃ l0 l1 b0 b1 b2 b3 f0 f1 f2 f3 i0 i1 c0 c1 t d0 d1 d2 s rest,
    msg = [l0, l1, 5, 14, b0, b1, b2, b3, f0, f1, f2, f3, i0, i1, c0, c1, t, d0, d1, d2, s] ++ rest ∧
    152 ≤ msg.length ∧ msg.length ≤ 2048 ∧
    r.flags = f0.toNat + 2 ^ 8 * f1.toNat + 2 ^ 16 * f2.toNat + 2 ^ 24 * f3.toNat ∧
    r.index = i0.toNat + 2 ^ 8 * i1.toNat ∧ r.ifType = t.toNat ∧ r.link = s.toNat

/-- An Ethernet interface (6) that is up (bit 0) and running (bit 6), the link being up (2 and above) or in unknown state (0). -/
def RtReport.LinkUp (r : RtReport) : Prop := r.ifType = 6 ∧ r.flags.testBit 0 = true ∧ r.flags.testBit 6 = true ∧ r.link ≠ 1

instance (r : RtReport) : Decidable r.LinkUp := by unfold RtReport.LinkUp; infer_instance

end Ladvd.Spec
