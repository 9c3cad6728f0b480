import Verif.Model.Fetch
import Verif.Spec.Advert
/-!
# Specification of interface detection

From the model only the record types and the kernel's answers (`Kernel`) are used.
-/

namespace Ladvd.Spec

/-! ## Which interfaces are used -/

/-- How an interface is classified, in order of precedence: kernel wireless support, a hardware device, the kernel's
VLAN query, the driver name; anything else with a driver is taken for a regular interface.  VLANs are not recognised by their driver name:
see `C40_vlan_driver`. -/
def kindRows (p : Probe) : List (Bool × Int) := [
  (p.wireless, 1), (p.device, 0), (p.vlan, -1),
  (p.driver = lit "bonding", 12), (p.driver = lit "team", 11), (p.driver = lit "bridge", 13),
  (p.driver = lit "tun", 2), (p.driver = lit "veth", 2), (p.driver = lit "vxlan", 2), (p.driver ≠ [], 0)]

/-- The kind of an interface; `none` if it is not used. -/
def kindOf (p : Probe) : Option Int := ((kindRows p).find? (·.1)).map (·.2)

/-- An interface that can be used: index, name, kind. -/
structure Link where
  index : Nat
  name : Bytes
  kind : Int
  deriving Repr, DecidableEq

/-- The Ethernet interfaces that are up and of a known kind. -/
def usable (k : Kernel) (ia : IfAddr) : Option Link :=
  match ia.addr with
  | .link true i _ => if k.up ia.name then (kindOf (k.probe i ia.name)).map (fun t => ⟨i, ia.name, t⟩) else none
  | _ => none

/-- All usable interfaces, in the kernel's order. -/
def usables (k : Kernel) (addrs : List IfAddr) : List Link := addrs.filterMap (usable k)

/-! ## Aggregates -/

/-- The position of an interface in the list by its name or by its index. -/
def withName (l : List Netif) (s : Bytes) : Option Netif := (l.filter (fun n => n.name = s)).head?
def withIndex (l : List Netif) (i : Nat) : Option Netif := (l.filter (fun n => n.index = i)).head?

/-- Aggregates cannot be ports. -/
def canBePort (n : Netif) : Prop := n.type < 10

instance (n : Netif) : Decidable (canBePort n) := by unfold canBePort; infer_instance

/-- The ports of an aggregate, as the kernel reports them: those that are in the list and can be ports. -/
def portsOf (k : Kernel) (l : List Netif) (n : Netif) : List Nat :=
  let found : List (Option Netif) :=
    if n.type = 11 then match k.team n.index with | some t => t.ports.map (withIndex l) | none => []
    else if n.type = 12 then
      match k.bond n.name with | some b => (b.slaves.filterMap id).map (fun s => withName l s.1) | none => []
    else if n.type = 13 then
      match k.bridge n.name with | some is => (is.take 1024).map (withIndex l) | none => []
    else []
  ((found.filterMap id).filter (fun s => canBePort s)).map (·.index)

/-- The kernel's answer about a team: the active port is one of its ports. -/
def TeamOk (k : Kernel) (l : List Netif) (n : Netif) : Prop :=
  ∀ t, n.type = 11 → k.team n.index = some t → t.mode % 256 = 2 → (withIndex l t.active).isSome →
    t.active ∈ portsOf k l n

instance (k : Kernel) (l : List Netif) (n : Netif) : Decidable (TeamOk k l n) :=
  decidable_of_iff (∀ t ∈ (k.team n.index).toList,
    n.type = 11 → t.mode % 256 = 2 → (withIndex l t.active).isSome → t.active ∈ portsOf k l n) (by
      unfold TeamOk
      constructor
      · intro h t h11 ht; exact h t (by rw [ht]; exact List.mem_singleton.mpr rfl) h11
      · intro h t ht h11; exact h t h11 (Option.mem_toList.mp ht))

/-- Answers of a consistent kernel: every port is reported once and by one aggregate. -/
structure KernelOk (k : Kernel) (l : List Netif) : Prop where
  nodup : ∀ n ∈ l, (portsOf k l n).Nodup
  once : ∀ n ∈ l, ∀ n' ∈ l, ∀ m ∈ portsOf k l n, m ∈ portsOf k l n' → n = n'
  team : ∀ n ∈ l, TeamOk k l n

instance (k : Kernel) (l : List Netif) : Decidable (KernelOk k l) :=
  decidable_of_iff ((∀ n ∈ l, (portsOf k l n).Nodup) ∧
    (∀ n ∈ l, ∀ n' ∈ l, ∀ m ∈ portsOf k l n, m ∈ portsOf k l n' → n = n') ∧ (∀ n ∈ l, TeamOk k l n))
    ⟨fun h => ⟨h.1, h.2.1, h.2.2⟩, fun h => ⟨h.1, h.2, h.3⟩⟩

/-- The interfaces a traversal should visit: those of the command line if there are any, otherwise those that are not
ports; aggregates only if they have ports. -/
def selected (o : Opts) (n : Netif) : Prop :=
  (if o.testBit 5 then n.argv ≠ 0 else n.child = 0) ∧ (n.type > 10 → n.subif ≠ none)

instance (o : Opts) (n : Netif) : Decidable (selected o n) := by unfold selected; infer_instance

/-! ## Addresses -/

/-- The first ten bits are those of fe80::/10. -/
def linkLocal (a : Bytes) : Prop := ((a.getD 0 0).toNat * 256 + (a.getD 1 0).toNat) / 64 = 0x3fa

instance (a : Bytes) : Decidable (linkLocal a) := by unfold linkLocal; infer_instance

/-- The IPv4 and IPv6 addresses of the interface with a name, and its hardware addresses, as the kernel lists them. -/
def v4Of (addrs : List IfAddr) (name : Bytes) : List Bytes :=
  addrs.filterMap (fun ia => match ia.addr with | .inet a => if ia.name = name then some a else none | _ => none)
def v6Of (addrs : List IfAddr) (name : Bytes) : List Bytes :=
  addrs.filterMap (fun ia => match ia.addr with | .inet6 a => if ia.name = name then some a else none | _ => none)
def hwOf (addrs : List IfAddr) (name : Bytes) : List Bytes :=
  addrs.filterMap (fun ia => match ia.addr with | .link _ _ a => if ia.name = name then some a else none | _ => none)

/-- The address an interface has on its own: the first one that is configured, for IPv6 also not link local. -/
def own4 (addrs : List IfAddr) (name : Bytes) : Bytes :=
  ((v4Of addrs name).find? (fun a => configured a)).getD [0, 0, 0, 0]
def own6 (addrs : List IfAddr) (name : Bytes) : Bytes :=
  ((v6Of addrs name).find? (fun a => configured a ∧ ¬ linkLocal a)).getD
    [0, 0, 0, 0, 0, 0, 0, 0, 0, 0, 0, 0, 0, 0, 0, 0]

/-- Sizes of the addresses the kernel lists; `sll_addr` has eight bytes. -/
def AddrsOk (addrs : List IfAddr) : Prop :=
  ∀ ia ∈ addrs, match ia.addr with
    | .inet a => a.length = 4
    | .inet6 a => a.length = 16
    | .link _ _ a => a.length = 8
    | _ => True

instance (addrs : List IfAddr) : Decidable (AddrsOk addrs) := by
  unfold AddrsOk
  have : ∀ ia : IfAddr, Decidable (match ia.addr with
    | .inet a => a.length = 4
    | .inet6 a => a.length = 16
    | .link _ _ a => a.length = 8
    | _ => True) := by
    intro ia
    cases ia.addr <;> infer_instance
  infer_instance

/-- What is assumed of the kernel's list: indexes and names of the usable interfaces are distinct, names fit `IFNAMSIZ`. -/
structure ListOk (k : Kernel) (addrs : List IfAddr) : Prop where
  index : ((usables k addrs).map (·.index)).Nodup
  name : ((usables k addrs).map (·.name)).Nodup
  short : ∀ e ∈ usables k addrs, e.name.length ≤ 15
  addr : AddrsOk addrs

instance (k : Kernel) (addrs : List IfAddr) : Decidable (ListOk k addrs) :=
  decidable_of_iff (((usables k addrs).map (·.index)).Nodup ∧ ((usables k addrs).map (·.name)).Nodup ∧
    (∀ e ∈ usables k addrs, e.name.length ≤ 15) ∧ AddrsOk addrs)
    ⟨fun h => ⟨h.1, h.2.1, h.2.2.1, h.2.2.2⟩, fun h => ⟨h.1, h.2, h.3, h.4⟩⟩

/-! ## A sane kernel

The same requirements as in `KernelOk`, in terms of the kernel's answers only. -/

/-- Indexes are 32 bits wide and names are not empty. -/
def LinksOk (k : Kernel) (addrs : List IfAddr) : Prop :=
  ∀ e ∈ usables k addrs, e.index < 4294967296 ∧ e.name ≠ [] ∧ ∀ c ∈ e.name, c ≠ 0

instance (k : Kernel) (addrs : List IfAddr) : Decidable (LinksOk k addrs) := by unfold LinksOk; infer_instance

def linkNamed (us : List Link) (s : Bytes) : Option Link := (us.filter (fun e => e.name = s)).head?
def linkAt (us : List Link) (i : Nat) : Option Link := (us.filter (fun e => e.index = i)).head?

/-- The usable ports of an interface. -/
def portsAt (k : Kernel) (us : List Link) (e : Link) : List Nat :=
  let found : List (Option Link) :=
    if e.kind = 11 then match k.team e.index with | some t => t.ports.map (linkAt us) | none => []
    else if e.kind = 12 then
      match k.bond e.name with | some b => (b.slaves.filterMap id).map (fun s => linkNamed us s.1) | none => []
    else if e.kind = 13 then
      match k.bridge e.name with | some is => (is.take 1024).map (linkAt us) | none => []
    else []
  ((found.filterMap id).filter (fun s => s.kind < 10)).map (·.index)

/-- Every port is reported once and by one aggregate; the active port of a team is one of its ports. -/
def AggregatesOk (k : Kernel) (us : List Link) : Prop :=
  ∀ e ∈ us, (portsAt k us e).Nodup ∧ (∀ e' ∈ us, ∀ m ∈ portsAt k us e, m ∈ portsAt k us e' → e = e') ∧
    ∀ t ∈ (k.team e.index).toList, e.kind = 11 → t.mode % 256 = 2 → (linkAt us t.active).isSome → t.active ∈ portsAt k us e

instance (k : Kernel) (us : List Link) : Decidable (AggregatesOk k us) := by unfold AggregatesOk; infer_instance

/-- The answers of the kernel are consistent, or it does not answer. -/
def Sane (k : Kernel) : Prop :=
  ∀ addrs ∈ k.ifaddrs.toList, ListOk k addrs ∧ LinksOk k addrs ∧ AggregatesOk k (usables k addrs)

instance (k : Kernel) : Decidable (Sane k) := by unfold Sane; infer_instance

end Ladvd.Spec
