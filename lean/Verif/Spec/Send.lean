import Verif.Model.Send
import Verif.Spec.Ifs
/-!
# Specification of transmission
-/

namespace Ladvd.Spec

/-- Interfaces that may be used: no VLANs, wireless interfaces only with `-w`, tap interfaces only with `-t`, no excluded ones. -/
def mayUse (c : Conf) (n : Netif) : Prop :=
  n.type ≥ 0 ∧ (n.type = 1 → c.opts.testBit 9 = true) ∧ (n.type = 2 → c.opts.testBit 10 = true) ∧ n.name ∉ c.excl

instance (c : Conf) (n : Netif) : Decidable (mayUse c n) := by unfold mayUse; infer_instance

/-- The chain of ports starting at an aggregate. -/
inductive Reach (l : List Netif) (i : Nat) : Nat → Prop
  | first {n : Netif} {j : Nat} : n ∈ l → n.index = i → n.subif = some j → Reach l i j
  | next {n : Netif} {j : Nat} : Reach l i n.index → n ∈ l → n.subif = some j → Reach l i j

/-- Interface `j` is `i` or a port of `i`. -/
def Attached (l : List Netif) (i j : Nat) : Prop :=
  j = i ∨ (∃ x ∈ l, x.index = j ∧ x.parent = some i) ∨ Reach l i j

/-- The same for the interfaces the kernel reports. -/
def linkAllowed (c : Conf) (e : Link) : Prop :=
  e.kind ≥ 0 ∧ (e.kind = 1 → c.opts.testBit 9 = true) ∧ (e.kind = 2 → c.opts.testBit 10 = true) ∧ e.name ∉ c.excl

instance (c : Conf) (e : Link) : Decidable (linkAllowed c e) := by unfold linkAllowed; infer_instance

/-- The interfaces for which is sent: those of the command line, or without such all that are not ports of another. -/
def Chosen (c : Conf) (k : Kernel) (us : List Link) (e : Link) : Prop :=
  if c.names = [] then ∀ a ∈ us, e.index ∉ portsAt k us a else e.name ∈ c.names

instance (c : Conf) (k : Kernel) (us : List Link) (e : Link) : Decidable (Chosen c k us e) := by unfold Chosen; infer_instance

/-- The interfaces on which is sent for `e`: the ports of an aggregate, otherwise `e` itself. -/
def SendsOn (k : Kernel) (us : List Link) (e s : Link) : Prop := if e.kind > 10 then s.index ∈ portsAt k us e else s = e

instance (k : Kernel) (us : List Link) (e s : Link) : Decidable (SendsOn k us e s) := by unfold SendsOn; infer_instance

/-- The frames of a periodic round: for the chosen interfaces on all their ports, with every protocol that is enabled or was
received there (`known`, one bit per protocol). -/
def Due (c : Conf) (k : Kernel) (us : List Link) (known : Nat → Nat) (i : Nat) (p : Proto) : Prop :=
  ∃ e ∈ us, Chosen c k us e ∧ linkAllowed c e ∧ ∃ s ∈ us, s.index = i ∧ linkAllowed c s ∧ SendsOn k us e s ∧
    (c.enabled p = true ∨ (known e.index).testBit p.num = true)

instance (c : Conf) (k : Kernel) (us : List Link) (known : Nat → Nat) (i : Nat) (p : Proto) : Decidable (Due c k us known i p) := by
  unfold Due; infer_instance

/-- No chosen interface is a port of another chosen one. -/
def NoOverlap (c : Conf) (k : Kernel) (us : List Link) : Prop :=
  ∀ e ∈ us, Chosen c k us e → ∀ a ∈ us, Chosen c k us a → e.index ∉ portsAt k us a

instance (c : Conf) (k : Kernel) (us : List Link) : Decidable (NoOverlap c k us) := by unfold NoOverlap; infer_instance

/-- A received frame is an advertisement of a protocol. -/
def advertises (r : RawMsg) (p : Proto) : Prop :=
  ∃ q m n, Proto.ofNum r.proto = some q ∧
    q.decode false (r.msg ++ [1, 0]) r.len.toNat { proto := r.proto } = .ok (m, n) ∧ n ≠ 0 ∧ m.proto = p.num

/-- Among the events is the reception of an advertisement of a protocol on an interface. -/
def Heard (es : List Event) (j : Nat) (p : Proto) : Prop :=
  ∃ now r, Event.recv now r ∈ es ∧ r.index = j ∧ advertises r p

/-- At some moment after a part of the events interface `j` was `i` or a port of `i`. -/
def AttachedDuring (c : Conf) (es : List Event) (d : Daemon) (i j : Nat) : Prop :=
  ∃ pre post dm, es = pre ++ post ∧ daemonRun c pre d = .ok dm ∧ Attached dm.child.netifs i j

/-- The kernel answers consistently during an event. -/
def SaneEvent : Event → Prop
  | .timer k _ _ => Sane k
  | .link k _ _ _ _ => Sane k
  | _ => True

instance (e : Event) : Decidable (SaneEvent e) := by cases e <;> unfold SaneEvent <;> infer_instance

/-- A state right after the start: no interfaces, no neighbours, and system information of the right sizes. -/
def Started (d : Daemon) : Prop := d.child.netifs = [] ∧ d.child.queue = [] ∧ d.child.sessions = [] ∧ SysOk d.sys

instance (d : Daemon) : Decidable (Started d) := by unfold Started; infer_instance

/-- Not a periodic round, and the kernel lists interface `i` at each refresh. -/
def Steady (i : Nat) : Event → Prop
  | .timer _ _ _ => False
  | .link k _ _ _ _ => Sane k ∧ ∀ addrs ∈ k.ifaddrs.toList, i ∈ (usables k addrs).map (·.index)
  | _ => True

instance (i : Nat) (e : Event) : Decidable (Steady i e) := by cases e <;> unfold Steady <;> infer_instance

/-- The number of events in a history that cause messages on interface `i`. -/
def bursts (c : Conf) (i : Nat) : List Event → Daemon → Nat
  | [], _ => 0
  | e :: es, d =>
    match daemonStep c d e with
    | .ok d' => (if ∃ t ∈ d'.tx.drop d.tx.length, t.index = i then 1 else 0) + bursts c i es d'
    | _ => 0

end Ladvd.Spec
