import Verif.Model.BsdDaemon
import Verif.Spec.Bsd
import Verif.Spec.BsdSys
import Verif.Spec.Alive
import Verif.Spec.Latest
/-!
# Specification of the daemon on FreeBSD
-/

namespace Ladvd.Spec

/-- The usable ports of an aggregate, by the kernel's answers: the first 32 ports of a lagg, the members of a bridge. -/
def bsdPortsAt (k : BsdKernel) (us : List Link) (e : Link) : List Nat :=
  let reported : List Bytes :=
    if e.kind = 12 then match k.lagg e.name with | some g => (g.ports.take 32).map (·.1) | none => []
    else if e.kind = 13 then (k.members e.name).getD []
    else []
  (((reported.map (linkNamed us)).filterMap id).filter (fun s => s.kind < 10)).map (·.index)

/-- Indexes are 32 bits wide and names are not empty; every port is reported once and by one aggregate. -/
def BsdLinksOk (k : BsdKernel) (us : List Link) : Prop :=
  (∀ e ∈ us, e.index < 4294967296 ∧ e.name ≠ [] ∧ ∀ c ∈ e.name, c ≠ 0) ∧
  ∀ e ∈ us, (bsdPortsAt k us e).Nodup ∧ ∀ e' ∈ us, ∀ m ∈ bsdPortsAt k us e, m ∈ bsdPortsAt k us e' → e = e'

instance (k : BsdKernel) (us : List Link) : Decidable (BsdLinksOk k us) := by unfold BsdLinksOk; infer_instance

/-- The answers of the kernel are consistent, or it does not answer. -/
def BsdSane (k : BsdKernel) : Prop := ∀ addrs ∈ k.ifaddrs.toList, BsdOk k addrs ∧ BsdLinksOk k (bsdUsables k addrs)

/-- At every refresh of the interfaces they are. -/
def BsdSaneEvent : BsdEvent → Prop
  | .timer k _ _ => BsdSane k
  | .route k _ _ => BsdSane k
  | _ => True

/-- Frames come from the privileged process, which has them through the socket filter. -/
def BsdCaptured : BsdEvent → Prop
  | .recv now r => Captured (.recv now r)
  | _ => True

/-- No client connects. -/
def BsdNotAccept : BsdEvent → Prop
  | .accept => False
  | _ => True

instance (e : BsdEvent) : Decidable (BsdNotAccept e) := by cases e <;> unfold BsdNotAccept <;> infer_instance

/-- The interfaces for which is sent: those of the command line, or without such all that are not ports of another. -/
def BsdChosen (c : Conf) (k : BsdKernel) (us : List Link) (e : Link) : Prop :=
  if c.names = [] then ∀ a ∈ us, e.index ∉ bsdPortsAt k us a else e.name ∈ c.names

instance (c : Conf) (k : BsdKernel) (us : List Link) (e : Link) : Decidable (BsdChosen c k us e) := by unfold BsdChosen; infer_instance

/-- The frames of a periodic round: for the chosen interfaces, on all ports of an aggregate and otherwise on the interface itself, with every
protocol that is enabled or was received there (`known`, one bit per protocol). -/
def BsdDue (c : Conf) (k : BsdKernel) (us : List Link) (known : Nat → Nat) (i : Nat) (p : Proto) : Prop :=
  ∃ e ∈ us, BsdChosen c k us e ∧ linkAllowed c e ∧
    ∃ s ∈ us, s.index = i ∧ linkAllowed c s ∧ (if e.kind > 10 then s.index ∈ bsdPortsAt k us e else s = e) ∧
      (c.enabled p = true ∨ (known e.index).testBit p.num = true)

instance (c : Conf) (k : BsdKernel) (us : List Link) (known : Nat → Nat) (i : Nat) (p : Proto) : Decidable (BsdDue c k us known i p) := by
  unfold BsdDue; infer_instance

/-- No chosen interface is a port of another chosen one. -/
def BsdNoOverlap (c : Conf) (k : BsdKernel) (us : List Link) : Prop :=
  ∀ e ∈ us, BsdChosen c k us e → ∀ a ∈ us, BsdChosen c k us a → e.index ∉ bsdPortsAt k us a

instance (c : Conf) (k : BsdKernel) (us : List Link) : Decidable (BsdNoOverlap c k us) := by unfold BsdNoOverlap; infer_instance

/-- Not a periodic round, and the kernel lists interface `i` at each refresh. -/
def BsdSteady (i : Nat) : BsdEvent → Prop
  | .timer _ _ _ => False
  | .route k _ _ => BsdSane k ∧ ∀ addrs ∈ k.ifaddrs.toList, i ∈ (bsdUsables k addrs).map (·.index)
  | _ => True

/-- The number of events in a history that cause messages on interface `i`. -/
def bsdBursts (c : Conf) (i : Nat) : List BsdEvent → Daemon → Nat
  | [], _ => 0
  | e :: es, d =>
    match bsdDaemonStep c d e with
    | .ok d' => (if ∃ t ∈ d'.tx.drop d.tx.length, t.index = i then 1 else 0) + bsdBursts c i es d'
    | _ => 0

/-- A periodic round, or a report of the kernel about a link that went up. -/
def BsdRound (k : BsdKernel) (m : BsdMedia) (ev : BsdEvent) : Prop :=
  (∃ now, ev = .timer k m now) ∨ ∃ r msg, RtReport.LaidOut r msg ∧ r.LinkUp ∧ ev = .route k m (some msg)

/-- The data of a frame are those of the state `r` after the refresh of the interfaces, for its interface `s`; link properties are
up to date for `s`. -/
structure BsdDescribing (c : Conf) (m : BsdMedia) (r : Ifs) (s : Netif) (env : PktEnv) : Prop where
  opts : env.opts = c.opts
  sys : env.sys = r.sys
  nif : BsdLinkIs m s env.nif
  netifs : env.netifs.map unlinked = r.netifs.map unlinked
  parent : env.parent.map unlinked = (s.parent.bind (withIndex r.netifs)).map unlinked
  mnetif : env.mnetif.map unlinked = (r.mnetif.bind (withIndex r.netifs)).map unlinked

/-- A port that is not in use: one of a failover lagg that the kernel does not call active. -/
def BsdStandby (k : BsdKernel) (l : List Netif) (n : Netif) (j : Nat) : Prop := bsdMode k n = 2 ∧ ∃ x, BsdRole k l n j 2 x

/-- The latest advertisement of `k` in a history; the interfaces are those the process has when a message arrives. -/
def bsdLatest (c : Conf) (k : Key) : List BsdEvent → Daemon → Option Info → Option Info
  | [], _, i => i
  | e :: es, d, i =>
    match bsdDaemonStep c d e with
    | .ok d' => bsdLatest c k es d' (match e with | .recv now r => learnt k d.child.netifs now r i | _ => i)
    | _ => i

/-- The clock of an event does not exceed `now`, and exceeds the time stamp in the message (which is zero for captured frames). -/
def BsdUntil (now : Int) : BsdEvent → Prop
  | .recv (some t) r => r.received < t ∧ t ≤ now
  | .timer _ _ t => t ≤ now
  | _ => True

end Ladvd.Spec
