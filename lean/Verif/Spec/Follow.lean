import Verif.Spec.Send
/-!
# Neighbours of an interface, seen from the kernel
-/

namespace Ladvd.Spec

/-- In the kernel's list, `i` is an aggregate with the ports `J`, or an interface that is no port of an aggregate (then `J` is
`[i]`).  If interfaces are named on the command line, it is one of them. -/
def HasPorts (c : Conf) (i : Nat) (J : List Nat) (k : Kernel) : Prop :=
  ∀ addrs ∈ k.ifaddrs.toList, ∃ e ∈ usables k addrs, e.index = i ∧ (c.names ≠ [] → e.name ∈ c.names) ∧
    if e.kind > 10 then (∀ j ∈ portsAt k (usables k addrs) e, j ∈ J) ∧ (∀ j ∈ J, j ∈ portsAt k (usables k addrs) e)
    else e.kind ≥ 0 ∧ J = [i] ∧ ∀ a ∈ usables k addrs, i ∉ portsAt k (usables k addrs) a

instance (c : Conf) (i : Nat) (J : List Nat) (k : Kernel) : Decidable (HasPorts c i J k) := by unfold HasPorts; infer_instance

/-- The kernel lists neither `i` nor one of the interfaces `J`. -/
def NotYet (i : Nat) (J : List Nat) (k : Kernel) : Prop :=
  ∀ addrs ∈ k.ifaddrs.toList, ∀ e ∈ usables k addrs, e.index ≠ i ∧ e.index ∉ J

instance (i : Nat) (J : List Nat) (k : Kernel) : Decidable (NotYet i J k) := by unfold NotYet; infer_instance

/-- Whenever the list is refreshed, the kernel satisfies `P`. -/
def Refreshed (P : Kernel → Prop) : Event → Prop
  | .timer k _ _ => P k
  | .link k _ _ _ _ => P k
  | _ => True

instance (P : Kernel → Prop) [DecidablePred P] (e : Event) : Decidable (Refreshed P e) := by
  cases e <;> unfold Refreshed <;> infer_instance

/-- Received frames carry no time of their own (zero, the clock being past 1970), and those for an aggregate are received on its
ports only. -/
def FromPorts (i : Nat) (J : List Nat) : Event → Prop
  | .recv now r => (∀ t ∈ now.toList, r.received < t) ∧ (r.index = i → i ∈ J)
  | _ => True

instance (i : Nat) (J : List Nat) (e : Event) : Decidable (FromPorts i J e) := by cases e <;> unfold FromPorts <;> infer_instance

end Ladvd.Spec
