import Verif.Model.Path
import Verif.Model.Send
import Verif.Spec.Send
/-!
# Specification: histories with a working privileged process and clients that do not interfere
-/

namespace Ladvd.Spec

/-- What is read from the socket of the privileged process is a frame captured there: it came from the wire, was accepted by the
kernel filter, cut to the snapshot length and forwarded. -/
def Captured : Event → Prop
  | .recv _ r => ∃ (index : Nat) (wire : List Bytes) (ms : List Fwd) (m : Fwd), (∀ f ∈ wire, ∃ n, bpfFilter protoFilter f = .ok n ∧ n ≠ 0) ∧
      parentRecv index (wire.map (List.take 1518)) = .ok ms ∧ m ∈ ms ∧ r = rawOf m
  | _ => True

/-- The event continues a client session at a table entry that no longer exists. -/
def Dangling (d : Daemon) : Event → Prop
  | .write sid (some _) => ∃ s ∈ d.child.sessions, s.sid = sid ∧ ∃ id, s.msg = some id ∧ ∀ e ∈ d.child.queue, e.id ≠ id
  | _ => False

/-- No client connects. -/
def NotAccept : Event → Prop
  | .accept => False
  | _ => True

/-- What must not happen to sessions in progress: a frame of a neighbour whose entry a client waits for, a client waiting for more than
the timeout, more than 255 clients at once. -/
def Orderly (d : Daemon) : Event → Prop
  | .recv _ r => ∀ s ∈ d.child.sessions, ∀ e ∈ d.child.queue, s.msg = some e.id → (e.index, e.msg.take 12) ≠ (r.index, r.msg.take 12)
  | .write sid none => ∀ s ∈ d.child.sessions, s.sid = sid → s.msg = none
  | .accept => d.child.sessions.length < 255
  | _ => True

/-- A history of such events. -/
def OrderlyRun (c : Conf) : Daemon → List Event → Prop
  | _, [] => True
  | d, e :: es => Orderly d e ∧ ∀ d', daemonStep c d e = .ok d' → OrderlyRun c d' es

instance (d : Daemon) (e : Event) : Decidable (Orderly d e) := by
  cases e with
  | write sid ws => cases ws <;> unfold Orderly <;> infer_instance
  | _ => unfold Orderly; infer_instance

instance decOrderlyRun (c : Conf) : (d : Daemon) → (es : List Event) → Decidable (OrderlyRun c d es)
  | _, [] => isTrue trivial
  | d, e :: es =>
    match hs : daemonStep c d e with
    | .ok d1 =>
      have := decOrderlyRun c d1 es
      if h : Orderly d e ∧ OrderlyRun c d1 es then
        isTrue ⟨h.1, fun d' hd => by rw [hs] at hd; injection hd with hd; exact hd ▸ h.2⟩
      else isFalse (fun hx => h ⟨hx.1, hx.2 d1 hs⟩)
    | .fail => if h : Orderly d e then isTrue ⟨h, fun d' hd => by rw [hs] at hd; cases hd⟩ else isFalse (fun hx => h hx.1)
    | .oob => if h : Orderly d e then isTrue ⟨h, fun d' hd => by rw [hs] at hd; cases hd⟩ else isFalse (fun hx => h hx.1)
    | .abort => if h : Orderly d e then isTrue ⟨h, fun d' hd => by rw [hs] at hd; cases hd⟩ else isFalse (fun hx => h hx.1)
    | .stuck => if h : Orderly d e then isTrue ⟨h, fun d' hd => by rw [hs] at hd; cases hd⟩ else isFalse (fun hx => h hx.1)

end Ladvd.Spec
