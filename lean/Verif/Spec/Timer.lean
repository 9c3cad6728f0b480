import Verif.Model.Timer
import Verif.Spec.Send
import Verif.Spec.Table
/-!
# Specification: rounds, their times, and a link that loses some of the frames
-/

namespace Ladvd.Spec

/-- The clock shows `t` during the event. -/
def Reads (t : Int) : Event → Prop
  | .timer _ _ now => now = t
  | .recv now _ => now = none ∨ now = some t
  | _ => True

instance (t : Int) (e : Event) : Decidable (Reads t e) := by cases e <;> unfold Reads <;> infer_instance

/-- The event is the timeout of the transmit event. -/
def isTimeout : Event → Bool
  | .timer _ _ _ => true
  | _ => false

/-- Events in the order of time, none while a timeout has been due for more than `late` seconds, and no timeout before it is due. -/
def Punctual (c : Conf) (late : Int) : Int → List (Int × Event) → Timed → Prop
  | _, [], _ => True
  | last, (t, e) :: h, s => last ≤ t ∧ Reads t e ∧ (∀ x ∈ s.due.toList, t ≤ x + late) ∧
      (isTimeout e = true → ∀ x ∈ s.due.toList, x ≤ t) ∧ ∀ s', timedStep c s t e = .ok s' → Punctual c late t h s'

instance decPunctual (c : Conf) (late : Int) : (last : Int) → (h : List (Int × Event)) → (s : Timed) → Decidable (Punctual c late last h s)
  | _, [], _ => isTrue trivial
  | last, (t, e) :: h, s =>
    have h1 : Decidable (last ≤ t ∧ Reads t e ∧ (∀ x ∈ s.due.toList, t ≤ x + late) ∧ (isTimeout e = true → ∀ x ∈ s.due.toList, x ≤ t)) := by
      infer_instance
    match h1, hs : timedStep c s t e with
    | .isFalse h1, _ => isFalse (fun hx => h1 ⟨hx.1, hx.2.1, hx.2.2.1, hx.2.2.2.1⟩)
    | .isTrue h1, .ok s1 =>
      match decPunctual c late t h s1 with
      | .isTrue h2 => isTrue ⟨h1.1, h1.2.1, h1.2.2.1, h1.2.2.2, fun s' hd => by rw [hs] at hd; injection hd with hd; exact hd ▸ h2⟩
      | .isFalse h2 => isFalse (fun hx => h2 (hx.2.2.2.2 s1 hs))
    | .isTrue h1, .fail => isTrue ⟨h1.1, h1.2.1, h1.2.2.1, h1.2.2.2, fun s' hd => by rw [hs] at hd; cases hd⟩
    | .isTrue h1, .oob => isTrue ⟨h1.1, h1.2.1, h1.2.2.1, h1.2.2.2, fun s' hd => by rw [hs] at hd; cases hd⟩
    | .isTrue h1, .abort => isTrue ⟨h1.1, h1.2.1, h1.2.2.1, h1.2.2.2, fun s' hd => by rw [hs] at hd; cases hd⟩
    | .isTrue h1, .stuck => isTrue ⟨h1.1, h1.2.1, h1.2.2.1, h1.2.2.2, fun s' hd => by rw [hs] at hd; cases hd⟩

/-- At the time `now` no event has been due for more than `late` seconds. -/
def Current (late now : Int) (s : Timed) : Prop := ∀ x ∈ s.due.toList, now ≤ x + late

instance (late now : Int) (s : Timed) : Decidable (Current late now s) := by unfold Current; infer_instance

/-- The times of the periodic rounds. -/
def roundTimes (h : List (Int × Event)) : List Int := (h.filter (fun x => isTimeout x.2)).map (·.1)

/-- The frames handed to the privileged process for transmission, with the time. -/
def sentAt (c : Conf) : List (Int × Event) → Timed → List (Int × Tx)
  | [], _ => []
  | (t, e) :: h, s =>
    match timedStep c s t e with
    | .ok s' => (s'.daemon.tx.drop s.daemon.tx.length).map (fun x => (t, x)) ++ sentAt c h s'
    | _ => []

/-- The kernel answers consistently, knows at least one usable interface and all those of the command line, and not more than ten VLANs. -/
structure KernelAnswers (c : Conf) (k : Kernel) (addrs : List IfAddr) : Prop where
  sane : Sane k
  listed : k.ifaddrs = some addrs
  count : if c.names = [] then usables k addrs ≠ [] else ∀ name ∈ c.names, ∃ e ∈ usables k addrs, e.name = name ∧ e.kind ≠ -1
  len : (usables k addrs).length < 65536
  vlans : ((usables k addrs).filter (fun e => e.kind = -1)).length ≤ 10

/-- In every round protocol `p` is due on interface `i`, whether or not it is received there. -/
def AlwaysDue (c : Conf) (i : Nat) (p : Proto) (h : List (Int × Event)) : Prop :=
  ∀ x ∈ h, ∀ k m now, x.2 = .timer k m now → ∃ addrs, KernelAnswers c k addrs ∧ Due c k (usables k addrs) (fun _ => 0) i p

/-- The event is the reception of a frame on interface `j` with the addresses `macs` (destination and source). -/
def Between (j : Nat) (macs : Bytes × Bytes) : Event → Prop
  | .recv _ r => r.index = j ∧ (r.msg.take 6, (r.msg.drop 6).take 6) = macs
  | _ => False

instance (j : Nat) (macs : Bytes × Bytes) (e : Event) : Decidable (Between j macs e) := by cases e <;> unfold Between <;> infer_instance

end Ladvd.Spec
