import Verif.Model.Cli
/-!
# What the control connection carries

Entries as a user knows them, independent of how they are transported.
-/

namespace Ladvd.Spec

/-- A name an interface can have: up to 15 characters. -/
def IfName (b : Bytes) : Prop := b.length ≤ 15 ∧ ∀ c ∈ b, c ≠ 0

instance (b : Bytes) : Decidable (IfName b) := by unfold IfName; infer_instance

/-- A time the system can tell. -/
def Time64 (t : Int) : Prop := -2 ^ 63 ≤ t ∧ t < 2 ^ 63

instance (t : Int) : Decidable (Time64 t) := by unfold Time64; infer_instance

/-- An event as the system can produce it: received messages fill the fixed size structure, carry its number types and hold the headers of a
frame, the clock tells a time, interfaces have names. -/
def Possible : ChildOp → Prop
  | .recv now r => (∀ t ∈ now, Time64 t) ∧ r.index < 2 ^ 32 ∧ Time64 r.received ∧ r.msg.length = 1518 ∧ 26 ≤ r.len
  | .fetch l => ∀ n ∈ l, IfName n.name
  | _ => True

/-- The client was told what the table says: interface, protocol, time of reception and frame. -/
def Told (e : Entry) (c : CliIn) : Prop :=
  c.index = e.index ∧ c.name = e.name ∧ c.proto = e.proto ∧ c.received = e.received ∧ c.len = e.len ∧ c.msg = e.msg

/-- It was told each of the entries, in this order, and nothing else. -/
def AllTold : List Entry → List CliIn → Prop
  | [], [] => True
  | e :: es, c :: cs => Told e c ∧ AllTold es cs
  | _, _ => False

end Ladvd.Spec
