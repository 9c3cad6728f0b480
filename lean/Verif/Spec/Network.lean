import Verif.Spec.Cli
import Verif.Spec.Alive
import Verif.Spec.Table
/-!
# Specification: one system's announcement on its neighbour's terminal
-/

namespace Ladvd.Spec

/-- The command line of the client asks for the interface and the protocol of the entry. -/
def asked (c : CliConf) (e : Entry) : Bool :=
  (match c.indexes with | none => true | some l => l.contains e.index) && c.protos.testBit e.proto

/-- A table entry as displayed at a time `now`. -/
def display (now : Int) (e : Entry) : Shown :=
  { index := e.index, name := e.name, proto := e.proto, ttl := e.ttl, hold := (e.ttl - (now - e.received)).toNat, peer := e.peer,
    frame := e.msg.take e.len }

/-- The event brings no frame between the two stations of `k`, and no clock reading beyond `limit`. -/
def Undisturbed (k : Nat × Nat × Bytes × Bytes) (limit : Int) : Event → Prop
  | .recv now r => (r.index, r.msg.take 6, (r.msg.drop 6).take 6) ≠ (k.1, k.2.2) ∧ ∀ t, now = some t → t ≤ limit
  | .timer _ _ now => now ≤ limit
  | _ => True

instance (k : Nat × Nat × Bytes × Bytes) (limit : Int) (e : Event) : Decidable (Undisturbed k limit e) := by
  cases e with
  | recv now r =>
    unfold Undisturbed
    cases now with
    | none => exact decidable_of_iff ((r.index, r.msg.take 6, (r.msg.drop 6).take 6) ≠ (k.1, k.2.2)) (by simp)
    | some t => exact decidable_of_iff ((r.index, r.msg.take 6, (r.msg.drop 6).take 6) ≠ (k.1, k.2.2) ∧ t ≤ limit) (by simp)
  | _ => unfold Undisturbed; infer_instance

end Ladvd.Spec
