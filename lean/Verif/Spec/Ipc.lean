import Verif.Model.Ipc
/-!
# Specification of the exchange between the processes
-/

namespace Ladvd.Spec

/-- Steps of the processes, as opposed to events from outside. -/
def DuoOwn : DuoEv → Prop
  | .arrive _ | .start _ => False
  | _ => True

/-- No process can do anything. -/
def Halted (cap : Nat) (s : Duo) : Prop := ∀ ev, DuoOwn ev → duoStep cap s ev = none

/-- Nothing is left to do: both processes wait for events and all queues are empty. -/
def Settled (s : Duo) : Prop :=
  s.todo = [] ∧ s.asking = none ∧ s.receiving = false ∧ s.replying = none ∧ s.wire = [] ∧ s.req = [] ∧ s.rep = [] ∧ s.up = [] ∧ s.down = []

/-- Both processes wait for each other: the privileged one for room in the queue of received frames, the other one for a reply or for room in the queue of
packets. -/
def Deadlock (cap : Nat) (s : Duo) : Prop :=
  s.receiving = true ∧ s.wire ≠ [] ∧ s.down.length = cap ∧
    ((s.asking.isSome ∧ s.rep = []) ∨ (s.asking = none ∧ s.up.length = cap ∧ ∃ m acts, s.todo = .send m :: acts))

end Ladvd.Spec
