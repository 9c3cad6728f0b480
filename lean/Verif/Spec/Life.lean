import Verif.Spec.Ipc
import Verif.Model.Life
/-!
# Specification of how the two processes end
-/

namespace Ladvd.Spec

/-- A history from the start; `acts` is what the first round does. -/
def LifeReach (cap : Nat) (recv once : Bool) (s : Life) : Prop := ∃ acts evs, lifeRun cap recv once (lifeStart acts) evs = some s

/-- Steps that the privileged process makes by itself. -/
def ofParent : LifeEv → Bool
  | .duo .receive | .duo .forward | .duo .finish | .duo .serve | .duo .reply | .duo .transmit | .loop | .handleParent _ => true
  | _ => false

/-- Steps that the unprivileged process makes by itself: the timer and notifications (`start`) come from outside. -/
def ofChildItself : LifeEv → Bool
  | .duo (.take _) | .duo .act | .duo .answer | .enter | .handleChild _ => true
  | _ => false

/-- The event is none that ends or halts a process whatever it does: no `SIGKILL`, no stop signal, no `SIGHUP` to the unprivileged process, no fatal error. -/
def Gentle : LifeEv → Prop
  | .sigChild g => g ≠ .kill ∧ g ≠ .hup ∧ g ≠ .stop
  | .sigParent g => g ≠ .kill ∧ g ≠ .stop
  | .fatalChild | .fatalParent => False
  | _ => True

/-- The unprivileged process waits for a reply that will not come. -/
def Orphaned (s : Life) : Prop := s.parent.ended = true ∧ s.child.ended = false ∧ s.duo.asking.isSome = true ∧ s.duo.rep = []

/-- Someone wants the unprivileged process to end. -/
def EndWanted (s : Life) : Prop := ∃ g ∈ s.childSigs, g = .int ∨ g = .term

/-- The packets a round sends. -/
def sends (acts : List DuoAct) : List Nat := acts.filterMap (fun a => match a with | .send m => some m | .request _ => none)

end Ladvd.Spec
