import Verif.Spec.Latest
/-!
# A clock that is set now and then

Histories in which every event carries the true time besides the reading of the clock.
-/

namespace Ladvd.Spec

/-- The reading of the clock in an event. -/
def reading : Event → Option Int
  | .timer _ _ t => some t
  | .recv t _ => t
  | _ => none

/-- All readings are after 1970. -/
def AfterEpoch (h : List (Int × Event)) : Prop := ∀ x ∈ h, ∀ t, reading x.2 = some t → 0 < t

/-- The clock is never more than `dev` seconds fast or slow. -/
def Near (dev : Int) (h : List (Int × Event)) : Prop := ∀ x ∈ h, ∀ t, reading x.2 = some t → x.1 - dev ≤ t ∧ t ≤ x.1 + dev

/-- The latest advertisement of `k`, with the true time of its reception, after an event at `r`, if it was `i` before. -/
def heardAt (k : Key) (l : List Netif) (r : Int) : Event → Option (Int × Info) → Option (Int × Info)
  | .recv (some t) m, i =>
    match offer l t m with
    | some (k', x) => if k' = k then if x.ttl = 0 then none else some (r, x) else i
    | none => i
  | _, i => i

/-- The same for a history of the process. -/
def lastHeard (c : Conf) (k : Key) : List (Int × Event) → Daemon → Option (Int × Info) → Option (Int × Info)
  | [], _, i => i
  | (r, e) :: h, d, i =>
    match daemonStep c d e with
    | .ok d' => lastHeard c k h d' (heardAt k d.child.netifs r e i)
    | _ => i

end Ladvd.Spec
