import Verif.Model.Send
/-!
# The periodic timer

The transmit event of /repo/src/child.c: set up at the start, and again at the end of each run of `child_send`.
-/

namespace Ladvd

/-- `SLEEPTIME`, /repo/src/common.h line 96, in seconds. -/
def SLEEPTIME : Int := 30

/-- The unprivileged process with its transmit event (`args.event`, /repo/src/child.c lines 53 and 122-124): the time the event is due at, `none`
when it is not pending. -/
structure Timed where
  daemon : Daemon
  due : Option Int := none
  deriving DecidableEq

/-- The end of `child_send`, /repo/src/child.c lines 285-296: reached from every exit of the function, the next run is scheduled only if it
was called for a timeout.  `now` is the time the event loop of libevent knows.  Simplification: times are in seconds on one clock, the one that is
also read for the table. -/
def reschedule (timeout : Bool) (now : Int) (due : Option Int) : Option Int :=
  if !timeout then due else some (now + SLEEPTIME)

/-- One event at a time.  The transmit event is not persistent (/repo/src/child.c line 123): once it fires it is no longer pending.  The first run is
the direct call in line 124.  Link events pass 0 as the reason (lines 588 and 637); if they are not of a running ethernet interface, nothing is called. -/
def timedStep (c : Conf) (s : Timed) (now : Int) (e : Event) : Res Timed :=
  (daemonStep c s.daemon e).bind fun d => .ok ⟨d, match e with
    | .timer _ _ _ => reschedule true now none
    | .link _ _ _ _ _ => reschedule false now s.due
    | _ => s.due⟩

/-- A sequence of events with their times. -/
def timedRun (c : Conf) : List (Int × Event) → Timed → Res Timed
  | [], s => .ok s
  | (t, e) :: h, s => (timedStep c s t e).bind (timedRun c h)

end Ladvd
