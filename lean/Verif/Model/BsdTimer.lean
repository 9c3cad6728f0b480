import Verif.Model.BsdDaemon
import Verif.Model.Timer
/-!
# The periodic timer on FreeBSD

The transmit event of /repo/src/child.c does not depend on the system; what is read at a link event does.
-/

namespace Ladvd

/-- One event at a time, /repo/src/child.c lines 53, 122-124 and 285-296: as `timedStep`, with the routing socket in place of netlink (`child_link`,
lines 608-637, calls `child_send` with 0 as the reason). -/
def bsdTimedStep (c : Conf) (s : Timed) (now : Int) (e : BsdEvent) : Res Timed :=
  (bsdDaemonStep c s.daemon e).bind fun d => .ok ⟨d, match e with
    | .timer _ _ _ => reschedule true now none
    | .route _ _ _ => reschedule false now s.due
    | _ => s.due⟩

/-- A sequence of events with their times (the event loop, /repo/src/child.c lines 120-160). -/
def bsdTimedRun (c : Conf) : List (Int × BsdEvent) → Timed → Res Timed
  | [], s => .ok s
  | (t, e) :: h, s => (bsdTimedStep c s t e).bind (bsdTimedRun c h)

end Ladvd
