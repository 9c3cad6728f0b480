import Verif.Model.Typed
import Verif.Model.BsdDaemon
/-!
# The daemon from its command line on, on FreeBSD
-/

namespace Ladvd

/-- The start up to the fork from the words of the command line, /repo/src/main.c lines 84-217, with `sysinfo_fetch` as on FreeBSD: the settings, the ids of the
user, and the state of the unprivileged process; `fail` if the program exits instead. -/
def bsdTypedStart (l : Libc) (prog : Bytes) (h : Host) (e : BsdSysEnv) (ws : List Bytes) : Res (Conf × Option (Nat × Nat) × Daemon) :=
  match (daemonMain l prog h ws).how with
  | .ok (.starts s pwd) => do
    let sys ← bsdSysinfo e s.sys
    pure (s.conf (getoptAll l daemonSpec none ws).2, pwd, { sys := sys })
  | .ok (.exits _) => .fail
  | .fail => .fail
  | .oob => .oob
  | .abort => .abort
  | .stuck => .stuck

end Ladvd
