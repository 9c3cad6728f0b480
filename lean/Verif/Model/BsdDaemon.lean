import Verif.Model.Bsd
import Verif.Model.BsdSys
/-!
# The daemon on FreeBSD

/repo/src/child.c and /repo/src/main.c with /repo/src/netif_bsd.c in place of /repo/src/netif_linux.c and with the routing socket in place of netlink.
What does not depend on the system (`sendNetifs`, `childStep`, `mainStart`) is shared with the model of the daemon on Linux.
-/

namespace Ladvd

/-- `netif_fetch` from the unprivileged process, /repo/src/child.c line 179, on FreeBSD. -/
def bsdDaemonFetch (c : Conf) (k : BsdKernel) (d : Daemon) : Res (Daemon × Nat) :=
  (bsdFetch c.opts c.names c.mgmt k ⟨d.child.netifs, d.sys, d.mnetif, d.closed⟩).bind (fun r =>
    .ok ({ d with child := { d.child with netifs := r.1.netifs }, sys := r.1.sys, mnetif := r.1.mnetif, closed := r.1.closed }, r.2))

/-- `child_send`, /repo/src/child.c lines 163-283, up to the label `out`, on FreeBSD. -/
def bsdSendRound (c : Conf) (k : BsdKernel) (m : BsdMedia) (link : Option Nat) (d : Daemon) : Res Daemon :=
  if flapping d link then .ok d
  else (bsdDaemonFetch c k d).bind (fun r =>
    if r.2 = 0 then .ok r.1
    else if missing r.1 link then .ok r.1
    else sendNetifs c (bsdMedia m) link ((netifTraverse c.opts r.1.child.netifs).map (·.index)) r.1)

/-- Events of the unprivileged process on FreeBSD: the timer (`child_send` with `EV_TIMEOUT`, /repo/src/child.c lines 163-296), something to read on the
routing socket (`child_link`, lines 608-636), and those handled by `childStep`. -/
inductive BsdEvent where
  | timer (k : BsdKernel) (m : BsdMedia) (now : Int)
  | route (k : BsdKernel) (m : BsdMedia) (got : Option Bytes)
  | recv (now : Option Int) (r : RawMsg)
  | accept
  | write (sid : Nat) (ws : Option (List WriteRes))

/-- One event, /repo/src/child.c lines 163-636.  Simplification: as the index in a message of the routing socket has 16 bits, `NETIF_INDEX_MAX`
(2^32 - 1) does not occur. -/
def bsdDaemonStep (c : Conf) (d : Daemon) : BsdEvent → Res Daemon
  | .timer k m now => (bsdSendRound c k m none d).bind (fun d =>
      if c.opts.has OPT_RECV then d.lift (childExpire c.opts now d.child) else .ok d)
  | .route k m got =>
      match routeLink got with
      | some i => bsdSendRound c k m (some i) d
      | none => .ok d
  | .recv now r => d.lift (childStep c.opts d.child (.recv now r))
  | .accept => d.lift (childStep c.opts d.child .accept)
  | .write sid ws => d.lift (childStep c.opts d.child (.write sid ws))

/-- A sequence of events (the event loop, /repo/src/child.c lines 120-160). -/
def bsdDaemonRun (c : Conf) : List BsdEvent → Daemon → Res Daemon
  | [], d => .ok d
  | e :: es, d => (bsdDaemonStep c d e).bind (bsdDaemonRun c es)

/-- The start up to the fork, /repo/src/main.c lines 84-217, on FreeBSD: the settings, the ids of the user, and the state of the unprivileged
process. -/
def bsdStartUp (h : Host) (e : BsdSysEnv) (os : List Opt) (args : List Bytes) : Res (Conf × Option (Nat × Nat) × Daemon) := do
  let (s, pwd) ← mainStart h os args
  let sys ← bsdSysinfo e s.sys
  pure (s.conf args, pwd, { sys := sys })

end Ladvd
