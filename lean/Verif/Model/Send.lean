import Verif.Model.Media
import Verif.Model.Fetch
/-!
# Transmission

`child_send` and the link event handling of /repo/src/child.c, and the event loop of the unprivileged process.
-/

namespace Ladvd

/-- A message to the privileged sender, `struct parent_msg` as filled in by /repo/src/child.c lines 227-281. -/
structure Tx where
  index : Nat
  proto : Proto
  len : Nat
  msg : Bytes
  deriving Repr, DecidableEq

/-- The configuration, fixed after start-up: `options`, interface names of the command line, management selection, the
excluded interfaces (`exclifs`) and the enabled protocols (`protos[p].enabled`, /repo/src/main.h lines 24-38). -/
structure Conf where
  opts : Opts
  names : List Bytes := []
  mgmt : Mgmt := {}
  excl : List Bytes := []
  enabled : Proto → Bool := fun _ => false

/-- State of the unprivileged process: /repo/src/child.c lines 41-45, `sysinfo`, and the static `edp_count` of
/repo/src/proto/edp.c line 38.  `closed`, `opened` and `tx` are not in the code: they record the `PARENT_CLOSE` and
`PARENT_OPEN` requests and the messages written. -/
structure Daemon where
  child : Child := {}
  sys : SysInfo := {}
  mnetif : Option Nat := none
  closed : List Nat := []
  seq : Nat := 0
  opened : List Nat := []
  tx : List Tx := []
  deriving Repr, DecidableEq

/-- The protocols in the order of `protos[]`, /repo/src/main.h lines 24-38. -/
def Proto.all : List Proto := [.lldp, .cdp, .edp, .fdp, .ndp, .cdp1]

/-- `netif_excluded`, /repo/src/util.c lines 351-358. -/
def netifExcluded (c : Conf) (n : Netif) : Bool := c.excl.any (fun e => n.name == e)

/-- "skip special interfaces" and "skip excluded interfaces", /repo/src/child.c lines 190-200 and 215-225. -/
def sendSkip (c : Conf) (n : Netif) : Bool :=
  decide (n.type < NETIF_REGULAR) || (n.type == NETIF_WIRELESS && !c.opts.has OPT_WIRELESS) ||
  (n.type == NETIF_TAP && !c.opts.has OPT_TAP) || netifExcluded c n

/-- What a builder sees for interface `n`. -/
def pktEnv (c : Conf) (d : Daemon) (n : Netif) : PktEnv :=
  { nif := n, parent := n.parent.bind (netifByIndex d.child.netifs), mnetif := d.mnetif.bind (netifByIndex d.child.netifs),
    netifs := d.child.netifs, sys := d.sys, opts := c.opts }

/-- `edp_count++`, /repo/src/proto/edp.c line 71: an `uint16_t`, incremented whether or not the frame fits. -/
def nextSeq (p : Proto) (seq : Nat) : Nat := if p = .edp then (seq + 1) % 65536 else seq

/-- The body of the protocol loop, /repo/src/child.c lines 251-280.  `netif` is the interface of the outer loop.
Simplification: the `write` succeeds (otherwise the process terminates). -/
def sendOne (c : Conf) (netif subif : Netif) (d : Daemon) (p : Proto) : Res Daemon :=
  if !c.enabled p && !netif.protos.testBit p.num then .ok d
  else
    let d' := { d with seq := nextSeq p d.seq }
    match p.build (List.replicate ETHER_MAX_LEN 0) (pktEnv c d subif) d.seq with
    | .fail => .ok d'
    | .ok (msg, len) =>
      if len = 0 then .ok d'
      else
        let msg := if netif.bondingMode = 2 ∧ subif.child ≠ 1 then
            msg.take 6 ++ List.replicate 6 0 ++ msg.drop 12 else msg
        .ok { d' with tx := d.tx ++ [⟨subif.index, p, len, msg⟩] }
    | .oob => .oob
    | .abort => .abort
    | .stuck => .stuck

/-- The protocol loop, /repo/src/child.c lines 249-281. -/
def sendAll (c : Conf) (netif subif : Netif) : List Proto → Daemon → Res Daemon
  | [], d => .ok d
  | p :: ps, d => (sendOne c netif subif d p).bind (sendAll c netif subif ps)

/-- Assignment to an interface. -/
def Daemon.set (d : Daemon) (i : Nat) (f : Netif → Netif) : Daemon :=
  { d with child := { d.child with netifs := setNetif d.child.netifs i f } }

/-- The link event counter, an `uint8_t`, /repo/src/child.c lines 207-213. -/
def countLink (link : Option Nat) (n : Netif) : Netif :=
  { n with linkEvent := if link = none then 0 else (n.linkEvent + 1) % 256 }

/-- The body of the loop over the ports, /repo/src/child.c lines 206-281, for the port with index `i`; `link` is
`args->index`, `none` for the periodic run; `media` is `netif_media`. -/
def sendPort (c : Conf) (media : Netif → Netif) (link : Option Nat) (netif : Netif) (d : Daemon) (i : Nat) : Res Daemon :=
  if link ≠ none ∧ link ≠ some i then .ok d
  else
    let d := d.set i (countLink link)
    match netifByIndex d.child.netifs i with
    | none => .ok d
    | some subif =>
      if sendSkip c subif then .ok d
      else
        let d := if c.opts.has OPT_RECV && subif.protos == 0 then { d with opened := d.opened ++ [i] } else d
        let d := d.set i media
        if !c.opts.has OPT_SEND then .ok d
        else sendAll c netif (media subif) Proto.all d

/-- The loop over the ports, /repo/src/child.c lines 204-282. -/
def sendPorts (c : Conf) (media : Netif → Netif) (link : Option Nat) (netif : Netif) : List Nat → Daemon → Res Daemon
  | [], d => .ok d
  | i :: is, d => (sendPort c media link netif d i).bind (sendPorts c media link netif is)

/-- The loop over the interfaces, /repo/src/child.c lines 188-283; the loop variables are kept as indexes.  The ports are
enumerated before they are handled: the body changes neither their order nor their links. -/
def sendNetifs (c : Conf) (media : Netif → Netif) (link : Option Nat) : List Nat → Daemon → Res Daemon
  | [], d => .ok d
  | i :: is, d =>
    match netifByIndex d.child.netifs i with
    | none => sendNetifs c media link is d
    | some netif =>
      if sendSkip c netif then sendNetifs c media link is d
      else (ports d.child.netifs netif).bind (fun ps =>
        (sendPorts c media link netif (ps.map (·.index)) d).bind (sendNetifs c media link is))

/-- The refresh of the interface list, /repo/src/child.c line 179. -/
def daemonFetch (c : Conf) (k : Kernel) (d : Daemon) : Daemon × Nat :=
  let r := netifFetch c.opts c.names c.mgmt k ⟨d.child.netifs, d.sys, d.mnetif, d.closed⟩
  ({ d with child := { d.child with netifs := r.1.netifs }, sys := r.1.sys, mnetif := r.1.mnetif, closed := r.1.closed }, r.2)

/-- "bail early on known flapping interfaces", /repo/src/child.c lines 168-173. -/
def flapping (d : Daemon) : Option Nat → Bool
  | none => false
  | some i => (netifByIndex d.child.netifs i).any (fun n => decide (n.linkEvent > 3))

/-- "no interface matching the given ifindex found", /repo/src/child.c lines 182-186. -/
def missing (d : Daemon) : Option Nat → Bool
  | none => false
  | some i => (netifByIndex d.child.netifs i).isNone

/-- `child_send`, /repo/src/child.c lines 163-283, up to the label `out`. -/
def sendRound (c : Conf) (k : Kernel) (m : Media) (link : Option Nat) (d : Daemon) : Res Daemon :=
  if flapping d link then .ok d
  else
    let r := daemonFetch c k d
    if r.2 = 0 then .ok r.1
    else if missing r.1 link then .ok r.1
    else sendNetifs c (netifMedia m) link ((netifTraverse c.opts r.1.child.netifs).map (·.index)) r.1

/-- Events of the unprivileged process: the timer (`child_send` with `EV_TIMEOUT`, /repo/src/child.c lines 163-296), a link
event with its interface and flags (`child_link_cb`, lines 574-590), and those handled by `childStep`. -/
inductive Event where
  | timer (k : Kernel) (m : Media) (now : Int)
  | link (k : Kernel) (m : Media) (ether running : Bool) (index : Nat)
  | recv (now : Option Int) (r : RawMsg)
  | accept
  | write (sid : Nat) (ws : Option (List WriteRes))

/-- Lift of an operation on the table, /repo/src/child.c lines 298-530. -/
def Daemon.lift (d : Daemon) (r : Res Child) : Res Daemon := r.bind (fun ch => .ok { d with child := ch })

/-- One event.  Simplification: `NETIF_INDEX_MAX` is not the index of a link event. -/
def daemonStep (c : Conf) (d : Daemon) : Event → Res Daemon
  | .timer k m now => (sendRound c k m none d).bind (fun d =>
      if c.opts.has OPT_RECV then d.lift (childExpire c.opts now d.child) else .ok d)
  | .link k m ether running i => if ether && running then sendRound c k m (some i) d else .ok d
  | .recv now r => d.lift (childStep c.opts d.child (.recv now r))
  | .accept => d.lift (childStep c.opts d.child .accept)
  | .write sid ws => d.lift (childStep c.opts d.child (.write sid ws))

/-- A sequence of events. -/
def daemonRun (c : Conf) : List Event → Daemon → Res Daemon
  | [], d => .ok d
  | e :: es, d => (daemonStep c d e).bind (daemonRun c es)

end Ladvd
