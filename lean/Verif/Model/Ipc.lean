import Verif.Model.Basic
/-!
# Model: the two processes and the sockets between them

The other files treat an exchange between the processes as one step.  Here the processes run concurrently, connected by the two pairs of
datagram sockets that `my_socketpair` creates (/repo/src/util.c lines 116-133, /repo/src/main.c lines 244-245).  These sockets are blocking: `my_nonblock` is
called only for clients and the netlink socket (/repo/src/child.c lines 487 and 547).  A `write` waits while the queue of the receiver
is full.

Simplifications: contents are numbers; every queue has room for `cap` datagrams (the kernel limits number and size); frames
of all interfaces are in one capture buffer, which does not overflow; clients, signals and errors are left out.
-/

namespace Ladvd

/-- What a handler of the unprivileged process does with the sockets: `my_mreq` (/repo/src/util.c lines 284-299) or the `write` of `child_send`
(/repo/src/child.c line 278). -/
inductive DuoAct where
  | request (r : Nat)
  | send (m : Nat)
  deriving Repr, DecidableEq

/-- Both processes, the queues, and what happened. -/
structure Duo where
  /-- unprivileged process: the rest of the handler that is running -/
  todo : List DuoAct := []
  /-- unprivileged process: waiting in the `read` of `my_mreq` -/
  asking : Option Nat := none
  /-- frames that the kernel has captured and `pcap_next` has not returned -/
  wire : List Nat := []
  /-- privileged process: in `parent_recv` -/
  receiving : Bool := false
  /-- privileged process: in `parent_req` -/
  replying : Option Nat := none
  /-- requests to the privileged process -/
  req : List Nat := []
  /-- replies of it -/
  rep : List Nat := []
  /-- packets to be sent -/
  up : List Nat := []
  /-- received frames for the unprivileged process -/
  down : List Nat := []
  /-- history: frames captured -/
  arrived : List Nat := []
  /-- history: frames read by `child_queue` -/
  handled : List Nat := []
  /-- history: packets written by `child_send` -/
  sent : List Nat := []
  /-- history: packets read by `parent_send` -/
  transmitted : List Nat := []
  /-- history: requests with the replies read -/
  answers : List (Nat × Nat) := []
  deriving Repr, DecidableEq

/-- Steps: `arrive` and `start` (timer, link event) come from outside, the others are those of the processes. -/
inductive DuoEv where
  | arrive (f : Nat)
  | start (acts : List DuoAct)
  | take (acts : List DuoAct)
  | act
  | answer
  | receive
  | forward
  | finish
  | serve
  | reply
  | transmit
  deriving Repr, DecidableEq

/-- The unprivileged process is in `event_dispatch`, /repo/src/child.c line 157. -/
def Duo.childIdle (s : Duo) : Bool := s.todo.isEmpty && s.asking.isNone

/-- The privileged process is in `event_dispatch`, /repo/src/parent.c line 152. -/
def Duo.parentIdle (s : Duo) : Bool := !s.receiving && s.replying.isNone

/-- One step, `none` if it is not possible.
* `arrive`: the kernel captures a frame
* `start`: `child_send` begins, /repo/src/child.c lines 161-278
* `take`: `child_queue` reads a message and continues with requests, /repo/src/child.c lines 307 and 391-392
* `act`: the next `write`, /repo/src/child.c line 278, or the `write` of `my_mreq`, /repo/src/util.c line 289
* `answer`: the `read` of `my_mreq`, /repo/src/util.c line 294
* `receive`, `forward`, `finish`: `parent_recv`, its loop and the end of it, /repo/src/parent.c lines 768-820
* `serve`, `reply`: the `read` and the `write` of `parent_req`, /repo/src/parent.c lines 195-261
* `transmit`: `parent_send`, /repo/src/parent.c lines 309-353 -/
def duoStep (cap : Nat) (s : Duo) : DuoEv → Option Duo
  | .arrive f => some { s with wire := s.wire ++ [f], arrived := s.arrived ++ [f] }
  | .start acts => if s.childIdle then some { s with todo := acts } else none
  | .take acts =>
    if s.childIdle then
      match s.down with
      | [] => none
      | f :: r => some { s with down := r, handled := s.handled ++ [f], todo := acts }
    else none
  | .act =>
    match s.asking, s.todo with
    | none, .request r :: acts =>
      if s.req.length < cap then some { s with req := s.req ++ [r], asking := some r, todo := acts } else none
    | none, .send m :: acts =>
      if s.up.length < cap then some { s with up := s.up ++ [m], sent := s.sent ++ [m], todo := acts } else none
    | _, _ => none
  | .answer =>
    match s.asking, s.rep with
    | some r, x :: rest => some { s with rep := rest, asking := none, answers := s.answers ++ [(r, x)] }
    | _, _ => none
  | .receive => if s.parentIdle && !s.wire.isEmpty then some { s with receiving := true } else none
  | .forward =>
    if s.receiving then
      match s.wire with
      | [] => none
      | f :: r => if s.down.length < cap then some { s with wire := r, down := s.down ++ [f] } else none
    else none
  | .finish => if s.receiving && s.wire.isEmpty then some { s with receiving := false } else none
  | .serve =>
    if s.parentIdle then
      match s.req with
      | [] => none
      | r :: rest => some { s with req := rest, replying := some r }
    else none
  | .reply =>
    match s.replying with
    | none => none
    | some r => if s.rep.length < cap then some { s with rep := s.rep ++ [r], replying := none } else none
  | .transmit =>
    if s.parentIdle then
      match s.up with
      | [] => none
      | m :: r => some { s with up := r, transmitted := s.transmitted ++ [m] }
    else none

/-- A sequence of steps. -/
def duoRun (cap : Nat) : Duo → List DuoEv → Option Duo
  | s, [] => some s
  | s, ev :: evs => (duoStep cap s ev).bind (fun s => duoRun cap s evs)

end Ladvd
