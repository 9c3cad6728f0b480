import Verif.Model.Ipc
/-!
# Model: beginning and end of the two processes

`Model/Ipc.lean` extended by what ends the processes: signals, errors and each other's end.  Signals that a process has a handler for are noted by the
event library and handled when the process is back in `event_dispatch` (interrupted system calls are restarted); the others take effect at
once.  The sockets between the processes are datagram sockets: a `write` to a process that has ended fails, a `read` from one waits for ever (see the
assumptions about the kernel in DESIGN.md).

Simplifications: those of `Model/Ipc.lean`; histories start when `child_init` has made the control socket; exits of the processes that do not depend on
each other or on signals (an `assert`, for instance) are the signals `kill` and the events `fatalChild` and `fatalParent`.
-/

namespace Ladvd

/-- The signals considered.  `kill` stands for every signal that ends a process without a handler. -/
inductive Sig where
  | hup | int | term | chld | stop | cont | kill
  deriving Repr, DecidableEq

/-- A process runs, is stopped by a signal, has left by `exit` with a status or was ended by a signal. -/
inductive ProcState where
  | running | stopped | exited (status : Nat) | killed
  deriving Repr, DecidableEq

/-- The process is no more. -/
def ProcState.ended : ProcState → Bool
  | .exited _ | .killed => true
  | _ => false

/-- Both processes with their sockets. -/
structure Life where
  duo : Duo := {}
  child : ProcState := .running
  parent : ProcState := .running
  /-- `child_init` has reached `event_dispatch` -/
  entered : Bool := false
  /-- `parent_init` has reached `event_dispatch` -/
  ready : Bool := false
  /-- signals noted for the unprivileged process -/
  childSigs : List Sig := []
  /-- signals noted for the privileged process -/
  parentSigs : List Sig := []
  /-- the control socket is in the file system -/
  sock : Bool := true
  deriving Repr, DecidableEq

/-- What happens. -/
inductive LifeEv where
  /-- a step of `Model/Ipc.lean` -/
  | duo (ev : DuoEv)
  /-- the unprivileged process gets to its event loop -/
  | enter
  /-- the privileged process gets to its event loop -/
  | loop
  /-- a signal from outside -/
  | sigChild (g : Sig)
  | sigParent (g : Sig)
  /-- handlers of signals -/
  | handleChild (g : Sig)
  | handleParent (g : Sig)
  /-- a fatal error -/
  | fatalChild
  | fatalParent
  deriving Repr, DecidableEq

/-- The unprivileged process ends, is stopped or continues; the kernel tells the privileged one, which takes notice if `parent_init` has set the handler,
/repo/src/parent.c line 138. -/
def Life.childTurns (s : Life) (p : ProcState) : Life :=
  { s with child := p, parentSigs := if s.ready && !s.parent.ended then s.parentSigs ++ [.chld] else s.parentSigs }

/-- The kernel delivers a signal to the unprivileged process.  Handlers are set with `-r` (`recv`) at the end of `child_init` for `SIGINT` and `SIGTERM`,
/repo/src/child.c lines 132-135.  `SIGCHLD` is ignored.  A stopped process notices other signals when it continues.  The privileged process is told when
the process is stopped or continues. -/
def Life.sendChild (recv : Bool) (s : Life) (g : Sig) : Life :=
  if s.child.ended then s
  else match g with
    | .chld => s
    | .kill => s.childTurns .killed
    | .stop => s.childTurns .stopped
    | .cont =>
      if s.child = .stopped then
        if s.childSigs.any (fun g => g == .hup || !(recv && s.entered)) then s.childTurns .killed else s.childTurns .running
      else s
    | g =>
      if s.child = .stopped then { s with childSigs := s.childSigs ++ [g] }
      else if recv && s.entered && g ≠ .hup then { s with childSigs := s.childSigs ++ [g] }
      else s.childTurns .killed

/-- `parent_signal` for `SIGINT`, `SIGTERM` and `SIGCHLD`, /repo/src/parent.c lines 158-184: a process that has ended is waited for, otherwise the signal is sent to it
(`sendChild` makes the distinction); the control socket is removed. -/
def Life.quit (recv : Bool) (s : Life) (g : Sig) : Life :=
  { s.sendChild recv g with parent := .exited 0, sock := false }

/-- Steps of `Model/Ipc.lean` made by the unprivileged process. -/
def DuoEv.ofChild : DuoEv → Bool
  | .start _ | .take _ | .act | .answer => true
  | _ => false

/-- One step, `none` if it is not possible.
* the unprivileged process: begins to handle an event only in its event loop; if it writes to a process that has ended, `my_fatale` makes it exit, /repo/src/child.c
  line 280, /repo/src/util.c lines 76 and 291
* `enter`: the end of `child_init`, /repo/src/child.c lines 123-157, which exits with `-o` (`once`)
* the privileged process: if it writes to a process that has ended, `my_fatal` calls `parent_signal`, /repo/src/parent.c lines 263 and 816, /repo/src/util.c lines 73-74
* `loop`: the end of `parent_init`, /repo/src/parent.c lines 137-152, which exits if the other process has ended already
* `sigParent`: handlers are set for `SIGCHLD`, `SIGINT`, `SIGTERM` and `SIGHUP`, /repo/src/parent.c lines 138-145; the last one does nothing, line 185
* `handleChild`: `child_free`, /repo/src/child.c lines 464-473
* `fatalChild`, `fatalParent`: `__my_fatal`, /repo/src/util.c lines 66-77 -/
def lifeStep (cap : Nat) (recv once : Bool) (s : Life) : LifeEv → Option Life
  | .duo (.arrive f) => (duoStep cap s.duo (.arrive f)).map (fun d => { s with duo := d })
  | .duo ev =>
    if ev.ofChild then
      if s.child = .running then
        match ev with
        | .act =>
          if s.parent.ended then (if s.duo.asking.isNone && !s.duo.todo.isEmpty then some (s.childTurns (.exited 1)) else none)
          else (duoStep cap s.duo .act).map (fun d => { s with duo := d })
        | .answer => (duoStep cap s.duo .answer).map (fun d => { s with duo := d })
        | ev => if s.entered then (duoStep cap s.duo ev).map (fun d => { s with duo := d }) else none
      else none
    else if s.parent = .running && s.ready then
      match ev with
      | .forward => if s.child.ended && s.duo.receiving && !s.duo.wire.isEmpty then some (s.quit recv .term)
          else (duoStep cap s.duo .forward).map (fun d => { s with duo := d })
      | .reply => if s.child.ended && s.duo.replying.isSome then some (s.quit recv .term)
          else (duoStep cap s.duo .reply).map (fun d => { s with duo := d })
      | ev => (duoStep cap s.duo ev).map (fun d => { s with duo := d })
    else none
  | .enter =>
    if s.child = .running && !s.entered && s.duo.childIdle then
      if once then some (s.childTurns (.exited 0)) else some { s with entered := true }
    else none
  | .loop =>
    if s.parent = .running && !s.ready then
      if s.child.ended then some { s with parent := .exited 1 } else some { s with ready := true }
    else none
  | .sigChild g => some (s.sendChild recv g)
  | .sigParent g =>
    if s.parent.ended then some s
    else match g with
      | .kill => some { s with parent := .killed }
      | .stop => some { s with parent := .stopped }
      | .cont => some { s with parent := .running }
      | .hup => if s.ready then some s else some { s with parent := .killed }
      | .chld => if s.ready then some { s with parentSigs := s.parentSigs ++ [.chld] } else some s
      | g => if s.ready then some { s with parentSigs := s.parentSigs ++ [g] } else some { s with parent := .killed }
  | .handleChild g =>
    if s.child = .running && s.entered && recv && s.duo.childIdle && s.childSigs.contains g then some (s.childTurns (.exited 0)) else none
  | .handleParent g =>
    if s.parent = .running && s.ready && s.duo.parentIdle && s.parentSigs.contains g then some (s.quit recv g) else none
  | .fatalChild => if s.child = .running then some (s.childTurns (.exited 1)) else none
  | .fatalParent => if s.parent = .running then some (s.quit recv .term) else none

/-- A sequence of steps. -/
def lifeRun (cap : Nat) (recv once : Bool) : Life → List LifeEv → Option Life
  | s, [] => some s
  | s, ev :: evs => (lifeStep cap recv once s ev).bind (fun s => lifeRun cap recv once s evs)

/-- The beginning, `child_send` is about to be called for the first time, /repo/src/child.c line 121; `acts` is what it will do. -/
def lifeStart (acts : List DuoAct) : Life := { duo := { todo := acts } }

end Ladvd
