import Verif.Spec.Client
/-!
# Several daemons on one host

The programs of `Model/Start.lean` share the control socket and the lock on the pid file.  A start runs the program of /repo/src/main.c lines 218-277 in
the privileged process and that of /repo/src/child.c lines 50-128 in the other one, an end `parent_signal`, /repo/src/parent.c lines 159-184.
Simplification: a start is not interleaved with other events.
-/

namespace Ladvd.Spec

/-- A host: mode and group of the file with the name of the control socket, the daemon that made it, the daemon holding the lock on the pid file, and
the daemons running with their options. -/
structure Site where
  sock : Option (Nat × Nat) := none
  owner : Option Nat := none
  lock : Option Nat := none
  up : List (Nat × Opts) := []
  deriving Repr, DecidableEq

/-- A start: the number given to the daemon, its options, its directory and user, what else the processes find (`base`), and which calls fail in addition in
the privileged process and in the other one. -/
structure Launch where
  id : Nat
  o : Opts
  dir : Bytes
  pwd : Option (Nat × Nat)
  base : World
  denyP : Nat → Option Nat
  denyC : Nat → Option Nat

/-- What happens on a host: a daemon is started; it is told to end, or its unprivileged process ends; both its processes are killed. -/
inductive SiteEvent where
  | start (l : Launch)
  | stop (i : Nat)
  | kill (i : Nat)

/-- What a new process finds. -/
def Site.world (s : Site) (base : World) : World :=
  { base with sock := s.sock, bound := false, listening := false, lockedElse := s.lock.isSome, locked := false }

/-- A daemon is started.  If the unprivileged process does not reach its first event, the privileged one is told so by the signal 17, `SIGCHLD`. -/
def Site.start (s : Site) (l : Launch) : Site :=
  match run l.denyP (startProg l.o l.dir l.pwd) 0 { s.world l.base with forked := 1 } with
  | (.running, p) =>
    match run l.denyC (childInit l.o l.dir l.pwd) 0 { s.world l.base with sock := p.sock, forked := 0 } with
    | (.running, c) =>
      { sock := c.sock, owner := if c.bound then some l.id else s.owner, lock := if p.locked then some l.id else s.lock, up := (l.id, l.o) :: s.up }
    | (_, c) => { s with sock := (run (fun _ => none) (parentSignal 17 1) 0 { p with sock := c.sock, childGone := true }).2.sock }
  | (_, p) => { s with sock := p.sock }

/-- A daemon has ended: its lock is gone, its socket has nobody behind it. -/
def Site.gone (s : Site) (i : Nat) : Site :=
  { s with owner := if s.owner = some i then none else s.owner, lock := if s.lock = some i then none else s.lock, up := s.up.filter (fun x => x.1 != i) }

/-- One event. -/
def Site.step (s : Site) : SiteEvent → Site
  | .start l => s.start l
  | .stop i =>
    if s.up.any (fun x => x.1 == i) then
      { s.gone i with sock := (run (fun _ => none) (parentSignal 15 1) 0 { sock := s.sock, forked := 1 }).2.sock }
    else s
  | .kill i => if s.up.any (fun x => x.1 == i) then s.gone i else s

/-- A sequence of events. -/
def Site.run (s : Site) (es : List SiteEvent) : Site := es.foldl Site.step s

/-- Clients reach the daemon `i`: it is running and receives, and the name of the control socket leads to it. -/
def Site.Reaches (s : Site) (i : Nat) : Prop :=
  s.sock.isSome = true ∧ s.owner = some i ∧ ∃ o, (i, o) ∈ s.up ∧ o.testBit 2 = true

/-- Daemons are started in the background, without `-f` and `-d`, from the root directory of the host. -/
def Background : SiteEvent → Prop
  | .start l => l.o.testBit 0 = true ∧ l.o.testBit 6 = false ∧ l.base.root = lit "/"
  | _ => True

/-- The event is the end of the daemon `i`. -/
def EndOf (i : Nat) : SiteEvent → Prop
  | .start _ => False
  | .stop j => j = i
  | .kill j => j = i

end Ladvd.Spec
