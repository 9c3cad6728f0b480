import Verif.Model.Start
/-!
# The kernel's rules for the calls made while starting

After setresuid(2), setgroups(2), chroot(2), setrlimit(2), umask(2), bind(2), capabilities(7) and fcntl(2) on Linux.  Any call except `umask` and
`getpid` may in addition fail for a reason not modelled; every theorem ranges over all such failures.
-/

namespace Ladvd.Spec

/-- A process with the files it uses: its ids and groups, its capabilities (all for `none`), its root and working directory, its limits (`none`:
unlimited, otherwise soft and hard limit), the other files as `stat` reports them, mode and group of the control socket, and the pid file. -/
structure World where
  ruid : Nat := 0
  euid : Nat := 0
  suid : Nat := 0
  rgid : Nat := 0
  egid : Nat := 0
  sgid : Nat := 0
  groups : List Nat := []
  caps : Option (List Cap) := none
  root : Bytes := lit "/"
  cwd : Bytes := lit "/"
  mask : Nat := 0o22
  nproc : Option (Nat × Nat) := none
  fsize : Option (Nat × Nat) := none
  files : Bytes → Option (Nat × Nat) := fun _ => none
  sock : Option (Nat × Nat) := none
  bound : Bool := false
  listening : Bool := false
  pidfile : Bytes := []
  lockedElse : Bool := false
  locked : Bool := false
  pid : Nat := 1
  /-- what `fork` answers in the process that is followed -/
  forked : Nat := 0
  /-- the forked process has ended -/
  childGone : Bool := false
  /-- the processes signalled -/
  signals : List (Int × Nat) := []

/-- The process has a capability. -/
def World.has (w : World) (c : Cap) : Bool :=
  match w.caps with
  | none => true
  | some l => decide (c ∈ l)

/-- A path as seen from the root directory of the process. -/
def World.resolve (w : World) (p : Bytes) : Bytes :=
  if w.root = lit "/" then p else if p = lit "/" then w.root else w.root ++ p

/-- A new id may be set. -/
def idOk (c : Bool) (a b d x : Nat) : Bool := c || x == a || x == b || x == d

/-- The capabilities after the user ids changed: they are lost when none of the ids is root's any more. -/
def capsAfter (w : World) (r e s : Nat) : Option (List Cap) :=
  if (w.ruid = 0 ∨ w.euid = 0 ∨ w.suid = 0) ∧ r ≠ 0 ∧ e ≠ 0 ∧ s ≠ 0 then some [] else w.caps

/-- A limit may be set: raising the hard limit needs a capability. -/
def limitOk (w : World) (old : Option (Nat × Nat)) (cur max : Nat) : Bool :=
  decide (cur ≤ max) && (w.has .sysResource || (match old with | none => true | some (_, m) => decide (max ≤ m)))

/-- A mode is that of a directory: the four bits of the file type are 4. -/
def directory (mode : Nat) : Bool := mode / 4096 % 16 == 4

/-- The answer to a call and its effect. -/
def World.sys (w : World) : Call → Ans × World
  | .daemon => (.ok 0, w)
  | .openPid => (.ok 3, w)
  | .lockPid => if w.lockedElse then (.err 11, w) else (.ok 0, { w with locked := true })
  | .getpid => (.ok w.pid, w)
  | .writePid t => (.ok t.length, { w with pidfile := t ++ w.pidfile.drop t.length })
  | .socketpair => (.ok 0, w)
  | .setsockopt => (.ok 0, w)
  | .fork => (.ok w.forked, w)
  | .socket _ => (.ok 4, w)
  | .umask m => (.ok w.mask, { w with mask := m &&& 0o777 })
  | .unlinkSock =>
    match w.sock with
    | none => (.err ENOENT, w)
    | some _ => (.ok 0, { w with sock := none })
  | .bindSock =>
    match w.sock with
    | none => (.ok 0, { w with sock := some (0o777 ^^^ (0o777 &&& w.mask), w.egid), bound := true })
    | some _ => (.err 98, w)
  | .listenSock => if w.bound then (.ok 0, { w with listening := true }) else (.err 22, w)
  | .chmodSock m =>
    match w.sock with
    | none => (.err ENOENT, w)
    | some (_, g) => (.ok 0, { w with sock := some (m, g) })
  | .chownSock gid =>
    match w.sock with
    | none => (.err ENOENT, w)
    | some (m, _) => (.ok 0, { w with sock := some (m, gid) })
  | .stat p =>
    match w.files (w.resolve p) with
    | none => (.err ENOENT, w)
    | some (u, m) => (.st u m, w)
  | .chdir p =>
    match w.files (w.resolve p) with
    | none => (.err ENOENT, w)
    | some (_, m) => if directory m then (.ok 0, { w with cwd := w.resolve p }) else (.err 20, w)
  | .chroot p =>
    match w.files (w.resolve p) with
    | none => (.err ENOENT, w)
    | some (_, m) => if directory m && w.has .sysChroot then (.ok 0, { w with root := w.resolve p }) else (.err 1, w)
  | .setgroups gs => if w.has .setgid then (.ok 0, { w with groups := gs }) else (.err 1, w)
  | .setresgid r e s =>
    if [r, e, s].all (idOk (w.has .setgid) w.rgid w.egid w.sgid) then (.ok 0, { w with rgid := r, egid := e, sgid := s }) else (.err 1, w)
  | .setresuid r e s =>
    if [r, e, s].all (idOk (w.has .setuid) w.ruid w.euid w.suid) then
      (.ok 0, { w with ruid := r, euid := e, suid := s, caps := capsAfter w r e s })
    else (.err 1, w)
  | .setrlimit .nproc cur max => if limitOk w w.nproc cur max then (.ok 0, { w with nproc := some (cur, max) }) else (.err 1, w)
  | .setrlimit .fsize cur max => if limitOk w w.fsize cur max then (.ok 0, { w with fsize := some (cur, max) }) else (.err 1, w)
  | .capSet l => if l.all w.has then (.ok 0, { w with caps := some l }) else (.err 1, w)
  | .waitpid p => if p = w.forked ∧ w.forked ≠ 0 then (.ok (if w.childGone then w.forked else 0), w) else (.err 10, w)
  | .kill p s => (.ok 0, { w with signals := w.signals ++ [(p, s)] })

/-- The calls that cannot fail. -/
def Call.sure : Call → Bool
  | .umask _ => true
  | .getpid => true
  | _ => false

/-- The answer to the `n`-th call when `deny` says which calls fail additionally. -/
def World.step (deny : Nat → Option Nat) (n : Nat) (w : World) (c : Call) : Ans × World :=
  match deny n with
  | some e => if Call.sure c then w.sys c else (.err e, w)
  | none => w.sys c

/-- A run of a program. -/
def run (deny : Nat → Option Nat) : Prog → Nat → World → End × World
  | .done e, _, w => (e, w)
  | .call c k, n, w => run deny (k (w.step deny n c).1) (n + 1) (w.step deny n c).2

/-- The states a program goes through, after each call. -/
def trail (deny : Nat → Option Nat) : Prog → Nat → World → List World
  | .done _, _, w => [w]
  | .call c k, n, w => w :: trail deny (k (w.step deny n c).1) (n + 1) (w.step deny n c).2

/-- Any further calls. -/
def calls (deny : Nat → Option Nat) : List Call → Nat → World → World
  | [], _, w => w
  | c :: cs, n, w => calls deny cs (n + 1) (w.step deny n c).2

/-- A directory only root can change. -/
def safeDir : Option (Nat × Nat) → Prop
  | some (0, m) => m &&& 0o22 = 0 ∧ directory m = true
  | _ => False

instance (x : Option (Nat × Nat)) : Decidable (safeDir x) := by unfold safeDir; split <;> infer_instance

/-- A path and every directory on the way to it can be changed by root only. -/
def Trusted (files : Bytes → Option (Nat × Nat)) (path : Bytes) : Prop :=
  safeDir (files path) ∧ ∀ n, n < path.length → path.getD n 0 = 0x2f → safeDir (files (path.take (n + 1)))

/-- Nothing of root's is left: ids, groups, limits, and the process is confined to a directory. -/
structure Confined (w : World) (uid gid : Nat) (dir : Bytes) : Prop where
  ruid : w.ruid = uid
  euid : w.euid = uid
  suid : w.suid = uid
  rgid : w.rgid = gid
  egid : w.egid = gid
  sgid : w.sgid = gid
  groups : w.groups = []
  root : w.root = dir
  nproc : w.nproc = some (0, 0)
  fsize : w.fsize = some (0, 0)

/-- Nobody but root, the group of the starting process and the group of the daemon has access to the control socket. -/
def SockSafe (w : World) (gid : Option Nat) (x : World) : Prop :=
  x.bound = true → ∃ m g, x.sock = some (m, g) ∧ m &&& 7 = 0 ∧ (m = 0o600 ∨ g = w.egid ∨ some g = gid)

/-- Several processes that share the pid file: the rest of the program of each, and which of them holds the lock. -/
structure System where
  procs : Nat → Option Prog
  holder : Option Nat

/-- The other processes stay, one continues with a program or ends. -/
def System.set (s : System) (i : Nat) (p : Option Prog) : Nat → Option Prog := fun j => if j = i then p else s.procs j

/-- One step of one process: a daemon is started in the background, it takes the lock that no other process holds, taking the lock fails, another call
is answered in any way (`fork` answers with the number of the new process, which is not followed here), or the process ends, which releases the lock. -/
inductive SysStep : System → System → Prop
  | start (s : System) (i : Nat) (o : Opts) (dir : Bytes) (pwd : Option (Nat × Nat)) : s.procs i = none → o.testBit 0 = true →
      SysStep s ⟨s.set i (some (startProg o dir pwd)), s.holder⟩
  | lock (s : System) (i : Nat) (k : Ans → Prog) : s.procs i = some (.call .lockPid k) → (s.holder = none ∨ s.holder = some i) →
      SysStep s ⟨s.set i (some (k (.ok 0))), some i⟩
  | refused (s : System) (i : Nat) (k : Ans → Prog) (e : Nat) : s.procs i = some (.call .lockPid k) →
      SysStep s ⟨s.set i (some (k (.err e))), s.holder⟩
  | call (s : System) (i : Nat) (c : Call) (k : Ans → Prog) (a : Ans) : s.procs i = some (.call c k) → c ≠ .lockPid → (c = .fork → a ≠ .ok 0) →
      SysStep s ⟨s.set i (some (k a)), s.holder⟩
  | ends (s : System) (i : Nat) : SysStep s ⟨s.set i none, if s.holder = some i then none else s.holder⟩

/-- The states reached from a machine on which no daemon runs. -/
inductive SysReach : System → Prop
  | init : SysReach ⟨fun _ => none, none⟩
  | step (s s' : System) : SysReach s → SysStep s s' → SysReach s'

/-- Whenever the program forks during a run, the fork succeeds. -/
def forkOk (deny : Nat → Option Nat) : Prog → Nat → World → Prop
  | .done _, _, _ => True
  | .call c k, n, w => (c = .fork → deny n = none) ∧ forkOk deny (k (w.step deny n c).1) (n + 1) (w.step deny n c).2

end Ladvd.Spec
