import Verif.Model.Main
/-!
# Start of the daemon: processes and privileges

/repo/src/main.c lines 215-270, /repo/src/child.c lines 50-161, /repo/src/parent.c lines 80-189 and the helpers in /repo/src/util.c, built for Linux
with libcap.  The code is modelled as a program that makes system calls; the kernel that answers them is described in `Verif.Spec.Start`.
-/

namespace Ladvd

/-- The capabilities named in the code and in the kernel's rules used here. -/
inductive Cap where
  | kill | netAdmin | netRaw | netBroadcast | setuid | setgid | sysChroot | sysResource | other (n : Nat)
  deriving Repr, DecidableEq

/-- Address family and type of a socket. -/
inductive SockKind where
  | unixSeqpacket | unixStream | inetDgram
  deriving Repr, DecidableEq

/-- A resource limit. -/
inductive Rlim where
  | nproc | fsize
  deriving Repr, DecidableEq

/-- The system calls made while starting.  Simplifications: `openPid`, `lockPid` and `writePid` concern `PACKAGE_PID_FILE`, the calls ending in
`Sock` concern `PACKAGE_SOCKET`; `cap_from_text` and `cap_set_proc` are one call; file descriptors and library initialisation (`tzset`, `openlog`,
`event_init`, `setproctitle`) are left out. -/
inductive Call where
  | daemon | openPid | lockPid | getpid | writePid (t : Bytes)
  | socketpair | setsockopt | fork
  | socket (k : SockKind) | umask (m : Nat) | unlinkSock | bindSock | listenSock | chmodSock (m : Nat) | chownSock (gid : Nat)
  | stat (p : Bytes) | chdir (p : Bytes) | chroot (p : Bytes)
  | setgroups (gs : List Nat) | setresgid (r e s : Nat) | setresuid (r e s : Nat)
  | setrlimit (r : Rlim) (cur max : Nat)
  | capSet (l : List Cap)
  | waitpid (p : Int) | kill (p : Int) (sig : Nat)
  deriving Repr, DecidableEq

/-- The answer of a call: a non-negative number, owner and mode of a file, or an error number. -/
inductive Ans where
  | ok (v : Nat) | st (uid mode : Nat) | err (e : Nat)
  deriving Repr, DecidableEq

/-- How a program ends: it enters its event loop, it exits with a code, or it dereferences a null pointer. -/
inductive End where
  | running | exited (code : Nat) | crashed
  deriving Repr, DecidableEq

/-- A program making system calls. -/
inductive Prog where
  | done (e : End)
  | call (c : Call) (k : Ans → Prog)

/-- `ENOENT`. -/
def ENOENT : Nat := 2
/-- `EPROTONOSUPPORT`. -/
def EPROTONOSUPPORT : Nat := 93
/-- `SIGTERM`. -/
def SIGTERM : Nat := 15

/-- The part of `parent_signal` for `SIGINT`, `SIGTERM` and `SIGCHLD`, /repo/src/parent.c lines 159-184: wait for or signal the process, remove the
control socket and exit.  Simplification: closing the capture sockets is left out. -/
def parentSignal (sig : Nat) (pid : Int) : Prog :=
  .call (.waitpid pid) fun a =>
    let quit : Prog := .call .unlinkSock fun _ => .done (.exited 0)
    match a with
    | .ok (_ + 1) => quit
    | _ => .call (.kill pid sig) fun _ => quit

/-- `__my_fatal`, /repo/src/util.c lines 66-78; `pid` is the global variable set by `fork`. -/
def myFatal (pid : Int) : Prog := if pid ≠ 0 then parentSignal SIGTERM pid else .done (.exited 1)

/-- A call whose failure is fatal. -/
def must (pid : Int) (c : Call) (k : Prog) : Prog :=
  .call c fun a =>
    match a with
    | .err _ => myFatal pid
    | _ => k

/-- `my_socketpair`, /repo/src/util.c lines 116-133. -/
def mySocketpair (k : Prog) : Prog :=
  must 0 .socketpair <| must 0 .setsockopt <| must 0 .setsockopt <| must 0 .setsockopt <| must 0 .setsockopt k

/-- `PATH_MAX`. -/
def PATH_MAX : Nat := 4096

/-- `S_ISDIR` on `st_mode`. -/
def isDir (mode : Nat) : Bool := (mode &&& 0o170000) == 0o040000

/-- The checks on one component, /repo/src/util.c lines 169-177. -/
def chrootCheck (component : Bytes) (k : Prog) : Prog :=
  .call (.stat component) fun a =>
    match a with
    | .st uid mode => if uid ≠ 0 ∨ (mode &&& 0o22) ≠ 0 then myFatal 0 else if !isDir mode then myFatal 0 else k
    | _ => myFatal 0

/-- The loop over the components, /repo/src/util.c lines 160-178; `cp` is the offset searched from and the list the rest of the path from there. -/
def chrootLoop (path : Bytes) : Bytes → Nat → Prog → Prog
  | [], _, k => chrootCheck path k
  | c :: cs, cp, k =>
    if c = 0x2f then chrootCheck (path.take (cp + 1)) (chrootLoop path cs (cp + 1) k)
    else chrootLoop path cs (cp + 1) k

/-- `my_chroot`, /repo/src/util.c lines 150-186. -/
def myChroot (path : Bytes) (k : Prog) : Prog :=
  if path.head? ≠ some 0x2f then myFatal 0
  else if PATH_MAX ≤ path.length then myFatal 0
  else chrootLoop path path 0 <| must 0 (.chdir path) <| must 0 (.chroot path) <| must 0 (.chdir (lit "/")) k

/-- `my_drop_privs`, /repo/src/util.c lines 189-212; a missing entry is a null pointer. -/
def myDropPrivs (pwd : Option (Nat × Nat)) (k : Prog) : Prog :=
  must 0 (.setgroups []) <|
    match pwd with
    | none => .done .crashed
    | some (uid, gid) => must 0 (.setresgid gid gid gid) <| must 0 (.setresuid uid uid uid) k

/-- `my_rlimit_child`, /repo/src/util.c lines 215-226. -/
def myRlimitChild (k : Prog) : Prog := must 0 (.setrlimit .nproc 0 0) <| must 0 (.setrlimit .fsize 0 0) k

/-- The group of the control socket, /repo/src/child.c lines 105-108; `old` is `old_umask`. -/
def controlChown (pwd : Option (Nat × Nat)) (old : Nat) (k : Prog) : Prog :=
  match pwd with
  | none => .done .crashed
  | some (_, gid) => must 0 (.chownSock gid) <| .call (.umask old) fun _ => k

/-- Removing, binding and protecting the control socket, /repo/src/child.c lines 89-108. -/
def controlBind (o : Opts) (pwd : Option (Nat × Nat)) (old : Nat) (k : Prog) : Prog :=
  .call .unlinkSock fun a =>
    let rest : Prog := must 0 .bindSock <|
      (fun k => if o.has OPT_RECV then must 0 .listenSock k else k) <| must 0 (.chmodSock 0o770) <| controlChown pwd old k
    match a with
    | .err e => if e ≠ ENOENT then myFatal 0 else rest
    | _ => rest

/-- The control socket, /repo/src/child.c lines 76-109; `S_IXUSR|S_IRWXG|S_IRWXO` is 0177. -/
def controlSocket (o : Opts) (pwd : Option (Nat × Nat)) (k : Prog) : Prog :=
  let rest : Prog := .call (.umask 0o177) fun a =>
    match a with
    | .ok old => controlBind o pwd old k
    | _ => controlBind o pwd 0 k
  .call (.socket .unixSeqpacket) fun a =>
    match a with
    | .err e => if e = EPROTONOSUPPORT then must 0 (.socket .unixStream) rest else myFatal 0
    | _ => rest

/-- The end of `child_init` before its first event, /repo/src/child.c lines 111-121: `netif_init` (/repo/src/netif.c lines 69-72) and dropping
privileges. -/
def childDrop (o : Opts) (dir : Bytes) (pwd : Option (Nat × Nat)) : Prog :=
  must 0 (.socket .inetDgram) <|
    if !o.has OPT_DEBUG then myChroot dir <| myDropPrivs pwd <| myRlimitChild <| .done .running else .done .running

/-- `child_init` up to the first event, /repo/src/child.c lines 50-128; `dir` is `PACKAGE_CHROOT_DIR`. -/
def childInit (o : Opts) (dir : Bytes) (pwd : Option (Nat × Nat)) : Prog :=
  if !(o.has OPT_DEBUG || o.has OPT_ONCE) then controlSocket o pwd (childDrop o dir pwd) else childDrop o dir pwd

/-- The capabilities `parent_init` keeps, /repo/src/parent.c lines 117-118. -/
def parentCaps : List Cap := [.netAdmin, .netRaw, .netBroadcast, .kill]

/-- `parent_init` up to its event loop, /repo/src/parent.c lines 80-152.  Simplification: the pcap header written to standard output in a debug run is
left out. -/
def parentInit (o : Opts) (child : Nat) : Prog :=
  must child (.socket .inetDgram) <|
    (fun k => if o.has OPT_DEBUG then k else must child (.capSet parentCaps) k) <|
      .call (.waitpid child) fun a =>
        match a with
        | .ok 0 => .done .running
        | _ => .done (.exited 1)

/-- The fork, /repo/src/main.c lines 247-277. -/
def forkProg (o : Opts) (dir : Bytes) (pwd : Option (Nat × Nat)) : Prog :=
  .call .fork fun a =>
    match a with
    | .ok 0 => childInit o dir pwd
    | .ok (p + 1) => parentInit o (p + 1)
    | _ => myFatal (-1)

/-- The text of the pid file, /repo/src/main.c line 233 (`pidstr` holds 16 bytes). -/
def pidText (pid : Nat) : Bytes := lit (toString pid) ++ [0x0a]

/-- From the backgrounding to the fork, /repo/src/main.c lines 218-245. -/
def startProg (o : Opts) (dir : Bytes) (pwd : Option (Nat × Nat)) : Prog :=
  (fun k => if o.has OPT_DAEMON then
      must 0 .daemon <| must 0 .openPid <| must 0 .lockPid <| .call .getpid fun a =>
        match a with
        | .ok pid => must 0 (.writePid (pidText pid)) k
        | _ => must 0 (.writePid (pidText 0)) k
    else k) <| mySocketpair <| mySocketpair <| forkProg o dir pwd

end Ladvd
