import Verif.Model.Cli
import Verif.Model.Parent
/-!
# The connection between the daemon and its client

The bytes of the control connection: what `child_cli_write` (/repo/src/child.c lines 496-530) writes and what the loop of `cli_main`
(/repo/src/cli.c line 176) reads, over a socket that keeps message boundaries and over a byte stream.
-/

namespace Ladvd

/-- The type of the control socket, /repo/src/child.c lines 78-83 and /repo/src/cli.c lines 149-155: `SOCK_SEQPACKET`, or `SOCK_STREAM`
where the former is not supported. -/
inductive ConnKind where
  | packets | stream
  deriving Repr, DecidableEq

/-- The choice of the type, /repo/src/child.c lines 78-83 and /repo/src/cli.c lines 149-155: `first` and `second` are the values of `errno`
after the two calls of `socket`, 0 if the call succeeds; 93 is `EPROTONOSUPPORT`.  `none` is `my_fatale`, also inside `my_socket`,
/repo/src/util.c lines 107-114. -/
def connOpen (first second : Nat) : Option ConnKind :=
  if first = 0 then some .packets
  else if first = 93 then (if second = 0 then some .stream else none)
  else none

/-! ## The layout of a message -/

/-- A signed 64 bit number in host byte order: `time_t` and `ssize_t`. -/
def int64Bytes (i : Int) : Bytes := leBytes 8 (i % 2 ^ 64).toNat

/-- The number stored in eight bytes. -/
def int64Of (b : Bytes) : Int := if leNat b < 2 ^ 63 then leNat b else (leNat b : Int) - 2 ^ 64

/-- The first `PARENT_MSG_MAX` bytes of `struct parent_msg`, /repo/src/common.h lines 279-300, as written by /repo/src/child.c line 512 for an
entry: `index`, `name` (filled in by `strlcpy`, /repo/src/child.c line 318), `proto`, padding, `received`, `len`, `msg`.  Simplification: padding
and the bytes behind the name are zero. -/
def entryBytes (e : Entry) : Bytes :=
  leBytes 4 e.index ++ ((e.name.take 15 ++ List.replicate 16 0).take 16 ++ (leBytes 1 e.proto ++ (List.replicate 3 0 ++
    (int64Bytes e.received ++ (int64Bytes e.len ++ e.msg)))))

/-- The members of the structure after a `read` of `PARENT_MSG_MAX` bytes, /repo/src/cli.c line 176. -/
def cliInOf (b : Bytes) : CliIn where
  index := leNat (b.take 4)
  name := ((b.drop 4).take 16).takeWhile (· ≠ 0)
  proto := leNat ((b.drop 20).take 1)
  received := int64Of ((b.drop 24).take 8)
  len := int64Of ((b.drop 32).take 8)
  msg := b.drop 40

/-! ## Writing -/

/-- Result of one `write` to a client: a number of bytes was accepted, the call would block, the client is gone (`EPIPE`), or another error. -/
inductive ConnRes where
  | wrote (n : Nat) | again | gone | err
  deriving Repr, DecidableEq

/-- How the code sees the result: everything except -1 counts as success, /repo/src/child.c lines 512-517. -/
def ConnRes.seen : ConnRes → WriteRes
  | .wrote _ => .ok
  | .again => .again
  | .gone => .err
  | .err => .err

/-- The data of one successful `write` of `b`: a message is accepted whole, a stream may take the first `n` bytes only. -/
def connData (k : ConnKind) (n : Nat) (b : Bytes) : Bytes :=
  match k with
  | .packets => b
  | .stream => b.take n

/-- The data written by the `for` loop of `child_cli_write`, /repo/src/child.c lines 510-524, from an entry on; and whether the process is killed:
`pipe` says that a `write` to a departed client raises `SIGPIPE`, which is neither caught nor ignored anywhere in /repo/src. -/
def connLoop (k : ConnKind) (pipe : Bool) : List Entry → List ConnRes → Bool × List Bytes
  | [], _ => (false, [])
  | _ :: _, [] => (false, [])
  | e :: es, w :: ws =>
    match w with
    | .wrote n => let (c, s) := connLoop k pipe es ws; (c, connData k n (entryBytes e) :: s)
    | .gone => (pipe, [])
    | .err => (false, [])
    | .again => (false, [])

/-- The unprivileged process with its connections: `data` holds the data written, with the session. -/
structure Server where
  child : Child := {}
  data : List (Nat × Bytes) := []
  deriving Repr, DecidableEq

/-- The outcome of an event: the process goes on, is killed by a signal, or runs into an error of the program itself. -/
inductive Served where
  | on (s : Server)
  | killed
  | wrong
  deriving Repr, DecidableEq

/-- Whether a call of `child_cli_write`, /repo/src/child.c lines 496-530, is ended by a signal, and the data it writes. -/
def connPlan (k : ConnKind) (pipe : Bool) (sid : Nat) (ws : Option (List ConnRes)) (c : Child) : Bool × List Bytes :=
  match c.sessions.find? (fun t => t.sid == sid), ws with
  | some sess, some ws =>
    match cliStart c sess with
    | .ok (_, suffix) => connLoop k pipe suffix ws
    | _ => (false, [])
  | _, _ => (false, [])

/-- The outcome for a result of the model without connections and the data written. -/
def Served.of (s : Server) (d : List (Nat × Bytes)) : Res Child → Served
  | .ok c => .on ⟨c, s.data ++ d⟩
  | _ => .wrong

/-- `child_cli_write`, /repo/src/child.c lines 496-530, with the data written; see `cliWrite`. -/
def connWrite (k : ConnKind) (pipe : Bool) (sid : Nat) (ws : Option (List ConnRes)) (s : Server) : Served :=
  if (connPlan k pipe sid ws s.child).1 then .killed
  else .of s ((connPlan k pipe sid ws s.child).2.map (fun b => (sid, b))) (cliWrite sid (ws.map (·.map ConnRes.seen)) s.child)

/-- The events of the process: `ChildOp`, with the system's view of `write`. -/
inductive ServOp where
  | recv (now : Option Int) (r : RawMsg)
  | expire (now : Int)
  | fetch (l : List Netif)
  | accept
  | write (sid : Nat) (ws : Option (List ConnRes))
  deriving Repr, DecidableEq

/-- The same event as the code sees it. -/
def ServOp.seen : ServOp → ChildOp
  | .recv now r => .recv now r
  | .expire now => .expire now
  | .fetch l => .fetch l
  | .accept => .accept
  | .write sid ws => .write sid (ws.map (·.map ConnRes.seen))

/-- One event, /repo/src/child.c line 157. -/
def servStep (o : Opts) (k : ConnKind) (pipe : Bool) (s : Server) : ServOp → Served
  | .write sid ws => connWrite k pipe sid ws s
  | .recv now r => .of s [] (childStep o s.child (.recv now r))
  | .expire now => .of s [] (childStep o s.child (.expire now))
  | .fetch l => .of s [] (childStep o s.child (.fetch l))
  | .accept => .of s [] (childStep o s.child .accept)

/-- A sequence of events. -/
def servRun (o : Opts) (k : ConnKind) (pipe : Bool) : Server → List ServOp → Served
  | s, [] => .on s
  | s, op :: ops =>
    match servStep o k pipe s op with
    | .on s => servRun o k pipe s ops
    | r => r

/-- The data written to one client. -/
def Server.conn (s : Server) (sid : Nat) : List Bytes := (s.data.filter (fun p => p.1 == sid)).map (·.2)

/-! ## Reading -/

/-- The calls of `read` by the client, /repo/src/cli.c line 176, on a socket keeping boundaries: one message each, cut to the size of the
buffer.  The loop ends with a message of another size, or at the end of the connection. -/
def readPackets : List Bytes → List Bytes
  | [] => []
  | b :: bs => if (b.take PARENT_MSG_MAX).length = PARENT_MSG_MAX then b.take PARENT_MSG_MAX :: readPackets bs else []

/-- The same on a stream: the `i`th call finds at most `avail i` of the bytes `b`.  `fuel` bounds the number of calls. -/
def readStream (avail : Nat → Nat) : Nat → Nat → Bytes → List Bytes
  | 0, _, _ => []
  | fuel + 1, i, b =>
    let r := b.take (min (avail i) PARENT_MSG_MAX)
    if r.length = PARENT_MSG_MAX then r :: readStream avail fuel (i + 1) (b.drop PARENT_MSG_MAX) else []

/-- The messages the client's loop works on, /repo/src/cli.c line 176, for the data written to it. -/
def connRead (k : ConnKind) (avail : Nat → Nat) (data : List Bytes) : List CliIn :=
  match k with
  | .packets => (readPackets data).map cliInOf
  | .stream => (readStream avail (data.flatten.length + 1) 0 data.flatten).map cliInOf

end Ladvd
