import Verif.Model.Cli
/-!
# Model: the log of the unprivileged process

What the administrator reads about neighbours: the messages of level `CRIT` of `child_queue` and `child_expire`, and how `my_vlog` writes
them.  The messages of level `INFO` and below, and those of other functions, are not modelled.
-/

namespace Ladvd

/-- The messages, /repo/src/child.c lines 382-383, 429-430 and 406-407. -/
inductive LogLine where
  | newPeer (host : Bytes) (proto : Nat) (iface : Bytes)
  | removing (host : Bytes) (proto : Nat)
  | enabling (proto : Nat) (iface : Bytes)
  deriving Repr, DecidableEq

/-- The text after expansion of `%s`, /repo/src/child.c lines 382-383, 429-430 and 406-407. -/
def LogLine.text : LogLine → Bytes
  | .newPeer h p i => lit "new peer " ++ h ++ lit " (" ++ protoName p ++ lit ") on interface " ++ i
  | .removing h p => lit "removing peer " ++ h ++ lit " (" ++ protoName p ++ lit ")"
  | .enabling p i => lit "enabling " ++ protoName p ++ lit " on interface " ++ i

/-- The function that logs, for `__func__` in /repo/src/util.h line 32. -/
def LogLine.func : LogLine → Bytes
  | .removing .. => lit "child_expire"
  | _ => lit "child_queue"

/-- The removal loop of `child_expire`, /repo/src/child.c lines 420-430. -/
def expireLog (now : Int) (queue : List Entry) : List LogLine :=
  (queue.filter (fun e => !keeps now e)).filterMap (fun e => e.peer.hostname.map (fun h => .removing h e.proto))

/-- A new entry, /repo/src/child.c lines 367-384. -/
def newLog (netif : Netif) (e : Entry) (queue : List Entry) : List LogLine :=
  if (queueScan e.index e.proto (e.msg.take 12) queue 0 none).1.isSome then []
  else (e.peer.hostname.map (fun h => .newPeer h e.proto netif.name)).toList

/-- Automatic enabling of a protocol, /repo/src/child.c lines 396-408. -/
def enableLog (o : Opts) (netif subif : Netif) (e : Entry) : List LogLine :=
  if !o.has OPT_AUTO || netif.protos.testBit e.proto then []
  else if o.has OPT_ARGV && subif.argv == 0 && netif.argv == 0 then []
  else [.enabling e.proto netif.name]

/-- `child_queue` once the message is complete, /repo/src/child.c lines 334-408: the messages it and `child_expire` write. -/
def storeLog (o : Opts) (now : Int) (subif : Netif) (e : Entry) (st : Child) : List LogLine :=
  let netif := parentOf st.netifs subif
  newLog netif e st.queue ++ (if e.ttl = 0 then expireLog now (queuePut st.queue e) else enableLog o netif subif e)

/-- `child_queue`, /repo/src/child.c lines 298-409: the messages written. -/
def queueLog (o : Opts) (now : Option Int) (r : RawMsg) (st : Child) : List LogLine :=
  if r.size < PARENT_MSG_MIN ∨ (r.size : Int) ≠ PARENT_MSG_MIN + r.len then []
  else
    match now, Proto.ofNum r.proto, netifByIndex st.netifs r.index with
    | some now, some p, some subif =>
      if st.netifs.any (fun n => n.hwaddr == (r.msg.drop 6).take 6) then []
      else
        match p.decode false (r.msg ++ [1, 0]) r.len.toNat { proto := r.proto } with
        | .ok (m, n) =>
          if n = 0 then []
          else
            storeLog o now subif
              { id := st.nextId, index := r.index, name := subif.name, proto := m.proto,
                received := (if m.ttl ≠ 0 then now else r.received),
                len := r.len.toNat, msg := r.msg, ttl := m.ttl, peer := m.peer, lock := 0 } st
        | _ => []
    | _, _, _ => []

/-- One event, /repo/src/child.c line 157. -/
def childLog (o : Opts) (st : Child) : ChildOp → List LogLine
  | .recv now r => queueLog o now r st
  | .expire now => expireLog now st.queue
  | _ => []

/-- A sequence of events, /repo/src/child.c line 157. -/
def childRunLog (o : Opts) : Child → List ChildOp → List LogLine
  | _, [] => []
  | st, op :: ops =>
    childLog o st op ++ (match childStep o st op with
      | .ok st' => childRunLog o st' ops
      | _ => [])

/-! ## Writing -/

/-- `loglevel` after a number of `-v` options, /repo/src/util.c line 28 and /repo/src/main.c line 145.  The conversion of the sum to
`int8_t` wraps around (implementation-defined, as gcc and clang do it). -/
def logLevel (vs : Nat) : Int := (BitVec.ofNat 8 vs).toInt

/-- The places that messages go to: `vsyslog` with a priority, or the standard error. -/
inductive LogOut where
  | syslog (prio : Nat) (text : Bytes)
  | stderr (text : Bytes)
  deriving Repr, DecidableEq

/-- `__my_log` and `my_vlog`, /repo/src/util.c lines 32-63, for a message without `err`: `LOG_INFO` is 6, `CRIT` 0, `DEBUG` 3. -/
def myLog (o : Opts) (level prio : Int) (func text : Bytes) : List LogOut :=
  if prio > level then []
  else if o.has OPT_DAEMON then [.syslog 6 text]
  else [.stderr ((if level = 3 then func ++ lit ": " else []) ++ text ++ [0x0a])]

/-- What a list of messages of level `CRIT` writes, /repo/src/util.c lines 54-63. -/
def writeLog (o : Opts) (level : Int) (l : List LogLine) : List LogOut := l.flatMap (fun m => myLog o level 0 m.func m.text)

end Ladvd
