import Verif.Model.Filter
import Verif.Model.Netif
/-!
# The unprivileged process: neighbour table, interface descriptions, client sessions

/repo/src/child.c lines 298-530 and the helpers of /repo/src/util.c it uses.
-/

namespace Ladvd

/-- `struct parent_msg` as kept in `mqueue`, /repo/src/common.h lines 279-302.  `id` stands for the address of the
allocation; addresses are never reused here, so that a stale pointer is recognisable.  `msg` is the whole 1518 byte array. -/
structure Entry where
  id : Nat
  index : Nat
  name : Bytes := []
  proto : Nat
  received : Int
  len : Nat
  msg : Bytes
  ttl : Nat
  peer : Peer
  lock : Nat
  deriving Repr, DecidableEq

/-- `struct child_session`, /repo/src/child.h lines 34-37; `msg` is the pointer to the next entry to send.  `sid` is
the address of the allocation. -/
structure Session where
  sid : Nat
  msg : Option Nat := none
  deriving Repr, DecidableEq

/-- The global state of the process, /repo/src/child.c lines 41-45, with the pending client sessions.
`out` and `sent` are not in the code: they record the description requests made to the privileged process and the
entries written to clients. -/
structure Child where
  netifs : List Netif := []
  queue : List Entry := []
  sessions : List Session := []
  nextId : Nat := 0
  out : List (Nat × Bytes) := []
  sent : List (Nat × Entry) := []
  deriving Repr, DecidableEq

/-! ## Helpers of util.c -/

/-- ASCII lower case, as used by `strcasestr` in the C locale (libc). -/
def toLower (c : UInt8) : UInt8 := if 0x41 ≤ c ∧ c ≤ 0x5a then c + 0x20 else c

/-- The table of `portname_abbr`, /repo/src/util.c lines 444-445. -/
def mediaTypes : List Bytes := [lit "FastEthernet", lit "GigabitEthernet", lit "TenGigabitEthernet"]

/-- The loop of `portname_abbr`, /repo/src/util.c lines 449-455.  `strstr(s, m) == s` holds iff `m` is a prefix of `s`.
`none` if no media type matches. -/
def abbrLoop (s : Bytes) : List Bytes → Option Bytes
  | [] => none
  | m :: ms => if m.isPrefixOf s then some (s.take 2 ++ s.drop m.length) else abbrLoop s ms

/-- `portname_abbr`, /repo/src/util.c lines 442-461, on the C string `s`. -/
def portnameAbbr (s : Bytes) : Bytes :=
  match abbrLoop s mediaTypes with
  | some r => r
  | none =>
    if (lit "ethernet").isPrefixOf (s.map toLower) then s.take 3 ++ s.drop (lit "ethernet").length else s

/-- The local variables of the loop in `netif_descr`, /repo/src/util.c lines 375-381. -/
structure DescrAcc where
  peer : Option Bytes := none
  suffix : Option Bytes := none
  paddr : Bytes := [0, 0, 0, 0, 0, 0]
  peers : Nat := 0
  deriving Repr, DecidableEq

/-- One iteration of the loop in `netif_descr`, /repo/src/util.c lines 387-405. -/
def descrStep (useDescr : Bool) (index : Nat) (a : DescrAcc) (q : Entry) : DescrAcc :=
  if index ≠ q.index then a
  else
    let peer := match a.peer, q.peer.hostname with
      | none, some h => some (h.takeWhile (· ≠ 0x2e))
      | p, _ => p
    let sfx := if useDescr then q.peer.portdescr else q.peer.portname
    let suffix := match a.suffix, sfx with
      | none, some s => some s
      | p, _ => p
    let src := (q.msg.drop 6).take 6
    if a.paddr = src then { a with peer := peer, suffix := suffix }
    else ⟨peer, suffix, src, (a.peers + 1) % 65536⟩

/-- `snprintf(descr, IFDESCRSIZE, ...)`: at most 63 characters. -/
def snprintf64 (s : Bytes) : Bytes := s.take 63

/-- The text computed by `netif_descr`, /repo/src/util.c lines 374-423. -/
def descrText (o : Opts) (index : Nat) (queue : List Entry) : Bytes :=
  let a := queue.foldl (descrStep (o.has OPT_USEDESCR) index) {}
  if a.peers = 0 then []
  else if a.peers = 1 then
    match a.peer, a.suffix.map portnameAbbr with
    | some p, some s => snprintf64 (lit "connected to " ++ p ++ lit " (" ++ s ++ lit ")")
    | some p, none => snprintf64 (lit "connected to " ++ p)
    | none, _ => []
  else snprintf64 (lit "connected to " ++ decimal16 a.peers ++ lit " peers")

/-- `netif_descr`, /repo/src/util.c lines 374-440: the `PARENT_DESCR` request made, if any.  The request's buffer holds
the text and its NUL, `len` is one more than the length of the text. -/
def netifDescr (o : Opts) (n : Netif) (queue : List Entry) : Option (Nat × Bytes) :=
  let d := descrText o n.index queue
  if d = n.description then none else some (n.index, d)

/-- `while ((subif = subif_iter(subif, netif)) != NULL)`, e.g. /repo/src/child.c line 196: the ports visited.  `fuel`
bounds the number of iterations; running out is `stuck`. -/
def subifLoop (l : List Netif) (netif : Netif) : Nat → Option Netif → Res (List Netif)
  | 0, _ => .stuck
  | fuel + 1, cur =>
    match subifIter l cur netif with
    | none => .ok []
    | some s => do
      let rest ← subifLoop l netif fuel (some s)
      pure (s :: rest)

/-- The ports of an interface, in order. -/
def ports (l : List Netif) (netif : Netif) : Res (List Netif) := subifLoop l netif (l.length + 2) none

/-- `netif_protos`, /repo/src/util.c lines 360-372: the new value of `netif->protos`, an `uint8_t`. -/
def netifProtos (l : List Netif) (netif : Netif) (queue : List Entry) : Res Nat := do
  let ps ← ports l netif
  pure ((ps.foldl (fun acc s =>
    queue.foldl (fun acc q => if s.index = q.index then acc ||| (1 <<< q.proto) else acc) acc) 0) % 256)

/-- Assignment through a `struct netif *`: the interfaces with this index are changed. -/
def setNetif (l : List Netif) (i : Nat) (f : Netif → Netif) : List Netif :=
  l.map (fun n => if n.index = i then f n else n)

/-- `subif->parent` if set, else `subif`, /repo/src/child.c lines 335-339 and 445-449. -/
def parentOf (l : List Netif) (s : Netif) : Netif := ((s.parent).bind (netifByIndex l)).getD s

/-! ## Expiry -/

/-- The two `continue` conditions of `child_expire`, /repo/src/child.c lines 422-425. -/
def keeps (now : Int) (e : Entry) : Bool := decide (e.received + (e.ttl : Int) ≥ now) || decide (e.lock ≠ 0)

/-- The interface update loop of `child_expire`, /repo/src/child.c lines 440-461; `is` are the indexes of the
interfaces still to be visited. -/
def updateNetifs (o : Opts) : List Nat → Child → Res Child
  | [], st => .ok st
  | i :: is, st =>
    match netifByIndex st.netifs i with
    | none => updateNetifs o is st
    | some subif =>
      if subif.update = 0 then updateNetifs o is st
      else do
        let netif := parentOf st.netifs subif
        let st ← if o.has OPT_AUTO then do
            let p ← netifProtos st.netifs netif st.queue
            pure { st with netifs := setNetif st.netifs netif.index (fun n => { n with protos := p }) }
          else pure st
        let st := if o.has OPT_IFDESCR then { st with out := st.out ++ (netifDescr o subif st.queue).toList } else st
        let st := { st with netifs := setNetif st.netifs i (fun n => { n with update := 0 }) }
        updateNetifs o is st

/-- `child_expire`, /repo/src/child.c lines 411-462, at a time `now`; logging is left out. -/
def childExpire (o : Opts) (now : Int) (st : Child) : Res Child :=
  let gone := st.queue.filter (fun e => !keeps now e)
  let netifs := st.netifs.map (fun n => if gone.any (fun e => e.index == n.index) then { n with update := 1 } else n)
  let st := { st with queue := st.queue.filter (keeps now), netifs := netifs }
  updateNetifs o (st.netifs.map (·.index)) st

/-! ## Reception -/

/-- `struct parent_msg rmsg` after the `read`, /repo/src/child.c lines 299-307: `size` is the number of bytes read,
bytes not read are zero. -/
structure RawMsg where
  size : Nat
  index : Nat
  proto : Nat
  received : Int := 0
  len : Int
  msg : Bytes
  deriving Repr, DecidableEq

/-- `PARENT_MSG_MIN`, /repo/src/common.h line 299, on an LP64 platform. -/
def PARENT_MSG_MIN : Nat := 40
/-- `PARENT_MSG_MAX`, /repo/src/common.h line 300. -/
def PARENT_MSG_MAX : Nat := PARENT_MSG_MIN + 1518

/-- The search loop of `child_queue`, /repo/src/child.c lines 341-358.  List positions stand for pointers:
the first result is `msg`, the second `pmsg`; `a` holds the first twelve bytes of the received frame. -/
def queueScan (index proto : Nat) (a : Bytes) : List Entry → Nat → Option Nat → Option Nat × Option Nat
  | [], _, pm => (none, pm)
  | q :: qs, i, pm =>
    if index ≠ q.index then queueScan index proto a qs (i + 1) pm
    else
      let pm := if a.drop 6 = (q.msg.drop 6).take 6 then some i else pm
      if proto ≠ q.proto then queueScan index proto a qs (i + 1) pm
      else if a ≠ q.msg.take 12 then queueScan index proto a qs (i + 1) pm
      else (some i, pm)

/-- `TAILQ_INSERT_AFTER` / `TAILQ_INSERT_TAIL`, /repo/src/child.c lines 371-374. -/
def queueInsert (q : List Entry) (pm : Option Nat) (e : Entry) : List Entry :=
  match pm with
  | some i => q.take (i + 1) ++ e :: q.drop (i + 1)
  | none => q ++ [e]

/-- Replacement or insertion, /repo/src/child.c lines 341-381.  `e` is `rmsg`; its `id` is used only if a new entry
is allocated.  `memcpy` up to `entries` overwrites every field, `lock` included. -/
def queuePut (q : List Entry) (e : Entry) : List Entry :=
  match queueScan e.index e.proto (e.msg.take 12) q 0 none with
  | (some i, _) => q.take i ++ (match q.drop i with | [] => [] | o :: r => { e with id := o.id } :: r)
  | (none, pm) => queueInsert q pm e

/-- `child_queue`, /repo/src/child.c lines 334-408, once `rmsg` is complete: parent lookup, table update, expiry for a
shutdown, description request and automatic enabling of the protocol. -/
def queueStore (o : Opts) (now : Int) (subif : Netif) (e : Entry) (st : Child) : Res Child :=
  let netif := parentOf st.netifs subif
  let st := { st with queue := queuePut st.queue e, nextId := st.nextId + 1 }
  if e.ttl = 0 then childExpire o now st
  else
    let st := if o.has OPT_IFDESCR then
        { st with out := st.out ++ (netifDescr o subif st.queue).toList } else st
    if !o.has OPT_AUTO || netif.protos.testBit e.proto then .ok st
    else if o.has OPT_ARGV && subif.argv == 0 && netif.argv == 0 then .ok st
    else
      let nl := setNetif st.netifs netif.index
        (fun n => { n with protos := (n.protos ||| (1 <<< e.proto)) % 256 })
      .ok { st with netifs := nl }

/-- `child_queue`, /repo/src/child.c lines 298-409.  `now` is the result of `time(NULL)`, `none` if it fails.
`len != PARENT_MSG_LEN(rmsg.len)` is a comparison modulo 2^64, which for `size ≤ PARENT_MSG_MAX` and a 64 bit
`len` is equality.  The memory behind `msg` in the structure starts with `decode` (1) and a padding byte.
Simplifications: `child_expire` sees the same clock value, logging is left out. -/
def childQueue (o : Opts) (now : Option Int) (r : RawMsg) (st : Child) : Res Child :=
  if r.size < PARENT_MSG_MIN ∨ (r.size : Int) ≠ PARENT_MSG_MIN + r.len then .ok st
  else
    match now with
    | none => .ok st
    | some now =>
      match Proto.ofNum r.proto with
      | none => .abort
      | some p =>
        if r.len > ETHER_MAX_LEN then .abort
        else
          match netifByIndex st.netifs r.index with
          | none => .ok st
          | some subif =>
            if st.netifs.any (fun n => n.hwaddr == (r.msg.drop 6).take 6) then .ok st
            else
              match p.decode false (r.msg ++ [1, 0]) r.len.toNat { proto := r.proto } with
              | .abort => .abort
              | .oob => .oob
              | .stuck => .stuck
              | .fail => .ok st
              | .ok (m, n) =>
                if n = 0 then .ok st
                else
                  queueStore o now subif
                    { id := st.nextId, index := r.index, name := subif.name, proto := m.proto,
                      received := (if m.ttl ≠ 0 then now else r.received),
                      len := r.len.toNat, msg := r.msg, ttl := m.ttl, peer := m.peer, lock := 0 } st

/-! ## Client sessions -/

/-- Result of the `write` of one entry to a client, /repo/src/child.c lines 511-516. -/
inductive WriteRes where
  | ok | again | err
  deriving Repr, DecidableEq

/-- `child_cli_accept`, /repo/src/child.c lines 475-494, after a successful `accept`. -/
def cliAccept (st : Child) : Child :=
  { st with sessions := st.sessions ++ [{ sid := st.nextId }], nextId := st.nextId + 1 }

/-- Change the lock count of an entry, an `uint8_t`. -/
def setLock (q : List Entry) (id : Nat) (f : Nat → Nat) : List Entry :=
  q.map (fun e => if e.id = id then { e with lock := f e.lock % 256 } else e)

/-- How the `for` loop of `child_cli_write` ends, /repo/src/child.c lines 510-524: end of the table, write error, or
blocked at an entry. -/
inductive CliEnd where
  | done
  | failed
  | blocked (id : Nat)
  deriving Repr, DecidableEq

/-- The `for` loop of `child_cli_write`, /repo/src/child.c lines 510-524, from an entry on, and the entries written.  An
exhausted list of outcomes means that the socket stays blocked. -/
def cliLoop : List Entry → List WriteRes → CliEnd × List Entry
  | [], _ => (.done, [])
  | e :: _, [] => (.blocked e.id, [])
  | e :: es, w :: ws =>
    match w with
    | .ok => let (c, s) := cliLoop es ws; (c, e :: s)
    | .err => (.failed, [])
    | .again => (.blocked e.id, [])

/-- `child_cli_write`, /repo/src/child.c lines 496-530, lines 500-507: release of the entry held and the part of the
table still to be sent.  Using a pointer to a freed entry is `oob`. -/
def cliStart (st : Child) (sess : Session) : Res (List Entry × List Entry) :=
  match sess.msg with
  | none => .ok (st.queue, st.queue)
  | some id =>
    let queue := setLock st.queue id (fun n => n + 255)
    match queue.dropWhile (fun e => e.id != id) with
    | [] => .oob
    | e :: r => .ok (queue, e :: r)

/-- `child_cli_write`, /repo/src/child.c lines 496-530.  `ws = none` is the `EV_TIMEOUT` event, otherwise the results
of the `write` calls.  An event for a session that has ended cannot occur; it is ignored.  Simplification: a
successful `write` transfers the whole entry (`SOCK_SEQPACKET`). -/
def cliWrite (sid : Nat) (ws : Option (List WriteRes)) (st : Child) : Res Child :=
  match st.sessions.find? (fun s => s.sid == sid) with
  | none => .ok st
  | some sess =>
    let others := st.sessions.filter (fun s => s.sid != sid)
    match ws with
    | none => .ok { st with sessions := others }
    | some ws =>
      (cliStart st sess).bind (fun (queue, suffix) =>
        let (c, s) := cliLoop suffix ws
        let sent := st.sent ++ s.map (fun e => (sid, e))
        match c with
        | .blocked c =>
          let sessions := st.sessions.map (fun t => if t.sid = sid then { t with msg := some c } else t)
          .ok { st with queue := setLock queue c (fun n => n + 1), sessions := sessions, sent := sent }
        | _ => .ok { st with queue := queue, sessions := others, sent := sent })

/-! ## Histories -/

/-- The events of the process that touch the neighbour table.  `fetch` is a `netif_fetch` with an arbitrary result. -/
inductive ChildOp where
  | recv (now : Option Int) (r : RawMsg)
  | expire (now : Int)
  | fetch (l : List Netif)
  | accept
  | write (sid : Nat) (ws : Option (List WriteRes))
  deriving Repr, DecidableEq

/-- One event of the `event_dispatch` loop, /repo/src/child.c line 157. -/
def childStep (o : Opts) (st : Child) : ChildOp → Res Child
  | .recv now r => childQueue o now r st
  | .expire now => childExpire o now st
  | .fetch l => .ok { st with netifs := l }
  | .accept => .ok (cliAccept st)
  | .write sid ws => cliWrite sid ws st

/-- A sequence of events, /repo/src/child.c line 157. -/
def childRun (o : Opts) : Child → List ChildOp → Res Child
  | st, [] => .ok st
  | st, op :: ops => (childStep o st op).bind (fun st => childRun o st ops)

end Ladvd
