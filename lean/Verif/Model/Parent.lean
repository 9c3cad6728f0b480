import Verif.Model.Send
/-!
# The privileged process

/repo/src/parent.c and the client side of its request socket, `my_mreq` of /repo/src/util.c.  Both sockets are datagram sockets
(/repo/src/util.c lines 116-133).  Modelled for Linux on a 64-bit little-endian machine, built with all optional libraries (`HAVE_SYSFS`,
`HAVE_LINUX_ETHTOOL_H`, `HAVE_LIBTEAM`, `HAVE_PCI_PCI_H`).
-/

namespace Ladvd

/-- Value of a byte string in host byte order (little-endian): a structure member read after `read`. -/
def leNat : Bytes → Nat
  | [] => 0
  | b :: bs => b.toNat + 256 * leNat bs

/-- `n` as a structure member of `k` bytes in host byte order. -/
def leBytes : Nat → Nat → Bytes
  | 0, _ => []
  | k + 1, n => UInt8.ofNat n :: leBytes k (n / 256)

/-! ## Messages on the two sockets -/

/-- `struct parent_req`, /repo/src/common.h lines 234-240: `op` at offset 0, `index` at 4, `name` at 8, `len` at 24, `buf` at 32, 544
bytes in all.  `len` is the value of the member taken as unsigned. -/
structure Req where
  op : UInt8
  pad : Bytes := [0, 0, 0]
  index : Nat
  name : Bytes := List.replicate 16 0
  len : Nat
  buf : Bytes
  deriving Repr, DecidableEq

/-- `PARENT_REQ_MIN`, /repo/src/common.h line 250. -/
def REQ_MIN : Nat := 32
/-- `PARENT_REQ_MAX`, /repo/src/common.h line 251. -/
def REQ_MAX : Nat := 544

/-- `PARENT_REQ_LEN`, /repo/src/common.h line 252, computed in `size_t`. -/
def reqLen (l : Nat) : Nat := (REQ_MIN + l) % 2 ^ 64

/-- The structure stored in 544 bytes. -/
def reqOf (m : Bytes) : Req where
  op := (m.take 1).headD 0
  pad := (m.drop 1).take 3
  index := leNat ((m.drop 4).take 4)
  name := (m.drop 8).take 16
  len := leNat ((m.drop 24).take 8)
  buf := m.drop 32

/-- The 544 bytes of the structure. -/
def reqBytes (r : Req) : Bytes := r.op :: r.pad ++ leBytes 4 r.index ++ r.name ++ leBytes 8 r.len ++ r.buf

/-- `struct parent_msg` up to `msg`, /repo/src/common.h lines 279-285: `index` at 0, `name` at 4, `proto` at 20, `received` at 24, `len`
at 32, `msg` at 40 with 1518 bytes. -/
structure SendMsg where
  index : Nat
  name : Bytes
  proto : Nat
  len : Nat
  msg : Bytes
  deriving Repr, DecidableEq

/-- `PARENT_MSG_MIN`, /repo/src/common.h line 299. -/
def MSG_MIN : Nat := 40
/-- `PARENT_MSG_MAX`, /repo/src/common.h line 300. -/
def MSG_MAX : Nat := 1558
/-- `PARENT_MSG_LEN`, /repo/src/common.h line 302, computed in `size_t`. -/
def msgLen (l : Nat) : Nat := (MSG_MIN + l) % 2 ^ 64

/-- The structure stored in 1558 bytes. -/
def msgOf (m : Bytes) : SendMsg where
  index := leNat (m.take 4)
  name := (m.drop 4).take 16
  proto := leNat ((m.drop 20).take 1)
  len := leNat ((m.drop 32).take 8)
  msg := m.drop 40

/-- The message the unprivileged process writes for `t`, /repo/src/child.c lines 227-280: the structure is zeroed, then `index`, `proto`,
`len` and `msg` are set. -/
def txBytes (t : Tx) : Bytes :=
  leBytes 4 t.index ++ List.replicate 16 0 ++ leBytes 1 t.proto.num ++ List.replicate 3 0 ++ List.replicate 8 0 ++ leBytes 8 t.len ++
    t.msg.take t.len

/-- `read` of a datagram into a zeroed object of `size` bytes: the object and the number of bytes read; the rest of a longer datagram
is lost. -/
def recvInto (size : Nat) (dg : Bytes) : Bytes × Nat :=
  (dg.take size ++ List.replicate (size - dg.length) 0, min dg.length size)

/-! ## The system around the process -/

/-- The files below `device` read by `parent_device_id`, /repo/src/parent.c lines 65-68. -/
inductive DevFile where
  | pciVendor | pciDevice | usbVendor | usbProduct
  deriving Repr, DecidableEq

/-- What libteam says about a device, /repo/src/parent.c lines 450-478. -/
inductive TeamAnswer where
  | noHandle
  | error
  | info (mode : Bytes) (active : Nat) (ports : List Nat)
  deriving Repr, DecidableEq

/-- Outcomes of the libpcap calls of `parent_socket`, /repo/src/parent.c lines 637-704: success, the label `failed`, `my_fatal`. -/
inductive SockRes where
  | ok | failed | fatal
  deriving Repr, DecidableEq

/-- Outcomes of `write` to a raw socket, /repo/src/parent.c lines 343-351: frame sent (such a socket takes it as a whole), `ENODEV` or
`EIO`, another error. -/
inductive TxRes where
  | sent | gone | error
  deriving Repr, DecidableEq

/-- Answers of the kernel and of the libraries during one event. -/
structure PEnv where
  /-- `if_indextoname` -/
  ifName : Nat → Option Bytes := fun _ => none
  /-- `ETHTOOL_GSET` (`false`) and `ETHTOOL_GDRVINFO` (`true`) -/
  ethtool : Bool → Bytes → Option Bytes := fun _ _ => none
  /-- contents of `ifalias` -/
  alias : Bytes → Option Bytes := fun _ => none
  /-- `open` and `write` on `ifalias` -/
  aliasWrite : Bytes → Bytes → Option Nat := fun _ _ => none
  /-- `stat` on `device` -/
  device : Bytes → Bool := fun _ => false
  /-- `stat` on `/proc/bus/pci` and `pci_alloc` -/
  pci : Bool := false
  /-- `readlink` on `device/subsystem` -/
  subsystem : Bytes → Option Bytes := fun _ => none
  devFile : Bytes → DevFile → Option Bytes := fun _ _ => none
  /-- `pci_lookup_name` for the two identifiers as read -/
  pciName : Bytes → Bytes → Bytes := fun _ _ => []
  team : Nat → TeamAnswer := fun _ => .noHandle
  sock : Bytes → SockRes := fun _ => .failed
  /-- `setsockopt` -/
  member : Bool → Bytes → Bool := fun _ _ => true
  write : Nat → Bytes → TxRes := fun _ _ => .error

/-- What the process does to the system. -/
inductive Act where
  | socket (index : Nat) (name : Bytes) (filter : List Insn)
  | close (index : Nat)
  | member (index : Nat) (add : Bool) (addr : Bytes)
  | frame (index : Nat) (frame : Bytes)
  | dump (frame : Bytes)
  | ethtool (drv : Bool) (name : Bytes)
  | aliasRead (name : Bytes)
  | aliasWrite (name : Bytes) (text : Bytes)
  | device (name : Bytes)
  | deviceId (name : Bytes)
  | team (index : Nat)
  deriving Repr, DecidableEq

/-- `struct rawfd`, /repo/src/parent.h lines 27-37.  `handle` tells whether `p_handle` is set, `listening` whether the event is registered;
`groups` are the multicast memberships of the socket, kept by the kernel. -/
structure Rfd where
  index : Nat
  name : Bytes
  handle : Bool
  listening : Bool := false
  groups : List Bytes := []
  deriving Repr, DecidableEq

/-- State of the process: `rawfds`, /repo/src/parent.c line 72.  `fds` are the open descriptors of raw sockets (by interface index) and
`acts` all effects so far; both are not in the code. -/
structure Parent where
  rawfds : List Rfd := []
  fds : List Nat := []
  acts : List Act := []
  deriving Repr, DecidableEq

/-- Record an effect. -/
def Parent.log (s : Parent) (a : Act) : Parent := { s with acts := s.acts ++ [a] }

/-- `rfd_byindex`, /repo/src/parent.h lines 68-76. -/
def rfdByIndex (s : Parent) (i : Nat) : Option Rfd := s.rawfds.find? (fun r => r.index = i)

/-! ## Sockets -/

/-- The loop of `parent_multi`, /repo/src/parent.c lines 723-765: the `setsockopt` calls, with `true` for `PACKET_ADD_MEMBERSHIP` (1) and
`false` for `PACKET_DROP_MEMBERSHIP` (2).  The variable `op` is assigned in every iteration. -/
def multiLoop (c : Conf) : Nat → List Proto → List (Bool × Bytes)
  | _, [] => []
  | op, p :: ps =>
    if !c.enabled p && !c.opts.has OPT_AUTO then multiLoop c op ps
    else
      let op := if op ≠ 0 then 1 else 2
      (op == 1, p.dst) :: multiLoop c op ps

/-- The kernel's handling of one membership request on a socket: memberships are counted.  A failure is only logged,
/repo/src/parent.c lines 738-740. -/
def applyMember (env : PEnv) (groups : List Bytes) (a : Bool × Bytes) : List Bytes :=
  if env.member a.1 a.2 then (if a.1 then groups ++ [a.2] else groups.erase a.2) else groups

/-- `parent_multi`, /repo/src/parent.c lines 708-766. -/
def parentMulti (c : Conf) (env : PEnv) (op : Nat) (s : Parent) (r : Rfd) : Parent × Rfd :=
  if c.opts.has OPT_DEBUG then (s, r)
  else
    let calls := multiLoop c op protoTable
    ({ s with acts := s.acts ++ calls.map (fun a => .member r.index a.1 a.2) }, { r with groups := calls.foldl (applyMember env) r.groups })

/-- Receiving is on and this is not a debug run, /repo/src/parent.c lines 376 and 393. -/
def listens (c : Conf) : Bool := c.opts.has OPT_RECV && !c.opts.has OPT_DEBUG

/-- `parent_open`, /repo/src/parent.c lines 357-388, with `parent_socket`, lines 627-705.  In a debug run the descriptor is a copy of
standard input and there is no handle; `none` is the return value -1.  Simplification: `dup` succeeds. -/
def parentOpen (c : Conf) (env : PEnv) (index : Nat) (name : Bytes) (s : Parent) : Res (Option Parent) :=
  if c.opts.has OPT_DEBUG then
    .ok (some { s with rawfds := s.rawfds ++ [⟨index, name, false, false, []⟩], fds := s.fds ++ [index] })
  else
    match env.sock name with
    | .fatal => .abort
    | .failed => .ok none
    | .ok =>
      let s := { s with fds := s.fds ++ [index] }.log (.socket index name (socketFilter (c.opts.has OPT_RECV)))
      let r : Rfd := ⟨index, name, true, false, []⟩
      if listens c then
        let sr := parentMulti c env 1 s r
        .ok (some { sr.1 with rawfds := sr.1.rawfds ++ [{ sr.2 with listening := true }] })
      else .ok (some { s with rawfds := s.rawfds ++ [r] })

/-- `parent_close`, /repo/src/parent.c lines 390-407.  The kernel ends the memberships with the socket. -/
def parentClose (c : Conf) (env : PEnv) (r : Rfd) (s : Parent) : Parent :=
  let s := if listens c then (parentMulti c env 0 s r).1 else s
  let s := { s with rawfds := s.rawfds.erase r }
  if r.handle then { s with fds := s.fds.erase r.index }.log (.close r.index) else s

/-! ## Requests -/

/-- `fgets(line, size, file)`: the characters stored, without the NUL. -/
def fgetsText (size : Nat) (content : Bytes) : Bytes :=
  let line := content.takeWhile (· ≠ 0x0a)
  (line ++ (content.drop line.length).take 1).take (size - 1)

/-- `read_line`, /repo/src/util.c lines 229-243, into the object `obj`: the object and the return value.  `content` is the file, if it
can be opened. -/
def readLine (obj : Bytes) (size : Nat) (content : Option Bytes) : Res (Bytes × Nat) :=
  match content with
  | none => .ok (obj, 0)
  | some [] => .ok (obj, 0)
  | some content => do
    let t := fgetsText size content
    let obj ← wr obj 0 (t ++ [0])
    let n := (t.takeWhile (fun b => b ≠ 0x0a && b ≠ 0)).length
    let obj ← wr obj n [0]
    pure (obj, n)

/-- `isspace` in the C locale. -/
def isSpace (b : UInt8) : Bool := b = 0x20 || (9 ≤ b && b ≤ 13)

/-- "these strings seem to have trailing spaces", /repo/src/parent.c lines 591-597. -/
def trimEnd (s : Bytes) : Bytes := (s.reverse.dropWhile isSpace).reverse

/-- `parent_ethtool`, /repo/src/parent.c lines 410-439: the new buffer and the return value. -/
def parentEthtool (env : PEnv) (drv : Bool) (name buf : Bytes) : Res (Bytes × Nat) :=
  match env.ethtool drv name with
  | none => .ok (buf, 0)
  | some data => do
    let buf ← wr buf 0 data
    pure (buf, data.length)

/-- The loop over the ports in `parent_libteam`, /repo/src/parent.c lines 474-478: the array and the count. -/
def teamLoop : Bytes → Nat → List Nat → Res (Bytes × Nat)
  | arr, cnt, [] => .ok (arr, cnt)
  | arr, cnt, p :: ps => do
    let arr ← wr arr (4 * cnt) (leBytes 4 p)
    if cnt + 1 = 32 then pure (arr, cnt + 1) else teamLoop arr (cnt + 1) ps

/-- `parent_libteam`, /repo/src/parent.c lines 443-487.  `struct parent_team_info` (/repo/src/common.h lines 243-248): `mode` at 0, `cnt` at 1,
`netifs` at 4, `netif_active` at 132, 136 bytes in all. -/
def parentTeam (env : PEnv) (index : Nat) (buf : Bytes) : Res (Bytes × Nat) :=
  match env.team index with
  | .noHandle => .ok (buf, 0)
  | .error => .ok (buf, 136)
  | .info mode active ports => do
    let failover := mode == lit "activebackup"
    let (arr, cnt) ← teamLoop (List.replicate 128 0) 0 ports
    let buf ← wr buf 0 ([if failover then 2 else 3, UInt8.ofNat cnt, 0, 0] ++ arr ++ leBytes 4 (if failover then active else 0))
    pure (buf, 136)

/-- The return value of `write_line`, /repo/src/util.c lines 246-257; `write` writes no more than it is given. -/
def writeLine (env : PEnv) (name text : Bytes) : Nat := min ((env.aliasWrite name text).getD 0) text.length

/-- `parent_descr`, /repo/src/parent.c lines 490-509 (the variant with sysfs).  The file is `ifalias` of the interface. -/
def parentDescr (env : PEnv) (set : Bool) (name buf : Bytes) : Res (Bytes × Nat) := do
  let buf ← wr buf 64 [0]
  match env.alias name with
  | none => pure (buf, 0)
  | some content =>
    if set then pure (buf, writeLine env name (cstr buf))
    else readLine buf 64 (some content)

/-- `parent_device_id`, /repo/src/parent.c lines 551-624.  Simplifications: `vendor_str`, `device_str` and `id_str` are fresh objects of 32, 32 and
16 bytes; `pci_lookup_name` stores at most 511 bytes and a NUL. -/
def parentDeviceId (env : PEnv) (name buf : Bytes) : Res (Bytes × Nat) :=
  if !env.pci then .ok (buf, 0)
  else
    match env.subsystem name with
    | none => .ok (buf, 0)
    | some path =>
      let path := path.take 255
      if ¬ (0x2f : UInt8) ∈ path then .ok (buf, 0)
      else if (lit "/usb").isSuffixOf path then do
        let (vendor, n) ← readLine (List.replicate 32 0) 32 (env.devFile name .usbVendor)
        if n = 0 then pure (buf, 0)
        else do
          let (product, n) ← readLine (List.replicate 32 0) 32 (env.devFile name .usbProduct)
          if n = 0 then pure (buf, 0)
          else do
            let text := trimEnd (cstr product) ++ lit " (" ++ trimEnd (cstr vendor) ++ lit ")"
            let buf ← wr buf 0 (text.take 511 ++ [0])
            pure (buf, (cstr buf).length)
      else do
        let (vendor, n) ← readLine (List.replicate 16 0) 16 (env.devFile name .pciVendor)
        if n = 0 then pure (buf, 0)
        else do
          let (device, n) ← readLine (List.replicate 16 0) 16 (env.devFile name .pciDevice)
          if n = 0 then pure (buf, 0)
          else do
            let text := cstr (env.pciName (cstr vendor) (cstr device))
            let buf ← wr (List.replicate 512 0) 0 (text.take 511 ++ [0])
            pure (buf, (cstr buf).length)

/-- `parent_check`, /repo/src/parent.c lines 264-306: whether all assertions hold and the request is known. -/
def parentCheck (r : Req) : Bool :=
  decide (r.len ≤ ETHER_MAX_LEN) && decide (r.op.toNat < 9) &&
  (if r.op = 6 then r.len == 44 else if r.op = 7 then r.len == 196 else if r.op = 2 then decide (r.len ≤ 64) else true)

/-- The `switch` of `parent_req`, /repo/src/parent.c lines 214-255, for a valid request: the new state, the buffer and `len`. -/
def parentOp (c : Conf) (env : PEnv) (r : Req) (name : Bytes) (s : Parent) : Res (Parent × Bytes × Nat) :=
  if r.op = 0 then
    match rfdByIndex s r.index with
    | none => do
      let o ← parentOpen c env r.index name s
      pure (o.getD s, r.buf, r.len)
    | some _ => .ok (s, r.buf, r.len)
  else if r.op = 1 then
    match rfdByIndex s r.index with
    | none => .ok (s, r.buf, r.len)
    | some f => .ok (parentClose c env f s, r.buf, r.len)
  else if r.op = 2 then do
    let (buf, n) ← parentDescr env true name r.buf
    pure (if (env.alias name).isSome then s.log (.aliasWrite name (cstr buf)) else s, buf, n)
  else if r.op = 3 then do
    let (buf, n) ← parentDescr env false name r.buf
    pure (s.log (.aliasRead name), buf, n)
  else if r.op = 4 then .ok (s.log (.device name), r.buf, if env.device name then 1 else 0)
  else if r.op = 5 then do
    let (buf, n) ← parentDeviceId env name r.buf
    pure (s.log (.deviceId name), buf, n)
  else if r.op = 6 then do
    let (buf, n) ← parentEthtool env false name r.buf
    pure (s.log (.ethtool false name), buf, n)
  else if r.op = 7 then do
    let (buf, n) ← parentEthtool env true name r.buf
    pure (s.log (.ethtool true name), buf, n)
  else if r.op = 8 then do
    let (buf, n) ← parentTeam env r.index r.buf
    pure (s.log (.team r.index), buf, n)
  else .abort

/-- `write(reqfd, &mreq, PARENT_REQ_LEN(mreq.len))`, /repo/src/parent.c lines 257-260. Simplification: the `write` succeeds. -/
def reply (r : Req) : Res Bytes := rd (reqBytes r) 0 (reqLen r.len)

/-- `parent_req`, /repo/src/parent.c lines 192-261, for the datagram `dg`: the new state and the reply.  A failed `read` is like an empty
datagram: -1 is not a valid size either. -/
def parentReq (c : Conf) (env : PEnv) (s : Parent) (dg : Bytes) : Res (Parent × Bytes) :=
  let (m, n) := recvInto REQ_MAX dg
  let r := reqOf m
  if n < REQ_MIN ∨ n ≠ reqLen r.len then .abort
  else
    match env.ifName r.index with
    | none => do
      let b ← reply { r with len := 0 }
      pure (s, b)
    | some name => do
      let nm ← wr r.name 0 (name ++ [0])
      if !parentCheck r then .abort
      else do
        let (s, buf, n) ← parentOp c env r name s
        let b ← reply { r with name := nm, len := n, buf := buf }
        pure (s, b)

/-- `my_mreq`, /repo/src/util.c lines 284-299, the client's part after writing: what it makes of the reply. -/
def mreqReply (dg : Bytes) : Res Req :=
  let (m, n) := recvInto REQ_MAX dg
  let r := reqOf m
  if n < REQ_MIN ∨ n ≠ reqLen r.len then .abort else .ok r

/-! ## Frames -/

/-- What happens to a frame once the socket exists, /repo/src/parent.c lines 342-354. -/
def transmit (c : Conf) (env : PEnv) (r : Rfd) (frame : Bytes) (s : Parent) : Parent :=
  match env.write r.index frame with
  | .gone => parentClose c env r s
  | .sent => s.log (.frame r.index frame)
  | .error => s

/-- "create rfd if needed", /repo/src/parent.c lines 336-342. -/
def sendOn (c : Conf) (env : PEnv) (index : Nat) (name frame : Bytes) (s : Parent) : Res Parent :=
  match rfdByIndex s index with
  | some r => .ok (transmit c env r frame s)
  | none => do
    match ← parentOpen c env index name s with
    | none => .ok s
    | some s =>
      match rfdByIndex s index with
      | none => .abort
      | some r => .ok (transmit c env r frame s)

/-- `parent_send`, /repo/src/parent.c lines 309-354, for the datagram `dg`. -/
def parentSend (c : Conf) (env : PEnv) (s : Parent) (dg : Bytes) : Res Parent :=
  let (m, n) := recvInto MSG_MAX dg
  let r := msgOf m
  if n < MSG_MIN ∨ n ≠ msgLen r.len then .ok s
  else
    match env.ifName r.index with
    | none => .ok s
    | some name => do
      let _ ← wr r.name 0 (name ++ [0])
      if ¬ (r.len ≥ ETHER_MIN_LEN - 4) then .abort
      else
        match Proto.ofNum r.proto with
        | none => .abort
        | some p => do
          let _ ← assertCheck (p.check r.msg r.len)
          let frame ← rd r.msg 0 r.len
          if c.opts.has OPT_DEBUG then .ok (s.log (.dump frame))
          else sendOn c env r.index name frame s

/-! ## The event loop -/

/-- `rfd_closeall`, /repo/src/parent.h lines 79-85. -/
def closeAll (c : Conf) (env : PEnv) : List Rfd → Parent → Parent
  | [], s => s
  | r :: rs, s => closeAll c env rs (parentClose c env r s)

/-- Events of the privileged process: a request, a message to send, captured packets on the socket of an interface. -/
inductive PEvent where
  | req (env : PEnv) (dg : Bytes)
  | send (env : PEnv) (dg : Bytes)
  | recv (index : Nat) (caps : List Bytes)

/-- One event, /repo/src/parent.c lines 128-152: the new state, with the reply or the messages forwarded.  `parent_recv` is called only for a
socket whose event is registered. -/
def parentStep (c : Conf) (s : Parent) : PEvent → Res (Parent × List Bytes × List Fwd)
  | .req env dg => do
    let (s, b) ← parentReq c env s dg
    pure (s, [b], [])
  | .send env dg => do
    let s ← parentSend c env s dg
    pure (s, [], [])
  | .recv index caps =>
    match rfdByIndex s index with
    | none => .ok (s, [], [])
    | some r =>
      if !r.listening then .ok (s, [], [])
      else if !r.handle then .abort
      else do
        let ms ← parentRecv index caps
        pure (s, [], ms)

/-- The event loop. -/
def parentRun (c : Conf) : List PEvent → Parent → Res Parent
  | [], s => .ok s
  | e :: es, s => do
    let (s, _) ← parentStep c s e
    parentRun c es s

/-- `parent_signal` for `SIGINT`, `SIGTERM` and `SIGCHLD`, /repo/src/parent.c lines 159-189: all sockets are closed before the
process exits. -/
def parentQuit (c : Conf) (env : PEnv) (s : Parent) : Parent := closeAll c env s.rawfds s

end Ladvd
