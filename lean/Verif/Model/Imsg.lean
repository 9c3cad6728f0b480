import Verif.Model.Parent
/-!
# Message passing: /repo/src/compat/imsg.c and imsg-buffer.c

Messages with a header are queued by one process, written to a stream socket in pieces, collected by the other process and taken apart again;
a message may carry a file descriptor.  Allocation succeeds.  A descriptor is a `Nat`; -1 is `none`.  Calls interrupted by signals are repeated by
the code and left out.
-/

namespace Ladvd

/-- `IMSG_HEADER_SIZE`, /repo/src/compat/imsg.h lines 25 and 65-71. -/
def IMSG_HEADER_SIZE : Nat := 16
/-- `MAX_IMSGSIZE`, /repo/src/compat/imsg.h line 26. -/
def MAX_IMSGSIZE : Nat := 16384
/-- `IBUF_READ_SIZE`, /repo/src/compat/imsg.h line 24. -/
def IBUF_READ_SIZE : Nat := 65535
/-- `IOV_MAX` on Linux. -/
def IOV_MAX : Nat := 1024

/-- `struct ibuf`, /repo/src/compat/imsg.h lines 28-36: `data` are the first `wpos` bytes of the object `buf` of `size` bytes. -/
structure Ibuf where
  size : Nat
  max : Nat
  data : Bytes := []
  rpos : Nat := 0
  fd : Option Nat := none
  deriving Repr, DecidableEq

/-- `ibuf_open`, /repo/src/compat/imsg-buffer.c lines 39-54. -/
def ibufOpen (len : Nat) : Ibuf := { size := len, max := len }

/-- `ibuf_dynamic`, /repo/src/compat/imsg-buffer.c lines 56-71. -/
def ibufDynamic (len max : Nat) : Option Ibuf :=
  if max < len then none
  else some (if max > 0 then { ibufOpen len with max := max } else ibufOpen len)

/-- `ibuf_realloc`, /repo/src/compat/imsg-buffer.c lines 73-91. -/
def ibufRealloc (b : Ibuf) (len : Nat) : Option Ibuf :=
  if b.data.length + len > b.max then none else some { b with size := b.data.length + len }

/-- `memcpy` and the new position, /repo/src/compat/imsg-buffer.c lines 100-102: `oob` if the bytes do not fit the object. -/
def ibufPut (b : Ibuf) (d : Bytes) : Res Ibuf :=
  if b.data.length + d.length ≤ b.size then .ok { b with data := b.data ++ d } else .oob

/-- `ibuf_add`, /repo/src/compat/imsg-buffer.c lines 93-103.  `fail`: -1. -/
def ibufAdd (b : Ibuf) (d : Bytes) : Res Ibuf :=
  if b.data.length + d.length > b.size then
    match ibufRealloc b d.length with
    | none => .fail
    | some b => ibufPut b d
  else ibufPut b d

/-- `struct imsg_hdr`, /repo/src/compat/imsg.h lines 65-71, on a little endian machine. -/
structure ImsgHdr where
  type : Nat := 0
  len : Nat := 0
  flags : Nat := 0
  peerid : Nat := 0
  pid : Nat := 0
  deriving Repr, DecidableEq

/-- The bytes of the structure. -/
def ImsgHdr.bytes (h : ImsgHdr) : Bytes := leBytes 4 h.type ++ leBytes 2 h.len ++ leBytes 2 h.flags ++ leBytes 4 h.peerid ++ leBytes 4 h.pid

/-- `memcpy(&imsg->hdr, ibuf->r.buf, sizeof(imsg->hdr))`. -/
def ImsgHdr.ofBytes (b : Bytes) : ImsgHdr :=
  ⟨leNat (b.take 4), leNat ((b.drop 4).take 2), leNat ((b.drop 6).take 2), leNat ((b.drop 8).take 4), leNat ((b.drop 12).take 4)⟩

/-- `imsg_add`, /repo/src/compat/imsg.c lines 270-279: `datalen` is an `uint16_t`, so only the first `length % 65536` bytes are copied. -/
def imsgAdd (b : Ibuf) (d : Bytes) : Res Ibuf :=
  let d := d.take (d.length % 65536)
  if d.length ≠ 0 then ibufAdd b d else .ok b

/-- `imsg_create`, /repo/src/compat/imsg.c lines 243-268: `own` is `ibuf->pid`, `datalen` is reduced to an `uint16_t` by the call.  `hdr.len` is
not initialised here but by `imsg_close`; 0 stands for it. -/
def imsgCreate (own type peerid pid datalen : Nat) : Res Ibuf :=
  let datalen := (datalen % 65536 + IMSG_HEADER_SIZE) % 65536
  if datalen > MAX_IMSGSIZE then .fail
  else
    match ibufDynamic datalen MAX_IMSGSIZE with
    | none => .fail
    | some b => imsgAdd b (ImsgHdr.bytes { type := type, peerid := peerid, pid := if pid = 0 then own else pid })

/-- `struct msgbuf` with the owner's number: `bufs` and `queued`.  `closed` logs the descriptors closed. -/
structure Msgbuf where
  pid : Nat := 1
  bufs : List Ibuf := []
  queued : Nat := 0
  closed : List Nat := []
  deriving Repr, DecidableEq

/-- `IMSGF_HASFD`, /repo/src/compat/imsg.h line 63. -/
def IMSGF_HASFD : Nat := 1

/-- `imsg_close` and `ibuf_enqueue`, /repo/src/compat/imsg.c lines 281-295 and /repo/src/compat/imsg-buffer.c lines 294-299: writing the two
fields requires a complete header. -/
def imsgClose (w : Msgbuf) (b : Ibuf) : Res Msgbuf := do
  let h ← rd b.data 6 2
  let flags := leNat h / 2 * 2 + (if b.fd.isSome then IMSGF_HASFD else 0)
  let d ← wr b.data 4 (leBytes 2 b.data.length ++ leBytes 2 flags)
  pure { w with bufs := w.bufs ++ [{ b with data := d }], queued := (w.queued + 1) % 2 ^ 32 }

/-- `imsg_compose`, /repo/src/compat/imsg.c lines 199-216.  The length passed is that of `data` as an `uint16_t`.  `fail`: -1. -/
def imsgCompose (w : Msgbuf) (type peerid pid : Nat) (fd : Option Nat) (data : Bytes) : Res Msgbuf := do
  let b ← imsgCreate w.pid type peerid pid data.length
  let b ← imsgAdd b data
  imsgClose w { b with fd := fd }

/-- The loop over the vector, /repo/src/compat/imsg.c lines 231-233. -/
def imsgAddAll : Ibuf → List Bytes → Res Ibuf
  | b, [] => .ok b
  | b, d :: ds => do
    let b ← imsgAdd b d
    imsgAddAll b ds

/-- `imsg_composev`, /repo/src/compat/imsg.c lines 218-241.  Simplification: the sum is an `int` whose overflow is not modelled. -/
def imsgComposev (w : Msgbuf) (type peerid pid : Nat) (fd : Option Nat) (iov : List Bytes) : Res Msgbuf := do
  let b ← imsgCreate w.pid type peerid pid (iov.map List.length).sum
  let b ← imsgAddAll b iov
  imsgClose w { b with fd := fd }

/-- The loop of `msgbuf_write`, /repo/src/compat/imsg-buffer.c lines 241-249: the vector, and number and descriptor of the buffer the loop
stopped at.  `i` counts the buffers. -/
def gatherBufs : Nat → List Ibuf → List Bytes × Option (Nat × Option Nat)
  | _, [] => ([], none)
  | i, b :: bs =>
    if i ≥ IOV_MAX then ([], some (i, b.fd))
    else if b.fd.isSome then ([b.data.drop b.rpos], some (i, b.fd))
    else (b.data.drop b.rpos :: (gatherBufs (i + 1) bs).1, (gatherBufs (i + 1) bs).2)

/-- The arguments of `sendmsg`, /repo/src/compat/imsg-buffer.c lines 251-263: the bytes and the descriptor. -/
def Msgbuf.sendArgs (w : Msgbuf) : Bytes × Option Nat :=
  ((gatherBufs 0 w.bufs).1.flatten, (gatherBufs 0 w.bufs).2.bind (·.2))

/-- `msgbuf_drain` and `ibuf_dequeue`, /repo/src/compat/imsg-buffer.c lines 198-214 and 301-310: the buffers left and the descriptors closed. -/
def drainBufs : Nat → List Ibuf → List Ibuf × List Nat
  | _, [] => ([], [])
  | n, b :: bs =>
    if n = 0 then (b :: bs, [])
    else if b.rpos + n ≥ b.data.length then
      ((drainBufs (n - (b.data.length - b.rpos)) bs).1, b.fd.toList ++ (drainBufs (n - (b.data.length - b.rpos)) bs).2)
    else ({ b with rpos := b.rpos + n } :: bs, [])

/-- `msgbuf_drain` on the queue. -/
def msgbufDrain (w : Msgbuf) (n : Nat) : Msgbuf :=
  { w with
    bufs := (drainBufs n w.bufs).1
    queued := (w.queued + (2 ^ 32 - (w.bufs.length - (drainBufs n w.bufs).1.length) % 2 ^ 32)) % 2 ^ 32
    closed := w.closed ++ (drainBufs n w.bufs).2 }

/-- `close(buf->fd); buf->fd = -1;`, /repo/src/compat/imsg-buffer.c lines 283-286. -/
def msgbufSent (w : Msgbuf) : Msgbuf :=
  match (gatherBufs 0 w.bufs).2 with
  | some (i, some fd) => { w with bufs := w.bufs.modify i (fun b => { b with fd := none }), closed := w.closed ++ [fd] }
  | _ => w

/-- `msgbuf_write`, /repo/src/compat/imsg-buffer.c lines 225-292, when `sendmsg` takes `n` bytes.  `fail`: the 0 returned if it takes none. -/
def msgbufWrite (w : Msgbuf) (n : Nat) : Res Msgbuf :=
  if n = 0 then .fail else .ok (msgbufDrain (msgbufSent w) n)

/-- `struct ibuf_read` and `fds` of the other end, /repo/src/compat/imsg.h lines 44-48 and 55-61: `buf` are the first `wpos` bytes. -/
structure ImsgRd where
  buf : Bytes := []
  fds : List Nat := []
  closed : List Nat := []
  deriving Repr, DecidableEq

/-- `iov.iov_len`, /repo/src/compat/imsg.c line 98. -/
def ImsgRd.room (r : ImsgRd) : Nat := IBUF_READ_SIZE - r.buf.length

/-- `imsg_read`, /repo/src/compat/imsg.c lines 81-157, when `recvmsg` delivers the bytes `d` and the descriptors `fds`: the first one is kept,
further ones are closed.  `oob` if the bytes exceed the buffer.  Simplifications: there are free descriptors; the endless repetition on `EAGAIN` is
left out. -/
def imsgRead (r : ImsgRd) (d : Bytes) (fds : List Nat) : Res ImsgRd :=
  if r.buf.length + d.length ≤ IBUF_READ_SIZE then .ok ⟨r.buf ++ d, r.fds ++ fds.take 1, r.closed ++ fds.drop 1⟩ else .oob

/-- `struct imsg`, /repo/src/compat/imsg.h lines 73-77. -/
structure ImsgGot where
  hdr : ImsgHdr
  fd : Option Nat
  data : Bytes
  deriving Repr, DecidableEq

/-- `imsg_get`, /repo/src/compat/imsg.c lines 159-197 and 303-317: the new state and the message; `none` for the 0 returned if there is no complete
message; `fail` for the error. -/
def imsgGet (r : ImsgRd) : Res (ImsgRd × Option ImsgGot) :=
  let av := r.buf.length
  if IMSG_HEADER_SIZE > av then .ok (r, none)
  else
    let hdr := ImsgHdr.ofBytes (r.buf.take 16)
    if hdr.len < IMSG_HEADER_SIZE ∨ hdr.len > MAX_IMSGSIZE then .fail
    else if hdr.len > av then .ok (r, none)
    else do
      let hasfd := hdr.flags % 2 = 1
      let data ← rd r.buf IMSG_HEADER_SIZE (hdr.len - IMSG_HEADER_SIZE)
      pure ({ r with
          buf := if hdr.len < av then r.buf.drop hdr.len else []
          fds := if hasfd then r.fds.drop 1 else r.fds },
        some ⟨hdr, if hasfd then r.fds.head? else none, data⟩)

/-- `ibuf_reserve`, /repo/src/compat/imsg-buffer.c lines 105-117, with the bytes `d` the caller writes to the place it is given.  `fail`: `NULL`. -/
def ibufReserve (b : Ibuf) (d : Bytes) : Res Ibuf :=
  if b.data.length + d.length > b.size then
    match ibufRealloc b d.length with
    | none => .fail
    | some b => ibufPut b d
  else ibufPut b d

/-- `ibuf_seek`, /repo/src/compat/imsg-buffer.c lines 119-127: the offset of the pointer returned.  `pos + len` is a `size_t` of 64 bits. -/
def ibufSeek (b : Ibuf) (pos len : Nat) : Option Nat := if (pos + len) % 2 ^ 64 > b.data.length then none else some pos

/-- `ibuf_size`, /repo/src/compat/imsg-buffer.c lines 129-133. -/
def ibufSize (b : Ibuf) : Nat := b.data.length

/-- `ibuf_left`, /repo/src/compat/imsg-buffer.c lines 135-139: a `size_t`. -/
def ibufLeft (b : Ibuf) : Nat := (b.max + (2 ^ 64 - b.data.length % 2 ^ 64)) % 2 ^ 64

/-- The vector of `ibuf_write`, /repo/src/compat/imsg-buffer.c lines 155-162. -/
def Msgbuf.writeArgs (w : Msgbuf) : Bytes := ((w.bufs.take IOV_MAX).map (fun b => b.data.drop b.rpos)).flatten

/-- `ibuf_write`, /repo/src/compat/imsg-buffer.c lines 147-181, when `writev` takes `n` bytes.  `fail`: the 0 returned if it takes none. -/
def ibufWrite (w : Msgbuf) (n : Nat) : Res Msgbuf := if n = 0 then .fail else .ok (msgbufDrain w n)

/-- `ibuf_dequeue` of the first buffer, /repo/src/compat/imsg-buffer.c lines 301-310. -/
def ibufDequeue (w : Msgbuf) : Msgbuf :=
  match w.bufs with
  | [] => w
  | b :: bs => { w with bufs := bs, queued := (w.queued + (2 ^ 32 - 1)) % 2 ^ 32, closed := w.closed ++ b.fd.toList }

/-- `n` iterations of the loop of `msgbuf_clear`, /repo/src/compat/imsg-buffer.c lines 216-223. -/
def msgbufClearLoop : Nat → Msgbuf → Msgbuf
  | 0, w => w
  | n + 1, w => msgbufClearLoop n (ibufDequeue w)

/-- `msgbuf_clear`, /repo/src/compat/imsg-buffer.c lines 216-223. -/
def msgbufClear (w : Msgbuf) : Msgbuf := msgbufClearLoop w.bufs.length w

/-- The loop over `imsg_get_fd` in `imsg_clear`, /repo/src/compat/imsg.c lines 328-336 and 303-317: the descriptors not yet handed out are closed. -/
def imsgClearFds : List Nat → ImsgRd → ImsgRd
  | [], r => r
  | fd :: fds, r => imsgClearFds fds { r with fds := fds, closed := r.closed ++ [fd] }

/-- `imsg_clear`, /repo/src/compat/imsg.c lines 328-336, on both halves of a `struct imsgbuf`. -/
def imsgClear (w : Msgbuf) (r : ImsgRd) : Msgbuf × ImsgRd := (msgbufClear w, imsgClearFds r.fds r)

/-- `imsg_flush`, /repo/src/compat/imsg.c lines 319-326: the value returned and the queue.  The answers of the kernel to `sendmsg`: an error (`none`) or
the number of bytes it has room for.  `stuck`: none of the answers ends the loop. -/
def imsgFlush : Msgbuf → List (Option Nat) → Res (Int × Msgbuf)
  | w, [] => if w.queued = 0 then .ok (0, w) else .stuck
  | w, a :: as =>
    if w.queued = 0 then .ok (0, w)
    else
      match a with
      | none => .ok (-1, w)
      | some n =>
        match msgbufWrite w (w.sendArgs.1.take n).length with
        | .ok w => imsgFlush w as
        | _ => imsgFlush w as

end Ladvd
