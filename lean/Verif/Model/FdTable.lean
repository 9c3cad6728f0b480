import Verif.Model.Imsg
/-!
# Descriptors of the process: `available_fds`, `imsg_init` and the whole of `imsg_read`, /repo/src/compat/imsg.c

The descriptor table of the process is the list of its open numbers, each with the file it stands for; `limit` is its size (`RLIMIT_NOFILE`).
-/

namespace Ladvd

/-- A descriptor table: open numbers with their files. -/
abbrev FdTable := List (Nat × Nat)

/-- The file that stands for a socket made by `available_fds`, /repo/src/compat/imsg.c line 59. -/
def scratchFile : Nat := 0

/-- The number the kernel gives to a new descriptor (POSIX: the lowest one that is free), if there is one; for /repo/src/compat/imsg.c lines 59
and 115. -/
def lowestFree (limit : Nat) (t : FdTable) : Option Nat := (List.range limit).find? (fun k => !(t.map (·.1)).contains k)

/-- `close`, for /repo/src/compat/imsg.c lines 66 and 147. -/
def closeFd (t : FdTable) (fd : Nat) : FdTable := t.eraseP (fun x => x.1 == fd)

/-- The first loop of `available_fds`, /repo/src/compat/imsg.c lines 56-63, from `i` on with `k` rounds left: the table, the array, and `ret`.
`grant i` says whether the kernel has what the `i`th socket needs besides a number.  A cell of the array that was not written is `none`. -/
def availOpen (limit : Nat) (grant : Nat → Bool) : Nat → Nat → FdTable → List (Option Int) → FdTable × List (Option Int) × Nat
  | _, 0, t, a => (t, a, 0)
  | i, k + 1, t, a =>
    match grant i, lowestFree limit t with
    | true, some fd => availOpen limit grant (i + 1) k (t ++ [(fd, scratchFile)]) (a.set i (some fd))
    | _, _ => (t, a.set i (some (-1)), 1)

/-- The second loop, /repo/src/compat/imsg.c lines 65-66.  `oob`: a cell is read that is outside of the array or was not written. -/
def availClose : Nat → Nat → FdTable → List (Option Int) → Res FdTable
  | _, 0, t, _ => .ok t
  | i, k + 1, t, a =>
    match a[i]? with
    | some (some fd) => if fd ≥ 0 then availClose (i + 1) k (closeFd t fd.toNat) a else .ok t
    | _ => .oob

/-- `available_fds`, /repo/src/compat/imsg.c lines 46-69: the table afterwards and the value returned, 0 if the descriptors are available. -/
def availableFds (limit : Nat) (grant : Nat → Bool) (n : Nat) (t : FdTable) : Res (FdTable × Nat) :=
  if n > 256 then .ok (t, 1)
  else do
    let (t, a, ret) := availOpen limit grant 0 n t (List.replicate 256 none)
    let t ← availClose 0 n t a
    pure (t, ret)

/-- `imsg_init`, /repo/src/compat/imsg.c lines 71-79, with `msgbuf_init`, /repo/src/compat/imsg-buffer.c lines 216-222: both halves. -/
def imsgInit : Msgbuf × ImsgRd := ({}, {})

/-- What `recvmsg` answers, /repo/src/compat/imsg.c line 115: bytes and files that were sent with them, or an error; `EINTR` and `EAGAIN` are `retry`. -/
inductive RecvAns where
  | got (d : Bytes) (files : List Nat)
  | retry
  | error
  deriving Repr, DecidableEq

/-- Descriptors made for the files received, by the kernel; what finds no number is dropped (`MSG_CTRUNC`). -/
def installFds (limit : Nat) : FdTable → List Nat → FdTable × List Nat
  | t, [] => (t, [])
  | t, f :: fs =>
    match lowestFree limit t with
    | some fd => ((installFds limit (t ++ [(fd, f)]) fs).1, fd :: (installFds limit (t ++ [(fd, f)]) fs).2)
    | none => (t, [])

/-- `imsg_fd_overhead + (CMSG_SPACE(sizeof(int)) - CMSG_SPACE(0)) / sizeof(int)`, /repo/src/compat/imsg.c lines 34 and 108-109: 24 - 16 bytes, where
`size_t` has eight bytes; also the number of descriptors for which the control buffer (lines 86-89) has room. -/
def CMSG_FDS : Nat := 0 + (24 - 16) / 4

/-- `imsg_read`, /repo/src/compat/imsg.c lines 81-157: the value returned, the descriptor table and the buffer.  The list has one element for each pass through
`again`: which sockets `available_fds` gets, and what `recvmsg` answers; `stuck` when it runs out.  Simplifications: `calloc` succeeds; all descriptors
received come in one control message. -/
def imsgReadCall (limit : Nat) : List ((Nat → Bool) × RecvAns) → FdTable → ImsgRd → Res (Int × FdTable × ImsgRd)
  | [], _, _ => .stuck
  | (grant, ans) :: rest, t, r => do
    let (t, short) ← availableFds limit grant CMSG_FDS t
    if short ≠ 0 then pure (-1, t, r)
    else
      match ans with
      | .retry => imsgReadCall limit rest t r
      | .error => pure (-1, t, r)
      | .got d files =>
        let (t, fds) := installFds limit t (files.take CMSG_FDS)
        let r ← imsgRead r d fds
        pure (d.length, (fds.drop 1).foldl closeFd t, r)

end Ladvd
