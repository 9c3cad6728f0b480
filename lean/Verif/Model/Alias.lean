import Verif.Model.Parent
/-!
# Interface descriptions between the two processes

The requests of the unprivileged process that concern the description of an interface, and what becomes of the replies.
-/

namespace Ladvd

/-- What `my_mreq` writes, /repo/src/util.c line 289, for a request of which `op`, `index`, `len` and `buf` are set and the rest is zero. -/
def mreqBytes (op : UInt8) (index : Nat) (buf : Bytes) : Bytes := reqBytes { op := op, index := index, len := buf.length, buf := buf }

/-- The request made by `netif_descr`, /repo/src/util.c lines 430-436: the text with its NUL. -/
def descrReq (r : Nat × Bytes) : Bytes := mreqBytes 2 r.1 (r.2 ++ [0])

/-- The request made by `netif_fetch`, /repo/src/netif.c lines 83 and 213-217.  The structure is not cleared between two interfaces: `left` is the
reply to the previous request. -/
def aliasReq (index : Nat) (left : Bytes) : Bytes := mreqBytes 3 index left

/-- The alias of an interface as `netif_fetch` learns it, /repo/src/netif.c lines 213-218: `none` if `my_mreq` returns 0, otherwise the buffer that is
copied. -/
def fetchAlias (c : Conf) (env : PEnv) (s : Parent) (index : Nat) (left : Bytes) : Res (Option Bytes) :=
  (parentReq c env s (aliasReq index left)).bind fun x => (mreqReply x.2).bind fun r => .ok (if r.len = 0 then none else some r.buf)

/-- What `parent_req` does for a request of `netif_descr`, /repo/src/util.c lines 430-436 and /repo/src/parent.c lines 192-261.  `netif_descr` ignores the
reply except for logging a failure. -/
def serveDescr (c : Conf) (env : PEnv) (s : Parent) (r : Nat × Bytes) : Res Parent :=
  (parentReq c env s (descrReq r)).bind fun x => (mreqReply x.2).bind fun _ => .ok x.1

end Ladvd
