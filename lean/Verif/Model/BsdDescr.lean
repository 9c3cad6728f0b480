import Verif.Model.Alias
import Verif.Model.Bsd
/-!
# Requests to the privileged process on FreeBSD

Compiled without `HAVE_SYSFS`, `HAVE_LINUX_ETHTOOL_H` and `HAVE_LIBTEAM`, with `SIOCSIFDESCR`.
-/

namespace Ladvd

/-- What the privileged process asks the system: as on Linux (only sockets and names are used), and whether `SIOCSIFDESCR` with the bytes of the buffer
succeeds for an interface of that name. -/
structure BPEnv where
  base : PEnv
  setDescr : Bytes → Bytes → Bool

/-- A call of `SIOCSIFDESCR`: the name of the interface and the bytes of the buffer. -/
abbrev DescrCall := Bytes × Bytes

/-- `parent_descr`, /repo/src/parent.c lines 510-530 with `__FreeBSD__`: the buffer afterwards, the return value, the call. -/
def bsdParentDescr (env : BPEnv) (name buf : Bytes) (len : Nat) : Res (Bytes × Nat × DescrCall) := do
  let buf ← wr buf 64 [0]
  let nm := name.take 15
  let arg := buf.take len
  pure (buf, if env.setDescr nm arg then len else 0, (nm, arg))

/-- `parent_check`, /repo/src/parent.c lines 264-307, as compiled on FreeBSD: `false` for a failed assertion and for `EXIT_FAILURE`, both of which end the
process. -/
def bsdParentCheck (r : Req) : Bool :=
  decide (r.len ≤ 1518) && decide (r.op < 9) &&
    (if r.op = 0 then true
     else if r.op = 1 then true
     else if r.op = 2 then decide (r.len ≤ 64)
     else false)

/-- The `switch` of `parent_req`, /repo/src/parent.c lines 213-255, as compiled on FreeBSD (lines 215-223 and 232-236 remain): the buffer, the
length, the calls.  Simplification: the multicast memberships of `parent_open` and `parent_close` are those of Linux; those of FreeBSD are modelled in `BsdMulti.lean`. -/
def bsdParentOp (c : Conf) (env : BPEnv) (r : Req) (name : Bytes) (s : Parent) : Res (Parent × Bytes × Nat × List DescrCall) :=
  if r.op = 0 then
    match rfdByIndex s r.index with
    | some _ => .ok (s, r.buf, r.len, [])
    | none => do
      let o ← parentOpen c env.base r.index name s
      pure (o.getD s, r.buf, r.len, [])
  else if r.op = 1 then
    match rfdByIndex s r.index with
    | none => .ok (s, r.buf, r.len, [])
    | some f => .ok (parentClose c env.base f s, r.buf, r.len, [])
  else if r.op = 2 then do
    let (buf, n, call) ← bsdParentDescr env name r.buf r.len
    pure (s, buf, n, [call])
  else .abort

/-- `parent_req`, /repo/src/parent.c lines 192-261, on FreeBSD. -/
def bsdParentReq (c : Conf) (env : BPEnv) (s : Parent) (dg : Bytes) : Res (Parent × Bytes × List DescrCall) :=
  let (m, n) := recvInto REQ_MAX dg
  let r := reqOf m
  if n < REQ_MIN ∨ n ≠ reqLen r.len then .abort
  else
    match env.base.ifName r.index with
    | none => do
      let b ← reply { r with len := 0 }
      pure (s, b, [])
    | some name => do
      let nm ← wr r.name 0 (name ++ [0])
      if !bsdParentCheck r then .abort
      else do
        let (s, buf, n, calls) ← bsdParentOp c env r name s
        let b ← reply { r with name := nm, len := n, buf := buf }
        pure (s, b, calls)

/-- What becomes of a request of `netif_descr`, /repo/src/util.c lines 430-436, on FreeBSD. -/
def bsdServe (c : Conf) (env : BPEnv) (s : Parent) (r : Nat × Bytes) : Res (List DescrCall) :=
  (bsdParentReq c env s (descrReq r)).bind fun x => (mreqReply x.2.1).bind fun _ => .ok x.2.2

end Ladvd
