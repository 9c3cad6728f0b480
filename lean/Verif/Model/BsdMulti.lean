import Verif.Model.Parent
/-!
# Multicast groups on FreeBSD

`parent_multi`, /repo/src/parent.c lines 708-766, with `AF_LINK` and without `AF_PACKET`.  The groups belong to the interface, not to the raw socket.
-/

namespace Ladvd

/-- `ETHER_IS_MULTICAST`, /repo/src/ether.h: bit 0 of the first byte. -/
def etherMulticast (a : Bytes) : Bool := a.headD 0 &&& 1 != 0

/-- The `ioctl` calls of the loop, /repo/src/parent.c lines 722-764: `true` is `SIOCADDMULTI`, `false` is `SIOCDELMULTI`.  `op` is not changed here. -/
def bsdMultiLoop (c : Conf) (op : Nat) : List Proto → List (Bool × Bytes)
  | [] => []
  | p :: ps =>
    if !c.enabled p && !c.opts.has OPT_AUTO then bsdMultiLoop c op ps
    else if !etherMulticast p.dst then bsdMultiLoop c op ps
    else (op ≠ 0, p.dst) :: bsdMultiLoop c op ps

/-- The kernel's handling of one call: a group that is there cannot be added (`EADDRINUSE`), one that is not there cannot be deleted; failures are
only logged.  Simplification: there are no other failures. -/
def bsdMember (groups : List Bytes) (a : Bool × Bytes) : List Bytes :=
  if a.1 then (if a.2 ∈ groups then groups else groups ++ [a.2]) else groups.erase a.2

/-- `parent_multi` for one interface with the given groups. -/
def bsdMulti (c : Conf) (op : Nat) (groups : List Bytes) : List Bytes :=
  if c.opts.has OPT_DEBUG then groups else (bsdMultiLoop c op protoTable).foldl bsdMember groups

/-- The calls of `parent_multi` by `parent_open` (`true`) and `parent_close` (`false`), /repo/src/parent.c lines 374-380 and 393-395, for the interface
of a name, on the groups of all interfaces. -/
def bsdMembership (c : Conf) (g : Bytes → List Bytes) (ev : Bool × Bytes) : Bytes → List Bytes :=
  if listens c then fun name => if name = ev.2 then bsdMulti c (if ev.1 then 1 else 0) (g name) else g name else g

end Ladvd
