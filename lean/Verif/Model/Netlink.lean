import Verif.Model.Send
import Verif.Model.Parent
/-!
# Link notifications of the kernel

`child_link` and `child_link_cb` of /repo/src/child.c, the variant with libmnl.
-/

namespace Ladvd

/-- A message in a netlink datagram, as libmnl hands it to the callback, /repo/src/child.c line 575: type and flags of its header, and its payload.
`k` and `m` are the answers of the system while the message is handled.  Simplification: the bytes of the header are not modelled, libmnl has split
the datagram into messages. -/
structure NlMsg where
  type : Nat
  flags : Nat := 0
  payload : Bytes
  k : Kernel
  m : Media := {}

/-- `child_link_cb`, /repo/src/child.c lines 575-590: `ifi_type` at offset 2, `ifi_index` at 4, `ifi_flags` at 8 of `struct ifinfomsg`; reading
behind the payload is `oob`.  The index of all interfaces is `NETIF_INDEX_MAX`, /repo/src/common.h line 111. -/
def childLinkCb (c : Conf) (d : Daemon) (x : NlMsg) : Res Daemon := do
  let ty ← rd x.payload 2 2
  if leNat ty ≠ 1 then return d
  let fl ← rd x.payload 8 4
  if leNat fl &&& (0x40 ||| 0x10000) ≠ (0x40 ||| 0x10000) then return d
  let ix ← rd x.payload 4 4
  sendRound c x.k x.m (if leNat ix = 2 ^ 32 - 1 then none else some (leNat ix)) d

/-- `mnl_cb_run` as called in /repo/src/child.c line 601, over the messages of a datagram; libmnl is not part of /repo, this is its documented
behaviour without checks of sequence and port: an interrupted dump (`NLM_F_DUMP_INTR`) is an error, messages of type 16 and above go to the callback,
of the control messages `NLMSG_ERROR` and `NLMSG_DONE` end the run, the others are skipped.  The result tells whether the value returned is
positive. -/
def nlRun (c : Conf) : List NlMsg → Daemon → Res (Daemon × Bool)
  | [], d => .ok (d, true)
  | x :: xs, d =>
    if x.flags.testBit 4 then .ok (d, false)
    else if x.type ≥ 16 then (childLinkCb c d x).bind (nlRun c xs)
    else if x.type = 2 ∨ x.type = 3 then .ok (d, false)
    else nlRun c xs d

/-- The loop of `child_link`, /repo/src/child.c lines 600-604: the results of the calls of `mnl_socket_recvfrom`, a datagram or an error, until the
socket is empty.  Result: the state and what is left unread in the socket. -/
def childLink (c : Conf) : List (Option (List NlMsg)) → Daemon → Res (Daemon × List (Option (List NlMsg)))
  | [], d => .ok (d, [])
  | none :: q, d => .ok (d, q)
  | some xs :: q, d => (nlRun c xs d).bind (fun r => if r.2 then childLink c q r.1 else .ok (r.1, q))

/-- `child_link` is an event handler with `EV_PERSIST`, /repo/src/child.c lines 146-152: it is called as long as the socket is readable, at most once
for each of the results. -/
def childLinks (c : Conf) : Nat → List (Option (List NlMsg)) → Daemon → Res Daemon
  | 0, _, d => .ok d
  | _, [], d => .ok d
  | n + 1, q, d => (childLink c q d).bind (fun r => childLinks c n r.2 r.1)

end Ladvd
