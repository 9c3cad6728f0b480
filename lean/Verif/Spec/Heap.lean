import Verif.Model.Heap
/-!
# Specification of the memory of the receiving process

What the pointers of a table entry stand for, when the blocks that are allocated are exactly the ones the table refers to,
and what the table shows.
-/

namespace Ladvd.Spec

/-- The text that the `i`-th pointer of an entry refers to. -/
def textAt (h : Heap) (ps : List (Option Nat)) (i : Nat) : Option Bytes := (ps[i]?.getD none).bind h.at

/-- The peer data that the eight pointers refer to. -/
def peerTexts (h : Heap) (ps : List (Option Nat)) : Peer where
  hostname := textAt h ps 0
  portname := textAt h ps 1
  portdescr := textAt h ps 2
  cap := textAt h ps 3
  inet4 := textAt h ps 4
  inet6 := textAt h ps 5
  mac := textAt h ps 6
  vlan := textAt h ps 7

/-- A table entry with its texts instead of the pointers. -/
def entryTexts (h : Heap) (q : HEntry) : Entry := { q.e with peer := peerTexts h q.peer }

/-- Everything that the table points to, with repetitions. -/
def pointers (q : List HEntry) : List Nat := q.flatMap (fun x => x.peer.filterMap id)

/-- The addresses of the blocks that are allocated. -/
def allocated (h : Heap) : List Nat := h.live.map (·.1)

/-- Each allocated block belongs to one pointer of one entry, and each pointer refers to an allocated block; likewise the
entries and sessions. -/
structure Owned (st : HChild) : Prop where
  /-- no two pointers share a block -/
  once : (pointers st.queue).Nodup
  /-- nothing is allocated twice -/
  distinct : (allocated st.heap).Nodup
  /-- nothing leaks and nothing dangles -/
  exact : ∀ p, p ∈ allocated st.heap ↔ p ∈ pointers st.queue
  /-- each entry and each session has an allocation of its own, and there are no others -/
  objects : (st.objs).Perm (st.queue.map (·.e.id) ++ st.sessions.map (·.sid))
  /-- no two entries or sessions share an allocation -/
  objectsOnce : (st.objs).Nodup

/-- A record without the peer data, i.e. what is written to clients (/repo/src/common.h line 300). -/
def withoutPeer (e : Entry) : Entry := { e with peer := {} }

/-- The memory-level state shows the same as a state in which the texts are values. -/
structure Shows (h : HChild) (c : Child) : Prop where
  netifs : h.netifs = c.netifs
  queue : h.queue.map (entryTexts h.heap) = c.queue
  sessions : h.sessions = c.sessions
  nextId : h.nextId = c.nextId
  out : h.out = c.out
  sent : h.sent = c.sent.map (fun x => (x.1, withoutPeer x.2))

end Ladvd.Spec
