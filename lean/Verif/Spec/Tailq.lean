import Verif.Model.Tailq
/-!
# Specification of linked lists

The addresses of a list in order determine every pointer of a well-formed tail queue.
-/

namespace Ladvd.Spec

/-- The elements in order, beginning with the one that the location `p` points to; the last one points to `n`. -/
def Seg (mem : Nat → Option TqEntry) : Loc → List Nat → Option Nat → Prop
  | _, [], _ => True
  | p, a :: as, n => mem a = some ⟨as.head?.or n, some p⟩ ∧ Seg mem (.next a) as n

/-- The location of the last `next` pointer. -/
def endLoc : Loc → List Nat → Loc
  | p, [] => p
  | _, a :: as => endLoc (.next a) as

/-- The pointers form the list of these elements. -/
structure IsQueue (q : Tailq) (as : List Nat) : Prop where
  nodup : as.Nodup
  first : q.first = as.head?
  last : q.last = endLoc .first as
  seg : Seg q.mem .first as none

/-- The pointers form a list, nothing else is allocated, and the contents are those of a table. -/
structure Represents (t : PTable) (as : List Nat) (l : List Entry) : Prop where
  queue : IsQueue t.q as
  exact : ∀ a, (t.q.mem a).isSome ↔ a ∈ as
  data : as.map t.data = l

/-- The address that `malloc` would return. -/
def newAddr : PtOp → Option Nat
  | .put _ new => some new
  | .expire _ => none

/-- The same history on a list: a message replaces the entry of its neighbour, or is inserted behind the last entry of the same source on the
same interface, or at the end; entries expire. -/
def tableStep (l : List Entry) : PtOp → List Entry
  | .put e _ => queuePut l e
  | .expire now => l.filter (keeps now)

/-- A history on a list. -/
def tableRun (l : List Entry) (ops : List PtOp) : List Entry := ops.foldl tableStep l

end Ladvd.Spec
