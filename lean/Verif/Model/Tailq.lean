import Verif.Model.Child
/-!
# Model: the linked lists of compat/sys-queue.h, on the level of pointers

Elements are addresses.  A `struct type **` of a tail queue points to the `tqh_first` of the head or to the `tqe_next` of an element.
Only the macros used by ladvd are modelled.  `_Q_INVALIDATE` does nothing in the configuration that is built
(/repo/src/compat/sys-queue.h lines 170-174).
-/

namespace Ladvd

/-- What `tqh_last` and `tqe_prev` point to, /repo/src/compat/sys-queue.h lines 391-404. -/
inductive Loc where
  | first
  | next (a : Nat)
  deriving Repr, DecidableEq

/-- `TAILQ_ENTRY`, /repo/src/compat/sys-queue.h lines 400-404. -/
structure TqEntry where
  next : Option Nat
  prev : Option Loc
  deriving Repr, DecidableEq

/-- `TAILQ_HEAD`, /repo/src/compat/sys-queue.h lines 391-395, with the memory of the elements: an address that is not allocated has no
entry. -/
structure Tailq where
  first : Option Nat
  last : Loc
  mem : Nat → Option TqEntry

namespace Tailq

/-- `TAILQ_INIT`, /repo/src/compat/sys-queue.h lines 433-436, with nothing allocated. -/
def init : Tailq := ⟨none, .first, fun _ => none⟩

/-- `elm->field`. -/
def get (q : Tailq) (a : Nat) : Res TqEntry :=
  match q.mem a with
  | none => .oob
  | some l => .ok l

/-- `elm->field = ..`. -/
def set (q : Tailq) (a : Nat) (l : TqEntry) : Tailq := { q with mem := fun x => if x = a then some l else q.mem x }

/-- `elm->field.tqe_next = v`. -/
def setNext (q : Tailq) (a : Nat) (v : Option Nat) : Res Tailq := (q.get a).bind (fun l => .ok (q.set a { l with next := v }))

/-- `elm->field.tqe_prev = v`. -/
def setPrev (q : Tailq) (a : Nat) (v : Option Loc) : Res Tailq := (q.get a).bind (fun l => .ok (q.set a { l with prev := v }))

/-- `*p = v` for a `struct type **p`. -/
def store (q : Tailq) (p : Loc) (v : Option Nat) : Res Tailq :=
  match p with
  | .first => .ok { q with first := v }
  | .next a => q.setNext a v

/-- `TAILQ_INSERT_TAIL`, /repo/src/compat/sys-queue.h lines 448-453. -/
def insertTail (q : Tailq) (e : Nat) : Res Tailq :=
  (q.setNext e none).bind (fun q =>
  (q.setPrev e (some q.last)).bind (fun q =>
  (q.store q.last (some e)).bind (fun q =>
    .ok { q with last := .next e })))

/-- `TAILQ_INSERT_AFTER`, /repo/src/compat/sys-queue.h lines 455-463. -/
def insertAfter (q : Tailq) (at_ e : Nat) : Res Tailq :=
  (q.get at_).bind (fun l =>
  (q.setNext e l.next).bind (fun q =>
  (match l.next with
    | some n => q.setPrev n (some (.next e))
    | none => .ok { q with last := .next e }).bind (fun q =>
  (q.setNext at_ (some e)).bind (fun q =>
    q.setPrev e (some (.next at_))))))

/-- `TAILQ_REMOVE`, /repo/src/compat/sys-queue.h lines 472-481.  A null `tqe_prev` is dereferenced. -/
def remove (q : Tailq) (e : Nat) : Res Tailq :=
  (q.get e).bind (fun l =>
    match l.prev with
    | none => .oob
    | some p =>
      (match l.next with
        | some n => q.setPrev n (some p)
        | none => .ok { q with last := p }).bind (fun q =>
      (q.get e).bind (fun l => q.store p l.next)))

/-- `malloc` returning the address `a`, set to zero, /repo/src/util.c lines 80-87.  `malloc` does not return memory in use: this is not
a possible event (`fail`). -/
def malloc (q : Tailq) (a : Nat) : Res Tailq :=
  match q.mem a with
  | some _ => .fail
  | none => .ok (q.set a ⟨none, none⟩)

/-- `free`. -/
def free (q : Tailq) (a : Nat) : Res Tailq :=
  match q.mem a with
  | none => .oob
  | some _ => .ok { q with mem := fun x => if x = a then none else q.mem x }

/-- `TAILQ_FOREACH` from an element on, /repo/src/compat/sys-queue.h lines 420-423: the elements visited. `fuel` bounds the number of
iterations. -/
def walk (q : Tailq) : Nat → Option Nat → Res (List Nat)
  | _, none => .ok []
  | 0, some _ => .stuck
  | fuel + 1, some a => (q.get a).bind (fun l => (q.walk fuel l.next).bind (fun r => .ok (a :: r)))

/-- `TAILQ_FOREACH_SAFE` with a body that removes and releases some elements, /repo/src/compat/compat.h lines 45-48, as in
/repo/src/child.c lines 421-439 and 467-471, /repo/src/netif.c lines 237-251 and /repo/src/parent.h lines 82-84. -/
def sweep (dead : Nat → Bool) : Nat → Option Nat → Tailq → Res Tailq
  | _, none, q => .ok q
  | 0, some _, _ => .stuck
  | fuel + 1, some a, q =>
    (q.get a).bind (fun l =>
      if dead a then (q.remove a).bind (fun q => (q.free a).bind (fun q => sweep dead fuel l.next q))
      else sweep dead fuel l.next q)

end Tailq

/-! ## The neighbour table -/

/-- `mqueue`, /repo/src/child.c line 45: `data` are the fields of an element other than `entries`. -/
structure PTable where
  q : Tailq := .init
  data : Nat → Entry

/-- The search loop of `child_queue`, /repo/src/child.c lines 341-365: `msg` and `pmsg`. -/
def ptScan (t : PTable) (index proto : Nat) (a : Bytes) : Nat → Option Nat → Option Nat → Res (Option Nat × Option Nat)
  | _, none, pm => .ok (none, pm)
  | 0, some _, _ => .stuck
  | fuel + 1, some p, pm =>
    (t.q.get p).bind (fun l =>
      let e := t.data p
      if index ≠ e.index then ptScan t index proto a fuel l.next pm
      else
        let pm := if a.drop 6 = (e.msg.drop 6).take 6 then some p else pm
        if proto ≠ e.proto then ptScan t index proto a fuel l.next pm
        else if a ≠ e.msg.take 12 then ptScan t index proto a fuel l.next pm
        else .ok (some p, pm))

/-- Replacement or insertion, /repo/src/child.c lines 341-381: `new` is what `malloc` returns if it is called. -/
def ptPut (fuel : Nat) (t : PTable) (e : Entry) (new : Nat) : Res PTable :=
  (ptScan t e.index e.proto (e.msg.take 12) fuel t.q.first none).bind (fun (msg, pmsg) =>
    match msg with
    | some p => .ok { t with data := fun x => if x = p then { e with id := (t.data p).id } else t.data x }
    | none =>
      (t.q.malloc new).bind (fun q =>
      (match pmsg with
        | some p => q.insertAfter p new
        | none => q.insertTail new).bind (fun q =>
          .ok ⟨q, fun x => if x = new then e else t.data x⟩)))

/-- The removal loop of `child_expire`, /repo/src/child.c lines 420-439. -/
def ptExpire (fuel : Nat) (now : Int) (t : PTable) : Res PTable :=
  (Tailq.sweep (fun a => !keeps now (t.data a)) fuel t.q.first t.q).bind (fun q => .ok { t with q := q })

/-- What changes the list: a message is stored (with the address that `malloc` returns), entries expire. -/
inductive PtOp where
  | put (e : Entry) (new : Nat)
  | expire (now : Int)

/-- One of them. -/
def ptStep (fuel : Nat) (t : PTable) : PtOp → Res PTable
  | .put e new => ptPut fuel t e new
  | .expire now => ptExpire fuel now t

/-- A history, /repo/src/child.c line 157. -/
def ptRun (fuel : Nat) : PTable → List PtOp → Res PTable
  | t, [] => .ok t
  | t, op :: ops => (ptStep fuel t op).bind (fun t => ptRun fuel t ops)

end Ladvd
