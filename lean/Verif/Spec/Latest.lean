import Verif.Spec.Table
import Verif.Model.Send
import Verif.Model.Cli
/-!
# The latest advertisement of a neighbour
-/

namespace Ladvd.Spec

/-- Neighbours are told apart by interface, protocol, destination and source. -/
abbrev Key := Nat × Nat × Bytes × Bytes

/-- What a message received at `t` says about whom, if it is a valid advertisement that arrives on an interface in `l` and not from one of our own addresses. -/
def offer (l : List Netif) (t : Int) (r : RawMsg) : Option (Key × Info) :=
  if (r.size : Int) = 40 + r.len ∧ 0 ≤ r.len ∧ r.len ≤ 1518 ∧ ∀ n ∈ l, n.hwaddr ≠ (r.msg.drop 6).take 6 then
    match l.find? (fun n => n.index == r.index), Proto.ofNum r.proto with
    | some n, some p =>
      match p.decode false (r.msg ++ [1, 0]) r.len.toNat { proto := r.proto } with
      | .ok (m, len) =>
        if len = 0 then none
        else some ((r.index, m.proto, r.msg.take 6, (r.msg.drop 6).take 6), ⟨n.name, t, m.ttl, r.msg.take r.len.toNat, m.peer⟩)
      | _ => none
    | _, _ => none
  else none

/-- What is known about `k` after a message, if it was `i` before: a lifetime of zero says goodbye. -/
def learnt (k : Key) (l : List Netif) (now : Option Int) (r : RawMsg) (i : Option Info) : Option Info :=
  match now.bind (fun t => offer l t r) with
  | some (k', i') => if k' = k then if i'.ttl = 0 then none else some i' else i
  | none => i

/-- The latest advertisement of `k` in a sequence of events; `l` are the interfaces.  Neither clients nor expiry nor other neighbours play a role. -/
def latest (k : Key) : List ChildOp → List Netif → Option Info → Option Info
  | [], _, i => i
  | .recv now r :: ops, l, i => latest k ops l (learnt k l now r i)
  | .fetch l :: ops, _, i => latest k ops l i
  | _ :: ops, l, i => latest k ops l i

/-- Information whose lifetime has not ended at `now`. -/
def unexpired (now : Int) (i : Option Info) : Option Info := i.filter (fun x => decide (now ≤ x.received + x.ttl))

/-- The clock of an event does not exceed `now`, and exceeds the time stamp in the message (which is zero for captured frames). -/
def Until (now : Int) : ChildOp → Prop
  | .recv (some t) r => r.received < t ∧ t ≤ now
  | .expire t => t ≤ now
  | _ => True

/-- The event concerns `k` or the list of interfaces. -/
def concerns (k : Key) : ChildOp → Bool
  | .recv _ r => decide ((r.index, r.msg.take 6, (r.msg.drop 6).take 6) = (k.1, k.2.2))
  | .fetch _ => true
  | _ => false

/-- What an event of the process adds. -/
def learntAt (k : Key) (l : List Netif) : Event → Option Info → Option Info
  | .recv now r, i => learnt k l now r i
  | _, i => i

/-- The same for the whole process: the interfaces are those the process has when the message arrives. -/
def daemonLatest (c : Conf) (k : Key) : List Event → Daemon → Option Info → Option Info
  | [], _, i => i
  | e :: es, d, i =>
    match daemonStep c d e with
    | .ok d' => daemonLatest c k es d' (learntAt k d.child.netifs e i)
    | _ => i

/-- `Until` for events of the process. -/
def EventUntil (now : Int) : Event → Prop
  | .recv (some t) r => r.received < t ∧ t ≤ now
  | .timer _ _ t => t ≤ now
  | _ => True

/-- The client is asked for neighbours on this interface with this protocol. -/
def askedFor (c : CliConf) (k : Key) : Bool :=
  (match c.indexes with | none => true | some l => l.contains k.1) && c.protos.testBit k.2.1

/-- The row for a neighbour at a time `now`. -/
def row (now : Int) (x : Key × Info) : Shown :=
  { index := x.1.1, name := x.2.name, proto := x.1.2.1, ttl := x.2.ttl, hold := (x.2.ttl - (now - x.2.received)).toNat, peer := x.2.peer, frame := x.2.frame }

end Ladvd.Spec
