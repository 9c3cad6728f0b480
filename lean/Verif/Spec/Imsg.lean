import Verif.Model.Imsg
/-!
# Specification of message passing

The two ends of a stream socket, the socket itself after unix(7) and sendmsg(2), and what arriving intact means.
-/

namespace Ladvd.Spec

/-- What travels through the socket: bytes, and descriptors in front of the first byte they were sent with. -/
inductive Item where
  | byte (b : UInt8)
  | fd (n : Nat)
  deriving Repr, DecidableEq

/-- The bytes, in order. -/
def bytesIn (s : List Item) : Bytes := s.filterMap (fun i => match i with | .byte b => some b | .fd _ => none)

/-- The descriptors, in order. -/
def fdsIn (s : List Item) : List Nat := s.filterMap (fun i => match i with | .byte _ => none | .fd n => some n)

/-- A message. -/
structure Message where
  type : Nat := 0
  peerid : Nat := 0
  pid : Nat := 0
  fd : Option Nat := none
  data : Bytes := []
  deriving Repr, DecidableEq

/-- Two processes connected by a socket: `sent` are the messages accepted for sending, `got` the messages obtained at the other end. -/
structure Line where
  w : Msgbuf := {}
  wire : List Item := []
  r : ImsgRd := {}
  sent : List Message := []
  got : List Message := []
  deriving Repr, DecidableEq

/-- What happens, in any order: the sender composes a message, from one piece of data or from several, or writes, where the kernel takes up to `n`
bytes; the receiver reads, where the kernel delivers the next `k` items; the receiver asks for a message. -/
inductive LineOp where
  | compose (m : Message)
  | composev (m : Message) (iov : List Bytes)
  | write (n : Nat)
  | read (k : Nat)
  | get
  deriving Repr, DecidableEq

/-- A message whose sender is left open (0) is sent in the name of the process `own`. -/
def Message.signed (own : Nat) (m : Message) : Message := { m with pid := if m.pid = 0 then own else m.pid }

/-- A composed message is added to `sent` unless the call fails. -/
def Line.queue (l : Line) (m : Message) (r : Res Msgbuf) : Res Line :=
  match r with
  | .ok w => .ok { l with w := w, sent := l.sent ++ [m.signed l.w.pid] }
  | .fail => .ok l
  | .oob => .oob
  | .abort => .abort
  | .stuck => .stuck

/-- The sender offers bytes with at most one descriptor; the kernel takes at least one byte, with the descriptor, or nothing.  The receiver offers
room for some bytes and for one descriptor; the kernel delivers no more than that. -/
def Line.step (l : Line) : LineOp → Res Line
  | .compose m => l.queue m (imsgCompose l.w m.type m.peerid m.pid m.fd m.data)
  | .composev m iov => l.queue { m with data := iov.flatten } (imsgComposev l.w m.type m.peerid m.pid m.fd iov)
  | .write n =>
    let t := l.w.sendArgs.1.take n
    match msgbufWrite l.w t.length with
    | .ok w => .ok { l with w := w, wire := l.wire ++ (l.w.sendArgs.2.toList.map Item.fd ++ t.map Item.byte) }
    | .fail => .ok l
    | .oob => .oob
    | .abort => .abort
    | .stuck => .stuck
  | .read k =>
    let a := l.wire.take k
    if (bytesIn a).length ≤ l.r.room ∧ (fdsIn a).length ≤ 1 then do
      let r ← imsgRead l.r (bytesIn a) (fdsIn a)
      pure { l with r := r, wire := l.wire.drop k }
    else .ok l
  | .get => do
    let (r, g) ← imsgGet l.r
    pure { l with r := r, got := l.got ++ (g.map (fun g => ⟨g.hdr.type, g.hdr.peerid, g.hdr.pid, g.fd, g.data⟩)).toList }

/-- Any number of steps. -/
def Line.run (l : Line) : List LineOp → Res Line
  | [] => .ok l
  | o :: os => (l.step o).bind (fun l => l.run os)

/-- Arguments in the range of their C types: `uint32_t` and `pid_t`, and lengths up to 65535. -/
def LineOp.Ok : LineOp → Prop
  | .compose m => m.type < 2 ^ 32 ∧ m.peerid < 2 ^ 32 ∧ m.pid < 2 ^ 32 ∧ m.data.length < 65536
  | .composev m iov => m.type < 2 ^ 32 ∧ m.peerid < 2 ^ 32 ∧ m.pid < 2 ^ 32 ∧ ∀ d ∈ iov, d.length < 65536
  | _ => True

/-- The descriptors of messages. -/
def fdsOf (ms : List Message) : List Nat := ms.filterMap (·.fd)

end Ladvd.Spec
