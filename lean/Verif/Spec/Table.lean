import Verif.Model.Child
/-!
# Specification of the neighbour table
-/

namespace Ladvd.Spec

/-- What identifies an entry: interface, protocol, destination and source address. -/
def neighbour (e : Entry) : Nat × Nat × Bytes × Bytes :=
  (e.index, e.proto, e.msg.take 6, (e.msg.drop 6).take 6)

/-- The neighbouring system: interface and source address. -/
def system (e : Entry) : Nat × Bytes := (e.index, (e.msg.drop 6).take 6)

/-- Between two entries of one system there are only entries of that system. -/
def Grouped (q : List Entry) : Prop :=
  ∀ x y z, [x, y, z].Sublist q → system x = system z → system y = system x

/-- What the table says about a neighbour. -/
structure Info where
  name : Bytes
  received : Int
  ttl : Nat
  frame : Bytes
  peer : Peer
  deriving Repr, DecidableEq

/-- The information in an entry. -/
def info (e : Entry) : Info := ⟨e.name, e.received, e.ttl, e.msg.take e.len, e.peer⟩

/-- The table as a partial function. -/
def lookup (q : List Entry) (k : Nat × Nat × Bytes × Bytes) : Option Info :=
  (q.find? (fun e => neighbour e == k)).map info

end Ladvd.Spec
