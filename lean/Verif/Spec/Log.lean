import Verif.Model.Log
import Verif.Spec.Table
/-!
# Specification of the log
-/

namespace Ladvd.Spec

/-- How often a neighbour of this name was reported as new. -/
def reported (h : Bytes) (p : Nat) (l : List LogLine) : Nat :=
  l.countP (fun m => match m with | .newPeer h' p' _ => h' == h && p' == p | _ => false)

/-- How often it was reported as removed. -/
def dismissed (h : Bytes) (p : Nat) (l : List LogLine) : Nat :=
  l.countP (fun m => match m with | .removing h' p' => h' == h && p' == p | _ => false)

/-- How many neighbours of this name there are. -/
def present (h : Bytes) (p : Nat) (q : List Entry) : Nat := q.countP (fun e => e.peer.hostname == some h && e.proto == p)

/-- Every neighbour has one name, which all its messages carry. -/
def OneName (name : Nat × Nat × Bytes × Bytes → Option Bytes) (ops : List ChildOp) : Prop :=
  ∀ now r, ChildOp.recv now r ∈ ops → ∀ p m n, Proto.ofNum r.proto = some p →
    p.decode false (r.msg ++ [1, 0]) r.len.toNat { proto := r.proto } = .ok (m, n) → n ≠ 0 →
    m.peer.hostname = name (r.index, m.proto, r.msg.take 6, (r.msg.drop 6).take 6)

/-- The lines of a text: what is between line feeds. -/
def splitLines : Bytes → List Bytes
  | [] => []
  | b :: bs =>
    if b = 0x0a then [] :: splitLines bs
    else
      match splitLines bs with
      | [] => [[b]]
      | l :: ls => (b :: l) :: ls

/-- What arrives on the standard error. -/
def onStderr (l : List LogOut) : Bytes := l.flatMap (fun m => match m with | .stderr t => t | .syslog .. => [])

end Ladvd.Spec
